import Verif.Props.TruncateProps
/-!
C90: the text that `String` returns for a graph that cannot be written cannot be taken for a document.
-/
namespace Gographviz.Props

open Gographviz Gographviz.Lex Gographviz.Parse Spec Spec.Grammar

namespace StringErr

/-- A document begins with `graph`, `strict` or `digraph`. -/
theorem rules_first : ∀ e ∈ rules, e.1 = .DotGraph → ∃ k Xs, e.2 = Sym.t k :: Xs ∧ (k = 2 ∨ k = 5 ∨ k = 6) := by
  have h : ∀ e ∈ rules, e.1 = .DotGraph → (match e.2 with
    | .t k :: _ => decide (k = 2 ∨ k = 5 ∨ k = 6)
    | _ => false) = true := by decide +kernel
  intro e he hd
  have := h e he hd
  split at this
  · rename_i k Xs hk
    exact ⟨k, Xs, hk, of_decide_eq_true this⟩
  · cases this

theorem sentence_first {ts : List Token} (h : Sentence ts) : ∃ t us, ts = t :: us ∧ (t.typ = 2 ∨ t.typ = 5 ∨ t.typ = 6) := by
  obtain ⟨T, hT, rfl⟩ := h
  generalize hX : Sym.n NT.DotGraph = X at hT
  cases hT with
  | leaf => cases hX
  | @node N r rhs cs hr hd =>
    cases hX
    obtain ⟨k, Xs, hk, hc⟩ := rules_first _ (List.mem_of_getElem? hr) rfl
    simp only at hk
    subst hk
    cases hd with
    | cons h1 _ =>
      generalize hY : Sym.t k = Y at h1
      cases h1 with
      | node => cases hY
      | @leaf t =>
        injection hY with hY
        exact ⟨t, _, rfl, by rw [← hY]; exact hc⟩

theorem scans_error (z : Str) : Scans (b!"error" ++ 58 :: z) [] 18 (b!"error") (58 :: z) := by
  apply scans_token
  · have h : runes (b!"error") = b!"error" := by decide +kernel
    rw [h]
    refine .inr (.inr ⟨rfl, .inl ⟨⟨101, b!"rror", rfl, by decide, ?_⟩, by decide⟩⟩)
    intro x hx
    left; revert x; decide
  · exact cut_ascii_right _ (by decide) _
  · exact .inr (.inr (by rw [decodeRune_ascii (by decide)]; exact ⟨by decide, by decide, by decide⟩))

theorem not_sentence (z : Str) {ts : List Token} {e : Token} (h : tokens (b!"error: " ++ z) = some (ts ++ [e])) : ¬ Sentence ts := by
  intro hs
  obtain ⟨t, us, rfl, ht⟩ := sentence_first hs
  obtain ⟨ys, ts', h1, h2, h3⟩ := tokens_toks (b!"error: " ++ z)
  rw [h] at h2
  cases h2
  have hsc : Scans (b!"error: " ++ z) [] 18 (b!"error") (58 :: 32 :: z) := scans_error (32 :: z)
  generalize hsrc : (b!"error: " ++ z) = src at h1 hsc
  cases h1 with
  | eof h' => cases (h'.det hsc).2.1
  | cons h' _ _ =>
    have ht' := (h'.det hsc).2.1
    subst ht'
    cases h3
    simp at ht

end StringErr

/-- C90. A text that begins with `error: ` is a syntax error, whatever follows. -/
theorem C90_error_text (z : Str) (rnd : Nat → Nat) (cnt : Nat) : ∃ tok ex, parseBytes rnd cnt (b!"error: " ++ z) = .syntaxErr tok ex := by
  rcases C34_total rnd cnt (b!"error: " ++ z) with h | ⟨tok, ex, _, h, _⟩
  · obtain ⟨ts, e, h1, _⟩ := source_spec rnd cnt (b!"error: " ++ z)
    exact absurd ((C35_source_accepts rnd cnt _ h1).1 h) (StringErr.not_sentence z h1)
  · exact ⟨tok, ex, h⟩

/-- C90. What `String` returns begins with `error: ` exactly if `WriteAst` fails, and then it has the message of the error; otherwise it is the text of the
tree. For every graph. -/
theorem C90_prefix (sortE : List Edge → List Edge) (f : Nat) (g : Graph) {text : Str} (h : graphString sortE f g = .ok text) :
    ((b!"error: ") <+: text ↔ ∃ e, writeAst sortE f g = .err e) ∧
    (∀ e, writeAst sortE f g = .err e → text = b!"error: " ++ e.msg) ∧ (∀ t, writeAst sortE f g = .ok t → text = Ast.graphStr t) := by
  unfold graphString at h
  rcases hw : writeAst sortE f g with t | e | _ | _ <;> rw [hw] at h <;> cases h
  · refine ⟨⟨?_, ?_⟩, ?_, ?_⟩
    · rintro ⟨z, hz⟩
      have h1 := congrArg List.head? hz
      unfold Ast.graphStr at h1
      cases h2 : t.strict <;> cases h3 : t.type_ <;> simp [Ast.typeStr, h2, h3] at h1
    · rintro ⟨e, he⟩; cases he
    · intro e he; cases he
    · intro t' ht; cases ht; rfl
  · refine ⟨⟨fun _ => ⟨e, rfl⟩, fun _ => ⟨_, rfl⟩⟩, ?_, ?_⟩
    · intro e' he; cases he; rfl
    · intro t ht; cases ht

/-- C90. For a graph with valid names and values: `Parse` accepts what `String` returns exactly if the graph can be written. -/
theorem C90_parse {g : Graph} (h : Reachable g) (hv : ValidGraph g) {sortE : List Edge → List Edge} (hs : SortContract sortE) {f : Nat}
    {text : Str} (ht : graphString sortE f g = .ok text) (rnd : Nat → Nat) (cnt : Nat) :
    (∃ t n, parseBytes rnd cnt text = .ok t n) ↔ ∃ t, writeAst sortE f g = .ok t := by
  obtain ⟨_, he, ho⟩ := C90_prefix sortE f g ht
  rcases hw : writeAst sortE f g with t | e | _ | _
  · refine ⟨fun _ => ⟨t, rfl⟩, fun _ => ?_⟩
    rw [ho t hw, ← graphStr_map splitName_str]
    exact ⟨_, _, C36_print_parse (written_printable h hv hs hw) rnd cnt⟩
  · constructor
    · rintro ⟨t, n, hp⟩
      obtain ⟨tok, ex, h'⟩ := C90_error_text e.msg rnd cnt
      rw [he e hw, h'] at hp
      cases hp
    · rintro ⟨t, ht⟩; cases ht
  · unfold graphString at ht; rw [hw] at ht; cases ht
  · unfold graphString at ht; rw [hw] at ht; cases ht

/-- C90. `Read` never makes a graph of the text of an error. -/
theorem C90_read {g : Graph} {sortE : List Edge → List Edge} {f : Nat} {text : Str} (ht : graphString sortE f g = .ok text) {e : Err}
    (he : writeAst sortE f g = .err e) (rnd : Nat → Nat) (cnt : Nat) : Parse.read rnd cnt text = .parseErr := by
  rw [(C90_prefix sortE f g ht).2.1 e he]
  obtain ⟨tok, ex, h'⟩ := C90_error_text e.msg rnd cnt
  unfold Parse.read
  rw [h']

/-! A graph with an edge from `}` to a node that does not exist: the name is in the text of the error. -/

namespace StringErr
def dangling : Graph := (newGraph.addEdge (b!"graph {}") (b!"b") true []).1
end StringErr

theorem example_string_err : Reachable StringErr.dangling ∧ writeAst edgeInsertionSort 3 StringErr.dangling = .err (.notNodeOrSubGraph (b!"graph {}")) ∧
    graphString edgeInsertionSort 3 StringErr.dangling = .ok (b!"error: graph {} is not a node or a subgraph") ∧
    writeAst edgeInsertionSort 3 newGraph = .ok ⟨false, false, [], []⟩ := by
  refine ⟨.step (.addEdge (b!"graph {}") (b!"b") true []) .init (by simp [Op.Ok]), ?_, ?_, ?_⟩
  all_goals rfl

end Gographviz.Props
