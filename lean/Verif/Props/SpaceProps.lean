import Verif.Proofs.Space
import Verif.Props.MergeProps
import Verif.Props.ParseProps
import Verif.Props.LexProps
/-!
C92: reading a document takes space linear in its size.
-/
namespace Gographviz.Props

open Gographviz.Spec Gographviz.Spec.Space Gographviz.Spec.Meaning Gographviz.Parse Gographviz.Lex
open Gographviz.Ast (Stmt Loc EdgeRH AttrList AList Attr NodeID)

namespace Room

theorem attr_tokens {ts : List Lexeme} {a : Attr} (h : AttrM ts a) : 1 ≤ ts.length := by cases h <;> simp

theorem alist_tokens {ts : List Lexeme} {as : AList} (h : AListM ts as) : as.length ≤ ts.length := by
  induction h with
  | one h => simpa using attr_tokens h
  | snoc _ _ h ih =>
    have := attr_tokens h
    simp only [List.length_append, List.length_singleton]
    omega

theorem bracket_tokens {ts : List Lexeme} {as : AttrList} (h : BracketM ts as) : as.flatten.length ≤ ts.length := by
  cases h with
  | empty => simp
  | full h =>
    have := alist_tokens h
    simp only [List.flatten_cons, List.flatten_nil, List.append_nil, List.length_cons, List.length_append]
    omega

theorem attrList_tokens {ts : List Lexeme} {as : AttrList} (h : AttrListM ts as) : as.flatten.length ≤ ts.length := by
  induction h with
  | one h => exact bracket_tokens h
  | snoc _ h ih =>
    have := bracket_tokens h
    simp only [List.flatten_append, List.length_append]
    omega

theorem msetAll_length (m : Map Str) (es : List (Str × Str)) : (msetAll m es).length ≤ m.length + es.length := by
  induction es generalizing m with
  | nil => simp [msetAll]
  | cons e es ih =>
    have h1 := ih (mset m e.1 e.2)
    have h2 := mset_length m e.1 e.2
    simp only [msetAll, List.foldl_cons, List.length_cons] at h1 ⊢
    omega

theorem mapOf_tokens {ts : List Lexeme} {as : AttrList} (h : AttrListM ts as) : (mapOf as).length ≤ ts.length := by
  have h1 := msetAll_length [] (entries as)
  have h2 := attrList_tokens h
  simp only [entries, List.length_map, List.length_nil] at h1
  unfold mapOf entries
  omega

theorem nodeId_tokens {ts : List Lexeme} {n : NodeID} (h : NodeIdM ts n) : 1 ≤ ts.length := by cases h <;> simp

theorem createCall_length (sc : Scope) (pre : List Stmt) (seen : List Str) (n : NodeID) : (createCall sc pre seen (.node n)).length ≤ 1 := by
  simp only [createCall]
  split <;> simp

/-- The endpoint to the left of an operator appended to `rhs`, and the nodes mentioned up to it. -/
theorem chainCalls_snoc (sc : Scope) (pre : List Stmt) (m : Map Str) (op : Bool) (d : Loc) : ∀ (rhs : List EdgeRH) (seen : List Str) (prev : Loc),
    ∃ seen', (chainCalls sc pre m seen prev (rhs ++ [.mk op d])).length = (chainCalls sc pre m seen prev rhs).length + (createCall sc pre seen' d).length + 1
  | [], seen, prev => ⟨seen, by simp [chainCalls]⟩
  | .mk op' d' :: rest, seen, prev => by
    obtain ⟨seen', h⟩ := chainCalls_snoc sc pre m op d rest (seen ++ locNode d') d'
    refine ⟨seen', ?_⟩
    simp only [List.cons_append, chainCalls, List.length_append, h, List.length_singleton]
    omega

theorem rhsCalls_append (sc : Scope) (pre : List Stmt) (a b : List EdgeRH) : rhsCalls sc pre (a ++ b) = rhsCalls sc pre a ++ rhsCalls sc pre b := by
  induction a with
  | nil => simp [rhsCalls]
  | cons x a ih => cases x; simp [rhsCalls, ih]

theorem optStmts_calls {gen : Nat → Str} {c c' : Nat} {ts : List Lexeme} {b : List Stmt} (h : OptStmtsM gen c ts b c') (sc : Scope) (pre : List Stmt) :
    (stmtsCalls sc pre b).length ≤ ts.length := by
  revert sc pre
  refine OptStmtsM.rec (motive_1 := fun _ ts s _ _ => ∀ sc pre, (stmtCalls sc pre s).length ≤ ts.length)
    (motive_2 := fun _ ts d _ _ => ∀ sc pre seen, (createCall sc pre seen d).length + (locCalls sc pre d).length ≤ ts.length)
    (motive_3 := fun _ ts rhs _ _ => ∀ sc pre m seen prev, (chainCalls sc pre m seen prev rhs).length + (rhsCalls sc pre rhs).length ≤ ts.length)
    (motive_4 := fun _ ts _ b _ _ => ∀ sc, (stmtsCalls sc [] b).length + 1 ≤ ts.length)
    (motive_5 := fun _ ts b _ _ => ∀ sc pre, (stmtsCalls sc pre b).length ≤ ts.length)
    (motive_6 := fun _ ts b _ _ => ∀ sc pre, (stmtsCalls sc pre b).length ≤ ts.length)
    ?_ ?_ ?_ ?_ ?_ ?_ ?_ ?_ ?_ ?_ ?_ ?_ ?_ ?_ ?_ ?_ ?_ ?_ h
  · intros; simp [stmtCalls]
  · intro _ _ _ _ _ h _ sc pre
    have := nodeId_tokens h
    simp only [stmtCalls, List.length_singleton, List.length_append]
    omega
  · intro _ _ _ _ _ _ src rhs as _ _ _ a b sc pre
    have a := a sc pre []
    have b := b sc pre (over (mapOf as) (sc.edgeDefaults pre)) (locNode src) src
    simp only [stmtCalls, List.length_append]
    omega
  · intro _ _ _ _ h sc pre
    have := mapOf_tokens h
    simp only [stmtCalls, List.length_map, List.length_cons]
    omega
  · intros; simp [stmtCalls]
  · intros; simp [stmtCalls]
  · intro _ _ _ _ _ _ h sc pre
    simp only [stmtCalls, List.length_cons]
    exact h _
  · intro _ _ n h sc pre seen
    have := nodeId_tokens h
    have := createCall_length sc pre seen n
    simp only [locCalls, List.length_nil]
    omega
  · intro _ _ _ _ _ _ h sc pre seen
    simp only [createCall, locCalls, List.length_cons, List.length_nil, Nat.zero_add]
    exact h _
  · intro _ _ _ _ _ _ _ _ h sc pre m seen prev
    have := h sc pre seen
    simp only [chainCalls, rhsCalls, List.length_append, List.length_cons, List.length_nil]
    omega
  · intro _ _ _ _ _ _ _ op d _ _ _ a b sc pre m seen prev
    have a := a sc pre m seen prev
    obtain ⟨seen', e⟩ := chainCalls_snoc sc pre m op d _ seen prev
    have b := b sc pre seen'
    rw [e, rhsCalls_append]
    simp only [rhsCalls, List.length_append, List.length_cons, List.length_nil]
    omega
  · intro _ _ _ _ _ _ _ h sc
    have := h sc []
    simp only [List.length_cons, List.length_append, List.length_nil]
    omega
  · intro _ _ _ _ _ _ _ _ h sc
    have := h sc []
    simp only [List.length_cons, List.length_append, List.length_nil]
    omega
  · intro _ _ _ _ _ _ _ _ _ h sc
    have := h sc []
    simp only [List.length_cons, List.length_append, List.length_nil]
    omega
  · intro _ _ _ _ _ _ _ h sc pre
    have := h sc pre
    simp only [stmtsCalls, List.length_append, List.length_nil]
    omega
  · intro _ _ _ _ _ _ ss s _ _ _ a b sc pre
    have a := a sc pre
    have b := b sc (pre ++ ss)
    rw [stmtsCalls_append]
    simp only [stmtsCalls, List.length_append, List.length_nil]
    omega
  · intros; simp [stmtsCalls]
  · intro _ _ _ _ _ h sc pre
    exact h sc pre

theorem graph_calls {gen : Nat → Str} {c c' : Nat} {ts : List Lexeme} {t : Ast.Graph} (h : GraphM gen c ts t c') : (treeCalls t).length ≤ ts.length := by
  cases h with
  | @mk _ _ _ _ _ _ _ _ id _ _ _ _ h =>
    have := optStmts_calls h ⟨id, [], []⟩ []
    simp only [treeCalls, List.length_append, List.length_cons, List.length_nil]
    omega

theorem run_space {g : Graph} (h : GInv g) (ops : List Op) : GInv (g.run ops) ∧ elements (g.run ops) ≤ elements g + ops.countP Op.adds ∧
    containments (g.run ops) ≤ containments g + ops.countP Op.adds := by
  induction ops generalizing g with
  | nil => exact ⟨h, Nat.le_refl _, Nat.le_refl _⟩
  | cons op ops ih =>
    have h1 := step_space h op
    have h2 := ih (h.step op)
    simp only [Graph.run, List.countP_cons] at h2 ⊢
    refine ⟨h2.1, ?_, ?_⟩ <;> omega

theorem replay_run (g : Graph) (xs : List Call) : (replay graphIface g xs).1 = g.run (xs.map callOp) := by
  induction xs generalizing g with
  | nil => rfl
  | cons x xs ih =>
    simp only [replay, List.map_cons, Graph.run, graphIface_call]
    exact ih _

theorem source_calls {rnd : Nat → Nat} {cnt n : Nat} {src : Str} {t : Ast.Graph} (h : parseBytes rnd cnt src = .ok t n) :
    ∃ ts e, tokens src = some (ts ++ [e]) ∧ (treeCalls t).length ≤ ts.length ∧ ts.length ≤ src.length := by
  obtain ⟨ts, e, h1, _⟩ := source_spec rnd cnt src
  have h2 := graph_calls ((C35_source rnd cnt src h1 t n).1 h)
  obtain ⟨ts', h3, _, h4⟩ := C33_total src
  rw [h1] at h3
  cases h3
  simp only [List.length_append, List.length_singleton, List.length_map] at h2 h4
  exact ⟨ts, e, h1, h2, by omega⟩

theorem adds_calls (xs : List Call) : (xs.map callOp).countP Op.adds ≤ xs.length := by
  have := List.countP_le_length (p := Op.adds) (l := xs.map callOp)
  simpa using this

theorem adds_tree (t : Ast.Graph) : ((treeCalls t).map callOp).countP Op.adds + 3 ≤ (treeCalls t).length := by
  have h := adds_calls (stmtsCalls ⟨t.id, [], []⟩ [] t.stmts)
  simp only [treeCalls, List.map_append, List.map_cons, List.map_nil, List.countP_append, List.length_append, List.length_cons, List.length_nil]
  have h0 : List.countP Op.adds [callOp (.setStrict t.strict), callOp (.setDir t.type_), callOp (.setName t.id)] = 0 := by
    simp [callOp, Op.adds]
  omega

end Room

/-- C92. Whatever the history of calls, successful or not: there are no more elements and no more containments than calls of `AddNode`,
`AddEdge`, `AddPortEdge` and `AddSubGraph`, and no element has more attributes than there are registered names. -/
theorem C92_history (ops : List Op) : elements (newGraph.run ops) ≤ ops.countP Op.adds ∧ containments (newGraph.run ops) ≤ ops.countP Op.adds ∧
    attributes (newGraph.run ops) ≤ registered.length * (ops.countP Op.adds + 1) := by
  obtain ⟨hi, h1, h2⟩ := Room.run_space GInv.new ops
  have e0 : elements newGraph = 0 := rfl
  have c0 : containments newGraph = 0 := rfl
  refine ⟨by omega, by omega, Nat.le_trans (attributes_le hi) (Nat.mul_le_mul_left _ (by omega))⟩

/-- C92. Whatever implementation of `Interface` receives them: `Analyse` makes no more calls for a parsed document than the document has
tokens, and a document has no more tokens than bytes. -/
theorem C92_calls {σ : Type} (I : Iface σ) (g : σ) {rnd : Nat → Nat} {cnt n : Nat} {src : Str} {t : Ast.Graph} (h : parseBytes rnd cnt src = .ok t n) :
    ∃ ts e, tokens src = some (ts ++ [e]) ∧ (callsMade I t g).length ≤ ts.length ∧ ts.length ≤ src.length := by
  rw [callsMade_eq]
  exact Room.source_calls h

/-- C92. `Analyse` into a graph that has contents already, whether it succeeds or not: the graph grows by no more elements and
containments than the document has bytes. -/
theorem C92_analyse {g : Graph} (hg : Reachable g) {rnd : Nat → Nat} {cnt n : Nat} {src : Str} {t : Ast.Graph} (h : parseBytes rnd cnt src = .ok t n) :
    elements (analyse graphIface t g).1 ≤ elements g + src.length ∧ containments (analyse graphIface t g).1 ≤ containments g + src.length := by
  obtain ⟨ts, e, _, h1, h2⟩ := Room.source_calls h
  have h3 := Room.adds_tree t
  rw [Merge.analyse_fst, Room.replay_run]
  obtain ⟨_, h4, h5⟩ := Room.run_space hg.inv ((treeCalls t).map callOp)
  constructor <;> omega

/-- C92. A graph that has been read is no larger than the document it was read from: elements and containments are bounded by its number of
bytes, attributes by a constant times that number. -/
theorem C92_read {rnd : Nat → Nat} {cnt : Nat} {src : Str} {g : Graph} (h : Parse.read rnd cnt src = .ok g) :
    elements g + 3 ≤ src.length ∧ containments g + 3 ≤ src.length ∧ attributes g ≤ registered.length * src.length := by
  unfold Parse.read at h
  cases hp : parseBytes rnd cnt src with
  | ok t n =>
    rw [hp] at h
    simp only at h
    cases ha : newAnalysedGraph t with
    | error m => rw [ha] at h; cases h
    | ok g' =>
      rw [ha] at h
      cases h
      obtain ⟨ts, e, _, h1, h2⟩ := Room.source_calls hp
      have h3 := Room.adds_tree t
      have hg : g = newGraph.run ((treeCalls t).map callOp) := by
        rw [← Room.replay_run, ← Merge.analyse_fst]
        unfold newAnalysedGraph at ha
        rcases hr : analyse graphIface t newGraph with ⟨g1, _ | m⟩
        · rw [hr] at ha; cases ha; rfl
        · rw [hr] at ha; cases ha
      rw [hg]
      obtain ⟨h4, h5, h6⟩ := C92_history ((treeCalls t).map callOp)
      refine ⟨by omega, by omega, Nat.le_trans h6 (Nat.mul_le_mul_left _ (by omega))⟩
  | syntaxErr _ _ => rw [hp] at h; cases h
  | reduceErr _ => rw [hp] at h; cases h
  | panic => rw [hp] at h; cases h
  | diverge => rw [hp] at h; cases h

/-- A document of 47 bytes with 6 elements, 4 containments and 4 attributes. The subgraph that is an end of an edge counts, and the attributes
of an edge statement count for every edge. -/
theorem example_space : ∃ g, Parse.read (fun _ => 0) 0 (b!"digraph G{size=1;a[label=x];a->b->{c}[color=y]}") = .ok g ∧ elements g = 6 ∧ containments g = 4 ∧
    attributes g = 4 := by
  have h : (match Parse.read (fun _ => 0) 0 (b!"digraph G{size=1;a[label=x];a->b->{c}[color=y]}") with
      | .ok g => decide (elements g = 6 ∧ containments g = 4 ∧ attributes g = 4)
      | _ => false) = true := by decide +kernel
  revert h
  cases Parse.read (fun _ => 0) 0 (b!"digraph G{size=1;a[label=x];a->b->{c}[color=y]}") with
  | ok g => intro h; exact ⟨g, rfl, of_decide_eq_true h⟩
  | _ => intro h; cases h

end Gographviz.Props
