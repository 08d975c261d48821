import Verif.Proofs.Dotlang
import Verif.Props.DocumentProps
import Verif.Props.TruncateProps
/-!
C95: the texts that `Parse` accepts, compared with the published grammar of the DOT language (Spec/Dotlang.lean).
-/
namespace Gographviz.Props
open Gographviz Spec Lex Parse
open Gographviz.Spec.Meaning

theorem lexeme_types (ts : List Token) : (ts.map lexeme).map Prod.fst = ts.map Token.typ := by
  rw [List.map_map]; rfl

/-- C95. The full claim would be that every text whose tokens form a sentence of the published grammar is accepted. What holds: the accepted texts are
exactly the sentences of the published grammar that have no comma directly before a `]` and no `{ }` without `graph`, `digraph` or `subgraph` before it. In
particular nothing outside the published grammar is accepted. -/
theorem C95_published_partial (rnd : Nat → Nat) (cnt : Nat) (src : Str) {ts : List Token} {e : Token} (h : tokens src = some (ts ++ [e])) :
    (∃ g n, parseBytes rnd cnt src = .ok g n) ↔
      Spec.Dot.Graph (ts.map Token.typ) ∧ Spec.Dot.NoLastComma (ts.map Token.typ) ∧ Spec.Dot.NoBareBraces (ts.map Token.typ) := by
  rw [← Proofs.Dot.scan_iff, ← lexeme_types, ← Proofs.Dot.graph_iff (fun k => anonName (rnd k)) cnt]
  constructor
  · rintro ⟨g, n, hp⟩
    exact ⟨g, n, (C35_source rnd cnt src h g n).1 hp⟩
  · rintro ⟨g, n, hp⟩
    exact ⟨g, n, (C35_source rnd cnt src h g n).2 hp⟩

/-- C95. Whatever `Read` accepts is a sentence of the published grammar, without the two forms. -/
theorem C95_read (rnd : Nat → Nat) (cnt : Nat) (src : Str) {g : Graph} (hr : Parse.read rnd cnt src = .ok g) :
    ∃ ts e, tokens src = some (ts ++ [e]) ∧ Spec.Dot.Graph (ts.map Token.typ) ∧ Spec.Dot.NoLastComma (ts.map Token.typ) ∧
      Spec.Dot.NoBareBraces (ts.map Token.typ) := by
  obtain ⟨ts, e, t, n, h, hm, _⟩ := (C66_read_accepted rnd cnt src).1 ⟨g, hr⟩
  exact ⟨ts, e, h, (C95_published_partial rnd cnt src h).1 ⟨t, n, (C35_source rnd cnt src h t n).2 hm⟩⟩

/-- C95. Whether a text is accepted depends on the types of its tokens alone: not on the names, the values, the spelling of the keywords, the generated names
or the space between the tokens. -/
theorem C95_types (rnd rnd' : Nat → Nat) (cnt cnt' : Nat) (src src' : Str) {ts ts' : List Token} {e e' : Token} (h : tokens src = some (ts ++ [e]))
    (h' : tokens src' = some (ts' ++ [e'])) (ht : ts.map Token.typ = ts'.map Token.typ) :
    (∃ g n, parseBytes rnd cnt src = .ok g n) ↔ ∃ g n, parseBytes rnd' cnt' src' = .ok g n := by
  rw [C95_published_partial rnd cnt src h, C95_published_partial rnd' cnt' src' h', ht]

/-- A sentence of the published grammar: `digraph { a -> { } }`. -/
theorem bare_published : Spec.Dot.Graph [6, 3, 18, 16, 3, 4, 4] :=
  .mk (s := []) (i := []) (a := [18, 16, 3, 4]) .no .digraph .no
    (.some (a := [18, 16, 3, 4]) (s := []) (r := []) (.edge (a := [18]) (b := [16, 3, 4]) (c := []) (.node .plain)
      (.last .directed (.sub (.mk (h := []) (a := []) .none .none))) .no) .no .none)

/-- A sentence of the published grammar: `graph { a [b=c,] }`. -/
theorem comma_published : Spec.Dot.Graph [2, 3, 18, 11, 18, 8, 18, 13, 12, 4] :=
  .mk (s := []) (i := []) (a := [18, 11, 18, 8, 18, 13, 12]) .no .graph .no
    (.some (a := [18, 11, 18, 8, 18, 13, 12]) (s := []) (r := []) (.node (a := [18]) (b := [11, 18, 8, 18, 13, 12]) .plain
      (.yes (.last (a := [18, 8, 18, 13]) (.yes (.last (a := [18, 8, 18]) (c := [13]) .pair .yes))))) .no .none)

/-- The types of the tokens of a text, without the end of the input. -/
def typesOf (src : Str) : Option (List Nat) := (tokens src).map fun ts => ts.dropLast.map Token.typ

theorem typesOf_spec {src : Str} {ns : List Nat} (h : typesOf src = some ns) : ∃ ts e, tokens src = some (ts ++ [e]) ∧ ts.map Token.typ = ns := by
  obtain ⟨us, x, h1, _⟩ := source_spec (fun k => k) 0 src
  rw [typesOf, h1] at h
  simp only [Option.map_some, List.dropLast_concat, Option.some.injEq] at h
  exact ⟨us, x, h1, h⟩

/-- C95, the violation: there are texts of the published language that are rejected, one for each of the two forms. -/
theorem C95_violated : ∃ src src' ts e ts' e', tokens src = some (ts ++ [e]) ∧ tokens src' = some (ts' ++ [e']) ∧ Spec.Dot.Graph (ts.map Token.typ) ∧
    Spec.Dot.Graph (ts'.map Token.typ) ∧ ¬ Spec.Dot.NoBareBraces (ts.map Token.typ) ∧ ¬ Spec.Dot.NoLastComma (ts'.map Token.typ) ∧
    ∀ rnd cnt, (¬ ∃ g n, parseBytes rnd cnt src = .ok g n) ∧ ¬ ∃ g n, parseBytes rnd cnt src' = .ok g n := by
  obtain ⟨ts, e, h, ht⟩ := typesOf_spec (src := b!"digraph { a -> { } }") (ns := [6, 3, 18, 16, 3, 4, 4]) (by decide +kernel)
  obtain ⟨ts', e', h', ht'⟩ := typesOf_spec (src := b!"graph { a [b=c,] }") (ns := [2, 3, 18, 11, 18, 8, 18, 13, 12, 4]) (by decide +kernel)
  have h1 : ¬ Spec.Dot.NoBareBraces (ts.map Token.typ) := by
    rw [ht]
    intro hn
    rw [Spec.Dot.NoBareBraces] at hn
    have := (Proofs.Dot.ann_iff _).2 (hn [6, 3, 18, 16] [4] rfl)
    simp [Proofs.Dot.Ann, Spec.Dot.Announces] at this
  have h2 : ¬ Spec.Dot.NoLastComma (ts'.map Token.typ) := by
    rw [ht']
    exact fun hn => hn ⟨[2, 3, 18, 11, 18, 8, 18], [4], rfl⟩
  refine ⟨_, _, ts, e, ts', e', h, h', ht ▸ bare_published, ht' ▸ comma_published, h1, h2, fun rnd cnt => ⟨?_, ?_⟩⟩
  · intro hp
    exact h1 ((C95_published_partial rnd cnt _ h).1 hp).2.2
  · intro hp
    exact h2 ((C95_published_partial rnd cnt _ h').1 hp).2.1

/-- A text that meets all three conditions, with `{ }` after `subgraph`, a flag, several brackets and commas, and is accepted. -/
theorem example_published : ∃ ts e, tokens (b!"strict digraph { subgraph s { } -> { a:p [b, c=d][] } graph [e] }") = some (ts ++ [e]) ∧
    Spec.Dot.Graph (ts.map Token.typ) ∧ Spec.Dot.NoLastComma (ts.map Token.typ) ∧ Spec.Dot.NoBareBraces (ts.map Token.typ) := by
  obtain ⟨ts, e, h, _⟩ := source_spec (fun k => k) 0 (b!"strict digraph { subgraph s { } -> { a:p [b, c=d][] } graph [e] }")
  exact ⟨ts, e, h, (C95_published_partial (fun k => k) 0 _ h).1 (outcome_ok (by decide +kernel))⟩

end Gographviz.Props
