import Verif.Props.AnonymousProps
import Verif.Props.DotlangProps
import Verif.Proofs.Mended
import Verif.Proofs.LRViable
/-!
C40: the tokens of a text separated by single spaces are the same tokens. C95: mending a text of the published language.
-/
namespace Gographviz.Props

open Gographviz Spec Lex Print Parse
open Spec.Meaning

/-- The texts, each followed by a space. -/
def spaced (ls : List Str) : Str := ls.flatMap fun l => l ++ b!" "

namespace Respace

/-- A token of a text is the same token wherever a delimiter follows. -/
theorem relex {src : Str} {ts : List Token} (h : tokens src = some ts) {t : Token} (ht : t ∈ ts) (h0 : t.typ ≠ 0) (h1 : t.typ ≠ 1) :
    Toked Stop t.lit [(t.typ, t.lit)] := by
  obtain ⟨rest, hs⟩ := tokens_scans src h t ht
  obtain ⟨_, _, _, hcase⟩ := hs.sound
  rcases hcase with ⟨h1', _⟩ | ⟨_, _, _, htt⟩ | ⟨h0', _⟩
  · exact absurd h1' h1
  · exact toked_token htt h1 fun _ hr => stop_delim hr
  · exact absurd h0' h0

theorem spaced_toked {ls : List Lexeme} (h : ∀ l ∈ ls, Toked Stop l.2 [l]) : Toked Any (spaced (ls.map Prod.snd)) ls := by
  induction ls with
  | nil => exact .nil
  | cons l ls ih =>
    have h1 : Toked Any (l.2 ++ 32 :: []) ([l] ++ []) := (h l (by simp)).stopThen tk_space ⟨by omega, by decide, by decide, by decide⟩
    have h2 := h1.anyThen (ih fun x hx => h x (by simp [hx]))
    simpa [spaced] using h2

end Respace

open Respace

theorem Respace.tokens_of {src : Str} {ls : List Lexeme} (h : Toked Any src ls) : ∃ ts e, tokens src = some (ts ++ [e]) ∧ ts.map lexeme = ls ∧ e.typ = 1 := by
  obtain ⟨ys', h3, h4⟩ := h [] [([], 1, [])] trivial (.eof .eof)
  rw [List.append_nil] at h3
  obtain ⟨ys, ts, h5, h6, h7⟩ := tokens_toks src
  rw [h5.det h3] at h7
  obtain ⟨us, e, h8, he, _, _, _⟩ := source_spec (fun k => k) 0 src
  rw [h6] at h8
  cases h8
  have hm := h7.map
  have hm' : ys'.map (fun y => (y.2.1, y.2.2)) = ys'.map Prod.snd := rfl
  rw [hm', h4, List.map_append] at hm
  exact ⟨us, e, h6, List.append_inj_left' hm rfl, he⟩

/-- C40. Only the tokens count: texts with the same tokens, whatever white space and comments are between them, have the same tree. -/
theorem C40_same_tokens (rnd : Nat → Nat) (cnt : Nat) {src src' : Str} {ts ts' : List Token} {e e' : Token} (h : tokens src = some (ts ++ [e]))
    (h' : tokens src' = some (ts' ++ [e'])) (hl : ts.map (fun t => (t.typ, t.lit)) = ts'.map fun t => (t.typ, t.lit)) (g : Ast.Graph) (n : Nat) :
    parseBytes rnd cnt src = .ok g n ↔ parseBytes rnd cnt src' = .ok g n := by
  rw [C35_source rnd cnt _ h, C35_source rnd cnt _ h']
  have : ts.map lexeme = ts'.map lexeme := hl
  rw [this]

/-- C40. Layout can be taken away and put in everywhere at once: the tokens of a text (without invalid ones), written one after the other with a space after each, are the same tokens. -/
theorem C40_spaced_tokens {src : Str} {ts : List Token} {e : Token} (h : tokens src = some (ts ++ [e])) (h0 : ∀ t ∈ ts, t.typ ≠ 0) :
    ∃ ts' e', tokens (spaced (ts.map Token.lit)) = some (ts' ++ [e']) ∧ ts'.map (fun t => (t.typ, t.lit)) = ts.map fun t => (t.typ, t.lit) := by
  obtain ⟨us, x, h1, _, hno, _, _⟩ := source_spec (fun k => k) 0 src
  rw [h] at h1
  obtain rfl : ts = us := List.append_inj_left' ((Option.some.injEq _ _).mp h1) rfl
  have ht := spaced_toked (ls := ts.map lexeme) (by
    intro l hl
    obtain ⟨t, ht, rfl⟩ := List.mem_map.1 hl
    exact relex h (List.mem_append_left _ ht) (h0 t ht) (hno t ht))
  rw [List.map_map] at ht
  obtain ⟨ts', e', h2, h3, _⟩ := tokens_of ht
  exact ⟨ts', e', h2, h3⟩

/-- C40. The tree of an accepted text is that of its tokens separated by single spaces. -/
theorem C40_spaced (rnd : Nat → Nat) (cnt : Nat) {src : Str} {g : Ast.Graph} {n : Nat} (hp : parseBytes rnd cnt src = .ok g n) :
    ∃ ts e, tokens src = some (ts ++ [e]) ∧ parseBytes rnd cnt (spaced (ts.map Token.lit)) = .ok g n := by
  obtain ⟨ts, e, h1, _, _, _, hh⟩ := source_spec rnd cnt src
  refine ⟨ts, e, h1, ?_⟩
  rcases hh with ⟨g', c', hs, _⟩ | ⟨_, hn, _⟩
  · obtain ⟨T, hT, hy⟩ := hs
    have h0 : ∀ t ∈ ts, t.typ ≠ 0 := by
      rw [← hy]; exact Parse.no_invalid hT
    obtain ⟨ts', e', h2, h3⟩ := C40_spaced_tokens h1 h0
    exact (C40_same_tokens rnd cnt h2 h1 h3 g n).2 hp
  · exact absurd ((C35_source rnd cnt src h1 g n).1 hp) (hn g n)

/-- C95. What is missing is small: every text of the published language is accepted after leaving out the commas that stand directly before a `]` and writing `subgraph` before the
bare `{ }`. The mended text is given as the list of its tokens, each followed by a space. -/
theorem C95_mended (rnd : Nat → Nat) (cnt : Nat) {src : Str} {ts : List Token} {e : Token} (h : tokens src = some (ts ++ [e])) (hg : Spec.Dot.Graph (ts.map Token.typ)) :
    ∃ ls, Spec.Dot.Mended (ts.map fun t => (t.typ, t.lit)) ls ∧ Spec.Dot.Graph (ls.map Prod.fst) ∧ Spec.Dot.NoLastComma (ls.map Prod.fst) ∧
      Spec.Dot.NoBareBraces (ls.map Prod.fst) ∧ ∃ t n, parseBytes rnd cnt (spaced (ls.map Prod.snd)) = .ok t n := by
  obtain ⟨us, x, h1, _, hno, _, _⟩ := source_spec (fun k => k) 0 src
  rw [h] at h1
  obtain rfl : ts = us := List.append_inj_left' ((Option.some.injEq _ _).mp h1) rfl
  obtain ⟨ns, hm, hgr, hsc⟩ := Proofs.Dot.graph_mend hg
  obtain ⟨ls, rfl, hm'⟩ := hm.lift (ls := ts.map lexeme) (by rw [List.map_map]; rfl)
  have hscan := (Proofs.Dot.scan_iff _).1 hsc
  have ht := spaced_toked (ls := ls) (by
    intro l hl
    rcases Proofs.Dot.mended_mem hm' l hl with hl | rfl
    · obtain ⟨t, ht, rfl⟩ := List.mem_map.1 hl
      exact relex h (List.mem_append_left _ ht) (Proofs.Dot.graph_no_invalid hg _ (List.mem_map.2 ⟨t, ht, rfl⟩)) (hno t ht)
    · exact toked_keyword (e := (b!"subgraph", 15)) (by decide))
  obtain ⟨ts', e', h2, h3, _⟩ := tokens_of ht
  have htyp : ts'.map Token.typ = ls.map Prod.fst := by rw [← h3, lexeme_types]
  exact ⟨ls, hm', hgr, hscan.1, hscan.2, (C95_published_partial rnd cnt _ h2).2 (by rw [htyp]; exact ⟨hgr, hscan⟩)⟩

/-- C95_mended applies to the two texts of `C95_violated` and C40_spaced to a text with comments. -/
theorem example_mended : (∃ ts e, tokens (b!"digraph { a -> { } }") = some (ts ++ [e]) ∧ Spec.Dot.Graph (ts.map Token.typ)) ∧
    (∃ ts e, tokens (b!"graph { a [b=c,] }") = some (ts ++ [e]) ∧ Spec.Dot.Graph (ts.map Token.typ)) := by
  obtain ⟨ts, e, h, ht⟩ := typesOf_spec (src := b!"digraph { a -> { } }") (ns := [6, 3, 18, 16, 3, 4, 4]) (by decide +kernel)
  obtain ⟨ts', e', h', ht'⟩ := typesOf_spec (src := b!"graph { a [b=c,] }") (ns := [2, 3, 18, 11, 18, 8, 18, 13, 12, 4]) (by decide +kernel)
  exact ⟨⟨ts, e, h, by rw [ht]; exact bare_published⟩, ⟨ts', e', h', by rw [ht']; exact comma_published⟩⟩

theorem example_spaced : (tokens (b!"digraph/* x */{a->b;}")).map (fun ts => spaced (ts.dropLast.map Token.lit)) = some (b!"digraph { a -> b ; } ") := by
  decide +kernel

end Gographviz.Props
