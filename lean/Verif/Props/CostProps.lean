import Verif.Proofs.Cost
import Verif.Props.ParseProps
/-!
C74: parsing takes a number of steps that is linear in the length of the input.
-/
namespace Gographviz.Props

open Gographviz Gographviz.Lex Gographviz.Parse Spec

/-- The counters do not change the result. -/
theorem C74_same (rnd : Nat → Nat) (fuel cnt : Nat) (src : Str) : (parseC rnd fuel cnt src).1 = parse scan rnd fuel cnt (newLexer src) := parseC_eq rnd fuel cnt src

/-- **C74** On every input, with whatever bound on the iterations: the scanner decodes at most two characters per byte of the input and one more, and the parser goes at
most nine times through its loop for each token (the end counts as one). -/
theorem C74_linear (rnd : Nat → Nat) (fuel cnt : Nat) (src : Str) : ∃ ts, tokens src = some ts ∧ ts.length ≤ src.length + 1 ∧
    (parseC rnd fuel cnt src).2.1 ≤ 9 * ts.length ∧ (parseC rnd fuel cnt src).2.2 ≤ 2 * src.length + 1 := by
  obtain ⟨ts, e, h1, he, hno, hid, hs, hf⟩ := source_stream src
  obtain ⟨ts', h2, _, h3⟩ := C33_total src
  rw [h1] at h2
  cases h2
  refine ⟨_, h1, h3, ?_, ?_⟩
  · have hne : ∀ F, 8 * (ts.length + 1) < F → (parseC rnd F cnt src).1 ≠ .diverge := by
      intro F hF
      rw [parseC_eq]
      rcases parse_spec hs he hno hid rnd cnt hF with ⟨g, c', a, b, d⟩ | ⟨a, b, t, x, d, f⟩
      · rw [b]; simp
      · rw [f]; simp
    have hle : ∀ F, (parseC rnd F cnt src).2.1 ≤ F := by
      intro F
      unfold parseC
      split
      · exact Nat.zero_le _
      · have := loopC_le rnd F 0 { stack := [(0, .nil)], next := by assumption, sc := by assumption, cnt := cnt }
        exact Nat.le_trans this (by omega)
    have hlen : (ts ++ [e]).length = ts.length + 1 := by simp
    rw [hlen]
    by_cases hc : fuel ≤ 8 * (ts.length + 1) + 1
    · have := hle fuel
      omega
    · have h4 := hle (8 * (ts.length + 1) + 1)
      have h5 := hne (8 * (ts.length + 1) + 1) (by omega)
      have h6 : parseC rnd fuel cnt src = parseC rnd (8 * (ts.length + 1) + 1) cnt src := by
        unfold parseC at h5 ⊢
        split
        · rfl
        · rename_i t sc hsc
          rw [hsc] at h5
          dsimp only at h5 ⊢
          rw [loopC_more rnd _ fuel 0 _ h5 (by omega)]
      rw [h6]
      omega
  · unfold parseC
    split
    · exact Nat.zero_le _
    · rename_i t sc hsc
      obtain ⟨a, b, c⟩ := scanC_ok (n := src.length) (x := (newLexer src, 0)) rfl (Nat.zero_le _) (Nat.zero_le _) hsc
      exact loopC_cost (rnd := rnd) fuel 0 (st := { stack := [(0, .nil)], next := t, sc := sc, cnt := cnt }) ⟨a, b, c⟩

/-- For example, the 25 bytes of this text (9 tokens and the end) take 28 iterations and 33 decoded characters: 8 are decoded twice. -/
theorem example_cost : (b!"digraph G { a -> b; \"c\" }").length = 25 ∧ (parseC id 1000 0 (b!"digraph G { a -> b; \"c\" }")).2 = (28, 33) := by decide +kernel

end Gographviz.Props
