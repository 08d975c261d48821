import Verif.Model.Literals
import Verif.Props.LexProps
import Verif.Spec.Lists
/-!
Property C78: a scanner that is reset scans its text again.
-/
namespace Gographviz.Props

open Gographviz Spec Lex

namespace Reset

/-- The same scanner state, with lines that are `d` larger and any columns. -/
def Sh (d : Nat) (a b : ScanSt) : Prop :=
  a.start = b.start ∧ a.startLine + d = b.startLine ∧ a.end_ = b.end_ ∧ a.typ = b.typ ∧ a.state = b.state ∧ a.pos = b.pos ∧ a.line + d = b.line

theorem advance_line (r l l' c c' d : Nat) (h : l + d = l') : (advance r l c).1 + d = (advance r l' c').1 := by
  unfold advance
  subst h
  split
  · simp only; omega
  · split
    · rfl
    · split <;> rfl

theorem loop_sh {src : Str} {d : Nat} : ∀ (n : Nat) {a b : ScanSt}, Sh d a b →
    (scanLoop src n a = none ∧ scanLoop src n b = none) ∨ ∃ a' b', scanLoop src n a = some a' ∧ scanLoop src n b = some b' ∧ Sh d a' b' := by
  intro n
  induction n with
  | zero => intro a b _; exact .inl ⟨rfl, rfl⟩
  | succ n ih =>
    intro a b h
    obtain ⟨sa, la, ca, ea, ta, qa, pa, lia, coa⟩ := a
    obtain ⟨sb, lb, cb, eb, tb, qb, pb, lib, cob⟩ := b
    obtain ⟨h1, h2, h3, h4, h5, h6, h7⟩ := h
    simp only at h1 h2 h3 h4 h5 h6 h7
    subst h1 h2 h3 h4 h5 h6 h7
    simp only [scanLoop]
    by_cases hp : pa ≥ src.length
    · rw [if_pos hp, if_pos hp]
      right
      refine ⟨_, _, rfl, rfl, ?_⟩
      by_cases ht : ta = 0
      · rw [if_pos ht, if_pos ht]; exact ⟨rfl, rfl, rfl, rfl, rfl, rfl, rfl⟩
      · rw [if_neg ht, if_neg ht]; exact ⟨rfl, rfl, rfl, rfl, rfl, rfl, rfl⟩
    · rw [if_neg hp, if_neg hp]
      cases hrow : transTab[qa]? with
      | none => exact .inl ⟨rfl, rfl⟩
      | some row =>
        simp only
        cases hr : transRow row (decodeRune (List.drop pa src)).1 with
        | none =>
          simp only
          right
          refine ⟨_, _, rfl, rfl, ?_⟩
          by_cases ht : ta = 0
          · rw [if_pos ht, if_pos ht]; exact ⟨rfl, rfl, rfl, rfl, rfl, rfl, rfl⟩
          · rw [if_neg ht, if_neg ht]; exact ⟨rfl, rfl, rfl, rfl, rfl, rfl, rfl⟩
        | some s =>
          simp only
          have hl := advance_line (decodeRune (List.drop pa src)).1 lia (lia + d) coa cob d rfl
          cases hact : actTab[s]? with
          | none => exact .inl ⟨rfl, rfl⟩
          | some x =>
            cases x with
            | none => exact ih ⟨rfl, hl, rfl, rfl, rfl, rfl, hl⟩
            | some t => exact ih ⟨rfl, rfl, rfl, rfl, rfl, rfl, hl⟩

/-- The same token, on a line that is `d` larger. -/
def TokSh (d : Nat) (t u : Token) : Prop := u.typ = t.typ ∧ u.lit = t.lit ∧ u.offset = t.offset ∧ u.line = t.line + d

theorem scan_sh {d : Nat} {l l' : Lexer} (h1 : l.src = l'.src) (h2 : l.pos = l'.pos) (h3 : l.line + d = l'.line) :
    (scan l = none ∧ scan l' = none) ∨ ∃ t m t' m', scan l = some (t, m) ∧ scan l' = some (t', m') ∧ TokSh d t t' ∧
      m.src = m'.src ∧ m.pos = m'.pos ∧ m.line + d = m'.line := by
  obtain ⟨src, pos, line, column⟩ := l
  obtain ⟨src', pos', line', column'⟩ := l'
  simp only at h1 h2 h3
  subst h1 h2 h3
  unfold scan
  simp only
  by_cases hp : pos ≥ src.length
  · rw [if_pos hp, if_pos hp]
    exact .inr ⟨_, _, _, _, rfl, rfl, ⟨rfl, rfl, rfl, rfl⟩, rfl, rfl, rfl⟩
  · rw [if_neg hp, if_neg hp]
    rcases loop_sh (src := src) (d := d) (src.length - pos + 1) (a := ⟨pos, line, column, 0, 0, 0, pos, line, column⟩)
      (b := ⟨pos, line + d, column', 0, 0, 0, pos, line + d, column'⟩) ⟨rfl, rfl, rfl, rfl, rfl, rfl, rfl⟩ with ⟨e1, e2⟩ | ⟨a', b', e1, e2, hs⟩
    · rw [e1, e2]; exact .inl ⟨rfl, rfl⟩
    · rw [e1, e2]
      right
      obtain ⟨sa, la, ca, ea, ta, qa, pa, lia, coa⟩ := a'
      obtain ⟨sb, lb, cb, eb, tb, qb, pb, lib, cob⟩ := b'
      obtain ⟨h1, h2, h3, h4, h5, h6, h7⟩ := hs
      simp only at h1 h2 h3 h4 h5 h6 h7
      subst h1 h2 h3 h4 h5 h6 h7
      simp only
      by_cases he : ea > sa
      · rw [if_pos he, if_pos he]; exact ⟨_, _, _, _, rfl, rfl, ⟨rfl, rfl, rfl, rfl⟩, rfl, rfl, rfl⟩
      · rw [if_neg he, if_neg he]; exact ⟨_, _, _, _, rfl, rfl, ⟨rfl, rfl, rfl, rfl⟩, rfl, rfl, rfl⟩

theorem scanAll_sh {d : Nat} : ∀ (n : Nat) {l l' : Lexer}, l.src = l'.src → l.pos = l'.pos → l.line + d = l'.line → ∀ {ts : List Token}, scanAll n l = some ts →
    ∃ ts', scanAll n l' = some ts' ∧ Forall2 (TokSh d) ts ts' := by
  intro n
  induction n with
  | zero => intro l l' _ _ _ ts h; cases h
  | succ n ih =>
    intro l l' h1 h2 h3 ts h
    rcases scan_sh h1 h2 h3 with ⟨e1, e2⟩ | ⟨t, m, t', m', e1, e2, ht, g1, g2, g3⟩
    · simp only [scanAll, e1] at h; cases h
    · simp only [scanAll, e1] at h
      simp only [scanAll, e2]
      rw [ht.1]
      by_cases ht1 : t.typ = 1
      · rw [if_pos ht1] at h ⊢
        cases h
        exact ⟨_, rfl, .cons ht .nil⟩
      · rw [if_neg ht1] at h ⊢
        cases hn : scanAll n m with
        | none => rw [hn] at h; cases h
        | some us =>
          rw [hn] at h
          cases h
          obtain ⟨us', e3, e4⟩ := ih g1 g2 g3 hn
          rw [e3]
          exact ⟨_, rfl, .cons ht e4⟩

end Reset

/-- C78, partial: a scanner that is reset, whatever it has scanned before, scans all tokens of its text again: the same types, texts and offsets. The lines are not started again: they are those of
a new scanner plus the number of lines before. -/
theorem C78_reset_partial (l : Lexer) (hl : 1 ≤ l.line) : ∃ ts ts', tokens l.src = some ts ∧ scanAll (l.src.length + 1) (Lit.reset l) = some ts' ∧
    Forall2 (fun t t' => t'.typ = t.typ ∧ t'.lit = t.lit ∧ t'.offset = t.offset ∧ t'.line = t.line + (l.line - 1)) ts ts' := by
  obtain ⟨ts, h, _⟩ := C33_total l.src
  obtain ⟨ts', h1, h2⟩ := Reset.scanAll_sh (d := l.line - 1) (l := newLexer l.src) (l' := Lit.reset l) _ rfl rfl
    (by show 1 + (l.line - 1) = l.line; omega) h
  exact ⟨ts, ts', h, h1, h2⟩

/-- C78 is false of the code: after scanning `a newline b` and `Reset`, the first token is reported on line 2, column 2. -/
theorem C78_positions_kept : ((scan (newLexer (b!"a\nb"))).bind fun r => (scan r.2).bind fun r' => (scan (Lit.reset r'.2)).map Prod.fst) =
    some ⟨18, b!"a", 0, 2, 2⟩ := by decide +kernel

/-- The hypothesis is met by every scanner: lines count from 1. Here one that has scanned two tokens on two lines, and what it scans after `Reset`. -/
theorem example_reset : ((scan (newLexer (b!"a\nb"))).bind fun r => (scan r.2).map fun r' => (r'.2.line, scanAll 4 (Lit.reset r'.2))) =
    some (2, some [⟨18, b!"a", 0, 2, 2⟩, ⟨18, b!"b", 2, 3, 1⟩, ⟨1, [], 3, 3, 2⟩]) := by decide +kernel

end Gographviz.Props
