import Verif.Proofs.LexScan
import Verif.Spec.Tokenizing
/-!
The token sequence of a source text.
-/
namespace Gographviz.Lex

open Gographviz Spec

/-! ### longest match -/

theorem Run.prefix {a b c : Nat} {inp x y : Str} (h : Run a inp b x) (h' : Run a inp c y) (hs : Stuck c y) : Run b x c y := by
  induction h with
  | refl => exact h'
  | step hne ht ha _ ih =>
    cases h' with
    | refl =>
      rcases hs with h0 | h0
      · exact absurd h0 hne
      · rw [h0] at ht; cases ht
    | step hne' ht' ha' hr' =>
      rw [ht] at ht'; cases ht'
      exact ih hr'

/-- Successors of accepting states accept. -/
theorem acc_closed : ∀ s < nStates, typOf s ≠ 0 →
    (transTab[s]?.all fun row => row.1.all (fun c => decide (typOf c.2.2 ≠ 0)) && row.2.all (fun t => decide (typOf t ≠ 0))) = true := by
  decide +kernel

theorem tr_acc {s r s' : Nat} (hs : s < nStates) (h0 : typOf s ≠ 0) (ht : tr s r = some s') : typOf s' ≠ 0 := by
  have := acc_closed s hs h0
  unfold tr at ht
  split at ht
  · cases ht
  · rename_i row hrow
    rw [hrow] at this
    simp only [Option.all_some, Bool.and_eq_true] at this
    unfold transRow at ht
    split at ht
    · rename_i t hf
      cases ht
      obtain ⟨lo, hi, hm, _⟩ := findCase_mem hf
      exact of_decide_eq_true (List.all_eq_true.1 this.1 _ hm)
    · rw [ht] at this; simp only [Option.all_some, decide_eq_true_eq] at this; exact this.2

theorem Run.acc {s s' : Nat} {inp rest : Str} (h : Run s inp s' rest) (hs : s < nStates) (h0 : typOf s ≠ 0) : typOf s' ≠ 0 := by
  induction h with
  | refl => exact h0
  | step _ ht _ _ ih => exact ih (tr_lt ht) (tr_acc hs h0 ht)

/-- The token after the layout. -/
theorem Scans.tail {inp sk lit rest : Str} {t : Nat} (h : Scans inp sk t lit rest) : Scans (lit ++ rest) [] t lit rest := by
  induction h with
  | eof => exact .eof
  | skip _ _ _ _ ih => exact ih
  | tok hne hr hst h0 he => rw [← he]; exact .tok hne hr hst h0 he
  | bad hne hr hst h0 he => rw [← he]; exact .bad hne hr hst h0 he

theorem layoutPiece_ne_nil {p : Str} (h : LayoutPiece p) : p ≠ [] := by cases h <;> simp

theorem Scans.noLayout {inp lit rest : Str} {t : Nat} (h : Scans inp [] t lit rest) : NoLayoutAhead inp := by
  rintro p hp ⟨r, rfl⟩
  obtain ⟨sk, t', lit', rest', h'⟩ := Scans.total r
  have := ((h'.piece hp).det h).1
  exact layoutPiece_ne_nil hp (List.append_eq_nil_iff.1 this).1

/-- A token text at the start of the input gives a path. -/
theorem prefix_run {inp : Str} {w : List Nat} {t : Nat} (hp : w <+: runes inp) (h : TokenText t w) :
    ∃ s x y, inp = x ++ y ∧ runes x = w ∧ Run 0 inp s y ∧ s < nStates ∧ typOf s ≠ 0 ∧ Cut x y := by
  obtain ⟨v, hv⟩ := hp
  obtain ⟨x, y, rfl, hc, hx, hy⟩ := runes_split hv.symm
  obtain ⟨s, hs, rfl, h0, h1, hk⟩ := tokenText_path h
  have hign : kIgn (kindOf s) = false := by
    rcases hk with hk | hk | hk | ⟨t, hk⟩
    · cases h' : kindOf s <;> rw [h'] at hk <;> simp [K.open] at hk <;> rfl
    all_goals rw [hk]; rfl
  rw [← hx] at hs
  exact ⟨s, x, y, rfl, hx, run_of_trs hc (by decide) hs hign, trs_lt (by decide) hs, h0, hc⟩

theorem Scans.longest {inp lit rest : Str} {t : Nat} (h : Scans inp [] t lit rest) (h1 : t ≠ 1) : Longest t lit inp := by
  generalize hsk : ([] : Str) = sk at h
  cases h with
  | eof => exact absurd rfl h1
  | skip hr hig hc hs =>
    have := (chunk_layout hr hig hc).1
    exact absurd (List.append_eq_nil_iff.1 hsk.symm).1 (layoutPiece_ne_nil this)
  | @tok _ _ _ s hne hr hst h0 he =>
    unfold Longest
    rw [if_neg h0]
    obtain ⟨x, hx, hcut, ht, _⟩ := hr.trs
    have hxl : lit = x := List.append_cancel_right (he.symm.trans hx)
    subst hxl
    refine ⟨typ_tokenText ht h0, ?_⟩
    intro t' w hw htt
    obtain ⟨s', x', y', hi, rfl, hr', hlt, h0', hc'⟩ := prefix_run hw htt
    have hpre := hr'.prefix hr hst
    obtain ⟨z, hz, hcz⟩ := hpre.cut
    have : lit = x' ++ z := by
      have : lit ++ rest = (x' ++ z) ++ rest := by rw [List.append_assoc, ← hz, ← hi, he]
      exact List.append_cancel_right this
    rw [this]
    have hc'' : Cut x' z := by rw [hz] at hc'; exact hc'.left
    rw [hc''.runes]; simp
  | @bad _ _ mid s hne hr hst h0 he =>
    unfold Longest
    rw [if_pos rfl]
    intro t' w hw htt
    obtain ⟨s', x', y', hi, rfl, hr', hlt, h0', hc'⟩ := prefix_run hw htt
    exact (hr'.prefix hr hst).acc hlt h0' h0

/-! ### all tokens -/

/-- The scans of a text: skipped text, type and text of every token. -/
inductive Toks : Str → List (Str × Nat × Str) → Prop where
  | eof {rem sk : Str} : Scans rem sk 1 [] [] → Toks rem [(sk, 1, [])]
  | cons {rem sk lit rest : Str} {t : Nat} {ys : List (Str × Nat × Str)} : Scans rem sk t lit rest → t ≠ 1 → Toks rest ys →
      Toks rem ((sk, t, lit) :: ys)

/-- The tokens with their positions. -/
inductive TokRel : Nat → Nat × Nat → List (Str × Nat × Str) → List Token → Prop where
  | nil (off : Nat) (lc : Nat × Nat) : TokRel off lc [] []
  | cons {off t : Nat} {lc lc' : Nat × Nat} {sk lit : Str} {ys : List (Str × Nat × Str)} {ts : List Token} :
      (t ≠ 0 → lc' = advR lc (runes (sk ++ lit))) → TokRel (off + sk.length + lit.length) lc' ys ts →
      TokRel off lc ((sk, t, lit) :: ys)
        (⟨t, lit, off + sk.length, (advR lc (runes sk)).1, (advR lc (runes sk)).2⟩ :: ts)

theorem Toks.total (rem : Str) : ∃ ys, Toks rem ys := by
  generalize hn : rem.length = n
  induction n using Nat.strongRecOn generalizing rem with
  | _ n ih =>
    obtain ⟨sk, t, lit, rest, h⟩ := Scans.total rem
    have hl := congrArg List.length h.append
    simp only [List.length_append] at hl
    rcases h.sound.2.2.2 with ⟨rfl, rfl, rfl⟩ | h' | h'
    · exact ⟨_, .eof h⟩
    · have : lit.length ≠ 0 := by simpa using h'.2.2.1
      obtain ⟨ys, hys⟩ := ih rest.length (by omega) rest rfl
      exact ⟨_, .cons h h'.2.1 hys⟩
    · have : lit.length ≠ 0 := by simpa using h'.2
      obtain ⟨ys, hys⟩ := ih rest.length (by omega) rest rfl
      exact ⟨_, .cons h (by omega) hys⟩

theorem Toks.det {rem : Str} {ys ys' : List (Str × Nat × Str)} (h : Toks rem ys) (h' : Toks rem ys') : ys = ys' := by
  induction h generalizing ys' with
  | eof h =>
    cases h' with
    | eof h2 => obtain ⟨rfl, _⟩ := h.det h2; rfl
    | cons h2 hne _ => obtain ⟨_, h3, _⟩ := h.det h2; exact absurd h3.symm hne
  | cons h hne _ ih =>
    cases h' with
    | eof h2 => obtain ⟨_, h3, _⟩ := h.det h2; exact absurd h3 hne
    | cons h2 _ ht => obtain ⟨rfl, rfl, rfl, rfl⟩ := h.det h2; rw [ih ht]

theorem scanAll_toks {rem : Str} {ys : List (Str × Nat × Str)} (h : Toks rem ys) :
    ∀ (n : Nat) (l : Lexer), l.pos ≤ l.src.length → l.src.drop l.pos = rem → rem.length + 1 ≤ n →
      ∃ ts, scanAll n l = some ts ∧ TokRel l.pos (l.line, l.column) ys ts := by
  induction h with
  | @eof rem sk hs =>
    intro n l hp hd hn
    obtain ⟨m, rfl⟩ : ∃ m, n = m + 1 := ⟨n - 1, by omega⟩
    rw [← hd] at hs
    obtain ⟨line, column, h1, h2⟩ := scan_scans hp hs
    simp only [scanAll, h1, if_true]
    exact ⟨_, rfl, .cons (lc' := (line, column)) (fun h0 => h2 h0) (.nil _ _)⟩
  | @cons rem sk lit rest t ys hs hne _ ih =>
    intro n l hp hd hn
    obtain ⟨m, rfl⟩ : ∃ m, n = m + 1 := ⟨n - 1, by omega⟩
    have hl := congrArg List.length hs.append
    simp only [List.length_append] at hl
    have hlit : lit.length ≠ 0 := by
      rcases hs.sound.2.2.2 with h' | h' | h'
      · exact absurd h'.1 hne
      · simpa using h'.2.2.1
      · simpa using h'.2
    have hlen := length_of_drop hp hd
    have happ := hs.append
    rw [← hd] at hs
    obtain ⟨line, column, h1, h2⟩ := scan_scans hp hs
    obtain ⟨ts, h3, h4⟩ := ih m ⟨l.src, l.pos + sk.length + lit.length, line, column⟩ (by simp only; omega)
      (by simp only
          rw [Nat.add_assoc, drop_drop_eq hd, happ, ← List.append_assoc, ← List.length_append, List.drop_left]) (by omega)
    simp only [scanAll, h1]
    rw [if_neg hne, h3]
    exact ⟨_, rfl, .cons h2 h4⟩

/-- The tokens of a source text. -/
theorem tokens_toks (src : Str) : ∃ ys ts, Toks src ys ∧ tokens src = some ts ∧ TokRel 0 (1, 1) ys ts := by
  obtain ⟨ys, h⟩ := Toks.total src
  obtain ⟨ts, h1, h2⟩ := scanAll_toks h (src.length + 1) (newLexer src) (by simp [newLexer]) (by simp [newLexer]) (by omega)
  exact ⟨ys, ts, h, h1, h2⟩

theorem TokRel.map {off : Nat} {lc : Nat × Nat} {ys : List (Str × Nat × Str)} {ts : List Token} (h : TokRel off lc ys ts) :
    ts.map (fun t => (t.typ, t.lit)) = ys.map fun y => (y.2.1, y.2.2) := by
  induction h with
  | nil => rfl
  | cons _ _ ih => simp [ih]

/-! ### inserting layout -/

/-- The text of scans. -/
def flat (ys : List (Str × Nat × Str)) : Str := ys.flatMap fun y => y.1 ++ y.2.2

theorem Toks.flat {rem : Str} {ys : List (Str × Nat × Str)} (h : Toks rem ys) : rem = Lex.flat ys := by
  induction h with
  | eof h => have := h.append; simp [Lex.flat, this]
  | cons h _ _ ih => rw [h.append]; simp [Lex.flat, ih]

theorem Cut.ascii_ext {x y : Str} (h : Cut x y) {c : Nat} (hc : c < 128) (z : Str) : Cut x (y ++ c :: z) := by
  induction h with
  | nil => exact .nil _
  | @step x y hne hw _ ih =>
    have e : decodeRune (x ++ (y ++ c :: z)) = decodeRune (x ++ y) := by
      rw [← List.append_assoc]; exact decodeRune_stop (x ++ y) hc z (by simp [hne])
    exact .step hne (by rw [e]; exact hw) (by rw [e]; exact ih)

theorem layout_head {w : Str} (h : Layout w) (hne : w ≠ []) : ∃ c w', w = c :: w' ∧ c < 128 ∧ EndRune c := by
  cases h with
  | nil => exact absurd rfl hne
  | @cons p w hp _ =>
    have : ∀ c, c = 32 ∨ c = 9 ∨ c = 10 ∨ c = 13 ∨ c = 35 ∨ c = 47 → c < 128 ∧ EndRune c := by
      intro c hc
      rcases hc with rfl | rfl | rfl | rfl | rfl | rfl <;> refine ⟨by omega, ?_⟩ <;> unfold EndRune <;> decide
    cases hp with
    | @blank c hc => exact ⟨c, w, rfl, this c (by omega)⟩
    | hash => exact ⟨35, _, rfl, this 35 (by omega)⟩
    | slashes => exact ⟨47, _, rfl, this 47 (by omega)⟩
    | block => exact ⟨47, _, rfl, this 47 (by omega)⟩

/-- What follows a token may be changed behind a prefix, or replaced by something that starts with an ASCII character that ends words. -/
theorem Scans.change {inp lit P z : Str} {t : Nat} (h : Scans inp [] t lit (P ++ z)) (h1 : t ≠ 1) (h0 : t = 0 → P ++ z ≠ [])
    (hPz : Cut P z) {c : Nat} (hc : c < 128) (he : EndRune c) (z' : Str) : Scans (lit ++ (P ++ c :: z')) [] t lit (P ++ c :: z') := by
  have hcl := h.sound.2.2.1
  have hcl' : Cut lit (P ++ c :: z') := hcl.left.ascii_ext hc z'
  have hdec : P ≠ [] → decodeRune (P ++ c :: z') = decodeRune (P ++ z) := by
    intro hP
    rw [decodeRune_stop P hc z' hP]
    cases hPz with
    | nil => exact absurd rfl hP
    | step hne hw _ => exact decodeRune_append P z hne hw
  generalize hsk : ([] : Str) = sk at h
  generalize hre : P ++ z = rest at *
  cases h with
  | eof => exact absurd rfl h1
  | skip hr hig hck hs =>
    have := (chunk_layout hr hig hck).1
    exact absurd (List.append_eq_nil_iff.1 hsk.symm).1 (layoutPiece_ne_nil this)
  | @tok _ _ _ s hne hr hst h0' heq =>
    obtain ⟨x, hx, hcut, ht, _⟩ := hr.trs
    have hxl : lit = x := List.append_cancel_right (heq.symm.trans hx)
    subst hxl
    have hs := trs_lt (by decide) ht
    have hign : kIgn (kindOf s) = false := by
      cases hk : kIgn (kindOf s) with
      | false => rfl
      | true =>
        exfalso; apply h0'
        rw [(typOf_kind s hs).1 (by intro h; rw [h] at hk; cases hk)]
        cases hk' : kindOf s <;> rw [hk'] at hk <;> simp [kIgn] at hk <;> rfl
    refine .tok (by simp) (run_of_trs hcl' (by decide) ht hign) ?_ h0' rfl
    by_cases hP : P = []
    · subst hP
      refine delim_stuck ht h0' (.inr (.inr ?_))
      rw [List.nil_append, decodeRune_ascii hc]; exact he
    · refine .inr ?_
      rw [hdec hP]
      rcases hst with h | h
      · rw [← hre] at h; exact absurd (List.append_eq_nil_iff.1 h).1 hP
      · exact h
  | @bad _ _ mid s hne hr hst h0' heq =>
    obtain ⟨x, hx, hcut, ht, _⟩ := hr.trs
    have hs := trs_lt (by decide) ht
    have hm : mid ≠ [] := by
      intro hm; subst hm
      exact h0 rfl rfl
    have hlit : lit = x ++ mid.take (decodeRune mid).2 := by
      have : lit ++ mid.drop (decodeRune mid).2 = (x ++ mid.take (decodeRune mid).2) ++ mid.drop (decodeRune mid).2 := by
        rw [← heq, List.append_assoc, List.take_append_drop, hx]
      exact List.append_cancel_right this
    -- the offending rune
    obtain ⟨hw1, hw2⟩ := width_pos hm
    generalize ho : mid.take (decodeRune mid).2 = o at *
    have hone : o ≠ [] := by
      intro h0; rw [h0] at ho
      have := congrArg List.length ho
      simp only [List.length_take, List.length_nil] at this; omega
    have hmid : mid = o ++ mid.drop (decodeRune mid).2 := by rw [← ho, List.take_append_drop]
    have hco : Cut o (mid.drop (decodeRune mid).2) := by rw [← ho]; exact cut_step hm
    have hco' : Cut o (P ++ c :: z') := by
      rw [← hre] at hco
      exact hco.left.ascii_ext hc z'
    have hdo : decodeRune (o ++ (P ++ c :: z')) = decodeRune mid := by
      have e1 : decodeRune o = decodeRune mid := by
        cases hco with
        | nil => exact absurd rfl hone
        | step hne hw _ =>
          have := decodeRune_append o _ hone hw
          rwa [← hmid] at this
      cases hco' with
      | nil => exact absurd rfl hone
      | step hne hw _ => rw [← decodeRune_append o _ hone hw, e1]
    have hol : o.length = (decodeRune mid).2 := by rw [← ho, List.length_take]; omega
    have hign : kIgn (kindOf s) = false := by
      cases hk : kIgn (kindOf s) with
      | false => rfl
      | true =>
        exfalso
        -- a path that stops in an ignored state does not exist: `Run` avoids them
        have hact : ∀ {a b : Nat} {u v : Str}, Run a u b v → kIgn (kindOf a) = false → kIgn (kindOf b) = false := by
          intro a b u v hrun
          induction hrun with
          | refl => exact id
          | @step a a1 b tt u v _ htr hact _ ih =>
            intro _
            apply ih
            cases hk1 : kIgn (kindOf a1) with
            | false => rfl
            | true =>
              have := (typOf_kind a1 (tr_lt htr)).2.2 hk1
              rw [hact] at this; cases this
        have := hact hr (by decide)
        rw [hk] at this; cases this
    have hcx : Cut x (o ++ (P ++ c :: z')) := by
      have : Cut x (o ++ (P ++ z)) := by rw [hre, ← hmid]; exact hcut
      rw [← List.append_assoc] at this ⊢
      exact this.left.ascii_ext hc z'
    have hrun := run_of_trs hcx (by decide) ht hign
    have := Scans.bad (inp := lit ++ (P ++ c :: z')) (lit := lit) (mid := o ++ (P ++ c :: z')) (s := s) (by simp)
      (by rw [hlit, List.append_assoc]; exact hrun)
      (by refine .inr ?_
          rw [hdo]
          rcases hst with h | h
          · exact absurd h hm
          · exact h) h0'
      (by rw [hdo, ← hol, List.drop_left])
    rw [hdo, ← hol, List.drop_left] at this
    exact this

theorem Toks.ne_nil {rem : Str} {ys : List (Str × Nat × Str)} (h : Toks rem ys) : ys ≠ [] := by cases h <;> simp

/-- The text up to the next token is never cut. -/
theorem Toks.cut {rem : Str} {pre post : List (Str × Nat × Str)} {sk lit : Str} {t : Nat} (h : Toks rem (pre ++ (sk, t, lit) :: post)) :
    Cut (Lex.flat pre ++ sk) (lit ++ Lex.flat post) := by
  induction pre generalizing rem with
  | nil =>
    simp only [List.nil_append, Lex.flat, List.flatMap_nil] at h ⊢
    cases h with
    | eof h => exact h.sound.2.1
    | cons h _ ht =>
      have := h.sound.2.1
      rw [ht.flat] at this
      exact this
  | cons y pre ih =>
    obtain ⟨sk0, t0, lit0⟩ := y
    generalize hys : (sk0, t0, lit0) :: pre ++ (sk, t, lit) :: post = ys at h
    cases h with
    | eof h =>
      have := congrArg List.length hys
      simp at this
    | cons h hne ht =>
      simp only [List.cons_append, List.cons.injEq, Prod.mk.injEq] at hys
      obtain ⟨⟨rfl, rfl, rfl⟩, rfl⟩ := hys
      have hs := h.sound
      have hf := ht.flat
      have e : Lex.flat (pre ++ (sk, t, lit) :: post) = (Lex.flat pre ++ sk) ++ (lit ++ Lex.flat post) := by
        simp [Lex.flat]
      rw [hf, e] at hs
      have h1 : Cut lit0 ((Lex.flat pre ++ sk) ++ (lit ++ Lex.flat post)) := hs.2.2.1
      have h2 : Cut sk0 (lit0 ++ ((Lex.flat pre ++ sk) ++ (lit ++ Lex.flat post))) := hs.2.1
      have h3 := ih ht
      have : Lex.flat ((sk0, t0, lit0) :: pre) ++ sk = sk0 ++ (lit0 ++ (Lex.flat pre ++ sk)) := by simp [Lex.flat]
      rw [this]
      refine Cut.append ?_ (Cut.append h1 h3)
      rw [List.append_assoc]; exact h2

/-- Layout before a token is skipped with the layout that is there. -/
theorem Toks.insert {w : Str} (hw : Layout w) {pre post : List (Str × Nat × Str)} {sk lit : Str} {t : Nat} {rem : Str}
    (h : Toks rem (pre ++ (sk, t, lit) :: post)) (hinv : t = 1 → ∀ y, pre.getLast? = some y → y.2.1 ≠ 0) :
    Toks (Lex.flat pre ++ sk ++ w ++ (lit ++ Lex.flat post)) (pre ++ (sk ++ w, t, lit) :: post) := by
  induction pre generalizing rem with
  | nil =>
    simp only [List.nil_append, Lex.flat, List.flatMap_nil] at h ⊢
    rw [List.append_assoc]
    cases h with
    | eof h =>
      have h1 := h.tail
      have hsk := h.sound.1
      have := (h1.layout hw).layout hsk
      simp only [List.append_nil, List.flatMap_nil] at this ⊢
      exact .eof this
    | cons h hne ht =>
      have hf := ht.flat
      have h1 := h.tail
      have hsk := h.sound.1
      have := (h1.layout hw).layout hsk
      simp only [List.append_nil] at this
      rw [hf] at this
      rw [hf] at ht
      exact .cons this hne ht
  | cons y pre ih =>
    obtain ⟨sk0, t0, lit0⟩ := y
    generalize hys : (sk0, t0, lit0) :: pre ++ (sk, t, lit) :: post = ys at h
    cases h with
    | eof h =>
      have := congrArg List.length hys
      simp at this
    | @cons _ _ _ rest _ _ h hne ht =>
      simp only [List.cons_append, List.cons.injEq, Prod.mk.injEq] at hys
      obtain ⟨⟨rfl, rfl, rfl⟩, rfl⟩ := hys
      have hf := ht.flat
      have e : Lex.flat (pre ++ (sk, t, lit) :: post) = (Lex.flat pre ++ sk) ++ (lit ++ Lex.flat post) := by
        simp [Lex.flat]
      have hcut := ht.cut
      have h2 := ih ht (fun h1 y hy => hinv h1 y (by
        cases pre with
        | nil => cases hy
        | cons a pre => rw [List.getLast?_cons_cons]; exact hy))
      have hrest : Scans (lit0 ++ (Lex.flat pre ++ sk ++ w ++ (lit ++ Lex.flat post))) [] t0 lit0
          (Lex.flat pre ++ sk ++ w ++ (lit ++ Lex.flat post)) := by
        have h1 := h.tail
        by_cases hwn : w = []
        · subst hwn
          rw [List.append_nil, ← e, ← hf]; exact h1
        · obtain ⟨c, w', rfl, hc, he⟩ := layout_head hw hwn
          rw [hf, e] at h1
          have := h1.change hne (fun h0 hnil => ?_) hcut hc he (w' ++ (lit ++ Lex.flat post))
          · simpa [List.append_assoc] using this
          · -- the rest is not empty unless only the end of input follows
            simp only [List.append_eq_nil_iff] at hnil
            obtain ⟨⟨hp, hsk⟩, hlit, _⟩ := hnil
            have hpre : pre = [] := by
              cases pre with
              | nil => rfl
              | cons a pre =>
                exfalso
                obtain ⟨ska, ta, lita⟩ := a
                have hla : lita ≠ [] := by
                  generalize hys : (ska, ta, lita) :: pre ++ (sk, t, lit) :: post = ys at ht
                  cases ht with
                  | eof =>
                    have := congrArg List.length hys
                    simp at this
                  | cons hsa hnea _ =>
                    simp only [List.cons_append, List.cons.injEq, Prod.mk.injEq] at hys
                    obtain ⟨⟨rfl, rfl, rfl⟩, rfl⟩ := hys
                    rcases hsa.sound.2.2.2 with h' | h' | h'
                    · exact absurd h'.1 hnea
                    · exact h'.2.2.1
                    · exact h'.2
                simp [Lex.flat] at hp
                exact hla hp.2.1
            subst hpre
            have ht1 : t = 1 := by
              cases ht with
              | eof => rfl
              | cons hsa hnea _ =>
                rcases hsa.sound.2.2.2 with h' | h' | h'
                · exact h'.1
                · exact absurd hlit h'.2.2.1
                · exact absurd hlit h'.2
            exact hinv ht1 (sk0, t0, lit0) rfl h0
      have h3 := hrest.layout h.sound.1
      rw [List.append_nil] at h3
      have : Lex.flat ((sk0, t0, lit0) :: pre) ++ sk ++ w ++ (lit ++ Lex.flat post) =
          sk0 ++ (lit0 ++ (Lex.flat pre ++ sk ++ w ++ (lit ++ Lex.flat post))) := by simp [Lex.flat]
      rw [this]
      exact .cons h3 hne h2

end Gographviz.Lex
