import Verif.Model.Lexer
import Verif.Proofs.Escape
/-!
The scanner in terms of its automaton: a scan skips layout chunks and then takes the longest path.
-/
namespace Gographviz.Lex

open Gographviz

/-! ### decoding in context -/

theorem ite_width {P : Prop} [Decidable P] {v e k m : Nat} (h : (if P then (v, k) else (e, 1)).2 ≤ m) (hk : m < k) :
    (e, 1) = if P then (v, k) else (e, 1) := by
  by_cases hP : P
  · rw [if_pos hP] at h; exact absurd h (by simp; omega)
  · rw [if_neg hP]

theorem decodeRune_append (x y : Str) (hx : x ≠ []) (h : (decodeRune (x ++ y)).2 ≤ x.length) :
    decodeRune x = decodeRune (x ++ y) := by
  cases x with
  | nil => exact absurd rfl hx
  | cons b0 x =>
    simp only [List.cons_append, List.length_cons] at h ⊢
    simp only [decodeRune] at h ⊢
    split
    · rfl
    · split
      · rename_i h0 h1
        rw [if_neg h0, if_pos h1] at h
        cases x with
        | nil =>
          simp only [List.nil_append, List.length_nil, Nat.zero_add] at h ⊢
          cases y with
          | nil => rfl
          | cons c y => exact ite_width h (by omega)
        | cons b1 x => rfl
      · split
        · rename_i h0 h1 h2
          rw [if_neg h0, if_neg h1, if_pos h2] at h
          rcases x with _ | ⟨b1, _ | ⟨b2, x⟩⟩
          · rcases y with _ | ⟨c, _ | ⟨c', y⟩⟩ <;> first | rfl | exact ite_width h (by simp)
          · rcases y with _ | ⟨c, y⟩ <;> first | rfl | exact ite_width h (by simp)
          · rfl
        · split
          · rename_i h0 h1 h2 h3
            rw [if_neg h0, if_neg h1, if_neg h2, if_pos h3] at h
            rcases x with _ | ⟨b1, _ | ⟨b2, _ | ⟨b3, x⟩⟩⟩
            · rcases y with _ | ⟨c, _ | ⟨c', _ | ⟨c'', y⟩⟩⟩ <;> first | rfl | exact ite_width h (by simp)
            · rcases y with _ | ⟨c, _ | ⟨c', y⟩⟩ <;> first | rfl | exact ite_width h (by simp)
            · rcases y with _ | ⟨c, y⟩ <;> first | rfl | exact ite_width h (by simp)
            · rfl
          · rfl

/-- An ASCII byte ends every rune before it. -/
theorem decodeRune_stop (x : Str) {c : Nat} (hc : c < 128) (y : Str) (hx : x ≠ []) :
    decodeRune (x ++ c :: y) = decodeRune x := by
  refine (decodeRune_append x (c :: y) hx ?_).symm
  cases x with
  | nil => exact absurd rfl hx
  | cons b x =>
    by_cases hb : b < 128
    · rw [List.cons_append, decodeRune_ascii hb]; simp
    · have h := decodeRune_high (by omega : 128 ≤ b) (x ++ c :: y)
      apply Classical.byContradiction
      intro hlt
      have hlt' : (b :: x).length < (decodeRune (b :: x ++ c :: y)).2 := by omega
      have := h.2.2.2 c (by
        have e : b :: (x ++ c :: y) = (b :: x) ++ c :: y := rfl
        rw [e] at *
        rw [List.take_append]
        apply List.mem_append.2 (.inr _)
        obtain ⟨k, hk⟩ : ∃ k, (decodeRune (b :: x ++ c :: y)).2 - (b :: x).length = k + 1 :=
          ⟨(decodeRune (b :: x ++ c :: y)).2 - (b :: x).length - 1, by omega⟩
        rw [hk]; simp)
      omega

theorem width_pos {inp : Str} (h : inp ≠ []) : 1 ≤ (decodeRune inp).2 ∧ (decodeRune inp).2 ≤ inp.length := by
  cases inp with
  | nil => exact absurd rfl h
  | cons b s => exact decodeRune_width s

theorem runes_step {inp : Str} (h : inp ≠ []) :
    runes inp = (decodeRune inp).1 :: runes (inp.drop (decodeRune inp).2) := by
  cases inp with
  | nil => exact absurd rfl h
  | cons b s => exact runes_cons b s

/-- The first rune on its own. -/
theorem runes_take {inp : Str} (h : inp ≠ []) : runes (inp.take (decodeRune inp).2) = [(decodeRune inp).1] := by
  have hw := width_pos h
  have hne : inp.take (decodeRune inp).2 ≠ [] := by
    intro h0
    have := congrArg List.length h0
    simp only [List.length_take, List.length_nil] at this
    omega
  have e : decodeRune (inp.take (decodeRune inp).2) = decodeRune inp := by
    have := decodeRune_append (inp.take (decodeRune inp).2) (inp.drop (decodeRune inp).2) hne
    rw [List.take_append_drop] at this
    apply this
    simp only [List.length_take]; omega
  rw [runes_step hne, e]
  have : (inp.take (decodeRune inp).2).drop (decodeRune inp).2 = [] := by
    rw [List.drop_eq_nil_iff]; simp only [List.length_take]; omega
  rw [this]; rfl

/-- `x` can be split off `x ++ y` without cutting a rune. -/
inductive Cut : Str → Str → Prop where
  | nil (y : Str) : Cut [] y
  | step {x y : Str} : x ≠ [] → (decodeRune (x ++ y)).2 ≤ x.length → Cut (x.drop (decodeRune (x ++ y)).2) y → Cut x y

theorem Cut.runes {x y : Str} (h : Cut x y) : Gographviz.runes (x ++ y) = Gographviz.runes x ++ Gographviz.runes y := by
  induction h with
  | nil y => rfl
  | @step x y hne hw _ ih =>
    have e := decodeRune_append x y hne hw
    rw [runes_step (by simp [hne] : x ++ y ≠ []), runes_step hne, e, List.cons_append, ← ih,
      List.drop_append_of_le_length hw]

theorem Cut.left {x y z : Str} (h : Cut x (y ++ z)) : Cut x y := by
  generalize hyz : y ++ z = w at h
  induction h with
  | nil => exact .nil _
  | @step x w hne hw _ ih =>
    subst hyz
    have e : decodeRune (x ++ y) = decodeRune (x ++ (y ++ z)) := by
      have := decodeRune_append (x ++ y) z (by simp [hne])
      rw [List.append_assoc] at this
      apply this
      rw [List.length_append]; omega
    refine .step hne (by rw [e]; exact hw) ?_
    rw [e]; exact ih rfl

theorem Cut.append {a b c : Str} (h : Cut a (b ++ c)) (h' : Cut b c) : Cut (a ++ b) c := by
  generalize hbc : b ++ c = w at h
  induction h with
  | nil => exact h'
  | @step a w hne hw _ ih =>
    subst hbc
    refine .step (by simp [hne]) ?_ ?_
    · rw [List.append_assoc, List.length_append]; omega
    · rw [List.append_assoc, List.drop_append_of_le_length hw]
      exact ih rfl

theorem cut_nil_right (x : Str) : Cut x [] := by
  generalize hn : x.length = n
  induction n using Nat.strongRecOn generalizing x with
  | _ n ih =>
    by_cases hx : x = []
    · subst hx; exact .nil _
    · have hw := width_pos hx
      refine .step hx (by rw [List.append_nil]; exact hw.2) ?_
      rw [List.append_nil]
      exact ih _ (by rw [← hn, List.length_drop]; omega) _ rfl

theorem cut_ascii_right (x : Str) {c : Nat} (hc : c < 128) (y : Str) : Cut x (c :: y) := by
  generalize hn : x.length = n
  induction n using Nat.strongRecOn generalizing x with
  | _ n ih =>
    by_cases hx : x = []
    · subst hx; exact .nil _
    · have hw := width_pos hx
      have e := decodeRune_stop x hc y hx
      refine .step hx (by rw [e]; exact hw.2) ?_
      rw [e]
      exact ih _ (by rw [← hn, List.length_drop]; omega) _ rfl

theorem cut_ascii_one {c : Nat} (hc : c < 128) (y : Str) : Cut [c] y := by
  refine .step (by simp) (by rw [List.singleton_append, decodeRune_ascii hc]; simp) ?_
  rw [List.singleton_append, decodeRune_ascii hc]
  exact .nil _

theorem cut_ascii_last (x : Str) {c : Nat} (hc : c < 128) (y : Str) : Cut (x ++ [c]) y :=
  (cut_ascii_right x hc y).append (cut_ascii_one hc y)

theorem runes_length_le (s : Str) : (runes s).length ≤ s.length := by
  induction s using runes_induct with
  | nil => simp
  | ascii b s hb ih => rw [runes_ascii hb]; simp; exact ih
  | high l s r hne _ _ he ih =>
    rw [he]; cases l with
    | nil => exact absurd rfl hne
    | cons a l => simp; omega

/-- Cutting after the first rune. -/
theorem cut_step {inp : Str} (h : inp ≠ []) : Cut (inp.take (decodeRune inp).2) (inp.drop (decodeRune inp).2) := by
  have hw := width_pos h
  refine .step ?_ ?_ ?_
  · intro h0
    have := congrArg List.length h0
    simp only [List.length_take, List.length_nil] at this
    omega
  · rw [List.take_append_drop, List.length_take]; omega
  · rw [List.take_append_drop]
    have : (inp.take (decodeRune inp).2).drop (decodeRune inp).2 = [] := by
      rw [List.drop_eq_nil_iff]; simp only [List.length_take]; omega
    rw [this]; exact .nil _

theorem cut_of_cut_step {inp x y : Str} (h : inp ≠ []) (he : inp.drop (decodeRune inp).2 = x ++ y)
    (hc : Cut x y) : Cut (inp.take (decodeRune inp).2 ++ x) y ∧ runes (inp.take (decodeRune inp).2 ++ x) = (decodeRune inp).1 :: runes x := by
  have h1 := cut_step h
  rw [he] at h1
  refine ⟨h1.append hc, ?_⟩
  rw [h1.left.runes, runes_take h]; rfl

/-! ### the automaton -/

/-- One step of the automaton. -/
def tr (s r : Nat) : Option Nat :=
  match transTab[s]? with
  | none => none
  | some row => transRow row r

/-- The token type of a state (0 for ignored states). -/
def typOf (s : Nat) : Nat := ((actTab[s]?).bind id).getD 0

theorem findCase_mem {r : Nat} {cs : List (Nat × Nat × Nat)} {t : Nat} (h : findCase r cs = some t) :
    ∃ lo hi, (lo, hi, t) ∈ cs ∧ lo ≤ r ∧ r ≤ hi := by
  induction cs with
  | nil => cases h
  | cons c cs ih =>
    obtain ⟨lo, hi, t'⟩ := c
    simp only [findCase] at h
    split at h
    · rename_i hr; cases h; exact ⟨lo, hi, by simp, hr⟩
    · obtain ⟨a, b, hm, hr⟩ := ih h; exact ⟨a, b, by simp [hm], hr⟩

/-- The number of states. -/
abbrev nStates : Nat := 141

theorem transTab_length : transTab.length = nStates := by decide +kernel
theorem actTab_length : actTab.length = nStates := by decide +kernel

theorem targets_ok : transTab.all (fun row => row.1.all (fun c => decide (c.2.2 < nStates)) && row.2.all (fun t => decide (t < nStates))) = true := by
  decide +kernel

theorem tr_lt {s r s' : Nat} (h : tr s r = some s') : s' < nStates := by
  unfold tr at h
  split at h
  · cases h
  · rename_i row hrow
    have hm := List.mem_of_getElem? hrow
    have := List.all_eq_true.1 targets_ok row hm
    rw [Bool.and_eq_true] at this
    unfold transRow at h
    split at h
    · rename_i t ht
      cases h
      obtain ⟨lo, hi, hm, _⟩ := findCase_mem ht
      exact of_decide_eq_true (List.all_eq_true.1 this.1 _ hm)
    · rw [h] at this; simpa using this.2

theorem actTab_get {s : Nat} (h : s < nStates) : ∃ a, actTab[s]? = some a := by
  have : s < actTab.length := by rw [actTab_length]; exact h
  exact ⟨_, List.getElem?_eq_getElem this⟩

theorem transTab_get {s : Nat} (h : s < nStates) : ∃ a, transTab[s]? = some a := by
  have : s < transTab.length := by rw [transTab_length]; exact h
  exact ⟨_, List.getElem?_eq_getElem this⟩

/-- A path of the automaton through accepting or rejecting, not ignored, states. -/
inductive Run : Nat → Str → Nat → Str → Prop where
  | refl (s : Nat) (inp : Str) : Run s inp s inp
  | step {s s1 s' t : Nat} {inp rest : Str} : inp ≠ [] → tr s (decodeRune inp).1 = some s1 → actTab[s1]? = some (some t) →
      Run s1 (inp.drop (decodeRune inp).2) s' rest → Run s inp s' rest

/-- No way on. -/
def Stuck (s : Nat) (rest : Str) : Prop := rest = [] ∨ tr s (decodeRune rest).1 = none

/-- The next step leads to an ignored state. -/
def Ign (s : Nat) (inp rest : Str) : Prop :=
  inp ≠ [] ∧ ∃ s1, tr s (decodeRune inp).1 = some s1 ∧ actTab[s1]? = some none ∧ rest = inp.drop (decodeRune inp).2

theorem Run.lt {s s' : Nat} {inp rest : Str} (h : Run s inp s' rest) (hs : s < nStates) : s' < nStates := by
  induction h with
  | refl => exact hs
  | step _ ht _ _ ih => exact ih (tr_lt ht)

theorem Run.cut {s s' : Nat} {inp rest : Str} (h : Run s inp s' rest) : ∃ x, inp = x ++ rest ∧ Cut x rest := by
  induction h with
  | refl s inp => exact ⟨[], rfl, .nil _⟩
  | @step s s1 s' t inp rest hne _ _ _ ih =>
    obtain ⟨x, hx, hc⟩ := ih
    refine ⟨inp.take (decodeRune inp).2 ++ x, ?_, (cut_of_cut_step hne hx hc).1⟩
    rw [List.append_assoc, ← hx, List.take_append_drop]

theorem Run.total (inp : Str) : ∀ s, s < nStates →
    (∃ s' rest, Run s inp s' rest ∧ Stuck s' rest) ∨ (∃ s' mid rest, Run s inp s' mid ∧ Ign s' mid rest) := by
  generalize hn : inp.length = n
  induction n using Nat.strongRecOn generalizing inp with
  | _ n ih =>
    intro s hs
    by_cases hne : inp = []
    · exact .inl ⟨s, inp, .refl _ _, .inl hne⟩
    · cases ht : tr s (decodeRune inp).1 with
      | none => exact .inl ⟨s, inp, .refl _ _, .inr ht⟩
      | some s1 =>
        obtain ⟨a, ha⟩ := actTab_get (tr_lt ht)
        cases a with
        | none => exact .inr ⟨s, inp, _, .refl _ _, hne, s1, ht, ha, rfl⟩
        | some t =>
          have hw := width_pos hne
          rcases ih (inp.drop (decodeRune inp).2).length (by rw [List.length_drop]; omega) _ rfl s1 (tr_lt ht) with
            ⟨s', rest, hr, hst⟩ | ⟨s', mid, rest, hr, hig⟩
          · exact .inl ⟨s', rest, .step hne ht ha hr, hst⟩
          · exact .inr ⟨s', mid, rest, .step hne ht ha hr, hig⟩

theorem Run.trans {a b c : Nat} {x y z : Str} (h : Run a x b y) (h' : Run b y c z) : Run a x c z := by
  induction h with
  | refl => exact h'
  | step hne ht ha _ ih => exact .step hne ht ha (ih h')

/-- Two maximal paths from the same place agree. -/
theorem Run.det_stuck {s a b : Nat} {inp x y : Str} (h : Run s inp a x) (h' : Run s inp b y) (ha : Stuck a x) (hb : Stuck b y) :
    a = b ∧ x = y := by
  induction h with
  | refl s inp =>
    cases h' with
    | refl => exact ⟨rfl, rfl⟩
    | step hne ht _ _ =>
      rcases ha with h0 | h0
      · exact absurd h0 hne
      · rw [h0] at ht; cases ht
  | step hne ht hact hr ih =>
    cases h' with
    | refl =>
      rcases hb with h0 | h0
      · exact absurd h0 hne
      · rw [h0] at ht; cases ht
    | step hne' ht' hact' hr' =>
      rw [ht] at ht'; cases ht'
      exact ih hr' ha

theorem Run.det_ign {s a b : Nat} {inp x y z : Str} (h : Run s inp a x) (h' : Run s inp b y) (ha : Ign a x z) :
    ¬ Stuck b y ∧ ∀ w, Ign b y w → z = w := by
  induction h with
  | refl s inp =>
    obtain ⟨hne, s1, ht, hact, rfl⟩ := ha
    cases h' with
    | refl =>
      refine ⟨?_, ?_⟩
      · rintro (h0 | h0)
        · exact hne h0
        · rw [h0] at ht; cases ht
      · rintro w ⟨_, s2, ht2, hact2, rfl⟩; rfl
    | step hne' ht' hact' hr' => rw [ht] at ht'; cases ht'; rw [hact] at hact'; cases hact'
  | step hne ht hact hr ih =>
    cases h' with
    | refl =>
      refine ⟨?_, ?_⟩
      · rintro (h0 | h0)
        · exact hne h0
        · rw [h0] at ht; cases ht
      · rintro w ⟨_, s2, ht2, hact2, rfl⟩
        rw [ht] at ht2; cases ht2; rw [hact] at hact2; cases hact2
    | step hne' ht' hact' hr' =>
      rw [ht] at ht'; cases ht'
      exact ih hr' ha

/-- What one call of `Scan` does: skipped text, type and text of the token, rest. -/
inductive Scans : Str → Str → Nat → Str → Str → Prop where
  | eof : Scans [] [] 1 [] []
  | skip {inp chunk mid rest sk lit rest' : Str} {s t : Nat} : Run 0 inp s mid → Ign s mid rest → inp = chunk ++ rest →
      Scans rest sk t lit rest' → Scans inp (chunk ++ sk) t lit rest'
  | tok {inp lit rest : Str} {s : Nat} : inp ≠ [] → Run 0 inp s rest → Stuck s rest → typOf s ≠ 0 → inp = lit ++ rest →
      Scans inp [] (typOf s) lit rest
  | bad {inp lit mid : Str} {s : Nat} : inp ≠ [] → Run 0 inp s mid → Stuck s mid → typOf s = 0 →
      inp = lit ++ mid.drop (decodeRune mid).2 → Scans inp [] 0 lit (mid.drop (decodeRune mid).2)

theorem Scans.append {inp sk lit rest : Str} {t : Nat} (h : Scans inp sk t lit rest) : inp = sk ++ (lit ++ rest) := by
  induction h with
  | eof => rfl
  | skip _ _ hc _ ih => rw [hc, ih, List.append_assoc]
  | tok _ _ _ _ he => exact he
  | bad _ _ _ _ he => exact he

theorem Scans.total (inp : Str) : ∃ sk t lit rest, Scans inp sk t lit rest := by
  generalize hn : inp.length = n
  induction n using Nat.strongRecOn generalizing inp with
  | _ n ih =>
    by_cases hne : inp = []
    · subst hne; exact ⟨_, _, _, _, .eof⟩
    · rcases Run.total inp 0 (by decide) with ⟨s, rest, hr, hst⟩ | ⟨s, mid, rest, hr, hig⟩
      · obtain ⟨x, hx, _⟩ := hr.cut
        by_cases ht : typOf s = 0
        · refine ⟨_, _, _, _, .bad (lit := x ++ rest.take (decodeRune rest).2) hne hr hst ht ?_⟩
          rw [List.append_assoc, List.take_append_drop, hx]
        · exact ⟨_, _, _, _, .tok hne hr hst ht hx⟩
      · obtain ⟨x, hx, _⟩ := hr.cut
        obtain ⟨hm, s1, ht, ha, rfl⟩ := hig
        have hw := width_pos hm
        have hlen := congrArg List.length hx
        rw [List.length_append] at hlen
        obtain ⟨sk, t, lit, rest', h⟩ := ih (mid.drop (decodeRune mid).2).length (by rw [List.length_drop]; omega) _ rfl
        refine ⟨_, _, _, _, .skip (chunk := x ++ mid.take (decodeRune mid).2) hr ⟨hm, s1, ht, ha, rfl⟩ ?_ h⟩
        rw [List.append_assoc, List.take_append_drop, hx]

theorem Scans.det {inp sk lit rest : Str} {t : Nat} (h : Scans inp sk t lit rest) :
    ∀ {sk' lit' rest' : Str} {t' : Nat}, Scans inp sk' t' lit' rest' → sk = sk' ∧ t = t' ∧ lit = lit' ∧ rest = rest' := by
  induction h with
  | eof =>
    intro sk' lit' rest' t' h'
    generalize hi : ([] : Str) = inp at h'
    cases h' with
    | eof => exact ⟨rfl, rfl, rfl, rfl⟩
    | skip hr hig _ _ =>
      subst hi
      cases hr with
      | refl => exact absurd rfl hig.1
      | step hne _ _ _ => exact absurd rfl hne
    | tok hne => exact absurd hi.symm hne
    | bad hne => exact absurd hi.symm hne
  | skip hr hig hc _ ih =>
    intro sk' lit' rest' t' h'
    cases h' with
    | eof =>
      cases hr with
      | refl => exact absurd rfl hig.1
      | step hne _ _ _ => exact absurd rfl hne
    | skip hr' hig' hc' h2 =>
      have := (hr.det_ign hr' hig).2 _ hig'
      subst this
      rw [hc] at hc'
      have := List.append_cancel_right hc'
      subst this
      obtain ⟨h1, h2, h3, h4⟩ := ih h2
      exact ⟨by rw [h1], h2, h3, h4⟩
    | tok _ hr' hst' => exact absurd hst' (hr.det_ign hr' hig).1
    | bad _ hr' hst' => exact absurd hst' (hr.det_ign hr' hig).1
  | tok hne hr hst ht he =>
    intro sk' lit' rest' t' h'
    cases h' with
    | eof => exact absurd rfl hne
    | skip hr' hig' hc' h2 => exact absurd hst (hr'.det_ign hr hig').1
    | tok _ hr' hst' ht' he' =>
      obtain ⟨rfl, rfl⟩ := hr.det_stuck hr' hst hst'
      rw [he] at he'
      exact ⟨rfl, rfl, List.append_cancel_right he', rfl⟩
    | bad _ hr' hst' ht' he' =>
      obtain ⟨rfl, rfl⟩ := hr.det_stuck hr' hst hst'
      exact absurd ht' ht
  | bad hne hr hst ht he =>
    intro sk' lit' rest' t' h'
    cases h' with
    | eof => exact absurd rfl hne
    | skip hr' hig' hc' h2 => exact absurd hst (hr'.det_ign hr hig').1
    | tok _ hr' hst' ht' he' =>
      obtain ⟨rfl, rfl⟩ := hr.det_stuck hr' hst hst'
      exact absurd ht ht'
    | bad _ hr' hst' ht' he' =>
      obtain ⟨rfl, rfl⟩ := hr.det_stuck hr' hst hst'
      rw [he] at he'
      exact ⟨rfl, rfl, List.append_cancel_right he', rfl⟩

/-! ### the loop of `Scan` -/

/-- Lines and columns over a list of runes. -/
def advR (lc : Nat × Nat) (rs : List Nat) : Nat × Nat := rs.foldl (fun lc r => advance r lc.1 lc.2) lc

theorem advR_append (lc : Nat × Nat) (a b : List Nat) : advR lc (a ++ b) = advR (advR lc a) b := by
  simp [advR]

theorem drop_drop_eq {src inp : Str} {p : Nat} (h : src.drop p = inp) (n : Nat) : src.drop (p + n) = inp.drop n := by
  rw [← h, List.drop_drop]

theorem length_of_drop {src inp : Str} {p : Nat} (hp : p ≤ src.length) (h : src.drop p = inp) : p + inp.length = src.length := by
  rw [← h, List.length_drop]; omega

theorem loop_run {src : Str} {s s' : Nat} {inp rest : Str} (h : Run s inp s' rest) :
    ∀ (st : ScanSt), st.state = s → src.drop st.pos = inp → st.pos ≤ src.length → st.typ = typOf s →
      ∃ k e, ∃ x, inp = x ++ rest ∧ Cut x rest ∧ k + rest.length ≤ inp.length ∧ (rest ≠ inp → e = st.pos + x.length) ∧ (rest = inp → e = st.end_) ∧
        ∀ n, scanLoop src (n + k) st = scanLoop src n
          { st with state := s', pos := st.pos + x.length, line := (advR (st.line, st.column) (runes x)).1,
                    column := (advR (st.line, st.column) (runes x)).2, typ := typOf s', end_ := e } := by
  induction h with
  | refl s inp =>
    intro st hs hd hp ht
    refine ⟨0, st.end_, [], rfl, .nil _, by omega, fun h => absurd rfl h, fun _ => rfl, ?_⟩
    intro n
    subst hs
    rw [← ht]
    rfl
  | @step s s1 s' t inp rest hne htr hact hrun ih =>
    intro st hs hd hp ht
    have hw := width_pos hne
    have hlen := length_of_drop hp hd
    obtain ⟨k, e, x, hx, hcut, hk, he1, he2, hloop⟩ := ih
      { st with state := s1, pos := st.pos + (decodeRune inp).2, line := (advance (decodeRune inp).1 st.line st.column).1,
                column := (advance (decodeRune inp).1 st.line st.column).2, typ := t, end_ := st.pos + (decodeRune inp).2 }
      rfl (drop_drop_eq hd _) (by show st.pos + _ ≤ _; omega) (by simp [typOf, hact])
    obtain ⟨hc1, hc2⟩ := cut_of_cut_step hne hx hcut
    have hinp : inp = inp.take (decodeRune inp).2 ++ x ++ rest := by rw [List.append_assoc, ← hx, List.take_append_drop]
    have hxl : (inp.take (decodeRune inp).2 ++ x).length = (decodeRune inp).2 + x.length := by
      rw [List.length_append, List.length_take]; omega
    refine ⟨k + 1, e, inp.take (decodeRune inp).2 ++ x, hinp, hc1, ?_, ?_, ?_, ?_⟩
    · rw [List.length_drop] at hk; omega
    · intro _
      rw [hxl]
      by_cases hr : rest = inp.drop (decodeRune inp).2
      · rw [he2 hr]
        have : x = [] := by
          rw [← hr] at hx
          have := congrArg List.length hx
          rw [List.length_append] at this
          exact List.eq_nil_of_length_eq_zero (by omega)
        rw [this]; simp
      · rw [he1 hr]; show st.pos + _ + _ = _; omega
    · intro h0
      have := congrArg List.length hx
      rw [List.length_append, List.length_drop] at this
      rw [h0] at this; omega
    · intro n
      have hpos : ¬ st.pos ≥ src.length := by omega
      rw [show n + (k + 1) = (n + k) + 1 from by omega]
      simp only [scanLoop]
      rw [if_neg hpos]
      subst hs
      rw [hd]
      unfold tr at htr
      split at htr
      · cases htr
      · rename_i row hrow
        simp only [hrow, htr, hact]
        rw [hloop n]
        congr 1
        have hadv : advR (st.line, st.column) (runes (inp.take (decodeRune inp).2 ++ x)) =
            advR (advance (decodeRune inp).1 st.line st.column) (runes x) := by
          rw [hc2]; rfl
        rw [hxl, hadv]
        simp only [ScanSt.mk.injEq]
        refine ⟨trivial, trivial, trivial, trivial, trivial, trivial, ?_, trivial, trivial⟩
        omega

/-- Ignored states are only entered from states that accept nothing. -/
theorem ign_typ0 : ∀ s < nStates, typOf s ≠ 0 →
    (transTab[s]?.all fun row => row.1.all (fun c => decide (actTab[c.2.2]? ≠ some none)) && row.2.all (fun t => decide (actTab[t]? ≠ some none))) = true := by
  decide +kernel

theorem Ign.typ0 {s : Nat} {inp rest : Str} (h : Ign s inp rest) (hs : s < nStates) : typOf s = 0 := by
  apply Classical.byContradiction
  intro hne
  obtain ⟨_, s1, ht, ha, _⟩ := h
  have := ign_typ0 s hs hne
  unfold tr at ht
  split at ht
  · cases ht
  · rename_i row hrow
    rw [hrow] at this
    simp only [Option.all_some, Bool.and_eq_true] at this
    unfold transRow at ht
    split at ht
    · rename_i t hf
      cases ht
      obtain ⟨lo, hi, hm, _⟩ := findCase_mem hf
      exact of_decide_eq_true (List.all_eq_true.1 this.1 _ hm) ha
    · rw [ht] at this; simp only [Option.all_some, decide_eq_true_eq] at this; exact this.2 ha

theorem Run.length {s s' : Nat} {inp rest : Str} (h : Run s inp s' rest) : rest.length ≤ inp.length ∧ (rest.length = inp.length → s = s' ∧ rest = inp) := by
  induction h with
  | refl => exact ⟨Nat.le_refl _, fun _ => ⟨rfl, rfl⟩⟩
  | step hne _ _ _ ih =>
    have hw := width_pos hne
    rw [List.length_drop] at ih
    exact ⟨by omega, fun h => by omega⟩

/-- What the loop leaves behind. -/
structure LoopDone (st st' : ScanSt) (sk lit : Str) (t : Nat) : Prop where
  typ : st'.typ = t
  start : st'.start = st.start + sk.length
  pos0 : (st'.startLine, st'.startColumn) = advR (st.line, st.column) (runes sk)
  full : lit ≠ [] → st'.end_ = st'.start + lit.length
  empty : lit = [] → st'.end_ ≤ st'.start ∧ st'.pos = st'.start
  pos1 : t ≠ 0 → (st'.line, st'.column) = advR (st.line, st.column) (runes (sk ++ lit))

theorem loop_scans {src inp sk lit rest : Str} {t : Nat} (h : Scans inp sk t lit rest) :
    ∀ (st : ScanSt) (n : Nat), st.state = 0 → src.drop st.pos = inp → st.pos ≤ src.length → st.start = st.pos →
      st.startLine = st.line → st.startColumn = st.column → st.end_ ≤ st.start → (st.typ = if inp = [] then 1 else 0) →
      inp.length + 1 ≤ n → ∃ st', scanLoop src n st = some st' ∧ LoopDone st st' sk lit t := by
  induction h with
  | eof =>
    intro st n hs hd hp hst hl hc he ht hn
    have hlen := length_of_drop hp hd
    cases n with
    | zero => simp at hn
    | succ n =>
      simp only [if_true] at ht
      refine ⟨st, ?_, ht, by simp, by simp [advR, hl, hc], fun h => absurd rfl h, fun _ => ⟨he, hst.symm⟩, fun _ => by simp [advR]⟩
      simp only [scanLoop]
      rw [if_pos (by simp at hlen; omega), if_neg (by omega)]
  | @skip inp chunk mid rest sk lit rest' s t hr hig hck _ ih =>
    intro st n hs hd hp hst hl hc he ht hn
    have hinp : inp ≠ [] := by
      intro h0; subst h0
      cases hr with
      | refl => exact hig.1 rfl
      | step hne _ _ _ => exact hne rfl
    rw [if_neg hinp] at ht
    have hs141 : s < nStates := hr.lt (by decide)
    have htyp := hig.typ0 hs141
    obtain ⟨k, e, x, hx, hcut, hk, he1, he2, hloop⟩ := loop_run (src := src) hr st hs hd hp (by rw [ht]; decide +kernel)
    obtain ⟨hm, s1, htr, hact, hrest⟩ := hig
    have hw := width_pos hm
    have hlen := length_of_drop hp hd
    have hlx := congrArg List.length hx
    rw [List.length_append] at hlx
    have hchunk : chunk = x ++ mid.take (decodeRune mid).2 := by
      have : chunk ++ rest = (x ++ mid.take (decodeRune mid).2) ++ rest := by
        rw [← hck, List.append_assoc, hrest, List.take_append_drop, hx]
      exact List.append_cancel_right this
    have hcl : chunk.length = x.length + (decodeRune mid).2 := by
      rw [hchunk, List.length_append, List.length_take]; omega
    have hcutm := cut_step hm
    rw [← hrest] at hcutm
    have hcc : Cut chunk rest := by
      rw [hchunk]
      refine Cut.append ?_ hcutm
      rw [hrest, List.take_append_drop]; exact hcut
    have hrc : runes chunk = runes x ++ [(decodeRune mid).1] := by
      rw [hchunk, ← runes_take hm]
      apply Cut.runes
      apply Cut.left (z := rest)
      rw [hrest, List.take_append_drop]; exact hcut
    obtain ⟨m, hmn⟩ : ∃ m, n = (m + 1) + k := ⟨n - k - 1, by omega⟩
    subst hmn
    rw [hloop]
    have hadv : advR (st.line, st.column) (runes chunk) =
        advance (decodeRune mid).1 (advR (st.line, st.column) (runes x)).1 (advR (st.line, st.column) (runes x)).2 := by
      rw [hrc, advR_append]; rfl
    generalize hlc : advR (st.line, st.column) (runes x) = lc at hadv
    obtain ⟨st', h1, h2⟩ := ih
      { st with start := st.pos + x.length + (decodeRune mid).2
                startLine := (advance (decodeRune mid).1 lc.1 lc.2).1
                startColumn := (advance (decodeRune mid).1 lc.1 lc.2).2
                state := 0, pos := st.pos + x.length + (decodeRune mid).2
                line := (advance (decodeRune mid).1 lc.1 lc.2).1
                column := (advance (decodeRune mid).1 lc.1 lc.2).2
                typ := if st.pos + x.length + (decodeRune mid).2 ≥ src.length then 1 else typOf s, end_ := e } m rfl
      (by show src.drop (st.pos + x.length + _) = rest
          rw [drop_drop_eq (inp := mid) (by rw [drop_drop_eq hd, hx, List.drop_left]), hrest])
      (by show st.pos + x.length + _ ≤ _; omega) rfl rfl rfl
      (by show e ≤ st.pos + x.length + _
          by_cases hmi : mid = inp
          · rw [he2 hmi]; omega
          · rw [he1 hmi]; omega)
      (by show (if _ then 1 else typOf s) = _
          have : rest.length = mid.length - (decodeRune mid).2 := by rw [hrest, List.length_drop]
          by_cases hr0 : rest = []
          · rw [if_pos hr0, if_pos]; rw [hr0] at this; simp at this; omega
          · have : rest.length ≠ 0 := by simpa using hr0
            rw [if_neg hr0, if_neg (by omega), htyp])
      (by have : rest.length = mid.length - (decodeRune mid).2 := by rw [hrest, List.length_drop]
          omega)
    refine ⟨st', ?_, ?_⟩
    · simp only [scanLoop]
      rw [if_neg (by omega)]
      have hdm : src.drop (st.pos + x.length) = mid := by rw [drop_drop_eq hd, hx, List.drop_left]
      rw [hdm]
      unfold tr at htr
      split at htr
      · cases htr
      · rename_i row hrow
        simp only [hrow, htr, hact]
        rw [← h1]
    · refine ⟨h2.typ, ?_, ?_, h2.full, h2.empty, ?_⟩
      · rw [h2.start, List.length_append, hcl, hst]; simp only; omega
      · rw [h2.pos0]
        have hcs : Cut chunk sk := by
          rename_i hsc
          rw [hsc.append] at hcc
          exact hcc.left
        rw [hcs.runes, advR_append, hadv]
      · intro h0
        rw [h2.pos1 h0, List.append_assoc]
        have hcs : Cut chunk (sk ++ lit) := by
          rename_i hsc
          rw [hsc.append, ← List.append_assoc] at hcc
          exact hcc.left
        rw [hcs.runes, advR_append, hadv]
  | @tok inp lit rest s hne hr hstk ht0 hlit =>
    intro st n hs hd hp hst hl hc he ht hn
    rw [if_neg hne] at ht
    have hs141 : s < nStates := hr.lt (by decide)
    obtain ⟨k, e, x, hx, hcut, hk, he1, he2, hloop⟩ := loop_run (src := src) hr st hs hd hp (by rw [ht]; decide +kernel)
    have hlen := length_of_drop hp hd
    have hlx := congrArg List.length hx
    rw [List.length_append] at hlx
    have hxl : lit = x := List.append_cancel_right (hlit.symm.trans hx)
    subst hxl
    have hri : rest ≠ inp := by
      intro h0
      have := (hr.length).2 (by rw [h0])
      rw [← this.1] at ht0
      exact ht0 (by decide +kernel)
    have hlne : lit ≠ [] := by
      intro h0; rw [h0] at hx; exact hri hx.symm
    obtain ⟨m, hmn⟩ : ∃ m, n = (m + 1) + k := ⟨n - k - 1, by omega⟩
    subst hmn
    rw [hloop]
    simp only [scanLoop]
    rw [he1 hri]
    by_cases hr0 : rest = []
    · have hr0l : rest.length = 0 := by rw [hr0]; rfl
      rw [if_pos (by omega), if_neg ht0]
      refine ⟨_, rfl, rfl, by simp, by simp [advR, hl, hc], fun _ => by simp [hst], fun h => absurd h hlne, fun _ => by simp⟩
    · have hr0l : rest.length ≠ 0 := by simpa using hr0
      rw [if_neg (by omega)]
      have hdm : src.drop (st.pos + lit.length) = rest := by rw [drop_drop_eq hd, hx, List.drop_left]
      rw [hdm]
      have htr : tr s (decodeRune rest).1 = none := by
        rcases hstk with h0 | h0
        · exact absurd h0 hr0
        · exact h0
      obtain ⟨row, hrow⟩ := transTab_get hs141
      unfold tr at htr
      rw [hrow] at htr
      simp only at htr
      simp only [hrow, htr]
      rw [if_neg ht0]
      refine ⟨_, rfl, rfl, by simp, by simp [advR, hl, hc], fun _ => by simp [hst], fun h => absurd h hlne, fun _ => by simp⟩
  | @bad inp lit mid s hne hr hstk ht0 hlit =>
    intro st n hs hd hp hst hl hc he ht hn
    rw [if_neg hne] at ht
    have hs141 : s < nStates := hr.lt (by decide)
    obtain ⟨k, e, x, hx, hcut, hk, he1, he2, hloop⟩ := loop_run (src := src) hr st hs hd hp (by rw [ht]; decide +kernel)
    have hlen := length_of_drop hp hd
    have hlx := congrArg List.length hx
    rw [List.length_append] at hlx
    obtain ⟨m, hmn⟩ : ∃ m, n = (m + 1) + k := ⟨n - k - 1, by omega⟩
    subst hmn
    rw [hloop]
    simp only [scanLoop]
    have hlitl := congrArg List.length hlit
    rw [List.length_append, List.length_drop] at hlitl
    by_cases hr0 : mid = []
    · subst hr0
      have hw0 : (decodeRune []).2 = 0 := rfl
      rw [hw0] at hlitl
      rw [if_pos (by simp at hlx; omega), if_pos ht0]
      have hlne : lit ≠ [] := by intro h0; rw [h0] at hlit; simp at hlit; exact hne hlit
      refine ⟨_, rfl, ht0, by simp, by simp [advR, hl, hc], fun _ => ?_, fun h => absurd h hlne, fun h => absurd rfl h⟩
      simp at hlx hlitl ⊢; omega
    · have hr0l : mid.length ≠ 0 := by simpa using hr0
      have hw := width_pos hr0
      rw [if_neg (by omega)]
      have hdm : src.drop (st.pos + x.length) = mid := by rw [drop_drop_eq hd, hx, List.drop_left]
      rw [hdm]
      have htr : tr s (decodeRune mid).1 = none := by
        rcases hstk with h0 | h0
        · exact absurd h0 hr0
        · exact h0
      obtain ⟨row, hrow⟩ := transTab_get hs141
      unfold tr at htr
      rw [hrow] at htr
      simp only at htr
      simp only [hrow, htr]
      rw [if_pos ht0]
      have hlne : lit ≠ [] := by intro h0; rw [h0] at hlitl; simp at hlitl; omega
      refine ⟨_, rfl, ht0, by simp, by simp [advR, hl, hc], fun _ => ?_, fun h => absurd h hlne, fun h => absurd rfl h⟩
      simp; omega

/-- What `Scan` returns. -/
theorem scan_scans {l : Lexer} (hp : l.pos ≤ l.src.length) {sk lit rest : Str} {t : Nat}
    (h : Scans (l.src.drop l.pos) sk t lit rest) :
    ∃ line column, scan l = some (⟨t, lit, l.pos + sk.length, (advR (l.line, l.column) (runes sk)).1, (advR (l.line, l.column) (runes sk)).2⟩,
        ⟨l.src, l.pos + sk.length + lit.length, line, column⟩) ∧
      (t ≠ 0 → (line, column) = advR (l.line, l.column) (runes (sk ++ lit))) := by
  by_cases hend : l.pos ≥ l.src.length
  · have hd : l.src.drop l.pos = [] := by rw [List.drop_eq_nil_iff]; exact hend
    rw [hd] at h
    obtain ⟨rfl, rfl, rfl, rfl⟩ := h.det .eof
    refine ⟨l.line, l.column, ?_, fun _ => by simp [advR]⟩
    unfold scan; rw [if_pos hend]
    simp [advR]
  · have hd : l.src.drop l.pos ≠ [] := by rw [ne_eq, List.drop_eq_nil_iff]; exact hend
    obtain ⟨st', h1, h2⟩ := loop_scans (src := l.src) h ⟨l.pos, l.line, l.column, 0, 0, 0, l.pos, l.line, l.column⟩
      (l.src.length - l.pos + 1) rfl rfl hp rfl rfl rfl (by simp) (by rw [if_neg hd]) (by rw [List.length_drop]; omega)
    have happ := h.append
    have hp0 := h2.pos0
    have hst := h2.start
    simp only [Prod.ext_iff] at hp0
    simp only at hst
    by_cases hlit : lit = []
    · obtain ⟨e1, e2⟩ := h2.empty hlit
      refine ⟨st'.line, st'.column, ?_, h2.pos1⟩
      unfold scan; rw [if_neg hend]
      simp only [h1]
      rw [if_neg (by omega), h2.typ, hst, e2, hp0.1, hp0.2, hst, hlit]
      rfl
    · have e1 := h2.full hlit
      have hl0 : lit.length ≠ 0 := by simpa using hlit
      refine ⟨st'.line, st'.column, ?_, h2.pos1⟩
      unfold scan; rw [if_neg hend]
      simp only [h1]
      rw [if_pos (by omega), h2.typ, e1, hst, hp0.1, hp0.2]
      have : (l.src.drop (l.pos + sk.length)).take (l.pos + sk.length + lit.length - (l.pos + sk.length)) = lit := by
        rw [drop_drop_eq rfl, happ, List.drop_left, Nat.add_sub_cancel_left, List.take_left]
      rw [this]

end Gographviz.Lex
