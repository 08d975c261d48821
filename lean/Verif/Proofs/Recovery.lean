import Verif.Model.Errors
import Verif.Proofs.LR
/-!
The parser never recovers from an error: the model with error recovery is the model without.
-/
namespace Gographviz.Parse

open Gographviz Gographviz.Lex

theorem canRecover_none : canRecoverTab.length = 128 ∧ (canRecoverTab.all fun b => !b) = true := by decide +kernel

theorem no_error_action : (actionTab.all fun row => (rowAction row (tokType (b!"error"))).isNone) = true := by decide +kernel

theorem firstRecoveryState_false {l : List Nat} (hne : l ≠ []) (h : ∀ s ∈ l, s < 128) : firstRecoveryState l = some (0, false) := by
  induction l with
  | nil => exact absurd rfl hne
  | cons s l ih =>
    have hs : canRecoverTab[s]? = some false := by
      have hlt : s < canRecoverTab.length := by rw [canRecover_none.1]; exact h s (by simp)
      rw [List.getElem?_eq_getElem hlt]
      have := List.all_eq_true.mp canRecover_none.2 _ (List.getElem_mem hlt)
      simpa using this
    unfold firstRecoveryState
    rw [hs]
    cases l with
    | nil => rfl
    | cons a l => exact ih (by simp) (fun x hx => h x (by simp [hx]))

variable {σ : Type} {scan : σ → Option (Token × σ)} {rnd : Nat → Nat}

/-- All states on the stack have rows in the tables. -/
def InTab (stk : List (Nat × Attrib)) : Prop := ∀ e ∈ stk, e.1 < 128

theorem stepFull_eq (f : Nat) {st : PState σ} (h : InTab st.stack) : stepFull scan rnd f st = step scan rnd st := by
  cases hstk : st.stack with
  | nil => simp only [stepFull, step, hstk]
  | cons x rest =>
    obtain ⟨top, a⟩ := x
    have hlt : top < actionTab.length := by rw [lengths.1]; exact h (top, a) (by simp [hstk])
    obtain ⟨row, hrow⟩ : ∃ row, actionTab[top]? = some row := ⟨_, List.getElem?_eq_getElem hlt⟩
    cases hact : rowAction row st.next.typ with
    | some act => simp only [stepFull, hstk, hrow, hact]
    | none =>
      have hpop : popNonRecoveryStates st.stack = some ((top, a) :: rest) := by
        unfold popNonRecoveryStates
        rw [firstRecoveryState_false (by simp [hstk])]
        · simp [hstk]
        · intro s hs
          obtain ⟨e, he, rfl⟩ := List.mem_map.mp hs
          exact h e he
      have herr : rowAction row (tokType (b!"error")) = none := by
        have := List.all_eq_true.mp no_error_action row (List.mem_of_getElem? hrow)
        simpa using this
      rw [hstk] at hpop
      simp only [stepFull, hstk, hrow, hact, recover, hpop, herr, step, newError]

theorem shift_lt : (actionTab.all fun row => row.all fun e => match e.2 with
  | .shift s => decide (s < 128)
  | _ => true) = true := by decide +kernel

theorem goto_lt : (gotoTab.all fun row => row.all fun e => match e with
  | some s => decide (s < 128)
  | none => true) = true := by decide +kernel

theorem step_inTab {st st' : PState σ} (h : InTab st.stack) (hs : step scan rnd st = .cont st') : InTab st'.stack := by
  cases hstk : st.stack with
  | nil => simp only [step, hstk] at hs; cases hs
  | cons x rest =>
    obtain ⟨top, a⟩ := x
    rw [hstk] at h
    simp only [step, hstk] at hs
    split at hs
    · cases hs
    · rename_i row hrow
      split at hs
      · cases hs
      · cases hs
      · rename_i s hact
        split at hs
        · cases hs
        · cases hs
          intro e he
          rcases List.mem_cons.mp he with rfl | he
          · have := List.all_eq_true.mp (List.all_eq_true.mp shift_lt row (List.mem_of_getElem? hrow)) _ (rowAction_mem hact)
            simpa using this
          · exact h e he
      · split at hs
        · split at hs
          · cases hs
          · split at hs
            · cases hs
            · cases hs
            · split at hs
              · cases hs
              · rename_i hdrop
                split at hs
                · cases hs
                · rename_i grow hgrow
                  split at hs
                  · rename_i s' hg
                    cases hs
                    intro e he
                    rcases List.mem_cons.mp he with rfl | he
                    · have := List.all_eq_true.mp (List.all_eq_true.mp goto_lt grow (List.mem_of_getElem? hgrow)) _ (List.mem_of_getElem? hg)
                      simpa using this
                    · exact h e (List.mem_of_mem_drop (hdrop ▸ he))
                  · cases hs
        · cases hs

theorem loopFull_eq (f : Nat) (n : Nat) {st : PState σ} (h : InTab st.stack) : loopFull scan rnd f n st = loop scan rnd n st := by
  induction n generalizing st with
  | zero => rfl
  | succ n ih =>
    simp only [loopFull, loop, stepFull_eq f h]
    cases hs : step scan rnd st with
    | stop r => rfl
    | cont st' => exact ih (step_inTab h hs)

/-- Error recovery changes nothing. -/
theorem parseFull_eq (scan : σ → Option (Token × σ)) (rnd : Nat → Nat) (f fuel cnt : Nat) (sc : σ) :
    parseFull scan rnd f fuel cnt sc = parse scan rnd fuel cnt sc := by
  unfold parseFull parse
  cases scan sc with
  | none => rfl
  | some p => exact loopFull_eq f fuel (by intro e he; simp at he; subst he; decide)

end Gographviz.Parse
