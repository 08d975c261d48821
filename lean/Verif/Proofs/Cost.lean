import Verif.Model.Cost
import Verif.Proofs.Lex
import Verif.Props.LexProps
/-!
Counting.
-/
namespace Gographviz.Parse

open Gographviz Gographviz.Lex Gographviz.Props

/-! ### the same results -/

theorem scanLoopC_eq (src : Str) : ∀ (n : Nat) (st : ScanSt) (k : Nat), (scanLoopC src n st k).map (·.1) = scanLoop src n st := by
  intro n
  induction n with
  | zero => intro st k; rfl
  | succ n ih =>
    intro st k
    unfold scanLoopC scanLoop
    split
    · rfl
    · rcases decodeRune (src.drop st.pos) with ⟨r, size⟩
      dsimp only
      cases transTab[st.state]? with
      | none => rfl
      | some row =>
        dsimp only
        cases transRow row r with
        | none => rfl
        | some s =>
          dsimp only
          rcases advance r st.line st.column with ⟨line, column⟩
          dsimp only
          cases actTab[s]? with
          | none => rfl
          | some a =>
            cases a with
            | none => exact ih _ _
            | some t => exact ih _ _

theorem scanC_eq (x : Lexer × Nat) : (scanC x).map (fun y => (y.1, y.2.1)) = scan x.1 := by
  unfold scanC scan
  dsimp only
  split
  · rfl
  · have h := scanLoopC_eq x.1.src (x.1.src.length - x.1.pos + 1) ⟨x.1.pos, x.1.line, x.1.column, 0, 0, 0, x.1.pos, x.1.line, x.1.column⟩ x.2
    rw [← h]
    cases scanLoopC x.1.src (x.1.src.length - x.1.pos + 1) ⟨x.1.pos, x.1.line, x.1.column, 0, 0, 0, x.1.pos, x.1.line, x.1.column⟩ x.2 with
    | none => rfl
    | some y =>
      simp only [Option.map_some]
      split <;> rfl

/-- A parser state without the counter. -/
def PState.forget (st : PState (Lexer × Nat)) : PState Lexer := ⟨st.stack, st.next, st.sc.1, st.cnt⟩

/-- A step without the counter. -/
def PStep.forget : PStep (Lexer × Nat) → PStep Lexer
  | .cont st => .cont st.forget
  | .stop r => .stop r

theorem step_forget (rnd : Nat → Nat) (st : PState (Lexer × Nat)) : (step scanC rnd st).forget = step scan rnd st.forget := by
  obtain ⟨stack, next, sc, cnt⟩ := st
  have hs := scanC_eq sc
  cases stack with
  | nil => rfl
  | cons x rest =>
    obtain ⟨top, a⟩ := x
    unfold step PState.forget
    dsimp only
    cases actionTab[top]? with
    | none => rfl
    | some row =>
      dsimp only
      cases rowAction row next.typ with
      | none => rfl
      | some act =>
        cases act with
        | accept => rfl
        | shift s =>
          dsimp only
          rw [← hs]
          cases scanC sc with
          | none => rfl
          | some y => rfl
        | reduce p =>
          dsimp only
          split
          · split
            · rfl
            · split
              · rfl
              · rfl
              · split
                · rfl
                · split
                  · rfl
                  · split <;> rfl
          · rfl

theorem loopC_eq (rnd : Nat → Nat) : ∀ (n i : Nat) (st : PState (Lexer × Nat)), (loopC scanC rnd n i st).1 = loop scan rnd n st.forget := by
  intro n
  induction n with
  | zero => intro i st; rfl
  | succ n ih =>
    intro i st
    unfold loopC loop
    rw [← step_forget]
    cases h : step scanC rnd st with
    | stop r => rfl
    | cont st' => exact ih (i + 1) st'

theorem parseC_eq (rnd : Nat → Nat) (fuel cnt : Nat) (src : Str) : (parseC rnd fuel cnt src).1 = parse scan rnd fuel cnt (newLexer src) := by
  unfold parseC parse
  have hs := scanC_eq (newLexer src, 0)
  rw [← hs]
  cases scanC (newLexer src, 0) with
  | none => rfl
  | some y => exact loopC_eq rnd fuel 0 _

/-! ### the iterations of the parser -/

theorem loopC_le (rnd : Nat → Nat) : ∀ (n i : Nat) (st : PState (Lexer × Nat)), (loopC scanC rnd n i st).2.1 ≤ i + n := by
  intro n
  induction n with
  | zero => intro i st; exact Nat.le_refl _
  | succ n ih =>
    intro i st
    unfold loopC
    cases step scanC rnd st with
    | stop r => dsimp only; omega
    | cont st' =>
      have := ih (i + 1) st'
      dsimp only
      omega

/-- More fuel makes no difference. -/
theorem loopC_more (rnd : Nat → Nat) : ∀ (n m i : Nat) (st : PState (Lexer × Nat)), (loopC scanC rnd n i st).1 ≠ .diverge → n ≤ m →
    loopC scanC rnd m i st = loopC scanC rnd n i st := by
  intro n
  induction n with
  | zero => intro m i st h; exact absurd rfl h
  | succ n ih =>
    intro m i st h hle
    obtain ⟨m, rfl⟩ : ∃ k, m = k + 1 := ⟨m - 1, by omega⟩
    unfold loopC at h ⊢
    cases hs : step scanC rnd st with
    | stop r => rfl
    | cont st' =>
      rw [hs] at h
      exact ih m (i + 1) st' h (by omega)

/-! ### the characters that are decoded -/

/-- From a state that accepts, the automaton goes to states that accept. -/
theorem accepting_closed : ∀ s < nStates, typOf s ≠ 0 →
    (transTab[s]?.all fun row => row.1.all (fun c => decide (typOf c.2.2 ≠ 0)) && row.2.all (fun t => decide (typOf t ≠ 0))) = true := by
  decide +kernel

theorem accepting_step {s r s' : Nat} (hs : s < nStates) (h : typOf s ≠ 0) {row : List (Nat × Nat × Nat) × Option Nat} (hrow : transTab[s]? = some row)
    (ht : transRow row r = some s') : typOf s' ≠ 0 := by
  have := accepting_closed s hs h
  rw [hrow] at this
  simp only [Option.all_some, Bool.and_eq_true] at this
  unfold transRow at ht
  split at ht
  · rename_i t hf
    cases ht
    obtain ⟨lo, hi, hm, _⟩ := findCase_mem hf
    exact of_decide_eq_true (List.all_eq_true.1 this.1 _ hm)
  · rw [ht] at this
    simp only [Option.all_some, decide_eq_true_eq] at this
    exact this.2

/-- What holds in the loop: if something has been accepted, it is all that has been read. -/
structure LoopOk (src : Str) (st : ScanSt) : Prop where
  lt : st.state < nStates
  start : st.start ≤ st.pos
  acc : st.typ ≠ 0 → (st.end_ = st.pos ∧ st.start < st.pos ∧ typOf st.state ≠ 0) ∨ (st.pos ≥ src.length ∧ st.end_ ≤ st.start)
  endle : st.end_ ≤ st.pos

/-- Where `Scan` leaves the position. -/
def _root_.Gographviz.Lex.ScanSt.newPos (st : ScanSt) : Nat := if st.end_ > st.start then st.end_ else st.pos

theorem scanLoopC_cost {src : Str} : ∀ (n : Nat) {st st' : ScanSt} {k k' : Nat}, LoopOk src st → scanLoopC src n st k = some (st', k') →
    k' + st.pos ≤ k + st'.newPos + 1 := by
  intro n
  induction n with
  | zero => intro st st' k k' _ h; cases h
  | succ n ih =>
    intro st st' k k' hok h
    have ht0 := hok.acc
    have hst := hok.start
    have hel := hok.endle
    unfold scanLoopC at h
    split at h
    · rename_i hpos
      cases h
      split
      · simp only [ScanSt.newPos]
        split <;> omega
      · rename_i htyp
        simp only [ScanSt.newPos]
        rcases ht0 htyp with ⟨h1, h2, _⟩ | h1
        · split <;> omega
        · split <;> omega
    · rename_i hpos
      have hne : src.drop st.pos ≠ [] := by
        intro he
        have := List.drop_eq_nil_iff.1 he
        omega
      have hw := (width_pos hne).1
      generalize hd : decodeRune (src.drop st.pos) = d at h hw
      obtain ⟨r, size⟩ := d
      dsimp only at h hw
      split at h
      · cases h
      · rename_i row hrow
        split at h
        · rename_i hno
          cases h
          split
          · simp only [ScanSt.newPos]
            split <;> omega
          · rename_i htyp
            simp only [ScanSt.newPos]
            rcases ht0 htyp with ⟨h1, h2, _⟩ | h1
            · split <;> omega
            · omega
        · rename_i s hs
          have hslt : s < nStates := tr_lt (s := st.state) (r := r) (by unfold tr; rw [hrow]; exact hs)
          split at h
          · cases h
          · rename_i t hact
            have := ih (st := _) ?_ h
            · dsimp only at this
              omega
            · refine ⟨hslt, ?_, ?_, Nat.le_refl _⟩
              · dsimp only; omega
              · intro htt
                dsimp only at htt ⊢
                refine .inl ⟨rfl, by omega, ?_⟩
                unfold typOf
                rw [hact]
                simpa using htt
          · rename_i hact
            have := ih (st := _) ?_ h
            · dsimp only at this
              omega
            · refine ⟨by dsimp only; decide, Nat.le_refl _, ?_, by dsimp only; omega⟩
              intro htt
              dsimp only at htt ⊢
              split at htt
              · rename_i hge
                exact .inr ⟨hge, by omega⟩
              · rcases ht0 htt with ⟨_, _, h3⟩ | h3
                · exact absurd (show typOf s = 0 by unfold typOf; rw [hact]; rfl) (accepting_step hok.lt h3 hrow hs)
                · omega

/-- One call of `Scan` decodes at most one character more than it consumes. -/
theorem scanC_cost {x y : Lexer × Nat} {t : Token} (h : scanC x = some (t, y)) : y.2 + x.1.pos ≤ x.2 + y.1.pos + 1 := by
  unfold scanC at h
  dsimp only at h
  split at h
  · cases h
    dsimp only
    omega
  · rename_i hpos
    split at h
    · cases h
    · rename_i st k hl
      have := scanLoopC_cost _ (st := ⟨x.1.pos, x.1.line, x.1.column, 0, 0, 0, x.1.pos, x.1.line, x.1.column⟩)
        ⟨by dsimp only; decide, Nat.le_refl _, fun hx => absurd rfl hx, Nat.zero_le _⟩ hl
      unfold ScanSt.newPos at this
      dsimp only at this
      split at h
      · rename_i he
        cases h
        rw [if_pos he] at this
        exact this
      · rename_i he
        cases h
        rw [if_neg he] at this
        exact this

/-- The end of the input is never shifted. -/
theorem eof_not_shifted : ∀ row ∈ actionTab, ∀ s, rowAction row 1 ≠ some (.shift s) := by
  have h : actionTab.all (fun row => match rowAction row 1 with | some (.shift _) => false | _ => true) = true := by decide +kernel
  intro row hrow s hs
  have := List.all_eq_true.1 h row hrow
  rw [hs] at this
  cases this

/-- The counter of a parser state is at most twice the position. -/
structure CostOk (n : Nat) (st : PState (Lexer × Nat)) : Prop where
  len : st.sc.1.src.length = n
  pos : st.sc.1.pos ≤ n
  cost : st.sc.2 ≤ 2 * st.sc.1.pos + (if st.next.typ = 1 then 1 else 0)

theorem scanC_ok {n : Nat} {x y : Lexer × Nat} {t : Token} (hl : x.1.src.length = n) (hp : x.1.pos ≤ n) (hc : x.2 ≤ 2 * x.1.pos) (h : scanC x = some (t, y)) :
    y.1.src.length = n ∧ y.1.pos ≤ n ∧ y.2 ≤ 2 * y.1.pos + (if t.typ = 1 then 1 else 0) := by
  have h1 := scanC_cost h
  obtain ⟨t', l', h2, h3, h4, h5⟩ := C33_scan_total x.1 (by rw [hl]; exact hp)
  have h6 := scanC_eq x
  rw [h, h2] at h6
  simp only [Option.map_some, Option.some.injEq, Prod.mk.injEq] at h6
  obtain ⟨rfl, rfl⟩ := h6
  refine ⟨by rw [h3]; exact hl, by omega, ?_⟩
  have hmono : x.1.pos ≤ y.1.pos := by
    rcases h5 with h5 | h5
    · obtain ⟨sk, t1, lit, rest, hsc⟩ := Scans.total (x.1.src.drop x.1.pos)
      obtain ⟨line, column, h7, _⟩ := scan_scans (by rw [hl]; exact hp) hsc
      rw [h2] at h7
      simp only [Option.some.injEq, Prod.mk.injEq] at h7
      rw [h7.2]
      dsimp only
      omega
    · omega
  rcases h5 with h5 | h5
  · rw [if_pos h5.1]
    omega
  · split <;> omega

theorem CostOk.step {n : Nat} {rnd : Nat → Nat} {st st' : PState (Lexer × Nat)} (h : CostOk n st) (hs : Parse.step scanC rnd st = .cont st') : CostOk n st' := by
  obtain ⟨h1, h2, h3⟩ := h
  unfold Parse.step at hs
  split at hs
  · cases hs
  · split at hs
    · cases hs
    · rename_i row hrow
      split at hs
      · cases hs
      · cases hs
      · rename_i s hact
        split at hs
        · cases hs
        · rename_i t sc hsc
          cases hs
          have hne : st.next.typ ≠ 1 := fun he => by
            rw [he] at hact
            exact eof_not_shifted row (List.mem_of_getElem? hrow) s hact
          rw [if_neg hne] at h3
          obtain ⟨a, b, c⟩ := scanC_ok h1 h2 (by omega) hsc
          exact ⟨a, b, c⟩
      · split at hs
        · split at hs
          · cases hs
          · dsimp only at hs
            split at hs
            · cases hs
            · cases hs
            · split at hs
              · cases hs
              · split at hs
                · cases hs
                · split at hs
                  · cases hs
                    exact ⟨h1, h2, h3⟩
                  · cases hs
        · cases hs

theorem loopC_cost {n : Nat} {rnd : Nat → Nat} : ∀ (m i : Nat) {st : PState (Lexer × Nat)}, CostOk n st → (loopC scanC rnd m i st).2.2.2 ≤ 2 * n + 1 := by
  intro m
  induction m with
  | zero =>
    intro i st h
    have h1 := h.cost
    have h2 := h.pos
    unfold loopC
    dsimp only
    split at h1 <;> omega
  | succ m ih =>
    intro i st h
    unfold loopC
    cases hs : Parse.step scanC rnd st with
    | stop r =>
      have h1 := h.cost
      have h2 := h.pos
      dsimp only
      split at h1 <;> omega
    | cont st' => exact ih (i + 1) (h.step hs)

end Gographviz.Parse
