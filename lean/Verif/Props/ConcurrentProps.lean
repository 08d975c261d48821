import Verif.Proofs.Numerals
import Verif.Model.Concurrent
import Verif.Spec.Concurrency
import Verif.Props.ParseProps
/-!
C41: concurrent parses.
-/
namespace Gographviz.Props

open Gographviz Gographviz.Lex Gographviz.Parse Gographviz.Conc Gographviz.Spec.Conc
open Gographviz.Spec.Meaning (GraphM)

/-! ### One iteration of the parser and the generator -/

theorem evalAct_noDraw {X : List Attrib} {a : Act} (h : actDraws X a = false) (n m : Str) : evalAct n X a = evalAct m X a := by
  cases a with
  | newSubGraph id l =>
    simp only [evalAct]
    simp only [actDraws] at h
    cases hx : arg X id with
    | none => rfl
    | some x =>
      rw [hx] at h
      simp only [Option.map_some, Option.getD_some] at h
      simp only [Option.bind_eq_bind, Option.bind_some, h, Bool.false_eq_true, if_false]
  | _ => rfl

/-- An iteration that does not draw is the same for every generator. -/
theorem step_noDraw {st : PState Lexer} (h : drawsNext st = false) (r1 r2 : Nat → Nat) : step scan r1 st = step scan r2 st := by
  obtain ⟨stack, next, sc, cnt⟩ := st
  cases stack with
  | nil => rfl
  | cons e rest =>
    obtain ⟨top, a⟩ := e
    simp only [step]
    simp only [drawsNext] at h
    cases hr : actionTab[top]? with
    | none => rfl
    | some row =>
      simp only [hr, Option.bind_some] at h ⊢
      cases ha : rowAction row next.typ with
      | none => rfl
      | some act =>
        cases act with
        | accept => rfl
        | shift s => rfl
        | reduce p =>
          simp only [ha] at h ⊢
          cases hp : prodTab[p]? with
          | none => rfl
          | some x =>
            obtain ⟨nt, n⟩ := x
            cases hq : prodActs[p]? with
            | none => rfl
            | some act =>
              simp only [hp, hq] at h ⊢
              split
              · rfl
              · rename_i hl
                rw [if_neg hl] at h
                rw [evalAct_noDraw h (anonName (r1 cnt)) (anonName (r2 cnt))]

/-- An iteration looks at one value of the generator only. -/
theorem step_local {st : PState Lexer} {r1 r2 : Nat → Nat} (h : r1 st.cnt = r2 st.cnt) : step scan r1 st = step scan r2 st := by
  simp only [step, h]

/-- The counter goes up by one exactly when the iteration draws. -/
theorem step_cnt {st st' : PState Lexer} {rnd : Nat → Nat} (h : step scan rnd st = .cont st') :
    st'.cnt = st.cnt + (if drawsNext st then 1 else 0) := by
  obtain ⟨stack, next, sc, cnt⟩ := st
  cases stack with
  | nil => cases h
  | cons e rest =>
    obtain ⟨top, a⟩ := e
    simp only [step] at h
    generalize hd : drawsNext _ = d
    simp only [drawsNext] at hd
    show _ = cnt + _
    cases hr : actionTab[top]? with
    | none => rw [hr] at h; cases h
    | some row =>
      simp only [hr, Option.bind_some] at h hd
      cases ha : rowAction row next.typ with
      | none => rw [ha] at h; cases h
      | some act =>
        cases act with
        | accept => rw [ha] at h; cases h
        | shift s =>
          simp only [ha] at h hd
          split at h
          · cases h
          · cases h; subst hd; simp
        | reduce p =>
          simp only [ha] at h hd
          cases hp : prodTab[p]? with
          | none => rw [hp] at h; cases h
          | some x =>
            obtain ⟨nt, n⟩ := x
            cases hq : prodActs[p]? with
            | none => simp only [hp, hq] at h; cases h
            | some act =>
              simp only [hp, hq] at h hd
              split at h
              · cases h
              · rename_i hl
                rw [if_neg hl] at hd
                subst hd
                split at h
                · cases h
                · cases h
                · split at h
                  · cases h
                  · split at h
                    · cases h
                    · split at h
                      · cases h; rfl
                      · cases h

/-- The state reported on success. -/
theorem step_ok {st : PState Lexer} {rnd : Nat → Nat} {a : Attrib} {n : Nat} (h : step scan rnd st = .stop (.ok a n)) : n = st.cnt := by
  obtain ⟨stack, next, sc, cnt⟩ := st
  cases stack with
  | nil => cases h
  | cons e rest =>
    obtain ⟨top, x⟩ := e
    simp only [step] at h
    split at h
    · cases h
    · split at h
      · cases h
      · cases h; rfl
      · split at h <;> cases h
      · split at h
        · split at h
          · cases h
          · split at h
            · cases h
            · cases h
            · split at h
              · cases h
              · split at h
                · cases h
                · split at h <;> cases h
        · cases h

theorem finish_parse (rnd : Nat → Nat) (cnt : Nat) (src : Str) :
    parseBytes rnd cnt src = finish (parse scan rnd (fuelFor src.length) cnt (newLexer src)) := by
  unfold parseBytes finish
  rfl

/-! ### The invariant of one goroutine -/

/-- `rnd` gives the values that were drawn. -/
def Agrees (gen : Nat → Nat) (ds : List Nat) (rnd : Nat → Nat) : Prop := ∀ k (h : k < ds.length), rnd k = gen ds[k]

/-- The parser has reached `st` after `k` iterations, whatever the further values of the generator. -/
def At (gen : Nat → Nat) (src : Str) (ds : List Nat) (k : Nat) (st : PState Lexer) : Prop :=
  st.cnt = ds.length ∧ ∀ rnd, Agrees gen ds rnd → ∀ f, parse scan rnd (k + f) 0 (newLexer src) = loop scan rnd f st

/-- The result has been reached. -/
def DoneAt (gen : Nat → Nat) (src : Str) (ds : List Nat) (k : Nat) (r : PRes Ast.Graph) : Prop :=
  (∀ g n, r = .ok g n → n = ds.length) ∧ ∀ rnd, Agrees gen ds rnd → ∀ f, finish (parse scan rnd (k + f) 0 (newLexer src)) = r

/-- Goroutine with source `src` that has made `n` steps and drawn `ds`. -/
inductive ProcInv (gen : Nat → Nat) (src : Str) : List Nat → Nat → Proc → Prop where
  | fresh : ProcInv gen src [] 0 (.fresh src)
  | run {ds : List Nat} {n k : Nat} {st : PState Lexer} : At gen src ds k st → n ≤ 6 * k + 1 → ProcInv gen src ds n (.run st)
  | atLock {ds : List Nat} {n k : Nat} {st : PState Lexer} : At gen src ds k st → drawsNext st = true → n ≤ 6 * k + 2 →
      ProcInv gen src ds n (.atLock st)
  | locked {ds : List Nat} {n k : Nat} {st : PState Lexer} : At gen src ds k st → drawsNext st = true → n ≤ 6 * k + 3 →
      ProcInv gen src ds n (.locked st)
  | loaded {ds : List Nat} {n k p : Nat} {st : PState Lexer} : At gen src ds k st → drawsNext st = true → n ≤ 6 * k + 4 →
      ProcInv gen src ds n (.loaded st p)
  | stored {ds : List Nat} {n k p : Nat} {st : PState Lexer} : At gen src ds k st → drawsNext st = true → n ≤ 6 * k + 5 →
      ProcInv gen src (ds ++ [p]) n (.stored st p)
  | drawn {ds : List Nat} {n k p : Nat} {st : PState Lexer} : At gen src ds k st → drawsNext st = true → n ≤ 6 * k + 6 →
      ProcInv gen src (ds ++ [p]) n (.drawn st p)
  | done {ds : List Nat} {n k : Nat} {r : PRes Ast.Graph} : DoneAt gen src ds k r → k ≤ fuelFor src.length → n ≤ 6 * k + 1 →
      ProcInv gen src ds n (.done r)

theorem parse_ne_diverge (rnd : Nat → Nat) (cnt : Nat) (src : Str) (fuel : Nat) (h : fuelFor src.length ≤ fuel) :
    parse scan rnd fuel cnt (newLexer src) ≠ .diverge := by
  rw [C34_no_bound rnd cnt src fuel h]
  intro hd
  have : parseBytes rnd cnt src = .diverge := by rw [finish_parse, hd]; rfl
  rcases C34_total rnd cnt src with ⟨g, n, h⟩ | ⟨t, x, _, h, _⟩ <;> rw [h] at this <;> cases this

theorem agrees_own (gen : Nat → Nat) (ds : List Nat) : Agrees gen ds (ownGen gen ds) := by
  intro k hk
  simp [ownGen, List.getD, List.getElem?_eq_getElem hk]

/-- A goroutine is still in the loop only after fewer iterations than the bound. -/
theorem at_lt {gen : Nat → Nat} {src : Str} {ds : List Nat} {k : Nat} {st : PState Lexer} (h : At gen src ds k st) : k < fuelFor src.length := by
  apply Classical.byContradiction
  intro hk
  exact parse_ne_diverge (ownGen gen ds) 0 src (k + 0) (by omega) (h.2 _ (agrees_own gen ds) 0)

theorem agrees_prefix {gen : Nat → Nat} {ds : List Nat} {p : Nat} {rnd : Nat → Nat} (h : Agrees gen (ds ++ [p]) rnd) :
    Agrees gen ds rnd ∧ rnd ds.length = gen p := by
  refine ⟨fun k hk => ?_, ?_⟩
  · rw [h k (by simp; omega), List.getElem_append_left hk]
  · rw [h ds.length (by simp)]; simp

theorem inv_start (gen : Nat → Nat) (src : Str) : ProcInv gen src [] 1 (start src) := by
  unfold start
  cases hs : scan (newLexer src) with
  | none =>
    refine .done (k := 0) ⟨(fun _ _ h => nomatch h), fun rnd _ f => ?_⟩ (by omega) (by omega)
    simp [parse, hs, finish]
  | some x =>
    obtain ⟨t, sc⟩ := x
    refine .run (k := 0) ⟨rfl, fun rnd _ f => ?_⟩ (by omega)
    simp [parse, hs]

/-- One iteration, from `st` with values `ds` to the next state with values `ds'`. -/
theorem inv_iter {gen : Nat → Nat} {src : Str} {ds ds' : List Nat} {k n : Nat} {st : PState Lexer} {x : PStep Lexer} (h : At gen src ds k st)
    (hds : ∀ rnd, Agrees gen ds' rnd → Agrees gen ds rnd)
    (hl : ds'.length = ds.length + if drawsNext st then 1 else 0)
    (hx : ∀ rnd, Agrees gen ds' rnd → step scan rnd st = x)
    (hok : ∀ a m, x = .stop (.ok a m) → ds' = ds)
    (hn : n ≤ 6 * (k + 1) + 1) : ProcInv gen src ds' n (after x) := by
  have hsome := agrees_own gen ds'
  cases x with
  | cont st' =>
    refine .run (k := k + 1) ⟨?_, fun rnd hr f => ?_⟩ hn
    · rw [step_cnt (hx _ hsome), hl, h.1]
    · rw [show k + 1 + f = k + (f + 1) by omega, h.2 rnd (hds rnd hr)]
      simp only [loop, hx rnd hr]
  | stop r =>
    refine .done (k := k + 1) ⟨fun g m hr => ?_, fun rnd hr f => ?_⟩ (at_lt h) hn
    · cases r with
      | ok a c =>
        have hc := step_ok (hx _ hsome)
        have : m = c := by
          cases a <;> cases hr
          rfl
        rw [this, hc, h.1, hok a c rfl]
      | _ => cases hr
    · rw [show k + 1 + f = k + (f + 1) by omega, h.2 rnd (hds rnd hr)]
      simp only [loop, hx rnd hr]

theorem draws_not_ok {st : PState Lexer} {rnd : Nat → Nat} (h : drawsNext st = true) (a : Attrib) (n : Nat) :
    step scan rnd st ≠ .stop (.ok a n) := by
  obtain ⟨stack, next, sc, cnt⟩ := st
  cases stack with
  | nil => cases h
  | cons e rest =>
    obtain ⟨top, x⟩ := e
    simp only [step]
    simp only [drawsNext] at h
    cases hr : actionTab[top]? with
    | none => rw [hr] at h; cases h
    | some row =>
      simp only [hr, Option.bind_some] at h ⊢
      cases ha : rowAction row next.typ with
      | none => rw [ha] at h; cases h
      | some act =>
        cases act with
        | accept => rw [ha] at h; cases h
        | shift s => rw [ha] at h; cases h
        | reduce p =>
          intro hh
          simp only at hh
          split at hh
          · split at hh
            · cases hh
            · split at hh
              · cases hh
              · cases hh
              · split at hh
                · cases hh
                · split at hh
                  · cases hh
                  · split at hh <;> cases hh
          · cases hh

variable {ι : Type} [DecidableEq ι]

/-! ### The invariant of the whole -/

structure Inv (gen : Nat → Nat) (srcs : ι → Str) (pos0 : Nat) (tr : Schedule ι) (w : World ι) : Prop where
  proc : ∀ i, ProcInv gen (srcs i) (drawnBy i tr) (stepsOf i tr) (w.procs i)
  mutex : ∀ i, Critical (w.procs i) ↔ w.lock = some i
  loaded : ∀ i st p, w.procs i = .loaded st p → p = w.pos
  log : allDrawn tr = List.range' pos0 (allDrawn tr).length
  pos : w.pos = pos0 + (allDrawn tr).length

theorem drawnBy_snoc (i j : ι) (tr : Schedule ι) (e : Option Nat) :
    drawnBy i (tr ++ [(j, e)]) = drawnBy i tr ++ (if j = i then e.toList else []) := by
  unfold drawnBy
  by_cases h : j = i
  · cases e <;> simp [h]
  · simp [h]

theorem stepsOf_snoc (i j : ι) (tr : Schedule ι) (e : Option Nat) :
    stepsOf i (tr ++ [(j, e)]) = stepsOf i tr + (if j = i then 1 else 0) := by
  unfold stepsOf
  by_cases h : j = i <;> simp [h]

theorem allDrawn_snoc (j : ι) (tr : Schedule ι) (e : Option Nat) : allDrawn (tr ++ [(j, e)]) = allDrawn tr ++ e.toList := by
  unfold allDrawn
  cases e <;> simp

theorem set_self (w : World ι) (i : ι) (p : Proc) : (w.set i p).procs i = p := by simp [World.set]
theorem set_other (w : World ι) {i j : ι} (p : Proc) (h : j ≠ i) : (w.set i p).procs j = w.procs j := by simp [World.set, h]

/-- The parts of the invariant that a step of `i` without a draw that keeps lock and position must re-establish. -/
theorem inv_of_step {gen : Nat → Nat} {srcs : ι → Str} {pos0 : Nat} {tr : Schedule ι} {w w' : World ι} (hI : Inv gen srcs pos0 tr w) (i : ι)
    (e : Option Nat) (p : Proc) (hw : w'.procs = (w.set i p).procs)
    (hp : ProcInv gen (srcs i) (drawnBy i tr ++ e.toList) (stepsOf i tr + 1) p)
    (hm : (Critical p ↔ w'.lock = some i)) (hm' : ∀ j, j ≠ i → (w'.lock = some j ↔ w.lock = some j))
    (he : ∀ q, e = some q → q = w.pos ∧ Critical (w.procs i))
    (hpos : w'.pos = w.pos + e.toList.length) (hl : ∀ st q, p = .loaded st q → q = w'.pos) : Inv gen srcs pos0 (tr ++ [(i, e)]) w' := by
  refine ⟨fun j => ?_, fun j => ?_, fun j st q hj => ?_, ?_, ?_⟩
  · rw [hw, drawnBy_snoc, stepsOf_snoc]
    by_cases h : j = i
    · subst h; rw [set_self]; simpa using hp
    · rw [set_other w p h]
      simpa [Ne.symm h] using hI.proc j
  · rw [hw]
    by_cases h : j = i
    · subst h; rw [set_self]; exact hm
    · rw [set_other w p h, hm' j h]; exact hI.mutex j
  · rw [hw] at hj
    by_cases h : j = i
    · subst h; rw [set_self] at hj; exact hl st q hj
    · rw [set_other w p h] at hj
      have hq := hI.loaded j st q hj
      cases e with
      | none => rw [hpos, hq]; simp
      | some x =>
        have h1 := (hI.mutex i).1 (he x rfl).2
        have h2 := (hI.mutex j).1 (by rw [hj]; trivial)
        rw [h1] at h2
        exact absurd (Option.some.inj h2).symm h
  · rw [allDrawn_snoc]
    cases e with
    | none => simpa using hI.log
    | some x =>
      have hx := (he x rfl).1
      simp only [Option.toList_some, List.length_append, List.length_cons, List.length_nil, Nat.zero_add]
      rw [List.range'_concat, ← hI.log, hx, hI.pos, Nat.one_mul]
  · rw [hpos, hI.pos, allDrawn_snoc, List.length_append, Nat.add_assoc]

theorem not_critical_after (x : PStep Lexer) : ¬ Critical (after x) := by cases x <;> simp [after, Critical]
theorem not_critical_start (s : Str) : ¬ Critical (start s) := by unfold start; split <;> simp [Critical]
theorem after_ne_loaded (x : PStep Lexer) (st : PState Lexer) (p : Nat) : after x ≠ .loaded st p := by cases x <;> simp [after]
theorem start_ne_loaded (s : Str) (st : PState Lexer) (p : Nat) : start s ≠ .loaded st p := by unfold start; split <;> simp

theorem inv_step {gen : Nat → Nat} {srcs : ι → Str} {pos0 : Nat} {tr : Schedule ι} {w w' : World ι} {i : ι} {e : Option Nat}
    (hI : Inv gen srcs pos0 tr w) (hs : Step gen i w e w') : Inv gen srcs pos0 (tr ++ [(i, e)]) w' := by
  have hP := hI.proc i
  have hM := hI.mutex i
  cases hs with
  | start h =>
    rw [h] at hP hM
    generalize hd : drawnBy i tr = ds at hP
    generalize hn : stepsOf i tr = n at hP
    cases hP
    refine inv_of_step hI i none _ rfl ?_ ?_ (fun _ _ => Iff.rfl) (fun _ h => nomatch h) rfl ?_
    · rw [hd, hn]; exact inv_start gen _
    · exact ⟨fun hc => absurd hc (not_critical_start _), fun hc => (hM.2 hc).elim⟩
    · intro st q hq; exact absurd hq (start_ne_loaded _ _ _)
  | iter h hdn =>
    rw [h] at hP hM
    refine inv_of_step hI i none _ rfl ?_ ?_ (fun _ _ => Iff.rfl) (fun _ h => nomatch h) rfl ?_
    · generalize drawnBy i tr = ds at hP
      generalize stepsOf i tr = n at hP
      cases hP with
      | run hat hle =>
        simp only [Option.toList_none, List.append_nil]
        exact inv_iter hat (fun _ h => h) (by simp [hdn]) (fun rnd _ => step_noDraw hdn _ _) (fun _ _ _ => rfl) (by omega)
    · exact ⟨fun hc => absurd hc (not_critical_after _), fun hc => (hM.2 hc).elim⟩
    · intro st q hq; exact absurd hq (after_ne_loaded _ _ _)
  | call h hdn =>
    rw [h] at hP hM
    refine inv_of_step hI i none _ rfl ?_ ?_ (fun _ _ => Iff.rfl) (fun _ h => nomatch h) rfl (fun _ _ h => nomatch h)
    · generalize drawnBy i tr = ds at hP
      generalize stepsOf i tr = n at hP
      cases hP with
      | run hat hle =>
        simp only [Option.toList_none, List.append_nil]
        exact .atLock hat hdn (by omega)
    · exact ⟨fun hc => hc.elim, fun hc => (hM.2 hc).elim⟩
  | lock h hf =>
    rw [h] at hP hM
    refine inv_of_step hI i none _ rfl ?_ ?_ (fun j hj => ?_) (fun _ h => nomatch h) rfl (fun _ _ h => nomatch h)
    · generalize drawnBy i tr = ds at hP
      generalize stepsOf i tr = n at hP
      cases hP with
      | atLock hat hdn hle =>
        simp only [Option.toList_none, List.append_nil]
        exact .locked hat hdn (by omega)
    · exact ⟨fun _ => rfl, fun _ => trivial⟩
    · rw [hf]
      exact ⟨fun h => absurd (Option.some.inj h).symm hj, fun h => nomatch h⟩
  | load h =>
    rw [h] at hP hM
    refine inv_of_step hI i none _ rfl ?_ ?_ (fun _ _ => Iff.rfl) (fun _ h => nomatch h) rfl ?_
    · generalize drawnBy i tr = ds at hP
      generalize stepsOf i tr = n at hP
      cases hP with
      | locked hat hdn hle =>
        simp only [Option.toList_none, List.append_nil]
        exact .loaded hat hdn (by omega)
    · exact hM
    · intro st q hq; cases hq; rfl
  | @store st p h =>
    have hq := hI.loaded i st p h
    have hcr : Critical (w.procs i) := by rw [h]; trivial
    rw [h] at hP hM
    refine inv_of_step hI i (some p) _ rfl ?_ hM (fun _ _ => Iff.rfl) ?_ ?_ (fun _ _ h => nomatch h)
    · generalize drawnBy i tr = ds at hP
      generalize stepsOf i tr = n at hP
      cases hP with
      | loaded hat hdn hle => exact .stored hat hdn (by omega)
    · intro x hx
      cases hx
      exact ⟨hq, hcr⟩
    · simp [hq]
  | unlock h =>
    rw [h] at hP hM
    refine inv_of_step hI i none _ rfl ?_ ?_ (fun j hj => ?_) (fun _ h => nomatch h) rfl (fun _ _ h => nomatch h)
    · generalize drawnBy i tr = ds at hP
      generalize stepsOf i tr = n at hP
      cases hP with
      | stored hat hdn hle =>
        simp only [Option.toList_none, List.append_nil]
        exact .drawn hat hdn (by omega)
    · exact ⟨fun h => h.elim, fun h => nomatch h⟩
    · rw [hM.1 trivial]
      exact ⟨fun h => (nomatch h), fun h => absurd (Option.some.inj h).symm hj⟩
  | use h =>
    rw [h] at hP hM
    refine inv_of_step hI i none _ rfl ?_ ?_ (fun _ _ => Iff.rfl) (fun _ h => nomatch h) rfl ?_
    · generalize drawnBy i tr = ds at hP
      generalize stepsOf i tr = n at hP
      cases hP with
      | drawn hat hdn hle =>
        simp only [Option.toList_none, List.append_nil]
        refine inv_iter hat (fun _ h => (agrees_prefix h).1) (by simp [hdn]) (fun rnd h => step_local ?_) (fun a m hx => ?_) (by omega)
        · rw [hat.1]; exact (agrees_prefix h).2
        · exact absurd hx (draws_not_ok hdn a m)
    · exact ⟨fun hc => absurd hc (not_critical_after _), fun hc => (hM.2 hc).elim⟩
    · intro st q hq; exact absurd hq (after_ne_loaded _ _ _)

theorem reach_inv {gen : Nat → Nat} {srcs : ι → Str} {pos0 : Nat} {tr : Schedule ι} {w : World ι} (h : Reach gen srcs pos0 tr w) :
    Inv gen srcs pos0 tr w := by
  induction h with
  | init =>
    refine ⟨fun i => .fresh, fun i => ?_, (fun i st p h => nomatch h), rfl, rfl⟩
    exact ⟨fun h => h.elim, fun h => nomatch h⟩
  | step _ hs ih => exact inv_step ih hs

/-! ### C41 -/

/-- C41. Under every interleaving, no two draws, by the same or by different goroutines, get the same position of the generator's
sequence; in fact the draws get the positions from `pos0` on, in order, without gaps. -/
theorem C41_distinct {gen : Nat → Nat} {srcs : ι → Str} {pos0 : Nat} {tr : Schedule ι} {w : World ι} (h : Reach gen srcs pos0 tr w) :
    (allDrawn tr).Nodup ∧ allDrawn tr = List.range' pos0 (allDrawn tr).length := by
  have hl := (reach_inv h).log
  exact ⟨by rw [hl]; exact List.nodup_range', hl⟩

/-- C41. At most one goroutine is inside the critical section. -/
theorem C41_mutual_exclusion {gen : Nat → Nat} {srcs : ι → Str} {pos0 : Nat} {tr : Schedule ι} {w : World ι} (h : Reach gen srcs pos0 tr w)
    {i j : ι} (hi : Critical (w.procs i)) (hj : Critical (w.procs j)) : i = j := by
  have hI := reach_inv h
  have h1 := (hI.mutex i).1 hi
  rw [(hI.mutex j).1 hj] at h1
  exact (Option.some.inj h1).symm

/-- C41. A parse that runs together with others returns what it would return alone, with a generator that yields the values this parse
drew: concurrent parses have no other influence on each other. -/
theorem C41_isolated {gen : Nat → Nat} {srcs : ι → Str} {pos0 : Nat} {tr : Schedule ι} {w : World ι} (h : Reach gen srcs pos0 tr w) {i : ι}
    {r : PRes Ast.Graph} (hd : w.procs i = .done r) :
    r = parseBytes (ownGen gen (drawnBy i tr)) 0 (srcs i) ∧ ∀ g n, r = .ok g n → n = (drawnBy i tr).length := by
  have hP := (reach_inv h).proc i
  rw [hd] at hP
  generalize drawnBy i tr = ds at hP
  generalize stepsOf i tr = n at hP
  cases hP with
  | @done _ _ k _ hat _ hle =>
    refine ⟨?_, hat.1⟩
    rw [finish_parse, ← hat.2 _ (agrees_own gen ds) (fuelFor (srcs i).length)]
    rw [C34_no_bound _ _ _ _ (by omega)]

/-- C41. So in the syntax tree returned by goroutine `i`, subgraph names in the text are kept, and the `k`-th anonymous subgraph (in the
order of closing braces) is called `anon` and the value, in decimal, at the `k`-th position drawn by `i`: every draw is used for exactly one subgraph. -/
theorem C41_names {gen : Nat → Nat} {srcs : ι → Str} {pos0 : Nat} {tr : Schedule ι} {w : World ι} (h : Reach gen srcs pos0 tr w) {i : ι}
    {g : Ast.Graph} {n : Nat} (hd : w.procs i = .done (.ok g n)) {ts : List Token} {e : Token} (ht : tokens (srcs i) = some (ts ++ [e])) :
    ∃ name : Nat → Str, (∀ k, ∃ numeral, Spec.Decimal (gen ((drawnBy i tr).getD k 0)) numeral ∧ name k = b!"anon" ++ numeral) ∧
      GraphM name 0 (ts.map lexeme) g (drawnBy i tr).length := by
  obtain ⟨h1, h2⟩ := C41_isolated h hd
  have := (C35_source (ownGen gen (drawnBy i tr)) 0 (srcs i) ht g n).1 h1.symm
  rw [h2 g n rfl] at this
  exact ⟨_, fun k => ⟨_, decDigits_decimal _, rfl⟩, this⟩

/-- C41. No deadlock: as long as some parse has not returned, some goroutine can move. -/
theorem C41_no_deadlock {gen : Nat → Nat} {srcs : ι → Str} {pos0 : Nat} {tr : Schedule ι} {w : World ι} (h : Reach gen srcs pos0 tr w) {i : ι}
    (hi : ¬ Returned (w.procs i)) : ∃ j e w', Step gen j w e w' := by
  have hI := reach_inv h
  have crit : ∀ j, Critical (w.procs j) → ∃ j e w', Step gen j w e w' := by
    intro j hj
    cases hp : w.procs j with
    | locked st => exact ⟨j, _, _, .load hp⟩
    | loaded st p => exact ⟨j, _, _, .store hp⟩
    | stored st p => exact ⟨j, _, _, .unlock hp⟩
    | _ => rw [hp] at hj; exact hj.elim
  cases hp : w.procs i with
  | fresh s => exact ⟨i, _, _, .start hp⟩
  | run st =>
    cases hd : drawsNext st with
    | true => exact ⟨i, _, _, .call hp hd⟩
    | false => exact ⟨i, _, _, .iter hp hd⟩
  | atLock st =>
    cases hl : w.lock with
    | none => exact ⟨i, _, _, .lock hp hl⟩
    | some j => exact crit j ((hI.mutex j).2 hl)
  | locked st => exact crit i (by rw [hp]; trivial)
  | loaded st p => exact crit i (by rw [hp]; trivial)
  | stored st p => exact crit i (by rw [hp]; trivial)
  | drawn st p => exact ⟨i, _, _, .use hp⟩
  | done r => exact absurd ⟨r, hp⟩ hi

/-- C41. Every goroutine makes a bounded number of steps, whatever the schedule. -/
theorem C41_bounded {gen : Nat → Nat} {srcs : ι → Str} {pos0 : Nat} {tr : Schedule ι} {w : World ι} (h : Reach gen srcs pos0 tr w) (i : ι) :
    stepsOf i tr ≤ 6 * fuelFor (srcs i).length + 1 := by
  have hP := (reach_inv h).proc i
  generalize drawnBy i tr = ds at hP
  generalize stepsOf i tr = n at hP
  generalize w.procs i = p at hP
  cases hP with
  | fresh => omega
  | run hat hle => have := at_lt hat; omega
  | atLock hat _ hle => have := at_lt hat; omega
  | locked hat _ hle => have := at_lt hat; omega
  | loaded hat _ hle => have := at_lt hat; omega
  | stored hat _ hle => have := at_lt hat; omega
  | drawn hat _ hle => have := at_lt hat; omega
  | done _ hk hle => omega

theorem length_le_steps (is : List ι) (hall : ∀ i, i ∈ is) (tr : Schedule ι) : tr.length ≤ (is.map fun i => stepsOf i tr).sum := by
  have key : ∀ (is : List ι) (f : ι → Nat) (j : ι), (is.map f).sum ≤ (is.map fun i => f i + if j = i then 1 else 0).sum ∧
      (j ∈ is → (is.map f).sum + 1 ≤ (is.map fun i => f i + if j = i then 1 else 0).sum) := by
    intro is f j
    induction is with
    | nil => simp
    | cons a is ih =>
      simp only [List.map_cons, List.sum_cons, List.mem_cons]
      refine ⟨by omega, ?_⟩
      rintro (rfl | hm)
      · simp only [if_true]; omega
      · have := ih.2 hm; omega
  induction tr with
  | nil => simp
  | cons x tr ih =>
    obtain ⟨j, e⟩ := x
    have h1 : (is.map fun i => stepsOf i ((j, e) :: tr)) = is.map fun i => stepsOf i tr + if j = i then 1 else 0 := by
      apply List.map_congr_left
      intro i _
      unfold stepsOf
      by_cases h : j = i <;> simp [h]
    rw [h1, List.length_cons]
    have := (key is (fun i => stepsOf i tr) j).2 (hall j)
    omega

/-- C41. With finitely many goroutines every schedule ends: its length is bounded, and where nobody can move all parses have returned. -/
theorem C41_all_return {gen : Nat → Nat} {srcs : ι → Str} {pos0 : Nat} {tr : Schedule ι} {w : World ι} (h : Reach gen srcs pos0 tr w)
    (is : List ι) (hall : ∀ i, i ∈ is) :
    tr.length ≤ (is.map fun i => 6 * fuelFor (srcs i).length + 1).sum ∧
      ((¬ ∃ j e w', Step gen j w e w') → ∀ i, Returned (w.procs i)) := by
  refine ⟨Nat.le_trans (length_le_steps is hall tr) ?_, fun hn i => Classical.byContradiction fun hi => hn (C41_no_deadlock h hi)⟩
  clear hall
  induction is with
  | nil => simp
  | cons a is ih =>
    simp only [List.map_cons, List.sum_cons]
    have := C41_bounded h a
    omega

/-! ### Generated names -/

/-- The value of a decimal numeral. -/
def decVal (a : Nat) (s : Str) : Nat := s.foldl (fun a d => 10 * a + (d - 48)) a

theorem decVal_decDigitsN (f : Nat) : ∀ (n : Nat) (acc : Str), n < f → decVal 0 (decDigitsN f n acc) = decVal n acc := by
  induction f with
  | zero => intro n acc h; omega
  | succ f ih =>
    intro n acc h
    have hd : 48 + n % 10 - 48 = n % 10 := by omega
    simp only [decDigitsN]
    split
    · rename_i h0
      simp only [decVal, List.foldl_cons, hd]
      rw [show 10 * 0 + n % 10 = n by omega]
    · rw [ih _ _ (by omega)]
      simp only [decVal, List.foldl_cons, hd]
      rw [show 10 * (n / 10) + n % 10 = n by omega]

theorem decDigits_inj {n m : Nat} (h : decDigits n = decDigits m) : n = m := by
  have h1 := decVal_decDigitsN (n + 1) n [] (by omega)
  have h2 := decVal_decDigitsN (m + 1) m [] (by omega)
  unfold decDigits at h
  rw [h, h2] at h1
  exact h1.symm

theorem anonName_inj {n m : Nat} (h : anonName n = anonName m) : n = m := decDigits_inj (List.append_cancel_left h)

theorem mem_drawnBy {i : ι} {tr : Schedule ι} {p : Nat} (h : p ∈ drawnBy i tr) : (i, some p) ∈ tr := by
  simp only [drawnBy, List.mem_filterMap, List.mem_filter, decide_eq_true_eq] at h
  obtain ⟨⟨j, e⟩, ⟨hm, rfl⟩, rfl⟩ := h
  exact hm

theorem drawnBy_disjoint {i j : ι} {tr : Schedule ι} (hn : (allDrawn tr).Nodup) (hij : i ≠ j) {p : Nat} (hi : (i, some p) ∈ tr)
    (hj : (j, some p) ∈ tr) : False := by
  induction tr with
  | nil => cases hi
  | cons x tr ih =>
    have hmem : ∀ k, (k, some p) ∈ tr → p ∈ allDrawn tr := fun k hk => List.mem_filterMap.2 ⟨_, hk, rfl⟩
    have hn' : (allDrawn tr).Nodup := by
      obtain ⟨k, e⟩ := x
      cases e with
      | none => simpa [allDrawn] using hn
      | some q =>
        have : allDrawn ((k, some q) :: tr) = q :: allDrawn tr := by simp [allDrawn]
        rw [this] at hn
        exact (List.nodup_cons.1 hn).2
    have hhead : ∀ k, x = (k, some p) → p ∉ allDrawn tr := by
      rintro k rfl
      have : allDrawn ((k, some p) :: tr) = p :: allDrawn tr := by simp [allDrawn]
      rw [this] at hn
      exact (List.nodup_cons.1 hn).1
    rcases List.mem_cons.1 hi with h1 | h1 <;> rcases List.mem_cons.1 hj with h2 | h2
    · rw [← h1] at h2; cases h2; exact hij rfl
    · exact hhead i h1.symm (hmem j h2)
    · exact hhead j h2.symm (hmem i h1)
    · exact ih hn' h1 h2

/-- C41. If the generator has not repeated itself among the values drawn, all the generated names of all the parses differ: those of
two subgraphs of the same parse, and those of two parses. -/
theorem C41_distinct_names {gen : Nat → Nat} {srcs : ι → Str} {pos0 : Nat} {tr : Schedule ι} {w : World ι} (h : Reach gen srcs pos0 tr w)
    (hgen : ∀ p ∈ allDrawn tr, ∀ q ∈ allDrawn tr, gen p = gen q → p = q) {i j : ι} {k l : Nat} (hk : k < (drawnBy i tr).length)
    (hl : l < (drawnBy j tr).length) (hname : anonName (gen (drawnBy i tr)[k]) = anonName (gen (drawnBy j tr)[l])) : i = j ∧ k = l := by
  have hnd := (C41_distinct h).1
  have hmi := mem_drawnBy (List.getElem_mem hk)
  have hmj := mem_drawnBy (List.getElem_mem hl)
  have hpq := hgen _ (List.mem_filterMap.2 ⟨_, hmi, rfl⟩) _ (List.mem_filterMap.2 ⟨_, hmj, rfl⟩) (anonName_inj hname)
  have hij : i = j := by
    apply Classical.byContradiction
    intro hne
    rw [hpq] at hmi
    exact drawnBy_disjoint hnd hne hmi hmj
  subst hij
  refine ⟨rfl, ?_⟩
  have hsub : (drawnBy i tr).Nodup := List.Sublist.nodup (List.Sublist.filterMap _ List.filter_sublist) hnd
  have hp := List.pairwise_iff_getElem.1 hsub
  rcases Nat.lt_trichotomy k l with hlt | heq | hgt
  · exact absurd hpq (hp k l hk hl hlt)
  · exact heq
  · exact absurd hpq.symm (hp l k hl hk hgt)

/-! ### Executions exist -/

/-- C41. Every execution of finitely many goroutines can be continued until all parses have returned. -/
theorem C41_completes {gen : Nat → Nat} {srcs : ι → Str} {pos0 : Nat} {tr : Schedule ι} {w : World ι} (h : Reach gen srcs pos0 tr w)
    (is : List ι) (hall : ∀ i, i ∈ is) : ∃ tr' w', Reach gen srcs pos0 (tr ++ tr') w' ∧ ∀ i, Returned (w'.procs i) := by
  generalize hm : (is.map fun i => 6 * fuelFor (srcs i).length + 1).sum - tr.length = m
  induction m using Nat.strongRecOn generalizing tr w with
  | _ m ih =>
    by_cases hs : ∃ j e w', Step gen j w e w'
    · obtain ⟨j, e, w', hs⟩ := hs
      have hr := Reach.step h hs
      have hb := (C41_all_return hr is hall).1
      simp only [List.length_append, List.length_cons, List.length_nil] at hb
      obtain ⟨tr', w'', h1, h2⟩ := ih _ (by simp only [List.length_append, List.length_cons, List.length_nil]; omega) hr rfl
      exact ⟨(j, e) :: tr', w'', by simpa using h1, h2⟩
    · exact ⟨[], w, by simpa using h, (C41_all_return h is hall).2 hs⟩

/-- A non-trivial case: two goroutines, one text with two nested anonymous subgraphs and one with an anonymous and a named one. There
is a schedule where both return, and in every such schedule the first draws two positions and the second draws one. -/
def exampleSrcs : Bool → Str
  | true => b!"graph{{a{b}}}"
  | false => b!"graph{subgraph{c}subgraph s{d}}"

theorem example_concurrent (gen : Nat → Nat) :
    (∃ tr w, Reach gen exampleSrcs 7 tr w ∧ ∀ i, Returned (w.procs i)) ∧
      ∀ tr w, Reach gen exampleSrcs 7 tr w → (∀ i, Returned (w.procs i)) →
        (drawnBy true tr).length = 2 ∧ (drawnBy false tr).length = 1 ∧
          w.procs false = .done (.ok ⟨false, false, [], [.sub (anonName (gen ((drawnBy false tr).getD 0 0))) [.node ⟨b!"c", ⟨[], []⟩⟩ []],
            .sub (b!"s") [.node ⟨b!"d", ⟨[], []⟩⟩ []]]⟩ 1) := by
  refine ⟨?_, fun tr w h hall => ?_⟩
  · obtain ⟨tr, w, h, hr⟩ := C41_completes (gen := gen) (.init (srcs := exampleSrcs) (pos0 := 7)) [true, false] (fun i => by cases i <;> simp)
    exact ⟨_, w, h, hr⟩
  · obtain ⟨r1, h1⟩ := hall true
    obtain ⟨r2, h2⟩ := hall false
    obtain ⟨a1, b1⟩ := C41_isolated h h1
    obtain ⟨a2, b2⟩ := C41_isolated h h2
    have e1 : ∀ rnd, parseBytes rnd 0 (exampleSrcs true) = .ok ⟨false, false, [], [.sub (anonName (rnd 1)) [.node ⟨b!"a", ⟨[], []⟩⟩ [],
        .sub (anonName (rnd 0)) [.node ⟨b!"b", ⟨[], []⟩⟩ []]]]⟩ 2 := fun rnd => by rfl
    have e2 : ∀ rnd, parseBytes rnd 0 (exampleSrcs false) = .ok ⟨false, false, [], [.sub (anonName (rnd 0)) [.node ⟨b!"c", ⟨[], []⟩⟩ []],
        .sub (b!"s") [.node ⟨b!"d", ⟨[], []⟩⟩ []]]⟩ 1 := fun rnd => by rfl
    rw [e1] at a1
    rw [e2] at a2
    exact ⟨(b1 _ _ a1).symm, (b2 _ _ a2).symm, by rw [h2, a2]; rfl⟩

end Gographviz.Props
