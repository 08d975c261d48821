import Verif.Proofs.ParseBack
/-!
The parser of the model runs like the automaton with parse trees.
-/
namespace Gographviz.Parse

open Gographviz Gographviz.Lex Gographviz.Spec.Grammar Gographviz.Spec.Meaning

variable {σ : Type} {scan : σ → Option (Token × σ)} {rnd : Nat → Nat}

/-- The scanner returns these tokens; the last one is the first end-of-input token. -/
inductive Stream (scan : σ → Option (Token × σ)) : σ → List Token → Prop where
  | one {sc sc' : σ} {t : Token} : scan sc = some (t, sc') → t.typ = 1 → Stream scan sc [t]
  | cons {sc sc' : σ} {t : Token} {ts : List Token} : scan sc = some (t, sc') → t.typ ≠ 1 → Stream scan sc' ts → Stream scan sc (t :: ts)

theorem Stream.last {sc : σ} {ts : List Token} (h : Stream scan sc ts) : ∃ ts0 e, ts = ts0 ++ [e] ∧ e.typ = 1 ∧ ∀ t ∈ ts0, t.typ ≠ 1 := by
  induction h with
  | one h1 h2 => exact ⟨[], _, rfl, h2, by simp⟩
  | cons h1 h2 _ ih =>
    obtain ⟨ts0, e, rfl, he, hn⟩ := ih
    exact ⟨_ :: ts0, e, rfl, he, by simpa using ⟨h2, hn⟩⟩

/-- The attributes on the stack are the values of the trees. -/
inductive SVal (rnd : Nat → Nat) (c0 : Nat) : List (Nat × Attrib) → List (Nat × Tree) → Nat → Prop where
  | base {T : Tree} : SVal rnd c0 [(0, .nil)] [(0, T)] c0
  | push {as : List (Nat × Attrib)} {ts : List (Nat × Tree)} {c c' s : Nat} {T : Tree} {v : Attrib} : SVal rnd c0 as ts c →
      evalT rnd c T = some (v, c') → SVal rnd c0 ((s, v) :: as) ((s, T) :: ts) c'

theorem evalTs_append {c c1 c2 : Nat} {Ts Us : List Tree} {vs ws : List Attrib} (h : evalTs rnd c Ts = some (vs, c1))
    (h' : evalTs rnd c1 Us = some (ws, c2)) : evalTs rnd c (Ts ++ Us) = some (vs ++ ws, c2) := by
  induction Ts generalizing c vs with
  | nil => simp only [evalTs, Option.some.injEq, Prod.mk.injEq] at h; obtain ⟨rfl, rfl⟩ := h; simpa using h'
  | cons T Ts ih =>
    simp only [evalTs] at h
    split at h
    · cases h
    · rename_i v c3 hv
      split at h
      · cases h
      · rename_i vs' c4 hvs
        simp only [Option.some.injEq, Prod.mk.injEq] at h
        obtain ⟨rfl, rfl⟩ := h
        simp only [List.cons_append, evalTs, hv, ih hvs]

theorem SVal.length {c0 c : Nat} {as : List (Nat × Attrib)} {ts : List (Nat × Tree)} (h : SVal rnd c0 as ts c) : as.length = ts.length := by
  induction h with
  | base => rfl
  | push _ _ ih => simp [ih]

theorem SVal.pop {c0 c : Nat} {as : List (Nat × Attrib)} {ts : List (Nat × Tree)} (h : SVal rnd c0 as ts c) {n : Nat} (hn : n < ts.length) :
    ∃ c1, SVal rnd c0 (as.drop n) (ts.drop n) c1 ∧
      evalTs rnd c1 ((ts.take n).map (·.2)).reverse = some (((as.take n).map (·.2)).reverse, c) := by
  induction n generalizing c as ts with
  | zero => exact ⟨c, by simpa using h, by simp [evalTs]⟩
  | succ n ih =>
    cases h with
    | base => simp at hn
    | push h1 h2 =>
      obtain ⟨c1, h3, h4⟩ := ih h1 (by simpa using hn)
      refine ⟨c1, by simpa using h3, ?_⟩
      simp only [List.take_succ_cons, List.map_cons, List.reverse_cons]
      exact evalTs_append h4 (by simp only [evalTs, h2])

/-- The parser state corresponds to the configuration of the automaton. -/
structure Rel (scan : σ → Option (Token × σ)) (rnd : Nat → Nat) (c0 : Nat) (st : PState σ) (stk : List (Nat × Tree)) (ts : List Token) : Prop where
  vals : SVal rnd c0 st.stack stk st.cnt
  toks : ∃ us, ts = st.next :: us ∧ ((st.next.typ = 1 ∧ us = []) ∨ (st.next.typ ≠ 1 ∧ Stream scan st.sc us))

theorem step_rel {c0 : Nat} {st : PState σ} {stk : List (Nat × Tree)} {ts : List Token} {Xs : List Sym} (hrel : Rel scan rnd c0 st stk ts)
    (hok : StackOk stk Xs) (hid : IdsOk (stkYield stk ++ ts)) :
    match astep stk ts with
    | .bad => False
    | .err e x => step scan rnd st = .stop (.syntaxErr e x)
    | .acc T => ∃ v, step scan rnd st = .stop (.ok v st.cnt) ∧ evalT rnd c0 T = some (v, st.cnt)
    | .cont stk' ts' => ∃ st', step scan rnd st = .cont st' ∧ Rel scan rnd c0 st' stk' ts' := by
  obtain ⟨hv, us, rfl, htoks⟩ := hrel
  have hstep := astep_ok hok st.next us
  obtain ⟨s, T, stk', hstk, -, -⟩ := hok.past
  have hst : ∃ a rest, st.stack = (s, a) :: rest := by
    rw [hstk] at hv
    generalize st.stack = as at hv
    cases hv with
    | base => exact ⟨_, _, rfl⟩
    | push h _ => exact ⟨_, _, rfl⟩
  obtain ⟨a, rest, hst⟩ := hst
  cases hr : astep stk (st.next :: us) with
  | bad => rw [hr] at hstep; exact hstep.elim
  | err e x =>
    subst hstk
    simp only [astep] at hr
    simp only [step, hst]
    split at hr
    · cases hr
    · split at hr
      · cases hr
        rename_i h1 _ h2
        simp only [h1, h2]
      · cases hr
      · cases hr
      · split at hr
        · cases hr
        · split at hr
          · cases hr
          · split at hr
            · cases hr
            · cases hr
  | acc T' =>
    rw [hr] at hstep
    obtain ⟨_, T0, hstk2, _⟩ := hstep
    rw [hstk2] at hstk
    cases hstk
    subst hstk2
    simp only [astep] at hr
    simp only [step, hst]
    split at hr
    · cases hr
    · rename_i row hrow
      split at hr
      · cases hr
      · rename_i hacc
        simp only [hrow, hacc]
        refine ⟨a, rfl, ?_⟩
        rw [hst] at hv
        generalize st.cnt = c at hv
        cases hv with
        | push h1 h2 =>
          generalize hw : [((0 : Nat), T0)] = w at h1
          cases h1 with
          | base => exact h2
          | push h3 _ => cases hw; cases h3
      · cases hr
      · split at hr
        · cases hr
        · split at hr
          · cases hr
          · split at hr
            · cases hr
            · cases hr
  | cont stk2 ts2 =>
    rw [hr] at hstep
    obtain ⟨⟨Xs', hok'⟩, hy, hc⟩ := hstep
    subst hstk
    simp only [astep] at hr
    simp only [step, hst]
    split at hr
    · cases hr
    · rename_i row hrow
      split at hr
      · cases hr
      · cases hr
      · -- shift
        rename_i s' hact
        cases hr
        simp only [hrow, hact]
        rcases htoks with ⟨h1, _⟩ | ⟨h1, hstream⟩
        · have hk := row_ok (s := s) (t := st.next.typ) (a := .shift s') (by simp [act, hrow, hact])
          exact absurd h1 hk.1
        · cases hstream with
          | one h2 h3 =>
            rename_i sc' t
            simp only [h2]
            refine ⟨_, rfl, ?_, ?_⟩
            · exact .push (hst ▸ hv) rfl
            · exact ⟨[], rfl, .inl ⟨h3, rfl⟩⟩
          | cons h2 h3 h4 =>
            simp only [h2]
            refine ⟨_, rfl, ?_, ?_⟩
            · exact .push (hst ▸ hv) rfl
            · exact ⟨_, rfl, .inr ⟨h3, h4⟩⟩
      · -- reduce
        rename_i p hact
        have hk := (row_ok (s := s) (t := st.next.typ) (a := .reduce p) (by simp [act, hrow, hact])).1
        obtain ⟨r, N, rhs, s0, T0, rest0, d, hp', hrule, hprod, ⟨ac, hac⟩, h4, hdr, hd, hst0, hder⟩ := reduce_ok hok hk
        rw [hprod] at hr
        simp only [hdr, hd] at hr
        cases hr
        have hlt : rhs.length < ((s, T) :: stk').length := by
          have := congrArg List.length hdr
          rw [List.length_drop] at this
          simp only [List.length_cons] at this ⊢
          omega
        obtain ⟨c1, hsv, hev⟩ := hv.pop hlt
        rw [hdr] at hsv
        have hdrop : ∃ a0 as0, st.stack.drop rhs.length = (s0, a0) :: as0 := by
          generalize hz : st.stack.drop rhs.length = z at hsv
          cases hsv with
          | base => exact ⟨_, _, rfl⟩
          | push => exact ⟨_, _, rfl⟩
        obtain ⟨a0, as0, hdrop⟩ := hdrop
        have hnode : Derives (.n N) (.node r ((((s, T) :: stk').take rhs.length).map (·.2)).reverse) := .node hrule hder
        have hidn : IdsOk (yield (.node r ((((s, T) :: stk').take rhs.length).map (·.2)).reverse)) := by
          intro t ht h18
          refine hid t ?_ h18
          rw [← hy]
          subst hp'
          simp only [stkYield, Nat.add_sub_cancel]
          exact List.mem_append_left _ (List.mem_append_right _ ht)
        obtain ⟨v, c', he, -⟩ := eval_den rnd hnode hidn c1
        have he' := he
        simp only [evalT, hev] at he
        subst hp'
        rw [hac] at he
        split at he
        · cases he
        · rename_i a' hac'
          cases hac'
          split at he
          · rename_i v' hv'
            simp only [Option.some.injEq, Prod.mk.injEq] at he
            obtain ⟨rfl, rfl⟩ := he
            have hlen : ¬ st.stack.length < rhs.length := by rw [hv.length]; omega
            rw [hst] at hlen hv' hdrop
            have hgd : ∃ row, gotoTab[s0]? = some row ∧ row[ntIx N]? = some (some d) := by
              unfold goto at hd
              cases hg : gotoTab[s0]? with
              | none => rw [hg] at hd; simp at hd
              | some row => rw [hg] at hd; exact ⟨row, rfl, by simpa [Option.join_eq_some_iff] using hd⟩
            obtain ⟨grow, hg1, hg2⟩ := hgd
            simp only [hrow, hact, hprod, hac, hlen, if_false, hv', hdrop, hg1, hg2]
            refine ⟨_, rfl, ?_, us, rfl, htoks⟩
            rw [hst, hdrop] at hsv
            refine .push hsv ?_
            rw [Nat.add_sub_cancel]
            rw [he', hst]
          · cases he

/-- What the parser returns for an outcome of the automaton. -/
def Returns (rnd : Nat → Nat) (c0 : Nat) : AStep → PRes Attrib → Prop
  | .acc T, r => ∃ v c', evalT rnd c0 T = some (v, c') ∧ r = .ok v c'
  | .err t x, r => r = .syntaxErr t x
  | _, _ => False

theorem loop_runs {n : Nat} {stk : List (Nat × Tree)} {ts : List Token} {r : AStep} (hruns : Runs n stk ts r) {c0 : Nat} {st : PState σ}
    {Xs : List Sym} (hrel : Rel scan rnd c0 st stk ts) (hok : StackOk stk Xs) (hid : IdsOk (stkYield stk ++ ts)) {fuel : Nat} (hf : n < fuel) :
    Returns rnd c0 r (loop scan rnd fuel st) := by
  induction hruns generalizing st Xs fuel with
  | stop hn =>
    rename_i stk ts
    obtain ⟨f, rfl⟩ : ∃ f, fuel = f + 1 := ⟨fuel - 1, by omega⟩
    have h := step_rel hrel hok hid
    cases hr : astep stk ts with
    | cont a b => exact absurd hr (hn a b)
    | bad => rw [hr] at h; exact h.elim
    | err e x => rw [hr] at h; simp only [loop, h]; rfl
    | acc T =>
      rw [hr] at h
      obtain ⟨v, h1, h2⟩ := h
      simp only [loop, h1]
      exact ⟨v, _, h2, rfl⟩
  | cont hc _ ih =>
    obtain ⟨f, rfl⟩ : ∃ f, fuel = f + 1 := ⟨fuel - 1, by omega⟩
    have h := step_rel hrel hok hid
    rw [hc] at h
    obtain ⟨st', h1, h2⟩ := h
    obtain ⟨us, hus, _⟩ := hrel.toks
    subst hus
    have hs := astep_ok hok st.next us
    rw [hc] at hs
    obtain ⟨⟨Xs', hok'⟩, hy, _⟩ := hs
    simp only [loop, h1]
    exact ih h2 hok' (by rw [hy]; exact hid) (by omega)

/-- Parsing follows the automaton. -/
theorem parse_runs {sc : σ} {ts0 : List Token} {e : Token} (hs : Stream scan sc (ts0 ++ [e])) (he : e.typ = 1)
    (hid : IdsOk ts0) (c0 : Nat) {fuel : Nat} (hf : 8 * (ts0.length + 1) < fuel) :
    ∃ n r, Runs n [bottom] (ts0 ++ [e]) r ∧ Returns rnd c0 r (parse scan rnd fuel c0 sc) := by
  have hok : StackOk [bottom] [] := .base _
  obtain ⟨n, r, hruns, hn⟩ := runs_total hok (ts := ts0 ++ [e]) rfl he
  simp only [stkSize, bottom, stkYield, List.length_nil, List.length_append, List.length_cons] at hn
  refine ⟨n, r, hruns, ?_⟩
  generalize hq : ts0 ++ [e] = q at hs hruns
  have hid' : IdsOk q := by
    subst hq
    intro t ht h18
    rcases List.mem_append.mp ht with h | h
    · exact hid t h h18
    · have : t = e := by simpa using h
      subst this; omega
  cases hs with
  | one h1 h2 =>
    simp only [parse, h1]
    exact loop_runs hruns ⟨.base, [], rfl, .inl ⟨h2, rfl⟩⟩ hok (by simpa [stkYield, bottom] using hid') (by omega)
  | cons h1 h2 h3 =>
    simp only [parse, h1]
    exact loop_runs hruns ⟨.base, _, rfl, .inr ⟨h2, h3⟩⟩ hok (by simpa [stkYield, bottom] using hid') (by omega)

/-- The outcome of parsing a token sequence. -/
theorem parse_outcome {sc : σ} {ts0 : List Token} {e : Token} (hs : Stream scan sc (ts0 ++ [e])) (he : e.typ = 1) (hno : ∀ t ∈ ts0, t.typ ≠ 1)
    (hid : IdsOk ts0) (c0 : Nat) {fuel : Nat} (hf : 8 * (ts0.length + 1) < fuel) :
    (∃ T v c', Derives (.n .DotGraph) T ∧ yield T = ts0 ∧ evalT rnd c0 T = some (v, c') ∧ parse scan rnd fuel c0 sc = .ok v c') ∨
    (¬ Sentence ts0 ∧ ∃ t x, t ∈ ts0 ++ [e] ∧ parse scan rnd fuel c0 sc = .syntaxErr t x) := by
  have hok : StackOk [bottom] [] := .base _
  obtain ⟨n, r, hruns, hparse⟩ := parse_runs (rnd := rnd) hs he hid c0 hf
  have hout := runs_sound hruns hok rfl he hno
  cases r with
  | acc T =>
    left
    obtain ⟨h1, h2⟩ := hout
    obtain ⟨v, c', h3, h4⟩ := hparse
    exact ⟨T, v, c', h1, by simpa [stkYield, bottom] using h2, h3, h4⟩
  | err t x =>
    right
    refine ⟨?_, t, x, hout, hparse⟩
    rintro ⟨T, hT, rfl⟩
    obtain ⟨m, hm⟩ := runs_complete hT he
    have := (hruns.det hm).2
    cases this
  | cont => exact hout.elim
  | bad => exact hout.elim

/-- The grammar is unambiguous. -/
theorem unambiguous {T U : Tree} (hT : Derives (.n .DotGraph) T) (hU : Derives (.n .DotGraph) U) (h : yield T = yield U) : T = U := by
  obtain ⟨n, hn⟩ := runs_complete hT (e := ⟨1, [], 0, 0, 0⟩) rfl
  obtain ⟨m, hm⟩ := runs_complete hU (e := ⟨1, [], 0, 0, 0⟩) rfl
  rw [h] at hn
  have := (hn.det hm).2
  cases this
  rfl

end Gographviz.Parse
