import Verif.Props.NestingProps
/-!
C98: the stack of the parser is needed: at least one entry for each level of braces.
-/
namespace Gographviz.Props

open Gographviz Gographviz.Lex Gographviz.Parse Gographviz.Spec.Nesting Gographviz.Spec.Grammar

namespace Nest

/-- Read from depth `d`, no `}` comes without its `{`. -/
def okFrom (d : Nat) : List Sym → Bool
  | [] => true
  | X :: Xs => if X = .t 3 then okFrom (d + 1) Xs else if X = .t 4 then decide (0 < d) && okFrom (d - 1) Xs else okFrom d Xs

theorem rules_okFrom : (rules.all fun e => okFrom 0 e.2) = true := by decide +kernel

mutual
/-- No part of a text of the grammar from its beginning closes more braces than it opens. -/
theorem derives_prefix {N : NT} {T : Tree} (h : Derives (.n N) T) : ∀ p q, yield T = p ++ q → Gographviz.Nest.closesT p ≤ Gographviz.Nest.opensT p := by
  cases h with
  | node hr hd =>
    intro p q e
    have h2 := List.all_eq_true.mp rules_okFrom _ (List.mem_of_getElem? hr)
    have := derivesAll_prefix hd 0 h2 p q e
    omega
theorem derivesAll_prefix {Xs : List Sym} {Ts : List Tree} (h : DerivesAll Xs Ts) (d : Nat) (hok : okFrom d Xs = true) :
    ∀ p q, yields Ts = p ++ q → Gographviz.Nest.closesT p ≤ Gographviz.Nest.opensT p + d := by
  cases h with
  | nil =>
    intro p q e
    have : p = [] := by
      simp only [yields] at e
      exact (List.append_eq_nil_iff.mp e.symm).1
    subst this
    exact Nat.zero_le _
  | cons h1 h2 =>
    rename_i X Xs T Ts
    intro p q e
    simp only [yields] at e
    rcases List.append_eq_append_iff.mp e with ⟨r, hp, hq⟩ | ⟨r, hp, hq⟩
    · -- the whole first part
      subst hp
      have hb := Gographviz.Nest.derives_balanced h1
      rw [Gographviz.Nest.opensT_append, Gographviz.Nest.closesT_append]
      simp only [okFrom] at hok
      by_cases h3 : X = .t 3
      · rw [if_pos h3] at hok
        have := derivesAll_prefix h2 (d + 1) hok r q hq
        subst h3
        have e1 : Gographviz.Nest.closes [Sym.t 3] = 0 := by decide
        have e2 : Gographviz.Nest.opens [Sym.t 3] = 1 := by decide
        omega
      · rw [if_neg h3] at hok
        by_cases h4 : X = .t 4
        · rw [if_pos h4] at hok
          simp only [Bool.and_eq_true, decide_eq_true_eq] at hok
          have := derivesAll_prefix h2 (d - 1) hok.2 r q hq
          subst h4
          have e1 : Gographviz.Nest.closes [Sym.t 4] = 1 := by decide
          have e2 : Gographviz.Nest.opens [Sym.t 4] = 0 := by decide
          omega
        · rw [if_neg h4] at hok
          have := derivesAll_prefix h2 d hok r q hq
          have e1 : Gographviz.Nest.closes [X] = 0 := by simp [Gographviz.Nest.closes, List.countP_cons, h4]
          have e2 : Gographviz.Nest.opens [X] = 0 := by simp [Gographviz.Nest.opens, List.countP_cons, h3]
          omega
    · -- part of the first part
      cases X with
      | n N =>
        have := derives_prefix h1 p r hp
        omega
      | t k =>
        cases h1 with
        | leaf =>
          rename_i t
          simp only [yield] at hp
          cases p with
          | nil => exact Nat.zero_le _
          | cons a p =>
            have hp' := hp
            simp only [List.cons_append, List.cons.injEq] at hp'
            obtain ⟨rfl, hnil⟩ := hp'
            obtain ⟨rfl, -⟩ := List.append_eq_nil_iff.mp hnil.symm
            simp only [okFrom] at hok
            by_cases h4 : t.typ = 4
            · rw [h4] at hok
              simp at hok
              simp [Gographviz.Nest.closesT, Gographviz.Nest.opensT, h4]
              omega
            · simp [Gographviz.Nest.closesT, Gographviz.Nest.opensT, h4]
end

/-- The deepest point of a text in which no brace closes too much. -/
theorem deepest : ∀ (ts : List Token) (d : Nat), (∀ p q, ts = p ++ q → Gographviz.Nest.closesT p ≤ Gographviz.Nest.opensT p + d) →
    ∃ p q, ts = p ++ q ∧ Gographviz.Nest.opensT p + d = Gographviz.Nest.closesT p + braces d (ts.map (·.typ))
  | [], d, _ => ⟨[], [], rfl, by simp [Gographviz.Nest.opensT, Gographviz.Nest.closesT, braces]⟩
  | t :: ts, d, h => by
    simp only [List.map_cons]
    rw [Gographviz.Nest.braces_cons]
    have e1 : ∀ p, Gographviz.Nest.opensT (t :: p) = Gographviz.Nest.opensT p + if t.typ = 3 then 1 else 0 := by simp [Gographviz.Nest.opensT, List.countP_cons]
    have e2 : ∀ p, Gographviz.Nest.closesT (t :: p) = Gographviz.Nest.closesT p + if t.typ = 4 then 1 else 0 := by simp [Gographviz.Nest.closesT, List.countP_cons]
    have h0 := h [t] ts rfl
    rw [e1, e2] at h0
    have z1 : Gographviz.Nest.opensT [] = 0 := rfl
    have z2 : Gographviz.Nest.closesT [] = 0 := rfl
    obtain ⟨p, q, hpq, hm⟩ := deepest ts (if t.typ = 3 then d + 1 else if t.typ = 4 then d - 1 else d) (by
      intro p q hpq
      have := h (t :: p) q (by rw [hpq]; rfl)
      rw [e1, e2] at this
      split
      · rename_i h3; rw [if_pos h3, if_neg (by omega)] at this; omega
      · rename_i h3
        rw [if_neg h3] at this h0
        split
        · rename_i h4; rw [if_pos h4] at this h0; omega
        · rename_i h4; rw [if_neg h4] at this; omega)
    rcases Nat.le_total d (braces (if t.typ = 3 then d + 1 else if t.typ = 4 then d - 1 else d) (ts.map (·.typ))) with hle | hle
    · refine ⟨t :: p, q, by rw [hpq]; rfl, ?_⟩
      rw [Nat.max_eq_right hle, e1, e2]
      revert hm
      split
      · rename_i h3; rw [if_neg (show ¬ t.typ = 4 by omega)]; omega
      · rename_i h3
        rw [if_neg h3] at h0
        split
        · rename_i h4; rw [if_pos h4] at h0; omega
        · rename_i h4; omega
    · exact ⟨[], t :: ts, rfl, by rw [Nat.max_eq_left hle, z1, z2]⟩

end Nest

/-- While an accepted text is parsed, the parser stops behind every token. -/
theorem parsing_reaches {rnd : Nat → Nat} {cnt : Nat} {src : Str} {ts0 : List Token} {e : Token} (hts : tokens src = some (ts0 ++ [e])) (he : e.typ = 1)
    (hno : ∀ t ∈ ts0, t.typ ≠ 1) (hid : IdsOk (ts0 ++ [e])) :
    ∀ (fuel : Nat) {st : PState Lexer} {v : Attrib} {c : Nat} {stk : List (Nat × Tree)} {rest : List Token} {Xs : List Sym}, Parsing rnd cnt src st → loop scan rnd fuel st = .ok v c →
      Rel scan rnd cnt st stk rest → StackOk stk Xs → stkYield stk ++ rest = ts0 ++ [e] → ∀ p q, ts0 = p ++ q → (stkYield stk).length ≤ p.length →
      ∃ st' stk' rest' Xs', Parsing rnd cnt src st' ∧ Rel scan rnd cnt st' stk' rest' ∧ StackOk stk' Xs' ∧ stkYield stk' = p
  | 0, _, _, _, _, _, _, _, hl, _, _, _, _, _, _, _ => by simp [loop] at hl
  | fuel + 1, st, v, c, stk, rest, Xs, hpar, hl, hrel, hok, hy, p, q, hpq, hlen => by
    rcases Nat.lt_or_ge (stkYield stk).length p.length with hlt | hge
    · have hr := step_rel hrel hok (by rw [hy]; exact hid)
      obtain ⟨us, hus, _⟩ := hrel.toks
      have ha := astep_ok hok st.next us
      rw [← hus] at ha
      cases hx : astep stk rest with
      | bad => rw [hx] at hr; exact hr.elim
      | err t x => rw [hx] at hr; simp only [loop, hr] at hl; cases hl
      | acc T =>
        exfalso
        rw [hx] at ha
        have htot := congrArg List.length hy
        have hmem : st.next ∈ ts0 := by
          have h1 : (ts0 ++ [e])[(stkYield stk).length]? = some st.next := by rw [← hy, hus]; simp
          have h2 : (stkYield stk).length < ts0.length := by rw [hpq, List.length_append]; omega
          rw [List.getElem?_append_left h2] at h1
          exact List.mem_of_getElem? h1
        exact hno _ hmem ha.1
      | cont stk' rest' =>
        rw [hx] at hr ha
        obtain ⟨st', e1, hr⟩ := hr
        obtain ⟨⟨Xs', hok'⟩, hy', hcase⟩ := ha
        simp only [loop, e1] at hl
        refine parsing_reaches hts he hno hid fuel (hpar.next e1) hl hr hok' (hy'.trans hy) p q hpq ?_
        have hl1 := congrArg List.length hy'
        have hl2 := congrArg List.length hus
        rw [List.length_append, List.length_append] at hl1
        simp only [List.length_cons] at hl2
        rcases hcase with h | ⟨_, _, h⟩ <;> rw [h] at hl1 <;> omega
    · refine ⟨st, stk, rest, Xs, hpar, hrel, hok, ?_⟩
      rw [hpq, List.append_assoc] at hy
      exact List.append_inj_left hy (by omega)

/-- **C98** The stack is needed: while an accepted text is parsed, it has, at some time, more entries than braces are nested. -/
theorem C98_needed {rnd : Nat → Nat} {cnt : Nat} {src : Str} {t : Ast.Graph} {n : Nat} (h : parseBytes rnd cnt src = .ok t n) {ts : List Token}
    (hts : tokens src = some ts) : ∃ st, Parsing rnd cnt src st ∧ nesting ts + 1 ≤ st.stack.length := by
  obtain ⟨ts0, e, h1, he, hno, hid, hs, hf⟩ := source_stream src
  rw [hts] at h1
  cases h1
  have hid' : IdsOk (ts0 ++ [e]) := by
    intro t ht h18
    rcases List.mem_append.mp ht with h | h
    · exact hid t h h18
    · have : t = e := by simpa using h
      subst this; omega
  obtain ⟨ts1, e1, h1, _, _, _, hh⟩ := source_spec rnd cnt src
  rw [hts] at h1
  injection h1 with h1
  obtain ⟨rfl, rfl⟩ : ts0 = ts1 ∧ e = e1 := by
    have := List.append_inj' h1 rfl
    exact ⟨this.1, by simpa using this.2⟩
  rcases hh with ⟨_, _, ⟨T, hT, hyT⟩, _⟩ | ⟨_, _, _, _, _, hp⟩
  · have hpre : ∀ p q, ts0 ++ [e] = p ++ q → Gographviz.Nest.closesT p ≤ Gographviz.Nest.opensT p + 0 := by
      intro p q hpq
      rcases List.append_eq_append_iff.mp hpq with ⟨r, hp, hq⟩ | ⟨r, hp, hq⟩
      · subst hp
        have a := Nest.derives_prefix hT ts0 [] (by rw [hyT]; simp)
        rw [Gographviz.Nest.opensT_append, Gographviz.Nest.closesT_append]
        have : Gographviz.Nest.closesT r = 0 := by
          unfold Gographviz.Nest.closesT
          rw [List.countP_eq_zero]
          intro x hx
          have : x ∈ [e] := by rw [hq]; simp [hx]
          have : x = e := by simpa using this
          subst this
          simp [he]
        omega
      · exact Nest.derives_prefix hT p r (by rw [hyT]; exact hp)
    obtain ⟨p, q, hpq, hm⟩ := Nest.deepest (ts0 ++ [e]) 0 hpre
    -- the end of the input is not a brace
    obtain ⟨p', q', hpq', hm'⟩ : ∃ p' q', ts0 = p' ++ q' ∧ Gographviz.Nest.opensT p' = Gographviz.Nest.closesT p' + nesting (ts0 ++ [e]) := by
      rcases List.append_eq_append_iff.mp hpq with ⟨r, hp, hq⟩ | ⟨r, hp, hq⟩
      · refine ⟨ts0, [], by simp, ?_⟩
        subst hp
        rw [Gographviz.Nest.opensT_append, Gographviz.Nest.closesT_append] at hm
        have hz : Gographviz.Nest.closesT r = 0 ∧ Gographviz.Nest.opensT r = 0 := by
          unfold Gographviz.Nest.closesT Gographviz.Nest.opensT
          rw [List.countP_eq_zero, List.countP_eq_zero]
          constructor <;> intro x hx <;>
          · have : x ∈ [e] := by rw [hq]; simp [hx]
            have : x = e := by simpa using this
            subst this
            simp [he]
        unfold nesting
        omega
      · exact ⟨p, r, hp, by unfold nesting; omega⟩
    -- run the parser to that point
    unfold parseBytes parse at h
    cases hsc : scan (newLexer src) with
    | none => rw [hsc] at h; cases h
    | some x =>
      obtain ⟨t0, sc⟩ := x
      rw [hsc] at h
      simp only at h
      obtain ⟨v, c, hl⟩ : ∃ v c, loop scan rnd (fuelFor src.length) { stack := [(0, .nil)], next := t0, sc := sc, cnt := cnt } = .ok v c := by
        split at h
        · rename_i hl; exact ⟨_, _, hl⟩
        all_goals cases h
      have hrel0 : Rel scan rnd cnt { stack := [(0, .nil)], next := t0, sc := sc, cnt := cnt } [bottom] (ts0 ++ [e]) := by
        generalize ts0 ++ [e] = us at hs
        cases hs with
        | one h1 h2 => rw [hsc] at h1; cases h1; exact ⟨.base, [], rfl, .inl ⟨h2, rfl⟩⟩
        | cons h1 h2 h3 => rw [hsc] at h1; cases h1; exact ⟨.base, _, rfl, .inr ⟨h2, h3⟩⟩
      obtain ⟨st', stk', rest', Xs', hpar, hrel, hok, hyield⟩ := parsing_reaches hts he hno hid' _ (.start hsc) hl hrel0 (.base _) rfl p' q' hpq' (Nat.zero_le _)
      refine ⟨st', hpar, ?_⟩
      rw [hrel.vals.length]
      have hb := Gographviz.Nest.stack_balanced hok
      rw [hyield] at hb
      have hlenX : stk'.length = Xs'.length + 1 := by
        clear hb hyield hrel
        induction hok with
        | base => rfl
        | push _ _ _ ih => simp only [List.length_cons] at ih ⊢; omega
      have : Gographviz.Nest.opens Xs' ≤ Xs'.length := List.countP_le_length
      omega
  · rw [h] at hp; cases hp

end Gographviz.Props
