import Verif.Proofs.LexTokens
import Verif.Spec.Grammar
/-!
A sentence ends where its braces close, and what follows a closing brace does not change the tokens before it.
-/
namespace Gographviz.Spec.Grammar

open Gographviz Gographviz.Lex

/-- What follows the token that brings the number of open braces back to 0. -/
def afterBraces : Nat → List Nat → Option (List Nat)
  | _, [] => none
  | d, t :: ts =>
    if t = 3 then afterBraces (d + 1) ts
    else if t = 4 then (if d ≤ 1 then (if d = 1 then some ts else none) else afterBraces (d - 1) ts)
    else afterBraces d ts

/-- The number of open braces after the symbols, when it does not fall below the number at the start. -/
def symDepth : Nat → List Sym → Option Nat
  | e, [] => some e
  | e, .n N :: Xs => if N = .DotGraph then none else symDepth e Xs
  | e, .t k :: Xs =>
    if k = 3 then symDepth (e + 1) Xs
    else if k = 4 then (if e = 0 then none else symDepth (e - 1) Xs)
    else symDepth e Xs

/-- A header without braces, an opening brace, balanced symbols, a closing brace. -/
def symTop : List Sym → Bool
  | [] => false
  | .n N :: Xs => decide (N = .Id) && symTop Xs
  | .t k :: Xs =>
    if k = 3 then decide (Xs.getLast? = some (.t 4)) && decide (symDepth 0 Xs.dropLast = some 0)
    else decide (k ≠ 4) && symTop Xs

theorem rules_depth : ∀ e ∈ rules, e.1 ≠ .DotGraph → symDepth 0 e.2 = some 0 := by decide +kernel

theorem rules_top : ∀ e ∈ rules, e.1 = .DotGraph → symTop e.2 = true := by decide +kernel

theorem rules_id : ∀ e ∈ rules, e.1 = .Id → e.2 = [Sym.t 18] := by decide +kernel

theorem yields_append (a b : List Tree) : yields (a ++ b) = yields a ++ yields b := by
  induction a with
  | nil => simp [yields]
  | cons T a ih => simp [yields, ih]

mutual
theorem derives_after : ∀ {X : Sym} {T : Tree}, Derives X T → ∀ {N : NT}, X = .n N → N ≠ .DotGraph → ∀ (d : Nat) (l : List Nat), 1 ≤ d →
    afterBraces d ((yield T).map Token.typ ++ l) = afterBraces d l
  | _, _, .leaf, _, h, _ => by cases h
  | _, _, .node (N := M) (rhs := rhs) hr hd, N, h, hN => by
    intro d l hd1
    cases h
    have := derivesAll_after hd (e := 0) (e' := 0) (rules_depth _ (List.mem_of_getElem? hr) hN) d l hd1
    simpa [yield] using this
theorem derivesAll_after : ∀ {Xs : List Sym} {Ts : List Tree}, DerivesAll Xs Ts → ∀ {e e' : Nat}, symDepth e Xs = some e' →
    ∀ (d : Nat) (l : List Nat), 1 ≤ d → afterBraces (d + e) ((yields Ts).map Token.typ ++ l) = afterBraces (d + e') l
  | _, _, .nil, e, e', h => by
    intro d l _
    simp only [symDepth, Option.some.injEq] at h
    subst h
    simp [yields]
  | _, _, .cons (X := .n N) (T := T) (Ts := Ts) hX hXs, e, e', h => by
    intro d l hd
    simp only [symDepth] at h
    by_cases hN : N = .DotGraph
    · rw [if_pos hN] at h; cases h
    · rw [if_neg hN] at h
      have h1 := derives_after hX rfl hN (d + e) ((yields Ts).map Token.typ ++ l) (by omega)
      simp only [yields, List.map_append, List.append_assoc]
      rw [h1]
      exact derivesAll_after hXs h d l hd
  | _, _, .cons (X := .t k) (T := T) (Ts := Ts) hX hXs, e, e', h => by
    intro d l hd
    cases hX with
    | @leaf t =>
      simp only [symDepth] at h
      simp only [yields, yield, List.map_append, List.map_cons, List.map_nil, List.append_assoc, List.cons_append, List.nil_append,
        afterBraces]
      by_cases h3 : t.typ = 3
      · rw [if_pos h3] at h ⊢
        have := derivesAll_after hXs h d l hd
        rw [← this]; rfl
      · rw [if_neg h3] at h ⊢
        by_cases h4 : t.typ = 4
        · rw [if_pos h4] at h ⊢
          by_cases h0 : e = 0
          · rw [if_pos h0] at h; cases h
          · rw [if_neg h0] at h
            rw [if_neg (by omega)]
            have := derivesAll_after hXs h d l hd
            rw [← this]
            congr 1; omega
        · rw [if_neg h4] at h ⊢
          exact derivesAll_after hXs h d l hd
end

theorem derives_id {T : Tree} (h : Derives (.n .Id) T) : ∃ t : Token, yield T = [t] ∧ t.typ = 18 := by
  generalize hX : Sym.n NT.Id = X at h
  cases h with
  | leaf => cases hX
  | node hr hd =>
    cases hX
    have := rules_id _ (List.mem_of_getElem? hr) rfl
    simp only at this
    subst this
    generalize hk : Sym.t 18 = Y at hd
    cases hd with
    | cons h1 h2 =>
      cases h2
      generalize hX : Y = X at h1
      cases h1 with
      | @leaf t =>
        rw [← hk] at hX
        exact ⟨t, by simp [yield, yields], by injection hX with h; exact h.symm⟩
      | node => rw [← hk] at hX; cases hX

theorem DerivesAll.split {Xs : List Sym} {X : Sym} {Ts : List Tree} (h : DerivesAll (Xs ++ [X]) Ts) :
    ∃ Us U, Ts = Us ++ [U] ∧ DerivesAll Xs Us ∧ Derives X U := by
  induction Xs generalizing Ts with
  | nil =>
    cases h with
    | cons h1 h2 => cases h2; exact ⟨[], _, rfl, .nil, h1⟩
  | cons Y Xs ih =>
    rw [List.cons_append] at h
    cases h with
    | cons h1 h2 =>
      obtain ⟨Us, U, rfl, h3, h4⟩ := ih h2
      exact ⟨_ :: Us, U, rfl, .cons h1 h3, h4⟩

theorem derivesAll_top {Xs : List Sym} {Ts : List Tree} (h : DerivesAll Xs Ts) : symTop Xs = true →
    (∀ l, afterBraces 0 ((yields Ts).map Token.typ ++ l) = some l) ∧ ∃ us u, yields Ts = us ++ [u] ∧ u.typ = 4 := by
  induction Xs generalizing Ts with
  | nil => intro h'; cases h'
  | cons X Xs ih =>
    intro hs
    cases h with
    | @cons _ _ T Ts hX hXs =>
      cases X with
      | n N =>
        simp only [symTop, Bool.and_eq_true, decide_eq_true_eq] at hs
        obtain ⟨rfl, hs⟩ := hs
        obtain ⟨t, h1, h2⟩ := derives_id hX
        obtain ⟨ha, us, u, hu, h4⟩ := ih hXs hs
        refine ⟨fun l => ?_, t :: us, u, ?_, h4⟩
        · simp only [yields, h1, List.map_append, List.map_cons, List.map_nil, List.cons_append, List.nil_append, afterBraces, h2]
          simpa using ha l
        · simp only [yields, h1, hu]; rfl
      | t k =>
        cases hX with
        | @leaf t =>
        simp only [symTop] at hs
        by_cases h3 : t.typ = 3
        · rw [if_pos h3] at hs
          simp only [Bool.and_eq_true, decide_eq_true_eq] at hs
          obtain ⟨hl, hd⟩ := hs
          obtain ⟨Ys, rfl⟩ := List.getLast?_eq_some_iff.1 hl
          rw [List.dropLast_concat] at hd
          obtain ⟨Us, U, rfl, hU, hr⟩ := hXs.split
          generalize hY : Sym.t 4 = Y at hr
          cases hr with
          | node => cases hY
          | @leaf u =>
          injection hY with hY
          refine ⟨fun l => ?_, t :: yields Us, u, ?_, hY.symm⟩
          · have := derivesAll_after hU hd 1 (4 :: l) (Nat.le_refl 1)
            simp only [yields_append, yields, yield, List.map_append, List.map_cons, List.map_nil, List.cons_append, List.nil_append,
              List.append_nil, List.append_assoc, afterBraces, h3, if_true, ← hY]
            rw [show 0 + 1 = 1 + 0 from rfl, this]
            simp [afterBraces]
          · simp [yields_append, yields, yield]
        · rw [if_neg h3] at hs
          simp only [Bool.and_eq_true, decide_eq_true_eq] at hs
          obtain ⟨h4, hs⟩ := hs
          obtain ⟨ha, us, u, hu, hu4⟩ := ih hXs hs
          refine ⟨fun l => ?_, t :: us, u, ?_, hu4⟩
          · simp only [yields, yield, List.map_append, List.map_cons, List.map_nil, List.cons_append, List.nil_append, afterBraces, h3, h4]
            simpa using ha l
          · simp only [yields, yield, hu]; rfl

/-- A sentence ends where its braces close. -/
theorem sentence_ends {ts : List Token} (h : Sentence ts) :
    (∀ l, afterBraces 0 (ts.map Token.typ ++ l) = some l) ∧ ∃ us u, ts = us ++ [u] ∧ u.typ = 4 := by
  obtain ⟨T, hT, rfl⟩ := h
  generalize hX : Sym.n NT.DotGraph = X at hT
  cases hT with
  | leaf => cases hX
  | node hr hd =>
    cases hX
    have := derivesAll_top hd (rules_top _ (List.mem_of_getElem? hr) rfl)
    simpa only [yield] using this

end Gographviz.Spec.Grammar

namespace Gographviz.Lex

open Gographviz Spec

theorem scans_rbrace (z : Str) : Scans (125 :: z) [] 4 [125] z := by
  have h : TokenText 4 (runes [125]) := by
    rw [runes_ascii (by decide)]
    exact .inr (.inl (by decide))
  exact scans_token h (cut_ascii_one (by decide) z) (.inl (.inr (.inr ⟨4, by rw [runes_ascii (by decide)]; decide⟩)))

/-- What follows a closing brace does not change the tokens up to it. -/
theorem Toks.resume {pre post : List (Str × Nat × Str)} {sk : Str} {rem : Str} (h : Toks rem (pre ++ (sk, 4, [125]) :: post))
    {z : Str} {zs : List (Str × Nat × Str)} (hz : Toks z zs) :
    Toks (Lex.flat pre ++ sk ++ 125 :: z) (pre ++ (sk, 4, [125]) :: zs) := by
  induction pre generalizing rem with
  | nil =>
    simp only [List.nil_append, Lex.flat, List.flatMap_nil] at h ⊢
    cases h with
    | cons h hne ht =>
      have := (scans_rbrace z).layout h.sound.1
      rw [List.append_nil] at this
      exact .cons this hne hz
  | cons y pre ih =>
    obtain ⟨sk0, t0, lit0⟩ := y
    generalize hys : (sk0, t0, lit0) :: pre ++ (sk, 4, [125]) :: post = ys at h
    cases h with
    | eof h =>
      have := congrArg List.length hys
      simp at this
    | @cons _ _ _ rest _ _ h hne ht =>
      simp only [List.cons_append, List.cons.injEq, Prod.mk.injEq] at hys
      obtain ⟨⟨rfl, rfl, rfl⟩, rfl⟩ := hys
      have e : rest = (Lex.flat pre ++ sk) ++ 125 :: Lex.flat post := by
        rw [ht.flat]; simp [Lex.flat]
      have hsk := h.sound.1
      have h1 := h.tail
      rw [e] at h1
      have h2 := (h1.change hne (by simp) (cut_ascii_right _ (by decide) _) (c := 125) (by decide) (by unfold EndRune; decide) z).layout hsk
      rw [List.append_nil] at h2
      have h3 := Toks.cons h2 hne (ih ht)
      have e2 : Lex.flat ((sk0, t0, lit0) :: pre) ++ sk ++ 125 :: z = sk0 ++ (lit0 ++ (Lex.flat pre ++ sk ++ 125 :: z)) := by
        simp [Lex.flat]
      rw [e2]
      exact h3

/-- Only layout has no tokens. -/
theorem toks_layout {z sk : Str} : Toks z [(sk, 1, [])] ↔ z = sk ∧ Layout z := by
  constructor
  · intro h
    have hf := h.flat
    simp only [Lex.flat, List.flatMap_cons, List.flatMap_nil, List.append_nil] at hf
    subst hf
    cases h with
    | eof h => exact ⟨rfl, h.sound.1⟩
    | cons h hne _ => exact absurd rfl hne
  · rintro ⟨rfl, h⟩
    have := Scans.eof.layout h
    rw [List.append_nil] at this
    exact .eof this

/-- The text of a closing brace. -/
theorem Toks.rbrace {rem : Str} {ys : List (Str × Nat × Str)} (h : Toks rem ys) {sk lit : Str} (hm : (sk, 4, lit) ∈ ys) : lit = [125] := by
  induction h with
  | eof _ => simp at hm
  | @cons rem sk' lit' rest t ys h hne _ ih =>
    rcases List.mem_cons.1 hm with hm | hm
    · cases hm
      rcases h.sound.2.2.2 with h' | h' | h'
      · cases h'.1
      · have h4 := h'.2.2.2
        have : runes lit = [125] := by
          rcases h4 with h4 | h4 | h4
          · exact absurd h4 (by simp [keywords])
          · simpa [puncts] using h4
          · cases h4.1
        obtain ⟨c, rfl, hc⟩ := runes_head_ascii (by decide) this
        rw [runes_eq_nil] at hc; subst hc; rfl
      · cases h'.1
    · exact ih hm

end Gographviz.Lex
