import Verif.Model.Parser
import Verif.Proofs.LRCert
/-!
The LR automaton of the generated parser against the grammar of Spec/Grammar.lean: the parser with parse trees as semantic values.
-/
namespace Gographviz.Parse

open Gographviz Gographviz.Lex Gographviz.Spec.Grammar

/-- Index of a nonterminal in the goto table. -/
def ntIx : NT → Nat
  | .DotGraph => 1 | .StmtList => 2 | .Stmt1 => 3 | .Stmt => 4 | .AttrStmt => 5 | .AttrList => 6 | .AList => 7 | .Attr => 8
  | .EdgeStmt => 9 | .EdgeRHS => 10 | .NodeStmt => 11 | .NodeId => 12 | .Port => 13 | .SubGraphStmt => 14 | .EdgeOp => 15 | .Id => 16

def allNT : List NT := [.DotGraph, .StmtList, .Stmt1, .Stmt, .AttrStmt, .AttrList, .AList, .Attr, .EdgeStmt, .EdgeRHS, .NodeStmt,
  .NodeId, .Port, .SubGraphStmt, .EdgeOp, .Id]

theorem mem_allNT (N : NT) : N ∈ allNT := by cases N <;> decide

/-- Action of state `s` for token type `t`. -/
def act (s t : Nat) : Option Action := (actionTab[s]?).bind (rowAction · t)

/-- Goto entry. -/
def goto (s k : Nat) : Option Nat := ((gotoTab[s]?).bind (·[k]?)).join

/-- Transition of the automaton. -/
def trans (s : Nat) : Sym → Option Nat
  | .t k => match act s k with
    | some (.shift s') => some s'
    | _ => none
  | .n N => goto s (ntIx N)

/-- The symbols with a transition in state `s`, with the targets. -/
def edges (s : Nat) : List (Sym × Nat) :=
  (((actionTab[s]?).getD []).filterMap fun e => (trans s (.t e.1)).map fun d => (Sym.t e.1, d)) ++
    allNT.filterMap fun N => (trans s (.n N)).map fun d => (Sym.n N, d)

theorem rowAction_mem {row : List (Nat × Action)} {t : Nat} {a : Action} (h : rowAction row t = some a) : (t, a) ∈ row := by
  unfold rowAction at h
  cases hf : row.find? (fun e => e.1 == t) with
  | none => rw [hf] at h; simp at h
  | some e =>
    rw [hf] at h
    simp only [Option.map_some, Option.some.injEq] at h
    have h1 := List.find?_some hf
    have h2 := List.mem_of_find?_eq_some hf
    simp only [beq_iff_eq] at h1
    rw [← h1, ← h]
    exact h2

theorem act_mem {s t : Nat} {a : Action} (h : act s t = some a) : ∃ row, actionTab[s]? = some row ∧ (t, a) ∈ row := by
  unfold act at h
  cases hr : actionTab[s]? with
  | none => rw [hr] at h; simp at h
  | some row => rw [hr] at h; exact ⟨row, rfl, rowAction_mem h⟩

theorem mem_edges {s d : Nat} {X : Sym} (h : trans s X = some d) : (X, d) ∈ edges s := by
  unfold edges
  rw [List.mem_append]
  cases X with
  | t k =>
    left
    have : ∃ a, act s k = some a := by
      simp only [trans] at h
      split at h
      · rename_i h'; exact ⟨_, h'⟩
      · cases h
    obtain ⟨a, ha⟩ := this
    obtain ⟨row, hr, hm⟩ := act_mem ha
    rw [hr, List.mem_filterMap]
    exact ⟨(k, a), hm, by simp [h]⟩
  | n N =>
    right
    rw [List.mem_filterMap]
    exact ⟨N, mem_allNT N, by simp [h]⟩

theorem lengths : actionTab.length = 128 ∧ gotoTab.length = 128 := by decide +kernel

theorem act_lt {s t : Nat} {a : Action} (h : act s t = some a) : s < 128 := by
  obtain ⟨row, hr, _⟩ := act_mem h
  have := (List.getElem?_eq_some_iff.mp hr).1
  rw [lengths.1] at this; exact this

theorem trans_lt {s d : Nat} {X : Sym} (h : trans s X = some d) : s < 128 := by
  cases X with
  | t k =>
    simp only [trans] at h
    split at h
    · rename_i h'; exact act_lt h'
    · cases h
  | n N =>
    simp only [trans, goto] at h
    cases hr : gotoTab[s]? with
    | none => rw [hr] at h; simp at h
    | some row =>
      have := (List.getElem?_eq_some_iff.mp hr).1
      rw [lengths.2] at this; exact this

/-! ### Table checks -/

/-- Pointwise inclusion; the first list may be shorter. -/
def subLists : List (List Nat) → List (List Nat) → Bool
  | [], _ => true
  | _ :: _, [] => false
  | a :: as, b :: bs => b.all (fun x => a.contains x) && subLists as bs

def pSyms (s : Nat) : List Sym := (pastSyms[s]?).getD []
def pStates (s : Nat) : List (List Nat) := (pastStates[s]?).getD []

def chkEdge (s : Nat) : Bool := (edges s).all fun e =>
  decide (e.2 ≠ 0) && decide (e.2 < 128) && (pSyms e.2).isPrefixOf (e.1 :: pSyms s) && subLists (pStates e.2) ([s] :: pStates s)

theorem edges_ok : ((List.range 128).all chkEdge) = true := by decide +kernel

/-- A reduction by production `p` is possible in state `s`. -/
def chkReduce (s p : Nat) : Bool := match p with
  | 0 => false
  | r + 1 => match rules[r]? with
    | none => false
    | some (N, rhs) => (prodTab[r + 1]? == some (ntIx N, rhs.length)) && (prodActs[r + 1]?).isSome && rhs.reverse.isPrefixOf (pSyms s) &&
        decide (rhs ≠ []) &&
        match (pStates s)[rhs.length - 1]? with
        | none => false
        | some l => l.all fun s0 => (goto s0 (ntIx N)).isSome

def chkRow (s : Nat) : Bool := ((actionTab[s]?).getD []).all fun e => match e.2 with
  | .accept => e.1 == 1 && s == 1
  | .shift _ => e.1 != 1 && e.1 != 0
  | .reduce p => chkReduce s p && e.1 != 0

theorem rows_ok : ((List.range 128).all chkRow) = true := by decide +kernel

theorem past_zero : pSyms 0 = [] ∧ pStates 0 = [] := by decide +kernel
theorem past_one : pSyms 1 = [.n .DotGraph] ∧ pStates 1 = [[0]] := by decide +kernel

theorem edge_ok {s d : Nat} {X : Sym} (h : trans s X = some d) :
    d ≠ 0 ∧ d < 128 ∧ pSyms d <+: X :: pSyms s ∧ subLists (pStates d) ([s] :: pStates s) = true := by
  have h1 := List.all_eq_true.mp edges_ok s (List.mem_range.mpr (trans_lt h))
  have h2 := List.all_eq_true.mp h1 _ (mem_edges h)
  simp only [Bool.and_eq_true, decide_eq_true_eq, List.isPrefixOf_iff_prefix] at h2
  exact ⟨h2.1.1.1, h2.1.1.2, h2.1.2, h2.2⟩

theorem row_ok {s t : Nat} {a : Action} (h : act s t = some a) : match a with
    | .accept => t = 1 ∧ s = 1
    | .shift _ => t ≠ 1 ∧ t ≠ 0
    | .reduce p => chkReduce s p = true ∧ t ≠ 0 := by
  have h1 := List.all_eq_true.mp rows_ok s (List.mem_range.mpr (act_lt h))
  obtain ⟨row, hr, hm⟩ := act_mem h
  unfold chkRow at h1
  rw [hr] at h1
  have h2 := List.all_eq_true.mp h1 _ hm
  cases a <;> simp_all

/-! ### The automaton with parse trees -/

inductive AStep where
  | cont (stk : List (Nat × Tree)) (ts : List Token)
  | acc (T : Tree)
  | err (t : Token) (expected : List Nat)
  | bad

/-- One iteration of the parser loop, with parse trees on the stack and the remaining tokens as a list. -/
def astep (stk : List (Nat × Tree)) (ts : List Token) : AStep :=
  match stk, ts with
  | (s, T) :: stk', t :: ts' => match actionTab[s]? with
    | none => .bad
    | some row => match rowAction row t.typ with
      | none => .err t (row.map (·.1))
      | some .accept => .acc T
      | some (.shift s') => .cont ((s', .leaf t) :: (s, T) :: stk') ts'
      | some (.reduce p) => match prodTab[p]? with
        | none => .bad
        | some (k, n) => match ((s, T) :: stk').drop n with
          | [] => .bad
          | (s0, T0) :: rest => match goto s0 k with
            | none => .bad
            | some s' => .cont ((s', .node (p - 1) ((((s, T) :: stk').take n).map (·.2)).reverse) :: (s0, T0) :: rest) (t :: ts')
  | _, _ => .bad

/-- The stack spells `Xs` (top first) along transitions of the automaton, with parse trees for the symbols. -/
inductive StackOk : List (Nat × Tree) → List Sym → Prop where
  | base (T : Tree) : StackOk [(0, T)] []
  | push {s s' : Nat} {T0 T : Tree} {stk : List (Nat × Tree)} {X : Sym} {Xs : List Sym} : StackOk ((s, T0) :: stk) Xs →
      trans s X = some s' → Derives X T → StackOk ((s', T) :: (s, T0) :: stk) (X :: Xs)

/-- The states are among those listed. -/
def inLists : List (List Nat) → List Nat → Prop
  | [], _ => True
  | _ :: _, [] => False
  | P :: Ps, s :: ss => s ∈ P ∧ inLists Ps ss

theorem inLists_sub {as bs : List (List Nat)} {ss : List Nat} (h : subLists as bs = true) (hb : inLists bs ss) : inLists as ss := by
  induction as generalizing bs ss with
  | nil => trivial
  | cons a as ih =>
    cases bs with
    | nil => cases h
    | cons b bs =>
      simp only [subLists, Bool.and_eq_true] at h
      cases ss with
      | nil => exact hb.elim
      | cons s ss =>
        refine ⟨?_, ih h.2 hb.2⟩
        have := List.all_eq_true.mp h.1 s hb.1
        simpa using this

theorem inLists_get {as : List (List Nat)} {ss : List Nat} (h : inLists as ss) {i : Nat} {l : List Nat} (hl : as[i]? = some l) :
    ∃ s, ss[i]? = some s ∧ s ∈ l := by
  induction as generalizing ss i with
  | nil => simp at hl
  | cons a as ih =>
    cases ss with
    | nil => exact h.elim
    | cons s ss =>
      cases i with
      | zero => simp at hl; exact ⟨s, by simp, hl ▸ h.1⟩
      | succ i => simp at hl; simpa using ih h.2 hl

theorem StackOk.past {stk : List (Nat × Tree)} {Xs : List Sym} (h : StackOk stk Xs) :
    ∃ s T stk', stk = (s, T) :: stk' ∧ pSyms s <+: Xs ∧ inLists (pStates s) (stk'.map (·.1)) := by
  induction h with
  | base T => exact ⟨0, T, [], rfl, by rw [past_zero.1]; exact List.nil_prefix, by rw [past_zero.2]; trivial⟩
  | push hs ht hd ih =>
    rename_i s s' T0 T stk X Xs
    obtain ⟨s1, T1, stk1, he, hp, hi⟩ := ih
    cases he
    obtain ⟨_, _, hq, hq'⟩ := edge_ok ht
    refine ⟨_, _, _, rfl, hq.trans (by simpa using hp), inLists_sub hq' ⟨by simp, hi⟩⟩

theorem derivesAll_append {Xs Ys : List Sym} {Ts Us : List Tree} (h : DerivesAll Xs Ts) (h' : DerivesAll Ys Us) :
    DerivesAll (Xs ++ Ys) (Ts ++ Us) := by
  induction Xs generalizing Ts with
  | nil => cases h; exact h'
  | cons X Xs ih => cases h with | cons h1 h2 => exact .cons h1 (ih h2)

theorem derivesAll_length {Xs : List Sym} {Ts : List Tree} (h : DerivesAll Xs Ts) : Xs.length = Ts.length := by
  induction Xs generalizing Ts with
  | nil => cases h; rfl
  | cons X Xs ih => cases h with | cons h1 h2 => simp [ih h2]

/-- Popping a right-hand side. -/
theorem StackOk.pop {stk : List (Nat × Tree)} {Xs rev : List Sym} (h : StackOk stk Xs) (hp : rev <+: Xs) :
    StackOk (stk.drop rev.length) (Xs.drop rev.length) ∧ DerivesAll rev.reverse ((stk.take rev.length).map (·.2)).reverse := by
  induction rev generalizing stk Xs with
  | nil => exact ⟨by simpa using h, by simpa using DerivesAll.nil⟩
  | cons X rev ih =>
    cases h with
    | base T => simp at hp
    | push hs ht hd =>
      rename_i s s' T0 T stk Y Ys
      rw [List.cons_prefix_cons] at hp
      obtain ⟨rfl, hp⟩ := hp
      obtain ⟨h1, h2⟩ := ih hs hp
      refine ⟨by simpa using h1, ?_⟩
      simp only [List.length_cons, List.take_succ_cons, List.map_cons, List.reverse_cons]
      exact derivesAll_append h2 (.cons hd .nil)

/-- The tokens below the stack, bottom to top; the bottom entry does not count. -/
def stkYield : List (Nat × Tree) → List Token
  | [] => []
  | [_] => []
  | (_, T) :: x :: stk => stkYield (x :: stk) ++ yield T

theorem yields_append (as bs : List Tree) : yields (as ++ bs) = yields as ++ yields bs := by
  induction as with
  | nil => simp [yields]
  | cons a as ih => simp [yields, ih]

/-- `stkYield` over popped entries. -/
theorem stkYield_split (tops : List (Nat × Tree)) (x : Nat × Tree) (rest : List (Nat × Tree)) :
    stkYield (tops ++ x :: rest) = stkYield (x :: rest) ++ yields (tops.map (·.2)).reverse := by
  induction tops with
  | nil => simp [yields]
  | cons a tops ih =>
    have : ∃ y ys, tops ++ x :: rest = y :: ys := by cases tops <;> exact ⟨_, _, rfl⟩
    obtain ⟨y, ys, hy⟩ := this
    simp only [List.cons_append, List.map_cons, List.reverse_cons, yields_append]
    rw [hy]
    simp only [stkYield]
    rw [← hy, ih]
    simp [yields]

theorem chkReduce_spec {s p : Nat} (h : chkReduce s p = true) : ∃ r N rhs, p = r + 1 ∧ rules[r]? = some (N, rhs) ∧
    prodTab[p]? = some (ntIx N, rhs.length) ∧ (∃ a, prodActs[p]? = some a) ∧ rhs.reverse <+: pSyms s ∧ rhs ≠ [] ∧
    ∃ l, (pStates s)[rhs.length - 1]? = some l ∧ ∀ s0 ∈ l, ∃ d, goto s0 (ntIx N) = some d := by
  cases p with
  | zero => simp [chkReduce] at h
  | succ r =>
    simp only [chkReduce] at h
    split at h
    · cases h
    · rename_i N rhs hr
      simp only [Bool.and_eq_true, beq_iff_eq, List.isPrefixOf_iff_prefix, decide_eq_true_eq, Option.isSome_iff_exists] at h
      obtain ⟨⟨⟨⟨h1, h2⟩, h3⟩, h4⟩, h5⟩ := h
      refine ⟨r, N, rhs, rfl, hr, h1, h2, h3, h4, ?_⟩
      split at h5
      · cases h5
      · rename_i l hl
        refine ⟨l, hl, fun s0 hs => ?_⟩
        have := List.all_eq_true.mp h5 s0 hs
        simpa [Option.isSome_iff_exists] using this

/-- A reduction in detail. -/
theorem reduce_ok {s : Nat} {T : Tree} {stk' : List (Nat × Tree)} {Xs : List Sym} {p : Nat} (h : StackOk ((s, T) :: stk') Xs)
    (hc : chkReduce s p = true) : ∃ r N rhs s0 T0 rest s', p = r + 1 ∧ rules[r]? = some (N, rhs) ∧ prodTab[p]? = some (ntIx N, rhs.length) ∧
      (∃ a, prodActs[p]? = some a) ∧ rhs ≠ [] ∧
      ((s, T) :: stk').drop rhs.length = (s0, T0) :: rest ∧ goto s0 (ntIx N) = some s' ∧
      StackOk ((s0, T0) :: rest) (Xs.drop rhs.length) ∧ DerivesAll rhs ((((s, T) :: stk').take rhs.length).map (·.2)).reverse := by
  obtain ⟨r, N, rhs, hp, hr, h1, h2, h3, h4, l, hl, hall⟩ := chkReduce_spec hc
  obtain ⟨s1, T1, stk1, he, hq, hi⟩ := h.past
  cases he
  have hpop := h.pop (h3.trans hq)
  simp only [List.length_reverse, List.reverse_reverse] at hpop
  obtain ⟨x, hx, hxl⟩ := inLists_get hi hl
  obtain ⟨d, hd⟩ := hall x hxl
  have hlen : rhs.length = (rhs.length - 1) + 1 := by
    cases rhs with
    | nil => exact absurd rfl h4
    | cons => simp
  have hdrop : ∃ T0 rest, ((s, T) :: stk').drop rhs.length = (x, T0) :: rest := by
    rw [hlen, List.drop_succ_cons]
    rw [List.getElem?_map] at hx
    cases hy : stk'[rhs.length - 1]? with
    | none => rw [hy] at hx; simp at hx
    | some y =>
      rw [hy] at hx
      simp only [Option.map_some, Option.some.injEq] at hx
      obtain ⟨hlt, hy⟩ := List.getElem?_eq_some_iff.mp hy
      refine ⟨y.2, stk'.drop (rhs.length - 1 + 1), ?_⟩
      rw [List.drop_eq_getElem_cons hlt, hy, ← hx]
  obtain ⟨T0, rest, hdr⟩ := hdrop
  rw [hdr] at hpop
  exact ⟨r, N, rhs, x, T0, rest, d, hp, hr, h1, h2, h4, hdr, hd, hpop.1, hpop.2⟩

/-- The result of one step, in terms of the grammar. -/
theorem astep_ok {stk : List (Nat × Tree)} {Xs : List Sym} (h : StackOk stk Xs) (t : Token) (ts : List Token) :
    match astep stk (t :: ts) with
    | .bad => False
    | .err e _ => e = t
    | .acc T => t.typ = 1 ∧ ∃ T0, stk = [(1, T), (0, T0)] ∧ Derives (.n .DotGraph) T
    | .cont stk' ts' => (∃ Xs', StackOk stk' Xs') ∧ stkYield stk' ++ ts' = stkYield stk ++ (t :: ts) ∧
        ((ts' = t :: ts) ∨ (t.typ ≠ 1 ∧ t.typ ≠ 0 ∧ ts' = ts)) := by
  obtain ⟨s, T, stk', rfl, hp, hi⟩ := h.past
  have hrow : ∃ row, actionTab[s]? = some row := by
    have : s < 128 := by
      cases h with
      | base => decide
      | push hs ht hd => exact (edge_ok ht).2.1
    rw [← lengths.1] at this
    exact ⟨_, List.getElem?_eq_getElem this⟩
  obtain ⟨row, hrow⟩ := hrow
  generalize hr : astep ((s, T) :: stk') (t :: ts) = res
  simp only [astep, hrow] at hr
  have hact : act s t.typ = rowAction row t.typ := by simp [act, hrow]
  split at hr
  · subst hr; rfl
  · -- accept
    rename_i h'
    subst hr
    rw [← hact] at h'
    have := row_ok h'
    obtain ⟨ht, rfl⟩ := this
    refine ⟨ht, ?_⟩
    rw [past_one.1] at hp
    rw [past_one.2] at hi
    cases h with
    | push hs htr hd =>
      rename_i s0 T0 stk X Xs
      have : X = .n .DotGraph := by
        rw [List.cons_prefix_cons] at hp; exact hp.1.symm
      subst this
      have h0 : s0 = 0 := by simpa [inLists] using hi
      subst h0
      cases hs with
      | base => exact ⟨T0, rfl, hd⟩
      | push _ htr' _ => exact absurd rfl (edge_ok htr').1
  · -- shift
    rename_i s' h'
    subst hr
    rw [← hact] at h'
    have hk := row_ok h'
    refine ⟨⟨.t t.typ :: Xs, h.push (by simp [trans, h']) .leaf⟩, ?_, .inr ⟨hk.1, hk.2, rfl⟩⟩
    simp [stkYield, yield]
  · -- reduce
    rename_i p h'
    rw [← hact] at h'
    have hk := (row_ok h').1
    obtain ⟨r, N, rhs, s0, T0, rest, d, hp', hrule, h1, _, h4, hdr, hd, hst, hder⟩ := reduce_ok h hk
    rw [h1] at hr
    simp only [hdr, hd] at hr
    subst hr
    refine ⟨⟨.n N :: Xs.drop rhs.length, hst.push (by simpa [trans] using hd) ?_⟩, ?_, .inl rfl⟩
    · subst hp'
      exact .node (by simpa using hrule) hder
    · simp only [stkYield, yield]
      conv => rhs; rw [← List.take_append_drop rhs.length ((s, T) :: stk'), hdr, stkYield_split]

/-! ### Running -/

/-- The automaton stops after `n` steps with the outcome. -/
inductive Runs : Nat → List (Nat × Tree) → List Token → AStep → Prop where
  | stop {stk : List (Nat × Tree)} {ts : List Token} : (∀ a b, astep stk ts ≠ .cont a b) → Runs 0 stk ts (astep stk ts)
  | cont {n : Nat} {stk stk' : List (Nat × Tree)} {ts ts' : List Token} {r : AStep} : astep stk ts = .cont stk' ts' → Runs n stk' ts' r →
      Runs (n + 1) stk ts r

theorem Runs.det {n m : Nat} {stk : List (Nat × Tree)} {ts : List Token} {r r' : AStep} (h : Runs n stk ts r) (h' : Runs m stk ts r') :
    n = m ∧ r = r' := by
  induction h generalizing m with
  | stop hn =>
    cases h' with
    | stop => exact ⟨rfl, rfl⟩
    | cont he => exact absurd he (hn _ _)
  | cont he _ ih =>
    cases h' with
    | stop hn => exact absurd he (hn _ _)
    | cont he' h2 =>
      rw [he] at he'
      cases he'
      obtain ⟨rfl, rfl⟩ := ih h2
      exact ⟨rfl, rfl⟩

/-- Several steps that all continue. -/
inductive Steps : List (Nat × Tree) → List Token → List (Nat × Tree) → List Token → Prop where
  | refl {stk : List (Nat × Tree)} {ts : List Token} : Steps stk ts stk ts
  | head {a b c : List (Nat × Tree)} {ta tb tc : List Token} : astep a ta = .cont b tb → Steps b tb c tc → Steps a ta c tc

theorem Steps.trans {a b c : List (Nat × Tree)} {ta tb tc : List Token} (h : Steps a ta b tb) (h' : Steps b tb c tc) : Steps a ta c tc := by
  induction h with
  | refl => exact h'
  | head he _ ih => exact .head he (ih h')

theorem Steps.runs {a b : List (Nat × Tree)} {ta tb : List Token} {n : Nat} {r : AStep} (h : Steps a ta b tb) (h' : Runs n b tb r) :
    ∃ m, Runs m a ta r := by
  induction h with
  | refl => exact ⟨n, h'⟩
  | head he _ ih => obtain ⟨m, hm⟩ := ih h'; exact ⟨m + 1, .cont he hm⟩

/-! ### Number of steps -/

mutual
def tsize : Tree → Nat
  | .leaf _ => 1
  | .node _ cs => 1 + tsizes cs
def tsizes : List Tree → Nat
  | [] => 0
  | T :: Ts => tsize T + tsizes Ts
end



/-- Height of the unit productions above a symbol. -/
def rank : Sym → Nat
  | .t _ => 1
  | .n .Id => 2 | .n .EdgeOp => 2 | .n .Port => 1 | .n .NodeId => 3 | .n .NodeStmt => 4 | .n .SubGraphStmt => 1 | .n .EdgeStmt => 1
  | .n .EdgeRHS => 1 | .n .Attr => 3 | .n .AList => 4 | .n .AttrList => 1 | .n .AttrStmt => 1 | .n .Stmt => 5 | .n .Stmt1 => 6
  | .n .StmtList => 7 | .n .DotGraph => 1

theorem rank_ok : (rules.all fun e => decide (1 + (e.2.map rank).sum + 8 ≤ 8 * e.2.length + rank (.n e.1))) = true := by decide +kernel

theorem rank_rule {r : Nat} {N : NT} {rhs : List Sym} (h : rules[r]? = some (N, rhs)) :
    1 + (rhs.map rank).sum + 8 ≤ 8 * rhs.length + rank (.n N) := by
  have := List.all_eq_true.mp rank_ok _ (List.mem_of_getElem? h)
  simpa using this

theorem rank_le (X : Sym) : rank X ≤ 8 := by
  cases X with
  | t => simp [rank]
  | n N => cases N <;> simp [rank]

mutual
theorem size_derives {X : Sym} {T : Tree} (h : Derives X T) : tsize T + 8 ≤ 8 * (yield T).length + rank X := by
  cases T with
  | leaf t => cases h; simp [tsize, yield, rank]
  | node r cs =>
    cases h with
    | node hr hd =>
      have h1 := size_derivesAll hd
      have h2 := rank_rule hr
      simp only [tsize, yield]
      omega
theorem size_derivesAll {Xs : List Sym} {Ts : List Tree} (h : DerivesAll Xs Ts) :
    tsizes Ts + 8 * Xs.length ≤ 8 * (yields Ts).length + (Xs.map rank).sum := by
  cases Ts with
  | nil => cases h; simp [tsizes]
  | cons T Ts =>
    cases h with
    | cons h1 h2 =>
      have h1 := size_derives h1
      have h2 := size_derivesAll h2
      simp only [tsizes, yields, List.length_append, List.map_cons, List.sum_cons, List.length_cons]
      omega
end

/-- Total size of the trees on the stack; the bottom entry does not count. -/
def stkSize : List (Nat × Tree) → Nat
  | [] => 0
  | [_] => 0
  | (_, T) :: x :: stk => stkSize (x :: stk) + tsize T

theorem tsizes_append (as bs : List Tree) : tsizes (as ++ bs) = tsizes as + tsizes bs := by
  induction as with
  | nil => simp [tsizes]
  | cons a as ih => simp [tsizes, ih]; omega

theorem stkSize_split (tops : List (Nat × Tree)) (x : Nat × Tree) (rest : List (Nat × Tree)) :
    stkSize (tops ++ x :: rest) = stkSize (x :: rest) + tsizes (tops.map (·.2)).reverse := by
  induction tops with
  | nil => simp [tsizes]
  | cons a tops ih =>
    have : ∃ y ys, tops ++ x :: rest = y :: ys := by cases tops <;> exact ⟨_, _, rfl⟩
    obtain ⟨y, ys, hy⟩ := this
    simp only [List.cons_append, List.map_cons, List.reverse_cons, tsizes_append]
    rw [hy]
    simp only [stkSize]
    rw [← hy, ih]
    simp [tsizes]; omega

theorem stkSize_le {stk : List (Nat × Tree)} {Xs : List Sym} (h : StackOk stk Xs) : stkSize stk ≤ 8 * (stkYield stk).length := by
  induction h with
  | base => simp [stkSize]
  | push hs _ hd ih =>
    have h1 := size_derives hd
    have h2 := rank_le
    simp only [stkSize, stkYield, List.length_append]
    rename_i X _ _
    have := h2 X
    omega

/-- Every step adds one node. -/
theorem stkSize_step {stk stk' : List (Nat × Tree)} {ts ts' : List Token} (h : astep stk ts = .cont stk' ts') :
    stkSize stk' = stkSize stk + 1 := by
  unfold astep at h
  split at h
  · split at h
    · cases h
    · split at h
      · cases h
      · cases h
      · cases h
        simp [stkSize, tsize]
      · split at h
        · cases h
        · split at h
          · cases h
          · split at h
            · cases h
            · cases h
              rename_i s T stk' _ _ _ _ _ _ _ _ _ _ n _ _ _ _ _ hdr _ _ _
              simp only [stkSize, tsize]
              conv => rhs; rw [← List.take_append_drop n ((s, T) :: stk'), hdr, stkSize_split]
              omega
  · cases h

/-- The automaton always stops, after at most eight steps per token. -/
theorem runs_total {stk : List (Nat × Tree)} {Xs : List Sym} {ts : List Token} (h : StackOk stk Xs) {ts0 : List Token} {e : Token}
    (hts : ts = ts0 ++ [e]) (he : e.typ = 1) :
    ∃ n r, Runs n stk ts r ∧ n + stkSize stk ≤ 8 * ((stkYield stk).length + ts.length) := by
  generalize hk : 8 * ((stkYield stk).length + ts.length) - stkSize stk = k
  induction k using Nat.strongRecOn generalizing stk Xs ts ts0 with
  | ind k ih =>
    have hne : ∃ t rest, ts = t :: rest := by cases ts0 <;> simp_all
    obtain ⟨t, rest, rfl⟩ := hne
    have hs := astep_ok h t rest
    have hle := stkSize_le h
    cases hr : astep stk (t :: rest) with
    | cont stk' ts' =>
      rw [hr] at hs
      obtain ⟨⟨Xs', hok⟩, hy, hc⟩ := hs
      have hsz := stkSize_step hr
      have hlen : (stkYield stk').length + ts'.length = (stkYield stk).length + (t :: rest).length := by
        rw [← List.length_append, hy, List.length_append]
      have hend : ∃ ts1, ts' = ts1 ++ [e] := by
        rcases hc with rfl | ⟨h1, _, rfl⟩
        · exact ⟨ts0, hts⟩
        · cases ts0 with
          | nil => simp at hts; rw [hts.1] at h1; exact absurd he h1
          | cons a ts0 => simp at hts; exact ⟨ts0, hts.2⟩
      obtain ⟨ts1, hts1⟩ := hend
      have hle' := stkSize_le hok
      have hpos : 0 < ts'.length := by rw [hts1]; simp
      obtain ⟨n, r, hrun, hn⟩ := ih (8 * ((stkYield stk').length + ts'.length) - stkSize stk')
        (by have : 0 < (t :: rest).length := by simp
            omega) hok hts1 rfl
      exact ⟨n + 1, r, .cont hr hrun, by rw [← hlen]; omega⟩
    | acc T => exact ⟨0, _, .stop (by simp [hr]), by omega⟩
    | err a b => exact ⟨0, _, .stop (by simp [hr]), by omega⟩
    | bad => rw [hr] at hs; exact hs.elim

/-- What an outcome says about the tokens. -/
def Outcome (stk : List (Nat × Tree)) (ts0 ts : List Token) : AStep → Prop
  | .acc T => Derives (.n .DotGraph) T ∧ yield T = stkYield stk ++ ts0
  | .err t _ => t ∈ ts
  | .cont _ _ => False
  | .bad => False

/-- Soundness: what is accepted is a sentence, with the tree found. -/
theorem runs_sound {n : Nat} {stk : List (Nat × Tree)} {Xs : List Sym} {ts : List Token} {r : AStep} (hr : Runs n stk ts r)
    (h : StackOk stk Xs) {ts0 : List Token} {e : Token} (hts : ts = ts0 ++ [e]) (he : e.typ = 1) (hno : ∀ t ∈ ts0, t.typ ≠ 1) :
    Outcome stk ts0 ts r := by
  induction hr generalizing Xs ts0 with
  | stop hn =>
    rename_i stk ts
    have hne : ∃ t rest, ts = t :: rest := by cases ts0 <;> simp_all
    obtain ⟨t, rest, rfl⟩ := hne
    have hs := astep_ok h t rest
    cases hr : astep stk (t :: rest) with
    | cont a b => exact absurd hr (hn a b)
    | acc T =>
      rw [hr] at hs
      obtain ⟨h1, T0, rfl, hd⟩ := hs
      refine ⟨hd, ?_⟩
      cases ts0 with
      | nil => simp [stkYield]
      | cons a ts0 =>
        simp at hts
        exact absurd (hts.1 ▸ h1) (hno a (by simp))
    | err a b => rw [hr] at hs; subst hs; exact List.mem_cons_self
    | bad => rw [hr] at hs; exact hs.elim
  | cont hc hrun ih =>
    rename_i n stk stk' ts ts' r
    have hne : ∃ t rest, ts = t :: rest := by cases ts0 <;> simp_all
    obtain ⟨t, rest, rfl⟩ := hne
    have hs := astep_ok h t rest
    rw [hc] at hs
    obtain ⟨⟨Xs', hok⟩, hy, hcase⟩ := hs
    have hend : ∃ ts1, ts' = ts1 ++ [e] ∧ (∀ x ∈ ts1, x ∈ ts0) := by
      rcases hcase with rfl | ⟨h1, _, rfl⟩
      · exact ⟨ts0, hts, fun _ h => h⟩
      · cases ts0 with
        | nil => simp at hts; rw [hts.1] at h1; exact absurd he h1
        | cons a ts0 => simp at hts; exact ⟨ts0, hts.2, fun x hx => by simp [hx]⟩
    obtain ⟨ts1, hts1, hsub⟩ := hend
    have := ih hok hts1 (fun x hx => hno x (hsub x hx))
    have hy' : stkYield stk' ++ ts1 = stkYield stk ++ ts0 := by
      rw [hts1, hts] at hy
      rw [← List.append_assoc, ← List.append_assoc] at hy
      exact List.append_cancel_right hy
    cases r with
    | acc T => exact ⟨this.1, by rw [this.2, hy']⟩
    | err a b =>
      rcases hcase with rfl | ⟨_, _, rfl⟩
      · exact this
      · exact List.mem_cons_of_mem _ this
    | cont _ _ => exact this.elim
    | bad => exact this.elim

/-! ### Completeness -/

/-- First tokens. -/
def first : Sym → List Nat
  | .t k => [k]
  | .n .Id => [18] | .n .EdgeOp => [16, 17] | .n .SubGraphStmt => [3, 15] | .n .Port => [14] | .n .NodeId => [18] | .n .NodeStmt => [18]
  | .n .EdgeRHS => [16, 17] | .n .EdgeStmt => [18, 3, 15] | .n .Attr => [18] | .n .AList => [18] | .n .AttrList => [11]
  | .n .AttrStmt => [2, 9, 10] | .n .Stmt => [18, 3, 15, 2, 9, 10] | .n .Stmt1 => [18, 3, 15, 2, 9, 10]
  | .n .StmtList => [18, 3, 15, 2, 9, 10] | .n .DotGraph => [2, 5, 6]

theorem first_ok : (rules.all fun e => match e.2 with
    | [] => false
    | Y :: _ => (first Y).all fun t => (first (.n e.1)).contains t) = true := by decide +kernel

theorem first_rule {r : Nat} {N : NT} {rhs : List Sym} (h : rules[r]? = some (N, rhs)) :
    ∃ Y Ys, rhs = Y :: Ys ∧ ∀ t ∈ first Y, t ∈ first (.n N) := by
  have h1 := List.all_eq_true.mp first_ok _ (List.mem_of_getElem? h)
  cases rhs with
  | nil => simp at h1
  | cons Y Ys =>
    refine ⟨Y, Ys, rfl, fun t ht => ?_⟩
    have := List.all_eq_true.mp h1 t ht
    simpa using this

theorem first_derives {X : Sym} {T : Tree} (h : Derives X T) : ∃ t ts, yield T = t :: ts ∧ t.typ ∈ first X := by
  match T with
  | .leaf t => cases h; exact ⟨t, [], rfl, by simp [first]⟩
  | .node r [] =>
    cases h with
    | node hr hd =>
      obtain ⟨Y, Ys, rfl, _⟩ := first_rule hr
      cases hd
  | .node r (T1 :: Ts) =>
    cases h with
    | node hr hd =>
      obtain ⟨Y, Ys, rfl, hf⟩ := first_rule hr
      cases hd with
      | cons h1 h2 =>
        obtain ⟨t, ts, hy, ht⟩ := first_derives h1
        exact ⟨t, ts ++ yields Ts, by simp [yield, yields, hy], hf _ ht⟩

/-- From state `s` the right-hand side can be followed and reduced by `p` for every lookahead in `L`. -/
def chkFollow (L : List Nat) (p : Nat) : Nat → List Sym → Bool
  | s, [] => L.all fun t => act s t == some (.reduce p)
  | s, X :: Xs => match trans s X with
    | none => false
    | some s1 => (match Xs with
      | [] => true
      | Y :: _ => (first Y).all fun t => (act s1 t).isSome) && chkFollow L p s1 Xs

def chkComplete (s : Nat) : Bool := (List.range rules.length).all fun r => match rules[r]? with
  | none => true
  | some (N, rhs) => match goto s (ntIx N) with
    | none => true
    | some s' => chkFollow (((actionTab[s']?).getD []).map (·.1)) (r + 1) s rhs

theorem complete_ok : ((List.range 128).all chkComplete) = true := by decide +kernel

theorem complete_rule {s s' r : Nat} {N : NT} {rhs : List Sym} (h : rules[r]? = some (N, rhs)) (hg : goto s (ntIx N) = some s') :
    chkFollow (((actionTab[s']?).getD []).map (·.1)) (r + 1) s rhs = true := by
  have hs : s < 128 := trans_lt (X := .n N) (by simpa [trans] using hg)
  have h1 := List.all_eq_true.mp complete_ok s (List.mem_range.mpr hs)
  have h2 := List.all_eq_true.mp h1 r (List.mem_range.mpr (List.getElem?_eq_some_iff.mp h).1)
  simp only [h, hg] at h2
  exact h2

def chkProd : Bool := (List.range rules.length).all fun r => match rules[r]? with
  | none => true
  | some (N, rhs) => prodTab[r + 1]? == some (ntIx N, rhs.length)

theorem prod_ok : chkProd = true := by decide +kernel

theorem prod_rule {r : Nat} {N : NT} {rhs : List Sym} (h : rules[r]? = some (N, rhs)) : prodTab[r + 1]? = some (ntIx N, rhs.length) := by
  have h2 := List.all_eq_true.mp prod_ok r (List.mem_range.mpr (List.getElem?_eq_some_iff.mp h).1)
  simpa [h] using h2

theorem act_row {s t : Nat} {a : Action} (h : act s t = some a) : ∃ row, actionTab[s]? = some row ∧ rowAction row t = some a := by
  unfold act at h
  cases hr : actionTab[s]? with
  | none => rw [hr] at h; simp at h
  | some row => rw [hr] at h; exact ⟨row, rfl, h⟩

mutual
/-- A symbol is processed: from state `s` the tree is pushed, whatever lookahead the target state accepts. -/
theorem complete {X : Sym} {T : Tree} (h : Derives X T) {s s' : Nat} {T0 : Tree} {stk : List (Nat × Tree)} {t : Token} {ts : List Token}
    (ht : trans s X = some s') (ha : (act s' t.typ).isSome) :
    Steps ((s, T0) :: stk) (yield T ++ t :: ts) ((s', T) :: (s, T0) :: stk) (t :: ts) := by
  cases T with
  | leaf u =>
    cases h
    have : act s u.typ = some (.shift s') := by
      simp only [trans] at ht
      split at ht
      · cases ht; assumption
      · cases ht
    obtain ⟨row, h1, h2⟩ := act_row this
    exact .head (by simp [yield, astep, h1, h2]) .refl
  | node r cs =>
    cases h with
    | node hr hd =>
      rename_i N rhs
      have hg : goto s (ntIx N) = some s' := ht
      have hf := complete_rule hr hg
      have hL : t.typ ∈ ((actionTab[s']?).getD []).map (·.1) := by
        obtain ⟨a, ha⟩ := Option.isSome_iff_exists.mp ha
        obtain ⟨row, h1, h2⟩ := act_mem ha
        rw [h1]
        exact List.mem_map.mpr ⟨_, h2, rfl⟩
      obtain ⟨ss, sn, Tn, rest, hss, htop, hact, hst⟩ := completeAll (T0 := T0) (stk := stk) (ts := ts) hd hf hL
      refine Steps.trans (b := ss ++ (s, T0) :: stk) (tb := t :: ts) hst (.head ?_ .refl)
      have hlen : ss.length = rhs.length := by
        have := congrArg List.length hss
        simp at this
        rw [this, derivesAll_length hd]
      obtain ⟨row, h1, h2⟩ := act_row hact
      rw [htop]
      simp only [astep, h1, h2, prod_rule hr]
      rw [← htop]
      rw [← hlen, List.drop_left, List.take_left]
      simp only [hg, hss, List.reverse_reverse, Nat.add_sub_cancel]
theorem completeAll {Xs : List Sym} {Ts : List Tree} (h : DerivesAll Xs Ts) {s p : Nat} {L : List Nat} {T0 : Tree} {stk : List (Nat × Tree)}
    {t : Token} {ts : List Token} (hf : chkFollow L p s Xs = true) (hL : t.typ ∈ L) :
    ∃ ss sn Tn rest, ss.map (·.2) = Ts.reverse ∧ ss ++ (s, T0) :: stk = (sn, Tn) :: rest ∧ act sn t.typ = some (.reduce p) ∧
      Steps ((s, T0) :: stk) (yields Ts ++ t :: ts) (ss ++ (s, T0) :: stk) (t :: ts) := by
  cases Ts with
  | nil =>
    cases h
    simp only [chkFollow] at hf
    have := List.all_eq_true.mp hf _ hL
    exact ⟨[], s, T0, stk, rfl, rfl, by simpa using this, .refl⟩
  | cons T Ts =>
    cases h with
    | cons h1 h2 =>
      rename_i X Xs
      simp only [chkFollow] at hf
      cases htr : trans s X with
      | none => rw [htr] at hf; cases hf
      | some s1 =>
        rw [htr] at hf
        simp only [Bool.and_eq_true] at hf
        obtain ⟨ss, sn, Tn, rest, hss, htop, hact, hst⟩ := completeAll (T0 := T) (stk := (s, T0) :: stk) (ts := ts) h2 hf.2 hL
        have hnext : ∃ u us, yields Ts ++ t :: ts = u :: us ∧ (act s1 u.typ).isSome := by
          cases Ts with
          | nil =>
            cases h2
            have := List.all_eq_true.mp hf.2 _ hL
            simp only [beq_iff_eq] at this
            exact ⟨t, ts, rfl, by rw [this]; rfl⟩
          | cons U Us =>
            cases h2 with
            | cons h3 h4 =>
              obtain ⟨u, us, hy, hu⟩ := first_derives h3
              exact ⟨u, us ++ yields Us ++ t :: ts, by simp [yields, hy], List.all_eq_true.mp hf.1 _ hu⟩
        obtain ⟨u, us, hu, hau⟩ := hnext
        have hs1 := complete (T0 := T0) (stk := stk) (t := u) (ts := us) h1 htr hau
        refine ⟨ss ++ [(s1, T)], sn, Tn, rest, by simp [hss], by simpa using htop, hact, ?_⟩
        simp only [yields, List.append_assoc, List.cons_append, List.nil_append]
        rw [hu]
        refine hs1.trans ?_
        rw [← hu]
        simpa using hst
end

/-- The bottom of the stack. -/
def bottom : Nat × Tree := (0, .leaf ⟨0, [], 0, 0, 0⟩)

/-- Completeness: a sentence is accepted, with its tree. -/
theorem runs_complete {T : Tree} (h : Derives (.n .DotGraph) T) {e : Token} (he : e.typ = 1) :
    ∃ n, Runs n [bottom] (yield T ++ [e]) (.acc T) := by
  have h1 := complete (T0 := bottom.2) (stk := []) (t := e) (ts := []) h (s := 0) (s' := 1) (by decide +kernel)
    (by rw [he]; decide +kernel)
  have h2 : astep [(1, T), (0, bottom.2)] [e] = .acc T := by
    obtain ⟨row, h3, h4⟩ := act_row (show act 1 1 = some .accept by decide +kernel)
    rw [← he] at h4
    simp [astep, h3, h4]
  have h3 : Runs 0 [(1, T), (0, bottom.2)] [e] (.acc T) := by
    rw [← h2]; exact .stop (by simp [h2])
  exact h1.runs h3

end Gographviz.Parse
