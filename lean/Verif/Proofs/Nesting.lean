import Verif.Spec.Nesting
import Verif.Spec.Meaning
import Verif.Proofs.ParseRun
/-!
Lemmas for C98.
-/
namespace Gographviz.Nest

open Gographviz Gographviz.Ast Gographviz.Parse Gographviz.Spec.Nesting Gographviz.Spec.Grammar Gographviz.Spec.Meaning
open Gographviz.Lex (Token)

/-! ### the stack of the automaton -/

/-- For each state of the automaton, by how much the number of symbols below it can exceed seven times the number of open braces, plus 8. -/
def room : List Nat := [8, 9, 9, 9, 9, 3, 10, 11, 10, 10, 3, 10, 7, 0, 4, 7, 4, 6, 7, 7, 7, 7, 7, 7, 7, 7, 7, 7, 4, 4, 11, 4, 11, 4, 4, 4, 8, 9, 1, 8, 11, 11, 5, 7, 8, 8, 8, 9, 9, 8, 8, 8, 8, 1, 8, 5, 5, 5, 5, 5, 5, 5, 5, 5, 5, 5, 10, 13, 10, 10, 11, 13, 2, 9, 9, 12, 12, 9, 9, 3, 10, 9, 9, 10, 9, 2, 2, 2, 6, 6, 6, 6, 6, 6, 6, 6, 11, 11, 14, 11, 12, 12, 13, 10, 10, 4, 4, 11, 3, 3, 3, 7, 7, 12, 15, 15, 13, 14, 14, 5, 5, 5, 5, 4, 6, 6, 6, 7]

def roomAt (s : Nat) : Nat := (room[s]?).getD 0

def chkRoom (s : Nat) : Bool := (Parse.edges s).all fun e =>
  if e.1 = .t 3 then decide (roomAt s + 1 ≤ roomAt e.2 + 7) else decide (roomAt s + 1 ≤ roomAt e.2)

theorem room_ok : ((List.range 128).all chkRoom) = true := by decide +kernel

theorem room_le (s : Nat) : roomAt s ≤ 15 := by
  unfold roomAt
  cases h : room[s]? with
  | none => exact Nat.zero_le _
  | some v =>
    have : ∀ v ∈ room, v ≤ 15 := by decide +kernel
    exact this v (List.mem_of_getElem? h)

theorem room_edge {s d : Nat} {X : Sym} (h : Parse.trans s X = some d) :
    (X = .t 3 → roomAt s + 1 ≤ roomAt d + 7) ∧ (X ≠ .t 3 → roomAt s + 1 ≤ roomAt d) := by
  have h1 := List.all_eq_true.mp room_ok s (List.mem_range.mpr (trans_lt h))
  have h2 := List.all_eq_true.mp h1 _ (mem_edges h)
  constructor <;> intro hx
  · simpa [hx] using h2
  · simpa [hx] using h2

/-- Nothing can be shifted or pushed on top of a closing brace. -/
def chkClosed (s : Nat) : Bool := (Parse.edges s).all fun e => e.1 != .t 4 || (Parse.edges e.2).isEmpty

theorem closed_ok : ((List.range 128).all chkClosed) = true := by decide +kernel

theorem closed_edge {s d d' : Nat} {X : Sym} (h : Parse.trans s (.t 4) = some d) (h' : Parse.trans d X = some d') : False := by
  have h1 := List.all_eq_true.mp closed_ok s (List.mem_range.mpr (trans_lt h))
  have h2 := List.all_eq_true.mp h1 _ (mem_edges h)
  have h3 := mem_edges h'
  cases he : Parse.edges d with
  | nil => rw [he] at h3; cases h3
  | cons a l => simp [he] at h2

/-- The number of opening braces among the symbols. -/
def opens (Xs : List Sym) : Nat := Xs.countP fun X => decide (X = .t 3)
/-- The number of closing braces among the symbols. -/
def closes (Xs : List Sym) : Nat := Xs.countP fun X => decide (X = .t 4)

/-- The symbols on the stack are at most seven for each open brace, and 7 more. -/
theorem stack_room {stk : List (Nat × Tree)} {Xs : List Sym} (h : StackOk stk Xs) :
    stk.length = Xs.length + 1 ∧ ∃ s T rest, stk = (s, T) :: rest ∧ Xs.length + 8 ≤ 7 * opens Xs + roomAt s := by
  induction h with
  | base T => exact ⟨rfl, 0, T, [], rfl, by decide⟩
  | push hs ht hd ih =>
    rename_i s s' T0 T stk X Xs
    obtain ⟨h1, _, _, _, heq, h2⟩ := ih
    cases heq
    obtain ⟨r1, r2⟩ := room_edge ht
    refine ⟨by simpa using h1, s', T, _, rfl, ?_⟩
    by_cases hx : X = .t 3
    · have := r1 hx
      simp only [opens, List.countP_cons, hx, decide_true, if_true, List.length_cons] at h2 ⊢
      omega
    · have := r2 hx
      simp only [opens, List.countP_cons, hx, decide_false, List.length_cons] at h2 ⊢
      simp
      omega

/-- A closing brace can only be on top. -/
theorem stack_closes {stk : List (Nat × Tree)} {Xs : List Sym} (h : StackOk stk Xs) : closes Xs.tail = 0 := by
  induction h with
  | base T => rfl
  | push hs ht hd ih =>
    rename_i s s' T0 T stk X Xs
    cases hs with
    | base => rfl
    | push hs' ht' hd' =>
      rename_i s1 T1 stk1 X1 Xs1
      simp only [List.tail_cons] at ih ⊢
      unfold closes
      rw [List.countP_cons]
      have : X1 ≠ .t 4 := fun hx => closed_edge (hx ▸ ht') ht
      simp only [this, decide_false]
      exact ih

/-! ### the braces among the tokens -/

def opensT (ts : List Token) : Nat := ts.countP fun t => decide (t.typ = 3)
def closesT (ts : List Token) : Nat := ts.countP fun t => decide (t.typ = 4)

theorem opensT_append (a b : List Token) : opensT (a ++ b) = opensT a + opensT b := List.countP_append
theorem closesT_append (a b : List Token) : closesT (a ++ b) = closesT a + closesT b := List.countP_append

/-- Rules have as many opening as closing braces. -/
theorem rules_balanced : (rules.all fun e => decide (opens e.2 = closes e.2)) = true := by decide +kernel

mutual
theorem derives_balanced {X : Sym} {T : Tree} (h : Derives X T) : opensT (yield T) + closes [X] = closesT (yield T) + opens [X] := by
  cases h with
  | leaf =>
    rename_i t
    simp only [yield, opensT, closesT, opens, closes, List.countP_cons, List.countP_nil, Sym.t.injEq]
    omega
  | node hr hd =>
    rename_i N r rhs cs
    have h1 := derivesAll_balanced hd
    have h2 := List.all_eq_true.mp rules_balanced _ (List.mem_of_getElem? hr)
    simp only [decide_eq_true_eq] at h2
    have e1 : closes [Sym.n N] = 0 := rfl
    have e2 : opens [Sym.n N] = 0 := rfl
    simp only [yield, e1, e2]
    omega
theorem derivesAll_balanced {Xs : List Sym} {Ts : List Tree} (h : DerivesAll Xs Ts) : opensT (yields Ts) + closes Xs = closesT (yields Ts) + opens Xs := by
  cases h with
  | nil => rfl
  | cons h1 h2 =>
    rename_i X Xs T Ts
    have a := derives_balanced h1
    have b := derivesAll_balanced h2
    simp only [yields, opensT_append, closesT_append]
    have e1 : closes (X :: Xs) = closes [X] + closes Xs := by
      have : X :: Xs = [X] ++ Xs := rfl
      rw [this]; exact List.countP_append
    have e2 : opens (X :: Xs) = opens [X] + opens Xs := by
      have : X :: Xs = [X] ++ Xs := rfl
      rw [this]; exact List.countP_append
    omega
end

theorem stack_balanced {stk : List (Nat × Tree)} {Xs : List Sym} (h : StackOk stk Xs) :
    opensT (stkYield stk) + closes Xs = closesT (stkYield stk) + opens Xs := by
  induction h with
  | base T => rfl
  | push hs ht hd ih =>
    rename_i s s' T0 T stk X Xs
    have a := derives_balanced hd
    simp only [stkYield, opensT_append, closesT_append]
    have e1 : closes (X :: Xs) = closes [X] + closes Xs := by
      have : X :: Xs = [X] ++ Xs := rfl
      rw [this]; exact List.countP_append
    have e2 : opens (X :: Xs) = opens [X] + opens Xs := by
      have : X :: Xs = [X] ++ Xs := rfl
      rw [this]; exact List.countP_append
    omega

theorem braces_cons (d k : Nat) (ks : List Nat) :
    braces d (k :: ks) = max d (braces (if k = 3 then d + 1 else if k = 4 then d - 1 else d) ks) := by
  by_cases h3 : k = 3
  · subst h3; rfl
  by_cases h4 : k = 4
  · subst h4; rfl
  rw [if_neg h3, if_neg h4]
  match k, h3, h4 with
  | 0, _, _ | 1, _, _ | 2, _, _ => rfl
  | n + 5, _, _ => rfl

theorem le_braces (d : Nat) (ks : List Nat) : d ≤ braces d ks := by
  cases ks with
  | nil => exact Nat.le_refl _
  | cons k ks => rw [braces_cons]; exact Nat.le_max_left _ _

theorem braces_prefix : ∀ (p r : List Token) (d : Nat), opensT p + d ≤ closesT p + braces d ((p ++ r).map (·.typ))
  | [], r, d => by
    have := le_braces d (r.map (·.typ))
    simpa [opensT, closesT] using this
  | t :: p, r, d => by
    have e1 : opensT (t :: p) = opensT p + if t.typ = 3 then 1 else 0 := by simp [opensT, List.countP_cons]
    have e2 : closesT (t :: p) = closesT p + if t.typ = 4 then 1 else 0 := by simp [closesT, List.countP_cons]
    rw [e1, e2]
    simp only [List.cons_append, List.map_cons]
    rw [braces_cons]
    have := braces_prefix p r (if t.typ = 3 then d + 1 else if t.typ = 4 then d - 1 else d)
    by_cases h3 : t.typ = 3
    · rw [if_pos h3] at this ⊢
      rw [if_pos h3, if_neg (by omega)]
      omega
    · by_cases h4 : t.typ = 4
      · rw [if_neg h3, if_pos h4] at this ⊢
        rw [if_neg h3, if_pos h4]
        omega
      · simp only [h3, h4, if_false] at this ⊢
        omega

/-- The open braces on the stack are open in the text. -/
theorem opens_le {stk : List (Nat × Tree)} {Xs : List Sym} (h : StackOk stk Xs) {ts rest : List Token} (hy : stkYield stk ++ rest = ts) :
    opens Xs ≤ nesting ts := by
  cases h with
  | base T => exact Nat.zero_le _
  | push hs ht hd =>
    rename_i s s' T0 T stk X Xs
    have hcl := stack_closes (hs.push ht hd)
    simp only [List.tail_cons] at hcl
    by_cases hx : X = .t 4
    · subst hx
      have e2 : opens (Sym.t 4 :: Xs) = opens Xs := by simp [opens, List.countP_cons]
      rw [e2]
      have hb := stack_balanced hs
      have hp := braces_prefix (stkYield ((s, T0) :: stk)) (yield T ++ rest) 0
      rw [← List.append_assoc] at hp
      have : stkYield ((s, T0) :: stk) ++ yield T ++ rest = ts := by rw [← hy]; rfl
      rw [this] at hp
      have e3 : closes Xs = 0 := hcl
      unfold nesting
      omega
    · have hb := stack_balanced (hs.push ht hd)
      have e2 : closes (X :: Xs) = 0 := by
        unfold closes at hcl ⊢
        rw [List.countP_cons, hcl]
        simp [hx]
      have hp := braces_prefix (stkYield ((s', T) :: (s, T0) :: stk)) rest 0
      rw [hy] at hp
      unfold nesting
      omega

/-- The stack of the automaton is at most seven entries for each level of braces, and eight more. -/
theorem stack_bound {stk : List (Nat × Tree)} {Xs : List Sym} (h : StackOk stk Xs) {ts rest : List Token} (hy : stkYield stk ++ rest = ts) :
    stk.length ≤ 7 * nesting ts + 8 := by
  obtain ⟨h1, s, T, rest', _, h2⟩ := stack_room h
  have h3 := room_le s
  have := opens_le h hy
  omega

/-! ### the nesting of the tree -/

/-- A piece of text with balanced braces, nested `k` deep. -/
def Flat (ts : List Lexeme) (k : Nat) : Prop := ∀ d r, braces d (ts.map (·.1) ++ r) = max (d + k) (braces d r)

theorem flat_nil : Flat [] 0 := by
  intro d r
  have := le_braces d r
  simp
  omega

theorem flat_append {a b : List Lexeme} {k l : Nat} (ha : Flat a k) (hb : Flat b l) : Flat (a ++ b) (max k l) := by
  intro d r
  rw [List.map_append, List.append_assoc, ha, hb]
  omega

theorem flat_cons {t : Lexeme} {a : List Lexeme} {k : Nat} (h3 : t.1 ≠ 3) (h4 : t.1 ≠ 4) (ha : Flat a k) : Flat (t :: a) k := by
  intro d r
  simp only [List.map_cons, List.cons_append]
  rw [braces_cons, if_neg h3, if_neg h4, ha]
  have := le_braces d r
  omega

theorem flat_braces {a : List Lexeme} {k : Nat} (l l' : Str) (ha : Flat a k) : Flat ((3, l) :: (a ++ [(4, l')])) (k + 1) := by
  intro d r
  simp only [List.map_cons, List.map_append, List.map_nil, List.cons_append, List.append_assoc, List.nil_append]
  rw [braces_cons, if_pos rfl, ha, braces_cons]
  simp only [show ¬ (4 = 3) by decide, if_false, if_true, Nat.add_sub_cancel]
  have := le_braces d r
  omega

theorem flat_opt {k : Nat} (h3 : k ≠ 3) (h4 : k ≠ 4) {ts : List Lexeme} (h : Opt k ts) : Flat ts 0 := by
  cases h with
  | absent => exact flat_nil
  | present => exact flat_cons h3 h4 flat_nil

theorem flat_attr {ts : List Lexeme} {a : Attr} (h : AttrM ts a) : Flat ts 0 := by
  cases h with
  | flag => exact flat_cons (by simp) (by simp) flat_nil
  | pair => exact flat_cons (by simp) (by simp) (flat_cons (by simp) (by simp) (flat_cons (by simp) (by simp) flat_nil))

theorem flat_alist {ts : List Lexeme} {a : AList} (h : AListM ts a) : Flat ts 0 := by
  induction h with
  | one h => exact flat_attr h
  | snoc _ ho ha ih => exact flat_append ih (flat_append (flat_opt (by simp) (by simp) ho) (flat_attr ha))

theorem flat_bracket {ts : List Lexeme} {a : AttrList} (h : BracketM ts a) : Flat ts 0 := by
  cases h with
  | empty => exact flat_cons (by simp) (by simp) (flat_cons (by simp) (by simp) flat_nil)
  | full h => exact flat_cons (by simp) (by simp) (flat_append (flat_alist h) (flat_cons (by simp) (by simp) flat_nil))

theorem flat_attrList {ts : List Lexeme} {a : AttrList} (h : AttrListM ts a) : Flat ts 0 := by
  induction h with
  | one h => exact flat_bracket h
  | snoc _ hb ih => exact flat_append ih (flat_bracket hb)

theorem flat_optAttrList {ts : List Lexeme} {a : AttrList} (h : OptAttrListM ts a) : Flat ts 0 := by
  cases h with
  | absent => exact flat_nil
  | present h => exact flat_attrList h

theorem flat_nodeId {ts : List Lexeme} {n : NodeID} (h : NodeIdM ts n) : Flat ts 0 := by
  cases h <;> repeat' (first | exact flat_nil | refine flat_cons (by simp) (by simp) ?_)

theorem op_ne {x : Lexeme} {b : Bool} (h : OpM x b) : x.1 ≠ 3 ∧ x.1 ≠ 4 := by
  cases h <;> simp

theorem rhsDepth_append (a b : List EdgeRH) : rhsDepth (a ++ b) = max (rhsDepth a) (rhsDepth b) := by
  induction a with
  | nil => simp [rhsDepth]
  | cons x a ih => cases x; simp only [List.cons_append, rhsDepth, ih]; omega

theorem stmtsDepth_append (a b : List Stmt) : stmtsDepth (a ++ b) = max (stmtsDepth a) (stmtsDepth b) := by
  induction a with
  | nil => simp [stmtsDepth]
  | cons x a ih => simp only [List.cons_append, stmtsDepth, ih]; omega

theorem Flat.of_eq {ts : List Lexeme} {k l : Nat} (h : Flat ts k) (e : k = l) : Flat ts l := e ▸ h

theorem flat_optStmts {gen : Nat → Str} {c c' : Nat} {ts : List Lexeme} {ss : List Stmt} (h : OptStmtsM gen c ts ss c') : Flat ts (stmtsDepth ss) := by
  refine OptStmtsM.rec (motive_1 := fun _ ts s _ _ => Flat ts (stmtDepth s)) (motive_2 := fun _ ts d _ _ => Flat ts (locDepth d))
    (motive_3 := fun _ ts rhs _ _ => Flat ts (rhsDepth rhs)) (motive_4 := fun _ ts _ b _ _ => Flat ts (stmtsDepth b + 1))
    (motive_5 := fun _ ts b _ _ => Flat ts (stmtsDepth b)) (motive_6 := fun _ ts b _ _ => Flat ts (stmtsDepth b))
    ?_ ?_ ?_ ?_ ?_ ?_ ?_ ?_ ?_ ?_ ?_ ?_ ?_ ?_ ?_ ?_ ?_ ?_ h
  · intros; exact (flat_cons (by simp) (by simp) (flat_cons (by simp) (by simp) (flat_cons (by simp) (by simp) flat_nil))).of_eq (by simp [stmtDepth])
  · intro _ _ _ _ _ hn ha
    exact (flat_append (flat_nodeId hn) (flat_optAttrList ha)).of_eq (by simp [stmtDepth])
  · intro _ _ _ _ _ _ _ _ _ _ _ ha hl hr
    exact (flat_append hl (flat_append hr (flat_optAttrList ha))).of_eq (by simp [stmtDepth])
  · intro _ _ _ _ h; exact (flat_cons (by simp) (by simp) (flat_attrList h)).of_eq (by simp [stmtDepth])
  · intro _ _ _ _ h; exact (flat_cons (by simp) (by simp) (flat_attrList h)).of_eq (by simp [stmtDepth])
  · intro _ _ _ _ h; exact (flat_cons (by simp) (by simp) (flat_attrList h)).of_eq (by simp [stmtDepth])
  · intro _ _ _ _ _ _ h; exact h.of_eq (by simp [stmtDepth])
  · intro _ _ _ hn; exact (flat_nodeId hn).of_eq (by simp [locDepth])
  · intro _ _ _ _ _ _ h; exact h.of_eq (by simp [locDepth])
  · intro _ _ _ _ _ _ ho _ h; exact (flat_cons (op_ne ho).1 (op_ne ho).2 h).of_eq (by simp [rhsDepth])
  · intro _ _ _ _ _ _ _ _ _ _ ho _ h1 h2
    exact (flat_append h1 (flat_cons (op_ne ho).1 (op_ne ho).2 h2)).of_eq (by simp [rhsDepth_append, rhsDepth])
  · intro _ _ _ _ _ _ _ h; exact flat_braces _ _ h
  · intro _ _ _ _ _ _ _ _ h; exact flat_cons (by simp) (by simp) (flat_braces _ _ h)
  · intro _ _ _ _ _ _ _ _ _ h; exact flat_cons (by simp) (by simp) (flat_cons (by simp) (by simp) (flat_braces _ _ h))
  · intro _ _ _ _ _ _ ho h; exact (flat_append h (flat_opt (by simp) (by simp) ho)).of_eq (by simp [stmtsDepth])
  · intro _ _ _ _ _ _ _ _ _ _ ho h1 h2
    exact (flat_append h1 (flat_append h2 (flat_opt (by simp) (by simp) ho))).of_eq (by simp [stmtsDepth_append, stmtsDepth])
  · intro _; exact flat_nil
  · intro _ _ _ _ _ h; exact h

theorem flat_graph {gen : Nat → Str} {c c' : Nat} {ts : List Lexeme} {t : Ast.Graph} (h : GraphM gen c ts t c') : Flat ts (stmtsDepth t.stmts + 1) := by
  cases h with
  | mk ho hk hi hb =>
    refine (flat_append (flat_opt (by simp) (by simp) ho) (flat_cons ?_ ?_ (flat_append (k := 0) ?_ (flat_braces _ _ (flat_optStmts hb))))).of_eq (by simp)
    · cases hk <;> simp
    · cases hk <;> simp
    · cases hi with
      | absent => exact flat_nil
      | present => exact flat_cons (by simp) (by simp) flat_nil

theorem nesting_flat {ts : List Token} {e : Token} {k : Nat} (h : Flat (ts.map lx) k) (he : e.typ = 1) : nesting (ts ++ [e]) = k := by
  have := h 0 [1]
  unfold nesting
  simp only [List.map_append, List.map_cons, List.map_nil, he]
  simp only [List.map_map] at this
  have e1 : ((fun x => x.1) ∘ lx) = fun t : Token => t.typ := rfl
  rw [e1] at this
  rw [this]
  simp [braces]

end Gographviz.Nest
