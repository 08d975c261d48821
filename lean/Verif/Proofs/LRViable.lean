import Verif.Proofs.ParseRun
import Verif.Proofs.LRItems
/-!
The viable prefix property of the automaton: whenever the automaton has an action for a token type, the tokens read so far followed by a
token of that type can be completed to a sentence.
-/
namespace Gographviz.Parse

open Gographviz Gographviz.Lex Gographviz.Spec.Grammar

/-! ### Every symbol derives something, with every first token -/

/-- Any tokens with these types are derived from the symbol. -/
def Gen (X : Sym) (ks : List Nat) : Prop := ∀ us : List Token, us.map (·.typ) = ks → ∃ T, Derives X T ∧ yield T = us

/-- The same for a list of symbols. -/
def GenAll (Xs : List Sym) (ks : List Nat) : Prop := ∀ us : List Token, us.map (·.typ) = ks → ∃ Ts, DerivesAll Xs Ts ∧ yields Ts = us

theorem gen_t (k : Nat) : Gen (.t k) [k] := by
  intro us h
  match us, h with
  | [u], h =>
    simp only [List.map_cons, List.map_nil, List.cons.injEq, and_true] at h
    subst h
    exact ⟨.leaf u, .leaf, rfl⟩

theorem genAll_nil : GenAll [] [] := by
  intro us h
  rw [List.map_eq_nil_iff] at h
  subst h
  exact ⟨[], .nil, rfl⟩

theorem genAll_cons {X : Sym} {Xs : List Sym} {ks ls : List Nat} (h : Gen X ks) (h' : GenAll Xs ls) : GenAll (X :: Xs) (ks ++ ls) := by
  intro us hu
  obtain ⟨a, b, rfl, ha, hb⟩ := List.map_eq_append_iff.mp hu
  obtain ⟨T, hT, rfl⟩ := h a ha
  obtain ⟨Ts, hTs, rfl⟩ := h' b hb
  exact ⟨T :: Ts, .cons hT hTs, rfl⟩

theorem gen_rule {N : NT} {rhs : List Sym} (r : Nat) {ks : List Nat} (hr : rules[r]? = some (N, rhs)) (h : GenAll rhs ks) : Gen (.n N) ks := by
  intro us hu
  obtain ⟨Ts, hTs, rfl⟩ := h us hu
  exact ⟨.node r Ts, .node hr hTs, rfl⟩

theorem gen_id : Gen (.n .Id) [18] := gen_rule 58 rfl (genAll_cons (gen_t 18) genAll_nil)
theorem gen_arrow : Gen (.n .EdgeOp) [16] := gen_rule 56 rfl (genAll_cons (gen_t 16) genAll_nil)
theorem gen_dashes : Gen (.n .EdgeOp) [17] := gen_rule 57 rfl (genAll_cons (gen_t 17) genAll_nil)
theorem gen_port : Gen (.n .Port) [14, 18] := gen_rule 49 rfl (genAll_cons (gen_t 14) (genAll_cons gen_id genAll_nil))
theorem gen_nodeId : Gen (.n .NodeId) [18] := gen_rule 47 rfl (genAll_cons gen_id genAll_nil)
theorem gen_nodeStmt : Gen (.n .NodeStmt) [18] := gen_rule 45 rfl (genAll_cons gen_nodeId genAll_nil)
theorem gen_rhs16 : Gen (.n .EdgeRHS) [16, 18] := gen_rule 41 rfl (genAll_cons gen_arrow (genAll_cons gen_nodeId genAll_nil))
theorem gen_rhs17 : Gen (.n .EdgeRHS) [17, 18] := gen_rule 41 rfl (genAll_cons gen_dashes (genAll_cons gen_nodeId genAll_nil))
theorem gen_attr : Gen (.n .Attr) [18] := gen_rule 35 rfl (genAll_cons gen_id genAll_nil)
theorem gen_alist : Gen (.n .AList) [18] := gen_rule 32 rfl (genAll_cons gen_attr genAll_nil)
theorem gen_attrList : Gen (.n .AttrList) [11, 12] := gen_rule 28 rfl (genAll_cons (gen_t 11) (genAll_cons (gen_t 12) genAll_nil))
theorem gen_stmt18 : Gen (.n .Stmt) [18] := gen_rule 21 rfl (genAll_cons gen_nodeStmt genAll_nil)
theorem gen_stmts {ks : List Nat} (h : Gen (.n .Stmt) ks) : Gen (.n .Stmt1) ks ∧ Gen (.n .StmtList) ks := by
  have h1 : Gen (.n .Stmt1) ks := gen_rule 18 rfl (by simpa using genAll_cons h genAll_nil)
  exact ⟨h1, gen_rule 16 rfl (by simpa using genAll_cons h1 genAll_nil)⟩
theorem gen_sub15 : Gen (.n .SubGraphStmt) [15, 3, 4] :=
  gen_rule 54 rfl (genAll_cons (gen_t 15) (genAll_cons (gen_t 3) (genAll_cons (gen_t 4) genAll_nil)))
theorem gen_sub3 : Gen (.n .SubGraphStmt) [3, 18, 4] :=
  gen_rule 51 rfl (genAll_cons (gen_t 3) (genAll_cons (gen_stmts gen_stmt18).2 (genAll_cons (gen_t 4) genAll_nil)))
theorem gen_edgeSub {ks : List Nat} (h : Gen (.n .SubGraphStmt) ks) : Gen (.n .EdgeStmt) (ks ++ [16, 18]) :=
  gen_rule 39 rfl (genAll_cons h (genAll_cons gen_rhs16 genAll_nil))
theorem gen_edgeNode : Gen (.n .EdgeStmt) [18, 16, 18] := gen_rule 37 rfl (genAll_cons gen_nodeId (genAll_cons gen_rhs16 genAll_nil))
theorem gen_stmtSub {ks : List Nat} (h : Gen (.n .SubGraphStmt) ks) : Gen (.n .Stmt) ks := gen_rule 24 rfl (by simpa using genAll_cons h genAll_nil)
theorem gen_as2 : Gen (.n .AttrStmt) [2, 11, 12] := gen_rule 25 rfl (genAll_cons (gen_t 2) (genAll_cons gen_attrList genAll_nil))
theorem gen_as9 : Gen (.n .AttrStmt) [9, 11, 12] := gen_rule 26 rfl (genAll_cons (gen_t 9) (genAll_cons gen_attrList genAll_nil))
theorem gen_as10 : Gen (.n .AttrStmt) [10, 11, 12] := gen_rule 27 rfl (genAll_cons (gen_t 10) (genAll_cons gen_attrList genAll_nil))
theorem gen_stmtAttr {ks : List Nat} (h : Gen (.n .AttrStmt) ks) : Gen (.n .Stmt) ks := gen_rule 23 rfl (by simpa using genAll_cons h genAll_nil)

theorem gen_stmt_first {k : Nat} (h : k ∈ first (.n .Stmt)) : ∃ ks, Gen (.n .Stmt) (k :: ks) := by
  simp only [first, List.mem_cons, List.not_mem_nil, or_false] at h
  rcases h with rfl | rfl | rfl | rfl | rfl | rfl
  · exact ⟨_, gen_stmt18⟩
  · exact ⟨_, gen_stmtSub gen_sub3⟩
  · exact ⟨_, gen_stmtSub gen_sub15⟩
  · exact ⟨_, gen_stmtAttr gen_as2⟩
  · exact ⟨_, gen_stmtAttr gen_as9⟩
  · exact ⟨_, gen_stmtAttr gen_as10⟩

theorem gen_graph2 : Gen (.n .DotGraph) [2, 3, 4] :=
  gen_rule 0 rfl (genAll_cons (gen_t 2) (genAll_cons (gen_t 3) (genAll_cons (gen_t 4) genAll_nil)))
theorem gen_graph5 : Gen (.n .DotGraph) [5, 2, 3, 4] :=
  gen_rule 1 rfl (genAll_cons (gen_t 5) (genAll_cons (gen_t 2) (genAll_cons (gen_t 3) (genAll_cons (gen_t 4) genAll_nil))))
theorem gen_graph6 : Gen (.n .DotGraph) [6, 3, 4] :=
  gen_rule 8 rfl (genAll_cons (gen_t 6) (genAll_cons (gen_t 3) (genAll_cons (gen_t 4) genAll_nil)))

/-- Every first token of every symbol is used. -/
theorem gen_first {X : Sym} {k : Nat} (h : k ∈ first X) : ∃ ks, Gen X (k :: ks) := by
  cases X with
  | t j =>
    simp only [first, List.mem_cons, List.not_mem_nil, or_false] at h
    subst h
    exact ⟨[], gen_t _⟩
  | n N =>
    cases N with
    | Stmt => exact gen_stmt_first h
    | Stmt1 => obtain ⟨ks, hk⟩ := gen_stmt_first h; exact ⟨ks, (gen_stmts hk).1⟩
    | StmtList => obtain ⟨ks, hk⟩ := gen_stmt_first h; exact ⟨ks, (gen_stmts hk).2⟩
    | DotGraph =>
      simp only [first, List.mem_cons, List.not_mem_nil, or_false] at h
      rcases h with rfl | rfl | rfl
      · exact ⟨_, gen_graph2⟩
      · exact ⟨_, gen_graph5⟩
      · exact ⟨_, gen_graph6⟩
    | AttrStmt =>
      simp only [first, List.mem_cons, List.not_mem_nil, or_false] at h
      rcases h with rfl | rfl | rfl
      · exact ⟨_, gen_as2⟩
      · exact ⟨_, gen_as9⟩
      · exact ⟨_, gen_as10⟩
    | EdgeStmt =>
      simp only [first, List.mem_cons, List.not_mem_nil, or_false] at h
      rcases h with rfl | rfl | rfl
      · exact ⟨_, gen_edgeNode⟩
      · exact ⟨_, gen_edgeSub gen_sub3⟩
      · exact ⟨_, gen_edgeSub gen_sub15⟩
    | EdgeRHS =>
      simp only [first, List.mem_cons, List.not_mem_nil, or_false] at h
      rcases h with rfl | rfl
      · exact ⟨_, gen_rhs16⟩
      · exact ⟨_, gen_rhs17⟩
    | EdgeOp =>
      simp only [first, List.mem_cons, List.not_mem_nil, or_false] at h
      rcases h with rfl | rfl
      · exact ⟨_, gen_arrow⟩
      · exact ⟨_, gen_dashes⟩
    | SubGraphStmt =>
      simp only [first, List.mem_cons, List.not_mem_nil, or_false] at h
      rcases h with rfl | rfl
      · exact ⟨_, gen_sub3⟩
      · exact ⟨_, gen_sub15⟩
    | Id => simp only [first, List.mem_cons, List.not_mem_nil, or_false] at h; subst h; exact ⟨_, gen_id⟩
    | Port => simp only [first, List.mem_cons, List.not_mem_nil, or_false] at h; subst h; exact ⟨_, gen_port⟩
    | NodeId => simp only [first, List.mem_cons, List.not_mem_nil, or_false] at h; subst h; exact ⟨_, gen_nodeId⟩
    | NodeStmt => simp only [first, List.mem_cons, List.not_mem_nil, or_false] at h; subst h; exact ⟨_, gen_nodeStmt⟩
    | Attr => simp only [first, List.mem_cons, List.not_mem_nil, or_false] at h; subst h; exact ⟨_, gen_attr⟩
    | AList => simp only [first, List.mem_cons, List.not_mem_nil, or_false] at h; subst h; exact ⟨_, gen_alist⟩
    | AttrList => simp only [first, List.mem_cons, List.not_mem_nil, or_false] at h; subst h; exact ⟨_, gen_attrList⟩

theorem first_ne (X : Sym) : ∃ k, k ∈ first X := by
  cases X with
  | t k => exact ⟨k, by simp [first]⟩
  | n N => cases N <;> exact ⟨_, List.mem_cons_self⟩

theorem genAll_some (Xs : List Sym) : ∃ ks, GenAll Xs ks := by
  induction Xs with
  | nil => exact ⟨[], genAll_nil⟩
  | cons X Xs ih =>
    obtain ⟨k, hk⟩ := first_ne X
    obtain ⟨ks, h1⟩ := gen_first hk
    obtain ⟨ls, h2⟩ := ih
    exact ⟨_, genAll_cons h1 h2⟩

/-! ### Valid items -/

/-- The type of the first token of a list of types, or 1 (end of input). -/
def headType : List Nat → Nat
  | [] => 1
  | k :: _ => k

/-- The symbols `Ys` (top first) followed by tokens of types `ks` make a sentence. -/
def Wraps (Ys : List Sym) (ks : List Nat) : Prop :=
  ∀ us : List Token, us.map (·.typ) = ks → ∀ Ts, DerivesAll Ys.reverse Ts → Sentence (yields Ts ++ us)

/-- The item (rule `r`, dot at `d`, lookahead `a`) is valid for the symbols `Xs` on the stack (top first). -/
def ValidItem (r d a : Nat) (Xs : List Sym) : Prop :=
  ∃ N rhs Ys ks, rules[r]? = some (N, rhs) ∧ Xs = (rhs.take d).reverse ++ Ys ∧ headType ks = a ∧ Wraps (.n N :: Ys) ks

theorem derivesAll_split {Xs Ys : List Sym} {Ts : List Tree} (h : DerivesAll (Xs ++ Ys) Ts) :
    ∃ Us Vs, Ts = Us ++ Vs ∧ DerivesAll Xs Us ∧ DerivesAll Ys Vs := by
  induction Xs generalizing Ts with
  | nil => exact ⟨[], Ts, rfl, .nil, h⟩
  | cons X Xs ih =>
    cases h with
    | cons h1 h2 =>
      obtain ⟨Us, Vs, rfl, h3, h4⟩ := ih h2
      exact ⟨_ :: Us, Vs, rfl, .cons h1 h3, h4⟩

/-- Replacing a nonterminal by the right-hand side of one of its rules. -/
theorem Wraps.expand {N : NT} {rhs Ys : List Sym} {r : Nat} {ks : List Nat} (h : Wraps (.n N :: Ys) ks) (hr : rules[r]? = some (N, rhs)) :
    Wraps (rhs.reverse ++ Ys) ks := by
  intro us hu Ts hT
  simp only [List.reverse_append, List.reverse_reverse] at hT
  obtain ⟨Us, Vs, rfl, h1, h2⟩ := derivesAll_split hT
  have := h us hu (Us ++ [.node r Vs]) (by
    simp only [List.reverse_cons]
    exact derivesAll_append h1 (.cons (.node hr h2) .nil))
  simpa [yields_append, yields, yield] using this

/-- Replacing symbols on top by what they generate. -/
theorem Wraps.gen {Zs Ys : List Sym} {ks ls : List Nat} (h : Wraps (Zs.reverse ++ Ys) ks) (hg : GenAll Zs ls) : Wraps Ys (ls ++ ks) := by
  intro us hu Ts hT
  obtain ⟨a, b, rfl, ha, hb⟩ := List.map_eq_append_iff.mp hu
  obtain ⟨Us, hU, rfl⟩ := hg a ha
  have := h b hb (Ts ++ Us) (by
    simp only [List.reverse_append, List.reverse_reverse]
    exact derivesAll_append hT hU)
  simpa [yields_append] using this

/-- The remaining symbols of a valid item can follow. -/
theorem valid_rest {r d a : Nat} {Xs : List Sym} (h : ValidItem r d a Xs) {N : NT} {rhs : List Sym} (hr : rules[r]? = some (N, rhs)) :
    ∃ ks, headType ks = a ∧ Wraps ((rhs.drop d).reverse ++ Xs) ks := by
  obtain ⟨N', rhs', Ys, ks, h1, h2, h3, h4⟩ := h
  rw [hr] at h1
  cases h1
  refine ⟨ks, h3, ?_⟩
  have := h4.expand hr
  rw [h2, ← List.append_assoc, ← List.reverse_append, List.take_append_drop]
  exact this

theorem valid_start {Xs : List Sym} {r : Nat} {rhs : List Sym} (hX : Xs = []) (hr : rules[r]? = some (.DotGraph, rhs)) : ValidItem r 0 1 Xs := by
  refine ⟨.DotGraph, rhs, [], [], hr, by simp [hX], rfl, fun us hu Ts hT => ?_⟩
  rw [List.map_eq_nil_iff] at hu
  subst hu
  cases hT with
  | cons h1 h2 =>
    cases h2
    exact ⟨_, h1, by simp [yields]⟩

theorem valid_advance {r d a : Nat} {Xs : List Sym} {X : Sym} {N : NT} {rhs : List Sym} (hr : rules[r]? = some (N, rhs)) (hx : rhs[d]? = some X)
    (h : ValidItem r d a Xs) : ValidItem r (d + 1) a (X :: Xs) := by
  obtain ⟨N', rhs', Ys, ks, h1, h2, h3, h4⟩ := h
  rw [hr] at h1
  cases h1
  refine ⟨N, rhs, Ys, ks, hr, ?_, h3, h4⟩
  obtain ⟨hd, hx⟩ := List.getElem?_eq_some_iff.mp hx
  rw [List.take_succ_eq_append_getElem hd, h2, hx]
  simp

/-- The lookaheads of the items that an item with lookaheads `L` adds for the nonterminal after its dot. -/
def nextLook (L : List Nat) : List Sym → List Nat
  | [] => L
  | Y :: _ => first Y

theorem valid_closure {r d : Nat} {L : List Nat} {Xs : List Sym} {N B : NT} {rhs : List Sym} (hr : rules[r]? = some (N, rhs))
    (hx : rhs[d]? = some (.n B)) (h : ∀ a ∈ L, ValidItem r d a Xs) (hL : ∃ a, a ∈ L) {q b : Nat} {rhs' : List Sym}
    (hq : rules[q]? = some (B, rhs')) (hb : b ∈ nextLook L (rhs.drop (d + 1))) : ValidItem q 0 b Xs := by
  obtain ⟨hd, hx⟩ := List.getElem?_eq_some_iff.mp hx
  have hdrop : rhs.drop d = .n B :: rhs.drop (d + 1) := by rw [List.drop_eq_getElem_cons hd, hx]
  refine ⟨B, rhs', Xs, ?_⟩
  cases hrest : rhs.drop (d + 1) with
  | nil =>
    rw [hrest] at hb
    obtain ⟨ks, h1, h2⟩ := valid_rest (h b hb) hr
    rw [hdrop, hrest] at h2
    exact ⟨ks, hq, by simp, h1, by simpa using h2⟩
  | cons Y Zs =>
    rw [hrest] at hb
    obtain ⟨a, ha⟩ := hL
    obtain ⟨ks, h1, h2⟩ := valid_rest (h a ha) hr
    rw [hdrop, hrest] at h2
    obtain ⟨ls, hl⟩ := gen_first hb
    obtain ⟨ms, hm⟩ := genAll_some Zs
    refine ⟨(b :: ls) ++ ms ++ ks, hq, by simp, rfl, ?_⟩
    refine Wraps.gen (Zs := Y :: Zs) ?_ (genAll_cons hl hm)
    simpa using h2

/-! ### The certificate -/

abbrev Item := Nat × Nat × List Nat × Nat

def itemsOf (s : Nat) : List Item := (itemTab[s]?).getD []

/-- An item with the dot at the start is justified by an earlier one (or, in state 0, is an item of the start symbol). -/
def chkClosure (s : Nat) (I : List Item) (i : Nat) : Item → Bool
  | (r, d, L, j) => if d ≠ 0 then true else match rules[r]? with
    | none => false
    | some (B, _) =>
      (s == 0 && B == .DotGraph && L == [1]) ||
      (decide (j < i) && match I[j]? with
        | none => false
        | some (r', d', L', _) => match rules[r']? with
          | none => false
          | some (_, rhs') => (rhs'[d']? == some (.n B)) && L.all (fun b => (nextLook L' (rhs'.drop (d' + 1))).contains b))

/-- An item with the dot further right comes from an item of the state before. -/
def chkKernel (I : List Item) (X : Sym) : Item → Bool
  | (_, 0, _, _) => true
  | (r, d + 1, L, _) => match rules[r]? with
    | none => false
    | some (_, rhs) => (rhs[d]? == some X) && L.all fun a => I.any fun (e : Item) => e.1 == r && e.2.1 == d && e.2.2.1.contains a

def chkItems (s : Nat) : Bool :=
  let I := itemsOf s
  ((List.range I.length).all fun i => match I[i]? with
    | none => true
    | some (e : Item) => chkClosure s I i e && !e.2.2.1.isEmpty) &&
  (edges s).all fun (e : Sym × Nat) => (itemsOf e.2).all (chkKernel I e.1)

theorem items_ok : ((List.range 128).all chkItems) = true := by decide +kernel

/-- Every action is that of an item. -/
def chkActs (s : Nat) : Bool := ((actionTab[s]?).getD []).all fun e => match e.2 with
  | .accept => s == 1 && e.1 == 1
  | .shift _ => (itemsOf s).any fun it => match rules[it.1]? with
    | none => false
    | some (_, rhs) => rhs[it.2.1]? == some (.t e.1)
  | .reduce p => (itemsOf s).any fun it => match rules[it.1]? with
    | none => false
    | some (_, rhs) => it.1 + 1 == p && it.2.1 == rhs.length && it.2.2.1.contains e.1

theorem acts_ok : ((List.range 128).all chkActs) = true := by decide +kernel

theorem items_zero_dot : ((itemsOf 0).all fun (e : Item) => e.2.1 == 0) = true := by decide +kernel

/-- All items of the state on top of the stack are valid. -/
theorem items_valid {stk : List (Nat × Tree)} {Xs : List Sym} (h : StackOk stk Xs) :
    ∃ s T stk', stk = (s, T) :: stk' ∧ s < 128 ∧ ∀ e ∈ itemsOf s, ∀ a ∈ e.2.2.1, ValidItem e.1 e.2.1 a Xs := by
  -- closure, given the items with the dot further right
  have close : ∀ (s : Nat) (Xs : List Sym), s < 128 → (s = 0 → Xs = []) →
      (∀ e ∈ itemsOf s, e.2.1 ≠ 0 → ∀ a ∈ e.2.2.1, ValidItem e.1 e.2.1 a Xs) →
      ∀ e ∈ itemsOf s, ∀ a ∈ e.2.2.1, ValidItem e.1 e.2.1 a Xs := by
    intro s Xs hs h0 hk
    have hc := List.all_eq_true.mp items_ok s (List.mem_range.mpr hs)
    simp only [chkItems, Bool.and_eq_true] at hc
    have hc := List.all_eq_true.mp hc.1
    have key : ∀ (i : Nat) (e : Item), (itemsOf s)[i]? = some e → ∀ a ∈ e.2.2.1, ValidItem e.1 e.2.1 a Xs := by
      intro i
      induction i using Nat.strongRecOn with
      | ind i ih =>
        intro e he a ha
        by_cases hd : e.2.1 = 0
        · have h1 := hc i (List.mem_range.mpr (List.getElem?_eq_some_iff.mp he).1)
          obtain ⟨r, d, L, j⟩ := e
          simp only at hd ha ⊢
          subst hd
          simp only [he, chkClosure, ne_eq, not_true_eq_false, if_false, Bool.and_eq_true] at h1
          cases hr : rules[r]? with
          | none => rw [hr] at h1; simp at h1
          | some x =>
            obtain ⟨B, rhs⟩ := x
            rw [hr] at h1
            simp only [Bool.or_eq_true, Bool.and_eq_true, beq_iff_eq, decide_eq_true_eq] at h1
            rcases h1.1 with ⟨⟨hs0, rfl⟩, rfl⟩ | ⟨hj, h2⟩
            · simp only [List.mem_cons, List.not_mem_nil, or_false] at ha
              subst ha
              exact valid_start (h0 hs0) hr
            · cases hj' : (itemsOf s)[j]? with
              | none => rw [hj'] at h2; simp at h2
              | some e' =>
                obtain ⟨r', d', L', j'⟩ := e'
                rw [hj'] at h2
                simp only at h2
                cases hr' : rules[r']? with
                | none => rw [hr'] at h2; simp at h2
                | some x =>
                  obtain ⟨N, rhs'⟩ := x
                  rw [hr'] at h2
                  simp only [Bool.and_eq_true, beq_iff_eq] at h2
                  have hin := List.all_eq_true.mp h2.2 a ha
                  have hne : ∃ x, x ∈ L' := by
                    have h3 := hc j (List.mem_range.mpr (List.getElem?_eq_some_iff.mp hj').1)
                    simp only [hj', Bool.and_eq_true] at h3
                    cases L' with
                    | nil => simp at h3
                    | cons x L' => exact ⟨x, by simp⟩
                  exact valid_closure hr' h2.1 (fun b hb => ih j hj _ hj' b hb) hne hr (by simpa using hin)
        · exact hk e (List.mem_of_getElem? he) hd a ha
    intro e he a ha
    obtain ⟨i, hi⟩ := List.getElem?_of_mem he
    exact key i e hi a ha
  induction h with
  | base T =>
    refine ⟨0, T, [], rfl, by decide, close 0 [] (by decide) (fun _ => rfl) ?_⟩
    intro e he hd
    have := List.all_eq_true.mp items_zero_dot e he
    simp only [beq_iff_eq] at this
    exact absurd this hd
  | @push s s' T0 T stk X Xs hs ht hd ih =>
    obtain ⟨s1, T1, stk1, he, hlt, hv⟩ := ih
    cases he
    have hlt' := (edge_ok ht).2.1
    refine ⟨s', T, _, rfl, hlt', close s' (X :: Xs) hlt' (fun h => absurd h (edge_ok ht).1) ?_⟩
    intro e hm hd0 a ha
    have hc := List.all_eq_true.mp items_ok s (List.mem_range.mpr hlt)
    simp only [chkItems, Bool.and_eq_true] at hc
    have hc := List.all_eq_true.mp (List.all_eq_true.mp hc.2 _ (mem_edges ht)) e hm
    obtain ⟨r, d, L, j⟩ := e
    cases d with
    | zero => exact absurd rfl hd0
    | succ d =>
      simp only [chkKernel] at hc
      cases hr : rules[r]? with
      | none => rw [hr] at hc; simp at hc
      | some x =>
        obtain ⟨N, rhs⟩ := x
        rw [hr] at hc
        simp only [Bool.and_eq_true, beq_iff_eq] at hc
        have h2 := List.all_eq_true.mp hc.2 a ha
        obtain ⟨e', he', h3⟩ := List.any_eq_true.mp h2
        simp only [Bool.and_eq_true, beq_iff_eq, List.contains_iff_mem] at h3
        have := hv e' he' a h3.2
        rw [h3.1.1, h3.1.2] at this
        exact valid_advance hr hc.1 this

theorem stack_trees {stk : List (Nat × Tree)} {Xs : List Sym} (h : StackOk stk Xs) : ∃ Ts, DerivesAll Xs.reverse Ts ∧ yields Ts = stkYield stk := by
  induction h with
  | base T => exact ⟨[], .nil, rfl⟩
  | @push s s' T0 T stk X Xs _ _ hd ih =>
    obtain ⟨Ts, h1, h2⟩ := ih
    refine ⟨Ts ++ [T], ?_, ?_⟩
    · simp only [List.reverse_cons]
      exact derivesAll_append h1 (.cons hd .nil)
    · simp [yields_append, yields, h2, stkYield]

/-- Whatever the automaton has an action for can follow. -/
theorem act_viable {s : Nat} {T : Tree} {stk : List (Nat × Tree)} {Xs : List Sym} (h : StackOk ((s, T) :: stk) Xs) {k : Nat} {a : Action}
    (ha : act s k = some a) : ∃ ks, headType ks = k ∧ ∀ us : List Token, us.map (·.typ) = ks → Sentence (stkYield ((s, T) :: stk) ++ us) := by
  obtain ⟨Ts, hTs, hy⟩ := stack_trees h
  have fin : ∀ ks, Wraps Xs ks → ∀ us : List Token, us.map (·.typ) = ks → Sentence (stkYield ((s, T) :: stk) ++ us) := by
    intro ks hw us hu
    rw [← hy]
    exact hw us hu Ts hTs
  obtain ⟨s1, T1, stk1, he, hlt, hv⟩ := items_valid h
  cases he
  obtain ⟨row, hrow, hm⟩ := act_mem ha
  have hc := List.all_eq_true.mp acts_ok s (List.mem_range.mpr hlt)
  unfold chkActs at hc
  rw [hrow] at hc
  have hc := List.all_eq_true.mp hc _ hm
  have hne : ∀ e ∈ itemsOf s, ∃ x, x ∈ e.2.2.1 := by
    intro e he
    have h1 := List.all_eq_true.mp items_ok s (List.mem_range.mpr hlt)
    simp only [chkItems, Bool.and_eq_true] at h1
    obtain ⟨i, hi⟩ := List.getElem?_of_mem he
    have h2 := List.all_eq_true.mp h1.1 i (List.mem_range.mpr (List.getElem?_eq_some_iff.mp hi).1)
    simp only [hi, Bool.and_eq_true] at h2
    cases hL : e.2.2.1 with
    | nil => rw [hL] at h2; simp at h2
    | cons x L => exact ⟨x, by simp⟩
  cases a with
  | accept =>
    simp only [Bool.and_eq_true, beq_iff_eq] at hc
    obtain ⟨rfl, rfl⟩ := hc
    refine ⟨[], rfl, fun us hu => ?_⟩
    rw [List.map_eq_nil_iff] at hu
    subst hu
    obtain ⟨h1, T0, h2, h3⟩ := (by
      have := astep_ok h ⟨1, [], 0, 0, 0⟩ []
      obtain ⟨row', h1, h2⟩ := act_row ha
      simp only [astep, h1, h2] at this
      exact ⟨trivial, this.2⟩ : True ∧ ∃ T0, ((1, T) :: stk) = [(1, T), (0, T0)] ∧ Derives (.n .DotGraph) T)
    rw [h2]
    exact ⟨T, h3, by simp [stkYield]⟩
  | shift s' =>
    obtain ⟨it, hit, h1⟩ := List.any_eq_true.mp hc
    cases hr : rules[it.1]? with
    | none => rw [hr] at h1; simp at h1
    | some x =>
      obtain ⟨N, rhs⟩ := x
      rw [hr] at h1
      simp only [beq_iff_eq] at h1
      obtain ⟨b, hb⟩ := hne it hit
      obtain ⟨ks, h2, h3⟩ := valid_rest (hv it hit b hb) hr
      obtain ⟨ls, hl⟩ := genAll_some (rhs.drop (it.2.1 + 1))
      obtain ⟨hd, hx⟩ := List.getElem?_eq_some_iff.mp h1
      have hdrop : rhs.drop it.2.1 = .t k :: rhs.drop (it.2.1 + 1) := by rw [List.drop_eq_getElem_cons hd, hx]
      rw [hdrop] at h3
      exact ⟨_, rfl, fin _ (h3.gen (genAll_cons (gen_t k) hl))⟩
  | reduce p =>
    obtain ⟨it, hit, h1⟩ := List.any_eq_true.mp hc
    cases hr : rules[it.1]? with
    | none => rw [hr] at h1; simp at h1
    | some x =>
      obtain ⟨N, rhs⟩ := x
      rw [hr] at h1
      simp only [Bool.and_eq_true, beq_iff_eq, List.contains_iff_mem] at h1
      obtain ⟨ks, h2, h3⟩ := valid_rest (hv it hit k h1.2) hr
      rw [h1.1.2, List.drop_length] at h3
      exact ⟨ks, h2, fin ks (by simpa using h3)⟩

/-! ### The error -/

theorem astep_nil (stk : List (Nat × Tree)) : astep stk [] = .bad := by cases stk <;> rfl

/-- A step looks at the next token only. -/
theorem astep_local {stk stk' : List (Nat × Tree)} {t : Token} {ts ts' : List Token} (h : astep stk (t :: ts) = .cont stk' ts') (us : List Token) :
    (ts' = t :: ts ∧ astep stk (t :: us) = .cont stk' (t :: us)) ∨ (ts' = ts ∧ astep stk (t :: us) = .cont stk' us) := by
  unfold astep at h ⊢
  split at h
  · rename_i hts
    cases hts
    split at h
    · cases h
    · rename_i h1
      split at h
      · cases h
      · cases h
      · rename_i h2
        cases h
        exact .inr ⟨rfl, by simp [h1, h2]⟩
      · rename_i h2
        split at h
        · cases h
        · rename_i h3
          split at h
          · cases h
          · rename_i h4
            split at h
            · cases h
            · rename_i h5
              cases h
              exact .inl ⟨rfl, by simp [h1, h2, h3, h4, h5]⟩
  · cases h

theorem astep_err_local {stk : List (Nat × Tree)} {t e : Token} {ts : List Token} {x : List Nat} (h : astep stk (t :: ts) = .err e x) (us : List Token) :
    astep stk (t :: us) = .err e x := by
  unfold astep at h ⊢
  split at h
  · rename_i hts
    cases hts
    split at h
    · cases h
    · rename_i h1
      split at h
      · rename_i h2
        cases h
        simp [h1, h2]
      · cases h
      · cases h
      · split at h
        · cases h
        · split at h
          · cases h
          · split at h
            · cases h
            · cases h
  · cases h

/-- How far the automaton got does not depend on the tokens after the next one. -/
theorem Steps.local {a b : List (Nat × Tree)} {ta tb : List Token} (h : Steps a ta b tb) {t : Token} {rest : List Token} (htb : tb = t :: rest) :
    ∃ used, ta = used ++ t :: rest ∧ ∀ rest', Steps a (used ++ t :: rest') b (t :: rest') := by
  induction h with
  | refl => exact ⟨[], htb, fun _ => .refl⟩
  | @head a b c ta tm tc he _ ih =>
    obtain ⟨used, h1, h2⟩ := ih htb
    cases ta with
    | nil => rw [astep_nil] at he; cases he
    | cons u ta =>
      rcases astep_local he [] with ⟨h3, _⟩ | ⟨h3, _⟩
      · refine ⟨used, by rw [← h1, h3], fun rest' => .head ?_ (h2 rest')⟩
        have h4 : ∃ us, used ++ t :: rest' = u :: us := by
          rw [h3] at h1
          cases used with
          | nil => simp at h1; exact ⟨rest', by simp [h1.1]⟩
          | cons v used => simp at h1; exact ⟨used ++ t :: rest', by simp [h1.1]⟩
        obtain ⟨us, h4⟩ := h4
        rw [h4]
        rcases astep_local he us with ⟨_, h5⟩ | ⟨h5, _⟩
        · exact h5
        · rw [h3] at h5; exact absurd (congrArg List.length h5) (by simp)
      · refine ⟨u :: used, by rw [← h3, h1]; rfl, fun rest' => .head ?_ (h2 rest')⟩
        rcases astep_local he (used ++ t :: rest') with ⟨h5, _⟩ | ⟨_, h5⟩
        · rw [h3] at h5; exact absurd (congrArg List.length h5) (by simp)
        · exact h5

/-- The configuration in which the automaton reports an error. -/
theorem runs_err {n : Nat} {stk : List (Nat × Tree)} {ts : List Token} {r : AStep} {t : Token} {x : List Nat} {Xs : List Sym} (h : Runs n stk ts r)
    (hr : r = .err t x) (hok : StackOk stk Xs) : ∃ stk' rest Xs', Steps stk ts stk' (t :: rest) ∧ StackOk stk' Xs' ∧
      astep stk' (t :: rest) = .err t x ∧ stkYield stk' ++ t :: rest = stkYield stk ++ ts := by
  induction h generalizing Xs with
  | @stop stk ts _ =>
    cases ts with
    | nil => rw [astep_nil] at hr; cases hr
    | cons u ts =>
      have := astep_ok hok u ts
      rw [hr] at this
      subst this
      exact ⟨stk, ts, Xs, .refl, hok, hr, rfl⟩
  | @cont n stk stk' ts ts' r he _ ih =>
    cases ts with
    | nil => rw [astep_nil] at he; cases he
    | cons u ts =>
      have hs := astep_ok hok u ts
      rw [he] at hs
      obtain ⟨⟨Xs', hok'⟩, hy, _⟩ := hs
      obtain ⟨s1, r1, X1, h1, h2, h3, h4⟩ := ih hr hok'
      exact ⟨s1, r1, X1, .head he h1, h2, h3, by rw [h4, hy]⟩

/-- A sentence contains no end-of-input token. -/
theorem terminals_ok : (rules.all fun e => e.2.all fun X => X != .t 1) = true := by decide +kernel

mutual
theorem no_eof {N : NT} {T : Tree} (h : Derives (.n N) T) : ∀ t ∈ yield T, t.typ ≠ 1 := by
  cases T with
  | leaf t => cases h
  | node r cs =>
    cases h with
    | node hr hd =>
      have h1 := List.all_eq_true.mp terminals_ok _ (List.mem_of_getElem? hr)
      exact no_eofs hd (fun X hX => by simpa using List.all_eq_true.mp h1 X hX)
theorem no_eofs {Xs : List Sym} {Ts : List Tree} (h : DerivesAll Xs Ts) (hX : ∀ X ∈ Xs, X ≠ .t 1) : ∀ t ∈ yields Ts, t.typ ≠ 1 := by
  cases Ts with
  | nil => simp [yields]
  | cons T Ts =>
    cases h with
    | cons h1 h2 =>
      rename_i X Xs
      simp only [yields, List.mem_append]
      rintro t (ht | ht)
      · cases h0 : X with
        | t k =>
          subst h0
          cases h1 with
          | @leaf u =>
          simp only [yield, List.mem_cons, List.not_mem_nil, or_false] at ht
          subst ht
          intro h1
          exact hX _ List.mem_cons_self (by rw [h1])
        | n N => subst h0; exact no_eof h1 t ht
      · exact no_eofs h2 (fun Y hY => hX Y (List.mem_cons_of_mem _ hY)) t ht
end

/-- A sentence contains no invalid token. -/
theorem terminals_valid : (rules.all fun e => e.2.all fun X => X != .t 0) = true := by decide +kernel

mutual
theorem no_invalid {N : NT} {T : Tree} (h : Derives (.n N) T) : ∀ t ∈ yield T, t.typ ≠ 0 := by
  cases T with
  | leaf t => cases h
  | node r cs =>
    cases h with
    | node hr hd =>
      have h1 := List.all_eq_true.mp terminals_valid _ (List.mem_of_getElem? hr)
      exact no_invalids hd (fun X hX => by simpa using List.all_eq_true.mp h1 X hX)
theorem no_invalids {Xs : List Sym} {Ts : List Tree} (h : DerivesAll Xs Ts) (hX : ∀ X ∈ Xs, X ≠ .t 0) : ∀ t ∈ yields Ts, t.typ ≠ 0 := by
  cases Ts with
  | nil => simp [yields]
  | cons T Ts =>
    cases h with
    | cons h1 h2 =>
      rename_i X Xs
      simp only [yields, List.mem_append]
      rintro t (ht | ht)
      · cases h0 : X with
        | t k =>
          subst h0
          cases h1 with
          | @leaf u =>
          simp only [yield, List.mem_cons, List.not_mem_nil, or_false] at ht
          subst ht
          intro h1
          exact hX _ List.mem_cons_self (by rw [h1])
        | n N => subst h0; exact no_invalid h1 t ht
      · exact no_invalids h2 (fun Y hY => hX Y (List.mem_cons_of_mem _ hY)) t ht
end

/-- No row of the action table is empty. -/
theorem rows_ne : ((List.range 128).all fun s => !((actionTab[s]?).getD []).isEmpty) = true := by decide +kernel

theorem astep_length {stk stk' : List (Nat × Tree)} {ts ts' : List Token} (h : astep stk ts = .cont stk' ts') : ts'.length ≤ ts.length := by
  cases ts with
  | nil => rw [astep_nil] at h; cases h
  | cons u ts => rcases astep_local h [] with ⟨h1, _⟩ | ⟨h1, _⟩ <;> rw [h1] <;> simp

theorem Steps.length {a b : List (Nat × Tree)} {ta tb : List Token} (h : Steps a ta b tb) : tb.length ≤ ta.length := by
  induction h with
  | refl => exact Nat.le_refl _
  | head he _ ih => exact Nat.le_trans ih (astep_length he)

/-- The configuration reached just after the last token of `used` was shifted: it does not depend on what follows. -/
theorem Steps.before {a b : List (Nat × Tree)} {ta tb : List Token} (h : Steps a ta b tb) {used : List Token} (hta : ta = used ++ tb) :
    ∃ m, (∀ ts, Steps a (used ++ ts) m ts) ∧ Steps m tb b tb := by
  induction h generalizing used with
  | refl =>
    rename_i ts
    have : used = [] := by
      have := congrArg List.length hta
      simp only [List.length_append] at this
      exact List.eq_nil_of_length_eq_zero (by omega)
    subst this
    exact ⟨_, fun _ => .refl, .refl⟩
  | @head a b c ta tm tc he hrest ih =>
    cases used with
    | nil =>
      simp only [List.nil_append] at hta
      subst hta
      exact ⟨a, fun _ => .refl, .head he hrest⟩
    | cons u used =>
      subst hta
      rw [List.cons_append] at he
      rcases astep_local he [] with ⟨h3, _⟩ | ⟨h3, _⟩
      · obtain ⟨m, h1, h2⟩ := ih (used := u :: used) h3
        refine ⟨m, fun ts => .head ?_ (h1 ts), h2⟩
        rcases astep_local he (used ++ ts) with ⟨_, h5⟩ | ⟨h5, _⟩
        · exact h5
        · rw [h3] at h5; exact absurd (congrArg List.length h5) (by simp)
      · obtain ⟨m, h1, h2⟩ := ih (used := used) h3
        refine ⟨m, fun ts => .head ?_ (h1 ts), h2⟩
        rcases astep_local he (used ++ ts) with ⟨h5, _⟩ | ⟨_, h5⟩
        · rw [h3] at h5; exact absurd (congrArg List.length h5) (by simp)
        · exact h5

/-- The stack stays that of the automaton, and its tokens are those read. -/
theorem Steps.ok {a b : List (Nat × Tree)} {ta tb : List Token} (h : Steps a ta b tb) {Xs : List Sym} (hok : StackOk a Xs) :
    (∃ Xs', StackOk b Xs') ∧ stkYield b ++ tb = stkYield a ++ ta := by
  induction h generalizing Xs with
  | refl => exact ⟨⟨Xs, hok⟩, rfl⟩
  | @head a b c ta tm tc he _ ih =>
    cases ta with
    | nil => rw [astep_nil] at he; cases he
    | cons u ta =>
      have hs := astep_ok hok u ta
      rw [he] at hs
      obtain ⟨⟨Xs', hok'⟩, hy, _⟩ := hs
      obtain ⟨h1, h2⟩ := ih hok'
      exact ⟨h1, h2.trans hy⟩

theorem astep_none {s : Nat} {T : Tree} {stk : List (Nat × Tree)} {row : List (Nat × Action)} (hrow : actionTab[s]? = some row) {t : Token}
    (h : act s t.typ = none) (ts : List Token) : astep ((s, T) :: stk) (t :: ts) = .err t (row.map (·.1)) := by
  have : rowAction row t.typ = none := by simpa [act, hrow] using h
  simp [astep, hrow, this]

theorem mem_row {s k : Nat} {row : List (Nat × Action)} (hrow : actionTab[s]? = some row) : k ∈ row.map (·.1) ↔ ∃ a, act s k = some a := by
  constructor
  · intro h
    obtain ⟨e, he, rfl⟩ := List.mem_map.mp h
    cases hf : row.find? (fun x => x.1 == e.1) with
    | none => exact absurd (List.find?_eq_none.mp hf e he) (by simp)
    | some f => exact ⟨f.2, by simp [act, hrow, rowAction, hf]⟩
  · rintro ⟨a, ha⟩
    obtain ⟨row', h1, h2⟩ := act_mem ha
    rw [hrow] at h1
    cases h1
    exact List.mem_map.mpr ⟨_, h2, rfl⟩

/-- An error is reported as soon as the tokens read cannot be continued with the next one, and the expected types are those with which
they can. -/
theorem error_exact {n : Nat} {ts : List Token} {t : Token} {x : List Nat} (h : Runs n [bottom] ts (.err t x)) :
    ∃ us rest, ts = us ++ t :: rest ∧ (∃ w, Sentence (us ++ w)) ∧
      (∀ k, k ∈ x ↔ (k = 1 ∧ Sentence us) ∨ ∃ u w, u.typ = k ∧ Sentence (us ++ u :: w)) ∧ t.typ ∉ x ∧
      ∃ (s : Nat) (row : List (Nat × Action)), actionTab[s]? = some row ∧ x = row.map (·.1) := by
  have hok : StackOk [bottom] [] := .base _
  obtain ⟨stk', rest, Xs', h1, h2, h3, h4⟩ := runs_err h rfl hok
  have hy : ts = stkYield stk' ++ t :: rest := by simpa [stkYield, bottom] using h4.symm
  generalize hus : stkYield stk' = us at hy
  obtain ⟨m, hm1, hm2⟩ := h1.before hy
  obtain ⟨⟨Xm, hXm⟩, hym⟩ := (hm1 [t]).ok hok
  have hym : stkYield m = us := by
    have : stkYield m ++ [t] = us ++ [t] := by simpa [stkYield, bottom] using hym
    exact List.append_cancel_right this
  -- an error after `us`
  have noerr : ∀ {u w e y}, e.typ = 1 → Sentence (us ++ w) → w ++ [e] = u :: y → ∀ t x b, Steps m (u :: y) b (u :: y) → astep b (u :: y) ≠ .err t x := by
    intro u w e y he ⟨T, hT, hyT⟩ hw t x b hb herr
    obtain ⟨n', hn'⟩ := runs_complete hT he
    rw [hyT, List.append_assoc, hw] at hn'
    have hstop : Runs 0 b (u :: y) (.err t x) := herr ▸ Runs.stop (by simp [herr])
    obtain ⟨n1, hr1⟩ := (hb).runs hstop
    obtain ⟨n2, hr2⟩ := (hm1 (u :: y)).runs hr1
    have := (hr2.det hn').2
    cases this
  have hstk : stk' = m := by
    cases hm2 with
    | refl => rfl
    | @head _ b _ _ tm _ he hrest =>
      exfalso
      obtain ⟨s, T, mm, rfl, hlt, _⟩ := items_valid hXm
      cases ha : act s t.typ with
      | none =>
        obtain ⟨row, hrow⟩ : ∃ row, actionTab[s]? = some row := ⟨_, List.getElem?_eq_getElem (by rw [lengths.1]; exact hlt)⟩
        rw [astep_none hrow ha] at he
        cases he
      | some a =>
        obtain ⟨ks, hk1, hk2⟩ := act_viable hXm ha
        rw [hym] at hk2
        have hsteps : ∀ rest', Steps ((s, T) :: mm) (t :: rest') stk' (t :: rest') := by
          intro rest'
          have hall : Steps ((s, T) :: mm) (t :: rest) stk' (t :: rest) := .head he hrest
          obtain ⟨used, h5, h6⟩ := hall.local rfl
          have : used = [] := by
            have := congrArg List.length h5
            simp only [List.length_append, List.length_cons] at this
            exact List.eq_nil_of_length_eq_zero (by omega)
          subst this
          exact h6 rest'
        cases ks with
        | nil =>
          have hs := hk2 [] rfl
          exact noerr (u := t) (w := []) (e := t) (y := []) hk1.symm hs rfl t x stk' (hsteps []) (astep_err_local h3 [])
        | cons k ks =>
          simp only [headType] at hk1
          subst hk1
          have hs := hk2 (t :: ks.map (fun k => ⟨k, [], 0, 0, 0⟩)) (by simp [List.map_map, Function.comp_def])
          exact noerr (u := t) (w := t :: ks.map (fun k => ⟨k, [], 0, 0, 0⟩)) (e := ⟨1, [], 0, 0, 0⟩) rfl hs rfl t x stk' (hsteps _)
            (astep_err_local h3 _)
  subst hstk
  obtain ⟨s, T, mm, rfl, hlt, _⟩ := items_valid hXm
  obtain ⟨row, hrow⟩ : ∃ row, actionTab[s]? = some row := ⟨_, List.getElem?_eq_getElem (by rw [lengths.1]; exact hlt)⟩
  have hnone : act s t.typ = none := by
    cases ha : act s t.typ with
    | none => rfl
    | some a =>
      obtain ⟨row', h5, h6⟩ := act_row ha
      unfold astep at h3
      simp only [h5, h6] at h3
      exfalso
      cases a with
      | accept => cases h3
      | shift => cases h3
      | reduce p =>
        simp only at h3
        split at h3
        · cases h3
        · split at h3
          · cases h3
          · split at h3 <;> cases h3
  have hx : x = row.map (·.1) := by
    rw [astep_none hrow hnone] at h3
    cases h3
    rfl
  have hiff : ∀ k, k ∈ x ↔ (k = 1 ∧ Sentence us) ∨ ∃ u w, u.typ = k ∧ Sentence (us ++ u :: w) := by
    intro k
    rw [hx, mem_row hrow]
    constructor
    · rintro ⟨a, ha⟩
      obtain ⟨ks, hk1, hk2⟩ := act_viable hXm ha
      rw [hus] at hk2
      cases ks with
      | nil => exact .inl ⟨hk1.symm, by simpa using hk2 [] rfl⟩
      | cons j ks =>
        simp only [headType] at hk1
        exact .inr ⟨⟨j, [], 0, 0, 0⟩, ks.map (fun k => ⟨k, [], 0, 0, 0⟩), hk1, hk2 _ (by simp [List.map_map, Function.comp_def])⟩
    · intro hk
      cases ha : act s k with
      | some a => exact ⟨a, rfl⟩
      | none =>
        exfalso
        rcases hk with ⟨rfl, hsent⟩ | ⟨u, w, rfl, hsent⟩
        · exact noerr (u := ⟨1, [], 0, 0, 0⟩) (w := []) (e := ⟨1, [], 0, 0, 0⟩) (y := []) rfl (by simpa using hsent) rfl _ _ _ .refl
            (astep_none hrow ha _)
        · exact noerr (u := u) (w := u :: w) (e := ⟨1, [], 0, 0, 0⟩) rfl hsent rfl _ _ _ .refl (astep_none hrow ha _)
  have hnot : t.typ ∉ x := by
    rw [hx, mem_row hrow, hnone]
    rintro ⟨a, ha⟩
    cases ha
  refine ⟨us, rest, hy, ?_, hiff, hnot, s, row, hrow, hx⟩
  -- something can follow
  obtain ⟨k, hk⟩ : ∃ k, k ∈ x := by
    have := List.all_eq_true.mp rows_ne s (List.mem_range.mpr hlt)
    rw [hrow] at this
    cases hr : row with
    | nil => rw [hr] at this; simp at this
    | cons e row => exact ⟨e.1, by rw [hx, hr]; simp⟩
  rcases (hiff k).mp hk with ⟨_, h5⟩ | ⟨u, w, _, h5⟩
  · exact ⟨[], by simpa using h5⟩
  · exact ⟨_, h5⟩

end Gographviz.Parse
