import Verif.Props.DocumentProps
import Verif.Props.OrderProps
import Verif.Spec.StmtOrder
/-!
C84: the order of independent statements is invisible.
-/
namespace Gographviz.Props

open Gographviz.Spec Gographviz.Spec.Document
open Gographviz.Ast (Stmt Loc EdgeRH AttrList)

namespace StmtOrder

/-! ### items that amount to the same -/

/-- The items say the same. -/
structure Same (xs ys : List Item) : Prop where
  nodeVal : ∀ n k, lastValue (xs.flatMap (Item.nodeEntries n)) k = lastValue (ys.flatMap (Item.nodeEntries n)) k
  graphVal : ∀ n k, lastValue (xs.flatMap (Item.graphEntries n)) k = lastValue (ys.flatMap (Item.graphEntries n)) k
  edges : (xs.flatMap Item.edges).Perm (ys.flatMap Item.edges)
  ment : ∀ p n, (∃ i ∈ xs, i.ctx.name = p ∧ n ∈ mentions i.stmt) ↔ ∃ i ∈ ys, i.ctx.name = p ∧ n ∈ mentions i.stmt
  sub : ∀ p n, (∃ i ∈ xs, i.ctx.name = p ∧ n ∈ i.sub) ↔ ∃ i ∈ ys, i.ctx.name = p ∧ n ∈ i.sub
  used : (∀ i ∈ xs, KeysReg i.used) ↔ ∀ i ∈ ys, KeysReg i.used

theorem Same.refl (xs : List Item) : Same xs xs := ⟨fun _ _ => rfl, fun _ _ => rfl, .refl _, fun _ _ => Iff.rfl, fun _ _ => Iff.rfl, Iff.rfl⟩

theorem Same.trans {a b c : List Item} (h : Same a b) (h' : Same b c) : Same a c :=
  ⟨fun n k => (h.nodeVal n k).trans (h'.nodeVal n k), fun n k => (h.graphVal n k).trans (h'.graphVal n k), h.edges.trans h'.edges,
    fun p n => (h.ment p n).trans (h'.ment p n), fun p n => (h.sub p n).trans (h'.sub p n), h.used.trans h'.used⟩

theorem ex_append {P : Item → Prop} (xs ys : List Item) : (∃ i ∈ xs ++ ys, P i) ↔ (∃ i ∈ xs, P i) ∨ ∃ i ∈ ys, P i := by
  constructor
  · rintro ⟨i, hi, h⟩
    rcases List.mem_append.1 hi with hi | hi
    · exact .inl ⟨i, hi, h⟩
    · exact .inr ⟨i, hi, h⟩
  · rintro (⟨i, hi, h⟩ | ⟨i, hi, h⟩)
    · exact ⟨i, List.mem_append_left _ hi, h⟩
    · exact ⟨i, List.mem_append_right _ hi, h⟩

theorem all_append {P : Item → Prop} (xs ys : List Item) : (∀ i ∈ xs ++ ys, P i) ↔ (∀ i ∈ xs, P i) ∧ ∀ i ∈ ys, P i :=
  ⟨fun h => ⟨fun i hi => h i (List.mem_append_left _ hi), fun i hi => h i (List.mem_append_right _ hi)⟩, fun h i hi => (List.mem_append.1 hi).elim (h.1 i) (h.2 i)⟩

theorem Same.append {a b c d : List Item} (h : Same a b) (h' : Same c d) : Same (a ++ c) (b ++ d) where
  nodeVal n k := by rw [List.flatMap_append, List.flatMap_append, lastValue_append, lastValue_append, h.nodeVal, h'.nodeVal]
  graphVal n k := by rw [List.flatMap_append, List.flatMap_append, lastValue_append, lastValue_append, h.graphVal, h'.graphVal]
  edges := by rw [List.flatMap_append, List.flatMap_append]; exact h.edges.append h'.edges
  ment p n := by rw [ex_append, ex_append, h.ment, h'.ment]
  sub p n := by rw [ex_append, ex_append, h.sub, h'.sub]
  used := by rw [all_append, all_append, h.used, h'.used]

/-- Two items that contribute the same. -/
structure Like (i j : Item) : Prop where
  node : ∀ n, i.nodeEntries n = j.nodeEntries n
  graph : ∀ n, i.graphEntries n = j.graphEntries n
  edges : i.edges = j.edges
  name : i.ctx.name = j.ctx.name
  ment : mentions i.stmt = mentions j.stmt
  sub : i.sub = j.sub
  used : i.used = j.used

theorem Like.refl (i : Item) : Like i i := ⟨fun _ => rfl, fun _ => rfl, rfl, rfl, rfl, rfl, rfl⟩

theorem Like.same {i j : Item} (h : Like i j) : Same [i] [j] := by
  have e : ∀ {P : Item → Prop}, (∀ i j, Like i j → (P i ↔ P j)) → ((∃ x ∈ [i], P x) ↔ ∃ x ∈ [j], P x) := by
    intro P hP
    simp only [List.mem_singleton, exists_eq_left]
    exact hP i j h
  refine ⟨fun n k => ?_, fun n k => ?_, ?_, fun p n => e fun i j h => ?_, fun p n => e fun i j h => ?_, ?_⟩
  · simp only [List.flatMap_cons, List.flatMap_nil, h.node]
  · simp only [List.flatMap_cons, List.flatMap_nil, h.graph]
  · simp only [List.flatMap_cons, List.flatMap_nil, h.edges]; exact .refl _
  · rw [h.name, h.ment]
  · rw [h.name, h.sub]
  · simp only [List.mem_singleton, forall_eq, h.used]

theorem same_of_like {xs ys : List Item} (h : Forall2 Like xs ys) : Same xs ys := by
  induction h with
  | nil => exact .refl _
  | cons h _ ih => exact h.same.append ih

/-! ### statements before that make no difference -/

/-- The same defaults, and the same nodes mentioned. -/
structure PreSim (p q : List Stmt) : Prop where
  node : nodeDefaultEntries p = nodeDefaultEntries q
  edge : edgeDefaultEntries p = edgeDefaultEntries q
  graph : graphDefaultEntries p = graphDefaultEntries q
  ment : ∀ n, n ∈ mentioned p ↔ n ∈ mentioned q

theorem PreSim.append {p q : List Stmt} (h : PreSim p q) (r : List Stmt) : PreSim (p ++ r) (q ++ r) where
  node := by rw [nodeDefaultEntries_append, nodeDefaultEntries_append, h.node]
  edge := by rw [edgeDefaultEntries_append, edgeDefaultEntries_append, h.edge]
  graph := by rw [graphDefaultEntries_append, graphDefaultEntries_append, h.graph]
  ment n := by rw [mentioned_append, mentioned_append, List.mem_append, List.mem_append, h.ment]

theorem PreSim.like {p q : List Stmt} (h : PreSim p q) (c : Ctx) (s : Stmt) : Like ⟨c, p, s⟩ ⟨c, q, s⟩ := by
  have e1 : c.nodeNow p = c.nodeNow q := by unfold Ctx.nodeNow; rw [h.node]
  have e2 : c.edgeNow p = c.edgeNow q := by unfold Ctx.edgeNow; rw [h.edge]
  refine ⟨fun n => ?_, fun n => ?_, ?_, rfl, rfl, rfl, ?_⟩
  · cases s <;> simp only [Item.nodeEntries, e1, h.ment]
  · cases s <;> simp only [Item.graphEntries, h.graph]
  · cases s <;> simp only [Item.edges, e2]
  · cases s <;> simp only [Item.used, e1, e2, h.ment, h.graph]

theorem PreSim.inner {p q : List Stmt} (h : PreSim p q) (c : Ctx) (id : Str) : c.inner p id = c.inner q id := by
  unfold Ctx.inner Ctx.nodeNow Ctx.edgeNow
  rw [h.node, h.edge]

theorem forall2_refl (xs : List Item) : Forall2 Like xs xs := by
  induction xs with
  | nil => exact .nil
  | cons x xs ih => exact .cons (.refl x) ih

theorem PreSim.loc {p q : List Stmt} (h : PreSim p q) (c : Ctx) (l : Loc) : Forall2 Like (itemsLoc c p l) (itemsLoc c q l) := by
  cases l with
  | node n => simp only [itemsLoc]; exact .nil
  | sub id body => simp only [itemsLoc, h.inner c id]; exact .cons (h.like c _) (forall2_refl _)

theorem PreSim.rhs {p q : List Stmt} (h : PreSim p q) (c : Ctx) (rhs : List EdgeRH) : Forall2 Like (itemsRHS c p rhs) (itemsRHS c q rhs) := by
  induction rhs with
  | nil => simp only [itemsRHS]; exact .nil
  | cons r rest ih => cases r with | mk op d => simp only [itemsRHS]; exact forall2_append (h.loc c d) ih

theorem PreSim.stmt {p q : List Stmt} (h : PreSim p q) (c : Ctx) (s : Stmt) : Forall2 Like (itemsStmt c p s) (itemsStmt c q s) := by
  cases s with
  | edge src rhs as => simp only [itemsStmt]; exact .cons (h.like c _) (forall2_append (h.loc c src) (h.rhs c rhs))
  | sub id body => simp only [itemsStmt, h.inner c id]; exact .cons (h.like c _) (forall2_refl _)
  | node id as => simp only [itemsStmt]; exact .cons (h.like c _) .nil
  | nodeAttrs as => simp only [itemsStmt]; exact .cons (h.like c _) .nil
  | edgeAttrs as => simp only [itemsStmt]; exact .cons (h.like c _) .nil
  | graphAttrs as => simp only [itemsStmt]; exact .cons (h.like c _) .nil
  | attr a => simp only [itemsStmt]; exact .cons (h.like c _) .nil

theorem PreSim.stmts (c : Ctx) (ss : List Stmt) : ∀ {p q : List Stmt}, PreSim p q → Forall2 Like (itemsStmts c p ss) (itemsStmts c q ss) := by
  induction ss with
  | nil => intro p q _; simp only [itemsStmts]; exact .nil
  | cons s ss ih =>
    intro p q h
    simp only [itemsStmts]
    exact forall2_append (h.stmt c s) (ih (h.append [s]))

theorem items_append (c : Ctx) (a : List Stmt) : ∀ (pre b : List Stmt), itemsStmts c pre (a ++ b) = itemsStmts c pre a ++ itemsStmts c (pre ++ a) b := by
  induction a with
  | nil => intro pre b; simp [itemsStmts]
  | cons s a ih => intro pre b; simp only [List.cons_append, itemsStmts, ih, List.append_assoc, List.nil_append]

/-! ### an independent statement before -/

theorem plain_defaults {s : Stmt} (h : concernsLater s = false) (pre : List Stmt) : nodeDefaultEntries (pre ++ [s]) = nodeDefaultEntries pre ∧
    edgeDefaultEntries (pre ++ [s]) = edgeDefaultEntries pre ∧ graphDefaultEntries (pre ++ [s]) = graphDefaultEntries pre := by
  rw [nodeDefaultEntries_append, edgeDefaultEntries_append, graphDefaultEntries_append]
  cases s with
  | nodeAttrs _ => cases h
  | edgeAttrs _ => cases h
  | graphAttrs _ => cases h
  | _ => simp [nodeDefaultEntries, edgeDefaultEntries, graphDefaultEntries]

/-- All but the first item. -/
def nested (c : Ctx) (pre : List Stmt) : Stmt → List Item
  | .edge src rhs _ => itemsLoc c pre src ++ itemsRHS c pre rhs
  | .sub id body => itemsStmts (c.inner pre id) [] body
  | _ => []

theorem items_eq (c : Ctx) (pre : List Stmt) (s : Stmt) : itemsStmt c pre s = ⟨c, pre, s⟩ :: nested c pre s := by
  cases s <;> simp only [itemsStmt, nested]

/-- What the nested items say depends on the defaults only. -/
theorem nested_like {p q : List Stmt} (h1 : nodeDefaultEntries p = nodeDefaultEntries q) (h2 : edgeDefaultEntries p = edgeDefaultEntries q)
    (h3 : graphDefaultEntries p = graphDefaultEntries q) (c : Ctx) (s : Stmt) : Forall2 Like (nested c p s) (nested c q s) := by
  have hin : ∀ id, c.inner p id = c.inner q id := by intro id; unfold Ctx.inner Ctx.nodeNow Ctx.edgeNow; rw [h1, h2]
  have hl : ∀ id body, Like ⟨c, p, .sub id body⟩ ⟨c, q, .sub id body⟩ := fun id body =>
    ⟨fun _ => rfl, fun n => by simp only [Item.graphEntries, h3], rfl, rfl, rfl, rfl, by simp only [Item.used, h3]⟩
  have hloc : ∀ l, Forall2 Like (itemsLoc c p l) (itemsLoc c q l) := by
    intro l
    cases l with
    | node n => simp only [itemsLoc]; exact .nil
    | sub id body => simp only [itemsLoc, hin id]; exact .cons (hl _ _) (forall2_refl _)
  cases s with
  | edge src rhs as =>
    simp only [nested]
    refine forall2_append (hloc src) ?_
    induction rhs with
    | nil => simp only [itemsRHS]; exact .nil
    | cons r rest ih => cases r with | mk op d => simp only [itemsRHS]; exact forall2_append (hloc d) ih
  | sub id body => simp only [nested, hin id]; exact forall2_refl _
  | _ => exact .nil

theorem flat_like {γ : Type} {f : Item → List γ} (hf : ∀ i j, Like i j → f i = f j) {xs ys : List Item} (h : Forall2 Like xs ys) : xs.flatMap f = ys.flatMap f :=
  forall2_flatMap hf h

/-- What a statement gives a node, if another one comes before it. -/
theorem givesNode_after {s : Stmt} (h : concernsLater s = false) (c : Ctx) (pre : List Stmt) (s' : Stmt) (n : Str) :
    givesNode c pre s' n = (if (n ∈ mentions s ∧ n ∈ mentions s') ∧ n ∉ mentioned pre then c.nodeNow pre else []) ++ givesNode c (pre ++ [s]) s' n := by
  obtain ⟨h1, h2, h3⟩ := plain_defaults h pre
  unfold givesNode
  rw [items_eq, items_eq, List.flatMap_cons, List.flatMap_cons, flat_like (fun i j h => h.node n) (nested_like h1 h2 h3 c s'), ← List.append_assoc]
  congr 1
  have e1 : c.nodeNow (pre ++ [s]) = c.nodeNow pre := by unfold Ctx.nodeNow; rw [h1]
  have e2 : n ∈ mentioned (pre ++ [s]) ↔ n ∈ mentioned pre ∨ n ∈ mentions s := by rw [mentioned_append, List.mem_append]; simp [mentioned]
  cases s' with
  | node id as =>
    have hm : mentions (.node id as) = [Ast.nodeIDStr id] := rfl
    simp only [Item.nodeEntries, e1, hm, List.mem_singleton]
    by_cases h4 : Ast.nodeIDStr id = n
    · subst h4
      by_cases h5 : Ast.nodeIDStr id ∈ mentioned pre
      · simp [h5, e2]
      · by_cases h6 : Ast.nodeIDStr id ∈ mentions s
        · simp [h5, h6, e2]
        · simp [h5, h6, e2]
    · simp [h4, show ¬ n = Ast.nodeIDStr id from fun h => h4 h.symm]
  | edge src rhs as =>
    simp only [Item.nodeEntries, e1]
    by_cases h4 : n ∈ mentions (.edge src rhs as)
    · by_cases h5 : n ∈ mentioned pre
      · simp [h5, e2]
      · by_cases h6 : n ∈ mentions s
        · simp [h4, h5, h6, e2]
        · simp [h4, h5, h6, e2]
    · simp [h4]
  | _ => simp [Item.nodeEntries, mentions]

theorem givesGraph_after {s : Stmt} (h : concernsLater s = false) (c : Ctx) (pre : List Stmt) (s' : Stmt) (n : Str) :
    givesGraph c (pre ++ [s]) s' n = givesGraph c pre s' n := by
  obtain ⟨h1, h2, h3⟩ := plain_defaults h pre
  unfold givesGraph
  rw [items_eq, items_eq, List.flatMap_cons, List.flatMap_cons, flat_like (fun i j h => h.graph n) (nested_like h1 h2 h3 c s')]
  congr 1
  cases s' <;> simp only [Item.graphEntries, h3]

theorem edges_after {s : Stmt} (h : concernsLater s = false) (c : Ctx) (pre : List Stmt) (s' : Stmt) :
    (itemsStmt c (pre ++ [s]) s').flatMap Item.edges = (itemsStmt c pre s').flatMap Item.edges := by
  obtain ⟨h1, h2, h3⟩ := plain_defaults h pre
  rw [items_eq, items_eq, List.flatMap_cons, List.flatMap_cons, flat_like (fun i j h => h.edges) (nested_like h1 h2 h3 c s')]
  congr 1
  have e2 : c.edgeNow (pre ++ [s]) = c.edgeNow pre := by unfold Ctx.edgeNow; rw [h2]
  cases s' <;> simp only [Item.edges, e2]

/-- What a statement needs, if the nodes it mentions have been mentioned. -/
def needs (c : Ctx) (pre : List Stmt) (s : Stmt) : Prop := KeysReg (match s with
  | .node _ as => entries as
  | .edge _ rhs as => if rhs = [] then [] else c.edgeNow pre ++ entries as
  | s => Item.used ⟨c, pre, s⟩) ∧ ∀ i ∈ nested c pre s, KeysReg i.used

theorem used_iff (c : Ctx) (pre : List Stmt) (s : Stmt) : (∀ i ∈ itemsStmt c pre s, KeysReg i.used) ↔
    needs c pre s ∧ ((∃ n ∈ mentions s, n ∉ mentioned pre) → KeysReg (c.nodeNow pre)) := by
  rw [items_eq]
  simp only [List.mem_cons, forall_eq_or_imp, needs]
  cases s with
  | node id as =>
    simp only [Item.used, keysReg_append, mentions, List.mem_singleton, exists_eq_left]
    by_cases h : Ast.nodeIDStr id ∈ mentioned pre
    · simp [h, keysReg_nil]
    · simp only [h, if_false, not_false_iff, true_implies]
      exact ⟨fun ⟨⟨a, b⟩, c⟩ => ⟨⟨b, c⟩, a⟩, fun ⟨⟨b, c⟩, a⟩ => ⟨⟨a, b⟩, c⟩⟩
  | edge src rhs as =>
    have e : KeysReg (Item.used ⟨c, pre, .edge src rhs as⟩) ↔ ((∃ n ∈ mentions (.edge src rhs as), n ∉ mentioned pre) → KeysReg (c.nodeNow pre)) ∧
        KeysReg (if rhs = [] then [] else c.edgeNow pre ++ entries as) := by
      show KeysReg (_ ++ _) ↔ _
      rw [keysReg_append]
      exact and_congr (keysReg_ite _ _) Iff.rfl
    rw [e]
    exact ⟨fun ⟨⟨a, b⟩, c⟩ => ⟨⟨b, c⟩, a⟩, fun ⟨⟨b, c⟩, a⟩ => ⟨⟨a, b⟩, c⟩⟩
  | _ => simp [mentions]

theorem needs_after {s : Stmt} (h : concernsLater s = false) (c : Ctx) (pre : List Stmt) (s' : Stmt) : needs c (pre ++ [s]) s' ↔ needs c pre s' := by
  obtain ⟨h1, h2, h3⟩ := plain_defaults h pre
  have e2 : c.edgeNow (pre ++ [s]) = c.edgeNow pre := by unfold Ctx.edgeNow; rw [h2]
  unfold needs
  refine and_congr ?_ (same_of_like (nested_like h1 h2 h3 c s')).used
  cases s' <;> simp only [Item.used, e2, h3]

theorem last_mem {es : Entries} {k v : Str} (h : lastValue es k = some v) : (k, v) ∈ es := by
  rw [lastValue_eq] at h
  induction es with
  | nil => cases h
  | cons e es ih =>
    obtain ⟨k', v'⟩ := e
    rw [show ((k', v') :: es) = [(k', v')] ++ es from rfl, lastAssign_append] at h
    cases hl : lastAssign es k with
    | some w =>
      rw [hl] at h
      exact List.mem_cons_of_mem _ (ih (by rw [hl]; exact h))
    | none =>
      rw [hl, Option.none_or] at h
      simp only [lastAssign] at h
      by_cases hk : k' = k
      · subst hk
        simp at h
        subst h
        exact List.mem_cons_self ..
      · simp [hk] at h

theorem last_comm {xs ys : Entries} (h : NoClash xs ys) (k : Str) : lastValue (xs ++ ys) k = lastValue (ys ++ xs) k := by
  rw [lastValue_append, lastValue_append]
  cases hx : lastValue xs k with
  | none => cases lastValue ys k <;> rfl
  | some v =>
    cases hy : lastValue ys k with
    | none => rfl
    | some w => rw [h k v w (last_mem hx) (last_mem hy)]

theorem same_swap {c : Ctx} {pre : List Stmt} {s s' : Stmt} (h : IndependentStmts c pre s s') :
    Same (itemsStmt c pre s ++ itemsStmt c (pre ++ [s]) s') (itemsStmt c pre s' ++ itemsStmt c (pre ++ [s']) s) := by
  refine ⟨fun n k => ?_, fun n k => ?_, ?_, fun p n => ?_, fun p n => ?_, ?_⟩
  · rw [List.flatMap_append, List.flatMap_append]
    show lastValue (givesNode c pre s n ++ givesNode c (pre ++ [s]) s' n) k = lastValue (givesNode c pre s' n ++ givesNode c (pre ++ [s']) s n) k
    rw [givesNode_after h.plain' c pre s n, givesNode_after h.plain c pre s' n, List.append_assoc, List.append_assoc, lastValue_append, lastValue_append _ (_ ++ _),
      last_comm (h.nodes n) k]
    congr 2
    simp only [@And.comm (n ∈ mentions s')]
  · rw [List.flatMap_append, List.flatMap_append]
    show lastValue (givesGraph c pre s n ++ givesGraph c (pre ++ [s]) s' n) k = lastValue (givesGraph c pre s' n ++ givesGraph c (pre ++ [s']) s n) k
    rw [givesGraph_after h.plain, givesGraph_after h.plain']
    exact last_comm (h.graphs n) k
  · rw [List.flatMap_append, List.flatMap_append, edges_after h.plain, edges_after h.plain']
    exact List.perm_append_comm
  · have key : ∀ {s : Stmt}, concernsLater s = false → ∀ s', (∃ i ∈ itemsStmt c (pre ++ [s]) s', i.ctx.name = p ∧ n ∈ mentions i.stmt) ↔
        ∃ i ∈ itemsStmt c pre s', i.ctx.name = p ∧ n ∈ mentions i.stmt := by
      intro s hs s'
      obtain ⟨h1, h2, h3⟩ := plain_defaults hs pre
      have := (same_of_like (nested_like h1 h2 h3 c s')).ment p n
      simp only [items_eq, List.mem_cons, exists_eq_or_imp, this]
    rw [ex_append, ex_append, key h.plain, key h.plain']
    exact Or.comm
  · have key : ∀ {s : Stmt}, concernsLater s = false → ∀ s', (∃ i ∈ itemsStmt c (pre ++ [s]) s', i.ctx.name = p ∧ n ∈ i.sub) ↔
        ∃ i ∈ itemsStmt c pre s', i.ctx.name = p ∧ n ∈ i.sub := by
      intro s hs s'
      obtain ⟨h1, h2, h3⟩ := plain_defaults hs pre
      have := (same_of_like (nested_like h1 h2 h3 c s')).sub p n
      have hi : ∀ p q, Item.sub ⟨c, p, s'⟩ = Item.sub ⟨c, q, s'⟩ := fun _ _ => rfl
      simp only [items_eq, List.mem_cons, exists_eq_or_imp, this, hi (pre ++ [s]) pre]
    rw [ex_append, ex_append, key h.plain, key h.plain']
    exact Or.comm
  · have e : ∀ {s : Stmt}, concernsLater s = false → c.nodeNow (pre ++ [s]) = c.nodeNow pre := by
      intro s hs; unfold Ctx.nodeNow; rw [(plain_defaults hs pre).1]
    have e2 : ∀ (s : Stmt) n, n ∈ mentioned (pre ++ [s]) ↔ n ∈ mentioned pre ∨ n ∈ mentions s := by
      intro s n; rw [mentioned_append, List.mem_append]; simp [mentioned]
    rw [all_append, all_append, used_iff, used_iff, used_iff, used_iff, needs_after h.plain, needs_after h.plain', e h.plain, e h.plain']
    constructor
    · rintro ⟨⟨a1, a2⟩, b1, b2⟩
      refine ⟨⟨b1, fun ⟨n, hn, hn'⟩ => ?_⟩, a1, fun ⟨n, hn, hn'⟩ => ?_⟩
      · by_cases hs : n ∈ mentions s
        · exact a2 ⟨n, hs, hn'⟩
        · exact b2 ⟨n, hn, by rw [e2]; simp [hn', hs]⟩
      · rw [e2, not_or] at hn'
        exact a2 ⟨n, hn, hn'.1⟩
    · rintro ⟨⟨a1, a2⟩, b1, b2⟩
      refine ⟨⟨b1, fun ⟨n, hn, hn'⟩ => ?_⟩, a1, fun ⟨n, hn, hn'⟩ => ?_⟩
      · by_cases hs : n ∈ mentions s'
        · exact a2 ⟨n, hs, hn'⟩
        · exact b2 ⟨n, hn, by rw [e2]; simp [hn', hs]⟩
      · rw [e2, not_or] at hn'
        exact a2 ⟨n, hn, hn'.1⟩

theorem preSim_swap {s s' : Stmt} (h : concernsLater s = false) (h' : concernsLater s' = false) (pre : List Stmt) : PreSim (pre ++ [s] ++ [s']) (pre ++ [s'] ++ [s]) := by
  obtain ⟨a1, a2, a3⟩ := plain_defaults h pre
  obtain ⟨b1, b2, b3⟩ := plain_defaults h' pre
  obtain ⟨c1, c2, c3⟩ := plain_defaults h (pre ++ [s'])
  obtain ⟨d1, d2, d3⟩ := plain_defaults h' (pre ++ [s])
  refine ⟨by rw [d1, a1, c1, b1], by rw [d2, a2, c2, b2], by rw [d3, a3, c3, b3], fun n => ?_⟩
  simp only [mentioned_append, List.mem_append]
  constructor
  · rintro ((h | h) | h) <;> simp [h]
  · rintro ((h | h) | h) <;> simp [h]

theorem last_same {s s' : Stmt} (h1 : nodeDefaultEntries [s] = nodeDefaultEntries [s']) (h2 : edgeDefaultEntries [s] = edgeDefaultEntries [s'])
    (h3 : graphDefaultEntries [s] = graphDefaultEntries [s']) (h4 : mentions s = mentions s') (pre : List Stmt) : PreSim (pre ++ [s]) (pre ++ [s']) := by
  refine ⟨?_, ?_, ?_, fun n => ?_⟩
  · rw [nodeDefaultEntries_append, nodeDefaultEntries_append, h1]
  · rw [edgeDefaultEntries_append, edgeDefaultEntries_append, h2]
  · rw [graphDefaultEntries_append, graphDefaultEntries_append, h3]
  · simp [mentioned, h4]

theorem rhs_append (c : Ctx) (pre : List Stmt) (a b : List EdgeRH) : itemsRHS c pre (a ++ b) = itemsRHS c pre a ++ itemsRHS c pre b := by
  induction a with
  | nil => simp [itemsRHS]
  | cons r a ih => cases r with | mk op d => simp only [List.cons_append, itemsRHS, ih, List.append_assoc]

theorem dests_append (a b : List EdgeRH) : dests (a ++ b) = dests a ++ dests b := by
  induction a with
  | nil => rfl
  | cons r a ih => cases r with | mk op d => simp only [List.cons_append, dests, ih]

theorem edgesFrom_sub (attrs : Str → Option Str) (op : Bool) (id : Str) (body body' : List Stmt) (r2 : List EdgeRH) (r1 : List EdgeRH) : ∀ prev : Loc,
    edgesFrom attrs prev (r1 ++ .mk op (.sub id body) :: r2) = edgesFrom attrs prev (r1 ++ .mk op (.sub id body') :: r2) := by
  have h0 : edgesFrom attrs (.sub id body) r2 = edgesFrom attrs (.sub id body') r2 := by
    cases r2 with
    | nil => rfl
    | cons r r2 => cases r with | mk op' d => rfl
  induction r1 with
  | nil =>
    intro prev
    simp only [List.nil_append, edgesFrom, h0]
    rfl
  | cons r r1 ih => cases r with | mk op' d => intro prev; simp only [List.cons_append, edgesFrom, ih]

theorem same_loc {c : Ctx} {pre : List Stmt} {id : Str} {body body' : List Stmt} (ih : Same (itemsStmts (c.inner pre id) [] body) (itemsStmts (c.inner pre id) [] body')) :
    Same (itemsLoc c pre (.sub id body)) (itemsLoc c pre (.sub id body')) := by
  simp only [itemsLoc]
  exact (Like.same (i := ⟨c, pre, .sub id body⟩) (j := ⟨c, pre, .sub id body'⟩) ⟨fun _ => rfl, fun _ => rfl, rfl, rfl, rfl, rfl, rfl⟩).append ih

/-- One statement replaced by another that says the same. -/
theorem same_replace {c : Ctx} {pre post : List Stmt} {s s' : Stmt} (h : Same (itemsStmt c pre s) (itemsStmt c pre s')) (h' : PreSim (pre ++ [s]) (pre ++ [s'])) :
    Same (itemsStmts c [] (pre ++ s :: post)) (itemsStmts c [] (pre ++ s' :: post)) := by
  rw [items_append, items_append]
  refine (Same.refl _).append ?_
  simp only [itemsStmts, List.nil_append]
  exact h.append (same_of_like (PreSim.stmts c post h'))

theorem same_of_rearranged {c : Ctx} {ss ss' : List Stmt} (h : Rearranged c ss ss') : Same (itemsStmts c [] ss) (itemsStmts c [] ss') := by
  induction h with
  | refl c ss => exact .refl _
  | trans _ _ ih1 ih2 => exact ih1.trans ih2
  | @swap c s s' pre post hi =>
    rw [items_append, items_append]
    refine (Same.refl _).append ?_
    simp only [itemsStmts, List.nil_append]
    rw [← List.append_assoc, ← List.append_assoc]
    exact (same_swap hi).append (same_of_like (PreSim.stmts c post (preSim_swap hi.plain hi.plain' pre)))
  | @inside c id body body' pre post _ ih =>
    refine same_replace ?_ (last_same (s := .sub id body) (s' := .sub id body') rfl rfl rfl rfl pre)
    simp only [itemsStmt]
    exact (Like.same (i := ⟨c, pre, .sub id body⟩) (j := ⟨c, pre, .sub id body'⟩) ⟨fun _ => rfl, fun _ => rfl, rfl, rfl, rfl, rfl, rfl⟩).append ih
  | @insideSource c id body body' pre post rhs as _ ih =>
    refine same_replace ?_ (last_same (s := .edge (.sub id body) rhs as) (s' := .edge (.sub id body') rhs as) rfl rfl rfl rfl pre)
    simp only [itemsStmt]
    refine (Like.same (i := ⟨c, pre, .edge (.sub id body) rhs as⟩) (j := ⟨c, pre, .edge (.sub id body') rhs as⟩) ?_).append ((same_loc ih).append (.refl _))
    refine ⟨fun _ => rfl, fun _ => rfl, ?_, rfl, rfl, rfl, rfl⟩
    cases rhs with
    | nil => rfl
    | cons r rest => cases r with | mk op d => rfl
  | @insideTarget c id body body' pre post src r1 r2 op as _ ih =>
    have hm : mentions (.edge src (r1 ++ .mk op (.sub id body) :: r2) as) = mentions (.edge src (r1 ++ .mk op (.sub id body') :: r2) as) := by
      simp only [mentions, dests_append, dests, List.flatMap_cons, List.flatMap_append, locNode]
    refine same_replace ?_ (last_same (s := .edge src (r1 ++ .mk op (.sub id body) :: r2) as) (s' := .edge src (r1 ++ .mk op (.sub id body') :: r2) as) rfl rfl rfl hm pre)
    simp only [itemsStmt]
    refine (Like.same (i := ⟨c, pre, .edge src (r1 ++ .mk op (.sub id body) :: r2) as⟩) (j := ⟨c, pre, .edge src (r1 ++ .mk op (.sub id body') :: r2) as⟩) ?_).append
      ((Same.refl _).append ?_)
    · refine ⟨fun n => ?_, fun _ => rfl, edgesFrom_sub _ _ _ _ _ _ _ _, rfl, hm, rfl, ?_⟩
      · simp only [Item.nodeEntries, hm]
      · simp only [Item.used, hm]
        simp
    · rw [rhs_append, rhs_append]
      refine (Same.refl _).append ?_
      simp only [itemsRHS]
      exact (same_loc ih).append (.refl _)

theorem isNode_find {g : Graph} (h : Reachable g) (n : Str) : g.isNode n = (g.nodes.find n).isSome := by
  rw [← abs_isNode h]
  simp only [abs]
  cases g.nodes.find n <;> rfl

theorem aeq {t t' : Ast.Graph} {g g' : Graph} (hr : Reachable g) (hr' : Reachable g') (D : Describes t g) (D' : Describes t' g') (h1 : t.type_ = t'.type_)
    (h2 : t.strict = t'.strict) (h3 : t.id = t'.id) (hs : Same (items t) (items t')) : Order.AEq (abs g) (abs g') := by
  refine ⟨?_, ?_, ?_, ?_, ?_, ?_, ?_, ?_⟩
  · show g.name = g'.name
    rw [D.name, D'.name, h3]
  · show g.directed = g'.directed
    rw [D.directed, D'.directed, h1]
  · show g.strict = g'.strict
    rw [D.strict, D'.strict, h2]
  · funext k
    show mget g.attrs k = mget g'.attrs k
    rw [D.attrs, D'.attrs, ← h3, hs.graphVal]
  · funext n
    have hn : g.isNode n = g'.isNode n := by
      rw [Bool.eq_iff_iff, D.nodes, D'.nodes]
      constructor
      · rintro ⟨i, hi, hm⟩
        obtain ⟨j, hj, _, hm'⟩ := (hs.ment i.ctx.name n).1 ⟨i, hi, rfl, hm⟩
        exact ⟨j, hj, hm'⟩
      · rintro ⟨i, hi, hm⟩
        obtain ⟨j, hj, _, hm'⟩ := (hs.ment i.ctx.name n).2 ⟨i, hi, rfl, hm⟩
        exact ⟨j, hj, hm'⟩
    rw [isNode_find hr, isNode_find hr'] at hn
    simp only [abs]
    cases hf : g.nodes.find n with
    | none =>
      cases hf' : g'.nodes.find n with
      | none => rfl
      | some nd => rw [hf, hf'] at hn; cases hn
    | some nd =>
      cases hf' : g'.nodes.find n with
      | none => rw [hf, hf'] at hn; cases hn
      | some nd' =>
        simp only [Option.map_some, Option.some.injEq]
        funext k
        rw [D.nodeAttrs n nd hf, D'.nodeAttrs n nd' hf', hs.nodeVal]
  · funext n
    have hn : g.isSubGraph n = g'.isSubGraph n := by
      rw [Bool.eq_iff_iff, D.subs, D'.subs]
      constructor
      · rintro ⟨i, hi, hm⟩
        obtain ⟨j, hj, _, hm'⟩ := (hs.sub i.ctx.name n).1 ⟨i, hi, rfl, hm⟩
        exact ⟨j, hj, hm'⟩
      · rintro ⟨i, hi, hm⟩
        obtain ⟨j, hj, _, hm'⟩ := (hs.sub i.ctx.name n).2 ⟨i, hi, rfl, hm⟩
        exact ⟨j, hj, hm'⟩
    simp only [Graph.isSubGraph, mhas] at hn
    simp only [abs]
    cases hf : mget g.subGraphs n with
    | none =>
      cases hf' : mget g'.subGraphs n with
      | none => rfl
      | some nd => rw [hf, hf'] at hn; cases hn
    | some nd =>
      cases hf' : mget g'.subGraphs n with
      | none => rw [hf, hf'] at hn; cases hn
      | some nd' =>
        simp only [Option.map_some, Option.some.injEq]
        funext k
        rw [D.subAttrs n nd hf, D'.subAttrs n nd' hf', hs.graphVal, h3]
  · funext p c
    simp only [abs]
    rw [Bool.eq_iff_iff, D.children, D'.children]
    have key : ∀ (xs : List Item), (∃ i ∈ xs, i.ctx.name = p ∧ (c ∈ mentions i.stmt ∨ c ∈ i.sub)) ↔
        (∃ i ∈ xs, i.ctx.name = p ∧ c ∈ mentions i.stmt) ∨ ∃ i ∈ xs, i.ctx.name = p ∧ c ∈ i.sub := by
      intro xs
      constructor
      · rintro ⟨i, hi, hp, h | h⟩
        · exact .inl ⟨i, hi, hp, h⟩
        · exact .inr ⟨i, hi, hp, h⟩
      · rintro (⟨i, hi, hp, h⟩ | ⟨i, hi, hp, h⟩)
        · exact ⟨i, hi, hp, .inl h⟩
        · exact ⟨i, hi, hp, .inr h⟩
    rw [key, key, hs.ment, hs.sub]
  · show (g.edges.edges.map absEdge).Perm (g'.edges.edges.map absEdge)
    have e1 : g.edges.edges.map absEdge = (items t).flatMap Item.edges := D.edges
    have e2 : g'.edges.edges.map absEdge = (items t').flatMap Item.edges := D'.edges
    rw [e1, e2]
    exact hs.edges

end StmtOrder

/-- C84. Documents that differ only in the order of independent statements are both accepted or both rejected, and describe graphs with the same content. -/
theorem C84_same_content {t t' : Ast.Graph} (h1 : t.type_ = t'.type_) (h2 : t.strict = t'.strict) (h3 : t.id = t'.id)
    (hs : Rearranged ⟨t.id, [], []⟩ t.stmts t'.stmts) :
    ((∃ g, newAnalysedGraph t = .ok g) ↔ ∃ g', newAnalysedGraph t' = .ok g') ∧
    ∀ g g', newAnalysedGraph t = .ok g → newAnalysedGraph t' = .ok g' → SameContent g g' := by
  have hsame : StmtOrder.Same (items t) (items t') := by
    have := StmtOrder.same_of_rearranged hs
    unfold items
    rw [← h3]
    exact this
  refine ⟨by rw [C66_accepted, C66_accepted]; exact hsame.used, fun g g' hg hg' => ?_⟩
  obtain ⟨hr, _⟩ := analysed_effect hg
  obtain ⟨hr', _⟩ := analysed_effect hg'
  exact Order.sameContent hr.inv hr'.inv (StmtOrder.aeq hr hr' (C66_document hg) (C66_document hg') h1 h2 h3 hsame)

/-- C84. They are also written as the same text, whatever the two runs of `sort.Sort` do with equivalent edges, if no edge has an empty value. -/
theorem C84_same_text {t t' : Ast.Graph} {g g' : Graph} (h1 : t.type_ = t'.type_) (h2 : t.strict = t'.strict) (h3 : t.id = t'.id)
    (hs : Rearranged ⟨t.id, [], []⟩ t.stmts t'.stmts) (hg : newAnalysedGraph t = .ok g) (hg' : newAnalysedGraph t' = .ok g')
    (hne : ∀ e ∈ g.edges.edges, ∀ k, mget e.attrs k ≠ some [])
    {sortE sortE' : List Edge → List Edge} (hc : SortContract sortE) (hc' : SortContract sortE') (f : Nat) :
    graphString sortE f g = graphString sortE' f g' := by
  obtain ⟨hr, _⟩ := analysed_effect hg
  obtain ⟨hr', _⟩ := analysed_effect hg'
  exact (C15_string_canonical hr hr' ((C84_same_content h1 h2 h3 hs).2 g g' hg hg') hne hc hc' f).1

/-! A document in two orders. -/

namespace StmtOrder
def nid (s : Str) : Ast.NodeID := ⟨s, ⟨[], []⟩⟩

/-- `digraph G { node [color=red]; a -> b; a [label=x]; subgraph S { c; d [shape=box] } }`. -/
def docA : Ast.Graph := ⟨true, false, b!"G", [.nodeAttrs [[⟨b!"color", b!"red"⟩]],
  .edge (.node (nid (b!"a"))) [.mk true (.node (nid (b!"b")))] [],
  .node (nid (b!"a")) [[⟨b!"label", b!"x"⟩]],
  .sub (b!"S") [.node (nid (b!"c")) [], .node (nid (b!"d")) [[⟨b!"shape", b!"box"⟩]]]]⟩

/-- `digraph G { node [color=red]; subgraph S { d [shape=box]; c }; a [label=x]; a -> b }`. -/
def docB : Ast.Graph := ⟨true, false, b!"G", [.nodeAttrs [[⟨b!"color", b!"red"⟩]],
  .sub (b!"S") [.node (nid (b!"d")) [[⟨b!"shape", b!"box"⟩]], .node (nid (b!"c")) []],
  .node (nid (b!"a")) [[⟨b!"label", b!"x"⟩]],
  .edge (.node (nid (b!"a"))) [.mk true (.node (nid (b!"b")))] []]⟩

theorem docA_docB : Rearranged ⟨b!"G", [], []⟩ docA.stmts docB.stmts := by
  have ne : ¬ (b!"a" : Str) = b!"b" := by decide
  have ne1 : ¬ (b!"c" : Str) = b!"d" := by decide
  have s1 := Rearranged.inside (c := ⟨b!"G", [], []⟩) (id := b!"S") (docA.stmts.take 3) [] (.swap (s := .node (nid (b!"c")) []) (s' := .node (nid (b!"d")) [[⟨b!"shape", b!"box"⟩]]) [] [] (by
    refine ⟨rfl, rfl, fun n k v w h h' => ?_, fun n k v w h h' => ?_⟩
    · simp [givesNode, itemsStmt, Item.nodeEntries, nid, Ast.nodeIDStr] at h h'
      exact absurd (h.1.trans h'.1.symm) ne1
    · simp [givesGraph, itemsStmt, Item.graphEntries] at h))
  have s2 := Rearranged.swap (c := ⟨b!"G", [], []⟩) (s := .edge (.node (nid (b!"a"))) [.mk true (.node (nid (b!"b")))] [])
    (s' := .node (nid (b!"a")) [[⟨b!"label", b!"x"⟩]]) (docA.stmts.take 1) (docB.stmts.drop 1 |>.take 1) (by
    refine ⟨rfl, rfl, fun n k v w h h' => ?_, fun n k v w h h' => ?_⟩
    · simp [givesNode, itemsStmt, itemsLoc, itemsRHS, Item.nodeEntries, nid, Ast.nodeIDStr, mentions, mentioned, dests, locNode, docA] at h h'
      exact absurd h'.1.symm h.1.2
    · simp [givesGraph, itemsStmt, itemsLoc, itemsRHS, Item.graphEntries] at h)
  have s3 := Rearranged.swap (c := ⟨b!"G", [], []⟩) (s := .edge (.node (nid (b!"a"))) [.mk true (.node (nid (b!"b")))] [])
    (s' := .sub (b!"S") [.node (nid (b!"d")) [[⟨b!"shape", b!"box"⟩]], .node (nid (b!"c")) []])
    [.nodeAttrs [[⟨b!"color", b!"red"⟩]], .node (nid (b!"a")) [[⟨b!"label", b!"x"⟩]]] [] (by
    refine ⟨rfl, rfl, fun n k v w h h' => ?_, fun n k v w h h' => ?_⟩
    · simp [givesNode, itemsStmt, itemsStmts, itemsLoc, itemsRHS, Item.nodeEntries, nid, Ast.nodeIDStr, mentions, mentioned, dests, locNode] at h h'
      obtain ⟨⟨e | e, _⟩, _⟩ := h <;> subst e <;> simp at h'
    · simp [givesGraph, itemsStmt, itemsLoc, itemsRHS, Item.graphEntries] at h)
  have s4 := Rearranged.swap (c := ⟨b!"G", [], []⟩) (s := .node (nid (b!"a")) [[⟨b!"label", b!"x"⟩]])
    (s' := .sub (b!"S") [.node (nid (b!"d")) [[⟨b!"shape", b!"box"⟩]], .node (nid (b!"c")) []])
    [.nodeAttrs [[⟨b!"color", b!"red"⟩]]] [.edge (.node (nid (b!"a"))) [.mk true (.node (nid (b!"b")))] []] (by
    refine ⟨rfl, rfl, fun n k v w h h' => ?_, fun n k v w h h' => ?_⟩
    · simp [givesNode, itemsStmt, itemsStmts, itemsLoc, itemsRHS, Item.nodeEntries, nid, Ast.nodeIDStr, mentions, mentioned, dests, locNode] at h h'
      obtain ⟨e, _⟩ := h
      subst e
      simp at h'
    · simp [givesGraph, itemsStmt, itemsLoc, itemsRHS, Item.graphEntries] at h)
  exact ((s1.trans s2).trans s3).trans s4

end StmtOrder

/-- Both are accepted, the graphs that are built differ (the order of their nodes), and the hypotheses of C84 hold. -/
theorem example_stmt_order : Rearranged ⟨b!"G", [], []⟩ StmtOrder.docA.stmts StmtOrder.docB.stmts ∧
    ∃ g g', newAnalysedGraph StmtOrder.docA = .ok g ∧ newAnalysedGraph StmtOrder.docB = .ok g' ∧ g ≠ g' ∧ SameContent g g' ∧
      (∀ e ∈ g.edges.edges, ∀ k, mget e.attrs k ≠ some []) := by
  refine ⟨StmtOrder.docA_docB, ?_⟩
  have h : (match newAnalysedGraph StmtOrder.docA, newAnalysedGraph StmtOrder.docB with
      | .ok g, .ok g' => decide (g ≠ g') && decide (∀ e ∈ g.edges.edges, e.attrs = [])
      | _, _ => false) = true := by decide +kernel
  cases hg : newAnalysedGraph StmtOrder.docA with
  | error m => rw [hg] at h; cases h
  | ok g =>
    cases hg' : newAnalysedGraph StmtOrder.docB with
    | error m => rw [hg, hg'] at h; cases h
    | ok g' =>
      rw [hg, hg'] at h
      simp only [Bool.and_eq_true, decide_eq_true_eq] at h
      exact ⟨g, g', rfl, rfl, h.1, (C84_same_content (t := StmtOrder.docA) (t' := StmtOrder.docB) rfl rfl rfl StmtOrder.docA_docB).2 g g' hg hg', fun e he k => by rw [h.2 e he]; exact fun h => nomatch h⟩

/-- C84. The order of statements that are not independent can matter: `node [color=red]; a` and `a; node [color=red]`, and `a [label=x]; a [label=y]` and
`a [label=y]; a [label=x]`. -/
theorem C84_order_matters : ∃ g g' k k' : Graph,
    newAnalysedGraph ⟨true, false, b!"G", [.nodeAttrs [[⟨b!"color", b!"red"⟩]], .node (StmtOrder.nid (b!"a")) []]⟩ = .ok g ∧
    newAnalysedGraph ⟨true, false, b!"G", [.node (StmtOrder.nid (b!"a")) [], .nodeAttrs [[⟨b!"color", b!"red"⟩]]]⟩ = .ok g' ∧
    newAnalysedGraph ⟨true, false, b!"G", [.node (StmtOrder.nid (b!"a")) [[⟨b!"label", b!"x"⟩]], .node (StmtOrder.nid (b!"a")) [[⟨b!"label", b!"y"⟩]]]⟩ = .ok k ∧
    newAnalysedGraph ⟨true, false, b!"G", [.node (StmtOrder.nid (b!"a")) [[⟨b!"label", b!"y"⟩]], .node (StmtOrder.nid (b!"a")) [[⟨b!"label", b!"x"⟩]]]⟩ = .ok k' ∧
    ¬ SameContent g g' ∧ ¬ SameContent k k' := by
  have ok : ∀ r : Except Str Graph, (match r with | .ok _ => true | .error _ => false) = true → ∃ g, r = .ok g := by
    intro r h
    cases r with
    | ok g => exact ⟨g, rfl⟩
    | error m => cases h
  obtain ⟨g, hg⟩ := ok (newAnalysedGraph ⟨true, false, b!"G", [.nodeAttrs [[⟨b!"color", b!"red"⟩]], .node (StmtOrder.nid (b!"a")) []]⟩) (by decide +kernel)
  obtain ⟨g', hg'⟩ := ok (newAnalysedGraph ⟨true, false, b!"G", [.node (StmtOrder.nid (b!"a")) [], .nodeAttrs [[⟨b!"color", b!"red"⟩]]]⟩) (by decide +kernel)
  obtain ⟨k, hk⟩ := ok (newAnalysedGraph ⟨true, false, b!"G", [.node (StmtOrder.nid (b!"a")) [[⟨b!"label", b!"x"⟩]], .node (StmtOrder.nid (b!"a")) [[⟨b!"label", b!"y"⟩]]]⟩) (by decide +kernel)
  obtain ⟨k', hk'⟩ := ok (newAnalysedGraph ⟨true, false, b!"G", [.node (StmtOrder.nid (b!"a")) [[⟨b!"label", b!"y"⟩]], .node (StmtOrder.nid (b!"a")) [[⟨b!"label", b!"x"⟩]]]⟩) (by decide +kernel)
  have key : ∀ {t : Ast.Graph} {g : Graph}, newAnalysedGraph t = .ok g → (∃ i ∈ items t, (b!"a" : Str) ∈ mentions i.stmt) → ∀ k,
      ((g.nodes.find (b!"a")).map fun nd => mget nd.attrs k) = some (lastValue ((items t).flatMap (Item.nodeEntries (b!"a"))) k) := by
    intro t g h hm k
    have D := C66_document h
    obtain ⟨hr, _⟩ := analysed_effect h
    have hn := (D.nodes (b!"a")).2 hm
    rw [StmtOrder.isNode_find hr] at hn
    cases hf : g.nodes.find (b!"a") with
    | none => rw [hf] at hn; cases hn
    | some nd => rw [Option.map_some, D.nodeAttrs _ nd hf]
  have same : ∀ {g g' : Graph}, SameContent g g' → ∀ k, ((g.nodes.find (b!"a")).map fun nd => mget nd.attrs k) = (g'.nodes.find (b!"a")).map fun nd => mget nd.attrs k := by
    intro g g' h k
    have := congrArg (Option.map fun m => mget m k) (h.nodes (b!"a"))
    simpa [Option.map_map, Function.comp_def] using this
  refine ⟨g, g', k, k', hg, hg', hk, hk', fun h => ?_, fun h => ?_⟩
  · have := same h (b!"color")
    rw [key hg (by decide +kernel), key hg' (by decide +kernel)] at this
    revert this
    decide +kernel
  · have := same h (b!"label")
    rw [key hk (by decide +kernel), key hk' (by decide +kernel)] at this
    revert this
    decide +kernel

end Gographviz.Props
