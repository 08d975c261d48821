import Verif.Props.WriteProps
import Verif.Spec.Independence
/-!
Property C82: the order of independent calls is invisible.
-/
namespace Gographviz.Props

open Gographviz Spec

namespace Order

/-- The same graph, with the edges in any order. -/
structure AEq (a b : AGraph) : Prop where
  name : a.name = b.name
  directed : a.directed = b.directed
  strict : a.strict = b.strict
  attrs : a.attrs = b.attrs
  node : a.node = b.node
  sub : a.sub = b.sub
  contains : a.contains = b.contains
  edges : a.edges.Perm b.edges

theorem AEq.refl (a : AGraph) : AEq a a := ⟨rfl, rfl, rfl, rfl, rfl, rfl, rfl, .refl _⟩
theorem AEq.trans {a b c : AGraph} (h : AEq a b) (h' : AEq b c) : AEq a c :=
  ⟨h.name.trans h'.name, h.directed.trans h'.directed, h.strict.trans h'.strict, h.attrs.trans h'.attrs, h.node.trans h'.node, h.sub.trans h'.sub,
    h.contains.trans h'.contains, h.edges.trans h'.edges⟩

/-! ### a call on the same graph -/

theorem setAttr_congr {a b : AGraph} (h : AEq a b) (t k v : Str) : AEq (a.setAttr t k v) (b.setAttr t k v) := by
  obtain ⟨n, d, s, at_, nd, es, sb, ct⟩ := a
  obtain ⟨n', d', s', at_', nd', es', sb', ct'⟩ := b
  obtain ⟨h1, h2, h3, h4, h5, h6, h7, h8⟩ := h
  simp only at h1 h2 h3 h4 h5 h6 h7 h8
  subst h1 h2 h3 h4 h5 h6 h7
  unfold AGraph.setAttr
  simp only
  split
  · exact ⟨rfl, rfl, rfl, rfl, rfl, rfl, rfl, h8⟩
  · cases sb t with
    | none => exact ⟨rfl, rfl, rfl, rfl, rfl, rfl, rfl, h8⟩
    | some as => exact ⟨rfl, rfl, rfl, rfl, rfl, rfl, rfl, h8⟩

theorem setAttrs_congr {t : Str} (as : List (Str × Str)) : ∀ {a b : AGraph}, AEq a b → AEq (a.setAttrs t as).1 (b.setAttrs t as).1 ∧ (a.setAttrs t as).2 = (b.setAttrs t as).2 := by
  induction as with
  | nil => intro a b h; exact ⟨h, rfl⟩
  | cons e as ih =>
    intro a b h
    obtain ⟨k, v⟩ := e
    simp only [AGraph.setAttrs]
    split
    · exact ih (setAttr_congr h t k v)
    · exact ⟨h, rfl⟩

theorem removeNode_congr {a b : AGraph} (h : AEq a b) (p n : Str) : AEq (a.removeNode p n) (b.removeNode p n) := by
  obtain ⟨h1, h2, h3, h4, h5, h6, h7, h8⟩ := h
  exact ⟨h1, h2, h3, h4, by simp only [AGraph.removeNode, h5], h6, by simp only [AGraph.removeNode, h7], h8.filter _⟩

theorem removeNodes_congr {p : Str} (ns : List Str) : ∀ {a b : AGraph}, AEq a b → AEq (a.removeNodes p ns).1 (b.removeNodes p ns).1 ∧ (a.removeNodes p ns).2 = (b.removeNodes p ns).2 := by
  induction ns with
  | nil => intro a b h; exact ⟨h, rfl⟩
  | cons n ns ih =>
    intro a b h
    simp only [AGraph.removeNodes, h.node]
    cases b.node n with
    | none => exact ⟨h, rfl⟩
    | some _ => exact ih (removeNode_congr h p n)

theorem step_congr {a b : AGraph} (h : AEq a b) (op : Op) : AEq (a.step op).1 (b.step op).1 ∧ (a.step op).2 = (b.step op).2 := by
  cases op with
  | setStrict c => exact ⟨⟨h.name, h.directed, rfl, h.attrs, h.node, h.sub, h.contains, h.edges⟩, rfl⟩
  | setDir c => exact ⟨⟨h.name, rfl, h.strict, h.attrs, h.node, h.sub, h.contains, h.edges⟩, rfl⟩
  | setName c => exact ⟨⟨rfl, h.directed, h.strict, h.attrs, h.node, h.sub, h.contains, h.edges⟩, rfl⟩
  | addPortEdge s sp d dp dir as =>
    simp only [AGraph.step]
    cases firstBad as with
    | some e => exact ⟨h, rfl⟩
    | none => exact ⟨⟨h.name, h.directed, h.strict, h.attrs, h.node, h.sub, h.contains, h.edges.append_right _⟩, rfl⟩
  | addEdge s d dir as =>
    simp only [AGraph.step]
    cases firstBad as with
    | some e => exact ⟨h, rfl⟩
    | none => exact ⟨⟨h.name, h.directed, h.strict, h.attrs, h.node, h.sub, h.contains, h.edges.append_right _⟩, rfl⟩
  | addNode p n as =>
    simp only [AGraph.step]
    cases firstBad as with
    | some e => exact ⟨h, rfl⟩
    | none => exact ⟨⟨h.name, h.directed, h.strict, h.attrs, by simp only [h.node], h.sub, by simp only [h.contains], h.edges⟩, rfl⟩
  | addAttr t k v =>
    simp only [AGraph.step, h.name, h.sub]
    split
    · split
      · exact ⟨setAttr_congr h t k v, rfl⟩
      · exact ⟨h, rfl⟩
    · exact ⟨h, rfl⟩
  | addSubGraph p n as =>
    exact setAttrs_congr as ⟨h.name, h.directed, h.strict, h.attrs, h.node, by simp only [h.sub], by simp only [h.contains], h.edges⟩
  | removeNode p n =>
    simp only [AGraph.step, h.node]
    cases b.node n with
    | none => exact ⟨h, rfl⟩
    | some _ => exact ⟨removeNode_congr h p n, rfl⟩
  | removeSubGraph p n o =>
    have hr := removeNodes_congr (p := p) o h
    simp only [AGraph.step]
    cases ha : a.removeNodes p o with
    | mk a' e =>
      cases hb : b.removeNodes p o with
      | mk b' e' =>
        rw [ha, hb] at hr
        obtain ⟨hr, he⟩ := hr
        simp only at hr he
        subst he
        cases e with
        | some e => exact ⟨hr, rfl⟩
        | none =>
          exact ⟨⟨hr.name, hr.directed, hr.strict, hr.attrs, hr.node, by simp only [hr.sub], by simp only [hr.contains], hr.edges.filter _⟩, rfl⟩

/-! ### what a call that removes no subgraph does, field by field -/

/-- The entries up to the first one with an unregistered name. -/
def good : List (Str × Str) → List (Str × Str)
  | [] => []
  | e :: es => if Registered e.1 then e :: good es else []

/-- Attributes with entries put one after the other. -/
def puts (old : AAttrs) (kvs : List (Str × Str)) : AAttrs := kvs.foldl (fun f e => upd f e.1 (some e.2)) old

/-- The error of `setAttrs`. -/
def bad : List (Str × Str) → Option Err
  | [] => none
  | e :: es => if Registered e.1 then bad es else some (.invalidAttr e.1)

theorem setAttrs_eq (t : Str) (as : List (Str × Str)) : ∀ a : AGraph, (a.sub t).isSome = true → a.setAttrs t as =
    (if a.name = t then { a with attrs := puts a.attrs (good as) } else { a with sub := upd a.sub t (some (puts ((a.sub t).getD fun _ => none) (good as))) }, bad as) := by
  induction as with
  | nil =>
    intro a h
    simp only [AGraph.setAttrs, good, bad, puts, List.foldl_nil]
    split
    · rfl
    · congr 1
      obtain ⟨n, d, s, at_, nd, es, sb, ct⟩ := a
      congr 1
      funext x
      unfold upd
      split
      · rename_i e
        subst e
        simp only at h ⊢
        cases hx : sb x with
        | none => rw [hx] at h; cases h
        | some f => rfl
      · rfl
  | cons e as ih =>
    intro a h
    obtain ⟨k, v⟩ := e
    by_cases hk : Registered k
    · have e1 : a.setAttrs t ((k, v) :: as) = (a.setAttr t k v).setAttrs t as := by simp only [AGraph.setAttrs, hk, if_true]
      rw [e1]
      by_cases hn : a.name = t
      · have e2 : a.setAttr t k v = { a with attrs := upd a.attrs k (some v) } := by unfold AGraph.setAttr; rw [if_pos hn]
        rw [e2, ih { a with attrs := upd a.attrs k (some v) } h]
        simp only [hn, if_true, good, bad, hk, puts, List.foldl_cons]
      · cases hs : a.sub t with
        | none => rw [hs] at h; cases h
        | some f =>
          have e2 : a.setAttr t k v = { a with sub := upd a.sub t (some (upd f k (some v))) } := by unfold AGraph.setAttr; rw [if_neg hn, hs]
          rw [e2, ih _ (by simp [upd])]
          simp only [hn, if_false, good, bad, hk, if_true, puts, List.foldl_cons]
          congr 1
          congr 1
          funext x
          unfold upd
          split <;> simp_all
    · simp only [AGraph.setAttrs, hk, if_false, good, bad, puts, List.foldl_nil]
      congr 1
      split
      · rfl
      · obtain ⟨n, d, s, at_, nd, es, sb, ct⟩ := a
        congr 1
        funext x
        unfold upd
        split
        · rename_i e
          subst e
          simp only at h ⊢
          cases hx : sb x with
          | none => rw [hx] at h; cases h
          | some f => rfl
        · rfl

/-- `AddSubGraph`, field by field. -/
theorem step_sub (a : AGraph) (p n : Str) (as : List (Str × Str)) : a.step (.addSubGraph p n as) =
    ({ a with
        contains := fun p' c' => (p' = p && c' = n) || a.contains p' c'
        attrs := if a.name = n then puts a.attrs (good as) else a.attrs
        sub := upd a.sub n (some (if a.name = n then (a.sub n).getD (fun _ => none) else puts ((a.sub n).getD fun _ => none) (good as))) }, bad as) := by
  simp only [AGraph.step]
  rw [setAttrs_eq _ _ _ (by simp [upd])]
  simp only
  by_cases hn : a.name = n
  · simp only [hn, if_true]
  · simp only [hn, if_false]
    congr 2
    funext x
    unfold upd
    split <;> simp

/-- `AddAttr`, field by field. -/
theorem step_attr (a : AGraph) (t k v : Str) : a.step (.addAttr t k v) =
    if a.name = t ∨ (a.sub t).isSome then
      if Registered k then
        ({ a with
            attrs := if a.name = t then upd a.attrs k (some v) else a.attrs
            sub := if a.name = t then a.sub else upd a.sub t (some (upd ((a.sub t).getD fun _ => none) k (some v))) }, none)
      else (a, some (.invalidAttr k))
    else (a, some (.noSuchGraph t)) := by
  simp only [AGraph.step]
  by_cases h : a.name = t ∨ (a.sub t).isSome = true
  · rw [if_pos h, if_pos h]
    by_cases hk : Registered k
    · rw [if_pos hk, if_pos hk]
      unfold AGraph.setAttr
      by_cases hn : a.name = t
      · simp only [hn, if_true]
      · rcases h with h | h
        · exact absurd h hn
        · cases hs : a.sub t with
          | none => rw [hs] at h; cases h
          | some f => simp only [hn, if_false]; rfl
    · rw [if_neg hk, if_neg hk]
  · rw [if_neg h, if_neg h]

theorem entry_mem {as : List (Str × Str)} {k v : Str} (h : entry as k = some v) : (k, v) ∈ as := by
  unfold entry at h
  cases hf : as.find? (fun e => e.1 == k) with
  | none => rw [hf] at h; cases h
  | some e =>
    rw [hf] at h
    have h1 := List.mem_of_find?_eq_some hf
    have h2 := List.find?_some hf
    simp at h2 h
    obtain ⟨k', v'⟩ := e
    simp only at h h2
    subst h h2
    exact h1

theorem merge_comm {as bs : List (Str × Str)} (h : NoClash as bs) (o : AAttrs) : merge (merge o as) bs = merge (merge o bs) as := by
  funext k
  unfold merge
  cases ha : entry as k with
  | none => cases hb : entry bs k <;> rfl
  | some v =>
    cases hb : entry bs k with
    | none => rfl
    | some w => rw [h k v w (entry_mem ha) (entry_mem hb)]

theorem puts_cases (as : List (Str × Str)) : ∀ (o : AAttrs) (k : Str), (puts o as k = o k ∧ ∀ v, (k, v) ∉ as) ∨ ∃ v, (k, v) ∈ as ∧ ∀ o' : AAttrs, puts o' as k = some v := by
  induction as with
  | nil => intro o k; exact .inl ⟨rfl, fun _ h => by cases h⟩
  | cons e as ih =>
    intro o k
    obtain ⟨k', v'⟩ := e
    have e1 : ∀ o, puts o ((k', v') :: as) = puts (upd o k' (some v')) as := fun _ => rfl
    rcases ih (upd o k' (some v')) k with ⟨h1, h2⟩ | ⟨v, h1, h2⟩
    · by_cases hk : k = k'
      · subst hk
        right
        refine ⟨v', List.mem_cons_self .., fun o' => ?_⟩
        rw [e1]
        rcases ih (upd o' k (some v')) k with ⟨h3, _⟩ | ⟨v, h3, _⟩
        · rw [h3]; simp [upd]
        · exact absurd h3 (h2 v)
      · left
        refine ⟨?_, fun v hv => ?_⟩
        · rw [e1, h1]; simp [upd, hk]
        · rcases List.mem_cons.1 hv with h | h
          · cases h; exact hk rfl
          · exact h2 v h
    · exact .inr ⟨v, List.mem_cons_of_mem _ h1, fun o' => h2 _⟩

theorem puts_comm {as bs : List (Str × Str)} (h : NoClash as bs) (o : AAttrs) : puts (puts o as) bs = puts (puts o bs) as := by
  funext k
  rcases puts_cases as o k with ⟨h1, h2⟩ | ⟨v, h1, h2⟩
  · have h1' : ∀ o' : AAttrs, puts o' as k = o' k := by
      intro o'
      rcases puts_cases as o' k with ⟨h, _⟩ | ⟨v, h, _⟩
      · exact h
      · exact absurd h (h2 v)
    rw [h1']
    rcases puts_cases bs o k with ⟨h3, h4⟩ | ⟨w, h3, h4⟩
    · rcases puts_cases bs (puts o as) k with ⟨h5, _⟩ | ⟨w, h5, _⟩
      · rw [h5, h3, h1]
      · exact absurd h5 (h4 w)
    · rw [h4, h4]
  · rw [h2]
    rcases puts_cases bs (puts o as) k with ⟨h3, h4⟩ | ⟨w, h3, h4⟩
    · rw [h3, h2]
    · rw [h4, h k v w h1 h3]

theorem good_sub {as : List (Str × Str)} {e : Str × Str} (h : e ∈ good as) : e ∈ as := by
  induction as with
  | nil => cases h
  | cons a as ih =>
    unfold good at h
    split at h
    · rcases List.mem_cons.1 h with h | h
      · exact List.mem_cons.2 (.inl h)
      · exact List.mem_cons_of_mem _ (ih h)
    · cases h

theorem good_noClash {as bs : List (Str × Str)} (h : NoClash as bs) : NoClash (good as) (good bs) :=
  fun k v w h1 h2 => h k v w (good_sub h1) (good_sub h2)

theorem step_rm_none {a : AGraph} {n : Str} (h : a.node n = none) (p : Str) : a.step (.removeNode p n) = (a, some (.nodeNotFound n)) := by
  simp only [AGraph.step, h]

theorem step_rm_some {a : AGraph} {n : Str} {f : AAttrs} (h : a.node n = some f) (p : Str) : a.step (.removeNode p n) = (a.removeNode p n, none) := by
  simp only [AGraph.step, h]

/-- Two calls commute: the graphs are the same, and each call has the same result. -/
def Comm (a : AGraph) (x y : Op) : Prop :=
  AEq ((a.step x).1.step y).1 ((a.step y).1.step x).1 ∧ (a.step x).2 = ((a.step y).1.step x).2 ∧ ((a.step x).1.step y).2 = (a.step y).2

theorem AEq.symm {a b : AGraph} (h : AEq a b) : AEq b a :=
  ⟨h.name.symm, h.directed.symm, h.strict.symm, h.attrs.symm, h.node.symm, h.sub.symm, h.contains.symm, h.edges.symm⟩

theorem Comm.symm {a : AGraph} {x y : Op} (h : Comm a x y) : Comm a y x := ⟨h.1.symm, h.2.2.symm, h.2.1.symm⟩

theorem or_comm3 (a b c : Bool) : (a || (b || c)) = (b || (a || c)) := by cases a <;> cases b <;> rfl

/-- A flag and anything else. -/
theorem comm_strict (a : AGraph) (b : Bool) (y : Op) (h : OrderIrrelevant y (.setStrict b)) : Comm a (.setStrict b) y := by
  cases y with
  | setStrict c => cases h; exact ⟨.refl _, by trivial, by trivial⟩
  | setDir | setName => exact ⟨.refl _, by trivial, by trivial⟩
  | addPortEdge s sp d dp dir as =>
    unfold Comm; simp only [AGraph.step]
    cases firstBad as <;> exact ⟨.refl _, by trivial, by trivial⟩
  | addEdge s d dir as =>
    unfold Comm; simp only [AGraph.step]
    cases firstBad as <;> exact ⟨.refl _, by trivial, by trivial⟩
  | addNode p n as =>
    unfold Comm; simp only [AGraph.step]
    cases firstBad as <;> exact ⟨.refl _, by trivial, by trivial⟩
  | addAttr t k v =>
    unfold Comm; simp only [step_attr]; simp only [AGraph.step]
    by_cases h1 : a.name = t ∨ (a.sub t).isSome = true
    · by_cases h2 : Registered k
      · simp only [h1, h2, if_true]; exact ⟨.refl _, by trivial, by trivial⟩
      · simp only [h1, h2, if_true, if_false]; exact ⟨.refl _, by trivial, by trivial⟩
    · simp only [h1, if_false]; exact ⟨.refl _, by trivial, by trivial⟩
  | addSubGraph p n as =>
    unfold Comm; simp only [step_sub]; simp only [AGraph.step]; exact ⟨.refl _, by trivial, by trivial⟩
  | removeNode p n =>
    unfold Comm; simp only [AGraph.step]
    cases a.node n <;> exact ⟨.refl _, by trivial, by trivial⟩
  | removeSubGraph => cases h

theorem comm_dir (a : AGraph) (b : Bool) (y : Op) (h : OrderIrrelevant y (.setDir b)) : Comm a (.setDir b) y := by
  cases y with
  | setDir c => cases h; exact ⟨.refl _, by trivial, by trivial⟩
  | setStrict | setName => exact ⟨.refl _, by trivial, by trivial⟩
  | addPortEdge s sp d dp dir as =>
    unfold Comm; simp only [AGraph.step]
    cases firstBad as <;> exact ⟨.refl _, by trivial, by trivial⟩
  | addEdge s d dir as =>
    unfold Comm; simp only [AGraph.step]
    cases firstBad as <;> exact ⟨.refl _, by trivial, by trivial⟩
  | addNode p n as =>
    unfold Comm; simp only [AGraph.step]
    cases firstBad as <;> exact ⟨.refl _, by trivial, by trivial⟩
  | addAttr t k v =>
    unfold Comm; simp only [step_attr]; simp only [AGraph.step]
    by_cases h1 : a.name = t ∨ (a.sub t).isSome = true
    · by_cases h2 : Registered k
      · simp only [h1, h2, if_true]; exact ⟨.refl _, by trivial, by trivial⟩
      · simp only [h1, h2, if_true, if_false]; exact ⟨.refl _, by trivial, by trivial⟩
    · simp only [h1, if_false]; exact ⟨.refl _, by trivial, by trivial⟩
  | addSubGraph p n as =>
    unfold Comm; simp only [step_sub]; simp only [AGraph.step]; exact ⟨.refl _, by trivial, by trivial⟩
  | removeNode p n =>
    unfold Comm; simp only [AGraph.step]
    cases a.node n <;> exact ⟨.refl _, by trivial, by trivial⟩
  | removeSubGraph => cases h

theorem comm_name (a : AGraph) (b : Str) (y : Op) (h' : OrderIrrelevant (.setName b) y) (h : OrderIrrelevant y (.setName b)) : Comm a (.setName b) y := by
  cases y with
  | setName c => cases h; exact ⟨.refl _, by trivial, by trivial⟩
  | setStrict | setDir => exact ⟨.refl _, by trivial, by trivial⟩
  | addPortEdge s sp d dp dir as =>
    unfold Comm; simp only [AGraph.step]
    cases firstBad as <;> exact ⟨.refl _, by trivial, by trivial⟩
  | addEdge s d dir as =>
    unfold Comm; simp only [AGraph.step]
    cases firstBad as <;> exact ⟨.refl _, by trivial, by trivial⟩
  | addNode p n as =>
    unfold Comm; simp only [AGraph.step]
    cases firstBad as <;> exact ⟨.refl _, by trivial, by trivial⟩
  | addAttr t k v => cases h'
  | addSubGraph p n as =>
    cases h'
    unfold Comm; simp only [AGraph.step, AGraph.setAttrs]; exact ⟨.refl _, by trivial, by trivial⟩
  | removeNode p n =>
    unfold Comm; simp only [AGraph.step]
    cases a.node n <;> exact ⟨.refl _, by trivial, by trivial⟩
  | removeSubGraph => cases h

theorem comm_edge (a : AGraph) (s sp d dp : Str) (dir : Bool) (as : List (Str × Str)) (y : Op) (h : OrderIrrelevant y (.addPortEdge s sp d dp dir as)) :
    Comm a (.addPortEdge s sp d dp dir as) y := by
  cases hf : firstBad as with
  | some e =>
    have e1 : ∀ b : AGraph, b.step (.addPortEdge s sp d dp dir as) = (b, some e) := fun b => by simp only [AGraph.step, hf]
    unfold Comm; simp only [e1]; exact ⟨.refl _, by trivial, by trivial⟩
  | none =>
    have e1 : ∀ b : AGraph, b.step (.addPortEdge s sp d dp dir as) = ({ b with edges := b.edges ++ [⟨s, sp, d, dp, dir, entry as⟩] }, none) :=
      fun b => by simp only [AGraph.step, hf]
    cases y with
    | setStrict c => exact (comm_strict a c _ (by trivial)).symm
    | setDir c => exact (comm_dir a c _ (by trivial)).symm
    | setName c => exact (comm_name a c _ (by trivial) (by trivial)).symm
    | addPortEdge s' sp' d' dp' dir' bs =>
      unfold Comm; simp only [e1]; simp only [AGraph.step]
      cases firstBad bs with
      | some e => exact ⟨.refl _, by trivial, by trivial⟩
      | none =>
        refine ⟨⟨rfl, rfl, rfl, rfl, rfl, rfl, rfl, ?_⟩, by trivial, by trivial⟩
        simp only [List.append_assoc]
        exact .append_left _ (.swap ..)
    | addEdge s' d' dir' bs =>
      unfold Comm; simp only [e1]; simp only [AGraph.step]
      cases firstBad bs with
      | some e => exact ⟨.refl _, by trivial, by trivial⟩
      | none =>
        refine ⟨⟨rfl, rfl, rfl, rfl, rfl, rfl, rfl, ?_⟩, by trivial, by trivial⟩
        simp only [List.append_assoc]
        exact .append_left _ (.swap ..)
    | addNode p n bs =>
      unfold Comm; simp only [e1]; simp only [AGraph.step]
      cases firstBad bs <;> exact ⟨.refl _, by trivial, by trivial⟩
    | addAttr t k v =>
      unfold Comm; simp only [e1, step_attr]
      by_cases h1 : a.name = t ∨ (a.sub t).isSome = true
      · by_cases h2 : Registered k
        · simp only [h1, h2, if_true]; exact ⟨.refl _, by trivial, by trivial⟩
        · simp only [h1, h2, if_true, if_false]; exact ⟨.refl _, by trivial, by trivial⟩
      · simp only [h1, if_false]; exact ⟨.refl _, by trivial, by trivial⟩
    | addSubGraph p n bs =>
      unfold Comm; simp only [e1, step_sub]; exact ⟨.refl _, by trivial, by trivial⟩
    | removeNode p n =>
      obtain ⟨h1, h2⟩ := h
      unfold Comm; simp only [e1]; simp only [AGraph.step]
      cases a.node n with
      | none => exact ⟨.refl _, by trivial, by trivial⟩
      | some _ =>
        refine ⟨⟨rfl, rfl, rfl, rfl, rfl, rfl, rfl, ?_⟩, by trivial, by trivial⟩
        simp only [AGraph.removeNode, List.filter_append]
        have : ([⟨s, sp, d, dp, dir, entry as⟩] : List AEdge).filter (fun e => !(e.src == n || e.dst == n)) = [⟨s, sp, d, dp, dir, entry as⟩] := by
          simp [h1, h2]
        rw [this]
    | removeSubGraph => cases h

theorem comm_node (a : AGraph) (p n : Str) (as : List (Str × Str)) (y : Op) (h' : OrderIrrelevant (.addNode p n as) y) (h : OrderIrrelevant y (.addNode p n as)) :
    Comm a (.addNode p n as) y := by
  cases hf : firstBad as with
  | some e =>
    have e1 : ∀ b : AGraph, b.step (.addNode p n as) = (b, some e) := fun b => by simp only [AGraph.step, hf]
    unfold Comm; simp only [e1]; exact ⟨.refl _, by trivial, by trivial⟩
  | none =>
    have e1 : ∀ b : AGraph, b.step (.addNode p n as) = ({ b with
        node := upd b.node n (some (merge ((b.node n).getD fun _ => none) as))
        contains := fun p' c' => (p' = p && c' = n) || b.contains p' c' }, none) := fun b => by simp only [AGraph.step, hf]
    cases y with
    | setStrict c => exact (comm_strict a c _ (by trivial)).symm
    | setDir c => exact (comm_dir a c _ (by trivial)).symm
    | setName c => exact (comm_name a c _ (by trivial) (by trivial)).symm
    | addPortEdge s' sp' d' dp' dir' bs => exact (comm_edge a _ _ _ _ _ _ _ (by trivial)).symm
    | addEdge s' d' dir' bs => exact (comm_edge a s' [] d' [] dir' bs _ (by trivial)).symm
    | addNode q m bs =>
      cases hb : firstBad bs with
      | some e =>
        have e2 : ∀ b : AGraph, b.step (.addNode q m bs) = (b, some e) := fun b => by simp only [AGraph.step, hb]
        unfold Comm; simp only [e2]; exact ⟨.refl _, by trivial, by trivial⟩
      | none =>
        have e2 : ∀ b : AGraph, b.step (.addNode q m bs) = ({ b with
            node := upd b.node m (some (merge ((b.node m).getD fun _ => none) bs))
            contains := fun p' c' => (p' = q && c' = m) || b.contains p' c' }, none) := fun b => by simp only [AGraph.step, hb]
        unfold Comm; simp only [e1, e2]
        refine ⟨⟨rfl, rfl, rfl, rfl, ?_, rfl, ?_, .refl _⟩, by trivial, by trivial⟩
        · by_cases hnm : n = m
          · subst hnm
            funext x
            unfold upd
            simp only [if_true]
            split
            · rw [Option.getD_some, Option.getD_some, merge_comm (h' rfl)]
            · rfl
          · funext x
            unfold upd
            simp only [hnm, if_false, show ¬ m = n from fun h => hnm h.symm]
            by_cases h1 : x = n
            · subst h1; simp [hnm]
            · simp [h1]
        · funext p' c'
          exact or_comm3 _ _ _
    | addAttr t k v =>
      unfold Comm; simp only [e1, step_attr]
      by_cases h1 : a.name = t ∨ (a.sub t).isSome = true
      · by_cases h2 : Registered k
        · simp only [h1, h2, if_true]; exact ⟨.refl _, by trivial, by trivial⟩
        · simp only [h1, h2, if_true, if_false]; exact ⟨.refl _, by trivial, by trivial⟩
      · simp only [h1, if_false]; exact ⟨.refl _, by trivial, by trivial⟩
    | addSubGraph q m bs =>
      unfold Comm; simp only [e1, step_sub]
      refine ⟨⟨rfl, rfl, rfl, rfl, rfl, rfl, ?_, .refl _⟩, by trivial, by trivial⟩
      funext p' c'
      exact or_comm3 _ _ _
    | removeNode q m =>
      have hmn : m ≠ n := h
      unfold Comm; simp only [e1]; simp only [AGraph.step]
      have hx : upd a.node n (some (merge ((a.node n).getD fun _ => none) as)) m = a.node m := by simp [upd, hmn]
      rw [hx]
      cases hm : a.node m with
      | none => exact ⟨.refl _, by trivial, by trivial⟩
      | some f =>
        refine ⟨⟨rfl, rfl, rfl, rfl, ?_, rfl, ?_, .refl _⟩, by trivial, by trivial⟩
        · funext x
          simp only [AGraph.removeNode, upd]
          by_cases h1 : x = m
          · subst h1; simp [hmn]
          · simp only [h1, if_false, show ¬ n = m from fun h => hmn h.symm]
        · funext p' c'
          simp only [AGraph.removeNode]
          by_cases h1 : p' = q ∧ c' = m
          · obtain ⟨rfl, rfl⟩ := h1; simp [hmn]
          · simp only [h1, if_false]
    | removeSubGraph => cases h

theorem comm_attr (a : AGraph) (t k v : Str) (y : Op) (h' : OrderIrrelevant (.addAttr t k v) y) (h : OrderIrrelevant y (.addAttr t k v)) : Comm a (.addAttr t k v) y := by
  cases y with
  | setStrict c => exact (comm_strict a c _ (by trivial)).symm
  | setDir c => exact (comm_dir a c _ (by trivial)).symm
  | setName c => cases h
  | addPortEdge s' sp' d' dp' dir' bs => exact (comm_edge a _ _ _ _ _ _ _ (by trivial)).symm
  | addEdge s' d' dir' bs => exact (comm_edge a s' [] d' [] dir' bs _ (by trivial)).symm
  | addNode q m bs => exact (comm_node a q m bs _ (by trivial) (by trivial)).symm
  | addAttr t' k' v' =>
    have hs : ∀ t k v, (a.step (.addAttr t k v)).1.name = a.name ∧ ∀ x, ((a.step (.addAttr t k v)).1.sub x).isSome = (a.sub x).isSome := by
      intro t k v
      rw [step_attr]
      split
      · rename_i hc
        split
        · refine ⟨rfl, fun x => ?_⟩
          simp only
          split
          · rfl
          · rename_i hn
            unfold upd
            split
            · rename_i hx
              subst hx
              rcases hc with hc | hc
              · exact absurd hc hn
              · rw [hc]; rfl
            · rfl
        · exact ⟨rfl, fun _ => rfl⟩
      · exact ⟨rfl, fun _ => rfl⟩
    unfold Comm
    rw [step_attr (a.step (.addAttr t k v)).1 t' k' v', step_attr (a.step (.addAttr t' k' v')).1 t k v]
    simp only [hs]
    by_cases hc : a.name = t ∨ (a.sub t).isSome = true
    · by_cases hc' : a.name = t' ∨ (a.sub t').isSome = true
      · by_cases hk : Registered k
        · by_cases hk' : Registered k'
          · simp only [step_attr, hc, hc', hk, hk', if_true]
            refine ⟨⟨rfl, rfl, rfl, ?_, rfl, ?_, rfl, .refl _⟩, by trivial, by trivial⟩
            · by_cases h1 : a.name = t
              · by_cases h2 : a.name = t'
                · simp only [h1, h2, if_true]
                  have htt : t = t' := h1.symm.trans h2
                  subst htt
                  simp only [if_true]
                  funext x
                  unfold upd
                  by_cases hx : x = k
                  · by_cases hx' : x = k'
                    · have := h' rfl (hx.symm.trans hx'); simp [hx, this]
                    · simp [hx']
                  · simp [hx]
                · simp only [h1, if_true, if_neg (h1 ▸ h2 : ¬ t = t')]
              · simp only [h1, if_false]
            · by_cases h1 : a.name = t
              · by_cases h2 : a.name = t'
                · simp only [h1, if_true, show t = t' from h1.symm.trans h2]
                · simp only [h1, if_true, if_neg (h1 ▸ h2 : ¬ t = t')]
              · by_cases h2 : a.name = t'
                · simp only [h2, if_true, if_neg (h2 ▸ h1 : ¬ t' = t)]
                · simp only [h1, h2, if_false]
                  by_cases htt : t = t'
                  · subst htt
                    funext x
                    unfold upd
                    by_cases hx : x = t
                    · simp only [hx, if_true, Option.getD_some]
                      congr 1
                      funext z
                      by_cases hz : z = k
                      · by_cases hz' : z = k'
                        · have := h' rfl (hz.symm.trans hz'); simp [hz, this]
                        · simp [hz']
                      · simp [hz]
                    · simp [hx]
                  · funext x
                    unfold upd
                    simp only [htt, if_false, show ¬ t' = t from fun h => htt h.symm]
                    by_cases hx : x = t
                    · subst hx; simp [htt]
                    · simp [hx]
          · simp only [step_attr, hc, hc', hk, hk', if_true, if_false]; exact ⟨.refl _, by trivial, by trivial⟩
        · by_cases hk' : Registered k'
          · simp only [step_attr, hc, hc', hk, hk', if_true, if_false]; exact ⟨.refl _, by trivial, by trivial⟩
          · simp only [step_attr, hc, hc', hk, hk', if_true, if_false]; exact ⟨.refl _, by trivial, by trivial⟩
      · by_cases hk : Registered k
        · simp only [step_attr, hc, hc', hk, if_true, if_false]; exact ⟨.refl _, by trivial, by trivial⟩
        · simp only [step_attr, hc, hc', hk, if_true, if_false]; exact ⟨.refl _, by trivial, by trivial⟩
    · simp only [step_attr, hc, if_false]
      exact ⟨.refl _, by trivial, by trivial⟩
  | addSubGraph q m bs =>
    have htm : t ≠ m := h'
    unfold Comm
    have e1 : ∀ f : Option AAttrs, upd a.sub m f t = a.sub t := fun f => by simp [upd, htm]
    simp only [step_attr, step_sub, e1]
    by_cases hc : a.name = t ∨ (a.sub t).isSome = true
    · by_cases hk : Registered k
      · simp only [hc, hk, if_true]
        by_cases h1 : a.name = t
        · have h2 : ¬ a.name = m := fun h => htm (h1.symm.trans h)
          simp only [if_pos h1, if_neg h2]
          exact ⟨.refl _, by trivial, by trivial⟩
        · have e2 : ∀ f : Option AAttrs, upd a.sub t f m = a.sub m := fun f => by simp [upd, show ¬ m = t from fun h => htm h.symm]
          have e3 : ∀ f g : Option AAttrs, upd (upd a.sub t f) m g = upd (upd a.sub m g) t f := by
            intro f g
            funext x
            unfold upd
            by_cases hx : x = t
            · subst hx; simp [htm]
            · simp [hx]
          simp only [if_neg h1, e2, e3]
          exact ⟨.refl _, by trivial, by trivial⟩
      · simp only [hc, hk, if_true, if_false]; exact ⟨.refl _, by trivial, by trivial⟩
    · simp only [hc, if_false]; exact ⟨.refl _, by trivial, by trivial⟩
  | removeNode q m =>
    have hnode : (a.step (.addAttr t k v)).1.node = a.node := by
      rw [step_attr]
      split
      · split <;> rfl
      · rfl
    unfold Comm
    rcases Option.eq_none_or_eq_some (a.node m) with hm | ⟨f, hm⟩
    · rw [step_rm_none hm, step_rm_none (by rw [hnode]; exact hm)]
      exact ⟨.refl _, by trivial, by trivial⟩
    · rw [step_rm_some hm, step_rm_some (by rw [hnode]; exact hm)]
      simp only [step_attr, AGraph.removeNode]
      by_cases hc : a.name = t ∨ (a.sub t).isSome = true
      · by_cases hk : Registered k
        · simp only [hc, hk, if_true]; exact ⟨.refl _, by trivial, by trivial⟩
        · simp only [hc, hk, if_true, if_false]; exact ⟨.refl _, by trivial, by trivial⟩
      · simp only [hc, if_false]; exact ⟨.refl _, by trivial, by trivial⟩
  | removeSubGraph => cases h

theorem comm_sub (a : AGraph) (p n : Str) (as : List (Str × Str)) (y : Op) (h' : OrderIrrelevant (.addSubGraph p n as) y) (h : OrderIrrelevant y (.addSubGraph p n as)) :
    Comm a (.addSubGraph p n as) y := by
  cases y with
  | setStrict c => exact (comm_strict a c _ (by trivial)).symm
  | setDir c => exact (comm_dir a c _ (by trivial)).symm
  | setName c => exact (comm_name a c _ h h').symm
  | addPortEdge s' sp' d' dp' dir' bs => exact (comm_edge a _ _ _ _ _ _ _ (by trivial)).symm
  | addEdge s' d' dir' bs => exact (comm_edge a s' [] d' [] dir' bs _ (by trivial)).symm
  | addNode q m bs => exact (comm_node a q m bs _ (by trivial) (by trivial)).symm
  | addAttr t k v => exact (comm_attr a t k v _ h h').symm
  | addSubGraph q m bs =>
    unfold Comm
    simp only [step_sub]
    have h3 : (fun p' c' => (decide (p' = q) && decide (c' = m) || (decide (p' = p) && decide (c' = n) || a.contains p' c'))) =
        fun p' c' => (decide (p' = p) && decide (c' = n) || (decide (p' = q) && decide (c' = m) || a.contains p' c')) := by
      funext p' c'; exact or_comm3 _ _ _
    by_cases hnm : n = m
    · subst hnm
      have hcl := good_noClash (h' rfl)
      refine ⟨⟨rfl, rfl, rfl, ?_, rfl, ?_, h3, .refl _⟩, by trivial, by trivial⟩
      · simp only
        by_cases hn : a.name = n
        · simp only [hn, if_true, puts_comm hcl]
        · simp only [hn, if_false]
      · simp only
        funext x
        unfold upd
        by_cases hx : x = n
        · by_cases hn : a.name = n
          · simp only [hx, hn, if_true, Option.getD_some]
          · simp only [hx, hn, if_true, if_false, Option.getD_some, puts_comm hcl]
        · simp only [hx, if_false]
    · have hmn : ¬ m = n := fun h => hnm h.symm
      refine ⟨⟨rfl, rfl, rfl, ?_, rfl, ?_, h3, .refl _⟩, by trivial, by trivial⟩
      · simp only
        by_cases hn : a.name = n
        · have hm : ¬ a.name = m := fun h => hnm (hn.symm.trans h)
          simp only [if_pos hn, if_neg hm]
        · simp only [if_neg hn]
      · simp only
        funext x
        unfold upd
        simp only [hnm, hmn, if_false]
        by_cases hx : x = n
        · simp only [hx, hnm, if_true, if_false]
        · simp only [hx, if_false]
  | removeNode q m =>
    have hne : ¬ (q = p ∧ m = n) := h
    have hnode : (a.step (.addSubGraph p n as)).1.node = a.node := by rw [step_sub]
    unfold Comm
    rcases Option.eq_none_or_eq_some (a.node m) with hm | ⟨f, hm⟩
    · rw [step_rm_none hm, step_rm_none (by rw [hnode]; exact hm)]
      exact ⟨.refl _, by trivial, by trivial⟩
    · rw [step_rm_some hm, step_rm_some (by rw [hnode]; exact hm)]
      simp only [step_sub]
      refine ⟨⟨rfl, rfl, rfl, rfl, rfl, rfl, ?_, .refl _⟩, by trivial, by trivial⟩
      funext p' c'
      simp only [AGraph.removeNode]
      by_cases h1 : p' = q ∧ c' = m
      · obtain ⟨rfl, rfl⟩ := h1
        have : (decide (p' = p) && decide (c' = n)) = false := by simpa using hne
        simp only [and_self, if_true, this, Bool.false_or]
      · simp only [h1, if_false]
  | removeSubGraph => cases h

theorem comm_remove (a : AGraph) (p n : Str) (y : Op) (h' : OrderIrrelevant (.removeNode p n) y) (h : OrderIrrelevant y (.removeNode p n)) : Comm a (.removeNode p n) y := by
  cases y with
  | setStrict c => exact (comm_strict a c _ (by trivial)).symm
  | setDir c => exact (comm_dir a c _ (by trivial)).symm
  | setName c => exact (comm_name a c _ (by trivial) (by trivial)).symm
  | addPortEdge s' sp' d' dp' dir' bs => exact (comm_edge a _ _ _ _ _ _ _ h').symm
  | addEdge s' d' dir' bs => exact (comm_edge a s' [] d' [] dir' bs _ h').symm
  | addNode q m bs => exact (comm_node a q m bs _ (by trivial) h').symm
  | addAttr t k v => exact (comm_attr a t k v _ (by trivial) (by trivial)).symm
  | addSubGraph q m bs => exact (comm_sub a q m bs _ (by trivial) h').symm
  | removeNode q m =>
    have hnm : n ≠ m := h'
    unfold Comm
    simp only [AGraph.step]
    cases hn : a.node n with
    | none =>
      cases hm : a.node m with
      | none => simp only [hn, hm]; exact ⟨.refl _, by trivial, by trivial⟩
      | some f =>
        have : (a.removeNode q m).node n = none := by simp [AGraph.removeNode, upd, hnm, hn]
        simp only [hm, this]; exact ⟨.refl _, by trivial, by trivial⟩
    | some f =>
      have h1 : (a.removeNode p n).node m = a.node m := by simp [AGraph.removeNode, upd, show ¬ m = n from fun h => hnm h.symm]
      simp only [h1]
      cases hm : a.node m with
      | none => simp only [hn]; exact ⟨.refl _, by trivial, by trivial⟩
      | some g =>
        have h2 : (a.removeNode q m).node n = some f := by simp [AGraph.removeNode, upd, hnm, hn]
        simp only [h2]
        refine ⟨⟨rfl, rfl, rfl, rfl, ?_, rfl, ?_, ?_⟩, by trivial, by trivial⟩
        · funext x
          simp only [AGraph.removeNode, upd]
          by_cases hx : x = n <;> by_cases hx' : x = m <;> simp [hx, hx']
        · funext p' c'
          simp only [AGraph.removeNode]
          by_cases h1 : p' = q ∧ c' = m <;> by_cases h2 : p' = p ∧ c' = n <;> simp [h1, h2]
        · simp only [AGraph.removeNode, List.filter_filter]
          have : ∀ l : List AEdge, (l.filter fun e => !(e.src == m || e.dst == m) && !(e.src == n || e.dst == n)) =
              l.filter fun e => !(e.src == n || e.dst == n) && !(e.src == m || e.dst == m) := by
            intro l; congr 1; funext e; exact Bool.and_comm _ _
          rw [this]
  | removeSubGraph => cases h

theorem comm (a : AGraph) {x y : Op} (h : Independent x y) : Comm a x y := by
  obtain ⟨h1, h2⟩ := h
  cases x with
  | setStrict c => exact comm_strict a c _ h2
  | setDir c => exact comm_dir a c _ h2
  | setName c => exact comm_name a c _ h1 h2
  | addPortEdge s' sp' d' dp' dir' bs => exact comm_edge a _ _ _ _ _ _ _ h2
  | addEdge s' d' dir' bs =>
    refine (comm_edge a s' [] d' [] dir' bs _ ?_ : Comm a (.addPortEdge s' [] d' [] dir' bs) y)
    cases y <;> first | exact h2 | trivial
  | addNode q m bs => exact comm_node a q m bs _ h1 h2
  | addAttr t k v => exact comm_attr a t k v _ h1 h2
  | addSubGraph q m bs => exact comm_sub a q m bs _ h1 h2
  | removeNode q m => exact comm_remove a q m _ h1 h2
  | removeSubGraph => cases h1

/-! ### from the abstract graph back to the graph -/

theorem ok_congr {g g' : Graph} (h : GInv g) (h' : GInv g') (hc : (abs g).contains = (abs g').contains) {op : Op} (hok : op.Ok g) : op.Ok g' := by
  cases op with
  | removeSubGraph p n o =>
    refine (show o.Perm _ from hok).trans ?_
    refine (List.perm_ext_iff_of_nodup (h.rels.iwf1 n).nodup (h'.rels.iwf1 n).nodup).2 fun c => ?_
    have := congrFun (congrFun hc n) c
    simp only [abs] at this
    rw [← mhas_iff, ← mhas_iff, this]
  | _ => exact hok

theorem ok_indep {x y : Op} (h : Independent x y) {g g' : Graph} : (x.Ok g → x.Ok g') ∧ (y.Ok g → y.Ok g') := by
  constructor
  · intro hx
    cases x with
    | removeSubGraph => cases h.1
    | _ => exact hx
  · intro hy
    cases y with
    | removeSubGraph => cases h.2
    | _ => exact hy

theorem absEdge_inj {e e' : Edge} (h : MapWF e.attrs) (h' : MapWF e'.attrs) (he : absEdge e = absEdge e') : e = e' := by
  obtain ⟨s, sp, d, dp, dir, as⟩ := e
  obtain ⟨s', sp', d', dp', dir', as'⟩ := e'
  simp only [absEdge, AEdge.mk.injEq] at he
  obtain ⟨rfl, rfl, rfl, rfl, rfl, h6⟩ := he
  have := Map.ext h h' (congrFun h6)
  simp only at this
  rw [this]

theorem perm_of_map_perm {α β : Type} {f : α → β} : ∀ (l l' : List α), (∀ a ∈ l, ∀ b ∈ l', f a = f b → a = b) → (l.map f).Perm (l'.map f) → l.Perm l'
  | [], l', _, h => by
    have := h.length_eq
    cases l' with
    | nil => exact .refl _
    | cons => simp at this
  | a :: l, l', hi, h => by
    have hm : f a ∈ l'.map f := h.subset (List.mem_cons_self ..)
    obtain ⟨b, hb, hf⟩ := List.mem_map.1 hm
    have hab := hi a (List.mem_cons_self ..) b hb hf.symm
    subst hab
    obtain ⟨l1, l2, rfl⟩ := List.append_of_mem hb
    have h1 : (l.map f).Perm ((l1 ++ l2).map f) := by
      apply List.Perm.cons_inv (a := f a)
      refine h.trans ?_
      rw [List.map_append, List.map_cons, List.map_append]
      exact List.perm_middle
    refine (List.Perm.cons a (perm_of_map_perm l (l1 ++ l2) ?_ h1)).trans List.perm_middle.symm
    intro x hx y hy
    refine hi x (List.mem_cons_of_mem _ hx) y ?_
    rcases List.mem_append.1 hy with h | h
    · exact List.mem_append_left _ h
    · exact List.mem_append_right _ (List.mem_cons_of_mem _ h)

theorem sameContent {g g' : Graph} (h : GInv g) (h' : GInv g') (he : AEq (abs g) (abs g')) : SameContent g g' := by
  refine ⟨he.name, he.directed, he.strict, congrFun he.attrs, fun n => ?_, fun n => ?_, fun n s s' hs hs' => ?_, fun p c => congrFun (congrFun he.contains p) c, ?_⟩
  · have := congrFun he.node n
    simp only [abs] at this
    cases hf : g.nodes.find n with
    | none =>
      cases hf' : g'.nodes.find n with
      | none => rfl
      | some nd => rw [hf, hf'] at this; cases this
    | some nd =>
      cases hf' : g'.nodes.find n with
      | none => rw [hf, hf'] at this; cases this
      | some nd' =>
        rw [hf, hf'] at this
        simp only [Option.map_some, Option.some.injEq] at this ⊢
        have hw : ∀ {g : Graph} {nd : Node}, GInv g → g.nodes.find n = some nd → MapWF nd.attrs := by
          intro g nd h hf
          unfold Nodes.find at hf
          cases hp : mget g.nodes.lookup n with
          | none => simp [hp] at hf
          | some p =>
            simp only [hp, Option.bind_some] at hf
            exact (h.nodes.attrs p nd hf).wf
        exact Map.ext (hw h hf) (hw h' hf') (congrFun this)
  · have := congrFun he.sub n
    simp only [abs] at this
    unfold mhas
    cases hm : mget g.subGraphs n <;> cases hm' : mget g'.subGraphs n <;> rw [hm, hm'] at this <;> first | rfl | cases this
  · have := congrFun he.sub n
    simp only [abs, hs, hs', Option.map_some, Option.some.injEq] at this
    exact congrFun this
  · exact perm_of_map_perm _ _ (fun a ha b hb => absEdge_inj (h.edges.attrs a ha).wf (h'.edges.attrs b hb).wf) he.edges

/-- The same calls on the same graph. -/
theorem run_congr (ops : List Op) : ∀ {g g' : Graph}, Reachable g → Reachable g' → AEq (abs g) (abs g') → OkHistory g ops →
    OkHistory g' ops ∧ AEq (abs (g.run ops)) (abs (g'.run ops)) ∧ g.runErrs ops = g'.runErrs ops := by
  induction ops with
  | nil => intro g g' _ _ he _; exact ⟨trivial, he, rfl⟩
  | cons op ops ih =>
    intro g g' hg hg' he hok
    have hok' : op.Ok g' := ok_congr hg.inv hg'.inv he.contains hok.1
    have h1 := abs_step hg.inv op hok.1
    have h2 := abs_step hg'.inv op hok'
    have hc := step_congr he op
    rw [← h1, ← h2] at hc
    obtain ⟨i1, i2, i3⟩ := ih (.step op hg hok.1) (.step op hg' hok') hc.1 hok.2
    exact ⟨⟨hok', i1⟩, i2, by simp only [Graph.runErrs]; rw [i3, hc.2]⟩

/-- The result of a history: the calls with their errors. -/
abbrev results (g : Graph) (ops : List Op) : List (Op × Option Err) := ops.zip (g.runErrs ops)

theorem swap_run {x y : Op} (hxy : Independent x y) (post : List Op) {g : Graph} (hg : Reachable g) (hok : OkHistory g (x :: y :: post)) :
    OkHistory g (y :: x :: post) ∧ AEq (abs (g.run (x :: y :: post))) (abs (g.run (y :: x :: post))) ∧
      (results g (x :: y :: post)).Perm (results g (y :: x :: post)) := by
  obtain ⟨o1, o2, o3⟩ := hok
  have p1 : y.Ok g := (ok_indep hxy).2 o2
  have p2 : x.Ok (g.step y).1 := (ok_indep hxy).1 o1
  have r1 : Reachable (g.step x).1 := .step x hg o1
  have r2 : Reachable ((g.step x).1.step y).1 := .step y r1 o2
  have q1 : Reachable (g.step y).1 := .step y hg p1
  have q2 : Reachable ((g.step y).1.step x).1 := .step x q1 p2
  have hc := comm (abs g) hxy
  unfold Comm at hc
  have e1 := abs_step hg.inv x o1
  have e2 := abs_step r1.inv y o2
  have f1 := abs_step hg.inv y p1
  have f2 := abs_step q1.inv x p2
  rw [← e1, ← f1] at hc
  simp only at hc
  rw [← e2, ← f2] at hc
  simp only at hc
  obtain ⟨c1, c2, c3⟩ := hc
  obtain ⟨i1, i2, i3⟩ := run_congr post r2 q2 c1 o3
  refine ⟨⟨p1, p2, i1⟩, i2, ?_⟩
  simp only [results, Graph.runErrs, List.zip_cons_cons]
  rw [c2, c3, i3]
  exact .swap _ _ _

theorem pre_run {l l' : List Op} (hl : ∀ g : Graph, Reachable g → OkHistory g l →
      OkHistory g l' ∧ AEq (abs (g.run l)) (abs (g.run l')) ∧ (results g l).Perm (results g l')) (pre : List Op) :
    ∀ {g : Graph}, Reachable g → OkHistory g (pre ++ l) →
      OkHistory g (pre ++ l') ∧ AEq (abs (g.run (pre ++ l))) (abs (g.run (pre ++ l'))) ∧ (results g (pre ++ l)).Perm (results g (pre ++ l')) := by
  induction pre with
  | nil => intro g hg hok; exact hl g hg hok
  | cons op pre ih =>
    intro g hg hok
    obtain ⟨i1, i2, i3⟩ := ih (.step op hg hok.1) hok.2
    refine ⟨⟨hok.1, i1⟩, i2, ?_⟩
    simp only [results, List.cons_append, Graph.runErrs, List.zip_cons_cons]
    exact i3.cons _

theorem reordered {ops ops' : List Op} (h : Reordered ops ops') : OkHistory newGraph ops →
    OkHistory newGraph ops' ∧ AEq (abs (newGraph.run ops)) (abs (newGraph.run ops')) ∧ (results newGraph ops).Perm (results newGraph ops') := by
  induction h with
  | refl l => intro hok; exact ⟨hok, .refl _, .refl _⟩
  | swap pre post hi =>
    intro hok
    exact pre_run (fun g hg hok => swap_run hi post hg hok) pre .init hok
  | trans _ _ ih1 ih2 =>
    intro hok
    obtain ⟨a1, a2, a3⟩ := ih1 hok
    obtain ⟨b1, b2, b3⟩ := ih2 a1
    exact ⟨b1, a2.trans b2, a3.trans b3⟩

end Order

/-- C82. Histories that differ in the order of independent calls only build graphs with the same content, and every call returns the
same error or none in both. -/
theorem C82_same_content {ops ops' : List Op} (h : Reordered ops ops') (hok : OkHistory newGraph ops) :
    OkHistory newGraph ops' ∧ SameContent (newGraph.run ops) (newGraph.run ops') ∧
      (ops.zip (newGraph.runErrs ops)).Perm (ops'.zip (newGraph.runErrs ops')) := by
  obtain ⟨h1, h2, h3⟩ := Order.reordered h hok
  exact ⟨h1, Order.sameContent (Reachable.init.run hok).inv (Reachable.init.run h1).inv h2, h3⟩

/-- C82. They also print the same text, whatever the two runs of `sort.Sort` do with equivalent edges, if no edge stores an empty
value. -/
theorem C82_same_text {ops ops' : List Op} (h : Reordered ops ops') (hok : OkHistory newGraph ops)
    (hne : ∀ e ∈ (newGraph.run ops).edges.edges, ∀ k, mget e.attrs k ≠ some [])
    {sortE sortE' : List Edge → List Edge} (hc : SortContract sortE) (hc' : SortContract sortE') (f : Nat) :
    graphString sortE f (newGraph.run ops) = graphString sortE' f (newGraph.run ops') := by
  obtain ⟨h1, h2, _⟩ := C82_same_content h hok
  exact (C15_string_canonical (Reachable.init.run hok) (Reachable.init.run h1) h2 hne hc hc' f).1

/-! Two histories of six calls, one of which fails, in very different orders; and calls that are not independent, for which the claim
is false. -/

namespace Order
def one : List Op := [.addNode (b!"G") (b!"a") [(b!"label", b!"x")], .addNode (b!"G") (b!"b") [(b!"nonsense", b!"x")],
  .addEdge (b!"a") (b!"b") true [], .addEdge (b!"b") (b!"a") true [(b!"weight", b!"2")], .addSubGraph (b!"G") (b!"S") [(b!"color", b!"red")],
  .addNode (b!"S") (b!"a") [(b!"color", b!"blue"), (b!"label", b!"x")]]
def two : List Op := [.addNode (b!"S") (b!"a") [(b!"color", b!"blue"), (b!"label", b!"x")], .addNode (b!"G") (b!"a") [(b!"label", b!"x")],
  .addEdge (b!"b") (b!"a") true [(b!"weight", b!"2")], .addNode (b!"G") (b!"b") [(b!"nonsense", b!"x")], .addSubGraph (b!"G") (b!"S") [(b!"color", b!"red")],
  .addEdge (b!"a") (b!"b") true []]

/-- A call is moved back over calls it is independent of. -/
theorem move {x : Op} (pre post : List Op) : ∀ mid : List Op, (∀ y ∈ mid, Independent x y) → Reordered (pre ++ (x :: mid) ++ post) (pre ++ mid ++ (x :: post)) := by
  intro mid
  induction mid generalizing pre with
  | nil => intro _; simp only [List.append_assoc, List.append_nil, List.cons_append, List.nil_append]; exact .refl _
  | cons y mid ih =>
    intro h
    have h1 : Reordered (pre ++ x :: y :: (mid ++ post)) (pre ++ y :: x :: (mid ++ post)) := .swap pre _ (h y (List.mem_cons_self ..))
    have h2 := ih (pre ++ [y]) fun z hz => h z (List.mem_cons_of_mem _ hz)
    simp only [List.append_assoc, List.cons_append, List.nil_append] at h2 ⊢
    exact h1.trans h2

theorem one_two : Reordered one two := by
  have key : NoClash [(b!"label", b!"x")] [(b!"color", b!"blue"), (b!"label", b!"x")] ∧ NoClash [(b!"color", b!"blue"), (b!"label", b!"x")] [(b!"label", b!"x")] := by
    constructor <;> intro k v w h1 h2 <;> simp only [List.mem_cons, List.not_mem_nil, or_false, Prod.mk.injEq] at h1 h2 <;> rcases h1 with ⟨h1, h1'⟩ | h1 <;>
      rcases h2 with ⟨h2, h2'⟩ | h2 <;> simp_all
  have ne : ¬ (b!"a" : Str) = b!"b" := by decide
  have ne' : ¬ (b!"b" : Str) = b!"a" := by decide
  -- the last call goes to the front: the others are moved behind it one by one, the nearest first
  have m1 := move (x := .addSubGraph (b!"G") (b!"S") [(b!"color", b!"red")]) (one.take 4) [] [.addNode (b!"S") (b!"a") [(b!"color", b!"blue"), (b!"label", b!"x")]]
    (by intro y hy; simp only [List.mem_cons, List.not_mem_nil, or_false] at hy; subst hy; exact ⟨trivial, trivial⟩)
  have m2 := move (x := .addEdge (b!"b") (b!"a") true [(b!"weight", b!"2")]) (one.take 3) [.addSubGraph (b!"G") (b!"S") [(b!"color", b!"red")]]
    [.addNode (b!"S") (b!"a") [(b!"color", b!"blue"), (b!"label", b!"x")]]
    (by intro y hy; simp only [List.mem_cons, List.not_mem_nil, or_false] at hy; subst hy; exact ⟨trivial, trivial⟩)
  have m3 := move (x := .addEdge (b!"a") (b!"b") true []) (one.take 2) []
    [.addNode (b!"S") (b!"a") [(b!"color", b!"blue"), (b!"label", b!"x")], .addEdge (b!"b") (b!"a") true [(b!"weight", b!"2")], .addSubGraph (b!"G") (b!"S") [(b!"color", b!"red")]]
    (by intro y hy; simp only [List.mem_cons, List.not_mem_nil, or_false] at hy; rcases hy with rfl | rfl | rfl <;> exact ⟨trivial, trivial⟩)
  have m4 := move (x := .addNode (b!"G") (b!"b") [(b!"nonsense", b!"x")]) (one.take 1) [.addSubGraph (b!"G") (b!"S") [(b!"color", b!"red")], .addEdge (b!"a") (b!"b") true []]
    [.addNode (b!"S") (b!"a") [(b!"color", b!"blue"), (b!"label", b!"x")], .addEdge (b!"b") (b!"a") true [(b!"weight", b!"2")]]
    (by intro y hy; simp only [List.mem_cons, List.not_mem_nil, or_false] at hy; rcases hy with rfl | rfl
        · exact ⟨fun h => absurd h ne', fun h => absurd h ne⟩
        · exact ⟨trivial, trivial⟩)
  have m5 := move (x := .addNode (b!"G") (b!"a") [(b!"label", b!"x")]) [] (two.drop 2) [.addNode (b!"S") (b!"a") [(b!"color", b!"blue"), (b!"label", b!"x")]]
    (by intro y hy; simp only [List.mem_cons, List.not_mem_nil, or_false] at hy; subst hy; exact ⟨fun _ => key.1, fun _ => key.2⟩)
  exact ((((m1.trans m2).trans m3).trans m4).trans m5)
end Order

example : OkHistory newGraph Order.one ∧ Reordered Order.one Order.two ∧
    newGraph.runErrs Order.one = [none, some (.invalidAttr (b!"nonsense")), none, none, none, none] ∧
    newGraph.run Order.one ≠ newGraph.run Order.two ∧ (∀ e ∈ (newGraph.run Order.one).edges.edges, ∀ kv ∈ e.attrs, kv.2 ≠ []) :=
  ⟨by decide +kernel, Order.one_two, by decide +kernel, by decide +kernel, by decide +kernel⟩

/-- C82. The later value counts, an attribute needs the graph it is for, and a removed node takes its edges with it: these calls are
not independent. -/
theorem C82_order_matters :
    (¬ SameContent (newGraph.run [.addNode [] (b!"a") [(b!"label", b!"x")], .addNode [] (b!"a") [(b!"label", b!"y")]])
      (newGraph.run [.addNode [] (b!"a") [(b!"label", b!"y")], .addNode [] (b!"a") [(b!"label", b!"x")]])) ∧
    newGraph.runErrs [.setName (b!"G"), .addAttr (b!"G") (b!"rankdir") (b!"LR")] = [none, none] ∧
    newGraph.runErrs [.addAttr (b!"G") (b!"rankdir") (b!"LR"), .setName (b!"G")] = [some (.noSuchGraph (b!"G")), none] ∧
    (newGraph.run [.addNode [] (b!"a") [], .addEdge (b!"a") (b!"b") true [], .removeNode [] (b!"a")]).edges.edges = [] ∧
    (newGraph.run [.addNode [] (b!"a") [], .removeNode [] (b!"a"), .addEdge (b!"a") (b!"b") true []]).edges.edges.length = 1 ∧
    -- the attributes of a subgraph called like the graph go to the graph
    (newGraph.run [.setName (b!"G"), .addSubGraph [] (b!"G") [(b!"color", b!"red")]]).attrs = [(b!"color", b!"red")] ∧
    (newGraph.run [.addSubGraph [] (b!"G") [(b!"color", b!"red")], .setName (b!"G")]).attrs = [] := by
  refine ⟨fun h => ?_, by decide +kernel, by decide +kernel, by decide +kernel, by decide +kernel, by decide +kernel, by decide +kernel⟩
  have := h.nodes (b!"a")
  revert this
  decide +kernel

end Gographviz.Props
