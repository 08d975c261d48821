import Verif.Spec.Slices
import Verif.Proofs.GoMap
/-! Lemmas about slices. -/
namespace Gographviz.Slices
open Gographviz Spec
variable {α : Type}

/-- The slice shows the list `l`, and is well formed. -/
structure Rep (m : Mem α) (s : Slice) (l : List α) : Prop where
  view : view m s = l.map some
  len : s.len = l.length
  cap : s.len ≤ s.cap
  arr : ∃ a, m[s.arr]? = some a ∧ a.length = s.cap

theorem Rep.lt {m : Mem α} {s : Slice} {l : List α} (h : Rep m s l) : s.arr < m.length := by
  obtain ⟨a, ha, _⟩ := h.arr
  exact (List.getElem?_eq_some_iff.1 ha).1

theorem overwrite_length (a : List (Option α)) (pos : Nat) (xs : List (Option α)) (h : pos + xs.length ≤ a.length) :
    (overwrite a pos xs).length = a.length := by
  simp only [overwrite, List.length_append, List.length_take, List.length_drop]; omega

theorem overwrite_take_le (a : List (Option α)) (pos : Nat) (xs : List (Option α)) {k : Nat} (hk : k ≤ pos)
    (h : pos ≤ a.length) : (overwrite a pos xs).take k = a.take k := by
  unfold overwrite
  rw [List.append_assoc, List.take_append_of_le_length (by rw [List.length_take]; omega), List.take_take,
    Nat.min_eq_left hk]

theorem overwrite_take (a : List (Option α)) (pos : Nat) (xs : List (Option α)) (h : pos ≤ a.length) :
    (overwrite a pos xs).take (pos + xs.length) = a.take pos ++ xs := by
  unfold overwrite
  rw [List.take_append_of_le_length (by rw [List.length_append, List.length_take]; omega), List.take_of_length_le]
  rw [List.length_append, List.length_take]; omega

theorem view_of {m : Mem α} {s : Slice} {a : List (Option α)} (h : m[s.arr]? = some a) : view m s = a.take s.len := by
  simp [Slices.view, h]

/-- A memory change that keeps the arrays' lengths. -/
def Keeps (m m' : Mem α) : Prop :=
  m.length ≤ m'.length ∧ ∀ (r : Nat) (a : List (Option α)), m[r]? = some a → ∃ a' : List (Option α), m'[r]? = some a' ∧ a'.length = a.length

theorem Keeps.refl (m : Mem α) : Keeps m m := ⟨Nat.le_refl _, fun _ a h => ⟨a, h, rfl⟩⟩

theorem Keeps.trans {m m' m'' : Mem α} (h : Keeps m m') (h' : Keeps m' m'') : Keeps m m'' := by
  refine ⟨Nat.le_trans h.1 h'.1, fun r a ha => ?_⟩
  obtain ⟨a', ha', hl⟩ := h.2 r a ha
  obtain ⟨a'', ha'', hl'⟩ := h'.2 r a' ha'
  exact ⟨a'', ha'', hl'.trans hl⟩

theorem Rep.frame {m m' : Mem α} {s : Slice} {l : List α} (h : Rep m s l) (hk : Keeps m m')
    (hv : Slices.view m' s = Slices.view m s) : Rep m' s l := by
  obtain ⟨a, ha, hl⟩ := h.arr
  obtain ⟨a', ha', hl'⟩ := hk.2 _ _ ha
  exact ⟨hv.trans h.view, h.len, h.cap, a', ha', hl'.trans hl⟩

theorem getElem?_append_left' {β : Type} {l l' : List β} {i : Nat} (h : i < l.length) : (l ++ l')[i]? = l[i]? := by
  rw [List.getElem?_append_left h]

theorem keeps_append (m : Mem α) (x : List (Option α)) : Keeps m (m ++ [x]) := by
  refine ⟨by simp, fun r a h => ⟨a, ?_, rfl⟩⟩
  rw [getElem?_append_left' (List.getElem?_eq_some_iff.1 h).1, h]

theorem view_append (m : Mem α) (x : List (Option α)) {t : Slice} (h : t.arr < m.length) :
    Slices.view (m ++ [x]) t = Slices.view m t := by
  simp [Slices.view, getElem?_append_left' h]

theorem keeps_modify (m : Mem α) (i : Nat) (f : List (Option α) → List (Option α))
    (h : ∀ a, m[i]? = some a → (f a).length = a.length) : Keeps m (m.modify i f) := by
  refine ⟨by simp, fun r a ha => ?_⟩
  by_cases hr : i = r
  · subst hr
    exact ⟨f a, by rw [List.getElem?_modify]; simp [ha], h a ha⟩
  · exact ⟨a, by rw [List.getElem?_modify]; simp [ha, hr], rfl⟩

/-- What one `append` of one element does. -/
theorem append_one (grow : Growth) {m : Mem α} {s : Slice} {l : List α} (h : Rep m s l) (x : α) :
    Rep (append grow m s [some x]).1 (append grow m s [some x]).2 (l ++ [x]) ∧
    Keeps m (append grow m s [some x]).1 ∧
    (∀ t : Slice, t.arr < m.length → (t.arr = s.arr → t.len ≤ s.len) →
      Slices.view (append grow m s [some x]).1 t = Slices.view m t) ∧
    ((append grow m s [some x]).2.arr = s.arr ∨ (append grow m s [some x]).2.arr = m.length) ∧
    s.len ≤ (append grow m s [some x]).2.len := by
  obtain ⟨a, ha, hl⟩ := h.arr
  have hcap := h.cap
  have hlen := h.len
  have hview := h.view
  rw [view_of ha] at hview
  unfold append
  by_cases hc : s.len + [some x].length ≤ s.cap
  · rw [if_pos hc]
    simp only [List.length_singleton] at hc ⊢
    have hm : (m.modify s.arr (fun a => overwrite a s.len [some x]))[s.arr]? = some (overwrite a s.len [some x]) := by
      rw [List.getElem?_modify]; simp [ha]
    refine ⟨⟨?_, by simp [hlen], by simpa using hc, ⟨_, hm, ?_⟩⟩, ?_, ?_, by simp, by simp⟩
    · rw [view_of (s := ⟨s.arr, s.len + 1, s.cap⟩) hm]
      have := overwrite_take a s.len [some x] (by omega)
      simp only [List.length_singleton] at this
      rw [this, hview]; simp
    · rw [overwrite_length _ _ _ (by simp; omega), hl]
    · refine keeps_modify _ _ _ fun a' ha' => ?_
      rw [ha] at ha'
      cases ha'
      exact overwrite_length _ _ _ (by simp; omega)
    · intro t ht hts
      by_cases hta : t.arr = s.arr
      · have hm' : (m.modify s.arr (fun a => overwrite a s.len [some x]))[t.arr]? = some (overwrite a s.len [some x]) := by
          rw [hta]; exact hm
        rw [view_of hm', view_of (m := m) (by rw [hta]; exact ha)]
        exact overwrite_take_le _ _ _ (hts hta) (by omega)
      · unfold Slices.view
        rw [List.getElem?_modify]
        simp [Ne.symm hta]
  · rw [if_neg hc]
    simp only [List.length_singleton] at hc ⊢
    have hv : (Slices.view m s).length = s.len := by rw [h.view]; simp [hlen]
    refine ⟨⟨?_, by simp [hlen], by simp, ⟨Slices.view m s ++ [some x] ++ List.replicate (grow m.length (s.len + 1)) none, ?_, ?_⟩⟩,
      keeps_append _ _, fun t ht _ => view_append _ _ ht, by simp,
      by simp⟩
    · have : (m ++ [Slices.view m s ++ [some x] ++ List.replicate (grow m.length (s.len + 1)) none])[m.length]? =
          some (Slices.view m s ++ [some x] ++ List.replicate (grow m.length (s.len + 1)) none) := by simp
      rw [view_of this, List.take_append_of_le_length (by simp [hv]), List.take_of_length_le (by simp [hv]), h.view]
      simp
    · rw [List.getElem?_append_right (Nat.le_refl _)]; simp
    · simp [hv]; omega

theorem rep_make (m : Mem α) : Rep (make m).1 (make m).2 [] := by
  refine ⟨?_, rfl, Nat.le_refl _, [], ?_, rfl⟩
  · simp [make, Slices.view]
  · simp [make]

/-! ### Several slices -/

/-- The places where a slice of edges is stored. -/
inductive Slot where
  | main
  | src (a b : Str)
  | dst (a b : Str)
  deriving DecidableEq

/-- Updating a function. -/
def upd {β : Type} (f : Slot → β) (x : Slot) (v : β) : Slot → β := fun y => if y = x then v else f y

/-- Related optional values. -/
def OptRep (m : Mem α) : Option Slice → Option (List α) → Prop
  | none, none => True
  | some s, some l => Rep m s l
  | _, _ => False

structure Inv (m : Mem α) (own : Slot → Option Slice) (aown : Slot → Option (List α)) : Prop where
  rep : ∀ x, OptRep m (own x) (aown x)
  sep : ∀ x y s t, own x = some s → own y = some t → s.arr = t.arr → x = y

/-- Later appends do not reach the cells of `t`. -/
def Saved (m : Mem α) (own : Slot → Option Slice) (t : Slice) : Prop :=
  t.arr < m.length ∧ ∀ x s, own x = some s → s.arr = t.arr → t.len ≤ s.len

theorem OptRep.frame {m m' : Mem α} {o : Option Slice} {l : Option (List α)} (h : OptRep m o l) (hk : Keeps m m')
    (hv : ∀ s, o = some s → Slices.view m' s = Slices.view m s) : OptRep m' o l := by
  match o, l, h with
  | none, none, _ => trivial
  | some s, some l, h => exact Rep.frame h hk (hv s rfl)

theorem Inv.lt {m : Mem α} {own : Slot → Option Slice} {aown : Slot → Option (List α)} (h : Inv m own aown) {x : Slot}
    {s : Slice} (hs : own x = some s) : s.arr < m.length := by
  have := h.rep x
  rw [hs] at this
  match hl : aown x, this with
  | some l, h => exact Rep.lt (l := l) (by rw [hl] at this; exact this)
  | none, h => rw [hl] at this; exact this.elim

theorem Inv.saved {m : Mem α} {own : Slot → Option Slice} {aown : Slot → Option (List α)} (h : Inv m own aown) {x : Slot}
    {s : Slice} (hs : own x = some s) : Saved m own s := by
  refine ⟨h.lt hs, fun y t ht hst => ?_⟩
  have := h.sep y x t s ht hs hst
  subst this
  rw [hs] at ht
  cases ht
  exact Nat.le_refl _

theorem Inv.make {m : Mem α} {own : Slot → Option Slice} {aown : Slot → Option (List α)} (h : Inv m own aown) (x : Slot) :
    Inv (Slices.make m).1 (upd own x (some (Slices.make m).2)) (upd aown x (some [])) ∧ Keeps m (Slices.make m).1 ∧
    ∀ t, Saved m own t → Saved (Slices.make m).1 (upd own x (some (Slices.make m).2)) t ∧
      Slices.view (Slices.make m).1 t = Slices.view m t := by
  have hk : Keeps m (Slices.make m).1 := keeps_append _ _
  refine ⟨⟨fun y => ?_, fun y z s t hs ht hst => ?_⟩, hk, fun t ht => ⟨⟨?_, fun y s hs hst => ?_⟩, view_append _ _ ht.1⟩⟩
  · unfold upd
    by_cases hy : y = x
    · simp only [hy, if_true]; exact rep_make m
    · simp only [hy, if_false]
      exact (h.rep y).frame hk fun s hs => view_append _ _ (h.lt hs)
  · unfold upd at hs ht
    by_cases hy : y = x <;> by_cases hz : z = x
    · rw [hy, hz]
    · simp only [hy, hz, if_true, if_false] at hs ht
      have := h.lt ht
      cases hs
      simp only [Slices.make] at hst
      omega
    · simp only [hy, hz, if_true, if_false] at hs ht
      have := h.lt hs
      cases ht
      simp only [Slices.make] at hst
      omega
    · simp only [hy, hz, if_false] at hs ht
      exact h.sep y z s t hs ht hst
  · exact Nat.lt_of_lt_of_le ht.1 hk.1
  · unfold upd at hs
    by_cases hy : y = x
    · simp only [hy, if_true] at hs
      have := ht.1
      cases hs
      simp only [Slices.make] at hst
      omega
    · simp only [hy, if_false] at hs
      exact ht.2 y s hs hst

theorem Inv.append (grow : Growth) {m : Mem α} {own : Slot → Option Slice} {aown : Slot → Option (List α)}
    (h : Inv m own aown) {x : Slot} {s : Slice} {l : List α} (hs : own x = some s) (hl : aown x = some l) (e : α) :
    Inv (Slices.append grow m s [some e]).1 (upd own x (some (Slices.append grow m s [some e]).2))
      (upd aown x (some (l ++ [e]))) ∧
    Keeps m (Slices.append grow m s [some e]).1 ∧
    ∀ t, Saved m own t →
      Saved (Slices.append grow m s [some e]).1 (upd own x (some (Slices.append grow m s [some e]).2)) t ∧
      Slices.view (Slices.append grow m s [some e]).1 t = Slices.view m t := by
  have hr : Rep m s l := by have := h.rep x; rw [hs, hl] at this; exact this
  obtain ⟨h1, h2, h3, h4, h5⟩ := append_one grow hr e
  refine ⟨⟨fun y => ?_, fun y z u t hu ht hut => ?_⟩, h2, fun t ht => ⟨⟨?_, fun y u hu hut => ?_⟩, ?_⟩⟩
  · unfold upd
    by_cases hy : y = x
    · simp only [hy, if_true]; exact h1
    · simp only [hy, if_false]
      refine (h.rep y).frame h2 fun u hu => h3 u (h.lt hu) fun hus => ?_
      exact absurd (h.sep y x u s hu hs hus) hy
  · unfold upd at hu ht
    have key : ∀ {w : Slot} {v : Slice}, w ≠ x → own w = some v →
        (Slices.append grow m s [some e]).2.arr = v.arr → False := by
      intro w v hw hv he
      rcases h4 with h4 | h4
      · exact hw (h.sep w x v s hv hs (by omega))
      · have := h.lt hv; omega
    by_cases hy : y = x <;> by_cases hz : z = x
    · rw [hy, hz]
    · simp only [hy, hz, if_true, if_false] at hu ht
      cases hu
      exact (key hz ht hut).elim
    · simp only [hy, hz, if_true, if_false] at hu ht
      cases ht
      exact (key hy hu hut.symm).elim
    · simp only [hy, hz, if_false] at hu ht
      exact h.sep y z u t hu ht hut
  · exact Nat.lt_of_lt_of_le ht.1 h2.1
  · unfold upd at hu
    by_cases hy : y = x
    · simp only [hy, if_true] at hu
      cases hu
      rcases h4 with h4 | h4
      · exact Nat.le_trans (ht.2 x s hs (by omega)) h5
      · have := ht.1; omega
    · simp only [hy, if_false] at hu
      exact ht.2 y u hu hut
  · exact h3 t ht.1 fun hts => ht.2 x s hs hts.symm

/-- Make the slice if it is missing, then append. -/
def push (grow : Growth) (m : Mem α) (o : Option Slice) (e : α) : Mem α × Slice :=
  let r := match o with
    | some s => (m, s)
    | none => make m
  append grow r.1 r.2 [some e]

theorem upd_upd {β : Type} (f : Slot → β) (x : Slot) (v w : β) : upd (upd f x v) x w = upd f x w := by
  funext y; unfold upd; by_cases h : y = x <;> simp [h]

/-- The slices represent the lists; what was saved stays. -/
structure Step (m : Mem α) (own : Slot → Option Slice) (m' : Mem α) (own' : Slot → Option Slice)
    (aown' : Slot → Option (List α)) : Prop where
  inv : Inv m' own' aown'
  keeps : Keeps m m'
  saved : ∀ t, Saved m own t → Saved m' own' t ∧ Slices.view m' t = Slices.view m t

theorem Step.refl {m : Mem α} {own : Slot → Option Slice} {aown : Slot → Option (List α)} (h : Inv m own aown) :
    Step m own m own aown := ⟨h, Keeps.refl _, fun _ ht => ⟨ht, rfl⟩⟩

theorem Step.trans {m m' m'' : Mem α} {own own' own'' : Slot → Option Slice} {aown' aown'' : Slot → Option (List α)}
    (h : Step m own m' own' aown') (h' : Step m' own' m'' own'' aown'') : Step m own m'' own'' aown'' := by
  refine ⟨h'.inv, h.keeps.trans h'.keeps, fun t ht => ?_⟩
  obtain ⟨a, b⟩ := h.saved t ht
  obtain ⟨c, d⟩ := h'.saved t a
  exact ⟨c, d.trans b⟩

theorem Inv.push (grow : Growth) {m : Mem α} {own : Slot → Option Slice} {aown : Slot → Option (List α)}
    (h : Inv m own aown) (x : Slot) (e : α) :
    Step m own (Slices.push grow m (own x) e).1 (upd own x (some (Slices.push grow m (own x) e).2))
      (upd aown x (some ((aown x).getD [] ++ [e]))) := by
  have hx := h.rep x
  unfold Slices.push
  match ho : own x, ha : aown x, hx with
  | none, none, _ =>
    obtain ⟨a1, a2, a3⟩ := h.make x
    have s1 : Step m own _ _ _ := ⟨a1, a2, a3⟩
    obtain ⟨b1, b2, b3⟩ := a1.append grow (x := x) (s := (Slices.make m).2) (l := []) (by simp [upd]) (by simp [upd]) e
    have s2 : Step _ _ _ _ _ := ⟨b1, b2, b3⟩
    have := s1.trans s2
    rw [upd_upd, upd_upd] at this
    exact this
  | some s, some l, _ =>
    obtain ⟨b1, b2, b3⟩ := h.append grow ho ha e
    exact ⟨b1, b2, b3⟩
  | none, some l, hx => exact hx.elim
  | some s, none, hx => exact hx.elim

/-! ### edges.go -/

/-- The slices of an edge set by their place. -/
def own (es : SEdges) : Slot → Option Slice
  | .main => some es.edges
  | .src a b => at2 es.srcToDsts a b
  | .dst a b => at2 es.dstToSrcs a b

/-- The lists of an edge set by their place. -/
def aown (es : Edges) : Slot → Option (List Edge)
  | .main => some es.edges
  | .src a b => at2 es.srcToDsts a b
  | .dst a b => at2 es.dstToSrcs a b

theorem at2_mset_mset {β : Type} (m : Map (Map β)) (inner : Map β) (k1 k2 : Str) (v : β) (a b : Str)
    (h : ∀ b, mget inner b = at2 m k1 b) :
    at2 (mset m k1 (mset inner k2 v)) a b = if a = k1 ∧ b = k2 then some v else at2 m a b := by
  unfold at2
  rw [mget_mset]
  by_cases ha : k1 = a
  · subst ha
    simp only [if_true, Option.bind_some, mget_mset, h, at2, true_and]
    by_cases hb : k2 = b
    · simp [hb]
    · simp [hb, Ne.symm hb]
  · simp [ha, Ne.symm ha]

theorem indexAdd_spec (grow : Growth) (m : Mem Edge) (idx : Map (Map Slice)) (k1 k2 : Str) (e : Edge) :
    (indexAdd grow m idx k1 k2 e).1 = (push grow m (at2 idx k1 k2) e).1 ∧
    (∀ a b, at2 (indexAdd grow m idx k1 k2 e).2 a b =
      if a = k1 ∧ b = k2 then some (push grow m (at2 idx k1 k2) e).2 else at2 idx a b) ∧
    ∀ k, mhas (indexAdd grow m idx k1 k2 e).2 k = (decide (k1 = k) || mhas idx k) := by
  unfold indexAdd push
  by_cases hh : mhas idx k1
  · obtain ⟨inner, hi⟩ := (mhas_iff_mget _ _).1 hh
    have hat : ∀ b, mget inner b = at2 idx k1 b := fun b => by simp [at2, hi]
    simp only [hh, if_true, hi, Option.getD_some, hat]
    refine ⟨by cases at2 idx k1 k2 <;> rfl, fun a b => ?_, fun k => by rw [mhas_mset]⟩
    rw [at2_mset_mset _ _ _ _ _ _ _ hat]
    cases at2 idx k1 k2 <;> rfl
  · have hn : mget idx k1 = none := by
      simpa [mhas] using hh
    have hat : ∀ b, at2 idx k1 b = none := fun b => by simp [at2, hn]
    have hat' : ∀ b, mget ([] : Map Slice) b = at2 (mset idx k1 []) k1 b := fun b => by simp [at2, mget_mset_self]
    have hf : mhas idx k1 = false := by simpa using hh
    simp only [hf, Bool.false_eq_true, if_false, mget_mset_self, Option.getD_some, hat, mget]
    refine ⟨trivial, fun a b => ?_, fun k => by rw [mhas_mset, mhas_mset]; cases decide (k1 = k) <;> rfl⟩
    rw [at2_mset_mset _ _ _ _ _ _ _ hat']
    by_cases hab : a = k1 ∧ b = k2
    · simp [hab]
    · simp only [hab, if_false]
      by_cases ha : k1 = a
      · subst ha; simp [at2, mget_mset_self, hn, mget]
      · simp [at2, mget_mset_ne _ _ ha]

theorem edgeIndexAdd_spec (idx : Map (Map (List Edge))) (k1 k2 : Str) (e : Edge) :
    (∀ a b, at2 (edgeIndexAdd idx k1 k2 e) a b =
      if a = k1 ∧ b = k2 then some ((at2 idx k1 k2).getD [] ++ [e]) else at2 idx a b) ∧
    ∀ k, mhas (edgeIndexAdd idx k1 k2 e) k = (decide (k1 = k) || mhas idx k) := by
  have key : ∀ (idx : Map (Map (List Edge))) (inner : Map (List Edge)) (a b : Str), mget idx k1 = some inner →
      at2 (mset idx k1 (mset (if mhas inner k2 then inner else mset inner k2 []) k2
        ((mget (if mhas inner k2 then inner else mset inner k2 []) k2).getD [] ++ [e]))) a b =
      if a = k1 ∧ b = k2 then some ((at2 idx k1 k2).getD [] ++ [e]) else at2 idx a b := by
    intro idx inner a b hi
    have hk : (mget (if mhas inner k2 then inner else mset inner k2 []) k2).getD [] = (at2 idx k1 k2).getD [] := by
      by_cases hh : mhas inner k2
      · simp [hh, at2, hi]
      · have : mget inner k2 = none := by simpa [mhas] using hh
        simp [hh, at2, hi, mget_mset_self, this]
    rw [hk]
    unfold at2
    rw [mget_mset]
    by_cases ha : k1 = a
    · subst ha
      simp only [if_true, Option.bind_some, mget_mset, true_and]
      by_cases hb : k2 = b
      · simp [hb]
      · simp only [hb, if_false, Ne.symm hb, hi, Option.bind_some]
        by_cases hh : mhas inner k2
        · simp [hh]
        · simp [hh, mget_mset_ne _ _ hb]
    · simp [ha, Ne.symm ha]
  unfold edgeIndexAdd
  by_cases hh : mhas idx k1
  · obtain ⟨inner, hi⟩ := (mhas_iff_mget _ _).1 hh
    simp only [hh, if_true, hi, Option.getD_some]
    exact ⟨fun a b => key idx inner a b hi, fun k => by rw [mhas_mset]⟩
  · have hn : mget idx k1 = none := by
      simpa [mhas] using hh
    have hf : mhas idx k1 = false := by simpa using hh
    simp only [hf, Bool.false_eq_true, if_false]
    refine ⟨fun a b => ?_, fun k => by rw [mhas_mset, mhas_mset]; cases decide (k1 = k) <;> rfl⟩
    have := key (mset idx k1 []) [] a b (mget_mset_self _ _ _)
    simp only [mget_mset_self, Option.getD_some]
    rw [this]
    have h1 : at2 (mset idx k1 []) k1 k2 = at2 idx k1 k2 := by simp [at2, mget_mset_self, hn, mget]
    rw [h1]
    by_cases hab : a = k1 ∧ b = k2
    · simp [hab]
    · simp only [hab, if_false]
      by_cases ha : k1 = a
      · subst ha; simp [at2, mget_mset_self, hn, mget]
      · simp [at2, mget_mset_ne _ _ ha]

/-- The same keys in the outer maps. -/
def SameKeys (es : SEdges) (a : Edges) : Prop :=
  (∀ k, mhas es.srcToDsts k = mhas a.srcToDsts k) ∧ ∀ k, mhas es.dstToSrcs k = mhas a.dstToSrcs k

theorem SEdges.add_step (grow : Growth) {m : Mem Edge} {es : SEdges} {a : Edges} (h : Inv m (own es) (aown a))
    (hkeys : SameKeys es a) (e : Edge) :
    Step m (own es) (es.add grow m e).1 (own (es.add grow m e).2) (aown (a.add e)) ∧
    SameKeys (es.add grow m e).2 (a.add e) := by
  obtain ⟨i1, i2, i3⟩ := indexAdd_spec grow m es.srcToDsts e.src e.dst e
  have s1 := h.push grow (.src e.src e.dst) e
  obtain ⟨j1, j2, j3⟩ := indexAdd_spec grow (push grow m (at2 es.srcToDsts e.src e.dst) e).1 es.dstToSrcs e.dst e.src e
  have s2 := s1.inv.push grow (.dst e.dst e.src) e
  have s3 := s2.inv.push grow .main e
  have st := (s1.trans s2).trans s3
  obtain ⟨x1, x2⟩ := edgeIndexAdd_spec a.srcToDsts e.src e.dst e
  obtain ⟨y1, y2⟩ := edgeIndexAdd_spec a.dstToSrcs e.dst e.src e
  have hadd : es.add grow m e =
      ((append grow (indexAdd grow (indexAdd grow m es.srcToDsts e.src e.dst e).1 es.dstToSrcs e.dst e.src e).1
          es.edges [some e]).1,
        ⟨(indexAdd grow m es.srcToDsts e.src e.dst e).2,
          (indexAdd grow (indexAdd grow m es.srcToDsts e.src e.dst e).1 es.dstToSrcs e.dst e.src e).2,
          (append grow (indexAdd grow (indexAdd grow m es.srcToDsts e.src e.dst e).1 es.dstToSrcs e.dst e.src e).1
            es.edges [some e]).2⟩) := rfl
  rw [hadd, i1, j1]
  refine ⟨?_, fun k => ?_, fun k => ?_⟩
  · have ho : own ⟨(indexAdd grow m es.srcToDsts e.src e.dst e).2,
          (indexAdd grow (push grow m (at2 es.srcToDsts e.src e.dst) e).1 es.dstToSrcs e.dst e.src e).2,
          (append grow (push grow (push grow m (at2 es.srcToDsts e.src e.dst) e).1 (at2 es.dstToSrcs e.dst e.src) e).1
            es.edges [some e]).2⟩ =
        upd (upd (upd (own es) (.src e.src e.dst) (some (push grow m (at2 es.srcToDsts e.src e.dst) e).2))
          (.dst e.dst e.src)
            (some (push grow (push grow m (at2 es.srcToDsts e.src e.dst) e).1 (at2 es.dstToSrcs e.dst e.src) e).2))
          .main (some (append grow (push grow (push grow m (at2 es.srcToDsts e.src e.dst) e).1
            (at2 es.dstToSrcs e.dst e.src) e).1 es.edges [some e]).2) := by
      funext x
      cases x with
      | main => simp [own, upd]
      | src x y => simp [own, upd, i2]
      | dst x y => simp [own, upd, j2]
    have ha : aown (a.add e) = upd (upd (upd (aown a) (.src e.src e.dst)
        (some ((at2 a.srcToDsts e.src e.dst).getD [] ++ [e]))) (.dst e.dst e.src)
        (some ((at2 a.dstToSrcs e.dst e.src).getD [] ++ [e]))) .main (some (a.edges ++ [e])) := by
      funext x
      cases x with
      | main => simp [aown, upd, Edges.add]
      | src x y => simp [aown, upd, Edges.add, x1]
      | dst x y => simp [aown, upd, Edges.add, y1]
    rw [ho, ha]
    exact st
  · show mhas (indexAdd grow m es.srcToDsts e.src e.dst e).2 k = mhas (edgeIndexAdd a.srcToDsts e.src e.dst e) k
    rw [i3, x2, hkeys.1]
  · show mhas (indexAdd grow (push grow m (at2 es.srcToDsts e.src e.dst) e).1 es.dstToSrcs e.dst e.src e).2 k =
      mhas (edgeIndexAdd a.dstToSrcs e.dst e.src e) k
    rw [j3, y2, hkeys.2]

/-- `NewEdges` -/
theorem newSEdges_step {m : Mem Edge} {es : SEdges} {a : Edges} (h : Inv m (own es) (aown a)) :
    Step m (own es) (newSEdges m).1 (own (newSEdges m).2) (aown newEdges) ∧ SameKeys (newSEdges m).2 newEdges := by
  have hk : Keeps m (newSEdges m).1 := keeps_append _ _
  have ho : ∀ x s, own (newSEdges m).2 x = some s → x = .main ∧ s = ⟨m.length, 0, 0⟩ := by
    intro x s hs
    cases x with
    | main => simp [own, newSEdges, make] at hs; exact ⟨rfl, hs.symm⟩
    | src a b => simp [own, newSEdges, at2, mget] at hs
    | dst a b => simp [own, newSEdges, at2, mget] at hs
  refine ⟨⟨⟨fun x => ?_, fun x y s t hs ht _ => ?_⟩, hk, fun t ht => ⟨⟨?_, fun x s hs hst => ?_⟩, view_append _ _ ht.1⟩⟩,
    fun k => rfl, fun k => rfl⟩
  · cases x with
    | main => exact rep_make m
    | src a b => simp [own, aown, newSEdges, newEdges, at2, mget, OptRep]
    | dst a b => simp [own, aown, newSEdges, newEdges, at2, mget, OptRep]
  · rw [(ho x s hs).1, (ho y t ht).1]
  · exact Nat.lt_of_lt_of_le ht.1 hk.1
  · have := (ho x s hs).2
    have := ht.1
    subst s
    simp only at hst
    omega

theorem cell_of_view {m : Mem α} {s : Slice} {l : List α} (h : Slices.view m s = l.map some) (i : Nat) :
    cell m s i = l[i]? := by
  unfold cell
  rw [h, List.getElem?_map]
  cases l[i]? <;> rfl

theorem rebuildLoop_step (grow : Growth) (keep : Edge → Bool) (old : Slice) {l : List Edge} :
    ∀ (n k : Nat) {m : Mem Edge} {es : SEdges} {a : Edges}, k + n = l.length → Slices.view m old = l.map some →
    Saved m (own es) old → Inv m (own es) (aown a) → SameKeys es a →
    Step m (own es) (rebuildLoop grow keep old (List.range' k n) m es).1
      (own (rebuildLoop grow keep old (List.range' k n) m es).2)
      (aown ((l.drop k).foldl (fun acc e => if keep e then acc.add e else acc) a)) ∧
    SameKeys (rebuildLoop grow keep old (List.range' k n) m es).2
      ((l.drop k).foldl (fun acc e => if keep e then acc.add e else acc) a) := by
  intro n
  induction n with
  | zero =>
    intro k m es a hk hv hs hi hkeys
    rw [List.drop_of_length_le (by omega)]
    exact ⟨Step.refl hi, hkeys⟩
  | succ n ih =>
    intro k m es a hk hv hs hi hkeys
    have hlt : k < l.length := by omega
    rw [List.range'_succ, List.drop_eq_getElem_cons hlt, List.foldl_cons]
    unfold rebuildLoop
    rw [cell_of_view hv, List.getElem?_eq_getElem hlt]
    dsimp only
    by_cases hke : keep l[k]
    · simp only [hke, if_true]
      obtain ⟨st, hkeys'⟩ := SEdges.add_step grow hi hkeys l[k]
      obtain ⟨hs', hv'⟩ := st.saved _ hs
      obtain ⟨st', hk'⟩ := ih (k + 1) (by omega) (hv'.trans hv) hs' st.inv hkeys'
      exact ⟨st.trans st', hk'⟩
    · simp only [hke]
      exact ih (k + 1) (by omega) hv hs hi hkeys

theorem rebuild_step (grow : Growth) (keep : Edge → Bool) {m : Mem Edge} {es : SEdges} {a : Edges}
    (h : Inv m (own es) (aown a)) :
    Step m (own es) (rebuild grow keep m es).1 (own (rebuild grow keep m es).2) (aown (edgesRebuild keep a.edges)) ∧
    SameKeys (rebuild grow keep m es).2 (edgesRebuild keep a.edges) := by
  obtain ⟨st, hkeys⟩ := newSEdges_step h
  have hr : Rep m es.edges a.edges := h.rep .main
  obtain ⟨hs, hv⟩ := st.saved _ (h.saved (x := .main) rfl)
  obtain ⟨st', hk⟩ := rebuildLoop_step grow keep es.edges (l := a.edges) es.edges.len 0 (by rw [hr.len]; omega)
    (hv.trans hr.view) hs st.inv hkeys
  rw [List.drop_zero, ← List.range_eq_range'] at st' hk
  exact ⟨st.trans st', hk⟩

/-! ### nodes.go -/

/-- The nodes with slices represent the nodes with lists. -/
structure NRep (ns : SNodes) (a : Nodes) : Prop where
  heap : ns.heap = a.heap
  lookup : ns.lookup = a.lookup
  rep : Rep ns.mem ns.slice a.list

/-- Later additions do not reach the cells of `t`. -/
def NSaved (ns : SNodes) (t : Slice) : Prop := t.arr < ns.mem.length ∧ (t.arr = ns.slice.arr → t.len ≤ ns.slice.len)

theorem NRep.add (grow : Growth) {ns : SNodes} {a : Nodes} (h : NRep ns a) (n : Node) :
    NRep (ns.add grow n) (a.add n) ∧
    ∀ t, NSaved ns t → NSaved (ns.add grow n) t ∧ Slices.view (ns.add grow n).mem t = Slices.view ns.mem t := by
  unfold SNodes.add Nodes.add
  rw [h.lookup]
  cases hl : mget a.lookup n.name with
  | some p => exact ⟨⟨by simp [Nodes.updateAttrs, h.heap], rfl, h.rep⟩, fun t ht => ⟨ht, rfl⟩⟩
  | none =>
    rw [h.heap]
    obtain ⟨h1, h2, h3, h4, h5⟩ := append_one grow h.rep a.heap.length
    refine ⟨⟨rfl, rfl, h1⟩, fun t ht => ⟨⟨Nat.lt_of_lt_of_le ht.1 h2.1, fun hta => ?_⟩, h3 t ht.1 ht.2⟩⟩
    dsimp only at hta ⊢
    rcases h4 with h4 | h4
    · exact Nat.le_trans (ht.2 (by omega)) h5
    · have := ht.1; omega

theorem removeLoop_eq (ns : Nodes) (name : Str) (l : List Nat) :
    ns.removeLoop name l =
      (l.findIdx? (fun p => (ns.heap[p]?).map Node.name = some name)).map (fun i => l.eraseIdx i) := by
  induction l with
  | nil => rfl
  | cons p ps ih =>
    unfold Nodes.removeLoop Nodes.deref
    rw [List.findIdx?_cons]
    by_cases hp : (ns.heap[p]?).map Node.name = some name
    · simp [hp]
    · simp only [hp, if_false, decide_false, Bool.false_eq_true, ih, Option.map_map]
      rfl

/-- The in-place shift of `append(s[:i], s[i+1:]...)`. -/
theorem shift (grow : Growth) {m : Mem α} {s : Slice} {l : List α} (h : Rep m s l) {i : Nat} (hi : i < l.length) :
    Rep (append grow m (s.upto i) ((Slices.view m s).drop (i + 1))).1
      (append grow m (s.upto i) ((Slices.view m s).drop (i + 1))).2 (l.eraseIdx i) ∧
    (append grow m (s.upto i) ((Slices.view m s).drop (i + 1))).2 = { s with len := l.length - 1 } ∧
    Keeps m (append grow m (s.upto i) ((Slices.view m s).drop (i + 1))).1 ∧
    (∀ t : Slice, t.arr ≠ s.arr →
      Slices.view (append grow m (s.upto i) ((Slices.view m s).drop (i + 1))).1 t = Slices.view m t) ∧
    (∀ t : Slice, t.arr = s.arr → s.len ≤ t.len →
      Slices.view (append grow m (s.upto i) ((Slices.view m s).drop (i + 1))).1 t =
        (l.eraseIdx i).map some ++ (Slices.view m t).drop (l.length - 1)) := by
  obtain ⟨a, ha, hl⟩ := h.arr
  have hcap := h.cap
  have hlen := h.len
  have hview := h.view
  have hva : a.take s.len = l.map some := by rw [← view_of ha]; exact hview
  have hd : ((Slices.view m s).drop (i + 1)).length = l.length - (i + 1) := by rw [hview]; simp
  have hai : a.take i = (l.take i).map some := by
    rw [List.map_take, ← hva, List.take_take, Nat.min_eq_left (by omega)]
  have he : (l.eraseIdx i).map some = a.take i ++ (Slices.view m s).drop (i + 1) := by
    rw [List.eraseIdx_eq_take_drop_succ, List.map_append, hai, hview, List.map_drop]
  have hel : (l.eraseIdx i).length = l.length - 1 := List.length_eraseIdx_of_lt hi
  unfold append
  have hc : (s.upto i).len + ((Slices.view m s).drop (i + 1)).length ≤ (s.upto i).cap := by
    rw [hd]; simp only [Slice.upto]; omega
  rw [if_pos hc]
  have hn : i + (l.length - (i + 1)) = l.length - 1 := by omega
  simp only [Slice.upto, hd, hn]
  have hm : (m.modify s.arr (fun a => overwrite a i ((Slices.view m s).drop (i + 1))))[s.arr]? =
      some (overwrite a i ((Slices.view m s).drop (i + 1))) := by
    rw [List.getElem?_modify]; simp [ha]
  have hol : (overwrite a i ((Slices.view m s).drop (i + 1))).length = a.length :=
    overwrite_length _ _ _ (by rw [hd]; omega)
  have hot : (overwrite a i ((Slices.view m s).drop (i + 1))).take (l.length - 1) = (l.eraseIdx i).map some := by
    have := overwrite_take a i ((Slices.view m s).drop (i + 1)) (by omega)
    rw [hd, hn] at this
    rw [this, he]
  refine ⟨⟨?_, by simp [hel], by simp only; omega, _, hm, hol.trans hl⟩, by simp, ?_, ?_, ?_⟩
  · rw [view_of (s := ⟨s.arr, l.length - 1, s.cap⟩) hm]
    exact hot
  · refine keeps_modify _ _ _ fun a' ha' => ?_
    rw [ha] at ha'
    cases ha'
    exact hol
  · intro t ht
    unfold Slices.view
    rw [List.getElem?_modify]
    simp [Ne.symm ht]
  · intro t ht hlt
    have hm' : (m.modify s.arr (fun a => overwrite a i ((Slices.view m s).drop (i + 1))))[t.arr]? =
      some (overwrite a i ((Slices.view m s).drop (i + 1))) := by rw [ht]; exact hm
    have ha' : m[t.arr]? = some a := by rw [ht]; exact ha
    rw [view_of hm', view_of ha']
    unfold overwrite
    rw [← he, hd, hn, List.take_append, List.take_of_length_le (by simp [hel]; omega)]
    congr 1
    rw [List.length_map, hel, List.drop_take]

theorem NRep.remove (grow : Growth) {ns : SNodes} {a : Nodes} (h : NRep ns a) (name : Str) :
    NRep (ns.remove grow name).1 (a.remove name).1 ∧ (ns.remove grow name).2 = (a.remove name).2 := by
  unfold SNodes.remove Nodes.remove
  dsimp only
  rw [removeLoop_eq]
  have hf : (Slices.view ns.mem ns.slice).findIdx? (fun p => (p.bind (ns.heap[·]?)).map Node.name = some name) =
      a.list.findIdx? (fun p => (a.heap[p]?).map Node.name = some name) := by
    rw [h.rep.view, List.findIdx?_map, h.heap]; rfl
  rw [hf]
  cases hi : a.list.findIdx? (fun p => (a.heap[p]?).map Node.name = some name) with
  | none => exact ⟨h, rfl⟩
  | some i =>
    have hlt : i < a.list.length := (List.findIdx?_eq_some_iff_getElem.1 hi).1
    obtain ⟨h1, _⟩ := shift grow h.rep hlt
    exact ⟨⟨h.heap, by simp [h.lookup], h1⟩, rfl⟩

/-! ### graph.go -/

/-- The fields without slices agree. -/
structure RestEq (a b : Graph) : Prop where
  attrs : a.attrs = b.attrs
  name : a.name = b.name
  directed : a.directed = b.directed
  strict : a.strict = b.strict
  subGraphs : a.subGraphs = b.subGraphs
  relations : a.relations = b.relations

theorem RestEq.addAttr {a b : Graph} (h : RestEq a b) (p k v : Str) :
    RestEq (a.addAttr p k v).1 (b.addAttr p k v).1 ∧ (a.addAttr p k v).2 = (b.addAttr p k v).2 ∧
    (b.addAttr p k v).1.nodes = b.nodes ∧ (b.addAttr p k v).1.edges = b.edges := by
  unfold Graph.addAttr
  rw [h.name, h.attrs, h.subGraphs]
  split
  · split
    · exact ⟨h, rfl, rfl, rfl⟩
    · exact ⟨⟨rfl, rfl, h.directed, h.strict, rfl, h.relations⟩, rfl, rfl, rfl⟩
  · split
    · exact ⟨h, rfl, rfl, rfl⟩
    · split
      · exact ⟨h, rfl, rfl, rfl⟩
      · exact ⟨⟨rfl, rfl, h.directed, h.strict, rfl, h.relations⟩, rfl, rfl, rfl⟩

theorem RestEq.addAttrs {a b : Graph} (h : RestEq a b) (p : Str) (kvs : List (Str × Str)) :
    RestEq (a.addAttrs p kvs).1 (b.addAttrs p kvs).1 ∧ (a.addAttrs p kvs).2 = (b.addAttrs p kvs).2 ∧
    (b.addAttrs p kvs).1.nodes = b.nodes ∧ (b.addAttrs p kvs).1.edges = b.edges := by
  induction kvs generalizing a b with
  | nil => exact ⟨h, rfl, rfl, rfl⟩
  | cons e rest ih =>
    obtain ⟨k, v⟩ := e
    obtain ⟨h1, h2, h3, h4⟩ := h.addAttr p k v
    unfold Graph.addAttrs
    generalize hA : a.addAttr p k v = A at h1 h2 h3 h4 ⊢
    generalize hB : b.addAttr p k v = B at h1 h2 h3 h4 ⊢
    obtain ⟨a', ea⟩ := A
    obtain ⟨b', eb⟩ := B
    dsimp only at h1 h2 h3 h4
    subst h2
    cases ea with
    | some e => exact ⟨h1, rfl, h3, h4⟩
    | none =>
      obtain ⟨i1, i2, i3, i4⟩ := ih h1
      exact ⟨i1, i2, i3.trans h3, i4.trans h4⟩

/-- The graph with slices represents the graph with lists. -/
structure GRep (sg : SGraph) (g : Graph) : Prop where
  rest : RestEq sg.rest g
  nodes : NRep sg.nodes g.nodes
  edges : Inv sg.emem (own sg.edges) (aown g.edges)
  keys : SameKeys sg.edges g.edges

/-- A call represents the call, and the slices of edges saved before show the same edges after it. -/
structure GStep (sg : SGraph) (r : SGraph × Option Err) (q : Graph × Option Err) : Prop where
  rep : GRep r.1 q.1
  err : r.2 = q.2
  saved : ∀ t, Saved sg.emem (own sg.edges) t →
    Saved r.1.emem (own r.1.edges) t ∧ Slices.view r.1.emem t = Slices.view sg.emem t

theorem GRep.addPortEdge (grow : Growth) {sg : SGraph} {g : Graph} (h : GRep sg g) (s sp d dp : Str) (dir : Bool)
    (as : List (Str × Str)) : GStep sg (sg.addPortEdge grow s sp d dp dir as) (g.addPortEdge s sp d dp dir as) := by
  unfold SGraph.addPortEdge Graph.addPortEdge
  cases newAttrs as with
  | error e => exact ⟨h, rfl, fun t ht => ⟨ht, rfl⟩⟩
  | ok m =>
    obtain ⟨st, hk⟩ := SEdges.add_step grow h.edges h.keys ⟨s, sp, d, dp, dir, m⟩
    exact ⟨⟨⟨h.rest.attrs, h.rest.name, h.rest.directed, h.rest.strict, h.rest.subGraphs, h.rest.relations⟩, h.nodes, st.inv, hk⟩, rfl, st.saved⟩

theorem GRep.addNode (grow : Growth) {sg : SGraph} {g : Graph} (h : GRep sg g) (p n : Str) (as : List (Str × Str)) :
    GStep sg (sg.addNode grow p n as) (g.addNode p n as) := by
  unfold SGraph.addNode Graph.addNode
  cases newAttrs as with
  | error e => exact ⟨h, rfl, fun t ht => ⟨ht, rfl⟩⟩
  | ok m =>
    exact ⟨⟨⟨h.rest.attrs, h.rest.name, h.rest.directed, h.rest.strict, h.rest.subGraphs, by simp [h.rest.relations]⟩,
      (h.nodes.add grow ⟨n, m⟩).1, h.edges, h.keys⟩, rfl, fun t ht => ⟨ht, rfl⟩⟩

theorem GRep.removeNode (grow : Growth) {sg : SGraph} {g : Graph} (h : GRep sg g) (p n : Str) :
    GStep sg (sg.removeNode grow p n) (g.removeNode p n) := by
  unfold SGraph.removeNode Graph.removeNode
  obtain ⟨h1, h2⟩ := h.nodes.remove grow n
  generalize sg.nodes.remove grow n = A at h1 h2 ⊢
  generalize g.nodes.remove n = B at h1 h2 ⊢
  obtain ⟨a, ea⟩ := A
  obtain ⟨b, eb⟩ := B
  dsimp only at h1 h2
  subst h2
  cases ea with
  | some e => exact ⟨h, rfl, fun t ht => ⟨ht, rfl⟩⟩
  | none =>
    obtain ⟨st, hk⟩ := rebuild_step grow (fun e => !(decide (e.dst = n) || decide (e.src = n))) h.edges
    exact ⟨⟨⟨h.rest.attrs, h.rest.name, h.rest.directed, h.rest.strict, h.rest.subGraphs, by simp [h.rest.relations]⟩,
      h1, st.inv, hk⟩, rfl, st.saved⟩

theorem GRep.removeNodes (grow : Growth) (p : Str) (cs : List Str) {sg : SGraph} {g : Graph} (h : GRep sg g) :
    GStep sg (sg.removeNodes grow p cs) (g.removeNodes p cs) := by
  induction cs generalizing sg g with
  | nil => exact ⟨h, rfl, fun t ht => ⟨ht, rfl⟩⟩
  | cons c cs ih =>
    have h1 := h.removeNode grow p c
    unfold SGraph.removeNodes Graph.removeNodes
    generalize sg.removeNode grow p c = A at h1 ⊢
    generalize g.removeNode p c = B at h1 ⊢
    obtain ⟨a, ea⟩ := A
    obtain ⟨b, eb⟩ := B
    have h2 := h1.err
    dsimp only at h2
    subst h2
    cases ea with
    | some e => exact h1
    | none =>
      have h3 := ih h1.rep
      refine ⟨h3.rep, h3.err, fun t ht => ?_⟩
      obtain ⟨x, y⟩ := h1.saved t ht
      obtain ⟨z, w⟩ := h3.saved t x
      exact ⟨z, w.trans y⟩

theorem GRep.removeSubGraph (grow : Growth) {sg : SGraph} {g : Graph} (h : GRep sg g) (p n : Str) (o : List Str) :
    GStep sg (sg.removeSubGraph grow p n o) (g.removeSubGraph p n o) := by
  unfold SGraph.removeSubGraph Graph.removeSubGraph
  have h1 := h.removeNodes grow p o
  generalize sg.removeNodes grow p o = A at h1 ⊢
  generalize g.removeNodes p o = B at h1 ⊢
  obtain ⟨a, ea⟩ := A
  obtain ⟨b, eb⟩ := B
  have h2 := h1.err
  dsimp only at h2
  subst h2
  cases ea with
  | some e => exact h1
  | none =>
    have h3 := h1.rep
    obtain ⟨st, hk⟩ := rebuild_step grow (fun e => !(decide (e.dst = n) || decide (e.dstPort = n) ||
                    decide (e.src = n) || decide (e.srcPort = n))) h3.edges
    refine ⟨⟨⟨h3.rest.attrs, h3.rest.name, h3.rest.directed, h3.rest.strict, ?_, ?_⟩, h3.nodes, st.inv, hk⟩, rfl,
      fun t ht => ?_⟩
    · simp only; rw [h3.rest.subGraphs]
    · simp only; rw [h3.rest.relations]
    · obtain ⟨x, y⟩ := h1.saved t ht
      obtain ⟨z, w⟩ := st.saved t x
      exact ⟨z, w.trans y⟩

theorem GRep.step (grow : Growth) {sg : SGraph} {g : Graph} (h : GRep sg g) (op : Op) :
    GStep sg (sg.step grow op) (g.step op) := by
  cases op with
  | addPortEdge s sp d dp dir as => exact h.addPortEdge grow s sp d dp dir as
  | addEdge s d dir as => exact h.addPortEdge grow s [] d [] dir as
  | addNode p n as => exact h.addNode grow p n as
  | removeNode p n => exact h.removeNode grow p n
  | removeSubGraph p n o => exact h.removeSubGraph grow p n o
  | setStrict b =>
    exact ⟨⟨⟨h.rest.attrs, h.rest.name, h.rest.directed, rfl, h.rest.subGraphs, h.rest.relations⟩, h.nodes, h.edges, h.keys⟩,
      rfl, fun t ht => ⟨ht, rfl⟩⟩
  | setDir b =>
    exact ⟨⟨⟨h.rest.attrs, h.rest.name, rfl, h.rest.strict, h.rest.subGraphs, h.rest.relations⟩, h.nodes, h.edges, h.keys⟩,
      rfl, fun t ht => ⟨ht, rfl⟩⟩
  | setName b =>
    exact ⟨⟨⟨h.rest.attrs, rfl, h.rest.directed, h.rest.strict, h.rest.subGraphs, h.rest.relations⟩, h.nodes, h.edges, h.keys⟩,
      rfl, fun t ht => ⟨ht, rfl⟩⟩
  | addAttr p k v =>
    obtain ⟨h1, h2, h3, h4⟩ := h.rest.addAttr p k v
    refine ⟨⟨h1, ?_, ?_, ?_⟩, h2, fun t ht => ⟨ht, rfl⟩⟩
    · show NRep sg.nodes (g.addAttr p k v).1.nodes
      rw [h3]; exact h.nodes
    · show Inv sg.emem (own sg.edges) (aown (g.addAttr p k v).1.edges)
      rw [h4]; exact h.edges
    · show SameKeys sg.edges (g.addAttr p k v).1.edges
      rw [h4]; exact h.keys
  | addSubGraph p n as =>
    have h0 : RestEq { sg.rest with relations := sg.rest.relations.add p n, subGraphs := subGraphsAdd sg.rest.subGraphs n }
        { g with relations := g.relations.add p n, subGraphs := subGraphsAdd g.subGraphs n } :=
      ⟨h.rest.attrs, h.rest.name, h.rest.directed, h.rest.strict, by simp [h.rest.subGraphs], by simp [h.rest.relations]⟩
    obtain ⟨h1, h2, h3, h4⟩ := h0.addAttrs n as
    refine ⟨⟨h1, ?_, ?_, ?_⟩, h2, fun t ht => ⟨ht, rfl⟩⟩
    · show NRep sg.nodes (g.addSubGraph p n as).1.nodes
      unfold Graph.addSubGraph; rw [h3]; exact h.nodes
    · show Inv sg.emem (own sg.edges) (aown (g.addSubGraph p n as).1.edges)
      unfold Graph.addSubGraph; rw [h4]; exact h.edges
    · show SameKeys sg.edges (g.addSubGraph p n as).1.edges
      unfold Graph.addSubGraph; rw [h4]; exact h.keys

theorem grep_new : GRep newSGraph newGraph := by
  refine ⟨⟨rfl, rfl, rfl, rfl, rfl, rfl⟩, ⟨rfl, rfl, rep_make []⟩, ⟨fun x => ?_, fun x y s t hs ht _ => ?_⟩, fun _ => rfl, fun _ => rfl⟩
  · cases x with
    | main => exact rep_make []
    | src a b => simp [own, aown, newSGraph, newGraph, newSEdges, newEdges, at2, mget, OptRep]
    | dst a b => simp [own, aown, newSGraph, newGraph, newSEdges, newEdges, at2, mget, OptRep]
  · have ho : ∀ x s, own newSGraph.edges x = some s → x = .main := by
      intro x s hs
      cases x with
      | main => rfl
      | src a b => simp [own, newSGraph, newSEdges, at2, mget] at hs
      | dst a b => simp [own, newSGraph, newSEdges, at2, mget] at hs
    rw [ho x s hs, ho y t ht]

theorem GRep.run (grow : Growth) (ops : List Op) {sg : SGraph} {g : Graph} (h : GRep sg g) :
    GRep (sg.run grow ops) (g.run ops) ∧ sg.runErrs grow ops = g.runErrs ops ∧
    ∀ t, Saved sg.emem (own sg.edges) t → Slices.view (sg.run grow ops).emem t = Slices.view sg.emem t := by
  induction ops generalizing sg g with
  | nil => exact ⟨h, rfl, fun _ _ => rfl⟩
  | cons op ops ih =>
    have h1 := h.step grow op
    obtain ⟨h2, h3, h4⟩ := ih h1.rep
    refine ⟨h2, ?_, fun t ht => ?_⟩
    · show (sg.step grow op).2 :: _ = (g.step op).2 :: _
      rw [h1.err, h3]
    · obtain ⟨x, y⟩ := h1.saved t ht
      exact (h4 t x).trans y

theorem GRep.same {sg : SGraph} {g : Graph} (h : GRep sg g) : SameContents sg g := by
  have hm : ∀ x, (own sg.edges x).map (Slices.view sg.emem) = (aown g.edges x).map (List.map some) := by
    intro x
    have := h.edges.rep x
    match ho : own sg.edges x, ha : aown g.edges x, this with
    | none, none, _ => rfl
    | some s, some l, h => simp [Rep.view (l := l) h]
    | none, some l, h => exact h.elim
    | some s, none, h => exact h.elim
  exact ⟨h.rest.attrs, h.rest.name, h.rest.directed, h.rest.strict, h.rest.subGraphs, h.rest.relations, h.nodes.heap,
    h.nodes.lookup, h.nodes.rep.view, (h.edges.rep .main).view, h.keys.1, h.keys.2, fun a b => hm (.src a b),
    fun a b => hm (.dst a b)⟩

end Gographviz.Slices
