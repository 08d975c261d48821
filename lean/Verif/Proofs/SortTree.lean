import Verif.Model.Threads
import Verif.Props.WriteProps
/-!
`sort.Sort` seen from its callbacks: what it does to addresses is what it does to the values behind them; it only permutes; an insertion sort
meets the contract.
-/
namespace Gographviz.Threads

open Gographviz

variable {β γ : Type}

theorem swapAt_map (f : β → γ) (l : List β) (i j : Nat) : swapAt (l.map f) i j = (swapAt l i j).map (List.map f) := by
  unfold swapAt
  simp only [List.getElem?_map]
  cases l[i]? with
  | none => rfl
  | some x =>
    cases l[j]? with
    | none => rfl
    | some y => simp [List.map_set]

theorem SortTree.run_map (f : β → γ) (lt : γ → γ → Bool) (t : SortTree) : ∀ l : List β,
    t.run lt (l.map f) = (t.run (fun a b => lt (f a) (f b)) l).map (List.map f) := by
  induction t with
  | done => exact fun l => rfl
  | less i j k ih =>
    intro l
    simp only [SortTree.run, List.getElem?_map]
    cases l[i]? with
    | none => rfl
    | some x =>
      cases l[j]? with
      | none => rfl
      | some y => exact ih _ l
  | swap i j k ih =>
    intro l
    simp only [SortTree.run, swapAt_map]
    cases swapAt l i j with
    | none => rfl
    | some l' => exact ih l'

theorem swapAt_perm {l l' : List β} {i j : Nat} (h : swapAt l i j = some l') : l'.Perm l := by
  unfold swapAt at h
  split at h
  · rename_i x y hx hy
    cases h
    obtain ⟨hi, rfl⟩ := List.getElem?_eq_some_iff.1 hx
    obtain ⟨hj, rfl⟩ := List.getElem?_eq_some_iff.1 hy
    exact List.set_set_perm hi hj
  · cases h

theorem SortTree.run_perm (lt : β → β → Bool) (t : SortTree) : ∀ {l l' : List β}, t.run lt l = some l' → l'.Perm l := by
  induction t with
  | done =>
    intro l l' h
    cases h
    exact List.Perm.refl _
  | less i j k ih =>
    intro l l' h
    simp only [SortTree.run] at h
    split at h
    · exact ih _ h
    · cases h
  | swap i j k ih =>
    intro l l' h
    simp only [SortTree.run] at h
    cases hs : swapAt l i j with
    | none => rw [hs] at h; cases h
    | some l1 =>
      rw [hs] at h
      exact (ih h).trans (swapAt_perm hs)

theorem edgeLess_negtrans (a b c : Edge) (h : edgeLess a b = false) (h' : edgeLess b c = false) : edgeLess a c = false := by
  obtain ⟨_, _, ht, hi⟩ := Props.C13_strict_weak_order
  cases hac : edgeLess a c with
  | false => rfl
  | true =>
    cases hba : edgeLess b a with
    | true => rw [ht b a c hba hac] at h'; cases h'
    | false =>
      cases hcb : edgeLess c b with
      | true => rw [ht a c b hac hcb] at h; cases h
      | false => rw [(hi a b c h hba h' hcb).1] at hac; cases hac

/-- The function on lists of edges that `sort.Sort` computes. -/
def sortOf (sorter : Nat → SortTree) (es : List Edge) : List Edge := ((sorter es.length).run edgeLess es).getD es

theorem Sorts.run {sorter : Nat → SortTree} (h : Sorts sorter) (es : List Edge) :
    (sorter es.length).run edgeLess es = some (sortOf sorter es) ∧ (sortOf sorter es).Pairwise fun a b => edgeLess b a = false := by
  obtain ⟨l', h1, h2⟩ := h Edge edgeLess Props.C13_strict_weak_order.1 Props.C13_strict_weak_order.2.2.1 edgeLess_negtrans es
  unfold sortOf
  rw [h1]
  exact ⟨rfl, h2⟩

theorem Sorts.contract {sorter : Nat → SortTree} (h : Sorts sorter) : SortContract (sortOf sorter) where
  perm := fun es => SortTree.run_perm _ _ (h.run es).1
  sorted := fun es => (h.run es).2

/-- ... and what it does to addresses of edges. -/
theorem Sorts.run_ptrs {sorter : Nat → SortTree} (h : Sorts sorter) (E : Nat → Edge) (ps : List Nat) :
    ∃ ps', (sorter ps.length).run (fun p q => edgeLess (E p) (E q)) ps = some ps' ∧ ps'.Perm ps ∧ sortOf sorter (ps.map E) = ps'.map E := by
  have h1 := (h.run (ps.map E)).1
  rw [List.length_map, SortTree.run_map E edgeLess] at h1
  cases hr : (sorter ps.length).run (fun p q => edgeLess (E p) (E q)) ps with
  | none => rw [hr] at h1; cases h1
  | some ps' =>
    rw [hr] at h1
    refine ⟨ps', rfl, SortTree.run_perm _ _ hr, ?_⟩
    simpa using h1.symm

/-! ### insertion sort -/

/-- `for j := i; j > 0 && data.Less(j, j-1); j-- { data.Swap(j, j-1) }`, then `k`. -/
def insertAt (k : SortTree) : Nat → SortTree
  | 0 => k
  | j + 1 => .less (j + 1) j fun b => if b then .swap (j + 1) j (insertAt k j) else k

/-- `for i := ...; ...; i++`, for `m` values of `i`. -/
def insertFrom : Nat → Nat → SortTree
  | _, 0 => .done
  | i, m + 1 => insertAt (insertFrom (i + 1) m) i

/-- Insertion sort, as in package sort for short lists. -/
def insertionSorter (n : Nat) : SortTree := insertFrom 0 n

section
variable {lt : β → β → Bool} (hirr : ∀ a, lt a a = false) (htr : ∀ a b c, lt a b = true → lt b c = true → lt a c = true)
  (hneg : ∀ a b c, lt a b = false → lt b c = false → lt a c = false)
include hirr htr hneg

theorem insertAt_run (k : SortTree) (j : Nat) : ∀ (A B rest : List β) (x : β), A.length = j → (A ++ B).Pairwise (fun a b => lt b a = false) →
    (∀ b ∈ B, lt x b = true) → ∃ P, P.length = A.length + 1 + B.length ∧ P.Pairwise (fun a b => lt b a = false) ∧
      (insertAt k j).run lt (A ++ x :: B ++ rest) = k.run lt (P ++ rest) := by
  have asym : ∀ a b, lt a b = true → lt b a = false := by
    intro a b h
    cases h' : lt b a with
    | false => rfl
    | true => rw [← hirr a, htr a b a h h']
  induction j with
  | zero =>
    intro A B rest x hA hs hx
    obtain rfl := List.length_eq_zero_iff.1 hA
    refine ⟨x :: B, by simp; omega, List.pairwise_cons.2 ⟨fun b hb => asym _ _ (hx b hb), hs⟩, rfl⟩
  | succ j ih =>
    intro A B rest x hA hs hx
    obtain ⟨A', a, rfl⟩ : ∃ A' a, A = A' ++ [a] := by
      rcases List.eq_nil_or_concat A with h | ⟨A', a, h⟩
      · rw [h] at hA; cases hA
      · exact ⟨A', a, by simpa using h⟩
    have hA' : A'.length = j := by simpa using hA
    have e1 : (A' ++ [a] ++ x :: B ++ rest)[j + 1]? = some x := by
      rw [List.append_assoc, List.append_assoc, List.getElem?_append_right (by omega), hA']
      simp
    have e2 : (A' ++ [a] ++ x :: B ++ rest)[j]? = some a := by
      rw [List.append_assoc, List.append_assoc, List.getElem?_append_right (by omega), hA']
      simp
    simp only [insertAt, SortTree.run, e1, e2]
    cases hc : lt x a with
    | false =>
      refine ⟨A' ++ [a] ++ x :: B, by simp; omega, ?_, rfl⟩
      rw [List.pairwise_append] at hs ⊢
      obtain ⟨h1, h2, h3⟩ := hs
      refine ⟨h1, List.pairwise_cons.2 ⟨fun b hb => asym _ _ (hx b hb), h2⟩, fun u hu v hv => ?_⟩
      rcases List.mem_cons.1 hv with rfl | hv
      · rcases List.mem_append.1 hu with hu | hu
        · exact hneg _ _ _ hc ((List.pairwise_append.1 h1).2.2 u hu a (by simp))
        · rw [List.mem_singleton.1 hu]; exact hc
      · exact h3 u hu v hv
    | true =>
      have e3 : swapAt (A' ++ [a] ++ x :: B ++ rest) (j + 1) j = some (A' ++ x :: (a :: B) ++ rest) := by
        unfold swapAt
        rw [e1, e2]
        subst hA'
        simp [List.set_append]
      simp only [if_true, SortTree.run, e3, Option.bind_some]
      obtain ⟨P, h1, h2, h3⟩ := ih A' (a :: B) rest x hA' (by simpa using hs) (by
        intro b hb
        rcases List.mem_cons.1 hb with rfl | hb
        · exact hc
        · exact hx b hb)
      exact ⟨P, by simp at h1 ⊢; omega, h2, h3⟩

theorem insertFrom_run (m : Nat) : ∀ (i : Nat) (A rest : List β), A.length = i → rest.length = m → A.Pairwise (fun a b => lt b a = false) →
    ∃ l', (insertFrom i m).run lt (A ++ rest) = some l' ∧ l'.Pairwise fun a b => lt b a = false := by
  induction m with
  | zero =>
    intro i A rest _ hr hs
    obtain rfl := List.length_eq_zero_iff.1 hr
    exact ⟨A, by simp [insertFrom, SortTree.run], hs⟩
  | succ m ih =>
    intro i A rest hA hr hs
    cases rest with
    | nil => cases hr
    | cons x rest =>
      obtain ⟨P, h1, h2, h3⟩ := insertAt_run hirr htr hneg (insertFrom (i + 1) m) i A [] rest x hA (by simpa using hs) (fun _ h => nomatch h)
      obtain ⟨l', h4, h5⟩ := ih (i + 1) P rest (by simp at h1; omega) (by simpa using hr) h2
      refine ⟨l', ?_, h5⟩
      rw [← h4, ← h3]
      simp [insertFrom]

end

theorem insertionSorter_sorts : Sorts insertionSorter := by
  intro β lt h1 h2 h3 l
  exact insertFrom_run h1 h2 h3 l.length 0 [] l rfl rfl List.Pairwise.nil

end Gographviz.Threads
