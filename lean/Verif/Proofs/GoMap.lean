import Verif.Model.GoMap
import Verif.Proofs.Str
/-! Lemmas about Go maps. -/
namespace Gographviz

variable {α : Type}

theorem mget_mset (m : Map α) (k : Str) (v : α) (x : Str) :
    mget (mset m k v) x = if k = x then some v else mget m x := by
  induction m with
  | nil => simp [mset, mget]
  | cons e m ih =>
    obtain ⟨k', v'⟩ := e
    simp only [mset]
    split
    · simp only [mget]
    · split
      · rename_i h; subst h
        simp only [mget]
        split <;> rfl
      · rename_i h1 h2
        simp only [mget, ih]
        by_cases hkx : k = x
        · subst hkx; simp [h2]
        · simp [hkx]

theorem mget_mset_self (m : Map α) (k : Str) (v : α) : mget (mset m k v) k = some v := by simp [mget_mset]

theorem mget_mset_ne (m : Map α) {k x : Str} (v : α) (h : k ≠ x) : mget (mset m k v) x = mget m x := by
  simp [mget_mset, h]

theorem mget_mdel (m : Map α) (k x : Str) : mget (mdel m k) x = if k = x then none else mget m x := by
  induction m with
  | nil => simp [mdel, mget]
  | cons e m ih =>
    obtain ⟨k', v'⟩ := e
    simp only [mdel, List.filter] at *
    by_cases h : k' = k
    · subst h
      simp only [decide_true, Bool.not_true, ih, mget]
      by_cases hx : k' = x <;> simp [hx]
    · simp only [h, decide_false, Bool.not_false, mget, ih]
      by_cases hx : k' = x
      · subst hx; simp [Ne.symm h]
      · simp [hx]

theorem mget_isSome_iff (m : Map α) (k : Str) : (mget m k).isSome = true ↔ k ∈ mkeys m := by
  induction m with
  | nil => simp [mget, mkeys]
  | cons e m ih =>
    obtain ⟨k', v'⟩ := e
    simp only [mget, mkeys, List.map_cons, List.mem_cons] at *
    by_cases h : k' = k
    · simp [h]
    · simp [h, ih, Ne.symm h]

theorem mhas_iff (m : Map α) (k : Str) : mhas m k = true ↔ k ∈ mkeys m := mget_isSome_iff m k

theorem mhas_iff_mget (m : Map α) (k : Str) : mhas m k = true ↔ ∃ v, mget m k = some v := by
  simp [mhas, Option.isSome_iff_exists]

theorem mget_eq_none_iff (m : Map α) (k : Str) : mget m k = none ↔ k ∉ mkeys m := by
  rw [← mget_isSome_iff]; cases mget m k <;> simp

theorem mhas_mset (m : Map α) (k : Str) (v : α) (x : Str) : mhas (mset m k v) x = (decide (k = x) || mhas m x) := by
  simp only [mhas, mget_mset]; by_cases h : k = x <;> simp [h]

theorem mhas_mdel (m : Map α) (k x : Str) : mhas (mdel m k) x = (!decide (k = x) && mhas m x) := by
  simp only [mhas, mget_mdel]; by_cases h : k = x <;> simp [h]

theorem mem_of_mget {m : Map α} {k : Str} {v : α} (h : mget m k = some v) : (k, v) ∈ m := by
  induction m with
  | nil => simp [mget] at h
  | cons e m ih =>
    obtain ⟨k', v'⟩ := e
    simp only [mget] at h
    split at h
    · rename_i hk; subst hk; cases h; exact List.mem_cons_self ..
    · exact List.mem_cons_of_mem _ (ih h)

theorem MapWF.nil : MapWF ([] : Map α) := List.Pairwise.nil

theorem MapWF.tail {e : Str × α} {m : Map α} (h : MapWF (e :: m)) : MapWF m := (List.pairwise_cons.1 h).2

theorem MapWF.nodup {m : Map α} (h : MapWF m) : (mkeys m).Nodup := by
  unfold mkeys List.Nodup
  rw [List.pairwise_map]
  exact h.imp fun h => slt_ne h

theorem MapWF.sorted {m : Map α} (h : MapWF m) : SAsc (mkeys m) := by
  unfold mkeys SAsc
  rw [List.pairwise_map]
  exact h.imp fun h => slt_asymm h

theorem mget_of_mem {m : Map α} (h : MapWF m) {k : Str} {v : α} (hm : (k, v) ∈ m) : mget m k = some v := by
  induction m with
  | nil => cases hm
  | cons e m ih =>
    obtain ⟨k', v'⟩ := e
    simp only [mget]
    rcases List.mem_cons.1 hm with e | hm'
    · cases e; simp
    · have := (List.pairwise_cons.1 h).1 _ hm'
      rw [if_neg (slt_ne this)]
      exact ih h.tail hm'

theorem mem_iff_mget {m : Map α} (h : MapWF m) (k : Str) (v : α) : (k, v) ∈ m ↔ mget m k = some v :=
  ⟨mget_of_mem h, mem_of_mget⟩

theorem mem_mset {m : Map α} {k : Str} {v : α} {e : Str × α} (h : e ∈ mset m k v) : e = (k, v) ∨ e ∈ m := by
  induction m with
  | nil => simpa [mset] using h
  | cons e' m ih =>
    obtain ⟨k', v'⟩ := e'
    simp only [mset] at h
    split at h
    · simpa using h
    · split at h
      · simp only [List.mem_cons] at *; rcases h with h | h
        · exact Or.inl h
        · exact Or.inr (Or.inr h)
      · simp only [List.mem_cons] at *
        rcases h with h | h
        · exact Or.inr (Or.inl h)
        · rcases ih h with h | h
          · exact Or.inl h
          · exact Or.inr (Or.inr h)

theorem MapWF.mset {m : Map α} (h : MapWF m) (k : Str) (v : α) : MapWF (mset m k v) := by
  induction m with
  | nil => simp [Gographviz.mset, MapWF]
  | cons e m ih =>
    obtain ⟨k', v'⟩ := e
    have hc := List.pairwise_cons.1 h
    simp only [Gographviz.mset]
    split
    · rename_i hk
      refine List.pairwise_cons.2 ⟨fun e he => ?_, h⟩
      rcases List.mem_cons.1 he with e' | he
      · subst e'; exact hk
      · exact slt_trans hk (hc.1 e he)
    · split
      · rename_i hk; subst hk
        exact List.pairwise_cons.2 ⟨hc.1, hc.2⟩
      · rename_i h1 h2
        refine List.pairwise_cons.2 ⟨fun e he => ?_, ih h.tail⟩
        rcases mem_mset he with e' | he
        · subst e'
          rcases slt_tri k' k with h' | h' | h'
          · exact h'
          · exact absurd h' h2
          · exact absurd h' h1
        · exact hc.1 e he

theorem MapWF.mdel {m : Map α} (h : MapWF m) (k : Str) : MapWF (mdel m k) := h.filter _

/-- Two maps with the same lookups are equal. -/
theorem Map.ext {m m' : Map α} (h : MapWF m) (h' : MapWF m') (he : ∀ k, mget m k = mget m' k) : m = m' := by
  induction m generalizing m' with
  | nil =>
    cases m' with
    | nil => rfl
    | cons e m' => have := he e.1; simp [mget] at this
  | cons e m ih =>
    obtain ⟨k, v⟩ := e
    cases m' with
    | nil => have := he k; simp [mget] at this
    | cons e' m' =>
      obtain ⟨k', v'⟩ := e'
      have hkk : k = k' := by
        rcases slt_tri k k' with hlt | heq | hlt
        · have h1 := he k
          simp only [mget, if_true] at h1
          rw [if_neg (Ne.symm (slt_ne hlt))] at h1
          have := mem_of_mget h1.symm
          have := (List.pairwise_cons.1 h').1 _ this
          exact absurd (slt_trans hlt this) (by simp [slt_irrefl])
        · exact heq
        · have h1 := he k'
          simp only [mget, if_true] at h1
          rw [if_neg (Ne.symm (slt_ne hlt))] at h1
          have := mem_of_mget h1
          have := (List.pairwise_cons.1 h).1 _ this
          exact absurd (slt_trans hlt this) (by simp [slt_irrefl])
      subst hkk
      have hv : v = v' := by have := he k; simpa [mget] using this
      subst hv
      congr 1
      refine ih h.tail h'.tail fun x => ?_
      have hx := he x
      simp only [mget] at hx
      by_cases hkx : k = x
      · subst hkx
        have e1 : mget m k = none := by
          cases hg : mget m k with
          | none => rfl
          | some v => exact absurd ((List.pairwise_cons.1 h).1 _ (mem_of_mget hg)) (by simp [slt_irrefl])
        have e2 : mget m' k = none := by
          cases hg : mget m' k with
          | none => rfl
          | some v => exact absurd ((List.pairwise_cons.1 h').1 _ (mem_of_mget hg)) (by simp [slt_irrefl])
        rw [e1, e2]
      · simpa [hkx] using hx

theorem mset_comm {m : Map α} (h : MapWF m) {k k' : Str} (v v' : α) (hne : k ≠ k') :
    mset (mset m k v) k' v' = mset (mset m k' v') k v := by
  apply Map.ext ((h.mset _ _).mset _ _) ((h.mset _ _).mset _ _)
  intro x
  simp only [mget_mset]
  by_cases h1 : k' = x
  · have : k ≠ x := by rw [← h1]; exact hne
    simp [h1, this]
  · simp [h1]

theorem mset_self {m : Map α} (h : MapWF m) {k : Str} {v : α} (hg : mget m k = some v) : mset m k v = m := by
  apply Map.ext (h.mset _ _) h
  intro x
  rw [mget_mset]
  split
  · rename_i e; subst e; exact hg.symm
  · rfl

theorem mset_mset {m : Map α} (h : MapWF m) (k : Str) (v v' : α) : mset (mset m k v) k v' = mset m k v' := by
  apply Map.ext ((h.mset _ _).mset _ _) (h.mset _ _)
  intro x
  simp only [mget_mset]
  split <;> rfl

theorem mdel_of_not_mem {m : Map α} {k : Str} (h : mget m k = none) : mdel m k = m := by
  unfold mdel
  rw [List.filter_eq_self]
  intro e he
  simp only [Bool.not_eq_true', decide_eq_false_iff_not]
  intro hk
  rw [mget_eq_none_iff] at h
  exact h (by rw [← hk]; exact List.mem_map_of_mem he)

/-- The last value that a list of assignments gives to a key. -/
def lastAssign (kvs : List (Str × α)) (k : Str) : Option α :=
  match kvs with
  | [] => none
  | (k', v) :: rest => match lastAssign rest k with
    | some w => some w
    | none => if k' = k then some v else none

theorem msetAll_nil (m : Map α) : msetAll m [] = m := rfl

theorem msetAll_cons (m : Map α) (e : Str × α) (kvs : List (Str × α)) :
    msetAll m (e :: kvs) = msetAll (mset m e.1 e.2) kvs := rfl

theorem msetAll_append (m : Map α) (a b : List (Str × α)) : msetAll m (a ++ b) = msetAll (msetAll m a) b := by
  simp [msetAll, List.foldl_append]

theorem MapWF.msetAll {m : Map α} (h : MapWF m) (kvs : List (Str × α)) : MapWF (msetAll m kvs) := by
  induction kvs generalizing m with
  | nil => exact h
  | cons e kvs ih => exact ih (h.mset _ _)

theorem mget_msetAll (m : Map α) (kvs : List (Str × α)) (k : Str) :
    mget (msetAll m kvs) k = match lastAssign kvs k with | some v => some v | none => mget m k := by
  induction kvs generalizing m with
  | nil => simp [msetAll, lastAssign]
  | cons e kvs ih =>
    obtain ⟨k', v⟩ := e
    rw [msetAll_cons, ih]
    simp only [lastAssign]
    cases lastAssign kvs k with
    | some w => rfl
    | none =>
      simp only [mget_mset]
      by_cases h : k' = k <;> simp [h]

theorem lastAssign_isSome {kvs : List (Str × α)} {k : Str} : (lastAssign kvs k).isSome = true ↔ k ∈ kvs.map Prod.fst := by
  induction kvs with
  | nil => simp [lastAssign]
  | cons e kvs ih =>
    obtain ⟨k', v⟩ := e
    simp only [lastAssign, List.map_cons, List.mem_cons]
    cases h : lastAssign kvs k with
    | some w =>
      rw [h] at ih
      have := ih.1 rfl
      simp [this]
    | none =>
      have hn : k ∉ kvs.map Prod.fst := fun hk => by
        have := ih.2 hk; rw [h] at this; cases this
      by_cases hk : k' = k
      · simp [hk]
      · constructor
        · intro h'; simp [hk] at h'
        · rintro (h' | h')
          · exact absurd h'.symm hk
          · exact absurd h' hn

theorem lastAssign_eq_none {kvs : List (Str × α)} {k : Str} : lastAssign kvs k = none ↔ k ∉ kvs.map Prod.fst := by
  rw [← lastAssign_isSome]; cases lastAssign kvs k <;> simp

theorem lastAssign_of_nodup {kvs : List (Str × α)} (hn : (kvs.map Prod.fst).Nodup) {k : Str} {v : α} :
    lastAssign kvs k = some v ↔ (k, v) ∈ kvs := by
  induction kvs with
  | nil => simp [lastAssign]
  | cons e kvs ih =>
    obtain ⟨k', v'⟩ := e
    simp only [List.map_cons, List.nodup_cons] at hn
    simp only [lastAssign, List.mem_cons, Prod.mk.injEq]
    cases h : lastAssign kvs k with
    | some w =>
      have hk : k' ≠ k := by
        intro e; subst e
        exact hn.1 (lastAssign_isSome.1 (by simp [h]))
      have := ih hn.2
      rw [h] at this
      simp only [Option.some.injEq] at *
      constructor
      · intro e; exact Or.inr (this.1 e)
      · rintro (⟨e, _⟩ | e)
        · exact absurd e.symm hk
        · exact this.2 e
    | none =>
      have hnm := lastAssign_eq_none.1 h
      constructor
      · intro h'
        by_cases hk : k' = k
        · simp [hk] at h'; exact Or.inl ⟨hk.symm, h'.symm⟩
        · simp [hk] at h'
      · rintro (⟨e, e'⟩ | e)
        · simp [e, e']
        · exact absurd (List.mem_map_of_mem e) hnm

theorem lastAssign_perm {a b : List (Str × α)} (hp : a.Perm b) (hn : (a.map Prod.fst).Nodup) (k : Str) :
    lastAssign a k = lastAssign b k := by
  have hn' : (b.map Prod.fst).Nodup := (hp.map _).nodup_iff.1 hn
  cases h : lastAssign a k with
  | some v => exact ((lastAssign_of_nodup hn').2 (hp.mem_iff.1 ((lastAssign_of_nodup hn).1 h))).symm
  | none =>
    rw [lastAssign_eq_none] at h
    symm; rw [lastAssign_eq_none]
    intro h'; exact h ((hp.map _).mem_iff.2 h')

theorem mget_eq_lastAssign {m : Map α} (h : MapWF m) (k : Str) : lastAssign m k = mget m k := by
  cases hg : mget m k with
  | some v => exact (lastAssign_of_nodup h.nodup).2 (mem_of_mget hg)
  | none => rw [lastAssign_eq_none]; exact (mget_eq_none_iff m k).1 hg

/-- Assigning the entries of a map is independent of the iteration order. -/
theorem msetAll_perm {m : Map α} (h : MapWF m) {a b : List (Str × α)} (hp : a.Perm b)
    (hn : (a.map Prod.fst).Nodup) : msetAll m a = msetAll m b := by
  apply Map.ext (h.msetAll _) (h.msetAll _)
  intro k
  rw [mget_msetAll, mget_msetAll, lastAssign_perm hp hn]

theorem mget_msetAll_wf (m : Map α) {kvs : Map α} (h : MapWF kvs) (k : Str) :
    mget (msetAll m kvs) k = match mget kvs k with | some v => some v | none => mget m k := by
  rw [mget_msetAll, mget_eq_lastAssign h]

theorem msetAll_empty {m : Map α} (h : MapWF m) : msetAll [] m = m := by
  apply Map.ext (MapWF.nil.msetAll _) h
  intro k
  rw [mget_msetAll_wf _ h]
  cases mget m k <;> rfl

theorem msetAll_idem {m : Map α} (h : MapWF m) (kvs : List (Str × α)) :
    msetAll (msetAll m kvs) kvs = msetAll m kvs := by
  apply Map.ext ((h.msetAll _).msetAll _) (h.msetAll _)
  intro k
  simp only [mget_msetAll]
  cases lastAssign kvs k <;> rfl

theorem mkeys_ssort {m : Map α} (h : MapWF m) : ssort (mkeys m) = mkeys m := ssort_of_sorted h.sorted

end Gographviz
