import Verif.Model.Base
/-! Order theory of Go strings and of `sort.Strings`. -/
namespace Gographviz

theorem slt_irrefl (a : Str) : slt a a = false := by
  induction a with
  | nil => rfl
  | cons x xs ih => simp [slt, ih]

theorem slt_trans {a b c : Str} (h1 : slt a b = true) (h2 : slt b c = true) : slt a c = true := by
  induction a generalizing b c with
  | nil =>
    cases b with
    | nil => simp [slt] at h1
    | cons y ys => cases c with
      | nil => simp [slt] at h2
      | cons z zs => rfl
  | cons x xs ih =>
    cases b with
    | nil => simp [slt] at h1
    | cons y ys => cases c with
      | nil => simp [slt] at h2
      | cons z zs =>
        simp only [slt] at *
        by_cases hxy : x < y
        · by_cases hyz : y < z
          · have : x < z := by omega
            simp [this]
          · by_cases hzy : z < y
            · simp [hyz, hzy] at h2
            · have : x < z := by omega
              simp [this]
        · by_cases hyx : y < x
          · simp [hxy, hyx] at h1
          · have hxy' : x = y := by omega
            subst hxy'
            simp at h1
            by_cases hyz : x < z
            · simp [hyz]
            · by_cases hzy : z < x
              · simp [hyz, hzy] at h2
              · simp [hyz, hzy] at *
                exact ih h1 h2

theorem slt_tri (a b : Str) : slt a b = true ∨ a = b ∨ slt b a = true := by
  induction a generalizing b with
  | nil => cases b <;> simp [slt]
  | cons x xs ih =>
    cases b with
    | nil => simp [slt]
    | cons y ys =>
      simp only [slt]
      by_cases hxy : x < y
      · simp [hxy]
      · by_cases hyx : y < x
        · simp [hyx]
        · have : x = y := by omega
          subst this
          simpa using ih ys

theorem slt_asymm {a b : Str} (h : slt a b = true) : slt b a = false := by
  cases h' : slt b a with
  | false => rfl
  | true => have := slt_trans h h'; rw [slt_irrefl] at this; cases this

theorem slt_ne {a b : Str} (h : slt a b = true) : a ≠ b := by
  intro e; subst e; rw [slt_irrefl] at h; cases h

theorem eq_of_not_slt {a b : Str} (h1 : slt a b = false) (h2 : slt b a = false) : a = b := by
  rcases slt_tri a b with h | h | h
  · rw [h] at h1; cases h1
  · exact h
  · rw [h] at h2; cases h2

/-- `¬ b < a` is a total preorder. -/
theorem sle_trans {a b c : Str} (h1 : slt b a = false) (h2 : slt c b = false) : slt c a = false := by
  cases h : slt c a with
  | false => rfl
  | true =>
    rcases slt_tri a b with h' | h' | h'
    · have := slt_trans h h'; rw [this] at h2; cases h2
    · subst h'; rw [h] at h2; cases h2
    · rw [h'] at h1; cases h1

theorem slt_of_slt_of_sle {a b c : Str} (h1 : slt a b = true) (h2 : slt c b = false) : slt a c = true := by
  rcases slt_tri b c with h | h | h
  · exact slt_trans h1 h
  · subst h; exact h1
  · rw [h] at h2; cases h2

theorem sinsert_perm (x : Str) (l : List Str) : (sinsert x l).Perm (x :: l) := by
  induction l with
  | nil => exact List.Perm.refl _
  | cons y ys ih =>
    unfold sinsert
    split
    · exact ((List.Perm.cons y ih).trans (List.Perm.swap x y ys))
    · exact List.Perm.refl _

theorem ssort_perm (l : List Str) : (ssort l).Perm l := by
  induction l with
  | nil => exact List.Perm.refl _
  | cons x xs ih => exact (sinsert_perm x _).trans (List.Perm.cons x ih)

/-- ascending (no later element smaller) -/
abbrev SAsc (l : List Str) : Prop := l.Pairwise fun a b => slt b a = false

theorem sinsert_sorted (x : Str) (l : List Str) (h : SAsc l) : SAsc (sinsert x l) := by
  induction l with
  | nil => simp [sinsert, SAsc]
  | cons y ys ih =>
    unfold sinsert
    rw [SAsc, List.pairwise_cons] at h
    split
    · rename_i hyx
      rw [SAsc, List.pairwise_cons]
      refine ⟨fun z hz => ?_, ih h.2⟩
      rcases List.mem_cons.1 ((sinsert_perm x ys).mem_iff.1 hz) with e | hz
      · subst e; exact slt_asymm hyx
      · exact h.1 z hz
    · rename_i hyx
      have hyx : slt y x = false := by simpa using hyx
      rw [SAsc, List.pairwise_cons]
      refine ⟨fun z hz => ?_, List.pairwise_cons.2 h⟩
      rcases List.mem_cons.1 hz with e | hz
      · subst e; exact hyx
      · exact sle_trans hyx (h.1 z hz)

theorem ssort_sorted (l : List Str) : SAsc (ssort l) := by
  induction l with
  | nil => exact List.Pairwise.nil
  | cons x xs ih => exact sinsert_sorted x _ ih

/-- The ascending permutation of a list of strings is unique. -/
theorem sasc_perm_eq {l l' : List Str} (h : SAsc l) (h' : SAsc l') (hp : l.Perm l') : l = l' := by
  apply List.Perm.eq_of_pairwise (le := fun a b => slt b a = false) _ h h' hp
  intro a b _ _ h1 h2
  exact eq_of_not_slt h2 h1

theorem ssort_unique {l l' : List Str} (h : l.Perm l') : ssort l = ssort l' :=
  sasc_perm_eq (ssort_sorted l) (ssort_sorted l') ((ssort_perm l).trans (h.trans (ssort_perm l').symm))

theorem ssort_of_sorted {l : List Str} (h : SAsc l) : ssort l = l :=
  sasc_perm_eq (ssort_sorted l) h (ssort_perm l)

theorem ssort_mem {l : List Str} {x : Str} : x ∈ ssort l ↔ x ∈ l := (ssort_perm l).mem_iff

theorem ssort_nodup {l : List Str} : (ssort l).Nodup ↔ l.Nodup := (ssort_perm l).nodup_iff

end Gographviz
