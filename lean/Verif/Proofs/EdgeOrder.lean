import Verif.Proofs.Containers
import Verif.Spec.Lists
/-!
`edgeSorter.Less` is a strict weak order; sorting with it is unique up to incomparability.
-/
namespace Gographviz

open Spec

/-- Lexicographic comparison of two attribute maps, without reference to key lists: at the least key where they differ (absent
counts as empty) `a` has the smaller value. -/
def AttrsLt (a b : Attrs) : Prop :=
  ∃ k, slt (mgetS a k) (mgetS b k) = true ∧ ∀ k', slt k' k = true → mgetS a k' = mgetS b k'

theorem attrsLess_iff {a b : Attrs} {ks : List Str} (hs : ks.Pairwise fun x y => slt x y = true)
    (hk : ∀ k, mgetS a k ≠ mgetS b k → k ∈ ks) : attrsLess a b ks = true ↔ AttrsLt a b := by
  induction ks with
  | nil =>
    simp only [attrsLess, Bool.false_eq_true, false_iff]
    intro ⟨k, h, _⟩
    have := hk k (slt_ne h)
    cases this
  | cons k ks ih =>
    rw [List.pairwise_cons] at hs
    have hmin : ∀ k', slt k' k = true → mgetS a k' = mgetS b k' := by
      intro k' hlt
      refine Decidable.byContradiction fun hne => ?_
      rcases List.mem_cons.1 (hk k' hne) with rfl | hm
      · rw [slt_irrefl] at hlt; cases hlt
      · have := slt_trans hlt (hs.1 k' hm); rw [slt_irrefl] at this; cases this
    unfold attrsLess
    split
    · rename_i h
      exact ⟨fun _ => ⟨k, h, hmin⟩, fun _ => rfl⟩
    · rename_i h
      split
      · rename_i h'
        simp only [Bool.false_eq_true, false_iff]
        intro ⟨k0, h0, hmin0⟩
        rcases slt_tri k0 k with hlt | rfl | hlt
        · exact slt_ne h0 (hmin k0 hlt)
        · exact h h0
        · rw [hmin0 k hlt, slt_irrefl] at h'; cases h'
      · rename_i h'
        have he : mgetS a k = mgetS b k := eq_of_not_slt (by simpa using h) (by simpa using h')
        apply ih hs.2
        intro k' hne
        rcases List.mem_cons.1 (hk k' hne) with rfl | hm
        · exact absurd he hne
        · exact hm

theorem AttrsLt.irrefl (a : Attrs) : ¬ AttrsLt a a := fun ⟨k, h, _⟩ => by rw [slt_irrefl] at h; cases h

theorem AttrsLt.trans {a b c : Attrs} (h1 : AttrsLt a b) (h2 : AttrsLt b c) : AttrsLt a c := by
  obtain ⟨k, h, hm⟩ := h1
  obtain ⟨l, h', hm'⟩ := h2
  rcases slt_tri k l with hlt | rfl | hlt
  · exact ⟨k, by rw [← hm' k hlt]; exact h, fun k' hk' => by rw [hm k' hk', hm' k' (slt_trans hk' hlt)]⟩
  · exact ⟨k, slt_trans h h', fun k' hk' => by rw [hm k' hk', hm' k' hk']⟩
  · exact ⟨l, by rw [hm l hlt]; exact h', fun k' hk' => by rw [hm k' (slt_trans hk' hlt), hm' k' hk']⟩

/-- Attribute maps that agree on every key (absent counts as empty). -/
def AttrsSame (a b : Attrs) : Prop := ∀ k, mgetS a k = mgetS b k

/-- The keys compared by `Less`. -/
theorem unionKeys_spec (a b : Attrs) :
    (sortedNames (msetAll (attrsCopy a) b)).Pairwise (fun x y => slt x y = true) ∧
    ∀ k, mgetS a k ≠ mgetS b k → k ∈ sortedNames (msetAll (attrsCopy a) b) := by
  have hw : MapWF (msetAll (attrsCopy a) b) := (MapWF.nil.msetAll a).msetAll b
  constructor
  · unfold sortedNames
    rw [mkeys_ssort hw]
    unfold mkeys
    rw [List.pairwise_map]
    exact hw
  · intro k hne
    unfold sortedNames
    rw [ssort_mem, ← mhas_iff]
    rw [mhas_iff_mget]
    unfold attrsCopy
    rw [mget_msetAll, mget_msetAll]
    cases hb : lastAssign b k with
    | some v => exact ⟨v, rfl⟩
    | none =>
      cases ha : lastAssign a k with
      | some v => exact ⟨v, rfl⟩
      | none =>
        exfalso
        apply hne
        have hnone : ∀ m : Attrs, lastAssign m k = none → mget m k = none := by
          intro m hm
          have : ∀ m : Attrs, mget m k ≠ none → lastAssign m k ≠ none := by
            intro m
            induction m with
            | nil => intro h; exact absurd rfl h
            | cons e m ih =>
              obtain ⟨k', v⟩ := e
              simp only [mget, lastAssign]
              by_cases hk : k' = k
              · simp only [hk, if_true]
                intro _
                split
                · simp
                · simp
              · simp only [hk, if_false]
                intro h
                have := ih h
                split
                · simp
                · rename_i h'; exact absurd h' this
          refine Decidable.byContradiction fun h => this m h hm
        simp [mgetS, hnone a ha, hnone b hb]

/-- The order of `edgeSorter.Less` (edges.go:76-119) as a lexicographic product. -/
def EdgeLt (a b : Edge) : Prop :=
  slt a.src b.src = true ∨ a.src = b.src ∧ (slt a.dst b.dst = true ∨ a.dst = b.dst ∧
    (slt a.srcPort b.srcPort = true ∨ a.srcPort = b.srcPort ∧ (slt a.dstPort b.dstPort = true ∨ a.dstPort = b.dstPort ∧
      ((a.dir = true ∧ b.dir = false) ∨ a.dir = b.dir ∧ AttrsLt a.attrs b.attrs))))

theorem lex_iff (x y : Str) (r : Bool) (R : Prop) (h : r = true ↔ R) :
    (if slt x y then true else if slt y x then false else r) = true ↔ (slt x y = true ∨ x = y ∧ R) := by
  rcases slt_tri x y with hlt | rfl | hlt
  · simp [hlt]
  · simp [slt_irrefl, h]
  · have h1 := slt_asymm hlt
    have h2 : ¬ x = y := fun e => by subst e; rw [slt_irrefl] at hlt; cases hlt
    simp [h1, hlt, h2]

theorem edgeLess_iff (a b : Edge) : edgeLess a b = true ↔ EdgeLt a b := by
  unfold edgeLess EdgeLt
  apply lex_iff; apply lex_iff; apply lex_iff; apply lex_iff
  have hu := unionKeys_spec a.attrs b.attrs
  by_cases hd : a.dir = b.dir
  · simp only [hd, ne_eq, not_true_eq_false, if_false, true_and]
    rw [attrsLess_iff hu.1 hu.2]
    cases b.dir <;> simp
  · simp only [ne_eq, hd, not_false_eq_true, if_true, false_and, or_false]
    cases ha : a.dir <;> cases hb : b.dir <;> simp_all

theorem lex_trans {x y z : Str} {R S T : Prop} (h1 : slt x y = true ∨ x = y ∧ R) (h2 : slt y z = true ∨ y = z ∧ S)
    (h : R → S → T) : slt x z = true ∨ x = z ∧ T := by
  rcases h1 with h1 | ⟨rfl, h1⟩
  · rcases h2 with h2 | ⟨rfl, h2⟩
    · exact .inl (slt_trans h1 h2)
    · exact .inl h1
  · rcases h2 with h2 | ⟨rfl, h2⟩
    · exact .inl h2
    · exact .inr ⟨rfl, h h1 h2⟩

theorem EdgeLt.trans {a b c : Edge} (h1 : EdgeLt a b) (h2 : EdgeLt b c) : EdgeLt a c := by
  unfold EdgeLt at *
  refine lex_trans h1 h2 fun h1 h2 => lex_trans h1 h2 fun h1 h2 => lex_trans h1 h2 fun h1 h2 => lex_trans h1 h2 fun h1 h2 => ?_
  rcases h1 with ⟨h1, h1'⟩ | ⟨h1, h1'⟩
  · rcases h2 with ⟨h2, _⟩ | ⟨h2, _⟩
    · rw [h2] at h1'; cases h1'
    · exact .inl ⟨h1, by rw [← h2]; exact h1'⟩
  · rcases h2 with ⟨h2, h2'⟩ | ⟨h2, h2'⟩
    · exact .inl ⟨by rw [h1]; exact h2, h2'⟩
    · exact .inr ⟨h1.trans h2, h1'.trans h2'⟩

theorem EdgeLt.irrefl (a : Edge) : ¬ EdgeLt a a := by
  unfold EdgeLt
  simp [slt_irrefl, AttrsLt.irrefl]

/-- Two edges agree on everything the order looks at. -/
def EdgeSame (a b : Edge) : Prop :=
  a.src = b.src ∧ a.dst = b.dst ∧ a.srcPort = b.srcPort ∧ a.dstPort = b.dstPort ∧ a.dir = b.dir ∧ AttrsSame a.attrs b.attrs

theorem attrs_tri (a b : Attrs) : AttrsLt a b ∨ AttrsSame a b ∨ AttrsLt b a := by
  have hu := unionKeys_spec a b
  -- search the sorted key list for the first difference
  have : ∀ ks : List Str, ks.Pairwise (fun x y => slt x y = true) →
      (∀ k, mgetS a k ≠ mgetS b k → k ∈ ks) → AttrsLt a b ∨ AttrsSame a b ∨ AttrsLt b a := by
    intro ks
    induction ks with
    | nil =>
      intro _ h
      exact .inr (.inl fun k => Decidable.byContradiction fun hne => by cases h k hne)
    | cons k ks ih =>
      intro hs hk
      rw [List.pairwise_cons] at hs
      have hmin : ∀ k', slt k' k = true → mgetS a k' = mgetS b k' := by
        intro k' hlt
        refine Decidable.byContradiction fun hne => ?_
        rcases List.mem_cons.1 (hk k' hne) with rfl | hm
        · rw [slt_irrefl] at hlt; cases hlt
        · have := slt_trans hlt (hs.1 k' hm); rw [slt_irrefl] at this; cases this
      rcases slt_tri (mgetS a k) (mgetS b k) with h | h | h
      · exact .inl ⟨k, h, hmin⟩
      · apply ih hs.2
        intro k' hne
        rcases List.mem_cons.1 (hk k' hne) with rfl | hm
        · exact absurd h hne
        · exact hm
      · exact .inr (.inr ⟨k, h, fun k' h' => (hmin k' h').symm⟩)
  exact this _ hu.1 hu.2

theorem edge_tri (a b : Edge) : EdgeLt a b ∨ EdgeSame a b ∨ EdgeLt b a := by
  unfold EdgeLt EdgeSame
  rcases slt_tri a.src b.src with h | h1 | h
  · exact .inl (.inl h)
  rotate_left
  · exact .inr (.inr (.inl h))
  rcases slt_tri a.dst b.dst with h | h2 | h
  · exact .inl (.inr ⟨h1, .inl h⟩)
  rotate_left
  · exact .inr (.inr (.inr ⟨h1.symm, .inl h⟩))
  rcases slt_tri a.srcPort b.srcPort with h | h3 | h
  · exact .inl (.inr ⟨h1, .inr ⟨h2, .inl h⟩⟩)
  rotate_left
  · exact .inr (.inr (.inr ⟨h1.symm, .inr ⟨h2.symm, .inl h⟩⟩))
  rcases slt_tri a.dstPort b.dstPort with h | h4 | h
  · exact .inl (.inr ⟨h1, .inr ⟨h2, .inr ⟨h3, .inl h⟩⟩⟩)
  rotate_left
  · exact .inr (.inr (.inr ⟨h1.symm, .inr ⟨h2.symm, .inr ⟨h3.symm, .inl h⟩⟩⟩))
  cases hd : a.dir <;> cases hd' : b.dir
  · rcases attrs_tri a.attrs b.attrs with h | h | h
    · exact .inl (.inr ⟨h1, .inr ⟨h2, .inr ⟨h3, .inr ⟨h4, .inr ⟨rfl, h⟩⟩⟩⟩⟩)
    · exact .inr (.inl ⟨h1, h2, h3, h4, rfl, h⟩)
    · exact .inr (.inr (.inr ⟨h1.symm, .inr ⟨h2.symm, .inr ⟨h3.symm, .inr ⟨h4.symm, .inr ⟨rfl, h⟩⟩⟩⟩⟩))
  · exact .inr (.inr (.inr ⟨h1.symm, .inr ⟨h2.symm, .inr ⟨h3.symm, .inr ⟨h4.symm, .inl ⟨rfl, rfl⟩⟩⟩⟩⟩))
  · exact .inl (.inr ⟨h1, .inr ⟨h2, .inr ⟨h3, .inr ⟨h4, .inl ⟨rfl, rfl⟩⟩⟩⟩⟩)
  · rcases attrs_tri a.attrs b.attrs with h | h | h
    · exact .inl (.inr ⟨h1, .inr ⟨h2, .inr ⟨h3, .inr ⟨h4, .inr ⟨rfl, h⟩⟩⟩⟩⟩)
    · exact .inr (.inl ⟨h1, h2, h3, h4, rfl, h⟩)
    · exact .inr (.inr (.inr ⟨h1.symm, .inr ⟨h2.symm, .inr ⟨h3.symm, .inr ⟨h4.symm, .inr ⟨rfl, h⟩⟩⟩⟩⟩))

theorem EdgeSame.symm {a b : Edge} (h : EdgeSame a b) : EdgeSame b a :=
  ⟨h.1.symm, h.2.1.symm, h.2.2.1.symm, h.2.2.2.1.symm, h.2.2.2.2.1.symm, fun k => (h.2.2.2.2.2 k).symm⟩

theorem EdgeSame.refl (a : Edge) : EdgeSame a a := ⟨rfl, rfl, rfl, rfl, rfl, fun _ => rfl⟩

theorem EdgeSame.trans {a b c : Edge} (h : EdgeSame a b) (h' : EdgeSame b c) : EdgeSame a c :=
  ⟨h.1.trans h'.1, h.2.1.trans h'.2.1, h.2.2.1.trans h'.2.2.1, h.2.2.2.1.trans h'.2.2.2.1,
   h.2.2.2.2.1.trans h'.2.2.2.2.1, fun k => (h.2.2.2.2.2 k).trans (h'.2.2.2.2.2 k)⟩

theorem AttrsLt.congr {a a' b b' : Attrs} (h : AttrsSame a a') (h' : AttrsSame b b') : AttrsLt a b → AttrsLt a' b' :=
  fun ⟨k, h1, h2⟩ => ⟨k, by rw [← h k, ← h' k]; exact h1, fun k' hk' => by rw [← h k', ← h' k']; exact h2 k' hk'⟩

theorem EdgeLt.congr {a a' b b' : Edge} (h : EdgeSame a a') (h' : EdgeSame b b') : EdgeLt a b → EdgeLt a' b' := by
  obtain ⟨e1, e2, e3, e4, e5, e6⟩ := h
  obtain ⟨f1, f2, f3, f4, f5, f6⟩ := h'
  unfold EdgeLt
  rw [e1, e2, e3, e4, e5, f1, f2, f3, f4, f5]
  rintro (h | ⟨h1, h | ⟨h2, h | ⟨h3, h | ⟨h4, h | ⟨h5, h⟩⟩⟩⟩⟩)
  · exact .inl h
  · exact .inr ⟨h1, .inl h⟩
  · exact .inr ⟨h1, .inr ⟨h2, .inl h⟩⟩
  · exact .inr ⟨h1, .inr ⟨h2, .inr ⟨h3, .inl h⟩⟩⟩
  · exact .inr ⟨h1, .inr ⟨h2, .inr ⟨h3, .inr ⟨h4, .inl h⟩⟩⟩⟩
  · exact .inr ⟨h1, .inr ⟨h2, .inr ⟨h3, .inr ⟨h4, .inr ⟨h5, h.congr e6 f6⟩⟩⟩⟩⟩

theorem not_edgeLess_iff (a b : Edge) : edgeLess a b = false ↔ ¬ EdgeLt a b := by
  rw [← edgeLess_iff]; simp

theorem edgeSame_iff (a b : Edge) : (edgeLess a b = false ∧ edgeLess b a = false) ↔ EdgeSame a b := by
  rw [not_edgeLess_iff, not_edgeLess_iff]
  constructor
  · intro ⟨h1, h2⟩
    rcases edge_tri a b with h | h | h
    · exact absurd h h1
    · exact h
    · exact absurd h h2
  · intro h
    exact ⟨fun h' => EdgeLt.irrefl b (h'.congr h (EdgeSame.refl b)),
      fun h' => EdgeLt.irrefl b (h'.congr (EdgeSame.refl b) h)⟩

/-- Dropping empty values. -/
def canonAttrs (a : Attrs) : Attrs := a.filter fun e => !decide (e.2 = [])

theorem mget_canonAttrs {a : Attrs} (h : MapWF a) (k : Str) :
    mget (canonAttrs a) k = if mgetS a k = [] then none else some (mgetS a k) := by
  induction a with
  | nil => rfl
  | cons e a ih =>
    obtain ⟨k', v⟩ := e
    have ih := ih h.tail
    have hnk : mget a k' = none := by
      rw [mget_eq_none_iff]
      intro hm
      have hnd := h.nodup
      simp only [mkeys, List.map_cons, List.nodup_cons] at hnd
      exact hnd.1 hm
    unfold canonAttrs at *
    by_cases hv : v = []
    · subst hv
      simp only [List.filter_cons, decide_true, Bool.not_true, Bool.false_eq_true, if_false]
      rw [ih]
      have e : mgetS ((k', []) :: a) k = mgetS a k := by
        by_cases hk : k' = k
        · subst hk; simp [mgetS, hnk, mget]
        · simp [mgetS, mget, hk]
      rw [e]
    · simp only [List.filter_cons, hv, decide_false, Bool.not_false, if_true]
      simp only [mget]
      by_cases hk : k' = k
      · subst hk; simp [mgetS, mget, hv]
      · simp only [hk, if_false]
        have e : mgetS ((k', v) :: a) k = mgetS a k := by simp [mgetS, mget, hk]
        rw [ih, e]

theorem MapWF.canon {a : Attrs} (h : MapWF a) : MapWF (canonAttrs a) := List.Pairwise.filter _ h

theorem attrsSame_iff_canon {a b : Attrs} (ha : MapWF a) (hb : MapWF b) : AttrsSame a b ↔ canonAttrs a = canonAttrs b := by
  constructor
  · intro h
    apply Map.ext ha.canon hb.canon
    intro k
    rw [mget_canonAttrs ha, mget_canonAttrs hb, h k]
  · intro h k
    have := congrArg (fun m => mget m k) h
    simp only [mget_canonAttrs ha, mget_canonAttrs hb] at this
    by_cases h1 : mgetS a k = [] <;> by_cases h2 : mgetS b k = [] <;> simp_all

/-- The edge without empty attribute values. -/
def canonEdge (e : Edge) : Edge := { e with attrs := canonAttrs e.attrs }

theorem edgeSame_iff_canon {a b : Edge} (ha : MapWF a.attrs) (hb : MapWF b.attrs) :
    EdgeSame a b ↔ canonEdge a = canonEdge b := by
  unfold EdgeSame canonEdge
  rw [attrsSame_iff_canon ha hb, Edge.mk.injEq]
  constructor
  · rintro ⟨h1, h2, h3, h4, h5, h6⟩; exact ⟨h1, h3, h2, h4, h5, h6⟩
  · rintro ⟨h1, h2, h3, h4, h5, h6⟩; exact ⟨h1, h3, h2, h4, h5, h6⟩

theorem edgeSame_canon {a : Edge} (ha : MapWF a.attrs) : EdgeSame a (canonEdge a) := by
  refine ⟨rfl, rfl, rfl, rfl, rfl, ?_⟩
  intro k
  show mgetS a.attrs k = mgetS (canonAttrs a.attrs) k
  rw [mgetS, mgetS, mget_canonAttrs ha]
  by_cases h : mgetS a.attrs k = []
  · rw [if_pos h]; exact h
  · rw [if_neg h]; rfl

/-- Two sorted permutations of permuted lists agree position by position up to `EdgeSame`. -/
theorem sorted_unique {l l' : List Edge} (hw : ∀ e ∈ l, MapWF e.attrs) (hs : l.Pairwise fun a b => edgeLess b a = false)
    (hs' : l'.Pairwise fun a b => edgeLess b a = false) (hp : l.Perm l') : Forall2 EdgeSame l l' := by
  have hw' : ∀ e ∈ l', MapWF e.attrs := fun e he => hw e (hp.mem_iff.2 he)
  have key : ∀ {l : List Edge}, (∀ e ∈ l, MapWF e.attrs) → (l.Pairwise fun a b => edgeLess b a = false) →
      (l.map canonEdge).Pairwise fun a b => edgeLess b a = false := by
    intro l hw hs
    rw [List.pairwise_map]
    refine hs.imp_of_mem fun {a b} ha hb h => ?_
    rw [not_edgeLess_iff] at *
    exact fun h' => h (h'.congr (edgeSame_canon (hw b hb)).symm (edgeSame_canon (hw a ha)).symm)
  have heq : l.map canonEdge = l'.map canonEdge := by
    apply List.Perm.eq_of_pairwise (le := fun a b => edgeLess b a = false) _ (key hw hs) (key hw' hs') (hp.map _)
    intro a b ha hb h1 h2
    obtain ⟨a', ha', rfl⟩ := List.mem_map.1 ha
    obtain ⟨b', hb', rfl⟩ := List.mem_map.1 hb
    have := (edgeSame_iff _ _).1 ⟨h2, h1⟩
    exact (edgeSame_iff_canon (hw a' ha') (hw' b' hb')).1
      (((edgeSame_canon (hw a' ha')).trans this).trans (edgeSame_canon (hw' b' hb')).symm)
  exact (Forall2.of_map_eq heq).and_mem.imp fun a b ⟨h, ha, hb⟩ => (edgeSame_iff_canon (hw a ha) (hw' b hb)).2 h

theorem edgeInsert_perm (x : Edge) (l : List Edge) : (edgeInsert x l).Perm (x :: l) := by
  induction l with
  | nil => exact List.Perm.refl _
  | cons y ys ih =>
    unfold edgeInsert
    split
    · exact (List.Perm.cons y ih).trans (List.Perm.swap x y ys)
    · exact List.Perm.refl _

theorem edgeInsert_sorted (x : Edge) (l : List Edge) (h : l.Pairwise fun a b => edgeLess b a = false) :
    (edgeInsert x l).Pairwise fun a b => edgeLess b a = false := by
  induction l with
  | nil => simp [edgeInsert]
  | cons y ys ih =>
    rw [List.pairwise_cons] at h
    unfold edgeInsert
    split
    · rename_i hlt
      rw [List.pairwise_cons]
      refine ⟨fun z hz => ?_, ih h.2⟩
      rcases List.mem_cons.1 ((edgeInsert_perm x ys).mem_iff.1 hz) with rfl | hz
      · rw [not_edgeLess_iff]; rw [edgeLess_iff] at hlt
        exact fun h' => EdgeLt.irrefl _ (h'.trans hlt)
      · exact h.1 z hz
    · rename_i hlt
      have hlt : ¬ EdgeLt y x := by rw [← edgeLess_iff]; exact hlt
      rw [List.pairwise_cons]
      refine ⟨fun z hz => ?_, List.pairwise_cons.2 h⟩
      rw [not_edgeLess_iff]
      rcases List.mem_cons.1 hz with rfl | hz
      · exact hlt
      · have h1 := (not_edgeLess_iff _ _).1 (h.1 z hz)
        intro h'
        rcases edge_tri y z with h2 | h2 | h2
        · exact hlt (h2.trans h')
        · exact hlt (h'.congr h2.symm (EdgeSame.refl x))
        · exact h1 h2

/-- The contract of `sort.Sort` can be met. -/
theorem insertionSort_contract : SortContract edgeInsertionSort where
  perm := by
    intro es
    induction es with
    | nil => exact List.Perm.refl _
    | cons x xs ih => exact (edgeInsert_perm x _).trans (List.Perm.cons x ih)
  sorted := by
    intro es
    induction es with
    | nil => exact List.Pairwise.nil
    | cons x xs ih => exact edgeInsert_sorted x _ ih

/-- No attribute value is empty. -/
def NoEmpty (e : Edge) : Prop := ∀ k, mget e.attrs k ≠ some []

theorem edgeSame_eq {a b : Edge} (ha : MapWF a.attrs) (hb : MapWF b.attrs) (na : NoEmpty a) (nb : NoEmpty b)
    (h : EdgeSame a b) : a = b := by
  obtain ⟨h1, h2, h3, h4, h5, h6⟩ := h
  have : a.attrs = b.attrs := by
    apply Map.ext ha hb
    intro k
    have := h6 k
    have n1 := na k
    have n2 := nb k
    unfold mgetS at this
    cases e1 : mget a.attrs k <;> cases e2 : mget b.attrs k <;> simp_all
  cases a; cases b; simp_all

/-- Sorting is canonical when no attribute value is empty. -/
theorem sorted_canonical {sortE sortE' : List Edge → List Edge} (hs : SortContract sortE) (hs' : SortContract sortE')
    {es es' : List Edge} (hp : es.Perm es') (hw : ∀ e ∈ es, MapWF e.attrs) (hn : ∀ e ∈ es, NoEmpty e) :
    sortE es = sortE' es' := by
  have hm : ∀ e, e ∈ sortE es ↔ e ∈ es := fun e => (hs.perm es).mem_iff
  have hm' : ∀ e, e ∈ sortE' es' ↔ e ∈ es := fun e => (hs'.perm es').mem_iff.trans hp.mem_iff.symm
  have := sorted_unique (fun e he => hw e ((hm e).1 he)) (hs.sorted es) (hs'.sorted es')
    ((hs.perm es).trans (hp.trans (hs'.perm es').symm))
  have h2 := (this.and_mem.imp (S := fun a b => b = id a) fun a b ⟨h, ha, hb⟩ =>
    (edgeSame_eq (hw a ((hm a).1 ha)) (hw b ((hm' b).1 hb)) (hn a ((hm a).1 ha)) (hn b ((hm' b).1 hb)) h).symm).eq_map
  rw [h2, List.map_id]

end Gographviz
