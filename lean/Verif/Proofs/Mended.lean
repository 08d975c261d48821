import Verif.Proofs.Dotlang
/-!
Lemmas for C95: every published sentence can be mended.
-/
namespace Gographviz.Proofs.Dot
open Gographviz Gographviz.Spec Gographviz.Spec.Meaning
open Gographviz.Spec.Dot (May Entry MayAList MayAttrList NodeId EdgeOp Target Heading Kind Announces)

/-- As `Spec.Dot.Mended`, for the types alone. -/
inductive Mended : List Nat → List Nat → Prop where
  | done : Mended [] []
  | keep (t : Nat) {a b : List Nat} : Mended a b → Mended (t :: a) (t :: b)
  | comma {a b : List Nat} : Mended a b → Mended (13 :: 12 :: a) (12 :: b)
  | braces {a b : List Nat} : Mended a b → Mended (3 :: 4 :: a) (15 :: 3 :: 4 :: b)

/-- The texts of the tokens can be added. -/
theorem Mended.lift {a b : List Nat} (h : Mended a b) : ∀ {ls : List Lexeme}, ls.map Prod.fst = a → ∃ ls', ls'.map Prod.fst = b ∧ Spec.Dot.Mended ls ls' := by
  induction h with
  | done => intro ls e; cases ls with
    | nil => exact ⟨[], rfl, .done⟩
    | cons => simp at e
  | keep t _ ih => intro ls e; cases ls with
    | nil => simp at e
    | cons x ls =>
      simp only [List.map_cons, List.cons.injEq] at e
      obtain ⟨ls', h1, h2⟩ := ih e.2
      exact ⟨x :: ls', by simp [h1, e.1], .keep x h2⟩
  | comma _ ih => intro ls e; match ls, e with
    | (x, c) :: (y, d) :: ls, e =>
      simp only [List.map_cons, List.cons.injEq] at e
      obtain ⟨rfl, rfl, e⟩ := e
      obtain ⟨ls', h1, h2⟩ := ih e
      exact ⟨_, by simp [h1], .comma c d h2⟩
  | braces _ ih => intro ls e; match ls, e with
    | (x, c) :: (y, d) :: ls, e =>
      simp only [List.map_cons, List.cons.injEq] at e
      obtain ⟨rfl, rfl, e⟩ := e
      obtain ⟨ls', h1, h2⟩ := ih e
      exact ⟨_, by simp [h1], .braces c d h2⟩

/-- Nothing new but `subgraph`. -/
theorem mended_mem {ls ls' : List Lexeme} (h : Spec.Dot.Mended ls ls') : ∀ l ∈ ls', l ∈ ls ∨ l = (15, b!"subgraph") := by
  induction h with
  | done => intro l hl; cases hl
  | keep t _ ih => intro l hl; rcases List.mem_cons.1 hl with rfl | hl
                   · simp
                   · exact (ih l hl).imp (List.mem_cons_of_mem _) id
  | comma c d _ ih =>
    intro l hl
    rcases List.mem_cons.1 hl with rfl | hl
    · simp
    · exact (ih l hl).imp (fun h => by simp [h]) id
  | braces c d _ ih =>
    intro l hl
    simp only [List.mem_cons] at hl
    rcases hl with rfl | rfl | rfl | hl
    · exact .inr rfl
    · simp
    · simp
    · exact (ih l hl).imp (fun h => by simp [h]) id

theorem Mended.refl : ∀ a : List Nat, Mended a a
  | [] => .done
  | t :: a => .keep t (Mended.refl a)

theorem Mended.append {a b c d : List Nat} (h : Mended a b) (h' : Mended c d) : Mended (a ++ c) (b ++ d) := by
  induction h with
  | done => exact h'
  | keep t _ ih => exact .keep t ih
  | comma _ ih => exact .comma ih
  | braces _ ih => exact .braces ih

theorem may_scan {t : Nat} (h12 : t ≠ 12) (h4 : t ≠ 4) {c : List Nat} (h : May t c) (rev : List Nat) : scan rev c := by
  cases h with
  | no => trivial
  | yes => exact ⟨.other h12 h4, trivial⟩

theorem entry_scan {a : List Nat} (h : Entry a) (rev : List Nat) : scan rev a := by
  cases h <;> simp [scan, okAt]

theorem alist_mend {a : List Nat} (h : Spec.Dot.AList a) : ∃ a', Spec.Dot.AList a' ∧ (∀ rev r, a'.reverse ++ rev ≠ 13 :: r) ∧ (∀ rev, scan rev a') ∧
    ∀ x y, Mended x y → Mended (a ++ 12 :: x) (a' ++ 12 :: y) := by
  induction h with
  | @last a c ha hc =>
    refine ⟨a ++ [], .last ha .no, by simpa using entry_last ha, by simpa using entry_scan ha, fun x y hxy => ?_⟩
    cases hc with
    | no => simpa using (Mended.refl a).append (.keep 12 hxy)
    | yes => simpa using (Mended.refl a).append (.comma hxy)
  | @more a c r ha hc _ ih =>
    obtain ⟨r', h1, h2, h3, h4⟩ := ih
    refine ⟨a ++ (c ++ r'), .more ha hc h1, fun rev z => ?_, fun rev => ?_, fun x y hxy => ?_⟩
    · rw [List.reverse_append, List.reverse_append, List.append_assoc, List.append_assoc]
      exact h2 _ z
    · rw [scan_append, scan_append]
      exact ⟨entry_scan ha _, may_scan (by decide) (by decide) hc _, h3 _⟩
    · simpa using (Mended.refl a).append ((Mended.refl c).append (h4 x y hxy))

theorem mayAList_mend {a : List Nat} (h : MayAList a) : ∃ a', MayAList a' ∧ (∀ rev, scan rev (11 :: (a' ++ [12]))) ∧
    ∀ x y, Mended x y → Mended (a ++ 12 :: x) (a' ++ 12 :: y) := by
  cases h with
  | no => exact ⟨[], .no, fun rev => ⟨.other (by decide) (by decide), .bracket (by simp), trivial⟩, fun x y h => .keep 12 h⟩
  | yes h =>
    obtain ⟨a', h1, h2, h3, h4⟩ := alist_mend h
    refine ⟨a', .yes h1, fun rev => ⟨.other (by decide) (by decide), ?_⟩, h4⟩
    rw [scan_append]
    exact ⟨h3 _, .bracket (h2 _), trivial⟩

theorem attrList_mend {a : List Nat} (h : Spec.Dot.AttrList a) : ∃ a', Spec.Dot.AttrList a' ∧ (∀ rev, scan rev a') ∧ Mended a a' := by
  induction h with
  | @last a ha =>
    obtain ⟨a', h1, h2, h3⟩ := mayAList_mend ha
    exact ⟨_, .last h1, h2, .keep 11 (h3 [] [] .done)⟩
  | @more a r ha _ ih =>
    obtain ⟨a', h1, h2, h3⟩ := mayAList_mend ha
    obtain ⟨r', h4, h5, h6⟩ := ih
    refine ⟨_, .more h1 h4, fun rev => ?_, .keep 11 (h3 _ _ h6)⟩
    have e : 11 :: (a' ++ 12 :: r') = (11 :: (a' ++ [12])) ++ r' := by simp
    rw [e, scan_append]
    exact ⟨h2 _, h5 _⟩

theorem mayAttrList_mend {a : List Nat} (h : MayAttrList a) : ∃ a', MayAttrList a' ∧ (∀ rev, scan rev a') ∧ Mended a a' := by
  cases h with
  | no => exact ⟨[], .no, fun _ => trivial, .done⟩
  | yes h =>
    obtain ⟨a', h1, h2, h3⟩ := attrList_mend h
    exact ⟨a', .yes h1, h2, h3⟩

theorem good_attrs {a b : List Nat} (ha : Good a) (hb : MayAttrList b) (hs : ∀ rev, scan rev b) : Good (a ++ b) := by
  intro rev hr
  have h1 := ha rev hr
  rw [scan_append, List.reverse_append, List.append_assoc]
  exact ⟨⟨h1.1, hs _⟩, mayAttrList_fin hb h1.2⟩

theorem nodeId_good {a : List Nat} (h : NodeId a) : Good a :=
  fun _ hr => ⟨by cases h <;> simp [scan, okAt], nodeId_fin h hr⟩

theorem semi_good {a c : List Nat} (ha : Good a) (h : May 7 c) : Good (a ++ c) := by
  cases h with
  | no => simpa using ha
  | yes =>
    refine ha.append fun rev _ => ?_
    exact ⟨⟨okAt.other (t := 7) (by decide) (by decide), trivial⟩, fin (t := 7) (.fresh na (by decide) (by decide)) (by decide)⟩

theorem good_op {o : Nat} (ho : EdgeOp o) {a : List Nat} (ha : Good a) : Good (o :: a) := by
  intro rev hr
  have h0 : Start (o :: rev) := by cases ho <;> exact .fresh na (by decide) (by decide)
  have h1 := ha _ h0
  refine ⟨⟨by cases ho <;> exact .other (by decide) (by decide), h1.1⟩, ?_⟩
  simpa using h1.2

/-- The mended statement list. -/
theorem stmtList_mend {ns : List Nat} (h : Spec.Dot.StmtList ns) :
    ∃ ns', Spec.Dot.StmtList ns' ∧ ((ns = [] ∧ ns' = []) ∨ Good ns') ∧ Mended ns ns' := by
  refine Spec.Dot.StmtList.rec
    (motive_1 := fun ns _ => ∃ ns', Spec.Dot.Stmt ns' ∧ Good ns' ∧ Mended ns ns')
    (motive_2 := fun ns _ => ∃ ns', Spec.Dot.EdgeEnd ns' ∧ Good ns' ∧ Mended ns ns')
    (motive_3 := fun ns _ => ∃ ns', Spec.Dot.EdgeRHS ns' ∧ Good ns' ∧ Mended ns ns')
    (motive_4 := fun ns _ => ∃ ns', Spec.Dot.Subgraph ns' ∧ Good ns' ∧ Mended ns ns')
    (motive_5 := fun ns _ => ∃ ns', Spec.Dot.StmtList ns' ∧ ((ns = [] ∧ ns' = []) ∨ Good ns') ∧ Mended ns ns')
    ?_ ?_ ?_ ?_ ?_ ?_ ?_ ?_ ?_ ?_ ?_ ?_ h
  · intro a b ha hb
    obtain ⟨b', h1, h2, h3⟩ := mayAttrList_mend hb
    exact ⟨_, .node ha h1, good_attrs (nodeId_good ha) h1 h2, (Mended.refl a).append h3⟩
  · rintro a b c _ _ hc ⟨a', a1, a2, a3⟩ ⟨b', b1, b2, b3⟩
    obtain ⟨c', h1, h2, h3⟩ := mayAttrList_mend hc
    refine ⟨_, .edge a1 b1 h1, ?_, a3.append (b3.append h3)⟩
    rw [← List.append_assoc]
    exact good_attrs (a2.append b2) h1 h2
  · intro k a hk ha
    obtain ⟨a', h1, h2, h3⟩ := attrList_mend ha
    refine ⟨_, .attr hk h1, fun rev _ => ⟨⟨?_, h2 _⟩, ?_⟩, .keep k h3⟩
    · cases hk <;> exact .other (by decide) (by decide)
    · simpa using attrList_fin h1 (k :: rev)
  · refine ⟨_, .assign, fun rev hr => ⟨by simp [scan, okAt], ?_⟩, Mended.refl _⟩
    have h8 : Start (8 :: 18 :: rev) := .fresh na (by decide) (by decide)
    exact fin (h8.push na (by decide)) (by decide)
  · rintro a _ ⟨a', h1, h2, h3⟩
    exact ⟨_, .sub h1, h2, h3⟩
  · intro a ha
    exact ⟨_, .node ha, nodeId_good ha, Mended.refl _⟩
  · rintro a _ ⟨a', h1, h2, h3⟩
    exact ⟨_, .sub h1, h2, h3⟩
  · rintro o a ho _ ⟨a', h1, h2, h3⟩
    exact ⟨_, .last ho h1, good_op ho h2, .keep o h3⟩
  · rintro o a r ho _ _ ⟨a', a1, a2, a3⟩ ⟨r', r1, r2, r3⟩
    exact ⟨_, .more ho a1 r1, good_op ho (a2.append r2), .keep o (a3.append r3)⟩
  · rintro hd a hh _ ⟨a', h1, h2, h3⟩
    rcases h2 with ⟨rfl, rfl⟩ | h2
    · cases hh with
      | none => exact ⟨_, .mk .anonymous .none, Good.braces .anonymous (.inl ⟨rfl, by simp⟩), .braces .done⟩
      | anonymous => exact ⟨_, .mk .anonymous .none, Good.braces .anonymous (.inl ⟨rfl, by simp⟩), Mended.refl _⟩
      | named => exact ⟨_, .mk .named .none, Good.braces .named (.inl ⟨rfl, by simp⟩), Mended.refl _⟩
    · exact ⟨_, .mk hh h1, Good.braces hh (.inr h2), (Mended.refl hd).append (.keep 3 (h3.append (Mended.refl [4])))⟩
  · exact ⟨[], .none, .inl ⟨rfl, rfl⟩, .done⟩
  · rintro a s r _ hs _ ⟨a', a1, a2, a3⟩ ⟨r', r1, r2, r3⟩
    refine ⟨_, .some a1 hs r1, .inr ?_, a3.append ((Mended.refl s).append r3)⟩
    rw [← List.append_assoc]
    rcases r2 with ⟨-, rfl⟩ | r2
    · simpa using semi_good a2 hs
    · exact (semi_good a2 hs).append r2

/-- The mended sentence. -/
theorem graph_mend {ts : List Nat} (h : Spec.Dot.Graph ts) : ∃ ts', Mended ts ts' ∧ Spec.Dot.Graph ts' ∧ scan [] ts' := by
  obtain @⟨s, i, a, k, hs, hk, hi, ha⟩ := h
  obtain ⟨a', h1, h2, h3⟩ := stmtList_mend ha
  refine ⟨_, (Mended.refl s).append (.keep k ((Mended.refl i).append (.keep 3 (h3.append (Mended.refl [4]))))), .mk hs hk hi h1, ?_⟩
  rw [scan_append]
  refine ⟨may_scan (by decide) (by decide) hs _, ?_⟩
  refine ⟨by cases hk <;> exact .other (by decide) (by decide), ?_⟩
  rw [scan_append]
  refine ⟨may_scan (by decide) (by decide) hi _, .other (by decide) (by decide), ?_⟩
  rw [scan_append]
  rcases h2 with ⟨-, rfl⟩ | h2
  · refine ⟨trivial, ⟨fun h => absurd h (by decide), fun _ r hr => ?_⟩, trivial⟩
    simp only [List.reverse_nil, List.nil_append, List.cons.injEq, true_and] at hr
    subst hr
    have hann : Announces k := by cases hk <;> simp [Announces]
    cases hi with
    | no => exact .inl hann
    | yes => exact .inr ⟨rfl, _, _, rfl, hann⟩
  · have h3 : Start (3 :: (i.reverse ++ k :: (s.reverse ++ []))) := .fresh na (by decide) (by decide)
    exact ⟨(h2 _ h3).1, .fin (h2 _ h3).2, trivial⟩

theorem alist_no_invalid {a : List Nat} (h : Spec.Dot.AList a) : 0 ∉ a := by
  induction h with
  | last ha hc => cases ha <;> cases hc <;> simp
  | more ha hc _ ih => cases ha <;> cases hc <;> simp [ih]

theorem mayAList_no_invalid {a : List Nat} (h : MayAList a) : 0 ∉ a := by
  cases h with
  | no => simp
  | yes h => exact alist_no_invalid h

theorem attrList_no_invalid {a : List Nat} (h : Spec.Dot.AttrList a) : 0 ∉ a := by
  induction h with
  | last ha => simp [mayAList_no_invalid ha]
  | more ha _ ih => simp [mayAList_no_invalid ha, ih]

theorem mayAttrList_no_invalid {a : List Nat} (h : MayAttrList a) : 0 ∉ a := by
  cases h with
  | no => simp
  | yes h => exact attrList_no_invalid h

theorem stmtList_no_invalid {ns : List Nat} (h : Spec.Dot.StmtList ns) : 0 ∉ ns := by
  refine Spec.Dot.StmtList.rec (motive_1 := fun ns _ => 0 ∉ ns) (motive_2 := fun ns _ => 0 ∉ ns) (motive_3 := fun ns _ => 0 ∉ ns)
    (motive_4 := fun ns _ => 0 ∉ ns) (motive_5 := fun ns _ => 0 ∉ ns) ?_ ?_ ?_ ?_ ?_ ?_ ?_ ?_ ?_ ?_ ?_ ?_ h
  · intro a b ha hb
    cases ha <;> simp [mayAttrList_no_invalid hb]
  · intro a b c _ _ hc h1 h2
    simp [h1, h2, mayAttrList_no_invalid hc]
  · intro k a hk ha
    cases hk <;> simp [attrList_no_invalid ha]
  · simp
  · intro a _ h; exact h
  · intro a ha; cases ha <;> simp
  · intro a _ h; exact h
  · intro o a ho _ h; cases ho <;> simp [h]
  · intro o a r ho _ _ h1 h2; cases ho <;> simp [h1, h2]
  · intro hd a hh _ h; cases hh <;> simp [h]
  · simp
  · intro a s r _ hs _ h1 h2; cases hs <;> simp [h1, h2]

/-- A published sentence has no invalid token. -/
theorem graph_no_invalid {ns : List Nat} (h : Spec.Dot.Graph ns) : ∀ t ∈ ns, t ≠ 0 := by
  obtain @⟨s, i, a, k, hs, hk, hi, ha⟩ := h
  have h0 := stmtList_no_invalid ha
  rintro t ht rfl
  revert ht
  cases hs <;> cases hk <;> cases hi <;> simp [h0]

end Gographviz.Proofs.Dot
