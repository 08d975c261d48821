import Verif.Proofs.Diff
import Verif.Proofs.GraphOps
import Verif.Proofs.WriteSem
import Verif.Spec.Erase
/-!
Support for C101: the writer after names have been removed.
-/
namespace Gographviz

open Spec Spec.Erase
open Gographviz.Ast (Stmt Loc EdgeRH AttrList)

/-- `g'` is `g` without the names `D`, which were removed from the children of `p` only. -/
structure Del (g g' : Graph) (D : Str → Bool) (p : Str) : Prop where
  lookup : ∀ x, g'.isNode x = (g.isNode x && !D x)
  find : ∀ x, D x = false → g'.nodes.find x = g.nodes.find x
  subs : ∀ x, mget g'.subGraphs x = if D x then none else mget g.subGraphs x
  kids : ∀ a b, mhas (g'.relations.children a) b = (mhas (g.relations.children a) b && !(decide (a = p) && D b))
  closed : ∀ q c, D q = true → g.isNode q = false → mhas (g.relations.children q) c = true → D c = true ∧ g.isNode c = true
  disj : ∀ q, D q = true → g.isSubGraph q = true → g.isNode q = false
  name : g'.name = g.name

variable {g g' : Graph} {D : Str → Bool} {p : Str}

theorem Del.isSub (E : Del g g' D p) (x : Str) : g'.isSubGraph x = (g.isSubGraph x && !D x) := by
  unfold Graph.isSubGraph mhas
  rw [E.subs]; cases D x <;> simp

theorem erase_append (a b : List Stmt) : erase D (a ++ b) = erase D a ++ erase D b := by
  induction a with
  | nil => rfl
  | cons s a ih => simp only [List.cons_append, erase, ih]; split <;> rfl

theorem erase_attrs (as : Attrs) : erase D (attrStmts as) = attrStmts as := by
  unfold attrStmts
  induction sortedNames as with
  | nil => rfl
  | cons k ks ih => simp [erase, about, eraseStmt, ih]

theorem elsewhere_cons (s : Stmt) (ss : List Stmt) : Elsewhere D p (s :: ss) ↔ Elsewhere D p [s] ∨ Elsewhere D p ss := by
  unfold Elsewhere
  simp only [allStmts, List.append_nil, List.mem_append]
  constructor
  · rintro ⟨q, b, h | h, h2⟩
    · exact .inl ⟨q, b, h, h2⟩
    · exact .inr ⟨q, b, h, h2⟩
  · rintro (⟨q, b, h, h2⟩ | ⟨q, b, h, h2⟩)
    · exact ⟨q, b, .inl h, h2⟩
    · exact ⟨q, b, .inr h, h2⟩

theorem elsewhere_nil : ¬ Elsewhere D p [] := by rintro ⟨q, b, h, _⟩; simp [allStmts] at h

theorem elsewhere_append (a b : List Stmt) : Elsewhere D p (a ++ b) ↔ Elsewhere D p a ∨ Elsewhere D p b := by
  induction a with
  | nil => simp [elsewhere_nil]
  | cons s a ih => rw [List.cons_append, elsewhere_cons, ih, elsewhere_cons s a, or_assoc]

theorem elsewhere_sub (m : Str) (b : List Stmt) : Elsewhere D p [.sub m b] ↔ (m ≠ p ∧ D m = false ∧ ∃ s ∈ b, about D s = true) ∨ Elsewhere D p b := by
  unfold Elsewhere
  simp only [allStmts, allStmt, List.append_nil, List.mem_cons, Stmt.sub.injEq]
  constructor
  · rintro ⟨q, c, ⟨rfl, rfl⟩ | h, h2⟩
    · exact .inl h2
    · exact .inr ⟨q, c, h, h2⟩
  · rintro (h | ⟨q, c, h, h2⟩)
    · exact ⟨m, b, .inl ⟨rfl, rfl⟩, h⟩
    · exact ⟨q, c, .inr h, h2⟩

theorem elsewhere_node {n : Ast.NodeID} {as : AttrList} : ¬ Elsewhere D p [.node n as] := by
  rintro ⟨q, b, h, _⟩; simp [allStmts, allStmt] at h

theorem elsewhere_attrs (as : Attrs) : ¬ Elsewhere D p (attrStmts as) := by
  unfold attrStmts
  induction sortedNames as with
  | nil => exact elsewhere_nil
  | cons k ks ih =>
    rw [List.map_cons, elsewhere_cons]
    rintro (⟨q, b, h, _⟩ | h)
    · simp [allStmts, allStmt] at h
    · exact ih h

theorem about_attrs {as : Attrs} {s : Stmt} (h : s ∈ attrStmts as) : about D s = false := by
  unfold attrStmts at h
  obtain ⟨k, _, rfl⟩ := List.mem_map.1 h
  rfl

/-- The statement of a node. -/
theorem nodeStmtOf_shape {c : Str} {s : Stmt} (h : nodeStmtOf g c = .ok s) : ∃ as, s = .node ⟨c, ⟨[], []⟩⟩ as := by
  unfold nodeStmtOf at h
  split at h
  · cases h
  · cases h; exact ⟨_, rfl⟩

/-- The statements of a removed subgraph are node statements of removed nodes. -/
theorem Del.dead (E : Del g g' D p) {f : Nat} {m : Str} {b : List Stmt} (hm : D m = true) (hn : g.isNode m = false) (h : subBody g f m = .ok b) :
    (∀ q b', Stmt.sub q b' ∉ allStmts b) ∧ ∀ x ∈ marksL b, D x = true := by
  cases f with
  | zero => cases h
  | succ f =>
    simp only [subBody] at h
    cases hs : mget g.subGraphs m with
    | none => rw [hs] at h; cases h
    | some sub =>
      rw [hs] at h
      simp only at h
      obtain ⟨cs, hcs, he⟩ := WRes.bind_eq_ok.1 h
      cases he
      rw [marks_attrs_append]
      have hall := mapW_ok.1 hcs
      have hmem : ∀ c ∈ g.relations.sortedChildren m, D c = true ∧ g.isNode c = true := fun c hc => E.closed m c hm hn (mem_sortedChildren.1 hc)
      have key : (∀ q b', Stmt.sub q b' ∉ allStmts cs) ∧ ∀ x ∈ marksL cs, D x = true := by
        clear hcs h
        generalize g.relations.sortedChildren m = l at hall hmem
        induction hall with
        | nil => simp [allStmts, marksL]
        | @cons a b la lb hc _ ih =>
          obtain ⟨h1, h2⟩ := hmem a (List.mem_cons_self ..)
          have ih := ih fun c hc => hmem c (List.mem_cons_of_mem _ hc)
          unfold childOf at hc
          rw [if_pos h2] at hc
          obtain ⟨as, rfl⟩ := nodeStmtOf_shape hc
          constructor
          · intro q b' hq
            simp only [allStmts, allStmt, List.mem_append, List.mem_singleton, reduceCtorEq, false_or] at hq
            exact ih.1 q b' hq
          · intro x hx
            simp only [marksL, marks, List.mem_append, List.mem_singleton] at hx
            rcases hx with rfl | hx
            · exact h1
            · exact ih.2 x hx
      refine ⟨fun q b' hq => ?_, key.2⟩
      rw [allStmts_append, List.mem_append] at hq
      rcases hq with hq | hq
      · unfold attrStmts at hq
        revert hq
        induction sortedNames sub.attrs with
        | nil => simp [allStmts]
        | cons k ks ih => simpa [allStmts, allStmt] using ih
      · exact key.1 q b' hq

/-- The statement for a child `c` is about `c`. -/
theorem childOf_about {R : Str → WRes (List Stmt)} {c : Str} {s : Stmt} (h : childOf g R c = .ok s) : about D s = D c := by
  unfold childOf at h
  split at h
  · obtain ⟨as, rfl⟩ := nodeStmtOf_shape h; rfl
  · split at h
    · obtain ⟨b, _, he⟩ := WRes.bind_eq_ok.1 h; cases he; rfl
    · cases h

/-- What happens to a result. -/
def Outcome {α : Type} (D : Str → Bool) (bad : Prop) (r : WRes α) (a : α) : Prop :=
  (¬ bad ∧ r = .ok a) ∨ (bad ∧ ∃ c, D c = true ∧ r = .err (.notNodeOrSubGraph c))

theorem Outcome.congr {α : Type} {bad bad' : Prop} {r : WRes α} {a : α} (h : Outcome D bad r a) (e : bad ↔ bad') : Outcome D bad' r a := by
  unfold Outcome at *; rwa [← e]

theorem Outcome.bind {α β : Type} {bad bad' : Prop} {r : WRes α} {a : α} {F : α → WRes β} {b : β} (h : Outcome D bad r a) (h' : Outcome D bad' (F a) b) :
    Outcome D (bad ∨ bad') (r.bind F) b := by
  rcases h with ⟨hb, rfl⟩ | ⟨hb, c, hc, rfl⟩
  · rw [WRes.bind_ok]; exact h'.congr (by simp [hb])
  · exact .inr ⟨.inl hb, c, hc, rfl⟩

theorem Outcome.ok {α : Type} (a : α) : Outcome D False (WRes.ok a) a := .inl ⟨id, rfl⟩

theorem Outcome.map {α β : Type} {bad : Prop} {r : WRes α} {a : α} (h : Outcome D bad r a) (k : α → β) :
    Outcome D bad (r.bind fun x => .ok (k x)) (k a) := (h.bind (F := fun x => .ok (k x)) (Outcome.ok (k a))).congr (by simp)

/-- The statements for the children of a subgraph: either all of them (`keep`) or those that are not removed. -/
theorem Del.children (E : Del g g' D p) {f : Nat} (IH : ∀ c b, D c = false → subBody g f c = .ok b → Outcome D (Elsewhere D p [.sub c b]) (subBody g' f c) (erase D b))
    (keep : Bool) : ∀ (l : List Str) (cs : List Stmt), mapW (childOf g (subBody g f)) l = .ok cs →
      Outcome D ((keep = true ∧ ∃ s ∈ cs, about D s = true) ∨ Elsewhere D p cs) (mapW (childOf g' (subBody g' f)) (l.filter fun c => keep || !D c)) (erase D cs)
  | [], cs, h => by cases h; exact (Outcome.ok _).congr (by simp [elsewhere_nil])
  | c :: l, cs, h => by
    simp only [mapW] at h
    obtain ⟨s, hs, h⟩ := WRes.bind_eq_ok.1 h
    obtain ⟨ss, hss, h⟩ := WRes.bind_eq_ok.1 h
    cases h
    have ih := E.children IH keep l ss hss
    have hab : about D s = D c := childOf_about (D := D) hs
    cases hD : D c with
    | true =>
      have hel : ¬ Elsewhere D p [s] := by
        unfold childOf at hs
        split at hs
        · obtain ⟨as, rfl⟩ := nodeStmtOf_shape hs; exact elsewhere_node
        · rename_i hn
          split at hs
          · obtain ⟨b, hb, he⟩ := WRes.bind_eq_ok.1 hs; cases he
            rw [elsewhere_sub]
            rintro (⟨_, h, _⟩ | ⟨q, b', hq, _⟩)
            · rw [hD] at h; cases h
            · exact (E.dead hD (by simpa using hn) hb).1 q b' hq
          · cases hs
      rw [hD] at hab
      have he : erase D (s :: ss) = erase D ss := by rw [erase, if_pos hab]
      rw [he]
      cases keep with
      | false =>
        rw [List.filter_cons_of_neg (by simp [hD])]
        exact ih.congr (by rw [elsewhere_cons s ss]; simp [hel])
      | true =>
        rw [List.filter_cons_of_pos (by simp)]
        refine .inr ⟨.inl ⟨rfl, s, List.mem_cons_self .., hab⟩, c, hD, ?_⟩
        have h1 : g'.isNode c = false := by rw [E.lookup, hD]; simp
        have h2 : g'.isSubGraph c = false := by rw [E.isSub, hD]; simp
        simp [mapW, childOf, h1, h2, WRes.bind]
    | false =>
      rw [hD] at hab
      rw [List.filter_cons_of_pos (by simp [hD])]
      have he : erase D (s :: ss) = eraseStmt D s :: erase D ss := by rw [erase, if_neg (by simp [hab])]
      rw [he]
      simp only [mapW]
      have h1 : Outcome D (Elsewhere D p [s]) (Gographviz.childOf g' (subBody g' f) c) (eraseStmt D s) := by
        unfold childOf at hs ⊢
        rw [E.lookup, E.isSub, hD]
        simp only [Bool.not_false, Bool.and_true]
        split at hs
        · rename_i hn
          rw [if_pos hn]
          obtain ⟨as, rfl⟩ := nodeStmtOf_shape hs
          refine .inl ⟨elsewhere_node, ?_⟩
          unfold nodeStmtOf at hs ⊢
          rw [E.find c hD]; exact hs
        · rename_i hn
          rw [if_neg hn]
          split at hs
          · rename_i hsub
            rw [if_pos hsub]
            obtain ⟨b, hb, he⟩ := WRes.bind_eq_ok.1 hs; cases he
            exact (IH c b hD hb).map fun b => Stmt.sub c b
          · cases hs
      refine (h1.bind (ih.map fun bs => eraseStmt D s :: bs)).congr ?_
      rw [elsewhere_cons s ss]
      simp [hab]
      constructor
      · rintro (h | h | h)
        · exact .inr (.inl h)
        · exact .inl h
        · exact .inr (.inr h)
      · rintro (h | h | h)
        · exact .inr (.inl h)
        · exact .inl h
        · exact .inr (.inr h)

theorem mkeys_filter {α β : Type} {m : Map α} {m' : Map β} (hw : MapWF m) (hw' : MapWF m') {P : Str → Bool} (h : ∀ x, mhas m' x = (mhas m x && P x)) :
    mkeys m' = (mkeys m).filter P := by
  have hf : mkeys (m.filter fun e => P e.1) = (mkeys m).filter P := by unfold mkeys; rw [List.filter_map]; rfl
  rw [← hf, ← mkeys_ssort hw', ← mkeys_ssort (hw.filter _)]
  apply ssort_unique
  apply (List.perm_ext_iff_of_nodup hw'.nodup (MapWF.nodup (m := m.filter fun e => P e.1) (hw.filter _))).2
  intro x
  rw [hf, List.mem_filter, ← mhas_iff, ← mhas_iff, h]
  simp

theorem Del.sortedChildren (E : Del g g' D p) (hi : GInv g) (hi' : GInv g') (m : Str) :
    g'.relations.sortedChildren m = (g.relations.sortedChildren m).filter fun c => !decide (m = p) || !D c := by
  have hw := hi.rels.iwf1 m
  have hw' := hi'.rels.iwf1 m
  unfold Relations.sortedChildren
  rw [mkeys_ssort hw, mkeys_ssort hw']
  refine mkeys_filter hw hw' fun x => ?_
  rw [E.kids]
  cases decide (m = p) <;> simp

theorem Del.body (E : Del g g' D p) (hi : GInv g) (hi' : GInv g') (f : Nat) : ∀ m b, D m = false → subBody g f m = .ok b →
    Outcome D (Elsewhere D p [.sub m b]) (subBody g' f m) (erase D b) := by
  induction f with
  | zero => intro m b _ h; cases h
  | succ f ih =>
    intro m b hm h
    simp only [subBody] at h ⊢
    rw [E.subs, hm]
    cases hs : mget g.subGraphs m with
    | none => rw [hs] at h; cases h
    | some sub =>
      rw [hs] at h
      simp only [Bool.false_eq_true, if_false] at h ⊢
      obtain ⟨cs, hcs, he⟩ := WRes.bind_eq_ok.1 h
      cases he
      have h2 := E.children ih (!decide (m = p)) _ cs hcs
      rw [← E.sortedChildren hi hi' m] at h2
      rw [erase_append, erase_attrs]
      refine (h2.map fun cs => attrStmts sub.attrs ++ cs).congr ?_
      rw [elsewhere_sub, elsewhere_append]
      simp only [List.mem_append, elsewhere_attrs, false_or, hm, true_and]
      constructor
      · rintro (⟨h, s, hs, ha⟩ | h)
        · exact .inl ⟨by simpa using h, s, .inr hs, ha⟩
        · exact .inr h
      · rintro (⟨h, s, hs | hs, ha⟩ | h)
        · rw [about_attrs hs] at ha; cases ha
        · exact .inl ⟨by simpa using h, s, hs, ha⟩
        · exact .inr h

/-! ### marks -/

theorem Del.marksBody (E : Del g g' D p) {x : Str} (hx : D x = false) (f : Nat) : ∀ m b, subBody g f m = .ok b → (x ∈ marksL (erase D b) ↔ x ∈ marksL b) := by
  induction f with
  | zero => intro m b h; cases h
  | succ f ih =>
    intro m b h
    simp only [subBody] at h
    cases hs : mget g.subGraphs m with
    | none => rw [hs] at h; cases h
    | some sub =>
      rw [hs] at h
      simp only at h
      obtain ⟨cs, hcs, he⟩ := WRes.bind_eq_ok.1 h
      cases he
      rw [erase_append, erase_attrs, marks_attrs_append, marks_attrs_append]
      have hall := mapW_ok.1 hcs
      clear hcs h
      generalize g.relations.sortedChildren m = l at hall
      induction hall with
      | nil => simp [erase]
      | @cons c s lc ls hc _ ih2 =>
        have hab : about D s = D c := childOf_about (D := D) hc
        cases hD : D c with
        | true =>
          rw [hD] at hab
          rw [erase, if_pos hab]
          simp only [ih2, marksL, List.mem_append, iff_or_self]
          intro hm
          exfalso
          unfold childOf at hc
          split at hc
          · obtain ⟨as, rfl⟩ := nodeStmtOf_shape hc
            simp only [marks, List.mem_singleton] at hm
            subst hm; rw [hD] at hx; cases hx
          · rename_i hn
            split at hc
            · obtain ⟨b, hb, he⟩ := WRes.bind_eq_ok.1 hc; cases he
              simp only [marks, List.mem_cons] at hm
              rcases hm with rfl | hm
              · rw [hD] at hx; cases hx
              · have := (E.dead hD (by simpa using hn) hb).2 x hm
                rw [hx] at this; cases this
            · cases hc
        | false =>
          rw [hD] at hab
          rw [erase, if_neg (by simp [hab])]
          simp only [marksL, List.mem_append, ih2]
          have : x ∈ marks (eraseStmt D s) ↔ x ∈ marks s := by
            unfold childOf at hc
            split at hc
            · obtain ⟨as, rfl⟩ := nodeStmtOf_shape hc; rfl
            · split at hc
              · obtain ⟨b, hb, he⟩ := WRes.bind_eq_ok.1 hc; cases he
                simp only [eraseStmt, marks, List.mem_cons, ih c b hb]
              · cases hc
          rw [this]

/-! ### edges -/

/-- The statements of an end of an edge. -/
def locStmts : Loc → List Stmt
  | .node _ => []
  | .sub id b => [.sub id b]

theorem elsewhere_edge (s d : Loc) (o : Bool) (as : AttrList) : Elsewhere D p [.edge s [.mk o d] as] ↔ Elsewhere D p (locStmts s) ∨ Elsewhere D p (locStmts d) := by
  rw [← elsewhere_append]
  unfold Elsewhere
  have : ∀ q b, Stmt.sub q b ∈ allStmts [.edge s [.mk o d] as] ↔ Stmt.sub q b ∈ allStmts (locStmts s ++ locStmts d) := by
    intro q b
    cases s <;> cases d <;> simp [allStmts, allStmt, allLoc, allRHS, locStmts]
  simp only [this]

/-- An end of an edge that is written by its name. -/
def Named (g : Graph) (n port : Str) : Prop := g.isNode n = true ∨ (g.isClusterSubGraph n = true ∧ port = [])

theorem Del.locOf (E : Del g g' D p) (hi : GInv g) (hi' : GInv g') {f : Nat} {n port : Str} {l : Loc} (hD : D n = false) (h : locOf g f n port = .ok l) :
    Outcome D (Elsewhere D p (locStmts l)) (Gographviz.locOf g' f n port) (eraseLoc D l) ∧ endAt D l = false ∧
      ∀ x, D x = false → (x ∈ marksLoc (eraseLoc D l) ↔ x ∈ marksLoc l) := by
  have hc : g'.isClusterSubGraph n = g.isClusterSubGraph n := by
    unfold Graph.isClusterSubGraph; rw [E.isSub, hD]; simp
  have hid : ∀ port, (Ast.makeNodeID n port).id = n := fun port => by
    unfold Ast.makeNodeID; split
    · split <;> rfl
    · rfl
  unfold Gographviz.locOf at h ⊢
  rw [E.lookup, E.isSub, hc, hD, E.find n hD]
  simp only [Bool.not_false, Bool.and_true]
  have hel : ¬ Elsewhere D p [] := elsewhere_nil
  split at h
  · rename_i hn
    rw [if_pos hn]
    split at h
    · rename_i hf
      cases h
      rw [if_pos hf]
      exact ⟨.inl ⟨hel, rfl⟩, by simp [endAt, hid, hD], fun _ _ => .rfl⟩
    · cases h
  · rename_i hn
    rw [if_neg hn]
    split at h
    · rename_i hcl
      rw [if_pos hcl]
      split at h
      · cases h
      · rename_i hp
        cases h
        rw [if_neg hp]
        exact ⟨.inl ⟨hel, rfl⟩, by simp [endAt, hid, hD], fun _ _ => .rfl⟩
    · rename_i hcl
      rw [if_neg hcl]
      split at h
      · rename_i hsub
        rw [if_pos hsub]
        split at h
        · cases h
        · rename_i hp
          rw [if_neg hp]
          obtain ⟨b, hb, he⟩ := WRes.bind_eq_ok.1 h
          cases he
          refine ⟨(E.body hi hi' f n b hD hb).map fun b => Loc.sub n b, hD, fun x hx => ?_⟩
          simp only [eraseLoc, marksLoc, List.mem_cons, E.marksBody hx f n b hb]
      · cases h

/-- An end of a removed edge. -/
theorem Del.deadLoc (E : Del g g' D p) {f : Nat} {n port : Str} {l : Loc} (hD : D n = true ∨ Named g n port) (h : Gographviz.locOf g f n port = .ok l) :
    ¬ Elsewhere D p (locStmts l) ∧ endAt D l = D n ∧ ∀ x ∈ marksLoc l, D x = true := by
  have hid : ∀ port, (Ast.makeNodeID n port).id = n := fun port => by
    unfold Ast.makeNodeID; split
    · split <;> rfl
    · rfl
  unfold Gographviz.locOf at h
  split at h
  · split at h
    · cases h
      exact ⟨elsewhere_nil, by simp [endAt, hid], by simp [marksLoc]⟩
    · cases h
  · rename_i hn
    split at h
    · split at h
      · cases h
      · cases h
        exact ⟨elsewhere_nil, by simp [endAt, hid], by simp [marksLoc]⟩
    · rename_i hcl
      split at h
      · split at h
        · cases h
        · obtain ⟨b, hb, he⟩ := WRes.bind_eq_ok.1 h
          cases he
          rcases hD with hD | hD
          · have hdead := E.dead hD (by simpa using hn) hb
            refine ⟨?_, rfl, ?_⟩
            · simp only [locStmts]
              rw [elsewhere_sub]
              rintro (⟨_, h, _⟩ | ⟨q, b', hq, _⟩)
              · rw [hD] at h; cases h
              · exact hdead.1 q b' hq
            · intro x hx
              simp only [marksLoc, List.mem_cons] at hx
              rcases hx with rfl | hx
              · exact hD
              · exact hdead.2 x hx
          · rcases hD with hD | hD
            · exact absurd hD hn
            · exact absurd hD.1 hcl
      · cases h

/-- The edge ends at a removed name. -/
def touchesD (D : Str → Bool) (e : Edge) : Bool := D e.src || D e.dst

theorem Del.edges (E : Del g g' D p) (hi : GInv g) (hi' : GInv g') {f : Nat} : ∀ (l : List Edge) (es : List Stmt),
    (∀ e ∈ l, touchesD D e = true → (D e.src = true ∨ Named g e.src e.srcPort) ∧ (D e.dst = true ∨ Named g e.dst e.dstPort)) →
    mapW (edgeOf g f) l = .ok es →
    Outcome D (Elsewhere D p es) (mapW (edgeOf g' f) (l.filter fun e => !touchesD D e)) (erase D es) ∧
      ∀ x, D x = false → (x ∈ marksL (erase D es) ↔ x ∈ marksL es)
  | [], es, _, h => by cases h; exact ⟨(Outcome.ok _).congr (by simp [elsewhere_nil]), fun _ _ => .rfl⟩
  | e :: l, es, hl, h => by
    simp only [mapW] at h
    obtain ⟨s, hs, h⟩ := WRes.bind_eq_ok.1 h
    obtain ⟨ss, hss, h⟩ := WRes.bind_eq_ok.1 h
    cases h
    obtain ⟨ih1, ih2⟩ := E.edges hi hi' l ss (fun e he => hl e (List.mem_cons_of_mem _ he)) hss
    unfold edgeOf at hs
    obtain ⟨ls, hls, hs⟩ := WRes.bind_eq_ok.1 hs
    obtain ⟨ld, hld, hs⟩ := WRes.bind_eq_ok.1 hs
    cases hs
    cases hD : touchesD D e with
    | true =>
      rw [List.filter_cons_of_neg (by simp [hD])]
      obtain ⟨hA, hB⟩ := hl e (List.mem_cons_self ..) hD
      obtain ⟨a1, a2, a3⟩ := E.deadLoc hA hls
      obtain ⟨b1, b2, b3⟩ := E.deadLoc hB hld
      have hab : about D (.edge ls [.mk e.dir ld] (Ast.putMap (attrsCopy e.attrs))) = true := by
        simp only [about, a2, List.any_cons, b2, List.any_nil, Bool.or_false]; exact hD
      rw [erase, if_pos hab]
      refine ⟨ih1.congr ?_, fun x hx => ?_⟩
      · rw [elsewhere_cons _ ss, elsewhere_edge]; simp [a1, b1]
      · rw [ih2 x hx]
        simp only [marksL, marks, marksRHS, List.append_nil, List.mem_append, iff_or_self]
        rintro (h | h)
        · rw [a3 x h] at hx; cases hx
        · rw [b3 x h] at hx; cases hx
    | false =>
      rw [List.filter_cons_of_pos (by simp [hD])]
      have hD' := hD
      unfold touchesD at hD'
      rw [Bool.or_eq_false_iff] at hD'
      obtain ⟨a1, a2, a3⟩ := E.locOf hi hi' hD'.1 hls
      obtain ⟨b1, b2, b3⟩ := E.locOf hi hi' hD'.2 hld
      have hab : about D (.edge ls [.mk e.dir ld] (Ast.putMap (attrsCopy e.attrs))) = false := by
        simp only [about, a2, List.any_cons, b2, List.any_nil, Bool.or_false]
      rw [erase, if_neg (by simp [hab])]
      constructor
      · simp only [mapW, edgeOf]
        have h1 := (a1.bind (F := fun s => (Gographviz.locOf g' f e.dst e.dstPort).bind fun d => .ok (Stmt.edge s [.mk e.dir d] (Ast.putMap (attrsCopy e.attrs))))
          (b1.map fun d => Stmt.edge (eraseLoc D ls) [.mk e.dir d] (Ast.putMap (attrsCopy e.attrs))))
        refine (h1.bind (ih1.map fun bs => eraseStmt D (.edge ls [.mk e.dir ld] (Ast.putMap (attrsCopy e.attrs))) :: bs)).congr ?_
        rw [elsewhere_cons _ ss, elsewhere_edge]
      · intro x hx
        simp only [eraseStmt, eraseRhs, marksL, marks, marksRHS, List.append_nil, List.mem_append, a3 x hx, b3 x hx, ih2 x hx]

/-! ### the subgraphs and nodes of the graph -/

theorem Del.rootSubs (E : Del g g' D p) (hi : GInv g) (hi' : GInv g') {f : Nat} : ∀ (ns seen seen' : List Str) (ss : List Stmt),
    (∀ x ∈ ns, g.isSubGraph x = true) → (∀ x, D x = false → (x ∈ seen' ↔ x ∈ seen)) → rootSubsOf g f seen ns = .ok ss →
    Outcome D (Elsewhere D p ss) (rootSubsOf g' f seen' (ns.filter fun x => !D x)) (erase D ss) ∧
      ∀ x, D x = false → (x ∈ marksL (erase D ss) ↔ x ∈ marksL ss)
  | [], _, _, ss, _, _, h => by cases h; exact ⟨(Outcome.ok _).congr (by simp [elsewhere_nil]), fun _ _ => .rfl⟩
  | n :: ns, seen, seen', ss, hns, hs, h => by
    have hns' : ∀ x ∈ ns, g.isSubGraph x = true := fun x hx => hns x (List.mem_cons_of_mem _ hx)
    simp only [rootSubsOf] at h
    cases hD : D n with
    | true =>
      rw [List.filter_cons_of_neg (by simp [hD])]
      split at h
      · obtain ⟨b, hb, h⟩ := WRes.bind_eq_ok.1 h
        obtain ⟨rs, hrs, h⟩ := WRes.bind_eq_ok.1 h
        cases h
        have hdead := E.dead hD (E.disj n hD (hns n (List.mem_cons_self ..))) hb
        obtain ⟨i1, i2⟩ := E.rootSubs hi hi' ns _ seen' rs hns' (fun x hx => by
          rw [hs x hx, List.mem_append, List.mem_cons, iff_self_or]
          rintro (rfl | h)
          · rw [hD] at hx; cases hx
          · rw [hdead.2 x h] at hx; cases hx) hrs
        rw [erase, if_pos (show about D (.sub n b) = true from hD)]
        refine ⟨i1.congr ?_, fun x hx => ?_⟩
        · rw [elsewhere_cons _ rs, elsewhere_sub]
          have : ¬ Elsewhere D p b := by rintro ⟨q, b', hq, _⟩; exact hdead.1 q b' hq
          simp [hD, this]
        · rw [i2 x hx]
          simp only [marksL, marks, List.mem_append, List.mem_cons, iff_or_self]
          rintro (rfl | h)
          · rw [hD] at hx; cases hx
          · rw [hdead.2 x h] at hx; cases hx
      · exact E.rootSubs hi hi' ns seen seen' ss hns' hs h
    | false =>
      rw [List.filter_cons_of_pos (by simp [hD])]
      simp only [rootSubsOf, E.name, E.kids, hD, Bool.and_false, Bool.not_false, Bool.and_true, hs n hD]
      split at h
      · rename_i hc
        rw [if_pos hc]
        obtain ⟨b, hb, h⟩ := WRes.bind_eq_ok.1 h
        obtain ⟨rs, hrs, h⟩ := WRes.bind_eq_ok.1 h
        cases h
        obtain ⟨i1, i2⟩ := E.rootSubs hi hi' ns _ (seen' ++ n :: marksL (erase D b)) rs hns' (fun x hx => by
          rw [List.mem_append, List.mem_append, List.mem_cons, List.mem_cons, hs x hx, E.marksBody hx f n b hb]) hrs
        rw [erase, if_neg (show ¬ about D (.sub n b) = true by simp [about, hD])]
        refine ⟨?_, fun x hx => ?_⟩
        · refine ((E.body hi hi' f n b hD hb).bind (F := fun b' => (rootSubsOf g' f (seen' ++ n :: marksL b') (ns.filter fun x => !D x)).bind fun rs => .ok (.sub n b' :: rs))
            (i1.map fun rs => Stmt.sub n (erase D b) :: rs)).congr ?_
          rw [elsewhere_cons _ rs]
        · simp only [eraseStmt, marksL, marks, List.mem_append, List.mem_cons, E.marksBody hx f n b hb, i2 x hx]
      · rename_i hc
        rw [if_neg hc]
        exact E.rootSubs hi hi' ns seen seen' ss hns' hs h

theorem Del.nodes (E : Del g g' D p) : ∀ (l : List Str) (ns : List Stmt), mapW (nodeStmtOf g) l = .ok ns →
    mapW (nodeStmtOf g') (l.filter fun x => !D x) = .ok (erase D ns) ∧ ¬ Elsewhere D p ns
  | [], ns, h => by cases h; exact ⟨rfl, elsewhere_nil⟩
  | n :: l, ns, h => by
    simp only [mapW] at h
    obtain ⟨s, hs, h⟩ := WRes.bind_eq_ok.1 h
    obtain ⟨ss, hss, h⟩ := WRes.bind_eq_ok.1 h
    cases h
    obtain ⟨ih1, ih2⟩ := E.nodes l ss hss
    obtain ⟨as, rfl⟩ := nodeStmtOf_shape hs
    refine ⟨?_, by rw [elsewhere_cons]; rintro (h | h); exact elsewhere_node h; exact ih2 h⟩
    cases hD : D n with
    | true =>
      rw [List.filter_cons_of_neg (by simp [hD]), erase, if_pos (show about D (.node ⟨n, ⟨[], []⟩⟩ as) = true from hD)]
      exact ih1
    | false =>
      rw [List.filter_cons_of_pos (by simp [hD]), erase, if_neg (by simp [about, hD])]
      have : nodeStmtOf g' n = .ok (.node ⟨n, ⟨[], []⟩⟩ as) := by unfold nodeStmtOf at hs ⊢; rw [E.find n hD]; exact hs
      simp only [mapW, this, ih1, WRes.bind_ok, eraseStmt]

/-- Removing names from a sorted list of edges. -/
theorem sorted_filter {sortE : List Edge → List Edge} (hs : SortContract sortE) {es : List Edge} (hw : ∀ x ∈ es, MapWF x.attrs) (hn : ∀ x ∈ es, NoEmpty x)
    (P : Edge → Bool) : sortE (es.filter P) = (sortE es).filter P := by
  have hm : ∀ x, x ∈ sortE (es.filter P) → x ∈ es := fun x hx => (List.mem_filter.1 ((hs.perm _).mem_iff.1 hx)).1
  have hm2 : ∀ x, x ∈ (sortE es).filter P → x ∈ es := fun x hx => (hs.perm es).mem_iff.1 (List.mem_filter.1 hx).1
  have hp : (sortE (es.filter P)).Perm ((sortE es).filter P) := (hs.perm _).trans ((hs.perm es).filter P).symm
  have := sorted_unique (fun x hx => hw x (hm x hx)) (hs.sorted _) ((hs.sorted es).sublist List.filter_sublist) hp
  have h2 := (this.and_mem.imp (S := fun a b => b = id a) fun a b ⟨h, ha, hb⟩ =>
    (edgeSame_eq (hw a (hm a ha)) (hw b (hm2 b hb)) (hn a (hm a ha)) (hn b (hm2 b hb)) h).symm).eq_map
  rw [h2, List.map_id]

theorem Del.write (E : Del g g' D p) (hi : GInv g) (hi' : GInv g') (hat : g'.attrs = g.attrs) (hd : g'.directed = g.directed) (hst : g'.strict = g.strict)
    (hed : g'.edges.edges = g.edges.edges.filter fun e => !touchesD D e)
    (hend : ∀ e ∈ g.edges.edges, touchesD D e = true → (D e.src = true ∨ Named g e.src e.srcPort) ∧ (D e.dst = true ∨ Named g e.dst e.dstPort))
    {sortE : List Edge → List Edge} (hs : SortContract sortE) (hn : ∀ x ∈ g.edges.edges, NoEmpty x) {f : Nat} {t : Ast.Graph} (hw : writeAst sortE f g = .ok t) :
    Outcome D (Elsewhere D p t.stmts) (writeAst sortE f g') { t with stmts := erase D t.stmts } := by
  rw [writeAst_eq hi] at hw
  obtain ⟨es, hes, hw⟩ := WRes.bind_eq_ok.1 hw
  obtain ⟨ss, hss, hw⟩ := WRes.bind_eq_ok.1 hw
  obtain ⟨ns, hns, hw⟩ := WRes.bind_eq_ok.1 hw
  cases hw
  obtain ⟨e1, e2⟩ := E.edges hi hi' (sortE g.edges.edges) es (fun e he => hend e ((hs.perm _).mem_iff.1 he)) hes
  rw [← sorted_filter hs (fun x hx => (hi.edges.attrs x hx).wf) hn, ← hed] at e1
  obtain ⟨s1, s2⟩ := E.rootSubs hi hi' (mkeys g.subGraphs) (marksL es) (marksL (erase D es)) ss (fun x hx => (mhas_iff _ _).2 hx) e2 hss
  have hk : mkeys g'.subGraphs = (mkeys g.subGraphs).filter fun x => !D x := mkeys_filter hi.subs.wf hi'.subs.wf fun x => E.isSub x
  rw [← hk] at s1
  obtain ⟨n1, n2⟩ := E.nodes _ ns hns
  have hk2 : mkeys g'.nodes.lookup = (mkeys g.nodes.lookup).filter fun x => !D x := mkeys_filter hi.nodes.wf hi'.nodes.wf fun x => E.lookup x
  have hf : (mkeys g'.nodes.lookup).filter (fun n => !decide (n ∈ marksL (erase D es) ++ marksL (erase D ss))) =
      ((mkeys g.nodes.lookup).filter fun n => !decide (n ∈ marksL es ++ marksL ss)).filter fun x => !D x := by
    rw [hk2, List.filter_filter, List.filter_filter]
    apply List.filter_congr
    intro x _
    cases hx : D x with
    | true => simp
    | false => simp only [List.mem_append, e2 x hx, s2 x hx, Bool.not_false, Bool.and_true, Bool.true_and]
  rw [writeAst_eq hi', hat, hd, hst, E.name]
  rw [← hf] at n1
  have h1 := s1.bind (F := fun ss' => (mapW (nodeStmtOf g') ((mkeys g'.nodes.lookup).filter fun n => !decide (n ∈ marksL (erase D es) ++ marksL ss'))).bind fun ns =>
      .ok (Ast.Graph.mk g.directed g.strict g.name (attrStmts g.attrs ++ erase D es ++ ss' ++ ns)))
    (b := Ast.Graph.mk g.directed g.strict g.name (attrStmts g.attrs ++ erase D es ++ erase D ss ++ erase D ns)) (bad' := False)
    (.inl ⟨id, by rw [n1, WRes.bind_ok]⟩)
  have h2 := e1.bind (F := fun es' => (rootSubsOf g' f (marksL es') (mkeys g'.subGraphs)).bind fun ss' =>
    (mapW (nodeStmtOf g') ((mkeys g'.nodes.lookup).filter fun n => !decide (n ∈ marksL es' ++ marksL ss'))).bind fun ns =>
      .ok (Ast.Graph.mk g.directed g.strict g.name (attrStmts g.attrs ++ es' ++ ss' ++ ns))) h1
  simp only [erase_append, erase_attrs]
  refine h2.congr ?_
  simp [elsewhere_append, elsewhere_attrs, n2]

end Gographviz
