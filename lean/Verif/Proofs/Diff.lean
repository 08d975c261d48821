import Verif.Proofs.WriteCongr
import Verif.Spec.Diff
/-!
How the writer follows a change of the graph.
-/
namespace Gographviz

open Spec Spec.Diff
open Ast (Stmt Loc EdgeRH AttrList)

variable {g g' : Graph} {nf : Str → AttrList → AttrList} {bf : Str → List Stmt → List Stmt} {d : Nat}

/-- A node or a subgraph. -/
def Known (g : Graph) (x : Str) : Prop := g.isNode x = true ∨ g.isSubGraph x = true

theorem mset_new {α : Type} {m : Map α} {k : Str} (v : α) (h : mget m k = none) : ∃ a b, m = a ++ b ∧ mset m k v = a ++ (k, v) :: b := by
  induction m with
  | nil => exact ⟨[], [], rfl, rfl⟩
  | cons e m ih =>
    obtain ⟨k', v'⟩ := e
    simp only [mget] at h
    split at h
    · cases h
    · rename_i hne
      simp only [mset]
      split
      · exact ⟨[], _, rfl, rfl⟩
      · obtain ⟨a, b, h1, h2⟩ := ih h
        exact ⟨(k', v') :: a, b, by rw [h1]; rfl, by rw [h2]; rfl⟩

theorem mset_old {α : Type} {m : Map α} (hw : MapWF m) {k : Str} {v0 : α} (v : α) (h : mget m k = some v0) :
    mset m k v = m.map fun e => if e.1 = k then (k, v) else e := by
  apply Map.ext (hw.mset k v)
  · unfold MapWF
    rw [List.pairwise_map]
    refine hw.imp fun {a b} hab => ?_
    have e1 : (if a.1 = k then (k, v) else a).1 = a.1 := by split <;> simp_all
    have e2 : (if b.1 = k then (k, v) else b).1 = b.1 := by split <;> simp_all
    rw [e1, e2]; exact hab
  · intro x
    rw [mget_mset]
    clear hw
    induction m with
    | nil => cases h
    | cons e m ih =>
      obtain ⟨k', v'⟩ := e
      simp only [List.map_cons]
      by_cases he : k' = k
      · subst he
        simp only [if_true, mget]
        split
        · rfl
        · rename_i hne
          clear h ih
          induction m with
          | nil => rfl
          | cons e m ih2 =>
            obtain ⟨k2, v2⟩ := e
            simp only [List.map_cons]
            by_cases h2 : k2 = k'
            · subst h2; simp only [if_true, mget, if_neg hne]; exact ih2
            · simp only [if_neg h2, mget]; rw [ih2]
      · simp only [mget, if_neg he] at h ⊢
        by_cases hx : k' = x
        · subst hx; simp [Ne.symm he]
        · simp only [if_neg hx]; exact ih h

theorem editStmts_append (a b : List Stmt) : editStmts nf bf (a ++ b) = editStmts nf bf a ++ editStmts nf bf b := by
  induction a with
  | nil => simp [editStmts]
  | cons s a ih => simp [editStmts, ih]

theorem editStmts_eq_map (a : List Stmt) : editStmts nf bf a = a.map (editStmt nf bf) := by
  induction a with
  | nil => simp [editStmts]
  | cons s a ih => simp [editStmts, ih]

theorem editStmts_attrs (as : Attrs) : editStmts nf bf (attrStmts as) = attrStmts as := by
  unfold attrStmts
  induction sortedNames as with
  | nil => simp [editStmts]
  | cons k ks ih => simp only [List.map_cons, editStmts, editStmt, ih]

mutual
theorem editStmt_id : ∀ s : Stmt, editStmt (fun _ as => as) (fun _ b => b) s = s
  | .node _ _ => by simp [editStmt]
  | .edge src rhs as => by simp [editStmt, editLoc_id src, editRhs_id rhs]
  | .sub id body => by simp [editStmt, editStmts_id body]
  | .nodeAttrs _ => by simp [editStmt]
  | .edgeAttrs _ => by simp [editStmt]
  | .graphAttrs _ => by simp [editStmt]
  | .attr _ => by simp [editStmt]
theorem editLoc_id : ∀ s : Loc, editLoc (fun _ as => as) (fun _ b => b) s = s
  | .node _ => by simp [editLoc]
  | .sub id body => by simp [editLoc, editStmts_id body]
theorem editRhs_id : ∀ s : List EdgeRH, editRhs (fun _ as => as) (fun _ b => b) s = s
  | [] => by simp [editRhs]
  | .mk _ d :: rest => by simp [editRhs, editLoc_id d, editRhs_id rest]
theorem editStmts_id : ∀ s : List Stmt, editStmts (fun _ as => as) (fun _ b => b) s = s
  | [] => by simp [editStmts]
  | s :: ss => by simp [editStmts, editStmt_id s, editStmts_id ss]
end

mutual
theorem marks_edit {x : Str} (h : ∀ m b, x ∈ marksL (bf m b) ↔ x ∈ marksL b) : ∀ s : Stmt, x ∈ marks (editStmt nf bf s) ↔ x ∈ marks s
  | .node _ _ => by simp [editStmt, marks]
  | .edge src rhs as => by simp [editStmt, marks, marksLoc_edit h src, marksRHS_edit h rhs]
  | .sub id body => by simp [editStmt, marks, h, marksL_edit h body]
  | .nodeAttrs _ => by simp [editStmt]
  | .edgeAttrs _ => by simp [editStmt]
  | .graphAttrs _ => by simp [editStmt]
  | .attr _ => by simp [editStmt]
theorem marksLoc_edit {x : Str} (h : ∀ m b, x ∈ marksL (bf m b) ↔ x ∈ marksL b) : ∀ s : Loc, x ∈ marksLoc (editLoc nf bf s) ↔ x ∈ marksLoc s
  | .node _ => by simp [editLoc]
  | .sub id body => by simp [editLoc, marksLoc, h, marksL_edit h body]
theorem marksRHS_edit {x : Str} (h : ∀ m b, x ∈ marksL (bf m b) ↔ x ∈ marksL b) : ∀ s : List EdgeRH, x ∈ marksRHS (editRhs nf bf s) ↔ x ∈ marksRHS s
  | [] => by simp [editRhs]
  | .mk _ d :: rest => by simp [editRhs, marksRHS, marksLoc_edit h d, marksRHS_edit h rest]
theorem marksL_edit {x : Str} (h : ∀ m b, x ∈ marksL (bf m b) ↔ x ∈ marksL b) : ∀ s : List Stmt, x ∈ marksL (editStmts nf bf s) ↔ x ∈ marksL s
  | [] => by simp [editStmts]
  | s :: ss => by simp [editStmts, marksL, marks_edit h s, marksL_edit h ss]
end

mutual
theorem marked_edit {x p : Str} (h : ∀ b, x ∈ marksL (bf p b)) (h2 : ∀ m b, x ∈ marksL b → x ∈ marksL (bf m b)) {body : List Stmt} :
    ∀ s : Stmt, Stmt.sub p body ∈ allStmt s → x ∈ marks (editStmt nf bf s)
  | .node _ _, hm => by simp [allStmt] at hm
  | .edge src rhs as, hm => by
    simp only [allStmt, List.mem_cons, List.mem_append, reduceCtorEq, false_or] at hm
    simp only [editStmt, marks, List.mem_append]
    exact hm.imp (markedLoc_edit h h2 src) (markedRHS_edit h h2 rhs)
  | .sub id b, hm => by
    simp only [allStmt, List.mem_cons, Stmt.sub.injEq] at hm
    simp only [editStmt, marks, List.mem_cons]
    right
    rcases hm with ⟨rfl, _⟩ | hm
    · exact h _
    · exact h2 _ _ (markedL_edit h h2 b hm)
  | .nodeAttrs _, hm => by simp [allStmt] at hm
  | .edgeAttrs _, hm => by simp [allStmt] at hm
  | .graphAttrs _, hm => by simp [allStmt] at hm
  | .attr _, hm => by simp [allStmt] at hm
theorem markedLoc_edit {x p : Str} (h : ∀ b, x ∈ marksL (bf p b)) (h2 : ∀ m b, x ∈ marksL b → x ∈ marksL (bf m b)) {body : List Stmt} :
    ∀ s : Loc, Stmt.sub p body ∈ allLoc s → x ∈ marksLoc (editLoc nf bf s)
  | .node _, hm => by simp [allLoc] at hm
  | .sub id b, hm => by
    simp only [allLoc, List.mem_cons, Stmt.sub.injEq] at hm
    simp only [editLoc, marksLoc, List.mem_cons]
    right
    rcases hm with ⟨rfl, _⟩ | hm
    · exact h _
    · exact h2 _ _ (markedL_edit h h2 b hm)
theorem markedRHS_edit {x p : Str} (h : ∀ b, x ∈ marksL (bf p b)) (h2 : ∀ m b, x ∈ marksL b → x ∈ marksL (bf m b)) {body : List Stmt} :
    ∀ s : List EdgeRH, Stmt.sub p body ∈ allRHS s → x ∈ marksRHS (editRhs nf bf s)
  | [], hm => by simp [allRHS] at hm
  | .mk _ d :: rest, hm => by
    simp only [allRHS, List.mem_append] at hm
    simp only [editRhs, marksRHS, List.mem_append]
    exact hm.imp (markedLoc_edit h h2 d) (markedRHS_edit h h2 rest)
theorem markedL_edit {x p : Str} (h : ∀ b, x ∈ marksL (bf p b)) (h2 : ∀ m b, x ∈ marksL b → x ∈ marksL (bf m b)) {body : List Stmt} :
    ∀ s : List Stmt, Stmt.sub p body ∈ allStmts s → x ∈ marksL (editStmts nf bf s)
  | [], hm => by simp [allStmts] at hm
  | s :: ss, hm => by
    simp only [allStmts, List.mem_append] at hm
    simp only [editStmts, marksL, List.mem_append]
    exact hm.imp (marked_edit h h2 s) (markedL_edit h h2 ss)
end

/-- Known names keep their meaning. -/
structure EditBase (g g' : Graph) (nf : Str → AttrList → AttrList) (bf : Str → List Stmt → List Stmt) : Prop where
  node : ∀ c, g.isNode c = true → g'.isNode c = true
  sub : ∀ c, g.isNode c = false → g.isSubGraph c = true → g'.isNode c = false ∧ g'.isSubGraph c = true
  stmt : ∀ c s, nodeStmtOf g c = .ok s → nodeStmtOf g' c = .ok (editStmt nf bf s)

/-- The writer follows the change from `g` to `g'` by `editStmts nf bf`, needing `d` more levels. -/
structure EditOf (g g' : Graph) (nf : Str → AttrList → AttrList) (bf : Str → List Stmt → List Stmt) (d : Nat) : Prop extends EditBase g g' nf bf where
  body : ∀ f, (∀ c b, subBody g f c = .ok b → subBody g' (f + d) c = .ok (bf c (editStmts nf bf b))) → ∀ m sub cs, mget g.subGraphs m = some sub →
    mapW (childOf g (subBody g f)) (g.relations.sortedChildren m) = .ok cs →
    ∃ sub' cs', mget g'.subGraphs m = some sub' ∧ mapW (childOf g' (subBody g' (f + d))) (g'.relations.sortedChildren m) = .ok cs' ∧
      attrStmts sub'.attrs ++ cs' = bf m (editStmts nf bf (attrStmts sub.attrs ++ cs))
  marks : ∀ m b x, Known g x → (x ∈ marksL (bf m b) ↔ x ∈ marksL b)

theorem mapW_edit {α : Type} {F F' : α → WRes Stmt} (h : ∀ a s, F a = .ok s → F' a = .ok (editStmt nf bf s)) {l : List α} {ss : List Stmt} (hm : mapW F l = .ok ss) :
    mapW F' l = .ok (editStmts nf bf ss) := by
  induction l generalizing ss with
  | nil => simp only [mapW] at hm; cases hm; simp [mapW, editStmts]
  | cons a l ih =>
    simp only [mapW, WRes.bind_eq_ok] at hm
    obtain ⟨s, hs, ss', hss, he⟩ := hm
    cases he
    simp only [mapW, h a s hs, WRes.bind_ok, ih hss, editStmts]

theorem mapW_append {α β : Type} (F : α → WRes β) (a b : List α) : mapW F (a ++ b) = (mapW F a).bind fun xs => (mapW F b).bind fun ys => .ok (xs ++ ys) := by
  induction a with
  | nil => cases hb : mapW F b <;> simp [mapW, hb]
  | cons x a ih =>
    simp only [List.cons_append, mapW, ih]
    cases F x <;> simp only [WRes.bind_ok, WRes.bind_err, WRes.bind_panic, WRes.bind_diverge]
    cases mapW F a <;> simp only [WRes.bind_ok, WRes.bind_err, WRes.bind_panic, WRes.bind_diverge]
    cases mapW F b <;> simp

theorem EditBase.childOf (E : EditBase g g' nf bf) {R R' : Str → WRes (List Stmt)} (h : ∀ c b, R c = .ok b → R' c = .ok (bf c (editStmts nf bf b))) {c : Str} {s : Stmt}
    (hc : childOf g R c = .ok s) : Gographviz.childOf g' R' c = .ok (editStmt nf bf s) := by
  unfold Gographviz.childOf at hc ⊢
  split at hc
  · rename_i hn
    rw [if_pos (E.node c hn)]
    exact E.stmt c s hc
  · rename_i hn
    split at hc
    · rename_i hs
      obtain ⟨h1, h2⟩ := E.sub c (by simpa using hn) hs
      obtain ⟨b, hb, he⟩ := WRes.bind_eq_ok.1 hc
      cases he
      simp [h1, h2, h c b hb, editStmt]
    · cases hc

theorem EditOf.subBody (E : EditOf g g' nf bf d) (f : Nat) : ∀ m b, subBody g f m = .ok b → Gographviz.subBody g' (f + d) m = .ok (bf m (editStmts nf bf b)) := by
  induction f with
  | zero => intro m b h; cases h
  | succ f ih =>
    intro m b h
    simp only [Gographviz.subBody] at h
    cases hs : mget g.subGraphs m with
    | none => rw [hs] at h; cases h
    | some sub =>
      rw [hs] at h
      simp only at h
      obtain ⟨cs, hcs, he⟩ := WRes.bind_eq_ok.1 h
      cases he
      obtain ⟨sub', cs', h1, h2, h3⟩ := E.body f ih m sub cs hs hcs
      rw [show f + 1 + d = (f + d) + 1 by omega]
      simp only [Gographviz.subBody, h1, h2, WRes.bind_ok, h3]

theorem EditOf.locOf (E : EditOf g g' nf bf d) (hi' : GInv g') {f : Nat} {n p : Str} {l : Loc} (h : locOf g f n p = .ok l) :
    Gographviz.locOf g' (f + d) n p = .ok (editLoc nf bf l) := by
  unfold Gographviz.locOf at h ⊢
  split at h
  · rename_i hn
    have hn' := E.node n hn
    obtain ⟨nd, hnd, _⟩ := (isNode_find hi' n).1 hn'
    split at h
    · cases h
      simp [hn', hnd, editLoc]
    · cases h
  · rename_i hn
    have hn : g.isNode n = false := by simpa using hn
    split at h
    · rename_i hc
      have hs : g.isSubGraph n = true := by
        unfold Graph.isClusterSubGraph at hc
        simp only [Bool.and_eq_true] at hc
        first | exact hc.1 | exact hc.2
      obtain ⟨h1, h2⟩ := E.sub n hn hs
      have hc' : g'.isClusterSubGraph n = true := by
        unfold Graph.isClusterSubGraph at hc ⊢
        rw [hs] at hc; rw [h2]; exact hc
      split at h
      · cases h
      · rename_i hp
        cases h
        simp only [h1, hc', if_true, Bool.false_eq_true, if_false]
        rw [if_neg hp]
        simp [editLoc]
    · rename_i hc
      split at h
      · rename_i hs
        obtain ⟨h1, h2⟩ := E.sub n hn hs
        have hc' : ¬ g'.isClusterSubGraph n = true := by
          unfold Graph.isClusterSubGraph at hc ⊢
          rw [hs] at hc; rw [h2]; exact hc
        split at h
        · cases h
        · rename_i hp
          obtain ⟨b, hb, he⟩ := WRes.bind_eq_ok.1 h
          cases he
          simp only [h1, hc', h2, if_true, Bool.false_eq_true, if_false]
          rw [if_neg hp, E.subBody f n b hb]
          simp [editLoc]
      · cases h

theorem EditOf.edgeOf (E : EditOf g g' nf bf d) (hi' : GInv g') {f : Nat} {e : Edge} {s : Stmt} (h : edgeOf g f e = .ok s) :
    Gographviz.edgeOf g' (f + d) e = .ok (editStmt nf bf s) := by
  unfold Gographviz.edgeOf at h ⊢
  obtain ⟨a, ha, h⟩ := WRes.bind_eq_ok.1 h
  obtain ⟨b, hb, h⟩ := WRes.bind_eq_ok.1 h
  cases h
  rw [E.locOf hi' ha, WRes.bind_ok, E.locOf hi' hb, WRes.bind_ok]
  simp [editStmt, editRhs]

theorem EditOf.rootSubs (E : EditOf g g' nf bf d) (hname : g'.name = g.name)
    (hch : ∀ x, g.isSubGraph x = true → mhas (g'.relations.children g.name) x = mhas (g.relations.children g.name) x) (f : Nat) :
    ∀ (ns : List Str) (seen seen' : List Str) (ss : List Stmt), (∀ x ∈ ns, g.isSubGraph x = true) → (∀ x ∈ ns, x ∈ seen ↔ x ∈ seen') →
      rootSubsOf g f seen ns = .ok ss → rootSubsOf g' (f + d) seen' ns = .ok (editStmts nf bf ss)
  | [], _, _, ss, _, _, h => by simp only [rootSubsOf] at h; cases h; simp [rootSubsOf, editStmts]
  | n :: ns, seen, seen', ss, hk, hs, h => by
    have hkn := hk n (List.mem_cons_self ..)
    simp only [rootSubsOf] at h ⊢
    have hc : (!decide (n ∈ seen') && mhas (g'.relations.children g'.name) n) = (!decide (n ∈ seen) && mhas (g.relations.children g.name) n) := by
      rw [hname, hch n hkn, decide_eq_decide.2 (hs n (List.mem_cons_self ..))]
    rw [hc]
    split at h
    · rename_i hcond
      rw [if_pos hcond]
      obtain ⟨b, hb, h⟩ := WRes.bind_eq_ok.1 h
      obtain ⟨rs, hrs, h⟩ := WRes.bind_eq_ok.1 h
      cases h
      rw [E.subBody f n b hb, WRes.bind_ok]
      have hrec := E.rootSubs hname hch f ns (seen ++ n :: marksL b) (seen' ++ n :: marksL (bf n (editStmts nf bf b))) rs
        (fun x hx => hk x (List.mem_cons_of_mem _ hx)) (fun x hx => by
          have hx' := hk x (List.mem_cons_of_mem _ hx)
          have hm := fun m b => E.marks m b x (.inr hx')
          simp only [List.mem_append, List.mem_cons, hs x (List.mem_cons_of_mem _ hx), hm, marksL_edit hm b]) hrs
      rw [hrec]
      simp [editStmts, editStmt]
    · rename_i hcond
      rw [if_neg hcond]
      exact E.rootSubs hname hch f ns seen seen' ss (fun x hx => hk x (List.mem_cons_of_mem _ hx)) (fun x hx => hs x (List.mem_cons_of_mem _ hx)) h

/-! ### what is marked is known -/

theorem known_body (hi : GInv g) (f : Nat) : ∀ m b, subBody g f m = .ok b → ∀ x ∈ marksL b, Known g x := by
  induction f with
  | zero => intro m b h; cases h
  | succ f ih =>
    intro m b h
    simp only [subBody] at h
    cases hs : mget g.subGraphs m with
    | none => rw [hs] at h; cases h
    | some sub =>
      rw [hs] at h
      simp only at h
      obtain ⟨cs, hcs, he⟩ := WRes.bind_eq_ok.1 h
      cases he
      rw [marks_attrs_append]
      have hall := mapW_ok.1 hcs
      clear hcs h
      generalize g.relations.sortedChildren m = l at hall
      induction hall with
      | nil => intro x hx; simp [marksL] at hx
      | cons hc _ ih2 =>
        intro x hx
        simp only [marksL, List.mem_append] at hx
        rcases hx with hx | hx
        · unfold childOf at hc
          split at hc
          · rename_i hn
            unfold nodeStmtOf at hc
            split at hc
            · cases hc
            · cases hc
              simp only [marks, List.mem_singleton] at hx
              subst hx; exact .inl hn
          · split at hc
            · rename_i hsub
              obtain ⟨b, hb, he⟩ := WRes.bind_eq_ok.1 hc
              cases he
              simp only [marks, List.mem_cons] at hx
              rcases hx with rfl | hx
              · exact .inr hsub
              · exact ih _ _ hb x hx
            · cases hc
        · exact ih2 x hx

theorem known_loc (hi : GInv g) {f : Nat} {n p : Str} {l : Loc} (h : locOf g f n p = .ok l) : ∀ x ∈ marksLoc l, Known g x := by
  unfold locOf at h
  split at h
  · split at h
    · cases h; intro x hx; simp [marksLoc] at hx
    · cases h
  · split at h
    · split at h
      · cases h
      · cases h; intro x hx; simp [marksLoc] at hx
    · split at h
      · rename_i hs
        split at h
        · cases h
        · obtain ⟨b, hb, he⟩ := WRes.bind_eq_ok.1 h
          cases he
          intro x hx
          simp only [marksLoc, List.mem_cons] at hx
          rcases hx with rfl | hx
          · exact .inr hs
          · exact known_body hi f _ _ hb x hx
      · cases h

theorem known_edge (hi : GInv g) {f : Nat} {e : Edge} {s : Stmt} (h : edgeOf g f e = .ok s) : ∀ x ∈ marks s, Known g x := by
  unfold edgeOf at h
  obtain ⟨a, ha, h⟩ := WRes.bind_eq_ok.1 h
  obtain ⟨b, hb, h⟩ := WRes.bind_eq_ok.1 h
  cases h
  intro x hx
  simp only [marks, marksRHS, List.append_nil, List.mem_append] at hx
  exact hx.elim (known_loc hi ha x) (known_loc hi hb x)

theorem known_edges (hi : GInv g) {f : Nat} {es : List Edge} {ss : List Stmt} (h : mapW (edgeOf g f) es = .ok ss) : ∀ x ∈ marksL ss, Known g x := by
  have hall := mapW_ok.1 h
  clear h
  induction hall with
  | nil => intro x hx; simp [marksL] at hx
  | cons hc _ ih =>
    intro x hx
    simp only [marksL, List.mem_append] at hx
    exact hx.elim (known_edge hi hc x) (ih x)

theorem known_subs (hi : GInv g) (f : Nat) : ∀ (ns seen : List Str) (ss : List Stmt), (∀ x ∈ ns, g.isSubGraph x = true) → rootSubsOf g f seen ns = .ok ss → ∀ x ∈ marksL ss, Known g x
  | [], _, ss, _, h => by simp only [rootSubsOf] at h; cases h; intro x hx; simp [marksL] at hx
  | n :: ns, seen, ss, hk, h => by
    simp only [rootSubsOf] at h
    split at h
    · obtain ⟨b, hb, h⟩ := WRes.bind_eq_ok.1 h
      obtain ⟨rs, hrs, h⟩ := WRes.bind_eq_ok.1 h
      cases h
      intro x hx
      simp only [marksL, marks, List.mem_append, List.mem_cons] at hx
      rcases hx with (rfl | hx) | hx
      · exact .inr (hk _ (List.mem_cons_self ..))
      · exact known_body hi f _ _ hb x hx
      · exact known_subs hi f ns _ rs (fun x hx => hk x (List.mem_cons_of_mem _ hx)) hrs x hx
    · exact known_subs hi f ns _ ss (fun x hx => hk x (List.mem_cons_of_mem _ hx)) h

/-- The parts of a written tree, and how they follow the change. -/
theorem EditOf.write (E : EditOf g g' nf bf d) (hi : GInv g) (hi' : GInv g') (hname : g'.name = g.name)
    (hch : ∀ x, g.isSubGraph x = true → mhas (g'.relations.children g.name) x = mhas (g.relations.children g.name) x)
    {sortE : List Edge → List Edge} {f : Nat} {t : Ast.Graph} (h : writeAst sortE f g = .ok t) :
    ∃ es ss ns, t = ⟨g.directed, g.strict, g.name, attrStmts g.attrs ++ es ++ ss ++ ns⟩ ∧
      mapW (Gographviz.edgeOf g f) (sortE g.edges.edges) = .ok es ∧ mapW (Gographviz.edgeOf g' (f + d)) (sortE g.edges.edges) = .ok (editStmts nf bf es) ∧
      rootSubsOf g' (f + d) (marksL (editStmts nf bf es)) (mkeys g.subGraphs) = .ok (editStmts nf bf ss) ∧
      mapW (nodeStmtOf g') ((mkeys g.nodes.lookup).filter fun n => !decide (n ∈ marksL es ++ marksL ss)) = .ok (editStmts nf bf ns) ∧
      (∀ x ∈ marksL es ++ marksL ss, Known g x) ∧ rootSubsOf g f (marksL es) (mkeys g.subGraphs) = .ok ss ∧
      mapW (nodeStmtOf g) ((mkeys g.nodes.lookup).filter fun n => !decide (n ∈ marksL es ++ marksL ss)) = .ok ns ∧
      ((mkeys g.nodes.lookup).filter fun n => !decide (n ∈ marksL (editStmts nf bf es) ++ marksL (editStmts nf bf ss))) =
        (mkeys g.nodes.lookup).filter fun n => !decide (n ∈ marksL es ++ marksL ss) := by
  rw [writeAst_eq hi] at h
  obtain ⟨es, hes, h⟩ := WRes.bind_eq_ok.1 h
  obtain ⟨ss, hss, h⟩ := WRes.bind_eq_ok.1 h
  obtain ⟨ns, hns, h⟩ := WRes.bind_eq_ok.1 h
  cases h
  have hsub : ∀ x ∈ mkeys g.subGraphs, g.isSubGraph x = true := fun x hx => (mhas_iff _ _).2 hx
  refine ⟨es, ss, ns, rfl, hes, mapW_edit (fun a s h => E.edgeOf hi' h) hes, ?_, mapW_edit (fun a s h => E.stmt a s h) hns, ?_, hss, hns, ?_⟩
  · exact E.rootSubs hname hch f _ _ _ _ hsub (fun x hx => (marksL_edit (fun m b => E.marks m b x (.inr (hsub x hx))) es).symm) hss
  · intro x hx
    rcases List.mem_append.1 hx with hx | hx
    · exact known_edges hi hes x hx
    · exact known_subs hi f _ _ _ hsub hss x hx
  · apply List.filter_congr
    intro x hx
    have hm := fun m b => E.marks m b x (.inl ((mhas_iff _ _).2 hx))
    congr 1
    simp only [List.mem_append, marksL_edit hm]

theorem isNode_iff_find (hi : GInv g) (n : Str) : g.isNode n = (g.nodes.find n).isSome := by
  cases hn : g.isNode n with
  | true => obtain ⟨nd, h, _⟩ := (isNode_find hi n).1 hn; simp [h]
  | false => simp [(isNode_find hi n).2 hn]

mutual
theorem editStmt_absent {p : Str} {F : List Stmt → List Stmt} : ∀ s : Stmt, (∀ b, Stmt.sub p b ∉ allStmt s) →
    editStmt (fun _ as => as) (fun m b => if m = p then F b else b) s = s
  | .node _ _, _ => by simp [editStmt]
  | .edge src rhs as, h => by
    simp only [allStmt, List.mem_cons, List.mem_append, reduceCtorEq, false_or, not_or] at h
    simp only [editStmt]
    rw [editLoc_absent src fun b => (h b).1, editRhs_absent rhs fun b => (h b).2]
  | .sub id body, h => by
    simp only [allStmt, List.mem_cons, Stmt.sub.injEq, not_or, not_and] at h
    have hne : id ≠ p := fun e => (h body).1 e.symm rfl
    simp only [editStmt]
    rw [if_neg hne, editStmts_absent body fun b => (h b).2]
  | .nodeAttrs _, _ => by simp [editStmt]
  | .edgeAttrs _, _ => by simp [editStmt]
  | .graphAttrs _, _ => by simp [editStmt]
  | .attr _, _ => by simp [editStmt]
theorem editLoc_absent {p : Str} {F : List Stmt → List Stmt} : ∀ s : Loc, (∀ b, Stmt.sub p b ∉ allLoc s) →
    editLoc (fun _ as => as) (fun m b => if m = p then F b else b) s = s
  | .node _, _ => by simp [editLoc]
  | .sub id body, h => by
    simp only [allLoc, List.mem_cons, Stmt.sub.injEq, not_or, not_and] at h
    have hne : id ≠ p := fun e => (h body).1 e.symm rfl
    simp only [editLoc]
    rw [if_neg hne, editStmts_absent body fun b => (h b).2]
theorem editRhs_absent {p : Str} {F : List Stmt → List Stmt} : ∀ s : List EdgeRH, (∀ b, Stmt.sub p b ∉ allRHS s) →
    editRhs (fun _ as => as) (fun m b => if m = p then F b else b) s = s
  | [], _ => by simp [editRhs]
  | .mk _ d :: rest, h => by
    simp only [allRHS, List.mem_append, not_or] at h
    simp only [editRhs]
    rw [editLoc_absent d fun b => (h b).1, editRhs_absent rest fun b => (h b).2]
theorem editStmts_absent {p : Str} {F : List Stmt → List Stmt} : ∀ s : List Stmt, (∀ b, Stmt.sub p b ∉ allStmts s) →
    editStmts (fun _ as => as) (fun m b => if m = p then F b else b) s = s
  | [], _ => by simp [editStmts]
  | s :: ss, h => by
    simp only [allStmts, List.mem_append, not_or] at h
    simp only [editStmts]
    rw [editStmt_absent s fun b => (h b).1, editStmts_absent ss fun b => (h b).2]
end

theorem insertAt_append {α : Type} (a b : List α) (x : α) : insertAt a.length x (a ++ b) = a ++ x :: b := by
  simp [insertAt]

theorem inserted_append {α : Type} (a b : List α) (x : α) : Inserted x (a ++ b) (a ++ x :: b) :=
  ⟨a.length, by simp, (insertAt_append a b x).symm⟩

theorem mem_marksL_insertAt (x : Str) (k : Nat) (s : Stmt) (b : List Stmt) : x ∈ marksL (insertAt k s b) ↔ x ∈ marks s ∨ x ∈ marksL b := by
  have h : x ∈ marksL b ↔ x ∈ marksL (b.take k) ∨ x ∈ marksL (b.drop k) := by
    rw [← List.mem_append, ← marksL_append, List.take_append_drop]
  rw [h]
  simp only [insertAt, marksL_append, marksL, List.mem_append]
  constructor
  · rintro (h | h | h)
    · exact .inr (.inl h)
    · exact .inl h
    · exact .inr (.inr h)
  · rintro (h | h | h)
    · exact .inr (.inl h)
    · exact .inl h
    · exact .inr (.inr h)

theorem mapW_length {α β : Type} {F : α → WRes β} {l : List α} {l' : List β} (h : mapW F l = .ok l') : l'.length = l.length := by
  have := mapW_ok.1 h
  clear h
  induction this with
  | nil => rfl
  | cons _ _ ih => simp [ih]

/-! ### a new child of a subgraph -/

/-- Attribute lists are kept. -/
def keepNf : Str → AttrList → AttrList := fun _ as => as

/-- `s` is inserted in the statements of `p`. -/
def insBf (p : Str) (k : Nat) (s : Stmt) : Str → List Stmt → List Stmt := fun m b => if m = p then insertAt k s b else b

/-- A child `n` of `p` whose statement is `s` is written in `p` at the same place each time. -/
theorem insert_body {p n : Str} {s : Stmt} (hi : GInv g)
    (hbase : ∀ k, EditBase g g' keepNf (insBf p k s))
    (hsubs : ∀ m, g.isSubGraph m = true → mget g'.subGraphs m = mget g.subGraphs m)
    (hch : ∀ m, g'.relations.children m = if p = m then mset (g.relations.children m) n true else g.relations.children m)
    (hwf : ∀ m, MapWF (g'.relations.children m))
    (hn : g.isNode n = false ∧ g.isSubGraph n = false) (hms : ∀ x ∈ marks s, x = n)
    (hs : ∀ f, childOf g' (subBody g' (f + d)) n = .ok s) :
    ∃ k, EditOf g g' keepNf (insBf p k s) d := by
  have hsort : ∀ m, g.relations.sortedChildren m = mkeys (g.relations.children m) := fun m => mkeys_ssort (hi.rels.iwf1 m)
  have hsort' : ∀ m, g'.relations.sortedChildren m = mkeys (g'.relations.children m) := fun m => mkeys_ssort (hwf m)
  have hk : ∃ k, ∀ sub, mget g.subGraphs p = some sub → mget (g.relations.children p) n = none →
      ∃ A B, g.relations.sortedChildren p = A ++ B ∧ g'.relations.sortedChildren p = A ++ n :: B ∧ k = (attrStmts sub.attrs).length + A.length := by
    rcases Option.eq_none_or_eq_some (mget g.subGraphs p) with h1 | ⟨sub, h1⟩
    · exact ⟨0, fun sub h => by rw [h1] at h; cases h⟩
    · rcases Option.eq_none_or_eq_some (mget (g.relations.children p) n) with h2 | ⟨b, h2⟩
      · obtain ⟨A, B, e1, e2⟩ := mset_new true h2
        refine ⟨(attrStmts sub.attrs).length + A.length, fun sub' h _ => ?_⟩
        rw [h1] at h
        cases h
        refine ⟨A.map Prod.fst, B.map Prod.fst, ?_, ?_, by simp⟩
        · rw [hsort, e1]; simp [mkeys]
        · rw [hsort', hch, if_pos rfl, e2]; simp [mkeys]
      · exact ⟨0, fun _ _ h => by rw [h2] at h; cases h⟩
  obtain ⟨k, hk⟩ := hk
  refine ⟨k, { hbase k with body := ?_, marks := ?_ }⟩
  · intro f ih m sub cs hm hcs
    have hm' : mget g'.subGraphs m = some sub := by rw [hsubs m ((isSub_get g m).2 ⟨sub, hm⟩), hm]
    refine ⟨sub, ?_⟩
    have hmap : ∀ {l cs}, mapW (childOf g (subBody g f)) l = .ok cs → mapW (childOf g' (subBody g' (f + d))) l =
        .ok (editStmts keepNf (insBf p k s) cs) :=
      fun h => mapW_edit (fun a s h => (hbase k).childOf ih h) h
    by_cases hmp : m = p
    · subst hmp
      rcases Option.eq_none_or_eq_some (mget (g.relations.children m) n) with h2 | ⟨b, h2⟩
      · obtain ⟨A, B, e1, e2, ek⟩ := hk sub hm h2
        rw [e1, mapW_append] at hcs
        obtain ⟨ca, hca, hcs⟩ := WRes.bind_eq_ok.1 hcs
        obtain ⟨cb, hcb, hcs⟩ := WRes.bind_eq_ok.1 hcs
        cases hcs
        refine ⟨editStmts keepNf (insBf m k s) ca ++ s :: editStmts keepNf (insBf m k s) cb, hm', ?_, ?_⟩
        · rw [e2, mapW_append, hmap hca, WRes.bind_ok]
          simp only [mapW, hs f, hmap hcb, WRes.bind_ok]
        · have hl : (attrStmts sub.attrs ++ editStmts keepNf (insBf m k s) ca).length = k := by
            rw [List.length_append, editStmts_eq_map, List.length_map, mapW_length hca, ek]
          have hins := insertAt_append (attrStmts sub.attrs ++ editStmts keepNf (insBf m k s) ca) (editStmts keepNf (insBf m k s) cb) s
          rw [hl] at hins
          have hu : ∀ b, insBf m k s m b = insertAt k s b := fun b => by unfold insBf; rw [if_pos rfl]
          rw [hu, editStmts_append, editStmts_append, editStmts_attrs, ← List.append_assoc, ← List.append_assoc, hins]
      · exfalso
        have hin : n ∈ g.relations.sortedChildren m := by
          rw [hsort, ← mhas_iff]; simp [mhas, h2]
        obtain ⟨c, _, hc⟩ := (mapW_ok.1 hcs).mem_left hin
        unfold childOf at hc
        simp [hn.1, hn.2] at hc
    · refine ⟨editStmts keepNf (insBf p k s) cs, hm', ?_, ?_⟩
      · have : g'.relations.sortedChildren m = g.relations.sortedChildren m := by
          rw [hsort, hsort', hch, if_neg (Ne.symm hmp)]
        rw [this]
        exact hmap hcs
      · rw [insBf, if_neg hmp, editStmts_append, editStmts_attrs]
  · intro m b x hx
    unfold insBf
    split
    · rw [mem_marksL_insertAt]
      constructor
      · rintro (h | h)
        · have := hms x h
          subst this
          rcases hx with hx | hx
          · rw [hn.1] at hx; cases hx
          · rw [hn.2] at hx; cases hx
        · exact h
      · exact .inr
    · exact Iff.rfl

/-! ### changes that keep the names -/

theorem EditOf.rewrite (E : EditOf g g' nf bf 0) (hi : GInv g) (hi' : GInv g') (hname : g'.name = g.name)
    (hch : ∀ x, g.isSubGraph x = true → mhas (g'.relations.children g.name) x = mhas (g.relations.children g.name) x)
    (he : g'.edges = g.edges) (hk : mkeys g'.subGraphs = mkeys g.subGraphs) (hn : mkeys g'.nodes.lookup = mkeys g.nodes.lookup)
    (ha : g'.attrs = g.attrs) (hd : g'.directed = g.directed) (hst : g'.strict = g.strict)
    {sortE : List Edge → List Edge} {f : Nat} {t : Ast.Graph} (h : writeAst sortE f g = .ok t) :
    writeAst sortE f g' = .ok { t with stmts := editStmts nf bf t.stmts } := by
  obtain ⟨es, ss, ns, rfl, _, h1, h2, h3, _, _, _, hfl⟩ := E.write hi hi' hname hch h
  rw [writeAst_eq hi', he, hk, hn, ha, hd, hst, hname]
  rw [show f + 0 = f from rfl] at h1 h2
  rw [h1, WRes.bind_ok, h2, WRes.bind_ok, hfl, h3, WRes.bind_ok, editStmts_append, editStmts_append, editStmts_append, editStmts_attrs]

/-- The attributes of node `n` become `as`. -/
theorem attrs_edit {n : Str} {nd : Node} (hi : GInv g) (hi' : GInv g') (hnd : g'.nodes.find n = some nd) (hfind : ∀ c, n ≠ c → g'.nodes.find c = g.nodes.find c)
    (hold : g.isNode n = true) (hsubs : g'.subGraphs = g.subGraphs) (hch : ∀ m, g'.relations.children m = g.relations.children m) :
    EditOf g g' (fun c old => if c = n then attrsAsList nd.attrs else old) (fun _ b => b) 0 := by
  have hisN : ∀ c, g'.isNode c = g.isNode c := fun c => by
    by_cases hc : n = c
    · subst hc; rw [hold, isNode_iff_find hi', hnd]; rfl
    · rw [isNode_iff_find hi', isNode_iff_find hi, hfind c hc]
  have hisS : ∀ c, g'.isSubGraph c = g.isSubGraph c := fun c => by unfold Graph.isSubGraph; rw [hsubs]
  have hbase : EditBase g g' (fun c old => if c = n then attrsAsList nd.attrs else old) (fun _ b => b) := by
    refine ⟨fun c hc => by rw [hisN]; exact hc, fun c h1 h2 => by rw [hisN, hisS]; exact ⟨h1, h2⟩, fun c s h => ?_⟩
    unfold nodeStmtOf at h ⊢
    by_cases hc : n = c
    · subst hc
      rw [hnd]
      split at h
      · cases h
      · cases h
        simp only [editStmt, if_true]
        rw [putMap_eq (find_attrs hi' hnd).wf]
    · rw [hfind c hc]
      split at h
      · cases h
      · cases h
        simp only [editStmt, if_neg (Ne.symm hc)]
  refine { hbase with body := ?_, marks := fun _ _ _ _ => Iff.rfl }
  intro f ih m sub cs hm hcs
  refine ⟨sub, editStmts (fun c old => if c = n then attrsAsList nd.attrs else old) (fun _ b => b) cs, by rw [hsubs, hm], ?_, ?_⟩
  · have : g'.relations.sortedChildren m = g.relations.sortedChildren m := by unfold Relations.sortedChildren; rw [hch]
    rw [this]
    exact mapW_edit (fun a s h => hbase.childOf ih h) hcs
  · rw [editStmts_append, editStmts_attrs]

theorem editStmts_nonattr {k v : Str} {R : Str → WRes (List Stmt)} {l : List Str} {cs : List Stmt} (h : mapW (childOf g R) l = .ok cs) :
    (editStmts nf bf cs).map (setAttr k v) = editStmts nf bf cs := by
  have := mapW_ok.1 h
  clear h
  induction this with
  | nil => simp [editStmts]
  | cons hc _ ih =>
    simp only [editStmts, List.map_cons, ih, List.cons.injEq, and_true]
    unfold childOf at hc
    split at hc
    · unfold nodeStmtOf at hc
      split at hc
      · cases hc
      · cases hc; simp [editStmt, setAttr]
    · split at hc
      · obtain ⟨b, _, he⟩ := WRes.bind_eq_ok.1 hc
        cases he; simp [editStmt, setAttr]
      · cases hc

theorem attrStmts_old {as : Attrs} (hw : MapWF as) {k v0 : Str} (v : Str) (h : mget as k = some v0) : attrStmts (mset as k v) = (attrStmts as).map (setAttr k v) := by
  rw [attrStmts_eq (hw.mset k v), attrStmts_eq hw, mset_old hw v h]
  unfold attrsAsStmts
  rw [List.map_map, List.map_map]
  apply List.map_congr_left
  intro e _
  simp only [Function.comp_apply, setAttr]
  split <;> rfl

theorem attrStmts_new {as : Attrs} (hw : MapWF as) {k : Str} (v : Str) (h : mget as k = none) :
    ∃ a b, attrStmts as = a ++ b ∧ attrStmts (mset as k v) = a ++ .attr ⟨k, v⟩ :: b := by
  obtain ⟨a, b, e1, e2⟩ := mset_new v h
  refine ⟨a.map fun e => .attr ⟨e.1, e.2⟩, b.map fun e => .attr ⟨e.1, e.2⟩, ?_, ?_⟩
  · rw [attrStmts_eq hw]; unfold attrsAsStmts; rw [e1]; simp
  · rw [attrStmts_eq (hw.mset k v)]; unfold attrsAsStmts; rw [e2]; simp

/-- The attribute statements of the subgraph `p` change by `F`. -/
theorem sub_edit {p : Str} {sub0 sub1 : SubGraph} {F : List Stmt → List Stmt} (hp : mget g.subGraphs p = some sub0)
    (hsubs : g'.subGraphs = mset g.subGraphs p sub1) (hrel : g'.relations = g.relations) (hnodes : g'.nodes = g.nodes)
    (hF : ∀ {f : Nat} {l : List Str} {cs : List Stmt}, mapW (childOf g (subBody g f)) l = .ok cs → attrStmts sub1.attrs ++ inSub p F cs = F (attrStmts sub0.attrs ++ inSub p F cs))
    (hmarks : ∀ b x, x ∈ marksL (F b) ↔ x ∈ marksL b) :
    EditOf g g' (fun _ as => as) (fun m b => if m = p then F b else b) 0 := by
  have hisN : ∀ c, g'.isNode c = g.isNode c := fun c => by unfold Graph.isNode; rw [hnodes]
  have hisS : ∀ c, g'.isSubGraph c = g.isSubGraph c := fun c => by
    unfold Graph.isSubGraph; rw [hsubs, mhas_mset]
    by_cases h : p = c
    · subst h; simp [mhas, hp]
    · simp [h]
  have hbase : EditBase g g' (fun _ as => as) (fun m b => if m = p then F b else b) := by
    refine ⟨fun c hc => by rw [hisN]; exact hc, fun c h1 h2 => by rw [hisN, hisS]; exact ⟨h1, h2⟩, fun c s h => ?_⟩
    unfold nodeStmtOf at h ⊢
    rw [hnodes]
    split at h
    · cases h
    · cases h; simp only [editStmt]
  refine { hbase with body := ?_, marks := ?_ }
  · intro f ih m sub cs hm hcs
    have hcs' : mapW (childOf g' (subBody g' (f + 0))) (g'.relations.sortedChildren m) = .ok (inSub p F cs) := by
      rw [hrel]
      exact mapW_edit (fun a s h => hbase.childOf ih h) hcs
    by_cases hmp : m = p
    · subst hmp
      rw [hp] at hm
      cases hm
      refine ⟨sub1, _, by rw [hsubs, mget_mset, if_pos rfl], hcs', ?_⟩
      simp only [if_true]
      rw [hF hcs, editStmts_append, editStmts_attrs]
      rfl
    · refine ⟨sub, _, by rw [hsubs, mget_mset, if_neg (Ne.symm hmp), hm], hcs', ?_⟩
      simp only [if_neg hmp]
      rw [editStmts_append, editStmts_attrs]
      rfl
  · intro m b x _
    split
    · exact hmarks b x
    · exact Iff.rfl

theorem mkeys_mset_old {α : Type} {m : Map α} (hw : MapWF m) {k : Str} {v0 : α} (v : α) (h : mget m k = some v0) : mkeys (mset m k v) = mkeys m := by
  rw [mset_old hw v h]
  unfold mkeys
  rw [List.map_map]
  apply List.map_congr_left
  intro e _
  simp only [Function.comp_apply]
  split <;> simp_all

theorem marks_setAttr (k v : Str) (b : List Stmt) : marksL (b.map (setAttr k v)) = marksL b := by
  induction b with
  | nil => rfl
  | cons s b ih =>
    simp only [List.map_cons, marksL, ih]
    congr 1
    unfold setAttr
    split
    · split <;> simp [marks]
    · rfl

/-- Nothing the writer looks at changes, apart from the attributes of the graph and the edges. -/
theorem same_edit (hsubs : g'.subGraphs = g.subGraphs) (hrel : g'.relations = g.relations) (hnodes : g'.nodes = g.nodes) :
    EditOf g g' (fun _ as => as) (fun _ b => b) 0 := by
  have hisN : ∀ c, g'.isNode c = g.isNode c := fun c => by unfold Graph.isNode; rw [hnodes]
  have hisS : ∀ c, g'.isSubGraph c = g.isSubGraph c := fun c => by unfold Graph.isSubGraph; rw [hsubs]
  have hbase : EditBase g g' (fun _ as => as) (fun _ b => b) := by
    refine ⟨fun c hc => by rw [hisN]; exact hc, fun c h1 h2 => by rw [hisN, hisS]; exact ⟨h1, h2⟩, fun c s h => ?_⟩
    unfold nodeStmtOf at h ⊢
    rw [hnodes, editStmt_id]; exact h
  refine { hbase with body := ?_, marks := fun _ _ _ _ => Iff.rfl }
  intro f ih m sub cs hm hcs
  refine ⟨sub, editStmts (fun _ as => as) (fun _ b => b) cs, by rw [hsubs, hm], ?_, ?_⟩
  · rw [hrel]
    exact mapW_edit (fun a s h => hbase.childOf ih h) hcs
  · rw [editStmts_append, editStmts_attrs]

theorem setAttr_edges {k v : Str} {f : Nat} {l : List Edge} {es : List Stmt} (h : mapW (edgeOf g f) l = .ok es) : es.map (setAttr k v) = es := by
  have := mapW_ok.1 h
  clear h
  induction this with
  | nil => rfl
  | cons hc _ ih =>
    unfold edgeOf at hc
    obtain ⟨a, ha, hc⟩ := WRes.bind_eq_ok.1 hc
    obtain ⟨b, hb, hc⟩ := WRes.bind_eq_ok.1 hc
    cases hc
    simp [setAttr, ih]

theorem setAttr_nodes {k v : Str} {l : List Str} {ns : List Stmt} (h : mapW (nodeStmtOf g) l = .ok ns) : ns.map (setAttr k v) = ns := by
  have := mapW_ok.1 h
  clear h
  induction this with
  | nil => rfl
  | cons hc _ ih =>
    unfold nodeStmtOf at hc
    split at hc
    · cases hc
    · cases hc
      simp [setAttr, ih]

theorem setAttr_subs {k v : Str} {f : Nat} : ∀ (ns seen : List Str) (ss : List Stmt), rootSubsOf g f seen ns = .ok ss → ss.map (setAttr k v) = ss
  | [], _, ss, h => by simp only [rootSubsOf] at h; cases h; rfl
  | n :: ns, seen, ss, h => by
    simp only [rootSubsOf] at h
    split at h
    · obtain ⟨b, hb, h⟩ := WRes.bind_eq_ok.1 h
      obtain ⟨rs, hrs, h⟩ := WRes.bind_eq_ok.1 h
      cases h
      simp [setAttr, setAttr_subs ns _ rs hrs]
    · exact setAttr_subs ns _ ss h

/-! ### a new edge -/

theorem sorted_insert {sortE : List Edge → List Edge} (hs : SortContract sortE) {es : List Edge} {e : Edge} (hw : ∀ x ∈ es ++ [e], MapWF x.attrs)
    (hn : ∀ x ∈ es ++ [e], NoEmpty x) : ∃ A B, sortE es = A ++ B ∧ sortE (es ++ [e]) = A ++ e :: B := by
  have hp := hs.perm (es ++ [e])
  obtain ⟨A, B, hAB⟩ := List.append_of_mem (hp.mem_iff.2 (by simp : e ∈ es ++ [e]))
  refine ⟨A, B, ?_, hAB⟩
  rw [hAB] at hp
  have hp2 : (A ++ B).Perm es := by
    have h1 : (e :: (A ++ B)).Perm (e :: es) := (List.perm_middle.symm.trans hp).trans (List.perm_append_comm (l₁ := es) (l₂ := [e]))
    exact h1.cons_inv
  have hsrt := hs.sorted (es ++ [e])
  rw [hAB] at hsrt
  have hsrt2 : (A ++ B).Pairwise fun a b => edgeLess b a = false := by
    refine hsrt.sublist ?_
    exact List.Sublist.append_left (List.sublist_cons_self ..) A
  have hm : ∀ x, x ∈ sortE es ↔ x ∈ es := fun x => (hs.perm es).mem_iff
  have hw1 : ∀ x ∈ es, MapWF x.attrs := fun x hx => hw x (List.mem_append_left _ hx)
  have hn1 : ∀ x ∈ es, NoEmpty x := fun x hx => hn x (List.mem_append_left _ hx)
  have := sorted_unique (l := sortE es) (l' := A ++ B) (fun x hx => hw1 x ((hm x).1 hx)) (hs.sorted es) hsrt2 ((hs.perm es).trans hp2.symm)
  have h2 := (this.and_mem.imp (S := fun a b => b = id a) fun a b ⟨h, ha, hb⟩ =>
    (edgeSame_eq (hw1 a ((hm a).1 ha)) (hw1 b (hp2.mem_iff.1 hb)) (hn1 a ((hm a).1 ha)) (hn1 b (hp2.mem_iff.1 hb)) h).symm).eq_map
  rw [h2, List.map_id]

/-! ### a new subgraph -/

theorem rootSubs_skip {n : Str} (h : mhas (g.relations.children g.name) n = false) (f : Nat) (A B seen : List Str) :
    rootSubsOf g f seen (A ++ n :: B) = rootSubsOf g f seen (A ++ B) := by
  induction A generalizing seen with
  | nil => simp [rootSubsOf, h]
  | cons a A ih => simp only [List.cons_append, rootSubsOf, ih]

theorem rootSubs_insert {n : Str} {bn : List Stmt} (h : mhas (g.relations.children g.name) n = true) {f : Nat} (hb : subBody g f n = .ok bn) (hm : marksL bn = []) {B : List Str}
    (hB : ∀ x ∈ B, g.isSubGraph x = true ∧ x ≠ n) : ∀ (A : List Str) (seen : List Str) (ss : List Stmt), (∀ x ∈ A, x ≠ n) → n ∉ seen → n ∉ marksL ss → rootSubsOf g f seen (A ++ B) = .ok ss →
    ∃ sa sb, ss = sa ++ sb ∧ rootSubsOf g f seen (A ++ n :: B) = .ok (sa ++ .sub n bn :: sb)
  | [], seen, ss, _, hs, _, hr => by
    refine ⟨[], ss, rfl, ?_⟩
    have E := same_edit (g := g) (g' := g) rfl rfl rfl
    have := E.rootSubs rfl (fun _ _ => rfl) f B seen (seen ++ [n]) ss (fun x hx => (hB x hx).1) (fun x hx => by simp [(hB x hx).2]) hr
    rw [editStmts_id, Nat.add_zero] at this
    simp only [List.nil_append, rootSubsOf]
    rw [if_pos (by simp [hs, h]), hb, WRes.bind_ok, hm, this, WRes.bind_ok]
  | a :: A, seen, ss, hA, hs, hss, hr => by
    simp only [List.cons_append, rootSubsOf] at hr ⊢
    have hA' : ∀ x ∈ A, x ≠ n := fun x hx => hA x (List.mem_cons_of_mem _ hx)
    split at hr
    · rename_i hc
      obtain ⟨b, hbb, hr⟩ := WRes.bind_eq_ok.1 hr
      obtain ⟨rs, hrs, hr⟩ := WRes.bind_eq_ok.1 hr
      cases hr
      simp only [marksL, marks, List.cons_append, List.mem_cons, List.mem_append, not_or] at hss
      obtain ⟨sa, sb, rfl, h2⟩ := rootSubs_insert h hb hm hB A (seen ++ a :: marksL b) rs hA' (by simp [hs, hss.1, hss.2.1]) hss.2.2 hrs
      refine ⟨.sub a b :: sa, sb, rfl, ?_⟩
      rw [if_pos hc, hbb, WRes.bind_ok, h2, WRes.bind_ok]
      rfl
    · rename_i hc
      rw [if_neg hc]
      exact rootSubs_insert h hb hm hB A seen ss hA' hs hss hr

end Gographviz
