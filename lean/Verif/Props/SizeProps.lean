import Verif.Props.WriteProps2
import Verif.Props.DocumentProps
import Verif.Props.PrintProps
import Verif.Spec.Size
/-!
Property C77: how often a subgraph is written, and how long the written document is.
-/
namespace Gographviz.Props

open Gographviz Spec
open Gographviz.Ast (Stmt Loc EdgeRH)

namespace Size

/-! ### counting -/

theorem sortedChildren_nodup {g : Graph} (h : GInv g) (p : Str) : (g.relations.sortedChildren p).Nodup := by
  unfold Relations.sortedChildren
  have hw := h.rels.iwf1 p
  rw [mkeys_ssort hw]
  unfold mkeys List.Nodup
  rw [List.pairwise_map]
  exact List.Pairwise.imp (fun h => slt_ne h) hw

theorem countP_attrs (p : Stmt → Bool) (hp : ∀ a, p (.attr a) = false) (a : Attrs) : (attrsAsStmts a).countP p = 0 := by
  rw [List.countP_eq_zero]
  intro x hx
  obtain ⟨e, _, rfl⟩ := List.mem_map.1 hx
  simp [hp]

theorem countP_children {g : Graph} {n : Str} (hn : g.isNode n = false) {cs : List Str} {ss : List Stmt} (h : Forall2 (DirectChild g) cs ss) :
    ss.countP (isSubFor n) = cs.count n := by
  induction h with
  | nil => rfl
  | @cons c s cs ss h _ ih =>
    rw [List.countP_cons, ih, List.count_cons]
    congr 1
    cases s with
    | node id as =>
      obtain ⟨rfl, nd, hf, _⟩ := h
      have : c ≠ n := by
        rintro rfl
        have : g.isNode c = true := by
          unfold Graph.isNode
          unfold Nodes.find at hf
          cases hm : mget g.nodes.lookup c with
          | none => rw [hm] at hf; cases hf
          | some p => exact (mhas_iff_mget _ _).2 ⟨p, hm⟩
        rw [hn] at this; cases this
      simp [isSubFor, this]
    | sub id b =>
      obtain ⟨rfl, _⟩ := h
      simp [isSubFor]
    | _ => exact absurd h (by simp [DirectChild])

/-- The body of a subgraph has a subgraph statement for each recorded child that is one, and no other. -/
theorem countP_body {g : Graph} (hi : GInv g) {n m : Str} (hn : g.isNode n = false) {body : List Stmt} (h : SubFaithful g m body) :
    body.countP (isSubFor n) = if mhas (g.relations.children m) n = true then 1 else 0 := by
  obtain ⟨sub, _, cs, rfl, hcs⟩ := h
  rw [List.countP_append, countP_attrs _ (fun _ => rfl), Nat.zero_add, countP_children hn hcs, (sortedChildren_nodup hi m).count]
  simp only [mem_sortedChildren]

mutual
theorem count_stmt {g : Graph} (hi : GInv g) {n : Str} (hn : g.isNode n = false) : (s : Stmt) → (∀ x ∈ allStmt s, InnerOk g x) →
    (allStmt s).countP (isSubFor n) = (opened s).countP (isSubFor n) + (allStmt s).countP (holds g n)
  | .sub id body, h => by
    have hb := count_stmts hi hn body fun x hx => h x (by simp [allStmt, hx])
    have h0 := countP_body hi (n := n) (m := id) hn (h (.sub id body) (by simp [allStmt]))
    have hno : (body.flatMap opened).countP (isSubFor n) = body.countP (isSubFor n) := by
      have hin : ∀ x ∈ body, InnerOk g x := fun x hx => h x (by simp [allStmt, mem_allStmts_of_mem hx])
      clear hb h0 h
      induction body with
      | nil => rfl
      | cons x body ih =>
        rw [List.flatMap_cons, List.countP_append, List.countP_cons, ih fun y hy => hin y (List.mem_cons_of_mem _ hy), Nat.add_comm]
        congr 1
        have := hin x (List.mem_cons_self ..)
        cases x <;> first | rfl | exact False.elim this | (simp only [opened, List.countP_cons, List.countP_nil, Nat.zero_add])
    simp only [allStmt, List.countP_cons, opened, List.countP_nil]
    have e : (if holds g n (.sub id body) = true then 1 else 0) = if mhas (g.relations.children id) n = true then 1 else 0 := rfl
    rw [hb, hno, h0, e]
    omega
  | .edge _ _ _, h => absurd (h _ (self_mem_allStmt _)) (by simp [InnerOk])
  | .node _ _, _ => rfl
  | .nodeAttrs _, _ => rfl
  | .edgeAttrs _, _ => rfl
  | .graphAttrs _, _ => rfl
  | .attr _, _ => rfl
theorem count_stmts {g : Graph} (hi : GInv g) {n : Str} (hn : g.isNode n = false) : (ss : List Stmt) → (∀ x ∈ allStmts ss, InnerOk g x) →
    (allStmts ss).countP (isSubFor n) = (ss.flatMap opened).countP (isSubFor n) + (allStmts ss).countP (holds g n)
  | [], _ => rfl
  | s :: ss, h => by
    have h1 := count_stmt hi hn s fun x hx => h x (by simp [allStmts, hx])
    have h2 := count_stmts hi hn ss fun x hx => h x (by simp [allStmts, hx])
    simp only [allStmts, List.flatMap_cons, List.countP_append]
    omega
end

theorem count_loc {g : Graph} (hi : GInv g) {n : Str} (hn : g.isNode n = false) (l : Loc) (h : ∀ x ∈ allLoc l, InnerOk g x) :
    (allLoc l).countP (isSubFor n) = (locOpened l).countP (isSubFor n) + (allLoc l).countP (holds g n) := by
  cases l with
  | node => rfl
  | sub id body => exact count_stmt hi hn (.sub id body) h

/-- A statement of a written tree: an edge with faithful ends, or a faithful statement. -/
inductive TopOk (g : Graph) : Stmt → Prop
  | inner {s : Stmt} : (∀ x ∈ allStmt s, InnerOk g x) → TopOk g s
  | edge {src dst : Loc} {op : Bool} {as : Ast.AttrList} : (∀ x ∈ allLoc src, InnerOk g x) → (∀ x ∈ allLoc dst, InnerOk g x) →
      TopOk g (.edge src [.mk op dst] as)

theorem topOk {g : Graph} (h : Reachable g) {sortE : List Edge → List Edge} {f : Nat} {t : Ast.Graph}
    (ht : writeAst sortE f g = .ok t) : ∀ s ∈ t.stmts, TopOk g s := by
  obtain ⟨es, ss, ns, hes, hss, hns, rfl⟩ := written_parts h ht
  intro s hs
  simp only [List.mem_append] at hs
  rcases hs with ((hs | hs) | hs) | hs
  · obtain ⟨e, _, rfl⟩ := List.mem_map.1 hs
    refine .inner fun x hx => ?_
    simp only [allStmt, List.mem_singleton] at hx
    subst hx
    trivial
  · obtain ⟨e, _, hes'⟩ := hes.mem_right hs
    obtain ⟨src, dst, rfl, h1, h2, _⟩ := edgeOf_inner h.inv hes'
    exact .edge (locOf_inner h.inv h1).1 (locOf_inner h.inv h2).1
  · obtain ⟨m, b, _, rfl, hb, _⟩ := (rootSubsOf_ok hss).1 s hs
    have hok := subBody_ok h.inv hb
    refine .inner fun x hx => ?_
    simp only [allStmt, List.mem_cons] at hx
    rcases hx with rfl | hx
    · exact hok.1
    · exact hok.2.1 x hx
  · obtain ⟨n, _, hn⟩ := hns.mem_right hs
    obtain ⟨nd, hf, rfl⟩ := nodeStmtOf_ok h.inv hn
    refine .inner fun x hx => ?_
    simp only [allStmt, List.mem_singleton] at hx
    subst hx
    exact ⟨rfl, nd, hf, rfl⟩

theorem count_top {g : Graph} (hi : GInv g) {n : Str} (hn : g.isNode n = false) {s : Stmt} (h : TopOk g s) :
    (allStmt s).countP (isSubFor n) = (opened s).countP (isSubFor n) + (allStmt s).countP (holds g n) := by
  cases h with
  | inner h => exact count_stmt hi hn s h
  | edge h1 h2 =>
    have h1 := count_loc hi hn _ h1
    have h2 := count_loc hi hn _ h2
    simp only [allStmt, allRHS, opened, List.countP_cons, List.countP_append, List.flatMap_cons, List.flatMap_nil, List.countP_nil, List.append_nil, isSubFor, holds]
    simp only [h1, h2]
    simp
    omega

end Size

/-- C77. A subgraph is written as often as the document opens it (as a statement of the graph or as an end of an edge) plus once for every time a subgraph
that contains it is written. -/
theorem C77_count {g : Graph} (h : Reachable g) {sortE : List Edge → List Edge} {f : Nat} {t : Ast.Graph}
    (ht : writeAst sortE f g = .ok t) {n : Str} (hn : g.isNode n = false) :
    (allStmts t.stmts).countP (isSubFor n) = (t.stmts.flatMap opened).countP (isSubFor n) + (allStmts t.stmts).countP (holds g n) := by
  have hall := Size.topOk h ht
  revert hall
  generalize t.stmts = ss
  intro hall
  induction ss with
  | nil => rfl
  | cons s ss ih =>
    have h1 := Size.count_top h.inv hn (hall s (List.mem_cons_self ..))
    have h2 := ih fun x hx => hall x (List.mem_cons_of_mem _ hx)
    simp only [allStmts, List.flatMap_cons, List.countP_append]
    omega

namespace Size

/-! ### what is inside what -/

mutual
/-- A statement inside: opened at the top, or a direct part of a subgraph inside. -/
theorem where_stmt {g : Graph} {n : Str} {b : List Stmt} : (s : Stmt) → (∀ x ∈ allStmt s, InnerOk g x) → Stmt.sub n b ∈ allStmt s →
    s = .sub n b ∨ ∃ m b', Stmt.sub m b' ∈ allStmt s ∧ Stmt.sub n b ∈ b'
  | .sub id body, h, hx => by
    simp only [allStmt, List.mem_cons] at hx
    rcases hx with hx | hx
    · exact .inl hx.symm
    · right
      rcases where_stmts body (fun x hx => h x (by simp [allStmt, hx])) hx with h' | ⟨m, b', h1, h2⟩
      · exact ⟨id, body, by simp [allStmt], h'⟩
      · exact ⟨m, b', by simp [allStmt, h1], h2⟩
  | .edge _ _ _, h, _ => absurd (h _ (self_mem_allStmt _)) (by simp [InnerOk])
  | .node _ _, _, hx => by simp [allStmt] at hx
  | .nodeAttrs _, _, hx => by simp [allStmt] at hx
  | .edgeAttrs _, _, hx => by simp [allStmt] at hx
  | .graphAttrs _, _, hx => by simp [allStmt] at hx
  | .attr _, _, hx => by simp [allStmt] at hx
theorem where_stmts {g : Graph} {n : Str} {b : List Stmt} : (ss : List Stmt) → (∀ x ∈ allStmts ss, InnerOk g x) → Stmt.sub n b ∈ allStmts ss →
    Stmt.sub n b ∈ ss ∨ ∃ m b', Stmt.sub m b' ∈ allStmts ss ∧ Stmt.sub n b ∈ b'
  | [], _, hx => by simp [allStmts] at hx
  | s :: ss, h, hx => by
    simp only [allStmts, List.mem_append] at hx
    rcases hx with hx | hx
    · rcases where_stmt s (fun x hx => h x (by simp [allStmts, hx])) hx with h' | ⟨m, b', h1, h2⟩
      · exact .inl (by simp [h'])
      · exact .inr ⟨m, b', by simp [allStmts, h1], h2⟩
    · rcases where_stmts ss (fun x hx => h x (by simp [allStmts, hx])) hx with h' | ⟨m, b', h1, h2⟩
      · exact .inl (by simp [h'])
      · exact .inr ⟨m, b', by simp [allStmts, h1], h2⟩
end

theorem where_loc {g : Graph} {n : Str} {b : List Stmt} (l : Loc) (h : ∀ x ∈ allLoc l, InnerOk g x) (hx : Stmt.sub n b ∈ allLoc l) :
    Stmt.sub n b ∈ locOpened l ∨ ∃ m b', Stmt.sub m b' ∈ allLoc l ∧ Stmt.sub n b ∈ b' := by
  cases l with
  | node => simp [allLoc] at hx
  | sub id body =>
    rcases where_stmt (.sub id body) h hx with h' | h'
    · exact .inl (by rw [← h']; simp [locOpened])
    · exact .inr h'

theorem where_top {g : Graph} {ss : List Stmt} (h : ∀ s ∈ ss, TopOk g s) {n : Str} {b : List Stmt} (hx : Stmt.sub n b ∈ allStmts ss) :
    Stmt.sub n b ∈ ss.flatMap opened ∨ ∃ m b', Stmt.sub m b' ∈ allStmts ss ∧ Stmt.sub n b ∈ b' := by
  obtain ⟨s, hs, hin⟩ := mem_allStmts.1 hx
  have key : Stmt.sub n b ∈ opened s ∨ ∃ m b', Stmt.sub m b' ∈ allStmt s ∧ Stmt.sub n b ∈ b' := by
    cases h s hs with
    | inner h' =>
      rcases where_stmt s h' hin with rfl | h'
      · exact .inl (by simp [opened])
      · exact .inr h'
    | @edge src dst op as h1 h2 =>
      simp only [allStmt, allRHS, List.append_nil, List.mem_cons, List.mem_append] at hin
      rcases hin with hin | hin | hin
      · cases hin
      · rcases where_loc src h1 hin with h' | ⟨m, b', h', h''⟩
        · exact .inl (by simp [opened, h'])
        · exact .inr ⟨m, b', by simp [allStmt, h'], h''⟩
      · rcases where_loc dst h2 hin with h' | ⟨m, b', h', h''⟩
        · exact .inl (by simp [opened, h'])
        · exact .inr ⟨m, b', by simp [allStmt, allRHS, h'], h''⟩
  rcases key with h' | ⟨m, b', h', h''⟩
  · exact .inl (List.mem_flatMap.2 ⟨s, hs, h'⟩)
  · exact .inr ⟨m, b', mem_allStmts.2 ⟨s, hs, h'⟩, h''⟩

mutual
theorem size_stmt {x : Stmt} : (s : Stmt) → x ∈ allStmt s → sizeOf x ≤ sizeOf s
  | .sub id body, hx => by
    simp only [allStmt, List.mem_cons] at hx
    rcases hx with rfl | hx
    · exact Nat.le_refl _
    · have := size_stmts body hx
      simp only [Stmt.sub.sizeOf_spec]; omega
  | .edge src rhs as, hx => by
    simp only [allStmt, List.mem_cons, List.mem_append] at hx
    rcases hx with rfl | hx | hx
    · exact Nat.le_refl _
    · have := size_loc src hx
      simp only [Stmt.edge.sizeOf_spec]; omega
    · have := size_rhs rhs hx
      simp only [Stmt.edge.sizeOf_spec]; omega
  | .node _ _, hx => by simp only [allStmt, List.mem_singleton] at hx; rw [hx]; exact Nat.le_refl _
  | .nodeAttrs _, hx => by simp only [allStmt, List.mem_singleton] at hx; rw [hx]; exact Nat.le_refl _
  | .edgeAttrs _, hx => by simp only [allStmt, List.mem_singleton] at hx; rw [hx]; exact Nat.le_refl _
  | .graphAttrs _, hx => by simp only [allStmt, List.mem_singleton] at hx; rw [hx]; exact Nat.le_refl _
  | .attr _, hx => by simp only [allStmt, List.mem_singleton] at hx; rw [hx]; exact Nat.le_refl _
theorem size_loc {x : Stmt} : (l : Loc) → x ∈ allLoc l → sizeOf x ≤ sizeOf l
  | .node _, hx => by simp [allLoc] at hx
  | .sub id body, hx => by
    simp only [allLoc, List.mem_cons] at hx
    rcases hx with rfl | hx
    · simp only [Stmt.sub.sizeOf_spec, Loc.sub.sizeOf_spec]; omega
    · have := size_stmts body hx
      simp only [Loc.sub.sizeOf_spec]; omega
theorem size_rhs {x : Stmt} : (l : List EdgeRH) → x ∈ allRHS l → sizeOf x ≤ sizeOf l
  | [], hx => by simp [allRHS] at hx
  | .mk op d :: rest, hx => by
    simp only [allRHS, List.mem_append] at hx
    rcases hx with hx | hx
    · have := size_loc d hx
      simp only [List.cons.sizeOf_spec, EdgeRH.mk.sizeOf_spec]; omega
    · have := size_rhs rest hx
      simp only [List.cons.sizeOf_spec]; omega
theorem size_stmts {x : Stmt} : (ss : List Stmt) → x ∈ allStmts ss → sizeOf x ≤ sizeOf ss
  | [], hx => by simp [allStmts] at hx
  | s :: ss, hx => by
    simp only [allStmts, List.mem_append] at hx
    rcases hx with hx | hx
    · have := size_stmt s hx
      simp only [List.cons.sizeOf_spec]; omega
    · have := size_stmts ss hx
      simp only [List.cons.sizeOf_spec]; omega
end

/-- The subgraphs written at the top are different subgraphs that the graph contains. -/
theorem rootSubs_names {g : Graph} {f : Nat} {seen ns : List Str} {ss : List Stmt} (hs : rootSubsOf g f seen ns = .ok ss) (n : Str) :
    ss.countP (isSubFor n) ≤ ns.count n := by
  induction ns generalizing seen ss with
  | nil =>
    simp only [rootSubsOf] at hs
    cases hs
    exact Nat.le_refl _
  | cons m ns ih =>
    simp only [rootSubsOf] at hs
    split at hs
    · obtain ⟨b, _, hs⟩ := WRes.bind_eq_ok.1 hs
      obtain ⟨ss', hs', hs⟩ := WRes.bind_eq_ok.1 hs
      cases hs
      have := ih hs'
      rw [List.countP_cons, List.count_cons]
      have e : (if isSubFor n (.sub m b) = true then 1 else 0) = if (m == n) = true then 1 else 0 := by
        simp [isSubFor]
      rw [e]
      omega
    · have := ih hs
      rw [List.count_cons]
      omega

theorem isSub_of_faithful {g : Graph} {n : Str} {b : List Stmt} (h : SubFaithful g n b) : g.isSubGraph n = true := by
  obtain ⟨sub, hs, _⟩ := h
  exact (mhas_iff_mget _ _).2 ⟨sub, hs⟩

theorem locOpened_nil {g : Graph} (h : GInv g) {f : Nat} {n p : Str} {l : Loc} (hl : locOf g f n p = .ok l)
    (hn : g.isSubGraph n = true → g.isNode n = true ∨ g.isClusterSubGraph n = true) : locOpened l = [] := by
  obtain ⟨h1, _, _, h4, h5⟩ := locOf_inner h hl
  by_cases hc : g.isNode n = true ∨ g.isClusterSubGraph n = true
  · rw [h4 hc]; rfl
  · have hc1 : g.isNode n = false := by simpa using fun h => hc (.inl h)
    have hc2 : g.isClusterSubGraph n = false := by simpa using fun h => hc (.inr h)
    obtain ⟨body, rfl⟩ := h5 hc1 hc2
    exact absurd (hn (isSub_of_faithful (h1 (.sub n body) (by simp [allLoc])))) hc

theorem flatMap_nil {l : List Stmt} (h : ∀ s ∈ l, opened s = []) : l.flatMap opened = [] := by
  rw [List.flatMap_eq_nil_iff]; exact h

/-- If no edge ends at a subgraph that is written in full, the subgraphs opened are those of the graph. -/
theorem opened_top {g : Graph} (h : Reachable g) (hs : SubTree g) {sortE : List Edge → List Edge} (hsort : SortContract sortE) {f : Nat} {t : Ast.Graph}
    (ht : writeAst sortE f g = .ok t) : ∃ ss, t.stmts.flatMap opened = ss ∧ (∀ n, ss.countP (isSubFor n) ≤ 1) ∧
      ∀ s ∈ ss, ∃ n b, s = .sub n b ∧ mhas (g.relations.children g.name) n = true := by
  obtain ⟨es, ss, ns, hes, hss, hns, rfl⟩ := written_parts h ht
  refine ⟨ss, ?_, fun n => Nat.le_trans (rootSubs_names hss n) ?_, fun s hs => ?_⟩
  · simp only [List.flatMap_append]
    have h1 : (attrsAsStmts g.attrs).flatMap opened = [] := flatMap_nil fun s hs => by
      obtain ⟨e, _, rfl⟩ := List.mem_map.1 hs; rfl
    have h2 : es.flatMap opened = [] := flatMap_nil fun s hs' => by
      obtain ⟨e, he, hes'⟩ := hes.mem_right hs'
      have he' := (hsort.perm _).mem_iff.1 he
      obtain ⟨src, dst, rfl, h1, h2, _⟩ := edgeOf_inner h.inv hes'
      simp only [opened, List.flatMap_cons, List.flatMap_nil, List.append_nil]
      rw [locOpened_nil h.inv h1 (hs.ends e he' _ (.inl rfl)), locOpened_nil h.inv h2 (hs.ends e he' _ (.inr rfl))]; rfl
    have h3 : ns.flatMap opened = [] := flatMap_nil fun s hs => by
      obtain ⟨n, _, hn⟩ := hns.mem_right hs
      obtain ⟨nd, hf, rfl⟩ := nodeStmtOf_ok h.inv hn
      rfl
    rw [h1, h2, h3, List.nil_append, List.nil_append, List.append_nil]
    have hsub : ∀ s ∈ ss, opened s = [s] := fun s hs => by
      obtain ⟨m, b, _, rfl, _⟩ := (rootSubsOf_ok hss).1 s hs
      rfl
    clear hns hss hs ht
    induction ss with
    | nil => rfl
    | cons s ss ih => rw [List.flatMap_cons, hsub s (by simp), ih fun x hx => hsub x (by simp [hx])]; rfl
  · have hnd : (mkeys g.subGraphs).Nodup := by
      unfold mkeys List.Nodup
      rw [List.pairwise_map]
      exact List.Pairwise.imp (fun h => slt_ne h) h.inv.subs.wf
    exact List.nodup_iff_count.1 hnd n
  · obtain ⟨m, b, _, rfl, _, hc, _⟩ := (rootSubsOf_ok hss).1 s hs
    exact ⟨m, b, rfl, hc⟩

end Size

/-- C77, partial: if the subgraphs form a tree under the graph, each is written at most once, wherever and however deep. -/
theorem C77_once_partial {g : Graph} (h : Reachable g) (hd : NamesDisjoint g) (hs : SubTree g) {sortE : List Edge → List Edge} (hsort : SortContract sortE)
    {f : Nat} {t : Ast.Graph} (ht : writeAst sortE f g = .ok t) (n : Str) : (allStmts t.stmts).countP (isSubFor n) ≤ 1 := by
  have hfaith : ∀ m b, Stmt.sub m b ∈ allStmts t.stmts → SubFaithful g m b := fun m b hin => C20_subgraphs_faithful h ht hin
  have hnn : ∀ m b, Stmt.sub m b ∈ allStmts t.stmts → g.isNode m = false := fun m b hin => by
    have := Size.isSub_of_faithful (hfaith m b hin)
    cases hn : g.isNode m with
    | false => rfl
    | true => exact absurd ⟨hn, this⟩ (hd m)
  obtain ⟨ss, hop, hone, hroot⟩ := Size.opened_top h hs hsort ht
  have key : ∀ k n b, Stmt.sub n b ∈ allStmts t.stmts → sizeOf t.stmts - sizeOf b ≤ k → (allStmts t.stmts).countP (isSubFor n) ≤ 1 := by
    intro k
    induction k with
    | zero =>
      intro n b hin hk
      have := Size.size_stmts _ hin
      simp only [Stmt.sub.sizeOf_spec] at this
      omega
    | succ k ih =>
      intro n b hin hk
      have hc := C77_count h ht (hnn n b hin)
      rw [hop] at hc
      by_cases h0 : ∃ x ∈ allStmts t.stmts, holds g n x = true
      · obtain ⟨x, hx, hh⟩ := h0
        -- the container is unique
        obtain ⟨m, b', rfl⟩ : ∃ m b', x = .sub m b' := by
          cases x <;> first | exact ⟨_, _, rfl⟩ | (simp [holds] at hh)
        have hm : ∀ p, mhas (g.relations.children p) n = true → p = m := fun p hp =>
          hs.one n p m (Size.isSub_of_faithful (hfaith n b hin)) hp hh
        have htop : ss.countP (isSubFor n) = 0 := by
          rw [List.countP_eq_zero]
          intro s hss hsn
          obtain ⟨n', b'', rfl, hch⟩ := hroot s hss
          have : n' = n := by simpa [isSubFor] using hsn
          subst this
          have := hm _ hch
          have h1 := Size.isSub_of_faithful (hfaith m b' hx)
          rw [← this, hs.root] at h1
          cases h1
        have hle : (allStmts t.stmts).countP (holds g n) ≤ (allStmts t.stmts).countP (isSubFor m) := by
          apply List.countP_mono_left
          intro y _ hy
          cases y with
          | sub m' b'' =>
            have := hm m' hy
            simp [isSubFor, this]
          | _ => simp [holds] at hy
        -- the occurrence is a part of a larger one
        rcases Size.where_top (Size.topOk h ht) hin with h' | ⟨m', b'', h1, h2⟩
        · rw [hop] at h'
          have := List.countP_eq_zero.1 htop _ h'
          simp [isSubFor] at this
        · have hmn : mhas (g.relations.children m') n = true := by
            have := Size.countP_body h.inv (hnn n b hin) (hfaith m' b'' h1)
            have hpos : 0 < b''.countP (isSubFor n) := List.countP_pos_iff.2 ⟨_, h2, by simp [isSubFor]⟩
            by_cases hc : mhas (g.relations.children m') n = true
            · exact hc
            · rw [if_neg hc] at this; omega
          have := hm _ hmn
          subst this
          have hlt : sizeOf b < sizeOf b'' := by
            have := Size.size_stmts b'' (mem_allStmts_of_mem h2)
            simp only [Stmt.sub.sizeOf_spec] at this
            omega
          have hlt' : sizeOf b'' < sizeOf t.stmts := by
            have := Size.size_stmts _ h1
            simp only [Stmt.sub.sizeOf_spec] at this
            omega
          have := ih m' b'' h1 (by omega)
          omega
      · have : (allStmts t.stmts).countP (holds g n) = 0 := by
          rw [List.countP_eq_zero]
          intro x hx hh
          exact h0 ⟨x, hx, hh⟩
        have := hone n
        omega
  by_cases h0 : ∃ x ∈ allStmts t.stmts, isSubFor n x = true
  · obtain ⟨x, hx, hn⟩ := h0
    cases x with
    | sub m b =>
      have : m = n := by simpa [isSubFor] using hn
      subst this
      exact key _ m b hx (Nat.le_refl _)
    | _ => simp [isSubFor] at hn
  · have : (allStmts t.stmts).countP (isSubFor n) = 0 := by
      rw [List.countP_eq_zero]
      intro x hx hh
      exact h0 ⟨x, hx, hh⟩
    omega

namespace Size

/-! ### the length -/

/-- The number of direct parts of a subgraph statement. -/
def width : Stmt → Nat
  | .sub _ b => b.length
  | _ => 0

mutual
theorem len_stmt {g : Graph} : (s : Stmt) → (∀ x ∈ allStmt s, InnerOk g x) → (allStmt s).length = 1 + ((allStmt s).map width).sum
  | .sub id body, h => by
    have := len_stmts body fun x hx => h x (by simp [allStmt, hx])
    simp only [allStmt, List.length_cons, List.map_cons, List.sum_cons, width, this]
    omega
  | .edge _ _ _, h => absurd (h _ (self_mem_allStmt _)) (by simp [InnerOk])
  | .node _ _, _ => rfl
  | .nodeAttrs _, _ => rfl
  | .edgeAttrs _, _ => rfl
  | .graphAttrs _, _ => rfl
  | .attr _, _ => rfl
theorem len_stmts {g : Graph} : (ss : List Stmt) → (∀ x ∈ allStmts ss, InnerOk g x) →
    (allStmts ss).length = ss.length + ((allStmts ss).map width).sum
  | [], _ => rfl
  | s :: ss, h => by
    have h1 := len_stmt s fun x hx => h x (by simp [allStmts, hx])
    have h2 := len_stmts ss fun x hx => h x (by simp [allStmts, hx])
    simp only [allStmts, List.length_append, List.map_append, List.sum_append, List.length_cons, h1, h2]
    omega
end

theorem allLoc_nil {l : Loc} (h : locOpened l = []) : allLoc l = [] := by
  cases l with
  | node => rfl
  | sub => simp [locOpened] at h

theorem len_top {g : Graph} {ss : List Stmt} (h : ∀ s ∈ ss, TopOk g s) (he : ∀ s ∈ ss, isEdgeStmt s = true → opened s = []) :
    (allStmts ss).length = ss.length + ((allStmts ss).map width).sum := by
  induction ss with
  | nil => rfl
  | cons s ss ih =>
    have h2 := ih (fun x hx => h x (by simp [hx])) (fun x hx => he x (by simp [hx]))
    have h1 : (allStmt s).length = 1 + ((allStmt s).map width).sum := by
      have hs := h s (by simp)
      have hes := he s (by simp)
      cases hs with
      | inner h' => exact len_stmt s h'
      | @edge src dst op as h1 h2 =>
        have := hes rfl
        simp only [opened, List.flatMap_cons, List.flatMap_nil, List.append_nil, List.append_eq_nil_iff] at this
        simp only [allStmt, allRHS, List.append_nil]
        rw [allLoc_nil this.1, allLoc_nil this.2]
        rfl
    simp only [allStmts, List.length_append, List.map_append, List.sum_append, List.length_cons, h1, h2]
    omega

/-- The name of a subgraph statement. -/
def subName : Stmt → Option Str
  | .sub n _ => some n
  | _ => none

theorem count_names (n : Str) (l : List Stmt) : (l.filterMap subName).count n = l.countP (isSubFor n) := by
  induction l with
  | nil => rfl
  | cons x l ih =>
    cases x with
    | sub m b =>
      simp only [List.filterMap_cons, subName, List.count_cons, List.countP_cons, ih]
      congr 1
      simp [isSubFor]
    | _ => simpa only [List.filterMap_cons, subName, List.countP_cons, isSubFor, Bool.false_eq_true, if_false, Nat.add_zero] using ih

theorem sum_width (w : Str → Nat) (l : List Stmt) (h : ∀ n b, Stmt.sub n b ∈ l → b.length = w n) :
    (l.map width).sum = ((l.filterMap subName).map w).sum := by
  induction l with
  | nil => rfl
  | cons x l ih =>
    have := ih fun n b hb => h n b (by simp [hb])
    cases x with
    | sub m b =>
      simp only [List.map_cons, List.sum_cons, List.filterMap_cons, subName, width, this, h m b (by simp)]
    | _ => simpa only [List.map_cons, List.sum_cons, List.filterMap_cons, subName, width, Nat.zero_add] using this

theorem sum_le {w : Str → Nat} {l l' : List Str} (hl : l.Nodup) (h : ∀ x ∈ l, x ∈ l') : (l.map w).sum ≤ (l'.map w).sum := by
  induction l generalizing l' with
  | nil => exact Nat.zero_le _
  | cons x l ih =>
    have hx : x ∈ l' := h x (by simp)
    have hp : (x :: l'.erase x).Perm l' := (List.perm_cons_erase hx).symm
    rw [← (hp.map w).sum_nat]
    simp only [List.map_cons, List.sum_cons]
    rw [List.nodup_cons] at hl
    have := ih (l' := l'.erase x) hl.2 fun y hy =>
      (List.mem_erase_of_ne (fun e : y = x => hl.1 (e ▸ hy))).2 (h y (by simp [hy]))
    omega

theorem rootSubs_length {g : Graph} {f : Nat} {seen ns : List Str} {ss : List Stmt} (hs : rootSubsOf g f seen ns = .ok ss) :
    ss.length ≤ ns.length := by
  induction ns generalizing seen ss with
  | nil =>
    simp only [rootSubsOf] at hs
    cases hs
    exact Nat.le_refl _
  | cons m ns ih =>
    simp only [rootSubsOf] at hs
    split at hs
    · obtain ⟨b, _, hs⟩ := WRes.bind_eq_ok.1 hs
      obtain ⟨ss', hs', hs⟩ := WRes.bind_eq_ok.1 hs
      cases hs
      have := ih hs'
      simp only [List.length_cons]
      omega
    · have := ih hs
      simp only [List.length_cons]
      omega

end Size

/-- C77, partial: if the subgraphs form a tree under the graph, the written document has no more statements than the graph has parts. -/
theorem C77_linear_partial {g : Graph} (h : Reachable g) (hd : NamesDisjoint g) (hs : SubTree g) {sortE : List Edge → List Edge} (hsort : SortContract sortE)
    {f : Nat} {t : Ast.Graph} (ht : writeAst sortE f g = .ok t) : (allStmts t.stmts).length ≤ graphSize g := by
  have honce := C77_once_partial h hd hs hsort ht
  have hfaith : ∀ m b, Stmt.sub m b ∈ allStmts t.stmts → SubFaithful g m b := fun m b hin => C20_subgraphs_faithful h ht hin
  obtain ⟨ss', hop, _, hroot⟩ := Size.opened_top h hs hsort ht
  let w : Str → Nat := fun n => (((mget g.subGraphs n).map fun s => s.attrs.length).getD 0) + (g.relations.children n).length
  have hw : ∀ n b, Stmt.sub n b ∈ allStmts t.stmts → b.length = w n := by
    intro n b hin
    obtain ⟨sub, h1, cs, rfl, h2⟩ := hfaith n b hin
    show _ = (((mget g.subGraphs n).map fun s => s.attrs.length).getD 0) + (g.relations.children n).length
    rw [List.length_append, ← h2.length, h1]
    congr 1
    · simp [attrsAsStmts]
    · unfold Relations.sortedChildren
      rw [mkeys_ssort (h.inv.rels.iwf1 n)]
      simp [mkeys]
  have hlen : (allStmts t.stmts).length = t.stmts.length + ((allStmts t.stmts).map Size.width).sum := by
    refine Size.len_top (Size.topOk h ht) fun s hss he => ?_
    cases hos : opened s with
    | nil => rfl
    | cons x xs =>
      -- an edge that opens a subgraph: it is not in the tree
      exfalso
      obtain ⟨es, ss, ns, hes, hss', hns, rfl⟩ := written_parts h ht
      simp only [List.mem_append] at hss
      rcases hss with ((hss | hss) | hss) | hss
      · obtain ⟨e, _, rfl⟩ := List.mem_map.1 hss; cases he
      · obtain ⟨e, hm, hes'⟩ := hes.mem_right hss
        have hm' := (hsort.perm _).mem_iff.1 hm
        obtain ⟨src, dst, rfl, h1, h2, _⟩ := edgeOf_inner h.inv hes'
        simp only [opened, List.flatMap_cons, List.flatMap_nil, List.append_nil] at hos
        rw [Size.locOpened_nil h.inv h1 (hs.ends e hm' _ (.inl rfl)), Size.locOpened_nil h.inv h2 (hs.ends e hm' _ (.inr rfl))] at hos
        cases hos
      · obtain ⟨m, b, _, rfl, _⟩ := (rootSubsOf_ok hss').1 s hss; cases he
      · obtain ⟨n, _, hn⟩ := hns.mem_right hss
        obtain ⟨nd, hf, rfl⟩ := nodeStmtOf_ok h.inv hn
        cases he
  have hsum : ((allStmts t.stmts).map Size.width).sum ≤ ((mkeys g.subGraphs).map w).sum := by
    rw [Size.sum_width w _ hw]
    apply Size.sum_le
    · rw [List.nodup_iff_count]
      intro n
      rw [Size.count_names]
      exact honce n
    · intro n hn
      obtain ⟨x, hx, hxn⟩ := List.mem_filterMap.1 hn
      cases x with
      | sub m b =>
        cases hxn
        exact (mhas_iff _ _).1 (Size.isSub_of_faithful (hfaith _ b hx))
      | _ => cases hxn
  have hkeys : ((mkeys g.subGraphs).map w).sum = (g.subGraphs.map fun p => p.2.attrs.length + (g.relations.children p.1).length).sum := by
    unfold mkeys
    rw [List.map_map]
    congr 1
    apply List.map_congr_left
    intro e he
    show (((mget g.subGraphs e.1).map fun s => s.attrs.length).getD 0) + _ = _
    rw [mget_of_mem h.inv.subs.wf he]; rfl
  have htop : t.stmts.length ≤ g.attrs.length + g.edges.edges.length + g.nodes.list.length + g.subGraphs.length := by
    obtain ⟨l, hl1, hl2, _⟩ := C14_nodes_sorted h
    have hll : g.nodes.lookup.length = g.nodes.list.length := by
      have h1 := congrArg List.length hl1
      have h2 := hl2.length_eq
      unfold Nodes.sorted at h1
      rw [mkeys_ssort h.inv.nodes.wf] at h1
      simp only [List.length_map, mkeys] at h1 h2
      omega
    obtain ⟨es, ss, ns, hes, hss, hns, rfl⟩ := written_parts h ht
    have h1 := hes.length
    rw [(hsort.perm _).length_eq] at h1
    have h2 := Size.rootSubs_length hss
    have h3 := hns.length
    have h4 := List.length_filter_le (fun n => !decide (n ∈ marksL es ++ marksL ss)) (mkeys g.nodes.lookup)
    simp only [mkeys, List.length_map] at h2 h4
    simp only [List.length_append, attrsAsStmts, List.length_map]
    unfold mkeys at h3
    omega
  have hplus : (g.subGraphs.map fun p => 1 + p.2.attrs.length + (g.relations.children p.1).length).sum =
      g.subGraphs.length + (g.subGraphs.map fun p => p.2.attrs.length + (g.relations.children p.1).length).sum := by
    generalize g.subGraphs = l
    induction l with
    | nil => rfl
    | cons x l ih => simp only [List.map_cons, List.sum_cons, List.length_cons, ih]; omega
  unfold graphSize
  omega

/-! ### the exponential family -/

/-- The name with `i + 1` letters `a`. -/
def aName (i : Nat) : Str := List.replicate (i + 1) 97

/-- The subgraph statement of the `i`-th name, in which all the smaller ones are named. -/
def aStmt (i : Nat) : Stmt := .sub (aName i) ((List.range i).map fun j => .sub (aName j) [])

/-- `digraph G { subgraph a {}; subgraph aa { subgraph a {} }; subgraph aaa { subgraph a {}; subgraph aa {} }; … }`: the first `n` subgraphs, each naming the smaller ones. -/
def aDoc (n : Nat) : Ast.Graph := { type_ := true, strict := false, id := b!"G", stmts := (List.range n).map aStmt }

namespace Size

theorem aName_inj {i j : Nat} (h : aName i = aName j) : i = j := by
  have := congrArg List.length h
  simp only [aName, List.length_replicate] at this
  omega

theorem aName_slt {i j : Nat} (h : i < j) : slt (aName i) (aName j) = true := by
  unfold aName
  induction i generalizing j with
  | zero =>
    obtain ⟨k, rfl⟩ : ∃ k, j = k + 1 := ⟨j - 1, by omega⟩
    simp [List.replicate_succ, slt]
  | succ i ih =>
    obtain ⟨k, rfl⟩ : ∃ k, j = k + 1 := ⟨j - 1, by omega⟩
    rw [List.replicate_succ, List.replicate_succ (n := k + 1)]
    simp only [slt, Nat.lt_irrefl, if_false]
    exact ih (by omega)

theorem aName_valid (i : Nat) : ValidId (aName i) := by
  have hr : runes (aName i) = aName i := runes_all_ascii _ (by simp [aName])
  refine .inl ⟨?_, ?_⟩
  · rw [hr]
    refine ⟨97, List.replicate i 97, by simp [aName, List.replicate_succ], by decide, ?_⟩
    intro x hx
    rw [List.eq_of_mem_replicate hx]
    exact .inl (by decide)
  · rw [hr]
    intro h
    have : ∀ w ∈ keywords.map Prod.fst, ∃ x ∈ w, x ≠ 97 := by decide
    obtain ⟨x, hx, hne⟩ := this _ h
    exact hne (List.eq_of_mem_replicate hx)

theorem aDoc_printable (n : Nat) : Spec.Printable (aDoc n) := by
  refine ⟨.inr ?_, ?_⟩
  · have hr : runes (b!"G") = b!"G" := runes_all_ascii _ (by decide)
    refine .inl ⟨?_, ?_⟩
    · rw [show (aDoc n).id = b!"G" from rfl, hr]
      exact ⟨71, [], rfl, by decide, (fun _ h => nomatch h)⟩
    · rw [show (aDoc n).id = b!"G" from rfl, hr]; decide
  · have key : ∀ l : List Stmt, (∀ s ∈ l, PrintableStmt s) → PrintableStmts l := by
      intro l
      induction l with
      | nil => intro _; exact trivial
      | cons s l ih => intro h; exact ⟨h s (by simp), ih fun x hx => h x (by simp [hx])⟩
    apply key
    intro s hs
    obtain ⟨i, _, rfl⟩ := List.mem_map.1 hs
    refine ⟨aName_valid i, key _ fun s hs => ?_⟩
    obtain ⟨j, _, rfl⟩ := List.mem_map.1 hs
    exact ⟨aName_valid j, trivial⟩

theorem norm_subs (l : List Stmt) (h : ∀ s ∈ l, normStmt s = [s]) : normStmts l = l := by
  induction l with
  | nil => rfl
  | cons s l ih => rw [normStmts, h s (by simp), ih fun x hx => h x (by simp [hx])]; rfl

theorem aDoc_norm (n : Nat) : norm (aDoc n) = aDoc n := by
  unfold norm
  have : normStmts (aDoc n).stmts = (aDoc n).stmts := norm_subs _ fun s hs => by
    obtain ⟨i, _, rfl⟩ := List.mem_map.1 hs
    unfold aStmt
    rw [normStmt, norm_subs]
    intro s hs
    obtain ⟨j, _, rfl⟩ := List.mem_map.1 hs
    rfl
  rw [this]

/-- The text is read as the document. -/
theorem aDoc_parse (n : Nat) (rnd : Nat → Nat) (cnt : Nat) : Parse.parseBytes rnd cnt (Ast.graphStr (aDoc n)) = .ok (aDoc n) cnt := by
  rw [C36_print_parse (aDoc_printable n), aDoc_norm]

open Gographviz.Spec.Document

theorem items_cases {c : Ctx} {i : Item} (ss : List Stmt) : ∀ (pre : List Stmt), i ∈ itemsStmts c pre ss → ∃ pre', ∃ s ∈ ss, i ∈ itemsStmt c pre' s := by
  induction ss with
  | nil => intro pre h; simp [itemsStmts] at h
  | cons s ss ih =>
    intro pre h
    rw [itemsStmts, List.mem_append] at h
    rcases h with h | h
    · exact ⟨pre, s, by simp, h⟩
    · obtain ⟨pre', s', hs, h⟩ := ih _ h
      exact ⟨pre', s', by simp [hs], h⟩

theorem items_of {c : Ctx} {s : Stmt} (ss : List Stmt) (hs : s ∈ ss) : ∀ pre : List Stmt, ∃ pre', ∀ i, i ∈ itemsStmt c pre' s → i ∈ itemsStmts c pre ss := by
  induction ss with
  | nil => cases hs
  | cons x ss ih =>
    intro pre
    rcases List.mem_cons.1 hs with rfl | hs
    · exact ⟨pre, fun i hi => by rw [itemsStmts, List.mem_append]; exact .inl hi⟩
    · obtain ⟨pre', h⟩ := ih hs (pre ++ [x])
      exact ⟨pre', fun i hi => by rw [itemsStmts, List.mem_append]; exact .inr (h i hi)⟩

theorem aDoc_items {n : Nat} {i : Item} (h : i ∈ items (aDoc n)) : ∃ k, k < n ∧ ((i.ctx.name = b!"G" ∧ i.stmt = aStmt k) ∨
    ∃ j, j < k ∧ i.ctx.name = aName k ∧ i.stmt = .sub (aName j) []) := by
  obtain ⟨pre, s, hs, h⟩ := items_cases _ _ h
  obtain ⟨k, hk, rfl⟩ := List.mem_map.1 hs
  rw [List.mem_range] at hk
  refine ⟨k, hk, ?_⟩
  unfold aStmt at h ⊢
  rw [itemsStmt, List.mem_cons] at h
  rcases h with rfl | h
  · exact .inl ⟨rfl, rfl⟩
  · obtain ⟨pre', s', hs', h⟩ := items_cases _ _ h
    obtain ⟨j, hj, rfl⟩ := List.mem_map.1 hs'
    rw [List.mem_range] at hj
    rw [itemsStmt, itemsStmts, List.mem_singleton] at h
    subst h
    exact .inr ⟨j, hj, rfl, rfl⟩

theorem aDoc_item_top {n k : Nat} (hk : k < n) : ∃ i ∈ items (aDoc n), i.ctx.name = b!"G" ∧ i.stmt = aStmt k := by
  obtain ⟨pre, h⟩ := items_of (c := ⟨b!"G", [], []⟩) (aDoc n).stmts (List.mem_map.2 ⟨k, List.mem_range.2 hk, rfl⟩) []
  refine ⟨⟨⟨b!"G", [], []⟩, pre, aStmt k⟩, h _ ?_, rfl, rfl⟩
  unfold aStmt
  rw [itemsStmt]
  exact List.mem_cons_self ..

theorem aDoc_item_inner {n j k : Nat} (hk : k < n) (hj : j < k) : ∃ i ∈ items (aDoc n), i.ctx.name = aName k ∧ i.stmt = .sub (aName j) [] := by
  obtain ⟨pre, h⟩ := items_of (c := ⟨b!"G", [], []⟩) (aDoc n).stmts (List.mem_map.2 ⟨k, List.mem_range.2 hk, rfl⟩) []
  obtain ⟨pre', h'⟩ := items_of (c := Ctx.inner ⟨b!"G", [], []⟩ pre (aName k)) ((List.range k).map fun j => .sub (aName j) [])
    (List.mem_map.2 ⟨j, List.mem_range.2 hj, rfl⟩) []
  refine ⟨⟨Ctx.inner ⟨b!"G", [], []⟩ pre (aName k), pre', .sub (aName j) []⟩, h _ ?_, rfl, rfl⟩
  unfold aStmt
  rw [itemsStmt, List.mem_cons]
  refine .inr (h' _ ?_)
  rw [itemsStmt]
  exact List.mem_cons_self ..

theorem aName_ne (k : Nat) : aName k ≠ b!"G" := by
  simp [aName, List.replicate_succ]

/-- What the graph of the document is. -/
structure AGraph (n : Nat) (g : Graph) : Prop where
  name : g.name = b!"G"
  noNodes : ∀ m, g.isNode m = false
  noEdges : g.edges.edges = []
  subs : ∀ m, g.isSubGraph m = true ↔ ∃ k, k < n ∧ m = aName k
  root : ∀ c, mhas (g.relations.children (b!"G")) c = true ↔ ∃ k, k < n ∧ c = aName k
  children : ∀ k, k < n → ∀ c, mhas (g.relations.children (aName k)) c = true ↔ ∃ j, j < k ∧ c = aName j
  only : ∀ p c, mhas (g.relations.children p) c = true → p = b!"G" ∨ ∃ k, k < n ∧ p = aName k

theorem aDoc_graph {n : Nat} {g : Graph} (h : newAnalysedGraph (aDoc n) = .ok g) : AGraph n g := by
  have D := C66_document h
  have hm : ∀ i ∈ items (aDoc n), mentions i.stmt = [] := by
    intro i hi
    obtain ⟨k, _, ⟨_, e⟩ | ⟨j, _, _, e⟩⟩ := aDoc_items hi <;> rw [e] <;> rfl
  refine ⟨D.name, ?_, ?_, ?_, ?_, ?_, ?_⟩
  · intro m
    cases hn : g.isNode m with
    | false => rfl
    | true =>
      obtain ⟨i, hi, hx⟩ := (D.nodes m).1 hn
      rw [hm i hi] at hx; cases hx
  · have := D.edges
    have he : (items (aDoc n)).flatMap Item.edges = [] := by
      rw [List.flatMap_eq_nil_iff]
      intro i hi
      unfold Item.edges
      obtain ⟨k, _, ⟨_, e⟩ | ⟨j, _, _, e⟩⟩ := aDoc_items hi <;> rw [e] <;> rfl
    rw [he] at this
    exact List.map_eq_nil_iff.1 this
  · intro m
    rw [D.subs]
    constructor
    · rintro ⟨i, hi, hx⟩
      unfold Item.sub at hx
      obtain ⟨k, hk, ⟨_, e⟩ | ⟨j, hj, _, e⟩⟩ := aDoc_items hi <;> rw [e] at hx
      · exact ⟨k, hk, by simpa [aStmt] using hx⟩
      · exact ⟨j, by omega, by simpa using hx⟩
    · rintro ⟨k, hk, rfl⟩
      obtain ⟨i, hi, _, e⟩ := aDoc_item_top hk
      exact ⟨i, hi, by unfold Item.sub; rw [e]; simp [aStmt]⟩
  · intro c
    rw [D.children]
    constructor
    · rintro ⟨i, hi, hc, hx | hx⟩
      · rw [hm i hi] at hx; cases hx
      · unfold Item.sub at hx
        obtain ⟨k, hk, ⟨_, e⟩ | ⟨j, hj, hc', e⟩⟩ := aDoc_items hi <;> rw [e] at hx
        · exact ⟨k, hk, by simpa [aStmt] using hx⟩
        · exact absurd (hc'.symm.trans hc) (aName_ne k)
    · rintro ⟨k, hk, rfl⟩
      obtain ⟨i, hi, hc, e⟩ := aDoc_item_top hk
      exact ⟨i, hi, hc, .inr (by unfold Item.sub; rw [e]; simp [aStmt])⟩
  · intro k hk c
    rw [D.children]
    constructor
    · rintro ⟨i, hi, hc, hx | hx⟩
      · rw [hm i hi] at hx; cases hx
      · unfold Item.sub at hx
        obtain ⟨k', hk', ⟨hc', e⟩ | ⟨j, hj, hc', e⟩⟩ := aDoc_items hi <;> rw [e] at hx
        · exact absurd (hc.symm.trans hc') (aName_ne k)
        · have := aName_inj (hc.symm.trans hc')
          subst this
          exact ⟨j, hj, by simpa using hx⟩
    · rintro ⟨j, hj, rfl⟩
      obtain ⟨i, hi, hc, e⟩ := aDoc_item_inner hk hj
      exact ⟨i, hi, hc, .inr (by unfold Item.sub; rw [e]; simp)⟩
  · intro p c hc
    obtain ⟨i, hi, hc, _⟩ := (D.children p c).1 hc
    obtain ⟨k, hk, ⟨hc', _⟩ | ⟨j, hj, hc', _⟩⟩ := aDoc_items hi
    · exact .inl (hc.symm.trans hc')
    · exact .inr ⟨k, hk, hc.symm.trans hc'⟩

theorem aDoc_accepted (n : Nat) : ∃ g, newAnalysedGraph (aDoc n) = .ok g := by
  apply C49_registered_suffices
  intro s hs k hk
  obtain ⟨x, hx, hs⟩ := mem_allStmts.1 hs
  obtain ⟨i, _, rfl⟩ := List.mem_map.1 hx
  unfold aStmt at hs
  rw [allStmt, List.mem_cons] at hs
  rcases hs with rfl | hs
  · cases hk
  · obtain ⟨x, hx, hs⟩ := mem_allStmts.1 hs
    obtain ⟨j, _, rfl⟩ := List.mem_map.1 hx
    rw [allStmt, allStmts, List.mem_singleton] at hs
    subst hs
    cases hk

theorem AGraph.acyclic {n : Nat} {g : Graph} (h : AGraph n g) : Acyclic g := by
  let r : Str → Nat := fun p => if p = b!"G" then n + 2 else p.length
  have hG : r (b!"G") = n + 2 := rfl
  have hA : ∀ k, r (aName k) = k + 1 := fun k => by
    show (if aName k = b!"G" then n + 2 else (aName k).length) = _
    rw [if_neg (aName_ne k)]; simp [aName]
  have step : ∀ p c, SubChild g p c → r c < r p := by
    rintro p c ⟨hc, _, _⟩
    rcases h.only p c hc with rfl | ⟨k, hk, rfl⟩
    · obtain ⟨j, hj, rfl⟩ := (h.root c).1 hc
      rw [hA, hG]; omega
    · obtain ⟨j, hj, rfl⟩ := (h.children k hk c).1 hc
      rw [hA, hA]; omega
  have star : ∀ a b, Star (SubChild g) a b → r b ≤ r a := by
    intro a b hs
    induction hs with
    | refl => exact Nat.le_refl _
    | head h1 _ ih => have := step _ _ h1; omega
  rintro m ⟨b, h1, h2⟩
  have := step _ _ h1
  have := star _ _ h2
  omega

/-- The statement is a subgraph. -/
def isSub : Stmt → Bool
  | .sub _ _ => true
  | _ => false

theorem AGraph.sorted {n : Nat} {g : Graph} (hr : Reachable g) (h : AGraph n g) {k : Nat} (hk : k < n) :
    g.relations.sortedChildren (aName k) = (List.range k).map aName := by
  obtain ⟨h1, h2⟩ := C14_children_sorted hr (aName k)
  have h3 : ((List.range k).map aName).Pairwise fun a b => slt a b = true := by
    rw [List.pairwise_map]
    exact List.pairwise_lt_range.imp aName_slt
  have hp : (g.relations.sortedChildren (aName k)).Perm ((List.range k).map aName) := by
    apply (List.perm_ext_iff_of_nodup (h2.imp slt_ne) (h3.imp slt_ne)).2
    intro c
    rw [h1, h.children k hk]
    simp only [List.mem_map, List.mem_range]
    constructor
    · rintro ⟨j, hj, rfl⟩; exact ⟨j, hj, rfl⟩
    · rintro ⟨j, hj, rfl⟩; exact ⟨j, hj, rfl⟩
  refine hp.eq_of_pairwise ?_ h2 h3
  intro a b _ _ hab hba
  rw [slt_asymm hab] at hba
  cases hba

theorem sum_pow (k : Nat) : (((List.range k).map aName).map fun c => 2 ^ (c.length - 1)).sum + 1 = 2 ^ k := by
  induction k with
  | zero => rfl
  | succ k ih =>
    rw [List.range_succ, List.map_append, List.map_append, List.sum_append]
    simp only [List.map_cons, List.map_nil, List.sum_cons, List.sum_nil]
    have : (aName k).length - 1 = k := by simp [aName]
    rw [this, Nat.pow_succ]
    omega

/-- The `k`-th subgraph is written with `2 ^ k` subgraph statements. -/
theorem AGraph.size {n : Nat} {g : Graph} (hr : Reachable g) (h : AGraph n g) {ss : List Stmt}
    (hf : ∀ m b, Stmt.sub m b ∈ allStmts ss → SubFaithful g m b) (k : Nat) :
    k < n → ∀ b, Stmt.sub (aName k) b ∈ allStmts ss → (allStmt (.sub (aName k) b)).countP isSub = 2 ^ k := by
  induction k using Nat.strongRecOn with
  | _ k ih =>
    intro hk b hin
    obtain ⟨sub, _, cs, rfl, hcs⟩ := hf _ _ hin
    rw [h.sorted hr hk] at hcs
    have hsub : ∀ s ∈ cs, ∀ x ∈ allStmt s, x ∈ allStmts ss := fun s hs x hx =>
      mem_allStmts_trans ss hin (mem_allStmts.2 ⟨s, by simp [hs], hx⟩)
    have hsum : ∀ l cs', Forall2 (fun c s => DirectChild g c s ∧ c ∈ (List.range k).map aName ∧ s ∈ cs) l cs' →
        (allStmts cs').countP isSub = (l.map fun c => 2 ^ (c.length - 1)).sum := by
      intro l cs' hl
      induction hl with
      | nil => rfl
      | @cons c s l cs' hc _ ih' =>
        obtain ⟨hd, hc, hs⟩ := hc
        obtain ⟨j, hj, rfl⟩ := List.mem_map.1 hc
        rw [List.mem_range] at hj
        rw [allStmts, List.countP_append, ih', List.map_cons, List.sum_cons]
        congr 1
        cases s with
        | sub id b' =>
          obtain ⟨rfl, _⟩ := hd
          rw [ih j hj (by omega) b' (hsub _ hs _ (self_mem_allStmt _))]
          simp [aName]
        | node id as =>
          obtain ⟨_, nd, hfi, _⟩ := hd
          have := h.noNodes (aName j)
          unfold Graph.isNode at this
          unfold Nodes.find at hfi
          cases hm : mget g.nodes.lookup (aName j) with
          | none => rw [hm] at hfi; cases hfi
          | some p => rw [(mhas_iff_mget _ _).2 ⟨p, hm⟩] at this; cases this
        | _ => exact False.elim hd
    have := hsum _ _ hcs.and_mem
    rw [allStmt, List.countP_cons, allStmts_append, List.countP_append, allStmts_attrs, countP_attrs _ (fun _ => rfl), this]
    have := sum_pow k
    simp only [isSub, if_true]
    omega

/-! ### lengths of texts -/

theorem trimNL_le (s : Str) : (trimSuffixNL s).length ≤ s.length := by
  unfold trimSuffixNL
  split
  · rename_i r h
    have := congrArg List.length h
    simp only [List.length_reverse, List.length_cons] at this ⊢
    omega
  · exact Nat.le_refl _

theorem trimNL_ge (s : Str) : s.length ≤ (trimSuffixNL s).length + 1 := by
  unfold trimSuffixNL
  split
  · rename_i r h
    have := congrArg List.length h
    simp only [List.length_reverse, List.length_cons] at this ⊢
    omega
  · omega

theorem lines_le (ind : Str) (b : Nat) (ss : List Stmt) (h : ∀ s ∈ ss, (Ast.stmtStr ind s).length ≤ b) :
    (Ast.stmtsLines ind ss).length ≤ ss.length * (b + 2) := by
  induction ss with
  | nil => exact Nat.zero_le _
  | cons s ss ih =>
    have h1 := h s (by simp)
    have h2 := ih fun x hx => h x (by simp [hx])
    rw [Ast.stmtsLines, List.length_append, List.length_cons, Nat.succ_mul]
    have : (if (Ast.stmtStr ind s).length > 0 then Ast.stmtStr ind s ++ b!";\n" else []).length ≤ b + 2 := by
      split
      · rw [List.length_append]; simp only [List.length_cons, List.length_nil]; omega
      · exact Nat.zero_le _
    omega

theorem sub_length (ind id : Str) (body : List Stmt) : (Ast.stmtStr ind (.sub id body)).length =
    2 * ind.length + id.length + (trimSuffixNL (Ast.stmtsLines (ind ++ b!"\t") body)).length + 14 := by
  rw [Ast.stmtStr]
  simp only [List.length_append, List.length_cons, List.length_nil]
  omega

theorem aDoc_length (n : Nat) : (Ast.graphStr (aDoc n)).length ≤ 40 * (n + 1) ^ 3 := by
  have h1 : ∀ i, i ≤ n → ∀ s ∈ (List.range i).map (fun j => Stmt.sub (aName j) []), (Ast.stmtStr (b!"\t" ++ b!"\t") s).length ≤ n + 19 := by
    intro i hi s hs
    obtain ⟨j, hj, rfl⟩ := List.mem_map.1 hs
    rw [List.mem_range] at hj
    rw [sub_length]
    simp only [List.length_append, List.length_cons, List.length_nil, aName, List.length_replicate, Ast.stmtsLines, trimSuffixNL, List.reverse_nil]
    omega
  have h2 : ∀ s ∈ (aDoc n).stmts, (Ast.stmtStr (b!"\t") s).length ≤ n * (n + 21) + n + 17 := by
    intro s hs
    obtain ⟨i, hi, rfl⟩ := List.mem_map.1 hs
    rw [List.mem_range] at hi
    unfold aStmt
    rw [sub_length]
    have := lines_le _ _ _ (h1 i (by omega))
    have h3 := trimNL_le (Ast.stmtsLines (b!"\t" ++ b!"\t") ((List.range i).map (fun j => Stmt.sub (aName j) [])))
    rw [List.length_map, List.length_range] at this
    have h4 : i * (n + 19 + 2) ≤ n * (n + 21) := Nat.mul_le_mul (by omega) (by omega)
    simp only [aName, List.length_replicate, List.length_cons, List.length_nil] at *
    omega
  have h3 := lines_le _ _ _ h2
  have h4 := trimNL_le (Ast.stmtsLines (b!"\t") (aDoc n).stmts)
  have h5 : (aDoc n).stmts.length = n := by simp [aDoc]
  rw [h5] at h3
  have h6 : (Ast.graphStr (aDoc n)).length = (trimSuffixNL (Ast.stmtsLines (b!"\t") (aDoc n).stmts)).length + 15 := by
    unfold Ast.graphStr Ast.stmtListStr
    simp only [List.length_append, List.length_cons, List.length_nil, Ast.typeStr, show (aDoc n).strict = false from rfl, show (aDoc n).type_ = true from rfl,
      show (aDoc n).id = b!"G" from rfl, if_true, Bool.false_eq_true, if_false]
    omega
  rw [h6]
  -- arithmetic
  have e1 : n * (n + 21) ≤ 21 * ((n + 1) * (n + 1)) := by
    have : n * (n + 21) ≤ (n + 1) * (21 * (n + 1)) := Nat.mul_le_mul (by omega) (by omega)
    rw [Nat.mul_left_comm] at this
    exact this
  have e2 : n + 19 ≤ 19 * ((n + 1) * (n + 1)) := by
    have : n + 1 ≤ (n + 1) * (n + 1) := Nat.le_mul_of_pos_left _ (by omega)
    omega
  have e3 : n * (n * (n + 21) + n + 17 + 2) ≤ n * (40 * ((n + 1) * (n + 1))) := Nat.mul_le_mul_left _ (by omega)
  have e4 : 40 * (n + 1) ^ 3 = n * (40 * ((n + 1) * (n + 1))) + 40 * ((n + 1) * (n + 1)) := by
    rw [show 3 = 2 + 1 from rfl, Nat.pow_succ, Nat.pow_two, ← Nat.mul_assoc, Nat.mul_add, Nat.mul_one]
    congr 1
    rw [Nat.mul_comm]
  have e5 : 1 ≤ (n + 1) * (n + 1) := Nat.mul_pos (by omega) (by omega)
  omega

mutual
theorem long_stmt : (s : Stmt) → (∀ x ∈ allStmt s, isEdgeStmt x = false) → ∀ ind, 2 * (allStmt s).countP isSub ≤ (Ast.stmtStr ind s).length
  | .sub id body, h, ind => by
    have h1 := long_stmts body (fun x hx => h x (by simp [allStmt, hx])) (ind ++ b!"\t")
    have h2 := trimNL_ge (Ast.stmtsLines (ind ++ b!"\t") body)
    rw [sub_length, allStmt, List.countP_cons]
    simp only [isSub, if_true]
    omega
  | .edge _ _ _, h, _ => absurd (h _ (self_mem_allStmt _)) (by simp [isEdgeStmt])
  | .node _ _, _, _ => by simp [allStmt, isSub]
  | .nodeAttrs _, _, _ => by simp [allStmt, isSub]
  | .edgeAttrs _, _, _ => by simp [allStmt, isSub]
  | .graphAttrs _, _, _ => by simp [allStmt, isSub]
  | .attr _, _, _ => by simp [allStmt, isSub]
theorem long_stmts : (ss : List Stmt) → (∀ x ∈ allStmts ss, isEdgeStmt x = false) → ∀ ind, 2 * (allStmts ss).countP isSub ≤ (Ast.stmtsLines ind ss).length
  | [], _, _ => by simp [allStmts]
  | s :: ss, h, ind => by
    have h1 := long_stmt s (fun x hx => h x (by simp [allStmts, hx])) ind
    have h2 := long_stmts ss (fun x hx => h x (by simp [allStmts, hx])) ind
    rw [allStmts, List.countP_append, Ast.stmtsLines, List.length_append]
    split
    · rw [List.length_append]; omega
    · omega
end

mutual
theorem sublist_stmt {x : Stmt} : (s : Stmt) → x ∈ allStmt s → (allStmt x).Sublist (allStmt s)
  | .sub id body, hx => by
    simp only [allStmt, List.mem_cons] at hx
    rcases hx with rfl | hx
    · exact List.Sublist.refl _
    · rw [allStmt]; exact (sublist_stmts body hx).cons _
  | .edge src rhs as, hx => by
    simp only [allStmt, List.mem_cons, List.mem_append] at hx
    rcases hx with rfl | hx | hx
    · exact List.Sublist.refl _
    · rw [allStmt.eq_1]; exact ((sublist_loc src hx).trans (List.sublist_append_left _ _)).cons _
    · rw [allStmt.eq_1]; exact ((sublist_rhs rhs hx).trans (List.sublist_append_right _ _)).cons _
  | .node _ _, hx => by simp only [allStmt, List.mem_singleton] at hx; rw [hx]; exact List.Sublist.refl _
  | .nodeAttrs _, hx => by simp only [allStmt, List.mem_singleton] at hx; rw [hx]; exact List.Sublist.refl _
  | .edgeAttrs _, hx => by simp only [allStmt, List.mem_singleton] at hx; rw [hx]; exact List.Sublist.refl _
  | .graphAttrs _, hx => by simp only [allStmt, List.mem_singleton] at hx; rw [hx]; exact List.Sublist.refl _
  | .attr _, hx => by simp only [allStmt, List.mem_singleton] at hx; rw [hx]; exact List.Sublist.refl _
theorem sublist_loc {x : Stmt} : (l : Loc) → x ∈ allLoc l → (allStmt x).Sublist (allLoc l)
  | .node _, hx => by simp [allLoc] at hx
  | .sub id body, hx => by
    simp only [allLoc, List.mem_cons] at hx
    rcases hx with rfl | hx
    · rw [allStmt, allLoc]; exact List.Sublist.refl _
    · rw [allLoc]; exact (sublist_stmts body hx).cons _
theorem sublist_rhs {x : Stmt} : (l : List EdgeRH) → x ∈ allRHS l → (allStmt x).Sublist (allRHS l)
  | [], hx => by simp [allRHS] at hx
  | .mk op d :: rest, hx => by
    simp only [allRHS, List.mem_append] at hx
    rcases hx with hx | hx
    · rw [allRHS]; exact (sublist_loc d hx).trans (List.sublist_append_left _ _)
    · rw [allRHS]; exact (sublist_rhs rest hx).trans (List.sublist_append_right _ _)
theorem sublist_stmts {x : Stmt} : (ss : List Stmt) → x ∈ allStmts ss → (allStmt x).Sublist (allStmts ss)
  | [], hx => by simp [allStmts] at hx
  | s :: ss, hx => by
    simp only [allStmts, List.mem_append] at hx
    rcases hx with hx | hx
    · rw [allStmts]; exact (sublist_stmt s hx).trans (List.sublist_append_left _ _)
    · rw [allStmts]; exact (sublist_stmts ss hx).trans (List.sublist_append_right _ _)
end

end Size

/-- C77 is false of the code: there are documents of every size (here: at most `40 * (n + 2) ^ 3` bytes) that are read without error and written without error, and
the written document has `2 ^ n` subgraphs and as many bytes. A subgraph is written again for every way in which it is nested. -/
theorem C77_exponential (n : Nat) : ∃ src : Str, src.length ≤ 40 * (n + 2) ^ 3 ∧
    ∀ rnd cnt, ∃ g, Parse.read rnd cnt src = .ok g ∧ Acyclic g ∧ g.subGraphs.length = n + 1 ∧
      ∀ sortE, SortContract sortE → ∃ t, (∀ f, g.subGraphs.length < f → writeAst sortE f g = .ok t ∧ graphString sortE f g = .ok (Ast.graphStr t)) ∧
        2 ^ n ≤ (allStmts t.stmts).length ∧ 2 ^ n ≤ (Ast.graphStr t).length := by
  refine ⟨Ast.graphStr (aDoc (n + 1)), Size.aDoc_length (n + 1), fun rnd cnt => ?_⟩
  obtain ⟨g, hg⟩ := Size.aDoc_accepted (n + 1)
  have hA := Size.aDoc_graph hg
  obtain ⟨hr, _⟩ := analysed_effect hg
  refine ⟨g, by unfold Parse.read; rw [Size.aDoc_parse]; simp only [hg], hA.acyclic, ?_, fun sortE hsort => ?_⟩
  · have hp : (mkeys g.subGraphs).Perm ((List.range (n + 1)).map aName) := by
      apply (List.perm_ext_iff_of_nodup ?_ ?_).2
      · intro c
        rw [← mhas_iff]
        show g.isSubGraph c = true ↔ _
        rw [hA.subs]
        simp only [List.mem_map, List.mem_range]
        constructor
        · rintro ⟨j, hj, rfl⟩; exact ⟨j, hj, rfl⟩
        · rintro ⟨j, hj, rfl⟩; exact ⟨j, hj, rfl⟩
      · unfold mkeys List.Nodup
        rw [List.pairwise_map]
        exact List.Pairwise.imp (fun h => slt_ne h) hr.inv.subs.wf
      · unfold List.Nodup
        rw [List.pairwise_map]
        exact List.pairwise_lt_range.imp fun h => slt_ne (Size.aName_slt h)
    have := hp.length_eq
    simpa [mkeys] using this
  · obtain ⟨t, ht⟩ := C27_read_then_write hg (fun m _ ⟨m', _, hc⟩ => hA.acyclic m' hc) hsort
    have ht0 := ht _ (Nat.lt_succ_self _)
    have hd : NamesDisjoint g := fun m ⟨hm, _⟩ => by rw [hA.noNodes m] at hm; cases hm
    obtain ⟨b, hin, _⟩ := C20_root_subgraphs_written hr hd ht0 (n := aName n) ((hA.subs _).2 ⟨n, by omega, rfl⟩)
      (by rw [hA.name]; exact (hA.root _).2 ⟨n, by omega, rfl⟩)
    have hsz := hA.size hr (fun m b hin => C20_subgraphs_faithful hr ht0 hin) n (by omega) b hin
    have hle := (Size.sublist_stmts t.stmts hin).countP_le (p := Size.isSub)
    rw [hsz] at hle
    refine ⟨t, fun f hf => ⟨ht f hf, by unfold graphString; rw [ht f hf]⟩, Nat.le_trans hle (List.countP_le_length), ?_⟩
    have hne : ∀ x ∈ allStmts t.stmts, isEdgeStmt x = false := by
      intro x hx
      cases he : isEdgeStmt x with
      | false => rfl
      | true =>
        exfalso
        rcases written_inner hr ht0 x hx with ⟨_, hx'⟩ | h'
        · obtain ⟨es, ss, ns, hes, hss, hns, rfl⟩ := written_parts hr ht0
          have hnil : es = [] := by
            have h1 := hes.length
            rw [(hsort.perm _).length_eq, hA.noEdges] at h1
            cases es with
            | nil => rfl
            | cons => cases h1
          subst hnil
          simp only [List.mem_append] at hx'
          rcases hx' with ((hx' | hx') | hx') | hx'
          · obtain ⟨e, _, rfl⟩ := List.mem_map.1 hx'; cases he
          · cases hx'
          · obtain ⟨m, b, _, rfl, _⟩ := (rootSubsOf_ok hss).1 x hx'; cases he
          · obtain ⟨m, _, hn⟩ := hns.mem_right hx'
            obtain ⟨nd, hf, rfl⟩ := nodeStmtOf_ok hr.inv hn
            cases he
        · cases x with
          | edge => exact h'
          | _ => cases he
    have h1 := Size.long_stmts t.stmts hne (b!"\t")
    have h2 := Size.trimNL_ge (Ast.stmtsLines (b!"\t") t.stmts)
    have h3 : (Ast.stmtListStr (b!"\t") t.stmts).length + 1 ≤ (Ast.graphStr t).length := by
      unfold Ast.graphStr
      simp only [List.length_append, List.length_cons, List.length_nil]
      omega
    unfold Ast.stmtListStr at h3
    omega

namespace Size

/-! ### node statements -/

theorem countP_children_node {g : Graph} {n : Str} (hn : g.isNode n = true) {cs : List Str} {ss : List Stmt} (h : Forall2 (DirectChild g) cs ss) :
    ss.countP (isNodeStmtFor n) = cs.count n := by
  induction h with
  | nil => rfl
  | @cons c s cs ss h _ ih =>
    rw [List.countP_cons, ih, List.count_cons]
    congr 1
    cases s with
    | node id as =>
      obtain ⟨rfl, nd, hf, _⟩ := h
      simp [isNodeStmtFor]
    | sub id b =>
      obtain ⟨rfl, hc, _⟩ := h
      have : id ≠ n := by
        rintro rfl
        rw [hn] at hc; cases hc
      simp [isNodeStmtFor, this]
    | _ => exact absurd h (by simp [DirectChild])

theorem countP_body_node {g : Graph} (hi : GInv g) {n m : Str} (hn : g.isNode n = true) {body : List Stmt} (h : SubFaithful g m body) :
    body.countP (isNodeStmtFor n) = if mhas (g.relations.children m) n = true then 1 else 0 := by
  obtain ⟨sub, _, cs, rfl, hcs⟩ := h
  rw [List.countP_append, countP_attrs _ (fun _ => rfl), Nat.zero_add, countP_children_node hn hcs, (sortedChildren_nodup hi m).count]
  simp only [mem_sortedChildren]

mutual
theorem ncount_stmt {g : Graph} (hi : GInv g) {n : Str} (hn : g.isNode n = true) : (s : Stmt) → (∀ x ∈ allStmt s, InnerOk g x) →
    (allStmt s).countP (isNodeStmtFor n) = (if isNodeStmtFor n s = true then 1 else 0) + (allStmt s).countP (holds g n)
  | .sub id body, h => by
    have hb := ncount_stmts hi hn body fun x hx => h x (by simp [allStmt, hx])
    have h0 := countP_body_node hi (n := n) (m := id) hn (h (.sub id body) (by simp [allStmt]))
    simp only [allStmt, List.countP_cons]
    have e : (if holds g n (.sub id body) = true then 1 else 0) = if mhas (g.relations.children id) n = true then 1 else 0 := rfl
    rw [hb, h0, e]
    omega
  | .edge _ _ _, h => absurd (h _ (self_mem_allStmt _)) (by simp [InnerOk])
  | .node id as, _ => by simp [allStmt, holds, List.countP_cons]
  | .nodeAttrs _, _ => rfl
  | .edgeAttrs _, _ => rfl
  | .graphAttrs _, _ => rfl
  | .attr _, _ => rfl
theorem ncount_stmts {g : Graph} (hi : GInv g) {n : Str} (hn : g.isNode n = true) : (ss : List Stmt) → (∀ x ∈ allStmts ss, InnerOk g x) →
    (allStmts ss).countP (isNodeStmtFor n) = ss.countP (isNodeStmtFor n) + (allStmts ss).countP (holds g n)
  | [], _ => rfl
  | s :: ss, h => by
    have h1 := ncount_stmt hi hn s fun x hx => h x (by simp [allStmts, hx])
    have h2 := ncount_stmts hi hn ss fun x hx => h x (by simp [allStmts, hx])
    simp only [allStmts, List.countP_append, List.countP_cons]
    omega
end

theorem ncount_loc {g : Graph} (hi : GInv g) {n : Str} (hn : g.isNode n = true) (l : Loc) (h : ∀ x ∈ allLoc l, InnerOk g x) :
    (allLoc l).countP (isNodeStmtFor n) = (allLoc l).countP (holds g n) := by
  cases l with
  | node => rfl
  | sub id body =>
    have := ncount_stmt hi hn (.sub id body) h
    simpa [isNodeStmtFor, allStmt, allLoc] using this

end Size

/-- C77. A node is stated as often as the document states it at the top plus once for every time a subgraph that contains it is written. -/
theorem C77_node_count {g : Graph} (h : Reachable g) {sortE : List Edge → List Edge} {f : Nat} {t : Ast.Graph}
    (ht : writeAst sortE f g = .ok t) {n : Str} (hn : g.isNode n = true) :
    (allStmts t.stmts).countP (isNodeStmtFor n) = t.stmts.countP (isNodeStmtFor n) + (allStmts t.stmts).countP (holds g n) := by
  have hall := Size.topOk h ht
  revert hall
  generalize t.stmts = ss
  intro hall
  induction ss with
  | nil => rfl
  | cons s ss ih =>
    have h1 : (allStmt s).countP (isNodeStmtFor n) = (if isNodeStmtFor n s = true then 1 else 0) + (allStmt s).countP (holds g n) := by
      cases hall s (List.mem_cons_self ..) with
      | inner h' => exact Size.ncount_stmt h.inv hn s h'
      | edge h1 h2 =>
        have h1 := Size.ncount_loc h.inv hn _ h1
        have h2 := Size.ncount_loc h.inv hn _ h2
        simp only [allStmt, allRHS, List.append_nil, List.countP_cons, List.countP_append, h1, h2, isNodeStmtFor, holds]
        simp
    have h2 := ih fun x hx => hall x (List.mem_cons_of_mem _ hx)
    simp only [allStmts, List.countP_append, List.countP_cons]
    omega

/-! ### examples -/

/-- Three subgraphs in a tree, and an edge to a cluster. -/
def treeOps : List Op := [.setName (b!"G"), .addSubGraph (b!"G") (b!"cluster_a") [(b!"label", b!"x")], .addSubGraph (b!"cluster_a") (b!"B") [],
  .addSubGraph (b!"G") (b!"C") [], .addNode (b!"B") (b!"n") [], .addNode (b!"C") (b!"n") [], .addNode (b!"G") (b!"m") [], .addEdge (b!"m") (b!"cluster_a") false []]

/-- The hypotheses of `C77_once_partial` and `C77_linear_partial` are met by a graph with nested subgraphs, a node in two of them and an edge to a cluster. -/
theorem example_size : ∃ g t, Reachable g ∧ NamesDisjoint g ∧ SubTree g ∧ writeAst edgeInsertionSort 4 g = .ok t ∧
    (allStmts t.stmts).length = 8 ∧ graphSize g = 10 ∧ (allStmts t.stmts).countP (isNodeStmtFor (b!"n")) = 2 ∧ (allStmts t.stmts).countP (isSubFor (b!"B")) = 1 := by
  refine ⟨newGraph.run treeOps, _, Reachable.init.run (by decide +kernel), ?_, ⟨?_, by decide +kernel, ?_⟩, rfl, by decide +kernel, by decide +kernel,
    by decide +kernel, by decide +kernel⟩
  · rintro n ⟨h1, h2⟩
    have := (mhas_iff _ _).1 h1
    have hk : ∀ n ∈ mkeys (newGraph.run treeOps).nodes.lookup, (newGraph.run treeOps).isSubGraph n = false := by decide +kernel
    rw [hk n this] at h2
    cases h2
  · intro n p q hn hp hq
    have hk : ∀ n ∈ mkeys (newGraph.run treeOps).subGraphs, ∀ e ∈ (newGraph.run treeOps).relations.parentToChildren, mhas e.2 n = true →
        ∀ e' ∈ (newGraph.run treeOps).relations.parentToChildren, mhas e'.2 n = true → e.1 = e'.1 := by decide +kernel
    have hex : ∀ p, mhas ((newGraph.run treeOps).relations.children p) n = true →
        ∃ i, (p, i) ∈ (newGraph.run treeOps).relations.parentToChildren ∧ mhas i n = true := by
      intro p hp
      unfold Relations.children at hp
      cases hm : mget (newGraph.run treeOps).relations.parentToChildren p with
      | none => rw [hm] at hp; cases hp
      | some i => rw [hm] at hp; exact ⟨i, mem_of_mget hm, hp⟩
    obtain ⟨i, h1, h2⟩ := hex p hp
    obtain ⟨j, h3, h4⟩ := hex q hq
    exact hk n ((mhas_iff _ _).1 hn) _ h1 h2 _ h3 h4
  · have hk : ∀ e ∈ (newGraph.run treeOps).edges.edges,
        (((newGraph.run treeOps).isNode e.src = true ∨ (newGraph.run treeOps).isClusterSubGraph e.src = true)) ∧
        (((newGraph.run treeOps).isNode e.dst = true ∨ (newGraph.run treeOps).isClusterSubGraph e.dst = true)) := by decide +kernel
    rintro e he n (rfl | rfl) _
    · exact (hk e he).1
    · exact (hk e he).2

/-- Calls that put a subgraph `inner` both in the graph and in the subgraph `outer` of the graph. -/
def twiceOps (outer inner : Str) : List Op := [.setName (b!"G"), .addSubGraph (b!"G") outer [], .addSubGraph (b!"G") inner [], .addSubGraph outer inner []]

/-- C77. Whether a subgraph that is in the graph and in another subgraph is written once or twice depends on the alphabetic order of the two names. -/
theorem C77_alphabet :
    (∃ t, writeAst edgeInsertionSort 4 (newGraph.run (twiceOps (b!"A") (b!"B"))) = .ok t ∧ (allStmts t.stmts).countP (isSubFor (b!"B")) = 1) ∧
    (∃ t, writeAst edgeInsertionSort 4 (newGraph.run (twiceOps (b!"B") (b!"A"))) = .ok t ∧ (allStmts t.stmts).countP (isSubFor (b!"A")) = 2) ∧
    OkHistory newGraph (twiceOps (b!"A") (b!"B")) ∧ OkHistory newGraph (twiceOps (b!"B") (b!"A")) :=
  ⟨⟨_, rfl, by decide +kernel⟩, ⟨_, rfl, by decide +kernel⟩, by decide +kernel, by decide +kernel⟩

/-- The document of the family for three subgraphs. -/
theorem example_aDoc : Ast.graphStr (aDoc 3) =
    b!"digraph G {\n\tsubgraph a {\n\n\t};\n\tsubgraph aa {\n\t\tsubgraph a {\n\n\t\t};\n\t};\n\tsubgraph aaa {\n\t\tsubgraph a {\n\n\t\t};\n\t\tsubgraph aa {\n\n\t\t};\n\t};\n}\n" := by
  decide +kernel

end Gographviz.Props
