import Verif.Proofs.WriteMem
/-!
The writer on a graph in memory.
-/
namespace Gographviz.Threads

open Gographviz Gographviz.Heap
open Gographviz.Ast (Stmt)

variable {ι : Type} [DecidableEq ι] {α β : Type}

/-- Graph number `n` of the memory `W0` has the contents `g` (`E` gives the edge at an address). -/
structure GraphAt (W0 : World) (n : Nat) (h : HGraph) (E : Nat → Edge) (g : Graph) : Prop where
  graph : W0 (.graph n) = some (.graph h)
  name : g.name = h.name
  directed : g.directed = h.directed
  strict : g.strict = h.strict
  relations : g.relations = h.relations
  attrs : W0 (.map h.attrs) = some (.map g.attrs)
  lookupKeys : mkeys g.nodes.lookup = mkeys h.lookup
  nodes : ∀ k p, mget h.lookup k = some p → ∃ o as, W0 (.node p) = some (.node o) ∧ W0 (.map o.attrs) = some (.map as) ∧ MapWF as ∧ g.nodes.find k = some ⟨o.name, as⟩
  edges : ∀ p ∈ h.edges, EdgeAt W0 p (E p)
  edgeList : g.edges.edges = h.edges.map E
  subKeys : mkeys g.subGraphs = mkeys h.subGraphs
  subs : ∀ k p, mget h.subGraphs k = some p → ∃ o as, W0 (.sub p) = some (.sub o) ∧ W0 (.map o.attrs) = some (.map as) ∧ mget g.subGraphs k = some ⟨as, o.name⟩

/-- The result is the one of the model, and so are the written locations (if there is no error). -/
def SetRes (i : ι) (r : Nat) (m : WRes (α × Written)) (res : WRes α) (s : GS ι) : Prop :=
  match m with
  | .ok (a, w) => res = .ok a ∧ Own i s (.set r) (.set w)
  | .err e => res = .err e
  | .panic => res = .panic
  | .diverge => res = .diverge

/-- The set `r` may change. -/
abbrev JustSet (r : Nat) : Loc → Prop := fun x => x = .set r

theorem mhas_keys {α β : Type} {m : Map α} {m' : Map β} (h : mkeys m = mkeys m') (k : Str) : mhas m k = mhas m' k := by
  rw [Bool.eq_iff_iff, mhas_iff, mhas_iff, h]

theorem mget_keys {α β : Type} {m : Map α} {m' : Map β} (h : mkeys m = mkeys m') {k : Str} (hn : mget m' k = none) : mget m k = none := by
  rw [mget_eq_none_iff, h, ← mget_eq_none_iff]; exact hn

section
variable {i : ι} {W0 : World} {r : Nat} {s : GS ι}

theorem SetRes.ret {m : WRes (α × Written)} {res : WRes α} (hs : Sh W0 s) (h : SetRes i r m res s) : Runs i W0 (JustSet r) s (.ret res) (SetRes i r m) := by
  refine Runs.ret hs fun s1 hk => ?_
  unfold SetRes at *
  split at h
  · exact ⟨h.1, h.2.keep hk⟩
  · exact h
  · exact h
  · exact h

theorem SetRes.bind {m : WRes (β × Written)} {F : β × Written → WRes (α × Written)} {p : Prog β} {f : β → Prog α} (h : Runs i W0 (JustSet r) s p (SetRes i r m))
    (hf : ∀ a w s', m = .ok (a, w) → Sh W0 s' → Own i s' (.set r) (.set w) → Runs i W0 (JustSet r) s' (f a) (SetRes i r (F (a, w)))) :
    Runs i W0 (JustSet r) s (p.bind f) (SetRes i r (m.bind F)) := by
  refine Runs.bind h ?_ ?_
  · intro a s' hs' _ hR
    cases m with
    | ok x =>
      obtain ⟨a', w⟩ := x
      obtain ⟨h1, h2⟩ := hR
      cases h1
      exact hf a w s' rfl hs' h2
    | err e => cases hR
    | panic => cases hR
    | diverge => cases hR
  · intro res res' s' hF hR
    cases m with
    | ok x =>
      obtain ⟨a', w⟩ := x
      obtain ⟨h1, h2⟩ := hR
      subst h1
      cases hF
    | err e => cases hR; cases hF; rfl
    | panic => cases hR; cases hF; rfl
    | diverge => cases hR; cases hF; rfl

/-- A program that does not change the set. -/
theorem SetRes.of_gives {p : Prog β} {f : β → Prog α} {a : β} {w : Written} {m : WRes (α × Written)} (ho : Own i s (.set r) (.set w)) (h : Gives i W0 No s p (.ok a))
    (hf : ∀ s', Sh W0 s' → Own i s' (.set r) (.set w) → Runs i W0 (JustSet r) s' (f a) (SetRes i r m)) :
    Runs i W0 (JustSet r) s (p.bind f) (SetRes i r m) := by
  refine Runs.bind_sub h (fun _ h => h.elim) ?_ ?_
  · intro a' s' hs' hp hR
    cases hR
    exact hf s' hs' (hp _ _ ho id)
  · rintro _ _ _ hF rfl
    cases hF

end

theorem attrListM_gives {i : ι} {W0 : World} {X : Loc → Prop} {s : GS ι} (hs : Sh W0 s) {a : Nat} {src : Map Str} (ha : W0 (.map a) = some (.map src)) (hsrc : MapWF src) :
    Gives i W0 X s (attrListM a) (.ok (Ast.putMap (attrsCopy src))) :=
  copyMap_runs hs ha hsrc fun _ _ _ hs1 _ ho => putMapM_gives hs1 (.inr ho)

section
variable {i : ι} {W0 : World} {n : Nat} {h : HGraph} {E : Nat → Edge} {g : Graph} (hg : GraphAt W0 n h E g)
include hg

section
variable {X : Loc → Prop} {s : GS ι} (hs : Sh W0 s)
include hs

theorem isNodeM_gives (k : Str) : Gives i W0 X s (isNodeM n k) (.ok (g.isNode k)) := by
  refine Runs.read_shared hs hg.graph fun s1 hs1 _ => ?_
  unfold Graph.isNode
  rw [mhas_keys hg.lookupKeys]
  exact Gives.ret hs1 _

theorem isSubGraphM_gives (k : Str) : Gives i W0 X s (isSubGraphM n k) (.ok (g.isSubGraph k)) := by
  refine Runs.read_shared hs hg.graph fun s1 hs1 _ => ?_
  unfold Graph.isSubGraph
  rw [mhas_keys hg.subKeys]
  exact Gives.ret hs1 _

theorem isClusterM_gives (k : Str) : Gives i W0 X s (isClusterM n k) (.ok (g.isClusterSubGraph k)) :=
  Gives.bind (isSubGraphM_gives hg hs k) fun _ hs1 _ => Gives.ret hs1 _

theorem sortedChildrenM_gives (k : Str) : Gives i W0 X s (sortedChildrenM n k) (.ok (g.relations.sortedChildren k)) := by
  refine Runs.read_shared hs hg.graph fun s1 hs1 _ => Runs.order hs1 fun s2 ks hks hs2 _ => ?_
  unfold Relations.sortedChildren
  rw [hg.relations, ← ssort_unique hks]
  exact Gives.ret hs2 _

theorem nodesSortedM_gives : Gives i W0 X s (nodesSortedM n) (.ok ((ssort (mkeys g.nodes.lookup)).map (mget h.lookup))) := by
  refine Runs.read_shared hs hg.graph fun s1 hs1 _ => Runs.order hs1 fun s2 ks hks hs2 _ => Runs.read_shared hs2 hg.graph fun s3 hs3 _ => ?_
  rw [hg.lookupKeys, ← ssort_unique hks]
  exact Gives.ret hs3 _

theorem subGraphsSortedM_gives : Gives i W0 X s (subGraphsSortedM n) (.ok ((ssort (mkeys g.subGraphs)).map (mget h.subGraphs))) := by
  refine Runs.read_shared hs hg.graph fun s1 hs1 _ => Runs.order hs1 fun s2 ks hks hs2 _ => Runs.read_shared hs2 hg.graph fun s3 hs3 _ => ?_
  rw [hg.subKeys, ← ssort_unique hks]
  exact Gives.ret hs3 _

end

variable {r : Nat} {s : GS ι} (hs : Sh W0 s) {w : Written} (ho : Own i s (.set r) (.set w))
include hs ho

theorem newNodeStmtM_runs (k : Str) : Runs i W0 (JustSet r) s (newNodeStmtM n r k) (SetRes i r (newNodeStmt g w k)) := by
  refine Runs.read_shared hs hg.graph fun s1 hs1 h1 => ?_
  show Runs i W0 (JustSet r) s1 (Prog.bind (match mget h.lookup k with
    | some p => getNode p
    | none => .ret .panic) _) _
  unfold newNodeStmt
  cases hk : mget h.lookup k with
  | none =>
    have : g.nodes.find k = none := by
      unfold Nodes.find
      rw [mget_keys hg.lookupKeys hk]; rfl
    rw [this]
    exact SetRes.ret hs1 rfl
  | some p =>
    obtain ⟨o, as, h2, h3, h4, h5⟩ := hg.nodes k p hk
    rw [h5]
    refine Runs.read_shared hs1 h2 fun s2 hs2 h6 => ?_
    show Runs i W0 (JustSet r) s2 ((setAdd r o.name).bind fun _ => (attrListM o.attrs).bind fun as => .pure (Stmt.node (Ast.makeNodeID o.name []) as)) _
    refine setAdd_runs (X := JustSet r) hs2 ((ho.keep h1).keep h6) rfl o.name fun s3 hs3 ho3 => ?_
    exact SetRes.of_gives ho3 (attrListM_gives hs3 h3 h4) fun s4 hs4 ho4 => SetRes.ret hs4 ⟨rfl, ho4⟩

omit hs ho in
/-- What a subgraph function has to do. -/
def SubOk (i : ι) (W0 : World) (r : Nat) (p : Str → Prog (Str × List Stmt)) (f : Written → Str → WRes ((Str × List Stmt) × Written)) : Prop :=
  ∀ (s : GS ι) (w : Written) (k : Str), Sh W0 s → Own i s (.set r) (.set w) → Runs i W0 (JustSet r) s (p k) (SetRes i r (f w k))

theorem childLoopM_runs {p : Str → Prog (Str × List Stmt)} {f : Written → Str → WRes ((Str × List Stmt) × Written)} (hf : SubOk i W0 r p f) (cs : List Str) :
    Runs i W0 (JustSet r) s (childLoopM n r p cs) (SetRes i r (childLoop g f w cs)) := by
  induction cs generalizing s w with
  | nil => exact SetRes.ret hs ⟨rfl, ho⟩
  | cons c cs ih =>
    unfold childLoopM childLoop
    refine SetRes.bind ?_ fun a w1 s1 _ hs1 ho1 => SetRes.bind (ih hs1 ho1) fun b w2 s2 _ hs2 ho2 => SetRes.ret hs2 ⟨rfl, ho2⟩
    refine SetRes.of_gives ho (isNodeM_gives hg hs c) fun s1 hs1 ho1 => ?_
    cases g.isNode c with
    | true => exact newNodeStmtM_runs hg hs1 ho1 c
    | false =>
      refine SetRes.of_gives ho1 (isSubGraphM_gives hg hs1 c) fun s2 hs2 ho2 => ?_
      cases g.isSubGraph c with
      | true => exact SetRes.bind (hf s2 w c hs2 ho2) fun a w1 s3 _ hs3 ho3 => SetRes.ret hs3 ⟨rfl, ho3⟩
      | false => exact SetRes.ret hs2 rfl

omit hs ho in
theorem newSubGraphM_ok (fuel : Nat) : SubOk i W0 r (newSubGraphM n r fuel) (newSubGraph g fuel) := by
  induction fuel with
  | zero => exact fun s w k hs ho => SetRes.ret hs rfl
  | succ fuel ih =>
    intro s w k hs ho
    refine Runs.read_shared hs hg.graph fun s1 hs1 h1 => ?_
    show Runs i W0 (JustSet r) s1 (match mget h.subGraphs k with
      | none => .ret .panic
      | some p => (getSub p).bind fun sub => (setAdd r sub.name).bind fun _ => (attrStmtsM sub.attrs).bind fun as => (sortedChildrenM n k).bind fun cs =>
          (childLoopM n r (newSubGraphM n r fuel) cs).bind fun ss => .pure (sub.name, as ++ ss)) _
    simp only [newSubGraph]
    cases hk : mget h.subGraphs k with
    | none =>
      rw [mget_keys hg.subKeys hk]
      exact SetRes.ret hs1 rfl
    | some p =>
      obtain ⟨o, as, h2, h3, h5⟩ := hg.subs k p hk
      rw [h5]
      refine Runs.read_shared hs1 h2 fun s2 hs2 h6 => ?_
      refine setAdd_runs (X := JustSet r) hs2 ((ho.keep h1).keep h6) rfl o.name fun s3 hs3 ho3 => ?_
      refine SetRes.of_gives ho3 (attrStmtsM_gives hs3 (.inl h3)) fun s4 hs4 ho4 => ?_
      refine SetRes.of_gives ho4 (sortedChildrenM_gives hg hs4 k) fun s5 hs5 ho5 => ?_
      exact SetRes.bind (childLoopM_runs hg hs5 ho5 ih _) fun a w1 s6 _ hs6 ho6 => SetRes.ret hs6 ⟨rfl, ho6⟩

theorem newLocationM_runs (fuel : Nat) (k port : Str) : Runs i W0 (JustSet r) s (newLocationM n r fuel k port) (SetRes i r (newLocation g fuel w k port)) := by
  unfold newLocationM newLocation
  refine SetRes.of_gives ho (isNodeM_gives hg hs k) fun s1 hs1 ho1 => ?_
  cases hb : g.isNode k with
  | true =>
    have hb2 : mhas h.lookup k = true := by rw [← mhas_keys hg.lookupKeys]; exact hb
    obtain ⟨p, hp⟩ := (mhas_iff_mget _ _).1 hb2
    obtain ⟨o, as, h2, h3, h4, h5⟩ := hg.nodes k p hp
    simp only [if_true, newNodeID, h5]
    refine Runs.read_shared hs1 hg.graph fun s2 hs2 h6 => ?_
    show Runs i W0 (JustSet r) s2 (Prog.bind (match mget h.lookup k with
      | some p => getNode p
      | none => .ret .panic) _) _
    rw [hp]
    exact Runs.read_shared hs2 h2 fun s3 hs3 h7 => SetRes.ret hs3 ⟨rfl, (ho1.keep h6).keep h7⟩
  | false =>
    refine SetRes.of_gives ho1 (isClusterM_gives hg hs1 k) fun s2 hs2 ho2 => ?_
    cases g.isClusterSubGraph k with
    | true =>
      simp only [Bool.false_eq_true, if_true, if_false]
      split
      · exact SetRes.ret hs2 rfl
      · exact SetRes.ret hs2 ⟨rfl, ho2⟩
    | false =>
      refine SetRes.of_gives ho2 (isSubGraphM_gives hg hs2 k) fun s3 hs3 ho3 => ?_
      cases g.isSubGraph k with
      | true =>
        simp only [Bool.false_eq_true, if_true, if_false]
        split
        · exact SetRes.ret hs3 rfl
        · exact SetRes.bind (newSubGraphM_ok hg fuel s3 w k hs3 ho3) fun a w1 s4 _ hs4 ho4 => SetRes.ret hs4 ⟨rfl, ho4⟩
      | false => exact SetRes.ret hs3 rfl

theorem newEdgeStmtM_runs (fuel : Nat) {p : Nat} (hp : p ∈ h.edges) : Runs i W0 (JustSet r) s (newEdgeStmtM n r fuel p) (SetRes i r (newEdgeStmt g fuel w (E p))) := by
  obtain ⟨o, as, h1, h2, h3, h4⟩ := hg.edges p hp
  rw [h4]
  refine Runs.read_shared hs h1 fun s1 hs1 h5 => ?_
  unfold newEdgeStmt
  refine SetRes.bind (newLocationM_runs hg hs1 (ho.keep h5) fuel _ _) fun a w1 s2 _ hs2 ho2 => ?_
  refine SetRes.bind (newLocationM_runs hg hs2 ho2 fuel _ _) fun b w2 s3 _ hs3 ho3 => ?_
  exact SetRes.of_gives ho3 (attrListM_gives hs3 h2 h3) fun s4 hs4 ho4 => SetRes.ret hs4 ⟨rfl, ho4⟩

theorem edgeStmtsM_runs (fuel : Nat) (ps : List Nat) (hp : ∀ p ∈ ps, p ∈ h.edges) :
    Runs i W0 (JustSet r) s (edgeStmtsM n r fuel ps) (SetRes i r (edgeStmts g fuel w (ps.map E))) := by
  induction ps generalizing s w with
  | nil => exact SetRes.ret hs ⟨rfl, ho⟩
  | cons p ps ih =>
    simp only [List.map_cons, edgeStmts]
    refine SetRes.bind (newEdgeStmtM_runs hg hs ho fuel (hp p (by simp))) fun a w1 s1 _ hs1 ho1 => ?_
    exact SetRes.bind (ih hs1 ho1 fun q hq => hp q (List.mem_cons_of_mem _ hq)) fun b w2 s2 _ hs2 ho2 => SetRes.ret hs2 ⟨rfl, ho2⟩

theorem rootSubsM_runs (fuel : Nat) (ks : List Str) :
    Runs i W0 (JustSet r) s (rootSubsM n r fuel (ks.map (mget h.subGraphs))) (SetRes i r (rootSubs g fuel w (ks.map (mget g.subGraphs)))) := by
  induction ks generalizing s w with
  | nil => exact SetRes.ret hs ⟨rfl, ho⟩
  | cons k ks ih =>
    simp only [List.map_cons]
    cases hk : mget h.subGraphs k with
    | none =>
      rw [mget_keys hg.subKeys hk]
      exact SetRes.ret hs rfl
    | some p =>
      obtain ⟨o, as, h2, h3, h5⟩ := hg.subs k p hk
      rw [h5]
      refine Runs.read_shared hs h2 fun s1 hs1 h6 => Runs.read_own hs1 (ho.keep h6) fun s2 hs2 h7 => Runs.read_shared hs2 hg.graph fun s3 hs3 h8 => ?_
      have ho3 := ((ho.keep h6).keep h7).keep h8
      simp only [rootSubs, hg.relations, hg.name]
      show Runs i W0 (JustSet r) s3 (if !mhas w o.name && mhas (h.relations.children h.name) o.name then
        (newSubGraphM n r fuel o.name).bind fun x => (rootSubsM n r fuel (ks.map (mget h.subGraphs))).bind fun xs => .pure (.sub x.1 x.2 :: xs)
        else rootSubsM n r fuel (ks.map (mget h.subGraphs))) _
      split
      · refine SetRes.bind (newSubGraphM_ok hg fuel s3 w _ hs3 ho3) fun a w1 s4 _ hs4 ho4 => ?_
        exact SetRes.bind (ih hs4 ho4) fun b w2 s5 _ hs5 ho5 => SetRes.ret hs5 ⟨rfl, ho5⟩
      · exact ih hs3 ho3

theorem rootNodesM_runs (ks : List Str) :
    Runs i W0 (JustSet r) s (rootNodesM n r (ks.map (mget h.lookup))) (SetRes i r (rootNodes g w (ks.map g.nodes.find))) := by
  induction ks generalizing s w with
  | nil => exact SetRes.ret hs ⟨rfl, ho⟩
  | cons k ks ih =>
    simp only [List.map_cons]
    cases hk : mget h.lookup k with
    | none =>
      have : g.nodes.find k = none := by
        unfold Nodes.find
        rw [mget_keys hg.lookupKeys hk]; rfl
      rw [this]
      exact SetRes.ret hs rfl
    | some p =>
      obtain ⟨o, as, h2, h3, h4, h5⟩ := hg.nodes k p hk
      rw [h5]
      refine Runs.read_shared hs h2 fun s1 hs1 h6 => Runs.read_own hs1 (ho.keep h6) fun s2 hs2 h7 => ?_
      have ho2 := (ho.keep h6).keep h7
      simp only [rootNodes]
      show Runs i W0 (JustSet r) s2 (if !mhas w o.name then
        (newNodeStmtM n r o.name).bind fun x => (rootNodesM n r (ks.map (mget h.lookup))).bind fun xs => .pure (x :: xs)
        else rootNodesM n r (ks.map (mget h.lookup))) _
      split
      · refine SetRes.bind (newNodeStmtM_runs hg hs2 ho2 _) fun a w1 s4 _ hs4 ho4 => ?_
        exact SetRes.bind (ih hs4 ho4) fun b w2 s5 _ hs5 ho5 => SetRes.ret hs5 ⟨rfl, ho5⟩
      · exact ih hs2 ho2

omit ho in
/-- `WriteAst` of a graph that nobody changes. -/
theorem writeAstM_gives {sorter : Nat → SortTree} (fuel : Nat) {ps' : List Nat}
    (ht : (sorter h.edges.length).run (fun p q => edgeLess (E p) (E q)) h.edges = some ps') (hps : ∀ p ∈ ps', p ∈ h.edges)
    {sortE : List Edge → List Edge} (hsort : sortE g.edges.edges = ps'.map E) :
    Gives i W0 No s (writeAstM sorter fuel n) (writeAst sortE fuel g) := by
  refine Runs.alloc hs fun r s1 hfr hw hs1 hp ho => ?_
  let tree (es ss ns : List Stmt) : Ast.Graph := { type_ := g.directed, strict := g.strict, id := g.name, stmts := attrStmts g.attrs ++ es ++ ss ++ ns }
  refine Runs.mono (X := JustSet r) (R := SetRes i r ((edgeStmts g fuel [] (ps'.map E)).bind fun es =>
      (rootSubs g fuel es.2 ((ssort (mkeys g.subGraphs)).map (mget g.subGraphs))).bind fun ss =>
      (rootNodes g ss.2 ((ssort (mkeys g.nodes.lookup)).map g.nodes.find)).bind fun ns => .ok (tree es.1 ss.1 ns.1, ns.2))) ?_ (fun l h => .inr h) ?_
  · refine Runs.read_shared hs1 hg.graph fun s2 hs2 h2 => ?_
    show Runs i W0 (JustSet r) s2 ((attrStmtsM h.attrs).bind fun as => (edgesSortedM sorter n).bind fun es => (edgeStmtsM n r fuel es).bind fun es =>
      (subGraphsSortedM n).bind fun subs => (rootSubsM n r fuel subs).bind fun ss => (nodesSortedM n).bind fun nodes => (rootNodesM n r nodes).bind fun ns =>
      .pure ({ type_ := h.directed, strict := h.strict, id := h.name, stmts := as ++ es ++ ss ++ ns } : Ast.Graph)) _
    refine SetRes.of_gives (ho.keep h2) (attrStmtsM_gives hs2 (.inl hg.attrs)) fun s3 hs3 ho3 => ?_
    refine SetRes.of_gives ho3 (edgesSortedM_gives hs3 hg.graph E hg.edges ht) fun s4 hs4 ho4 => ?_
    refine SetRes.bind (edgeStmtsM_runs hg hs4 ho4 fuel ps' hps) fun es w1 s5 _ hs5 ho5 => ?_
    refine SetRes.of_gives ho5 (subGraphsSortedM_gives hg hs5) fun s6 hs6 ho6 => ?_
    refine SetRes.bind (rootSubsM_runs hg hs6 ho6 fuel _) fun ss w2 s7 _ hs7 ho7 => ?_
    refine SetRes.of_gives ho7 (nodesSortedM_gives hg hs7) fun s8 hs8 ho8 => ?_
    refine SetRes.bind (rootNodesM_runs hg hs8 ho8 _) fun ns w3 s9 _ hs9 ho9 => ?_
    refine SetRes.ret hs9 ⟨?_, ho9⟩
    simp only [tree, hg.directed, hg.strict, hg.name]
  · intro res s' hR
    have e : writeAst sortE fuel g = ((edgeStmts g fuel [] (ps'.map E)).bind fun es =>
      (rootSubs g fuel es.2 ((ssort (mkeys g.subGraphs)).map (mget g.subGraphs))).bind fun ss =>
      (rootNodes g ss.2 ((ssort (mkeys g.nodes.lookup)).map g.nodes.find)).bind fun ns => .ok (tree es.1 ss.1 ns.1)) := by
      unfold writeAst
      rw [hsort]; rfl
    rw [e]
    cases h1 : edgeStmts g fuel [] (ps'.map E) with
    | err e => rw [h1] at hR; exact hR
    | panic => rw [h1] at hR; exact hR
    | diverge => rw [h1] at hR; exact hR
    | ok es =>
      rw [h1] at hR
      simp only [WRes.bind] at hR ⊢
      cases h2 : rootSubs g fuel es.2 ((ssort (mkeys g.subGraphs)).map (mget g.subGraphs)) with
      | err e => rw [h2] at hR; exact hR
      | panic => rw [h2] at hR; exact hR
      | diverge => rw [h2] at hR; exact hR
      | ok ss =>
        rw [h2] at hR
        simp only at hR ⊢
        cases h3 : rootNodes g ss.2 ((ssort (mkeys g.nodes.lookup)).map g.nodes.find) with
        | err e => rw [h3] at hR; exact hR
        | panic => rw [h3] at hR; exact hR
        | diverge => rw [h3] at hR; exact hR
        | ok ns =>
          rw [h3] at hR
          exact hR.1

end

end Gographviz.Threads
