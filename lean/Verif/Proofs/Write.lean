import Verif.Proofs.Graph
import Verif.Proofs.EdgeOrder
import Verif.Model.Write
import Verif.Spec.AstView
/-!
The writer, with the set of written locations factored out.
-/
namespace Gographviz

open Spec
open Ast (Stmt Loc EdgeRH)

variable {α β γ : Type}

@[simp] theorem WRes.bind_ok (a : α) (f : α → WRes β) : (WRes.ok a).bind f = f a := rfl
@[simp] theorem WRes.bind_err (e : Err) (f : α → WRes β) : (WRes.err e).bind f = .err e := rfl
@[simp] theorem WRes.bind_panic (f : α → WRes β) : (WRes.panic).bind f = .panic := rfl
@[simp] theorem WRes.bind_diverge (f : α → WRes β) : (WRes.diverge).bind f = .diverge := rfl

theorem WRes.bind_assoc (r : WRes α) (f : α → WRes β) (h : β → WRes γ) :
    (r.bind f).bind h = r.bind fun a => (f a).bind h := by
  cases r <;> rfl

theorem WRes.bind_eq_ok {r : WRes α} {f : α → WRes β} {b : β} : r.bind f = .ok b ↔ ∃ a, r = .ok a ∧ f a = .ok b := by
  cases r <;> simp

/-- Running a function over a list, stopping at the first failure. -/
def mapW (f : α → WRes β) : List α → WRes (List β)
  | [] => .ok []
  | a :: as => (f a).bind fun b => (mapW f as).bind fun bs => .ok (b :: bs)

theorem mapW_ok {f : α → WRes β} {l : List α} {l' : List β} : mapW f l = .ok l' ↔ Forall2 (fun a b => f a = .ok b) l l' := by
  induction l generalizing l' with
  | nil =>
    simp only [mapW]
    constructor
    · intro h; cases h; exact .nil
    · intro h; cases h; rfl
  | cons a as ih =>
    simp only [mapW, WRes.bind_eq_ok]
    constructor
    · rintro ⟨b, hb, bs, hbs, h⟩
      cases h
      exact .cons hb (ih.1 hbs)
    · intro h
      cases h with
      | cons h1 h2 => exact ⟨_, h1, _, ih.2 h2, rfl⟩

/-! ### writing without the set of written locations -/

/-- The node statement of a node. -/
def nodeStmtOf (g : Graph) (c : Str) : WRes Stmt :=
  match g.nodes.find c with
  | none => .panic
  | some nd => .ok (.node ⟨c, ⟨[], []⟩⟩ (Ast.putMap (attrsCopy nd.attrs)))

/-- The statement for a child of a subgraph. -/
def childOf (g : Graph) (rec_ : Str → WRes (List Stmt)) (c : Str) : WRes Stmt :=
  if g.isNode c then nodeStmtOf g c
  else if g.isSubGraph c then (rec_ c).bind fun b => .ok (.sub c b)
  else .err (.notNodeOrSubGraph c)

/-- The statements of a subgraph. -/
def subBody (g : Graph) : Nat → Str → WRes (List Stmt)
  | 0, _ => .diverge
  | f + 1, n => match mget g.subGraphs n with
    | none => .panic
    | some sub => (mapW (childOf g (subBody g f)) (g.relations.sortedChildren n)).bind fun cs =>
        .ok (attrStmts sub.attrs ++ cs)

mutual
/-- The names that writing this statement marks as written. -/
def marks : Stmt → List Str
  | .node id _ => [id.id]
  | .sub id body => id :: marksL body
  | .edge src rhs _ => marksLoc src ++ marksRHS rhs
  | .nodeAttrs _ => []
  | .edgeAttrs _ => []
  | .graphAttrs _ => []
  | .attr _ => []
/-- Marks of an edge endpoint. -/
def marksLoc : Loc → List Str
  | .node _ => []
  | .sub id body => id :: marksL body
/-- Marks of right-hand sides. -/
def marksRHS : List EdgeRH → List Str
  | [] => []
  | .mk _ dst :: rest => marksLoc dst ++ marksRHS rest
/-- Marks of a statement list. -/
def marksL : List Stmt → List Str
  | [] => []
  | s :: ss => marks s ++ marksL ss
end

/-- Adding names to the set of written locations. -/
def wrAdd (wr : Written) (ns : List Str) : Written := ns.foldl (fun m n => mset m n ()) wr

theorem wrAdd_append (wr : Written) (a b : List Str) : wrAdd wr (a ++ b) = wrAdd (wrAdd wr a) b := List.foldl_append

theorem mhas_wrAdd (wr : Written) (ns : List Str) (x : Str) : mhas (wrAdd wr ns) x = (mhas wr x || decide (x ∈ ns)) := by
  induction ns generalizing wr with
  | nil => simp [wrAdd]
  | cons n ns ih =>
    have : wrAdd wr (n :: ns) = wrAdd (mset wr n ()) ns := rfl
    rw [this, ih, mhas_mset]
    by_cases h1 : n = x
    · subst h1; simp
    · by_cases h2 : x ∈ ns <;> simp [h1, Ne.symm h1, h2]

theorem marksL_append (a b : List Stmt) : marksL (a ++ b) = marksL a ++ marksL b := by
  induction a with
  | nil => rfl
  | cons s a ih => simp [marksL, ih]

theorem marksL_attrStmts (as : Attrs) : marksL (attrStmts as) = [] := by
  unfold attrStmts
  induction sortedNames as with
  | nil => rfl
  | cons k ks ih => simp [marksL, marks, ih]

theorem marks_attrs_append (as : Attrs) (cs : List Stmt) : marksL (attrStmts as ++ cs) = marksL cs := by
  rw [marksL_append, marksL_attrStmts]; rfl

theorem isNode_find {g : Graph} (h : GInv g) (n : Str) :
    (g.isNode n = true → ∃ nd, g.nodes.find n = some nd ∧ nd.name = n) ∧ (g.isNode n = false → g.nodes.find n = none) := by
  constructor
  · intro hn
    obtain ⟨p, hp⟩ := (mhas_iff_mget _ _).1 hn
    obtain ⟨nd, _, hname, hf, _⟩ := h.nodes.find_eq hp
    exact ⟨nd, hf, (h.nodes.find_name hf).1⟩
  · intro hn
    have : mget g.nodes.lookup n = none := by simpa [Graph.isNode, mhas] using hn
    simp [Nodes.find, this]

theorem isSub_get (g : Graph) (n : Str) : g.isSubGraph n = true ↔ ∃ s, mget g.subGraphs n = some s := mhas_iff_mget _ _

theorem newNodeStmt_eq {g : Graph} (h : GInv g) (wr : Written) (c : Str) :
    newNodeStmt g wr c = (nodeStmtOf g c).bind fun s => .ok (s, wrAdd wr (marks s)) := by
  unfold newNodeStmt nodeStmtOf
  cases hf : g.nodes.find c with
  | none => rfl
  | some nd =>
    have := (h.nodes.find_name hf).1
    simp [this, marks, wrAdd, Ast.makeNodeID]

theorem childLoop_eq {g : Graph} (h : GInv g) {rec_ : Written → Str → WRes ((Str × List Stmt) × Written)}
    {body : Str → WRes (List Stmt)}
    (hr : ∀ wr n, rec_ wr n = (body n).bind fun b => .ok ((n, b), wrAdd wr (n :: marksL b)))
    (wr : Written) (cs : List Str) :
    childLoop g rec_ wr cs = (mapW (childOf g body) cs).bind fun ss => .ok (ss, wrAdd wr (marksL ss)) := by
  induction cs generalizing wr with
  | nil => rfl
  | cons c cs ih =>
    have hc : (if g.isNode c then newNodeStmt g wr c
        else if g.isSubGraph c then (rec_ wr c).bind fun r => .ok (.sub r.1.1 r.1.2, r.2)
        else .err (.notNodeOrSubGraph c)) = (childOf g body c).bind fun s => .ok (s, wrAdd wr (marks s)) := by
      unfold childOf
      split
      · exact newNodeStmt_eq h wr c
      · split
        · rw [hr]
          cases body c <;> rfl
        · rfl
    simp only [childLoop, mapW]
    rw [hc]
    cases hcc : childOf g body c with
    | ok s =>
      simp only [WRes.bind_ok]
      rw [ih]
      cases mapW (childOf g body) cs with
      | ok ss => simp only [WRes.bind_ok, marksL, wrAdd_append]
      | err e => rfl
      | panic => rfl
      | diverge => rfl
    | err e => rfl
    | panic => rfl
    | diverge => rfl

theorem newSubGraph_eq {g : Graph} (h : GInv g) (f : Nat) (wr : Written) (n : Str) :
    newSubGraph g f wr n = (subBody g f n).bind fun b => .ok ((n, b), wrAdd wr (n :: marksL b)) := by
  induction f generalizing wr n with
  | zero => rfl
  | succ f ih =>
    simp only [newSubGraph, subBody]
    cases hs : mget g.subGraphs n with
    | none => rfl
    | some sub =>
      have hname := h.subs.name n sub hs
      simp only
      rw [childLoop_eq h ih, hname]
      cases mapW (childOf g (subBody g f)) (g.relations.sortedChildren n) with
      | ok cs => simp only [WRes.bind_ok, marks_attrs_append]; rfl
      | err e => rfl
      | panic => rfl
      | diverge => rfl

/-- An edge endpoint. -/
def locOf (g : Graph) (f : Nat) (name port : Str) : WRes Loc :=
  if g.isNode name then (if (g.nodes.find name).isSome then .ok (.node (Ast.makeNodeID name port)) else .panic)
  else if g.isClusterSubGraph name then
    if port.length ≠ 0 then .err (.subGraphPort port) else .ok (.node (Ast.makeNodeID name port))
  else if g.isSubGraph name then
    if port.length ≠ 0 then .err (.subGraphPort port)
    else (subBody g f name).bind fun b => .ok (.sub name b)
  else .err (.notNodeOrSubGraph name)

theorem newLocation_eq {g : Graph} (h : GInv g) (f : Nat) (wr : Written) (name port : Str) :
    newLocation g f wr name port = (locOf g f name port).bind fun l => .ok (l, wrAdd wr (marksLoc l)) := by
  unfold newLocation locOf newNodeID
  split
  · cases hf : g.nodes.find name with
    | none => rfl
    | some nd => simp [(h.nodes.find_name hf).1, marksLoc, wrAdd]
  · split
    · split <;> simp [marksLoc, wrAdd]
    · split
      · split
        · rfl
        · rw [newSubGraph_eq h]
          cases subBody g f name <;> rfl
      · rfl

/-- An edge statement. -/
def edgeOf (g : Graph) (f : Nat) (e : Edge) : WRes Stmt :=
  (locOf g f e.src e.srcPort).bind fun s =>
  (locOf g f e.dst e.dstPort).bind fun d =>
  .ok (.edge s [.mk e.dir d] (Ast.putMap (attrsCopy e.attrs)))

theorem newEdgeStmt_eq {g : Graph} (h : GInv g) (f : Nat) (wr : Written) (e : Edge) :
    newEdgeStmt g f wr e = (edgeOf g f e).bind fun s => .ok (s, wrAdd wr (marks s)) := by
  unfold newEdgeStmt edgeOf
  rw [newLocation_eq h]
  cases locOf g f e.src e.srcPort with
  | ok s =>
    simp only [WRes.bind_ok]
    rw [newLocation_eq h]
    cases locOf g f e.dst e.dstPort with
    | ok d => simp only [WRes.bind_ok, marks, marksRHS, List.append_nil, wrAdd_append]
    | err e => rfl
    | panic => rfl
    | diverge => rfl
  | err e => rfl
  | panic => rfl
  | diverge => rfl

theorem edgeStmts_eq {g : Graph} (h : GInv g) (f : Nat) (wr : Written) (es : List Edge) :
    edgeStmts g f wr es = (mapW (edgeOf g f) es).bind fun ss => .ok (ss, wrAdd wr (marksL ss)) := by
  induction es generalizing wr with
  | nil => rfl
  | cons e es ih =>
    simp only [edgeStmts, mapW, newEdgeStmt_eq h]
    cases edgeOf g f e with
    | ok s =>
      simp only [WRes.bind_ok, ih]
      cases mapW (edgeOf g f) es with
      | ok ss => simp only [WRes.bind_ok, marksL, wrAdd_append]
      | err e => rfl
      | panic => rfl
      | diverge => rfl
    | err e => rfl
    | panic => rfl
    | diverge => rfl

/-- The subgraph statements at top level: `seen` are the names marked so far. -/
def rootSubsOf (g : Graph) (f : Nat) (seen : List Str) : List Str → WRes (List Stmt)
  | [] => .ok []
  | n :: ns =>
    if !decide (n ∈ seen) && mhas (g.relations.children g.name) n then
      (subBody g f n).bind fun b =>
      (rootSubsOf g f (seen ++ n :: marksL b) ns).bind fun rs => .ok (.sub n b :: rs)
    else rootSubsOf g f seen ns

theorem rootSubs_eq {g : Graph} (h : GInv g) (f : Nat) (seen : List Str) (ns : List Str)
    (hns : ∀ n ∈ ns, mhas g.subGraphs n = true) :
    rootSubs g f (wrAdd [] seen) (ns.map (mget g.subGraphs)) =
      (rootSubsOf g f seen ns).bind fun ss => .ok (ss, wrAdd [] (seen ++ marksL ss)) := by
  induction ns generalizing seen with
  | nil => simp [rootSubs, rootSubsOf, marksL]
  | cons n ns ih =>
    obtain ⟨s, hs⟩ := (mhas_iff_mget _ _).1 (hns n (List.mem_cons_self ..))
    have hname := h.subs.name n s hs
    have ih := fun seen => ih seen fun n hn => hns n (List.mem_cons_of_mem _ hn)
    simp only [List.map_cons, hs, rootSubs, rootSubsOf, hname, mhas_wrAdd]
    have he : mhas ([] : Written) n = false := rfl
    rw [he, Bool.false_or]
    split
    · rw [newSubGraph_eq h]
      cases subBody g f n with
      | ok b =>
        simp only [WRes.bind_ok]
        rw [← wrAdd_append, ih]
        cases rootSubsOf g f (seen ++ n :: marksL b) ns with
        | ok rs => simp [marksL, marks]
        | err e => rfl
        | panic => rfl
        | diverge => rfl
      | err e => rfl
      | panic => rfl
      | diverge => rfl
    · exact ih seen

/-- The node statements at top level: the nodes that are not marked yet. -/
theorem rootNodes_eq {g : Graph} (h : GInv g) (seen : List Str) (ns : List Str) (hnd : ns.Nodup)
    (hns : ∀ n ∈ ns, g.isNode n = true) :
    ∃ wr, rootNodes g (wrAdd [] seen) (ns.map g.nodes.find) =
      (mapW (nodeStmtOf g) (ns.filter fun n => !decide (n ∈ seen))).bind fun ss => .ok (ss, wr) := by
  induction ns generalizing seen with
  | nil => exact ⟨_, rfl⟩
  | cons n ns ih =>
    obtain ⟨nd, hf, hname⟩ := (isNode_find h n).1 (hns n (List.mem_cons_self ..))
    rw [List.nodup_cons] at hnd
    have ih := fun seen => ih seen hnd.2 fun n hn => hns n (List.mem_cons_of_mem _ hn)
    simp only [List.map_cons, hf, rootNodes, hname, mhas_wrAdd]
    have he : mhas ([] : Written) n = false := rfl
    rw [he, Bool.false_or]
    by_cases hm : n ∈ seen
    · simp only [hm, decide_true, Bool.not_true, Bool.false_eq_true, if_false, List.filter_cons]
      exact ih seen
    · simp only [hm, decide_false, Bool.not_false, if_true, List.filter_cons]
      have h1 : nodeStmtOf g n = .ok (.node ⟨n, ⟨[], []⟩⟩ (Ast.putMap (attrsCopy nd.attrs))) := by
        unfold nodeStmtOf; rw [hf]
      rw [newNodeStmt_eq h, h1]
      simp only [WRes.bind_ok, mapW, h1, marks]
      rw [← wrAdd_append]
      obtain ⟨wr, hwr⟩ := ih (seen ++ [n])
      refine ⟨wr, ?_⟩
      rw [hwr]
      have hfe : (ns.filter fun m => !decide (m ∈ seen ++ [n])) = ns.filter fun m => !decide (m ∈ seen) := by
        apply List.filter_congr
        intro m hm'
        have : m ≠ n := fun e => hnd.1 (e ▸ hm')
        simp [this]
      rw [hfe]
      cases mapW (nodeStmtOf g) (ns.filter fun m => !decide (m ∈ seen)) <;> rfl

/-- `WriteAst` in closed form. -/
theorem writeAst_eq {g : Graph} (h : GInv g) (sortE : List Edge → List Edge) (f : Nat) :
    writeAst sortE f g =
      (mapW (edgeOf g f) (sortE g.edges.edges)).bind fun es =>
      (rootSubsOf g f (marksL es) (mkeys g.subGraphs)).bind fun ss =>
      (mapW (nodeStmtOf g) ((mkeys g.nodes.lookup).filter fun n => !decide (n ∈ marksL es ++ marksL ss))).bind fun ns =>
      .ok { type_ := g.directed, strict := g.strict, id := g.name, stmts := attrStmts g.attrs ++ es ++ ss ++ ns } := by
  unfold writeAst
  rw [edgeStmts_eq h]
  cases mapW (edgeOf g f) (sortE g.edges.edges) with
  | ok es =>
    simp only [WRes.bind_ok]
    have h1 : subGraphsSorted g.subGraphs = (mkeys g.subGraphs).map (mget g.subGraphs) := by
      unfold subGraphsSorted; rw [mkeys_ssort h.subs.wf]
    rw [h1, rootSubs_eq h f (marksL es) (mkeys g.subGraphs) fun n hn => (mhas_iff _ _).2 hn]
    cases rootSubsOf g f (marksL es) (mkeys g.subGraphs) with
    | ok ss =>
      simp only [WRes.bind_ok]
      have h2 : g.nodes.sorted = (mkeys g.nodes.lookup).map g.nodes.find := by
        unfold Nodes.sorted; rw [mkeys_ssort h.nodes.wf]
      rw [h2]
      obtain ⟨wr, hwr⟩ := rootNodes_eq h (marksL es ++ marksL ss) (mkeys g.nodes.lookup) h.nodes.wf.nodup
        fun n hn => (mhas_iff _ _).2 hn
      rw [hwr]
      cases mapW (nodeStmtOf g) ((mkeys g.nodes.lookup).filter fun n => !decide (n ∈ marksL es ++ marksL ss)) <;> rfl
    | err e => rfl
    | panic => rfl
    | diverge => rfl
  | err e => rfl
  | panic => rfl
  | diverge => rfl

end Gographviz
