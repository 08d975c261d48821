import Verif.Proofs.AnalyseMaps
/-!
What becomes of the maps that `Analyse` handed to an implementation that keeps them.
-/
namespace Gographviz

open Spec
open Ast (Stmt Loc EdgeRH AttrList NodeID)

/-- Between `m` and `m'` only keys listed in `D` got a new value, and the value is listed with it. -/
def Ch (D : List (Str × Str)) (m m' : Map Str) : Prop := ∀ k, mget m' k = mget m k ∨ ∃ v, mget m' k = some v ∧ (k, v) ∈ D

theorem Ch.refl (D : List (Str × Str)) (m : Map Str) : Ch D m m := fun _ => .inl rfl

theorem Ch.trans {D : List (Str × Str)} {a b c : Map Str} (h : Ch D a b) (h' : Ch D b c) : Ch D a c := by
  intro k
  rcases h' k with h1 | h1
  · rw [h1]; exact h k
  · exact .inr h1

/-- The three maps exist and are different. -/
structure WOk (w : MVisitor) (m : MMem) : Prop where
  ne : w.nodeAttrs ≠ w.edgeAttrs
  ng : w.nodeAttrs ≠ w.graphAttrs
  eg : w.edgeAttrs ≠ w.graphAttrs
  lt : ∀ a ∈ w.maps, a < m.length

theorem WOk.mono {w : MVisitor} {m m' : MMem} (h : WOk w m) (hl : m.length ≤ m'.length) : WOk w m' :=
  { h with lt := fun a ha => Nat.lt_of_lt_of_le (h.lt a ha) hl }

theorem maps_eq {w w' : MVisitor} (h : w'.maps = w.maps) :
    w'.nodeAttrs = w.nodeAttrs ∧ w'.edgeAttrs = w.edgeAttrs ∧ w'.graphAttrs = w.graphAttrs := by
  simp only [MVisitor.maps, List.cons.injEq, and_true] at h; exact h

theorem WOk.congr {w w' : MVisitor} {m : MMem} (h : WOk w m) (hw : w'.maps = w.maps) : WOk w' m := by
  obtain ⟨h1, h2, h3⟩ := maps_eq hw
  exact ⟨by rw [h1, h2]; exact h.ne, by rw [h1, h3]; exact h.ng, by rw [h2, h3]; exact h.eg, by rw [hw]; exact h.lt⟩

/-- What is known of a map that was given away between `m` and `m'` under the visitor `w`. -/
def GivenOk (D G : List (Str × Str)) (w : MVisitor) (m m' : MMem) : Given → Prop
  | .edge a x => m.length ≤ a ∧ m'.mapAt a = x
  | .node _ a x => (m.length ≤ a ∨ a = w.nodeAttrs) ∧ Ch D x (m'.mapAt a)
  | .sub _ a x => (m.length ≤ a ∨ a = w.graphAttrs) ∧ Ch G x (m'.mapAt a)

/-- What the analyser did between `c` and `c'` under the visitor `w`. -/
structure KStep (D G : List (Str × Str)) (w : MVisitor) (c c' : MCatcher (List Given)) : Prop where
  frame : MFrame w.maps c.mem c'.mem
  node : Ch D (c.mem.mapAt w.nodeAttrs) (c'.mem.mapAt w.nodeAttrs)
  graph : Ch G (c.mem.mapAt w.graphAttrs) (c'.mem.mapAt w.graphAttrs)
  log : ∃ new, c'.g.1 = c.g.1 ++ new ∧ ∀ x ∈ new, x.map < c'.mem.length ∧ GivenOk D G w c.mem c'.mem x

variable {D G : List (Str × Str)}

theorem KStep.congr {w w' : MVisitor} {c c' : MCatcher (List Given)} (h : KStep D G w c c') (hw : w'.maps = w.maps) : KStep D G w' c c' := by
  obtain ⟨h1, h2, h3⟩ := maps_eq hw
  obtain ⟨new, h4, h5⟩ := h.log
  refine ⟨by rw [hw]; exact h.frame, by rw [h1]; exact h.node, by rw [h3]; exact h.graph, new, h4, fun x hx => ⟨(h5 x hx).1, ?_⟩⟩
  have := (h5 x hx).2
  cases x <;> simp only [GivenOk, h1, h3] at this ⊢ <;> exact this

theorem KStep.refl (w : MVisitor) (c : MCatcher (List Given)) : KStep D G w c c :=
  ⟨MFrame.refl _ _, Ch.refl _ _, Ch.refl _ _, [], by simp, by simp⟩

theorem KStep.trans {w : MVisitor} {c c1 c2 : MCatcher (List Given)} (hw : WOk w c.mem) (h : KStep D G w c c1) (h' : KStep D G w c1 c2) :
    KStep D G w c c2 := by
  obtain ⟨n1, e1, f1⟩ := h.log
  obtain ⟨n2, e2, f2⟩ := h'.log
  refine ⟨h.frame.trans h'.frame, h.node.trans h'.node, h.graph.trans h'.graph, n1 ++ n2, by rw [e2, e1, List.append_assoc], ?_⟩
  intro x hx
  rcases List.mem_append.1 hx with hx | hx
  · obtain ⟨g1, g2⟩ := f1 x hx
    refine ⟨Nat.lt_of_lt_of_le g1 h'.frame.len, ?_⟩
    have same : ∀ a, c.mem.length ≤ a → a < c1.mem.length → c2.mem.mapAt a = c1.mem.mapAt a := by
      intro a h1 h2
      exact h'.frame.same a h2 (fun hm => by have := hw.lt a hm; omega)
    cases x with
    | edge a m => exact ⟨g2.1, by rw [same a g2.1 g1]; exact g2.2⟩
    | node n a m =>
      refine ⟨g2.1, ?_⟩
      rcases g2.1 with h1 | rfl
      · rw [same a h1 g1]; exact g2.2
      · exact g2.2.trans h'.node
    | sub n a m =>
      refine ⟨g2.1, ?_⟩
      rcases g2.1 with h1 | rfl
      · rw [same a h1 g1]; exact g2.2
      · exact g2.2.trans h'.graph
  · obtain ⟨g1, g2⟩ := f2 x hx
    refine ⟨g1, ?_⟩
    have hl := h.frame.len
    cases x with
    | edge a m => exact ⟨Nat.le_trans hl g2.1, g2.2⟩
    | node n a m => exact ⟨g2.1.imp (fun h => Nat.le_trans hl h) id, g2.2⟩
    | sub n a m => exact ⟨g2.1.imp (fun h => Nat.le_trans hl h) id, g2.2⟩

/-- A call that gives nothing away. -/
theorem KStep.quiet {w : MVisitor} {c c' : MCatcher (List Given)} (h1 : c'.g.1 = c.g.1) (h2 : c'.mem = c.mem) : KStep D G w c c' :=
  ⟨by rw [h2]; exact MFrame.refl _ _, by rw [h2]; exact Ch.refl _ _, by rw [h2]; exact Ch.refl _ _, [], by simp [h1], by simp⟩

/-- Making a map. -/
theorem KStep.make {w : MVisitor} {c : MCatcher (List Given)} (hw : WOk w c.mem) (m : Map Str) : KStep D G w c (c.make m).2 := by
  obtain ⟨-, h2, h3, -⟩ := make_spec c m
  have hf : MFrame [] c.mem (c.make m).2.mem := by rw [h2]; exact MFrame.append _ _ _
  refine ⟨hf.weaken, ?_, ?_, [], by simp [h3], by simp⟩
  · rw [hf.same _ (hw.lt _ (by simp [MVisitor.maps])) (by simp)]; exact Ch.refl _ _
  · rw [hf.same _ (hw.lt _ (by simp [MVisitor.maps])) (by simp)]; exact Ch.refl _ _

theorem keep_addNodeFromEdge {w : MVisitor} {c : MCatcher (List Given)} (hw : WOk w c.mem) (id : Str) :
    KStep D G w c (mAddNodeFromEdge keeper w c id).2 ∧ (mAddNodeFromEdge keeper w c id).1.maps = w.maps ∧
    (mAddNodeFromEdge keeper w c id).2.mem = c.mem := by
  unfold mAddNodeFromEdge
  by_cases h : mhas w.created id = true
  · rw [if_pos h]; exact ⟨KStep.refl _ _, rfl, rfl⟩
  · rw [if_neg h]
    refine ⟨⟨MFrame.refl _ _, Ch.refl _ _, Ch.refl _ _, [.node id w.nodeAttrs (c.mem.mapAt w.nodeAttrs)], rfl, ?_⟩, rfl, rfl⟩
    intro x hx
    rw [List.mem_singleton] at hx; subst hx
    exact ⟨hw.lt w.nodeAttrs (by simp [MVisitor.maps]), .inr rfl, Ch.refl _ _⟩

theorem keep_endpoint {w : MVisitor} {c : MCatcher (List Given)} (hw : WOk w c.mem) (b : Bool) (id : Str) :
    KStep D G w c (if b then mAddNodeFromEdge keeper w c id else (w, c)).2 ∧
    (if b then mAddNodeFromEdge keeper w c id else (w, c)).1.maps = w.maps ∧
    (if b then mAddNodeFromEdge keeper w c id else (w, c)).2.mem = c.mem := by
  cases b
  · exact ⟨KStep.refl _ _, rfl, rfl⟩
  · exact keep_addNodeFromEdge hw id

/-- The loop over the edges of a statement; `L` is the length of the memory when the map of the statement was made. -/
theorem keep_edgeLoop {attrs : Nat} (rhs : List EdgeRH) : ∀ {w : MVisitor} {c0 c : MCatcher (List Given)} (_ : WOk w c0.mem)
    (_ : KStep D G w c0 c) (_ : c0.mem.length ≤ attrs) (_ : attrs < c.mem.length) (src : Str) (port : Ast.Port),
    KStep D G w c0 (mEdgeLoop keeper attrs w c src port rhs).2 ∧ (mEdgeLoop keeper attrs w c src port rhs).1.maps = w.maps := by
  induction rhs with
  | nil => intro w c0 c hw hk h1 h2 src port; exact ⟨hk, rfl⟩
  | cons r rest ih =>
    obtain ⟨op, dst⟩ := r
    intro w c0 c hw hk h1 h2 src port
    simp only [mEdgeLoop]
    obtain ⟨k1, k2, k3⟩ := keep_endpoint (D := D) (G := G) (hw.mono hk.frame.len) dst.isNode dst.getID
    generalize (if dst.isNode = true then mAddNodeFromEdge keeper w c dst.getID else (w, c)) = x at k1 k2 k3 ⊢
    obtain ⟨w1, c1⟩ := x
    dsimp only at k1 k2 k3 ⊢
    have hk1 : KStep D G w c0 c1 := hk.trans hw k1
    generalize hc2 : c1.record (keeper.addPortEdge c1.g src (Ast.portStr port) dst.getID (Ast.portStr dst.getPort) op attrs) = c2
    have e1 : c2.mem = c1.mem := by rw [← hc2]; rfl
    have e2 : c2.g.1 = c1.g.1 ++ [.edge attrs (c1.mem.mapAt attrs)] := by rw [← hc2]; rfl
    have hk2 : KStep D G w c0 c2 := by
      obtain ⟨new, f1, f2⟩ := hk1.log
      refine ⟨by rw [e1]; exact hk1.frame, by rw [e1]; exact hk1.node, by rw [e1]; exact hk1.graph, new ++ [.edge attrs (c1.mem.mapAt attrs)],
        by rw [e2, f1, List.append_assoc], ?_⟩
      intro x hx
      rw [e1]
      rcases List.mem_append.1 hx with hx | hx
      · exact f2 x hx
      · rw [List.mem_singleton] at hx; subst hx
        exact ⟨by rw [k3]; exact h2, h1, rfl⟩
    obtain ⟨g1, g2⟩ := ih (w := w1) (c0 := c0) (c := c2) (hw.congr k2) (hk2.congr k2) h1 (by rw [e1, k3]; exact h2) dst.getID dst.getPort
    exact ⟨g1.congr k2.symm, g2.trans k2⟩

theorem keep_edgeStmt {w : MVisitor} {c : MCatcher (List Given)} (hw : WOk w c.mem) (src : Loc) (rhs : List EdgeRH) (as : AttrList) :
    KStep D G w c (mEdgeStmt keeper w c src rhs as).2 ∧ (mEdgeStmt keeper w c src rhs as).1.maps = w.maps := by
  simp only [mEdgeStmt]
  generalize attrsAmmend (Ast.getMap as) (c.mem.mapAt w.edgeAttrs) = m
  have hk : KStep D G w c (c.make m).2 := KStep.make hw m
  obtain ⟨j1, j2, -, -⟩ := make_spec c m
  generalize c.make m = x at hk j1 j2 ⊢
  obtain ⟨a, c1⟩ := x
  dsimp only at hk j1 j2 ⊢
  obtain ⟨k1, k2, k3⟩ := keep_endpoint (D := D) (G := G) (hw.mono hk.frame.len) src.isNode src.getID
  generalize (if src.isNode = true then mAddNodeFromEdge keeper w c1 src.getID else (w, c1)) = x at k1 k2 k3 ⊢
  obtain ⟨w1, c2⟩ := x
  dsimp only at k1 k2 k3 ⊢
  have hk2 := (hk.trans hw k1).congr k2
  obtain ⟨g1, g2⟩ := keep_edgeLoop (attrs := a) rhs (hw.congr k2) hk2 (by omega) (by rw [k3, j2, j1]; simp) src.getID src.getPort
  exact ⟨g1.congr k2.symm, g2.trans k2⟩

theorem keep_nodeStmt {w : MVisitor} {c : MCatcher (List Given)} (hw : WOk w c.mem) (id : NodeID) (as : AttrList) :
    KStep D G w c (mNodeStmt keeper w c id as).2 ∧ (mNodeStmt keeper w c id as).1.maps = w.maps := by
  simp only [mNodeStmt]
  generalize attrsAmmend (Ast.getMap as) (if (!mhas w.created (Ast.nodeIDStr id)) = true then c.mem.mapAt w.nodeAttrs else []) = m
  have hk : KStep D G w c (c.make m).2 := KStep.make hw m
  obtain ⟨j1, j2, j3, -⟩ := make_spec c m
  generalize c.make m = x at hk j1 j2 j3 ⊢
  obtain ⟨a, c1⟩ := x
  dsimp only at hk j1 j2 j3 ⊢
  refine ⟨?_, ?_⟩
  · generalize hc2 : c1.record (keeper.addNode c1.g w.graphName (Ast.nodeIDStr id) a) = c2
    have e1 : c2.mem = c1.mem := by rw [← hc2]; rfl
    have e2 : c2.g.1 = c1.g.1 ++ [.node (Ast.nodeIDStr id) a (c1.mem.mapAt a)] := by rw [← hc2]; rfl
    refine ⟨by rw [e1]; exact hk.frame, by rw [e1]; exact hk.node, by rw [e1]; exact hk.graph, [.node (Ast.nodeIDStr id) a (c1.mem.mapAt a)],
      by rw [e2, j3], ?_⟩
    intro x hx
    rw [List.mem_singleton] at hx; subst hx
    rw [e1]
    exact ⟨by show a < _; rw [j1, j2]; simp, .inl (by omega), Ch.refl _ _⟩
  · split
    · simp [MVisitor.maps]
    · rfl

theorem keep_graphAttrsLoop {w : MVisitor} (name : Str) (kvs : List (Str × Str)) : ∀ {c : MCatcher (List Given)},
    KStep D G w c (mGraphAttrsLoop keeper name c kvs) ∧ (mGraphAttrsLoop keeper name c kvs).mem = c.mem := by
  induction kvs with
  | nil => intro c; exact ⟨KStep.refl _ _, rfl⟩
  | cons e kvs ih =>
    obtain ⟨k, v⟩ := e
    intro c
    simp only [mGraphAttrsLoop]
    have h0 : c.record (keeper.addAttr c.g name k v) = c := rfl
    rw [h0]; exact ih

theorem lastAssign_mem {kvs : List (Str × Str)} {k v : Str} (h : lastAssign kvs k = some v) : (k, v) ∈ kvs := by
  induction kvs with
  | nil => simp [lastAssign] at h
  | cons e kvs ih =>
    unfold lastAssign at h
    split at h
    · rename_i v' hv; cases h; exact List.mem_cons_of_mem _ (ih hv)
    · split at h
      · rename_i hk; cases h; exact List.mem_cons.2 (.inl (by rw [← hk]))
      · cases h

theorem overwrite_ch {D : List (Str × Str)} (m : Map Str) (as : AttrList) (h : ∀ e ∈ entries as, e ∈ D) :
    Ch D m (overwrite m (Ast.getMap as)) := by
  intro k
  unfold overwrite
  rw [getMap_eq, mget_msetAll_wf _ (mapOf_wf as)]
  cases hk : mget (mapOf as) k with
  | none => exact .inl rfl
  | some v =>
    refine .inr ⟨v, rfl, ?_⟩
    apply h
    unfold mapOf at hk
    rw [mget_msetAll] at hk
    cases he : lastAssign (entries as) k with
    | none => rw [he] at hk; simp [mget] at hk
    | some v' =>
      rw [he] at hk
      cases hk
      exact lastAssign_mem he

/-- The visitor of a subgraph. -/
theorem keep_subGraph {w : MVisitor} {c : MCatcher (List Given)} (hw : WOk w c.mem) (id : Str) :
    KStep D G w c (mSubGraph keeper w c id).2 ∧ WOk (mSubGraph keeper w c id).1 (mSubGraph keeper w c id).2.mem ∧
    MFrame [] c.mem (mSubGraph keeper w c id).2.mem ∧ (∀ a ∈ (mSubGraph keeper w c id).1.maps, c.mem.length ≤ a) ∧
    (mSubGraph keeper w c id).2.g.1 = c.g.1 ++ [.sub id w.graphAttrs (c.mem.mapAt w.graphAttrs)] := by
  unfold mSubGraph
  generalize hc1 : c.record (keeper.addSubGraph c.g w.graphName id w.graphAttrs) = c1
  have e1 : c1.mem = c.mem := by rw [← hc1]; rfl
  have e2 : c1.g.1 = c.g.1 ++ [.sub id w.graphAttrs (c.mem.mapAt w.graphAttrs)] := by rw [← hc1]; rfl
  have hn : ∀ a, some w.nodeAttrs = some a → a < c1.mem.length := by
    intro a h; cases h; rw [e1]; exact hw.lt _ (by simp [MVisitor.maps])
  have he : ∀ a, some w.edgeAttrs = some a → a < c1.mem.length := by
    intro a h; cases h; rw [e1]; exact hw.lt _ (by simp [MVisitor.maps])
  obtain ⟨h1, h2, h3, h4⟩ := newMVisitor_spec id (some w.nodeAttrs) (some w.edgeAttrs) c1 hn he
  obtain ⟨h5, h6⟩ := newMVisitor_rel hn he id
  rw [e1] at h6
  have hgl : w.graphAttrs < c.mem.length := hw.lt _ (by simp [MVisitor.maps])
  have hnl : w.nodeAttrs < c.mem.length := hw.lt _ (by simp [MVisitor.maps])
  refine ⟨⟨h6.weaken, ?_, ?_, [.sub id w.graphAttrs (c.mem.mapAt w.graphAttrs)], by rw [h3, e2], ?_⟩,
    ⟨h5.ne, h5.ng, h5.eg, ?_⟩, h6, ?_, by rw [h3, e2]⟩
  · rw [h6.same _ hnl (by simp)]; exact Ch.refl _ _
  · rw [h6.same _ hgl (by simp)]; exact Ch.refl _ _
  · intro x hx
    rw [List.mem_singleton] at hx; subst hx
    refine ⟨Nat.lt_of_lt_of_le hgl h6.len, .inr rfl, ?_⟩
    rw [h6.same _ hgl (by simp)]; exact Ch.refl _ _
  · intro a ha
    simp only [MVisitor.maps, List.mem_cons, List.not_mem_nil, or_false] at ha
    rcases ha with rfl | rfl | rfl
    · exact h5.nl
    · exact h5.el
    · exact h5.gl
  · rw [h1, ← e1]
    intro a ha
    simp only [MVisitor.maps, List.mem_cons, List.not_mem_nil, or_false] at ha
    omega

/-- Analysing the body of a subgraph, seen from outside: none of the maps that existed before changes. -/
theorem KStep.nest {w w1 : MVisitor} {c c1 c2 : MCatcher (List Given)} {id : Str} (hw : WOk w c.mem) (hf : MFrame [] c.mem c1.mem)
    (hm : ∀ a ∈ w1.maps, c.mem.length ≤ a) (hl : c1.g.1 = c.g.1 ++ [.sub id w.graphAttrs (c.mem.mapAt w.graphAttrs)])
    (h : KStep D G w1 c1 c2) : KStep D G w c c2 ∧ MFrame [] c.mem c2.mem := by
  have hfr : MFrame [] c.mem c2.mem := by
    refine ⟨Nat.le_trans hf.len h.frame.len, fun a ha _ => ?_⟩
    rw [h.frame.same a (Nat.lt_of_lt_of_le ha hf.len) (fun hm' => by have := hm a hm'; omega), hf.same a ha (by simp)]
  have hgl : w.graphAttrs < c.mem.length := hw.lt _ (by simp [MVisitor.maps])
  have hnl : w.nodeAttrs < c.mem.length := hw.lt _ (by simp [MVisitor.maps])
  obtain ⟨new, f1, f2⟩ := h.log
  refine ⟨⟨hfr.weaken, ?_, ?_, .sub id w.graphAttrs (c.mem.mapAt w.graphAttrs) :: new, by rw [f1, hl]; simp, ?_⟩, hfr⟩
  · rw [hfr.same _ hnl (by simp)]; exact Ch.refl _ _
  · rw [hfr.same _ hgl (by simp)]; exact Ch.refl _ _
  · intro x hx
    rcases List.mem_cons.1 hx with rfl | hx
    · refine ⟨Nat.lt_of_lt_of_le hgl hfr.len, .inr rfl, ?_⟩
      rw [hfr.same _ hgl (by simp)]; exact Ch.refl _ _
    · obtain ⟨g1, g2⟩ := f2 x hx
      refine ⟨g1, ?_⟩
      cases x with
      | edge a m => exact ⟨Nat.le_trans hf.len g2.1, g2.2⟩
      | node n a m =>
        refine ⟨.inl ?_, g2.2⟩
        rcases g2.1 with h1 | h1
        · exact Nat.le_trans hf.len h1
        · rw [h1]; exact hm _ (by simp [MVisitor.maps])
      | sub n a m =>
        refine ⟨.inl ?_, g2.2⟩
        rcases g2.1 with h1 | h1
        · exact Nat.le_trans hf.len h1
        · rw [h1]; exact hm _ (by simp [MVisitor.maps])

mutual
theorem keep_stmt {w : MVisitor} {c : MCatcher (List Given)} (hw : WOk w c.mem) : ∀ s : Stmt,
    (∀ e ∈ nodeEntriesS s, e ∈ D) → (∀ e ∈ graphEntriesS s, e ∈ G) →
    KStep D G w c (mWalkStmt keeper w c s).2 ∧ (mWalkStmt keeper w c s).1.maps = w.maps
  | .node id as, _, _ => by simp only [mWalkStmt]; exact keep_nodeStmt hw id as
  | .edge src rhs as, hD, hG => by
    simp only [mWalkStmt]
    simp only [nodeEntriesS, graphEntriesS, List.mem_append] at hD hG
    obtain ⟨h1, h2⟩ := keep_edgeStmt (D := D) (G := G) hw src rhs as
    generalize mEdgeStmt keeper w c src rhs as = x at h1 h2 ⊢
    obtain ⟨w1, c1⟩ := x
    dsimp only at h1 h2 ⊢
    have hw1 := (hw.congr h2).mono h1.frame.len
    have g1 := keep_loc hw1 src (fun e he => hD e (.inl he)) (fun e he => hG e (.inl he))
    have g2 := keep_rhs (hw1.mono g1.frame.len) rhs (fun e he => hD e (.inr he)) (fun e he => hG e (.inr he))
    exact ⟨h1.trans hw ((g1.trans hw1 g2).congr h2.symm), h2⟩
  | .nodeAttrs as, hD, _ => by
    simp only [mWalkStmt]
    have hn := hw.lt w.nodeAttrs (by simp [MVisitor.maps])
    refine ⟨⟨overwrite_frame c (by simp [MVisitor.maps]) as, ?_, ?_, [], (List.append_nil _).symm, by simp⟩, trivial⟩
    · rw [overwrite_at c hn, if_pos rfl]; exact overwrite_ch _ as hD
    · rw [overwrite_at c hn, if_neg hw.ng]; exact Ch.refl _ _
  | .edgeAttrs as, _, _ => by
    simp only [mWalkStmt]
    have hn := hw.lt w.edgeAttrs (by simp [MVisitor.maps])
    refine ⟨⟨overwrite_frame c (by simp [MVisitor.maps]) as, ?_, ?_, [], (List.append_nil _).symm, by simp⟩, trivial⟩
    · rw [overwrite_at c hn, if_neg (Ne.symm hw.ne)]; exact Ch.refl _ _
    · rw [overwrite_at c hn, if_neg hw.eg]; exact Ch.refl _ _
  | .graphAttrs as, _, hG => by
    simp only [mWalkStmt]
    obtain ⟨h1, h2⟩ := keep_graphAttrsLoop (D := D) (G := G) (w := w) w.graphName (Ast.getMap as) (c := c)
    generalize mGraphAttrsLoop keeper w.graphName c (Ast.getMap as) = c1 at h1 h2 ⊢
    have hn : w.graphAttrs < c1.mem.length := by rw [h2]; exact hw.lt w.graphAttrs (by simp [MVisitor.maps])
    refine ⟨h1.trans hw ⟨overwrite_frame c1 (by simp [MVisitor.maps]) as, ?_, ?_, [], (List.append_nil _).symm, by simp⟩, trivial⟩
    · rw [overwrite_at c1 hn, if_neg (Ne.symm hw.ng)]; exact Ch.refl _ _
    · rw [overwrite_at c1 hn, if_pos rfl]; exact overwrite_ch _ as hG
  | .sub id body, hD, hG => by
    simp only [mWalkStmt]
    obtain ⟨-, h2, h3, h4, h5⟩ := keep_subGraph (D := D) (G := G) hw id
    generalize mSubGraph keeper w c id = x at h2 h3 h4 h5 ⊢
    obtain ⟨w1, c1⟩ := x
    dsimp only at h2 h3 h4 h5 ⊢
    obtain ⟨g1, g2⟩ := keep_stmts h2 body hD hG
    exact ⟨(KStep.nest hw h3 h4 h5 g1).1, trivial⟩
  | .attr a, _, _ => by simp only [mWalkStmt]; exact ⟨KStep.quiet rfl rfl, trivial⟩
theorem keep_loc {w : MVisitor} {c : MCatcher (List Given)} (hw : WOk w c.mem) : ∀ l : Loc,
    (∀ e ∈ nodeEntriesL l, e ∈ D) → (∀ e ∈ graphEntriesL l, e ∈ G) → KStep D G w c (mWalkLoc keeper w c l)
  | .node _, _, _ => KStep.refl _ _
  | .sub id body, hD, hG => by
    simp only [mWalkLoc]
    obtain ⟨-, h2, h3, h4, h5⟩ := keep_subGraph (D := D) (G := G) hw id
    generalize mSubGraph keeper w c id = x at h2 h3 h4 h5 ⊢
    obtain ⟨w1, c1⟩ := x
    dsimp only at h2 h3 h4 h5 ⊢
    obtain ⟨g1, g2⟩ := keep_stmts h2 body hD hG
    exact (KStep.nest hw h3 h4 h5 g1).1
theorem keep_rhs {w : MVisitor} {c : MCatcher (List Given)} (hw : WOk w c.mem) : ∀ rhs : List EdgeRH,
    (∀ e ∈ nodeEntriesR rhs, e ∈ D) → (∀ e ∈ graphEntriesR rhs, e ∈ G) → KStep D G w c (mWalkRHS keeper w c rhs)
  | [], _, _ => KStep.refl _ _
  | .mk _ dst :: rest, hD, hG => by
    simp only [mWalkRHS]
    simp only [nodeEntriesR, graphEntriesR, List.mem_append] at hD hG
    have h1 := keep_loc hw dst (fun e he => hD e (.inl he)) (fun e he => hG e (.inl he))
    exact h1.trans hw (keep_rhs (hw.mono h1.frame.len) rest (fun e he => hD e (.inr he)) (fun e he => hG e (.inr he)))
theorem keep_stmts {w : MVisitor} {c : MCatcher (List Given)} (hw : WOk w c.mem) : ∀ ss : List Stmt,
    (∀ e ∈ nodeEntries ss, e ∈ D) → (∀ e ∈ graphEntries ss, e ∈ G) →
    KStep D G w c (mWalkStmts keeper w c ss).2 ∧ (mWalkStmts keeper w c ss).1.maps = w.maps
  | [], _, _ => ⟨KStep.refl _ _, rfl⟩
  | s :: ss, hD, hG => by
    simp only [mWalkStmts]
    simp only [nodeEntries, graphEntries, List.mem_append] at hD hG
    obtain ⟨h1, h2⟩ := keep_stmt hw s (fun e he => hD e (.inl he)) (fun e he => hG e (.inl he))
    generalize mWalkStmt keeper w c s = x at h1 h2 ⊢
    obtain ⟨w1, c1⟩ := x
    dsimp only at h1 h2 ⊢
    obtain ⟨g1, g2⟩ := keep_stmts ((hw.congr h2).mono h1.frame.len) ss (fun e he => hD e (.inr he)) (fun e he => hG e (.inr he))
    exact ⟨h1.trans hw (g1.congr h2.symm), g2.trans h2⟩
end

end Gographviz
