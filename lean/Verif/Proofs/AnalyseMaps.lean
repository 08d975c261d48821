import Verif.Proofs.Analyse
import Verif.Spec.AnalyseMaps
/-!
The analyser with maps as references: frames, agreement with `Model/Analyse.lean`, and what becomes of the maps that were handed out.
-/
namespace Gographviz

open Spec
open Ast (Stmt Loc EdgeRH AttrList NodeID)

variable {σ : Type}

theorem MMem.at_append {m m' : MMem} {a : Nat} (h : a < m.length) : (m ++ m').mapAt a = m.mapAt a := by
  unfold List.mapAt; rw [List.getElem?_append_left h]

theorem MMem.at_new (m : MMem) (x : Map Str) : (m ++ [x]).mapAt m.length = x := by
  unfold List.mapAt; simp

theorem MMem.at_set {m : MMem} {a b : Nat} {x : Map Str} : (m.set a x).mapAt b = if a = b ∧ b < m.length then x else m.mapAt b := by
  unfold List.mapAt
  rw [List.getElem?_set]
  by_cases h : a = b
  · subst h
    by_cases h1 : a < m.length
    · simp [h1]
    · simp [h1]
  · simp [h]

/-! ### Agreement with the analyser on contents -/

/-- The visitor `w` with its maps in `m` has the contents `v`. -/
structure VRel (w : MVisitor) (v : Visitor) (m : MMem) : Prop where
  name : w.graphName = v.graphName
  created : w.created = v.created
  node : m.mapAt w.nodeAttrs = v.nodeAttrs
  edge : m.mapAt w.edgeAttrs = v.edgeAttrs
  graph : m.mapAt w.graphAttrs = v.graphAttrs
  ne : w.nodeAttrs ≠ w.edgeAttrs
  ng : w.nodeAttrs ≠ w.graphAttrs
  eg : w.edgeAttrs ≠ w.graphAttrs
  nl : w.nodeAttrs < m.length
  el : w.edgeAttrs < m.length
  gl : w.graphAttrs < m.length

/-- The same implementation state and the same errors. -/
structure CRel (c : MCatcher σ) (d : Catcher σ) : Prop where
  g : c.g.1 = d.g
  errs : c.errs = d.errs

/-- Memory `m'` comes after `m`, and the maps of `m` are as they were (those in `except` excepted). -/
structure MFrame (except : List Nat) (m m' : MMem) : Prop where
  len : m.length ≤ m'.length
  same : ∀ a, a < m.length → a ∉ except → m'.mapAt a = m.mapAt a

theorem MFrame.refl (ex : List Nat) (m : MMem) : MFrame ex m m := ⟨Nat.le_refl _, fun _ _ _ => rfl⟩

theorem MFrame.trans {ex : List Nat} {m m' m'' : MMem} (h : MFrame ex m m') (h' : MFrame ex m' m'') : MFrame ex m m'' :=
  ⟨Nat.le_trans h.len h'.len, fun a ha hn => by rw [h'.same a (Nat.lt_of_lt_of_le ha h.len) hn, h.same a ha hn]⟩

theorem MFrame.weaken {ex : List Nat} {m m' : MMem} (h : MFrame [] m m') : MFrame ex m m' :=
  ⟨h.len, fun a ha _ => h.same a ha (by simp)⟩

theorem VRel.frame {w : MVisitor} {v : Visitor} {m m' : MMem} (h : VRel w v m) (hf : MFrame [] m m') : VRel w v m' :=
  { h with
    node := by rw [hf.same _ h.nl (by simp), h.node]
    edge := by rw [hf.same _ h.el (by simp), h.edge]
    graph := by rw [hf.same _ h.gl (by simp), h.graph]
    nl := Nat.lt_of_lt_of_le h.nl hf.len
    el := Nat.lt_of_lt_of_le h.el hf.len
    gl := Nat.lt_of_lt_of_le h.gl hf.len }

/-- The three maps of a visitor. -/
def MVisitor.maps (w : MVisitor) : List Nat := [w.nodeAttrs, w.edgeAttrs, w.graphAttrs]

/-- Recording the result of the same call on both sides. -/
theorem CRel.record {c : MCatcher σ} {d : Catcher σ} (h : CRel c d) {r : (σ × MMem) × Option Err} {s : σ × Option Err}
    (h1 : r.1.1 = s.1) (h2 : r.2 = s.2) : CRel (c.record r) (d.record s) := by
  unfold Catcher.record
  rw [h2]
  split
  · exact ⟨h1, h.errs⟩
  · exact ⟨h1, by rw [h.errs]⟩

theorem record_mem (c : MCatcher σ) (r : (σ × MMem) × Option Err) : (c.record r).mem = r.1.2 := by
  unfold Catcher.record Catcher.mem; split <;> rfl

theorem make_spec (c : MCatcher σ) (m : Map Str) : (c.make m).1 = c.mem.length ∧ (c.make m).2.mem = c.mem ++ [m] ∧
    (c.make m).2.g.1 = c.g.1 ∧ (c.make m).2.errs = c.errs := ⟨rfl, rfl, rfl, rfl⟩

theorem MFrame.append (ex : List Nat) (m x : MMem) : MFrame ex m (m ++ x) :=
  ⟨by simp, fun _ ha _ => MMem.at_append ha⟩

theorem newMVisitor_spec (id : Str) (n e : Option Nat) (c : MCatcher σ) :
    (∀ a, n = some a → a < c.mem.length) → (∀ a, e = some a → a < c.mem.length) →
    (newMVisitor id n e c).1 = ⟨id, c.mem.length, c.mem.length + 1, c.mem.length + 2, []⟩ ∧
    (newMVisitor id n e c).2.mem = c.mem ++ [attrsAmmend [] ((n.map c.mem.mapAt).getD []), attrsAmmend [] ((e.map c.mem.mapAt).getD []), []] ∧
    (newMVisitor id n e c).2.g.1 = c.g.1 ∧ (newMVisitor id n e c).2.errs = c.errs := by
  intro hn he
  refine ⟨?_, ?_, rfl, rfl⟩
  · simp only [newMVisitor, Catcher.make, Catcher.mem, List.length_append, List.length_cons, List.length_nil]
  · have h1 : (c.make (attrsAmmend [] ((n.map c.mem.mapAt).getD []))).2.mem = c.mem ++ [attrsAmmend [] ((n.map c.mem.mapAt).getD [])] := rfl
    have h2 : ∀ (m : Map Str), ((e.map (c.mem ++ [m]).mapAt).getD []) = (e.map c.mem.mapAt).getD [] := by
      intro m
      cases e with
      | none => rfl
      | some a => simp only [Option.map_some, Option.getD_some]; exact MMem.at_append (he a rfl)
    cases n with
    | none =>
      cases e with
      | none => simp [newMVisitor, Catcher.make, Catcher.mem]
      | some a =>
        have := h2 (attrsAmmend [] [])
        simp only [Option.map_some, Option.getD_some, Catcher.mem] at this
        simp [newMVisitor, Catcher.make, Catcher.mem, this]
    | some b =>
      cases e with
      | none => simp [newMVisitor, Catcher.make, Catcher.mem]
      | some a =>
        have := h2 (attrsAmmend [] (c.mem.mapAt b))
        simp only [Option.map_some, Option.getD_some, Catcher.mem] at this
        simp [newMVisitor, Catcher.make, Catcher.mem, this]

theorem newMVisitor_rel {c : MCatcher σ} {n e : Option Nat} (hn : ∀ a, n = some a → a < c.mem.length) (he : ∀ a, e = some a → a < c.mem.length)
    (id : Str) : VRel (newMVisitor id n e c).1 (newVisitor id ((n.map c.mem.mapAt).getD []) ((e.map c.mem.mapAt).getD [])) (newMVisitor id n e c).2.mem ∧
      MFrame [] c.mem (newMVisitor id n e c).2.mem := by
  obtain ⟨h1, h2, -, -⟩ := newMVisitor_spec id n e c hn he
  rw [h1, h2]
  refine ⟨?_, MFrame.append _ _ _⟩
  have at0 : ∀ (x y z : Map Str), (c.mem ++ [x, y, z]).mapAt c.mem.length = x ∧ (c.mem ++ [x, y, z]).mapAt (c.mem.length + 1) = y ∧
      (c.mem ++ [x, y, z]).mapAt (c.mem.length + 2) = z := by
    intro x y z; refine ⟨?_, ?_, ?_⟩ <;> simp [List.mapAt]
  exact ⟨rfl, rfl, (at0 _ _ _).1, (at0 _ _ _).2.1, (at0 _ _ _).2.2, by dsimp only; omega, by dsimp only; omega, by dsimp only; omega,
    by simp, by simp, by simp⟩

section
variable (I : Iface σ)

theorem copying_addNodeFromEdge {w : MVisitor} {v : Visitor} {c : MCatcher σ} {d : Catcher σ} (hv : VRel w v c.mem) (hc : CRel c d) (id : Str) :
    VRel (mAddNodeFromEdge (copying I) w c id).1 (addNodeFromEdge I v d id).1 (mAddNodeFromEdge (copying I) w c id).2.mem ∧
    CRel (mAddNodeFromEdge (copying I) w c id).2 (addNodeFromEdge I v d id).2 ∧
    (mAddNodeFromEdge (copying I) w c id).1.maps = w.maps ∧ (mAddNodeFromEdge (copying I) w c id).2.mem = c.mem := by
  unfold mAddNodeFromEdge addNodeFromEdge
  rw [hv.created]
  by_cases h : mhas v.created id = true
  · simp only [h, if_true]; exact ⟨hv, hc, trivial, trivial⟩
  · rw [if_neg h, if_neg h]
    dsimp only
    have hm : (c.record ((copying I).addNode c.g w.graphName id w.nodeAttrs)).mem = c.mem := by rw [record_mem]; rfl
    refine ⟨?_, ?_, rfl, hm⟩
    · refine { (?_ : VRel w v _) with created := by rw [← hv.created] }
      show VRel w v (c.record ((copying I).addNode c.g w.graphName id w.nodeAttrs)).mem
      rw [hm]; exact hv
    · apply hc.record
      · show (I.addNode c.g.1 w.graphName id (c.mem.mapAt w.nodeAttrs)).1 = _
        rw [hc.g, hv.name, hv.node]
      · show (I.addNode c.g.1 w.graphName id (c.mem.mapAt w.nodeAttrs)).2 = _
        rw [hc.g, hv.name, hv.node]

theorem copying_endpoint {w : MVisitor} {v : Visitor} {c : MCatcher σ} {d : Catcher σ} (hv : VRel w v c.mem) (hc : CRel c d) (b : Bool) (id : Str) :
    VRel (if b then mAddNodeFromEdge (copying I) w c id else (w, c)).1 (if b then addNodeFromEdge I v d id else (v, d)).1
      (if b then mAddNodeFromEdge (copying I) w c id else (w, c)).2.mem ∧
    CRel (if b then mAddNodeFromEdge (copying I) w c id else (w, c)).2 (if b then addNodeFromEdge I v d id else (v, d)).2 ∧
    (if b then mAddNodeFromEdge (copying I) w c id else (w, c)).1.maps = w.maps ∧
    (if b then mAddNodeFromEdge (copying I) w c id else (w, c)).2.mem = c.mem := by
  cases b
  · exact ⟨hv, hc, rfl, rfl⟩
  · exact copying_addNodeFromEdge I hv hc id

theorem copying_edgeLoop {attrs : Nat} {m : Map Str} (rhs : List EdgeRH) : ∀ {w : MVisitor} {v : Visitor} {c : MCatcher σ} {d : Catcher σ}
    (_ : VRel w v c.mem) (_ : CRel c d) (_ : c.mem.mapAt attrs = m) (src : Str) (port : Ast.Port),
    VRel (mEdgeLoop (copying I) attrs w c src port rhs).1 (edgeLoop I m v d src port rhs).1 (mEdgeLoop (copying I) attrs w c src port rhs).2.mem ∧
    CRel (mEdgeLoop (copying I) attrs w c src port rhs).2 (edgeLoop I m v d src port rhs).2 ∧
    (mEdgeLoop (copying I) attrs w c src port rhs).1.maps = w.maps ∧ (mEdgeLoop (copying I) attrs w c src port rhs).2.mem = c.mem := by
  induction rhs with
  | nil => intro w v c d hv hc hm src port; exact ⟨hv, hc, rfl, rfl⟩
  | cons r rest ih =>
    obtain ⟨op, dst⟩ := r
    intro w v c d hv hc hm src port
    simp only [mEdgeLoop, edgeLoop]
    obtain ⟨h1, h2, h3, h4⟩ := copying_endpoint I hv hc dst.isNode dst.getID
    generalize (if dst.isNode = true then mAddNodeFromEdge (copying I) w c dst.getID else (w, c)) = x at h1 h2 h3 h4 ⊢
    generalize (if dst.isNode = true then addNodeFromEdge I v d dst.getID else (v, d)) = y at h1 h2 h3 h4 ⊢
    obtain ⟨w1, c1⟩ := x
    obtain ⟨v1, d1⟩ := y
    dsimp only at h1 h2 h3 h4 ⊢
    have hm1 : c1.g.2.mapAt attrs = m := by
      have : c1.g.2 = c.mem := h4
      rw [this, hm]
    have hmem : (c1.record ((copying I).addPortEdge c1.g src (Ast.portStr port) dst.getID (Ast.portStr dst.getPort) op attrs)).mem = c1.mem := by
      rw [record_mem]; rfl
    have hc2 : CRel (c1.record ((copying I).addPortEdge c1.g src (Ast.portStr port) dst.getID (Ast.portStr dst.getPort) op attrs))
        (d1.record (I.addPortEdge d1.g src (Ast.portStr port) dst.getID (Ast.portStr dst.getPort) op m)) := by
      apply h2.record
      · show (I.addPortEdge c1.g.1 src (Ast.portStr port) dst.getID (Ast.portStr dst.getPort) op (c1.g.2.mapAt attrs)).1 = _
        rw [hm1, h2.g]
      · show (I.addPortEdge c1.g.1 src (Ast.portStr port) dst.getID (Ast.portStr dst.getPort) op (c1.g.2.mapAt attrs)).2 = _
        rw [hm1, h2.g]
    obtain ⟨g1, g2, g3, g4⟩ := ih (w := w1) (v := v1) (by rw [hmem]; exact h1) hc2 (by rw [hmem, h4, hm]) dst.getID dst.getPort
    exact ⟨g1, g2, g3.trans h3, by rw [g4, hmem, h4]⟩

theorem copying_edgeStmt {w : MVisitor} {v : Visitor} {c : MCatcher σ} {d : Catcher σ} (hv : VRel w v c.mem) (hc : CRel c d)
    (src : Loc) (rhs : List EdgeRH) (as : AttrList) :
    VRel (mEdgeStmt (copying I) w c src rhs as).1 (edgeStmt I v d src rhs as).1 (mEdgeStmt (copying I) w c src rhs as).2.mem ∧
    CRel (mEdgeStmt (copying I) w c src rhs as).2 (edgeStmt I v d src rhs as).2 ∧
    (mEdgeStmt (copying I) w c src rhs as).1.maps = w.maps ∧ MFrame [] c.mem (mEdgeStmt (copying I) w c src rhs as).2.mem := by
  simp only [mEdgeStmt, edgeStmt]
  rw [hv.edge]
  generalize hm : attrsAmmend (Ast.getMap as) v.edgeAttrs = m
  obtain ⟨k1, k2, k3, k4⟩ := make_spec c m
  generalize c.make m = x at k1 k2 k3 k4 ⊢
  obtain ⟨a, c1⟩ := x
  dsimp only at k1 k2 k3 k4 ⊢
  have hf : MFrame [] c.mem c1.mem := by rw [k2]; exact MFrame.append _ _ _
  obtain ⟨h1, h2, h3, h4⟩ := copying_endpoint I (hv.frame hf) (⟨k3.trans hc.g, k4.trans hc.errs⟩ : CRel c1 d) src.isNode src.getID
  generalize (if src.isNode = true then mAddNodeFromEdge (copying I) w c1 src.getID else (w, c1)) = x at h1 h2 h3 h4 ⊢
  generalize (if src.isNode = true then addNodeFromEdge I v d src.getID else (v, d)) = y at h1 h2 h3 h4 ⊢
  obtain ⟨w1, c2⟩ := x
  obtain ⟨v1, d1⟩ := y
  dsimp only at h1 h2 h3 h4 ⊢
  obtain ⟨g1, g2, g3, g4⟩ := copying_edgeLoop I (attrs := a) (m := m) rhs h1 h2
    (by rw [h4, k1, k2]; exact MMem.at_new _ _) src.getID src.getPort
  exact ⟨g1, g2, g3.trans h3, by rw [g4, h4]; exact hf⟩

theorem copying_nodeStmt {w : MVisitor} {v : Visitor} {c : MCatcher σ} {d : Catcher σ} (hv : VRel w v c.mem) (hc : CRel c d)
    (id : NodeID) (as : AttrList) :
    VRel (mNodeStmt (copying I) w c id as).1 (nodeStmt I v d id as).1 (mNodeStmt (copying I) w c id as).2.mem ∧
    CRel (mNodeStmt (copying I) w c id as).2 (nodeStmt I v d id as).2 ∧
    (mNodeStmt (copying I) w c id as).1.maps = w.maps ∧ MFrame [] c.mem (mNodeStmt (copying I) w c id as).2.mem := by
  simp only [mNodeStmt, nodeStmt]
  rw [hv.node, hv.created, hv.name]
  generalize hm : attrsAmmend (Ast.getMap as) (if (!mhas v.created (Ast.nodeIDStr id)) = true then v.nodeAttrs else []) = m
  obtain ⟨k1, k2, k3, k4⟩ := make_spec c m
  generalize c.make m = x at k1 k2 k3 k4 ⊢
  obtain ⟨a, c1⟩ := x
  dsimp only at k1 k2 k3 k4 ⊢
  have hf : MFrame [] c.mem c1.mem := by rw [k2]; exact MFrame.append _ _ _
  have hmem : (c1.record ((copying I).addNode c1.g v.graphName (Ast.nodeIDStr id) a)).mem = c1.mem := by rw [record_mem]; rfl
  have hat : c1.g.2.mapAt a = m := by
    have : c1.g.2 = c.mem ++ [m] := k2
    rw [this, k1]; exact MMem.at_new _ _
  refine ⟨?_, ?_, ?_, by rw [hmem]; exact hf⟩
  · rw [hmem]
    have hv1 := hv.frame hf
    split
    · exact { hv1 with name := rfl, created := rfl }
    · exact hv1
  · apply (⟨k3.trans hc.g, k4.trans hc.errs⟩ : CRel c1 d).record
    · show (I.addNode c1.g.1 v.graphName (Ast.nodeIDStr id) (c1.g.2.mapAt a)).1 = _
      rw [hat, k3, hc.g]
    · show (I.addNode c1.g.1 v.graphName (Ast.nodeIDStr id) (c1.g.2.mapAt a)).2 = _
      rw [hat, k3, hc.g]
  · split
    · simp [MVisitor.maps]
    · rfl

theorem copying_graphAttrsLoop (name : Str) (kvs : List (Str × Str)) : ∀ {c : MCatcher σ} {d : Catcher σ} (_ : CRel c d),
    CRel (mGraphAttrsLoop (copying I) name c kvs) (graphAttrsLoop I name d kvs) ∧ (mGraphAttrsLoop (copying I) name c kvs).mem = c.mem := by
  induction kvs with
  | nil => intro c d hc; exact ⟨hc, rfl⟩
  | cons e kvs ih =>
    obtain ⟨k, v⟩ := e
    intro c d hc
    simp only [mGraphAttrsLoop, graphAttrsLoop]
    have hmem : (c.record ((copying I).addAttr c.g name k v)).mem = c.mem := by rw [record_mem]; rfl
    obtain ⟨h1, h2⟩ := ih (c := c.record ((copying I).addAttr c.g name k v)) (d := d.record (I.addAttr d.g name k v)) (by
      apply hc.record
      · show (I.addAttr c.g.1 name k v).1 = _; rw [hc.g]
      · show (I.addAttr c.g.1 name k v).2 = _; rw [hc.g])
    exact ⟨h1, h2.trans hmem⟩

theorem overwrite_mem (c : MCatcher σ) (a : Nat) (as : AttrList) :
    (mOverwrite c a as).mem = c.mem.set a (overwrite (c.mem.mapAt a) (Ast.getMap as)) := rfl

theorem overwrite_frame (c : MCatcher σ) {a : Nat} {ex : List Nat} (h : a ∈ ex) (as : AttrList) : MFrame ex c.mem (mOverwrite c a as).mem := by
  refine ⟨by rw [overwrite_mem]; simp, fun b _ hb => ?_⟩
  rw [overwrite_mem, MMem.at_set, if_neg]
  rintro ⟨rfl, _⟩; exact hb h

theorem overwrite_at (c : MCatcher σ) {a : Nat} (h : a < c.mem.length) (as : AttrList) (b : Nat) :
    (mOverwrite c a as).mem.mapAt b = if a = b then overwrite (c.mem.mapAt a) (Ast.getMap as) else c.mem.mapAt b := by
  rw [overwrite_mem, MMem.at_set]
  by_cases hb : a = b
  · subst hb; simp [h]
  · simp [hb]

/-- The visitor of a subgraph, after the call `AddSubGraph`. -/
theorem copying_subGraph {w : MVisitor} {v : Visitor} {c : MCatcher σ} {d : Catcher σ} (hv : VRel w v c.mem) (hc : CRel c d) (id : Str) :
    VRel (mSubGraph (copying I) w c id).1 (newVisitor id v.nodeAttrs v.edgeAttrs) (mSubGraph (copying I) w c id).2.mem ∧
    CRel (mSubGraph (copying I) w c id).2 (d.record (I.addSubGraph d.g v.graphName id v.graphAttrs)) ∧
    MFrame [] c.mem (mSubGraph (copying I) w c id).2.mem ∧ ∀ a ∈ (mSubGraph (copying I) w c id).1.maps, c.mem.length ≤ a := by
  unfold mSubGraph
  generalize hc1 : c.record ((copying I).addSubGraph c.g w.graphName id w.graphAttrs) = c1
  have hmem : c1.mem = c.mem := by rw [← hc1, record_mem]; rfl
  have hcr : CRel c1 (d.record (I.addSubGraph d.g v.graphName id v.graphAttrs)) := by
    rw [← hc1]
    apply hc.record
    · show (I.addSubGraph c.g.1 w.graphName id (c.mem.mapAt w.graphAttrs)).1 = _
      rw [hc.g, hv.name, hv.graph]
    · show (I.addSubGraph c.g.1 w.graphName id (c.mem.mapAt w.graphAttrs)).2 = _
      rw [hc.g, hv.name, hv.graph]
  have hn : ∀ a, some w.nodeAttrs = some a → a < c1.mem.length := by intro a h; cases h; rw [hmem]; exact hv.nl
  have he : ∀ a, some w.edgeAttrs = some a → a < c1.mem.length := by intro a h; cases h; rw [hmem]; exact hv.el
  obtain ⟨h1, h2, h3, h4⟩ := newMVisitor_spec id (some w.nodeAttrs) (some w.edgeAttrs) c1 hn he
  obtain ⟨h5, h6⟩ := newMVisitor_rel hn he id
  have e1 : ((some w.nodeAttrs).map c1.mem.mapAt).getD [] = v.nodeAttrs := by
    simp only [Option.map_some, Option.getD_some]; rw [hmem, hv.node]
  have e2 : ((some w.edgeAttrs).map c1.mem.mapAt).getD [] = v.edgeAttrs := by
    simp only [Option.map_some, Option.getD_some]; rw [hmem, hv.edge]
  rw [e1, e2] at h5
  refine ⟨h5, ⟨h3.trans hcr.g, h4.trans hcr.errs⟩, by rw [hmem] at h6; exact h6, ?_⟩
  rw [h1, ← hmem]
  intro a ha
  simp only [MVisitor.maps, List.mem_cons, List.not_mem_nil, or_false] at ha
  omega

mutual
theorem copying_stmt {w : MVisitor} {v : Visitor} {c : MCatcher σ} {d : Catcher σ} (hv : VRel w v c.mem) (hc : CRel c d) : ∀ s : Stmt,
    VRel (mWalkStmt (copying I) w c s).1 (walkStmt I v d s).1 (mWalkStmt (copying I) w c s).2.mem ∧
    CRel (mWalkStmt (copying I) w c s).2 (walkStmt I v d s).2 ∧
    (mWalkStmt (copying I) w c s).1.maps = w.maps ∧ MFrame w.maps c.mem (mWalkStmt (copying I) w c s).2.mem
  | .node id as => by
    simp only [mWalkStmt, walkStmt]
    obtain ⟨h1, h2, h3, h4⟩ := copying_nodeStmt I hv hc id as
    exact ⟨h1, h2, h3, h4.weaken⟩
  | .edge src rhs as => by
    simp only [mWalkStmt, walkStmt]
    obtain ⟨h1, h2, h3, h4⟩ := copying_edgeStmt I hv hc src rhs as
    generalize mEdgeStmt (copying I) w c src rhs as = x at h1 h2 h3 h4 ⊢
    generalize edgeStmt I v d src rhs as = y at h1 h2 h3 h4 ⊢
    obtain ⟨w1, c1⟩ := x
    obtain ⟨v1, d1⟩ := y
    dsimp only at h1 h2 h3 h4 ⊢
    obtain ⟨g1, g2⟩ := copying_loc h1 h2 src
    obtain ⟨k1, k2⟩ := copying_rhs (h1.frame g2) g1 rhs
    exact ⟨h1.frame (g2.trans k2), k1, h3, ((h4.trans g2).trans k2).weaken⟩
  | .nodeAttrs as => by
    simp only [mWalkStmt, walkStmt]
    refine ⟨?_, ⟨hc.g, hc.errs⟩, trivial, overwrite_frame c (by simp [MVisitor.maps]) as⟩
    have hl : (mOverwrite c w.nodeAttrs as).mem.length = c.mem.length := by rw [overwrite_mem]; simp
    exact { hv with
      node := by rw [overwrite_at c hv.nl, if_pos rfl, hv.node]
      edge := by rw [overwrite_at c hv.nl, if_neg hv.ne, hv.edge]
      graph := by rw [overwrite_at c hv.nl, if_neg hv.ng, hv.graph]
      nl := by rw [hl]; exact hv.nl
      el := by rw [hl]; exact hv.el
      gl := by rw [hl]; exact hv.gl }
  | .edgeAttrs as => by
    simp only [mWalkStmt, walkStmt]
    refine ⟨?_, ⟨hc.g, hc.errs⟩, trivial, overwrite_frame c (by simp [MVisitor.maps]) as⟩
    have hl : (mOverwrite c w.edgeAttrs as).mem.length = c.mem.length := by rw [overwrite_mem]; simp
    exact { hv with
      node := by rw [overwrite_at c hv.el, if_neg (Ne.symm hv.ne), hv.node]
      edge := by rw [overwrite_at c hv.el, if_pos rfl, hv.edge]
      graph := by rw [overwrite_at c hv.el, if_neg hv.eg, hv.graph]
      nl := by rw [hl]; exact hv.nl
      el := by rw [hl]; exact hv.el
      gl := by rw [hl]; exact hv.gl }
  | .graphAttrs as => by
    simp only [mWalkStmt, walkStmt, graphAttrsStmt]
    obtain ⟨h1, h2⟩ := copying_graphAttrsLoop I w.graphName (Ast.getMap as) hc
    rw [hv.name] at h1 h2 ⊢
    generalize mGraphAttrsLoop (copying I) v.graphName c (Ast.getMap as) = c1 at h1 h2 ⊢
    have hg : w.graphAttrs < c1.mem.length := by rw [h2]; exact hv.gl
    have hl : (mOverwrite c1 w.graphAttrs as).mem.length = c.mem.length := by rw [overwrite_mem, h2]; simp
    refine ⟨?_, ⟨h1.g, h1.errs⟩, trivial, by rw [← h2]; exact overwrite_frame c1 (by simp [MVisitor.maps]) as⟩
    exact { hv with
      node := by rw [overwrite_at c1 hg, if_neg (Ne.symm hv.ng), h2, hv.node]
      edge := by rw [overwrite_at c1 hg, if_neg (Ne.symm hv.eg), h2, hv.edge]
      graph := by rw [overwrite_at c1 hg, if_pos rfl, h2, hv.graph]
      nl := by rw [hl]; exact hv.nl
      el := by rw [hl]; exact hv.el
      gl := by rw [hl]; exact hv.gl }
  | .sub id body => by
    simp only [mWalkStmt, walkStmt]
    obtain ⟨h1, h2, h3, h4⟩ := copying_subGraph I hv hc id
    generalize mSubGraph (copying I) w c id = x at h1 h2 h3 h4 ⊢
    obtain ⟨w1, c1⟩ := x
    dsimp only at h1 h2 h3 h4 ⊢
    obtain ⟨g1, g2, g3, g4⟩ := copying_stmts h1 h2 body
    have hf : MFrame [] c.mem (mWalkStmts (copying I) w1 c1 body).2.mem := by
      refine ⟨Nat.le_trans h3.len g4.len, fun a ha _ => ?_⟩
      rw [g4.same a (Nat.lt_of_lt_of_le ha h3.len) (fun hm => by have := h4 a hm; omega), h3.same a ha (by simp)]
    exact ⟨hv.frame hf, g2, trivial, hf.weaken⟩
  | .attr a => by
    simp only [mWalkStmt, walkStmt]
    have hmem : (c.record ((copying I).addAttr c.g w.graphName a.field a.value)).mem = c.mem := by rw [record_mem]; rfl
    refine ⟨by rw [hmem]; exact hv, ?_, trivial, by rw [hmem]; exact MFrame.refl _ _⟩
    apply hc.record
    · show (I.addAttr c.g.1 w.graphName a.field a.value).1 = _; rw [hc.g, hv.name]
    · show (I.addAttr c.g.1 w.graphName a.field a.value).2 = _; rw [hc.g, hv.name]
theorem copying_loc {w : MVisitor} {v : Visitor} {c : MCatcher σ} {d : Catcher σ} (hv : VRel w v c.mem) (hc : CRel c d) : ∀ l : Loc,
    CRel (mWalkLoc (copying I) w c l) (walkLoc I v d l) ∧ MFrame [] c.mem (mWalkLoc (copying I) w c l).mem
  | .node _ => ⟨hc, MFrame.refl _ _⟩
  | .sub id body => by
    simp only [mWalkLoc, walkLoc]
    obtain ⟨h1, h2, h3, h4⟩ := copying_subGraph I hv hc id
    generalize mSubGraph (copying I) w c id = x at h1 h2 h3 h4 ⊢
    obtain ⟨w1, c1⟩ := x
    dsimp only at h1 h2 h3 h4 ⊢
    obtain ⟨g1, g2, g3, g4⟩ := copying_stmts h1 h2 body
    refine ⟨g2, Nat.le_trans h3.len g4.len, fun a ha _ => ?_⟩
    rw [g4.same a (Nat.lt_of_lt_of_le ha h3.len) (fun hm => by have := h4 a hm; omega), h3.same a ha (by simp)]
theorem copying_rhs {w : MVisitor} {v : Visitor} {c : MCatcher σ} {d : Catcher σ} (hv : VRel w v c.mem) (hc : CRel c d) : ∀ rhs : List EdgeRH,
    CRel (mWalkRHS (copying I) w c rhs) (walkRHS I v d rhs) ∧ MFrame [] c.mem (mWalkRHS (copying I) w c rhs).mem
  | [] => ⟨hc, MFrame.refl _ _⟩
  | .mk _ dst :: rest => by
    simp only [mWalkRHS, walkRHS]
    obtain ⟨h1, h2⟩ := copying_loc hv hc dst
    obtain ⟨g1, g2⟩ := copying_rhs (hv.frame h2) h1 rest
    exact ⟨g1, h2.trans g2⟩
theorem copying_stmts {w : MVisitor} {v : Visitor} {c : MCatcher σ} {d : Catcher σ} (hv : VRel w v c.mem) (hc : CRel c d) : ∀ ss : List Stmt,
    VRel (mWalkStmts (copying I) w c ss).1 (walkStmts I v d ss).1 (mWalkStmts (copying I) w c ss).2.mem ∧
    CRel (mWalkStmts (copying I) w c ss).2 (walkStmts I v d ss).2 ∧
    (mWalkStmts (copying I) w c ss).1.maps = w.maps ∧ MFrame w.maps c.mem (mWalkStmts (copying I) w c ss).2.mem
  | [] => ⟨hv, hc, rfl, MFrame.refl _ _⟩
  | s :: ss => by
    simp only [mWalkStmts, walkStmts]
    obtain ⟨h1, h2, h3, h4⟩ := copying_stmt hv hc s
    generalize mWalkStmt (copying I) w c s = x at h1 h2 h3 h4 ⊢
    generalize walkStmt I v d s = y at h1 h2 h3 h4 ⊢
    obtain ⟨w1, c1⟩ := x
    obtain ⟨v1, d1⟩ := y
    dsimp only at h1 h2 h3 h4 ⊢
    obtain ⟨g1, g2, g3, g4⟩ := copying_stmts h1 h2 ss
    exact ⟨g1, g2, g3.trans h3, h4.trans (by rw [← h3]; exact g4)⟩
end

end

end Gographviz
