import Verif.Props.MergeProps
import Verif.Spec.Pieces
/-!
C89: a document can be analysed piece by piece.
-/
namespace Gographviz.Props

open Gographviz Gographviz.Spec Gographviz.Spec.Document Gographviz.Spec.Pieces
open Gographviz.Ast (Stmt Loc EdgeRH AttrList)

namespace Pieces

/-- The second list of calls is the first one without some calls that create the nodes `ns` in `p` without attributes. -/
inductive Extra (p : Str) (ns : List Str) : List Call → List Call → Prop where
  | nil : Extra p ns [] []
  | same (x : Call) {l l' : List Call} : Extra p ns l l' → Extra p ns (x :: l) (x :: l')
  | extra {n : Str} {l l' : List Call} : n ∈ ns → Extra p ns l l' → Extra p ns (.addNode p n [] :: l) l'

theorem Extra.refl (p : Str) (ns : List Str) (l : List Call) : Extra p ns l l := by
  induction l with
  | nil => exact .nil
  | cons x l ih => exact .same x ih

theorem Extra.append {p : Str} {ns : List Str} {a a' b b' : List Call} (h : Extra p ns a a') (h' : Extra p ns b b') : Extra p ns (a ++ b) (a' ++ b') := by
  induction h with
  | nil => exact h'
  | same x _ ih => exact .same x ih
  | extra hn _ ih => exact .extra hn ih

/-- The nodes are there, in the (sub)graph `p`. -/
def Known (p : Str) (ns : List Str) (g : Graph) : Prop := ∀ n ∈ ns, ((abs g).node n).isSome = true ∧ (abs g).contains p n = true

theorem setAttr_keeps (a : AGraph) (t k v : Str) : (a.setAttr t k v).node = a.node ∧ (a.setAttr t k v).contains = a.contains := by
  unfold AGraph.setAttr
  split
  · exact ⟨rfl, rfl⟩
  · split <;> exact ⟨rfl, rfl⟩

theorem setAttrs_keeps (t : Str) (as : List (Str × Str)) (a : AGraph) : (a.setAttrs t as).1.node = a.node ∧ (a.setAttrs t as).1.contains = a.contains := by
  induction as generalizing a with
  | nil => exact ⟨rfl, rfl⟩
  | cons e as ih =>
    obtain ⟨k, v⟩ := e
    simp only [AGraph.setAttrs]
    split
    · have h := ih (a.setAttr t k v)
      have h2 := setAttr_keeps a t k v
      exact ⟨h.1.trans h2.1, h.2.trans h2.2⟩
    · exact ⟨rfl, rfl⟩

theorem astep_keeps (a : AGraph) (x : Call) (p n : Str) (h1 : (a.node n).isSome = true) (h2 : a.contains p n = true) :
    ((a.step (callOp x)).1.node n).isSome = true ∧ (a.step (callOp x)).1.contains p n = true := by
  cases x with
  | setStrict b => exact ⟨h1, h2⟩
  | setDir b => exact ⟨h1, h2⟩
  | setName b => exact ⟨h1, h2⟩
  | addPortEdge s sp d dp dir m =>
    simp only [callOp, AGraph.step]
    split <;> exact ⟨h1, h2⟩
  | addNode q m as =>
    simp only [callOp, AGraph.step]
    split
    · exact ⟨h1, h2⟩
    · constructor
      · simp only [upd]
        split <;> simp [h1]
      · simp [h2]
  | addAttr t k v =>
    simp only [callOp, AGraph.step]
    split
    · split
      · have h := setAttr_keeps a t k v
        simp only [h.1, h.2]
        exact ⟨h1, h2⟩
      · exact ⟨h1, h2⟩
    · exact ⟨h1, h2⟩
  | addSubGraph q m as =>
    simp only [callOp, AGraph.step]
    rw [(setAttrs_keeps _ _ _).1, (setAttrs_keeps _ _ _).2]
    exact ⟨h1, by simp [h2]⟩

theorem known_call {p : Str} {ns : List Str} {g : Graph} (hg : Reachable g) (h : Known p ns g) {x : Call} (hx : MapWF x.attrs) :
    Known p ns (graphIface.call g x).1 := by
  intro n hn
  have hs := congrArg Prod.fst (abs_step hg.inv (callOp x) (callOp_ok g hx))
  simp only at hs
  rw [graphIface_call, hs]
  exact astep_keeps (abs g) x p n (h n hn).1 (h n hn).2

/-- To create a node without attributes where it is changes nothing. -/
theorem addNode_known {g : Graph} (hg : Reachable g) {p n : Str} (h1 : ((abs g).node n).isSome = true) (h2 : (abs g).contains p n = true) :
    g.addNode p n [] = (g, none) := by
  have hi := hg.inv
  rw [addNode_ok g p n (as := []) (by intro e he; cases he)]
  have hr : g.relations.add p n = g.relations := by
    have hc : mhas (g.relations.children p) n = true := h2
    have hc' := hc
    rw [hi.rels.inv] at hc'
    have key : ∀ (m : Map (Map Bool)) (a b : Str), MapWF m → (∀ s, MapWF ((mget m s).getD [])) → (∀ x, mget ((mget m a).getD []) b = some x → x = true) →
        mhas ((mget m a).getD []) b = true → relIndexAdd m a b = m := by
      intro m a b hw hwi ht hm
      obtain ⟨x, hx⟩ := (mhas_iff_mget _ _).1 hm
      cases ht x hx
      rcases Option.eq_none_or_eq_some (mget m a) with hn | ⟨i, hs⟩
      · rw [hn] at hx; cases hx
      · have := hwi a
        rw [hs] at hx this
        exact relIndexAdd_self hw hs this hx
    unfold Relations.add
    rw [key g.relations.parentToChildren p n hi.rels.wf1 hi.rels.iwf1 (hi.rels.tt p n) hc,
      key g.relations.childToParents n p hi.rels.wf2 hi.rels.iwf2 (hi.rels.tt2 p n) hc']
  have hnode : g.nodes.add ⟨n, msetAll [] []⟩ = g.nodes := by
    unfold Nodes.add
    simp only
    have hl : mget g.nodes.lookup n ≠ none := by
      intro hne
      rw [(abs_node_none hi n).2 hne] at h1
      cases h1
    rcases Option.eq_none_or_eq_some (mget g.nodes.lookup n) with hn | ⟨q, hs⟩
    · exact absurd hn hl
    · rw [hs]
      simp only [Nodes.updateAttrs, attrsExtend, msetAll, List.foldl_nil]
      have hm : g.nodes.heap.modify q (fun n => ({ name := n.name, attrs := n.attrs } : Node)) = g.nodes.heap := List.modify_id _ _
      rw [hm]
  rw [hr, hnode]

theorem replay_extra {p : Str} {ns : List Str} {l l' : List Call} (h : Extra p ns l l') {g : Graph} (hg : Reachable g) (hk : Known p ns g)
    (hw : ∀ x ∈ l, MapWF x.attrs) : replay graphIface g l = replay graphIface g l' := by
  induction h generalizing g with
  | nil => rfl
  | same x _ ih =>
    simp only [replay]
    have hx := hw x (List.mem_cons_self ..)
    have hr : Reachable (graphIface.call g x).1 := by
      rw [graphIface_call]
      exact .step _ hg (callOp_ok g hx)
    rw [ih hr (known_call hg hk hx) (fun y hy => hw y (List.mem_cons_of_mem _ hy))]
  | @extra n l l' hn _ ih =>
    simp only [replay]
    have he : graphIface.call g (.addNode p n []) = (g, none) := addNode_known hg (hk n hn).1 (hk n hn).2
    rw [he]
    simp only [Option.toList_none, List.nil_append]
    rw [← ih hg hk (fun y hy => hw y (List.mem_cons_of_mem _ hy))]

/-! ### the calls of the second document with and without the first one before it -/

variable {s1 : List Stmt}

theorem nodeDefaults_pre (h : NoDefaults s1) (sc : Scope) (pre : List Stmt) : sc.nodeDefaults (s1 ++ pre) = sc.nodeDefaults pre := by
  unfold Scope.nodeDefaults
  rw [nodeDefaultEntries_append, h.1, List.nil_append]

theorem edgeDefaults_pre (h : NoDefaults s1) (sc : Scope) (pre : List Stmt) : sc.edgeDefaults (s1 ++ pre) = sc.edgeDefaults pre := by
  unfold Scope.edgeDefaults
  rw [edgeDefaultEntries_append, h.2.1, List.nil_append]

theorem graphDefaults_pre (h : NoDefaults s1) (pre : List Stmt) : graphDefaults (s1 ++ pre) = graphDefaults pre := by
  unfold graphDefaults
  rw [graphDefaultEntries_append, h.2.2, List.nil_append]

theorem mentioned_append (a b : List Stmt) : mentioned (a ++ b) = mentioned a ++ mentioned b := by
  simp [mentioned]

theorem create_extra (h : NoDefaults s1) (sc : Scope) (hsc : sc.inhNode = []) (pre : List Stmt) (seen : List Str) (l : Loc)
    (hl : ∀ n ∈ locNode l, n ∈ mentioned s1 → n ∉ mentioned pre → nodeDefaultEntries pre = []) :
    Extra sc.name (mentioned s1) (createCall sc pre seen l) (createCall sc (s1 ++ pre) seen l) := by
  cases l with
  | sub id body => exact .nil
  | node nd =>
    simp only [createCall, nodeDefaults_pre h, mentioned_append, List.mem_append]
    by_cases hp : nd.id ∈ mentioned pre
    · simp only [hp, true_or, or_true, if_true]; exact .nil
    · by_cases hs : nd.id ∈ seen
      · simp only [hs, or_true, if_true]; exact .nil
      · by_cases h1 : nd.id ∈ mentioned s1
        · simp only [hp, hs, h1, or_false, or_self, if_false, if_true]
          have := hl nd.id (List.mem_singleton.2 rfl) h1 hp
          have hd : sc.nodeDefaults pre = [] := by simp [Scope.nodeDefaults, hsc, this, msetAll]
          rw [hd]
          exact .extra h1 .nil
        · simp only [hp, hs, h1, or_self, if_false]
          exact .refl _ _ _

theorem chain_extra (h : NoDefaults s1) (sc : Scope) (hsc : sc.inhNode = []) (pre : List Stmt) (attrs : Map Str) (rhs : List EdgeRH) :
    ∀ (seen : List Str) (prev : Loc), (∀ l ∈ dests rhs, ∀ n ∈ locNode l, n ∈ mentioned s1 → n ∉ mentioned pre → nodeDefaultEntries pre = []) →
    Extra sc.name (mentioned s1) (chainCalls sc pre attrs seen prev rhs) (chainCalls sc (s1 ++ pre) attrs seen prev rhs) := by
  induction rhs with
  | nil => intro seen prev _; exact .nil
  | cons r rest ih =>
    obtain ⟨op, d⟩ := r
    intro seen prev hl
    simp only [chainCalls]
    refine .append (.append (create_extra h sc hsc pre seen d (hl d ?_)) (.refl _ _ _)) (ih _ _ fun l hm => hl l ?_)
    · simp [dests]
    · simp [dests, hm]

theorem locCalls_pre (h : NoDefaults s1) (sc : Scope) (pre : List Stmt) (l : Loc) : locCalls sc (s1 ++ pre) l = locCalls sc pre l := by
  cases l <;> simp [locCalls, nodeDefaults_pre h, edgeDefaults_pre h, graphDefaults_pre h]

theorem rhsCalls_pre (h : NoDefaults s1) (sc : Scope) (pre : List Stmt) (rhs : List EdgeRH) : rhsCalls sc (s1 ++ pre) rhs = rhsCalls sc pre rhs := by
  induction rhs with
  | nil => simp [rhsCalls]
  | cons r rest ih =>
    obtain ⟨op, d⟩ := r
    simp [rhsCalls, locCalls_pre h, ih]

theorem stmt_extra (h : NoDefaults s1) (sc : Scope) (hsc : sc.inhNode = []) (pre : List Stmt) (s : Stmt)
    (hl : (∃ n ∈ mentions s, n ∈ mentioned s1 ∧ n ∉ mentioned pre) → nodeDefaultEntries pre = []) :
    Extra sc.name (mentioned s1) (stmtCalls sc pre s) (stmtCalls sc (s1 ++ pre) s) := by
  cases s with
  | node id as =>
    have : stmtCalls sc (s1 ++ pre) (.node id as) = stmtCalls sc pre (.node id as) := by
      simp only [stmtCalls, nodeDefaults_pre h, mentioned_append, List.mem_append]
      by_cases hp : Ast.nodeIDStr id ∈ mentioned pre
      · simp [hp]
      · by_cases h1 : Ast.nodeIDStr id ∈ mentioned s1
        · have := hl ⟨_, List.mem_singleton.2 rfl, h1, hp⟩
          have hd : sc.nodeDefaults pre = [] := by simp [Scope.nodeDefaults, hsc, this, msetAll]
          simp [hp, h1, hd]
        · simp [hp, h1]
    rw [this]
    exact .refl _ _ _
  | edge src rhs as =>
    simp only [stmtCalls, edgeDefaults_pre h, locCalls_pre h, rhsCalls_pre h]
    have hm : ∀ l ∈ src :: dests rhs, ∀ n ∈ locNode l, n ∈ mentioned s1 → n ∉ mentioned pre → nodeDefaultEntries pre = [] :=
      fun l hm n hn h1 hp => hl ⟨n, List.mem_flatMap.2 ⟨l, hm, hn⟩, h1, hp⟩
    exact .append (.append (.append (create_extra h sc hsc pre [] src (hm src (List.mem_cons_self ..)))
      (chain_extra h sc hsc pre _ rhs _ _ fun l hl' => hm l (List.mem_cons_of_mem _ hl'))) (.refl _ _ _)) (.refl _ _ _)
  | nodeAttrs as => simp only [stmtCalls]; exact .nil
  | edgeAttrs as => simp only [stmtCalls]; exact .nil
  | graphAttrs as => simp only [stmtCalls]; exact .refl _ _ _
  | sub id body =>
    simp only [stmtCalls, nodeDefaults_pre h, edgeDefaults_pre h, graphDefaults_pre h]
    exact .refl _ _ _
  | attr a => simp only [stmtCalls]; exact .refl _ _ _

theorem stmts_extra (h : NoDefaults s1) (sc : Scope) (hsc : sc.inhNode = []) (ss : List Stmt) : ∀ pre : List Stmt, NoLateDefaults s1 (pre ++ ss) →
    Extra sc.name (mentioned s1) (stmtsCalls sc pre ss) (stmtsCalls sc (s1 ++ pre) ss) := by
  induction ss with
  | nil => intro pre _; simp only [stmtsCalls]; exact .nil
  | cons s ss ih =>
    intro pre hl
    simp only [stmtsCalls]
    refine .append (stmt_extra h sc hsc pre s (hl pre s ss rfl)) ?_
    rw [List.append_assoc]
    exact ih (pre ++ [s]) (by simpa using hl)

/-! ### the first document -/

theorem top_item (c : Ctx) {s : Stmt} {ss : List Stmt} (h : s ∈ ss) : ∀ pre, ∃ i ∈ itemsStmts c pre ss, i.ctx = c ∧ i.stmt = s := by
  induction ss with
  | nil => cases h
  | cons s' ss ih =>
    intro pre
    rcases List.mem_cons.1 h with rfl | h
    · refine ⟨⟨c, pre, s⟩, ?_, rfl, rfl⟩
      simp only [itemsStmts, List.mem_append]
      left
      cases s <;> simp [itemsStmt]
    · obtain ⟨i, hi, h1, h2⟩ := ih h (pre ++ [s'])
      exact ⟨i, by simp only [itemsStmts, List.mem_append]; exact .inr hi, h1, h2⟩

theorem known_first {t : Ast.Graph} {g0 g : Graph} (h0 : Reachable g0) (h : analyse graphIface t g0 = (g, none)) : Known t.id (mentioned t.stmts) g := by
  have ha := C83_adds h0 h
  have hr : Reachable g := (Merge.effect h0 h).1
  intro n hn
  simp only [mentioned, List.mem_flatMap] at hn
  obtain ⟨s, hs, hm⟩ := hn
  obtain ⟨i, hi, hc, hst⟩ := top_item ⟨t.id, [], []⟩ hs []
  have hi' : i ∈ items t := hi
  constructor
  · have h1 := (ha.nodes n).2 (.inr ⟨i, hi', by rw [hst]; exact hm⟩)
    have := abs_node_none hr.inv n
    unfold Graph.isNode mhas at h1
    cases h2 : (abs g).node n with
    | some _ => rfl
    | none => rw [this.1 h2] at h1; cases h1
  · exact (ha.children t.id n).2 (.inr ⟨i, hi', by rw [hc], .inl (by rw [hst]; exact hm)⟩)

theorem analyse_eq (t : Ast.Graph) (g : Graph) : analyse graphIface t g =
    ((replay graphIface g (treeCalls t)).1, (Catcher.mk (replay graphIface g (treeCalls t)).1 (replay graphIface g (treeCalls t)).2).getError) := by
  unfold analyse
  rw [analyseC_eq]

end Pieces

/-- C89. The statements of two documents give a graph the same contents, and the same error, one document after the other or in one document. -/
theorem C89_pieces {t1 t2 : Ast.Graph} {g0 g1 : Graph} (h0 : Reachable g0) (hh : SameHeader t1 t2) (hd : NoDefaults t1.stmts)
    (hl : NoLateDefaults t1.stmts t2.stmts) (h1 : analyse graphIface t1 g0 = (g1, none)) :
    analyse graphIface t2 g1 = analyse graphIface (joined t1 t2) g0 := by
  obtain ⟨hr, _, heff⟩ := Merge.effect h0 h1
  have ha := C83_adds h0 h1
  have hk := Pieces.known_first h0 h1
  have hset : replay graphIface g1 (treeCalls t2) = replay graphIface g1 (stmtsCalls ⟨t1.id, [], []⟩ [] t2.stmts) := by
    obtain ⟨hh1, hh2, hh3⟩ := hh
    unfold treeCalls
    rw [← hh1, ← hh2, ← hh3, ← ha.name, ← ha.directed, ← ha.strict]
    rfl
  have hx := Pieces.stmts_extra hd ⟨t1.id, [], []⟩ rfl t2.stmts [] hl
  have hw : ∀ x ∈ stmtsCalls ⟨t1.id, [], []⟩ [] t2.stmts, MapWF x.attrs :=
    fun x hm => (stmtsCalls_plain t2.stmts ⟨t1.id, [], []⟩ MapWF.nil MapWF.nil [] x hm).2
  have he := Pieces.replay_extra hx hr hk hw
  rw [List.append_nil] at he
  have hj : treeCalls (joined t1 t2) = treeCalls t1 ++ stmtsCalls ⟨t1.id, [], []⟩ t1.stmts t2.stmts := by
    simp only [treeCalls, joined, stmtsCalls_append, List.nil_append, List.append_assoc]
  have hf := Merge.analyse_fst t1 g0
  have hn := (Merge.analyse_none t1 g0).1 (by rw [h1])
  rw [h1] at hf
  simp only at hf
  rw [Pieces.analyse_eq, Pieces.analyse_eq, hj, replay_append, hn, ← hf, hset, he]
  rfl

/-- C89. The document with both statement lists is accepted exactly if both documents are, whatever is in the graph. -/
theorem C89_accepted {t1 t2 : Ast.Graph} {g0 : Graph} (h0 : Reachable g0) (hh : SameHeader t1 t2) (hd : NoDefaults t1.stmts)
    (hl : NoLateDefaults t1.stmts t2.stmts) :
    (analyse graphIface (joined t1 t2) g0).2 = none ↔ (analyse graphIface t1 g0).2 = none ∧ (analyse graphIface t2 (analyse graphIface t1 g0).1).2 = none := by
  by_cases h1 : (analyse graphIface t1 g0).2 = none
  · obtain ⟨g1, e⟩ : ∃ g1, analyse graphIface t1 g0 = (g1, none) := ⟨_, by rw [← h1]⟩
    rw [← C89_pieces h0 hh hd hl e, e]
    simp
  · refine ⟨fun h => absurd ?_ h1, fun h => absurd h.1 h1⟩
    rw [Merge.analyse_none] at h ⊢
    have hj : treeCalls (joined t1 t2) = treeCalls t1 ++ stmtsCalls ⟨t1.id, [], []⟩ t1.stmts t2.stmts := by
      simp only [treeCalls, joined, stmtsCalls_append, List.nil_append, List.append_assoc]
    rw [hj, replay_append] at h
    exact (List.append_eq_nil_iff.1 h).1

namespace Pieces

theorem noDefaults_append {a b : List Stmt} : NoDefaults (a ++ b) ↔ NoDefaults a ∧ NoDefaults b := by
  simp only [NoDefaults, nodeDefaultEntries_append, edgeDefaultEntries_append, graphDefaultEntries_append, List.append_eq_nil_iff]
  constructor
  · rintro ⟨⟨a, b⟩, ⟨c, d⟩, e, f⟩; exact ⟨⟨a, c, e⟩, b, d, f⟩
  · rintro ⟨⟨a, c, e⟩, b, d, f⟩; exact ⟨⟨a, b⟩, ⟨c, d⟩, e, f⟩

theorem noLate_of_noDefaults {a b : List Stmt} (h : NoDefaults b) : NoLateDefaults a b := by
  rintro pre s post rfl _
  exact (noDefaults_append.1 h).1.1

end Pieces

/-- C89. Any number of pieces without `node [..]`, `edge [..]` and `graph [..]` of their own, one after the other: accepted exactly if the whole
document is, and then with the same graph. -/
theorem C89_many (type_ strict : Bool) (name : Str) {g0 : Graph} (h0 : Reachable g0) {pieces : List (List Stmt)} (hne : pieces ≠ [])
    (hd : ∀ p ∈ pieces, NoDefaults p) (g : Graph) :
    analyseAll graphIface type_ strict name pieces g0 = (g, none) ↔ analyse graphIface ⟨type_, strict, name, pieces.flatten⟩ g0 = (g, none) := by
  suffices ∀ (rest : List (List Stmt)) (first : List Stmt) {g0 : Graph}, Reachable g0 → NoDefaults first → (∀ p ∈ rest, NoDefaults p) →
      (analyseAll graphIface type_ strict name (first :: rest) g0 = (g, none) ↔
        analyse graphIface ⟨type_, strict, name, first ++ rest.flatten⟩ g0 = (g, none)) by
    cases pieces with
    | nil => exact absurd rfl hne
    | cons first rest =>
      exact this rest first h0 (hd _ (List.mem_cons_self ..)) fun p hp => hd p (List.mem_cons_of_mem _ hp)
  intro rest
  induction rest with
  | nil =>
    intro first g0 h0 _ _
    simp only [analyseAll, List.flatten_nil, List.append_nil]
    rcases h : analyse graphIface ⟨type_, strict, name, first⟩ g0 with ⟨g', _ | e⟩ <;> simp
  | cons second rest ih =>
    intro first g0 h0 h1 hr
    have hrest : NoDefaults (second ++ rest.flatten) := by
      refine Pieces.noDefaults_append.2 ⟨hr _ (List.mem_cons_self ..), ?_⟩
      have : ∀ p ∈ rest, NoDefaults p := fun p hp => hr p (List.mem_cons_of_mem _ hp)
      clear ih hr
      induction rest with
      | nil => exact ⟨rfl, rfl, rfl⟩
      | cons r rs ih => exact Pieces.noDefaults_append.2 ⟨this _ (List.mem_cons_self ..), ih fun p hp => this p (List.mem_cons_of_mem _ hp)⟩
    have hj := C89_accepted (t1 := ⟨type_, strict, name, first⟩) (t2 := ⟨type_, strict, name, second ++ rest.flatten⟩) h0 ⟨rfl, rfl, rfl⟩ h1
      (Pieces.noLate_of_noDefaults hrest)
    have hp := fun g1 => C89_pieces (t1 := ⟨type_, strict, name, first⟩) (t2 := ⟨type_, strict, name, second ++ rest.flatten⟩) (g1 := g1) h0 ⟨rfl, rfl, rfl⟩ h1
      (Pieces.noLate_of_noDefaults hrest)
    simp only [joined] at hj hp
    rw [List.flatten_cons]
    rcases h : analyse graphIface ⟨type_, strict, name, first⟩ g0 with ⟨g1, _ | e⟩
    · have hrg : Reachable g1 := (Merge.effect h0 h).1
      rw [← hp g1 h, ← ih second hrg (hr _ (List.mem_cons_self ..)) fun p hp => hr p (List.mem_cons_of_mem _ hp)]
      conv => lhs; rw [analyseAll]; rw [h]
    · rw [h] at hj
      constructor
      · intro h2
        rw [analyseAll, h] at h2
        cases h2
      · intro h2
        rw [h2] at hj
        cases (hj.1 rfl).1

/-! `digraph A { a; subgraph S { node [color=red]; b } a -> b }`, then `digraph A { a -> c; node [color=blue]; c; d }`. -/

namespace Pieces
def first : Ast.Graph := ⟨true, false, b!"A",
  [.node (Merge.nd (b!"a")) [], .sub (b!"S") [.nodeAttrs [[⟨b!"color", b!"red"⟩]], .node (Merge.nd (b!"b")) []],
   .edge (.node (Merge.nd (b!"a"))) [.mk true (.node (Merge.nd (b!"b")))] []]⟩
def second : Ast.Graph := ⟨true, false, b!"A",
  [.edge (.node (Merge.nd (b!"a"))) [.mk true (.node (Merge.nd (b!"c")))] [], .nodeAttrs [[⟨b!"color", b!"blue"⟩]],
   .node (Merge.nd (b!"c")) [], .node (Merge.nd (b!"d")) []]⟩
/-- `digraph A { node [color=blue]; a }`. -/
def late : Ast.Graph := ⟨true, false, b!"A", [.nodeAttrs [[⟨b!"color", b!"blue"⟩]], .node (Merge.nd (b!"a")) []]⟩
/-- `digraph A { x }`. -/
def plain : Ast.Graph := ⟨true, false, b!"A", [.node (Merge.nd (b!"x")) []]⟩
/-- The second document on the graph of the first. -/
def separate (t1 t2 : Ast.Graph) : Graph × Option Str := analyse graphIface t2 (analyse graphIface t1 newGraph).1
/-- Both in one document. -/
def together (t1 t2 : Ast.Graph) : Graph × Option Str := analyse graphIface (joined t1 t2) newGraph
end Pieces

/-- The hypotheses of C89 are met by the two documents above, and the result is a graph with their contents. -/
theorem example_pieces : SameHeader Pieces.first Pieces.second ∧ NoDefaults Pieces.first.stmts ∧ NoLateDefaults Pieces.first.stmts Pieces.second.stmts ∧
    (analyse graphIface Pieces.first newGraph).2 = none ∧ (Pieces.separate Pieces.first Pieces.second).2 = none ∧
    nodeNames (Pieces.separate Pieces.first Pieces.second).1 = [some (b!"a"), some (b!"b"), some (b!"c"), some (b!"d")] ∧
    nodeValue (Pieces.separate Pieces.first Pieces.second).1 (b!"b") (b!"color") = some (b!"red") ∧
    nodeValue (Pieces.separate Pieces.first Pieces.second).1 (b!"c") (b!"color") = none ∧
    nodeValue (Pieces.separate Pieces.first Pieces.second).1 (b!"d") (b!"color") = some (b!"blue") := by
  refine ⟨⟨rfl, rfl, rfl⟩, ⟨by decide +kernel, by decide +kernel, by decide +kernel⟩, ?_, by decide +kernel, by decide +kernel, by decide +kernel, by decide +kernel,
    by decide +kernel, by decide +kernel⟩
  rintro pre s post h ⟨n, hn, h1, h2⟩
  simp only [Pieces.second] at h
  match pre, h with
  | [], _ => rfl
  | _ :: [], h => simp only [List.cons_append, List.nil_append, List.cons.injEq] at h; obtain ⟨rfl, rfl, _⟩ := h; cases hn
  | _ :: _ :: [], h =>
    simp only [List.cons_append, List.nil_append, List.cons.injEq] at h
    obtain ⟨rfl, rfl, rfl, _⟩ := h
    simp only [mentions, List.mem_singleton] at hn
    subst hn
    exact absurd h1 (by decide +kernel)
  | _ :: _ :: _ :: [], h =>
    simp only [List.cons_append, List.nil_append, List.cons.injEq] at h
    obtain ⟨rfl, rfl, rfl, rfl, _⟩ := h
    simp only [mentions, List.mem_singleton] at hn
    subst hn
    exact absurd h1 (by decide +kernel)
  | _ :: _ :: _ :: _ :: _, h =>
    simp only [List.cons_append, List.nil_append, List.cons.injEq] at h
    obtain ⟨_, _, _, _, h⟩ := h
    cases List.append_ne_nil_of_right_ne_nil _ (by simp) h.symm

/-- C89. Both conditions are needed. `digraph A { a }` before `digraph A { node [color=blue]; a }`: in one document the node `a` is not blue,
because it was mentioned before; from two documents it is. And `digraph A { node [color=blue]; a }` before `digraph A { x }`: in one document `x` is blue, from two
documents it is not. -/
theorem C89_conditions :
    nodeValue (Pieces.separate ⟨true, false, b!"A", [.node (Merge.nd (b!"a")) []]⟩ Pieces.late).1 (b!"a") (b!"color") = some (b!"blue") ∧
    nodeValue (Pieces.together ⟨true, false, b!"A", [.node (Merge.nd (b!"a")) []]⟩ Pieces.late).1 (b!"a") (b!"color") = none ∧
    nodeValue (Pieces.separate Pieces.late Pieces.plain).1 (b!"x") (b!"color") = none ∧
    nodeValue (Pieces.together Pieces.late Pieces.plain).1 (b!"x") (b!"color") = some (b!"blue") := by decide +kernel

end Gographviz.Props
