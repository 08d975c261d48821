import Verif.Props.ClusterFormatProps
/-!
C103: what can be formatted can be formatted again.
-/
namespace Gographviz.Props

open Gographviz Spec Parse
open Gographviz.Ast (Stmt Loc EdgeRH)

/-- C103. What a graph writes is read without an error, whatever names are used for: the text of a graph all of whose names and values are identifiers. -/
theorem C103_read_again {g : Graph} (h : Reachable g) (hv : ValidGraph g) {sortE : List Edge → List Edge} (hs : SortContract sortE) {f : Nat} {t : Ast.Graph}
    (ht : writeAst sortE f g = .ok t) : ∃ g', ∀ rnd cnt, Parse.read rnd cnt (Ast.graphStr t) = .ok g' := by
  obtain ⟨g', hg'⟩ := written_analysed h hs ht
  refine ⟨g', fun rnd cnt => ?_⟩
  rw [read_print (written_printable h hv hs ht), hg']

namespace Again

open ClusterFormat

/-! ### the subgraphs of a written tree are not nested in themselves -/

mutual
/-- The number of statements in a statement. -/
def sizeS : Stmt → Nat
  | .sub _ body => sizeSs body + 1
  | _ => 1
/-- The number of statements in a list. -/
def sizeSs : List Stmt → Nat
  | [] => 0
  | s :: ss => sizeS s + sizeSs ss
end

theorem size_mem {s : Stmt} : ∀ {ss : List Stmt}, s ∈ ss → sizeS s ≤ sizeSs ss
  | _ :: ss, h => by
    simp only [sizeSs]
    rcases List.mem_cons.1 h with rfl | h
    · omega
    · have := size_mem h
      omega

/-- What is nested in a written subgraph is written in it, in a smaller text. -/
theorem nested {g : Graph} (h : Reachable g) {sortE : List Edge → List Edge} {f : Nat} {t : Ast.Graph} (ht : writeAst sortE f g = .ok t)
    {p c : Str} {body : List Stmt} (hin : Stmt.sub p body ∈ allStmts t.stmts) (hc : SubChild g p c) :
    ∃ body', Stmt.sub c body' ∈ allStmts t.stmts ∧ sizeSs body' < sizeSs body := by
  obtain ⟨sub, hsub, cs, rfl, hf⟩ := C20_subgraphs_faithful h ht hin
  obtain ⟨s, hsc, hdc⟩ := hf.mem_left (mem_sortedChildren.2 hc.1)
  cases s with
  | node id as =>
    obtain ⟨rfl, nd, hf, _⟩ := hdc
    have := (isNode_find h.inv c).2 hc.2.1
    rw [this] at hf; cases hf
  | sub id bd =>
    obtain ⟨rfl, _⟩ := hdc
    have hm : Stmt.sub id bd ∈ attrsAsStmts sub.attrs ++ cs := List.mem_append_right _ hsc
    have := size_mem hm
    simp only [sizeS] at this
    exact ⟨bd, mem_allStmts_trans _ hin (mem_allStmts_of_mem hm), by omega⟩
  | edge => cases hdc
  | nodeAttrs => cases hdc
  | edgeAttrs => cases hdc
  | graphAttrs => cases hdc
  | attr => cases hdc

theorem nested_star {g : Graph} (h : Reachable g) {sortE : List Edge → List Edge} {f : Nat} {t : Ast.Graph} (ht : writeAst sortE f g = .ok t)
    {p c : Str} (hst : Star (SubChild g) p c) : ∀ {body : List Stmt}, Stmt.sub p body ∈ allStmts t.stmts →
    ∃ body', Stmt.sub c body' ∈ allStmts t.stmts ∧ sizeSs body' ≤ sizeSs body := by
  induction hst with
  | refl => exact fun hin => ⟨_, hin, Nat.le_refl _⟩
  | head hr _ ih =>
    intro body hin
    obtain ⟨b1, h1, l1⟩ := nested h ht hin hr
    obtain ⟨b2, h2, l2⟩ := ih h1
    exact ⟨b2, h2, by omega⟩

theorem no_cycle {g : Graph} (h : Reachable g) {sortE : List Edge → List Edge} {f : Nat} {t : Ast.Graph} (ht : writeAst sortE f g = .ok t) {m : Str}
    (hp : Plus (SubChild g) m m) : ∀ (k : Nat) (body : List Stmt), sizeSs body ≤ k → Stmt.sub m body ∉ allStmts t.stmts := by
  intro k
  induction k with
  | zero =>
    intro body hb hin
    obtain ⟨c, hr, -⟩ := hp
    obtain ⟨b1, -, l1⟩ := nested h ht hin hr
    omega
  | succ k ih =>
    intro body hb hin
    obtain ⟨c, hr, hst⟩ := hp
    obtain ⟨b1, h1, l1⟩ := nested h ht hin hr
    obtain ⟨b2, h2, l2⟩ := nested_star h ht hst h1
    exact ih b2 (by omega) h2

/-! ### the graph that is read from the tree -/

theorem written_id {g : Graph} (h : Reachable g) {sortE : List Edge → List Edge} {f : Nat} {t : Ast.Graph} (ht : writeAst sortE f g = .ok t) : t.id = g.name := by
  obtain ⟨es, ss, ns, -, -, -, rfl⟩ := written_parts h ht
  rfl

theorem isSub_abs (g : Graph) (n : Str) : g.isSubGraph n = ((abs g).sub n).isSome := by unfold Graph.isSubGraph mhas abs; simp

/-- A call that adds a subgraph comes from a place where it stands. -/
theorem call_stands {g : Graph} (h : Reachable g) {sortE : List Edge → List Edge} (hs : SortContract sortE) {f : Nat} {t : Ast.Graph}
    (ht : writeAst sortE f g = .ok t) {p c : Str} {m : Map Str} (hx : Call.addSubGraph p c m ∈ stmtsCalls ⟨t.id, [], []⟩ [] t.stmts) :
    (∃ body, Stmt.sub c body ∈ allStmts t.stmts) ∧ (p = g.name ∨ SubChild g p c) := by
  obtain ⟨sc, pre, s, hocc, hown⟩ := treeCalls_origin hx
  have hplace := occ_written h hs ht hocc
  have hin := (occurs_where hocc).1
  cases s with
  | sub id body =>
    simp only [OwnCall] at hown
    cases hown
    refine ⟨⟨body, hin⟩, ?_⟩
    rcases hplace with ⟨rfl, _⟩ | ⟨-, sub, hsub, hm | ⟨c, hc, rfl, h1, h2⟩⟩
    · exact .inl (written_id h ht)
    · obtain ⟨e, _, he⟩ := List.mem_map.1 hm; cases he
    · exact .inr ⟨hc, h1, h2⟩
  | edge src rhs as =>
    rcases hown with hown | hown | ⟨id, body, hl, hown⟩
    · exact absurd hown created_not_sub
    · exact absurd hown (chain_not_sub _ _ _ _)
    · cases hown
      refine ⟨⟨body, ?_⟩, ?_⟩
      · refine allStmts_trans t.stmts hin ?_
        simp only [allStmt, List.mem_cons, reduceCtorEq, false_or, List.mem_append]
        rcases List.mem_cons.1 hl with rfl | hl
        · left; simp [allLoc]
        · right; exact allLoc_mem hl _ (by simp [allLoc])
      · rcases hplace with ⟨rfl, _⟩ | ⟨-, sub, hsub, hm | ⟨c, hc, hd⟩⟩
        · exact .inl (written_id h ht)
        · obtain ⟨e, _, he⟩ := List.mem_map.1 hm; cases he
        · cases hd
  | node id as => simp [OwnCall, stmtCalls] at hown
  | nodeAttrs as => simp [OwnCall, stmtCalls] at hown
  | edgeAttrs as => simp [OwnCall, stmtCalls] at hown
  | graphAttrs as => simp [OwnCall, stmtCalls] at hown
  | attr as => simp [OwnCall, stmtCalls] at hown

variable {g g' : Graph} {sortE : List Edge → List Edge} {f : Nat} {t : Ast.Graph}

/-- The subgraphs of the graph read back stand in the text. -/
theorem sub_back (h : Reachable g) (hs : SortContract sortE) (ht : writeAst sortE f g = .ok t) (hg' : newAnalysedGraph t = .ok g') {n : Str}
    (hn : g'.isSubGraph n = true) : (∃ body, Stmt.sub n body ∈ allStmts t.stmts) ∧ g.isSubGraph n = true := by
  obtain ⟨-, -, -, -, heff⟩ := analysed_effect hg'
  rw [isSub_abs, heff.sub] at hn
  rcases hn with hn | ⟨p, m, hx⟩
  · simp [AGraph.empty] at hn
  · obtain ⟨⟨body, hin⟩, -⟩ := call_stands h hs ht hx
    obtain ⟨sub, hsub, -⟩ := C20_subgraphs_faithful h ht hin
    exact ⟨⟨body, hin⟩, (isSub_get g n).2 ⟨sub, hsub⟩⟩

/-- Nesting in the graph read back is nesting in the text, except directly in the graph. -/
theorem child_back (h : Reachable g) (hs : SortContract sortE) (ht : writeAst sortE f g = .ok t) (hg' : newAnalysedGraph t = .ok g') {p c : Str}
    (hc : SubChild g' p c) : p = g.name ∨ SubChild g p c := by
  obtain ⟨hr, -, -, -, heff⟩ := analysed_effect hg'
  obtain ⟨h1, h2, h3⟩ := hc
  have h1 : (abs g').contains p c = true := h1
  rw [heff.contains] at h1
  rcases h1 with h1 | ⟨m, hx⟩ | ⟨m, hx⟩
  · simp [AGraph.empty] at h1
  · have := (heff.node c).2 (.inr ⟨p, m, hx⟩)
    rw [abs_isNode hr] at this
    rw [h2] at this; cases this
  · exact (call_stands h hs ht hx).2

/-- The graph read back has no subgraph that contains itself. -/
theorem acyclic_again (h : Reachable g) (hroot : g.isSubGraph g.name = false) (hs : SortContract sortE) (ht : writeAst sortE f g = .ok t)
    (hg' : newAnalysedGraph t = .ok g') (m : Str) : ¬ ReachesCycle g' m := by
  rintro ⟨k, -, c, hr, hst⟩
  have ne : ∀ {n : Str}, g'.isSubGraph n = true → n ≠ g.name := by
    rintro n hn rfl
    rw [(sub_back h hs ht hg' hn).2] at hroot
    cases hroot
  have up : ∀ {a b : Str}, Star (SubChild g') a b → g'.isSubGraph a = true → Star (SubChild g) a b ∧ g'.isSubGraph b = true := by
    intro a b hst
    induction hst with
    | refl => exact fun ha => ⟨.refl _, ha⟩
    | head hr _ ih =>
      intro ha
      obtain ⟨h1, h2⟩ := ih hr.2.2
      rcases child_back h hs ht hg' hr with e | e
      · exact absurd e (ne ha)
      · exact ⟨.head e h1, h2⟩
  obtain ⟨h1, hk⟩ := up hst hr.2.2
  rcases child_back h hs ht hg' hr with e | e
  · exact ne hk e
  · obtain ⟨body, hin⟩ := (sub_back h hs ht hg' hk).1
    exact no_cycle h ht ⟨c, e, h1⟩ _ body (Nat.le_refl _) hin

/-- What stays true from one formatting to the next. -/
structure Good (g : Graph) : Prop where
  made : ∃ t, Spec.Printable t ∧ newAnalysedGraph t = .ok g
  trim : ∀ n, g.isSubGraph n = true → trimSpace n = n
  root : g.isSubGraph g.name = false

theorem Good.valid {g : Graph} (h : Good g) : Reachable g ∧ ValidGraph g := by
  obtain ⟨t, hp, hg⟩ := h.made
  refine analysed_valid hp hg fun n hn => h.trim n ?_
  have := hn.2.1
  unfold Graph.isClusterSubGraph at this
  simp only [Bool.and_eq_true] at this
  exact this.1

theorem Good.next (h : Good g) (hs : SortContract sortE) (ht : writeAst sortE f g = .ok t) :
    ∃ g', Good g' ∧ (∀ rnd cnt, Parse.read rnd cnt (Ast.graphStr t) = .ok g') ∧
      ∀ sortE', SortContract sortE' → ∃ t', ∀ f, g'.subGraphs.length < f → writeAst sortE' f g' = .ok t' := by
  obtain ⟨hr, hv⟩ := h.valid
  obtain ⟨g', hg'⟩ := written_analysed hr hs ht
  have hpr := written_printable hr hv hs ht
  refine ⟨g', ⟨⟨_, hpr, ?_⟩, fun n hn => h.trim n (sub_back hr hs ht hg' hn).2, ?_⟩, fun rnd cnt => ?_, fun sortE' hs' => ?_⟩
  · rw [newAnalysedGraph_map splitName_str, hg']
  · cases hx : g'.isSubGraph g'.name with
    | false => rfl
    | true =>
      have := (sub_back hr hs ht hg' hx).2
      rw [(analysed_effect hg').2.1, written_id hr ht, h.root] at this
      cases this
  · rw [read_print hpr, hg']
  · exact C27_read_then_write hg' (fun m _ => acyclic_again hr h.root hs ht hg' m) hs'

end Again

open Again ClusterFormat

/-- C103, for texts in which no subgraph is called like the graph. A text that can be read and written once can be formatted for ever: reading and writing what was
written, reading and writing that, and so on always succeeds (and does not run out of stack), with whatever sorting algorithms and generated names. -/
theorem C103_again_partial {rnd : Nat → Nat → Nat} {cnt : Nat → Nat} {src : Str} {t : Ast.Graph} {n : Nat} (hparse : parseBytes (rnd 0) (cnt 0) src = .ok t n)
    (htrim : ∀ s ∈ idents t, trimSpace s = s) {g : Graph} (hread : Parse.read (rnd 0) (cnt 0) src = .ok g) (hroot : g.isSubGraph g.name = false)
    {sortE : Nat → List Edge → List Edge} (hs : ∀ i, SortContract (sortE i)) {f : Nat} {t' : Ast.Graph} (hw : writeAst (sortE 0) f g = .ok t') :
    ∃ texts : Nat → Str, texts 0 = src ∧ texts 1 = Ast.graphStr t' ∧
      ∀ i, ∃ gi ti fi, Parse.read (rnd i) (cnt i) (texts i) = .ok gi ∧ (∀ f, fi ≤ f → writeAst (sortE i) f gi = .ok ti) ∧ texts (i + 1) = Ast.graphStr ti := by
  have hp := C36_parsed_printable (rnd 0) (cnt 0) src hparse htrim
  obtain ⟨t1, n1, hp1, hg⟩ := read_analysed hread
  rw [hparse] at hp1
  cases hp1
  have hgood : Good g := ⟨⟨_, hp, hg⟩, fun n hn => analysed_sub_trim hg htrim hn, hroot⟩
  -- a graph together with its tree
  let S := { x : Graph × Ast.Graph // Good x.1 ∧ ∃ i f, writeAst (sortE i) f x.1 = .ok x.2 }
  have step : ∀ (i : Nat) (x : S), ∃ y : S, (∀ rnd cnt, Parse.read rnd cnt (Ast.graphStr x.1.2) = .ok y.1.1) ∧
      ∃ f0, ∀ f, f0 ≤ f → writeAst (sortE (i + 1)) f y.1.1 = .ok y.1.2 := by
    rintro i ⟨⟨g, t⟩, hgood, j, f, ht⟩
    obtain ⟨g', hg', h1, h2⟩ := hgood.next (hs j) ht
    obtain ⟨t', h2⟩ := h2 _ (hs (i + 1))
    exact ⟨⟨(g', t'), hg', i + 1, _, h2 _ (Nat.lt_succ_self _)⟩, h1, _, fun f hf => h2 f hf⟩
  let next : Nat → S → S := fun i x => Classical.choose (step i x)
  let seq : Nat → S := fun i => Nat.rec ⟨(g, t'), hgood, 0, f, hw⟩ (fun i x => next i x) i
  refine ⟨fun i => match i with | 0 => src | i + 1 => Ast.graphStr (seq i).1.2, rfl, rfl, fun i => ?_⟩
  cases i with
  | zero =>
    refine ⟨g, t', f, hread, fun f' hf => ?_, rfl⟩
    rw [writeAst_mono hgood.valid.1.inv (by rw [hw]; simp) hf, hw]
  | succ i =>
    obtain ⟨h1, f0, h2⟩ := Classical.choose_spec (step i (seq i))
    exact ⟨(seq (i + 1)).1.1, (seq (i + 1)).1.2, f0, h1 _ _, h2, rfl⟩

/-! ### where it fails -/

/-- A graph `R` with a node `y`, and a subgraph `y` that contains an edge from a subgraph `R`. -/
def againSample : Str := b!"digraph R { y; subgraph y { subgraph R {} -> d } }"

/-- What is written for it. -/
def againText : Str := b!"digraph R {\n\tsubgraph R {\n\ty;\n}->d;\n\td;\n}\n"

/-- A test for the witness below. -/
def againB (s : Str) : Bool :=
  match parseBytes (fun k => k) 0 s with
  | .ok t _ => match newAnalysedGraph t with
    | .ok g => (mkeys g.nodes.lookup).all (fun n => decide (n ∉ mkeys g.subGraphs)) && g.isSubGraph (b!"R") && !g.isNode (b!"R") &&
      mhas (g.relations.children (b!"R")) (b!"R") && decide (g.name = b!"R")
    | _ => false
  | _ => false

/-- C103. With a subgraph that is called like the graph, writing what was read back may recurse without end: the text that `String` returned for a graph that was read
is read without an error, and writing the graph that was read from it exceeds every recursion depth. (A subgraph at the end of an edge is written directly in the graph. So the graph
now contains the subgraph `R`, and therefore the subgraph `R` contains itself, because containment is recorded by name. Before, this cycle was cut by the node `y`.) -/
theorem C103_violated : format againSample = some againText ∧ ∃ g, Parse.read (fun k => k) 0 againText = .ok g ∧
    ∀ sortE, SortContract sortE → ∀ f, writeAst sortE f g = .diverge ∧ graphString sortE f g = .diverge := by
  refine ⟨by decide +kernel, ?_⟩
  have h : againB againText = true := by decide +kernel
  unfold againB at h
  split at h
  · rename_i t n hp
    split at h
    · rename_i g hg
      simp only [Bool.and_eq_true, decide_eq_true_eq, Bool.not_eq_true'] at h
      obtain ⟨⟨⟨⟨h1, h2⟩, h3⟩, h4⟩, h5⟩ := h
      have hd : NamesDisjoint g := by
        rintro n ⟨k1, k2⟩
        have := List.all_eq_true.1 h1 n ((mhas_iff _ _).1 k1)
        exact of_decide_eq_true this ((mhas_iff _ _).1 k2)
      have hm : MustWrite g (b!"R") := ⟨h2, .inl (by rw [h5]; exact h4)⟩
      have hc : ReachesCycle g (b!"R") := ⟨_, .refl _, _, ⟨h4, h3, h2⟩, .refl _⟩
      refine ⟨g, ?_, fun sortE hs f => ?_⟩
      · unfold Parse.read
        rw [hp]
        simp only [hg]
      · have key : writeAst sortE f g = .diverge := by
          rcases C27_exactly hg hd hs with ⟨hac, -⟩ | ⟨-, hdv⟩
          · exact absurd hc (hac _ hm)
          · exact hdv f
        refine ⟨key, ?_⟩
        unfold graphString
        rw [key]
    · cases h
  · cases h

/-- The hypotheses of `C103_again_partial` and `C103_read_again` are met by a text in which names are used twice, which formatting changes twice: `clusterPortSample`. -/
theorem example_again : ∃ t n g t', parseBytes (fun k => k) 0 clusterPortSample = .ok t n ∧ (∀ s ∈ idents t, trimSpace s = s) ∧
    Parse.read (fun k => k) 0 clusterPortSample = .ok g ∧ g.isSubGraph g.name = false ∧ ¬ NamesDisjoint g ∧ Reachable g ∧ ValidGraph g ∧ writeAst edgeInsertionSort 5 g = .ok t' ∧
    format clusterPortSample ≠ some clusterPortSample ∧ (format clusterPortSample).bind format ≠ format clusterPortSample := by
  obtain ⟨t, n, g, h1, h2, h3, h4, -, h5, -⟩ := clusterB_ok (P := fun g => !g.isSubGraph g.name && match writeAst edgeInsertionSort 5 g with | .ok _ => true | _ => false) (src := clusterPortSample)
    (by decide +kernel)
  simp only [Bool.and_eq_true, Bool.not_eq_true'] at h4
  obtain ⟨h4, h6⟩ := h4
  split at h6
  · rename_i t' ht'
    have hp := C36_parsed_printable _ _ _ h1 h2
    obtain ⟨t1, n1, hp1, hg⟩ := read_analysed h3
    rw [h1] at hp1
    cases hp1
    have hgood : Good g := ⟨⟨_, hp, hg⟩, fun n hn => analysed_sub_trim hg h2 hn, h4⟩
    exact ⟨t, n, g, t', h1, h2, h3, h4, h5, hgood.valid.1, hgood.valid.2, ht', by decide +kernel, by decide +kernel⟩
  · cases h6

end Gographviz.Props
