import Verif.Props.StableProps
import Verif.Spec.Kept
/-!
C104: what formatting keeps, whatever names are used for.
-/
namespace Gographviz.Props

open Gographviz Spec Parse
open Gographviz.Ast (Stmt Loc EdgeRH)

namespace Keeping

open Stable

variable {g g' : Graph} {sortE : List Edge → List Edge} {f : Nat} {t : Ast.Graph}

/-- A node that is not called like a subgraph has a node statement. -/
theorem node_stands (h : Reachable g) (ht : writeAst sortE f g = .ok t) {n : Str} (hn : g.isNode n = true) (hns : g.isSubGraph n = false) :
    ∃ as, Stmt.node ⟨n, ⟨[], []⟩⟩ as ∈ allStmts t.stmts := by
  have hinner := written_inner h ht
  obtain ⟨es, ss, ns, hes, hss, hnodes, rfl⟩ := written_parts h ht
  by_cases hm : n ∈ marksL es ++ marksL ss
  · have hm' : n ∈ marksL (es ++ ss) := by rw [marksL_append]; exact hm
    have hsubset : ∀ x ∈ allStmts (es ++ ss), x ∈ allStmts (attrsAsStmts g.attrs ++ es ++ ss ++ ns) := by
      intro x hx
      simp only [allStmts_append, List.mem_append] at hx ⊢
      rcases hx with hx | hx
      · exact .inl (.inl (.inr hx))
      · exact .inl (.inr hx)
    rcases (mem_marksL n (es ++ ss)).1 hm' with ⟨id, as, hin, rfl⟩ | ⟨body, hin⟩
    · have hin := hsubset _ hin
      rcases hinner _ hin with ⟨he, _⟩ | ⟨hp, -⟩
      · cases he
      · cases id
        simp only at hp
        subst hp
        exact ⟨as, hin⟩
    · rcases hinner _ (hsubset _ hin) with ⟨he, _⟩ | ⟨sub, hsub, _⟩
      · cases he
      · rw [(isSub_get g n).2 ⟨sub, hsub⟩] at hns; cases hns
  · have : n ∈ (mkeys g.nodes.lookup).filter fun n => !decide (n ∈ marksL es ++ marksL ss) := by
      rw [List.mem_filter]
      exact ⟨(mhas_iff _ _).1 hn, by simpa using hm⟩
    obtain ⟨s, hs, hst⟩ := hnodes.mem_left this
    obtain ⟨nd', hf', rfl⟩ := nodeStmtOf_ok h.inv hst
    simp only [allStmts_append, List.mem_append]
    exact ⟨_, .inr (mem_allStmts_of_mem hs)⟩

/-- A subgraph that has to be written and is not called like a node stands in the tree. -/
theorem sub_stands (h : Reachable g) (hs : SortContract sortE) (ht : writeAst sortE f g = .ok t) {m : Str} (hm : MustWrite g m) (hn : g.isNode m = false) :
    Stable.Stands t m := by
  rcases hm.2 with hc | ⟨-, hcl, e, he, hends⟩
  · obtain ⟨es, ss, ns, hes, hss, hns, rfl⟩ := written_parts h ht
    have hmk := (rootSubsOf_ok hss).2 m ((mhas_iff _ _).1 hm.1) hc
    obtain ⟨_, body, _, hin⟩ := marked_written h.inv hes hss hmk hn
    refine ⟨body, ?_⟩
    simp only [allStmts_append, List.mem_append] at hin ⊢
    rcases hin with hin | hin
    · exact .inl (.inl (.inr hin))
    · exact .inl (.inr hin)
  · obtain ⟨h1, h2, _⟩ := C18_edges_faithful h hs ht
    obtain ⟨s, hsm, src, dst, rfl, hw1, hw2⟩ := h1.mem_left ((hs.perm _).mem_iff.2 he)
    have hsm := mem_allStmts_of_mem (List.mem_filter.1 hsm).1
    have key : ∀ {p : Str} {l : Loc}, EndWritten g m p l → ∃ body, l = .sub m body := by
      rintro p l (⟨_, hx | hx⟩ | ⟨b, rfl, _⟩)
      · rw [hx] at hn; cases hn
      · rw [hx] at hcl; cases hcl
      · exact ⟨b, rfl⟩
    rcases hends with rfl | rfl
    · obtain ⟨b, rfl⟩ := key hw1
      exact ⟨b, allStmts_trans _ hsm (by simp [allStmt, allLoc])⟩
    · obtain ⟨b, rfl⟩ := key hw2
      exact ⟨b, allStmts_trans _ hsm (by simp [allStmt, allLoc, allRHS])⟩

theorem star_stands (h : Reachable g) (ht : writeAst sortE f g = .ok t) {m n : Str} (hst : Star (SubChild g) m n) : Stable.Stands t m → Stable.Stands t n := by
  induction hst with
  | refl => exact id
  | head hr _ ih =>
    rintro ⟨body, hb⟩
    obtain ⟨b, hb', -⟩ := Again.nested h ht hb hr
    exact ih ⟨b, hb'⟩

theorem kept (h : Reachable g) (hv : TwoPartPorts g) (hroot : g.isSubGraph g.name = false) (hs : SortContract sortE) (ht : writeAst sortE f g = .ok t)
    (hg' : newAnalysedGraph t = .ok g') : Kept g g' := by
  have hb := back h hroot hs ht hg'
  refine ⟨hb.name, hb.directed, hb.strict, fun k => by rw [hb.attrs], ?_, ?_, ?_, hb.old, ?_, ?_, ?_, ?_⟩
  · rw [edges_back h hv hs ht hg']
    exact ((hs.perm _).map _).symm
  · intro n hn hns
    obtain ⟨as, hin⟩ := node_stands h ht hn hns
    refine hb.node n as hin fun hc => ?_
    rw [hc.1] at hn; cases hn
  · exact fun e he n hends hn => hb.ends e he n hends (.inl hn)
  · exact fun m n hm hn hst => (hb.subs n).2 (star_stands h ht hst (sub_stands h hs ht hm hn))
  · exact fun n hn => written_sub h hs ht ((hb.subs n).1 hn)
  · exact fun n s s' h1 h2 k => by rw [hb.subAttrs n s s' h1 h2]
  · exact fun p hp c => by rw [hb.children p ((hb.subs p).1 hp)]

end Keeping

open Keeping Again ClusterFormat

/-- C104. Writing a graph and reading the text keeps everything (`Kept`) except for nodes and subgraphs whose names are used for both, if no subgraph is called like the graph. -/
theorem C104_kept {g : Graph} (h : Reachable g) (hv : ValidGraph g) (hroot : g.isSubGraph g.name = false) {sortE : List Edge → List Edge} (hs : SortContract sortE)
    {f : Nat} {t : Ast.Graph} (ht : writeAst sortE f g = .ok t) (rnd : Nat → Nat) (cnt : Nat) :
    ∃ text g', graphString sortE f g = .ok text ∧ Parse.read rnd cnt text = .ok g' ∧ Kept g g' := by
  obtain ⟨g', hg'⟩ := written_analysed h hs ht
  refine ⟨Ast.graphStr t, g', by unfold graphString; rw [ht], ?_, kept h (ValidGraph.plain hv) hroot hs ht hg'⟩
  rw [read_print (written_printable h hv hs ht), hg']

/-- C104. For texts: formatting a text that can be formatted, and in which no subgraph is called like the graph, keeps everything except for nodes and subgraphs whose names are used for both. -/
theorem C104_format {rnd : Nat → Nat} {cnt : Nat} {src : Str} {t : Ast.Graph} {n : Nat} (hparse : parseBytes rnd cnt src = .ok t n)
    (htrim : ∀ s ∈ idents t, trimSpace s = s) {g : Graph} (hread : Parse.read rnd cnt src = .ok g) (hroot : g.isSubGraph g.name = false)
    {sortE : List Edge → List Edge} (hs : SortContract sortE) {f : Nat} {t' : Ast.Graph} (hw : writeAst sortE f g = .ok t') (rnd' : Nat → Nat) (cnt' : Nat) :
    ∃ text g', graphString sortE f g = .ok text ∧ Parse.read rnd' cnt' text = .ok g' ∧ Kept g g' := by
  have hp := C36_parsed_printable rnd cnt src hparse htrim
  obtain ⟨t1, n1, hp1, hg⟩ := read_analysed hread
  rw [hparse] at hp1
  cases hp1
  have hgood : Good g := ⟨⟨_, hp, hg⟩, fun n hn => analysed_sub_trim hg htrim hn, hroot⟩
  exact C104_kept hgood.valid.1 hgood.valid.2 hroot hs hw rnd' cnt'

/-- The hypotheses are met by a text (`namesSample`) in which two names are used for both a node and a subgraph, and that formatting changes; the nodes `a` and `d` and the subgraphs `S` and `T` are
not among them. -/
theorem example_kept : ∃ t n g t', parseBytes (fun k => k) 0 namesSample = .ok t n ∧ (∀ s ∈ idents t, trimSpace s = s) ∧
    Parse.read (fun k => k) 0 namesSample = .ok g ∧ g.isSubGraph g.name = false ∧ writeAst edgeInsertionSort 5 g = .ok t' ∧ Reachable g ∧ ValidGraph g ∧ ¬ NamesDisjoint g ∧
    (g.isNode (b!"a") = true ∧ g.isSubGraph (b!"a") = false) ∧ (MustWrite g (b!"S") ∧ g.isNode (b!"S") = false) ∧ (MustWrite g (b!"T") ∧ g.isNode (b!"T") = false) := by
  obtain ⟨t, n, g, t', h1, h2, h3, k1, ht', h4⟩ := stableB_ok (P := fun g => g.isNode (b!"y") && g.isSubGraph (b!"y") && g.isNode (b!"a") && !g.isSubGraph (b!"a") &&
    g.isSubGraph (b!"S") && mhas (g.relations.children g.name) (b!"S") && !g.isNode (b!"S") && g.isSubGraph (b!"T") && mhas (g.relations.children g.name) (b!"T") && !g.isNode (b!"T"))
    (src := namesSample) (by decide +kernel)
  simp only [Bool.and_eq_true, Bool.not_eq_true'] at h4
  obtain ⟨⟨⟨⟨⟨⟨⟨⟨⟨k2, k3⟩, k4⟩, k5⟩, k6⟩, k7⟩, k8⟩, k9⟩, k10⟩, k11⟩ := h4
  have hp := C36_parsed_printable _ _ _ h1 h2
  obtain ⟨t1, n1, hp1, hg⟩ := read_analysed h3
  rw [h1] at hp1
  cases hp1
  have hgood : Good g := ⟨⟨_, hp, hg⟩, fun n hn => analysed_sub_trim hg h2 hn, k1⟩
  exact ⟨t, n, g, t', h1, h2, h3, k1, ht', hgood.valid.1, hgood.valid.2, fun hd => hd _ ⟨k2, k3⟩, ⟨k4, k5⟩, ⟨⟨k6, .inl k7⟩, k8⟩, ⟨⟨k9, .inl k10⟩, k11⟩⟩

end Gographviz.Props
