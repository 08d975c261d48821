import Verif.Proofs.Anonymous
import Verif.Props.RenameProps
import Verif.Props.SpaceProps
import Verif.Props.PastedProps
import Verif.Props.ConcurrentProps
/-!
C100: the names generated for anonymous subgraphs.
-/
namespace Gographviz.Props

open Gographviz Spec Lex Parse Print
open Gographviz.Spec.Meaning
open Gographviz.Ast (Stmt Loc EdgeRH)

namespace Anon

open Gographviz.Anon

theorem anonName_ne (k : Nat) : anonName k ≠ [] := by simp [anonName]

theorem anonName_colon (k : Nat) : 58 ∉ anonName k := by
  intro h
  simp only [anonName, List.mem_append] at h
  rcases h with h | h
  · revert h; decide
  · have : digit 58 := decDigitsN_digits _ _ _ (by simp) 58 h
    revert this; decide

theorem map_range_nodup {f : Nat → Str} {n : Nat} (h : ∀ i j, i < n → j < n → f i = f j → i = j) : ((List.range n).map f).Nodup := by
  refine List.pairwise_map.2 ?_
  refine List.Pairwise.imp_of_mem ?_ (List.nodup_range (n := n))
  intro i j hi hj hne e
  exact hne (h i j (List.mem_range.1 hi) (List.mem_range.1 hj) e)

end Anon

open Gographviz.Anon Anon

/-- C100, for documents without identifiers that look like names that get generated. Which names are generated for anonymous subgraphs makes no difference, as long as they are different and none of them
is an identifier of the document: with another generator, or at another position, the document is read as well, and the graph is the same except that
every anonymous subgraph has the other name. -/
theorem C100_irrelevant_partial {rnd rnd' : Nat → Nat} {cnt cnt' n : Nat} {src : Str} {ts : List Token} {t : Ast.Graph} {g : Graph} (ht : tokens src = some ts)
    (hp : parseBytes rnd cnt src = .ok t n) (hu : Unused rnd cnt n ts) (hu' : Unused rnd' cnt' (cnt' + (n - cnt)) ts) (h : Parse.read rnd cnt src = .ok g) :
    ∃ g' ρ, Parse.read rnd' cnt' src = .ok g' ∧ Renaming ρ ∧ (∀ i, i < n - cnt → ρ (anonName (rnd (cnt + i))) = anonName (rnd' (cnt' + i))) ∧
      (∀ s, ¬ GeneratedName rnd cnt n s → ¬ GeneratedName rnd' cnt' (cnt' + (n - cnt)) s → ρ s = s) ∧ RenamedGraph ρ g g' := by
  let pairs := (List.range (n - cnt)).map fun i => (anonName (rnd (cnt + i)), anonName (rnd' (cnt' + i)))
  have f1 : pairs.map Prod.fst = (List.range (n - cnt)).map fun i => anonName (rnd (cnt + i)) := by simp [pairs]
  have f2 : pairs.map Prod.snd = (List.range (n - cnt)).map fun i => anonName (rnd' (cnt' + i)) := by simp [pairs]
  have n1 : (pairs.map Prod.fst).Nodup := by
    rw [f1]
    refine map_range_nodup fun i j hi hj e => ?_
    have := hu.distinct _ _ (by omega) (by omega) (by omega) (by omega) (anonName_inj e)
    omega
  have n2 : (pairs.map Prod.snd).Nodup := by
    rw [f2]
    refine map_range_nodup fun i j hi hj e => ?_
    have := hu'.distinct _ _ (by omega) (by omega) (by omega) (by omega) (anonName_inj e)
    omega
  have m1 : ∀ s, s ∈ pairs.map Prod.fst ↔ GeneratedName rnd cnt n s := by
    intro s
    rw [f1, List.mem_map]
    constructor
    · rintro ⟨i, hi, rfl⟩
      have := List.mem_range.1 hi
      exact ⟨cnt + i, by omega, by omega, rfl⟩
    · rintro ⟨i, h1, h2, rfl⟩
      exact ⟨i - cnt, List.mem_range.2 (by omega), by rw [show cnt + (i - cnt) = i by omega]⟩
  have m2 : ∀ s, s ∈ pairs.map Prod.snd ↔ GeneratedName rnd' cnt' (cnt' + (n - cnt)) s := by
    intro s
    rw [f2, List.mem_map]
    constructor
    · rintro ⟨i, hi, rfl⟩
      have := List.mem_range.1 hi
      exact ⟨cnt' + i, by omega, by omega, rfl⟩
    · rintro ⟨i, h1, h2, rfl⟩
      exact ⟨i - cnt', List.mem_range.2 (by omega), by rw [show cnt' + (i - cnt') = i by omega]⟩
  let ρ := carry pairs
  have other : ∀ s, ¬ GeneratedName rnd cnt n s → ¬ GeneratedName rnd' cnt' (cnt' + (n - cnt)) s → ρ s = s := fun s h1 h2 =>
    carry_other pairs (fun h => h1 ((m1 s).1 h)) fun h => h2 ((m2 s).1 h)
  have hgen : ∀ i, i < n - cnt → ρ (anonName (rnd (cnt + i))) = anonName (rnd' (cnt' + i)) := fun i hi =>
    carry_mem pairs n1 n2 (anonName (rnd (cnt + i)), anonName (rnd' (cnt' + i))) (List.mem_map.2 ⟨i, List.mem_range.2 hi, rfl⟩)
  have plain : ∀ s, (∀ k, s ≠ anonName k) → ρ s = s := fun s hs => other s (fun ⟨i, _, _, e⟩ => hs _ e) fun ⟨i, _, _, e⟩ => hs _ e
  have keeps : Keeps ρ := ⟨plain _ fun k e => anonName_ne k e.symm, fun s hs => plain s fun k e => anonName_colon k (e ▸ hs)⟩
  have hren : Renaming ρ := ⟨carry_inj pairs, keeps.empty⟩
  obtain ⟨us, e, h1, -⟩ := source_spec rnd cnt src
  rw [ht] at h1
  cases h1
  have hid : ∀ l ∈ us.map lexeme, l.1 = 18 → ρ l.2 = l.2 := by
    intro l hl h18
    obtain ⟨tk, htk, rfl⟩ := List.mem_map.1 hl
    have hm : tk ∈ us ++ [e] := List.mem_append_left _ htk
    exact other _ (fun ⟨i, a, b, e⟩ => hu.new i a b tk hm h18 e) fun ⟨i, a, b, e⟩ => hu'.new i a b tk hm h18 e
  have hm := (C35_source rnd cnt src ht t n).1 hp
  obtain ⟨hle, hm', hfix, htid⟩ := graph_ren (gen' := fun k => anonName (rnd' k)) (d0 := cnt') keeps (fun k ha hb => by
    have := hgen (k - cnt) (by omega)
    rw [show cnt + (k - cnt) = k by omega] at this
    exact this) hm hid
  have hp' := (C35_source rnd' cnt' src ht _ _).2 hm'
  have hcalls := treeCalls_ren keeps hfix htid
  obtain ⟨t0, n0, hp0, ha⟩ := read_analysed h
  rw [hp] at hp0
  cases hp0
  have hreg := (newAnalysedGraph_ok_iff t).1 ⟨g, ha⟩
  obtain ⟨g', ha'⟩ := (newAnalysedGraph_ok_iff { t with stmts := renStmts ρ t.stmts }).2 (by
    rw [hcalls]
    intro x hx k hk
    obtain ⟨y, hy, rfl⟩ := List.mem_map.1 hx
    rw [fields_ren] at hk
    exact hreg y hy k hk)
  refine ⟨g', ρ, ?_, hren, hgen, other, ?_⟩
  · unfold Parse.read
    rw [hp']
    simp only [ha']
  · obtain ⟨e1, hok⟩ := analysed_run ha
    obtain ⟨e2, -⟩ := analysed_run ha'
    rw [hcalls, List.map_map] at e2
    have e3 : (callOp ∘ renCall ρ) = renameOp ρ ∘ callOp := funext fun x => callOp_ren ρ x
    rw [e3, ← List.map_map] at e2
    rw [e1, e2]
    exact (C86_renaming hren _ hok).2.2

/-- A document with a named subgraph `name` that contains `a`, and more text after it. -/
def withSub (name more : Str) : Str := b!"graph  {\n\tsubgraph " ++ name ++ b!" {\n\t\ta;\n\t};\n" ++ more ++ b!"}\n"

namespace Anon

theorem parse_toked_at {src : Str} {ls : List Lexeme} (h1 : Toked Any src ls) {t : Ast.Graph} (rnd : Nat → Nat) (cnt n : Nat) (h2 : GraphM (fun k => anonName (rnd k)) cnt ls t n) :
    parseBytes rnd cnt src = .ok t n := by
  obtain ⟨ys', h3, h4⟩ := h1 [] [([], 1, [])] trivial (.eof .eof)
  rw [List.append_nil] at h3
  obtain ⟨ys, ts, h5, h6, h7⟩ := tokens_toks src
  rw [h5.det h3] at h7
  obtain ⟨us, e, h8, _, _, _, _⟩ := source_spec rnd cnt src
  rw [h6] at h8
  cases h8
  rw [C35_source rnd cnt _ h6]
  have hm := h7.map
  have hm' : ys'.map (fun y => (y.2.1, y.2.2)) = ys'.map Prod.snd := rfl
  rw [hm', h4, List.map_append] at hm
  have hl : us.map lexeme = ls := List.append_inj_left' hm rfl
  rw [hl]
  exact h2

theorem letter_valid (c : Nat) (h1 : 97 ≤ c) (h2 : c ≤ 122) : ValidId [c] := by
  have hr : runes [c] = [c] := runes_all_ascii [c] (by intro x hx; simp at hx; omega)
  refine .inl ⟨?_, ?_⟩
  · rw [hr]
    refine ⟨c, [], rfl, ?_, by simp⟩
    unfold letter; omega
  · rw [hr]
    intro h
    have : ∀ w ∈ keywords.map Prod.fst, w.length ≠ 1 := by decide
    exact this _ h rfl

theorem withSub_toked {s : Str} (hs : ValidId s) : ∃ ls, Toked Any (withSub s (b!"\t{b}\n")) ls ∧ ∀ (gen : Nat → Str) c,
    GraphM gen c ls ⟨false, false, [], [.sub s [.node ⟨b!"a", ⟨[], []⟩⟩ []], .sub (gen c) [.node ⟨b!"b", ⟨[], []⟩⟩ []]]⟩ (c + 1) := by
  have va := letter_valid 97 (by omega) (by omega)
  have vb := letter_valid 98 (by omega) (by omega)
  have e32 : (32 : Nat) < 128 ∧ EndRune 32 := ⟨by omega, by decide, by decide, by decide⟩
  have e59 : (59 : Nat) < 128 ∧ EndRune 59 := ⟨by omega, by decide, by decide, by decide⟩
  have e125 : (125 : Nat) < 128 ∧ EndRune 125 := ⟨by omega, by decide, by decide, by decide⟩
  have lay : ∀ w : Str, (∀ c ∈ w, c = 32 ∨ c = 9 ∨ c = 10 ∨ c = 13) → Toked Any w [] := fun w h => toked_layout (layout_blanks h)
  have t8 : Toked Any (125 :: b!"\n}\n") _ := (toked_punct (e := (b!"}", 4)) (by decide)).anyThen ((lay [10] (by decide)).anyThen ((toked_punct (e := (b!"}", 4)) (by decide)).anyThen (lay [10] (by decide))))
  have t7 := (toked_id vb).stopThen t8 e125
  have t6 : Toked Any (59 :: (b!"\n\t};\n\t{" ++ ([98] ++ 125 :: b!"\n}\n"))) _ := (toked_punct (e := (b!";", 7)) (by decide)).anyThen ((lay [10, 9] (by decide)).anyThen ((toked_punct (e := (b!"}", 4)) (by decide)).anyThen
    ((toked_punct (e := (b!";", 7)) (by decide)).anyThen ((lay [10, 9] (by decide)).anyThen ((toked_punct (e := (b!"{", 3)) (by decide)).anyThen t7)))))
  have t5 := (toked_id va).stopThen t6 e59
  have t4 : Toked Any (32 :: (b!"{\n\t\t" ++ _)) _ := (lay [32] (by decide)).anyThen ((toked_punct (e := (b!"{", 3)) (by decide)).anyThen ((lay [10, 9, 9] (by decide)).anyThen t5))
  have t3 := (toked_id hs).stopThen t4 e32
  have t2 : Toked Any (32 :: _) _ := (lay [32] (by decide)).anyThen t3
  have t1 := (toked_keyword (e := (b!"subgraph", 15)) (by decide)).stopThen t2 e32
  have t0 : Toked Any (32 :: (b!" {\n\t" ++ _)) _ := (lay [32, 32] (by decide)).anyThen ((toked_punct (e := (b!"{", 3)) (by decide)).anyThen ((lay [10, 9] (by decide)).anyThen t1))
  have t := (toked_keyword (e := (b!"graph", 2)) (by decide)).stopThen t0 e32
  simp only [List.cons_append, List.nil_append, List.append_nil] at t
  refine ⟨[(2, b!"graph"), (3, b!"{"), (15, b!"subgraph"), (18, s), (3, b!"{"), (18, [97]), (7, b!";"), (4, b!"}"), (7, b!";"), (3, b!"{"), (18, [98]), (4, b!"}"), (4, b!"}")], ?_, fun gen c => ?_⟩
  · refine Eq.subst (motive := fun x => Toked Any x _) ?_ t
    simp [withSub]
  · have n1 : StmtM gen c [(18, [97])] (.node ⟨[97], ⟨[], []⟩⟩ []) c := by simpa using StmtM.node (gen := gen) (c := c) NodeIdM.plain OptAttrListM.absent
    have n2 : StmtM gen c [(18, [98])] (.node ⟨[98], ⟨[], []⟩⟩ []) c := by simpa using StmtM.node (gen := gen) (c := c) NodeIdM.plain OptAttrListM.absent
    have s1 := StmtM.sub (SubM.named (k := b!"subgraph") (s := s) (l := [123]) (l' := [125]) (.present (StmtsM.one n1 (.present (l := [59])))))
    have s2 := StmtM.sub (SubM.braces (l := [123]) (l' := [125]) (StmtsM.one n2 .absent))
    have := GraphM.mk (l := [123]) (l' := [125]) .absent (.graph (l := b!"graph")) .absent (.present (.snoc (.one s1 (.present (l := [59]))) s2 .absent))
    simpa using this

theorem small_toked : ∃ ls, Toked Any (b!"graph{{a}}") ls ∧ ∀ (gen : Nat → Str) c,
    GraphM gen c ls ⟨false, false, [], [.sub (gen c) [.node ⟨b!"a", ⟨[], []⟩⟩ []]]⟩ (c + 1) := by
  have va := letter_valid 97 (by omega) (by omega)
  have e123 : (123 : Nat) < 128 ∧ EndRune 123 := ⟨by omega, by decide, by decide, by decide⟩
  have e125 : (125 : Nat) < 128 ∧ EndRune 125 := ⟨by omega, by decide, by decide, by decide⟩
  have t3 : Toked Any (125 :: b!"}") _ := (toked_punct (e := (b!"}", 4)) (by decide)).anyThen (toked_punct (e := (b!"}", 4)) (by decide))
  have t2 := (toked_id va).stopThen t3 e125
  have t1 : Toked Any (123 :: _) _ := (toked_punct (e := (b!"{", 3)) (by decide)).anyThen ((toked_punct (e := (b!"{", 3)) (by decide)).anyThen t2)
  have t := (toked_keyword (e := (b!"graph", 2)) (by decide)).stopThen t1 e123
  simp only [List.cons_append, List.nil_append, List.append_nil] at t
  refine ⟨_, t, fun gen c => ?_⟩
  have n1 : StmtM gen c [(18, [97])] (.node ⟨[97], ⟨[], []⟩⟩ []) c := by simpa using StmtM.node (gen := gen) (c := c) NodeIdM.plain OptAttrListM.absent
  have s1 := StmtM.sub (SubM.braces (l := [123]) (l' := [125]) (StmtsM.one n1 .absent))
  have := GraphM.mk (l := [123]) (l' := [125]) .absent (.graph (l := b!"graph")) .absent (.present (.one s1 .absent))
  simpa using this

theorem read_plain {rnd : Nat → Nat} {cnt n : Nat} {src : Str} {t : Ast.Graph} (hp : parseBytes rnd cnt src = .ok t n) {cs : List Call} (hc : treeCalls t = cs)
    (hf : ∀ x ∈ cs, x.fields = []) : ∃ g, Parse.read rnd cnt src = .ok g ∧ g = newGraph.run (cs.map callOp) ∧ OkHistory newGraph (cs.map callOp) := by
  obtain ⟨g, hg⟩ := (newAnalysedGraph_ok_iff t).2 (by
    rw [hc]
    intro x hx k hk
    rw [hf x hx] at hk
    cases hk)
  refine ⟨g, ?_, hc ▸ analysed_run hg⟩
  unfold Parse.read
  rw [hp]
  simp only [hg]

end Anon

/-- C100 does not hold in general. The generator starts at the same place in every process. One process reads `graph{{a}}` and writes the graph: the anonymous subgraph is written under its generated name. Somebody adds
`{b}` to the file. The next process reads it: the new anonymous subgraph gets the name of the old one, and the two become one. With a generator that draws another name the
same file has two subgraphs. -/
theorem C100_violated (rnd : Nat → Nat) (cnt : Nat) :
    (∃ g, Parse.read rnd cnt (b!"graph{{a}}") = .ok g ∧ ∀ sortE fuel, SortContract sortE → 2 ≤ fuel → graphString sortE fuel g = .ok (withSub (anonName (rnd cnt)) [])) ∧
    (∃ g, Parse.read rnd cnt (withSub (anonName (rnd cnt)) (b!"\t{b}\n")) = .ok g ∧ (∀ m, g.isSubGraph m = true ↔ m = anonName (rnd cnt)) ∧
      ∀ c, mhas (g.relations.children (anonName (rnd cnt))) c = true ↔ c = b!"a" ∨ c = b!"b") ∧
    ∀ rnd' cnt', rnd' cnt' ≠ rnd cnt → ∃ g, Parse.read rnd' cnt' (withSub (anonName (rnd cnt)) (b!"\t{b}\n")) = .ok g ∧
      (∀ m, g.isSubGraph m = true ↔ m = anonName (rnd cnt) ∨ m = anonName (rnd' cnt')) ∧
      (∀ c, mhas (g.relations.children (anonName (rnd cnt))) c = true ↔ c = b!"a") ∧ ∀ c, mhas (g.relations.children (anonName (rnd' cnt'))) c = true ↔ c = b!"b" := by
  have key : ∀ rnd' cnt', ∃ g, Parse.read rnd' cnt' (withSub (anonName (rnd cnt)) (b!"\t{b}\n")) = .ok g ∧
      (∀ m, g.isSubGraph m = true ↔ m = anonName (rnd cnt) ∨ m = anonName (rnd' cnt')) ∧
      ∀ p c, mhas (g.relations.children p) c = true ↔ (p = [] ∧ (c = anonName (rnd cnt) ∨ c = anonName (rnd' cnt'))) ∨ (p = anonName (rnd cnt) ∧ c = b!"a") ∨ (p = anonName (rnd' cnt') ∧ c = b!"b") := by
    intro rnd' cnt'
    obtain ⟨ls, h1, h2⟩ := withSub_toked (anonName_valid (rnd cnt)).1
    have hp := parse_toked_at h1 rnd' cnt' (cnt' + 1) (h2 _ _)
    obtain ⟨g, hg, e, hok⟩ := read_plain hp (cs := [.setStrict false, .setDir false, .setName [], .addSubGraph [] (anonName (rnd cnt)) [], .addNode (anonName (rnd cnt)) (b!"a") [],
      .addSubGraph [] (anonName (rnd' cnt')) [], .addNode (anonName (rnd' cnt')) (b!"b") []]) (by
        simp [treeCalls, stmtsCalls, stmtCalls, mentioned, mentions, Ast.nodeIDStr, Ast.portStr, graphDefaults, graphDefaultEntries, Scope.nodeDefaults, nodeDefaultEntries, Scope.edgeDefaults, edgeDefaultEntries]
        exact ⟨rfl, rfl, rfl, rfl⟩)
      (by simp [Call.fields, Call.attrs, mkeys])
    have hr := Reachable.init.run hok
    rw [← e] at hr
    have ha := (abs_run Reachable.init _ hok).1
    rw [← e, abs_new] at ha
    refine ⟨g, hg, fun m => ?_, fun p c => ?_⟩
    · have h0 : g.isSubGraph m = ((abs g).sub m).isSome := by unfold Graph.isSubGraph mhas abs; simp
      rw [h0, ha]
      simp only [List.map_cons, List.map_nil, callOp, arun, AGraph.step, AGraph.setAttrs, firstBad, List.find?_nil, Option.map_none, AGraph.empty, upd]
      generalize anonName (rnd cnt) = x
      generalize anonName (rnd' cnt') = y
      by_cases e1 : m = x <;> by_cases e2 : m = y <;> simp [e1, e2] <;> split <;> simp
    · have h0 : mhas (g.relations.children p) c = (abs g).contains p c := rfl
      rw [h0, ha]
      simp [List.map_cons, List.map_nil, callOp, arun, AGraph.step, AGraph.setAttrs, firstBad, List.find?_nil, Option.map_none, AGraph.empty, upd]
      generalize anonName (rnd cnt) = x
      generalize anonName (rnd' cnt') = y
      grind
  refine ⟨?_, ?_, ?_⟩
  · obtain ⟨ls, h1, h2⟩ := small_toked
    have hp := parse_toked_at h1 rnd cnt (cnt + 1) (h2 _ _)
    obtain ⟨g, hg, e, -⟩ := read_plain hp (cs := [.setStrict false, .setDir false, .setName [], .addSubGraph [] (anonName (rnd cnt)) [], .addNode (anonName (rnd cnt)) (b!"a") []]) (by
        simp [treeCalls, stmtsCalls, stmtCalls, mentioned, Ast.nodeIDStr, Ast.portStr, graphDefaults, graphDefaultEntries, Scope.nodeDefaults, nodeDefaultEntries, Scope.edgeDefaults, edgeDefaultEntries]
        exact ⟨rfl, rfl⟩)
      (by simp [Call.fields, Call.attrs, mkeys])
    refine ⟨g, hg, fun sortE fuel hs hf => ?_⟩
    have he : sortE [] = [] := List.perm_nil.1 (hs.perm [])
    obtain ⟨f, rfl⟩ : ∃ f, fuel = f + 2 := ⟨fuel - 2, by omega⟩
    have hv := anonName_valid (rnd cnt)
    have hne := anonName_ne (rnd cnt)
    obtain ⟨x', hx'⟩ : ∃ x', anonName (rnd cnt) = 97 :: 110 :: x' := ⟨_, rfl⟩
    generalize anonName (rnd cnt) = x at *
    subst hx'
    have hs1 : slt (97 :: 110 :: x') (97 :: 110 :: x') = false := slt_irrefl _
    have hs2 : slt (97 :: 110 :: x') [97] = false := rfl
    have hs3 : slt [97] (97 :: 110 :: x') = true := rfl
    have hs4 : ∀ z : Str, slt z [] = false := fun z => by cases z <;> rfl
    have hs5 : ∀ (c : Nat) (z : Str), slt [] (c :: z) = true := fun c z => rfl
    rw [e]
    simp [graphString, writeAst, Graph.run, Graph.step, callOp, newGraph, Graph.setStrict, Graph.setDir, Graph.setName, Graph.addSubGraph, Graph.addNode, newAttrs, newAttrsFrom, Graph.addAttrs,
      subGraphsAdd, newRelations, Relations.add, newNodes, Nodes.add, newEdges, he, edgeStmts, WRes.bind, mget, mset, mhas, hs1, hs2, hs3, hs4, hs5,
      relIndexAdd, subGraphsSorted, mkeys, ssort, sinsert, rootSubs, Relations.children, newSubGraph, Relations.sortedChildren, childLoop, Graph.isNode, newNodeStmt, Nodes.find, Nodes.deref, Nodes.sorted,
      rootNodes, attrStmts, sortedNames, attrsCopy, msetAll, withSub]
    have hi : trimSuffixNL (Ast.stmtsLines [9, 9] [.node (Ast.makeNodeID [97] []) (Ast.putMap [])]) = [9, 9, 97, 59] := by decide +kernel
    have hb : Ast.stmtListStr [9] [.sub (97 :: 110 :: x') [.node (Ast.makeNodeID [97] []) (Ast.putMap [])]] =
        b!"\tsubgraph " ++ (97 :: 110 :: x') ++ b!" {\n\t\ta;\n\t};" := by
      have e1 : Ast.stmtStr [9] (.sub (97 :: 110 :: x') [.node (Ast.makeNodeID [97] []) (Ast.putMap [])]) = b!"\tsubgraph " ++ (97 :: 110 :: x') ++ b!" {\n\t\ta;\n\t}" := by
        rw [Ast.stmtStr]
        show _ ++ trimSuffixNL (Ast.stmtsLines [9, 9] _) ++ _ ++ _ ++ _ = _
        rw [hi]
        simp
      have e2 : Ast.stmtsLines [9] [.sub (97 :: 110 :: x') [.node (Ast.makeNodeID [97] []) (Ast.putMap [])]] = (b!"\tsubgraph " ++ (97 :: 110 :: x') ++ b!" {\n\t\ta;\n\t};") ++ [10] := by
        rw [Ast.stmtsLines, Ast.stmtsLines]
        simp only [e1]
        simp
      rw [Ast.stmtListStr, e2, trimSuffixNL_snoc]
    rw [Ast.graphStr]
    simp [hb, Ast.typeStr]
  · obtain ⟨g, h1, h2, h3⟩ := key rnd cnt
    refine ⟨g, h1, fun m => by simpa using h2 m, fun c => ?_⟩
    rw [h3]
    simp [anonName_ne]
  · intro rnd' cnt' hne
    obtain ⟨g, h1, h2, h3⟩ := key rnd' cnt'
    have hn : anonName (rnd' cnt') ≠ anonName (rnd cnt) := fun e => hne (anonName_inj e)
    refine ⟨g, h1, h2, fun c => ?_, fun c => ?_⟩
    · rw [h3]; simp [anonName_ne, hn.symm]
    · rw [h3]; simp [anonName_ne, hn]

/-- Two anonymous subgraphs, as the ends of an edge; one contains a named subgraph whose name looks like a generated name. -/
theorem example_anonymous : ∃ ts t g, tokens (b!"digraph{{a}->{subgraph anon1{b}}}") = some ts ∧ parseBytes (· + 10) 0 (b!"digraph{{a}->{subgraph anon1{b}}}") = .ok t 2 ∧ Unused (· + 10) 0 2 ts ∧
    Unused (· + 77) 5 7 ts ∧ Parse.read (· + 10) 0 (b!"digraph{{a}->{subgraph anon1{b}}}") = .ok g ∧
    g.isSubGraph (b!"anon10") = true ∧ g.isSubGraph (b!"anon11") = true ∧ g.isSubGraph (b!"anon1") = true ∧ mhas (g.relations.children (b!"anon11")) (b!"anon1") = true := by
  have h1 : (match tokens (b!"digraph{{a}->{subgraph anon1{b}}}") with
      | some ts => decide (∀ t ∈ ts, t.typ = 18 → t.lit ∉ [anonName 10, anonName 11, anonName 82, anonName 83])
      | none => false) = true := by decide +kernel
  have h2 : (match parseBytes (· + 10) 0 (b!"digraph{{a}->{subgraph anon1{b}}}") with
      | .ok _ n => decide (n = 2)
      | _ => false) = true := by decide +kernel
  have h3 : (match Parse.read (· + 10) 0 (b!"digraph{{a}->{subgraph anon1{b}}}") with
      | .ok g => decide (g.isSubGraph (b!"anon10") = true ∧ g.isSubGraph (b!"anon11") = true ∧ g.isSubGraph (b!"anon1") = true ∧ mhas (g.relations.children (b!"anon11")) (b!"anon1") = true)
      | _ => false) = true := by decide +kernel
  revert h1 h2 h3
  cases ht : tokens (b!"digraph{{a}->{subgraph anon1{b}}}") with
  | none => intro h1; cases h1
  | some ts =>
    cases hp : parseBytes (· + 10) 0 (b!"digraph{{a}->{subgraph anon1{b}}}") with
    | ok t n =>
      cases hr : Parse.read (· + 10) 0 (b!"digraph{{a}->{subgraph anon1{b}}}") with
      | ok g =>
        intro h1 h2 h3
        obtain rfl := of_decide_eq_true h2
        have hm := of_decide_eq_true h1
        have hg := of_decide_eq_true h3
        refine ⟨ts, t, g, rfl, rfl, ⟨fun i j _ _ _ _ e => by simpa using e, fun i _ hi tk htk h18 e => ?_⟩, ⟨fun i j _ _ _ _ e => by simpa using e, fun i hi' hi tk htk h18 e => ?_⟩, rfl, hg⟩
        · have := hm tk htk h18
          rw [e] at this
          obtain rfl | rfl : i = 0 ∨ i = 1 := by omega
          all_goals simp at this
        · have := hm tk htk h18
          rw [e] at this
          obtain rfl | rfl : i = 5 ∨ i = 6 := by omega
          all_goals simp at this
      | _ => intro _ _ h3; cases h3
    | _ => intro _ h2; cases h2

end Gographviz.Props
