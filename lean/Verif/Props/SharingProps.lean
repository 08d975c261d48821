import Verif.Proofs.Sharing
import Verif.Props.HeapProps
/-!
C71: goroutines may call the methods that only read (`WriteAst`, `String`, `IsNode`, `IsSubGraph`, the `Sorted` methods) on shared graphs at the
same time. The methods are programs of single memory accesses (`Model/WriteMem.lean`); a schedule interleaves these in any way.
-/
namespace Gographviz.Props

open Gographviz Gographviz.Heap Gographviz.Threads Spec Spec.Sharing

variable {ι : Type} [DecidableEq ι]

/-- Nobody owns what exists at the beginning. -/
theorem sh_start (s : State) : Sh (ι := ι) (worldOf s) ⟨worldOf s, fun _ => none⟩ := fun _ _ h => ⟨h, rfl⟩

/-- All goroutines together. -/
theorem sharing_inv {s : State} (h : Reached s) {sorter : Nat → SortTree} (hsort : Sorts sorter) (fuel : Nat) {calls : ι → Nat × Query} {G : ι → HGraph}
    (hG : ∀ i, s.graphs[(calls i).1]? = some (G i)) {V : ι → Graph} (hV : ∀ i, GraphAt (worldOf s) (calls i).1 (G i) (edgeAt s.mem) (V i))
    {tr : List (ι × Acc)} {c : Conf ι Out} (hr : (calling sorter fuel calls s).Reach tr c) :
    ∃ own : Threads.Loc → Option ι, (∀ i, Safe i (c.procs i) (fun r _ => Right .same (sortOf sorter) fuel s.mem (G i) (V i) (calls i).2 r) ⟨c.mem, own⟩) ∧
      (∀ x ∈ tr, Acc.ok ⟨c.mem, own⟩ x.1 x.2) ∧ Older ⟨worldOf s, fun _ => none⟩ ⟨c.mem, own⟩ := by
  refine reach_safe (own := fun _ => none) (Q := fun i r _ => Right .same (sortOf sorter) fuel s.mem (G i) (V i) (calls i).2 r) (fun i => ?_) hr
  exact Safe.mono (fun _ _ h => h.2.2) (Query.runs (SInv.of h) (hG i) (hV i) hsort fuel (calls i).2 (sh_start s))

/-- The contract of `sort.Sort` can be met (by insertion sort). -/
theorem C71_sorter_exists : Sorts insertionSorter := insertionSorter_sorts

/-- **C71** Whatever the schedule, each call returns what it would return alone: `valueOf` is the graph at the beginning. The order of edges that `Less` cannot
distinguish is the same in all calls (it depends on `sort.Sort` only). -/
theorem C71_result {sorter : Nat → SortTree} (hsort : Sorts sorter) : ∃ sortE, SortContract sortE ∧
    ∀ {s : State}, Reached s → ∀ (fuel : Nat) {calls : ι → Nat × Query} {G : ι → HGraph}, (∀ i, s.graphs[(calls i).1]? = some (G i)) →
    ∀ {tr : List (ι × Acc)} {c : Conf ι Out}, (calling sorter fuel calls s).Reach tr c →
    ∀ i r, Returned c i r → Right .same sortE fuel s.mem (G i) (valueOf s.mem (G i)) (calls i).2 r := by
  refine ⟨sortOf sorter, hsort.contract, ?_⟩
  intro s h fuel calls G hG tr c hr i r hd
  obtain ⟨own, h1, _, _⟩ := sharing_inv h hsort fuel hG (fun i => graphAt_value (SInv.of h) h.mapsWF (hG i)) hr
  have := h1 i
  rw [show c.procs i = .ret r from hd] at this
  exact this _ (Keep.refl i _)

/-- **C71** ... in terms of the history: if the graphs were made by calls of the API only, a call returns what it returns for the graph that its own history makes
(`Model/Graph.lean`), to which the theorems about `WriteAst` and `String` apply. -/
theorem C71_result_history {sorter : Nat → SortTree} (hsort : Sorts sorter) : ∃ sortE, SortContract sortE ∧
    ∀ {acts : List Act}, OkActs start acts → NoWrites acts → ∀ (fuel : Nat) {calls : ι → Nat × Query} {G : ι → HGraph},
    (∀ i, (start.run acts).graphs[(calls i).1]? = some (G i)) →
    ∀ {tr : List (ι × Acc)} {c : Conf ι Out}, (calling sorter fuel calls (start.run acts)).Reach tr c →
    ∀ i r, Returned c i r → Right .same sortE fuel (start.run acts).mem (G i) (newGraph.run (opsOn (calls i).1 acts)) (calls i).2 r := by
  refine ⟨sortOf sorter, hsort.contract, ?_⟩
  intro acts hok hw fuel calls G hG tr c hr i r hd
  have h : Reached (start.run acts) := ⟨acts, hok, rfl⟩
  have hV : ∀ i, GraphAt (worldOf (start.run acts)) (calls i).1 (G i) (edgeAt (start.run acts).mem) (newGraph.run (opsOn (calls i).1 acts)) := by
    intro i
    obtain ⟨h1, h2⟩ := (C61_refines hok hw (calls i).1).1 (G i) (hG i)
    exact graphAt_contents (SInv.of h) h.mapsWF (hG i) (Reachable.init.run h1).inv h2
  obtain ⟨own, h1, _, _⟩ := sharing_inv h hsort fuel hG hV hr
  have := h1 i
  rw [show c.procs i = .ret r from hd] at this
  exact this _ (Keep.refl i _)

/-- **C71** There is no data race: no two goroutines touch the same address unless both only read it. -/
theorem C71_no_race {sorter : Nat → SortTree} (hsort : Sorts sorter) {s : State} (h : Reached s) (fuel : Nat) {calls : ι → Nat × Query}
    (hc : ∀ i, (calls i).1 < s.graphs.length) {tr : List (ι × Acc)} {c : Conf ι Out} (hr : (calling sorter fuel calls s).Reach tr c) : RaceFree tr := by
  have hG : ∀ i, s.graphs[(calls i).1]? = some (s.graphs[(calls i).1]'(hc i)) := fun i => List.getElem?_eq_getElem (hc i)
  obtain ⟨own, _, h2, _⟩ := sharing_inv h hsort fuel hG (fun i => graphAt_value (SInv.of h) h.mapsWF (hG i)) hr
  rintro ⟨i, a⟩ hx ⟨j, b⟩ hy hij ⟨l, ha, hb, hch⟩
  have key : ∀ (i : ι) (a : Acc), Acc.ok ⟨c.mem, own⟩ i a → touched a = some l → (own l = none ∨ own l = some i) ∧ (changes a = true → own l = some i) := by
    intro i a hok ht
    cases a <;> simp only [touched, Option.some.injEq, reduceCtorEq] at ht
    · subst ht; exact ⟨hok.2, fun h => nomatch h⟩
    · subst ht; exact ⟨.inr hok.2, fun _ => hok.2⟩
    · subst ht; exact ⟨.inr hok.2, fun _ => hok.2⟩
  obtain ⟨k1, k2⟩ := key i a (h2 _ hx) ha
  obtain ⟨k3, k4⟩ := key j b (h2 _ hy) hb
  rcases hch with hch | hch
  · have e := k2 hch
    rcases k3 with k3 | k3 <;> rw [e] at k3 <;> cases k3
    exact hij rfl
  · have e := k4 hch
    rcases k1 with k1 | k1 <;> rw [e] at k1 <;> cases k1
    exact hij rfl

/-- **C71** Nothing that existed is changed, at any time. -/
theorem C71_unchanged {sorter : Nat → SortTree} (hsort : Sorts sorter) {s : State} (h : Reached s) (fuel : Nat) {calls : ι → Nat × Query}
    (hc : ∀ i, (calls i).1 < s.graphs.length) {tr : List (ι × Acc)} {c : Conf ι Out} (hr : (calling sorter fuel calls s).Reach tr c)
    {l : Threads.Loc} {v : Cell} (hl : worldOf s l = some v) : c.mem l = some v := by
  have hG : ∀ i, s.graphs[(calls i).1]? = some (s.graphs[(calls i).1]'(hc i)) := fun i => List.getElem?_eq_getElem (hc i)
  obtain ⟨own, _, _, h3⟩ := sharing_inv h hsort fuel hG (fun i => graphAt_value (SInv.of h) h.mapsWF (hG i)) hr
  exact (h3 l v hl).2.2 rfl

theorem finite_start (s : State) : Finite (worldOf s) := by
  refine ⟨s.graphs.length + s.mem.nodes.length + s.mem.edges.length + s.mem.subs.length + s.mem.maps.length + s.args.length, fun c n hn => ?_⟩
  cases c <;> simp only [Cell.loc, worldOf, Option.map_eq_none_iff, List.getElem?_eq_none_iff] <;> omega

/-- **C71** A goroutine that has not returned is never stuck. -/
theorem C71_never_stuck (sorter : Nat → SortTree) (s : State) (fuel : Nat) (calls : ι → Nat × Query) {tr : List (ι × Acc)} {c : Conf ι Out}
    (hr : (calling sorter fuel calls s).Reach tr c) (i : ι) : (∃ r, Returned c i r) ∨ ∃ a c', Conf.Step i c a c' := by
  rcases can_step (p := c.procs i) (Finite.reach (finite_start s) hr) with h | ⟨a, p', w', h⟩
  · exact .inl h
  · exact .inr ⟨a, _, .mk h⟩

/-- **C71** In an infinite schedule a goroutine makes only finitely many accesses; so in a fair one it returns. -/
theorem C71_finishes {run : Nat → Conf ι Out} {who : Nat → ι} (h : ∀ k, ∃ a, Conf.Step (who k) (run k) a (run (k + 1))) (i : ι) :
    ∃ N, ∀ k, N ≤ k → who k ≠ i := finitely_often h i

/-- **C71** With finitely many goroutines there is no infinite schedule. -/
theorem C71_no_infinite_schedule (all : List ι) (hall : ∀ i, i ∈ all) (run : Nat → Conf ι Out) (who : Nat → ι) :
    ¬ ∀ k, ∃ a, Conf.Step (who k) (run k) a (run (k + 1)) := by
  intro h
  have : ∀ l : List ι, ∃ N, ∀ k, N ≤ k → who k ∉ l := by
    intro l
    induction l with
    | nil => exact ⟨0, fun _ _ h => nomatch h⟩
    | cons i l ih =>
      obtain ⟨N, hN⟩ := ih
      obtain ⟨M, hM⟩ := finitely_often h i
      refine ⟨max N M, fun k hk hm => ?_⟩
      rcases List.mem_cons.1 hm with hm | hm
      · exact hM k (by omega) hm
      · exact hN k (by omega) hm
  obtain ⟨N, hN⟩ := this all
  exact hN N (Nat.le_refl N) (hall _)

/-- Two goroutines print the same graph (the one of `heapActs`, with two nodes, an edge and a subgraph). -/
def sharingCalls (b : Bool) : Nat × Query := (0, if b then .string else .isNode (b!"a"))

/-- What `String` returns. -/
def sharingText : Str := b!"graph G {\n\ta->b [ color=blue ];\n\tsubgraph cluster1 {\n\t\ta [ color=blue, label=x ];\n\t};\n\tb [ color=blue ];\n}\n"

theorem sharing_len : ∀ b, (sharingCalls b).1 < (start.run heapActs).graphs.length := by decide +kernel

theorem sharing_text : (match graphString (sortOf insertionSorter) 9 (valueOf (start.run heapActs).mem ((start.run heapActs).graphs[0]'(sharing_len true))) with
    | .ok s => decide (s = sharingText)
    | _ => false) = true ∧ (valueOf (start.run heapActs).mem ((start.run heapActs).graphs[0]'(sharing_len true))).isNode (b!"a") = true := by decide +kernel

/-- The hypotheses are met: both can be run to the end, and the one that calls `String` returns this text. -/
theorem example_sharing : Sorts insertionSorter ∧ Reached (start.run heapActs) ∧ (∀ b, (sharingCalls b).1 < (start.run heapActs).graphs.length) ∧
    ∃ tr c, (calling insertionSorter 9 sharingCalls (start.run heapActs)).Reach tr c ∧ Returned c false (.ok (.bool true)) ∧
      Returned c true (.ok (.text sharingText)) := by
  have hlen := sharing_len
  refine ⟨insertionSorter_sorts, heapActs_reached, hlen, ?_⟩
  obtain ⟨tr1, c1, r1, h1, h2, _⟩ := can_return true (c := calling insertionSorter 9 sharingCalls (start.run heapActs)) (finite_start _)
  obtain ⟨tr2, c2, r2, h4, h5, h6⟩ := can_return false (c := c1) (Finite.reach (finite_start _) h1)
  have hr := Reach.trans h1 h4
  have hG : ∀ b, (start.run heapActs).graphs[(sharingCalls b).1]? = some ((start.run heapActs).graphs[(sharingCalls b).1]'(hlen b)) := fun b => List.getElem?_eq_getElem (hlen b)
  obtain ⟨own, hs, _, _⟩ := sharing_inv heapActs_reached insertionSorter_sorts 9 hG (fun i => graphAt_value (SInv.of heapActs_reached) heapActs_reached.mapsWF (hG i)) hr
  have e1 : c2.procs true = .ret r1 := by rw [h6 true (by decide)]; exact h2
  have k1 := hs true
  rw [e1] at k1
  have k2 := hs false
  rw [h5] at k2
  have k1 : r1 = okOf .text (graphString (sortOf insertionSorter) 9 (valueOf (start.run heapActs).mem ((start.run heapActs).graphs[0]'(hlen true)))) := k1 _ (Keep.refl true _)
  have k2 : r2 = .ok (.bool ((valueOf (start.run heapActs).mem ((start.run heapActs).graphs[0]'(hlen true))).isNode (b!"a"))) := k2 _ (Keep.refl false _)
  obtain ⟨t1, t2⟩ := sharing_text
  split at t1
  · rename_i x hx
    rw [hx, of_decide_eq_true t1] at k1
    rw [t2] at k2
    subst k1 k2
    exact ⟨_, c2, hr, h5, e1⟩
  · cases t1

end Gographviz.Props
