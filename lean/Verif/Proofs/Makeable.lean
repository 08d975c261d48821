import Verif.Proofs.Graph
import Verif.Proofs.Replay
import Verif.Spec.Makeable
/-!
Support for C102: building any contents with calls.
-/
namespace Gographviz

open Spec

/-- Some history of calls makes the contents. -/
def Made (a : AGraph) : Prop := ∃ g, Reachable g ∧ abs g = a

theorem Made.step {a : AGraph} (h : Made a) (op : Op) (hok : ∀ g, abs g = a → op.Ok g) : Made (a.step op).1 := by
  obtain ⟨g, hr, rfl⟩ := h
  refine ⟨_, .step op hr (hok g rfl), ?_⟩
  rw [← abs_step hr.inv op (hok g rfl)]

theorem Made.empty : Made AGraph.empty := ⟨_, .init, abs_new⟩

/-- The attributes as a map. -/
theorem finAttrs_map {m : AAttrs} (h : FinAttrs m) : ∃ as : Map Str, MapWF as ∧ AllReg as ∧ ∀ k, mget as k = m k := by
  obtain ⟨⟨ks, hks⟩, hreg⟩ := h
  have : ∃ as : Map Str, MapWF as ∧ ∀ k, mget as k = if k ∈ ks then m k else none := by
    clear hks
    induction ks with
    | nil => exact ⟨[], List.Pairwise.nil, fun k => by simp [mget]⟩
    | cons x ks ih =>
      obtain ⟨as, hw, ha⟩ := ih
      cases hx : m x with
      | none =>
        refine ⟨as, hw, fun k => ?_⟩
        rw [ha]
        by_cases hk : k = x
        · subst hk; simp [hx]
        · simp [hk]
      | some v =>
        refine ⟨mset as x v, hw.mset _ _, fun k => ?_⟩
        rw [mget_mset]
        by_cases hk : x = k
        · subst hk; simp [hx]
        · simp [hk, Ne.symm hk, ha]
  obtain ⟨as, hw, ha⟩ := this
  have hg : ∀ k, mget as k = m k := by
    intro k
    rw [ha]
    split
    · rfl
    · rename_i hk
      cases hm : m k with
      | none => rfl
      | some v => exact absurd (hks k (by simp [hm])) hk
  refine ⟨as, hw, fun e he => hreg e.1 ?_, hg⟩
  rw [← hg, mget_of_mem hw (k := e.1) (v := e.2) he]
  simp

theorem entry_map {as : Map Str} (h : MapWF as) (k : Str) : entry as k = mget as k := by
  rw [entry_wf h, mget_eq_lastAssign h]

theorem firstBad_reg {as : List (Str × Str)} (h : AllReg as) : firstBad as = none := by
  unfold firstBad
  rw [Option.map_eq_none_iff, List.find?_eq_none]
  intro e he
  simp [h e he]

theorem exists_fresh (L : List Str) : ∃ F : Str, F ∉ L := by
  refine ⟨List.replicate ((L.map List.length).sum + 1) 120, fun h => ?_⟩
  have : ∀ (L : List Str) (x : Str), x ∈ L → x.length ≤ (L.map List.length).sum := by
    intro L
    induction L with
    | nil => intro x h; cases h
    | cons y L ih =>
      intro x h
      simp only [List.map_cons, List.sum_cons]
      rcases List.mem_cons.1 h with rfl | h
      · omega
      · have := ih x h; omega
  have := this L _ h
  simp at this
  omega

/-- One more node, with no parent. -/
theorem Made.loneNode {F : Str} {N : Str → Option AAttrs} {f : AAttrs} {n : Str} (hN : N n = none ∨ N n = some f) (hf : FinAttrs f) (hn : n ≠ F)
    (h : Made ⟨F, false, false, fun _ => none, N, [], fun _ => none, fun _ _ => false⟩) :
    Made ⟨F, false, false, fun _ => none, upd N n (some f), [], fun _ => none, fun _ _ => false⟩ := by
  obtain ⟨as, hw, hr, ha⟩ := finAttrs_map hf
  have h1 := h.step (.addNode F n as) fun _ _ => hw.nodup
  simp only [AGraph.step, firstBad_reg hr] at h1
  have h2 := h1.step (.removeSubGraph F n []) fun g hg => by
    have : ∀ c, mhas (g.relations.children n) c = false := fun c => by
      have := congrFun (congrFun (congrArg AGraph.contains hg) n) c
      simpa [abs, hn] using this
    have hnil : mkeys (g.relations.children n) = [] := by
      rw [List.eq_nil_iff_forall_not_mem]
      intro c hc
      have := this c
      rw [(mhas_iff _ _).2 hc] at this
      cases this
    show List.Perm _ _
    rw [hnil]
  simp only [AGraph.step, AGraph.removeNodes, List.filter_nil] at h2
  refine cast (congrArg Made ?_) h2
  simp only [AGraph.mk.injEq, true_and]
  refine ⟨?_, ?_, ?_⟩
  · funext x
    unfold upd
    split
    · congr 1
      funext k
      unfold merge
      rw [entry_map hw, ha]
      rcases hN with e | e <;> rw [e]
      · cases f k <;> rfl
      · cases hk : f k <;> simp [hk]
    · rfl
  · funext x; unfold upd; split <;> rfl
  · funext p c
    by_cases h : p = F ∧ c = n
    · simp [h]
    · rw [if_neg h]; simpa using h

/-- One more relation. -/
theorem Made.relation {F : Str} {N : Str → Option AAttrs} {C : Str → Str → Bool} {p c : Str} (hN : N c = none) (hF : C F c = false) (hp : p ≠ F)
    (h : Made ⟨F, false, false, fun _ => none, N, [], fun _ => none, C⟩) :
    Made ⟨F, false, false, fun _ => none, N, [], fun _ => none, fun p' c' => (p' = p && c' = c) || C p' c'⟩ := by
  have h1 := h.step (.addNode p c []) fun _ _ => List.nodup_nil
  simp only [AGraph.step, show firstBad [] = none from rfl] at h1
  have h2 := h1.step (.removeNode F c) fun _ _ => trivial
  simp only [AGraph.step, upd, if_true, AGraph.removeNode, List.filter_nil] at h2
  refine cast (congrArg Made ?_) h2
  simp only [AGraph.mk.injEq, true_and]
  refine ⟨?_, ?_⟩
  · funext x
    by_cases hx : x = c
    · subst hx; simp [upd, hN]
    · simp [upd, hx]
  · funext p' c'
    split
    · rename_i hh
      obtain ⟨rfl, rfl⟩ := hh
      simp [Ne.symm hp, hF]
    · rfl

/-- One more subgraph. -/
theorem Made.subgraph {F : Str} {N S : Str → Option AAttrs} {C : Str → Str → Bool} {s : Str} {f : AAttrs} (hf : FinAttrs f) (hS : S s = none ∨ S s = some f) (hN : N s = none) (hF : C F s = false) (hs : s ≠ F)
    (h : Made ⟨F, false, false, fun _ => none, N, [], S, C⟩) :
    Made ⟨F, false, false, fun _ => none, N, [], upd S s (some f), C⟩ := by
  obtain ⟨as, hw, hr, ha⟩ := finAttrs_map hf
  have h1 := h.step (.addSubGraph F s as) fun _ _ => hw.nodup
  simp only [AGraph.step] at h1
  rw [(asetAttrs_ok _ s hw hr).2] at h1
  rw [if_neg (Ne.symm hs)] at h1
  simp only [upd, if_true] at h1
  have h2 := h1.step (.addNode F s []) fun _ _ => List.nodup_nil
  simp only [AGraph.step, show firstBad [] = none from rfl] at h2
  have h3 := h2.step (.removeNode F s) fun _ _ => trivial
  simp only [AGraph.step, upd, if_true, AGraph.removeNode, List.filter_nil] at h3
  refine cast (congrArg Made ?_) h3
  simp only [AGraph.mk.injEq, true_and]
  refine ⟨?_, ?_, ?_⟩
  · funext x
    by_cases hx : x = s
    · subst hx; simp [upd, hN]
    · simp [upd, hx]
  · funext x
    unfold upd
    by_cases hx : x = s
    · subst hx
      simp only [if_true, Option.some.injEq]
      funext k
      rw [← entry_wf hw, entry_map hw, ha]
      rcases hS with e | e <;> rw [e]
      · cases f k <;> rfl
      · cases hk : f k <;> simp [hk]
    · simp [hx]
  · funext p' c'
    split
    · rename_i hh
      obtain ⟨rfl, rfl⟩ := hh
      exact hF.symm
    · rename_i hh
      have : (decide (p' = F) && decide (c' = s)) = false := by simpa using hh
      simp [this]

/-- One more node under a parent that is recorded already. -/
theorem Made.childNode {F p n : Str} {N S : Str → Option AAttrs} {C : Str → Str → Bool} {f : AAttrs} (hf : FinAttrs f) (hN : N n = none ∨ N n = some f) (hp : C p n = true)
    (h : Made ⟨F, false, false, fun _ => none, N, [], S, C⟩) :
    Made ⟨F, false, false, fun _ => none, upd N n (some f), [], S, C⟩ := by
  obtain ⟨as, hw, hr, ha⟩ := finAttrs_map hf
  have h1 := h.step (.addNode p n as) fun _ _ => hw.nodup
  simp only [AGraph.step, firstBad_reg hr] at h1
  refine cast (congrArg Made ?_) h1
  simp only [AGraph.mk.injEq, true_and]
  refine ⟨?_, ?_⟩
  · funext x
    unfold upd
    split
    · congr 1
      funext k
      unfold merge
      rw [entry_map hw, ha]
      rcases hN with e | e <;> rw [e]
      · cases f k <;> rfl
      · cases hk : f k <;> simp [hk]
    · rfl
  · funext p' c'
    by_cases hh : p' = p ∧ c' = n
    · obtain ⟨rfl, rfl⟩ := hh; simp [hp]
    · have : (decide (p' = p) && decide (c' = n)) = false := by simpa using hh
      simp [this]

/-- The attributes of the graph. -/
theorem Made.rootAttrs {F : Str} {N S : Str → Option AAttrs} {C : Str → Str → Bool} : ∀ (as : List (Str × Str)) (A : AAttrs), AllReg as →
    Made ⟨F, false, false, A, N, [], S, C⟩ → Made ⟨F, false, false, fun k => (lastAssign as k).or (A k), N, [], S, C⟩
  | [], A, _, h => by simpa [lastAssign] using h
  | (k, v) :: as, A, hr, h => by
    have h1 := h.step (.addAttr F k v) fun _ _ => trivial
    simp only [AGraph.step, true_or, if_true, if_pos (hr _ (List.mem_cons_self ..)), AGraph.setAttr] at h1
    have := Made.rootAttrs as _ (fun e he => hr e (List.mem_cons_of_mem _ he)) h1
    refine cast (congrArg Made ?_) this
    simp only [AGraph.mk.injEq, true_and, and_true]
    funext x
    simp only [lastAssign, upd]
    by_cases hx : x = k
    · subst hx; cases lastAssign as x <;> simp
    · have := Ne.symm hx
      cases lastAssign as x <;> simp [hx, this]

/-- The edges. -/
theorem Made.edges {b : AGraph} : ∀ (es : List AEdge) , (∀ e ∈ es, FinAttrs e.attrs) → ∀ pre, Made { b with edges := pre } → Made { b with edges := pre ++ es }
  | [], _, pre, h => by simpa using h
  | e :: es, he, pre, h => by
    obtain ⟨as, hw, hr, ha⟩ := finAttrs_map (he e (List.mem_cons_self ..))
    have h1 := h.step (.addPortEdge e.src e.srcPort e.dst e.dstPort e.dir as) fun _ _ => hw.nodup
    simp only [AGraph.step, firstBad_reg hr] at h1
    have he' : (⟨e.src, e.srcPort, e.dst, e.dstPort, e.dir, entry as⟩ : AEdge) = e := by
      obtain ⟨s, sp, d, dp, dir, m⟩ := e
      simp only [AEdge.mk.injEq, true_and]
      funext k
      rw [entry_map hw, ha]
    rw [he'] at h1
    have := Made.edges (b := b) es (fun e he' => he e (List.mem_cons_of_mem _ he')) _ h1
    rwa [List.append_assoc, List.singleton_append] at this

/-- The function restricted to a list. -/
def onList {α : Type} (f : Str → Option α) (l : List Str) : Str → Option α := fun x => if x ∈ l then f x else none

theorem onList_cons {α : Type} (f : Str → Option α) (n : Str) (l : List Str) {v : α} (h : f n = some v) : onList f (n :: l) = upd (onList f l) n (some v) := by
  funext x
  unfold onList upd
  by_cases hx : x = n
  · subst hx; simp [h]
  · simp [hx]

theorem onList_skip {α : Type} (f : Str → Option α) (n : Str) (l : List Str) (h : f n = none) : onList f (n :: l) = onList f l := by
  funext x
  unfold onList
  by_cases hx : x = n
  · subst hx; simp [h]
  · simp [hx]

theorem onList_val {α : Type} (f : Str → Option α) (l : List Str) {n : Str} {v : α} (h : f n = some v) : onList f l n = none ∨ onList f l n = some v := by
  unfold onList; split
  · exact .inr h
  · exact .inl rfl

theorem onList_all {α : Type} (f : Str → Option α) (l : List Str) (h : ∀ n, f n ≠ none → n ∈ l) : onList f l = f := by
  funext x
  unfold onList
  split
  · rfl
  · rename_i hx
    cases hf : f x with
    | none => rfl
    | some v => exact absurd (h x (by simp [hf])) hx

theorem makeable_made {a : AGraph} (h : Makeable a) : Made a := by
  obtain ⟨ns, hns⟩ := h.nodes
  obtain ⟨ss, hss⟩ := h.subs
  obtain ⟨ps, hps⟩ := h.contains
  obtain ⟨F, hF⟩ := exists_fresh (ns ++ ss ++ ps.map Prod.fst)
  simp only [List.mem_append, List.mem_map, not_or] at hF
  obtain ⟨⟨hF1, hF2⟩, hF3⟩ := hF
  have hFC : ∀ c, a.contains F c = false := fun c => by
    cases hc : a.contains F c with
    | false => rfl
    | true => exact absurd ⟨(F, c), hps F c hc, rfl⟩ hF3
  -- nodes without a parent
  have par : ∀ n, (∃ p, a.contains p n = true) ∨ ∀ p, a.contains p n = false := fun n => by
    rcases Classical.em (∃ p, a.contains p n = true) with h | h
    · exact .inl h
    · refine .inr fun p => ?_
      cases hc : a.contains p n with
      | false => rfl
      | true => exact absurd ⟨p, hc⟩ h
  let N0 : Str → Option AAttrs := fun n => if ps.any (fun e => decide (e.2 = n) && a.contains e.1 e.2) then none else a.node n
  have hN0 : ∀ n, (∃ p, a.contains p n = true) → N0 n = none := by
    rintro n ⟨p, hp⟩
    show (if _ then _ else _) = _
    rw [if_pos]
    rw [List.any_eq_true]
    exact ⟨(p, n), hps p n hp, by simp [hp]⟩
  have hN0' : ∀ n, (∀ p, a.contains p n = false) → N0 n = a.node n := by
    intro n hp
    show (if _ then _ else _) = _
    rw [if_neg]
    rw [List.any_eq_true]
    rintro ⟨⟨p, c⟩, _, he⟩
    simp only [Bool.and_eq_true, decide_eq_true_eq] at he
    rw [he.1, hp] at he
    cases he.2
  have hN0s : ∀ n, N0 n ≠ none → a.node n ≠ none := by
    intro n hn
    rcases par n with hp | hp
    · exact absurd (hN0 n hp) hn
    · rwa [← hN0' n hp]
  have hN0v : ∀ n m, N0 n = some m → FinAttrs m := by
    intro n m hm
    rcases par n with hp | hp
    · rw [hN0 n hp] at hm; cases hm
    · rw [hN0' n hp] at hm; exact h.nodeAttrs n m hm
  have s0 : Made ⟨F, false, false, fun _ => none, fun _ => none, [], fun _ => none, fun _ _ => false⟩ := Made.empty.step (.setName F) fun _ _ => trivial
  have s1 : ∀ l : List Str, (∀ n ∈ l, n ≠ F) → Made ⟨F, false, false, fun _ => none, onList N0 l, [], fun _ => none, fun _ _ => false⟩ := by
    intro l
    induction l with
    | nil => intro _; exact s0
    | cons n l ih =>
      intro hl
      have ih := ih fun x hx => hl x (List.mem_cons_of_mem _ hx)
      cases hn : N0 n with
      | none => rw [onList_skip _ _ _ hn]; exact ih
      | some f => rw [onList_cons _ _ _ hn]; exact ih.loneNode (onList_val _ _ hn) (hN0v n f hn) (hl n (List.mem_cons_self ..))
  have s1 := s1 ns fun n hn e => hF1 (e ▸ hn)
  rw [onList_all _ _ fun n hn => hns n (hN0s n hn)] at s1
  -- relations
  have s2 : ∀ l : List (Str × Str), Made ⟨F, false, false, fun _ => none, N0, [], fun _ => none, fun p c => decide ((p, c) ∈ l) && a.contains p c⟩ := by
    intro l
    induction l with
    | nil => refine cast (congrArg Made ?_) s1; simp
    | cons e l ih =>
      obtain ⟨p, c⟩ := e
      cases hc : a.contains p c with
      | false =>
        refine cast (congrArg Made ?_) ih
        simp only [AGraph.mk.injEq, true_and]
        funext p' c'
        by_cases hh : p' = p ∧ c' = c
        · obtain ⟨rfl, rfl⟩ := hh; simp [hc]
        · have : (p', c') ≠ (p, c) := fun e => hh (by cases e; exact ⟨rfl, rfl⟩)
          simp [this]
      | true =>
        have := ih.relation (p := p) (c := c) (hN0 c ⟨p, hc⟩) (by simp [hFC]) (fun e => by subst e; rw [hFC] at hc; cases hc)
        refine cast (congrArg Made ?_) this
        simp only [AGraph.mk.injEq, true_and]
        funext p' c'
        by_cases hh : p' = p ∧ c' = c
        · obtain ⟨rfl, rfl⟩ := hh; simp [hc]
        · have h1 : (p', c') ≠ (p, c) := fun e => hh (by cases e; exact ⟨rfl, rfl⟩)
          have h2 : (decide (p' = p) && decide (c' = c)) = false := by simpa using hh
          simp [h1, h2]
  have s2 := s2 ps
  have hC : (fun p c => decide ((p, c) ∈ ps) && a.contains p c) = a.contains := by
    funext p c
    cases hc : a.contains p c with
    | false => simp
    | true => simp [hps p c hc]
  rw [hC] at s2
  -- subgraphs
  have s3 : ∀ l : List Str, (∀ n ∈ l, n ≠ F) → Made ⟨F, false, false, fun _ => none, N0, [], onList a.sub l, a.contains⟩ := by
    intro l
    induction l with
    | nil => intro _; exact s2
    | cons n l ih =>
      intro hl
      have ih := ih fun x hx => hl x (List.mem_cons_of_mem _ hx)
      cases hn : a.sub n with
      | none => rw [onList_skip _ _ _ hn]; exact ih
      | some f =>
        rw [onList_cons _ _ _ hn]
        refine ih.subgraph (h.subAttrs n f hn) (onList_val _ _ hn) ?_ (hFC n) (hl n (List.mem_cons_self ..))
        rcases par n with hp | hp
        · exact hN0 n hp
        · rw [hN0' n hp]
          cases hx : a.node n with
          | none => rfl
          | some m =>
            obtain ⟨p, hpp⟩ := h.both n (by simp [hx]) (by simp [hn])
            rw [hp p] at hpp; cases hpp
  have s3 := s3 ss fun n hn e => hF2 (e ▸ hn)
  rw [onList_all _ _ hss] at s3
  -- nodes with a parent
  have s4 : ∀ l : List Str, Made ⟨F, false, false, fun _ => none, fun x => (onList a.node l x).or (N0 x), [], a.sub, a.contains⟩ := by
    intro l
    induction l with
    | nil => exact s3
    | cons n l ih =>
      cases hn : a.node n with
      | none => rw [onList_skip _ _ _ hn]; exact ih
      | some f =>
        rw [onList_cons _ _ _ hn]
        rcases par n with hp | hp
        · obtain ⟨p, hpp⟩ := hp
          have hv : ((onList a.node l n).or (N0 n)) = none ∨ ((onList a.node l n).or (N0 n)) = some f := by
            rw [hN0 n ⟨p, hpp⟩, Option.or_none]; exact onList_val _ _ hn
          have := ih.childNode (p := p) (n := n) (h.nodeAttrs n f hn) hv hpp
          refine cast (congrArg Made ?_) this
          simp only [AGraph.mk.injEq, true_and, and_true]
          funext x
          unfold upd
          split <;> simp
        · refine cast (congrArg Made ?_) ih
          simp only [AGraph.mk.injEq, true_and, and_true]
          funext x
          unfold upd
          split
          · rename_i hx
            subst hx
            rw [hN0' x hp, hn]
            rcases onList_val a.node l hn with e | e <;> rw [e] <;> rfl
          · rfl
  have s4 := s4 ns
  have hN : (fun x => (onList a.node ns x).or (N0 x)) = a.node := by
    rw [onList_all _ _ hns]
    funext x
    cases hx : a.node x with
    | some f => rfl
    | none =>
      cases h0 : N0 x with
      | none => rfl
      | some f => exact absurd hx (hN0s x (by simp [h0]))
  rw [hN] at s4
  -- attributes, name, flags, edges
  obtain ⟨as, hw, hr, ha⟩ := finAttrs_map h.attrs
  have s5 := Made.rootAttrs as _ hr s4
  have hA : (fun k => (lastAssign as k).or ((fun _ => none : AAttrs) k)) = a.attrs := by
    funext k
    rw [← entry_wf hw, entry_map hw, ha]
    cases a.attrs k <;> rfl
  rw [hA] at s5
  have s6 := ((s5.step (.setName a.name) fun _ _ => trivial).step (.setDir a.directed) fun _ _ => trivial).step (.setStrict a.strict) fun _ _ => trivial
  simp only [AGraph.step] at s6
  exact Made.edges (b := a) a.edges h.edges [] s6

end Gographviz
