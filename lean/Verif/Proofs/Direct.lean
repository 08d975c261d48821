import Verif.Spec.Direct
import Verif.Proofs.Containers
/-! Invariants of the containers used directly. -/
namespace Gographviz

open Spec Spec.Direct

/-- Everything a caller relies on. -/
structure DInv (d : Direct) : Prop where
  nodes : ∀ ns ∈ d.nodesCs, NodesAgree d ns ∧ MapWF ns.lookup
  edges : ∀ es ∈ d.edgesCs, EdgesAgree d es
  rels : ∀ r ∈ d.relations, RelInv r
  subs : ∀ m ∈ d.subGraphs, MapWF m ∧ ∀ n p, mget m n = some p → (d.subs[p]?).map DSub.name = some n
  maps : ∀ m ∈ d.maps, AttrsOk m

theorem DInv.empty : DInv Direct.empty := by
  constructor <;> intro x hx <;> simp [Direct.empty] at hx

theorem getElem?_append_map {α β : Type} {l r : List α} {f : α → β} {p : Nat} {b : β} (h : (l[p]?).map f = some b) :
    ((l ++ r)[p]?).map f = some b := by
  cases hl : l[p]? with
  | none => simp [hl] at h
  | some a => rw [List.getElem?_append_left (List.getElem?_eq_some_iff.mp hl).1]; exact h

theorem Spec.Direct.NodesAgree.mono {d d' : Direct} {ns : DNodes} {more : List DNode} (h : NodesAgree d ns) (e : d'.nodes = d.nodes ++ more) :
    NodesAgree d' ns := by
  have hn : ∀ p ∈ ns.list, nodeName d' p = nodeName d p := by
    intro p hp
    have := h.exist p hp
    simp [nodeName, e, List.getElem?_append_left this]
  refine ⟨h.once, fun n p => ?_, fun p hp => ?_⟩
  · rw [h.lookup]
    refine and_congr_right fun hp => ?_
    rw [hn p hp]
  · have := h.exist p hp
    simp [e]; omega

theorem between_mono {d d' : Direct} {l : List Nat} {more : List DEdge} (h : ∀ p ∈ l, p < d.edges.length) (e : d'.edges = d.edges ++ more)
    (s t : Str) : between d' l s t = between d l s t := by
  refine List.filter_congr fun p hp => ?_
  rw [e, List.getElem?_append_left (h p hp)]

theorem Spec.Direct.EdgesAgree.mono {d d' : Direct} {es : DEdges} {more : List DEdge} (h : EdgesAgree d es) (e : d'.edges = d.edges ++ more) :
    EdgesAgree d' es := by
  refine ⟨fun s t => ?_, fun s t => ?_, fun p hp => ?_⟩
  · rw [between_mono h.exist e]; exact h.src s t
  · rw [between_mono h.exist e]; exact h.dst s t
  · have := h.exist p hp
    simp [e]; omega

theorem AttrsOk.attrsAmmend {as : Attrs} (h : AttrsOk as) {kvs : List (Str × Str)} (hk : AllReg kvs) : AttrsOk (attrsAmmend as kvs) := by
  unfold Gographviz.attrsAmmend
  induction kvs generalizing as with
  | nil => exact h
  | cons e kvs ih =>
    simp only [List.foldl_cons]
    refine ih ?_ fun e he => hk e (List.mem_cons_of_mem _ he)
    split
    · exact h
    · exact h.mset _ (hk e (List.mem_cons_self ..))

theorem mem_modify {α : Type} {l : List α} {i : Nat} {f : α → α} {x : α} (h : x ∈ l.modify i f) : x ∈ l ∨ ∃ y ∈ l, x = f y := by
  obtain ⟨j, hj⟩ := List.mem_iff_getElem?.mp h
  rw [List.getElem?_modify] at hj
  cases hl : l[j]? with
  | none => simp [hl] at hj
  | some y =>
    rw [hl] at hj
    by_cases e : i = j
    · simp [e] at hj; exact .inr ⟨y, List.mem_of_getElem? hl, hj.symm⟩
    · simp [e] at hj; exact .inl (hj ▸ List.mem_of_getElem? hl)

theorem DInv.attrs {d : Direct} (h : DInv d) (a : Option Nat) : AttrsOk (d.attrs a) := by
  cases a with
  | none => exact AttrsOk.nil
  | some a =>
    simp only [Direct.attrs]
    cases hm : d.maps[a]? with
    | none => exact AttrsOk.nil
    | some m => exact h.maps m (List.mem_of_getElem? hm)

/-- Changing maps only. -/
theorem DInv.setMaps {d : Direct} (h : DInv d) {ms : List Attrs} (hm : ∀ m ∈ ms, AttrsOk m) : DInv { d with maps := ms } :=
  ⟨fun ns hn => ⟨(h.nodes ns hn).1.mono (more := []) (by simp), (h.nodes ns hn).2⟩, fun es he => (h.edges es he).mono (more := []) (by simp), h.rels, h.subs, hm⟩

theorem DInv.modify {d : Direct} (h : DInv d) (i : Nat) {f : Attrs → Attrs} (hf : ∀ m, AttrsOk m → AttrsOk (f m)) :
    DInv { d with maps := d.maps.modify i f } := by
  refine h.setMaps fun m hm => ?_
  rcases mem_modify hm with hm | ⟨y, hy, rfl⟩
  · exact h.maps m hm
  · exact hf y (h.maps y hy)

theorem removeLoop_none {d : Direct} {name : Str} {l : List Nat} :
    d.removeLoop name l = none ↔ ∀ p ∈ l, nodeName d p ≠ some name := by
  induction l with
  | nil => simp [Direct.removeLoop]
  | cons p ps ih =>
    simp only [Direct.removeLoop, List.mem_cons, nodeName]
    split
    · rename_i h
      exact ⟨nofun, fun h' => absurd h (h' p (.inl rfl))⟩
    · rename_i h
      simp only [Option.map_eq_none_iff, ih]
      refine ⟨fun h' q hq => ?_, fun h' q hq => h' q (.inr hq)⟩
      rcases hq with rfl | hq
      · exact h
      · exact h' q hq

theorem removeLoop_some {d : Direct} {name : Str} {l l' : List Nat} (hu : ∀ p ∈ l, ∀ q ∈ l, nodeName d p = some name → nodeName d q = some name → p = q)
    (hn : l.Nodup) (h : d.removeLoop name l = some l') : l' = l.filter fun q => nodeName d q != some name := by
  induction l generalizing l' with
  | nil => simp [Direct.removeLoop] at h
  | cons p ps ih =>
    simp only [Direct.removeLoop] at h
    rw [List.nodup_cons] at hn
    split at h
    · rename_i hp
      cases h
      have hp' : nodeName d p = some name := hp
      rw [List.filter_cons_of_neg (by simp [hp'])]
      symm
      rw [List.filter_eq_self]
      intro q hq
      simp only [bne_iff_ne]
      intro hc
      have := hu p (by simp) q (by simp [hq]) hp' hc
      exact hn.1 (this ▸ hq)
    · rename_i hp
      cases hr : d.removeLoop name ps with
      | none => simp [hr] at h
      | some l'' =>
        simp only [hr, Option.map_some, Option.some.injEq] at h
        have hp' : nodeName d p ≠ some name := hp
        rw [← h, List.filter_cons_of_pos (by simpa using hp'), ih (fun a ha b hb => hu a (by simp [ha]) b (by simp [hb])) hn.2 hr]

theorem Spec.Direct.NodesAgree.unique {d : Direct} {ns : DNodes} (h : NodesAgree d ns) {p q : Nat} (hp : p ∈ ns.list) (hq : q ∈ ns.list) {n : Str}
    (h1 : nodeName d p = some n) (h2 : nodeName d q = some n) : p = q := by
  have e1 := (h.lookup n p).mpr ⟨hp, h1⟩
  have e2 := (h.lookup n q).mpr ⟨hq, h2⟩
  rw [e1] at e2
  exact Option.some.inj e2

/-- What `Nodes.Add` does. -/
theorem nodesAdd_cases {d : Direct} (h : DInv d) {c p : Nat} {ns : DNodes} {node : DNode} (hc : d.nodesCs[c]? = some ns)
    (hp : d.nodes[p]? = some node) :
    (∃ q m, q ∈ ns.list ∧ d.nodes[q]? = some m ∧ m.name = node.name ∧ mget ns.lookup node.name = some q ∧
      d.nodesAdd c p = d.attrsExtend m.attrs node.attrs) ∨
    ((∀ q ∈ ns.list, nodeName d q ≠ some node.name) ∧ mget ns.lookup node.name = none ∧
      d.nodesAdd c p = ({ d with nodesCs := d.nodesCs.set c ⟨mset ns.lookup node.name p, ns.list ++ [p]⟩ }, .ok)) := by
  have ha := (h.nodes ns (List.mem_of_getElem? hc)).1
  unfold Direct.nodesAdd
  rw [hc, hp]
  simp only
  cases hl : mget ns.lookup node.name with
  | some q =>
    obtain ⟨h1, h2⟩ := (ha.lookup _ _).mp hl
    cases hq : d.nodes[q]? with
    | none => simp [nodeName, hq] at h2
    | some m =>
      simp only [nodeName, hq, Option.map_some, Option.some.injEq] at h2
      exact .inl ⟨q, m, h1, hq, h2, rfl, by simp only [hq]⟩
  | none =>
    refine .inr ⟨fun q hq hn => ?_, rfl, rfl⟩
    have := (ha.lookup _ q).mpr ⟨hq, hn⟩
    rw [hl] at this
    cases this

theorem nodesRemove_cases {d : Direct} (h : DInv d) {c : Nat} {ns : DNodes} (hc : d.nodesCs[c]? = some ns) (n : Str) :
    ((∃ p ∈ ns.list, nodeName d p = some n) ∧ d.nodesRemove c n =
      ({ d with nodesCs := d.nodesCs.set c ⟨mdel ns.lookup n, ns.list.filter fun q => nodeName d q != some n⟩ }, .ok)) ∨
    ((∀ p ∈ ns.list, nodeName d p ≠ some n) ∧ d.nodesRemove c n = (d, .err (.nodeNotFound n))) := by
  have ha := (h.nodes ns (List.mem_of_getElem? hc)).1
  unfold Direct.nodesRemove
  rw [hc]
  simp only
  cases hr : d.removeLoop n ns.list with
  | none => exact .inr ⟨removeLoop_none.mp hr, rfl⟩
  | some l =>
    refine .inl ⟨Classical.byContradiction fun hx => ?_, ?_⟩
    · have : d.removeLoop n ns.list = none := removeLoop_none.mpr fun p hp hn => hx ⟨p, hp, hn⟩
      rw [hr] at this
      cases this
    · simp only
      rw [removeLoop_some (fun p hp q hq h1 h2 => ha.unique hp hq h1 h2) ha.once hr]

/-- The extension step only changes a map. -/
theorem attrsExtend_inv {d : Direct} (h : DInv d) (a b : Option Nat) : DInv (d.attrsExtend a b).1 := by
  unfold Direct.attrsExtend
  cases a with
  | none => simp only; split <;> exact h
  | some i => exact h.modify i fun m hm => hm.msetAll (h.attrs b).reg

theorem between_append (d : Direct) (l : List Nat) (p : Nat) (s t : Str) : between d (l ++ [p]) s t =
    if (d.edges[p]?).map DEdge.src = some s ∧ (d.edges[p]?).map DEdge.dst = some t then between d l s t ++ [p] else between d l s t := by
  unfold between
  rw [List.filter_append]
  split
  · rename_i h; simp [h.1, h.2]
  · rename_i h
    rw [List.filter_cons_of_neg (by simpa using h)]
    simp

theorem DInv.step {d : Direct} (h : DInv d) (o : DOp) : DInv (d.step o).1 := by
  cases o with
  | newAttrs kvs =>
    simp only [Direct.step, Direct.newAttrs]
    split
    · rename_i m hm
      refine h.setMaps fun x hx => ?_
      rcases List.mem_append.mp hx with hx | hx
      · exact h.maps x hx
      · simp only [List.mem_singleton] at hx
        exact hx ▸ newAttrs_attrsOk hm
    · exact h
  | attrsAdd a f v =>
    simp only [Direct.step, Direct.attrsAdd]
    by_cases hr : Registered f
    · rw [newAttr_ok hr]
      cases a with
      | none => exact h
      | some i => exact h.modify i fun m hm => hm.mset v hr
    · rw [newAttr_bad hr]; exact h
  | attrsExtend a b => exact attrsExtend_inv h a b
  | attrsAmmend a b =>
    simp only [Direct.step, Direct.attrsAmmend]
    cases a with
    | none => simp only; split <;> exact h
    | some i => exact h.modify i fun m hm => hm.attrsAmmend (h.attrs b).reg
  | attrsCopy a =>
    refine h.setMaps fun x hx => ?_
    rcases List.mem_append.mp hx with hx | hx
    · exact h.maps x hx
    · simp only [List.mem_singleton] at hx
      subst hx
      exact AttrsOk.nil.msetAll (h.attrs a).reg
  | newNode n a =>
    exact ⟨fun ns hn => ⟨(h.nodes ns hn).1.mono rfl, (h.nodes ns hn).2⟩, fun es he => (h.edges es he).mono (more := []) (by simp [Direct.step]), h.rels, h.subs, h.maps⟩
  | newNodes =>
    refine ⟨fun ns hn => ?_, fun es he => (h.edges es he).mono (more := []) (by simp [Direct.step]), h.rels, h.subs, h.maps⟩
    rcases List.mem_append.mp hn with hn | hn
    · exact ⟨(h.nodes ns hn).1.mono (more := []) (by simp [Direct.step]), (h.nodes ns hn).2⟩
    · simp only [List.mem_singleton] at hn
      subst hn
      exact ⟨⟨List.nodup_nil, fun n p => by simp [mget], fun p hp => nomatch hp⟩, MapWF.nil⟩
  | nodesAdd c p =>
    simp only [Direct.step]
    cases hc : d.nodesCs[c]? with
    | none => simp only [Direct.nodesAdd, hc]; exact h
    | some ns =>
      cases hp : d.nodes[p]? with
      | none => simp only [Direct.nodesAdd, hc, hp]; exact h
      | some node =>
        rcases nodesAdd_cases h hc hp with ⟨q, m, _, _, _, _, he⟩ | ⟨hno, hnone, he⟩
        · rw [he]; exact attrsExtend_inv h _ _
        · rw [he]
          obtain ⟨ha, hw⟩ := h.nodes ns (List.mem_of_getElem? hc)
          have hpn : nodeName d p = some node.name := by simp [nodeName, hp]
          refine ⟨fun ns' hn => ?_, fun es he => (h.edges es he).mono (more := []) (by simp), h.rels, h.subs, h.maps⟩
          rcases List.mem_or_eq_of_mem_set hn with hn | rfl
          · exact ⟨(h.nodes ns' hn).1.mono (more := []) (by simp), (h.nodes ns' hn).2⟩
          · refine ⟨⟨?_, fun n q => ?_, fun q hq => ?_⟩, hw.mset _ _⟩
            · rw [List.nodup_append]
              refine ⟨ha.once, by simp, fun a ha' b hb => ?_⟩
              simp only [List.mem_singleton] at hb
              subst hb
              rintro rfl
              exact hno a ha' hpn
            · show mget (mset ns.lookup node.name p) n = some q ↔ q ∈ ns.list ++ [p] ∧ nodeName d q = some n
              rw [mget_mset, List.mem_append, List.mem_singleton]
              by_cases e : node.name = n
              · subst e
                simp only [if_true, Option.some.injEq]
                refine ⟨?_, ?_⟩
                · rintro rfl; exact ⟨.inr rfl, hpn⟩
                · rintro ⟨hq | hq, hqn⟩
                  · exact absurd hqn (hno q hq)
                  · exact hq.symm
              · simp only [e, if_false]
                rw [ha.lookup]
                refine ⟨fun ⟨h1, h2⟩ => ⟨.inl h1, h2⟩, ?_⟩
                rintro ⟨hq | rfl, hqn⟩
                · exact ⟨hq, hqn⟩
                · rw [hpn] at hqn; exact absurd (Option.some.inj hqn) e
            · rcases List.mem_append.mp hq with hq | hq
              · exact ha.exist q hq
              · simp only [List.mem_singleton] at hq
                subst hq
                exact (List.getElem?_eq_some_iff.mp hp).1
  | nodesRemove c n =>
    simp only [Direct.step]
    cases hc : d.nodesCs[c]? with
    | none => simp only [Direct.nodesRemove, hc]; exact h
    | some ns =>
      rcases nodesRemove_cases h hc n with ⟨_, he⟩ | ⟨_, he⟩
      · rw [he]
        obtain ⟨ha, hw⟩ := h.nodes ns (List.mem_of_getElem? hc)
        refine ⟨fun ns' hn => ?_, fun es he => (h.edges es he).mono (more := []) (by simp), h.rels, h.subs, h.maps⟩
        rcases List.mem_or_eq_of_mem_set hn with hn | rfl
        · exact ⟨(h.nodes ns' hn).1.mono (more := []) (by simp), (h.nodes ns' hn).2⟩
        · refine ⟨⟨ha.once.filter _, fun x q => ?_, fun q hq => ha.exist q ((List.mem_filter.mp hq).1)⟩, hw.mdel _⟩
          show mget (mdel ns.lookup n) x = some q ↔ q ∈ ns.list.filter (fun q => nodeName d q != some n) ∧ nodeName d q = some x
          rw [mget_mdel, List.mem_filter]
          simp only [bne_iff_ne]
          by_cases e : n = x
          · subst e
            simp only [if_true]
            exact ⟨nofun, fun ⟨⟨_, h1⟩, h2⟩ => absurd h2 h1⟩
          · simp only [e, if_false]
            rw [ha.lookup]
            refine ⟨fun ⟨h1, h2⟩ => ⟨⟨h1, ?_⟩, h2⟩, fun ⟨⟨h1, _⟩, h2⟩ => ⟨h1, h2⟩⟩
            rw [h2]
            exact fun hh => e (Option.some.inj hh).symm
      · rw [he]; exact h
  | newEdge e =>
    exact ⟨fun ns hn => ⟨(h.nodes ns hn).1.mono (more := []) (by simp [Direct.step]), (h.nodes ns hn).2⟩, fun es he => (h.edges es he).mono rfl, h.rels, h.subs, h.maps⟩
  | newEdges =>
    refine ⟨fun ns hn => ⟨(h.nodes ns hn).1.mono (more := []) (by simp [Direct.step]), (h.nodes ns hn).2⟩, fun es he => ?_, h.rels, h.subs, h.maps⟩
    rcases List.mem_append.mp he with he | he
    · exact (h.edges es he).mono (more := []) (by simp [Direct.step])
    · simp only [List.mem_singleton] at he
      subst he
      exact ⟨fun s t => rfl, fun s t => rfl, fun p hp => nomatch hp⟩
  | edgesAdd c p =>
    simp only [Direct.step]
    cases hc : d.edgesCs[c]? with
    | none => simp only [Direct.edgesAdd, hc]; exact h
    | some es =>
      cases hp : d.edges[p]? with
      | none => simp only [Direct.edgesAdd, hc, hp]; exact h
      | some e =>
        simp only [Direct.edgesAdd, hc, hp]
        have ha := h.edges es (List.mem_of_getElem? hc)
        refine ⟨fun ns hn => ⟨(h.nodes ns hn).1.mono (more := []) (by simp), (h.nodes ns hn).2⟩, fun es' he => ?_, h.rels, h.subs, h.maps⟩
        rcases List.mem_or_eq_of_mem_set he with he | rfl
        · exact (h.edges es' he).mono (more := []) (by simp)
        · refine ⟨fun s t => ?_, fun s t => ?_, fun q hq => ?_⟩
          · show ((mget2 (edgeIndexAdd es.srcToDsts e.src e.dst p) s t)).getD [] = between d (es.edges ++ [p]) s t
            rw [mget2_edgeIndexAdd, between_append, hp]
            simp only [Option.map_some, Option.some.injEq]
            have := ha.src s t
            split
            · simp only [Option.getD_some]; rw [← this]; rfl
            · exact this
          · show ((mget2 (edgeIndexAdd es.dstToSrcs e.dst e.src p) t s)).getD [] = between d (es.edges ++ [p]) s t
            rw [mget2_edgeIndexAdd, between_append, hp]
            simp only [Option.map_some, Option.some.injEq]
            have := ha.dst s t
            by_cases hh : e.src = s ∧ e.dst = t
            · rw [if_pos hh, if_pos ⟨hh.2, hh.1⟩]
              simp only [Option.getD_some]; rw [← this]; rfl
            · rw [if_neg hh, if_neg fun hx => hh ⟨hx.2, hx.1⟩]
              exact this
          · rcases List.mem_append.mp hq with hq | hq
            · exact ha.exist q hq
            · simp only [List.mem_singleton] at hq
              subst hq
              exact (List.getElem?_eq_some_iff.mp hp).1
  | newRelations =>
    refine ⟨fun ns hn => ⟨(h.nodes ns hn).1.mono (more := []) (by simp [Direct.step]), (h.nodes ns hn).2⟩, fun es he => (h.edges es he).mono (more := []) (by simp [Direct.step]), fun r hr => ?_, h.subs, h.maps⟩
    rcases List.mem_append.mp hr with hr | hr
    · exact h.rels r hr
    · simp only [List.mem_singleton] at hr
      subst hr
      exact RelInv.new
  | relationsAdd c p ch =>
    simp only [Direct.step]
    cases hc : d.relations[c]? with
    | none => exact h
    | some r =>
      refine ⟨fun ns hn => ⟨(h.nodes ns hn).1.mono (more := []) (by simp), (h.nodes ns hn).2⟩, fun es he => (h.edges es he).mono (more := []) (by simp), fun r' hr => ?_, h.subs, h.maps⟩
      rcases List.mem_or_eq_of_mem_set hr with hr | rfl
      · exact h.rels r' hr
      · exact (h.rels r (List.mem_of_getElem? hc)).add p ch
  | relationsRemove c p ch =>
    simp only [Direct.step]
    cases hc : d.relations[c]? with
    | none => exact h
    | some r =>
      refine ⟨fun ns hn => ⟨(h.nodes ns hn).1.mono (more := []) (by simp), (h.nodes ns hn).2⟩, fun es he => (h.edges es he).mono (more := []) (by simp), fun r' hr => ?_, h.subs, h.maps⟩
      rcases List.mem_or_eq_of_mem_set hr with hr | rfl
      · exact h.rels r' hr
      · exact (h.rels r (List.mem_of_getElem? hc)).remove p ch
  | newSubGraphs =>
    refine ⟨fun ns hn => ⟨(h.nodes ns hn).1.mono (more := []) (by simp [Direct.step]), (h.nodes ns hn).2⟩, fun es he => (h.edges es he).mono (more := []) (by simp [Direct.step]), h.rels, fun m hm => ?_, h.maps⟩
    rcases List.mem_append.mp hm with hm | hm
    · exact h.subs m hm
    · simp only [List.mem_singleton] at hm
      subst hm
      exact ⟨MapWF.nil, fun n p hh => nomatch hh⟩
  | subGraphsAdd c n =>
    simp only [Direct.step, Direct.subGraphsAdd]
    cases hc : d.subGraphs[c]? with
    | none => exact h
    | some m =>
      simp only
      split
      · exact h
      · refine ⟨fun ns hn => ⟨(h.nodes ns hn).1.mono (more := []) (by simp), (h.nodes ns hn).2⟩, fun es he => (h.edges es he).mono (more := []) (by simp), h.rels, fun m' hm => ?_, fun x hx => ?_⟩
        · rcases List.mem_or_eq_of_mem_set hm with hm | rfl
          · exact ⟨(h.subs m' hm).1, fun x q hq => getElem?_append_map ((h.subs m' hm).2 x q hq)⟩
          · obtain ⟨hw, hs⟩ := h.subs m (List.mem_of_getElem? hc)
            refine ⟨hw.mset _ _, fun x q hq => ?_⟩
            rw [mget_mset] at hq
            split at hq
            · rename_i e
              cases hq
              simp [e]
            · exact getElem?_append_map (hs x q hq)
        · rcases List.mem_append.mp hx with hx | hx
          · exact h.maps x hx
          · simp only [List.mem_singleton] at hx
            subst hx
            exact AttrsOk.nil
  | subGraphsRemove c n =>
    simp only [Direct.step, Direct.subGraphsRemove]
    cases hc : d.subGraphs[c]? with
    | none => exact h
    | some m =>
      refine ⟨fun ns hn => ⟨(h.nodes ns hn).1.mono (more := []) (by simp), (h.nodes ns hn).2⟩, fun es he => (h.edges es he).mono (more := []) (by simp), h.rels, fun m' hm => ?_, h.maps⟩
      rcases List.mem_or_eq_of_mem_set hm with hm | rfl
      · exact h.subs m' hm
      · obtain ⟨hw, hs⟩ := h.subs m (List.mem_of_getElem? hc)
        refine ⟨hw.mdel _, fun x q hq => ?_⟩
        rw [mget_mdel] at hq
        split at hq
        · cases hq
        · exact hs x q hq

theorem DInv.run {d : Direct} (h : DInv d) (os : List DOp) : DInv (d.run os) := by
  induction os generalizing d with
  | nil => exact h
  | cons o os ih => exact ih (h.step o)

end Gographviz
