import Verif.Props.GraphProps
import Verif.Props.EscapeProps
/-!
C07, the exact behaviour where the last sentence of the claim fails: what a failed `RemoveSubGraph` leaves behind, and what a subgraph contains that is
created again after its removal. C31, the exact condition of a collision.
-/
namespace Gographviz.Props
open Gographviz Spec

theorem removeNodes_append (g : Graph) (p : Str) (xs ys : List Str) : g.removeNodes p (xs ++ ys) =
    match g.removeNodes p xs with
    | (g', some e) => (g', some e)
    | (g', none) => g'.removeNodes p ys := by
  induction xs generalizing g with
  | nil => rfl
  | cons x xs ih =>
    simp only [List.cons_append, Graph.removeNodes]
    cases g.removeNode p x with
    | mk g' e => cases e with
      | none => exact ih g'
      | some e => rfl

/-- The nodes before the first name that is not a node. -/
theorem split_bad (g : Graph) (order : List Str) : (∀ c ∈ order, g.isNode c = true) ∨
    ∃ done bad rest, order = done ++ bad :: rest ∧ (∀ c ∈ done, g.isNode c = true) ∧ g.isNode bad = false := by
  induction order with
  | nil => exact .inl (by simp)
  | cons c cs ih =>
    cases hc : g.isNode c with
    | false => exact .inr ⟨[], c, cs, rfl, by simp, hc⟩
    | true => rcases ih with h | ⟨done, bad, rest, rfl, h1, h2⟩
              · refine .inl fun x hx => ?_
                rcases List.mem_cons.1 hx with rfl | hx
                · exact hc
                · exact h x hx
              · refine .inr ⟨c :: done, bad, rest, rfl, fun x hx => ?_, h2⟩
                rcases List.mem_cons.1 hx with rfl | hx
                · exact hc
                · exact h1 x hx

/-- C07, failure: if `RemoveSubGraph` fails, then because a recorded child is not a node (a nested subgraph, say), and the graph is as it was except that the children
visited before that one (all of them nodes, which ones depends on the iteration order) are removed with the edges at them, and with their relations to `p`. In particular the subgraph itself
is still there. -/
theorem C07_failed {g : Graph} (h : Reachable g) (p n : Str) (order : List Str)
    (ho : order.Perm (mkeys (g.relations.children n))) (hf : (g.removeSubGraph p n order).2 ≠ none) :
    ∃ done bad rest, order = done ++ bad :: rest ∧ (∀ c ∈ done, g.isNode c = true) ∧ g.isNode bad = false ∧
      mhas (g.relations.children n) bad = true ∧ (∀ c ∈ done, mhas (g.relations.children n) c = true) ∧
      (g.removeSubGraph p n order).2 = some (.nodeNotFound bad) ∧
      ∃ g', g' = (g.removeSubGraph p n order).1 ∧
      (∀ c, g'.isNode c = (g.isNode c && !decide (c ∈ done))) ∧
      (∀ c, c ∉ done → ∀ k, nodeValue g' c k = nodeValue g c k) ∧
      g'.edges.edges = g.edges.edges.filter (fun e => !(decide (e.src ∈ done) || decide (e.dst ∈ done))) ∧
      g'.attrs = g.attrs ∧ g'.name = g.name ∧ g'.directed = g.directed ∧ g'.strict = g.strict ∧ g'.subGraphs = g.subGraphs ∧
      (∀ a b, mhas (g'.relations.children a) b =
        (mhas (g.relations.children a) b && !(decide (a = p) && decide (b ∈ done)))) := by
  have hi := h.inv
  have hnd : (mkeys (g.relations.children n)).Nodup := (hi.rels.iwf1 n).nodup
  have hmem : ∀ c, c ∈ order → mhas (g.relations.children n) c = true := fun c hc => by
    rw [mhas_iff]; exact ho.mem_iff.1 hc
  rcases split_bad g order with hall | ⟨done, bad, rest, rfl, h1, h2⟩
  · exact absurd ((C07_removeSubGraph_partial h p n order ho).1.2 fun c hc => hall c (ho.mem_iff.2 ((mhas_iff _ _).1 hc))) hf
  · have hnd' := ho.nodup_iff.2 hnd
    obtain ⟨g', e, hi', a1, a2, a3, a4, a5, a6, a7, a8, a9⟩ :=
      removeNodes_closed hi p done (List.nodup_append.1 hnd').1 h1
    have hb : mget g'.nodes.lookup bad = none := by
      have := a2 bad
      have hx : mhas g.nodes.lookup bad = false := h2
      rw [hx] at this
      simpa [mhas] using this
    have hr : g.removeNodes p (done ++ bad :: rest) = (g', some (.nodeNotFound bad)) := by
      rw [removeNodes_append, e]
      simp only [Graph.removeNodes, removeNode_absent hi' p hb]
    have hs : g.removeSubGraph p n (done ++ bad :: rest) = (g', some (.nodeNotFound bad)) := by
      simp only [Graph.removeSubGraph, hr]
    refine ⟨done, bad, rest, rfl, h1, h2, hmem _ (by simp), fun c hc => hmem c (by simp [hc]), by rw [hs], g', by rw [hs], a2, ?_, a3, a4, a5, a6, a7, a8, a9⟩
    intro c hc k
    simp [nodeValue, a1, hc]

/-- C07, re-creation: when a subgraph `n` is removed and created again, it has exactly the attributes given then, but still exactly the children it had before, none of which
is a node. (This is why the last sentence of C07 fails.) -/
theorem C07_recreated {g : Graph} (h : Reachable g) (p n q : Str) (hp : p ≠ n) (hq : q ≠ n) (hroot : n ≠ g.name) (order : List Str)
    (ho : order.Perm (mkeys (g.relations.children n))) (hs : (g.removeSubGraph p n order).2 = none)
    (as : List (Str × Str)) (hn : (as.map Prod.fst).Nodup) (hr : ∀ e ∈ as, Registered e.1) :
    ∃ g', ((g.removeSubGraph p n order).1.addSubGraph q n as) = (g', none) ∧ g'.isSubGraph n = true ∧
      (∀ c, mhas (g'.relations.children n) c = mhas (g.relations.children n) c) ∧
      (∀ c, mhas (g'.relations.children n) c = true → g'.isNode c = false) ∧
      (∀ x, ((mget g'.subGraphs n).bind fun s => mget s.attrs x) = entry as x) := by
  obtain ⟨g1, e1, s1, s2, s3, s4, s5, s6, s7, s8, s9, s10⟩ := (C07_removeSubGraph_partial h p n order ho).2.2 hs
  have hreach : Reachable g1 := e1 ▸ Reachable.step (.removeSubGraph p n order) h ho
  rw [← e1]
  obtain ⟨b1, -, b3⟩ := C09_addSubGraph hreach q n as hn
  have ok := b1.2 hr
  obtain ⟨g', e', t1, t2, t3, t4, t5, t6, t7, t8, t9⟩ := b3 ok
  have hch : ∀ c, mhas (g'.relations.children n) c = mhas (g.relations.children n) c := by
    intro c
    rw [t2, s10]
    simp [Ne.symm hp, Ne.symm hq]
  refine ⟨g', Prod.ext e'.symm ok, by rw [t1]; simp, hch, ?_, ?_⟩
  · intro c hc
    rw [hch] at hc
    have := s3 c hc
    simpa [Graph.isNode, t8] using this
  · intro x
    rw [t3]
    have hnone : mget g1.subGraphs n = none := by simpa [Graph.isSubGraph, mhas] using s1
    simp [hnone, s7, hroot]

/-- The hypotheses hold: the subgraph `S` of the example is removed and created again with a colour. -/
example : Reachable Example.g ∧ (b!"G") ≠ (b!"S") ∧ (b!"S") ≠ Example.g.name ∧ [b!"b"].Perm (mkeys (Example.g.relations.children (b!"S"))) ∧
    (Example.g.removeSubGraph (b!"G") (b!"S") [b!"b"]).2 = none ∧ Registered (b!"color") :=
  ⟨Example.g_reachable, by decide +kernel, by decide +kernel, by decide +kernel, by decide +kernel, by decide +kernel⟩

/-- C07 fails half way: a subgraph with a node `a` and a subgraph `T`. If `a` is visited first, it is gone although the call fails; if `T` is visited first, nothing happens. -/
theorem C07_failed_half : ∃ g : Graph, Reachable g ∧
    [b!"a", b!"T"].Perm (mkeys (g.relations.children (b!"S"))) ∧ [b!"T", b!"a"].Perm (mkeys (g.relations.children (b!"S"))) ∧
    (g.removeSubGraph (b!"G") (b!"S") [b!"a", b!"T"]).2 = some (.nodeNotFound (b!"T")) ∧
    (g.removeSubGraph (b!"G") (b!"S") [b!"a", b!"T"]).1.isNode (b!"a") = false ∧
    (g.removeSubGraph (b!"G") (b!"S") [b!"T", b!"a"]).2 = some (.nodeNotFound (b!"T")) ∧
    (g.removeSubGraph (b!"G") (b!"S") [b!"T", b!"a"]).1.isNode (b!"a") = true := by
  refine ⟨_, Reachable.step (.addSubGraph (b!"S") (b!"T") []) (Reachable.step (.addNode (b!"S") (b!"a") [])
    (Reachable.step (.addSubGraph (b!"G") (b!"S") []) Reachable.init ?_) ?_) ?_, ?_, ?_, ?_, ?_, ?_, ?_⟩ <;> decide +kernel

/-- C31, exactly: two names that both need quoting get the same escaped form exactly if they are equal, or neither begins (after white space) with `<` and they are equal when NUL bytes are
written as U+FFFD. -/
theorem C31_exactly (U : Unicode) {s t s' t' : Str} (hs : esc U s = some s') (ht : esc U t = some t') (hss : s' ≠ s) (htt : t' ≠ t) :
    s' = t' ↔ s = t ∨ ((∀ cs, trimSpace s ≠ 60 :: cs) ∧ (∀ cs, trimSpace t ≠ 60 :: cs) ∧ withoutNul s = withoutNul t) := by
  constructor
  · rintro rfl
    rcases esc_cases hs with h | ⟨h1, cs, hc⟩ | ⟨h1, hc⟩
    · exact absurd h hss
    · rcases esc_cases ht with h | ⟨h2, _⟩ | ⟨h2, _⟩
      · exact absurd h htt
      · rw [h1] at h2; exact .inl (escapeQuotes_inj (quoted_inj h2))
      · rw [h1] at h2
        have := lt_mem_escapeQuotes (trimSpace_head hc)
        rw [quoted_inj h2] at this
        exact absurd this (lt_not_mem_htmlEscape t)
    · rcases esc_cases ht with h | ⟨h2, cs, hc'⟩ | ⟨h2, hc'⟩
      · exact absurd h htt
      · rw [h1] at h2
        have := lt_mem_escapeQuotes (trimSpace_head hc')
        rw [← quoted_inj h2] at this
        exact absurd this (lt_not_mem_htmlEscape s)
      · exact .inr ⟨hc, hc', C31_collision U hs ht hss htt⟩
  · rintro (rfl | ⟨h1, h2, h3⟩)
    · rw [hs] at ht; exact Option.some.inj ht
    · rcases esc_cases hs with h | ⟨_, cs, hc⟩ | ⟨e1, _⟩
      · exact absurd h hss
      · exact absurd hc (h1 cs)
      · rcases esc_cases ht with h | ⟨_, cs, hc⟩ | ⟨e2, _⟩
        · exact absurd h htt
        · exact absurd hc (h2 cs)
        · rw [e1, e2, ← htmlEscape_withoutNul s, ← htmlEscape_withoutNul t, h3]

example (U : Unicode) : ∃ s', esc U [35, 0] = some s' ∧ s' ≠ [35, 0] := ⟨_, (C31_nul_collides U).2, by decide⟩

end Gographviz.Props
