import Verif.Spec.Provenance
import Verif.Props.GraphProps
import Verif.Props.RoundTrip
import Verif.Props.EscapeExact
/-!
Property C56: a graph contains nothing but what the calls put there. Property C57: graphs built through `Escape` survive writing and reading.
-/
namespace Gographviz.Props

open Gographviz Spec Lex Print

/-- The invariant behind C56, on the abstract graph. -/
structure Prov (H : Op → Prop) (a : AGraph) : Prop where
  name : a.name = [] ∨ H (.setName a.name)
  attrs : ∀ k v, a.attrs k = some v → ∃ t, (t = [] ∨ H (.setName t)) ∧ Offered H t k v
  node : ∀ n as, a.node n = some as → (∃ p kvs, H (.addNode p n kvs)) ∧ ∀ k v, as k = some v → ∃ p kvs, H (.addNode p n kvs) ∧ (k, v) ∈ kvs
  sub : ∀ n as, a.sub n = some as → (∃ p kvs, H (.addSubGraph p n kvs)) ∧ ∀ k v, as k = some v → Offered H n k v
  edge : ∀ e ∈ a.edges, ∃ kvs, EdgeAsked H e.src e.srcPort e.dst e.dstPort e.dir kvs ∧ e.attrs = entry kvs
  contains : ∀ p c, a.contains p c = true → ∃ kvs, H (.addNode p c kvs) ∨ H (.addSubGraph p c kvs)

theorem entry_mem {kvs : List (Str × Str)} {k v : Str} (h : entry kvs k = some v) : (k, v) ∈ kvs := by
  unfold entry at h
  rw [Option.map_eq_some_iff] at h
  obtain ⟨⟨k', v'⟩, h1, h2⟩ := h
  have := List.find?_some h1
  simp only [beq_iff_eq] at this h2
  subst this; subst h2
  exact List.mem_of_find?_eq_some h1

theorem upd_eq {α : Type} {f : Str → α} {k x : Str} {v : α} : upd f k v x = if x = k then v else f x := rfl

theorem Prov.setAttr {H : Op → Prop} {a : AGraph} (h : Prov H a) {t k v : Str} (ho : Offered H t k v) : Prov H (a.setAttr t k v) := by
  unfold AGraph.setAttr
  split
  · rename_i hn
    refine { h with attrs := ?_ }
    intro k' v' hk
    simp only [upd_eq] at hk
    split at hk
    · rename_i e; cases hk; subst e
      refine ⟨t, ?_, ho⟩
      rw [← hn]; exact h.name
    · exact h.attrs k' v' hk
  · split
    · rename_i as has
      refine { h with sub := ?_ }
      intro n as' hs
      simp only [upd_eq] at hs
      split at hs
      · rename_i e; subst e
        cases hs
        refine ⟨(h.sub _ _ has).1, fun k' v' hk => ?_⟩
        simp only [upd_eq] at hk
        split at hk
        · rename_i e; cases hk; subst e; exact ho
        · exact (h.sub _ _ has).2 k' v' hk
      · exact h.sub n as' hs
    · exact h

theorem Prov.setAttrs {H : Op → Prop} {t : Str} (kvs : List (Str × Str)) (ho : ∀ e ∈ kvs, Offered H t e.1 e.2) {a : AGraph} (h : Prov H a) :
    Prov H (a.setAttrs t kvs).1 := by
  induction kvs generalizing a with
  | nil => exact h
  | cons e kvs ih =>
    obtain ⟨k, v⟩ := e
    simp only [AGraph.setAttrs]
    split
    · exact ih (fun e he => ho e (by simp [he])) (h.setAttr (ho (k, v) (by simp)))
    · exact h

theorem Prov.removeNode {H : Op → Prop} {a : AGraph} (h : Prov H a) (p n : Str) : Prov H (a.removeNode p n) := by
  unfold AGraph.removeNode
  refine { h with node := ?_, edge := ?_, contains := ?_ }
  · intro m as hm
    simp only [upd_eq] at hm
    split at hm
    · cases hm
    · exact h.node m as hm
  · intro e he
    exact h.edge e ((List.mem_filter.1 he).1)
  · intro p' c' hc
    simp only at hc
    split at hc
    · cases hc
    · exact h.contains p' c' hc

theorem Prov.removeNodes {H : Op → Prop} (p : Str) (ns : List Str) {a : AGraph} (h : Prov H a) : Prov H (a.removeNodes p ns).1 := by
  induction ns generalizing a with
  | nil => exact h
  | cons n ns ih =>
    simp only [AGraph.removeNodes]
    split
    · exact h
    · exact ih (h.removeNode p n)

theorem Prov.step {H : Op → Prop} {a : AGraph} (h : Prov H a) {op : Op} (ho : H op) : Prov H (a.step op).1 := by
  cases op with
  | setStrict b => exact { h with }
  | setDir b => exact { h with }
  | setName n => exact { h with name := .inr ho }
  | addPortEdge s sp d dp dir as =>
    simp only [AGraph.step]
    split
    · exact h
    · refine { h with edge := ?_ }
      intro e he
      rcases List.mem_append.1 he with he | he
      · exact h.edge e he
      · rw [List.mem_singleton.1 he]
        exact ⟨as, .inl ho, rfl⟩
  | addEdge s d dir as =>
    simp only [AGraph.step]
    split
    · exact h
    · refine { h with edge := ?_ }
      intro e he
      rcases List.mem_append.1 he with he | he
      · exact h.edge e he
      · rw [List.mem_singleton.1 he]
        exact ⟨as, .inr ⟨rfl, rfl, ho⟩, rfl⟩
  | addNode p n as =>
    simp only [AGraph.step]
    split
    · exact h
    · refine { h with node := ?_, contains := ?_ }
      · intro m at' hm
        simp only [upd_eq] at hm
        split at hm
        · rename_i e; subst e
          cases hm
          refine ⟨⟨p, as, ho⟩, fun k v hk => ?_⟩
          unfold merge at hk
          cases he : entry as k with
          | some v' => rw [he] at hk; cases hk; exact ⟨p, as, ho, entry_mem he⟩
          | none =>
            rw [he] at hk
            cases hn : a.node m with
            | none => rw [hn] at hk; cases hk
            | some old => rw [hn] at hk; exact (h.node m old hn).2 k v hk
        · exact h.node m at' hm
      · intro p' c' hc
        simp only [Bool.or_eq_true, Bool.and_eq_true, decide_eq_true_eq] at hc
        rcases hc with ⟨rfl, rfl⟩ | hc
        · exact ⟨as, .inl ho⟩
        · exact h.contains p' c' hc
  | addAttr t k v =>
    simp only [AGraph.step]
    split
    · split
      · exact h.setAttr (.inl ho)
      · exact h
    · exact h
  | addSubGraph p n as =>
    simp only [AGraph.step]
    refine Prov.setAttrs as (fun e he => .inr ⟨p, as, ho, he⟩) ?_
    refine { h with sub := ?_, contains := ?_ }
    · intro m at' hm
      simp only [upd_eq] at hm
      split at hm
      · rename_i e; subst e
        cases hm
        refine ⟨⟨p, as, ho⟩, fun k v hk => ?_⟩
        cases hn : a.sub m with
        | none => rw [hn] at hk; cases hk
        | some old => rw [hn] at hk; exact (h.sub m old hn).2 k v hk
      · exact h.sub m at' hm
    · intro p' c' hc
      simp only [Bool.or_eq_true, Bool.and_eq_true, decide_eq_true_eq] at hc
      rcases hc with ⟨rfl, rfl⟩ | hc
      · exact ⟨as, .inr ho⟩
      · exact h.contains p' c' hc
  | removeNode p n =>
    simp only [AGraph.step]
    split
    · exact h
    · exact h.removeNode p n
  | removeSubGraph p n order =>
    have h' := h.removeNodes p order
    simp only [AGraph.step]
    split
    · rename_i e; rw [e] at h'; exact h'
    · rename_i a' e
      rw [e] at h'
      refine { h' with sub := ?_, edge := ?_, contains := ?_ }
      · intro m as hm
        simp only [upd_eq] at hm
        split at hm
        · cases hm
        · exact h'.sub m as hm
      · intro e he; exact h'.edge e ((List.mem_filter.1 he).1)
      · intro p' c' hc
        simp only at hc
        split at hc
        · cases hc
        · exact h'.contains p' c' hc

theorem Prov.run {H : Op → Prop} (ops : List Op) (ho : ∀ op ∈ ops, H op) {a : AGraph} (h : Prov H a) : Prov H (arun a ops) := by
  induction ops generalizing a with
  | nil => exact h
  | cons op ops ih => exact ih (fun o h' => ho o (by simp [h'])) (h.step (ho op (by simp)))

/-- C56. Everything in a graph was put there by some call of the history: its name, nodes, subgraphs, containment, edges (with their
ports, direction and exactly the given attributes) and every attribute value of the graph, a node or a subgraph. -/
theorem C56_provenance (ops : List Op) (hok : OkHistory newGraph ops) :
    let g := newGraph.run ops
    let H := (· ∈ ops)
    (g.name = [] ∨ .setName g.name ∈ ops) ∧
    (∀ k v, mget g.attrs k = some v → ∃ t, (t = [] ∨ .setName t ∈ ops) ∧ Offered H t k v) ∧
    (∀ n, g.isNode n = true → ∃ p kvs, .addNode p n kvs ∈ ops) ∧
    (∀ n k v, nodeValue g n k = some v → ∃ p kvs, .addNode p n kvs ∈ ops ∧ (k, v) ∈ kvs) ∧
    (∀ n, g.isSubGraph n = true → ∃ p kvs, .addSubGraph p n kvs ∈ ops) ∧
    (∀ n s k v, mget g.subGraphs n = some s → mget s.attrs k = some v → Offered H n k v) ∧
    (∀ p c, mhas (g.relations.children p) c = true → ∃ kvs, .addNode p c kvs ∈ ops ∨ .addSubGraph p c kvs ∈ ops) ∧
    (∀ e ∈ g.edges.edges, ∃ kvs, EdgeAsked H e.src e.srcPort e.dst e.dstPort e.dir kvs ∧ ∀ k, mget e.attrs k = entry kvs k) := by
  intro g H
  obtain ⟨-, h1, -, -, h2, h3, h4, h5, h6, h7, h8⟩ := C11_refines_abstract ops hok
  have hp : Prov H (arun AGraph.empty ops) := by
    refine Prov.run ops (fun _ h => h) ?_
    refine ⟨.inl rfl, fun k v h => ?_, fun n as h => ?_, fun n as h => ?_, fun e h => ?_, fun p c h => ?_⟩ <;> cases h
  have hn : g.name = (arun AGraph.empty ops).name := h1
  refine ⟨by rw [hn]; exact hp.name, ?_, ?_, ?_, ?_, ?_, ?_, ?_⟩
  · intro k v hk; exact hp.attrs k v (by rw [← h2 k]; exact hk)
  · intro n hn'
    have h3 := h3 n
    rw [hn'] at h3
    obtain ⟨as, has⟩ := Option.isSome_iff_exists.1 h3.symm
    exact (hp.node n as has).1
  · intro n k v hv
    have h4 := h4 n k
    rw [hv] at h4
    obtain ⟨as, has, hk⟩ := Option.bind_eq_some_iff.1 h4.symm
    exact (hp.node n as has).2 k v hk
  · intro n hn'
    have h5 := h5 n
    rw [hn'] at h5
    obtain ⟨as, has⟩ := Option.isSome_iff_exists.1 h5.symm
    exact (hp.sub n as has).1
  · intro n s k v hs hk
    have h6 := h6 n k
    have hs : mget (newGraph.run ops).subGraphs n = some s := hs
    rw [hs, Option.bind_some, hk] at h6
    obtain ⟨as, has, hk⟩ := Option.bind_eq_some_iff.1 h6.symm
    exact (hp.sub n as has).2 k v hk
  · intro p c hc
    exact hp.contains p c (by rw [← h7 p c]; exact hc)
  · intro e he
    obtain ⟨kvs, h9, h10⟩ := hp.edge ⟨e.src, e.srcPort, e.dst, e.dstPort, e.dir, mget e.attrs⟩
      (by rw [← h8]; exact List.mem_map.2 ⟨e, he, rfl⟩)
    exact ⟨kvs, h9, fun k => congrFun h10 k⟩

example : OkHistory newGraph Example.ops ∧ (newGraph.run Example.ops).edges.edges.length = 3 :=
  ⟨Example.g_ok, by decide +kernel⟩


/-! ### C57 -/

theorem decodeRune_tail (b : Nat) (s : Str) : ∀ x ∈ (s.take ((decodeRune (b :: s)).2 - 1)), 128 ≤ x ∧ x ≤ 191 := by
  generalize hd : decodeRune (b :: s) = d
  have base : (runeError, 1) = d → ∀ x ∈ s.take (d.2 - 1), 128 ≤ x ∧ x ≤ 191 := by rintro rfl x hx; simp at hx
  simp only [decodeRune] at hd
  split at hd
  · subst hd; intro x hx; simp at hx
  split at hd
  · split at hd
    · rename_i b1 _
      split at hd
      · rename_i h2; simp only [isCont, Bool.and_eq_true, decide_eq_true_eq] at h2
        subst hd; intro x hx; simp at hx; omega
      · exact base hd
    · exact base hd
  · split at hd
    · split at hd
      · rename_i b1 b2 _
        generalize hlo : (if b = 0xE0 then 0xA0 else 0x80) = lo at hd
        generalize hhi : (if b = 0xED then 0x9F else 0xBF) = hi at hd
        split at hd
        · rename_i h2; simp only [isCont, Bool.and_eq_true, decide_eq_true_eq] at h2
          have hlo' : lo ≥ 128 := by split at hlo <;> omega
          have hhi' : hi ≤ 191 := by split at hhi <;> omega
          subst hd; intro x hx; simp at hx; omega
        · exact base hd
      · exact base hd
    · split at hd
      · split at hd
        · rename_i b1 b2 b3 _
          generalize hlo : (if b = 0xF0 then 0x90 else 0x80) = lo at hd
          generalize hhi : (if b = 0xF4 then 0x8F else 0xBF) = hi at hd
          split at hd
          · rename_i h2; simp only [isCont, Bool.and_eq_true, decide_eq_true_eq] at h2
            have hlo' : lo ≥ 128 := by split at hlo <;> omega
            have hhi' : hi ≤ 191 := by split at hhi <;> omega
            subst hd; intro x hx; simp at hx; omega
          · exact base hd
        · exact base hd
      · exact base hd

/-- A space at the end of a text is one of its runes. -/
theorem space_at_end {e : Str} (he : SpaceEnc e) (x : Str) : ∃ r ∈ runes (x ++ e), isSpaceRune r = true := by
  generalize hn : x.length = n
  induction n using Nat.strongRecOn generalizing x with
  | _ n ih =>
    have h0 := he []
    rw [List.append_nil] at h0
    obtain ⟨_, c, _, _, hc, hr, _⟩ := stripSpacePrefix_runes h0
    cases x with
    | nil => exact ⟨c, by rw [List.nil_append, hr]; exact List.mem_cons_self, hc⟩
    | cons b x =>
      have hne : b :: x ++ e ≠ [] := by simp
      rw [List.cons_append] at hne
      have hw := width_pos hne
      by_cases hle : (decodeRune (b :: (x ++ e))).2 ≤ (b :: x).length
      · obtain ⟨r, hr', hs⟩ := ih ((b :: x).drop (decodeRune (b :: (x ++ e))).2).length
          (by rw [List.length_drop]; simp only [List.length_cons] at hn ⊢; omega) ((b :: x).drop (decodeRune (b :: (x ++ e))).2) rfl
        refine ⟨r, ?_, hs⟩
        rw [List.cons_append, runes_step hne, ← List.cons_append, List.drop_append_of_le_length (by simpa using hle)]
        exact List.mem_cons_of_mem _ hr'
      · exfalso
        cases e with
        | nil => simp [stripSpacePrefix] at h0
        | cons a e =>
          have hv : (decodeRune (a :: e)).1 ≠ runeError := by
            rw [runes_cons] at hr
            have := (List.cons.inj hr).1
            rw [this]
            intro h; rw [h] at hc; exact absurd hc (by decide)
          have hl := lead_not_cont hv
          have := decodeRune_tail b (x ++ a :: e) a (by
            simp only [List.length_cons] at hle
            rw [List.mem_take_iff_getElem]
            refine ⟨x.length, ?_, ?_⟩
            · simp only [List.length_append, List.length_cons]; omega
            · rw [List.getElem_append_right (Nat.le_refl _)]; simp)
          omega

theorem trimSpace_noSpace {s : Str} (h : ∀ r ∈ runes s, isSpaceRune r = false) : trimSpace s = s := by
  have h1 : stripSpacePrefix s = none := by
    cases hp : stripSpacePrefix s with
    | none => rfl
    | some r =>
      obtain ⟨e, c, _, _, hc, hr, _⟩ := stripSpacePrefix_runes hp
      rw [h c (by rw [hr]; exact List.mem_cons_self)] at hc; cases hc
  have h2 : stripSpaceRev s.reverse = none := by
    cases hp : stripSpaceRev s.reverse with
    | none => rfl
    | some r =>
      obtain ⟨e, he, henc⟩ := stripSpaceRev_spec hp
      have : s = r.reverse ++ e.reverse := by rw [← List.reverse_append, ← he, List.reverse_reverse]
      obtain ⟨c, hc, hs⟩ := space_at_end henc r.reverse
      rw [← this] at hc
      rw [h c hc] at hs; cases hs
  unfold trimSpace
  dsimp only
  rw [trimLeftN_none h1, trimRevN_none h2, List.reverse_reverse]

/-- Digits are not white space (true of Unicode; the tables are parameters of the model). -/
def SaneUnicode (U : Unicode) : Prop := ∀ r, isSpaceRune r = true → U.isDigit r = false

theorem isNumberFrom_noSpace {U : Unicode} (hU : SaneUnicode U) (rs : List Nat) : ∀ st, (st = 0 ∨ st = 2) → isNumberFrom U st rs = true →
    45 ∉ rs → ∀ r ∈ rs, isSpaceRune r = false := by
  have hd : ∀ c, (isDigit U c || c == 46) = true → isSpaceRune c = false := by
    intro c hc
    cases hs : isSpaceRune c with
    | false => rfl
    | true =>
      exfalso
      have := hU c hs
      simp only [isDigit, this, Bool.or_eq_true, Bool.and_eq_true, decide_eq_true_eq, beq_iff_eq, Bool.and_false, Bool.false_eq_true, or_false] at hc
      rcases hc with hc | hc
      · have : c < 58 := by omega
        have : ¬ (c = 32) := by omega
        simp [isSpaceRune] at hs; omega
      · subst hc; exact absurd hs (by decide)
  induction rs with
  | nil => intro _ _ _ _ r hr; cases hr
  | cons c rs ih =>
    intro st hst h hm r hr
    have hm' : 45 ∉ rs := fun h => hm (List.mem_cons_of_mem _ h)
    have hc45 : c ≠ 45 := fun h => hm (by simp [h])
    rcases hst with rfl | rfl
    · simp only [isNumberFrom, if_true] at h
      split at h
      · rename_i h1
        rcases List.mem_cons.1 hr with rfl | hr
        · exact hd _ h1
        · exact ih 2 (.inr rfl) h hm' r hr
      · cases h
    · simp only [isNumberFrom] at h
      rw [if_neg (by decide), if_neg (by decide)] at h
      split at h
      · cases h
      · rename_i h1
        rcases List.mem_cons.1 hr with rfl | hr
        · apply hd
          simp only [Bool.and_eq_true, bne_iff_ne, Bool.not_eq_true', decide_eq_true_eq, not_and, Bool.not_eq_false] at h1
          by_cases h46 : r = 46
          · simp [h46]
          · simp [h1 (by simpa using h46)]
        · exact ih 2 (.inr rfl) h hm' r hr

theorem trimSpace_ends {s : Str} {a b : Nat} {l : List Nat} (ha : 32 < a ∧ a < 128) (hb : 32 < b ∧ b < 128) (h : runes s = a :: l)
    (h' : ∃ l', runes s = l' ++ [b]) : trimSpace s = s := by
  obtain ⟨l', h'⟩ := h'
  have h1 : HeadOk s := by
    obtain ⟨c, hc, -⟩ := runes_head_ascii ha.2 h
    rw [hc]; exact headOk_ascii ha _
  have h2 : TailOk s := by
    obtain ⟨c, hc, -⟩ := runes_last_ascii hb.2 h'
    rw [hc]; exact tailOk_ascii hb _
  exact trimSpace_ok h1 h2

/-- An escaped text that is an identifier has no outer white space. -/
theorem esc_trimmed {U : Unicode} (hU : SaneUnicode U) {s s' : Str} (h : esc U s = some s') (hid : IdLexeme (runes s')) : trimSpace s' = s' := by
  have hq : ∀ x, trimSpace ([34] ++ x ++ [34]) = [34] ++ x ++ [34] := by
    intro x
    have := trimSpace_quoted x
    simpa using this
  rcases esc_cases h with rfl | ⟨rfl, _⟩ | ⟨rfl, _⟩
  · rcases hid with ⟨hw, -⟩ | ⟨m, ds, fs, hm, hds, hfs, hw⟩ | ⟨b, -, hw⟩ | ⟨b, -, hw⟩
    · -- a word
      have hchars : ∀ x ∈ runes s', letter x ∨ digit x := by
        obtain ⟨c, cs, e, hc, hcs⟩ := hw
        rw [e]; intro x hx
        rcases List.mem_cons.1 hx with rfl | hx
        · exact .inl hc
        · exact hcs x hx
      have no : ∀ c, c < 128 → ¬ (letter c ∨ digit c) → c ∉ s' := fun c hc hn hm => hn (hchars c ((mem_runes hc _).2 hm))
      have hne : s' ≠ [] := by
        obtain ⟨c, cs, e, _⟩ := hw
        intro h0; rw [h0] at e; cases e
      unfold esc at h
      rw [if_neg (by simpa using hne)] at h
      split at h
      · cases h
      · rename_i hhtml
        unfold isHTML at hhtml
        split at hhtml
        · cases hhtml
        · split at hhtml
          · cases hhtml
          · rename_i c cs ht
            split at hhtml
            · cases hhtml
            · rename_i hc
              have hc : c = 60 := Classical.byContradiction hc
              exact absurd (trimSpace_head ht) (by rw [hc]; exact no 60 (by decide) (by decide))
      · split at h
        · cases h
        · rename_i c cs ht
          split at h
          · rename_i hc
            exact absurd (trimSpace_head ht) (by rw [hc]; exact no 60 (by decide) (by decide))
          · split at h
            · rename_i hid
              refine trimSpace_noSpace fun r hr => ?_
              unfold isID at hid
              cases hrs : runes s' with
              | nil => rw [hrs] at hr; cases hr
              | cons c cs =>
                rw [hrs] at hid hr
                simp only [Bool.and_eq_true, List.all_eq_true] at hid
                have := hid.2 r hr
                simp only [idRuneOk, Bool.and_eq_true, Bool.not_eq_true'] at this
                exact this.1.1.1
            · split at h
              · rename_i hnum
                exact trimSpace_noSpace (isNumberFrom_noSpace hU _ 0 (.inl rfl) hnum
                  (fun hm => no 45 (by decide) (by decide) ((mem_runes (by decide) _).1 hm)))
              · split at h
                · cases h
                · rename_i hlit
                  unfold isStringLit at hlit
                  split at hlit
                  · cases hlit
                  · rename_i hp
                    exfalso
                    simp only [Bool.or_eq_true, Bool.not_eq_true', not_or, Bool.not_eq_false] at hp
                    have : 34 ∈ s' := by
                      cases s' with
                      | nil => exact absurd rfl hne
                      | cons a x =>
                        have := hp.1
                        simp [hasPrefix, List.isPrefixOf] at this
                        simp [this]
                    exact no 34 (by decide) (by decide) this
                · have h := Option.some.inj h
                  rw [← h]; exact hq _
    · -- a numeral
      have hdig : ∀ x, digit x → 32 < x ∧ x < 128 := by intro x hx; unfold digit at hx; omega
      have hall : ∀ x ∈ runes s', 32 < x ∧ x < 128 := by
        intro x hx
        have hm' : ∀ x ∈ m, 32 < x ∧ x < 128 := by
          rcases hm with rfl | rfl
          · intro x hx; cases hx
          · intro x hx; rw [List.mem_singleton.1 hx]; omega
        rcases hw with ⟨-, e⟩ | ⟨-, e⟩ | ⟨-, e⟩ <;> rw [e] at hx <;> simp only [List.mem_append, List.mem_cons] at hx
        · rcases hx with hx | rfl | hx
          · exact hm' x hx
          · omega
          · exact hdig x (hfs x hx)
        · rcases hx with hx | hx
          · exact hm' x hx
          · exact hdig x (hds x hx)
        · rcases hx with (hx | hx) | rfl | hx
          · exact hm' x hx
          · exact hdig x (hds x hx)
          · omega
          · exact hdig x (hfs x hx)
      refine trimSpace_noSpace fun r hr => ?_
      have := hall r hr
      simp [isSpaceRune]; omega
    · exact trimSpace_ends (a := 34) (b := 34) (by omega) (by omega) hw ⟨34 :: b, by rw [hw]; rfl⟩
    · exact trimSpace_ends (a := 60) (b := 62) (by omega) (by omega) hw ⟨60 :: b, by rw [hw]; rfl⟩
  · exact hq _
  · exact hq _

/-- Every text kept in the graph was kept by some call. -/
theorem valid_of_args (ops : List Op) (hok : OkHistory newGraph ops) (hs : ∀ op ∈ ops, ∀ s ∈ storedTexts op, ValidName s)
    (hp : ∀ op ∈ ops, ∀ p ∈ portTexts op, ValidPort p) : ValidGraph (newGraph.run ops) := by
  obtain ⟨h1, h2, h3, h4, h5, h6, -, h8⟩ := C56_provenance ops hok
  have hg : Reachable (newGraph.run ops) := Reachable.init.run hok
  have hoff : ∀ t k v, Offered (· ∈ ops) t k v → ValidId v := by
    rintro t k v (h | ⟨p, as, h, hm⟩)
    · exact (hs _ h v (by simp [storedTexts])).1
    · exact (hs _ h v (by simp only [storedTexts]; exact List.mem_cons_of_mem _ (List.mem_map.2 ⟨_, hm, rfl⟩))).1
  refine ⟨?_, ?_, ?_, ?_, ?_, ?_, ?_⟩
  · rcases h1 with h | h
    · exact .inl h
    · exact .inr (hs _ h _ (by simp [storedTexts])).1
  · intro k v hk
    obtain ⟨t, _, ho⟩ := h2 k v hk
    exact hoff t k v ho
  · intro n nd hn
    refine ⟨?_, fun k v hk => ?_⟩
    · obtain ⟨p, kvs, h⟩ := h3 n (by
        cases hi : (newGraph.run ops).isNode n with
        | true => rfl
        | false => rw [(isNode_find hg.inv n).2 hi] at hn; cases hn)
      exact .inl (hs _ h n (by simp [storedTexts]))
    · obtain ⟨p, kvs, h, hm⟩ := h4 n k v (by unfold nodeValue; rw [hn]; exact hk)
      exact (hs _ h v (by simp only [storedTexts]; exact List.mem_cons_of_mem _ (List.mem_map.2 ⟨_, hm, rfl⟩))).1
  · intro n s hn
    refine ⟨?_, fun k v hk => hoff n k v (h6 n s k v hn hk)⟩
    obtain ⟨p, kvs, h⟩ := h5 n (by unfold Graph.isSubGraph mhas; rw [hn]; rfl)
    exact (hs _ h n (by simp [storedTexts])).1
  · rintro n ⟨-, hc, -⟩
    unfold Graph.isClusterSubGraph at hc
    obtain ⟨p, kvs, h⟩ := h5 n (Bool.and_eq_true_iff.1 hc).1
    exact hs _ h n (by simp [storedTexts])
  · intro n hn _
    obtain ⟨p, kvs, h⟩ := h3 n hn
    exact hs _ h n (by simp [storedTexts])
  · intro e he
    obtain ⟨kvs, h, ha⟩ := h8 e he
    have hv : ∀ op ∈ ops, (∀ x ∈ kvs, x.2 ∈ storedTexts op) → ValidValues e.attrs := by
      intro op ho hx k v hk
      rw [ha k] at hk
      exact (hs op ho v (hx _ (entry_mem hk))).1
    rcases h with h | ⟨hp1, hp2, h⟩
    · exact ⟨hv _ h fun x hx => List.mem_map.2 ⟨x, hx, rfl⟩, hp _ h _ (by simp [portTexts]), hp _ h _ (by simp [portTexts])⟩
    · exact ⟨hv _ h fun x hx => List.mem_map.2 ⟨x, hx, rfl⟩, .inl hp1, .inl hp2⟩

/-- Possible arguments along a history of `Escape` calls (`Op.Ok`: no key twice in a map, and the order of `RemoveSubGraph` is an order of
the actual children). -/
def EscOkHistory (U : Unicode) : Graph → List Op → Prop
  | _, [] => True
  | g, op :: ops => op.Ok g ∧ match escStep U g op with
    | none => True
    | some r => EscOkHistory U r.1 ops

instance decEscOk (U : Unicode) : (g : Graph) → (ops : List Op) → Decidable (EscOkHistory U g ops)
  | _, [] => .isTrue trivial
  | g, op :: ops => by
    unfold EscOkHistory
    refine @instDecidableAnd _ _ _ ?_
    split
    · infer_instance
    · exact decEscOk U _ ops

theorem escapedCall_ok {U : Unicode} {g : Graph} {op op' : Op} (hop : op.Ok g) (ho : EscapedCall (esc U) op op') : op'.Ok g := by
  have hnd : ∀ as as', EscapedMap (esc U) as as' → (as'.map Prod.fst).Nodup := fun as as' hm => MapWF.nodup hm.2.1
  cases op with
  | setName n => obtain ⟨n', _, rfl⟩ := ho; exact trivial
  | addPortEdge s sp d dp dir as => obtain ⟨_, _, as', _, _, hm, rfl⟩ := ho; exact hnd as as' hm
  | addEdge s d dir as => obtain ⟨_, _, as', _, _, hm, rfl⟩ := ho; exact hnd as as' hm
  | addNode p n as => obtain ⟨_, _, as', _, _, hm, rfl⟩ := ho; exact hnd as as' hm
  | addSubGraph p n as => obtain ⟨_, _, as', _, _, hm, rfl⟩ := ho; exact hnd as as' hm
  | addAttr p f v => obtain ⟨_, _, _, _, _, _, rfl⟩ := ho; exact trivial
  | setStrict b => cases ho; exact hop
  | setDir b => cases ho; exact hop
  | removeNode p n => cases ho; exact hop
  | removeSubGraph p n o => cases ho; exact hop

theorem escOk_ok {U : Unicode} {ops ops' : List Op} (hf : Forall2 (EscapedCall (esc U)) ops ops') :
    ∀ {g : Graph}, EscOkHistory U g ops → OkHistory g ops' := by
  induction hf with
  | nil => intro _ _; exact trivial
  | @cons op op' ops ops' ho _ ih =>
    intro g h
    refine ⟨escapedCall_ok h.1 ho, ih ?_⟩
    have h2 := h.2
    rw [(escStep_iff U g op (g.step op')).2 ⟨op', ho, rfl⟩] at h2
    exact h2

theorem escapedMap_values {U : Unicode} {as as' : List (Str × Str)} (h : EscapedMap (esc U) as as') {v' : Str} (hv : v' ∈ as'.map (·.2)) :
    ∃ v ∈ as.map (·.2), esc U v = some v' := by
  obtain ⟨⟨k', w⟩, hm, rfl⟩ := List.mem_map.1 hv
  obtain ⟨pre, k, v, post, rfl, _, h2, _⟩ := (h.2.2 k' w).1 hm
  exact ⟨v, List.mem_map.2 ⟨(k, v), by simp, rfl⟩, h2⟩

theorem escapedCall_stored {U : Unicode} {op op' : Op} (ho : EscapedCall (esc U) op op') :
    (∀ s' ∈ storedTexts op', ∃ s ∈ storedTexts op, esc U s = some s') ∧ portTexts op' = portTexts op := by
  cases op with
  | setName n =>
    obtain ⟨n', h, rfl⟩ := ho
    exact ⟨fun s' hs => ⟨n, by simp [storedTexts], by rw [List.mem_singleton.1 hs]; exact h⟩, rfl⟩
  | addPortEdge s sp d dp dir as =>
    obtain ⟨_, _, as', _, _, hm, rfl⟩ := ho
    exact ⟨fun s' hs => escapedMap_values hm hs, rfl⟩
  | addEdge s d dir as =>
    obtain ⟨_, _, as', _, _, hm, rfl⟩ := ho
    exact ⟨fun s' hs => escapedMap_values hm hs, rfl⟩
  | addNode p n as =>
    obtain ⟨_, n', as', _, hn, hm, rfl⟩ := ho
    refine ⟨fun s' hs => ?_, rfl⟩
    rcases List.mem_cons.1 hs with rfl | hs
    · exact ⟨n, by simp [storedTexts], hn⟩
    · obtain ⟨v, hv, he⟩ := escapedMap_values hm hs
      exact ⟨v, List.mem_cons_of_mem _ hv, he⟩
  | addSubGraph p n as =>
    obtain ⟨_, n', as', _, hn, hm, rfl⟩ := ho
    refine ⟨fun s' hs => ?_, rfl⟩
    rcases List.mem_cons.1 hs with rfl | hs
    · exact ⟨n, by simp [storedTexts], hn⟩
    · obtain ⟨v, hv, he⟩ := escapedMap_values hm hs
      exact ⟨v, List.mem_cons_of_mem _ hv, he⟩
  | addAttr p f v =>
    obtain ⟨_, _, v', _, _, hv, rfl⟩ := ho
    exact ⟨fun s' hs => ⟨v, by simp [storedTexts], by rw [List.mem_singleton.1 hs]; exact hv⟩, rfl⟩
  | setStrict b => cases ho; exact ⟨(fun s' hs => by cases hs), rfl⟩
  | setDir b => cases ho; exact ⟨(fun s' hs => by cases hs), rfl⟩
  | removeNode p n => cases ho; exact ⟨(fun s' hs => by cases hs), rfl⟩
  | removeSubGraph p n o => cases ho; exact ⟨(fun s' hs => by cases hs), rfl⟩

theorem Forall2.mem_right {α β : Type} {R : α → β → Prop} {xs : List α} {ys : List β} (h : Forall2 R xs ys) {y : β} (hy : y ∈ ys) :
    ∃ x ∈ xs, R x y := by
  induction h with
  | nil => cases hy
  | @cons a b xs ys hab _ ih =>
    rcases List.mem_cons.1 hy with rfl | hy
    · exact ⟨a, by simp, hab⟩
    · obtain ⟨x, hx, hr⟩ := ih hy
      exact ⟨x, by simp [hx], hr⟩

/-- C57. A graph built through `Escape` from texts whose escaped forms are identifiers (`C55_exactly` says which texts these are) survives
writing and reading: `Read(e.String())` succeeds and gives the same graph, in which the same unescaped names are found (a cluster at the end
of an edge excepted: it is a node afterwards, C22). -/
theorem C57_escape_round_trip (U : Unicode) (hU : SaneUnicode U) {ops : List Op} (hok : EscOkHistory U newGraph ops)
    {g : Graph} {errs : List (Option Err)} (hrun : escRun U newGraph ops = some (g, errs))
    (htext : ∀ op ∈ ops, ∀ s ∈ storedTexts op, ∀ s', esc U s = some s' → LexesAsID s')
    (hport : ∀ op ∈ ops, ∀ p ∈ portTexts op, ValidPort p) (hna : NamesApart g)
    {sortE : List Edge → List Edge} (hs : SortContract sortE) {f : Nat} {t : Ast.Graph} (ht : writeAst sortE f g = .ok t)
    (rnd : Nat → Nat) (cnt : Nat) :
    ∃ text g', graphString sortE f g = .ok text ∧ Parse.read rnd cnt text = .ok g' ∧ ReadBack g g' ∧
      ∀ n, (∀ x, esc U n = some x → ¬ ClusterEnd g x) → escIsNode U g' n = escIsNode U g n := by
  obtain ⟨ops', hf, rfl, -⟩ := (C32_escape_is_graph U newGraph g ops errs).1 hrun
  have hok' := escOk_ok hf hok
  have hv : ValidGraph (newGraph.run ops') := by
    refine valid_of_args ops' hok' (fun op' ho' s' hs' => ?_) (fun op' ho' p hp => ?_)
    · obtain ⟨op, ho, hesc⟩ := hf.mem_right ho'
      obtain ⟨s, hs, he⟩ := (escapedCall_stored hesc).1 s' hs'
      have hid := (lexesAsID_iff s').1 (htext op ho s hs s' he)
      exact ⟨hid, esc_trimmed hU he hid⟩
    · obtain ⟨op, ho, hesc⟩ := hf.mem_right ho'
      rw [(escapedCall_stored hesc).2] at hp
      exact hport op ho p hp
  have hr : Reachable (newGraph.run ops') := Reachable.init.run hok'
  obtain ⟨text, g', h1, h2, h3, h4⟩ := C37_round_trip hr hv hna hs ht rnd cnt
  refine ⟨text, g', h1, h2, h4, fun n hn => ?_⟩
  unfold escIsNode
  have : ∀ x, esc U n = some x → g'.isNode x = (newGraph.run ops').isNode x := by
    intro x hx
    have h5 := h4.nodes x (hn x hx)
    have h6 := isNode_find h3.inv x
    have h7 := isNode_find hr.inv x
    cases ha : g'.isNode x <;> cases hb : (newGraph.run ops').isNode x <;> first | rfl | skip
    · obtain ⟨nd, hnd, _⟩ := h7.1 hb
      rw [h6.2 ha, hnd] at h5; cases h5
    · obtain ⟨nd, hnd, _⟩ := h6.1 ha
      rw [h7.2 hb, hnd] at h5; cases h5
  cases he : esc U n with
  | none => rfl
  | some x => show some _ = some _; rw [this x he]

/-- A history with arbitrary texts: spaces, quotes, angle brackets, ampersands. -/
def escOps : List Op := [
  .setName (b!"my graph"), .setDir true, .addSubGraph (b!"my graph") (b!"part \"one\"") [(b!"label", b!"R&D <draft>")],
  .addNode (b!"part \"one\"") (b!"a -> b;") [(b!"label", b!"<<b>x</b>>")], .addNode (b!"my graph") (b!"-1.5") [],
  .addEdge (b!"a -> b;") (b!"-1.5") true [(b!"label", b!"say \"hi\"")]]

/-- A test for `LexesAsID` of the escaped form. -/
def escapedIsID (s : Str) : Bool :=
  match esc noUni s with
  | some s' => match tokens s' with
    | some [a, b] => a.typ == 18 && a.lit == s' && b.typ == 1
    | _ => false
  | none => true

theorem escapedIsID_ok {s s' : Str} (h : escapedIsID s = true) (he : esc noUni s = some s') : LexesAsID s' := by
  unfold escapedIsID at h
  rw [he] at h
  simp only at h
  split at h
  · rename_i a b ht
    simp only [Bool.and_eq_true, beq_iff_eq] at h
    exact ⟨a, b, ht, h.1.1, h.1.2, h.2⟩
  · cases h

/-- The graph built by `escOps`. -/
def escGraph : Graph := ((escRun noUni newGraph escOps).map Prod.fst).getD newGraph

/-- ... meets the hypotheses of `C57_escape_round_trip`. -/
theorem example_escape_round_trip : ∃ g errs t, SaneUnicode noUni ∧ EscOkHistory noUni newGraph escOps ∧
    escRun noUni newGraph escOps = some (g, errs) ∧ (∀ op ∈ escOps, ∀ s ∈ storedTexts op, ∀ s', esc noUni s = some s' → LexesAsID s') ∧
    (∀ op ∈ escOps, ∀ p ∈ portTexts op, ValidPort p) ∧ NamesApart g ∧ writeAst edgeInsertionSort 3 g = .ok t ∧
    g.edges.edges.length = 1 ∧ errs = [none, none, none, none, none, none] := by
  have hr : (escRun noUni newGraph escOps).isSome = true := by decide +kernel
  obtain ⟨⟨g, errs⟩, hg⟩ := Option.isSome_iff_exists.1 hr
  have hget : (escRun noUni newGraph escOps).map Prod.fst = some g := by rw [hg]; rfl
  have hgg : (escRun noUni newGraph escOps).map Prod.fst = some escGraph := by decide +kernel
  obtain rfl : g = escGraph := by rw [hget] at hgg; exact Option.some.inj hgg
  have hw : (match writeAst edgeInsertionSort 3 escGraph with | .ok _ => true | _ => false) = true := by decide +kernel
  cases ht : writeAst edgeInsertionSort 3 escGraph with
  | ok t =>
    refine ⟨escGraph, errs, t, fun _ _ => rfl, by decide +kernel, hg, ?_, ?_, ⟨?_, by decide +kernel⟩, ht,
      by decide +kernel, ?_⟩
    · intro op ho s hs s' he
      have h : ∀ op ∈ escOps, ∀ s ∈ storedTexts op, escapedIsID s = true := by decide +kernel
      exact escapedIsID_ok (h op ho s hs) he
    · intro op ho p hp
      have h : ∀ op ∈ escOps, portTexts op = [] := by decide +kernel
      rw [h op ho] at hp; cases hp
    · rintro n ⟨h1, h2⟩
      have h1 := (mhas_iff _ _).1 h1
      have h2 := (mhas_iff _ _).1 h2
      have e : ∀ n ∈ mkeys escGraph.nodes.lookup, n ∉ mkeys escGraph.subGraphs := by decide +kernel
      exact e n h1 h2
    · have h : (escRun noUni newGraph escOps).map Prod.snd = some [none, none, none, none, none, none] := by decide +kernel
      rw [hg] at h; exact Option.some.inj h
  | err e => rw [ht] at hw; cases hw
  | panic => rw [ht] at hw; cases hw
  | diverge => rw [ht] at hw; cases hw

end Gographviz.Props
