import Verif.Spec.Encoding
import Verif.Proofs.Encoding
import Verif.Props.ProvenanceProps
import Verif.Props.EscapeAnalyse
import Verif.Props.FormatProps
import Verif.Props.StringErrProps
import Verif.Proofs.LRViable
/-!
Property C96: valid UTF-8 in, valid UTF-8 out.
-/
namespace Gographviz.Props

open Gographviz Spec Parse Proofs
open Gographviz.Ast (Stmt Loc EdgeRH AttrList)

namespace Enc

/-! ### parsing -/

theorem htmlBody_clean {b : List Nat} (h : HtmlBody b) : 0 ∉ b := by
  induction h with
  | nil => simp
  | char h _ ih =>
    intro hm
    rcases List.mem_cons.1 hm with h' | h'
    · have := h.1; omega
    · exact ih h'
  | tag _ ht _ ih =>
    intro hm
    simp only [List.mem_cons, List.mem_append] at hm
    rcases hm with h' | h' | h' | h'
    · omega
    · have := (ht _ h').1; omega
    · omega
    · exact ih h'

theorem idLexeme_no_nul {w : List Nat} (h : IdLexeme w) : 0 ∉ w := by
  rcases h with ⟨⟨c, cs, rfl, hc, hcs⟩, _⟩ | ⟨m, ds, fs, hm, hds, hfs, hw⟩ | ⟨b, hb, rfl⟩ | ⟨b, hb, rfl⟩
  · intro h0
    rcases List.mem_cons.1 h0 with rfl | h0
    · exact absurd hc (by decide)
    · exact absurd (hcs 0 h0) (by decide)
  · have h1 : 0 ∉ m := by rcases hm with rfl | rfl <;> decide
    have h2 : 0 ∉ ds := fun h => absurd (hds 0 h) (by decide)
    have h3 : 0 ∉ fs := fun h => absurd (hfs 0 h) (by decide)
    rcases hw with ⟨_, rfl⟩ | ⟨_, rfl⟩ | ⟨_, rfl⟩ <;> simp [h1, h2, h3]
  · have := (strBody_chars hb).1
    simp [this]
  · have := htmlBody_clean hb
    simp [this]

theorem tokenText_clean {t : Nat} {s : Str} (h : TokenText t (runes s)) : CleanUtf8 s := by
  refine clean_of_runes ?_ (tokenText_valid h)
  rcases h with h | h | ⟨_, h⟩
  · have : ∀ e ∈ keywords, 0 ∉ e.1 := by decide
    exact this _ h
  · have : ∀ e ∈ puncts, 0 ∉ e.1 := by decide
    exact this _ h
  · exact idLexeme_no_nul h

theorem clean_nil : CleanUtf8 [] := ⟨[], .nil, by simp, by simp⟩

theorem clean_ascii {s : Str} (h : ∀ b ∈ s, b < 0x80 ∧ b ≠ 0) : CleanUtf8 s := by
  refine clean_of_runes ?_ ?_
  · rw [runes_all_ascii s fun b hb => (h b hb).1]
    exact fun h0 => (h 0 h0).2 rfl
  · rw [runes_all_ascii s fun b hb => (h b hb).1]
    intro h0
    have := (h _ h0).1
    omega

theorem CleanButComments.append {a b : Str} (ha : CleanButComments a) (hb : CleanButComments b) : CleanButComments (a ++ b) := by
  induction ha with
  | nil => exact hb
  | clean h _ ih => rw [List.append_assoc]; exact .clean h ih
  | comment h _ ih => rw [List.append_assoc]; exact .comment h ih

theorem layout_clean {gap : Str} (h : Layout gap) : CleanButComments gap := by
  induction h with
  | nil => exact .nil
  | cons hp _ ih =>
    cases hp with
    | blank h =>
      refine .clean (clean_ascii ?_) ih
      intro b hb
      rw [List.mem_singleton] at hb
      omega
    | hash h => exact .comment (.hash h) ih
    | slashes h => exact .comment (.slashes h) ih
    | block h => exact .comment (.block h) ih

theorem tokensOf_clean {off : Nat} {rem : Str} {ts : List Lex.Token} (h : TokensOf off rem ts) (h0 : ∀ t ∈ ts, t.typ ≠ 0) :
    CleanButComments rem ∧ ∀ t ∈ ts, CleanUtf8 t.lit := by
  induction h with
  | eof hg _ hl => exact ⟨layout_clean hg, fun t ht => by rw [List.mem_singleton.1 ht, hl]; exact clean_nil⟩
  | @cons off gap rest t ts hg _ _ _ _ hlong _ _ ih =>
    have hc : CleanUtf8 t.lit := by
      unfold Longest at hlong
      rw [if_neg (h0 t (by simp))] at hlong
      exact tokenText_clean hlong.1
    obtain ⟨ih1, ih2⟩ := ih fun t ht => h0 t (by simp [ht])
    refine ⟨CleanButComments.append (layout_clean hg) (.clean hc ih1), fun t' ht => ?_⟩
    rcases List.mem_cons.1 ht with rfl | ht
    · exact hc
    · exact ih2 t' ht

/-! ### writing -/

/-- The texts in the graph are UTF-8. -/
structure UG (g : Graph) : Prop where
  name : Utf8 g.name
  attrs : ∀ k v, mget g.attrs k = some v → Utf8 v
  nodes : ∀ n nd, g.nodes.find n = some nd → Utf8 n ∧ ∀ k v, mget nd.attrs k = some v → Utf8 v
  subs : ∀ n s, mget g.subGraphs n = some s → Utf8 n ∧ ∀ k v, mget s.attrs k = some v → Utf8 v
  child : ∀ p c, mhas (g.relations.children p) c = true → Utf8 c
  edges : ∀ e ∈ g.edges.edges, Utf8 e.src ∧ Utf8 e.srcPort ∧ Utf8 e.dst ∧ Utf8 e.dstPort ∧ ∀ k v, mget e.attrs k = some v → Utf8 v

theorem ug_of_args (ops : List Op) (hok : OkHistory newGraph ops) (hs : ∀ op ∈ ops, ∀ s ∈ argTexts op, Utf8 s) : UG (newGraph.run ops) := by
  obtain ⟨h1, h2, h3, h4, h5, h6, h7, h8⟩ := C56_provenance ops hok
  have hg : Reachable (newGraph.run ops) := Reachable.init.run hok
  have hoff : ∀ t k v, Offered (· ∈ ops) t k v → Utf8 v := by
    rintro t k v (h | ⟨p, as, h, hm⟩)
    · exact hs _ h v (by simp [argTexts])
    · exact hs _ h v (by simp only [argTexts]; exact List.mem_cons_of_mem _ (List.mem_map.2 ⟨_, hm, rfl⟩))
  refine ⟨?_, ?_, ?_, ?_, ?_, ?_⟩
  · rcases h1 with h | h
    · rw [h]; exact utf8_nil
    · exact hs _ h _ (by simp [argTexts])
  · intro k v hk
    obtain ⟨t, _, ho⟩ := h2 k v hk
    exact hoff t k v ho
  · intro n nd hn
    refine ⟨?_, fun k v hk => ?_⟩
    · obtain ⟨p, kvs, h⟩ := h3 n (by
        cases hi : (newGraph.run ops).isNode n with
        | true => rfl
        | false => rw [(isNode_find hg.inv n).2 hi] at hn; cases hn)
      exact hs _ h n (by simp [argTexts])
    · obtain ⟨p, kvs, h, hm⟩ := h4 n k v (by unfold nodeValue; rw [hn]; exact hk)
      exact hs _ h v (by simp only [argTexts]; exact List.mem_cons_of_mem _ (List.mem_map.2 ⟨_, hm, rfl⟩))
  · intro n s hn
    refine ⟨?_, fun k v hk => hoff n k v (h6 n s k v hn hk)⟩
    obtain ⟨p, kvs, h⟩ := h5 n (by unfold Graph.isSubGraph mhas; rw [hn]; rfl)
    exact hs _ h n (by simp [argTexts])
  · intro p c hc
    obtain ⟨kvs, h | h⟩ := h7 p c hc
    · exact hs _ h c (by simp [argTexts])
    · exact hs _ h c (by simp [argTexts])
  · intro e he
    obtain ⟨kvs, h, ha⟩ := h8 e he
    have hv : ∀ op ∈ ops, (∀ x ∈ kvs, x.2 ∈ argTexts op) → ∀ k v, mget e.attrs k = some v → Utf8 v := by
      intro op ho hx k v hk
      rw [ha k] at hk
      exact hs op ho v (hx _ (entry_mem hk))
    rcases h with h | ⟨hp1, hp2, h⟩
    · refine ⟨hs _ h _ (by simp [argTexts]), hs _ h _ (by simp [argTexts]), hs _ h _ (by simp [argTexts]), hs _ h _ (by simp [argTexts]), hv _ h fun x hx => ?_⟩
      simp only [argTexts]
      exact List.mem_cons_of_mem _ (List.mem_cons_of_mem _ (List.mem_cons_of_mem _ (List.mem_cons_of_mem _ (List.mem_map.2 ⟨x, hx, rfl⟩))))
    · rw [hp1, hp2]
      refine ⟨hs _ h _ (by simp [argTexts]), utf8_nil, hs _ h _ (by simp [argTexts]), utf8_nil, hv _ h fun x hx => ?_⟩
      simp only [argTexts]
      exact List.mem_cons_of_mem _ (List.mem_cons_of_mem _ (List.mem_map.2 ⟨x, hx, rfl⟩))

theorem registered_utf8 {k : Str} (h : Registered k) : Utf8 k := by
  have : ∀ k ∈ registered, (k.all fun b => decide (b < 0x80)) = true := by decide +kernel
  exact utf8_ascii fun b hb => by simpa using List.all_eq_true.1 (this k h) b hb

theorem attrs_list {a : Attrs} (ha : AttrsOk a) (hv : ∀ k v, mget a k = some v → Utf8 v) : ∀ s ∈ identsAttrs (attrsAsList a), Utf8 s := by
  intro s hs
  simp only [identsAttrs, attrsAsList, List.flatMap_cons, List.flatMap_nil, List.append_nil, List.mem_flatMap, List.mem_map] at hs
  obtain ⟨x, ⟨e, he, rfl⟩, hs⟩ := hs
  simp only [List.mem_cons, List.not_mem_nil, or_false] at hs
  rcases hs with rfl | rfl
  · exact registered_utf8 (ha.reg e he)
  · exact hv e.1 e.2 (mget_of_mem ha.wf he)

theorem identsStmts_iff {P : Str → Prop} (ss : List Stmt) : (∀ x ∈ identsStmts ss, P x) ↔ ∀ s ∈ ss, ∀ x ∈ identsStmt s, P x := by
  induction ss with
  | nil => simp [identsStmts]
  | cons s ss ih =>
    simp only [identsStmts, List.mem_append, List.mem_cons]
    constructor
    · rintro h s' (rfl | hs) x hx
      · exact h x (.inl hx)
      · exact ih.1 (fun x hx => h x (.inr hx)) s' hs x hx
    · rintro h x (hx | hx)
      · exact h s (.inl rfl) x hx
      · exact ih.2 (fun s' hs => h s' (.inr hs)) x hx

theorem attrs_stmts {a : Attrs} (ha : AttrsOk a) (hv : ∀ k v, mget a k = some v → Utf8 v) : ∀ x ∈ identsStmts (attrsAsStmts a), Utf8 x := by
  rw [identsStmts_iff]
  intro s hs x hx
  obtain ⟨e, he, rfl⟩ := List.mem_map.1 hs
  simp only [identsStmt, List.mem_cons, List.not_mem_nil, or_false] at hx
  rcases hx with rfl | rfl
  · exact registered_utf8 (ha.reg e he)
  · exact hv e.1 e.2 (mget_of_mem ha.wf he)

theorem nodeStmt_utf8 {g : Graph} (h : GInv g) (hv : UG g) {c : Str} {nd : Node} (hf : g.nodes.find c = some nd) :
    ∀ x ∈ identsStmt (.node ⟨c, ⟨[], []⟩⟩ (attrsAsList nd.attrs)), Utf8 x := by
  intro x hx
  simp only [identsStmt, identsNode, List.mem_append, List.mem_cons, List.not_mem_nil, or_false] at hx
  rcases hx with (rfl | rfl | rfl) | hx
  · exact (hv.nodes _ nd hf).1
  · exact utf8_nil
  · exact utf8_nil
  · exact attrs_list (find_attrs h hf) (hv.nodes c nd hf).2 x hx

theorem subBody_utf8 {g : Graph} (h : GInv g) (hv : UG g) {f : Nat} {n : Str} {b : List Stmt} (hb : subBody g f n = .ok b) :
    ∀ x ∈ identsStmts b, Utf8 x := by
  induction f generalizing n b with
  | zero => cases hb
  | succ f ih =>
    simp only [subBody] at hb
    cases hs : mget g.subGraphs n with
    | none => rw [hs] at hb; cases hb
    | some sub =>
      rw [hs] at hb
      simp only at hb
      obtain ⟨cs, hcs, h'⟩ := WRes.bind_eq_ok.1 hb
      cases h'
      have hw := h.subs.attrs n sub hs
      rw [attrStmts_eq hw.wf, identsStmts_iff]
      intro s hm
      rcases List.mem_append.1 hm with hm | hm
      · exact (identsStmts_iff _).1 (attrs_stmts hw (hv.subs n sub hs).2) s hm
      · obtain ⟨c, _, hc⟩ := (mapW_ok.1 hcs).mem_right hm
        rcases (childOf_ok h hc).2 with ⟨nd, rfl, hf⟩ | ⟨b', hb', rfl, _, hsub⟩
        · exact nodeStmt_utf8 h hv hf
        · obtain ⟨s', hs'⟩ := (isSub_get g c).1 hsub
          intro x hx
          simp only [identsStmt, List.mem_cons] at hx
          rcases hx with rfl | hx
          · exact (hv.subs _ s' hs').1
          · exact ih hb' x hx

theorem makeNodeID_utf8 {n p : Str} (hn : Utf8 n) (hp : Utf8 p) : ∀ x ∈ identsNode (Ast.makeNodeID n p), Utf8 x := by
  have key := utf8_splitColon hp
  intro x hx
  unfold Ast.makeNodeID at hx
  have key' : ∀ p' q' : Str, Utf8 p' → Utf8 q' → x ∈ identsNode ⟨n, ⟨p', q'⟩⟩ → Utf8 x := by
    intro p' q' h1 h2 hx
    simp only [identsNode, List.mem_cons, List.not_mem_nil, or_false] at hx
    rcases hx with rfl | rfl | rfl
    · exact hn
    · exact h1
    · exact h2
  split at hx
  · split at hx
    · exact key' _ _ utf8_nil utf8_nil hx
    · rename_i e
      exact key' _ _ (key _ (by rw [e]; simp)) utf8_nil hx
    · rename_i e
      exact key' _ _ (key _ (by rw [e]; simp)) (key _ (by rw [e]; simp)) hx
  · exact key' _ _ utf8_nil utf8_nil hx

theorem loc_utf8 {g : Graph} (h : Reachable g) (hv : UG g) {f : Nat} {n p : Str} {l : Loc} (hl : locOf g f n p = .ok l)
    (hn : Utf8 n) (hp : Utf8 p) : ∀ x ∈ identsLoc l, Utf8 x := by
  rcases loc_written h hl with ⟨rfl, _⟩ | ⟨b, rfl, hb, _⟩
  · simp only [identsLoc]
    exact makeNodeID_utf8 hn hp
  · intro x hx
    simp only [identsLoc, List.mem_cons] at hx
    rcases hx with rfl | hx
    · exact hn
    · exact subBody_utf8 h.inv hv hb x hx

theorem written_utf8 {g : Graph} (h : Reachable g) (hv : UG g) {sortE : List Edge → List Edge} (hs : SortContract sortE) {f : Nat} {t : Ast.Graph}
    (ht : writeAst sortE f g = .ok t) : ∀ x ∈ idents t, Utf8 x := by
  obtain ⟨es, ss, ns, hes, hss, hns, rfl⟩ := written_parts h ht
  intro x hx
  simp only [idents, List.mem_cons] at hx
  rcases hx with rfl | hx
  · exact hv.name
  · revert x
    rw [identsStmts_iff]
    intro s hm
    simp only [List.mem_append] at hm
    rcases hm with ((hm | hm) | hm) | hm
    · exact (identsStmts_iff _).1 (attrs_stmts h.inv.attrs hv.attrs) s hm
    · obtain ⟨e, he, hes'⟩ := hes.mem_right hm
      have he := (hs.perm _).mem_iff.1 he
      obtain ⟨src, dst, rfl, h1, h2, _⟩ := edgeOf_inner h.inv hes'
      obtain ⟨a1, a2, a3, a4, a5⟩ := hv.edges e he
      rw [putMap_eq (h.inv.edges.attrs e he).wf]
      intro x hx
      simp only [identsStmt, identsRHS, List.append_nil, List.mem_append] at hx
      rcases hx with (hx | hx) | hx
      · exact loc_utf8 h hv h1 a1 a2 x hx
      · exact loc_utf8 h hv h2 a3 a4 x hx
      · exact attrs_list (h.inv.edges.attrs e he) a5 x hx
    · obtain ⟨n, b, hn, rfl, hb, _⟩ := (rootSubsOf_ok hss).1 s hm
      obtain ⟨s', hs''⟩ := (isSub_get g n).1 (subBody_ok_isSub hb)
      intro x hx
      simp only [identsStmt, List.mem_cons] at hx
      rcases hx with rfl | hx
      · exact (hv.subs _ s' hs'').1
      · exact subBody_utf8 h.inv hv hb x hx
    · obtain ⟨n, _, hn⟩ := hns.mem_right hm
      obtain ⟨nd, hf, rfl⟩ := nodeStmtOf_ok h.inv hn
      exact nodeStmt_utf8 h.inv hv hf

/-! ### the text of an error -/

/-- An error has a UTF-8 message. -/
def EP {α : Type} (r : WRes α) : Prop := ∀ e, r = .err e → Utf8 e.msg

theorem EP.bind {α β : Type} {r : WRes α} {f : α → WRes β} (h : EP r) (hf : ∀ a, r = .ok a → EP (f a)) : EP (r.bind f) := by
  intro e he
  cases r with
  | ok a => exact hf a rfl e he
  | err e' => cases he; exact h _ rfl
  | panic => cases he
  | diverge => cases he

theorem EP.ok {α : Type} (a : α) : EP (.ok a) := fun _ h => nomatch h

theorem notNode_ep {α : Type} {n : Str} (h : Utf8 n) : EP (.err (.notNodeOrSubGraph n) : WRes α) := by
  intro e he
  cases he
  exact utf8_append h (utf8_ascii (by decide))

theorem port_ep {α : Type} {n : Str} (h : Utf8 n) : EP (.err (.subGraphPort n) : WRes α) := by
  intro e he
  cases he
  exact utf8_append (utf8_ascii (by decide)) h

theorem nodeStmt_ep (g : Graph) (wr : Written) (n : Str) : EP (newNodeStmt g wr n) := by
  unfold newNodeStmt
  split <;> intro e he <;> cases he

theorem childLoop_ep {g : Graph} {rec_ : Written → Str → WRes ((Str × List Stmt) × Written)} (hr : ∀ wr n, EP (rec_ wr n)) :
    ∀ (cs : List Str), (∀ c ∈ cs, Utf8 c) → ∀ wr, EP (childLoop g rec_ wr cs)
  | [], _, _ => EP.ok _
  | c :: cs, hc, wr => by
    simp only [childLoop]
    refine EP.bind ?_ fun r _ => EP.bind (childLoop_ep hr cs (fun c h => hc c (by simp [h])) _) fun _ _ => EP.ok _
    split
    · exact nodeStmt_ep _ _ _
    · split
      · exact EP.bind (hr _ _) fun _ _ => EP.ok _
      · exact notNode_ep (hc c (by simp))

theorem sub_ep {g : Graph} (hv : UG g) : ∀ (f : Nat) (wr : Written) (n : Str), EP (newSubGraph g f wr n)
  | 0, _, _ => fun _ h => nomatch h
  | f + 1, wr, n => by
    simp only [newSubGraph]
    split
    · intro e he; cases he
    · refine EP.bind (childLoop_ep (sub_ep hv f) _ (fun c hc => hv.child n c (mem_sortedChildren.1 hc)) _) fun _ _ => EP.ok _

theorem loc_ep {g : Graph} (hv : UG g) (f : Nat) (wr : Written) {n p : Str} (hn : Utf8 n) (hp : Utf8 p) : EP (newLocation g f wr n p) := by
  unfold newLocation
  split
  · refine EP.bind ?_ fun _ _ => EP.ok _
    unfold newNodeID
    split <;> intro e he <;> cases he
  split
  · split
    · exact port_ep hp
    · exact EP.ok _
  split
  · split
    · exact port_ep hp
    · exact EP.bind (sub_ep hv _ _ _) fun _ _ => EP.ok _
  · exact notNode_ep hn

theorem edges_ep {g : Graph} (hv : UG g) (f : Nat) : ∀ (es : List Edge), (∀ e ∈ es, e ∈ g.edges.edges) → ∀ wr, EP (edgeStmts g f wr es)
  | [], _, _ => EP.ok _
  | e :: es, he, wr => by
    simp only [edgeStmts]
    obtain ⟨a1, a2, a3, a4, _⟩ := hv.edges e (he e (by simp))
    refine EP.bind ?_ fun r _ => EP.bind (edges_ep hv f es (fun c h => he c (by simp [h])) _) fun _ _ => EP.ok _
    unfold newEdgeStmt
    exact EP.bind (loc_ep hv _ _ a1 a2) fun _ _ => EP.bind (loc_ep hv _ _ a3 a4) fun _ _ => EP.ok _

theorem rootSubs_ep {g : Graph} (hv : UG g) (f : Nat) : ∀ (ss : List (Option SubGraph)) (wr : Written), EP (rootSubs g f wr ss)
  | [], _ => EP.ok _
  | none :: _, _ => fun _ h => nomatch h
  | some s :: ss, wr => by
    simp only [rootSubs]
    split
    · exact EP.bind (sub_ep hv _ _ _) fun _ _ => EP.bind (rootSubs_ep hv f ss _) fun _ _ => EP.ok _
    · exact rootSubs_ep hv f ss _

theorem rootNodes_ep {g : Graph} : ∀ (ns : List (Option Node)) (wr : Written), EP (rootNodes g wr ns)
  | [], _ => EP.ok _
  | none :: _, _ => fun _ h => nomatch h
  | some n :: ns, wr => by
    simp only [rootNodes]
    split
    · exact EP.bind (nodeStmt_ep _ _ _) fun _ _ => EP.bind (rootNodes_ep ns _) fun _ _ => EP.ok _
    · exact rootNodes_ep ns _

theorem write_ep {g : Graph} (hv : UG g) {sortE : List Edge → List Edge} (hs : SortContract sortE) (f : Nat) : EP (writeAst sortE f g) := by
  unfold writeAst
  refine EP.bind (edges_ep hv f _ (fun e he => (hs.perm _).mem_iff.1 he) _) fun _ _ =>
    EP.bind (rootSubs_ep hv f _ _) fun _ _ => EP.bind (rootNodes_ep _ _) fun _ _ => EP.ok _

theorem string_utf8 {g : Graph} (h : Reachable g) (hv : UG g) {sortE : List Edge → List Edge} (hs : SortContract sortE) {f : Nat} {text : Str}
    (ht : graphString sortE f g = .ok text) : Utf8 text := by
  unfold graphString at ht
  rcases hw : writeAst sortE f g with t | e | _ | _ <;> rw [hw] at ht <;> cases ht
  · exact utf8_graph t (written_utf8 h hv hs hw)
  · exact utf8_append (utf8_ascii (by decide)) (write_ep hv hs f e hw)

/-! ### reading -/

mutual
theorem namesStmt_utf8 : (s : Stmt) → (∀ x ∈ identsStmt s, Utf8 x) → ∀ x ∈ namesStmt s, Utf8 x
  | .node n as => by
    intro h x hx
    simp only [namesStmt, List.mem_cons] at hx
    simp only [identsStmt, List.mem_append] at h
    rcases hx with rfl | hx
    · exact utf8_nodeID fun s hs => h s (.inl hs)
    · exact h x (.inr hx)
  | .edge src rhs as => by
    intro h x hx
    simp only [namesStmt, List.mem_append] at hx
    simp only [identsStmt, List.mem_append] at h
    rcases hx with (hx | hx) | hx
    · exact namesLoc_utf8 src (fun x hx => h x (.inl (.inl hx))) x hx
    · exact namesRHS_utf8 rhs (fun x hx => h x (.inl (.inr hx))) x hx
    · exact h x (.inr hx)
  | .nodeAttrs as => by intro h x hx; simp only [namesStmt] at hx; exact h x (by simpa only [identsStmt] using hx)
  | .edgeAttrs as => by intro h x hx; simp only [namesStmt] at hx; exact h x (by simpa only [identsStmt] using hx)
  | .graphAttrs as => by intro h x hx; simp only [namesStmt] at hx; exact h x (by simpa only [identsStmt] using hx)
  | .sub id body => by
    intro h x hx
    simp only [namesStmt, List.mem_cons] at hx
    simp only [identsStmt, List.mem_cons] at h
    rcases hx with rfl | hx
    · exact h _ (.inl rfl)
    · exact namesStmts_utf8 body (fun x hx => h x (.inr hx)) x hx
  | .attr a => by intro h x hx; simp only [namesStmt] at hx; exact h x (by simpa only [identsStmt] using hx)
theorem namesLoc_utf8 : (l : Loc) → (∀ x ∈ identsLoc l, Utf8 x) → ∀ x ∈ namesLoc l, Utf8 x
  | .node n => by
    intro h x hx
    simp only [namesLoc, List.mem_singleton] at hx
    subst hx
    exact h _ (by simp [identsLoc, identsNode])
  | .sub id body => by
    intro h x hx
    simp only [namesLoc, List.mem_cons] at hx
    simp only [identsLoc, List.mem_cons] at h
    rcases hx with rfl | hx
    · exact h _ (.inl rfl)
    · exact namesStmts_utf8 body (fun x hx => h x (.inr hx)) x hx
theorem namesRHS_utf8 : (r : List EdgeRH) → (∀ x ∈ identsRHS r, Utf8 x) → ∀ x ∈ namesRHS r, Utf8 x
  | [] => by intro h x hx; simp [namesRHS] at hx
  | .mk op d :: rest => by
    intro h x hx
    simp only [namesRHS, List.mem_append] at hx
    simp only [identsRHS, List.mem_append] at h
    rcases hx with hx | hx
    · exact namesLoc_utf8 d (fun x hx => h x (.inl hx)) x hx
    · exact namesRHS_utf8 rest (fun x hx => h x (.inr hx)) x hx
theorem namesStmts_utf8 : (ss : List Stmt) → (∀ x ∈ identsStmts ss, Utf8 x) → ∀ x ∈ namesStmts ss, Utf8 x
  | [] => by intro h x hx; simp [namesStmts] at hx
  | s :: ss => by
    intro h x hx
    simp only [namesStmts, List.mem_append] at hx
    simp only [identsStmts, List.mem_append] at h
    rcases hx with hx | hx
    · exact namesStmt_utf8 s (fun x hx => h x (.inl hx)) x hx
    · exact namesStmts_utf8 ss (fun x hx => h x (.inr hx)) x hx
end

theorem mem_identsStmts {ss : List Stmt} {s : Stmt} (hs : s ∈ ss) {x : Str} (hx : x ∈ identsStmt s) : x ∈ identsStmts ss :=
  (identsStmts_iff (P := (· ∈ identsStmts ss)) ss).1 (fun _ h => h) s hs x hx

theorem dests_idents {rhs : List EdgeRH} {l : Loc} (h : l ∈ dests rhs) {x : Str} (hx : x ∈ identsLoc l) : x ∈ identsRHS rhs := by
  induction rhs with
  | nil => cases h
  | cons r rest ih =>
    obtain ⟨op, d⟩ := r
    simp only [dests, List.mem_cons] at h
    simp only [identsRHS, List.mem_append]
    rcases h with rfl | h
    · exact .inl hx
    · exact .inr (ih h)

theorem ends_idents {src : Loc} {rhs : List EdgeRH} {as : AttrList} {l : Loc} (h : l ∈ src :: dests rhs) {x : Str} (hx : x ∈ identsLoc l) :
    x ∈ identsStmt (.edge src rhs as) := by
  simp only [identsStmt, List.mem_append]
  rcases List.mem_cons.1 h with rfl | h
  · exact .inl (.inl hx)
  · exact .inl (.inr (dests_idents h hx))

theorem occurs_idents {t : Ast.Graph} {sc : Scope} {pre : List Stmt} {s : Stmt} (h : Occurs t sc pre s) : ∀ x ∈ identsStmt s, x ∈ idents t := by
  induction h with
  | root h => intro x hx; simp only [idents, List.mem_cons]; exact .inr (mem_identsStmts (by rw [h]; simp) hx)
  | inSub _ h ih =>
    intro x hx
    refine ih x ?_
    simp only [identsStmt, List.mem_cons]
    exact .inr (mem_identsStmts (by rw [h]; simp) hx)
  | inEnd _ hl h ih =>
    intro x hx
    refine ih x (ends_idents hl ?_)
    simp only [identsLoc, List.mem_cons]
    exact .inr (mem_identsStmts (by rw [h]; simp) hx)

theorem getPort_utf8 {l : Loc} (h : ∀ x ∈ identsLoc l, Utf8 x) : Utf8 (Ast.portStr l.getPort) := by
  cases l with
  | node n => exact utf8_port (h _ (by simp [identsLoc, identsNode, Loc.getPort])) (h _ (by simp [identsLoc, identsNode, Loc.getPort]))
  | sub id body => exact utf8_port utf8_nil utf8_nil

theorem chain_ports {sc : Scope} {pre : List Stmt} {m : Map Str} : ∀ (rhs : List EdgeRH) (seen : List Str) (prev : Loc) {s sp d dp : Str} {dir : Bool} {as : Map Str},
    Call.addPortEdge s sp d dp dir as ∈ chainCalls sc pre m seen prev rhs → (∀ l ∈ prev :: dests rhs, Utf8 (Ast.portStr l.getPort)) → Utf8 sp ∧ Utf8 dp
  | [], _, _, _, _, _, _, _, _, hx, _ => by simp [chainCalls] at hx
  | .mk op e :: rest, seen, prev, s, sp, d, dp, dir, as, hx, hl => by
    simp only [chainCalls, List.mem_append, List.mem_singleton] at hx
    rcases hx with (hx | hx) | hx
    · cases e with
      | node n => simp only [createCall] at hx; split at hx <;> simp at hx
      | sub id body => simp [createCall] at hx
    · injection hx with _ h1 _ h2
      rw [h1, h2]
      exact ⟨hl _ (by simp), hl _ (by simp [dests])⟩
    · exact chain_ports rest _ e hx fun l h => hl l (by simp only [dests]; exact List.mem_cons_of_mem _ h)

theorem calls_utf8 {t : Ast.Graph} (h : ∀ s ∈ idents t, Utf8 s) : ∀ op ∈ (treeCalls t).map callOp, ∀ s ∈ argTexts op, Utf8 s := by
  have hn : ∀ s ∈ namesDoc t, Utf8 s := by
    intro s hs
    simp only [namesDoc, List.mem_cons] at hs
    simp only [idents, List.mem_cons] at h
    rcases hs with rfl | hs
    · exact h _ (.inl rfl)
    · exact namesStmts_utf8 _ (fun x hx => h x (.inr hx)) s hs
  have hP := EscAn.treeP (P := Utf8) hn
  intro op ho s hs
  obtain ⟨x, hx, rfl⟩ := List.mem_map.1 ho
  have hp := hP x hx
  have hm : ∀ {m : Map Str}, EscAn.MapP Utf8 m → ∀ v ∈ m.map (·.2), Utf8 v := by
    intro m hm v hv
    obtain ⟨e, he, rfl⟩ := List.mem_map.1 hv
    exact (hm e he).2
  cases x with
  | setStrict b => simp [callOp, argTexts] at hs
  | setDir b => simp [callOp, argTexts] at hs
  | setName n =>
    simp only [callOp, argTexts, List.mem_singleton] at hs
    subst hs; exact hp
  | addPortEdge a ap b bp dir m =>
    obtain ⟨h1, h2, h3⟩ := hp
    have hports : Utf8 ap ∧ Utf8 bp := by
      simp only [treeCalls, List.mem_append, List.mem_cons, List.not_mem_nil, or_false, reduceCtorEq, false_or] at hx
      obtain ⟨sc, pre, s', hocc, hown⟩ := treeCalls_origin hx
      have hid := fun x hx => h x (occurs_idents hocc x hx)
      cases s' with
      | edge src rhs as =>
        rcases hown with hx | hx | ⟨id, body, _, hx⟩
        · cases src with
          | node n => simp only [createCall] at hx; split at hx <;> simp at hx
          | sub id body => simp [createCall] at hx
        · exact chain_ports rhs _ src hx fun l hl => getPort_utf8 fun x hx => hid x (ends_idents hl hx)
        · cases hx
      | sub id body => cases hown
      | node id as => simp [OwnCall, stmtCalls] at hown
      | nodeAttrs as => simp [OwnCall, stmtCalls] at hown
      | edgeAttrs as => simp [OwnCall, stmtCalls] at hown
      | graphAttrs as => simp [OwnCall, stmtCalls] at hown
      | attr a => simp [OwnCall, stmtCalls] at hown
    simp only [callOp, argTexts, List.mem_cons] at hs
    rcases hs with rfl | rfl | rfl | rfl | hs
    · exact h1
    · exact hports.1
    · exact h2
    · exact hports.2
    · exact hm h3 s hs
  | addNode p n m =>
    obtain ⟨h1, h2, h3⟩ := hp
    simp only [callOp, argTexts, List.mem_cons] at hs
    rcases hs with rfl | hs
    · exact h2
    · exact hm h3 s hs
  | addAttr p k v =>
    simp only [callOp, argTexts, List.mem_singleton] at hs
    subst hs; exact hp.2.2
  | addSubGraph p n m =>
    obtain ⟨h1, h2, h3⟩ := hp
    simp only [callOp, argTexts, List.mem_cons] at hs
    rcases hs with rfl | hs
    · exact h2
    · exact hm h3 s hs

/-! ### escaping -/

theorem high_bytes {r : Nat} {bs : Str} (h : Encodes r bs) : (r < 0x80 ∧ bs = [r]) ∨ ∀ b ∈ bs, 0x80 ≤ b := by
  cases h with
  | one h => exact .inl ⟨h, rfl⟩
  | two _ _ _ => right; simp; omega
  | three _ _ _ _ _ => right; simp; omega
  | four _ _ _ _ _ _ => right; simp; omega

theorem utf8_flatMap {f : Nat → Str} (hlow : ∀ b, b < 0x80 → Utf8 (f b)) (hhigh : ∀ b, 0x80 ≤ b → f b = [b]) {s : Str} (h : Utf8 s) :
    Utf8 (s.flatMap f) := by
  obtain ⟨rs, h⟩ := h
  induction h with
  | nil => exact utf8_nil
  | @char r rs bs s he _ ih =>
    rw [List.flatMap_append]
    refine utf8_append ?_ ih
    rcases high_bytes he with ⟨hr, rfl⟩ | hb
    · simpa using hlow r hr
    · have : bs.flatMap f = bs := by
        clear he
        induction bs with
        | nil => rfl
        | cons b bs ih' => rw [List.flatMap_cons, hhigh b (hb b (by simp)), ih' fun x hx => hb x (by simp [hx])]; rfl
      rw [this]
      simpa using utf8_append ⟨_, .char he .nil⟩ utf8_nil

theorem utf8_html {s : Str} (h : Utf8 s) : Utf8 (htmlEscaped s) := by
  refine utf8_flatMap (fun b hb => ?_) (fun b hb => ?_) h
  · have : ∀ b, b < 0x80 → b ≠ 0 → ∀ x ∈ (htmlEntities.lookup b).getD [b], x < 0x80 := by decide +kernel
    by_cases h0 : b = 0
    · subst h0
      exact ⟨[0xFFFD], .char (bs := [0xEF, 0xBF, 0xBD]) (.three (x := 15) (y := 63) (z := 61) (by omega) (by omega) (by omega) (by omega) (by omega)) .nil⟩
    · exact utf8_ascii (this b hb h0)
  · have : htmlEntities.lookup b = none := by
      rw [List.lookup_eq_none_iff]
      intro e he
      have h1 : ∀ e ∈ htmlEntities, e.1 < 0x80 := by decide
      have := h1 e he
      simp; omega
    rw [this]; rfl

theorem utf8_quote {s : Str} (h : Utf8 s) : Utf8 (quoteEscaped s) := by
  refine utf8_flatMap (fun b hb => ?_) (fun b hb => ?_) h
  · split
    · exact utf8_ascii (by decide)
    · exact utf8_ascii (by simpa using hb)
  · rw [if_neg (by omega)]

theorem esc_utf8 {U : Unicode} {s s' : Str} (he : esc U s = some s') (h : Utf8 s) : Utf8 s' := by
  rcases (C63_escape_text U s s').1 he with ⟨_, rfl⟩ | ⟨_, _, ⟨_, rfl⟩ | ⟨_, _, rfl⟩ | ⟨_, _, rfl⟩⟩
  · exact utf8_nil
  · exact h
  · exact utf8_append (utf8_append (utf8_ascii (by decide)) (utf8_quote h)) (utf8_ascii (by decide))
  · exact utf8_append (utf8_append (utf8_ascii (by decide)) (utf8_html h)) (utf8_ascii (by decide))

theorem escMap_utf8 {U : Unicode} {as as' : List (Str × Str)} (hm : EscapedMap (esc U) as as') (h : ∀ v ∈ as.map (·.2), Utf8 v) : ∀ v ∈ as'.map (·.2), Utf8 v := by
  intro v' hv
  obtain ⟨v, h1, h2⟩ := escapedMap_values hm hv
  exact esc_utf8 h2 (h v h1)

theorem escCall_utf8 {U : Unicode} {op op' : Op} (ho : EscapedCall (esc U) op op') (h : ∀ s ∈ argTexts op, Utf8 s) : ∀ s ∈ argTexts op', Utf8 s := by
  cases op with
  | setName n =>
    obtain ⟨n', hn, rfl⟩ := ho
    simp only [argTexts, List.mem_singleton, forall_eq] at h ⊢
    exact esc_utf8 hn h
  | addPortEdge s sp d dp dir as =>
    obtain ⟨_, _, as', h1, h2, hm, rfl⟩ := ho
    simp only [argTexts, List.mem_cons, forall_eq_or_imp] at h ⊢
    exact ⟨esc_utf8 h1 h.1, h.2.1, esc_utf8 h2 h.2.2.1, h.2.2.2.1, escMap_utf8 hm h.2.2.2.2⟩
  | addEdge s d dir as =>
    obtain ⟨_, _, as', h1, h2, hm, rfl⟩ := ho
    simp only [argTexts, List.mem_cons, forall_eq_or_imp] at h ⊢
    exact ⟨esc_utf8 h1 h.1, esc_utf8 h2 h.2.1, escMap_utf8 hm h.2.2⟩
  | addNode p n as =>
    obtain ⟨_, n', as', _, hn, hm, rfl⟩ := ho
    simp only [argTexts, List.mem_cons, forall_eq_or_imp] at h ⊢
    exact ⟨esc_utf8 hn h.1, escMap_utf8 hm h.2⟩
  | addSubGraph p n as =>
    obtain ⟨_, n', as', _, hn, hm, rfl⟩ := ho
    simp only [argTexts, List.mem_cons, forall_eq_or_imp] at h ⊢
    exact ⟨esc_utf8 hn h.1, escMap_utf8 hm h.2⟩
  | addAttr p f v =>
    obtain ⟨_, _, v', _, _, hv, rfl⟩ := ho
    simp only [argTexts, List.mem_singleton, forall_eq] at h ⊢
    exact esc_utf8 hv h
  | setStrict b => cases ho; exact fun s' hs => by cases hs
  | setDir b => cases ho; exact fun s' hs => by cases hs
  | removeNode p n => cases ho; exact fun s' hs => by cases hs
  | removeSubGraph p n o => cases ho; exact fun s' hs => by cases hs

/-- What `Parse` did, as a number: 1 for a syntax tree, 2 for a syntax error. -/
def accepted (src : Str) : Bool := match parseBytes (fun k => k) 0 src with
  | .ok _ _ => true
  | _ => false

theorem accepted_ok {src : Str} (h : accepted src = true) : ∃ t n, parseBytes (fun k => k) 0 src = .ok t n := by
  unfold accepted at h
  split at h
  · exact ⟨_, _, by assumption⟩
  · cases h

theorem accepted_not {src : Str} (h : accepted src = false) : ¬ ∃ t n, parseBytes (fun k => k) 0 src = .ok t n := by
  rintro ⟨t, n, e⟩
  unfold accepted at h
  rw [e] at h
  cases h

end Enc

open Enc

/-- C96. The text printed for a syntax tree is in UTF-8 if the identifiers in the tree are. For every tree. -/
theorem C96_printed (t : Ast.Graph) (h : ∀ s ∈ idents t, Utf8 s) : Utf8 (Ast.graphStr t) := utf8_graph t h

/-- C96. In a text that `Parse` accepts only comments have bytes that are not UTF-8, NUL or U+FFFD: it consists of comments and of clean UTF-8. The tokens of
the text and the identifiers in the syntax tree are clean UTF-8. -/
theorem C96_parsed (rnd : Nat → Nat) (cnt : Nat) (src : Str) {t : Ast.Graph} {n : Nat} (h : parseBytes rnd cnt src = .ok t n) :
    CleanButComments src ∧ (∀ s ∈ idents t, CleanUtf8 s) ∧ ∃ ts, Lex.tokens src = some ts ∧ ∀ tok ∈ ts, CleanUtf8 tok.lit := by
  obtain ⟨ts0, h1, h2, _⟩ := C45_verbatim rnd cnt src h
  obtain ⟨ts, e, h3, h4, _⟩ := source_spec rnd cnt src
  obtain ⟨T, hT, hy⟩ := (C35_source_accepts rnd cnt src h3).1 ⟨t, n, h⟩
  rw [h1] at h3
  cases h3
  obtain ⟨ts', h5, h6, _⟩ := C33_total src
  rw [h1] at h5
  cases h5
  have hc := tokensOf_clean h6 (fun tok ht => by
    rcases List.mem_append.1 ht with ht | ht
    · rw [← hy] at ht; exact no_invalid hT tok ht
    · rw [List.mem_singleton.1 ht, h4]; decide)
  refine ⟨hc.1, fun s hs => ?_, _, h1, hc.2⟩
  rcases h2 s hs with rfl | rfl | ⟨k, _, _, rfl⟩ | ⟨tok, ht, _, rfl, _⟩
  · exact clean_nil
  · exact clean_ascii (by decide)
  · exact tokenText_clean (t := 18) (.inr (.inr ⟨rfl, (anonName_valid _).1⟩))
  · exact hc.2 tok ht

/-- C96. Formatting: the text printed for a parsed text is in UTF-8, whatever bytes the comments had. -/
theorem C96_formatted (rnd : Nat → Nat) (cnt : Nat) (src : Str) {t : Ast.Graph} {n : Nat} (h : parseBytes rnd cnt src = .ok t n) : Utf8 (Ast.graphStr t) :=
  utf8_graph t fun s hs => CleanUtf8.utf8 ((C96_parsed rnd cnt src h).2.1 s hs)

/-- C96. A graph built by any history of calls with UTF-8 names, ports and attribute values is written in UTF-8 (if it cannot be written, the error text that
`String` returns is in UTF-8 as well). Attribute names need no assumption. -/
theorem C96_written (ops : List Op) (hok : OkHistory newGraph ops) (hargs : ∀ op ∈ ops, ∀ s ∈ argTexts op, Utf8 s)
    {sortE : List Edge → List Edge} (hs : SortContract sortE) {f : Nat} {text : Str} (ht : graphString sortE f (newGraph.run ops) = .ok text) : Utf8 text :=
  string_utf8 (Reachable.init.run hok) (ug_of_args ops hok hargs) hs ht

/-- C96. Reading any text and writing the graph gives UTF-8. -/
theorem C96_read (rnd : Nat → Nat) (cnt : Nat) (src : Str) {g : Graph} (h : Parse.read rnd cnt src = .ok g)
    {sortE : List Edge → List Edge} (hs : SortContract sortE) {f : Nat} {text : Str} (ht : graphString sortE f g = .ok text) : Utf8 text := by
  unfold Parse.read at h
  split at h <;> try (cases h)
  rename_i t n hp
  split at h <;> cases h
  rename_i ha
  obtain ⟨hg, hok⟩ := analysed_run ha
  rw [hg] at ht
  exact C96_written _ hok (calls_utf8 fun s hs => CleanUtf8.utf8 ((C96_parsed rnd cnt src hp).2.1 s hs)) hs ht

/-- C96. Escaping a UTF-8 text gives a UTF-8 text, for every classification of the letters and digits above U+007F; so a graph built through `Escape` from
UTF-8 texts is written in UTF-8. -/
theorem C96_escaped (U : Unicode) : (∀ s s' : Str, Utf8 s → esc U s = some s' → Utf8 s') ∧
    ∀ (ops : List Op), EscOkHistory U newGraph ops → (∀ op ∈ ops, ∀ s ∈ argTexts op, Utf8 s) →
      ∀ (g : Graph) (errs : List (Option Err)), escRun U newGraph ops = some (g, errs) →
      ∀ (sortE : List Edge → List Edge), SortContract sortE → ∀ (f : Nat) (text : Str), graphString sortE f g = .ok text → Utf8 text := by
  refine ⟨fun s s' h he => esc_utf8 he h, fun ops hok hargs g errs hrun sortE hs f text ht => ?_⟩
  obtain ⟨ops', hf, rfl, -⟩ := (C32_escape_is_graph U newGraph g ops errs).1 hrun
  refine C96_written ops' (escOk_ok hf hok) (fun op' ho' => ?_) hs ht
  obtain ⟨op, ho, hesc⟩ := hf.mem_right ho'
  exact escCall_utf8 hesc (hargs op ho)

/-- C96. The comment in dot.bnf (line 102) says that identifiers may have the bytes 0x80 to 0xFF, as in the published language; but a name in Latin-1 is a syntax error, and so is
an HTML string with a character above U+00FF. In a comment every byte is accepted. -/
theorem C96_latin1 :
    (¬ ∃ t n, parseBytes (fun k => k) 0 (b!"graph{caf" ++ [0xE9] ++ b!"}") = .ok t n) ∧
    (∃ t n, parseBytes (fun k => k) 0 (b!"graph{caf" ++ [0xC3, 0xA9] ++ b!"}") = .ok t n) ∧
    (¬ ∃ t n, parseBytes (fun k => k) 0 (b!"graph{a=<" ++ [0xC4, 0x81] ++ b!">}") = .ok t n) ∧
    (∃ t n, parseBytes (fun k => k) 0 (b!"graph{a=\"" ++ [0xC4, 0x81] ++ b!"\"}") = .ok t n) ∧
    (∃ t n, parseBytes (fun k => k) 0 (b!"graph{/*" ++ [0xFF, 0x00, 0xE9] ++ b!"*/}") = .ok t n) :=
  ⟨accepted_not (by decide +kernel), accepted_ok (by decide +kernel), accepted_not (by decide +kernel), accepted_ok (by decide +kernel), accepted_ok (by decide +kernel)⟩

namespace Enc

/-- `é` and `ā`, in UTF-8. -/
def utfOps : List Op := [.setName (b!"G"), .addSubGraph (b!"G") [0xC3, 0xA9] [(b!"label", [0xC4, 0x81])], .addNode [0xC3, 0xA9] (b!"a") [],
  .addPortEdge (b!"a") [0xC3, 0xA9] (b!"a") [] true []]

/-- The same character, in Latin-1. -/
def latinOps : List Op := [.addNode [] [0xE9] []]

theorem utf_e : Utf8 [0xC3, 0xA9] := ⟨[233], .char (bs := [0xC3, 0xA9]) (.two (x := 3) (y := 41) (by omega) (by omega) (by omega)) .nil⟩
theorem utf_a : Utf8 [0xC4, 0x81] := ⟨[257], .char (bs := [0xC4, 0x81]) (.two (x := 4) (y := 1) (by omega) (by omega) (by omega)) .nil⟩

def textOf (ops : List Op) : Option Str := match graphString edgeInsertionSort 3 (newGraph.run ops) with
  | .ok t => some t
  | _ => none

theorem textOf_ok {ops : List Op} {s : Str} (h : textOf ops = some s) : graphString edgeInsertionSort 3 (newGraph.run ops) = .ok s := by
  unfold textOf at h
  split at h <;> simp at h
  subst h
  assumption

theorem not_utf8 {b c : Nat} {rest : Str} (hb : 0xC0 ≤ b) (hc : c < 0x80) : ¬ Utf8 (b :: c :: rest) := by
  rintro ⟨rs, h⟩
  generalize hs : b :: c :: rest = s at h
  cases h with
  | nil => cases hs
  | char he _ =>
    cases he with
    | one h => simp at hs; omega
    | two _ _ _ => simp at hs; omega
    | three _ _ _ _ _ => simp at hs; omega
    | four _ _ _ _ _ _ => simp at hs; omega

end Enc

/-- C96. The assumption on the arguments is met by this history, whose text is not ASCII; and it is needed: `String` copies a Latin-1 name as it is. -/
theorem example_utf8 :
    (OkHistory newGraph utfOps ∧ (∀ op ∈ utfOps, ∀ s ∈ argTexts op, Utf8 s) ∧
      ∃ text, graphString edgeInsertionSort 3 (newGraph.run utfOps) = .ok text ∧ 0xA9 ∈ text) ∧
    (OkHistory newGraph latinOps ∧ ∃ text, graphString edgeInsertionSort 3 (newGraph.run latinOps) = .ok text ∧ ¬ Utf8 text) := by
  refine ⟨⟨by decide +kernel, ?_, _, textOf_ok (by rfl), by decide +kernel⟩, by decide +kernel, _, textOf_ok (by rfl), ?_⟩
  · intro op ho s hs
    simp only [utfOps, List.mem_cons, List.not_mem_nil, or_false] at ho
    rcases ho with rfl | rfl | rfl | rfl <;> simp only [argTexts, List.map_cons, List.map_nil, List.mem_cons, List.not_mem_nil, or_false] at hs
    · subst hs; exact utf8_ascii (by decide)
    · rcases hs with rfl | rfl
      · exact utf_e
      · exact utf_a
    · subst hs; exact utf8_ascii (by decide)
    · rcases hs with rfl | rfl | rfl | rfl
      · exact utf8_ascii (by decide)
      · exact utf_e
      · exact utf8_ascii (by decide)
      · exact utf8_nil
  · intro h
    exact not_utf8 (b := 0xE9) (c := 59) (rest := b!"\n}\n") (by omega) (by omega)
      (utf8_split h (a := b!"graph  {\n\t") (b := [0xE9, 59] ++ b!"\n}\n") (by decide +kernel) (by rintro x y e; cases e; decide)).2

end Gographviz.Props
