import Verif.Proofs.Write
import Verif.Spec.Writing
/-!
What the writer produces, and when it fails or diverges.
-/
namespace Gographviz

open Spec
open Ast (Stmt Loc EdgeRH)

/-! ### attribute lists -/

theorem putMap_eq {a : Attrs} (h : MapWF a) : Ast.putMap (attrsCopy a) = attrsAsList a := by
  unfold Ast.putMap attrsCopy attrsAsList
  rw [msetAll_empty h, mkeys_ssort h]
  congr 1
  unfold mkeys
  rw [List.map_map]
  apply List.map_congr_left
  intro e he
  simp only [Function.comp, Ast.Attr.mk.injEq, true_and, mgetS]
  rw [mget_of_mem h he]; rfl

theorem attrStmts_eq {a : Attrs} (h : MapWF a) : attrStmts a = attrsAsStmts a := by
  unfold attrStmts attrsAsStmts sortedNames
  rw [mkeys_ssort h]
  unfold mkeys
  rw [List.map_map]
  apply List.map_congr_left
  intro e he
  simp only [Function.comp, mgetS]
  rw [mget_of_mem h he]; rfl

theorem getMap_attrsAsList {a : Attrs} (h : MapWF a) : Ast.getMap (attrsAsList a) = a := by
  unfold Ast.getMap attrsAsList Ast.getMapFrom
  simp only [List.map_map, Ast.getMapFrom]
  have : (List.map ((fun a => (a.field, a.value)) ∘ fun (e : Str × Str) => ({ field := e.1, value := e.2 } : Ast.Attr)) a) = a := by
    have : ((fun a => (a.field, a.value)) ∘ fun (e : Str × Str) => ({ field := e.1, value := e.2 } : Ast.Attr)) = id := rfl
    rw [this, List.map_id]
  rw [this, msetAll_empty h]

theorem find_attrs {g : Graph} (h : GInv g) {n : Str} {nd : Node} (hf : g.nodes.find n = some nd) : AttrsOk nd.attrs :=
  (h.nodes.find_name hf).2

/-! ### the statements of a written body -/

theorem allStmts_append (a b : List Stmt) : allStmts (a ++ b) = allStmts a ++ allStmts b := by
  induction a with
  | nil => rfl
  | cons s a ih => simp [allStmts, ih]

theorem allStmts_attrs (a : Attrs) : allStmts (attrsAsStmts a) = attrsAsStmts a := by
  unfold attrsAsStmts
  induction a with
  | nil => rfl
  | cons e a ih => simp [allStmts, allStmt, ih]

theorem mem_allStmts {ss : List Stmt} {x : Stmt} : x ∈ allStmts ss ↔ ∃ s ∈ ss, x ∈ allStmt s := by
  induction ss with
  | nil => simp [allStmts]
  | cons s ss ih => simp [allStmts, ih]

theorem self_mem_allStmt (s : Stmt) : s ∈ allStmt s := by cases s <;> simp [allStmt]

theorem mem_allStmts_of_mem {ss : List Stmt} {s : Stmt} (h : s ∈ ss) : s ∈ allStmts ss :=
  mem_allStmts.2 ⟨s, h, self_mem_allStmt s⟩

/-- Statements that may occur inside a written subgraph. -/
def InnerOk (g : Graph) : Stmt → Prop
  | .node id as => id.port = ⟨[], []⟩ ∧ ∃ nd, g.nodes.find id.id = some nd ∧ as = attrsAsList nd.attrs
  | .sub id body => SubFaithful g id body
  | .attr _ => True
  | _ => False

theorem nodeStmtOf_ok {g : Graph} (h : GInv g) {c : Str} {s : Stmt} (hs : nodeStmtOf g c = .ok s) :
    ∃ nd, g.nodes.find c = some nd ∧ s = .node ⟨c, ⟨[], []⟩⟩ (attrsAsList nd.attrs) := by
  unfold nodeStmtOf at hs
  cases hf : g.nodes.find c with
  | none => rw [hf] at hs; cases hs
  | some nd =>
    rw [hf] at hs
    cases hs
    exact ⟨nd, rfl, by rw [putMap_eq (find_attrs h hf).wf]⟩

theorem childOf_ok {g : Graph} (h : GInv g) {body : Str → WRes (List Stmt)} {c : Str} {s : Stmt}
    (hs : childOf g body c = .ok s) :
    DirectChild g c s ∧ ((∃ nd, s = .node ⟨c, ⟨[], []⟩⟩ (attrsAsList nd.attrs) ∧ g.nodes.find c = some nd) ∨
      (∃ b, body c = .ok b ∧ s = .sub c b ∧ g.isNode c = false ∧ g.isSubGraph c = true)) := by
  unfold childOf at hs
  split at hs
  · rename_i hn
    obtain ⟨nd, hf, rfl⟩ := nodeStmtOf_ok h hs
    exact ⟨⟨rfl, nd, hf, rfl⟩, .inl ⟨nd, rfl, hf⟩⟩
  · rename_i hn
    split at hs
    · rename_i hsub
      obtain ⟨b, hb, h'⟩ := WRes.bind_eq_ok.1 hs
      cases h'
      have hn : g.isNode c = false := by simpa using hn
      exact ⟨⟨rfl, hn, hsub⟩, .inr ⟨b, hb, rfl, hn, hsub⟩⟩
    · cases hs

theorem mem_sortedChildren {g : Graph} {p c : Str} : c ∈ g.relations.sortedChildren p ↔ mhas (g.relations.children p) c = true := by
  unfold Relations.sortedChildren
  rw [ssort_mem, mhas_iff]

theorem subBody_ok {g : Graph} (h : GInv g) {f : Nat} {n : Str} {b : List Stmt} (hb : subBody g f n = .ok b) :
    SubFaithful g n b ∧ (∀ s ∈ allStmts b, InnerOk g s) ∧
    (∀ id as, Stmt.node id as ∈ allStmts b → ∃ m body, Stmt.sub m body ∈ Stmt.sub n b :: allStmts b ∧
      mhas (g.relations.children m) id.id = true) := by
  induction f generalizing n b with
  | zero => cases hb
  | succ f ih =>
    simp only [subBody] at hb
    cases hs : mget g.subGraphs n with
    | none => rw [hs] at hb; cases hb
    | some sub =>
      rw [hs] at hb
      simp only at hb
      obtain ⟨cs, hcs, h'⟩ := WRes.bind_eq_ok.1 hb
      cases h'
      have hall := mapW_ok.1 hcs
      have hw : MapWF sub.attrs := (h.subs.attrs n sub hs).wf
      rw [attrStmts_eq hw]
      refine ⟨⟨sub, hs, cs, rfl, hall.imp fun c s hc => (childOf_ok h hc).1⟩, ?_, ?_⟩
      · intro s hs'
        rw [allStmts_append, allStmts_attrs, List.mem_append] at hs'
        rcases hs' with hs' | hs'
        · obtain ⟨e, _, rfl⟩ := List.mem_map.1 hs'
          trivial
        · obtain ⟨s0, hs0, hin⟩ := mem_allStmts.1 hs'
          obtain ⟨c, hc, hcc⟩ := hall.mem_right hs0
          rcases (childOf_ok h hcc).2 with ⟨nd, rfl, hf⟩ | ⟨b, hb, rfl, _⟩
          · simp only [allStmt, List.mem_singleton] at hin
            subst hin
            exact ⟨rfl, nd, hf, rfl⟩
          · have := ih hb
            simp only [allStmt, List.mem_cons] at hin
            rcases hin with rfl | hin
            · exact this.1
            · exact this.2.1 s hin
      · intro id as hin
        rw [allStmts_append, allStmts_attrs, List.mem_append] at hin
        rcases hin with hin | hin
        · obtain ⟨e, _, he⟩ := List.mem_map.1 hin
          cases he
        · obtain ⟨s0, hs0, hin⟩ := mem_allStmts.1 hin
          obtain ⟨c, hc, hcc⟩ := hall.mem_right hs0
          rcases (childOf_ok h hcc).2 with ⟨nd, rfl, hf⟩ | ⟨b, hb, rfl, _⟩
          · simp only [allStmt, List.mem_singleton, Stmt.node.injEq] at hin
            obtain ⟨rfl, rfl⟩ := hin
            exact ⟨n, _, List.mem_cons_self .., mem_sortedChildren.1 hc⟩
          · have := (ih hb).2.2
            simp only [allStmt, List.mem_cons] at hin
            rcases hin with hin | hin
            · cases hin
            · obtain ⟨m, body, hm, hc'⟩ := this id as hin
              refine ⟨m, body, List.mem_cons_of_mem _ ?_, hc'⟩
              rw [allStmts_append, List.mem_append]
              right
              exact mem_allStmts.2 ⟨_, hs0, hm⟩

/-! ### marks are the names of the statements -/

mutual
theorem mem_marks (x : Str) : (s : Stmt) → (x ∈ marks s ↔
    (∃ id as, Stmt.node id as ∈ allStmt s ∧ id.id = x) ∨ (∃ body, Stmt.sub x body ∈ allStmt s))
  | .node id as => by
    simp only [marks, allStmt, List.mem_singleton, Stmt.node.injEq, reduceCtorEq, exists_false, or_false]
    constructor
    · rintro rfl; exact ⟨id, as, ⟨rfl, rfl⟩, rfl⟩
    · rintro ⟨_, _, ⟨rfl, rfl⟩, rfl⟩; rfl
  | .sub id body => by
    have := mem_marksL x body
    simp only [marks, allStmt, List.mem_cons, this, reduceCtorEq, false_or, Stmt.sub.injEq]
    constructor
    · rintro (rfl | h | ⟨b, h⟩)
      · exact .inr ⟨body, .inl ⟨rfl, rfl⟩⟩
      · exact .inl h
      · exact .inr ⟨b, .inr h⟩
    · rintro (h | ⟨b, ⟨rfl, _⟩ | h⟩)
      · exact .inr (.inl h)
      · exact .inl rfl
      · exact .inr (.inr ⟨b, h⟩)
  | .edge src rhs as => by
    have h1 := mem_marksLoc x src
    have h2 := mem_marksRHS x rhs
    simp only [marks, allStmt, List.mem_append, List.mem_cons, h1, h2, reduceCtorEq, false_or]
    constructor
    · rintro ((⟨i, a, h⟩ | ⟨b, h⟩) | (⟨i, a, h⟩ | ⟨b, h⟩))
      · exact .inl ⟨i, a, .inl h.1, h.2⟩
      · exact .inr ⟨b, .inl h⟩
      · exact .inl ⟨i, a, .inr h.1, h.2⟩
      · exact .inr ⟨b, .inr h⟩
    · rintro (⟨i, a, h | h, hx⟩ | ⟨b, h | h⟩)
      · exact .inl (.inl ⟨i, a, h, hx⟩)
      · exact .inr (.inl ⟨i, a, h, hx⟩)
      · exact .inl (.inr ⟨b, h⟩)
      · exact .inr (.inr ⟨b, h⟩)
  | .nodeAttrs _ => by simp [marks, allStmt]
  | .edgeAttrs _ => by simp [marks, allStmt]
  | .graphAttrs _ => by simp [marks, allStmt]
  | .attr _ => by simp [marks, allStmt]
theorem mem_marksLoc (x : Str) : (l : Loc) → (x ∈ marksLoc l ↔
    (∃ id as, Stmt.node id as ∈ allLoc l ∧ id.id = x) ∨ (∃ body, Stmt.sub x body ∈ allLoc l))
  | .node _ => by simp [marksLoc, allLoc]
  | .sub id body => by
    have := mem_marksL x body
    simp only [marksLoc, allLoc, List.mem_cons, this, reduceCtorEq, false_or, Stmt.sub.injEq]
    constructor
    · rintro (rfl | h | ⟨b, h⟩)
      · exact .inr ⟨body, .inl ⟨rfl, rfl⟩⟩
      · exact .inl h
      · exact .inr ⟨b, .inr h⟩
    · rintro (h | ⟨b, ⟨rfl, _⟩ | h⟩)
      · exact .inr (.inl h)
      · exact .inl rfl
      · exact .inr (.inr ⟨b, h⟩)
theorem mem_marksRHS (x : Str) : (l : List EdgeRH) → (x ∈ marksRHS l ↔
    (∃ id as, Stmt.node id as ∈ allRHS l ∧ id.id = x) ∨ (∃ body, Stmt.sub x body ∈ allRHS l))
  | [] => by simp [marksRHS, allRHS]
  | .mk op dst :: rest => by
    have h1 := mem_marksLoc x dst
    have h2 := mem_marksRHS x rest
    simp only [marksRHS, allRHS, List.mem_append, h1, h2]
    constructor
    · rintro ((⟨i, a, h⟩ | ⟨b, h⟩) | (⟨i, a, h⟩ | ⟨b, h⟩))
      · exact .inl ⟨i, a, .inl h.1, h.2⟩
      · exact .inr ⟨b, .inl h⟩
      · exact .inl ⟨i, a, .inr h.1, h.2⟩
      · exact .inr ⟨b, .inr h⟩
    · rintro (⟨i, a, h | h, hx⟩ | ⟨b, h | h⟩)
      · exact .inl (.inl ⟨i, a, h, hx⟩)
      · exact .inr (.inl ⟨i, a, h, hx⟩)
      · exact .inl (.inr ⟨b, h⟩)
      · exact .inr (.inr ⟨b, h⟩)
theorem mem_marksL (x : Str) : (ss : List Stmt) → (x ∈ marksL ss ↔
    (∃ id as, Stmt.node id as ∈ allStmts ss ∧ id.id = x) ∨ (∃ body, Stmt.sub x body ∈ allStmts ss))
  | [] => by simp [marksL, allStmts]
  | s :: ss => by
    have h1 := mem_marks x s
    have h2 := mem_marksL x ss
    simp only [marksL, allStmts, List.mem_append, h1, h2]
    constructor
    · rintro ((⟨i, a, h⟩ | ⟨b, h⟩) | (⟨i, a, h⟩ | ⟨b, h⟩))
      · exact .inl ⟨i, a, .inl h.1, h.2⟩
      · exact .inr ⟨b, .inl h⟩
      · exact .inl ⟨i, a, .inr h.1, h.2⟩
      · exact .inr ⟨b, .inr h⟩
    · rintro (⟨i, a, h | h, hx⟩ | ⟨b, h | h⟩)
      · exact .inl (.inl ⟨i, a, h, hx⟩)
      · exact .inr (.inl ⟨i, a, h, hx⟩)
      · exact .inl (.inr ⟨b, h⟩)
      · exact .inr (.inr ⟨b, h⟩)
end

/-! ### fuel -/

theorem mapW_mono {α β : Type} {f f' : α → WRes β} {l : List α} (h : ∀ a ∈ l, f a ≠ .diverge → f' a = f a)
    (hd : mapW f l ≠ .diverge) : mapW f' l = mapW f l := by
  induction l with
  | nil => rfl
  | cons a l ih =>
    simp only [mapW] at hd ⊢
    have ha : f a ≠ .diverge := by intro e; rw [e] at hd; exact hd rfl
    rw [h a (List.mem_cons_self ..) ha]
    cases hfa : f a with
    | ok b =>
      rw [hfa] at hd
      simp only [WRes.bind_ok] at hd ⊢
      have hl : mapW f l ≠ .diverge := by intro e; rw [e] at hd; exact hd rfl
      rw [ih (fun a ha => h a (List.mem_cons_of_mem _ ha)) hl]
    | err e => rfl
    | panic => rfl
    | diverge => exact absurd hfa ha

theorem subBody_mono {g : Graph} {f : Nat} {n : Str} (h : subBody g f n ≠ .diverge) : subBody g (f + 1) n = subBody g f n := by
  induction f generalizing n with
  | zero => exact absurd rfl h
  | succ f ih =>
    rw [subBody] at h
    rw [subBody, subBody]
    cases hs : mget g.subGraphs n with
    | none => rfl
    | some sub =>
      rw [hs] at h
      simp only at h ⊢
      have hd : mapW (childOf g (subBody g f)) (g.relations.sortedChildren n) ≠ .diverge := by
        intro e; rw [e] at h; exact h rfl
      rw [mapW_mono _ hd]
      intro c _ hc
      unfold childOf at hc ⊢
      split
      · rfl
      · rename_i hnode
        rw [if_neg hnode] at hc
        split
        · rename_i hsub
          rw [if_pos hsub] at hc
          have : subBody g f c ≠ .diverge := by intro e; rw [e] at hc; exact hc rfl
          rw [ih this]
        · rfl

theorem subBody_mono' {g : Graph} {f f' : Nat} {n : Str} (h : subBody g f n ≠ .diverge) (hf : f ≤ f') :
    subBody g f' n = subBody g f n := by
  induction hf with
  | refl => rfl
  | step hf ih => rw [subBody_mono (by rw [ih]; exact h), ih]

theorem locOf_mono {g : Graph} {f f' : Nat} {n p : Str} (h : locOf g f n p ≠ .diverge) (hf : f ≤ f') :
    locOf g f' n p = locOf g f n p := by
  unfold locOf at *
  repeat' split
  all_goals first
    | rfl
    | (rename_i h1 h2 h3 h4
       rw [if_neg h1, if_neg h2, if_pos h3, if_neg h4] at h
       rw [subBody_mono' (by intro e; rw [e] at h; exact h rfl) hf])

theorem edgeOf_mono {g : Graph} {f f' : Nat} {e : Edge} (h : edgeOf g f e ≠ .diverge) (hf : f ≤ f') :
    edgeOf g f' e = edgeOf g f e := by
  unfold edgeOf at *
  have h1 : locOf g f e.src e.srcPort ≠ .diverge := by intro e; rw [e] at h; exact h rfl
  rw [locOf_mono h1 hf]
  cases hl : locOf g f e.src e.srcPort with
  | ok s =>
    rw [hl] at h
    simp only [WRes.bind_ok] at h ⊢
    have h2 : locOf g f e.dst e.dstPort ≠ .diverge := by intro e; rw [e] at h; exact h rfl
    rw [locOf_mono h2 hf]
  | err e => rfl
  | panic => rfl
  | diverge => rfl

theorem rootSubsOf_mono {g : Graph} {f f' : Nat} {seen ns : List Str} (h : rootSubsOf g f seen ns ≠ .diverge) (hf : f ≤ f') :
    rootSubsOf g f' seen ns = rootSubsOf g f seen ns := by
  induction ns generalizing seen with
  | nil => rfl
  | cons n ns ih =>
    simp only [rootSubsOf] at *
    split
    · rename_i hc
      rw [if_pos hc] at h
      have h1 : subBody g f n ≠ .diverge := by intro e; rw [e] at h; exact h rfl
      rw [subBody_mono' h1 hf]
      cases hb : subBody g f n with
      | ok b =>
        rw [hb] at h
        simp only [WRes.bind_ok] at h ⊢
        rw [ih (by intro e; rw [e] at h; exact h rfl)]
      | err e => rfl
      | panic => rfl
      | diverge => rfl
    · rename_i hc
      rw [if_neg hc] at h
      exact ih h

theorem writeAst_mono {g : Graph} (hi : GInv g) {sortE : List Edge → List Edge} {f f' : Nat}
    (h : writeAst sortE f g ≠ .diverge) (hf : f ≤ f') : writeAst sortE f' g = writeAst sortE f g := by
  rw [writeAst_eq hi] at h
  rw [writeAst_eq hi, writeAst_eq hi]
  have h1 : mapW (edgeOf g f) (sortE g.edges.edges) ≠ .diverge := by intro e; rw [e] at h; exact h rfl
  rw [mapW_mono (fun e _ he => edgeOf_mono he hf) h1]
  cases hm : mapW (edgeOf g f) (sortE g.edges.edges) with
  | ok es =>
    rw [hm] at h
    simp only [WRes.bind_ok] at h ⊢
    rw [rootSubsOf_mono (by intro e; rw [e] at h; exact h rfl) hf]
  | err e => rfl
  | panic => rfl
  | diverge => rfl

mutual
theorem mem_allStmt_trans {m : Str} {body : List Stmt} {x : Stmt} : (s : Stmt) → Stmt.sub m body ∈ allStmt s →
    x ∈ allStmts body → x ∈ allStmt s
  | .edge src rhs as => fun h hx => by
    simp only [allStmt, List.mem_cons, reduceCtorEq, false_or, List.mem_append] at h ⊢
    rcases h with h | h
    · exact .inr (.inl (mem_allLoc_trans src h hx))
    · exact .inr (.inr (mem_allRHS_trans rhs h hx))
  | .sub id b => fun h hx => by
    simp only [allStmt, List.mem_cons, Stmt.sub.injEq] at h ⊢
    rcases h with ⟨rfl, rfl⟩ | h
    · exact .inr hx
    · exact .inr (mem_allStmts_trans b h hx)
  | .node id as => fun h => by simp [allStmt] at h
  | .nodeAttrs as => fun h => by simp [allStmt] at h
  | .edgeAttrs as => fun h => by simp [allStmt] at h
  | .graphAttrs as => fun h => by simp [allStmt] at h
  | .attr a => fun h => by simp [allStmt] at h
theorem mem_allLoc_trans {m : Str} {body : List Stmt} {x : Stmt} : (l : Loc) → Stmt.sub m body ∈ allLoc l →
    x ∈ allStmts body → x ∈ allLoc l
  | .node _ => fun h => by simp [allLoc] at h
  | .sub id b => fun h hx => by
    simp only [allLoc, List.mem_cons, Stmt.sub.injEq] at h ⊢
    rcases h with ⟨rfl, rfl⟩ | h
    · exact .inr hx
    · exact .inr (mem_allStmts_trans b h hx)
theorem mem_allRHS_trans {m : Str} {body : List Stmt} {x : Stmt} : (l : List EdgeRH) → Stmt.sub m body ∈ allRHS l →
    x ∈ allStmts body → x ∈ allRHS l
  | [] => fun h => by simp [allRHS] at h
  | .mk op dst :: rest => fun h hx => by
    simp only [allRHS, List.mem_append] at h ⊢
    rcases h with h | h
    · exact .inl (mem_allLoc_trans dst h hx)
    · exact .inr (mem_allRHS_trans rest h hx)
theorem mem_allStmts_trans {m : Str} {body : List Stmt} {x : Stmt} : (ss : List Stmt) → Stmt.sub m body ∈ allStmts ss →
    x ∈ allStmts body → x ∈ allStmts ss
  | [] => fun h => by simp [allStmts] at h
  | s :: ss => fun h hx => by
    simp only [allStmts, List.mem_append] at h ⊢
    rcases h with h | h
    · exact .inl (mem_allStmt_trans s h hx)
    · exact .inr (mem_allStmts_trans ss h hx)
end

end Gographviz
