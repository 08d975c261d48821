import Verif.Spec.Encoding
import Verif.Spec.Idents
import Verif.Props.Utf8Props
import Verif.Props.EscapeText
/-!
Lemmas for C96: UTF-8 texts and what the printer does with texts.
-/
namespace Gographviz.Proofs
open Gographviz Gographviz.Spec Gographviz.Props
open Gographviz.Ast (Stmt Loc EdgeRH AttrList NodeID)

theorem Encodes.shape {r : Nat} {bs : Str} (h : Encodes r bs) : ∃ a as, bs = a :: as ∧ isCont a = false ∧ ∀ x ∈ as, isCont x = true := by
  cases h with
  | one h => exact ⟨_, _, rfl, by simp [isCont]; omega, by simp⟩
  | two h1 h2 h3 => exact ⟨_, _, rfl, by simp [isCont]; omega, by simp [isCont]; omega⟩
  | three h1 h2 h3 h4 h5 => exact ⟨_, _, rfl, by simp [isCont]; omega, by simp [isCont]; omega⟩
  | four h1 h2 h3 h4 h5 h6 => exact ⟨_, _, rfl, by simp [isCont]; omega, by simp [isCont]; omega⟩

theorem utf8_nil : Utf8 [] := ⟨[], .nil⟩

theorem utf8_append {a b : Str} (ha : Utf8 a) (hb : Utf8 b) : Utf8 (a ++ b) := by
  obtain ⟨rs, ha⟩ := ha
  induction ha with
  | nil => exact hb
  | char h _ ih =>
    obtain ⟨qs, hq⟩ := ih
    rw [List.append_assoc]
    exact ⟨_, .char h hq⟩

theorem utf8_ascii : ∀ {s : Str}, (∀ b ∈ s, b < 0x80) → Utf8 s
  | [], _ => utf8_nil
  | b :: s, h => by
    obtain ⟨rs, hr⟩ := utf8_ascii (s := s) fun x hx => h x (List.mem_cons_of_mem _ hx)
    exact ⟨_, .char (bs := [b]) (.one (h b List.mem_cons_self)) hr⟩

/-- Cutting before a byte that starts a character. -/
theorem utf8_split {s : Str} (h : Utf8 s) : ∀ {a b : Str}, s = a ++ b → (∀ x y, b = x :: y → isCont x = false) → Utf8 a ∧ Utf8 b := by
  obtain ⟨rs, h⟩ := h
  induction h with
  | nil =>
    intro a b e _
    obtain ⟨rfl, rfl⟩ := List.append_eq_nil_iff.1 e.symm
    exact ⟨utf8_nil, utf8_nil⟩
  | @char r rs bs s he hd ih =>
    intro a b e hb
    rcases List.append_eq_append_iff.1 e with ⟨c, rfl, hc⟩ | ⟨c, hc1, hc2⟩
    · obtain ⟨h1, h2⟩ := ih hc hb
      exact ⟨utf8_append ⟨_, by simpa using Decodes.char he .nil⟩ h1, h2⟩
    · cases c with
      | nil =>
        simp only [List.append_nil, List.nil_append] at hc1 hc2
        subst hc1 hc2
        exact ⟨⟨_, by simpa using Decodes.char he .nil⟩, ⟨_, hd⟩⟩
      | cons x c =>
        have hx := hb x (c ++ s) (by rw [hc2]; rfl)
        obtain ⟨y, ys, e', _, hys⟩ := Encodes.shape he
        cases a with
        | nil =>
          refine ⟨utf8_nil, ?_⟩
          rw [hc2, ← List.nil_append (x :: c), ← hc1]
          exact ⟨_, .char he hd⟩
        | cons z a =>
          rw [hc1] at e'
          injection e' with e1 e2
          have := hys x (by rw [← e2]; simp)
          rw [hx] at this; cases this

theorem utf8_tail {r : Nat} {e t : Str} (he : Encodes r e) (h : Utf8 (e ++ t)) : Utf8 t := by
  obtain ⟨rs, h⟩ := h
  generalize hs : e ++ t = s at h
  cases h with
  | nil =>
    have := (List.append_eq_nil_iff.1 hs).2
    rw [this]; exact utf8_nil
  | @char r' rs' bs s' h1 h2 =>
    obtain ⟨_, e1⟩ := utf8_prefix_free he h1 hs
    subst e1
    rw [List.append_cancel_left hs]
    exact ⟨_, h2⟩

theorem spaceEnc_encodes {e : Str} (h : SpaceEnc e) : ∃ r, Encodes r e := by
  have h0 := h []
  have mk2 : ∀ b, 0x80 ≤ b → b < 0xC0 → ∃ r, Encodes r [0xC2, b] := fun b h1 h2 => by
    have := Encodes.two (x := 2) (y := b - 0x80) (by omega) (by omega) (by omega)
    rw [show 0x80 + (b - 0x80) = b by omega] at this
    exact ⟨_, this⟩
  have mk3 : ∀ x b c, 1 ≤ x → x ≤ 3 → 0x80 ≤ b → b < 0xC0 → 0x80 ≤ c → c < 0xC0 → ∃ r, Encodes r [0xE0 + x, b, c] := fun x b c h1 h2 h3 h4 h5 h6 => by
    have := Encodes.three (x := x) (y := b - 0x80) (z := c - 0x80) (by omega) (by omega) (by omega) (by omega) (by omega)
    rw [show 0x80 + (b - 0x80) = b by omega, show 0x80 + (c - 0x80) = c by omega] at this
    exact ⟨_, this⟩
  rw [List.append_nil] at h0
  cases e with
  | nil => cases h0
  | cons b0 e =>
    simp only [stripSpacePrefix] at h0
    split at h0
    · rename_i hb
      cases h0
      refine ⟨b0, .one ?_⟩
      simp only [Bool.or_eq_true, Bool.and_eq_true, decide_eq_true_eq, beq_iff_eq] at hb
      omega
    · split at h0
      · rename_i hb; subst hb
        split at h0
        · split at h0
          · rename_i hb; cases h0
            simp only [Bool.or_eq_true, beq_iff_eq] at hb
            exact mk2 _ (by omega) (by omega)
          · cases h0
        · cases h0
      · split at h0
        · rename_i hb; subst hb
          split at h0
          · split at h0
            · rename_i hb; cases h0
              simp only [Bool.and_eq_true, beq_iff_eq] at hb
              exact mk3 1 _ _ (by omega) (by omega) (by omega) (by omega) (by omega) (by omega)
            · cases h0
          · cases h0
        · split at h0
          · rename_i hb; subst hb
            split at h0
            · split at h0
              · rename_i hb; cases h0
                simp only [Bool.or_eq_true, Bool.and_eq_true, beq_iff_eq, decide_eq_true_eq] at hb
                exact mk3 2 _ _ (by omega) (by omega) (by omega) (by omega) (by omega) (by omega)
              · cases h0
            · cases h0
          · split at h0
            · rename_i hb; subst hb
              split at h0
              · split at h0
                · rename_i hb; cases h0
                  simp only [Bool.and_eq_true, beq_iff_eq] at hb
                  exact mk3 3 _ _ (by omega) (by omega) (by omega) (by omega) (by omega) (by omega)
                · cases h0
              · cases h0
            · cases h0

theorem utf8_trimLeft {s : Str} (n : Nat) (h : Utf8 s) : Utf8 (trimLeftN n s) := by
  obtain ⟨es, h1, h2, _⟩ := trimLeftN_split n s
  rw [h2] at h
  generalize trimLeftN n s = t at *
  clear h2
  induction es with
  | nil => exact h
  | cons e es ih =>
    obtain ⟨r, hr⟩ := spaceEnc_encodes (h1 e List.mem_cons_self)
    rw [List.flatten_cons, List.append_assoc] at h
    exact ih (fun x hx => h1 x (List.mem_cons_of_mem _ hx)) (utf8_tail hr h)

theorem utf8_trimSpace {s : Str} (h : Utf8 s) : Utf8 (trimSpace s) := by
  unfold trimSpace
  have hl := utf8_trimLeft s.length h
  generalize trimLeftN s.length s = l at *
  obtain ⟨es, h1, h2⟩ := trimRevN_spec l.length l.reverse
  rw [List.reverse_reverse] at h2
  refine (utf8_split hl h2 ?_).1
  intro x y hxy
  cases es with
  | nil => cases hxy
  | cons e es =>
    obtain ⟨r, hr⟩ := spaceEnc_encodes (h1 e List.mem_cons_self)
    obtain ⟨a, as, rfl, ha, _⟩ := Encodes.shape hr
    rw [List.flatten_cons, List.cons_append] at hxy
    injection hxy with h3 _
    rw [← h3]; exact ha

theorem utf8_trimNL {s : Str} (h : Utf8 s) : Utf8 (trimSuffixNL s) := by
  unfold trimSuffixNL
  split
  · rename_i r hr
    have : s = r.reverse ++ [10] := by
      have := congrArg List.reverse hr
      simpa using this
    exact (utf8_split h this (by simp [isCont])).1
  · exact h

theorem utf8_splitColon : ∀ {s : Str}, Utf8 s → ∀ p ∈ splitColon s, Utf8 p := by
  have key : ∀ (s : Str), ∃ p ps, splitColon s = p :: ps ∧ ((ps = [] ∧ s = p) ∨ ∃ t, s = p ++ 58 :: t ∧ ps = splitColon t) := by
    intro s
    induction s with
    | nil => exact ⟨[], [], rfl, .inl ⟨rfl, rfl⟩⟩
    | cons c cs ih =>
      simp only [splitColon]
      split
      · rename_i hc; subst hc
        exact ⟨[], _, rfl, .inr ⟨cs, rfl, rfl⟩⟩
      · obtain ⟨p, ps, h1, h2⟩ := ih
        rw [h1]
        refine ⟨c :: p, ps, rfl, ?_⟩
        rcases h2 with ⟨h2, h3⟩ | ⟨t, h2, h3⟩
        · exact .inl ⟨h2, by rw [h3]⟩
        · exact .inr ⟨t, by rw [h2]; rfl, h3⟩
  intro s
  obtain ⟨n, hn⟩ : ∃ n, s.length = n := ⟨_, rfl⟩
  induction n using Nat.strongRecOn generalizing s with
  | _ n ih =>
    intro h p hp
    obtain ⟨q, ps, h1, h2⟩ := key s
    rw [h1] at hp
    rcases h2 with ⟨rfl, rfl⟩ | ⟨t, rfl, rfl⟩
    · rw [List.mem_singleton.1 hp]; exact h
    · obtain ⟨h3, h4⟩ := utf8_split h (a := q) (b := 58 :: t) rfl (by intro x y e; injection e with e _; rw [← e]; decide)
      rcases List.mem_cons.1 hp with rfl | hp
      · exact h3
      · exact ih t.length (by simp at hn; omega) rfl (utf8_tail (e := [58]) (.one (by decide)) h4) p hp

/-! ### Printing -/

theorem utf8_port {p : Ast.Port} (h1 : Utf8 p.id1) (h2 : Utf8 p.id2) : Utf8 (Ast.portStr p) := by
  have hc : Utf8 (b!":") := utf8_ascii (by decide)
  unfold Ast.portStr
  split
  · exact utf8_nil
  · refine utf8_append (utf8_append hc h1) ?_
    split
    · exact utf8_append hc h2
    · exact utf8_nil

theorem utf8_nodeID {n : NodeID} (h : ∀ s ∈ identsNode n, Utf8 s) : Utf8 (Ast.nodeIDStr n) :=
  utf8_append (h _ (by simp [identsNode])) (utf8_port (h _ (by simp [identsNode])) (h _ (by simp [identsNode])))

theorem utf8_attr {ind : Str} (hi : Utf8 ind) {a : Ast.Attr} (h1 : Utf8 a.field) (h2 : Utf8 a.value) : Utf8 (Ast.attrStr ind a) :=
  utf8_append (utf8_append (utf8_append hi h1) (utf8_ascii (by decide))) h2

theorem utf8_alistTail : ∀ {as : List Ast.Attr}, (∀ a ∈ as, Utf8 a.field ∧ Utf8 a.value) → Utf8 (Ast.alistTail as)
  | [], _ => utf8_nil
  | a :: as, h => utf8_append (utf8_append (utf8_ascii (by decide)) (utf8_attr utf8_nil (h a List.mem_cons_self).1 (h a List.mem_cons_self).2))
      (utf8_alistTail fun x hx => h x (List.mem_cons_of_mem _ hx))

theorem utf8_alist : ∀ {as : Ast.AList}, (∀ a ∈ as, Utf8 a.field ∧ Utf8 a.value) → Utf8 (Ast.alistStr as)
  | [], _ => utf8_nil
  | a :: as, h => utf8_append (utf8_attr utf8_nil (h a List.mem_cons_self).1 (h a List.mem_cons_self).2)
      (utf8_alistTail fun x hx => h x (List.mem_cons_of_mem _ hx))

theorem identsAttrs_cons (al : Ast.AList) (als : AttrList) : identsAttrs (al :: als) = (al.flatMap fun a => [a.field, a.value]) ++ identsAttrs als := rfl

theorem utf8_attrList : ∀ {as : AttrList}, (∀ s ∈ identsAttrs as, Utf8 s) → Utf8 (Ast.attrListStr as)
  | [], _ => utf8_nil
  | al :: als, h => by
    rw [identsAttrs_cons] at h
    have h1 : Utf8 (Ast.alistStr al) := utf8_alist fun a ha => by
      have : ∀ s ∈ [a.field, a.value], Utf8 s := fun s hs => h s (List.mem_append_left _ (List.mem_flatMap.2 ⟨a, ha, hs⟩))
      exact ⟨this _ (by simp), this _ (by simp)⟩
    have h2 := utf8_attrList (as := als) fun s hs => h s (List.mem_append_right _ hs)
    refine utf8_append ?_ h2
    split
    · exact utf8_append (utf8_append (utf8_ascii (by decide)) h1) (utf8_ascii (by decide))
    · exact utf8_nil

theorem utf8_defaults {ind kw : Str} (hi : Utf8 ind) (hk : Utf8 kw) {as : AttrList} (h : ∀ s ∈ identsAttrs as, Utf8 s) : Utf8 (Ast.defaultsStr ind kw as) := by
  unfold Ast.defaultsStr
  dsimp only
  split
  · exact utf8_nil
  · exact utf8_append (utf8_append (utf8_append hi hk) (utf8_ascii (by decide))) (utf8_attrList h)

mutual
theorem utf8_stmt : (s : Stmt) → ∀ {ind : Str}, Utf8 ind → (∀ x ∈ identsStmt s, Utf8 x) → Utf8 (Ast.stmtStr ind s)
  | .node n as => fun hi h => by
    simp only [identsStmt, List.mem_append] at h
    simp only [Ast.stmtStr]
    exact utf8_append hi (utf8_trimSpace (utf8_append (utf8_append (utf8_nodeID fun s hs => h s (.inl hs)) (utf8_ascii (by decide)))
      (utf8_attrList fun s hs => h s (.inr hs))))
  | .edge src rhs as => fun hi h => by
    simp only [identsStmt, List.mem_append] at h
    simp only [Ast.stmtStr]
    exact utf8_append hi (utf8_trimSpace (utf8_append (utf8_append (utf8_append (utf8_loc src fun s hs => h s (.inl (.inl hs)))
      (utf8_trimSpace (utf8_rhs rhs fun s hs => h s (.inl (.inr hs))))) (utf8_ascii (by decide))) (utf8_attrList fun s hs => h s (.inr hs))))
  | .nodeAttrs as => fun hi h => by
    simp only [identsStmt] at h
    simp only [Ast.stmtStr]
    exact utf8_defaults hi (utf8_ascii (by decide)) h
  | .edgeAttrs as => fun hi h => by
    simp only [identsStmt] at h
    simp only [Ast.stmtStr]
    exact utf8_defaults hi (utf8_ascii (by decide)) h
  | .graphAttrs as => fun hi h => by
    simp only [identsStmt] at h
    simp only [Ast.stmtStr]
    exact utf8_defaults hi (utf8_ascii (by decide)) h
  | .sub id body => fun hi h => by
    simp only [identsStmt, List.mem_cons] at h
    simp only [Ast.stmtStr]
    refine utf8_append (utf8_append (utf8_append (utf8_append (utf8_append (utf8_append (utf8_append hi (utf8_ascii (by decide))) (h _ (.inl rfl)))
      (utf8_ascii (by decide))) ?_) (utf8_ascii (by decide))) hi) (utf8_ascii (by decide))
    exact utf8_trimNL (utf8_lines body (utf8_append hi (utf8_ascii (by decide))) fun s hs => h s (.inr hs))
  | .attr a => fun hi h => by
    simp only [identsStmt] at h
    simp only [Ast.stmtStr]
    exact utf8_attr hi (h _ (by simp)) (h _ (by simp))
theorem utf8_loc : (l : Loc) → (∀ x ∈ identsLoc l, Utf8 x) → Utf8 (Ast.locStr l)
  | .node n => fun h => by
    simp only [identsLoc] at h
    simp only [Ast.locStr]
    exact utf8_nodeID h
  | .sub id body => fun h => by
    simp only [identsLoc, List.mem_cons] at h
    simp only [Ast.locStr]
    refine utf8_append (utf8_append (utf8_append (utf8_append (utf8_append (utf8_ascii (by decide)) (h _ (.inl rfl)))
      (utf8_ascii (by decide))) ?_) (utf8_ascii (by decide))) (utf8_ascii (by decide))
    exact utf8_trimNL (utf8_lines body (utf8_ascii (by decide)) fun s hs => h s (.inr hs))
theorem utf8_rhs : (rhs : List EdgeRH) → (∀ x ∈ identsRHS rhs, Utf8 x) → Utf8 (Ast.rhsStr rhs)
  | [] => fun _ => by simp only [Ast.rhsStr]; exact utf8_nil
  | .mk op d :: rest => fun h => by
    simp only [identsRHS, List.mem_append] at h
    simp only [Ast.rhsStr]
    refine utf8_append (utf8_trimSpace (utf8_append ?_ (utf8_loc d fun s hs => h s (.inl hs)))) (utf8_rhs rest fun s hs => h s (.inr hs))
    cases op <;> exact utf8_ascii (by decide)
theorem utf8_lines : (ss : List Stmt) → ∀ {ind : Str}, Utf8 ind → (∀ x ∈ identsStmts ss, Utf8 x) → Utf8 (Ast.stmtsLines ind ss)
  | [] => fun _ _ => by simp only [Ast.stmtsLines]; exact utf8_nil
  | s :: ss => fun hi h => by
    simp only [identsStmts, List.mem_append] at h
    simp only [Ast.stmtsLines]
    refine utf8_append ?_ (utf8_lines ss hi fun x hx => h x (.inr hx))
    split
    · exact utf8_append (utf8_stmt s hi fun x hx => h x (.inl hx)) (utf8_ascii (by decide))
    · exact utf8_nil
end

theorem utf8_graph (t : Ast.Graph) (h : ∀ s ∈ idents t, Utf8 s) : Utf8 (Ast.graphStr t) := by
  have h1 : Utf8 t.id := h _ (by simp [idents])
  have h2 : ∀ s ∈ identsStmts t.stmts, Utf8 s := fun s hs => h s (by simp [idents, hs])
  unfold Ast.graphStr Ast.stmtListStr
  refine utf8_append (utf8_append (utf8_append (utf8_append (utf8_append (utf8_append ?_ ?_) (utf8_ascii (by decide))) h1) (utf8_ascii (by decide)))
    (utf8_trimNL (utf8_lines _ (utf8_ascii (by decide)) h2))) (utf8_ascii (by decide))
  · split
    · exact utf8_ascii (by decide)
    · exact utf8_nil
  · unfold Ast.typeStr
    split <;> exact utf8_ascii (by decide)

/-! ### Runes -/

theorem runes_decodes : ∀ (n : Nat) (s : Str), s.length ≤ n → 0xFFFD ∉ runesN n s → Decodes (runesN n s) s
  | 0, [], _, _ => .nil
  | 0, _ :: _, h, _ => by simp at h
  | n + 1, [], _, _ => .nil
  | n + 1, b :: s, hn, h => by
    simp only [runesN] at h ⊢
    rcases decodeRune_encodes (b := b) (s := s) with he | ⟨r, bs, rest, e, he⟩
    · rw [he] at h
      exact absurd List.mem_cons_self h
    · have hd := utf8_decode he rest
      rw [← e] at hd
      rw [hd] at h ⊢
      have hdrop : (b :: s).drop bs.length = rest := by rw [e]; simp
      simp only [hdrop] at h ⊢
      obtain ⟨a, as, rfl, _, _⟩ := Encodes.shape he
      have hl := congrArg List.length e
      simp only [List.length_cons, List.length_append] at hl hn
      rw [e]
      exact .char he (runes_decodes n rest (by omega) fun hm => h (List.mem_cons_of_mem _ hm))

theorem decodes_runes {rs : List Nat} {s : Str} (h : Decodes rs s) : ∀ n, s.length ≤ n → runesN n s = rs := by
  induction h with
  | nil => intro n _; cases n <;> rfl
  | @char r rs bs s he _ ih =>
    intro n hn
    obtain ⟨a, as, rfl, _, _⟩ := Encodes.shape he
    cases n with
    | zero => simp at hn
    | succ n =>
      have hd := utf8_decode he s
      simp only [List.cons_append, runesN] at hd ⊢
      rw [hd]
      simp only [List.length_cons, List.drop_succ_cons, List.drop_left, List.cons.injEq, true_and]
      exact ih n (by simp only [List.length_append, List.length_cons] at hn; omega)

/-- The runes of a text in UTF-8 are its characters. -/
theorem utf8_runes {rs : List Nat} {s : Str} (h : Decodes rs s) : runes s = rs := decodes_runes h _ (Nat.le_refl _)

theorem clean_of_runes {s : Str} (h0 : 0 ∉ runes s) (h : 0xFFFD ∉ runes s) : CleanUtf8 s :=
  ⟨runes s, runes_decodes _ _ (Nat.le_refl _) h, h0, h⟩

theorem CleanUtf8.utf8 {s : Str} (h : CleanUtf8 s) : Utf8 s := ⟨h.choose, h.choose_spec.1⟩

end Gographviz.Proofs
