import Verif.Proofs.Print
/-!
The text of a printable syntax tree is scanned to lexemes that denote the normalised tree.
-/
namespace Gographviz.Print

open Gographviz Spec Lex Ast
open Gographviz.Spec.Meaning (Lexeme AttrM AListM BracketM AttrListM OptAttrListM NodeIdM OpM StmtM LocM RhsM SubM StmtsM OptStmtsM Opt OptId KindM GraphM)

theorem endRune {c : Nat} (h : c < 128) (h' : ¬ letter c ∧ ¬ digit c ∧ c ≠ 46) : c < 128 ∧ EndRune c := ⟨h, h'⟩

theorem end32 : 32 < 128 ∧ EndRune 32 := ⟨by omega, by decide, by decide, by decide⟩
theorem end61 : 61 < 128 ∧ EndRune 61 := ⟨by omega, by decide, by decide, by decide⟩
theorem end44 : 44 < 128 ∧ EndRune 44 := ⟨by omega, by decide, by decide, by decide⟩
theorem end45 : 45 < 128 ∧ EndRune 45 := ⟨by omega, by decide, by decide, by decide⟩
theorem end58 : 58 < 128 ∧ EndRune 58 := ⟨by omega, by decide, by decide, by decide⟩
theorem end59 : 59 < 128 ∧ EndRune 59 := ⟨by omega, by decide, by decide, by decide⟩

theorem tk_space : Toked Any [32] [] := toked_layout (layout_blanks (by simp))
theorem tk_nl : Toked Any [10] [] := toked_layout (layout_blanks (by simp))
theorem tk_eq : Toked Any [61] [(8, [61])] := toked_punct (e := ([61], 8)) (by decide)
theorem tk_comma : Toked Any [44] [(13, [44])] := toked_punct (e := ([44], 13)) (by decide)
theorem tk_semi : Toked Any [59] [(7, [59])] := toked_punct (e := ([59], 7)) (by decide)
theorem tk_colon : Toked Any [58] [(14, [58])] := toked_punct (e := ([58], 14)) (by decide)
theorem tk_lbrack : Toked Any [91] [(11, [91])] := toked_punct (e := ([91], 11)) (by decide)
theorem tk_rbrack : Toked Any [93] [(12, [93])] := toked_punct (e := ([93], 12)) (by decide)
theorem tk_lbrace : Toked Any [123] [(3, [123])] := toked_punct (e := ([123], 3)) (by decide)
theorem tk_rbrace : Toked Any [125] [(4, [125])] := toked_punct (e := ([125], 4)) (by decide)
theorem tk_arrow : Toked Any [45, 62] [(16, [45, 62])] := toked_punct (e := ([45, 62], 16)) (by decide)
theorem tk_line : Toked Any [45, 45] [(17, [45, 45])] := toked_punct (e := ([45, 45], 17)) (by decide)

/-! ### attributes -/

theorem attr_toked {a : Ast.Attr} (hf : ValidId a.field) (hv : ValidId a.value) :
    Toked Stop (attrStr [] a) [(18, a.field), (8, [61]), (18, a.value)] := by
  have h := (toked_id hf).stopThen (tk_eq.anyThen (toked_id hv)) end61
  simpa [attrStr] using h

theorem alistTail_toked : ∀ (as : AList), (∀ a ∈ as, ValidId a.field ∧ ValidId a.value) → ∀ (s : Str) (ls : List Lexeme) (pre : AList),
    Toked Stop s ls → AListM ls pre → ∃ ls', Toked Stop (s ++ alistTail as) ls' ∧ AListM ls' (pre ++ as)
  | [], _, s, ls, pre, h, hm => ⟨ls, by simpa [alistTail] using h, by simpa using hm⟩
  | a :: as, hv, s, ls, pre, h, hm => by
    have ha := hv a (by simp)
    have h1 := h.stopThen (tk_comma.anyThen (tk_space.anyThen (attr_toked ha.1 ha.2))) end44
    obtain ⟨ls', h2, h3⟩ := alistTail_toked as (fun x hx => hv x (by simp [hx])) _ _ (pre ++ [a]) h1 (.snoc hm .present .pair)
    exact ⟨ls', by simpa [alistTail] using h2, by simpa using h3⟩

theorem alist_toked {al : AList} (hne : al ≠ []) (hv : ∀ a ∈ al, ValidId a.field ∧ ValidId a.value) :
    ∃ ls, Toked Stop (alistStr al) ls ∧ AListM ls al := by
  cases al with
  | nil => exact absurd rfl hne
  | cons a as =>
    have ha := hv a (by simp)
    obtain ⟨ls, h1, h2⟩ := alistTail_toked as (fun x hx => hv x (by simp [hx])) _ _ [a] (attr_toked ha.1 ha.2) (.one .pair)
    exact ⟨ls, h1, h2⟩

theorem attrListM_cons {ts us : List Lexeme} {as bs : AttrList} (h : BracketM ts as) (h' : AttrListM us bs) : AttrListM (ts ++ us) (as ++ bs) := by
  induction h' with
  | one h2 => exact .snoc (.one h) h2
  | snoc _ h2 ih => rw [← List.append_assoc, ← List.append_assoc]; exact .snoc ih h2

theorem alistStr_ne {a : Ast.Attr} {as : AList} : alistStr (a :: as) ≠ [] := by simp [alistStr, attrStr]

theorem normAttrs_nil (als : AttrList) : normAttrs ([] :: als) = normAttrs als := by simp [normAttrs]

theorem normAttrs_cons (a : Ast.Attr) (as : AList) (als : AttrList) : normAttrs ((a :: as) :: als) = (a :: as) :: normAttrs als := by
  simp [normAttrs]

/-- Attribute lists: nothing, or brackets followed by a space. -/
theorem attrList_toked : ∀ (as : AttrList), ValidAttrs as →
    (normAttrs as = [] ∧ attrListStr as = []) ∨
    ∃ body ls, attrListStr as = (91 :: body) ++ [32] ∧ TailOk (91 :: body) ∧ Toked Any (91 :: body) ls ∧ AttrListM ls (normAttrs as)
  | [], _ => .inl ⟨rfl, rfl⟩
  | [] :: als, hv => by
    have ih := attrList_toked als (fun al h => hv al (by simp [h]))
    rw [normAttrs_nil]
    simpa [attrListStr, alistStr] using ih
  | (a :: as) :: als, hv => by
    have ih := attrList_toked als (fun al h => hv al (by simp [h]))
    obtain ⟨ls, h1, h2⟩ := alist_toked (al := a :: as) (by simp) (hv _ (by simp))
    have hb : Toked Any ([91] ++ ([32] ++ (alistStr (a :: as) ++ [32, 93]))) ([(11, [91])] ++ ([] ++ (ls ++ ([] ++ [(12, [93])])))) :=
      tk_lbrack.anyThen (tk_space.anyThen (h1.stopThen (tk_space.anyThen tk_rbrack) end32))
    have hbm : BracketM ([(11, [91])] ++ ([] ++ (ls ++ ([] ++ [(12, [93])])))) [a :: as] := by
      simpa using BracketM.full (l := [91]) (l' := [93]) h2
    have hstr : attrListStr ((a :: as) :: als) = (91 :: (32 :: (alistStr (a :: as) ++ [32, 93]))) ++ ([32] ++ attrListStr als) := by
      have : (alistStr (a :: as)).length > 0 := List.length_pos_iff.2 alistStr_ne
      simp [attrListStr, this]
    rw [normAttrs_cons, hstr]
    right
    rcases ih with ⟨h3, h4⟩ | ⟨body, ls', h3, h4, h5, h6⟩
    · refine ⟨32 :: (alistStr (a :: as) ++ [32, 93]), _, ?_, ?_, hb, ?_⟩
      · rw [h4]; simp
      · have := tailOk_ascii (c := 93) (by omega) (91 :: 32 :: (alistStr (a :: as) ++ [32]))
        simpa using this
      · rw [h3]; exact .one hbm
    · refine ⟨(32 :: (alistStr (a :: as) ++ [32, 93])) ++ ([32] ++ 91 :: body), [(11, [91])] ++ (ls ++ [(12, [93])]) ++ ls', ?_, ?_, by simpa using hb.anyThen (tk_space.anyThen h5), ?_⟩
      · rw [h3]; simp
      · have := h4.append (91 :: (32 :: (alistStr (a :: as) ++ [32, 93])) ++ [32])
        simpa using this
      · simpa using attrListM_cons hbm h6

/-! ### nodes -/

theorem node_toked {n : NodeID} (h : ValidNode n) : HeadOk (nodeIDStr n) ∧ TailOk (nodeIDStr n) ∧ ∃ ls, Toked Stop (nodeIDStr n) ls ∧ NodeIdM ls (normNode n) := by
  obtain ⟨id, p1, p2⟩ := n
  obtain ⟨h1, h2⟩ := h
  simp only at h1 h2
  have ho := validName_ok h1
  rcases h2 with h2 | ⟨h2, h3⟩
  · cases h2
    refine ⟨by simpa [nodeIDStr, portStr] using ho.1, by simpa [nodeIDStr, portStr] using ho.2, [(18, id)], ?_, by
      simp only [normNode, if_pos]; exact .plain⟩
    simpa [nodeIDStr, portStr] using toked_id h1.1
  · have hp1 := validName_ok h2
    have hne1 : p1.length ≠ 0 := by simpa using validId_ne h2.1
    have hnn : ∀ p2, normNode ⟨id, p1, p2⟩ = ⟨id, p1, p2⟩ := fun p2 => by simp [normNode, validId_ne h2.1]
    rw [hnn]
    rcases h3 with rfl | h3
    · have e : nodeIDStr ⟨id, p1, []⟩ = id ++ ([58] ++ p1) := by simp [nodeIDStr, portStr]; intro h0; simp [h0] at hne1
      rw [e]
      exact ⟨ho.1.append _, (hp1.2.append _).append _, _, (toked_id h1.1).stopThen (tk_colon.anyThen (toked_id h2.1)) end58, .port⟩
    · have hp2 := validName_ok h3
      have hne2 : p2.length ≠ 0 := by simpa using validId_ne h3.1
      have e : nodeIDStr ⟨id, p1, p2⟩ = id ++ ([58] ++ (p1 ++ ([58] ++ p2))) := by
        simp only [nodeIDStr, portStr]
        rw [if_neg hne1, if_pos (by omega)]
        simp
      rw [e]
      exact ⟨ho.1.append _, (((hp2.2.append _).append _).append _).append _, _,
        (toked_id h1.1).stopThen (tk_colon.anyThen ((toked_id h2.1).stopThen (tk_colon.anyThen (toked_id h3.1)) end58)) end58, .port2⟩

/-! ### statements -/

theorem rhsM_cons {gen : Nat → Str} {x : Lexeme} {op : Bool} {d : Loc} {ts : List Lexeme} {c c1 : Nat} (ho : OpM x op) (hd : LocM gen c ts d c1) :
    ∀ (n : Nat) {us : List Lexeme} {rhs : List EdgeRH} {c2 : Nat}, rhs.length = n → RhsM gen c1 us rhs c2 →
      RhsM gen c ((x :: ts) ++ us) (.mk op d :: rhs) c2 := by
  intro n
  induction n with
  | zero =>
    intro us rhs c2 hn h
    cases h <;> simp at hn
  | succ n ih =>
    intro us rhs c2 hn h
    cases h with
    | one h1 h2 => exact .snoc (rhs := [.mk op d]) (.one ho hd) h1 h2
    | @snoc _ c1' _ ts' us' rhs' x' op' d' h1 h2 h3 =>
      have := ih (by simpa using hn) h1
      rw [← List.append_assoc, ← List.cons_append]
      exact .snoc this h2 h3

theorem stmtsM_cons {gen : Nat → Str} {s : Stmt} {ts sm : List Lexeme} {c c1 : Nat} (hs : StmtM gen c ts s c1) (ho : Opt 7 sm) :
    ∀ (n : Nat) {us : List Lexeme} {ss : List Stmt} {c2 : Nat}, ss.length = n → StmtsM gen c1 us ss c2 →
      StmtsM gen c ((ts ++ sm) ++ us) (s :: ss) c2 := by
  intro n
  induction n with
  | zero =>
    intro us ss c2 hn h
    cases h <;> simp at hn
  | succ n ih =>
    intro us ss c2 hn h
    cases h with
    | one h1 h2 => exact .snoc (ss := [s]) (.one hs ho) h1 h2
    | @snoc _ c1' _ ts' us' sm' ss' s' h1 h2 h3 =>
      have := ih (by simpa using hn) h1
      rw [← List.append_assoc, ← List.cons_append]
      exact .snoc this h2 h3

/-- Indentation. -/
def Tabs (w : Str) : Prop := ∀ c ∈ w, c = 9

theorem Tabs.toked {w : Str} (h : Tabs w) : Toked Any w [] := toked_layout (layout_blanks fun c hc => by have := h c hc; omega)

theorem Tabs.tab {w : Str} (h : Tabs w) : Tabs (w ++ [9]) := by
  intro c hc
  rcases List.mem_append.1 hc with h1 | h1
  · exact h c h1
  · simpa using h1

/-- The text of a head followed by an attribute list, trimmed. -/
theorem with_attrs {head : Str} {as : AttrList} {hs : List Lexeme} (hh : HeadOk head) (ht : TailOk head) (hk : Toked Stop head hs) (hv : ValidAttrs as) :
    ∃ ls, Toked Stop (trimSpace (head ++ [32] ++ attrListStr as)) (hs ++ ls) ∧ OptAttrListM ls (normAttrs as) ∧
      trimSpace (head ++ [32] ++ attrListStr as) ≠ [] := by
  have hne : head ≠ [] := by
    rintro rfl
    have := hh [32]
    exact absurd this (by decide)
  rcases attrList_toked as hv with ⟨h1, h2⟩ | ⟨body, ls, h1, h2, h3, h4⟩
  · rw [h1, h2, List.append_nil, trimSpace_ok_space hh ht]
    exact ⟨[], by simpa using hk, .absent, hne⟩
  · have e : head ++ [32] ++ attrListStr as = (head ++ ([32] ++ 91 :: body)) ++ [32] := by rw [h1]; simp
    rw [e, trimSpace_ok_space (hh.append _) ((h2.append _).append _)]
    refine ⟨ls, ?_, .present h4, by simp⟩
    exact (hk.stopThen (tk_space.anyThen h3) end32).any

theorem defaults_toked {indent kw : Str} {typ : Nat} (hi : Tabs indent) (hkw : (kw, typ) ∈ keywords) {as : AttrList} (hv : ValidAttrs as) :
    (normAttrs as = [] ∧ defaultsStr indent kw as = []) ∨
    ∃ ls, normAttrs as ≠ [] ∧ defaultsStr indent kw as ≠ [] ∧ Toked Stop (defaultsStr indent kw as) ((typ, kw) :: ls) ∧ AttrListM ls (normAttrs as) := by
  rcases attrList_toked as hv with ⟨h1, h2⟩ | ⟨body, ls, h1, h2, h3, h4⟩
  · left
    exact ⟨h1, by simp [defaultsStr, h2]⟩
  · right
    have e : defaultsStr indent kw as = indent ++ (kw ++ ([32] ++ (91 :: body ++ [32]))) := by simp [defaultsStr, h1]
    refine ⟨ls, ?_, by rw [e]; simp, ?_, h4⟩
    · intro h0
      rw [h0] at h4
      cases hl : normAttrs as with
      | nil =>
        -- a printed bracket has attributes
        clear e h2 h3
        have : ∀ (as : AttrList), normAttrs as = [] → attrListStr as = [] := by
          intro as
          induction as with
          | nil => intro _; rfl
          | cons al als ih =>
            intro h
            cases al with
            | nil => rw [normAttrs_nil] at h; simpa [attrListStr, alistStr] using ih h
            | cons a as => rw [normAttrs_cons] at h; cases h
        rw [this as h0] at h1
        simp at h1
      | cons _ _ => rw [hl] at h0; cases h0
    · rw [e]
      have := hi.toked.anyThen ((toked_keyword hkw).stopThen (tk_space.anyThen (h3.anyThen tk_space)) end32)
      simpa using this.any

theorem trimSuffixNL_snoc (s : Str) : trimSuffixNL (s ++ [10]) = s := by simp [trimSuffixNL]

/-- A braced body. -/
theorem sub_toked {indent id lines : Str} {ls : List Lexeme} {ss : List Stmt} (hi : Tabs indent) (hid : ValidId id)
    (h : Toked Any (trimSuffixNL lines) ls) (hm : ∀ gen c, OptStmtsM gen c ls ss c) :
    let str := b!"subgraph " ++ id ++ b!" {\n" ++ trimSuffixNL lines ++ b!"\n" ++ indent ++ b!"}"
    HeadOk str ∧ TailOk str ∧ ∃ ls', Toked Any str ls' ∧ ∀ gen c, SubM gen c ls' id ss c := by
  intro str
  have e : str = b!"subgraph" ++ ([32] ++ (id ++ ([32] ++ ([123] ++ ([10] ++ (trimSuffixNL lines ++ ([10] ++ (indent ++ [125])))))))) := by
    simp [str]
  rw [e]
  refine ⟨headOk_ascii (by omega) _, ?_, _, (toked_keyword (e := (b!"subgraph", 15)) (by decide)).stopThen
    (tk_space.anyThen ((toked_id hid).stopThen (tk_space.anyThen (tk_lbrace.anyThen (tk_nl.anyThen (h.anyThen (tk_nl.anyThen (hi.toked.anyThen tk_rbrace))))))
      end32)) end32, ?_⟩
  · exact (((((((tailOk_ascii (by omega) indent).append _).append _).append _).append _).append _).append _).append _ |>.append _
  · intro gen c
    simpa using SubM.named (k := b!"subgraph") (l := [123]) (l' := [125]) (hm gen c)

mutual
theorem stmt_toked {indent : Str} (hi : Tabs indent) : (s : Stmt) → PrintableStmt s →
    (stmtStr indent s = [] ∧ normStmt s = []) ∨
    ∃ s' ls, normStmt s = [s'] ∧ stmtStr indent s ≠ [] ∧ Toked Stop (stmtStr indent s) ls ∧ ∀ gen c, StmtM gen c ls s' c
  | .node n as, h => by
    simp only [PrintableStmt] at h
    obtain ⟨h1, h2, ls, h3, h4⟩ := node_toked h.1
    obtain ⟨us, h5, h6, h7⟩ := with_attrs h1 h2 h3 h.2
    right
    refine ⟨_, ls ++ us, rfl, by simpa [stmtStr] using fun _ => h7, ?_, fun gen c => .node h4 h6⟩
    exact hi.toked.anyThen h5
  | .edge src rhs as, h => by
    simp only [PrintableStmt] at h
    obtain ⟨h1, h2, ls, h3, h4⟩ := loc_toked src h.1
    obtain ⟨g1, g2, us, z, g0, g3, g4⟩ := rhs_toked rhs h.2.2.1 h.2.1
    have gt : trimSpace (rhsStr rhs) = rhsStr rhs := trimSpace_ok g1 g2
    have hk : Toked Stop (locStr src ++ rhsStr rhs) (ls ++ us) := by
      rw [g0] at g3 ⊢
      exact h3.stopThen g3 end45
    obtain ⟨vs, h5, h6, h7⟩ := with_attrs (h1.append (rhsStr rhs)) (g2.append (locStr src)) hk h.2.2.2
    right
    refine ⟨_, ls ++ us ++ vs, rfl, ?_, ?_, fun gen c => by rw [List.append_assoc]; exact .edge (h4 gen c) (g4 gen c) h6⟩
    · simp only [stmtStr, gt]
      intro h0
      exact h7 (List.append_eq_nil_iff.1 h0).2
    · simp only [stmtStr, gt]
      exact hi.toked.anyThen h5
  | .nodeAttrs as, h => by
    simp only [PrintableStmt] at h
    rcases defaults_toked hi (kw := b!"node") (typ := 9) (by decide) h with ⟨h1, h2⟩ | ⟨ls, h1, h2, h3, h4⟩
    · exact .inl ⟨h2, by simp [normStmt, normDefaults, h1]⟩
    · exact .inr ⟨.nodeAttrs (normAttrs as), _, by simp [normStmt, normDefaults, h1], h2, h3, fun gen c => .nodeAttrs h4⟩
  | .edgeAttrs as, h => by
    simp only [PrintableStmt] at h
    rcases defaults_toked hi (kw := b!"edge") (typ := 10) (by decide) h with ⟨h1, h2⟩ | ⟨ls, h1, h2, h3, h4⟩
    · exact .inl ⟨h2, by simp [normStmt, normDefaults, h1]⟩
    · exact .inr ⟨.edgeAttrs (normAttrs as), _, by simp [normStmt, normDefaults, h1], h2, h3, fun gen c => .edgeAttrs h4⟩
  | .graphAttrs as, h => by
    simp only [PrintableStmt] at h
    rcases defaults_toked hi (kw := b!"graph") (typ := 2) (by decide) h with ⟨h1, h2⟩ | ⟨ls, h1, h2, h3, h4⟩
    · exact .inl ⟨h2, by simp [normStmt, normDefaults, h1]⟩
    · exact .inr ⟨.graphAttrs (normAttrs as), _, by simp [normStmt, normDefaults, h1], h2, h3, fun gen c => .graphAttrs h4⟩
  | .sub id body, h => by
    simp only [PrintableStmt] at h
    obtain ⟨ls, h1, h2⟩ := body_toked hi.tab body h.2
    obtain ⟨_, _, us, h3, h4⟩ := sub_toked hi h.1 h1 h2
    right
    refine ⟨_, us, rfl, by simp [stmtStr], ?_, fun gen c => .sub (h4 gen c)⟩
    have := hi.toked.anyThen h3
    simpa [stmtStr] using this.any
  | .attr a, h => by
    simp only [PrintableStmt] at h
    right
    refine ⟨.attr a, [(18, a.field), (8, [61]), (18, a.value)], rfl, by simp [stmtStr, attrStr], ?_, fun gen c => StmtM.attr⟩
    have := hi.toked.anyThen (attr_toked h.1 h.2)
    simpa [stmtStr, attrStr] using this
theorem loc_toked : (l : Loc) → PrintableLoc l → HeadOk (locStr l) ∧ TailOk (locStr l) ∧
    ∃ ls, Toked Stop (locStr l) ls ∧ ∀ gen c, LocM gen c ls (normLoc l) c
  | .node n, h => by
    simp only [PrintableLoc] at h
    obtain ⟨h1, h2, ls, h3, h4⟩ := node_toked h
    exact ⟨h1, h2, ls, h3, fun gen c => .node h4⟩
  | .sub id body, h => by
    simp only [PrintableLoc] at h
    have htab : Tabs (b!"\t") := by intro c hc; simpa using hc
    obtain ⟨ls, h1, h2⟩ := body_toked htab body h.2
    have := sub_toked (indent := []) (fun c hc => by cases hc) h.1 h1 h2
    simp only [List.append_nil] at this
    obtain ⟨h3, h4, us, h5, h6⟩ := this
    exact ⟨h3, h4, us, h5.any, fun gen c => .sub (h6 gen c)⟩
theorem rhs_toked : (rhs : List EdgeRH) → PrintableRHS rhs → rhs ≠ [] → HeadOk (rhsStr rhs) ∧ TailOk (rhsStr rhs) ∧
    ∃ ls z, rhsStr rhs = 45 :: z ∧ Toked Stop (rhsStr rhs) ls ∧ ∀ gen c, RhsM gen c ls (normRHS rhs) c
  | [], _, hne => absurd rfl hne
  | .mk op dst :: rest, h, _ => by
    simp only [PrintableRHS] at h
    obtain ⟨h1, h2, ls, h3, h4⟩ := loc_toked dst h.1
    have hop : ∃ x z, opStr op = 45 :: z ∧ Toked Any (opStr op) [x] ∧ OpM x op := by
      cases op
      · exact ⟨_, _, rfl, tk_line, .undirected⟩
      · exact ⟨_, _, rfl, tk_arrow, .directed⟩
    obtain ⟨x, z, ho1, ho2, ho3⟩ := hop
    have hhead : HeadOk (opStr op) := by rw [ho1]; exact headOk_ascii (by omega) _
    have ht : trimSpace (opStr op ++ locStr dst) = opStr op ++ locStr dst := trimSpace_ok (hhead.append _) (h2.append _)
    have hk : Toked Stop (opStr op ++ locStr dst) (x :: ls) := ho2.anyThen h3
    by_cases hr : rest = []
    · subst hr
      simp only [rhsStr, ht, List.append_nil, normRHS]
      exact ⟨hhead.append _, h2.append _, _, z ++ locStr dst, by rw [ho1]; rfl, hk, fun gen c => .one ho3 (h4 gen c)⟩
    · obtain ⟨g1, g2, us, z', g0, g3, g4⟩ := rhs_toked rest h.2 hr
      simp only [rhsStr, ht, normRHS]
      refine ⟨(hhead.append _).append _, g2.append _, (x :: ls) ++ us, z ++ locStr dst ++ rhsStr rest, by rw [ho1]; simp, ?_, fun gen c => ?_⟩
      · rw [g0] at g3 ⊢
        exact hk.stopThen g3 end45
      · exact rhsM_cons ho3 (h4 gen c) _ rfl (g4 gen c)
theorem lines_toked {indent : Str} (hi : Tabs indent) : (ss : List Stmt) → PrintableStmts ss →
    (stmtsLines indent ss = [] ∧ normStmts ss = []) ∨
    ∃ b ls, stmtsLines indent ss = b ++ [10] ∧ Toked Any b ls ∧ ∀ gen c, StmtsM gen c ls (normStmts ss) c
  | [], _ => .inl ⟨rfl, rfl⟩
  | s :: ss, h => by
    simp only [PrintableStmts] at h
    have ih := lines_toked hi ss h.2
    rcases stmt_toked hi s h.1 with ⟨h1, h2⟩ | ⟨s', ls, h1, h2, h3, h4⟩
    · simpa [stmtsLines, normStmts, h1, h2] using ih
    · right
      have hlen : (stmtStr indent s).length > 0 := List.length_pos_iff.2 h2
      have e : stmtsLines indent (s :: ss) = stmtStr indent s ++ ([59] ++ ([10] ++ stmtsLines indent ss)) := by
        simp [stmtsLines, hlen]
      have hk := h3.stopThen tk_semi end59
      rw [e]
      simp only [normStmts, h1]
      rcases ih with ⟨h5, h6⟩ | ⟨b, us, h5, h6, h7⟩
      · refine ⟨stmtStr indent s ++ [59], _, by rw [h5]; simp, hk, fun gen c => ?_⟩
        rw [h6]
        exact .one (h4 gen c) .present
      · refine ⟨(stmtStr indent s ++ [59]) ++ ([10] ++ b), _, by rw [h5]; simp, hk.anyThen (tk_nl.anyThen h6), fun gen c => ?_⟩
        exact stmtsM_cons (h4 gen c) .present _ rfl (h7 gen c)
theorem body_toked {indent : Str} (hi : Tabs indent) (ss : List Stmt) (h : PrintableStmts ss) :
    ∃ ls, Toked Any (trimSuffixNL (stmtsLines indent ss)) ls ∧ ∀ gen c, OptStmtsM gen c ls (normStmts ss) c := by
  rcases lines_toked hi ss h with ⟨h1, h2⟩ | ⟨b, ls, h1, h2, h3⟩
  · rw [h1, h2]
    exact ⟨[], .nil, fun gen c => .absent⟩
  · rw [h1, trimSuffixNL_snoc]
    exact ⟨ls, h2, fun gen c => .present (h3 gen c)⟩
end

/-- A document whose body, with the line break after it, is known, with white space after the final brace. -/
theorem wrapped_fin {fin : Str} (hf : Toked Any fin []) (d st : Bool) {id : Str} (hid : id = [] ∨ ValidId id) {body : Str} {ls : List Lexeme} {ss : List Stmt} (h1 : Toked Any (body ++ [10]) ls)
    (h2 : ∀ gen c, OptStmtsM gen c ls ss c) :
    ∃ ls, Toked Any ((if st then b!"strict " else []) ++ (typeStr d ++ ([32] ++ id ++ ([32] ++ ([123] ++ ([10] ++ (body ++ ([10] ++ ([125] ++ fin))))))))) ls ∧
      ∀ gen c, GraphM gen c ls ⟨d, st, id, ss⟩ c := by
  have hbody : Toked Any ([32] ++ ([123] ++ ([10] ++ (body ++ ([10] ++ ([125] ++ fin))))))
      ([] ++ ([(3, [123])] ++ ([] ++ (ls ++ ([(4, [125])] ++ []))))) := by
    have := tk_space.anyThen (tk_lbrace.anyThen (tk_nl.anyThen (h1.anyThen (tk_rbrace.anyThen hf))))
    simpa only [List.append_assoc] using this
  have hstrict : ∃ us, Toked Any (if st then b!"strict " else []) us ∧ Opt 5 us ∧ decide (us ≠ []) = st := by
    cases st
    · exact ⟨[], .nil, .absent, rfl⟩
    · refine ⟨[(5, b!"strict")], ?_, .present, rfl⟩
      have := (toked_keyword (e := (b!"strict", 5)) (by decide)).stopThen tk_space end32
      simpa using this
  have hkind : ∃ k, Toked Stop (typeStr d) [k] ∧ KindM k d := by
    cases d
    · exact ⟨_, toked_keyword (e := (b!"graph", 2)) (by decide), .graph⟩
    · exact ⟨_, toked_keyword (e := (b!"digraph", 6)) (by decide), .digraph⟩
  have hname : ∃ vs, Toked Stop ([32] ++ id) vs ∧ OptId vs id := by
    rcases hid with rfl | hid
    · exact ⟨[], tk_space.any, .absent⟩
    · exact ⟨_, tk_space.anyThen (toked_id hid), .present⟩
  obtain ⟨us, s1, s2, s3⟩ := hstrict
  obtain ⟨k, k1, k2⟩ := hkind
  obtain ⟨vs, n1, n2⟩ := hname
  have hall := s1.anyThen (k1.stopThen (n1.stopThen hbody end32) end32)
  refine ⟨us ++ ([k] ++ (vs ++ ([] ++ ([(3, [123])] ++ ([] ++ (ls ++ ([(4, [125])] ++ []))))))), ?_, fun gen c => ?_⟩
  · exact hall
  · have := GraphM.mk (gen := gen) (l := [123]) (l' := [125]) s2 k2 n2 (h2 gen c)
    rw [s3] at this
    simpa using this

/-- A document whose body, with the line break after it, is known. -/
theorem wrapped_line (d st : Bool) {id : Str} (hid : id = [] ∨ ValidId id) {body : Str} {ls : List Lexeme} {ss : List Stmt} (h1 : Toked Any (body ++ [10]) ls)
    (h2 : ∀ gen c, OptStmtsM gen c ls ss c) :
    ∃ ls, Toked Any ((if st then b!"strict " else []) ++ (typeStr d ++ ([32] ++ id ++ ([32] ++ ([123] ++ ([10] ++ (body ++ ([10] ++ ([125] ++ [10]))))))))) ls ∧
      ∀ gen c, GraphM gen c ls ⟨d, st, id, ss⟩ c := wrapped_fin tk_nl d st hid h1 h2

/-- A document whose body is known. -/
theorem wrapped_toked (d st : Bool) {id : Str} (hid : id = [] ∨ ValidId id) {body : Str} {ls : List Lexeme} {ss : List Stmt} (h1 : Toked Any body ls)
    (h2 : ∀ gen c, OptStmtsM gen c ls ss c) :
    ∃ ls, Toked Any ((if st then b!"strict " else []) ++ (typeStr d ++ ([32] ++ id ++ ([32] ++ ([123] ++ ([10] ++ (body ++ ([10] ++ ([125] ++ [10]))))))))) ls ∧
      ∀ gen c, GraphM gen c ls ⟨d, st, id, ss⟩ c :=
  wrapped_line d st hid (h1.anyThen tk_nl) (by simpa using h2)

/-- The text of a printable document. -/
theorem graph_toked {g : Ast.Graph} (h : Printable g) : ∃ ls, Toked Any (graphStr g) ls ∧ ∀ gen c, GraphM gen c ls (norm g) c := by
  obtain ⟨d, st, id, ss⟩ := g
  obtain ⟨hid, hss⟩ := h
  simp only at hid hss
  have htab : Tabs (b!"\t") := by intro c hc; simpa using hc
  obtain ⟨ls, h1, h2⟩ := body_toked htab ss hss
  obtain ⟨ls', h3, h4⟩ := wrapped_toked d st hid h1 h2
  have e : graphStr ⟨d, st, id, ss⟩ = (if st then b!"strict " else []) ++ (typeStr d ++ ([32] ++ id ++ ([32] ++ ([123] ++ ([10] ++
        (trimSuffixNL (stmtsLines (b!"\t") ss) ++ ([10] ++ ([125] ++ [10]))))))))  := by
    simp [graphStr, stmtListStr]
  exact ⟨ls', by rw [e]; exact h3, h4⟩

/-- The text of a printable document without the last line break. -/
theorem graph_toked_brace {g : Ast.Graph} (h : Printable g) : ∃ s ls, graphStr g = s ++ [125, 10] ∧ Toked Any (s ++ [125]) ls ∧
    ∀ gen c, GraphM gen c ls (norm g) c := by
  obtain ⟨d, st, id, ss⟩ := g
  obtain ⟨hid, hss⟩ := h
  simp only at hid hss
  have htab : Tabs (b!"\t") := by intro c hc; simpa using hc
  obtain ⟨ls, h1, h2⟩ := body_toked htab ss hss
  obtain ⟨ls', h3, h4⟩ := wrapped_fin (fin := []) .nil d st hid (h1.anyThen tk_nl) (by simpa using h2)
  refine ⟨(if st then b!"strict " else []) ++ (typeStr d ++ ([32] ++ id ++ ([32] ++ ([123] ++ ([10] ++
        (trimSuffixNL (stmtsLines (b!"\t") ss) ++ [10])))))), ls', ?_, ?_, h4⟩
  · simp [graphStr, stmtListStr]
  · simpa only [List.append_assoc, List.append_nil] using h3

end Gographviz.Print
