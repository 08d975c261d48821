import Verif.Proofs.ParseEval
/-!
The converse: every meaning of Spec/Meaning.lean is the value of a parse tree.
-/
namespace Gographviz.Parse

open Gographviz Gographviz.Lex Gographviz.Spec.Grammar Gographviz.Spec.Meaning
open Gographviz.Ast (Stmt Loc EdgeRH)

/-- There is a parse tree for the tokens with the value. -/
def Parses (rnd : Nat → Nat) (X : Sym) (c : Nat) (toks : List Token) (v : Attrib) (c' : Nat) : Prop :=
  ∃ T, Derives X T ∧ yield T = toks ∧ evalT rnd c T = some (v, c')

def ParsesAll (rnd : Nat → Nat) (Xs : List Sym) (c : Nat) (toks : List Token) (vs : List Attrib) (c' : Nat) : Prop :=
  ∃ Ts, DerivesAll Xs Ts ∧ yields Ts = toks ∧ evalTs rnd c Ts = some (vs, c')

variable {rnd : Nat → Nat}

theorem ParsesAll.nil {c : Nat} : ParsesAll rnd [] c [] [] c := ⟨[], .nil, rfl, rfl⟩

theorem ParsesAll.cons {X : Sym} {Xs : List Sym} {c c1 c2 : Nat} {ts us : List Token} {v : Attrib} {vs : List Attrib}
    (h : Parses rnd X c ts v c1) (h' : ParsesAll rnd Xs c1 us vs c2) : ParsesAll rnd (X :: Xs) c (ts ++ us) (v :: vs) c2 := by
  obtain ⟨T, h1, rfl, h3⟩ := h
  obtain ⟨Ts, h4, rfl, h6⟩ := h'
  exact ⟨T :: Ts, .cons h1 h4, rfl, by simp only [evalTs, h3, h6]⟩

theorem ParsesAll.last {X : Sym} {c c1 : Nat} {ts : List Token} {v : Attrib}
    (h : Parses rnd X c ts v c1) : ParsesAll rnd [X] c ts [v] c1 := by
  simpa using ParsesAll.cons h .nil

theorem ParsesAll.tok {k : Nat} {Xs : List Sym} {c c2 : Nat} {t : Token} {us : List Token} {vs : List Attrib}
    (h : t.typ = k) (h' : ParsesAll rnd Xs c us vs c2) : ParsesAll rnd (.t k :: Xs) c (t :: us) (.tok t :: vs) c2 := by
  subst h
  exact ParsesAll.cons (ts := [t]) ⟨.leaf t, .leaf, rfl, rfl⟩ h'

theorem Parses.node {r : Nat} {N : NT} {rhs : List Sym} (hr : rules[r]? = some (N, rhs)) {c c' : Nat} {toks : List Token} {vs : List Attrib}
    (h : ParsesAll rnd rhs c toks vs c') {a : Act} {v : Attrib} {n : Nat} (ha : prodActs[r + 1]? = some a)
    (he : evalAct (anonName (rnd c')) vs a = some (.ok v)) (hn : (if actDraws vs a then 1 else 0) = n) :
    Parses rnd (.n N) c toks v (c' + n) := by
  obtain ⟨Ts, h1, rfl, h3⟩ := h
  exact ⟨.node r Ts, .node hr h1, rfl, by simp only [evalT, h3, ha, he, hn]⟩

theorem lx_cons {toks : List Token} {k : Nat} {l : Str} {ts : List Lexeme} (h : toks.map lx = (k, l) :: ts) :
    ∃ t us, toks = t :: us ∧ t.typ = k ∧ t.lit = l ∧ us.map lx = ts := by
  cases toks with
  | nil => simp at h
  | cons t us =>
    simp only [List.map_cons, List.cons.injEq, lx, Prod.mk.injEq] at h
    exact ⟨t, us, rfl, h.1.1, h.1.2, h.2⟩

theorem lx_cons' {toks : List Token} {x : Lexeme} {ts : List Lexeme} (h : toks.map lx = x :: ts) :
    ∃ t us, toks = t :: us ∧ lx t = x ∧ us.map lx = ts := by
  cases toks with
  | nil => simp at h
  | cons t us => simp only [List.map_cons, List.cons.injEq] at h; exact ⟨t, us, rfl, h.1, h.2⟩

theorem lx_append {toks : List Token} {ts us : List Lexeme} (h : toks.map lx = ts ++ us) :
    ∃ as bs, toks = as ++ bs ∧ as.map lx = ts ∧ bs.map lx = us := by
  obtain ⟨as, bs, h1, h2, h3⟩ := List.map_eq_append_iff.mp h
  exact ⟨as, bs, h1, h2, h3⟩

theorem lx_nil {toks : List Token} (h : toks.map lx = []) : toks = [] := by simpa using h

theorem idsOk_append {as bs : List Token} (h : IdsOk (as ++ bs)) : IdsOk as ∧ IdsOk bs :=
  ⟨fun t ht => h t (by simp [ht]), fun t ht => h t (by simp [ht])⟩

theorem idsOk_cons {a : Token} {bs : List Token} (h : IdsOk (a :: bs)) : IdsOk bs := fun t ht => h t (by simp [ht])

theorem parses_id {t : Token} (h : t.typ = 18) (c : Nat) : Parses rnd (.n .Id) c [t] (.id t.lit) c :=
  Parses.node (r := 58) rfl (.tok h .nil) rfl rfl rfl

theorem parses_attr {ts : List Lexeme} {a : Ast.Attr} (h : AttrM ts a) {toks : List Token} (ht : toks.map lx = ts) (c : Nat) :
    Parses rnd (.n .Attr) c toks (.attr a) c := by
  cases h with
  | flag =>
    obtain ⟨t, us, rfl, h1, rfl, h2⟩ := lx_cons ht
    obtain rfl := lx_nil h2
    exact Parses.node (r := 35) rfl (.last (parses_id h1 c)) rfl rfl rfl
  | pair =>
    obtain ⟨t, us, rfl, h1, rfl, h2⟩ := lx_cons ht
    obtain ⟨t2, us, rfl, h3, rfl, h4⟩ := lx_cons h2
    obtain ⟨t3, us, rfl, h5, rfl, h6⟩ := lx_cons h4
    obtain rfl := lx_nil h6
    exact Parses.node (r := 36) rfl (.cons (parses_id h1 c) (.tok h3 (.last (parses_id h5 c)))) rfl rfl rfl

theorem parses_alist {ts : List Lexeme} {as : Ast.AList} (h : AListM ts as) {toks : List Token} (ht : toks.map lx = ts) (c : Nat) :
    Parses rnd (.n .AList) c toks (.alist as) c := by
  induction h generalizing toks with
  | one h => exact Parses.node (r := 32) rfl (.last (parses_attr h ht c)) rfl rfl rfl
  | snoc h1 h2 h3 ih =>
    obtain ⟨x, y, rfl, hx, hy⟩ := lx_append ht
    cases h2 with
    | absent => exact Parses.node (r := 33) rfl (.cons (ih hx) (.last (parses_attr h3 hy c))) rfl rfl rfl
    | present =>
      obtain ⟨t, us, rfl, h4, rfl, h5⟩ := lx_cons hy
      exact Parses.node (r := 34) rfl (.cons (ih hx) (.tok h4 (.last (parses_attr h3 h5 c)))) rfl rfl rfl

theorem parses_attrList {ts : List Lexeme} {as : Ast.AttrList} (h : AttrListM ts as) {toks : List Token} (ht : toks.map lx = ts) (c : Nat) :
    Parses rnd (.n .AttrList) c toks (.attrList as) c := by
  induction h generalizing toks with
  | one h =>
    cases h with
    | empty =>
      obtain ⟨t, us, rfl, h1, rfl, h2⟩ := lx_cons ht
      obtain ⟨t2, us, rfl, h3, rfl, h4⟩ := lx_cons h2
      obtain rfl := lx_nil h4
      exact Parses.node (r := 28) rfl (.tok h1 (.tok h3 .nil)) rfl rfl rfl
    | full h =>
      obtain ⟨t, us, rfl, h1, rfl, h2⟩ := lx_cons ht
      obtain ⟨x, y, rfl, hx, hy⟩ := lx_append h2
      obtain ⟨t2, us, rfl, h3, rfl, h4⟩ := lx_cons hy
      obtain rfl := lx_nil h4
      exact Parses.node (r := 29) rfl (.tok h1 (.cons (parses_alist h hx c) (.tok h3 .nil))) rfl rfl rfl
  | snoc h1 h2 ih =>
    obtain ⟨x0, y0, rfl, hx0, hy0⟩ := lx_append ht
    have ih := ih hx0
    cases h2 with
    | empty =>
      obtain ⟨t, us, rfl, h1, rfl, h2⟩ := lx_cons hy0
      obtain ⟨t2, us, rfl, h3, rfl, h4⟩ := lx_cons h2
      obtain rfl := lx_nil h4
      rw [List.append_nil]
      exact Parses.node (r := 30) rfl (.cons ih (.tok h1 (.tok h3 .nil))) rfl rfl rfl
    | full h =>
      obtain ⟨t, us, rfl, h1, rfl, h2⟩ := lx_cons hy0
      obtain ⟨x, y, rfl, hx, hy⟩ := lx_append h2
      obtain ⟨t2, us, rfl, h3, rfl, h4⟩ := lx_cons hy
      obtain rfl := lx_nil h4
      exact Parses.node (r := 31) rfl (.cons ih (.tok h1 (.cons (parses_alist h hx c) (.tok h3 .nil)))) rfl rfl rfl

theorem parses_nodeId {ts : List Lexeme} {n : Ast.NodeID} (h : NodeIdM ts n) {toks : List Token} (ht : toks.map lx = ts) (c : Nat) :
    Parses rnd (.n .NodeId) c toks (.nodeId n) c := by
  cases h with
  | plain =>
    obtain ⟨t, us, rfl, h1, rfl, h2⟩ := lx_cons ht
    obtain rfl := lx_nil h2
    exact Parses.node (r := 47) rfl (.last (parses_id h1 c)) rfl rfl rfl
  | port =>
    obtain ⟨t, us, rfl, h1, rfl, h2⟩ := lx_cons ht
    obtain ⟨t2, us, rfl, h3, rfl, h4⟩ := lx_cons h2
    obtain ⟨t3, us, rfl, h5, rfl, h6⟩ := lx_cons h4
    obtain rfl := lx_nil h6
    have hp : Parses rnd (.n .Port) c [t2, t3] (.port ⟨t3.lit, []⟩) c :=
      Parses.node (r := 49) rfl (.tok h3 (.last (parses_id h5 c))) rfl rfl rfl
    exact Parses.node (r := 48) rfl (.cons (parses_id h1 c) (.last hp)) rfl rfl rfl
  | port2 =>
    obtain ⟨t, us, rfl, h1, rfl, h2⟩ := lx_cons ht
    obtain ⟨t2, us, rfl, h3, rfl, h4⟩ := lx_cons h2
    obtain ⟨t3, us, rfl, h5, rfl, h6⟩ := lx_cons h4
    obtain ⟨t4, us, rfl, h7, rfl, h8⟩ := lx_cons h6
    obtain ⟨t5, us, rfl, h9, rfl, h10⟩ := lx_cons h8
    obtain rfl := lx_nil h10
    have hp : Parses rnd (.n .Port) c [t2, t3, t4, t5] (.port ⟨t3.lit, t5.lit⟩) c :=
      Parses.node (r := 50) rfl (.tok h3 (.cons (parses_id h5 c) (.tok h7 (.last (parses_id h9 c))))) rfl rfl rfl
    exact Parses.node (r := 48) rfl (.cons (parses_id h1 c) (.last hp)) rfl rfl rfl

theorem parses_op {x : Lexeme} {d : Bool} (h : OpM x d) {t : Token} (ht : lx t = x) (c : Nat) : Parses rnd (.n .EdgeOp) c [t] (.op d) c := by
  cases h with
  | directed => simp only [lx, Prod.mk.injEq] at ht; exact Parses.node (r := 56) rfl (.tok ht.1 .nil) rfl rfl rfl
  | undirected => simp only [lx, Prod.mk.injEq] at ht; exact Parses.node (r := 57) rfl (.tok ht.1 .nil) rfl rfl rfl

theorem parses_stmt1 {c c' : Nat} {sm : List Lexeme} {as bs : List Token} {v : Attrib} (h : Parses rnd (.n .Stmt) c as v c') (ho : Opt 7 sm)
    (hb : bs.map lx = sm) : Parses rnd (.n .Stmt1) c (as ++ bs) v c' := by
  cases ho with
  | absent =>
    obtain rfl := lx_nil hb
    rw [List.append_nil]
    exact Parses.node (r := 18) rfl (.last h) rfl rfl rfl
  | present =>
    obtain ⟨t, us, rfl, h1, rfl, h2⟩ := lx_cons hb
    obtain rfl := lx_nil h2
    exact Parses.node (r := 19) rfl (.cons h (.tok h1 .nil)) rfl rfl rfl

/-- An optional statement list: absent, or parsed. -/
def OptParses (rnd : Nat → Nat) (c : Nat) (toks : List Token) (b : List Stmt) (c' : Nat) : Prop :=
  (toks = [] ∧ b = [] ∧ c' = c) ∨ Parses rnd (.n .StmtList) c toks (.stmts b) c'

theorem parses_optStmts {c c' : Nat} {ts : List Lexeme} {ss : List Stmt} (h : OptStmtsM (fun k => anonName (rnd k)) c ts ss c') :
    ∀ {toks : List Token}, toks.map lx = ts → IdsOk toks → OptParses rnd c toks ss c' := by
  refine OptStmtsM.rec (gen := fun k => anonName (rnd k))
    (motive_1 := fun c ts s c' _ => ∀ {toks : List Token}, toks.map lx = ts → IdsOk toks →
      ∃ v, Parses rnd (.n .Stmt) c toks v c' ∧ asStmt v = some s)
    (motive_2 := fun c ts l c' _ => ∀ {toks : List Token}, toks.map lx = ts → IdsOk toks →
      ∃ v X, Parses rnd X c toks v c' ∧ asLoc v = some l ∧ (X = .n .NodeId ∨ X = .n .SubGraphStmt))
    (motive_3 := fun c ts es c' _ => ∀ {toks : List Token}, toks.map lx = ts → IdsOk toks →
      Parses rnd (.n .EdgeRHS) c toks (.rhs es) c')
    (motive_4 := fun c ts id b c' _ => ∀ {toks : List Token}, toks.map lx = ts → IdsOk toks →
      Parses rnd (.n .SubGraphStmt) c toks (.sub id b) c')
    (motive_5 := fun c ts ss c' _ => ∀ {toks : List Token}, toks.map lx = ts → IdsOk toks →
      Parses rnd (.n .StmtList) c toks (.stmts ss) c')
    (motive_6 := fun c ts ss c' _ => ∀ {toks : List Token}, toks.map lx = ts → IdsOk toks → OptParses rnd c toks ss c')
    ?_ ?_ ?_ ?_ ?_ ?_ ?_ ?_ ?_ ?_ ?_ ?_ ?_ ?_ ?_ ?_ ?_ ?_ h
  · -- parses_stmt attr
    intro c f l v toks ht hid
    obtain ⟨t, us, rfl, h1, rfl, h2⟩ := lx_cons ht
    obtain ⟨t2, us, rfl, h3, rfl, h4⟩ := lx_cons h2
    obtain ⟨t3, us, rfl, h5, rfl, h6⟩ := lx_cons h4
    obtain rfl := lx_nil h6
    exact ⟨.attr ⟨t.lit, t3.lit⟩, Parses.node (r := 20) rfl (.cons (parses_id h1 c) (.tok h3 (.last (parses_id h5 c)))) rfl rfl rfl, rfl⟩
  · -- parses_stmt node
    intro c ts us n as h1 h2 toks ht hid
    obtain ⟨x, y, rfl, hx, hy⟩ := lx_append ht
    refine ⟨.stmt (.node n as), ?_, rfl⟩
    cases h2 with
    | absent =>
      obtain rfl := lx_nil hy
      have hp : Parses rnd (.n .NodeStmt) c (x ++ []) (.stmt (.node n [])) c :=
        Parses.node (r := 45) rfl (.cons (parses_nodeId h1 hx c) .nil) rfl rfl rfl
      exact Parses.node (r := 21) rfl (.last hp) rfl rfl rfl
    | present h2 =>
      have hp : Parses rnd (.n .NodeStmt) c (x ++ y) (.stmt (.node n as)) c :=
        Parses.node (r := 46) rfl (.cons (parses_nodeId h1 hx c) (.last (parses_attrList h2 hy c))) rfl rfl rfl
      exact Parses.node (r := 21) rfl (.last hp) rfl rfl rfl
  · -- parses_stmt edge
    intro c c1 c' ts us vs src rhs as _ _ h3 ih1 ih2 toks ht hid
    obtain ⟨x, y, rfl, hx, hy⟩ := lx_append ht
    obtain ⟨y, z, rfl, hy, hz⟩ := lx_append hy
    obtain ⟨v, w, hv, hloc, hw⟩ := ih1 hx (idsOk_append hid).1
    have hr := ih2 hy (idsOk_append (idsOk_append hid).2).1
    refine ⟨.stmt (.edge src rhs as), ?_, rfl⟩
    have hp : Parses rnd (.n .EdgeStmt) c (x ++ (y ++ z)) (.stmt (.edge src rhs as)) c' := by
      cases h3 with
      | absent =>
        obtain rfl := lx_nil hz
        rcases hw with rfl | rfl
        · exact Parses.node (r := 37) rfl (.cons hv (.cons hr .nil)) rfl (by simp [evalAct, arg, orNil, isNil, hloc, asRHS, okA]) rfl
        · exact Parses.node (r := 39) rfl (.cons hv (.cons hr .nil)) rfl (by simp [evalAct, arg, orNil, isNil, hloc, asRHS, okA]) rfl
      | present h3 =>
        have ha := parses_attrList (rnd := rnd) h3 hz c'
        rcases hw with rfl | rfl
        · exact Parses.node (r := 38) rfl (.cons hv (.cons hr (.last ha))) rfl (by simp [evalAct, arg, orNil, isNil, hloc, asRHS, asAttrList, okA]) rfl
        · exact Parses.node (r := 40) rfl (.cons hv (.cons hr (.last ha))) rfl (by simp [evalAct, arg, orNil, isNil, hloc, asRHS, asAttrList, okA]) rfl
    exact Parses.node (r := 22) rfl (.last hp) rfl rfl rfl
  · -- parses_stmt graphAttrs
    intro c l ts as h toks ht hid
    obtain ⟨t, us, rfl, h1, rfl, h2⟩ := lx_cons ht
    have hp : Parses rnd (.n .AttrStmt) c (t :: us) (.stmt (.graphAttrs as)) c :=
      Parses.node (r := 25) rfl (.tok h1 (.last (parses_attrList h h2 c))) rfl rfl rfl
    exact ⟨_, Parses.node (r := 23) rfl (.last hp) rfl rfl rfl, rfl⟩
  · -- parses_stmt nodeAttrs
    intro c l ts as h toks ht hid
    obtain ⟨t, us, rfl, h1, rfl, h2⟩ := lx_cons ht
    have hp : Parses rnd (.n .AttrStmt) c (t :: us) (.stmt (.nodeAttrs as)) c :=
      Parses.node (r := 26) rfl (.tok h1 (.last (parses_attrList h h2 c))) rfl rfl rfl
    exact ⟨_, Parses.node (r := 23) rfl (.last hp) rfl rfl rfl, rfl⟩
  · -- parses_stmt edgeAttrs
    intro c l ts as h toks ht hid
    obtain ⟨t, us, rfl, h1, rfl, h2⟩ := lx_cons ht
    have hp : Parses rnd (.n .AttrStmt) c (t :: us) (.stmt (.edgeAttrs as)) c :=
      Parses.node (r := 27) rfl (.tok h1 (.last (parses_attrList h h2 c))) rfl rfl rfl
    exact ⟨_, Parses.node (r := 23) rfl (.last hp) rfl rfl rfl, rfl⟩
  · -- parses_stmt sub
    intro c c' ts id b _ ih toks ht hid
    exact ⟨_, Parses.node (r := 24) rfl (.last (ih ht hid)) rfl rfl rfl, rfl⟩
  · -- parses_loc node
    intro c ts n h toks ht hid
    exact ⟨_, _, parses_nodeId h ht c, rfl, .inl rfl⟩
  · -- parses_loc sub
    intro c c' ts id b _ ih toks ht hid
    exact ⟨_, _, ih ht hid, rfl, .inr rfl⟩
  · -- parses_rhs one
    intro c c' x op ts d h1 _ ih2 toks ht hid
    obtain ⟨t, us, rfl, h3, h4⟩ := lx_cons' ht
    obtain ⟨v, w, hv, hloc, hw⟩ := ih2 h4 (idsOk_cons hid)
    have ho := parses_op (rnd := rnd) h1 (t := t) h3 c
    rcases hw with rfl | rfl
    · exact Parses.node (r := 41) rfl (.cons ho (.last hv)) rfl (by simp [evalAct, arg, hloc, asOp, okA]) rfl
    · exact Parses.node (r := 42) rfl (.cons ho (.last hv)) rfl (by simp [evalAct, arg, hloc, asOp, okA]) rfl
  · -- parses_rhs snoc
    intro c c1 c' ts us rhs x op d _ h1 _ ih0 ih2 toks ht hid
    obtain ⟨x, y, rfl, hx, hy⟩ := lx_append ht
    obtain ⟨t, us, rfl, h3, h4⟩ := lx_cons' hy
    obtain ⟨v, w, hv, hloc, hw⟩ := ih2 h4 (idsOk_cons (idsOk_append hid).2)
    have hr := ih0 hx (idsOk_append hid).1
    have ho := parses_op (rnd := rnd) h1 (t := t) h3
    rcases hw with rfl | rfl
    · exact Parses.node (r := 43) rfl (.cons hr (.cons (ho _) (.last hv))) rfl (by simp [evalAct, arg, hloc, asOp, asRHS, okA]) rfl
    · exact Parses.node (r := 44) rfl (.cons hr (.cons (ho _) (.last hv))) rfl (by simp [evalAct, arg, hloc, asOp, asRHS, okA]) rfl
  · -- parses_sub braces
    intro c c' l l' ts b _ ih toks ht hid
    obtain ⟨t, us, rfl, h1, rfl, h2⟩ := lx_cons ht
    obtain ⟨x, y, rfl, hx, hy⟩ := lx_append h2
    obtain ⟨t2, us, rfl, h3, rfl, h4⟩ := lx_cons hy
    obtain rfl := lx_nil h4
    have hs := ih hx (idsOk_append (idsOk_cons hid)).1
    exact Parses.node (r := 51) rfl (.tok h1 (.cons hs (.tok h3 .nil))) rfl rfl rfl
  · -- parses_sub anon
    intro c c' k l l' ts b _ ih toks ht hid
    obtain ⟨t0, us, rfl, h0, rfl, ht0⟩ := lx_cons ht
    obtain ⟨t, us, rfl, h1, rfl, h2⟩ := lx_cons ht0
    obtain ⟨x, y, rfl, hx, hy⟩ := lx_append h2
    obtain ⟨t2, us, rfl, h3, rfl, h4⟩ := lx_cons hy
    obtain rfl := lx_nil h4
    rcases ih hx (idsOk_append (idsOk_cons (idsOk_cons hid))).1 with ⟨rfl, rfl, rfl⟩ | hs
    · exact Parses.node (r := 54) rfl (.tok h0 (.tok h1 (.tok h3 .nil))) rfl rfl rfl
    · exact Parses.node (r := 52) rfl (.tok h0 (.tok h1 (.cons hs (.tok h3 .nil)))) rfl rfl rfl
  · -- parses_sub named
    intro c c' k s l l' ts b _ ih toks ht hid
    obtain ⟨t0, us, rfl, h0, rfl, ht0⟩ := lx_cons ht
    obtain ⟨t1, us, rfl, h5, rfl, ht1⟩ := lx_cons ht0
    obtain ⟨t, us, rfl, h1, rfl, h2⟩ := lx_cons ht1
    obtain ⟨x, y, rfl, hx, hy⟩ := lx_append h2
    obtain ⟨t2, us, rfl, h3, rfl, h4⟩ := lx_cons hy
    obtain rfl := lx_nil h4
    have hne : t1.lit ≠ [] := hid t1 (by simp) h5
    rcases ih hx (idsOk_append (idsOk_cons (idsOk_cons (idsOk_cons hid)))).1 with ⟨rfl, rfl, rfl⟩ | hs
    · exact Parses.node (r := 55) (n := 0) rfl (.tok h0 (.cons (parses_id h5 c') (.tok h1 (.tok h3 .nil)))) rfl
        (by simp only [evalAct, arg, List.getElem?_cons_zero, List.getElem?_cons_succ, Option.bind_eq_bind, Option.bind_some, draws_named hne]; rfl)
        (by simp [actDraws, arg, draws_named hne])
    · exact Parses.node (r := 53) (n := 0) rfl (.tok h0 (.cons (parses_id h5 c) (.tok h1 (.cons hs (.tok h3 .nil))))) rfl
        (by simp only [evalAct, arg, List.getElem?_cons_zero, List.getElem?_cons_succ, Option.bind_eq_bind, Option.bind_some, draws_named hne]; rfl)
        (by simp [actDraws, arg, draws_named hne])
  · -- parses_stmts one
    intro c c' ts sm s _ h2 ih1 toks ht hid
    obtain ⟨x, y, rfl, hx, hy⟩ := lx_append ht
    obtain ⟨v, hv, hs⟩ := ih1 hx (idsOk_append hid).1
    exact Parses.node (r := 16) rfl (.last (parses_stmt1 hv h2 hy)) rfl (by simp [evalAct, arg, okA, hs]) rfl
  · -- parses_stmts snoc
    intro c c1 c' ts us sm ss s _ _ h3 ih1 ih2 toks ht hid
    obtain ⟨x, y, rfl, hx, hy⟩ := lx_append ht
    obtain ⟨y, z, rfl, hy, hz⟩ := lx_append hy
    have hp := ih1 hx (idsOk_append hid).1
    obtain ⟨v, hv, hs⟩ := ih2 hy (idsOk_append (idsOk_append hid).2).1
    exact Parses.node (r := 17) rfl (.cons hp (.last (parses_stmt1 hv h3 hz))) rfl (by simp [evalAct, arg, okA, hs, asStmts]) rfl
  · -- parses_optStmts absent
    intro c toks ht hid
    exact .inl ⟨lx_nil ht, rfl, rfl⟩
  · -- parses_optStmts present
    intro c c' ts ss _ ih toks ht hid
    exact .inr (ih ht hid)

theorem parses_graph {c c' : Nat} {ts : List Lexeme} {g : Ast.Graph} (h : GraphM (fun k => anonName (rnd k)) c ts g c') {toks : List Token}
    (ht : toks.map lx = ts) (hid : IdsOk toks) : Parses rnd (.n .DotGraph) c toks (.graph g) c' := by
  cases h with
  | mk h1 h2 h3 h4 =>
    obtain ⟨x, y, rfl, hx, hy⟩ := lx_append ht
    have hid1 := (idsOk_append hid).2
    obtain ⟨t, us, rfl, hq, hu⟩ := lx_cons' hy
    obtain ⟨x1, y1, rfl, hx1, hy1⟩ := lx_append hu
    obtain ⟨t1, us, rfl, h5, rfl, h6⟩ := lx_cons hy1
    obtain ⟨x2, y2, rfl, hx2, hy2⟩ := lx_append h6
    obtain ⟨t2, us, rfl, h7, rfl, h8⟩ := lx_cons hy2
    obtain rfl := lx_nil h8
    have ho := parses_optStmts h4 hx2 (idsOk_append (idsOk_cons (idsOk_append (idsOk_cons hid1)).2)).1
    cases h2 with
    | graph =>
      simp only [lx, Prod.mk.injEq] at hq
      cases h1 with
      | absent =>
        obtain rfl := lx_nil hx
        cases h3 with
        | absent =>
          obtain rfl := lx_nil hx1
          rcases ho with ⟨rfl, rfl, rfl⟩ | ho
          · exact Parses.node (r := 0) rfl (.tok hq.1 (.tok h5 (.tok h7 .nil))) rfl rfl rfl
          · exact Parses.node (r := 4) rfl (.tok hq.1 (.tok h5 (.cons ho (.tok h7 .nil)))) rfl rfl rfl
        | present =>
          obtain ⟨t3, us, rfl, h9, rfl, h10⟩ := lx_cons hx1
          obtain rfl := lx_nil h10
          rcases ho with ⟨rfl, rfl, rfl⟩ | ho
          · exact Parses.node (r := 2) rfl (.tok hq.1 (.cons (parses_id h9 c') (.tok h5 (.tok h7 .nil)))) rfl rfl rfl
          · exact Parses.node (r := 5) rfl (.tok hq.1 (.cons (parses_id h9 c) (.tok h5 (.cons ho (.tok h7 .nil))))) rfl rfl rfl
      | present =>
        obtain ⟨t4, us, rfl, h11, rfl, h12⟩ := lx_cons hx
        obtain rfl := lx_nil h12
        cases h3 with
        | absent =>
          obtain rfl := lx_nil hx1
          rcases ho with ⟨rfl, rfl, rfl⟩ | ho
          · exact Parses.node (r := 1) rfl (.tok h11 (.tok hq.1 (.tok h5 (.tok h7 .nil)))) rfl rfl rfl
          · exact Parses.node (r := 6) rfl (.tok h11 (.tok hq.1 (.tok h5 (.cons ho (.tok h7 .nil))))) rfl rfl rfl
        | present =>
          obtain ⟨t3, us, rfl, h9, rfl, h10⟩ := lx_cons hx1
          obtain rfl := lx_nil h10
          rcases ho with ⟨rfl, rfl, rfl⟩ | ho
          · exact Parses.node (r := 3) rfl (.tok h11 (.tok hq.1 (.cons (parses_id h9 c') (.tok h5 (.tok h7 .nil))))) rfl rfl rfl
          · exact Parses.node (r := 7) rfl (.tok h11 (.tok hq.1 (.cons (parses_id h9 c) (.tok h5 (.cons ho (.tok h7 .nil)))))) rfl rfl rfl
    | digraph =>
      simp only [lx, Prod.mk.injEq] at hq
      cases h1 with
      | absent =>
        obtain rfl := lx_nil hx
        cases h3 with
        | absent =>
          obtain rfl := lx_nil hx1
          rcases ho with ⟨rfl, rfl, rfl⟩ | ho
          · exact Parses.node (r := 8) rfl (.tok hq.1 (.tok h5 (.tok h7 .nil))) rfl rfl rfl
          · exact Parses.node (r := 12) rfl (.tok hq.1 (.tok h5 (.cons ho (.tok h7 .nil)))) rfl rfl rfl
        | present =>
          obtain ⟨t3, us, rfl, h9, rfl, h10⟩ := lx_cons hx1
          obtain rfl := lx_nil h10
          rcases ho with ⟨rfl, rfl, rfl⟩ | ho
          · exact Parses.node (r := 10) rfl (.tok hq.1 (.cons (parses_id h9 c') (.tok h5 (.tok h7 .nil)))) rfl rfl rfl
          · exact Parses.node (r := 13) rfl (.tok hq.1 (.cons (parses_id h9 c) (.tok h5 (.cons ho (.tok h7 .nil))))) rfl rfl rfl
      | present =>
        obtain ⟨t4, us, rfl, h11, rfl, h12⟩ := lx_cons hx
        obtain rfl := lx_nil h12
        cases h3 with
        | absent =>
          obtain rfl := lx_nil hx1
          rcases ho with ⟨rfl, rfl, rfl⟩ | ho
          · exact Parses.node (r := 9) rfl (.tok h11 (.tok hq.1 (.tok h5 (.tok h7 .nil)))) rfl rfl rfl
          · exact Parses.node (r := 14) rfl (.tok h11 (.tok hq.1 (.tok h5 (.cons ho (.tok h7 .nil))))) rfl rfl rfl
        | present =>
          obtain ⟨t3, us, rfl, h9, rfl, h10⟩ := lx_cons hx1
          obtain rfl := lx_nil h10
          rcases ho with ⟨rfl, rfl, rfl⟩ | ho
          · exact Parses.node (r := 11) rfl (.tok h11 (.tok hq.1 (.cons (parses_id h9 c') (.tok h5 (.tok h7 .nil))))) rfl rfl rfl
          · exact Parses.node (r := 15) rfl (.tok h11 (.tok hq.1 (.cons (parses_id h9 c) (.tok h5 (.cons ho (.tok h7 .nil)))))) rfl rfl rfl

end Gographviz.Parse
