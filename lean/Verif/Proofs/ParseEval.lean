import Verif.Proofs.LR
import Verif.Spec.Meaning
/-!
The semantic values of parse trees: the actions of the productions compute the meaning of Spec/Meaning.lean.
-/
namespace Gographviz.Parse

open Gographviz Gographviz.Lex Gographviz.Spec.Grammar Gographviz.Spec.Meaning
open Gographviz.Ast (Stmt Loc EdgeRH)

def lx (t : Token) : Lexeme := (t.typ, t.lit)

mutual
/-- The semantic value of a tree and the number of names drawn afterwards. -/
def evalT (rnd : Nat → Nat) (c : Nat) : Tree → Option (Attrib × Nat)
  | .leaf t => some (.tok t, c)
  | .node r cs => match evalTs rnd c cs with
    | none => none
    | some (X, c') => match prodActs[r + 1]? with
      | none => none
      | some a => match evalAct (anonName (rnd c')) X a with
        | some (.ok v) => some (v, c' + (if actDraws X a then 1 else 0))
        | _ => none
def evalTs (rnd : Nat → Nat) (c : Nat) : List Tree → Option (List Attrib × Nat)
  | [] => some ([], c)
  | T :: Ts => match evalT rnd c T with
    | none => none
    | some (v, c') => match evalTs rnd c' Ts with
      | none => none
      | some (vs, c'') => some (v :: vs, c'')
end

/-- What the value of a symbol denotes. -/
def Den (gen : Nat → Str) : Sym → List Lexeme → Nat → Attrib → Nat → Prop
  | .t k, ts, c, v, c' => ∃ tok, ts = [lx tok] ∧ tok.typ = k ∧ (k = 18 → tok.lit ≠ []) ∧ v = .tok tok ∧ c' = c
  | .n .DotGraph, ts, c, v, c' => ∃ g, v = .graph g ∧ GraphM gen c ts g c'
  | .n .StmtList, ts, c, v, c' => ∃ ss, v = .stmts ss ∧ StmtsM gen c ts ss c'
  | .n .Stmt1, ts, c, v, c' => ∃ s us sm, asStmt v = some s ∧ StmtM gen c us s c' ∧ Opt 7 sm ∧ ts = us ++ sm
  | .n .Stmt, ts, c, v, c' => ∃ s, asStmt v = some s ∧ StmtM gen c ts s c'
  | .n .AttrStmt, ts, c, v, c' => ∃ s, v = .stmt s ∧ StmtM gen c ts s c'
  | .n .AttrList, ts, c, v, c' => ∃ as, v = .attrList as ∧ AttrListM ts as ∧ c' = c
  | .n .AList, ts, c, v, c' => ∃ as, v = .alist as ∧ AListM ts as ∧ c' = c
  | .n .Attr, ts, c, v, c' => ∃ a, v = .attr a ∧ AttrM ts a ∧ c' = c
  | .n .EdgeStmt, ts, c, v, c' => ∃ s, v = .stmt s ∧ StmtM gen c ts s c'
  | .n .EdgeRHS, ts, c, v, c' => ∃ es, v = .rhs es ∧ RhsM gen c ts es c'
  | .n .NodeStmt, ts, c, v, c' => ∃ s, v = .stmt s ∧ StmtM gen c ts s c'
  | .n .NodeId, ts, c, v, c' => ∃ n, v = .nodeId n ∧ NodeIdM ts n ∧ c' = c
  | .n .Port, ts, c, v, c' => ∃ p, v = .port p ∧ c' = c ∧
      ((∃ l a, ts = [(14, l), (18, a)] ∧ p = ⟨a, []⟩) ∨ ∃ l a l' b, ts = [(14, l), (18, a), (14, l'), (18, b)] ∧ p = ⟨a, b⟩)
  | .n .SubGraphStmt, ts, c, v, c' => ∃ id b, v = .sub id b ∧ SubM gen c ts id b c'
  | .n .EdgeOp, ts, c, v, c' => ∃ d x, v = .op d ∧ ts = [x] ∧ OpM x d ∧ c' = c
  | .n .Id, ts, c, v, c' => ∃ s, v = .id s ∧ s ≠ [] ∧ ts = [(18, s)] ∧ c' = c

/-- The values of several symbols. -/
def DenAll (gen : Nat → Str) : List Sym → List Lexeme → Nat → List Attrib → Nat → Prop
  | [], ts, c, vs, c' => ts = [] ∧ vs = [] ∧ c' = c
  | X :: Xs, ts, c, vs, c' => ∃ ts1 ts2 v vs' c1, ts = ts1 ++ ts2 ∧ vs = v :: vs' ∧ Den gen X ts1 c v c1 ∧ DenAll gen Xs ts2 c1 vs' c'

/-- The value of the action of a rule. -/
def RuleOk (gen : Nat → Str) (r : Nat) (N : NT) (ts : List Lexeme) (c : Nat) (vs : List Attrib) (c' : Nat) : Prop :=
  ∃ a v n, prodActs[r + 1]? = some a ∧ evalAct (gen c') vs a = some (.ok v) ∧ (if actDraws vs a then 1 else 0) = n ∧ Den gen (.n N) ts c v (c' + n)

theorem denAll_t {gen : Nat → Str} {k : Nat} {Xs : List Sym} {ts : List Lexeme} {c c' : Nat} {vs : List Attrib}
    (h : DenAll gen (.t k :: Xs) ts c vs c') : ∃ (l : Str) (tok : Token) (_ : k = 18 → l ≠ []) (ts2 : List Lexeme) (vs' : List Attrib),
      ts = (k, l) :: ts2 ∧ vs = .tok tok :: vs' ∧ tok.lit = l ∧ DenAll gen Xs ts2 c vs' c' := by
  obtain ⟨ts1, ts2, v, vs', c1, rfl, rfl, ⟨tok, rfl, rfl, hl, rfl, rfl⟩, h⟩ := h
  exact ⟨tok.lit, tok, hl, ts2, vs', rfl, rfl, rfl, h⟩

theorem draws_named {s : Str} (h : s ≠ []) : drawsName (.id s) = false := by
  cases s with
  | nil => exact absurd rfl h
  | cons => rfl

theorem rule0 {gen : Nat → Str} {ts : List Lexeme} {c c' : Nat} {vs : List Attrib} (h0 : DenAll gen [graphx, lbrace, rbrace] ts c vs c') :
    RuleOk gen 0 .DotGraph ts c vs c' := by
  obtain ⟨k0, m0, n0, _, _, rfl, rfl, rfl, h1⟩ := denAll_t h0
  obtain ⟨k1, m1, n1, _, _, rfl, rfl, rfl, h2⟩ := denAll_t h1
  obtain ⟨k2, m2, n2, _, _, rfl, rfl, rfl, h3⟩ := denAll_t h2
  obtain ⟨rfl, rfl, rfl⟩ := h3
  refine ⟨_, _, 0, rfl, rfl, rfl, ?_⟩
  exact ⟨_, rfl, by simpa using GraphM.mk (gen := gen) (.absent) (.graph) (.absent) (.absent)⟩

theorem rule1 {gen : Nat → Str} {ts : List Lexeme} {c c' : Nat} {vs : List Attrib} (h0 : DenAll gen [strict, graphx, lbrace, rbrace] ts c vs c') :
    RuleOk gen 1 .DotGraph ts c vs c' := by
  obtain ⟨k0, m0, n0, _, _, rfl, rfl, rfl, h1⟩ := denAll_t h0
  obtain ⟨k1, m1, n1, _, _, rfl, rfl, rfl, h2⟩ := denAll_t h1
  obtain ⟨k2, m2, n2, _, _, rfl, rfl, rfl, h3⟩ := denAll_t h2
  obtain ⟨k3, m3, n3, _, _, rfl, rfl, rfl, h4⟩ := denAll_t h3
  obtain ⟨rfl, rfl, rfl⟩ := h4
  refine ⟨_, _, 0, rfl, rfl, rfl, ?_⟩
  exact ⟨_, rfl, by simpa using GraphM.mk (gen := gen) (.present (l := m0.lit)) (.graph) (.absent) (.absent)⟩

theorem rule2 {gen : Nat → Str} {ts : List Lexeme} {c c' : Nat} {vs : List Attrib} (h0 : DenAll gen [graphx, .n .Id, lbrace, rbrace] ts c vs c') :
    RuleOk gen 2 .DotGraph ts c vs c' := by
  obtain ⟨k0, m0, n0, _, _, rfl, rfl, rfl, h1⟩ := denAll_t h0
  obtain ⟨ts1, _, v1, _, c1, rfl, rfl, d1, h2⟩ := h1
  obtain ⟨s1, rfl, z1, rfl, rfl⟩ := d1
  obtain ⟨k2, m2, n2, _, _, rfl, rfl, rfl, h3⟩ := denAll_t h2
  obtain ⟨k3, m3, n3, _, _, rfl, rfl, rfl, h4⟩ := denAll_t h3
  obtain ⟨rfl, rfl, rfl⟩ := h4
  refine ⟨_, _, 0, rfl, rfl, rfl, ?_⟩
  exact ⟨_, rfl, by simpa using GraphM.mk (gen := gen) (.absent) (.graph) (.present) (.absent)⟩

theorem rule3 {gen : Nat → Str} {ts : List Lexeme} {c c' : Nat} {vs : List Attrib} (h0 : DenAll gen [strict, graphx, .n .Id, lbrace, rbrace] ts c vs c') :
    RuleOk gen 3 .DotGraph ts c vs c' := by
  obtain ⟨k0, m0, n0, _, _, rfl, rfl, rfl, h1⟩ := denAll_t h0
  obtain ⟨k1, m1, n1, _, _, rfl, rfl, rfl, h2⟩ := denAll_t h1
  obtain ⟨ts2, _, v2, _, c2, rfl, rfl, d2, h3⟩ := h2
  obtain ⟨s2, rfl, z2, rfl, rfl⟩ := d2
  obtain ⟨k3, m3, n3, _, _, rfl, rfl, rfl, h4⟩ := denAll_t h3
  obtain ⟨k4, m4, n4, _, _, rfl, rfl, rfl, h5⟩ := denAll_t h4
  obtain ⟨rfl, rfl, rfl⟩ := h5
  refine ⟨_, _, 0, rfl, rfl, rfl, ?_⟩
  exact ⟨_, rfl, by simpa using GraphM.mk (gen := gen) (.present (l := m0.lit)) (.graph) (.present) (.absent)⟩

theorem rule4 {gen : Nat → Str} {ts : List Lexeme} {c c' : Nat} {vs : List Attrib} (h0 : DenAll gen [graphx, lbrace, .n .StmtList, rbrace] ts c vs c') :
    RuleOk gen 4 .DotGraph ts c vs c' := by
  obtain ⟨k0, m0, n0, _, _, rfl, rfl, rfl, h1⟩ := denAll_t h0
  obtain ⟨k1, m1, n1, _, _, rfl, rfl, rfl, h2⟩ := denAll_t h1
  obtain ⟨ts2, _, v2, _, c2, rfl, rfl, d2, h3⟩ := h2
  obtain ⟨ss2, rfl, e2⟩ := d2
  obtain ⟨k3, m3, n3, _, _, rfl, rfl, rfl, h4⟩ := denAll_t h3
  obtain ⟨rfl, rfl, rfl⟩ := h4
  refine ⟨_, _, 0, rfl, rfl, rfl, ?_⟩
  exact ⟨_, rfl, by simpa using GraphM.mk (gen := gen) (.absent) (.graph) (.absent) (.present e2)⟩

theorem rule5 {gen : Nat → Str} {ts : List Lexeme} {c c' : Nat} {vs : List Attrib} (h0 : DenAll gen [graphx, .n .Id, lbrace, .n .StmtList, rbrace] ts c vs c') :
    RuleOk gen 5 .DotGraph ts c vs c' := by
  obtain ⟨k0, m0, n0, _, _, rfl, rfl, rfl, h1⟩ := denAll_t h0
  obtain ⟨ts1, _, v1, _, c1, rfl, rfl, d1, h2⟩ := h1
  obtain ⟨s1, rfl, z1, rfl, rfl⟩ := d1
  obtain ⟨k2, m2, n2, _, _, rfl, rfl, rfl, h3⟩ := denAll_t h2
  obtain ⟨ts3, _, v3, _, c3, rfl, rfl, d3, h4⟩ := h3
  obtain ⟨ss3, rfl, e3⟩ := d3
  obtain ⟨k4, m4, n4, _, _, rfl, rfl, rfl, h5⟩ := denAll_t h4
  obtain ⟨rfl, rfl, rfl⟩ := h5
  refine ⟨_, _, 0, rfl, rfl, rfl, ?_⟩
  exact ⟨_, rfl, by simpa using GraphM.mk (gen := gen) (.absent) (.graph) (.present) (.present e3)⟩

theorem rule6 {gen : Nat → Str} {ts : List Lexeme} {c c' : Nat} {vs : List Attrib} (h0 : DenAll gen [strict, graphx, lbrace, .n .StmtList, rbrace] ts c vs c') :
    RuleOk gen 6 .DotGraph ts c vs c' := by
  obtain ⟨k0, m0, n0, _, _, rfl, rfl, rfl, h1⟩ := denAll_t h0
  obtain ⟨k1, m1, n1, _, _, rfl, rfl, rfl, h2⟩ := denAll_t h1
  obtain ⟨k2, m2, n2, _, _, rfl, rfl, rfl, h3⟩ := denAll_t h2
  obtain ⟨ts3, _, v3, _, c3, rfl, rfl, d3, h4⟩ := h3
  obtain ⟨ss3, rfl, e3⟩ := d3
  obtain ⟨k4, m4, n4, _, _, rfl, rfl, rfl, h5⟩ := denAll_t h4
  obtain ⟨rfl, rfl, rfl⟩ := h5
  refine ⟨_, _, 0, rfl, rfl, rfl, ?_⟩
  exact ⟨_, rfl, by simpa using GraphM.mk (gen := gen) (.present (l := m0.lit)) (.graph) (.absent) (.present e3)⟩

theorem rule7 {gen : Nat → Str} {ts : List Lexeme} {c c' : Nat} {vs : List Attrib} (h0 : DenAll gen [strict, graphx, .n .Id, lbrace, .n .StmtList, rbrace] ts c vs c') :
    RuleOk gen 7 .DotGraph ts c vs c' := by
  obtain ⟨k0, m0, n0, _, _, rfl, rfl, rfl, h1⟩ := denAll_t h0
  obtain ⟨k1, m1, n1, _, _, rfl, rfl, rfl, h2⟩ := denAll_t h1
  obtain ⟨ts2, _, v2, _, c2, rfl, rfl, d2, h3⟩ := h2
  obtain ⟨s2, rfl, z2, rfl, rfl⟩ := d2
  obtain ⟨k3, m3, n3, _, _, rfl, rfl, rfl, h4⟩ := denAll_t h3
  obtain ⟨ts4, _, v4, _, c4, rfl, rfl, d4, h5⟩ := h4
  obtain ⟨ss4, rfl, e4⟩ := d4
  obtain ⟨k5, m5, n5, _, _, rfl, rfl, rfl, h6⟩ := denAll_t h5
  obtain ⟨rfl, rfl, rfl⟩ := h6
  refine ⟨_, _, 0, rfl, rfl, rfl, ?_⟩
  exact ⟨_, rfl, by simpa using GraphM.mk (gen := gen) (.present (l := m0.lit)) (.graph) (.present) (.present e4)⟩

theorem rule8 {gen : Nat → Str} {ts : List Lexeme} {c c' : Nat} {vs : List Attrib} (h0 : DenAll gen [digraph, lbrace, rbrace] ts c vs c') :
    RuleOk gen 8 .DotGraph ts c vs c' := by
  obtain ⟨k0, m0, n0, _, _, rfl, rfl, rfl, h1⟩ := denAll_t h0
  obtain ⟨k1, m1, n1, _, _, rfl, rfl, rfl, h2⟩ := denAll_t h1
  obtain ⟨k2, m2, n2, _, _, rfl, rfl, rfl, h3⟩ := denAll_t h2
  obtain ⟨rfl, rfl, rfl⟩ := h3
  refine ⟨_, _, 0, rfl, rfl, rfl, ?_⟩
  exact ⟨_, rfl, by simpa using GraphM.mk (gen := gen) (.absent) (.digraph) (.absent) (.absent)⟩

theorem rule9 {gen : Nat → Str} {ts : List Lexeme} {c c' : Nat} {vs : List Attrib} (h0 : DenAll gen [strict, digraph, lbrace, rbrace] ts c vs c') :
    RuleOk gen 9 .DotGraph ts c vs c' := by
  obtain ⟨k0, m0, n0, _, _, rfl, rfl, rfl, h1⟩ := denAll_t h0
  obtain ⟨k1, m1, n1, _, _, rfl, rfl, rfl, h2⟩ := denAll_t h1
  obtain ⟨k2, m2, n2, _, _, rfl, rfl, rfl, h3⟩ := denAll_t h2
  obtain ⟨k3, m3, n3, _, _, rfl, rfl, rfl, h4⟩ := denAll_t h3
  obtain ⟨rfl, rfl, rfl⟩ := h4
  refine ⟨_, _, 0, rfl, rfl, rfl, ?_⟩
  exact ⟨_, rfl, by simpa using GraphM.mk (gen := gen) (.present (l := m0.lit)) (.digraph) (.absent) (.absent)⟩

theorem rule10 {gen : Nat → Str} {ts : List Lexeme} {c c' : Nat} {vs : List Attrib} (h0 : DenAll gen [digraph, .n .Id, lbrace, rbrace] ts c vs c') :
    RuleOk gen 10 .DotGraph ts c vs c' := by
  obtain ⟨k0, m0, n0, _, _, rfl, rfl, rfl, h1⟩ := denAll_t h0
  obtain ⟨ts1, _, v1, _, c1, rfl, rfl, d1, h2⟩ := h1
  obtain ⟨s1, rfl, z1, rfl, rfl⟩ := d1
  obtain ⟨k2, m2, n2, _, _, rfl, rfl, rfl, h3⟩ := denAll_t h2
  obtain ⟨k3, m3, n3, _, _, rfl, rfl, rfl, h4⟩ := denAll_t h3
  obtain ⟨rfl, rfl, rfl⟩ := h4
  refine ⟨_, _, 0, rfl, rfl, rfl, ?_⟩
  exact ⟨_, rfl, by simpa using GraphM.mk (gen := gen) (.absent) (.digraph) (.present) (.absent)⟩

theorem rule11 {gen : Nat → Str} {ts : List Lexeme} {c c' : Nat} {vs : List Attrib} (h0 : DenAll gen [strict, digraph, .n .Id, lbrace, rbrace] ts c vs c') :
    RuleOk gen 11 .DotGraph ts c vs c' := by
  obtain ⟨k0, m0, n0, _, _, rfl, rfl, rfl, h1⟩ := denAll_t h0
  obtain ⟨k1, m1, n1, _, _, rfl, rfl, rfl, h2⟩ := denAll_t h1
  obtain ⟨ts2, _, v2, _, c2, rfl, rfl, d2, h3⟩ := h2
  obtain ⟨s2, rfl, z2, rfl, rfl⟩ := d2
  obtain ⟨k3, m3, n3, _, _, rfl, rfl, rfl, h4⟩ := denAll_t h3
  obtain ⟨k4, m4, n4, _, _, rfl, rfl, rfl, h5⟩ := denAll_t h4
  obtain ⟨rfl, rfl, rfl⟩ := h5
  refine ⟨_, _, 0, rfl, rfl, rfl, ?_⟩
  exact ⟨_, rfl, by simpa using GraphM.mk (gen := gen) (.present (l := m0.lit)) (.digraph) (.present) (.absent)⟩

theorem rule12 {gen : Nat → Str} {ts : List Lexeme} {c c' : Nat} {vs : List Attrib} (h0 : DenAll gen [digraph, lbrace, .n .StmtList, rbrace] ts c vs c') :
    RuleOk gen 12 .DotGraph ts c vs c' := by
  obtain ⟨k0, m0, n0, _, _, rfl, rfl, rfl, h1⟩ := denAll_t h0
  obtain ⟨k1, m1, n1, _, _, rfl, rfl, rfl, h2⟩ := denAll_t h1
  obtain ⟨ts2, _, v2, _, c2, rfl, rfl, d2, h3⟩ := h2
  obtain ⟨ss2, rfl, e2⟩ := d2
  obtain ⟨k3, m3, n3, _, _, rfl, rfl, rfl, h4⟩ := denAll_t h3
  obtain ⟨rfl, rfl, rfl⟩ := h4
  refine ⟨_, _, 0, rfl, rfl, rfl, ?_⟩
  exact ⟨_, rfl, by simpa using GraphM.mk (gen := gen) (.absent) (.digraph) (.absent) (.present e2)⟩

theorem rule13 {gen : Nat → Str} {ts : List Lexeme} {c c' : Nat} {vs : List Attrib} (h0 : DenAll gen [digraph, .n .Id, lbrace, .n .StmtList, rbrace] ts c vs c') :
    RuleOk gen 13 .DotGraph ts c vs c' := by
  obtain ⟨k0, m0, n0, _, _, rfl, rfl, rfl, h1⟩ := denAll_t h0
  obtain ⟨ts1, _, v1, _, c1, rfl, rfl, d1, h2⟩ := h1
  obtain ⟨s1, rfl, z1, rfl, rfl⟩ := d1
  obtain ⟨k2, m2, n2, _, _, rfl, rfl, rfl, h3⟩ := denAll_t h2
  obtain ⟨ts3, _, v3, _, c3, rfl, rfl, d3, h4⟩ := h3
  obtain ⟨ss3, rfl, e3⟩ := d3
  obtain ⟨k4, m4, n4, _, _, rfl, rfl, rfl, h5⟩ := denAll_t h4
  obtain ⟨rfl, rfl, rfl⟩ := h5
  refine ⟨_, _, 0, rfl, rfl, rfl, ?_⟩
  exact ⟨_, rfl, by simpa using GraphM.mk (gen := gen) (.absent) (.digraph) (.present) (.present e3)⟩

theorem rule14 {gen : Nat → Str} {ts : List Lexeme} {c c' : Nat} {vs : List Attrib} (h0 : DenAll gen [strict, digraph, lbrace, .n .StmtList, rbrace] ts c vs c') :
    RuleOk gen 14 .DotGraph ts c vs c' := by
  obtain ⟨k0, m0, n0, _, _, rfl, rfl, rfl, h1⟩ := denAll_t h0
  obtain ⟨k1, m1, n1, _, _, rfl, rfl, rfl, h2⟩ := denAll_t h1
  obtain ⟨k2, m2, n2, _, _, rfl, rfl, rfl, h3⟩ := denAll_t h2
  obtain ⟨ts3, _, v3, _, c3, rfl, rfl, d3, h4⟩ := h3
  obtain ⟨ss3, rfl, e3⟩ := d3
  obtain ⟨k4, m4, n4, _, _, rfl, rfl, rfl, h5⟩ := denAll_t h4
  obtain ⟨rfl, rfl, rfl⟩ := h5
  refine ⟨_, _, 0, rfl, rfl, rfl, ?_⟩
  exact ⟨_, rfl, by simpa using GraphM.mk (gen := gen) (.present (l := m0.lit)) (.digraph) (.absent) (.present e3)⟩

theorem rule15 {gen : Nat → Str} {ts : List Lexeme} {c c' : Nat} {vs : List Attrib} (h0 : DenAll gen [strict, digraph, .n .Id, lbrace, .n .StmtList, rbrace] ts c vs c') :
    RuleOk gen 15 .DotGraph ts c vs c' := by
  obtain ⟨k0, m0, n0, _, _, rfl, rfl, rfl, h1⟩ := denAll_t h0
  obtain ⟨k1, m1, n1, _, _, rfl, rfl, rfl, h2⟩ := denAll_t h1
  obtain ⟨ts2, _, v2, _, c2, rfl, rfl, d2, h3⟩ := h2
  obtain ⟨s2, rfl, z2, rfl, rfl⟩ := d2
  obtain ⟨k3, m3, n3, _, _, rfl, rfl, rfl, h4⟩ := denAll_t h3
  obtain ⟨ts4, _, v4, _, c4, rfl, rfl, d4, h5⟩ := h4
  obtain ⟨ss4, rfl, e4⟩ := d4
  obtain ⟨k5, m5, n5, _, _, rfl, rfl, rfl, h6⟩ := denAll_t h5
  obtain ⟨rfl, rfl, rfl⟩ := h6
  refine ⟨_, _, 0, rfl, rfl, rfl, ?_⟩
  exact ⟨_, rfl, by simpa using GraphM.mk (gen := gen) (.present (l := m0.lit)) (.digraph) (.present) (.present e4)⟩

theorem rule16 {gen : Nat → Str} {ts : List Lexeme} {c c' : Nat} {vs : List Attrib} (h0 : DenAll gen [.n .Stmt1] ts c vs c') :
    RuleOk gen 16 .StmtList ts c vs c' := by
  obtain ⟨ts0, _, v0, _, c0, rfl, rfl, d0, h1⟩ := h0
  obtain ⟨s0, us0, sm0, a0, e0, o0, rfl⟩ := d0
  obtain ⟨rfl, rfl, rfl⟩ := h1
  refine ⟨_, _, 0, rfl, by simp only [evalAct, arg, List.getElem?_cons_zero, Option.bind_eq_bind, Option.bind_some, a0]; rfl, rfl, ?_⟩
  exact ⟨_, rfl, by simpa using StmtsM.one e0 o0⟩

theorem rule17 {gen : Nat → Str} {ts : List Lexeme} {c c' : Nat} {vs : List Attrib} (h0 : DenAll gen [.n .StmtList, .n .Stmt1] ts c vs c') :
    RuleOk gen 17 .StmtList ts c vs c' := by
  obtain ⟨ts0, _, v0, _, c0, rfl, rfl, d0, h1⟩ := h0
  obtain ⟨ss0, rfl, e0⟩ := d0
  obtain ⟨ts1, _, v1, _, c1, rfl, rfl, d1, h2⟩ := h1
  obtain ⟨s1, us1, sm1, a1, e1, o1, rfl⟩ := d1
  obtain ⟨rfl, rfl, rfl⟩ := h2
  refine ⟨_, _, 0, rfl, by simp only [evalAct, arg, List.getElem?_cons_zero, List.getElem?_cons_succ, Option.bind_eq_bind, Option.bind_some, asStmts, a1]; rfl, rfl, ?_⟩
  exact ⟨_, rfl, by simpa using StmtsM.snoc e0 e1 o1⟩

theorem rule18 {gen : Nat → Str} {ts : List Lexeme} {c c' : Nat} {vs : List Attrib} (h0 : DenAll gen [.n .Stmt] ts c vs c') :
    RuleOk gen 18 .Stmt1 ts c vs c' := by
  obtain ⟨ts0, _, v0, _, c0, rfl, rfl, d0, h1⟩ := h0
  obtain ⟨s0, a0, e0⟩ := d0
  obtain ⟨rfl, rfl, rfl⟩ := h1
  refine ⟨_, _, 0, rfl, rfl, rfl, ?_⟩
  exact ⟨_, _, [], a0, e0, .absent, rfl⟩

theorem rule19 {gen : Nat → Str} {ts : List Lexeme} {c c' : Nat} {vs : List Attrib} (h0 : DenAll gen [.n .Stmt, semi] ts c vs c') :
    RuleOk gen 19 .Stmt1 ts c vs c' := by
  obtain ⟨ts0, _, v0, _, c0, rfl, rfl, d0, h1⟩ := h0
  obtain ⟨s0, a0, e0⟩ := d0
  obtain ⟨k1, m1, n1, _, _, rfl, rfl, rfl, h2⟩ := denAll_t h1
  obtain ⟨rfl, rfl, rfl⟩ := h2
  refine ⟨_, _, 0, rfl, rfl, rfl, ?_⟩
  exact ⟨_, _, _, a0, e0, .present, rfl⟩

theorem rule20 {gen : Nat → Str} {ts : List Lexeme} {c c' : Nat} {vs : List Attrib} (h0 : DenAll gen [.n .Id, eq, .n .Id] ts c vs c') :
    RuleOk gen 20 .Stmt ts c vs c' := by
  obtain ⟨ts0, _, v0, _, c0, rfl, rfl, d0, h1⟩ := h0
  obtain ⟨s0, rfl, z0, rfl, rfl⟩ := d0
  obtain ⟨k1, m1, n1, _, _, rfl, rfl, rfl, h2⟩ := denAll_t h1
  obtain ⟨ts2, _, v2, _, c2, rfl, rfl, d2, h3⟩ := h2
  obtain ⟨s2, rfl, z2, rfl, rfl⟩ := d2
  obtain ⟨rfl, rfl, rfl⟩ := h3
  refine ⟨_, _, 0, rfl, rfl, rfl, ?_⟩
  exact ⟨_, rfl, by simpa using StmtM.attr⟩

theorem rule21 {gen : Nat → Str} {ts : List Lexeme} {c c' : Nat} {vs : List Attrib} (h0 : DenAll gen [.n .NodeStmt] ts c vs c') :
    RuleOk gen 21 .Stmt ts c vs c' := by
  obtain ⟨ts0, _, v0, _, c0, rfl, rfl, d0, h1⟩ := h0
  obtain ⟨s0, rfl, e0⟩ := d0
  obtain ⟨rfl, rfl, rfl⟩ := h1
  refine ⟨_, _, 0, rfl, rfl, rfl, ?_⟩
  exact ⟨_, rfl, by simpa using e0⟩

theorem rule22 {gen : Nat → Str} {ts : List Lexeme} {c c' : Nat} {vs : List Attrib} (h0 : DenAll gen [.n .EdgeStmt] ts c vs c') :
    RuleOk gen 22 .Stmt ts c vs c' := by
  obtain ⟨ts0, _, v0, _, c0, rfl, rfl, d0, h1⟩ := h0
  obtain ⟨s0, rfl, e0⟩ := d0
  obtain ⟨rfl, rfl, rfl⟩ := h1
  refine ⟨_, _, 0, rfl, rfl, rfl, ?_⟩
  exact ⟨_, rfl, by simpa using e0⟩

theorem rule23 {gen : Nat → Str} {ts : List Lexeme} {c c' : Nat} {vs : List Attrib} (h0 : DenAll gen [.n .AttrStmt] ts c vs c') :
    RuleOk gen 23 .Stmt ts c vs c' := by
  obtain ⟨ts0, _, v0, _, c0, rfl, rfl, d0, h1⟩ := h0
  obtain ⟨s0, rfl, e0⟩ := d0
  obtain ⟨rfl, rfl, rfl⟩ := h1
  refine ⟨_, _, 0, rfl, rfl, rfl, ?_⟩
  exact ⟨_, rfl, by simpa using e0⟩

theorem rule24 {gen : Nat → Str} {ts : List Lexeme} {c c' : Nat} {vs : List Attrib} (h0 : DenAll gen [.n .SubGraphStmt] ts c vs c') :
    RuleOk gen 24 .Stmt ts c vs c' := by
  obtain ⟨ts0, _, v0, _, c0, rfl, rfl, d0, h1⟩ := h0
  obtain ⟨id0, b0, rfl, e0⟩ := d0
  obtain ⟨rfl, rfl, rfl⟩ := h1
  refine ⟨_, _, 0, rfl, rfl, rfl, ?_⟩
  exact ⟨_, rfl, by simpa using StmtM.sub e0⟩

theorem rule25 {gen : Nat → Str} {ts : List Lexeme} {c c' : Nat} {vs : List Attrib} (h0 : DenAll gen [graphx, .n .AttrList] ts c vs c') :
    RuleOk gen 25 .AttrStmt ts c vs c' := by
  obtain ⟨k0, m0, n0, _, _, rfl, rfl, rfl, h1⟩ := denAll_t h0
  obtain ⟨ts1, _, v1, _, c1, rfl, rfl, d1, h2⟩ := h1
  obtain ⟨as1, rfl, e1, rfl⟩ := d1
  obtain ⟨rfl, rfl, rfl⟩ := h2
  refine ⟨_, _, 0, rfl, rfl, rfl, ?_⟩
  exact ⟨_, rfl, by simpa using StmtM.graphAttrs e1⟩

theorem rule26 {gen : Nat → Str} {ts : List Lexeme} {c c' : Nat} {vs : List Attrib} (h0 : DenAll gen [node, .n .AttrList] ts c vs c') :
    RuleOk gen 26 .AttrStmt ts c vs c' := by
  obtain ⟨k0, m0, n0, _, _, rfl, rfl, rfl, h1⟩ := denAll_t h0
  obtain ⟨ts1, _, v1, _, c1, rfl, rfl, d1, h2⟩ := h1
  obtain ⟨as1, rfl, e1, rfl⟩ := d1
  obtain ⟨rfl, rfl, rfl⟩ := h2
  refine ⟨_, _, 0, rfl, rfl, rfl, ?_⟩
  exact ⟨_, rfl, by simpa using StmtM.nodeAttrs e1⟩

theorem rule27 {gen : Nat → Str} {ts : List Lexeme} {c c' : Nat} {vs : List Attrib} (h0 : DenAll gen [edge, .n .AttrList] ts c vs c') :
    RuleOk gen 27 .AttrStmt ts c vs c' := by
  obtain ⟨k0, m0, n0, _, _, rfl, rfl, rfl, h1⟩ := denAll_t h0
  obtain ⟨ts1, _, v1, _, c1, rfl, rfl, d1, h2⟩ := h1
  obtain ⟨as1, rfl, e1, rfl⟩ := d1
  obtain ⟨rfl, rfl, rfl⟩ := h2
  refine ⟨_, _, 0, rfl, rfl, rfl, ?_⟩
  exact ⟨_, rfl, by simpa using StmtM.edgeAttrs e1⟩

theorem rule28 {gen : Nat → Str} {ts : List Lexeme} {c c' : Nat} {vs : List Attrib} (h0 : DenAll gen [lbrack, rbrack] ts c vs c') :
    RuleOk gen 28 .AttrList ts c vs c' := by
  obtain ⟨k0, m0, n0, _, _, rfl, rfl, rfl, h1⟩ := denAll_t h0
  obtain ⟨k1, m1, n1, _, _, rfl, rfl, rfl, h2⟩ := denAll_t h1
  obtain ⟨rfl, rfl, rfl⟩ := h2
  refine ⟨_, _, 0, rfl, rfl, rfl, ?_⟩
  exact ⟨_, rfl, .one .empty, rfl⟩

theorem rule29 {gen : Nat → Str} {ts : List Lexeme} {c c' : Nat} {vs : List Attrib} (h0 : DenAll gen [lbrack, .n .AList, rbrack] ts c vs c') :
    RuleOk gen 29 .AttrList ts c vs c' := by
  obtain ⟨k0, m0, n0, _, _, rfl, rfl, rfl, h1⟩ := denAll_t h0
  obtain ⟨ts1, _, v1, _, c1, rfl, rfl, d1, h2⟩ := h1
  obtain ⟨as1, rfl, e1, rfl⟩ := d1
  obtain ⟨k2, m2, n2, _, _, rfl, rfl, rfl, h3⟩ := denAll_t h2
  obtain ⟨rfl, rfl, rfl⟩ := h3
  refine ⟨_, _, 0, rfl, rfl, rfl, ?_⟩
  exact ⟨_, rfl, .one (by simpa using BracketM.full e1), rfl⟩

theorem rule30 {gen : Nat → Str} {ts : List Lexeme} {c c' : Nat} {vs : List Attrib} (h0 : DenAll gen [.n .AttrList, lbrack, rbrack] ts c vs c') :
    RuleOk gen 30 .AttrList ts c vs c' := by
  obtain ⟨ts0, _, v0, _, c0, rfl, rfl, d0, h1⟩ := h0
  obtain ⟨as0, rfl, e0, rfl⟩ := d0
  obtain ⟨k1, m1, n1, _, _, rfl, rfl, rfl, h2⟩ := denAll_t h1
  obtain ⟨k2, m2, n2, _, _, rfl, rfl, rfl, h3⟩ := denAll_t h2
  obtain ⟨rfl, rfl, rfl⟩ := h3
  refine ⟨_, _, 0, rfl, rfl, rfl, ?_⟩
  exact ⟨_, rfl, by simpa using AttrListM.snoc e0 .empty, rfl⟩

theorem rule31 {gen : Nat → Str} {ts : List Lexeme} {c c' : Nat} {vs : List Attrib} (h0 : DenAll gen [.n .AttrList, lbrack, .n .AList, rbrack] ts c vs c') :
    RuleOk gen 31 .AttrList ts c vs c' := by
  obtain ⟨ts0, _, v0, _, c0, rfl, rfl, d0, h1⟩ := h0
  obtain ⟨as0, rfl, e0, rfl⟩ := d0
  obtain ⟨k1, m1, n1, _, _, rfl, rfl, rfl, h2⟩ := denAll_t h1
  obtain ⟨ts2, _, v2, _, c2, rfl, rfl, d2, h3⟩ := h2
  obtain ⟨as2, rfl, e2, rfl⟩ := d2
  obtain ⟨k3, m3, n3, _, _, rfl, rfl, rfl, h4⟩ := denAll_t h3
  obtain ⟨rfl, rfl, rfl⟩ := h4
  refine ⟨_, _, 0, rfl, rfl, rfl, ?_⟩
  exact ⟨_, rfl, by simpa using AttrListM.snoc e0 (.full e2), rfl⟩

theorem rule32 {gen : Nat → Str} {ts : List Lexeme} {c c' : Nat} {vs : List Attrib} (h0 : DenAll gen [.n .Attr] ts c vs c') :
    RuleOk gen 32 .AList ts c vs c' := by
  obtain ⟨ts0, _, v0, _, c0, rfl, rfl, d0, h1⟩ := h0
  obtain ⟨a0, rfl, e0, rfl⟩ := d0
  obtain ⟨rfl, rfl, rfl⟩ := h1
  refine ⟨_, _, 0, rfl, rfl, rfl, ?_⟩
  exact ⟨_, rfl, by simpa using AListM.one e0, rfl⟩

theorem rule33 {gen : Nat → Str} {ts : List Lexeme} {c c' : Nat} {vs : List Attrib} (h0 : DenAll gen [.n .AList, .n .Attr] ts c vs c') :
    RuleOk gen 33 .AList ts c vs c' := by
  obtain ⟨ts0, _, v0, _, c0, rfl, rfl, d0, h1⟩ := h0
  obtain ⟨as0, rfl, e0, rfl⟩ := d0
  obtain ⟨ts1, _, v1, _, c1, rfl, rfl, d1, h2⟩ := h1
  obtain ⟨a1, rfl, e1, rfl⟩ := d1
  obtain ⟨rfl, rfl, rfl⟩ := h2
  refine ⟨_, _, 0, rfl, rfl, rfl, ?_⟩
  exact ⟨_, rfl, by simpa using AListM.snoc e0 .absent e1, rfl⟩

theorem rule34 {gen : Nat → Str} {ts : List Lexeme} {c c' : Nat} {vs : List Attrib} (h0 : DenAll gen [.n .AList, comma, .n .Attr] ts c vs c') :
    RuleOk gen 34 .AList ts c vs c' := by
  obtain ⟨ts0, _, v0, _, c0, rfl, rfl, d0, h1⟩ := h0
  obtain ⟨as0, rfl, e0, rfl⟩ := d0
  obtain ⟨k1, m1, n1, _, _, rfl, rfl, rfl, h2⟩ := denAll_t h1
  obtain ⟨ts2, _, v2, _, c2, rfl, rfl, d2, h3⟩ := h2
  obtain ⟨a2, rfl, e2, rfl⟩ := d2
  obtain ⟨rfl, rfl, rfl⟩ := h3
  refine ⟨_, _, 0, rfl, rfl, rfl, ?_⟩
  exact ⟨_, rfl, by simpa using AListM.snoc e0 .present e2, rfl⟩

theorem rule35 {gen : Nat → Str} {ts : List Lexeme} {c c' : Nat} {vs : List Attrib} (h0 : DenAll gen [.n .Id] ts c vs c') :
    RuleOk gen 35 .Attr ts c vs c' := by
  obtain ⟨ts0, _, v0, _, c0, rfl, rfl, d0, h1⟩ := h0
  obtain ⟨s0, rfl, z0, rfl, rfl⟩ := d0
  obtain ⟨rfl, rfl, rfl⟩ := h1
  refine ⟨_, _, 0, rfl, rfl, rfl, ?_⟩
  exact ⟨_, rfl, by simpa using AttrM.flag, rfl⟩

theorem rule36 {gen : Nat → Str} {ts : List Lexeme} {c c' : Nat} {vs : List Attrib} (h0 : DenAll gen [.n .Id, eq, .n .Id] ts c vs c') :
    RuleOk gen 36 .Attr ts c vs c' := by
  obtain ⟨ts0, _, v0, _, c0, rfl, rfl, d0, h1⟩ := h0
  obtain ⟨s0, rfl, z0, rfl, rfl⟩ := d0
  obtain ⟨k1, m1, n1, _, _, rfl, rfl, rfl, h2⟩ := denAll_t h1
  obtain ⟨ts2, _, v2, _, c2, rfl, rfl, d2, h3⟩ := h2
  obtain ⟨s2, rfl, z2, rfl, rfl⟩ := d2
  obtain ⟨rfl, rfl, rfl⟩ := h3
  refine ⟨_, _, 0, rfl, rfl, rfl, ?_⟩
  exact ⟨_, rfl, by simpa using AttrM.pair, rfl⟩

theorem rule37 {gen : Nat → Str} {ts : List Lexeme} {c c' : Nat} {vs : List Attrib} (h0 : DenAll gen [.n .NodeId, .n .EdgeRHS] ts c vs c') :
    RuleOk gen 37 .EdgeStmt ts c vs c' := by
  obtain ⟨ts0, _, v0, _, c0, rfl, rfl, d0, h1⟩ := h0
  obtain ⟨n0, rfl, e0, rfl⟩ := d0
  obtain ⟨ts1, _, v1, _, c1, rfl, rfl, d1, h2⟩ := h1
  obtain ⟨es1, rfl, e1⟩ := d1
  obtain ⟨rfl, rfl, rfl⟩ := h2
  refine ⟨_, _, 0, rfl, rfl, rfl, ?_⟩
  exact ⟨_, rfl, by simpa using StmtM.edge (.node e0) e1 .absent⟩

theorem rule38 {gen : Nat → Str} {ts : List Lexeme} {c c' : Nat} {vs : List Attrib} (h0 : DenAll gen [.n .NodeId, .n .EdgeRHS, .n .AttrList] ts c vs c') :
    RuleOk gen 38 .EdgeStmt ts c vs c' := by
  obtain ⟨ts0, _, v0, _, c0, rfl, rfl, d0, h1⟩ := h0
  obtain ⟨n0, rfl, e0, rfl⟩ := d0
  obtain ⟨ts1, _, v1, _, c1, rfl, rfl, d1, h2⟩ := h1
  obtain ⟨es1, rfl, e1⟩ := d1
  obtain ⟨ts2, _, v2, _, c2, rfl, rfl, d2, h3⟩ := h2
  obtain ⟨as2, rfl, e2, rfl⟩ := d2
  obtain ⟨rfl, rfl, rfl⟩ := h3
  refine ⟨_, _, 0, rfl, rfl, rfl, ?_⟩
  exact ⟨_, rfl, by simpa using StmtM.edge (.node e0) e1 (.present e2)⟩

theorem rule39 {gen : Nat → Str} {ts : List Lexeme} {c c' : Nat} {vs : List Attrib} (h0 : DenAll gen [.n .SubGraphStmt, .n .EdgeRHS] ts c vs c') :
    RuleOk gen 39 .EdgeStmt ts c vs c' := by
  obtain ⟨ts0, _, v0, _, c0, rfl, rfl, d0, h1⟩ := h0
  obtain ⟨id0, b0, rfl, e0⟩ := d0
  obtain ⟨ts1, _, v1, _, c1, rfl, rfl, d1, h2⟩ := h1
  obtain ⟨es1, rfl, e1⟩ := d1
  obtain ⟨rfl, rfl, rfl⟩ := h2
  refine ⟨_, _, 0, rfl, rfl, rfl, ?_⟩
  exact ⟨_, rfl, by simpa using StmtM.edge (.sub e0) e1 .absent⟩

theorem rule40 {gen : Nat → Str} {ts : List Lexeme} {c c' : Nat} {vs : List Attrib} (h0 : DenAll gen [.n .SubGraphStmt, .n .EdgeRHS, .n .AttrList] ts c vs c') :
    RuleOk gen 40 .EdgeStmt ts c vs c' := by
  obtain ⟨ts0, _, v0, _, c0, rfl, rfl, d0, h1⟩ := h0
  obtain ⟨id0, b0, rfl, e0⟩ := d0
  obtain ⟨ts1, _, v1, _, c1, rfl, rfl, d1, h2⟩ := h1
  obtain ⟨es1, rfl, e1⟩ := d1
  obtain ⟨ts2, _, v2, _, c2, rfl, rfl, d2, h3⟩ := h2
  obtain ⟨as2, rfl, e2, rfl⟩ := d2
  obtain ⟨rfl, rfl, rfl⟩ := h3
  refine ⟨_, _, 0, rfl, rfl, rfl, ?_⟩
  exact ⟨_, rfl, by simpa using StmtM.edge (.sub e0) e1 (.present e2)⟩

theorem rule41 {gen : Nat → Str} {ts : List Lexeme} {c c' : Nat} {vs : List Attrib} (h0 : DenAll gen [.n .EdgeOp, .n .NodeId] ts c vs c') :
    RuleOk gen 41 .EdgeRHS ts c vs c' := by
  obtain ⟨ts0, _, v0, _, c0, rfl, rfl, d0, h1⟩ := h0
  obtain ⟨d0, x0, rfl, rfl, e0, rfl⟩ := d0
  obtain ⟨ts1, _, v1, _, c1, rfl, rfl, d1, h2⟩ := h1
  obtain ⟨n1, rfl, e1, rfl⟩ := d1
  obtain ⟨rfl, rfl, rfl⟩ := h2
  refine ⟨_, _, 0, rfl, rfl, rfl, ?_⟩
  exact ⟨_, rfl, by simpa using RhsM.one e0 (.node e1)⟩

theorem rule42 {gen : Nat → Str} {ts : List Lexeme} {c c' : Nat} {vs : List Attrib} (h0 : DenAll gen [.n .EdgeOp, .n .SubGraphStmt] ts c vs c') :
    RuleOk gen 42 .EdgeRHS ts c vs c' := by
  obtain ⟨ts0, _, v0, _, c0, rfl, rfl, d0, h1⟩ := h0
  obtain ⟨d0, x0, rfl, rfl, e0, rfl⟩ := d0
  obtain ⟨ts1, _, v1, _, c1, rfl, rfl, d1, h2⟩ := h1
  obtain ⟨id1, b1, rfl, e1⟩ := d1
  obtain ⟨rfl, rfl, rfl⟩ := h2
  refine ⟨_, _, 0, rfl, rfl, rfl, ?_⟩
  exact ⟨_, rfl, by simpa using RhsM.one e0 (.sub e1)⟩

theorem rule43 {gen : Nat → Str} {ts : List Lexeme} {c c' : Nat} {vs : List Attrib} (h0 : DenAll gen [.n .EdgeRHS, .n .EdgeOp, .n .NodeId] ts c vs c') :
    RuleOk gen 43 .EdgeRHS ts c vs c' := by
  obtain ⟨ts0, _, v0, _, c0, rfl, rfl, d0, h1⟩ := h0
  obtain ⟨es0, rfl, e0⟩ := d0
  obtain ⟨ts1, _, v1, _, c1, rfl, rfl, d1, h2⟩ := h1
  obtain ⟨d1, x1, rfl, rfl, e1, rfl⟩ := d1
  obtain ⟨ts2, _, v2, _, c2, rfl, rfl, d2, h3⟩ := h2
  obtain ⟨n2, rfl, e2, rfl⟩ := d2
  obtain ⟨rfl, rfl, rfl⟩ := h3
  refine ⟨_, _, 0, rfl, rfl, rfl, ?_⟩
  exact ⟨_, rfl, by simpa using RhsM.snoc e0 e1 (.node e2)⟩

theorem rule44 {gen : Nat → Str} {ts : List Lexeme} {c c' : Nat} {vs : List Attrib} (h0 : DenAll gen [.n .EdgeRHS, .n .EdgeOp, .n .SubGraphStmt] ts c vs c') :
    RuleOk gen 44 .EdgeRHS ts c vs c' := by
  obtain ⟨ts0, _, v0, _, c0, rfl, rfl, d0, h1⟩ := h0
  obtain ⟨es0, rfl, e0⟩ := d0
  obtain ⟨ts1, _, v1, _, c1, rfl, rfl, d1, h2⟩ := h1
  obtain ⟨d1, x1, rfl, rfl, e1, rfl⟩ := d1
  obtain ⟨ts2, _, v2, _, c2, rfl, rfl, d2, h3⟩ := h2
  obtain ⟨id2, b2, rfl, e2⟩ := d2
  obtain ⟨rfl, rfl, rfl⟩ := h3
  refine ⟨_, _, 0, rfl, rfl, rfl, ?_⟩
  exact ⟨_, rfl, by simpa using RhsM.snoc e0 e1 (.sub e2)⟩

theorem rule45 {gen : Nat → Str} {ts : List Lexeme} {c c' : Nat} {vs : List Attrib} (h0 : DenAll gen [.n .NodeId] ts c vs c') :
    RuleOk gen 45 .NodeStmt ts c vs c' := by
  obtain ⟨ts0, _, v0, _, c0, rfl, rfl, d0, h1⟩ := h0
  obtain ⟨n0, rfl, e0, rfl⟩ := d0
  obtain ⟨rfl, rfl, rfl⟩ := h1
  refine ⟨_, _, 0, rfl, rfl, rfl, ?_⟩
  exact ⟨_, rfl, by simpa using StmtM.node e0 .absent⟩

theorem rule46 {gen : Nat → Str} {ts : List Lexeme} {c c' : Nat} {vs : List Attrib} (h0 : DenAll gen [.n .NodeId, .n .AttrList] ts c vs c') :
    RuleOk gen 46 .NodeStmt ts c vs c' := by
  obtain ⟨ts0, _, v0, _, c0, rfl, rfl, d0, h1⟩ := h0
  obtain ⟨n0, rfl, e0, rfl⟩ := d0
  obtain ⟨ts1, _, v1, _, c1, rfl, rfl, d1, h2⟩ := h1
  obtain ⟨as1, rfl, e1, rfl⟩ := d1
  obtain ⟨rfl, rfl, rfl⟩ := h2
  refine ⟨_, _, 0, rfl, rfl, rfl, ?_⟩
  exact ⟨_, rfl, by simpa using StmtM.node e0 (.present e1)⟩

theorem rule47 {gen : Nat → Str} {ts : List Lexeme} {c c' : Nat} {vs : List Attrib} (h0 : DenAll gen [.n .Id] ts c vs c') :
    RuleOk gen 47 .NodeId ts c vs c' := by
  obtain ⟨ts0, _, v0, _, c0, rfl, rfl, d0, h1⟩ := h0
  obtain ⟨s0, rfl, z0, rfl, rfl⟩ := d0
  obtain ⟨rfl, rfl, rfl⟩ := h1
  refine ⟨_, _, 0, rfl, rfl, rfl, ?_⟩
  exact ⟨_, rfl, by simpa using NodeIdM.plain, rfl⟩

theorem rule48 {gen : Nat → Str} {ts : List Lexeme} {c c' : Nat} {vs : List Attrib} (h0 : DenAll gen [.n .Id, .n .Port] ts c vs c') :
    RuleOk gen 48 .NodeId ts c vs c' := by
  obtain ⟨ts0, _, v0, _, c0, rfl, rfl, d0, h1⟩ := h0
  obtain ⟨s0, rfl, z0, rfl, rfl⟩ := d0
  obtain ⟨ts1, _, v1, _, c1, rfl, rfl, d1, h2⟩ := h1
  obtain ⟨p1, rfl, rfl, e1⟩ := d1
  obtain ⟨rfl, rfl, rfl⟩ := h2
  refine ⟨_, _, 0, rfl, rfl, rfl, ?_⟩
  rcases e1 with ⟨l, a, rfl, rfl⟩ | ⟨l, a, l2, b, rfl, rfl⟩
  · exact ⟨_, rfl, by simpa using NodeIdM.port, rfl⟩
  · exact ⟨_, rfl, by simpa using NodeIdM.port2, rfl⟩

theorem rule49 {gen : Nat → Str} {ts : List Lexeme} {c c' : Nat} {vs : List Attrib} (h0 : DenAll gen [colon, .n .Id] ts c vs c') :
    RuleOk gen 49 .Port ts c vs c' := by
  obtain ⟨k0, m0, n0, _, _, rfl, rfl, rfl, h1⟩ := denAll_t h0
  obtain ⟨ts1, _, v1, _, c1, rfl, rfl, d1, h2⟩ := h1
  obtain ⟨s1, rfl, z1, rfl, rfl⟩ := d1
  obtain ⟨rfl, rfl, rfl⟩ := h2
  refine ⟨_, _, 0, rfl, rfl, rfl, ?_⟩
  exact ⟨_, rfl, rfl, .inl ⟨_, _, rfl, rfl⟩⟩

theorem rule50 {gen : Nat → Str} {ts : List Lexeme} {c c' : Nat} {vs : List Attrib} (h0 : DenAll gen [colon, .n .Id, colon, .n .Id] ts c vs c') :
    RuleOk gen 50 .Port ts c vs c' := by
  obtain ⟨k0, m0, n0, _, _, rfl, rfl, rfl, h1⟩ := denAll_t h0
  obtain ⟨ts1, _, v1, _, c1, rfl, rfl, d1, h2⟩ := h1
  obtain ⟨s1, rfl, z1, rfl, rfl⟩ := d1
  obtain ⟨k2, m2, n2, _, _, rfl, rfl, rfl, h3⟩ := denAll_t h2
  obtain ⟨ts3, _, v3, _, c3, rfl, rfl, d3, h4⟩ := h3
  obtain ⟨s3, rfl, z3, rfl, rfl⟩ := d3
  obtain ⟨rfl, rfl, rfl⟩ := h4
  refine ⟨_, _, 0, rfl, rfl, rfl, ?_⟩
  exact ⟨_, rfl, rfl, .inr ⟨_, _, _, _, rfl, rfl⟩⟩

theorem rule51 {gen : Nat → Str} {ts : List Lexeme} {c c' : Nat} {vs : List Attrib} (h0 : DenAll gen [lbrace, .n .StmtList, rbrace] ts c vs c') :
    RuleOk gen 51 .SubGraphStmt ts c vs c' := by
  obtain ⟨k0, m0, n0, _, _, rfl, rfl, rfl, h1⟩ := denAll_t h0
  obtain ⟨ts1, _, v1, _, c1, rfl, rfl, d1, h2⟩ := h1
  obtain ⟨ss1, rfl, e1⟩ := d1
  obtain ⟨k2, m2, n2, _, _, rfl, rfl, rfl, h3⟩ := denAll_t h2
  obtain ⟨rfl, rfl, rfl⟩ := h3
  refine ⟨_, _, 1, rfl, rfl, rfl, ?_⟩
  exact ⟨_, _, rfl, by simpa using SubM.braces e1⟩

theorem rule52 {gen : Nat → Str} {ts : List Lexeme} {c c' : Nat} {vs : List Attrib} (h0 : DenAll gen [subgraph, lbrace, .n .StmtList, rbrace] ts c vs c') :
    RuleOk gen 52 .SubGraphStmt ts c vs c' := by
  obtain ⟨k0, m0, n0, _, _, rfl, rfl, rfl, h1⟩ := denAll_t h0
  obtain ⟨k1, m1, n1, _, _, rfl, rfl, rfl, h2⟩ := denAll_t h1
  obtain ⟨ts2, _, v2, _, c2, rfl, rfl, d2, h3⟩ := h2
  obtain ⟨ss2, rfl, e2⟩ := d2
  obtain ⟨k3, m3, n3, _, _, rfl, rfl, rfl, h4⟩ := denAll_t h3
  obtain ⟨rfl, rfl, rfl⟩ := h4
  refine ⟨_, _, 1, rfl, rfl, rfl, ?_⟩
  exact ⟨_, _, rfl, by simpa using SubM.anon (.present e2)⟩

theorem rule53 {gen : Nat → Str} {ts : List Lexeme} {c c' : Nat} {vs : List Attrib} (h0 : DenAll gen [subgraph, .n .Id, lbrace, .n .StmtList, rbrace] ts c vs c') :
    RuleOk gen 53 .SubGraphStmt ts c vs c' := by
  obtain ⟨k0, m0, n0, _, _, rfl, rfl, rfl, h1⟩ := denAll_t h0
  obtain ⟨ts1, _, v1, _, c1, rfl, rfl, d1, h2⟩ := h1
  obtain ⟨s1, rfl, z1, rfl, rfl⟩ := d1
  obtain ⟨k2, m2, n2, _, _, rfl, rfl, rfl, h3⟩ := denAll_t h2
  obtain ⟨ts3, _, v3, _, c3, rfl, rfl, d3, h4⟩ := h3
  obtain ⟨ss3, rfl, e3⟩ := d3
  obtain ⟨k4, m4, n4, _, _, rfl, rfl, rfl, h5⟩ := denAll_t h4
  obtain ⟨rfl, rfl, rfl⟩ := h5
  refine ⟨_, _, 0, rfl, by simp only [evalAct, arg, List.getElem?_cons_zero, List.getElem?_cons_succ, Option.bind_eq_bind, Option.bind_some, draws_named z1]; rfl, by simp [actDraws, arg, draws_named z1], ?_⟩
  exact ⟨_, _, rfl, by simpa using SubM.named (.present e3)⟩

theorem rule54 {gen : Nat → Str} {ts : List Lexeme} {c c' : Nat} {vs : List Attrib} (h0 : DenAll gen [subgraph, lbrace, rbrace] ts c vs c') :
    RuleOk gen 54 .SubGraphStmt ts c vs c' := by
  obtain ⟨k0, m0, n0, _, _, rfl, rfl, rfl, h1⟩ := denAll_t h0
  obtain ⟨k1, m1, n1, _, _, rfl, rfl, rfl, h2⟩ := denAll_t h1
  obtain ⟨k2, m2, n2, _, _, rfl, rfl, rfl, h3⟩ := denAll_t h2
  obtain ⟨rfl, rfl, rfl⟩ := h3
  refine ⟨_, _, 1, rfl, rfl, rfl, ?_⟩
  exact ⟨_, _, rfl, by simpa using SubM.anon .absent⟩

theorem rule55 {gen : Nat → Str} {ts : List Lexeme} {c c' : Nat} {vs : List Attrib} (h0 : DenAll gen [subgraph, .n .Id, lbrace, rbrace] ts c vs c') :
    RuleOk gen 55 .SubGraphStmt ts c vs c' := by
  obtain ⟨k0, m0, n0, _, _, rfl, rfl, rfl, h1⟩ := denAll_t h0
  obtain ⟨ts1, _, v1, _, c1, rfl, rfl, d1, h2⟩ := h1
  obtain ⟨s1, rfl, z1, rfl, rfl⟩ := d1
  obtain ⟨k2, m2, n2, _, _, rfl, rfl, rfl, h3⟩ := denAll_t h2
  obtain ⟨k3, m3, n3, _, _, rfl, rfl, rfl, h4⟩ := denAll_t h3
  obtain ⟨rfl, rfl, rfl⟩ := h4
  refine ⟨_, _, 0, rfl, by simp only [evalAct, arg, List.getElem?_cons_zero, List.getElem?_cons_succ, Option.bind_eq_bind, Option.bind_some, draws_named z1]; rfl, by simp [actDraws, arg, draws_named z1], ?_⟩
  exact ⟨_, _, rfl, by simpa using SubM.named .absent⟩

theorem rule56 {gen : Nat → Str} {ts : List Lexeme} {c c' : Nat} {vs : List Attrib} (h0 : DenAll gen [arrow] ts c vs c') :
    RuleOk gen 56 .EdgeOp ts c vs c' := by
  obtain ⟨k0, m0, n0, _, _, rfl, rfl, rfl, h1⟩ := denAll_t h0
  obtain ⟨rfl, rfl, rfl⟩ := h1
  refine ⟨_, _, 0, rfl, rfl, rfl, ?_⟩
  exact ⟨_, _, rfl, rfl, .directed, rfl⟩

theorem rule57 {gen : Nat → Str} {ts : List Lexeme} {c c' : Nat} {vs : List Attrib} (h0 : DenAll gen [dashes] ts c vs c') :
    RuleOk gen 57 .EdgeOp ts c vs c' := by
  obtain ⟨k0, m0, n0, _, _, rfl, rfl, rfl, h1⟩ := denAll_t h0
  obtain ⟨rfl, rfl, rfl⟩ := h1
  refine ⟨_, _, 0, rfl, rfl, rfl, ?_⟩
  exact ⟨_, _, rfl, rfl, .undirected, rfl⟩

theorem rule58 {gen : Nat → Str} {ts : List Lexeme} {c c' : Nat} {vs : List Attrib} (h0 : DenAll gen [id] ts c vs c') :
    RuleOk gen 58 .Id ts c vs c' := by
  obtain ⟨k0, m0, n0, _, _, rfl, rfl, rfl, h1⟩ := denAll_t h0
  obtain ⟨rfl, rfl, rfl⟩ := h1
  refine ⟨_, _, 0, rfl, rfl, rfl, ?_⟩
  exact ⟨_, rfl, n0 rfl, rfl, rfl⟩

theorem rule_ok {gen : Nat → Str} {r : Nat} {N : NT} {rhs : List Sym} (hr : rules[r]? = some (N, rhs)) {ts : List Lexeme} {c c' : Nat}
    {vs : List Attrib} (h : DenAll gen rhs ts c vs c') : RuleOk gen r N ts c vs c' := by
  match r, hr with
  | 0, hr => simp only [rules, List.getElem?_cons_zero, List.getElem?_cons_succ, Option.some.injEq, Prod.mk.injEq] at hr; obtain ⟨rfl, rfl⟩ := hr; exact rule0 h
  | 1, hr => simp only [rules, List.getElem?_cons_zero, List.getElem?_cons_succ, Option.some.injEq, Prod.mk.injEq] at hr; obtain ⟨rfl, rfl⟩ := hr; exact rule1 h
  | 2, hr => simp only [rules, List.getElem?_cons_zero, List.getElem?_cons_succ, Option.some.injEq, Prod.mk.injEq] at hr; obtain ⟨rfl, rfl⟩ := hr; exact rule2 h
  | 3, hr => simp only [rules, List.getElem?_cons_zero, List.getElem?_cons_succ, Option.some.injEq, Prod.mk.injEq] at hr; obtain ⟨rfl, rfl⟩ := hr; exact rule3 h
  | 4, hr => simp only [rules, List.getElem?_cons_zero, List.getElem?_cons_succ, Option.some.injEq, Prod.mk.injEq] at hr; obtain ⟨rfl, rfl⟩ := hr; exact rule4 h
  | 5, hr => simp only [rules, List.getElem?_cons_zero, List.getElem?_cons_succ, Option.some.injEq, Prod.mk.injEq] at hr; obtain ⟨rfl, rfl⟩ := hr; exact rule5 h
  | 6, hr => simp only [rules, List.getElem?_cons_zero, List.getElem?_cons_succ, Option.some.injEq, Prod.mk.injEq] at hr; obtain ⟨rfl, rfl⟩ := hr; exact rule6 h
  | 7, hr => simp only [rules, List.getElem?_cons_zero, List.getElem?_cons_succ, Option.some.injEq, Prod.mk.injEq] at hr; obtain ⟨rfl, rfl⟩ := hr; exact rule7 h
  | 8, hr => simp only [rules, List.getElem?_cons_zero, List.getElem?_cons_succ, Option.some.injEq, Prod.mk.injEq] at hr; obtain ⟨rfl, rfl⟩ := hr; exact rule8 h
  | 9, hr => simp only [rules, List.getElem?_cons_zero, List.getElem?_cons_succ, Option.some.injEq, Prod.mk.injEq] at hr; obtain ⟨rfl, rfl⟩ := hr; exact rule9 h
  | 10, hr => simp only [rules, List.getElem?_cons_zero, List.getElem?_cons_succ, Option.some.injEq, Prod.mk.injEq] at hr; obtain ⟨rfl, rfl⟩ := hr; exact rule10 h
  | 11, hr => simp only [rules, List.getElem?_cons_zero, List.getElem?_cons_succ, Option.some.injEq, Prod.mk.injEq] at hr; obtain ⟨rfl, rfl⟩ := hr; exact rule11 h
  | 12, hr => simp only [rules, List.getElem?_cons_zero, List.getElem?_cons_succ, Option.some.injEq, Prod.mk.injEq] at hr; obtain ⟨rfl, rfl⟩ := hr; exact rule12 h
  | 13, hr => simp only [rules, List.getElem?_cons_zero, List.getElem?_cons_succ, Option.some.injEq, Prod.mk.injEq] at hr; obtain ⟨rfl, rfl⟩ := hr; exact rule13 h
  | 14, hr => simp only [rules, List.getElem?_cons_zero, List.getElem?_cons_succ, Option.some.injEq, Prod.mk.injEq] at hr; obtain ⟨rfl, rfl⟩ := hr; exact rule14 h
  | 15, hr => simp only [rules, List.getElem?_cons_zero, List.getElem?_cons_succ, Option.some.injEq, Prod.mk.injEq] at hr; obtain ⟨rfl, rfl⟩ := hr; exact rule15 h
  | 16, hr => simp only [rules, List.getElem?_cons_zero, List.getElem?_cons_succ, Option.some.injEq, Prod.mk.injEq] at hr; obtain ⟨rfl, rfl⟩ := hr; exact rule16 h
  | 17, hr => simp only [rules, List.getElem?_cons_zero, List.getElem?_cons_succ, Option.some.injEq, Prod.mk.injEq] at hr; obtain ⟨rfl, rfl⟩ := hr; exact rule17 h
  | 18, hr => simp only [rules, List.getElem?_cons_zero, List.getElem?_cons_succ, Option.some.injEq, Prod.mk.injEq] at hr; obtain ⟨rfl, rfl⟩ := hr; exact rule18 h
  | 19, hr => simp only [rules, List.getElem?_cons_zero, List.getElem?_cons_succ, Option.some.injEq, Prod.mk.injEq] at hr; obtain ⟨rfl, rfl⟩ := hr; exact rule19 h
  | 20, hr => simp only [rules, List.getElem?_cons_zero, List.getElem?_cons_succ, Option.some.injEq, Prod.mk.injEq] at hr; obtain ⟨rfl, rfl⟩ := hr; exact rule20 h
  | 21, hr => simp only [rules, List.getElem?_cons_zero, List.getElem?_cons_succ, Option.some.injEq, Prod.mk.injEq] at hr; obtain ⟨rfl, rfl⟩ := hr; exact rule21 h
  | 22, hr => simp only [rules, List.getElem?_cons_zero, List.getElem?_cons_succ, Option.some.injEq, Prod.mk.injEq] at hr; obtain ⟨rfl, rfl⟩ := hr; exact rule22 h
  | 23, hr => simp only [rules, List.getElem?_cons_zero, List.getElem?_cons_succ, Option.some.injEq, Prod.mk.injEq] at hr; obtain ⟨rfl, rfl⟩ := hr; exact rule23 h
  | 24, hr => simp only [rules, List.getElem?_cons_zero, List.getElem?_cons_succ, Option.some.injEq, Prod.mk.injEq] at hr; obtain ⟨rfl, rfl⟩ := hr; exact rule24 h
  | 25, hr => simp only [rules, List.getElem?_cons_zero, List.getElem?_cons_succ, Option.some.injEq, Prod.mk.injEq] at hr; obtain ⟨rfl, rfl⟩ := hr; exact rule25 h
  | 26, hr => simp only [rules, List.getElem?_cons_zero, List.getElem?_cons_succ, Option.some.injEq, Prod.mk.injEq] at hr; obtain ⟨rfl, rfl⟩ := hr; exact rule26 h
  | 27, hr => simp only [rules, List.getElem?_cons_zero, List.getElem?_cons_succ, Option.some.injEq, Prod.mk.injEq] at hr; obtain ⟨rfl, rfl⟩ := hr; exact rule27 h
  | 28, hr => simp only [rules, List.getElem?_cons_zero, List.getElem?_cons_succ, Option.some.injEq, Prod.mk.injEq] at hr; obtain ⟨rfl, rfl⟩ := hr; exact rule28 h
  | 29, hr => simp only [rules, List.getElem?_cons_zero, List.getElem?_cons_succ, Option.some.injEq, Prod.mk.injEq] at hr; obtain ⟨rfl, rfl⟩ := hr; exact rule29 h
  | 30, hr => simp only [rules, List.getElem?_cons_zero, List.getElem?_cons_succ, Option.some.injEq, Prod.mk.injEq] at hr; obtain ⟨rfl, rfl⟩ := hr; exact rule30 h
  | 31, hr => simp only [rules, List.getElem?_cons_zero, List.getElem?_cons_succ, Option.some.injEq, Prod.mk.injEq] at hr; obtain ⟨rfl, rfl⟩ := hr; exact rule31 h
  | 32, hr => simp only [rules, List.getElem?_cons_zero, List.getElem?_cons_succ, Option.some.injEq, Prod.mk.injEq] at hr; obtain ⟨rfl, rfl⟩ := hr; exact rule32 h
  | 33, hr => simp only [rules, List.getElem?_cons_zero, List.getElem?_cons_succ, Option.some.injEq, Prod.mk.injEq] at hr; obtain ⟨rfl, rfl⟩ := hr; exact rule33 h
  | 34, hr => simp only [rules, List.getElem?_cons_zero, List.getElem?_cons_succ, Option.some.injEq, Prod.mk.injEq] at hr; obtain ⟨rfl, rfl⟩ := hr; exact rule34 h
  | 35, hr => simp only [rules, List.getElem?_cons_zero, List.getElem?_cons_succ, Option.some.injEq, Prod.mk.injEq] at hr; obtain ⟨rfl, rfl⟩ := hr; exact rule35 h
  | 36, hr => simp only [rules, List.getElem?_cons_zero, List.getElem?_cons_succ, Option.some.injEq, Prod.mk.injEq] at hr; obtain ⟨rfl, rfl⟩ := hr; exact rule36 h
  | 37, hr => simp only [rules, List.getElem?_cons_zero, List.getElem?_cons_succ, Option.some.injEq, Prod.mk.injEq] at hr; obtain ⟨rfl, rfl⟩ := hr; exact rule37 h
  | 38, hr => simp only [rules, List.getElem?_cons_zero, List.getElem?_cons_succ, Option.some.injEq, Prod.mk.injEq] at hr; obtain ⟨rfl, rfl⟩ := hr; exact rule38 h
  | 39, hr => simp only [rules, List.getElem?_cons_zero, List.getElem?_cons_succ, Option.some.injEq, Prod.mk.injEq] at hr; obtain ⟨rfl, rfl⟩ := hr; exact rule39 h
  | 40, hr => simp only [rules, List.getElem?_cons_zero, List.getElem?_cons_succ, Option.some.injEq, Prod.mk.injEq] at hr; obtain ⟨rfl, rfl⟩ := hr; exact rule40 h
  | 41, hr => simp only [rules, List.getElem?_cons_zero, List.getElem?_cons_succ, Option.some.injEq, Prod.mk.injEq] at hr; obtain ⟨rfl, rfl⟩ := hr; exact rule41 h
  | 42, hr => simp only [rules, List.getElem?_cons_zero, List.getElem?_cons_succ, Option.some.injEq, Prod.mk.injEq] at hr; obtain ⟨rfl, rfl⟩ := hr; exact rule42 h
  | 43, hr => simp only [rules, List.getElem?_cons_zero, List.getElem?_cons_succ, Option.some.injEq, Prod.mk.injEq] at hr; obtain ⟨rfl, rfl⟩ := hr; exact rule43 h
  | 44, hr => simp only [rules, List.getElem?_cons_zero, List.getElem?_cons_succ, Option.some.injEq, Prod.mk.injEq] at hr; obtain ⟨rfl, rfl⟩ := hr; exact rule44 h
  | 45, hr => simp only [rules, List.getElem?_cons_zero, List.getElem?_cons_succ, Option.some.injEq, Prod.mk.injEq] at hr; obtain ⟨rfl, rfl⟩ := hr; exact rule45 h
  | 46, hr => simp only [rules, List.getElem?_cons_zero, List.getElem?_cons_succ, Option.some.injEq, Prod.mk.injEq] at hr; obtain ⟨rfl, rfl⟩ := hr; exact rule46 h
  | 47, hr => simp only [rules, List.getElem?_cons_zero, List.getElem?_cons_succ, Option.some.injEq, Prod.mk.injEq] at hr; obtain ⟨rfl, rfl⟩ := hr; exact rule47 h
  | 48, hr => simp only [rules, List.getElem?_cons_zero, List.getElem?_cons_succ, Option.some.injEq, Prod.mk.injEq] at hr; obtain ⟨rfl, rfl⟩ := hr; exact rule48 h
  | 49, hr => simp only [rules, List.getElem?_cons_zero, List.getElem?_cons_succ, Option.some.injEq, Prod.mk.injEq] at hr; obtain ⟨rfl, rfl⟩ := hr; exact rule49 h
  | 50, hr => simp only [rules, List.getElem?_cons_zero, List.getElem?_cons_succ, Option.some.injEq, Prod.mk.injEq] at hr; obtain ⟨rfl, rfl⟩ := hr; exact rule50 h
  | 51, hr => simp only [rules, List.getElem?_cons_zero, List.getElem?_cons_succ, Option.some.injEq, Prod.mk.injEq] at hr; obtain ⟨rfl, rfl⟩ := hr; exact rule51 h
  | 52, hr => simp only [rules, List.getElem?_cons_zero, List.getElem?_cons_succ, Option.some.injEq, Prod.mk.injEq] at hr; obtain ⟨rfl, rfl⟩ := hr; exact rule52 h
  | 53, hr => simp only [rules, List.getElem?_cons_zero, List.getElem?_cons_succ, Option.some.injEq, Prod.mk.injEq] at hr; obtain ⟨rfl, rfl⟩ := hr; exact rule53 h
  | 54, hr => simp only [rules, List.getElem?_cons_zero, List.getElem?_cons_succ, Option.some.injEq, Prod.mk.injEq] at hr; obtain ⟨rfl, rfl⟩ := hr; exact rule54 h
  | 55, hr => simp only [rules, List.getElem?_cons_zero, List.getElem?_cons_succ, Option.some.injEq, Prod.mk.injEq] at hr; obtain ⟨rfl, rfl⟩ := hr; exact rule55 h
  | 56, hr => simp only [rules, List.getElem?_cons_zero, List.getElem?_cons_succ, Option.some.injEq, Prod.mk.injEq] at hr; obtain ⟨rfl, rfl⟩ := hr; exact rule56 h
  | 57, hr => simp only [rules, List.getElem?_cons_zero, List.getElem?_cons_succ, Option.some.injEq, Prod.mk.injEq] at hr; obtain ⟨rfl, rfl⟩ := hr; exact rule57 h
  | 58, hr => simp only [rules, List.getElem?_cons_zero, List.getElem?_cons_succ, Option.some.injEq, Prod.mk.injEq] at hr; obtain ⟨rfl, rfl⟩ := hr; exact rule58 h
  | r + 59, hr => simp [rules] at hr

/-- Identifier tokens are not empty. -/
def IdsOk (ts : List Token) : Prop := ∀ t ∈ ts, t.typ = 18 → t.lit ≠ []

mutual
/-- Every parse tree has a value, and the value is what its tokens denote. -/
theorem eval_den (rnd : Nat → Nat) {X : Sym} {T : Tree} (h : Derives X T) (hid : IdsOk (yield T)) (c : Nat) :
    ∃ v c', evalT rnd c T = some (v, c') ∧ Den (fun k => anonName (rnd k)) X ((yield T).map lx) c v c' := by
  cases T with
  | leaf t =>
    cases h
    exact ⟨.tok t, c, rfl, t, rfl, rfl, hid t (by simp [yield]), rfl, rfl⟩
  | node r cs =>
    cases h with
    | node hr hd =>
      obtain ⟨vs, c', h1, h2⟩ := evals_den rnd hd hid c
      obtain ⟨a, v, n, h3, h4, h5, h6⟩ := rule_ok hr h2
      exact ⟨v, c' + n, by simp only [evalT, h1, h3, h4, h5], h6⟩
theorem evals_den (rnd : Nat → Nat) {Xs : List Sym} {Ts : List Tree} (h : DerivesAll Xs Ts) (hid : IdsOk (yields Ts)) (c : Nat) :
    ∃ vs c', evalTs rnd c Ts = some (vs, c') ∧ DenAll (fun k => anonName (rnd k)) Xs ((yields Ts).map lx) c vs c' := by
  cases Ts with
  | nil => cases h; exact ⟨[], c, rfl, rfl, rfl, rfl⟩
  | cons T Ts =>
    cases h with
    | cons h1 h2 =>
      obtain ⟨v, c1, e1, d1⟩ := eval_den rnd h1 (fun t ht => hid t (by simp [yields, ht])) c
      obtain ⟨vs, c2, e2, d2⟩ := evals_den rnd h2 (fun t ht => hid t (by simp [yields, ht])) c1
      exact ⟨v :: vs, c2, by simp only [evalTs, e1, e2], _, _, v, vs, c1, by simp [yields], rfl, d1, d2⟩
end

end Gographviz.Parse
