import Verif.Model.Parser
/-!
Specification for C98: how deep braces are nested in a text, how deep subgraphs are nested in a syntax tree, and the states the parser goes through.
-/
namespace Gographviz.Spec.Nesting

open Gographviz Gographviz.Ast Gographviz.Parse

/-- The deepest nesting of braces (3 is `{` and 4 is `}`) in a sequence of token types that is read at depth `d`. -/
def braces (d : Nat) : List Nat → Nat
  | [] => d
  | 3 :: ks => max d (braces (d + 1) ks)
  | 4 :: ks => max d (braces (d - 1) ks)
  | _ :: ks => max d (braces d ks)

/-- The deepest nesting of braces in a sequence of tokens. -/
def nesting (ts : List Lex.Token) : Nat := braces 0 (ts.map (·.typ))

mutual
/-- How deep subgraphs are nested in a statement. -/
def stmtDepth : Stmt → Nat
  | .sub _ body => stmtsDepth body + 1
  | .edge src rhs _ => max (locDepth src) (rhsDepth rhs)
  | _ => 0
/-- ... in an end of an edge -/
def locDepth : Loc → Nat
  | .node _ => 0
  | .sub _ body => stmtsDepth body + 1
/-- ... in the ends of an edge -/
def rhsDepth : List EdgeRH → Nat
  | [] => 0
  | .mk _ l :: rhs => max (locDepth l) (rhsDepth rhs)
/-- ... in a list of statements -/
def stmtsDepth : List Stmt → Nat
  | [] => 0
  | s :: ss => max (stmtDepth s) (stmtsDepth ss)
end

/-- The states in which the loop of the parser is while it parses `src` (parser.go:182-217): the first one, and each after one more iteration. -/
inductive Parsing (rnd : Nat → Nat) (cnt : Nat) (src : Str) : PState Lex.Lexer → Prop where
  | start {t : Lex.Token} {sc : Lex.Lexer} : Lex.scan (Lex.newLexer src) = some (t, sc) →
      Parsing rnd cnt src { stack := [(0, .nil)], next := t, sc := sc, cnt := cnt }
  | next {st st' : PState Lex.Lexer} : Parsing rnd cnt src st → step Lex.scan rnd st = .cont st' → Parsing rnd cnt src st'

end Gographviz.Spec.Nesting
