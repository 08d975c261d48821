import Verif.Proofs.Nesting
import Verif.Props.ParseProps
/-!
C98: the stack of the parser and the depth of the tree are bounded by the nesting of braces, whatever the length of the text.
-/
namespace Gographviz.Props

open Gographviz Gographviz.Lex Gographviz.Parse Gographviz.Spec.Nesting Gographviz.Spec.Grammar

/-- What is known of every state of the parser. -/
theorem parsing_ok {rnd : Nat → Nat} {cnt : Nat} {src : Str} {ts : List Token} (hts : tokens src = some ts) {s : PState Lexer}
    (h : Parsing rnd cnt src s) : ∃ stk rest Xs, Rel scan rnd cnt s stk rest ∧ StackOk stk Xs ∧ stkYield stk ++ rest = ts := by
  obtain ⟨ts0, e, h1, he, hno, hid, hs, hf⟩ := source_stream src
  rw [hts] at h1
  injection h1 with h1
  have hid' : IdsOk ts := by
    subst h1
    intro t ht h18
    rcases List.mem_append.mp ht with h | h
    · exact hid t h h18
    · have : t = e := by simpa using h
      subst this; omega
  rw [← h1] at hs
  clear h1
  induction h with
  | start hsc =>
    rename_i t sc
    refine ⟨[bottom], ts, [], ?_, .base _, rfl⟩
    cases hs with
    | one h1 h2 => rw [hsc] at h1; cases h1; exact ⟨.base, [], rfl, .inl ⟨h2, rfl⟩⟩
    | cons h1 h2 h3 => rw [hsc] at h1; cases h1; exact ⟨.base, _, rfl, .inr ⟨h2, h3⟩⟩
  | next hpp hstep ih =>
    rename_i st st'
    obtain ⟨stk, rest, Xs, hrel, hok, hy⟩ := ih
    have hr := step_rel hrel hok (by rw [hy]; exact hid')
    obtain ⟨us, hus, _⟩ := hrel.toks
    have ha := astep_ok hok st.next us
    rw [← hus] at ha
    cases hx : astep stk rest with
    | bad => rw [hx] at hr; exact hr.elim
    | err t x => rw [hx] at hr; rw [hstep] at hr; cases hr
    | acc T => rw [hx] at hr; obtain ⟨v, hr, _⟩ := hr; rw [hstep] at hr; cases hr
    | cont stk' rest' =>
      rw [hx] at hr ha
      obtain ⟨st'', e1, hr⟩ := hr
      rw [hstep] at e1
      cases e1
      obtain ⟨⟨Xs', hok'⟩, hy', _⟩ := ha
      exact ⟨stk', rest', Xs', hr, hok', hy'.trans hy⟩

/-- **C98** While a text is parsed (accepted or not), the stack of the parser has at most seven entries for each level of braces, and eight more: it
does not grow with the number of statements, attributes or edges of a chain. -/
theorem C98_stack {rnd : Nat → Nat} {cnt : Nat} {src : Str} {ts : List Token} (hts : tokens src = some ts) {st : PState Lexer}
    (h : Parsing rnd cnt src st) : st.stack.length ≤ 7 * nesting ts + 8 := by
  obtain ⟨stk, rest, Xs, hrel, hok, hy⟩ := parsing_ok hts h
  rw [hrel.vals.length]
  exact Nest.stack_bound hok hy

/-- C98. A text without nested braces, however long, is parsed with a stack of fifteen entries. -/
theorem C98_flat {rnd : Nat → Nat} {cnt : Nat} {src : Str} {ts : List Token} (hts : tokens src = some ts) (hn : nesting ts ≤ 1) {st : PState Lexer}
    (h : Parsing rnd cnt src st) : st.stack.length ≤ 15 := by
  have := C98_stack hts h
  omega

/-- C98. The subgraphs of the tree are nested exactly as deep as the braces of the text. (So is the recursion of everything that walks or prints
the tree.) -/
theorem C98_tree {rnd : Nat → Nat} {cnt : Nat} {src : Str} {t : Ast.Graph} {n : Nat} (h : parseBytes rnd cnt src = .ok t n) :
    ∃ ts, tokens src = some ts ∧ nesting ts = stmtsDepth t.stmts + 1 := by
  obtain ⟨ts, e, h1, he, hno, hid, ⟨g, c', _, hp, hm⟩ | ⟨_, _, t', x, _, hp⟩⟩ := source_spec rnd cnt src
  · rw [h] at hp
    cases hp
    exact ⟨_, h1, Nest.nesting_flat (Nest.flat_graph ((hm _ _).2 ⟨rfl, rfl⟩)) he⟩
  · rw [h] at hp; cases hp

/-- The state after `n` iterations. -/
def afterSteps (rnd : Nat → Nat) : Nat → PState Lexer → Option (PState Lexer)
  | 0, st => some st
  | n + 1, st => match step scan rnd st with
    | .cont st' => afterSteps rnd n st'
    | .stop _ => none

theorem afterSteps_parsing {rnd : Nat → Nat} {cnt : Nat} {src : Str} : ∀ (n : Nat) {st st' : PState Lexer}, Parsing rnd cnt src st →
    afterSteps rnd n st = some st' → Parsing rnd cnt src st'
  | 0, _, _, h, e => by cases e; exact h
  | n + 1, st, st', h, e => by
    unfold afterSteps at e
    split at e
    · rename_i h'; exact afterSteps_parsing n (h.next h') e
    · cases e

/-- The size of the stack after `n` iterations. -/
def stackAfter (src : Str) (n : Nat) : Option Nat := match scan (newLexer src) with
  | none => none
  | some (t, sc) => (afterSteps id n { stack := [(0, .nil)], next := t, sc := sc, cnt := 0 }).map (·.stack.length)

theorem stackAfter_parsing {src : Str} {n k : Nat} (h : stackAfter src n = some k) : ∃ st, Parsing id 0 src st ∧ st.stack.length = k := by
  unfold stackAfter at h
  split at h
  · cases h
  · rename_i t sc hs
    cases ha : afterSteps id n { stack := [(0, .nil)], next := t, sc := sc, cnt := 0 } with
    | none => rw [ha] at h; cases h
    | some st =>
      rw [ha] at h
      cases h
      exact ⟨st, afterSteps_parsing n (.start hs) ha, rfl⟩

/-- A text with braces nested twice, ... -/
def deepText : Str := b!"strict digraph G { x; a -> b -> subgraph s { y; c -> d -> e [] [p, q = r] } }"

/-- ... in which the bound of `C98_stack` is reached: 22 entries; `C98_tree` applies as well. -/
theorem example_nesting : (∃ ts, tokens deepText = some ts ∧ nesting ts = 2) ∧ (∃ st, Parsing id 0 deepText st ∧ st.stack.length = 22) ∧
    ∃ t n, parseBytes id 0 deepText = .ok t n ∧ stmtsDepth t.stmts = 1 := by
  have hn : (tokens deepText).map nesting = some 2 := by decide +kernel
  have hp : (match parseBytes id 0 deepText with | .ok t _ => decide (stmtsDepth t.stmts = 1) | _ => false) = true := by decide +kernel
  refine ⟨?_, stackAfter_parsing (n := 64) ?_, ?_⟩
  · cases h : tokens deepText with
    | none => rw [h] at hn; cases hn
    | some ts => rw [h] at hn; exact ⟨ts, rfl, by simpa using hn⟩
  · decide +kernel
  · cases h : parseBytes id 0 deepText with
    | ok t n => rw [h] at hp; exact ⟨t, n, rfl, by simpa using hp⟩
    | _ => rw [h] at hp; cases hp

end Gographviz.Props
