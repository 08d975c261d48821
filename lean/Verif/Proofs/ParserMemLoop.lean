import Verif.Proofs.ParserMemSim
/-! The loop of the parser with its memory simulates the one with values. -/
namespace Gographviz.ParseMem
open Gographviz Gographviz.Lex Gographviz.Ast Gographviz.Parse Gographviz.Slices

/-! ### Scanning -/

/-- What a lexer is, as long as the buffer is `buf`. -/
def seeLex (buf : Str) (l : MLexer) : Lexer := ⟨buf, l.pos, l.line, l.column⟩

theorem mscan_sim (buf : Str) (l : MLexer) : scan (seeLex buf l) = (mscan buf l).map fun p => (seeTok buf p.1, seeLex buf p.2) := by
  unfold scan mscan seeLex
  dsimp only
  split
  · simp [seeTok, lit]
  · cases scanLoop buf (buf.length - l.pos + 1) ⟨l.pos, l.line, l.column, 0, 0, 0, l.pos, l.line, l.column⟩ with
    | none => rfl
    | some st =>
      simp only
      split
      · rfl
      · simp [seeTok, lit]

/-! ### The stack -/

variable {buf : Str}

/-- The entries of the stack, top first. -/
inductive Stk (buf : Str) (h : Heap) : List (Nat × MAttrib) → List (Nat × Attrib) → Prop where
  | nil : Stk buf h [] []
  | cons {s : Nat} {a : MAttrib} {b : Attrib} {K : List (Nat × MAttrib)} {V : List (Nat × Attrib)} : Sees buf h a b →
    (∀ r, own a = some r → Full h r ∧ ∀ k ∈ K, ∀ r', own k.2 = some r' → r.arr ≠ r'.arr) → Stk buf h K V → Stk buf h ((s, a) :: K) ((s, b) :: V)

theorem Stk.length {h : Heap} {K : List (Nat × MAttrib)} {V : List (Nat × Attrib)} (r : Stk buf h K V) : K.length = V.length := by
  induction r with
  | nil => rfl
  | cons _ _ _ ih => simp [ih]

theorem Stk.drop {h : Heap} {K : List (Nat × MAttrib)} {V : List (Nat × Attrib)} (r : Stk buf h K V) : ∀ n, Stk buf h (K.drop n) (V.drop n) := by
  induction r with
  | nil => intro n; simpa using .nil
  | cons h1 h2 h3 ih => intro n; cases n with
    | zero => exact .cons h1 h2 h3
    | succ n => exact ih n

theorem Stk.full {h : Heap} {K : List (Nat × MAttrib)} {V : List (Nat × Attrib)} (r : Stk buf h K V) : ∀ k ∈ K, ∀ s, own k.2 = some s → Full h s := by
  induction r with
  | nil => simp
  | cons h1 h2 h3 ih =>
    intro k hk s hs
    rcases List.mem_cons.1 hk with rfl | hk
    · exact (h2 s hs).1
    · exact ih k hk s hs

/-- Lists above and lists below do not share arrays. -/
theorem Stk.apart {h : Heap} {K : List (Nat × MAttrib)} {V : List (Nat × Attrib)} (r : Stk buf h K V) : ∀ n, ∀ k ∈ K.take n, ∀ s, own k.2 = some s →
    ∀ k' ∈ K.drop n, ∀ s', own k'.2 = some s' → s.arr ≠ s'.arr := by
  induction r with
  | nil => intro n k hk; simp at hk
  | cons h1 h2 h3 ih =>
    intro n
    cases n with
    | zero => intro k hk; simp at hk
    | succ n =>
      intro k hk s hs k' hk' s' hs'
      rw [List.drop_succ_cons] at hk'
      rw [List.take_succ_cons] at hk
      rcases List.mem_cons.1 hk with rfl | hk
      · exact (h2 s hs).2 k' (List.mem_of_mem_drop hk') s' hs'
      · exact ih n k hk s hs k' hk' s' hs'

theorem Stk.frame {h h' : Heap} (g : Grows h h') {K : List (Nat × MAttrib)} {V : List (Nat × Attrib)} (r : Stk buf h K V) :
    (∀ k ∈ K, ∀ s, own k.2 = some s → Full h' s) → Stk buf h' K V := by
  induction r with
  | nil => intro _; exact .nil
  | cons h1 h2 h3 ih =>
    intro hf
    exact .cons (h1.mono g) (fun r hr => ⟨hf _ (List.mem_cons_self ..) r hr, (h2 r hr).2⟩) (ih fun k hk => hf k (List.mem_cons_of_mem _ hk))

theorem Stk.get {h : Heap} {K : List (Nat × MAttrib)} {V : List (Nat × Attrib)} (r : Stk buf h K V) : ∀ i : Nat,
    ORel (fun k v => k.1 = v.1 ∧ Sees buf h k.2 v.2) K[i]? V[i]? := by
  induction r with
  | nil => intro i; simpa using .none
  | cons h1 h2 h3 ih => intro i; cases i with
    | zero => exact .some ⟨rfl, h1⟩
    | succ i => exact ih i

/-- The arguments of an action. -/
theorem Stk.args {h : Heap} {K : List (Nat × MAttrib)} {V : List (Nat × Attrib)} (r : Stk buf h K V) (n : Nat) :
    ∀ i : Nat, ORel (AR buf h ((K.take n).map (·.2)).reverse) ((K.take n).map (·.2)).reverse[i]? ((V.take n).map (·.2)).reverse[i]? := by
  intro i
  have hl := r.length
  by_cases hi : i < ((K.take n).map (·.2)).length
  · have hi' : i < ((V.take n).map (·.2)).length := by simpa [hl] using hi
    rw [List.getElem?_reverse hi, List.getElem?_reverse hi', List.getElem?_map, List.getElem?_map, List.getElem?_take, List.getElem?_take]
    simp only [List.length_map, List.length_take, hl] at hi ⊢
    have hin : min n V.length - 1 - i < n := by omega
    rw [if_pos hin, if_pos hin]
    have hg := r.get (min n V.length - 1 - i)
    revert hg
    generalize hk : K[min n V.length - 1 - i]? = x
    generalize V[min n V.length - 1 - i]? = y
    intro hg
    cases hg with
    | none => exact .none
    | some hg =>
      rename_i k v
      refine .some ⟨hg.2, fun s hs => ⟨r.full k (List.mem_of_getElem? hk) s hs, k.2, ?_, hs⟩⟩
      rw [List.mem_reverse, List.mem_map]
      refine ⟨k, ?_, rfl⟩
      rw [List.mem_iff_getElem?]
      exact ⟨min n V.length - 1 - i, by rw [List.getElem?_take, if_pos (by omega), hk]⟩
  · rw [List.getElem?_eq_none (by simpa using hi), List.getElem?_eq_none (by simpa [hl] using hi)]
    exact .none

theorem rep_upto {α : Type} {m : Mem α} {s : Slice} {l : List α} (r : Rep m s l) {k : Nat} (hk : k ≤ s.len) : Rep m (s.upto k) (l.take k) := by
  have hl := r.len
  refine ⟨?_, ?_, ?_, r.arr⟩
  · rw [List.map_take, ← r.view]
    unfold view Slice.upto
    simp only [List.take_take, Nat.min_eq_left hk]
  · simp only [Slice.upto, List.length_take]; omega
  · have := r.cap
    simp only [Slice.upto]; omega

/-- The two slices of the stack. -/
structure SRep (s : MStack) (K : List (Nat × MAttrib)) : Prop where
  states : Rep s.smem s.states (K.map (·.1)).reverse
  attribs : Rep s.amem s.attribs (K.map (·.2)).reverse

theorem SRep.push (grow : Growth) {s : MStack} {K : List (Nat × MAttrib)} (r : SRep s K) (q : Nat) (a : MAttrib) : SRep (s.push grow q a) ((q, a) :: K) := by
  have h1 := (append_one grow r.states q).1
  have h2 := (append_one grow r.attribs a).1
  exact ⟨by simpa [MStack.push] using h1, by simpa [MStack.push] using h2⟩

theorem SRep.len {s : MStack} {K : List (Nat × MAttrib)} (r : SRep s K) : s.states.len = K.length := by simpa using r.states.len

theorem SRep.alen {s : MStack} {K : List (Nat × MAttrib)} (r : SRep s K) : s.attribs.len = K.length := by simpa using r.attribs.len

theorem SRep.top {s : MStack} {K : List (Nat × MAttrib)} (r : SRep s K) : s.top = K.head?.map (·.1) := by
  unfold MStack.top
  rw [r.len]
  cases K with
  | nil => rfl
  | cons k K =>
    rw [if_neg (by simp)]
    unfold cell
    rw [r.states.view]
    simp

theorem SRep.popN {s : MStack} {K : List (Nat × MAttrib)} (r : SRep s K) (n : Nat) :
    if K.length < n then s.popN n = none else ∃ s', s.popN n = some (((K.take n).map (·.2)).reverse, s') ∧ SRep s' (K.drop n) := by
  have hl := r.len
  have ha := r.alen
  unfold MStack.popN
  rw [hl]
  split
  · rfl
  · rename_i hn
    refine ⟨{ s with states := s.states.upto (K.length - n), attribs := s.attribs.upto (K.length - n) }, ?_, ?_, ?_⟩
    · simp only [Option.some.injEq, Prod.mk.injEq, and_true]
      have hv := r.attribs.view
      unfold view at hv
      rw [ha] at hv
      rw [hv]
      simp only [← List.map_drop, ← List.map_take, List.drop_reverse, List.map_reverse, List.map_map, List.length_map]
      rw [show K.length - (K.length - n) = n by omega]
      rfl
    · have := rep_upto r.states (k := K.length - n) (by omega)
      simpa [List.take_reverse, show K.length - (K.length - n) = n by omega] using this
    · have := rep_upto r.attribs (k := K.length - n) (by omega)
      simpa [List.take_reverse, show K.length - (K.length - n) = n by omega] using this

theorem SRep.reset {s : MStack} (h1 : ∃ l, Rep s.smem s.states l) (h2 : ∃ l, Rep s.amem s.attribs l) : SRep s.reset [] := by
  obtain ⟨l, r⟩ := h1
  obtain ⟨l', r'⟩ := h2
  exact ⟨by simpa [MStack.reset] using rep_upto r (Nat.zero_le _), by simpa [MStack.reset] using rep_upto r' (Nat.zero_le _)⟩

theorem srep_new : SRep newStack [] := by
  refine ⟨⟨?_, rfl, by simp [newStack], ?_⟩, ⟨?_, rfl, by simp [newStack], ?_⟩⟩
  · simp [newStack, view]
  · exact ⟨_, rfl, by simp [newStack]⟩
  · simp [newStack, view]
  · exact ⟨_, rfl, by simp [newStack]⟩

/-! ### Steps -/

/-- States. -/
structure StRel (buf : Str) (h0 : Heap) (m : MState) (v : PState Lexer) : Prop where
  stack : ∃ K, SRep m.stack K ∧ Stk buf m.heap K v.stack
  next : seeTok buf m.next = v.next
  lex : seeLex buf m.lex = v.sc
  cnt : m.cnt = v.cnt
  grows : Grows h0 m.heap

/-- Outcomes. -/
inductive RRel (buf : Str) (h0 : Heap) : MRes → PRes Attrib → Prop where
  | ok {a : MAttrib} {h : Heap} {b : Attrib} {n : Nat} : Grows h0 h → Sees buf h a b → RRel buf h0 (.ok a h n) (.ok b n)
  | syntaxErr (t : MTok) (x : List Nat) : RRel buf h0 (.syntaxErr t x) (.syntaxErr (seeTok buf t) x)
  | reduceErr (t : MTok) : RRel buf h0 (.reduceErr t) (.reduceErr (seeTok buf t))
  | panic : RRel buf h0 .panic .panic
  | diverge : RRel buf h0 .diverge .diverge

/-- Outcomes of one iteration. -/
inductive SStep (buf : Str) (h0 : Heap) : MStep → PStep Lexer → Prop where
  | cont {m : MState} {v : PState Lexer} : StRel buf h0 m v → SStep buf h0 (.cont m) (.cont v)
  | stop {m : MRes} {v : PRes Attrib} : RRel buf h0 m v → SStep buf h0 (.stop m) (.stop v)

theorem step_sim (grow : Growth) (rnd : Nat → Nat) {h0 : Heap} {m : MState} {v : PState Lexer} (r : StRel buf h0 m v) :
    SStep buf h0 (stepM grow buf rnd m) (step scan rnd v) := by
  obtain ⟨⟨K, hs, hk⟩, hn, hl, hc, hg⟩ := r
  have ht := hs.top
  unfold stepM step
  rw [ht, ← hn, ← hl, ← hc]
  generalize hV : v.stack = V at hk ⊢
  cases hk with
  | nil => exact .stop .panic
  | @cons q a b K V hsee hown hk =>
    simp only [List.head?_cons, Option.map_some]
    cases actionTab[q]? with
    | none => exact .stop .panic
    | some row =>
      simp only
      have htyp : (seeTok buf m.next).typ = m.next.typ := rfl
      rw [htyp]
      have hk' : Stk buf m.heap ((q, a) :: K) ((q, b) :: V) := .cons hsee hown hk
      cases rowAction row m.next.typ with
      | none => exact .stop (.syntaxErr _ _)
      | some act =>
        cases act with
        | accept =>
          simp only
          have := hs.popN 1
          rw [if_neg (by simp)] at this
          obtain ⟨s', e, -⟩ := this
          rw [e]
          exact .stop (.ok hg hsee)
        | shift s =>
          simp only
          rw [mscan_sim]
          cases mscan buf m.lex with
          | none => exact .stop .panic
          | some p =>
            exact .cont ⟨⟨(s, .tok m.next) :: (q, a) :: K, hs.push grow _ _, .cons ⟨0, rfl⟩ (fun r e => by cases e) hk'⟩, rfl, rfl, rfl, hg⟩
        | reduce p =>
          simp only
          cases prodTab[p]? with
          | none => exact .stop .panic
          | some pr => cases prodActs[p]? with
            | none => exact .stop .panic
            | some act =>
              obtain ⟨nt, n⟩ := pr
              simp only
              have hp := hs.popN n
              have hlen := hk'.length
              rw [hlen] at hp
              by_cases hlt : ((q, b) :: V).length < n
              · rw [if_pos hlt] at hp ⊢
                rw [hp]
                exact .stop .panic
              · rw [if_neg hlt] at hp ⊢
                obtain ⟨s', e, hs'⟩ := hp
                rw [e]
                simp only
                have ha := evalActM_sim grow (anonName (rnd m.cnt)) (hk'.args n) act
                have hd := actDraws_sim (hk'.args n) act
                rw [hd]
                revert ha
                generalize evalActM grow buf (anonName (rnd m.cnt)) m.heap _ act = x
                generalize evalAct (anonName (rnd m.cnt)) _ act = y
                intro ha
                cases ha with
                | none => exact .stop .panic
                | some ha => cases ha with
                  | error => exact .stop (.reduceErr _)
                  | @ok pp b' good =>
                    obtain ⟨a', h'⟩ := pp
                    obtain ⟨g1, g2, g3, g4⟩ := good
                    simp only at g1 g2 g3 g4 ⊢
                    rw [hs'.top]
                    have hdrop := hk'.drop n
                    have hfr : ∀ k ∈ ((q, a) :: K).drop n, ∀ s, own k.2 = some s → Full h' s ∧ ∀ r, own a' = some r → r.arr ≠ s.arr := by
                      intro k hk1 s hs1
                      refine g4 s (hk'.full k (List.mem_of_mem_drop hk1) s hs1) fun x hx r hr => ?_
                      rw [List.mem_reverse, List.mem_map] at hx
                      obtain ⟨k0, hk0, rfl⟩ := hx
                      exact hk'.apart n k0 hk0 r hr k hk1 s hs1
                    have hdrop' : Stk buf h' (((q, a) :: K).drop n) (((q, b) :: V).drop n) := hdrop.frame g1 fun k hk1 s hs1 => (hfr k hk1 s hs1).1
                    revert hdrop' hs' hfr
                    generalize ((q, a) :: K).drop n = K'
                    generalize ((q, b) :: V).drop n = V'
                    intro hs' hfr hdrop'
                    cases hdrop' with
                    | nil => exact .stop .panic
                    | @cons q0 a0 b0 K0 V0 i1 i2 i3 =>
                      simp only [List.head?_cons, Option.map_some]
                      cases gotoTab[q0]? with
                      | none => exact .stop .panic
                      | some grow' =>
                        simp only
                        cases grow'[nt]? with
                        | none => exact .stop .panic
                        | some o => cases o with
                          | none => exact .stop .panic
                          | some q' =>
                            exact .cont ⟨⟨(q', a') :: (q0, a0) :: K0, hs'.push grow _ _,
                              .cons g2 (fun r hr => ⟨g3 r hr, fun k hk1 r' hr' => (hfr k hk1 r' hr').2 r hr⟩) (.cons i1 i2 i3)⟩, rfl, rfl, rfl, hg.trans g1⟩

theorem loop_sim (grow : Growth) (rnd : Nat → Nat) {h0 : Heap} : ∀ (n : Nat) {m : MState} {v : PState Lexer}, StRel buf h0 m v →
    RRel buf h0 (loopM grow buf rnd n m) (loop scan rnd n v)
  | 0, _, _, _ => .diverge
  | n + 1, m, v, r => by
    have := step_sim grow rnd r
    unfold loopM loop
    revert this
    generalize stepM grow buf rnd m = x
    generalize step scan rnd v = y
    intro h
    cases h with
    | cont r => exact loop_sim grow rnd n r
    | stop r => exact r

theorem parse_sim (grow : Growth) (rnd : Nat → Nat) (h0 : Heap) (fuel cnt : Nat) {stk : MStack} (h1 : ∃ l, Rep stk.smem stk.states l)
    (h2 : ∃ l, Rep stk.amem stk.attribs l) : RRel buf h0 (parseM grow buf rnd fuel cnt stk h0) (parse scan rnd fuel cnt (newLexer buf)) := by
  unfold parseM parse
  have : newLexer buf = seeLex buf ⟨0, 1, 1⟩ := rfl
  rw [this, mscan_sim]
  cases mscan buf ⟨0, 1, 1⟩ with
  | none => exact .panic
  | some p =>
    exact loop_sim grow rnd fuel ⟨⟨[(0, .nil)], (SRep.reset h1 h2).push grow _ _, .cons ⟨0, rfl⟩ (fun r e => by cases e) .nil⟩, rfl, rfl, rfl, Grows.refl h0⟩

end Gographviz.ParseMem
