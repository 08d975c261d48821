import Verif.Proofs.ParserMemLoop
import Verif.Props.ErrorText
import Verif.Props.ParseProps
/-!
C67: parsing is not disturbed by the memory it shares: with the parser's stack, whose arrays are used again and of which the `ReduceFunc`s get a part, with the lists of
the tree, which are extended in place, and with the buffer of the caller, the result is the same as with values; and trees made before stay as they are.

C68: the error of a failed parse refers to the caller's buffer.

C69: the `Append…` functions of package ast.
-/
namespace Gographviz.Props
open Gographviz Gographviz.Lex Gographviz.Parse Gographviz.ParseMem Gographviz.Slices

/-! ### C67 -/

theorem bytes_rel (grow : Growth) (rnd : Nat → Nat) (cnt : Nat) (h0 : Heap) (src : Str) :
    RRel src h0 (parseM grow src rnd (fuelFor src.length) cnt newStack h0) (parse scan rnd (fuelFor src.length) cnt (newLexer src)) :=
  parse_sim grow rnd h0 _ cnt ⟨_, srep_new.states⟩ ⟨_, srep_new.attribs⟩

/-- C67. When the parser of values accepts a text, the parser with memory accepts it, whatever the arrays of earlier trees contain and however `append` grows arrays;
the tree that one finds by following the pointers afterwards is the tree of values; the number of generated names is the same; and every list, statement or tree
that was in memory before is unchanged. -/
theorem C67_tree (grow : Growth) (rnd : Nat → Nat) (cnt : Nat) (h0 : Heap) (src : Str) {t : Ast.Graph} {n : Nat} (h : parseBytes rnd cnt src = .ok t n) :
    ∃ g h, parseBytesM grow rnd cnt h0 src = .ok (.graph g) h n ∧ (∃ k, seeGraph h k g = some t) ∧
      ∀ (g0 : MGraph) (t0 : Ast.Graph) (k : Nat), seeGraph h0 k g0 = some t0 → seeGraph h k g0 = some t0 := by
  have r := bytes_rel grow rnd cnt h0 src
  unfold parseBytes at h
  unfold parseBytesM
  revert r h
  generalize parseM grow src rnd (fuelFor src.length) cnt newStack h0 = zm
  generalize parse scan rnd (fuelFor src.length) cnt (newLexer src) = zv
  intro h r
  revert h
  cases r with
  | @ok a hp b m g s =>
    cases b with
    | graph gv =>
      intro h
      cases h
      obtain ⟨k, e⟩ := s
      cases a <;> simp only [seeAttrib, Option.map_eq_some_iff, Option.some.injEq] at e <;>
        first
        | (cases e; done)
        | (obtain ⟨x, hx, e⟩ := e; cases e; done)
        | (obtain ⟨x, hx, e⟩ := e
           cases e
           refine ⟨_, hp, rfl, ⟨k, hx⟩, fun g0 t0 k0 h1 => ?_⟩
           simp only [seeGraph, Option.map_eq_some_iff] at h1 ⊢
           obtain ⟨ss, h2, h3⟩ := h1
           exact ⟨ss, g.stmts (Nat.le_refl _) h2, h3⟩)
    | _ => intro h; cases h
  | syntaxErr t x => intro h; cases h
  | reduceErr t => intro h; cases h
  | panic => intro h; cases h
  | diverge => intro h; cases h

/-- C67. When the parser of values reports a syntax error, so does the one with memory, with the same expected tokens, at the same token. (There are no other outcomes:
C34.) -/
theorem C67_error (grow : Growth) (rnd : Nat → Nat) (cnt : Nat) (h0 : Heap) (src : Str) {t : Token} {x : List Nat} (h : parseBytes rnd cnt src = .syntaxErr t x) :
    ∃ t', parseBytesM grow rnd cnt h0 src = .syntaxErr t' x ∧ seeTok src t' = t := by
  have r := bytes_rel grow rnd cnt h0 src
  unfold parseBytes at h
  unfold parseBytesM
  revert r h
  generalize parseM grow src rnd (fuelFor src.length) cnt newStack h0 = zm
  generalize parse scan rnd (fuelFor src.length) cnt (newLexer src) = zv
  intro h r
  revert h
  cases r with
  | @ok a hp b m g s => cases b <;> (intro h; cases h)
  | syntaxErr t x => intro h; cases h; exact ⟨t, rfl, rfl⟩
  | reduceErr t => intro h; cases h
  | panic => intro h; cases h
  | diverge => intro h; cases h

/-- C67. A parser that has been used before — its stack is as any earlier use left it — does the same as a new one. -/
theorem C67_reset (grow : Growth) (rnd : Nat → Nat) (fuel cnt : Nat) (h0 : Heap) (src : Str) (stk : MStack)
    (h1 : ∃ l, Rep stk.smem stk.states l) (h2 : ∃ l, Rep stk.amem stk.attribs l) {a : Attrib} {n : Nat}
    (h : parse scan rnd fuel cnt (newLexer src) = .ok a n) : ∃ b h, parseM grow src rnd fuel cnt stk h0 = .ok b h n ∧ Sees src h b a := by
  have r := parse_sim (buf := src) grow rnd h0 fuel cnt h1 h2
  rw [h] at r
  revert r
  generalize parseM grow src rnd fuel cnt stk h0 = x
  intro r
  cases r with
  | ok g s => exact ⟨_, _, rfl, s⟩

/-- Parsing one text after the other in one process: the memory afterwards and the trees, the first one first (`none`: that text was rejected). -/
def parseAllM (grow : Growth) (rnd : Nat → Nat) : Nat → Heap → List Str → Heap × List (Option MGraph)
  | _, h, [] => (h, [])
  | cnt, h, s :: ss => match parseBytesM grow rnd cnt h s with
    | .ok (.graph g) h' n => let (h'', gs) := parseAllM grow rnd n h' ss; (h'', some g :: gs)
    | _ => let (h'', gs) := parseAllM grow rnd cnt h ss; (h'', none :: gs)

/-- The same with values. -/
def parseAll (rnd : Nat → Nat) : Nat → List Str → List (Option Ast.Graph)
  | _, [] => []
  | cnt, s :: ss => match parseBytes rnd cnt s with
    | .ok t n => some t :: parseAll rnd n ss
    | _ => none :: parseAll rnd cnt ss

theorem parseAllM_keeps (grow : Growth) (rnd : Nat → Nat) : ∀ (ss : List Str) (cnt : Nat) (h : Heap) (g0 : MGraph) (t0 : Ast.Graph) (k : Nat),
    seeGraph h k g0 = some t0 → seeGraph (parseAllM grow rnd cnt h ss).1 k g0 = some t0
  | [], _, _, _, _, _, e => e
  | s :: ss, cnt, h, g0, t0, k, e => by
    unfold parseAllM
    have ht := C34_total rnd cnt s
    rcases ht with ⟨t, n, ht⟩ | ⟨t, x, ts, ht, -⟩
    · obtain ⟨g, h', h1, h2, h3⟩ := C67_tree grow rnd cnt h s ht
      rw [h1]
      exact parseAllM_keeps grow rnd ss n h' g0 t0 k (h3 g0 t0 k e)
    · obtain ⟨t', h1, -⟩ := C67_error grow rnd cnt h s ht
      rw [h1]
      exact parseAllM_keeps grow rnd ss cnt h g0 t0 k e

/-- C67. After any sequence of parses, every tree is what its own text says, whatever was parsed before or after it. -/
theorem C67_sequence (grow : Growth) (rnd : Nat → Nat) : ∀ (ss : List Str) (cnt : Nat) (h : Heap),
    ∃ k, (parseAllM grow rnd cnt h ss).2.map (fun o => o.bind (seeGraph (parseAllM grow rnd cnt h ss).1 k)) = parseAll rnd cnt ss ∧
      (parseAllM grow rnd cnt h ss).2.map Option.isSome = (parseAll rnd cnt ss).map Option.isSome
  | [], _, _ => ⟨0, rfl, rfl⟩
  | s :: ss, cnt, h => by
    unfold parseAllM parseAll
    rcases C34_total rnd cnt s with ⟨t, n, ht⟩ | ⟨t, x, ts, ht, -⟩
    · obtain ⟨g, h', h1, ⟨k, h2⟩, h3⟩ := C67_tree grow rnd cnt h s ht
      rw [h1, ht]
      obtain ⟨k', h4, h5⟩ := C67_sequence grow rnd ss n h'
      refine ⟨max k k', ?_, ?_⟩
      · simp only [List.map_cons, Option.bind_some]
        have deep : ∀ {H : Heap} {k k' : Nat} {g : MGraph} {t : Ast.Graph}, k ≤ k' → seeGraph H k g = some t → seeGraph H k' g = some t := by
          intro H k k' g t hk e
          simp only [seeGraph, Option.map_eq_some_iff] at e ⊢
          obtain ⟨ss, h2, h3⟩ := e
          exact ⟨ss, (Grows.refl H).stmts hk h2, h3⟩
        rw [deep (Nat.le_max_left k k') (parseAllM_keeps grow rnd ss n h' g t k h2)]
        congr 1
        rw [← h4]
        apply List.map_congr_left
        intro o ho
        cases o with
        | none => rfl
        | some g' =>
          simp only [Option.bind_some]
          have hs : (seeGraph (parseAllM grow rnd n h' ss).1 k' g').isSome := by
            obtain ⟨i, hi, e⟩ := List.getElem_of_mem ho
            have e4 := congrArg (·[i]?) h4
            have e5 := congrArg (·[i]?) h5
            simp only [List.getElem?_map, List.getElem?_eq_getElem hi, e, Option.map_some, Option.bind_some, Option.isSome_some] at e4 e5
            rw [← e4] at e5
            simpa using e5.symm
          obtain ⟨t', ht'⟩ := Option.isSome_iff_exists.1 hs
          rw [ht', deep (Nat.le_max_right k k') ht']
      · simp [h5]
    · obtain ⟨t', h1, -⟩ := C67_error grow rnd cnt h s ht
      rw [h1, ht]
      obtain ⟨k', h4, h5⟩ := C67_sequence grow rnd ss cnt h
      exact ⟨k', by simp [h4], by simp [h5]⟩

/-- Three texts, the second one rejected: the trees of the other two are there. -/
example : parseAll (fun _ => 0) 0 [b!"graph {a}", b!"graph {", b!"digraph {b [c=d]; e -> {f} [g=h, i=j]}"] =
      [some ⟨false, false, [], [.node ⟨b!"a", ⟨[], []⟩⟩ []]⟩, none, some ⟨true, false, [], [.node ⟨b!"b", ⟨[], []⟩⟩ [[⟨b!"c", b!"d"⟩]],
        .edge (.node ⟨b!"e", ⟨[], []⟩⟩) [.mk true (.sub (b!"anon0") [.node ⟨b!"f", ⟨[], []⟩⟩ []])] [[⟨b!"g", b!"h"⟩, ⟨b!"i", b!"j"⟩]]]⟩] ∧
    let r := parseAllM (fun _ n => n) (fun _ => 0) 0 [] [b!"graph {a}", b!"graph {", b!"digraph {b [c=d]; e -> {f} [g=h, i=j]}"]
    r.2.map (fun o => o.bind (seeGraph r.1 2)) = parseAll (fun _ => 0) 0 [b!"graph {a}", b!"graph {", b!"digraph {b [c=d]; e -> {f} [g=h, i=j]}"] :=
  ⟨by rfl, by rfl⟩

/-! ### C68 -/

/-- Where a token lies in the buffer. -/
structure Placed (buf : Str) (t : MTok) : Prop where
  lo : t.lo = t.offset
  hi : t.hi = t.offset + (lit buf t).length

theorem mscan_placed {buf : Str} {l : MLexer} (hp : l.pos ≤ buf.length) {t : MTok} {l' : MLexer} (h : mscan buf l = some (t, l')) :
    Placed buf t ∧ l'.pos ≤ buf.length := by
  obtain ⟨t1, l1, h1, -, h3, -⟩ := C33_scan_total (seeLex buf l) hp
  rw [mscan_sim, h] at h1
  cases h1
  have h3' : l'.pos ≤ buf.length := h3
  refine ⟨?_, h3'⟩
  unfold mscan at h
  split at h
  · cases h; exact ⟨rfl, by simp [lit]⟩
  · split at h
    · cases h
    · split at h
      · cases h
        refine ⟨rfl, ?_⟩
        simp only [lit, List.length_take, List.length_drop]
        simp only at h3'
        omega
      · cases h; exact ⟨rfl, by simp [lit]⟩

theorem loopM_placed (grow : Growth) (buf : Str) (rnd : Nat → Nat) : ∀ (n : Nat) (st : MState), Placed buf st.next → st.lex.pos ≤ buf.length →
    ∀ {t : MTok} {x : List Nat}, loopM grow buf rnd n st = .syntaxErr t x → Placed buf t
  | 0, _, _, _, _, _, h => by cases h
  | n + 1, st, hn, hl, t, x, h => by
    unfold loopM at h
    have key : (∀ t x, stepM grow buf rnd st = .stop (.syntaxErr t x) → Placed buf t) ∧
        ∀ st', stepM grow buf rnd st = .cont st' → Placed buf st'.next ∧ st'.lex.pos ≤ buf.length := by
      unfold stepM
      repeat' split
      all_goals (refine ⟨fun t x e => ?_, fun st' e => ?_⟩ <;> cases e)
      all_goals first
        | exact hn
        | exact ⟨hn, hl⟩
        | exact mscan_placed hl (by assumption)
    revert h key
    generalize stepM grow buf rnd st = z
    intro h key
    cases z with
    | stop r => exact key.1 t x (by simp only at h; rw [h])
    | cont st' => exact loopM_placed grow buf rnd n st' (key.2 st' rfl).1 (key.2 st' rfl).2 h

/-- C68. The message of a syntax error is made from the buffer as it is when the message is asked for: the text quoted in it is what lies there then, as many bytes as
the token had, from where the token started. -/
theorem C68_message (grow : Growth) (up : Nat → Bool) (rnd : Nat → Nat) (cnt : Nat) (h0 : Heap) (src : Str) {t : Token} {x : List Nat}
    (h : parseBytes rnd cnt src = .syntaxErr t x) :
    ∃ t', parseBytesM grow rnd cnt h0 src = .syntaxErr t' x ∧ errorTextM up src t' x = errorText up t x ∧
      ∀ later : Str, errorTextM up later t' x = errorText up { t with lit := (later.drop t.offset).take t.lit.length } x := by
  obtain ⟨t', h1, h2⟩ := C67_error grow rnd cnt h0 src h
  refine ⟨t', h1, by unfold errorTextM; rw [h2], fun later => ?_⟩
  have hp : Placed src t' := by
    unfold parseBytesM at h1
    have h3 : parseM grow src rnd (fuelFor src.length) cnt newStack h0 = .syntaxErr t' x := by
      revert h1
      generalize parseM grow src rnd (fuelFor src.length) cnt newStack h0 = z
      intro h1
      cases z with
      | ok a h n => cases a <;> cases h1
      | _ => exact h1
    unfold parseM at h3
    cases hs : mscan src ⟨0, 1, 1⟩ with
    | none => rw [hs] at h3; cases h3
    | some p =>
      rw [hs] at h3
      have := mscan_placed (Nat.zero_le _) hs
      exact loopM_placed grow src rnd _ _ this.1 this.2 h3
  subst h2
  unfold errorTextM
  congr 1
  unfold seeTok
  simp only [Token.mk.injEq, true_and, and_true]
  have h1 := hp.lo
  have h2 := hp.hi
  rw [show lit later t' = (later.drop t'.offset).take (t'.hi - t'.lo) by unfold lit; rw [h1]]
  congr 1
  omega

/-- C68, the part that holds: if the bytes of the token are still the same in the buffer, or the error is at the end of the input, the message is the one the error had when it was returned. And only then: a
changed byte of the token always changes the message. -/
theorem C68_stable_partial (grow : Growth) (up : Nat → Bool) (rnd : Nat → Nat) (cnt : Nat) (h0 : Heap) (src : Str) {t : Token} {x : List Nat}
    (h : parseBytes rnd cnt src = .syntaxErr t x) {t' : MTok} (h' : parseBytesM grow rnd cnt h0 src = .syntaxErr t' x) (later : Str)
    (hb : ∀ c ∈ src, c < 256) (hb' : ∀ c ∈ later, c < 256) :
    errorTextM up later t' x = errorTextM up src t' x ↔ t.typ = 1 ∨ (later.drop t.offset).take t.lit.length = t.lit := by
  obtain ⟨t'', h1, h2, h3⟩ := C68_message grow up rnd cnt h0 src h
  rw [h'] at h1
  cases h1
  rw [h3 later, h2]
  have hlit : ∀ c ∈ t.lit, c < 256 := by
    obtain ⟨t'', h1, h4⟩ := C67_error grow rnd cnt h0 src h
    intro c hc
    rw [← h4] at hc
    exact hb c (List.mem_of_mem_drop (List.mem_of_mem_take hc))
  unfold errorText
  rw [List.append_cancel_left_eq]
  unfold describeToken
  simp only
  constructor
  · intro e
    by_cases h1 : t.typ = 1
    · exact .inl h1
    · refine .inr (C52_quote_injective up (fun c hc => hb' c (List.mem_of_mem_drop (List.mem_of_mem_take hc))) hlit ?_)
      split at e
      · exact List.append_cancel_left e
      · exact e
  · rintro (h1 | h1)
    · rw [if_neg (by omega), if_pos h1, if_neg (by omega), if_pos h1]
    · rw [h1]

/-- C68 does not hold in full: a caller that uses its buffer again finds another message in an error it got before. `graph { a -> }` gives `got: "}"`; when the caller has then
read `graph { a -> b` … into the same buffer, the same error says `got: "b"`. -/
theorem C68_violated : ∃ (src later : Str) (t : MTok) (x : List Nat), src.length = later.length ∧
    parseBytesM (fun _ _ => 0) (fun _ => 0) 0 [] src = .syntaxErr t x ∧
    errorTextM (fun _ => true) src t x = b!"1:14: error: expected one of \"{\", subgraph or id; got: \"}\"" ∧
    errorTextM (fun _ => true) later t x = b!"1:14: error: expected one of \"{\", subgraph or id; got: \"b\"" :=
  ⟨b!"graph { a -> }", b!"graph { a -> b", ⟨4, 13, 14, 13, 1, 14⟩, [3, 15, 18], rfl, by rfl, by decide +kernel, by decide +kernel⟩

/-! ### C69 -/

/-- Use of the exported list functions of package ast: `New…List(x)` (or `EdgeRHS`), and `Append…(l, x)` for a list `l` that was returned before (lists are numbered in the
order in which they were returned). -/
inductive ListOp where
  | new (x : Cell)
  | app (l : Nat) (x : Cell)

/-- The list a call extends. -/
def ListOp.target : ListOp → Option Nat
  | .new _ => none
  | .app l _ => some l

/-- What a caller expects: lists are values. -/
def listsV : List (List Cell) → List ListOp → List (List Cell)
  | ls, [] => ls
  | ls, .new x :: ops => listsV (ls ++ [[x]]) ops
  | ls, .app i x :: ops => match ls[i]? with
    | none => listsV ls ops
    | some l => listsV (ls ++ [l ++ [x]]) ops

/-- What happens (ast.go:133-143, 405-416, 525-533; `NewAttrList` makes an empty list and appends, ast.go:337-352). -/
def listsM (grow : Growth) : Heap → List Slice → List ListOp → Heap × List Slice
  | h, ss, [] => (h, ss)
  | h, ss, .new x :: ops => listsM grow (single h x).1 (ss ++ [(single h x).2]) ops
  | h, ss, .app i x :: ops => match ss[i]? with
    | none => listsM grow h ss ops
    | some s => listsM grow (append grow h s [some x]).1 (ss ++ [(append grow h s [some x]).2]) ops

/-- Lists that were extended (`used`) and lists that were not. -/
structure LInv (h : Heap) (ss : List Slice) (ls : List (List Cell)) (used : List Nat) : Prop where
  see : ss.map (look h) = ls.map some
  full : ∀ (i : Nat) (s : Slice), ss[i]? = some s → i ∉ used → Full h s
  apart : ∀ (i j : Nat) (s t : Slice), ss[i]? = some s → ss[j]? = some t → i ≠ j → i ∉ used → j ∉ used → s.arr ≠ t.arr

theorem snoc_get {α : Type} {l : List α} {x y : α} {i : Nat} (h : (l ++ [x])[i]? = some y) : l[i]? = some y ∨ i = l.length ∧ y = x := by
  rcases Nat.lt_trichotomy i l.length with hi | hi | hi
  · exact .inl (by rw [List.getElem?_append_left hi] at h; exact h)
  · subst hi; simp at h; exact .inr ⟨rfl, h.symm⟩
  · rw [List.getElem?_eq_none (by simp; omega)] at h; cases h

theorem map_look {h h' : Heap} (g : Grows h h') {ss : List Slice} {ls : List (List Cell)} (e : ss.map (look h) = ls.map some) : ss.map (look h') = ls.map some := by
  rw [← e]
  apply List.map_congr_left
  intro s hs
  have : look h s ∈ ss.map (look h) := List.mem_map_of_mem hs
  rw [e, List.mem_map] at this
  obtain ⟨l, -, hl⟩ := this
  rw [g.look hl.symm, hl]

theorem listsM_inv (grow : Growth) : ∀ (ops : List ListOp) (h : Heap) (ss : List Slice) (ls : List (List Cell)) (used : List Nat), LInv h ss ls used →
    (ops.filterMap ListOp.target).Nodup → (∀ i ∈ ops.filterMap ListOp.target, i ∉ used) →
    (listsM grow h ss ops).2.map (look (listsM grow h ss ops).1) = (listsV ls ops).map some
  | [], _, _, _, _, inv, _, _ => inv.see
  | .new x :: ops, h, ss, ls, used, inv, hn, hd => by
    unfold listsM listsV
    have g : Grows h (single h x).1 := alloc_grows h _
    refine listsM_inv grow ops _ _ _ used ⟨?_, fun i s hs hi => ?_, fun i j s t hs ht hij hi hj => ?_⟩ hn hd
    · rw [List.map_append, List.map_append, map_look g inv.see, List.map_singleton, List.map_singleton, rep_look (single_rep h x)]
    · rcases snoc_get hs with hs | ⟨rfl, rfl⟩
      · exact alloc_frame (inv.full i s hs hi) _
      · exact single_full h x
    · rcases snoc_get hs with hs | ⟨rfl, rfl⟩ <;> rcases snoc_get ht with ht | ⟨rfl, rfl⟩
      · exact inv.apart i j s t hs ht hij hi hj
      · have := (inv.full i s hs hi).lt; simp only [single]; omega
      · have := (inv.full j t ht hj).lt; simp only [single]; omega
      · exact absurd rfl hij
  | .app l x :: ops, h, ss, ls, used, inv, hn, hd => by
    have hn' : (ops.filterMap ListOp.target).Nodup ∧ l ∉ ops.filterMap ListOp.target := by
      simp only [List.filterMap_cons, ListOp.target, List.nodup_cons] at hn; exact ⟨hn.2, hn.1⟩
    have hl : l ∉ used := hd l (by simp [ListOp.target])
    have hd' : ∀ i ∈ ops.filterMap ListOp.target, i ∉ used := fun i hi => hd i (by
      simp only [List.filterMap_cons, ListOp.target]; exact List.mem_cons_of_mem _ hi)
    have hlen : ss.length = ls.length := by simpa using congrArg List.length inv.see
    unfold listsM listsV
    cases hs : ss[l]? with
    | none =>
      rw [List.getElem?_eq_none (by rw [← hlen]; exact List.getElem?_eq_none_iff.1 hs)]
      exact listsM_inv grow ops h ss ls used inv hn'.1 hd'
    | some s =>
      have hsee := congrArg (·[l]?) inv.see
      simp only [List.getElem?_map, hs, Option.map_some] at hsee
      cases hv : ls[l]? with
      | none => rw [hv] at hsee; cases hsee
      | some v =>
        rw [hv] at hsee
        have hlook : look h s = some v := by simpa using hsee
        obtain ⟨g, r, f, fr⟩ := append_full grow (inv.full l s hs hl) hlook x
        simp only
        refine listsM_inv grow ops _ _ _ (l :: used) ⟨?_, fun i t ht hi => ?_, fun i j t u ht hu hij hi hj => ?_⟩ hn'.1 (fun i hi => ?_)
        · rw [List.map_append, List.map_append, map_look g inv.see, List.map_singleton, List.map_singleton, rep_look r]
        · rw [List.mem_cons, not_or] at hi
          rcases snoc_get ht with ht | ⟨rfl, rfl⟩
          · exact (fr t (inv.full i t ht hi.2) (inv.apart l i s t hs ht (Ne.symm hi.1) hl hi.2)).1
          · exact f
        · rw [List.mem_cons, not_or] at hi hj
          rcases snoc_get ht with ht | ⟨rfl, rfl⟩ <;> rcases snoc_get hu with hu | ⟨rfl, rfl⟩
          · exact inv.apart i j t u ht hu hij hi.2 hj.2
          · exact Ne.symm (fr t (inv.full i t ht hi.2) (inv.apart l i s t hs ht (Ne.symm hi.1) hl hi.2)).2
          · exact (fr u (inv.full j u hu hj.2) (inv.apart l j s u hs hu (Ne.symm hj.1) hl hj.2)).2
          · exact absurd rfl hij
        · rw [List.mem_cons, not_or]
          exact ⟨fun e => hn'.2 (e ▸ hi), hd' i hi⟩

/-- C69, the part that holds: as long as no list is extended twice, all lists keep the values they were returned with, for every way `append` may grow arrays. -/
theorem C69_lists_partial (grow : Growth) (h : Heap) (ops : List ListOp) (hn : (ops.filterMap ListOp.target).Nodup) :
    (listsM grow h [] ops).2.map (look (listsM grow h [] ops).1) = (listsV [] ops).map some :=
  listsM_inv grow ops h [] [] [] ⟨rfl, fun i s h => by simp at h, fun i j s t h => by simp at h⟩ hn (by simp)

/-- A chain of calls as the parser makes them, with another list in between. -/
example : ((listsM (fun _ n => n) [] [] [.new (.attr ⟨b!"a", b!"1"⟩), .app 0 (.attr ⟨b!"b", b!"2"⟩), .new (.attr ⟨b!"x", b!"0"⟩), .app 1 (.attr ⟨b!"c", b!"3"⟩)]).2.map
    (fun s => s.len)) = [1, 2, 1, 3] := by decide +kernel

/-- C69 does not hold in full: extending a list twice overwrites the first result, when the array has room (here it grows to double its size, as Go's does). The third list has
the element `c` when it is returned; the fourth call changes it to `d`. -/
theorem C69_violated :
    let a : Ast.Attr := ⟨b!"a", b!"1"⟩; let b : Ast.Attr := ⟨b!"b", b!"2"⟩; let c : Ast.Attr := ⟨b!"c", b!"3"⟩; let d : Ast.Attr := ⟨b!"d", b!"4"⟩
    let before := [ListOp.new (.attr a), .app 0 (.attr b), .app 1 (.attr c)]
    let r := listsM (fun _ n => n) [] [] before
    let r' := listsM (fun _ n => n) [] [] (before ++ [.app 1 (.attr d)])
    r.2.map (seeAList r.1) = [some [a], some [a, b], some [a, b, c]] ∧
    r'.2.map (seeAList r'.1) = [some [a], some [a, b], some [a, b, d], some [a, b, d]] := by decide +kernel

/-- `listsM` is what the functions of ast.go do (`AppendAList` here). -/
theorem C69_appendAList (grow : Growth) (buf anon : Str) (h : Heap) (s : Slice) (a : Ast.Attr) :
    evalActM grow buf anon h [.alist s, .attr a] (.appendAList (some 0) (some 1)) =
      some (.ok (.alist (append grow h s [some (.attr a)]).2, (append grow h s [some (.attr a)]).1)) := rfl

end Gographviz.Props
