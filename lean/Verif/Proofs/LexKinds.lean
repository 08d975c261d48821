import Verif.Proofs.Lex
import Verif.Spec.Lexical
/-!
The 141 states of the scanner grouped into 23 kinds; the automaton on kinds recognises the classes of `Spec/Lexical.lean`.
-/
namespace Gographviz.Lex

open Gographviz Spec

/-- Kinds of states. -/
inductive K where
  | start | ws | str | strEsc | strEnd | line | lineEnd | slash | block | blockStar | blockEnd
  | punct (t : Nat)
  | dash | dot | frac | int | intDot | html | tagOpen | tag | htmlEnd | ident
  deriving DecidableEq, Repr

/-- The kind of each state. -/
def kinds : List K := [
  .start, .ws, .str, .line, .punct 13, .dash, .dot, .slash, .int, .punct 14, .punct 7, .html, .punct 8, .ident, .ident,
  .ident, .ident, .ident, .ident, .punct 11, .punct 12, .ident, .ident, .ident, .ident, .ident, .ident, .punct 3, .punct
  4, .ident, .str, .strEnd, .strEsc, .str, .lineEnd, .punct 17, .punct 16, .frac, .block, .line, .intDot, .html,
  .tagOpen, .htmlEnd, .ident, .ident, .ident, .ident, .ident, .ident, .ident, .ident, .ident, .ident, .ident, .ident,
  .ident, .ident, .ident, .ident, .ident, .ident, .ident, .str, .str, .str, .blockStar, .intDot, .tag, .ident, .ident,
  .ident, .ident, .ident, .ident, .ident, .ident, .ident, .ident, .ident, .ident, .ident, .ident, .ident, .ident,
  .ident, .ident, .ident, .ident, .blockEnd, .html, .ident, .ident, .ident, .ident, .ident, .ident, .ident, .ident,
  .ident, .ident, .ident, .ident, .ident, .ident, .ident, .ident, .ident, .ident, .ident, .ident, .ident, .ident,
  .ident, .ident, .ident, .ident, .ident, .ident, .ident, .ident, .ident, .ident, .ident, .ident, .ident, .ident,
  .ident, .ident, .ident, .ident, .ident, .ident, .ident, .ident, .ident, .ident, .ident, .ident, .ident, .ident]

def kindOf (s : Nat) : K := kinds[s]?.getD .start

/-- Piecewise constant functions: the first interval that contains the argument, else the default. -/
def pw {α : Type} (d : Option α) (r : Nat) : List (Nat × Nat × α) → Option α
  | [] => d
  | (lo, hi, t) :: cs => if lo ≤ r ∧ r ≤ hi then some t else pw d r cs

/-- The automaton on kinds. -/
def kRow : K → List (Nat × Nat × K) × Option K
  | .start => ([(9, 10, .ws), (13, 13, .ws), (32, 32, .ws), (34, 34, .str), (35, 35, .line), (44, 44, .punct 13), (45, 45, .dash),
      (46, 46, .dot), (47, 47, .slash), (48, 57, .int), (58, 58, .punct 14), (59, 59, .punct 7), (60, 60, .html), (61, 61, .punct 8),
      (65, 90, .ident), (91, 91, .punct 11), (93, 93, .punct 12), (95, 95, .ident), (97, 122, .ident), (123, 123, .punct 3),
      (125, 125, .punct 4), (128, 65532, .ident), (65534, 1114111, .ident)], none)
  | .str => ([(1, 33, .str), (34, 34, .strEnd), (35, 91, .str), (92, 92, .strEsc), (93, 65532, .str), (65534, 1114111, .str)], none)
  | .strEsc => ([(1, 65532, .str), (65534, 1114111, .str)], none)
  | .line => ([(10, 10, .lineEnd)], some .line)
  | .slash => ([(42, 42, .block), (47, 47, .line)], none)
  | .block => ([(42, 42, .blockStar)], some .block)
  | .blockStar => ([(42, 42, .blockStar), (47, 47, .blockEnd)], some .block)
  | .dash => ([(45, 45, .punct 17), (46, 46, .dot), (48, 57, .int), (62, 62, .punct 16)], none)
  | .dot => ([(48, 57, .frac)], none)
  | .frac => ([(48, 57, .frac)], none)
  | .int => ([(46, 46, .intDot), (48, 57, .int)], none)
  | .intDot => ([(48, 57, .intDot)], none)
  | .html => ([(1, 59, .html), (60, 60, .tagOpen), (61, 61, .html), (62, 62, .htmlEnd), (63, 255, .html)], none)
  | .tagOpen => ([(1, 59, .tag), (61, 61, .tag), (63, 255, .tag)], none)
  | .tag => ([(1, 59, .tag), (61, 61, .tag), (62, 62, .html), (63, 255, .tag)], none)
  | .ident => ([(48, 57, .ident), (65, 90, .ident), (95, 95, .ident), (97, 122, .ident), (128, 65532, .ident), (65534, 1114111, .ident)], none)
  | _ => ([], none)

def kstep (k : K) (r : Nat) : Option K := pw (kRow k).2 r (kRow k).1

/-! ### piecewise constant functions are determined by their breakpoints -/

/-- Breakpoints of a list of intervals. -/
def breaks {α : Type} (cs : List (Nat × Nat × α)) : List Nat := cs.flatMap fun c => [c.1, c.2.1 + 1]

/-- The largest element of `l` that is at most `r` (0 if there is none). -/
def floorIn (l : List Nat) (r : Nat) : Nat := l.foldl (fun m x => if m ≤ x ∧ x ≤ r then x else m) 0

theorem floorIn_aux (l : List Nat) (r m : Nat) (hm : m ≤ r) :
    let f := l.foldl (fun m x => if m ≤ x ∧ x ≤ r then x else m) m
    m ≤ f ∧ f ≤ r ∧ (f = m ∨ f ∈ l) ∧ ∀ x ∈ l, x ≤ r → x ≤ f := by
  induction l generalizing m with
  | nil => simp [hm]
  | cons a l ih =>
    simp only [List.foldl_cons]
    by_cases h : m ≤ a ∧ a ≤ r
    · rw [if_pos h]
      obtain ⟨h1, h2, h3, h4⟩ := ih a h.2
      refine ⟨by omega, h2, ?_, ?_⟩
      · rcases h3 with h3 | h3
        · rw [h3]; exact .inr (by simp)
        · exact .inr (by simp [h3])
      · intro x hx hxr
        rcases List.mem_cons.1 hx with rfl | hx
        · exact h1
        · exact h4 x hx hxr
    · rw [if_neg h]
      obtain ⟨h1, h2, h3, h4⟩ := ih m hm
      refine ⟨h1, h2, ?_, ?_⟩
      · rcases h3 with h3 | h3
        · exact .inl h3
        · exact .inr (by simp [h3])
      · intro x hx hxr
        rcases List.mem_cons.1 hx with rfl | hx
        · omega
        · exact h4 x hx hxr

theorem pw_floor {α : Type} (d : Option α) (cs : List (Nat × Nat × α)) (l : List Nat) (hl : ∀ x ∈ breaks cs, x ∈ l) (r : Nat) :
    pw d r cs = pw d (floorIn l r) cs := by
  obtain ⟨_, h2, h3, h4⟩ := floorIn_aux l r 0 (Nat.zero_le _)
  change floorIn l r ≤ r at h2
  change ∀ x ∈ l, x ≤ r → x ≤ floorIn l r at h4
  induction cs with
  | nil => rfl
  | cons c cs ih =>
    obtain ⟨lo, hi, t⟩ := c
    have hlo := hl lo (by simp [breaks])
    have hhi := hl (hi + 1) (by simp [breaks])
    have : (lo ≤ r ∧ r ≤ hi) ↔ (lo ≤ floorIn l r ∧ floorIn l r ≤ hi) := by
      constructor
      · intro h; exact ⟨h4 lo hlo h.1, by omega⟩
      · intro h
        refine ⟨by omega, ?_⟩
        apply Classical.byContradiction
        intro h'
        have := h4 (hi + 1) hhi (by omega)
        omega
    simp only [pw]
    rw [ih (fun x hx => hl x (by simp only [breaks, List.flatMap_cons, List.mem_append] at hx ⊢; exact .inr hx))]
    by_cases h : lo ≤ r ∧ r ≤ hi
    · rw [if_pos h, if_pos (this.1 h)]
    · rw [if_neg h, if_neg (fun h' => h (this.2 h'))]

theorem pw_ext {α : Type} {d d' : Option α} {cs cs' : List (Nat × Nat × α)}
    (h : ∀ b ∈ 0 :: (breaks cs ++ breaks cs'), pw d b cs = pw d' b cs') (r : Nat) : pw d r cs = pw d' r cs' := by
  rw [pw_floor d cs (breaks cs ++ breaks cs') (fun x hx => by simp [hx]) r,
    pw_floor d' cs' (breaks cs ++ breaks cs') (fun x hx => by simp [hx]) r]
  apply h
  obtain ⟨_, _, h3, _⟩ := floorIn_aux (breaks cs ++ breaks cs') r 0 (Nat.zero_le _)
  rcases h3 with h3 | h3
  · show floorIn _ _ ∈ _
    rw [show floorIn (breaks cs ++ breaks cs') r = 0 from h3]; simp
  · exact List.mem_cons_of_mem _ h3

theorem transRow_pw (row : List (Nat × Nat × Nat) × Option Nat) (r : Nat) : transRow row r = pw row.2 r row.1 := by
  obtain ⟨cs, d⟩ := row
  induction cs with
  | nil => rfl
  | cons c cs ih =>
    obtain ⟨lo, hi, t⟩ := c
    simp only [transRow, findCase, pw] at ih ⊢
    by_cases h : lo ≤ r ∧ r ≤ hi
    · rw [if_pos h, if_pos h]
    · rw [if_neg h, if_neg h]; exact ih

theorem pw_map {α β : Type} (f : α → β) (d : Option α) (cs : List (Nat × Nat × α)) (r : Nat) :
    (pw d r cs).map f = pw (d.map f) r (cs.map fun c => (c.1, c.2.1, f c.2.2)) := by
  induction cs with
  | nil => rfl
  | cons c cs ih =>
    obtain ⟨lo, hi, t⟩ := c
    simp only [pw, List.map_cons]
    split
    · rfl
    · exact ih

/-- The check of one state: its row, with targets replaced by their kinds, agrees with the row of its kind at all breakpoints. -/
def simOk (s : Nat) : Bool :=
  match transTab[s]? with
  | none => false
  | some row =>
    let cs := row.1.map fun c => (c.1, c.2.1, kindOf c.2.2)
    let d := row.2.map kindOf
    (0 :: (breaks cs ++ breaks (kRow (kindOf s)).1)).all fun b =>
      decide (pw d b cs = pw (kRow (kindOf s)).2 b (kRow (kindOf s)).1)

theorem simOk_all : ∀ s < nStates, simOk s = true := by decide +kernel

/-- The automaton on states simulates the automaton on kinds. -/
theorem tr_kstep {s : Nat} (hs : s < nStates) (r : Nat) : (tr s r).map kindOf = kstep (kindOf s) r := by
  have h := simOk_all s hs
  unfold simOk at h
  unfold tr
  split at h
  · cases h
  · rename_i row hrow
    simp only [hrow, transRow_pw, pw_map]
    apply pw_ext
    intro b hb
    exact of_decide_eq_true (List.all_eq_true.1 h b hb)

/-- A path over runes. -/
def trs (s : Nat) : List Nat → Option Nat
  | [] => some s
  | r :: rs => (tr s r).bind fun s' => trs s' rs

def kpath (k : K) : List Nat → Option K
  | [] => some k
  | r :: rs => (kstep k r).bind fun k' => kpath k' rs

theorem trs_append (s : Nat) (a b : List Nat) : trs s (a ++ b) = (trs s a).bind fun s' => trs s' b := by
  induction a generalizing s with
  | nil => rfl
  | cons r a ih =>
    simp only [List.cons_append, trs]
    cases tr s r with
    | none => rfl
    | some s1 => simp [ih]

theorem kpath_append (k : K) (a b : List Nat) : kpath k (a ++ b) = (kpath k a).bind fun k' => kpath k' b := by
  induction a generalizing k with
  | nil => rfl
  | cons r a ih =>
    simp only [List.cons_append, kpath]
    cases kstep k r with
    | none => rfl
    | some s1 => simp [ih]

theorem trs_kpath {s : Nat} (hs : s < nStates) (w : List Nat) : (trs s w).map kindOf = kpath (kindOf s) w := by
  induction w generalizing s with
  | nil => rfl
  | cons r w ih =>
    simp only [trs, kpath, ← tr_kstep hs r]
    cases h : tr s r with
    | none => rfl
    | some s1 => simp [ih (tr_lt h)]

theorem trs_lt {s s' : Nat} (hs : s < nStates) {w : List Nat} (h : trs s w = some s') : s' < nStates := by
  induction w generalizing s with
  | nil => cases h; exact hs
  | cons r w ih =>
    simp only [trs] at h
    cases h1 : tr s r with
    | none => rw [h1] at h; cases h
    | some s1 => rw [h1] at h; exact ih (tr_lt h1) h

/-- The token types of the kinds (identifiers apart). -/
def kTyp : K → Nat
  | .strEnd | .frac | .int | .intDot | .htmlEnd => 18
  | .punct t => t
  | _ => 0

/-- The kinds of the ignored states. -/
def kIgn : K → Bool
  | .ws | .lineEnd | .blockEnd => true
  | _ => false

theorem typOf_kind : ∀ s < nStates, (kindOf s ≠ .ident → typOf s = kTyp (kindOf s)) ∧ (actTab[s]? = some none ↔ kIgn (kindOf s) = true) := by
  decide +kernel

/-- The words that lead to the states of the keyword tree. -/
def treeWords : List (Nat × List (List Nat)) := [
  (14, [b!"D"]), (15, [b!"E"]), (16, [b!"G"]), (17, [b!"N"]), (18, [b!"S"]), (22, [b!"d"]), (23, [b!"e"]), (24,
  [b!"g"]), (25, [b!"n"]), (26, [b!"s"]), (45, [b!"DI"]), (46, [b!"Di"]), (47, [b!"ED"]), (48, [b!"Ed"]), (49,
  [b!"GR"]), (50, [b!"Gr"]), (51, [b!"NO"]), (52, [b!"No"]), (53, [b!"ST"]), (54, [b!"SU"]), (55, [b!"St"]), (56,
  [b!"Su"]), (57, [b!"di"]), (58, [b!"ed"]), (59, [b!"gr"]), (60, [b!"no"]), (61, [b!"st"]), (62, [b!"su"]), (69,
  [b!"DIG"]), (70, [b!"DiG"]), (71, [b!"Dig"]), (72, [b!"EDG"]), (73, [b!"Edg"]), (74, [b!"GRA"]), (75, [b!"Gra"]), (76,
  [b!"NOD"]), (77, [b!"Nod"]), (78, [b!"STR"]), (79, [b!"SUB"]), (80, [b!"Str"]), (81, [b!"Sub"]), (82, [b!"diG"]), (83,
  [b!"dig"]), (84, [b!"edg"]), (85, [b!"gra"]), (86, [b!"nod"]), (87, [b!"str"]), (88, [b!"sub"]), (91, [b!"DIGR"]),
  (92, [b!"DiGr"]), (93, [b!"Digr"]), (94, [b!"EDGE", b!"Edge", b!"edge"]), (95, [b!"GRAP"]), (96, [b!"Grap"]), (97,
  [b!"NODE", b!"Node", b!"node"]), (98, [b!"STRI"]), (99, [b!"SUBG"]), (100, [b!"Stri"]), (101, [b!"SubG"]), (102,
  [b!"Subg"]), (103, [b!"diGr"]), (104, [b!"digr"]), (105, [b!"grap"]), (106, [b!"stri"]), (107, [b!"subG"]), (108,
  [b!"subg"]), (109, [b!"DIGRA"]), (110, [b!"DiGra"]), (111, [b!"Digra"]), (112, [b!"GRAPH", b!"Graph", b!"graph"]),
  (113, [b!"STRIC"]), (114, [b!"SUBGR"]), (115, [b!"Stric"]), (116, [b!"SubGr"]), (117, [b!"Subgr"]), (118,
  [b!"diGra"]), (119, [b!"digra"]), (120, [b!"stric"]), (121, [b!"subGr"]), (122, [b!"subgr"]), (123, [b!"DIGRAP"]),
  (124, [b!"DiGrap"]), (125, [b!"Digrap"]), (126, [b!"STRICT", b!"Strict", b!"strict"]), (127, [b!"SUBGRA"]), (128,
  [b!"SubGra"]), (129, [b!"Subgra"]), (130, [b!"diGrap"]), (131, [b!"digrap"]), (132, [b!"subGra"]), (133,
  [b!"subgra"]), (134, [b!"DIGRAPH", b!"DiGraph", b!"Digraph", b!"diGraph", b!"digraph"]), (135, [b!"SUBGRAP"]), (136,
  [b!"SubGrap"]), (137, [b!"Subgrap"]), (138, [b!"subGrap"]), (139, [b!"subgrap"]), (140, [b!"SUBGRAPH", b!"SubGraph",
  b!"Subgraph", b!"subGraph", b!"subgraph"])]

/-- The words of a state: the empty word for the start, keyword prefixes for the states of the tree, none for all others. -/
def wordsOf (s : Nat) : Option (List (List Nat)) :=
  if s = 0 then some [[]] else (treeWords.find? fun e => e.1 == s).map (·.2)

/-- The token type of a word according to the keyword table. -/
def kwType (w : List Nat) : Nat := ((keywords.find? fun e => e.1 == w).map (·.2)).getD 18

/-- The check of the keyword tree at state `s`: every way into a state with words is a single character that extends words to words. -/
def treeOk (s : Nat) : Bool :=
  match transTab[s]? with
  | none => false
  | some row => row.2.all (fun t => (wordsOf t).isNone) && row.1.all fun c =>
      match wordsOf c.2.2 with
      | none => true
      | some ws => decide (c.1 = c.2.1) && match wordsOf s with
        | none => false
        | some us => us.all fun u => ws.contains (u ++ [c.1])

theorem treeOk_all : ∀ s < nStates, treeOk s = true := by decide +kernel

theorem treeTyp_ok : ∀ s < nStates, kindOf s = .ident →
    (match wordsOf s with
      | none => decide (typOf s = 18)
      | some ws => ws.all fun w => decide (typOf s = kwType w)) = true := by decide +kernel

theorem keyword_paths : ∀ e ∈ keywords, (trs 0 e.1).map (fun s => (kindOf s, typOf s)) = some (K.ident, e.2) := by decide +kernel

/-- A path from the start to a state with words spells one of them. -/
theorem trs_words (w : List Nat) : ∀ s, trs 0 w = some s → ∀ ws, wordsOf s = some ws → w ∈ ws := by
  generalize hn : w.length = n
  induction n generalizing w with
  | zero =>
    intro s h ws hw
    have : w = [] := List.eq_nil_of_length_eq_zero hn
    subst this; cases h; cases hw; simp
  | succ n ih =>
    intro s h ws hw
    have hne : w ≠ [] := by intro h0; rw [h0] at hn; cases hn
    obtain ⟨u, r, rfl⟩ : ∃ u r, w = u ++ [r] := ⟨w.dropLast, w.getLast hne, (List.dropLast_concat_getLast hne).symm⟩
    rw [trs_append] at h
    cases h1 : trs 0 u with
    | none => rw [h1] at h; cases h
    | some s1 =>
      rw [h1] at h
      simp only [Option.bind_some, trs] at h
      cases h2 : tr s1 r with
      | none => rw [h2] at h; cases h
      | some s2 =>
        rw [h2] at h; cases h
        have hs1 : s1 < nStates := trs_lt (by decide) h1
        have hok := treeOk_all s1 hs1
        unfold treeOk at hok
        unfold tr at h2
        split at hok
        · cases hok
        · rename_i row hrow
          simp only [hrow] at h2
          simp only [Bool.and_eq_true] at hok
          unfold transRow at h2
          split at h2
          · rename_i t hf
            cases h2
            obtain ⟨lo, hi, hm, hr⟩ := findCase_mem hf
            have := List.all_eq_true.1 hok.2 _ hm
            simp only [hw, Bool.and_eq_true, decide_eq_true_eq] at this
            obtain ⟨e1, e2⟩ := this
            cases hus : wordsOf s1 with
            | none => rw [hus] at e2; cases e2
            | some us =>
              rw [hus] at e2
              have hu := ih u (by simp at hn; exact hn) s1 h1 us hus
              have := List.all_eq_true.1 e2 u hu
              simp only [List.contains_iff_mem] at this
              have : lo = r := by omega
              subst this; assumption
          · rw [h2] at hok
            have := hok.1
            simp only [Option.all_some, hw] at this
            cases this

theorem kwType_mem {w : List Nat} {t : Nat} (h : (w, t) ∈ keywords) : kwType w = t := by
  have : ∀ e ∈ keywords, kwType e.1 = e.2 := by decide +kernel
  exact this _ h

theorem kwType_cases (w : List Nat) : ((w, kwType w) ∈ keywords) ∨ (w ∉ keywords.map Prod.fst ∧ kwType w = 18) := by
  unfold kwType
  cases h : keywords.find? fun e => e.1 == w with
  | none =>
    refine .inr ⟨?_, rfl⟩
    intro hm
    obtain ⟨e, he, rfl⟩ := List.mem_map.1 hm
    have := List.find?_eq_none.1 h e he
    simp at this
  | some e =>
    have h1 := List.mem_of_find?_eq_some h
    have h2 := List.find?_some h
    simp only [beq_iff_eq] at h2
    refine .inl ?_
    simp only [Option.map_some, Option.getD_some, ← h2]
    exact h1

/-- The type reached by a word. -/
theorem typ_ident {w : List Nat} {s : Nat} (h : trs 0 w = some s) (hk : kindOf s = .ident) : typOf s = kwType w := by
  have hs : s < nStates := trs_lt (by decide) h
  have ht := treeTyp_ok s hs hk
  rcases kwType_cases w with hm | ⟨hn, h18⟩
  · have := keyword_paths _ hm
    rw [h] at this
    simp only [Option.map_some, Option.some.injEq, Prod.mk.injEq] at this
    exact this.2
  · cases hw : wordsOf s with
    | none => rw [hw] at ht; rw [of_decide_eq_true ht, h18]
    | some ws =>
      rw [hw] at ht
      exact of_decide_eq_true (List.all_eq_true.1 ht w (trs_words w s h ws hw))

end Gographviz.Lex
