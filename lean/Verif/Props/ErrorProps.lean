import Verif.Props.ParseProps
import Verif.Proofs.LRViable
import Verif.Spec.SyntaxErrors
import Verif.Proofs.Recovery
import Verif.Props.PrintProps
import Verif.Proofs.Numerals
/-!
Properties C51 and C52: where a syntax error is reported, what it says was expected, and its text.
-/
namespace Gographviz.Props

open Gographviz Spec Lex Parse
open Gographviz.Spec.Grammar (Sentence Derives yield Tree)
open Gographviz.Spec.SyntaxErrors

/-- The action rows are in ascending order of the token types. -/
theorem rows_sorted : (actionTab.all fun row => decide ((row.map (·.1)).Pairwise (· < ·))) = true := by decide +kernel

theorem parse_error {σ : Type} {sc : σ} {scan : σ → Option (Token × σ)} {ts : List Token} {e : Token} (hs : Stream scan sc (ts ++ [e]))
    (he : e.typ = 1) (hid : IdsOk ts) {rnd : Nat → Nat} {c : Nat} {fuel : Nat} (hf : 8 * (ts.length + 1) < fuel)
    {t : Token} {x : List Nat} (h : parse scan rnd fuel c sc = .syntaxErr t x) :
    ∃ us rest, ts ++ [e] = us ++ t :: rest ∧ Viable us ∧ ¬ MayFollow us t.typ ∧ (∀ k, k ∈ x ↔ MayFollow us k) ∧ x.Pairwise (· < ·) ∧
      actionTab.any (fun row => row.map (·.1) == x) = true := by
  obtain ⟨n, r, h1, h2⟩ := parse_runs (rnd := rnd) hs he hid c hf
  rw [h] at h2
  cases r with
  | acc T => obtain ⟨_, _, _, h3⟩ := h2; cases h3
  | cont => exact h2.elim
  | bad => exact h2.elim
  | err t' x' =>
    cases h2
    obtain ⟨us, rest, h3, h4, h5, h6, s, row, h7, h8⟩ := error_exact h1
    have hiff : ∀ k, k ∈ x ↔ MayFollow us k := by
      intro k
      rw [h5]
      refine ⟨?_, ?_⟩
      · rintro (h | ⟨u, w, rfl, T, hT, hy⟩)
        · exact .inl h
        · exact .inr ⟨no_eof hT u (by rw [hy]; simp), u, w, rfl, T, hT, hy⟩
      · rintro (h | ⟨_, h⟩)
        · exact .inl h
        · exact .inr h
    refine ⟨us, rest, h3, h4, fun hm => h6 ((hiff _).mpr hm), hiff, ?_, ?_⟩
    · rw [h8]
      exact of_decide_eq_true (List.all_eq_true.mp rows_sorted row (List.mem_of_getElem? h7))
    · exact List.any_eq_true.mpr ⟨row, List.mem_of_getElem? h7, by simp [h8]⟩

/-- C51. A syntax error is reported at the first token with which the text stops being the beginning of a document: the tokens before it
are the beginning of some document of the grammar, and nothing of its type may follow them. The list of expected token types is exact:
it has, once and in ascending order, every type that may follow, and no other. -/
theorem C51_exact (rnd : Nat → Nat) (cnt : Nat) (src : Str) {t : Token} {x : List Nat} (h : parseBytes rnd cnt src = .syntaxErr t x) :
    ∃ us rest, tokens src = some (us ++ t :: rest) ∧ Viable us ∧ ¬ MayFollow us t.typ ∧ (∀ k, k ∈ x ↔ MayFollow us k) ∧
      x.Pairwise (· < ·) := by
  obtain ⟨ts, e, h1, he, hno, hid, hs, hf⟩ := source_stream src
  have h' : parse scan rnd (fuelFor src.length) cnt (newLexer src) = .syntaxErr t x := by
    unfold parseBytes at h
    split at h <;> first | cases h | skip
    assumption
  obtain ⟨us, rest, h3, h4, h5, h6, h7, _⟩ := parse_error hs he hid hf h'
  exact ⟨us, rest, by rw [h1, h3], h4, h5, h6, h7⟩

/-- C51. The tokens up to and including the offending one are the beginning of no document. -/
theorem C51_not_viable (rnd : Nat → Nat) (cnt : Nat) (src : Str) {t : Token} {x : List Nat} (h : parseBytes rnd cnt src = .syntaxErr t x) :
    ∃ us rest, tokens src = some (us ++ t :: rest) ∧ Viable us ∧ (t.typ ≠ 1 → ¬ Viable (us ++ [t])) ∧ (t.typ = 1 → ¬ Sentence us) := by
  obtain ⟨us, rest, h1, h2, h3, _⟩ := C51_exact rnd cnt src h
  refine ⟨us, rest, h1, h2, fun hne ⟨w, hw⟩ => h3 (.inr ⟨hne, t, w, rfl, by simpa using hw⟩), fun h1 hs => h3 (.inl ⟨h1, hs⟩)⟩

/-- C51. Something is always expected. -/
theorem C51_expected_ne (rnd : Nat → Nat) (cnt : Nat) (src : Str) {t : Token} {x : List Nat} (h : parseBytes rnd cnt src = .syntaxErr t x) :
    x ≠ [] := by
  obtain ⟨us, rest, h1, ⟨w, T, hT, hy⟩, h3, h4, _⟩ := C51_exact rnd cnt src h
  rintro rfl
  cases w with
  | nil => exact absurd ((h4 1).mpr (.inl ⟨rfl, T, hT, by simpa using hy⟩)) (by simp)
  | cons u w => exact absurd ((h4 u.typ).mpr (.inr ⟨no_eof hT u (by rw [hy]; simp), u, w, rfl, T, hT, hy⟩)) (by simp)

theorem viable_noeof {us : List Token} (h : Viable us) : ∀ z ∈ us, z.typ ≠ 1 := by
  obtain ⟨w, T, hT, hy⟩ := h
  intro z hz
  exact no_eof hT z (by rw [hy]; simp [hz])

/-- There is only one place where a viable prefix ends. -/
theorem place_unique {as bs cs ds : List Token} {a b : Token} (heq : as ++ a :: bs = cs ++ b :: ds) (hva : Viable as) (hvc : Viable cs)
    (ha : ¬ MayFollow as a.typ) (hb : ¬ MayFollow cs b.typ) : as = cs ∧ a = b := by
  have ha1 := viable_noeof hva
  have hc1 := viable_noeof hvc
  obtain ⟨w, hw⟩ := hva
  obtain ⟨v, hv⟩ := hvc
  rcases List.append_eq_append_iff.mp heq with ⟨l, h1, h2⟩ | ⟨l, h1, h2⟩
  · cases l with
    | nil => simp at h1 h2; exact ⟨h1.symm, h2.1⟩
    | cons y l =>
      simp only [List.cons_append, List.cons.injEq] at h2
      obtain ⟨rfl, _⟩ := h2
      refine absurd (.inr ⟨hc1 a (by simp [h1]), a, l ++ v, rfl, ?_⟩) ha
      rw [h1] at hv
      simpa using hv
  · cases l with
    | nil => simp at h1 h2; exact ⟨h1, h2.1.symm⟩
    | cons y l =>
      simp only [List.cons_append, List.cons.injEq] at h2
      obtain ⟨rfl, _⟩ := h2
      refine absurd (.inr ⟨ha1 b (by simp [h1]), b, l ++ w, rfl, ?_⟩) hb
      rw [h1] at hw
      simpa using hw

/-- An ascending list is determined by its members. -/
theorem ascending_ext {x y : List Nat} (hx : x.Pairwise (· < ·)) (hy : y.Pairwise (· < ·)) (h : ∀ k, k ∈ x ↔ k ∈ y) : x = y := by
  induction x generalizing y with
  | nil =>
    cases y with
    | nil => rfl
    | cons b y => exact absurd ((h b).mpr (by simp)) (by simp)
  | cons a x ih =>
    cases y with
    | nil => exact absurd ((h a).mp (by simp)) (by simp)
    | cons b y =>
      rw [List.pairwise_cons] at hx hy
      have hab : a = b := by
        have h1 := (h a).mp (by simp)
        have h2 := (h b).mpr (by simp)
        rcases List.mem_cons.mp h1 with h1 | h1
        · exact h1
        · rcases List.mem_cons.mp h2 with h2 | h2
          · exact h2.symm
          · have := hx.1 b h2
            have := hy.1 a h1
            omega
      subst hab
      congr 1
      refine ih hx.2 hy.2 fun k => ⟨fun hk => ?_, fun hk => ?_⟩
      · rcases List.mem_cons.mp ((h k).mp (by simp [hk])) with rfl | h'
        · exact absurd (hx.1 k hk) (by omega)
        · exact h'
      · rcases List.mem_cons.mp ((h k).mpr (by simp [hk])) with rfl | h'
        · exact absurd (hy.1 k hk) (by omega)
        · exact h'

/-- C51. And the other way round: this determines the error. In particular it depends only on the tokens up to the offending one. -/
theorem C51_iff (rnd : Nat → Nat) (cnt : Nat) (src : Str) (t : Token) (x : List Nat) : parseBytes rnd cnt src = .syntaxErr t x ↔
    ∃ us rest, tokens src = some (us ++ t :: rest) ∧ Viable us ∧ ¬ MayFollow us t.typ ∧ (∀ k, k ∈ x ↔ MayFollow us k) ∧
      x.Pairwise (· < ·) := by
  refine ⟨C51_exact rnd cnt src, ?_⟩
  rintro ⟨us, rest, h1, h2, h3, h4, h5⟩
  obtain ⟨ts, e, g1, he, hno, hid, hh⟩ := source_spec rnd cnt src
  rw [h1] at g1
  have g1 := (Option.some.injEq _ _).mp g1
  rcases hh with ⟨g, c', hs, _, _⟩ | ⟨_, _, t', x', _, h6⟩
  · exfalso
    rcases List.append_eq_append_iff.mp g1 with ⟨l, g2, g3⟩ | ⟨l, g2, g3⟩
    · cases l with
      | nil =>
        simp only [List.nil_append, List.cons.injEq, List.append_nil] at g2 g3
        obtain ⟨rfl, _⟩ := g3
        subst g2
        exact h3 (.inl ⟨he, hs⟩)
      | cons y l =>
        simp only [List.cons_append, List.cons.injEq] at g3
        obtain ⟨rfl, _⟩ := g3
        exact h3 (.inr ⟨hno t (by simp [g2]), t, l, rfl, by rw [← g2]; exact hs⟩)
    · cases l with
      | nil =>
        simp only [List.nil_append, List.cons.injEq, List.append_nil] at g2 g3
        obtain ⟨rfl, _⟩ := g3
        subst g2
        exact h3 (.inl ⟨he, hs⟩)
      | cons y l =>
        have := congrArg List.length g3
        simp only [List.length_append, List.length_cons, List.length_nil] at this
        omega
  · obtain ⟨us', rest', k1, k2, k3, k4, k5⟩ := C51_exact rnd cnt src h6
    rw [h1] at k1
    obtain ⟨rfl, rfl⟩ := place_unique ((Option.some.injEq _ _).mp k1) h2 k2 h3 k3
    rw [h6, ascending_ext h5 k5 fun k => (h4 k).trans (k4 k).symm]

/-- `graph { a -> }`: the error is at the closing brace (token 4), and the tokens that may come are `{`, `subgraph` and an identifier. -/
theorem example_syntaxErr : parseBytes (fun _ => 0) 0 (b!"graph { a -> }") = .syntaxErr ⟨4, b!"}", 13, 1, 14⟩ [3, 15, 18] := by rfl

/-- The end of input is expected after a complete document only. -/
theorem example_trailing : parseBytes (fun _ => 0) 0 (b!"graph {} a") = .syntaxErr ⟨18, b!"a", 9, 1, 10⟩ [1] := by rfl

/-! ### C52 -/

/-- The tokens before a syntax error are all valid, so its position is that of the token. -/
theorem viable_valid {us : List Token} (h : Viable us) : ∀ z ∈ us, z.typ ≠ 0 := by
  obtain ⟨w, T, hT, hy⟩ := h
  intro z hz
  exact no_invalid hT z (by rw [hy]; simp [hz])

/-- C52. The position of a syntax error is always right: line and column of the offending token are those of the place in the source where
it starts (also in texts with invalid characters, where the positions of later tokens may be wrong). -/
theorem C52_position (rnd : Nat → Nat) (cnt : Nat) (src : Str) {t : Token} {x : List Nat} (h : parseBytes rnd cnt src = .syntaxErr t x) :
    t.line = lineAfter (src.take t.offset) ∧ t.column = columnAfter (src.take t.offset) := by
  obtain ⟨us, rest, h1, h2, _⟩ := C51_exact rnd cnt src h
  exact C43_positions src h1 (viable_valid h2)

/-- C52. The message starts with that position, in decimal. -/
theorem C52_message_position (up : Nat → Bool) (rnd : Nat → Nat) (cnt : Nat) (src : Str) {t : Token} {x : List Nat}
    (h : parseBytes rnd cnt src = .syntaxErr t x) : ∃ line column, Decimal (lineAfter (src.take t.offset)) line ∧ Decimal (columnAfter (src.take t.offset)) column ∧
    line ++ b!":" ++ column ++ b!": error: " <+: errorText up t x := by
  obtain ⟨h1, h2⟩ := C52_position rnd cnt src h
  rw [← h1, ← h2]
  exact ⟨_, _, decDigits_decimal _, decDigits_decimal _, describeExpected (x.map (expectedName up)) ++ b!"; got: " ++ describeToken up t, by
    simp only [errorText, List.append_assoc]⟩

theorem decDigits_ne10 (n : Nat) : 10 ∉ decDigits n := fun h => by
  have := decDigitsN_digits (n + 1) n [] (by simp) 10 h
  revert this
  decide

theorem hexDigits_ne10 (k n : Nat) : 10 ∉ hexDigits k n := by
  induction k generalizing n with
  | zero => simp [hexDigits]
  | succ k ih =>
    simp only [hexDigits, List.mem_append, List.mem_singleton, not_or]
    refine ⟨ih _, ?_⟩
    unfold hexDigit
    split <;> omega

theorem take_ne10 {b : Nat} {s : Str} (h : (decodeRune (b :: s)).1 ≠ 10) : 10 ∉ (b :: s).take (decodeRune (b :: s)).2 := by
  by_cases hb : b < 128
  · rw [decodeRune_ascii hb] at h ⊢
    simp only [List.take_succ_cons, List.take_zero, List.mem_singleton]
    exact fun h' => h h'.symm
  · intro h10
    have := (decodeRune_high (by omega : 128 ≤ b) s).2.2.2 10 h10
    omega

theorem escapeRune_ne10 (up : Nat → Bool) (r : Nat) (enc : Str) (h : r ≠ 10 → 10 ∉ enc) : 10 ∉ escapeRune up r enc := by
  unfold escapeRune
  split
  · rename_i h1; simp only [List.mem_cons, List.not_mem_nil, or_false, not_or]; omega
  · split
    · rename_i hp
      refine h fun h10 => ?_
      subst h10
      have : isPrint up 10 = false := rfl
      rw [this] at hp
      cases hp
    · have e2 := hexDigits_ne10 2 r
      have e4 := hexDigits_ne10 4 r
      have e8 := hexDigits_ne10 8 r
      repeat' split
      all_goals first | decide | simp [e2, e4, e8]

theorem quoteLoop_ne10 (up : Nat → Bool) (n : Nat) (s : Str) : 10 ∉ quoteLoop up n s := by
  induction n generalizing s with
  | zero => simp [quoteLoop]
  | succ n ih =>
    cases s with
    | nil => simp [quoteLoop]
    | cons b s =>
      simp only [quoteLoop, List.mem_append, not_or]
      refine ⟨?_, ih _⟩
      split
      · have := hexDigits_ne10 2 b
        simp [this]
      · exact escapeRune_ne10 up _ _ take_ne10

theorem quote_ne10 (up : Nat → Bool) (s : Str) : 10 ∉ quote up s := by
  have := quoteLoop_ne10 up s.length s
  simp [quote, this]

theorem typeMap_ne10 : (typeMap.all fun s => !s.contains 10) = true := by decide +kernel

theorem expectedName_ne10 (up : Nat → Bool) (k : Nat) : 10 ∉ expectedName up k := by
  unfold expectedName
  simp only
  split
  · unfold tokId
    cases h : typeMap[k]? with
    | none => decide
    | some s =>
      have := List.all_eq_true.mp typeMap_ne10 s (List.mem_of_getElem? h)
      simpa using this
  · exact quote_ne10 up _

theorem sjoin_ne10 {sep : Str} (h : 10 ∉ sep) {ss : List Str} (hs : ∀ s ∈ ss, 10 ∉ s) : 10 ∉ sjoin sep ss := by
  induction ss with
  | nil => simp [sjoin]
  | cons s ss ih =>
    cases ss with
    | nil => simpa [sjoin] using hs s (by simp)
    | cons s' ss =>
      have h1 := hs s (by simp)
      have h2 := ih fun x hx => hs x (by simp [hx])
      simp [sjoin, h, h1, h2]

theorem describeExpected_ne10 {ss : List Str} (hs : ∀ s ∈ ss, 10 ∉ s) : 10 ∉ describeExpected ss := by
  unfold describeExpected
  split
  · decide
  · have := hs _ List.mem_cons_self
    simp [this]
  · rename_i a b
    have h1 := hs a (by simp)
    have h2 := hs b (by simp)
    simp [h1, h2]
  · rename_i a b c
    have h1 := hs a (by simp)
    have h2 := hs b (by simp)
    have h3 := hs c (by simp)
    simp [h1, h2, h3]
  · rw [List.mem_append, not_or]
    refine ⟨by decide, sjoin_ne10 (by decide) fun s h => ?_⟩
    rcases List.mem_append.mp h with h | h
    · exact hs s (List.dropLast_subset _ h)
    · simp only [List.mem_singleton] at h
      subst h
      have : 10 ∉ ss.getLastD [] := by
        cases hg : ss.getLast? with
        | none => simp [List.getLastD_eq_getLast?, hg]
        | some z =>
          simp only [List.getLastD_eq_getLast?, hg, Option.getD_some]
          exact hs z (List.mem_of_getLast? hg)
      rw [List.mem_append, not_or]
      exact ⟨by decide, this⟩

/-- C52. The message is a single line, whatever bytes the source has. -/
theorem C52_one_line (up : Nat → Bool) (t : Token) (x : List Nat) : 10 ∉ errorText up t x := by
  have h1 := decDigits_ne10 t.line
  have h2 := decDigits_ne10 t.column
  have h3 := describeExpected_ne10 (ss := x.map (expectedName up)) (by
    intro s hs
    obtain ⟨k, _, rfl⟩ := List.mem_map.mp hs
    exact expectedName_ne10 up k)
  have h4 : 10 ∉ describeToken up t := by
    unfold describeToken
    have := quote_ne10 up t.lit
    split
    · simp [this]
    · split
      · decide
      · exact this
  simp [errorText, h1, h2, h3, h4]

/-- The lists of token types that a syntax error can have: the rows of the action table. -/
def possibleExpected : List (List Nat) := (actionTab.map fun row => row.map (·.1)).eraseDups

theorem error_row {rnd : Nat → Nat} {cnt : Nat} {src : Str} {t : Token} {x : List Nat} (h : parseBytes rnd cnt src = .syntaxErr t x) :
    x ∈ possibleExpected := by
  obtain ⟨ts, e, h1, he, hno, hid, hs, hf⟩ := source_stream src
  have h' : parse scan rnd (fuelFor src.length) cnt (newLexer src) = .syntaxErr t x := by
    unfold parseBytes at h
    split at h <;> first | cases h | skip
    assumption
  obtain ⟨us, rest, _, _, _, _, _, h8⟩ := parse_error hs he hid hf h'
  obtain ⟨row, h9, h10⟩ := List.any_eq_true.mp h8
  simp only [beq_iff_eq] at h10
  rw [possibleExpected, List.mem_eraseDups]
  exact List.mem_map.mpr ⟨row, h9, h10⟩

/-- The names of the expected tokens are ASCII or the symbol for the end of input, so the abstract part of `isPrint` does not matter. -/
theorem expectedName_up (up : Nat → Bool) : (List.range 19).map (expectedName up) = (List.range 19).map (expectedName fun _ => false) := by
  rfl

theorem possible_lt : (possibleExpected.all fun x => x.all fun k => decide (k < 19)) = true := by decide +kernel

theorem possible_inj : (possibleExpected.all fun x => possibleExpected.all fun y =>
    x == y || describeExpected (x.map (expectedName fun _ => false)) != describeExpected (y.map (expectedName fun _ => false))) = true := by
  decide +kernel

theorem possible_up (up : Nat → Bool) {x : List Nat} (h : x ∈ possibleExpected) : x.map (expectedName up) = x.map (expectedName fun _ => false) := by
  refine List.map_congr_left fun k hk => ?_
  have h1 := List.all_eq_true.mp (List.all_eq_true.mp possible_lt x h) k hk
  have h2 : k < 19 := of_decide_eq_true h1
  have h3 := congrArg (·[k]?) (expectedName_up up)
  simpa [List.getElem?_map, List.getElem?_range h2] using h3

/-- C52. The message says exactly which tokens were expected: two syntax errors whose messages list the same have the same expected types. -/
theorem C52_expected (up : Nat → Bool) (rnd rnd' : Nat → Nat) (cnt cnt' : Nat) (src src' : Str) {t t' : Token} {x x' : List Nat}
    (h : parseBytes rnd cnt src = .syntaxErr t x) (h' : parseBytes rnd' cnt' src' = .syntaxErr t' x')
    (he : describeExpected (x.map (expectedName up)) = describeExpected (x'.map (expectedName up))) : x = x' := by
  have h1 := error_row h
  have h2 := error_row h'
  rw [possible_up up h1, possible_up up h2] at he
  have h3 := List.all_eq_true.mp (List.all_eq_true.mp possible_inj x h1) x' h2
  simp only [Bool.or_eq_true, beq_iff_eq, bne_iff_ne] at h3
  exact h3.resolve_right fun hn => hn he

/-- The text of the error of `example_syntaxErr`. -/
theorem example_errorText : errorText (fun _ => true) ⟨4, b!"}", 13, 1, 14⟩ [3, 15, 18] =
    b!"1:14: error: expected one of \"{\", subgraph or id; got: \"}\"" := by decide +kernel

/-- C52. Error recovery, which the parser has code for, never happens: a parser with it returns the same for every scanner and input. -/
theorem C52_no_recovery {σ : Type} (scan : σ → Option (Token × σ)) (rnd : Nat → Nat) (f fuel cnt : Nat) (sc : σ) :
    parseFull scan rnd f fuel cnt sc = parse scan rnd fuel cnt sc := parseFull_eq scan rnd f fuel cnt sc

end Gographviz.Props
