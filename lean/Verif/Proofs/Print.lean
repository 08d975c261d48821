import Verif.Proofs.LexTokens
import Verif.Proofs.Escape
import Verif.Spec.Meaning
import Verif.Spec.Printing
/-!
Printing a syntax tree and scanning the text again.
-/
namespace Gographviz.Print

open Gographviz Spec Lex Ast
open Gographviz.Spec.Meaning (Lexeme AttrM AListM BracketM AttrListM OptAttrListM NodeIdM OpM StmtM LocM RhsM SubM StmtsM OptStmtsM Opt OptId KindM GraphM)

/-! ### trimming -/

/-- The text does not start with white space, whatever follows. -/
def HeadOk (s : Str) : Prop := ∀ x, stripSpacePrefix (s ++ x) = none

/-- The text does not end with white space, whatever precedes. -/
def TailOk (s : Str) : Prop := ∀ x, stripSpaceRev (x ++ s).reverse = none

theorem HeadOk.append {a : Str} (h : HeadOk a) (b : Str) : HeadOk (a ++ b) := fun x => by rw [List.append_assoc]; exact h _

theorem TailOk.append {b : Str} (h : TailOk b) (a : Str) : TailOk (a ++ b) := fun x => by rw [← List.append_assoc]; exact h _

theorem headOk_ascii {c : Nat} (hc : 32 < c ∧ c < 128) (s : Str) : HeadOk (c :: s) := by
  intro x
  simp only [List.cons_append, stripSpacePrefix]
  repeat rw [if_neg (by first | omega | (simp; omega))]

theorem tailOk_ascii {c : Nat} (hc : 32 < c ∧ c < 128) (s : Str) : TailOk (s ++ [c]) := by
  intro x
  rw [← List.append_assoc, List.reverse_append]
  simp only [List.reverse_cons, List.reverse_nil, List.nil_append, List.cons_append]
  generalize (x ++ s).reverse = t
  simp only [stripSpaceRev]
  rw [if_neg (by simp; omega)]
  repeat' split
  all_goals first | rfl | (exfalso; simp at *; omega)

theorem trimSpace_ok {s : Str} (h : HeadOk s) (h' : TailOk s) : trimSpace s = s := by
  unfold trimSpace
  have h1 := h []
  have h2 := h' []
  simp only [List.append_nil, List.nil_append] at h1 h2
  rw [trimLeftN_none h1]
  dsimp only
  rw [trimRevN_none h2, List.reverse_reverse]

theorem trimSpace_ok_space {s : Str} (h : HeadOk s) (h' : TailOk s) : trimSpace (s ++ [32]) = s := by
  unfold trimSpace
  have h2 := h' []
  simp only [List.nil_append] at h2
  rw [trimLeftN_none (h _)]
  dsimp only
  rw [List.reverse_append, List.length_append]
  simp only [List.reverse_cons, List.reverse_nil, List.nil_append, List.cons_append, List.length_cons, List.length_nil]
  simp only [trimRevN, stripSpaceRev]
  rw [if_pos (by decide)]
  simp only [trimRevN_none h2, List.reverse_reverse]

theorem decodeRune_ok_append (x y : Str) (h : (decodeRune x).1 ≠ runeError) : decodeRune (x ++ y) = decodeRune x := by
  cases x with
  | nil => exact absurd rfl h
  | cons b x =>
    generalize hd : decodeRune (b :: x) = d at h ⊢
    simp only [decodeRune] at hd
    have bad : (runeError, 1) = d → False := by rintro rfl; exact h rfl
    split at hd
    · rename_i h1
      rw [← hd]; exact decodeRune_ascii h1 _
    · rename_i h1
      rw [List.cons_append]
      simp only [decodeRune]
      rw [if_neg h1]
      split at hd
      · rename_i h2
        rw [if_pos h2]
        split at hd
        · simpa using hd
        · exact (bad hd).elim
      · rename_i h2
        rw [if_neg h2]
        split at hd
        · rename_i h3
          rw [if_pos h3]
          split at hd
          · simpa using hd
          · exact (bad hd).elim
        · rename_i h3
          rw [if_neg h3]
          split at hd
          · rename_i h4
            rw [if_pos h4]
            split at hd
            · simpa using hd
            · exact (bad hd).elim
          · exact (bad hd).elim

theorem trimSpace_fix {s : Str} (hs : s ≠ []) (h : trimSpace s = s) : stripSpacePrefix s = none ∧ stripSpaceRev s.reverse = none := by
  have hl : ∀ (n : Nat) (t : Str), (trimLeftN n t).length ≤ t.length := by
    intro n
    induction n with
    | zero => intro t; exact Nat.le_refl _
    | succ n ih =>
      intro t
      simp only [trimLeftN]
      cases hr : stripSpacePrefix t with
      | none => exact Nat.le_refl _
      | some r =>
        obtain ⟨e, c, he, _⟩ := stripSpacePrefix_runes hr
        have := congrArg List.length he
        have := ih r
        simp only [List.length_append] at *
        omega
  have hr : ∀ (n : Nat) (t : Str), (trimRevN n t).length ≤ t.length := by
    intro n
    induction n with
    | zero => intro t; exact Nat.le_refl _
    | succ n ih =>
      intro t
      simp only [trimRevN]
      cases hr : stripSpaceRev t with
      | none => exact Nat.le_refl _
      | some r =>
        obtain ⟨e, he, _⟩ := stripSpaceRev_spec hr
        have := congrArg List.length he
        have := ih r
        simp only [List.length_append] at *
        omega
  have hlen := congrArg List.length h
  unfold trimSpace at hlen
  dsimp only at hlen
  rw [List.length_reverse] at hlen
  have h1 : stripSpacePrefix s = none := by
    cases hp : stripSpacePrefix s with
    | none => rfl
    | some r =>
      exfalso
      obtain ⟨e, c, he, hne, _⟩ := stripSpacePrefix_runes hp
      have he' := congrArg List.length he
      have hne' : e.length ≠ 0 := by simpa using hne
      simp only [List.length_append] at he'
      have a := hr (trimLeftN s.length s).length (trimLeftN s.length s).reverse
      rw [List.length_reverse] at a
      have : (trimLeftN s.length s).length < s.length := by
        cases hn : s.length with
        | zero => omega
        | succ n =>
          simp only [trimLeftN, hp]
          have := hl n r
          omega
      omega
  refine ⟨h1, ?_⟩
  rw [trimLeftN_none h1] at hlen
  cases hp : stripSpaceRev s.reverse with
  | none => rfl
  | some r =>
    exfalso
    have hls : s.length ≠ 0 := by simpa using hs
    obtain ⟨n, hn⟩ : ∃ n, s.length = n + 1 := ⟨s.length - 1, by omega⟩
    rw [hn] at hlen
    simp only [trimRevN, hp] at hlen
    have a := hr n r
    obtain ⟨e, he, henc⟩ := stripSpaceRev_spec hp
    have he' := congrArg List.length he
    rw [List.length_reverse, List.length_append] at he'
    have : e ≠ [] := by
      intro h0
      have := henc []
      rw [h0] at this
      cases this
    have : e.length ≠ 0 := by simpa using this
    omega

theorem headOk_of {s : Str} (hd : (decodeRune s).1 ≠ runeError) (h : stripSpacePrefix s = none) : HeadOk s := by
  intro x
  cases s with
  | nil => exact absurd rfl hd
  | cons b s =>
    cases hp : stripSpacePrefix ((b :: s) ++ x) with
    | none => rfl
    | some r =>
      exfalso
      obtain ⟨e, c, _, _, hc, hr, _⟩ := stripSpacePrefix_runes hp
      have : (decodeRune (b :: s ++ x)).1 = c := by
        rw [List.cons_append, runes_cons] at hr
        simpa using (List.cons.inj hr).1
      rw [decodeRune_ok_append _ _ hd] at this
      exact stripSpacePrefix_of_rune (by rw [this]; exact hc) h

theorem lead_not_cont {b : Nat} {s : Str} (hd : (decodeRune (b :: s)).1 ≠ runeError) : b < 128 ∨ 192 ≤ b := by
  refine Classical.byContradiction fun hn => hd ?_
  simp only [decodeRune]
  repeat rw [if_neg (by simp; omega)]

theorem tailOk_of {s : Str} (hd : (decodeRune s).1 ≠ runeError) (h : stripSpaceRev s.reverse = none) : TailOk s := by
  intro x
  cases s with
  | nil => exact absurd rfl hd
  | cons b s =>
    have hb := lead_not_cont hd
    rw [List.reverse_append]
    rw [List.reverse_cons] at h ⊢
    generalize s.reverse = t at h ⊢
    generalize x.reverse = y
    rcases t with _ | ⟨t0, _ | ⟨t1, t⟩⟩
    · simp only [List.nil_append, List.cons_append] at h ⊢
      simp only [stripSpaceRev] at h ⊢
      split at h
      · cases h
      · rename_i h1
        rw [if_neg h1]
        simp only [Bool.or_eq_true, Bool.and_eq_true, decide_eq_true_eq, beq_iff_eq] at h1
        repeat' split
        all_goals first | rfl | (exfalso; simp at *; omega)
    · simp only [List.nil_append, List.cons_append] at h ⊢
      simp only [stripSpaceRev] at h ⊢
      split at h
      · cases h
      · rename_i h1
        rw [if_neg h1]
        split at h
        · cases h
        · rename_i h2
          rw [if_neg h2]
          rcases y with _ | ⟨y0, y⟩ <;> simp
          omega
    · simp only [List.cons_append] at h ⊢
      simp only [stripSpaceRev] at h ⊢
      split at h
      · cases h
      · rename_i h1
        rw [if_neg h1]
        split at h
        · cases h
        · rename_i h2
          rw [if_neg h2]
          rcases t with _ | ⟨t2, t⟩
          · simp only [List.nil_append, List.cons_append] at h ⊢
            split at h
            · cases h
            · rename_i h3; rw [if_neg h3]
          · simp only [List.cons_append] at h ⊢
            split at h
            · cases h
            · rename_i h3; rw [if_neg h3]

theorem idLexeme_head {w : List Nat} (h : IdLexeme w) : ∃ r rs, w = r :: rs ∧ r ≠ runeError := by
  rcases h with ⟨⟨c, cs, rfl, hc, _⟩, _⟩ | ⟨m, ds, fs, hm, hds, hfs, hw⟩ | ⟨b, _, rfl⟩ | ⟨b, _, rfl⟩
  · refine ⟨c, cs, rfl, ?_⟩
    unfold letter at hc
    unfold runeError
    omega
  · have hdig : ∀ d ds', ds = d :: ds' → d ≠ runeError := by
      rintro d ds' rfl h0
      have := hds d (by simp)
      unfold digit at this; unfold runeError at h0; omega
    rcases hm with rfl | rfl
    · rcases hw with ⟨_, rfl⟩ | ⟨hne, rfl⟩ | ⟨hne, rfl⟩
      · exact ⟨46, _, rfl, by decide⟩
      · cases w with
        | nil => exact absurd rfl hne
        | cons d ds => exact ⟨d, _, rfl, hdig d ds rfl⟩
      · cases ds with
        | nil => exact absurd rfl hne
        | cons d ds => exact ⟨d, _, rfl, hdig d ds rfl⟩
    · rcases hw with ⟨_, rfl⟩ | ⟨_, rfl⟩ | ⟨_, rfl⟩
      all_goals exact ⟨45, _, rfl, by decide⟩
  · exact ⟨34, _, rfl, by decide⟩
  · exact ⟨60, _, rfl, by decide⟩

theorem validId_ne {s : Str} (h : ValidId s) : s ≠ [] := by
  rintro rfl
  obtain ⟨r, rs, hr, _⟩ := idLexeme_head h
  cases hr

theorem validId_rune {s : Str} (h : ValidId s) : (decodeRune s).1 ≠ runeError := by
  obtain ⟨r, rs, hr, hne⟩ := idLexeme_head h
  cases s with
  | nil => cases hr
  | cons b s =>
    rw [runes_cons] at hr
    have := (List.cons.inj hr).1
    rw [this]; exact hne

theorem validName_ok {s : Str} (h : ValidName s) : HeadOk s ∧ TailOk s := by
  have h1 := trimSpace_fix (validId_ne h.1) h.2
  exact ⟨headOk_of (validId_rune h.1) h1.1, tailOk_of (validId_rune h.1) h1.2⟩

/-! ### scanning a concatenation -/

/-- The text is scanned to the lexemes if what follows meets `P`; then what follows is scanned as if it stood alone. -/
def Toked (P : Str → Prop) (s : Str) (ls : List Lexeme) : Prop :=
  ∀ rest ys, P rest → Toks rest ys → ∃ ys', Toks (s ++ rest) ys' ∧ ys'.map Prod.snd = ls ++ ys.map Prod.snd

/-- Anything may follow. -/
def Any (_ : Str) : Prop := True

/-- Only the end of the text or an ASCII character that cannot be part of a word may follow. -/
def Stop (rest : Str) : Prop := rest = [] ∨ ∃ c z, rest = c :: z ∧ c < 128 ∧ EndRune c

theorem Toked.append {P Q : Str → Prop} {s t : Str} {as bs : List Lexeme} (h : Toked P s as) (h' : Toked Q t bs)
    (hPQ : ∀ rest, Q rest → P (t ++ rest)) : Toked Q (s ++ t) (as ++ bs) := by
  intro rest ys hQ hT
  obtain ⟨y1, h1, h2⟩ := h' rest ys hQ hT
  obtain ⟨y2, h3, h4⟩ := h (t ++ rest) y1 (hPQ rest hQ) h1
  refine ⟨y2, by rw [List.append_assoc]; exact h3, ?_⟩
  rw [h4, h2, List.append_assoc]

theorem Toked.weaken {P Q : Str → Prop} {s : Str} {ls : List Lexeme} (h : Toked P s ls) (hPQ : ∀ rest, Q rest → P rest) : Toked Q s ls :=
  fun rest ys hQ => h rest ys (hPQ rest hQ)

theorem Toked.nil : Toked Any [] [] := fun _ ys _ h => ⟨ys, h, rfl⟩

/-- After a text that ends itself, anything. -/
theorem Toked.anyThen {Q : Str → Prop} {s t : Str} {as bs : List Lexeme} (h : Toked Any s as) (h' : Toked Q t bs) : Toked Q (s ++ t) (as ++ bs) :=
  h.append h' fun _ _ => trivial

/-- After a text that must be delimited, a text that starts with a delimiter. -/
theorem Toked.stopThen {Q : Str → Prop} {s t : Str} {c : Nat} {as bs : List Lexeme} (h : Toked Stop s as) (h' : Toked Q (c :: t) bs)
    (hc : c < 128 ∧ EndRune c) : Toked Q (s ++ c :: t) (as ++ bs) :=
  h.append h' fun rest _ => .inr ⟨c, t ++ rest, rfl, hc.1, hc.2⟩

theorem Toked.any {Q : Str → Prop} {s : Str} {ls : List Lexeme} (h : Toked Any s ls) : Toked Q s ls := h.weaken fun _ _ => trivial

theorem Toks.layout {w rest : Str} (hw : Layout w) {ys : List (Str × Nat × Str)} (h : Toks rest ys) :
    ∃ ys', Toks (w ++ rest) ys' ∧ ys'.map Prod.snd = ys.map Prod.snd := by
  cases h with
  | eof h => exact ⟨_, .eof (h.layout hw), rfl⟩
  | cons h h1 h2 => exact ⟨_, .cons (h.layout hw) h1 h2, rfl⟩

theorem toked_layout {w : Str} (hw : Layout w) : Toked Any w [] := fun _ _ _ h => by
  obtain ⟨ys', h1, h2⟩ := Toks.layout hw h
  exact ⟨ys', h1, by rw [h2]; rfl⟩

theorem layout_blanks {w : Str} (h : ∀ c ∈ w, c = 32 ∨ c = 9 ∨ c = 10 ∨ c = 13) : Layout w := by
  induction w with
  | nil => exact .nil
  | cons c w ih => exact .cons (p := [c]) (.blank (h c (by simp))) (ih fun x hx => h x (by simp [hx]))

theorem toked_token {t : Nat} {lit : Str} (h : TokenText t (runes lit)) (h1 : t ≠ 1) {P : Str → Prop}
    (hP : ∀ rest, P rest → Cut lit rest ∧ Delim (runes lit) rest) : Toked P lit [(t, lit)] := by
  intro rest ys hr hT
  obtain ⟨hc, hd⟩ := hP rest hr
  exact ⟨([], t, lit) :: ys, .cons (scans_token h hc hd) h1 hT, rfl⟩

theorem stop_delim {lit rest : Str} (h : Stop rest) : Cut lit rest ∧ Delim (runes lit) rest := by
  rcases h with rfl | ⟨c, z, rfl, hc, he⟩
  · exact ⟨cut_nil_right _, .inr (.inl rfl)⟩
  · exact ⟨cut_ascii_right _ hc _, .inr (.inr (by rw [decodeRune_ascii hc]; exact he))⟩

theorem toked_id {s : Str} (h : ValidId s) : Toked Stop s [(18, s)] :=
  toked_token (.inr (.inr ⟨rfl, h⟩)) (by decide) fun _ hr => stop_delim hr

theorem puncts_cut : ∀ e ∈ puncts, e.2 ≠ 1 ∧ runes e.1 = e.1 ∧ ∃ c x, e.1 = x ++ [c] ∧ c < 128 := by
  have h : ∀ e ∈ puncts, e.2 ≠ 1 ∧ runes e.1 = e.1 := by decide +kernel
  have h2 : ∀ e ∈ puncts, e.1 ≠ [] ∧ ∀ c ∈ e.1, c < 128 := by decide +kernel
  intro e he
  refine ⟨(h e he).1, (h e he).2, e.1.getLast (h2 e he).1, e.1.dropLast, ?_, ?_⟩
  · exact (List.dropLast_concat_getLast _).symm
  · exact (h2 e he).2 _ (List.getLast_mem _)

theorem toked_punct {e : List Nat × Nat} (h : e ∈ puncts) : Toked Any e.1 [(e.2, e.1)] := by
  obtain ⟨h1, h2, c, x, hx, hc⟩ := puncts_cut e h
  refine toked_token (by rw [h2]; exact .inr (.inl h)) h1 fun rest _ => ⟨?_, .inl (.inr (.inr ⟨e.2, by rw [h2]; exact h⟩))⟩
  rw [hx]; exact cut_ascii_last x hc rest

theorem keywords_ok : ∀ e ∈ keywords, e.2 ≠ 1 ∧ runes e.1 = e.1 := by decide +kernel

theorem toked_keyword {e : List Nat × Nat} (h : e ∈ keywords) : Toked Stop e.1 [(e.2, e.1)] :=
  toked_token (by rw [(keywords_ok e h).2]; exact .inl h) (keywords_ok e h).1 fun _ hr => stop_delim hr

end Gographviz.Print
