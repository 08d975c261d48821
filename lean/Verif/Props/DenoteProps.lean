import Verif.Props.EscapeIdentifier
import Verif.Props.DocumentProps
import Verif.Props.WriteProps2
import Verif.Props.ProvenanceProps
import Verif.Spec.Denote
/-!
Properties C79 (an escaped text denotes the text), C80 (spellings of identifiers) and C81 (edge operators).
-/
namespace Gographviz.Props

open Gographviz Spec
open Gographviz.Ast (Stmt Loc EdgeRH)

namespace Denote

/-! ### the value of an escaped text -/

theorem unquoted_append {x : Str} (h : 92 ∉ x) (y : Str) : unquoted (x ++ y) = x ++ unquoted y := by
  induction x with
  | nil => rfl
  | cons c x ih =>
    have hc : c ≠ 92 := by rintro rfl; simp at h
    have hx : 92 ∉ x := fun hx => h (List.mem_cons_of_mem _ hx)
    have ih := ih hx
    cases hxy : x ++ y with
    | nil =>
      rw [List.append_eq_nil_iff] at hxy
      obtain ⟨rfl, rfl⟩ := hxy
      rfl
    | cons d s =>
      rw [List.cons_append, hxy]
      simp only [unquoted, hc, false_and, if_false]
      rw [← hxy, ih]; rfl

theorem htmlEscaped_cons (c : Nat) (s : Str) : htmlEscaped (c :: s) = htmlEscaped [c] ++ htmlEscaped s := by
  simp [htmlEscaped]

/-- The bytes that HTML escaping changes. -/
theorem htmlEscaped_one (c : Nat) : (c = 0 ∨ c = 34 ∨ c = 39 ∨ c = 38 ∨ c = 60 ∨ c = 62) ∨ htmlEscaped [c] = [c] := by
  by_cases h : c = 0 ∨ c = 34 ∨ c = 39 ∨ c = 38 ∨ c = 60 ∨ c = 62
  · exact .inl h
  · simp only [not_or] at h
    right
    rw [← htmlEscaped_eq]
    simp [htmlEscape, htmlEscapeByte, h]

theorem bs_not_mem {c : Nat} (h : c ≠ 92) : 92 ∉ htmlEscaped [c] := by
  rcases htmlEscaped_one c with (rfl | rfl | rfl | rfl | rfl | rfl) | h1
  any_goals decide
  rw [h1]; simp; exact fun h' => h h'.symm

theorem head_html (d : Nat) (h : d ≠ 92) (h10 : d ≠ 10) : ∃ x xs, htmlEscaped [d] = x :: xs ∧ x ≠ 34 ∧ x ≠ 92 ∧ x ≠ 10 := by
  by_cases hd : d = 34
  · subst hd; exact ⟨38, b!"#34;", rfl, by decide⟩
  · rcases htmlEscaped_one d with (rfl | rfl | rfl | rfl | rfl | rfl) | h1
    · exact ⟨0xEF, [0xBF, 0xBD], rfl, by decide⟩
    · exact absurd rfl hd
    · exact ⟨38, b!"#39;", rfl, by decide⟩
    · exact ⟨38, b!"amp;", rfl, by decide⟩
    · exact ⟨38, b!"lt;", rfl, by decide⟩
    · exact ⟨38, b!"gt;", rfl, by decide⟩
    · exact ⟨d, [], h1, hd, h, h10⟩

theorem unquoted_html : (n : Nat) → (s : Str) → s.length ≤ n → unquoted (htmlEscaped s) = htmlEscaped (joined s)
  | 0, [], _ => rfl
  | n + 1, [], _ => rfl
  | n + 1, [c], _ => by
    show unquoted (htmlEscaped [c]) = htmlEscaped [c]
    by_cases hc : c = 92
    · subst hc; rfl
    · have := unquoted_append (bs_not_mem hc) []
      rw [List.append_nil] at this
      rw [this]; simp [unquoted]
  | n + 1, c :: d :: s, h => by
    have hl : s.length ≤ n := by simp at h; omega
    have hl' : (d :: s).length ≤ n := by simp at h ⊢; omega
    by_cases hc : c = 92
    · subst hc
      by_cases hd : d = 92
      · subst hd
        have e : htmlEscaped (92 :: 92 :: s) = 92 :: 92 :: htmlEscaped s := by rw [htmlEscaped_cons, htmlEscaped_cons]; rfl
        rw [e]
        simp only [unquoted, joined, and_self, if_true, show ¬ (92 = 34) by decide, and_false, if_false]
        rw [unquoted_html n s hl, htmlEscaped_cons, htmlEscaped_cons 92 (joined s)]; rfl
      · by_cases hd10 : d = 10
        · subst hd10
          have e : htmlEscaped (92 :: 10 :: s) = 92 :: 10 :: htmlEscaped s := by rw [htmlEscaped_cons, htmlEscaped_cons]; rfl
          rw [e]
          simp [unquoted, joined]
          exact unquoted_html n s hl
        · obtain ⟨x, xs, hx, h1, h2, h3⟩ := head_html d hd hd10
          have e : htmlEscaped (92 :: d :: s) = 92 :: x :: (xs ++ htmlEscaped s) := by
            rw [htmlEscaped_cons, htmlEscaped_cons d, hx]; rfl
          have e' : x :: (xs ++ htmlEscaped s) = htmlEscaped (d :: s) := by rw [htmlEscaped_cons d, hx]; rfl
          rw [e]
          simp only [unquoted, h1, h2, h3, and_false, if_false]
          rw [e', unquoted_html n (d :: s) hl']
          simp only [joined, hd, hd10, and_false, if_false]
          rw [htmlEscaped_cons 92]; rfl
    · rw [htmlEscaped_cons, unquoted_append (bs_not_mem hc), unquoted_html n (d :: s) hl']
      simp only [joined, hc, false_and, if_false]
      rw [← htmlEscaped_cons]

/-- Replacing references undoes HTML escaping, except that NUL bytes stay replaced. -/
theorem decoded_html {E : Entities} (h : KnowsFive E) (s : Str) : Decoded E (htmlEscaped s) (withoutNul s) := by
  induction s with
  | nil => exact .nil
  | cons c s ih =>
    rw [htmlEscaped_cons]
    have hw : withoutNul (c :: s) = (if c = 0 then [0xEF, 0xBF, 0xBD] else [c]) ++ withoutNul s := by simp [withoutNul]
    rw [hw]
    rcases htmlEscaped_one c with (rfl | rfl | rfl | rfl | rfl | rfl) | h1
    · exact .plain (by decide) (.plain (by decide) (.plain (by decide) ih))
    · exact .ref (n := b!"#34") (by decide) h.quote ih
    · exact .ref (n := b!"#39") (by decide) h.apostrophe ih
    · exact .ref (n := b!"amp") (by decide) h.amp ih
    · exact .ref (n := b!"lt") (by decide) h.lt ih
    · exact .ref (n := b!"gt") (by decide) h.gt ih
    · rw [h1]
      by_cases h0 : c = 0
      · subst h0; exact absurd h1 (by decide)
      · rw [if_neg h0]
        refine .plain ?_ ih
        rintro rfl
        revert h1; decide

theorem cut_unique {n n' r r' : Str} (h : 59 ∉ n) (h' : 59 ∉ n') (e : n ++ 59 :: r = n' ++ 59 :: r') : n = n' ∧ r = r' := by
  induction n generalizing n' with
  | nil =>
    cases n' with
    | nil => exact ⟨rfl, by simpa using e⟩
    | cons a n' => simp only [List.nil_append, List.cons_append, List.cons.injEq] at e; exact absurd (e.1 ▸ List.mem_cons_self ..) h'
  | cons a n ih =>
    cases n' with
    | nil => simp only [List.nil_append, List.cons_append, List.cons.injEq] at e; exact absurd (e.1 ▸ List.mem_cons_self ..) h
    | cons b n' =>
      simp only [List.cons_append, List.cons.injEq] at e
      obtain ⟨rfl, e⟩ := e
      obtain ⟨rfl, rfl⟩ := ih (fun hx => h (List.mem_cons_of_mem _ hx)) (fun hx => h' (List.mem_cons_of_mem _ hx)) e
      exact ⟨rfl, rfl⟩

theorem decoded_det {E : Entities} {s u u' : Str} (h : Decoded E s u) (h' : Decoded E s u') : u = u' := by
  induction h generalizing u' with
  | nil => cases h'; rfl
  | plain hc h ih =>
    cases h' with
    | plain _ h'' => rw [ih h'']
    | ref => exact absurd rfl hc
    | amp => exact absurd rfl hc
  | @ref n t s u hn ht h ih =>
    generalize hs : 38 :: (n ++ 59 :: s) = z at h'
    cases h' with
    | nil => cases hs
    | plain hc => cases hs; exact absurd rfl hc
    | ref hn' ht' h'' =>
      simp only [List.cons.injEq, true_and] at hs
      obtain ⟨rfl, rfl⟩ := cut_unique hn hn' hs
      rw [ht] at ht'; cases ht'
      rw [ih h'']
    | amp hno h'' =>
      simp only [List.cons.injEq, true_and] at hs
      rw [hno n s hs.symm hn] at ht; cases ht
  | @amp s u hno h ih =>
    generalize hs : 38 :: s = z at h'
    cases h' with
    | nil => cases hs
    | plain hc => cases hs; exact absurd rfl hc
    | @ref n t s' u' hn' ht' h'' =>
      simp only [List.cons.injEq, true_and] at hs
      rw [hno _ _ hs hn'] at ht'; cases ht'
    | amp _ h'' =>
      simp only [List.cons.injEq, true_and] at hs
      subst hs
      rw [ih h'']

/-- Every text can be decoded. -/
theorem decoded_total (E : Entities) : (k : Nat) → (s : Str) → s.length ≤ k → ∃ u, Decoded E s u
  | 0, [], _ => ⟨_, .nil⟩
  | k + 1, [], _ => ⟨_, .nil⟩
  | k + 1, c :: s, h => by
    have hl : s.length ≤ k := by simpa using h
    by_cases hc : c = 38
    · subst hc
      by_cases hr : ∃ n r t, s = n ++ 59 :: r ∧ 59 ∉ n ∧ E n = some t
      · obtain ⟨n, r, t, rfl, hn, ht⟩ := hr
        obtain ⟨u, hu⟩ := decoded_total E k r (by simp at hl; omega)
        exact ⟨_, .ref hn ht hu⟩
      · obtain ⟨u, hu⟩ := decoded_total E k s hl
        refine ⟨_, .amp (fun n r hs hn => ?_) hu⟩
        cases ht : E n with
        | none => rfl
        | some t => exact absurd ⟨n, r, t, hs, hn, ht⟩ hr
    · obtain ⟨u, hu⟩ := decoded_total E k s hl
      exact ⟨_, .plain hc hu⟩

theorem decoded_plain (E : Entities) {s : Str} (h : 38 ∉ s) : Decoded E s s := by
  induction s with
  | nil => exact .nil
  | cons c s ih => exact .plain (fun hc => h (hc ▸ List.mem_cons_self ..)) (ih fun hx => h (List.mem_cons_of_mem _ hx))

theorem joined_plain {s : Str} (h : 92 ∉ s) : joined s = s := by
  induction s with
  | nil => rfl
  | cons c s ih =>
    have hc : c ≠ 92 := fun hc => h (hc ▸ List.mem_cons_self ..)
    have ih := ih fun hx => h (List.mem_cons_of_mem _ hx)
    cases s with
    | nil => rfl
    | cons d s => simp only [joined, hc, false_and, if_false, ih]

theorem joined_mem {c : Nat} : (n : Nat) → (s : Str) → s.length ≤ n → c ∈ joined s → c ∈ s
  | _, [], _, h => h
  | _, [d], _, h => h
  | n + 1, a :: d :: s, hl, h => by
    have h1 : s.length ≤ n := by simp at hl; omega
    have h2 : (d :: s).length ≤ n := by simp at hl ⊢; omega
    simp only [joined] at h
    split at h
    · rename_i e
      obtain ⟨rfl, rfl⟩ := e
      simp only [List.mem_cons] at h ⊢
      rcases h with h | h | h
      · exact .inl h
      · exact .inl h
      · exact .inr (.inr (joined_mem n s h1 h))
    · split at h
      · exact List.mem_cons_of_mem _ (List.mem_cons_of_mem _ (joined_mem n s h1 h))
      · rcases List.mem_cons.1 h with h | h
        · exact List.mem_cons.2 (.inl h)
        · exact List.mem_cons_of_mem _ (joined_mem n _ h2 h)

theorem value_quoted (b : Str) : idValue ([34] ++ b ++ [34]) = .text (unquoted b) := by
  have e : ([34] ++ b ++ [34] : Str) = 34 :: (b ++ [34]) := rfl
  rw [e]
  simp [idValue]

theorem withoutNul_id {s : Str} (h : 0 ∉ s) : withoutNul s = s := by
  induction s with
  | nil => rfl
  | cons c s ih =>
    have hc : c ≠ 0 := fun hc => h (hc ▸ List.mem_cons_self ..)
    have : withoutNul (c :: s) = [c] ++ withoutNul s := by simp [withoutNul, hc]
    rw [this, ih fun hx => h (List.mem_cons_of_mem _ hx)]; rfl

theorem ebs_cons {c : Nat} (hc : c ≠ 92) (s : Str) : endBackslashes (c :: s) = endBackslashes s := by
  unfold endBackslashes
  rw [List.reverse_cons, List.takeWhile_append]
  split
  · rename_i h
    have hh := (List.takeWhile_sublist (fun x => x == 92) (l := s.reverse)).eq_of_length h
    rw [hh]; simp [hc]
  · rfl

theorem ebs_two (s : Str) : endBackslashes (92 :: 92 :: s) % 2 = endBackslashes s % 2 := by
  unfold endBackslashes
  have e : (92 :: 92 :: s).reverse = s.reverse ++ [92, 92] := by simp
  rw [e, List.takeWhile_append]
  split
  · rename_i h
    simp [h]
  · rfl

theorem ebs_append {c : Nat} (hc : c ≠ 92) (x : Str) (s : Str) : endBackslashes (x ++ c :: s) = endBackslashes s := by
  induction x with
  | nil => exact ebs_cons hc s
  | cons d x ih =>
    by_cases hd : d = 92
    · subst hd
      unfold endBackslashes at ih ⊢
      have e : (92 :: x ++ c :: s).reverse = (x ++ c :: s).reverse ++ [92] := by simp
      rw [e, List.takeWhile_append]
      split
      · rename_i h
        exfalso
        have hh := (List.takeWhile_sublist (fun x => x == 92) (l := (x ++ c :: s).reverse)).eq_of_length h
        have := List.all_takeWhile (p := fun x => x == 92) (l := (x ++ c :: s).reverse)
        rw [hh] at this
        have := List.all_eq_true.1 this c (by simp)
        simp at this; exact hc this
      · exact ih
    · rw [List.cons_append, ebs_cons hd]; exact ih

theorem quoteEscaped_cons (c : Nat) (s : Str) : quoteEscaped (c :: s) = (if c = 34 then [92, 34] else [c]) ++ quoteEscaped s := by simp [quoteEscaped]

/-- The quotes that escaping protects are the quotes of the text, if none comes after an odd number of backslashes. -/
theorem unquoted_quotes : (n : Nat) → (s : Str) → s.length ≤ n → (∀ pre post, s = pre ++ 34 :: post → endBackslashes pre % 2 = 0) →
    unquoted (quoteEscaped s) = joined s
  | _, [], _, _ => rfl
  | 0, _ :: _, h, _ => by simp at h
  | n + 1, [c], _, _ => by
    by_cases hc : c = 34
    · subst hc; rfl
    · rw [quoteEscaped_cons, if_neg hc]; rfl
  | n + 1, c :: d :: s, h, hp => by
    have hl : s.length ≤ n := by simp at h; omega
    have hl' : (d :: s).length ≤ n := by simp at h ⊢; omega
    by_cases hc : c = 92
    · subst hc
      have e92 : ∀ t, quoteEscaped (92 :: t) = 92 :: quoteEscaped t := fun t => by rw [quoteEscaped_cons]; rfl
      by_cases hd : d = 92
      · subst hd
        rw [e92, e92]
        have ih := unquoted_quotes n s hl fun pre post hs => by
          rw [← ebs_two]; exact hp (92 :: 92 :: pre) post (by rw [hs]; rfl)
        simp only [unquoted, joined, and_self, if_true, show ¬ (92 = 34) by decide, and_false, if_false]
        rw [ih]
      · by_cases hd10 : d = 10
        · subst hd10
          have e10 : quoteEscaped (10 :: s) = 10 :: quoteEscaped s := by rw [quoteEscaped_cons]; rfl
          rw [e92, e10]
          have ih := unquoted_quotes n s hl fun pre post hs => by
            rw [← ebs_append (c := 10) (by decide) [92] pre]; exact hp (92 :: 10 :: pre) post (by rw [hs]; rfl)
          simp [unquoted, joined]
          exact ih
        · by_cases hd34 : d = 34
          · subst hd34
            exact absurd (hp [92] s rfl) (by decide)
          · have ed : quoteEscaped (d :: s) = d :: quoteEscaped s := by rw [quoteEscaped_cons, if_neg hd34]; rfl
            have ih := unquoted_quotes n (d :: s) hl' fun pre post hs => by
              cases pre with
              | nil => simp at hs; exact absurd hs.1 hd34
              | cons x pre =>
                simp only [List.cons_append, List.cons.injEq] at hs
                obtain ⟨rfl, hs⟩ := hs
                rw [ebs_cons hd, ← ebs_append hd [92] pre]
                exact hp (92 :: d :: pre) post (by rw [hs]; rfl)
            rw [e92, ed]
            simp only [unquoted, joined, hd, hd10, hd34, and_false, if_false]
            rw [← ed, ih]
    · have ih := unquoted_quotes n (d :: s) hl' fun pre post hs => by
        rw [← ebs_cons hc]; exact hp (c :: pre) post (by rw [hs]; rfl)
      have ej : joined (c :: d :: s) = c :: joined (d :: s) := by simp only [joined, hc, false_and, if_false]
      rw [ej]
      by_cases hc34 : c = 34
      · subst hc34
        have e34 : quoteEscaped (34 :: d :: s) = 92 :: 34 :: quoteEscaped (d :: s) := by rw [quoteEscaped_cons]; rfl
        rw [e34]
        simp only [unquoted, and_self, if_true]
        rw [ih]
      · rw [quoteEscaped_cons, if_neg hc34, unquoted_append (by simp; exact fun h => hc h.symm), ih]; rfl

/-- The value of a word or numeral is the word or numeral. -/
theorem plain_value {s : Str} (h : IdLexeme (runes s)) (hq : ∀ cs, runes s ≠ 34 :: cs) (ha : ∀ cs, runes s ≠ 60 :: cs) :
    idValue s = .text s ∧ 38 ∉ s ∧ 92 ∉ s := by
  have hm : (∀ r ∈ runes s, r ≠ 38 ∧ r ≠ 92 ∧ r ≠ 34 ∧ r ≠ 60) := by
    rcases h with ⟨⟨c, cs, hw, hc, hcs⟩, _⟩ | ⟨m, ds, fs, hm, hds, hfs, hw⟩ | ⟨b, _, hb⟩ | ⟨b, _, hb⟩
    · rw [hw]
      intro r hr
      have : letter r ∨ digit r := by
        rcases List.mem_cons.1 hr with rfl | hr
        · exact .inl hc
        · exact hcs r hr
      unfold letter digit at this
      omega
    · intro r hr
      have h0 : r = 45 ∨ r = 46 ∨ digit r := by
        rcases hw with ⟨_, e⟩ | ⟨_, e⟩ | ⟨_, e⟩ <;> rw [e] at hr <;> simp only [List.mem_append, List.mem_cons] at hr
        · rcases hr with hr | hr | hr
          · rcases hm with rfl | rfl <;> simp at hr; exact .inl hr
          · exact .inr (.inl hr)
          · exact .inr (.inr (hfs r hr))
        · rcases hr with hr | hr
          · rcases hm with rfl | rfl <;> simp at hr; exact .inl hr
          · exact .inr (.inr (hds r hr))
        · rcases hr with (hr | hr) | hr | hr
          · rcases hm with rfl | rfl <;> simp at hr; exact .inl hr
          · exact .inr (.inr (hds r hr))
          · exact .inr (.inl hr)
          · exact .inr (.inr (hfs r hr))
      unfold digit at h0
      omega
    · exact absurd hb (hq _)
    · exact absurd hb (ha _)
  have hb : ∀ c, c < 128 → (c = 38 ∨ c = 92 ∨ c = 34 ∨ c = 60) → c ∉ s := by
    intro c hc hx hs
    have := hm c ((mem_runes hc s).2 hs)
    omega
  have hh : ∀ c, c ∉ s → s.head? ≠ some c := by
    intro c hc h
    cases s with
    | nil => cases h
    | cons d s => simp at h; subst h; simp at hc
  refine ⟨?_, hb 38 (by decide) (by simp), hb 92 (by decide) (by simp)⟩
  unfold idValue
  rw [if_neg (hh 34 (hb 34 (by decide) (by simp))), if_neg (hh 60 (hb 60 (by decide) (by simp)))]

end Denote

/-- C79. For a text that escaping puts between quotes (and that does not start with `<`), readers show the text, with NUL bytes replaced and lines that end in a backslash joined. -/
theorem C79_quoted (U : Unicode) {s s' : Str} (h : esc U s = some s') (hne : s' ≠ s) (ha : ¬ StartsWithAngle s) {E : Entities} (hE : KnowsFive E) (u : Str) :
    Shows E s' u ↔ u = withoutNul (joined s) := by
  rcases (C63_escape_text U s s').1 h with ⟨h1, h2⟩ | ⟨_, _, ⟨_, h1⟩ | ⟨_, h1, _⟩ | ⟨_, _, h1⟩⟩
  · exact absurd (h2.trans h1.symm) hne
  · exact absurd h1 hne
  · exact absurd h1 ha
  · subst h1
    unfold Shows
    rw [Denote.value_quoted, Denote.unquoted_html _ s (Nat.le_refl _)]
    constructor
    · rintro ⟨v, hv, hd⟩
      cases hv
      exact Denote.decoded_det hd (Denote.decoded_html hE _)
    · rintro rfl
      exact ⟨_, rfl, Denote.decoded_html hE _⟩

/-- C79, partial. If the escaped form of a text is an identifier (C30, C55 say when), and the text does not start with `<` and is not between quotes already, readers of the document show for it exactly
the text, with lines that end in a backslash joined. -/
theorem C79_shown_partial (U : Unicode) {s s' : Str} (h : esc U s = some s') (hid : LexesAsID s') (ha : ¬ StartsWithAngle s) (hq : ¬ QuotedText s)
    {E : Entities} (hE : KnowsFive E) (u : Str) : Shows E s' u ↔ u = joined s := by
  by_cases hne : s' = s
  · subst hne
    have hid' := (lexesAsID_iff _).1 hid
    obtain ⟨hv, h38, h92⟩ := Denote.plain_value hid' (by
      intro cs hcs
      rcases (C63_escape_text U s' s').1 h with ⟨h1, _⟩ | ⟨_, _, ⟨hl, _⟩ | ⟨_, h1, _⟩ | ⟨_, _, h1⟩⟩
      · subst h1; cases hcs
      · rcases hl with hl | ⟨⟨c, _, hl, hc⟩, _⟩ | ⟨sg, ds, hl, hne, hds, hsg⟩ | hl
        · exact ha hl.1
        · rw [hcs] at hl
          cases hl
          unfold LetterChar at hc
          omega
        · rw [hcs] at hl
          rcases hsg with rfl | ⟨o, rfl, _⟩
          · cases ds with
            | nil => cases hl
            | cons d ds =>
              cases hl
              have := hds 34 (List.mem_cons_self ..)
              unfold NumeralChar at this
              omega
          · cases hl
        · exact hq hl
      · exact ha h1
      · have := congrArg List.length h1
        rw [← htmlEscaped_eq] at this
        have hle := length_htmlEscape s'
        simp at this
        omega) (by
      intro cs hcs
      exact ha ⟨[], cs, hcs, fun r hr => by cases hr⟩)
    rw [Denote.joined_plain h92]
    unfold Shows
    rw [hv]
    constructor
    · rintro ⟨v, hv, hd⟩
      cases hv
      exact Denote.decoded_det hd (Denote.decoded_plain E h38)
    · rintro rfl
      exact ⟨_, rfl, Denote.decoded_plain E h38⟩
  · rw [C79_quoted U h hne ha hE]
    rcases (C55_exactly U h).1 hid with ⟨h1, _⟩ | ⟨_, h0, _⟩
    · exact absurd h1 hne
    · rw [Denote.withoutNul_id fun hx => h0 (Denote.joined_mem _ s (Nat.le_refl _) hx)]

/-- C79. So such a text is shown as it is exactly if no line of it ends in an odd number of backslashes. -/
theorem C79_exactly (U : Unicode) {s s' : Str} (h : esc U s = some s') (hid : LexesAsID s') (ha : ¬ StartsWithAngle s) (hq : ¬ QuotedText s)
    {E : Entities} (hE : KnowsFive E) : Shows E s' s ↔ joined s = s := by
  rw [C79_shown_partial U h hid ha hq hE]
  exact eq_comm

/-- C79. A text that starts with `<` and is quoted is not HTML-escaped: its value is the text, so readers replace the character references in it. -/
theorem C79_angle (U : Unicode) {s s' : Str} (h : esc U s = some s') (hne : s' ≠ s) (hid : LexesAsID s') (ha : StartsWithAngle s) :
    idValue s' = .text (joined s) := by
  rcases (C63_escape_text U s s').1 h with ⟨h1, h2⟩ | ⟨_, _, ⟨_, h1⟩ | ⟨_, _, h1⟩ | ⟨_, h1, _⟩⟩
  · exact absurd (h2.trans h1.symm) hne
  · exact absurd h1 hne
  · rcases (C55_exactly U h).1 hid with ⟨h2, _⟩ | ⟨_, _, _, _, h5⟩
    · exact absurd h2 hne
    · subst h1
      rw [Denote.value_quoted, Denote.unquoted_quotes _ s (Nat.le_refl _)]
      exact h5 ((trimSpace_angle s).2 ha)
  · exact absurd ha h1

/-- Two readers agree, and every text can be read. -/
theorem C79_decoded (E : Entities) (s : Str) : ∃ u, Decoded E s u ∧ ∀ u', Decoded E s u' → u' = u := by
  obtain ⟨u, hu⟩ := Denote.decoded_total E _ s (Nat.le_refl _)
  exact ⟨u, hu, fun u' h => Denote.decoded_det h hu⟩

/-- C79 is false of the code for texts between quotes: Escape takes them for escaped already, and readers show them without the quotes. -/
theorem C79_quotes_lost (U : Unicode) {E : Entities} : esc U (b!"\"a\"") = some (b!"\"a\"") ∧ Shows E (b!"\"a\"") (b!"a") ∧ ¬ Shows E (b!"\"a\"") (b!"\"a\"") := by
  have hv : idValue (b!"\"a\"") = .text (b!"a") := by decide
  have hd : Decoded E (b!"a") (b!"a") := Denote.decoded_plain E (by decide)
  refine ⟨rfl, ⟨_, hv, hd⟩, ?_⟩
  rintro ⟨v, h, h'⟩
  rw [hv] at h
  cases h
  exact absurd (Denote.decoded_det hd h') (by decide)

/-- C79 is false of the code for texts that start with `<` and are not HTML: character references in them are replaced. Anywhere else they are protected. -/
theorem C79_references (U : Unicode) {E : Entities} (hE : KnowsFive E) :
    esc U (b!"<&lt;") = some (b!"\"<&lt;\"") ∧ Shows E (b!"\"<&lt;\"") (b!"<<") ∧
    esc U (b!"+&lt;") = some (b!"\"+&amp;lt;\"") ∧ Shows E (b!"\"+&amp;lt;\"") (b!"+&lt;") := by
  refine ⟨rfl, ⟨b!"<&lt;", by decide, .plain (by decide) (.ref (n := b!"lt") (s := []) (by decide) hE.lt .nil)⟩, rfl, ⟨b!"+&amp;lt;", by decide, ?_⟩⟩
  exact .plain (by decide) (.ref (n := b!"amp") (by decide) hE.amp (Denote.decoded_plain E (s := b!"lt;") (by decide)))

/-- C79 is false of the code for lines that end in a backslash: readers join them. -/
theorem C79_lines_joined (U : Unicode) {E : Entities} (hE : KnowsFive E) :
    esc U (b!"a \\\nb") = some (b!"\"a \\\nb\"") ∧ ∀ u, Shows E (b!"\"a \\\nb\"") u ↔ u = b!"a b" :=
  ⟨rfl, fun u => C79_quoted U (s := b!"a \\\nb") rfl (by decide) (by
    rw [← trimSpace_angle]
    rintro ⟨cs, h⟩
    have e : trimSpace (b!"a \\\nb") = b!"a \\\nb" := by decide
    rw [e] at h; cases h) hE u⟩

/-- A case that meets the hypotheses of `C79_shown_partial`: the text `5 > 3 & "x"`. -/
theorem example_shown (U : Unicode) : esc U (b!"5 > 3 & \"x\"") = some (b!"\"5 &gt; 3 &amp; &#34;x&#34;\"") ∧ LexesAsID (b!"\"5 &gt; 3 &amp; &#34;x&#34;\"") ∧
    ¬ StartsWithAngle (b!"5 > 3 & \"x\"") ∧ ¬ QuotedText (b!"5 > 3 & \"x\"") ∧ joined (b!"5 > 3 & \"x\"") = b!"5 > 3 & \"x\"" := by
  refine ⟨rfl, ⟨_, _, (by decide +kernel : Lex.tokens (b!"\"5 &gt; 3 &amp; &#34;x&#34;\"") = some [⟨18, b!"\"5 &gt; 3 &amp; &#34;x&#34;\"", 0, 1, 1⟩, ⟨1, [], 28, 1, 29⟩]), rfl, rfl, rfl⟩,
    ?_, ?_, by decide⟩
  · rw [← trimSpace_angle]
    rintro ⟨cs, h⟩
    have e : trimSpace (b!"5 > 3 & \"x\"") = b!"5 > 3 & \"x\"" := by decide
    rw [e] at h; cases h
  · rintro ⟨b, h, _⟩
    cases h

/-- A table that has the five references. -/
theorem example_entities : KnowsFive (fun n => if n = b!"#34" then some [34] else if n = b!"#39" then some [39] else if n = b!"amp" then some [38] else
    if n = b!"lt" then some [60] else if n = b!"gt" then some [62] else none) :=
  ⟨by decide, by decide, by decide, by decide, by decide⟩

/-! ### C80: spellings -/

instance (g : Graph) : Decidable (EdgesFit g) := by unfold EdgesFit; infer_instance

instance (l : List Str) : Decidable (OneSpelling l) := by unfold OneSpelling; infer_instance


/-- C80, partial: if the document has no two spellings of one node, then for every value of a node name in it the graph has exactly one node with this value, and no others. -/
theorem C80_one_node_partial {t : Ast.Graph} {g : Graph} (h : newAnalysedGraph t = .ok g)
    (hone : OneSpelling ((Document.items t).flatMap fun i => mentions i.stmt)) (v : Value) :
    (∃ i ∈ Document.items t, ∃ n ∈ mentions i.stmt, idValue n = v) ↔ ∃ n, g.isNode n = true ∧ idValue n = v ∧ ∀ m, g.isNode m = true → idValue m = v → m = n := by
  have hd := C66_document h
  constructor
  · rintro ⟨i, hi, n, hn, hv⟩
    refine ⟨n, (hd.nodes n).2 ⟨i, hi, hn⟩, hv, fun m hm hmv => ?_⟩
    obtain ⟨j, hj, hmj⟩ := (hd.nodes m).1 hm
    exact hone m (List.mem_flatMap.2 ⟨j, hj, hmj⟩) n (List.mem_flatMap.2 ⟨i, hi, hn⟩) (hmv.trans hv.symm)
  · rintro ⟨n, hn, hv, _⟩
    obtain ⟨i, hi, hm⟩ := (hd.nodes n).1 hn
    exact ⟨i, hi, n, hm, hv⟩

/-- C80, partial, for the API: if no two spellings of one name are given to AddNode, different nodes have names of different values. -/
theorem C80_api_partial (ops : List Op) (hok : OkHistory newGraph ops)
    (hone : ∀ p a as q b bs, Op.addNode p a as ∈ ops → Op.addNode q b bs ∈ ops → idValue a = idValue b → a = b) {a b : Str}
    (ha : (newGraph.run ops).isNode a = true) (hb : (newGraph.run ops).isNode b = true) (hv : idValue a = idValue b) : a = b := by
  obtain ⟨_, _, hn, _⟩ := C56_provenance ops hok
  obtain ⟨p, as, h1⟩ := hn a ha
  obtain ⟨q, bs, h2⟩ := hn b hb
  exact hone p a as q b bs h1 h2 hv

/-- C80, partial, for Escape: different texts, neither in quotes already nor starting with `<`, without lines that end in a backslash, and whose escaped forms are identifiers, have escaped forms of
different values. -/
theorem C80_escape_partial (U : Unicode) {s t s' t' : Str} (hs : esc U s = some s') (ht : esc U t = some t') (ids : LexesAsID s') (idt : LexesAsID t')
    (has : ¬ StartsWithAngle s) (hat : ¬ StartsWithAngle t) (hqs : ¬ QuotedText s) (hqt : ¬ QuotedText t) (hjs : joined s = s) (hjt : joined t = t) (hne : s ≠ t) :
    idValue s' ≠ idValue t' := by
  intro hv
  obtain ⟨v, h3, h4⟩ := (C79_exactly U hs ids has hqs example_entities).2 hjs
  exact hne (((C79_shown_partial U ht idt hat hqt example_entities s).1 ⟨v, hv ▸ h3, h4⟩).trans hjt)

/-- C80 is false of the code: the document `graph { a; "a" }` names one node, the graph has two. -/
theorem C80_two_nodes : ∃ g, Parse.read (fun _ => 0) 0 (b!"graph { a; \"a\" }") = .ok g ∧ idValue (b!"a") = idValue (b!"\"a\"") ∧
    g.isNode (b!"a") = true ∧ g.isNode (b!"\"a\"") = true ∧ g.nodes.list.length = 2 := by
  have h : (match Parse.read (fun _ => 0) 0 (b!"graph { a; \"a\" }") with
      | .ok g => decide (g.isNode (b!"a") = true ∧ g.isNode (b!"\"a\"") = true ∧ g.nodes.list.length = 2)
      | _ => false) = true := by decide +kernel
  revert h
  cases Parse.read (fun _ => 0) 0 (b!"graph { a; \"a\" }") with
  | ok g => intro h; exact ⟨g, rfl, by decide, of_decide_eq_true h⟩
  | _ => intro h; cases h

/-- C80 is false of Escape: the names `a` and `"a"` make two nodes, which are one for a reader of the written document. -/
theorem C80_escape (U : Unicode) : ∃ g errs, escRun U newGraph [.addNode (b!"G") (b!"a") [], .addNode (b!"G") (b!"\"a\"") []] = some (g, errs) ∧
    g.isNode (b!"a") = true ∧ g.isNode (b!"\"a\"") = true ∧ idValue (b!"a") = idValue (b!"\"a\"") := ⟨_, _, rfl, rfl, rfl, by decide⟩

/-- C80 is false of attribute names: `"color"` is the attribute `color`, but is rejected as unknown. -/
theorem C80_attribute_rejected : idValue (b!"color") = idValue (b!"\"color\"") ∧ (∃ g, Parse.read (fun _ => 0) 0 (b!"graph { a [color=red] }") = .ok g) ∧
    ¬ ∃ g, Parse.read (fun _ => 0) 0 (b!"graph { a [\"color\"=red] }") = .ok g := by
  have h1 : (match Parse.read (fun _ => 0) 0 (b!"graph { a [color=red] }") with | .ok _ => true | _ => false) = true := by decide +kernel
  have h2 : (match Parse.read (fun _ => 0) 0 (b!"graph { a [\"color\"=red] }") with | .ok _ => true | _ => false) = false := by decide +kernel
  refine ⟨by decide, ?_, ?_⟩
  · revert h1
    cases Parse.read (fun _ => 0) 0 (b!"graph { a [color=red] }") with
    | ok g => exact fun _ => ⟨g, rfl⟩
    | _ => intro h; cases h
  · rintro ⟨g, hg⟩
    rw [hg] at h2
    cases h2

/-- A document that meets the hypothesis of `C80_one_node_partial`: `graph { a; a -- "b c"; subgraph S { "b c" } }`. -/
theorem example_spelling : ∃ t n g, Parse.parseBytes (fun _ => 0) 0 (b!"graph { a; a -- \"b c\"; subgraph S { \"b c\" } }") = .ok t n ∧ newAnalysedGraph t = .ok g ∧
    OneSpelling ((Document.items t).flatMap fun i => mentions i.stmt) ∧ g.nodes.list.length = 2 := by
  have h : (match Parse.parseBytes (fun _ => 0) 0 (b!"graph { a; a -- \"b c\"; subgraph S { \"b c\" } }") with
      | .ok t _ => (match newAnalysedGraph t with
        | .ok g => decide (OneSpelling ((Document.items t).flatMap fun i => mentions i.stmt)) &&
            decide (g.nodes.list.length = 2)
        | .error _ => false)
      | _ => false) = true := by decide +kernel
  revert h
  cases Parse.parseBytes (fun _ => 0) 0 (b!"graph { a; a -- \"b c\"; subgraph S { \"b c\" } }") with
  | ok t n =>
    intro h
    simp only at h
    cases hg : newAnalysedGraph t with
    | ok g =>
      rw [hg] at h
      have h' := Bool.and_eq_true _ _ ▸ h
      exact ⟨t, n, g, rfl, hg, of_decide_eq_true h'.1, of_decide_eq_true h'.2⟩
    | error m => rw [hg] at h; cases h
  | _ => intro h; cases h

/-! ### C81: operators -/

namespace Denote

open Document

mutual
/-- The items of a document are its statements. -/
theorem items_stmt (c : Ctx) (pre : List Stmt) : (s : Stmt) → (itemsStmt c pre s).map Item.stmt = allStmt s
  | .edge src rhs as => by simp only [itemsStmt, allStmt, List.map_cons, List.map_append, items_loc c pre src, items_rhs c pre rhs]
  | .sub id body => by simp only [itemsStmt, allStmt, List.map_cons, items_stmts (c.inner pre id) [] body]
  | .node _ _ => by simp [itemsStmt, allStmt]
  | .nodeAttrs _ => by simp [itemsStmt, allStmt]
  | .edgeAttrs _ => by simp [itemsStmt, allStmt]
  | .graphAttrs _ => by simp [itemsStmt, allStmt]
  | .attr _ => by simp [itemsStmt, allStmt]
theorem items_loc (c : Ctx) (pre : List Stmt) : (l : Loc) → (itemsLoc c pre l).map Item.stmt = allLoc l
  | .node _ => by simp [itemsLoc, allLoc]
  | .sub id body => by simp only [itemsLoc, allLoc, List.map_cons, items_stmts (c.inner pre id) [] body]
theorem items_rhs (c : Ctx) (pre : List Stmt) : (l : List EdgeRH) → (itemsRHS c pre l).map Item.stmt = allRHS l
  | [] => by simp [itemsRHS, allRHS]
  | .mk _ d :: rest => by simp only [itemsRHS, allRHS, List.map_append, items_loc c pre d, items_rhs c pre rest]
theorem items_stmts (c : Ctx) (pre : List Stmt) : (ss : List Stmt) → (itemsStmts c pre ss).map Item.stmt = allStmts ss
  | [] => by simp [itemsStmts, allStmts]
  | s :: ss => by simp only [itemsStmts, allStmts, List.map_append, items_stmt c pre s, items_stmts c (pre ++ [s]) ss]
end

theorem edgesFrom_ops (m : Str → Option Str) (rhs : List EdgeRH) : ∀ prev : Loc, (edgesFrom m prev rhs).map AEdge.dir = rhs.map fun r => match r with | .mk op _ => op := by
  induction rhs with
  | nil => intro _; rfl
  | cons r rest ih =>
    intro prev
    obtain ⟨op, d⟩ := r
    simp only [edgesFrom, List.map_cons, ih]

theorem item_ops (i : Item) : i.edges.map AEdge.dir = operators i.stmt := by
  obtain ⟨c, pre, s⟩ := i
  cases s <;> first | rfl | exact edgesFrom_ops _ _ _

/-- The directions of the edges are the operators of the document, in order. -/
theorem doc_ops (t : Ast.Graph) : ((items t).flatMap Item.edges).map AEdge.dir = (allStmts t.stmts).flatMap operators := by
  have h := items_stmts ⟨t.id, [], []⟩ [] t.stmts
  rw [← h]
  show ((items t).flatMap Item.edges).map AEdge.dir = ((items t).map Item.stmt).flatMap operators
  generalize items t = l
  induction l with
  | nil => rfl
  | cons i l ih => simp only [List.flatMap_cons, List.map_append, List.map_cons, ih, item_ops]

theorem filter_ops (l : List Stmt) : l.flatMap operators = (l.filter isEdgeStmt).flatMap operators := by
  induction l with
  | nil => rfl
  | cons s l ih =>
    rw [List.flatMap_cons, ih, List.filter_cons]
    cases s <;> simp [isEdgeStmt, operators]

end Denote

/-- C81. Reading keeps the operators: the edges have, in order, the directions of the operators of the document. -/
theorem C81_read {t : Ast.Graph} {g : Graph} (h : newAnalysedGraph t = .ok g) : g.edges.edges.map Edge.dir = (allStmts t.stmts).flatMap operators := by
  rw [← Denote.doc_ops, ← (C66_document h).edges, List.map_map]; rfl

/-- C81. So the edges of a graph that has been read fit exactly if the operators of the document did. -/
theorem C81_read_fit {t : Ast.Graph} {g : Graph} (h : newAnalysedGraph t = .ok g) : EdgesFit g ↔ OperatorsFit t := by
  have hr := C81_read h
  have hd := (C66_document h).directed
  unfold EdgesFit OperatorsFit
  constructor
  · intro he s hs op hop
    have : op ∈ g.edges.edges.map Edge.dir := by rw [hr]; exact List.mem_flatMap.2 ⟨s, hs, hop⟩
    obtain ⟨e, he', rfl⟩ := List.mem_map.1 this
    rw [he e he', hd]
  · intro ho e he
    have : e.dir ∈ (allStmts t.stmts).flatMap operators := by rw [← hr]; exact List.mem_map.2 ⟨e, he, rfl⟩
    obtain ⟨s, hs, hop⟩ := List.mem_flatMap.1 this
    rw [ho s hs _ hop, hd]

/-- C81. The operators that are written, in order, are the directions of the edges in the order in which they are written, and the document is a `digraph` exactly if the graph is directed. -/
theorem C81_write {g : Graph} (h : Reachable g) {sortE : List Edge → List Edge} (hs : SortContract sortE) {f : Nat} {t : Ast.Graph} (ht : writeAst sortE f g = .ok t) :
    (allStmts t.stmts).flatMap operators = (sortE g.edges.edges).map Edge.dir ∧ t.type_ = g.directed := by
  obtain ⟨h1, h2, _⟩ := C18_edges_faithful h hs ht
  refine ⟨?_, ?_⟩
  · rw [Denote.filter_ops, h2]
    revert h1
    generalize t.stmts.filter isEdgeStmt = ss
    generalize sortE g.edges.edges = es
    intro h1
    induction h1 with
    | nil => rfl
    | cons h _ ih =>
      obtain ⟨src, dst, rfl, _, _⟩ := h
      rw [List.flatMap_cons, ih]; rfl
  · obtain ⟨es, ss, ns, hes, hss, hns, rfl⟩ := written_parts h ht
    rfl

/-- C81, partial: the operators of a written document fit its kind exactly if the edges of the graph fit. -/
theorem C81_write_fit_partial {g : Graph} (h : Reachable g) {sortE : List Edge → List Edge} (hs : SortContract sortE) {f : Nat} {t : Ast.Graph}
    (ht : writeAst sortE f g = .ok t) : OperatorsFit t ↔ EdgesFit g := by
  obtain ⟨h1, h2⟩ := C81_write h hs ht
  have hp := hs.perm g.edges.edges
  unfold OperatorsFit EdgesFit
  constructor
  · intro ho e he
    have : e.dir ∈ (allStmts t.stmts).flatMap operators := by rw [h1]; exact List.mem_map.2 ⟨e, hp.mem_iff.2 he, rfl⟩
    obtain ⟨s, hs', hop⟩ := List.mem_flatMap.1 this
    rw [ho s hs' _ hop, h2]
  · intro he s hs' op hop
    have : op ∈ (sortE g.edges.edges).map Edge.dir := by rw [← h1]; exact List.mem_flatMap.2 ⟨s, hs', hop⟩
    obtain ⟨e, he', rfl⟩ := List.mem_map.1 this
    rw [he e (hp.mem_iff.1 he'), h2]

/-- C81 is false of the code: `graph { a -> b }` is accepted and written again with the wrong operator, which Graphviz rejects. -/
theorem C81_wrong_operator : ∃ g, Parse.read (fun _ => 0) 0 (b!"graph G { a -> b }") = .ok g ∧ ¬ EdgesFit g ∧
    graphString edgeInsertionSort 2 g = .ok (b!"graph G {\n\ta->b;\n\ta;\n\tb;\n}\n") := by
  have h : (match Parse.read (fun _ => 0) 0 (b!"graph G { a -> b }") with
      | .ok g => (match graphString edgeInsertionSort 2 g with
        | .ok x => decide (¬ EdgesFit g) && decide (x = b!"graph G {\n\ta->b;\n\ta;\n\tb;\n}\n")
        | _ => false)
      | _ => false) = true := by decide +kernel
  revert h
  cases Parse.read (fun _ => 0) 0 (b!"graph G { a -> b }") with
  | ok g =>
    intro h
    simp only at h
    cases hg : graphString edgeInsertionSort 2 g with
    | ok x =>
      rw [hg] at h
      have h' := Bool.and_eq_true _ _ ▸ h
      exact ⟨g, rfl, of_decide_eq_true h'.1, by rw [hg, of_decide_eq_true h'.2]⟩
    | _ => rw [hg] at h; cases h
  | _ => intro h; cases h

/-- A directed graph with a subgraph whose edges fit, and what is written for it. -/
theorem example_operators : ∃ g t, Parse.read (fun _ => 0) 0 (b!"digraph G { a -> b -> {c -> d} }") = .ok g ∧ EdgesFit g ∧ g.edges.edges.length = 3 ∧
    writeAst edgeInsertionSort 3 g = .ok t ∧ OperatorsFit t := by
  have h : (match Parse.read (fun _ => 0) 0 (b!"digraph G { a -> b -> {c -> d} }") with
      | .ok g => (match writeAst edgeInsertionSort 3 g with
        | .ok t => decide ((∀ e ∈ g.edges.edges, e.dir = g.directed) ∧ g.edges.edges.length = 3 ∧ ∀ s ∈ allStmts t.stmts, ∀ op ∈ operators s, op = t.type_)
        | _ => false)
      | _ => false) = true := by decide +kernel
  revert h
  cases Parse.read (fun _ => 0) 0 (b!"digraph G { a -> b -> {c -> d} }") with
  | ok g =>
    intro h
    simp only at h
    cases hw : writeAst edgeInsertionSort 3 g with
    | ok t =>
      rw [hw] at h
      have h' := of_decide_eq_true h
      exact ⟨g, t, rfl, h'.1, h'.2.1, hw, h'.2.2⟩
    | _ => rw [hw] at h; cases h
  | _ => intro h; cases h

end Gographviz.Props
