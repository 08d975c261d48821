import Verif.Props.EscapeExact
import Verif.Props.EscapeText
/-!
Property C30: which texts are escaped to one identifier token, said of the text alone.
-/
namespace Gographviz.Props

open Gographviz Spec Lex

theorem length_ends {s body : Str} (h : s.length ≤ body.length) : [34] ++ body ++ [34] ≠ s := by
  intro e
  have := congrArg List.length e
  simp at this
  omega

theorem length_flatMap_ge (f : Nat → Str) (hf : ∀ c, f c ≠ []) (s : Str) : s.length ≤ (s.flatMap f).length := by
  induction s with
  | nil => simp
  | cons c s ih =>
    have : 0 < (f c).length := List.length_pos_iff.2 (hf c)
    simp only [List.flatMap_cons, List.length_append, List.length_cons]
    omega

theorem htmlEscaped_length (s : Str) : s.length ≤ (htmlEscaped s).length := by
  apply length_flatMap_ge
  intro c
  simp only [htmlEntities, List.lookup]
  repeat' split
  all_goals simp

theorem quoteEscaped_length (s : Str) : s.length ≤ (quoteEscaped s).length := by
  apply length_flatMap_ge
  intro c
  split <;> simp

theorem not_idLexeme_nil : ¬ IdLexeme (runes []) := by
  have e : runes [] = [] := rfl
  rw [e]
  rintro (⟨h, _⟩ | h | h | h)
  · simp [Word] at h
  · simp [Numeral] at h
  · simp [Quoted] at h
  · simp [Html] at h

/-- C30. The texts that `Escape` turns into exactly one identifier token, for every byte string. Of the texts that are neither blank nor a single quote:
those it leaves alone, if they already are identifiers of dot.bnf, and those it quotes, if they have no NUL, are valid UTF-8 without U+FFFD, do not
end in an odd number of backslashes and, if their first non-blank character is `<`, have no quote after an odd number of backslashes. -/
theorem C30_exactly (U : Unicode) (s : Str) : (∃ s', esc U s = some s' ∧ LexesAsID s') ↔
    (∃ r ∈ runes s, r ∉ whiteSpace) ∧ s ≠ [34] ∧
      ((LeftAlone U s ∧ IdLexeme (runes s)) ∨
       (¬ LeftAlone U s ∧ 0 ∉ s ∧ 0xFFFD ∉ runes s ∧ endBackslashes s % 2 = 0 ∧
         (StartsWithAngle s → ∀ pre post, s = pre ++ 34 :: post → endBackslashes pre % 2 = 0))) := by
  constructor
  · rintro ⟨s', h, hl⟩
    have hx := (C55_exactly U h).1 hl
    rw [trimSpace_angle] at hx
    rcases (C63_escape_text U s s').1 h with ⟨rfl, rfl⟩ | ⟨hb, hq, hc⟩
    · rcases hx with ⟨_, hx⟩ | ⟨hx, _⟩
      · exact absurd hx not_idLexeme_nil
      · exact absurd rfl hx
    · refine ⟨hb, hq, ?_⟩
      rcases hc with ⟨ha, rfl⟩ | ⟨ha, _, rfl⟩ | ⟨ha, _, rfl⟩
      · rcases hx with ⟨_, hx⟩ | ⟨hx, _⟩
        · exact .inl ⟨ha, hx⟩
        · exact absurd rfl hx
      · rcases hx with ⟨hx, _⟩ | ⟨_, hx⟩
        · exact absurd hx (length_ends (quoteEscaped_length s))
        · exact .inr ⟨ha, hx⟩
      · rcases hx with ⟨hx, _⟩ | ⟨_, hx⟩
        · exact absurd hx (length_ends (htmlEscaped_length s))
        · exact .inr ⟨ha, hx⟩
  · rintro ⟨hb, hq, h⟩
    rcases h with ⟨ha, hi⟩ | ⟨ha, h⟩
    · have he : esc U s = some s := (C63_escape_text U s s).2 (.inr ⟨hb, hq, .inl ⟨ha, rfl⟩⟩)
      exact ⟨s, he, (C55_exactly U he).2 (.inl ⟨rfl, hi⟩)⟩
    · by_cases hA : StartsWithAngle s
      · have he := (C63_escape_text U s _).2 (.inr ⟨hb, hq, .inr (.inl ⟨ha, hA, rfl⟩)⟩)
        refine ⟨_, he, (C55_exactly U he).2 (.inr ⟨length_ends (quoteEscaped_length s), ?_⟩)⟩
        rw [trimSpace_angle]; exact h
      · have he := (C63_escape_text U s _).2 (.inr ⟨hb, hq, .inr (.inr ⟨ha, hA, rfl⟩)⟩)
        refine ⟨_, he, (C55_exactly U he).2 (.inr ⟨length_ends (htmlEscaped_length s), ?_⟩)⟩
        rw [trimSpace_angle]; exact h

end Gographviz.Props
