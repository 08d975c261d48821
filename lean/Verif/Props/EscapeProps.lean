import Verif.Proofs.Escape
import Verif.Proofs.GraphOps
import Verif.Spec.Escaping
import Verif.Spec.Lists
/-!
Properties C28, C29, C31 and C32: escaping.
-/
namespace Gographviz.Props

open Gographviz Spec

/-- A `Unicode` for the examples: no letters and no digits above U+007F. -/
def noUni : Unicode := ⟨fun _ => false, fun _ => false⟩

/-- The three outcomes of `esc`. -/
theorem esc_cases {U : Unicode} {s s' : Str} (h : esc U s = some s') :
    s' = s ∨ (s' = [34] ++ escapeQuotes s ++ [34] ∧ ∃ cs, trimSpace s = 60 :: cs) ∨
    (s' = [34] ++ htmlEscape s ++ [34] ∧ ∀ cs, trimSpace s ≠ 60 :: cs) := by
  unfold esc at h
  split at h
  · cases h; exact .inl rfl
  · split at h
    · cases h
    · cases h; exact .inl rfl
    · split at h
      · cases h
      · rename_i c cs ht
        split at h
        · rename_i hc; cases h; subst hc; exact .inr (.inl ⟨rfl, cs, ht⟩)
        · rename_i hc
          split at h
          · cases h; exact .inl rfl
          · split at h
            · cases h; exact .inl rfl
            · split at h
              · cases h
              · cases h; exact .inl rfl
              · cases h
                refine .inr (.inr ⟨rfl, fun cs' h' => ?_⟩)
                rw [ht] at h'; cases h'; exact hc rfl

/-- A string `"..."` without bare quotes inside is left alone. -/
theorem esc_quoted (U : Unicode) {b : Str} (h : noBareQuote 0 b = true) : esc U ([34] ++ b ++ [34]) = some ([34] ++ b ++ [34]) := by
  have e : [34] ++ b ++ [34] = 34 :: (b ++ [34]) := by simp
  rw [e]
  have ht := trimSpace_quoted b
  have hid : isID U (34 :: (b ++ [34])) = false := by
    simp [isID, runes_ascii (show 34 < 128 by decide), isLetter]
  have hnum : isNumber U (34 :: (b ++ [34])) = false := by
    simp [isNumber, runes_ascii (show 34 < 128 by decide), isNumberFrom, isDigit]
  have hs : isStringLit (34 :: (b ++ [34])) = some true := by
    have h1 : hasPrefix (34 :: (b ++ [34])) [34] = true := by simp [hasPrefix, List.isPrefixOf]
    have h2 : hasSuffix (34 :: (b ++ [34])) [34] = true := by
      simp [hasSuffix, List.isSuffixOf, List.isPrefixOf]
    unfold isStringLit
    rw [h1, h2]
    simp only [Bool.not_true, Bool.or_self, Bool.false_eq_true, if_false]
    rw [if_neg (by simp)]
    simp only [List.drop_succ_cons, List.drop_zero, List.dropLast_concat]
    rw [noBareQuote_runes, h]
  unfold esc
  rw [if_neg (by simp)]
  simp only [isHTML, ht]
  rw [if_neg (by simp), if_pos (by simp)]
  simp [hid, hnum, hs]

/-! ### C28 -/

/-- C28. Escaping an escaped string gives it back. -/
theorem C28_idempotent (U : Unicode) {s s' : Str} (h : esc U s = some s') : esc U s' = some s' := by
  rcases esc_cases h with rfl | ⟨rfl, _⟩ | ⟨rfl, _⟩
  · exact h
  · exact esc_quoted U (noBareQuote_escapeQuotes s 0)
  · exact esc_quoted U (noBareQuote_of_not_mem (quote_not_mem_htmlEscape s) 0)

example : esc noUni (b!"a \"b\" <c>") = some (b!"\"a &#34;b&#34; &lt;c&gt;\"") := by decide +kernel
example : esc noUni (b!"<a \"b\"") = some (b!"\"<a \\\"b\\\"\"") := by decide +kernel

/-! ### C29 -/

/-- C29, part: escaping panics exactly for the string `"` and for non-empty strings of white space runes; for all other
strings it returns normally. -/
theorem C29_esc_panics_iff (U : Unicode) (s : Str) :
    esc U s = none ↔ s = [34] ∨ (s ≠ [] ∧ (runes s).all isSpaceRune = true) := by
  rw [← trimSpace_eq_nil]
  cases hs : s with
  | nil => simp [esc]
  | cons b t =>
    rw [← hs]
    have hne : s ≠ [] := by rw [hs]; simp
    have hlen : ¬ s.length = 0 := by rw [hs]; simp
    cases ht : trimSpace s with
    | nil =>
      have hh : isHTML s = none := by simp only [isHTML, ht]; rw [if_neg hlen]
      unfold esc; rw [if_neg hlen]
      simp [hh, hne]
    | cons c cs =>
      have hq : isStringLit s = none ↔ s = [34] := by
        unfold isStringLit
        split
        · rename_i h1
          simp only [reduceCtorEq, false_iff]
          rintro rfl
          revert h1; decide
        · rename_i h1
          simp only [Bool.or_eq_true, Bool.not_eq_true', not_or, Bool.not_eq_false] at h1
          split
          · rename_i h2
            simp only [true_iff]
            have h3 : s.length = 1 := by omega
            cases s with
            | nil => exact absurd rfl hne
            | cons x s =>
              have : s = [] := by simpa using h3
              subst this
              have := h1.1
              simp [hasPrefix, List.isPrefixOf] at this
              rw [this]
          · rename_i h2
            simp only [reduceCtorEq, false_iff]
            rintro rfl; simp at h2
      unfold esc; rw [if_neg hlen]
      have hh : isHTML s ≠ none := by
        simp only [isHTML, ht]; rw [if_neg hlen]; split <;> simp
      have hr : (s = [34] ∨ s ≠ [] ∧ c :: cs = []) ↔ s = [34] := by simp
      rw [hr]
      have h34 : s = [34] → isHTML s = some false ∧ c ≠ 60 ∧ isID U s = false ∧ isNumber U s = false := by
        intro h
        have : trimSpace s = [34] := by rw [h]; decide
        rw [this] at ht; cases ht
        refine ⟨?_, by decide, ?_, ?_⟩
        · rw [h]; decide
        · rw [h]; simp [isID, runes, runesN, decodeRune, isLetter]
        · rw [h]; simp [isNumber, runes, runesN, decodeRune, isNumberFrom, isDigit]
      rw [ht]
      split
      · rename_i hx; exact absurd hx hh
      · rename_i hx
        simp only [reduceCtorEq, false_iff]
        intro h; rw [(h34 h).1] at hx; cases hx
      · dsimp only
        · split
          · rename_i hc; simp only [reduceCtorEq, false_iff]; intro h; exact (h34 h).2.1 hc
          · split
            · rename_i hi; simp only [reduceCtorEq, false_iff]; intro h; rw [(h34 h).2.2.1] at hi; cases hi
            · split
              · rename_i hi; simp only [reduceCtorEq, false_iff]; intro h; rw [(h34 h).2.2.2] at hi; cases hi
              · rw [← hq]
                split
                · rename_i hx; simp [hx]
                · rename_i hx; simp [hx]
                · rename_i hx; simp [hx]

theorem escAttrsFrom_none (U : Unicode) (m : Map Str) (as : List (Str × Str)) :
    escAttrsFrom U m as = none ↔ ∃ s ∈ entryArgs as, esc U s = none := by
  induction as generalizing m with
  | nil => simp [escAttrsFrom, entryArgs]
  | cons e as ih =>
    obtain ⟨k, v⟩ := e
    have he : entryArgs ((k, v) :: as) = k :: v :: entryArgs as := by simp [entryArgs]
    rw [he]
    simp only [escAttrsFrom, List.mem_cons]
    cases hk : esc U k with
    | none => simp only [Option.bind_eq_bind, Option.bind_none, true_iff]; exact ⟨k, by simp, hk⟩
    | some k' =>
      cases hv : esc U v with
      | none => simp only [Option.bind_eq_bind, Option.bind_some, Option.bind_none, true_iff]; exact ⟨v, by simp, hv⟩
      | some v' =>
        simp only [Option.bind_eq_bind, Option.bind_some, ih]
        constructor
        · rintro ⟨s, hs, h⟩; exact ⟨s, .inr (.inr hs), h⟩
        · rintro ⟨s, rfl | rfl | hs, h⟩
          · rw [hk] at h; cases h
          · rw [hv] at h; cases h
          · exact ⟨s, hs, h⟩

/-- C29, part: a method of `Escape` returns normally unless one of its escaped arguments is the string `"` or a non-empty
string of white space runes; with such an argument it panics. Missing from the full claim: those arguments, on which the
code does panic (`C29_panics`). -/
theorem C29_no_panic_partial (U : Unicode) (g : Graph) (op : Op) :
    escStep U g op = none ↔ ∃ s ∈ escapedArgs op, s = [34] ∨ (s ≠ [] ∧ (runes s).all isSpaceRune = true) := by
  simp only [← C29_esc_panics_iff U]
  have two : ∀ (x y : Str) (f : Str → Str → Graph × Option Err),
      ((do let a ← esc U x; let b ← esc U y; return f a b) = none ↔ (esc U x = none ∨ esc U y = none)) := by
    intro x y f
    cases esc U x <;> cases esc U y <;> simp
  have three : ∀ (x y : Str) (as : List (Str × Str)) (f : Str → Str → Map Str → Graph × Option Err),
      ((do let a ← esc U x; let b ← esc U y; let m ← escAttrs U as; return f a b m) = none ↔
        ∃ s ∈ x :: y :: entryArgs as, esc U s = none) := by
    intro x y as f
    have := escAttrsFrom_none U [] as
    simp only [List.mem_cons]
    cases hx : esc U x with
    | none => simp only [Option.bind_eq_bind, Option.bind_none, true_iff]; exact ⟨x, by simp, hx⟩
    | some x' =>
      cases hy : esc U y with
      | none => simp only [Option.bind_eq_bind, Option.bind_some, Option.bind_none, true_iff]; exact ⟨y, by simp, hy⟩
      | some y' =>
        have h2 : ((do let m ← escAttrs U as; return f x' y' m) = none) ↔ escAttrsFrom U [] as = none := by
          unfold escAttrs; cases escAttrsFrom U [] as <;> simp
        simp only [Option.bind_eq_bind, Option.bind_some] at h2 ⊢
        rw [h2, this]
        constructor
        · rintro ⟨s, hs, h⟩; exact ⟨s, .inr (.inr hs), h⟩
        · rintro ⟨s, rfl | rfl | hs, h⟩
          · rw [hx] at h; cases h
          · rw [hy] at h; cases h
          · exact ⟨s, hs, h⟩
  cases op with
  | setName n => simp only [escStep, escSetName, escapedArgs]; cases h : esc U n <;> simp [h]
  | addPortEdge s sp d dp dir as => exact three s d as fun a b m => g.addPortEdge a sp b dp dir m
  | addEdge s d dir as => exact three s d as fun a b m => g.addPortEdge a [] b [] dir m
  | addNode p n as => exact three p n as fun a b m => g.addNode a b m
  | addSubGraph p n as => exact three p n as fun a b m => g.addSubGraph a b m
  | addAttr p f v =>
    simp only [escStep, escAddAttr, escapedArgs]
    cases hp : esc U p <;> cases hf : esc U f <;> cases hv : esc U v <;> simp [hp, hf, hv]
  | _ => simp [escStep, escapedArgs]

/-- The unrestricted claim C29 is false of the code: `NewEscape().AddNode("G", " ", nil)` panics, and so does the name `"`. -/
theorem C29_panics (U : Unicode) :
    escStep U newGraph (.addNode (b!"G") (b!" ") []) = none ∧ escStep U newGraph (.addNode (b!"G") (b!"\"") []) = none := by
  constructor <;> rw [C29_no_panic_partial]
  · exact ⟨b!" ", by simp [escapedArgs], .inr ⟨by simp, by decide⟩⟩
  · exact ⟨b!"\"", by simp [escapedArgs], .inl rfl⟩

/-! ### C31 -/

theorem htmlEscapeByte_inj {a b : Nat} (ha : a ≠ 0) (hb : b ≠ 0) {x y : Str}
    (h : htmlEscapeByte a ++ x = htmlEscapeByte b ++ y) : a = b ∧ x = y := by
  unfold htmlEscapeByte at h
  rw [if_neg ha, if_neg hb] at h
  repeat' split at h
  all_goals simp_all

theorem htmlEscapeByte_ne_nil (a : Nat) : htmlEscapeByte a ≠ [] := by
  unfold htmlEscapeByte; repeat' split
  all_goals simp

theorem htmlEscape_inj {s t : Str} (hs : 0 ∉ s) (ht : 0 ∉ t) (h : htmlEscape s = htmlEscape t) : s = t := by
  induction s generalizing t with
  | nil =>
    cases t with
    | nil => rfl
    | cons b t => simp only [htmlEscape, List.flatMap_nil, List.flatMap_cons] at h; exact absurd (by simpa using h.symm) (fun h' : _ ∧ _ => htmlEscapeByte_ne_nil b h'.1)
  | cons a s ih =>
    cases t with
    | nil => simp only [htmlEscape, List.flatMap_nil, List.flatMap_cons] at h; exact absurd (by simpa using h) (fun h' : _ ∧ _ => htmlEscapeByte_ne_nil a h'.1)
    | cons b t =>
      simp only [List.mem_cons, not_or] at hs ht
      simp only [htmlEscape, List.flatMap_cons] at h
      obtain ⟨rfl, h'⟩ := htmlEscapeByte_inj (fun h => hs.1 h.symm) (fun h => ht.1 h.symm) h
      rw [ih hs.2 ht.2 h']

theorem htmlEscape_withoutNul (s : Str) : htmlEscape (withoutNul s) = htmlEscape s := by
  induction s with
  | nil => rfl
  | cons a s ih =>
    have : withoutNul (a :: s) = (if a = 0 then [0xEF, 0xBF, 0xBD] else [a]) ++ withoutNul s := by simp [withoutNul]
    rw [this]
    have e : htmlEscape (a :: s) = htmlEscapeByte a ++ htmlEscape s := by simp [htmlEscape]
    have e2 : ∀ x y, htmlEscape (x ++ y) = htmlEscape x ++ htmlEscape y := by intro x y; simp [htmlEscape]
    rw [e, e2, ih]
    by_cases h : a = 0
    · subst h; rfl
    · rw [if_neg h]; simp [htmlEscape]

theorem withoutNul_spec (s : Str) : 0 ∉ withoutNul s := by
  unfold withoutNul
  rw [List.mem_flatMap]
  rintro ⟨c, _, h⟩
  split at h
  · simp at h
  · simp at h; omega

theorem withoutNul_of_not_mem {s : Str} (h : 0 ∉ s) : withoutNul s = s := by
  induction s with
  | nil => rfl
  | cons a s ih =>
    simp only [List.mem_cons, not_or] at h
    have : withoutNul (a :: s) = (if a = 0 then [0xEF, 0xBF, 0xBD] else [a]) ++ withoutNul s := by simp [withoutNul]
    rw [this, if_neg (fun e => h.1 e.symm), ih h.2]; rfl

theorem escapeQuotes_ne_quote (t x : Str) : escapeQuotes t ≠ 34 :: x := by
  cases t with
  | nil => simp [escapeQuotes]
  | cons a t =>
    simp only [escapeQuotes, List.flatMap_cons]
    split
    · simp
    · rename_i h; simp [h]

theorem escapeQuotes_inj {s t : Str} (h : escapeQuotes s = escapeQuotes t) : s = t := by
  induction s generalizing t with
  | nil =>
    cases t with
    | nil => rfl
    | cons b t => simp only [escapeQuotes, List.flatMap_nil, List.flatMap_cons] at h; split at h <;> simp at h
  | cons a s ih =>
    cases t with
    | nil => simp only [escapeQuotes, List.flatMap_nil, List.flatMap_cons] at h; split at h <;> simp at h
    | cons b t =>
      have e : ∀ c u, escapeQuotes (c :: u) = (if c = 34 then [92, 34] else [c]) ++ escapeQuotes u := by
        intro c u; simp [escapeQuotes]
      rw [e, e] at h
      by_cases ha : a = 34 <;> by_cases hb : b = 34
      · subst ha; subst hb; simp at h; rw [ih h]
      · rw [if_pos ha, if_neg hb] at h
        simp only [List.cons_append, List.nil_append, List.cons.injEq] at h
        exact absurd h.2.symm (escapeQuotes_ne_quote _ _)
      · rw [if_neg ha, if_pos hb] at h
        simp only [List.cons_append, List.nil_append, List.cons.injEq] at h
        exact absurd h.2 (escapeQuotes_ne_quote _ _)
      · rw [if_neg ha, if_neg hb] at h
        simp only [List.cons_append, List.nil_append, List.cons.injEq] at h
        rw [h.1, ih h.2]

theorem lt_not_mem_htmlEscape (s : Str) : 60 ∉ htmlEscape s := by
  unfold htmlEscape
  rw [List.mem_flatMap]
  rintro ⟨c, _, hm⟩
  unfold htmlEscapeByte at hm
  repeat' split at hm
  all_goals simp_all

theorem lt_mem_escapeQuotes {s : Str} (h : 60 ∈ s) : 60 ∈ escapeQuotes s := by
  unfold escapeQuotes
  rw [List.mem_flatMap]
  exact ⟨60, h, by simp⟩

theorem quoted_inj {x y : Str} (h : [34] ++ x ++ [34] = [34] ++ y ++ [34]) : x = y := by
  have := List.append_cancel_right h
  exact List.append_cancel_left this

/-- C31. If two names that both need quoting get the same escaped form, they differ at most in NUL bytes written as U+FFFD. -/
theorem C31_collision (U : Unicode) {s t r : Str} (hs : esc U s = some r) (ht : esc U t = some r) (hsr : r ≠ s) (htr : r ≠ t) :
    withoutNul s = withoutNul t := by
  rcases esc_cases hs with h | ⟨h1, cs, hc⟩ | ⟨h1, _⟩
  · exact absurd h hsr
  · rcases esc_cases ht with h | ⟨h2, _⟩ | ⟨h2, _⟩
    · exact absurd h htr
    · rw [h1] at h2; rw [escapeQuotes_inj (quoted_inj h2)]
    · rw [h1] at h2
      have := lt_mem_escapeQuotes (trimSpace_head hc)
      rw [quoted_inj h2] at this
      exact absurd this (lt_not_mem_htmlEscape t)
  · rcases esc_cases ht with h | ⟨h2, cs, hc⟩ | ⟨h2, _⟩
    · exact absurd h htr
    · rw [h1] at h2
      have := lt_mem_escapeQuotes (trimSpace_head hc)
      rw [← quoted_inj h2] at this
      exact absurd this (lt_not_mem_htmlEscape s)
    · rw [h1] at h2
      have := quoted_inj h2
      rw [← htmlEscape_withoutNul s, ← htmlEscape_withoutNul t] at this
      exact htmlEscape_inj (withoutNul_spec s) (withoutNul_spec t) this

/-- C31, part: different names without NUL bytes that both need quoting are escaped to different identifiers. Missing: names
with NUL bytes (`C31_nul_collides`). -/
theorem C31_distinct_partial (U : Unicode) {s t s' t' : Str} (hs : esc U s = some s') (ht : esc U t = some t')
    (hss : s' ≠ s) (htt : t' ≠ t) (h0s : 0 ∉ s) (h0t : 0 ∉ t) (hne : s ≠ t) : s' ≠ t' := by
  rintro rfl
  have := C31_collision U hs ht hss htt
  rw [withoutNul_of_not_mem h0s, withoutNul_of_not_mem h0t] at this
  exact hne this

/-- C31 for all names: two different names without NUL bytes have the same escaped form only if one of them is already the
escaped form of the other. -/
theorem C31_only_own_form (U : Unicode) {s t r : Str} (hs : esc U s = some r) (ht : esc U t = some r)
    (h0s : 0 ∉ s) (h0t : 0 ∉ t) (hne : s ≠ t) : s = r ∨ t = r := by
  by_cases h1 : r = s
  · exact .inl h1.symm
  · by_cases h2 : r = t
    · exact .inr h2.symm
    · exact absurd rfl (C31_distinct_partial U hs ht h1 h2 h0s h0t hne)

/-- The unrestricted claim is false of the code: `#` followed by NUL and `#` followed by U+FFFD get the same form. -/
theorem C31_nul_collides (U : Unicode) :
    esc U [35, 0] = esc U [35, 0xEF, 0xBF, 0xBD] ∧ esc U [35, 0] = some [34, 35, 0xEF, 0xBF, 0xBD, 34] := by
  have h : ∀ x : Str, trimSpace (35 :: x) = 35 :: x → hasPrefix (35 :: x) [34] = false →
      esc U (35 :: x) = some ([34] ++ htmlEscape (35 :: x) ++ [34]) := by
    intro x ht hp
    have hid : isID U (35 :: x) = false := by simp [isID, runes_ascii (show 35 < 128 by decide), isLetter]
    have hnum : isNumber U (35 :: x) = false := by
      simp [isNumber, runes_ascii (show 35 < 128 by decide), isNumberFrom, isDigit]
    have hs : isStringLit (35 :: x) = some false := by simp [isStringLit, hp]
    unfold esc
    rw [if_neg (by simp)]
    simp [isHTML, ht, hid, hnum, hs]
  rw [h _ (by decide) (by decide), h _ (by decide) (by decide)]
  decide

example : esc noUni (b!"a b") = some (b!"\"a b\"") ∧ esc noUni (b!"a  b") = some (b!"\"a  b\"") := by decide +kernel

/-! ### C32 -/

theorem escAttrsFrom_spec (U : Unicode) {m m' : Map Str} {as : List (Str × Str)} (hm : MapWF m)
    (h : escAttrsFrom U m as = some m') : MapWF m' ∧ ∀ k' v', mget m' k' = some v' ↔
      (∃ pre k v post, as = pre ++ (k, v) :: post ∧ esc U k = some k' ∧ esc U v = some v' ∧ ∀ e ∈ post, esc U e.1 ≠ some k') ∨
      (mget m k' = some v' ∧ ∀ e ∈ as, esc U e.1 ≠ some k') := by
  induction as generalizing m with
  | nil => cases h; exact ⟨hm, fun k' v' => by simp⟩
  | cons e as ih =>
    obtain ⟨k, v⟩ := e
    simp only [escAttrsFrom] at h
    cases hk : esc U k with
    | none => rw [hk] at h; cases h
    | some k1 =>
      cases hv : esc U v with
      | none => rw [hk, hv] at h; cases h
      | some v1 =>
        rw [hk, hv] at h
        simp only [Option.bind_eq_bind, Option.bind_some] at h
        obtain ⟨hw, hg⟩ := ih (hm.mset k1 v1) h
        refine ⟨hw, fun k' v' => ?_⟩
        rw [hg]
        constructor
        · rintro (⟨pre, x, y, post, rfl, h1, h2, h3⟩ | ⟨h1, h2⟩)
          · exact .inl ⟨(k, v) :: pre, x, y, post, rfl, h1, h2, h3⟩
          · rw [mget_mset] at h1
            split at h1
            · rename_i hk1; subst hk1; cases h1
              exact .inl ⟨[], k, v, as, rfl, hk, hv, h2⟩
            · rename_i hk1
              refine .inr ⟨h1, fun e he => ?_⟩
              rcases List.mem_cons.1 he with rfl | he
              · rw [hk]; intro h'; cases h'; exact hk1 rfl
              · exact h2 e he
        · rintro (⟨pre, x, y, post, he, h1, h2, h3⟩ | ⟨h1, h2⟩)
          · cases pre with
            | nil =>
              cases he
              rw [hk] at h1; cases h1; rw [hv] at h2; cases h2
              exact .inr ⟨mget_mset_self _ _ _, h3⟩
            | cons e pre => cases he; exact .inl ⟨pre, x, y, post, rfl, h1, h2, h3⟩
          · refine .inr ⟨?_, fun e he => h2 e (by simp [he])⟩
            rw [mget_mset, if_neg, h1]
            rintro rfl
            exact h2 (k, v) (by simp) hk

theorem escAttrs_iff (U : Unicode) (as : List (Str × Str)) (as' : Map Str) :
    escAttrs U as = some as' ↔ EscapedMap (esc U) as as' := by
  have key : ∀ m, escAttrs U as = some m → EscapedMap (esc U) as m := by
    intro m h
    obtain ⟨hw, hg⟩ := escAttrsFrom_spec U MapWF.nil h
    refine ⟨?_, hw, fun k' v' => ?_⟩
    · intro s hs
      cases h' : esc U s with
      | some _ => rfl
      | none =>
        have := (escAttrsFrom_none U [] as).2 ⟨s, hs, h'⟩
        unfold escAttrs at h; rw [h] at this; cases this
    · rw [mem_iff_mget hw, hg]; simp [mget]
  constructor
  · exact key as'
  · rintro ⟨h0, h1, h2⟩
    cases h : escAttrs U as with
    | none =>
      obtain ⟨s, hs, h'⟩ := (escAttrsFrom_none U [] as).1 h
      have := h0 s hs; rw [h'] at this; cases this
    | some m =>
      obtain ⟨_, g1, g2⟩ := key m h
      congr 1
      apply Map.ext g1 h1
      intro k
      have hsome : ∀ v, mget m k = some v ↔ mget as' k = some v := by
        intro v; rw [← mem_iff_mget g1, ← mem_iff_mget h1, g2, h2]
      cases hx : mget m k with
      | some v => exact ((hsome v).1 hx).symm
      | none =>
        cases hy : mget as' k with
        | none => rfl
        | some v => rw [(hsome v).2 hy] at hx; cases hx

theorem escStep_iff (U : Unicode) (g : Graph) (op : Op) (r : Graph × Option Err) :
    escStep U g op = some r ↔ ∃ op', EscapedCall (esc U) op op' ∧ g.step op' = r := by
  have three : ∀ (x y : Str) (as : List (Str × Str)) (f : Str → Str → Map Str → Op) (k : Str → Str → Map Str → Graph × Option Err)
      (hk : ∀ a b m, k a b m = g.step (f a b m)),
      ((do let a ← esc U x; let b ← esc U y; let m ← escAttrs U as; return k a b m) = some r ↔
        ∃ op', (∃ x' y' as', esc U x = some x' ∧ esc U y = some y' ∧ EscapedMap (esc U) as as' ∧ op' = f x' y' as') ∧ g.step op' = r) := by
    intro x y as f k hk
    simp only [← escAttrs_iff, Option.bind_eq_bind, Option.bind_eq_some_iff, Option.pure_def, Option.some.injEq]
    constructor
    · rintro ⟨a, ha, b, hb, m, hm, rfl⟩
      exact ⟨_, ⟨a, b, m, ha, hb, hm, rfl⟩, (hk a b m).symm⟩
    · rintro ⟨_, ⟨a, b, m, ha, hb, hm, rfl⟩, h⟩
      exact ⟨a, ha, b, hb, m, hm, (hk a b m).trans h⟩
  cases op with
  | setName n =>
    simp only [escStep, escSetName, EscapedCall, Option.bind_eq_bind, Option.bind_eq_some_iff, Option.pure_def, Option.some.injEq]
    constructor
    · rintro ⟨a, ha, rfl⟩; exact ⟨_, ⟨a, ha, rfl⟩, rfl⟩
    · rintro ⟨_, ⟨a, ha, rfl⟩, rfl⟩; exact ⟨a, ha, rfl⟩
  | addPortEdge s sp d dp dir as =>
    exact three s d as (fun a b m => .addPortEdge a sp b dp dir m) (fun a b m => g.addPortEdge a sp b dp dir m) (fun _ _ _ => rfl)
  | addEdge s d dir as =>
    exact three s d as (fun a b m => .addEdge a b dir m) (fun a b m => g.addPortEdge a [] b [] dir m) (fun _ _ _ => rfl)
  | addNode p n as => exact three p n as (fun a b m => .addNode a b m) (fun a b m => g.addNode a b m) (fun _ _ _ => rfl)
  | addSubGraph p n as =>
    exact three p n as (fun a b m => .addSubGraph a b m) (fun a b m => g.addSubGraph a b m) (fun _ _ _ => rfl)
  | addAttr p f v =>
    simp only [escStep, escAddAttr, EscapedCall, Option.bind_eq_bind, Option.bind_eq_some_iff, Option.pure_def, Option.some.injEq]
    constructor
    · rintro ⟨a, ha, b, hb, c, hc, rfl⟩; exact ⟨_, ⟨a, b, c, ha, hb, hc, rfl⟩, rfl⟩
    · rintro ⟨_, ⟨a, b, c, ha, hb, hc, rfl⟩, rfl⟩; exact ⟨a, ha, b, hb, c, hc, rfl⟩
  | setStrict b => simp [escStep, EscapedCall, Graph.step]
  | setDir b => simp [escStep, EscapedCall, Graph.step]
  | removeNode p n => simp [escStep, EscapedCall, Graph.step]
  | removeSubGraph p n o => simp [escStep, EscapedCall, Graph.step]

/-- C32, first sentence. A history of `Escape` calls ends normally with the graph `g'` and the errors `errs` exactly if the
same calls with escaped arguments give this graph and these errors on `Graph`. -/
theorem C32_escape_is_graph (U : Unicode) (g g' : Graph) (ops : List Op) (errs : List (Option Err)) :
    escRun U g ops = some (g', errs) ↔
      ∃ ops', Forall2 (EscapedCall (esc U)) ops ops' ∧ g.run ops' = g' ∧ g.runErrs ops' = errs := by
  induction ops generalizing g errs with
  | nil =>
    simp only [escRun, Option.some.injEq, Prod.mk.injEq]
    constructor
    · rintro ⟨rfl, rfl⟩; exact ⟨[], .nil, rfl, rfl⟩
    · rintro ⟨ops', h, rfl, rfl⟩; cases h; exact ⟨rfl, rfl⟩
  | cons op ops ih =>
    simp only [escRun]
    constructor
    · intro h
      split at h
      · cases h
      · rename_i g1 e hs
        obtain ⟨op', ho, hst⟩ := (escStep_iff U g op _).1 hs
        cases hr : escRun U g1 ops with
        | none => rw [hr] at h; cases h
        | some r =>
          rw [hr] at h
          simp only [Option.map_some, Option.some.injEq, Prod.mk.injEq] at h
          obtain ⟨rfl, rfl⟩ := h
          obtain ⟨ops', h1, h2, h3⟩ := (ih g1 r.2).1 hr
          refine ⟨op' :: ops', .cons ho h1, ?_, ?_⟩
          · simp only [Graph.run, hst, h2]
          · simp only [Graph.runErrs, hst, h3]
    · rintro ⟨ops', h, rfl, rfl⟩
      cases h with
      | cons ho h1 =>
        rename_i op' ops'
        have hs := (escStep_iff U g op _).2 ⟨op', ho, rfl⟩
        rw [hs]
        have hr := (ih (g.step op').1 _).2 ⟨ops', h1, rfl, rfl⟩
        simp only [hr, Option.map_some, Graph.run, Graph.runErrs]

/-- The graphs that histories of `Escape` calls build are graphs that `Graph` calls build, so everything proved about reachable
graphs holds for them. -/
theorem C32_reachable (U : Unicode) {g g' : Graph} (hg : Reachable g) {op : Op} (hop : op.Ok g) {e : Option Err}
    (h : escStep U g op = some (g', e)) : Reachable g' := by
  obtain ⟨op', ho, hs⟩ := (escStep_iff U g op _).1 h
  have : Reachable (g.step op').1 := by
    refine .step op' hg ?_
    have hnd : ∀ as as', EscapedMap (esc U) as as' → (as'.map Prod.fst).Nodup := fun as as' hm => MapWF.nodup hm.2.1
    cases op with
    | setName n => obtain ⟨n', _, rfl⟩ := ho; exact trivial
    | addPortEdge s sp d dp dir as => obtain ⟨_, _, as', _, _, hm, rfl⟩ := ho; exact hnd as as' hm
    | addEdge s d dir as => obtain ⟨_, _, as', _, _, hm, rfl⟩ := ho; exact hnd as as' hm
    | addNode p n as => obtain ⟨_, _, as', _, _, hm, rfl⟩ := ho; exact hnd as as' hm
    | addSubGraph p n as => obtain ⟨_, _, as', _, _, hm, rfl⟩ := ho; exact hnd as as' hm
    | addAttr p f v => obtain ⟨_, _, _, _, _, _, rfl⟩ := ho; exact trivial
    | setStrict b => cases ho; exact hop
    | setDir b => cases ho; exact hop
    | removeNode p n => cases ho; exact hop
    | removeSubGraph p n o => cases ho; exact hop
  rw [hs] at this; exact this

/-- C32, second sentence, nodes: after a successful `AddNode` for a name, `IsNode` of the same unescaped name is true; another
name is a node exactly if it was one before or has the same escaped form. -/
theorem C32_isNode (U : Unicode) {g g' : Graph} {p n : Str} {as : List (Str × Str)}
    (h : escStep U g (.addNode p n as) = some (g', none)) :
    escIsNode U g' n = some true ∧
    ∀ m b, escIsNode U g m = some b → escIsNode U g' m = some (b || decide (esc U m = esc U n)) := by
  obtain ⟨op', ⟨p', n', as', hp, hn, hm, rfl⟩, hs⟩ := (escStep_iff U g _ _).1 h
  have hg : ∀ x, g'.isNode x = (decide (n' = x) || g.isNode x) := by
    intro x
    simp only [Graph.step, Graph.addNode] at hs
    split at hs
    · cases hs
    · rename_i at' _
      cases hs
      simp only [Graph.isNode, Nodes.add]
      split
      · rename_i q hq
        show mhas g.nodes.lookup x = _
        by_cases hx : n' = x
        · subst hx
          have : mhas g.nodes.lookup n' = true := by rw [mhas_iff_mget]; exact ⟨_, hq⟩
          simp [this]
        · simp [hx]
      · simp only [mhas_mset]
  constructor
  · simp only [escIsNode, hn, Option.bind_eq_bind, Option.bind_some, Option.pure_def, hg]
    simp
  · intro m b hb
    cases hm' : esc U m with
    | none => simp [escIsNode, hm'] at hb
    | some m' =>
      simp only [escIsNode, hm', Option.bind_eq_bind, Option.bind_some, Option.pure_def, Option.some.injEq] at hb ⊢
      rw [hg, hb, hn, Bool.or_comm]
      congr 1
      simp [eq_comm]

/-- C32, second sentence, subgraphs (also if `AddSubGraph` reports an invalid attribute). -/
theorem C32_isSubGraph (U : Unicode) {g g' : Graph} {p n : Str} {as : List (Str × Str)} {e : Option Err}
    (h : escStep U g (.addSubGraph p n as) = some (g', e)) :
    escIsSubGraph U g' n = some true ∧
    ∀ m b, escIsSubGraph U g m = some b → escIsSubGraph U g' m = some (b || decide (esc U m = esc U n)) := by
  obtain ⟨op', ⟨p', n', as', hp, hn, hm, rfl⟩, hs⟩ := (escStep_iff U g _ _).1 h
  have hattrs : ∀ (as : List (Str × Str)) (g0 : Graph) (x t : Str), (g0.addAttrs t as).1.isSubGraph x = g0.isSubGraph x := by
    intro as
    induction as with
    | nil => intro g0 x t; rfl
    | cons kv as ih =>
      intro g0 x t
      obtain ⟨k, v⟩ := kv
      have h1 : (g0.addAttr t k v).1.isSubGraph x = g0.isSubGraph x := by
        unfold Graph.addAttr
        split
        · split <;> rfl
        · split
          · rfl
          · rename_i sub hsub
            split
            · rfl
            · simp only [Graph.isSubGraph, mhas_mset]
              by_cases hx : t = x
              · subst hx
                have : mhas g0.subGraphs t = true := by rw [mhas_iff_mget]; exact ⟨_, hsub⟩
                simp [this]
              · simp [hx]
      simp only [Graph.addAttrs]
      split
      · rename_i g1 e1 hq; rw [hq] at h1; exact h1
      · rename_i g1 hq; rw [hq] at h1; rw [ih]; exact h1
  have hg : ∀ x, g'.isSubGraph x = (decide (n' = x) || g.isSubGraph x) := by
    intro x
    simp only [Graph.step, Graph.addSubGraph] at hs
    have := hattrs as' { g with relations := g.relations.add p' n', subGraphs := subGraphsAdd g.subGraphs n' } x n'
    rw [hs] at this
    rw [this]
    simp only [Graph.isSubGraph, subGraphsAdd]
    split
    · rename_i hq
      by_cases hx : n' = x
      · subst hx; simp [hq]
      · simp [hx]
    · simp only [mhas_mset]
  constructor
  · simp only [escIsSubGraph, hn, Option.bind_eq_bind, Option.bind_some, Option.pure_def, hg]
    simp
  · intro m b hb
    cases hm' : esc U m with
    | none => simp [escIsSubGraph, hm'] at hb
    | some m' =>
      simp only [escIsSubGraph, hm', Option.bind_eq_bind, Option.bind_some, Option.pure_def, Option.some.injEq] at hb ⊢
      rw [hg, hb, hn, Bool.or_comm]
      congr 1
      simp [eq_comm]

/-- A history with names that need escaping. -/
def escHistory : List Op :=
  [.setName (b!"my graph"), .setDir true, .addSubGraph (b!"my graph") (b!"cluster one") [(b!"label", b!"1 + 1")],
   .addNode (b!"cluster one") (b!"a b") [(b!"color", b!"red")], .addNode (b!"my graph") (b!"c") [(b!"bad key", b!"x")],
   .addPortEdge (b!"a b") (b!"p") (b!"c") [] true []]

example : ((escRun noUni newGraph escHistory).map fun r => (r.1.name, r.1.nodes.list.length, r.2)) =
    some (b!"\"my graph\"", 1, [none, none, none, none, some (.invalidAttr (b!"\"bad key\"")), none]) := by decide +kernel

end Gographviz.Props
