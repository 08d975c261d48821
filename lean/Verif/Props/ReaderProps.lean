import Verif.Spec.Reading
import Verif.Props.ParseProps
/-!
C75: parsing a reader or a file is parsing the bytes it holds, however they are delivered.
-/
namespace Gographviz.Props

open Gographviz Gographviz.Parse Spec

theorem readAll_delivers {grow : Nat → Nat} {c : Str} {rs : List Reply} (h : Delivers c rs) : ∀ (cap : Nat) (b : Str), Honest (readAll grow cap b rs).2 →
    (readAll grow cap b rs).1 = .ret (b ++ c) none := by
  induction h with
  | last d more =>
    intro cap b hh
    unfold readAll at hh ⊢
    by_cases hd : d.length > cap - b.length
    · rw [if_pos hd] at hh
      exact absurd (hh _ _ _ (List.mem_singleton.2 rfl)) (by omega)
    · rw [if_neg hd]
  | piece d c rs _ ih =>
    intro cap b hh
    unfold readAll at hh ⊢
    by_cases hd : d.length > cap - b.length
    · rw [if_pos hd] at hh
      exact absurd (hh _ _ _ (List.mem_singleton.2 rfl)) (by omega)
    · rw [if_neg hd] at hh ⊢
      dsimp only at hh ⊢
      rw [ih _ _ (fun room d e hm => hh room d e (List.mem_cons_of_mem _ hm)), List.append_assoc]

theorem readAll_fails {grow : Nat → Nat} {m : Str} {rs : List Reply} (h : Fails m rs) : ∀ (cap : Nat) (b : Str), Honest (readAll grow cap b rs).2 →
    ∃ b', (readAll grow cap b rs).1 = .ret b' (some m) := by
  induction h with
  | now d m more =>
    intro cap b hh
    unfold readAll at hh ⊢
    by_cases hd : d.length > cap - b.length
    · rw [if_pos hd] at hh
      exact absurd (hh _ _ _ (List.mem_singleton.2 rfl)) (by omega)
    · rw [if_neg hd]
      exact ⟨_, rfl⟩
  | piece d m rs _ ih =>
    intro cap b hh
    unfold readAll at hh ⊢
    by_cases hd : d.length > cap - b.length
    · rw [if_pos hd] at hh
      exact absurd (hh _ _ _ (List.mem_singleton.2 rfl)) (by omega)
    · rw [if_neg hd] at hh ⊢
      dsimp only at hh ⊢
      exact ih _ _ (fun room d e hm => hh room d e (List.mem_cons_of_mem _ hm))

/-- What the events of `ReadAll` are: reads, each with room for at least one byte. -/
theorem readAll_events {grow : Nat → Nat} (hg : ∀ n, n < grow n) : ∀ (rs : List Reply) (cap : Nat) (b : Str), b.length < cap →
    ∀ ev ∈ (readAll grow cap b rs).2, ∃ room r, ev = .read room r ∧ 0 < room
  | [], _, _, _, _, h => nomatch h
  | (d, e) :: rs, cap, b, hb, ev, h => by
    unfold readAll at h
    by_cases hd : d.length > cap - b.length
    · rw [if_pos hd] at h
      cases List.mem_singleton.1 h
      exact ⟨_, _, rfl, by omega⟩
    · rw [if_neg hd] at h
      have key : ev = .read (cap - b.length) (d, e) ∨ ev ∈ (readAll grow (if (b ++ d).length = cap then grow cap else cap) (b ++ d) rs).2 := by
        match e, h with
        | some .eof, h => exact .inl (List.mem_singleton.1 h)
        | some (.other m), h => exact .inl (List.mem_singleton.1 h)
        | none, h => exact List.mem_cons.1 h
      rcases key with h | h
      · exact ⟨_, _, h, by omega⟩
      · refine readAll_events hg rs _ _ ?_ ev h
        have hl : (b ++ d).length = b.length + d.length := List.length_append
        have := hg cap
        split <;> omega

/-- **C75** `Parse` of a reader that keeps to the contract and delivers `c`, in whatever pieces, is `ParseBytes` of `c`. -/
theorem C75_reader {rnd : Nat → Nat} {cnt : Nat} {grow : Nat → Nat} {c : Str} {script : List Reply} (h : Delivers c script)
    (hh : Honest (parseReader rnd cnt grow script).2) : (parseReader rnd cnt grow script).1 = .parsed (parseBytes rnd cnt c) := by
  have h2 : (parseReader rnd cnt grow script).2 = (readAll grow 512 [] script).2 := by
    unfold parseReader
    split <;> simp_all
  rw [h2] at hh
  have h1 := readAll_delivers h 512 [] hh
  unfold parseReader
  split <;> simp_all

/-- A reader that fails: its error is returned, and no tree. -/
theorem C75_reader_error {rnd : Nat → Nat} {cnt : Nat} {grow : Nat → Nat} {m : Str} {script : List Reply} (h : Fails m script)
    (hh : Honest (parseReader rnd cnt grow script).2) : (parseReader rnd cnt grow script).1 = .ioErr m := by
  have h2 : (parseReader rnd cnt grow script).2 = (readAll grow 512 [] script).2 := by
    unfold parseReader
    split <;> simp_all
  rw [h2] at hh
  obtain ⟨b', h1⟩ := readAll_fails h 512 [] hh
  unfold parseReader
  split <;> simp_all

/-- The reader is never asked to read into an empty buffer (which a reader may answer with nothing for ever). -/
theorem C75_room {rnd : Nat → Nat} {cnt : Nat} {grow : Nat → Nat} (hg : ∀ n, n < grow n) (script : List Reply) :
    ∀ ev ∈ (parseReader rnd cnt grow script).2, ∃ room r, ev = .read room r ∧ 0 < room := by
  have h2 : (parseReader rnd cnt grow script).2 = (readAll grow 512 [] script).2 := by
    unfold parseReader
    split <;> simp_all
  rw [h2]
  exact readAll_events hg script 512 [] (Nat.zero_lt_succ _)

/-- `ParseFile`: if the file cannot be opened, that error is returned and nothing else happens. -/
theorem C75_open_error (rnd : Nat → Nat) (cnt : Nat) (grow : Nat → Nat) (m : Str) (script : List Reply) (closeErr : Option Str) :
    parseFile rnd cnt grow (some m) script closeErr = (.ioErr m, [.opened (some m)]) := rfl

/-- The outcome of `ParseFile` on a file that can be opened and holds `c`: the error of `Close` if there is one, otherwise what `ParseBytes` says about `c`. -/
theorem C75_file {rnd : Nat → Nat} {cnt : Nat} {grow : Nat → Nat} {c : Str} {script : List Reply} {closeErr : Option Str} (h : Delivers c script)
    (hh : Honest (parseReader rnd cnt grow script).2) :
    (parseFile rnd cnt grow none script closeErr).1 = match closeErr with
      | some m => .ioErr m
      | none => .parsed (parseBytes rnd cnt c) := by
  have h1 := C75_reader h hh
  unfold parseFile
  dsimp only
  split <;> rename_i h3 <;> rw [h3] at h1 <;> dsimp only at h1
  · exact nomatch h1
  · exact nomatch h1
  · rw [h1]; cases closeErr <;> rfl

/-- If reading fails, the error of `Close` if there is one, otherwise that of the reader. -/
theorem C75_file_error {rnd : Nat → Nat} {cnt : Nat} {grow : Nat → Nat} {m : Str} {script : List Reply} {closeErr : Option Str} (h : Fails m script)
    (hh : Honest (parseReader rnd cnt grow script).2) :
    (parseFile rnd cnt grow none script closeErr).1 = .ioErr (closeErr.getD m) := by
  have h1 := C75_reader_error h hh
  unfold parseFile
  dsimp only
  split <;> rename_i h3 <;> rw [h3] at h1 <;> dsimp only at h1
  · exact nomatch h1
  · exact nomatch h1
  · rw [h1]; cases closeErr <;> rfl

/-- Whenever `ParseFile` returns after opening the file, it has closed it, once, after all reads and as the last thing, whether or not reading and parsing succeeded. -/
theorem C75_closed {rnd : Nat → Nat} {cnt : Nat} {grow : Nat → Nat} {script : List Reply} {closeErr : Option Str} {r : FileRes} {evs : List FileEv}
    (h : parseFile rnd cnt grow none script closeErr = (r, evs)) (hr : (∃ m, r = .ioErr m) ∨ (∃ x, r = .parsed x)) :
    ∃ reads, evs = .opened none :: reads ++ [.closed closeErr] ∧ ∀ ev ∈ reads, ∃ room a, ev = .read room a := by
  have hev : ∀ ev ∈ (parseReader rnd cnt grow script).2, ∃ room a, ev = .read room a := by
    have h2 : (parseReader rnd cnt grow script).2 = (readAll grow 512 [] script).2 := by
      unfold parseReader
      split <;> simp_all
    rw [h2]
    have : ∀ (rs : List Reply) (cap : Nat) (b : Str), ∀ ev ∈ (readAll grow cap b rs).2, ∃ room a, ev = .read room a := by
      intro rs
      induction rs with
      | nil => intro cap b ev h; exact nomatch h
      | cons x rs ih =>
        obtain ⟨d, e⟩ := x
        intro cap b ev h
        unfold readAll at h
        by_cases hd : d.length > cap - b.length
        · rw [if_pos hd] at h
          exact ⟨_, _, List.mem_singleton.1 h⟩
        · rw [if_neg hd] at h
          match e, h with
          | some .eof, h => exact ⟨_, _, List.mem_singleton.1 h⟩
          | some (.other m), h => exact ⟨_, _, List.mem_singleton.1 h⟩
          | none, h =>
            rcases List.mem_cons.1 h with h | h
            · exact ⟨_, _, h⟩
            · exact ih _ _ ev h
    exact this script 512 []
  unfold parseFile at h
  dsimp only at h
  split at h <;> rename_i h3 <;> rw [h3] at hev
  · cases h; rcases hr with ⟨m, h⟩ | ⟨x, h⟩ <;> exact nomatch h
  · cases h; rcases hr with ⟨m, h⟩ | ⟨x, h⟩ <;> exact nomatch h
  · cases closeErr <;> cases h <;> exact ⟨_, rfl, hev⟩

/-- Two ways to deliver the same 16 bytes, at once and in pieces, and a failing reader. -/
theorem example_reader :
    let c := b!"graph { a -- b }"
    Delivers c [(c, some .eof)] ∧ Delivers c [(b!"graph", none), ([], none), (b!" { a -- b }", none), ([], some .eof)] ∧
    Honest (parseReader id 0 (2 * · + 1) [(b!"graph", none), ([], none), (b!" { a -- b }", none), ([], some .eof)]).2 ∧
    Fails (b!"disk") [(b!"graph", none), ([], some (.other (b!"disk")))] ∧
    (∃ g n, (parseReader id 0 (2 * · + 1) [(b!"graph", none), ([], none), (b!" { a -- b }", none), ([], some .eof)]).1 = .parsed (.ok g n)) := by
  intro c
  have h : Delivers c [(b!"graph", none), ([], none), (b!" { a -- b }", none), ([], some .eof)] :=
    .piece (b!"graph") (b!" { a -- b }") _ (.piece [] (b!" { a -- b }") _ (.piece (b!" { a -- b }") [] _ (.last [] [])))
  have hh : Honest (parseReader id 0 (2 * · + 1) [(b!"graph", none), ([], none), (b!" { a -- b }", none), ([], some .eof)]).2 := by
    intro room d e hm
    have : (parseReader id 0 (2 * · + 1) [(b!"graph", none), ([], none), (b!" { a -- b }", none), ([], some .eof)]).2 =
      [.read 512 (b!"graph", none), .read 507 ([], none), .read 507 (b!" { a -- b }", none), .read 496 ([], some .eof)] := by
      unfold parseReader
      rfl
    rw [this] at hm
    simp only [List.mem_cons, FileEv.read.injEq, Prod.mk.injEq, List.not_mem_nil, or_false] at hm
    rcases hm with ⟨rfl, rfl, _⟩ | ⟨rfl, rfl, _⟩ | ⟨rfl, rfl, _⟩ | ⟨rfl, rfl, _⟩ <;> decide
  refine ⟨.last _ _, h, hh, .piece _ _ _ (.now _ _ _), ?_⟩
  rw [C75_reader h hh]
  have : (match parseBytes id 0 c with | .ok _ _ => true | _ => false) = true := by decide +kernel
  split at this
  · rename_i g n he; exact ⟨g, n, by rw [he]⟩
  · cases this

end Gographviz.Props
