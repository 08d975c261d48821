import Verif.Model.ParserMem
import Verif.Proofs.Slices
/-! Lemmas about the parser with its memory. -/
namespace Gographviz.ParseMem
open Gographviz Gographviz.Lex Gographviz.Ast Gographviz.Parse Gographviz.Slices

/-! ### Lists of options -/

theorem each_mono {α β : Type} {f g : α → Option β} : ∀ {l : List α} {r : List β}, (∀ x y, f x = some y → g x = some y) → each f l = some r →
    each g l = some r
  | [], _, _, h => h
  | x :: xs, r, hfg, h => by
    unfold each at h ⊢
    cases hx : f x with
    | none => rw [hx] at h; cases h
    | some y => cases hxs : each f xs with
      | none => rw [hx, hxs] at h; cases h
      | some ys =>
        rw [hx, hxs] at h
        rw [hfg x y hx, each_mono hfg hxs]
        exact h

theorem each_snoc {α β : Type} {f : α → Option β} {x : α} {y : β} (hx : f x = some y) : ∀ {l : List α} {r : List β}, each f l = some r →
    each f (l ++ [x]) = some (r ++ [y])
  | [], r, h => by cases h; simp [each, hx]
  | z :: zs, r, h => by
    simp only [each] at h
    cases hz : f z with
    | none => rw [hz] at h; cases h
    | some w => cases hzs : each f zs with
      | none => rw [hz, hzs] at h; cases h
      | some ws =>
        rw [hz, hzs] at h
        cases h
        simp [each, hz, each_snoc hx hzs]

theorem each_id_map {α : Type} : ∀ l : List α, each id (l.map some) = some l
  | [] => rfl
  | x :: xs => by simp [each, each_id_map xs]

theorem each_id {α : Type} : ∀ {l : List (Option α)} {r : List α}, each id l = some r → l = r.map some
  | [], _, h => by cases h; rfl
  | x :: xs, r, h => by
    simp only [each, id] at h
    cases x with
    | none => cases h
    | some x => cases hxs : each id xs with
      | none => rw [hxs] at h; cases h
      | some ys => rw [hxs] at h; cases h; rw [each_id hxs]; rfl

/-! ### Memory that only gains -/

/-- No cell that has been written changes, no array changes its size. -/
def Grows (h h' : Heap) : Prop := ∀ (A : Nat) (a : List (Option Cell)), h[A]? = some a → ∃ a' : List (Option Cell), h'[A]? = some a' ∧ a'.length = a.length ∧
  ∀ (i : Nat) (c : Cell), a[i]? = some (some c) → a'[i]? = some (some c)

theorem Grows.refl (h : Heap) : Grows h h := fun _ a ha => ⟨a, ha, rfl, fun _ _ hc => hc⟩

theorem Grows.trans {h h' h'' : Heap} (g : Grows h h') (g' : Grows h' h'') : Grows h h'' := fun A a ha => by
  obtain ⟨a', ha', hl, hc⟩ := g A a ha
  obtain ⟨a'', ha'', hl', hc'⟩ := g' A a' ha'
  exact ⟨a'', ha'', hl'.trans hl, fun i c h => hc' i c (hc i c h)⟩

theorem look_iff {h : Heap} {s : Slice} {l : List Cell} : look h s = some l ↔ view h s = l.map some ∧ s.len = l.length := by
  unfold look
  constructor
  · intro e
    split at e
    · rename_i hl
      have := each_id e
      exact ⟨this, by rw [← hl, this]; simp⟩
    · cases e
  · rintro ⟨e, hl⟩
    rw [e, if_pos (by simp [hl]), each_id_map]

theorem Grows.look {h h' : Heap} (g : Grows h h') {s : Slice} {l : List Cell} (e : look h s = some l) : look h' s = some l := by
  obtain ⟨hv, hl⟩ := look_iff.1 e
  refine look_iff.2 ⟨?_, hl⟩
  rw [← hv]
  unfold view at hv ⊢
  cases ha : h[s.arr]? with
  | none =>
    rw [ha] at hv
    have hl0 : l = [] := by cases l with
      | nil => rfl
      | cons x xs => simp at hv
    subst hl0
    simp at hl
    simp [hl]
  | some a =>
    obtain ⟨a', ha', hlen, hc⟩ := g _ _ ha
    rw [ha] at hv
    simp only [ha', Option.getD_some] at hv ⊢
    apply List.ext_getElem?
    intro i
    simp only [List.getElem?_take]
    split
    · rename_i hi
      have h1 := congrArg (·[i]?) hv
      simp only [List.getElem?_take, if_pos hi, List.getElem?_map] at h1
      have : i < l.length := by omega
      rw [List.getElem?_eq_getElem this] at h1
      simp only [Option.map_some] at h1
      rw [hc i _ h1, h1]
    · rfl

theorem rep_look {h : Heap} {s : Slice} {l : List Cell} (r : Rep h s l) : look h s = some l := look_iff.2 ⟨r.view, r.len⟩

/-! ### Looking at more memory, or deeper -/

section
variable {h h' : Heap} (g : Grows h h')
include g

theorem Grows.alist {s : Slice} {r : AList} (e : seeAList h s = some r) : seeAList h' s = some r := by
  unfold seeAList at e ⊢
  cases hl : ParseMem.look h s with
  | none => rw [hl] at e; cases e
  | some l => rw [hl] at e; rw [g.look hl]; exact e

theorem Grows.attrList {s : Slice} {r : AttrList} (e : seeAttrList h s = some r) : seeAttrList h' s = some r := by
  unfold seeAttrList at e ⊢
  cases hl : ParseMem.look h s with
  | none => rw [hl] at e; cases e
  | some l =>
    rw [hl] at e; rw [g.look hl]
    refine each_mono (fun x y hx => ?_) e
    cases x <;> first | exact g.alist hx | cases hx

variable {f f' : Slice → Option (List Stmt)} (hf : ∀ s r, f s = some r → f' s = some r)

omit g in
include hf in
theorem seeLoc_mono {l : MLoc} {r : Loc} (e : seeLoc f l = some r) : seeLoc f' l = some r := by
  cases l with
  | node n => exact e
  | sub id body =>
    simp only [seeLoc, Option.map_eq_some_iff] at e ⊢
    obtain ⟨ss, h1, h2⟩ := e
    exact ⟨ss, hf _ _ h1, h2⟩

omit g in
include hf in
theorem cellRH_mono {c : Cell} {r : EdgeRH} (e : cellRH f c = some r) : cellRH f' c = some r := by
  cases c with
  | rh op dst =>
    simp only [cellRH, Option.map_eq_some_iff] at e ⊢
    obtain ⟨l, h1, h2⟩ := e
    exact ⟨l, seeLoc_mono hf h1, h2⟩
  | _ => cases e

include hf in
theorem Grows.rhs {s : Slice} {r : List EdgeRH} (e : seeRHS h f s = some r) : seeRHS h' f' s = some r := by
  unfold seeRHS at e ⊢
  cases hl : ParseMem.look h s with
  | none => rw [hl] at e; cases e
  | some l =>
    rw [hl] at e; rw [g.look hl]
    exact each_mono (fun x y hx => cellRH_mono hf hx) e

include hf in
theorem Grows.stmt {s : MStmt} {r : Stmt} (e : seeStmt h f s = some r) : seeStmt h' f' s = some r := by
  cases s with
  | node n as =>
    simp only [seeStmt, Option.map_eq_some_iff] at e ⊢
    obtain ⟨l, h1, h2⟩ := e
    exact ⟨l, g.attrList h1, h2⟩
  | edge src rhs as =>
    simp only [seeStmt] at e ⊢
    cases h1 : seeLoc f src with
    | none => rw [h1] at e; cases e
    | some l => cases h2 : seeRHS h f rhs with
      | none => rw [h1, h2] at e; cases e
      | some r => cases h3 : seeAttrList h as with
        | none => rw [h1, h2, h3] at e; cases e
        | some a => rw [h1, h2, h3] at e; rw [seeLoc_mono hf h1, g.rhs hf h2, g.attrList h3]; exact e
  | nodeAttrs as | edgeAttrs as | graphAttrs as =>
    simp only [seeStmt, Option.map_eq_some_iff] at e ⊢
    obtain ⟨l, h1, h2⟩ := e
    exact ⟨l, g.attrList h1, h2⟩
  | sub id body =>
    simp only [seeStmt, Option.map_eq_some_iff] at e ⊢
    obtain ⟨l, h1, h2⟩ := e
    exact ⟨l, hf _ _ h1, h2⟩
  | attr a => exact e

include hf in
theorem Grows.cellStmt {c : Cell} {r : Stmt} (e : cellStmt h f c = some r) : cellStmt h' f' c = some r := by
  cases c with
  | stmt s => exact g.stmt hf e
  | _ => cases e

omit hf in
theorem Grows.stmts : ∀ {n n' : Nat} {s : Slice} {r : List Stmt}, n ≤ n' → seeStmts h n s = some r → seeStmts h' n' s = some r
  | 0, _, _, _, _, e => by cases e
  | n + 1, 0, _, _, hn, _ => by omega
  | n + 1, n' + 1, s, r, hn, e => by
    unfold seeStmts at e ⊢
    cases hl : ParseMem.look h s with
    | none => rw [hl] at e; cases e
    | some l =>
      rw [hl] at e; rw [g.look hl]
      exact each_mono (fun x y hx => g.cellStmt (fun s r h => Grows.stmts (by omega) h) hx) e

end

/-! ### Values on the stack -/

/-- What a value on the stack is, as long as the buffer is `buf` and with at most `n` levels of subgraphs. -/
def seeAttrib (buf : Str) (h : Heap) (n : Nat) : MAttrib → Option Attrib
  | .nil => some .nil
  | .tok t => some (.tok (seeTok buf t))
  | .id s => some (.id s)
  | .port p => some (.port p)
  | .nodeId i => some (.nodeId i)
  | .stmt s => (seeStmt h (seeStmts h n) s).map .stmt
  | .sub id body => (seeStmts h n body).map (.sub id)
  | .attr a => some (.attr a)
  | .alist s => (seeAList h s).map .alist
  | .attrList s => (seeAttrList h s).map .attrList
  | .op d => some (.op d)
  | .rhs s => (seeRHS h (seeStmts h n) s).map .rhs
  | .stmts s => (seeStmts h n s).map .stmts
  | .graph g => (seeGraph h n g).map .graph

/-- The same without a bound. -/
def Sees (buf : Str) (h : Heap) (a : MAttrib) (b : Attrib) : Prop := ∃ n, seeAttrib buf h n a = some b

theorem Sees.mono {buf : Str} {h h' : Heap} {a : MAttrib} {b : Attrib} (g : Grows h h') (e : Sees buf h a b) : Sees buf h' a b := by
  obtain ⟨n, e⟩ := e
  refine ⟨n, ?_⟩
  have hf : ∀ s r, seeStmts h n s = some r → seeStmts h' n s = some r := fun s r e => g.stmts (Nat.le_refl _) e
  cases a with
  | stmt s => simp only [seeAttrib, Option.map_eq_some_iff] at e ⊢; obtain ⟨x, h1, h2⟩ := e; exact ⟨x, g.stmt hf h1, h2⟩
  | sub id s => simp only [seeAttrib, Option.map_eq_some_iff] at e ⊢; obtain ⟨x, h1, h2⟩ := e; exact ⟨x, hf _ _ h1, h2⟩
  | stmts s => simp only [seeAttrib, Option.map_eq_some_iff] at e ⊢; obtain ⟨x, h1, h2⟩ := e; exact ⟨x, hf _ _ h1, h2⟩
  | alist s => simp only [seeAttrib, Option.map_eq_some_iff] at e ⊢; obtain ⟨x, h1, h2⟩ := e; exact ⟨x, g.alist h1, h2⟩
  | attrList s => simp only [seeAttrib, Option.map_eq_some_iff] at e ⊢; obtain ⟨x, h1, h2⟩ := e; exact ⟨x, g.attrList h1, h2⟩
  | rhs s => simp only [seeAttrib, Option.map_eq_some_iff] at e ⊢; obtain ⟨x, h1, h2⟩ := e; exact ⟨x, g.rhs hf h1, h2⟩
  | graph s =>
    simp only [seeAttrib, seeGraph, Option.map_eq_some_iff] at e ⊢
    obtain ⟨x, ⟨y, h1, h3⟩, h2⟩ := e
    exact ⟨x, ⟨y, hf _ _ h1, h3⟩, h2⟩
  | _ => exact e

/-- The list that a value on the stack is, which a later action may extend. -/
def own : MAttrib → Option Slice
  | .stmts s => some s
  | .alist s => some s
  | .attrList s => some s
  | .rhs s => some s
  | _ => none

/-- No cell after the end of the slice has been written. -/
structure Full (h : Heap) (s : Slice) : Prop where
  rep : ∃ l, Rep h s l
  tail : ∀ (a : List (Option Cell)) (i : Nat) (c : Cell), h[s.arr]? = some a → s.len ≤ i → a[i]? ≠ some (some c)

theorem Full.lt {h : Heap} {s : Slice} (f : Full h s) : s.arr < h.length := by
  obtain ⟨l, r⟩ := f.rep
  exact r.lt

/-- A change of memory that leaves the array `t` alone. -/
theorem Full.frame {h h' : Heap} {t : Slice} (f : Full h t) (e : h'[t.arr]? = h[t.arr]?) : Full h' t := by
  obtain ⟨l, r⟩ := f.rep
  refine ⟨⟨l, ⟨?_, r.len, r.cap, by rw [e]; exact r.arr⟩⟩, fun a i c ha => f.tail a i c (by rw [← e]; exact ha)⟩
  rw [← r.view]
  unfold view
  rw [e]

/-- A new array. -/
theorem alloc_grows (h : Heap) (x : List (Option Cell)) : Grows h (h ++ [x]) := fun A a ha => by
  refine ⟨a, ?_, rfl, fun _ _ hc => hc⟩
  rw [List.getElem?_append_left (List.getElem?_eq_some_iff.1 ha).1, ha]

theorem alloc_frame {h : Heap} {t : Slice} (f : Full h t) (x : List (Option Cell)) : Full (h ++ [x]) t :=
  f.frame (List.getElem?_append_left f.lt)

theorem make_full (h : Heap) : Full (make h).1 (make h).2 :=
  ⟨⟨[], rep_make h⟩, fun a i c ha _ => by simp only [make, List.getElem?_concat_length, Option.some.injEq] at ha; subst ha; simp⟩

theorem single_rep (h : Heap) (c : Cell) : Rep (single h c).1 (single h c).2 [c] := by
  refine ⟨?_, rfl, Nat.le_refl _, [some c], by simp [single], rfl⟩
  simp [single, view]

theorem single_full (h : Heap) (c : Cell) : Full (single h c).1 (single h c).2 :=
  ⟨⟨_, single_rep h c⟩, fun a i c' ha hi => by
    simp only [single, List.getElem?_concat_length, Option.some.injEq] at ha hi; subst ha
    rw [List.getElem?_eq_none (by simpa using hi)]; simp⟩

/-- `append` to a slice that covers all written cells of its array. -/
theorem append_full (grow : Growth) {h : Heap} {s : Slice} (f : Full h s) {l : List Cell} (hl : look h s = some l) (c : Cell) :
    Grows h (append grow h s [some c]).1 ∧ Rep (append grow h s [some c]).1 (append grow h s [some c]).2 (l ++ [c]) ∧
    Full (append grow h s [some c]).1 (append grow h s [some c]).2 ∧
    ∀ t : Slice, Full h t → s.arr ≠ t.arr → Full (append grow h s [some c]).1 t ∧ (append grow h s [some c]).2.arr ≠ t.arr := by
  obtain ⟨l', r⟩ := f.rep
  have : l' = l := by have := rep_look r; rw [hl] at this; exact (Option.some.inj this).symm
  subst this
  obtain ⟨h1, -, -, h4, h5⟩ := append_one grow r c
  obtain ⟨a, ha, hal⟩ := r.arr
  have hcap := r.cap
  unfold append at h1 h4 h5 ⊢
  by_cases hc : s.len + [some c].length ≤ s.cap
  · rw [if_pos hc] at h1 h4 h5 ⊢
    simp only [List.length_singleton] at hc h1 h4 h5 ⊢
    have hm : (h.modify s.arr (fun a => Slices.overwrite a s.len [some c]))[s.arr]? = some (Slices.overwrite a s.len [some c]) := by
      rw [List.getElem?_modify]; simp [ha]
    have hget : ∀ i, (Slices.overwrite a s.len [some c])[i]? = if i = s.len then some (some c) else a[i]? := by
      intro i
      unfold Slices.overwrite
      rw [List.append_assoc]
      by_cases h1 : i < s.len
      · rw [List.getElem?_append_left (by rw [List.length_take]; omega), List.getElem?_take, if_pos h1, if_neg (by omega)]
      · rw [List.getElem?_append_right (by rw [List.length_take]; omega), List.length_take, Nat.min_eq_left (by omega)]
        by_cases h2 : i = s.len
        · subst h2; simp
        · rw [if_neg h2, List.getElem?_append_right (by simp; omega), List.getElem?_drop]
          congr 1
          simp; omega
    refine ⟨?_, h1, ⟨⟨_, h1⟩, ?_⟩, ?_⟩
    · intro A b hb
      by_cases hA : s.arr = A
      · subst hA
        rw [ha] at hb; cases hb
        refine ⟨_, hm, overwrite_length _ _ _ (by simp; omega), fun i c' hi => ?_⟩
        rw [hget, if_neg]
        · exact hi
        · rintro rfl
          exact f.tail a _ c' ha (Nat.le_refl _) hi
      · exact ⟨b, by rw [List.getElem?_modify]; simp [hb, hA], rfl, fun _ _ h => h⟩
    · intro b i c' hb hi
      rw [hm] at hb; cases hb
      rw [hget, if_neg (by simp only at hi; omega)]
      exact f.tail a i c' ha (by simp only at hi; omega)
    · intro t ht hst
      refine ⟨ht.frame ?_, hst⟩
      rw [List.getElem?_modify]
      simp [hst]
  · rw [if_neg hc] at h1 h4 h5 ⊢
    simp only [List.length_singleton] at hc h1 h4 h5 ⊢
    refine ⟨alloc_grows _ _, h1, ⟨⟨_, h1⟩, ?_⟩, fun t ht hst => ⟨alloc_frame ht _, ?_⟩⟩
    · intro b i c' hb hi
      simp only [List.getElem?_concat_length, Option.some.injEq] at hb
      subst hb
      have hv : (view h s).length = s.len := by rw [r.view, List.length_map, r.len]
      simp only at hi
      rw [List.getElem?_append_right (by simp [hv]; omega), List.getElem?_replicate]
      split <;> simp
    · have := ht.lt
      omega

end Gographviz.ParseMem
