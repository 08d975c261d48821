import Verif.Proofs.Threads
import Verif.Model.WriteMem
import Verif.Proofs.GoMap
/-!
`WriteAst` with its memory accesses does what `Model/Write.lean` says, whatever other goroutines that keep to their own memory do meanwhile.
-/
namespace Gographviz.Threads

open Gographviz Gographviz.Heap
open Gographviz.Ast (Stmt)

variable {ι : Type} [DecidableEq ι] {α β : Type}

theorem Prog.bind_assoc {γ : Type} (p : Prog α) (f : α → Prog β) (g : β → Prog γ) : (p.bind f).bind g = p.bind fun a => (f a).bind g := by
  induction p with
  | ret r => cases r <;> rfl
  | read l k ih => simp only [Prog.bind]; congr 1; funext c; exact ih c
  | write l c k ih => simp only [Prog.bind]; congr 1
  | alloc c k ih => simp only [Prog.bind]; congr 1; funext n; exact ih n
  | order ks k ih => simp only [Prog.bind]; congr 1; funext l; exact ih l

/-- `W0` is there, and belongs to nobody. -/
def Sh (W0 : World) (s : GS ι) : Prop := ∀ l v, W0 l = some v → s.mem l = some v ∧ s.own l = none

/-- `i` owns the address, which holds `v`. -/
def Own (i : ι) (s : GS ι) (l : Loc) (v : Cell) : Prop := s.mem l = some v ∧ s.own l = some i

/-- Everything that `i` owned is as it was, but for `X`. -/
def Pres (i : ι) (X : Loc → Prop) (s s' : GS ι) : Prop := ∀ l v, Own i s l v → ¬ X l → Own i s' l v

omit [DecidableEq ι] in
theorem Sh.keep {W0 : World} {i : ι} {s s1 : GS ι} (h : Sh W0 s) (hk : Keep i s s1) : Sh W0 s1 := by
  intro l v hv
  obtain ⟨h1, h2⟩ := h l v hv
  obtain ⟨h3, h4⟩ := hk l v h1 (.inl h2)
  exact ⟨h3, h4.trans h2⟩

omit [DecidableEq ι] in
theorem Own.keep {i : ι} {s s1 : GS ι} {l : Loc} {v : Cell} (h : Own i s l v) (hk : Keep i s s1) : Own i s1 l v := by
  obtain ⟨h3, h4⟩ := hk l v h.1 (.inr h.2)
  exact ⟨h3, h4.trans h.2⟩

omit [DecidableEq ι] in
theorem Pres.of_keep {i : ι} {X : Loc → Prop} {s s1 : GS ι} (hk : Keep i s s1) : Pres i X s s1 := fun _ _ h _ => h.keep hk

omit [DecidableEq ι] in
theorem Pres.trans {i : ι} {X : Loc → Prop} {s s1 s2 : GS ι} (h : Pres i X s s1) (h' : Pres i X s1 s2) : Pres i X s s2 :=
  fun l v ho hx => h' l v (h l v ho hx) hx

/-- The program ends with a result as `R` says; it changes at most `X` of what `i` owned. -/
def Runs (i : ι) (W0 : World) (X : Loc → Prop) (s : GS ι) (p : Prog α) (R : WRes α → GS ι → Prop) : Prop :=
  Safe i p (fun r s' => Sh W0 s' ∧ Pres i X s s' ∧ R r s') s

/-- The program has just this result. -/
abbrev Gives (i : ι) (W0 : World) (X : Loc → Prop) (s : GS ι) (p : Prog α) (r0 : WRes α) : Prop := Runs i W0 X s p fun r _ => r = r0

/-- Nothing is changed. -/
abbrev No : Loc → Prop := fun _ => False

section
variable {i : ι} {W0 : World} {X Y : Loc → Prop} {s : GS ι} {R : WRes α → GS ι → Prop}

theorem Runs.ret (hs : Sh W0 s) {r : WRes α} (h : ∀ s1, Keep i s s1 → R r s1) : Runs i W0 X s (.ret r) R :=
  fun s1 hk => ⟨hs.keep hk, .of_keep hk, h s1 hk⟩

theorem Gives.ret (hs : Sh W0 s) (r : WRes α) : Gives i W0 X s (.ret r) r := Runs.ret hs fun _ _ => rfl

theorem Runs.bind {p : Prog β} {f : β → Prog α} {R1 : WRes β → GS ι → Prop} (h : Runs i W0 X s p R1)
    (hf : ∀ a s', Sh W0 s' → Pres i X s s' → R1 (.ok a) s' → Runs i W0 X s' (f a) R)
    (he : ∀ r r' s', Fails r r' → R1 r s' → R r' s') : Runs i W0 X s (p.bind f) R := by
  refine Safe.bind ?_ ?_ h
  · rintro a s' ⟨h1, h2, h3⟩
    exact (hf a s' h1 h2 h3).mono fun r s2 ⟨h4, h5, h6⟩ => ⟨h4, h2.trans h5, h6⟩
  · rintro r r' s' hF ⟨h1, h2, h3⟩
    exact ⟨h1, h2, he r r' s' hF h3⟩

/-- The same if the first program changes less. -/
theorem Runs.bind_sub {p : Prog β} {f : β → Prog α} {R1 : WRes β → GS ι → Prop} (h : Runs i W0 Y s p R1) (hY : ∀ l, Y l → X l)
    (hf : ∀ a s', Sh W0 s' → Pres i Y s s' → R1 (.ok a) s' → Runs i W0 X s' (f a) R)
    (he : ∀ r r' s', Fails r r' → R1 r s' → R r' s') : Runs i W0 X s (p.bind f) R := by
  have hsub : ∀ {s1 s2 : GS ι}, Pres i Y s1 s2 → Pres i X s1 s2 := fun h l v ho hx => h l v ho fun hy => hx (hY l hy)
  refine Safe.bind ?_ ?_ h
  · rintro a s' ⟨h1, h2, h3⟩
    exact (hf a s' h1 h2 h3).mono fun r s2 ⟨h4, h5, h6⟩ => ⟨h4, (hsub h2).trans h5, h6⟩
  · rintro r r' s' hF ⟨h1, h2, h3⟩
    exact ⟨h1, hsub h2, he r r' s' hF h3⟩

/-- After a program with a known value. -/
theorem Gives.bind {p : Prog β} {f : β → Prog α} {a : β} (h : Gives i W0 X s p (.ok a))
    (hf : ∀ s', Sh W0 s' → Pres i X s s' → Runs i W0 X s' (f a) R) : Runs i W0 X s (p.bind f) R := by
  refine Runs.bind h ?_ ?_
  · rintro a' s' h1 h2 h3
    cases h3
    exact hf s' h1 h2
  · rintro r r' s' hF rfl
    cases hF

theorem Runs.mono {p : Prog α} {R' : WRes α → GS ι → Prop} (h : Runs i W0 X s p R) (hX : ∀ l, X l → Y l) (hR : ∀ r s', R r s' → R' r s') : Runs i W0 Y s p R' :=
  Safe.mono (fun _ _ ⟨h1, h2, h3⟩ => ⟨h1, fun l v ho hn => h2 l v ho fun hx => hn (hX l hx), hR _ _ h3⟩) h

theorem Gives.weaken {p : Prog α} {r : WRes α} (h : Gives i W0 No s p r) : Gives i W0 X s p r := Runs.mono h (fun _ h => h.elim) fun _ _ h => h

/-- Reading what belongs to nobody. -/
theorem Runs.read_shared (hs : Sh W0 s) {l : Loc} {v : Cell} (hl : W0 l = some v) {k : Option Cell → Prog α}
    (h : ∀ s', Sh W0 s' → Keep i s s' → Runs i W0 X s' (k (some v)) R) : Runs i W0 X s (.read l k) R := by
  obtain ⟨h1, h2⟩ := hs l v hl
  refine ⟨⟨⟨v, h1⟩, .inl h2⟩, fun s1 hk => ?_⟩
  have e : s1.mem l = some v := (hk l v h1 (.inl h2)).1
  rw [e]
  exact Safe.mono (fun r s2 ⟨h4, h5, h6⟩ => ⟨h4, (Pres.of_keep hk).trans h5, h6⟩) (h s1 (hs.keep hk) hk)

/-- Reading one's own. -/
theorem Runs.read_own (hs : Sh W0 s) {l : Loc} {v : Cell} (ho : Own i s l v) {k : Option Cell → Prog α}
    (h : ∀ s', Sh W0 s' → Keep i s s' → Runs i W0 X s' (k (some v)) R) : Runs i W0 X s (.read l k) R := by
  refine ⟨⟨⟨v, ho.1⟩, .inr ho.2⟩, fun s1 hk => ?_⟩
  rw [(ho.keep hk).1]
  exact Safe.mono (fun r s2 ⟨h4, h5, h6⟩ => ⟨h4, (Pres.of_keep hk).trans h5, h6⟩) (h s1 (hs.keep hk) hk)

/-- Changing one's own. -/
theorem Runs.write (hs : Sh W0 s) {l : Loc} {v c : Cell} (ho : Own i s l v) (hX : X l) {k : Prog α}
    (h : ∀ s', Sh W0 s' → Pres i (fun x => x = l) s s' → Own i s' l c → Runs i W0 X s' k R) : Runs i W0 X s (.write l c k) R := by
  refine ⟨⟨⟨v, ho.1⟩, ho.2⟩, fun s1 hk => ?_⟩
  have ho1 := ho.keep hk
  have hs1 : Sh W0 (s1.put l c) := by
    intro x u hu
    obtain ⟨h1, h2⟩ := hs.keep hk x u hu
    have hne : x ≠ l := by
      rintro rfl
      rw [ho1.2] at h2; cases h2
    exact ⟨by simpa [GS.put, World.put, hne] using h1, h2⟩
  have hp : Pres i (fun x => x = l) s (s1.put l c) := by
    intro x u hu hx
    have := hu.keep hk
    exact ⟨by simpa [GS.put, World.put, hx] using this.1, this.2⟩
  refine Safe.mono (fun r s2 ⟨h4, h5, h6⟩ => ⟨h4, ?_, h6⟩) (h (s1.put l c) hs1 hp ⟨by simp [GS.put, World.put], ho1.2⟩)
  refine Pres.trans (s1 := s1.put l c) (fun x u hu hx => hp x u hu ?_) h5
  rintro rfl
  exact hx hX

/-- Allocating. -/
theorem Runs.alloc (hs : Sh W0 s) {c : Cell} {k : Nat → Prog α}
    (h : ∀ n s', (∀ v, ¬ Own i s (c.loc n) v) → W0 (c.loc n) = none → Sh W0 s' → Pres i No s s' → Own i s' (c.loc n) c →
      Runs i W0 (fun x => X x ∨ x = c.loc n) s' (k n) R) :
    Runs i W0 X s (.alloc c k) R := by
  intro s1 hk n hn
  have hfr : ∀ v, ¬ Own i s (c.loc n) v := by
    intro v hv
    rw [(hv.keep hk).1] at hn; cases hn
  have hw : W0 (c.loc n) = none := by
    cases hw : W0 (c.loc n) with
    | none => rfl
    | some v => rw [(hs.keep hk _ v hw).1] at hn; cases hn
  have hs1 : Sh W0 (s1.add i (c.loc n) c) := by
    intro x u hu
    have hne : x ≠ c.loc n := by
      rintro rfl
      rw [hw] at hu; cases hu
    obtain ⟨h1, h2⟩ := hs.keep hk x u hu
    exact ⟨by simpa [GS.add, World.put, hne] using h1, by simpa [GS.add, hne] using h2⟩
  have hp : Pres i No s (s1.add i (c.loc n) c) := by
    intro x u hu _
    have hne : x ≠ c.loc n := by
      rintro rfl
      exact hfr u hu
    have := hu.keep hk
    exact ⟨by simpa [GS.add, World.put, hne] using this.1, by simpa [GS.add, hne] using this.2⟩
  refine Safe.mono (fun r s2 ⟨h4, h5, h6⟩ => ⟨h4, ?_, h6⟩) (h n _ hfr hw hs1 hp ⟨by simp [GS.add, World.put], by simp [GS.add]⟩)
  intro x u hu hx
  refine h5 x u (hp x u hu fun h => h) ?_
  rintro (hx' | rfl)
  · exact hx hx'
  · exact hfr u hu

theorem Runs.order (hs : Sh W0 s) {ks : List Str} {k : List Str → Prog α}
    (h : ∀ s' l, l.Perm ks → Sh W0 s' → Keep i s s' → Runs i W0 X s' (k l) R) : Runs i W0 X s (.order ks k) R :=
  fun s1 hk l hl => Safe.mono (fun _ _ ⟨h4, h5, h6⟩ => ⟨h4, (Pres.of_keep hk).trans h5, h6⟩) (h s1 l hl (hs.keep hk) hk)

end

/-! ### the accesses -/

section
variable {i : ι} {W0 : World} {X : Loc → Prop} {s : GS ι} (hs : Sh W0 s)
include hs

theorem getGraph_gives {n : Nat} {g : HGraph} (h : W0 (.graph n) = some (.graph g)) : Gives i W0 X s (getGraph n) (.ok g) :=
  Runs.read_shared hs h fun _ h _ => Gives.ret h _

theorem getNode_gives {n : Nat} {o : NodeObj} (h : W0 (.node n) = some (.node o)) : Gives i W0 X s (getNode n) (.ok o) :=
  Runs.read_shared hs h fun _ h _ => Gives.ret h _

theorem getEdge_gives {n : Nat} {o : EdgeObj} (h : W0 (.edge n) = some (.edge o)) : Gives i W0 X s (getEdge n) (.ok o) :=
  Runs.read_shared hs h fun _ h _ => Gives.ret h _

theorem getSub_gives {n : Nat} {o : SubObj} (h : W0 (.sub n) = some (.sub o)) : Gives i W0 X s (getSub n) (.ok o) :=
  Runs.read_shared hs h fun _ h _ => Gives.ret h _

theorem getSet_gives {n : Nat} {m : Written} (h : Own i s (.set n) (.set m)) : Gives i W0 X s (getSet n) (.ok m) :=
  Runs.read_own hs h fun _ h _ => Gives.ret h _

theorem getArr_gives {n : Nat} {m : List Nat} (h : Own i s (.arr n) (.arr m)) : Gives i W0 X s (getArr n) (.ok m) :=
  Runs.read_own hs h fun _ h _ => Gives.ret h _

theorem store_runs {l : Loc} {v c : Cell} (ho : Own i s l v) (hX : X l) : Runs i W0 X s (store l c) fun r s' => r = .ok () ∧ Own i s' l c :=
  .write hs ho hX fun _ h _ h' => .ret h fun _ hk => ⟨rfl, h'.keep hk⟩

end

/-- The map at `a`, shared or one's own. -/
def HasMap (i : ι) (W0 : World) (s : GS ι) (a : Nat) (m : Map Str) : Prop := W0 (.map a) = some (.map m) ∨ Own i s (.map a) (.map m)

section
variable {i : ι} {W0 : World} {X : Loc → Prop} {s : GS ι} (hs : Sh W0 s)

omit [DecidableEq ι] in
theorem HasMap.keep {a : Nat} {m : Map Str} (h : HasMap i W0 s a m) {s' : GS ι} (hk : Keep i s s') : HasMap i W0 s' a m := by
  rcases h with h | h
  · exact .inl h
  · exact .inr (h.keep hk)

include hs

theorem getMap_gives {a : Nat} {m : Map Str} (h : HasMap i W0 s a m) {f : Map Str → Prog α} {R : WRes α → GS ι → Prop}
    (hf : ∀ s', Sh W0 s' → Keep i s s' → Runs i W0 X s' (f m) R) : Runs i W0 X s ((getMap a).bind f) R := by
  rcases h with h | h
  · exact Runs.read_shared hs h hf
  · exact Runs.read_own hs h hf

theorem sortedNamesM_runs {a : Nat} {m : Map Str} (h : HasMap i W0 s a m) {f : List Str → Prog α} {R : WRes α → GS ι → Prop}
    (hf : ∀ s', Sh W0 s' → Keep i s s' → Runs i W0 X s' (f (sortedNames m)) R) : Runs i W0 X s ((sortedNamesM a).bind f) R := by
  rcases h with h | h
  · refine Runs.read_shared hs h fun s1 hs1 h1 => Runs.order hs1 fun s2 ks hks hs2 h2 => ?_
    have e : ssort ks = sortedNames m := ssort_unique hks
    show Runs i W0 X s2 (f (ssort ks)) R
    rw [e]
    exact hf s2 hs2 (h1.trans h2)
  · refine Runs.read_own hs h fun s1 hs1 h1 => Runs.order hs1 fun s2 ks hks hs2 h2 => ?_
    have e : ssort ks = sortedNames m := ssort_unique hks
    show Runs i W0 X s2 (f (ssort ks)) R
    rw [e]
    exact hf s2 hs2 (h1.trans h2)

theorem fieldsM_gives {a : Nat} {m : Map Str} (h : HasMap i W0 s a m) (ks : List Str) : Gives i W0 X s (fieldsM a ks) (.ok (ks.map fun k => ⟨k, mgetS m k⟩)) := by
  induction ks generalizing s with
  | nil => exact Gives.ret hs _
  | cons k ks ih =>
    refine getMap_gives hs h fun s1 hs1 hk => ?_
    exact Gives.bind (ih hs1 (h.keep hk)) fun s2 hs2 _ => Gives.ret hs2 _

theorem attrStmtsM_gives {a : Nat} {m : Map Str} (h : HasMap i W0 s a m) : Gives i W0 X s (attrStmtsM a) (.ok (attrStmts m)) := by
  refine sortedNamesM_runs hs h fun s1 hs1 hk => ?_
  refine Gives.bind (fieldsM_gives hs1 (h.keep hk) _) fun s2 hs2 _ => ?_
  have e : attrStmts m = ((sortedNames m).map fun k => (⟨k, mgetS m k⟩ : Ast.Attr)).map Stmt.attr := by simp [attrStmts]
  rw [e]
  exact Gives.ret hs2 _

theorem putMapM_gives {a : Nat} {m : Map Str} (h : HasMap i W0 s a m) : Gives i W0 X s (putMapM a) (.ok (Ast.putMap m)) := by
  refine sortedNamesM_runs hs h fun s1 hs1 hk => ?_
  exact Gives.bind (fieldsM_gives hs1 (h.keep hk) _) fun s2 hs2 _ => Gives.ret hs2 _

/-- `m[k] = v` on one's own map. -/
theorem mapSet_runs {a : Nat} {m : Map Str} (h : Own i s (.map a) (.map m)) (hX : X (.map a)) (k v : Str) {f : Unit → Prog α} {R : WRes α → GS ι → Prop}
    (hf : ∀ s', Sh W0 s' → Own i s' (.map a) (.map (mset m k v)) → Runs i W0 X s' (f ()) R) : Runs i W0 X s ((mapSet a k v).bind f) R := by
  refine Runs.read_own hs h fun s1 hs1 h1 => ?_
  exact Runs.write hs1 (h.keep h1) hX fun s2 hs2 _ ho => hf s2 hs2 ho

theorem setAdd_runs {r : Nat} {w : Written} (h : Own i s (.set r) (.set w)) (hX : X (.set r)) (k : Str) {f : Unit → Prog α} {R : WRes α → GS ι → Prop}
    (hf : ∀ s', Sh W0 s' → Own i s' (.set r) (.set (mset w k ())) → Runs i W0 X s' (f ()) R) : Runs i W0 X s ((setAdd r k).bind f) R := by
  refine Runs.read_own hs h fun s1 hs1 h1 => ?_
  exact Runs.write hs1 (h.keep h1) hX fun s2 hs2 _ ho => hf s2 hs2 ho

theorem copyLoop_runs {a b : Nat} {src : Map Str} (ha : W0 (.map a) = some (.map src)) (hX : X (.map b)) (ks : List Str) {dst : Map Str}
    (hb : Own i s (.map b) (.map dst)) :
    Runs i W0 X s (forKeys (fun k => (getMap a).bind fun m => mapSet b k (mgetS m k)) ks)
      fun r s' => r = .ok () ∧ Own i s' (.map b) (.map (msetAll dst (ks.map fun k => (k, mgetS src k)))) := by
  induction ks generalizing s dst with
  | nil => exact Runs.ret hs fun s1 hk => ⟨rfl, hb.keep hk⟩
  | cons k ks ih =>
    refine Runs.read_shared hs ha fun s1 hs1 h1 => ?_
    exact mapSet_runs hs1 (hb.keep h1) hX k _ fun s2 hs2 ho => ih hs2 ho

theorem copyInto_runs {a b : Nat} {src : Map Str} (ha : W0 (.map a) = some (.map src)) (hsrc : MapWF src) (hX : X (.map b)) {dst : Map Str} (hdst : MapWF dst)
    (hb : Own i s (.map b) (.map dst)) : Runs i W0 X s (copyInto b a) fun r s' => r = .ok () ∧ Own i s' (.map b) (.map (msetAll dst src)) := by
  refine Runs.read_shared hs ha fun s1 hs1 h1 => Runs.order hs1 fun s2 ks hks hs2 h2 => ?_
  have e : msetAll dst (ks.map fun k => (k, mgetS src k)) = msetAll dst src := by
    refine msetAll_perm hdst ?_ ?_
    · have := hks.map fun k => (k, mgetS src k)
      refine this.trans ?_
      have e2 : (mkeys src).map (fun k => (k, mgetS src k)) = src := by
        unfold mkeys
        rw [List.map_map]
        conv => rhs; rw [← List.map_id src]
        refine List.map_congr_left fun x hx => ?_
        obtain ⟨k, v⟩ := x
        simp [mgetS, mget_of_mem hsrc hx]
      rw [e2]
    · rw [List.map_map]
      have : (Prod.fst ∘ fun k => (k, mgetS src k)) = id := rfl
      rw [this, List.map_id]
      exact hks.nodup_iff.2 hsrc.nodup
  have := copyLoop_runs hs2 ha hX ks ((hb.keep h1).keep h2)
  rw [e] at this
  exact this

theorem copyMap_runs {a : Nat} {src : Map Str} (ha : W0 (.map a) = some (.map src)) (hsrc : MapWF src) {f : Nat → Prog α} {R : WRes α → GS ι → Prop}
    (hf : ∀ n s', W0 (.map n) = none → Sh W0 s' → Pres i No s s' → Own i s' (.map n) (.map (attrsCopy src)) →
      Runs i W0 (fun x => X x ∨ x = .map n) s' (f n) R) :
    Runs i W0 X s ((copyMap a).bind f) R := by
  refine Runs.alloc hs fun n s1 hfr hw hs1 hp ho => ?_
  have h1 := copyInto_runs (X := fun x => x = .map n) hs1 ha hsrc rfl MapWF.nil ho
  have e : ((copyInto n a).bind fun _ => Prog.pure n).bind f = (copyInto n a).bind fun _ => f n := Prog.bind_assoc _ _ _
  refine (congrArg (fun p => Runs i W0 (fun x => X x ∨ x = .map n) s1 p R) e).mpr ?_
  refine Runs.bind_sub h1 (fun l h => .inr h) ?_ ?_
  · rintro u s2 hs2 hp2 ⟨-, ho2⟩
    refine hf n s2 hw hs2 (fun l v hl _ => hp2 l v (hp l v hl id) ?_) ho2
    rintro rfl
    exact hfr v hl
  · rintro r r' s' hF ⟨rfl, -⟩
    cases hF

end

/-! ### sorting the edges -/

/-- The edge at an address. -/
def EdgeAt (W0 : World) (p : Nat) (e : Edge) : Prop :=
  ∃ o as, W0 (.edge p) = some (.edge o) ∧ W0 (.map o.attrs) = some (.map as) ∧ MapWF as ∧ e = ⟨o.src, o.srcPort, o.dst, o.dstPort, o.dir, as⟩

section
variable {i : ι} {W0 : World} {X : Loc → Prop} {s : GS ι} (hs : Sh W0 s)
include hs

theorem attrsLessM_gives {a b : Nat} {x y : Map Str} (ha : W0 (.map a) = some (.map x)) (hb : W0 (.map b) = some (.map y)) (ks : List Str) :
    Gives i W0 X s (attrsLessM a b ks) (.ok (attrsLess x y ks)) := by
  induction ks generalizing s with
  | nil => exact Gives.ret hs _
  | cons k ks ih =>
    refine Runs.read_shared hs ha fun s1 hs1 _ => Runs.read_shared hs1 hb fun s2 hs2 _ => ?_
    simp only [attrsLess]
    show Gives i W0 X s2 (if slt (mgetS x k) (mgetS y k) then .pure true else if slt (mgetS y k) (mgetS x k) then .pure false else attrsLessM a b ks) _
    split
    · exact Gives.ret hs2 _
    · split
      · exact Gives.ret hs2 _
      · exact ih hs2

theorem compareM_gives {o o' : EdgeObj} {as as' : Map Str} (h2 : W0 (.map o.attrs) = some (.map as)) (h3 : MapWF as) (h5 : W0 (.map o'.attrs) = some (.map as'))
    (h6 : MapWF as') : Gives i W0 X s (compareM o o')
      (.ok (edgeLess ⟨o.src, o.srcPort, o.dst, o.dstPort, o.dir, as⟩ ⟨o'.src, o'.srcPort, o'.dst, o'.dstPort, o'.dir, as'⟩)) := by
  unfold compareM edgeLess
  dsimp only
  generalize slt o.src o'.src = b1
  generalize slt o'.src o.src = b2
  generalize slt o.dst o'.dst = b3
  generalize slt o'.dst o.dst = b4
  generalize slt o.srcPort o'.srcPort = b5
  generalize slt o'.srcPort o.srcPort = b6
  generalize slt o.dstPort o'.dstPort = b7
  generalize slt o'.dstPort o.dstPort = b8
  generalize o.dir = d
  generalize o'.dir = d'
  cases b1 with
  | true => exact Gives.ret hs _
  | false => cases b2 with
    | true => exact Gives.ret hs _
    | false => cases b3 with
      | true => exact Gives.ret hs _
      | false => cases b4 with
        | true => exact Gives.ret hs _
        | false => cases b5 with
          | true => exact Gives.ret hs _
          | false => cases b6 with
            | true => exact Gives.ret hs _
            | false => cases b7 with
              | true => exact Gives.ret hs _
              | false => cases b8 with
                | true => exact Gives.ret hs _
                | false =>
                  simp only [Bool.false_eq_true, if_false]
                  by_cases hd : d ≠ d'
                  · rw [if_pos hd, if_pos hd]
                    exact Gives.ret hs _
                  · rw [if_neg hd, if_neg hd]
                    refine copyMap_runs hs h2 h3 fun c s4 hw hs4 _ ho => ?_
                    refine Runs.bind (copyInto_runs hs4 h5 h6 (.inr rfl) (MapWF.nil.msetAll _) ho) ?_ ?_
                    · rintro _ s5 hs5 _ ⟨-, ho5⟩
                      exact sortedNamesM_runs hs5 (.inr ho5) fun s6 hs6 _ => attrsLessM_gives hs6 h2 h5 _
                    · rintro r r' s' hF ⟨rfl, -⟩
                      cases hF

theorem lessM_gives {r m n : Nat} {ps : List Nat} {p q : Nat} {x y : Edge} (hr : Own i s (.arr r) (.arr ps)) (hp : ps[m]? = some p) (hq : ps[n]? = some q)
    (hx : EdgeAt W0 p x) (hy : EdgeAt W0 q y) : Gives i W0 X s (lessM r m n) (.ok (edgeLess x y)) := by
  obtain ⟨o, as, h1, h2, h3, rfl⟩ := hx
  obtain ⟨o', as', h4, h5, h6, rfl⟩ := hy
  refine Runs.read_own hs hr fun s1 hs1 _ => ?_
  show Gives i W0 X s1 (match ps[m]?, ps[n]? with
    | some p, some q => (getEdge p).bind fun x => (getEdge q).bind fun y => compareM x y
    | _, _ => .ret .panic) _
  rw [hp, hq]
  exact Runs.read_shared hs1 h1 fun s2 hs2 _ => Runs.read_shared hs2 h4 fun s3 hs3 _ => compareM_gives hs3 h2 h3 h5 h6

omit hs in
theorem swapAt_mem {β : Type} {l l' : List β} {m n : Nat} (h : swapAt l m n = some l') {x : β} (hx : x ∈ l') : x ∈ l := by
  unfold swapAt at h
  split at h
  · rename_i a b ha hb
    cases h
    rcases List.mem_or_eq_of_mem_set hx with hx | rfl
    · rcases List.mem_or_eq_of_mem_set hx with hx | rfl
      · exact hx
      · exact List.mem_of_getElem? hb
    · exact List.mem_of_getElem? ha
  · cases h

theorem sortM_runs {r : Nat} (E : Nat → Edge) (t : SortTree) {ps ps' : List Nat} (hr : Own i s (.arr r) (.arr ps)) (hX : X (.arr r))
    (hE : ∀ p ∈ ps, EdgeAt W0 p (E p)) (ht : t.run (fun p q => edgeLess (E p) (E q)) ps = some ps') :
    Runs i W0 X s (sortM r t) fun res s' => res = .ok () ∧ Own i s' (.arr r) (.arr ps') := by
  induction t generalizing s ps with
  | done =>
    cases ht
    exact Runs.ret hs fun s1 hk => ⟨rfl, hr.keep hk⟩
  | less m n k ih =>
    simp only [SortTree.run] at ht
    split at ht
    · rename_i p q hp hq
      have h1 := lessM_gives (X := No) hs hr hp hq (hE p (List.mem_of_getElem? hp)) (hE q (List.mem_of_getElem? hq))
      refine Runs.bind_sub h1 (fun _ h => h.elim) ?_ ?_
      · rintro b s1 hs1 hp1 hb
        cases hb
        exact ih _ hs1 (hp1 _ _ hr id) hE ht
      · rintro _ _ _ hF rfl
        cases hF
    · cases ht
  | swap m n k ih =>
    simp only [SortTree.run] at ht
    cases hw : swapAt ps m n with
    | none => rw [hw] at ht; cases ht
    | some ps1 =>
      rw [hw] at ht
      refine Runs.read_own hs hr fun s1 hs1 h1 => ?_
      show Runs i W0 X s1 ((match swapAt ps m n with
        | some es' => store (.arr r) (.arr es')
        | none => .ret .panic).bind fun _ => sortM r k) _
      rw [hw]
      exact Runs.write hs1 (hr.keep h1) hX fun s2 hs2 _ ho => ih hs2 ho (fun p hp => hE p (swapAt_mem hw hp)) ht

theorem edgesSortedM_gives {sorter : Nat → SortTree} {n : Nat} {g : HGraph} (hg : W0 (.graph n) = some (.graph g)) (E : Nat → Edge)
    (hE : ∀ p ∈ g.edges, EdgeAt W0 p (E p)) {ps' : List Nat} (ht : (sorter g.edges.length).run (fun p q => edgeLess (E p) (E q)) g.edges = some ps') :
    Gives i W0 X s (edgesSortedM sorter n) (.ok ps') := by
  refine Runs.read_shared hs hg fun s1 hs1 _ => Runs.alloc hs1 fun r s2 _ _ hs2 _ ho => ?_
  show Runs i W0 (fun x => X x ∨ x = .arr r) s2 ((sortM r (sorter g.edges.length)).bind fun _ => getArr r) _
  refine Runs.bind (sortM_runs (X := fun x => X x ∨ x = .arr r) hs2 E _ ho (.inr rfl) hE ht) ?_ ?_
  · rintro _ s3 hs3 _ ⟨-, ho3⟩
    exact getArr_gives hs3 ho3
  · rintro _ _ _ hF ⟨rfl, -⟩
    cases hF

end

end Gographviz.Threads
