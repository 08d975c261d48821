import Verif.Model.Threads
/-!
Reasoning about goroutines with a shared memory: who may touch what (ghost ownership), and programs that keep to it.
-/
namespace Gographviz.Threads

open Gographviz Gographviz.Heap

variable {ι : Type} [DecidableEq ι] {α β : Type}

/-- The memory, and to whom each address belongs (`none`: to nobody, it is only read). -/
structure GS (ι : Type) where
  mem : World
  own : Loc → Option ι

/-- Goroutine `i` may read it. -/
def Mine (i : ι) (s : GS ι) (l : Loc) : Prop := s.own l = none ∨ s.own l = some i

/-- What the others may have done meanwhile: everything that `i` may read is as it was. -/
def Keep (i : ι) (s s1 : GS ι) : Prop := ∀ l v, s.mem l = some v → Mine i s l → s1.mem l = some v ∧ s1.own l = s.own l

omit [DecidableEq ι] in
theorem Keep.refl (i : ι) (s : GS ι) : Keep i s s := fun _ _ h _ => ⟨h, rfl⟩

omit [DecidableEq ι] in
theorem Keep.trans {i : ι} {s s1 s2 : GS ι} (h : Keep i s s1) (h' : Keep i s1 s2) : Keep i s s2 := by
  intro l v hv hm
  obtain ⟨h1, h2⟩ := h l v hv hm
  obtain ⟨h3, h4⟩ := h' l v h1 (by unfold Mine; rw [h2]; exact hm)
  exact ⟨h3, h4.trans h2⟩

/-- Storing. -/
def GS.put (s : GS ι) (l : Loc) (c : Cell) : GS ι := ⟨s.mem.put l c, s.own⟩

/-- Allocating for `i`. -/
def GS.add (s : GS ι) (i : ι) (l : Loc) (c : Cell) : GS ι := ⟨s.mem.put l c, fun x => if x = l then some i else s.own x⟩

/-- The program keeps to what belongs to `i`, whatever the others do meanwhile, and ends as `Q` says. -/
def Safe (i : ι) : Prog α → (WRes α → GS ι → Prop) → GS ι → Prop
  | .ret r, Q, s => ∀ s1, Keep i s s1 → Q r s1
  | .read l k, Q, s => ((∃ v, s.mem l = some v) ∧ Mine i s l) ∧ ∀ s1, Keep i s s1 → Safe i (k (s1.mem l)) Q s1
  | .write l c k, Q, s => ((∃ v, s.mem l = some v) ∧ s.own l = some i) ∧ ∀ s1, Keep i s s1 → Safe i k Q (s1.put l c)
  | .alloc c k, Q, s => ∀ s1, Keep i s s1 → ∀ n, s1.mem (c.loc n) = none → Safe i (k n) Q (s1.add i (c.loc n) c)
  | .order ks k, Q, s => ∀ s1, Keep i s s1 → ∀ l, l.Perm ks → Safe i (k l) Q s1

theorem Safe.keep {i : ι} {p : Prog α} {Q : WRes α → GS ι → Prop} {s s1 : GS ι} (h : Safe i p Q s) (hk : Keep i s s1) : Safe i p Q s1 := by
  cases p with
  | ret r => exact fun s2 h2 => h s2 (hk.trans h2)
  | read l k =>
    obtain ⟨⟨⟨v, hv⟩, hm⟩, h⟩ := h
    obtain ⟨h1, h2⟩ := hk l v hv hm
    exact ⟨⟨⟨v, h1⟩, by unfold Mine; rw [h2]; exact hm⟩, fun s2 h2 => h s2 (hk.trans h2)⟩
  | write l c k =>
    obtain ⟨⟨⟨v, hv⟩, hm⟩, h⟩ := h
    obtain ⟨h1, h2⟩ := hk l v hv (.inr hm)
    exact ⟨⟨⟨v, h1⟩, h2.trans hm⟩, fun s2 h2 => h s2 (hk.trans h2)⟩
  | alloc c k => exact fun s2 h2 => h s2 (hk.trans h2)
  | order ks k => exact fun s2 h2 => h s2 (hk.trans h2)

theorem Safe.mono {i : ι} {p : Prog α} {Q Q' : WRes α → GS ι → Prop} (hQ : ∀ r s, Q r s → Q' r s) : ∀ {s : GS ι}, Safe i p Q s → Safe i p Q' s := by
  induction p with
  | ret r => exact fun h s1 hk => hQ _ _ (h s1 hk)
  | read l k ih => exact fun h => ⟨h.1, fun s1 hk => ih _ (h.2 s1 hk)⟩
  | write l c k ih => exact fun h => ⟨h.1, fun s1 hk => ih (h.2 s1 hk)⟩
  | alloc c k ih => exact fun h s1 hk n hn => ih n (h s1 hk n hn)
  | order ks k ih => exact fun h s1 hk l hl => ih l (h s1 hk l hl)

/-- The result without a value. -/
inductive Fails : WRes α → WRes β → Prop where
  | err {e : Err} : Fails (.err e) (.err e)
  | panic : Fails .panic .panic
  | diverge : Fails .diverge .diverge

theorem Safe.bind {i : ι} {p : Prog α} {f : α → Prog β} {Q : WRes α → GS ι → Prop} {Q' : WRes β → GS ι → Prop}
    (hf : ∀ a s, Q (.ok a) s → Safe i (f a) Q' s) (he : ∀ r r' s, Fails r r' → Q r s → Q' r' s) : ∀ {s : GS ι}, Safe i p Q s → Safe i (p.bind f) Q' s := by
  induction p with
  | ret r =>
    intro s h
    cases r with
    | ok a => exact hf a s (h s (.refl i s))
    | err e => exact fun s1 hk => he _ _ _ .err (h s1 hk)
    | panic => exact fun s1 hk => he _ _ _ .panic (h s1 hk)
    | diverge => exact fun s1 hk => he _ _ _ .diverge (h s1 hk)
  | read l k ih => exact fun h => ⟨h.1, fun s1 hk => ih _ (h.2 s1 hk)⟩
  | write l c k ih => exact fun h => ⟨h.1, fun s1 hk => ih (h.2 s1 hk)⟩
  | alloc c k ih => exact fun h s1 hk n hn => ih n (h s1 hk n hn)
  | order ks k ih => exact fun h s1 hk l hl => ih l (h s1 hk l hl)

/-! ### goroutines together -/

/-- Everything touched in the trace belongs to the goroutine or to nobody; everything changed belongs to the goroutine. -/
def Acc.ok (s : GS ι) (i : ι) : Acc → Prop
  | .read l => (∃ v, s.mem l = some v) ∧ Mine i s l
  | .write l => (∃ v, s.mem l = some v) ∧ s.own l = some i
  | .alloc l => (∃ v, s.mem l = some v) ∧ s.own l = some i
  | .order => True

/-- What is allocated stays allocated, to the same owner. -/
def Older (s s1 : GS ι) : Prop := ∀ l v, s.mem l = some v → (∃ v', s1.mem l = some v') ∧ s1.own l = s.own l ∧ (s.own l = none → s1.mem l = some v)

omit [DecidableEq ι] in
theorem Acc.ok_older {s s1 : GS ι} (h : Older s s1) {i : ι} {a : Acc} (ha : a.ok s i) : a.ok s1 i := by
  cases a with
  | read l =>
    obtain ⟨⟨v, hv⟩, hm⟩ := ha
    exact ⟨(h l v hv).1, by unfold Mine; rw [(h l v hv).2.1]; exact hm⟩
  | write l =>
    obtain ⟨⟨v, hv⟩, hm⟩ := ha
    exact ⟨(h l v hv).1, by rw [(h l v hv).2.1]; exact hm⟩
  | alloc l =>
    obtain ⟨⟨v, hv⟩, hm⟩ := ha
    exact ⟨(h l v hv).1, by rw [(h l v hv).2.1]; exact hm⟩
  | order => trivial

theorem step_safe {i : ι} {p p' : Prog α} {Q : WRes α → GS ι → Prop} {s : GS ι} {a : Acc} {w : World} (h : Safe i p Q s) (hs : p.Step s.mem a p' w) :
    ∃ own, Safe i p' Q ⟨w, own⟩ ∧ (∀ j, j ≠ i → Keep j s ⟨w, own⟩) ∧ Acc.ok ⟨w, own⟩ i a ∧ Older s ⟨w, own⟩ := by
  obtain ⟨m, o⟩ := s
  dsimp only at hs
  cases hs with
  | read => exact ⟨o, h.2 _ (.refl i _), fun j _ => .refl j _, h.1, fun l v hv => ⟨⟨v, hv⟩, rfl, fun _ => hv⟩⟩
  | @write l c =>
    obtain ⟨⟨⟨v, hv⟩, ho⟩, h⟩ := h
    dsimp only at hv ho
    refine ⟨o, h _ (.refl i _), fun j hj l' v' hv' hm => ⟨?_, rfl⟩, ⟨⟨c, by simp [World.put]⟩, ho⟩, fun l' v' hv' => ⟨?_, rfl, fun hn => ?_⟩⟩
    · have : l' ≠ l := by
        rintro rfl
        rcases hm with hm | hm
        · dsimp only at hm; rw [ho] at hm; cases hm
        · dsimp only at hm; rw [ho] at hm; cases hm; exact hj rfl
      simpa [World.put, this] using hv'
    · by_cases e : l' = l
      · exact ⟨c, by simp [World.put, e]⟩
      · exact ⟨v', by simpa [World.put, e] using hv'⟩
    · have : l' ≠ l := by
        rintro rfl
        dsimp only at hn; rw [ho] at hn; cases hn
      simpa [World.put, this] using hv'
  | @alloc c k _ n hn =>
    have hne : ∀ l' v', m l' = some v' → l' ≠ c.loc n := by
      rintro l' v' hv' rfl
      rw [hn] at hv'; cases hv'
    refine ⟨_, h _ (.refl i _) n hn, fun j hj l' v' hv' hm => ?_, ⟨⟨c, by simp [World.put]⟩, by simp⟩, fun l' v' hv' => ?_⟩
    · have := hne l' v' hv'
      exact ⟨by simpa [World.put, this] using hv', by simp [this]⟩
    · have := hne l' v' hv'
      have h2 : (m.put (c.loc n) c) l' = some v' := by simpa [World.put, this] using hv'
      exact ⟨⟨v', h2⟩, by simp [this], fun _ => h2⟩
  | order hl => exact ⟨o, h _ (.refl i _) _ hl, fun j _ => .refl j _, trivial, fun l v hv => ⟨⟨v, hv⟩, rfl, fun _ => hv⟩⟩

omit [DecidableEq ι] in
theorem Older.refl (s : GS ι) : Older s s := fun _ v h => ⟨⟨v, h⟩, rfl, fun _ => h⟩

omit [DecidableEq ι] in
theorem Older.trans {s s1 s2 : GS ι} (h : Older s s1) (h' : Older s1 s2) : Older s s2 := by
  intro l v hv
  obtain ⟨⟨v1, h1⟩, h2, h3⟩ := h l v hv
  obtain ⟨h4, h5, h6⟩ := h' l v1 h1
  refine ⟨h4, h5.trans h2, fun hn => ?_⟩
  have h7 := h3 hn
  rw [h1] at h7; cases h7
  exact h6 (h2.trans hn)

/-- The invariant of all goroutines together. -/
theorem reach_safe {c c' : Conf ι α} {tr : List (ι × Acc)} {own : Loc → Option ι} {Q : ι → WRes α → GS ι → Prop} (h : ∀ i, Safe i (c.procs i) (Q i) ⟨c.mem, own⟩)
    (hr : c.Reach tr c') : ∃ own', (∀ i, Safe i (c'.procs i) (Q i) ⟨c'.mem, own'⟩) ∧ (∀ x ∈ tr, Acc.ok ⟨c'.mem, own'⟩ x.1 x.2) ∧
      Older ⟨c.mem, own⟩ ⟨c'.mem, own'⟩ := by
  induction hr with
  | refl => exact ⟨own, h, (fun x hx => by cases hx), Older.refl _⟩
  | @step tr c1 c2 i a _ hs ih =>
    obtain ⟨o1, h1, h2, h3⟩ := ih
    cases hs with
    | @mk p w hp =>
      obtain ⟨o2, h4, h5, h6, h7⟩ := step_safe (s := ⟨c1.mem, o1⟩) (h1 i) hp
      refine ⟨o2, fun j => ?_, fun x hx => ?_, h3.trans h7⟩
      · dsimp only
        split
        · rename_i e; subst e; exact h4
        · rename_i e; exact (h1 j).keep (h5 j e)
      · rcases List.mem_append.1 hx with hx | hx
        · exact Acc.ok_older h7 (h2 x hx)
        · rw [List.mem_singleton.1 hx]; exact h6

/-! ### progress -/

/-- Only finitely many addresses are in use. -/
def Finite (w : World) : Prop := ∃ N, ∀ (c : Cell) n, N ≤ n → w (c.loc n) = none

/-- The number of an address. -/
def Loc.num : Loc → Nat
  | .graph n => n
  | .node n => n
  | .edge n => n
  | .sub n => n
  | .map n => n
  | .arr n => n
  | .set n => n
  | .arg n => n

theorem Cell.num_loc (c : Cell) (n : Nat) : (c.loc n).num = n := by cases c <;> rfl

theorem Finite.put {w : World} (h : Finite w) (l : Loc) (c : Cell) : Finite (w.put l c) := by
  obtain ⟨N, hN⟩ := h
  refine ⟨max N (l.num + 1), fun c' n hn => ?_⟩
  have : c'.loc n ≠ l := by
    rintro rfl
    rw [Cell.num_loc] at hn
    omega
  simp only [World.put, if_neg this]
  exact hN c' n (by omega)

theorem Finite.step {p p' : Prog α} {w w' : World} {a : Acc} (h : Finite w) (hs : p.Step w a p' w') : Finite w' := by
  cases hs with
  | read => exact h
  | write => exact h.put _ _
  | alloc _ => exact h.put _ _
  | order _ => exact h

theorem Finite.reach {c c' : Conf ι α} {tr : List (ι × Acc)} (h : Finite c.mem) (hr : c.Reach tr c') : Finite c'.mem := by
  induction hr with
  | refl => exact h
  | step _ hs ih =>
    cases hs with
    | mk hp => exact ih.step hp

/-- A program that has not returned can go on. -/
theorem can_step {p : Prog α} {w : World} (h : Finite w) : (∃ r, p = .ret r) ∨ ∃ a p' w', p.Step w a p' w' := by
  cases p with
  | ret r => exact .inl ⟨r, rfl⟩
  | read l k => exact .inr ⟨_, _, _, .read⟩
  | write l c k => exact .inr ⟨_, _, _, .write⟩
  | alloc c k =>
    obtain ⟨N, hN⟩ := h
    exact .inr ⟨_, _, _, .alloc (hN c N (Nat.le_refl _))⟩
  | order ks k => exact .inr ⟨_, _, _, .order (List.Perm.refl ks)⟩

theorem no_step_ret {r : WRes α} {w w' : World} {a : Acc} {p' : Prog α} : ¬ (Prog.ret r).Step w a p' w' := by
  intro h
  cases h

theorem Reach.trans {c c' c'' : Conf ι α} {tr tr' : List (ι × Acc)} (h : c.Reach tr c') (h' : c'.Reach tr' c'') : c.Reach (tr ++ tr') c'' := by
  induction h' with
  | refl => simpa using h
  | step _ hs ih =>
    rw [← List.append_assoc]
    exact .step ih hs

/-- Goroutine `i` can be run until it returns. -/
theorem can_return (i : ι) {c : Conf ι α} (h : Finite c.mem) : ∃ tr c' r, c.Reach tr c' ∧ c'.procs i = .ret r ∧ ∀ j, j ≠ i → c'.procs j = c.procs j := by
  generalize hp : c.procs i = p
  induction p generalizing c with
  | ret r => exact ⟨[], c, r, .refl, hp, fun _ _ => rfl⟩
  | read l k ih =>
    have hs : (c.procs i).Step c.mem (.read l) (k (c.mem l)) c.mem := by rw [hp]; exact .read
    obtain ⟨tr, c', r, h1, h2, h3⟩ := ih (c.mem l) (c := ⟨fun j => if j = i then k (c.mem l) else c.procs j, c.mem⟩) (h.step hs) (by simp)
    exact ⟨_, c', r, Reach.trans (.step .refl (.mk hs)) h1, h2, fun j hj => by rw [h3 j hj]; simp [hj]⟩
  | write l x k ih =>
    have hs : (c.procs i).Step c.mem (.write l) k (c.mem.put l x) := by rw [hp]; exact .write
    obtain ⟨tr, c', r, h1, h2, h3⟩ := ih (c := ⟨fun j => if j = i then k else c.procs j, c.mem.put l x⟩) (h.step hs) (by simp)
    exact ⟨_, c', r, Reach.trans (.step .refl (.mk hs)) h1, h2, fun j hj => by rw [h3 j hj]; simp [hj]⟩
  | alloc x k ih =>
    obtain ⟨N, hN⟩ := id h
    have hs : (c.procs i).Step c.mem (.alloc (x.loc N)) (k N) (c.mem.put (x.loc N) x) := by rw [hp]; exact .alloc (hN x N (Nat.le_refl _))
    obtain ⟨tr, c', r, h1, h2, h3⟩ := ih N (c := ⟨fun j => if j = i then k N else c.procs j, c.mem.put (x.loc N) x⟩) (h.step hs) (by simp)
    exact ⟨_, c', r, Reach.trans (.step .refl (.mk hs)) h1, h2, fun j hj => by rw [h3 j hj]; simp [hj]⟩
  | order ks k ih =>
    have hs : (c.procs i).Step c.mem .order (k ks) c.mem := by rw [hp]; exact .order (List.Perm.refl ks)
    obtain ⟨tr, c', r, h1, h2, h3⟩ := ih ks (c := ⟨fun j => if j = i then k ks else c.procs j, c.mem⟩) (h.step hs) (by simp)
    exact ⟨_, c', r, Reach.trans (.step .refl (.mk hs)) h1, h2, fun j hj => by rw [h3 j hj]; simp [hj]⟩

/-- In an infinite schedule each goroutine makes only finitely many accesses. -/
theorem finitely_often {run : Nat → Conf ι α} {who : Nat → ι} (h : ∀ k, ∃ a, Conf.Step (who k) (run k) a (run (k + 1))) (i : ι) :
    ∃ N, ∀ k, N ≤ k → who k ≠ i := by
  have hstay : ∀ k0 d, (∀ k, k0 ≤ k → k < k0 + d → who k ≠ i) → (run (k0 + d)).procs i = (run k0).procs i := by
    intro k0 d
    induction d with
    | zero => exact fun _ => rfl
    | succ d ih =>
      intro hk
      rw [← ih fun k h1 h2 => hk k h1 (by omega)]
      obtain ⟨a, hs⟩ := h (k0 + d)
      rw [← Nat.add_assoc]
      have hne := hk (k0 + d) (by omega) (by omega)
      generalize run (k0 + d + 1) = c2 at hs
      cases hs with
      | mk hp => simp [Ne.symm hne]
  have hnext : ∀ k0, (∀ k, k0 ≤ k → who k ≠ i) ∨ ∃ k1, k0 ≤ k1 ∧ ∃ a p' w', ((run k0).procs i).Step (run k1).mem a p' w' ∧ (run (k1 + 1)).procs i = p' := by
    intro k0
    by_cases hex : ∃ d, who (k0 + d) = i
    · right
      obtain ⟨d, hd, hmin⟩ : ∃ d, who (k0 + d) = i ∧ ∀ d', d' < d → who (k0 + d') ≠ i := by
        obtain ⟨d, hd⟩ := hex
        induction d using Nat.strongRecOn with
        | _ d ih =>
          by_cases hlt : ∃ d', d' < d ∧ who (k0 + d') = i
          · obtain ⟨d', h1, h2⟩ := hlt
            exact ih d' h1 h2
          · exact ⟨d, hd, fun d' h1 h2 => hlt ⟨d', h1, h2⟩⟩
      have e := hstay k0 d fun k h1 h2 => by
        have := hmin (k - k0) (by omega)
        rwa [show k0 + (k - k0) = k by omega] at this
      obtain ⟨a, hs⟩ := h (k0 + d)
      rw [hd] at hs
      refine ⟨k0 + d, by omega, ?_⟩
      generalize run (k0 + d + 1) = c2 at hs
      cases hs with
      | mk hp =>
        rw [e] at hp
        exact ⟨a, _, _, hp, by simp⟩
    · left
      intro k hk hw
      exact hex ⟨k - k0, by rw [show k0 + (k - k0) = k by omega]; exact hw⟩
  suffices ∀ (p : Prog α) k0, (run k0).procs i = p → ∃ N, ∀ k, N ≤ k → who k ≠ i from this _ 0 rfl
  intro p
  induction p with
  | ret r =>
    intro k0 hp
    rcases hnext k0 with hn | ⟨k1, _, a, p', w', hs, _⟩
    · exact ⟨k0, hn⟩
    · rw [hp] at hs; exact absurd hs no_step_ret
  | read l k ih =>
    intro k0 hp
    rcases hnext k0 with hn | ⟨k1, _, a, p', w', hs, he⟩
    · exact ⟨k0, hn⟩
    · rw [hp] at hs
      cases hs with
      | read => exact ih _ _ he
  | write l c k ih =>
    intro k0 hp
    rcases hnext k0 with hn | ⟨k1, _, a, p', w', hs, he⟩
    · exact ⟨k0, hn⟩
    · rw [hp] at hs
      cases hs with
      | write => exact ih _ he
  | alloc c k ih =>
    intro k0 hp
    rcases hnext k0 with hn | ⟨k1, _, a, p', w', hs, he⟩
    · exact ⟨k0, hn⟩
    · rw [hp] at hs
      cases hs with
      | alloc _ => exact ih _ _ he
  | order ks k ih =>
    intro k0 hp
    rcases hnext k0 with hn | ⟨k1, _, a, p', w', hs, he⟩
    · exact ⟨k0, hn⟩
    · rw [hp] at hs
      cases hs with
      | order _ => exact ih _ _ he

end Gographviz.Threads
