import Verif.Proofs.OrderSim
import Verif.Props.Example
/-!
C53: reading does not depend on Go's map iteration order. C54: the `Walk` methods follow the visitor protocol.
-/
namespace Gographviz.Props

open Gographviz Spec
open Gographviz.Ast (Stmt Loc EdgeRH AttrList Elem Vis)

variable {V σ : Type}

/-! ### C54 -/

/-- C54. `Walk` on a syntax tree does what the visitor protocol prescribes, for every visitor, unless the visitor returns nil for a
non-empty list of attribute lists that the traversal reaches; then, and only then, it panics. -/
theorem C54_protocol_partial (vis : Vis V σ) (v : V) (t : Ast.Graph) (s : σ) :
    (NilAtAttrs vis v (graphTree t) s → Ast.walkGraph vis (some v) t s = none) ∧
    (¬ NilAtAttrs vis v (graphTree t) s → Ast.walkGraph vis (some v) t s = some (traverse vis v (graphTree t) s)) := by
  rw [walkGraph_eq]; exact travP_spec vis (graphTree t) v s

/-- C54. A visitor that may prune anything except attribute lists is never made to panic. -/
theorem C54_prune (vis : Vis V σ) (hv : ∀ v e s, IsAttrLists e → (vis v e s).1 ≠ none) (v : V) (t : Ast.Graph) (s : σ) :
    Ast.walkGraph vis (some v) t s = some (traverse vis v (graphTree t) s) :=
  (C54_protocol_partial vis v t s).2 (nilAtAttrs_never vis hv _ _ _)

/-- C54. A visitor that never returns nil is shown every element of the tree exactly once, in document order, an element before its
parts; whatever else it does. -/
theorem C54_all_once (vis : Vis V σ) (hv : ∀ v e s, (vis v e s).1 ≠ none) (v : V) (t : Ast.Graph) (s : σ) :
    ∃ s', Ast.walkGraph (Spec.logged vis) (some v) t (s, []) = some (s', preorder (graphTree t)) ∧
      Ast.walkGraph vis (some v) t s = some s' := by
  refine ⟨traverse vis v (graphTree t) s, ?_, C54_prune vis (fun v e s _ => hv v e s) v t s⟩
  rw [C54_prune (Spec.logged vis) (fun v e s _ => hv v e s.1) v t (s, []), traverse_logged vis hv]
  rfl

/-- C54. The nil visitor does nothing. -/
theorem C54_nil (vis : Vis V σ) (t : Ast.Graph) (s : σ) : Ast.walkGraph vis none t s = some s := rfl

/-- A small tree: `digraph { a [color=red] }`. -/
def smallTree : Ast.Graph := ⟨true, false, [], [.node ⟨b!"a", ⟨[], []⟩⟩ [[⟨b!"color", b!"red"⟩]]]⟩

/-- C54 fails without the restriction: a visitor that returns nil for an attribute list (to skip the attributes) makes `Walk` panic. -/
theorem C54_nil_panics : ∃ vis : Vis Unit Unit, ∃ t : Ast.Graph, Ast.walkGraph vis (some ()) t () = none :=
  ⟨fun _ e s => match e with | .attrList _ => (none, s) | _ => (some (), s), smallTree, rfl⟩

/-- A visitor that counts identifiers and prunes node statements. -/
def idCounter : Vis Unit Nat := fun _ e n =>
  match e with
  | .id _ => (some (), n + 1)
  | .nodeStmt .. => (none, n)
  | _ => (some (), n)

example : (∀ v e s, IsAttrLists e → (idCounter v e s).1 ≠ none) ∧ Ast.walkGraph idCounter (some ()) smallTree 0 = some 1 := by
  refine ⟨fun v e s h => ?_, rfl⟩
  cases e <;> simp_all [IsAttrLists, idCounter]

/-- A visitor that never returns nil, on a tree with all its elements. -/
example : (∀ (v : Unit) (e : Elem) (s : Nat), ((fun _ _ s => (some (), s + 1) : Vis Unit Nat) v e s).1 ≠ none) ∧
    Ast.walkGraph (fun _ _ s => (some (), s + 1) : Vis Unit Nat) (some ()) smallTree 0 = some 15 := by
  refine ⟨fun v e s => by simp, rfl⟩

/-! ### C53 -/

/-- The counter of `graphIfaceAny` is unobservable. -/
theorem replay_any_id (xs : List Call) : ∀ (g : Graph) (i : Nat),
    (replay (graphIfaceAny (fun _ m => m)) (g, i) xs).1.1 = (replay graphIface g xs).1 ∧
    (replay (graphIfaceAny (fun _ m => m)) (g, i) xs).2 = (replay graphIface g xs).2 := by
  induction xs with
  | nil => intro g i; exact ⟨rfl, rfl⟩
  | cons x xs ih =>
    intro g i
    have h : ((graphIfaceAny (fun _ m => m)).call (g, i) x) = (((graphIface.call g x).1, i + 1), (graphIface.call g x).2) := by
      cases x <;> rfl
    simp only [replay, h]
    exact ⟨(ih _ _).1, by rw [(ih _ _).2]⟩

theorem analyse_canonical (t : Ast.Graph) :
    (analyseCA (graphIfaceAny (fun _ m => m)) (fun _ m => m) t (newGraph, 0)).g.1 = (analyseC graphIface t newGraph).g ∧
    (analyseCA (graphIfaceAny (fun _ m => m)) (fun _ m => m) t (newGraph, 0)).errs = (analyseC graphIface t newGraph).errs := by
  have h : analyseCA (graphIfaceAny (fun _ m => m)) (fun _ m => m) t (newGraph, 0) = analyseC (graphIfaceAny (fun _ m => m)) t (newGraph, 0) := by
    have h1 := analyseAny_id (graphIfaceAny (fun _ m => m)) t (newGraph, 0)
    rw [analyseAny_eq] at h1
    exact Option.some.inj h1
  rw [h, analyseC_eq, analyseC_eq]
  exact replay_any_id _ _ _

/-- C53. The analyser as it is in the code (visitor objects driven by `Walk`) performs, on every implementation of `Interface`, what the
unrolled analyser of the other theorems performs, when it visits maps in key order; and it never panics, in any order. -/
theorem C53_walk (I : Iface σ) (t : Ast.Graph) (g : σ) :
    analyseAny I (fun _ m => m) t g = some (analyseC I t g) ∧ ∀ ord, ∃ c, analyseAny I ord t g = some c :=
  ⟨analyseAny_id I t g, fun ord => ⟨_, analyseAny_eq I ord t g⟩⟩

/-- C53. Whatever orders the `range` loops over attribute maps use, analysing the tree into a new graph gives the same number of errors,
and if there are none, the same graph. -/
theorem C53_analyse {o l : Nat → Map Str → List (Str × Str)} (ho : ∀ i m, (o i m).Perm m) (hl : ∀ i m, (l i m).Perm m) (t : Ast.Graph) :
    ∃ c, analyseAny (graphIfaceAny o) (fun g m => l g.2 m) t (newGraph, 0) = some c ∧
      c.errs.length = (analyseC graphIface t newGraph).errs.length ∧
      (c.errs = [] → c.g.1 = (analyseC graphIface t newGraph).g) := by
  refine ⟨_, analyseAny_eq _ _ t _, ?_⟩
  have h := analyseCA_sim (o := o) (o' := fun _ m => m) (l := l) (l' := fun _ m => m) ho (fun _ _ => .refl _) hl (fun _ _ => .refl _) t
  obtain ⟨h1, h2⟩ := analyse_canonical t
  exact ⟨by rw [h.errs, h2], fun h0 => by rw [h.same h0, h1]⟩

theorem getError_none_iff (c : Catcher σ) : c.getError = none ↔ c.errs = [] := by
  unfold Catcher.getError
  split <;> simp_all

/-- C53. `NewAnalysedGraph` never panics; whether it succeeds, and the graph it returns, are the same for every choice of orders. -/
theorem C53_newAnalysedGraph {o l : Nat → Map Str → List (Str × Str)} (ho : ∀ i m, (o i m).Perm m) (hl : ∀ i m, (l i m).Perm m)
    (t : Ast.Graph) : ∃ r, newAnalysedGraphAny o l t = some r ∧ ∀ g, r = .ok g ↔ newAnalysedGraph t = .ok g := by
  obtain ⟨c, hc, h1, h2⟩ := C53_analyse ho hl t
  have h3 := getError_none_iff c
  have h4 := getError_none_iff (analyseC graphIface t newGraph)
  refine ⟨_, by rw [newAnalysedGraphAny, hc]; rfl, fun g => ?_⟩
  simp only [newAnalysedGraph, analyse]
  by_cases h0 : c.errs = []
  · have h0' : (analyseC graphIface t newGraph).errs = [] := List.eq_nil_of_length_eq_zero (by rw [← h1, h0]; rfl)
    rw [h3.2 h0, h4.2 h0']
    simp only [h2 h0]
  · have h0' : (analyseC graphIface t newGraph).errs ≠ [] := fun h' => h0 (List.eq_nil_of_length_eq_zero (by rw [h1, h']; rfl))
    cases e1 : c.getError with
    | none => exact absurd (h3.1 e1) h0
    | some m =>
      cases e2 : (analyseC graphIface t newGraph).getError with
      | none => exact absurd (h4.1 e2) h0'
      | some m' => simp

/-- C53. `Read` of the same bytes with the same generated names returns the same graph, or fails, for every choice of orders. -/
theorem C53_read {o l : Nat → Map Str → List (Str × Str)} (ho : ∀ i m, (o i m).Perm m) (hl : ∀ i m, (l i m).Perm m)
    (rnd : Nat → Nat) (cnt : Nat) (src : Str) (g : Graph) :
    readAny o l rnd cnt src = .ok g ↔ Parse.read rnd cnt src = .ok g := by
  unfold readAny Parse.read
  cases hp : Parse.parseBytes rnd cnt src with
  | ok t n =>
    obtain ⟨r, hr, hg⟩ := C53_newAnalysedGraph ho hl t
    simp only [hr]
    have hg := hg g
    cases r with
    | ok g' =>
      cases hn : newAnalysedGraph t with
      | ok g'' => rw [hn] at hg; simpa using hg
      | error m => rw [hn] at hg; simpa using hg
    | error m =>
      cases hn : newAnalysedGraph t with
      | ok g'' => rw [hn] at hg; simpa using hg
      | error m => simp
  | syntaxErr => simp
  | reduceErr => simp
  | panic => simp
  | diverge => simp

/-- The text of the error does depend on the order. -/
theorem C53_error_text_varies : ∃ (t : Ast.Graph) (o : Nat → Map Str → List (Str × Str)), (∀ i m, (o i m).Perm m) ∧
    ∃ m m', newAnalysedGraphAny o o t = some (.error m) ∧ newAnalysedGraph t = .error m' ∧ m ≠ m' :=
  ⟨⟨true, false, [], [.graphAttrs [[⟨b!"x", b!"1"⟩, ⟨b!"y", b!"2"⟩]]]⟩, fun _ m => m.reverse, fun _ m => List.reverse_perm m,
    b!"errors: [y is not a valid attribute,x is not a valid attribute]", b!"errors: [x is not a valid attribute,y is not a valid attribute]",
    rfl, rfl, by decide +kernel⟩

/-- A tree with defaults, `graph [..]`, a subgraph and an edge, analysed with reversed orders. -/
def orderTree : Ast.Graph :=
  ⟨true, false, b!"G", [.graphAttrs [[⟨b!"rankdir", b!"LR"⟩, ⟨b!"color", b!"red"⟩]],
    .sub (b!"S") [.node ⟨b!"a", ⟨[], []⟩⟩ [[⟨b!"label", b!"x"⟩, ⟨b!"color", b!"blue"⟩]]],
    .edge (.node ⟨b!"a", ⟨[], []⟩⟩) [.mk true (.node ⟨b!"b", ⟨[], []⟩⟩)] []]⟩

example : (∀ (i : Nat) (m : Map Str), ((fun _ m => m.reverse : Nat → Map Str → List (Str × Str)) i m).Perm m) ∧
    (∃ g, newAnalysedGraph orderTree = .ok g ∧ newAnalysedGraphAny (fun _ m => m.reverse) (fun _ m => m.reverse) orderTree = some (.ok g) ∧
      g.edges.edges.length = 1) :=
  ⟨fun _ m => List.reverse_perm m, _, rfl, rfl, rfl⟩

end Gographviz.Props
