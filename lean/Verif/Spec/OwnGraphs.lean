import Verif.Model.GraphMem
import Verif.Spec.Sharing
/-!
What it means that goroutines which work on their own graphs do not disturb each other: each gets the replies that it would get alone.
-/
namespace Gographviz.Spec.OwnGraphs

open Gographviz Gographviz.Heap Gographviz.Threads Gographviz.Spec Gographviz.Spec.Sharing

/-- The call, as the models without goroutines have it: `kvs` are the entries of the map argument and `order` the children of the subgraph, both in the order of
the `range`. -/
def opOf (kvs : List (Str × Str)) (order : List Str) : Change → Op
  | .setStrict b => .setStrict b
  | .setDir b => .setDir b
  | .setName n => .setName n
  | .addPortEdge s sp d dp dir _ => .addPortEdge s sp d dp dir kvs
  | .addEdge s d dir _ => .addEdge s d dir kvs
  | .addNode p n _ => .addNode p n kvs
  | .addAttr p f v => .addAttr p f v
  | .addSubGraph p n _ => .addSubGraph p n kvs
  | .removeNode p n => .removeNode p n
  | .removeSubGraph p n => .removeSubGraph p n order

/-- One more reply. -/
def consReply (x : Reply) : WRes (List Reply) → WRes (List Reply)
  | .ok xs => .ok (x :: xs)
  | .err e => .err e
  | .panic => .panic
  | .diverge => .diverge

/-- The reply to a query, unless it does not return. -/
def replyOf : WRes Out → Option Reply
  | .ok o => some (.out o)
  | .err e => some (.error (some e))
  | .panic => none
  | .diverge => none

/-- What happens instead of a reply. -/
def lost : WRes Out → WRes (List Reply)
  | .diverge => .diverge
  | _ => .panic

/-- A goroutine alone: with the state `σ` (which holds its own graphs only) the commands give these replies and lead to the state `σ'`. The graphs that existed before
are those of `S0`. -/
inductive Alone (ν : Places) (sortE : List Edge → List Edge) (fuel : Nat) (S0 : State) : State → List Cmd → WRes (List Reply) → State → Prop where
  | done {σ : State} : Alone ν sortE fuel S0 σ [] (.ok []) σ
  | new {σ σ' : State} {cs : List Cmd} {r : WRes (List Reply)} :
      Alone ν sortE fuel S0 (σ.act .newGraph).1 cs r σ' → Alone ν sortE fuel S0 σ (.new :: cs) (consReply .created r) σ'
  | change {σ σ' : State} {j : Nat} {c : Change} {cs : List Cmd} {r : WRes (List Reply)} {a : Act} (kvs : List (Str × Str)) (order : List Str) :
      a = .call j (opOf kvs order c) c.arg → a.Ok σ → Alone ν sortE fuel S0 (σ.act a).1 cs r σ' →
      Alone ν sortE fuel S0 σ (.change j c :: cs) (consReply (.error (σ.act a).2) r) σ'
  | ask {σ σ' : State} {j : Nat} {h : HGraph} {q : Query} {x : WRes Out} {y : Reply} {cs : List Cmd} {r : WRes (List Reply)} :
      σ.graphs[j]? = some h → Right ν sortE fuel σ.mem h (valueOf σ.mem h) q x → replyOf x = some y → Alone ν sortE fuel S0 σ cs r σ' →
      Alone ν sortE fuel S0 σ (.ask j q :: cs) (consReply y r) σ'
  | askLost {σ : State} {j : Nat} {h : HGraph} {q : Query} {x : WRes Out} {cs : List Cmd} :
      σ.graphs[j]? = some h → Right ν sortE fuel σ.mem h (valueOf σ.mem h) q x → replyOf x = none → Alone ν sortE fuel S0 σ (.ask j q :: cs) (lost x) σ
  | askShared {σ σ' : State} {n : Nat} {h : HGraph} {q : Query} {x : WRes Out} {y : Reply} {cs : List Cmd} {r : WRes (List Reply)} :
      S0.graphs[n]? = some h → Right .same sortE fuel S0.mem h (valueOf S0.mem h) q x → replyOf x = some y → Alone ν sortE fuel S0 σ cs r σ' →
      Alone ν sortE fuel S0 σ (.askShared n q :: cs) (consReply y r) σ'
  | askSharedLost {σ : State} {n : Nat} {h : HGraph} {q : Query} {x : WRes Out} {cs : List Cmd} :
      S0.graphs[n]? = some h → Right .same sortE fuel S0.mem h (valueOf S0.mem h) q x → replyOf x = none →
      Alone ν sortE fuel S0 σ (.askShared n q :: cs) (lost x) σ

/-- No own graphs yet; the maps that the caller made are there. -/
def noGraphs (S0 : State) : State := ⟨⟨[], [], [], []⟩, [], S0.args⟩

/-- The commands make sense: there are `n` own graphs at the beginning, and all graphs and maps they mention exist. -/
def Sensible (S0 : State) : Nat → List Cmd → Prop
  | _, [] => True
  | n, .new :: cs => Sensible S0 (n + 1) cs
  | n, .change j c :: cs => j < n ∧ (∀ r, c.arg = some r → r < S0.args.length) ∧ Sensible S0 n cs
  | n, .ask j _ :: cs => j < n ∧ Sensible S0 n cs
  | n, .askShared k _ :: cs => k < S0.graphs.length ∧ Sensible S0 n cs

/-- The calls that change the graph number `j` of the goroutine, in order. -/
def changesTo (j : Nat) : List Cmd → List Change
  | [] => []
  | .change k c :: cs => if k = j then c :: changesTo j cs else changesTo j cs
  | _ :: cs => changesTo j cs

/-- How many graphs a goroutine makes. -/
def graphsMade : List Cmd → Nat
  | [] => 0
  | .new :: cs => graphsMade cs + 1
  | _ :: cs => graphsMade cs

/-- These calls, with the entries of their map arguments (the `range` visits each once, in some order). -/
def Calls (S0 : State) : List Change → List Op → Prop
  | [], [] => True
  | c :: cs, op :: ops => (∃ (kvs : List (Str × Str)) (order : List Str), op = opOf kvs order c ∧ (argOf op).Perm ((c.arg.bind (S0.args[·]?)).getD [])) ∧ Calls S0 cs ops
  | _, _ => False

/-! ### graphs in memory -/

/-- The attribute map at an address. -/
def mapIn (w : World) (a : Nat) : Attrs := match w (.map a) with
  | some (.map m) => m
  | _ => []

/-- The node at an address. -/
def nodeIn (w : World) (p : Nat) : Node := match w (.node p) with
  | some (.node o) => ⟨o.name, mapIn w o.attrs⟩
  | _ => ⟨[], []⟩

/-- The edge at an address. -/
def edgeIn (w : World) (p : Nat) : Edge := match w (.edge p) with
  | some (.edge o) => ⟨o.src, o.srcPort, o.dst, o.dstPort, o.dir, mapIn w o.attrs⟩
  | _ => ⟨[], [], [], [], false, []⟩

/-- The subgraph at an address. -/
def subIn (w : World) (p : Nat) : SubGraph := match w (.sub p) with
  | some (.sub o) => ⟨mapIn w o.attrs, o.name⟩
  | _ => ⟨[], []⟩

/-- The contents of the graph at an address. -/
def contentsIn (w : World) (n : Nat) : Option Contents := match w (.graph n) with
  | some (.graph g) => some ⟨g.name, g.directed, g.strict, mapIn w g.attrs, g.list.map (nodeIn w), g.edges.map (edgeIn w),
      g.subGraphs.map fun e => (e.1, subIn w e.2), g.relations⟩
  | _ => none

/-- Goroutine `i` executes the commands `cmds i`; nothing has happened yet. -/
def working {ι : Type} (sorter : Nat → SortTree) (fuel : Nat) (cmds : ι → List Cmd) (S0 : State) : Conf ι (List Reply × List Nat) :=
  ⟨fun i => scriptM sorter fuel [] (cmds i), worldOf S0⟩

/-- The replies without the addresses of the graphs. -/
def repliesOf : WRes (List Reply × List Nat) → WRes (List Reply)
  | .ok x => .ok x.1
  | .err e => .err e
  | .panic => .panic
  | .diverge => .diverge

end Gographviz.Spec.OwnGraphs
