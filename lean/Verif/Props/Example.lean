import Verif.Model.Graph
/-! A concrete, non-trivial reachable graph, used to show that hypotheses of the property theorems can be met. -/
namespace Gographviz.Example

open Gographviz

/-- `digraph G` with nodes `a`, `b`, `c`, subgraph `S` (containing `b`), cluster `cluster_x` (containing `c`), edges with ports. -/
def ops : List Op := [
  .setName (b!"G"), .setDir true, .setStrict false,
  .addSubGraph (b!"G") (b!"S") [(b!"color", b!"red")],
  .addSubGraph (b!"G") (b!"cluster_x") [],
  .addNode (b!"G") (b!"a") [(b!"label", b!"one"), (b!"shape", b!"box")],
  .addNode (b!"S") (b!"b") [],
  .addNode (b!"cluster_x") (b!"c") [(b!"color", b!"blue")],
  .addAttr (b!"G") (b!"rankdir") (b!"LR"),
  .addPortEdge (b!"a") (b!"p") (b!"b") (b!"q") true [(b!"weight", b!"2")],
  .addEdge (b!"b") (b!"c") true [],
  .addEdge (b!"a") (b!"b") true [],
  .addNode (b!"G") (b!"a") [(b!"nonsense", b!"1")],
  .addNode (b!"G") (b!"a") [(b!"label", b!"two")]]

/-- The resulting graph. -/
def g : Graph := newGraph.run ops

theorem g_ok : OkHistory newGraph ops := by decide +kernel

theorem g_reachable : Reachable g := Reachable.init.run g_ok

end Gographviz.Example
