import Verif.Model.Reader
/-!
How a reader may deliver bytes: in pieces of any size (also empty ones), with the end reported together with the last piece or alone.
-/
namespace Gographviz.Spec

open Gographviz Gographviz.Parse

/-- The answers deliver exactly `c`, then the end. -/
inductive Delivers : Str → List Reply → Prop where
  | last (d : Str) (more : List Reply) : Delivers d ((d, some .eof) :: more)
  | piece (d c : Str) (rs : List Reply) : Delivers c rs → Delivers (d ++ c) ((d, none) :: rs)

/-- The answers deliver some bytes and then fail with `m`. -/
inductive Fails : Str → List Reply → Prop where
  | now (d m : Str) (more : List Reply) : Fails m ((d, some (.other m)) :: more)
  | piece (d m : Str) (rs : List Reply) : Fails m rs → Fails m ((d, none) :: rs)

/-- The reader keeps to its contract in these events: it never claims more bytes than there was room for. -/
def Honest (evs : List FileEv) : Prop := ∀ room d e, FileEv.read room (d, e) ∈ evs → d.length ≤ room

end Gographviz.Spec
