import Verif.Model.Parser
/-!
internal/parser/main.go: `Parse` of an `io.Reader` and `ParseFile`. The world (the reader, the file system) is a script of answers: the model says what the functions ask and
what they do with the answers.
-/
namespace Gographviz.Parse

open Gographviz

/-- The error of one call of `Read`: `io.EOF` or another error. -/
inductive ReadErr where
  | eof
  | other (msg : Str)
  deriving DecidableEq, Repr

/-- The answer of one call of `Read`: the bytes put into the buffer, and the error. -/
abbrev Reply := Str × Option ReadErr

/-- What happens on the file: opened (with an error?), read (room in the buffer, answer), closed (with an error?). -/
inductive FileEv where
  | opened (err : Option Str)
  | read (room : Nat) (r : Reply)
  | closed (err : Option Str)
  deriving DecidableEq, Repr

/-- The outcome of `ioutil.ReadAll`: returned (bytes, error), a panic (a reader that claims more bytes than the buffer has room for), or still reading (the script is at its end). -/
inductive AllRes where
  | ret (b : Str) (err : Option Str)
  | panic
  | reading
  deriving DecidableEq, Repr

/-- `ioutil.ReadAll` (standard library, called in internal/parser/main.go:53) as `io.ReadAll` implements it: `cap` is the capacity of the buffer, `b` its contents; a full buffer grows
to any larger capacity. -/
def readAll (grow : Nat → Nat) (cap : Nat) (b : Str) : List Reply → AllRes × List FileEv
  | [] => (.reading, [])
  | (d, e) :: rs =>
    let ev := FileEv.read (cap - b.length) (d, e)
    if d.length > cap - b.length then (.panic, [ev])
    else
      let b' := b ++ d
      match e with
      | some .eof => (.ret b' none, [ev])
      | some (.other m) => (.ret b' (some m), [ev])
      | none =>
        let r := readAll grow (if b'.length = cap then grow cap else cap) b' rs
        (r.1, ev :: r.2)

/-- The outcome of `Parse` and `ParseFile`: an error of the reader or the file system, what `ParseBytes` returns, a panic of `ReadAll`, or still reading. -/
inductive FileRes where
  | ioErr (msg : Str)
  | parsed (r : PRes Ast.Graph)
  | panic
  | reading

/-- internal/parser/main.go:52-58 `Parse`. -/
def parseReader (rnd : Nat → Nat) (cnt : Nat) (grow : Nat → Nat) (script : List Reply) : FileRes × List FileEv :=
  match readAll grow 512 [] script with
  | (.ret _ (some m), evs) => (.ioErr m, evs)
  | (.ret b none, evs) => (.parsed (parseBytes rnd cnt b), evs)
  | (.panic, evs) => (.panic, evs)
  | (.reading, evs) => (.reading, evs)

/-- internal/parser/main.go:62-72 `ParseFile`: the file system answers `os.Open` with `openErr` and `Close` with `closeErr`. (`ParseBytes` does not panic, C34.) -/
def parseFile (rnd : Nat → Nat) (cnt : Nat) (grow : Nat → Nat) (openErr : Option Str) (script : List Reply) (closeErr : Option Str) : FileRes × List FileEv :=
  match openErr with
  | some m => (.ioErr m, [.opened (some m)])
  | none => match parseReader rnd cnt grow script with
    | (.panic, evs) => (.panic, .opened none :: evs)
    | (.reading, evs) => (.reading, .opened none :: evs)
    | (r, evs) => match closeErr with
      | some m => (.ioErr m, .opened none :: evs ++ [.closed (some m)])
      | none => (r, .opened none :: evs ++ [.closed none])

end Gographviz.Parse
