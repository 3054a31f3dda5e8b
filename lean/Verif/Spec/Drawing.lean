import Verif.Model.Drawing
/-! # What a drawing shows

A reader for the files: what a drawing program takes from them. -/

namespace Verif
namespace Draw

/-- a frame in the picture: index, name, number of items, types with their number of items -/
structure Shown where
  index : Nat
  name : List Char
  count : Nat
  types : List (List Char × Nat)
  deriving DecidableEq, Repr

/-- an arrow in the picture -/
structure Arrow where
  src : Nat
  tgt : Nat
  text : List Char
  deriving DecidableEq, Repr

/-- the rest behind the literal text `p` -/
def lit : List Char → List Char → Option (List Char)
  | [], s => some s
  | _ :: _, [] => none
  | c :: p, d :: s => if c = d then lit p s else none

/-- the text before the next `c`, and the rest behind it -/
def upTo (c : Char) : List Char → Option (List Char × List Char)
  | [] => none
  | d :: s => if d = c then some ([], s) else (upTo c s).map fun r => (d :: r.1, r.2)

/-- the digits at the start -/
def digits : List Char → List Char × List Char
  | [] => ([], [])
  | d :: s => if d.isDigit then (d :: (digits s).1, (digits s).2) else ([], d :: s)

/-- the number written in digits -/
def number (l : List Char) : Nat := l.foldl (fun n c => 10 * n + (c.toNat - 48)) 0

/-- The text that a cell shows.  A special character must have a backslash before it, otherwise the file is broken. -/
def cellText : List Char → Option (List Char)
  | '\\' :: c :: s => if c ∈ "<>{}|".toList then (cellText s).map (c :: ·) else none
  | c :: s => if c ∈ "<>{}|\\\"".toList then none else (cellText s).map (c :: ·)
  | [] => some []

/-- the cells of a record behind the first line -/
def readTypes : Nat → List Char → Option (List (List Char × Nat))
  | 0, _ => none
  | n + 1, s =>
    if s = ['}'] then some []
    else
      (lit "| {".toList s).bind fun s => (upTo '|' s).bind fun a => (upTo '}' a.2).bind fun b => (cellText a.1).bind fun t =>
        (readTypes n b.2).map fun r => (t, number b.1) :: r

/-- the label of a frame -/
def readRecord (index : Nat) (s : List Char) : Option Shown :=
  (lit "{{".toList s).bind fun s => (upTo '|' s).bind fun a => (upTo '}' a.2).bind fun b => (cellText a.1).bind fun t =>
    (readTypes b.2.length b.2).map fun c => ⟨index, t, number b.1, c⟩

/-- a frame, behind its index -/
def readFrame (index : Nat) (s : List Char) : Option (Shown × List Char) :=
  (lit "[shape=record, label=\"".toList s).bind fun s => (upTo '"' s).bind fun a =>
    (lit ",style=filled,fillcolor=lightblue];\n".toList a.2).bind fun r => (readRecord index a.1).map fun f => (f, r)

/-- an arrow, behind its first index -/
def readArrow (index : Nat) (s : List Char) : Option (Arrow × List Char) :=
  (lit "->".toList s).bind fun s => (lit " [label=\"".toList (digits s).2).bind fun r => (upTo '"' r).bind fun b =>
    (lit ",shape=ellipse,color=red,style=filled,fillcolor=lightcoral];\n".toList b.2).map fun r =>
      (⟨index, number (digits s).1, b.1⟩, r)

/-- all statements up to the closing brace -/
def readAll : Nat → List Char → Option (List Shown × List Arrow)
  | 0, _ => none
  | n + 1, s =>
    if s = "}\n".toList then some ([], [])
    else
      match readFrame (number (digits s).1) (digits s).2 with
      | some (f, r) => (readAll n r).map fun x => (f :: x.1, x.2)
      | none =>
        match readArrow (number (digits s).1) (digits s).2 with
        | some (a, r) => (readAll n r).map fun x => (x.1, a :: x.2)
        | none => none

/-- a whole file -/
def readDrawing (s : List Char) : Option (List Shown × List Arrow) := (lit header s).bind fun s => readAll s.length s

end Draw
end Verif
