import Verif.Spec.Drawing
/-! # What a drawing of a graph with other classes shows -/

namespace Verif
namespace Draw

/-- a box in the picture: index and text -/
structure Box where
  index : Nat
  text : List Char
  deriving DecidableEq, Repr

/-- the text without the two braces at its end -/
def inner : List Char → Option (List Char)
  | [] => none
  | ['}', '}'] => some []
  | c :: s => (inner s).map (c :: ·)

/-- a box, behind its index -/
def readBox (index : Nat) (s : List Char) : Option (Box × List Char) :=
  (lit "[shape=record, label=\"{{".toList s).bind fun s => (upTo '"' s).bind fun a => (inner a.1).bind fun t =>
    (lit ",style=filled,fillcolor=lightblue];\n".toList a.2).map fun r => (⟨index, t⟩, r)

/-- all statements up to the closing brace -/
def readBoxes : Nat → List Char → Option (List Box × List Arrow)
  | 0, _ => none
  | n + 1, s =>
    if s = "}\n".toList then some ([], [])
    else
      match readBox (number (digits s).1) (digits s).2 with
      | some (f, r) => (readBoxes n r).map fun x => (f :: x.1, x.2)
      | none =>
        match readArrow (number (digits s).1) (digits s).2 with
        | some (a, r) => (readBoxes n r).map fun x => (x.1, a :: x.2)
        | none => none

/-- a whole file -/
def readGeneric (s : List Char) : Option (List Box × List Arrow) := (lit header s).bind fun s => readBoxes s.length s

end Draw
end Verif
