import Verif.Model.Basic
/-! Concrete frame and edge properties for the examples next to the theorems. -/

namespace Verif

/-- a frame property with an id and a payload -/
structure DemoFrame where
  id : FrameId
  data : Nat
  deriving DecidableEq, Repr

instance : FrameProp DemoFrame where
  dflt := ⟨"", 0⟩
  setId f p := { p with id := f }
  getId p := p.id
  getId_setId _ _ := rfl

/-- translations along a line -/
instance : EdgeProp Int where
  inverse x := -x

/-- the returned value, for examples -/
def Res.val? {σ α : Type} : Res σ α → Option α
  | .ok a _ => some a
  | _ => none

/-- the thrown exception, for examples -/
def Res.exn? {σ α : Type} : Res σ α → Option Exn
  | .throw e _ => some e
  | _ => none

end Verif
