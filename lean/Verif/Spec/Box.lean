import Verif.Model.Box
/-! # What a box stands for: a set of points; what a sequence of extensions is about -/

namespace Verif
namespace Box
variable {K : Type} [LinearOrder K]

/-- the point lies in the box -/
def Has (b : Box K) (p : Fin 3 → K) : Prop := ∀ i, b.min i ≤ p i ∧ p i ≤ b.max i

/-- one extension -/
inductive Ext (K : Type)
  | point (p : Fin 3 → K)
  | box (c : Box K)

/-- the points that the extension is about -/
def Ext.Has : Ext K → (Fin 3 → K) → Prop
  | .point p => fun q => q = p
  | .box c => c.Has

/-- carry out extensions one after the other -/
def extendAll (es : List (Ext K)) (b : Box K) : Box K :=
  es.foldl (fun b e => match e with
    | .point p => b.extendPoint p
    | .box c => b.extendBox c) b

end Box
end Verif
