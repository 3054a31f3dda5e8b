import Verif.Spec.Demo
import Mathlib.Algebra.Group.Defs
/-! A concrete group that is not commutative, for the examples: the rigid motions of a line (a shift, maybe after turning round). -/

namespace Verif

structure DemoPose where
  turn : Bool
  shift : Int
  deriving DecidableEq, Repr

namespace DemoPose

def mul (a b : DemoPose) : DemoPose := ⟨xor a.turn b.turn, a.shift + if a.turn then -b.shift else b.shift⟩
def inv (a : DemoPose) : DemoPose := ⟨a.turn, if a.turn then a.shift else -a.shift⟩

instance : Group DemoPose where
  mul := mul
  one := ⟨false, 0⟩
  inv := inv
  mul_assoc := by
    rintro ⟨a, i⟩ ⟨b, j⟩ ⟨c, k⟩
    show mul (mul _ _) _ = mul _ (mul _ _)
    cases a <;> cases b <;> cases c <;> simp [mul] <;> omega
  one_mul := by
    rintro ⟨a, i⟩
    show mul ⟨false, 0⟩ _ = _
    simp [mul]
  mul_one := by
    rintro ⟨a, i⟩
    show mul _ ⟨false, 0⟩ = _
    cases a <;> simp [mul]
  inv_mul_cancel := by
    rintro ⟨a, i⟩
    show mul (inv _) _ = ⟨false, 0⟩
    cases a <;> simp [mul, inv] <;> omega

end DemoPose

/-- a shift without turning -/
def sh (n : Int) : DemoPose := ⟨false, n⟩
/-- a shift after turning round -/
def tn (n : Int) : DemoPose := ⟨true, n⟩

end Verif
