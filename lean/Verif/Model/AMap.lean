/-!
# Association maps

Model of `std::unordered_map` / `std::map` with at most one value per key.  A list of pairs; new keys are appended, an
existing key keeps its place.  (Simplification: the iteration order of the C++ hash maps is unspecified; here it is
the order of insertion.  Theorems about iteration are stated up to order.  C100 shows when the order matters to tree views.)
-/

namespace Verif

abbrev AMap (K V : Type) := List (K × V)

namespace AMap
variable {K V : Type} [DecidableEq K]

/-- `map.find(k)` -/
def get : AMap K V → K → Option V
  | [], _ => none
  | (k', v) :: m, k => if k' = k then some v else get m k

/-- `map[k] = v` -/
def set : AMap K V → K → V → AMap K V
  | [], k, v => [(k, v)]
  | (k', v') :: m, k, v => if k' = k then (k, v) :: m else (k', v') :: set m k v

/-- `map.erase(k)` -/
def erase (m : AMap K V) (k : K) : AMap K V := m.filter (fun p => p.1 ≠ k)

/-- `map.insert({k, v})`: keeps an existing entry. -/
def insertNew (m : AMap K V) (k : K) (v : V) : AMap K V :=
  match m.get k with
  | some _ => m
  | none => m ++ [(k, v)]

/-- The keys in iteration order. -/
def keys (m : AMap K V) : List K := m.map (·.1)

end AMap
end Verif
