import Verif.Model.Prelude

/-!
# A multimap as a list of pairs
-/

namespace WS.Spec

/-- Distinct elements, in the order of their first appearances. -/
def firsts : List PyStr → List PyStr
  | [] => []
  | x :: xs => x :: (firsts xs).filter fun y => y ≠ x

/-- The values under the names equivalent to `name`, in order.  Names are equivalent when `low`
maps them to the same string. -/
def valuesOf (low : PyStr → PyStr) (l : List (PyStr × PyStr)) (name : PyStr) : List PyStr :=
  (l.filter fun p => low p.1 = low name).map (·.2)

/-- Operations that change a multimap. -/
inductive HOp where
  | set (name value : PyStr)
  | del (name : PyStr)
  | clear

/-- The pairs after an operation. -/
def HOp.spec (low : PyStr → PyStr) (l : List (PyStr × PyStr)) : HOp → List (PyStr × PyStr)
  | set n v => l ++ [(n, v)]
  | del n => l.filter fun p => low p.1 ≠ low n
  | clear => []

end WS.Spec
