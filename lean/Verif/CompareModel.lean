import Verif.Res
import Mathlib.Data.List.Sort
/-!
Model of `src/misc/compare_funcs.c`.  A C `int` is an `Int` in the range of `isInt`; signed overflow is
undefined behaviour.
-/
namespace MSTK

def isInt (x : Int) : Prop := -2147483648 ≤ x ∧ x ≤ 2147483647
instance (x : Int) : Decidable (isInt x) := inferInstanceAs (Decidable (_ ∧ _))

/-- `compareINT`, compare_funcs.c:19-21; also `compareGlobalID` (23-25), `compareID` (27-29) and
`compareValence` (158-160) applied to the IDs / valences of the two entities. -/
def cmpInt (a b : Int) : Res Int := if isInt (a - b) then .ok (a - b) else .ub

/-- `compareCoorDouble`, compare_funcs.c:32-45, over rationals (floating-point rounding of the
differences is not modelled); `compareVertexCoor` (47-52) applies it to vertex coordinates. -/
def cmpCoor (tol : Rat) (a b : Rat × Rat × Rat) : Int :=
  if a.1 - b.1 > tol then 1 else if b.1 - a.1 > tol then -1
  else if a.2.1 - b.2.1 > tol then 1 else if b.2.1 - a.2.1 > tol then -1
  else if a.2.2 - b.2.2 > tol then 1 else if b.2.2 - a.2.2 > tol then -1
  else 0

/-- `compareEdgeINT`, compare_funcs.c:55-71; `compareEdgeID` (74-91) applies the same comparison to
the global IDs of the end vertices. -/
def cmpEdge (a b : Int × Int) : Int :=
  let (max1, min1) := if a.1 < a.2 then (a.2, a.1) else (a.1, a.2)
  let (max2, min2) := if b.1 < b.2 then (b.2, b.1) else (b.1, b.2)
  if max1 > max2 then 1 else if max1 < max2 then -1
  else if min1 > min2 then 1 else if min1 < min2 then -1 else 0

/-- the comparison loop of `compareFaceINT` / `compareFaceID`, compare_funcs.c:114-119, 137-150. -/
def cmpLex : List Int → List Int → Int
  | a :: as, b :: bs => if a > b then 1 else if a < b then -1 else cmpLex as bs
  | _, _ => 0

/-- `compareFaceINT`, compare_funcs.c:94-121 and `compareFaceID`, 123-155 (vertex global IDs).  `qsort` with
`compareINT` is modelled by a sorting function (the C library's contract); the arrays hold `nfv` and then
`nfv` IDs, modelled by the list of IDs. -/
def cmpFace (a b : List Int) : Int :=
  if a.length > b.length then 1 else if a.length < b.length then -1
  else cmpLex (a.insertionSort (· ≤ ·)) (b.insertionSort (· ≤ ·))

end MSTK
