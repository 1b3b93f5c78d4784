import Verif.TopoQuery
import Mathlib.Algebra.Field.Basic
/-!
Lengths of edges, angles between edges and between faces, condition numbers of the corners of
faces.  Model of src/misc/MSTK_VecFuncs.c, src/base/ME_Geometry.c, src/hilev/MEs_Angle.c,
src/hilev/MFs_DihedralAngle.c and src/misc/MF_CondNums.c.

Numbers: an ordered field `F` and a function `sqrt` on it stand for `double` and `sqrt`;
rounding, infinities and NaN are not modelled.  The topology is that of `TopoModel.lean`
(representation F1); `xyz v` are the coordinates of vertex `v`.
-/
namespace MSTK
namespace Geo

variable {F : Type}

/-- `double a[3]` -/
abbrev V3 (F : Type) := F × F × F

section vectors
variable [Field F]

/-- `MSTK_VDiff3`, MSTK_VecFuncs.c:17-19. -/
def vdiff (a b : V3 F) : V3 F := (a.1 - b.1, a.2.1 - b.2.1, a.2.2 - b.2.2)

/-- `MSTK_VSum3`, MSTK_VecFuncs.c:21-23. -/
def vsum (a b : V3 F) : V3 F := (a.1 + b.1, a.2.1 + b.2.1, a.2.2 + b.2.2)

/-- `MSTK_VScale3`, MSTK_VecFuncs.c:25-27. -/
def vscale (a : V3 F) (s : F) : V3 F := (a.1 * s, a.2.1 * s, a.2.2 * s)

/-- `MSTK_VLenSqr3`, MSTK_VecFuncs.c:33-35. -/
def vlenSqr (a : V3 F) : F := a.1 * a.1 + a.2.1 * a.2.1 + a.2.2 * a.2.2

/-- `MSTK_VLen3`, MSTK_VecFuncs.c:29-31. -/
def vlen (sqrt : F → F) (a : V3 F) : F := sqrt (a.1 * a.1 + a.2.1 * a.2.1 + a.2.2 * a.2.2)

/-- `MSTK_VDot3`, MSTK_VecFuncs.c:50-52. -/
def vdot (a b : V3 F) : F := a.1 * b.1 + a.2.1 * b.2.1 + a.2.2 * b.2.2

/-- `MSTK_VCross3`, MSTK_VecFuncs.c:54-58. -/
def vcross (a b : V3 F) : V3 F :=
  (a.2.1 * b.2.2 - a.2.2 * b.2.1, a.2.2 * b.1 - a.1 * b.2.2, a.1 * b.2.1 - a.2.1 * b.1)

/-- `MSTK_VNeg3`, MSTK_VecFuncs.c:64-66. -/
def vneg (a : V3 F) : V3 F := (-a.1, -a.2.1, -a.2.2)

/-- `MSTK_VNormalize3`, MSTK_VecFuncs.c:37-48: vectors of length 1.0e-28 or less are left alone. -/
def vnormalize [LinearOrder F] (sqrt : F → F) (a : V3 F) : V3 F :=
  let len := sqrt (a.1 * a.1 + a.2.1 * a.2.1 + a.2.2 * a.2.2)
  if len ≤ 1 / 10 ^ 28 then a else (a.1 / len, a.2.1 / len, a.2.2 / len)

end vectors

/-- `MV_Coords`, MVertex.c:150-152; the pointer may be NULL. -/
def mvCoords (T : Topo) (xyz : Nat → V3 F) (v : Option Nat) : Res (V3 F) := do
  let v ← Res.ofOption v
  T.derefV v
  pure (xyz v)

/-- "for (i = 0; i < nfv; i++) MV_Coords(List_Entry(fverts,i),fxyz[i])",
MFs_DihedralAngle.c:77-80, MF_CondNums.c:29-32. -/
def coordsOf (T : Topo) (xyz : Nat → V3 F) : List (Option Nat) → Res (List (V3 F))
  | [] => .ok []
  | v :: vs => do
    let x ← mvCoords T xyz v
    let r ← coordsOf T xyz vs
    pure (x :: r)

/-- The same loop into an array of MAXPV2 = 30 (MSTK_defines.h:38) entries: with more vertices it
writes behind the end of the array. -/
def fillCoords (T : Topo) (xyz : Nat → V3 F) (vs : List (Option Nat)) : Res (List (V3 F)) := do
  let r ← coordsOf T xyz vs
  if r.length ≤ 30 then pure r else .ub

section edges
variable [Field F]

/-- the coordinates of the two ends of an edge, ME_Geometry.c:24-25 and 42-43 -/
def meEnds (T : Topo) (xyz : Nat → V3 F) (e : Nat) : Res (V3 F × V3 F) := do
  let v0 ← T.meVertex e false
  let v1 ← T.meVertex e true
  let x0 ← mvCoords T xyz v0
  let x1 ← mvCoords T xyz v1
  pure (x0, x1)

/-- `ME_LenSqr`, ME_Geometry.c:21-32. -/
def meLenSqr (T : Topo) (xyz : Nat → V3 F) (e : Nat) : Res F := do
  let (x0, x1) ← meEnds T xyz e
  pure ((x1.1 - x0.1) * (x1.1 - x0.1) + (x1.2.1 - x0.2.1) * (x1.2.1 - x0.2.1)
    + (x1.2.2 - x0.2.2) * (x1.2.2 - x0.2.2))

/-- `ME_Len`, ME_Geometry.c:34-36. -/
def meLen (T : Topo) (xyz : Nat → V3 F) (sqrt : F → F) (e : Nat) : Res F := do
  let l ← meLenSqr T xyz e
  pure (sqrt l)

/-- `ME_Vec`, ME_Geometry.c:38-47. -/
def meVec (T : Topo) (xyz : Nat → V3 F) (e : Nat) : Res (V3 F) := do
  let (x0, x1) ← meEnds T xyz e
  pure (x1.1 - x0.1, x1.2.1 - x0.2.1, x1.2.2 - x0.2.2)

/-- Which ends are the common vertex, MEs_Angle.c:36-51: the numbers `i` and `j` of the ends, or
`none` when the edges do not meet. -/
def commonEnd (a0 a1 b0 b1 : Option Nat) : Option (Bool × Bool) :=
  if a0 = b0 then some (false, false)
  else if a0 = b1 then some (false, true)
  else if a1 = b0 then some (true, false)
  else if a1 = b1 then some (true, true)
  else none

/-- The unit vector from one end of an edge to the other one, MEs_Angle.c:55-59 and 63-66. -/
def awayFrom [LinearOrder F] (T : Topo) (xyz : Nat → V3 F) (sqrt : F → F) (v w : Option Nat) :
    Res (V3 F) := do
  let x ← mvCoords T xyz v
  let y ← mvCoords T xyz w
  pure (vnormalize sqrt (vdiff y x))

/-- `MEs_Angle`, MEs_Angle.c:25-73: the value returned, and whether an error is reported. -/
def mesAngle [LinearOrder F] (T : Topo) (xyz : Nat → V3 F) (sqrt : F → F) (e1 e2 : Nat) :
    Res (F × Bool) := do
  let a0 ← T.meVertex e1 false
  let a1 ← T.meVertex e1 true
  let b0 ← T.meVertex e2 false
  let b1 ← T.meVertex e2 true
  match commonEnd a0 a1 b0 b1 with
  | none => pure (0, true)
  | some (i, j) =>
    let vec1 ← awayFrom T xyz sqrt (if i then a1 else a0) (if i then a0 else a1)
    let vec2 ← awayFrom T xyz sqrt (if j then b1 else b0) (if j then b0 else b1)
    pure (vdot vec1 vec2, false)

end edges

section faces
variable [Field F]

/-- The geometric center, MFs_DihedralAngle.c:92-98 and 129-135. -/
def center (xs : List (V3 F)) : V3 F :=
  let s := xs.foldl (fun m x => (m.1 + x.1, m.2.1 + x.2.1, m.2.2 + x.2.2)) (0, 0, 0)
  (s.1 / (xs.length : F), s.2.1 / (xs.length : F), s.2.2 / (xs.length : F))

/-- The vector from the first point to the third point of the normal, MFs_DihedralAngle.c:85-101
and 122-138; `tri` is the test made there and `n` the number of vertices. -/
def thirdVec (tri : Bool) (fxyz : List (V3 F)) (n : Nat) : Res (V3 F) := do
  let x0 ← Res.ofOption fxyz[0]?
  if tri then
    let x2 ← Res.ofOption fxyz[2]?
    pure (vdiff x2 x0)
  else
    pure (vdiff (center (fxyz.take n)) x0)

/-- The normal of one face, MFs_DihedralAngle.c:83-104 and 120-141. -/
def dihNormal [LinearOrder F] (sqrt : F → F) (tri : Bool) (fxyz : List (V3 F)) (n : Nat) :
    Res (V3 F) := do
  let x0 ← Res.ofOption fxyz[0]?
  let x1 ← Res.ofOption fxyz[1]?
  let vec2 ← thirdVec tri fxyz n
  pure (vnormalize sqrt (vcross (vdiff x1 x0) vec2))

/-- `MFs_DihedralAngle` with the edge known, MFs_DihedralAngle.c:67-153.  The test for a triangle
is made with the number of vertices of the first face for both faces (85, 122).  The array keeps
the points of the first face behind those of the second one. -/
def dihedralAt [LinearOrder F] (T : Topo) (xyz : Nat → V3 F) (sqrt : F → F) (f1 f2 e : Nat) :
    Res F := do
  let ev0 ← T.meVertex e false
  let ev1 ← T.meVertex e true
  let d1 ← T.mfEdgeDir f1 e
  let vs1 ← T.mfVertices f1 d1 ev0
  let fx1 ← fillCoords T xyz vs1
  let n1 ← dihNormal sqrt (vs1.length == 3) fx1 vs1.length
  let d2 ← T.mfEdgeDir f2 e
  let vs2 ← T.mfVertices f2 (!d2) ev1
  let fx2 ← fillCoords T xyz vs2
  let n2 ← dihNormal sqrt (vs1.length == 3) (fx2 ++ fx1.drop fx2.length) vs2.length
  pure (vdot n1 (vneg n2))

/-- The search for the common edge, MFs_DihedralAngle.c:40-44. -/
def commonEdge (l1 l2 : List Nat) : Option Nat := l1.find? (fun e => decide (e ∈ l2))

/-- `MFs_DihedralAngle`, MFs_DihedralAngle.c:26-154: the value returned, and whether an error is
reported. -/
def mfsDihedral [LinearOrder F] (T : Topo) (xyz : Nat → V3 F) (sqrt : F → F) (f1 f2 : Nat) :
    Option Nat → Res (F × Bool)
  | some e => do
    let c ← dihedralAt T xyz sqrt f1 f2 e
    pure (c, false)
  | none => do
    let l1 ← T.mfEdges f1 true none
    let l2 ← T.mfEdges f2 true none
    match commonEdge l1 l2 with
    | none => pure (0, true)
    | some e =>
      let c ← dihedralAt T xyz sqrt f1 f2 e
      pure (c, false)

/-- A squared length that is not taken as smaller than eps*eps, MF_CondNums.c:44-49, 51-56 and
58-63; eps = 1.0E-14 (22). -/
def clampedSqr [LinearOrder F] (x y : V3 F) : F :=
  let l := (y.1 - x.1) * (y.1 - x.1) + (y.2.1 - x.2.1) * (y.2.1 - x.2.1)
    + (y.2.2 - x.2.2) * (y.2.2 - x.2.2)
  if l < 1 / 10 ^ 14 * (1 / 10 ^ 14) then 1 / 10 ^ 14 * (1 / 10 ^ 14) else l

/-- The number of one corner, MF_CondNums.c:44-70: `x` the corner, `y` the next and `z` the
previous vertex.  `none`: the area is zero and the division has no number as result. -/
def cornerCond [LinearOrder F] (sqrt : F → F) (x y z : V3 F) : Option F :=
  let l10 := clampedSqr x y
  let l20 := clampedSqr x z
  let l21 := clampedSqr y z
  let area := 1 / 4 * sqrt (4 * l10 * l20 - (l10 + l20 - l21) * (l10 + l20 - l21))
  if area = 0 then none else some ((l10 + l20) / (2 * 2 * area))

/-- One round of the loop of MF_CondNums.c:36-71. -/
def condAt [LinearOrder F] (sqrt : F → F) (xs : List (V3 F)) (i : Nat) : Res (Option F) := do
  let x ← Res.ofOption xs[i]?
  let y ← Res.ofOption xs[(i+1) % xs.length]?
  let z ← Res.ofOption xs[(i+xs.length-1) % xs.length]?
  pure (cornerCond sqrt x y z)

/-- `MF_CondNums`, MF_CondNums.c:20-76: the numbers of the corners; their count is the number the
function returns in `*n`.  The array of the caller is taken to be long enough. -/
def mfCondNums [LinearOrder F] (T : Topo) (xyz : Nat → V3 F) (sqrt : F → F) (f : Nat) :
    Res (List (Option F)) := do
  let vs ← T.mfVertices f true none
  let xs ← fillCoords T xyz vs
  Topo.collect (condAt sqrt xs) (List.range xs.length)

end faces

end Geo
end MSTK
