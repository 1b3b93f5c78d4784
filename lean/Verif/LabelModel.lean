import Verif.RegionQueryModel
import Verif.GhostModel

/-!
Model of `MESH_LabelPType` (src/par/MESH_LabelPType.c): on every partition the layer of elements at the
partition boundary is labelled as overlap.

The mesh and its labels are given separately: the routine changes labels only.  Faces and regions are
given in the order of `MESH_Next_Face` and `MESH_Next_Region`.  The calls of MPI (rank and size, which are
not used) are left out.
-/
namespace MSTK
namespace Topo

open Ghost (PT)

/-- The labels (`MV_PType`, `ME_PType`, `MF_PType`, `MR_PType`) of the entities of a mesh. -/
structure PLabels where
  v : Nat → PT
  e : Nat → PT
  f : Nat → PT
  r : Nat → PT

/-- Is one of the vertices a ghost or in the overlap, MESH_LabelPType.c:59-65 and 119-125. -/
def anyShared (T : Topo) (p : Nat → PT) : List (Option Nat) → Res Bool
  | [] => .ok false
  | o :: os => do
    let v ← Res.ofOption o
    T.derefV v
    if p v = .ghost ∨ p v = .overlap then pure true else anyShared T p os

/-- The elements with such a vertex are labelled, MESH_LabelPType.c:57-67 and 117-127; `verts` gives
the vertices of an element. -/
def markLoop (T : Topo) (p : Nat → PT) (verts : Nat → Res (List (Option Nat))) :
    List Nat → (Nat → PT) → Res (Nat → PT)
  | [], q => .ok q
  | x :: xs, q => do
    let vs ← verts x
    let b ← T.anyShared p vs
    markLoop T p verts xs (if b then upd q x .overlap else q)

/-- "if (… != PGHOST) … = POVERLAP", MESH_LabelPType.c:78-79, 86-87, 136-137, 144-145, 152-153. -/
def raise (p : Nat → PT) (x : Nat) : Nat → PT := if p x ≠ .ghost then upd p x .overlap else p

/-- The vertices of an element, MESH_LabelPType.c:76-80 and 134-138. -/
def raiseV (T : Topo) : List (Option Nat) → (Nat → PT) → Res (Nat → PT)
  | [], p => .ok p
  | o :: os, p => do
    let v ← Res.ofOption o
    T.derefV v
    raiseV T os (raise p v)

/-- The edges of an element, MESH_LabelPType.c:84-88 and 142-146. -/
def raiseE (T : Topo) : List Nat → (Nat → PT) → Res (Nat → PT)
  | [], p => .ok p
  | x :: xs, p => do T.derefE x; raiseE T xs (raise p x)

/-- The faces of a region, MESH_LabelPType.c:150-154. -/
def raiseF (T : Topo) : List Nat → (Nat → PT) → Res (Nat → PT)
  | [], p => .ok p
  | x :: xs, p => do T.derefF x; raiseF T xs (raise p x)

/-- The second loop over the faces, MESH_LabelPType.c:72-90. -/
def spreadFaces (T : Topo) : List Nat → PLabels → Res PLabels
  | [], L => .ok L
  | f :: fs, L => do
    T.derefF f
    if L.f f ≠ .overlap then spreadFaces T fs L
    else
      let vs ← T.mfVertices f true none
      let pv ← T.raiseV vs L.v
      let es ← T.mfEdges f true none
      let pe ← T.raiseE es L.e
      spreadFaces T fs { L with v := pv, e := pe }

/-- `MESH_LabelPType_Face`, MESH_LabelPType.c:44-92. -/
def labelFaces (T : Topo) (fl : List Nat) (L : PLabels) : Res PLabels := do
  let pf ← T.markLoop L.v (fun f => T.mfVertices f true none) fl L.f
  T.spreadFaces fl { L with f := pf }

/-- `MR_Vertices` where the list is used without a test. -/
def regionVerts (T : Topo) (r : Nat) : Res (List (Option Nat)) := do
  let l ← T.mrVertices r
  Res.ofOption l

/-- The second loop over the regions, MESH_LabelPType.c:131-156.  (The test calls `MV_PType` on the region,
which reads the field all entities have at the same place.) -/
def spreadRegions (T : Topo) : List Nat → PLabels → Res PLabels
  | [], L => .ok L
  | r :: rs, L => do
    T.derefR r
    if L.r r ≠ .overlap then spreadRegions T rs L
    else
      let vs ← T.regionVerts r
      let pv ← T.raiseV vs L.v
      let es ← T.mrEdges r
      let pe ← T.raiseE es L.e
      let fs ← T.mrFaces r
      let pf ← T.raiseF fs L.f
      spreadRegions T rs { L with v := pv, e := pe, f := pf }

/-- `MESH_LabelPType_Region`, MESH_LabelPType.c:100-158. -/
def labelRegions (T : Topo) (rl : List Nat) (L : PLabels) : Res PLabels := do
  let pr ← T.markLoop L.v T.regionVerts rl L.r
  T.spreadRegions rl { L with r := pr }

/-- `MESH_LabelPType`, MESH_LabelPType.c:32-42. -/
def labelPType (T : Topo) (fl rl : List Nat) (topodim : Int) (L : PLabels) : Res PLabels :=
  if topodim = 3 then T.labelRegions rl L
  else if topodim = 2 then T.labelFaces fl L
  else .fatal

end Topo
end MSTK
