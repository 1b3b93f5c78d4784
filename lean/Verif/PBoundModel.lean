import Verif.PartModel
import Verif.PartSpec

/-!
`MESH_BuildPBoundary` (src/par/MESH_BuildPBoundary.c): marking what is on the boundary between parts.
`G` is the whole mesh, `L` the piece, `up` the attribute "Local2Global" of the piece; the state is the
data (`PDat`) of the entities of the piece.  A missing original is reported as an error, which does not
stop the program, and then NULL is dereferenced.
-/
namespace MSTK
namespace Prt
open File Copy

variable {D : Type}

/-- `..._Flag_OnParBoundary`, MEntity.c:754-756. -/
def flag (par : Nat → Nat → PDat) (k l : Nat) : Nat → Nat → PDat := upd2 par k l { par k l with onPB := true }
/-- `..._Set_PType(..., PINTERIOR)`, MEntity.c:750-752; `PINTERIOR` is 0 (MSTK_types.h). -/
def interior (par : Nat → Nat → PDat) (k l : Nat) : Nat → Nat → PDat := upd2 par k l { par k l with ptype := 0 }

/-- `List_Num_Entries` of the answer to a query, List.c:160-162: NULL is dereferenced. -/
def num (q : Res (Option (List Nat))) : Res Nat := do
  let o ← q
  let l ← Res.ofOption o
  pure l.length

/-- an edge and its two vertices, MESH_BuildPBoundary.c:85-94, 181-187, 222-229 -/
def flagEdge (L : FMesh D) (e : Nat) (par : Nat → Nat → PDat) : Res (Nat → Nat → PDat) := do
  let par := flag par 1 e
  let a ← L.T.meVertex e false
  let a ← Res.ofOption a
  let par := flag par 0 a
  let b ← L.T.meVertex e true
  let b ← Res.ofOption b
  pure (flag par 0 b)

/-- An edge, MESH_BuildPBoundary.c:72-101 (surface, `skip` false), 204-236 (volume, `skip` true: an edge
that is flagged is left alone). -/
def edgeStep (G L : FMesh D) (up : Nat → Nat → Option Nat) (skip : Bool) (e : Nat) (par : Nat → Nat → PDat) :
    Res (Nat → Nat → PDat) :=
  if skip && (par 1 e).onPB then .ok par
  else do
    let g ← Res.ofOption (up 1 e)
    let a ← num (L.T.meFaces e)
    let b ← num (G.T.meFaces g)
    if a ≠ b then flagEdge L e par else pure (interior par 1 e)

/-- A vertex, MESH_BuildPBoundary.c:112-134, 240-262. -/
def vertexStep (G L : FMesh D) (up : Nat → Nat → Option Nat) (v : Nat) (par : Nat → Nat → PDat) :
    Res (Nat → Nat → PDat) :=
  if (par 0 v).onPB then .ok par
  else do
    let g ← Res.ofOption (up 0 v)
    let a ← num (L.T.mvEdges v)
    let b ← num (G.T.mvEdges g)
    pure (if a ≠ b then flag par 0 v else interior par 0 v)

/-- A face of a volume mesh, MESH_BuildPBoundary.c:164-197. -/
def faceStep (G L : FMesh D) (up : Nat → Nat → Option Nat) (f : Nat) (par : Nat → Nat → PDat) :
    Res (Nat → Nat → PDat) := do
  let g ← Res.ofOption (up 2 f)
  let a ← num (L.T.mfRegions f)
  let b ← num (G.T.mfRegions g)
  if a ≠ b then do
    let es ← L.T.mfEdges f true none
    loop (flagEdge L) es (flag par 2 f)
  else pure (interior par 2 f)

/-- `MESH_Surf_BuildPBoundary`, MESH_BuildPBoundary.c:52-137. -/
def surfBoundary (G L : FMesh D) (up : Nat → Nat → Option Nat) (par : Nat → Nat → PDat) : Res (Nat → Nat → PDat) := do
  let par := L.fl.foldl (fun par f => interior par 2 f) par
  let par ← loop (edgeStep G L up false) L.el par
  loop (vertexStep G L up) L.vl par

/-- `MESH_Vol_BuildPBoundary`, MESH_BuildPBoundary.c:141-265. -/
def volBoundary (G L : FMesh D) (up : Nat → Nat → Option Nat) (par : Nat → Nat → PDat) : Res (Nat → Nat → PDat) := do
  let par := L.rl.foldl (fun par r => interior par 3 r) par
  let par ← loop (faceStep G L up) L.fl par
  let par ← loop (edgeStep G L up true) L.el par
  loop (vertexStep G L up) L.vl par

/-- `MESH_BuildPBoundary(mesh,submesh)`, MESH_BuildPBoundary.c:35-50. -/
def buildPBoundary (G L : FMesh D) (up : Nat → Nat → Option Nat) (par : Nat → Nat → PDat) : Res (Nat → Nat → PDat) :=
  if G.rl ≠ [] then volBoundary G L up par
  else if G.fl ≠ [] then surfBoundary G L up par
  else .fatal

end Prt
end MSTK
