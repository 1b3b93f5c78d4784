import Verif.BuildModel

/-!
`MESH_InitFromGenDesc` (src/hilev/MESH_InitFromGenDesc.c): a mesh from lists of points, faces and
regions.
-/
namespace MSTK
namespace Topo

/-- The mesh with the coordinates of the vertices and the IDs of the entities; `P` is the type of the
points (`double[3]` in the code). -/
structure GenMesh (P : Type) where
  T : Topo
  pos : Nat → Option P
  vid : Nat → Nat
  fid : Nat → Nat
  rid : Nat → Nat

/-- a mesh without entities -/
def GenMesh.empty (P : Type) : GenMesh P := ⟨Topo.empty, fun _ => none, fun _ => 0, fun _ => 0, fun _ => 0⟩

/-- `verts[i] = MV_New(mesh); MV_Set_Coords(verts[i],xyz[i]); MV_Set_ID(verts[i],i+1);` for all points,
MESH_InitFromGenDesc.c:35-40; also the array `verts`. -/
def genVerts {P : Type} : Nat → List P → GenMesh P → GenMesh P × List Nat
  | _, [], M => (M, [])
  | i, x :: xs, M =>
    let p := M.T.mvNew
    let q := genVerts (i+1) xs { M with T := p.1, pos := upd M.pos p.2 (some x), vid := upd M.vid p.2 (i+1) }
    (q.1, p.2 :: q.2)

/-- The loop over the faces, MESH_InitFromGenDesc.c:68-78: `MF_New`, `fverts[j] = verts[fvids[i][j]]`,
`MF_Set_Vertices`, `MF_Set_ID(mf,i+1)`.  An index outside of `verts` is undefined behaviour. -/
def genFaces {P : Type} (verts : List Nat) : Nat → List (List Int) → GenMesh P → Res (GenMesh P)
  | _, [], M => pure M
  | i, c :: cs, M => do
    let p := M.T.mfNew
    let ws ← vertsAt verts c
    let T ← p.1.mfSetVertices p.2 ws
    genFaces verts (i+1) cs { M with T := T, fid := upd M.fid p.2 (i+1) }

/-- The loop over the regions, MESH_InitFromGenDesc.c:95-140; `tm` is `rfvtemplate` (`none` = `NULL`),
row `j` of `rfvtemplate[i]` without its length in front.  The numbers `nrf[i]` are the lengths of
the lists.  `false` is the return value 0. -/
def genRegions {P : Type} (verts : List Nat) (tm : Option (List (List (List Int)))) :
    Nat → List (List Int) → GenMesh P → Res (GenMesh P × Bool)
  | _, [], M => pure (M, true)
  | i, c :: cs, M =>
    match tm with
    | none =>
      if c.length ≤ 6 ∨ c.length = 8 then do
        let p := M.T.mrNew
        let ws ← vertsAt verts c
        let T ← p.1.mrSetVertices p.2 ws
        genRegions verts tm (i+1) cs { M with T := T, rid := upd M.rid p.2 (i+1) }
      else pure (M, false)
    | some rows => do
      let p := M.T.mrNew
      let ws ← vertsAt verts c
      let T ← if c.length = 4 then p.1.mrSetVertices p.2 ws
        else Res.ofOption rows[i]? >>= fun row => p.1.mrSetVerticesPoly p.2 ws row
      genRegions verts tm (i+1) cs { M with T := T, rid := upd M.rid p.2 (i+1) }

/-- `MESH_InitFromGenDesc(mesh,nv,xyz,nf,nfv,fvids,nr,nrv,rvids,nrf,rfvtemplate)`,
MESH_InitFromGenDesc.c:20-148.  The numbers of points, faces, regions and of the vertices of each are
the lengths of the lists.  The warnings are left out. -/
def initFromGenDesc {P : Type} (M : GenMesh P) (xyz : List P) (F R : List (List Int)) (tm : Option (List (List (List Int)))) :
    Res (GenMesh P × Bool) :=
  let q := genVerts 0 xyz M
  if F ≠ [] ∧ R ≠ [] then pure (q.1, false)
  else if F = [] ∧ R = [] then pure (q.1, false)
  else do
    let M ← genFaces q.2 0 F q.1
    genRegions q.2 tm 0 R M

end Topo
end MSTK
