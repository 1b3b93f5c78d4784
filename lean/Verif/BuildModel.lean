import Verif.RegionModel
import Verif.GenModel

/-!
Building a mesh bottom-up from lists of vertices, edges, faces and regions: the sequence of calls made
by the 3D branch of `MESH_Gen_Structured`, src/hilev/MESH_Gen_Structured.c:308-481.
-/
namespace MSTK
namespace Topo

/-- `MV_New(mesh)`, `n` times, MESH_Gen_Structured.c:308-331 -/
def addVerts : Nat → Topo → Topo
  | 0, T => T
  | n+1, T => addVerts n T.mvNew.1

/-- `ME_New`, `ME_Set_Vertex(me,0,a)`, `ME_Set_Vertex(me,1,b)`, MESH_Gen_Structured.c:338-344 -/
def addEdge (T : Topo) (a b : Nat) : Res Topo := do
  let T1 ← T.meNew.1.meSetVertex T.meNew.2 false a
  T1.meSetVertex T.meNew.2 true b

def addEdges : List (Nat × Nat) → Topo → Res Topo
  | [], T => pure T
  | p :: ps, T => do
    let T ← T.addEdge p.1 p.2
    addEdges ps T

/-- `MF_New`, `MF_Set_Vertices(mf,4,fverts)`, MESH_Gen_Structured.c:404-410 -/
def addFace (T : Topo) (c : List Nat) : Res Topo := T.mfNew.1.mfSetVertices T.mfNew.2 c

def addFaces : List (List Nat) → Topo → Res Topo
  | [], T => pure T
  | c :: cs, T => do
    let T ← T.addFace c
    addFaces cs T

/-- `MR_New`, `MR_Set_Vertices(mr,8,rverts,6,NULL)`, MESH_Gen_Structured.c:470-479 -/
def addRegion (T : Topo) (vs : List Nat) : Res Topo := T.mrNew.1.mrSetVertices T.mrNew.2 vs

def addRegions : List (List Nat) → Topo → Res Topo
  | [], T => pure T
  | v :: vs, T => do
    let T ← T.addRegion v
    addRegions vs T

/-- all calls in order, starting from an empty mesh -/
def build (nv : Nat) (E : List (Nat × Nat)) (F R : List (List Nat)) : Res Topo := do
  let T ← addEdges E (addVerts nv empty)
  let T ← addFaces F T
  addRegions R T

end Topo

/-- The 3D branch of `MESH_Gen_Structured` run on the mesh; `verts[i][j][k]` holds what `MV_New`
returned for that position. -/
def Gen.run3 (nx ny nz : Nat) : Res Topo := do
  let p ← Gen.gen3 nx ny nz
  let h := fun x => (p.verts.map (·.1)).idxOf x
  Topo.build p.verts.length (p.edges.map fun e => (h e.1.1, h e.1.2)) (p.faces.map fun f => f.1.map h)
    (p.regions.map fun r => r.1.map h)

/-- The 2D branch run on the mesh.  For each cell `MF_New`, then for each of the four sides
`MVs_CommonEdge`, or `ME_New` and two `ME_Set_Vertex`, then `MF_Set_Edges`, MESH_Gen_Structured.c:165-284:
these are the calls of `MF_Set_Vertices` for the four corners (`mfSetVertices`), written out. -/
def Gen.run2 (nx ny : Nat) : Res Topo := do
  let p ← Gen.gen2 nx ny
  let h := fun x => (p.verts.map (·.1)).idxOf x
  Topo.addFaces ((Gen.cells2 nx ny).map fun c =>
      [h (c.1, c.2), h (c.1+1, c.2), h (c.1+1, c.2+1), h (c.1, c.2+1)])
    (Topo.addVerts p.verts.length Topo.empty)

end MSTK
