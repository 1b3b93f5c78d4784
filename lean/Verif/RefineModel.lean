import Verif.BuildModel
import Verif.RegionQueryModel

/-!
Model of `MESH_Tri2Quad` (src/hilev/MESH_Tri2Quad.c) and `MESH_Tet2Hex` (src/hilev/MESH_Tet2Hex.c): a new
mesh of quadrilaterals is made from a mesh of triangles, and a new mesh of hexahedra from a mesh of
tetrahedra, with a new vertex for every vertex, edge, face (and region) of the old mesh.

Vertices, edges, faces and regions of the old mesh are given in the order of `MESH_Next_Vertex` etc.
Instead of coordinates the model keeps, for every new vertex, the old vertices whose coordinates are
averaged.  The attributes "vertex", "edge", "face" and "region" of the old mesh, which hold the new vertex
of an entity, are maps (none: no value or NULL); the old mesh is not changed in any other way, and the
attributes are removed at the end.
-/
namespace MSTK
namespace Topo

/-- Classification (`GEntDim`, `GEntID`) of the entities of the old mesh. -/
structure ModelCls where
  v : Nat → Nat × Nat
  e : Nat → Nat × Nat
  f : Nat → Nat × Nat
  r : Nat → Nat × Nat

/-- The new mesh: its topology; for each of its vertices the old vertices averaged and the
classification; for each of its cells (faces or regions) the classification. -/
structure Conv where
  T : Topo
  pts : List (List Nat)
  vcls : List (Nat × Nat)
  cells : List (Nat × Nat)

/-- `MESH_New`, MESH_Tri2Quad.c:53, MESH_Tet2Hex.c:55 -/
def Conv.start : Conv := ⟨Topo.empty, [], [], []⟩

/-- The coordinates of the vertices of a list are read (`MV_Coords`). -/
def coordsOf (T : Topo) : List (Option Nat) → Res (List Nat)
  | [] => .ok []
  | o :: os => do
    let v ← Res.ofOption o
    T.derefV v
    let vs ← coordsOf T os
    pure (v :: vs)

/-- `MV_New`, `MV_Set_Coords`, `MV_Set_GEntDim`, `MV_Set_GEntID`, MESH_Tri2Quad.c:64-67, 85-88, 107-110 -/
def Conv.addPoint (S : Conv) (ps : List Nat) (c : Nat × Nat) : Conv × Nat :=
  ({ S with T := S.T.mvNew.1, pts := S.pts ++ [ps], vcls := S.vcls ++ [c] }, S.T.mvNew.2)

/-- The loops which make the new vertices and set the attribute of the old entity, MESH_Tri2Quad.c:60-70,
76-91, 97-114, MESH_Tet2Hex.c:62-72, 78-93, 99-116, 122-139.  `pt` gives the old vertices averaged, or
`none` when the mesh is refused ("return 0"). -/
def addPoints (pt : Nat → Res (Option (List Nat))) (cls : Nat → Nat × Nat) :
    List Nat → Conv → (Nat → Option Nat) → Res (Option (Conv × (Nat → Option Nat)))
  | [], S, m => .ok (some (S, m))
  | x :: xs, S, m => do
    match ← pt x with
    | none => pure none
    | some ps =>
      let p := S.addPoint ps (cls x)
      addPoints pt cls xs p.1 (upd m x (some p.2))

/-- The vertex itself, MESH_Tri2Quad.c:62. -/
def vertexPt (T : Topo) (v : Nat) : Res (Option (List Nat)) := do
  T.derefV v
  pure (some [v])

/-- The ends of an edge, MESH_Tri2Quad.c:78-83. -/
def edgePt (T : Topo) (e : Nat) : Res (Option (List Nat)) := do
  let a ← T.meVertex e false
  let b ← T.meVertex e true
  let vs ← T.coordsOf [a, b]
  pure (some vs)

/-- `MF_Coords` (MF_Coords.c:17-33) into an array of 100 entries and the test for triangles,
MESH_Tri2Quad.c:99-105 -/
def facePt (T : Topo) (f : Nat) : Res (Option (List Nat)) := do
  let l ← T.mfVertices f true none
  if l.length > 100 then .ub else
  let vs ← T.coordsOf l
  if vs.length ≠ 3 then pure none else pure (some vs)

/-- `MR_Coords` (MR_Coords.c:17-33) into an array of 100 entries, MESH_Tet2Hex.c:124-131 -/
def regionPt (T : Topo) (r : Nat) : Res (Option (List Nat)) := do
  let o ← T.mrVertices r
  let l ← Res.ofOption o
  if l.length > 100 then .ub else
  let vs ← T.coordsOf l
  pure (some vs)

/-- Entries `n`, `n+1`, ... of the array `ptr_v_face` or `ptr_v_regn` are set to the attribute values of the
given entities, MESH_Tri2Quad.c:125-141, MESH_Tet2Hex.c:148-175.  The value of a NULL entity is UB, so is a
write past the end.  (`MV_Coords` of a NULL value is UB in the code; here it is UB when the entry is used.) -/
def fillAt (m : Nat → Option Nat) : List (Option Nat) → Nat → List (Option Nat) → Res (List (Option Nat))
  | [], _, a => .ok a
  | o :: os, n, a => do
    let x ← Res.ofOption o
    if n < a.length then fillAt m os (n+1) (a.set n (m x)) else .ub

/-- `ptr_v_quad[i] = ptr_v_face[tri_quad[k][i]]`, MESH_Tri2Quad.c:144, MESH_Tet2Hex.c:178.  An entry that is NULL
or has not been set is UB when it is given to `MF_Set_Vertices` or `MR_Set_Vertices`. -/
def pickAll (a : List (Option Nat)) : List Nat → Res (List Nat)
  | [] => .ok []
  | i :: is => do
    let x ← Res.ofOption (a[i]?.join)
    let xs ← pickAll a is
    pure (x :: xs)

/-- The array `ptr_v_face[7]` for one triangle, MESH_Tri2Quad.c:121-141 -/
def triArray (T : Topo) (mv me mf : Nat → Option Nat) (f : Nat) : Res (List (Option Nat)) := do
  let vs ← T.mfVertices f true none
  let es ← T.mfEdges f true (vs[0]?.join)
  let a ← fillAt mv [vs[0]?.join, vs[1]?.join, vs[2]?.join] 0 (List.replicate 7 none)
  let a ← fillAt me [es[0]?, es[1]?, es[2]?] vs.length a
  fillAt mf [some f] (vs.length + 3) a

/-- `tri_quad`, MESH_Tri2Quad.c:45-47 -/
def triQuad : List (List Nat) := [[0,3,6,5], [3,1,4,6], [5,6,4,2]]

/-- The new faces of one triangle, MESH_Tri2Quad.c:143-152 -/
def addQuads (c : Nat × Nat) (a : List (Option Nat)) : List (List Nat) → Conv → Res Conv
  | [], S => .ok S
  | row :: rows, S => do
    let q ← pickAll a row
    let T' ← S.T.addFace q
    addQuads c a rows { S with T := T', cells := S.cells ++ [c] }

/-- The loop over the triangles, MESH_Tri2Quad.c:119-156 -/
def quadLoop (T : Topo) (G : ModelCls) (mv me mf : Nat → Option Nat) : List Nat → Conv → Res Conv
  | [], S => .ok S
  | f :: fs, S => do
    let a ← T.triArray mv me mf f
    let S ← addQuads (G.f f) a triQuad S
    quadLoop T G mv me mf fs S

/-- `MESH_Tri2Quad`, MESH_Tri2Quad.c:27-182.  `none` is the return value 0 (the mesh made so far holds
vertices only). -/
def tri2quad (T : Topo) (G : ModelCls) (vl el fl : List Nat) : Res (Option Conv) := do
  match ← addPoints T.vertexPt G.v vl Conv.start (fun _ => none) with
  | none => pure none
  | some (S, mv) =>
  match ← addPoints T.edgePt G.e el S (fun _ => none) with
  | none => pure none
  | some (S, me) =>
  match ← addPoints T.facePt G.f fl S (fun _ => none) with
  | none => pure none
  | some (S, mf) =>
    let S ← T.quadLoop G mv me mf fl S
    pure (some S)

/-- The pairs of the loop MESH_Tet2Hex.c:153-154 -/
def tetPairs : List (Nat × Nat) := (List.range 4).flatMap fun i => (List.range (4 - (i+1))).map fun j => (i, i+1+j)

/-- The triples of the loop MESH_Tet2Hex.c:163-165 -/
def tetTriples : List (List Nat) := (List.range 4).map fun i => (List.range 3).map fun j => (i + j + 1) % 4

/-- `MVs_CommonEdge(old_ptr_v_regn[i], old_ptr_v_regn[j])`, MESH_Tet2Hex.c:155 -/
def sideEdges (T : Topo) (o : List (Option Nat)) : List (Nat × Nat) → Res (List (Option Nat))
  | [] => .ok []
  | (i, j) :: ps => do
    let a ← Res.ofOption (o[i]?.join)
    let b ← Res.ofOption (o[j]?.join)
    let e ← T.mvsCommonEdge a b
    let es ← sideEdges T o ps
    pure (e :: es)

/-- `MVs_CommonFace(3, ptr_v_face)`, MESH_Tet2Hex.c:164-166 -/
def sideFaces (T : Topo) (o : List (Option Nat)) : List (List Nat) → Res (List (Option Nat))
  | [] => .ok []
  | t :: ts => do
    let vs ← pickAll o t
    let f ← T.mvsCommonFace vs
    let fs ← sideFaces T o ts
    pure (f :: fs)

/-- The array `ptr_v_regn[15]` for one tetrahedron, MESH_Tet2Hex.c:145-175.  (The queries are made before the
entries are written; in the code they alternate.) -/
def tetArray (T : Topo) (mv me mf mr : Nat → Option Nat) (r : Nat) : Res (List (Option Nat)) := do
  let o ← T.mrVertices r
  let vs ← Res.ofOption o
  let old := [vs[0]?.join, vs[1]?.join, vs[2]?.join, vs[3]?.join]
  let a ← fillAt mv old 0 (List.replicate 15 none)
  let es ← T.sideEdges old tetPairs
  let a ← fillAt me es vs.length a
  let fs ← T.sideFaces old tetTriples
  let a ← fillAt mf fs (vs.length + 6) a
  fillAt mr [some r] (vs.length + 10) a

/-- `tet_hex`, MESH_Tet2Hex.c:47-50 -/
def tetHex : List (List Nat) :=
  [[0,4,13,5,6,12,14,11], [1,7,13,4,8,10,14,12], [2,5,13,7,9,11,14,10], [3,6,11,9,8,12,14,10]]

/-- The new regions of one tetrahedron, MESH_Tet2Hex.c:177-186 -/
def addHexes (c : Nat × Nat) (a : List (Option Nat)) : List (List Nat) → Conv → Res Conv
  | [], S => .ok S
  | row :: rows, S => do
    let q ← pickAll a row
    let T' ← S.T.addRegion q
    addHexes c a rows { S with T := T', cells := S.cells ++ [c] }

/-- The loop over the tetrahedra, MESH_Tet2Hex.c:143-189 -/
def hexLoop (T : Topo) (G : ModelCls) (mv me mf mr : Nat → Option Nat) : List Nat → Conv → Res Conv
  | [], S => .ok S
  | r :: rs, S => do
    let a ← T.tetArray mv me mf mr r
    let S ← addHexes (G.r r) a tetHex S
    hexLoop T G mv me mf mr rs S

/-- `MESH_Tet2Hex`, MESH_Tet2Hex.c:28-223.  `none` is the return value 0. -/
def tet2hex (T : Topo) (G : ModelCls) (vl el fl rl : List Nat) : Res (Option Conv) := do
  match ← addPoints T.vertexPt G.v vl Conv.start (fun _ => none) with
  | none => pure none
  | some (S, mv) =>
  match ← addPoints T.edgePt G.e el S (fun _ => none) with
  | none => pure none
  | some (S, me) =>
  match ← addPoints T.facePt G.f fl S (fun _ => none) with
  | none => pure none
  | some (S, mf) =>
  match ← addPoints T.regionPt G.r rl S (fun _ => none) with
  | none => pure none
  | some (S, mr) =>
    let S ← T.hexLoop G mv me mf mr rl S
    pure (some S)

end Topo
end MSTK
