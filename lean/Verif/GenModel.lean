import Verif.Res

/-!
Model of `MESH_Gen_Structured`, src/hilev/MESH_Gen_Structured.c:62-493: the entities the loops create,
in the order of creation, with their vertices and their classification.  Vertices are named by their
grid position `(i,j,k)`, as in the code's array `verts`.

Coordinates (floating point) are left out.  `nx`, `ny`, `nz` are not negative.
-/
namespace MSTK.Gen

/-- a position in the grid -/
abbrev Pos := Nat × Nat × Nat

/-- `GEntDim`, `GEntID` -/
abbrev Cls := Nat × Nat

/-- `(i%n) ? 1 : (i ? 2 : 0)`, MESH_Gen_Structured.c:310 etc. (`n = 0`: division by zero, see `gen3`) -/
def idx (n i : Nat) : Nat := if i % n ≠ 0 then 1 else if i ≠ 0 then 2 else 0

/-- MESH_Gen_Structured.c:74 `vgid_tmpl` -/
def vgid : List (List (List Nat)) :=
  [[[1,4,5],[9,6,12],[3,8,7]], [[1,1,3],[3,1,4],[5,2,7]], [[2,2,6],[10,5,11],[4,6,8]]]
/-- MESH_Gen_Structured.c:75 `vgdim_tmpl` -/
def vgdim : List (List (List Nat)) :=
  [[[0,1,0],[1,2,1],[0,1,0]], [[1,2,1],[2,3,2],[1,2,1]], [[0,1,0],[1,2,1],[0,1,0]]]
/-- MESH_Gen_Structured.c:76 `egdim_tmpl` -/
def egdim : List (List Nat) := [[1,2,1],[2,3,2],[1,2,1]]
/-- MESH_Gen_Structured.c:77 `egid_tmpl2` -/
def egid2 : List (List Nat) := [[4,6,8],[1,1,2],[2,5,6]]
/-- MESH_Gen_Structured.c:78 `egid_tmpl1` -/
def egid1 : List (List Nat) := [[9,6,12],[3,1,4],[10,5,11]]
/-- MESH_Gen_Structured.c:79 `egid_tmpl0` -/
def egid0 : List (List Nat) := [[1,1,3],[3,1,4],[5,2,7]]
/-- MESH_Gen_Structured.c:80 `fgdim_tmpl` -/
def fgdim : List Nat := [2,3,2]
/-- MESH_Gen_Structured.c:81-83 `fgid_tmpl0`, `fgid_tmpl1`, `fgid_tmpl2` -/
def fgid0 : List Nat := [6,1,5]
def fgid1 : List Nat := [1,1,2]
def fgid2 : List Nat := [3,1,4]

/-- reads of the tables; the indices are always 0, 1 or 2 -/
def t1 (t : List Nat) (a : Nat) : Nat := t.getD a 0
def t2 (t : List (List Nat)) (a b : Nat) : Nat := (t.getD a []).getD b 0
def t3 (t : List (List (List Nat))) (a b c : Nat) : Nat := ((t.getD a []).getD b []).getD c 0

/-- three nested loops -/
def loop3 (a b c : Nat) (f : Nat → Nat → Nat → α) : List α :=
  (List.range a).flatMap fun i => (List.range b).flatMap fun j => (List.range c).map fun k => f i j k

/-- the vertices, MESH_Gen_Structured.c:308-331 -/
def verts3 (nx ny nz : Nat) : List (Pos × Cls) :=
  loop3 (nz+1) (ny+1) (nx+1) fun k j i =>
    ((i,j,k), (t3 vgdim (idx nx i) (idx ny j) (idx nz k), t3 vgid (idx nx i) (idx ny j) (idx nz k)))

/-- edges in z direction, MESH_Gen_Structured.c:335-354 -/
def edgesZ (nx ny nz : Nat) : List ((Pos × Pos) × Cls) :=
  loop3 (nx+1) (ny+1) nz fun i j k =>
    (((i,j,k), (i,j,k+1)), (t2 egdim (idx nx i) (idx ny j), t2 egid2 (idx nx i) (idx ny j)))

/-- edges in y direction, MESH_Gen_Structured.c:356-375 -/
def edgesY (nx ny nz : Nat) : List ((Pos × Pos) × Cls) :=
  loop3 (nx+1) (nz+1) ny fun i k j =>
    (((i,j,k), (i,j+1,k)), (t2 egdim (idx nx i) (idx nz k), t2 egid1 (idx nx i) (idx nz k)))

/-- edges in x direction, MESH_Gen_Structured.c:377-396 -/
def edgesX (nx ny nz : Nat) : List ((Pos × Pos) × Cls) :=
  loop3 (ny+1) (nz+1) nx fun j k i =>
    (((i,j,k), (i+1,j,k)), (t2 egdim (idx ny j) (idx nz k), t2 egid0 (idx ny j) (idx nz k)))

/-- all edges that are created explicitly -/
def edges3 (nx ny nz : Nat) : List ((Pos × Pos) × Cls) := edgesZ nx ny nz ++ edgesY nx ny nz ++ edgesX nx ny nz

/-- faces across x, MESH_Gen_Structured.c:401-420 -/
def facesX (nx ny nz : Nat) : List (List Pos × Cls) :=
  loop3 (nx+1) ny nz fun i j k =>
    ([(i,j,k), (i,j+1,k), (i,j+1,k+1), (i,j,k+1)], (t1 fgdim (idx nx i), t1 fgid0 (idx nx i)))

/-- faces across y, MESH_Gen_Structured.c:422-441 -/
def facesY (nx ny nz : Nat) : List (List Pos × Cls) :=
  loop3 (ny+1) nx nz fun j i k =>
    ([(i,j,k), (i+1,j,k), (i+1,j,k+1), (i,j,k+1)], (t1 fgdim (idx ny j), t1 fgid1 (idx ny j)))

/-- faces across z, MESH_Gen_Structured.c:443-462 -/
def facesZ (nx ny nz : Nat) : List (List Pos × Cls) :=
  loop3 (nz+1) nx ny fun k i j =>
    ([(i,j,k), (i+1,j,k), (i+1,j+1,k), (i,j+1,k)], (t1 fgdim (idx nz k), t1 fgid2 (idx nz k)))

/-- all faces that are created explicitly -/
def faces3 (nx ny nz : Nat) : List (List Pos × Cls) := facesX nx ny nz ++ facesY nx ny nz ++ facesZ nx ny nz

/-- the regions, MESH_Gen_Structured.c:467-481 (`MR_Set_GEntID(mr,1)`; the dimension of a region's model
entity is always 3) -/
def regions3 (nx ny nz : Nat) : List (List Pos × Cls) :=
  loop3 nx ny nz fun i j k =>
    ([(i,j,k), (i+1,j,k), (i+1,j+1,k), (i,j+1,k), (i,j,k+1), (i+1,j,k+1), (i+1,j+1,k+1), (i,j+1,k+1)], (3, 1))

/-- what is created for a 3D mesh -/
structure Plan3 where
  verts : List (Pos × Cls)
  edges : List ((Pos × Pos) × Cls)
  faces : List (List Pos × Cls)
  regions : List (List Pos × Cls)

/-- the 3D branch, MESH_Gen_Structured.c:86-92 and 291-489: `ny = 0` is reported as fatal, `i%nx` with
`nx = 0` is undefined (`nz > 0` in this branch) -/
def gen3 (nx ny nz : Nat) : Res Plan3 :=
  if ny = 0 then .fatal
  else if nx = 0 then .ub
  else .ok ⟨verts3 nx ny nz, edges3 nx ny nz, faces3 nx ny nz, regions3 nx ny nz⟩

/-- classification of a vertex in a 2D mesh, MESH_Gen_Structured.c:117-158 -/
def vcls2 (nx ny i j : Nat) : Cls :=
  if i = 0 then (if j = 0 then (0,1) else if j = ny then (0,4) else (1,4))
  else if i = nx then (if j = 0 then (0,2) else if j = ny then (0,3) else (1,2))
  else (if j = 0 then (1,1) else if j = ny then (1,3) else (2,1))

/-- the vertices of a 2D mesh, MESH_Gen_Structured.c:108-162 -/
def verts2 (nx ny : Nat) : List ((Nat × Nat) × Cls) :=
  (List.range (ny+1)).flatMap fun j => (List.range (nx+1)).map fun i => ((i,j), vcls2 nx ny i j)

/-- an edge of a 2D mesh: vertices and classification -/
abbrev Edge2 := ((Nat × Nat) × (Nat × Nat)) × Cls

/-- `MVs_CommonEdge(v0,v1)` (proved to give the edge with both vertices: C42) -/
def common (es : List Edge2) (v0 v1 : Nat × Nat) : Option (Edge2) :=
  es.find? fun e => (e.1.1 == v0 && e.1.2 == v1) || (e.1.1 == v1 && e.1.2 == v0)

/-- one of the four edges of a face, MESH_Gen_Structured.c:174-199 etc.: an existing edge is used, with
the direction in which it runs; otherwise a new edge is made -/
def side2 (es : List Edge2) (v0 v1 : Nat × Nat) (c : Cls) : List Edge2 × ((Edge2) × Bool) :=
  match common es v0 v1 with
  | some e => (es, (e, e.1.1 == v0))
  | none => (es ++ [((v0, v1), c)], (((v0, v1), c), true))

/-- a face of a 2D mesh: its edges with directions -/
abbrev Face2 := List (Edge2 × Bool)

/-- one face, MESH_Gen_Structured.c:166-283 -/
def face2 (nx ny i j : Nat) (es : List Edge2) : List Edge2 × Face2 :=
  let e0 := side2 es (i,j) (i+1,j) (if j = 0 then (1,1) else (2,1))
  let e1 := side2 e0.1 (i+1,j) (i+1,j+1) (if i + 1 = nx then (1,2) else (2,1))
  let e2 := side2 e1.1 (i+1,j+1) (i,j+1) (if j + 1 = ny then (1,3) else (2,1))
  let e3 := side2 e2.1 (i,j+1) (i,j) (if i = 0 then (1,4) else (2,1))
  (e3.1, [e0.2, e1.2, e2.2, e3.2])

/-- the loop over the faces, MESH_Gen_Structured.c:165-284; all faces are classified on face 1 of the
model, lines 281-282 -/
def faces2 (nx ny : Nat) : List (Nat × Nat) → List Edge2 × List Face2 → List Edge2 × List Face2
  | [], p => p
  | (i,j) :: r, (es, fs) => let q := face2 nx ny i j es
    faces2 nx ny r (q.1, fs ++ [q.2])

/-- the cells in the order of the loops -/
def cells2 (nx ny : Nat) : List (Nat × Nat) :=
  (List.range nx).flatMap fun i => (List.range ny).map fun j => (i,j)

/-- what is created for a 2D mesh -/
structure Plan2 where
  verts : List ((Nat × Nat) × Cls)
  edges : List Edge2
  faces : List Face2

/-- the 2D branch, MESH_Gen_Structured.c:86-289 -/
def gen2 (nx ny : Nat) : Res Plan2 :=
  if ny = 0 then .fatal
  else let q := faces2 nx ny (cells2 nx ny) ([], [])
    .ok ⟨verts2 nx ny, q.1, q.2⟩

end MSTK.Gen
