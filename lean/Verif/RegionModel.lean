import Verif.TopoQuery

/-!
Model of `MR_Set_Vertices_FNR3R4`, src/base/MR_Face_Funcs_FNR3R4.c:106-370: a region is defined by
its vertices, with the tables of the standard elements or with a table given by the caller.

The classification of the new edges and faces is not part of this model.
-/
namespace MSTK
namespace Topo

/-- the reads of the vertices at the start, MR_Face_Funcs_FNR3R4.c:119-121 -/
def derefVs (T : Topo) : List Nat → Res Unit
  | [] => pure ()
  | v :: vs => do
    T.derefV v
    derefVs T vs

/-- a read `a[ind]` where `a` has been filled from 0 on -/
def readAt {α : Type} (l : List α) (i : Int) : Res α :=
  if 0 ≤ i then Res.ofOption l[i.toNat]? else .ub

/-- `verts[j] = mvertices[ind]`, MR_Face_Funcs_FNR3R4.c:136-138 -/
def vertsAt (vs : List Nat) : List Int → Res (List Nat)
  | [] => pure []
  | i :: is => do
    let v ← readAt vs i
    let rest ← vertsAt vs is
    pure (v :: rest)

/-- the two vertices of each edge of a standard element, MR_Face_Funcs_FNR3R4.c:226-233 -/
def edgeEnds (vs : List Nat) : List (Int × Int) → Res (List (Nat × Nat))
  | [] => pure []
  | p :: ps => do
    let a ← readAt vs p.1
    let b ← readAt vs p.2
    let rest ← edgeEnds vs ps
    pure ((a, b) :: rest)

/-- `fedges[j] = redges[ind]; fedirs[j] = !(redirs[ind]^sgn)`, MR_Face_Funcs_FNR3R4.c:301-305;
`sgn` is 0 or 1 -/
def pickEdges (red : List (Nat × Bool)) : List (Int × Int) → Res (List (Nat × Bool))
  | [] => pure []
  | p :: ps => do
    let e ← readAt red p.1
    let rest ← pickEdges red ps
    pure ((e.1, !(e.2 ^^ decide (p.2 = 1))) :: rest)

/-- The direction in which a face that is there already is used, MR_Face_Funcs_FNR3R4.c:165-184
(with `tdir` 1) and 336-363: without regions, by comparing the vertex after `a`; otherwise against
the region that is there.  `MR_FaceDir` = -1 gives direction 0. -/
def existingDir (T : Topo) (f a b : Nat) (tdir : Bool) : Res Bool := do
  match ← T.mfRegions f with
  | none =>
    let l ← T.mfVertices f true (some a)
    pure (if l[1]?.getD none = some b then tdir else !tdir)
  | some rs =>
    let o ← Res.ofOption rs[0]?
    let d ← T.mrFaceDir o f
    pure (match d with
      | some d => !d
      | none => false)

/-- One face of a standard element, MR_Face_Funcs_FNR3R4.c:294-364.  `x` holds the row of
`MSTK_rfe_template`/`MSTK_rfedir_template`, the row of `MSTK_rfv_template` and the entry of
`MSTK_rfdir_template`. -/
def stdFace (vs : List Nat) (red : List (Nat × Bool)) (x : List (Int × Int) × List Int × Int)
    (T : Topo) : Res (Topo × (Nat × Bool)) := do
  let es ← pickEdges red x.1
  match ← T.mesCommonFace (es.map (·.1)) with
  | none =>
    let p := T.mfNew
    let T ← p.1.mfSetEdges p.2 es
    pure (T, (p.2, decide (x.2.2 = 1)))
  | some f =>
    let i0 ← Res.ofOption x.2.1[0]?
    let i1 ← Res.ofOption x.2.1[1]?
    let a ← readAt vs i0
    let b ← readAt vs i1
    let d ← T.existingDir f a b (decide (x.2.2 = 1))
    pure (T, (f, d))

/-- the loop over the faces of a standard element, MR_Face_Funcs_FNR3R4.c:294-366 -/
def stdFaces (vs : List Nat) (red : List (Nat × Bool)) :
    List (List (Int × Int) × List Int × Int) → Topo → Res (Topo × List (Nat × Bool))
  | [], T => pure (T, [])
  | x :: xs, T => do
    let p ← stdFace vs red x T
    let q ← stdFaces vs red xs p.1
    pure (q.1, p.2 :: q.2)

/-- the rows of the tables used for one element type -/
def stdRows (ty : MRType) : Option (List (Int × Int) × List (List (Int × Int) × List Int × Int)) := do
  let es ← Tmpl.edges ty
  let fe ← Tmpl.faceEdges ty
  let fv ← Tmpl.faces ty
  let fd ← Tmpl.faceDirs ty
  return (es, fe.zip (fv.zip fd))

/-- `MR_Set_Vertices(r,nv,vs,nf,NULL)`, MR_Face_Funcs_FNR3R4.c:106-127 and 190-370. -/
def mrSetVertices (T : Topo) (r : Nat) (vs : List Nat) : Res Topo := do
  T.derefR r
  T.derefVs vs
  let ty ← Tmpl.setVerticesType vs.length
  let rows ← Res.ofOption (stdRows ty.1)
  let ps ← edgeEnds vs rows.1
  let q ← edgesFor ps T
  let x ← stdFaces vs q.2 rows.2 q.1
  x.1.mrSetFaces r x.2

/-- One face of a general polyhedron, MR_Face_Funcs_FNR3R4.c:130-186; `verts` has `MAXPV2` = 30
entries. -/
def polyFace (vs : List Nat) (row : List Int) (T : Topo) : Res (Topo × (Nat × Bool)) := do
  if row.length > 30 then .ub
  else
    let ws ← vertsAt vs row
    match ← T.mvsCommonFace ws with
    | none =>
      let p := T.mfNew
      let T ← p.1.mfSetVertices p.2 ws
      pure (T, (p.2, true))
    | some f =>
      let a ← Res.ofOption ws[0]?
      let b ← Res.ofOption ws[1]?
      let d ← T.existingDir f a b true
      pure (T, (f, d))

/-- the loop over the faces of a general polyhedron, MR_Face_Funcs_FNR3R4.c:130-188 -/
def polyFaces (vs : List Nat) : List (List Int) → Topo → Res (Topo × List (Nat × Bool))
  | [], T => pure (T, [])
  | x :: xs, T => do
    let p ← polyFace vs x T
    let q ← polyFaces vs xs p.1
    pure (q.1, p.2 :: q.2)

/-- `MR_Set_Vertices(r,nv,vs,nf,rfvtemplate)`, MR_Face_Funcs_FNR3R4.c:106-190; row `i` of `rows` is
`rfvtemplate[i][1..]` with the length `rfvtemplate[i][0]`.  The local arrays have `MAXPV3` = 200 and
`MAXPF3` = 512 entries. -/
def mrSetVerticesPoly (T : Topo) (r : Nat) (vs : List Nat) (rows : List (List Int)) : Res Topo := do
  T.derefR r
  if vs.length > 200 then .ub
  else if rows.length > 512 then .ub
  else
    T.derefVs vs
    let x ← polyFaces vs rows T
    x.1.mrSetFaces r x.2

end Topo
end MSTK
