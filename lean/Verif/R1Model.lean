import Verif.TopoModel
import Verif.TemplateModel
/-!
Model of the reduced representation `R1` of a mesh: vertices know the regions at them, regions know their
vertices, faces are made for the caller and know their vertices (MVertex_R1.c, MRegion_R1.c, MFace_R1.c,
MR_Vertex_Funcs_R1.c, MF_Vertex_Funcs_R1.c, MF_Region_Funcs_R1.c and `MR_Num_Faces_R1`, `MR_FaceDir_R1`,
`MR_UsesFace_R1` of MR_Face_Funcs_R1.c).

Simplifications: `int` is unbounded, `malloc` does not fail; edges, classification, the deletion of
vertices and the lists of vertices and regions of the mesh are left out; the list of faces is that of a mesh
without regions, as with regions faces are not put in it (Mesh.c:876-877).  No function of the library adds a
face to the elements of a vertex (`MV_Add_Face` is called for `R4` only), so the elements are regions.
-/
namespace MSTK.R1M

/-- What the entities of an `R1` mesh store: `velements` (include/MVertex.h), `fvertices` (include/MFace.h),
`rvertices` and `fvtemplate` (include/MRegion.h), `mrtype`; `fl` is the list of faces of the mesh.  The
template is kept as the rows that were stored, each without the leading count. -/
structure Mesh1 where
  sv : Nat → Stat
  ve : Nat → List Nat
  sf : Nat → Stat
  fv : Nat → Option (List Nat)
  fl : List Nat
  sr : Nat → Stat
  rv : Nat → Option (List Nat)
  tm : Nat → Option (List (List Nat))
  rt : Nat → MRType

/-- a new mesh, Mesh.c:28-150 -/
def empty : Mesh1 :=
  ⟨fun _ => .unused, fun _ => [], fun _ => .unused, fun _ => none, [], fun _ => .unused, fun _ => none,
    fun _ => none, fun _ => .runknown⟩

/-- reading an entity whose storage is not there is undefined -/
def deref (s : Stat) : Res Unit := if s = .live ∨ s = .kept then .ok () else .ub

/-- reading what a face stores: `MF_Delete_R1` frees it in any case, MFace_R1.c:30-46 -/
def derefF (s : Stat) : Res Unit := if s = .live then .ok () else .ub

/-! ### Changing the mesh -/

/-- `MV_New` and `MV_Set_RepType_R1`, MVertex_R1.c:21-26 -/
def newVertex (M : Mesh1) (v : Nat) : Res Mesh1 :=
  .ok { M with sv := upd M.sv v .live, ve := upd M.ve v [] }

/-- `MF_New` (MFace.c:21-41) and `MF_Set_RepType_R1`, MFace_R1.c:20-27 -/
def newFace (M : Mesh1) (f : Nat) : Res Mesh1 :=
  .ok { M with sf := upd M.sf f .live, fv := upd M.fv f none, fl := M.fl ++ [f] }

/-- `MF_Set_Vertices_R1`, MF_Vertex_Funcs_R1.c:169-189: the vertices are not told -/
def setFaceVertices (M : Mesh1) (f : Nat) (vs : List Nat) : Res Mesh1 := do
  derefF (M.sf f)
  pure { M with fv := upd M.fv f (some vs) }

/-- `MF_Delete` (MFace.c:43-68) with `MF_Delete_R1` (MFace_R1.c:30-46): when the face is deleted for good,
the latter has set the mark already by which the former sees whether to take the face off the list of the
mesh -/
def delFace (M : Mesh1) (f : Nat) (keep : Bool) : Res Mesh1 := do
  derefF (M.sf f)
  if keep then pure { M with sf := upd M.sf f .kept, fl := M.fl.erase f }
  else pure { M with sf := upd M.sf f .freed }

/-- `MR_New` and `MR_Set_RepType_R1`, MRegion_R1.c:21-28 -/
def newRegion (M : Mesh1) (r : Nat) : Res Mesh1 :=
  .ok { M with sr := upd M.sr r .live, rv := upd M.rv r none, tm := upd M.tm r none,
               rt := upd M.rt r .runknown }

/-- `MV_Add_Region_R1` for a list of vertices, MVertex_R1.c:411-416, `List_ChknAdd` -/
def addTo (sv : Nat → Stat) (r : Nat) : List Nat → (Nat → List Nat) → Res (Nat → List Nat)
  | [], ve => .ok ve
  | v :: vs, ve => do
    deref (sv v)
    addTo sv r vs (upd ve v (if r ∈ ve v then ve v else ve v ++ [r]))

/-- `MV_Rem_Region_R1` for a list of vertices, MVertex_R1.c:418-423 -/
def remFrom (sv : Nat → Stat) (r : Nat) : List Nat → (Nat → List Nat) → Res (Nat → List Nat)
  | [], ve => .ok ve
  | v :: vs, ve => do
    deref (sv v)
    remFrom sv r vs (upd ve v ((ve v).erase r))

/-- the type of a region with a template, MR_Vertex_Funcs_R1.c:101-147; in line 121 the first vertex of a
face is taken for its number of vertices -/
def typeOfRows (rows : List (List Nat)) : MRType :=
  match rows.length with
  | 4 => if rows.all (·.length = 3) then .tet else .polyhed
  | 5 =>
    let ntris := (rows.filter (·.length = 3)).length
    let nquads := (rows.filter fun w => w.length ≠ 3 ∧ w[0]? = some 4).length
    if nquads = 3 ∧ ntris = 2 then .prism
    else if nquads = 1 ∧ ntris = 4 then .pyramid
    else .polyhed
  | 6 => if rows.all (·.length = 4) then .hex else .polyhed
  | _ => .polyhed

/-- `MR_Set_Vertices_R1`, MR_Vertex_Funcs_R1.c:66-175.  `rows`: the template, `[]` when there is none; the
rows are stored from place 0 on (line 95), although place 0 is meant for their number. -/
def setVertices (M : Mesh1) (r : Nat) (vs : List Nat) (rows : List (List Nat)) : Res Mesh1 := do
  deref (M.sr r)
  let ve ← addTo M.sv r vs M.ve
  if rows ≠ [] then
    pure { M with ve := ve, rv := upd M.rv r (some vs), tm := upd M.tm r (some rows),
                  rt := upd M.rt r (typeOfRows rows) }
  else
    let t ← Tmpl.setVerticesType vs.length
    pure { M with ve := ve, rv := upd M.rv r (some vs), rt := upd M.rt r t.1 }

/-- the vertices of a region forget it unless it is marked as deleted already, MRegion_R1.c:36-44 -/
def withdraw (M : Mesh1) (r : Nat) : Res (Nat → List Nat) :=
  if M.sr r = .live then remFrom M.sv r ((M.rv r).getD []) M.ve else .ok M.ve

/-- `MR_Delete` (MRegion.c:47-72) with `MR_Delete_R1` (MRegion_R1.c:29-61): when the region is deleted for
good, the latter has freed it, and the former reads it (line 53) and frees it again (line 70) -/
def delRegion (M : Mesh1) (r : Nat) (keep : Bool) : Res Mesh1 := do
  deref (M.sr r)
  let ve ← withdraw M r
  if keep then pure { M with sr := upd M.sr r .kept, ve := ve } else .ub

/-- `MR_Restore` (MRegion.c:74-96) with `MR_Restore_R1` (MRegion_R1.c:63-72) -/
def restoreRegion (M : Mesh1) (r : Nat) : Res Mesh1 := do
  deref (M.sr r)
  let vs ← Res.ofOption (M.rv r)
  let ve ← addTo M.sv r vs M.ve
  pure { M with sr := upd M.sr r .live, ve := ve }

/-- the first `v` replaced -/
def replace1 (v w : Nat) : List Nat → List Nat
  | [] => []
  | x :: xs => if v = x then w :: xs else x :: replace1 v w xs

/-- `MR_Replace_Vertex_R1`, MR_Vertex_Funcs_R1.c:197-215: the vertices are not told -/
def replaceVertex (M : Mesh1) (r v w : Nat) : Res Mesh1 := do
  deref (M.sr r)
  let vs ← Res.ofOption (M.rv r)
  pure { M with rv := upd M.rv r (some (replace1 v w vs)) }

/-! ### Queries -/

/-- the regions among the elements of a vertex, MVertex_R1.c:381-386: those not marked as deleted -/
def regionsIn (M : Mesh1) : List Nat → Res (List Nat)
  | [] => .ok []
  | r :: rs => do
    deref (M.sr r)
    let l ← regionsIn M rs
    pure (if M.sr r = .live then r :: l else l)

/-- `MV_Regions_R1`, MVertex_R1.c:370-394: NULL when there are none -/
def mvRegions (M : Mesh1) (v : Nat) : Res (Option (List Nat)) := do
  deref (M.sv v)
  let l ← regionsIn M (M.ve v)
  pure (if l.length ≠ 0 then some l else none)

/-- the loop of `MV_Num_Regions_R1` -/
def countIn (M : Mesh1) : List Nat → Res Nat
  | [] => .ok 0
  | r :: rs => do
    deref (M.sr r)
    let n ← countIn M rs
    pure (if M.sr r = .live then n + 1 else n)

/-- `MV_Num_Regions_R1`, MVertex_R1.c:103-113 -/
def mvNumRegions (M : Mesh1) (v : Nat) : Res Nat := do
  deref (M.sv v)
  countIn M (M.ve v)

/-- `MR_Vertices_R1`, MR_Vertex_Funcs_R1.c:178-181 -/
def mrVertices (M : Mesh1) (r : Nat) : Res (List Nat) := do
  deref (M.sr r)
  Res.ofOption (M.rv r)

/-- `MR_UsesVertex_R1`, MR_Vertex_Funcs_R1.c:192-195 -/
def mrUsesVertex (M : Mesh1) (r v : Nat) : Res Bool := do
  deref (M.sr r)
  let vs ← Res.ofOption (M.rv r)
  pure (decide (v ∈ vs))

/-- the first place of `v`, MF_Vertex_Funcs_R1.c:305-311 -/
def place (v : Nat) : List Nat → Option Nat
  | [] => none
  | x :: xs => if x = v then some 0 else (place v xs).map (· + 1)

/-- entries of a list at given places, `List_Entry` and `List_Add` in turn -/
def entries (l : List Nat) : List Nat → Res (List Nat)
  | [] => .ok []
  | k :: ks => do
    let x ← Res.ofOption l[k]?
    let xs ← entries l ks
    pure (x :: xs)

/-- `MF_Vertices_R1`, MF_Vertex_Funcs_R1.c:286-327; `v0`: the vertex to start with -/
def mfVertices (M : Mesh1) (f : Nat) (dir : Bool) (v0 : Option Nat) : Res (Option (List Nat)) := do
  derefF (M.sf f)
  let fs ← Res.ofOption (M.fv f)
  let nv := fs.length
  match v0 with
  | none =>
    if dir then pure (some fs)
    else do
      let l ← entries fs (List.range nv).reverse
      pure (some l)
  | some v =>
    match place v fs with
    | none => pure none
    | some k => do
      let l ← entries fs ((List.range nv).map fun i => if dir then (k + i) % nv else (k + nv - i) % nv)
      pure (some l)

/-- the loop over the regions of the first vertex of a face, MF_Region_Funcs_R1.c:34-59.  `rest`: the other
vertices of the face; `fnd` keeps its value when there are none. -/
def facing (M : Mesh1) (rest : List Nat) : List Nat → Bool → List Nat → Res (List Nat)
  | [], _, fregs => .ok fregs
  | r :: rs, fnd, fregs =>
    if fregs.length < 2 then do
      let vs ← mrVertices M r
      let fnd := if rest = [] then fnd else rest.all (· ∈ vs)
      facing M rest rs fnd (if fnd then fregs ++ [r] else fregs)
    else .ok fregs

/-- `MF_Regions_R1`, MF_Region_Funcs_R1.c:18-66 -/
def mfRegions (M : Mesh1) (f : Nat) : Res (Option (List Nat)) := do
  derefF (M.sf f)
  let fs ← Res.ofOption (M.fv f)
  let v ← Res.ofOption fs[0]?
  let vr ← mvRegions M v
  match vr with
  | none => pure none
  | some vr => do
    let l ← facing M (fs.drop 1) vr false []
    pure (if l.length ≠ 0 then some l else none)

/-- `MR_Num_Faces_R1`, MR_Face_Funcs_R1.c:20-33: the leading count of what is stored at place 0 -/
def mrNumFaces (M : Mesh1) (r : Nat) : Res Nat := do
  deref (M.sr r)
  match M.tm r with
  | some rows => do
    let w ← Res.ofOption rows[0]?
    pure w.length
  | none => do
    let vs ← Res.ofOption (M.rv r)
    let ty ← Res.ofOption Tmpl.nv2rtype[vs.length]?
    let n ← Res.ofOption (Tmpl.at1 Tmpl.nrf ty.code)
    pure n.toNat

/-- The row for face `i` of a region with `nv` vertices, MR_Face_Funcs_R1.c:209, 256-261.  The first
component is false when the table says that the face is listed with its normal into the region
(lines 304-305). -/
def rowOf (M : Mesh1) (r nv i : Nat) : Res (Bool × List Nat) :=
  match M.tm r with
  | some rows => do
    let w ← Res.ofOption rows[1 + i]?
    pure (true, w)
  | none => do
    let ty ← Res.ofOption Tmpl.nv2rtype[nv]?
    let w ← Res.ofOption (Tmpl.row Tmpl.rfv ty.code i)
    let d ← Res.ofOption (Tmpl.at2 Tmpl.rfdir ty.code i)
    pure (d ≠ 0, w.map Int.toNat)

/-- `rvids[row[j]]` for all `j` -/
def cycOf (ids : List Int) : List Nat → Res (List Int)
  | [] => .ok []
  | k :: ks => do
    let x ← Res.ofOption ids[k]?
    let xs ← cycOf ids ks
    pure (x :: xs)

/-- the search for the first two vertices of the face in a face of the region,
MR_Face_Funcs_R1.c:217-229, 269-281 -/
def locate (cyc fids : List Int) : List Nat → Res (Option (Bool × Nat))
  | [] => .ok none
  | j :: js =>
    if cyc[j]? = fids[0]? then do
      let y ← Res.ofOption fids[1]?
      if cyc[(j + 1) % cyc.length]? = some y then pure (some (true, j))
      else if cyc[(j + cyc.length - 1) % cyc.length]? = some y then pure (some (false, j))
      else locate cyc fids js
    else locate cyc fids js

/-- the comparison of all vertices, MR_Face_Funcs_R1.c:238-247, 290-299 -/
def sameFrom (cyc fids : List Int) (d : Bool) (k : Nat) : Bool :=
  (List.range cyc.length).all fun j =>
    cyc[if d then (k + j) % cyc.length else (k + cyc.length - j) % cyc.length]? = fids[j]?

/-- whether a face of the region is the given face and in which sense, MR_Face_Funcs_R1.c:213-252,
265-308 -/
def sideDir (cyc fids : List Int) : Res (Option Bool) := do
  let p ← locate cyc fids (List.range cyc.length)
  match p with
  | none => pure none
  | some (d, k) => pure (if sameFrom cyc fids d k then some d else none)

/-- the loop over the faces of the region, MR_Face_Funcs_R1.c:208-253, 260-309 -/
def dirLoop (M : Mesh1) (r : Nat) (rids fids : List Int) : List Nat → Res Int
  | [] => .ok (-1)
  | i :: is => do
    let w ← rowOf M r rids.length i
    if fids.length ≠ w.2.length then dirLoop M r rids fids is
    else do
      let cyc ← cycOf rids w.2
      let d ← sideDir cyc fids
      match d with
      | none => dirLoop M r rids fids is
      | some d => pure (if d = w.1 then 1 else 0)

/-- `MR_FaceDir_R1`, MR_Face_Funcs_R1.c:175-313; `id`: the IDs of the vertices.  The IDs of the vertices of
the face go to an array of `MAXPV2` = 30 entries. -/
def faceDir (M : Mesh1) (id : Nat → Int) (r f : Nat) : Res Int := do
  deref (M.sr r)
  let o ← mfVertices M f true none
  let fs ← Res.ofOption o
  if 30 < fs.length then .ub
  else do
    let vs ← Res.ofOption (M.rv r)
    let nf ← mrNumFaces M r
    dirLoop M r (vs.map id) (fs.map id) (List.range nf)

/-- `MR_UsesFace_R1`, MR_Face_Funcs_R1.c:395-400 -/
def mrUsesFace (M : Mesh1) (id : Nat → Int) (r f : Nat) : Res Bool := do
  let d ← faceDir M id r f
  pure (decide (d ≠ -1))

/-- `MF_Region_R1`, MF_Region_Funcs_R1.c:78-109; the side is 0 (`false`) or 1 (`true`) -/
def mfRegion (M : Mesh1) (id : Nat → Int) (f : Nat) (side : Bool) : Res (Option Nat) := do
  let o ← mfRegions M f
  match o with
  | none => pure none
  | some [] => .ub
  | some (a :: l) => do
    let d ← faceDir M id a f
    if d = (if side then 0 else 1) then pure (some a)
    else
      match l with
      | [b] => do
        let d ← faceDir M id b f
        pure (if d = (if side then 0 else 1) then some b else none)
      | _ => pure none

end MSTK.R1M
