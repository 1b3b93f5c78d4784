import Verif.TopoModel
/-!
Model of the representation `F4` of a mesh: what its entities store about each other, the functions that
fill it and the upward queries (MVertex_F4.c, MEdge_F4.c, MFace_F4.c, MRegion_F4.c and the functions of
MF_Edge_Funcs_F2F4.c, MF_Vertex_Funcs_F2F4.c, MF_Region_Funcs_F2F4.c, MR_Face_Funcs_FNR3R4.c that the
tables in include/MFace_jmp.h and include/MRegion_jmp.h name for it).

Vertices know their edges, edges know "elements" (faces and regions), faces know their edges and regions
their faces; faces do not know their regions.

Simplifications: lists as in `TopoModel.lean`; the directions of the edges of a face, the type of a region,
the deletion of edges and vertices, classification and IDs are left out.  A list that is returned as NULL
when it is empty is the empty list here.
-/
namespace MSTK.F4M

/-- What the entities of an `F4` mesh store: states, `vedges` (include/MVertex.h), `vertex[2]` and
`elements` (include/MEdge.h, `MEdge_Adj_F4`), `fedges` (include/MFace.h, `MFace_Adj_F2F4`), `rfaces` with
their directions (include/MRegion.h, `MRegion_Adj_FN`).  An element is a face (`false`) or a region
(`true`). -/
structure Mesh4 where
  sv : Nat → Stat
  ve : Nat → List Nat
  se : Nat → Stat
  ev : Nat → Nat × Nat
  el : Nat → List (Bool × Nat)
  sf : Nat → Stat
  fe : Nat → List Nat
  sr : Nat → Stat
  rf : Nat → List (Nat × Bool)

/-- a new mesh, Mesh.c:28-150 -/
def empty : Mesh4 :=
  ⟨fun _ => .unused, fun _ => [], fun _ => .unused, fun _ => (0, 0), fun _ => [], fun _ => .unused,
    fun _ => [], fun _ => .unused, fun _ => []⟩

/-- `List_ChknAdd`, List.c:381-408 -/
def addNew {α : Type} [DecidableEq α] (l : List α) (x : α) : List α := if x ∈ l then l else l ++ [x]

/-- reading an entity whose storage is not there is undefined -/
def deref (s : Stat) : Res Unit := if s = .live ∨ s = .kept then .ok () else .ub

/-- the faces of a region, `MR_Faces_FNR3R4`, MR_Face_Funcs_FNR3R4.c:380-384 -/
def Mesh4.facesOf (M : Mesh4) (r : Nat) : List Nat := (M.rf r).map Prod.fst

/-! ### Filling the mesh -/

/-- `MV_New` and `MV_Set_RepType_F4`, MVertex_F4.c:22-27 -/
def newVertex (M : Mesh4) (v : Nat) : Res Mesh4 :=
  .ok { M with sv := upd M.sv v .live, ve := upd M.ve v [] }

/-- `ME_New`, `ME_Set_RepType_F4` (MEdge_F4.c:20-25) and `ME_Set_Vertex` for both ends (MEdge.c:125-128)
with `MV_Add_Edge_F4` (MVertex_F4.c:313-321) -/
def newEdge (M : Mesh4) (e a b : Nat) : Res Mesh4 := do
  deref (M.sv a)
  deref (M.sv b)
  let t := upd M.ve a (addNew (M.ve a) e)
  pure { M with se := upd M.se e .live, ev := upd M.ev e (a, b), el := upd M.el e [],
                ve := upd t b (addNew (t b) e) }

/-- `ME_Add_Face_F4` / `ME_Add_Region_F4` for a list of edges, MEdge_F4.c:201-209 and 219-226 -/
def addElem (se : Nat → Stat) (x : Bool × Nat) :
    List Nat → (Nat → List (Bool × Nat)) → Res (Nat → List (Bool × Nat))
  | [], el => .ok el
  | e :: es, el => do
    deref (se e)
    addElem se x es (upd el e (addNew (el e) x))

/-- `ME_Rem_Region_F4` for a list of edges, MEdge_F4.c:228-234 -/
def remElem (se : Nat → Stat) (x : Bool × Nat) :
    List Nat → (Nat → List (Bool × Nat)) → Res (Nat → List (Bool × Nat))
  | [], el => .ok el
  | e :: es, el => do
    deref (se e)
    remElem se x es (upd el e ((el e).erase x))

/-- `MF_New` and `MF_Set_Edges_F2F4`, MF_Edge_Funcs_F2F4.c:112-139 -/
def newFace (M : Mesh4) (f : Nat) (es : List Nat) : Res Mesh4 := do
  let el ← addElem M.se (false, f) es M.el
  pure { M with sf := upd M.sf f .live, fe := upd M.fe f es, el := el }

/-- `MR_New` and `MR_Set_Faces_FNR3R4`, MR_Face_Funcs_FNR3R4.c:71-103: for an `F4` mesh the condition in
line 97 leaves out the only call that would tell other entities about the region -/
def newRegion (M : Mesh4) (r : Nat) (fs : List (Nat × Bool)) : Res Mesh4 :=
  .ok { M with sr := upd M.sr r .live, rf := upd M.rf r fs }

/-- the edges of the faces of a region in the order of the loops in MRegion_F4.c:38-47 and 69-77 -/
def edgesOf (M : Mesh4) : List Nat → Res (List Nat)
  | [] => .ok []
  | f :: fs => do
    deref (M.sf f)
    let r ← edgesOf M fs
    pure (M.fe f ++ r)

/-- `MR_Delete` (MRegion.c:47-72) with `MR_Delete_F4` (MRegion_F4.c:24-57) -/
def delRegion (M : Mesh4) (r : Nat) (keep : Bool) : Res Mesh4 := do
  deref (M.sr r)
  if M.sr r = .live then do
    let es ← edgesOf M (M.facesOf r)
    let el ← remElem M.se (true, r) es M.el
    pure { M with sr := upd M.sr r (if keep then .kept else .freed), el := el }
  else pure { M with sr := upd M.sr r (if keep then .kept else .freed) }

/-- `MR_Restore` (MRegion.c:74-96) with `MR_Restore_F4` (MRegion_F4.c:59-79) -/
def restoreRegion (M : Mesh4) (r : Nat) : Res Mesh4 := do
  deref (M.sr r)
  let es ← edgesOf M (M.facesOf r)
  let el ← addElem M.se (true, r) es M.el
  pure { M with sr := upd M.sr r .live, el := el }

/-- `MF_Delete` (MFace.c:43-68) with `MF_Delete_F4` (MFace_F4.c:29-40), which tells nobody -/
def delFace (M : Mesh4) (f : Nat) (keep : Bool) : Res Mesh4 := do
  deref (M.sf f)
  pure { M with sf := upd M.sf f (if keep then .kept else .freed) }

/-- `MF_Restore` (MFace.c:70-92) with `MF_Restore_F4` (MFace_F4.c:42-44) -/
def restoreFace (M : Mesh4) (f : Nat) : Res Mesh4 := do
  deref (M.sf f)
  pure { M with sf := upd M.sf f .live }

/-! ### Queries -/

/-- `MEnt_Dim` of an element, MEntity.c:95-97: `none` for one that is marked as deleted -/
def dim (M : Mesh4) (x : Bool × Nat) : Res (Option Bool) :=
  match (if x.1 then M.sr x.2 else M.sf x.2) with
  | .live => .ok (some x.1)
  | .kept => .ok none
  | _ => .ub

/-- `MF_UsesEdge_F2F4`, MF_Edge_Funcs_F2F4.c:566-572 -/
def usesEdge (M : Mesh4) (e f : Nat) : Res Bool := do
  deref (M.sf f)
  pure (decide (e ∈ M.fe f))

/-- the loop of `MF_UsesVertex_F2F4` -/
def anyEnd (M : Mesh4) (v : Nat) : List Nat → Res Bool
  | [] => .ok false
  | e :: es => do
    deref (M.se e)
    if (M.ev e).1 = v ∨ (M.ev e).2 = v then pure true else anyEnd M v es

/-- `MF_UsesVertex_F2F4`, MF_Vertex_Funcs_F2F4.c:185-200: all edges but the last -/
def usesVertex (M : Mesh4) (v f : Nat) : Res Bool := do
  deref (M.sf f)
  anyEnd M v (M.fe f).dropLast

/-- the loop over faces in `ME_Faces_F4` (MEdge_F4.c:127-140) and `MV_Faces_F4` (MVertex_F4.c:193-204,
217-228): a face that is not in the list yet and passes the test is added -/
def pick (test : Nat → Res Bool) : List Nat → List Nat → Res (List Nat)
  | [], acc => .ok acc
  | f :: fs, acc =>
    if f ∈ acc then pick test fs acc
    else do
      if ← test f then pick test fs (acc ++ [f]) else pick test fs acc

/-- the loop over the elements in `ME_Faces_F4`, MEdge_F4.c:112-144 -/
def facesIn (M : Mesh4) (e : Nat) : List (Bool × Nat) → List Nat → Res (List Nat)
  | [], acc => .ok acc
  | x :: xs, acc => do
    match ← dim M x with
    | none => facesIn M e xs acc
    | some false => facesIn M e xs (addNew acc x.2)
    | some true => do
      let acc ← pick (usesEdge M e) (M.facesOf x.2) acc
      facesIn M e xs acc

/-- `ME_Faces_F4`, MEdge_F4.c:95-153 -/
def meFaces (M : Mesh4) (e : Nat) : Res (List Nat) := do
  deref (M.se e)
  facesIn M e (M.el e) []

/-- the loop of `ME_Regions_F4` -/
def regionsIn (M : Mesh4) : List (Bool × Nat) → Res (List Nat)
  | [] => .ok []
  | x :: xs => do
    let d ← dim M x
    let r ← regionsIn M xs
    pure (if d = some true then x.2 :: r else r)

/-- `ME_Regions_F4`, MEdge_F4.c:167-193 -/
def meRegions (M : Mesh4) (e : Nat) : Res (List Nat) := do
  deref (M.se e)
  regionsIn M (M.el e)

/-- `MV_Edges_F4`, MVertex_F4.c:138-145 -/
def mvEdges (M : Mesh4) (v : Nat) : Res (List Nat) := do
  deref (M.sv v)
  pure (M.ve v)

/-- the loop over the edges in `MV_Regions_F4`, MVertex_F4.c:266-288 -/
def vertRegions (M : Mesh4) : List Nat → List Nat → Res (List Nat)
  | [], acc => .ok acc
  | e :: es, acc => do
    let rs ← meRegions M e
    vertRegions M es (rs.foldl addNew acc)

/-- `MV_Regions_F4`, MVertex_F4.c:251-296 -/
def mvRegions (M : Mesh4) (v : Nat) : Res (List Nat) := do
  deref (M.sv v)
  vertRegions M (M.ve v) []

/-- the loop over the regions of an edge in `MV_Faces_F4`, MVertex_F4.c:187-207 -/
def overRegions (M : Mesh4) (v : Nat) : List Nat → List Nat → Res (List Nat)
  | [], acc => .ok acc
  | r :: rs, acc => do
    deref (M.sr r)
    let acc ← pick (usesVertex M v) (M.facesOf r) acc
    overRegions M v rs acc

/-- one edge in `MV_Faces_F4`, MVertex_F4.c:181-231: its own faces count only if it has no regions -/
def facesAt (M : Mesh4) (v e : Nat) (acc : List Nat) : Res (List Nat) := do
  match ← meRegions M e with
  | [] => do
    let fs ← meFaces M e
    pick (usesVertex M v) fs acc
  | r :: rs => overRegions M v (r :: rs) acc

/-- the loop over the edges in `MV_Faces_F4` -/
def vertFaces (M : Mesh4) (v : Nat) : List Nat → List Nat → Res (List Nat)
  | [], acc => .ok acc
  | e :: es, acc => do
    let acc ← facesAt M v e acc
    vertFaces M v es acc

/-- `MV_Faces_F4`, MVertex_F4.c:163-239 -/
def mvFaces (M : Mesh4) (v : Nat) : Res (List Nat) := do
  deref (M.sv v)
  vertFaces M v (M.ve v) []

/-- `MV_Num_Regions_F4`, MVertex_F4.c:80-94: `List_Num_Entries(NULL)` if there are none -/
def mvNumRegions (M : Mesh4) (v : Nat) : Res Nat := do
  match ← mvRegions M v with
  | [] => .ub
  | _ :: rs => pure (rs.length + 1)

/-- the loop of `MF_Regions_F2F4` with its count `k` -/
def twoUsing (M : Mesh4) (f : Nat) : Nat → List Nat → Res (List Nat)
  | _, [] => .ok []
  | k, r :: rs => do
    deref (M.sr r)
    if f ∈ M.facesOf r then
      if k + 1 = 2 then pure [r]
      else do
        let l ← twoUsing M f (k + 1) rs
        pure (r :: l)
    else twoUsing M f k rs

/-- `MF_Regions_F2F4`, MF_Region_Funcs_F2F4.c:19-56: the regions of the first edge that have the face, at
most two -/
def mfRegions (M : Mesh4) (f : Nat) : Res (List Nat) := do
  deref (M.sf f)
  match (M.fe f).head? with
  | none => .ub
  | some e => do
    let rs ← meRegions M e
    twoUsing M f 0 rs

/-- `MR_FaceDir_FNR3R4`, MR_Face_Funcs_FNR3R4.c:560-580; `none` is -1 -/
def faceDir (M : Mesh4) (r f : Nat) : Option Bool := ((M.rf r).find? fun p => p.1 = f).map Prod.snd

/-- the loop of `MF_Region_F2F4` -/
def firstWith (M : Mesh4) (f : Nat) (d : Bool) : List Nat → Res (Option Nat)
  | [] => .ok none
  | r :: rs => do
    deref (M.sr r)
    if faceDir M r f = some d then pure (some r) else firstWith M f d rs

/-- `MF_Region_F2F4`, MF_Region_Funcs_F2F4.c:67-103: with `dir = (ir) ? 0 : 1` and the test `fdir == !dir`
the region on side `ir` is looked for with direction `ir` -/
def mfRegion (M : Mesh4) (f : Nat) (ir : Bool) : Res (Option Nat) := do
  deref (M.sf f)
  match (M.fe f).head? with
  | none => .ub
  | some e => do
    let rs ← meRegions M e
    firstWith M f ir rs

end MSTK.F4M
