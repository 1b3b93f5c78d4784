import Verif.R1Model
/-!
Model of the reduced representation `R4` of a mesh: regions know their faces, faces know their vertices and
the regions on their two sides, vertices know some faces (MVertex_R4.c, MFace_R4.c, MF_Vertex_Funcs_R4.c,
MF_Region_Funcs_R4.c, MF_Edge_Funcs_R4.c, ME_Face_Funcs_R3R4.c, MRegion_FNR3R4.c and MR_Face_Funcs_FNR3R4.c as
they run for `R4`, `MVs_CommonEdge`, `MVs_CommonFace`, `MEs_CommonFace`).

Simplifications: `int` is unbounded, `malloc` does not fail; classification, IDs, the vertices kept as
neighbours of a vertex, the deletion of vertices and the lists of the mesh are left out.  The directions of
the faces of a region are kept with the faces, not as bits of an array.  Edges are made on request and not
taken back; their lock, which is read without having been set (MEdge_R4.c:20-25), is left out.
-/
namespace MSTK.R4M

open R1M (deref place entries)

/-- What the entities of an `R4` mesh store: `vfaces` (include/MVertex.h:76-79), `fvertices` and `fregions`
(include/MFace.h:84-88; `false` is side 0), `rfaces` with `fdirs` (include/MRegion.h), `mrtype`; `ends`: the
vertices of the edges made so far, `en` of them. -/
structure Mesh4 where
  sv : Nat → Stat
  vf : Nat → List Nat
  sf : Nat → Stat
  fv : Nat → Option (List Nat)
  fr : Nat → Bool → Option Nat
  sr : Nat → Stat
  rf : Nat → Option (List (Nat × Bool))
  rt : Nat → MRType
  en : Nat
  ends : Nat → Nat × Nat

/-- a new mesh, Mesh.c:28-150 -/
def empty : Mesh4 :=
  ⟨fun _ => .unused, fun _ => [], fun _ => .unused, fun _ => none, fun _ _ => none, fun _ => .unused,
    fun _ => none, fun _ => .runknown, 0, fun _ => (0, 0)⟩

/-! ### Queries -/

/-- `MV_Faces_R4`, MVertex_R4.c:164-169 -/
def mvFaces (M : Mesh4) (v : Nat) : Res (List Nat) := do
  deref (M.sv v)
  pure (M.vf v)

/-- `MV_Num_Faces_R4`, MVertex_R4.c:94-97 -/
def mvNumFaces (M : Mesh4) (v : Nat) : Res Nat := do
  deref (M.sv v)
  pure (M.vf v).length

/-- `MV_Edges_R4`, MVertex_R4.c:128-147: nothing is put into the list -/
def mvEdges (M : Mesh4) (v : Nat) : Res (List Nat) := do
  deref (M.sv v)
  pure []

/-- `MF_Region_R4`, MF_Region_Funcs_R4.c:47-49 -/
def mfRegion (M : Mesh4) (f : Nat) (side : Bool) : Res (Option Nat) := do
  deref (M.sf f)
  pure (M.fr f side)

/-- a region that is there and not in the list is added, MVertex_R4.c:197-205 -/
def chkAdd (l : List Nat) : Option Nat → List Nat
  | none => l
  | some r => if r ∈ l then l else l ++ [r]

/-- the loop over the faces of a vertex, MVertex_R4.c:193-207 -/
def atFaces (M : Mesh4) : List Nat → List Nat → Res (List Nat)
  | [], l => .ok l
  | f :: fs, l => do
    let a ← mfRegion M f false
    let b ← mfRegion M f true
    atFaces M fs (chkAdd (chkAdd l a) b)

/-- `MV_Regions_R4`, MVertex_R4.c:182-216: NULL when there are none -/
def mvRegions (M : Mesh4) (v : Nat) : Res (Option (List Nat)) := do
  let fs ← mvFaces M v
  let l ← atFaces M fs []
  pure (if l.length ≠ 0 then some l else none)

/-- `MV_Num_Regions_R4`, MVertex_R4.c:99-113: the entries of a null pointer are counted when there are no
regions -/
def mvNumRegions (M : Mesh4) (v : Nat) : Res Nat := do
  let o ← mvRegions M v
  let l ← Res.ofOption o
  pure l.length

/-- `MF_Num_Vertices_R4`, MF_Vertex_Funcs_R4.c:218-222 -/
def mfNumVertices (M : Mesh4) (f : Nat) : Res Nat := do
  deref (M.sf f)
  let fs ← Res.ofOption (M.fv f)
  pure fs.length

/-- `MF_Vertices_R4`, MF_Vertex_Funcs_R4.c:224-267; `v0`: the vertex to start with -/
def mfVertices (M : Mesh4) (f : Nat) (dir : Bool) (v0 : Option Nat) : Res (Option (List Nat)) := do
  deref (M.sf f)
  let fs ← Res.ofOption (M.fv f)
  let nv := fs.length
  match v0 with
  | none =>
    if dir then pure (some fs)
    else do
      let l ← entries fs (List.range nv).reverse
      pure (some l)
  | some v =>
    match place v fs with
    | none => pure none
    | some k => do
      let l ← entries fs ((List.range nv).map fun i => if dir then (k + i) % nv else (k + nv - i) % nv)
      pure (some l)

/-- `MF_UsesVertex_R4`, MF_Vertex_Funcs_R4.c:312-316 -/
def mfUsesVertex (M : Mesh4) (f v : Nat) : Res Bool := do
  deref (M.sf f)
  let fs ← Res.ofOption (M.fv f)
  pure (decide (v ∈ fs))

/-- the loop of `MF_EdgeDir_R4`, MF_Edge_Funcs_R4.c:113-124; `a`, `b`: the vertices of the edge -/
def edgeDirLoop (fs : List Nat) (a b : Nat) : List Nat → Int
  | [] => -1
  | i :: is =>
    if fs[i]? = some a then
      if fs[(i + 1) % fs.length]? = some b then 1 else edgeDirLoop fs a b is
    else if fs[i]? = some b then
      if fs[(i + 1) % fs.length]? = some a then 0 else edgeDirLoop fs a b is
    else edgeDirLoop fs a b is

/-- `MF_EdgeDir_R4`, MF_Edge_Funcs_R4.c:105-128, for an edge from `a` to `b` -/
def mfEdgeDir (M : Mesh4) (f a b : Nat) : Res Int := do
  deref (M.sf f)
  let fs ← Res.ofOption (M.fv f)
  pure (edgeDirLoop fs a b (List.range fs.length))

/-- `MF_UsesEdge_R4`, MF_Edge_Funcs_R4.c:148-173: the same search -/
def mfUsesEdge (M : Mesh4) (f a b : Nat) : Res Bool := do
  let d ← mfEdgeDir M f a b
  pure (decide (d ≠ -1))

/-- `MF_Regions_R4`, MF_Region_Funcs_R4.c:19-32: a list in any case -/
def mfRegions (M : Mesh4) (f : Nat) : Res (List Nat) := do
  deref (M.sf f)
  pure ((M.fr f false).toList ++ (M.fr f true).toList)

/-- `MR_Faces_FNR3R4`, MR_Face_Funcs_FNR3R4.c:377-381 -/
def mrFaces (M : Mesh4) (r : Nat) : Res (List Nat) := do
  deref (M.sr r)
  let fds ← Res.ofOption (M.rf r)
  pure (fds.map (·.1))

/-- `MR_Num_Faces_FNR3R4`, MR_Face_Funcs_FNR3R4.c:371-374 -/
def mrNumFaces (M : Mesh4) (r : Nat) : Res Nat := do
  deref (M.sr r)
  let fds ← Res.ofOption (M.rf r)
  pure fds.length

/-- the loop of `MR_FaceDir_FNR3R4`, MR_Face_Funcs_FNR3R4.c:561-572 -/
def dirIn (f : Nat) : List (Nat × Bool) → Int
  | [] => -1
  | (g, d) :: l => if f = g then (if d then 1 else 0) else dirIn f l

/-- `MR_FaceDir_FNR3R4`, MR_Face_Funcs_FNR3R4.c:554-575 -/
def mrFaceDir (M : Mesh4) (r f : Nat) : Res Int := do
  deref (M.sr r)
  let fds ← Res.ofOption (M.rf r)
  pure (dirIn f fds)

/-- `MR_UsesFace_FNR3R4`, MR_Face_Funcs_FNR3R4.c:836-841 -/
def mrUsesFace (M : Mesh4) (r f : Nat) : Res Bool := do
  let fs ← mrFaces M r
  pure (decide (f ∈ fs))

/-- the region of a face on the other side, MR_Face_Funcs_FNR3R4.c:408-418; `a`, `b`: the regions on its
sides -/
def across (r : Nat) (a b : Option Nat) : List Nat :=
  match a with
  | none => []
  | some x => if x = r then b.toList else [x]

/-- the loop of `MR_AdjRegions_FNR3R4` -/
def adjLoop (M : Mesh4) (r : Nat) : List Nat → Res (List Nat)
  | [] => .ok []
  | f :: fs => do
    let a ← mfRegion M f false
    let b ← mfRegion M f true
    let l ← adjLoop M r fs
    pure (across r a b ++ l)

/-- `MR_AdjRegions_FNR3R4`, MR_Face_Funcs_FNR3R4.c:395-421 -/
def mrAdjRegions (M : Mesh4) (r : Nat) : Res (List Nat) := do
  let fs ← mrFaces M r
  adjLoop M r fs

/-- the loop of `MR_UsesVertex_FNR3R4` -/
def anyUses (M : Mesh4) (v : Nat) : List Nat → Res Bool
  | [] => .ok false
  | f :: fs => do
    let b ← mfUsesVertex M f v
    if b then pure true else anyUses M v fs

/-- `MR_UsesVertex_FNR3R4`, MR_Vertex_Funcs_FNR3R4.c:286-300 -/
def mrUsesVertex (M : Mesh4) (r v : Nat) : Res Bool := do
  let fs ← mrFaces M r
  anyUses M v fs

/-! ### Changing the mesh -/

/-- `MV_New` and `MV_Set_RepType_R4`, MVertex_R4.c:23-29 -/
def newVertex (M : Mesh4) (v : Nat) : Res Mesh4 :=
  .ok { M with sv := upd M.sv v .live, vf := upd M.vf v [] }

/-- `MF_New` (MFace.c:21-41) and `MF_Set_RepType_R4`, MFace_R4.c:21-28 -/
def newFace (M : Mesh4) (f : Nat) : Res Mesh4 :=
  .ok { M with sf := upd M.sf f .live, fv := upd M.fv f none, fr := upd M.fr f fun _ => none }

/-- `MF_Set_Vertices_R4`, MF_Vertex_Funcs_R4.c:106-126: the vertices are not told -/
def setFaceVertices (M : Mesh4) (f : Nat) (vs : List Nat) : Res Mesh4 := do
  deref (M.sf f)
  pure { M with fv := upd M.fv f (some vs) }

/-- `MV_Add_Face_R4` for a list of vertices, MVertex_R4.c:259-264, `List_ChknAdd` -/
def addTo (sv : Nat → Stat) (f : Nat) : List Nat → (Nat → List Nat) → Res (Nat → List Nat)
  | [], vf => .ok vf
  | v :: vs, vf => do
    deref (sv v)
    addTo sv f vs (upd vf v (if f ∈ vf v then vf v else vf v ++ [f]))

/-- `MV_Rem_Face_R4` for a list of vertices, MVertex_R4.c:266-272, `List_Rem` -/
def remFrom (sv : Nat → Stat) (f : Nat) : List Nat → (Nat → List Nat) → Res (Nat → List Nat)
  | [], vf => .ok vf
  | v :: vs, vf => do
    deref (sv v)
    remFrom sv f vs (upd vf v ((vf v).erase f))

/-- the vertices forget a face unless it is marked as deleted already, MFace_R4.c:37-43: the vertices are
gone through even if there is no list of them -/
def withdrawFace (M : Mesh4) (f : Nat) : Res (Nat → List Nat) :=
  if M.sf f = .live then do
    let vs ← Res.ofOption (M.fv f)
    remFrom M.sv f vs M.vf
  else .ok M.vf

/-- `MF_Delete` (MFace.c:43-68) with `MF_Delete_R4` (MFace_R4.c:30-52) -/
def delFace (M : Mesh4) (f : Nat) (keep : Bool) : Res Mesh4 := do
  deref (M.sf f)
  let vf ← withdrawFace M f
  pure { M with sf := upd M.sf f (if keep then .kept else .freed), vf := vf }

/-- `MF_Restore` (MFace.c:70-93) with `MF_Restore_R4` (MFace_R4.c:54-65) -/
def restoreFace (M : Mesh4) (f : Nat) : Res Mesh4 := do
  deref (M.sf f)
  let vs ← Res.ofOption (M.fv f)
  let vf ← addTo M.sv f vs M.vf
  pure { M with sf := upd M.sf f .live, vf := vf }

/-- `MR_New` and `MR_Set_RepType_FNR3R4`, MRegion_FNR3R4.c:19-27 -/
def newRegion (M : Mesh4) (r : Nat) : Res Mesh4 :=
  .ok { M with sr := upd M.sr r .live, rf := upd M.rf r none, rt := upd M.rt r .runknown }

/-- `MF_Add_Region_R4` (MF_Region_Funcs_R4.c:55-68) for the faces of a region: a face used in its own
direction has the region on side 0 -/
def attach (sf : Nat → Stat) (r : Nat) : List (Nat × Bool) → (Nat → Bool → Option Nat) →
    Res (Nat → Bool → Option Nat)
  | [], fr => .ok fr
  | (f, d) :: l, fr => do
    deref (sf f)
    attach sf r l (upd fr f (fun s => if s = !d then some r else fr f s))

/-- `MF_Rem_Region_R4`, MF_Region_Funcs_R4.c:70-81 -/
def without (r : Nat) (s : Bool → Option Nat) : Bool → Option Nat :=
  if s false = some r then fun b => if b then s true else none
  else if s true = some r then fun b => if b then none else s false
  else s

/-- `MF_Rem_Region_R4` for the faces of a region -/
def detach (sf : Nat → Stat) (r : Nat) : List (Nat × Bool) → (Nat → Bool → Option Nat) →
    Res (Nat → Bool → Option Nat)
  | [], fr => .ok fr
  | (f, _) :: l, fr => do
    deref (sf f)
    detach sf r l (upd fr f (without r (fr f)))

/-- `for (i...) if (MF_Num_Vertices(face i) != n) { all = 0; break; }`,
MR_Face_Funcs_FNR3R4.c:780-785, 816-821 -/
def allSize (M : Mesh4) (n : Nat) : List Nat → Res Bool
  | [] => .ok true
  | f :: fs => do
    let m ← mfNumVertices M f
    if m ≠ n then pure false else allSize M n fs

/-- the numbers of vertices of all faces, MR_Face_Funcs_FNR3R4.c:797-803 -/
def sizes (M : Mesh4) : List Nat → Res (List Nat)
  | [] => .ok []
  | f :: fs => do
    let m ← mfNumVertices M f
    let l ← sizes M fs
    pure (m :: l)

/-- the types of a region with five faces, MR_Face_Funcs_FNR3R4.c:805-810 -/
def typeOfFive (ns : List Nat) : MRType :=
  if (ns.filter (· = 4)).length = 3 ∧ (ns.filter (· = 3)).length = 2 then .prism
  else if (ns.filter (· = 4)).length = 1 ∧ (ns.filter (· = 3)).length = 4 then .pyramid
  else .polyhed

/-- `MR_Update_ElementType_FNR3R4`, MR_Face_Funcs_FNR3R4.c:764-833 -/
def typeFrom (M : Mesh4) (fs : List Nat) : Res MRType :=
  if fs.length < 4 then .ok .runknown
  else if fs.length = 4 then do
    let b ← allSize M 3 fs
    pure (if b then .tet else .polyhed)
  else if fs.length = 5 then do
    let ns ← sizes M fs
    pure (typeOfFive ns)
  else if fs.length = 6 then do
    let b ← allSize M 4 fs
    pure (if b then .hex else .polyhed)
  else .ok .polyhed

/-- `MR_Set_Faces_FNR3R4`, MR_Face_Funcs_FNR3R4.c:66-99 -/
def setFaces (M : Mesh4) (r : Nat) (fds : List (Nat × Bool)) : Res Mesh4 := do
  deref (M.sr r)
  let fr ← attach M.sf r fds M.fr
  let t ← typeFrom M (fds.map (·.1))
  pure { M with fr := fr, rf := upd M.rf r (some fds), rt := upd M.rt r t }

/-- the faces forget a region unless it is marked as deleted already, MRegion_FNR3R4.c:36-44 -/
def withdraw (M : Mesh4) (r : Nat) : Res (Nat → Bool → Option Nat) :=
  if M.sr r = .live then detach M.sf r ((M.rf r).getD []) M.fr else .ok M.fr

/-- `MR_Delete` (MRegion.c:47-72) with `MR_Delete_F1F3R3R4` (MRegion_FNR3R4.c:29-55) -/
def delRegion (M : Mesh4) (r : Nat) (keep : Bool) : Res Mesh4 := do
  deref (M.sr r)
  let fr ← withdraw M r
  pure { M with sr := upd M.sr r (if keep then .kept else .freed), fr := fr }

/-- `MR_Restore` (MRegion.c:74-96) with `MR_Restore_F1F3R3R4` (MRegion_FNR3R4.c:57-75) -/
def restoreRegion (M : Mesh4) (r : Nat) : Res Mesh4 := do
  deref (M.sr r)
  let fds ← Res.ofOption (M.rf r)
  let fr ← attach M.sf r fds M.fr
  pure { M with sr := upd M.sr r .live, fr := fr }

/-! ### Edges on request and regions given by their vertices -/

/-- `ME_New` and `ME_Set_Vertex`: `MV_Add_Edge_R4` (MVertex_R4.c:246-251) does nothing -/
def newEdge (M : Mesh4) (a b : Nat) : Mesh4 × Nat :=
  ({ M with en := M.en + 1, ends := upd M.ends M.en (a, b) }, M.en)

/-- the search of `MVs_CommonEdge`, MEdge.c:399-412 -/
def searchEdge (M : Mesh4) (w : Nat) : List Nat → Option Nat
  | [] => none
  | e :: es => if (M.ends e).1 = w ∨ (M.ends e).2 = w then some e else searchEdge M w es

/-- `MVs_CommonEdge`, MEdge.c:387-417 -/
def commonEdge (M : Mesh4) (v w : Nat) : Res (Option Nat) := do
  let es ← mvEdges M v
  pure (searchEdge M w es)

/-- whether `a` is in the list with `b` next to it or before it, ME_Face_Funcs_R3R4.c:67-75 -/
def nextTo (fs : List Nat) (a b : Nat) : Bool :=
  (List.range fs.length).any fun j => fs[j]? = some a ∧
    (fs[(j + 1) % fs.length]? = some b ∨ fs[(j + fs.length - 1) % fs.length]? = some b)

/-- the loop of `ME_Faces_R3R4` -/
def edgeFaces (M : Mesh4) (a b : Nat) : List Nat → Res (List Nat)
  | [] => .ok []
  | f :: fs => do
    let o ← mfVertices M f true none
    let vs ← Res.ofOption o
    let l ← edgeFaces M a b fs
    pure (if nextTo vs a b then f :: l else l)

/-- `ME_Faces_R3R4`, ME_Face_Funcs_R3R4.c:38-91: NULL when there are none -/
def meFaces (M : Mesh4) (e : Nat) : Res (Option (List Nat)) := do
  let fs ← mvFaces M (M.ends e).1
  let l ← edgeFaces M (M.ends e).1 (M.ends e).2 fs
  pure (if l.length ≠ 0 then some l else none)

/-- the loop of `MVs_CommonFace`, MFace.c:385-418 -/
def searchFace (M : Mesh4) (vs : List Nat) : List Nat → Res (Option Nat)
  | [] => .ok none
  | f :: fs => do
    let o ← mfVertices M f true none
    let ws ← Res.ofOption o
    if ws.length ≠ vs.length then searchFace M vs fs
    else if ws.all (· ∈ vs) then pure (some f)
    else searchFace M vs fs

/-- `MVs_CommonFace`, MFace.c:369-422 -/
def commonFace (M : Mesh4) (vs : List Nat) : Res (Option Nat) := do
  let a ← Res.ofOption vs[0]?
  let b ← Res.ofOption vs[1]?
  let e ← commonEdge M a b
  match e with
  | none => pure none
  | some e => do
    let o ← meFaces M e
    match o with
    | none => pure none
    | some fs => searchFace M vs fs

/-- the edges of a face one after the other, MF_Edge_Funcs_R4.c:47-81 without `HASHTABLE`: each is a new one -/
def sideEdges (M : Mesh4) (fs : List Nat) : List Nat → Res (Mesh4 × List Nat)
  | [] => .ok (M, [])
  | i :: is => do
    let a ← Res.ofOption fs[i]?
    let b ← Res.ofOption fs[(i + 1) % fs.length]?
    let p ← sideEdges (newEdge M a b).1 fs is
    pure (p.1, (newEdge M a b).2 :: p.2)

/-- `MF_Edges_R4`, MF_Edge_Funcs_R4.c:23-91, in the direction of the face and without start -/
def mfEdges (M : Mesh4) (f : Nat) : Res (Mesh4 × List Nat) := do
  deref (M.sf f)
  let fs ← Res.ofOption (M.fv f)
  sideEdges M fs (List.range fs.length)

/-- the loop of `MEs_CommonFace`, MFace.c:436-453 -/
def searchByEdges (M : Mesh4) (rest : List Nat) : List Nat → Res (Mesh4 × Option Nat)
  | [] => .ok (M, none)
  | f :: fs => do
    let p ← mfEdges M f
    if rest.all (· ∈ p.2) then pure (p.1, some f) else searchByEdges p.1 rest fs

/-- `MEs_CommonFace`, MFace.c:424-457 -/
def commonFaceE (M : Mesh4) (es : List Nat) : Res (Mesh4 × Option Nat) := do
  let e ← Res.ofOption es[0]?
  let o ← meFaces M e
  match o with
  | none => pure (M, none)
  | some fs => searchByEdges M (es.drop 1) fs

/-- the direction in which a face that was found is used, MR_Face_Funcs_FNR3R4.c:338-361: the list of its
regions is not NULL, its first entry is -/
def dirFound (M : Mesh4) (f : Nat) : Res Bool := do
  let l ← mfRegions M f
  match l with
  | [] => .ub
  | o :: _ => do
    let d ← mrFaceDir M o f
    pure (decide (d = 0))

/-- the vertices of a row of a template, MR_Face_Funcs_FNR3R4.c:138-146 -/
def pick (vs : List Nat) (row : List Nat) : Res (List Nat) := entries vs row

/-- One face of a region given with a template, MR_Face_Funcs_FNR3R4.c:133-187; `nf`: the storage that
`MF_New` gets. -/
def faceByVertices (M : Mesh4) (ws : List Nat) (nf : Nat) : Res (Mesh4 × (Nat × Bool)) := do
  let o ← commonFace M ws
  match o with
  | none => do
    let M ← newFace M nf
    let M ← setFaceVertices M nf ws
    pure (M, (nf, true))
  | some f => do
    let d ← dirFound M f
    pure (M, (f, d))

/-- all faces of a region given with a template -/
def facesByVertices (M : Mesh4) (vs : List Nat) : List (List Nat) → List Nat →
    Res (Mesh4 × List (Nat × Bool))
  | [], _ => .ok (M, [])
  | _ :: _, [] => .ok (M, [])
  | row :: rows, nf :: nfs => do
    let ws ← pick vs row
    let p ← faceByVertices M ws nf
    let q ← facesByVertices p.1 vs rows nfs
    pure (q.1, p.2 :: q.2)

/-- reading the classification of the vertices, MR_Face_Funcs_FNR3R4.c:117-121 -/
def readAll (M : Mesh4) : List Nat → Res Unit
  | [] => .ok ()
  | v :: vs => do
    deref (M.sv v)
    readAll M vs

/-- `MR_Set_Vertices_FNR3R4` with a template, MR_Face_Funcs_FNR3R4.c:101-189.  `nfs`: what `MF_New` would
get for each row. -/
def setByTemplate (M : Mesh4) (r : Nat) (vs : List Nat) (rows : List (List Nat)) (nfs : List Nat) :
    Res Mesh4 := do
  deref (M.sr r)
  readAll M vs
  let p ← facesByVertices M vs rows nfs
  setFaces p.1 r p.2

/-- the edges of a standard element, MR_Face_Funcs_FNR3R4.c:219-290 -/
def edgesByVertices (M : Mesh4) (vs : List Nat) : List (Int × Int) → Res (Mesh4 × List Nat)
  | [] => .ok (M, [])
  | (i, j) :: l => do
    let a ← Res.ofOption vs[i.toNat]?
    let b ← Res.ofOption vs[j.toNat]?
    let o ← commonEdge M a b
    match o with
    | none => do
      let p ← edgesByVertices (newEdge M a b).1 vs l
      pure (p.1, (newEdge M a b).2 :: p.2)
    | some e => do
      let p ← edgesByVertices M vs l
      pure (p.1, e :: p.2)

/-- One face of a standard element, MR_Face_Funcs_FNR3R4.c:293-363: `MF_Set_Edges_R4` (MFace_R4.c:78-83) does
nothing -/
def faceByEdges (M : Mesh4) (es : List Nat) (nf : Nat) (dir : Bool) : Res (Mesh4 × (Nat × Bool)) := do
  let p ← commonFaceE M es
  match p.2 with
  | none => do
    let M ← newFace p.1 nf
    pure (M, (nf, dir))
  | some f => do
    let d ← dirFound p.1 f
    pure (p.1, (f, d))

/-- all faces of a standard element; `rows`: the numbers of the edges and the direction of the face -/
def facesByEdges (M : Mesh4) (es : List Nat) : List (List Nat × Bool) → List Nat →
    Res (Mesh4 × List (Nat × Bool))
  | [], _ => .ok (M, [])
  | _ :: _, [] => .ok (M, [])
  | (row, dir) :: rows, nf :: nfs => do
    let fe ← pick es row
    let p ← faceByEdges M fe nf dir
    let q ← facesByEdges p.1 es rows nfs
    pure (q.1, p.2 :: q.2)

/-- the faces of a standard element by the numbers of their edges, with their directions -/
def edgeRows (ty : MRType) : Option (List (List Nat × Bool)) := do
  let fe ← Tmpl.faceEdges ty
  let ds ← Tmpl.faceDirs ty
  pure ((fe.map fun l => l.map fun p => p.1.toNat).zip (ds.map fun d => decide (d ≠ 0)))

/-- `MR_Set_Vertices_FNR3R4` without template, MR_Face_Funcs_FNR3R4.c:101-121, 190-369.  `nfs`: what `MF_New`
would get for each face. -/
def setStandard (M : Mesh4) (r : Nat) (vs : List Nat) (nfs : List Nat) : Res Mesh4 := do
  deref (M.sr r)
  readAll M vs
  let t ← Tmpl.setVerticesType vs.length
  let ev ← Res.ofOption (Tmpl.edges t.1)
  let p ← edgesByVertices M vs ev
  let rows ← Res.ofOption (edgeRows t.1)
  let q ← facesByEdges p.1 p.2 rows nfs
  setFaces q.1 r q.2

end MSTK.R4M
