import Verif.R1Model
/-!
Model of the edges and faces that a mesh with the representation `R1` makes for the caller: the edges and
faces of a region, a vertex and an edge (MR_Edge_Funcs_R1.c, `MR_Faces_R1` of MR_Face_Funcs_R1.c,
MF_Edge_Funcs_R1.c, MVertex_R1.c, ME_Face_Funcs_R1R2.c, ME_Region_Funcs_RN.c).

The library is built without `HASHTABLE` (no file of the build system defines it): each query makes new
entities.  Simplifications: those of `Verif.R1Model`; locks have no effect without the hash table and are
left out, and so is the classification (`ME_Set_GInfo_Auto`) with the faces that are made to find it.
-/
namespace MSTK.R1M

/-- The mesh with the edges made so far.  Edges have the names `0, 1, …, ne - 1`; `ev` are their vertices
(`vertex` of include/MEdge.h).  The next face that is made gets the name `nf`. -/
structure Made where
  m : Mesh1
  ev : Nat → Option (Nat × Nat)
  ne : Nat
  nf : Nat

/-- `ME_New` (MEdge.c:19-41) and `ME_Set_Vertex` twice (MEdge.c:125-128); the edge is not put in the list of
edges of the mesh, Mesh.c:860 -/
def newEdge (M : Made) (a b : Nat) : Made :=
  { M with ev := upd M.ev M.ne (some (a, b)), ne := M.ne + 1 }

/-- `MF_New` and `MF_Set_Vertices` (MF_Vertex_Funcs_R1.c:169-189); the face is not put in the list of faces
of a mesh with regions, Mesh.c:876 -/
def makeFace (M : Made) (fs : List Nat) : Made :=
  { M with m := { M.m with sf := upd M.m.sf M.nf .live, fv := upd M.m.fv M.nf (some fs) }, nf := M.nf + 1 }

/-! ### The edges and faces of a region -/

/-- the pairs of consecutive entries of a row of a template -/
def rowPairs (w : List Nat) : List (Nat × Nat) :=
  (List.range w.length).map fun j => (w.getD j 0, w.getD ((j + 1) % w.length) 0)

/-- the comparison in MR_Edge_Funcs_R1.c:56-60 -/
def samePair (p q : Nat × Nat) : Bool :=
  decide (q.1 = p.2 ∧ q.2 = p.1) || decide (q.1 = p.1 ∧ q.2 = p.2)

/-- the pairs that do not occur in an earlier face, MR_Edge_Funcs_R1.c:36-66 -/
def freshPairs : List (List Nat) → List (List Nat) → List (Nat × Nat)
  | _, [] => []
  | before, w :: ws =>
    (rowPairs w).filter (fun p => !(before.any fun u => (rowPairs u).any (samePair p))) ++
      freshPairs (before ++ [w]) ws

/-- rows `1, …, nf` of a template, where `nf` is read at the beginning of row 0 -/
def rowsOf (rows : List (List Nat)) : Res (List (List Nat)) := do
  let w ← Res.ofOption rows[0]?
  Res.ofOption ((List.range w.length).mapM fun i => rows[1 + i]?)

/-- the places of the vertices of the edges, MR_Edge_Funcs_R1.c:31-68, 102-116; `none`: NULL is returned
(line 106) -/
def edgePlaces (M : Mesh1) (r nv : Nat) : Res (Option (List (Nat × Nat))) :=
  match M.tm r with
  | some rows => do
    let ws ← rowsOf rows
    pure (some (freshPairs [] ws))
  | none => do
    let ty ← Res.ofOption Tmpl.nv2rtype[nv]?
    if ty = .runknown then pure none
    else do
      let ps ← Res.ofOption (Tmpl.edges ty)
      pure (some (ps.map fun p => (p.1.toNat, p.2.toNat)))

/-- an edge for each pair of places, MR_Edge_Funcs_R1.c:68-97, 117-145 -/
def makeEdges (vs : List Nat) : List (Nat × Nat) → Made → Res (Made × List Nat)
  | [], M => .ok (M, [])
  | p :: ps, M => do
    let a ← Res.ofOption vs[p.1]?
    let b ← Res.ofOption vs[p.2]?
    let x ← makeEdges vs ps (newEdge M a b)
    pure (x.1, M.ne :: x.2)

/-- `MR_Edges_R1`, MR_Edge_Funcs_R1.c:19-153 -/
def mrEdges (M : Made) (r : Nat) : Res (Made × Option (List Nat)) := do
  deref (M.m.sr r)
  let vs ← Res.ofOption (M.m.rv r)
  let o ← edgePlaces M.m r vs.length
  match o with
  | none => pure (M, none)
  | some ps => do
    let x ← makeEdges vs ps M
    pure (x.1, some x.2)

/-- whether a pair of places is the pair of places of the vertices of the edge, MR_Edge_Funcs_R1.c:177-181,
191-195; `none`: the vertex is not there (-1) -/
def atPlaces (i j : Option Nat) (p : Nat × Nat) : Bool :=
  decide (some p.1 = i ∧ some p.2 = j) || decide (some p.1 = j ∧ some p.2 = i)

/-- the loop over the faces of a template, MR_Edge_Funcs_R1.c:174-184 -/
def usesRow (rows : List (List Nat)) (i j : Option Nat) : List Nat → Res Bool
  | [] => .ok false
  | k :: ks => do
    let w ← Res.ofOption rows[1 + k]?
    if (rowPairs w).any (atPlaces i j) then pure true else usesRow rows i j ks

/-- `MR_UsesEdge_R1`, MR_Edge_Funcs_R1.c:161-202 -/
def mrUsesEdge (M : Made) (r e : Nat) : Res Bool := do
  deref (M.m.sr r)
  let vs ← Res.ofOption (M.m.rv r)
  let p ← Res.ofOption (M.ev e)
  match M.m.tm r with
  | some rows => do
    let w ← Res.ofOption rows[0]?
    usesRow rows (place p.1 vs) (place p.2 vs) (List.range w.length)
  | none => do
    let ty ← Res.ofOption Tmpl.nv2rtype[vs.length]?
    let ps ← Res.ofOption (Tmpl.edges ty)
    pure ((ps.map fun q => (q.1.toNat, q.2.toNat)).any (atPlaces (place p.1 vs) (place p.2 vs)))

/-- a face for each row, MR_Face_Funcs_R1.c:51-87, 99-141.  The vertices go to an array of `MAXPV2` = 30
entries. -/
def makeFaces (r : Nat) (vs : List Nat) : List Nat → Made → Res (Made × List Nat)
  | [], M => .ok (M, [])
  | i :: is, M => do
    let w ← rowOf M.m r vs.length i
    if 30 < w.2.length then .ub
    else do
      let fs ← entries vs w.2
      let x ← makeFaces r vs is (makeFace M fs)
      pure (x.1, M.nf :: x.2)

/-- `MR_Faces_R1`, MR_Face_Funcs_R1.c:35-151 -/
def mrFaces (M : Made) (r : Nat) : Res (Made × List Nat) := do
  deref (M.m.sr r)
  let vs ← Res.ofOption (M.m.rv r)
  let nf ← mrNumFaces M.m r
  makeFaces r vs (List.range nf) M

/-! ### The edges of a face -/

/-- the place to start at, MF_Edge_Funcs_R1.c:30-44 -/
def startPlace (v0 : Option Nat) (fs : List Nat) : Option Nat :=
  match v0 with
  | none => some 0
  | some v => place v fs

/-- `MF_Edges_R1`, MF_Edge_Funcs_R1.c:23-94; `v0`: the vertex to start with -/
def mfEdges (M : Made) (f : Nat) (dir : Bool) (v0 : Option Nat) : Res (Made × Option (List Nat)) := do
  derefF (M.m.sf f)
  let fs ← Res.ofOption (M.m.fv f)
  let n := fs.length
  match startPlace v0 fs with
  | none => pure (M, none)
  | some k => do
    let x ← makeEdges fs ((List.range n).map fun i =>
      if dir then ((k + i) % n, (k + (i + 1)) % n) else ((k + n - i) % n, (k + n - (i + 1)) % n)) M
    pure (x.1, some x.2)

/-- the search of `MF_EdgeDir_R1` and `MF_UsesEdge_R1`, MF_Edge_Funcs_R1.c:112-135, 156-179: from which place
of the face the edge goes, and in which direction -/
def findEdge (fs : List Nat) (a b : Nat) : List Nat → Option Bool
  | [] => none
  | i :: is =>
    if fs[i]? = some a then
      if fs[(i + 1) % fs.length]? = some b then some true else findEdge fs a b is
    else if fs[i]? = some b then
      if fs[(i + 1) % fs.length]? = some a then some false else findEdge fs a b is
    else findEdge fs a b is

/-- `MF_EdgeDir_R1`, MF_Edge_Funcs_R1.c:112-135 -/
def mfEdgeDir (M : Made) (f e : Nat) : Res Int := do
  derefF (M.m.sf f)
  let fs ← Res.ofOption (M.m.fv f)
  let p ← Res.ofOption (M.ev e)
  match findEdge fs p.1 p.2 (List.range fs.length) with
  | some true => pure 1
  | some false => pure 0
  | none => pure (-1)

/-- `MF_UsesEdge_R1`, MF_Edge_Funcs_R1.c:156-179 -/
def mfUsesEdge (M : Made) (f e : Nat) : Res Bool := do
  derefF (M.m.sf f)
  let fs ← Res.ofOption (M.m.fv f)
  let p ← Res.ofOption (M.ev e)
  pure (findEdge fs p.1 p.2 (List.range fs.length)).isSome

/-- `MF_UsesVertex_R1`, MF_Vertex_Funcs_R1.c:370-374 -/
def mfUsesVertex (M : Made) (f v : Nat) : Res Bool := do
  derefF (M.m.sf f)
  let fs ← Res.ofOption (M.m.fv f)
  pure (decide (v ∈ fs))

/-! ### The edges and faces of a vertex and the faces and regions of an edge -/

/-- `MEs_AreSame`, MEdge.c:282-293 -/
def edgesSame (M : Made) (e e' : Nat) : Res Bool :=
  if e = e' then .ok true
  else do
    let p ← Res.ofOption (M.ev e)
    let q ← Res.ofOption (M.ev e')
    pure (decide (p.1 = q.1 ∧ p.2 = q.2) || decide (p.2 = q.1 ∧ p.1 = q.2))

/-- `ME_UsesEntity` for a vertex, MEdge.c:347-354 -/
def meUsesVertex (M : Made) (v e : Nat) : Res Bool := do
  let p ← Res.ofOption (M.ev e)
  pure (decide (p.1 = v ∨ p.2 = v))

/-- the comparison of the vertices of two faces, MF_Vertex_Funcs_R1.c:23-76 -/
def sameCycle (fs gs : List Nat) : Bool :=
  let n := fs.length
  if fs.length ≠ gs.length then false
  else
    match place (fs.getD 0 0) gs with
    | none => false
    | some k =>
      if fs[1]? = gs[(k + 1) % n]? then
        (List.range n).all fun j => decide (j < 2 ∨ fs[j]? = gs[(k + j) % n]?)
      else if fs[1]? = gs[(k + n - 1) % n]? then
        (List.range n).all fun j => decide (j < 2 ∨ fs[j]? = gs[(k + n - j) % n]?)
      else false

/-- `MFs_AreSame_R1`, MF_Vertex_Funcs_R1.c:18-79; the first two vertices of the first face are read -/
def facesSame (M : Made) (f g : Nat) : Res Bool :=
  if f = g then .ok true
  else do
    derefF (M.m.sf f)
    derefF (M.m.sf g)
    let fs ← Res.ofOption (M.m.fv f)
    let gs ← Res.ofOption (M.m.fv g)
    if fs.length = gs.length ∧ fs.length < 2 then .ub
    else pure (sameCycle fs gs)

/-- the search for an entity that is the same, MVertex_R1.c:178-184 -/
def anySame (same : Nat → Nat → Res Bool) (x : Nat) : List Nat → Res Bool
  | [] => .ok false
  | y :: ys => do
    let s ← same x y
    if s then pure true else anySame same x ys

/-- the loop over the entities of a region, MVertex_R1.c:174-189, 324-339, ME_Face_Funcs_R1R2.c:69-84 -/
def pick (uses : Nat → Res Bool) (same : Nat → Nat → Res Bool) : List Nat → List Nat → Res (List Nat)
  | [], acc => .ok acc
  | x :: xs, acc => do
    let u ← uses x
    if u then do
      let s ← anySame same x acc
      pick uses same xs (if s then acc else acc ++ [x])
    else pick uses same xs acc

/-- the loop over the regions, MVertex_R1.c:169-193, 318-343, ME_Face_Funcs_R1R2.c:65-87.  An entity in the
list of a vertex that is marked as deleted would be taken for a face. -/
def gather (make : Made → Nat → Res (Made × List Nat)) (uses : Made → Nat → Res Bool)
    (same : Made → Nat → Nat → Res Bool) : List Nat → Made → List Nat → Res (Made × List Nat)
  | [], M, acc => .ok (M, acc)
  | r :: rs, M, acc =>
    if M.m.sr r = .live then do
      let x ← make M r
      let acc ← pick (uses x.1) (same x.1) x.2 acc
      gather make uses same rs x.1 acc
    else .ub

/-- NULL instead of an empty list -/
def orNull (x : Made × List Nat) : Made × Option (List Nat) := (x.1, if x.2.length ≠ 0 then some x.2 else none)

/-- `MR_Edges` whose answer is read -/
def readEdges (M : Made) (r : Nat) : Res (Made × List Nat) := do
  let x ← mrEdges M r
  let l ← Res.ofOption x.2
  pure (x.1, l)

/-- `MV_Edges_R1`, MVertex_R1.c:156-291 -/
def mvEdges (M : Made) (v : Nat) : Res (Made × Option (List Nat)) := do
  deref (M.m.sv v)
  let x ← gather readEdges (fun M e => meUsesVertex M v e) edgesSame (M.m.ve v) M []
  pure (orNull x)

/-- `MV_Num_Edges_R1`, MVertex_R1.c:65-79: the number of entries of what may be NULL -/
def mvNumEdges (M : Made) (v : Nat) : Res (Made × Nat) := do
  let x ← mvEdges M v
  let l ← Res.ofOption x.2
  pure (x.1, l.length)

/-- the other vertices of the edges, `ME_OppVertex` (MEdge.c:302-304) -/
def opposite (M : Made) (v : Nat) : List Nat → Res (List Nat)
  | [] => .ok []
  | e :: es => do
    let p ← Res.ofOption (M.ev e)
    let l ← opposite M v es
    pure ((if p.1 = v then p.2 else p.1) :: l)

/-- `MV_AdjVertices_R1`, MVertex_R1.c:117-133 -/
def mvAdjVertices (M : Made) (v : Nat) : Res (Made × Option (List Nat)) := do
  let x ← mvEdges M v
  match x.2 with
  | none => pure (x.1, none)
  | some l => do
    let l ← opposite x.1 v l
    pure (x.1, some l)

/-- `MV_Faces_R1`, MVertex_R1.c:308-354 -/
def mvFaces (M : Made) (v : Nat) : Res (Made × Option (List Nat)) := do
  deref (M.m.sv v)
  let x ← gather mrFaces (fun M f => mfUsesVertex M f v) facesSame (M.m.ve v) M []
  pure (orNull x)

/-- the regions with a second vertex, ME_Region_Funcs_RN.c:44-48 -/
def regionsWith (M : Mesh1) (b : Nat) : List Nat → Res (List Nat)
  | [] => .ok []
  | r :: rs => do
    let u ← mrUsesVertex M r b
    let l ← regionsWith M b rs
    pure (if u then r :: l else l)

/-- `ME_Regions_RN`, ME_Region_Funcs_RN.c:36-56: the list of regions of the first vertex may be NULL -/
def meRegions (M : Made) (e : Nat) : Res (Option (List Nat)) := do
  let p ← Res.ofOption (M.ev e)
  let o ← mvRegions M.m p.1
  let vr ← Res.ofOption o
  let l ← regionsWith M.m p.2 vr
  pure (if l.length ≠ 0 then some l else none)

/-- `ME_Num_Regions_RN`, ME_Region_Funcs_RN.c:19-34 -/
def meNumRegions (M : Made) (e : Nat) : Res Nat := do
  let p ← Res.ofOption (M.ev e)
  let o ← mvRegions M.m p.1
  let vr ← Res.ofOption o
  let l ← regionsWith M.m p.2 vr
  pure l.length

/-- the faces with a second vertex, ME_Face_Funcs_R1R2.c:95-99 -/
def facesWith (M : Made) (b : Nat) : List Nat → Res (List Nat)
  | [] => .ok []
  | f :: fs => do
    let u ← mfUsesVertex M f b
    let l ← facesWith M b fs
    pure (if u then f :: l else l)

/-- `ME_Faces_R1R2`, ME_Face_Funcs_R1R2.c:33-108.  When one vertex has regions and the other has none,
`cmnregs` is NULL where its entries are counted (line 60). -/
def meFaces (M : Made) (e : Nat) : Res (Made × Option (List Nat)) := do
  let p ← Res.ofOption (M.ev e)
  let vr0 ← mvRegions M.m p.1
  let vr1 ← mvRegions M.m p.2
  match vr0, vr1 with
  | some l0, some l1 =>
    if (l0.filter (· ∈ l1)).length = 0 then pure (M, none)
    else do
      let x ← gather mrFaces (fun M f => mfUsesEdge M f e) facesSame (l0.filter (· ∈ l1)) M []
      pure (orNull x)
  | none, none => do
    let x ← mvFaces M p.1
    match x.2 with
    | none => pure (x.1, none)
    | some l => do
      let l ← facesWith x.1 p.2 l
      pure (orNull (x.1, l))
  | _, _ => .ub

end MSTK.R1M
