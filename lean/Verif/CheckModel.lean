import Verif.TopoQuery

/-!
Model of `MESH_CheckTopo` (src/hilev/MESH_CheckTopo.c): the routine that says whether the topology
of a mesh is valid.

Results are the final value of the variable `valid` (1 is `true`).  Messages are not modelled, nor are
the checks that only print one: unknown classification (66-70), a vertex on a model edge (92-110),
repeated vertices of an edge (240-243), edges and faces on different model entities of the same
dimension (460-463), faces with less than three edges (443-446) and regions with less than four faces
(521-524).
-/
namespace MSTK
namespace Topo

/-- A mesh as `MESH_CheckTopo` sees it: entities in the order of `MESH_Next_Vertex` and so on,
classification (`GEntDim`, `GEntID`), and whether an entity is a ghost (never without MPI). -/
structure CkMesh where
  T : Topo
  vl : List Nat
  el : List Nat
  fl : List Nat
  rl : List Nat
  vc : Nat → Int × Int
  ec : Nat → Int × Int
  fc : Nat → Int × Int
  gv : Nat → Bool
  ge : Nat → Bool
  gf : Nat → Bool
  gr : Nat → Bool

/-- A loop that does a check for every entry and sets `valid` to 0 when one fails. -/
def allM (g : Nat → Res Bool) : List Nat → Res Bool
  | [] => .ok true
  | x :: xs => do
    let a ← g x
    let b ← allM g xs
    pure (a && b)

/-! ### vertices -/

/-- The next face of the model face around the vertex, MESH_CheckTopo.c:155-164. -/
def nextOn (M : CkMesh) (gid : Int) (fcur : Nat) : List Nat → Res (Option Nat)
  | [] => .ok none
  | f :: fs => do
    M.T.derefF f
    if f ≠ fcur ∧ (M.fc f).1 = 2 ∧ (M.fc f).2 = gid then pure (some f) else nextOn M gid fcur fs

/-- The edge through which the walk goes on and `flipped`, MESH_CheckTopo.c:177-186. -/
def nextEdge (fe : List Nat) (ecur : Nat) (flipped : Bool) : Option Nat × Bool :=
  if fe.head? = some ecur then (fe.getLast?, flipped)
  else if fe.getLast? = some ecur then (fe.head?, true)
  else (some ecur, flipped)

/-- "if (done && flipped)", MESH_CheckTopo.c:202-209: only a message, but `List_Num_Entries` is
called on NULL when the face has no regions. -/
def flippedCheck (M : CkMesh) (f : Nat) (flipped : Bool) : Res Bool := do
  if flipped then
    let L ← M.T.mfRegions f
    let _ ← Res.ofOption L
    pure true
  else pure true

/-- The walk around a vertex on a model face, MESH_CheckTopo.c:152-200; at most `maxiter` + 1 rounds.
When they are used up there is a message only. -/
def ring (M : CkMesh) (v : Nat) (gid : Int) (e0 : Nat) : Nat → Nat → Nat → Bool → Res Bool
  | 0, _, _, _ => .ok true
  | n+1, fcur, ecur, flipped => do
    let L ← M.T.meFaces ecur
    let l ← Res.ofOption L
    match ← nextOn M gid fcur l with
    | none => pure false
    | some g =>
      let fe ← M.T.mfEdges g true (some v)
      let p := nextEdge fe ecur flipped
      let enxt ← Res.ofOption p.1
      if enxt = e0 then flippedCheck M g p.2
      else ring M v gid e0 n g enxt p.2

/-- The walk from the first face with dimension 2 on, MESH_CheckTopo.c:124-209.  When there is none,
`valid` is set to 0 and `MF_Edges` is called with NULL. -/
def ringFrom (M : CkMesh) (v : Nat) : Option Nat → Res Bool
  | none => .ub
  | some f => do
    let fe ← M.T.mfEdges f true (some v)
    let e0 ← Res.ofOption fe.head?
    let enxt ← Res.ofOption fe.getLast?
    ring M v (M.vc v).2 e0 1001 f enxt false

/-- One vertex, MESH_CheckTopo.c:56-213. -/
def ckVertex (M : CkMesh) (v : Nat) : Res Bool :=
  if M.gv v then .ok true
  else do
    let L ← M.T.mvEdges v
    match L with
    | none => pure true
    | some l =>
      let a ← allM (fun e => M.T.meUsesVertex e (some v)) l
      if (M.vc v).1 = 2 then
        let F ← M.T.mvFaces v
        let fs ← Res.ofOption F
        let b ← ringFrom M v (fs.find? fun f => decide ((M.fc f).1 = 2))
        pure (a && b)
      else pure a

/-! ### edges -/

/-- The classification of an edge and of one of its vertices, MESH_CheckTopo.c:252-263. -/
def edgeClsOk (ce cv : Int × Int) : Bool :=
  if cv.1 ≠ 4 then
    if ce.1 < cv.1 then false else if ce.1 = cv.1 ∧ ce.2 ≠ cv.2 then false else true
  else true

/-- An end of an edge, MESH_CheckTopo.c:246-271. -/
def ckEnd (M : CkMesh) (e : Nat) (i : Bool) : Res Bool := do
  let o ← M.T.meVertex e i
  let v ← Res.ofOption o
  let L ← M.T.mvEdges v
  let l ← Res.ofOption L
  pure (edgeClsOk (M.ec e) (M.vc v) && decide (e ∈ l))

/-- `nf`, `ebf[0]`, `ebf[1]` and `valid`. -/
structure BFaces where
  nf : Nat
  a : Option Nat
  b : Option Nat
  valid : Bool
  deriving DecidableEq

/-- The faces of an edge classified on a model face, MESH_CheckTopo.c:283-304. -/
def bfaces (M : CkMesh) (geid : Int) : List Nat → BFaces → Res BFaces
  | [], s => .ok s
  | f :: fs, s => do
    M.T.derefF f
    if (M.fc f).1 = 2 then
      let ok := s.valid && decide ((M.fc f).2 = geid)
      match s.a with
      | none => bfaces M geid fs { s with nf := s.nf + 1, a := some f, valid := ok }
      | some _ => bfaces M geid fs { s with nf := s.nf + 1, b := some f, valid := ok }
    else bfaces M geid fs s

/-- The face of a region, other than `fcur`, that uses the edge, MESH_CheckTopo.c:335-345 and
382-392. -/
def faceAt (M : CkMesh) (e fcur : Nat) : List Nat → Res (Option Nat)
  | [] => .ok none
  | f :: fs => do
    let b ← andThen (.ok (decide (f ≠ fcur))) (M.T.mfUsesEdge f e)
    if b then pure (some f) else faceAt M e fcur fs

/-- The region at the other side, MESH_CheckTopo.c:363-372 (`fr != rcur`). -/
def regionAt (rcur : Nat) : List Nat → Option Nat
  | [] => none
  | r :: rs => if r ≠ rcur then some r else regionAt rcur rs

/-- where the walk round an edge stands: `done`, `valid`, `fcur`, `fnxt` -/
structure Walk where
  done : Bool
  valid : Bool
  fcur : Nat
  fnxt : Option Nat
  deriving DecidableEq

/-- The walk from region to region around an edge, MESH_CheckTopo.c:353-401; at most `maxiter` + 1
rounds.  `found` is not reset before the search for the next region. -/
def goRound (M : CkMesh) (e : Nat) (stop : Option Nat) :
    Nat → Nat → Option Nat → Nat → Bool → Res Walk
  | 0, fcur, fnxt, _, _ => .ok ⟨false, true, fcur, fnxt⟩
  | n+1, _, fnxt, rcur, found => do
    let fcur ← Res.ofOption fnxt
    M.T.derefF fcur
    if fnxt = stop then pure ⟨true, true, fcur, fnxt⟩
    else
      let L ← M.T.mfRegions fcur
      let l ← Res.ofOption L
      if (regionAt rcur l).isNone ∧ found = false then pure ⟨false, false, fcur, fnxt⟩
      else
        let rcur := (regionAt rcur l).getD rcur
        let fs ← M.T.mrFaces rcur
        let o ← faceAt M e fcur fs
        goRound M e stop n fcur (o.or fnxt) rcur o.isSome

/-- From each region of `ebf[0]` to `ebf[1]`, MESH_CheckTopo.c:331-408.  `fcur` and `fnxt` are not
reset for the second region.  `MF_ID(ebf[1])` in the message fails if that is NULL. -/
def sidesOf (M : CkMesh) (e : Nat) (stop : Option Nat) : List Nat → Nat → Option Nat → Res Bool
  | [], _, _ => .ok true
  | r :: rs, fcur, fnxt => do
    let fs ← M.T.mrFaces r
    let o ← faceAt M e fcur fs
    let w ← goRound M e stop 1001 fcur (o.or fnxt) r o.isSome
    if w.done then
      sidesOf M e stop rs w.fcur w.fnxt
    else
      let _ ← Res.ofOption stop
      let b ← sidesOf M e stop rs w.fcur w.fnxt
      pure (false && b)

/-- An edge classified on a model face, MESH_CheckTopo.c:273-411.  Second component: the edge has no
regions, and `continue` goes on with the second vertex. -/
def ckBoundary (M : CkMesh) (e : Nat) : Res (Bool × Bool) := do
  let L ← M.T.meFaces e
  let l ← Res.ofOption L
  let s ← bfaces M (M.ec e).2 l ⟨0, none, none, true⟩
  let ok := s.valid && decide (s.nf = 2)
  let R ← M.T.meRegions e
  match R with
  | none => pure (ok, true)
  | some _ =>
    let f ← Res.ofOption s.a
    let fr ← M.T.mfRegions f
    let rs ← Res.ofOption fr
    let b ← sidesOf M e s.b rs f none
    pure (ok && b, false)

/-- One edge, MESH_CheckTopo.c:224-415.  The variable `i` of the loop over the two vertices is used
again for the loop over the regions of a face (332): after that loop it is at least 1 and the second
vertex is not looked at. -/
def ckEdge (M : CkMesh) (e : Nat) : Res Bool :=
  if M.ge e then .ok true
  else do
    M.T.derefE e
    let a ← ckEnd M e false
    if (M.ec e).1 = 2 then
      let p ← ckBoundary M e
      if p.2 then
        let b ← ckEnd M e true
        let q ← ckBoundary M e
        pure (a && p.1 && b && q.1)
      else pure (a && p.1)
    else
      let b ← ckEnd M e true
      pure (a && b)

/-! ### faces -/

/-- An edge of a face, MESH_CheckTopo.c:449-473. -/
def ckFaceEdge (M : CkMesh) (f e : Nat) : Res Bool := do
  let L ← M.T.meFaces e
  let l ← Res.ofOption L
  pure (decide ((M.ec e).1 ≠ 4 → (M.fc f).1 ≠ 4 → ¬ (M.fc f).1 < (M.ec e).1) && decide (f ∈ l))

/-- Both regions use the face in the same direction, MESH_CheckTopo.c:488-496. -/
def ckTwoSides (M : CkMesh) (f : Nat) : List Nat → Res Bool
  | [r, s] => do
    let a ← M.T.mrFaceDir r f
    let b ← M.T.mrFaceDir s f
    pure (decide (a ≠ b))
  | _ => .ok true

/-- One face, MESH_CheckTopo.c:425-500. -/
def ckFace (M : CkMesh) (f : Nat) : Res Bool :=
  if M.gf f then .ok true
  else do
    let es ← M.T.mfEdges f true none
    let a ← allM (ckFaceEdge M f) es
    let R ← M.T.mfRegions f
    let b := decide ((M.fc f).1 = 3 → (R.getD []).length = 2)
    let c ← ckTwoSides M f (R.getD [])
    pure (a && b && c)

/-! ### regions -/

/-- The links between a region and its faces, MESH_CheckTopo.c:530-541: positions from `i` on. -/
def ckLinks (M : CkMesh) (r : Nat) : List Nat → Nat → Res Bool
  | [], _ => .ok true
  | f :: fs, i => do
    let d ← M.T.mrFaceDir_i r i
    let o ← M.T.mfRegion f (!d)
    let b ← ckLinks M r fs (i+1)
    pure (decide (o = some r) && b)

/-- The first other face of the region with the edge, and its position, MESH_CheckTopo.c:559-567. -/
def findAdj (M : CkMesh) (f e : Nat) : List Nat → Nat → Res (Option (Nat × Nat))
  | [], _ => .ok none
  | g :: gs, k => do
    let b ← andThen (.ok (decide (f ≠ g))) (M.T.mfUsesEdge g e)
    if b then pure (some (g, k)) else findAdj M f e gs (k+1)

/-- The directions of two faces of a region at their common edge, MESH_CheckTopo.c:577-586. -/
def dirsOk (fedir adj d d' : Bool) : Bool :=
  !((decide (adj = fedir) && decide (d = d')) || (decide (adj ≠ fedir) && decide (d ≠ d')))

/-- Edge `j` of face `i` of a region, MESH_CheckTopo.c:555-587.  When there is no other face with the
edge, `MF_EdgeDir` is called with the last face and `rfdirs` is read beyond its end. -/
def ckRegionEdge (M : CkMesh) (r : Nat) (fs : List Nat) (i f j e : Nat) : Res Bool := do
  let fedir ← M.T.mfEdgeDir_i f j
  match ← findAdj M f e fs 0 with
  | none =>
    let g ← Res.ofOption fs.getLast?
    let _ ← M.T.mfEdgeDir g e
    .ub
  | some (g, k) =>
    let adj ← M.T.mfEdgeDir g e
    let d ← M.T.mrFaceDir_i r i
    let d' ← M.T.mrFaceDir_i r k
    pure (dirsOk fedir adj d d')

/-- The edges of face `i`, from edge `j` on. -/
def ckRegionEdges (M : CkMesh) (r : Nat) (fs : List Nat) (i f : Nat) : List Nat → Nat → Res Bool
  | [], _ => .ok true
  | e :: es, j => do
    let a ← ckRegionEdge M r fs i f j e
    let b ← ckRegionEdges M r fs i f es (j+1)
    pure (a && b)

/-- The faces of the region from position `i` on, MESH_CheckTopo.c:547-590. -/
def ckRegionFaces (M : CkMesh) (r : Nat) (fs : List Nat) : List Nat → Nat → Res Bool
  | [], _ => .ok true
  | f :: rest, i => do
    let es ← M.T.mfEdges f true none
    let a ← ckRegionEdges M r fs i f es 0
    let b ← ckRegionFaces M r fs rest (i+1)
    pure (a && b)

/-- One region, MESH_CheckTopo.c:509-593. -/
def ckRegion (M : CkMesh) (r : Nat) : Res Bool :=
  if M.gr r then .ok true
  else do
    let fs ← M.T.mrFaces r
    let a ← ckLinks M r fs 0
    let b ← ckRegionFaces M r fs fs 0
    pure (a && b)

/-- `MESH_CheckTopo`, MESH_CheckTopo.c:22-597. -/
def checkTopo (M : CkMesh) : Res Bool := do
  let a ← allM (ckVertex M) M.vl
  let b ← allM (ckEdge M) M.el
  let c ← allM (ckFace M) M.fl
  let d ← allM (ckRegion M) M.rl
  pure (a && b && c && d)

end Topo
end MSTK
