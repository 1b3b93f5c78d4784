import Verif.CopyBuild

/-!
`MESH_Partition` (src/par/MESH_Partition.c) for meshes of type F1, and the making of copies it has in
common with `MESH_BuildSubMesh` (src/par/MESH_BuildSubMesh.c): the pieces of a mesh, built by copying an entity of the mesh when it is needed for
the first time.

Simplifications, for the whole file
* the code makes an edge (a face, a region) before it looks for the vertices (edges, faces) on its
  boundary and fills in the boundary afterwards; here what is on the boundary comes first.  The
  statements that change places act on different entities: handles are handed out per kind.
* global IDs and the counters they are taken from do not overflow: there are less than 2^31 entities.
-/
namespace MSTK
namespace Prt
open File Copy

variable {D : Type}

/-- What happens to the data of an entity when it is copied: its own data afterwards, the data of the
copy, and the next global ID. -/
structure Claim where
  glob : PDat
  loc : PDat
  next : Nat
  deriving DecidableEq, Repr

/-- The pieces.  `gp`: the data the entities of the mesh have (kind, entity).  `sub`: the pieces.
`g2l`: the lists in the attribute "Global2Local" of the mesh, copy `l` in piece `p` being `(p, l)`; a
list that does not exist yet is taken as empty.  `l2g`: the attribute "Local2Global" of piece, kind and
entity.  `cnt`: the next global ID of a kind (`gvid`, `geid`, `gfid`, `grid`). -/
structure PSt (D : Type) where
  gp : Nat → Nat → PDat
  sub : Nat → CMesh D
  g2l : Nat → Nat → List (Nat × Nat)
  l2g : Nat → Nat → Nat → Option Nat
  cnt : Nat → Nat

/-- The search through the list of copies for one whose mesh is piece `p`, MESH_Partition.c:203-209
and the others like it. -/
def PSt.found (s : PSt D) (p k g : Nat) : Option Nat := ((s.g2l k g).find? fun q => q.1 == p).map (·.2)

/-- The data of a shared entity, MESH_Partition.c:216-224 and the others like it: the number of the
part that has it first, plus 1, is noted with the entity (`masterparid` has 29 bits, MEntity.h:50), and
it is given a global ID if it has none. -/
def share (p : Nat) (d : PDat) (c : Nat) : Claim :=
  if d.master = 0 then
    if d.gid = 0 then ⟨{ d with master := (p + 1) % 536870912, gid := c }, ⟨0, p % 536870912, c, false⟩, c + 1⟩
    else ⟨{ d with master := (p + 1) % 536870912 }, ⟨0, p % 536870912, d.gid, false⟩, c⟩
  else ⟨d, ⟨0, d.master - 1, d.gid, false⟩, c⟩

/-- The data of an element, MESH_Partition.c:283-286, 495-498. -/
def own (p : Nat) (d : PDat) (c : Nat) : Claim :=
  if d.gid = 0 then ⟨{ d with master := p % 536870912, gid := c }, ⟨0, p % 536870912, c, false⟩, c + 1⟩
  else ⟨{ d with master := p % 536870912 }, ⟨0, p % 536870912, d.gid, false⟩, c⟩

/-- `MESH_Partition` for elements of kind `K` (2 or 3) -/
def claims (K p : Nat) (k : Nat) : PDat → Nat → Claim := if k = K then own p else share p

/-- The copy `l` of entity `g` of kind `k` in piece `p`, which is `N` now: data, links and ID
counter of the piece (`MESH_Add_...`, Mesh.c). -/
def PSt.link (cl : Nat → PDat → Nat → Claim) (s : PSt D) (p k g l : Nat) (N : CMesh D) : PSt D :=
  let c := cl k (s.gp k g) (s.cnt k)
  { gp := upd2 s.gp k g c.glob
    sub := upd s.sub p { N with par := upd2 N.par k l c.loc, top := upd N.top k (N.top k + 1) }
    g2l := upd2 s.g2l k g (s.g2l k g ++ [(p, l)])
    l2g := upd s.l2g p (upd2 (s.l2g p) k l (some g))
    cnt := upd s.cnt k c.next }

/-- A vertex that is copied: MESH_Partition.c:247-262 (surface), 448-463 (volume); MESH_BuildSubMesh.c:152-159,
322-329. -/
def makeV (cl : Nat → PDat → Nat → Claim) (S : CMesh D) (p v : Nat) (s : PSt D) : PSt D × Nat :=
  let N := s.sub p
  let q := N.F.T.mvNew
  let F : FMesh D := { N.F with
    T := q.1
    vl := N.F.vl ++ [q.2]
    xyz := upd N.F.xyz q.2 (S.F.xyz v)
    vc := upd N.F.vc q.2 (S.F.vc v)
    vid := upd N.F.vid q.2 (N.top 0 + 1) }
  (s.link cl p 0 v q.2 { N with F := F }, q.2)

/-- A vertex: MESH_Partition.c:227-263 (surface), 426-464 (volume). -/
def partV (cl : Nat → PDat → Nat → Claim) (S : CMesh D) (p v : Nat) (s : PSt D) : Res (PSt D × Nat) := do
  S.F.T.derefV v
  match s.found p 0 v with
  | some l => pure (s, l)
  | none => pure (makeV cl S p v s)

/-- An edge that is copied, from `a` to `b`: MESH_Partition.c:213-224, 265-269 (surface), 411-422, 466-469
(volume); MESH_BuildSubMesh.c:126-131, 169, 295-300, 340. -/
def makeE (cl : Nat → PDat → Nat → Claim) (S : CMesh D) (p e : Nat) (s : PSt D) (a b : Nat) : Res (PSt D × Nat) := do
  let N := s.sub p
  let q := N.F.T.meNew
  let T ← q.1.meSetVertex q.2 false a
  let T ← T.meSetVertex q.2 true b
  let F : FMesh D := { N.F with
    T := T
    el := N.F.el ++ [q.2]
    ec := upd N.F.ec q.2 (S.F.ec e)
    eid := upd N.F.eid q.2 (N.top 1 + 1) }
  pure (s.link cl p 1 e q.2 { N with F := F }, q.2)

/-- An edge: MESH_Partition.c:194-271 (surface), 391-470 (volume).  A vertex pointer NULL is dereferenced. -/
def partE (cl : Nat → PDat → Nat → Claim) (S : CMesh D) (p e : Nat) (s : PSt D) : Res (PSt D × Nat) := do
  S.F.T.derefE e
  match s.found p 1 e with
  | some l => pure (s, l)
  | none =>
    let v0 ← S.F.T.meVertex e false
    let v0 ← Res.ofOption v0
    let a ← partV cl S p v0 s
    let v1 ← S.F.T.meVertex e true
    let v1 ← Res.ofOption v1
    let b ← partV cl S p v1 a.1
    makeE cl S p e b.1 a.2 b.2

/-- What is on the boundary of an entity, from the `j`-th on, with the directions, written to arrays
with room for `cap`: `get` gives the copy of each. -/
def gather {σ : Type} (get : Nat → σ → Res (σ × Nat)) (dir : Nat → Res Bool) (cap : Nat) :
    Nat → List Nat → σ → Res (σ × List (Nat × Bool))
  | _, [], s => .ok (s, [])
  | j, x :: xs, s =>
    if cap ≤ j then .ub
    else do
      let a ← get x s
      let d ← dir j
      let r ← gather get dir cap (j+1) xs a.1
      pure (r.1, (a.2, d) :: r.2)

/-- A face that is copied, with the edges `es`: MESH_Partition.c:279-292 (surface), 374-385, 479-481
(volume); MESH_BuildSubMesh.c:105-110, 176, 265-270, 346. -/
def makeF (cl : Nat → PDat → Nat → Claim) (S : CMesh D) (p f : Nat) (s : PSt D) (es : List (Nat × Bool)) :
    Res (PSt D × Nat) := do
  let N := s.sub p
  let q := N.F.T.mfNew
  let T ← q.1.mfSetEdges q.2 es
  let F : FMesh D := { N.F with
    T := T
    fl := N.F.fl ++ [q.2]
    fc := upd N.F.fc q.2 (S.F.fc f)
    fid := upd N.F.fid q.2 (N.top 2 + 1) }
  pure (s.link cl p 2 f q.2 { N with F := F }, q.2)

/-- A face that is copied: MESH_Partition.c:190-292 (surface), 374-481 (volume).  `MAXPV2` is 30 (MSTK_defines.h:38). -/
def newF (cl : Nat → PDat → Nat → Claim) (S : CMesh D) (p f : Nat) (s : PSt D) : Res (PSt D × Nat) := do
  let es ← S.F.T.mfEdges f true none
  let r ← gather (partE cl S p) (S.F.T.mfEdgeDir_i f) 30 0 es s
  makeF cl S p f r.1 r.2

/-- A face of a region: MESH_Partition.c:354-482. -/
def partF (cl : Nat → PDat → Nat → Claim) (S : CMesh D) (p f : Nat) (s : PSt D) : Res (PSt D × Nat) := do
  S.F.T.derefF f
  match s.found p 2 f with
  | some l => pure (s, l)
  | none => newF cl S p f s

/-- A region that is copied, with the faces `fs`: MESH_Partition.c:491-504; MESH_BuildSubMesh.c:244-249,
352. -/
def makeR (cl : Nat → PDat → Nat → Claim) (S : CMesh D) (p r : Nat) (s : PSt D) (fs : List (Nat × Bool)) :
    Res (PSt D × Nat) := do
  let N := s.sub p
  let q := N.F.T.mrNew
  let T ← q.1.mrSetFaces q.2 fs
  let F : FMesh D := { N.F with
    T := T
    rl := N.F.rl ++ [q.2]
    rc := upd N.F.rc q.2 (S.F.rc r)
    rid := upd N.F.rid q.2 (N.top 3 + 1) }
  pure (s.link cl p 3 r q.2 { N with F := F }, q.2)

/-- A region: MESH_Partition.c:350-504.  `MAXPF3` is 512
(MSTK_defines.h:40). -/
def newR (cl : Nat → PDat → Nat → Claim) (S : CMesh D) (p r : Nat) (s : PSt D) : Res (PSt D × Nat) := do
  let fs ← S.F.T.mrFaces r
  let a ← gather (partF cl S p) (S.F.T.mrFaceDir_i r) 512 0 fs s
  makeR cl S p r a.1 a.2

/-- an element: a region, or a face of a surface mesh -/
def newElem (cl : Nat → PDat → Nat → Claim) (S : CMesh D) (K p x : Nat) (s : PSt D) : Res (PSt D) := do
  let a ← if K = 3 then newR cl S p x s else newF cl S p x s
  pure a.1

/-- The loop over the elements for part `p`, MESH_Partition.c:183-294, 345-505: element `x`, the
`ic`-th, belongs to the part when `part[ic]` says so; reading past the end of `part` is undefined. -/
def elems (K : Nat) (S : CMesh D) (part : List Int) (p : Nat) : Nat → List Nat → PSt D → Res (PSt D)
  | _, [], s => .ok s
  | ic, x :: xs, s => do
    let q ← Res.ofOption part[ic]?
    let s ← if q = (p : Int) then newElem (claims K p) S K p x s else pure s
    elems K S part p (ic+1) xs s

/-- the loop over the parts, MESH_Partition.c:179-296, 341-507: `n` parts from `p` on -/
def parts (K : Nat) (S : CMesh D) (part : List Int) : Nat → Nat → PSt D → Res (PSt D)
  | 0, _, s => .ok s
  | n+1, p, s => do
    let s ← elems K S part p 0 (S.F.list K) s
    parts K S part n (p+1) s

/-- Every piece is a new mesh (`MESH_New`), and there are no copies (the caller has just made the
attribute "Global2Local", MESH_Partition_and_Send.c:74). -/
def PSt.start (zero : D) (S : CMesh D) : PSt D where
  gp := S.par
  sub := fun _ => CMesh.new zero
  g2l := fun _ _ => []
  l2g := fun _ _ _ => none
  cnt := fun _ => 1

/-- "Dial back partition ID numbers on global mesh by 1", MESH_Partition.c:302-308, 515-528: for the
entities that are not elements; a 29-bit field. -/
def dialBack (K : Nat) (S : CMesh D) (gp : Nat → Nat → PDat) (k x : Nat) : PDat :=
  if k < K ∧ x ∈ S.F.list k then { gp k x with master := ((gp k x).master + 536870911) % 536870912 } else gp k x

/-- `MESH_Surf_Partition_FN` (K = 2, MESH_Partition.c:145-311), `MESH_Vol_Partition_FN` (K = 3,
314-531). -/
def partition (zero : D) (K : Nat) (S : CMesh D) (num : Nat) (part : List Int) : Res (PSt D) := do
  let s ← parts K S part num 0 (PSt.start zero S)
  pure { s with gp := dialBack K S s.gp }

/-- `MESH_Partition(mesh,num,part,submeshes)`, MESH_Partition.c:63-117.  The attributes without values
the pieces get in the end (97-114) are left out. -/
def meshPartition (zero : D) (S : CMesh D) (num : Nat) (part : List Int) : Res (PSt D) :=
  if S.F.rl ≠ [] then partition zero 3 S num part
  else if S.F.fl ≠ [] then partition zero 2 S num part
  else .fatal

end Prt
end MSTK
