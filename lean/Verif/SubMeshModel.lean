import Verif.PartModel

/-!
`MESH_BuildSubMesh` (src/par/MESH_BuildSubMesh.c) for meshes of type F1: a mesh of the elements that are
labelled overlap, for sending.

Copies are made as in `MESH_Partition` (PartModel.lean: `makeV`, `makeE`, `makeF`, `makeR`, with other data:
`alike`), but found again in another way: an entity that has been copied is marked, and the place of the copy
in the list of the new mesh is kept in an array, at the place that the ID of the original says.

Simplifications, for the whole file
* the piece is number 0 of a `PSt`; the links `g2l` and `l2g` kept there are not in the code and are not read.
* marks are functions; that markers (or the attribute "mkatt", without `MSTK_USE_MARKERS`) are there is taken
  for granted.  All marks are taken back in the end (MESH_BuildSubMesh.c:180-189, 356-365).
* as in PartModel.lean, what is on the boundary of an entity comes before the entity.
-/
namespace MSTK
namespace Prt
open File Copy

variable {D : Type}

/-- the ID of an entity -/
def ident (F : FMesh D) (k g : Nat) : Int :=
  match k with
  | 0 => F.vid g
  | 1 => F.eid g
  | 2 => F.fid g
  | _ => F.rid g

/-- The data of a copy, MESH_BuildSubMesh.c:108-110, 129-131, 155-157, 247-249, 268-270, 298-300, 325-327:
those of the original; it is not flagged as being on the boundary. -/
def alike (_ : Nat) (d : PDat) (c : Nat) : Claim := ⟨d, ⟨d.ptype, d.master, d.gid, false⟩, c⟩

/-- The state: the new mesh, the marks (`mkvid`, `mkeid`, `mkfid`), and the arrays `MV_to_list_id`,
`ME_to_list_id`, `MF_to_list_id`; `none`: nothing has been written there. -/
structure BSt (D : Type) where
  s : PSt D
  seen : Nat → Nat → Bool
  tab : Nat → Nat → Option Nat

/-- The place in the array, `MV_ID(mv)-1`; the array has as many places as there are entities
(MESH_BuildSubMesh.c:79-80, 232-234), and another place is undefined behaviour. -/
def slot (S : CMesh D) (k g : Nat) : Res Nat :=
  if 1 ≤ ident S.F k g ∧ ident S.F k g ≤ (S.F.list k).length then .ok (ident S.F k g - 1).toNat else .ub

/-- The copy that was made before, MESH_BuildSubMesh.c:124, 150, 263, 293, 320; `MESH_Vertex` and the
others give NULL for a place that is not in the list, and that is dereferenced (Mesh.c:550-559). -/
def BSt.recall (S : CMesh D) (t : BSt D) (k g : Nat) : Res Nat := do
  let i ← slot S k g
  let j ← Res.ofOption (t.tab k i)
  Res.ofOption ((t.s.sub 0).F.list k)[j]?

/-- A copy is noted, MESH_BuildSubMesh.c:133-139, 161-167, 272-278, 302-310, 331-338.  The ID of the copy is
positive. -/
def BSt.note (S : CMesh D) (t : BSt D) (k g : Nat) (a : PSt D × Nat) : Res (BSt D × Nat) := do
  let i ← slot S k g
  pure ({ s := a.1, seen := upd2 t.seen k g true
          tab := upd2 t.tab k i (some (ident (a.1.sub 0).F k a.2 - 1).toNat) }, a.2)

/-- A vertex, MESH_BuildSubMesh.c:141-168, 311-339. -/
def subV (S : CMesh D) (v : Nat) (t : BSt D) : Res (BSt D × Nat) := do
  S.F.T.derefV v
  if t.seen 0 v then do
    let l ← t.recall S 0 v
    pure (t, l)
  else t.note S 0 v (makeV alike S 0 v t.s)

/-- An edge, MESH_BuildSubMesh.c:115-171, 283-342. -/
def subE (S : CMesh D) (e : Nat) (t : BSt D) : Res (BSt D × Nat) := do
  S.F.T.derefE e
  if t.seen 1 e then do
    let l ← t.recall S 1 e
    pure (t, l)
  else do
    let v0 ← S.F.T.meVertex e false
    let v0 ← Res.ofOption v0
    let a ← subV S v0 t
    let v1 ← S.F.T.meVertex e true
    let v1 ← Res.ofOption v1
    let b ← subV S v1 a.1
    let q ← makeE alike S 0 e b.1.s a.2 b.2
    b.1.note S 1 e q

/-- A face, MESH_BuildSubMesh.c:105-177, 265-347.  `MAXPV2` is 30 (MSTK_defines.h:38). -/
def subF (S : CMesh D) (f : Nat) (t : BSt D) : Res (BSt D × Nat) := do
  let es ← S.F.T.mfEdges f true none
  let r ← gather (subE S) (S.F.T.mfEdgeDir_i f) 30 0 es t
  let q ← makeF alike S 0 f r.1.s r.2
  pure ({ r.1 with s := q.1 }, q.2)

/-- A face of a region, MESH_BuildSubMesh.c:254-348. -/
def subRF (S : CMesh D) (f : Nat) (t : BSt D) : Res (BSt D × Nat) := do
  S.F.T.derefF f
  if t.seen 2 f then do
    let l ← t.recall S 2 f
    pure (t, l)
  else do
    let r ← subF S f t
    r.1.note S 2 f (r.1.s, r.2)

/-- A region, MESH_BuildSubMesh.c:244-353.  `MAXPF3` is 512 (MSTK_defines.h:40). -/
def subR (S : CMesh D) (r : Nat) (t : BSt D) : Res (BSt D × Nat) := do
  let fs ← S.F.T.mrFaces r
  let a ← gather (subRF S) (S.F.T.mrFaceDir_i r) 512 0 fs t
  let q ← makeR alike S 0 r a.1.s a.2
  pure ({ a.1 with s := q.1 }, q.2)

/-- An element, MESH_BuildSubMesh.c:88-177, 243-353: only if it is labelled `POVERLAP` (1, MSTK_types.h:99). -/
def subElem (S : CMesh D) (K x : Nat) (t : BSt D) : Res (BSt D) :=
  if (S.par K x).ptype ≠ 1 then .ok t
  else if K = 3 then do
    let a ← subR S x t
    pure a.1
  else if t.seen 2 x then .ok t
  else do
    let a ← subF S x t
    pure { a.1 with seen := upd2 a.1.seen 2 x true }

/-- `MESH_BuildSubMesh(mesh,topodim,submesh)`, MESH_BuildSubMesh.c:35-45, with a new mesh as `submesh`
(MESH_Parallel_AddGhost.c:72-73, 164-165). -/
def buildSubMesh (zero : D) (S : CMesh D) (K : Nat) : Res (CMesh D) :=
  if K = 3 ∨ K = 2 then do
    let t ← loop (subElem S K) (S.F.list K) { s := PSt.start zero S, seen := fun _ _ => false, tab := fun _ _ => none }
    pure (t.s.sub 0)
  else .fatal

end Prt
end MSTK
