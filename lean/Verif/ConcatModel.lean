import Verif.PartModel
import Verif.SendModel
import Verif.PartSpec

/-!
`MESH_ConcatSubMesh` for surface meshes (`MESH_ConcatSubMesh_Face`, src/par/MESH_ConcatSubMesh.c:52-337) of
type F1: a layer of ghosts is added to a mesh from meshes that were received, corresponding entities being
found by global ID.

Simplifications, for the whole file
* sorted arrays of global IDs and `bsearch` are taken together as a function `srch` that finds an entity with
  a given global ID in a list (`Send.Finds`); the order of the list is of no importance then.
* an edge (a face) comes after what it is bounded by, as in PartModel.lean.
* the attributes "tempvid", "tempeid" and "on_parbndry" are functions.
-/
namespace MSTK
namespace Cat
open File Copy Prt

variable {D : Type}

/-- the global ID of an entity -/
def gid (M : CMesh D) (k x : Nat) : Nat := (M.par k x).gid

/-- The state.  `M`: the mesh; `att`: the entity of the mesh that belongs to an entity of the mesh received
(the attributes, by kind); `old`: the ghosts that were made for the meshes before (`new_verts`, `new_edges`
up to `num_new_verts`, `num_new_edges`); `add`: those made for this one. -/
structure QSt (D : Type) where
  M : CMesh D
  att : Nat → Nat → Option Nat
  old : Nat → List Nat
  add : Nat → List Nat

/-- The data of a ghost, MESH_ConcatSubMesh.c:216-218, 249-251, 278-280: `PGHOST` is 3 (MSTK_types.h:99). -/
def ghostOf (d : PDat) : PDat := ⟨3, d.master, d.gid, false⟩

/-- The entities on the boundary of the partition, MESH_ConcatSubMesh.c:71-86: `PINTERIOR` is 0. -/
def border (M : CMesh D) (k : Nat) : List Nat := (M.F.list k).filter fun x => (M.par k x).ptype ≠ 0

section
variable (srch : (Nat → Nat) → List Nat → Nat → Option Nat) (bnd : Nat → List Nat) (S : CMesh D)

/-- A vertex of a face is looked for on the boundary, MESH_ConcatSubMesh.c:139-172.  The answer is what
`add_face` is set to. -/
def matchV (v : Nat) (st : QSt D) : Res (QSt D × Bool) := do
  S.F.T.derefV v
  match st.att 0 v with
  | some w => pure (st, decide (w ∈ bnd 0))
  | none =>
    match srch (gid st.M 0) (bnd 0) (gid S 0 v) with
    | none => pure (st, false)
    | some w =>
      let M := if (st.M.par 0 w).ptype = 3 ∧ (S.par 0 v).ptype ≠ 3
        then { st.M with F := { st.M.F with vc := upd st.M.F.vc w (S.F.vc v) } } else st.M
      pure ({ st with M := M, att := upd2 st.att 0 v (some w) }, true)

/-- all the vertices of a face, MESH_ConcatSubMesh.c:136-173 -/
def matchVs : List (Option Nat) → QSt D → Res (QSt D × Bool)
  | [], st => .ok (st, false)
  | v :: vs, st => do
    let v ← Res.ofOption v
    let a ← matchV srch bnd S v st
    let b ← matchVs vs a.1
    pure (b.1, a.2 || b.2)

/-- An edge of a face is looked for on the boundary, MESH_ConcatSubMesh.c:180-205. -/
def matchE (e : Nat) (st : QSt D) : Res (QSt D) := do
  S.F.T.derefE e
  match st.att 1 e with
  | some _ => pure st
  | none =>
    match srch (gid st.M 1) (bnd 1) (gid S 1 e) with
    | none => pure st
    | some w =>
      let M := if (st.M.par 1 w).ptype = 3 ∧ (S.par 1 e).ptype ≠ 3
        then { st.M with F := { st.M.F with ec := upd st.M.F.ec w (S.F.ec e) } } else st.M
      pure { st with M := M, att := upd2 st.att 1 e (some w) }

/-- The entity of the mesh that belongs to an entity of the mesh received, if it is known or a ghost made
before, MESH_ConcatSubMesh.c:226-239, 260-272. -/
def QSt.find (st : QSt D) (k x : Nat) : QSt D × Option Nat :=
  match st.att k x with
  | some w => (st, some w)
  | none =>
    match srch (gid st.M k) (st.old k) (gid S k x) with
    | some w => ({ st with att := upd2 st.att k x (some w) }, some w)
    | none => (st, none)

/-- a ghost is in the mesh: its data, and that it is known -/
def QSt.enter (st : QSt D) (k x l : Nat) (F : FMesh D) : QSt D :=
  { st with
    M := { st.M with F := F, par := upd2 st.M.par k l (ghostOf (S.par k x)), top := upd st.M.top k (st.M.top k + 1) }
    att := upd2 st.att k x (some l)
    add := upd st.add k (st.add k ++ [l]) }

/-- A vertex of a new edge, MESH_ConcatSubMesh.c:257-287. -/
def ghostV (v : Nat) (st : QSt D) : Res (QSt D × Nat) := do
  S.F.T.derefV v
  let a := st.find srch S 0 v
  match a.2 with
  | some w => pure (a.1, w)
  | none =>
    let N := a.1.M
    let q := N.F.T.mvNew
    let F : FMesh D := { N.F with
      T := q.1
      vl := N.F.vl ++ [q.2]
      xyz := upd N.F.xyz q.2 (S.F.xyz v)
      vc := upd N.F.vc q.2 (S.F.vc v)
      vid := upd N.F.vid q.2 (N.top 0 + 1) }
    pure (a.1.enter S 0 v q.2 F, q.2)

/-- An edge of a new face, used in direction `d` by the face received: MESH_ConcatSubMesh.c:222-290.  An edge
that is there already may have the other direction (241-243). -/
def ghostE (e : Nat) (d : Bool) (st : QSt D) : Res (QSt D × (Nat × Bool)) := do
  S.F.T.derefE e
  let a := st.find srch S 1 e
  match a.2 with
  | some w => do
    let p ← a.1.M.F.T.meVertex w false
    let p ← Res.ofOption p
    let q ← S.F.T.meVertex e false
    let q ← Res.ofOption q
    pure (a.1, (w, if gid a.1.M 0 p ≠ gid S 0 q then !d else d))
  | none => do
    let v0 ← S.F.T.meVertex e false
    let v0 ← Res.ofOption v0
    let b ← ghostV srch S v0 a.1
    let v1 ← S.F.T.meVertex e true
    let v1 ← Res.ofOption v1
    let c ← ghostV srch S v1 b.1
    let N := c.1.M
    let q := N.F.T.meNew
    let T ← q.1.meSetVertex q.2 false b.2
    let T ← T.meSetVertex q.2 true c.2
    let F : FMesh D := { N.F with
      T := T
      el := N.F.el ++ [q.2]
      ec := upd N.F.ec q.2 (S.F.ec e)
      eid := upd N.F.eid q.2 (N.top 1 + 1) }
    pure (c.1.enter S 1 e q.2 F, (q.2, d))

/-- the edges of a new face from the `j`-th on, MESH_ConcatSubMesh.c:220-291; `MAXPV2` is 30
(MSTK_defines.h:38) -/
def ghostEs (f : Nat) : Nat → List Nat → QSt D → Res (QSt D × List (Nat × Bool))
  | _, [], st => .ok (st, [])
  | j, e :: es, st =>
    if 30 ≤ j then .ub
    else do
      let d ← S.F.T.mfEdgeDir_i f j
      let a ← ghostE srch S e d st
      let r ← ghostEs f (j+1) es a.1
      pure (r.1, a.2 :: r.2)

/-- the making of a face with the edges `es`, MESH_ConcatSubMesh.c:213-218, 292 -/
def makeFace (f : Nat) (es : List (Nat × Bool)) (M : CMesh D) : Res (CMesh D × Nat) := do
  let q := M.F.T.mfNew
  let T ← q.1.mfSetEdges q.2 es
  let F : FMesh D := { M.F with
    T := T
    fl := M.F.fl ++ [q.2]
    fc := upd M.F.fc q.2 (S.F.fc f)
    fid := upd M.F.fid q.2 (M.top 2 + 1) }
  pure ({ M with F := F, par := upd2 M.par 2 q.2 (ghostOf (S.par 2 f)), top := upd M.top 2 (M.top 2 + 1) }, q.2)

/-- A face of a mesh that was received, MESH_ConcatSubMesh.c:131-295. -/
def concatF (f : Nat) (st : QSt D) : Res (QSt D) := do
  let vs ← S.F.T.mfVertices f true none
  let a ← matchVs srch bnd S vs st
  let es ← S.F.T.mfEdges f true none
  let st ← loop (matchE srch bnd S) es a.1
  if a.2 then do
    let r ← ghostEs srch S f 0 es st
    let q ← makeFace S f r.2 r.1.M
    pure { r.1 with M := q.1 }
  else pure st

/-- A mesh that was received, MESH_ConcatSubMesh.c:125-315. -/
def concatMesh (st : QSt D) : Res (QSt D) := do
  let st ← loop (concatF srch bnd S) S.F.fl { st with att := fun _ _ => none }
  pure { st with old := fun k => st.old k ++ st.add k, add := fun _ => [] }

end

/-- all the meshes, MESH_ConcatSubMesh.c:124-316 -/
def concatAll (srch : (Nat → Nat) → List Nat → Nat → Option Nat) (bnd : Nat → List Nat) : List (CMesh D) → QSt D → Res (QSt D)
  | [], st => .ok st
  | S :: subs, st => do
    let st ← concatMesh srch bnd S st
    concatAll srch bnd subs st

/-- `MESH_ConcatSubMesh_Face(mesh,num,submeshes)`, MESH_ConcatSubMesh.c:52-337 -/
def concatFace (srch : (Nat → Nat) → List Nat → Nat → Option Nat) (M : CMesh D) (subs : List (CMesh D)) : Res (CMesh D) := do
  let st ← concatAll srch (border M) subs { M := M, att := fun _ _ => none, old := fun _ => [], add := fun _ => [] }
  pure st.M

end Cat
end MSTK
