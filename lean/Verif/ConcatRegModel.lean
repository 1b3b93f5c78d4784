import Verif.ConcatModel
import Verif.LabelModel

/-!
`MESH_ConcatSubMesh` for volume meshes (`MESH_ConcatSubMesh_Region`, src/par/MESH_ConcatSubMesh.c:341-752) of type F1.  The
simplifications are those of ConcatModel.lean.
-/
namespace MSTK
namespace Cat
open File Copy Prt

variable {D : Type}

section
variable (srch : (Nat → Nat) → List Nat → Nat → Option Nat) (bnd : Nat → List Nat) (S : CMesh D)

/-- A vertex of a region is looked for on the boundary, MESH_ConcatSubMesh.c:446-477.  What is known of it is not found: the
attribute is asked for with the address of the variable it is in (448), which no attribute has.  The answer is what
`add_region` is set to. -/
def matchVR (v : Nat) (st : QSt D) : Res (QSt D × Bool) := do
  S.F.T.derefV v
  match srch (gid st.M 0) (bnd 0) (gid S 0 v) with
  | none => pure (st, false)
  | some w =>
    let M := if (st.M.par 0 w).ptype = 3 ∧ (S.par 0 v).ptype ≠ 3
      then { st.M with F := { st.M.F with vc := upd st.M.F.vc w (S.F.vc v) } } else st.M
    pure ({ st with M := M, att := upd2 st.att 0 v (some w) }, true)

/-- all the vertices of a region, MESH_ConcatSubMesh.c:443-478 -/
def matchVsR : List (Option Nat) → QSt D → Res (QSt D × Bool)
  | [], st => .ok (st, false)
  | v :: vs, st => do
    let v ← Res.ofOption v
    let a ← matchVR srch bnd S v st
    let b ← matchVsR vs a.1
    pure (b.1, a.2 || b.2)

/-- An edge of a region is looked for on the boundary, MESH_ConcatSubMesh.c:485-510: one that is found now sets
`add_region`. -/
def matchER (e : Nat) (st : QSt D) : Res (QSt D × Bool) := do
  let b := (st.att 1 e).isNone && (srch (gid st.M 1) (bnd 1) (gid S 1 e)).isSome
  let st ← matchE srch bnd S e st
  pure (st, b)

/-- all the edges of a region, MESH_ConcatSubMesh.c:482-512 -/
def matchEsR : List Nat → QSt D → Res (QSt D × Bool)
  | [], st => .ok (st, false)
  | e :: es, st => do
    let a ← matchER srch bnd S e st
    let b ← matchEsR es a.1
    pure (b.1, a.2 || b.2)

/-- A face of a region is looked for on the boundary, MESH_ConcatSubMesh.c:519-542. -/
def matchF (f : Nat) (st : QSt D) : Res (QSt D) := do
  S.F.T.derefF f
  match st.att 2 f with
  | some _ => pure st
  | none =>
    match srch (gid st.M 2) (bnd 2) (gid S 2 f) with
    | none => pure st
    | some w =>
      let M := if (st.M.par 2 w).ptype = 3 ∧ (S.par 2 f).ptype ≠ 3
        then { st.M with F := { st.M.F with fc := upd st.M.F.fc w (S.F.fc f) } } else st.M
      pure { st with M := M, att := upd2 st.att 2 f (some w) }

/-- the global IDs of vertices -/
def gidsOf (M : CMesh D) : List (Option Nat) → Res (List Nat)
  | [] => .ok []
  | v :: vs => do
    let v ← Res.ofOption v
    let r ← gidsOf M vs
    pure (gid M 0 v :: r)

/-- "for (j = 0; j < nfv; j++) if (fvgid1[j] == fvgid0[0]) { if (fvgid1[(j+nfv-1)%nfv] == fvgid0[1]) …; break; }",
MESH_ConcatSubMesh.c:593-599: at the first place where `b0` is, is `b1` before it? -/
def turned (a : List Nat) (b0 b1 : Nat) : Bool :=
  match a.findIdx? (fun x => decide (x = b0)) with
  | none => false
  | some j => decide (a[(j + a.length - 1) % a.length]? = some b1)

/-- A face of a new region, used in direction `d` by the region received: MESH_ConcatSubMesh.c:560-690.  A face that is there
already may have the other direction (579-600); `MAXPV2` is 30 (MSTK_defines.h:38). -/
def ghostF (f : Nat) (d : Bool) (st : QSt D) : Res (QSt D × (Nat × Bool)) := do
  S.F.T.derefF f
  let a := st.find srch S 2 f
  match a.2 with
  | some w => do
    let us ← S.F.T.mfVertices f true none
    let u0 ← Res.ofOption us[0]?
    let u0 ← Res.ofOption u0
    let u1 ← Res.ofOption us[1]?
    let u1 ← Res.ofOption u1
    let ws ← a.1.M.F.T.mfVertices w true none
    if 30 < ws.length then Res.ub
    else do
      let gs ← gidsOf a.1.M ws
      pure (a.1, (w, if turned gs (gid S 0 u0) (gid S 0 u1) then !d else d))
  | none => do
    let es ← S.F.T.mfEdges f true none
    let r ← ghostEs srch S f 0 es a.1
    let q ← makeFace S f r.2 r.1.M
    pure ({ r.1 with M := q.1, att := upd2 r.1.att 2 f (some q.2), add := upd r.1.add 2 (r.1.add 2 ++ [q.2]) }, (q.2, d))

/-- the faces of a new region from the `j`-th on, MESH_ConcatSubMesh.c:558-691; `MAXPF3` is 512 (MSTK_defines.h:40) -/
def ghostFs (r : Nat) : Nat → List Nat → QSt D → Res (QSt D × List (Nat × Bool))
  | _, [], st => .ok (st, [])
  | j, f :: fs, st =>
    if 512 ≤ j then .ub
    else do
      let d ← S.F.T.mrFaceDir_i r j
      let a ← ghostF srch S f d st
      let q ← ghostFs r (j+1) fs a.1
      pure (q.1, a.2 :: q.2)

/-- the making of a region with the faces `fs`, MESH_ConcatSubMesh.c:550-555, 692 -/
def makeRegion (r : Nat) (fs : List (Nat × Bool)) (M : CMesh D) : Res (CMesh D × Nat) := do
  let q := M.F.T.mrNew
  let T ← q.1.mrSetFaces q.2 fs
  let F : FMesh D := { M.F with
    T := T
    rl := M.F.rl ++ [q.2]
    rc := upd M.F.rc q.2 (S.F.rc r)
    rid := upd M.F.rid q.2 (M.top 3 + 1) }
  pure ({ M with F := F, par := upd2 M.par 3 q.2 (ghostOf (S.par 3 r)), top := upd M.top 3 (M.top 3 + 1) }, q.2)

/-- A region of a mesh that was received, MESH_ConcatSubMesh.c:438-695. -/
def concatR (r : Nat) (st : QSt D) : Res (QSt D) := do
  let vs ← S.F.T.regionVerts r
  let a ← matchVsR srch bnd S vs st
  let es ← S.F.T.mrEdges r
  let b ← matchEsR srch bnd S es a.1
  let fs ← S.F.T.mrFaces r
  let st ← loop (matchF srch bnd S) fs b.1
  if a.2 || b.2 then do
    let q ← ghostFs srch S r 0 fs st
    let p ← makeRegion S r q.2 q.1.M
    pure { q.1 with M := p.1 }
  else pure st

/-- A mesh that was received, MESH_ConcatSubMesh.c:430-728. -/
def concatMeshR (st : QSt D) : Res (QSt D) := do
  let st ← loop (concatR srch bnd S) S.F.rl { st with att := fun _ _ => none }
  pure { st with old := fun k => st.old k ++ st.add k, add := fun _ => [] }

end

/-- all the meshes, MESH_ConcatSubMesh.c:428-728 -/
def concatAllR (srch : (Nat → Nat) → List Nat → Nat → Option Nat) (bnd : Nat → List Nat) : List (CMesh D) → QSt D → Res (QSt D)
  | [], st => .ok st
  | S :: subs, st => do
    let st ← concatMeshR srch bnd S st
    concatAllR srch bnd subs st

/-- `MESH_ConcatSubMesh_Region(mesh,num,submeshes)`, MESH_ConcatSubMesh.c:341-752 -/
def concatRegion (srch : (Nat → Nat) → List Nat → Nat → Option Nat) (M : CMesh D) (subs : List (CMesh D)) : Res (CMesh D) := do
  let st ← concatAllR srch (border M) subs { M := M, att := fun _ _ => none, old := fun _ => [], add := fun _ => [] }
  pure st.M

/-- `MESH_ConcatSubMesh(mesh,topodim,num,submeshes)`, MESH_ConcatSubMesh.c:39-50 -/
def concatSubMesh (srch : (Nat → Nat) → List Nat → Nat → Option Nat) (topodim : Int) (M : CMesh D) (subs : List (CMesh D)) : Res (CMesh D) :=
  if topodim = 3 then concatRegion srch M subs
  else if topodim = 2 then concatFace srch M subs
  else .fatal

end Cat
end MSTK
