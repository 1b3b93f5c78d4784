import Verif.FileModel

/-!
`MESH_Copy` (src/base/MESH_Copy.c) for meshes of type F1, release builds, with `MSTK_HAVE_MPI`.
-/
namespace MSTK
namespace Copy
open File

variable {D : Type}

/-- What an entity knows about its place in a distributed mesh (MEntity.h): `PType`, `MasterParID`,
`GlobalID`, `OnParBoundary`. -/
structure PDat where
  ptype : Nat
  master : Nat
  gid : Nat
  onPB : Bool
  deriving DecidableEq, Repr

/-- A mesh set (MSet.h): name, kind of entity and the entries, entity `x` of kind `k` being `(k, x)`
and `none` a NULL pointer. -/
structure SetD where
  name : List Char
  dim : Nat
  ents : List (Option (Nat × Nat))
  deriving DecidableEq, Repr

/-- A mesh: `F` as in FileModel, for kind (0 to 3) and entity the data of the distributed mesh, the
sets, and the largest IDs given so far (`max_vid`, `max_eid`, `max_fid`, `max_rid`, Mesh.h). -/
structure CMesh (D : Type) where
  F : FMesh D
  par : Nat → Nat → PDat
  sets : List SetD
  top : Nat → Int

/-- A new mesh (`MESH_New`, Mesh.c); new entities are interior and not on a partition boundary
(`MEnt_Init_CmnData`, MEntity.c:22-42) -/
def CMesh.new (zero : D) : CMesh D where
  F := FMesh.new ⟨fun _ _ => [], fun _ => none, zero⟩
  par := fun _ _ => ⟨0, 0, 0, false⟩
  sets := []
  top := fun _ => 0

/-- two arguments -/
def upd2 {α : Type} (f : Nat → Nat → α) (k x : Nat) (a : α) : Nat → Nat → α := upd f k (upd (f k) x a)

/-- The mesh being filled and the attribute `copyatt`: the copy of an entity, `none` if it has none
(`MEnt_Get_AttVal` gives NULL, MEntity.c:425-427). -/
structure St (D : Type) where
  N : CMesh D
  cp : Nat → Nat → Option Nat

/-- The data copied for a region under `MSTK_HAVE_MPI`, MESH_Copy.c:193-197: the flag of a region is
not copied, that of other entities is (56-62, 86-92, 122-128). -/
def noFlag (p : PDat) : PDat := { p with onPB := false }

/-- MESH_Copy.c:44-65: one vertex.  `MV_New` gives the next ID (Mesh.c:845-856), which is replaced
by the ID of the vertex copied. -/
def copyV (S : CMesh D) (v : Nat) (s : St D) : Res (St D) := do
  S.F.T.derefV v
  let p := s.N.F.T.mvNew
  let F : FMesh D := { s.N.F with
    T := p.1
    vl := s.N.F.vl ++ [p.2]
    xyz := upd s.N.F.xyz p.2 (S.F.xyz v)
    vc := upd s.N.F.vc p.2 (S.F.vc v)
    vid := upd s.N.F.vid p.2 (S.F.vid v) }
  pure ⟨{ s.N with F := F, par := upd2 s.N.par 0 p.2 (S.par 0 v), top := upd s.N.top 0 (s.N.top 0 + 1) },
    upd2 s.cp 0 v (some p.2)⟩

/-- the copy of an entity that may be NULL; the copy is dereferenced afterwards -/
def copyOf (s : St D) (k : Nat) : Option Nat → Res Nat
  | none => .ub
  | some x => Res.ofOption (s.cp k x)

/-- MESH_Copy.c:70-96: one edge -/
def copyE (S : CMesh D) (e : Nat) (s : St D) : Res (St D) := do
  let p := s.N.F.T.meNew
  let v0 ← S.F.T.meVertex e false
  let a ← copyOf s 0 v0
  let T ← p.1.meSetVertex p.2 false a
  let v1 ← S.F.T.meVertex e true
  let b ← copyOf s 0 v1
  let T ← T.meSetVertex p.2 true b
  let F : FMesh D := { s.N.F with
    T := T
    el := s.N.F.el ++ [p.2]
    ec := upd s.N.F.ec p.2 (S.F.ec e)
    eid := upd s.N.F.eid p.2 (S.F.eid e) }
  pure ⟨{ s.N with F := F, par := upd2 s.N.par 1 p.2 (S.par 1 e), top := upd s.N.top 1 (s.N.top 1 + 1) },
    upd2 s.cp 1 e (some p.2)⟩

/-- MESH_Copy.c:111-115, 177-181: copies and directions, from the `j`-th on, written to arrays with
room for `cap` -/
def copyRefs (s : St D) (k : Nat) (dir : Nat → Res Bool) (cap : Nat) : Nat → List Nat → Res (List (Nat × Bool))
  | _, [] => .ok []
  | j, x :: xs =>
    if cap ≤ j then .ub
    else do
      let y ← copyOf s k (some x)
      let d ← dir j
      let r ← copyRefs s k dir cap (j+1) xs
      pure ((y, d) :: r)

/-- MESH_Copy.c:102-131: one face.  `MAXPV2` is 30 (MSTK_defines.h:38). -/
def copyF (S : CMesh D) (f : Nat) (s : St D) : Res (St D) := do
  let p := s.N.F.T.mfNew
  let es ← S.F.T.mfEdges f true none
  let l ← copyRefs s 1 (S.F.T.mfEdgeDir_i f) 30 0 es
  let T ← p.1.mfSetEdges p.2 l
  let F : FMesh D := { s.N.F with
    T := T
    fl := s.N.F.fl ++ [p.2]
    fc := upd s.N.F.fc p.2 (S.F.fc f)
    fid := upd s.N.F.fid p.2 (S.F.fid f) }
  pure ⟨{ s.N with F := F, par := upd2 s.N.par 2 p.2 (S.par 2 f), top := upd s.N.top 2 (s.N.top 2 + 1) },
    upd2 s.cp 2 f (some p.2)⟩

/-- MESH_Copy.c:168-200: one region.  `MAXPF3` is 512 (MSTK_defines.h:40). -/
def copyR (S : CMesh D) (r : Nat) (s : St D) : Res (St D) := do
  let p := s.N.F.T.mrNew
  let fs ← S.F.T.mrFaces r
  let l ← copyRefs s 2 (S.F.T.mrFaceDir_i r) 512 0 fs
  let T ← p.1.mrSetFaces p.2 l
  let F : FMesh D := { s.N.F with
    T := T
    rl := s.N.F.rl ++ [p.2]
    rc := upd s.N.F.rc p.2 (S.F.rc r)
    rid := upd s.N.F.rid p.2 (S.F.rid r) }
  pure ⟨{ s.N with F := F, par := upd2 s.N.par 3 p.2 (noFlag (S.par 3 r)), top := upd s.N.top 3 (s.N.top 3 + 1) },
    upd2 s.cp 3 r (some p.2)⟩

/-- a loop `while ((x = MESH_Next_...(srcmesh,&idx)))` -/
def loop {σ : Type} (step : Nat → σ → Res σ) : List Nat → σ → Res σ
  | [], s => .ok s
  | x :: xs, s => do
    let s ← step x s
    loop step xs s

/-- "copyatt" -/
def copyName : List Char := ['c','o','p','y','a','t','t']

/-- What is stored for the copy of an entity: zero integers and doubles are left out, so are
pointers; arrays are copied up to the number of components (MESH_Copy.c:267-281).  `nz`: the double
is not 0. -/
def copyVal (nz : D → Bool) (a : Attr D) : Option (AVal D) → Res (Option (AVal D))
  | none => .ok none
  | some v =>
    match a.ty, v with
    | .int, .int i => .ok (if i ≠ 0 then some (.int i) else none)
    | .dbl, .dbl x => .ok (if nz x then some (.dbl x) else none)
    | .vec, .arr xs | .tns, .arr xs =>
      if a.ncomp.toNat ≤ xs.length then .ok (some (.arr (xs.take a.ncomp.toNat))) else .ub
    | .ptr, _ => .ok none
    | _, _ => .ub

/-- MESH_Copy.c:260-282 and the three loops like it, for the entities of kind `k` -/
def copyVals (nz : D → Bool) (s : St D) (a : Attr D) (k : Nat) : List Nat → Attr D → Res (Attr D)
  | [], b => .ok b
  | x :: xs, b => do
    let w ← copyVal nz a (a.val k x)
    match w with
    | none => copyVals nz s a k xs b
    | some w => do
      let y ← copyOf s k (some x)
      copyVals nz s a k xs (b.put k y w)

/-- the loops of one attribute: vertices, edges, faces, regions, MESH_Copy.c:257-363 -/
def copyKinds (nz : D → Bool) (S : CMesh D) (s : St D) (a : Attr D) : List (Nat × List Nat) → Attr D → Res (Attr D)
  | [], b => .ok b
  | (k, l) :: ks, b => do
    let b ← if a.ent = k ∨ a.ent = 5 then copyVals nz s a k l b else pure b
    copyKinds nz S s a ks b

/-- MESH_Copy.c:234-365: all attributes.  `strcpy` to `attname[256]`. -/
def copyAtts (nz : D → Bool) (S : CMesh D) (s : St D) : List (Attr D) → Res (List (Attr D))
  | [] => .ok []
  | a :: as =>
    if 256 ≤ a.name.length then .ub
    else if a.name = copyName then copyAtts nz S s as
    else do
      let b ← copyKinds nz S s a [(0, S.F.vl), (1, S.F.el), (2, S.F.fl), (3, S.F.rl)]
        ⟨a.name, a.ty, compsOf a.ty a.ncomp, a.ent, fun _ _ => none⟩
      let bs ← copyAtts nz S s as
      pure (b :: bs)

/-- MESH_Copy.c:386-389; `MEnt_Get_AttVal` dereferences the entity -/
def copyEnts (S : CMesh D) (s : St D) : List (Nat × Nat) → Res (List (Option (Nat × Nat)))
  | [] => .ok []
  | (k, x) :: es => do
    match k with
    | 0 => S.F.T.derefV x
    | 1 => S.F.T.derefE x
    | 2 => S.F.T.derefF x
    | _ => S.F.T.derefR x
    let r ← copyEnts S s es
    pure ((s.cp k x).map (fun y => (k, y)) :: r)

/-- MESH_Copy.c:373-391: all sets; `MSet_Next_Entry` passes over NULL.  `strcpy` to
`setname[256]`. -/
def copySets (S : CMesh D) (s : St D) : List SetD → Res (List SetD)
  | [] => .ok []
  | m :: ms =>
    if 256 ≤ m.name.length then .ub
    else do
      let es ← copyEnts S s (m.ents.filterMap id)
      let r ← copySets S s ms
      pure (⟨m.name, m.dim, es⟩ :: r)

/-- `MESH_Copy(srcmesh,dstmesh,with_attr,with_sets)`, MESH_Copy.c:24-417, for two different meshes:
the destination afterwards.  Of the source only the attribute `copyatt` is changed, and that is taken
off the entities and deleted in the end (396-411). -/
def meshCopy (nz : D → Bool) (S N : CMesh D) (withAttr withSets : Bool) : Res (CMesh D) := do
  let s ← loop (copyV S) S.F.vl ⟨N, fun _ _ => none⟩
  let s ← loop (copyE S) S.F.el s
  let s ← loop (copyF S) S.F.fl s
  let s ← loop (copyR S) S.F.rl s
  let as ← if withAttr then copyAtts nz S s S.F.atts else pure []
  let ms ← if withSets then copySets S s S.sets else pure []
  pure { s.N with F := { s.N.F with atts := s.N.F.atts ++ as }, sets := s.N.sets ++ ms }

/-- `MV_New(mesh)`: the vertex has the next ID (Mesh.c:852-855) -/
def newVertex (N : CMesh D) : CMesh D × Nat :=
  let p := N.F.T.mvNew
  ({ N with F := { N.F with T := p.1, vl := N.F.vl ++ [p.2], vid := upd N.F.vid p.2 (N.top 0 + 1) },
            top := upd N.top 0 (N.top 0 + 1) }, p.2)

end Copy
end MSTK
