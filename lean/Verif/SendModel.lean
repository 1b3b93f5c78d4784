import Verif.CopyModel
import Verif.FileBuild

/-!
`MESH_SendMesh` and `MESH_RecvMesh` (src/par) for meshes of type F1.

All messages go from one process to another in the same communicator with the same tag, so they are
received in the order they were sent (MPI standard, 3.5).  A channel is the list of messages on the
way.
-/
namespace MSTK
namespace Send
open File Copy

variable {D : Type}

/-- A message: integers, doubles, or names of 256 characters. -/
inductive Msg (D : Type) where
  | ints (l : List Int)
  | dbls (l : List D)
  | names (l : List (List Char))

/-! ### sending -/

/-- `(hi << 3) | lo`; `lo` comes from fields of three bits together (MEntity.h:44-50).  A shift that
overflows is undefined. -/
def pack (hi : Int) (lo : Int) : Res Int := if 8 * hi ≤ 2147483647 then .ok (8 * hi + lo) else .ub

/-- `(MV_MasterParID(mv) <<3) | MV_OnParBoundary(mv)<<2 | (MV_PType(mv))` -/
def packP (p : PDat) : Res Int := pack p.master ((if p.onPB then 4 else 0) + p.ptype)

/-- `MESH_Send_MetaData`, MESH_Send_MetaData.c:60-73.  F1 is 0 (MSTK_types.h:65). -/
def metaMsg (S : CMesh D) : Msg D :=
  .ints [0, S.F.vl.length, S.F.el.length, S.F.fl.length, S.F.rl.length]

/-- MESH_Send_Vertices.c:66-69: one vertex -/
def vInts (S : CMesh D) (v : Nat) : Res (List Int) := do
  S.F.T.derefV v
  let g ← pack (S.F.vc v).2 (S.F.vc v).1
  let p ← packP (S.par 0 v)
  pure [g, p, (S.par 0 v).gid]

/-- MESH_Send_VertexCoords.c:63-64: one vertex -/
def vDbls (S : CMesh D) (v : Nat) : List D := [(S.F.xyz v).1, (S.F.xyz v).2.1, (S.F.xyz v).2.2]

/-- `MV_ID` of a vertex that may be NULL -/
def idOf (S : CMesh D) : Option Nat → Res Int
  | none => .ub
  | some v => do
    S.F.T.derefV v
    pure (S.F.vid v)

/-- MESH_Send_NonVertexEntities.c:153-158: one edge -/
def eInts (S : CMesh D) (e : Nat) : Res (List Int) := do
  let v0 ← S.F.T.meVertex e false
  let a ← idOf S v0
  let v1 ← S.F.T.meVertex e true
  let b ← idOf S v1
  let g ← pack (S.F.ec e).2 (S.F.ec e).1
  let p ← packP (S.par 1 e)
  pure [a, b, g, p, (S.par 1 e).gid]

/-- MESH_Send_NonVertexEntities.c:182-185, 214-217: IDs with the directions as sign -/
def refIds (ids : Nat → Int) (dir : Nat → Res Bool) : Nat → List Nat → Res (List Int)
  | _, [] => .ok []
  | j, x :: xs => do
    let d ← dir j
    let r ← refIds ids dir (j+1) xs
    pure (signed d (ids x) :: r)

/-- MESH_Send_NonVertexEntities.c:178-190: one face -/
def fInts (S : CMesh D) (f : Nat) : Res (List Int) := do
  let es ← S.F.T.mfEdges f true none
  let r ← refIds S.F.eid (S.F.T.mfEdgeDir_i f) 0 es
  let g ← pack (S.F.fc f).2 (S.F.fc f).1
  let p ← packP (S.par 2 f)
  pure ((es.length : Int) :: (r ++ [g, p, (S.par 2 f).gid]))

/-- MESH_Send_NonVertexEntities.c:210-222: one region -/
def rInts (S : CMesh D) (r : Nat) : Res (List Int) := do
  let fs ← S.F.T.mrFaces r
  let l ← refIds S.F.fid (S.F.T.mrFaceDir_i r) 0 fs
  let g ← pack (S.F.rc r).2 (S.F.rc r).1
  let p ← packP (noFlag (S.par 3 r))
  pure ((fs.length : Int) :: (l ++ [g, p, (S.par 3 r).gid]))

/-- MESH_SendMesh.c:55-127: the messages about entities.  The one about faces is sent even if there
are none, the one about regions is not. -/
def sendEnts (S : CMesh D) : Res (List (Msg D)) := do
  let vs ← each (vInts S) S.F.vl
  let es ← each (eInts S) S.F.el
  let fs ← each (fInts S) S.F.fl
  let rs ← each (rInts S) S.F.rl
  pure (metaMsg S :: .ints vs.flatten :: .dbls (S.F.vl.flatMap (vDbls S)) :: .ints es.flatten :: .ints fs.flatten ::
    if S.F.rl = [] then [] else [.ints rs.flatten])

/-- `MAttType`, MSTK_types.h:73 -/
def tyCode : ATy → Int
  | .int => 0 | .dbl => 1 | .ptr => 2 | .vec => 3 | .tns => 4

/-- `MESH_Send_AttributeMetaData`, MESH_Send_AttributeMetaData.c:69-107: number, kind
`(ncomp << 6) | (mtype << 3) | (att_type)` and name of the attributes that do not hold pointers.
`MAttrib_Get_Name` copies to `attname[256]`. -/
def sendAttrMeta (as : List (Attr D)) : Res (List (Msg D)) :=
  if as.any fun a => 256 ≤ a.name.length then .ub
  else
    let bs := as.filter fun a => a.ty ≠ .ptr
    if bs.any fun a => 2147483648 ≤ 64 * a.ncomp then .ub
    else if bs = [] then .ok [.ints [0]]
    else .ok [.ints [(bs.length : Int)], .ints (bs.map fun a => 64 * a.ncomp + (8 * (a.ent : Int) + tyCode a.ty)),
      .names (bs.map (·.name))]

/-- MESH_Send_Attribute.c:122-126 for type INT; no value is 0 -/
def intOf : Option (AVal D) → Res Int
  | none => .ok 0
  | some (.int i) => .ok i
  | some _ => .ub

/-- MESH_Send_Attribute.c:122-135 for other types: for one component the number (for a vector that is
0.0, `MAttIns_Get_Value` does not set it, MAttrib.c:193-194), for more the array, which is NULL if there is no
value -/
def dblsOf (zero : D) (a : Attr D) : Option (AVal D) → Res (List D)
  | none => if a.ncomp = 1 then .ok [zero] else .ub
  | some (.dbl x) => if a.ty = .dbl then .ok [x] else .ub
  | some (.arr xs) =>
    if a.ncomp = 1 then .ok [zero]
    else if a.ncomp.toNat ≤ xs.length then .ok (xs.take a.ncomp.toNat) else .ub
  | some (.int _) => .ub

/-- `MESH_Send_Attribute`, MESH_Send_Attribute.c:62-155.  Attributes on all entities are not sent
(81-87).  Simplification: fewer than one component is undefined. -/
def sendAttr (zero : D) (S : CMesh D) (a : Attr D) : Res (List (Msg D)) :=
  if 4 ≤ a.ent then .ok []
  else if a.ncomp < 1 then .ub
  else do
    let l := S.F.list a.ent
    let g := l.map fun x => ((S.par a.ent x).gid : Int)
    if a.ty = .int then do
      let vs ← each (fun x => intOf (a.val a.ent x)) l
      pure [.ints g, .ints vs]
    else do
      let vs ← each (fun x => dblsOf zero a (a.val a.ent x)) l
      pure [.ints g, .dbls vs.flatten]

/-- `MESH_Send_MSetMetaData`, MESH_Send_MSetMetaData.c:67-98 -/
def sendSetMeta (ms : List SetD) : Res (List (Msg D)) :=
  if ms = [] then .ok [.ints [0]]
  else if ms.any fun m => 256 ≤ m.name.length then .ub
  else .ok [.ints [(ms.length : Int)], .ints (ms.map fun m => (m.dim : Int)), .names (ms.map (·.name))]

/-- `MESH_Send_MSet`, MESH_Send_MSet.c:51-95.  For a set without entries the buffer is freed while it
is being sent (61-64), which is undefined (MPI standard, 3.7.2). -/
def sendSet (S : CMesh D) (m : SetD) : Res (List (Msg D)) :=
  let es := m.ents.filterMap id
  if es = [] then .ub
  else .ok [.ints [(es.length : Int)], .ints (es.flatMap fun p => [(p.1 : Int), ((S.par p.1 p.2).gid : Int)])]

/-- `MESH_SendMesh`, MESH_SendMesh.c:32-227: the messages -/
def sendMesh (zero : D) (S : CMesh D) (withAttr : Bool) : Res (List (Msg D)) := do
  let a ← sendEnts S
  if withAttr then do
    let b ← sendAttrMeta S.F.atts
    let c ← each (sendAttr zero S) (S.F.atts.filter fun a => a.ty ≠ .ptr)
    let d ← sendSetMeta S.sets
    let e ← each (sendSet S) S.sets
    pure (a ++ (b ++ (c.flatten ++ (d ++ e.flatten))))
  else pure a

/-! ### receiving -/

/-- `MPI_Recv` of at most `cap` integers: without a message it waits for ever, a longer message ends
the program, a message of another kind is undefined. -/
def takeInts (cap : Nat) : List (Msg D) → Res (List Int × List (Msg D))
  | [] => .hang
  | .ints l :: ms => if l.length ≤ cap then .ok (l, ms) else .fatal
  | _ :: _ => .ub

/-- the same for doubles -/
def takeDbls (cap : Nat) : List (Msg D) → Res (List D × List (Msg D))
  | [] => .hang
  | .dbls l :: ms => if l.length ≤ cap then .ok (l, ms) else .fatal
  | _ :: _ => .ub

/-- the same for names -/
def takeNames (cap : Nat) : List (Msg D) → Res (List (List Char) × List (Msg D))
  | [] => .hang
  | .names l :: ms => if l.length ≤ cap then .ok (l, ms) else .fatal
  | _ :: _ => .ub

/-- entry `i` of a buffer or a list; what has not been received is not initialised -/
def rd {α : Type} (l : List α) (i : Nat) : Res α := Res.ofOption l[i]?

/-- `n` times -/
def times {α : Type} (f : α → α) : Nat → α → α
  | 0, a => a
  | n+1, a => times f n (f a)

/-- `ME_New(mesh)` -/
def newE (N : CMesh D) : CMesh D :=
  let p := N.F.T.meNew
  { N with F := { N.F with T := p.1, el := N.F.el ++ [p.2], eid := upd N.F.eid p.2 (N.top 1 + 1) },
           top := upd N.top 1 (N.top 1 + 1) }

/-- `MF_New(mesh)` -/
def newF (N : CMesh D) : CMesh D :=
  let p := N.F.T.mfNew
  { N with F := { N.F with T := p.1, fl := N.F.fl ++ [p.2], fid := upd N.F.fid p.2 (N.top 2 + 1) },
           top := upd N.top 2 (N.top 2 + 1) }

/-- `MR_New(mesh)` -/
def newR (N : CMesh D) : CMesh D :=
  let p := N.F.T.mrNew
  { N with F := { N.F with T := p.1, rl := N.F.rl ++ [p.2], rid := upd N.F.rid p.2 (N.top 3 + 1) },
           top := upd N.top 3 (N.top 3 + 1) }

/-- `w & 7` and `w >> 3` -/
def unpack (w : Int) : Int × Int := (w % 8, (w / 8) % 67108864)

/-- `w & 3`, `w & 4`, `w >> 3`; the flag is only set, never taken off -/
def unpackP (old : PDat) (w gid : Int) : PDat :=
  ⟨(w % 4).toNat, (w / 8 % 536870912).toNat, gid.toNat, if w / 4 % 2 ≠ 0 then true else old.onPB⟩

/-- a loop over `0 ≤ i < n` -/
def loopN {σ : Type} (step : Nat → σ → Res σ) (n : Nat) (s : σ) : Res σ := loop step (List.range n) s

/-- MESH_Recv_Vertices.c:65-80 -/
def recvV (l : List Int) (i : Nat) (N : CMesh D) : Res (CMesh D) := do
  let v ← rd N.F.vl i
  let g ← rd l (3*i)
  let p ← rd l (3*i+1)
  let d ← rd l (3*i+2)
  pure { N with F := { N.F with vc := upd N.F.vc v (unpack g) },
                par := upd2 N.par 0 v (unpackP (N.par 0 v) p d) }

/-- MESH_Recv_VertexCoords.c:52-55 -/
def recvX (l : List D) (i : Nat) (N : CMesh D) : Res (CMesh D) := do
  let v ← rd N.F.vl i
  let x ← rd l (3*i)
  let y ← rd l (3*i+1)
  let z ← rd l (3*i+2)
  pure { N with F := { N.F with xyz := upd N.F.xyz v (x, y, z) } }

/-- MESH_Recv_NonVertexEntities.c:154-175: one edge -/
def recvE (l : List Int) (i : Nat) (N : CMesh D) : Res (CMesh D) := do
  let e ← rd N.F.el i
  let g ← rd l (5*i+2)
  let p ← rd l (5*i+3)
  let d ← rd l (5*i+4)
  let a ← rd l (5*i)
  let b ← rd l (5*i+1)
  let x ← Res.ofOption (fromID N.F.vl N.F.vid a)
  let T ← N.F.T.meSetVertex e false x
  let y ← Res.ofOption (fromID N.F.vl N.F.vid b)
  let T ← T.meSetVertex e true y
  pure { N with F := { N.F with T := T, ec := upd N.F.ec e (unpack g) },
                par := upd2 N.par 1 e (unpackP (N.par 1 e) p d) }

/-- MESH_Recv_NonVertexEntities.c:195-198, 235-238: entry `abs(x)-1` of an array, and the sign; to arrays
with room for `cap` -/
def recvRefs (ents : List Nat) (cap : Nat) : Nat → List Int → Res (List (Nat × Bool))
  | _, [] => .ok []
  | j, x :: xs =>
    if cap ≤ j ∨ x = 0 then .ub
    else do
      let e ← rd ents (x.natAbs - 1)
      let r ← recvRefs ents cap (j+1) xs
      pure ((e, decide (0 < x)) :: r)

/-- MESH_Recv_NonVertexEntities.c:192-217: one face, from position `q` of the buffer on -/
def recvF (l : List Int) (i : Nat) (s : CMesh D × Nat) : Res (CMesh D × Nat) := do
  let f ← rd s.1.F.fl i
  let n ← rd l s.2
  let n := n.toNat
  if l.length < s.2 + 1 + n then .ub
  else do
    let es ← recvRefs s.1.F.el 30 0 ((l.drop (s.2 + 1)).take n)
    let g ← rd l (s.2 + n + 1)
    let p ← rd l (s.2 + n + 2)
    let d ← rd l (s.2 + n + 3)
    let T ← s.1.F.T.mfSetEdges f es
    pure ({ s.1 with F := { s.1.F with T := T, fc := upd s.1.F.fc f (unpack g) },
                     par := upd2 s.1.par 2 f (unpackP (s.1.par 2 f) p d) }, s.2 + n + 4)

/-- MESH_Recv_NonVertexEntities.c:232-256: one region -/
def recvR (l : List Int) (i : Nat) (s : CMesh D × Nat) : Res (CMesh D × Nat) := do
  let r ← rd s.1.F.rl i
  let n ← rd l s.2
  let n := n.toNat
  if l.length < s.2 + 1 + n then .ub
  else do
    let fs ← recvRefs s.1.F.fl 512 0 ((l.drop (s.2 + 1)).take n)
    let g ← rd l (s.2 + n + 1)
    let p ← rd l (s.2 + n + 2)
    let d ← rd l (s.2 + n + 3)
    let T ← s.1.F.T.mrSetFaces r fs
    pure ({ s.1 with F := { s.1.F with T := T, rc := upd s.1.F.rc r (unpack g) },
                     par := upd2 s.1.par 3 r { unpackP (s.1.par 3 r) p d with onPB := (s.1.par 3 r).onPB } },
      s.2 + n + 4)

/-- receive if there is something to be received -/
def takeIf (c : Bool) (cap : Nat) (ms : List (Msg D)) : Res (List Int × List (Msg D)) :=
  if c then takeInts cap ms else .ok ([], ms)

/-- `MESH_Recv_Vertices` and `MESH_Recv_VertexCoords` for a new mesh -/
def recvVerts (zero : D) (nv : Nat) (ms : List (Msg D)) : Res (CMesh D × List (Msg D)) := do
  let (l, ms) ← takeInts (3*nv) ms
  let N := times (fun N => (newVertex N).1) nv (CMesh.new zero)
  let N ← loopN (recvV l) nv N
  let (x, ms) ← takeDbls (3*nv) ms
  let N ← loopN (recvX x) nv N
  pure (N, ms)

/-- `MESH_Recv_NonVertexEntities_FN`, MESH_Recv_NonVertexEntities.c:53-275.  `MESH_Enable_LocalIDSearch` (48) sorts
the vertices by ID, which they are already.  The buffers are received in the order in which
`MPI_Irecv` is called. -/
def recvOthers (ne nf nr : Nat) (N : CMesh D) (ms : List (Msg D)) : Res (CMesh D × List (Msg D)) := do
  if N.F.vl = [] then .fatal
  else if ne = 0 ∧ nf = 0 ∧ nr = 0 then .fatal
  else do
    let (le, ms) ← takeIf (ne ≠ 0) (5*ne) ms
    let (lf, ms) ← takeIf (nf ≠ 0) ((1 + 30 + 3)*nf) ms
    let (lr, ms) ← takeIf (nr ≠ 0) ((1 + 512 + 3)*nr) ms
    let N := times newR nr (times newF nf (times newE ne N))
    let N ← loopN (recvE le) ne N
    let s ← loopN (recvF lf) nf (N, 0)
    let s ← loopN (recvR lr) nr (s.1, 0)
    pure (s.1, ms)

/-- `MESH_Recv_MetaData` and MESH_RecvMesh.c:49-67 -/
def recvEnts (zero : D) (ms : List (Msg D)) : Res (CMesh D × List (Msg D)) := do
  let (l, ms) ← takeInts 5 ms
  let _ ← rd l 0
  let nv ← rd l 1
  let ne ← rd l 2
  let nf ← rd l 3
  let nr ← rd l 4
  let (N, ms) ← recvVerts zero nv.toNat ms
  recvOthers ne.toNat nf.toNat nr.toNat N ms

/-- the type with a number -/
def tyOf (n : Int) : Option ATy :=
  if n = 0 then some .int else if n = 1 then some .dbl else if n = 2 then some .ptr
  else if n = 3 then some .vec else if n = 4 then some .tns else none

/-- MESH_Recv_AttributeMetaData.c:71-88: an attribute with a name that is in use ends the program; for a
vector or tensor of one component `MAttrib_New` reads an argument that is not there. -/
def makeAttrs (is : List Int) (ns : List (List Char)) (i : Nat) (N : CMesh D) : Res (CMesh D) := do
  let name ← rd ns i
  if N.F.atts.any fun a => a.name = name then .fatal
  else do
    let w ← rd is i
    let ty ← Res.ofOption (tyOf (w % 8))
    let ncomp := w / 64
    if ncomp = 1 ∧ (ty = .vec ∨ ty = .tns) then .ub
    else pure { N with F := { N.F with
      atts := N.F.atts ++ [⟨name, ty, compsOf ty ncomp, (w / 8 % 8).toNat, fun _ _ => none⟩] } }

/-- `MESH_Recv_AttributeMetaData`, MESH_Recv_AttributeMetaData.c:43-95 -/
def recvAttrMeta (N : CMesh D) (ms : List (Msg D)) : Res (CMesh D × List (Msg D)) := do
  let (l, ms) ← takeInts 1 ms
  let n ← rd l 0
  let n := n.toNat
  if n = 0 then pure (N, ms)
  else do
    let (is, ms) ← takeInts n ms
    let (ns, ms) ← takeNames n ms
    let N ← loopN (makeAttrs is ns) n N
    pure (N, ms)

/-- MESH_Recv_Attribute.c:107-147 for type INT -/
def recvInt (N : CMesh D) (gs vs : List Int) (j : Nat) (a : Attr D) : Res (Attr D) := do
  let x ← rd (N.F.list a.ent) j
  let g ← rd gs j
  if ((N.par a.ent x).gid : Int) ≠ g then .fatal
  else do
    let v ← rd vs j
    pure (if v ≠ 0 then a.put a.ent x (.int v) else a)

/-- MESH_Recv_Attribute.c:107-147 for type DOUBLE -/
def recvDbl (nz : D → Bool) (N : CMesh D) (gs : List Int) (vs : List D) (j : Nat) (a : Attr D) : Res (Attr D) := do
  let x ← rd (N.F.list a.ent) j
  let g ← rd gs j
  if ((N.par a.ent x).gid : Int) ≠ g then .fatal
  else do
    let v ← rd vs j
    pure (if nz v then a.put a.ent x (.dbl v) else a)

/-- MESH_Recv_Attribute.c:107-147 for other types -/
def recvArr (N : CMesh D) (gs : List Int) (vs : List D) (j : Nat) (a : Attr D) : Res (Attr D) := do
  let x ← rd (N.F.list a.ent) j
  let g ← rd gs j
  if ((N.par a.ent x).gid : Int) ≠ g then .fatal
  else if 1 < a.ncomp then
    if vs.length < j * a.ncomp.toNat + a.ncomp.toNat then .ub
    else pure (a.put a.ent x (.arr ((vs.drop (j * a.ncomp.toNat)).take a.ncomp.toNat)))
  else pure a

/-- `MESH_Recv_Attribute`, MESH_Recv_Attribute.c:31-156; `assert` (125) ends the program -/
def recvAttr (nz : D → Bool) (N : CMesh D) (a : Attr D) (ms : List (Msg D)) : Res (Attr D × List (Msg D)) :=
  if 4 ≤ a.ent then .ok (a, ms)
  else do
    let n := (N.F.list a.ent).length
    let (gs, ms) ← takeInts n ms
    if a.ty = .int then do
      let (vs, ms) ← takeInts (n * a.ncomp.toNat) ms
      let a ← loopN (recvInt N gs vs) n a
      pure (a, ms)
    else do
      let (vs, ms) ← takeDbls (n * a.ncomp.toNat) ms
      let a ← if a.ty = .dbl then loopN (recvDbl nz N gs vs) n a else loopN (recvArr N gs vs) n a
      pure (a, ms)

/-- MESH_RecvMesh.c:78-83: all attributes -/
def recvAttrs (nz : D → Bool) (N : CMesh D) : List (Attr D) → List (Msg D) → Res (List (Attr D) × List (Msg D))
  | [], ms => .ok ([], ms)
  | a :: as, ms => do
    let (b, ms) ← recvAttr nz N a ms
    let (bs, ms) ← recvAttrs nz N as ms
    pure (b :: bs, ms)

/-- MESH_Recv_MSetMetaData.c:71-81 -/
def makeSets (ds : List Int) (ns : List (List Char)) (i : Nat) (N : CMesh D) : Res (CMesh D) := do
  let name ← rd ns i
  if N.sets.any fun m => m.name = name then .fatal
  else do
    let d ← rd ds i
    pure { N with sets := N.sets ++ [⟨name, d.toNat, []⟩] }

/-- `MESH_Recv_MSetMetaData`, MESH_Recv_MSetMetaData.c:42-88 -/
def recvSetMeta (N : CMesh D) (ms : List (Msg D)) : Res (CMesh D × List (Msg D)) := do
  let (l, ms) ← takeInts 1 ms
  let n ← rd l 0
  let n := n.toNat
  if n = 0 then pure (N, ms)
  else do
    let (ds, ms) ← takeInts n ms
    let (ns, ms) ← takeNames n ms
    let N ← loopN (makeSets ds ns) n N
    pure (N, ms)

/-- How `qsort` and `bsearch` find an entity with a global ID: given the IDs and the list, some
entity with the ID, if there is one. -/
def Finds (srch : (Nat → Nat) → List Nat → Nat → Option Nat) : Prop :=
  ∀ ids l g, (∀ x, srch ids l g = some x → x ∈ l ∧ ids x = g) ∧ (srch ids l g = none → ∀ x ∈ l, ids x ≠ g)

/-- `MESH_VertexFromGlobalID` and the like, Mesh.c:1476-1572, after `MESH_Enable_GlobalIDSearch`: without
vertices or edges there is no list of them, which is fatal, for faces and regions the list that is
not there is used. -/
def fromGid (srch : (Nat → Nat) → List Nat → Nat → Option Nat) (N : CMesh D) (k g : Nat) : Res (Option Nat) :=
  if 4 ≤ k then .ok none
  else if N.F.list k = [] then (if k < 2 then .fatal else .ub)
  else .ok (srch (fun x => (N.par k x).gid) (N.F.list k) g)

/-- MESH_Recv_MSet.c:75-108: one entry -/
def recvEnt (srch : (Nat → Nat) → List Nat → Nat → Option Nat) (N : CMesh D) (l : List Int) (i : Nat) (m : SetD) :
    Res SetD := do
  let k ← rd l (2*i)
  let g ← rd l (2*i+1)
  let o ← fromGid srch N k.toNat g.toNat
  pure (match o with
    | none => m
    | some x => { m with ents := m.ents ++ [some (k.toNat, x)] })

/-- `MESH_Recv_MSet`, MESH_Recv_MSet.c:31-114 -/
def recvSet (srch : (Nat → Nat) → List Nat → Nat → Option Nat) (N : CMesh D) (m : SetD) (ms : List (Msg D)) :
    Res (SetD × List (Msg D)) := do
  let (l, ms) ← takeInts 1 ms
  let n ← rd l 0
  let n := n.toNat
  if n = 0 then pure (m, ms)
  else do
    let (l, ms) ← takeInts (2*n) ms
    let m ← loopN (recvEnt srch N l) n m
    pure (m, ms)

/-- MESH_RecvMesh.c:95-98: all sets -/
def recvSets (srch : (Nat → Nat) → List Nat → Nat → Option Nat) (N : CMesh D) :
    List SetD → List (Msg D) → Res (List SetD × List (Msg D))
  | [], ms => .ok ([], ms)
  | m :: rest, ms => do
    let (m', ms) ← recvSet srch N m ms
    let (r, ms) ← recvSets srch N rest ms
    pure (m' :: r, ms)

/-- `MESH_RecvMesh`, MESH_RecvMesh.c:30-103, into a new mesh: the mesh and the messages that are left -/
def recvMesh (zero : D) (nz : D → Bool) (srch : (Nat → Nat) → List Nat → Nat → Option Nat) (withAttr : Bool)
    (ms : List (Msg D)) : Res (CMesh D × List (Msg D)) := do
  let (N, ms) ← recvEnts zero ms
  if withAttr then do
    let (N, ms) ← recvAttrMeta N ms
    let (as, ms) ← recvAttrs nz N N.F.atts ms
    let N : CMesh D := { N with F := { N.F with atts := as } }
    let (N, ms) ← recvSetMeta N ms
    let (ss, ms) ← recvSets srch N N.sets ms
    pure ({ N with sets := ss }, ms)
  else pure (N, ms)

end Send
end MSTK
