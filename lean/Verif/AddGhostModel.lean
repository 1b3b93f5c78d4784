import Verif.PBoundModel

/-!
`MESH_AddGhost` (src/par/MESH_AddGhost.c) for meshes of type F1: the layers of elements of other parts
that are added to a piece, and the parallel types of its entities.

The state of the pieces and the making of copies are those of PartModel.lean: the statements of
MESH_AddGhost.c:342-402, 721-834 are those of MESH_Partition.c, with other data in the copies (`ghost`).

Simplifications, for the whole file
* marks are functions; that markers (or attributes, without `MSTK_USE_MARKERS`) are there is taken for
  granted.  All marks are taken back in the end (MESH_AddGhost.c:257-286, 449-474, 632-661, 861-888).
* `MESH_Build_GhostLists` (65, 69) is left out: it makes lists of the entities by their types
  (GhostModel.lean) and changes nothing else.
-/
namespace MSTK
namespace Prt
open File Copy

variable {D : Type}

/-! ### the overlap -/

/-- The state while the overlap is marked: the data of the entities of the piece, the marks on its
elements (`mkfid`, `mkrid`) and on its vertices (`mkvid`), and the list `bverts2`. -/
structure LSt where
  par : Nat → Nat → PDat
  em : Nat → Bool
  vm : Nat → Bool
  nxt : List Nat

/-- `..._Set_PType(..., POVERLAP)` unless the entity is flagged, MESH_AddGhost.c:227-228, 239-240,
590-591, 597-598, 610-611; `POVERLAP` is 1 (MSTK_types.h:99). -/
def over (par : Nat → Nat → PDat) (k l : Nat) : Nat → Nat → PDat :=
  if (par k l).onPB then par else upd2 par k l { par k l with ptype := 1 }

/-- A vertex of an edge, MESH_AddGhost.c:231-247, 602-618. -/
def ovV (v : Nat) (t : LSt) : LSt :=
  if t.vm v then t
  else { t with par := over t.par 0 v, vm := upd t.vm v true, nxt := t.nxt ++ [v] }

/-- An edge, MESH_AddGhost.c:226-248, 596-619. -/
def ovE (L : FMesh D) (e : Nat) (t : LSt) : Res LSt := do
  L.T.derefE e
  let a ← L.T.meVertex e false
  let a ← Res.ofOption a
  let t := ovV a { t with par := over t.par 1 e }
  let b ← L.T.meVertex e true
  let b ← Res.ofOption b
  pure (ovV b t)

/-- A face of a region, MESH_AddGhost.c:589-622. -/
def ovF (L : FMesh D) (f : Nat) (t : LSt) : Res LSt := do
  L.T.derefF f
  let t := { t with par := over t.par 2 f }
  let es ← L.T.mfEdges f true none
  loop (ovE L) es t

/-- An element, MESH_AddGhost.c:204-252, 570-626. -/
def ovElem (L : FMesh D) (K x : Nat) (t : LSt) : Res LSt :=
  if t.em x then .ok t
  else do
    let t := { t with par := upd2 t.par K x { t.par K x with ptype := 1 }, em := upd t.em x true }
    if K = 3 then do
      let fs ← L.T.mrFaces x
      loop (ovF L) fs t
    else do
      let es ← L.T.mfEdges x true none
      loop (ovE L) es t

/-- `MV_Faces` or `MV_Regions`, and the number of entries: NULL is dereferenced.
MESH_AddGhost.c:200-201, 301-302, 567-568, 678-679. -/
def around (M : FMesh D) (K v : Nat) : Res (List Nat) := do
  let o ← if K = 3 then M.T.mvRegions v else M.T.mvFaces v
  Res.ofOption o

/-- A vertex of the list, MESH_AddGhost.c:198-256, 565-631. -/
def ovVertex (L : FMesh D) (K v : Nat) (t : LSt) : Res LSt := do
  let xs ← around L K v
  loop (ovElem L K) xs t

/-- The rings of elements of the piece, MESH_AddGhost.c:193-268, 560-643. -/
def ovRings (L : FMesh D) (K : Nat) : Nat → List Nat → LSt → Res LSt
  | 0, _, t => .ok t
  | n+1, bv, t => do
    let t ← loop (ovVertex L K) bv { t with nxt := [] }
    ovRings L K n t.nxt { t with vm := fun v => if v ∈ bv then false else t.vm v }

/-! ### the ghosts -/

/-- The data of a copy, MESH_AddGhost.c:346, 367-369, 398-399, 413-416 and the others like it: type
`PGHOST` (3, MSTK_types.h:99); owner and global ID of the original. -/
def ghost (_ : Nat) (d : PDat) (c : Nat) : Claim := ⟨d, ⟨3, d.master, d.gid, false⟩, c⟩

/-- The state while ghosts are made: the pieces, the marks on elements and vertices of the mesh, and the
list `gbverts2`. -/
structure GSt (D : Type) where
  s : PSt D
  em : Nat → Bool
  gm : Nat → Bool
  nxt : List Nat

/-- "if this is an unmarked global vertex", MESH_AddGhost.c:376-395, 776-794. -/
def GSt.meet (t : GSt D) (v : Nat) : GSt D :=
  if t.gm v then t else { t with gm := upd t.gm v true, nxt := t.nxt ++ [v] }

/-- The search for a copy of an edge of an element, MESH_AddGhost.c:327-402 (surface), 730-801 (volume).
An edge that is in no piece has no list: reported as fatal in a surface mesh, dereferenced in a volume
mesh; so is that of a vertex.  The vertices are marked when both are there. -/
def ghostE (S : CMesh D) (K p e : Nat) (t : GSt D) : Res (GSt D × Nat) := do
  S.F.T.derefE e
  if t.s.g2l 1 e = [] then (if K = 3 then .ub else .fatal)
  else match t.s.found p 1 e with
  | some l => pure (t, l)
  | none => do
    let a ← S.F.T.meVertex e false
    let a ← Res.ofOption a
    let b ← S.F.T.meVertex e true
    let b ← Res.ofOption b
    if t.s.g2l 0 a = [] ∨ t.s.g2l 0 b = [] then .ub
    else do
      let r ← partE ghost S p e t.s
      pure ((({ t with s := r.1 } : GSt D).meet a).meet b, r.2)

/-- A face that is copied, MESH_AddGhost.c:323-422 (surface: a face without a list is reported as fatal),
722-812 (volume).  `MAXPV2` is 30 (MSTK_defines.h:38). -/
def ghostF (S : CMesh D) (K p f : Nat) (t : GSt D) : Res (GSt D × Nat) := do
  let es ← S.F.T.mfEdges f true none
  let r ← gather (ghostE S K p) (S.F.T.mfEdgeDir_i f) 30 0 es t
  if K = 2 ∧ r.1.s.g2l 2 f = [] then .fatal
  else do
    let q ← makeF ghost S p f r.1.s r.2
    pure ({ r.1 with s := q.1 }, q.2)

/-- The search for a copy of a face of a region, MESH_AddGhost.c:704-813. -/
def ghostRF (S : CMesh D) (p f : Nat) (t : GSt D) : Res (GSt D × Nat) := do
  S.F.T.derefF f
  if t.s.g2l 2 f = [] then .fatal
  else match t.s.found p 2 f with
  | some l => pure (t, l)
  | none => ghostF S 3 p f t

/-- A region, MESH_AddGhost.c:700-834.  `MAXPF3` is 512 (MSTK_defines.h:40). -/
def ghostR (S : CMesh D) (p r : Nat) (t : GSt D) : Res (GSt D × Nat) := do
  let fs ← S.F.T.mrFaces r
  let a ← gather (ghostRF S p) (S.F.T.mrFaceDir_i r) 512 0 fs t
  if a.1.s.g2l 3 r = [] then .fatal
  else do
    let q ← makeR ghost S p r a.1.s a.2
    pure ({ a.1 with s := q.1 }, q.2)

/-- An element of the mesh, MESH_AddGhost.c:305-423, 682-835. -/
def ghostElem (S : CMesh D) (K p x : Nat) (t : GSt D) : Res (GSt D) :=
  if t.em x then .ok t
  else do
    let t := { t with em := upd t.em x true }
    let a ← if K = 3 then ghostR S p x t else ghostF S 2 p x t
    pure a.1

/-- A vertex of the list, MESH_AddGhost.c:299-428, 676-840. -/
def ghostVertex (S : CMesh D) (K p v : Nat) (t : GSt D) : Res (GSt D) := do
  let xs ← around S.F K v
  loop (ghostElem S K p) xs t

/-- The rings of elements of the mesh, MESH_AddGhost.c:294-447, 671-859. -/
def ghostRings (S : CMesh D) (K p : Nat) : Nat → List Nat → GSt D → Res (GSt D)
  | 0, _, t => .ok t
  | n+1, gb, t => do
    let t ← loop (ghostVertex S K p) gb { t with nxt := [] }
    ghostRings S K p n t.nxt { t with gm := fun v => if v ∈ t.nxt then true else if v ∈ gb then false else t.gm v }

/-! ### the whole -/

/-- the originals of entities, dereferenced, MESH_AddGhost.c:150-158, 175, 517-525, 542 -/
def originals (up : Nat → Option Nat) : List Nat → Res (List Nat)
  | [] => .ok []
  | l :: ls => do
    let g ← Res.ofOption (up l)
    let gs ← originals up ls
    pure (g :: gs)

/-- `MESH_Surf_AddGhost_FN` (K = 2, MESH_AddGhost.c:124-486), `MESH_Vol_AddGhost_FN` (K = 3, 489-900). -/
def addLayers (S : CMesh D) (K p ring : Nat) (s : PSt D) : Res (PSt D) := do
  let N := s.sub p
  let xs ← originals (s.l2g p K) (N.F.list K)
  let bv := N.F.vl.filter fun v => (N.par 0 v).onPB
  let gb ← originals (s.l2g p 0) bv
  let t ← ovRings N.F K ring bv { par := N.par, em := fun _ => false, vm := fun v => decide (v ∈ bv), nxt := [] }
  let s := { s with sub := upd s.sub p { N with par := t.par } }
  let t ← ghostRings S K p ring gb { s := s, em := fun x => decide (x ∈ xs), gm := fun v => decide (v ∈ gb), nxt := [] }
  pure t.s

/-- The type of a flagged entity, MESH_AddGhost.c:86-91, 97-102, 109-114. -/
def bound (p : Nat) (par : Nat → Nat → PDat) (k l : Nat) : Nat → Nat → PDat :=
  if (par k l).onPB then upd2 par k l { par k l with ptype := if (par k l).master = p then 1 else 3 } else par

/-- "Mark all PBoundary entities as POVERLAP or PGHOST", MESH_AddGhost.c:79-116; `vol`: there were regions. -/
def bounds (p : Nat) (vol : Bool) (N : CMesh D) : CMesh D :=
  let par := N.F.vl.foldl (fun par l => bound p par 0 l) N.par
  let par := N.F.el.foldl (fun par l => bound p par 1 l) par
  let par := if vol then N.F.fl.foldl (fun par l => bound p par 2 l) par else par
  { N with par := par }

/-- `MESH_AddGhost(mesh,submesh,part_no,ring)`, MESH_AddGhost.c:51-120, for piece `p` and `part_no = p`. -/
def addGhost (S : CMesh D) (p ring : Nat) (s : PSt D) : Res (PSt D) := do
  let N := s.sub p
  let s ← if ring = 0 then pure s
    else if N.F.rl ≠ [] then addLayers S 3 p ring s
    else if N.F.fl ≠ [] then addLayers S 2 p ring s
    else .fatal
  pure { s with sub := upd s.sub p (bounds p (decide (N.F.rl ≠ [])) (s.sub p)) }

/-- The first steps of `MESH_Partition_and_Send(mesh,num,part,...,ring,...)`, MESH_Partition_and_Send.c:74-90:
pieces, boundaries and ghosts, before anything is sent. -/
def distribute (zero : D) (S : CMesh D) (num : Nat) (part : List Int) (ring : Nat) : Res (PSt D) := do
  let s ← meshPartition zero S num part
  loop (fun p s => do
    let par ← buildPBoundary S.F (s.sub p).F (s.l2g p) (s.sub p).par
    addGhost S p ring { s with sub := upd s.sub p { s.sub p with par := par } }) (List.range num) s

end Prt
end MSTK
