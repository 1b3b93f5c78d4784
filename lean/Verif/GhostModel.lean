import Verif.MeshModel
import Verif.CompareModel
/-!
Model of the entities a partition shares with others: the ghost and overlap lists of a mesh, their construction
(`src/par/MESH_BuildGhostList.c`), deletion and restoration of shared entities, the iteration over ghost, overlap and
interior entities and the search by global ID (`src/base/Mesh.c`), for the four kinds of entities of a full
representation.

Simplifications: as in `MeshModel`; `MESH_Mark_ParallelAdj_Stale` only sets a flag and is left out (see the model of
`MESH_Update_ParallelAdj`); `MSTK_Report` with `MSTK_FATAL` ends the process.
-/
namespace MSTK
namespace Ghost

/-- `PType`, MSTK_types.h:99. -/
inductive PT where
  | interior | overlap | boundary | ghost
  deriving DecidableEq, Repr

/-- The part of `Mesh` (Mesh.h) for one kind: the main list and IDs, `ghvertex`, `ovvertex`, `max_ghvid`,
`gid_sorted_mvlist`; `gid`, `pt` are `globalid` and `ptype` stored in the entities (MEntity.h); `freed` marks entities
whose memory was released. -/
structure St where
  base : MeshL.St
  gid : Nat → Int
  pt : Nat → PT
  gh : Option (CList Nat)
  ov : Option (CList Nat)
  maxgh : Int
  freed : Nat → Bool
  srch : Option (CList Nat)

/-- `MESH_New`, Mesh.c:26-76. -/
def St.init : St :=
  { base := MeshL.init, gid := fun _ => 0, pt := fun _ => .interior, gh := none, ov := none, maxgh := 0,
    freed := fun _ => false, srch := none }

def updF {α : Type} (f : Nat → α) (v : Nat) (a : α) : Nat → α := fun w => if w = v then a else f w

/-- `MV_New`, MVertex.c:22-43; `MEnt_Init_CmnData` gives global ID 0 and `PINTERIOR`. -/
def St.new (s : St) : Res St := do
  let b ← MeshL.new s.base
  pure { s with base := b, gid := updF s.gid s.base.next 0, pt := updF s.pt s.base.next .interior,
                freed := updF s.freed s.base.next false }

/-- `MESH_Add_GhostVertex`, Mesh.c:2022-2033 (edges 2042-2057, faces 2071-2095, regions 2117-2128). -/
def St.addGhost (s : St) (v : Nat) : Res St := do
  let l ← (s.gh.getD (CList.new 10)).add (some v)
  let s := { s with gh := some l }
  if s.base.id v = 0 then
    pure { s with maxgh := s.maxgh + 1, base := MeshL.setID s.base v (s.maxgh + 1) }
  else pure s

/-- `MESH_Add_OverlapVertex`, Mesh.c:2034-2039. -/
def St.addOverlap (s : St) (v : Nat) : Res St := do
  let l ← (s.ov.getD (CList.new 10)).add (some v)
  pure { s with ov := some l }

/-- `MESH_Rem_Vertex`, Mesh.c:911-958, with the part for parallel meshes (946-953): `List_RemSorted` of a NULL list
reads through NULL. -/
def St.remVertex (s : St) (v : Nat) : Res St :=
  match s.base.lst with
  | none => .ok s
  | some _ => do
    let b ← MeshL.remVertex s.base v
    let s := { s with base := b }
    if s.pt v = .overlap then
      match s.ov with
      | none => .ub
      | some l => do
        let r ← l.remSorted (l.ntot + 1) v s.gid
        if ¬ r.1 then .fatal else pure { s with ov := some r.2 }
    else pure s

/-- `MESH_Rem_GhostVertex`, Mesh.c:2131-2167: nothing is done without a ghost list; the flag that the entity lists are
sorted by ID is not cleared. -/
def St.remGhost (s : St) (v : Nat) : Res St :=
  match s.gh with
  | none => .ok s
  | some l =>
    match s.base.lst with
    | none => .ub
    | some _ => do
      let b ← MeshL.remVertex s.base v
      let s := { s with base := { b with sorted := s.base.sorted } }
      let r ← l.remSorted (l.ntot + 1) v s.gid
      if ¬ r.1 then .fatal else pure { s with gh := some r.2 }

/-- `MV_Delete`, MVertex.c:45-70, of an entity not deleted before (its topology is in the topology model). -/
def St.delete (s : St) (v : Nat) (keep : Bool) : Res St := do
  let s ← if s.pt v = .ghost then s.remGhost v else s.remVertex v
  pure (if keep then s else { s with freed := updF s.freed v true })

/-- `MV_Restore`, MVertex.c:72-95. -/
def St.restore (s : St) (v : Nat) : Res St :=
  if s.pt v = .ghost then s.addGhost v
  else do
    let b ← MeshL.addVertex s.base v
    pure { s with base := b }

/-- `MEnt_Set_PType`, MEntity.c:750-752. -/
def St.setPT (s : St) (v : Nat) (p : PT) : St := { s with pt := updF s.pt v p }

/-- `MEnt_Set_GlobalID`, MEntity.c:766-768. -/
def St.setGID (s : St) (v : Nat) (g : Int) : St := { s with gid := updF s.gid v g }

/-- the loops of `MESH_Vol_Build_GhostLists` and `MESH_Surf_Build_GhostLists`, MESH_BuildGhostList.c:108-117,
128-137, 147-156, 184-193, 202-211, 222-231, 240-249 -/
def buildLoop (l : CList Nat) : Nat → Nat → St → Res St
  | 0, _, _ => .hang
  | fuel+1, idx, s => do
    match ← l.next idx with
    | (none, _) => pure s
    | (some v, idx) => do
      let s ← if s.pt v = .ghost then s.addGhost v else if s.pt v = .overlap then s.addOverlap v else .ok s
      buildLoop l fuel idx s

def St.build (s : St) : Res St :=
  match s.base.lst with
  | none => .ok s
  | some l => buildLoop l (l.ntot + 1) 0 s

/-- `List_Sort` with `compareGlobalID` of the first `num` entries, List.c:229-238, compare_funcs.c:23-25: undefined
behaviour when the list has fewer entries, an entry was released or a difference overflows.  (`qsort` need not compare
all pairs.)  Insertion sort stands for `qsort`; with different global IDs the result is unique. -/
def sortG (l : CList Nat) (gid : Nat → Int) (freed : Nat → Bool) (num : Nat) : Res (CList Nat) :=
  if l.nrem ≠ 0 then .fatal
  else if num ≤ l.slots.length then
    let es := (l.slots.take num).filterMap id
    if es.all (fun v => !freed v && es.all (fun w => decide (isInt (gid v - gid w)))) then
      .ok { l with slots := (MeshL.sortById.insSort gid es).map some ++ l.slots.drop num }
    else .ub
  else .ub

/-- one list in `MESH_Sort_GhostLists`, Mesh.c:1594-1597 -/
def sortOne (gid : Nat → Int) (freed : Nat → Bool) : Option (CList Nat) → Res (Option (CList Nat))
  | none => .ok none
  | some l => do
    let l ← l.compress
    let l ← sortG l gid freed l.numEntries
    pure (some l)

/-- `MESH_Sort_GhostLists` for one kind, Mesh.c:1591-1629. -/
def St.sortGhosts (s : St) : Res St := do
  let gh ← sortOne s.gid s.freed s.gh
  let ov ← sortOne s.gid s.freed s.ov
  pure { s with gh := gh, ov := ov }

/-- traversal with `MESH_Next_GhostVertex` or `MESH_Next_OverlapVertex`, Mesh.c:1869-1881 -/
def listed : Option (CList Nat) → Res (List Nat)
  | none => .ok []
  | some l => MeshL.traverseFrom l (l.ntot + 1) 0

/-- `MESH_Num_GhostVertices`, `MESH_Num_OverlapVertices`, Mesh.c:1631-1642. -/
def numIn : Option (CList Nat) → Nat
  | none => 0
  | some l => l.numEntries

/-- `MESH_Num_InteriorVertices`, Mesh.c:1644-1651: `List_Num_Entries` of a NULL list reads through NULL. -/
def St.numInterior (s : St) : Res Int :=
  match s.base.lst with
  | none => .ok 0
  | some l =>
    match s.ov, s.gh with
    | some o, some g => .ok ((l.numEntries : Int) - o.numEntries - g.numEntries)
    | _, _ => .ub

/-- the loop of `MESH_Next_InteriorVertex`, Mesh.c:1886-1888: `MV_PType(NULL)` reads through NULL -/
def nextInteriorLoop (l : CList Nat) (pt : Nat → PT) : Nat → Nat → Res (Nat × Nat)
  | 0, _ => .hang
  | fuel+1, idx => do
    match ← l.next idx with
    | (none, _) => .ub
    | (some v, idx) => if pt v = .interior then pure (v, idx) else nextInteriorLoop l pt fuel idx

/-- `MESH_Next_InteriorVertex`, Mesh.c:1883-1893. -/
def St.nextInterior (s : St) (idx : Nat) : Res (Option (Nat × Nat)) :=
  match s.base.lst with
  | none => .ok none
  | some l => do pure (some (← nextInteriorLoop l s.pt (l.ntot + 1) idx))

/-- `idx = 0; while ((mv = MESH_Next_InteriorVertex(mesh,&idx))) ...` -/
def St.interiorFrom (s : St) : Nat → Nat → Res (List Nat)
  | 0, _ => .hang
  | fuel+1, idx => do
    match ← s.nextInterior idx with
    | none => pure []
    | some (v, idx) => do pure (v :: (← s.interiorFrom fuel idx))

/-- a loop of `MESH_GhostVertexFromGlobalID`, Mesh.c:2282-2286, 2287-2291 -/
def lookIn (gid : Nat → Int) (k : Int) : Option (CList Nat) → Res (Option Nat)
  | none => .ok none
  | some l => MeshL.linSearch l gid k (l.ntot + 1) 0

/-- `MESH_GhostVertexFromGlobalID`, Mesh.c:2280-2312: the ghost, then the overlap entities. -/
def St.ghostFromGID (s : St) (k : Int) : Res (Option Nat) := do
  let r ← lookIn s.gid k s.gh
  if r.isSome then pure r else lookIn s.gid k s.ov

/-! ## the four kinds together -/

/-- `Mesh`: the four kinds and `gidlists_sorted`. -/
structure M where
  k : Fin 4 → St
  gsorted : Bool

def M.init : M := { k := fun _ => .init, gsorted := false }

/-- the kind `i` is changed; `lidlists_sorted` is shared by all kinds -/
def M.set (m : M) (i : Fin 4) (s : St) : M :=
  { m with k := fun j => if j = i then s else { m.k j with base := { (m.k j).base with sorted := s.base.sorted } } }

/-- an action on one kind after the other -/
def forK (f : St → Res St) : List (Fin 4) → M → Res M
  | [], m => .ok m
  | i :: is, m => do
    let s ← f (m.k i)
    forK f is (m.set i s)

/-- `MESH_Build_GhostLists`, MESH_BuildGhostList.c:35-90: all old lists are dropped, those of the vertices, edges,
faces and, for topological dimension 3, regions are built anew and sorted. -/
def M.build (m : M) (topodim : Nat) : Res M := do
  let m := { m with k := fun i => { m.k i with gh := none, ov := none } }
  let m ← if topodim = 3 then forK St.build [0, 1, 2, 3] m
    else if topodim = 2 then forK St.build [0, 1, 2] m
    else .fatal
  forK St.sortGhosts [0, 1, 2, 3] m

/-- one kind in `MESH_Enable_GlobalIDSearch`, Mesh.c:1412-1413 -/
def St.copyList (s : St) : Res St :=
  if s.base.nv ≠ 0 then
    match s.srch with
    | some _ => .ok s
    | none => match s.base.lst with
      | none => .ub
      | some l => do pure { s with srch := some (← l.copy) }
  else .ok s

/-- one kind in `MESH_Sort_GlobalIDSearch_Lists`, Mesh.c:1429-1432 -/
def St.sortSearch (s : St) : Res St :=
  if s.base.nv ≠ 0 then
    match s.srch with
    | none => .ok s
    | some l => do
      let l ← l.compress
      let l ← sortG l s.gid s.freed s.base.nv
      pure { s with srch := some l }
  else .ok s

/-- `MESH_Sort_GlobalIDSearch_Lists`, Mesh.c:1427-1450. -/
def M.sortSearch (m : M) : Res M := do
  let m ← forK St.sortSearch [0, 1, 2, 3] m
  pure { m with gsorted := true }

/-- `MESH_Enable_GlobalIDSearch`, Mesh.c:1410-1425. -/
def M.enable (m : M) : Res M := do
  let m ← forK St.copyList [0, 1, 2, 3] m
  m.sortSearch

/-- `MESH_Disable_GlobalIDSearch`, Mesh.c:1453-1473. -/
def M.disable (m : M) : M := { k := fun i => { m.k i with srch := none }, gsorted := false }

/-- `bsearch` over the first `hi` entries with `compareGlobalID`, List.c:242-247: the entry is read and dereferenced. -/
def bsearchG (l : CList Nat) (gid : Nat → Int) (freed : Nat → Bool) (key : Int) : Nat → Nat → Nat → Res (Option Nat)
  | 0, _, _ => .hang
  | fuel+1, lo, hi =>
    if lo < hi then do
      match ← l.rd ((lo + hi) / 2) with
      | none => .ub
      | some v =>
        if freed v then .ub else do
          let c ← cmpInt key (gid v)
          if c < 0 then bsearchG l gid freed key fuel lo ((lo + hi) / 2)
          else if 0 < c then bsearchG l gid freed key fuel ((lo + hi) / 2 + 1) hi
          else pure (some v)
    else .ok none

/-- `MESH_VertexFromGlobalID`, `MESH_EdgeFromGlobalID`, `MESH_FaceFromGlobalID`, `MESH_RegionFromGlobalID`,
Mesh.c:1476-1570: for faces and regions the list of the vertices is tested instead of their own. -/
def M.fromGID (m : M) (i : Fin 4) (key : Int) : Res (Option Nat) :=
  if (if i ≤ 1 then (m.k i).srch else (m.k 0).srch).isNone then .fatal
  else if ¬ m.gsorted then .fatal
  else match (m.k i).srch with
    | none => .ub
    | some l => bsearchG l (m.k i).gid (m.k i).freed key ((m.k i).base.nv + 1) 0 (m.k i).base.nv

end Ghost
end MSTK
