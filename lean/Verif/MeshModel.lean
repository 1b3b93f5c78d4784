import Verif.ListModel
/-!
Model of the entity lists and IDs of a mesh: `src/base/Mesh.c` (MESH_Add_*, MESH_Rem_*, MESH_*FromID,
MESH_Enable_LocalIDSearch, MESH_Reset_Cached_MaxIDs), `MEnt_Set_ID` (MEntity.c:120-137), the mesh-level part of
`MV_New`, `MV_Delete`, `MV_Restore` (MVertex.c:22-95) and `MESH_Renumber` type 0 (MESH_Renumber.c:54-80).

One entity kind is modelled (the code of the four kinds is the same text up to names); actions on the other kinds
enter through `touch`, which clears the flag shared by all kinds.  The list is the real storage model of List.c.
Simplifications: serial entities (not ghost or overlap); IDs are unbounded (they are 27-bit fields, see C15);
the adjacency part of deletion is in the topology model.
-/
namespace MSTK
namespace MeshL

/-- The part of `Mesh` (Mesh.h) for one kind: `mvertex`, `nv`, `max_vid`, `lidlists_sorted`; `id` are the IDs stored in
the entities; `next` is the handle the next allocation will give. -/
structure St where
  lst : Option (CList Nat)
  id : Nat → Int
  nv : Nat
  maxid : Int
  sorted : Bool
  next : Nat

/-- `MESH_New`, Mesh.c:26-76. -/
def init : St := { lst := none, id := fun _ => 0, nv := 0, maxid := 0, sorted := true, next := 0 }

def updId (f : Nat → Int) (v : Nat) (i : Int) : Nat → Int := fun w => if w = v then i else f w

/-- `MEnt_Set_ID`, MEntity.c:120-137. -/
def setID (s : St) (v : Nat) (i : Int) : St :=
  if s.id v ≠ 0 then { s with id := updId s.id v i, sorted := false } else { s with id := updId s.id v i }

/-- `MESH_Add_Vertex`, Mesh.c:845-856. -/
def addVertex (s : St) (v : Nat) : Res St := do
  let l ← (s.lst.getD (CList.new 10)).add (some v)
  let s := { s with lst := some l, nv := l.numEntries }
  if s.id v = 0 then
    pure (setID { s with maxid := s.maxid + 1 } v (s.maxid + 1))
  else pure s

/-- `MV_New`, MVertex.c:22-43: a new entity with ID 0 is added. -/
def new (s : St) : Res St :=
  addVertex { s with id := updId s.id s.next 0, next := s.next + 1 } s.next

/-- `List_Entry_Raw(l, id-1)` with an `int` index: a negative index reads before the array. -/
def entryRawI (l : CList Nat) (i : Int) : Res (Option Nat) :=
  if i < 0 then .ub else l.entryRaw i.toNat

/-- the removal from the list, Mesh.c:925-942: directly at raw position `id-1` when the entry `e` found there is the
one to remove, else by `List_RemSorted` (whose search loop is bounded by the number of slots, see C07) -/
def remFrom (l : CList Nat) (id : Nat → Int) (v : Nat) (e : Option Nat) : Res (Bool × CList Nat) :=
  if e = some v then l.remiRaw (id v - 1).toNat else l.remSorted (l.ntot + 1) v id

/-- `MESH_Rem_Vertex`, Mesh.c:911-958. -/
def remVertex (s : St) (v : Nat) : Res St :=
  match s.lst with
  | none => .ok s
  | some l => do
    let e ← entryRawI l (s.id v - 1)
    let r ← remFrom l s.id v e
    if ¬ r.1 then .fatal else
    pure { s with lst := some r.2, nv := r.2.numEntries, sorted := false }

/-- `MV_Delete(v,keep)` of a live entity, MVertex.c:45-70. -/
def delete (s : St) (v : Nat) : Res St := remVertex s v

/-- `MV_Restore`, MVertex.c:72-95. -/
def restore (s : St) (v : Nat) : Res St := addVertex s v

/-- `qsort(List_Entries(l), nv, .., compareID)` on a list without gaps, List.c:229-238: IDs of list members are
compared; with distinct IDs the sorted sequence is unique, so insertion sort stands for `qsort`.
`List_Sort` ends the process when the list has gaps. -/
def sortById (l : CList Nat) (id : Nat → Int) : Res (CList Nat) :=
  if l.nrem ≠ 0 then .fatal
  else .ok { l with slots := (insSort (l.slots.filterMap _root_.id)).map some }
where
  ins (a : Nat) : List Nat → List Nat
    | [] => [a]
    | b :: t => if id a ≤ id b then a :: b :: t else b :: ins a t
  insSort : List Nat → List Nat
    | [] => []
    | a :: t => ins a (insSort t)

/-- `MESH_Enable_LocalIDSearch`, Mesh.c:664-687. -/
def enable (s : St) : Res St :=
  if s.sorted then .ok s
  else if s.nv ≠ 0 then
    match s.lst with
    | none => .ub
    | some l => do
      let l ← l.compress
      let l ← sortById l s.id
      pure { s with lst := some l, sorted := true }
  else .ok { s with sorted := true }

/-- `bsearch` (the algorithm of glibc, `lo`/`hi` its bounds) over the first `hi` raw slots with `compareID`, which
dereferences the slot. -/
def bsearch (l : CList Nat) (id : Nat → Int) (k : Int) : Nat → Nat → Nat → Res (Option Nat)
  | 0, _, _ => .hang
  | fuel+1, lo, hi =>
    if lo < hi then do
      match ← l.rd ((lo + hi) / 2) with
      | none => .ub
      | some v =>
        if k < id v then bsearch l id k fuel lo ((lo + hi) / 2)
        else if id v < k then bsearch l id k fuel ((lo + hi) / 2 + 1) hi
        else pure (some v)
    else .ok none

/-- `idx = 0; while ((mv = MESH_Next_Vertex(mesh, &idx))) if (MV_ID(mv) == id) break;`, Mesh.c:719-721. -/
def linSearch (l : CList Nat) (id : Nat → Int) (k : Int) : Nat → Nat → Res (Option Nat)
  | 0, _ => .hang
  | fuel+1, idx => do
    match ← l.next idx with
    | (none, _) => pure none
    | (some v, idx) => if id v = k then pure (some v) else linSearch l id k fuel idx

/-- the two search methods, Mesh.c:706-722 -/
def search (s : St) (l : CList Nat) (k : Int) : Res (Option Nat) :=
  if s.sorted then bsearch l s.id k (s.nv + 1) 0 s.nv else linSearch l s.id k (l.ntot + 1) 0

/-- `MESH_VertexFromID`, Mesh.c:696-725. -/
def fromID (s : St) (k : Int) : Res (Option Nat) :=
  if s.nv = 0 ∨ k < 1 ∨ k > s.maxid then .ok none
  else match s.lst with
    | none => .ub
    | some l => do
      match ← entryRawI l (k - 1) with
      | some v => if s.id v = k then pure (some v) else search s l k
      | none => search s l k

/-- the loop of `MESH_Renumber`, MESH_Renumber.c:55-60 -/
def renumLoop (l : CList Nat) : Nat → Nat → Int → St → Res St
  | 0, _, _, _ => .hang
  | fuel+1, idx, n, s => do
    match ← l.next idx with
    | (none, _) => pure s
    | (some v, idx) => renumLoop l fuel idx (n+1) (setID s v (n+1))

/-- the loop of `MESH_Reset_Cached_MaxIDs`, Mesh.c:1118-1122 -/
def maxLoop (l : CList Nat) (id : Nat → Int) : Nat → Nat → Int → Res Int
  | 0, _, _ => .hang
  | fuel+1, idx, m => do
    match ← l.next idx with
    | (none, _) => pure m
    | (some v, idx) => maxLoop l id fuel idx (if m < id v then id v else m)

/-- `MESH_Reset_Cached_MaxIDs`, Mesh.c:1112-1122. -/
def resetMax (s : St) : Res St :=
  match s.lst with
  | none => .ok { s with maxid := 0 }
  | some l => do
    let m ← maxLoop l s.id (l.ntot + 1) 0 0
    pure { s with maxid := m }

/-- `MESH_Renumber(mesh,0,..)`, MESH_Renumber.c:54-60 and 1065. -/
def renumber (s : St) : Res St :=
  match s.lst with
  | none => resetMax s
  | some l => do
    let s ← renumLoop l (l.ntot + 1) 0 0 s
    resetMax s

/-- `MESH_Num_Vertices`, Mesh.c:510-512. -/
def num (s : St) : Nat := s.nv

/-- traversal with `MESH_Next_Vertex`, Mesh.c:613-618 -/
def traverseFrom (l : CList Nat) : Nat → Nat → Res (List Nat)
  | 0, _ => .hang
  | fuel+1, idx => do
    match ← l.next idx with
    | (none, _) => pure []
    | (some v, idx) => do pure (v :: (← traverseFrom l fuel idx))

def traverse (s : St) : Res (List Nat) :=
  match s.lst with
  | none => .ok []
  | some l => traverseFrom l (l.ntot + 1) 0

end MeshL
end MSTK
