import Verif.ParAdjModel
import Verif.UpdateModel
import Mathlib.Data.List.Sort
/-!
Model of `src/par/MESH_BuildConnection.c`: the partitions of a mesh compare the global IDs of their
boundary vertices and flag each other as neighbours.

One run of the collective call on all partitions is modelled: every partition contributes its block to
the gather, and then goes on alone.  `List_Sort` (`qsort`) is modelled by a sorting function and
`bsearch` by the loop of glibc; `compareGlobalID` and `compareINT` subtract, which does not overflow for
global IDs (they are positive).  Entries of the gather buffers that are not set are `none`; a search that
reads one is undefined behaviour.
-/
namespace MSTK.Par

/-- What a partition brings into the call: its adjacency flags, its vertices in the order of the mesh
(global ID, and whether the vertex is interior to the partition), and whether it has regions. -/
structure Piece where
  info : Info
  verts : List (Int × Bool)
  regions : Bool

/-- the global IDs of the boundary vertices, sorted, MESH_BuildConnection.c:46-57 and 70-76 -/
def Piece.bdry (c : Piece) : List Int :=
  ((c.verts.filter fun v => !v.2).map Prod.fst).insertionSort (· ≤ ·)

/-- `max_nbv`, MESH_BuildConnection.c:62-65 -/
def mostBdry (rs : List Piece) : Nat :=
  rs.foldl (fun m c => if m < c.bdry.length then c.bdry.length else m) 0

/-- what a partition puts in the gather: its IDs and then whatever `malloc` left,
MESH_BuildConnection.c:67-76 -/
def bdryBlock (m : Nat) (c : Piece) : List (Option Int) :=
  c.bdry.map some ++ List.replicate (m - c.bdry.length) none

/-- `recv_list_vertex` after the gather, MESH_BuildConnection.c:79 -/
def gathered (rs : List Piece) : List (Option Int) := (rs.map (bdryBlock (mostBdry rs))).flatten

/-- the flags raised for a partition that has the vertex, MESH_BuildConnection.c:101-105 -/
def connFlag (regions : Bool) (j : Nat) (s : Info) : Res Info := do
  let s ← flagGhosts s j 0
  let s ← flagGhosts s j 1
  if regions then flagGhosts s j 2 else pure s

/-- the loop over the partitions for one vertex, MESH_BuildConnection.c:90-107; `sizes` are the entries
`global_mesh_info[10*j+4]` -/
def connRanks (recv : List (Option Int)) (m : Nat) (sizes : List Nat) (me : Nat) (regions : Bool) (gid : Int) :
    List Nat → Info → Res Info
  | [], s => .ok s
  | j :: js, s =>
    if j = me then connRanks recv m sizes me regions gid js s
    else do
      let n ← Res.ofOption sizes[j]?
      match ← bsearchAt recv gid (m * j) (m * j + n) with
      | some _ => do
        let s ← connFlag regions j s
        connRanks recv m sizes me regions gid js s
      | none => connRanks recv m sizes me regions gid js s

/-- the loop over the boundary vertices, MESH_BuildConnection.c:81-108; the partitions are tried from
the last to the first -/
def connVerts (recv : List (Option Int)) (m : Nat) (sizes : List Nat) (me : Nat) (regions : Bool) :
    List Int → Info → Res Info
  | [], s => .ok s
  | g :: gs, s => do
    let s ← connRanks recv m sizes me regions g (List.range sizes.length).reverse s
    connVerts recv m sizes me regions gs s

/-- `MESH_BuildConnection` on all partitions, MESH_BuildConnection.c:30-115 -/
def buildConnection (rs : List Piece) : Res (List Info) :=
  mapR (fun pc : Nat × Piece =>
      connVerts (gathered rs) (mostBdry rs) (rs.map fun c => c.bdry.length) pc.1 pc.2.regions pc.2.bdry
        pc.2.info)
    ((List.range rs.length).zip rs)

end MSTK.Par
