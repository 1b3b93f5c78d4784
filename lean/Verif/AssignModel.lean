import Verif.GlobalIDModel
import Mathlib.Data.List.Sort

/-!
Model of `MESH_AssignGlobalIDs_Vertex`, src/par/MESH_AssignGlobalIDs.c:126-380, for vertices without
global IDs, on all partitions.

Points are a type `P` with the comparison function that is used for sorting and searching
(`compareVertexCoor`, `compareCoorDouble`).  `List_Sort` is modelled by a sorting function (the C
library's contract).  The reductions over all partitions are modelled by their results.
-/
namespace MSTK.Par

/-- a vertex: its position and whether it is on the boundary of the partition (known before, or found
by `vertex_on_boundary2D/3D`), MESH_AssignGlobalIDs.c:152-179 -/
structure AV (P : Type) where
  pt : P
  bdry : Bool

/-- parallel types -/
inductive PT where
  | interior | overlap | ghost
  deriving DecidableEq

/-- what the function stores with a vertex -/
structure VOut where
  gid : Nat
  ptype : PT
  master : Nat
  deriving DecidableEq

variable {P : Type} (cmp : P → P → Int)

/-- the sorted boundary vertices of a partition (index and position), MESH_AssignGlobalIDs.c:153-179, 267 -/
def sortedB (vs : List (AV P)) : List (Nat × P) :=
  (((vs.zipIdx).filter (·.1.bdry)).map fun x => (x.2, x.1.pt)).insertionSort fun a b => cmp a.2 b.2 ≤ 0

/-- the loop of glibc's `bsearch` on entries `[l, u)` -/
def bfind (a : List (Nat × P)) (key : P) (l u : Nat) : Option Nat :=
  if _h : l < u then
    match a[(l + u) / 2]? with
    | some x =>
      if cmp key x.2 < 0 then bfind a key l ((l + u) / 2)
      else if 0 < cmp key x.2 then bfind a key ((l + u) / 2 + 1) u
      else some ((l + u) / 2)
    | none => none
  else none
termination_by u - l
decreasing_by all_goals omega

/-- the loop over the partitions with a lower rank, MESH_AssignGlobalIDs.c:301-321: the first one that
has the point on its boundary, and the position there -/
def firstHit (key : P) : List (List (Nat × P)) → Nat → Option (Nat × Nat)
  | [], _ => none
  | b :: r, j =>
    match bfind cmp b key 0 b.length with
    | some i => some (j, i)
    | none => firstHit key r (j + 1)

/-- what is found for the boundary vertices of partition `me`, MESH_AssignGlobalIDs.c:294-323 -/
def hits (bl : List (List (Nat × P))) (me : Nat) : List (Option (Nat × Nat)) :=
  (bl.getD me []).map fun x => firstHit cmp x.2 (bl.take me) 0

/-- the vertices of `me` that become ghosts, MESH_AssignGlobalIDs.c:312 -/
def ghostIdx (bl : List (List (Nat × P))) (me : Nat) : List Nat :=
  ((bl.getD me []).zip (hits cmp bl me)).filterMap fun x => if x.2.isSome then some x.1.1 else none

/-- `num_ghost_verts`, MESH_AssignGlobalIDs.c:314 -/
def nGhost (bl : List (List (Nat × P))) (me : Nat) : Nat := (hits cmp bl me).countP (·.isSome)

/-- `vertex_ov_label` after the reduction, MESH_AssignGlobalIDs.c:316 and 337 -/
def label (bl : List (List (Nat × P))) (j i : Nat) : Bool :=
  (List.range bl.length).any fun me => (hits cmp bl me).contains (some (j, i))

/-- first global ID of partition `me`, MESH_AssignGlobalIDs.c:340-342 -/
def startID (bl : List (List (Nat × P))) (nv : List Nat) : Nat → Nat
  | 0 => 1
  | me+1 => startID bl nv me + nv.getD me 0 - nGhost cmp bl me

/-- which vertices of `me` are ghosts when IDs are given out -/
def ghostFlags (bl : List (List (Nat × P))) (nv : List Nat) (me : Nat) : List Bool :=
  (List.range (nv.getD me 0)).map fun v => decide (v ∈ ghostIdx cmp bl me)

/-- the IDs of the vertices that are not ghosts, MESH_AssignGlobalIDs.c:343-349 -/
def ownIDs (bl : List (List (Nat × P))) (nv : List Nat) (me : Nat) : List Nat :=
  assign id (startID cmp bl nv me) (ghostFlags cmp bl nv me)

/-- `vertex_ov_global_id` after the reduction, MESH_AssignGlobalIDs.c:354-363 -/
def ovID (bl : List (List (Nat × P))) (nv : List Nat) (j i : Nat) : Nat :=
  if label cmp bl j i then
    match (bl.getD j [])[i]? with
    | some x => (ownIDs cmp bl nv j).getD x.1 0
    | none => 0
  else 0

/-- a boundary vertex (index `v`, position `i` in the sorted list) in the end,
MESH_AssignGlobalIDs.c:312-313, 348, 358, 365-369 -/
def bdryOut (bl : List (List (Nat × P))) (nv : List Nat) (me v i : Nat) : VOut :=
  let hit := ((hits cmp bl me)[i]?).getD none
  let ptype := if label cmp bl me i then .overlap else if hit.isSome then .ghost else .interior
  let gid := match hit with
    | some (j, i') => if ptype = PT.ghost then ovID cmp bl nv j i' else (ownIDs cmp bl nv me).getD v 0
    | none => (ownIDs cmp bl nv me).getD v 0
  ⟨gid, ptype, match hit with
    | some (j, _) => j
    | none => me⟩

/-- `MESH_AssignGlobalIDs_Vertex` for vertex `v` of partition `me` -/
def assignVertex (rs : List (List (AV P))) (me v : Nat) : VOut :=
  let bl := rs.map (sortedB cmp)
  let nv := rs.map List.length
  match (bl.getD me []).findIdx? (fun x => x.1 == v) with
  | none => ⟨(ownIDs cmp bl nv me).getD v 0, .interior, me⟩
  | some i => bdryOut cmp bl nv me v i

end MSTK.Par
