import Verif.ParFlagsModel

/-!
Model of `MESH_Update_ParallelAdj`, src/par/MESH_ParallelAdj.c:31-133, run by all partitions of a
communicator together.

Simplifications: the partitions run in lock step between the two calls of `MPI_Allgather` (each
partition reads and writes its own mesh only, so the interleaving does not matter); an `MPI_Allgather`
puts the arrays of the partitions one after the other in the order of their ranks.
-/
namespace MSTK.Par

/-- What one partition brings in: its flags, for each entity type the master partitions of its ghost
entities in the order of the ghost list, and its numbers of overlap entities. -/
structure Rank where
  info : Info
  masters : Nat → List Nat
  ovNum : Nat → Nat

/-- "for (mtype = MVERTEX; mtype <= MREGION; mtype++)" -/
def types : List Nat := [0, 1, 2, 3]

/-- one of the loops over ghosts, MESH_ParallelAdj.c:46-48 -/
def flagMasters (t : Nat) : List Nat → Info → Res Info
  | [], s => .ok s
  | m :: ms, s => do
    let s ← flagGhosts s m t
    flagMasters t ms s

/-- the four loops, MESH_ParallelAdj.c:46-57 -/
def flagAllGhosts (masters : Nat → List Nat) : List Nat → Info → Res Info
  | [], s => .ok s
  | t :: ts, s => do
    let s ← flagMasters t (masters t) s
    flagAllGhosts masters ts s

/-- "local_par_adj[i] |= j<<(2*mtype)", MESH_ParallelAdj.c:66-71 -/
def adjWord (s : Info) (i : Nat) : List Nat → BitVec 32 → Res (BitVec 32)
  | [], w => .ok w
  | t :: ts, w => do
    let j ← hasGhosts s i t
    adjWord s i ts (w ||| (j <<< (2 * t)))

/-- `local_par_adj`, MESH_ParallelAdj.c:65-72 -/
def localAdj (s : Info) : List Nat → Res (List (BitVec 32))
  | [] => .ok []
  | i :: is => do
    let w ← adjWord s i types 0
    let r ← localAdj s is
    pure (w :: r)

/-- MESH_ParallelAdj.c:89-94, for one partition `i` with the word it has for this one -/
def flagFrom (i : Nat) (w : BitVec 32) : List Nat → Info → Res Info
  | [], s => .ok s
  | t :: ts, s => do
    let s ← if w &&& (1#32 <<< (2 * t)) ≠ 0 then flagOverlaps s i t else .ok s
    flagFrom i w ts s

/-- MESH_ParallelAdj.c:88-95 -/
def flagAllOverlaps (glob : List (BitVec 32)) (n me : Nat) : List Nat → Info → Res Info
  | [], s => .ok s
  | i :: is, s => do
    let w ← Res.ofOption glob[i * n + me]?
    let s ← flagFrom i w types s
    flagAllOverlaps glob n me is s

/-- MESH_ParallelAdj.c:120-121 -/
def setCounts (ov : List Nat) (i : Nat) : List Nat → Info → Res Info
  | [], s => .ok s
  | t :: ts, s => do
    let c ← Res.ofOption ov[4 * i + t]?
    let s ← setNumRecv s i t c
    setCounts ov i ts s

/-- MESH_ParallelAdj.c:118-123 -/
def setAllCounts (ov : List Nat) : List Nat → Info → Res Info
  | [], s => .ok s
  | i :: is, s => do
    let b ← hasGhosts s i 6
    let s ← if b ≠ 0 then setCounts ov i types s else .ok s
    setAllCounts ov is s

/-- the same step on every partition -/
def mapR {α β : Type} (g : α → Res β) : List α → Res (List β)
  | [] => .ok []
  | a :: as => do
    let b ← g a
    let bs ← mapR g as
    pure (b :: bs)

/-- from the two gathered arrays on, MESH_ParallelAdj.c:84-123; the rank of the partition in the
communicator is given by `me` -/
def afterGather (glob : List (BitVec 32)) (ov : List Nat) (n : Nat) (p : Nat × Info) : Res Info := do
  let s ← flagAllOverlaps glob n p.1 (List.range n) p.2
  let s ← initRecv s
  setAllCounts ov (List.range n) s

/-- `MESH_Update_ParallelAdj`, MESH_ParallelAdj.c:31-133, on all partitions. -/
def updateParAdj (rs : List Rank) : Res (List Info) :=
  if rs.length = 1 then .ok (rs.map (·.info))
  else do
    let ss ← mapR (fun r => flagAllGhosts r.masters types r.info) rs
    let adj ← mapR (fun s => localAdj s (List.range rs.length)) ss
    let ov := rs.flatMap fun r => types.map r.ovNum
    mapR (afterGather adj.flatten ov rs.length) ((List.range rs.length).zip ss)

end MSTK.Par
