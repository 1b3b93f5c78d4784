import Verif.UpdateModel

/-!
Model of `MESH_UpdateVertexCoords`, src/par/MESH_UpdateVertexCoords.c:26-213, after the flags and counts
are made current (`MESH_Update_ParallelAdj`, 44-48, modelled in `Verif.ParAdjModel`).  The calls of MPI
(101-177) are those of MESH_Update1Attribute.c, modelled in `Verif.ExchangeModel`, with the messages
below.  `D` are the coordinates.
-/
namespace MSTK.Par

/-- an overlap vertex -/
structure OvVert (D : Type) where
  gid : Int
  x : D
  y : D
  z : D
  deriving DecidableEq

/-- a ghost vertex -/
structure GhVert (D : Type) where
  gid : Int
  master : Nat
  x : D
  y : D
  z : D
  deriving DecidableEq

/-- `coords_send`, MESH_UpdateVertexCoords.c:61-67 -/
def coordsSent {D : Type} : List (OvVert D) → List D
  | [] => []
  | o :: r => o.x :: o.y :: o.z :: coordsSent r

/-- the plan of a partition, MESH_UpdateVertexCoords.c:53-67 and 105-124 -/
def coordPlan {D : Type} (s : Info) (ov : List (OvVert D)) : Plan (Msg D) :=
  planOf s 0 ov.length (.ids (ov.map (·.gid))) (.vals (coordsSent ov))

/-- one ghost vertex, MESH_UpdateVertexCoords.c:183-203; if the ID is not found, an index is computed
from the null pointer -/
def coordGhost {D : Type} (size : Nat → Nat) (procs : List Nat) (b : Bufs D) (g : GhVert D) : Res (GhVert D) :=
  match posOf size g.master procs 0 with
  | none => .ub
  | some pos => do
    let loc ← bsearchAt b.ids g.gid pos (pos + size g.master)
    match loc with
    | none => .ub
    | some i => do
      let l ← readAt b.vals (i * 3) 3
      match l with
      | [x, y, z] => .ok ⟨g.gid, g.master, x, y, z⟩
      | _ => .ub

/-- what is done with the messages that arrived, MESH_UpdateVertexCoords.c:73-96 and 179-204 -/
def coordFinish {D : Type} (plan : Plan (Msg D)) (n me : Nat) (procs : List Nat) (got : Nat → List (Msg D))
    (gh : List (GhVert D)) : Res (List (GhVert D)) := do
  let total := (procs.map plan.recvSize).sum
  let b ← recvAll 3 plan me procs got (List.range n)
    ⟨List.replicate total none, List.replicate (total * 3) none⟩
  mapR (coordGhost plan.recvSize procs b) gh

end MSTK.Par
