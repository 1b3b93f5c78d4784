import Verif.ExchangeModel

/-!
Model of what src/par/MESH_Update1Attribute.c sends and of what it does with what it receives.

Numbers (`int` or `double`, by the type of the attribute) are a type `D` with a test for zero.
Attribute values are as in `Verif.AttribModel`; here only the value of the one attribute is kept with
each entity.
-/
namespace MSTK.Par

/-- the value of the attribute on an entity: INT and DOUBLE attributes have a number (0 when unset),
VECTOR and TENSOR attributes a pointer to an array (NULL when unset), MEntity.c:426-428 -/
inductive Value (D : Type) where
  | num (x : D)
  | arr (p : Option (List D))
  deriving DecidableEq

/-- an overlap entity -/
structure Ov (D : Type) where
  gid : Int
  val : Value D

/-- a ghost entity -/
structure Gh (D : Type) where
  gid : Int
  master : Nat
  val : Value D

/-- the two messages: global IDs and values -/
inductive Msg (D : Type) where
  | ids (l : List Int)
  | vals (l : List D)
  deriving DecidableEq

/-- what is sent for one entity, MESH_Update1Attribute.c:128-141 (for a VECTOR attribute with one
component, 135 sends the 0.0 that MEntity.c:427 stores) -/
def collect {D : Type} (zero : D) (ncomp : Nat) : Value D → Res (List D)
  | .num x => .ok [x]
  | .arr p =>
    if ncomp = 1 then .ok [zero]
    else match p with
      | none => .ub
      | some l => if l.length < ncomp then .ub else .ok (l.take ncomp)

/-- MESH_Update1Attribute.c:111-142 -/
def collectAll {D : Type} (zero : D) (ncomp : Nat) : List (Ov D) → Res (List D)
  | [] => .ok []
  | o :: r => do
    let l ← collect zero ncomp o.val
    let ls ← collectAll zero ncomp r
    return l ++ ls

/-- `recv_pos[rank_g2l[p]]`, MESH_Update1Attribute.c:157-163; `rank_g2l` is uninitialised for
partitions that are not in `recv_procs` -/
def posOf (size : Nat → Nat) (p : Nat) : List Nat → Nat → Option Nat
  | [], _ => none
  | q :: r, acc => if q = p then some acc else posOf size p r (acc + size q)

/-- `MPI_Recv` into an array from index `pos`, with room for `cap` entries; a longer message is an
error, and one must not write beyond the array -/
def recvAt {α : Type} (a : List (Option α)) (pos cap : Nat) (m : List α) : Res (List (Option α)) :=
  if m.length ≤ cap ∧ pos + m.length ≤ a.length then
    .ok (a.take pos ++ m.map some ++ a.drop (pos + m.length))
  else .ub

/-- the two receive buffers -/
structure Bufs (D : Type) where
  ids : List (Option Int)
  vals : List (Option D)

/-- the two receives from partition `i`, MESH_Update1Attribute.c:222-233, 242-253; `got` are the
messages that arrived from it -/
def recvFrom {D : Type} (ncomp : Nat) (size : Nat → Nat) (procs : List Nat) (i : Nat) (got : List (Msg D))
    (b : Bufs D) : Res (Bufs D) :=
  match posOf size i procs 0 with
  | none => .ub
  | some pos =>
    match got with
    | [.ids l, .vals v] => do
      let ids ← recvAt b.ids pos (size i) l
      let vals ← recvAt b.vals (pos * ncomp) (l.length * ncomp) v
      return ⟨ids, vals⟩
    | _ => .ub

/-- all receives, MESH_Update1Attribute.c:174-268 -/
def recvAll {D : Type} (ncomp : Nat) (plan : Plan (Msg D)) (me : Nat) (procs : List Nat)
    (got : Nat → List (Msg D)) : List Nat → Bufs D → Res (Bufs D)
  | [], b => .ok b
  | i :: r, b =>
    if i ≠ me ∧ plan.ghosts i = true ∧ plan.recvSize i ≠ 0 then do
      let b ← recvFrom ncomp plan.recvSize procs i (got i) b
      recvAll ncomp plan me procs got r b
    else recvAll ncomp plan me procs got r b

/-- the loop of glibc's `bsearch` on entries `[l, u)` of an array -/
def bsearchAt (a : List (Option Int)) (key : Int) (l u : Nat) : Res (Option Nat) :=
  if _h : l < u then
    match a[(l + u) / 2]? with
    | some (some x) =>
      if key < x then bsearchAt a key l ((l + u) / 2)
      else if x < key then bsearchAt a key ((l + u) / 2 + 1) u
      else .ok (some ((l + u) / 2))
    | _ => .ub
  else .ok none
termination_by u - l
decreasing_by all_goals omega

/-- read `n` numbers from index `i` -/
def readAt {D : Type} (a : List (Option D)) (i : Nat) : Nat → Res (List D)
  | 0 => .ok []
  | n+1 =>
    match a[i]? with
    | some (some x) => do
      let r ← readAt a (i+1) n
      return x :: r
    | _ => .ub

/-- The new value of a ghost entity from the numbers received for it, MESH_Update1Attribute.c:312-337:
a value is stored only if it is not zero.  (For a VECTOR attribute with one component `rval_arr` is
never set and remains NULL.) -/
def store {D : Type} (isZero : D → Bool) (ncomp : Nat) (old : Value D) (x : List D) : Value D :=
  match old with
  | .num _ =>
    match x with
    | [y] => if isZero y then old else .num y
    | _ => old
  | .arr _ =>
    if ncomp = 1 then old
    else if x.all isZero then old else .arr (some x)

/-- one ghost entity, MESH_Update1Attribute.c:291-337; if the ID is not found, an index is computed
from the null pointer -/
def updateGhost {D : Type} (isZero : D → Bool) (ncomp : Nat) (size : Nat → Nat) (procs : List Nat) (b : Bufs D)
    (g : Gh D) : Res (Gh D) :=
  match posOf size g.master procs 0 with
  | none => .ub
  | some pos => do
    let loc ← bsearchAt b.ids g.gid pos (pos + size g.master)
    match loc with
    | none => .ub
    | some i => do
      let x ← readAt b.vals (i * ncomp) ncomp
      return { g with val := store isZero ncomp g.val x }

/-- MESH_Update1Attribute.c:159-169 and 271-338: the rest of the function after the messages `got`
arrived (from each partition) -/
def finish {D : Type} (isZero : D → Bool) (ncomp : Nat) (plan : Plan (Msg D)) (n me : Nat) (procs : List Nat)
    (got : Nat → List (Msg D)) (gh : List (Gh D)) : Res (List (Gh D)) := do
  let total := (procs.map plan.recvSize).sum
  let b ← recvAll ncomp plan me procs got (List.range n)
    ⟨List.replicate total none, List.replicate (total * ncomp) none⟩
  mapR (updateGhost isZero ncomp plan.recvSize procs b) gh

end MSTK.Par
