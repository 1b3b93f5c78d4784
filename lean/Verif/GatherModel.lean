import Verif.ProcModel
import Verif.UpdateModel

/-!
Model of `MESH_GathScat1Attribute`, src/par/MESH_GathScat1Attribute.c:30-569, up to its call of
`MESH_Update1Attribute` (564), which is modelled in `Verif.UpdateModel`: each partition sends the values
on its ghosts to the owners, and the owners combine them with their own values.

The function starts with flags and lists that are current (`MESH_Update_ParallelAdj`, 77-81, is modelled
in `Verif.ParAdjModel`).  It returns at once with one partition (47), for POINTER attributes (54-63) and
for the average of an INT attribute (65-72); these cases are not part of the model.
`MESH_Update1Attribute` starts with an `MPI_Allreduce`, so that no partition is in it before all have
come to the end of the part modelled here.
-/
namespace MSTK.Par

/-- `MAttOpType`, MSTK_types.h:77 -/
inductive AttOp where
  | undef | max | min | sum | avg
  deriving DecidableEq

/-- the operations on numbers; `add` gives `none` on a signed overflow -/
structure Nums (D : Type) where
  zero : D
  isZero : D → Bool
  lt : D → D → Bool
  add : D → D → Option D
  div : D → Nat → D

/-- the messages: the number of entities, or a list (of global IDs, or of values) -/
inductive Pack (D : Type) where
  | count (n : Nat)
  | list (m : Msg D)
  deriving DecidableEq

/-- What a partition has: the flags `MESH_Has_Ghosts_From_Prtn` and `MESH_Has_Overlaps_On_Prtn` for the
entity type of the attribute, and the lists of overlap and ghost entities. -/
structure GPart (D : Type) where
  ghosts : Nat → Bool
  overlaps : Nat → Bool
  ov : List (Ov D)
  gh : List (Gh D)

/-- the ghosts whose master partition is `i`, MESH_GathScat1Attribute.c:121-141 and 246-266 -/
def toOwner {D : Type} (gh : List (Gh D)) (i : Nat) : List (Ov D) :=
  (gh.filter fun g => decide (g.master = i)).map fun g => ⟨g.gid, g.val⟩

/-- a message with a number arrived, or none was expected -/
def isSize {D : Type} : List (Pack D) → Bool
  | [] => true
  | [.count _] => true
  | _ => false

/-- `recv_size[i]` (which starts as 0), MESH_GathScat1Attribute.c:110 and 147-153 -/
def sizeIn {D : Type} : List (Pack D) → Nat
  | [.count c] => c
  | _ => 0

/-- the lists that arrived -/
def lists {D : Type} (l : List (Pack D)) : List (Msg D) :=
  l.filterMap fun
    | .list m => some m
    | .count _ => none

/-- `recv_procs`, MESH_GathScat1Attribute.c:163-170 -/
def recvProcs (me : Nat) (overlaps : Nat → Bool) (n : Nat) : List Nat :=
  (List.range n).filter fun i => decide (i ≠ me) && overlaps i

/-- The number received is combined with the one so far, MESH_GathScat1Attribute.c:433-470; an
overflow of signed integers is undefined. -/
def mixNum {D : Type} (N : Nums D) (op : AttOp) (y x : D) : Res D :=
  match op with
  | .max => .ok (if N.lt y x then x else y)
  | .min => .ok (if N.lt x y then x else y)
  | .sum => Res.ofOption (N.add y x)
  | .avg => Res.ofOption (N.add y x)
  | .undef => .ok x

/-- what is computed for an entity: a number, or an array whose values may be indeterminate (`none`) -/
inductive Work (D : Type) where
  | num (x : D)
  | arr (l : Option (List D))

/-- The values received are combined with those so far, MESH_GathScat1Attribute.c:431-517.  For a
VECTOR or TENSOR attribute, 415-416 passes `final_rval_arr` where `MEnt_Get_AttVal` takes the address of
a pointer, so that nothing is copied to the array, and the operations other than ATTOP_UNDEF (and
everything with one component) use or leave the indeterminate values. -/
def mix {D : Type} (N : Nums D) (op : AttOp) (ncomp : Nat) (w : Work D) (x : List D) : Res (Work D) :=
  match w with
  | .num y =>
    match x with
    | [x] => do
      let z ← mixNum N op y x
      pure (.num z)
    | _ => .ub
  | .arr l =>
    if ncomp = 1 ∨ x.all N.isZero then .ok (.arr l)
    else if op = .undef then .ok (.arr (some x))
    else .ub

/-- the loop over the partitions that sent, MESH_GathScat1Attribute.c:418-520, with `nfound` -/
def combine {D : Type} (N : Nums D) (op : AttOp) (ncomp : Nat) (size : Nat → Nat) (procs : List Nat) (b : Bufs D)
    (gid : Int) : List Nat → Work D × Nat → Res (Work D × Nat)
  | [], w => .ok w
  | i :: r, w =>
    match posOf size i procs 0 with
    | none => .ub
    | some pos => do
      let loc ← bsearchAt b.ids gid pos (pos + size i)
      match loc with
      | none => combine N op ncomp size procs b gid r w
      | some ind => do
        let x ← readAt b.vals (ind * ncomp) ncomp
        let z ← mix N op ncomp w.1 x
        combine N op ncomp size procs b gid r (z, w.2 + 1)

/-- One overlap entity, MESH_GathScat1Attribute.c:386-541: the value is stored unless it is the number
zero.  An array with indeterminate values is stored, too (537-539), and read by the update that
follows (MESH_Update1Attribute.c:138-140). -/
def gatherOne {D : Type} (N : Nums D) (op : AttOp) (ncomp : Nat) (size : Nat → Nat) (procs : List Nat) (b : Bufs D)
    (o : Ov D) : Res (Ov D) := do
  let w := match o.val with
    | .num y => Work.num y
    | .arr _ => Work.arr none
  let w ← combine N op ncomp size procs b o.gid procs (w, 0)
  match w.1 with
  | .num y =>
    let y := if op = .avg then N.div y (w.2 + 1) else y
    pure (if N.isZero y then o else { o with val := .num y })
  | .arr (some l) => pure { o with val := .arr (some l) }
  | .arr none => .ub

/-- the values for the owners that have any, MESH_GathScat1Attribute.c:236-288 (for all owners before
the first is sent) -/
def collectFor {D : Type} (N : Nums D) (ncomp : Nat) (g : GPart D) (n : Nat) : Res (List (List D)) :=
  mapR (fun i => if g.ghosts i && decide ((toOwner g.gh i).length ≠ 0)
    then collectAll N.zero ncomp (toOwner g.gh i) else .ok []) (List.range n)

/-- The second loop over the partitions, MESH_GathScat1Attribute.c:157-382; `size` is `recv_size`, and
`fin` what is done with it, with `recv_procs` and with the lists received. -/
def fetchLists {D A : Type} (ncomp n me : Nat) (g : GPart D) (fin : (Nat → Nat) → List Nat → Bufs D → Res A)
    (size : Nat → Nat) (vals : List (List D)) : Proc (Pack D) (Res A) :=
  rounds me
    (fun i => if g.ghosts i && decide ((toOwner g.gh i).length ≠ 0)
      then [.list (.ids ((toOwner g.gh i).map (·.gid))), .list (.vals (vals.getD i []))] else [])
    (fun i => if g.overlaps i && decide (size i ≠ 0) then 2 else 0)
    (List.range n) (fun _ => []) fun got =>
  let procs := recvProcs me g.overlaps n
  let total := (procs.map size).sum
  .ret do
    let b ← recvAll ncomp ⟨g.overlaps, g.ghosts, 0, size, .ids [], .vals []⟩ me procs (fun i => lists (got i))
      (List.range n) ⟨List.replicate total none, List.replicate (total * ncomp) none⟩
    fin size procs b

/-- Both loops on partition `me` of `n`, MESH_GathScat1Attribute.c:83-382. -/
def fetch {D A : Type} (N : Nums D) (ncomp n me : Nat) (g : GPart D)
    (fin : (Nat → Nat) → List Nat → Bufs D → Res A) : Proc (Pack D) (Res A) :=
  rounds me (fun i => if g.ghosts i then [.count (toOwner g.gh i).length] else [])
    (fun i => if g.overlaps i then 1 else 0) (List.range n) (fun _ => []) fun got =>
  if (List.range n).all fun i => isSize (got i) then
    match collectFor N ncomp g n with
    | .ok vals => fetchLists ncomp n me g fin (fun i => sizeIn (got i)) vals
    | .ub => .ret .ub
    | .fatal => .ret .fatal
    | .hang => .ret .hang
  else .ret .ub

/-- MESH_GathScat1Attribute.c:83-541 on partition `me` of `n` -/
def gather {D : Type} (N : Nums D) (op : AttOp) (ncomp n me : Nat) (g : GPart D) :
    Proc (Pack D) (Res (List (Ov D))) :=
  fetch N ncomp n me g fun size procs b => mapR (gatherOne N op ncomp size procs b) g.ov

end MSTK.Par
