import Verif.UpdateModel
import Verif.AttribModel
/-!
Model of `MESH_UpdateAttributes` (MESH_UpdateAttributes.c): the update of all attributes of a mesh on all
partitions.

Every partition goes through the attributes of its own mesh.  `MPI_Barrier` and the `MPI_Allreduce` at the
start of `MESH_Update1Attribute` are left by no partition before all have entered them; so the calls of the
partitions fall into rounds, and in each round the partitions exchange messages as in `Verif.ExchangeModel`
and `Verif.UpdateModel`.

Simplifications: there are at least two partitions (for one, `MESH_Update1Attribute` returns at once, 47); the
parallel adjacency information is current on all partitions (64-68), it is `out` below; the type of entities of an
attribute is one of the four or `MALLTYPE` (for others the program stops, 96-97).
-/
namespace MSTK.Par

/-- an attribute: its name, type, type of entities (`MAttrib_Get_EntDim`; 5 for all types) and number of
components, MAttrib.c:23-81 -/
structure Attr where
  name : String
  type : AttType
  dim : Nat
  ncomp : Nat
deriving DecidableEq

/-- a call that all partitions have to make -/
inductive Coll
  | barrier
  | update (a : Attr)
deriving DecidableEq

/-- the loop of `MESH_UpdateAttributes`, MESH_UpdateAttributes.c:32-41, over the attributes of the mesh -/
def collCalls : List Attr → List Coll
  | [] => []
  | a :: as => if a.type = .pointer then collCalls as else .barrier :: .update a :: collCalls as

/-- the attribute a partition is about to update -/
def headAttr : List Coll → Option Attr
  | .update a :: _ => some a
  | _ => none

/-- The calls of all partitions, of which the first is given separately: a call ends when all have made it.  If
some have no call left, the others wait for ever.  Different calls that meet are an error of MPI.  The result
are the rounds of updates, each with the attributes of all partitions. -/
def together : List Coll → List (List Coll) → Res (List (List Attr))
  | [], others => if others.all (·.isEmpty) then .ok [] else .hang
  | c :: cs, others =>
    if others.any (·.isEmpty) then .hang
    else match c with
      | .barrier =>
        if others.all (fun o => o.head? = some .barrier) then together cs (others.map (·.tail)) else .ub
      | .update a =>
        match others.mapM headAttr with
        | none => .ub
        | some as => do
          let rounds ← together cs (others.map (·.tail))
          pure ((a :: as) :: rounds)

/-- `MESH_UpdateAttributes` on all partitions, for the attributes of each -/
def updateRounds : List (List Attr) → Res (List (List Attr))
  | [] => .ok []
  | as :: rest => together (collCalls as) (rest.map collCalls)

/-- the overlap and ghost entities of a partition, with their values for one attribute -/
structure Ents (D : Type) where
  ov : List (Ov D)
  gh : List (Gh D)

/-- The values of all attributes on all partitions. -/
abbrev World (D : Type) := Nat → Attr → Ents D

/-- One round: partition `p` of `n` is in `MESH_Update1Attribute` for the attribute `atts[p]`,
MESH_Update1Attribute.c:73-338.  Nothing happens for attributes of no particular type of entity (90-95); else
the values of the overlap entities are collected (103-142), the messages are exchanged in some order (173-268)
and those received are stored (271-338).  Only ghosts change, and only their values of that attribute. -/
structure Round {D : Type} (n : Nat) (out : List Info) (zero : D) (isZero : D → Bool) (atts : List Attr)
    (W W' : World D) : Prop where
  keep : ∀ q a, atts[q]? ≠ some a ∨ 4 ≤ a.dim → W' q a = W q a
  run : ∃ (V : Nat → List D) (plan : Nat → Plan (Msg D)) (steps : Nat) (net : Net (Msg D)),
    (∀ p a, atts[p]? = some a → a.dim < 4 → collectAll zero a.ncomp (W p a).ov = .ok (V p)) ∧
    (∀ p s a, out[p]? = some s → atts[p]? = some a → a.dim < 4 →
      plan p = planOf s a.dim (W p a).ov.length (.ids ((W p a).ov.map (·.gid))) (.vals (V p))) ∧
    (∀ p a, atts[p]? = some a → 4 ≤ a.dim → (plan p).calls n p = []) ∧
    Exec steps (Net.start n plan) net ∧ net.done ∧
    ∀ q s a, out[q]? = some s → atts[q]? = some a → a.dim < 4 →
      (W' q a).ov = (W q a).ov ∧ ∃ procs, ghostPrtns s = .ok procs ∧
        finish isZero a.ncomp (plan q) n q procs (net.got q) (W q a).gh = .ok (W' q a).gh

/-- the rounds one after the other -/
inductive Rounds {D : Type} (n : Nat) (out : List Info) (zero : D) (isZero : D → Bool) :
    List (List Attr) → World D → World D → Prop
  | nil (W : World D) : Rounds n out zero isZero [] W W
  | cons {atts : List Attr} {rest : List (List Attr)} {W W₁ W₂ : World D} :
      Round n out zero isZero atts W W₁ → Rounds n out zero isZero rest W₁ W₂ →
      Rounds n out zero isZero (atts :: rest) W W₂

end MSTK.Par
