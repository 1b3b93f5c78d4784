import Verif.GatherModel

/-!
Model of `MESH_XchngEdgeFaceAttrib`, src/par/MESH_XchngEdgeFaceAttrib.c:30-499, for edges of surface
meshes and faces of volume meshes (for other entities and for POINTER attributes it returns at once,
54-87): the values on ghosts that are on the boundary of a partition are sent to the owners, then the
ghosts are updated from the owners by `MESH_Update1Attribute` (383, modelled in `Verif.UpdateModel`),
then the owners take the values received before.
-/
namespace MSTK.Par

/-- What a partition has: flags as in `GPart`, and the lists of overlap and ghost entities, each with the
answer of `MEnt_OnParBoundary`. -/
structure XPart (D : Type) where
  ghosts : Nat → Bool
  overlaps : Nat → Bool
  ov : List (Ov D × Bool)
  gh : List (Gh D × Bool)

/-- the ghosts that are marked for sending, MESH_XchngEdgeFaceAttrib.c:149-156 and 254-277 (a ghost
has one owner, so that the mark made for one partition does not concern another one) -/
def onBoundary {D : Type} (gh : List (Gh D × Bool)) : List (Gh D) :=
  (gh.filter fun g => g.2).map fun g => g.1

/-- what was received: `recv_size`, `recv_procs` and the lists -/
structure Fetched (D : Type) where
  size : Nat → Nat
  procs : List Nat
  bufs : Bufs D

/-- The two loops over the partitions, MESH_XchngEdgeFaceAttrib.c:119-376; they are those of
MESH_GathScat1Attribute.c but for the ghosts that are sent. -/
def xchng {D : Type} (N : Nums D) (ncomp n me : Nat) (g : XPart D) : Proc (Pack D) (Res (Fetched D)) :=
  fetch N ncomp n me ⟨g.ghosts, g.overlaps, g.ov.map (·.1), onBoundary g.gh⟩ fun size procs b => .ok ⟨size, procs, b⟩

/-- the first partition, in the order of `recv_procs`, that sent the entity: where its value is,
MESH_XchngEdgeFaceAttrib.c:414-429 -/
def lookFirst {D : Type} (f : Fetched D) (gid : Int) : List Nat → Res (Option Nat)
  | [] => .ok none
  | i :: r =>
    match posOf f.size i f.procs 0 with
    | none => .ub
    | some pos => do
      let loc ← bsearchAt f.bufs.ids gid pos (pos + f.size i)
      match loc with
      | none => lookFirst f gid r
      | some ind => .ok (some ind)

/-- One overlap entity, MESH_XchngEdgeFaceAttrib.c:391-462; if it was not sent, there is a message only. -/
def takeOne {D : Type} (isZero : D → Bool) (ncomp : Nat) (f : Fetched D) (o : Ov D × Bool) : Res (Ov D) :=
  if o.2 then do
    let loc ← lookFirst f o.1.gid f.procs
    match loc with
    | none => .ok o.1
    | some ind => do
      let x ← readAt f.bufs.vals (ind * ncomp) ncomp
      .ok { o.1 with val := store isZero ncomp o.1.val x }
  else .ok o.1

/-- the loop over the overlap entities, MESH_XchngEdgeFaceAttrib.c:390-463 -/
def takeAll {D : Type} (isZero : D → Bool) (ncomp : Nat) (f : Fetched D) (ov : List (Ov D × Bool)) :
    Res (List (Ov D)) :=
  mapR (takeOne isZero ncomp f) ov

end MSTK.Par
