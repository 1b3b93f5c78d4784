import Verif.UpdateModel

/-!
Model of the numbering of entities over partitions: src/par/MESH_Renumber_GlobalIDs.c.
Integer overflow of global IDs is not modelled.
-/
namespace MSTK.Par

/-- One pass over the entities of a partition that gives consecutive numbers, from `c` on, to those
that are not ghosts (MESH_Renumber_GlobalIDs.c:144-181; MESH_AssignGlobalIDs.c:343-349); 0 stands for
no number. -/
def assign {α : Type} (ghost : α → Bool) : Nat → List α → List Nat
  | _, [] => []
  | c, e :: r => if ghost e then 0 :: assign ghost c r else c :: assign ghost (c + 1) r

/-- the number of entities that are not ghosts, MESH_Renumber_GlobalIDs.c:88-112 -/
def nOwned {α : Type} (ghost : α → Bool) (l : List α) : Nat := l.countP (fun e => !ghost e)

/-- MESH_Renumber_GlobalIDs.c:122-129: what partition 0 computes from the gathered numbers -/
def offsets : Nat → List Nat → List Nat
  | _, [] => []
  | a, c :: r => a :: offsets (a + c) r

/-- the numbers of all owned entities of all partitions -/
def numberAll {α : Type} (ghost : α → Bool) (rs : List (List α)) : List (List Nat) :=
  ((offsets 0 (rs.map (nOwned ghost))).zip rs).map fun x => assign ghost (x.1 + 1) x.2

/-- an entity of a partition before renumbering: its parallel type, global ID and owner -/
structure REnt where
  ghost : Bool
  gid : Int
  master : Nat

/-- The entities of one type of a partition, with the positions of those in the overlap list and of
those in the ghost list. -/
structure RPart where
  ents : List REnt
  ov : List Nat
  gh : List Nat

/-- the overlap entities with the values of the temporary attribute -/
def RPart.ovs (p : RPart) (new : List Nat) : List (Ov Int) :=
  p.ov.filterMap fun i => (p.ents[i]?).map fun e => ⟨e.gid, .num (new.getD i 0 : Nat)⟩

/-- the ghost entities with the values of the temporary attribute -/
def RPart.ghs (p : RPart) (new : List Nat) : List (Gh Int) :=
  p.gh.filterMap fun i => (p.ents[i]?).map fun e => ⟨e.gid, e.master, .num (new.getD i 0 : Nat)⟩

/-- the number of a value -/
def Value.toInt : Value Int → Int
  | .num x => x
  | .arr _ => 0

/-- the values of the attribute after the update: those of the ghosts have changed,
MESH_Renumber_GlobalIDs.c:184-217 -/
def RPart.final (p : RPart) (new : List Nat) (gh' : List (Gh Int)) : List Int :=
  (p.gh.zip gh').foldl (fun a x => a.set x.1 x.2.val.toInt) (new.map fun (x : Nat) => (x : Int))

/-- The collective part before the update, MESH_Renumber_GlobalIDs.c:46-53 and 114-132: a partition
without entities of the type does not take part; the others then wait for it for ever. -/
def renumberNew (rs : List RPart) : Res (List (List Nat)) :=
  if rs.all (fun p => p.ents.isEmpty) then .ok (rs.map fun _ => [])
  else if rs.all (fun p => !p.ents.isEmpty) then .ok (numberAll REnt.ghost (rs.map (·.ents)))
  else .hang

end MSTK.Par
