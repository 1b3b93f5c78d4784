import Verif.ProcModel
import Verif.CompareModel

/-!
Model of `MESH_Parallel_Check`, src/par/MESH_Parallel_Check.c:28-1114: each partition sends its ghosts to
the partitions that own them, which look them up among their overlap entities and compare.

Left out are the warnings about global IDs that are not contiguous (84-98 and the like) and about overlap
faces without owned regions (569-591), which do not change the answer.  Where a process never comes back
from a loop, is ended or does something undefined, it makes no further calls and its outcome is the one
of `Res`.  IDs of geometric entities are less than 2^28, so that they can be packed (204).
-/
namespace MSTK.Par

/-- What all entities have: local and global ID, `MEnt_PType`, master partition and classification
(`GEntDim` and `GEntID`). -/
structure CKey where
  id : Int
  gid : Int
  ptype : Nat
  master : Nat
  gdim : Nat
  gent : Nat
  deriving DecidableEq

/-- a vertex with its coordinates -/
structure CVert where
  key : CKey
  coor : Rat × Rat × Rat

/-- an edge with the global IDs of its end points -/
structure CEdge where
  key : CKey
  ends : Int × Int

/-- a face or a region with the global IDs of its edges or faces, negative for those that are used in
the opposite direction -/
structure CCell where
  key : CKey
  parts : List Int

/-- The mesh of a partition, with `MESH_Has_Ghosts_From_Prtn` and `MESH_Has_Overlaps_On_Prtn` for the four
types of entities. -/
structure CMesh where
  verts : List CVert
  edges : List CEdge
  faces : List CCell
  regions : List CCell
  ghosts : Nat → Nat → Bool
  overlaps : Nat → Nat → Bool

/-- PINTERIOR, POVERLAP, PBOUNDARY, PGHOST, MSTK_types.h:99 -/
def pOverlap : Nat := 1
def pGhost : Nat := 3

/-- MUNKNOWNTYPE, MSTK_types.h:70 -/
def mUnknown : Nat := 4

/-- MAXPV3 and MAXPF3, MSTK_defines.h:39-40 -/
def maxPV3 : Nat := 200
def maxPF3 : Nat := 16 * (8 * 4)

/-- the tolerance of `compareCoorDouble`, compare_funcs.c:33 -/
def coorTol : Rat := 1 / 1000000000000

/-- a message: the number of entities (of `MPI_Allgather`), integers, or coordinates -/
inductive CMsg where
  | count (n : Nat)
  | ints (l : List Int)
  | coors (l : List (Rat × Rat × Rat))

/-- One entity in `MESH_Parallel_Check_Ghost`, MESH_Parallel_Check.c:1038-1053, 1057-1074, 1078-1093 and
1097-1112. -/
def markedRight (rank : Nat) (k : CKey) : Bool :=
  if k.ptype = pGhost then !decide (k.master = rank) else decide (k.master = rank)

/-- `MESH_Parallel_Check_Ghost`, MESH_Parallel_Check.c:1025-1114. -/
def checkGhost (rank : Nat) (m : CMesh) : Bool :=
  m.verts.all (fun e => markedRight rank e.key) && m.edges.all (fun e => markedRight rank e.key) &&
  m.faces.all (fun e => markedRight rank e.key) &&
  (if m.regions.length = 0 then true else m.regions.all fun e => markedRight rank e.key)

/-- the insertion of an entity in a list sorted by global IDs -/
def insGid (a : CKey) : List CKey → List CKey
  | [] => [a]
  | b :: t => if a.gid ≤ b.gid then a :: b :: t else b :: insGid a t

/-- `List_Sort` with `compareGlobalID`, List.c:229-238: with distinct global IDs the result is unique, and
the insertion sort stands for `qsort`. -/
def sortGid : List CKey → List CKey
  | [] => []
  | a :: t => insGid a (sortGid t)

/-- `ov_list`, MESH_Parallel_Check.c:100-117, 343-359, 593-609 and 823-839: the overlap entities sorted by
global ID. -/
def ovList (ks : List CKey) : List CKey := sortGid (ks.filter fun k => decide (k.ptype = pOverlap))

/-- `bsearch` (the algorithm of glibc) with `compareINT` in the global IDs of `ov_list` -/
def searchGid (l : List CKey) (g : Int) : Nat → Nat → Nat → Option CKey
  | 0, _, _ => none
  | fuel+1, lo, hi =>
    if lo < hi then
      match l[(lo + hi) / 2]? with
      | none => none
      | some k =>
        if g < k.gid then searchGid l g fuel lo ((lo + hi) / 2)
        else if k.gid < g then searchGid l g fuel ((lo + hi) / 2 + 1) hi
        else some k
    else none

/-- The entity with this global ID, MESH_Parallel_Check.c:143-162, 380-399, 631-650 and 861-880: an overlap
entity is looked up, and then the entity with its local ID (`MESH_VertexFromID` and the like; see
`Verif.MeshModel`). -/
def findGid {α : Type} (key : α → CKey) (es : List α) (g : Int) : Option α :=
  let ov := ovList (es.map key)
  match searchGid ov g (ov.length + 1) 0 ov.length with
  | none => none
  | some k => es.find? fun e => decide ((key e).id = k.id)

/-- `(GEntID<<3) | GEntDim`, MESH_Parallel_Check.c:204 -/
def packClass (k : CKey) : Int := ((k.gent <<< 3 ||| k.gdim : Nat) : Int)

/-- `(MasterParID<<2) | PType`, MESH_Parallel_Check.c:205 -/
def packOwner (k : CKey) : Int := ((k.master <<< 2 ||| k.ptype : Nat) : Int)

/-- The comparisons that all types of entities have, MESH_Parallel_Check.c:163-189, 400-426, 651-677 and
881-906; an unknown dimension agrees with all (168, 405, 656), except for regions (885). -/
def agrees (unknown : Bool) (rank : Nat) (k : CKey) (c o : Int) : Bool :=
  let gdim := c.toNat &&& 7
  let gid := c.toNat >>> 3
  let ptype := o.toNat &&& 3
  let master := o.toNat >>> 2
  !(decide (k.gdim ≠ gdim) && !(unknown && (decide (k.gdim = mUnknown) || decide (gdim = mUnknown)))) &&
  !decide (k.gent ≠ gid) && !decide (ptype ≠ pGhost) && !decide (master ≠ rank)

/-- The vertices received, MESH_Parallel_Check.c:142-199 and 243-301; `valid` is the last argument. -/
def checkVerts (rank : Nat) (vs : List CVert) : List Int → List (Rat × Rat × Rat) → Bool → Res Bool
  | c :: o :: g :: r, x :: xs, v =>
    match findGid CVert.key vs g with
    | none => checkVerts rank vs r xs false
    | some mv => checkVerts rank vs r xs
        (v && agrees true rank mv.key c o && !decide (cmpCoor coorTol mv.coor x ≠ 0))
  | _ :: _ :: _ :: _, [], _ => .ub
  | _, _, v => .ok v

/-- The edges received, MESH_Parallel_Check.c:379-437 and 471-529. -/
def checkEdges (rank : Nat) (es : List CEdge) : List Int → Bool → Res Bool
  | a :: b :: c :: o :: g :: r, v =>
    match findGid CEdge.key es g with
    | none => checkEdges rank es r false
    | some me => checkEdges rank es r
        (v && agrees true rank me.key c o && !decide (cmpEdge me.ends (a, b) ≠ 0))
  | _, v => .ok v

/-- The faces received, MESH_Parallel_Check.c:629-680 and 731-782, and the regions, 859-909 and 957-1008.
The rest of the message is from `index_mf` on.  `continue` (641 and the like) leaves the index as it is:
the loop goes on with the same face. -/
def checkCells (unknown : Bool) (rank : Nat) (cs : List CCell) : Nat → List Int → Bool → Res Bool
  | 0, _, _ => .hang
  | _+1, [], v => .ok v
  | fuel+1, n :: r, v =>
    match r.drop n.toNat with
    | c :: o :: g :: r' =>
      match findGid CCell.key cs g with
      | none => checkCells unknown rank cs fuel (n :: r) false
      | some mf => checkCells unknown rank cs fuel r' (v && agrees unknown rank mf.key c o)
    | _ => .ub

/-- the integers for the vertices that partition `i` owns, MESH_Parallel_Check.c:200-214 -/
def vertInts (vs : List CVert) (i : Nat) : List Int :=
  (vs.filter fun e => decide (e.key.master = i)).flatMap fun e => [packClass e.key, packOwner e.key, e.key.gid]

/-- their coordinates, MESH_Parallel_Check.c:207-210 -/
def vertCoors (vs : List CVert) (i : Nat) : List (Rat × Rat × Rat) :=
  (vs.filter fun e => decide (e.key.master = i)).map fun e => e.coor

/-- the integers for the edges, MESH_Parallel_Check.c:438-450 -/
def edgeInts (es : List CEdge) (i : Nat) : List Int :=
  (es.filter fun e => decide (e.key.master = i)).flatMap fun e =>
    [e.ends.1, e.ends.2, packClass e.key, packOwner e.key, e.key.gid]

/-- the integers for the faces, MESH_Parallel_Check.c:682-700, and the regions, 911-929 -/
def cellInts (cs : List CCell) (i : Nat) : List Int :=
  (cs.filter fun e => decide (e.key.master = i)).flatMap fun e =>
    (e.parts.length : Int) :: e.parts ++ [packClass e.key, packOwner e.key, e.key.gid]

/-- One of the four checks: the number of entities, what is sent to partition `i`, the number of messages
from a partition, whether the messages for partition `i` are too long for the array (`max` is the largest
number of entities on a partition), and what is done with the messages. -/
structure Stage where
  num : Nat
  ghosts : Nat → Bool
  overlaps : Nat → Bool
  out : Nat → List CMsg
  nmsg : Nat
  over : Nat → Nat → Bool
  step : List CMsg → Bool → Res Bool

/-- `MESH_Parallel_Check_VertexGlobalID`, MESH_Parallel_Check.c:71-312.  `MPI_Recv` takes at most `3*nv`
numbers (138 and 141) and ends the program when there are more. -/
def vertStage (me : Nat) (m : CMesh) : Stage where
  num := m.verts.length
  ghosts := m.ghosts 0
  overlaps := m.overlaps 0
  out i := [.ints (vertInts m.verts i), .coors (vertCoors m.verts i)]
  nmsg := 2
  over _ _ := false
  step
    | [.ints l, .coors x], v =>
      if 3 * m.verts.length < l.length ∨ m.verts.length < x.length then .fatal
      else checkVerts me m.verts l x v
    | _, _ => .ub

/-- `MESH_Parallel_Check_EdgeGlobalID`, MESH_Parallel_Check.c:315-538; `MPI_Recv` takes at most `5*ne`
numbers (377). -/
def edgeStage (me : Nat) (m : CMesh) : Stage where
  num := m.edges.length
  ghosts := m.ghosts 1
  overlaps := m.overlaps 1
  out i := [.ints (edgeInts m.edges i)]
  nmsg := 1
  over _ _ := false
  step
    | [.ints l], v => if 5 * m.edges.length < l.length then .fatal else checkEdges me m.edges l v
    | _, _ => .ub

/-- `MESH_Parallel_Check_FaceGlobalID`, MESH_Parallel_Check.c:541-792, and
`MESH_Parallel_Check_RegionGlobalID`, 794-1018: arrays for `(MAXPV3+4)*max_nf` numbers (620-621), and
`MPI_Recv` takes at most `(MAXPV3+4)*nf` (626). -/
def cellStage (unknown : Bool) (cap : Nat) (me : Nat) (cs : List CCell) (ghosts overlaps : Nat → Bool) : Stage where
  num := cs.length
  ghosts := ghosts
  overlaps := overlaps
  out i := [.ints (cellInts cs i)]
  nmsg := 1
  over max i := decide ((cap + 4) * max < (cellInts cs i).length)
  step
    | [.ints l], v =>
      if (cap + 4) * cs.length < l.length then .fatal else checkCells unknown me cs (l.length + 1) l v
    | _, _ => .ub

/-- `max_nv`, MESH_Parallel_Check.c:121-124 -/
def maxNum (own : Nat) : List (List CMsg) → Nat
  | [] => own
  | [.count c] :: r => maxNum (if own < c then c else own) r
  | _ :: r => maxNum own r

/-- the messages were processed: go on, or stop here -/
def goOn {M : Type} (r : Res Bool) (k : Bool → Proc M (Res Bool)) : Proc M (Res Bool) :=
  match r with
  | .ok v => k v
  | .ub => .ret .ub
  | .fatal => .ret .fatal
  | .hang => .ret .hang

/-- a message that is too long for the array is not written -/
def sendList (S : Stage) (max i : Nat) (k : Proc CMsg (Res Bool)) : Proc CMsg (Res Bool) :=
  if S.ghosts i then if S.over max i then .ret .ub else sendAll i (S.out i) k else k

/-- The loop over the partitions, MESH_Parallel_Check.c:134-303, 373-531, 622-785 and 852-1011. -/
def checkLoop (S : Stage) (me max : Nat) : List Nat → Bool → (Bool → Proc CMsg (Res Bool)) → Proc CMsg (Res Bool)
  | [], v, k => k v
  | i :: r, v, k =>
    if i = me then checkLoop S me max r v k
    else if i < me then
      if S.overlaps i then
        recvN i S.nmsg fun l => goOn (S.step l v) fun v => sendList S max i (checkLoop S me max r v k)
      else sendList S max i (checkLoop S me max r v k)
    else sendList S max i
      (if S.overlaps i then recvN i S.nmsg fun l => goOn (S.step l v) fun v => checkLoop S me max r v k
      else checkLoop S me max r v k)

/-- One check: `MPI_Allgather`, from which a process does not return before it has the numbers of all
others (here each pair of processes exchanges them), and the loop. -/
def runStage (n me : Nat) (S : Stage) (k : Bool → Proc CMsg (Res Bool)) : Proc CMsg (Res Bool) :=
  rounds me (fun _ => [.count S.num]) (fun _ => 1) (List.range n) (fun _ => []) fun got =>
    checkLoop S me (maxNum S.num ((List.range n).map got)) (List.range n) true k

/-- `MESH_Parallel_Check_GlobalID`, MESH_Parallel_Check.c:59-69. -/
def checkGlobal (n me : Nat) (m : CMesh) : Proc CMsg (Res Bool) :=
  runStage n me (vertStage me m) fun v =>
  runStage n me (edgeStage me m) fun e =>
  runStage n me (cellStage true maxPV3 me m.faces (m.ghosts 2) (m.overlaps 2)) fun f =>
  if m.regions.length ≠ 0 then
    runStage n me (cellStage false maxPF3 me m.regions (m.ghosts 3) (m.overlaps 3)) fun r =>
    .ret (.ok (v && e && f && r))
  else .ret (.ok (v && e && f))

/-- `MESH_Parallel_Check` on partition `me` of `n`, MESH_Parallel_Check.c:28-52. -/
def parallelCheck (n me : Nat) (m : CMesh) : Proc CMsg (Res Bool) :=
  if n = 1 then .ret (.ok true)
  else if checkGhost me m then checkGlobal n me m else .ret (.ok false)

end MSTK.Par
