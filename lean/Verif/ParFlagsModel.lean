import Verif.Res
/-!
Model of the per-partition adjacency flags and receive counts of a mesh: src/base/Mesh.c:1175-1406,
built with MPI.  `unsigned int` flag words are 32-bit; receive counts are natural numbers (a count
beyond 2^32 is not representable in the C argument either).
-/
namespace MSTK.Par

/-- The fields of `Mesh` used here (include/Mesh.h:33-36): `mypartn`, `numpartns`, `par_adj_flags`,
`par_recv_info` (`none` = NULL). -/
structure Info where
  me : Nat
  n : Nat
  flags : Option (List (BitVec 32))
  recv : Option (List Nat)
  deriving DecidableEq

/-- `MESH_New`, Mesh.c:39-51. -/
def new : Info := ⟨0, 0, none, none⟩

/-- `MESH_Set_Prtn`, Mesh.c:1175-1182: the flag array is allocated by the first call only. -/
def setPrtn (s : Info) (p n : Nat) : Info :=
  ⟨p, n, (match s.flags with | none => some (List.replicate n 0) | some f => some f), s.recv⟩

/-- `mesh->par_adj_flags[p] |= 1<<k` -/
def orBit (fl : List (BitVec 32)) (p k : Nat) : Res (List (BitVec 32)) :=
  match fl[p]? with
  | none => .ub
  | some w => .ok (fl.set p (w ||| (1#32 <<< k)))

/-- The shared body of the two flag setters: `off` is 0 for ghosts, 1 for overlaps
(Mesh.c:1212-1222 and 1263-1273). Types: MVERTEX..MREGION = 0..3, MUNKNOWNTYPE = 4, MALLTYPE = 5,
MANYTYPE = 6; MDELETED = -1 shifts by a negative amount. -/
def setFlag (off : Nat) (s : Info) (p : Nat) (t : Int) : Res Info :=
  if t = 4 ∨ t = 6 then .ok s
  else match s.flags with
    | none => .ub
    | some fl =>
      if t = 5 then do
        let fl ← orBit fl p off
        let fl ← orBit fl p (2 + off)
        let fl ← orBit fl p (4 + off)
        let fl ← orBit fl p (6 + off)
        return ⟨s.me, s.n, some fl, s.recv⟩
      else if t < 0 ∨ 32 ≤ 2 * t + off then .ub
      else do
        let fl ← orBit fl p (2 * t.toNat + off)
        return ⟨s.me, s.n, some fl, s.recv⟩

/-- `MESH_Flag_Has_Ghosts_From_Prtn`, Mesh.c:1202-1224: a partition has no ghosts from itself. -/
def flagGhosts (s : Info) (p : Nat) (t : Int) : Res Info :=
  if p = s.me then .ok s else setFlag 0 s p t

/-- `MESH_Flag_Has_Overlaps_On_Prtn`, Mesh.c:1254-1274. -/
def flagOverlaps (s : Info) (p : Nat) (t : Int) : Res Info := setFlag 1 s p t

/-- `flags[p]>>k & 1` -/
def bit (w : BitVec 32) (k : Nat) : BitVec 32 := (w >>> k) &&& 1#32

/-- The shared body of the two flag readers (Mesh.c:1233-1249 and 1283-1299). -/
def getFlag (off : Nat) (s : Info) (p : Nat) (t : Int) : Res (BitVec 32) :=
  if t = 4 then .ok 0
  else match s.flags with
    | none => .ok 0
    | some fl =>
      match fl[p]? with
      | none => .ub
      | some w =>
        if t = 6 then .ok (bit w off ||| bit w (2+off) ||| bit w (4+off) ||| bit w (6+off))
        else if t = 5 then .ok (bit w off &&& bit w (2+off) &&& bit w (4+off) &&& bit w (6+off))
        else if t < 0 ∨ 32 ≤ 2 * t + off then .ub
        else .ok (bit w (2 * t.toNat + off))

/-- `MESH_Has_Ghosts_From_Prtn`, Mesh.c:1226-1252. -/
def hasGhosts (s : Info) (p : Nat) (t : Int) : Res (BitVec 32) := getFlag 0 s p t
/-- `MESH_Has_Overlaps_On_Prtn`, Mesh.c:1276-1302. -/
def hasOverlaps (s : Info) (p : Nat) (t : Int) : Res (BitVec 32) := getFlag 1 s p t

/-- The scan of Mesh.c:1327-1341: partitions `i < n` with a ghost of any type, in order. -/
def ghostParts (s : Info) : List Nat → Res (List Nat)
  | [] => .ok []
  | i :: rest => do
    let b ← hasGhosts s i 6
    let r ← ghostParts s rest
    return if b ≠ 0 then i :: r else r

/-- `MESH_Init_Par_Recv_Info`, Mesh.c:1317-1342: `[count, partitions..., 4*count zeros]`. -/
def initRecv (s : Info) : Res Info := do
  let ps ← ghostParts s (List.range s.n)
  return ⟨s.me, s.n, s.flags, some (ps.length :: (ps ++ List.replicate (4 * ps.length) 0))⟩

/-- The search `for (i < ghnum) if (info[1+i] == prtn)` (Mesh.c:1358-1364, 1390-1396): the index
found; the outer result is an access outside the array. -/
def findPart (a : List Nat) (p : Nat) : Nat → Nat → Res (Option Nat)
  | 0, _ => .ok none
  | cnt+1, i =>
    match a[1+i]? with
    | none => .ub
    | some q => if q = p then .ok (some i) else findPart a p cnt (i+1)

/-- `if (!mesh->par_recv_info) MESH_Init_Par_Recv_Info(mesh)`, Mesh.c:1347-1348, 1306. -/
def ensureRecv (s : Info) : Res Info :=
  match s.recv with
  | none => initRecv s
  | some _ => .ok s

/-- `MESH_Set_Num_Recv_From_Prtn`, Mesh.c:1344-1373 (an unknown partition or type is reported and
ignored). -/
def setNumRecv (s : Info) (p : Nat) (t : Int) (v : Nat) : Res Info := do
  let s ← ensureRecv s
  if t < 0 ∨ 3 < t then return s
  else match s.recv with
    | none => .ub
    | some a =>
      match a[0]? with
      | none => .ub
      | some gh => do
        match ← findPart a p gh 0 with
        | none => return s
        | some i =>
          if 1 + gh + 4*i + t.toNat < a.length then
            return ⟨s.me, s.n, s.flags, some (a.set (1 + gh + 4*i + t.toNat) v)⟩
          else .ub

/-- `MESH_Num_Recv_From_Prtn`, Mesh.c:1375-1406. -/
def numRecv (s : Info) (p : Nat) (t : Int) : Res Nat :=
  if t < 0 ∨ 3 < t then .ok 0
  else match s.recv with
    | none => .fatal
    | some a =>
      if p = s.me then .ok 0
      else match a[0]? with
        | none => .ub
        | some gh => do
          match ← findPart a p gh 0 with
          | none => return 0
          | some i => Res.ofOption (a[1 + gh + 4*i + t.toNat]?)

/-- `MESH_Num_GhostPrtns` followed by `MESH_GhostPrtns`, Mesh.c:1305-1315. -/
def ghostPrtns (s : Info) : Res (List Nat) := do
  let s ← ensureRecv s
  match s.recv with
  | none => .ub
  | some a =>
    match a[0]? with
    | none => .ub
    | some gh => if 1 + gh ≤ a.length then return (a.drop 1).take gh else .ub

end MSTK.Par
