import Verif.BitField
import Verif.Res
/-!
Model of the entity header: `include/MEntity.h:21-54` and its accessors in `src/base/MEntity.c`
(MPI build), and of the marker allocator in `src/base/MSTK.c`.
-/
namespace MSTK

/-- `MEntity_Data` (MEntity.h:21-54) without the mesh and attribute list pointers: the three words of
bit fields, the marker word and the global ID. -/
structure Hdr where
  w1 : BitVec 32      -- deleted:1 temporary:1 dim:3 id:27
  w2 : BitVec 32      -- rtype:3 gdim:3 gid:26
  marker : BitVec 32
  w3 : BitVec 32      -- ptype:2 parbdry:1 masterparid:29
  globalid : BitVec 32

namespace Hdr

/-- `MEnt_Init_CmnData`, MEntity.c:27-61 (MUNKNOWNTYPE = 4, UNKNOWN_REP = 5). The words of the freshly
allocated struct start with arbitrary contents `g`. -/
def init (g : Hdr) : Hdr :=
  let w1 := setField g.w1 0 1 0
  let w1 := setField w1 1 1 0
  let w1 := setField w1 2 3 4
  let w1 := setField w1 5 27 0
  let w2 := setField g.w2 0 3 5
  let w2 := setField w2 3 3 4
  let w2 := setField w2 6 26 0
  let w3 := setField g.w3 0 2 0
  let w3 := setField w3 2 1 0
  let w3 := setField w3 3 29 0
  { w1 := w1, w2 := w2, marker := 0, w3 := w3, globalid := 0 }

/-- an `int` argument stored in an unsigned member -/
def ofI (x : Int) : BitVec 32 := BitVec.ofInt 32 x

/-- `MEnt_Set_Dim`, MEntity.c:87-92 (MDELETED = -1). -/
def setDim (h : Hdr) (d : Int) : Hdr :=
  if d = -1 then { h with w1 := setField h.w1 0 1 1 } else { h with w1 := setField h.w1 2 3 (ofI d) }
/-- `MEnt_Dim`, MEntity.c:94-96. -/
def dim (h : Hdr) : Int :=
  if (getField h.w1 0 1).toNat ≠ 0 then -1 else (getField h.w1 2 3).toNat
/-- `MEnt_OrigDim`, MEntity.c:106-113. -/
def origDim (h : Hdr) : Int := (getField h.w1 2 3).toNat
/-- `MEnt_Set_Volatile`, MEntity.c:98-100. -/
def setVolatile (h : Hdr) : Hdr := { h with w1 := setField h.w1 1 1 1 }
/-- `MEnt_IsVolatile`, MEntity.c:102-104. -/
def isVolatile (h : Hdr) : Bool := (getField h.w1 1 1).toNat ≠ 0
/-- `MEnt_Set_ID`, MEntity.c:119-137 (the flagging of the mesh lists is in the mesh model). -/
def setID (h : Hdr) (i : Int) : Hdr := { h with w1 := setField h.w1 5 27 (ofI i) }
/-- `MEnt_ID`, MEntity.c:140-142. -/
def id (h : Hdr) : Int := (getField h.w1 5 27).toNat
/-- `MEnt_Set_RepType_Data`, MEntity.c:147-149. -/
def setRep (h : Hdr) (r : Int) : Hdr := { h with w2 := setField h.w2 0 3 (ofI r) }
/-- `MEnt_RepType`, MEntity.c:170-172. -/
def rep (h : Hdr) : Int := (getField h.w2 0 3).toNat
/-- `MEnt_Set_GEntDim`, MEntity.c:178-180. -/
def setGDim (h : Hdr) (d : Int) : Hdr := { h with w2 := setField h.w2 3 3 (ofI d) }
/-- `MEnt_GEntDim`, MEntity.c:183-185. -/
def gdim (h : Hdr) : Int := (getField h.w2 3 3).toNat
/-- `MEnt_Set_GEntID`, MEntity.c:190-192. -/
def setGID (h : Hdr) (i : Int) : Hdr := { h with w2 := setField h.w2 6 26 (ofI i) }
/-- `MEnt_GEntID`, MEntity.c:194-196. -/
def gid (h : Hdr) : Int := (getField h.w2 6 26).toNat
/-- `MEnt_Set_DelFlag`, MEntity.c:218-220. -/
def setDel (h : Hdr) : Hdr := { h with w1 := setField h.w1 0 1 1 }
/-- `MEnt_Rem_DelFlag`, MEntity.c:224-226. -/
def remDel (h : Hdr) : Hdr := { h with w1 := setField h.w1 0 1 0 }
/-- `MEnt_Set_PType`, MEntity.c:750-752. -/
def setPType (h : Hdr) (p : Int) : Hdr := { h with w3 := setField h.w3 0 2 (ofI p) }
/-- `MEnt_PType`, MEntity.c:724-730. -/
def ptype (h : Hdr) : Int := (getField h.w3 0 2).toNat
/-- `MEnt_Flag_OnParBoundary` / `MEnt_Unflag_OnParBoundary`, MEntity.c:754-760. -/
def setParBdry (h : Hdr) (b : Bool) : Hdr := { h with w3 := setField h.w3 2 1 (if b then 1 else 0) }
/-- `MEnt_OnParBoundary`, MEntity.c:732-738. -/
def parBdry (h : Hdr) : Bool := (getField h.w3 2 1).toNat ≠ 0
/-- `MEnt_Set_MasterParID`, MEntity.c:762-764. -/
def setMaster (h : Hdr) (m : Int) : Hdr := { h with w3 := setField h.w3 3 29 (ofI m) }
/-- `MEnt_MasterParID`, MEntity.c:740-746. -/
def master (h : Hdr) : Int := (getField h.w3 3 29).toNat
/-- `MEnt_Set_GlobalID`, MEntity.c:766-768. -/
def setGlobal (h : Hdr) (g : Int) : Hdr := { h with globalid := ofI g }
/-- `MEnt_GlobalID`, MEntity.c:714-720 (unsigned member returned as `int`). -/
def globalID (h : Hdr) : Int := h.globalid.toInt

/-- `1<<(markerID-1)`: an over-wide or negative shift is undefined behaviour.  (`1<<31` on a 32-bit `int` is
accepted as giving the top bit, as every supported compiler does.) -/
def markBit (m : Int) : Res (BitVec 32) :=
  if 1 ≤ m ∧ m ≤ 32 then .ok (1#32 <<< (m - 1).toNat) else .ub
/-- `MEnt_IsMarked`, MEntity.c:256-258. -/
def isMarked (h : Hdr) (m : Int) : Res Bool := do
  let b ← markBit m
  pure ((h.marker &&& b) != 0#32)
/-- `MEnt_Mark`, MEntity.c:260-277. -/
def mark (h : Hdr) (m : Int) : Res Hdr := do
  let b ← markBit m
  pure { h with marker := h.marker ||| b }
/-- `MEnt_Unmark`, MEntity.c:279-296. -/
def unmark (h : Hdr) (m : Int) : Res Hdr := do
  let b ← markBit m
  pure { h with marker := h.marker &&& ~~~b }

end Hdr

/-! Marker allocation -/

/-- the globals `MSTK_marker` and `MSTK_lastbit`, MSTK.c:78-80 -/
structure MarkAlloc where
  bits : BitVec 32
  lastbit : Int
  deriving DecidableEq

namespace MarkAlloc

/-- initial values, MSTK.c:78-80 -/
def init : MarkAlloc := { bits := 0, lastbit := -1 }

/-- the search loop of `MSTK_GetMarker`, MSTK.c:97-106: first clear bit at or after `i` -/
def firstFree (w : BitVec 32) : Nat → Nat → Option Nat
  | 0, _ => none
  | n+1, i => if w.getLsbD i then firstFree w n (i+1) else some i

/-- `MSTK_GetMarker`, MSTK.c:83-113 (the mutex makes each call atomic). -/
def get (s : MarkAlloc) : Res (MarkAlloc × Int) :=
  if s.lastbit < 31 then
    let lb := s.lastbit + 1
    if lb < 0 then .ub
    else .ok ({ bits := s.bits ||| (1#32 <<< lb.toNat), lastbit := lb }, lb + 1)
  else match firstFree s.bits 32 0 with
    | some i => .ok ({ s with bits := s.bits ||| (1#32 <<< i) }, i + 1)
    | none => .fatal

/-- the loop of `MSTK_FreeMarker`, MSTK.c:134-140: index of the last set bit among the first `n`, or -1 -/
def lastSet (w : BitVec 32) : Nat → Int
  | 0 => -1
  | n+1 => if w.getLsbD n then n else lastSet w n

/-- `MSTK_FreeMarker`, MSTK.c:115-144.  `powm1 k` is the value of the `int` expression `(int) pow(2,k)-1`
converted to unsigned; for k ≥ 31 the conversion is undefined in C, so it is a parameter. -/
def free (powm1 : Nat → BitVec 32) (s : MarkAlloc) (mkr : Int) : Res MarkAlloc :=
  if 1 ≤ mkr ∧ mkr ≤ 32 then
    let bits := s.bits &&& ~~~(1#32 <<< (mkr - 1).toNat)
    let lb := if mkr - 1 = s.lastbit then s.lastbit - 1 else s.lastbit
    .ok { bits := bits, lastbit := if bits ≠ powm1 (lb + 1).toNat then lastSet bits 32 else lb }
  else .ub

end MarkAlloc
end MSTK
