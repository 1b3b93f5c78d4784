import Verif.Res
/-! Models of `src/util/MSTK_Report.c` and of the packed counters of lists and hash tables. -/
namespace MSTK

/-! ### MSTK_Report -/

inductive ErrType where
  | mesg | warn | error | fatal
  deriving DecidableEq

/-- What a call of `MSTK_Report` does. -/
inductive ReportOutcome where
  | returned | exited
  deriving DecidableEq

/-- `MSTK_Report`, MSTK_Report.c:18-44: state is the static buffer `last_message[1024]` (initially empty).
Copying a message of 1024 or more characters overruns it. -/
def report (last : List Char) (msg : List Char) (t : ErrType) : Res (List Char × ReportOutcome) :=
  if last = msg then .ok (last, .returned)
  else if msg.length < 1024 then
    match t with
    | .fatal => .ok (msg, .exited)
    | _ => .ok (msg, .returned)
  else .ub

/-! ### MSet names -/

/-- `MSet_New`, MSet.c:41-42: a name buffer of `strlen+1` bytes; state: capacity and current name. -/
def setNameNew (name : List Char) : Nat × List Char := (name.length + 1, name)

/-- `MSet_Rename`, MSet.c:61-63: `strcpy` into the buffer allocated for the first name. -/
def setRename (b : Nat × List Char) (name : List Char) : Res (Nat × List Char) :=
  if name.length + 1 ≤ b.1 then .ok (b.1, name) else .ub

/-! ### packed counters -/

/-- `pvtList_Set_Pars` (the `nentdat` word), List.c:94. -/
def listPack (nent p : BitVec 32) : BitVec 32 := (nent <<< 5) ||| p
/-- `pvtList_Get_Pars` / `pvtList_Get_Nent`, List.c:77-83: `nentdat` is unsigned. -/
def listNent (d : BitVec 32) : BitVec 32 := d >>> 5
/-- `*p = l->nentdat & 31`, List.c:78. -/
def listP (d : BitVec 32) : BitVec 32 := d &&& 31#32

/-- `pvtHash_Set_Pars`, Hash.c:66-74. -/
def hashPack (nent p : BitVec 32) (t : Bool) : BitVec 32 :=
  (nent <<< 6) ||| ((if t then 1#32 else 0#32) <<< 5) ||| p
/-- the count read by `pvtHash_Get_Pars`, Hash.c:36-44: through the *signed* variable `int d`, so the shifts are
arithmetic. -/
def hashNentPars (d : BitVec 32) : BitVec 32 := (d.sshiftRight 5).sshiftRight 1
/-- the count read by `pvtHash_Get_Nent`, Hash.c:46-48 (unsigned shift). -/
def hashNent (d : BitVec 32) : BitVec 32 := d >>> 6
def hashP (d : BitVec 32) : BitVec 32 := d &&& 31#32
def hashT (d : BitVec 32) : Bool := ((d.sshiftRight 5) &&& 1#32) == 1#32

end MSTK
