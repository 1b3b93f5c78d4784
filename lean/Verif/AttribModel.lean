import Verif.Res
/-!
Model of attributes: `src/base/MAttrib.c` and the attribute part of `src/base/MEntity.c` (305-640).

An attribute handle is a number `a`; `ty a` and `nc a` are its type and number of components
(`MAttrib_New`, MAttrib.c:23-81; immutable afterwards).  The list of attribute instances of an entity is a
Lean list (justified by C01/C04).  Doubles are an arbitrary type `D` with a zero.
-/
namespace MSTK

/-- `MAttType`, MSTK_types.h. -/
inductive AttType where
  | int | double | pointer | vector | tensor
  deriving DecidableEq

/-- a `void *` argument or result: NULL, an opaque address, or the address of an array of doubles (of
which only the contents matter here) -/
inductive PVal (D : Type) where
  | null
  | addr (n : Nat)
  | buf (l : List D)
  deriving DecidableEq

/-- the union `att_val` together with which member was written last -/
inductive AttCell (D : Type) where
  | ival (i : Int)
  | lval (d : D)
  | pval (p : PVal D)

/-- `MAttIns` -/
structure AttIns (D : Type) where
  attrib : Nat
  val : AttCell D

namespace Att
variable {D : Type} (ty : Nat → AttType) (nc : Nat → Nat)

/-- the `malloc` and `memcpy(copy, pval, ncomp*sizeof(double))` of MAttrib.c:155-173: reading from NULL or
beyond the caller's array is undefined behaviour.  (The previous copy is leaked, not freed.) -/
def copyVec (n : Nat) : PVal D → Res (PVal D)
  | .buf l => if n ≤ l.length then .ok (.buf (l.take n)) else .ub
  | .null => .ub
  | .addr _ => .ub

/-- `MAttIns_Set_Value`, MAttrib.c:142-180. -/
def setValue (a : Nat) (i : Int) (l : D) (p : PVal D) : Res (AttCell D) :=
  match ty a with
  | .int => .ok (.ival i)
  | .double => .ok (.lval l)
  | .vector => do let c ← copyVec (nc a) p; pure (.pval c)
  | .tensor => do let c ← copyVec (nc a) p; pure (.pval c)
  | .pointer => .ok (.pval p)

/-- `MEnt_Set_AttVal`, MEntity.c:306-344: the instance is searched, created at the end of the list (its value
NULL, MAttrib.c:126-136) when missing, then written. -/
def set (ins : List (AttIns D)) (a : Nat) (i : Int) (l : D) (p : PVal D) : Res (List (AttIns D)) := do
  let v ← setValue ty nc a i l p
  match ins.findIdx? (fun x => x.attrib = a) with
  | some k => pure (ins.set k ⟨a, v⟩)
  | none => pure (ins ++ [⟨a, v⟩])

/-- reading a union member other than the one written last is not modelled (it cannot happen: the type of
an attribute is fixed) and counts as undefined behaviour.  `MAttIns_Get_Value`, MAttrib.c:182-201. -/
def getValue (zero : D) (x : AttIns D) : Res (Int × D × PVal D) :=
  match ty x.attrib, x.val with
  | .int, .ival i => .ok (i, zero, .null)
  | .double, .lval l => .ok (0, l, .null)
  | .vector, .pval p => .ok (0, zero, p)
  | .tensor, .pval p => .ok (0, zero, p)
  | .pointer, .pval p => .ok (0, zero, p)
  | _, _ => .ub

/-- `MEnt_Get_AttVal`, MEntity.c:409-449: status and the three outputs. -/
def get (zero : D) (ins : List (AttIns D)) (a : Nat) : Res (Bool × Int × D × PVal D) :=
  match ins.find? (fun x => x.attrib = a) with
  | none => .ok (false, 0, zero, .null)
  | some x => do
    let r ← getValue ty zero x
    pure (true, r)

/-- `MEnt_Rem_AttVal`, MEntity.c:540-577. -/
def rem (ins : List (AttIns D)) (a : Nat) : List (AttIns D) :=
  match ins.findIdx? (fun x => x.attrib = a) with
  | some k => ins.eraseIdx k
  | none => ins

/-- `MEnt_Clear_AttVal`, MEntity.c:579-611. -/
def clear (zero : D) (ins : List (AttIns D)) (a : Nat) : Res (List (AttIns D)) :=
  match ins.findIdx? (fun x => x.attrib = a) with
  | some k => do
    let v ← setValue ty nc a 0 zero .null
    pure (ins.set k ⟨a, v⟩)
  | none => .ok ins

end Att
end MSTK
