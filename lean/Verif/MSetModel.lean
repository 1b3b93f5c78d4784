import Verif.Res
/-!
Model of the set operations of `src/base/MSet.c`.  The entry list of a mesh set is a Lean list (C01);
`marks m e` tells whether entity `e` carries the mark of marker `m` (C14).  Both builds are modelled: with
`MSTK_USE_MARKERS` (functions `…M`) and without.  Names and the registration of the new set in the mesh are
not modelled.
-/
namespace MSTK
namespace MSetM
variable {E : Type} [DecidableEq E]

abbrev Marks (E : Type) := Nat → E → Bool

/-- `MEnt_Mark` / `MEnt_Unmark` -/
def setMark (mk : Marks E) (m : Nat) (e : E) (b : Bool) : Marks E :=
  fun m' e' => if m' = m ∧ e' = e then b else mk m' e'

/-- `MSet_Mark` / `MSet_Unmark`, MSet.c:372-391. -/
def markAll (mk : Marks E) (m : Nat) (b : Bool) (s : List E) : Marks E :=
  s.foldl (fun mk e => setMark mk m e b) mk

/-- loop of `MSets_Union`, MSet.c:203-217, marker build -/
def unionLoopM (m : Nat) : List E → List E → Marks E → List E × Marks E
  | [], new, mk => (new, mk)
  | e :: s2, new, mk =>
    if mk m e then unionLoopM m s2 new mk
    else unionLoopM m s2 (new ++ [e]) (setMark mk m e true)

/-- `MSets_Union`, MSet.c:160-225, marker build; `m` is the marker obtained. -/
def unionM (m : Nat) (mk : Marks E) (s1 s2 : List E) : List E × Marks E :=
  let mk := markAll mk m true s1
  let r := unionLoopM m s2 s1 mk
  (r.1, markAll r.2 m false r.1)

/-- `MSets_Union` without markers -/
def union : List E → List E → List E
  | new, [] => new
  | new, e :: s2 => if e ∈ new then union new s2 else union (new ++ [e]) s2

/-- NULL for an empty result, MSet.c:301-304, 360-363. -/
def orNull (l : List E) : Option (List E) := if l.length = 0 then none else some l

/-- `MSets_Intersect`, MSet.c:230-307, marker build; `m1`, `m2` are the markers obtained. -/
def intersectM (m1 m2 : Nat) (mk : Marks E) (s1 s2 : List E) : Option (List E) × Marks E :=
  let mk := markAll mk m1 true s1
  let mk := markAll mk m2 true s2
  let sa := if s1.length < s2.length then s1 else s2
  let new := sa.filter (fun e => mk m1 e && mk m2 e)
  (orNull new, markAll (markAll mk m1 false s1) m2 false s2)

/-- `MSets_Intersect` without markers -/
def intersect (s1 s2 : List E) : Option (List E) :=
  let sa := if s1.length < s2.length then s1 else s2
  orNull (sa.filter (fun e => decide (e ∈ s1) && decide (e ∈ s2)))

/-- `MSets_Subtract`, MSet.c:312-369, marker build -/
def subtractM (m : Nat) (mk : Marks E) (s1 s2 : List E) : Option (List E) × Marks E :=
  let mk := markAll mk m true s2
  let new := s1.filter (fun e => !mk m e)
  (orNull new, markAll mk m false s2)

/-- `MSets_Subtract` without markers -/
def subtract (s1 s2 : List E) : Option (List E) := orNull (s1.filter (fun e => !decide (e ∈ s2)))

/-- heap objects relevant here: a set holds the address of its entry list -/
inductive Obj (E : Type) where
  | set (entlist : Nat)
  | list (entries : List E)
  deriving DecidableEq

abbrev Heap (E : Type) := Nat → Option (Obj E)

/-- `MSet_Add` (and likewise `MSet_ChknAdd`, `MSet_Insert`, `MSet_Inserti`), MSet.c:80-95: `s` must point to a set; the
entry is added to its list (`List_Add`, which returns its argument), and that `List_ptr` is returned as the
`MSet_ptr`. -/
def add (h : Heap E) (s : Nat) (e : E) : Res (Heap E × Nat) :=
  match h s with
  | some (.set l) =>
    match h l with
    | some (.list c) => .ok (fun a => if a = l then some (.list (c ++ [e])) else h a, l)
    | _ => .ub
  | _ => .ub

end MSetM
end MSTK
