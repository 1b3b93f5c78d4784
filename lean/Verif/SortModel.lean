import Verif.Res
/-!
Model of `src/util/mstk_quicksort.c`.  Arrays are lists of integers; an index outside the array is
undefined behaviour.  Simplification: indices and values are unbounded integers (the C code only
forms indices between `i_beg-1` and `i_end+1`, and only compares values).
-/
namespace MSTK

/-- read of an array cell -/
def rdA (A : List Int) (i : Int) : Res Int :=
  if 0 ≤ i then Res.ofOption A[i.toNat]? else .ub

/-- write of an array cell -/
def wrA (A : List Int) (i : Int) (v : Int) : Res (List Int) :=
  if 0 ≤ i ∧ i.toNat < A.length then .ok (A.set i.toNat v) else .ub

/-- `tmp = A[i]; A[i] = A[j]; A[j] = tmp;` -/
def swapA (A : List Int) (i j : Int) : Res (List Int) := do
  let tmp ← rdA A i
  let aj ← rdA A j
  let A ← wrA A i aj
  wrA A j tmp

/-- `key ? key[A[i]] : A[i]` (mstk_quicksort.c:109 and the duplicated branches); `key` is the optional
auxiliary array. -/
def keyAtA (key : Option (List Int)) (A : List Int) (i : Int) : Res Int := do
  let a ← rdA A i
  match key with
  | none => pure a
  | some k => rdA k a

/-- the loop of `mstk_quicksort_partition`, mstk_quicksort.c:120-139; `n` iterations remain. -/
def partLoop (key : Option (List Int)) (val_pivot : Int) :
    Nat → List Int → Int → Int → Res (List Int × Int)
  | 0, A, _, i_store => .ok (A, i_store)
  | n+1, A, i, i_store => do
    let v ← keyAtA key A i
    if v < val_pivot then do
      let A ← swapA A i i_store
      partLoop key val_pivot n A (i+1) (i_store+1)
    else partLoop key val_pivot n A (i+1) i_store

/-- `mstk_quicksort_partition`, mstk_quicksort.c:104-148. -/
def partition (A : List Int) (key : Option (List Int)) (i_beg i_end i_pivot : Int) :
    Res (List Int × Int) := do
  let val_pivot ← keyAtA key A i_pivot
  let A ← swapA A i_end i_pivot
  let (A, i_store) ← partLoop key val_pivot (i_end - i_beg).toNat A i_beg i_beg
  let A ← swapA A i_store i_end
  pure (A, i_store)

/-- `mstk_quicksort`, mstk_quicksort.c:46-88; `fuel` bounds the recursion depth (the property theorem
shows `i_end - i_beg + 2` always suffices). -/
def quicksort (key : Option (List Int)) : Nat → List Int → Int → Int → Res (List Int)
  | 0, _, _, _ => .hang
  | fuel+1, A, i_beg, i_end =>
    let n := i_end - i_beg + 1
    if n ≤ 1 then .ok A
    else if n = 2 then do
      let a ← keyAtA key A i_beg
      let b ← keyAtA key A i_end
      if a > b then swapA A i_beg i_end else pure A
    else do
      let (A, p) ← partition A key i_beg i_end (i_beg + n / 2)
      let nlo := p - i_beg + 1
      let nhi := i_end - p
      if nlo < nhi then do
        let A ← quicksort key fuel A i_beg (p-1)
        quicksort key fuel A (p+1) i_end
      else do
        let A ← quicksort key fuel A (p+1) i_end
        quicksort key fuel A i_beg (p-1)

end MSTK
