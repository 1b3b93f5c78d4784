import Verif.Res
/-!
Model of `src/util/List.c` (the `List_ptr` container).

A list is an array of `void *` with room for `2^p - 1` pointers, of which the first
`nent + nrem` are in use; removed entries are overwritten by NULL and counted in `nrem`;
`rem1` is the raw index of the first removed entry (`-1` if there is none).

`slots` holds the initialised prefix of the array (`none` = NULL).  Reading at or past
`slots.length`, or writing at or past the capacity, is undefined behaviour.  Writing must
happen inside the initialised prefix or exactly at its end (no operation of List.c does
anything else; anything else is reported as `ub`).

Simplifications: the packed words `nentdat`/`remdat` (List.c:67-105) are kept unpacked
here; the packing itself is modelled in `MiscModel.lean`.  `malloc`/`realloc` never fail.
Indices are `Nat` (callers never pass negative indices).
-/
namespace MSTK

/-- The header and storage of a list: include/List.h, List.c:28-32 and 61-65. -/
structure CList (α : Type) where
  nent : Nat
  p    : Nat
  nrem : Nat
  rem1 : Int
  slots : List (Option α)
  deriving DecidableEq, Repr

namespace CList
variable {α : Type}

/-- number of allocated slots, `(1<<p)-1` (List.c:121, 145, 358 ...). -/
def cap (l : CList α) : Nat := 2 ^ l.p - 1

/-- `ntot = nent + nrem` (List.c:146, 174, 193, ...). -/
def ntot (l : CList α) : Nat := l.nent + l.nrem

/-- `pvtList_Set_Pars`, List.c:86-105.  When `nrem` becomes 0 the `remdat` record is freed and
later reads give `nrem = 0, rem1 = -1` (List.c:69-76). -/
def setPars (l : CList α) (nent p nrem : Nat) (rem1 : Int) : CList α :=
  if nrem = 0 then { l with nent := nent, p := p, nrem := 0, rem1 := -1 }
  else { l with nent := nent, p := p, nrem := nrem, rem1 := rem1 }

/-- read `l->entry[i]`. -/
def rd (l : CList α) (i : Nat) : Res (Option α) :=
  if i < l.cap then Res.ofOption l.slots[i]? else .ub

/-- write `l->entry[i] = x` in storage of `2^p-1` slots. -/
def wr (l : CList α) (i : Nat) (x : Option α) : Res (CList α) :=
  if i < l.cap ∧ i ≤ l.slots.length then
    .ok { l with slots := l.slots.take i ++ x :: l.slots.drop (i+1) }
  else .ub

/-- least `q ≥ p` with `2^q > n`: the loops at List.c:112-117 and 959-962.
The loop runs at most `n+1` more steps as `2^q > q`. -/
def growTo (n : Nat) : Nat → Nat → Nat
  | 0, p => p
  | fuel+1, p => if 2 ^ p > n then p else growTo n fuel (p+1)

/-- `List_New`, List.c:107-131. -/
def new (inisize : Nat) : CList α :=
  let p := if inisize = 0 then 3 else growTo inisize (inisize+1) 0
  { nent := 0, p := p, nrem := 0, rem1 := -1, slots := [] }

/-- `List_Copy`, List.c:140-157: `memcpy` of the first `ntot` slots. -/
def copy (l : CList α) : Res (CList α) :=
  if l.ntot ≤ l.slots.length ∧ l.ntot ≤ l.cap then
    .ok (setPars { nent := 0, p := l.p, nrem := 0, rem1 := -1, slots := l.slots.take l.ntot }
      l.nent l.p l.nrem l.rem1)
  else .ub

/-- `List_Num_Entries`, List.c:160-162. -/
def numEntries (l : CList α) : Nat := l.nent

/-- `List_Size_Raw`, List.c:170-175. -/
def sizeRaw (l : CList α) : Nat := l.ntot

/-- The counting loop `for (ip = 0; ip < ntot; ip++) if (entry[ip]) { ic++; if (ic == i) break; }`
shared by List.c:209-215, 451-459, 635-644 and 847-855.  `left` counts how many valid entries are
still to be skipped (`left = i - ic - 1`), `n` the remaining raw positions; the result is the raw
position where the loop broke off, `none` when it ran to `ntot` (then `ic != i`). -/
def scan (l : CList α) : Nat → Nat → Nat → Res (Option Nat)
  | 0, _, _ => .ok none
  | n+1, ip, left => do
    match ← l.rd ip with
    | some _ => match left with
      | 0 => pure (some ip)
      | left+1 => scan l n (ip+1) left
    | none => scan l n (ip+1) left

/-- Raw position of the `i`-th valid entry: "if (!nrem || rem1 > i) ip = i; else scan"
(List.c:198-216, 440-460, 626-645, 836-856). -/
def rawPos (l : CList α) (i : Nat) : Res (Option Nat) :=
  if l.nrem = 0 ∨ l.rem1 > (i : Int) then .ok (some i) else l.scan l.ntot 0 i

/-- `List_Entry`, List.c:185-223. -/
def entry (l : CList α) (i : Nat) : Res (Option α) :=
  if i ≥ l.nent then .ok none else do
    match ← l.rawPos i with
    | some ip => l.rd ip
    | none => pure none

/-- `List_Entry_Raw`, List.c:253-263. -/
def entryRaw (l : CList α) (i : Nat) : Res (Option α) :=
  if i ≥ l.ntot then .ok none else l.rd i

/-- inner loop of `List_Next_Entry`, List.c:286-291. -/
def nextFrom (l : CList α) : Nat → Nat → Res (Option (α × Nat))
  | 0, _ => .ok none
  | n+1, ip => do
    match ← l.rd ip with
    | some a => pure (some (a, ip+1))
    | none => nextFrom l n (ip+1)

/-- `List_Next_Entry`, List.c:270-295: the returned entry together with the new `*index`.
When NULL is returned the index is left unchanged.  The fast path of lines 281-284 is the first
step of the loop. -/
def next (l : CList α) (idx : Nat) : Res (Option α × Nat) :=
  if idx ≥ l.ntot then .ok (none, idx) else do
    match ← l.nextFrom (l.ntot - idx) idx with
    | some (a, j) => pure (some a, j)
    | none => pure (none, idx)

/-- Linear search `for (ip...) if (entry[ip] == x)` from List.c:311-316, 388-390, 548-549,
589-590: raw position of the first slot equal to `x`. -/
def findRaw [DecidableEq α] (l : CList α) (x : Option α) : Nat → Nat → Res (Option Nat)
  | 0, _ => .ok none
  | n+1, ip => do
    let e ← l.rd ip
    if e = x then pure (some ip) else findRaw l x n (ip+1)

/-- `List_Contains`, List.c:303-319. -/
def contains [DecidableEq α] (l : CList α) (x : Option α) : Res Bool := do
  pure (← l.findRaw x l.ntot 0).isSome

/-- loop of `List_Locate`, List.c:335-342; `ic` is the C variable. -/
def locateFrom [DecidableEq α] (l : CList α) (x : Option α) : Nat → Nat → Int → Res Int
  | 0, _, _ => .ok (-1)
  | n+1, ip, ic => do
    let e ← l.rd ip
    let ic := if e.isSome then ic + 1 else ic
    if e = x then pure ic else locateFrom l x n (ip+1) ic

/-- `List_Locate`, List.c:327-345. -/
def locate [DecidableEq α] (l : CList α) (x : Option α) : Res Int := l.locateFrom x l.ntot 0 (-1)

/-- growth step "if (ntot == nalloc) { p++; realloc }" List.c:360-364, 396-400, 427-431, 498-502.
`realloc` keeps the contents. -/
def grow (l : CList α) : CList α :=
  if l.ntot = l.cap then { l with p := l.p + 1 } else l

/-- `List_Add`, List.c:351-372. -/
def add (l : CList α) (x : Option α) : Res (CList α) := do
  let g := l.grow
  let g ← g.wr l.ntot x
  pure (g.setPars (l.nent+1) g.p l.nrem l.rem1)

/-- `List_ChknAdd`, List.c:381-408. -/
def chknAdd [DecidableEq α] (l : CList α) (x : Option α) : Res (CList α) := do
  match ← l.findRaw x l.ntot 0 with
  | some _ => pure l
  | none => l.add x

/-- the `memmove(&entry[ip+1], &entry[ip], (ntot-ip)*sizeof)` followed by `entry[ip] = x` of
List.c:470-472 and 523-525.  A negative length (`ip > ntot`) or an overrun of the storage is
undefined. -/
def shiftIn (l : CList α) (ntot ip : Nat) (x : Option α) : Res (CList α) :=
  if ip ≤ ntot ∧ ntot < l.cap ∧ ntot ≤ l.slots.length then
    .ok { l with slots := l.slots.take ip ++ x :: (l.slots.take ntot).drop ip ++
                          l.slots.drop (ntot+1) }
  else .ub

/-- `List_Inserti`, List.c:417-479.  `ok none` is the error return 0. -/
def inserti (l : CList α) (x : Option α) (i : Nat) : Res (Option (CList α)) := do
  let g := l.grow
  if i = l.nent then
    let g ← g.wr l.ntot x
    pure (some (g.setPars (l.nent+1) g.p l.nrem l.rem1))
  else
    match ← g.rawPos i with
    | none => pure none
    | some ip =>
      let g ← g.shiftIn l.ntot ip x
      pure (some (g.setPars (l.nent+1) g.p l.nrem l.rem1))

/-- the search loop of `List_Insert`, List.c:508-513: it breaks at the first slot that is
*different* from `b4entry`. -/
def findDiff [DecidableEq α] (l : CList α) (x : Option α) : Nat → Nat → Res (Option Nat)
  | 0, _ => .ok none
  | n+1, ip => do
    let e ← l.rd ip
    if e ≠ x then pure (some ip) else findDiff l x n (ip+1)

/-- `List_Insert`, List.c:488-532. -/
def insert [DecidableEq α] (l : CList α) (x b4 : Option α) : Res (CList α) := do
  let g := l.grow
  match b4 with
  | none =>
    let g ← g.wr l.ntot x
    pure (g.setPars (l.nent+1) g.p l.nrem l.rem1)
  | some b =>
    match ← g.findDiff (some b) l.ntot 0 with
    | none => pure { g with p := l.p }   -- warning, returns l (the header is not updated)
    | some ip =>
      let g ← g.shiftIn l.ntot ip x
      pure (g.setPars (l.nent+1) g.p l.nrem l.rem1)

/-- "entry[ip] = NULL; nent--; nrem++; if (rem1 == -1 || rem1 > ip) rem1 = ip; Set_Pars" of
List.c:550-555, 652-658, 687-693 and 806-812. -/
def blank (l : CList α) (ip : Nat) : Res (CList α) := do
  let r1 : Int := if l.rem1 = -1 ∨ l.rem1 > (ip : Int) then ip else l.rem1
  let g ← l.wr ip none
  pure (g.setPars (l.nent-1) l.p (l.nrem+1) r1)

/-- `List_Rem`, List.c:540-572: result flag and new list. -/
def rem [DecidableEq α] (l : CList α) (x : Option α) : Res (Bool × CList α) := do
  match ← l.findRaw x l.ntot 0 with
  | some ip => pure (true, ← l.blank ip)
  | none => pure (false, l)

/-- `List_Replace`, List.c:581-596. -/
def replace [DecidableEq α] (l : CList α) (x y : Option α) : Res (Bool × CList α) := do
  match ← l.findRaw x l.ntot 0 with
  | some ip => pure (true, ← l.wr ip y)
  | none => pure (false, l)

/-- `List_Remi`, List.c:607-661. -/
def remi (l : CList α) (i : Nat) : Res (Bool × CList α) :=
  if i ≥ l.nent then .ok (false, l) else do
    match ← l.rawPos i with
    | some ip => pure (true, ← l.blank ip)
    | none => pure (false, l)

/-- `List_Remi_Raw`, List.c:672-697. -/
def remiRaw (l : CList α) (i : Nat) : Res (Bool × CList α) :=
  if i ≥ l.ntot then .ok (false, l) else do
    match ← l.rd i with
    | some _ => pure (true, ← l.blank i)
    | none => pure (true, l)

/-- `while (!fnd1 && i <= imax) if (l->entry[++i]) fnd1 = 1;` List.c:725-726 and 757-758;
`n = imax - i + 1` iterations remain.  Result: final `i` and `fnd1`. -/
def fwd (l : CList α) : Nat → Nat → Res (Nat × Bool)
  | 0, i => .ok (i, false)
  | n+1, i => do
    match ← l.rd (i+1) with
    | some _ => pure (i+1, true)
    | none => fwd l n (i+1)

/-- `while (!fnd1 && i >= imin) if (l->entry[--i]) fnd1 = 1;` List.c:736-737 and 770-771;
`n = i - imin + 1` iterations remain.  Reading `entry[-1]` is undefined. -/
def bwd (l : CList α) : Nat → Nat → Res (Nat × Bool)
  | 0, i => .ok (i, false)
  | _+1, 0 => .ub
  | n+1, i+1 => do
    match ← l.rd i with
    | some _ => pure (i, true)
    | none => bwd l n i

/-- `(*entry2int)(l->entry[i])`: dereferences NULL when the slot is blank. -/
def keyAt (l : CList α) (key : α → Int) (i : Nat) : Res Int := do
  match ← l.rd i with
  | some a => pure (key a)
  | none => .ub

/-- choice of `imid`, List.c:750-777: `(int)(0.5+(imin+imax)/2.0)` is `(imin+imax+1)/2`. -/
def pickMid (l : CList α) (imin imax : Nat) : Res Nat := do
  let imid := (imin + imax + 1) / 2
  match ← l.rd imid with
  | some _ => pure imid
  | none =>
    let (imid1, fnd1) ← l.fwd (imax + 1 - imid) imid
    let imid := if fnd1 then imid1 else imid
    if imid1 = imax then
      let (imid1, fnd1) ← l.bwd (imid + 1 - imin) imid
      pure (if fnd1 then imid1 else imid)
    else pure imid

/-- search loop of `List_RemSorted`, List.c:749-803.  Result: the raw index found.  When the loop
ends without a match the C code tests the uninitialised variable `fnd` (declared at line 714, read
at line 805), which is undefined behaviour.  `fuel` bounds the number of iterations. -/
def remSortedLoop (l : CList α) (key : α → Int) (id : Int) : Nat → Nat → Nat → Int → Int → Res Nat
  | 0, _, _, _, _ => .hang
  | fuel+1, imin, imax, idmin, idmax => do
    let imid ← l.pickMid imin imax
    let idmid ← l.keyAt key imid
    let (imin, imax, idmin, idmax) :=
      if id ≤ idmid then (imin, imid, idmin, idmid) else (imid, imax, idmid, idmax)
    if id = idmin then pure imin
    else if id = idmax then pure imax
    else if imax ≤ imin + 1 then .ub
    else remSortedLoop l key id fuel imin imax idmin idmax

/-- the start of the search interval, List.c:720-730. -/
def startMin (l : CList α) (imax : Nat) : Res Nat := do
  match ← l.rd 0 with
  | some _ => pure 0
  | none => do pure (← l.fwd (imax + 1 - 0) 0).1

/-- the end of the search interval, List.c:732-741. -/
def startMax (l : CList α) (imin imax : Nat) : Res Nat := do
  match ← l.rd imax with
  | some _ => pure imax
  | none => do pure (← l.bwd (imax + 1 - imin) imax).1

/-- `List_RemSorted`, List.c:713-817, `fuel` bounding the search loop.  (If `ntot = 0` the first
read, `entry[0]`, is undefined already, so `imax` never is -1.) -/
def remSorted (l : CList α) (fuel : Nat) (x : α) (key : α → Int) : Res (Bool × CList α) := do
  let imin ← l.startMin (l.ntot - 1)
  let imax ← l.startMax imin (l.ntot - 1)
  let idmin ← l.keyAt key imin
  let idmax ← l.keyAt key imax
  let i ← l.remSortedLoop key (key x) fuel imin imax idmin idmax
  pure (true, ← l.blank i)

/-- `List_Replacei`, List.c:826-864. -/
def replacei (l : CList α) (i : Nat) (x : Option α) : Res (Bool × CList α) := do
  match ← l.rawPos i with
  | some ip => pure (true, ← l.wr ip x)
  | none => pure (false, l)

/-- One pass structure of `List_Compress`, List.c:882-933.  The C loop walks from the tail; each
round finds the last block `[kb, ke]` of NULLs before the previous `kb` and closes it with
`memmove` (or drops it when it is at the end).  `compressLoop fuel kb ntot slots`. -/
def lastNull (slots : List (Option α)) : Nat → Option Nat
  | 0 => none
  | k+1 => match slots[k]? with
    | some none => some k
    | _ => lastNull slots k

/-- beginning of the block of NULLs ending at `ke`: List.c:903-913. `blockStart slots ke` is called
with `ke` a NULL position. -/
def blockStart (slots : List (Option α)) : Nat → Nat
  | 0 => 0
  | k+1 => match slots[k]? with
    | some none => blockStart slots k
    | _ => k+1

/-- main loop of `List_Compress`, List.c:883-933.  Returns the compacted prefix. -/
def compressLoop : Nat → Nat → List (Option α) → List (Option α)
  | 0, _, slots => slots
  | fuel+1, kb, slots =>
    match lastNull slots kb with
    | none => slots
    | some ke =>
      let kb' := blockStart slots ke
      -- entries after the block move down to kb'; ntot shrinks by ke - kb' + 1
      compressLoop fuel kb' (slots.take kb' ++ slots.drop (ke+1))

/-- `List_Compress`, List.c:870-942.  Slots past the new `ntot` are dropped from the model
(no operation reads them). -/
def compress (l : CList α) : Res (CList α) :=
  if l.nrem = 0 then .ok l
  else if l.ntot ≤ l.slots.length ∧ l.ntot ≤ l.cap then
    let s := compressLoop (l.ntot+1) l.ntot (l.slots.take l.ntot)
    .ok (setPars { l with slots := s } l.nent l.p 0 (-1))
  else .ub

/-- `List_Cat`, List.c:947-981.  Note lines 972-974: `nrem_d` has already been increased when it
is tested, so `rem1_d = rem1_s` is never executed. -/
def cat (d s : CList α) : Res (CList α) :=
  let ntot := d.ntot + s.ntot
  let p := growTo ntot (ntot+1) (max d.p s.p)
  let p_d := if p > d.p then p else d.p
  if s.ntot ≤ s.slots.length ∧ ntot ≤ 2 ^ p_d - 1 ∧ d.ntot ≤ d.slots.length then
    let slots := d.slots.take d.ntot ++ s.slots.take s.ntot
    let nrem_d := d.nrem + s.nrem
    let rem1_d := if nrem_d = 0 ∧ s.nrem ≠ 0 then s.rem1 else d.rem1
    .ok (setPars { d with slots := slots } (d.nent + s.nent) p_d nrem_d rem1_d)
  else .ub

end CList
end MSTK
