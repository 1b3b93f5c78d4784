import Verif.Res
/-!
Model of `src/util/Hash.c`, the chained hash table used by the reduced representations.

Entities `E` carry a key (`MEnt_HashKey`: an array of pointers) and a lock byte.  The chain hanging
off a bucket (linked through `NextInHash`) is modelled by the list of its entities, head first; the
bucket array by a function on indices of which only those below `2^p` are meaningful.  `hash` is an
arbitrary function of the key: the theorems hold whatever `pvtHash_Function` (Hash.c:151-169)
computes.  `hash & mask` with `mask = 2^p - 1` is `hash % 2^p`.
Simplification: the count is an unbounded `Nat` (the code packs it in 26 bits, Hash.c:73).
-/
namespace MSTK

structure HashT (E : Type) where
  nent : Nat
  p    : Nat
  t    : Bool           -- AutoRemove flag, Hash.c:54-63
  b    : Nat → List E

namespace HashT
variable {E K : Type}

/-- `for (p=0; (1u<<p) < inisize; p++);` Hash.c:102. -/
def ceilPow (n : Nat) : Nat → Nat → Nat
  | 0, p => p
  | fuel+1, p => if 2 ^ p < n then ceilPow n fuel (p+1) else p

/-- `Hash_New`, Hash.c:97-118. -/
def new (inisize : Nat) (t : Bool) : HashT E :=
  { nent := 0, p := if inisize = 0 then 5 else ceilPow inisize inisize 0, t := t, b := fun _ => [] }

/-- update of one bucket head -/
def setB (b : Nat → List E) (i : Nat) (c : List E) : Nat → List E := fun j => if j = i then c else b j

/-- `Hash_Entry`, Hash.c:181-198: first entity of the chain whose key equals `k`
(`pvtHash_CheckKeys`, Hash.c:171-178, is equality of the key arrays). -/
def entry [DecidableEq K] (key : E → K) (hash : K → Nat) (h : HashT E) (k : K) : Option E :=
  (h.b (hash k % 2 ^ h.p)).find? (fun e => key e = k)

/-- inner loop of `pvtHash_Enlarge`, Hash.c:221-243, on the chain of bucket `i`: entities whose new
index is `i` stay (in order), those whose new index is `i+nold` are pushed in front of the new
chain, any other new index is the FATAL of line 226.  `kept` is accumulated in reverse. -/
def splitChain (key : E → K) (hash : K → Nat) (p i : Nat) :
    List E → List E → List E → Res (List E × List E)
  | [], kept, moved => .ok (kept.reverse, moved)
  | e :: rest, kept, moved =>
    let j := hash (key e) % 2 ^ (p+1)
    if i ≠ j then
      if i + 2 ^ p ≠ j then .fatal
      else splitChain key hash p i rest kept (e :: moved)
    else splitChain key hash p i rest (e :: kept) moved

/-- outer loop of `pvtHash_Enlarge`, Hash.c:217-244, over the first `n` buckets. -/
def enlargeLoop (key : E → K) (hash : K → Nat) (p : Nat) (b : Nat → List E) : Nat → Res (Nat → List E)
  | 0 => .ok b
  | n+1 => do
    let b' ← enlargeLoop key hash p b n
    let (kept, moved) ← splitChain key hash p n (b' n) [] []
    pure (setB (setB b' n kept) (n + 2 ^ p) moved)

/-- `pvtHash_Enlarge`, Hash.c:200-248. -/
def enlarge (key : E → K) (hash : K → Nat) (h : HashT E) : Res (HashT E) := do
  let b ← enlargeLoop key hash h.p h.b (2 ^ h.p)
  pure { h with p := h.p + 1, b := b }

/-- `Hash_Remove_Unused`, Hash.c:250-282: unlocked entities are unlinked (and deleted); returns the
number removed. -/
def removeUnused (locked : E → Bool) (h : HashT E) : Nat × HashT E :=
  let removed := ((List.range (2 ^ h.p)).map (fun i => ((h.b i).filter (fun e => !locked e)).length)).sum
  (removed, { h with nent := h.nent - removed,
                     b := fun i => if i < 2 ^ h.p then (h.b i).filter locked else h.b i })

/-- `pvtHash_CheckSize`, Hash.c:76-95. -/
def checkSize (key : E → K) (hash : K → Nat) (locked : E → Bool) (h : HashT E) : Res (HashT E) :=
  if h.nent ≥ 8 * 2 ^ h.p then
    let h' := if h.t then (removeUnused locked h).2 else h
    if h'.nent ≥ 8 * 2 ^ h.p then enlarge key hash h' else .ok h'
  else .ok h

/-- `Hash_Add`, Hash.c:284-309. -/
def add (key : E → K) (hash : K → Nat) (locked : E → Bool) (h : HashT E) (e : E) : Res (HashT E) := do
  let h ← checkSize key hash locked h
  let i := hash (key e) % 2 ^ h.p
  pure { h with nent := h.nent + 1, b := setB h.b i (e :: h.b i) }

/-- What `Hash_ChknAdd` returns as a `Hash_ptr`: either the table, or (Hash.c:332) the *entity*
found, cast to a table pointer. -/
inductive HashPtr (E : Type) where
  | table (h : HashT E)
  | entity (e : E)

/-- `Hash_ChknAdd`, Hash.c:312-343: the (mutated) table and the returned pointer. -/
def chknAdd [DecidableEq K] (key : E → K) (hash : K → Nat) (locked : E → Bool) (h : HashT E) (e : E) :
    Res (HashT E × HashPtr E) := do
  let h ← checkSize key hash locked h
  let i := hash (key e) % 2 ^ h.p
  match (h.b i).find? (fun x => key x = key e) with
  | some x => pure (h, .entity x)
  | none =>
    let h := { h with nent := h.nent + 1, b := setB h.b i (e :: h.b i) }
    pure (h, .table h)

/-- `Hash_Entries`, Hash.c:353-372. -/
def entries (h : HashT E) : List E := (List.range (2 ^ h.p)).flatMap h.b

/-- `Hash_Num_Entries`, Hash.c:145-147. -/
def numEntries (h : HashT E) : Nat := h.nent

end HashT

/-! Lock counter: the low four bits of the entity's lock word. -/

/-- `Hash_Lock`, Hash.c:414-418. -/
def hashLock (w : BitVec 32) : BitVec 32 :=
  let lock := w &&& 0x0f#32
  let lock := if lock.toNat < 15 then lock + 1#32 else lock
  (w &&& ~~~0x0f#32) ||| lock

/-- `Hash_UnLock`, Hash.c:420-429. -/
def hashUnlock (w : BitVec 32) : BitVec 32 :=
  let lock := w &&& 0x0f#32
  let lock := if lock.toNat < 15 then (if lock.toNat > 0 then lock - 1#32 else lock) else lock
  (w &&& ~~~0x0f#32) ||| lock

/-- `Hash_IsLocked`, Hash.c:431-435. -/
def hashIsLocked (w : BitVec 32) : Bool := (w &&& 0x0f#32) != 0#32

end MSTK
