import Verif.ParAdjModel

/-!
Model of the exchange of attribute values between partitions, src/par/MESH_Update1Attribute.c:173-268,
and of the blocking MPI calls it makes.

`MPI_Send` may return as soon as the message is buffered, or only when the receiver takes it; which of
the two happens is up to MPI.  `MPI_Recv` returns when a message from that source has arrived.
Messages from one partition to another arrive in the order in which they were sent (one communicator,
and the tag is the rank of the receiver on both sides).
-/
namespace MSTK.Par

/-- a blocking call of a partition; `M` are the messages -/
inductive Cmd (M : Type) where
  | send (dst : Nat) (m : M)
  | recv (src : Nat)
  deriving DecidableEq

/-- What partition `me` knows when the exchange starts (MESH_Update1Attribute.c:103-197): its flags
for the entity type, its number of overlap entities, the receive counts and the two messages. -/
structure Plan (M : Type) where
  ghosts : Nat → Bool
  overlaps : Nat → Bool
  sendSize : Nat
  recvSize : Nat → Nat
  info : M
  value : M

/-- The plan of a partition for entities of type `k` from its flags and receive counts,
MESH_Update1Attribute.c:181-197.  `recv_procs` (157) is the list the counts are looked up in, so that
`MESH_Num_Recv_From_Prtn` is 0 whenever `found` is 0. -/
def planOf {M : Type} (s : Info) (k ov : Nat) (info value : M) : Plan M :=
  ⟨fun i => decide (hasGhosts s i (k : Nat) = .ok 1), fun i => decide (hasOverlaps s i (k : Nat) = .ok 1), ov,
   fun i => match numRecv s i (k : Nat) with
     | .ok v => v
     | _ => 0, info, value⟩

/-- MESH_Update1Attribute.c:202-212 and 256-265 -/
def Plan.sends {M : Type} (p : Plan M) (i : Nat) : List (Cmd M) :=
  if p.overlaps i && decide (p.sendSize ≠ 0) then [.send i p.info, .send i p.value] else []

/-- MESH_Update1Attribute.c:215-235 and 240-255 -/
def Plan.recvs {M : Type} (p : Plan M) (i : Nat) : List (Cmd M) :=
  if p.ghosts i && decide (p.recvSize i ≠ 0) then [.recv i, .recv i] else []

/-- one round of the loop, MESH_Update1Attribute.c:199-266 -/
def Plan.round {M : Type} (p : Plan M) (me i : Nat) : List (Cmd M) :=
  if me < i then p.sends i ++ p.recvs i
  else if i < me then p.recvs i ++ p.sends i
  else []

/-- the calls of partition `me` of `n`, MESH_Update1Attribute.c:174-268 -/
def Plan.calls {M : Type} (p : Plan M) (n me : Nat) : List (Cmd M) :=
  (List.range n).flatMap (p.round me)

/-- All partitions and the messages under way: the calls still to be made, the messages from `p` to
`q` that were buffered, and the messages `q` received from `p`. -/
structure Net (M : Type) where
  todo : Nat → List (Cmd M)
  chan : Nat → Nat → List M
  got : Nat → Nat → List M

/-- replace one entry -/
def put {α : Type} (g : Nat → α) (i : Nat) (a : α) : Nat → α := fun j => if j = i then a else g j
/-- replace one entry of a table -/
def put2 {α : Type} (g : Nat → Nat → α) (i k : Nat) (a : α) : Nat → Nat → α :=
  fun j l => if j = i ∧ l = k then a else g j l

/-- A step that MPI has to make: a message taken from the buffer, or sender and receiver meeting. -/
inductive Must {M : Type} : Net M → Net M → Prop
  | take {s : Net M} {p q : Nat} {m : M} {r : List (Cmd M)} {ms : List M} :
      s.todo q = .recv p :: r → s.chan p q = m :: ms →
      Must s ⟨put s.todo q r, put2 s.chan p q ms, put2 s.got q p (s.got q p ++ [m])⟩
  | meet {s : Net M} {p q : Nat} {m : M} {r r' : List (Cmd M)} :
      s.todo p = .send q m :: r → s.todo q = .recv p :: r' → s.chan p q = [] →
      Must s ⟨put (put s.todo p r) q r', s.chan, put2 s.got q p (s.got q p ++ [m])⟩

/-- A step that may happen: also, a message may be buffered. -/
inductive May {M : Type} : Net M → Net M → Prop
  | must {s s' : Net M} : Must s s' → May s s'
  | buffer {s : Net M} {p q : Nat} {m : M} {r : List (Cmd M)} :
      s.todo p = .send q m :: r →
      May s ⟨put s.todo p r, put2 s.chan p q (s.chan p q ++ [m]), s.got⟩

/-- executions of `k` steps -/
inductive Exec {M : Type} : Nat → Net M → Net M → Prop
  | refl (s : Net M) : Exec 0 s s
  | step {k : Nat} {s s' s'' : Net M} : Exec k s s' → May s' s'' → Exec (k+1) s s''

/-- `n` partitions about to exchange -/
def Net.start {M : Type} (n : Nat) (plan : Nat → Plan M) : Net M :=
  ⟨fun p => if p < n then (plan p).calls n p else [], fun _ _ => [], fun _ _ => []⟩

/-- all partitions have returned -/
def Net.done {M : Type} (s : Net M) : Prop := ∀ p, s.todo p = []

end MSTK.Par
