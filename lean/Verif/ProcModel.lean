import Verif.ExchangeModel

/-!
Programs of partitions that send and receive with blocking MPI calls and where what a partition does
may depend on the messages it received (as in MESH_GathScat1Attribute.c and
MESH_XchngEdgeFaceAttrib.c, where the number of entities is exchanged before the entities).  The
calls are as in `Verif.ExchangeModel`: `MPI_Send` may return as soon as the message is buffered, or only
when the receiver takes it, and messages from one partition to another arrive in the order in which
they were sent.
-/
namespace MSTK.Par

/-- the rest of the program of a partition; `M` are the messages and `A` what it computes -/
inductive Proc (M A : Type) where
  | ret (a : A)
  | send (dst : Nat) (m : M) (k : Proc M A)
  | recv (src : Nat) (k : M → Proc M A)

/-- all partitions, and the messages from `p` to `q` that were buffered -/
structure PNet (M A : Type) where
  run : Nat → Proc M A
  chan : Nat → Nat → List M

/-- A step that MPI has to make: a message taken from the buffer, or sender and receiver meeting. -/
inductive PMust {M A : Type} : PNet M A → PNet M A → Prop
  | take {s : PNet M A} {p q : Nat} {m : M} {k : M → Proc M A} {ms : List M} :
      s.run q = .recv p k → s.chan p q = m :: ms →
      PMust s ⟨put s.run q (k m), put2 s.chan p q ms⟩
  | meet {s : PNet M A} {p q : Nat} {m : M} {k : Proc M A} {k' : M → Proc M A} :
      s.run p = .send q m k → s.run q = .recv p k' → s.chan p q = [] →
      PMust s ⟨put (put s.run p k) q (k' m), s.chan⟩

/-- A step that may happen: also, a message may be buffered. -/
inductive PMay {M A : Type} : PNet M A → PNet M A → Prop
  | must {s s' : PNet M A} : PMust s s' → PMay s s'
  | buffer {s : PNet M A} {p q : Nat} {m : M} {k : Proc M A} :
      s.run p = .send q m k →
      PMay s ⟨put s.run p k, put2 s.chan p q (s.chan p q ++ [m])⟩

/-- executions of `k` steps -/
inductive PExec {M A : Type} : Nat → PNet M A → PNet M A → Prop
  | refl (s : PNet M A) : PExec 0 s s
  | step {k : Nat} {s s' s'' : PNet M A} : PExec k s s' → PMay s' s'' → PExec (k+1) s s''

/-- all partitions have returned -/
def PNet.done {M A : Type} (s : PNet M A) : Prop := ∀ p, ∃ a, s.run p = .ret a

/-- send some messages to one partition -/
def sendAll {M A : Type} (i : Nat) : List M → Proc M A → Proc M A
  | [], k => k
  | m :: r, k => .send i m (sendAll i r k)

/-- receive `n` messages from one partition -/
def recvN {M A : Type} (i : Nat) : Nat → (List M → Proc M A) → Proc M A
  | 0, k => k []
  | n+1, k => .recv i fun m => recvN i n fun l => k (m :: l)

/-- One round of the loops: the partition with the lower rank sends first and then receives, the other
one receives first and then sends, MESH_GathScat1Attribute.c:139-152 and 298-376. -/
def swap {M A : Type} (me i : Nat) (out : List M) (inn : Nat) (k : List M → Proc M A) : Proc M A :=
  if me < i then sendAll i out (recvN i inn k) else recvN i inn fun l => sendAll i out (k l)

/-- The loops over the partitions, MESH_GathScat1Attribute.c:112-154 and 209-382: `out i` is sent to
partition `i` and `inn i` messages are received from it. -/
def rounds {M A : Type} (me : Nat) (out : Nat → List M) (inn : Nat → Nat) :
    List Nat → (Nat → List M) → ((Nat → List M) → Proc M A) → Proc M A
  | [], got, k => k got
  | i :: r, got, k =>
    if i = me then rounds me out inn r got k
    else swap me i (out i) (inn i) fun l => rounds me out inn r (put got i l) k

end MSTK.Par
