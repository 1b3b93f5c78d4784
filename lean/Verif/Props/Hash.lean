import Verif.HashLemmas
/-! C08, C09, C10: the entity hash table. -/
namespace MSTK
namespace HashT
variable {E K : Type} [DecidableEq K] (key : E → K) (hash : K → Nat)

/-! ### C08: find-or-insert is a map -/

/-- The way every client uses the table (e.g. MF_Edge_Funcs_R1.c:61-70): look the key up, create and
add the entity only when it is absent.  The result is the entity the client ends up with. -/
def findOrAdd (locked : E → Bool) (h : HashT E) (e : E) : Res (HashT E × E) :=
  match h.entry key hash (key e) with
  | some x => .ok (h, x)
  | none => do
    let h ← h.add key hash locked e
    pure (h, e)

/-- a sequence of find-or-insert requests, with all the answers -/
def runFind (locked : E → Bool) : HashT E → List E → Res (HashT E × List E)
  | h, [] => .ok (h, [])
  | h, e :: es => do
    let (h, x) ← findOrAdd key hash locked h e
    let (h, xs) ← runFind locked h es
    pure (h, x :: xs)

/-- Specification: the entity registered for key `k` is the first one offered with that key. -/
def firstWith (es : List E) (k : K) : Option E := es.find? (fun e => key e = k)

omit [DecidableEq K] in
theorem find?_append_none {p : E → Bool} {l : List E} (h : l.find? p = none) (e : E) :
    (l ++ [e]).find? p = if p e then some e else none := by
  rw [List.find?_append, h]
  simp only [Option.none_or, List.find?_cons, List.find?_nil]
  cases p e <;> simp

theorem findOrAdd_tracks (locked : E → Bool) (h : HashT E) (hist : List E) (e : E)
    (hi : Inv key hash h) (ht : h.t = false) (hm : ∀ k, h.entry key hash k = firstWith key hist k) :
    ∃ h' x, findOrAdd key hash locked h e = .ok (h', x) ∧ Inv key hash h' ∧ h'.t = false ∧
      (∀ k, h'.entry key hash k = firstWith key (hist ++ [e]) k) ∧
      firstWith key (hist ++ [e]) (key e) = some x := by
  unfold findOrAdd
  cases hf : h.entry key hash (key e) with
  | some x =>
    refine ⟨h, x, rfl, hi, ht, ?_, ?_⟩
    · intro k
      rw [hm k]
      unfold firstWith
      rw [List.find?_append]
      cases hk : hist.find? (fun e => decide (key e = k)) with
      | some y => simp
      | none =>
        by_cases hek : key e = k
        · have := hm (key e)
          rw [hf] at this
          unfold firstWith at this
          rw [hek, hk] at this; simp at this
        · simp [hek]
    · have := hm (key e)
      rw [hf] at this
      unfold firstWith at this ⊢
      rw [List.find?_append, ← this]; simp
  | none =>
    obtain ⟨h', a1, a2, a3, a4, a5⟩ := add_spec hi locked e ((entry_eq_none hi (key e)).mp hf)
    simp only [a1, Res.bind_ok, Res.pure_eq]
    have hnone : hist.find? (fun x => decide (key x = key e)) = none := by
      have := hm (key e); rw [hf] at this; exact this.symm
    refine ⟨h', e, rfl, a2, by rw [a3, ht], ?_, ?_⟩
    · intro k
      unfold firstWith
      by_cases hek : key e = k
      · subst hek
        rw [find?_append_none hnone]
        simp only [decide_true, if_true]
        exact (entry_eq_some a2 _ _).mpr ⟨a5 e (Or.inl rfl), rfl⟩
      · rw [List.find?_append]
        have h1 : [e].find? (fun x => decide (key x = k)) = none := by simp [hek]
        rw [h1, Option.or_none]
        have h2 := hm k
        unfold firstWith at h2
        rw [← h2]
        cases hk : h.entry key hash k with
        | none =>
          rw [entry_eq_none a2]
          intro x hx
          rcases a4 x hx with rfl | hx
          · exact hek
          · exact (entry_eq_none hi k).mp hk x hx
        | some y =>
          have := (entry_eq_some hi k y).mp hk
          exact (entry_eq_some a2 k y).mpr ⟨a5 y (Or.inr ⟨this.1, Or.inl ht⟩), this.2⟩
    · unfold firstWith
      rw [find?_append_none hnone]; simp

theorem runFind_tracks (locked : E → Bool) : ∀ (es hist : List E) (h : HashT E),
    Inv key hash h → h.t = false → (∀ k, h.entry key hash k = firstWith key hist k) →
    ∃ h' xs, runFind key hash locked h es = .ok (h', xs) ∧ Inv key hash h' ∧
      (∀ k, h'.entry key hash k = firstWith key (hist ++ es) k) ∧
      xs.map some = es.map (fun e => firstWith key (hist ++ es) (key e)) := by
  intro es
  induction es with
  | nil => intro hist h hi ht hm; exact ⟨h, [], rfl, hi, by simpa using hm, rfl⟩
  | cons e es ih =>
    intro hist h hi ht hm
    obtain ⟨h1, x, a1, a2, a3, a4, a5⟩ := findOrAdd_tracks key hash locked h hist e hi ht hm
    obtain ⟨h2, xs, b1, b2, b3, b4⟩ := ih (hist ++ [e]) h1 a2 a3 a4
    refine ⟨h2, x :: xs, ?_, b2, by simpa using b3, ?_⟩
    · simp only [runFind, a1, Res.bind_ok, b1, Res.pure_eq]
    · simp only [List.append_assoc, List.singleton_append] at b4
      rw [List.map_cons, List.map_cons, b4]
      congr 1
      unfold firstWith at a5 ⊢
      rw [show hist ++ e :: es = (hist ++ [e]) ++ es by simp, List.find?_append, a5]; rfl

/-- **C08** For every initial size, every hash function and every sequence of find-or-insert requests
(automatic removal off), the table never fails, every request is answered with the first entity ever
offered under its key, lookups answer likewise for every key (present or absent), and the entries are
exactly one entity per distinct key, their number being the reported count. -/
theorem C08_hash_is_map (locked : E → Bool) (inisize : Nat) (es : List E) :
    ∃ h xs, runFind key hash locked (new inisize false) es = .ok (h, xs) ∧
      xs.map some = es.map (fun e => firstWith key es (key e)) ∧
      (∀ k, h.entry key hash k = firstWith key es k) ∧
      (∀ e, e ∈ h.entries ↔ firstWith key es (key e) = some e) ∧
      (h.entries.map key).Nodup ∧ h.numEntries = h.entries.length := by
  obtain ⟨h, xs, h1, h2, h3, h4⟩ := runFind_tracks key hash locked es [] (new inisize false)
    (new_inv inisize false) rfl (by intro k; simp [entry, new, firstWith])
  simp only [List.nil_append] at h3 h4
  refine ⟨h, xs, h1, h4, h3, ?_, ?_, h2.cnt⟩
  · intro e
    rw [← h3 (key e), entry_eq_some h2]
    simp
  · unfold entries
    rw [List.map_flatMap, List.nodup_flatMap]
    refine ⟨fun i hi => h2.dist i (List.mem_range.mp hi), ?_⟩
    apply List.Pairwise.imp_of_mem (R := fun a b => a ≠ b) _ List.nodup_range
    intro i j hi hj hij k hk1 hk2
    obtain ⟨x, hx, rfl⟩ := List.mem_map.mp hk1
    obtain ⟨y, hy, hxy⟩ := List.mem_map.mp hk2
    have p1 := h2.place i (List.mem_range.mp hi) x hx
    have p2 := h2.place j (List.mem_range.mp hj) y hy
    rw [hxy] at p2
    exact hij (p1.symm.trans p2)

/-- non-vacuity: 20 requests on a table of size 1 (two enlargements), 10 distinct keys -/
example : (match runFind (fun e : Nat × Nat => e.1) (fun k => 7 * k) (fun _ => false) (new 1 false)
      ((List.range 20).map (fun i => (i % 10, i))) with
    | .ok (h, xs) => (h.numEntries, h.p, xs.length, h.entry (fun e => e.1) (fun k => 7 * k) 3)
    | _ => (0, 0, 0, none)) = (10, 1, 20, some (3, 3)) := by decide

/-! ### C09: `Hash_ChknAdd` -/

/-- **C09 (negation)** Whenever the key is already in the table `Hash_ChknAdd` returns the entity, not
a table: a caller that stores the result as its table handle (the idiom `h = Hash_ChknAdd(h,…)` of
every other `Hash_`/`List_` call) has lost the table. -/
theorem C09_hash_chknAdd_negation (locked : E → Bool) (h : HashT E) (hi : Inv key hash h)
    (ht : h.t = false) (x e : E) (hx : x ∈ h.entries) (hk : key x = key e) :
    ∃ h', chknAdd key hash locked h e = .ok (h', .entity x) := by
  obtain ⟨h1, c1, c2, c3, c4, c5, _⟩ := checkSize_spec hi locked
  have hf := (entry_eq_some c2 (key e) x).mpr ⟨c5 x hx (Or.inl ht), hk⟩
  unfold entry at hf
  unfold chknAdd
  simp only [c1, Res.bind_ok, hf, Res.pure_eq]
  exact ⟨h1, rfl⟩

/-- a concrete violating history -/
theorem C09_hash_chknAdd_negation_witness :
    (∃ h1 h2 : HashT Nat, chknAdd id id (fun _ => false) (new 0 false) 5 = .ok (h1, .table h1) ∧
      chknAdd id id (fun _ => false) h1 5 = .ok (h2, .entity 5)) := by
  refine ⟨_, _, rfl, rfl⟩

/-- **C09 (partial)** Apart from the pointer returned, ChknAdd is find-or-add: the table mutated in
place contains the key afterwards, nothing else is lost or invented, and the handle returned is the
table whenever the key was absent. -/
theorem C09_hash_chknAdd_partial (locked : E → Bool) (h : HashT E) (hi : Inv key hash h)
    (ht : h.t = false) (e : E) :
    ∃ h' r, chknAdd key hash locked h e = .ok (h', r) ∧ Inv key hash h' ∧
      (∀ k, h'.entry key hash k = (h.entry key hash k).or (if key e = k then some e else none)) ∧
      (h.entry key hash (key e) = none → r = .table h') := by
  obtain ⟨h1, c1, c2, c3, c4, c5, _⟩ := checkSize_spec hi locked
  have hiff : ∀ x, x ∈ h1.entries ↔ x ∈ h.entries := fun x => ⟨c4 x, fun hx => c5 x hx (Or.inl ht)⟩
  have hent : ∀ k, h1.entry key hash k = h.entry key hash k := by
    intro k
    cases hf : h.entry key hash k with
    | none =>
      rw [entry_eq_none c2]
      intro x hx; exact (entry_eq_none hi k).mp hf x ((hiff x).mp hx)
    | some y =>
      have := (entry_eq_some hi k y).mp hf
      exact (entry_eq_some c2 k y).mpr ⟨(hiff y).mpr this.1, this.2⟩
  unfold chknAdd
  cases hf : (h1.b (hash (key e) % 2 ^ h1.p)).find? (fun x => decide (key x = key e)) with
  | some x =>
    simp only [c1, Res.bind_ok, hf, Res.pure_eq]
    refine ⟨h1, _, rfl, c2, ?_, ?_⟩
    · intro k
      rw [hent]
      by_cases hk : key e = k
      · subst hk
        have hx : h1.entry key hash (key e) = some x := hf
        rw [← hent, hx]; rfl
      · simp [hk]
    · intro hn
      have hx : h1.entry key hash (key e) = some x := hf
      rw [hent, hn] at hx; simp at hx
  | none =>
    simp only [c1, Res.bind_ok, hf, Res.pure_eq]
    have hn : h1.entry key hash (key e) = none := hf
    have hnew := (entry_eq_none c2 (key e)).mp hn
    have hp := push_inv c2 e hnew
    refine ⟨_, _, rfl, hp.1, ?_, fun _ => rfl⟩
    intro k
    by_cases hk : key e = k
    · subst hk
      rw [hent] at hn
      rw [hn]
      simp only [Option.none_or, if_true]
      exact (entry_eq_some hp.1 _ _).mpr ⟨(hp.2 e).mpr (Or.inl rfl), rfl⟩
    · rw [if_neg hk, Option.or_none, ← hent]
      cases hg : h1.entry key hash k with
      | none =>
        rw [entry_eq_none hp.1]
        intro x hx
        rcases (hp.2 x).mp hx with rfl | hx
        · exact hk
        · exact (entry_eq_none c2 k).mp hg x hx
      | some y =>
        have := (entry_eq_some c2 k y).mp hg
        exact (entry_eq_some hp.1 k y).mpr ⟨(hp.2 y).mpr (Or.inr this.1), this.2⟩

example : ∃ h : HashT Nat, Inv id id h ∧ h.t = false ∧ 5 ∈ h.entries :=
  ⟨(match add id id (fun _ => false) (new 0 false) 5 with | .ok h => h | _ => new 0 false), by
    have := add_spec (key := id) (hash := id) (h := (new 0 false : HashT Nat)) (new_inv 0 false)
      (fun _ => false) 5 (by simp [entries, new])
    obtain ⟨h', a1, a2, a3, a4, a5⟩ := this
    rw [a1]; exact ⟨a2, a3, a5 5 (Or.inl rfl)⟩⟩

/-! ### C10: locked entities survive -/

/-- a table together with the lock word of each entity (`MEnt_Lock`, MEntity.c) -/
structure LockedTable (E : Type) where
  h : HashT E
  lock : E → BitVec 32

inductive LockOp (E : Type) where
  | findOrAdd (e : E)
  | lock (e : E)
  | unlock (e : E)
  | purge
  | setAuto (t : Bool)

def setLock [DecidableEq E] (l : E → BitVec 32) (e : E) (w : BitVec 32) : E → BitVec 32 :=
  fun x => if x = e then w else l x

/-- one API call on the table; whether an entity is locked is read off its lock word -/
def LockedTable.step [DecidableEq E] (s : LockedTable E) : LockOp E → Res (LockedTable E)
  | .findOrAdd e => do
    let (h, _) ← HashT.findOrAdd key hash (fun x => hashIsLocked (s.lock x)) s.h e
    pure { s with h := h }
  | .lock e => pure { s with lock := setLock s.lock e (hashLock (s.lock e)) }
  | .unlock e => pure { s with lock := setLock s.lock e (hashUnlock (s.lock e)) }
  | .purge => pure { s with h := (removeUnused (fun x => hashIsLocked (s.lock x)) s.h).2 }
  | .setAuto t => pure { s with h := { s.h with t := t } }

def LockedTable.run [DecidableEq E] : LockedTable E → List (LockOp E) → Res (LockedTable E)
  | s, [] => .ok s
  | s, o :: os => do
    let s ← s.step key hash o
    run s os

/-- what a call does to the lock word of entity `e` -/
def lockEffect [DecidableEq E] (e : E) (w : BitVec 32) : LockOp E → BitVec 32
  | .lock x => if x = e then hashLock w else w
  | .unlock x => if x = e then hashUnlock w else w
  | _ => w

/-- Specification: `e` (with lock word `w` now) is locked now and after every call of the history -/
def lockedThroughout [DecidableEq E] (e : E) : BitVec 32 → List (LockOp E) → Prop
  | w, [] => hashIsLocked w = true
  | w, o :: os => hashIsLocked w = true ∧ lockedThroughout e (lockEffect e w o) os

theorem step_keeps [DecidableEq E] (s : LockedTable E) (o : LockOp E) (e : E)
    (hi : Inv key hash s.h) :
    ∃ s', s.step key hash o = .ok s' ∧ Inv key hash s'.h ∧ s'.lock e = lockEffect e (s.lock e) o ∧
      (e ∈ s.h.entries → hashIsLocked (s.lock e) = true → e ∈ s'.h.entries) := by
  cases o with
  | findOrAdd x =>
    unfold LockedTable.step HashT.findOrAdd
    cases hf : s.h.entry key hash (key x) with
    | some y => exact ⟨s, by simp only [hf]; rfl, hi, rfl, fun h _ => h⟩
    | none =>
      obtain ⟨h', a1, a2, a3, a4, a5⟩ := add_spec hi (fun x => hashIsLocked (s.lock x)) x
        ((entry_eq_none hi (key x)).mp hf)
      exact ⟨⟨h', s.lock⟩, by simp only [hf, a1, Res.bind_ok, Res.pure_eq], a2, rfl,
        fun h1 h2 => a5 e (Or.inr ⟨h1, Or.inr h2⟩)⟩
  | lock x =>
    refine ⟨_, rfl, hi, ?_, fun h _ => h⟩
    by_cases hx : x = e
    · subst hx; simp [setLock, lockEffect]
    · simp [setLock, lockEffect, hx, Ne.symm hx]
  | unlock x =>
    refine ⟨_, rfl, hi, ?_, fun h _ => h⟩
    by_cases hx : x = e
    · subst hx; simp [setLock, lockEffect]
    · simp [setLock, lockEffect, hx, Ne.symm hx]
  | purge =>
    obtain ⟨r1, r2, r3, r4⟩ := removeUnused_spec hi (fun x => hashIsLocked (s.lock x))
    refine ⟨_, rfl, r1, rfl, ?_⟩
    intro h1 h2
    simp only
    rw [r2, List.mem_filter]; exact ⟨h1, h2⟩
  | setAuto t => exact ⟨_, rfl, ⟨hi.place, hi.dist, hi.cnt⟩, rfl, fun h _ => h⟩

/-- **C10** In any history of find-or-insert (which may enlarge or purge the table), lock, unlock, explicit
purge and mode switches, an entity that is in the table and stays locked throughout is still found
under its key at the end, and no call of the history fails. -/
theorem C10_locked_entities_survive [DecidableEq E] (ops : List (LockOp E)) :
    ∀ (s : LockedTable E) (e : E), Inv key hash s.h → e ∈ s.h.entries →
      lockedThroughout e (s.lock e) ops →
      ∃ s', s.run key hash ops = .ok s' ∧ s'.h.entry key hash (key e) = some e := by
  induction ops with
  | nil =>
    intro s e hi he _
    exact ⟨s, rfl, (entry_eq_some hi _ _).mpr ⟨he, rfl⟩⟩
  | cons o os ih =>
    intro s e hi he hl
    obtain ⟨hl1, hl2⟩ := hl
    obtain ⟨s1, a1, a2, a3, a4⟩ := step_keeps key hash s o e hi
    obtain ⟨s2, b1, b2⟩ := ih s1 e a2 (a4 he hl1) (by rw [a3]; exact hl2)
    refine ⟨s2, ?_, b2⟩
    simp only [LockedTable.run, a1, Res.bind_ok, b1]

/-- Every history starting from a fresh table runs without failure and keeps the invariant assumed
above, so that hypothesis is met by every reachable table. -/
theorem C10_reachable [DecidableEq E] (ops : List (LockOp E)) (inisize : Nat) (t : Bool)
    (l : E → BitVec 32) :
    ∃ s', LockedTable.run key hash ⟨new inisize t, l⟩ ops = .ok s' ∧ Inv key hash s'.h := by
  have gen : ∀ (ops : List (LockOp E)) (s : LockedTable E), Inv key hash s.h →
      ∃ s', s.run key hash ops = .ok s' ∧ Inv key hash s'.h := by
    intro ops
    induction ops with
    | nil => intro s hi; exact ⟨s, rfl, hi⟩
    | cons o os ih =>
      intro s hi
      by_cases hne : Nonempty E
      · obtain ⟨e⟩ := hne
        obtain ⟨s1, a1, a2, _, _⟩ := step_keeps key hash s o e hi
        obtain ⟨s2, b1, b2⟩ := ih s1 a2
        exact ⟨s2, by simp only [LockedTable.run, a1, Res.bind_ok, b1], b2⟩
      · cases o with
        | findOrAdd e => exact absurd ⟨e⟩ hne
        | lock e => exact absurd ⟨e⟩ hne
        | unlock e => exact absurd ⟨e⟩ hne
        | purge =>
          obtain ⟨r1, _⟩ := removeUnused_spec hi (fun x => hashIsLocked (s.lock x))
          obtain ⟨s2, b1, b2⟩ := ih { s with h := (removeUnused (fun x => hashIsLocked (s.lock x)) s.h).2 } r1
          exact ⟨s2, b1, b2⟩
        | setAuto t =>
          obtain ⟨s2, b1, b2⟩ := ih { s with h := { s.h with t := t } } ⟨hi.place, hi.dist, hi.cnt⟩
          exact ⟨s2, b1, b2⟩
  exact gen ops ⟨new inisize t, l⟩ (new_inv inisize t)

/-- non-vacuity: entity 3 is locked, a purge and ten insertions into a table of size 1 with automatic
removal follow; 3 is found, the unlocked 4 is gone. -/
example : (match LockedTable.run id id ⟨(new 1 true : HashT Nat), fun _ => 0#32⟩
    ([.findOrAdd 3, .findOrAdd 4, .lock 3, .purge] ++ (List.range 10).map (fun i => .findOrAdd (10+i))) with
    | .ok s => (s.h.entry id id 3, s.h.entry id id 4)
    | _ => (none, none)) = (some 3, none) := by decide

/-! the lock counter -/

/-- number of locks minus number of unlocks (`true` = lock) -/
def outstanding : List Bool → Int
  | [] => 0
  | true :: l => outstanding l + 1
  | false :: l => outstanding l - 1

def lockStep (w : BitVec 32) (b : Bool) : BitVec 32 := if b then hashLock w else hashUnlock w

theorem setNibble (w l : BitVec 32) (hl : l.toNat < 16) :
    ((w &&& ~~~0x0f#32) ||| l).toNat = 16 * (w.toNat / 16) + l.toNat := by
  apply Nat.eq_of_testBit_eq
  intro j
  rw [show (16 : Nat) = 2 ^ 4 by rfl, Nat.testBit_two_pow_mul_add _ (by simpa using hl)]
  rw [BitVec.testBit_toNat, BitVec.getLsbD_or, BitVec.getLsbD_and, BitVec.getLsbD_not]
  by_cases hj : j < 4
  · rw [if_pos hj, BitVec.testBit_toNat]
    have : (0x0f#32).getLsbD j = true := by
      have : j = 0 ∨ j = 1 ∨ j = 2 ∨ j = 3 := by omega
      rcases this with rfl | rfl | rfl | rfl <;> decide
    rw [this]; simp
  · rw [if_neg hj, Nat.testBit_div_two_pow, BitVec.testBit_toNat]
    have h1 : (0x0f#32).getLsbD j = false := by
      have : (0x0f#32).getLsbD j = (15 : Nat).testBit j := by
        rw [← BitVec.testBit_toNat]; rfl
      rw [this]
      apply Nat.testBit_lt_two_pow
      calc 15 < 2 ^ 4 := by omega
        _ ≤ 2 ^ j := Nat.pow_le_pow_right (by omega) (by omega)
    have h2 : l.getLsbD j = false := by
      rw [← BitVec.testBit_toNat]
      apply Nat.testBit_lt_two_pow
      calc l.toNat < 2 ^ 4 := hl
        _ ≤ 2 ^ j := Nat.pow_le_pow_right (by omega) (by omega)
    rw [h1, h2, show j - 4 + 4 = j by omega]
    by_cases hj2 : j < 32
    · simp [hj2]
    · have : w.getLsbD j = false := BitVec.getLsbD_of_ge w j (by omega)
      simp [this]

theorem nibble (w : BitVec 32) : (w &&& 0x0f#32).toNat = w.toNat % 16 := by
  rw [BitVec.toNat_and]
  exact Nat.and_two_pow_sub_one_eq_mod w.toNat 4

theorem nibble_lock (w : BitVec 32) :
    (hashLock w).toNat % 16 = min (w.toNat % 16 + 1) 15 ∧ (hashLock w).toNat / 16 = w.toNat / 16 := by
  unfold hashLock
  simp only
  have hn := nibble w
  have hl : (if (w &&& 0x0f#32).toNat < 15 then (w &&& 0x0f#32) + 1#32 else w &&& 0x0f#32).toNat
      = min (w.toNat % 16 + 1) 15 := by
    split
    · rw [BitVec.toNat_add, hn]
      rename_i h
      rw [hn] at h
      simp
      omega
    · rename_i h
      rw [hn] at h ⊢
      omega
  rw [setNibble _ _ (by rw [hl]; omega), hl]
  omega

theorem nibble_unlock (w : BitVec 32) :
    (hashUnlock w).toNat % 16 = (if w.toNat % 16 = 15 then 15 else w.toNat % 16 - 1) ∧
      (hashUnlock w).toNat / 16 = w.toNat / 16 := by
  unfold hashUnlock
  simp only
  have hn := nibble w
  have hl : (if (w &&& 0x0f#32).toNat < 15 then
      (if (w &&& 0x0f#32).toNat > 0 then (w &&& 0x0f#32) - 1#32 else w &&& 0x0f#32) else w &&& 0x0f#32).toNat
      = (if w.toNat % 16 = 15 then 15 else w.toNat % 16 - 1) := by
    split
    · rename_i h
      rw [hn] at h
      split
      · rename_i h2
        rw [hn] at h2
        rw [BitVec.toNat_sub, hn, if_neg (by omega)]
        simp
        omega
      · rename_i h2
        rw [hn] at h2 ⊢
        rw [if_neg (by omega)]; omega
    · rename_i h
      rw [hn] at h ⊢
      rw [if_pos (by omega)]; omega
  rw [setNibble _ _ (by rw [hl]; split <;> omega), hl]
  split <;> omega

theorem isLocked_iff (w : BitVec 32) : hashIsLocked w = true ↔ 0 < w.toNat % 16 := by
  unfold hashIsLocked
  rw [← nibble w, bne_iff_ne, Nat.pos_iff_ne_zero]
  constructor
  · intro h h2
    exact h (BitVec.eq_of_toNat_eq (by simpa using h2))
  · intro h h2
    rw [h2] at h; exact h rfl

/-- **C10 (lock counter)** Whatever the order of lock and unlock calls, an entity locked
more often than unlocked counts as locked (the counter saturates at 15 instead of wrapping), and the
other 28 bits of the word are never touched. -/
theorem C10_lock_counter (w : BitVec 32) (ops : List Bool) :
    (0 < outstanding ops → hashIsLocked (ops.foldl lockStep w) = true) ∧
      (ops.foldl lockStep w).toNat / 16 = w.toNat / 16 := by
  have gen : ∀ (ops : List Bool) (w : BitVec 32) (o : Int),
      (w.toNat % 16 = 15 ∨ o ≤ (w.toNat % 16 : Nat)) →
      ((ops.foldl lockStep w).toNat % 16 = 15 ∨
        o + outstanding ops ≤ ((ops.foldl lockStep w).toNat % 16 : Nat)) ∧
      (ops.foldl lockStep w).toNat / 16 = w.toNat / 16 := by
    intro ops
    induction ops with
    | nil => intro w o h; simpa [outstanding] using h
    | cons b ops ih =>
      intro w o h
      rw [List.foldl_cons]
      cases b with
      | true =>
        have hl := nibble_lock w
        have := ih (hashLock w) (o + 1) (by rw [hl.1]; omega)
        simp only [lockStep, if_true, outstanding]
        rw [hl.2] at this
        refine ⟨?_, this.2⟩
        rcases this.1 with h1 | h1
        · exact Or.inl h1
        · right; omega
      | false =>
        have hl := nibble_unlock w
        have := ih (hashUnlock w) (o - 1) (by rw [hl.1]; split <;> omega)
        simp only [lockStep, Bool.false_eq_true, if_false, outstanding]
        rw [hl.2] at this
        refine ⟨?_, this.2⟩
        rcases this.1 with h1 | h1
        · exact Or.inl h1
        · right; omega
  have := gen ops w 0 (by right; omega)
  refine ⟨fun h => ?_, this.2⟩
  rw [isLocked_iff]
  omega

/-- **C10 (lock counter, exact)** If at most 14 locks are ever outstanding and no unlock is unmatched,
the entity is locked exactly while locks are outstanding. -/
theorem C10_lock_counter_exact (w : BitVec 32) (hw : hashIsLocked w = false) (ops : List Bool)
    (hb : ∀ pre, pre <+: ops → 0 ≤ outstanding pre ∧ outstanding pre ≤ 14) :
    hashIsLocked (ops.foldl lockStep w) = true ↔ 0 < outstanding ops := by
  have gen : ∀ (ops : List Bool) (w : BitVec 32) (o : Nat), w.toNat % 16 = o →
      (∀ pre, pre <+: ops → 0 ≤ o + outstanding pre ∧ o + outstanding pre ≤ 14) →
      ((ops.foldl lockStep w).toNat % 16 : Nat) = o + outstanding ops := by
    intro ops
    induction ops with
    | nil => intro w o h _; simp [outstanding, h]
    | cons b ops ih =>
      intro w o h hb
      have h0 := hb [] (List.nil_prefix)
      have h1 := hb [b] (by simp)
      simp only [outstanding] at h0 h1
      rw [List.foldl_cons]
      cases b with
      | true =>
        simp only [outstanding] at h1
        have hl := nibble_lock w
        have := ih (hashLock w) (o + 1) (by rw [hl.1]; omega) (by
          intro pre hp
          have := hb (true :: pre) (by simpa using hp)
          simp only [outstanding] at this; omega)
        simp only [lockStep, if_true, outstanding]
        omega
      | false =>
        simp only [outstanding] at h1
        have hl := nibble_unlock w
        have := ih (hashUnlock w) (o - 1) (by rw [hl.1, if_neg (by omega)]; omega) (by
          intro pre hp
          have := hb (false :: pre) (by simpa using hp)
          simp only [outstanding] at this; omega)
        simp only [lockStep, Bool.false_eq_true, if_false, outstanding]
        omega
  have hw0 : w.toNat % 16 = 0 := by
    have := isLocked_iff w
    rw [hw] at this
    simp at this; omega
  have := gen ops w 0 hw0 (by simpa using hb)
  rw [isLocked_iff]
  omega

example : (∀ pre, pre <+: [true, true, false] → 0 ≤ outstanding pre ∧ outstanding pre ≤ 14) ∧
    hashIsLocked ([true, true, false].foldl lockStep 0xab0#32) = true := by
  refine ⟨?_, by decide⟩
  intro pre hp
  obtain ⟨n, hn⟩ : ∃ n, pre = [true, true, false].take n := ⟨_, List.prefix_iff_eq_take.mp hp⟩
  match n with
  | 0 => subst hn; decide
  | 1 => subst hn; decide
  | 2 => subst hn; decide
  | n+3 => subst hn; simp [outstanding]

end HashT
end MSTK
