import Verif.ParFlagsModel
import Mathlib.Data.List.Nodup
/-!
C31: the parallel adjacency flags and receive counts behave as independent table entries.
-/
namespace MSTK.Par

/-- The calls a user makes after `MESH_Set_Prtn`. -/
inductive Op where
  | ghost (p : Nat) (t : Int)
  | overlap (p : Nat) (t : Int)
  | init
  | setRecv (p : Nat) (t : Int) (v : Nat)
  deriving DecidableEq

def Op.run (s : Info) : Op → Res Info
  | .ghost p t => flagGhosts s p t
  | .overlap p t => flagOverlaps s p t
  | .init => initRecv s
  | .setRecv p t v => setNumRecv s p t v

def runOps (s : Info) : List Op → Res Info
  | [] => .ok s
  | o :: rest => do runOps (← o.run s) rest

/-- A call is legal if it names an existing partition and one of the values of the entity-type enum
other than "deleted". -/
def Op.legal (n : Nat) : Op → Prop
  | .ghost p t | .overlap p t => p < n ∧ 0 ≤ t ∧ t ≤ 6
  | .init => True
  | .setRecv _ _ _ => True

/-! ### Specification: three independent tables -/

/-- `t` names entity type `k`: it is `k` itself or "all types" (5). -/
def covers (t : Int) (k : Nat) : Bool := t = k ∨ t = 5

structure Spec where
  ghost : Nat → Nat → Bool
  overlap : Nat → Nat → Bool
  /-- the partitions for which counts are kept, once the table was set up -/
  parts : Option (Nat → Bool)
  count : Nat → Nat → Nat

def Spec.empty : Spec := ⟨fun _ _ => false, fun _ _ => false, none, fun _ _ => 0⟩

/-- set up the count table: one row of zeros for each partition we have ghosts from -/
def Spec.init (n : Nat) (σ : Spec) : Spec :=
  ⟨σ.ghost, σ.overlap,
    some (fun p => decide (p < n) && (σ.ghost p 0 || σ.ghost p 1 || σ.ghost p 2 || σ.ghost p 3)),
    fun _ _ => 0⟩

/-- table set up if it was not -/
def Spec.ready (n : Nat) (σ : Spec) : Spec := if σ.parts.isSome then σ else σ.init n

def Spec.step (me n : Nat) (σ : Spec) : Op → Spec
  | .ghost p t =>
    ⟨fun q k => σ.ghost q k || (decide (q = p) && decide (p ≠ me) && covers t k), σ.overlap, σ.parts, σ.count⟩
  | .overlap p t =>
    ⟨σ.ghost, fun q k => σ.overlap q k || (decide (q = p) && covers t k), σ.parts, σ.count⟩
  | .init => σ.init n
  | .setRecv p t v =>
    let τ := σ.ready n
    if (τ.parts.getD fun _ => false) p then
      ⟨τ.ghost, τ.overlap, τ.parts, fun q k => if q = p ∧ t = (k : Int) then v else τ.count q k⟩
    else τ

def Spec.run (me n : Nat) (σ : Spec) (h : List Op) : Spec := h.foldl (Spec.step me n) σ

/-! ### Simulation -/

structure RecvRel (a : List Nat) (ps : List Nat) (cs : List Nat) (parts : Nat → Bool) (count : Nat → Nat → Nat) : Prop where
  arr : a = ps.length :: (ps ++ cs)
  len : cs.length = 4 * ps.length
  nodup : ps.Nodup
  mem : ∀ p, p ∈ ps ↔ parts p = true
  cnt : ∀ (i p k : Nat), ps[i]? = some p → k < 4 → cs[4*i+k]? = some (count p k)

structure Rel (me n : Nat) (s : Info) (σ : Spec) : Prop where
  hme : s.me = me
  hn : s.n = n
  flags : ∃ fl, s.flags = some fl ∧ fl.length = n ∧
    ∀ (p : Nat) w, fl[p]? = some w → ∀ k, k < 4 → w.getLsbD (2*k) = σ.ghost p k ∧ w.getLsbD (2*k+1) = σ.overlap p k
  self : ∀ k, σ.ghost me k = false
  noneIff : s.recv = none ↔ σ.parts = none
  recv : ∀ a, s.recv = some a → ∃ parts, σ.parts = some parts ∧ parts me = false ∧
    ∃ ps cs, RecvRel a ps cs parts σ.count

theorem getLsbD_or_one (w : BitVec 32) (k j : Nat) (hk : k < 32) :
    (w ||| (1#32 <<< k)).getLsbD j = (w.getLsbD j || decide (j = k)) := by
  rw [BitVec.getLsbD_or, BitVec.getLsbD_shiftLeft, BitVec.getLsbD_one]
  by_cases h : j = k
  · subst h; simp [hk]
  · by_cases h2 : j < k
    · simp [h, h2]
    · have : j - k ≠ 0 := by omega
      simp [h, this]

theorem bit_eq (w : BitVec 32) (k : Nat) : bit w k = if w.getLsbD k then 1#32 else 0#32 := by
  unfold bit
  apply BitVec.eq_of_getLsbD_eq
  intro i hi
  rw [BitVec.getLsbD_and, BitVec.getLsbD_ushiftRight, BitVec.getLsbD_one]
  by_cases h0 : i = 0
  · subst h0; by_cases hb : w.getLsbD k <;> simp [hb]
  · by_cases hb : w.getLsbD k <;> simp [hb, h0, BitVec.getLsbD_one]

theorem orBit_ok (fl : List (BitVec 32)) (p k : Nat) (w : BitVec 32) (h : fl[p]? = some w) :
    orBit fl p k = .ok (fl.set p (w ||| (1#32 <<< k))) := by
  unfold orBit; rw [h]

/-- Result of the four (or one) `|=` on one word. -/
theorem setFlag_rel (off : Nat) (hoff : off ≤ 1) (s : Info) (p : Nat) (t : Int) (fl : List (BitVec 32))
    (hfl : s.flags = some fl) (hp : p < fl.length) (ht : 0 ≤ t ∧ t ≤ 6) :
    ∃ fl', setFlag off s p t = .ok ⟨s.me, s.n, some fl', s.recv⟩ ∧ fl'.length = fl.length ∧
      ∀ (q : Nat) w', fl'[q]? = some w' → ∃ w, fl[q]? = some w ∧ ∀ k, k < 4 →
        w'.getLsbD (2*k+off) = (w.getLsbD (2*k+off) || (decide (q = p) && covers t k)) ∧
        w'.getLsbD (2*k+(1-off)) = w.getLsbD (2*k+(1-off)) := by
  obtain ⟨me, n, flags, recv⟩ := s
  simp only at hfl
  subst hfl
  have hw : fl[p]? = some fl[p] := List.getElem?_eq_getElem hp
  generalize fl[p] = w0 at hw
  unfold setFlag
  by_cases h46 : t = 4 ∨ t = 6
  · rw [if_pos h46]
    refine ⟨fl, rfl, rfl, fun q w' h => ⟨w', h, fun k hk => ⟨?_, rfl⟩⟩⟩
    have : covers t k = false := by unfold covers; simp; omega
    simp [this]
  rw [if_neg h46]
  dsimp only
  by_cases h5 : t = 5
  · rw [if_pos h5]
    have hs : ∀ x : BitVec 32, (fl.set p x)[p]? = some x := fun x => List.getElem?_set_self hp
    rw [orBit_ok fl p _ w0 hw, Res.bind_ok, orBit_ok _ p _ _ (hs _), Res.bind_ok, List.set_set,
      orBit_ok _ p _ _ (hs _), Res.bind_ok, List.set_set, orBit_ok _ p _ _ (hs _), Res.bind_ok, List.set_set,
      Res.pure_eq]
    refine ⟨_, rfl, by simp, fun q w' h => ?_⟩
    by_cases hq : q = p
    · subst hq
      rw [List.getElem?_set_self hp] at h
      refine ⟨w0, hw, fun k hk => ?_⟩
      cases h
      have hc : covers t k = true := by unfold covers; simp [h5]
      simp only [hc, decide_true, Bool.and_true, Bool.or_true]
      rw [getLsbD_or_one _ _ _ (by omega), getLsbD_or_one _ _ _ (by omega), getLsbD_or_one _ _ _ (by omega), getLsbD_or_one _ _ _ (by omega),
        getLsbD_or_one _ _ _ (by omega), getLsbD_or_one _ _ _ (by omega), getLsbD_or_one _ _ _ (by omega), getLsbD_or_one _ _ _ (by omega)]
      have h1 : off = 0 ∨ off = 1 := by omega
      have h2 : k = 0 ∨ k = 1 ∨ k = 2 ∨ k = 3 := by omega
      rcases h1 with rfl | rfl <;> rcases h2 with rfl | rfl | rfl | rfl <;> simp
    · rw [List.getElem?_set_ne (Ne.symm hq)] at h
      exact ⟨w', h, fun k hk => by simp [hq]⟩
  rw [if_neg h5, if_neg (by omega)]
  simp only [orBit, hw, Res.bind_ok, Res.pure_eq]
  refine ⟨_, rfl, by simp, fun q w' h => ?_⟩
  by_cases hq : q = p
  · subst hq
    rw [List.getElem?_set_self hp] at h
    refine ⟨w0, hw, fun k hk => ?_⟩
    cases h
    rw [getLsbD_or_one _ _ _ (by omega), getLsbD_or_one _ _ _ (by omega)]
    constructor
    · congr 1
      unfold covers
      simp only [decide_true, Bool.true_and]
      apply decide_eq_decide.mpr
      omega
    · have : ¬ (2*k+(1-off) = 2*t.toNat+off) := by omega
      simp [this]
  · rw [List.getElem?_set_ne (Ne.symm hq)] at h
    exact ⟨w', h, fun k hk => by simp [hq]⟩

theorem flag_ghost_rel {me n : Nat} {s : Info} {σ : Spec} (h : Rel me n s σ) (p : Nat) (t : Int)
    (hl : (Op.ghost p t).legal n) : ∃ s', flagGhosts s p t = .ok s' ∧ Rel me n s' (σ.step me n (.ghost p t)) := by
  obtain ⟨hp, ht⟩ := hl
  obtain ⟨fl, hfl, hlen, hbits⟩ := h.flags
  unfold flagGhosts
  by_cases hpm : p = s.me
  · rw [if_pos hpm]
    refine ⟨s, rfl, ⟨h.hme, h.hn, ⟨fl, hfl, hlen, fun q w hw k hk => ?_⟩, fun k => ?_, h.noneIff, h.recv⟩⟩
    · have hp' : p = me := hpm.trans h.hme
      simp [Spec.step, hp', hbits q w hw k hk]
    · have hp' : p = me := hpm.trans h.hme
      simp [Spec.step, hp', h.self]
  · rw [if_neg hpm]
    obtain ⟨fl', he, hl', hb⟩ := setFlag_rel 0 (by omega) s p t fl hfl (by omega) ht
    refine ⟨_, he, ⟨h.hme, h.hn, ⟨fl', rfl, by omega, fun q w' hw' k hk => ?_⟩, fun k => ?_, h.noneIff, h.recv⟩⟩
    · obtain ⟨w, hw, hk'⟩ := hb q w' hw'
      obtain ⟨h1, h2⟩ := hk' k hk
      obtain ⟨h3, h4⟩ := hbits q w hw k hk
      have hpme : p ≠ me := fun e => hpm (e.trans h.hme.symm)
      simp only [Nat.add_zero] at h1
      simp only [Nat.sub_zero] at h2
      refine ⟨?_, ?_⟩
      · rw [h1, h3]; simp [Spec.step, hpme]
      · rw [h2, h4]; rfl
    · have hpme : p ≠ me := fun e => hpm (e.trans h.hme.symm)
      simp [Spec.step, h.self, Ne.symm hpme]

theorem flag_overlap_rel {me n : Nat} {s : Info} {σ : Spec} (h : Rel me n s σ) (p : Nat) (t : Int)
    (hl : (Op.overlap p t).legal n) : ∃ s', flagOverlaps s p t = .ok s' ∧ Rel me n s' (σ.step me n (.overlap p t)) := by
  obtain ⟨hp, ht⟩ := hl
  obtain ⟨fl, hfl, hlen, hbits⟩ := h.flags
  unfold flagOverlaps
  obtain ⟨fl', he, hl', hb⟩ := setFlag_rel 1 (by omega) s p t fl hfl (by omega) ht
  refine ⟨_, he, ⟨h.hme, h.hn, ⟨fl', rfl, by omega, fun q w' hw' k hk => ?_⟩, h.self, h.noneIff, h.recv⟩⟩
  obtain ⟨w, hw, hk'⟩ := hb q w' hw'
  obtain ⟨h1, h2⟩ := hk' k hk
  obtain ⟨h3, h4⟩ := hbits q w hw k hk
  simp only [Nat.sub_self, Nat.add_zero] at h2
  refine ⟨?_, ?_⟩
  · rw [h2, h3]; rfl
  · rw [h1, h4]; rfl

theorem getFlag_rel {me n : Nat} {s : Info} {σ : Spec} (h : Rel me n s σ) (p : Nat) (hp : p < n) :
    (∀ k, k < 4 → hasGhosts s p (k : Nat) = .ok (if σ.ghost p k then 1 else 0) ∧
      hasOverlaps s p (k : Nat) = .ok (if σ.overlap p k then 1 else 0)) ∧
    hasGhosts s p 6 = .ok (if σ.ghost p 0 || σ.ghost p 1 || σ.ghost p 2 || σ.ghost p 3 then 1 else 0) ∧
    hasGhosts s p 5 = .ok (if σ.ghost p 0 && σ.ghost p 1 && σ.ghost p 2 && σ.ghost p 3 then 1 else 0) ∧
    hasOverlaps s p 6 = .ok (if σ.overlap p 0 || σ.overlap p 1 || σ.overlap p 2 || σ.overlap p 3 then 1 else 0) ∧
    hasOverlaps s p 5 = .ok (if σ.overlap p 0 && σ.overlap p 1 && σ.overlap p 2 && σ.overlap p 3 then 1 else 0) := by
  obtain ⟨fl, hfl, hlen, hbits⟩ := h.flags
  have hw : fl[p]? = some (fl[p]'(by omega)) := List.getElem?_eq_getElem _
  generalize fl[p]'(by omega) = w at hw
  have hb := hbits p w hw
  have e0 := hb 0 (by omega); have e1 := hb 1 (by omega); have e2 := hb 2 (by omega); have e3 := hb 3 (by omega)
  simp only [Nat.mul_zero, Nat.zero_add, Nat.mul_one, Nat.reduceMul, Nat.reduceAdd] at e0 e1 e2 e3
  refine ⟨fun k hk => ?_, ?_⟩
  · have hk' : ¬ ((k : Int) = 4) := by omega
    have hk6 : ¬ ((k : Int) = 6) := by omega
    have hk5 : ¬ ((k : Int) = 5) := by omega
    have hs0 : ¬ ((k : Int) < 0 ∨ 32 ≤ 2 * (k : Int) + ((0 : Nat) : Int)) := by omega
    have hs1 : ¬ ((k : Int) < 0 ∨ 32 ≤ 2 * (k : Int) + ((1 : Nat) : Int)) := by omega
    constructor
    · simp only [hasGhosts, getFlag, hfl, hw, if_neg hk', if_neg hk6, if_neg hk5, if_neg hs0, bit_eq,
        Int.toNat_natCast, Nat.add_zero, (hb k hk).1]
      cases σ.ghost p k <;> rfl
    · simp only [hasOverlaps, getFlag, hfl, hw, if_neg hk', if_neg hk6, if_neg hk5, if_neg hs1, bit_eq,
        Int.toNat_natCast, (hb k hk).2]
      cases σ.overlap p k <;> rfl
  · have h64 : ¬ ((6 : Int) = 4) := by omega
    have h54 : ¬ ((5 : Int) = 4) := by omega
    have h56 : ¬ ((5 : Int) = 6) := by omega
    simp only [hasGhosts, hasOverlaps, getFlag, hfl, hw, if_neg h64, if_neg h54, if_neg h56, if_true, bit_eq,
      Nat.add_zero, Nat.reduceAdd, e0, e1, e2, e3]
    refine ⟨?_, ?_, ?_, ?_⟩
    · cases σ.ghost p 0 <;> cases σ.ghost p 1 <;> cases σ.ghost p 2 <;> cases σ.ghost p 3 <;> rfl
    · cases σ.ghost p 0 <;> cases σ.ghost p 1 <;> cases σ.ghost p 2 <;> cases σ.ghost p 3 <;> rfl
    · cases σ.overlap p 0 <;> cases σ.overlap p 1 <;> cases σ.overlap p 2 <;> cases σ.overlap p 3 <;> rfl
    · cases σ.overlap p 0 <;> cases σ.overlap p 1 <;> cases σ.overlap p 2 <;> cases σ.overlap p 3 <;> rfl

/-- some type has ghosts from p -/
def anyG (σ : Spec) (p : Nat) : Bool := σ.ghost p 0 || σ.ghost p 1 || σ.ghost p 2 || σ.ghost p 3

theorem ghostParts_rel {me n : Nat} {s : Info} {σ : Spec} (h : Rel me n s σ) :
    ∀ l : List Nat, (∀ p ∈ l, p < n) → ghostParts s l = .ok (l.filter (anyG σ)) := by
  intro l
  induction l with
  | nil => intro _; rfl
  | cons p r ih =>
    intro hl
    have hp := (getFlag_rel h p (hl p (by simp))).2.1
    rw [show ghostParts s (p :: r) = (hasGhosts s p 6 >>= fun b => ghostParts s r >>= fun r' =>
      pure (if b ≠ 0 then p :: r' else r')) from rfl, hp, ih (fun q hq => hl q (by simp [hq]))]
    simp only [Res.bind_ok, Res.pure_eq, List.filter_cons]
    change Res.ok (if (if anyG σ p = true then 1#32 else 0#32) ≠ 0#32 then _ else _) = _
    cases anyG σ p <;> rfl

theorem init_rel {me n : Nat} {s : Info} {σ : Spec} (h : Rel me n s σ) :
    ∃ s', initRecv s = .ok s' ∧ s'.recv ≠ none ∧ Rel me n s' (σ.init n) := by
  have hg := ghostParts_rel h (List.range s.n) (by intro p hp; rw [h.hn] at hp; exact List.mem_range.mp hp)
  unfold initRecv
  rw [hg]
  refine ⟨_, rfl, by simp, ⟨h.hme, h.hn, h.flags, h.self, by simp [Spec.init], fun a ha => ?_⟩⟩
  simp only [Option.some.injEq] at ha
  refine ⟨_, rfl, ?_, ((List.range s.n).filter (anyG σ)), List.replicate (4 * ((List.range s.n).filter (anyG σ)).length) 0,
    ha.symm, by simp, (List.nodup_range).filter _, fun p => ?_, fun i p k hi hk => ?_⟩
  · simp [h.self]
  · rw [List.mem_filter, List.mem_range, h.hn]
    simp only [Bool.and_eq_true, decide_eq_true_eq]
    rfl
  · have := (List.getElem?_eq_some_iff.mp hi).1
    rw [List.getElem?_replicate, if_pos (by omega)]
    rfl

theorem findPart_eq (a : List Nat) (ps cs : List Nat) (ha : a = ps.length :: (ps ++ cs)) (p : Nat) :
    ∀ cnt i, i + cnt = ps.length → (∀ j, j < i → ps[j]? ≠ some p) →
      ∃ r, findPart a p cnt i = .ok r ∧
        (match r with | none => p ∉ ps | some j => ps[j]? = some p) := by
  intro cnt
  induction cnt with
  | zero =>
    intro i hi hno
    refine ⟨none, rfl, fun hmem => ?_⟩
    obtain ⟨j, hj, e⟩ := List.mem_iff_getElem.mp hmem
    exact hno j (by omega) (by rw [List.getElem?_eq_getElem hj, e])
  | succ c ih =>
    intro i hi hno
    have hlt : i < ps.length := by omega
    have hget : a[1+i]? = some ps[i] := by
      rw [ha, Nat.add_comm 1 i, List.getElem?_cons_succ, List.getElem?_append_left hlt,
        List.getElem?_eq_getElem hlt]
    unfold findPart
    rw [hget]
    dsimp only
    by_cases e : ps[i] = p
    · rw [if_pos e]
      exact ⟨some i, rfl, by dsimp only; rw [List.getElem?_eq_getElem hlt, e]⟩
    · rw [if_neg e]
      apply ih (i+1) (by omega)
      intro j hj
      by_cases hji : j = i
      · subst hji; rw [List.getElem?_eq_getElem hlt]; simpa using e
      · exact hno j (by omega)

theorem setRecv_ready {me n : Nat} {s : Info} {σ : Spec} (h : Rel me n s σ) :
    ∃ s' a, ensureRecv s = .ok s' ∧ s'.recv = some a ∧
      Rel me n s' (σ.ready n) := by
  unfold ensureRecv
  rcases Option.eq_none_or_eq_some s.recv with hr | ⟨a, hr⟩
  · obtain ⟨s', he, hne, hrel⟩ := init_rel h
    rw [hr]
    obtain ⟨a, ha⟩ := Option.ne_none_iff_exists'.mp hne
    refine ⟨s', a, he, ha, ?_⟩
    unfold Spec.ready
    rw [h.noneIff.mp hr]
    exact hrel
  · rw [hr]
    refine ⟨s, a, rfl, hr, ?_⟩
    unfold Spec.ready
    obtain ⟨parts, hp, _⟩ := h.recv a hr
    rw [if_pos (by rw [hp]; rfl)]
    exact h

theorem setRecv_rel {me n : Nat} {s : Info} {σ : Spec} (h : Rel me n s σ) (p : Nat) (t : Int) (v : Nat) :
    ∃ s', setNumRecv s p t v = .ok s' ∧ Rel me n s' (σ.step me n (.setRecv p t v)) := by
  obtain ⟨s1, a, he, hsa, h1⟩ := setRecv_ready h
  obtain ⟨parts, hparts, hme, ps, cs, R⟩ := h1.recv a hsa
  unfold setNumRecv
  rw [he]
  simp only [Res.bind_ok, Spec.step]
  rw [hparts]
  simp only [Option.getD_some]
  by_cases ht : t < 0 ∨ 3 < t
  · rw [if_pos ht]
    refine ⟨s1, rfl, ?_⟩
    split
    · -- an invalid type changes nothing that can be read back
      refine ⟨h1.hme, h1.hn, h1.flags, h1.self, ?_, fun a' ha' => ?_⟩
      · rw [h1.noneIff, hparts]
      · rw [hsa] at ha'; cases ha'
        refine ⟨parts, rfl, hme, ps, cs, R.arr, R.len, R.nodup, R.mem, fun i q k hi hk => ?_⟩
        have hne : ¬ (q = p ∧ t = (k : Int)) := by omega
        simp only [if_neg hne]
        exact R.cnt i q k hi hk
    · exact h1
  rw [if_neg ht, hsa]
  dsimp only
  have h0 : a[0]? = some ps.length := by rw [R.arr]; rfl
  rw [h0]
  dsimp only
  obtain ⟨r, hr, hfind⟩ := findPart_eq a ps cs R.arr p ps.length 0 (by omega) (by omega)
  rw [hr]
  simp only [Res.bind_ok]
  cases r with
  | none =>
    refine ⟨s1, rfl, ?_⟩
    have : ¬ (parts p = true) := fun hp => hfind ((R.mem p).mpr hp)
    rw [if_neg this]; exact h1
  | some i =>
    have hi : i < ps.length := (List.getElem?_eq_some_iff.mp hfind).1
    have hpp : parts p = true := (R.mem p).mp (List.mem_of_getElem? hfind)
    have hlen : a.length = 1 + ps.length + cs.length := by rw [R.arr]; simp; omega
    have hlt : 1 + ps.length + 4*i + t.toNat < a.length := by rw [hlen, R.len]; omega
    dsimp only
    rw [if_pos hlt]
    refine ⟨_, rfl, ?_⟩
    rw [if_pos hpp]
    refine ⟨h1.hme, h1.hn, h1.flags, h1.self, by simp, fun a' ha' => ?_⟩
    simp only [Option.some.injEq] at ha'
    refine ⟨parts, rfl, hme, ps, cs.set (4*i + t.toNat) v, ?_, by simp [R.len], R.nodup, R.mem, fun j q k hj hk => ?_⟩
    · rw [← ha', R.arr]
      rw [show 1 + ps.length + 4*i + t.toNat = (ps.length + (4*i + t.toNat)) + 1 by omega, List.set_cons_succ,
        List.set_append_right _ _ (by omega)]
      simp
    · have hjl : j < ps.length := (List.getElem?_eq_some_iff.mp hj).1
      by_cases hq : q = p ∧ t = (k : Int)
      · obtain ⟨rfl, rfl⟩ := hq
        have hij : i = j := by
          have e1 := (List.getElem?_eq_some_iff.mp hfind).2
          have e2 := (List.getElem?_eq_some_iff.mp hj).2
          exact (List.Nodup.getElem_inj_iff R.nodup).mp (e1.trans e2.symm)
        subst hij
        simp only [Int.toNat_natCast, and_self, if_true]
        rw [List.getElem?_set_self (by rw [R.len]; omega)]
      · simp only [if_neg hq]
        have hne : 4*i + t.toNat ≠ 4*j + k := by
          intro e
          have hij : i = j := by omega
          subst hij
          rw [hfind] at hj
          cases hj
          exact hq ⟨rfl, by omega⟩
        rw [List.getElem?_set_ne hne]
        exact R.cnt j q k hj hk

theorem run_rel {me n : Nat} : ∀ (ops : List Op) {s : Info} {σ : Spec}, Rel me n s σ → (∀ o ∈ ops, o.legal n) →
    ∃ s', runOps s ops = .ok s' ∧ Rel me n s' (σ.run me n ops) := by
  intro ops
  induction ops with
  | nil => intro s σ h _; exact ⟨s, rfl, h⟩
  | cons o r ih =>
    intro s σ h hl
    have hstep : ∃ s', o.run s = .ok s' ∧ Rel me n s' (σ.step me n o) := by
      have ho := hl o (by simp)
      cases o with
      | ghost p t => exact flag_ghost_rel h p t ho
      | overlap p t => exact flag_overlap_rel h p t ho
      | init => obtain ⟨s', h1, _, h2⟩ := init_rel h; exact ⟨s', h1, h2⟩
      | setRecv p t v => exact setRecv_rel h p t v
    obtain ⟨s1, he, h1⟩ := hstep
    obtain ⟨s2, he2, h2⟩ := ih h1 (fun o ho => hl o (by simp [ho]))
    exact ⟨s2, by rw [show runOps s (o :: r) = (o.run s >>= fun s => runOps s r) from rfl, he]; exact he2, h2⟩

theorem start_rel (me n : Nat) : Rel me n (setPrtn new me n) Spec.empty := by
  refine ⟨rfl, rfl, ⟨List.replicate n 0, rfl, by simp, fun p w hw k hk => ?_⟩, fun _ => rfl, by simp [setPrtn, new, Spec.empty], fun a ha => by simp [setPrtn, new] at ha⟩
  rw [List.getElem?_replicate] at hw
  split at hw
  · cases hw; simp [Spec.empty]
  · cases hw

theorem numRecv_rel {me n : Nat} {s : Info} {σ : Spec} (h : Rel me n s σ) (p k : Nat) (hk : k < 4) :
    numRecv s p (k : Nat) = (match σ.parts with
      | none => .fatal
      | some parts => .ok (if parts p then σ.count p k else 0)) := by
  unfold numRecv
  rw [if_neg (by omega)]
  rcases Option.eq_none_or_eq_some s.recv with hr | ⟨a, hr⟩
  · rw [hr, h.noneIff.mp hr]
  · obtain ⟨parts, hp, hme, ps, cs, R⟩ := h.recv a hr
    rw [hr, hp]
    dsimp only
    by_cases hpm : p = s.me
    · rw [if_pos hpm, hpm, h.hme, hme]; rfl
    · rw [if_neg hpm]
      have h0 : a[0]? = some ps.length := by rw [R.arr]; rfl
      rw [h0]
      dsimp only
      obtain ⟨r, hr', hfind⟩ := findPart_eq a ps cs R.arr p ps.length 0 (by omega) (by omega)
      rw [hr']
      cases r with
      | none =>
        have : ¬ (parts p = true) := fun hp => hfind ((R.mem p).mpr hp)
        simp [this]
      | some i =>
        have hpp : parts p = true := (R.mem p).mp (List.mem_of_getElem? hfind)
        have hi : i < ps.length := (List.getElem?_eq_some_iff.mp hfind).1
        simp only [Res.bind_ok, hpp, if_true, Int.toNat_natCast]
        have := R.cnt i p k hfind hk
        rw [R.arr, show 1 + ps.length + 4*i + k = (ps.length + (4*i+k)) + 1 by omega, List.getElem?_cons_succ,
          List.getElem?_append_right (by omega), show ps.length + (4*i+k) - ps.length = 4*i+k by omega, this]
        rfl

/-- **C31.** After `MESH_Set_Prtn(me, n)` and any legal history of flag, table-setup and count calls,
reading a flag gives exactly the entry of an independent table for that partition, entity type and
kind (ghost or overlap), the any/all readers combine the four types, and reading a receive count
gives the last value recorded for that partition and type since the count table was set up (0 if
none).  No call has undefined behaviour. -/
theorem C31_flags_independent (me n : Nat) (h : List Op) (hl : ∀ o ∈ h, o.legal n) :
    ∃ s, runOps (setPrtn new me n) h = .ok s ∧
      let σ := Spec.empty.run me n h
      (∀ p, p < n → ∀ k, k < 4 →
        hasGhosts s p (k : Nat) = .ok (if σ.ghost p k then 1 else 0) ∧
        hasOverlaps s p (k : Nat) = .ok (if σ.overlap p k then 1 else 0)) ∧
      (∀ p, p < n →
        hasGhosts s p 6 = .ok (if σ.ghost p 0 || σ.ghost p 1 || σ.ghost p 2 || σ.ghost p 3 then 1 else 0) ∧
        hasGhosts s p 5 = .ok (if σ.ghost p 0 && σ.ghost p 1 && σ.ghost p 2 && σ.ghost p 3 then 1 else 0) ∧
        hasOverlaps s p 6 = .ok (if σ.overlap p 0 || σ.overlap p 1 || σ.overlap p 2 || σ.overlap p 3 then 1 else 0) ∧
        hasOverlaps s p 5 = .ok (if σ.overlap p 0 && σ.overlap p 1 && σ.overlap p 2 && σ.overlap p 3 then 1 else 0)) ∧
      (∀ p k, k < 4 → ∀ parts, σ.parts = some parts →
        numRecv s p (k : Nat) = .ok (if parts p then σ.count p k else 0)) := by
  obtain ⟨s, he, hr⟩ := run_rel h (start_rel me n) hl
  refine ⟨s, he, fun p hp => (getFlag_rel hr p hp).1, fun p hp => ?_, fun p k hk parts hparts => ?_⟩
  · exact (getFlag_rel hr p hp).2
  · rw [numRecv_rel hr p k hk, hparts]

/-- The ghost flag in the specification means what it says: it was raised by a call naming that
partition and type, or that partition and "all types", and never for the caller's own partition. -/
theorem C31_spec_meaning (me n : Nat) (h : List Op) (p k : Nat) :
    ((Spec.empty.run me n h).ghost p k = true ↔
      p ≠ me ∧ ∃ t, Op.ghost p t ∈ h ∧ (t = (k : Int) ∨ t = 5)) ∧
    ((Spec.empty.run me n h).overlap p k = true ↔
      ∃ t, Op.overlap p t ∈ h ∧ (t = (k : Int) ∨ t = 5)) := by
  have gen : ∀ (h : List Op) (σ : Spec),
      ((σ.run me n h).ghost p k = true ↔ σ.ghost p k = true ∨ (p ≠ me ∧ ∃ t, Op.ghost p t ∈ h ∧ (t = (k : Int) ∨ t = 5))) ∧
      ((σ.run me n h).overlap p k = true ↔ σ.overlap p k = true ∨ (∃ t, Op.overlap p t ∈ h ∧ (t = (k : Int) ∨ t = 5))) := by
    intro h
    induction h with
    | nil => intro σ; simp [Spec.run]
    | cons o r ih =>
      intro σ
      have := ih (σ.step me n o)
      simp only [Spec.run, List.foldl_cons] at this ⊢
      rw [this.1, this.2]
      cases o with
      | ghost q t =>
        constructor
        · simp only [Spec.step, covers, Bool.or_eq_true, Bool.and_eq_true, decide_eq_true_eq, List.mem_cons, Op.ghost.injEq]
          constructor
          · rintro ((h | ⟨⟨rfl, h1⟩, h2⟩) | ⟨h1, t', h2, h3⟩)
            · exact Or.inl h
            · exact Or.inr ⟨h1, t, Or.inl ⟨rfl, rfl⟩, h2⟩
            · exact Or.inr ⟨h1, t', Or.inr h2, h3⟩
          · rintro (h | ⟨h1, t', (⟨rfl, rfl⟩ | h2), h3⟩)
            · exact Or.inl (Or.inl h)
            · exact Or.inl (Or.inr ⟨⟨rfl, h1⟩, h3⟩)
            · exact Or.inr ⟨h1, t', h2, h3⟩
        · simp [Spec.step]
      | overlap q t =>
        constructor
        · simp [Spec.step]
        · simp only [Spec.step, covers, Bool.or_eq_true, Bool.and_eq_true, decide_eq_true_eq, List.mem_cons, Op.overlap.injEq]
          constructor
          · rintro ((h | ⟨rfl, h2⟩) | ⟨t', h2, h3⟩)
            · exact Or.inl h
            · exact Or.inr ⟨t, Or.inl ⟨rfl, rfl⟩, h2⟩
            · exact Or.inr ⟨t', Or.inr h2, h3⟩
          · rintro (h | ⟨t', (⟨rfl, rfl⟩ | h2), h3⟩)
            · exact Or.inl (Or.inl h)
            · exact Or.inl (Or.inr ⟨rfl, h3⟩)
            · exact Or.inr ⟨t', h2, h3⟩
      | init => simp [Spec.step, Spec.init]
      | setRecv q t v =>
        have e : ∀ τ : Spec, (τ.ready n).ghost = τ.ghost ∧ (τ.ready n).overlap = τ.overlap := by
          intro τ; unfold Spec.ready; split <;> exact ⟨rfl, rfl⟩
        simp only [Spec.step]
        split <;> simp [e σ]
  have := gen h Spec.empty
  simpa [Spec.empty] using this

/-- Calling `MESH_Set_Prtn` again with more partitions keeps the old flag array, so the next flag call
for one of the new partitions writes outside it. -/
theorem C31_set_prtn_again_negation :
    flagGhosts (setPrtn (setPrtn new 0 2) 0 4) 3 0 = .ub ∧
    initRecv (setPrtn (setPrtn new 0 2) 0 4) = .ub := by decide

example : (∀ o ∈ [Op.ghost 2 1, .overlap 0 5, .init, .setRecv 2 1 7], o.legal 3) := by
  intro o ho; simp at ho; rcases ho with rfl | rfl | rfl | rfl <;> simp [Op.legal]

example : (runOps (setPrtn new 0 3) [.ghost 2 1, .overlap 1 5, .init, .setRecv 2 1 7] >>= fun s => numRecv s 2 1) = .ok 7 := by
  decide

end MSTK.Par
