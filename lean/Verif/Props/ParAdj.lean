import Verif.ParAdjModel
import Verif.Props.ParFlags
import Mathlib.Tactic.Choose

/-!
C32: after `MESH_Update_ParallelAdj` the partitions agree on who sends what to whom.
-/
namespace MSTK.Par

/-! ### helpers: one partition -/

theorem mem_types {k : Nat} : k ∈ types ↔ k < 4 := by
  unfold types; simp; omega

theorem flagMasters_rel {me n : Nat} {t : Nat} (ht : t < 4) : ∀ (ms : List Nat) {s : Info} {σ : Spec},
    Rel me n s σ → (∀ m ∈ ms, m < n) → ∃ s' σ', flagMasters t ms s = .ok s' ∧ Rel me n s' σ' ∧
      (∀ q k, σ'.ghost q k = (σ.ghost q k || (decide (q ≠ me) && decide (k = t) && decide (q ∈ ms)))) ∧
      σ'.overlap = σ.overlap := by
  intro ms
  induction ms with
  | nil => intro s σ h _; exact ⟨s, σ, rfl, h, by simp, rfl⟩
  | cons m ms ih =>
    intro s σ h hm
    obtain ⟨s1, h1, h2⟩ := flag_ghost_rel h m (t : Int) ⟨hm m (by simp), by omega, by omega⟩
    obtain ⟨s2, σ2, h3, h4, h5, h6⟩ := ih h2 (fun x hx => hm x (by simp [hx]))
    refine ⟨s2, σ2, ?_, h4, ?_, by rw [h6]; rfl⟩
    · rw [show flagMasters t (m :: ms) s = (flagGhosts s m t >>= fun s => flagMasters t ms s) from rfl, h1]
      exact h3
    · intro q k
      rw [h5]
      simp only [Spec.step, covers]
      have e : (decide ((t : Int) = k ∨ (t : Int) = 5)) = decide (k = t) := by
        rw [decide_eq_decide]; omega
      rw [e]
      by_cases a : q = m
      · subst a
        by_cases b : q = me <;> by_cases c : k = t <;> simp [b, c]
      · simp [a]

theorem flagAllGhosts_rel {me n : Nat} (masters : Nat → List Nat) : ∀ (ts : List Nat) {s : Info} {σ : Spec},
    Rel me n s σ → (∀ t ∈ ts, t < 4 ∧ ∀ m ∈ masters t, m < n) →
    ∃ s' σ', flagAllGhosts masters ts s = .ok s' ∧ Rel me n s' σ' ∧
      (∀ q k, σ'.ghost q k = (σ.ghost q k || (decide (q ≠ me) && decide (k ∈ ts) && decide (q ∈ masters k)))) ∧
      σ'.overlap = σ.overlap := by
  intro ts
  induction ts with
  | nil => intro s σ h _; exact ⟨s, σ, rfl, h, by simp, rfl⟩
  | cons t ts ih =>
    intro s σ h hm
    obtain ⟨ht, hm1⟩ := hm t (by simp)
    obtain ⟨s1, σ1, h1, h2, h2g, h2o⟩ := flagMasters_rel ht (masters t) h hm1
    obtain ⟨s2, σ2, h3, h4, h5, h6⟩ := ih h2 (fun x hx => hm x (by simp [hx]))
    refine ⟨s2, σ2, ?_, h4, ?_, by rw [h6, h2o]⟩
    · rw [show flagAllGhosts masters (t :: ts) s = (flagMasters t (masters t) s >>= fun s =>
        flagAllGhosts masters ts s) from rfl, h1]
      exact h3
    · intro q k
      rw [h5, h2g]
      by_cases a : k = t
      · subst a
        by_cases b : q = me <;> by_cases c : k ∈ ts <;> by_cases d : q ∈ masters k <;> simp [b, c, d]
      · by_cases b : q = me <;> by_cases c : k ∈ ts <;> simp [a, b, c]

/-- bit `2t` of a word -/
def hasBit (w : BitVec 32) (t : Nat) : Bool := decide (w &&& (1#32 <<< (2 * t)) ≠ 0)

theorem adjWord_rel {me n : Nat} {s : Info} {σ : Spec} (h : Rel me n s σ) {i : Nat} (hi : i < n) :
    ∃ w, adjWord s i types 0 = .ok w ∧ ∀ t, t < 4 → hasBit w t = σ.ghost i t := by
  have hg := fun k hk => ((getFlag_rel h i hi).1 k hk).1
  have h0 := hg 0 (by omega)
  have h1 := hg 1 (by omega)
  have h2 := hg 2 (by omega)
  have h3 := hg 3 (by omega)
  refine ⟨_, by
    unfold types adjWord adjWord adjWord adjWord adjWord
    rw [h0, Res.bind_ok, h1, Res.bind_ok, h2, Res.bind_ok, h3, Res.bind_ok], ?_⟩
  intro t ht
  have : t = 0 ∨ t = 1 ∨ t = 2 ∨ t = 3 := by omega
  rcases this with rfl | rfl | rfl | rfl <;>
    cases σ.ghost i 0 <;> cases σ.ghost i 1 <;> cases σ.ghost i 2 <;> cases σ.ghost i 3 <;> decide

theorem localAdj_rel {me n : Nat} {s : Info} {σ : Spec} (h : Rel me n s σ) : ∀ (is : List Nat),
    (∀ i ∈ is, i < n) → ∃ ws, localAdj s is = .ok ws ∧ ws.length = is.length ∧
      ∀ (j i : Nat), is[j]? = some i → ∃ w, ws[j]? = some w ∧ ∀ t, t < 4 → hasBit w t = σ.ghost i t := by
  intro is
  induction is with
  | nil => intro _; exact ⟨[], rfl, rfl, by simp⟩
  | cons i is ih =>
    intro hi
    obtain ⟨w, h1, h2⟩ := adjWord_rel h (hi i (by simp))
    obtain ⟨ws, h3, h4, h5⟩ := ih (fun x hx => hi x (by simp [hx]))
    refine ⟨w :: ws, ?_, by simp [h4], ?_⟩
    · rw [show localAdj s (i :: is) = (adjWord s i types 0 >>= fun w => localAdj s is >>= fun r =>
        pure (w :: r)) from rfl, h1, Res.bind_ok, h3]
      rfl
    · intro j x hj
      cases j with
      | zero => simp at hj; subst hj; exact ⟨w, rfl, h2⟩
      | succ j => rw [List.getElem?_cons_succ] at hj ⊢; exact h5 j x hj

theorem flagFrom_rel {me n i : Nat} (hi : i < n) (w : BitVec 32) : ∀ (ts : List Nat) {s : Info} {σ : Spec},
    Rel me n s σ → (∀ t ∈ ts, t < 4) → ∃ s' σ', flagFrom i w ts s = .ok s' ∧ Rel me n s' σ' ∧
      σ'.ghost = σ.ghost ∧
      (∀ q k, σ'.overlap q k = (σ.overlap q k || (decide (q = i) && decide (k ∈ ts) && hasBit w k))) := by
  intro ts
  induction ts with
  | nil => intro s σ h _; exact ⟨s, σ, rfl, h, rfl, by simp⟩
  | cons t ts ih =>
    intro s σ h hts
    have ht := hts t (by simp)
    by_cases hb : w &&& (1#32 <<< (2 * t)) ≠ 0
    · obtain ⟨s1, h1, h2⟩ := flag_overlap_rel h i (t : Int) ⟨hi, by omega, by omega⟩
      obtain ⟨s2, σ2, h3, h4, h5, h6⟩ := ih h2 (fun x hx => hts x (by simp [hx]))
      refine ⟨s2, σ2, ?_, h4, by rw [h5]; rfl, ?_⟩
      · unfold flagFrom
        rw [if_pos hb, h1, Res.bind_ok]
        exact h3
      · intro q k
        rw [h6]
        simp only [Spec.step, covers]
        have e : (decide ((t : Int) = k ∨ (t : Int) = 5)) = decide (k = t) := by
          rw [decide_eq_decide]; omega
        rw [e]
        by_cases a : k = t
        · subst a
          have hbb : hasBit w k = true := decide_eq_true hb
          by_cases b : q = i <;> by_cases c : k ∈ ts <;> simp [b, c, hbb]
        · by_cases b : q = i <;> by_cases c : k ∈ ts <;> simp [a, b, c]
    · obtain ⟨s2, σ2, h3, h4, h5, h6⟩ := ih h (fun x hx => hts x (by simp [hx]))
      refine ⟨s2, σ2, ?_, h4, h5, ?_⟩
      · unfold flagFrom
        rw [if_neg hb, Res.bind_ok]
        exact h3
      · intro q k
        rw [h6]
        by_cases a : k = t
        · subst a
          have hbb : hasBit w k = false := decide_eq_false hb
          by_cases b : q = i <;> by_cases c : k ∈ ts <;> simp [b, c, hbb]
        · by_cases b : q = i <;> by_cases c : k ∈ ts <;> simp [a, b, c]

theorem flagAllOverlaps_rel {glob : List (BitVec 32)} {n me : Nat} : ∀ (is : List Nat) {s : Info} {σ : Spec},
    Rel me n s σ → (∀ i ∈ is, i < n ∧ (glob[i * n + me]?).isSome) →
    ∃ s' σ', flagAllOverlaps glob n me is s = .ok s' ∧ Rel me n s' σ' ∧ σ'.ghost = σ.ghost ∧
      (∀ q k, σ'.overlap q k = (σ.overlap q k || (decide (q ∈ is) && decide (k < 4) &&
        hasBit (glob[q * n + me]?.getD 0) k))) := by
  intro is
  induction is with
  | nil => intro s σ h _; exact ⟨s, σ, rfl, h, rfl, by simp⟩
  | cons i is ih =>
    intro s σ h his
    obtain ⟨hi, hsome⟩ := his i (by simp)
    obtain ⟨w, hw⟩ := Option.isSome_iff_exists.1 hsome
    obtain ⟨s1, σ1, h1, h2, h2g, h2o⟩ := flagFrom_rel hi w types h (fun t ht => mem_types.1 ht)
    obtain ⟨s2, σ2, h3, h4, h5, h6⟩ := ih h2 (fun x hx => his x (by simp [hx]))
    refine ⟨s2, σ2, ?_, h4, by rw [h5, h2g], ?_⟩
    · rw [show flagAllOverlaps glob n me (i :: is) s = (Res.ofOption glob[i * n + me]? >>= fun w =>
        flagFrom i w types s >>= fun s => flagAllOverlaps glob n me is s) from rfl, hw,
        Res.ofOption_some, Res.bind_ok, h1, Res.bind_ok, h3]
    · intro q k
      rw [h6, h2o]
      have e : decide (k ∈ types) = decide (k < 4) := by rw [decide_eq_decide]; exact mem_types
      rw [e]
      by_cases a : q = i
      · subst a
        rw [hw, Option.getD_some]
        generalize hasBit w k = z
        generalize σ.overlap q k = y
        by_cases b : k < 4 <;> by_cases c : q ∈ is <;> cases z <;> cases y <;> simp [b, c]
      · by_cases b : q ∈ is <;> simp [a, b]

theorem setCounts_rel {me n i : Nat} {ov : List Nat} : ∀ (ts : List Nat) {s : Info} {σ : Spec}
    {parts : Nat → Bool}, Rel me n s σ → σ.parts = some parts → parts i = true →
    (∀ t ∈ ts, t < 4 ∧ (ov[4 * i + t]?).isSome) →
    ∃ s' σ', setCounts ov i ts s = .ok s' ∧ Rel me n s' σ' ∧ σ'.ghost = σ.ghost ∧
      σ'.overlap = σ.overlap ∧ σ'.parts = σ.parts ∧
      ∀ q k, σ'.count q k = if q = i ∧ k ∈ ts then ov[4 * i + k]?.getD 0 else σ.count q k := by
  intro ts
  induction ts with
  | nil => intro s σ parts h _ _ _; exact ⟨s, σ, rfl, h, rfl, rfl, rfl, by simp⟩
  | cons t ts ih =>
    intro s σ parts h hp hpi hts
    obtain ⟨ht, hsome⟩ := hts t (by simp)
    obtain ⟨c, hc⟩ := Option.isSome_iff_exists.1 hsome
    obtain ⟨s1, h1, h2⟩ := setRecv_rel h i (t : Int) c
    have hready : σ.ready n = σ := by
      unfold Spec.ready; rw [if_pos (by rw [hp]; rfl)]
    have hstep : σ.step me n (.setRecv i t c) = ⟨σ.ghost, σ.overlap, σ.parts, fun q k =>
        if q = i ∧ (t : Int) = (k : Int) then c else σ.count q k⟩ := by
      unfold Spec.step
      dsimp only
      rw [hready, hp]
      simp [hpi]
    rw [hstep] at h2
    obtain ⟨s2, σ2, h3, h4, h5, h6, h7, h8⟩ := ih h2 hp hpi (fun x hx => hts x (by simp [hx]))
    refine ⟨s2, σ2, ?_, h4, h5, h6, h7, ?_⟩
    · rw [show setCounts ov i (t :: ts) s = (Res.ofOption ov[4 * i + t]? >>= fun c =>
        setNumRecv s i t c >>= fun s => setCounts ov i ts s) from rfl, hc, Res.ofOption_some,
        Res.bind_ok, h1, Res.bind_ok, h3]
    · intro q k
      rw [h8]
      dsimp only
      by_cases a : q = i
      · by_cases b : k = t
        · subst b
          simp [a, hc]
        · have b' : ¬ (t : Int) = (k : Int) := by omega
          by_cases d : k ∈ ts <;> simp [a, b, b', d]
      · simp [a]

theorem setAllCounts_rel {me n : Nat} {ov : List Nat} : ∀ (is : List Nat) {s : Info} {σ : Spec}
    {parts : Nat → Bool}, Rel me n s σ → σ.parts = some parts →
    (∀ i, i < n → parts i = anyG σ i) →
    (∀ i ∈ is, i < n ∧ ∀ t, t < 4 → (ov[4 * i + t]?).isSome) →
    ∃ s' σ', setAllCounts ov is s = .ok s' ∧ Rel me n s' σ' ∧ σ'.ghost = σ.ghost ∧
      σ'.overlap = σ.overlap ∧ σ'.parts = σ.parts ∧
      ∀ q k, k < 4 → q ∈ is → parts q = true → σ'.count q k = ov[4 * q + k]?.getD 0 := by
  intro is
  suffices H : ∀ {s : Info} {σ : Spec} {parts : Nat → Bool}, Rel me n s σ → σ.parts = some parts →
    (∀ i, i < n → parts i = anyG σ i) →
    (∀ i ∈ is, i < n ∧ ∀ t, t < 4 → (ov[4 * i + t]?).isSome) →
    ∃ s' σ', setAllCounts ov is s = .ok s' ∧ Rel me n s' σ' ∧ σ'.ghost = σ.ghost ∧
      σ'.overlap = σ.overlap ∧ σ'.parts = σ.parts ∧
      ∀ q k, k < 4 → σ'.count q k = if q ∈ is ∧ parts q = true then ov[4 * q + k]?.getD 0 else σ.count q k by
    intro s σ parts h1 h2 h3 h4
    obtain ⟨s', σ', a, b, c, d, e, f⟩ := H h1 h2 h3 h4
    exact ⟨s', σ', a, b, c, d, e, fun q k hk hq hp => by rw [f q k hk, if_pos ⟨hq, hp⟩]⟩
  induction is with
  | nil => intro s σ parts h _ _ _; exact ⟨s, σ, rfl, h, rfl, rfl, rfl, by simp⟩
  | cons i is ih =>
    intro s σ parts h hp hany his
    obtain ⟨hi, hsome⟩ := his i (by simp)
    have hg := (getFlag_rel h i hi).2.1
    have hg' : hasGhosts s i 6 = .ok (if anyG σ i then 1 else 0) := hg
    rw [← hany i hi] at hg'
    cases hpi : parts i with
    | true =>
      obtain ⟨s1, σ1, h1, h2, h2g, h2o, h2p, h2c⟩ := setCounts_rel (ov := ov) types h hp hpi
        (fun t ht => ⟨mem_types.1 ht, hsome t (mem_types.1 ht)⟩)
      obtain ⟨s2, σ2, h3, h4, h5, h6, h7, h8⟩ := ih h2 (h2p.trans hp)
        (fun j hj => by rw [hany j hj]; unfold anyG; rw [h2g]) (fun x hx => his x (by simp [hx]))
      refine ⟨s2, σ2, ?_, h4, h5.trans h2g, h6.trans h2o, h7.trans h2p, ?_⟩
      · unfold setAllCounts
        rw [hg', hpi, Res.bind_ok, if_pos (by decide), h1, Res.bind_ok]
        exact h3
      · intro q k hk
        rw [h8 q k hk, h2c]
        have hkt : k ∈ types := mem_types.2 hk
        by_cases a : q = i
        · subst a
          by_cases b : q ∈ is <;> simp [b, hpi, hkt]
        · simp [a]
    | false =>
      obtain ⟨s2, σ2, h3, h4, h5, h6, h7, h8⟩ := ih h hp hany (fun x hx => his x (by simp [hx]))
      refine ⟨s2, σ2, ?_, h4, h5, h6, h7, ?_⟩
      · unfold setAllCounts
        rw [hg', hpi, Res.bind_ok, if_neg (by decide), Res.bind_ok]
        exact h3
      · intro q k hk
        rw [h8 q k hk]
        by_cases a : q = i
        · subst a
          simp [hpi]
        · simp [a]

/-! ### helpers: all partitions -/

theorem mapR_ok {α β : Type} {g : α → Res β} : ∀ {as : List α}, (∀ a ∈ as, ∃ b, g a = .ok b) →
    ∃ bs, mapR g as = .ok bs ∧ bs.length = as.length ∧
      ∀ (i : Nat) (a : α), as[i]? = some a → ∃ b, bs[i]? = some b ∧ g a = .ok b := by
  intro as
  induction as with
  | nil => intro _; exact ⟨[], rfl, rfl, by simp⟩
  | cons a as ih =>
    intro h
    obtain ⟨b, hb⟩ := h a (by simp)
    obtain ⟨bs, h1, h2, h3⟩ := ih (fun x hx => h x (by simp [hx]))
    refine ⟨b :: bs, ?_, by simp [h2], ?_⟩
    · rw [show mapR g (a :: as) = (g a >>= fun b => mapR g as >>= fun bs => pure (b :: bs)) from rfl, hb,
        Res.bind_ok, h1]
      rfl
    · intro i x hx
      cases i with
      | zero => simp at hx; subst hx; exact ⟨b, rfl, hb⟩
      | succ i => rw [List.getElem?_cons_succ] at hx ⊢; exact h3 i x hx

theorem getElem?_flatten_rows {α : Type} {n : Nat} : ∀ {L : List (List α)}, (∀ r ∈ L, r.length = n) →
    ∀ (i j : Nat), j < n → L.flatten[i * n + j]? = (L[i]?).bind (·[j]?) := by
  intro L
  induction L with
  | nil => intro _ i j _; simp
  | cons r L ih =>
    intro h i j hj
    have hr := h r (by simp)
    rw [List.flatten_cons]
    cases i with
    | zero =>
      rw [List.getElem?_append_left (by omega)]
      simp
    | succ i =>
      rw [List.getElem?_append_right (by rw [hr, Nat.succ_mul]; omega), hr, List.getElem?_cons_succ,
        ← ih (fun x hx => h x (by simp [hx])) i j hj]
      congr 1
      rw [Nat.succ_mul]
      omega

/-! ### the property -/

/-- `p` plans to send entities of type `k` to `q` -/
def Sends (s : Info) (q k : Nat) : Prop := hasOverlaps s q (k : Nat) = .ok 1
/-- `q` plans to receive entities of type `k` from `p` -/
def Receives (s : Info) (p k : Nat) : Prop := hasGhosts s p (k : Nat) = .ok 1

/-- The partitions as `MESH_Update_ParallelAdj` may find them: each went through some history of calls
after `MESH_Set_Prtn`, the ghosts belong to partitions of the communicator, and plans to send made
earlier (if any) are answered by plans to receive. -/
structure Partitions (rs : List Rank) : Prop where
  many : 2 ≤ rs.length
  history : ∀ (p : Nat) (r : Rank), rs[p]? = some r →
    ∃ os : List Op, (∀ o ∈ os, o.legal rs.length) ∧ runOps (setPrtn new p rs.length) os = .ok r.info
  masters : ∀ r ∈ rs, ∀ k, k < 4 → ∀ m ∈ r.masters k, m < rs.length
  matched : ∀ (p q : Nat) (r r' : Rank), rs[p]? = some r → rs[q]? = some r' → ∀ k, k < 4 →
    Sends r.info q k → Receives r'.info p k

/-- **C32.** -/
theorem C32_partitions_agree {rs : List Rank} (h : Partitions rs) :
    ∃ out, updateParAdj rs = .ok out ∧ out.length = rs.length ∧
      -- the partitions listed as those that are received from
      (∀ (q : Nat) (s' : Info), out[q]? = some s' → ∃ ps, ghostPrtns s' = .ok ps ∧ ps.Nodup ∧
        ∀ p, p ∈ ps ↔ p < rs.length ∧ ∃ k, k < 4 ∧ Receives s' p k) ∧
      ∀ (p q : Nat) (r r' : Rank) (s s' : Info), rs[p]? = some r → rs[q]? = some r' →
        out[p]? = some s → out[q]? = some s' → ∀ k, k < 4 →
        -- p plans to send to q exactly when q plans to receive from p
        (Sends s q k ↔ Receives s' p k) ∧
        -- which is so when q has ghosts of this type from p (or planned so earlier)
        (Receives s' p k ↔ Receives r'.info p k ∨ (p ≠ q ∧ p ∈ r'.masters k)) ∧
        -- and then q expects the number that p will send
        (Receives s' p k → numRecv s' p (k : Nat) = .ok (r.ovNum k)) := by
  obtain ⟨hn2, hist, hmast, hmatch⟩ := h
  generalize hn : rs.length = n at *
  -- up to the first gather
  have H1 : ∀ p : Fin n, ∃ r s1 σ0 σ1, rs[p.val]? = some r ∧ Rel p.val n r.info σ0 ∧
      flagAllGhosts r.masters types r.info = .ok s1 ∧ Rel p.val n s1 σ1 ∧
      (∀ q k, k < 4 → σ1.ghost q k = (σ0.ghost q k || (decide (q ≠ p.val) && decide (q ∈ r.masters k)))) ∧
      σ1.overlap = σ0.overlap := by
    rintro ⟨p, hp⟩
    obtain ⟨r, hr⟩ : ∃ r, rs[p]? = some r := ⟨_, List.getElem?_eq_getElem (by omega)⟩
    obtain ⟨os, h1, h2⟩ := hist p r hr
    obtain ⟨s, h3, h4⟩ := run_rel os (start_rel p n) h1
    rw [h2] at h3; injection h3 with h3; subst h3
    obtain ⟨s1, σ1, h5, h6, h7, h8⟩ := flagAllGhosts_rel r.masters types h4
      (fun t ht => ⟨mem_types.1 ht, hmast r (List.mem_of_getElem? hr) t (mem_types.1 ht)⟩)
    refine ⟨r, s1, _, σ1, hr, h4, h5, h6, ?_, h8⟩
    intro q k hk
    rw [h7, decide_eq_true (mem_types.2 hk), Bool.and_true]
  choose r s1 σ0 σ1 hr hR0 hA hR1 hG1 hO1 using H1
  have hmem : ∀ x ∈ rs, ∃ p : Fin n, x = r p := by
    intro x hx
    obtain ⟨p, hp, hpx⟩ := List.mem_iff_getElem.1 hx
    refine ⟨⟨p, by omega⟩, ?_⟩
    have := hr ⟨p, by omega⟩
    rw [List.getElem?_eq_getElem hp, hpx] at this
    exact Option.some.inj this
  obtain ⟨ss, m1, m2, m3⟩ := mapR_ok (g := fun r : Rank => flagAllGhosts r.masters types r.info) (as := rs) (by
    intro x hx
    obtain ⟨p, rfl⟩ := hmem x hx
    exact ⟨_, hA p⟩)
  have hss : ∀ p : Fin n, ss[p.val]? = some (s1 p) := by
    intro p
    obtain ⟨b, h1, h2⟩ := m3 p.val (r p) (hr p)
    rw [hA p] at h2; injection h2 with h2; rw [h1, h2]
  -- the gathered words
  have H2 : ∀ p : Fin n, ∃ ws, localAdj (s1 p) (List.range n) = .ok ws ∧ ws.length = n ∧
      ∀ i : Fin n, ∃ w, ws[i.val]? = some w ∧ ∀ t, t < 4 → hasBit w t = (σ1 p).ghost i.val t := by
    intro p
    obtain ⟨ws, h1, h2, h3⟩ := localAdj_rel (hR1 p) (List.range n) (fun i hi => List.mem_range.1 hi)
    refine ⟨ws, h1, by simpa using h2, ?_⟩
    intro i
    exact h3 i.val i.val (by rw [List.getElem?_range i.isLt])
  choose ws hW hWl hWb using H2
  have hmem2 : ∀ x ∈ ss, ∃ p : Fin n, x = s1 p := by
    intro x hx
    obtain ⟨p, hp, hpx⟩ := List.mem_iff_getElem.1 hx
    refine ⟨⟨p, by omega⟩, ?_⟩
    have := hss ⟨p, by omega⟩
    rw [List.getElem?_eq_getElem hp, hpx] at this
    exact Option.some.inj this
  obtain ⟨adj, n1, n2, n3⟩ := mapR_ok (g := fun s : Info => localAdj s (List.range n)) (as := ss) (by
    intro x hx
    obtain ⟨p, rfl⟩ := hmem2 x hx
    exact ⟨_, hW p⟩)
  have hadj : ∀ p : Fin n, adj[p.val]? = some (ws p) := by
    intro p
    obtain ⟨b, h1, h2⟩ := n3 p.val (s1 p) (hss p)
    rw [hW p] at h2; injection h2 with h2; rw [h1, h2]
  have hglob : ∀ i p : Fin n, ∃ w, adj.flatten[i.val * n + p.val]? = some w ∧
      ∀ t, t < 4 → hasBit w t = (σ1 i).ghost p.val t := by
    intro i p
    obtain ⟨w, h1, h2⟩ := hWb i p
    refine ⟨w, ?_, h2⟩
    rw [getElem?_flatten_rows (n := n) ?_ i.val p.val p.isLt, hadj i, Option.bind_some, h1]
    intro x hx
    obtain ⟨j, hj, hjx⟩ := List.mem_iff_getElem.1 hx
    have := hadj ⟨j, by omega⟩
    rw [List.getElem?_eq_getElem hj, hjx] at this
    rw [Option.some.inj this, hWl]
  -- the gathered numbers
  generalize hov : (rs.flatMap fun r => types.map r.ovNum) = ov
  have hovk : ∀ (i : Fin n) k, k < 4 → ov[4 * i.val + k]? = some ((r i).ovNum k) := by
    intro i k hk
    rw [← hov, List.flatMap_def, Nat.mul_comm, getElem?_flatten_rows (n := 4) ?_ i.val k hk,
      List.getElem?_map, hr i]
    · have : k = 0 ∨ k = 1 ∨ k = 2 ∨ k = 3 := by omega
      rcases this with rfl | rfl | rfl | rfl <;> rfl
    · intro x hx
      obtain ⟨y, _, rfl⟩ := List.mem_map.1 hx
      rfl
  -- the rest
  have H3 : ∀ p : Fin n, ∃ s2 σ2, afterGather adj.flatten ov n (p.val, s1 p) = .ok s2 ∧ Rel p.val n s2 σ2 ∧
      σ2.ghost = (σ1 p).ghost ∧
      (∀ (q : Fin n) k, k < 4 → σ2.overlap q.val k = ((σ1 p).overlap q.val k || (σ1 q).ghost p.val k)) ∧
      ∃ parts, σ2.parts = some parts ∧ (∀ q, parts q = true → q < n) ∧ ∀ q : Fin n, parts q.val = anyG (σ1 p) q.val ∧
        ∀ k, k < 4 → parts q.val = true → σ2.count q.val k = (r q).ovNum k := by
    intro p
    obtain ⟨sa, σa, a1, a2, a3, a4⟩ := flagAllOverlaps_rel (glob := adj.flatten) (List.range n) (hR1 p)
      (fun i hi => by
        have hi := List.mem_range.1 hi
        obtain ⟨w, hw, -⟩ := hglob ⟨i, hi⟩ p
        exact ⟨hi, by rw [hw]; rfl⟩)
    obtain ⟨sb, b1, b2, b3⟩ := init_rel a2
    have hany : ∀ i, anyG (σa.init n) i = anyG (σ1 p) i := by
      intro i; unfold anyG Spec.init; rw [a3]
    obtain ⟨s2, σ2, c1, c2, c3, c4, c5, c6⟩ := setAllCounts_rel (ov := ov) (List.range n) b3 rfl
      (fun i hi => by
        rw [hany]; unfold anyG; rw [a3]; simp [hi])
      (fun i hi => by
        have hi := List.mem_range.1 hi
        exact ⟨hi, fun t ht => by rw [hovk ⟨i, hi⟩ t ht]; rfl⟩)
    refine ⟨s2, σ2, ?_, c2, c3.trans a3, ?_, _, c5, fun q hq => ?_, ?_⟩
    · unfold afterGather
      dsimp only
      rw [a1, Res.bind_ok, b1, Res.bind_ok, c1]
    · intro q k hk
      rw [c4]
      show σa.overlap q.val k = _
      rw [a4]
      obtain ⟨w, hw, hwb⟩ := hglob q p
      rw [hw, Option.getD_some, hwb k hk]
      simp [hk]
    · exact of_decide_eq_true (Bool.and_eq_true _ _ ▸ hq).1
    · intro q
      have e : (decide (q.val < n) && (σa.ghost q.val 0 || σa.ghost q.val 1 || σa.ghost q.val 2 ||
          σa.ghost q.val 3)) = anyG (σ1 p) q.val := by
        rw [a3]; unfold anyG; simp
      refine ⟨e, ?_⟩
      intro k hk hp
      rw [c6 q.val k hk (List.mem_range.2 q.isLt) hp, hovk q k hk]
      rfl
  choose s2 σ2 hB hR2 hG2 hO2 parts hP2 hPn hC2 using H3
  have hzip : ∀ p : Fin n, ((List.range n).zip ss)[p.val]? = some (p.val, s1 p) := by
    intro p
    rw [List.getElem?_zip_eq_some]
    exact ⟨List.getElem?_range p.isLt, hss p⟩
  obtain ⟨out, o1, o2, o3⟩ := mapR_ok (g := afterGather adj.flatten ov n) (as := (List.range n).zip ss) (by
    intro x hx
    obtain ⟨p, hp, hpx⟩ := List.mem_iff_getElem.1 hx
    have hp' : p < n := by rw [List.length_zip] at hp; simp at hp; omega
    have := hzip ⟨p, hp'⟩
    rw [List.getElem?_eq_getElem hp, hpx] at this
    rw [Option.some.inj this]
    exact ⟨_, hB ⟨p, hp'⟩⟩)
  have hout : ∀ p : Fin n, out[p.val]? = some (s2 p) := by
    intro p
    obtain ⟨b, h1, h2⟩ := o3 p.val _ (hzip p)
    rw [hB p] at h2; injection h2 with h2; rw [h1, h2]
  refine ⟨out, ?_, ?_, ?_, ?_⟩
  · unfold updateParAdj
    rw [if_neg (by omega), m1, Res.bind_ok, hn, n1, Res.bind_ok]
    dsimp only
    rw [hov, o1]
  · rw [o2, List.length_zip, m2]; simp [hn]
  · intro q sq hsq
    have hq : q < n := by
      have := (List.getElem?_eq_some_iff.1 hsq).1
      rw [o2, List.length_zip, m2] at this; simp [hn] at this; omega
    have e4 := hout ⟨q, hq⟩
    dsimp only at e4
    rw [hsq] at e4
    have e4 := Option.some.inj e4
    have hRq := hR2 ⟨q, hq⟩
    rw [← e4] at hRq
    obtain ⟨a, ha⟩ : ∃ a, sq.recv = some a := by
      cases hc : sq.recv with
      | none => have := hRq.noneIff.1 hc; rw [hP2] at this; cases this
      | some a => exact ⟨a, rfl⟩
    obtain ⟨ps', hps, -, ps, cs, hrr⟩ := hRq.recv a ha
    rw [hP2] at hps
    have hps := Option.some.inj hps
    refine ⟨ps, ?_, hrr.nodup, ?_⟩
    · unfold ghostPrtns ensureRecv
      rw [ha]
      simp only [Res.bind_ok, Res.pure_eq, ha, hrr.arr,
        List.getElem?_cons_zero, List.length_cons, List.length_append]
      rw [if_pos (by omega)]
      simp
    · intro p
      rw [hrr.mem, ← hps]
      constructor
      · intro hp
        have hpn := hPn ⟨q, hq⟩ p hp
        refine ⟨by omega, ?_⟩
        have h1 := (hC2 ⟨q, hq⟩ ⟨p, hpn⟩).1
        dsimp only at h1
        rw [hp] at h1
        have h1 := h1.symm
        unfold anyG at h1
        have key : ∀ k, k < 4 → (σ1 ⟨q, hq⟩).ghost p k = true → ∃ k, k < 4 ∧ Receives sq p k := by
          intro k hk hg
          refine ⟨k, hk, ?_⟩
          unfold Receives
          rw [((getFlag_rel hRq p hpn).1 k hk).1, hG2, hg]
          rfl
        simp only [Bool.or_eq_true] at h1
        rcases h1 with ((h1 | h1) | h1) | h1
        · exact key 0 (by omega) h1
        · exact key 1 (by omega) h1
        · exact key 2 (by omega) h1
        · exact key 3 (by omega) h1
      · rintro ⟨hpn, k, hk, hrec⟩
        have hpn' : p < n := by omega
        have h1 := (hC2 ⟨q, hq⟩ ⟨p, hpn'⟩).1
        dsimp only at h1
        rw [h1]
        unfold Receives at hrec
        rw [((getFlag_rel hRq p hpn').1 k hk).1, hG2] at hrec
        have hg : (σ1 ⟨q, hq⟩).ghost p k = true := by
          generalize (σ1 ⟨q, hq⟩).ghost p k = z at *
          cases z
          · simp at hrec
          · rfl
        unfold anyG
        have : k = 0 ∨ k = 1 ∨ k = 2 ∨ k = 3 := by omega
        rcases this with rfl | rfl | rfl | rfl <;> rw [hg] <;> simp
  · intro p q r1 r2 sp sq hrp hrq hsp hsq k hk
    have hp : p < n := by rw [← hn]; exact (List.getElem?_eq_some_iff.1 hrp).1
    have hq : q < n := by rw [← hn]; exact (List.getElem?_eq_some_iff.1 hrq).1
    have e1 := hr ⟨p, hp⟩
    have e2 := hr ⟨q, hq⟩
    have e3 := hout ⟨p, hp⟩
    have e4 := hout ⟨q, hq⟩
    dsimp only at e1 e2 e3 e4
    rw [hrp] at e1; rw [hrq] at e2; rw [hsp] at e3; rw [hsq] at e4
    have e1 := Option.some.inj e1
    have e2 := Option.some.inj e2
    have e3 := Option.some.inj e3
    have e4 := Option.some.inj e4
    have key : ∀ (b : Bool), (Res.ok (if b then 1#32 else 0#32) = Res.ok 1#32) ↔ b = true := by
      intro b; cases b <;> decide
    have recvAt : ∀ {me : Nat} {s : Info} {σ : Spec} {j : Nat}, Rel me n s σ → j < n →
        (Receives s j k ↔ σ.ghost j k = true) := by
      intro me s σ j hR hj
      unfold Receives
      rw [((getFlag_rel hR j hj).1 k hk).1]
      exact key _
    have sendAt : ∀ {me : Nat} {s : Info} {σ : Spec} {j : Nat}, Rel me n s σ → j < n →
        (Sends s j k ↔ σ.overlap j k = true) := by
      intro me s σ j hR hj
      unfold Sends
      rw [((getFlag_rel hR j hj).1 k hk).2]
      exact key _
    have hRp := hR2 ⟨p, hp⟩
    have hRq := hR2 ⟨q, hq⟩
    rw [← e3] at hRp
    rw [← e4] at hRq
    have hR0p := hR0 ⟨p, hp⟩
    have hR0q := hR0 ⟨q, hq⟩
    rw [← e1] at hR0p
    rw [← e2] at hR0q
    have g1 := hG1 ⟨q, hq⟩ p k hk
    rw [← e2] at g1
    have hrecv : Receives sq p k ↔ Receives r2.info p k ∨ (p ≠ q ∧ p ∈ r2.masters k) := by
      rw [recvAt hRq hp, recvAt hR0q hp, hG2, g1]
      simp
    refine ⟨?_, hrecv, ?_⟩
    · rw [sendAt hRp hq, hO2 ⟨p, hp⟩ ⟨q, hq⟩ k hk, hO1, recvAt hRq hp, hG2]
      rw [Bool.or_eq_true]
      constructor
      · rintro (hh | hh)
        · have := hmatch p q r1 r2 hrp hrq k hk ((sendAt hR0p hq).2 hh)
          rw [← hG2, ← recvAt hRq hp, hrecv]
          exact Or.inl this
        · exact hh
      · exact Or.inr
    · intro hh
      rw [recvAt hRq hp, hG2] at hh
      rw [numRecv_rel hRq p k hk, hP2]
      dsimp only
      obtain ⟨c1, c2⟩ := hC2 ⟨q, hq⟩ ⟨p, hp⟩
      have hany : anyG (σ1 ⟨q, hq⟩) p = true := by
        unfold anyG
        have : k = 0 ∨ k = 1 ∨ k = 2 ∨ k = 3 := by omega
        rcases this with rfl | rfl | rfl | rfl <;> rw [hh] <;> simp
      dsimp only at c1 c2
      rw [hany] at c1
      rw [if_pos c1, c2 k hk c1, e1]

/-- Partitions on which nothing was flagged before meet the hypotheses. -/
theorem fresh_partitions {rs : List Rank} (h2 : 2 ≤ rs.length)
    (hi : ∀ (p : Nat) (r : Rank), rs[p]? = some r → r.info = setPrtn new p rs.length)
    (hm : ∀ r ∈ rs, ∀ k, k < 4 → ∀ m ∈ r.masters k, m < rs.length) : Partitions rs := by
  refine ⟨h2, fun p r hr => ⟨[], by simp, by rw [hi p r hr]; rfl⟩, hm, ?_⟩
  intro p q r r' hp hq k hk hs
  have hq' := (List.getElem?_eq_some_iff.1 hq).1
  unfold Sends at hs
  rw [hi p r hp, ((getFlag_rel (start_rel p rs.length) q hq').1 k hk).2] at hs
  simp [Spec.empty] at hs

/-- After a first update, the next one (with another ghost layout) finds its plans matched. -/
theorem C32_again {rs : List Rank} (h : Partitions rs) {out : List Info} (ho : updateParAdj rs = .ok out)
    {rs' : List Rank} (hi : rs'.map (·.info) = out) :
    ∀ (p q : Nat) (r r' : Rank), rs'[p]? = some r → rs'[q]? = some r' → ∀ k, k < 4 →
      Sends r.info q k → Receives r'.info p k := by
  intro p q r r' hp hq k hk hs
  obtain ⟨out', h1, h2, -, h3⟩ := C32_partitions_agree h
  rw [ho] at h1; injection h1 with h1; subst h1
  have hlen : rs'.length = rs.length := by rw [← h2, ← hi]; simp
  have hp' := (List.getElem?_eq_some_iff.1 hp).1
  have hq' := (List.getElem?_eq_some_iff.1 hq).1
  have e1 : out[p]? = some r.info := by rw [← hi, List.getElem?_map, hp]; rfl
  have e2 : out[q]? = some r'.info := by rw [← hi, List.getElem?_map, hq]; rfl
  exact ((h3 p q _ _ _ _ (List.getElem?_eq_getElem (by omega)) (List.getElem?_eq_getElem (by omega)) e1 e2 k hk).1).1 hs

/-- three partitions: 1 and 2 have ghost vertices of 0, 0 has ghost faces of 2 -/
def threeRanks : List Rank :=
  [⟨setPrtn new 0 3, fun k => if k = 2 then [2, 2] else [], fun k => k + 5⟩,
   ⟨setPrtn new 1 3, fun k => if k = 0 then [0] else [], fun _ => 0⟩,
   ⟨setPrtn new 2 3, fun k => if k = 0 then [0, 0, 0] else [], fun _ => 4⟩]

example : Partitions threeRanks := by
  refine fresh_partitions (by decide) ?_ ?_
  · intro p r hr
    match p, hr with
    | 0, hr => injection hr with hr; subst hr; rfl
    | 1, hr => injection hr with hr; subst hr; rfl
    | 2, hr => injection hr with hr; subst hr; rfl
    | p + 3, hr => simp [threeRanks] at hr
  · intro r hr k _ m hm
    simp only [threeRanks, List.mem_cons, List.not_mem_nil, or_false] at hr
    have : threeRanks.length = 3 := rfl
    rcases hr with rfl | rfl | rfl <;> dsimp only at hm <;> split at hm <;> simp at hm <;> omega

example : (updateParAdj threeRanks >>= fun out => mapR (fun s => mapR (fun p => numRecv s p 0) [0, 1, 2]) out) =
    .ok [[0, 0, 4], [5, 0, 0], [5, 0, 0]] := by decide +kernel

end MSTK.Par
