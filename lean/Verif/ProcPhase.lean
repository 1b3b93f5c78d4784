import Verif.ProcRun

/-!
Scripts of programs that go through phases of `rounds`.
-/
namespace MSTK.Par

variable {M A : Type}

/-- The place of the messages from `src` to `dst` in phase `φ` in the order of all messages: pairs of
partitions by the lower and then by the higher rank, and first the messages to the higher rank. -/
def keyOf (n φ src dst : Nat) : Nat :=
  φ * (n * n * 2) + (min src dst * n + max src dst) * 2 + (if src < dst then 0 else 1)

/-- the events of partition `me` with partner `i`, where `out p q` are the messages from `p` to `q` -/
def roundTrace (n φ : Nat) (out : Nat → Nat → List M) (me i : Nat) : List (Ev M) :=
  let s := (out me i).map fun m => ⟨keyOf n φ me i, true, i, m⟩
  let r := (out i me).map fun m => ⟨keyOf n φ i me, false, i, m⟩
  if i = me then [] else if me < i then s ++ r else r ++ s

/-- the events of a phase -/
def phaseTrace (n φ : Nat) (out : Nat → Nat → List M) (me : Nat) : List (Ev M) :=
  (List.range n).flatMap (roundTrace n φ out me)

/-- what was received -/
def fill (me : Nat) (out : Nat → Nat → List M) : List Nat → (Nat → List M) → Nat → List M
  | [], got => got
  | i :: r, got => if i = me then fill me out r got else fill me out r (put got i (out i me))

theorem follows_sendAll {i κ : Nat} {k : Proc M A} {t : List (Ev M)} {a : A} (h : Follows k t a) :
    ∀ l : List M, Follows (sendAll i l k) (l.map (fun m => ⟨κ, true, i, m⟩) ++ t) a := by
  intro l
  induction l with
  | nil => exact h
  | cons m l ih => exact Follows.send ih

theorem follows_recvN {i κ : Nat} {t : List (Ev M)} {a : A} :
    ∀ (l : List M) {k : List M → Proc M A}, Follows (k l) t a →
      Follows (recvN i l.length k) (l.map (fun m => ⟨κ, false, i, m⟩) ++ t) a := by
  intro l
  induction l with
  | nil => intro k h; exact h
  | cons m l ih =>
    intro k h
    exact Follows.recv (ih (k := fun r => k (m :: r)) h)

theorem follows_rounds {n φ me : Nat} {out : Nat → Nat → List M} {inn : Nat → Nat} {t : List (Ev M)} {a : A}
    {k : (Nat → List M) → Proc M A} : ∀ (is : List Nat) (got : Nat → List M),
    (∀ i ∈ is, i ≠ me → inn i = (out i me).length) → Follows (k (fill me out is got)) t a →
    Follows (rounds me (out me) inn is got k) (is.flatMap (roundTrace n φ out me) ++ t) a := by
  intro is
  induction is with
  | nil => intro got _ h; exact h
  | cons i r ih =>
    intro got hi h
    rw [List.flatMap_cons, List.append_assoc]
    unfold rounds roundTrace
    unfold fill at h
    by_cases hm : i = me
    · rw [if_pos hm] at h ⊢
      dsimp only
      rw [if_pos hm]
      exact ih got (fun j hj => hi j (List.mem_cons_of_mem _ hj)) h
    · rw [if_neg hm] at h ⊢
      dsimp only
      rw [if_neg hm, hi i List.mem_cons_self hm]
      have hr := ih (put got i (out i me)) (fun j hj => hi j (List.mem_cons_of_mem _ hj)) h
      unfold swap
      by_cases hlt : me < i
      · rw [if_pos hlt, if_pos hlt, List.append_assoc]
        exact follows_sendAll (follows_recvN _ hr) _
      · rw [if_neg hlt, if_neg hlt, List.append_assoc]
        exact follows_recvN (out i me) (k := fun l => sendAll i (out me i) (rounds me (out me) inn r (put got i l) k))
          (follows_sendAll hr _)

theorem rounds_congr {me : Nat} {o o' : Nat → List M} {inn : Nat → Nat} {k : (Nat → List M) → Proc M A} :
    ∀ (is : List Nat) (got : Nat → List M), (∀ i ∈ is, o i = o' i) →
    rounds me o inn is got k = rounds me o' inn is got k := by
  intro is
  induction is with
  | nil => intro _ _; rfl
  | cons i r ih =>
    intro got h
    unfold rounds
    rw [h i List.mem_cons_self, ih got (fun j hj => h j (List.mem_cons_of_mem _ hj)),
      show (fun l => rounds me o inn r (put got i l) k) = fun l => rounds me o' inn r (put got i l) k from
        funext fun l => ih _ (fun j hj => h j (List.mem_cons_of_mem _ hj))]

theorem follows_rounds' {n φ me : Nat} {out : Nat → Nat → List M} {o : Nat → List M} {inn : Nat → Nat}
    {t : List (Ev M)} {a : A} {k : (Nat → List M) → Proc M A} (is : List Nat) (got : Nat → List M)
    (ho : ∀ i ∈ is, o i = out me i) (hi : ∀ i ∈ is, i ≠ me → inn i = (out i me).length)
    (hk : Follows (k (fill me out is got)) t a) :
    Follows (rounds me o inn is got k) (is.flatMap (roundTrace n φ out me) ++ t) a := by
  rw [rounds_congr is got ho]
  exact follows_rounds is got hi hk

theorem fill_at {me : Nat} {out : Nat → Nat → List M} : ∀ (is : List Nat) (got : Nat → List M) (i : Nat),
    fill me out is got i = if i ∈ is ∧ i ≠ me then out i me else got i := by
  intro is
  induction is with
  | nil => intro got i; rw [if_neg (fun h => nomatch h.1)]; rfl
  | cons j r ih =>
    intro got i
    unfold fill
    by_cases hj : j = me
    · rw [if_pos hj, ih]
      by_cases hi : i = me
      · rw [if_neg (fun h => h.2 hi), if_neg (fun h => h.2 hi)]
      · have : i ≠ j := fun h => hi (h.trans hj)
        simp [this]
    · rw [if_neg hj, ih]
      by_cases hij : i = j
      · subst hij
        rw [put_same]
        simp [hj]
      · rw [put_ne _ _ hij]
        simp [hij]

theorem sentTo_map {q q' κ : Nat} (l : List M) : sentTo q (l.map fun m => (⟨κ, true, q', m⟩ : Ev M)) =
    if q' = q then l.map fun m => (κ, m) else [] := by
  induction l with
  | nil => simp [sentTo]
  | cons m l ih =>
    rw [List.map_cons, sentTo, ih]
    by_cases h : q' = q <;> simp [h]

theorem sentTo_recvs {q q' κ : Nat} (l : List M) : sentTo q (l.map fun m => (⟨κ, false, q', m⟩ : Ev M)) = [] := by
  induction l with
  | nil => rfl
  | cons m l ih => rw [List.map_cons, sentTo, ih]; simp

theorem rcvdFrom_map {p p' κ : Nat} (l : List M) : rcvdFrom p (l.map fun m => (⟨κ, false, p', m⟩ : Ev M)) =
    if p' = p then l.map fun m => (κ, m) else [] := by
  induction l with
  | nil => simp [rcvdFrom]
  | cons m l ih =>
    rw [List.map_cons, rcvdFrom, ih]
    by_cases h : p' = p <;> simp [h]

theorem rcvdFrom_sends {p p' κ : Nat} (l : List M) : rcvdFrom p (l.map fun m => (⟨κ, true, p', m⟩ : Ev M)) = [] := by
  induction l with
  | nil => rfl
  | cons m l ih => rw [List.map_cons, rcvdFrom, ih]; simp

theorem sentTo_app (q : Nat) (a b : List (Ev M)) : sentTo q (a ++ b) = sentTo q a ++ sentTo q b := by
  induction a with
  | nil => rfl
  | cons e a ih =>
    rw [List.cons_append, sentTo, sentTo, ih]
    split <;> rfl

theorem rcvdFrom_app (p : Nat) (a b : List (Ev M)) : rcvdFrom p (a ++ b) = rcvdFrom p a ++ rcvdFrom p b := by
  induction a with
  | nil => rfl
  | cons e a ih =>
    rw [List.cons_append, rcvdFrom, rcvdFrom, ih]
    split <;> rfl

theorem round_sent {n φ me i q : Nat} {out : Nat → Nat → List M} : sentTo q (roundTrace n φ out me i) =
    if i = q ∧ i ≠ me then (out me q).map fun m => (keyOf n φ me q, m) else [] := by
  unfold roundTrace
  dsimp only
  by_cases hm : i = me
  · rw [if_pos hm, if_neg (fun h => h.2 hm)]; rfl
  · rw [if_neg hm]
    have : ∀ b : Bool, sentTo q (if b then (out me i).map (fun m => (⟨keyOf n φ me i, true, i, m⟩ : Ev M)) ++
        (out i me).map (fun m => ⟨keyOf n φ i me, false, i, m⟩) else
        (out i me).map (fun m => (⟨keyOf n φ i me, false, i, m⟩ : Ev M)) ++
        (out me i).map (fun m => ⟨keyOf n φ me i, true, i, m⟩)) =
        if i = q then (out me q).map fun m => (keyOf n φ me q, m) else [] := by
      intro b
      by_cases hq : i = q
      · subst hq
        cases b <;> simp [sentTo_app, sentTo_map, sentTo_recvs]
      · cases b <;> simp [sentTo_app, sentTo_map, sentTo_recvs, hq]
    have h2 := this (decide (me < i))
    simp only [decide_eq_true_eq] at h2
    rw [h2]
    by_cases hq : i = q <;> simp [hq, hm]
    exact fun h => absurd (hq.trans h) hm

theorem round_rcvd {n φ me i p : Nat} {out : Nat → Nat → List M} : rcvdFrom p (roundTrace n φ out me i) =
    if i = p ∧ i ≠ me then (out p me).map fun m => (keyOf n φ p me, m) else [] := by
  unfold roundTrace
  dsimp only
  by_cases hm : i = me
  · rw [if_pos hm, if_neg (fun h => h.2 hm)]; rfl
  · rw [if_neg hm]
    have : ∀ b : Bool, rcvdFrom p (if b then (out me i).map (fun m => (⟨keyOf n φ me i, true, i, m⟩ : Ev M)) ++
        (out i me).map (fun m => ⟨keyOf n φ i me, false, i, m⟩) else
        (out i me).map (fun m => (⟨keyOf n φ i me, false, i, m⟩ : Ev M)) ++
        (out me i).map (fun m => ⟨keyOf n φ me i, true, i, m⟩)) =
        if i = p then (out p me).map fun m => (keyOf n φ p me, m) else [] := by
      intro b
      by_cases hq : i = p
      · subst hq
        cases b <;> simp [rcvdFrom_app, rcvdFrom_map, rcvdFrom_sends]
      · cases b <;> simp [rcvdFrom_app, rcvdFrom_map, rcvdFrom_sends, hq]
    have h2 := this (decide (me < i))
    simp only [decide_eq_true_eq] at h2
    rw [h2]
    by_cases hq : i = p <;> simp [hq, hm]
    exact fun h => absurd (hq.trans h) hm

theorem flat_one {β : Type} {f : Nat → List β} {q : Nat} : ∀ {l : List Nat}, l.Nodup → q ∈ l →
    (∀ i ∈ l, i ≠ q → f i = []) → l.flatMap f = f q := by
  intro l
  induction l with
  | nil => intro _ h; cases h
  | cons i l ih =>
    intro hn hq hf
    rw [List.nodup_cons] at hn
    rw [List.flatMap_cons]
    by_cases hi : i = q
    · subst hi
      have : l.flatMap f = [] := by
        rw [List.flatMap_eq_nil_iff]
        exact fun j hj => hf j (List.mem_cons_of_mem _ hj) (fun e => hn.1 (e ▸ hj))
      rw [this, List.append_nil]
    · rw [hf i List.mem_cons_self hi, List.nil_append]
      exact ih hn.2 ((List.mem_cons.1 hq).resolve_left (fun e => hi e.symm))
        fun j hj => hf j (List.mem_cons_of_mem _ hj)

theorem sentTo_flat {q : Nat} {f : Nat → List (Ev M)} : ∀ l : List Nat,
    sentTo q (l.flatMap f) = l.flatMap fun i => sentTo q (f i) := by
  intro l
  induction l with
  | nil => rfl
  | cons i l ih => rw [List.flatMap_cons, List.flatMap_cons, sentTo_app, ih]

theorem rcvdFrom_flat {p : Nat} {f : Nat → List (Ev M)} : ∀ l : List Nat,
    rcvdFrom p (l.flatMap f) = l.flatMap fun i => rcvdFrom p (f i) := by
  intro l
  induction l with
  | nil => rfl
  | cons i l ih => rw [List.flatMap_cons, List.flatMap_cons, rcvdFrom_app, ih]

theorem phase_sent {n φ me q : Nat} {out : Nat → Nat → List M} : sentTo q (phaseTrace n φ out me) =
    if q < n ∧ q ≠ me then (out me q).map fun m => (keyOf n φ me q, m) else [] := by
  unfold phaseTrace
  rw [sentTo_flat]
  by_cases hq : q < n
  · rw [flat_one (q := q) List.nodup_range (List.mem_range.2 hq) (fun i _ hi => by
      rw [round_sent, if_neg (fun h => hi h.1)]), round_sent]
    by_cases hm : q = me
    · rw [if_neg (fun h => h.2 hm), if_neg (fun h => h.2 hm)]
    · rw [if_pos ⟨rfl, hm⟩, if_pos ⟨hq, hm⟩]
  · rw [if_neg (fun h => hq h.1), List.flatMap_eq_nil_iff]
    intro i hi
    rw [round_sent, if_neg (show ¬ (i = q ∧ i ≠ me) from fun h => hq (h.1 ▸ List.mem_range.1 hi))]

theorem phase_rcvd {n φ me p : Nat} {out : Nat → Nat → List M} : rcvdFrom p (phaseTrace n φ out me) =
    if p < n ∧ p ≠ me then (out p me).map fun m => (keyOf n φ p me, m) else [] := by
  unfold phaseTrace
  rw [rcvdFrom_flat]
  by_cases hq : p < n
  · rw [flat_one (q := p) List.nodup_range (List.mem_range.2 hq) (fun i _ hi => by
      rw [round_rcvd, if_neg (fun h => hi h.1)]), round_rcvd]
    by_cases hm : p = me
    · rw [if_neg (fun h => h.2 hm), if_neg (fun h => h.2 hm)]
    · rw [if_pos ⟨rfl, hm⟩, if_pos ⟨hq, hm⟩]
  · rw [if_neg (fun h => hq h.1), List.flatMap_eq_nil_iff]
    intro i hi
    rw [round_rcvd, if_neg (show ¬ (i = p ∧ i ≠ me) from fun h => hq (h.1 ▸ List.mem_range.1 hi))]

/-- an event of a round -/
theorem round_event {n φ me i : Nat} {out : Nat → Nat → List M} {e : Ev M} (h : e ∈ roundTrace n φ out me i) :
    i ≠ me ∧ e.partner = i ∧ e.key = keyOf n φ (e.ends me).1 (e.ends me).2 ∧
      (e.ends me = (me, i) ∨ e.ends me = (i, me)) := by
  unfold roundTrace at h
  dsimp only at h
  have hm : i ≠ me := by
    intro hc
    rw [if_pos hc] at h
    cases h
  rw [if_neg hm] at h
  have h' : e ∈ (out me i).map (fun m => (⟨keyOf n φ me i, true, i, m⟩ : Ev M)) ∨
      e ∈ (out i me).map (fun m => (⟨keyOf n φ i me, false, i, m⟩ : Ev M)) := by
    split at h
    · exact List.mem_append.1 h
    · exact (List.mem_append.1 h).symm
  refine ⟨hm, ?_⟩
  rcases h' with h' | h'
  · obtain ⟨m, -, rfl⟩ := List.mem_map.1 h'
    exact ⟨rfl, rfl, Or.inl rfl⟩
  · obtain ⟨m, -, rfl⟩ := List.mem_map.1 h'
    exact ⟨rfl, rfl, Or.inr rfl⟩

theorem phase_event {n φ me : Nat} {out : Nat → Nat → List M} {e : Ev M} (h : e ∈ phaseTrace n φ out me) :
    e.partner < n ∧ e.partner ≠ me ∧ e.key = keyOf n φ (e.ends me).1 (e.ends me).2 ∧
      (e.ends me = (me, e.partner) ∨ e.ends me = (e.partner, me)) := by
  obtain ⟨i, hi, he⟩ := List.mem_flatMap.1 h
  obtain ⟨h1, h2, h3, h4⟩ := round_event he
  rw [h2]
  exact ⟨List.mem_range.1 hi, h1, h3, h4⟩

theorem pair_lt {n a b a' b' : Nat} (hb : b < n) (h : a < a') : a * n + b < a' * n + b' := by
  have := Nat.mul_le_mul_right n (show a + 1 ≤ a' from h)
  rw [Nat.add_mul] at this
  omega

theorem pair_inj {n a b a' b' : Nat} (hb : b < n) (hb' : b' < n) (h : a * n + b = a' * n + b') : a = a' ∧ b = b' := by
  rcases Nat.lt_trichotomy a a' with h1 | h1 | h1
  · have := pair_lt (b' := b') hb h1; omega
  · subst h1; exact ⟨rfl, by omega⟩
  · have := pair_lt (b' := b) hb' h1; omega

theorem key_bound {n φ p q : Nat} (hp : p < n) (hq : q < n) :
    φ * (n * n * 2) ≤ keyOf n φ p q ∧ keyOf n φ p q < (φ + 1) * (n * n * 2) := by
  unfold keyOf
  have h1 : min p q * n + max p q < n * n := by
    have := pair_lt (n := n) (a := min p q) (b := max p q) (a' := n) (b' := 0) (by omega) (by omega)
    omega
  have h2 : (φ + 1) * (n * n * 2) = φ * (n * n * 2) + n * n * 2 := by rw [Nat.add_mul, Nat.one_mul]
  rw [h2]
  split <;> omega

theorem key_inj {n φ φ' p q p' q' : Nat} (hp : p < n) (hq : q < n) (hp' : p' < n) (hq' : q' < n)
    (h : keyOf n φ p q = keyOf n φ' p' q') : p = p' ∧ q = q' := by
  have b1 := key_bound (φ := φ) hp hq
  have b2 := key_bound (φ := φ') hp' hq'
  have hφ : φ = φ' := by
    rcases Nat.lt_trichotomy φ φ' with h1 | h1 | h1
    · have := Nat.mul_le_mul_right (n * n * 2) (show φ + 1 ≤ φ' from h1); omega
    · exact h1
    · have := Nat.mul_le_mul_right (n * n * 2) (show φ' + 1 ≤ φ from h1); omega
  subst hφ
  unfold keyOf at h
  have h1 : min p q * n + max p q = min p' q' * n + max p' q' ∧ (p < q ↔ p' < q') := by
    split at h <;> split at h <;> constructor <;> omega
  obtain ⟨h2, h3⟩ := pair_inj (n := n) (by omega) (by omega) h1.1
  have := h1.2
  omega

theorem round_keys {n φ me i j : Nat} (hme : me < n) (_hi : i < n)
    (hij : i < j) {x y : Nat × Nat} (hx : x = (me, i) ∨ x = (i, me)) (hy : y = (me, j) ∨ y = (j, me)) :
    keyOf n φ x.1 x.2 ≤ keyOf n φ y.1 y.2 := by
  have mx : min x.1 x.2 = min me i ∧ max x.1 x.2 = max me i := by
    rcases hx with rfl | rfl <;> constructor <;> dsimp only <;> omega
  have my : min y.1 y.2 = min me j ∧ max y.1 y.2 = max me j := by
    rcases hy with rfl | rfl <;> constructor <;> dsimp only <;> omega
  have hlt : min me i * n + max me i < min me j * n + max me j := by
    by_cases h : min me i < min me j
    · exact pair_lt (by omega) h
    · have h1 : min me i = min me j := by omega
      rw [h1]; omega
  unfold keyOf
  rw [mx.1, mx.2, my.1, my.2]
  split <;> split <;> omega

theorem round_ordered {n φ me i : Nat} {out : Nat → Nat → List M} :
    (roundTrace n φ out me i).Pairwise fun a b => a.key ≤ b.key := by
  unfold roundTrace
  dsimp only
  have pw : ∀ (κ : Nat) (b : Bool) (l : List M),
      (l.map fun m => (⟨κ, b, i, m⟩ : Ev M)).Pairwise fun a b => a.key ≤ b.key := by
    intro κ b l
    rw [List.pairwise_map]
    exact List.pairwise_of_forall (fun _ _ => Nat.le_refl _)
  by_cases hm : i = me
  · rw [if_pos hm]; exact List.Pairwise.nil
  · rw [if_neg hm]
    have hsym : min i me = min me i ∧ max i me = max me i := by omega
    split
    · rename_i hlt
      rw [List.pairwise_append]
      refine ⟨pw _ _ _, pw _ _ _, ?_⟩
      intro a ha b hb
      obtain ⟨m, -, rfl⟩ := List.mem_map.1 ha
      obtain ⟨m', -, rfl⟩ := List.mem_map.1 hb
      dsimp only
      unfold keyOf
      rw [if_pos hlt, if_neg (by omega), hsym.1, hsym.2]
      omega
    · rename_i hlt
      rw [List.pairwise_append]
      refine ⟨pw _ _ _, pw _ _ _, ?_⟩
      intro a ha b hb
      obtain ⟨m, -, rfl⟩ := List.mem_map.1 ha
      obtain ⟨m', -, rfl⟩ := List.mem_map.1 hb
      dsimp only
      unfold keyOf
      rw [if_pos (show i < me by omega), if_neg hlt, hsym.1, hsym.2]
      omega

theorem phase_ordered {n φ me : Nat} {out : Nat → Nat → List M} (hme : me < n) :
    (phaseTrace n φ out me).Pairwise fun a b => a.key ≤ b.key := by
  unfold phaseTrace
  rw [List.pairwise_flatMap]
  refine ⟨fun i _ => round_ordered, ?_⟩
  have : ∀ l : List Nat, l.Pairwise (· < ·) → (∀ i ∈ l, i < n) → l.Pairwise fun i j =>
      ∀ a ∈ roundTrace n φ out me i, ∀ b ∈ roundTrace n φ out me j, a.key ≤ b.key := by
    intro l hl hn
    refine hl.imp_of_mem ?_
    intro i j hi hj hij a ha b hb
    obtain ⟨a1, a2, a3, a4⟩ := round_event ha
    obtain ⟨b1, b2, b3, b4⟩ := round_event hb
    rw [a3, b3]
    exact round_keys hme (hn i hi) hij a4 b4
  exact this _ List.pairwise_lt_range fun i hi => List.mem_range.1 hi

/-- The scripts of programs that go through two phases match. -/
theorem two_phases (n : Nat) (a b : Nat → Nat → List M) :
    Script n fun p => if p < n then phaseTrace n 0 a p ++ phaseTrace n 1 b p else [] := by
  have mem : ∀ {p : Nat} {e : Ev M},
      e ∈ (if p < n then phaseTrace n 0 a p ++ phaseTrace n 1 b p else []) → p < n ∧ ∃ φ : Nat, ∃ c : Nat → Nat → List M,
        e ∈ phaseTrace n φ c p := by
    intro p e he
    by_cases hp : p < n
    · rw [if_pos hp] at he
      rcases List.mem_append.1 he with he | he
      · exact ⟨hp, 0, a, he⟩
      · exact ⟨hp, 1, b, he⟩
    · rw [if_neg hp] at he; cases he
  have inside : ∀ {p : Nat} {e : Ev M}, e.partner < n → p < n →
      (e.ends p = (p, e.partner) ∨ e.ends p = (e.partner, p)) → (e.ends p).1 < n ∧ (e.ends p).2 < n := by
    intro p e h1 h2 h3
    rcases h3 with h3 | h3 <;> rw [h3] <;> exact ⟨by assumption, by assumption⟩
  constructor
  · intro p
    by_cases hp : p < n
    · rw [if_pos hp, List.pairwise_append]
      refine ⟨phase_ordered hp, phase_ordered hp, ?_⟩
      intro x hx y hy
      obtain ⟨x1, x2, x3, x4⟩ := phase_event hx
      obtain ⟨y1, y2, y3, y4⟩ := phase_event hy
      have hx' := inside x1 hp x4
      have hy' := inside y1 hp y4
      have k1 := (key_bound (φ := 0) hx'.1 hx'.2).2
      have k2 := (key_bound (φ := 1) hy'.1 hy'.2).1
      rw [x3, y3]
      omega
    · rw [if_neg hp]; exact List.Pairwise.nil
  · intro p e he
    obtain ⟨hp, φ, c, he⟩ := mem he
    obtain ⟨h1, h2, -, -⟩ := phase_event he
    exact ⟨hp, h1, h2⟩
  · intro p q
    by_cases hp : p < n
    · rw [if_pos hp]
      by_cases hq : q < n
      · rw [if_pos hq, sentTo_app, rcvdFrom_app, phase_sent, phase_sent, phase_rcvd, phase_rcvd]
        by_cases hpq : p = q
        · subst hpq
          simp
        · rw [if_pos ⟨hq, Ne.symm hpq⟩, if_pos ⟨hq, Ne.symm hpq⟩, if_pos ⟨hp, hpq⟩, if_pos ⟨hp, hpq⟩]
      · rw [if_neg hq, sentTo_app, phase_sent, phase_sent, if_neg (fun h => hq h.1), if_neg (fun h => hq h.1)]
        rfl
    · rw [if_neg hp]
      by_cases hq : q < n
      · rw [if_pos hq, rcvdFrom_app, phase_rcvd, phase_rcvd, if_neg (fun h => hp h.1), if_neg (fun h => hp h.1)]
        rfl
      · rw [if_neg hq]; rfl
  · intro p q e he e' he' hk
    obtain ⟨hp, φ, c, he⟩ := mem he
    obtain ⟨hq, φ', c', he'⟩ := mem he'
    obtain ⟨x1, x2, x3, x4⟩ := phase_event he
    obtain ⟨y1, y2, y3, y4⟩ := phase_event he'
    have hx' := inside x1 hp x4
    have hy' := inside y1 hq y4
    rw [x3, y3] at hk
    obtain ⟨h1, h2⟩ := key_inj hx'.1 hx'.2 hy'.1 hy'.2 hk
    exact Prod.ext h1 h2

end MSTK.Par
