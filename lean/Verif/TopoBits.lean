import Verif.TopoModel

/-!
Helper lemmas: what the bit manipulations of `TopoModel.lean` do to the single bits.
-/
namespace MSTK
namespace Topo

/-- direction of edge `k` of a face with direction word `d` -/
def fbit (d : BitVec 64) (k : Nat) : Bool := d.getLsbD k

/-- direction of face `k` of a region with direction words `w` -/
def rbit (w : List (BitVec 32)) (k : Nat) : Bool := (w.getD (k/32) 0).getLsbD (k % 32)

theorem bit_ok (d : BitVec 64) {k : Nat} (h : k < 64) : bit d k = .ok (fbit d k) := by
  unfold bit fbit
  rw [if_pos h]
  congr 1
  have h1 : ((d >>> k &&& 1#64) = 1#64) ↔ d.getLsbD k = true := by
    constructor
    · intro e
      have := congrArg (fun x => x.getLsbD 0) e
      simpa using this
    · intro e
      apply BitVec.eq_of_getLsbD_eq
      intro i hi
      rcases Nat.eq_zero_or_pos i with rfl | hp
      · simp [e]
      · have : ¬ i = 0 := by omega
        simp [BitVec.getLsbD_one, this]
  cases hd : d.getLsbD k
  · rw [hd] at h1
    simp at h1
    simpa using h1
  · rw [hd] at h1
    simp at h1
    simpa using h1

theorem clr_ok (d : BitVec 64) {k : Nat} (h : k < 64) :
    ∃ d', clr d k = .ok d' ∧ ∀ j, j < 64 → fbit d' j = if j = k then false else fbit d j := by
  refine ⟨_, by unfold clr; rw [if_pos h], ?_⟩
  intro j hj
  unfold fbit
  simp only [BitVec.getLsbD_and, BitVec.getLsbD_not, BitVec.getLsbD_shiftLeft, BitVec.getLsbD_one, hj]
  by_cases hjk : j = k
  · subst hjk; simp
  · have : j < k ∨ ¬ (j - k = 0) := by omega
    rcases this with h1 | h1
    · simp [hjk, h1]
    · simp [hjk, h1]

theorem orI_ok (d : BitVec 64) (b : Bool) {k : Nat} (h : k < 32) :
    ∃ d', orI d b k = .ok d' ∧ ∀ j, j < 32 → fbit d' j = (fbit d j || (decide (j = k) && b)) := by
  refine ⟨_, by unfold orI shlI; rw [if_pos h]; rfl, ?_⟩
  intro j hj
  unfold fbit
  have hj64 : j < 64 := by omega
  simp only [BitVec.getLsbD_or, BitVec.getLsbD_signExtend, BitVec.getLsbD_shiftLeft, hj, hj64]
  by_cases hjk : j = k
  · subst hjk; cases b <;> simp
  · have : j < k ∨ ¬ (j - k = 0) := by omega
    rcases this with h1 | h1
    · cases b <;> simp [hjk, h1]
    · cases b <;> simp [hjk, h1, BitVec.getLsbD_one]

theorem orL_ok (d : BitVec 64) (b : Bool) {k : Nat} (h : k < 64) :
    ∃ d', orL d b k = .ok d' ∧ ∀ j, j < 64 → fbit d' j = (fbit d j || (decide (j = k) && b)) := by
  refine ⟨_, by unfold orL; rw [if_pos h], ?_⟩
  intro j hj
  unfold fbit
  simp only [BitVec.getLsbD_or, BitVec.getLsbD_shiftLeft, hj]
  by_cases hjk : j = k
  · subst hjk; cases b <;> simp
  · have : j < k ∨ ¬ (j - k = 0) := by omega
    rcases this with h1 | h1
    · cases b <;> simp [hjk, h1]
    · cases b <;> simp [hjk, h1, BitVec.getLsbD_one]

/-- clear and set with an `int` direction -/
theorem setI_ok (d : BitVec 64) (b : Bool) {k : Nat} (h : k < 32) :
    ∃ d', (clr d k >>= fun d => orI d b k) = .ok d' ∧
      ∀ j, j < 32 → fbit d' j = if j = k then b else fbit d j := by
  obtain ⟨d1, h1, e1⟩ := clr_ok d (show k < 64 by omega)
  obtain ⟨d2, h2, e2⟩ := orI_ok d1 b h
  refine ⟨d2, by rw [h1]; exact h2, ?_⟩
  intro j hj
  rw [e2 j hj, e1 j (by omega)]
  by_cases hjk : j = k <;> simp [hjk]

/-- bits after removing bit `k` out of `k .. k+n` -/
theorem shiftDownL_ok (n : Nat) : ∀ (k : Nat) (d : BitVec 64), k + n < 64 →
    ∃ d', shiftDownL n k d = .ok d' ∧
      ∀ j, j < 64 → fbit d' j = if k ≤ j ∧ j < k + n then fbit d (j+1) else fbit d j := by
  induction n with
  | zero =>
    intro k d _
    refine ⟨d, rfl, ?_⟩
    intro j _
    rw [if_neg (by omega)]
  | succ n ih =>
    intro k d hk
    obtain ⟨d1, h1, e1⟩ := clr_ok d (show k < 64 by omega)
    obtain ⟨d2, h2, e2⟩ := orL_ok d1 (fbit d1 (k+1)) (show k < 64 by omega)
    obtain ⟨d3, h3, e3⟩ := ih (k+1) d2 (by omega)
    refine ⟨d3, ?_, ?_⟩
    · show (clr d k >>= fun d => bit d (k+1) >>= fun b => orL d b k >>= fun d =>
        shiftDownL n (k+1) d) = _
      rw [h1, Res.bind_ok, bit_ok d1 (show k+1 < 64 by omega), Res.bind_ok, h2, Res.bind_ok, h3]
    · intro j hj
      have hd2 : ∀ j, j < 64 → fbit d2 j = if j = k then fbit d (k+1) else fbit d j := by
        intro j hj
        rw [e2 j hj, e1 j hj, e1 (k+1) (by omega), if_neg (show ¬ k+1 = k by omega)]
        by_cases hjk : j = k <;> simp [hjk]
      rw [e3 j hj]
      by_cases hjk : j = k
      · subst hjk
        rw [if_neg (by omega), if_pos (by omega), hd2 j hj, if_pos rfl]
      · by_cases hr : k + 1 ≤ j ∧ j < k + 1 + n
        · rw [if_pos hr, if_pos (by omega), hd2 (j+1) (by omega), if_neg (by omega)]
        · rw [if_neg hr, if_neg (by omega), hd2 j hj, if_neg hjk]

theorem shiftDownI_ok (n : Nat) : ∀ (k : Nat) (d : BitVec 64), k + n < 32 →
    ∃ d', shiftDownI n k d = .ok d' ∧
      ∀ j, j < 32 → fbit d' j = if k ≤ j ∧ j < k + n then fbit d (j+1) else fbit d j := by
  induction n with
  | zero =>
    intro k d _
    refine ⟨d, rfl, ?_⟩
    intro j _
    rw [if_neg (by omega)]
  | succ n ih =>
    intro k d hk
    obtain ⟨d1, h1, e1⟩ := clr_ok d (show k < 64 by omega)
    obtain ⟨d2, h2, e2⟩ := orI_ok d1 (fbit d1 (k+1)) (show k < 32 by omega)
    obtain ⟨d3, h3, e3⟩ := ih (k+1) d2 (by omega)
    refine ⟨d3, ?_, ?_⟩
    · show (clr d k >>= fun d => bit d (k+1) >>= fun b => orI d b k >>= fun d =>
        shiftDownI n (k+1) d) = _
      rw [h1, Res.bind_ok, bit_ok d1 (show k+1 < 64 by omega), Res.bind_ok, h2, Res.bind_ok, h3]
    · intro j hj
      have hd2 : ∀ j, j < 32 → fbit d2 j = if j = k then fbit d (k+1) else fbit d j := by
        intro j hj
        rw [e2 j hj, e1 j (by omega), e1 (k+1) (by omega), if_neg (show ¬ k+1 = k by omega)]
        by_cases hjk : j = k <;> simp [hjk]
      rw [e3 j hj]
      by_cases hjk : j = k
      · subst hjk
        rw [if_neg (by omega), if_pos (by omega), hd2 j hj, if_pos rfl]
      · by_cases hr : k + 1 ≤ j ∧ j < k + 1 + n
        · rw [if_pos hr, if_pos (by omega), hd2 (j+1) (by omega), if_neg (by omega)]
        · rw [if_neg hr, if_neg (by omega), hd2 j hj, if_neg hjk]

/-- bits after opening a gap at bit `a` below `a+n` -/
theorem shiftUp_ok (a n : Nat) : ∀ (d : BitVec 64), a + n < 32 →
    ∃ d', shiftUp a n d = .ok d' ∧
      ∀ j, j < 32 → j ≠ a → fbit d' j = if a < j ∧ j ≤ a + n then fbit d (j-1) else fbit d j := by
  induction n with
  | zero =>
    intro d _
    refine ⟨d, rfl, ?_⟩
    intro j _ _
    rw [if_neg (by omega)]
  | succ n ih =>
    intro d hk
    obtain ⟨d1, h1, e1⟩ := clr_ok d (show a + n + 1 < 64 by omega)
    obtain ⟨d2, h2, e2⟩ := orI_ok d1 (fbit d1 (a+n)) (show a + n + 1 < 32 by omega)
    obtain ⟨d3, h3, e3⟩ := ih d2 (by omega)
    refine ⟨d3, ?_, ?_⟩
    · show (clr d (a+n+1) >>= fun d => bit d (a+n) >>= fun b => orI d b (a+n+1) >>= fun d =>
        shiftUp a n d) = _
      rw [h1, Res.bind_ok, bit_ok d1 (show a+n < 64 by omega), Res.bind_ok, h2, Res.bind_ok, h3]
    · intro j hj hja
      have hd2 : ∀ j, j < 32 → fbit d2 j = if j = a+n+1 then fbit d (a+n) else fbit d j := by
        intro j hj
        rw [e2 j hj, e1 j (by omega), e1 (a+n) (by omega), if_neg (show ¬ a+n = a+n+1 by omega)]
        by_cases hjk : j = a+n+1 <;> simp [hjk]
      rw [e3 j hj hja]
      by_cases hjk : j = a + n + 1
      · subst hjk
        rw [if_neg (by omega), if_pos (by omega), hd2 _ hj, if_pos rfl]
        rfl
      · by_cases hr : a < j ∧ j ≤ a + n
        · rw [if_pos hr, if_pos (by omega), hd2 (j-1) (by omega), if_neg (by omega)]
        · rw [if_neg hr, if_neg (by omega), hd2 j hj, if_neg hjk]

/-! ### direction words of a region -/

theorem getW_ok {w : List (BitVec 32)} {i : Nat} (h : i/32 < w.length) :
    getW w i = .ok (rbit w i) := by
  unfold getW rbit
  rw [List.getElem?_eq_getElem h]
  simp only [List.getD_eq_getElem?_getD, List.getElem?_eq_getElem h, Option.getD_some]
  generalize w[i/32] = x
  generalize i % 32 = k
  congr 1
  have h1 : ((x >>> k &&& 1#32) = 1#32) ↔ x.getLsbD k = true := by
    constructor
    · intro e
      have := congrArg (fun x => x.getLsbD 0) e
      simpa using this
    · intro e
      apply BitVec.eq_of_getLsbD_eq
      intro i hi
      rcases Nat.eq_zero_or_pos i with rfl | hp
      · simp [e]
      · have : ¬ i = 0 := by omega
        simp [BitVec.getLsbD_one, this]
  cases hd : x.getLsbD k
  · rw [hd] at h1
    simp at h1
    simpa using h1
  · rw [hd] at h1
    simp at h1
    simpa using h1

theorem getLsbD_setbit32 (x : BitVec 32) (b : Bool) {k m : Nat} (hm : m < 32) :
    ((x &&& ~~~(1#32 <<< k)) ||| ((if b then 1#32 else 0#32) <<< k)).getLsbD m =
      if m = k then b else x.getLsbD m := by
  simp only [BitVec.getLsbD_or, BitVec.getLsbD_and, BitVec.getLsbD_not, BitVec.getLsbD_shiftLeft,
    BitVec.getLsbD_one, hm]
  by_cases hmk : m = k
  · subst hmk; cases b <;> simp
  · have : m < k ∨ ¬ (m - k = 0) := by omega
    rcases this with h1 | h1
    · cases b <;> simp [hmk, h1]
    · cases b <;> simp [hmk, h1, BitVec.getLsbD_one]

theorem getLsbD_orbit32 (x : BitVec 32) (b : Bool) {k m : Nat} (hm : m < 32) :
    (x ||| ((if b then 1#32 else 0#32) <<< k)).getLsbD m =
      (x.getLsbD m || (decide (m = k) && b)) := by
  simp only [BitVec.getLsbD_or, BitVec.getLsbD_shiftLeft, hm]
  by_cases hmk : m = k
  · subst hmk; cases b <;> simp
  · have : m < k ∨ ¬ (m - k = 0) := by omega
    rcases this with h1 | h1
    · cases b <;> simp [hmk, h1]
    · cases b <;> simp [hmk, h1, BitVec.getLsbD_one]

theorem eq_of_divmod {i j : Nat} (h1 : j / 32 = i / 32) (h2 : j % 32 = i % 32) : j = i := by
  omega

theorem setW_ok {w : List (BitVec 32)} {i : Nat} (b : Bool) (h : i/32 < w.length) :
    ∃ w', setW w i b = .ok w' ∧ w'.length = w.length ∧
      ∀ j, rbit w' j = if j = i then b else rbit w j := by
  unfold setW
  rw [List.getElem?_eq_getElem h]
  refine ⟨_, rfl, by simp, ?_⟩
  intro j
  unfold rbit
  simp only [List.getD_eq_getElem?_getD]
  by_cases hq : j/32 = i/32
  · rw [hq]
    simp only [List.getElem?_set_self h, Option.getD_some, List.getElem?_eq_getElem h]
    rw [getLsbD_setbit32 _ _ (Nat.mod_lt _ (by omega))]
    by_cases hji : j = i
    · subst hji; simp
    · rw [if_neg hji, if_neg (fun hm => hji (eq_of_divmod hq hm))]
  · rw [List.getElem?_set_ne (Ne.symm hq), if_neg (fun hji => hq (by rw [hji]))]

theorem orW_ok {w : List (BitVec 32)} {i : Nat} (b : Bool) (h : i/32 < w.length) :
    ∃ w', orW w i b = .ok w' ∧ w'.length = w.length ∧
      ∀ j, rbit w' j = (rbit w j || (decide (j = i) && b)) := by
  unfold orW
  rw [List.getElem?_eq_getElem h]
  refine ⟨_, rfl, by simp, ?_⟩
  intro j
  unfold rbit
  simp only [List.getD_eq_getElem?_getD]
  by_cases hq : j/32 = i/32
  · rw [hq]
    simp only [List.getElem?_set_self h, Option.getD_some, List.getElem?_eq_getElem h]
    rw [getLsbD_orbit32 _ _ (Nat.mod_lt _ (by omega))]
    by_cases hji : j = i
    · subst hji; simp
    · rw [decide_eq_false hji, decide_eq_false (fun hm => hji (eq_of_divmod hq hm))]
  · rw [List.getElem?_set_ne (Ne.symm hq), decide_eq_false (fun hji => hq (by rw [hji]))]
    simp

theorem shiftW_ok (n : Nat) : ∀ (i : Nat) (w : List (BitVec 32)), (i + n)/32 < w.length →
    ∃ w', shiftW n i w = .ok w' ∧ w'.length = w.length ∧
      ∀ j, rbit w' j = if i ≤ j ∧ j < i + n then rbit w (j+1) else rbit w j := by
  induction n with
  | zero =>
    intro i w _
    refine ⟨w, rfl, rfl, ?_⟩
    intro j
    rw [if_neg (by omega)]
  | succ n ih =>
    intro i w hw
    obtain ⟨w1, h1, l1, e1⟩ := setW_ok (w := w) (i := i) (rbit w (i+1)) (by omega)
    obtain ⟨w2, h2, l2, e2⟩ := ih (i+1) w1 (by omega)
    refine ⟨w2, ?_, by omega, ?_⟩
    · show (getW w (i+1) >>= fun b => setW w i b >>= fun w => shiftW n (i+1) w) = _
      rw [getW_ok (by omega), Res.bind_ok, h1, Res.bind_ok, h2]
    · intro j
      rw [e2 j, e1 j, e1 (j+1)]
      by_cases hji : j = i
      · subst hji
        rw [if_neg (by omega), if_pos rfl, if_pos (by omega)]
      · by_cases hr : i + 1 ≤ j ∧ j < i + 1 + n
        · rw [if_pos hr, if_neg (show ¬ j+1 = i by omega),
            if_pos (show i ≤ j ∧ j < i + (n+1) by omega)]
        · rw [if_neg hr, if_neg hji, if_neg (show ¬ (i ≤ j ∧ j < i + (n+1)) by omega)]

theorem rbit_replicate (n k : Nat) : rbit (List.replicate n 0) k = false := by
  unfold rbit
  simp only [List.getD_eq_getElem?_getD, List.getElem?_replicate]
  split <;> simp

theorem growW_ok {w : List (BitVec 32)} {nf nold nnew : Nat} (h : 1 + nf/32 ≤ w.length) :
    ∃ w', growW w nf nold nnew = .ok w' ∧ 1 + nf/32 ≤ w'.length ∧
      1 + (nf - nold + nnew)/32 ≤ max w'.length (1 + nf/32) ∧
      ∀ j, j/32 < 1 + nf/32 → rbit w' j = rbit w j := by
  unfold growW
  simp only
  split
  · rw [if_neg (by omega)]
    refine ⟨_, rfl, ?_, ?_, ?_⟩
    · simp only [List.length_append, List.length_take, List.length_replicate]; omega
    · simp only [List.length_append, List.length_take, List.length_replicate]
      split <;> omega
    · intro j hj
      unfold rbit
      simp only [List.getD_eq_getElem?_getD]
      rw [List.getElem?_append_left (by simp only [List.length_take]; omega),
        List.getElem?_take_of_lt hj]
  · exact ⟨w, rfl, h, by omega, fun _ _ => rfl⟩

end Topo
end MSTK
