import Verif.HashModel
import Mathlib.Data.List.Perm.Basic
import Mathlib.Data.List.Nodup
/-! Helper lemmas for the hash table model. -/
namespace MSTK
namespace HashT
variable {E K : Type} (key : E → K) (hash : K → Nat)

/-- Representation invariant: each entity sits in the bucket of its key, no two entities of a chain
share a key, the count is right. -/
structure Inv (h : HashT E) : Prop where
  place : ∀ i, i < 2 ^ h.p → ∀ e ∈ h.b i, hash (key e) % 2 ^ h.p = i
  dist : ∀ i, i < 2 ^ h.p → ((h.b i).map key).Nodup
  cnt : h.nent = h.entries.length

variable {key hash}

theorem mod_lt_pow (n p : Nat) : n % 2 ^ p < 2 ^ p := Nat.mod_lt _ (Nat.pow_pos (by omega))

theorem mem_entries {h : HashT E} (hi : Inv key hash h) (e : E) :
    e ∈ h.entries ↔ e ∈ h.b (hash (key e) % 2 ^ h.p) := by
  unfold entries
  simp only [List.mem_flatMap, List.mem_range]
  constructor
  · rintro ⟨i, h1, h2⟩
    rw [hi.place i h1 e h2]; exact h2
  · intro he
    exact ⟨_, mod_lt_pow _ _, he⟩

theorem entry_eq_some [DecidableEq K] {h : HashT E} (hi : Inv key hash h) (k : K) (e : E) :
    h.entry key hash k = some e ↔ e ∈ h.entries ∧ key e = k := by
  rw [mem_entries hi]
  unfold entry
  constructor
  · intro hf
    have h1 := List.find?_some hf
    have h2 := List.mem_of_find?_eq_some hf
    simp only [decide_eq_true_eq] at h1
    subst h1
    exact ⟨h2, rfl⟩
  · rintro ⟨h1, rfl⟩
    cases hf : (h.b (hash (key e) % 2 ^ h.p)).find? (fun x => key x = key e) with
    | none =>
      rw [List.find?_eq_none] at hf
      exact absurd (by simp) (hf e h1)
    | some x =>
      have h2 := List.find?_some hf
      have h3 := List.mem_of_find?_eq_some hf
      simp only [decide_eq_true_eq] at h2
      have hd := hi.dist _ (mod_lt_pow (hash (key e)) h.p)
      rw [List.inj_on_of_nodup_map hd h3 h1 h2]

theorem entry_eq_none [DecidableEq K] {h : HashT E} (hi : Inv key hash h) (k : K) :
    h.entry key hash k = none ↔ ∀ e ∈ h.entries, key e ≠ k := by
  constructor
  · intro hn e he hk
    have := (entry_eq_some hi k e).mpr ⟨he, hk⟩
    rw [hn] at this; simp at this
  · intro hall
    cases hf : h.entry key hash k with
    | none => rfl
    | some x =>
      have := (entry_eq_some hi k x).mp hf
      exact absurd this.2 (hall x this.1)

theorem new_inv (n : Nat) (t : Bool) : Inv key hash (new n t : HashT E) := by
  constructor <;> simp [new, entries]

theorem splitChain_spec (p i : Nat) (c : List E) (hc : ∀ e ∈ c, hash (key e) % 2 ^ p = i) :
    ∀ kept moved, splitChain key hash p i c kept moved =
      .ok (kept.reverse ++ c.filter (fun e => i = hash (key e) % 2 ^ (p+1)),
           (c.filter (fun e => i ≠ hash (key e) % 2 ^ (p+1))).reverse ++ moved) ∧
      ∀ e ∈ c, hash (key e) % 2 ^ (p+1) = i ∨ hash (key e) % 2 ^ (p+1) = i + 2 ^ p := by
  have hsplit : ∀ e, hash (key e) % 2 ^ p = i →
      hash (key e) % 2 ^ (p+1) = i ∨ hash (key e) % 2 ^ (p+1) = i + 2 ^ p := by
    intro e he
    have h1 : hash (key e) % 2 ^ (p+1) % 2 ^ p = i := by
      rw [Nat.pow_succ, Nat.mod_mul_right_mod]; exact he
    have h2 : hash (key e) % 2 ^ (p+1) < 2 ^ p * 2 := by
      have := mod_lt_pow (hash (key e)) (p+1)
      rw [Nat.pow_succ] at this ⊢; exact this
    have h3 := Nat.div_add_mod (hash (key e) % 2 ^ (p+1)) (2 ^ p)
    rw [h1] at h3
    have h4 : hash (key e) % 2 ^ (p+1) / 2 ^ p < 2 := Nat.div_lt_of_lt_mul h2
    have h5 : hash (key e) % 2 ^ (p+1) / 2 ^ p = 0 ∨ hash (key e) % 2 ^ (p+1) / 2 ^ p = 1 := by
      generalize hash (key e) % 2 ^ (p+1) / 2 ^ p = z at h4
      omega
    rcases h5 with h5 | h5
    · rw [h5] at h3; left; omega
    · rw [h5] at h3; right; omega
  induction c with
  | nil => intro kept moved; simp [splitChain]
  | cons e c ih =>
    intro kept moved
    have ih := ih (fun x hx => hc x (by simp [hx]))
    have he := hsplit e (hc e (by simp))
    refine ⟨?_, ?_⟩
    · unfold splitChain
      simp only
      by_cases hij : i = hash (key e) % 2 ^ (p+1)
      · rw [if_neg (by simpa using hij), (ih _ _).1]
        rw [List.filter_cons_of_pos (by simpa using hij), List.filter_cons_of_neg (by simpa using hij)]
        simp
      · have hm : i + 2 ^ p = hash (key e) % 2 ^ (p+1) := by
          rcases he with he | he
          · exact absurd he.symm hij
          · exact he.symm
        rw [if_pos (by simpa using hij), if_neg (by simpa using hm), (ih _ _).1]
        rw [List.filter_cons_of_neg (by simpa using hij), List.filter_cons_of_pos (by simpa using hij)]
        simp
    · intro x hx
      rcases List.mem_cons.mp hx with rfl | hx
      · exact he
      · exact (ih [] []).2 x hx

theorem enlargeLoop_spec {p : Nat} {b : Nat → List E}
    (hplace : ∀ i, i < 2 ^ p → ∀ e ∈ b i, hash (key e) % 2 ^ p = i) (n : Nat) (hn : n ≤ 2 ^ p) :
    ∃ b', enlargeLoop key hash p b n = .ok b' ∧
      (∀ i, i < n → b' i = (b i).filter (fun e => i = hash (key e) % 2 ^ (p+1)) ∧
        b' (i + 2 ^ p) = ((b i).filter (fun e => i ≠ hash (key e) % 2 ^ (p+1))).reverse) ∧
      (∀ i, n ≤ i → i < 2 ^ p → b' i = b i) := by
  induction n with
  | zero => exact ⟨b, rfl, by intro i hi; omega, by intro i _ _; rfl⟩
  | succ n ih =>
    obtain ⟨b', h1, h2, h3⟩ := ih (by omega)
    have hbn : b' n = b n := h3 n (by omega) (by omega)
    have hs := splitChain_spec (key := key) (hash := hash) p n (b n) (hplace n (by omega)) [] []
    unfold enlargeLoop
    rw [h1]
    simp only [Res.bind_ok, hbn, hs.1, Res.pure_eq]
    refine ⟨_, rfl, ?_, ?_⟩
    · intro i hi
      by_cases hin : i = n
      · subst hin
        constructor
        · simp only [setB]
          rw [if_neg (by have := Nat.pow_pos (n := p) (show 0 < 2 by omega); omega)]
          simp
        · simp [setB]
      · have := h2 i (by omega)
        constructor
        · simp only [setB]
          rw [if_neg (by omega), if_neg hin]; exact this.1
        · simp only [setB]
          rw [if_neg (by omega), if_neg (by omega)]; exact this.2
    · intro i h4 h5
      simp only [setB]
      rw [if_neg (by omega), if_neg (by omega)]
      exact h3 i (by omega) h5

theorem enlarge_spec {h : HashT E} (hi : Inv key hash h) :
    ∃ h', enlarge key hash h = .ok h' ∧ Inv key hash h' ∧ h'.entries.Perm h.entries ∧ h'.t = h.t := by
  obtain ⟨b', h1, h2, _⟩ := enlargeLoop_spec hi.place (2 ^ h.p) (Nat.le_refl _)
  unfold enlarge
  rw [h1]
  refine ⟨_, rfl, ?_⟩
  have hpow : 2 ^ (h.p + 1) = 2 ^ h.p + 2 ^ h.p := by rw [Nat.pow_succ]; omega
  have hperm : (HashT.entries { h with p := h.p + 1, b := b' }).Perm h.entries := by
    unfold entries
    simp only
    rw [hpow, List.range_add, List.flatMap_append, List.flatMap_map]
    refine (List.flatMap_append_perm _ _ _).trans ?_
    apply List.Perm.flatMap_left
    intro i hi'
    rw [List.mem_range] at hi'
    have := h2 i hi'
    rw [Nat.add_comm (2 ^ h.p) i, this.1, this.2]
    refine (List.Perm.append_left _ (List.reverse_perm _)).trans ?_
    have := List.filter_append_perm (fun e => decide (i = hash (key e) % 2 ^ (h.p+1))) (h.b i)
    simpa using this
  refine ⟨?_, hperm, rfl⟩
  have hcase : ∀ i, i < 2 ^ (h.p+1) → (i < 2 ^ h.p) ∨ ∃ j, j < 2 ^ h.p ∧ i = j + 2 ^ h.p := by
    intro i hi'
    by_cases hl : i < 2 ^ h.p
    · exact Or.inl hl
    · exact Or.inr ⟨i - 2 ^ h.p, by omega, by omega⟩
  constructor
  · intro i hi' e he
    simp only at hi' he ⊢
    rcases hcase i hi' with hl | ⟨j, hj, rfl⟩
    · rw [(h2 i hl).1] at he
      simp at he; exact he.2.symm
    · rw [(h2 j hj).2] at he
      simp at he
      have := (splitChain_spec (key := key) (hash := hash) h.p j (h.b j) (hi.place j hj) [] []).2 e he.1
      rcases this with h4 | h4
      · exact absurd h4.symm he.2
      · exact h4
  · intro i hi'
    simp only at hi' ⊢
    rcases hcase i hi' with hl | ⟨j, hj, rfl⟩
    · rw [(h2 i hl).1]
      exact (hi.dist i hl).sublist (List.Sublist.map key List.filter_sublist)
    · rw [(h2 j hj).2, List.map_reverse, List.nodup_reverse]
      exact (hi.dist j hj).sublist (List.Sublist.map key List.filter_sublist)
  · rw [hperm.length_eq]; exact hi.cnt

theorem removeUnused_spec {h : HashT E} (hi : Inv key hash h) (locked : E → Bool) :
    Inv key hash (removeUnused locked h).2 ∧
      (removeUnused locked h).2.entries = h.entries.filter locked ∧
      (removeUnused locked h).2.p = h.p ∧ (removeUnused locked h).2.t = h.t := by
  have hent : (removeUnused locked h).2.entries = h.entries.filter locked := by
    unfold entries removeUnused
    simp only
    rw [List.filter_flatMap]
    apply List.flatMap_congr
    intro i hi'
    rw [List.mem_range] at hi'
    rw [if_pos hi']
  refine ⟨?_, hent, rfl, rfl⟩
  constructor
  · intro i hi' e he
    simp only [removeUnused] at hi' he ⊢
    rw [if_pos hi'] at he
    exact hi.place i hi' e (List.mem_of_mem_filter he)
  · intro i hi'
    simp only [removeUnused] at hi' ⊢
    rw [if_pos hi']
    exact (hi.dist i hi').sublist (List.Sublist.map key List.filter_sublist)
  · rw [hent]
    simp only [removeUnused]
    have h1 : ((List.range (2 ^ h.p)).map (fun i => ((h.b i).filter (fun e => !locked e)).length)).sum =
        (h.entries.filter (fun e => !locked e)).length := by
      unfold entries
      rw [List.filter_flatMap, List.length_flatMap]
    rw [h1, hi.cnt]
    have := (List.filter_append_perm locked h.entries).length_eq
    rw [List.length_append] at this
    omega

/-- `pvtHash_CheckSize` keeps the invariant; it keeps every entity when AutoRemove is off and every
locked entity always; it never invents entities. -/
theorem checkSize_spec {h : HashT E} (hi : Inv key hash h) (locked : E → Bool) :
    ∃ h', checkSize key hash locked h = .ok h' ∧ Inv key hash h' ∧ h'.t = h.t ∧
      (∀ e, e ∈ h'.entries → e ∈ h.entries) ∧
      (∀ e, e ∈ h.entries → (h.t = false ∨ locked e = true) → e ∈ h'.entries) ∧
      (h.t = false → h'.entries.length = h.entries.length) := by
  unfold checkSize
  by_cases hbig : h.nent ≥ 8 * 2 ^ h.p
  · rw [if_pos hbig]
    simp only
    by_cases ht : h.t = true
    · rw [if_pos ht]
      obtain ⟨r1, r2, r3, r4⟩ := removeUnused_spec hi locked
      by_cases hb2 : (removeUnused locked h).2.nent ≥ 8 * 2 ^ h.p
      · rw [if_pos hb2]
        obtain ⟨h', e1, e2, e3, e4⟩ := enlarge_spec r1
        refine ⟨h', e1, e2, by rw [e4, r4], ?_, ?_, by simp [ht]⟩
        · intro e he
          have := e3.mem_iff.mp he
          rw [r2] at this; exact List.mem_of_mem_filter this
        · intro e he hor
          apply e3.mem_iff.mpr
          rw [r2, List.mem_filter]
          refine ⟨he, ?_⟩
          rcases hor with hor | hor
          · rw [ht] at hor; simp at hor
          · exact hor
      · rw [if_neg hb2]
        refine ⟨_, rfl, r1, r4, ?_, ?_, by simp [ht]⟩
        · intro e he
          rw [r2] at he; exact List.mem_of_mem_filter he
        · intro e he hor
          rw [r2, List.mem_filter]
          refine ⟨he, ?_⟩
          rcases hor with hor | hor
          · rw [ht] at hor; simp at hor
          · exact hor
    · rw [if_neg ht, if_pos hbig]
      obtain ⟨h', e1, e2, e3, e4⟩ := enlarge_spec hi
      exact ⟨h', e1, e2, e4, fun e he => e3.mem_iff.mp he, fun e he _ => e3.mem_iff.mpr he,
        fun _ => e3.length_eq⟩
  · rw [if_neg hbig]
    exact ⟨h, rfl, hi, rfl, fun _ he => he, fun _ he _ => he, fun _ => rfl⟩

theorem push_inv {h : HashT E} (hi : Inv key hash h) (e : E) (hnew : ∀ x ∈ h.entries, key x ≠ key e) :
    Inv key hash (HashT.mk (h.nent + 1) h.p h.t
      (setB h.b (hash (key e) % 2 ^ h.p) (e :: h.b (hash (key e) % 2 ^ h.p)))) ∧
    (∀ x, x ∈ HashT.entries (HashT.mk (h.nent + 1) h.p h.t
      (setB h.b (hash (key e) % 2 ^ h.p) (e :: h.b (hash (key e) % 2 ^ h.p)))) ↔
      x = e ∨ x ∈ h.entries) := by
  have hj : hash (key e) % 2 ^ h.p < 2 ^ h.p := mod_lt_pow (hash (key e)) h.p
  revert hj
  have hj0 : hash (key e) % 2 ^ h.p = hash (key e) % 2 ^ h.p := rfl
  generalize hjd : hash (key e) % 2 ^ h.p = j at *
  clear hj0
  intro hj
  have hmem : ∀ x, x ∈ HashT.entries (HashT.mk (h.nent + 1) h.p h.t (setB h.b j (e :: h.b j))) ↔
      x = e ∨ x ∈ h.entries := by
    intro x
    unfold entries
    simp only [List.mem_flatMap, List.mem_range, setB]
    constructor
    · rintro ⟨i, h1, h2⟩
      split at h2
      · rename_i hij
        rcases List.mem_cons.mp h2 with rfl | h2
        · left; rfl
        · right; exact ⟨j, hj, h2⟩
      · right; exact ⟨i, h1, h2⟩
    · rintro (rfl | ⟨i, h1, h2⟩)
      · exact ⟨j, hj, by simp⟩
      · refine ⟨i, h1, ?_⟩
        split
        · rename_i hij; subst hij; exact List.mem_cons_of_mem _ h2
        · exact h2
  refine ⟨⟨?_, ?_, ?_⟩, hmem⟩
  · intro i hi' x hx
    simp only [setB] at hi' hx ⊢
    split at hx
    · rename_i hij
      rcases List.mem_cons.mp hx with rfl | hx
      · rw [hjd, hij]
      · rw [hij]; exact hi.place j hj x hx
    · exact hi.place i hi' x hx
  · intro i hi'
    simp only [setB] at hi' ⊢
    split
    · rename_i hij
      rw [List.map_cons, List.nodup_cons]
      refine ⟨?_, hi.dist j hj⟩
      intro hm
      obtain ⟨x, hx, hk⟩ := List.mem_map.mp hm
      exact hnew x (by unfold entries; simp only [List.mem_flatMap, List.mem_range]; exact ⟨j, hj, hx⟩) hk
    · exact hi.dist i hi'
  · simp only
    rw [hi.cnt]
    unfold entries
    simp only [List.length_flatMap]
    -- one chain is longer by one
    have gen : ∀ (l : List Nat), l.Nodup → j ∈ l →
        (l.map (fun i => (setB h.b j (e :: h.b j) i).length)).sum = (l.map (fun i => (h.b i).length)).sum + 1 := by
      intro l
      induction l with
      | nil => simp
      | cons a l ih =>
        intro hn hm
        rw [List.nodup_cons] at hn
        simp only [List.map_cons, List.sum_cons]
        rcases List.mem_cons.mp hm with rfl | hm
        · have : l.map (fun i => (setB h.b j (e :: h.b j) i).length) = l.map (fun i => (h.b i).length) := by
            apply List.map_congr_left
            intro i hi'
            have : i ≠ j := fun hh => hn.1 (hh ▸ hi')
            simp [setB, this]
          rw [this]; simp [setB]; omega
        · rw [ih hn.2 hm]
          have : a ≠ j := fun hh => hn.1 (hh ▸ hm)
          simp [setB, this]; omega
    rw [gen _ List.nodup_range (List.mem_range.mpr hj)]

theorem add_spec {h : HashT E} (hi : Inv key hash h) (locked : E → Bool) (e : E)
    (hnew : ∀ x ∈ h.entries, key x ≠ key e) :
    ∃ h', add key hash locked h e = .ok h' ∧ Inv key hash h' ∧ h'.t = h.t ∧
      (∀ x, x ∈ h'.entries → x = e ∨ x ∈ h.entries) ∧
      (∀ x, (x = e ∨ x ∈ h.entries ∧ (h.t = false ∨ locked x = true)) → x ∈ h'.entries) := by
  obtain ⟨h1, c1, c2, c3, c4, c5, _⟩ := checkSize_spec hi locked
  unfold add
  rw [c1]
  simp only [Res.bind_ok, Res.pure_eq]
  have := push_inv c2 e (fun x hx => hnew x (c4 x hx))
  refine ⟨_, rfl, this.1, c3, ?_, ?_⟩
  · intro x hx
    rcases (this.2 x).mp hx with h | h
    · exact Or.inl h
    · exact Or.inr (c4 x h)
  · rintro x (h | ⟨h1, h2⟩)
    · exact (this.2 x).mpr (Or.inl h)
    · exact (this.2 x).mpr (Or.inr (c5 x h1 h2))

end HashT
end MSTK
