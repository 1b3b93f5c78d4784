import Verif.GlobalIDModel

/-!
Lemmas on numbering the owned entities of partitions one after the other.
-/
namespace MSTK.Par

variable {α : Type} {ghost : α → Bool}

theorem assign_length : ∀ (l : List α) (c : Nat), (assign ghost c l).length = l.length := by
  intro l
  induction l with
  | nil => intro c; rfl
  | cons e r ih =>
    intro c
    unfold assign
    split <;> simp [ih]

theorem assign_get : ∀ {l : List α} {c i : Nat} {e : α}, l[i]? = some e →
    (assign ghost c l)[i]? = some (if ghost e then 0 else c + nOwned ghost (l.take i)) := by
  intro l
  induction l with
  | nil => intro c i e h; simp at h
  | cons a r ih =>
    intro c i e h
    cases i with
    | zero =>
      simp only [List.getElem?_cons_zero] at h
      injection h with h
      subst h
      unfold assign
      split <;> simp [nOwned]
    | succ i =>
      simp only [List.getElem?_cons_succ] at h
      unfold assign
      split
      · rename_i ha
        rw [List.getElem?_cons_succ, ih h]
        simp [nOwned, ha]
      · rename_i ha
        rw [List.getElem?_cons_succ, ih h]
        simp [nOwned, ha]
        split <;> omega

theorem nOwned_take_lt {l : List α} {i j : Nat} {e : α} (h : l[i]? = some e) (he : ghost e = false) (hij : i < j) :
    nOwned ghost (l.take i) < nOwned ghost (l.take j) := by
  have h1 : nOwned ghost (l.take (i+1)) = nOwned ghost (l.take i) + 1 := by
    unfold nOwned
    rw [List.take_add_one, h, List.countP_append]
    simp [he]
  have h2 : nOwned ghost (l.take (i+1)) ≤ nOwned ghost (l.take j) := by
    unfold nOwned
    apply List.Sublist.countP_le
    rw [show l.take (i+1) = (l.take j).take (i+1) from by rw [List.take_take, Nat.min_eq_left (by omega)]]
    exact List.take_sublist _ _
  omega

theorem nOwned_take_lt_all {l : List α} {i : Nat} {e : α} (h : l[i]? = some e) (he : ghost e = false) :
    nOwned ghost (l.take i) < nOwned ghost l := by
  have := nOwned_take_lt h he (j := l.length) (List.getElem?_eq_some_iff.1 h).1
  rwa [List.take_length] at this

theorem exists_owned : ∀ {l : List α} {k : Nat}, k < nOwned ghost l →
    ∃ (i : Nat) (e : α), l[i]? = some e ∧ ghost e = false ∧ nOwned ghost (l.take i) = k := by
  intro l
  induction l with
  | nil => intro k h; simp [nOwned] at h
  | cons a r ih =>
    intro k h
    by_cases ha : ghost a = true
    · obtain ⟨i, e, h1, h2, h3⟩ := ih (k := k) (by simpa [nOwned, List.countP_cons, ha] using h)
      exact ⟨i+1, e, h1, h2, by simpa [nOwned, List.countP_cons, ha] using h3⟩
    · have ha : ghost a = false := by simpa using ha
      cases k with
      | zero => exact ⟨0, a, rfl, ha, rfl⟩
      | succ k =>
        obtain ⟨i, e, h1, h2, h3⟩ := ih (k := k) (by simpa [nOwned, List.countP_cons, ha] using h)
        exact ⟨i+1, e, h1, h2, by simpa [nOwned, List.countP_cons, ha] using h3⟩

/-- sum of the first `r` numbers -/
def before (l : List Nat) (r : Nat) : Nat := (l.take r).sum

theorem offsets_get : ∀ {l : List Nat} {a r : Nat}, r < l.length → (offsets a l)[r]? = some (a + before l r) := by
  intro l
  induction l with
  | nil => intro a r h; cases h
  | cons c l ih =>
    intro a r h
    unfold offsets
    cases r with
    | zero => simp [before]
    | succ r =>
      rw [List.getElem?_cons_succ, ih (by simpa using h)]
      simp [before]
      omega

theorem offsets_length : ∀ {l : List Nat} {a : Nat}, (offsets a l).length = l.length := by
  intro l
  induction l with
  | nil => intro a; rfl
  | cons c l ih => intro a; unfold offsets; simp [ih]

theorem before_succ {l : List Nat} {r c : Nat} (h : l[r]? = some c) : before l (r+1) = before l r + c := by
  unfold before
  rw [List.take_add_one, h]
  simp

theorem before_mono {l : List Nat} : ∀ {s r : Nat}, r ≤ s → before l r ≤ before l s := by
  intro s
  induction s with
  | zero => intro r h; rw [Nat.le_zero.1 h]; exact Nat.le_refl _
  | succ s ih =>
    intro r h
    by_cases hr : r = s + 1
    · rw [hr]; exact Nat.le_refl _
    · have h1 := ih (r := r) (by omega)
      have h2 : before l s ≤ before l (s+1) := by
        unfold before
        rw [List.take_add_one, List.sum_append]
        omega
      omega

theorem before_all (l : List Nat) : before l l.length = l.sum := by
  unfold before; rw [List.take_length]

theorem exists_before : ∀ {l : List Nat} {v : Nat}, v < l.sum → ∃ (r c : Nat), l[r]? = some c ∧ before l r ≤ v ∧
    v < before l r + c := by
  intro l
  induction l with
  | nil => intro v h; simp at h
  | cons a l ih =>
    intro v h
    by_cases ha : v < a
    · exact ⟨0, a, rfl, by simp [before], by simpa [before] using ha⟩
    · obtain ⟨r, c, h1, h2, h3⟩ := ih (v := v - a) (by simp at h; omega)
      refine ⟨r+1, c, h1, ?_, ?_⟩
      · simp [before] at *; omega
      · simp [before] at *; omega

theorem numberAll_get {rs : List (List α)} {r : Nat} {l : List α} (h : rs[r]? = some l) :
    (numberAll ghost rs)[r]? = some (assign ghost (before (rs.map (nOwned ghost)) r + 1) l) := by
  have hr := (List.getElem?_eq_some_iff.1 h).1
  unfold numberAll
  rw [List.getElem?_map, show ((offsets 0 (rs.map (nOwned ghost))).zip rs)[r]? =
    some (before (rs.map (nOwned ghost)) r, l) from by
      rw [List.getElem?_zip_eq_some]
      refine ⟨?_, h⟩
      rw [offsets_get (by simpa using hr), Nat.zero_add]]
  rfl

/-- number of an entity: the number of owned ones on lower partitions and before it, plus one -/
theorem number_eq {rs : List (List α)} {r i : Nat} {l : List α} {e : α} (h : rs[r]? = some l) (he : l[i]? = some e) :
    ((numberAll ghost rs)[r]?.bind (·[i]?)) =
      some (if ghost e then 0 else before (rs.map (nOwned ghost)) r + 1 + nOwned ghost (l.take i)) := by
  rw [numberAll_get h, Option.bind_some, assign_get he]

/-- the numbers are within bounds -/
theorem number_range {rs : List (List α)} {r i : Nat} {l : List α} {e : α} (h : rs[r]? = some l)
    (he : l[i]? = some e) (hg : ghost e = false) :
    before (rs.map (nOwned ghost)) r + 1 + nOwned ghost (l.take i) ≤ (rs.map (nOwned ghost)).sum := by
  have h1 := nOwned_take_lt_all he hg
  have h2 := before_succ (l := rs.map (nOwned ghost)) (r := r) (c := nOwned ghost l) (by rw [List.getElem?_map, h]; rfl)
  have hr := (List.getElem?_eq_some_iff.1 h).1
  have h3 := before_mono (l := rs.map (nOwned ghost)) (r := r+1) (s := rs.length) (by omega)
  rw [← before_all, List.length_map]
  omega

/-- different owned entities have different numbers -/
theorem number_inj {rs : List (List α)} {r i r' i' : Nat} {l l' : List α} {e e' : α} (h : rs[r]? = some l)
    (he : l[i]? = some e) (hg : ghost e = false) (h' : rs[r']? = some l') (he' : l'[i']? = some e')
    (hg' : ghost e' = false)
    (hv : before (rs.map (nOwned ghost)) r + 1 + nOwned ghost (l.take i) =
      before (rs.map (nOwned ghost)) r' + 1 + nOwned ghost (l'.take i')) : r = r' ∧ i = i' := by
  have h1 := nOwned_take_lt_all he hg
  have h1' := nOwned_take_lt_all he' hg'
  have h2 := before_succ (l := rs.map (nOwned ghost)) (r := r) (c := nOwned ghost l) (by rw [List.getElem?_map, h]; rfl)
  have h2' := before_succ (l := rs.map (nOwned ghost)) (r := r') (c := nOwned ghost l') (by rw [List.getElem?_map, h']; rfl)
  have hrr : r = r' := by
    rcases Nat.lt_trichotomy r r' with hlt | heq | hlt
    · have := before_mono (l := rs.map (nOwned ghost)) (r := r+1) (s := r') hlt
      omega
    · exact heq
    · have := before_mono (l := rs.map (nOwned ghost)) (r := r'+1) (s := r) hlt
      omega
  subst hrr
  rw [h] at h'
  injection h' with h'
  subst h'
  refine ⟨rfl, ?_⟩
  rcases Nat.lt_trichotomy i i' with hlt | heq | hlt
  · have := nOwned_take_lt he hg hlt; omega
  · exact heq
  · have := nOwned_take_lt he' hg' hlt; omega

/-- every number up to the total is used -/
theorem number_surj {rs : List (List α)} {v : Nat} (h1 : 1 ≤ v) (h2 : v ≤ (rs.map (nOwned ghost)).sum) :
    ∃ (r i : Nat) (l : List α) (e : α), rs[r]? = some l ∧ l[i]? = some e ∧ ghost e = false ∧
      before (rs.map (nOwned ghost)) r + 1 + nOwned ghost (l.take i) = v := by
  obtain ⟨r, c, h3, h4, h5⟩ := exists_before (l := rs.map (nOwned ghost)) (v := v - 1) (by omega)
  rw [List.getElem?_map] at h3
  obtain ⟨l, hl, rfl⟩ := Option.map_eq_some_iff.1 h3
  obtain ⟨i, e, h6, h7, h8⟩ := exists_owned (ghost := ghost) (l := l) (k := v - 1 - before (rs.map (nOwned ghost)) r) (by omega)
  exact ⟨r, i, l, e, hl, h6, h7, by omega⟩

end MSTK.Par
