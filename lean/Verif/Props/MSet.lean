import Verif.MSetModel
import Mathlib.Tactic.Tauto
/-! C18 mesh set algebra, C45 handle returned by MSet_Add. -/
namespace MSTK
namespace MSetM
variable {E : Type} [DecidableEq E]

theorem markAll_spec (m : Nat) (b : Bool) (s : List E) : ∀ (mk : Marks E) (m' : Nat) (e : E),
    markAll mk m b s m' e = if m' = m ∧ e ∈ s then b else mk m' e := by
  induction s with
  | nil => intro mk m' e; simp [markAll]
  | cons x xs ih =>
    intro mk m' e
    have : markAll mk m b (x :: xs) = markAll (setMark mk m x b) m b xs := rfl
    rw [this, ih]
    unfold setMark
    by_cases h1 : m' = m <;> by_cases h2 : e ∈ xs <;> by_cases h3 : e = x <;> simp [h1, h2, h3]

theorem unionLoopM_spec (m : Nat) (s2 : List E) : ∀ (new : List E) (mk : Marks E),
    (∀ e, mk m e = true ↔ e ∈ new) →
    (unionLoopM m s2 new mk).1 = union new s2 ∧
    (∀ e, (unionLoopM m s2 new mk).2 m e = true ↔ e ∈ union new s2) ∧
    (∀ m' e, m' ≠ m → (unionLoopM m s2 new mk).2 m' e = mk m' e) := by
  induction s2 with
  | nil => intro new mk h; exact ⟨rfl, h, fun _ _ _ => rfl⟩
  | cons x xs ih =>
    intro new mk h
    unfold unionLoopM union
    by_cases hx : x ∈ new
    · rw [if_pos ((h x).mpr hx), if_pos hx]; exact ih new mk h
    · rw [if_neg (fun h' => hx ((h x).mp h')), if_neg hx]
      obtain ⟨a, b, c⟩ := ih (new ++ [x]) (setMark mk m x true) (by
        intro e
        unfold setMark
        by_cases he : e = x
        · simp [he]
        · simp [he, h])
      refine ⟨a, b, fun m' e hm => ?_⟩
      rw [c m' e hm]; simp [setMark, hm]

theorem mem_union (s2 : List E) : ∀ (new : List E) (e : E), e ∈ union new s2 ↔ e ∈ new ∨ e ∈ s2 := by
  induction s2 with
  | nil => intro new e; simp [union]
  | cons x xs ih =>
    intro new e
    unfold union
    by_cases hx : x ∈ new
    · rw [if_pos hx, ih]
      constructor
      · rintro (h | h) <;> simp [h]
      · rintro (h | h)
        · exact Or.inl h
        · rcases List.mem_cons.mp h with rfl | h
          · exact Or.inl hx
          · exact Or.inr h
    · rw [if_neg hx, ih]; simp only [List.mem_append, List.mem_cons, List.not_mem_nil, or_false]
      tauto

theorem nodup_union (s2 : List E) : ∀ (new : List E), new.Nodup → (union new s2).Nodup := by
  induction s2 with
  | nil => intro new h; exact h
  | cons x xs ih =>
    intro new h
    unfold union
    by_cases hx : x ∈ new
    · rw [if_pos hx]; exact ih new h
    · rw [if_neg hx]
      apply ih
      rw [List.nodup_append]
      refine ⟨h, by simp, ?_⟩
      intro a ha b hb; simp at hb; subst hb; rintro rfl; exact hx ha

omit [DecidableEq E] in
theorem orNull_elems (l : List E) : (orNull l).getD [] = l := by
  unfold orNull
  by_cases h : l.length = 0
  · rw [if_pos h]; simp [List.length_eq_zero_iff.mp h]
  · rw [if_neg h]; rfl

/-- **C18** Union, intersection and difference of two mesh sets hold exactly the entities of the set-theoretic
result (an empty intersection or difference being returned as NULL), without duplicates when the inputs have
none; the marker-based build, given markers not in use (no entity carries their marks), returns the same lists
as the search-based build and removes all the marks it made. -/
theorem C18_mset_algebra (s1 s2 : List E) (m1 m2 : Nat) (hm : m1 ≠ m2) (mk : Marks E)
    (hmk : ∀ e, mk m1 e = false ∧ mk m2 e = false) :
    ((∀ e, e ∈ union s1 s2 ↔ e ∈ s1 ∨ e ∈ s2) ∧
     (∀ e, e ∈ (intersect s1 s2).getD [] ↔ e ∈ s1 ∧ e ∈ s2) ∧
     (∀ e, e ∈ (subtract s1 s2).getD [] ↔ e ∈ s1 ∧ e ∉ s2)) ∧
    ((intersect s1 s2 = none ↔ ∀ e, ¬ (e ∈ s1 ∧ e ∈ s2)) ∧ (subtract s1 s2 = none ↔ ∀ e, ¬ (e ∈ s1 ∧ e ∉ s2))) ∧
    (s1.Nodup → s2.Nodup → (union s1 s2).Nodup ∧ ((intersect s1 s2).getD []).Nodup ∧
      ((subtract s1 s2).getD []).Nodup) ∧
    unionM m1 mk s1 s2 = (union s1 s2, mk) ∧
    intersectM m1 m2 mk s1 s2 = (intersect s1 s2, mk) ∧
    subtractM m1 mk s1 s2 = (subtract s1 s2, mk) := by
  have hI : ∀ e, e ∈ (intersect s1 s2).getD [] ↔ e ∈ s1 ∧ e ∈ s2 := by
    intro e
    unfold intersect
    rw [orNull_elems]
    by_cases h : s1.length < s2.length <;>
      simp only [h, if_true, if_false, List.mem_filter, Bool.and_eq_true, decide_eq_true_eq] <;> tauto
  have hS : ∀ e, e ∈ (subtract s1 s2).getD [] ↔ e ∈ s1 ∧ e ∉ s2 := by
    intro e
    unfold subtract
    rw [orNull_elems]
    simp
  have hnone : ∀ l : List E, orNull l = none ↔ ∀ e, e ∉ (orNull l).getD [] := by
    intro l
    rw [orNull_elems]
    unfold orNull
    by_cases h : l.length = 0
    · rw [if_pos h]; simp [List.length_eq_zero_iff.mp h]
    · rw [if_neg h]
      cases l with
      | nil => simp at h
      | cons x xs =>
        constructor
        · intro h; simp at h
        · intro h; exact absurd List.mem_cons_self (h x)
  refine ⟨⟨mem_union s2 s1, hI, hS⟩, ⟨?_, ?_⟩, ?_, ?_, ?_, ?_⟩
  · rw [show (∀ e, ¬ (e ∈ s1 ∧ e ∈ s2)) ↔ ∀ e, e ∉ (intersect s1 s2).getD [] from by simp only [hI]]
    unfold intersect; exact hnone _
  · rw [show (∀ e, ¬ (e ∈ s1 ∧ e ∉ s2)) ↔ ∀ e, e ∉ (subtract s1 s2).getD [] from by simp only [hS]]
    unfold subtract; exact hnone _
  · intro h1 h2
    refine ⟨nodup_union s2 s1 h1, ?_, ?_⟩
    · unfold intersect; rw [orNull_elems]
      by_cases h : s1.length < s2.length
      · simp only [h, if_true]; exact h1.filter _
      · simp only [h, if_false]; exact h2.filter _
    · unfold subtract; rw [orNull_elems]; exact h1.filter _
  · unfold unionM
    obtain ⟨a, b, c⟩ := unionLoopM_spec m1 s2 s1 (markAll mk m1 true s1) (by
      intro e; rw [markAll_spec]; simp [(hmk e).1])
    simp only [a, Prod.mk.injEq, true_and]
    funext m' e
    rw [markAll_spec]
    by_cases h : m' = m1
    · subst h
      by_cases he : e ∈ union s1 s2
      · simp [he, (hmk e).1]
      · have : (unionLoopM m' s2 s1 (markAll mk m' true s1)).2 m' e = false := by
          rw [Bool.eq_false_iff]; intro h'; exact he ((b e).mp h')
        simp [he, this, (hmk e).1]
    · rw [if_neg (fun h' => h h'.1), c m' e h, markAll_spec, if_neg (fun h' => h h'.1)]
  · unfold intersectM intersect
    have h12 : ∀ e, (markAll (markAll mk m1 true s1) m2 true s2 m1 e && markAll (markAll mk m1 true s1) m2 true s2 m2 e)
        = (decide (e ∈ s1) && decide (e ∈ s2)) := by
      intro e
      simp only [markAll_spec, hm, Ne.symm hm, false_and, if_false, true_and]
      by_cases a : e ∈ s1 <;> by_cases b : e ∈ s2 <;> simp [a, b, hmk e]
    simp only [h12, Prod.mk.injEq, true_and]
    funext m' e
    simp only [markAll_spec]
    by_cases h1 : m' = m1
    · subst h1
      by_cases a : e ∈ s1 <;> simp [hm, a, (hmk e).1]
    · by_cases h2 : m' = m2
      · subst h2
        by_cases a : e ∈ s2 <;> simp [h1, a, (hmk e).2]
      · simp [h1, h2]
  · unfold subtractM subtract
    have h12 : ∀ e, markAll mk m1 true s2 m1 e = decide (e ∈ s2) := by
      intro e
      rw [markAll_spec]
      by_cases a : e ∈ s2 <;> simp [a, hmk e]
    simp only [h12, Prod.mk.injEq, true_and]
    funext m' e
    simp only [markAll_spec]
    by_cases h1 : m' = m1
    · subst h1
      by_cases a : e ∈ s2 <;> simp [a, (hmk e).1]
    · simp [h1]

/-- non-vacuity -/
example : (unionM 0 (fun _ _ => false) [1, 2, 3] [3, 4]).1 = [1, 2, 3, 4] ∧
    (intersectM 0 1 (fun _ _ => false) [1, 2, 3] [3, 4]).1 = some [3] ∧
    (intersectM 0 1 (fun _ _ => false) [1, 2] [3, 4]).1 = none ∧
    (subtractM 0 (fun _ _ => false) [1, 2, 3] [3, 4]).1 = some [1, 2] := by decide

omit [DecidableEq E] in
/-- **C45 (negation)** In every heap, what `MSet_Add` returns as the set is a list object, never the set (and never
any set): using the result as the set, as `l = List_Add(l,e)` must be used for lists, is undefined behaviour. -/
theorem C45_mset_add_negation (h h' : Heap E) (s r : Nat) (e e' : E) (hok : add h s e = .ok (h', r)) :
    r ≠ s ∧ add h' r e' = .ub := by
  unfold add at hok
  cases hs : h s with
  | none => simp [hs] at hok
  | some o =>
    cases o with
    | list l => simp [hs] at hok
    | set l =>
      cases hl : h l with
      | none => simp [hs, hl] at hok
      | some o =>
        cases o with
        | set _ => simp [hs, hl] at hok
        | list c =>
          simp only [hs, hl, Res.ok.injEq, Prod.mk.injEq] at hok
          obtain ⟨rfl, rfl⟩ := hok
          have hne : l ≠ s := by rintro rfl; simp [hs] at hl
          exact ⟨hne, by simp [add]⟩

omit [DecidableEq E] in
/-- **C45 (partial)** The contents are updated as expected: the entry is appended to the given set's list, and no
other object changes. -/
theorem C45_mset_add_partial (h : Heap E) (s l : Nat) (c : List E) (e : E) (hs : h s = some (.set l))
    (hl : h l = some (.list c)) :
    ∃ h', add h s e = .ok (h', l) ∧ h' s = some (.set l) ∧ h' l = some (.list (c ++ [e])) ∧
      ∀ x, x ≠ l → h' x = h x := by
  have hne : s ≠ l := by rintro rfl; simp [hs] at hl
  refine ⟨fun a => if a = l then some (.list (c ++ [e])) else h a, by simp [add, hs, hl], ?_, ?_, ?_⟩
  · simp [hne, hs]
  · simp
  · intro x hx; simp [hx]

/-- non-vacuity: an empty set at address 1 with its list at address 2 -/
example : (match add (E := Nat) (fun a => if a = 1 then some (.set 2) else if a = 2 then some (.list []) else none) 1 7 with
    | .ok (h, r) => decide (r = 2) && decide (h 2 = some (.list [7]))
    | _ => false) = true := by decide

end MSetM
end MSTK
