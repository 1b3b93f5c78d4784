import Verif.CompareModel
import Mathlib.Data.List.Sort
import Mathlib.Tactic.Linarith
import Mathlib.Tactic.NormNum
/-! C12, C43: comparison functions. -/
namespace MSTK

/-- Specification of a usable comparator: it says 0 exactly for the pairs it should identify, swapping
the arguments flips the sign, and "not greater" is transitive. -/
def ConsistentOrder {α : Type} (cmp : α → α → Int) (same : α → α → Prop) : Prop :=
  (∀ a b, cmp a b = 0 ↔ same a b) ∧ (∀ a b, cmp a b < 0 ↔ 0 < cmp b a) ∧
  (∀ a b c, cmp a b ≤ 0 → cmp b c ≤ 0 → cmp a c ≤ 0)

/-- **C12 (IDs)** On non-negative `int` values (entity IDs, global IDs, valences) the subtraction
comparators never overflow and are a consistent order with 0 = equality. -/
theorem C12_compare_ids :
    ∃ f : {x : Int // 0 ≤ x ∧ isInt x} → {x : Int // 0 ≤ x ∧ isInt x} → Int,
      (∀ a b, cmpInt a.1 b.1 = .ok (f a b)) ∧ ConsistentOrder f (fun a b => a.1 = b.1) := by
  refine ⟨fun a b => a.1 - b.1, ?_, ?_, ?_, ?_⟩
  · intro a b
    unfold cmpInt
    rw [if_pos]
    have ha := a.2; have hb := b.2
    unfold isInt at *
    omega
  · intro a b; simp only; omega
  · intro a b; simp only; omega
  · intro a b c; simp only; omega

example : cmpInt 5 7 = .ok (-2) := by decide

/-- **C12 (negation for arbitrary `int`)** Used on arbitrary `int` values `compareINT` overflows. -/
theorem C12_compareINT_negation : ∃ a b, isInt a ∧ isInt b ∧ cmpInt a b = .ub :=
  ⟨2147483647, -1, by decide, by decide, by decide⟩

/-- **C12 (edges)** Edges compare equal exactly when they have the same two end IDs in either order,
and the comparison is a consistent order. -/
theorem C12_compare_edges :
    ConsistentOrder cmpEdge (fun a b => (a.1 = b.1 ∧ a.2 = b.2) ∨ (a.1 = b.2 ∧ a.2 = b.1)) := by
  have hu : ∀ a b : Int × Int, cmpEdge a b =
      if max a.1 a.2 > max b.1 b.2 then 1 else if max a.1 a.2 < max b.1 b.2 then -1
      else if min a.1 a.2 > min b.1 b.2 then 1 else if min a.1 a.2 < min b.1 b.2 then -1 else 0 := by
    intro a b
    unfold cmpEdge
    by_cases h1 : a.1 < a.2 <;> by_cases h2 : b.1 < b.2 <;>
      simp only [h1, h2, if_true, if_false] <;>
      (first
        | rw [max_eq_right (Int.le_of_lt h1), min_eq_left (Int.le_of_lt h1)]
        | rw [max_eq_left (Int.not_lt.mp h1), min_eq_right (Int.not_lt.mp h1)]) <;>
      (first
        | rw [max_eq_right (Int.le_of_lt h2), min_eq_left (Int.le_of_lt h2)]
        | rw [max_eq_left (Int.not_lt.mp h2), min_eq_right (Int.not_lt.mp h2)])
  refine ⟨?_, ?_, ?_⟩
  · intro a b; rw [hu]; split_ifs <;> simp <;> omega
  · intro a b; rw [hu, hu]; split_ifs <;> omega
  · intro a b c; rw [hu, hu, hu]; split_ifs <;> omega

example : cmpEdge (3, 9) (9, 3) = 0 ∧ cmpEdge (3, 9) (9, 4) = -1 := by decide

theorem cmpLex_zero : ∀ a b : List Int, a.length = b.length → (cmpLex a b = 0 ↔ a = b)
  | [], [], _ => by simp [cmpLex]
  | a :: as, b :: bs, h => by
    have ih := cmpLex_zero as bs (by simpa using h)
    simp only [cmpLex]
    split_ifs with h1 h2
    · simp; omega
    · simp; omega
    · rw [ih]; simp; omega

theorem cmpLex_anti : ∀ a b : List Int, a.length = b.length → (cmpLex a b < 0 ↔ 0 < cmpLex b a)
  | [], [], _ => by simp [cmpLex]
  | a :: as, b :: bs, h => by
    have ih := cmpLex_anti as bs (by simpa using h)
    simp only [cmpLex]
    split_ifs <;> omega

theorem cmpLex_trans : ∀ a b c : List Int, a.length = b.length → b.length = c.length →
    cmpLex a b ≤ 0 → cmpLex b c ≤ 0 → cmpLex a c ≤ 0
  | [], [], [], _, _ => by simp [cmpLex]
  | a :: as, b :: bs, c :: cs, h, h' => by
    have ih := cmpLex_trans as bs cs (by simpa using h) (by simpa using h')
    simp only [cmpLex]
    split_ifs <;> omega

theorem sort_eq_iff (a b : List Int) :
    a.insertionSort (· ≤ ·) = b.insertionSort (· ≤ ·) ↔ a.Perm b := by
  constructor
  · intro h
    exact ((List.perm_insertionSort _ a).symm.trans (by rw [h])).trans (List.perm_insertionSort _ b)
  · intro h
    have hp := ((List.perm_insertionSort (· ≤ ·) a).trans h).trans (List.perm_insertionSort (· ≤ ·) b).symm
    have sa := List.pairwise_insertionSort (· ≤ ·) a
    have sb := List.pairwise_insertionSort (· ≤ ·) b
    exact hp.eq_of_pairwise (fun x y _ _ h1 h2 => Int.le_antisymm h1 h2) sa sb

/-- **C12 (faces)** Faces compare equal exactly when they have the same vertex IDs (with multiplicity, in any
order), and the comparison is a consistent order. -/
theorem C12_compare_faces : ConsistentOrder cmpFace (fun a b => a.Perm b) := by
  refine ⟨?_, ?_, ?_⟩
  · intro a b
    unfold cmpFace
    split_ifs with h1 h2
    · constructor
      · intro h; exact absurd h (by decide)
      · intro h; have := h.length_eq; omega
    · constructor
      · intro h; exact absurd h (by decide)
      · intro h; have := h.length_eq; omega
    · rw [cmpLex_zero _ _ (by simp; omega), sort_eq_iff]
  · intro a b
    unfold cmpFace
    split_ifs with h1 h2 h3 <;> first | omega | exact cmpLex_anti _ _ (by simp; omega)
  · intro a b c
    unfold cmpFace
    split_ifs <;> first | omega | exact cmpLex_trans _ _ _ (by simp; omega) (by simp; omega)

example : cmpFace [3, 1, 2] [1, 2, 3] = 0 ∧ cmpFace [5] [1, 2] = -1 ∧ cmpFace [1, 4] [3, 2] = -1 := by
  decide

/-- **C43 (negation)** The coordinate comparator with its tolerance is not a consistent order: for every
positive tolerance there are three points with a > b, b > c and c > a, so no sorted order of them exists and a
binary search over "sorted" vertices can miss. -/
theorem C43_compare_coords_negation (tol : Rat) (h : 0 < tol) :
    ∃ a b c, cmpCoor tol a b = 1 ∧ cmpCoor tol b c = 1 ∧ cmpCoor tol c a = 1 := by
  refine ⟨(0, 4 * tol, 0), (tol * (3/4), 2 * tol, 0), (tol * (3/2), 0, 0), ?_, ?_, ?_⟩
  · unfold cmpCoor
    simp only
    rw [if_neg (by linarith), if_neg (by linarith), if_pos (by linarith)]
  · unfold cmpCoor
    simp only
    rw [if_neg (by linarith), if_neg (by linarith), if_pos (by linarith)]
  · unfold cmpCoor
    simp only
    rw [if_pos (by linarith)]

/-- the tolerance of the code -/
example : (0 : Rat) < 1 / 1000000000000 := by norm_num

/-- **C43 (partial)** On points whose coordinates are pairwise equal or further apart than the tolerance
(e.g. all on a lattice coarser than the tolerance) the comparator is a consistent order identifying equal
points only. -/
theorem C43_compare_coords_partial (tol : Rat) (h : 0 < tol) (S : Rat × Rat × Rat → Prop)
    (hsep : ∀ a b, S a → S b → (a.1 = b.1 ∨ tol < |a.1 - b.1|) ∧ (a.2.1 = b.2.1 ∨ tol < |a.2.1 - b.2.1|) ∧
      (a.2.2 = b.2.2 ∨ tol < |a.2.2 - b.2.2|)) :
    ConsistentOrder (fun a b : {p // S p} => cmpCoor tol a.1 b.1) (fun a b => a.1 = b.1) := by
  have key : ∀ x y : Rat, (x = y ∨ tol < |x - y|) → (x - y > tol ↔ y < x) ∧ (y - x > tol ↔ x < y) := by
    intro x y hxy
    rcases hxy with rfl | hxy
    · constructor <;> constructor <;> intro h' <;> linarith
    · rcases lt_abs.mp hxy with h1 | h1
      · constructor <;> constructor <;> intro h' <;> linarith
      · constructor <;> constructor <;> intro h' <;> linarith
  have hu : ∀ a b, S a → S b → cmpCoor tol a b =
      if b.1 < a.1 then 1 else if a.1 < b.1 then -1
      else if b.2.1 < a.2.1 then 1 else if a.2.1 < b.2.1 then -1
      else if b.2.2 < a.2.2 then 1 else if a.2.2 < b.2.2 then -1 else 0 := by
    intro a b ha hb
    obtain ⟨h1, h2, h3⟩ := hsep a b ha hb
    unfold cmpCoor
    simp only [(key _ _ h1).1, (key _ _ h1).2, (key _ _ h2).1, (key _ _ h2).2, (key _ _ h3).1, (key _ _ h3).2]
  have hlt : ∀ a b, S a → S b → (cmpCoor tol a b < 0 ↔
      (a.1 < b.1 ∨ a.1 = b.1 ∧ (a.2.1 < b.2.1 ∨ a.2.1 = b.2.1 ∧ a.2.2 < b.2.2))) := by
    intro a b ha hb
    rw [hu a b ha hb]
    rcases lt_trichotomy a.1 b.1 with h1 | h1 | h1
    · simp [h1, not_lt_of_gt h1]
    · rcases lt_trichotomy a.2.1 b.2.1 with h2 | h2 | h2
      · simp [h1, h2, not_lt_of_gt h2]
      · rcases lt_trichotomy a.2.2 b.2.2 with h3 | h3 | h3
        · simp [h1, h2, h3, not_lt_of_gt h3]
        · simp [h1, h2, h3]
        · simp [h1, h2, h3, not_lt_of_gt h3]
      · simp [h1, h2, not_lt_of_gt h2, ne_of_gt h2]
    · simp [h1, not_lt_of_gt h1, ne_of_gt h1]
  have hgt : ∀ a b, S a → S b → (0 < cmpCoor tol a b ↔
      (b.1 < a.1 ∨ b.1 = a.1 ∧ (b.2.1 < a.2.1 ∨ b.2.1 = a.2.1 ∧ b.2.2 < a.2.2))) := by
    intro a b ha hb
    rw [hu a b ha hb]
    rcases lt_trichotomy a.1 b.1 with h1 | h1 | h1
    · simp [h1, not_lt_of_gt h1, ne_of_gt h1]
    · rcases lt_trichotomy a.2.1 b.2.1 with h2 | h2 | h2
      · simp [h1, h2, not_lt_of_gt h2, ne_of_gt h2]
      · rcases lt_trichotomy a.2.2 b.2.2 with h3 | h3 | h3
        · simp [h1, h2, h3, not_lt_of_gt h3]
        · simp [h1, h2, h3]
        · simp [h1, h2, h3]
      · simp [h1, h2]
    · simp [h1]
  refine ⟨?_, ?_, ?_⟩
  · intro a b
    simp only
    constructor
    · intro h0
      have n1 := mt (hlt _ _ a.2 b.2).mpr (by omega)
      have n2 := mt (hgt _ _ a.2 b.2).mpr (by omega)
      push Not at n1 n2
      have e1 : a.1.1 = b.1.1 := le_antisymm n2.1 n1.1
      have e2 : a.1.2.1 = b.1.2.1 := le_antisymm (n2.2 e1.symm).1 (n1.2 e1).1
      have e3 : a.1.2.2 = b.1.2.2 := le_antisymm ((n2.2 e1.symm).2 e2.symm) ((n1.2 e1).2 e2)
      exact Prod.ext e1 (Prod.ext e2 e3)
    · intro he
      rw [hu _ _ a.2 b.2, he]; simp
  · intro a b
    simp only
    rw [hlt _ _ a.2 b.2, hgt _ _ b.2 a.2]
  · intro a b c h1 h2
    simp only at h1 h2 ⊢
    by_contra hcon
    have n1 := mt (hgt _ _ a.2 b.2).mpr (by omega)
    have n2 := mt (hgt _ _ b.2 c.2).mpr (by omega)
    have n3 := (hgt _ _ a.2 c.2).mp (by omega)
    push Not at n1 n2
    rcases n3 with h | ⟨h, h' | ⟨h', h''⟩⟩
    · have := n1.1; have := n2.1; linarith
    · have ea : b.1.1 = a.1.1 := le_antisymm (by have := n2.1; linarith) n1.1
      have eb : c.1.1 = b.1.1 := by rw [h, ea]
      have := (n1.2 ea).1; have := (n2.2 eb).1; linarith
    · have ea : b.1.1 = a.1.1 := le_antisymm (by have := n2.1; linarith) n1.1
      have eb : c.1.1 = b.1.1 := by rw [h, ea]
      have x1 := n1.2 ea; have x2 := n2.2 eb
      have ec : b.1.2.1 = a.1.2.1 := le_antisymm (by have := x2.1; linarith) x1.1
      have ed : c.1.2.1 = b.1.2.1 := by rw [h', ec]
      have := x1.2 ec; have := x2.2 ed; linarith

/-- non-vacuity: the integer lattice is separated for the code's tolerance -/
example : ∀ a b : Rat × Rat × Rat, (∃ i j k : Int, a = (↑i, ↑j, ↑k)) → (∃ i j k : Int, b = (↑i, ↑j, ↑k)) →
    (a.1 = b.1 ∨ (1 / 1000000000000 : Rat) < |a.1 - b.1|) := by
  rintro _ _ ⟨i, j, k, rfl⟩ ⟨i', j', k', rfl⟩
  by_cases h : i = i'
  · left; simp [h]
  · right
    have h1 : (1 : Rat) ≤ |((i - i' : Int) : Rat)| := by
      rw [← Int.cast_abs]
      have : (1 : Int) ≤ |i - i'| := Int.one_le_abs (by omega)
      exact_mod_cast this
    have h2 : ((i - i' : Int) : Rat) = (i : Rat) - (i' : Rat) := by push_cast; rfl
    rw [h2] at h1
    simp only
    have : (1 / 1000000000000 : Rat) < 1 := by norm_num
    linarith

end MSTK
