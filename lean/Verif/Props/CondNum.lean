import Verif.Props.Angle
/-!
C97: the condition numbers of the corners of a face.
-/
set_option linter.unusedSectionVars false
namespace MSTK
namespace Geo
open Topo

variable {F : Type} [Field F] [LinearOrder F] [IsStrictOrderedRing F]

/-! ### Specification -/

/-- `c` is the condition number of a corner with the sides `u` and `w`: the sum of the squares of the
lengths of the sides divided by twice the area `a` of the parallelogram between them.  The square of this
area is `(u,u)(w,w) - (u,w)(u,w)`. -/
def IsCond (c : F) (u w : V3 F) : Prop :=
  ∃ a, 0 < a ∧ a * a = inner u u * inner w w - inner u w * inner u w ∧
    inner u u + inner w w = c * (2 * a)

/-- the two sides of the corner are in line -/
def Straight (u w : V3 F) : Prop := inner u u * inner w w = inner u w * inner u w

/-- the points are not nearer than 1.0e-14 to each other -/
def Apart (x y : V3 F) : Prop := 1 / 10 ^ 14 * (1 / 10 ^ 14) ≤ inner (toVec x y) (toVec x y)

/-! ### Proofs -/

theorem clampedSqr_apart {x y : V3 F} (h : Apart x y) : clampedSqr x y = inner (toVec x y) (toVec x y) := by
  unfold clampedSqr
  exact if_neg (not_lt.2 h)

/-- the number of a corner whose three points are apart from each other -/
theorem cornerCond_spec {sqrt : F → F} (hs : SqrtOK sqrt) {x y z : V3 F} (h1 : Apart x y) (h2 : Apart x z)
    (h3 : Apart y z) :
    (Straight (toVec x y) (toVec x z) → cornerCond sqrt x y z = none) ∧
    (¬ Straight (toVec x y) (toVec x z) →
      ∃ c, cornerCond sqrt x y z = some c ∧ IsCond c (toVec x y) (toVec x z)) := by
  have hyz : inner (toVec y z) (toVec y z) = inner (toVec x y) (toVec x y) + inner (toVec x z) (toVec x z)
      - 2 * inner (toVec x y) (toVec x z) := by
    unfold inner toVec; dsimp only; ring
  have hc := cauchy (toVec x y) (toVec x z)
  unfold cornerCond
  rw [clampedSqr_apart h1, clampedSqr_apart h2, clampedSqr_apart h3, hyz]
  unfold Straight IsCond
  generalize inner (toVec x y) (toVec x y) = A at *
  generalize inner (toVec x z) (toVec x z) = B at *
  generalize inner (toVec x y) (toVec x z) = C at *
  have hr : 4 * A * B - (A + B - (A + B - 2 * C)) * (A + B - (A + B - 2 * C)) = 4 * (A * B - C * C) := by ring
  dsimp only
  rw [hr]
  have hd : 0 ≤ 4 * (A * B - C * C) := by linarith
  have hq := hs.square _ hd
  have hn := hs.nonneg _ hd
  generalize sqrt (4 * (A * B - C * C)) = r at *
  constructor
  · intro h
    rw [h, sub_self, mul_zero] at hq
    have : r = 0 := mul_self_eq_zero.1 hq
    rw [this, mul_zero, if_pos rfl]
  · intro h
    have hr0 : r ≠ 0 := by
      rintro rfl
      rw [zero_mul] at hq
      apply h
      linarith
    have hrp : 0 < r := lt_of_le_of_ne hn (Ne.symm hr0)
    have hne : (1 / 4 * r) ≠ 0 := by positivity
    rw [if_neg hne]
    refine ⟨_, rfl, r / 2, by positivity, ?_, ?_⟩
    · linear_combination hq / 4
    · field_simp
      ring

theorem collect_fun {α : Type} {g : Nat → Res α} {h : Nat → α} : ∀ {ks : List Nat}, (∀ k ∈ ks, g k = .ok (h k)) →
    collect g ks = .ok (ks.map h) := by
  intro ks
  induction ks with
  | nil => intro _; rfl
  | cons k ks ih =>
    intro hk
    show (do let x ← g k; let r ← collect g ks; pure (x :: r)) = _
    rw [hk k List.mem_cons_self, Res.bind_ok, ih (fun x hx => hk x (List.mem_cons_of_mem _ hx))]
    rfl

theorem condAt_ok {sqrt : F → F} {xyz : Nat → V3 F} {vs : List Nat} {i : Nat} (hi : i < vs.length) :
    condAt sqrt (vs.map xyz) i = .ok (cornerCond sqrt (xyz (vs.getD i 0)) (xyz (vs.getD ((i+1) % vs.length) 0))
      (xyz (vs.getD ((i + vs.length - 1) % vs.length) 0))) := by
  have hget : ∀ j : Nat, j < vs.length → (vs.map xyz)[j]? = some (xyz (vs.getD j 0)) := by
    intro j hj
    rw [List.getElem?_map, List.getD_eq_getElem?_getD, List.getElem?_eq_getElem hj]
    rfl
  unfold condAt
  rw [List.length_map, hget i hi, hget _ (Nat.mod_lt _ (by omega)), hget _ (Nat.mod_lt _ (by omega))]
  rfl

/-- **C97 (partial)**: for a face of at most 30 vertices the function gives as many numbers as the face has
vertices; the number at a place where the face has vertex `v`, next vertex `n` and previous vertex `p` is the
condition number of the corner at `v`, if the three points are at least 1.0e-14 apart and not in line; there is
no number when they are in line.

Missing: faces with more than 30 vertices (`C97_negation_large`) and corners with sides shorter than 1.0e-14
(`C97_negation_small`). -/
theorem C97_corners_partial {sqrt : F → F} (hs : SqrtOK sqrt) {T : Topo} {xyz : Nat → V3 F} {f : Nat}
    {vs : List Nat} (hf : T.sf f = .live) (hl : T.Loop f vs) (h30 : vs.length ≤ 30)
    (hv : ∀ v ∈ vs, T.sv v = .live) :
    ∃ cs, mfCondNums T xyz sqrt f = .ok cs ∧ cs.length = vs.length ∧
      ∀ (i v n p : Nat), vs[i]? = some v → vs[(i+1) % vs.length]? = some n →
        vs[(i + vs.length - 1) % vs.length]? = some p →
        Apart (xyz v) (xyz n) → Apart (xyz v) (xyz p) → Apart (xyz n) (xyz p) →
        (Straight (toVec (xyz v) (xyz n)) (toVec (xyz v) (xyz p)) → cs[i]? = some none) ∧
        (¬ Straight (toVec (xyz v) (xyz n)) (toVec (xyz v) (xyz p)) →
          ∃ c, cs[i]? = some (some c) ∧ IsCond c (toVec (xyz v) (xyz n)) (toVec (xyz v) (xyz p))) := by
  have h1 := C23_vertices hf hl true
  rw [if_pos rfl] at h1
  have h2 := fillCoords_ok (xyz := xyz) hv h30
  have h3 := collect_fun (g := condAt sqrt (vs.map xyz)) (ks := List.range vs.length)
    (fun k hk => condAt_ok (List.mem_range.1 hk))
  refine ⟨(List.range vs.length).map fun i => cornerCond sqrt (xyz (vs.getD i 0))
      (xyz (vs.getD ((i+1) % vs.length) 0)) (xyz (vs.getD ((i + vs.length - 1) % vs.length) 0)), ?_, ?_, ?_⟩
  · unfold mfCondNums
    rw [h1, Res.bind_ok, h2, Res.bind_ok, List.length_map]
    exact h3
  · simp
  · intro i v n p hiv hin hip a1 a2 a3
    have hi : i < vs.length := (List.getElem?_eq_some_iff.1 hiv).1
    have hget : ((List.range vs.length).map fun i => cornerCond sqrt (xyz (vs.getD i 0))
        (xyz (vs.getD ((i+1) % vs.length) 0)) (xyz (vs.getD ((i + vs.length - 1) % vs.length) 0)))[i]? =
        some (cornerCond sqrt (xyz v) (xyz n) (xyz p)) := by
      rw [List.getElem?_map, List.getElem?_range hi]
      simp only [Option.map_some, List.getD_eq_getElem?_getD, hiv, hin, hip, Option.getD_some]
    rw [hget]
    obtain ⟨c1, c2⟩ := cornerCond_spec hs a1 a2 a3
    refine ⟨fun h => by rw [c1 h], fun h => ?_⟩
    obtain ⟨c, hc, hc'⟩ := c2 h
    exact ⟨c, by rw [hc], hc'⟩

/-- **C97, meaning of the number**: it is at least 1, and it is 1 exactly for a right angle between sides of
the same length. -/
theorem C97_ideal {c : F} {u w : V3 F} (h : IsCond c u w) :
    1 ≤ c ∧ (c = 1 ↔ inner u w = 0 ∧ inner u u = inner w w) := by
  obtain ⟨a, ha, h1, h2⟩ := h
  have hu := inner_self_nonneg u
  have hw := inner_self_nonneg w
  generalize inner u u = A at *
  generalize inner w w = B at *
  generalize inner u w = C at *
  have hAB : 2 * a ≤ A + B := by
    by_contra hlt
    have := mul_self_lt_mul_self (by linarith : 0 ≤ A + B) (not_le.1 hlt)
    nlinarith [mul_self_nonneg (A - B), mul_self_nonneg C]
  constructor
  · by_contra hlt
    have := mul_lt_mul_of_pos_right (not_le.1 hlt) (show 0 < 2 * a by linarith)
    linarith
  · constructor
    · rintro rfl
      have hs : (A - B) * (A - B) + 4 * (C * C) = 0 := by
        linear_combination (A + B + 2 * a) * h2 + 4 * h1
      have p1 := mul_self_nonneg (A - B)
      have p2 := mul_self_nonneg C
      have q1 : (A - B) * (A - B) = 0 := by linarith
      have q2 : C * C = 0 := by linarith
      exact ⟨mul_self_eq_zero.1 q2, sub_eq_zero.1 (mul_self_eq_zero.1 q1)⟩
    · rintro ⟨rfl, rfl⟩
      have hA : a = A := eq_of_sq ha.le hu (by linarith)
      subst hA
      have : c * (2 * a) = 1 * (2 * a) := by linarith
      exact mul_right_cancel₀ (by positivity) this

/-- **C97, negation**: a face with more than 30 vertices; the call writes behind the end of an array. -/
theorem C97_negation_large {sqrt : F → F} {T : Topo} {xyz : Nat → V3 F} {f : Nat} {vs : List Nat}
    (hf : T.sf f = .live) (hl : T.Loop f vs) (hv : ∀ v ∈ vs, T.sv v = .live) (h : 30 < vs.length) :
    mfCondNums T xyz sqrt f = .ub := by
  have h1 := C23_vertices hf hl true
  rw [if_pos rfl] at h1
  unfold mfCondNums fillCoords
  rw [h1, Res.bind_ok, coordsOf_ok hv, Res.bind_ok, if_neg (by rw [List.length_map]; omega)]
  rfl

/-- a square of side 1.0e-15 -/
def tinyXyz : Nat → V3 F
  | 0 => (0, 0, 0)
  | 1 => (1 / 10 ^ 15, 0, 0)
  | 2 => (1 / 10 ^ 15, 1 / 10 ^ 15, 0)
  | _ => (0, 1 / 10 ^ 15, 0)

/-- **C97, negation**: the corners of a square of side 1.0e-15 have the condition number 1; the function takes
the sides and the diagonal for equally long and gives a number `c` with `3 c c = 4`. -/
theorem C97_negation_small {sqrt : F → F} (hs : SqrtOK sqrt) :
    IsCond 1 (toVec (tinyXyz (F := F) 0) (tinyXyz 1)) (toVec (tinyXyz 0) (tinyXyz 3)) ∧
    ∃ c, cornerCond sqrt (tinyXyz 0) (tinyXyz 1) (tinyXyz 3) = some c ∧ 3 * (c * c) = 4 := by
  constructor
  · refine ⟨1 / 10 ^ 15 * (1 / 10 ^ 15), by positivity, ?_, ?_⟩ <;> · unfold inner toVec tinyXyz; norm_num
  · have c1 : clampedSqr (tinyXyz (F := F) 0) (tinyXyz 1) = 1 / 10 ^ 28 := by
      unfold clampedSqr tinyXyz; norm_num
    have c2 : clampedSqr (tinyXyz (F := F) 0) (tinyXyz 3) = 1 / 10 ^ 28 := by
      unfold clampedSqr tinyXyz; norm_num
    have c3 : clampedSqr (tinyXyz (F := F) 1) (tinyXyz 3) = 1 / 10 ^ 28 := by
      unfold clampedSqr tinyXyz; norm_num
    unfold cornerCond
    rw [c1, c2, c3]
    dsimp only
    have hq := hs.square (4 * (1 / 10 ^ 28) * (1 / 10 ^ 28) -
      (1 / 10 ^ 28 + 1 / 10 ^ 28 - 1 / 10 ^ 28) * (1 / 10 ^ 28 + 1 / 10 ^ 28 - 1 / 10 ^ 28)) (by norm_num)
    generalize sqrt (4 * (1 / 10 ^ 28) * (1 / 10 ^ 28) -
      (1 / 10 ^ 28 + 1 / 10 ^ 28 - 1 / 10 ^ 28) * (1 / 10 ^ 28 + 1 / 10 ^ 28 - 1 / 10 ^ 28)) = r at *
    have hr : r ≠ 0 := by
      rintro rfl
      norm_num at hq
    rw [if_neg (by positivity)]
    refine ⟨_, rfl, ?_⟩
    field_simp
    norm_num at hq ⊢
    linear_combination (-16 * 10 ^ 56 : F) * hq

/-- the theorem speaks about the square of the mesh `roof`: its corners have the number 1 -/
example : (made roof).sf 1 = .live ∧ (∀ v ∈ [0, 1, 3, 4], (made roof).sv v = .live) ∧
    Apart (roofXyz (F := ℝ) 0) (roofXyz 1) ∧ Apart (roofXyz (F := ℝ) 0) (roofXyz 4) ∧
    Apart (roofXyz (F := ℝ) 1) (roofXyz 4) ∧
    ¬ Straight (toVec (roofXyz (F := ℝ) 0) (roofXyz 1)) (toVec (roofXyz 0) (roofXyz 4)) ∧
    IsCond 1 (toVec (roofXyz (F := ℝ) 0) (roofXyz 1)) (toVec (roofXyz 0) (roofXyz 4)) := by
  refine ⟨by decide +kernel, by decide +kernel, ?_, ?_, ?_, ?_, 1, one_pos, ?_, ?_⟩ <;>
    · simp only [Apart, Straight, inner, toVec, roofXyz]; norm_num

end Geo
end MSTK
