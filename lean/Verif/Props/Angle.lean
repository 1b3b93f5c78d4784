import Verif.GeomModel
import Verif.Props.FaceLoops
import Mathlib.Algebra.Order.Field.Basic
import Mathlib.Analysis.Real.Sqrt
import Mathlib.Tactic.FieldSimp
import Mathlib.Tactic.Ring
import Mathlib.Tactic.Linarith
import Mathlib.Tactic.LinearCombination
import Mathlib.Tactic.NormNum
/-!
C96: the lengths of edges and the angles between edges and between faces.
-/
set_option linter.unusedSectionVars false
namespace MSTK
namespace Geo
open Topo

variable {F : Type} [Field F] [LinearOrder F] [IsStrictOrderedRing F]

/-! ### Specification -/

/-- `sqrt` is the square root -/
structure SqrtOK (sqrt : F → F) : Prop where
  nonneg : ∀ x, 0 ≤ x → 0 ≤ sqrt x
  square : ∀ x, 0 ≤ x → sqrt x * sqrt x = x

/-- the inner product -/
def inner (u w : V3 F) : F := u.1 * w.1 + u.2.1 * w.2.1 + u.2.2 * w.2.2

/-- the vector from `x` to `y` -/
def toVec (x y : V3 F) : V3 F := (y.1 - x.1, y.2.1 - x.2.1, y.2.2 - x.2.2)

/-- `k` times `u` plus `s` times `w` -/
def comb (k : F) (u : V3 F) (s : F) (w : V3 F) : V3 F :=
  (k * u.1 + s * w.1, k * u.2.1 + s * w.2.1, k * u.2.2 + s * w.2.2)

/-- `c` is the cosine of the angle between the vectors `u` and `w`: the inner product is `c` times
the lengths `a` and `b` of the vectors. -/
def IsCos (c : F) (u w : V3 F) : Prop :=
  ∃ a b, 0 < a ∧ 0 < b ∧ a * a = inner u u ∧ b * b = inner w w ∧ inner u w = c * (a * b)

/-- the vector is longer than 1.0e-28 -/
def Long (u : V3 F) : Prop := 1 / 10 ^ 28 * (1 / 10 ^ 28) < inner u u

/-- the edge goes from `a` to `b` -/
def Ends (T : Topo) (e a b : Nat) : Prop :=
  T.meVertex e false = .ok (some a) ∧ T.meVertex e true = .ok (some b)

/-- the edge has the ends `a` and `b` -/
def Joins (T : Topo) (e a b : Nat) : Prop := Ends T e a b ∨ Ends T e b a

/-- The face with the vertices `vs` is flat and lies on one side of its edge from `a` to `b`: `u` is
perpendicular to the edge and every vertex of the face is in the half plane that `u` spans with the
edge; vertices other than `a` and `b` are not (nearly) on the line of the edge: with `h` the
distance from the line and `l` the length of the edge, `h l > 30 * 1.0e-28`. -/
structure OnSide (xyz : Nat → V3 F) (vs : List Nat) (a b : Nat) (u : V3 F) : Prop where
  perp : inner u (toVec (xyz a) (xyz b)) = 0
  side : ∀ x ∈ vs, ∃ k s, 0 ≤ k ∧ toVec (xyz a) (xyz x) = comb k u s (toVec (xyz a) (xyz b)) ∧
    (x ≠ a → x ≠ b → 30 / 10 ^ 28 * (30 / 10 ^ 28) <
      (k * k * inner u u) * inner (toVec (xyz a) (xyz b)) (toVec (xyz a) (xyz b)))

/-- the edge is one of the edges of the face -/
def HasEdge (T : Topo) (f e : Nat) : Prop := ∃ l, T.mfEdges f true none = .ok l ∧ e ∈ l

/-! ### vectors -/

theorem inner_comm (u w : V3 F) : inner u w = inner w u := by unfold inner; ring

theorem inner_self_nonneg (u : V3 F) : 0 ≤ inner u u := by
  unfold inner
  have h1 := mul_self_nonneg u.1
  have h2 := mul_self_nonneg u.2.1
  have h3 := mul_self_nonneg u.2.2
  linarith

theorem cauchy (u w : V3 F) : inner u w * inner u w ≤ inner u u * inner w w := by
  have h := inner_self_nonneg (vcross u w)
  have : inner (vcross u w) (vcross u w) = inner u u * inner w w - inner u w * inner u w := by
    unfold inner vcross; dsimp only; ring
  linarith

theorem IsCos.symm {c : F} {u w : V3 F} (h : IsCos c u w) : IsCos c w u := by
  obtain ⟨a, b, ha, hb, h1, h2, h3⟩ := h
  exact ⟨b, a, hb, ha, h2, h1, by rw [inner_comm, h3]; ring⟩

theorem eq_of_sq {a b : F} (ha : 0 ≤ a) (hb : 0 ≤ b) (h : a * a = b * b) : a = b := by
  rcases lt_trichotomy a b with hlt | heq | hlt
  · exact absurd h (ne_of_lt (mul_self_lt_mul_self ha hlt))
  · exact heq
  · exact absurd h.symm (ne_of_lt (mul_self_lt_mul_self hb hlt))

/-- there is only one cosine -/
theorem IsCos.unique {c d : F} {u w : V3 F} (h : IsCos c u w) (h' : IsCos d u w) : c = d := by
  obtain ⟨a, b, ha, hb, h1, h2, h3⟩ := h
  obtain ⟨a', b', ha', hb', h1', h2', h3'⟩ := h'
  have e1 : a = a' := eq_of_sq ha.le ha'.le (h1.trans h1'.symm)
  have e2 : b = b' := eq_of_sq hb.le hb'.le (h2.trans h2'.symm)
  subst e1 e2
  exact mul_right_cancel₀ (mul_pos ha hb).ne' (h3.symm.trans h3')

theorem IsCos.range {c : F} {u w : V3 F} (h : IsCos c u w) : -1 ≤ c ∧ c ≤ 1 := by
  obtain ⟨a, b, ha, hb, h1, h2, h3⟩ := h
  have hc := cauchy u w
  rw [h3, ← h1, ← h2] at hc
  have hp : 0 < (a * b) * (a * b) := mul_pos (mul_pos ha hb) (mul_pos ha hb)
  have hcc : c * c ≤ 1 := by
    by_contra hlt
    have := mul_lt_mul_of_pos_right (not_le.1 hlt) hp
    nlinarith
  constructor <;> nlinarith

theorem IsCos.neg {c : F} {u w : V3 F} (h : IsCos c (vneg u) (vneg w)) : IsCos c u w := by
  obtain ⟨a, b, ha, hb, h1, h2, h3⟩ := h
  have : ∀ x y : V3 F, inner (vneg x) (vneg y) = inner x y := fun x y => by unfold inner vneg; dsimp only; ring
  rw [this] at h1 h2 h3
  exact ⟨a, b, ha, hb, h1, h2, h3⟩

theorem sqrt_long {sqrt : F → F} (hs : SqrtOK sqrt) {u : V3 F} (h : Long u) :
    ¬ sqrt (inner u u) ≤ 1 / 10 ^ 28 := by
  intro hle
  have h0 := hs.nonneg _ (inner_self_nonneg u)
  have h1 := mul_self_le_mul_self h0 hle
  rw [hs.square _ (inner_self_nonneg u)] at h1
  exact absurd h (not_lt.2 h1)

theorem tiny_pos : (0 : F) < 1 / 10 ^ 28 := by positivity

theorem normalize_long {sqrt : F → F} (hs : SqrtOK sqrt) {u : V3 F} (h : Long u) :
    vnormalize sqrt u = (u.1 / sqrt (inner u u), u.2.1 / sqrt (inner u u), u.2.2 / sqrt (inner u u)) := by
  have := sqrt_long hs h
  unfold vnormalize
  exact if_neg this

theorem isCos_normalize {sqrt : F → F} (hs : SqrtOK sqrt) {u w : V3 F} (hu : Long u) (hw : Long w) :
    IsCos (vdot (vnormalize sqrt u) (vnormalize sqrt w)) u w := by
  have h1 : 0 < sqrt (inner u u) := lt_trans tiny_pos (not_le.1 (sqrt_long hs hu))
  have h2 : 0 < sqrt (inner w w) := lt_trans tiny_pos (not_le.1 (sqrt_long hs hw))
  refine ⟨_, _, h1, h2, hs.square _ (inner_self_nonneg u), hs.square _ (inner_self_nonneg w), ?_⟩
  rw [normalize_long hs hu, normalize_long hs hw]
  generalize sqrt (inner u u) = a at h1
  generalize sqrt (inner w w) = b at h2
  unfold vdot inner
  dsimp only
  field_simp

theorem Long.ne {x y : V3 F} (h : Long (toVec x y)) : x ≠ y := by
  rintro rfl
  unfold Long inner toVec at h
  simp only [sub_self, mul_zero, add_zero] at h
  exact absurd h (not_lt.2 (mul_pos tiny_pos tiny_pos).le)

theorem Long.neg {x y : V3 F} (h : Long (toVec x y)) : Long (toVec y x) := by
  unfold Long at *
  have : inner (toVec y x) (toVec y x) = inner (toVec x y) (toVec x y) := by
    unfold inner toVec; dsimp only; ring
  rwa [this]

theorem toVec_neg (x y : V3 F) : vneg (toVec x y) = toVec y x := by
  unfold vneg toVec; dsimp only; refine Prod.ext ?_ (Prod.ext ?_ ?_) <;> ring

/-! ### edges -/

theorem mvCoords_ok {T : Topo} {xyz : Nat → V3 F} {v : Nat} (h : T.sv v = .live) :
    mvCoords T xyz (some v) = .ok (xyz v) := by
  unfold mvCoords
  rw [Res.ofOption_some, Res.bind_ok, derefV_ok (alloc_of_live h), Res.bind_ok]
  rfl

theorem meEnds_ok {T : Topo} {xyz : Nat → V3 F} {e a b : Nat} (h : Ends T e a b)
    (ha : T.sv a = .live) (hb : T.sv b = .live) : meEnds T xyz e = .ok (xyz a, xyz b) := by
  unfold meEnds
  rw [h.1, Res.bind_ok, h.2, Res.bind_ok, mvCoords_ok ha, Res.bind_ok, mvCoords_ok hb]
  rfl

/-- **C96, lengths**: `ME_Vec` is the vector from the first to the second vertex of the edge,
`ME_LenSqr` the square of its length and `ME_Len` its length. -/
theorem C96_lengths {sqrt : F → F} (hs : SqrtOK sqrt) {T : Topo} (xyz : Nat → V3 F) {e a b : Nat}
    (h : Ends T e a b) (ha : T.sv a = .live) (hb : T.sv b = .live) :
    meVec T xyz e = .ok (toVec (xyz a) (xyz b)) ∧
    meLenSqr T xyz e = .ok (inner (toVec (xyz a) (xyz b)) (toVec (xyz a) (xyz b))) ∧
    ∃ l, meLen T xyz sqrt e = .ok l ∧ 0 ≤ l ∧
      l * l = inner (toVec (xyz a) (xyz b)) (toVec (xyz a) (xyz b)) := by
  have h2 : meLenSqr T xyz e = .ok (inner (toVec (xyz a) (xyz b)) (toVec (xyz a) (xyz b))) := by
    unfold meLenSqr; rw [meEnds_ok h ha hb]; rfl
  refine ⟨?_, h2, _, ?_, hs.nonneg _ (inner_self_nonneg _), hs.square _ (inner_self_nonneg _)⟩
  · unfold meVec; rw [meEnds_ok h ha hb]; rfl
  · unfold meLen; rw [h2]; rfl

theorem awayFrom_ok {sqrt : F → F} {T : Topo} {xyz : Nat → V3 F} {a b : Nat}
    (ha : T.sv a = .live) (hb : T.sv b = .live) :
    awayFrom T xyz sqrt (some a) (some b) = .ok (vnormalize sqrt (toVec (xyz a) (xyz b))) := by
  unfold awayFrom
  rw [mvCoords_ok ha, Res.bind_ok, mvCoords_ok hb]
  rfl

theorem mesAngle_at {sqrt : F → F} {T : Topo} {xyz : Nat → V3 F} {e1 e2 a0 a1 b0 b1 : Nat} {i j : Bool}
    (h1 : Ends T e1 a0 a1) (h2 : Ends T e2 b0 b1)
    (hc : commonEnd (some a0) (some a1) (some b0) (some b1) = some (i, j))
    (l1 : T.sv a0 = .live) (l2 : T.sv a1 = .live) (l3 : T.sv b0 = .live) (l4 : T.sv b1 = .live) :
    mesAngle T xyz sqrt e1 e2 = .ok (vdot
      (vnormalize sqrt (toVec (xyz (if i then a1 else a0)) (xyz (if i then a0 else a1))))
      (vnormalize sqrt (toVec (xyz (if j then b1 else b0)) (xyz (if j then b0 else b1)))), false) := by
  unfold mesAngle
  rw [h1.1, Res.bind_ok, h1.2, Res.bind_ok, h2.1, Res.bind_ok, h2.2, Res.bind_ok, hc]
  dsimp only
  have e1 : awayFrom T xyz sqrt (if i then some a1 else some a0) (if i then some a0 else some a1) =
      .ok (vnormalize sqrt (toVec (xyz (if i then a1 else a0)) (xyz (if i then a0 else a1)))) := by
    cases i
    · exact awayFrom_ok l1 l2
    · exact awayFrom_ok l2 l1
  have e2 : awayFrom T xyz sqrt (if j then some b1 else some b0) (if j then some b0 else some b1) =
      .ok (vnormalize sqrt (toVec (xyz (if j then b1 else b0)) (xyz (if j then b0 else b1)))) := by
    cases j
    · exact awayFrom_ok l3 l4
    · exact awayFrom_ok l4 l3
  rw [e1, Res.bind_ok, e2]
  rfl

/-- **C96, angle between edges (partial: edges of length 1.0e-28 or less excepted)**: for two edges
with a common vertex `p` and other ends `q` and `s`, whichever way the edges go, `MEs_Angle` returns
the cosine of the angle between the directions from `p` to `q` and from `p` to `s`. -/
theorem C96_edges_partial {sqrt : F → F} (hs : SqrtOK sqrt) {T : Topo} {xyz : Nat → V3 F}
    {e1 e2 p q s : Nat} (h1 : Joins T e1 p q) (h2 : Joins T e2 p s)
    (lp : T.sv p = .live) (lq : T.sv q = .live) (ls : T.sv s = .live)
    (hq : Long (toVec (xyz p) (xyz q))) (hw : Long (toVec (xyz p) (xyz s))) :
    ∃ c, mesAngle T xyz sqrt e1 e2 = .ok (c, false) ∧
      IsCos c (toVec (xyz p) (xyz q)) (toVec (xyz p) (xyz s)) := by
  have npq : p ≠ q := fun h => hq.ne (by rw [h])
  have nps : p ≠ s := fun h => hw.ne (by rw [h])
  have flip : q = s → IsCos (vdot (vnormalize sqrt (toVec (xyz q) (xyz p)))
      (vnormalize sqrt (toVec (xyz s) (xyz p)))) (toVec (xyz p) (xyz q)) (toVec (xyz p) (xyz s)) := by
    intro _
    apply IsCos.neg
    rw [toVec_neg, toVec_neg]
    exact isCos_normalize hs hq.neg hw.neg
  rcases h1 with h1 | h1 <;> rcases h2 with h2 | h2
  · have hc : commonEnd (some p) (some q) (some p) (some s) = some (false, false) := by simp [commonEnd]
    exact ⟨_, mesAngle_at h1 h2 hc lp lq lp ls, isCos_normalize hs hq hw⟩
  · have hc : commonEnd (some p) (some q) (some s) (some p) = some (false, true) := by
      simp [commonEnd, nps]
    exact ⟨_, mesAngle_at h1 h2 hc lp lq ls lp, isCos_normalize hs hq hw⟩
  · by_cases hqs : q = s
    · have hc : commonEnd (some q) (some p) (some p) (some s) = some (false, true) := by
        simp [commonEnd, hqs, nps.symm]
      exact ⟨_, mesAngle_at h1 h2 hc lq lp lp ls, flip hqs⟩
    · have hc : commonEnd (some q) (some p) (some p) (some s) = some (true, false) := by
        simp [commonEnd, npq.symm, hqs]
      exact ⟨_, mesAngle_at h1 h2 hc lq lp lp ls, isCos_normalize hs hq hw⟩
  · by_cases hqs : q = s
    · have hc : commonEnd (some q) (some p) (some s) (some p) = some (false, false) := by
        simp [commonEnd, hqs]
      exact ⟨_, mesAngle_at h1 h2 hc lq lp ls lp, flip hqs⟩
    · have hc : commonEnd (some q) (some p) (some s) (some p) = some (true, true) := by
        simp [commonEnd, npq.symm, hqs, nps]
      exact ⟨_, mesAngle_at h1 h2 hc lq lp ls lp, isCos_normalize hs hq hw⟩

/-- **C96, edges that do not meet**: an error is reported and 0 returned. -/
theorem C96_edges_apart {sqrt : F → F} {T : Topo} {xyz : Nat → V3 F} {e1 e2 a b c d : Nat}
    (h1 : Ends T e1 a b) (h2 : Ends T e2 c d) (h : ∀ x ∈ [a, b], x ∉ [c, d]) :
    mesAngle T xyz sqrt e1 e2 = .ok (0, true) := by
  have h3 := h a (by simp)
  have h4 := h b (by simp)
  simp only [List.mem_cons, List.not_mem_nil, or_false, not_or] at h3 h4
  have hc : commonEnd (some a) (some b) (some c) (some d) = none := by
    simp [commonEnd, h3.1, h3.2, h4.1, h4.2]
  unfold mesAngle
  rw [h1.1, Res.bind_ok, h1.2, Res.bind_ok, h2.1, Res.bind_ok, h2.2, Res.bind_ok, hc]
  rfl

/-! ### faces -/

theorem loop_turn {T : Topo} {f : Nat} {vs : List Nat} (hf : T.sf f = .live) (h : T.Loop f vs)
    (hn : vs.Nodup) {k p q : Nat} (h2 : 2 ≤ vs.length) (hk : k < vs.length) (hp : vs[k]? = some p)
    (hq : vs[(k+1) % vs.length]? = some q) :
    (∃ ws : List Nat, T.mfVertices f true (some p) = .ok (ws.map some) ∧ ws.Perm vs ∧
      ws[0]? = some p ∧ ws[1]? = some q) ∧
    (∃ ws : List Nat, T.mfVertices f false (some q) = .ok (ws.map some) ∧ ws.Perm vs ∧
      ws[0]? = some q ∧ ws[1]? = some p) := by
  constructor
  · refine ⟨vs.rotate k, (C23_vertices_from hf h hn true p).1 k hp, List.rotate_perm _ _, ?_, ?_⟩
    · rw [List.getElem?_rotate (by omega), Nat.zero_add, Nat.mod_eq_of_lt hk, hp]
    · rw [List.getElem?_rotate (by omega), Nat.add_comm, hq]
  · refine ⟨(vs.rotate ((k+1) % vs.length + 1)).reverse, (C23_vertices_from hf h hn false q).1 _ hq,
      (List.reverse_perm _).trans (List.rotate_perm _ _), ?_, ?_⟩
    · rw [List.getElem?_reverse (by rw [List.length_rotate]; omega), List.length_rotate,
        List.getElem?_rotate (by omega), ← hq]
      congr 1
      rw [show vs.length - 1 - 0 + ((k + 1) % vs.length + 1) = (k+1) % vs.length + vs.length by omega,
        Nat.add_mod_right, Nat.mod_mod]
    · rw [List.getElem?_reverse (by rw [List.length_rotate]; omega), List.length_rotate,
        List.getElem?_rotate (by omega), ← hp]
      congr 1
      rcases Nat.lt_or_ge (k+1) vs.length with hlt | hge
      · rw [Nat.mod_eq_of_lt hlt, show vs.length - 1 - 1 + (k + 1 + 1) = k + vs.length by omega,
          Nat.add_mod_right, Nat.mod_eq_of_lt hk]
      · have : k + 1 = vs.length := by omega
        rw [this, Nat.mod_self, show vs.length - 1 - 1 + (0 + 1) = k by omega, Nat.mod_eq_of_lt hk]

/-- where the two calls of `MF_Vertices` start and where they go -/
theorem face_from {T : Topo} {f e a b : Nat} {vs : List Nat} (hf : T.sf f = .live) (h : T.Loop f vs)
    (hn : vs.Nodup) (h2 : 2 ≤ vs.length) (he : HasEdge T f e) (hab : Ends T e a b) :
    ∃ d, T.mfEdgeDir f e = .ok d ∧
      (∃ ws : List Nat, T.mfVertices f d (some a) = .ok (ws.map some) ∧ ws.Perm vs ∧
        ws[0]? = some a ∧ ws[1]? = some b) ∧
      (∃ ws : List Nat, T.mfVertices f (!d) (some b) = .ok (ws.map some) ∧ ws.Perm vs ∧
        ws[0]? = some b ∧ ws[1]? = some a) := by
  obtain ⟨l, hl1, hl2, hl3, -⟩ := h.stored (alloc_of_live hf)
  obtain ⟨l', hl', hel⟩ := he
  rw [hl2] at hl'; injection hl' with hl'; subst hl'
  obtain ⟨es, he1, he2, he3⟩ := h
  have h : T.Loop f vs := ⟨es, he1, he2, he3⟩
  rw [hl2] at he1; injection he1 with he1; subst he1
  have hlt : l.idxOf e < l.length := List.idxOf_lt_length_iff.2 hel
  have hget : l[l.idxOf e]? = some e := by
    rw [List.getElem?_eq_getElem hlt, List.getElem_idxOf hlt]
  obtain ⟨d, hd, hv0, hv1⟩ := he3 _ _ hget
  have hdir : T.mfEdgeDir f e = .ok d := by
    unfold mfEdgeDir
    rw [fedges_ok (alloc_of_live hf) hl1, Res.bind_ok, if_pos hel]
    unfold mfEdgeDir_i at hd
    rwa [derefF_ok (alloc_of_live hf), Res.bind_ok] at hd
  refine ⟨d, hdir, ?_⟩
  cases d
  · rw [show T.meVertex e (!false) = .ok (some b) from hab.2] at hv0
    rw [hab.1] at hv1
    injection hv0 with hv0
    injection hv1 with hv1
    have := loop_turn hf h hn h2 (hl3 ▸ hlt) hv0.symm hv1.symm
    exact ⟨this.2, this.1⟩
  · rw [show T.meVertex e (!true) = .ok (some a) from hab.1] at hv0
    rw [hab.2] at hv1
    injection hv0 with hv0
    injection hv1 with hv1
    exact loop_turn hf h hn h2 (hl3 ▸ hlt) hv0.symm hv1.symm

theorem coordsOf_ok {T : Topo} {xyz : Nat → V3 F} : ∀ {vs : List Nat}, (∀ v ∈ vs, T.sv v = .live) →
    coordsOf T xyz (vs.map some) = .ok (vs.map xyz) := by
  intro vs
  induction vs with
  | nil => intro _; rfl
  | cons v vs ih =>
    intro h
    show (do let x ← mvCoords T xyz (some v); let r ← coordsOf T xyz (vs.map some); pure (x :: r)) = _
    rw [mvCoords_ok (h v List.mem_cons_self), Res.bind_ok, ih (fun w hw => h w (List.mem_cons_of_mem _ hw))]
    rfl

theorem fillCoords_ok {T : Topo} {xyz : Nat → V3 F} {vs : List Nat} (h : ∀ v ∈ vs, T.sv v = .live)
    (hl : vs.length ≤ 30) : fillCoords T xyz (vs.map some) = .ok (vs.map xyz) := by
  unfold fillCoords
  rw [coordsOf_ok h, Res.bind_ok, if_pos (by rw [List.length_map]; exact hl)]
  rfl

/-- the other end of the edge as origin -/
theorem OnSide.swap {xyz : Nat → V3 F} {vs : List Nat} {a b : Nat} {u : V3 F} (h : OnSide xyz vs a b u) :
    OnSide xyz vs b a u := by
  constructor
  · have := h.perp
    rw [← toVec_neg]
    unfold inner vneg at *
    dsimp only at *
    linear_combination -this
  · intro x hx
    obtain ⟨k, s, h1, h2, h3⟩ := h.side x hx
    refine ⟨k, 1 - s, h1, ?_, fun hb ha => ?_⟩
    · unfold toVec comb at *
      simp only [Prod.mk.injEq] at *
      obtain ⟨e1, e2, e3⟩ := h2
      refine ⟨?_, ?_, ?_⟩
      · linear_combination e1
      · linear_combination e2
      · linear_combination e3
    · have := h3 ha hb
      have he : inner (toVec (xyz b) (xyz a)) (toVec (xyz b) (xyz a)) =
          inner (toVec (xyz a) (xyz b)) (toVec (xyz a) (xyz b)) := by
        unfold inner toVec; dsimp only; ring
      rwa [he]

theorem fold_points {xyz : Nat → V3 F} {a : Nat} {u e : V3 F} {kf sf : Nat → F} : ∀ {ws : List Nat}
    (_ : ∀ x ∈ ws, toVec (xyz a) (xyz x) = comb (kf x) u (sf x) e) (m : V3 F),
      (ws.map xyz).foldl (fun m x => (m.1 + x.1, m.2.1 + x.2.1, m.2.2 + x.2.2)) m =
        (m.1 + ((ws.length : F) * (xyz a).1 + ((ws.map kf).sum * u.1 + (ws.map sf).sum * e.1)),
         m.2.1 + ((ws.length : F) * (xyz a).2.1 + ((ws.map kf).sum * u.2.1 + (ws.map sf).sum * e.2.1)),
         m.2.2 + ((ws.length : F) * (xyz a).2.2 + ((ws.map kf).sum * u.2.2 + (ws.map sf).sum * e.2.2))) := by
  intro ws
  induction ws with
  | nil => intro _ m; simp
  | cons x ws ih =>
    intro h m
    rw [List.map_cons, List.foldl_cons, ih (fun y hy => h y (List.mem_cons_of_mem _ hy))]
    have hx := h x List.mem_cons_self
    unfold toVec comb at hx
    simp only [Prod.mk.injEq] at hx
    obtain ⟨e1, e2, e3⟩ := hx
    simp only [List.map_cons, List.sum_cons, List.length_cons, Nat.cast_add, Nat.cast_one, Prod.mk.injEq]
    refine ⟨?_, ?_, ?_⟩
    · linear_combination e1
    · linear_combination e2
    · linear_combination e3

theorem sum_nonneg' {kf : Nat → F} : ∀ {ws : List Nat}, (∀ x ∈ ws, 0 ≤ kf x) → 0 ≤ (ws.map kf).sum := by
  intro ws
  induction ws with
  | nil => intro _; simp
  | cons x ws ih =>
    intro h
    rw [List.map_cons, List.sum_cons]
    exact add_nonneg (h x List.mem_cons_self) (ih fun y hy => h y (List.mem_cons_of_mem _ hy))

theorem le_sum' {kf : Nat → F} {x : Nat} : ∀ {ws : List Nat}, (∀ x ∈ ws, 0 ≤ kf x) → x ∈ ws →
    kf x ≤ (ws.map kf).sum := by
  intro ws
  induction ws with
  | nil => intro _ hx; exact absurd hx List.not_mem_nil
  | cons y ws ih =>
    intro h hx
    have h' : ∀ x ∈ ws, 0 ≤ kf x := fun z hz => h z (List.mem_cons_of_mem _ hz)
    rw [List.map_cons, List.sum_cons]
    rcases List.mem_cons.1 hx with rfl | hx
    · have := sum_nonneg' h'
      linarith
    · have := ih h' hx
      have := h y List.mem_cons_self
      linarith

theorem pos_of_square {k u e t : F} (hk : 0 ≤ k) (ht : 0 ≤ t) (h : t < k * k * u * e) : 0 < k := by
  rcases lt_or_eq_of_le hk with h' | h'
  · exact h'
  · rw [← h'] at h
    simp only [zero_mul] at h
    exact absurd h (not_lt.2 ht)

theorem thirdVec_ok {xyz : Nat → V3 F} {vs ws : List Nat} {a b : Nat} {u : V3 F}
    (h : OnSide xyz vs a b u) (hp : ws.Perm vs) (hn : vs.Nodup) (h3 : 3 ≤ vs.length) (h30 : vs.length ≤ 30)
    (ha : ws[0]? = some a) (hb : ws[1]? = some b) (rest : List (V3 F)) (tri : Bool) :
    ∃ K S, 0 < K ∧ thirdVec tri (ws.map xyz ++ rest) ws.length =
        .ok (comb K u S (toVec (xyz a) (xyz b))) ∧
      1 / 10 ^ 28 * (1 / 10 ^ 28) <
        K * K * inner u u * inner (toVec (xyz a) (xyz b)) (toVec (xyz a) (xyz b)) := by
  have hside : ∀ x, ∃ k s, x ∈ vs → (0 ≤ k ∧ toVec (xyz a) (xyz x) = comb k u s (toVec (xyz a) (xyz b)) ∧
    (x ≠ a → x ≠ b → 30 / 10 ^ 28 * (30 / 10 ^ 28) <
      (k * k * inner u u) * inner (toVec (xyz a) (xyz b)) (toVec (xyz a) (xyz b)))) := by
    intro x
    by_cases hx : x ∈ vs
    · obtain ⟨k, s, hks⟩ := h.side x hx
      exact ⟨k, s, fun _ => hks⟩
    · exact ⟨0, 0, fun hx' => absurd hx' hx⟩
  choose kf sf hks using hside
  have hlen := hp.length_eq
  have hnw : ws.Nodup := hp.nodup_iff.2 hn
  have h2lt : 2 < ws.length := by omega
  have hx2 : ws[2]? = some ws[2] := List.getElem?_eq_getElem h2lt
  generalize ws[2] = x at hx2
  have hxv : x ∈ vs := hp.mem_iff.1 (List.mem_of_getElem? hx2)
  have hne : ∀ (i y : Nat), i ≠ 2 → ws[i]? = some y → x ≠ y := by
    intro i y hi hy hxy
    subst hxy
    obtain ⟨l1, g1⟩ := List.getElem?_eq_some_iff.1 hy
    obtain ⟨l2, g2⟩ := List.getElem?_eq_some_iff.1 hx2
    exact hi ((List.Nodup.getElem_inj_iff hnw).1 (g1.trans g2.symm))
  obtain ⟨hk0, hkv, hkb⟩ := hks x hxv
  have hbig := hkb (hne 0 a (by decide) ha) (hne 1 b (by decide) hb)
  generalize hE : inner (toVec (xyz a) (xyz b)) (toVec (xyz a) (xyz b)) = E at hbig hks hkb ⊢
  have hE0 : 0 ≤ E := hE ▸ inner_self_nonneg _
  have hu0 := inner_self_nonneg u
  have ht : (0 : F) < 30 / 10 ^ 28 * (30 / 10 ^ 28) := by positivity
  have hget : ∀ (i y : Nat), ws[i]? = some y → (ws.map xyz ++ rest)[i]? = some (xyz y) := by
    intro i y hy
    have := (List.getElem?_eq_some_iff.1 hy).1
    rw [List.getElem?_append_left (by rw [List.length_map]; exact this), List.getElem?_map, hy]
    rfl
  unfold thirdVec
  rw [hget 0 a ha, Res.ofOption_some, Res.bind_ok]
  cases tri
  · rw [if_neg Bool.false_ne_true]
    have htake : (ws.map xyz ++ rest).take ws.length = ws.map xyz := by
      rw [List.take_append_of_le_length (by rw [List.length_map]), List.take_of_length_le (by rw [List.length_map])]
    rw [htake]
    have hn0 : (0 : F) < (ws.length : F) := by
      have : 0 < ws.length := by omega
      exact_mod_cast this
    have hn30 : (ws.length : F) ≤ 30 := by
      have : ws.length ≤ 30 := by omega
      exact_mod_cast this
    have hmem : ∀ y ∈ ws, y ∈ vs := fun y hy => hp.mem_iff.1 hy
    have hsum := le_sum' (kf := kf) (fun y hy => (hks y (hmem y hy)).1) (hp.mem_iff.2 hxv)
    have hK : kf x / 30 ≤ (ws.map kf).sum / (ws.length : F) := by
      rw [div_le_div_iff₀ (by norm_num) hn0]
      have h0 : 0 ≤ (ws.map kf).sum := le_trans hk0 hsum
      calc kf x * (ws.length : F) ≤ (ws.map kf).sum * (ws.length : F) := mul_le_mul_of_nonneg_right hsum hn0.le
        _ ≤ (ws.map kf).sum * 30 := mul_le_mul_of_nonneg_left hn30 h0
    have hkx := pos_of_square hk0 ht.le hbig
    have hKK : kf x / 30 * (kf x / 30) ≤
        (ws.map kf).sum / (ws.length : F) * ((ws.map kf).sum / (ws.length : F)) :=
      mul_self_le_mul_self (by positivity) hK
    refine ⟨(ws.map kf).sum / (ws.length : F), (ws.map sf).sum / (ws.length : F),
      lt_of_lt_of_le (by positivity) hK, ?_, ?_⟩
    · have hfold := fold_points (fun y hy => (hks y (hmem y hy)).2.1) (0, 0, 0)
      unfold center
      rw [hfold, List.length_map]
      refine congrArg Res.ok ?_
      unfold vdiff comb
      simp only [Prod.mk.injEq]
      refine ⟨?_, ?_, ?_⟩ <;> · field_simp; ring
    · have h1 := mul_le_mul_of_nonneg_right (mul_le_mul_of_nonneg_right hKK hu0) hE0
      have h2 : kf x / 30 * (kf x / 30) * inner u u * E = (kf x * kf x * inner u u) * E / 900 := by ring
      have h3 : (1 : F) / 10 ^ 28 * (1 / 10 ^ 28) = 30 / 10 ^ 28 * (30 / 10 ^ 28) / 900 := by norm_num
      rw [h3]
      refine lt_of_lt_of_le ?_ h1
      rw [h2]
      linarith
  · rw [if_pos rfl, hget 2 x hx2, Res.ofOption_some, Res.bind_ok]
    refine ⟨kf x, sf x, pos_of_square hk0 ht.le hbig, ?_, ?_⟩
    · exact congrArg Res.ok hkv
    · refine lt_trans ?_ hbig
      norm_num

theorem cross_inner (e u w : V3 F) (k s k' s' : F) :
    inner (vcross e (comb k u s e)) (vcross e (comb k' w s' e)) =
      k * k' * (inner e e * inner u w - inner u e * inner w e) := by
  unfold inner vcross comb; dsimp only; ring

theorem dihNormal_ok {sqrt : F → F} {xyz : Nat → V3 F} {vs ws : List Nat} {a b : Nat} {u : V3 F}
    (h : OnSide xyz vs a b u) (hp : ws.Perm vs) (hn : vs.Nodup) (h3 : 3 ≤ vs.length) (h30 : vs.length ≤ 30)
    (ha : ws[0]? = some a) (hb : ws[1]? = some b) (rest : List (V3 F)) (tri : Bool) :
    ∃ K S, 0 < K ∧ dihNormal sqrt tri (ws.map xyz ++ rest) ws.length =
        .ok (vnormalize sqrt (vcross (toVec (xyz a) (xyz b)) (comb K u S (toVec (xyz a) (xyz b))))) ∧
      Long (vcross (toVec (xyz a) (xyz b)) (comb K u S (toVec (xyz a) (xyz b)))) := by
  obtain ⟨K, S, hK, h1, h2⟩ := thirdVec_ok h hp hn h3 h30 ha hb rest tri
  have hget : ∀ (i y : Nat), ws[i]? = some y → (ws.map xyz ++ rest)[i]? = some (xyz y) := by
    intro i y hy
    have := (List.getElem?_eq_some_iff.1 hy).1
    rw [List.getElem?_append_left (by rw [List.length_map]; exact this), List.getElem?_map, hy]
    rfl
  refine ⟨K, S, hK, ?_, ?_⟩
  · unfold dihNormal
    rw [hget 0 a ha, Res.ofOption_some, Res.bind_ok, hget 1 b hb, Res.ofOption_some, Res.bind_ok, h1]
    rfl
  · unfold Long
    rw [cross_inner, h.perp]
    refine lt_of_lt_of_eq h2 ?_
    ring

theorem normalize_neg (sqrt : F → F) (a : V3 F) : vneg (vnormalize sqrt a) = vnormalize sqrt (vneg a) := by
  unfold vnormalize vneg
  simp only [neg_mul_neg]
  split
  · rfl
  · simp only [neg_div]

theorem isCos_of_normals {sqrt : F → F} (hs : SqrtOK sqrt) {c K1 K2 S1 S2 : F} {e u w : V3 F}
    (hu : inner u e = 0) (hw : inner w e = 0) (h1 : 0 < K1) (h2 : 0 < K2)
    (h : IsCos c (vcross e (comb K1 u S1 e)) (vneg (vcross (vneg e) (comb K2 w S2 (vneg e))))) :
    IsCos c u w := by
  have hflip : vneg (vcross (vneg e) (comb K2 w S2 (vneg e))) = vcross e (comb K2 w (-S2) e) := by
    unfold vneg vcross comb
    simp only [Prod.mk.injEq]
    refine ⟨?_, ?_, ?_⟩ <;> ring
  rw [hflip] at h
  obtain ⟨a, b, ha, hb, h3, h4, h5⟩ := h
  rw [cross_inner, hu] at h3
  rw [cross_inner, hw] at h4
  rw [cross_inner, hu, hw] at h5
  have hE : 0 < inner e e := by
    rcases lt_or_eq_of_le (inner_self_nonneg e) with h' | h'
    · exact h'
    · rw [← h'] at h3
      simp only [zero_mul, sub_zero, mul_zero] at h3
      exact absurd h3 (mul_pos ha ha).ne'
  have hl0 := hs.nonneg _ hE.le
  have hl := hs.square _ hE.le
  generalize sqrt (inner e e) = l at hl hl0
  have hlp : 0 < l := by
    rcases lt_or_eq_of_le hl0 with h' | h'
    · exact h'
    · rw [← h', zero_mul] at hl
      exact absurd hl hE.ne
  refine ⟨a / (K1 * l), b / (K2 * l), by positivity, by positivity, ?_, ?_, ?_⟩
  · field_simp
    rw [← hl] at h3
    linear_combination h3
  · field_simp
    rw [← hl] at h4
    linear_combination h4
  · field_simp
    rw [← hl] at h5
    linear_combination h5

/-- **C96, angle between faces (partial)**: two flat faces of at most 30 vertices with the common
edge `e` from `a` to `b`, each on one side of the line of the edge, say in the directions `u` and `w`
perpendicular to the edge.  `MFs_DihedralAngle` returns the cosine of the angle between `u` and `w`:
1 for faces folded onto each other and -1 for faces that continue each other.

Missing: faces that are not on one side of their edge (`C96_negation_order`), faces with more than 30
vertices (`C96_negation_large`), degenerate faces. -/
theorem C96_faces_partial {sqrt : F → F} (hs : SqrtOK sqrt) {T : Topo} {xyz : Nat → V3 F}
    {f1 f2 e a b : Nat} {vs1 vs2 : List Nat} {u w : V3 F}
    (l1 : T.sf f1 = .live) (l2 : T.sf f2 = .live) (p1 : T.Loop f1 vs1) (p2 : T.Loop f2 vs2)
    (n1 : vs1.Nodup) (n2 : vs2.Nodup) (m1 : 3 ≤ vs1.length ∧ vs1.length ≤ 30)
    (m2 : 3 ≤ vs2.length ∧ vs2.length ≤ 30) (lv1 : ∀ v ∈ vs1, T.sv v = .live)
    (lv2 : ∀ v ∈ vs2, T.sv v = .live) (e1 : HasEdge T f1 e) (e2 : HasEdge T f2 e) (hab : Ends T e a b)
    (s1 : OnSide xyz vs1 a b u) (s2 : OnSide xyz vs2 a b w) :
    ∃ c, mfsDihedral T xyz sqrt f1 f2 (some e) = .ok (c, false) ∧ IsCos c u w := by
  obtain ⟨d1, hd1, ⟨ws1, q1, r1, a1, b1⟩, -⟩ := face_from l1 p1 n1 (by omega) e1 hab
  obtain ⟨d2, hd2, -, ⟨ws2, q2, r2, a2, b2⟩⟩ := face_from l2 p2 n2 (by omega) e2 hab
  have c1 := fillCoords_ok (xyz := xyz) (fun v hv => lv1 v (r1.mem_iff.1 hv)) (by rw [r1.length_eq]; exact m1.2)
  have c2 := fillCoords_ok (xyz := xyz) (fun v hv => lv2 v (r2.mem_iff.1 hv)) (by rw [r2.length_eq]; exact m2.2)
  obtain ⟨K1, S1, k1, N1, L1⟩ := dihNormal_ok (sqrt := sqrt) s1 r1 n1 m1.1 m1.2 a1 b1 [] (ws1.length == 3)
  obtain ⟨K2, S2, k2, N2, L2⟩ := dihNormal_ok (sqrt := sqrt) s2.swap r2 n2 m2.1 m2.2 a2 b2
    ((ws1.map xyz).drop (ws2.map xyz).length) (ws1.length == 3)
  rw [List.append_nil] at N1
  rw [List.length_map] at N2
  refine ⟨vdot (vnormalize sqrt (vcross (toVec (xyz a) (xyz b)) (comb K1 u S1 (toVec (xyz a) (xyz b)))))
      (vneg (vnormalize sqrt (vcross (toVec (xyz b) (xyz a)) (comb K2 w S2 (toVec (xyz b) (xyz a)))))), ?_, ?_⟩
  · show (do let c ← dihedralAt T xyz sqrt f1 f2 e; pure (c, false)) = _
    have : dihedralAt T xyz sqrt f1 f2 e = .ok
        (vdot (vnormalize sqrt (vcross (toVec (xyz a) (xyz b)) (comb K1 u S1 (toVec (xyz a) (xyz b)))))
      (vneg (vnormalize sqrt (vcross (toVec (xyz b) (xyz a)) (comb K2 w S2 (toVec (xyz b) (xyz a))))))) := by
      unfold dihedralAt
      rw [hab.1, Res.bind_ok, hab.2, Res.bind_ok, hd1, Res.bind_ok, q1, Res.bind_ok, c1, Res.bind_ok,
        List.length_map, N1, Res.bind_ok, hd2, Res.bind_ok, q2, Res.bind_ok, c2, Res.bind_ok,
        List.length_map, List.length_map, N2]
      rfl
    rw [this]
    rfl
  · rw [normalize_neg]
    have L2' : Long (vneg (vcross (toVec (xyz b) (xyz a)) (comb K2 w S2 (toVec (xyz b) (xyz a))))) := by
      unfold Long at *
      refine lt_of_lt_of_eq L2 ?_
      generalize vcross (toVec (xyz b) (xyz a)) (comb K2 w S2 (toVec (xyz b) (xyz a))) = z
      unfold inner vneg; dsimp only; ring
    have := isCos_normalize hs L1 L2'
    rw [← toVec_neg (xyz a) (xyz b)] at this ⊢
    exact isCos_of_normals hs s1.perp s2.perp k1 k2 this

/-- **C96, without an edge given**: the first edge of the first face that the second face has as well
is used; without a common edge an error is reported and 0 returned. -/
theorem C96_common_edge (sqrt : F → F) (T : Topo) (xyz : Nat → V3 F) (f1 f2 : Nat) {l1 l2 : List Nat}
    (h1 : T.mfEdges f1 true none = .ok l1) (h2 : T.mfEdges f2 true none = .ok l2) :
    ((∀ e ∈ l1, e ∉ l2) → mfsDihedral T xyz sqrt f1 f2 none = .ok (0, true)) ∧
    (∀ (pre post : List Nat) (e : Nat), l1 = pre ++ e :: post → (∀ x ∈ pre, x ∉ l2) → e ∈ l2 →
      mfsDihedral T xyz sqrt f1 f2 none = mfsDihedral T xyz sqrt f1 f2 (some e)) := by
  constructor
  · intro h
    have hc : commonEdge l1 l2 = none := by
      unfold commonEdge
      rw [List.find?_eq_none]
      intro x hx
      simpa using h x hx
    unfold mfsDihedral
    rw [h1, Res.bind_ok, h2, Res.bind_ok, hc]
    rfl
  · intro pre post e hl hpre he
    have hc : commonEdge l1 l2 = some e := by
      unfold commonEdge
      rw [hl, List.find?_append, List.find?_eq_none.2 (fun x hx => by simpa using hpre x hx)]
      simp [he]
    unfold mfsDihedral
    rw [h1, Res.bind_ok, h2, Res.bind_ok, hc]

/-- **C96, negation**: the first face has more than 30 vertices; the call writes behind the end of an
array. -/
theorem C96_negation_large {sqrt : F → F} {T : Topo} {xyz : Nat → V3 F} {f1 f2 e a b : Nat}
    {vs : List Nat} (l1 : T.sf f1 = .live) (p1 : T.Loop f1 vs) (n1 : vs.Nodup)
    (lv : ∀ v ∈ vs, T.sv v = .live) (e1 : HasEdge T f1 e) (hab : Ends T e a b) (h : 30 < vs.length) :
    mfsDihedral T xyz sqrt f1 f2 (some e) = .ub := by
  obtain ⟨d1, hd1, ⟨ws1, q1, r1, -, -⟩, -⟩ := face_from l1 p1 n1 (by omega) e1 hab
  have c1 : fillCoords T xyz (ws1.map some) = .ub := by
    unfold fillCoords
    rw [coordsOf_ok (fun v hv => lv v (r1.mem_iff.1 hv)), Res.bind_ok,
      if_neg (by rw [List.length_map, r1.length_eq]; omega)]
  have : dihedralAt T xyz sqrt f1 f2 e = .ub := by
    unfold dihedralAt
    rw [hab.1, Res.bind_ok, hab.2, Res.bind_ok, hd1, Res.bind_ok, q1, Res.bind_ok, c1]
    rfl
  show (do let c ← dihedralAt T xyz sqrt f1 f2 e; pure (c, false)) = _
  rw [this]
  rfl

theorem sqrt_self {sqrt : F → F} (hs : SqrtOK sqrt) {x : F} (hx : 0 ≤ x) : sqrt (x * x) = x :=
  eq_of_sq (hs.nonneg _ (mul_nonneg hx hx)) hx (hs.square _ (mul_nonneg hx hx))

/-- Two triangles with a common edge and a quadrilateral: vertices 0 and 1 carry edge 0; face 0 is a
triangle, face 1 a quadrilateral. -/
def kite : List Op :=
  [.newVertex, .newVertex, .newVertex, .newVertex, .newVertex, .newEdge, .setVertex 0 false 0,
   .setVertex 0 true 1, .newFace, .setVertices 0 [1,0,2], .newFace, .setVertices 1 [1,0,3,4]]

/-- the mesh that the calls make -/
def made (os : List Op) : Topo := match empty.run os with
  | .ok T => T
  | _ => empty

/-- The triangle is (1,0) (0,0) (1,-1), the quadrilateral is (1,0) (0,0) (-1,-1) (-1,5): it is not
convex at (0,0). -/
def kiteXyz : Nat → V3 F
  | 0 => (0, 0, 0)
  | 1 => (1, 0, 0)
  | 2 => (1, -1, 0)
  | 3 => (-1, -1, 0)
  | _ => (-1, 5, 0)

/-- **C96, negation**: a triangle and a quadrilateral in a plane, on different sides of their common
edge; the angle is 180 degrees.  Called with the quadrilateral first, the function returns the
cosine -1; called with the triangle first, it returns 1, because it takes the second face for a
triangle as well. -/
theorem C96_negation_order {sqrt : F → F} (hs : SqrtOK sqrt) :
    (∃ T, empty.run kite = .ok T) ∧
    mfsDihedral (made kite) kiteXyz sqrt 1 0 (some 0) = .ok (-1, false) ∧
    mfsDihedral (made kite) kiteXyz sqrt 0 1 (some 0) = .ok (1, false) := by
  have h0 : (made kite).meVertex 0 false = .ok (some 0) := by decide +kernel
  have h1 : (made kite).meVertex 0 true = .ok (some 1) := by decide +kernel
  have d0 : (made kite).mfEdgeDir 0 0 = .ok false := by decide +kernel
  have d1 : (made kite).mfEdgeDir 1 0 = .ok false := by decide +kernel
  have v00 : (made kite).mfVertices 0 false (some 0) = .ok ([0, 1, 2].map some) := by decide +kernel
  have v01 : (made kite).mfVertices 0 true (some 1) = .ok ([1, 0, 2].map some) := by decide +kernel
  have v10 : (made kite).mfVertices 1 false (some 0) = .ok ([0, 1, 4, 3].map some) := by decide +kernel
  have v11 : (made kite).mfVertices 1 true (some 1) = .ok ([1, 0, 3, 4].map some) := by decide +kernel
  have live : ∀ v ∈ [0, 1, 2, 3, 4], (made kite).sv v = .live := by decide +kernel
  have c00 := fillCoords_ok (F := F) (xyz := kiteXyz) (vs := [0, 1, 2]) (T := made kite)
    (fun v hv => live v (by revert hv; simp; omega)) (by decide)
  have c01 := fillCoords_ok (F := F) (xyz := kiteXyz) (vs := [1, 0, 2]) (T := made kite)
    (fun v hv => live v (by revert hv; simp; omega)) (by decide)
  have c10 := fillCoords_ok (F := F) (xyz := kiteXyz) (vs := [0, 1, 4, 3]) (T := made kite)
    (fun v hv => live v (by revert hv; simp; omega)) (by decide)
  have c11 := fillCoords_ok (F := F) (xyz := kiteXyz) (vs := [1, 0, 3, 4]) (T := made kite)
    (fun v hv => live v (by revert hv; simp; omega)) (by decide)
  have s1 : sqrt 1 = 1 := by
    have := sqrt_self hs (zero_le_one' F)
    rwa [one_mul] at this
  have s3 : sqrt (1 / 9) = 1 / 3 := by
    have := sqrt_self hs (x := 1 / 3) (by norm_num)
    rwa [show (1 / 3 : F) * (1 / 3) = 1 / 9 by norm_num] at this
  refine ⟨?_, ?_, ?_⟩
  · have : (match empty.run kite with | .ok _ => true | _ => false) = true := by decide +kernel
    revert this
    cases empty.run kite with
    | ok T => intro _; exact ⟨T, rfl⟩
    | ub => intro h; cases h
    | fatal => intro h; cases h
    | hang => intro h; cases h
  · show (do let c ← dihedralAt (made kite) kiteXyz sqrt 1 0 0; pure (c, false)) = _
    have : dihedralAt (made kite) (kiteXyz (F := F)) sqrt 1 0 0 = .ok (-1) := by
      unfold dihedralAt
      rw [h0, Res.bind_ok, h1, Res.bind_ok, d1, Res.bind_ok, v10, Res.bind_ok, c10, Res.bind_ok, d0]
      simp only [Res.bind_ok, Bool.not_false, v01, c01]
      simp [dihNormal, thirdVec, center, vcross, vdiff, vnormalize, vdot, vneg, kiteXyz, Res.ofOption]
      norm_num [s1, s3]
    rw [this]; rfl
  · show (do let c ← dihedralAt (made kite) kiteXyz sqrt 0 1 0; pure (c, false)) = _
    have : dihedralAt (made kite) (kiteXyz (F := F)) sqrt 0 1 0 = .ok 1 := by
      unfold dihedralAt
      rw [h0, Res.bind_ok, h1, Res.bind_ok, d0, Res.bind_ok, v00, Res.bind_ok, c00, Res.bind_ok, d1]
      simp only [Res.bind_ok, Bool.not_false, v11, c11]
      simp [dihNormal, thirdVec, vcross, vdiff, vnormalize, vdot, vneg, kiteXyz, Res.ofOption]
      norm_num [s1]
    rw [this]; rfl

/-- two edges with the same ends -/
def twice : List Op :=
  [.newVertex, .newVertex, .newEdge, .setVertex 0 false 0, .setVertex 0 true 1, .newEdge,
   .setVertex 1 false 0, .setVertex 1 true 1]

/-- the second vertex is at the distance 1.0e-29 of the first one -/
def shortXyz : Nat → V3 F
  | 0 => (0, 0, 0)
  | _ => (1 / 10 ^ 29, 0, 0)

/-- **C96, negation**: two edges of length 1.0e-29 with the same ends; the cosine of the angle is 1, the
function returns 1.0e-58, and reports no error. -/
theorem C96_negation_short {sqrt : F → F} (hs : SqrtOK sqrt) :
    Ends (made twice) 0 0 1 ∧ Ends (made twice) 1 0 1 ∧
    mesAngle (made twice) shortXyz sqrt 0 1 = .ok (1 / 10 ^ 58, false) ∧
    IsCos 1 (toVec (shortXyz (F := F) 0) (shortXyz 1)) (toVec (shortXyz 0) (shortXyz 1)) := by
  have e0 : Ends (made twice) 0 0 1 := ⟨by decide +kernel, by decide +kernel⟩
  have e1 : Ends (made twice) 1 0 1 := ⟨by decide +kernel, by decide +kernel⟩
  have l0 : (made twice).sv 0 = .live := by decide +kernel
  have l1 : (made twice).sv 1 = .live := by decide +kernel
  have hv : toVec (shortXyz (F := F) 0) (shortXyz 1) = (1 / 10 ^ 29, 0, 0) := by
    unfold toVec shortXyz; simp
  have hp : (0 : F) ≤ 1 / 10 ^ 29 := by positivity
  have hsq := sqrt_self hs hp
  have hn : vnormalize sqrt ((1 / 10 ^ 29, 0, 0) : V3 F) = (1 / 10 ^ 29, 0, 0) := by
    unfold vnormalize
    dsimp only
    rw [mul_zero, add_zero, add_zero, hsq, if_pos (by norm_num)]
  refine ⟨e0, e1, ?_, ?_⟩
  · rw [mesAngle_at e0 e1 (i := false) (j := false) rfl l0 l1 l0 l1]
    simp only [Bool.false_eq_true, if_false]
    rw [hv, hn]
    unfold vdot
    norm_num
  · rw [hv]
    refine ⟨1 / 10 ^ 29, 1 / 10 ^ 29, by positivity, by positivity, ?_, ?_, ?_⟩ <;> · unfold inner; norm_num

/-! ### The theorems speak about something -/

/-- the square root of the real numbers -/
theorem real_sqrt : SqrtOK Real.sqrt :=
  ⟨fun _ _ => Real.sqrt_nonneg _, fun _ h => Real.mul_self_sqrt h⟩

/-- two edges of a face of the mesh `kite` -/
noncomputable example : ∃ c, mesAngle (made kite) (kiteXyz (F := ℝ)) Real.sqrt 0 1 = .ok (c, false) ∧
    IsCos c (toVec (kiteXyz 0) (kiteXyz 1)) (toVec (kiteXyz 0) (kiteXyz 2)) := by
  refine C96_edges_partial real_sqrt (Or.inl ⟨by decide +kernel, by decide +kernel⟩)
    (Or.inl ⟨by decide +kernel, by decide +kernel⟩) (by decide +kernel) (by decide +kernel) (by decide +kernel) ?_ ?_
  · unfold Long inner toVec kiteXyz; norm_num
  · unfold Long inner toVec kiteXyz; norm_num

/-- the roof: a triangle in the plane of x and y, and a square in the plane of x and z -/
def roof : List Op :=
  [.newVertex, .newVertex, .newVertex, .newVertex, .newVertex, .newEdge, .setVertex 0 false 0,
   .setVertex 0 true 1, .newFace, .setVertices 0 [1,0,2], .newFace, .setVertices 1 [0,1,3,4]]

def roofXyz : Nat → V3 F
  | 0 => (0, 0, 0)
  | 1 => (1, 0, 0)
  | 2 => (0, 1, 0)
  | 3 => (1, 0, 1)
  | _ => (0, 0, 1)

example : (made roof).Loop 0 [1, 0, 2] ∧ (made roof).Loop 1 [0, 1, 3, 4] := by
  constructor
  · refine ⟨[0, 1, 2], by decide +kernel, rfl, ?_⟩
    intro k e hk
    have : k < 3 := (List.getElem?_eq_some_iff.1 hk).1
    have : k = 0 ∨ k = 1 ∨ k = 2 := by omega
    rcases this with rfl | rfl | rfl <;> cases hk
    · exact ⟨false, by decide +kernel⟩
    · exact ⟨true, by decide +kernel⟩
    · exact ⟨true, by decide +kernel⟩
  · refine ⟨[0, 3, 4, 5], by decide +kernel, rfl, ?_⟩
    intro k e hk
    have : k < 4 := (List.getElem?_eq_some_iff.1 hk).1
    have : k = 0 ∨ k = 1 ∨ k = 2 ∨ k = 3 := by omega
    rcases this with rfl | rfl | rfl | rfl <;> cases hk <;> exact ⟨true, by decide +kernel⟩

example : OnSide (roofXyz (F := ℝ)) [1, 0, 2] 0 1 (0, 1, 0) ∧ OnSide (roofXyz (F := ℝ)) [0, 1, 3, 4] 0 1 (0, 0, 1) := by
  constructor
  · refine ⟨by unfold inner toVec roofXyz; norm_num, ?_⟩
    intro x hx
    simp only [List.mem_cons, List.not_mem_nil, or_false] at hx
    rcases hx with rfl | rfl | rfl
    · exact ⟨0, 1, le_refl _, by simp [toVec, comb, roofXyz], fun _ h => absurd rfl h⟩
    · exact ⟨0, 0, le_refl _, by simp [toVec, comb, roofXyz], fun h => absurd rfl h⟩
    · exact ⟨1, 0, zero_le_one, by simp [toVec, comb, roofXyz], fun _ _ => by
        simp [inner, toVec, roofXyz]; norm_num⟩
  · refine ⟨by unfold inner toVec roofXyz; norm_num, ?_⟩
    intro x hx
    simp only [List.mem_cons, List.not_mem_nil, or_false] at hx
    rcases hx with rfl | rfl | rfl | rfl
    · exact ⟨0, 0, le_refl _, by simp [toVec, comb, roofXyz], fun h => absurd rfl h⟩
    · exact ⟨0, 1, le_refl _, by simp [toVec, comb, roofXyz], fun _ h => absurd rfl h⟩
    · exact ⟨1, 1, zero_le_one, by simp [toVec, comb, roofXyz], fun _ _ => by
        simp [inner, toVec, roofXyz]; norm_num⟩
    · exact ⟨1, 0, zero_le_one, by simp [toVec, comb, roofXyz], fun _ _ => by
        simp [inner, toVec, roofXyz]; norm_num⟩

example : Ends (made roof) 0 0 1 ∧ (made roof).mfEdges 0 true none = .ok [0, 1, 2] ∧
    (made roof).mfEdges 1 true none = .ok [0, 3, 4, 5] :=
  ⟨⟨by decide +kernel, by decide +kernel⟩, by decide +kernel, by decide +kernel⟩

end Geo
end MSTK
