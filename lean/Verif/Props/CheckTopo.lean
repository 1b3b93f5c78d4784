import Verif.CheckModel
import Verif.TopoWalk
import Verif.RegionQueryLemmas
import Verif.Props.ElementGraph

/-!
C63: `MESH_CheckTopo` accepts well formed meshes, and what it accepts has the properties it looks at.

Specification: `WellFormed` says what a valid mesh is: classification goes up with dimension, a face
inside a model region has a region at each side, the faces of a region close around it and are
oriented alike, and where the mesh lies on a model face the faces form a ring around every vertex and
the regions a fan from one face to the other around every edge.  `Checked` says what a mesh that was
accepted is known to satisfy.
-/
namespace MSTK
namespace Topo

/-! ### the specification -/

/-- The mesh is complete: adjacencies agree (C21), the lists hold the live entities, edges have both
vertices, faces their edges (each once, 64 at most) and regions their faces. -/
structure CkMesh.Sound (M : CkMesh) : Prop where
  cons : M.T.Consistent
  vl : Lists M.vl M.T.sv
  el : Lists M.el M.T.se
  fl : Lists M.fl M.T.sf
  rl : Lists M.rl M.T.sr
  ends : ∀ e ∈ M.el, ∃ a b, M.T.ev e = (some a, some b)
  edges : ∀ f ∈ M.fl, ∃ l, M.T.fe f = some l ∧ l.Nodup ∧ l.length ≤ 64
  faces : ∀ r ∈ M.rl, ∃ l, M.T.rf r = some l

/-- An entity classified as `c` may be bounded by one classified as `b` (dimension 4: unknown). -/
def Fits (c b : Int × Int) : Prop := b.1 ≠ 4 → b.1 < c.1 ∨ c = b

/-- The direction in which the boundary of a region, seen from outside, passes an edge: `d` the
direction in which the region uses the face, `b` the one in which the face uses the edge. -/
def way (d b : Bool) : Bool := d == b

/-- The faces of a region are closed and oriented alike: every edge of a face is in exactly one other
face, and the two pass it in opposite directions. -/
def Shell (T : Topo) (r : Nat) : Prop :=
  ∀ f d e b, (f, d) ∈ T.view.faces r → (e, b) ∈ T.view.edges f →
    ∃ g d' b', (g, d') ∈ T.view.faces r ∧ g ≠ f ∧ (e, b') ∈ T.view.edges g ∧ way d b ≠ way d' b' ∧
      ∀ h d'' b'', (h, d'') ∈ T.view.faces r → (e, b'') ∈ T.view.edges h → h = f ∨ h = g

/-- Going round face `f` one leaves `v` by edge `a` and comes back by edge `b`. -/
def Corner (T : Topo) (f v a b : Nat) : Prop :=
  ∃ es, T.mfEdges f true (some v) = .ok es ∧ es.head? = some a ∧ es.getLast? = some b

/-- The faces on model face `gid` at vertex `v` form a ring of `n` faces `F 0`, `F 1`, ..., with edge
`E k` between `F k` and `F (k+1)`. -/
structure Ring (M : CkMesh) (v : Nat) (gid : Int) (n : Nat) (F E : Int → Nat) : Prop where
  two : 2 ≤ n
  periodF : ∀ k, F (k + n) = F k
  periodE : ∀ k, E (k + n) = E k
  inj : ∀ i j, E i = E j → (n : Int) ∣ i - j
  live : ∀ k, M.T.sf (F k) = .live
  cls : ∀ k, M.fc (F k) = (2, gid)
  corner : ∀ k, M.T.Corner (F k) v (E (k - 1)) (E k) ∨ M.T.Corner (F k) v (E k) (E (k - 1))
  ne : ∀ k, F k ≠ F (k + 1)
  /-- no third face of the model face at an edge -/
  around : ∀ k f, M.T.FaceHas f (E k) → M.fc f = (2, gid) → f = F k ∨ f = F (k + 1)
  at0 : ∀ k, M.T.FaceHas (F k) (E k)
  at1 : ∀ k, M.T.FaceHas (F (k + 1)) (E k)
  /-- the faces are oriented alike or bound regions -/
  orient : (∀ k, M.T.Corner (F k) v (E (k - 1)) (E k)) ∨ ∀ k, ∃ r, M.T.RegionHas r (F k)

/-- A vertex on a model face: all faces with dimension 2 at the vertex are in one ring. -/
def RingAt (M : CkMesh) (v : Nat) : Prop :=
  (∃ e f, M.T.EdgeHas e v ∧ M.T.FaceHas f e ∧ (M.fc f).1 = 2) ∧
  ∃ n F E, Ring M v (M.vc v).2 n F E ∧
    ∀ e f, M.T.EdgeHas e v → M.T.FaceHas f e → (M.fc f).1 = 2 → ∃ k, f = F k

/-- The faces and regions around edge `e` from face `a` through region `r` to face `b`:
`F 0 = a`, `R 0 = r`, `F 1`, `R 1`, ..., `F m = b`. -/
structure Fan (T : Topo) (e a b r m : Nat) (F R : Nat → Nat) : Prop where
  pos : 0 < m
  few : m ≤ 1000
  first : F 0 = a
  firstR : R 0 = r
  last : F m = b
  before : ∀ k, k < m → F k ≠ b
  ne : ∀ k, k < m → F k ≠ F (k + 1)
  neR : ∀ k, k + 1 < m → R k ≠ R (k + 1)
  region : ∀ k, k < m → ∀ f, (T.RegionHas (R k) f ∧ T.FaceHas f e) ↔ (f = F k ∨ f = F (k + 1))
  face : ∀ k, k + 1 < m → ∀ s, T.RegionHas s (F (k + 1)) ↔ (s = R k ∨ s = R (k + 1))

/-- An edge on a model face has two faces there. -/
def TwoFaces (M : CkMesh) (e a b : Nat) : Prop :=
  a ≠ b ∧ M.T.FaceHas a e ∧ M.T.FaceHas b e ∧ M.fc a = (2, (M.ec e).2) ∧ M.fc b = (2, (M.ec e).2) ∧
  ∀ f, M.T.FaceHas f e → (M.fc f).1 = 2 → f = a ∨ f = b

/-- An edge on a model face: two faces, and if there are regions at the edge, they lead from each of
them to the other. -/
def FansAt (M : CkMesh) (e : Nat) : Prop :=
  ∃ a b, TwoFaces M e a b ∧ ((∃ f r, M.T.FaceHas f e ∧ M.T.RegionHas r f) →
    ∀ x y, (x = a ∧ y = b) ∨ (x = b ∧ y = a) → (∃ r, M.T.RegionHas r x) ∧
      ∀ r, M.T.RegionHas r x → ∃ m F R, Fan M.T e x y r m F R)

/-- A valid mesh (entities that are not ghosts). -/
structure WellFormed (M : CkMesh) : Prop where
  sound : M.Sound
  edge : ∀ e ∈ M.el, M.ge e = false → ∀ v, M.T.EdgeHas e v → Fits (M.ec e) (M.vc v)
  face : ∀ f ∈ M.fl, M.gf f = false → ∀ e, M.T.FaceHas f e → Fits (M.fc f) (M.ec e)
  inside : ∀ f ∈ M.fl, M.gf f = false → (M.fc f).1 = 3 → ∃ r s, r ≠ s ∧ M.T.RegionHas r f ∧ M.T.RegionHas s f
  shell : ∀ r ∈ M.rl, M.gr r = false → M.T.Shell r
  onFace : ∀ v ∈ M.vl, M.gv v = false → (M.vc v).1 = 2 → (∃ e, M.T.EdgeHas e v) → RingAt M v
  edgeOnFace : ∀ e ∈ M.el, M.ge e = false → (M.ec e).1 = 2 → FansAt M e

/-- What acceptance says (entities that are not ghosts). -/
structure Checked (M : CkMesh) : Prop where
  /-- the first vertex of an edge -/
  edge0 : ∀ e ∈ M.el, M.ge e = false → ∀ v, M.T.meVertex e false = .ok (some v) → Fits (M.ec e) (M.vc v)
  /-- the second one, unless the edge is on a model face and has regions -/
  edge1 : ∀ e ∈ M.el, M.ge e = false → ((M.ec e).1 = 2 → ∀ f r, M.T.FaceHas f e → ¬ M.T.RegionHas r f) →
    ∀ v, M.T.meVertex e true = .ok (some v) → Fits (M.ec e) (M.vc v)
  /-- edges on model faces have two faces there -/
  edgeOnFace : ∀ e ∈ M.el, M.ge e = false → (M.ec e).1 = 2 → ∃ a b, TwoFaces M e a b
  face : ∀ f ∈ M.fl, M.gf f = false → ∀ e, M.T.FaceHas f e → (M.ec e).1 ≠ 4 → (M.fc f).1 ≠ 4 →
    (M.ec e).1 ≤ (M.fc f).1
  inside : ∀ f ∈ M.fl, M.gf f = false → (M.fc f).1 = 3 → ∃ r s, r ≠ s ∧ M.T.RegionHas r f ∧ M.T.RegionHas s f
  /-- every edge of a face of a region is in another face of the region -/
  closed : ∀ r ∈ M.rl, M.gr r = false → ∀ f d e b, (f, d) ∈ M.T.view.faces r → (e, b) ∈ M.T.view.edges f →
    ∃ g d' b', (g, d') ∈ M.T.view.faces r ∧ g ≠ f ∧ (e, b') ∈ M.T.view.edges g
  /-- and if there is just one other, the two are oriented alike -/
  alike : ∀ r ∈ M.rl, M.gr r = false → ∀ f d e b g d' b', (f, d) ∈ M.T.view.faces r →
    (e, b) ∈ M.T.view.edges f → (g, d') ∈ M.T.view.faces r → g ≠ f → (e, b') ∈ M.T.view.edges g →
    (∀ h d'' b'', (h, d'') ∈ M.T.view.faces r → (e, b'') ∈ M.T.view.edges h → h = f ∨ h = g) →
    way d b ≠ way d' b'
  /-- a vertex on a model face that has edges has a face there -/
  onFace : ∀ v ∈ M.vl, M.gv v = false → (M.vc v).1 = 2 → (∃ e, M.T.EdgeHas e v) →
    ∃ e f, M.T.EdgeHas e v ∧ M.T.FaceHas f e ∧ (M.fc f).1 = 2

/-! ### loops -/

theorem allM_true {g : Nat → Res Bool} : ∀ {l : List Nat}, (∀ x ∈ l, g x = .ok true) → allM g l = .ok true
  | [], _ => rfl
  | x :: xs, h => by
    rw [show allM g (x :: xs) = (do let a ← g x; let b ← allM g xs; pure (a && b)) from rfl,
      h x (by simp), Res.bind_ok, allM_true (fun y hy => h y (by simp [hy])), Res.bind_ok]
    rfl

theorem allM_inv {g : Nat → Res Bool} : ∀ {l : List Nat}, allM g l = .ok true → ∀ x ∈ l, g x = .ok true
  | [], _, x, hx => by cases hx
  | y :: ys, h, x, hx => by
    rw [show allM g (y :: ys) = (do let a ← g y; let b ← allM g ys; pure (a && b)) from rfl] at h
    obtain ⟨a, h1, h2⟩ := Res.bind_eq_ok.1 h
    obtain ⟨b, h3, h4⟩ := Res.bind_eq_ok.1 h2
    injection h4 with h4
    rw [Bool.and_eq_true] at h4
    rw [h4.1] at h1; rw [h4.2] at h3
    rcases List.mem_cons.1 hx with rfl | hx
    · exact h1
    · exact allM_inv h3 x hx

theorem FaceHas_iff {T : Topo} {f e : Nat} : T.FaceHas f e ↔ T.sf f = .live ∧ e ∈ (T.fe f).getD [] := by
  unfold FaceHas
  constructor
  · rintro ⟨h1, es, h2, h3⟩
    refine ⟨h1, ?_⟩
    cases hl : T.fe f with
    | none => exact absurd h2 (mfEdges_none hl _ _ _)
    | some l => rw [mfEdges_plain (alloc_of_live h1) hl] at h2; injection h2 with h2; subst h2; exact h3
  · rintro ⟨h1, h2⟩
    refine ⟨h1, ?_⟩
    cases hl : T.fe f with
    | none => rw [hl] at h2; cases h2
    | some l => rw [hl] at h2; exact ⟨l, mfEdges_plain (alloc_of_live h1) hl, h2⟩

theorem mem_edges {T : Topo} {f e : Nat} : e ∈ (T.fe f).getD [] ↔ ∃ b, (e, b) ∈ T.view.edges f := by
  show _ ↔ ∃ b, (e, b) ∈ pairs _ _
  constructor
  · intro h
    obtain ⟨i, hi⟩ := List.mem_iff_getElem?.1 h
    exact ⟨_, mem_pairs.2 ⟨i, hi, rfl⟩⟩
  · rintro ⟨b, h⟩; exact mem_of_mem_pairs h

/-! ### the ends of an edge -/

theorem edgeClsOk_iff {c b : Int × Int} : edgeClsOk c b = true ↔ Fits c b := by
  unfold edgeClsOk Fits
  rcases c with ⟨c1, c2⟩
  rcases b with ⟨b1, b2⟩
  by_cases h4 : b1 = 4
  · simp [h4]
  · simp only [ne_eq, h4, not_false_eq_true, if_true, Prod.mk.injEq, forall_true_left]
    by_cases h1 : c1 < b1
    · simp only [h1, if_true, Bool.false_eq_true, false_iff]; omega
    · by_cases h2 : c1 = b1 ∧ c2 ≠ b2
      · have h2' : c1 = b1 ∧ ¬ c2 = b2 := h2
        obtain ⟨rfl, h3⟩ := h2'
        simp [h3]
      · have h2' : ¬ (c1 = b1 ∧ ¬ c2 = b2) := h2
        simp only [h1, h2', if_false, true_iff]
        omega

theorem CkMesh.Sound.elive {M : CkMesh} (h : M.Sound) {e : Nat} (he : e ∈ M.el) : M.T.se e = .live :=
  (h.el.2 e).1 he

theorem ckEnd_eq {M : CkMesh} (h : M.Sound) {e v : Nat} {i : Bool} (he : e ∈ M.el)
    (hv : endAt (M.T.ev e) i = some v) : ckEnd M e i = .ok (edgeClsOk (M.ec e) (M.vc v)) := by
  have hel := h.elive he
  have hend : ends M.T.ev e v := by
    unfold ends; unfold endAt at hv
    cases i
    · exact Or.inl (by simpa using hv)
    · exact Or.inr (by simpa using hv)
  have hvl : M.T.sv v = .live := h.cons.ve.down e v hel hend
  have hmem : e ∈ M.T.ve v := (h.cons.ve.mem v (alloc_of_live hvl) e).2 ⟨hel, hend⟩
  have hed : M.T.mvEdges v = .ok (some (M.T.ve v)) := by
    unfold mvEdges
    rw [derefV_ok (alloc_of_live hvl), Res.bind_ok, if_neg]
    · rfl
    · intro hz; rw [List.eq_nil_of_length_eq_zero hz] at hmem; cases hmem
  unfold ckEnd
  rw [meVertex_ok (alloc_of_live hel), Res.bind_ok, hv, Res.ofOption_some, Res.bind_ok, hed, Res.bind_ok,
    Res.ofOption_some, Res.bind_ok, Res.pure_eq]
  simp [hmem]

/-! ### faces -/

theorem meFaces_some {T : Topo} {e f : Nat} (he : T.se e = .live) (hf : f ∈ T.ef e) :
    T.meFaces e = .ok (some (T.ef e)) := by
  unfold meFaces
  rw [derefE_ok (alloc_of_live he), Res.bind_ok, if_neg]
  · rfl
  · intro hz; rw [List.eq_nil_of_length_eq_zero hz] at hf; cases hf

theorem ckFaceEdge_eq {M : CkMesh} (h : M.T.Consistent) {f e : Nat} (hf : M.T.FaceHas f e) :
    ckFaceEdge M f e =
      .ok (decide ((M.ec e).1 ≠ 4 → (M.fc f).1 ≠ 4 → ¬ (M.fc f).1 < (M.ec e).1)) := by
  obtain ⟨h1, h2⟩ := FaceHas_iff.1 hf
  have he : M.T.se e = .live := h.ef.down f e h1 h2
  have hm := (h.mem_ef he).2 hf
  unfold ckFaceEdge
  rw [meFaces_some he hm, Res.bind_ok, Res.ofOption_some, Res.bind_ok, Res.pure_eq, decide_eq_true hm,
    Bool.and_true]

theorem mfRegions_eq {T : Topo} {f : Nat} (hf : T.sf f = .live) :
    T.mfRegions f = .ok (orNull ((T.fr f).1.toList ++ (T.fr f).2.toList)) := by
  unfold mfRegions; rw [derefF_ok (alloc_of_live hf)]; rfl

theorem ckTwoSides_true {M : CkMesh} (h : M.T.Consistent) {f : Nat} (hf : M.T.sf f = .live) :
    ckTwoSides M f ((M.T.fr f).1.toList ++ (M.T.fr f).2.toList) = .ok true := by
  have a0 := fun r => (h.agrees.faceRegions f false r hf).1
  have a1 := fun r => (h.agrees.faceRegions f true r hf).1
  rw [mfRegion_ok (alloc_of_live hf)] at a0 a1
  rcases hfr : M.T.fr f with ⟨a, b⟩
  rw [hfr] at a0 a1
  cases a with
  | none => cases b with
    | none => rfl
    | some b => rfl
  | some a => cases b with
    | none => rfl
    | some b =>
      have e0 := (a0 a rfl).2
      have e1 := (a1 b rfl).2
      show ckTwoSides M f [a, b] = _
      rw [show ckTwoSides M f [a, b] = (do
        let a ← M.T.mrFaceDir a f
        let b ← M.T.mrFaceDir b f
        pure (decide (a ≠ b))) from rfl]
      rw [e0, Res.bind_ok, e1, Res.bind_ok]
      rfl

theorem two_regions {T : Topo} (h : T.Consistent) {f : Nat} (hf : T.sf f = .live) :
    ((T.fr f).1.toList ++ (T.fr f).2.toList).length = 2 ↔ ∃ r s, r ≠ s ∧ T.RegionHas r f ∧ T.RegionHas s f := by
  have hm := fun r => h.mem_fr hf (r := r)
  have hb := fun r => h.notBoth (r := r) (alloc_of_live hf)
  rcases hfr : T.fr f with ⟨a, b⟩
  simp only [hfr] at hm hb
  cases a with
  | none => cases b with
    | none =>
      simp at hm
      simp [hm]
    | some b =>
      simp at hm
      simp only [Option.toList_none, List.nil_append, Option.toList_some, List.length_singleton]
      constructor
      · intro hc; omega
      · rintro ⟨r, s, h1, h2, h3⟩
        exact absurd ((hm r).2 h2 ▸ (hm s).2 h3 ▸ rfl) h1
  | some a => cases b with
    | none =>
      simp at hm
      simp only [Option.toList_none, List.append_nil, Option.toList_some, List.length_singleton]
      constructor
      · intro hc; omega
      · rintro ⟨r, s, h1, h2, h3⟩
        exact absurd ((hm r).2 h2 ▸ (hm s).2 h3 ▸ rfl) h1
    | some b =>
      constructor
      · intro _
        refine ⟨a, b, ?_, (hm a).1 (Or.inl (by simp)), (hm b).1 (Or.inr (by simp))⟩
        rintro rfl
        exact hb a rfl
      · intro _; rfl

theorem ckFace_eq {M : CkMesh} (h : M.Sound) {f : Nat} (hf : f ∈ M.fl) (hg : M.gf f = false) :
    ∃ a, ckFace M f = .ok (a && decide ((M.fc f).1 = 3 →
        ((M.T.fr f).1.toList ++ (M.T.fr f).2.toList).length = 2)) ∧
      (a = true ↔ ∀ e, M.T.FaceHas f e → (M.ec e).1 ≠ 4 → (M.fc f).1 ≠ 4 → (M.ec e).1 ≤ (M.fc f).1) := by
  have hfl := (h.fl.2 f).1 hf
  obtain ⟨l, hl, -, -⟩ := h.edges f hf
  have hh : ∀ e, M.T.FaceHas f e ↔ e ∈ l := by
    intro e; rw [FaceHas_iff, hl]; exact ⟨fun x => x.2, fun x => ⟨hfl, x⟩⟩
  have hall : ∀ (es : List Nat), (∀ e ∈ es, e ∈ l) → allM (ckFaceEdge M f) es = .ok (es.all fun e =>
      decide ((M.ec e).1 ≠ 4 → (M.fc f).1 ≠ 4 → ¬ (M.fc f).1 < (M.ec e).1)) := by
    intro es
    induction es with
    | nil => intro _; rfl
    | cons e es ih =>
      intro hes
      rw [show allM (ckFaceEdge M f) (e :: es) =
        (do let a ← ckFaceEdge M f e; let b ← allM (ckFaceEdge M f) es; pure (a && b)) from rfl,
        ckFaceEdge_eq h.cons ((hh e).2 (hes e (by simp))), Res.bind_ok,
        ih (fun x hx => hes x (by simp [hx])), Res.bind_ok]
      rfl
  refine ⟨l.all fun e => decide ((M.ec e).1 ≠ 4 → (M.fc f).1 ≠ 4 → ¬ (M.fc f).1 < (M.ec e).1), ?_, ?_⟩
  · unfold ckFace
    rw [if_neg (by simp [hg]), mfEdges_plain (alloc_of_live hfl) hl, Res.bind_ok, hall l (fun _ h => h),
      Res.bind_ok, mfRegions_eq hfl, Res.bind_ok]
    simp only [orNull_getD]
    rw [ckTwoSides_true h.cons hfl, Res.bind_ok, Bool.and_true]
    rfl
  · rw [List.all_eq_true]
    constructor
    · intro hc e he h1 h2
      have := of_decide_eq_true (hc e ((hh e).1 he)) h1 h2
      omega
    · intro hc e he
      refine decide_eq_true fun h1 h2 => ?_
      have := hc e ((hh e).2 he) h1 h2
      omega

/-! ### regions -/

theorem mfUsesEdge_ok {T : Topo} {g : Nat} {l : List Nat} (hg : T.sf g = .live) (hl : T.fe g = some l) (e : Nat) :
    T.mfUsesEdge g e = .ok (decide (e ∈ l)) := by
  unfold mfUsesEdge; rw [fedges_ok (alloc_of_live hg) hl]; rfl

theorem usesOther {T : Topo} {g e : Nat} {l : List Nat} (hg : T.sf g = .live) (hl : T.fe g = some l) (p : Prop)
    [Decidable p] : andThen (.ok (decide p)) (T.mfUsesEdge g e) = .ok (decide (p ∧ T.sf g = .live ∧ e ∈ (T.fe g).getD [])) := by
  unfold andThen
  rw [mfUsesEdge_ok hg hl, hl]
  by_cases hp : p <;> simp [hp, hg]

theorem findAdj_spec {M : CkMesh} (h : M.Sound) {f e : Nat} : ∀ (fs : List Nat) (k : Nat),
    (∀ g ∈ fs, M.T.sf g = .live) →
    (findAdj M f e fs k = .ok none ∧ ∀ g ∈ fs, g ≠ f → ¬ M.T.FaceHas g e) ∨
    ∃ i g, findAdj M f e fs k = .ok (some (g, k + i)) ∧ fs[i]? = some g ∧ g ≠ f ∧ M.T.FaceHas g e := by
  intro fs
  induction fs with
  | nil => intro k _; exact Or.inl ⟨rfl, by simp⟩
  | cons g gs ih =>
    intro k hl
    have hg := hl g (by simp)
    obtain ⟨l, h1, -, -⟩ := h.edges g ((h.fl.2 g).2 hg)
    have hunf : findAdj M f e (g :: gs) k = (do
      let b ← andThen (.ok (decide (f ≠ g))) (M.T.mfUsesEdge g e)
      if b then pure (some (g, k)) else findAdj M f e gs (k+1)) := rfl
    rw [hunf, usesOther hg h1, Res.bind_ok]
    by_cases hc : f ≠ g ∧ M.T.sf g = .live ∧ e ∈ (M.T.fe g).getD []
    · right
      refine ⟨0, g, ?_, rfl, hc.1.symm, FaceHas_iff.2 hc.2⟩
      rw [decide_eq_true hc]; rfl
    · rw [decide_eq_false hc]
      rcases ih (k+1) (fun x hx => hl x (by simp [hx])) with ⟨h2, h3⟩ | ⟨i, g', h2, h3, h4, h5⟩
      · left
        refine ⟨h2, fun x hx hne => ?_⟩
        rcases List.mem_cons.1 hx with rfl | hx
        · intro hfh; exact hc ⟨hne.symm, FaceHas_iff.1 hfh⟩
        · exact h3 x hx hne
      · right
        refine ⟨i+1, g', ?_, h3, h4, h5⟩
        rw [show k + (i+1) = k+1+i by omega]; exact h2

theorem dirsOk_iff (b b' d d' : Bool) : dirsOk b b' d d' = true ↔ way d b ≠ way d' b' := by
  cases b <;> cases b' <;> cases d <;> cases d' <;> decide

theorem ckRegionEdges_iff {M : CkMesh} {r i f : Nat} {fs : List Nat} : ∀ (es : List Nat) (j : Nat),
    ckRegionEdges M r fs i f es j = .ok true ↔
      ∀ k e, es[k]? = some e → ckRegionEdge M r fs i f (j + k) e = .ok true := by
  intro es
  induction es with
  | nil => intro j; exact ⟨fun _ k e hk => by simp at hk, fun _ => rfl⟩
  | cons e es ih =>
    intro j
    rw [show ckRegionEdges M r fs i f (e :: es) j = (do
      let a ← ckRegionEdge M r fs i f j e
      let b ← ckRegionEdges M r fs i f es (j+1)
      pure (a && b)) from rfl]
    constructor
    · intro h k x hk
      obtain ⟨a, h1, h2⟩ := Res.bind_eq_ok.1 h
      obtain ⟨b, h3, h4⟩ := Res.bind_eq_ok.1 h2
      injection h4 with h4
      rw [Bool.and_eq_true] at h4
      rw [h4.1] at h1; rw [h4.2] at h3
      cases k with
      | zero => simp at hk; subst hk; exact h1
      | succ k =>
        have := (ih (j+1)).1 h3 k x (by simpa using hk)
        rw [show j + (k+1) = j+1+k by omega]; exact this
    · intro h
      rw [show ckRegionEdge M r fs i f j e = .ok true from h 0 e rfl, Res.bind_ok, (ih (j+1)).2 (fun k x hk => by
        have := h (k+1) x (by simpa using hk)
        rw [show j + (k+1) = j+1+k by omega] at this; exact this), Res.bind_ok]
      rfl

theorem ckRegionFaces_iff {M : CkMesh} {r : Nat} {fs : List Nat} : ∀ (gs : List Nat) (i : Nat),
    (∀ g ∈ gs, ∃ l, M.T.mfEdges g true none = .ok l) →
    (ckRegionFaces M r fs gs i = .ok true ↔
      ∀ k f, gs[k]? = some f → ∀ es, M.T.mfEdges f true none = .ok es → ∀ j e, es[j]? = some e →
        ckRegionEdge M r fs (i + k) f j e = .ok true) := by
  intro gs
  induction gs with
  | nil => intro i _; exact ⟨fun _ k e hk => by simp at hk, fun _ => rfl⟩
  | cons g gs ih =>
    intro i hg
    obtain ⟨l, hl⟩ := hg g (by simp)
    have ih' := ih (i+1) (fun x hx => hg x (by simp [hx]))
    rw [show ckRegionFaces M r fs (g :: gs) i = (do
      let es ← M.T.mfEdges g true none
      let a ← ckRegionEdges M r fs i g es 0
      let b ← ckRegionFaces M r fs gs (i+1)
      pure (a && b)) from rfl, hl, Res.bind_ok]
    constructor
    · intro h k x hk
      obtain ⟨a, h1, h2⟩ := Res.bind_eq_ok.1 h
      obtain ⟨b, h3, h4⟩ := Res.bind_eq_ok.1 h2
      injection h4 with h4
      rw [Bool.and_eq_true] at h4
      rw [h4.1] at h1; rw [h4.2] at h3
      cases k with
      | zero =>
        simp at hk; subst hk
        intro es he j e hj
        rw [hl] at he; injection he with he; subst he
        have := (ckRegionEdges_iff l 0).1 h1 j e hj
        rwa [Nat.zero_add] at this
      | succ k =>
        have := ih'.1 h3 k x (by simpa using hk)
        rw [show i + (k+1) = i+1+k by omega]; exact this
    · intro h
      rw [(ckRegionEdges_iff l 0).2 (fun j e hj => by
        rw [Nat.zero_add]; exact h 0 g rfl l hl j e hj), Res.bind_ok, ih'.2 (fun k x hk => by
        have := h (k+1) x (by simpa using hk)
        rw [show i + (k+1) = i+1+k by omega] at this; exact this), Res.bind_ok]
      rfl

/-- the faces of a region: positions and directions -/
theorem face_at {T : Topo} (h : T.Consistent) {r i f : Nat} {l : List Nat} (hr : T.sr r = .live)
    (hl : T.rf r = some l) (hi : l[i]? = some f) :
    ∃ d, T.mrFaceDir_i r i = .ok d ∧ (f, d) ∈ T.view.faces r ∧ ∀ d', (f, d') ∈ T.view.faces r → d' = d := by
  have hm : f ∈ (T.rf r).getD [] := by rw [hl]; exact List.mem_of_getElem? hi
  obtain ⟨d, hd⟩ := mem_facesOf_iff.1 hm
  have h1 := (mrFaceDir_iff h hr).2 hd
  refine ⟨d, (dirAt_ok h hr hl hi).2 h1, hd, fun d' hd' => ?_⟩
  have h2 := (mrFaceDir_iff h hr).2 hd'
  rw [h1] at h2
  injection h2 with h2
  injection h2 with h2
  exact h2.symm

theorem ckLinks_true {M : CkMesh} (h : M.Sound) {r : Nat} {l : List Nat} (hr : M.T.sr r = .live)
    (hl : M.T.rf r = some l) : ∀ (fs : List Nat) (i : Nat), (∀ k f, fs[k]? = some f → l[i + k]? = some f) →
    ckLinks M r fs i = .ok true := by
  intro fs
  induction fs with
  | nil => intro i _; rfl
  | cons f fs ih =>
    intro i hi
    obtain ⟨d, h1, h2, -⟩ := face_at h.cons hr hl (hi 0 f rfl)
    have hf : M.T.sf f = .live := h.cons.fr.down r f d hr h2
    have h3 := (h.cons.agrees.faceRegions f (!d) r hf).2 ⟨hr, by rw [Bool.not_not]; exact (mrFaceDir_iff h.cons hr).2 h2⟩
    rw [show ckLinks M r (f :: fs) i = (do
      let d ← M.T.mrFaceDir_i r i
      let o ← M.T.mfRegion f (!d)
      let b ← ckLinks M r fs (i+1)
      pure (decide (o = some r) && b)) from rfl, show M.T.mrFaceDir_i r i = .ok d from h1, Res.bind_ok, h3, Res.bind_ok,
      ih (i+1) (fun k x hk => by
        have := hi (k+1) x (by simpa using hk)
        rwa [show i + (k+1) = i+1+k by omega] at this), Res.bind_ok]
    simp

theorem ckRegionEdge_cases {M : CkMesh} (h : M.Sound) {r : Nat} {fs : List Nat} (hr : M.T.sr r = .live)
    (hl : M.T.rf r = some fs) {i j f e : Nat} {d b : Bool} (hi : fs[i]? = some f) (hd : (f, d) ∈ M.T.view.faces r)
    {l : List Nat} (hfe : M.T.fe f = some l) (hj : l[j]? = some e) (hb : (e, b) ∈ M.T.view.edges f) :
    (ckRegionEdge M r fs i f j e ≠ .ok true ∧
      ∀ g d', (g, d') ∈ M.T.view.faces r → g ≠ f → ¬ M.T.FaceHas g e) ∨
    ∃ g d' b', (g, d') ∈ M.T.view.faces r ∧ g ≠ f ∧ (e, b') ∈ M.T.view.edges g ∧
      ckRegionEdge M r fs i f j e = .ok (dirsOk b b' d d') := by
  have hlive : ∀ g d', (g, d') ∈ M.T.view.faces r → M.T.sf g = .live := fun g d' hg => h.cons.fr.down r g d' hr hg
  have hmem : ∀ g, g ∈ fs ↔ ∃ d', (g, d') ∈ M.T.view.faces r := by
    intro g; have := mem_facesOf_iff (T := M.T) (r := r) (f := g); rw [hl] at this; exact this
  have hall : ∀ g ∈ fs, M.T.sf g = .live := fun g hg => by
    obtain ⟨d', hd'⟩ := (hmem g).1 hg; exact hlive g d' hd'
  have hf := hlive f d hd
  obtain ⟨l', q1, q2, q3⟩ := h.edges f ((h.fl.2 f).2 hf)
  rw [hfe] at q1; injection q1 with q1; subst q1
  have hjlt := (List.getElem?_eq_some_iff.1 hj).1
  have hbv : fbit (M.T.fd f) j = b := by
    have hb' : (e, b) ∈ pairs l (fbit (M.T.fd f)) := by
      have := hb; unfold view at this; simpa [edgesOf, hfe] using this
    exact (mem_pairs_dir q2 hj b).1 hb'
  have hei : M.T.mfEdgeDir_i f j = .ok b := by
    unfold mfEdgeDir_i
    rw [derefF_ok (alloc_of_live hf), Res.bind_ok, bit_ok _ (by omega), hbv]
  unfold ckRegionEdge
  rw [hei, Res.bind_ok]
  rcases findAdj_spec h (f := f) (e := e) fs 0 hall with ⟨h1, h2⟩ | ⟨k, g, h1, h2, h3, h4⟩
  · left
    refine ⟨?_, fun g d' hg hne => h2 g ((hmem g).2 ⟨d', hg⟩) hne⟩
    rw [h1, Res.bind_ok]
    intro hc
    obtain ⟨x, _, hc⟩ := Res.bind_eq_ok.1 hc
    obtain ⟨y, _, hc⟩ := Res.bind_eq_ok.1 hc
    cases hc
  · right
    obtain ⟨d', e1, e2, e3⟩ := face_at h.cons hr hl h2
    obtain ⟨d0, e4, e5, e6⟩ := face_at h.cons hr hl hi
    have hd0 := e6 d hd
    subst hd0
    obtain ⟨hgl, hge⟩ := FaceHas_iff.1 h4
    obtain ⟨b', hb'⟩ := mem_edges.1 hge
    obtain ⟨lg, p1, p2, p3⟩ := h.edges g ((h.fl.2 g).2 hgl)
    have hdir : M.T.mfEdgeDir g e = .ok b' := by
      refine (mfEdgeDir_iff (alloc_of_live hgl) p1 p2 p3).2 ?_
      have := hb'; unfold view at this; simpa [edgesOf, p1] using this
    refine ⟨g, d', b', e2, h3, hb', ?_⟩
    rw [h1, Res.bind_ok]
    rw [Nat.zero_add]
    show (M.T.mfEdgeDir g e >>= _) = _
    rw [hdir, Res.bind_ok, e4, Res.bind_ok, e1, Res.bind_ok]
    rfl

theorem ckRegion_iff {M : CkMesh} (h : M.Sound) {r : Nat} (hr : r ∈ M.rl) (hg : M.gr r = false) :
    ∃ fs, M.T.rf r = some fs ∧ (ckRegion M r = .ok true ↔
      ∀ i f, fs[i]? = some f → ∀ l, M.T.fe f = some l → ∀ j e, l[j]? = some e →
        ckRegionEdge M r fs i f j e = .ok true) := by
  have hrl := (h.rl.2 r).1 hr
  obtain ⟨fs, hl⟩ := h.faces r hr
  have hlive : ∀ g ∈ fs, M.T.sf g = .live := by
    intro g hg
    have := mem_facesOf_iff (T := M.T) (r := r) (f := g)
    rw [hl] at this
    obtain ⟨d, hd⟩ := this.1 hg
    exact h.cons.fr.down r g d hrl hd
  have hed : ∀ g ∈ fs, ∃ l, M.T.fe g = some l ∧ M.T.mfEdges g true none = .ok l := by
    intro g hg
    obtain ⟨l, h1, -, -⟩ := h.edges g ((h.fl.2 g).2 (hlive g hg))
    exact ⟨l, h1, mfEdges_plain (alloc_of_live (hlive g hg)) h1⟩
  refine ⟨fs, hl, ?_⟩
  have hgo : ckRegion M r = (do let b ← ckRegionFaces M r fs fs 0; pure (true && b)) := by
    unfold ckRegion
    rw [if_neg (by simp [hg])]
    rw [show M.T.mrFaces r = .ok fs from rfaces_ok (alloc_of_live hrl) hl, Res.bind_ok,
      ckLinks_true h hrl hl fs 0 (fun k f hk => by rwa [Nat.zero_add]), Res.bind_ok]
  have hiff : ckRegion M r = .ok true ↔ ckRegionFaces M r fs fs 0 = .ok true := by
    rw [hgo]
    constructor
    · intro hc
      obtain ⟨b, h1, h2⟩ := Res.bind_eq_ok.1 hc
      injection h2 with h2
      rw [Bool.true_and] at h2
      rw [h1, h2]
    · intro hc; rw [hc]; rfl
  rw [hiff, ckRegionFaces_iff fs 0 (fun g hg => (hed g hg).imp fun _ h => h.2)]
  constructor
  · intro hc i f hi l hfl j e hj
    obtain ⟨l', h1, h2⟩ := hed f (List.mem_of_getElem? hi)
    rw [hfl] at h1; injection h1 with h1; subst h1
    have := hc i f hi l h2 j e hj
    rwa [Nat.zero_add] at this
  · intro hc i f hi es hes j e hj
    obtain ⟨l', h1, h2⟩ := hed f (List.mem_of_getElem? hi)
    rw [h2] at hes; injection hes with hes; subst hes
    rw [Nat.zero_add]
    exact hc i f hi _ h1 j e hj

theorem edges_dir_unique {M : CkMesh} (h : M.Sound) {f e : Nat} {b b' : Bool} (hf : M.T.sf f = .live)
    (h1 : (e, b) ∈ M.T.view.edges f) (h2 : (e, b') ∈ M.T.view.edges f) : b' = b := by
  obtain ⟨l, p1, p2, p3⟩ := h.edges f ((h.fl.2 f).2 hf)
  have q1 : (e, b) ∈ pairs l (fbit (M.T.fd f)) := by
    have := h1; unfold view at this; simpa [edgesOf, p1] using this
  have q2 : (e, b') ∈ pairs l (fbit (M.T.fd f)) := by
    have := h2; unfold view at this; simpa [edgesOf, p1] using this
  have a := (mfEdgeDir_iff (alloc_of_live hf) p1 p2 p3).2 q1
  have b := (mfEdgeDir_iff (alloc_of_live hf) p1 p2 p3).2 q2
  rw [a] at b
  injection b with b
  exact b.symm

theorem faces_dir_unique {M : CkMesh} (h : M.Sound) {r f : Nat} {d d' : Bool} (hr : M.T.sr r = .live)
    (h1 : (f, d) ∈ M.T.view.faces r) (h2 : (f, d') ∈ M.T.view.faces r) : d' = d := by
  have a := (mrFaceDir_iff h.cons hr).2 h1
  have b := (mrFaceDir_iff h.cons hr).2 h2
  rw [a] at b
  injection b with b
  injection b with b
  exact b.symm

theorem ckRegion_accepts {M : CkMesh} (h : M.Sound) {r : Nat} (hr : r ∈ M.rl) (hg : M.gr r = false)
    (hs : M.T.Shell r) : ckRegion M r = .ok true := by
  obtain ⟨fs, hl, hiff⟩ := ckRegion_iff h hr hg
  have hrl := (h.rl.2 r).1 hr
  rw [hiff]
  intro i f hi l hfl j e hj
  obtain ⟨d, -, hd, -⟩ := face_at h.cons hrl hl hi
  obtain ⟨b, hb⟩ := mem_edges.1 (show e ∈ (M.T.fe f).getD [] by rw [hfl]; exact List.mem_of_getElem? hj)
  obtain ⟨g, d', b', s1, s2, s3, s4, s5⟩ := hs f d e b hd hb
  have hgl : M.T.sf g = .live := h.cons.fr.down r g d' hrl s1
  rcases ckRegionEdge_cases h hrl hl hi hd hfl hj hb with ⟨-, c⟩ | ⟨g2, d2, b2, c1, c2, c3, c4⟩
  · exact absurd (FaceHas_iff.2 ⟨hgl, mem_edges.2 ⟨b', s3⟩⟩) (c g d' s1 s2)
  · have : g2 = g := (s5 g2 d2 b2 c1 c3).resolve_left c2
    subst this
    rw [c4, faces_dir_unique h hrl s1 c1, edges_dir_unique h hgl s3 c3, (dirsOk_iff b b' d d').2 s4]

theorem ckRegion_sound {M : CkMesh} (h : M.Sound) {r : Nat} (hr : r ∈ M.rl) (hg : M.gr r = false)
    (hs : ckRegion M r = .ok true) {f e : Nat} {d b : Bool} (hd : (f, d) ∈ M.T.view.faces r)
    (hb : (e, b) ∈ M.T.view.edges f) :
    ∃ g d' b', (g, d') ∈ M.T.view.faces r ∧ g ≠ f ∧ (e, b') ∈ M.T.view.edges g ∧ way d b ≠ way d' b' := by
  obtain ⟨fs, hl, hiff⟩ := ckRegion_iff h hr hg
  have hrl := (h.rl.2 r).1 hr
  have hfl : M.T.sf f = .live := h.cons.fr.down r f d hrl hd
  have hmem : f ∈ (M.T.rf r).getD [] := mem_facesOf_iff.2 ⟨d, hd⟩
  rw [hl] at hmem
  obtain ⟨i, hi⟩ := List.mem_iff_getElem?.1 hmem
  obtain ⟨l, hfe, -, -⟩ := h.edges f ((h.fl.2 f).2 hfl)
  have hme := mem_edges.2 ⟨b, hb⟩
  rw [hfe] at hme
  obtain ⟨j, hj⟩ := List.mem_iff_getElem?.1 hme
  have := hiff.1 hs i f hi l hfe j e hj
  rcases ckRegionEdge_cases h hrl hl hi hd hfe hj hb with ⟨c, -⟩ | ⟨g2, d2, b2, c1, c2, c3, c4⟩
  · exact absurd this c
  · rw [c4] at this
    injection this with this
    exact ⟨g2, d2, b2, c1, c2, c3, (dirsOk_iff b b2 d d2).1 this⟩

/-! ### vertices on a model face -/

theorem Corner.unique {T : Topo} {f v a b a' b' : Nat} (h : T.Corner f v a b) (h' : T.Corner f v a' b') :
    a = a' ∧ b = b' := by
  obtain ⟨es, h1, h2, h3⟩ := h
  obtain ⟨es', h1', h2', h3'⟩ := h'
  rw [h1] at h1'
  injection h1' with h1'
  subst h1'
  rw [h2] at h2'; rw [h3] at h3'
  injection h2' with h2'
  injection h3' with h3'
  exact ⟨h2', h3'⟩

theorem Ring.nextNe {M : CkMesh} {v : Nat} {gid : Int} {n : Nat} {F E : Int → Nat} (R : Ring M v gid n F E) (k : Int) :
    E k ≠ E (k + 1) := by
  intro he
  have h1 := R.inj _ _ he
  rw [show k - (k + 1) = -1 by omega] at h1
  have h2 := Int.le_of_dvd (by omega : (0:Int) < 1) (Int.dvd_neg.1 h1)
  have := R.two
  omega

theorem nextOn_ring {M : CkMesh} {gid : Int} {fcur g : Nat} : ∀ (l : List Nat), (∀ f ∈ l, M.T.sf f = .live) →
    g ∈ l → g ≠ fcur → M.fc g = (2, gid) → (∀ f ∈ l, M.fc f = (2, gid) → f = fcur ∨ f = g) →
    nextOn M gid fcur l = .ok (some g) := by
  intro l
  induction l with
  | nil => intro _ h; cases h
  | cons f fs ih =>
    intro hl hg hne hc hu
    rw [show nextOn M gid fcur (f :: fs) = (do
      M.T.derefF f
      if f ≠ fcur ∧ (M.fc f).1 = 2 ∧ (M.fc f).2 = gid then pure (some f) else nextOn M gid fcur fs) from rfl,
      derefF_ok (alloc_of_live (hl f (by simp))), Res.bind_ok]
    by_cases hf : f ≠ fcur ∧ (M.fc f).1 = 2 ∧ (M.fc f).2 = gid
    · rw [if_pos hf]
      rcases hu f (by simp) (Prod.ext hf.2.1 hf.2.2) with h | h
      · exact absurd h hf.1
      · rw [h]; rfl
    · rw [if_neg hf]
      have hfg : f ≠ g := by rintro rfl; exact hf ⟨hne, by rw [hc], by rw [hc]⟩
      exact ih (fun x hx => hl x (by simp [hx])) ((List.mem_cons.1 hg).resolve_left fun h => hfg h.symm) hne hc
        (fun x hx => hu x (by simp [hx]))

theorem flippedCheck_true {M : CkMesh} (h : M.T.Consistent) {f : Nat} (hf : M.T.sf f = .live) {fl : Bool}
    (hr : fl = true → ∃ r, M.T.RegionHas r f) : flippedCheck M f fl = .ok true := by
  unfold flippedCheck
  cases fl with
  | false => rfl
  | true =>
    obtain ⟨r, hr⟩ := hr rfl
    obtain ⟨L, h1, -, h3⟩ := C22_face_regions h hf
    rw [if_pos rfl, h1, Res.bind_ok]
    cases L with
    | none => exact absurd ((h3 r).2 hr) (by simp)
    | some l => rfl

theorem ring_true {M : CkMesh} (h : M.T.Consistent) {v : Nat} {gid : Int} {n : Nat} {F E : Int → Nat}
    (R : Ring M v gid n F E) (e0 : Nat) : ∀ (fuel : Nat) (j : Int) (fl : Bool),
    (fl = true → ∀ k, ∃ r, M.T.RegionHas r (F k)) → ring M v gid e0 fuel (F j) (E j) fl = .ok true := by
  intro fuel
  induction fuel with
  | zero => intro j fl _; rfl
  | succ fuel ih =>
    intro j fl hfl
    have hel : M.T.se (E j) = .live := h.ef.down _ _ (FaceHas_iff.1 (R.at0 j)).1 (FaceHas_iff.1 (R.at0 j)).2
    have hm0 := (h.mem_ef hel).2 (R.at0 j)
    have hm1 := (h.mem_ef hel).2 (R.at1 j)
    have hnext : nextOn M gid (F j) (M.T.ef (E j)) = .ok (some (F (j+1))) :=
      nextOn_ring _ (fun f hf => ((h.mem_ef hel).1 hf).1) hm1 (R.ne j).symm (R.cls _)
        (fun f hf hc => R.around j f ((h.mem_ef hel).1 hf) hc)
    have hne := R.nextNe j
    rw [show ring M v gid e0 (fuel+1) (F j) (E j) fl = (do
      let L ← M.T.meFaces (E j)
      let l ← Res.ofOption L
      match ← nextOn M gid (F j) l with
      | none => pure false
      | some g =>
        let fe ← M.T.mfEdges g true (some v)
        let p := nextEdge fe (E j) fl
        let enxt ← Res.ofOption p.1
        if enxt = e0 then flippedCheck M g p.2
        else ring M v gid e0 fuel g enxt p.2) from rfl,
      meFaces_some hel hm0, Res.bind_ok, Res.ofOption_some, Res.bind_ok, hnext, Res.bind_ok]
    have hco := R.corner (j+1)
    rw [show j + 1 - 1 = j by omega] at hco
    have hend : ∃ es fl', M.T.mfEdges (F (j+1)) true (some v) = .ok es ∧
        nextEdge es (E j) fl = (some (E (j+1)), fl') ∧ (fl' = true → ∀ k, ∃ r, M.T.RegionHas r (F k)) := by
      rcases hco with ⟨es, c1, c2, c3⟩ | ⟨es, c1, c2, c3⟩
      · refine ⟨es, fl, c1, ?_, hfl⟩
        unfold nextEdge
        rw [if_pos c2, c3]
      · refine ⟨es, true, c1, ?_, fun _ => ?_⟩
        · unfold nextEdge
          rw [if_neg, if_pos c3, c2]
          rw [c2]; intro hc; injection hc with hc; exact hne hc.symm
        · rcases R.orient with ho | ho
          · have hu := Corner.unique (ho (j+1)) ⟨es, c1, c2, c3⟩
            rw [show j + 1 - 1 = j by omega] at hu
            exact absurd hu.1 hne
          · exact ho
    obtain ⟨es, fl', e1, e2, e3⟩ := hend
    show (M.T.mfEdges (F (j+1)) true (some v) >>= _) = _
    rw [e1, Res.bind_ok]
    dsimp only
    rw [e2]
    show (Res.ofOption (some (E (j+1))) >>= _) = _
    rw [Res.ofOption_some, Res.bind_ok]
    by_cases hs : E (j+1) = e0
    · rw [if_pos hs]
      exact flippedCheck_true h (R.live _) (fun x => e3 x _)
    · rw [if_neg hs]
      exact ih (j+1) fl' e3

/-- the same ring from the other side -/
theorem Ring.rev {M : CkMesh} {v : Nat} {gid : Int} {n : Nat} {F E : Int → Nat} (R : Ring M v gid n F E)
    (hr : ∀ k, ∃ r, M.T.RegionHas r (F k)) : Ring M v gid n (fun k => F (-k)) (fun k => E (-k - 1)) where
  two := R.two
  periodF k := by
    have := R.periodF (-(k+n)); rw [show -(k+(n:Int)) + n = -k by omega] at this; exact this.symm
  periodE k := by
    have := R.periodE (-(k+n) - 1); rw [show -(k+(n:Int)) - 1 + n = -k - 1 by omega] at this; exact this.symm
  inj i j hij := by
    have := R.inj _ _ hij
    rw [show -i - 1 - (-j - 1) = -(i - j) by omega] at this
    exact Int.dvd_neg.1 this
  live k := R.live _
  cls k := R.cls _
  corner k := by
    have := R.corner (-k)
    show M.T.Corner (F (-k)) v (E (-(k-1) - 1)) (E (-k - 1)) ∨ M.T.Corner (F (-k)) v (E (-k - 1)) (E (-(k-1) - 1))
    rw [show -(k-1) - 1 = -k by omega]
    exact this.symm
  ne k := by
    have := R.ne (-(k+1)); rw [show -(k+1) + 1 = -k by omega] at this; exact this.symm
  around k f h1 h2 := by
    have := R.around _ f h1 h2
    rw [show -k - 1 + 1 = -k by omega] at this
    show f = F (-k) ∨ f = F (-(k+1))
    rw [show -(k+1) = -k - 1 by omega]
    exact this.symm
  at0 k := by
    have := R.at1 (-k - 1); rw [show -k - 1 + 1 = -k by omega] at this; exact this
  at1 k := by
    have := R.at0 (-k - 1)
    show M.T.FaceHas (F (-(k+1))) _
    rw [show -(k+1) = -k - 1 by omega]; exact this
  orient := Or.inr fun k => hr _

theorem ckUses_true {M : CkMesh} (h : M.T.Consistent) {v : Nat} (hv : M.T.sv v = .live) :
    allM (fun e => M.T.meUsesVertex e (some v)) (M.T.ve v) = .ok true := by
  refine allM_true fun e he => ?_
  obtain ⟨h1, h2⟩ := (h.ve.mem v (alloc_of_live hv) e).1 he
  unfold meUsesVertex
  rw [derefE_ok (alloc_of_live h1), Res.bind_ok, Res.pure_eq]
  unfold ends at h2
  simpa using h2

theorem mvEdges_cases {T : Topo} (h : T.Consistent) {v : Nat} (hv : T.sv v = .live) :
    (T.mvEdges v = .ok none ∧ ¬ ∃ e, T.EdgeHas e v) ∨ (T.mvEdges v = .ok (some (T.ve v)) ∧ ∃ e, T.EdgeHas e v) := by
  unfold mvEdges
  rw [derefV_ok (alloc_of_live hv), Res.bind_ok]
  cases hl : T.ve v with
  | nil =>
    left
    refine ⟨rfl, ?_⟩
    rintro ⟨e, he⟩
    have := (h.mem_ve hv).2 he
    rw [hl] at this; cases this
  | cons e es =>
    right
    exact ⟨rfl, e, (h.mem_ve hv).1 (by rw [hl]; simp)⟩

/-- the vertex check, up to the walk -/
theorem ckVertex_eq {M : CkMesh} (h : M.Sound) {v : Nat} (hv : v ∈ M.vl) (hg : M.gv v = false) :
    ∃ fs, (∀ f, f ∈ fs ↔ ∃ e, M.T.EdgeHas e v ∧ M.T.FaceHas f e) ∧
    (M.T.ve v ≠ [] ↔ ∃ e, M.T.EdgeHas e v) ∧
    ckVertex M v = if M.T.ve v ≠ [] ∧ (M.vc v).1 = 2 then
        (if fs = [] then .ub else ringFrom M v (fs.find? fun f => decide ((M.fc f).1 = 2))) else .ok true := by
  have hvl := (h.vl.2 v).1 hv
  obtain ⟨L, l1, -, l3⟩ := C22_vertex_faces h.cons hvl
  have hne : M.T.ve v ≠ [] ↔ ∃ e, M.T.EdgeHas e v := by
    constructor
    · intro hc
      obtain ⟨e, he⟩ := List.exists_mem_of_ne_nil _ hc
      exact ⟨e, (h.cons.mem_ve hvl).1 he⟩
    · rintro ⟨e, he⟩ hc
      have := (h.cons.mem_ve hvl).2 he
      rw [hc] at this; cases this
  refine ⟨L.getD [], l3, hne, ?_⟩
  unfold ckVertex
  rw [if_neg (by simp [hg])]
  rcases mvEdges_cases h.cons hvl with ⟨h1, h2⟩ | ⟨h1, h2⟩
  · rw [h1, Res.bind_ok, if_neg (fun hc => h2 (hne.1 hc.1))]; rfl
  · rw [h1, Res.bind_ok]
    show (allM (fun e => M.T.meUsesVertex e (some v)) (M.T.ve v) >>= _) = _
    rw [ckUses_true h.cons hvl, Res.bind_ok]
    by_cases hd : (M.vc v).1 = 2
    · rw [if_pos hd, if_pos ⟨hne.2 h2, hd⟩, l1, Res.bind_ok]
      have hL : L = orNull (L.getD []) := by
        unfold mvFaces at l1
        rw [derefV_ok (alloc_of_live hvl), Res.bind_ok] at l1
        obtain ⟨x, -, hx⟩ := Res.bind_eq_ok.1 l1
        injection hx with hx
        rw [← hx, orNull_getD]
      cases L with
      | none => rfl
      | some l =>
        have hne : l ≠ [] := by
          rintro rfl
          cases hL
        rw [Res.ofOption_some, Res.bind_ok]
        simp only [Option.getD_some]
        rw [if_neg hne]
        cases ringFrom M v (l.find? fun f => decide ((M.fc f).1 = 2)) <;> rfl
    · rw [if_neg hd, if_neg (fun hc => hd hc.2)]; rfl

theorem ringFrom_true {M : CkMesh} (h : M.T.Consistent) {v : Nat} {n : Nat} {F E : Int → Nat}
    (R : Ring M v (M.vc v).2 n F E) (k : Int) : ringFrom M v (some (F k)) = .ok true := by
  have go : ∀ (F E : Int → Nat), Ring M v (M.vc v).2 n F E → ∀ k, M.T.Corner (F k) v (E (k-1)) (E k) →
      ringFrom M v (some (F k)) = .ok true := by
    intro F E R k ⟨es, c1, c2, c3⟩
    rw [show ringFrom M v (some (F k)) = (do
      let fe ← M.T.mfEdges (F k) true (some v)
      let e0 ← Res.ofOption fe.head?
      let enxt ← Res.ofOption fe.getLast?
      ring M v (M.vc v).2 e0 1001 (F k) enxt false) from rfl, c1, Res.bind_ok, c2, Res.ofOption_some, Res.bind_ok,
      c3, Res.ofOption_some, Res.bind_ok]
    exact ring_true h R _ 1001 k false (fun hc => by cases hc)
  rcases R.corner k with hc | hc
  · exact go F E R k hc
  · rcases R.orient with ho | ho
    · exact go F E R k (ho k)
    · have := go _ _ (R.rev ho) (-k) (by
        show M.T.Corner (F (- -k)) v (E (-(-k-1) - 1)) (E (- -k - 1))
        rw [show -(-k-1) - 1 = k by omega, show - -k = k by omega]; exact hc)
      rwa [show - -k = k by omega] at this

theorem ckVertex_accepts {M : CkMesh} (h : M.Sound) {v : Nat} (hv : v ∈ M.vl) (hg : M.gv v = false)
    (hr : (M.vc v).1 = 2 → (∃ e, M.T.EdgeHas e v) → RingAt M v) : ckVertex M v = .ok true := by
  obtain ⟨fs, h1, h0, h2⟩ := ckVertex_eq h hv hg
  rw [h2]
  split
  · rename_i hc
    obtain ⟨⟨e, f, f1, f2, f3⟩, n, F, E, R, hall⟩ := hr hc.2 (h0.1 hc.1)
    have hm : f ∈ fs := (h1 f).2 ⟨e, f1, f2⟩
    rw [if_neg (by rintro rfl; cases hm)]
    cases hfi : fs.find? (fun f => decide ((M.fc f).1 = 2)) with
    | none => exact absurd f3 (by simpa using List.find?_eq_none.1 hfi f hm)
    | some g =>
      have hgd : (M.fc g).1 = 2 := by simpa using List.find?_some hfi
      obtain ⟨e', g1, g2⟩ := (h1 g).1 (List.mem_of_find?_eq_some hfi)
      obtain ⟨k, rfl⟩ := hall e' g g1 g2 hgd
      exact ringFrom_true h.cons R k
  · rfl

/-! ### edges on a model face -/

/-- what the loop over the faces of an edge finds: the faces with dimension 2, in order -/
theorem bfaces_some {M : CkMesh} {g : Int} {x : Nat} : ∀ (fs : List Nat) (n : Nat) (b : Option Nat) (ok : Bool),
    (∀ f ∈ fs, M.T.sf f = .live) → bfaces M g fs ⟨n, some x, b, ok⟩ =
      .ok ⟨n + (fs.filter fun f => decide ((M.fc f).1 = 2)).length, some x,
        ((fs.filter fun f => decide ((M.fc f).1 = 2)).getLast?).or b,
        ok && (fs.filter fun f => decide ((M.fc f).1 = 2)).all fun f => decide ((M.fc f).2 = g)⟩ := by
  intro fs
  induction fs with
  | nil => intro n b ok _; simp [bfaces]
  | cons f fs ih =>
    intro n b ok hl
    rw [show bfaces M g (f :: fs) ⟨n, some x, b, ok⟩ = (do
      M.T.derefF f
      if (M.fc f).1 = 2 then
        bfaces M g fs ⟨n + 1, some x, some f, ok && decide ((M.fc f).2 = g)⟩
      else bfaces M g fs ⟨n, some x, b, ok⟩) from rfl, derefF_ok (alloc_of_live (hl f (by simp))), Res.bind_ok]
    have hl' : ∀ f ∈ fs, M.T.sf f = .live := fun x hx => hl x (by simp [hx])
    by_cases hc : (M.fc f).1 = 2
    · rw [if_pos hc, ih _ _ _ hl', List.filter_cons_of_pos (by simpa using hc)]
      congr 1
      rw [BFaces.mk.injEq]
      refine ⟨by simp; omega, rfl, ?_, by simp [Bool.and_assoc]⟩
      rw [List.getLast?_cons]
      cases (fs.filter fun f => decide ((M.fc f).1 = 2)).getLast? <;> simp
    · rw [if_neg hc, ih _ _ _ hl', List.filter_cons_of_neg (by simpa using hc)]

theorem bfaces_none {M : CkMesh} {g : Int} : ∀ (fs : List Nat), (∀ f ∈ fs, M.T.sf f = .live) →
    bfaces M g fs ⟨0, none, none, true⟩ =
      .ok ⟨(fs.filter fun f => decide ((M.fc f).1 = 2)).length, (fs.filter fun f => decide ((M.fc f).1 = 2)).head?,
        (fs.filter fun f => decide ((M.fc f).1 = 2)).tail.getLast?,
        (fs.filter fun f => decide ((M.fc f).1 = 2)).all fun f => decide ((M.fc f).2 = g)⟩ := by
  intro fs
  induction fs with
  | nil => intro _; rfl
  | cons f fs ih =>
    intro hl
    rw [show bfaces M g (f :: fs) ⟨0, none, none, true⟩ = (do
      M.T.derefF f
      if (M.fc f).1 = 2 then
        bfaces M g fs ⟨0 + 1, some f, none, true && decide ((M.fc f).2 = g)⟩
      else bfaces M g fs ⟨0, none, none, true⟩) from rfl, derefF_ok (alloc_of_live (hl f (by simp))), Res.bind_ok]
    have hl' : ∀ f ∈ fs, M.T.sf f = .live := fun x hx => hl x (by simp [hx])
    by_cases hc : (M.fc f).1 = 2
    · rw [if_pos hc, bfaces_some _ _ _ _ hl', List.filter_cons_of_pos (by simpa using hc)]
      congr 1
      rw [BFaces.mk.injEq]
      refine ⟨by simp; omega, rfl, by simp, by simp⟩
    · rw [if_neg hc, ih hl', List.filter_cons_of_neg (by simpa using hc)]

theorem faceAt_some {M : CkMesh} (h : M.Sound) {e fcur : Nat} : ∀ (fs : List Nat), (∀ g ∈ fs, M.T.sf g = .live) →
    (∃ g ∈ fs, g ≠ fcur ∧ M.T.FaceHas g e) →
    ∃ g ∈ fs, g ≠ fcur ∧ M.T.FaceHas g e ∧ faceAt M e fcur fs = .ok (some g) := by
  intro fs
  induction fs with
  | nil => rintro _ ⟨g, hg, _⟩; cases hg
  | cons f fs ih =>
    rintro hl ⟨g, hg, h1, h2⟩
    have hf := hl f (by simp)
    obtain ⟨l, q1, -, -⟩ := h.edges f ((h.fl.2 f).2 hf)
    rw [show faceAt M e fcur (f :: fs) = (do
      let b ← andThen (.ok (decide (f ≠ fcur))) (M.T.mfUsesEdge f e)
      if b then pure (some f) else faceAt M e fcur fs) from rfl, usesOther hf q1, Res.bind_ok]
    by_cases hc : f ≠ fcur ∧ M.T.sf f = .live ∧ e ∈ (M.T.fe f).getD []
    · exact ⟨f, by simp, hc.1, FaceHas_iff.2 hc.2, by rw [decide_eq_true hc]; rfl⟩
    · rw [decide_eq_false hc]
      have hfg : g ≠ f := by rintro rfl; exact hc ⟨h1, FaceHas_iff.1 h2⟩
      obtain ⟨g', p1, p2, p3, p4⟩ := ih (fun x hx => hl x (by simp [hx]))
        ⟨g, (List.mem_cons.1 hg).resolve_left hfg, h1, h2⟩
      exact ⟨g', by simp [p1], p2, p3, p4⟩

/-- the faces of a region at an edge: the one that is not `fcur` -/
theorem faceAt_region {M : CkMesh} (h : M.Sound) {e fcur r : Nat} (hr : M.T.sr r = .live)
    (hex : ∃ g, g ≠ fcur ∧ M.T.RegionHas r g ∧ M.T.FaceHas g e) :
    ∃ fs g, M.T.mrFaces r = .ok fs ∧ faceAt M e fcur fs = .ok (some g) ∧ g ≠ fcur ∧ M.T.RegionHas r g ∧
      M.T.FaceHas g e := by
  obtain ⟨fs, hl⟩ := h.faces r ((h.rl.2 r).2 hr)
  have hm : ∀ g, M.T.RegionHas r g ↔ g ∈ fs := by
    intro g; rw [RegionHas_iff h.cons, hl]; exact ⟨fun x => x.2, fun x => ⟨hr, x⟩⟩
  have hlive : ∀ g ∈ fs, M.T.sf g = .live := by
    intro g hg
    obtain ⟨_, d, hd⟩ := (hm g).2 hg
    exact h.cons.agrees.regionFaces r g d hr hd
  obtain ⟨g, g1, g2, g3⟩ := hex
  obtain ⟨g', p1, p2, p3, p4⟩ := faceAt_some h fs hlive ⟨g, (hm g).1 g2, g1, g3⟩
  exact ⟨fs, g', rfaces_ok (alloc_of_live hr) hl, p4, p2, (hm g').2 p1, p3⟩

theorem regionAt_some {rcur r : Nat} : ∀ (l : List Nat), r ∈ l → r ≠ rcur → (∀ s ∈ l, s = rcur ∨ s = r) →
    regionAt rcur l = some r := by
  intro l
  induction l with
  | nil => intro h; cases h
  | cons s l ih =>
    intro h1 h2 h3
    unfold regionAt
    by_cases hs : s = rcur
    · rw [if_neg (by simpa using hs)]
      exact ih ((List.mem_cons.1 h1).resolve_left fun hc => h2 (hc.trans hs)) h2 (fun x hx => h3 x (by simp [hx]))
    · rw [if_pos hs, (h3 s (by simp)).resolve_left hs]

/-- the regions of a face -/
theorem mfRegions_some {T : Topo} (h : T.Consistent) {f r : Nat} (hr : T.RegionHas r f) :
    T.sf f = .live ∧ ∃ l, T.mfRegions f = .ok (some l) ∧ l.Nodup ∧ l.length ≤ 2 ∧ ∀ s, s ∈ l ↔ T.RegionHas s f := by
  obtain ⟨h0, d, hd⟩ := hr
  have hf := h.agrees.regionFaces r f d h0 hd
  refine ⟨hf, ?_⟩
  obtain ⟨L, h1, h2, h3⟩ := C22_face_regions h hf
  cases L with
  | none => exact absurd ((h3 r).2 ⟨h0, d, hd⟩) (by simp)
  | some l =>
    refine ⟨l, h1, h2, ?_, h3⟩
    rw [mfRegions_eq hf] at h1
    injection h1 with h1
    unfold orNull at h1
    split at h1
    · cases h1
    · injection h1 with h1
      rw [← h1]
      rcases T.fr f with ⟨a, b⟩
      cases a <;> cases b <;> simp

theorem goRound_step {M : CkMesh} (h : M.Sound) {e y f rcur rnxt : Nat} (hyf : f ≠ y)
    (hreg : ∀ s, M.T.RegionHas s f ↔ (s = rcur ∨ s = rnxt)) (hne : rcur ≠ rnxt)
    (hex : ∃ g, g ≠ f ∧ M.T.RegionHas rnxt g ∧ M.T.FaceHas g e) (fuel c : Nat) (fnd : Bool) :
    ∃ g, g ≠ f ∧ M.T.RegionHas rnxt g ∧ M.T.FaceHas g e ∧
      goRound M e (some y) (fuel+1) c (some f) rcur fnd = goRound M e (some y) fuel f (some g) rnxt true := by
  obtain ⟨hf, l, l1, -, -, l3⟩ := mfRegions_some h.cons ((hreg rnxt).2 (Or.inr rfl))
  have hr : M.T.sr rnxt = .live := ((hreg rnxt).2 (Or.inr rfl)).1
  obtain ⟨fs, g, p1, p2, p3, p4, p5⟩ := faceAt_region h hr hex
  have hra : regionAt rcur l = some rnxt :=
    regionAt_some l ((l3 _).2 ((hreg _).2 (Or.inr rfl))) hne.symm (fun s hs => (hreg s).1 ((l3 s).1 hs))
  refine ⟨g, p3, p4, p5, ?_⟩
  rw [show goRound M e (some y) (fuel+1) c (some f) rcur fnd = (do
    let fcur ← Res.ofOption (some f)
    M.T.derefF fcur
    if some f = some y then pure ⟨true, true, fcur, some f⟩
    else
      let L ← M.T.mfRegions fcur
      let l ← Res.ofOption L
      if (regionAt rcur l).isNone ∧ fnd = false then pure ⟨false, false, fcur, some f⟩
      else
        let rcur := (regionAt rcur l).getD rcur
        let fs ← M.T.mrFaces rcur
        let o ← faceAt M e fcur fs
        goRound M e (some y) fuel fcur (o.or (some f)) rcur o.isSome) from rfl,
    Res.ofOption_some, Res.bind_ok, derefF_ok (alloc_of_live hf), Res.bind_ok,
    if_neg (by intro hc; injection hc with hc; exact hyf hc), l1, Res.bind_ok, Res.ofOption_some, Res.bind_ok, hra]
  rw [if_neg (by simp)]
  dsimp only [Option.getD_some]
  rw [p1, Res.bind_ok, p2, Res.bind_ok]
  rfl

theorem Fan.faceHas {T : Topo} {e a b r m : Nat} {F R : Nat → Nat} (Fn : Fan T e a b r m F R) {k : Nat} (hk : k < m) :
    T.RegionHas (R k) (F (k+1)) ∧ T.FaceHas (F (k+1)) e := (Fn.region k hk _).2 (Or.inr rfl)

/-- the walk along a fan -/
theorem goRound_fan {M : CkMesh} (h : M.Sound) {e x y r m : Nat} {F R : Nat → Nat} (Fn : Fan M.T e x y r m F R) :
    ∀ (fuel k c : Nat) (fnd : Bool), k < m → m ≤ k + fuel →
      goRound M e (some y) fuel c (some (F (k+1))) (R k) fnd = .ok ⟨true, true, y, some y⟩ := by
  intro fuel
  induction fuel with
  | zero => intro k c fnd h1 h2; omega
  | succ fuel ih =>
    intro k c fnd hk hm
    obtain ⟨⟨hr1, d, hd⟩, hfe⟩ := Fn.faceHas hk
    by_cases hlast : k + 1 = m
    · have hF : F (k+1) = y := by rw [hlast]; exact Fn.last
      rw [hF] at hfe ⊢
      rw [show goRound M e (some y) (fuel+1) c (some y) (R k) fnd = (do
        let fcur ← Res.ofOption (some y)
        M.T.derefF fcur
        if some y = some y then pure ⟨true, true, fcur, some y⟩
        else
          let L ← M.T.mfRegions fcur
          let l ← Res.ofOption L
          if (regionAt (R k) l).isNone ∧ fnd = false then pure ⟨false, false, fcur, some y⟩
          else
            let rcur := (regionAt (R k) l).getD (R k)
            let fs ← M.T.mrFaces rcur
            let o ← faceAt M e fcur fs
            goRound M e (some y) fuel fcur (o.or (some y)) rcur o.isSome) from rfl,
        Res.ofOption_some, Res.bind_ok, derefF_ok (alloc_of_live hfe.1), Res.bind_ok, if_pos rfl]
      rfl
    · have hk1 : k + 1 < m := by omega
      have hnx := Fn.faceHas hk1
      obtain ⟨g, g1, g2, g3, g4⟩ := goRound_step h (Fn.before (k+1) hk1) (Fn.face k hk1) (Fn.neR k hk1)
        ⟨F (k+2), (Fn.ne (k+1) hk1).symm, hnx.1, hnx.2⟩ fuel c fnd
      have hg : g = F (k+2) := ((Fn.region (k+1) hk1 g).1 ⟨g2, g3⟩).resolve_left g1
      rw [g4, hg]
      exact ih (k+1) _ _ hk1 (by omega)

theorem sidesOf_step {M : CkMesh} {e : Nat} {stop fnxt : Option Nat} {r fcur : Nat} {rs fs : List Nat} {o : Nat}
    {w : Walk} (h1 : M.T.mrFaces r = .ok fs) (h2 : faceAt M e fcur fs = .ok (some o))
    (h3 : goRound M e stop 1001 fcur (some o) r true = .ok w) (hd : w.done = true) :
    sidesOf M e stop (r :: rs) fcur fnxt = sidesOf M e stop rs w.fcur w.fnxt := by
  rw [show sidesOf M e stop (r :: rs) fcur fnxt = (do
    let fs ← M.T.mrFaces r
    let o ← faceAt M e fcur fs
    let w ← goRound M e stop 1001 fcur (o.or fnxt) r o.isSome
    if w.done then
      sidesOf M e stop rs w.fcur w.fnxt
    else
      let _ ← Res.ofOption stop
      let b ← sidesOf M e stop rs w.fcur w.fnxt
      pure (false && b)) from rfl, h1, Res.bind_ok, h2, Res.bind_ok]
  dsimp only [Option.or, Option.isSome]
  rw [h3, Res.bind_ok, if_pos hd]

/-- from each region of `x` to `y` -/
theorem sidesOf_true {M : CkMesh} (h : M.Sound) {e x y : Nat} {rs : List Nat} (hxy : x ≠ y) (hn : rs.Nodup)
    (h2 : rs.length ≤ 2) (hrs : ∀ r, r ∈ rs ↔ M.T.RegionHas r x)
    (hf : ∀ r, M.T.RegionHas r x → ∃ m F R, Fan M.T e x y r m F R) :
    sidesOf M e (some y) rs x none = .ok true := by
  -- the first region
  have first : ∀ r, M.T.RegionHas r x → ∃ fs o, M.T.mrFaces r = .ok fs ∧ faceAt M e x fs = .ok (some o) ∧
      goRound M e (some y) 1001 x (some o) r true = .ok ⟨true, true, y, some y⟩ ∧
      ∀ c, goRound M e (some y) 1000 c (some o) r true = .ok ⟨true, true, y, some y⟩ := by
    intro r hr
    obtain ⟨m, F, R, Fn⟩ := hf r hr
    have hR0 := Fn.firstR
    have hF0 := Fn.first
    have hp := Fn.faceHas Fn.pos
    rw [hR0] at hp
    obtain ⟨fs, o, p1, p2, p3, p4, p5⟩ := faceAt_region h hr.1 (e := e) (fcur := x)
      ⟨F (0+1), by rw [← hF0]; exact (Fn.ne 0 Fn.pos).symm, hp.1, hp.2⟩
    have ho : o = F 1 := by
      have := (Fn.region 0 Fn.pos o).1 ⟨by rw [hR0]; exact p4, p5⟩
      rw [hF0] at this
      exact this.resolve_left p3
    have hw : ∀ fuel c, m ≤ fuel → goRound M e (some y) fuel c (some o) r true = .ok ⟨true, true, y, some y⟩ := by
      intro fuel c hm
      have := goRound_fan h Fn fuel 0 c true Fn.pos (by omega)
      rw [hR0] at this
      rw [ho]; exact this
    have := Fn.few
    exact ⟨fs, o, p1, p2, hw _ _ (by omega), fun c => hw _ _ (by omega)⟩
  -- a second one
  have second : ∀ r r', r ≠ r' → (∀ s, M.T.RegionHas s x ↔ (s = r' ∨ s = r)) → M.T.RegionHas r x →
      ∃ fs o, M.T.mrFaces r' = .ok fs ∧ faceAt M e y fs = .ok (some o) ∧
      goRound M e (some y) 1001 y (some o) r' true = .ok ⟨true, true, y, some y⟩ := by
    intro r r' hne hall hr
    have hr' : M.T.RegionHas r' x := (hall r').2 (Or.inl rfl)
    obtain ⟨m, F, R, Fn⟩ := hf r' hr'
    have hR0 := Fn.firstR
    have hF0 := Fn.first
    have h0 := (Fn.region 0 Fn.pos (F 0)).2 (Or.inl rfl)
    rw [hR0, hF0] at h0
    obtain ⟨fs, o, p1, p2, p3, p4, p5⟩ := faceAt_region h hr'.1 (e := e) (fcur := y) ⟨x, hxy, h0.1, h0.2⟩
    refine ⟨fs, o, p1, p2, ?_⟩
    have ho := (Fn.region 0 Fn.pos o).1 ⟨by rw [hR0]; exact p4, p5⟩
    have hfew := Fn.few
    rcases ho with ho | ho
    · -- back over `x` into the first region
      rw [hF0] at ho
      subst ho
      obtain ⟨m1, F1, R1, Fn1⟩ := hf r hr
      obtain ⟨gs, o1, q1, q2, -, q3⟩ := first r hr
      have hR1 := Fn1.firstR
      have hF1 := Fn1.first
      have hp1 := Fn1.faceHas Fn1.pos
      rw [hR1] at hp1
      have hne1 := Fn1.ne 0 Fn1.pos
      rw [hF1] at hne1
      obtain ⟨g, g1, g2, g3, g4⟩ := goRound_step h p3 hall hne.symm ⟨F1 1, hne1.symm, hp1.1, hp1.2⟩ 1000 y true
      rw [g4]
      have hg := (Fn1.region 0 Fn1.pos g).1 ⟨by rw [hR1]; exact g2, g3⟩
      rw [hF1] at hg
      rw [hg.resolve_left g1]
      have := goRound_fan h Fn1 1000 0 o true Fn1.pos (by have := Fn1.few; omega)
      rw [hR1] at this
      exact this
    · have := goRound_fan h Fn 1001 0 y true Fn.pos (by omega)
      rw [hR0] at this
      rw [ho]; exact this
  match rs, hn, h2, hrs with
  | [], _, _, _ => rfl
  | [r], _, _, hrs =>
    obtain ⟨fs, o, p1, p2, p3, -⟩ := first r ((hrs r).1 (by simp))
    rw [sidesOf_step p1 p2 p3 rfl]; rfl
  | [r, r'], hn, _, hrs =>
    have hne : r ≠ r' := by simpa using hn
    obtain ⟨fs, o, p1, p2, p3, -⟩ := first r ((hrs r).1 (by simp))
    obtain ⟨fs', o', q1, q2, q3⟩ := second r r' hne (fun s => by rw [← hrs s]; simp [or_comm]) ((hrs r).1 (by simp))
    rw [sidesOf_step p1 p2 p3 rfl]
    rw [sidesOf_step q1 q2 q3 rfl]; rfl
  | _ :: _ :: _ :: _, _, h2, _ => simp at h2

/-- what `ckBoundary` does once the faces with dimension 2 are known -/
theorem ckBoundary_eq {M : CkMesh} (h : M.Sound) {e : Nat} (he : e ∈ M.el) :
    ∃ D : List Nat, D.Nodup ∧ (∀ f, f ∈ D ↔ M.T.FaceHas f e ∧ (M.fc f).1 = 2) ∧
    ((∀ f, ¬ M.T.FaceHas f e) → ckBoundary M e = .ub) ∧
    ((∃ f, M.T.FaceHas f e) → ∃ R : Option (List Nat), (R = none ↔ ∀ f r, M.T.FaceHas f e → ¬ M.T.RegionHas r f) ∧
      ckBoundary M e = match R with
        | none => .ok (D.all (fun f => decide ((M.fc f).2 = (M.ec e).2)) && decide (D.length = 2), true)
        | some _ => do
          let f ← Res.ofOption D.head?
          let fr ← M.T.mfRegions f
          let rs ← Res.ofOption fr
          let b ← sidesOf M e D.tail.getLast? rs f none
          pure (D.all (fun f => decide ((M.fc f).2 = (M.ec e).2)) && decide (D.length = 2) && b, false)) := by
  have hel := h.elive he
  have hmem := fun f => h.cons.mem_ef hel (f := f)
  refine ⟨(M.T.ef e).filter fun f => decide ((M.fc f).1 = 2), (h.cons.ef.nodup e (alloc_of_live hel)).filter _, ?_, ?_, ?_⟩
  · intro f; rw [List.mem_filter, hmem]; simp
  · intro hno
    have hnil : M.T.ef e = [] := List.eq_nil_iff_forall_not_mem.2 fun f hf => hno f ((hmem f).1 hf)
    unfold ckBoundary
    have : M.T.meFaces e = .ok none := by
      unfold meFaces; rw [derefE_ok (alloc_of_live hel), Res.bind_ok, hnil]; rfl
    rw [this, Res.bind_ok]
    rfl
  · rintro ⟨f0, hf0⟩
    obtain ⟨R, r1, -, r3⟩ := C22_edge_regions h.cons hel
    have hR : R = orNull (R.getD []) := by
      unfold meRegions at r1
      rw [derefE_ok (alloc_of_live hel), Res.bind_ok] at r1
      obtain ⟨x, -, hx⟩ := Res.bind_eq_ok.1 r1
      injection hx with hx
      rw [← hx, orNull_getD]
    refine ⟨R, ?_, ?_⟩
    · constructor
      · rintro rfl f r h1 h2
        have := (r3 r).2 ⟨f, h1, h2⟩
        cases this
      · intro hno
        have : R.getD [] = [] := List.eq_nil_iff_forall_not_mem.2 fun r hr => by
          obtain ⟨f, h1, h2⟩ := (r3 r).1 hr
          exact hno f r h1 h2
        rw [hR, this]; rfl
    · unfold ckBoundary
      rw [meFaces_some hel ((hmem f0).2 hf0), Res.bind_ok, Res.ofOption_some, Res.bind_ok,
        bfaces_none _ (fun f hf => ((hmem f).1 hf).1), Res.bind_ok, r1, Res.bind_ok]
      cases R <;> rfl

theorem two_of {D : List Nat} {a b : Nat} (hn : D.Nodup) (hD : ∀ f, f ∈ D ↔ f = a ∨ f = b) (hab : a ≠ b) :
    D = [a, b] ∨ D = [b, a] := by
  have hp : D.Perm [a, b] := by
    rw [List.perm_ext_iff_of_nodup hn (by simpa using hab)]
    intro f; rw [hD]; simp
  have hl := hp.length_eq
  match D, hl, hn, hD with
  | [x, y], _, hn, hD =>
    have hxy : x ≠ y := by simpa using hn
    have hx := (hD x).1 (by simp)
    have hy := (hD y).1 (by simp)
    rcases hx with rfl | rfl
    · rcases hy with rfl | rfl
      · exact absurd rfl hxy
      · exact Or.inl rfl
    · rcases hy with rfl | rfl
      · exact Or.inr rfl
      · exact absurd rfl hxy

theorem ckBoundary_accepts {M : CkMesh} (h : M.Sound) {e : Nat} (he : e ∈ M.el) (hf : FansAt M e) :
    ∃ b, ckBoundary M e = .ok (true, b) := by
  obtain ⟨a, b, ⟨hab, ha, hb, ca, cb, hall⟩, hfan⟩ := hf
  obtain ⟨D, d1, d2, -, d4⟩ := ckBoundary_eq h he
  obtain ⟨R, r1, r2⟩ := d4 ⟨a, ha⟩
  have hD : ∀ f, f ∈ D ↔ f = a ∨ f = b := by
    intro f
    rw [d2]
    constructor
    · rintro ⟨h1, h2⟩; exact hall f h1 h2
    · rintro (rfl | rfl)
      · exact ⟨ha, by rw [ca]⟩
      · exact ⟨hb, by rw [cb]⟩
  have hok : (D.all (fun f => decide ((M.fc f).2 = (M.ec e).2)) && decide (D.length = 2)) = true := by
    rcases two_of d1 hD hab with rfl | rfl <;> simp [ca, cb]
  have hxy : ∃ x y, D = [x, y] ∧ ((x = a ∧ y = b) ∨ (x = b ∧ y = a)) := by
    rcases two_of d1 hD hab with rfl | rfl
    · exact ⟨a, b, rfl, Or.inl ⟨rfl, rfl⟩⟩
    · exact ⟨b, a, rfl, Or.inr ⟨rfl, rfl⟩⟩
  obtain ⟨x, y, hxy, hor⟩ := hxy
  cases R with
  | none => exact ⟨true, by rw [r2, hok]⟩
  | some R =>
    have hreg : ∃ f r, M.T.FaceHas f e ∧ M.T.RegionHas r f := by
      by_contra hc
      have : (some R : Option (List Nat)) = none := r1.2 fun f r h1 h2 => hc ⟨f, r, h1, h2⟩
      cases this
    obtain ⟨⟨r, hr⟩, hfans⟩ := hfan hreg x y hor
    have hne : x ≠ y := by
      rcases hor with ⟨rfl, rfl⟩ | ⟨rfl, rfl⟩
      · exact hab
      · exact hab.symm
    obtain ⟨hfx, l, l1, l2, l3, l4⟩ := mfRegions_some h.cons hr
    refine ⟨false, ?_⟩
    rw [r2]
    dsimp only
    rw [hok, hxy]
    show (Res.ofOption (some x) >>= _) = _
    rw [Res.ofOption_some, Res.bind_ok, l1, Res.bind_ok, Res.ofOption_some, Res.bind_ok]
    rw [show ([x, y] : List Nat).tail.getLast? = some y from rfl, sidesOf_true h hne l2 l3 l4 hfans]
    rfl

theorem ends_of {M : CkMesh} (h : M.Sound) {e : Nat} (he : e ∈ M.el) :
    ∃ a b, endAt (M.T.ev e) false = some a ∧ endAt (M.T.ev e) true = some b ∧
      M.T.meVertex e false = .ok (some a) ∧ M.T.meVertex e true = .ok (some b) := by
  obtain ⟨a, b, hab⟩ := h.ends e he
  have hel := alloc_of_live (h.elive he)
  refine ⟨a, b, by rw [hab]; rfl, by rw [hab]; rfl, ?_, ?_⟩ <;> rw [meVertex_ok hel, hab] <;> rfl

theorem ckEdge_accepts {M : CkMesh} (h : M.Sound) {e : Nat} (he : e ∈ M.el) (hg : M.ge e = false)
    (hv : ∀ v, M.T.EdgeHas e v → Fits (M.ec e) (M.vc v)) (hf : (M.ec e).1 = 2 → FansAt M e) :
    ckEdge M e = .ok true := by
  have hel := h.elive he
  obtain ⟨a, b, ha, hb, ha', hb'⟩ := ends_of h he
  have fa := edgeClsOk_iff.2 (hv a ⟨hel, Or.inl ha'⟩)
  have fb := edgeClsOk_iff.2 (hv b ⟨hel, Or.inr hb'⟩)
  unfold ckEdge
  rw [if_neg (by simp [hg]), derefE_ok (alloc_of_live hel), Res.bind_ok, ckEnd_eq h he ha, Res.bind_ok, fa]
  by_cases hd : (M.ec e).1 = 2
  · obtain ⟨c, hc⟩ := ckBoundary_accepts h he (hf hd)
    rw [if_pos hd, hc, Res.bind_ok]
    cases c with
    | false => rfl
    | true =>
      dsimp only
      rw [if_pos rfl, ckEnd_eq h he hb, Res.bind_ok, fb, Res.bind_ok]
      rfl
  · rw [if_neg hd, ckEnd_eq h he hb, Res.bind_ok, fb]
    rfl

theorem ckBoundary_sound {M : CkMesh} (h : M.Sound) {e : Nat} (he : e ∈ M.el) {b : Bool}
    (hb : ckBoundary M e = .ok (true, b)) : (∃ x y, TwoFaces M e x y) ∧
      ((∀ f r, M.T.FaceHas f e → ¬ M.T.RegionHas r f) → b = true) := by
  obtain ⟨D, d1, d2, d3, d4⟩ := ckBoundary_eq h he
  have hex : ∃ f, M.T.FaceHas f e := by
    by_contra hc
    rw [d3 fun f hf => hc ⟨f, hf⟩] at hb
    cases hb
  obtain ⟨R, r1, r2⟩ := d4 hex
  have key : (D.all (fun f => decide ((M.fc f).2 = (M.ec e).2)) && decide (D.length = 2)) = true ∧
      (R = none → b = true) := by
    rw [r2] at hb
    cases R with
    | none =>
      injection hb with hb
      injection hb with h1 h2
      exact ⟨h1, fun _ => h2.symm⟩
    | some R =>
      refine ⟨?_, fun hc => by cases hc⟩
      obtain ⟨_, _, hb⟩ := Res.bind_eq_ok.1 hb
      obtain ⟨_, _, hb⟩ := Res.bind_eq_ok.1 hb
      obtain ⟨_, _, hb⟩ := Res.bind_eq_ok.1 hb
      obtain ⟨_, _, hb⟩ := Res.bind_eq_ok.1 hb
      injection hb with hb
      injection hb with h1 h2
      rw [Bool.and_eq_true] at h1
      exact h1.1
  refine ⟨?_, fun hno => key.2 (r1.2 hno)⟩
  have hk := key.1
  rw [Bool.and_eq_true] at hk
  have hlen := of_decide_eq_true hk.2
  have hall := List.all_eq_true.1 hk.1
  match D, hlen, d1, d2, hall with
  | [x, y], _, d1, d2, hall =>
    have hx := (d2 x).1 (by simp)
    have hy := (d2 y).1 (by simp)
    refine ⟨x, y, by simpa using d1, hx.1, hy.1, Prod.ext hx.2 (of_decide_eq_true (hall x (by simp))),
      Prod.ext hy.2 (of_decide_eq_true (hall y (by simp))), fun f h1 h2 => ?_⟩
    simpa using (d2 f).2 ⟨h1, h2⟩

theorem ckEdge_sound {M : CkMesh} (h : M.Sound) {e : Nat} (he : e ∈ M.el) (hg : M.ge e = false)
    (hk : ckEdge M e = .ok true) :
    (∀ v, M.T.meVertex e false = .ok (some v) → Fits (M.ec e) (M.vc v)) ∧
    (((M.ec e).1 = 2 → ∀ f r, M.T.FaceHas f e → ¬ M.T.RegionHas r f) →
      ∀ v, M.T.meVertex e true = .ok (some v) → Fits (M.ec e) (M.vc v)) ∧
    ((M.ec e).1 = 2 → ∃ a b, TwoFaces M e a b) := by
  have hel := h.elive he
  obtain ⟨a, b, ha, hb, ha', hb'⟩ := ends_of h he
  have only0 : ∀ v, M.T.meVertex e false = .ok (some v) → v = a := by
    intro v hv; rw [ha'] at hv; injection hv with hv; injection hv with hv; exact hv.symm
  have only1 : ∀ v, M.T.meVertex e true = .ok (some v) → v = b := by
    intro v hv; rw [hb'] at hv; injection hv with hv; injection hv with hv; exact hv.symm
  unfold ckEdge at hk
  rw [if_neg (by simp [hg]), derefE_ok (alloc_of_live hel), Res.bind_ok, ckEnd_eq h he ha, Res.bind_ok] at hk
  by_cases hd : (M.ec e).1 = 2
  · rw [if_pos hd] at hk
    obtain ⟨p, p1, p2⟩ := Res.bind_eq_ok.1 hk
    rcases p with ⟨p, q⟩
    cases q with
    | false =>
      rw [if_neg (by simp)] at p2
      injection p2 with p2
      rw [Bool.and_eq_true] at p2
      have hp : p = true := p2.2
      subst hp
      obtain ⟨s1, s2⟩ := ckBoundary_sound h he p1
      refine ⟨fun v hv => ?_, fun hno v hv => ?_, fun _ => s1⟩
      · rw [only0 v hv]; exact edgeClsOk_iff.1 p2.1
      · have := s2 (hno hd); cases this
    | true =>
      rw [if_pos rfl, ckEnd_eq h he hb, Res.bind_ok, p1, Res.bind_ok] at p2
      injection p2 with p2
      simp only [Bool.and_eq_true] at p2
      have hp : p = true := p2.1.1.2
      subst hp
      obtain ⟨s1, s2⟩ := ckBoundary_sound h he p1
      refine ⟨fun v hv => ?_, fun hno v hv => ?_, fun _ => s1⟩
      · rw [only0 v hv]; exact edgeClsOk_iff.1 p2.1.1.1
      · rw [only1 v hv]; exact edgeClsOk_iff.1 p2.1.2
  · rw [if_neg hd, ckEnd_eq h he hb, Res.bind_ok] at hk
    injection hk with hk
    rw [Bool.and_eq_true] at hk
    refine ⟨fun v hv => ?_, fun _ v hv => ?_, fun hc => absurd hc hd⟩
    · rw [only0 v hv]; exact edgeClsOk_iff.1 hk.1
    · rw [only1 v hv]; exact edgeClsOk_iff.1 hk.2

/-! ### the properties -/

/-- **C63.** `MESH_CheckTopo` accepts every well formed mesh. -/
theorem C63_accepts {M : CkMesh} (h : WellFormed M) : checkTopo M = .ok true := by
  have hs := h.sound
  unfold checkTopo
  rw [allM_true (g := ckVertex M) fun v hv => by
      cases hg : M.gv v with
      | true => unfold ckVertex; rw [if_pos hg]
      | false => exact ckVertex_accepts hs hv hg (h.onFace v hv hg), Res.bind_ok,
    allM_true (g := ckEdge M) fun e he => by
      cases hg : M.ge e with
      | true => unfold ckEdge; rw [if_pos hg]
      | false => exact ckEdge_accepts hs he hg (h.edge e he hg) (h.edgeOnFace e he hg), Res.bind_ok,
    allM_true (g := ckFace M) fun f hf => by
      cases hg : M.gf f with
      | true => unfold ckFace; rw [if_pos hg]
      | false =>
        obtain ⟨a, h1, h2⟩ := ckFace_eq hs hf hg
        have ha : a = true := h2.2 fun e he h4 _ => by
          rcases h.face f hf hg e he h4 with hc | hc
          · omega
          · rw [hc]
        rw [h1, ha, decide_eq_true]
        · rfl
        · intro h3
          exact (two_regions hs.cons ((hs.fl.2 f).1 hf)).2 (h.inside f hf hg h3), Res.bind_ok,
    allM_true (g := ckRegion M) fun r hr => by
      cases hg : M.gr r with
      | true => unfold ckRegion; rw [if_pos hg]
      | false => exact ckRegion_accepts hs hr hg (h.shell r hr hg), Res.bind_ok]
  rfl

/-- **C63, the other direction.** What an accepted mesh is known to satisfy (see the counterexamples
below for what it is not). -/
theorem C63_sound_partial {M : CkMesh} (hs : M.Sound) (h : checkTopo M = .ok true) : Checked M := by
  unfold checkTopo at h
  obtain ⟨a, hv, h⟩ := Res.bind_eq_ok.1 h
  obtain ⟨b, he, h⟩ := Res.bind_eq_ok.1 h
  obtain ⟨c, hf, h⟩ := Res.bind_eq_ok.1 h
  obtain ⟨d, hr, h⟩ := Res.bind_eq_ok.1 h
  injection h with h
  simp only [Bool.and_eq_true] at h
  obtain ⟨⟨⟨rfl, rfl⟩, rfl⟩, rfl⟩ := h
  have hv := allM_inv hv
  have he := allM_inv he
  have hf := allM_inv hf
  have hr := allM_inv hr
  have hface : ∀ f ∈ M.fl, M.gf f = false →
      (∀ e, M.T.FaceHas f e → (M.ec e).1 ≠ 4 → (M.fc f).1 ≠ 4 → (M.ec e).1 ≤ (M.fc f).1) ∧
      ((M.fc f).1 = 3 → ∃ r s, r ≠ s ∧ M.T.RegionHas r f ∧ M.T.RegionHas s f) := by
    intro f hfl hg
    obtain ⟨a, h1, h2⟩ := ckFace_eq hs hfl hg
    have := hf f hfl
    rw [h1] at this
    injection this with this
    rw [Bool.and_eq_true] at this
    exact ⟨h2.1 this.1, fun h3 => (two_regions hs.cons ((hs.fl.2 f).1 hfl)).1 (of_decide_eq_true this.2 h3)⟩
  refine {
    edge0 := fun e hl hg => (ckEdge_sound hs hl hg (he e hl)).1
    edge1 := fun e hl hg => (ckEdge_sound hs hl hg (he e hl)).2.1
    edgeOnFace := fun e hl hg => (ckEdge_sound hs hl hg (he e hl)).2.2
    face := fun f hl hg => (hface f hl hg).1
    inside := fun f hl hg => (hface f hl hg).2
    closed := ?_, alike := ?_, onFace := ?_ }
  · intro r hl hg f d e b h1 h2
    obtain ⟨g, d', b', p1, p2, p3, -⟩ := ckRegion_sound hs hl hg (hr r hl) h1 h2
    exact ⟨g, d', b', p1, p2, p3⟩
  · intro r hl hg f d e b g d' b' h1 h2 h3 h4 h5 h6
    have hrl := (hs.rl.2 r).1 hl
    obtain ⟨g2, d2, b2, p1, p2, p3, p4⟩ := ckRegion_sound hs hl hg (hr r hl) h1 h2
    have hgg := (h6 g2 d2 b2 p1 p3).resolve_left p2
    subst hgg
    rw [faces_dir_unique hs hrl h3 p1, edges_dir_unique hs (hs.cons.fr.down r g2 d' hrl h3) h5 p3] at p4
    exact p4
  · intro v hl hg h2 hex
    obtain ⟨fs, f1, f2, f3⟩ := ckVertex_eq hs hl hg
    have := hv v hl
    rw [f3, if_pos ⟨f2.2 hex, h2⟩] at this
    split at this
    · cases this
    · cases hfi : fs.find? (fun f => decide ((M.fc f).1 = 2)) with
      | none => rw [hfi] at this; cases this
      | some f =>
        obtain ⟨e, e1, e2⟩ := (f1 f).1 (List.mem_of_find?_eq_some hfi)
        exact ⟨e, f, e1, e2, by simpa using List.find?_some hfi⟩

/-! ### an example -/

/-- `Corner` for given edges -/
def cornerB (T : Topo) (f v a b : Nat) : Bool :=
  match T.mfEdges f true (some v) with
  | .ok es => decide (es.head? = some a) && decide (es.getLast? = some b)
  | _ => false

theorem cornerB_sound {T : Topo} {f v a b : Nat} (h : cornerB T f v a b = true) : T.Corner f v a b := by
  unfold cornerB at h
  cases he : T.mfEdges f true (some v) with
  | ok es => rw [he] at h; rw [Bool.and_eq_true] at h; exact ⟨es, he, of_decide_eq_true h.1, of_decide_eq_true h.2⟩
  | ub => rw [he] at h; cases h
  | fatal => rw [he] at h; cases h
  | hang => rw [he] at h; cases h

/-- `Ring` for given lists of faces and edges, all faces with regions -/
def ringB (M : CkMesh) (v : Nat) (fs es : List Nat) : Bool :=
  let n := fs.length
  let F := fun i => fs.getD (i % n) 0
  let E := fun i => es.getD (i % n) 0
  decide (2 ≤ n) && decide (es.length = n) && decide es.Nodup &&
  (List.range n).all fun i =>
    decide (M.T.sf (F i) = .live) && decide (M.fc (F i) = (2, (M.vc v).2)) &&
    (cornerB M.T (F (i+1)) v (E i) (E (i+1)) || cornerB M.T (F (i+1)) v (E (i+1)) (E i)) &&
    decide (F i ≠ F (i+1)) && decide (M.T.se (E i) = .live) &&
    (M.T.ef (E i)).all (fun f => decide (M.fc f = (2, (M.vc v).2) → f = F i ∨ f = F (i+1))) &&
    decide (F i ∈ M.T.ef (E i)) && decide (F (i+1) ∈ M.T.ef (E i)) &&
    ((M.T.fr (F i)).1.isSome || (M.T.fr (F i)).2.isSome)

theorem emod_succ (k : Int) {n : Nat} (hn : 2 ≤ n) : ((k + 1) % n).toNat = ((k % n).toNat + 1) % n := by
  have h0 := Int.emod_nonneg k (show (n : Int) ≠ 0 by omega)
  have h1 := Int.emod_nonneg (k+1) (show (n : Int) ≠ 0 by omega)
  apply Int.ofNat.inj
  show (((k+1) % n).toNat : Int) = (((k % n).toNat + 1) % n : Nat)
  rw [Int.toNat_of_nonneg h1, Int.natCast_mod, Int.natCast_add, Int.toNat_of_nonneg h0]
  exact (Int.emod_add_emod k n 1).symm

theorem ringB_sound {M : CkMesh} (h : M.T.Consistent) {v : Nat} {fs es : List Nat} (hb : ringB M v fs es = true) :
    Ring M v (M.vc v).2 fs.length (fun k => fs.getD (k % fs.length).toNat 0) (fun k => es.getD (k % fs.length).toNat 0) := by
  unfold ringB at hb
  simp only [Bool.and_eq_true, decide_eq_true_iff, List.all_eq_true, List.mem_range, Bool.or_eq_true] at hb
  obtain ⟨⟨⟨h2, hlen⟩, hnd⟩, hall⟩ := hb
  have hpos : (0 : Int) < fs.length := by omega
  have hidx : ∀ k : Int, (k % fs.length).toNat < fs.length := by
    intro k
    have := Int.emod_lt_of_pos k hpos
    have := Int.emod_nonneg k (show (fs.length : Int) ≠ 0 by omega)
    omega
  have hF : ∀ (l : List Nat) (k : Int), l.getD ((k % fs.length).toNat % fs.length) 0 = l.getD (k % fs.length).toNat 0 := by
    intro l k; rw [Nat.mod_eq_of_lt (hidx k)]
  have hF1 : ∀ (l : List Nat) (k : Int), l.getD (((k % fs.length).toNat + 1) % fs.length) 0 =
      l.getD ((k+1) % fs.length).toNat 0 := by
    intro l k; rw [emod_succ k h2]
  have key := fun k : Int => by
    have := hall _ (hidx k)
    simp only [hF, hF1] at this
    exact this
  refine { two := h2, periodF := ?_, periodE := ?_, inj := ?_, live := ?_, cls := ?_, corner := ?_, ne := ?_,
           around := ?_, at0 := ?_, at1 := ?_, orient := ?_ }
  · intro k; rw [Int.add_emod_right]
  · intro k; rw [Int.add_emod_right]
  · intro i j hij
    have a : (i % fs.length).toNat < es.length := Nat.lt_of_lt_of_eq (hidx i) hlen.symm
    have b : (j % fs.length).toNat < es.length := Nat.lt_of_lt_of_eq (hidx j) hlen.symm
    have e1 : es[(i % fs.length).toNat]? = es[(j % fs.length).toNat]? := by
      rw [List.getD_eq_getElem?_getD, List.getD_eq_getElem?_getD, List.getElem?_eq_getElem a,
        List.getElem?_eq_getElem b] at hij
      rw [List.getElem?_eq_getElem a, List.getElem?_eq_getElem b]
      exact congrArg some hij
    have e2 := (List.getElem?_inj a hnd).1 e1
    have e3 : i % fs.length = j % fs.length := by
      have := Int.emod_nonneg i (show (fs.length : Int) ≠ 0 by omega)
      have := Int.emod_nonneg j (show (fs.length : Int) ≠ 0 by omega)
      omega
    exact Int.dvd_of_emod_eq_zero (Int.emod_eq_emod_iff_emod_sub_eq_zero.1 e3)
  · intro k; exact (key k).1.1.1.1.1.1.1.1
  · intro k; exact (key k).1.1.1.1.1.1.1.2
  · intro k
    have := (key (k-1)).1.1.1.1.1.1.2
    rw [show k - 1 + 1 = k by omega] at this
    exact this.imp cornerB_sound cornerB_sound
  · intro k; exact (key k).1.1.1.1.1.2
  · intro k f hf hc
    have hel := (key k).1.1.1.1.2
    exact (key k).1.1.1.2 f ((h.mem_ef hel).2 hf) hc
  · intro k; exact (h.mem_ef (key k).1.1.1.1.2).1 (key k).1.1.2
  · intro k; exact (h.mem_ef (key k).1.1.1.1.2).1 (key k).1.2
  · refine Or.inr fun k => ?_
    have hl := (key k).1.1.1.1.1.1.1.1
    rcases (key k).2 with hc | hc
    · obtain ⟨r, hr⟩ := Option.isSome_iff_exists.1 hc
      exact ⟨r, (h.mem_fr hl).1 (Or.inl (by rw [hr]; simp))⟩
    · obtain ⟨r, hr⟩ := Option.isSome_iff_exists.1 hc
      exact ⟨r, (h.mem_fr hl).1 (Or.inr (by rw [hr]; simp))⟩

/-- `RingAt` for given lists -/
def ringAtB (M : CkMesh) (v : Nat) (fs es : List Nat) : Bool :=
  ringB M v fs es && (M.T.ve v).any (fun e => (M.T.ef e).any fun f => decide ((M.fc f).1 = 2)) &&
  (M.T.ve v).all (fun e => (M.T.ef e).all fun f => decide ((M.fc f).1 = 2 → f ∈ fs))

theorem ringAtB_sound {M : CkMesh} (h : M.T.Consistent) {v : Nat} {fs es : List Nat} (hv : M.T.sv v = .live)
    (hb : ringAtB M v fs es = true) : RingAt M v := by
  unfold ringAtB at hb
  simp only [Bool.and_eq_true, List.any_eq_true, List.all_eq_true, decide_eq_true_iff] at hb
  obtain ⟨⟨h1, e, he, f, hf, hd⟩, h3⟩ := hb
  have hel : ∀ e ∈ M.T.ve v, M.T.se e = .live := fun e he => ((h.mem_ve hv).1 he).1
  refine ⟨⟨e, f, (h.mem_ve hv).1 he, (h.mem_ef (hel e he)).1 hf, hd⟩, _, _, _, ringB_sound h h1, ?_⟩
  intro e f he hf hd
  have he' := (h.mem_ve hv).2 he
  have hm := h3 e he' f ((h.mem_ef (hel e he')).2 hf) hd
  obtain ⟨i, hi⟩ := List.mem_iff_getElem?.1 hm
  have hlt := (List.getElem?_eq_some_iff.1 hi).1
  refine ⟨(i : Int), ?_⟩
  rw [Int.emod_eq_of_lt (by omega) (by omega), Int.toNat_natCast, List.getD_eq_getElem?_getD, hi]
  rfl

/-- `Fan` for given lists of faces and regions -/
def fanB (T : Topo) (e a b r : Nat) (fs rs : List Nat) : Bool :=
  let F := fun i => fs.getD i 0
  let R := fun i => rs.getD i 0
  let m := rs.length
  decide (0 < m) && decide (m ≤ 1000) && decide (F 0 = a) && decide (R 0 = r) && decide (F m = b) &&
  (List.range m).all fun k =>
    decide (F k ≠ b) && decide (F k ≠ F (k+1)) && decide (k + 1 < m → R k ≠ R (k+1)) &&
    decide (T.sr (R k) = .live) && decide (∀ f ∈ (T.rf (R k)).getD [], e ∈ (T.fe f).getD [] → f = F k ∨ f = F (k+1)) &&
    decide (F k ∈ (T.rf (R k)).getD []) && decide (F (k+1) ∈ (T.rf (R k)).getD []) &&
    decide (T.sf (F k) = .live) && decide (e ∈ (T.fe (F k)).getD []) &&
    decide (T.sf (F (k+1)) = .live) && decide (e ∈ (T.fe (F (k+1))).getD []) &&
    decide (k + 1 < m → ∀ s ∈ (T.fr (F (k+1))).1.toList ++ (T.fr (F (k+1))).2.toList, s = R k ∨ s = R (k+1)) &&
    decide (k + 1 < m → T.sr (R (k+1)) = .live ∧ F (k+1) ∈ (T.rf (R (k+1))).getD [])

theorem fanB_sound {T : Topo} (h : T.Consistent) {e a b r : Nat} {fs rs : List Nat} (hb : fanB T e a b r fs rs = true) :
    ∃ m F R, Fan T e a b r m F R := by
  unfold fanB at hb
  simp only [Bool.and_eq_true, List.all_eq_true, decide_eq_true_iff, List.mem_range] at hb
  obtain ⟨⟨⟨⟨⟨h1, h2⟩, h3⟩, h4⟩, h5⟩, hall⟩ := hb
  refine ⟨rs.length, fun i => fs.getD i 0, fun i => rs.getD i 0, h1, h2, h3, h4, h5, ?_, ?_, ?_, ?_, ?_⟩
  · intro k hk; exact (hall k hk).1.1.1.1.1.1.1.1.1.1.1.1
  · intro k hk; exact (hall k hk).1.1.1.1.1.1.1.1.1.1.1.2
  · intro k hk; exact (hall k (by omega)).1.1.1.1.1.1.1.1.1.1.2 hk
  · intro k hk f
    obtain ⟨⟨⟨⟨⟨⟨⟨⟨⟨⟨-, a1⟩, a2⟩, a3⟩, a4⟩, a5⟩, a6⟩, a7⟩, a8⟩, -⟩, -⟩ := hall k hk
    constructor
    · rintro ⟨x, y⟩
      exact a2 f ((RegionHas_iff h).1 x).2 (FaceHas_iff.1 y).2
    · rintro (rfl | rfl)
      · exact ⟨(RegionHas_iff h).2 ⟨a1, a3⟩, FaceHas_iff.2 ⟨a5, a6⟩⟩
      · exact ⟨(RegionHas_iff h).2 ⟨a1, a4⟩, FaceHas_iff.2 ⟨a7, a8⟩⟩
  · intro k hk s
    obtain ⟨⟨⟨⟨⟨⟨⟨⟨⟨⟨-, a1⟩, a2⟩, a3⟩, a4⟩, a5⟩, a6⟩, a7⟩, a8⟩, a9⟩, a10⟩ := hall k (by omega)
    constructor
    · intro hs
      refine a9 hk s ?_
      rw [List.mem_append]
      have := (h.mem_fr a7).2 hs
      rcases this with hc | hc
      · exact Or.inl (by simpa using hc)
      · exact Or.inr (by simpa using hc)
    · rintro (rfl | rfl)
      · exact (RegionHas_iff h).2 ⟨a1, a4⟩
      · exact (RegionHas_iff h).2 (a10 hk)

/-- `FansAt` for given faces and fans -/
def fansAtB (M : CkMesh) (e a b : Nat) (tab : Nat → Nat → List Nat × List Nat) : Bool :=
  decide (a ≠ b) && decide (a ∈ M.T.ef e) && decide (b ∈ M.T.ef e) && decide (M.fc a = (2, (M.ec e).2)) &&
  decide (M.fc b = (2, (M.ec e).2)) && decide (∀ f ∈ M.T.ef e, (M.fc f).1 = 2 → f = a ∨ f = b) &&
  [(a, b), (b, a)].all fun p =>
    decide ((M.T.fr p.1).1.toList ++ (M.T.fr p.1).2.toList ≠ []) &&
    ((M.T.fr p.1).1.toList ++ (M.T.fr p.1).2.toList).all fun r =>
      fanB M.T e p.1 p.2 r (tab p.1 r).1 (tab p.1 r).2

theorem fansAtB_sound {M : CkMesh} (h : M.T.Consistent) {e a b : Nat} {tab : Nat → Nat → List Nat × List Nat}
    (he : M.T.se e = .live) (hb : fansAtB M e a b tab = true) : FansAt M e := by
  unfold fansAtB at hb
  simp only [Bool.and_eq_true, List.all_eq_true, decide_eq_true_iff] at hb
  obtain ⟨⟨⟨⟨⟨⟨h1, h2⟩, h3⟩, h4⟩, h5⟩, h6⟩, h7⟩ := hb
  have hm := fun f => h.mem_ef he (f := f)
  refine ⟨a, b, ⟨h1, (hm a).1 h2, (hm b).1 h3, h4, h5, fun f hf => h6 f ((hm f).2 hf)⟩, fun _ x y hxy => ?_⟩
  have hp : (x, y) ∈ [(a, b), (b, a)] := by
    rcases hxy with ⟨rfl, rfl⟩ | ⟨rfl, rfl⟩ <;> simp
  have hxl : M.T.sf x = .live := by
    rcases hxy with ⟨rfl, rfl⟩ | ⟨rfl, rfl⟩
    · exact ((hm _).1 h2).1
    · exact ((hm _).1 h3).1
  have hr : ∀ r, r ∈ (M.T.fr x).1.toList ++ (M.T.fr x).2.toList ↔ M.T.RegionHas r x := by
    intro r; rw [List.mem_append, ← h.mem_fr hxl]; try simp
  obtain ⟨k1, k2⟩ := h7 _ hp
  obtain ⟨r, hr'⟩ := List.exists_mem_of_ne_nil _ k1
  exact ⟨⟨r, (hr r).1 hr'⟩, fun r hrx => fanB_sound h (k2 r ((hr r).2 hrx))⟩

/-- `Shell` -/
def shellB (T : Topo) (r : Nat) : Bool :=
  (T.view.faces r).all fun p => (T.view.edges p.1).all fun q =>
    (T.view.faces r).any fun p' => (T.view.edges p'.1).any fun q' =>
      decide (p'.1 ≠ p.1) && decide (q'.1 = q.1) && decide (way p.2 q.2 ≠ way p'.2 q'.2) &&
      (T.view.faces r).all fun p'' => (T.view.edges p''.1).all fun q'' =>
        decide (q''.1 = q.1 → p''.1 = p.1 ∨ p''.1 = p'.1)

theorem shellB_sound {T : Topo} {r : Nat} (h : shellB T r = true) : T.Shell r := by
  unfold shellB at h
  simp only [Bool.and_eq_true, List.all_eq_true, List.any_eq_true, decide_eq_true_iff] at h
  intro f d e b hf he
  obtain ⟨⟨g, d'⟩, hg, ⟨e', b'⟩, he', ⟨⟨h1, h2⟩, h3⟩, h4⟩ := h (f, d) hf (e, b) he
  have h2' : e' = e := h2
  subst h2'
  exact ⟨g, d', b', hg, h1, he', h3, fun x d'' b'' hx hxe => h4 (x, d'') hx (e', b'') hxe rfl⟩

/-- Two tetrahedra (`twoTets`) with all vertices, edges and outer faces on model face 1. -/
def ckTets (T : Topo) : CkMesh where
  T := T
  vl := [0,1,2,3,4]
  el := [8,7,6,5,4,3,2,1,0]
  fl := [0,1,2,3,4,5,6]
  rl := [1,0]
  vc := fun _ => (2, 1)
  ec := fun _ => (2, 1)
  fc := fun f => if f = 0 then (3, 1) else (2, 1)
  gv := fun _ => false
  ge := fun _ => false
  gf := fun _ => false
  gr := fun _ => false

/-- the faces and edges around the vertices -/
def tetRings : Nat → List Nat × List Nat
  | 0 => ([1,3,6,4], [4,2,7,0])
  | 1 => ([1,2,5,4], [3,1,6,0])
  | 2 => ([2,3,6,5], [5,2,8,1])
  | 3 => ([1,3,2], [4,5,3])
  | _ => ([4,6,5], [7,8,6])

/-- the faces with dimension 2 at the edges -/
def tetSides : Nat → Nat × Nat
  | 0 => (1, 4)
  | 1 => (2, 5)
  | 2 => (3, 6)
  | 3 => (1, 2)
  | 4 => (1, 3)
  | 5 => (2, 3)
  | 6 => (4, 5)
  | 7 => (4, 6)
  | _ => (5, 6)

/-- the faces and regions from face `x` around edge `e` -/
def tetFans (e x r : Nat) : List Nat × List Nat :=
  let y := if (tetSides e).1 = x then (tetSides e).2 else (tetSides e).1
  if e < 3 then ([x, 0, y], [r, 1 - r]) else ([x, y], [r])

/-- They meet the hypotheses of `C63_accepts` (fans of two regions, rings of three and four faces). -/
example : ∃ T, empty.run twoTets = .ok T ∧ WellFormed (ckTets T) := by
  obtain ⟨T, h1, h2⟩ := reachable (os := twoTets) (by decide +kernel)
  have hq : answer twoTets (fun T => .ok (
      listsB [0,1,2,3,4] T.sv T.nv && listsB [8,7,6,5,4,3,2,1,0] T.se T.ne && listsB [0,1,2,3,4,5,6] T.sf T.nf &&
      listsB [1,0] T.sr T.nr && [8,7,6,5,4,3,2,1,0].all (fun e => (T.ev e).1.isSome && (T.ev e).2.isSome) &&
      [0,1,2,3,4,5,6].all (fun f => (T.fe f).isSome && decide ((T.fe f).getD []).Nodup &&
        decide (((T.fe f).getD []).length ≤ 64)) &&
      [1,0].all (fun r => (T.rf r).isSome) && decide (T.fr 0 = (some 1, some 0)) &&
      [0,1].all (fun r => shellB T r) &&
      [0,1,2,3,4].all (fun v => ringAtB (ckTets T) v (tetRings v).1 (tetRings v).2) &&
      [8,7,6,5,4,3,2,1,0].all (fun e => fansAtB (ckTets T) e (tetSides e).1 (tetSides e).2 (tetFans e)))) =
      .ok true := by decide +kernel
  unfold answer at hq
  rw [h1, Res.bind_ok, Res.ok.injEq] at hq
  simp only [Bool.and_eq_true, List.all_eq_true, decide_eq_true_iff] at hq
  obtain ⟨⟨⟨⟨⟨⟨⟨⟨⟨⟨q1, q2⟩, q3⟩, q4⟩, q5⟩, q6⟩, q7⟩, q8⟩, q9⟩, q10⟩, q11⟩ := hq
  have lv := listsB_sound q1 h2.newV
  have le := listsB_sound q2 h2.newE
  have lf := listsB_sound q3 h2.newF
  have lr := listsB_sound q4 h2.newR
  refine ⟨T, h1, ⟨h2, lv, le, lf, lr, ?_, ?_, fun r hr => Option.isSome_iff_exists.1 (q7 r hr)⟩, ?_, ?_, ?_, ?_, ?_, ?_⟩
  · intro e he
    obtain ⟨a, ha⟩ := Option.isSome_iff_exists.1 (q5 e he).1
    obtain ⟨b, hb⟩ := Option.isSome_iff_exists.1 (q5 e he).2
    exact ⟨a, b, Prod.ext ha hb⟩
  · intro f hf
    obtain ⟨⟨a, b⟩, c⟩ := q6 f hf
    obtain ⟨l, hl⟩ := Option.isSome_iff_exists.1 a
    refine ⟨l, hl, ?_, ?_⟩
    · rw [hl] at b; exact b
    · rw [hl] at c; exact c
  · intro e _ _ v _ _; exact Or.inr rfl
  · intro f _ _ e _ _
    show (2 : Int) < (if f = 0 then ((3 : Int), (1 : Int)) else (2, 1)).1 ∨ _ = ((2 : Int), (1 : Int))
    by_cases hf : f = 0
    · left; rw [if_pos hf]; decide
    · right; show (if f = 0 then ((3 : Int), (1 : Int)) else (2, 1)) = _; rw [if_neg hf]
  · intro f hf _ hc
    have hf0 : f = 0 := by
      by_contra hne
      have : (if f = 0 then ((3 : Int), (1 : Int)) else (2, 1)).1 = 3 := hc
      rw [if_neg hne] at this
      cases this
    subst hf0
    refine (two_regions h2 ((lf.2 0).1 hf)).1 ?_
    show ((T.fr 0).1.toList ++ (T.fr 0).2.toList).length = 2
    rw [q8]; rfl
  · intro r hr _
    have hr' : r ∈ [1, 0] := hr
    exact shellB_sound (q9 r (by simpa [or_comm] using hr'))
  · intro v hv _ _ _
    exact ringAtB_sound (M := ckTets T) h2 ((lv.2 v).1 hv) (q10 v hv)
  · intro e he _ _
    exact fansAtB_sound (M := ckTets T) h2 ((le.2 e).1 he) (q11 e he)

/-! ### what is accepted although it is wrong, and what is not answered -/

/-- A mesh with all entities in the order of creation and no ghosts. -/
def ckAll (T : Topo) (vc ec fc : Nat → Int × Int) : CkMesh where
  T := T
  vl := List.range T.nv
  el := List.range T.ne
  fl := List.range T.nf
  rl := List.range T.nr
  vc := vc
  ec := ec
  fc := fc
  gv := fun _ => false
  ge := fun _ => false
  gf := fun _ => false
  gr := fun _ => false

/-- A tetrahedron whose vertex 3 is the second vertex of all its edges. -/
def apexTet : List Op :=
  [.newVertex, .newVertex, .newVertex, .newVertex, .newEdge, .setVertex 0 false 0, .setVertex 0 true 3,
   .newEdge, .setVertex 1 false 1, .setVertex 1 true 3, .newEdge, .setVertex 2 false 2, .setVertex 2 true 3,
   .newFace, .setVertices 0 [0,1,2], .newFace, .setVertices 1 [0,1,3], .newFace, .setVertices 2 [1,2,3],
   .newFace, .setVertices 3 [2,0,3], .newRegion, .setFaces 0 [(0,false),(1,true),(2,true),(3,true)]]

/-- **C63 does not hold in the other direction, first case.** Vertex 3 is classified in the interior
of a model region although its edges lie on a model face: accepted, since the second vertex of such
edges is not looked at.  The same mistake at vertex 2 is found. -/
theorem C63_negation_second_vertex :
    answer apexTet (fun T => checkTopo (ckAll T (fun v => if v = 3 then (3, 7) else (2, 1)) (fun _ => (2, 1))
      (fun _ => (2, 1)))) = .ok true ∧
    ¬ Fits (2, 1) (3, 7) ∧
    answer apexTet (fun T => .ok (decide (T.ev 0 = (some 0, some 3)))) = .ok true ∧
    answer apexTet (fun T => checkTopo (ckAll T (fun v => if v = 2 then (3, 7) else (2, 1)) (fun _ => (2, 1))
      (fun _ => (2, 1)))) = .ok false := by
  refine ⟨by decide +kernel, ?_, by decide +kernel, by decide +kernel⟩
  intro h
  rcases h (by decide) with h | h
  · exact absurd h (by decide)
  · exact absurd h (by decide)

/-- **Second case.** Edges and faces on different model edges: accepted. -/
theorem C63_negation_same_dimension :
    answer apexTet (fun T => checkTopo (ckAll T (fun _ => (4, 0)) (fun e => (1, e)) (fun f => (1, f + 9)))) = .ok true ∧
    ¬ Fits (1, 9) (1, 0) := by
  refine ⟨by decide +kernel, fun h => ?_⟩
  rcases h (by decide) with h | h
  · exact absurd h (by decide)
  · exact absurd h (by decide)

/-- **Third case.** An edge with the same vertex twice: accepted. -/
theorem C63_negation_degenerate_edge :
    answer [.newVertex, .newEdge, .setVertex 0 false 0, .setVertex 0 true 0] (fun T =>
      checkTopo (ckAll T (fun _ => (4, 0)) (fun _ => (4, 0)) (fun _ => (4, 0)))) = .ok true := by decide +kernel

/-- Three triangles around vertex 0. -/
def cone (a b : Nat) : List Op :=
  [.newVertex, .newVertex, .newVertex, .newVertex, .newFace, .setVertices 0 [0,1,2], .newFace,
   .setVertices 1 [0,2,3], .newFace, .setVertices 2 [0,a,b]]

/-- **A surface mesh whose faces are not oriented alike** is not reported: the routine reads through a
NULL pointer.  When they are oriented alike it is accepted. -/
theorem C63_negation_flipped_face :
    answer (cone 1 3) (fun T => checkTopo (ckAll T (fun v => if v = 0 then (2, 1) else (1, 1))
      (fun e => if e = 0 ∨ e = 2 ∨ e = 4 then (2, 1) else (1, 1)) (fun _ => (2, 1)))) = .ub ∧
    answer (cone 3 1) (fun T => checkTopo (ckAll T (fun v => if v = 0 then (2, 1) else (1, 1))
      (fun e => if e = 0 ∨ e = 2 ∨ e = 4 then (2, 1) else (1, 1)) (fun _ => (2, 1)))) = .ok true := by
  constructor <;> decide +kernel

/-- **A vertex on a model face without a face there** is not reported: `MF_Edges` is called with
NULL. -/
theorem C63_negation_no_face {M : CkMesh} (h : M.Sound) {v : Nat} (hv : v ∈ M.vl) (hg : M.gv v = false)
    (hd : (M.vc v).1 = 2) (he : ∃ e, M.T.EdgeHas e v)
    (hf : ∀ e f, M.T.EdgeHas e v → M.T.FaceHas f e → (M.fc f).1 ≠ 2) : ckVertex M v = .ub := by
  obtain ⟨fs, h1, h2, h3⟩ := ckVertex_eq h hv hg
  rw [h3, if_pos ⟨h2.2 he, hd⟩]
  split
  · rfl
  · have : fs.find? (fun f => decide ((M.fc f).1 = 2)) = none := by
      rw [List.find?_eq_none]
      intro f hm
      obtain ⟨e, e1, e2⟩ := (h1 f).1 hm
      simpa using hf e f e1 e2
    rw [this]; rfl

/-- **A region that is not closed** is not reported: `MF_EdgeDir` fails or memory beyond the end of an
array is read. -/
theorem C63_negation_open_region :
    answer [.newVertex, .newVertex, .newVertex, .newFace, .setVertices 0 [0,1,2], .newRegion,
      .setFaces 0 [(0,true)]] (fun T => checkTopo (ckAll T (fun _ => (4, 0)) (fun _ => (4, 0)) (fun _ => (4, 0)))) = .ub ∧
    answer [.newVertex, .newVertex, .newVertex, .newVertex, .newFace, .setVertices 0 [0,1,2], .newFace,
      .setVertices 1 [0,1,3], .newRegion, .setFaces 0 [(0,true),(1,true)]]
      (fun T => checkTopo (ckAll T (fun _ => (4, 0)) (fun _ => (4, 0)) (fun _ => (4, 0)))) = .fatal := by
  constructor <;> decide +kernel

end Topo
end MSTK
