import Verif.TemplateModel
import Mathlib.Data.List.Perm.Basic
/-!
C28 (standard element tables are consistent) and C41 (element type matches the faces).
-/
namespace MSTK

/-! ### Specification: a closed polyhedron given by vertex numbers -/

/-- What a table of a polyhedron says: the number of vertices, the edges (tail, head), the faces as
vertex cycles, the same faces as cycles of (edge number, direction: 1 along the edge, 0 against it),
and the direction in which the solid uses each face. -/
structure Poly where
  nv : Nat
  edges : List (Int × Int)
  faces : List (List Int)
  fedges : List (List (Int × Int))
  fdirs : List Int
  deriving DecidableEq

/-- The ends of edge `p.1` in the sense `p.2`. -/
def Poly.ends (P : Poly) (p : Int × Int) : Option (Int × Int) :=
  (P.edges[p.1.toNat]?).bind fun e =>
    if p.1 < 0 then none else if p.2 = 1 then some e else if p.2 = 0 then some (e.2, e.1) else none

/-- The consecutive vertex pairs of a cycle, starting at position `s`. -/
def cyclePairs (c : List Int) (s : Nat) : List (Int × Int) :=
  (c.rotate s).zip (c.rotate (s+1))

/-- The edge list of face `i` walks round the vertex cycle of face `i`, from position `s`. -/
def Poly.walks (P : Poly) (i s : Nat) : Prop :=
  ∃ es ∈ P.fedges[i]?, ∃ c ∈ P.faces[i]?, es.map P.ends = (cyclePairs c s).map some

instance (P : Poly) (i s : Nat) : Decidable (P.walks i s) := by
  unfold Poly.walks; infer_instance

/-- How often edge `j` is used in sense `d` (relative to the solid) over all faces. -/
def Poly.uses (P : Poly) (j d : Int) : Nat :=
  ((P.fedges.zip P.fdirs).map fun x =>
    x.1.countP fun p => p.1 = j ∧ (if x.2 = 1 then p.2 else 1 - p.2) = d).sum

/-- A closed, consistently oriented polyhedron with the combinatorics of a sphere. -/
structure Poly.Closed (P : Poly) : Prop where
  /-- same number of faces in every table -/
  sameFaces : P.fedges.length = P.faces.length ∧ P.fdirs.length = P.faces.length
  /-- faces are simple cycles of at least three vertices of the element -/
  simple : ∀ c ∈ P.faces, 3 ≤ c.length ∧ c.Nodup ∧ ∀ v ∈ c, 0 ≤ v ∧ v < P.nv
  /-- every vertex is on a face -/
  covers : ∀ v < P.nv, ∃ c ∈ P.faces, (v : Int) ∈ c
  /-- edges join two different vertices of the element -/
  edgeEnds : ∀ e ∈ P.edges, e.1 ≠ e.2 ∧ 0 ≤ e.1 ∧ e.1 < P.nv ∧ 0 ≤ e.2 ∧ e.2 < P.nv
  /-- no two edges join the same vertices -/
  edgesDistinct : P.edges.Pairwise fun e f => e ≠ f ∧ e ≠ (f.2, f.1)
  /-- the edges of a face join its consecutive vertices, all the way round -/
  walk : ∀ i < P.faces.length, ∃ s < 4, P.walks i s
  /-- each edge is used by exactly two faces, once in each sense -/
  twice : ∀ j < P.edges.length, P.uses j 1 = 1 ∧ P.uses j 0 = 1
  /-- Euler's formula V + F = E + 2 -/
  euler : P.nv + P.faces.length = P.edges.length + 2

/-- The polyhedron that the tables of MSTK describe for an element type; `nv` is the number of
vertices for which `MR_Set_Vertices` picks that type. -/
def tablePoly (ty : MRType) (nv : Nat) : Option Poly := do
  return ⟨nv, ← Tmpl.edges ty, ← Tmpl.faces ty, ← Tmpl.faceEdges ty, ← Tmpl.faceDirs ty⟩

/-- The faces one expects, as sizes. -/
def expectedSizes : MRType → List Nat
  | .tet => [3,3,3,3]
  | .pyramid => [4,3,3,3,3]
  | .prism => [3,3,4,4,4]
  | .hex => [4,4,4,4,4,4]
  | _ => []

/-- **C28.** For every number of vertices for which MR_Set_Vertices builds a standard element, the
tables are complete for the element type chosen, have the number of faces it uses, and describe a
closed polyhedron. -/
theorem C28_tables_consistent (nv : Nat) (ty : MRType) (nf : Int)
    (h : Tmpl.setVerticesType nv = .ok (ty, nf)) :
    ∃ P, tablePoly ty nv = some P ∧ (P.faces.length : Int) = nf ∧ P.Closed ∧
      (P.faces.map List.length).Perm (expectedSizes ty) ∧ Tmpl.nv2rtype[nv]? = some ty := by
  unfold Tmpl.setVerticesType at h
  split at h <;> simp only [Res.ok.injEq, Prod.mk.injEq, reduceCtorEq] at h
  all_goals
    obtain ⟨rfl, rfl⟩ := h
    refine ⟨_, rfl, by decide, ⟨by decide, by decide, by decide, by decide, by decide, by decide, by decide, by decide⟩, by decide, by decide⟩

/-- Which nv have a standard element: exactly 4, 5, 6 and 8. -/
theorem C28_which (nv : Nat) :
    (∃ r, Tmpl.setVerticesType nv = .ok r) ↔ nv = 4 ∨ nv = 5 ∨ nv = 6 ∨ nv = 8 := by
  unfold Tmpl.setVerticesType
  split <;> simp_all

/-- Position by position, the k-th edge of a face starts at its k-th vertex, in every table but one:
the fourth face of the tet, whose edge row starts one vertex earlier than its vertex row. -/
theorem C28_positions (nv : Nat) (ty : MRType) (nf : Int) (P : Poly)
    (h : Tmpl.setVerticesType nv = .ok (ty, nf)) (hP : tablePoly ty nv = some P)
    (i : Nat) (hi : i < P.faces.length) : P.walks i 0 ↔ ¬ (ty = .tet ∧ i = 3) := by
  unfold Tmpl.setVerticesType at h
  split at h <;> simp only [Res.ok.injEq, Prod.mk.injEq, reduceCtorEq] at h
  all_goals
    obtain ⟨rfl, rfl⟩ := h
    cases hP
    revert i
    decide

example : ∃ r, Tmpl.setVerticesType 6 = .ok r := ⟨_, rfl⟩

/-! ### C41 -/

theorem allOfSize_iff (n : Nat) (l : List Nat) : allOfSize n l = true ↔ l = List.replicate l.length n := by
  induction l with
  | nil => simp [allOfSize]
  | cons k t ih =>
    simp only [allOfSize, List.length_cons, List.replicate_succ]
    by_cases hk : k = n
    · simp [hk, ih]
    · simp [hk]

theorem countTriQuad_eq (l : List Nat) (t q : Nat) :
    countTriQuad l t q = (t + l.count 3, q + l.count 4) := by
  induction l generalizing t q with
  | nil => simp [countTriQuad]
  | cons k r ih =>
    simp only [countTriQuad, ih, List.count_cons]
    by_cases h3 : k = 3
    · subst h3; simp; omega
    · by_cases h4 : k = 4
      · subst h4; simp; omega
      · simp [h3, h4]

theorem count_add_le (l : List Nat) (a b : Nat) (hab : a ≠ b) : l.count a + l.count b ≤ l.length := by
  induction l with
  | nil => simp
  | cons k r ih =>
    simp only [List.count_cons, List.length_cons]
    by_cases ha : k = a
    · subst ha; simp [hab]; omega
    · by_cases hb : k = b
      · subst hb; simp [ha]; omega
      · simp [ha, hb]; omega

theorem perm_of_counts (l : List Nat) (m n : Nat) (hl : l.length = m + n) (h3 : l.count 3 = m)
    (h4 : l.count 4 = n) : l.Perm (List.replicate m 3 ++ List.replicate n 4) := by
  rw [List.perm_iff_count]
  intro a
  simp only [List.count_append, List.count_replicate]
  by_cases e3 : a = 3
  · subst e3; simp [h3]
  · by_cases e4 : a = 4
    · subst e4; simp [h4]
    · have : l.count a = 0 := by
        by_contra hne
        have hpos : 0 < l.count a := by omega
        have hfil : l.count 3 + l.count 4 + l.count a ≤ l.length := by
          clear hl h3 h4 hne hpos
          induction l with
          | nil => simp
          | cons k r ih =>
            simp only [List.count_cons, List.length_cons]
            by_cases ha : k = a
            · subst ha; simp [e3, e4]; omega
            · by_cases hb : k = 3
              · subst hb; simp [ha]; omega
              · by_cases hc : k = 4
                · subst hc; simp [ha]; omega
                · simp [ha, hb, hc]; omega
        omega
      simp [this, Ne.symm e3, Ne.symm e4]

/-- Specification: the element type that a list of face sizes stands for. -/
def IsType (sizes : List Nat) : MRType → Prop
  | .tet => sizes.Perm [3,3,3,3]
  | .pyramid => sizes.Perm [4,3,3,3,3]
  | .prism => sizes.Perm [3,3,4,4,4]
  | .hex => sizes.Perm [4,4,4,4,4,4]
  | .runknown => sizes.length ≤ 3
  | .polyhed => 4 ≤ sizes.length ∧ ¬ sizes.Perm [3,3,3,3] ∧ ¬ sizes.Perm [4,3,3,3,3] ∧
      ¬ sizes.Perm [3,3,4,4,4] ∧ ¬ sizes.Perm [4,4,4,4,4,4]

/-- The standard types exclude each other, so `IsType` names at most one type. -/
theorem IsType_unique (l : List Nat) (t u : MRType) (ht : IsType l t) (hu : IsType l u) : t = u := by
  have key : ∀ a b : List Nat, l.Perm a → l.Perm b → a.Perm b := fun a b h1 h2 => h1.symm.trans h2
  have h5 : ¬ List.Perm [4,3,3,3,3] [3,3,4,4,4] := by decide
  cases t <;> cases u <;> simp only [IsType] at ht hu <;> first
    | rfl
    | (exfalso; have h1 := ht.length_eq; simp at h1; omega)
    | (exfalso; have h1 := hu.length_eq; simp at h1; omega)
    | (exfalso; have h1 := ht.length_eq; have h2 := hu.length_eq; simp at h1 h2; omega)
    | (exfalso; exact h5 (key _ _ ht hu))
    | (exfalso; exact h5 (key _ _ hu ht))
    | (exfalso; tauto)
    | (exfalso; omega)

theorem elementType_sound (l : List Nat) : IsType l (elementType l) := by
  unfold elementType
  split
  · simp [IsType]; omega
  · simp [IsType]; omega
  · simp [IsType]; omega
  · simp [IsType]; omega
  · rename_i h
    split
    · rename_i ha
      rw [allOfSize_iff, h] at ha
      simp only [IsType]; rw [ha]; decide
    · rename_i ha
      refine ⟨by omega, fun hp => ha ?_, fun hp => ?_, fun hp => ?_, fun hp => ?_⟩
      · have : l = List.replicate 4 3 := List.perm_replicate.mp hp
        rw [this]; decide
      all_goals have := hp.length_eq; simp at this; omega
  · rename_i h
    simp only [countTriQuad_eq, Nat.zero_add]
    split
    · rename_i hc
      exact (perm_of_counts l 2 3 (by omega) hc.2 hc.1)
    · split
      · rename_i hc
        have := perm_of_counts l 4 1 (by omega) hc.2 hc.1
        exact this.trans (by decide)
      · rename_i h1 h2
        refine ⟨by omega, fun hp => ?_, fun hp => h2 ?_, fun hp => h1 ?_, fun hp => ?_⟩
        · have := hp.length_eq; simp at this; omega
        · exact ⟨by rw [hp.count_eq]; rfl, by rw [hp.count_eq]; rfl⟩
        · exact ⟨by rw [hp.count_eq]; rfl, by rw [hp.count_eq]; rfl⟩
        · have := hp.length_eq; simp at this; omega
  · rename_i h
    split
    · rename_i ha
      rw [allOfSize_iff, h] at ha
      simp only [IsType]; rw [ha]; decide
    · rename_i ha
      refine ⟨by omega, fun hp => ?_, fun hp => ?_, fun hp => ?_, fun hp => ha ?_⟩
      pick_goal 4
      · have : l = List.replicate 6 4 := List.perm_replicate.mp hp
        rw [this]; decide
      all_goals have := hp.length_eq; simp at this; omega
  · rename_i h0 h1 h2 h3 h4 h5 h6
    have : 7 ≤ l.length := by
      have e0 : l.length ≠ 0 := h0
      have e1 : l.length ≠ 1 := h1
      have e2 : l.length ≠ 2 := h2
      have e3 : l.length ≠ 3 := h3
      have e4 : l.length ≠ 4 := h4
      have e5 : l.length ≠ 5 := h5
      have e6 : l.length ≠ 6 := h6
      omega
    refine ⟨by omega, fun hp => ?_, fun hp => ?_, fun hp => ?_, fun hp => ?_⟩
    all_goals have := hp.length_eq; simp at this; omega

/-- **C41.** The element type computed from a region's faces is the one its face sizes stand for: a
standard type exactly when the sizes are, in some order, those of that element. -/
theorem C41_element_type (sizes : List Nat) (ty : MRType) :
    elementType sizes = ty ↔ IsType sizes ty :=
  ⟨fun h => h ▸ elementType_sound sizes, fun h => IsType_unique sizes _ _ (elementType_sound sizes) h⟩

/-- The tables and the element type agree: the faces listed for a standard element give back that
element type. -/
theorem C41_tables (nv : Nat) (ty : MRType) (nf : Int)
    (h : Tmpl.setVerticesType nv = .ok (ty, nf)) (fs : List (List Int)) (hf : Tmpl.faces ty = some fs) :
    elementType (fs.map List.length) = ty := by
  unfold Tmpl.setVerticesType at h
  split at h <;> simp only [Res.ok.injEq, Prod.mk.injEq, reduceCtorEq] at h
  all_goals
    obtain ⟨rfl, rfl⟩ := h
    cases hf
    decide

example : elementType [4,3,4,3,4] = .prism ∧ elementType [3,3,4,3,3] = .pyramid ∧
    elementType [3,3,5,3,3] = .polyhed := by decide

end MSTK
