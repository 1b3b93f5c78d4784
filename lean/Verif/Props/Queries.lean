import Verif.Props.Adjacency

/-!
C22: the derived adjacency queries return exactly the related entities.

Specification: `EdgeHas`, `FaceHas`, `RegionHas` are read off the downward queries `ME_Vertex`,
`MF_Edges`, `MR_FaceDir`; the theorems compare the derived queries with chains of these.
-/
namespace MSTK
namespace Topo

/-- `v` is an end of the live edge `e` -/
def EdgeHas (T : Topo) (e v : Nat) : Prop :=
  T.se e = .live ∧ (T.meVertex e false = .ok (some v) ∨ T.meVertex e true = .ok (some v))

/-- `e` is an edge of the live face `f` -/
def FaceHas (T : Topo) (f e : Nat) : Prop :=
  T.sf f = .live ∧ ∃ es, T.mfEdges f true none = .ok es ∧ e ∈ es

/-- `f` is a face of the live region `r` -/
def RegionHas (T : Topo) (r f : Nat) : Prop :=
  T.sr r = .live ∧ ∃ d, T.mrFaceDir r f = .ok (some d)

/-! ### helpers -/

theorem Consistent.mem_ve {T : Topo} (h : T.Consistent) {v e : Nat} (hv : T.sv v = .live) :
    e ∈ T.ve v ↔ T.EdgeHas e v := by
  obtain ⟨L, h1, h2, h3⟩ := h.agrees.vertexEdges v hv
  obtain ⟨L', h4, h5⟩ := mvEdges_getD (alloc_of_live hv)
  rw [h1] at h4; injection h4 with h4; subst h4
  rw [← h5, h3]; rfl

theorem Consistent.mem_ef {T : Topo} (h : T.Consistent) {e f : Nat} (he : T.se e = .live) :
    f ∈ T.ef e ↔ T.FaceHas f e := by
  obtain ⟨L, h1, h2, h3⟩ := h.agrees.edgeFaces e he
  obtain ⟨L', h4, h5⟩ := meFaces_ok (alloc_of_live he)
  rw [h1] at h4; injection h4 with h4; subst h4
  rw [← h5, h3]; rfl

theorem Consistent.mem_fr {T : Topo} (h : T.Consistent) {f r : Nat} (hf : T.sf f = .live) :
    (r ∈ (T.fr f).1.toList ∨ r ∈ (T.fr f).2.toList) ↔ T.RegionHas r f := by
  have h0 := h.agrees.faceRegions f false r hf
  have h1 := h.agrees.faceRegions f true r hf
  rw [mfRegion_ok (alloc_of_live hf)] at h0 h1
  simp only [endAt, Res.ok.injEq, Bool.not_false, Bool.not_true, if_true, Bool.false_eq_true,
    if_false] at h0 h1
  rw [Option.mem_toList, Option.mem_toList]
  show ((T.fr f).1 = some r ∨ (T.fr f).2 = some r) ↔ _
  rw [h0, h1]
  unfold RegionHas
  constructor
  · rintro (⟨a, b⟩ | ⟨a, b⟩)
    · exact ⟨a, _, b⟩
    · exact ⟨a, _, b⟩
  · rintro ⟨a, d, b⟩
    cases d
    · exact Or.inr ⟨a, b⟩
    · exact Or.inl ⟨a, b⟩

theorem addNew_spec (xs : List Nat) : ∀ (acc : List Nat), acc.Nodup →
    (addNew acc xs).Nodup ∧ ∀ y, y ∈ addNew acc xs ↔ y ∈ acc ∨ y ∈ xs := by
  induction xs with
  | nil => intro acc h; exact ⟨h, by simp [addNew]⟩
  | cons x xs ih =>
    intro acc h
    rw [show addNew acc (x :: xs) = addNew (if x ∈ acc then acc else acc ++ [x]) xs from rfl]
    have hn : (if x ∈ acc then acc else acc ++ [x]).Nodup := nodup_chkn h
    obtain ⟨h1, h2⟩ := ih _ hn
    refine ⟨h1, fun y => ?_⟩
    rw [h2 y]
    have : y ∈ (if x ∈ acc then acc else acc ++ [x]) ↔ y = x ∨ y ∈ acc := mem_chkn
    rw [this, List.mem_cons]
    constructor
    · rintro ((h | h) | h)
      · exact Or.inr (Or.inl h)
      · exact Or.inl h
      · exact Or.inr (Or.inr h)
    · rintro (h | h | h)
      · exact Or.inl (Or.inr h)
      · exact Or.inl (Or.inl h)
      · exact Or.inr h

theorem facesOfEdges_spec (T : Topo) : ∀ (es acc : List Nat), (∀ e ∈ es, T.se e = .live) → acc.Nodup →
    ∃ L, T.facesOfEdges es acc = .ok L ∧ L.Nodup ∧ ∀ f, f ∈ L ↔ f ∈ acc ∨ ∃ e ∈ es, f ∈ T.ef e := by
  intro es
  induction es with
  | nil => intro acc _ h; exact ⟨acc, rfl, h, by simp⟩
  | cons e es ih =>
    intro acc he h
    obtain ⟨L, h1, h2⟩ := meFaces_ok (alloc_of_live (he e (by simp)))
    obtain ⟨a1, a2⟩ := addNew_spec (L.getD []) acc h
    obtain ⟨R, h3, h4, h5⟩ := ih (addNew acc (L.getD [])) (fun x hx => he x (by simp [hx])) a1
    refine ⟨R, ?_, h4, fun f => ?_⟩
    · rw [show T.facesOfEdges (e :: es) acc = (do
        let fs ← T.meFaces e
        facesOfEdges T es (addNew acc (fs.getD []))) from rfl, h1, Res.bind_ok, h3]
    · rw [h5, a2, h2]
      simp only [List.mem_cons, exists_eq_or_imp, or_assoc]

theorem regionsOfFaces_spec (T : Topo) : ∀ (fs acc : List Nat), (∀ f ∈ fs, T.sf f = .live) → acc.Nodup →
    ∃ L, T.regionsOfFaces fs acc = .ok L ∧ L.Nodup ∧
      ∀ r, r ∈ L ↔ r ∈ acc ∨ ∃ f ∈ fs, r ∈ (T.fr f).1.toList ∨ r ∈ (T.fr f).2.toList := by
  intro fs
  induction fs with
  | nil => intro acc _ h; exact ⟨acc, rfl, h, by simp⟩
  | cons f fs ih =>
    intro acc hf h
    have hfl := alloc_of_live (hf f (by simp))
    obtain ⟨a1, a2⟩ := addNew_spec ((T.fr f).1.toList ++ (T.fr f).2.toList) acc h
    obtain ⟨R, h3, h4, h5⟩ := ih _ (fun x hx => hf x (by simp [hx])) a1
    refine ⟨R, ?_, h4, fun r => ?_⟩
    · rw [show T.regionsOfFaces (f :: fs) acc = (do
        let r0 ← T.mfRegion f false
        let r1 ← T.mfRegion f true
        regionsOfFaces T fs (addNew acc (r0.toList ++ r1.toList))) from rfl, mfRegion_ok hfl,
        Res.bind_ok, mfRegion_ok hfl, Res.bind_ok]
      exact h3
    · rw [h5, a2]
      simp only [List.mem_cons, exists_eq_or_imp, or_assoc, List.mem_append]

theorem regionsOfEdges_spec {T : Topo} (h : T.Consistent) : ∀ (es acc : List Nat),
    (∀ e ∈ es, T.se e = .live) → acc.Nodup →
    ∃ L, T.regionsOfEdges es acc = .ok L ∧ L.Nodup ∧
      ∀ r, r ∈ L ↔ r ∈ acc ∨ ∃ e ∈ es, ∃ f ∈ T.ef e, r ∈ (T.fr f).1.toList ∨ r ∈ (T.fr f).2.toList := by
  intro es
  induction es with
  | nil => intro acc _ h; exact ⟨acc, rfl, h, by simp⟩
  | cons e es ih =>
    intro acc he hn
    have hel := he e (by simp)
    obtain ⟨L, h1, h2⟩ := meFaces_ok (alloc_of_live hel)
    obtain ⟨M, h3, h4, h5⟩ := regionsOfFaces_spec T (T.ef e) acc
      (fun f hf => ((h.mem_ef hel).1 hf).1) hn
    obtain ⟨R, h6, h7, h8⟩ := ih M (fun x hx => he x (by simp [hx])) h4
    refine ⟨R, ?_, h7, fun r => ?_⟩
    · rw [show T.regionsOfEdges (e :: es) acc = (do
        let fs ← T.meFaces e
        let acc ← T.regionsOfFaces (fs.getD []) acc
        regionsOfEdges T es acc) from rfl, h1, Res.bind_ok, h2, h3, Res.bind_ok, h6]
    · rw [h8, h5]
      simp only [List.mem_cons, exists_eq_or_imp, or_assoc]

/-! ### the properties -/

/-- **C22, MV_Faces.** -/
theorem C22_vertex_faces {T : Topo} (h : T.Consistent) {v : Nat} (hv : T.sv v = .live) :
    ∃ L, T.mvFaces v = .ok L ∧ (L.getD []).Nodup ∧
      ∀ f, f ∈ L.getD [] ↔ ∃ e, T.EdgeHas e v ∧ T.FaceHas f e := by
  obtain ⟨L, h1, h2, h3⟩ := facesOfEdges_spec T (T.ve v) [] (fun e he => ((h.mem_ve hv).1 he).1)
    List.nodup_nil
  refine ⟨orNull L, ?_, ?_, fun f => ?_⟩
  · unfold mvFaces; rw [derefV_ok (alloc_of_live hv), Res.bind_ok, h1]; rfl
  · rw [orNull_getD]; exact h2
  · rw [orNull_getD, h3]
    constructor
    · rintro (hc | ⟨e, he, hf⟩)
      · cases hc
      · have := (h.mem_ve hv).1 he
        exact ⟨e, this, (h.mem_ef this.1).1 hf⟩
    · rintro ⟨e, he, hf⟩
      exact Or.inr ⟨e, (h.mem_ve hv).2 he, (h.mem_ef he.1).2 hf⟩

/-- **C22, MV_Regions.** -/
theorem C22_vertex_regions {T : Topo} (h : T.Consistent) {v : Nat} (hv : T.sv v = .live) :
    ∃ L, T.mvRegions v = .ok L ∧ (L.getD []).Nodup ∧
      ∀ r, r ∈ L.getD [] ↔ ∃ e f, T.EdgeHas e v ∧ T.FaceHas f e ∧ T.RegionHas r f := by
  obtain ⟨L, h1, h2, h3⟩ := regionsOfEdges_spec h (T.ve v) [] (fun e he => ((h.mem_ve hv).1 he).1)
    List.nodup_nil
  refine ⟨orNull L, ?_, ?_, fun r => ?_⟩
  · unfold mvRegions; rw [derefV_ok (alloc_of_live hv), Res.bind_ok, h1]; rfl
  · rw [orNull_getD]; exact h2
  · rw [orNull_getD, h3]
    constructor
    · rintro (hc | ⟨e, he, f, hf, hr⟩)
      · cases hc
      · have h4 := (h.mem_ve hv).1 he
        have h5 := (h.mem_ef h4.1).1 hf
        exact ⟨e, f, h4, h5, (h.mem_fr h5.1).1 hr⟩
    · rintro ⟨e, f, he, hf, hr⟩
      exact Or.inr ⟨e, (h.mem_ve hv).2 he, f, (h.mem_ef he.1).2 hf, (h.mem_fr hf.1).2 hr⟩

/-- **C22, ME_Regions.** -/
theorem C22_edge_regions {T : Topo} (h : T.Consistent) {e : Nat} (he : T.se e = .live) :
    ∃ L, T.meRegions e = .ok L ∧ (L.getD []).Nodup ∧
      ∀ r, r ∈ L.getD [] ↔ ∃ f, T.FaceHas f e ∧ T.RegionHas r f := by
  obtain ⟨L, h1, h2, h3⟩ := regionsOfFaces_spec T (T.ef e) [] (fun f hf => ((h.mem_ef he).1 hf).1)
    List.nodup_nil
  refine ⟨orNull L, ?_, ?_, fun r => ?_⟩
  · unfold meRegions; rw [derefE_ok (alloc_of_live he), Res.bind_ok, h1]; rfl
  · rw [orNull_getD]; exact h2
  · rw [orNull_getD, h3]
    constructor
    · rintro (hc | ⟨f, hf, hr⟩)
      · cases hc
      · have h5 := (h.mem_ef he).1 hf
        exact ⟨f, h5, (h.mem_fr h5.1).1 hr⟩
    · rintro ⟨f, hf, hr⟩
      exact Or.inr ⟨f, (h.mem_ef he).2 hf, (h.mem_fr hf.1).2 hr⟩

/-- **C22, MF_Regions.** -/
theorem C22_face_regions {T : Topo} (h : T.Consistent) {f : Nat} (hf : T.sf f = .live) :
    ∃ L, T.mfRegions f = .ok L ∧ (L.getD []).Nodup ∧ ∀ r, r ∈ L.getD [] ↔ T.RegionHas r f := by
  refine ⟨orNull ((T.fr f).1.toList ++ (T.fr f).2.toList), ?_, ?_, fun r => ?_⟩
  · unfold mfRegions; rw [derefF_ok (alloc_of_live hf)]; rfl
  · rw [orNull_getD]
    have hb : ∀ r, T.fr f ≠ (some r, some r) := fun r => h.notBoth (alloc_of_live hf)
    rcases hfr : T.fr f with ⟨a, b⟩
    cases a <;> cases b <;> simp
    rintro rfl
    exact hb _ hfr
  · rw [orNull_getD, List.mem_append]; exact h.mem_fr hf

/-- All edges at `v` have two different ends. -/
def Proper (T : Topo) (v : Nat) : Prop :=
  ∀ e, T.EdgeHas e v → ∃ w, w ≠ v ∧ T.EdgeHas e w

/-- No two edges at `v` lead to the same vertex. -/
def Simple (T : Topo) (v : Nat) : Prop :=
  ∀ e e' w, w ≠ v → T.EdgeHas e v → T.EdgeHas e w → T.EdgeHas e' v → T.EdgeHas e' w → e = e'

theorem oppAll_spec {T : Topo} {v : Nat} : ∀ (es : List Nat), (∀ e ∈ es, T.se e = .live) →
    T.oppAll v es = .ok (es.map fun e => if (T.ev e).1 = some v then (T.ev e).2 else (T.ev e).1) := by
  intro es
  induction es with
  | nil => intro _; rfl
  | cons e es ih =>
    intro he
    rw [show T.oppAll v (e :: es) = (do
      let o ← T.meOppVertex e v
      let r ← oppAll T v es
      pure (o :: r)) from rfl]
    unfold meOppVertex
    rw [derefE_ok (alloc_of_live (he e (by simp))), ih (fun x hx => he x (by simp [hx]))]
    rfl

theorem EdgeHas_iff {T : Topo} {e v : Nat} : T.EdgeHas e v ↔ T.se e = .live ∧ ends T.ev e v := by
  unfold EdgeHas
  constructor
  · rintro ⟨h1, h2⟩; exact ⟨h1, (meVertex_ends (alloc_of_live h1)).1 h2⟩
  · rintro ⟨h1, h2⟩; exact ⟨h1, (meVertex_ends (alloc_of_live h1)).2 h2⟩

/-- **C22, MV_AdjVertices.**  The other ends of the edges at `v`; each once if no two edges join the
same two vertices. -/
theorem C22_adjacent_vertices {T : Topo} (h : T.Consistent) {v : Nat} (hv : T.sv v = .live)
    (hp : T.Proper v) : ∃ ws : List Nat, T.mvAdjVertices v = .ok (ws.map some) ∧
      (∀ w, w ∈ ws ↔ w ≠ v ∧ ∃ e, T.EdgeHas e v ∧ T.EdgeHas e w) ∧ (T.Simple v → ws.Nodup) := by
  have hl : ∀ e ∈ T.ve v, T.se e = .live := fun e he => ((h.mem_ve hv).1 he).1
  -- the other end
  have hex : ∃ g : Nat → Nat, ∀ e ∈ T.ve v, g e ≠ v ∧ ends T.ev e (g e) ∧
      (if (T.ev e).1 = some v then (T.ev e).2 else (T.ev e).1) = some (g e) ∧
      ∀ w, w ≠ v → ends T.ev e w → w = g e := by
    refine ⟨fun e => ((if (T.ev e).1 = some v then (T.ev e).2 else (T.ev e).1).getD 0), ?_⟩
    intro e he
    have hv' := (h.mem_ve hv).1 he
    obtain ⟨w, hw, hw'⟩ := hp e hv'
    have hc : T.ev e = (some v, some w) ∨ T.ev e = (some w, some v) := by
      have a1 := (EdgeHas_iff.1 hv').2
      have a2 := (EdgeHas_iff.1 hw').2
      unfold ends at a1 a2
      rcases hev : T.ev e with ⟨x, y⟩
      rw [hev] at a1 a2
      dsimp only at a1 a2
      rcases a1 with a1 | a1 <;> rcases a2 with a2 | a2 <;> subst a1
      · injection a2 with a2; exact absurd a2.symm hw
      · rw [a2]; exact Or.inl rfl
      · rw [a2]; exact Or.inr rfl
      · injection a2 with a2; exact absurd a2.symm hw
    rcases hc with hc | hc
    · simp only [ends, hc, Option.some.injEq, if_true, Option.getD_some]
      exact ⟨hw, Or.inr trivial, trivial, fun x hx hh => by
        rcases hh with hh | hh
        · exact absurd hh.symm hx
        · exact hh.symm⟩
    · simp only [ends, hc, Option.some.injEq, if_neg hw, Option.getD_some]
      exact ⟨hw, Or.inl trivial, trivial, fun x hx hh => by
        rcases hh with hh | hh
        · exact hh.symm
        · exact absurd hh.symm hx⟩
  obtain ⟨g, hg⟩ := hex
  refine ⟨(T.ve v).map g, ?_, ?_, ?_⟩
  · unfold mvAdjVertices
    rw [derefV_ok (alloc_of_live hv), Res.bind_ok, oppAll_spec _ hl, List.map_map]
    congr 1
    apply List.map_congr_left
    intro e he
    exact (hg e he).2.2.1
  · intro w
    rw [List.mem_map]
    constructor
    · rintro ⟨e, he, rfl⟩
      exact ⟨(hg e he).1, e, (h.mem_ve hv).1 he, EdgeHas_iff.2 ⟨hl e he, (hg e he).2.1⟩⟩
    · rintro ⟨hw, e, h1, h2⟩
      have he := (h.mem_ve hv).2 h1
      exact ⟨e, he, ((hg e he).2.2.2 w hw (EdgeHas_iff.1 h2).2).symm⟩
  · intro hs
    have hnd := h.ve.nodup v (alloc_of_live hv)
    rw [List.nodup_iff_pairwise_ne, List.pairwise_map]
    refine List.Pairwise.imp_of_mem ?_ (List.nodup_iff_pairwise_ne.1 hnd)
    intro a b ha hb hab hgab
    apply hab
    refine hs a b (g a) (hg a ha).1 ((h.mem_ve hv).1 ha) (EdgeHas_iff.2 ⟨hl a ha, (hg a ha).2.1⟩)
      ((h.mem_ve hv).1 hb) ?_
    rw [hgab]
    exact EdgeHas_iff.2 ⟨hl b hb, (hg b hb).2.1⟩

/-- With two edges between the same vertices `MV_AdjVertices` lists the neighbour twice. -/
theorem C22_negation_adjacent_twice :
    answer [.newVertex, .newVertex, .newEdge, .setVertex 0 false 0, .setVertex 0 true 1,
      .newEdge, .setVertex 1 false 0, .setVertex 1 true 1] (fun T => T.mvAdjVertices 0)
      = .ok [some 1, some 1] := by decide +kernel

theorem adjFacesLoop_spec {T : Topo} {f : Nat} (h : T.Consistent) :
    ∀ (es acc : List Nat), (∀ e ∈ es, T.FaceHas f e ∧ T.se e = .live) →
    ∃ L, T.adjFacesLoop f es acc = .ok L ∧ ∀ g, g ∈ L ↔ g ∈ acc ∨ g ≠ f ∧ ∃ e ∈ es, g ∈ T.ef e := by
  intro es
  induction es with
  | nil => intro acc _; exact ⟨acc, rfl, by simp⟩
  | cons e es ih =>
    intro acc he
    obtain ⟨hfe, hel⟩ := he e (by simp)
    have hm : f ∈ T.ef e := (h.mem_ef hel).2 hfe
    have hmf : T.meFaces e = .ok (some (T.ef e)) := by
      unfold meFaces
      rw [derefE_ok (alloc_of_live hel), Res.bind_ok, if_neg]
      · rfl
      · intro hz; rw [List.eq_nil_of_length_eq_zero hz] at hm; cases hm
    obtain ⟨R, h1, h2⟩ := ih (acc ++ (T.ef e).filter (· ≠ f)) (fun x hx => he x (by simp [hx]))
    refine ⟨R, ?_, fun g => ?_⟩
    · rw [show T.adjFacesLoop f (e :: es) acc = (do
        let fs ← T.meFaces e
        let fs ← Res.ofOption fs
        adjFacesLoop T f es (acc ++ fs.filter (· ≠ f))) from rfl, hmf, Res.bind_ok,
        Res.ofOption_some, Res.bind_ok, h1]
    · rw [h2, List.mem_append, List.mem_filter]
      simp only [List.mem_cons, exists_eq_or_imp, decide_eq_true_eq]
      constructor
      · rintro ((h | ⟨h, h'⟩) | ⟨h, h'⟩)
        · exact Or.inl h
        · exact Or.inr ⟨h', Or.inl h⟩
        · exact Or.inr ⟨h, Or.inr h'⟩
      · rintro (h | ⟨h, h' | h'⟩)
        · exact Or.inl (Or.inl h)
        · exact Or.inl (Or.inr ⟨h', h⟩)
        · exact Or.inr ⟨h, h'⟩

/-- **C22, MF_AdjFaces.**  The faces sharing an edge with `f` (one that shares two edges is listed
twice). -/
theorem C22_adjacent_faces {T : Topo} (h : T.Consistent) {f : Nat} {l : List Nat} (hf : T.sf f = .live)
    (hl : T.fe f = some l) : ∃ L, T.mfAdjFaces f = .ok L ∧
      ∀ g, g ∈ L.getD [] ↔ g ≠ f ∧ ∃ e, T.FaceHas f e ∧ T.FaceHas g e := by
  have hE : ∀ e, T.FaceHas f e ↔ e ∈ l := by
    intro e
    unfold FaceHas
    rw [mfEdges_plain (alloc_of_live hf) hl]
    constructor
    · rintro ⟨_, es, h1, h2⟩; injection h1 with h1; subst h1; exact h2
    · intro h1; exact ⟨hf, l, rfl, h1⟩
  have hlive := h.fedgesLive hf hl
  obtain ⟨L, h1, h2⟩ := adjFacesLoop_spec h l [] (fun e he => ⟨(hE e).2 he, hlive e he⟩)
  refine ⟨orNull L, ?_, fun g => ?_⟩
  · unfold mfAdjFaces; rw [fedges_ok (alloc_of_live hf) hl, Res.bind_ok, h1]; rfl
  · rw [orNull_getD, h2]
    constructor
    · rintro (h3 | ⟨h3, e, h4, h5⟩)
      · cases h3
      · exact ⟨h3, e, (hE e).2 h4, (h.mem_ef (hlive e h4)).1 h5⟩
    · rintro ⟨h3, e, h4, h5⟩
      have h4' := (hE e).1 h4
      exact Or.inr ⟨h3, e, h4', (h.mem_ef (hlive e h4')).2 h5⟩

theorem C22_negation_adjacent_faces_twice :
    answer [.newVertex, .newVertex, .newVertex, .newFace, .setVertices 0 [0,1,2], .newFace,
      .setVertices 1 [0,2,1]] (fun T => T.mfAdjFaces 0) = .ok (some [1,1,1]) := by decide +kernel

theorem adjRegionsLoop_spec {T : Topo} {r : Nat} (h : T.Consistent) :
    ∀ (fs : List Nat), (∀ f ∈ fs, T.RegionHas r f ∧ T.sf f = .live) →
    ∃ L, T.adjRegionsLoop r fs = .ok L ∧ ∀ z, z ∈ L ↔ z ≠ r ∧ ∃ f ∈ fs, T.RegionHas z f := by
  intro fs
  induction fs with
  | nil => intro _; exact ⟨[], rfl, by simp⟩
  | cons f fs ih =>
    intro hfs
    obtain ⟨h1, hfl⟩ := hfs f (by simp)
    obtain ⟨L, h2, h3⟩ := ih (fun x hx => hfs x (by simp [hx]))
    refine ⟨otherRegion r (T.fr f).1 (T.fr f).2 ++ L, ?_, ?_⟩
    · rw [show T.adjRegionsLoop r (f :: fs) = (do
        let a ← T.mfRegion f false
        let b ← T.mfRegion f true
        let l ← adjRegionsLoop T r fs
        pure (otherRegion r a b ++ l)) from rfl, mfRegion_ok (alloc_of_live hfl),
          Res.bind_ok, mfRegion_ok (alloc_of_live hfl), Res.bind_ok, h2, Res.bind_ok]
      rfl
    · intro z
      rw [List.mem_append, h3]
      simp only [List.mem_cons, exists_eq_or_imp]
      have hr := (h.mem_fr hfl (r := r)).2 h1
      have hz := h.mem_fr hfl (r := z)
      have hb := h.notBoth (r := r) (alloc_of_live hfl)
      have key : z ∈ otherRegion r (T.fr f).1 (T.fr f).2 ↔ z ≠ r ∧ T.RegionHas z f := by
        rw [← hz]
        rcases hfr : T.fr f with ⟨a, b⟩
        rw [hfr] at hr hb
        have hb' : ∀ x, some x = b → a = some r → x ≠ r := by
          rintro x rfl ha rfl; rw [ha] at hb; exact hb rfl
        cases a with
        | none =>
          cases b with
          | none => simp at hr
          | some y => simp at hr; subst hr; simp [otherRegion]
        | some x =>
          by_cases hx : x = r
          · subst hx
            cases b with
            | none => simp [otherRegion]
            | some y =>
              have := hb' y rfl rfl
              simp [otherRegion]
              constructor
              · rintro rfl; exact ⟨this, Or.inr rfl⟩
              · rintro ⟨h1, h2⟩; rcases h2 with h2 | h2
                · exact absurd h2 h1
                · exact h2
          · cases b with
            | none => simp at hr; exact absurd hr.symm hx
            | some y =>
              simp [Ne.symm hx] at hr
              subst hr
              simp [otherRegion, hx]
              constructor
              · rintro rfl; exact ⟨hx, Or.inl rfl⟩
              · rintro ⟨h1, h2⟩; rcases h2 with h2 | h2
                · exact h2
                · exact absurd h2 h1
      rw [key]
      constructor
      · rintro (⟨h1, h2⟩ | ⟨h1, h2⟩)
        · exact ⟨h1, Or.inl h2⟩
        · exact ⟨h1, Or.inr h2⟩
      · rintro ⟨h1, h2 | h2⟩
        · exact Or.inl ⟨h1, h2⟩
        · exact Or.inr ⟨h1, h2⟩

/-- **C22, MR_AdjRegions.**  The regions sharing a face with `r`. -/
theorem C22_adjacent_regions {T : Topo} (h : T.Consistent) {r : Nat} {l : List Nat} (hr : T.sr r = .live)
    (hl : T.rf r = some l) : ∃ L, T.mrAdjRegions r = .ok L ∧
      ∀ z, z ∈ L ↔ z ≠ r ∧ ∃ f, T.RegionHas r f ∧ T.RegionHas z f := by
  have hF : ∀ f, f ∈ l ↔ T.RegionHas r f := by
    intro f
    have : f ∈ (T.rf r).getD [] ↔ f ∈ l := by rw [hl]; rfl
    rw [← this, mem_facesOf_iff]
    unfold RegionHas
    constructor
    · rintro ⟨d, hd⟩; exact ⟨hr, d, (mrFaceDir_iff h hr).2 hd⟩
    · rintro ⟨_, d, hd⟩; exact ⟨d, (mrFaceDir_iff h hr).1 hd⟩
  obtain ⟨L, h1, h2⟩ := adjRegionsLoop_spec (r := r) h l (fun f hf =>
    ⟨(hF f).1 hf, h.rfacesLive hr (by rw [hl]; exact hf)⟩)
  refine ⟨L, ?_, fun z => ?_⟩
  · unfold mrAdjRegions; rw [rfaces_ok (alloc_of_live hr) hl, Res.bind_ok, h1]
  · rw [h2]
    constructor
    · rintro ⟨h3, f, h4, h5⟩; exact ⟨h3, f, (hF f).1 h4, h5⟩
    · rintro ⟨h3, f, h4, h5⟩; exact ⟨h3, f, (hF f).2 h4, h5⟩

/-- `MV_Num_Regions` of a vertex without regions calls `List_Num_Entries(NULL)`. -/
theorem C22_negation_num_regions {T : Topo} (h : T.Consistent) {v : Nat} (hv : T.sv v = .live)
    (hno : ∀ e f r, T.EdgeHas e v → T.FaceHas f e → ¬ T.RegionHas r f) : T.mvNumRegions v = .ub := by
  obtain ⟨L, h1, h2, h3⟩ := C22_vertex_regions h hv
  have hnil : L.getD [] = [] := by
    apply List.eq_nil_iff_forall_not_mem.2
    intro r hr
    obtain ⟨e, f, a, b, c⟩ := (h3 r).1 hr
    exact hno e f r a b c
  have hor : ∀ M, T.mvRegions v = .ok M → M ≠ some [] := by
    intro M hM
    unfold mvRegions at hM
    obtain ⟨_, _, h5⟩ := Res.bind_eq_ok.1 hM
    obtain ⟨l, _, h6⟩ := Res.bind_eq_ok.1 h5
    injection h6 with h6
    subst h6
    unfold orNull
    split
    · intro hc; cases hc
    · rename_i hn; intro hc; injection hc with hc; subst hc; exact hn rfl
  unfold mvNumRegions
  rw [h1, Res.bind_ok]
  cases L with
  | none => rfl
  | some l => rw [Option.getD_some] at hnil; subst hnil; exact absurd rfl (hor _ h1)

/-- The mesh of `twoTets` answers as expected. -/
example : answer twoTets (fun T => T.mvFaces 3) = .ok (some [1,2,3]) ∧
    answer twoTets (fun T => T.mvRegions 0) = .ok (some [1,0]) ∧
    answer twoTets (fun T => T.meRegions 0) = .ok (some [1,0]) ∧
    answer twoTets (fun T => T.mrAdjRegions 0) = .ok [1] ∧
    answer twoTets (fun T => T.mvAdjVertices 3) = .ok [some 1, some 0, some 2] := by decide +kernel

/-- The hypotheses are met: every state of a legal history is consistent. -/
example : ∃ T, empty.run twoTets = .ok T ∧ T.Consistent := reachable (by decide +kernel)

end Topo
end MSTK
