import Verif.LabelModel
import Verif.Props.RegionEdges

/-!
# C68  Labelling the layer at the partition boundary

`MESH_LabelPType` looks at the labels the vertices have when it is called: the elements with a ghost or
overlap vertex become overlap, and then whatever bounds an overlap element and is not a ghost.
-/
namespace MSTK
namespace Topo

open Ghost (PT)

/-! ### the specification -/

/-- a label that says that other partitions have the entity, too -/
def Shared (p : PT) : Prop := p = .ghost ∨ p = .overlap

/-- `v` is a vertex of the region -/
def RegionVertex (T : Topo) (r v : Nat) : Prop := ∃ f, T.RegionHas r f ∧ T.FaceVertex f v

/-- `e` is an edge of the region -/
def RegionEdge (T : Topo) (r e : Nat) : Prop := ∃ f, T.RegionHas r f ∧ T.FaceHas f e

open Classical in
/-- overlap if `c` holds, unless it is a ghost -/
noncomputable def overlapIf (c : Prop) (p : PT) : PT := if c ∧ p ≠ .ghost then .overlap else p

open Classical in
/-- The labels a mesh of faces ought to have. -/
structure LayerOfFaces (T : Topo) (L L' : PLabels) : Prop where
  f : ∀ f, L'.f f = if ∃ v, T.FaceVertex f v ∧ Shared (L.v v) then .overlap else L.f f
  v : ∀ v, L'.v v = overlapIf (∃ f, L'.f f = .overlap ∧ T.FaceVertex f v) (L.v v)
  e : ∀ e, L'.e e = overlapIf (∃ f, L'.f f = .overlap ∧ T.FaceHas f e) (L.e e)
  r : L'.r = L.r

open Classical in
/-- The labels a mesh of regions ought to have. -/
structure LayerOfRegions (T : Topo) (L L' : PLabels) : Prop where
  r : ∀ r, L'.r r = if ∃ v, T.RegionVertex r v ∧ Shared (L.v v) then .overlap else L.r r
  v : ∀ v, L'.v v = overlapIf (∃ r, L'.r r = .overlap ∧ T.RegionVertex r v) (L.v v)
  e : ∀ e, L'.e e = overlapIf (∃ r, L'.r r = .overlap ∧ T.RegionEdge r e) (L.e e)
  f : ∀ f, L'.f f = overlapIf (∃ r, L'.r r = .overlap ∧ T.RegionHas r f) (L.f f)

/-- A standard element (a prism or hexahedron without further edges between its vertices) or a closed
polyhedron. -/
def PlainRegion (T : Topo) (r : Nat) : Prop :=
  (∃ vs, T.IsElement r vs ∧ T.mrElementType r = .ok (stdType vs.length) ∧
    (vs.length = 6 ∨ vs.length = 8 → T.NoChord r vs)) ∨
  (T.sr r = .live ∧ ∃ fs ns t, T.mrFaces r = .ok fs ∧ fs ≠ [] ∧
    List.Forall₂ (fun f n => T.mfNumVertices f = .ok n) fs ns ∧ (∀ n ∈ ns, 3 ≤ n) ∧ ¬ StandardSizes ns ∧
    T.mrElementType r = .ok t ∧ (t = .polyhed ∨ t = .runknown) ∧ T.ClosedSurface r)

/-! ### the loops -/

theorem upd_overlap (p : Nat → PT) (x y : Nat) : upd p x .overlap y = if y = x then .overlap else p y := by
  by_cases h : y = x
  · subst h; rw [upd_same, if_pos rfl]
  · rw [upd_ne _ _ h, if_neg h]

theorem raise_apply (p : Nat → PT) (x y : Nat) : raise p x y = overlapIf (y = x) (p y) := by
  unfold raise overlapIf
  by_cases hx : p x = .ghost
  · simp only [hx, ne_eq, not_true_eq_false, if_false]
    by_cases hy : y = x
    · subst hy; simp [hx]
    · simp [hy]
  · simp only [ne_eq, hx, not_false_eq_true, if_true, upd_overlap]
    by_cases hy : y = x
    · subst hy; simp [hx]
    · simp [hy]

theorem overlapIf_or (c d : Prop) (p : PT) : overlapIf d (overlapIf c p) = overlapIf (c ∨ d) p := by
  unfold overlapIf
  by_cases hc : c <;> by_cases hd : d <;> by_cases hp : p = .ghost <;> simp [hc, hd, hp]

theorem overlapIf_congr {c d : Prop} (h : c ↔ d) (p : PT) : overlapIf c p = overlapIf d p := by
  rw [propext h]

theorem overlapIf_false {c : Prop} (h : ¬ c) (p : PT) : overlapIf c p = p := by simp [overlapIf, h]

theorem raiseV_ok {T : Topo} : ∀ (vs : List Nat) (p : Nat → PT), (∀ v ∈ vs, T.sv v = .live) →
    ∃ q, T.raiseV (vs.map some) p = .ok q ∧ ∀ y, q y = overlapIf (y ∈ vs) (p y) := by
  intro vs
  induction vs with
  | nil => intro p _; exact ⟨p, rfl, fun y => by simp [overlapIf]⟩
  | cons v vs ih =>
    intro p h
    obtain ⟨q, h1, h2⟩ := ih (raise p v) fun w hw => h w (by simp [hw])
    refine ⟨q, ?_, fun y => ?_⟩
    · simp only [List.map_cons, raiseV, Res.ofOption_some, Res.bind_ok, derefV_ok (alloc_of_live (h v (by simp)))]
      exact h1
    · rw [h2, raise_apply, overlapIf_or]; exact overlapIf_congr (by simp) _

theorem raiseE_ok {T : Topo} : ∀ (vs : List Nat) (p : Nat → PT), (∀ v ∈ vs, T.se v = .live) →
    ∃ q, T.raiseE vs p = .ok q ∧ ∀ y, q y = overlapIf (y ∈ vs) (p y) := by
  intro vs
  induction vs with
  | nil => intro p _; exact ⟨p, rfl, fun y => by simp [overlapIf]⟩
  | cons v vs ih =>
    intro p h
    obtain ⟨q, h1, h2⟩ := ih (raise p v) fun w hw => h w (by simp [hw])
    refine ⟨q, ?_, fun y => ?_⟩
    · simp only [raiseE, derefE_ok (alloc_of_live (h v (by simp))), Res.bind_ok]
      exact h1
    · rw [h2, raise_apply, overlapIf_or]; exact overlapIf_congr (by simp) _

theorem raiseF_ok {T : Topo} : ∀ (vs : List Nat) (p : Nat → PT), (∀ v ∈ vs, T.sf v = .live) →
    ∃ q, T.raiseF vs p = .ok q ∧ ∀ y, q y = overlapIf (y ∈ vs) (p y) := by
  intro vs
  induction vs with
  | nil => intro p _; exact ⟨p, rfl, fun y => by simp [overlapIf]⟩
  | cons v vs ih =>
    intro p h
    obtain ⟨q, h1, h2⟩ := ih (raise p v) fun w hw => h w (by simp [hw])
    refine ⟨q, ?_, fun y => ?_⟩
    · simp only [raiseF, derefF_ok (alloc_of_live (h v (by simp))), Res.bind_ok]
      exact h1
    · rw [h2, raise_apply, overlapIf_or]; exact overlapIf_congr (by simp) _

theorem anyShared_ok {T : Topo} {p : Nat → PT} : ∀ vs : List Nat, (∀ v ∈ vs, T.sv v = .live) →
    ∃ b, T.anyShared p (vs.map some) = .ok b ∧ (b = true ↔ ∃ v ∈ vs, Shared (p v)) := by
  intro vs
  induction vs with
  | nil => intro _; exact ⟨false, rfl, by simp⟩
  | cons v vs ih =>
    intro h
    simp only [List.map_cons, anyShared, Res.ofOption_some, Res.bind_ok, derefV_ok (alloc_of_live (h v (by simp)))]
    by_cases hs : p v = .ghost ∨ p v = .overlap
    · rw [if_pos hs]; exact ⟨true, rfl, by simp only [true_iff]; exact ⟨v, by simp, hs⟩⟩
    · rw [if_neg hs]
      obtain ⟨b, h1, h2⟩ := ih fun w hw => h w (by simp [hw])
      refine ⟨b, h1, h2.trans ?_⟩
      constructor
      · rintro ⟨w, hw, h3⟩; exact ⟨w, by simp [hw], h3⟩
      · rintro ⟨w, hw, h3⟩
        rcases List.mem_cons.1 hw with rfl | hw
        · exact absurd h3 hs
        · exact ⟨w, hw, h3⟩

open Classical in
theorem markLoop_ok {T : Topo} {p : Nat → PT} {verts : Nat → Res (List (Option Nat))} {V : Nat → Nat → Prop} :
    ∀ (xs : List Nat) (q : Nat → PT),
    (∀ x ∈ xs, ∃ vs : List Nat, verts x = .ok (vs.map some) ∧ (∀ v ∈ vs, T.sv v = .live) ∧ ∀ v, v ∈ vs ↔ V x v) →
    ∃ q', T.markLoop p verts xs q = .ok q' ∧
      ∀ y, q' y = if y ∈ xs ∧ ∃ v, V y v ∧ Shared (p v) then .overlap else q y := by
  intro xs
  induction xs with
  | nil => intro q _; exact ⟨q, rfl, fun y => by simp⟩
  | cons x xs ih =>
    intro q h
    obtain ⟨vs, a1, a2, a3⟩ := h x (by simp)
    obtain ⟨b, b1, b2⟩ := anyShared_ok (T := T) (p := p) vs a2
    obtain ⟨q', c1, c2⟩ := ih (if b then upd q x .overlap else q) fun w hw => h w (by simp [hw])
    refine ⟨q', ?_, fun y => ?_⟩
    · simp only [markLoop, a1, b1, Res.bind_ok]; exact c1
    · have hb : b = true ↔ ∃ v, V x v ∧ Shared (p v) := by
        rw [b2]; constructor
        · rintro ⟨v, hv, hs⟩; exact ⟨v, (a3 v).1 hv, hs⟩
        · rintro ⟨v, hv, hs⟩; exact ⟨v, (a3 v).2 hv, hs⟩
      rw [c2]
      by_cases hy : y ∈ xs ∧ ∃ v, V y v ∧ Shared (p v)
      · rw [if_pos hy, if_pos ⟨by simp [hy.1], hy.2⟩]
      · rw [if_neg hy]
        by_cases hyx : y = x
        · subst hyx
          by_cases hB : b = true
          · rw [hB, if_pos rfl, upd_same, if_pos ⟨by simp, hb.1 hB⟩]
          · rw [if_neg hB, if_neg fun hc => hB (hb.2 hc.2)]
        · rw [if_neg (c := _ ∧ _) fun hc => hy ⟨(List.mem_cons.1 hc.1).resolve_left hyx, hc.2⟩]
          split
          · rw [upd_ne _ _ hyx]
          · rfl

theorem faceVertex_live {T : Topo} (h : T.Consistent) {f v : Nat} (hv : T.FaceVertex f v) : T.sv v = .live := by
  obtain ⟨e, -, he⟩ := hv
  obtain ⟨h1, h2⟩ := EdgeHas_iff.1 he
  exact h.ve.down e v h1 h2

theorem spreadFaces_ok {T : Topo} (h : T.Consistent) (hl : T.AllLoops) : ∀ (fs : List Nat) (L : PLabels),
    (∀ f ∈ fs, T.sf f = .live) → ∃ L', T.spreadFaces fs L = .ok L' ∧ L'.f = L.f ∧ L'.r = L.r ∧
      (∀ v, L'.v v = overlapIf (∃ f ∈ fs, L.f f = .overlap ∧ T.FaceVertex f v) (L.v v)) ∧
      (∀ e, L'.e e = overlapIf (∃ f ∈ fs, L.f f = .overlap ∧ T.FaceHas f e) (L.e e)) := by
  intro fs
  induction fs with
  | nil => intro L _; exact ⟨L, rfl, rfl, rfl, fun v => by simp [overlapIf], fun e => by simp [overlapIf]⟩
  | cons f fs ih =>
    intro L hf
    have hlive := hf f (by simp)
    by_cases ho : L.f f = .overlap
    · obtain ⟨c, es, a1, a2, -, -, a3, a4⟩ := face_plain h hl hlive true
      obtain ⟨pv, b1, b2⟩ := raiseV_ok c L.v fun v hv => faceVertex_live h ((a4 v).1 hv)
      obtain ⟨pe, c1, c2⟩ := raiseE_ok es L.e fun e he => faceHas_live h ((a3 e).1 he)
      obtain ⟨L', d1, d2, d3, d4, d5⟩ := ih { L with v := pv, e := pe } fun g hg => hf g (by simp [hg])
      refine ⟨L', ?_, d2, d3, fun v => ?_, fun e => ?_⟩
      · simp only [spreadFaces, derefF_ok (alloc_of_live hlive), Res.bind_ok, ho, ne_eq, not_true_eq_false, if_false,
          a1, a2, b1, c1]
        exact d1
      · rw [d4]; show overlapIf _ (pv v) = _
        rw [b2, overlapIf_or]
        refine overlapIf_congr ?_ _
        rw [a4]
        constructor
        · rintro (hv | ⟨g, g1, g2, g3⟩)
          · exact ⟨f, by simp, ho, hv⟩
          · exact ⟨g, by simp [g1], g2, g3⟩
        · rintro ⟨g, g1, g2, g3⟩
          rcases List.mem_cons.1 g1 with rfl | g1
          · exact Or.inl g3
          · exact Or.inr ⟨g, g1, g2, g3⟩
      · rw [d5]; show overlapIf _ (pe e) = _
        rw [c2, overlapIf_or]
        refine overlapIf_congr ?_ _
        rw [a3]
        constructor
        · rintro (hv | ⟨g, g1, g2, g3⟩)
          · exact ⟨f, by simp, ho, hv⟩
          · exact ⟨g, by simp [g1], g2, g3⟩
        · rintro ⟨g, g1, g2, g3⟩
          rcases List.mem_cons.1 g1 with rfl | g1
          · exact Or.inl g3
          · exact Or.inr ⟨g, g1, g2, g3⟩
    · obtain ⟨L', d1, d2, d3, d4, d5⟩ := ih L fun g hg => hf g (by simp [hg])
      refine ⟨L', ?_, d2, d3, fun v => ?_, fun e => ?_⟩
      · simp only [spreadFaces, derefF_ok (alloc_of_live hlive), Res.bind_ok, ho, ne_eq, not_false_eq_true, if_true]
        exact d1
      · rw [d4]; refine overlapIf_congr ?_ _
        simp [ho]
      · rw [d5]; refine overlapIf_congr ?_ _
        simp [ho]

/-- **C68 (surfaces)** For a mesh of faces `MESH_LabelPType` labels exactly the faces with a shared vertex as
overlap (besides those that were labelled so before), then their vertices and edges that are no ghosts, and
nothing else.  The order of the faces in the mesh does not matter. -/
theorem C68_faces {T : Topo} (h : T.Consistent) (hl : T.AllLoops) {fl : List Nat} (hfl : ∀ f, f ∈ fl ↔ T.sf f = .live)
    (rl : List Nat) (L : PLabels) : ∃ L', T.labelPType fl rl 2 L = .ok L' ∧ T.LayerOfFaces L L' := by
  obtain ⟨pf, a1, a2⟩ := markLoop_ok (T := T) (p := L.v) (verts := fun f => T.mfVertices f true none)
    (V := fun f v => T.FaceVertex f v) fl L.f (by
      intro f hf
      obtain ⟨c, es, b1, -, -, -, -, b4⟩ := face_plain h hl ((hfl f).1 hf) true
      exact ⟨c, b1, fun v hv => faceVertex_live h ((b4 v).1 hv), b4⟩)
  obtain ⟨L', d1, d2, d3, d4, d5⟩ := spreadFaces_ok h hl fl { L with f := pf } fun f hf => (hfl f).1 hf
  refine ⟨L', ?_, fun f => ?_, fun v => ?_, fun e => ?_, d3⟩
  · unfold labelPType labelFaces
    rw [if_neg (by decide), if_pos rfl, a1, Res.bind_ok]; exact d1
  · rw [d2]; show pf f = _
    rw [a2]
    have : (f ∈ fl ∧ ∃ v, T.FaceVertex f v ∧ Shared (L.v v)) ↔ ∃ v, T.FaceVertex f v ∧ Shared (L.v v) := by
      constructor
      · exact fun x => x.2
      · rintro ⟨v, hv, hs⟩
        obtain ⟨e, he, hev⟩ := hv
        exact ⟨(hfl f).2 he.1, v, ⟨e, he, hev⟩, hs⟩
    by_cases hc : ∃ v, T.FaceVertex f v ∧ Shared (L.v v)
    · rw [if_pos (this.2 hc), if_pos hc]
    · rw [if_neg fun hx => hc (this.1 hx), if_neg hc]
  · rw [d4, d2]; refine overlapIf_congr ?_ _
    constructor
    · rintro ⟨f, -, f1, f2⟩; exact ⟨f, f1, f2⟩
    · rintro ⟨f, f1, e, he, hev⟩; exact ⟨f, (hfl f).2 he.1, f1, e, he, hev⟩
  · rw [d5, d2]; refine overlapIf_congr ?_ _
    constructor
    · rintro ⟨f, -, f1, f2⟩; exact ⟨f, f1, f2⟩
    · rintro ⟨f, f1, he⟩; exact ⟨f, (hfl f).2 he.1, f1, he⟩

/-! ### regions -/

theorem std_sub {vs c : List Nat} (hc : c ∈ stdCycles vs) : ∀ v ∈ c, v ∈ vs := by
  unfold stdCycles at hc
  split at hc <;> simp only [List.mem_cons, List.not_mem_nil, or_false] at hc <;>
    rcases hc with rfl | rfl | rfl | rfl | rfl | rfl <;> simp

theorem std_cover {vs : List Nat} (hlen : vs.length = 4 ∨ vs.length = 5 ∨ vs.length = 6 ∨ vs.length = 8) :
    ∀ v ∈ vs, ∃ c ∈ stdCycles vs, v ∈ c := by
  rcases hlen with h | h | h | h
  · match vs, h with
    | [a,b,c,d], _ => simp [stdCycles]
  · match vs, h with
    | [a,b,c,d,e], _ => simp [stdCycles]
  · match vs, h with
    | [a,b,c,d,e,f], _ => simp [stdCycles]
  · match vs, h with
    | [a,b,c,d,e,f,g,h], _ => simp [stdCycles]

theorem IsElement.mem {T : Topo} (h : T.Consistent) (hl : T.AllLoops) {r : Nat} {vs : List Nat} (el : T.IsElement r vs)
    (v : Nat) : v ∈ vs ↔ T.RegionVertex r v := by
  have seen : ∀ {f d c}, T.RegionHas r f → T.Seen f d c → c ≠ [] → ∀ v, v ∈ c ↔ T.FaceVertex f v := by
    intro f d c hrf hs h0 v
    have hf : T.sf f = .live := by
      obtain ⟨k1, k2⟩ := (regionHas_iff h).1 hrf
      exact h.rfacesLive k1 k2
    obtain ⟨c', es, b1, -, -, -, -, b4⟩ := face_plain h hl hf true
    obtain ⟨ws, hw, hn⟩ := hl f hf
    rw [seen_iff hf hw hn h0] at hs
    have := C23_vertices hf hw true
    rw [b1] at this
    injection this with this
    have := map_some_inj this
    simp only [if_true] at this
    rw [← b4, this, (hs.perm.trans (turned_perm d)).mem_iff]
  obtain ⟨fs, E⟩ := el.elt h hl
  constructor
  · intro hv
    obtain ⟨c, hc, hvc⟩ := std_cover el.size v hv
    obtain ⟨_, _, _, hu⟩ := el.faces
    obtain ⟨f, hlive, d, hd, hs⟩ := hu c hc
    exact ⟨f, ⟨hlive, d, hd⟩, (seen ⟨hlive, d, hd⟩ hs (by rintro rfl; simp at hvc) v).1 hvc⟩
  · rintro ⟨f, hrf, hv⟩
    obtain ⟨k1, k2⟩ := (regionHas_iff h).1 hrf
    rw [E.rf] at k2
    obtain ⟨i, hi⟩ := List.mem_iff_getElem?.1 k2
    obtain ⟨c, hc, d, hsd⟩ := E.at_ i f hi
    obtain ⟨ws, w1, w2, w3⟩ := hsd.loop
    have h0 : c ≠ [] := by rintro rfl; have := std_three _ hc; simp at this
    exact std_sub hc v ((seen hrf ((seen_iff hsd.live w1 w2 h0).2 w3) h0 v).2 hv)

theorem PlainRegion.live {T : Topo} {r : Nat} (hp : T.PlainRegion r) : T.sr r = .live := by
  rcases hp with ⟨vs, el, -⟩ | ⟨h, -⟩
  · exact el.live
  · exact h

theorem PlainRegion.answers {T : Topo} (h : T.Consistent) (hl : T.AllLoops) (hs : T.SimpleEdges) {r : Nat}
    (hp : T.PlainRegion r) : ∃ ws es fs : List Nat, T.regionVerts r = .ok (ws.map some) ∧ T.mrEdges r = .ok es ∧
      T.mrFaces r = .ok fs ∧ (∀ v, v ∈ ws ↔ T.RegionVertex r v) ∧ (∀ e, e ∈ es ↔ T.RegionEdge r e) ∧
      (∀ f, f ∈ fs ↔ T.RegionHas r f) := by
  have faces : ∀ {fs}, T.mrFaces r = .ok fs → ∀ f, f ∈ fs ↔ T.RegionHas r f := by
    intro fs hfs f
    rw [regionHas_iff h, mrFaces_some hfs]
    simp [hp.live]
  rcases hp with ⟨vs, el, ht, hno⟩ | ⟨hr, fs, ns, t, h1, h2, h3, h4, h5, h6, h7, h8⟩
  · obtain ⟨ws, a1, a2, a3⟩ := C57_standard h hl hs el ht fun h6 => hno (Or.inl h6)
    obtain ⟨-, es, b1, -, -, -, -, b2⟩ := C58_standard h hl hs el hno
    obtain ⟨fs, c1, -⟩ := el.faces
    refine ⟨ws, es, fs, ?_, b1, c1, fun v => a2.mem h hl v, b2, faces c1⟩
    unfold regionVerts; rw [a1]; rfl
  · obtain ⟨ws, a1, -, a3⟩ := C57_polyhedron h hl hr h1 h2 h6 h7 h8
    obtain ⟨es, b1, -, b2⟩ := C58_polyhedron h hl hr h1 h2 h3 h4 h5 h8
    refine ⟨ws, es, fs, ?_, b1, h1, a3, b2, faces h1⟩
    unfold regionVerts; rw [a1]; rfl

theorem spreadRegions_ok {T : Topo} (h : T.Consistent) (hl : T.AllLoops) (hs : T.SimpleEdges) :
    ∀ (rs : List Nat) (L : PLabels),
    (∀ r ∈ rs, T.PlainRegion r) → ∃ L', T.spreadRegions rs L = .ok L' ∧ L'.r = L.r ∧
      (∀ v, L'.v v = overlapIf (∃ r ∈ rs, L.r r = .overlap ∧ T.RegionVertex r v) (L.v v)) ∧
      (∀ e, L'.e e = overlapIf (∃ r ∈ rs, L.r r = .overlap ∧ T.RegionEdge r e) (L.e e)) ∧
      (∀ f, L'.f f = overlapIf (∃ r ∈ rs, L.r r = .overlap ∧ T.RegionHas r f) (L.f f)) := by
  intro rs
  induction rs with
  | nil =>
    intro L _
    exact ⟨L, rfl, rfl, fun v => by simp [overlapIf], fun e => by simp [overlapIf], fun e => by simp [overlapIf]⟩
  | cons r rs ih =>
    intro L hr
    have hp := hr r (by simp)
    have key : ∀ {P : Nat → Prop}, L.r r = .overlap →
        ((P r ∨ ∃ g ∈ rs, L.r g = .overlap ∧ P g) ↔ ∃ g ∈ r :: rs, L.r g = .overlap ∧ P g) := by
      intro P ho
      constructor
      · rintro (hv | ⟨g, g1, g2, g3⟩)
        · exact ⟨r, by simp, ho, hv⟩
        · exact ⟨g, by simp [g1], g2, g3⟩
      · rintro ⟨g, g1, g2, g3⟩
        rcases List.mem_cons.1 g1 with rfl | g1
        · exact Or.inl g3
        · exact Or.inr ⟨g, g1, g2, g3⟩
    by_cases ho : L.r r = .overlap
    · obtain ⟨ws, es, fs, a1, a2, a3, a4, a5, a6⟩ := hp.answers h hl hs
      obtain ⟨pv, b1, b2⟩ := raiseV_ok ws L.v fun v hv => by
        obtain ⟨f, -, hf⟩ := (a4 v).1 hv
        exact faceVertex_live h hf
      obtain ⟨pe, c1, c2⟩ := raiseE_ok es L.e fun e he => by
        obtain ⟨f, -, hf⟩ := (a5 e).1 he
        exact faceHas_live h hf
      obtain ⟨pf, e1, e2⟩ := raiseF_ok fs L.f fun f hf => by
        obtain ⟨k1, k2⟩ := (regionHas_iff h).1 ((a6 f).1 hf)
        exact h.rfacesLive k1 k2
      obtain ⟨L', d1, d2, d3, d4, d5⟩ := ih { L with v := pv, e := pe, f := pf } fun g hg => hr g (by simp [hg])
      refine ⟨L', ?_, d2, fun v => ?_, fun e => ?_, fun f => ?_⟩
      · simp only [spreadRegions, derefR_ok (alloc_of_live hp.live), Res.bind_ok, ho, ne_eq, not_true_eq_false, if_false,
          a1, a2, a3, b1, c1, e1]
        exact d1
      · rw [d3]; show overlapIf _ (pv v) = _
        rw [b2, overlapIf_or]
        refine overlapIf_congr ?_ _
        rw [a4]
        exact key (P := fun r => T.RegionVertex r v) ho
      · rw [d4]; show overlapIf _ (pe e) = _
        rw [c2, overlapIf_or]
        refine overlapIf_congr ?_ _
        rw [a5]
        exact key (P := fun r => T.RegionEdge r e) ho
      · rw [d5]; show overlapIf _ (pf f) = _
        rw [e2, overlapIf_or]
        refine overlapIf_congr ?_ _
        rw [a6]
        exact key (P := fun r => T.RegionHas r f) ho
    · obtain ⟨L', d1, d2, d3, d4, d5⟩ := ih L fun g hg => hr g (by simp [hg])
      refine ⟨L', ?_, d2, fun v => ?_, fun e => ?_, fun f => ?_⟩
      · simp only [spreadRegions, derefR_ok (alloc_of_live hp.live), Res.bind_ok, ho, ne_eq, not_false_eq_true, if_true]
        exact d1
      · rw [d3]; refine overlapIf_congr ?_ _
        simp [ho]
      · rw [d4]; refine overlapIf_congr ?_ _
        simp [ho]
      · rw [d5]; refine overlapIf_congr ?_ _
        simp [ho]

/-- **C68 (volumes)** For a mesh of regions `MESH_LabelPType` labels exactly the regions with a shared vertex as
overlap (besides those that were labelled so before), then their vertices, edges and faces that are no ghosts,
and nothing else. -/
theorem C68_regions {T : Topo} (h : T.Consistent) (hl : T.AllLoops) (hs : T.SimpleEdges) {rl : List Nat}
    (hrl : ∀ r, r ∈ rl ↔ T.sr r = .live) (hp : ∀ r, T.sr r = .live → T.PlainRegion r)
    (fl : List Nat) (L : PLabels) : ∃ L', T.labelPType fl rl 3 L = .ok L' ∧ T.LayerOfRegions L L' := by
  obtain ⟨pr, a1, a2⟩ := markLoop_ok (T := T) (p := L.v) (verts := T.regionVerts)
    (V := fun f v => T.RegionVertex f v) rl L.r (by
      intro r hr
      obtain ⟨ws, -, -, b1, -, -, b4, -⟩ := (hp r ((hrl r).1 hr)).answers h hl hs
      refine ⟨ws, b1, fun v hv => ?_, b4⟩
      obtain ⟨f, -, hf⟩ := (b4 v).1 hv
      exact faceVertex_live h hf)
  obtain ⟨L', d1, d2, d3, d4, d5⟩ := spreadRegions_ok h hl hs rl { L with r := pr } fun r hr => hp r ((hrl r).1 hr)
  have mem : ∀ {r f}, T.RegionHas r f → r ∈ rl := fun {r f} hrf => (hrl r).2 hrf.1
  refine ⟨L', ?_, fun r => ?_, fun v => ?_, fun e => ?_, fun f => ?_⟩
  · unfold labelPType labelRegions
    rw [if_pos rfl, a1, Res.bind_ok]; exact d1
  · rw [d2]; show pr r = _
    rw [a2]
    have : (r ∈ rl ∧ ∃ v, T.RegionVertex r v ∧ Shared (L.v v)) ↔ ∃ v, T.RegionVertex r v ∧ Shared (L.v v) := by
      constructor
      · exact fun x => x.2
      · rintro ⟨v, ⟨f, hf, hv⟩, hs⟩
        exact ⟨mem hf, v, ⟨f, hf, hv⟩, hs⟩
    by_cases hc : ∃ v, T.RegionVertex r v ∧ Shared (L.v v)
    · rw [if_pos (this.2 hc), if_pos hc]
    · rw [if_neg fun hx => hc (this.1 hx), if_neg hc]
  · rw [d3, d2]; refine overlapIf_congr ?_ _
    constructor
    · rintro ⟨f, -, f1, f2⟩; exact ⟨f, f1, f2⟩
    · rintro ⟨r, f1, f, hf, hv⟩; exact ⟨r, mem hf, f1, f, hf, hv⟩
  · rw [d4, d2]; refine overlapIf_congr ?_ _
    constructor
    · rintro ⟨f, -, f1, f2⟩; exact ⟨f, f1, f2⟩
    · rintro ⟨r, f1, f, hf, hv⟩; exact ⟨r, mem hf, f1, f, hf, hv⟩
  · rw [d5, d2]; refine overlapIf_congr ?_ _
    constructor
    · rintro ⟨f, -, f1, f2⟩; exact ⟨f, f1, f2⟩
    · rintro ⟨r, f1, hf⟩; exact ⟨r, mem hf, f1, hf⟩

/-- Other dimensions are refused: the process ends. -/
theorem C68_other_dimensions (T : Topo) (fl rl : List Nat) {d : Int} (h2 : d ≠ 2) (h3 : d ≠ 3) (L : PLabels) :
    T.labelPType fl rl d L = .fatal := by
  unfold labelPType; rw [if_neg h3, if_neg h2]

/-! ### non-vacuity and negations -/

/-- four triangles in a row -/
def triStrip : List Op :=
  List.replicate 6 .newVertex ++ [.newFace, .setVertices 0 [0,1,2], .newFace, .setVertices 1 [1,3,2],
    .newFace, .setVertices 2 [3,4,2], .newFace, .setVertices 3 [3,5,4]]

theorem triStrip_ok : ∃ T, empty.run triStrip = .ok T ∧ T.Consistent ∧ T.AllLoops ∧
    ∀ f, f ∈ [0,1,2,3] ↔ T.sf f = .live := by
  obtain ⟨T, h1, h2⟩ := reachable (os := triStrip) (by decide +kernel)
  have hq : answer triStrip (fun T => .ok (T.allLoopsB [[0,1,2],[1,3,2],[3,4,2],[3,5,4]] && decide (T.nf = 4) &&
      [0,1,2,3].all fun f => decide (T.sf f = .live))) = .ok true := by decide +kernel
  unfold answer at hq
  rw [h1, Res.bind_ok, Res.ok.injEq] at hq
  simp only [Bool.and_eq_true, decide_eq_true_iff, List.all_eq_true] at hq
  obtain ⟨⟨a, b⟩, c⟩ := hq
  refine ⟨T, h1, h2, allLoopsB_sound h2 a, fun f => ⟨c f, fun hf => ?_⟩⟩
  by_contra hn
  have : 4 ≤ f := by
    by_contra hlt
    have : f = 0 ∨ f = 1 ∨ f = 2 ∨ f = 3 := by omega
    rcases this with rfl | rfl | rfl | rfl <;> simp at hn
  rw [h2.newF f (by omega)] at hf
  cases hf

/-- only vertex 0 is a ghost -/
def oneGhost : PLabels where
  v := fun x => if x = 0 then .ghost else .interior
  e := fun _ => .interior
  f := fun _ => .interior
  r := fun _ => .interior

/-- What the labels of the vertices and faces are in the end. -/
def labelled (L : PLabels) : List PT × List PT := ((List.range 6).map L.v, (List.range 4).map L.f)

example : ∃ T L', empty.run triStrip = .ok T ∧ T.labelPType [0,1,2,3] [] 2 oneGhost = .ok L' ∧
    T.LayerOfFaces oneGhost L' := by
  obtain ⟨T, h1, h2, h3, h4⟩ := triStrip_ok
  obtain ⟨L', h5, h6⟩ := C68_faces h2 h3 h4 [] oneGhost
  exact ⟨T, L', h1, h5, h6⟩

example : answer triStrip (fun T => do let L ← T.labelPType [0,1,2,3] [] 2 oneGhost; pure (labelled L)) =
    .ok ([.ghost, .overlap, .overlap, .interior, .interior, .interior], [.overlap, .interior, .interior, .interior]) := by
  decide +kernel

example : ∃ T L', empty.run mixMesh = .ok T ∧ T.labelPType [] [3,0,2,1] 3 oneGhost = .ok L' ∧
    T.LayerOfRegions oneGhost L' := by
  obtain ⟨T, h1, h2, h3, h4, h5⟩ := mixMesh_ok
  have hq : answer mixMesh (fun T => .ok (decide (T.nr = 4))) = .ok true := by decide +kernel
  unfold answer at hq
  rw [h1, Res.bind_ok, Res.ok.injEq, decide_eq_true_iff] at hq
  have hel : ∀ r, r < 4 → ∃ vs, (r, vs) ∈ mixElements := by
    intro r hr
    have : r = 0 ∨ r = 1 ∨ r = 2 ∨ r = 3 := by omega
    rcases this with rfl | rfl | rfl | rfl <;> exact ⟨_, by simp [mixElements]; rfl⟩
  have hlt : ∀ r, T.sr r = .live → r < 4 := by
    intro r hr
    by_contra hge
    rw [h2.newR r (by omega)] at hr
    cases hr
  obtain ⟨L', h6, h7⟩ := C68_regions (rl := [3,0,2,1]) h2 h3 h4 (fun r => by
    constructor
    · intro hr
      obtain ⟨vs, hvs⟩ := hel r (by simp at hr; omega)
      exact (h5 _ hvs).1.live
    · intro hr
      have := hlt r hr
      simp; omega) (fun r hr => by
    obtain ⟨vs, hvs⟩ := hel r (hlt r hr)
    exact Or.inl ⟨vs, (h5 _ hvs).1, (h5 _ hvs).2.1, fun _ => (h5 _ hvs).2.2⟩) [] oneGhost
  exact ⟨T, L', h1, h6, h7⟩

example : answer mixMesh (fun T => do
      let L ← T.labelPType [] [3,0,2,1] 3 oneGhost; pure ((List.range 9).map L.v, (List.range 4).map L.r)) =
    .ok ([.ghost, .overlap, .overlap, .overlap, .overlap, .overlap, .overlap, .overlap, .interior],
      [.overlap, .interior, .interior, .interior]) := by
  decide +kernel

/-- **C68 (negation)** A ghost face does not remain a ghost: with a shared vertex (a ghost face has only such) it
becomes an overlap face. -/
theorem C68_negation_ghost_element :
    answer triStrip (fun T => do
      let L ← T.labelPType [0,1,2,3] [] 2 { oneGhost with f := fun f => if f = 0 then .ghost else .interior }
      pure (labelled L)) =
    .ok ([.ghost, .overlap, .overlap, .interior, .interior, .interior], [.overlap, .interior, .interior, .interior]) := by
  decide +kernel

/-- **C68 (negation)** Labelling again makes the layer grow: the elements around the vertices labelled by the first
call become overlap, too. -/
theorem C68_negation_again :
    answer triStrip (fun T => do
      let L ← T.labelPType [0,1,2,3] [] 2 oneGhost
      let L ← T.labelPType [0,1,2,3] [] 2 L
      pure (labelled L)) =
    .ok ([.ghost, .overlap, .overlap, .overlap, .overlap, .interior], [.overlap, .overlap, .overlap, .interior]) := by
  decide +kernel

end Topo
end MSTK
