import Verif.SimplexLemmas
import Verif.Props.Split
import Verif.Props.Tet2Hex

/-!
C74: `ME_Split_SimplexMesh` splits an edge of a mesh of triangles and tetrahedra.
-/
namespace MSTK
namespace Topo

/-! ### specification -/

/-- The live edge `e` goes from `v0` to `v1`; its faces are triangles and its regions tetrahedra, no two of them on
the same four vertices. -/
structure SimplexAt (T : Topo) (e v0 v1 : Nat) : Prop where
  live : T.se e = .live
  start : T.meVertex e false = .ok (some v0)
  stop : T.meVertex e true = .ok (some v1)
  proper : v0 ≠ v1
  tris : ∀ f, T.FaceHas f e → ∃ es, T.mfEdges f true none = .ok es ∧ es.length = 3
  tets : ∀ r, T.RegionEdge r e → ∃ w, w.length = 4 ∧ T.IsElement r w
  distinct : ∀ r r' w w', T.RegionEdge r e → T.RegionEdge r' e → T.IsElement r w → T.IsElement r' w' → w'.Perm w → r' = r

/-- The mesh `T'` is the mesh `T` with the edge `e` between `v0` and `v1` and all that it bounds split at the new
vertex `x`: each triangle and each tetrahedron of the edge is replaced by the two that have `x` in the place of one of
the ends. -/
structure EdgeHalved (T T' : Topo) (gf gf' : Nat → Nat × Int) (e v0 v1 x : Nat) : Prop where
  cons : T'.Consistent
  loops : T'.AllLoops
  simpleE : T'.SimpleEdges
  simpleF : T'.SimpleFaces
  new : T.sv x = .unused
  verts : ∀ v, T'.sv v = .live ↔ T.sv v = .live ∨ v = x
  /-- what is not at the edge is as before -/
  stays : Remains (· = e) (T.FaceHas · e) (T.RegionEdge · e) T T'
  classes : ∀ f, T.sf f = .live → ¬ T.FaceHas f e → gf' f = gf f
  /-- the edge, its faces and its regions are gone -/
  gone_e : T'.se e ≠ .live
  gone_f : ∀ f, T.FaceHas f e → T'.sf f ≠ .live
  gone_r : ∀ r, T.RegionEdge r e → T'.sr r ≠ .live
  /-- the halves of a face go the same way round and are on the same model entity -/
  faces : ∀ f, T.FaceHas f e → ∃ f1 f2, T'.sf f1 = .live ∧ T'.sf f2 = .live ∧ gf' f1 = gf f ∧ gf' f2 = gf f ∧
    ∀ d w, w ≠ [] → T.Seen f d w → T'.Seen f1 d (put v1 x w) ∧ T'.Seen f2 d (put v0 x w)
  regions : ∀ r, T.RegionEdge r e → ∃ r1 r2, T'.mrElementType r1 = .ok .tet ∧ T'.mrElementType r2 = .ok .tet ∧
    ∀ w, T.IsElement r w → T'.IsElement r1 (put v1 x w) ∧ T'.IsElement r2 (put v0 x w)
  /-- there are no other faces than these and those between the halves of the tetrahedra -/
  only_faces : ∀ g, T'.sf g = .live → (T.sf g = .live ∧ ¬ T.FaceHas g e) ∨
    (∃ f d w, T.FaceHas f e ∧ w ≠ [] ∧ T.Seen f d w ∧ (T'.Seen g d (put v1 x w) ∨ T'.Seen g d (put v0 x w))) ∨
    ∃ r a b d, T.IsElement r [v0, a, b, v1] ∧ T'.Seen g d [x, a, b]
  only_regions : ∀ r', T'.sr r' = .live → (T.sr r' = .live ∧ ¬ T.RegionEdge r' e) ∨
    ∃ r w, T.RegionEdge r e ∧ T.IsElement r w ∧ (T'.IsElement r' (put v1 x w) ∨ T'.IsElement r' (put v0 x w))
  old_edges : ∀ a b, a ≠ b → a ≠ x → b ≠ x →
    (T'.EdgeBetween a b ↔ T.EdgeBetween a b ∧ ¬ (a = v0 ∧ b = v1) ∧ ¬ (a = v1 ∧ b = v0))
  new_edges : ∀ y, y ≠ x → (T'.EdgeBetween x y ↔ y = v0 ∨ y = v1 ∨ ∃ f, T.FaceHas f e ∧ T.FaceVertex f y)

/-! ### helpers -/

theorem edgeHas_ends {T : Topo} {g a b : Nat} (hg : T.se g = .live) (h0 : T.meVertex g false = .ok (some a))
    (h1 : T.meVertex g true = .ok (some b)) (v : Nat) : T.EdgeHas g v ↔ v = a ∨ v = b := by
  rw [meVertex_ok (alloc_of_live hg)] at h0 h1
  simp only [endAt, Res.ok.injEq, Bool.false_eq_true, if_false, if_true] at h0 h1
  rw [EdgeHas_iff]
  unfold ends
  rw [h0, h1]
  simp only [hg, true_and, Option.some.injEq]
  constructor <;> rintro (rfl | rfl) <;> simp

theorem SimplexAt.has {T : Topo} {e v0 v1 : Nat} (s : T.SimplexAt e v0 v1) (v : Nat) : T.EdgeHas e v ↔ v = v0 ∨ v = v1 :=
  edgeHas_ends s.live s.start s.stop v

/-- an order of the vertices of a tetrahedron of the edge, with the ends of the edge first and last -/
theorem SimplexAt.order {T : Topo} (h : T.Consistent) (hl : T.AllLoops) {e v0 v1 : Nat} (s : T.SimplexAt e v0 v1) {r : Nat}
    (hr : T.RegionEdge r e) {w : List Nat} (el : T.IsElement r w) : ∃ a b, w.length = 4 ∧ Turn4 w [v0, a, b, v1] ∧ T.IsElement r [v0, a, b, v1] := by
  obtain ⟨w', w4, el'⟩ := s.tets r hr
  have h4 := tet_length el' el w4
  obtain ⟨f, hrf, hfe⟩ := hr
  have m0 : v0 ∈ w := (el.mem h hl v0).2 ⟨f, hrf, e, hfe, (s.has v0).2 (Or.inl rfl)⟩
  have m1 : v1 ∈ w := (el.mem h hl v1).2 ⟨f, hrf, e, hfe, (s.has v1).2 (Or.inr rfl)⟩
  obtain ⟨a, b, ht⟩ := turn4_ends h4 m0 m1 s.proper
  exact ⟨a, b, h4, ht, el.turn4 h hl h4 ht⟩

/-- The mesh without the faces and regions of the edge, and the edge split. -/
structure Opened (T T3 : Topo) (e v0 v1 x : Nat) : Prop where
  cons : T3.Consistent
  loops : T3.AllLoops
  simpleE : T3.SimpleEdges
  simpleF : T3.SimpleFaces
  new : T.sv x = .unused
  verts : ∀ v, T3.sv v = .live ↔ T.sv v = .live ∨ v = x
  up : T.Upward (· = e) (T.FaceHas · e) (T.RegionEdge · e)
  stays : Remains (· = e) (T.FaceHas · e) (T.RegionEdge · e) T T3
  gone_e : T3.se e = .freed
  gone_f : ∀ f, T.FaceHas f e → T3.sf f = .freed
  gone_r : ∀ r, T.RegionEdge r e → T3.sr r = .freed
  onlyF : ∀ f, T3.sf f = .live → T.sf f = .live ∧ ¬ T.FaceHas f e
  onlyR : ∀ r, T3.sr r = .live → T.sr r = .live ∧ ¬ T.RegionEdge r e
  edges : ∀ g p q, p ≠ q → T3.EdgeHas g p → T3.EdgeHas g q → (g ≠ e ∧ T.EdgeHas g p ∧ T.EdgeHas g q) ∨
    (p = x ∧ (q = v0 ∨ q = v1)) ∨ (q = x ∧ (p = v0 ∨ p = v1))
  half0 : T3.EdgeBetween x v0
  half1 : T3.EdgeBetween x v1

theorem Upward.edge (T : Topo) (e : Nat) : T.Upward (· = e) (T.FaceHas · e) (T.RegionEdge · e) :=
  ⟨fun _ _ hf he => he ▸ hf, fun _ f hr hf => ⟨f, hr, hf⟩⟩

theorem opened {T : Topo} (h : T.Consistent) (hl : T.AllLoops) (hE : T.SimpleEdges) (hF : T.SimpleFaces) {e v0 v1 : Nat}
    (s : T.SimplexAt e v0 v1) {T2 : Topo} (c : Cut T Nothing Nothing (T.FaceHas · e) (T.RegionEdge · e) T2) :
    ∃ T3 x, T2.meSplit e = .ok (T3, some x) ∧ Opened T T3 e v0 v1 x := by
  have hup := Upward.edge T e
  have he2 : T2.se e = .live := by rw [c.se]; exact gone_live.2 ⟨s.live, id⟩
  have st2 : Remains (· = e) (T.FaceHas · e) (T.RegionEdge · e) T T2 :=
    c.stays.mono (fun _ hx => hx.elim) (fun _ hx => hx) (fun _ hx => hx)
  have hno : ∀ f, ¬ T2.FaceHas f e := by
    intro f hf
    have hlive : T.sf f = .live ∧ ¬ T.FaceHas f e := by have := hf.1; rw [c.sf] at this; exact gone_live.1 this
    exact hlive.2 ((st2.faceHas hlive.1 hlive.2).1 hf)
  have hv : ∀ b, T2.meVertex e b = T.meVertex e b := by
    intro b; rw [meVertex_ok (alloc_of_live he2), meVertex_ok (alloc_of_live s.live), c.ev]
  obtain ⟨T3, x, e0, e1, r, x1, x2, S⟩ := C29_split_partial c.cons (e := e) (a := v0) (b := v1)
    ⟨he2, (hv _).trans s.start, (hv _).trans s.stop, s.proper, fun f _ hf => absurd hf (hno f), fun _ f _ _ hf => absurd hf (hno f)⟩
  have hxT : T.sv x = .unused := by
    have := x1
    rw [c.sv] at this
    unfold gone at this
    simpa using this
  have st3 : Remains (· = e) (T.FaceHas · e) (T.RegionEdge · e) T2 T3 := by
    refine ⟨fun v hv => ?_, fun g hg hd => ?_, fun f hf hd => ?_, fun r hr hd => ?_⟩
    · rw [S.other_vertices v (by rw [hv]; simp)]; exact hv
    · obtain ⟨k1, k2⟩ := S.other_edges g hd (by rw [hg]; simp)
      have g3 : T3.se g = .live := k1.trans hg
      have q1 := k2 false
      have q2 := k2 true
      rw [meVertex_ok (alloc_of_live g3), meVertex_ok (alloc_of_live hg)] at q1 q2
      injection q1 with q1
      injection q2 with q2
      exact ⟨g3, Prod.ext q1 q2⟩
    · obtain ⟨k1, -, k3⟩ := S.other_faces f hf (hno f)
      exact ⟨by rw [S.faces]; exact hf, k1, k3⟩
    · obtain ⟨k1, k2⟩ := S.region_faces r
      exact ⟨by rw [S.regions]; exact hr, k1, k2, S.other_types r fun f _ => hno f⟩
  have st := st2.trans st3
  have v01 : T.sv v0 = .live := by
    have := (s.has v0).2 (Or.inl rfl)
    exact h.ve.down e v0 s.live (EdgeHas_iff.1 this).2
  have v11 : T.sv v1 = .live := by
    have := (s.has v1).2 (Or.inr rfl)
    exact h.ve.down e v1 s.live (EdgeHas_iff.1 this).2
  have hx0 : x ≠ v0 := by rintro rfl; rw [hxT] at v01; cases v01
  have hx1 : x ≠ v1 := by rintro rfl; rw [hxT] at v11; cases v11
  have onlyF : ∀ f, T3.sf f = .live → T.sf f = .live ∧ ¬ T.FaceHas f e := by
    intro f hf; rw [S.faces, c.sf] at hf; exact gone_live.1 hf
  have onlyR : ∀ f, T3.sr f = .live → T.sr f = .live ∧ ¬ T.RegionEdge f e := by
    intro f hf; rw [S.regions, c.sr] at hf; exact gone_live.1 hf
  have n0 := S.new_edges e0 (by simp)
  have n1 := S.new_edges e1 (by simp)
  have c0 := S.chain.2 0 e0 rfl
  have c1 := S.chain.2 1 e1 rfl
  simp only [List.getElem?_cons_zero, List.getElem?_cons_succ, Nat.zero_add] at c0 c1
  have ed : ∀ g p, T3.EdgeHas g p → (g ≠ e ∧ T.EdgeHas g p) ∨ (g = e0 ∧ (p = v0 ∨ p = x)) ∨ (g = e1 ∧ (p = x ∨ p = v1)) := by
    intro g p hg
    have hgl := (EdgeHas_iff.1 hg).1
    rcases S.only_edges g hgl with k | k
    · left
      have hge : g ≠ e := by rintro rfl; rw [S.gone] at hgl; cases hgl
      have hgT : T.se g = .live := by rw [c.se] at k; exact (gone_live.1 k).1
      exact ⟨hge, st.edgeHas_back hge hgT hg⟩
    · right
      simp only [List.mem_cons, List.not_mem_nil, or_false] at k
      rcases k with rfl | rfl
      · exact Or.inl ⟨rfl, (edgeHas_ends n0.2 c0.1 c0.2 p).1 hg⟩
      · exact Or.inr ⟨rfl, (edgeHas_ends n1.2 c1.1 c1.2 p).1 hg⟩
  have hold : ∀ g, T.EdgeHas g x → False := by
    intro g hg
    have hg' := EdgeHas_iff.1 hg
    have := h.ve.down g x hg'.1 hg'.2
    rw [hxT] at this; cases this
  have h01 : e0 ≠ e1 := by have := S.distinct.2; simpa using this
  have hnew0 : ∀ p, ¬ T.EdgeHas e0 p := by
    intro p hp
    have h1 := (EdgeHas_iff.1 hp).1
    have h2 := n0.1
    rw [c.se] at h2
    unfold gone at h2
    simp only [if_false] at h2
    rw [h1] at h2; cases h2
  have hnew1 : ∀ p, ¬ T.EdgeHas e1 p := by
    intro p hp
    have h1 := (EdgeHas_iff.1 hp).1
    have h2 := n1.1
    rw [c.se] at h2
    unfold gone at h2
    simp only [if_false] at h2
    rw [h1] at h2; cases h2
  refine ⟨T3, x, r, ⟨S.consistent, ?_, ?_, ?_, hxT, ?_, hup, st, S.gone, ?_, ?_, onlyF, onlyR, ?_, ?_, ?_⟩⟩
  · intro f hf
    obtain ⟨f1, f2⟩ := onlyF f hf
    obtain ⟨ws, hw, hn⟩ := hl f f1
    exact ⟨ws, st.loop h hup f1 f2 hw, hn⟩
  · intro g g' a b hab k1 k2 k3 k4
    have := s.proper
    rcases ed g a k1 with ⟨j1, j2⟩ | ⟨rfl, j2⟩ | ⟨rfl, j2⟩ <;> rcases ed _ b k2 with ⟨j3, j4⟩ | ⟨j3, j4⟩ | ⟨j3, j4⟩ <;>
    rcases ed g' a k3 with ⟨i1, i2⟩ | ⟨rfl, i2⟩ | ⟨rfl, i2⟩ <;> rcases ed _ b k4 with ⟨i3, i4⟩ | ⟨i3, i4⟩ | ⟨i3, i4⟩ <;>
    first
      | rfl
      | exact hE g g' a b hab j2 j4 i2 i4
      | exact absurd i3 h01
      | exact absurd i3.symm h01
      | exact absurd j3 h01
      | exact absurd j3.symm h01
      | exact absurd j2 (j3 ▸ hnew0 a)
      | exact absurd j2 (j3 ▸ hnew1 a)
      | exact absurd i2 (i3 ▸ hnew0 a)
      | exact absurd i2 (i3 ▸ hnew1 a)
      | exact absurd j4 (hnew0 b)
      | exact absurd j4 (hnew1 b)
      | exact absurd i4 (hnew0 b)
      | exact absurd i4 (hnew1 b)
      | (exfalso; rcases j2 with rfl | rfl <;> rcases j4 with rfl | rfl <;> first | exact hab rfl | exact hold _ i2 | exact hold _ i4)
      | (exfalso; rcases i2 with rfl | rfl <;> rcases i4 with rfl | rfl <;> first | exact hab rfl | exact hold _ j2 | exact hold _ j4)
      | (exfalso; omega)
  · intro f g d d' c' h3 hf hg k1 k2
    have h0 : c' ≠ [] := by rintro rfl; simp at h3
    obtain ⟨f1, f2⟩ := onlyF f hf
    obtain ⟨g1, g2⟩ := onlyF g hg
    exact hF f g d d' c' h3 f1 g1 ((st.seen h hl hup f1 f2 h0).1 k1) ((st.seen h hl hup g1 g2 h0).1 k2)
  · intro v
    constructor
    · intro hv
      rcases S.only_vertices v hv with k | k
      · rw [c.sv] at k; exact Or.inl (gone_live.1 k).1
      · simp only [List.mem_cons, List.not_mem_nil, or_false] at k
        rcases k with rfl | rfl | rfl
        · exact Or.inl v01
        · exact Or.inr rfl
        · exact Or.inl v11
    · rintro (k | rfl)
      · exact st.verts v k
      · exact x2
  · intro f hf; rw [S.faces, c.sf]; unfold gone; rw [if_pos hf]
  · intro f hf; rw [S.regions, c.sr]; unfold gone; rw [if_pos hf]
  · intro g p q hpq k1 k2
    rcases ed g p k1 with ⟨j1, j2⟩ | ⟨j1, j2⟩ | ⟨j1, j2⟩ <;> rcases ed g q k2 with ⟨j3, j4⟩ | ⟨j3, j4⟩ | ⟨j3, j4⟩ <;>
    first
      | exact Or.inl ⟨j1, j2, j4⟩
      | exact absurd j2 (j3 ▸ hnew0 p)
      | exact absurd j2 (j3 ▸ hnew1 p)
      | exact absurd j4 (j1 ▸ hnew0 q)
      | exact absurd j4 (j1 ▸ hnew1 q)
      | exact absurd (j1.symm.trans j3) h01
      | exact absurd (j3.symm.trans j1) h01
      | (right; omega)
  · exact ⟨e0, (edgeHas_ends n0.2 c0.1 c0.2 x).2 (Or.inr rfl), (edgeHas_ends n0.2 c0.1 c0.2 v0).2 (Or.inl rfl)⟩
  · exact ⟨e1, (edgeHas_ends n1.2 c1.1 c1.2 x).2 (Or.inl rfl), (edgeHas_ends n1.2 c1.1 c1.2 v1).2 (Or.inr rfl)⟩

theorem Seen.flip {T : Topo} (hl : T.AllLoops) {f : Nat} {d : Bool} {c : List Nat} (hf : T.sf f = .live) (hc : c ≠ [])
    (hs : T.Seen f d c) : T.Seen f (!d) c.reverse := by
  obtain ⟨ws, hw, hn⟩ := hl f hf
  rw [seen_iff hf hw hn hc] at hs
  rw [seen_iff hf hw hn (by simpa using hc)]
  cases d
  · have := hs.reverse
    rw [show turned false ws = ws.reverse from rfl, List.reverse_reverse] at this
    exact this
  · exact hs.reverse

theorem TriAt.same {T : Topo} (hl : T.AllLoops) (hF : T.SimpleFaces) {v0 v1 f f' o p q p' q' : Nat} (hf : T.sf f = .live)
    (hf' : T.sf f' = .live) (t : T.TriAt v0 v1 f o p q) (t' : T.TriAt v0 v1 f' o p' q') : f' = f := by
  have key : p' = p ∧ q' = q ∨ p' = q ∧ q' = p := by
    rcases t.ends with ⟨rfl, rfl⟩ | ⟨rfl, rfl⟩ <;> rcases t'.ends with ⟨rfl, rfl⟩ | ⟨rfl, rfl⟩ <;> simp
  rcases key with ⟨rfl, rfl⟩ | ⟨rfl, rfl⟩
  · exact hF f f' true true _ (by simp) hf hf' t.seen t'.seen
  · exact hF f f' true false _ (by simp) hf hf' t.seen ((t'.seen.flip hl hf' (by simp)).rotate hf' hl (by simp) (rot3.2 (by simp)))

/-- the cycles of the two halves of a tetrahedron -/
theorem half_cycles {x a b v : Nat} : stdCycles [x, b, a, v] = [[x, a, b], [x, b, v], [b, a, v], [x, v, a]] := rfl

/-- two tetrahedra at `x` whose faces are all different -/
theorem half_far {x a b v a' b' v' : Nat} (n : x ≠ a ∧ x ≠ b ∧ x ≠ v) (n' : x ≠ a' ∧ x ≠ b' ∧ x ≠ v')
    (h1 : ¬ (a' = a ∧ b' = b) ∧ ¬ (a' = b ∧ b' = v) ∧ ¬ (a' = v ∧ b' = a))
    (h2 : ¬ (b' = a ∧ v' = b) ∧ ¬ (b' = b ∧ v' = v) ∧ ¬ (b' = v ∧ v' = a))
    (h3 : ¬ (v' = a ∧ a' = b) ∧ ¬ (v' = b ∧ a' = v) ∧ ¬ (v' = v ∧ a' = a)) :
    ∀ c ∈ stdCycles [x, b, a, v], ∀ c' ∈ stdCycles [x, b', a', v'], ¬ c' ~r c := by
  obtain ⟨n1, n2, n3⟩ := n
  obtain ⟨m1, m2, m3⟩ := n'
  intro c hc c' hc' hr
  simp only [half_cycles, List.mem_cons, List.not_mem_nil, or_false] at hc hc'
  rcases hc with rfl | rfl | rfl | rfl <;> rcases hc' with rfl | rfl | rfl | rfl <;> rw [rot3] at hr <;> grind

theorem halves_apart {x a b a' b' v0 v1 : Nat} (n : [x, v0, v1, a, b].Nodup) (n' : [x, v0, v1, a', b'].Nodup) (ha : a ≠ a') (hb : b ≠ b')
    (hab : ¬ (a = b' ∧ b = a')) : ∀ vs ∈ [[x, b, a, v0], [x, a, b, v1]], ∀ ws ∈ [[x, b', a', v0], [x, a', b', v1]],
    ∀ c ∈ stdCycles vs, ∀ c' ∈ stdCycles ws, ¬ c' ~r c := by
  simp only [List.nodup_cons, List.mem_cons, List.not_mem_nil, or_false, not_or, not_false_eq_true, List.nodup_nil, and_true] at n n'
  obtain ⟨⟨n1, n2, n3, n4⟩, ⟨n5, n6, n7⟩, ⟨n8, n9⟩, n10⟩ := n
  obtain ⟨⟨-, -, m3, m4⟩, ⟨-, m6, m7⟩, ⟨m8, m9⟩, m10⟩ := n'
  intro vs hvs ws hws
  simp only [List.mem_cons, List.not_mem_nil, or_false] at hvs hws
  rcases hvs with rfl | rfl <;> rcases hws with rfl | rfl <;> apply half_far <;> grind

theorem half_apart {x a b v0 v1 : Nat} (n : [x, v0, v1, a, b].Nodup) :
    ∀ c ∈ stdCycles [x, b, a, v0], ∀ c' ∈ stdCycles [x, a, b, v1], ¬ c' ~r c := by
  simp only [List.nodup_cons, List.mem_cons, List.not_mem_nil, or_false, not_or, not_false_eq_true, List.nodup_nil, and_true] at n
  obtain ⟨⟨n1, n2, n3, n4⟩, ⟨n5, n6, n7⟩, ⟨n8, n9⟩, n10⟩ := n
  intro c hc c' hc' hr
  simp only [half_cycles, List.mem_cons, List.not_mem_nil, or_false] at hc hc'
  rcases hc with rfl | rfl | rfl | rfl <;> rcases hc' with rfl | rfl | rfl | rfl <;> rw [rot3] at hr <;> omega

/-- what is chosen for the faces and regions of the edge -/
structure Chosen (T : Topo) (e v0 v1 : Nat) (O : Nat → Nat × Nat × Nat) (A : Nat → Nat × Nat) (fs rs : List Nat) : Prop where
  fn : fs.Nodup
  fm : ∀ f, f ∈ fs ↔ T.FaceHas f e
  tri : ∀ f ∈ fs, T.TriAt v0 v1 f (O f).1 (O f).2.1 (O f).2.2
  rn : rs.Nodup
  rm : ∀ r, r ∈ rs ↔ T.RegionEdge r e
  tet : ∀ r ∈ rs, T.IsElement r [v0, (A r).1, (A r).2, v1]

theorem Chosen.nodup {T : Topo} {e v0 v1 : Nat} {O : Nat → Nat × Nat × Nat} {A : Nat → Nat × Nat} {fs rs : List Nat}
    (h : T.Consistent) (hl : T.AllLoops) (C : T.Chosen e v0 v1 O A fs rs) {x : Nat} (hx : T.sv x = .unused) {r : Nat} (hr : r ∈ rs) :
    [x, v0, v1, (A r).1, (A r).2].Nodup ∧ ∀ v ∈ [v0, (A r).1, (A r).2, v1], T.sv v = .live := by
  have el := C.tet r hr
  have hv : ∀ v ∈ [v0, (A r).1, (A r).2, v1], T.sv v = .live := by
    intro v hv
    obtain ⟨f, hrf, e', hfe, hev⟩ := (el.mem h hl v).1 hv
    exact h.ve.down e' v (EdgeHas_iff.1 hev).1 (EdgeHas_iff.1 hev).2
  refine ⟨?_, hv⟩
  have hxv : ∀ v ∈ [v0, (A r).1, (A r).2, v1], x ≠ v := by
    rintro v hv' rfl
    have := hv x hv'
    rw [hx] at this; cases this
  have n := el.nodup
  simp only [List.nodup_cons, List.mem_cons, List.not_mem_nil, or_false, not_or, not_false_eq_true, List.nodup_nil, and_true] at n ⊢
  simp only [List.mem_cons, List.not_mem_nil, or_false, forall_eq_or_imp, forall_eq] at hxv
  obtain ⟨x1, x2, x3, x4⟩ := hxv
  obtain ⟨⟨n1, n2, n3⟩, ⟨n4, n5⟩, n6⟩ := n
  exact ⟨⟨x1, x4, x2, x3⟩, ⟨n3, n1, n2⟩, ⟨Ne.symm n5, Ne.symm n6⟩, n4⟩

/-- The triangles are made. -/
theorem tris_made {T T3 : Topo} (h : T.Consistent) (hl : T.AllLoops) (hF : T.SimpleFaces) {e v0 v1 x : Nat} (op : Opened T T3 e v0 v1 x)
    {O : Nat → Nat × Nat × Nat} {A : Nat → Nat × Nat} {fs rs : List Nat} (C : T.Chosen e v0 v1 O A fs rs)
    (hx0 : x ≠ v0) (hx1 : x ≠ v1) :
    ∃ T4, addFaces (fs.flatMap fun f => [[(O f).1, (O f).2.1, x], [(O f).1, x, (O f).2.2]]) T3 = .ok T4 ∧
      FacesMore T3 T4 (fs.flatMap fun f => [[(O f).1, (O f).2.1, x], [(O f).1, x, (O f).2.2]]) := by
  have hold : ∀ g d c, T3.sf g = .live → T3.Seen g d c → x ∉ c := by
    intro g d c hg hs hx
    obtain ⟨g1, g2⟩ := op.onlyF g hg
    have h0 : c ≠ [] := by rintro rfl; simp at hx
    have := ((op.stays.seen h hl op.up g1 g2 h0).1 hs).vlive h hl g1 h0 x hx
    rw [op.new] at this; cases this
  have hv : ∀ f ∈ fs, T.sv (O f).1 = .live ∧ T.sv (O f).2.1 = .live ∧ T.sv (O f).2.2 = .live ∧
      (O f).1 ≠ x ∧ (O f).2.1 ≠ x ∧ (O f).2.2 ≠ x ∧ (O f).1 ≠ (O f).2.1 ∧ (O f).1 ≠ (O f).2.2 ∧ (O f).2.1 ≠ (O f).2.2 := by
    intro f hf
    have t := C.tri f hf
    have hfl := ((C.fm f).1 hf).1
    have k := t.seen.vlive h hl hfl (by simp)
    have n := t.seen.nodup hl hfl (by simp)
    simp only [List.nodup_cons, List.mem_cons, List.not_mem_nil, or_false, not_or, not_false_eq_true, List.nodup_nil, and_true] at n
    have hx : ∀ v, T.sv v = .live → v ≠ x := by rintro v hv rfl; rw [op.new] at hv; cases hv
    exact ⟨k _ (by simp), k _ (by simp), k _ (by simp), hx _ (k _ (by simp)), hx _ (k _ (by simp)), hx _ (k _ (by simp)), n.1.1, n.1.2, n.2⟩
  have hxl : T3.sv x = .live := (op.verts x).2 (Or.inr rfl)
  apply addFaces_more _ op.cons op.loops op.simpleE op.simpleF
  · intro c hc
    obtain ⟨f, hf, hc⟩ := List.mem_flatMap.1 hc
    obtain ⟨a1, a2, a3, a4, a5, a6, a7, a8, a9⟩ := hv f hf
    have b1 := op.stays.verts _ a1
    have b2 := op.stays.verts _ a2
    have b3 := op.stays.verts _ a3
    simp only [List.mem_cons, List.not_mem_nil, or_false] at hc
    rcases hc with rfl | rfl
    · refine ⟨?_, ?_, by simp, by simp⟩
      · intro v hv; simp only [List.mem_cons, List.not_mem_nil, or_false] at hv
        rcases hv with rfl | rfl | rfl <;> assumption
      · simp [a4, a5, a7]
    · refine ⟨?_, ?_, by simp, by simp⟩
      · intro v hv; simp only [List.mem_cons, List.not_mem_nil, or_false] at hv
        rcases hv with rfl | rfl | rfl <;> assumption
      · simp [a4, a8, a6.symm]
  · intro c hc g d hg hs
    obtain ⟨f, hf, hc⟩ := List.mem_flatMap.1 hc
    refine hold g d c hg hs ?_
    simp only [List.mem_cons, List.not_mem_nil, or_false] at hc
    rcases hc with rfl | rfl <;> simp
  · rw [List.pairwise_flatMap]
    constructor
    · intro f hf
      obtain ⟨a1, a2, a3, a4, a5, a6, a7, a8, a9⟩ := hv f hf
      simp only [List.pairwise_cons, List.mem_cons, List.not_mem_nil, or_false, forall_eq, false_imp_iff, implies_true, List.Pairwise.nil, and_true]
      intro hp
      have := hp.mem_iff.1 (show (O f).2.2 ∈ _ by simp)
      simp only [List.mem_cons, List.not_mem_nil, or_false] at this
      rcases this with k | k | k
      · exact a8 k.symm
      · exact a9 k.symm
      · exact a6 k
    · refine C.fn.imp_of_mem ?_
      intro f f' hf hf' hne' c hc c' hc' hp
      obtain ⟨a1, a2, a3, a4, a5, a6, a7, a8, a9⟩ := hv f' hf'
      have t := C.tri f hf
      have t' := C.tri f' hf'
      have ho : (O f').1 ∈ c' := by
        simp only [List.mem_cons, List.not_mem_nil, or_false] at hc'
        rcases hc' with rfl | rfl <;> simp
      have ho := hp.mem_iff.1 ho
      have : (O f').1 = (O f).1 := by
        have o1 := t'.out
        have e1 := t.ends
        simp only [List.mem_cons, List.not_mem_nil, or_false] at hc
        rcases hc with rfl | rfl <;> simp only [List.mem_cons, List.not_mem_nil, or_false] at ho <;> omega
      rw [this] at t'
      exact hne' (t.same hl hF ((C.fm f).1 hf).1 ((C.fm f').1 hf').1 t').symm

/-- The tetrahedra are made. -/
theorem tets_made {T T3 T4 : Topo} (h : T.Consistent) (hl : T.AllLoops) (hF : T.SimpleFaces) {e v0 v1 x : Nat} (op : Opened T T3 e v0 v1 x)
    {O : Nat → Nat × Nat × Nat} {A : Nat → Nat × Nat} {fs rs : List Nat} (C : T.Chosen e v0 v1 O A fs rs) {cs : List (List Nat)}
    (hd : ∀ r r' w w', T.RegionEdge r e → T.RegionEdge r' e → T.IsElement r w → T.IsElement r' w' → w'.Perm w → r' = r)
    (m : FacesMore T3 T4 cs) :
    ∃ T5, addRegions (rs.flatMap fun r => [[x, (A r).2, (A r).1, v0], [x, (A r).1, (A r).2, v1]]) T4 = .ok T5 ∧
      RegsMore T4 T5 (rs.flatMap fun r => [[x, (A r).2, (A r).1, v0], [x, (A r).1, (A r).2, v1]]) := by
  have st : Remains (· = e) (T.FaceHas · e) (T.RegionEdge · e) T T4 :=
    op.stays.trans (m.stays.mono (fun _ hx => hx.elim) (fun _ hx => hx.elim) (fun _ hx => hx.elim))
  have hxl : T4.sv x = .live := (m.sv x).2 ((op.verts x).2 (Or.inr rfl))
  have live : ∀ v, T.sv v = .live → T4.sv v = .live := st.verts
  apply addRegions_more _ m.cons m.loops m.simpleE m.simpleF
  · intro vs hvs
    obtain ⟨r, hr, hvs⟩ := List.mem_flatMap.1 hvs
    obtain ⟨n, hv⟩ := C.nodup h hl op.new hr
    simp only [List.mem_cons, List.not_mem_nil, or_false, forall_eq_or_imp, forall_eq] at hv
    obtain ⟨a1, a2, a3, a4⟩ := hv
    have b1 := live _ a1
    have b2 := live _ a2
    have b3 := live _ a3
    have b4 := live _ a4
    simp only [List.nodup_cons, List.mem_cons, List.not_mem_nil, or_false, not_or, not_false_eq_true, List.nodup_nil, and_true] at n
    obtain ⟨⟨n1, n2, n3, n4⟩, ⟨n5, n6, n7⟩, ⟨n8, n9⟩, n10⟩ := n
    simp only [List.mem_cons, List.not_mem_nil, or_false] at hvs
    rcases hvs with rfl | rfl
    · refine ⟨?_, ?_, by simp⟩
      · intro v hv; simp only [List.mem_cons, List.not_mem_nil, or_false] at hv
        rcases hv with rfl | rfl | rfl | rfl <;> assumption
      · simp [n1, n3, n4, Ne.symm n10, Ne.symm n6, Ne.symm n7]
    · refine ⟨?_, ?_, by simp⟩
      · intro v hv; simp only [List.mem_cons, List.not_mem_nil, or_false] at hv
        rcases hv with rfl | rfl | rfl | rfl <;> assumption
      · simp [n2, n3, n4, n10, Ne.symm n8, Ne.symm n9]
  · intro vs hvs c hc o f hu
    obtain ⟨r, hr, hvs⟩ := List.mem_flatMap.1 hvs
    obtain ⟨o1, o2⟩ := op.onlyR o ((m.sr o).1 hu.1)
    have hcne := stdCycles_ne hc
    have hu := (st.uses h hl op.up o1 o2 hcne).1 hu
    have hfl := hu.flive h
    have hnx : x ∉ c := by
      intro hx
      obtain ⟨-, d, -, hs⟩ := hu
      have := hs.vlive h hl hfl hcne x hx
      rw [op.new] at this; cases this
    have el := C.tet r hr
    obtain ⟨_, _, _, hall⟩ := el.faces
    have hre := (C.rm r).1 hr
    simp only [List.mem_cons, List.not_mem_nil, or_false] at hvs
    rcases hvs with rfl | rfl
    · rw [half_cycles] at hc
      simp only [List.mem_cons, List.not_mem_nil, or_false] at hc
      rcases hc with rfl | rfl | rfl | rfl <;> first | (refine absurd ?_ hnx; simp; done) | skip
      obtain ⟨g, hg⟩ := hall [v0, (A r).2, (A r).1] (by simp [stdCycles])
      obtain ⟨-, k⟩ := uses_same h hl hF hg hu (rot3.2 (by simp)) (by simp)
      exact o2 (k ▸ hre)
    · rw [half_cycles] at hc
      simp only [List.mem_cons, List.not_mem_nil, or_false] at hc
      rcases hc with rfl | rfl | rfl | rfl <;> first | (refine absurd ?_ hnx; simp; done) | skip
      obtain ⟨g, hg⟩ := hall [(A r).1, (A r).2, v1] (by simp [stdCycles])
      obtain ⟨-, k⟩ := uses_same h hl hF hg hu (rot3.2 (by simp)) (by simp)
      exact o2 (k ▸ hre)
  · rw [List.pairwise_flatMap]
    constructor
    · intro r hr
      obtain ⟨n, -⟩ := C.nodup h hl op.new hr
      simp only [List.pairwise_cons, List.mem_cons, List.not_mem_nil, or_false, forall_eq, false_imp_iff, implies_true, List.Pairwise.nil, and_true]
      exact half_apart n
    · refine C.rn.imp_of_mem ?_
      intro r r' hr hr' hne' vs hvs ws hws c hc c' hc'
      obtain ⟨n, -⟩ := C.nodup h hl op.new hr
      obtain ⟨n', -⟩ := C.nodup h hl op.new hr'
      have el := C.tet r hr
      have el' := C.tet r' hr'
      obtain ⟨_, _, _, hall⟩ := el.faces
      obtain ⟨_, _, _, hall'⟩ := el'.faces
      refine halves_apart n n' ?_ ?_ ?_ vs hvs ws hws c hc c' hc'
      · intro k
        obtain ⟨g, hg⟩ := hall [v0, (A r).1, v1] (by simp [stdCycles])
        obtain ⟨g', hg'⟩ := hall' [v0, (A r').1, v1] (by simp [stdCycles])
        exact hne' (uses_same h hl hF hg hg' (by rw [k]) (by simp)).2.symm
      · intro k
        obtain ⟨g, hg⟩ := hall [v0, v1, (A r).2] (by simp [stdCycles])
        obtain ⟨g', hg'⟩ := hall' [v0, v1, (A r').2] (by simp [stdCycles])
        exact hne' (uses_same h hl hF hg hg' (by rw [k]) (by simp)).2.symm
      · rintro ⟨k1, k2⟩
        refine hne' (hd r r' _ _ ((C.rm r).1 hr) ((C.rm r').1 hr') el el' ?_).symm
        rw [k1, k2]
        exact (List.Perm.swap _ _ _).cons v0

theorem turned_rotated {c c' : List Nat} (d : Bool) (h : c ~r c') : turned d c ~r turned d c' := by
  cases d
  · exact h.reverse
  · exact h

theorem seen_put {T T5 : Topo} (hl : T.AllLoops) {f g z x : Nat} {c0 : List Nat} (hf : T.sf f = .live) (h0' : c0 ≠ [])
    (hs : T.Seen f true c0) (hg : T5.sf g = .live) (hlp : T5.Loop g (put z x c0)) (hn : (put z x c0).Nodup) {d : Bool} {w : List Nat}
    (h0 : w ≠ []) (hw : T.Seen f d w) : T5.Seen g d (put z x w) := by
  obtain ⟨c, hc, hcn⟩ := hl f hf
  rw [seen_iff hf hc hcn h0'] at hs
  rw [seen_iff hf hc hcn h0] at hw
  have h1 : w ~r turned d c0 := hw.trans (turned_rotated d hs.symm)
  rw [seen_iff hg hlp hn (by unfold put; simpa using h0), ← put_turned]
  exact put_rotated z x h1

theorem half_turn {T : Topo} (h : T.Consistent) (hl : T.AllLoops) {r x a b v : Nat} (el : T.IsElement r [x, b, a, v]) :
    T.IsElement r [v, a, b, x] :=
  el.turn4 h hl (by simp) ⟨[3, 2, 1, 0], by decide, rfl⟩

/-- The mesh with the new triangles and tetrahedra is the one with the edge halved. -/
theorem halved {T T3 T4 T5 : Topo} (h : T.Consistent) (hl : T.AllLoops) (hE : T.SimpleEdges) {e v0 v1 x : Nat}
    (s : T.SimplexAt e v0 v1) (op : Opened T T3 e v0 v1 x)
    {O : Nat → Nat × Nat × Nat} {A : Nat → Nat × Nat} {fs rs : List Nat} (C : T.Chosen e v0 v1 O A fs rs)
    (m4 : FacesMore T3 T4 (fs.flatMap fun f => [[(O f).1, (O f).2.1, x], [(O f).1, x, (O f).2.2]]))
    (m5 : RegsMore T4 T5 (rs.flatMap fun r => [[x, (A r).2, (A r).1, v0], [x, (A r).1, (A r).2, v1]]))
    (L : Later T3 T5) {gf gf' : Nat → Nat × Int} (hg1 : ∀ y, y < T3.nf → gf' y = gf y)
    (hg2 : ∀ (i : Nat) f, fs[i]? = some f → gf' (T3.nf + 2*i) = gf f ∧ gf' (T3.nf + (2*i+1)) = gf f) :
    EdgeHalved T T5 gf gf' e v0 v1 x := by
  have nothing : ∀ y, Nothing y → False := fun _ k => k
  have st4 : Remains (· = e) (T.FaceHas · e) (T.RegionEdge · e) T T4 :=
    op.stays.trans (m4.stays.mono (fun _ k => k.elim) (fun _ k => k.elim) (fun _ k => k.elim))
  have st5 : Remains (· = e) (T.FaceHas · e) (T.RegionEdge · e) T T5 :=
    st4.trans (m5.stays.mono (fun _ k => k.elim) (fun _ k => k.elim) (fun _ k => k.elim))
  have hxv : ∀ v, T.sv v = .live → v ≠ x := by rintro v hv rfl; rw [op.new] at hv; cases hv
  have e0 := (s.has v0).2 (Or.inl rfl)
  have e1 := (s.has v1).2 (Or.inr rfl)
  have hv0 : T.sv v0 = .live := h.ve.down e v0 s.live (EdgeHas_iff.1 e0).2
  have hv1 : T.sv v1 = .live := h.ve.down e v1 s.live (EdgeHas_iff.1 e1).2
  have hx0 := hxv v0 hv0
  have hx1 := hxv v1 hv1
  have hne := s.proper
  have hv : ∀ f ∈ fs, (O f).1 ≠ x ∧ (O f).2.1 ≠ x ∧ (O f).2.2 ≠ x ∧ (O f).1 ≠ (O f).2.1 ∧ (O f).1 ≠ (O f).2.2 ∧ (O f).2.1 ≠ (O f).2.2 := by
    intro f hf
    have t := C.tri f hf
    have hfl := ((C.fm f).1 hf).1
    have k := t.seen.vlive h hl hfl (by simp)
    have n := t.seen.nodup hl hfl (by simp)
    simp only [List.nodup_cons, List.mem_cons, List.not_mem_nil, or_false, not_or, not_false_eq_true, List.nodup_nil, and_true] at n
    exact ⟨hxv _ (k _ (by simp)), hxv _ (k _ (by simp)), hxv _ (k _ (by simp)), n.1.1, n.1.2, n.2⟩
  -- the triangles
  have tri : ∀ (i : Nat) f, fs[i]? = some f → (T5.sf (T3.nf + 2*i) = .live ∧ T5.Loop (T3.nf + 2*i) [(O f).1, (O f).2.1, x]) ∧
      (T5.sf (T3.nf + (2*i+1)) = .live ∧ T5.Loop (T3.nf + (2*i+1)) [(O f).1, x, (O f).2.2]) := by
    intro i f hi
    obtain ⟨g1, g2⟩ := two_get (g := fun f => [(O f).1, (O f).2.1, x]) (k := fun f => [(O f).1, x, (O f).2.2]) fs i f hi
    obtain ⟨a1, a2⟩ := m4.each _ _ g1
    obtain ⟨b1, b2⟩ := m4.each _ _ g2
    exact ⟨⟨(m5.stays.faces _ a1 (nothing _)).1, m5.stays.loop m4.cons (Upward.nothing _ _) a1 (nothing _) a2⟩,
      ⟨(m5.stays.faces _ b1 (nothing _)).1, m5.stays.loop m4.cons (Upward.nothing _ _) b1 (nothing _) b2⟩⟩
  have faces : ∀ f, T.FaceHas f e → ∃ f1 f2, T5.sf f1 = .live ∧ T5.sf f2 = .live ∧ gf' f1 = gf f ∧ gf' f2 = gf f ∧
      ∀ d w, w ≠ [] → T.Seen f d w → T5.Seen f1 d (put v1 x w) ∧ T5.Seen f2 d (put v0 x w) := by
    intro f hf
    have hm := (C.fm f).2 hf
    obtain ⟨i, hi⟩ := List.getElem?_of_mem hm
    obtain ⟨⟨a1, a2⟩, ⟨b1, b2⟩⟩ := tri i f hi
    obtain ⟨g1, g2⟩ := hg2 i f hi
    obtain ⟨n1, n2, n3, n4, n5, n6⟩ := hv f hm
    have t := C.tri f hm
    have hs := t.seen
    rcases t.ends with ⟨k1, k2⟩ | ⟨k1, k2⟩
    · have q1 : put v1 x [(O f).1, (O f).2.1, (O f).2.2] = [(O f).1, (O f).2.1, x] := by
        rw [← k2]; simp [put, n5, n6]
      have q2 : put v0 x [(O f).1, (O f).2.1, (O f).2.2] = [(O f).1, x, (O f).2.2] := by
        rw [← k1]; simp [put, n4, n6.symm]
      refine ⟨_, _, a1, b1, g1, g2, fun d w h0 hw => ⟨?_, ?_⟩⟩
      · exact seen_put hl hf.1 (by simp) hs a1 (q1 ▸ a2) (by rw [q1]; simp [n1, n2, n4]) h0 hw
      · exact seen_put hl hf.1 (by simp) hs b1 (q2 ▸ b2) (by rw [q2]; simp [n1, n3.symm, n5]) h0 hw
    · have q1 : put v0 x [(O f).1, (O f).2.1, (O f).2.2] = [(O f).1, (O f).2.1, x] := by
        rw [← k2]; simp [put, n5, n6]
      have q2 : put v1 x [(O f).1, (O f).2.1, (O f).2.2] = [(O f).1, x, (O f).2.2] := by
        rw [← k1]; simp [put, n4, n6.symm]
      refine ⟨_, _, b1, a1, g2, g1, fun d w h0 hw => ⟨?_, ?_⟩⟩
      · exact seen_put hl hf.1 (by simp) hs b1 (q2 ▸ b2) (by rw [q2]; simp [n1, n3.symm, n5]) h0 hw
      · exact seen_put hl hf.1 (by simp) hs a1 (q1 ▸ a2) (by rw [q1]; simp [n1, n2, n4]) h0 hw
  -- the tetrahedra
  have tet : ∀ (i : Nat) r, rs[i]? = some r → (T5.IsElement (T4.nr + 2*i) [v0, (A r).1, (A r).2, x] ∧ T5.mrElementType (T4.nr + 2*i) = .ok .tet) ∧
      (T5.IsElement (T4.nr + (2*i+1)) [x, (A r).1, (A r).2, v1] ∧ T5.mrElementType (T4.nr + (2*i+1)) = .ok .tet) := by
    intro i r hi
    obtain ⟨g1, g2⟩ := two_get (g := fun r => [x, (A r).2, (A r).1, v0]) (k := fun r => [x, (A r).1, (A r).2, v1]) rs i r hi
    obtain ⟨a1, a2⟩ := m5.each _ _ g1
    obtain ⟨b1, b2⟩ := m5.each _ _ g2
    exact ⟨⟨half_turn m5.cons m5.loops a1, a2⟩, ⟨b1, b2⟩⟩
  have puts : ∀ r ∈ rs, put v1 x [v0, (A r).1, (A r).2, v1] = [v0, (A r).1, (A r).2, x] ∧
      put v0 x [v0, (A r).1, (A r).2, v1] = [x, (A r).1, (A r).2, v1] := by
    intro r hr
    obtain ⟨n, -⟩ := C.nodup h hl op.new hr
    simp only [List.nodup_cons, List.mem_cons, List.not_mem_nil, or_false, not_or, not_false_eq_true, List.nodup_nil, and_true] at n
    obtain ⟨⟨n1, n2, n3, n4⟩, ⟨n5, n6, n7⟩, ⟨n8, n9⟩, n10⟩ := n
    simp [put, n5, Ne.symm n5, Ne.symm n6, Ne.symm n7, Ne.symm n8, Ne.symm n9]
  have regions : ∀ r, T.RegionEdge r e → ∃ r1 r2, T5.mrElementType r1 = .ok .tet ∧ T5.mrElementType r2 = .ok .tet ∧
      ∀ w, T.IsElement r w → T5.IsElement r1 (put v1 x w) ∧ T5.IsElement r2 (put v0 x w) := by
    intro r hr
    have hm := (C.rm r).2 hr
    obtain ⟨i, hi⟩ := List.getElem?_of_mem hm
    obtain ⟨⟨a1, a2⟩, ⟨b1, b2⟩⟩ := tet i r hi
    obtain ⟨p1, p2⟩ := puts r hm
    refine ⟨_, _, a2, b2, fun w hw => ?_⟩
    obtain ⟨a, b, w4, ht, el⟩ := s.order h hl hr hw
    obtain ⟨rfl, rfl⟩ := tet_unique h hl (C.tet r hm) el
    have t1 := ht.put w4 v1 x
    have t2 := ht.put w4 v0 x
    rw [p1] at t1
    rw [p2] at t2
    have len : ∀ y, (put y x w).length = 4 := by intro y; unfold put; simpa using w4
    exact ⟨a1.turn4 m5.cons m5.loops (by simp) (t1.symm (len _)), b1.turn4 m5.cons m5.loops (by simp) (t2.symm (len _))⟩
  -- what there is of a tetrahedron in the old mesh
  have cyc : ∀ r ∈ rs, ∀ c ∈ stdCycles [v0, (A r).1, (A r).2, v1], ∃ g d, T.sf g = .live ∧ T.Seen g d c := by
    intro r hr c hc
    obtain ⟨_, _, _, hall⟩ := (C.tet r hr).faces
    obtain ⟨g, hu⟩ := hall c hc
    have := hu.flive h
    obtain ⟨-, d, -, hs⟩ := hu
    exact ⟨g, d, this, hs⟩
  have onlyF : ∀ g, T5.sf g = .live → (T.sf g = .live ∧ ¬ T.FaceHas g e) ∨
      (∃ f d w, T.FaceHas f e ∧ w ≠ [] ∧ T.Seen f d w ∧ (T5.Seen g d (put v1 x w) ∨ T5.Seen g d (put v0 x w))) ∨
      ∃ r a b d, T.IsElement r [v0, a, b, v1] ∧ T5.Seen g d [x, a, b] := by
    intro g hg
    have half : ∀ c d f d' w, T5.Seen g d c → T.sf f = .live → T.Seen f d' w → w.length = 3 → v0 ∈ w → v1 ∈ w →
        (put v1 x w ~r c ∨ put v0 x w ~r c) →
        ∃ f d w, T.FaceHas f e ∧ w ≠ [] ∧ T.Seen f d w ∧ (T5.Seen g d (put v1 x w) ∨ T5.Seen g d (put v0 x w)) := by
      intro c d f d' w hc hf hw h3 i0 i1 hr
      have hfe := tri_has h hl hE hf hw h3 hne e0 e1 i0 i1
      have hw0 : w ≠ [] := by rintro rfl; simp at h3
      obtain ⟨f1, f2, l1, l2, -, -, hall⟩ := faces f hfe
      obtain ⟨s1, s2⟩ := hall d' w hw0 hw
      have p3 : ∀ y, 3 ≤ (put y x w).length := by intro y; unfold put; rw [List.length_map, h3]
      have hc0 : ∀ y, put y x w ~r c → c ≠ [] := by
        rintro y k rfl
        have := p3 y
        rw [List.isRotated_nil_iff.1 k] at this
        simp at this
      refine ⟨f, d', w, hfe, hw0, hw, ?_⟩
      rcases hr with k | k
      · have := m5.simpleF f1 g d' d _ (p3 _) l1 hg s1 (hc.rotate hg m5.loops (hc0 _ k) k)
        exact Or.inl (this ▸ s1)
      · have := m5.simpleF f2 g d' d _ (p3 _) l2 hg s2 (hc.rotate hg m5.loops (hc0 _ k) k)
        exact Or.inr (this ▸ s2)
    have old : ∀ c d f d', T5.Seen g d c → T.sf f = .live → T.Seen f d' c → 3 ≤ c.length → (v0 ∉ c ∨ v1 ∉ c) →
        T.sf g = .live ∧ ¬ T.FaceHas g e := by
      intro c d f d' hc hf hw h3 hn
      have h0 : c ≠ [] := by rintro rfl; simp at h3
      have hfe : ¬ T.FaceHas f e := by
        intro hfe
        rcases hn with hn | hn
        · exact hn ((hw.mem h hl hf h0 v0).2 ⟨e, hfe, e0⟩)
        · exact hn ((hw.mem h hl hf h0 v1).2 ⟨e, hfe, e1⟩)
      have := m5.simpleF f g d' d c h3 (st5.faces f hf hfe).1 hg ((st5.seen h hl op.up hf hfe h0).2 hw) hc
      subst this
      exact ⟨hf, hfe⟩
    rcases m5.newF g hg with k | ⟨vs, hvs, c, hc, d, hs⟩
    · rcases m4.newF g k with k | ⟨j, hj, rfl⟩
      · exact Or.inl (op.onlyF g k)
      · right; left
        rw [two_length (g := fun f => [(O f).1, (O f).2.1, x]) (k := fun f => [(O f).1, x, (O f).2.2])] at hj
        obtain ⟨i, f, hi, hij⟩ := two_at hj
        obtain ⟨⟨a1, a2⟩, ⟨b1, b2⟩⟩ := tri i f hi
        have hm := List.mem_of_getElem? hi
        have t := C.tri f hm
        obtain ⟨n1, n2, n3, n4, n5, n6⟩ := hv f hm
        have i0 : v0 ∈ [(O f).1, (O f).2.1, (O f).2.2] := by rcases t.ends with ⟨k1, k2⟩ | ⟨k1, k2⟩ <;> simp [k1, k2]
        have i1 : v1 ∈ [(O f).1, (O f).2.1, (O f).2.2] := by rcases t.ends with ⟨k1, k2⟩ | ⟨k1, k2⟩ <;> simp [k1, k2]
        have hfl := ((C.fm f).1 hm).1
        have j1 : T5.Seen (T3.nf + 2*i) true [(O f).1, (O f).2.1, x] :=
          (seen_iff a1 a2 (by simp [n1, n2, n4]) (by simp)).2 (List.IsRotated.refl _)
        have j2 : T5.Seen (T3.nf + (2*i+1)) true [(O f).1, x, (O f).2.2] :=
          (seen_iff b1 b2 (by simp [n1, n3.symm, n5]) (by simp)).2 (List.IsRotated.refl _)
        rcases hij with rfl | rfl
        · refine half _ _ f true [(O f).1, (O f).2.1, (O f).2.2] j1 hfl t.seen (by simp) i0 i1 ?_
          rcases t.ends with ⟨k1, k2⟩ | ⟨k1, k2⟩
          · left; rw [← k2]; simp [put, n5, n6, List.IsRotated.refl]
          · right; rw [← k2]; simp [put, n5, n6, List.IsRotated.refl]
        · refine half _ _ f true [(O f).1, (O f).2.1, (O f).2.2] j2 hfl t.seen (by simp) i0 i1 ?_
          rcases t.ends with ⟨k1, k2⟩ | ⟨k1, k2⟩
          · right; rw [← k1]; simp [put, n4, n6.symm, List.IsRotated.refl]
          · left; rw [← k1]; simp [put, n4, n6.symm, List.IsRotated.refl]
    · obtain ⟨r, hr, hvs⟩ := List.mem_flatMap.1 hvs
      obtain ⟨n, -⟩ := C.nodup h hl op.new hr
      simp only [List.nodup_cons, List.mem_cons, List.not_mem_nil, or_false, not_or, not_false_eq_true, List.nodup_nil, and_true] at n
      obtain ⟨⟨n1, n2, n3, n4⟩, ⟨n5, n6, n7⟩, ⟨n8, n9⟩, n10⟩ := n
      have el := C.tet r hr
      have cy := cyc r hr
      generalize (A r).1 = a at *
      generalize (A r).2 = b at *
      simp only [List.mem_cons, List.not_mem_nil, or_false] at hvs
      rcases hvs with rfl | rfl <;> rw [half_cycles] at hc <;> simp only [List.mem_cons, List.not_mem_nil, or_false] at hc <;>
        rcases hc with rfl | rfl | rfl | rfl
      · exact Or.inr (Or.inr ⟨r, a, b, d, el, hs⟩)
      · obtain ⟨g', d', l1, l2⟩ := cy [v0, v1, b] (by simp [stdCycles])
        refine Or.inr (Or.inl (half _ _ g' d' _ hs l1 l2 (by simp) (by simp) (by simp) (Or.inl ?_)))
        simp only [put, List.map_cons, List.map_nil, if_true, if_neg hne, if_neg (Ne.symm n9)]
        exact rot3.2 (by simp)
      · obtain ⟨g', d', l1, l2⟩ := cy [v0, b, a] (by simp [stdCycles])
        exact Or.inl (old _ _ g' d' (hs.rotate hg m5.loops (by simp) (rot3.2 (by simp))) l1 l2 (by simp) (Or.inr (by simp [Ne.symm n5, n8, n9])))
      · obtain ⟨g', d', l1, l2⟩ := cy [v0, a, v1] (by simp [stdCycles])
        refine Or.inr (Or.inl (half _ _ g' d' _ hs l1 l2 (by simp) (by simp) (by simp) (Or.inl ?_)))
        simp only [put, List.map_cons, List.map_nil, if_true, if_neg hne, if_neg (Ne.symm n8)]
        exact rot3.2 (by simp)
      · exact Or.inr (Or.inr ⟨r, a, b, !d, el, (hs.flip m5.loops hg (by simp)).rotate hg m5.loops (by simp) (rot3.2 (by simp))⟩)
      · obtain ⟨g', d', l1, l2⟩ := cy [v0, a, v1] (by simp [stdCycles])
        refine Or.inr (Or.inl (half _ _ g' d' _ hs l1 l2 (by simp) (by simp) (by simp) (Or.inr ?_)))
        simp only [put, List.map_cons, List.map_nil, if_true, if_neg (Ne.symm hne), if_neg (Ne.symm n6)]
        exact rot3.2 (by simp)
      · obtain ⟨g', d', l1, l2⟩ := cy [a, b, v1] (by simp [stdCycles])
        exact Or.inl (old _ _ g' d' hs l1 l2 (by simp) (Or.inl (by simp [n5, n6, n7])))
      · obtain ⟨g', d', l1, l2⟩ := cy [v0, v1, b] (by simp [stdCycles])
        refine Or.inr (Or.inl (half _ _ g' d' _ hs l1 l2 (by simp) (by simp) (by simp) (Or.inr ?_)))
        simp only [put, List.map_cons, List.map_nil, if_true, if_neg (Ne.symm hne), if_neg (Ne.symm n7)]
        exact rot3.2 (by simp)
  have onlyR : ∀ r', T5.sr r' = .live → (T.sr r' = .live ∧ ¬ T.RegionEdge r' e) ∨
      ∃ r w, T.RegionEdge r e ∧ T.IsElement r w ∧ (T5.IsElement r' (put v1 x w) ∨ T5.IsElement r' (put v0 x w)) := by
    intro r' hr'
    rcases m5.newR r' hr' with k | ⟨j, hj, rfl⟩
    · exact Or.inl (op.onlyR r' ((m4.sr r').1 k))
    · right
      rw [two_length (g := fun r => [x, (A r).2, (A r).1, v0]) (k := fun r => [x, (A r).1, (A r).2, v1])] at hj
      obtain ⟨i, r, hi, hij⟩ := two_at hj
      obtain ⟨⟨a1, a2⟩, ⟨b1, b2⟩⟩ := tet i r hi
      have hm := List.mem_of_getElem? hi
      obtain ⟨p1, p2⟩ := puts r hm
      refine ⟨r, _, (C.rm r).1 hm, C.tet r hm, ?_⟩
      rw [p1, p2]
      rcases hij with rfl | rfl
      · exact Or.inl a1
      · exact Or.inr b1
  have fvl : ∀ f, T3.sf f ≠ .unused → f < T3.nf := fun f hf => Nat.lt_of_not_le fun k => hf (op.cons.newF f k)
  have evl : ∀ f, T3.se f ≠ .unused → f < T3.ne := fun f hf => Nat.lt_of_not_le fun k => hf (op.cons.newE f k)
  have rvl : ∀ f, T3.sr f ≠ .unused → f < T3.nr := fun f hf => Nat.lt_of_not_le fun k => hf (op.cons.newR f k)
  -- the edges
  let Q : Nat → Prop := fun y => y = v0 ∨ y = v1 ∨ ∃ f, T.FaceHas f e ∧ T.FaceVertex f y
  let Ok : Nat → Nat → Prop := fun p q => (∃ g, g ≠ e ∧ T.EdgeHas g p ∧ T.EdgeHas g q) ∨ (p = x ∧ Q q) ∨ (q = x ∧ Q p)
  have oksymm : ∀ p q, Ok p q → Ok q p := by
    rintro p q (⟨g, g1, g2, g3⟩ | k | k)
    · exact Or.inl ⟨g, g1, g3, g2⟩
    · exact Or.inr (Or.inr k)
    · exact Or.inr (Or.inl k)
  have okseen : ∀ g d c p q, T.sf g = .live → T.Seen g d c → Next c p q → ((p ≠ v0 ∧ p ≠ v1) ∨ (q ≠ v0 ∧ q ≠ v1)) → Ok p q := by
    intro g d c p q hg hs hn hpq
    obtain ⟨g', -, k1, k2⟩ := edge_of_seen h hl hg hs hn
    refine Or.inl ⟨g', ?_, k1, k2⟩
    rintro rfl
    rw [s.has] at k1 k2
    rcases hpq with ⟨q1, q2⟩ | ⟨q1, q2⟩
    · exact k1.elim q1 q2
    · exact k2.elim q1 q2
  have oktri : ∀ f ∈ fs, ∀ c ∈ [[(O f).1, (O f).2.1, x], [(O f).1, x, (O f).2.2]], ∀ p q, Next c p q → Ok p q := by
    intro f hf c hc p q hn
    have t := C.tri f hf
    have hfe := (C.fm f).1 hf
    have qo : Q (O f).1 := Or.inr (Or.inr ⟨f, hfe, (t.seen.mem h hl hfe.1 (by simp) _).1 (by simp)⟩)
    have qp : Q (O f).2.1 := by rcases t.ends with ⟨k1, k2⟩ | ⟨k1, k2⟩; exacts [Or.inl k1, Or.inr (Or.inl k1)]
    have qq : Q (O f).2.2 := by rcases t.ends with ⟨k1, k2⟩ | ⟨k1, k2⟩; exacts [Or.inr (Or.inl k2), Or.inl k2]
    have o1 : Ok (O f).1 (O f).2.1 := okseen f true _ _ _ hfe.1 t.seen ⟨0, rfl, rfl⟩ (Or.inl t.out)
    have o2 : Ok (O f).2.2 (O f).1 := okseen f true _ _ _ hfe.1 t.seen ⟨2, by simp, by simp⟩ (Or.inr t.out)
    obtain ⟨k, h1, h2⟩ := hn
    simp only [List.mem_cons, List.not_mem_nil, or_false] at hc
    have hk : k < 3 := by
      rcases hc with rfl | rfl <;> simpa using (List.getElem?_eq_some_iff.1 h1).1
    have hk : k = 0 ∨ k = 1 ∨ k = 2 := by omega
    rcases hc with rfl | rfl <;> rcases hk with rfl | rfl | rfl <;> simp at h1 h2 <;> subst h1 <;> subst h2
    · exact o1
    · exact Or.inr (Or.inr ⟨rfl, qp⟩)
    · exact Or.inr (Or.inl ⟨rfl, qo⟩)
    · exact Or.inr (Or.inr ⟨rfl, qo⟩)
    · exact Or.inr (Or.inl ⟨rfl, qq⟩)
    · exact o2
  have oktet : ∀ r ∈ rs, ∀ vs ∈ [[x, (A r).2, (A r).1, v0], [x, (A r).1, (A r).2, v1]], ∀ c ∈ stdCycles vs, ∀ p q, Next c p q → Ok p q := by
    intro r hr vs hvs c hc p q hn
    have cy := cyc r hr
    obtain ⟨n, -⟩ := C.nodup h hl op.new hr
    simp only [List.nodup_cons, List.mem_cons, List.not_mem_nil, or_false, not_or, not_false_eq_true, List.nodup_nil, and_true] at n
    obtain ⟨⟨n1, n2, n3, n4⟩, ⟨n5, n6, n7⟩, ⟨n8, n9⟩, n10⟩ := n
    generalize (A r).1 = a at *
    generalize (A r).2 = b at *
    obtain ⟨g1, d1, l1, s1⟩ := cy [v0, b, a] (by simp [stdCycles])
    obtain ⟨g2, d2, l2, s2⟩ := cy [v0, a, v1] (by simp [stdCycles])
    obtain ⟨g3, d3, l3, s3⟩ := cy [a, b, v1] (by simp [stdCycles])
    obtain ⟨g4, d4, l4, s4⟩ := cy [v0, v1, b] (by simp [stdCycles])
    have pa : a ≠ v0 ∧ a ≠ v1 := ⟨Ne.symm n6, Ne.symm n8⟩
    have pb : b ≠ v0 ∧ b ≠ v1 := ⟨Ne.symm n7, Ne.symm n9⟩
    have o1 : Ok v0 b := okseen _ _ _ _ _ l1 s1 ⟨0, rfl, rfl⟩ (Or.inr pb)
    have o2 : Ok b a := okseen _ _ _ _ _ l1 s1 ⟨1, rfl, rfl⟩ (Or.inr pa)
    have o3 : Ok a v0 := okseen _ _ _ _ _ l1 s1 ⟨2, by simp, by simp⟩ (Or.inl pa)
    have o4 : Ok a v1 := okseen _ _ _ _ _ l2 s2 ⟨1, rfl, rfl⟩ (Or.inl pa)
    have o5 : Ok b v1 := okseen _ _ _ _ _ l3 s3 ⟨1, rfl, rfl⟩ (Or.inl pb)
    have qa : Q a := Or.inr (Or.inr ⟨g2, tri_has h hl hE l2 s2 (by simp) hne e0 e1 (by simp) (by simp), (s2.mem h hl l2 (by simp) _).1 (by simp)⟩)
    have qb : Q b := Or.inr (Or.inr ⟨g4, tri_has h hl hE l4 s4 (by simp) hne e0 e1 (by simp) (by simp), (s4.mem h hl l4 (by simp) _).1 (by simp)⟩)
    have q0 : Q v0 := Or.inl rfl
    have q1 : Q v1 := Or.inr (Or.inl rfl)
    have xa : Ok x a := Or.inr (Or.inl ⟨rfl, qa⟩)
    have xb : Ok x b := Or.inr (Or.inl ⟨rfl, qb⟩)
    have x0 : Ok x v0 := Or.inr (Or.inl ⟨rfl, q0⟩)
    have x1 : Ok x v1 := Or.inr (Or.inl ⟨rfl, q1⟩)
    obtain ⟨k, h1, h2⟩ := hn
    simp only [List.mem_cons, List.not_mem_nil, or_false] at hvs
    rcases hvs with rfl | rfl <;> rw [half_cycles] at hc <;> simp only [List.mem_cons, List.not_mem_nil, or_false] at hc <;>
      rcases hc with rfl | rfl | rfl | rfl <;>
      (have hk : k < 3 := by simpa using (List.getElem?_eq_some_iff.1 h1).1) <;>
      (have hk : k = 0 ∨ k = 1 ∨ k = 2 := by omega) <;> rcases hk with rfl | rfl | rfl <;> simp at h1 h2 <;> subst h1 <;> subst h2 <;> first | assumption | (apply oksymm; assumption)
  have ok : ∀ g p q, p ≠ q → T5.EdgeHas g p → T5.EdgeHas g q → Ok p q := by
    intro g p q hpq hp hq
    have two : ∀ {S : Topo} {a b : Nat}, S.ev g = (some a, some b) → S.EdgeHas g p → S.EdgeHas g q → Ok a b → Ok p q := by
      intro S a b hev hp hq hab
      have k1 := (EdgeHas_iff.1 hp).2
      have k2 := (EdgeHas_iff.1 hq).2
      unfold ends at k1 k2
      rw [hev] at k1 k2
      simp only [Option.some.injEq] at k1 k2
      rcases k1 with rfl | rfl <;> rcases k2 with rfl | rfl
      · exact absurd rfl hpq
      · exact hab
      · exact oksymm _ _ hab
      · exact absurd rfl hpq
    rcases m5.newE g (EdgeHas_iff.1 hp).1 with k | ⟨vs, hvs, c, hc, a, b, hn, hev⟩
    · have hp := m5.stays.edgeHas_back (nothing _) k hp
      have hq := m5.stays.edgeHas_back (nothing _) k hq
      rcases m4.newE g k with k | ⟨c, hc, a, b, hn, hev⟩
      · rcases op.edges g p q hpq (m4.stays.edgeHas_back (nothing _) k hp) (m4.stays.edgeHas_back (nothing _) k hq) with ⟨q1, q2, q3⟩ | ⟨rfl, q2⟩ | ⟨rfl, q2⟩
        · exact Or.inl ⟨g, q1, q2, q3⟩
        · exact Or.inr (Or.inl ⟨rfl, q2.elim Or.inl fun k => Or.inr (Or.inl k)⟩)
        · exact Or.inr (Or.inr ⟨rfl, q2.elim Or.inl fun k => Or.inr (Or.inl k)⟩)
      · obtain ⟨f, hf, hc⟩ := List.mem_flatMap.1 hc
        exact two hev hp hq (oktri f hf c hc a b hn)
    · obtain ⟨r, hr, hvs⟩ := List.mem_flatMap.1 hvs
      have := oktet r hr vs hvs c hc a b hn
      rcases hev with hev | hev
      · exact two hev hp hq this
      · exact two hev hp hq (oksymm _ _ this)
  have keepE : ∀ a b, T3.EdgeBetween a b → T5.EdgeBetween a b := by
    rintro a b ⟨g, g1, g2⟩
    exact ⟨g, m5.stays.edgeHas (nothing _) (m4.stays.edgeHas (nothing _) g1), m5.stays.edgeHas (nothing _) (m4.stays.edgeHas (nothing _) g2)⟩
  refine ⟨m5.cons, m5.loops, m5.simpleE, m5.simpleF, op.new, fun v => ((m5.sv v).trans (m4.sv v)).trans (op.verts v), st5, ?_, ?_, ?_, ?_,
    faces, regions, onlyF, onlyR, ?_, ?_⟩
  · intro f hf hfe
    exact hg1 f (fvl f (by rw [(op.stays.faces f hf hfe).1]; simp))
  · rw [L.se e (evl e (by rw [op.gone_e]; simp)), op.gone_e]; simp
  · intro f hf
    have := op.gone_f f hf
    rw [L.sf f (fvl f (by rw [this]; simp)), this]; simp
  · intro r hr
    have := op.gone_r r hr
    rw [L.sr r (rvl r (by rw [this]; simp)), this]; simp
  · intro a b hab ha hb
    constructor
    · rintro ⟨g, g1, g2⟩
      rcases ok g a b hab g1 g2 with ⟨g', k1, k2, k3⟩ | ⟨k, -⟩ | ⟨k, -⟩
      · refine ⟨⟨g', k2, k3⟩, ?_, ?_⟩
        · rintro ⟨rfl, rfl⟩; exact k1 (hE e g' a b hab e0 e1 k2 k3)
        · rintro ⟨rfl, rfl⟩; exact k1 (hE e g' a b hab e1 e0 k2 k3)
      · exact absurd k ha
      · exact absurd k hb
    · rintro ⟨⟨g, g1, g2⟩, n1, n2⟩
      have hge : g ≠ e := by
        rintro rfl
        rw [s.has] at g1 g2
        rcases g1 with rfl | rfl <;> rcases g2 with rfl | rfl
        · exact hab rfl
        · exact n1 ⟨rfl, rfl⟩
        · exact n2 ⟨rfl, rfl⟩
        · exact hab rfl
      exact ⟨g, st5.edgeHas hge g1, st5.edgeHas hge g2⟩
  · intro y hy
    constructor
    · rintro ⟨g, g1, g2⟩
      rcases ok g x y (Ne.symm hy) g1 g2 with ⟨g', k1, k2, k3⟩ | ⟨-, k⟩ | ⟨k, -⟩
      · have k2' := EdgeHas_iff.1 k2
        exact absurd rfl (hxv x (h.ve.down g' x k2'.1 k2'.2))
      · exact k
      · exact absurd k hy
    · rintro (rfl | rfl | ⟨f, hf, hfy⟩)
      · exact keepE _ _ op.half0
      · exact keepE _ _ op.half1
      · have hm := (C.fm f).2 hf
        obtain ⟨i, hi⟩ := List.getElem?_of_mem hm
        obtain ⟨⟨a1, a2⟩, -⟩ := tri i f hi
        have t := C.tri f hm
        have := (t.seen.mem h hl hf.1 (by simp) y).2 hfy
        simp only [List.mem_cons, List.not_mem_nil, or_false] at this
        have ends : y = v0 ∨ y = v1 → T5.EdgeBetween x y := by
          rintro (rfl | rfl)
          · exact keepE _ _ op.half0
          · exact keepE _ _ op.half1
        rcases this with rfl | rfl | rfl
        · obtain ⟨g, -, k1, k2⟩ := edge_of_next m5.cons a1 a2 (a := x) (b := (O f).1) ⟨2, by simp, by simp⟩
          exact ⟨g, k1, k2⟩
        · exact ends (by rcases t.ends with ⟨k1, k2⟩ | ⟨k1, k2⟩; exacts [Or.inl k1, Or.inr k1])
        · exact ends (by rcases t.ends with ⟨k1, k2⟩ | ⟨k1, k2⟩; exacts [Or.inr k2, Or.inl k2])

/-- The run: what is made, and what the model regions are. -/
theorem split_run {M : SMesh} (h : M.T.Consistent) (hl : M.T.AllLoops) (hE : M.T.SimpleEdges) (hF : M.T.SimpleFaces) {e v0 v1 : Nat}
    (s : M.T.SimplexAt e v0 v1) : ∃ M' x, meSplitSimplex M e = .ok (M', some x) ∧ EdgeHalved M.T M'.T M.gf M'.gf e v0 v1 x ∧
      (∀ r, M.T.sr r = .live → ¬ M.T.RegionEdge r e → M'.gr r = M.gr r) ∧
      ∀ r, M'.T.sr r = .live → M.T.sr r ≠ .live → M'.gr r = none := by
  have e0 := (s.has v0).2 (Or.inl rfl)
  have e1 := (s.has v1).2 (Or.inr rfl)
  have hA : ∀ r, ∃ p : Nat × Nat, M.T.RegionEdge r e → M.T.IsElement r [v0, p.1, p.2, v1] := by
    intro r
    by_cases hr : M.T.RegionEdge r e
    · obtain ⟨w, -, el⟩ := s.tets r hr
      obtain ⟨a, b, -, -, el⟩ := s.order h hl hr el
      exact ⟨(a, b), fun _ => el⟩
    · exact ⟨(0, 0), fun k => absurd k hr⟩
  choose A hA using hA
  have hO : ∀ f, ∃ p : Nat × Nat × Nat, M.T.FaceHas f e → M.T.TriAt v0 v1 f p.1 p.2.1 p.2.2 ∧ ∃ c, M.T.Loop f c ∧ c.Nodup ∧
      pickTri (some v0) (some v1) (c.map some) [0,1,2] = some [some p.1, some p.2.1, some p.2.2] := by
    intro f
    by_cases hf : M.T.FaceHas f e
    · obtain ⟨es, k1, k2⟩ := s.tris f hf
      obtain ⟨c, o, p, q, q1, q2, q3, q4⟩ := tri_read h hl hf e0 e1 s.proper k1 k2
      exact ⟨(o, p, q), fun _ => ⟨q3, c, q1, q2, q4⟩⟩
    · exact ⟨(0, 0, 0), fun k => absurd k hf⟩
  choose O hO using hO
  obtain ⟨R, hR, rn, rm⟩ := C22_edge_regions h s.live
  have rm' : ∀ r, r ∈ R.getD [] ↔ M.T.RegionEdge r e := by
    intro r; rw [rm]; exact ⟨fun ⟨f, k1, k2⟩ => ⟨f, k2, k1⟩, fun ⟨f, k1, k2⟩ => ⟨f, k2, k1⟩⟩
  have hread := readTets_ok h hl (A := A) (R.getD []) fun r hr => hA r ((rm' r).1 hr)
  obtain ⟨T1, hdel, c1⟩ := delRegions_cut (R.getD []) Nothing M.T (Cut.nothing h) rn fun r hr => by
    obtain ⟨f, k, -⟩ := (rm' r).1 hr
    exact ⟨k.1, id⟩
  have c1 : Cut M.T Nothing Nothing Nothing (M.T.RegionEdge · e) T1 :=
    cut_congr (fun _ => Iff.rfl) (fun _ => Iff.rfl) (fun _ => Iff.rfl) (fun y => by rw [← rm']; exact ⟨fun k => k.resolve_left id, Or.inr⟩) c1
  have he1 : T1.se e = .live := by rw [c1.se]; exact gone_live.2 ⟨s.live, id⟩
  obtain ⟨F, hFc, fn, fm⟩ := c1.cons.agrees.edgeFaces e he1
  have fm' : ∀ f, f ∈ F.getD [] ↔ M.T.FaceHas f e := by
    intro f
    rw [fm]
    constructor
    · intro k
      have k1 : T1.FaceHas f e := k
      have hfl : M.T.sf f = .live := by have := k1.1; rw [c1.sf] at this; exact (gone_live.1 this).1
      exact (c1.stays.faceHas hfl id).1 k1
    · intro k
      exact (c1.stays.faceHas k.1 id).2 k
  obtain ⟨T2, htake, c2⟩ := takeTris_ok h (v0 := v0) (v1 := v1) (gf := M.gf) (Df := (M.T.FaceHas · e)) (Dr := (M.T.RegionEdge · e))
    (fun r f k1 k2 => ⟨f, k1, k2⟩) (O := O) (F.getD []) Nothing T1 c1 (fun _ k => k.elim) fn
    (fun f hf => ⟨((fm' f).1 hf).1, id, (fm' f).1 hf⟩) (fun f hf => (hO f ((fm' f).1 hf)).2)
  have c2 : Cut M.T Nothing Nothing (M.T.FaceHas · e) (M.T.RegionEdge · e) T2 :=
    cut_congr (fun _ => Iff.rfl) (fun _ => Iff.rfl) (fun y => by rw [← fm']; exact ⟨fun k => k.resolve_left id, Or.inr⟩) (fun _ => Iff.rfl) c2
  obtain ⟨T3, x, hsplit, op⟩ := opened h hl hE hF s c2
  have C : M.T.Chosen e v0 v1 O A (F.getD []) (R.getD []) :=
    ⟨fn, fm', fun f hf => (hO f ((fm' f).1 hf)).1, rn, rm', fun r hr => hA r ((rm' r).1 hr)⟩
  have hx : ∀ v, M.T.EdgeHas e v → x ≠ v := by
    rintro v hv rfl
    have k := EdgeHas_iff.1 hv
    have := h.ve.down e x k.1 k.2
    rw [op.new] at this; cases this
  obtain ⟨T4, h4, m4⟩ := tris_made h hl hF op C (hx v0 e0) (hx v1 e1)
  obtain ⟨T5, h5, m5⟩ := tets_made h hl hF op C s.distinct m4
  obtain ⟨gf', hrun4, hg1, hg2⟩ := halfTris_run (x := x) (O := O) (g := M.gf) (F.getD []) { M with T := T3 } T4 h4
  obtain ⟨gr', hrun5, hr1, hr2⟩ := halfTets_run (x := x) (v0 := v0) (v1 := v1) (A := A) (R.getD []) { M with T := T4, gf := gf' } T5 h5
  have L := (addFaces_later _ h4).trans (addRegions_later _ h5)
  have nrl : ∀ r, M.T.sr r = .live → ¬ M.T.RegionEdge r e → r < T4.nr := by
    intro r hr hre
    rw [m4.nr]
    apply Nat.lt_of_not_le
    intro k
    have := op.cons.newR r k
    rw [(op.stays.regions r hr hre).1] at this; cases this
  refine ⟨{ M with T := T5, gf := gf', gr := gr' }, x, ?_, halved h hl hE s op C m4 m5 L hg1 hg2, ?_, ?_⟩
  · unfold meSplitSimplex
    rw [s.start, Res.bind_ok, s.stop, Res.bind_ok, hR, Res.bind_ok, hread, Res.bind_ok, hdel, Res.bind_ok, hFc, Res.bind_ok, htake,
      Res.bind_ok]
    dsimp only
    rw [hsplit, Res.bind_ok]
    dsimp only
    rw [hrun4, Res.bind_ok, hrun5, Res.bind_ok]
    rfl
  · intro r hr hre
    exact hr1 r (nrl r hr hre)
  · intro r hr hnr
    rcases m5.newR r hr with k | ⟨i, hi, rfl⟩
    · exact absurd (op.onlyR r ((m4.sr r).1 k)).1 hnr
    · rw [two_length (g := fun r => [x, (A r).2, (A r).1, v0]) (k := fun r => [x, (A r).1, (A r).2, v1])] at hi
      exact hr2 i hi

/-! ### theorems -/

/-- Splitting an edge of a mesh of triangles and tetrahedra halves the edge, its triangles and its tetrahedra and leaves
the rest as it was.  Partial: the classification of the new tetrahedra is not that of the old ones, see
`C74_negation_region_classification`. -/
theorem C74_split_partial {M : SMesh} (h : M.T.Consistent) (hl : M.T.AllLoops) (hE : M.T.SimpleEdges) (hF : M.T.SimpleFaces)
    {e v0 v1 : Nat} (s : M.T.SimplexAt e v0 v1) :
    ∃ M' x, meSplitSimplex M e = .ok (M', some x) ∧ EdgeHalved M.T M'.T M.gf M'.gf e v0 v1 x ∧
      ∀ r, M.T.sr r = .live → ¬ M.T.RegionEdge r e → M'.gr r = M.gr r := by
  obtain ⟨M', x, h1, h2, h3, -⟩ := split_run h hl hE hF s
  exact ⟨M', x, h1, h2, h3⟩

/-- The two tetrahedra that replace one are in no determined model region, whatever the one was in. -/
theorem C74_negation_region_classification {M : SMesh} (h : M.T.Consistent) (hl : M.T.AllLoops) (hE : M.T.SimpleEdges)
    (hF : M.T.SimpleFaces) {e v0 v1 : Nat} (s : M.T.SimplexAt e v0 v1) {M' : SMesh} {x : Option Nat}
    (hr : meSplitSimplex M e = .ok (M', x)) : ∀ r, M'.T.sr r = .live → M.T.sr r ≠ .live → M'.gr r = none := by
  obtain ⟨M1, y, h1, -, -, h4⟩ := split_run h hl hE hF s
  rw [hr] at h1
  injection h1 with h1
  injection h1 with h1 _
  subst h1
  exact h4

/-! ### the hypotheses can be met -/

/-- Two tetrahedra with a common face, and the edge between the vertices 1 and 2 of that face. -/
theorem tetPair_simplex : ∃ T, empty.run tetPair = .ok T ∧ T.Consistent ∧ T.AllLoops ∧ T.SimpleEdges ∧ T.SimpleFaces ∧
    T.SimplexAt 1 1 2 ∧ T.RegionEdge 0 1 ∧ T.RegionEdge 1 1 := by
  obtain ⟨T, h1, h2⟩ := reachable (os := tetPair) (by decide +kernel)
  have hq : answer tetPair (fun T => .ok (T.triReadyB 5 9 7 2 &&
      T.allLoopsB [[0,1,2],[0,1,3],[1,2,3],[2,0,3],[1,2,4],[2,3,4],[3,1,4]] && T.simpleEdgesB && decide (T.nf = 7) &&
      T.elementB 0 [0,1,2,3] && T.elementB 1 [1,2,3,4] && decide (T.meVertex 1 false = .ok (some 1)) &&
      decide (T.meVertex 1 true = .ok (some 2)) && decide (T.se 1 = .live) && decide (T.sf 2 = .live) &&
      decide (T.mfEdges 2 true none = .ok [1,5,3]) && decide (T.mrFaceDir 0 2 = .ok (some true)) &&
      decide (T.mrFaceDir 1 2 = .ok (some false)) && decide (T.sr 0 = .live) && decide (T.sr 1 = .live))) = .ok true := by
    decide +kernel
  unfold answer at hq
  rw [h1, Res.bind_ok, Res.ok.injEq] at hq
  simp only [Bool.and_eq_true, decide_eq_true_iff] at hq
  obtain ⟨⟨⟨⟨⟨⟨⟨⟨⟨⟨⟨⟨⟨⟨q1, q2⟩, q3⟩, q4⟩, q5⟩, q6⟩, q7⟩, q8⟩, q9⟩, p1⟩, p2⟩, p3⟩, p4⟩, p5⟩, p6⟩ := hq
  obtain ⟨k1, k2, k3, k4, k5, k6⟩ := triReadyB_sound h2 q1
  have hl := allLoopsB_sound h2 q2
  have z0 := elementB_sound q5
  have z1 := elementB_sound q6
  have two : ∀ r, T.sr r = .live → r = 0 ∨ r = 1 := by
    intro r hr
    have hr := (k4.2 r).2 hr
    rw [List.mem_range] at hr
    omega
  have v0 : ∀ w, T.IsElement 0 w → 0 ∈ w := fun w hw => (hw.mem h2 hl 0).2 ((z0.mem h2 hl 0).1 (by simp))
  have v1 : ∀ w, T.IsElement 1 w → 0 ∉ w := fun w hw k => by
    have := (z1.mem h2 hl 0).2 ((hw.mem h2 hl 0).1 k)
    simp at this
  refine ⟨T, h1, h2, hl, simpleEdgesB_sound h2 q3, simpleFaces_of h2 q2 q4 (by decide), ⟨q9, q7, q8, by decide, ?_, ?_, ?_⟩, ?_, ?_⟩
  · intro f hf
    obtain ⟨ws, hw, -⟩ := hl f hf.1
    have h3 := k6 f ws hf.1 hw
    obtain ⟨es, a1, a2, -⟩ := hw
    exact ⟨es, a1, a2.trans h3⟩
  · rintro r ⟨f, hr, -⟩
    rcases two r hr.1 with rfl | rfl
    · exact ⟨_, rfl, z0⟩
    · exact ⟨_, rfl, z1⟩
  · rintro r r' w w' ⟨f, hr, -⟩ ⟨f', hr', -⟩ hw hw' hp
    rcases two r hr.1 with rfl | rfl <;> rcases two r' hr'.1 with rfl | rfl
    · rfl
    · exact absurd (hp.mem_iff.2 (v0 w hw)) (v1 w' hw')
    · exact absurd (hp.mem_iff.1 (v0 w' hw')) (v1 w hw)
    · rfl
  · exact ⟨2, ⟨p5, true, p3⟩, p1, _, p2, by simp⟩
  · exact ⟨2, ⟨p6, false, p4⟩, p1, _, p2, by simp⟩

/-- the model region of each tetrahedron is its own number, the model face of each triangle too -/
def ownCls (T : Topo) : SMesh := ⟨T, fun f => (2, f), fun r => some r⟩

/-- The hypotheses hold for two tetrahedra with a common face: both are halved. -/
example : ∃ T M' x, empty.run tetPair = .ok T ∧ meSplitSimplex (ownCls T) 1 = .ok (M', some x) ∧
    EdgeHalved T M'.T (fun f => (2, f)) M'.gf 1 1 2 x := by
  obtain ⟨T, h0, h, hl, hE, hF, s, -⟩ := tetPair_simplex
  obtain ⟨M', x, h1, h2, -⟩ := C74_split_partial (M := ownCls T) h hl hE hF s
  exact ⟨T, M', x, h0, h1, h2⟩

/-- Of the two tetrahedra four are made, of the three triangles six, with two more inside; the model regions of all four
are indeterminate though those of the two were 0 and 1. -/
example : (answer tetPair fun T => do
    let p ← meSplitSimplex (ownCls T) 1
    pure ((List.range 20).filter (p.1.T.sr · = .live), (List.range 20).filter (p.1.T.sf · = .live),
      (List.range 20).filter (p.1.T.se · = .live), [2,3,4,5].map p.1.gr)) =
    .ok ([2,3,4,5], [1,3,5,6] ++ [7,8,9,10,11,12] ++ [13,14], [0,2,3,4,5,6,7,8] ++ [9,10] ++ [11,12,13], [none, none, none, none]) := by
  decide +kernel

end Topo
end MSTK
