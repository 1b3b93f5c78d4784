import Verif.SimplexFaceParted

/-!
C75: `MF_Split_SimplexMesh` splits a face of a mesh of triangles and tetrahedra.
-/
namespace MSTK
namespace Topo

/-! ### specification -/

/-- The live face `f` is a triangle and its regions are tetrahedra, not two of them on the same four vertices. -/
structure SimplexFace (T : Topo) (f : Nat) : Prop where
  live : T.sf f = .live
  tri : ∃ es, T.mfEdges f true none = .ok es ∧ es.length = 3
  tets : ∀ r, T.RegionHas r f → ∃ w, w.length = 4 ∧ T.IsElement r w
  distinct : ∀ r r' w w', T.RegionHas r f → T.RegionHas r' f → T.IsElement r w → T.IsElement r' w' → w'.Perm w → r' = r

/-- The mesh `T'` is the mesh `T` with the triangle `f` and the tetrahedra it bounds split at the new vertex `x`: the
triangle is replaced by the three, and each of the tetrahedra by the three, that have `x` in the place of one of the
vertices of the triangle. -/
structure FaceParted (T T' : Topo) (gf gf' : Nat → Nat × Int) (f x : Nat) : Prop where
  cons : T'.Consistent
  loops : T'.AllLoops
  simpleE : T'.SimpleEdges
  simpleF : T'.SimpleFaces
  new : T.sv x = .unused
  verts : ∀ v, T'.sv v = .live ↔ T.sv v = .live ∨ v = x
  /-- all edges, and what is not at the face, are as before -/
  stays : Remains Nothing (· = f) (T.RegionHas · f) T T'
  classes : ∀ g, T.sf g = .live → g ≠ f → gf' g = gf g
  /-- the face and its regions are gone -/
  gone_f : T'.sf f ≠ .live
  gone_r : ∀ r, T.RegionHas r f → T'.sr r ≠ .live
  /-- the parts of the face go the same way round and are on the same model entity -/
  faces : ∀ v, T.FaceVertex f v → ∃ g, T'.sf g = .live ∧ gf' g = gf f ∧ ∀ d w, w ≠ [] → T.Seen f d w → T'.Seen g d (put v x w)
  regions : ∀ r v, T.RegionHas r f → T.FaceVertex f v → ∃ r', T'.mrElementType r' = .ok .tet ∧
    ∀ w, T.IsElement r w → T'.IsElement r' (put v x w)
  /-- there are no other faces than these and those between the parts of a tetrahedron -/
  only_faces : ∀ g, T'.sf g = .live → (T.sf g = .live ∧ g ≠ f) ∨
    (∃ v d w, T.FaceVertex f v ∧ w ≠ [] ∧ T.Seen f d w ∧ T'.Seen g d (put v x w)) ∨
    ∃ r v u d, T.RegionHas r f ∧ T.FaceVertex f v ∧ T.RegionVertex r u ∧ ¬ T.FaceVertex f u ∧ T'.Seen g d [x, v, u]
  only_regions : ∀ r', T'.sr r' = .live → (T.sr r' = .live ∧ ¬ T.RegionHas r' f) ∨
    ∃ r v w, T.RegionHas r f ∧ T.FaceVertex f v ∧ T.IsElement r w ∧ T'.IsElement r' (put v x w)
  old_edges : ∀ a b, a ≠ b → a ≠ x → b ≠ x → (T'.EdgeBetween a b ↔ T.EdgeBetween a b)
  new_edges : ∀ y, y ≠ x → (T'.EdgeBetween x y ↔ T.FaceVertex f y ∨ ∃ r, T.RegionHas r f ∧ T.RegionVertex r y)

/-! ### helpers -/

/-- what is read of the regions of the face -/
structure Picked (T : Topo) (f : Nat) (D : Nat → Bool) (B : Nat → Nat × Nat × Nat × Nat) (rs : List Nat) : Prop where
  rn : rs.Nodup
  rm : ∀ r, r ∈ rs ↔ T.RegionHas r f
  tet : ∀ r ∈ rs, T.ReadAs f r (D r) (B r).1 (B r).2.1 (B r).2.2.1 (B r).2.2.2

theorem Picked.nodup {T : Topo} {f : Nat} {D : Nat → Bool} {B : Nat → Nat × Nat × Nat × Nat} {rs : List Nat} (h : T.Consistent)
    (hl : T.AllLoops) (P : T.Picked f D B rs) {x : Nat} (hx : T.sv x = .unused) {r : Nat} (hr : r ∈ rs) :
    [x, (B r).1, (B r).2.1, (B r).2.2.1, (B r).2.2.2].Nodup ∧
      ∀ v ∈ [(B r).1, (B r).2.1, (B r).2.2.1, (B r).2.2.2], T.sv v = .live := by
  have el := (P.tet r hr).el
  have hv : ∀ v ∈ [(B r).1, (B r).2.1, (B r).2.2.1, (B r).2.2.2], T.sv v = .live := by
    intro v hv
    obtain ⟨f, hrf, e', hfe, hev⟩ := (el.mem h hl v).1 hv
    exact h.ve.down e' v (EdgeHas_iff.1 hev).1 (EdgeHas_iff.1 hev).2
  refine ⟨List.nodup_cons.2 ⟨fun hm => ?_, el.nodup⟩, hv⟩
  have := hv x hm
  rw [hx] at this; cases this

/-- the parts of two tetrahedra on both sides of the triangle have no faces with the same side in common -/
theorem thirds_apart {x t0 t1 t2 u s0 s1 s2 u' : Nat} (n : [x, t0, t1, t2, u].Nodup) (n' : [x, s0, s1, s2, u'].Nodup)
    (hr : [s0, s1, s2] ~r [t2, t1, t0]) (hu : u' ≠ u) :
    ∀ vs ∈ [[x, t0, t1, u], [x, t1, t2, u], [x, t2, t0, u]], ∀ ws ∈ [[x, s0, s1, u'], [x, s1, s2, u'], [x, s2, s0, u']],
    ∀ c ∈ stdCycles vs, ∀ c' ∈ stdCycles ws, ¬ c' ~r c := by
  simp only [List.nodup_cons, List.mem_cons, List.not_mem_nil, or_false, not_or, not_false_eq_true, List.nodup_nil, and_true] at n n'
  rw [rot3] at hr
  intro vs hvs ws hws
  simp only [List.mem_cons, List.not_mem_nil, or_false] at hvs hws
  rcases hr with ⟨rfl, rfl, rfl⟩ | ⟨rfl, rfl, rfl⟩ | ⟨rfl, rfl, rfl⟩ <;> rcases hvs with rfl | rfl | rfl <;>
    rcases hws with rfl | rfl | rfl <;> apply half_far <;> grind

theorem third_apart {x t0 t1 t2 u : Nat} (n : [x, t0, t1, t2, u].Nodup) :
    [[x, t0, t1, u], [x, t1, t2, u], [x, t2, t0, u]].Pairwise fun vs ws => ∀ c ∈ stdCycles vs, ∀ c' ∈ stdCycles ws, ¬ c' ~r c := by
  simp only [List.nodup_cons, List.mem_cons, List.not_mem_nil, or_false, not_or, not_false_eq_true, List.nodup_nil, and_true] at n
  simp only [List.pairwise_cons, List.mem_cons, List.not_mem_nil, or_false, forall_eq_or_imp, forall_eq, false_imp_iff, implies_true,
    List.Pairwise.nil, and_true]
  refine ⟨⟨?_, ?_⟩, ?_⟩ <;> apply half_far <;> grind

/-- the triangle as two of its regions see it -/
theorem Picked.opposite {T : Topo} {f : Nat} {D : Nat → Bool} {B : Nat → Nat × Nat × Nat × Nat} {rs : List Nat} (h : T.Consistent)
    (hl : T.AllLoops) (hf : T.sf f = .live) (P : T.Picked f D B rs) {r r' : Nat} (hr : r ∈ rs) (hr' : r' ∈ rs) (hne : r ≠ r') :
    [(B r').1, (B r').2.1, (B r').2.2.1] ~r [(B r).2.2.1, (B r).2.1, (B r).1] := by
  have t := P.tet r hr
  have t' := P.tet r' hr'
  have l := ((P.rm r).1 hr).1
  have l' := ((P.rm r').1 hr').1
  have hd : D r' = !(D r) := by
    by_contra k
    have k : D r' = D r := by revert k; cases D r <;> cases D r' <;> simp
    have k1 := (h.fr.mem f (alloc_of_live hf) r (D r)).2 ⟨l, (mrFaceDir_iff h l).1 t.dir⟩
    have k2 := (h.fr.mem f (alloc_of_live hf) r' (D r)).2 ⟨l', (mrFaceDir_iff h l').1 (k ▸ t'.dir)⟩
    rw [k1] at k2
    injection k2 with k2
    exact hne k2
  have s1 := t.seen.flip hl hf (by simp)
  have s2 := t'.seen
  rw [hd] at s2
  obtain ⟨ws, hw, hn⟩ := hl f hf
  rw [seen_iff hf hw hn (by simp)] at s1 s2
  exact s2.trans s1.symm

/-- The tetrahedra are made. -/
theorem thirds_made {T T4 : Topo} (h : T.Consistent) (hl : T.AllLoops) (hF : T.SimpleFaces) {f x p q u g : Nat} (s : T.SimplexFace f)
    (op : PartedAt T T4 f x p q u g) {D : Nat → Bool} {B : Nat → Nat × Nat × Nat × Nat} {rs : List Nat} (P : T.Picked f D B rs) :
    ∃ T5, addRegions (rs.flatMap fun r => [[x, (B r).1, (B r).2.1, (B r).2.2.2], [x, (B r).2.1, (B r).2.2.1, (B r).2.2.2],
        [x, (B r).2.2.1, (B r).1, (B r).2.2.2]]) T4 = .ok T5 ∧
      RegsMore T4 T5 (rs.flatMap fun r => [[x, (B r).1, (B r).2.1, (B r).2.2.2], [x, (B r).2.1, (B r).2.2.1, (B r).2.2.2],
        [x, (B r).2.2.1, (B r).1, (B r).2.2.2]]) := by
  have st := op.stays
  have hxl : T4.sv x = .live := (op.verts x).2 (Or.inr rfl)
  apply addRegions_more _ op.cons op.loops op.simpleE op.simpleF
  · intro vs hvs
    obtain ⟨r, hr, hvs⟩ := List.mem_flatMap.1 hvs
    obtain ⟨n, hv⟩ := P.nodup h hl op.new hr
    simp only [List.mem_cons, List.not_mem_nil, or_false, forall_eq_or_imp, forall_eq] at hv
    obtain ⟨a1, a2, a3, a4⟩ := hv
    have b1 := st.verts _ a1
    have b2 := st.verts _ a2
    have b3 := st.verts _ a3
    have b4 := st.verts _ a4
    simp only [List.nodup_cons, List.mem_cons, List.not_mem_nil, or_false, not_or, not_false_eq_true, List.nodup_nil, and_true] at n
    obtain ⟨⟨n1, n2, n3, n4⟩, ⟨n5, n6, n7⟩, ⟨n8, n9⟩, n10⟩ := n
    simp only [List.mem_cons, List.not_mem_nil, or_false] at hvs
    rcases hvs with rfl | rfl | rfl
    · refine ⟨?_, ?_, by simp⟩
      · intro v hv; simp only [List.mem_cons, List.not_mem_nil, or_false] at hv
        rcases hv with rfl | rfl | rfl | rfl <;> assumption
      · simp [n1, n2, n4, n5, n7, n9]
    · refine ⟨?_, ?_, by simp⟩
      · intro v hv; simp only [List.mem_cons, List.not_mem_nil, or_false] at hv
        rcases hv with rfl | rfl | rfl | rfl <;> assumption
      · simp [n2, n3, n4, n8, n9, n10]
    · refine ⟨?_, ?_, by simp⟩
      · intro v hv; simp only [List.mem_cons, List.not_mem_nil, or_false] at hv
        rcases hv with rfl | rfl | rfl | rfl <;> assumption
      · simp [n1, n3, n4, Ne.symm n6, n7, n10]
  · intro vs hvs c hc o f' hu
    obtain ⟨r, hr, hvs⟩ := List.mem_flatMap.1 hvs
    obtain ⟨o1, o2⟩ := op.onlyR o hu.1
    have hcne := stdCycles_ne hc
    have hu := (st.uses h hl op.up o1 o2 hcne).1 hu
    have hfl := hu.flive h
    have hnx : x ∉ c := by
      intro hx
      obtain ⟨-, d, -, hs⟩ := hu
      have := hs.vlive h hl hfl hcne x hx
      rw [op.new] at this; cases this
    obtain ⟨_, _, _, hall⟩ := (P.tet r hr).el.faces
    have hre := (P.rm r).1 hr
    have key : c ∈ stdCycles [(B r).1, (B r).2.1, (B r).2.2.1, (B r).2.2.2] ∨
        c ~r [(B r).1, (B r).2.2.2, (B r).2.2.1] := by
      simp only [List.mem_cons, List.not_mem_nil, or_false] at hvs
      rcases hvs with rfl | rfl | rfl <;> rw [half_cycles] at hc <;> simp only [List.mem_cons, List.not_mem_nil, or_false] at hc <;>
        rcases hc with rfl | rfl | rfl | rfl <;> first | (refine absurd ?_ hnx; simp; done) | skip
      · left; simp [stdCycles]
      · left; simp [stdCycles]
      · right; exact rot3.2 (by simp)
    have h3 : ∀ c' ∈ stdCycles [(B r).1, (B r).2.1, (B r).2.2.1, (B r).2.2.2], 3 ≤ c'.length := by
      intro c' hc'
      simp only [stdCycles, List.mem_cons, List.not_mem_nil, or_false] at hc'
      rcases hc' with rfl | rfl | rfl | rfl <;> simp
    rcases key with k | k
    · obtain ⟨g', hg⟩ := hall c k
      exact o2 ((uses_same h hl hF hg hu (List.IsRotated.refl _) (h3 c k)).2 ▸ hre)
    · obtain ⟨g', hg⟩ := hall [(B r).1, (B r).2.2.2, (B r).2.2.1] (by simp [stdCycles])
      exact o2 ((uses_same h hl hF hg hu k.symm (by simp)).2 ▸ hre)
  · rw [List.pairwise_flatMap]
    constructor
    · intro r hr
      exact third_apart (P.nodup h hl op.new hr).1
    · refine P.rn.imp_of_mem ?_
      intro r r' hr hr' hne vs hvs ws hws c hc c' hc'
      have ho := P.opposite h hl s.live hr hr' hne
      refine thirds_apart (P.nodup h hl op.new hr).1 (P.nodup h hl op.new hr').1 ho ?_ vs hvs ws hws c hc c' hc'
      intro hu
      refine hne (s.distinct r r' _ _ ((P.rm r).1 hr) ((P.rm r').1 hr') (P.tet r hr).el (P.tet r' hr').el ?_).symm
      rw [hu]
      have p1 : [(B r').1, (B r').2.1, (B r').2.2.1].Perm [(B r).1, (B r).2.1, (B r).2.2.1] :=
        ho.perm.trans (List.reverse_perm [(B r).1, (B r).2.1, (B r).2.2.1])
      exact p1.append_right [(B r).2.2.2]

/-- The mesh with the new tetrahedra is the one with the face parted. -/
theorem thirds {T T4 T5 : Topo} (h : T.Consistent) (hl : T.AllLoops) {f x p q u g : Nat} (s : T.SimplexFace f)
    (op : PartedAt T T4 f x p q u g) (hw : T.Loop f [p, q, u]) (hwn : [p, q, u].Nodup)
    {D : Nat → Bool} {B : Nat → Nat × Nat × Nat × Nat} {rs : List Nat} (P : T.Picked f D B rs)
    (m5 : RegsMore T4 T5 (rs.flatMap fun r => [[x, (B r).1, (B r).2.1, (B r).2.2.2], [x, (B r).2.1, (B r).2.2.1, (B r).2.2.2],
      [x, (B r).2.2.1, (B r).1, (B r).2.2.2]]))
    (L : Later T4 T5) {gf gf' : Nat → Nat × Int} (hg1 : ∀ y, T.sf y = .live → y ≠ f → gf' y = gf y)
    (hg2 : ∀ i, i < 3 → gf' (g + i) = gf f) :
    FaceParted T T5 gf gf' f x := by
  have nothing : ∀ y, Nothing y → False := fun _ k => k
  have hf := s.live
  have st5 : Remains Nothing (· = f) (T.RegionHas · f) T T5 :=
    op.stays.trans (m5.stays.mono (fun _ k => k.elim) (fun _ k => k.elim) (fun _ k => k.elim))
  have hxv : ∀ v, T.sv v = .live → v ≠ x := by rintro v hv rfl; rw [op.new] at hv; cases hv
  have hs0 : T.Seen f true [p, q, u] := (seen_iff hf hw hwn (by simp)).2 (List.IsRotated.refl _)
  have fv : ∀ v, T.FaceVertex f v ↔ v = p ∨ v = q ∨ v = u := by
    intro v
    rw [← hs0.mem h hl hf (by simp) v]
    simp
  have hvl : ∀ v ∈ [p, q, u], T.sv v = .live := hw.live h hf
  have np := hxv p (hvl p (by simp))
  have nq := hxv q (hvl q (by simp))
  have nu := hxv u (hvl u (by simp))
  have hn := hwn
  simp only [List.nodup_cons, List.mem_cons, List.not_mem_nil, or_false, not_or, not_false_eq_true, List.nodup_nil, and_true] at hn
  obtain ⟨⟨npq, npu⟩, nqu⟩ := hn
  have part : ∀ y c, T4.sf y = .live ∧ T4.Loop y c → T5.sf y = .live ∧ T5.Loop y c := fun y c k =>
    ⟨(m5.stays.faces _ k.1 (nothing _)).1, m5.stays.loop op.cons (Upward.nothing _ _) k.1 (nothing _) k.2⟩
  obtain ⟨a1, a2⟩ := part _ _ op.part0
  obtain ⟨b1, b2⟩ := part _ _ op.part1
  obtain ⟨c1, c2⟩ := part _ _ op.part2
  have faceOf : ∀ y z a b, [z, a, b] ~r [p, q, u] → T5.sf y = .live → T5.Loop y [x, a, b] → ∀ d w, w ≠ [] → T.Seen f d w →
      T5.Seen y d (put z x w) := by
    intro y z a b hr hy hlp d w h0 hs
    have hz : [z, a, b].Nodup := hr.perm.nodup_iff.2 hwn
    have hxz : ∀ v ∈ [z, a, b], v ≠ x := fun v hv => hxv v (hvl v (hr.perm.mem_iff.1 hv))
    simp only [List.nodup_cons, List.mem_cons, List.not_mem_nil, or_false, not_or, not_false_eq_true, List.nodup_nil, and_true] at hz
    simp only [List.mem_cons, List.not_mem_nil, or_false, forall_eq_or_imp, forall_eq] at hxz
    have hp : put z x [z, a, b] = [x, a, b] := by simp [put, Ne.symm hz.1.1, Ne.symm hz.1.2]
    exact seen_put hl hf (by simp) (hs0.rotate hf hl (by simp) hr) hy (hp ▸ hlp)
      (by rw [hp]; simp [Ne.symm hxz.2.1, Ne.symm hxz.2.2, hz.2]) h0 hs
  have faces : ∀ v, T.FaceVertex f v → ∃ g, T5.sf g = .live ∧ gf' g = gf f ∧ ∀ d w, w ≠ [] → T.Seen f d w → T5.Seen g d (put v x w) := by
    intro v hv
    rcases (fv v).1 hv with rfl | rfl | rfl
    · exact ⟨g+1, b1, hg2 1 (by omega), faceOf _ _ q u (rot3.2 (by simp)) b1 b2⟩
    · exact ⟨g+2, c1, hg2 2 (by omega), faceOf _ _ u p (rot3.2 (by simp)) c1 c2⟩
    · exact ⟨g, a1, hg2 0 (by omega), faceOf _ _ p q (rot3.2 (by simp)) a1 a2⟩
  -- the tetrahedra
  have tet : ∀ (i : Nat) r, rs[i]? = some r →
      (T5.IsElement (T4.nr + 3*i) [(B r).1, (B r).2.1, x, (B r).2.2.2] ∧ T5.mrElementType (T4.nr + 3*i) = .ok .tet) ∧
      (T5.IsElement (T4.nr + (3*i+1)) [x, (B r).2.1, (B r).2.2.1, (B r).2.2.2] ∧ T5.mrElementType (T4.nr + (3*i+1)) = .ok .tet) ∧
      (T5.IsElement (T4.nr + (3*i+2)) [(B r).1, x, (B r).2.2.1, (B r).2.2.2] ∧ T5.mrElementType (T4.nr + (3*i+2)) = .ok .tet) := by
    intro i r hi
    obtain ⟨g1, g2, g3⟩ := three_get (g := fun r => [x, (B r).1, (B r).2.1, (B r).2.2.2])
      (k := fun r => [x, (B r).2.1, (B r).2.2.1, (B r).2.2.2]) (m := fun r => [x, (B r).2.2.1, (B r).1, (B r).2.2.2]) rs i r hi
    obtain ⟨x1, x2⟩ := m5.each _ _ g1
    obtain ⟨y1, y2⟩ := m5.each _ _ g2
    obtain ⟨z1, z2⟩ := m5.each _ _ g3
    exact ⟨⟨x1.turn4 m5.cons m5.loops (by simp) ⟨[1, 2, 0, 3], by decide, rfl⟩, x2⟩, ⟨y1, y2⟩,
      ⟨z1.turn4 m5.cons m5.loops (by simp) ⟨[2, 0, 1, 3], by decide, rfl⟩, z2⟩⟩
  have puts : ∀ r ∈ rs, put (B r).2.2.1 x [(B r).1, (B r).2.1, (B r).2.2.1, (B r).2.2.2] = [(B r).1, (B r).2.1, x, (B r).2.2.2] ∧
      put (B r).1 x [(B r).1, (B r).2.1, (B r).2.2.1, (B r).2.2.2] = [x, (B r).2.1, (B r).2.2.1, (B r).2.2.2] ∧
      put (B r).2.1 x [(B r).1, (B r).2.1, (B r).2.2.1, (B r).2.2.2] = [(B r).1, x, (B r).2.2.1, (B r).2.2.2] := by
    intro r hr
    obtain ⟨n, -⟩ := P.nodup h hl op.new hr
    simp only [List.nodup_cons, List.mem_cons, List.not_mem_nil, or_false, not_or, not_false_eq_true, List.nodup_nil, and_true] at n
    obtain ⟨⟨n1, n2, n3, n4⟩, ⟨n5, n6, n7⟩, ⟨n8, n9⟩, n10⟩ := n
    simp [put, n5, n6, n8, Ne.symm n5, Ne.symm n6, Ne.symm n7, Ne.symm n8, Ne.symm n9, Ne.symm n10]
  have rv : ∀ r ∈ rs, ∀ v, T.FaceVertex f v ↔ v = (B r).1 ∨ v = (B r).2.1 ∨ v = (B r).2.2.1 := by
    intro r hr v
    rw [← (P.tet r hr).seen.mem h hl hf (by simp) v]
    simp
  have order : ∀ r ∈ rs, ∀ w, T.IsElement r w → w.length = 4 ∧ Turn4 w [(B r).1, (B r).2.1, (B r).2.2.1, (B r).2.2.2] := by
    intro r hr w hw
    have el := (P.tet r hr).el
    have h4 := tet_length el hw (by simp)
    have m0 : (B r).1 ∈ w := (hw.mem h hl _).2 ((el.mem h hl _).1 (by simp))
    have m1 : (B r).2.2.2 ∈ w := (hw.mem h hl _).2 ((el.mem h hl _).1 (by simp))
    have hne : (B r).1 ≠ (B r).2.2.2 := by
      have := el.nodup
      intro k
      rw [k] at this
      simp at this
    obtain ⟨a, b, ht⟩ := turn4_ends h4 m0 m1 hne
    obtain ⟨rfl, rfl⟩ := tet_unique h hl el (hw.turn4 h hl h4 ht)
    exact ⟨h4, ht⟩
  have one : ∀ r ∈ rs, ∀ r' v c, T5.IsElement r' c → put v x [(B r).1, (B r).2.1, (B r).2.2.1, (B r).2.2.2] = c →
      ∀ w, T.IsElement r w → T5.IsElement r' (put v x w) := by
    intro r hr r' v c hc hp w hw
    obtain ⟨h4, ht⟩ := order r hr w hw
    have t1 := ht.put h4 v x
    rw [hp] at t1
    have l4 : (put v x w).length = 4 := by unfold put; simpa using h4
    exact hc.turn4 m5.cons m5.loops (by rw [← hp]; unfold put; simp) (t1.symm l4)
  have regions : ∀ r v, T.RegionHas r f → T.FaceVertex f v → ∃ r', T5.mrElementType r' = .ok .tet ∧
      ∀ w, T.IsElement r w → T5.IsElement r' (put v x w) := by
    intro r v hr hv
    have hm := (P.rm r).2 hr
    obtain ⟨i, hi⟩ := List.getElem?_of_mem hm
    obtain ⟨⟨x1, x2⟩, ⟨y1, y2⟩, ⟨z1, z2⟩⟩ := tet i r hi
    obtain ⟨p1, p2, p3⟩ := puts r hm
    rcases (rv r hm v).1 hv with rfl | rfl | rfl
    · exact ⟨_, y2, one r hm _ _ _ y1 p2⟩
    · exact ⟨_, z2, one r hm _ _ _ z1 p3⟩
    · exact ⟨_, x2, one r hm _ _ _ x1 p1⟩
  have apex : ∀ r ∈ rs, T.RegionVertex r (B r).2.2.2 ∧ ¬ T.FaceVertex f (B r).2.2.2 := by
    intro r hr
    have el := (P.tet r hr).el
    refine ⟨(el.mem h hl _).1 (by simp), fun k => ?_⟩
    have n := el.nodup
    rcases (rv r hr _).1 k with k | k | k <;> rw [k] at n <;> simp at n
  -- what there is of a tetrahedron in the old mesh
  have cyc : ∀ r ∈ rs, ∀ c ∈ stdCycles [(B r).1, (B r).2.1, (B r).2.2.1, (B r).2.2.2], ∃ g d, T.sf g = .live ∧ T.Seen g d c := by
    intro r hr c hc
    obtain ⟨_, _, _, hall⟩ := (P.tet r hr).el.faces
    obtain ⟨g, hu⟩ := hall c hc
    have := hu.flive h
    obtain ⟨-, d, -, hs⟩ := hu
    exact ⟨g, d, this, hs⟩
  -- one of the new tetrahedra
  have at3 : ∀ r ∈ rs, ∀ vs ∈ [[x, (B r).1, (B r).2.1, (B r).2.2.2], [x, (B r).2.1, (B r).2.2.1, (B r).2.2.2],
      [x, (B r).2.2.1, (B r).1, (B r).2.2.2]], ∃ a b z, vs = [x, a, b, (B r).2.2.2] ∧ T.Seen f (!(D r)) [z, a, b] ∧
        ∃ g d, T.sf g = .live ∧ T.Seen g d [a, b, (B r).2.2.2] := by
    intro r hr vs hvs
    have t := (P.tet r hr).seen
    have cy := cyc r hr
    simp only [List.mem_cons, List.not_mem_nil, or_false] at hvs
    rcases hvs with rfl | rfl | rfl
    · exact ⟨_, _, (B r).2.2.1, rfl, t.rotate hf hl (by simp) (rot3.2 (by simp)), cy _ (by simp [stdCycles])⟩
    · exact ⟨_, _, (B r).1, rfl, t, cy _ (by simp [stdCycles])⟩
    · obtain ⟨g, d, k1, k2⟩ := cy [(B r).1, (B r).2.2.2, (B r).2.2.1] (by simp [stdCycles])
      exact ⟨_, _, (B r).2.1, rfl, t.rotate hf hl (by simp) (rot3.2 (by simp)), g, d, k1, k2.rotate k1 hl (by simp) (rot3.2 (by simp))⟩
  have onlyF : ∀ g, T5.sf g = .live → (T.sf g = .live ∧ g ≠ f) ∨
      (∃ v d w, T.FaceVertex f v ∧ w ≠ [] ∧ T.Seen f d w ∧ T5.Seen g d (put v x w)) ∨
      ∃ r v u d, T.RegionHas r f ∧ T.FaceVertex f v ∧ T.RegionVertex r u ∧ ¬ T.FaceVertex f u ∧ T5.Seen g d [x, v, u] := by
    intro y hy
    rcases m5.newF y hy with k | ⟨vs, hvs, c, hc, d, hsn⟩
    · rcases op.onlyF y k with k | rfl | rfl | rfl
      · exact Or.inl k
      · exact Or.inr (Or.inl ⟨u, true, _, (fv u).2 (by simp), by simp, hs0, faceOf _ _ p q (rot3.2 (by simp)) a1 a2 _ _ (by simp) hs0⟩)
      · exact Or.inr (Or.inl ⟨p, true, _, (fv p).2 (by simp), by simp, hs0, faceOf _ _ q u (rot3.2 (by simp)) b1 b2 _ _ (by simp) hs0⟩)
      · exact Or.inr (Or.inl ⟨q, true, _, (fv q).2 (by simp), by simp, hs0, faceOf _ _ u p (rot3.2 (by simp)) c1 c2 _ _ (by simp) hs0⟩)
    · obtain ⟨r, hr, hvs⟩ := List.mem_flatMap.1 hvs
      obtain ⟨a, b, z, rfl, hz, g', d', k1, k2⟩ := at3 r hr vs hvs
      obtain ⟨ap1, ap2⟩ := apex r hr
      have zv := hz.mem h hl hf (by simp)
      have hzn := hz.nodup hl hf (by simp)
      simp only [List.nodup_cons, List.mem_cons, List.not_mem_nil, or_false, not_or, not_false_eq_true, List.nodup_nil, and_true] at hzn
      have va : T.FaceVertex f a := (zv a).1 (by simp)
      have vb : T.FaceVertex f b := (zv b).1 (by simp)
      have vz : T.FaceVertex f z := (zv z).1 (by simp)
      have hre := (P.rm r).1 hr
      rw [half_cycles] at hc
      simp only [List.mem_cons, List.not_mem_nil, or_false] at hc
      rcases hc with rfl | rfl | rfl | rfl
      · right; left
        obtain ⟨y', l1, -, hall⟩ := faces z vz
        have j1 := hall _ _ (by simp) hz
        have hp : put z x [z, a, b] = [x, a, b] := by simp [put, Ne.symm hzn.1.1, Ne.symm hzn.1.2]
        rw [hp] at j1
        have j2 := (hsn.flip m5.loops hy (by simp)).rotate hy m5.loops (by simp) (c' := [x, a, b]) (rot3.2 (by simp))
        have := m5.simpleF y' y _ _ _ (by simp) l1 hy j1 j2
        subst this
        exact ⟨z, _, _, vz, by simp, hz, hp ▸ j1⟩
      · exact Or.inr (Or.inr ⟨r, a, _, d, hre, va, ap1, ap2, hsn⟩)
      · left
        have hgf : g' ≠ f := by
          rintro rfl
          exact ap2 ((k2.mem h hl k1 (by simp) _).1 (by simp))
        have := m5.simpleF g' y d' d _ (by simp) (st5.faces g' k1 hgf).1 hy ((st5.seen h hl op.up k1 hgf (by simp)).2 k2) hsn
        subst this
        exact ⟨k1, hgf⟩
      · exact Or.inr (Or.inr ⟨r, b, _, !d, hre, vb, ap1, ap2, (hsn.flip m5.loops hy (by simp)).rotate hy m5.loops (by simp) (rot3.2 (by simp))⟩)
  have onlyR : ∀ r', T5.sr r' = .live → (T.sr r' = .live ∧ ¬ T.RegionHas r' f) ∨
      ∃ r v w, T.RegionHas r f ∧ T.FaceVertex f v ∧ T.IsElement r w ∧ T5.IsElement r' (put v x w) := by
    intro r' hr'
    rcases m5.newR r' hr' with k | ⟨j, hj, rfl⟩
    · exact Or.inl (op.onlyR r' k)
    · right
      rw [three_length (g := fun r => [x, (B r).1, (B r).2.1, (B r).2.2.2])
        (k := fun r => [x, (B r).2.1, (B r).2.2.1, (B r).2.2.2]) (m := fun r => [x, (B r).2.2.1, (B r).1, (B r).2.2.2])] at hj
      obtain ⟨i, r, hi, hij⟩ := three_at hj
      obtain ⟨⟨x1, x2⟩, ⟨y1, y2⟩, ⟨z1, z2⟩⟩ := tet i r hi
      have hm := List.mem_of_getElem? hi
      obtain ⟨p1, p2, p3⟩ := puts r hm
      have el := (P.tet r hm).el
      have hre := (P.rm r).1 hm
      rcases hij with rfl | rfl | rfl
      · exact ⟨r, _, _, hre, (rv r hm _).2 (Or.inr (Or.inr rfl)), el, p1 ▸ x1⟩
      · exact ⟨r, _, _, hre, (rv r hm _).2 (Or.inl rfl), el, p2 ▸ y1⟩
      · exact ⟨r, _, _, hre, (rv r hm _).2 (Or.inr (Or.inl rfl)), el, p3 ▸ z1⟩
  -- the edges
  let Q : Nat → Prop := fun y => T.FaceVertex f y ∨ ∃ r, T.RegionHas r f ∧ T.RegionVertex r y
  let Ok : Nat → Nat → Prop := fun a b => T.EdgeBetween a b ∨ (a = x ∧ Q b) ∨ (b = x ∧ Q a)
  have oksymm : ∀ a b, Ok a b → Ok b a := by
    rintro a b (⟨g, g2, g3⟩ | k | k)
    · exact Or.inl ⟨g, g3, g2⟩
    · exact Or.inr (Or.inr k)
    · exact Or.inr (Or.inl k)
  have okseen : ∀ g d c a b, T.sf g = .live → T.Seen g d c → Next c a b → Ok a b := by
    intro g d c a b hg hs hn
    obtain ⟨g', -, k1, k2⟩ := edge_of_seen h hl hg hs hn
    exact Or.inl ⟨g', k1, k2⟩
  have oktet : ∀ r ∈ rs, ∀ vs ∈ [[x, (B r).1, (B r).2.1, (B r).2.2.2], [x, (B r).2.1, (B r).2.2.1, (B r).2.2.2],
      [x, (B r).2.2.1, (B r).1, (B r).2.2.2]], ∀ c ∈ stdCycles vs, ∀ a b, Next c a b → Ok a b := by
    intro r hr vs hvs c hc a' b' hn
    obtain ⟨a, b, z, rfl, hz, g', d', k1, k2⟩ := at3 r hr vs hvs
    obtain ⟨ap1, -⟩ := apex r hr
    have zv := hz.mem h hl hf (by simp)
    have va : T.FaceVertex f a := (zv a).1 (by simp)
    have vb : T.FaceVertex f b := (zv b).1 (by simp)
    have xa : Ok x a := Or.inr (Or.inl ⟨rfl, Or.inl va⟩)
    have xb : Ok x b := Or.inr (Or.inl ⟨rfl, Or.inl vb⟩)
    have xu : Ok x (B r).2.2.2 := Or.inr (Or.inl ⟨rfl, Or.inr ⟨r, (P.rm r).1 hr, ap1⟩⟩)
    have o1 : Ok a b := okseen _ _ _ _ _ k1 k2 ⟨0, rfl, rfl⟩
    have o2 : Ok b (B r).2.2.2 := okseen _ _ _ _ _ k1 k2 ⟨1, rfl, rfl⟩
    have o3 : Ok (B r).2.2.2 a := okseen _ _ _ _ _ k1 k2 ⟨2, by simp, by simp⟩
    generalize (B r).2.2.2 = t at *
    obtain ⟨k, h1, h2⟩ := hn
    rw [half_cycles] at hc
    simp only [List.mem_cons, List.not_mem_nil, or_false] at hc
    rcases hc with rfl | rfl | rfl | rfl <;>
      (have hk : k < 3 := by simpa using (List.getElem?_eq_some_iff.1 h1).1) <;>
      (have hk : k = 0 ∨ k = 1 ∨ k = 2 := by omega) <;> rcases hk with rfl | rfl | rfl <;> simp at h1 h2 <;> subst h1 <;> subst h2 <;> first | assumption | (apply oksymm; assumption)
  have ok : ∀ g a b, a ≠ b → T5.EdgeHas g a → T5.EdgeHas g b → Ok a b := by
    intro y a b hab ha hb
    rcases m5.newE y (EdgeHas_iff.1 ha).1 with k | ⟨vs, hvs, c, hc, a', b', hn, hev⟩
    · rcases op.edges y a b hab (m5.stays.edgeHas_back (nothing _) k ha) (m5.stays.edgeHas_back (nothing _) k hb) with k | ⟨rfl, k⟩ | ⟨rfl, k⟩
      · exact Or.inl k
      · exact Or.inr (Or.inl ⟨rfl, Or.inl ((fv b).2 (by simpa using k))⟩)
      · exact Or.inr (Or.inr ⟨rfl, Or.inl ((fv a).2 (by simpa using k))⟩)
    · obtain ⟨r, hr, hvs⟩ := List.mem_flatMap.1 hvs
      have hok := oktet r hr vs hvs c hc a' b' hn
      have k1 := (EdgeHas_iff.1 ha).2
      have k2 := (EdgeHas_iff.1 hb).2
      unfold ends at k1 k2
      rcases hev with hev | hev <;> rw [hev] at k1 k2 <;> simp only [Option.some.injEq] at k1 k2 <;> rcases k1 with rfl | rfl <;>
        rcases k2 with rfl | rfl <;> first | exact absurd rfl hab | exact hok | exact oksymm _ _ hok
  have rvl : ∀ r, T4.sr r ≠ .unused → r < T4.nr := fun r hr => Nat.lt_of_not_le fun k => hr (op.cons.newR r k)
  have hfu : f < T4.nf := Nat.lt_of_not_le fun k => by have := op.cons.newF f k; rw [op.gone_f] at this; cases this
  refine ⟨m5.cons, m5.loops, m5.simpleE, m5.simpleF, op.new, fun v => (m5.sv v).trans (op.verts v), st5, hg1, ?_, ?_, faces, regions, onlyF, onlyR, ?_, ?_⟩
  · rw [L.sf f hfu, op.gone_f]; simp
  · intro r hr
    have := op.gone_r r hr
    rw [L.sr r (rvl r (by rw [this]; simp)), this]; simp
  · intro a b hab ha hb
    constructor
    · rintro ⟨y, y1, y2⟩
      rcases ok y a b hab y1 y2 with k | ⟨k, -⟩ | ⟨k, -⟩
      · exact k
      · exact absurd k ha
      · exact absurd k hb
    · rintro ⟨y, y1, y2⟩
      exact ⟨y, st5.edgeHas (nothing _) y1, st5.edgeHas (nothing _) y2⟩
  · intro y hy
    constructor
    · rintro ⟨e, e1, e2⟩
      rcases ok e x y (Ne.symm hy) e1 e2 with ⟨g', k2, -⟩ | ⟨-, k⟩ | ⟨k, -⟩
      · have k2' := EdgeHas_iff.1 k2
        exact absurd rfl (hxv x (h.ve.down g' x k2'.1 k2'.2))
      · exact k
      · exact absurd k hy
    · have side : T.FaceVertex f y → T5.EdgeBetween x y := by
        intro hv
        rcases (fv y).1 hv with rfl | rfl | rfl
        · obtain ⟨e, -, k1, k2⟩ := edge_of_next m5.cons a1 a2 (a := x) (b := y) ⟨0, rfl, rfl⟩
          exact ⟨e, k1, k2⟩
        · obtain ⟨e, -, k1, k2⟩ := edge_of_next m5.cons b1 b2 (a := x) (b := y) ⟨0, rfl, rfl⟩
          exact ⟨e, k1, k2⟩
        · obtain ⟨e, -, k1, k2⟩ := edge_of_next m5.cons c1 c2 (a := x) (b := y) ⟨0, rfl, rfl⟩
          exact ⟨e, k1, k2⟩
      rintro (hv | ⟨r, hr, hv⟩)
      · exact side hv
      · have hm := (P.rm r).2 hr
        have el := (P.tet r hm).el
        have hin := (el.mem h hl y).2 hv
        simp only [List.mem_cons, List.not_mem_nil, or_false] at hin
        rcases hin with k | k | k | k
        · exact side ((rv r hm y).2 (Or.inl k))
        · exact side ((rv r hm y).2 (Or.inr (Or.inl k)))
        · exact side ((rv r hm y).2 (Or.inr (Or.inr k)))
        · obtain ⟨i, hi⟩ := List.getElem?_of_mem hm
          obtain ⟨-, ⟨y1, y2⟩, -⟩ := tet i r hi
          obtain ⟨_, _, _, hall⟩ := y1.faces
          obtain ⟨e', hu'⟩ := hall [x, (B r).2.2.2, (B r).2.2.1] (by simp [stdCycles])
          have hel := hu'.flive m5.cons
          obtain ⟨-, d, -, hsn⟩ := hu'
          obtain ⟨e, -, j1, j2⟩ := edge_of_seen m5.cons m5.loops hel hsn (a := x) (b := (B r).2.2.2) ⟨0, rfl, rfl⟩
          exact ⟨e, j1, k ▸ j2⟩

/-- The run: what is made, and what the model regions are. -/
theorem face_run {M : SMesh} (h : M.T.Consistent) (hl : M.T.AllLoops) (hE : M.T.SimpleEdges) (hF : M.T.SimpleFaces) {f : Nat}
    (s : M.T.SimplexFace f) : ∃ M' x, mfSplitSimplex M f = .ok (M', x) ∧ FaceParted M.T M'.T M.gf M'.gf f x ∧
      (∀ r, M.T.sr r = .live → ¬ M.T.RegionHas r f → M'.gr r = M.gr r) ∧
      ∀ r, M'.T.sr r = .live → M.T.sr r ≠ .live → M'.gr r = none := by
  have hB : ∀ r, ∃ z : Bool × Nat × Nat × Nat × Nat, M.T.RegionHas r f → M.T.ReadAs f r z.1 z.2.1 z.2.2.1 z.2.2.2.1 z.2.2.2.2 := by
    intro r
    by_cases hr : M.T.RegionHas r f
    · obtain ⟨w, h4, el⟩ := s.tets r hr
      obtain ⟨d, t0, t1, t2, u, k⟩ := readAs h hl hr h4 el
      exact ⟨(d, t0, t1, t2, u), fun _ => k⟩
    · exact ⟨(true, 0, 0, 0, 0), fun k => absurd k hr⟩
  choose Z hZ using hB
  obtain ⟨R, hR, rn, rm⟩ := C22_face_regions h s.live
  have hread := readFaceTets_ok (T := M.T) (f := f) (D := fun r => (Z r).1) (B := fun r => (Z r).2) (R.getD []) true
    fun r hr => hZ r ((rm r).1 hr)
  obtain ⟨T1, hdel, c1⟩ := delRegions_cut (R.getD []) Nothing M.T (Cut.nothing h) rn fun r hr => ⟨((rm r).1 hr).1, id⟩
  have c1 : Cut M.T Nothing Nothing Nothing (M.T.RegionHas · f) T1 :=
    cut_congr (fun _ => Iff.rfl) (fun _ => Iff.rfl) (fun _ => Iff.rfl) (fun y => by rw [← rm]; exact ⟨fun k => k.resolve_left id, Or.inr⟩) c1
  obtain ⟨ws, hw, hwn⟩ := hl f s.live
  have hlen : ws.length = 3 := by
    obtain ⟨es, k1, k2⟩ := s.tri
    obtain ⟨es', k3, k4, -⟩ := hw
    rw [k1] at k3
    injection k3 with k3
    rw [← k4, ← k3, k2]
  match ws, hlen with
  | [p, q, u], _ =>
  obtain ⟨T4, x, hvs, hsplit, op⟩ := face_parted h hl hE hF s.live c1 hw hwn
  have P : M.T.Picked f (fun r => (Z r).1) (fun r => (Z r).2) (R.getD []) := ⟨rn, rm, fun r hr => hZ r ((rm r).1 hr)⟩
  obtain ⟨T5, h5, m5⟩ := thirds_made h hl hF s op P
  obtain ⟨gr', hrun5, hr1, hr2⟩ := thirdTets_run (x := x) (B := fun r => (Z r).2) (R.getD [])
    { M with T := T4, gf := splitCls M.gf f T1 T4 } T5 h5
  have L := addRegions_later _ h5
  have nrl : ∀ r, M.T.sr r = .live → ¬ M.T.RegionHas r f → r < T4.nr := by
    intro r hr hre
    apply Nat.lt_of_not_le
    intro k
    have := op.cons.newR r k
    rw [(op.stays.regions r hr hre).1] at this; cases this
  refine ⟨{ M with T := T5, gf := splitCls M.gf f T1 T4, gr := gr' }, x, ?_, thirds h hl s op hw hwn P m5 L ?_ ?_, ?_, ?_⟩
  · unfold mfSplitSimplex
    rw [hR, Res.bind_ok, hread, Res.bind_ok, hdel, Res.bind_ok, hvs, Res.bind_ok, hsplit, Res.bind_ok]
    dsimp only
    rw [hrun5, Res.bind_ok]
    rfl
  · intro y hy _
    dsimp only [splitCls]
    rw [if_neg]
    rintro ⟨k, -⟩
    have : T1.sf y = .live := by rw [c1.sf]; exact gone_live.2 ⟨hy, id⟩
    rw [this] at k; cases k
  · intro i hi
    dsimp only [splitCls]
    refine if_pos ⟨c1.cons.newF _ (Nat.le_add_right _ _), ?_⟩
    have : i = 0 ∨ i = 1 ∨ i = 2 := by omega
    rcases this with rfl | rfl | rfl
    · exact op.part0.1
    · exact op.part1.1
    · exact op.part2.1
  · intro r hr hre
    exact hr1 r (nrl r hr hre)
  · intro r hr hnr
    rcases m5.newR r hr with k | ⟨i, hi, rfl⟩
    · exact absurd (op.onlyR r k).1 hnr
    · rw [three_length (g := fun r => [x, (Z r).2.1, (Z r).2.2.1, (Z r).2.2.2.2])
        (k := fun r => [x, (Z r).2.2.1, (Z r).2.2.2.1, (Z r).2.2.2.2]) (m := fun r => [x, (Z r).2.2.2.1, (Z r).2.1, (Z r).2.2.2.2])] at hi
      exact hr2 i hi

/-! ### theorems -/

/-- Splitting a face of a mesh of triangles and tetrahedra replaces the face and its tetrahedra by three each and leaves
the rest as it was.  Partial: the classification of the new tetrahedra is not that of the old ones, see
`C75_negation_region_classification`. -/
theorem C75_split_partial {M : SMesh} (h : M.T.Consistent) (hl : M.T.AllLoops) (hE : M.T.SimpleEdges) (hF : M.T.SimpleFaces)
    {f : Nat} (s : M.T.SimplexFace f) :
    ∃ M' x, mfSplitSimplex M f = .ok (M', x) ∧ FaceParted M.T M'.T M.gf M'.gf f x ∧
      ∀ r, M.T.sr r = .live → ¬ M.T.RegionHas r f → M'.gr r = M.gr r := by
  obtain ⟨M', x, h1, h2, h3, -⟩ := face_run h hl hE hF s
  exact ⟨M', x, h1, h2, h3⟩

/-- The three tetrahedra that replace one are in no determined model region, whatever the one was in. -/
theorem C75_negation_region_classification {M : SMesh} (h : M.T.Consistent) (hl : M.T.AllLoops) (hE : M.T.SimpleEdges)
    (hF : M.T.SimpleFaces) {f : Nat} (s : M.T.SimplexFace f) {M' : SMesh} {x : Nat}
    (hr : mfSplitSimplex M f = .ok (M', x)) : ∀ r, M'.T.sr r = .live → M.T.sr r ≠ .live → M'.gr r = none := by
  obtain ⟨M1, y, h1, -, -, h4⟩ := face_run h hl hE hF s
  rw [hr] at h1
  injection h1 with h1
  injection h1 with h1 _
  subst h1
  exact h4

/-! ### the hypotheses can be met -/

/-- Two tetrahedra and their common face. -/
theorem tetPair_face : ∃ T, empty.run tetPair = .ok T ∧ T.Consistent ∧ T.AllLoops ∧ T.SimpleEdges ∧ T.SimpleFaces ∧
    T.SimplexFace 2 ∧ T.RegionHas 0 2 ∧ T.RegionHas 1 2 := by
  obtain ⟨T, h1, h2⟩ := reachable (os := tetPair) (by decide +kernel)
  have hq : answer tetPair (fun T => .ok (T.triReadyB 5 9 7 2 &&
      T.allLoopsB [[0,1,2],[0,1,3],[1,2,3],[2,0,3],[1,2,4],[2,3,4],[3,1,4]] && T.simpleEdgesB && decide (T.nf = 7) &&
      T.elementB 0 [0,1,2,3] && T.elementB 1 [1,2,3,4] && decide (T.sf 2 = .live) &&
      decide (T.mfEdges 2 true none = .ok [1,5,3]) && decide (T.mrFaceDir 0 2 = .ok (some true)) &&
      decide (T.mrFaceDir 1 2 = .ok (some false)) && decide (T.sr 0 = .live) && decide (T.sr 1 = .live))) = .ok true := by
    decide +kernel
  unfold answer at hq
  rw [h1, Res.bind_ok, Res.ok.injEq] at hq
  simp only [Bool.and_eq_true, decide_eq_true_iff] at hq
  obtain ⟨⟨⟨⟨⟨⟨⟨⟨⟨⟨⟨q1, q2⟩, q3⟩, q4⟩, q5⟩, q6⟩, p1⟩, p2⟩, p3⟩, p4⟩, p5⟩, p6⟩ := hq
  obtain ⟨k1, k2, k3, k4, k5, k6⟩ := triReadyB_sound h2 q1
  have hl := allLoopsB_sound h2 q2
  have z0 := elementB_sound q5
  have z1 := elementB_sound q6
  have two : ∀ r, T.sr r = .live → r = 0 ∨ r = 1 := by
    intro r hr
    have hr := (k4.2 r).2 hr
    rw [List.mem_range] at hr
    omega
  have v0 : ∀ w, T.IsElement 0 w → 0 ∈ w := fun w hw => (hw.mem h2 hl 0).2 ((z0.mem h2 hl 0).1 (by simp))
  have v1 : ∀ w, T.IsElement 1 w → 0 ∉ w := fun w hw k => by
    have := (z1.mem h2 hl 0).2 ((hw.mem h2 hl 0).1 k)
    simp at this
  refine ⟨T, h1, h2, hl, simpleEdgesB_sound h2 q3, simpleFaces_of h2 q2 q4 (by decide), ⟨p1, ⟨_, p2, rfl⟩, ?_, ?_⟩, ⟨p5, true, p3⟩, ⟨p6, false, p4⟩⟩
  · intro r hr
    rcases two r hr.1 with rfl | rfl
    · exact ⟨_, rfl, z0⟩
    · exact ⟨_, rfl, z1⟩
  · intro r r' w w' hr hr' hw hw' hp
    rcases two r hr.1 with rfl | rfl <;> rcases two r' hr'.1 with rfl | rfl
    · rfl
    · exact absurd (hp.mem_iff.2 (v0 w hw)) (v1 w' hw')
    · exact absurd (hp.mem_iff.1 (v0 w' hw')) (v1 w hw)
    · rfl

/-- The hypotheses hold for two tetrahedra and their common face: both are parted. -/
example : ∃ T M' x, empty.run tetPair = .ok T ∧ mfSplitSimplex (ownCls T) 2 = .ok (M', x) ∧
    FaceParted T M'.T (fun f => (2, f)) M'.gf 2 x := by
  obtain ⟨T, h0, h, hl, hE, hF, s, -⟩ := tetPair_face
  obtain ⟨M', x, h1, h2, -⟩ := C75_split_partial (M := ownCls T) h hl hE hF s
  exact ⟨T, M', x, h0, h1, h2⟩

/-- Of the two tetrahedra six are made, of the triangle three, with six more inside; five new edges end in the new
vertex.  The model regions of all six are indeterminate though those of the two were 0 and 1. -/
example : (answer tetPair fun T => do
    let p ← mfSplitSimplex (ownCls T) 2
    pure ((List.range 20).filter (p.1.T.sr · = .live), (List.range 20).filter (p.1.T.sf · = .live),
      (List.range 20).filter (p.1.T.se · = .live), [2,3,4,5,6,7].map p.1.gr)) =
    .ok ([2,3,4,5,6,7], [0,1,3,4,5,6] ++ [7,8,9] ++ [10,11,12,13,14,15], List.range 14, [none, none, none, none, none, none]) := by
  decide +kernel

end Topo
end MSTK
