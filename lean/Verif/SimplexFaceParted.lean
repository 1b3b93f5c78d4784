import Verif.SimplexFaceLemmas
import Verif.Props.Simplex

/-!
The mesh of `MF_Split_SimplexMesh` between the splitting of the face and the making of the tetrahedra (for C75).
-/
namespace MSTK
namespace Topo

/-! ### runs -/

theorem newTriangles_run {x : Nat} : ∀ (ps : List (Nat × Nat)) (T T' : Topo),
    addFaces (ps.map fun p => [x, p.1, p.2]) T = .ok T' → ∃ ids, newTriangles x ps T = .ok (T', ids) := by
  intro ps
  induction ps with
  | nil =>
    intro T T' h
    injection h with h
    subst h
    exact ⟨[], rfl⟩
  | cons p ps ih =>
    intro T T' h
    rw [List.map_cons] at h
    obtain ⟨T1, h1, h2⟩ := Res.bind_eq_ok.1 (show (T.addFace _ >>= fun T => addFaces _ T) = .ok T' from h)
    obtain ⟨ids, h3⟩ := ih T1 T' h2
    refine ⟨T.nf :: ids, ?_⟩
    obtain ⟨a, b⟩ := p
    show (T.addFace [x, a, b] >>= fun T1 => newTriangles x ps T1 >>= fun r => pure (r.1, T.nf :: r.2)) = _
    rw [h1, Res.bind_ok, h3, Res.bind_ok]
    rfl

theorem given_some : ∀ l : List Nat, given (l.map some) = .ok l := by
  intro l
  induction l with
  | nil => rfl
  | cons a l ih =>
    rw [List.map_cons]
    unfold given
    rw [Res.ofOption_some, Res.bind_ok, ih]
    rfl

theorem thirdTets_run {x : Nat} {B : Nat → Nat × Nat × Nat × Nat} : ∀ (rs : List Nat) (M : SMesh) (T' : Topo),
    addRegions (rs.flatMap fun r => [[x, (B r).1, (B r).2.1, (B r).2.2.2], [x, (B r).2.1, (B r).2.2.1, (B r).2.2.2],
      [x, (B r).2.2.1, (B r).1, (B r).2.2.2]]) M.T = .ok T' →
    ∃ gr', thirdTets (some x) (rs.map fun r => some [some (B r).1, some (B r).2.1, some (B r).2.2.1, some (B r).2.2.2]) M =
        .ok { M with T := T', gr := gr' } ∧ (∀ y, y < M.T.nr → gr' y = M.gr y) ∧
      ∀ i, i < 3 * rs.length → gr' (M.T.nr + i) = none := by
  intro rs
  induction rs with
  | nil =>
    intro M T' hr
    injection hr with hr
    subst hr
    exact ⟨M.gr, rfl, fun _ _ => rfl, by simp⟩
  | cons r rs ih =>
    intro M T' hr
    rw [List.flatMap_cons, List.cons_append, List.cons_append, List.cons_append, List.nil_append] at hr
    obtain ⟨T1, h1, hr⟩ := Res.bind_eq_ok.1 (show (M.T.addRegion _ >>= fun T => addRegions _ T) = .ok T' from hr)
    obtain ⟨T2, h2, hr⟩ := Res.bind_eq_ok.1 (show (T1.addRegion _ >>= fun T => addRegions _ T) = .ok T' from hr)
    obtain ⟨T3, h3, hr⟩ := Res.bind_eq_ok.1 (show (T2.addRegion _ >>= fun T => addRegions _ T) = .ok T' from hr)
    have n1 := (addRegion_later h1).2
    have n2 := (addRegion_later h2).2
    have n3 := (addRegion_later h3).2
    obtain ⟨gr', k1, k2, k3⟩ := ih ⟨T3, M.gf, upd (upd (upd M.gr M.T.nr none) T1.nr none) T2.nr none⟩ T' hr
    dsimp only at k2 k3
    refine ⟨gr', ?_, ?_, ?_⟩
    · rw [List.map_cons]
      unfold thirdTets
      have e1 : newTet M [some x, some (B r).1, some (B r).2.1, some (B r).2.2.2] = .ok ⟨T1, M.gf, upd M.gr M.T.nr none⟩ := by
        show (M.T.addRegion _ >>= fun T => _) = _
        rw [h1]; rfl
      have e2 : newTet ⟨T1, M.gf, upd M.gr M.T.nr none⟩ [some x, some (B r).2.1, some (B r).2.2.1, some (B r).2.2.2] =
          .ok ⟨T2, M.gf, upd (upd M.gr M.T.nr none) T1.nr none⟩ := by
        show (T1.addRegion _ >>= fun T => _) = _
        rw [h2]; rfl
      have e3 : newTet ⟨T2, M.gf, upd (upd M.gr M.T.nr none) T1.nr none⟩ [some x, some (B r).2.2.1, some (B r).1, some (B r).2.2.2] =
          .ok ⟨T3, M.gf, upd (upd (upd M.gr M.T.nr none) T1.nr none) T2.nr none⟩ := by
        show (T2.addRegion _ >>= fun T => _) = _
        rw [h3]; rfl
      show (newTet M [some x, some (B r).1, some (B r).2.1, some (B r).2.2.2] >>= fun M =>
        newTet M [some x, some (B r).2.1, some (B r).2.2.1, some (B r).2.2.2] >>= fun M =>
        newTet M [some x, some (B r).2.2.1, some (B r).1, some (B r).2.2.2] >>= fun M => thirdTets (some x) _ M) = _
      rw [e1, Res.bind_ok, e2, Res.bind_ok, e3, Res.bind_ok, k1]
    · intro y hy
      rw [k2 y (by omega), upd_ne _ _ (by omega), upd_ne _ _ (by omega), upd_ne _ _ (by omega)]
    · intro i hi
      by_cases hi2 : i < 3
      · rw [k2 _ (by omega)]
        rcases (show i = 0 ∨ i = 1 ∨ i = 2 by omega) with rfl | rfl | rfl
        · rw [upd_ne _ _ (by omega), upd_ne _ _ (by omega)]; exact upd_same _ _ _
        · rw [upd_ne _ _ (by omega), ← n1]; exact upd_same _ _ _
        · rw [show M.T.nr + 2 = T2.nr by omega]; exact upd_same _ _ _
      · obtain ⟨j, rfl⟩ := Nat.exists_eq_add_of_le (Nat.le_of_not_lt hi2)
        rw [show M.T.nr + (3 + j) = T3.nr + j by omega]
        exact k3 j (by simp only [List.length_cons] at hi; omega)

/-! ### three for each -/

theorem three_get {α : Type} {g k m : Nat → α} : ∀ (l : List Nat) (i x : Nat), l[i]? = some x →
    (l.flatMap fun y => [g y, k y, m y])[3*i]? = some (g x) ∧ (l.flatMap fun y => [g y, k y, m y])[3*i+1]? = some (k x) ∧
      (l.flatMap fun y => [g y, k y, m y])[3*i+2]? = some (m x) := by
  intro l
  induction l with
  | nil => intro i x hi; simp at hi
  | cons y l ih =>
    intro i x hi
    cases i with
    | zero =>
      simp only [List.getElem?_cons_zero, Option.some.injEq] at hi
      subst hi
      exact ⟨rfl, rfl, rfl⟩
    | succ i =>
      rw [List.getElem?_cons_succ] at hi
      obtain ⟨k1, k2, k3⟩ := ih i x hi
      rw [List.flatMap_cons, List.cons_append, List.cons_append, List.cons_append, List.nil_append, show 3*(i+1) = 3*i+1+1+1 by omega]
      simp only [List.getElem?_cons_succ]
      exact ⟨k1, k2, k3⟩

theorem three_length {α : Type} {g k m : Nat → α} (l : List Nat) : (l.flatMap fun y => [g y, k y, m y]).length = 3 * l.length := by
  induction l with
  | nil => rfl
  | cons y l ih => rw [List.flatMap_cons, List.length_append, ih]; simp; omega

theorem three_at {l : List Nat} {j : Nat} (hj : j < 3 * l.length) :
    ∃ i x, l[i]? = some x ∧ (j = 3*i ∨ j = 3*i+1 ∨ j = 3*i+2) := by
  have hi : j / 3 < l.length := by omega
  exact ⟨j/3, l[j/3], List.getElem?_eq_getElem hi, by omega⟩

/-! ### the face split -/

/-- The mesh without the regions of the face, and the face split. -/
structure PartedAt (T T4 : Topo) (f x p q s g : Nat) : Prop where
  cons : T4.Consistent
  loops : T4.AllLoops
  simpleE : T4.SimpleEdges
  simpleF : T4.SimpleFaces
  new : T.sv x = .unused
  verts : ∀ v, T4.sv v = .live ↔ T.sv v = .live ∨ v = x
  up : T.Upward Nothing (· = f) (T.RegionHas · f)
  stays : Remains Nothing (· = f) (T.RegionHas · f) T T4
  gone_f : T4.sf f = .freed
  gone_r : ∀ r, T.RegionHas r f → T4.sr r = .freed
  part0 : T4.sf g = .live ∧ T4.Loop g [x, p, q]
  part1 : T4.sf (g+1) = .live ∧ T4.Loop (g+1) [x, q, s]
  part2 : T4.sf (g+2) = .live ∧ T4.Loop (g+2) [x, s, p]
  onlyF : ∀ y, T4.sf y = .live → (T.sf y = .live ∧ y ≠ f) ∨ y = g ∨ y = g+1 ∨ y = g+2
  onlyR : ∀ r, T4.sr r = .live → T.sr r = .live ∧ ¬ T.RegionHas r f
  edges : ∀ y a b, a ≠ b → T4.EdgeHas y a → T4.EdgeHas y b → T.EdgeBetween a b ∨
    (a = x ∧ b ∈ [p, q, s]) ∨ (b = x ∧ a ∈ [p, q, s])

theorem newVertex_stays {T : Topo} (h : T.Consistent) : Remains Nothing Nothing Nothing T T.mvNew.1 := by
  refine ⟨fun v hv => ?_, fun e he _ => ⟨he, rfl⟩, fun f hf _ => ⟨hf, rfl, fun _ => rfl⟩, fun r hr _ => ⟨hr, rfl, fun _ => rfl, rfl⟩⟩
  have hne : v ≠ T.nv := by
    rintro rfl
    rw [h.newV _ (Nat.le_refl _)] at hv
    cases hv
  exact (upd_ne _ _ hne).trans hv

theorem face_parted {T : Topo} (h : T.Consistent) (hl : T.AllLoops) (hE : T.SimpleEdges) (hF : T.SimpleFaces) {f : Nat}
    (hfl : T.sf f = .live) {T1 : Topo} (c : Cut T Nothing Nothing Nothing (T.RegionHas · f) T1) {p q u : Nat}
    (hw : T.Loop f [p, q, u]) (hwn : [p, q, u].Nodup) :
    ∃ T4 x, T1.mfVertices f true none = .ok ([p, q, u].map some) ∧ T1.mfSplit f = .ok (T4, x) ∧ PartedAt T T4 f x p q u T1.nf := by
  have nothing : ∀ y, Nothing y → False := fun _ k => k
  have up1 : T.Upward Nothing Nothing (T.RegionHas · f) := Upward.nothing _ _
  have st1 := c.stays
  have hf1 : T1.sf f = .live := (st1.faces f hfl id).1
  have hw1 : T1.Loop f [p, q, u] := st1.loop h up1 hfl id hw
  have hv1 := C23_vertices hf1 hw1 true
  simp only [if_true] at hv1
  have fback : ∀ g, T1.sf g = .live → T.sf g = .live := by intro g hg; rw [c.sf] at hg; exact (gone_live.1 hg).1
  have eback : ∀ g, T1.se g = .live → T.se g = .live := by intro g hg; rw [c.se] at hg; exact (gone_live.1 hg).1
  have rback : ∀ g, T1.sr g = .live → T.sr g = .live ∧ ¬ T.RegionHas g f := by intro g hg; rw [c.sr] at hg; exact gone_live.1 hg
  have ehback : ∀ g a, T1.EdgeHas g a → T.EdgeHas g a := fun g a k => st1.edgeHas_back (nothing _) (eback g k.1) k
  have hl1 : T1.AllLoops := by
    intro g hg
    obtain ⟨ws, k1, k2⟩ := hl g (fback g hg)
    exact ⟨ws, st1.loop h up1 (fback g hg) id k1, k2⟩
  have hE1 : T1.SimpleEdges := fun e e' a b hab k1 k2 k3 k4 =>
    hE e e' a b hab (ehback _ _ k1) (ehback _ _ k2) (ehback _ _ k3) (ehback _ _ k4)
  have hF1 : T1.SimpleFaces := by
    intro g g' d d' c' h3 k1 k2 k3 k4
    have h0 : c' ≠ [] := by rintro rfl; simp at h3
    exact hF g g' d d' c' h3 (fback g k1) (fback g' k2) ((st1.seen h hl up1 (fback g k1) id h0).1 k3) ((st1.seen h hl up1 (fback g' k2) id h0).1 k4)
  have hno1 : ∀ r, ¬ T1.RegionHas r f := by
    intro r hr
    obtain ⟨r1, r2⟩ := rback r hr.1
    exact r2 ((st1.regionHas r1 r2).1 hr)
  obtain ⟨L, hL, -, Lm⟩ := C22_face_regions c.cons hf1
  have hL0 : L.getD [] = [] := by
    rw [List.eq_nil_iff_forall_not_mem]
    intro r hr
    exact hno1 r ((Lm r).1 hr)
  -- the vertex
  have x1 : T1.sv T1.nv = .unused := c.cons.newV _ (Nat.le_refl _)
  have hxT : T.sv T1.nv = .unused := by
    have := x1
    rw [c.sv] at this
    unfold gone at this
    simpa using this
  have st2 := newVertex_stays c.cons
  have hx2 : T1.mvNew.1.sv T1.nv = .live := upd_same _ _ _
  have sv2 : ∀ v, T1.mvNew.1.sv v = .live ↔ T1.sv v = .live ∨ v = T1.nv := by
    intro v
    by_cases hv : v = T1.nv
    · subst hv; exact ⟨fun _ => Or.inr rfl, fun _ => hx2⟩
    · rw [show T1.mvNew.1.sv v = T1.sv v from upd_ne _ _ hv]; simp [hv]
  have c2 : T1.mvNew.1.Consistent := c.cons.newVertex
  have hl2 : T1.mvNew.1.AllLoops := hl1
  have hE2 : T1.mvNew.1.SimpleEdges := hE1
  have hF2 : T1.mvNew.1.SimpleFaces := by
    intro g g' d d' c' h3 k1 k2 k3 k4
    have h0 : c' ≠ [] := by rintro rfl; simp at h3
    exact hF1 g g' d d' c' h3 k1 k2 ((st2.seen c.cons hl1 (Upward.nothing _ Nothing) k1 id h0).1 k3)
      ((st2.seen c.cons hl1 (Upward.nothing _ Nothing) k2 id h0).1 k4)
  generalize hxe : T1.nv = x at *
  have hvl : ∀ v ∈ [p, q, u], T.sv v = .live := hw.live h hfl
  have hxv : ∀ v, T.sv v = .live → v ≠ x := by rintro v hv rfl; rw [hxT] at hv; cases hv
  have live2 : ∀ v, T.sv v = .live → T1.mvNew.1.sv v = .live := fun v hv => st2.verts v (st1.verts v hv)
  have vp := hvl p (by simp)
  have vq := hvl q (by simp)
  have vu := hvl u (by simp)
  have np := hxv p vp
  have nq := hxv q vq
  have nu := hxv u vu
  have lp := live2 p vp
  have lq := live2 q vq
  have lu := live2 u vu
  have hn := hwn
  simp only [List.nodup_cons, List.mem_cons, List.not_mem_nil, or_false, not_or, not_false_eq_true, List.nodup_nil, and_true] at hn
  obtain ⟨⟨npq, npu⟩, nqu⟩ := hn
  have old2 : ∀ g d c', T1.mvNew.1.sf g = .live → T1.mvNew.1.Seen g d c' → x ∉ c' := by
    intro g d c' hg hs hx
    have h0 : c' ≠ [] := by rintro rfl; simp at hx
    have k1 := (st2.seen c.cons hl1 (Upward.nothing _ Nothing) hg id h0).1 hs
    have := k1.vlive c.cons hl1 hg h0 x hx
    rw [x1] at this; cases this
  obtain ⟨T3, h3, m3⟩ := addFaces_more [[x, p, q], [x, q, u], [x, u, p]] c2 hl2 hE2 hF2 (by
      intro c' hc'
      simp only [List.mem_cons, List.not_mem_nil, or_false] at hc'
      rcases hc' with rfl | rfl | rfl
      · refine ⟨?_, by simp [Ne.symm np, Ne.symm nq, npq], by simp, by simp⟩
        intro v hv; simp only [List.mem_cons, List.not_mem_nil, or_false] at hv
        rcases hv with rfl | rfl | rfl <;> assumption
      · refine ⟨?_, by simp [Ne.symm nu, Ne.symm nq, nqu], by simp, by simp⟩
        intro v hv; simp only [List.mem_cons, List.not_mem_nil, or_false] at hv
        rcases hv with rfl | rfl | rfl <;> assumption
      · refine ⟨?_, by simp [Ne.symm nu, Ne.symm np, Ne.symm npu], by simp, by simp⟩
        intro v hv; simp only [List.mem_cons, List.not_mem_nil, or_false] at hv
        rcases hv with rfl | rfl | rfl <;> assumption)
    (by
      intro c' hc' g d hg hs
      refine old2 g d c' hg hs ?_
      simp only [List.mem_cons, List.not_mem_nil, or_false] at hc'
      rcases hc' with rfl | rfl | rfl <;> simp)
    (by
      have far : ∀ {a b a' b' z : Nat}, z ∈ [x, a', b'] → z ≠ x → z ≠ a → z ≠ b → ¬ [x, a', b'].Perm [x, a, b] := by
        intro a b a' b' z hz h1 h2 h3 hp
        have := hp.mem_iff.1 hz
        simp only [List.mem_cons, List.not_mem_nil, or_false] at this
        omega
      simp only [List.pairwise_cons, List.mem_cons, List.not_mem_nil, or_false, forall_eq_or_imp, forall_eq, false_imp_iff, implies_true, List.Pairwise.nil, and_true]
      exact ⟨⟨far (z := u) (by simp) nu (Ne.symm npu) (Ne.symm nqu), far (z := u) (by simp) nu (Ne.symm npu) (Ne.symm nqu)⟩,
        far (z := p) (by simp) np npq npu⟩)
  obtain ⟨ids, h3'⟩ := newTriangles_run (x := x) [(p, q), (q, u), (u, p)] _ T3 h3
  have hf3 : T3.sf f = .live := (m3.stays.faces f hf1 id).1
  have hno3 : ∀ r, ¬ T3.RegionHas r f := by
    intro r hr
    have r2 : T1.mvNew.1.sr r = .live := (m3.sr r).1 hr.1
    exact hno1 r ((m3.stays.regionHas r2 id).1 hr)
  obtain ⟨T4, h4, c4⟩ := (Cut.nothing m3.cons).face hf3 id fun r d hr hm => hno3 r ⟨hr, d, (mrFaceDir_iff m3.cons hr).2 hm⟩
  have c4 : Cut T3 Nothing Nothing (· = f) Nothing T4 :=
    cut_congr (fun _ => Iff.rfl) (fun _ => Iff.rfl) (fun y => ⟨fun k => k.resolve_left id, Or.inr⟩) (fun _ => Iff.rfl) c4
  have st4 := c4.stays
  have up3 : T3.Upward Nothing (· = f) Nothing := ⟨fun _ _ _ k => k.elim, fun r g k1 k2 => hno3 r (k2 ▸ k1)⟩
  have f4 : ∀ g, T4.sf g = .live → T3.sf g = .live ∧ g ≠ f := by intro g hg; rw [c4.sf] at hg; exact gone_live.1 hg
  have e4 : ∀ g, T4.se g = .live → T3.se g = .live := by intro g hg; rw [c4.se] at hg; exact (gone_live.1 hg).1
  have eh4 : ∀ g a, T4.EdgeHas g a → T3.EdgeHas g a := fun g a k => st4.edgeHas_back (nothing _) (e4 g k.1) k
  have mono : ∀ {A B : Topo}, Remains Nothing Nothing Nothing A B → Remains Nothing (· = f) (T.RegionHas · f) A B :=
    fun k => k.mono (fun _ k => k) (fun _ k => k.elim) (fun _ k => k.elim)
  have st : Remains Nothing (· = f) (T.RegionHas · f) T T4 :=
    (((st1.mono (fun _ k => k) (fun _ k => k.elim) (fun _ k => k) : Remains Nothing (· = f) (T.RegionHas · f) T T1).trans (mono st2)).trans
      (mono m3.stays)).trans (st4.mono (fun _ k => k) (fun _ k => k) (fun _ k => k.elim))
  have nf2 : T1.mvNew.1.nf = T1.nf := rfl
  have fne : ∀ i, T1.nf + i ≠ f := by
    rintro i rfl
    have := c.cons.newF (T1.nf + i) (Nat.le_add_right _ _)
    rw [hf1] at this; cases this
  have part : ∀ (i : Nat) c', [[x, p, q], [x, q, u], [x, u, p]][i]? = some c' → T4.sf (T1.nf + i) = .live ∧ T4.Loop (T1.nf + i) c' := by
    intro i c' hi
    obtain ⟨k1, k2⟩ := m3.each i c' hi
    rw [nf2] at k1 k2
    exact ⟨(st4.faces _ k1 (fne i)).1, st4.loop m3.cons up3 k1 (fne i) k2⟩
  refine ⟨T4, x, hv1, ?_, ⟨c4.cons, ?_, ?_, ?_, hxT, ?_, ⟨fun _ _ _ k => k.elim, fun r g k1 k2 => k2 ▸ k1⟩, st, ?_, ?_, part 0 _ rfl, part 1 _ rfl,
    part 2 _ rfl, ?_, ?_, ?_⟩⟩
  · unfold mfSplit
    rw [hL, Res.bind_ok, hv1, Res.bind_ok, given_some, Res.bind_ok]
    dsimp only
    rw [if_neg (by simp), hL0, show T1.mvNew.2 = x from hxe]
    rw [show cyclicPairs [p, q, u] = [(p, q), (q, u), (u, p)] from rfl, h3', Res.bind_ok]
    dsimp only [replaceInRegions]
    rw [Res.bind_ok, h4, Res.bind_ok]
    rfl
  · intro g hg
    obtain ⟨g1, g2⟩ := f4 g hg
    obtain ⟨ws, k1, k2⟩ := m3.loops g g1
    exact ⟨ws, st4.loop m3.cons up3 g1 g2 k1, k2⟩
  · exact fun e e' a b hab k1 k2 k3 k4 => m3.simpleE e e' a b hab (eh4 _ _ k1) (eh4 _ _ k2) (eh4 _ _ k3) (eh4 _ _ k4)
  · intro g g' d d' c' h3 k1 k2 k3 k4
    have h0 : c' ≠ [] := by rintro rfl; simp at h3
    obtain ⟨g1, g2⟩ := f4 g k1
    obtain ⟨g3, g4⟩ := f4 g' k2
    exact m3.simpleF g g' d d' c' h3 g1 g3 ((st4.seen m3.cons m3.loops up3 g1 g2 h0).1 k3) ((st4.seen m3.cons m3.loops up3 g3 g4 h0).1 k4)
  · intro v
    have a1 : T4.sv v = .live ↔ T3.sv v = .live := by rw [c4.sv, gone_live]; exact ⟨fun k => k.1, fun k => ⟨k, id⟩⟩
    have a2 : T1.sv v = .live ↔ T.sv v = .live := by rw [c.sv, gone_live]; exact ⟨fun k => k.1, fun k => ⟨k, id⟩⟩
    rw [a1, m3.sv, sv2, a2]
  · rw [c4.sf]; unfold gone; rw [if_pos rfl]
  · intro r hr
    have r1 : T1.sr r = .freed := by rw [c.sr]; unfold gone; rw [if_pos hr]
    have r2 : r < T1.nr := Nat.lt_of_not_le fun k => by have := c.cons.newR r k; rw [r1] at this; cases this
    have r3 := (addFaces_later _ h3).sr r r2
    have r4 : T4.sr r = T3.sr r := by rw [c4.sr]; unfold gone; rw [if_neg id]
    rw [r4, r3]; exact r1
  · intro y hy
    obtain ⟨y1, y2⟩ := f4 y hy
    rcases m3.newF y y1 with k | ⟨i, hi, rfl⟩
    · exact Or.inl ⟨fback y k, y2⟩
    · simp only [List.length_cons, List.length_nil] at hi
      rw [nf2]
      omega
  · intro r hr
    have r1 : T3.sr r = .live := by rw [c4.sr] at hr; exact (gone_live.1 hr).1
    exact rback r ((m3.sr r).1 r1)
  · intro y a b hab ha hb
    have ha := eh4 _ _ ha
    have hb := eh4 _ _ hb
    rcases m3.newE y ha.1 with k | ⟨c', hc', a', b', hnx, hev⟩
    · left
      exact ⟨y, ehback _ _ (m3.stays.edgeHas_back (nothing _) k ha), ehback _ _ (m3.stays.edgeHas_back (nothing _) k hb)⟩
    · have side : ∀ {v w : Nat}, Next [p, q, u] v w → T.EdgeBetween v w := by
        intro v w hn
        obtain ⟨g, -, k1, k2⟩ := edge_of_next h hfl hw hn
        exact ⟨g, k1, k2⟩
      have spq : T.EdgeBetween p q := side ⟨0, rfl, rfl⟩
      have squ : T.EdgeBetween q u := side ⟨1, rfl, rfl⟩
      have sup : T.EdgeBetween u p := side ⟨2, by simp, by simp⟩
      have sym : ∀ {v w}, T.EdgeBetween v w → T.EdgeBetween w v := fun ⟨g, k1, k2⟩ => ⟨g, k2, k1⟩
      have key : T.EdgeBetween a' b' ∨ (a' = x ∧ b' ∈ [p, q, u]) ∨ (b' = x ∧ a' ∈ [p, q, u]) := by
        obtain ⟨k, j1, j2⟩ := hnx
        simp only [List.mem_cons, List.not_mem_nil, or_false] at hc'
        have hk : k < 3 := by
          rcases hc' with rfl | rfl | rfl <;> simpa using (List.getElem?_eq_some_iff.1 j1).1
        have hk : k = 0 ∨ k = 1 ∨ k = 2 := by omega
        rcases hc' with rfl | rfl | rfl <;> rcases hk with rfl | rfl | rfl <;> simp at j1 j2 <;> subst j1 <;> subst j2 <;>
          first
            | exact Or.inl (by assumption)
            | exact Or.inr (Or.inl ⟨rfl, by simp⟩)
            | exact Or.inr (Or.inr ⟨rfl, by simp⟩)
      have k1 := (EdgeHas_iff.1 ha).2
      have k2 := (EdgeHas_iff.1 hb).2
      unfold ends at k1 k2
      rw [hev] at k1 k2
      simp only [Option.some.injEq] at k1 k2
      rcases k1 with rfl | rfl <;> rcases k2 with rfl | rfl
      · exact absurd rfl hab
      · exact key
      · rcases key with k | k | k
        · exact Or.inl (sym k)
        · exact Or.inr (Or.inr k)
        · exact Or.inr (Or.inl k)
      · exact absurd rfl hab

end Topo
end MSTK
