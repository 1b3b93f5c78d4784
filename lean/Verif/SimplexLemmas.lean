import Verif.TetLemmas
import Verif.SimplexModel

/-!
What `ME_Split_SimplexMesh` reads from the mesh, deletes and makes (for C74).
-/
namespace MSTK
namespace Topo

/-! ### deleting -/

theorem Cut.nothing {T : Topo} (h : T.Consistent) : Cut T Nothing Nothing Nothing Nothing T :=
  ⟨h, rfl, rfl, rfl, rfl, rfl, rfl, (gone_none _).symm, (gone_none _).symm, (gone_none _).symm, (gone_none _).symm⟩

theorem Cut.stays {T T' : Topo} {De Df Dr : Nat → Prop} (c : Cut T Nothing De Df Dr T') : Remains De Df Dr T T' := by
  refine ⟨fun v hv => ?_, fun e he hd => ?_, fun f hf hd => ?_, fun r hr hd => ?_⟩
  · rw [c.sv]; exact gone_live.2 ⟨hv, id⟩
  · exact ⟨by rw [c.se]; exact gone_live.2 ⟨he, hd⟩, by rw [c.ev]⟩
  · have h1 : T'.sf f = .live := by rw [c.sf]; exact gone_live.2 ⟨hf, hd⟩
    refine ⟨h1, mfEdges_same f (h1.trans hf.symm) (by rw [c.fe]), fun i => ?_⟩
    unfold mfEdgeDir_i
    rw [derefF_ok (alloc_of_live hf), derefF_ok (alloc_of_live h1), c.fd]
  · have h1 : T'.sr r = .live := by rw [c.sr]; exact gone_live.2 ⟨hr, hd⟩
    refine ⟨h1, ?_, fun f => ?_, ?_⟩
    · unfold mrFaces rfaces derefR; rw [h1, hr, c.rf]
    · unfold mrFaceDir rfaces derefR; rw [h1, hr, c.rf, c.rd]
    · unfold mrElementType derefR; rw [h1, hr, c.rt]

theorem delRegions_cut {T : Topo} {Df : Nat → Prop} : ∀ (rs : List Nat) (D : Nat → Prop) (T' : Topo), Cut T Nothing Nothing Df D T' →
    rs.Nodup → (∀ r ∈ rs, T.sr r = .live ∧ ¬ D r) →
    ∃ T2, delRegions rs T' = .ok T2 ∧ Cut T Nothing Nothing Df (fun y => D y ∨ y ∈ rs) T2 := by
  intro rs
  induction rs with
  | nil =>
    intro D T' c _ _
    exact ⟨T', rfl, cut_congr (fun _ => Iff.rfl) (fun _ => Iff.rfl) (fun _ => Iff.rfl) (fun y => by simp) c⟩
  | cons r rs ih =>
    intro D T' c hn hr
    rw [List.nodup_cons] at hn
    obtain ⟨r1, r2⟩ := hr r (by simp)
    obtain ⟨T1, k1, k2⟩ := c.region r1 r2
    obtain ⟨T2, q1, q2⟩ := ih _ T1 k2 hn.2 (by
      intro y hy
      obtain ⟨y1, y2⟩ := hr y (by simp [hy])
      exact ⟨y1, fun hx => hx.elim y2 fun hx => hn.1 (hx ▸ hy)⟩)
    refine ⟨T2, ?_, cut_congr (fun _ => Iff.rfl) (fun _ => Iff.rfl) (fun _ => Iff.rfl) (fun y => ?_) q2⟩
    · rw [show delRegions (r :: rs) T' = (T'.mrDelete r false >>= fun T => delRegions rs T) from rfl, k1, Res.bind_ok, q1]
    · simp only [List.mem_cons]; tauto

/-! ### what is read of a tetrahedron -/

theorem fold3 (v0 v1 a b : Nat) (d : Bool) {c' : List Nat} (h0a : v0 ≠ a) (h0b : v0 ≠ b) (hc : c' ~r flipTo d true [v0, b, a]) :
    [0,1,2].foldl (pickTet (some v0) (some v1) d (c'.map some)) none = some [some v0, some a, some b, some v1] := by
  have hlen : c'.length = 3 := by rw [(hc.perm.trans flipTo_perm).length_eq]; rfl
  match c', hlen with
  | [p, q, s], _ =>
    cases d
    · rw [show flipTo false true [v0, b, a] = [a, b, v0] from rfl, rot3] at hc
      rcases hc with ⟨rfl, rfl, rfl⟩ | ⟨rfl, rfl, rfl⟩ | ⟨rfl, rfl, rfl⟩ <;>
        simp [pickTet, entry, h0a.symm, h0b.symm]
    · rw [show flipTo true true [v0, b, a] = [v0, b, a] from rfl, rot3] at hc
      rcases hc with ⟨rfl, rfl, rfl⟩ | ⟨rfl, rfl, rfl⟩ | ⟨rfl, rfl, rfl⟩ <;>
        simp [pickTet, entry, h0a.symm, h0b.symm]

theorem readTet_ok {T : Topo} (h : T.Consistent) (hl : T.AllLoops) {r v0 v1 a b : Nat} (el : T.IsElement r [v0, a, b, v1]) :
    ∃ fs, T.mrFaces r = .ok fs ∧
      T.readTet (some v0) (some v1) r fs [0,1,2,3] = .ok (some [some v0, some a, some b, some v1]) := by
  obtain ⟨fs, E⟩ := el.elt h hl
  obtain ⟨fs', f1, -, -⟩ := el.faces
  have : fs' = fs := by have := (mrFaces_some f1).symm.trans E.rf; injection this
  subst this
  have hn := el.nodup
  have h0a : v0 ≠ a := by rintro rfl; simp at hn
  have h0b : v0 ≠ b := by rintro rfl; simp at hn
  have h01 : v0 ≠ v1 := by rintro rfl; simp at hn
  have ha1 : v1 ≠ a := by rintro rfl; simp at hn
  have hb1 : v1 ≠ b := by rintro rfl; simp at hn
  have hlen : fs'.length = 4 := E.len
  have key : ∀ js : List Nat, (∀ j ∈ js, j < 4) →
      T.readTet (some v0) (some v1) r fs' js = .ok (some [some v0, some a, some b, some v1]) ∨
      ∀ j ∈ js, ∀ f d, ¬ T.Side r fs' j f d [v0, b, a] := by
    intro js
    induction js with
    | nil => intro _; right; simp
    | cons j js ih =>
      intro hj
      have hjl : j < fs'.length := by rw [hlen]; exact hj j (by simp)
      have hg : fs'[j]? = some fs'[j] := List.getElem?_eq_getElem hjl
      obtain ⟨c, hc, d, sd⟩ := E.at_ j _ hg
      obtain ⟨c', es, p1, p2, -⟩ := sd.plain true
      have hmem : ∀ v, some v ∈ c'.map some ↔ v ∈ c := by
        intro v
        rw [List.mem_map_of_injective (Option.some_injective _), (p1.perm.trans flipTo_perm).mem_iff]
      unfold readTet
      rw [hg, Res.ofOption_some, Res.bind_ok, p2, Res.bind_ok]
      by_cases hcc : c = [v0, b, a]
      · left
        subst hcc
        rw [if_pos ⟨(hmem v0).2 (by simp), fun hx => by
          have := (hmem v1).1 hx
          simp at this
          rcases this with k | k | k
          · exact h01 k.symm
          · exact hb1 k
          · exact ha1 k⟩, sd.dir, Res.bind_ok, fold3 v0 v1 a b d h0a h0b p1]
        rfl
      · rw [if_neg (by
          rintro ⟨k1, k2⟩
          rw [hmem] at k1 k2
          simp only [stdCycles, List.mem_cons, List.not_mem_nil, or_false] at hc
          rcases hc with rfl | rfl | rfl | rfl
          · exact hcc rfl
          · exact k2 (by simp)
          · exact k2 (by simp)
          · exact k2 (by simp))]
        rcases ih fun j' hj' => hj j' (by simp [hj']) with k | k
        · exact Or.inl k
        · right
          intro j' hj' f d' sd'
          rcases List.mem_cons.1 hj' with rfl | hj'
          · exact hcc (E.same c hc [v0, b, a] (by simp [stdCycles]) j' _ f d d' sd sd')
          · exact k j' hj' f d' sd'
  refine ⟨fs', f1, ?_⟩
  rcases key [0,1,2,3] (by simp) with k | k
  · exact k
  · obtain ⟨i, f, d, sd⟩ := E.find [v0, b, a] (by simp [stdCycles])
    have hi := (List.getElem?_eq_some_iff.1 sd.pos).1
    exact absurd sd (k i (by simp; omega) f d)

theorem readTets_ok {T : Topo} (h : T.Consistent) (hl : T.AllLoops) {v0 v1 : Nat} {A : Nat → Nat × Nat} : ∀ (rs : List Nat),
    (∀ r ∈ rs, T.IsElement r [v0, (A r).1, (A r).2, v1]) →
    T.readTets (some v0) (some v1) rs = .ok (rs.map fun r => some [some v0, some (A r).1, some (A r).2, some v1]) := by
  intro rs
  induction rs with
  | nil => intro _; rfl
  | cons r rs ih =>
    intro he
    obtain ⟨fs, k1, k2⟩ := readTet_ok h hl (he r (by simp))
    unfold readTets
    rw [k1, Res.bind_ok, k2, Res.bind_ok, ih fun r' hr' => he r' (by simp [hr']), Res.bind_ok]
    rfl

/-- The vertices of a tetrahedron between two given ones have one order. -/
theorem tet_unique {T : Topo} (h : T.Consistent) (hl : T.AllLoops) {r v0 v1 a b a' b' : Nat} (el : T.IsElement r [v0, a, b, v1])
    (el' : T.IsElement r [v0, a', b', v1]) : a' = a ∧ b' = b := by
  obtain ⟨fs, k1, k2⟩ := readTet_ok h hl el
  obtain ⟨fs', k3, k4⟩ := readTet_ok h hl el'
  rw [k1] at k3
  injection k3 with k3
  subst k3
  rw [k2] at k4
  simp only [Res.ok.injEq, Option.some.injEq, List.cons.injEq, and_true, true_and] at k4
  exact ⟨k4.1.symm, k4.2.symm⟩

/-! ### what is read of a triangle -/

/-- The triangle `f` goes round `o`, `p`, `q`, and `p`, `q` are the ends of the edge. -/
structure TriAt (T : Topo) (v0 v1 f o p q : Nat) : Prop where
  seen : T.Seen f true [o, p, q]
  out : o ≠ v0 ∧ o ≠ v1
  ends : (p = v0 ∧ q = v1) ∨ (p = v1 ∧ q = v0)

theorem pickTri_ok {v0 v1 c0 c1 c2 : Nat} (h0 : v0 ∈ [c0, c1, c2]) (h1 : v1 ∈ [c0, c1, c2]) (hne : v0 ≠ v1)
    (hn : [c0, c1, c2].Nodup) : ∃ o p q, [o, p, q] ~r [c0, c1, c2] ∧ (o ≠ v0 ∧ o ≠ v1) ∧
      ((p = v0 ∧ q = v1) ∨ (p = v1 ∧ q = v0)) ∧
      pickTri (some v0) (some v1) ([c0, c1, c2].map some) [0,1,2] = some [some o, some p, some q] := by
  simp only [List.nodup_cons, List.mem_cons, List.not_mem_nil, or_false, not_or, not_false_eq_true, List.nodup_nil, and_true] at hn
  obtain ⟨⟨n1, n2⟩, n3⟩ := hn
  simp only [List.mem_cons, List.not_mem_nil, or_false] at h0 h1
  rcases h0 with rfl | rfl | rfl <;> rcases h1 with rfl | rfl | rfl <;> first | exact absurd rfl hne | skip
  · exact ⟨c2, v0, v1, rot3.2 (by simp), ⟨Ne.symm n2, Ne.symm n3⟩, by simp, by simp [pickTri, entry, Ne.symm n2, Ne.symm n3]⟩
  · exact ⟨c1, v1, v0, rot3.2 (by simp), ⟨Ne.symm n1, n3⟩, by simp, by simp [pickTri, entry, Ne.symm n1, n3]⟩
  · exact ⟨c2, v1, v0, rot3.2 (by simp), ⟨Ne.symm n3, Ne.symm n2⟩, by simp, by simp [pickTri, entry, Ne.symm n2, Ne.symm n3]⟩
  · exact ⟨c0, v0, v1, rot3.2 (by simp), ⟨n1, n2⟩, by simp, by simp [pickTri, entry, n1, n2]⟩
  · exact ⟨c1, v0, v1, rot3.2 (by simp), ⟨n3, Ne.symm n1⟩, by simp, by simp [pickTri, entry, Ne.symm n1, n3]⟩
  · exact ⟨c0, v1, v0, rot3.2 (by simp), ⟨n2, n1⟩, by simp, by simp [pickTri, entry, n1, n2]⟩

/-- A triangle of the edge, as it is read in a mesh in which the triangle is still there. -/
theorem tri_read {T : Topo} (h : T.Consistent) (hl : T.AllLoops) {e v0 v1 f : Nat} {es : List Nat} (hf : T.FaceHas f e)
    (he0 : T.EdgeHas e v0) (he1 : T.EdgeHas e v1) (hne : v0 ≠ v1) (h1 : T.mfEdges f true none = .ok es) (h3 : es.length = 3) :
    ∃ c o p q, T.Loop f c ∧ c.Nodup ∧ T.TriAt v0 v1 f o p q ∧
      pickTri (some v0) (some v1) (c.map some) [0,1,2] = some [some o, some p, some q] := by
  obtain ⟨ws, hw, hn⟩ := hl f hf.1
  have hlen : ws.length = 3 := by
    obtain ⟨es', k1, k2, -⟩ := hw
    rw [h1] at k1
    injection k1 with k1
    rw [← k2, ← k1, h3]
  have h0 : ws ≠ [] := by rintro rfl; simp at hlen
  have hs : T.Seen f true ws := (seen_iff hf.1 hw hn h0).2 (List.IsRotated.refl _)
  have m0 : v0 ∈ ws := (hs.mem h hl hf.1 h0 v0).2 ⟨e, hf, he0⟩
  have m1 : v1 ∈ ws := (hs.mem h hl hf.1 h0 v1).2 ⟨e, hf, he1⟩
  match ws, hlen with
  | [c0, c1, c2], _ =>
    obtain ⟨o, p, q, k1, k2, k3, k4⟩ := pickTri_ok m0 m1 hne hn
    exact ⟨_, o, p, q, hw, hn, ⟨hs.rotate hf.1 hl h0 k1, k2, k3⟩, k4⟩

theorem takeTris_ok {T : Topo} (h : T.Consistent) {v0 v1 : Nat} {gf : Nat → Nat × Int} {Df Dr : Nat → Prop}
    (hDr : ∀ r f, T.RegionHas r f → Df f → Dr r)
    {O : Nat → Nat × Nat × Nat} : ∀ (fs : List Nat) (D : Nat → Prop) (T' : Topo), Cut T Nothing Nothing D Dr T' → (∀ f, D f → Df f) →
    fs.Nodup → (∀ f ∈ fs, T.sf f = .live ∧ ¬ D f ∧ Df f) →
    (∀ f ∈ fs, ∃ c, T.Loop f c ∧ c.Nodup ∧
      pickTri (some v0) (some v1) (c.map some) [0,1,2] = some [some (O f).1, some (O f).2.1, some (O f).2.2]) →
    ∃ T2, takeTris (some v0) (some v1) gf fs T' =
        .ok (T2, fs.map fun f => some ([some (O f).1, some (O f).2.1, some (O f).2.2], gf f)) ∧
      Cut T Nothing Nothing (fun y => D y ∨ y ∈ fs) Dr T2 := by
  intro fs
  induction fs with
  | nil =>
    intro D T' c _ _ _ _
    exact ⟨T', rfl, cut_congr (fun _ => Iff.rfl) (fun _ => Iff.rfl) (fun y => by simp) (fun _ => Iff.rfl) c⟩
  | cons f fs ih =>
    intro D T' c hD hn hf hO
    rw [List.nodup_cons] at hn
    obtain ⟨f1, f2, f3⟩ := hf f (by simp)
    obtain ⟨ws, w1, w2, w3⟩ := hO f (by simp)
    have hst := c.stays
    have hup : T.Upward Nothing D Dr := ⟨fun _ _ _ hx => hx.elim, fun r g hrg hg => hDr r g hrg (hD g hg)⟩
    have hw' := hst.loop h hup f1 f2 w1
    have hread : T'.mfVertices f true none = .ok (ws.map some) := by
      rw [C23_vertices (hst.faces f f1 f2).1 hw' true]; rfl
    obtain ⟨T1, k1, k2⟩ := c.face f1 f2 fun r d hr hm => hDr r f ⟨hr, d, (mrFaceDir_iff h hr).2 hm⟩ f3
    obtain ⟨T2, q1, q2⟩ := ih _ T1 k2 (fun g hg => hg.elim (hD g) fun hx => hx ▸ f3) hn.2 (by
      intro y hy
      obtain ⟨y1, y2, y3⟩ := hf y (by simp [hy])
      exact ⟨y1, fun hx => hx.elim y2 fun hx => hn.1 (hx ▸ hy), y3⟩) (fun g hg => hO g (by simp [hg]))
    refine ⟨T2, ?_, cut_congr (fun _ => Iff.rfl) (fun _ => Iff.rfl) (fun y => ?_) (fun _ => Iff.rfl) q2⟩
    · unfold takeTris
      rw [hread, Res.bind_ok, w3]
      dsimp only
      rw [k1, Res.bind_ok, q1, Res.bind_ok]
      rfl
    · simp only [List.mem_cons]; tauto

/-! ### what is made -/

theorem halfTris_run {x : Nat} {O : Nat → Nat × Nat × Nat} {g : Nat → Nat × Int} : ∀ (fs : List Nat) (M : SMesh) (T' : Topo),
    addFaces (fs.flatMap fun f => [[(O f).1, (O f).2.1, x], [(O f).1, x, (O f).2.2]]) M.T = .ok T' →
    ∃ gf', halfTris (some x) (fs.map fun f => some ([some (O f).1, some (O f).2.1, some (O f).2.2], g f)) M =
        .ok { M with T := T', gf := gf' } ∧ (∀ y, y < M.T.nf → gf' y = M.gf y) ∧
      ∀ (i : Nat) f, fs[i]? = some f → gf' (M.T.nf + 2*i) = g f ∧ gf' (M.T.nf + (2*i+1)) = g f := by
  intro fs
  induction fs with
  | nil =>
    intro M T' hr
    injection hr with hr
    subst hr
    exact ⟨M.gf, rfl, fun _ _ => rfl, by simp⟩
  | cons f fs ih =>
    intro M T' hr
    rw [List.flatMap_cons, List.cons_append, List.cons_append, List.nil_append] at hr
    obtain ⟨T1, h1, hr⟩ := Res.bind_eq_ok.1 (show (M.T.addFace _ >>= fun T => addFaces _ T) = .ok T' from hr)
    obtain ⟨T2, h2, hr⟩ := Res.bind_eq_ok.1 (show (T1.addFace _ >>= fun T => addFaces _ T) = .ok T' from hr)
    have n1 := (addFace_later h1).2.1
    have n2 := (addFace_later h2).2.1
    obtain ⟨gf', k1, k2, k3⟩ := ih ⟨T2, upd (upd M.gf M.T.nf (g f)) T1.nf (g f), M.gr⟩ T' hr
    dsimp only at k2 k3
    refine ⟨gf', ?_, ?_, ?_⟩
    · rw [List.map_cons]
      unfold halfTris
      have e1 : newTri M [some (O f).1, some (O f).2.1, some x] (g f) = .ok ⟨T1, upd M.gf M.T.nf (g f), M.gr⟩ := by
        show (M.T.addFace _ >>= fun T => _) = _
        rw [h1]; rfl
      have e2 : newTri ⟨T1, upd M.gf M.T.nf (g f), M.gr⟩ [some (O f).1, some x, some (O f).2.2] (g f) =
          .ok ⟨T2, upd (upd M.gf M.T.nf (g f)) T1.nf (g f), M.gr⟩ := by
        show (T1.addFace _ >>= fun T => _) = _
        rw [h2]; rfl
      show (newTri M [some (O f).1, some (O f).2.1, some x] (g f) >>= fun M =>
        newTri M [some (O f).1, some x, some (O f).2.2] (g f) >>= fun M => halfTris (some x) _ M) = _
      rw [e1, Res.bind_ok, e2, Res.bind_ok, k1]
    · intro y hy
      rw [k2 y (by omega), upd_ne _ _ (by omega), upd_ne _ _ (by omega)]
    · intro i f' hi
      cases i with
      | zero =>
        simp only [List.getElem?_cons_zero, Option.some.injEq] at hi
        subst hi
        refine ⟨?_, ?_⟩
        · rw [k2 _ (by omega), upd_ne _ _ (by omega)]
          show upd M.gf M.T.nf (g f) (M.T.nf + 0) = _
          exact upd_same _ _ _
        · rw [k2 _ (by omega), ← n1]; exact upd_same _ _ _
      | succ i =>
        rw [List.getElem?_cons_succ] at hi
        have := k3 i f' hi
        rw [n2, n1] at this
        rw [show M.T.nf + 2*(i+1) = M.T.nf + 1 + 1 + 2*i by omega, show M.T.nf + (2*(i+1)+1) = M.T.nf + 1 + 1 + (2*i+1) by omega]
        exact this

theorem halfTets_run {x v0 v1 : Nat} {A : Nat → Nat × Nat} : ∀ (rs : List Nat) (M : SMesh) (T' : Topo),
    addRegions (rs.flatMap fun r => [[x, (A r).2, (A r).1, v0], [x, (A r).1, (A r).2, v1]]) M.T = .ok T' →
    ∃ gr', halfTets (some x) (rs.map fun r => some [some v0, some (A r).1, some (A r).2, some v1]) M =
        .ok { M with T := T', gr := gr' } ∧ (∀ y, y < M.T.nr → gr' y = M.gr y) ∧
      ∀ i, i < 2 * rs.length → gr' (M.T.nr + i) = none := by
  intro rs
  induction rs with
  | nil =>
    intro M T' hr
    injection hr with hr
    subst hr
    exact ⟨M.gr, rfl, fun _ _ => rfl, by simp⟩
  | cons r rs ih =>
    intro M T' hr
    rw [List.flatMap_cons, List.cons_append, List.cons_append, List.nil_append] at hr
    obtain ⟨T1, h1, hr⟩ := Res.bind_eq_ok.1 (show (M.T.addRegion _ >>= fun T => addRegions _ T) = .ok T' from hr)
    obtain ⟨T2, h2, hr⟩ := Res.bind_eq_ok.1 (show (T1.addRegion _ >>= fun T => addRegions _ T) = .ok T' from hr)
    have n1 := (addRegion_later h1).2
    have n2 := (addRegion_later h2).2
    obtain ⟨gr', k1, k2, k3⟩ := ih ⟨T2, M.gf, upd (upd M.gr M.T.nr none) T1.nr none⟩ T' hr
    dsimp only at k2 k3
    refine ⟨gr', ?_, ?_, ?_⟩
    · rw [List.map_cons]
      unfold halfTets
      have e1 : newTet M [some x, some (A r).2, some (A r).1, some v0] = .ok ⟨T1, M.gf, upd M.gr M.T.nr none⟩ := by
        show (M.T.addRegion _ >>= fun T => _) = _
        rw [h1]; rfl
      have e2 : newTet ⟨T1, M.gf, upd M.gr M.T.nr none⟩ [some x, some (A r).1, some (A r).2, some v1] =
          .ok ⟨T2, M.gf, upd (upd M.gr M.T.nr none) T1.nr none⟩ := by
        show (T1.addRegion _ >>= fun T => _) = _
        rw [h2]; rfl
      show (newTet M [some x, some (A r).2, some (A r).1, some v0] >>= fun M =>
        newTet M [some x, some (A r).1, some (A r).2, some v1] >>= fun M => halfTets (some x) _ M) = _
      rw [e1, Res.bind_ok, e2, Res.bind_ok, k1]
    · intro y hy
      rw [k2 y (by omega), upd_ne _ _ (by omega), upd_ne _ _ (by omega)]
    · intro i hi
      by_cases hi2 : i < 2
      · rw [k2 _ (by omega)]
        rcases (show i = 0 ∨ i = 1 by omega) with rfl | rfl
        · rw [upd_ne _ _ (by omega)]; exact upd_same _ _ _
        · rw [← n1]; exact upd_same _ _ _
      · obtain ⟨j, rfl⟩ := Nat.exists_eq_add_of_le (Nat.le_of_not_lt hi2)
        rw [show M.T.nr + (2 + j) = M.T.nr + 1 + 1 + j by omega, ← n1, ← n2]
        exact k3 j (by simp only [List.length_cons] at hi; omega)

/-! ### two for each -/

theorem two_get {α : Type} {g k : Nat → α} : ∀ (l : List Nat) (i x : Nat), l[i]? = some x →
    (l.flatMap fun y => [g y, k y])[2*i]? = some (g x) ∧ (l.flatMap fun y => [g y, k y])[2*i+1]? = some (k x) := by
  intro l
  induction l with
  | nil => intro i x hi; simp at hi
  | cons y l ih =>
    intro i x hi
    cases i with
    | zero =>
      simp only [List.getElem?_cons_zero, Option.some.injEq] at hi
      subst hi
      exact ⟨rfl, rfl⟩
    | succ i =>
      rw [List.getElem?_cons_succ] at hi
      obtain ⟨k1, k2⟩ := ih i x hi
      rw [List.flatMap_cons, List.cons_append, List.cons_append, List.nil_append, show 2*(i+1) = 2*i+1+1 by omega]
      simp only [List.getElem?_cons_succ]
      exact ⟨k1, k2⟩

theorem two_length {α : Type} {g k : Nat → α} (l : List Nat) : (l.flatMap fun y => [g y, k y]).length = 2 * l.length := by
  induction l with
  | nil => rfl
  | cons y l ih => rw [List.flatMap_cons, List.length_append, ih]; simp; omega

theorem two_at {l : List Nat} {j : Nat} (hj : j < 2 * l.length) :
    ∃ i x, l[i]? = some x ∧ (j = 2*i ∨ j = 2*i+1) := by
  have hi : j / 2 < l.length := by omega
  exact ⟨j/2, l[j/2], List.getElem?_eq_getElem hi, by omega⟩

end Topo
end MSTK
