import Verif.CollapseDrawn

/-!
Helper lemmas for C65 (collapse of an edge): the mesh before the edges are merged, continued.
-/
namespace MSTK
namespace Topo

theorem Closed.fsts_nodup {T : Topo} {ps : List (Nat × Bool)} {vs : List Nat} (h : T.Closed ps vs) (hn : vs.Nodup)
    (h3 : 3 ≤ vs.length) : (ps.map (·.1)).Nodup := by
  rw [List.nodup_map_iff_inj_on (h.nodup hn)]
  intro p hp q hq hpq
  exact h.edge_unique hn h3 hp hq (Or.inl (by rw [hpq]))

/-- The mesh after `u` was drawn to `v` and before the edges are merged. -/
structure Drawn (T T' : Topo) (e u v : Nat) : Prop where
  consistent : T'.Consistent
  sv : T'.sv = T.sv
  se : T'.se = T.se
  ev : ∀ x, T.se x = .live → T'.ev x = repl u v (T.ev x)
  flat : ∀ f, T.Flattened e f → T'.sf f = .kept
  sf : ∀ f, ¬ T.Flattened e f → T'.sf f = T.sf f
  on : ∀ f, T.FaceHas f e → ¬ T.Flattened e f → T'.edgesOf f ~r (T.edgesOf f).filter (fun q => q.1 ≠ e)
  off : ∀ f, ¬ T.FaceHas f e → T'.fe f = T.fe f ∧ T'.fd f = T.fd f
  fr : T'.fr = T.fr
  sr : T'.sr = T.sr
  faces : T'.view.faces = T.view.faces
  types : ∀ r, T'.mrElementType r = T.mrElementType r

theorem ends_two {T : Topo} {e u v : Nat} (h1 : T.EdgeHas e u) (h2 : T.EdgeHas e v) (hne : u ≠ v) :
    T.ev e = (some u, some v) ∨ T.ev e = (some v, some u) := by
  obtain ⟨-, a⟩ := EdgeHas_iff.1 h1
  obtain ⟨-, b⟩ := EdgeHas_iff.1 h2
  unfold ends at a b
  rcases he : T.ev e with ⟨p, q⟩
  rw [he] at a b
  dsimp only at a b
  rcases a with rfl | rfl <;> rcases b with b | b
  · exact absurd (Option.some.inj b) hne
  · subst b; exact Or.inl rfl
  · subst b; exact Or.inr rfl
  · exact absurd (Option.some.inj b) hne

theorem Flattened.iff {T : Topo} {e f : Nat} : T.Flattened e f ↔ T.FaceHas f e ∧ ((T.fe f).getD []).length = 3 := by
  unfold Flattened
  constructor
  · rintro ⟨h, es, h1, h2⟩
    obtain ⟨l, g1, g2, -⟩ := h.stored
    rw [g2] at h1; injection h1 with h1; subst h1
    exact ⟨h, by rw [g1]; exact h2⟩
  · rintro ⟨h, h2⟩
    obtain ⟨l, g1, g2, -⟩ := h.stored
    rw [g1] at h2
    exact ⟨h, l, g2, h2⟩

/-- A face that has the edge and is not a triangle, after the edges were led to `v`. -/
theorem through_of {T T2 : Topo} {e u v f : Nat} {vs : List Nat} (h : T.Consistent) (hu : T.EdgeHas e u)
    (hv : T.EdgeHas e v) (hne : u ≠ v) (hf : T.FaceHas f e) (hl : T.Loop f vs) (hn : vs.Nodup) (h4 : 4 ≤ vs.length)
    (h32 : vs.length ≤ 32) (hfe : T2.fe f = T.fe f) (hfd : T2.fd f = T.fd f)
    (hev : ∀ x, T.se x = .live → T2.ev x = repl u v (T.ev x)) :
    ∃ i l p0 p1 p2 rest x y, Through T2 e v f i l p0 p1 p2 rest x y := by
  obtain ⟨l, g1, g2, g3⟩ := hl.edgesOf h hf.1
  have hlive := h.fedgesLive hf.1 g1
  have hel : e ∈ l := by have := (faceHas_fe.1 hf).2; rwa [g1] at this
  obtain ⟨i, p0, d, p2, rest, x, a, b, ws, hi, hr, hrest, hvr, hws, hab⟩ :=
    roundEdge g1 g3 h4 g2 hel (ends_two hu hv hne)
  have hsame : T2.edgesOf f = T.edgesOf f := by unfold edgesOf; rw [hfe, hfd]
  have hcr := g3.rotate i
  rw [hr, hvr] at hcr
  have hnr : (vs.rotate i).Nodup := List.nodup_rotate.2 hn
  rw [hvr] at hnr
  have hlr : ∀ q ∈ p0 :: (e, d) :: p2 :: rest, T.se q.1 = .live := by
    intro q hq
    rw [← hr, List.mem_rotate] at hq
    have := List.mem_map_of_mem (f := (·.1)) hq
    rw [edgesOf_map_fst, g1] at this
    exact hlive _ this
  have hcm := hcr.moved fun q hq => hev q.1 (hlr q hq)
  have n1 := List.nodup_cons.1 hnr
  have n2 := List.nodup_cons.1 n1.2
  have n3 := List.nodup_cons.1 n2.2
  obtain ⟨y, ws, rfl⟩ := List.exists_cons_of_ne_nil hws
  have hma : moved u v a = v := by
    unfold moved; rcases hab with ⟨rfl, -⟩ | ⟨rfl, -⟩
    · rw [if_pos rfl]
    · split <;> rfl
  have hmb : moved u v b = v := by
    unfold moved; rcases hab with ⟨-, rfl⟩ | ⟨-, rfl⟩
    · split <;> rfl
    · rw [if_pos rfl]
  have hout : ∀ w, w ≠ a → w ≠ b → moved u v w = w ∧ w ≠ v := by
    intro w h1 h2
    unfold moved
    rcases hab with ⟨rfl, rfl⟩ | ⟨rfl, rfl⟩
    · exact ⟨if_neg h1, h2⟩
    · exact ⟨if_neg h2, h1⟩
  have hx : x ≠ a ∧ x ≠ b := ⟨fun hc => n1.1 (by simp [hc]), fun hc => n1.1 (by simp [hc])⟩
  have hy : y ≠ a ∧ y ≠ b := ⟨fun hc => n2.1 (by simp [hc]), fun hc => n3.1 (by simp [hc])⟩
  have hmx := hout x hx.1 hx.2
  have hmy := hout y hy.1 hy.2
  refine ⟨i, l, p0, (e, d), p2, rest, x, y, ?_⟩
  refine ⟨by rw [hfe]; exact g1, hi, by omega, ?_, by rw [hsame]; exact hr, hrest, rfl, ?_, ?_, hmx.2, hmy.2, ?_⟩
  · have := g3.fsts_nodup hn (by omega)
    rw [edgesOf_map_fst, g1] at this; exact this
  · have := hcm.2 0 p0 x v rfl (by simp [hmx.1]) (by
      simp only [List.length_map, List.length_cons]
      rw [Nat.mod_eq_of_lt (by omega)]
      simp [hma])
    exact this
  · have := hcm.2 2 p2 v y rfl (by simp [hmb]) (by
      simp only [List.length_map, List.length_cons]
      rw [Nat.mod_eq_of_lt (by omega)]
      simp [hmy.1])
    exact this
  · intro q hq
    obtain ⟨k, hk, hkq⟩ := List.getElem_of_mem hq
    have hlen := hcr.1
    simp only [List.length_cons] at hlen
    have hVl : (x :: a :: b :: y :: ws).length = ws.length + 4 := by simp
    have hk3 : k + 3 < (x :: a :: b :: y :: ws).length := by omega
    have hk4 : (k + 3 + 1) % (x :: a :: b :: y :: ws).length < (x :: a :: b :: y :: ws).length := Nat.mod_lt _ (by omega)
    have hqk : (p0 :: (e, d) :: p2 :: rest)[k+3]? = some q := by
      simp only [List.getElem?_cons_succ]
      rw [List.getElem?_eq_getElem hk, hkq]
    have hnot : ∀ j (hj : j < (x :: a :: b :: y :: ws).length), j ≠ 1 → j ≠ 2 → (x :: a :: b :: y :: ws)[j] ≠ a ∧
        (x :: a :: b :: y :: ws)[j] ≠ b := by
      intro j hj j1 j2
      constructor
      · intro hc
        exact j1 ((List.Nodup.getElem_inj_iff hnr (hi := hj) (hj := by omega)).1 hc)
      · intro hc
        exact j2 ((List.Nodup.getElem_inj_iff hnr (hi := hj) (hj := by omega)).1 hc)
    have o1 := hnot (k+3) hk3 (by omega) (by omega)
    have o2 := hnot _ hk4 (by
      rw [hVl]
      by_cases hc : k + 3 + 1 = ws.length + 4
      · rw [hc, Nat.mod_self]; omega
      · rw [Nat.mod_eq_of_lt (by omega)]; omega) (by
      rw [hVl]
      by_cases hc : k + 3 + 1 = ws.length + 4
      · rw [hc, Nat.mod_self]; omega
      · rw [Nat.mod_eq_of_lt (by omega)]; omega)
    have hlead := (hcr.2 (k+3) q _ _ hqk (List.getElem?_eq_getElem hk3) (List.getElem?_eq_getElem hk4)).moved
      (hev q.1 (hlr q (by simp [hq])))
    obtain ⟨m1, m1'⟩ := hout _ o1.1 o1.2
    obtain ⟨m2, m2'⟩ := hout _ o2.1 o2.2
    rw [m1, m2] at hlead
    unfold Leads at hlead
    unfold ends
    rw [hlead]
    cases q.2 <;> simp only [Bool.false_eq_true, if_false, if_true, Option.some.injEq, not_or]
    · exact ⟨m2', m1'⟩
    · exact ⟨m1', m2'⟩

/-- The first half of the routine. -/
theorem drawn_ok {T : Topo} (h : T.Consistent) {A : Labels} {topoflag : Bool} {e u v : Nat}
    (C : T.Collapsible A topoflag e u v) :
    ∃ (T3 : Topo) (tris : List Nat), Drawn T T3 e u v ∧ (∀ f, f ∈ tris ↔ T.Flattened e f) ∧ tris.Nodup ∧
      T.contract A topoflag e u v = (do
        let ves ← T3.mvEdges v
        let ves ← Res.ofOption ves
        let m ← mergeEdges A topoflag e ves ves T3
        let vfs ← m.1.mvFaces v
        let n ← mergeFaces A topoflag (vfs.getD []) (vfs.getD []) m.1
        let T ← n.1.meDelete e true
        let T ← T.mvDelete u true
        pure (T, { kept := v
                   deleted := tris.map .face ++ m.2.map (fun p => .edge p.1) ++ n.2.map (fun p => .face p.1) ++
                     [.edge e, .vertex u]
                   merged := (.vertex u, .vertex v) :: m.2.map (fun p => (.edge p.1, .edge p.2)) ++
                     n.2.map (fun p => (.face p.1, .face p.2)) })) := by
  have hel : T.se e = .live := C.at_u.1
  have hul : T.sv u = .live := h.ve.down e u hel (EdgeHas_iff.1 C.at_u).2
  have hvl : T.sv v = .live := h.ve.down e v hel (EdgeHas_iff.1 C.at_v).2
  have hmem : ∀ f, f ∈ T.ef e ↔ T.FaceHas f e := fun f => h.mem_ef hel
  have hfn : (T.ef e).Nodup := h.ef.nodup e (alloc_of_live hel)
  have htouch : ∀ f, T.FaceHas f e → T.Touches f u := fun f hf => ⟨e, C.at_u, hf⟩
  have hst : ∀ f ∈ T.ef e, T.sf f = .live ∧ T.fr f = (none, none) ∧ ∃ l, T.fe f = some l := by
    intro f hf
    have hf := (hmem f).1 hf
    obtain ⟨l, g1, -, -⟩ := hf.stored
    exact ⟨hf.1, fr_none h hf.1 (C.faces f (Or.inl (htouch f hf))).1, l, g1⟩
  obtain ⟨F, f1, f2⟩ := meFaces_ok (alloc_of_live hel)
  -- no regions
  obtain ⟨L, r1, r2, r3⟩ := regionsOfFaces_spec T (T.ef e) [] (fun f hf => (hst f hf).1) List.nodup_nil
  have hL : L = [] := by
    rw [List.eq_nil_iff_forall_not_mem]
    intro r hr
    rcases (r3 r).1 hr with hc | ⟨f, hf, hc⟩
    · cases hc
    · rw [(hst f hf).2.1] at hc; simp at hc
  subst hL
  have hreg : T.meRegions e = .ok none := by
    unfold meRegions; rw [derefE_ok (alloc_of_live hel), Res.bind_ok, r1]; rfl
  -- triangles
  obtain ⟨sf, ef, d1, d2, d3⟩ := deleteTriangles_ok (T.ef e) T h hfn hst
  have hflat : ∀ f, (f ∈ T.ef e ∧ ((T.fe f).getD []).length = 3) ↔ T.Flattened e f := by
    intro f; rw [hmem, Flattened.iff]
  -- the ends
  have hve : T.ve u ≠ [] := fun hc => by
    have := (h.mem_ve hul).2 C.at_u
    rw [hc] at this; cases this
  have hmv : Topo.mvEdges { T with sf := sf, ef := ef } u = .ok (some (T.ve u)) := by
    unfold mvEdges
    rw [derefV_ok (by exact alloc_of_live hul), Res.bind_ok]
    dsimp only
    rw [if_neg (by intro hc; exact hve (List.eq_nil_of_length_eq_zero hc))]
    rfl
  obtain ⟨ev, ve, e1, e2, e3⟩ := replaceEnds_ok (v1 := v) (v2 := u) C.ne (T.ve u) { T with sf := sf, ef := ef } d2 hvl
    (h.ve.nodup u (alloc_of_live hul)) (by
      intro x hx
      have hx := (h.mem_ve hul).1 hx
      refine ⟨hx.1, ?_⟩
      rintro ⟨c1, c2⟩
      obtain ⟨a, ha, hxa⟩ := C.ends x u (Or.inl rfl) hx
      rcases (EdgeHas_iff.1 hxa).2 with hc | hc
      · rw [c1] at hc; exact ha (Option.some.inj hc).symm
      · rw [c2] at hc; exact ha (Option.some.inj hc).symm)
  have hev : ∀ x, T.se x = .live → ev x = repl u v (T.ev x) := by
    intro x hx
    rw [e3 x]
    split
    · rfl
    · rename_i hno
      rw [h.mem_ve hul, EdgeHas_iff, not_and] at hno
      have := hno hx
      unfold ends at this
      rw [not_or] at this
      unfold repl
      rw [if_neg this.1, if_neg this.2]
  -- the faces
  obtain ⟨fe, fd, ef', t1, t2, t3, t4⟩ := takeFromFaces_ok (e := e) (v := v) (T.ef e)
    { T with sf := sf, ef := ef, ev := ev, ve := ve } e2 hfn (by
      intro f hf
      dsimp only
      rw [d3 f]
      by_cases h3 : ((T.fe f).getD []).length = 3
      · left; rw [if_pos ⟨hf, h3⟩]
      · right
        rw [if_neg (fun hc => h3 hc.2)]
        refine ⟨(hst f hf).1, ?_⟩
        have hfh := (hmem f).1 hf
        obtain ⟨-, vs, q1, q2, q3, q4, -⟩ := C.faces f (Or.inl (htouch f hfh))
        obtain ⟨l, g1, g2, -⟩ := q1.edgesOf h hfh.1
        have : ((T.fe f).getD []).length = vs.length := by rw [g1]; exact g2
        exact through_of h C.at_u C.at_v C.ne hfh q1 q2 (by omega) q4 rfl rfl hev)
  refine ⟨{ T with sf := sf, ev := ev, ve := ve, fe := fe, fd := fd, ef := ef' },
    (T.ef e).filter (fun f => ((T.fe f).getD []).length = 3), ?_, ?_, hfn.filter _, ?_⟩
  rotate_left 2
  · unfold contract
    rw [f1, Res.bind_ok, hreg, Res.bind_ok]
    dsimp only
    rw [f2]
    rw [show deleteTets ((none : Option (List Nat)).getD []) T = .ok (T, []) from rfl, Res.bind_ok, d1, Res.bind_ok, hmv,
      Res.bind_ok, Res.ofOption_some, Res.bind_ok, e1, Res.bind_ok, t1, Res.bind_ok]
    simp only [Option.getD_none, deleteFlat, updateLeft, Res.bind_ok, List.map_nil, List.nil_append, List.append_nil]
  · refine ⟨t2, rfl, rfl, hev, ?_, ?_, ?_, ?_, rfl, rfl, rfl, fun r => rfl⟩
    · intro f hf
      dsimp only
      rw [d3 f, if_pos ((hflat f).2 hf)]
    · intro f hf
      dsimp only
      rw [d3 f, if_neg (fun hc => hf ((hflat f).1 hc))]
    · intro f hf hnf
      obtain ⟨l', s1, s2⟩ := t3 f ((hmem f).2 hf) (by
        dsimp only
        rw [d3 f, if_neg (fun hc => hnf ((hflat f).1 hc))]; exact hf.1)
      rw [edgesOf_some (l := l') (by exact s1)]
      exact s2
    · intro f hf
      exact t4 f (Or.inl fun hc => hf ((hmem f).1 hc))
  · intro f
    rw [List.mem_filter, ← hflat f]
    simp

end Topo
end MSTK
