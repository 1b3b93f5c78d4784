import Verif.ModLemmas2

/-!
C51: splitting a face at a new vertex inside it (`MF_Split`).

Specification: `SplitAtPoint`.
-/
namespace MSTK
namespace Topo

/-- The face `f`, a loop of the vertices `vs`, was cut into the triangles `fs` around the new vertex
`v`. -/
structure SplitAtPoint (T T' : Topo) (f v : Nat) (vs fs : List Nat) : Prop where
  consistent : T'.Consistent
  /-- one new vertex -/
  vertex : T.sv v = .unused ∧ T'.view.sv = upd T.view.sv v .live
  /-- the triangles are new, the face is gone -/
  fresh : fs.length = vs.length ∧ fs.Nodup ∧ ∀ g ∈ fs, T.sf g = .unused
  faces : ∀ g, T'.view.sf g = if g = f then .freed else if g ∈ fs then .live else T.view.sf g
  /-- one triangle over each edge of the face, going round the same way as the face -/
  triangles : ∀ (k g a b : Nat), fs[k]? = some g → vs[k]? = some a → vs[(k+1) % vs.length]? = some b →
    T'.Loop g [v, a, b]
  /-- it has the edge of the face, used in the same direction, if no other edge joins its ends -/
  outer : T.SimpleEdges → ∀ (k g : Nat) p, fs[k]? = some g → (T.view.edges f)[k]? = some p →
    p ∈ T'.view.edges g
  other_faces : ∀ g, g ∉ fs → T'.view.edges g = T.view.edges g
  /-- the edges there were are as before -/
  old_edges : ∀ e, T.se e = .live → T'.se e = .live ∧ ∀ i, T'.meVertex e i = T.meVertex e i
  /-- every other edge was not there before and joins the new vertex with one of the face -/
  new_edges : ∀ e, T'.se e ≠ T.se e → T.se e = .unused ∧ T'.se e = .live ∧
    T'.EdgeHas e v ∧ ∃ a ∈ vs, T'.EdgeHas e a
  /-- exactly one edge joins the new vertex with each vertex of the face -/
  spokes : ∀ a ∈ vs, ∃! e, T'.EdgeHas e v ∧ T'.EdgeHas e a
  regions : T'.view.sr = T.view.sr
  in_regions : Refaced T T' f fs

/-- **C51.**  `MF_Split` cuts a face into triangles around a new vertex and changes nothing else. -/
theorem C51_split {T : Topo} (h : T.Consistent) {f : Nat} {vs : List Nat} (hf : T.sf f = .live)
    (hloop : T.Loop f vs) (hn : vs.Nodup) (h2 : 2 ≤ vs.length) (h30 : vs.length ≤ 30)
    (hready : T.RegionsReady f vs.length) :
    ∃ T' v fs, T.mfSplit f = .ok (T', v) ∧ SplitAtPoint T T' f v vs fs := by
  obtain ⟨l, hfe, -, hlen, -⟩ := hloop.stored (alloc_of_live hf)
  have hel : ∀ e ∈ l, T.se e = .live := fun e he => h.ef.down f e hf (by
    show e ∈ (T.fe f).getD []
    rw [hfe]; exact he)
  have hvl := hloop.live h hf
  have hc0 := hloop.closed (alloc_of_live hf) hfe (fun e he => alloc_of_live (hel e he))
  rw [← edgesOf_some hfe] at hc0
  have hpe : ∀ p ∈ T.edgesOf f, T.se p.1 = .live := by
    intro p hp; rw [edgesOf_some hfe] at hp; exact hel _ (mem_of_mem_pairs hp)
  -- the first queries
  obtain ⟨L, g1, g2, g3⟩ := C22_face_regions h hf
  have hmem : ∀ r, r ∈ L.getD [] ↔ T.sr r = .live ∧ f ∈ (T.rf r).getD [] := fun r =>
    (g3 r).trans (regionHas_iff h)
  have hverts := C23_vertices hf hloop true
  simp only [if_true] at hverts
  have hgiven : given (vs.map some) = .ok vs := by
    clear * -
    induction vs with
    | nil => rfl
    | cons x xs ih =>
      rw [List.map_cons, show given (some x :: xs.map some) = (Res.ofOption (some x) >>= fun v =>
        given (xs.map some) >>= fun r => pure (v :: r)) from rfl, Res.ofOption_some, Res.bind_ok, ih]
      rfl
  -- the new vertex
  have hvu : T.sv T.nv = .unused := h.newV _ (Nat.le_refl _)
  have hvn : ∀ a, T.sv a = .live → T.nv ≠ a := by
    rintro a ha rfl; rw [hvu] at ha; cases ha
  have h1 : T.mvNew.1.Consistent := h.newVertex
  have hsv1 : T.mvNew.1.sv = upd T.sv T.nv .live := rfl
  -- the triangles
  have hpairs : ∀ p ∈ cyclicPairs vs, ∃ (k : Nat), vs[k]? = some p.1 ∧ vs[(k+1) % vs.length]? = some p.2 := by
    intro p hp
    obtain ⟨k, hk, hkp⟩ := List.getElem_of_mem hp
    rw [cyclicPairs_length] at hk
    have ha := List.getElem?_eq_getElem hk
    obtain ⟨b, hb, hb'⟩ := getElem?_cyclicPairs ha
    have := List.getElem?_eq_getElem (l := cyclicPairs vs) (i := k) (by rw [cyclicPairs_length]; exact hk)
    rw [hkp, hb'] at this
    injection this with this
    subst this
    exact ⟨k, ha, hb⟩
  have hdist : ∀ (k a b : Nat), vs[k]? = some a → vs[(k+1) % vs.length]? = some b → a ≠ b := by
    rintro k a b ha hb rfl
    have e1 := idxOf_eq_of_nodup hn ha
    rw [idxOf_eq_of_nodup hn hb] at e1
    have hj := (List.getElem?_eq_some_iff.1 ha).1
    by_cases hj1 : k + 1 = vs.length
    · rw [hj1, Nat.mod_self] at e1; omega
    · rw [Nat.mod_eq_of_lt (by omega)] at e1; omega
  obtain ⟨T2, r2, h2', t1, t2, t3, t4, t5, t6, t7, t8, t9, t10⟩ := newTriangles_ok T.nv (cyclicPairs vs)
    T.mvNew.1 h1 (by rw [hsv1, upd_same]) (by
      intro p hp
      obtain ⟨k, ha, hb⟩ := hpairs p hp
      have hla := hvl _ (List.mem_of_getElem? ha)
      have hlb := hvl _ (List.mem_of_getElem? hb)
      refine ⟨?_, ?_, hdist k _ _ ha hb, hvn _ hla, hvn _ hlb⟩
      · rw [hsv1, upd_ne _ _ (Ne.symm (hvn _ hla))]; exact hla
      · rw [hsv1, upd_ne _ _ (Ne.symm (hvn _ hlb))]; exact hlb)
  rw [cyclicPairs_length] at r2 t2 t3
  change newTriangles T.nv (cyclicPairs vs) T.mvNew.1 = .ok (T2, List.range' T.nf vs.length) at r2
  change ∀ g, T2.sf g = if T.nf ≤ g ∧ g < T.nf + vs.length then .live else T.sf g at t2
  change ∀ g, g < T.nf ∨ T.nf + vs.length ≤ g → T2.fe g = T.fe g ∧ T2.edgesOf g = T.edgesOf g at t3
  change T2.sr = T.sr at t4
  change T2.rf = T.rf at t5
  change T2.rd = T.rd at t6
  change T2.rt = T.rt at t7
  have t8' : MoreEdges T T2 := ⟨t8.old, t8.only, t8.fresh⟩
  have hflt : f < T.nf := by
    by_contra hc
    rw [h.newF f (by omega)] at hf; cases hf
  have hf2 : T2.sf f = .live := by rw [t2, if_neg (by omega)]; exact hf
  have hunused : ∀ g, T.nf ≤ g → T.sf g = .unused := h.newF
  have hmr : ∀ g, g ∈ List.range' T.nf vs.length ↔ T.nf ≤ g ∧ g < T.nf + vs.length := by
    intro g; rw [List.mem_range'_1]
  obtain ⟨T', r3, h3, w1, w2, w3, w4, w5, w6, w7, w8, w9⟩ := retireFace_ok h2' hf2
    (nu := List.range' T.nf vs.length) (rs := L.getD []) (List.nodup_range')
    (by intro hc; rw [List.range'_eq_nil_iff] at hc; omega)
    (by rw [hmr]; omega)
    (by
      intro g hg
      have hg' := (hmr g).1 hg
      refine ⟨by rw [t2, if_pos hg'], ?_, ?_⟩
      · have hk : g - T.nf < vs.length := by omega
        obtain ⟨b, hb, hb'⟩ := getElem?_cyclicPairs (List.getElem?_eq_getElem hk)
        obtain ⟨es, q, -⟩ := t9 _ _ _ hb'
        change T2.fe (T.nf + (g - T.nf)) = _ at q
        rw [show T.nf + (g - T.nf) = g by omega] at q
        exact ⟨_, q⟩
      · intro z d hz hc
        rw [t4] at hz
        rw [t5, t6] at hc
        have := h.fr.down z g d hz hc
        rw [hunused g hg'.1] at this; cases this)
    g2 (by intro r; rw [t4, t5]; exact hmem r)
    (by
      intro r hr
      obtain ⟨a, b⟩ := (hmem r).1 hr
      have hst := hready.stored h a b
      rw [t5, List.length_range']
      refine ⟨hst.1, fun g hg => ?_⟩
      obtain ⟨x, hx⟩ := hst.2 g hg
      have hgl := h.rfacesLive a hg
      have hglt : g < T.nf := by
        by_contra hc
        rw [hunused g (by omega)] at hgl; cases hgl
      exact ⟨x, by rw [(t3 g (Or.inl hglt)).1]; exact hx⟩)
  have hedges' : T'.edgesOf = T2.edgesOf := by funext g; unfold edgesOf; rw [w5, w6]
  have hM : MoreEdges T T' := by
    refine ⟨?_, ?_, ?_⟩
    · rw [w2, w3]; exact t8'.old
    · rw [w2, w3]; exact t8'.only
    · rw [w2]; exact t8'.fresh
  have hEH : ∀ {e x}, T'.EdgeHas e x ↔ T2.se e = .live ∧ ends T2.ev e x := by
    intro e x; rw [EdgeHas_iff, w2, w3]
  -- the edges of the face are edges of the new mesh
  have hold : ∀ (k a b : Nat), vs[k]? = some a → vs[(k+1) % vs.length]? = some b →
      ∃ p, (T.edgesOf f)[k]? = some p ∧ T.se p.1 = .live ∧ T2.se p.1 = .live ∧ Leads T2 p.1 p.2 a b := by
    intro k a b ha hb
    have hk : k < (T.edgesOf f).length := by rw [hc0.1]; exact (List.getElem?_eq_some_iff.1 ha).1
    have hp := List.getElem?_eq_getElem hk
    have hl0 := hpe _ (List.getElem_mem hk)
    refine ⟨_, hp, hl0, (t8'.old _ hl0).1, ?_⟩
    have := hc0.2 k _ a b hp ha hb
    unfold Leads at this ⊢
    rw [(t8'.old _ hl0).2]; exact this
  have hends : ∀ {T : Topo} {e x y : Nat} {d : Bool}, Leads T e d x y → ends T.ev e x ∧ ends T.ev e y := by
    intro T e x y d hl
    unfold Leads at hl
    unfold ends
    rw [hl]
    cases d <;> simp
  have hspoke : ∀ e, T2.se e ≠ T.se e → ends T2.ev e T.nv ∧ ∃ a ∈ vs, ends T2.ev e a := by
    intro e he
    obtain ⟨p, hp, hr⟩ := t10 e he
    obtain ⟨k, ha, hb⟩ := hpairs p hp
    rcases hr with hr | hr | hr
    · exact ⟨hr.1, _, List.mem_of_getElem? ha, hr.2⟩
    · obtain ⟨q, -, q1, q2, q3⟩ := hold k _ _ ha hb
      obtain ⟨u1, u2⟩ := t8'.fresh e he
      have := t8'.only e p.1 p.2 u2 (by rw [u1]; decide) (hdist k _ _ ha hb) hr.1 hr.2 q.1 q2 (hends q3).1 (hends q3).2
      rw [this, u1] at q1
      cases q1
    · exact ⟨hr.2, _, List.mem_of_getElem? hb, hr.1⟩
  have hnv : ∀ e, T2.se e = .live → ends T2.ev e T.nv → T.se e ≠ .live := by
    intro e he hx hc
    have := t8'.old e hc
    have := h.ve.down e T.nv hc ((ends_congr this.2).1 hx)
    rw [hvu] at this; cases this
  have hrange : ∀ (k : Nat) g, (List.range' T.nf vs.length)[k]? = some g → k < vs.length ∧ g = T.nf + k := by
    intro k g hk
    have hk' := (List.getElem?_eq_some_iff.1 hk).1
    rw [List.length_range'] at hk'
    rw [List.getElem?_range' hk'] at hk
    injection hk with hk
    exact ⟨hk', by omega⟩
  refine ⟨T', T.nv, List.range' T.nf vs.length, ?_, ?_⟩
  · unfold mfSplit
    rw [g1, Res.bind_ok, hverts, Res.bind_ok, hgiven, Res.bind_ok]
    dsimp only
    rw [if_neg (by omega), show T.mvNew.2 = T.nv from rfl, r2, Res.bind_ok]
    dsimp only
    obtain ⟨Tx, rx, ry⟩ := Res.bind_eq_ok.1 r3
    rw [rx, Res.bind_ok, ry]
    rfl
  · refine ⟨h3, ⟨hvu, ?_⟩, ⟨List.length_range', List.nodup_range', fun g hg => hunused g ((hmr g).1 hg).1⟩,
      ?_, ?_, ?_, ?_, ?_, ?_, ?_, ?_, ?_⟩
    · show T'.sv = _
      rw [w1, t1]; rfl
    · intro g
      show T'.sf g = _
      rw [w4, upd_apply]
      by_cases hg : g = f
      · rw [if_pos hg, if_pos hg]
      · rw [if_neg hg, if_neg hg, t2]
        by_cases hg' : T.nf ≤ g ∧ g < T.nf + vs.length
        · rw [if_pos hg', if_pos ((hmr g).2 hg')]
        · rw [if_neg hg', if_neg (fun hc => hg' ((hmr g).1 hc))]; rfl
    · intro k g a b hk ha hb
      obtain ⟨hk', rfl⟩ := hrange k g hk
      obtain ⟨b', hb', hp'⟩ := getElem?_cyclicPairs ha
      rw [hb] at hb'
      injection hb' with hb'
      subst hb'
      obtain ⟨es, q1, q2, q3, q4⟩ := t9 k a b hp'
      change T2.fe (T.nf + k) = _ at q1
      change T2.edgesOf (T.nf + k) = _ at q2
      have hfe' : T'.fe (T.nf + k) = some (es.map (·.1)) := by rw [w5]; exact q1
      refine Closed.loop (by rw [w4, upd_ne _ _ (by omega), t2, if_pos (by omega)]; rfl) hfe' ?_ ?_ ?_
      · intro e he
        obtain ⟨p, hp, rfl⟩ := List.mem_map.1 he
        rw [w2]; exact alloc_of_live (q4 p hp)
      · rw [List.length_map, q3.1]; simp
      · rw [← edgesOf_some hfe', hedges', q2]
        exact q3.congr w3
    · intro hs k g p hk hp
      obtain ⟨hk', rfl⟩ := hrange k g hk
      have ha := List.getElem?_eq_getElem hk'
      obtain ⟨b, hb, hp'⟩ := getElem?_cyclicPairs ha
      obtain ⟨q, hq, ql, q2, q3⟩ := hold k _ b ha hb
      have : (T.edgesOf f)[k]? = some p := hp
      rw [hq] at this
      injection this with this
      subst this
      obtain ⟨es, c1, c2, c3, c4⟩ := t9 k _ b hp'
      change T2.edgesOf (T.nf + k) = _ at c2
      show q ∈ T'.edgesOf (T.nf + k)
      rw [hedges', c2]
      have hes1 : 1 < es.length := by rw [c3.1]; simp
      have he1 := List.getElem?_eq_getElem hes1
      have hl1 := c3.2 1 _ vs[k] b he1 rfl rfl
      have hl1' := c4 _ (List.getElem_mem hes1)
      have hab := hdist k _ b ha hb
      -- the edge of the triangle is an old one
      have heq : es[1].1 = q.1 := by
        by_cases hlt : T.se es[1].1 = .live
        · have hx := (t8'.old _ hlt).2
          have hy := (t8'.old _ ql).2
          exact hs q.1 es[1].1 _ b hab (EdgeHas_iff.2 ⟨ql, (ends_congr hy).1 (hends q3).1⟩)
            (EdgeHas_iff.2 ⟨ql, (ends_congr hy).1 (hends q3).2⟩) (EdgeHas_iff.2 ⟨hlt, (ends_congr hx).1 (hends hl1).1⟩)
            (EdgeHas_iff.2 ⟨hlt, (ends_congr hx).1 (hends hl1).2⟩)
        · exact (t8'.only es[1].1 _ b hl1' hlt hab (hends hl1).1 (hends hl1).2 q.1 q2 (hends q3).1 (hends q3).2).symm
      have hdir : es[1].2 = q.2 := by
        unfold Leads at hl1 q3
        rw [heq, q3] at hl1
        revert hl1
        cases es[1].2 <;> cases q.2 <;> simp [hab, Ne.symm hab]
      have : es[1] = q := Prod.ext heq hdir
      rw [← this]; exact List.getElem_mem hes1
    · intro g hg
      show T'.edgesOf g = T.edgesOf g
      rw [hedges']
      refine (t3 g ?_).2
      by_contra hc
      exact hg ((hmr g).2 (by omega))
    · intro e he
      obtain ⟨a, b⟩ := hM.old e he
      refine ⟨a, fun i => ?_⟩
      rw [meVertex_ok (alloc_of_live a), meVertex_ok (alloc_of_live he), b]
    · intro e he
      rw [w2] at he
      obtain ⟨a, b⟩ := hspoke e he
      obtain ⟨x, y⟩ := t8'.fresh e he
      obtain ⟨z, hz, hz'⟩ := b
      exact ⟨x, by rw [w2]; exact y, hEH.2 ⟨y, a⟩, z, hz, hEH.2 ⟨y, hz'⟩⟩
    · intro a ha
      obtain ⟨k, hk, hka⟩ := List.getElem_of_mem ha
      have ha' := List.getElem?_eq_getElem hk
      rw [hka] at ha'
      obtain ⟨b, hb, hp'⟩ := getElem?_cyclicPairs ha'
      obtain ⟨es, c1, c2, c3, c4⟩ := t9 k a b hp'
      have hes0 : 0 < es.length := by rw [c3.1]; simp
      have hl0 := c3.2 0 _ T.nv a (List.getElem?_eq_getElem hes0) rfl rfl
      have hle := c4 _ (List.getElem_mem hes0)
      refine ⟨es[0].1, ⟨hEH.2 ⟨hle, (hends hl0).1⟩, hEH.2 ⟨hle, (hends hl0).2⟩⟩, ?_⟩
      rintro e ⟨x, y⟩
      obtain ⟨x1, x2⟩ := hEH.1 x
      obtain ⟨y1, y2⟩ := hEH.1 y
      exact t8'.only es[0].1 T.nv a hle (hnv _ hle (hends hl0).1) (hvn a (hvl a ha)) (hends hl0).1 (hends hl0).2 e x1 x2 y2
    · show T'.sr = T.sr
      rw [w7, t4]
    · exact refaced_of h h3 hmem t5 t6 t7 (by rw [w7, t4]) w8 w9

/-- The square between the two pyramids is cut into four triangles. -/
example : ∃ T, empty.run twoPyramids = .ok T ∧ T.Consistent ∧ T.sf 0 = .live ∧ T.Loop 0 [0,1,2,3] ∧
    T.RegionsReady 0 4 ∧
    ∃ T', T.mfSplit 0 = .ok (T', 6) ∧ T'.mfVertices 11 true none = .ok ([6,2,3].map some) ∧
      T'.mrFaces 0 = .ok [9,1,2,3,4,10,11,12] ∧ T'.mrFaceDir 0 12 = .ok (some false) ∧
      T'.mrFaceDir 1 12 = .ok (some true) := by
  obtain ⟨T, h1, h2⟩ := reachable (os := twoPyramids) (by decide +kernel)
  have hq : answer twoPyramids (fun T => .ok (decide (T.sf 0 = .live) && T.loopB 0 [0,1,2,3] &&
      T.readyB 4 && match T.mfSplit 0 with
      | .ok (T', v) => decide (v = 6) && decide (T'.mfVertices 11 true none = .ok ([6,2,3].map some)) &&
        decide (T'.mrFaces 0 = .ok [9,1,2,3,4,10,11,12]) && decide (T'.mrFaceDir 0 12 = .ok (some false)) &&
        decide (T'.mrFaceDir 1 12 = .ok (some true))
      | _ => false)) = .ok true := by decide +kernel
  unfold answer at hq
  rw [h1, Res.bind_ok, Res.ok.injEq] at hq
  simp only [Bool.and_eq_true, decide_eq_true_iff] at hq
  obtain ⟨⟨⟨a, b⟩, d⟩, e⟩ := hq
  refine ⟨T, h1, h2, a, loopB_sound b, readyB_sound h2 d, ?_⟩
  split at e
  · rename_i T' e' he
    simp only [Bool.and_eq_true, decide_eq_true_iff] at e
    obtain ⟨⟨⟨⟨rfl, e2⟩, e3⟩, e4⟩, e5⟩ := e
    exact ⟨T', he, e2, e3, e4, e5⟩
  · cases e

end Topo
end MSTK
