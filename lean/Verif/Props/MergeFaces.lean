import Verif.Props.JoinRegions
import Verif.Props.Merge

/-!
C56: merging two faces with the same edges (`MFs_Merge`).

Specification: `FacesMerged` for the mesh, `MergedSet` (Props/Merge) for the mesh sets.
-/
namespace MSTK
namespace Topo

/-- The faces `f1` and `f2` have the same edges, used in the same directions (`same`) or all in
opposite directions. -/
def SameCycle (T : Topo) (f1 f2 : Nat) (same : Bool) : Prop :=
  ∀ e d, (e, d) ∈ T.view.edges f1 ↔ (e, if same then d else !d) ∈ T.view.edges f2

/-- The mesh before (`T`) and after (`T'`) face `f2` was merged into `f1`. -/
structure FacesMerged (T T' : Topo) (f1 f2 : Nat) (same : Bool) : Prop where
  consistent : T'.Consistent
  vertices : T'.view.sv = T.view.sv
  edges : T'.view.se = T.view.se ∧ T'.view.ends = T.view.ends
  /-- the second face is deleted (`MF_Delete(f2,1)`), every other face is as before -/
  faces : T'.view.sf = upd T.view.sf f2 .kept ∧ T'.view.edges = T.view.edges
  regions : T'.view.sr = T.view.sr
  /-- a region has `f1` in the place of `f2`, seen from the same side -/
  in_regions : ∀ r d, T.sr r = .live → T.mrFaceDir r f2 = .ok (some d) →
    (T'.view.faces r).Perm ((f1, if same then d else !d) :: (T.view.faces r).filter fun p => p.1 ≠ f2) ∧
    T'.Typed r
  others : ∀ r, ¬ T.RegionHas r f2 → T'.view.faces r = T.view.faces r ∧
    T'.mrElementType r = T.mrElementType r

/-- The side of `f1` on which a region of `f2` is going to be is free. -/
def SideFree (T : Topo) (f1 f2 : Nat) (same : Bool) : Prop := ∀ r d, T.sr r = .live →
  T.mrFaceDir r f2 = .ok (some d) → ¬ T.RegionHas r f1 ∧
    ∀ z, T.sr z = .live → T.mrFaceDir z f1 ≠ .ok (some (if same then d else !d))

/-! ### helpers -/

theorem Leads.inj {T : Topo} {e : Nat} {d : Bool} {a b a' b' : Nat} (h : Leads T e d a b) (h' : Leads T e d a' b') :
    a = a' ∧ b = b' := by
  unfold Leads at h h'
  rw [h] at h'
  cases d
  · simp only [Bool.false_eq_true, if_false, Prod.mk.injEq, Option.some.injEq] at h'; exact ⟨h'.2, h'.1⟩
  · simp only [if_true, Prod.mk.injEq, Option.some.injEq] at h'; exact ⟨h'.1, h'.2⟩

/-- a directed edge is used only once in a simple loop -/
theorem Closed.nodup {T : Topo} {ps : List (Nat × Bool)} {vs : List Nat} (h : T.Closed ps vs) (hn : vs.Nodup) :
    ps.Nodup := by
  rw [List.nodup_iff_getElem?_ne_getElem?]
  intro i j hij hj hc
  rw [h.1] at hj
  have hpi := List.getElem?_eq_getElem (l := ps) (i := i) (by rw [h.1]; omega)
  have hpj := List.getElem?_eq_getElem (l := ps) (i := j) (by rw [h.1]; omega)
  have hpos : 0 < vs.length := by omega
  have hii := List.getElem?_eq_getElem (l := vs) (i := i) (by omega)
  have hjj := List.getElem?_eq_getElem (l := vs) (i := j) hj
  have a := h.2 i _ _ _ hpi hii (List.getElem?_eq_getElem (Nat.mod_lt _ hpos))
  have b := h.2 j _ _ _ hpj hjj (List.getElem?_eq_getElem (Nat.mod_lt _ hpos))
  rw [hpi, hpj] at hc
  injection hc with hc
  rw [← hc] at b
  have := (a.inj b).1
  have e1 := idxOf_eq_of_nodup hn hii
  have e2 := idxOf_eq_of_nodup hn hjj
  rw [this] at e1
  omega

theorem Leads.flip {T : Topo} {e : Nat} {d : Bool} {a b : Nat} (h : Leads T e d a b) : Leads T e (!d) b a := by
  unfold Leads at h ⊢
  cases d <;> simpa using h

theorem Leads.tail {T : Topo} {e : Nat} {d : Bool} {a b : Nat} (he : (T.se e).alloc) (h : Leads T e d a b) :
    T.meVertex e (!d) = .ok (some a) := by
  rw [meVertex_ok he]
  unfold Leads at h
  rw [h]
  cases d <;> simp [endAt]

theorem Leads.head {T : Topo} {e : Nat} {d : Bool} {a b : Nat} (he : (T.se e).alloc) (h : Leads T e d a b) :
    T.meVertex e d = .ok (some b) := by
  rw [meVertex_ok he]
  unfold Leads at h
  rw [h]
  cases d <;> simp [endAt]

/-! ### the property -/

/-- **C56.**  Two different faces with the same edges are merged: the regions of the second one get
the first one in its place, mesh sets have the first for the second, and nothing else changes. -/
theorem C56_merge_partial {T : Topo} (h : T.Consistent) (S : List (List Nat)) {topoflag : Bool} {cls : Nat → Nat × Nat}
    {f1 f2 : Nat} {vs ws : List Nat} {same : Bool} (hne : f1 ≠ f2) (hf1 : T.sf f1 = .live) (hf2 : T.sf f2 = .live)
    (hmay : topoflag = true → (cls f1).1 < (cls f2).1 ∨ cls f1 = cls f2)
    (hv : T.Loop f1 vs) (hvn : vs.Nodup) (hw : T.Loop f2 ws) (hwn : ws.Nodup) (h3 : 3 ≤ vs.length)
    (hsame : T.SameCycle f1 f2 same) (hready : T.RegionsReady f2 1) (hfree : T.SideFree f1 f2 same)
    (hS : ∀ s ∈ S, s.Nodup) :
    ∃ T', T.mfsMerge S topoflag cls f1 f2 = .ok (T', some (S.map (mergeInSet f1 f2))) ∧
      FacesMerged T T' f1 f2 same ∧ ∀ s ∈ S, MergedSet f1 f2 s (mergeInSet f1 f2 s) := by
  obtain ⟨l1, hfe1, -, hlen1, -⟩ := hv.stored (alloc_of_live hf1)
  obtain ⟨l2, hfe2, -, hlen2, -⟩ := hw.stored (alloc_of_live hf2)
  have hel1 : ∀ e ∈ l1, T.se e = .live := fun e he => h.ef.down f1 e hf1 (by
    show e ∈ (T.fe f1).getD []
    rw [hfe1]; exact he)
  have hel2 : ∀ e ∈ l2, T.se e = .live := fun e he => h.ef.down f2 e hf2 (by
    show e ∈ (T.fe f2).getD []
    rw [hfe2]; exact he)
  have c1 := hv.closed (alloc_of_live hf1) hfe1 (fun e he => alloc_of_live (hel1 e he))
  have c2 := hw.closed (alloc_of_live hf2) hfe2 (fun e he => alloc_of_live (hel2 e he))
  have e1 : T.view.edges f1 = pairs l1 (fbit (T.fd f1)) := edgesOf_some hfe1
  have e2 : T.view.edges f2 = pairs l2 (fbit (T.fd f2)) := edgesOf_some hfe2
  unfold SameCycle at hsame
  rw [e1, e2] at hsame
  have hl12 : l1.length = l2.length := by
    have n1 := c1.nodup hvn
    have n2 := c2.nodup hwn
    have : ((pairs l1 (fbit (T.fd f1))).map fun p => (p.1, if same then p.2 else !p.2)).Perm
        (pairs l2 (fbit (T.fd f2))) := by
      rw [List.perm_ext_iff_of_nodup]
      · rintro ⟨e, d⟩
        rw [List.mem_map]
        constructor
        · rintro ⟨p, hp, hpe⟩
          rw [← hpe]
          exact (hsame p.1 p.2).1 hp
        · intro hp
          refine ⟨(e, if same then d else !d), (hsame _ _).2 ?_, ?_⟩ <;> cases same <;> simp [hp]
      · refine n1.map ?_
        rintro ⟨a, b⟩ ⟨a', b'⟩ hq
        simp only [Prod.mk.injEq] at hq
        obtain ⟨rfl, hq⟩ := hq
        cases same <;> simpa using hq
      · exact n2
    have := this.length_eq
    rwa [List.length_map, pairs_length, pairs_length] at this
  have hpl1 : (pairs l1 (fbit (T.fd f1))).length = l1.length := pairs_length _ _
  have hpl2 : (pairs l2 (fbit (T.fd f2))).length = l2.length := pairs_length _ _
  -- the first edge
  have hx := List.getElem?_eq_getElem (l := l1) (i := 0) (by omega)
  generalize hxe : l1[0] = x at hx
  generalize hd0 : fbit (T.fd f1) 0 = d0
  have hp0 : (pairs l1 (fbit (T.fd f1)))[0]? = some (x, d0) := by
    rw [getElem?_pairs, hx, ← hd0]; rfl
  have hxl : T.se x = .live := hel1 x (List.mem_of_getElem? hx)
  have hv0 := List.getElem?_eq_getElem (l := vs) (i := 0) (by omega)
  have hv1 := List.getElem?_eq_getElem (l := vs) (i := 1 % vs.length) (Nat.mod_lt _ (by omega))
  have hlead := c1.2 0 _ _ _ hp0 hv0 (by rw [Nat.zero_add]; exact hv1)
  generalize vs[0] = a at hv0 hlead
  generalize vs[1 % vs.length]'(Nat.mod_lt _ (by omega)) = b at hv1 hlead
  have q1 := mfEdges_plain (alloc_of_live hf1) hfe1
  have q2 : T.mfEdgeDir_i f1 0 = .ok d0 := by
    unfold mfEdgeDir_i
    rw [derefF_ok (alloc_of_live hf1), Res.bind_ok, bit_ok _ (by omega), hd0]
  have q3 : T.meVertex x (!d0) = .ok (some a) := hlead.tail (alloc_of_live hxl)
  -- where the second face has it
  obtain ⟨k, hk, hkp⟩ := List.getElem_of_mem ((hsame x d0).1 (List.mem_of_getElem? hp0))
  have hkp' := List.getElem?_eq_getElem hk
  rw [hkp] at hkp'
  rw [hpl2] at hk
  have hkl : l2[k]? = some x := by
    rw [getElem?_pairs] at hkp'
    rw [List.getElem?_eq_getElem hk] at hkp' ⊢
    simp only [Option.map_some, Option.some.injEq, Prod.mk.injEq] at hkp'
    rw [hkp'.1]
  have hwlen : ws.length = l2.length := hlen2.symm
  have hwk := List.getElem?_eq_getElem (l := ws) (i := k) (by omega)
  have hwk1 := List.getElem?_eq_getElem (l := ws) (i := (k+1) % ws.length) (Nat.mod_lt _ (by omega))
  have hlead2 := c2.2 k _ _ _ hkp' hwk hwk1
  generalize ws[k] = u at hwk hlead2
  generalize ws[(k+1) % ws.length]'(Nat.mod_lt _ (by omega)) = w at hwk1 hlead2
  dsimp only at hlead hlead2
  have hcond : ∃ es, T.mfEdges f2 true (some a) = .ok es ∧ es.length = l1.length ∧
      (l1[0]? = es[0]? ∨ l1[0]? = es[l1.length-1]?) ∧ decide (l1[0]? = es[0]?) = same := by
    have hfrom := C23_edges_from hf2 hw hwn (mfEdges_plain (alloc_of_live hf2) hfe2) true a
    cases same with
    | true =>
      simp only [if_true] at hlead2
      obtain ⟨rfl, -⟩ := hlead.inj hlead2
      have hm := hfrom.1 k hwk
      simp only [if_true] at hm
      have hz : (l2.rotate k)[0]? = some x := by
        rw [List.getElem?_rotate (by omega), Nat.zero_add, Nat.mod_eq_of_lt hk, hkl]
      exact ⟨_, hm, by rw [List.length_rotate]; omega, Or.inl (by rw [hx, hz]), by rw [hx, hz]; simp⟩
    | false =>
      simp only [Bool.false_eq_true, if_false] at hlead2
      have hfl := hlead2.flip
      rw [Bool.not_not] at hfl
      obtain ⟨rfl, rfl⟩ := hlead.inj hfl
      have hm := hfrom.1 _ hwk1
      simp only [if_true] at hm
      have hlast : (l2.rotate ((k+1) % ws.length))[l1.length-1]? = some x := by
        rw [List.getElem?_rotate (by omega), ← hkl]
        congr 1
        rw [hwlen, Nat.add_mod_mod, show l1.length - 1 + (k+1) = l2.length + k by omega, Nat.add_mod_left,
          Nat.mod_eq_of_lt hk]
      have hfirst : (l2.rotate ((k+1) % ws.length))[0]? ≠ some x := by
        intro hc
        rw [List.getElem?_rotate (by omega), Nat.zero_add, Nat.mod_mod_of_dvd _ (by rw [hwlen])] at hc
        have hkk : (k+1) % l2.length < l2.length := Nat.mod_lt _ (by omega)
        have hpp : (pairs l2 (fbit (T.fd f2)))[(k+1) % l2.length]? =
            some (x, fbit (T.fd f2) ((k+1) % l2.length)) := by rw [getElem?_pairs, hc]; rfl
        have hwk2 := List.getElem?_eq_getElem (l := ws) (i := ((k+1) % ws.length + 1) % ws.length)
          (Nat.mod_lt _ (by omega))
        have hl3 := c2.2 ((k+1) % ws.length) _ _ _ (by rw [hwlen]; exact hpp) hwk1 hwk2
        dsimp only at hl3
        generalize ws[((k+1) % ws.length + 1) % ws.length]'(Nat.mod_lt _ (by omega)) = z at hwk2 hl3
        -- the two uses of the edge
        have hk2 : ((k+1) % ws.length + 1) % ws.length = (k+2) % ws.length := by rw [Nat.mod_add_mod]
        have iu := idxOf_eq_of_nodup hwn hwk
        have ia := idxOf_eq_of_nodup hwn hwk1
        have iz := idxOf_eq_of_nodup hwn hwk2
        rw [hk2] at iz
        have hdd : fbit (T.fd f2) ((k+1) % l2.length) = d0 ∨ fbit (T.fd f2) ((k+1) % l2.length) = !d0 := by
          cases fbit (T.fd f2) ((k+1) % l2.length) <;> cases d0 <;> simp
        rcases hdd with hdd | hdd
        · rw [hdd] at hl3
          obtain ⟨-, hz⟩ := hlead.inj hl3
          rw [← hz, iu] at iz
          rcases Nat.lt_or_ge (k+2) ws.length with hlt | hge
          · rw [Nat.mod_eq_of_lt hlt] at iz; omega
          · rw [Nat.mod_eq_sub_mod hge, Nat.mod_eq_of_lt (by omega)] at iz; omega
        · rw [hdd] at hl3
          obtain ⟨ha, -⟩ := hl3.inj hlead2
          rw [ha, iu] at ia
          rcases Nat.lt_or_ge (k+1) ws.length with hlt | hge
          · rw [Nat.mod_eq_of_lt hlt] at ia; omega
          · rw [Nat.mod_eq_sub_mod hge, Nat.mod_eq_of_lt (by omega)] at ia; omega
      refine ⟨_, hm, by rw [List.length_rotate]; omega, Or.inr (by rw [hx, hlast]), ?_⟩
      rw [hx, decide_eq_false_iff_not]
      exact fun hc => hfirst hc.symm
  obtain ⟨es, q4, q5, q6, q7⟩ := hcond
  -- the regions
  obtain ⟨L, g1, g2, g3⟩ := C22_face_regions h hf2
  have hmem : ∀ r, r ∈ L.getD [] ↔ T.sr r = .live ∧ f2 ∈ (T.rf r).getD [] := fun r =>
    (g3 r).trans (regionHas_iff h)
  obtain ⟨T1, r1, h1, k2, k3⟩ := inRegions_ok (f := f2) (nus := fun d => [(f1, if same then d else !d)])
    (by intro d p hp; rw [List.mem_singleton] at hp ⊢; subst hp; cases same <;> cases d <;> simp)
    (by intro d; simp) (by intro d; simp) (L.getD []) T h hf2 g2 (by
      intro r hr
      obtain ⟨a1, a2⟩ := (hmem r).1 hr
      obtain ⟨d, hd⟩ := mem_facesOf_iff.1 a2
      obtain ⟨b1, b2⟩ := hready.stored h a1 a2
      obtain ⟨s1, s2⟩ := hfree r d a1 ((mrFaceDir_iff h a1).2 hd)
      refine ⟨d, a1, hd, ?_, by simpa using b1, b2⟩
      intro p hp
      rw [List.mem_singleton] at hp
      subst hp
      exact ⟨hf1, fun hc => s1 ((regionHas_iff h).2 ⟨a1, hc⟩), ⟨_, hfe1⟩,
        fun z hz hc => s2 z hz ((mrFaceDir_iff h hz).2 hc)⟩)
  have hno : ∀ r d, T1.sr r = .live → (f2, d) ∉ facesOf T1.rf T1.rd r := by
    intro r d hr hc
    rw [k2.sr] at hr
    by_cases hrr : r ∈ L.getD []
    · obtain ⟨-, d', -, hp⟩ := k3 r hrr
      rcases List.mem_append.1 (hp.mem_iff.1 hc) with hc | hc
      · rw [List.mem_singleton, Prod.mk.injEq] at hc; exact hne hc.1.symm
      · simpa using (List.mem_filter.1 hc).2
    · obtain ⟨-, a, b⟩ := k2.rest r hrr
      unfold facesOf at hc
      rw [a, b] at hc
      exact hrr ((hmem r).2 ⟨hr, mem_facesOf_iff.2 ⟨d, hc⟩⟩)
  have hf2' : T1.sf f2 = .live := by rw [k2.sf]; exact hf2
  obtain ⟨T2, r2, h2⟩ := h1.delFace (k := true) (alloc_of_live hf2') hno
  have w2 := mfDelete_ok (keep := true) hf2' (fun e he => alloc_of_live (h1.ef.down f2 e hf2' he))
  have hT2 := Res.ok.inj (r2.symm.trans w2)
  refine ⟨T2, ?_, ?_, fun s hs => C30_sets hne (hS s hs)⟩
  · unfold mfsMerge
    have hm : mayMerge topoflag (cls f1) (cls f2) = true := by
      unfold mayMerge
      cases topoflag with
      | false => rfl
      | true =>
        rcases hmay rfl with hc | hc
        · rw [if_pos rfl, if_neg (by omega)]; simp; omega
        · rw [hc]; simp
    rw [derefF_ok (alloc_of_live hf1), Res.bind_ok, derefF_ok (alloc_of_live hf2), Res.bind_ok, if_pos hm,
      q1, Res.bind_ok, q2, Res.bind_ok, hx, Res.ofOption_some, Res.bind_ok, q3, Res.bind_ok, q4, Res.bind_ok,
      ← hx, if_neg (by omega), if_pos q6, g1, Res.bind_ok, q7, mergeInRegions_eq, r1, Res.bind_ok, r2, Res.bind_ok]
    rfl
  · have hrf : T2.rf = T1.rf := by rw [hT2]
    have hrd : T2.rd = T1.rd := by rw [hT2]
    have hsr : T2.sr = T.sr := by rw [hT2]; exact k2.sr
    refine ⟨h2, ?_, ⟨?_, ?_⟩, ⟨?_, ?_⟩, ?_, ?_, ?_⟩
    · show T2.sv = T.sv; rw [hT2]; exact k2.sv
    · show T2.se = T.se; rw [hT2]; exact k2.se
    · show T2.ev = T.ev; rw [hT2]; exact k2.ev
    · show T2.sf = upd T.sf f2 .kept; rw [hT2]; dsimp only; rw [k2.sf]; rfl
    · funext g
      show T2.edgesOf g = T.edgesOf g
      unfold edgesOf
      rw [hT2]; dsimp only; rw [k2.fe, k2.fd]
    · exact hsr
    · intro r d hr hd
      have hd' := (mrFaceDir_iff h hr).1 hd
      have hrr := (hmem r).2 ⟨hr, mem_facesOf_iff.2 ⟨d, hd'⟩⟩
      obtain ⟨a, d2, b, c⟩ := k3 r hrr
      have := (mrFaceDir_iff h hr).2 b
      rw [hd] at this
      injection this with this
      injection this with this
      subst this
      refine ⟨by show (facesOf T2.rf T2.rd r).Perm _; rw [hrf, hrd]; exact c, ?_⟩
      exact (a.congr (by rw [hrf]) (by rw [hT2]) (fun x _ => by rw [hT2])).typed h2 (by rw [hsr]; exact hr)
    · intro r hr
      have hrr : r ∉ L.getD [] := fun hc => hr ((regionHas_iff h).2 ((hmem r).1 hc))
      obtain ⟨a, b, c⟩ := k2.rest r hrr
      refine ⟨by show facesOf _ _ r = facesOf _ _ r; unfold facesOf; rw [hrf, hrd, b, c], ?_⟩
      unfold mrElementType derefR
      rw [hsr, show T2.rt = T1.rt by rw [hT2], a]

/-- **C56, refusals.**  When the classification of the second face is on an entity of lower
dimension, or on another one of the same dimension, the call is refused and the mesh left alone. -/
theorem C56_refused {T : Topo} (S : List (List Nat)) {topoflag : Bool} {cls : Nat → Nat × Nat} {f1 f2 : Nat}
    (hf1 : T.sf f1 = .live) (hf2 : T.sf f2 = .live) (ht : topoflag = true)
    (hno : (cls f2).1 < (cls f1).1 ∨ ((cls f1).1 = (cls f2).1 ∧ (cls f1).2 ≠ (cls f2).2)) :
    T.mfsMerge S topoflag cls f1 f2 = .ok (T, none) := by
  unfold mfsMerge
  have hm : mayMerge topoflag (cls f1) (cls f2) = false := by
    unfold mayMerge
    subst ht
    rw [if_pos rfl]
    rcases hno with hc | ⟨hc, hc'⟩
    · rw [if_neg (by omega)]; simpa using hc
    · rw [if_pos hc]; simpa using hc'
  rw [derefF_ok (alloc_of_live hf1), Res.bind_ok, derefF_ok (alloc_of_live hf2), Res.bind_ok, if_neg (by simp [hm])]
  rfl

/-! ### examples -/

/-- two tetrahedra, each with a face of its own on the vertices 0, 1, 2 (faces 0 and 4, which go
round in opposite directions) -/
def apartTets : List Op :=
  [.newVertex, .newVertex, .newVertex, .newVertex, .newVertex,
   .newFace, .setVertices 0 [0,1,2],
   .newFace, .setVertices 1 [0,1,3], .newFace, .setVertices 2 [1,2,3], .newFace, .setVertices 3 [2,0,3],
   .newFace, .setVertices 4 [2,1,0],
   .newFace, .setVertices 5 [0,1,4], .newFace, .setVertices 6 [1,2,4], .newFace, .setVertices 7 [2,0,4],
   .newRegion, .setFaces 0 [(0,false),(1,true),(2,true),(3,true)],
   .newRegion, .setFaces 1 [(5,false),(4,false),(6,false),(7,false)]]

/-- The copy of the face is merged into the original; afterwards the two tetrahedra share it. -/
example : ∃ T, empty.run apartTets = .ok T ∧ T.Consistent ∧ T.sf 0 = .live ∧ T.sf 4 = .live ∧
    T.Loop 0 [0,1,2] ∧ T.Loop 4 [2,1,0] ∧ T.SameCycle 0 4 false ∧ T.RegionsReady 4 1 ∧ T.SideFree 0 4 false ∧
    ∃ T', T.mfsMerge [[4,1],[0,4]] true (fun _ => (2,1)) 0 4 = .ok (T', some [[0,1],[0]]) ∧
      T'.mrFaces 1 = .ok [5,0,6,7] ∧ T'.mrFaceDir 1 0 = .ok (some true) ∧
      T'.mfRegions 0 = .ok (some [1,0]) ∧ T'.sf 4 = .kept := by
  obtain ⟨T, h1, h2⟩ := reachable (os := apartTets) (by decide +kernel)
  have hq : answer apartTets (fun T => .ok (decide (T.sf 0 = .live) && decide (T.sf 4 = .live) &&
      T.loopB 0 [0,1,2] && T.loopB 4 [2,1,0] &&
      decide (T.edgesOf 0 = [(0,true),(1,true),(2,true)]) && decide (T.edgesOf 4 = [(1,false),(0,false),(2,false)]) &&
      T.readyB 1 && decide (T.nr = 2) && decide (facesOf T.rf T.rd 0 = [(0,false),(1,true),(2,true),(3,true)]) &&
      decide (facesOf T.rf T.rd 1 = [(5,false),(4,false),(6,false),(7,false)]) &&
      match T.mfsMerge [[4,1],[0,4]] true (fun _ => (2,1)) 0 4 with
      | .ok (T', b) => decide (b = some [[0,1],[0]]) && decide (T'.mrFaces 1 = .ok [5,0,6,7]) &&
        decide (T'.mrFaceDir 1 0 = .ok (some true)) && decide (T'.mfRegions 0 = .ok (some [1,0])) &&
        decide (T'.sf 4 = .kept)
      | _ => false)) = .ok true := by decide +kernel
  unfold answer at hq
  rw [h1, Res.bind_ok, Res.ok.injEq] at hq
  simp only [Bool.and_eq_true, decide_eq_true_iff] at hq
  obtain ⟨⟨⟨⟨⟨⟨⟨⟨⟨⟨a, b⟩, c⟩, d⟩, e0⟩, e4⟩, rd⟩, n⟩, r0⟩, r1⟩, q⟩ := hq
  have hreg : ∀ r, T.sr r = .live → r = 0 ∨ r = 1 := by
    intro r hr
    by_contra hc
    rw [h2.newR r (by omega)] at hr; cases hr
  refine ⟨T, h1, h2, a, b, loopB_sound c, loopB_sound d, ?_, readyB_sound h2 rd, ?_, ?_⟩
  · intro e d
    show (e, d) ∈ T.edgesOf 0 ↔ (e, _) ∈ T.edgesOf 4
    rw [e0, e4]
    cases d <;> simp ; all_goals omega
  · intro r d hr hd
    have hd' := (mrFaceDir_iff h2 hr).1 hd
    rcases hreg r hr with rfl | rfl
    · rw [r0] at hd'; simp at hd'
    · have hd2 : d = false := by rw [r1] at hd'; simpa using hd'
      subst hd2
      refine ⟨?_, ?_⟩
      · rw [regionHas_iff h2, mem_facesOf_iff, r1]
        simp
      · intro z hz hc
        have hc' := (mrFaceDir_iff h2 hz).1 hc
        rcases hreg z hz with rfl | rfl
        · rw [r0] at hc'; simp at hc'
        · rw [r1] at hc'; simp at hc'
  · split at q
    · rename_i T' b' he
      simp only [Bool.and_eq_true, decide_eq_true_iff] at q
      obtain ⟨⟨⟨⟨rfl, q1⟩, q2⟩, q3⟩, q4⟩ := q
      exact ⟨T', he, q1, q2, q3, q4⟩
    · cases q

/-- **C56, what fails (1).**  Two triangles which have only one edge in common are merged: the call
reports success although the faces have different vertices, and the region of the second one then
has a face that does not fit. -/
theorem C56_negation_one_edge : ∃ T, empty.run apartTets = .ok T ∧ T.Consistent ∧
    T.mfVertices 1 true none = .ok [some 0, some 1, some 3] ∧ T.mfVertices 5 true none = .ok [some 0, some 1, some 4] ∧
    ∃ T', T.mfsMerge [] true (fun _ => (2,1)) 1 5 = .ok (T', some []) ∧ T'.sf 5 = .kept ∧
      T'.mrFaces 1 = .ok [1,4,6,7] := by
  obtain ⟨T, h1, h2⟩ := reachable (os := apartTets) (by decide +kernel)
  have hq : answer apartTets (fun T => .ok (decide (T.mfVertices 1 true none = .ok [some 0, some 1, some 3]) &&
      decide (T.mfVertices 5 true none = .ok [some 0, some 1, some 4]) &&
      match T.mfsMerge [] true (fun _ => (2,1)) 1 5 with
      | .ok (T', b) => decide (b = some []) && decide (T'.sf 5 = .kept) && decide (T'.mrFaces 1 = .ok [1,4,6,7])
      | _ => false)) = .ok true := by decide +kernel
  unfold answer at hq
  rw [h1, Res.bind_ok, Res.ok.injEq] at hq
  simp only [Bool.and_eq_true, decide_eq_true_iff] at hq
  obtain ⟨⟨a, b⟩, q⟩ := hq
  refine ⟨T, h1, h2, a, b, ?_⟩
  split at q
  · rename_i T' b' he
    simp only [Bool.and_eq_true, decide_eq_true_iff] at q
    obtain ⟨⟨rfl, q1⟩, q2⟩ := q
    exact ⟨T', he, q1, q2⟩
  · cases q

/-- **C56, what fails (2).**  A face merged with itself is deleted although its region still has
it. -/
theorem C56_negation_itself : ∃ T, empty.run apartTets = .ok T ∧ T.Consistent ∧ T.sf 0 = .live ∧
    ∃ T', T.mfsMerge [] true (fun _ => (2,1)) 0 0 = .ok (T', some []) ∧ T'.sf 0 = .kept ∧
      T'.sr 0 = .live ∧ T'.mrFaces 0 = .ok [0,1,2,3] := by
  obtain ⟨T, h1, h2⟩ := reachable (os := apartTets) (by decide +kernel)
  have hq : answer apartTets (fun T => .ok (decide (T.sf 0 = .live) &&
      match T.mfsMerge [] true (fun _ => (2,1)) 0 0 with
      | .ok (T', b) => decide (b = some []) && decide (T'.sf 0 = .kept) && decide (T'.sr 0 = .live) &&
        decide (T'.mrFaces 0 = .ok [0,1,2,3])
      | _ => false)) = .ok true := by decide +kernel
  unfold answer at hq
  rw [h1, Res.bind_ok, Res.ok.injEq] at hq
  simp only [Bool.and_eq_true, decide_eq_true_iff] at hq
  obtain ⟨a, q⟩ := hq
  refine ⟨T, h1, h2, a, ?_⟩
  split at q
  · rename_i T' b' he
    simp only [Bool.and_eq_true, decide_eq_true_iff] at q
    obtain ⟨⟨⟨rfl, q1⟩, q2⟩, q3⟩ := q
    exact ⟨T', he, q1, q2, q3⟩
  · cases q

end Topo
end MSTK
