import Verif.Props.SplitFace

/-!
C53: joining two regions across a common face (`MRs_Join`).

Specification: `Joined`.
-/
namespace MSTK
namespace Topo

/-- Region `r2` was joined to `r1` and their common face `c` removed. -/
structure Joined (T T' : Topo) (r1 r2 c : Nat) : Prop where
  consistent : T'.Consistent
  vertices : T'.view.sv = T.view.sv
  edges : T'.view.se = T.view.se ∧ T'.view.ends = T.view.ends
  faces : T'.view.sf = upd T.view.sf c .freed ∧ T'.view.edges = T.view.edges
  regions : T'.view.sr = upd T.view.sr r2 .freed
  /-- the region has the faces of both but the common one, in the directions in which they were used,
  and its reported element type is up to date -/
  joined : (T'.view.faces r1).Perm ((T.view.faces r1).filter (fun p => p.1 ≠ c) ++
    (T.view.faces r2).filter fun p => p.1 ≠ c)
  typed : T'.Typed r1
  others : ∀ r, r ≠ r1 → T'.view.faces r = T.view.faces r ∧
    (r ≠ r2 → T'.mrElementType r = T.mrElementType r)

/-! ### helpers -/

theorem mrFaces_getD {T : Topo} {r : Nat} {l : List Nat} (h : T.mrFaces r = .ok l) : (T.rf r).getD [] = l := by
  have h : T.rfaces r = .ok l := h
  unfold rfaces at h
  obtain ⟨-, -, h⟩ := Res.bind_eq_ok.1 h
  cases hl : T.rf r with
  | none => rw [hl] at h; cases h
  | some l' => rw [hl] at h; cases h; rfl

theorem otherFaces_ok {T : Topo} {r c : Nat} (hr : (T.sr r).alloc) : ∀ (l : List Nat) (i : Nat),
    (∀ j, j < l.length → (i+j)/32 < (T.rd r).length) →
    T.otherFaces r c l i =
      .ok ((l.mapIdx fun j g => (g, rbit (T.rd r) (i+j))).filter fun p => p.1 ≠ c) := by
  intro l
  induction l with
  | nil => intro i _; rfl
  | cons g gs ih =>
    intro i hw
    have hrec := ih (i+1) (by
      intro j hj
      have := hw (j+1) (by simpa using hj)
      rwa [show i + (j+1) = i+1+j by omega] at this)
    have e1 : (fun (j : Nat) (g : Nat) => (g, rbit (T.rd r) (i + (j+1)))) =
        fun j g => (g, rbit (T.rd r) (i+1+j)) := by
      funext j g; rw [show i + (j+1) = i+1+j by omega]
    rw [show T.otherFaces r c (g :: gs) i = (if g = c then T.otherFaces r c gs (i+1) else
      T.mrFaceDir_i r i >>= fun d => T.otherFaces r c gs (i+1) >>= fun rest => pure ((g, d) :: rest)) from rfl,
      hrec, List.mapIdx_cons, e1, List.filter_cons]
    by_cases hg : g = c
    · rw [if_pos hg, if_neg (by simp [hg])]
    · have hw0 := hw 0 (by simp)
      rw [if_neg hg, if_pos (by simpa using hg)]
      unfold mrFaceDir_i
      rw [derefR_ok hr, Res.bind_ok, getW_ok (by simpa using hw0), Res.bind_ok, Res.bind_ok]
      rfl

theorem regionFaces_some {T : Topo} {r f : Nat} (hf : f ∈ (T.rf r).getD []) : ∃ l, T.rf r = some l ∧ f ∈ l := by
  cases hl : T.rf r with
  | none => rw [hl] at hf; simp at hf
  | some l => rw [hl] at hf; exact ⟨l, rfl, hf⟩

/-- **C53.**  Two regions with exactly one common face become one region with all other faces of
both; the face and the second region are removed and nothing else changes.  The common face is
given or searched for. -/
theorem C53_join {T : Topo} (h : T.Consistent) {cls : Nat → Nat} {r1 r2 c : Nat} {f : Option Nat}
    (hcls : cls r1 = cls r2) (hne : r1 ≠ r2) (hc1 : T.RegionHas r1 c) (hc2 : T.RegionHas r2 c)
    (honly : ∀ g, T.RegionHas r1 g → T.RegionHas r2 g → g = c) (hf : f = some c ∨ f = none)
    (hsize : ∃ l1 l2, T.mrFaces r1 = .ok l1 ∧ T.mrFaces r2 = .ok l2 ∧ 2 ≤ l2.length ∧
      l1.length + l2.length ≤ 514 ∧ ∀ g ∈ l1 ++ l2, ∃ es, T.mfEdges g true none = .ok es) :
    ∃ T', T.mrsJoin cls r1 r2 f = .ok (T', true) ∧ Joined T T' r1 r2 c := by
  obtain ⟨hr1, hm1⟩ := (regionHas_iff h).1 hc1
  obtain ⟨hr2, hm2⟩ := (regionHas_iff h).1 hc2
  obtain ⟨l1, hl1, hcl1⟩ := regionFaces_some hm1
  obtain ⟨l2, hl2, hcl2⟩ := regionFaces_some hm2
  obtain ⟨l1', l2', e1, e2, hlen2, hlen, hsz⟩ := hsize
  have q1 : T.mrFaces r1 = .ok l1 := rfaces_ok (alloc_of_live hr1) hl1
  have q2 : T.mrFaces r2 = .ok l2 := rfaces_ok (alloc_of_live hr2) hl2
  rw [q1] at e1; injection e1 with e1; subst e1
  rw [q2] at e2; injection e2 with e2; subst e2
  have hsized : ∀ g ∈ l1 ++ l2, ∃ x, T.fe g = some x := by
    intro g hg
    obtain ⟨es, hes⟩ := hsz g hg
    cases hfe : T.fe g with
    | none => exact absurd hes (mfEdges_none hfe _ _ _)
    | some x => exact ⟨x, rfl⟩
  have hcommon : ∀ g, g ∈ l1 → g ∈ l2 → g = c := by
    intro g h1 h2
    exact honly g ((regionHas_iff h).2 ⟨hr1, by rw [hl1]; exact h1⟩) ((regionHas_iff h).2 ⟨hr2, by rw [hl2]; exact h2⟩)
  have hn1 := (h.reg r1 l1 (alloc_of_live hr1) hl1).1
  have hn2 := (h.reg r2 l2 (alloc_of_live hr2) hl2)
  have hcf : T.commonFace r1 l2 f = .ok (some (some c)) := by
    rcases hf with rfl | rfl
    · show (T.mrUsesFace r1 c >>= fun u => pure (if u then some (some c) else none)) = _
      unfold mrUsesFace
      rw [show T.rfaces r1 = .ok l1 from q1, Res.bind_ok, Res.pure_eq, Res.bind_ok, if_pos (by simpa using hcl1)]
      rfl
    · show (T.mrFaces r1 >>= fun l1 => pure (some (l2.find? fun g => decide (g ∈ l1)))) = _
      rw [q1, Res.bind_ok, Res.pure_eq]
      congr 2
      cases hfd : l2.find? fun g => decide (g ∈ l1) with
      | none =>
        have := List.find?_eq_none.1 hfd c hcl2
        simp [hcl1] at this
      | some g =>
        rw [hcommon g (by simpa using List.find?_some hfd) (List.mem_of_find?_eq_some hfd)]
  -- the faces of the second region
  have hof : T.otherFaces r2 c l2 0 = .ok ((facesOf T.rf T.rd r2).filter fun p => p.1 ≠ c) := by
    rw [otherFaces_ok (alloc_of_live hr2) l2 0 (by
      intro j hj
      have h1 := hn2.2
      have : j / 32 ≤ l2.length / 32 := Nat.div_le_div_right (by omega)
      rw [Nat.zero_add]; omega), facesOf_some hl2]
    unfold pairs
    simp only [Nat.zero_add]
  have hfst2 : (facesOf T.rf T.rd r2).map (·.1) = l2 := by rw [facesOf_map_fst, hl2]; rfl
  have hnumem : ∀ p ∈ (facesOf T.rf T.rd r2).filter (fun p => p.1 ≠ c),
      p ∈ facesOf T.rf T.rd r2 ∧ p.1 ∈ l2 ∧ p.1 ≠ c := by
    intro p hp
    obtain ⟨a, b⟩ := List.mem_filter.1 hp
    refine ⟨a, ?_, by simpa using b⟩
    rw [← hfst2]; exact List.mem_map_of_mem a
  have hnul : ((facesOf T.rf T.rd r2).filter (fun p => p.1 ≠ c)).length + 1 = l2.length := by
    have hc' : c ∈ (facesOf T.rf T.rd r2).map (·.1) := by rw [hfst2]; exact hcl2
    obtain ⟨p, hp, hpc⟩ := List.mem_map.1 hc'
    obtain ⟨a, b, hab⟩ := List.append_of_mem hp
    have hnd : ((facesOf T.rf T.rd r2).map (·.1)).Nodup := by rw [hfst2]; exact hn2.1
    have hlen' : (facesOf T.rf T.rd r2).length = l2.length := by rw [← hfst2, List.length_map]
    rw [hab] at hnd hlen' ⊢
    rw [List.map_append, List.map_cons, List.nodup_append, List.nodup_cons, hpc] at hnd
    obtain ⟨-, ⟨hb, -⟩, hd⟩ := hnd
    have ha' : ∀ q ∈ a, q.1 ≠ c := fun q hq hc => hd q.1 (List.mem_map_of_mem hq) c (by simp) hc
    have hb' : ∀ q ∈ b, q.1 ≠ c := fun q hq hc => hb (by rw [← hc]; exact List.mem_map_of_mem hq)
    rw [List.filter_append, List.filter_cons, if_neg (by simp [hpc]),
      List.filter_eq_self.2 (by intro q hq; simpa using ha' q hq),
      List.filter_eq_self.2 (by intro q hq; simpa using hb' q hq)]
    simp only [List.length_append, List.length_cons] at hlen' ⊢
    omega
  generalize hnu : (facesOf T.rf T.rd r2).filter (fun p => p.1 ≠ c) = nu at *
  -- the region is deleted
  obtain ⟨T1, s1, s2, s3⟩ := C49_effect h (.delRegion r2 false) (alloc_of_live hr2)
  have s1 : T.mrDelete r2 false = .ok T1 := s1
  have k := mrDelete_ok (keep := false) hr2 (by rw [hl2]; exact hn2.1)
    (fun g hg => alloc_of_live (h.rfacesLive hr2 hg))
  have hT1 := Res.ok.inj (s1.symm.trans k)
  have hsr1 : T1.sr = upd T.sr r2 .freed := by rw [hT1]; rfl
  have hrf1 : T1.rf = T.rf := by rw [hT1]
  have hrd1 : T1.rd = T.rd := by rw [hT1]
  have hfe1 : T1.fe = T.fe := by rw [hT1]
  have hsf1 : T1.sf = T.sf := by rw [hT1]
  obtain ⟨d, hd⟩ := mem_facesOf_iff.1 hm1
  have hr1' : T1.sr r1 = .live := by rw [hsr1, upd_ne _ _ hne]; exact hr1
  have hready : Ready T1 c (fun _ => nu) r1 d := by
    refine ⟨hr1', by rw [hrf1, hrd1]; exact hd, ?_, ?_, ?_⟩
    · intro p hp
      obtain ⟨a, b, b'⟩ := hnumem p hp
      refine ⟨?_, ?_, ?_, ?_⟩
      · rw [hsf1]; exact h.rfacesLive hr2 (by rw [hl2]; exact b)
      · rw [hrf1, hl1]; exact fun hc => b' (hcommon _ hc b)
      · rw [hfe1]; exact hsized _ (List.mem_append_right _ b)
      · intro z hz hc
        rw [hsr1] at hz
        have hz2 : z ≠ r2 := by rintro rfl; rw [upd_same] at hz; cases hz
        rw [upd_ne _ _ hz2] at hz
        rw [hrf1, hrd1] at hc
        have al : (T.sf p.1).alloc := alloc_of_live (h.rfacesLive hr2 (by rw [hl2]; exact b))
        have x1 := (h.fr.mem p.1 al r2 p.2).2 ⟨hr2, a⟩
        have x2 := (h.fr.mem p.1 al z p.2).2 ⟨hz, hc⟩
        rw [x1] at x2; injection x2 with x2; exact hz2 x2.symm
    · rw [hrf1, hl1]; simp only [Option.getD_some]; omega
    · rw [hrf1, hl1]
      intro g hg
      rw [hfe1]; exact hsized g (List.mem_append_left _ hg)
  obtain ⟨T2, r3, t1, t2, t3, t4⟩ := inRegion_ok s2 (f := c) (r := r1) (d := d) (nus := fun _ => nu)
    (by
      intro _
      have : ((facesOf T.rf T.rd r2).map (·.1)).Nodup := by rw [hfst2]; exact hn2.1
      rw [← hnu]
      exact this.sublist (List.Sublist.map _ List.filter_sublist))
    (by intro _ hc; rw [hc] at hnul; simp at hnul; omega) hready
  rw [hrf1, hrd1] at t4
  have hno : ∀ r d, T2.sr r = .live → (c, d) ∉ facesOf T2.rf T2.rd r := by
    intro r d' hr hc
    rw [t2.sr] at hr
    by_cases hrr : r = r1
    · subst hrr
      rcases List.mem_append.1 (t4.mem_iff.1 hc) with hc | hc
      · exact (hnumem _ hc).2.2 rfl
      · simpa using (List.mem_filter.1 hc).2
    · have hr2' : r ≠ r2 := by rintro rfl; rw [hsr1, upd_same] at hr; cases hr
      have hrl : T.sr r = .live := by rw [hsr1, upd_ne _ _ hr2'] at hr; exact hr
      have hc' : (c, d') ∈ facesOf T.rf T.rd r := by
        unfold facesOf at hc ⊢
        rwa [t2.rf r hrr, t2.rd r hrr, hrf1, hrd1] at hc
      -- three regions at one face
      have al : (T.sf c).alloc := alloc_of_live (h.rfacesLive hr1 hm1)
      obtain ⟨d2, hd2⟩ := mem_facesOf_iff.1 hm2
      have x1 := (h.fr.mem c al r1 d).2 ⟨hr1, hd⟩
      have x2 := (h.fr.mem c al r2 d2).2 ⟨hr2, hd2⟩
      have x3 := (h.fr.mem c al r d').2 ⟨hrl, hc'⟩
      have : d ≠ d2 := by
        rintro rfl; rw [x1] at x2; injection x2 with x2; exact hne x2
      have hd' : d' = d ∨ d' = d2 := by revert this; cases d <;> cases d2 <;> cases d' <;> simp
      rcases hd' with rfl | rfl
      · rw [x1] at x3; injection x3 with x3; exact hrr x3.symm
      · rw [x2] at x3; injection x3 with x3; exact hr2' x3.symm
  have hcl : T2.sf c = .live := by rw [t2.sf, hsf1]; exact h.rfacesLive hr1 hm1
  obtain ⟨T3, r4, t5⟩ := t1.delFace (k := false) (alloc_of_live hcl) hno
  have k3 := mfDelete_ok (keep := false) hcl (fun e he => alloc_of_live (t1.ef.down c e hcl he))
  have hT3 := Res.ok.inj (r4.symm.trans k3)
  have hv2 : T2.view = { T.view with sr := upd T.sr r2 .freed, faces := upd T.view.faces r1 (facesOf T2.rf T2.rd r1) } := by
    have e := view_putFaces (T := T1) (facesOf_upd t2.rf t2.rd rfl) t2.sv t2.se t2.sf t2.sr t2.ev t2.fe t2.fd
    rw [e, hT1]; rfl
  refine ⟨T3, ?_, ?_⟩
  · unfold mrsJoin
    rw [derefR_ok (alloc_of_live hr1), Res.bind_ok, derefR_ok (alloc_of_live hr2), Res.bind_ok,
      if_neg (by simpa using hcls), q2, Res.bind_ok, hcf, Res.bind_ok]
    dsimp only
    rw [hof, Res.bind_ok, if_pos hcl2, s1, Res.bind_ok, r3, Res.bind_ok, r4, Res.bind_ok]
    rfl
  · have hv3 : T3.view = { T2.view with sf := upd T2.sf c .freed } := by rw [hT3]; rfl
    rw [hv2] at hv3
    have hv3' : T3.view = { T.view with
        sf := upd T.sf c .freed, sr := upd T.sr r2 .freed,
        faces := upd T.view.faces r1 (facesOf T2.rf T2.rd r1) } := by
      rw [hv3, t2.sf, hsf1]
    refine ⟨t5, ?_, ⟨?_, ?_⟩, ⟨?_, ?_⟩, ?_, ?_, ?_, ?_⟩
    · rw [hv3']
    · rw [hv3']
    · rw [hv3']
    · rw [hv3']; rfl
    · rw [hv3']
    · rw [hv3']; rfl
    · rw [hv3']
      dsimp only
      rw [upd_same]
      rw [show (T.view.faces r2).filter (fun p => p.1 ≠ c) = nu from hnu]
      exact t4.trans List.perm_append_comm
    · refine TypeStored.typed ?_ t5 (by rw [hT3]; dsimp only; rw [t2.sr]; exact hr1')
      refine t3.congr ?_ ?_ ?_
      · rw [hT3]
      · rw [hT3]
      · intro x _; rw [hT3]
    · intro r hr
      refine ⟨by rw [hv3']; exact upd_ne _ _ hr, fun hr2' => ?_⟩
      unfold mrElementType derefR
      have e1 : T3.sr r = T.sr r := by
        rw [hT3]; dsimp only; rw [t2.sr, hsr1, upd_ne _ _ hr2']
      have e2 : T3.rt r = T.rt r := by
        rw [hT3]; dsimp only; rw [t2.rt r hr, hT1]
      rw [e1, e2]

/-- **C53, refusals.**  Regions classified on different model entities, a face that one of the
regions does not have, and regions without common face are refused and the mesh is left alone. -/
theorem C53_refused {T : Topo} (h : T.Consistent) {cls : Nat → Nat} {r1 r2 : Nat} {f : Option Nat} {l1 l2 : List Nat}
    (hr1 : T.sr r1 = .live) (hr2 : T.sr r2 = .live) (h1 : T.mrFaces r1 = .ok l1) (h2 : T.mrFaces r2 = .ok l2)
    (hno : cls r1 ≠ cls r2 ∨ (∃ c, f = some c ∧ (c ∉ l1 ∨ c ∉ l2)) ∨ (f = none ∧ ∀ g ∈ l2, g ∉ l1)) :
    T.mrsJoin cls r1 r2 f = .ok (T, false) := by
  unfold mrsJoin
  rw [derefR_ok (alloc_of_live hr1), Res.bind_ok, derefR_ok (alloc_of_live hr2), Res.bind_ok]
  by_cases hcls : cls r1 ≠ cls r2
  · rw [if_pos hcls]; rfl
  · rw [if_neg hcls, h2, Res.bind_ok]
    have hl2 : ∃ l, T.rf r2 = some l ∧ l = l2 := by
      cases hl : T.rf r2 with
      | none =>
        have : T.mrFaces r2 = .ub := by
          show T.rfaces r2 = .ub
          unfold rfaces; rw [derefR_ok (alloc_of_live hr2), Res.bind_ok, hl]; rfl
        rw [this] at h2; cases h2
      | some l =>
        have : T.mrFaces r2 = .ok l := rfaces_ok (alloc_of_live hr2) hl
        rw [this] at h2; injection h2 with h2; exact ⟨l, rfl, h2⟩
    obtain ⟨l, hl, rfl⟩ := hl2
    rcases hno with hc | ⟨c, rfl, hc⟩ | ⟨rfl, hc⟩
    · exact absurd hc hcls
    · have hcf : T.commonFace r1 l (some c) = .ok (if c ∈ l1 then some (some c) else none) := by
        show (T.mrUsesFace r1 c >>= fun u => pure (if u then some (some c) else none)) = _
        unfold mrUsesFace
        rw [show T.rfaces r1 = .ok l1 from h1, Res.bind_ok, Res.pure_eq, Res.bind_ok, Res.pure_eq]
        by_cases hm : c ∈ l1 <;> simp [hm]
      rw [hcf, Res.bind_ok]
      by_cases hm : c ∈ l1
      · rw [if_pos hm]
        dsimp only
        have hno2 : c ∉ l := by
          rcases hc with hc | hc
          · exact absurd hm hc
          · exact hc
        rw [otherFaces_ok (alloc_of_live hr2) l 0 (by
          intro j hj
          have h1 := (h.reg r2 l (alloc_of_live hr2) hl).2
          have : j / 32 ≤ l.length / 32 := Nat.div_le_div_right (by omega)
          rw [Nat.zero_add]; omega), Res.bind_ok, if_neg hno2]
        rfl
      · rw [if_neg hm]; rfl
    · have hcf : T.commonFace r1 l none = .ok (some none) := by
        show (T.mrFaces r1 >>= fun l1 => pure (some (l.find? fun g => decide (g ∈ l1)))) = _
        rw [h1, Res.bind_ok, Res.pure_eq]
        congr 2
        rw [List.find?_eq_none]
        intro g hg
        simpa using hc g hg
      rw [hcf, Res.bind_ok]
      rfl

/-! ### examples -/

/-- The two pyramids are joined across the square; with the face given and with the face searched
for, and the hypotheses of the theorem hold. -/
example : ∃ T, empty.run twoPyramids = .ok T ∧ T.Consistent ∧ T.RegionHas 0 0 ∧ T.RegionHas 1 0 ∧
    (∀ g, T.RegionHas 0 g → T.RegionHas 1 g → g = 0) ∧
    (∃ l1 l2, T.mrFaces 0 = .ok l1 ∧ T.mrFaces 1 = .ok l2 ∧ 2 ≤ l2.length ∧
      l1.length + l2.length ≤ 514 ∧ ∀ g ∈ l1 ++ l2, ∃ es, T.mfEdges g true none = .ok es) ∧
    ∃ T', T.mrsJoin (fun _ => 1) 0 1 none = .ok (T', true) ∧
      T'.mrFaces 0 = .ok [5,1,2,3,4,6,7,8] ∧ T'.mrFaceDir 0 8 = .ok (some false) := by
  obtain ⟨T, h1, h2⟩ := reachable (os := twoPyramids) (by decide +kernel)
  have hq : answer twoPyramids (fun T => .ok (decide (T.sr 0 = .live) && decide (T.sr 1 = .live) &&
      decide (T.mrFaces 0 = .ok [0,1,2,3,4]) && decide (T.mrFaces 1 = .ok [5,6,0,7,8]) &&
      T.readyB 2 && match T.mrsJoin (fun _ => 1) 0 1 none with
      | .ok (T', b) => b && decide (T'.mrFaces 0 = .ok [5,1,2,3,4,6,7,8]) &&
        decide (T'.mrFaceDir 0 8 = .ok (some false))
      | _ => false)) = .ok true := by decide +kernel
  unfold answer at hq
  rw [h1, Res.bind_ok, Res.ok.injEq] at hq
  simp only [Bool.and_eq_true, decide_eq_true_iff] at hq
  obtain ⟨⟨⟨⟨⟨a, b⟩, c⟩, d⟩, e⟩, q⟩ := hq
  have m0 : ∀ g, T.RegionHas 0 g ↔ g ∈ [0,1,2,3,4] := by
    intro g
    rw [regionHas_iff h2, ← mrFaces_getD c]
    exact ⟨fun x => x.2, fun x => ⟨a, x⟩⟩
  have m1 : ∀ g, T.RegionHas 1 g ↔ g ∈ [5,6,0,7,8] := by
    intro g
    rw [regionHas_iff h2, ← mrFaces_getD d]
    exact ⟨fun x => x.2, fun x => ⟨b, x⟩⟩
  have c0 : T.RegionHas 0 0 := (m0 0).2 (by simp)
  have c1 : T.RegionHas 1 0 := (m1 0).2 (by simp)
  refine ⟨T, h1, h2, c0, c1, ?_, ⟨_, _, c, d, by simp, by simp, ?_⟩, ?_⟩
  · intro g x y
    have x := (m0 g).1 x
    have y := (m1 g).1 y
    simp only [List.mem_cons, List.not_mem_nil, or_false] at x y
    omega
  · obtain ⟨l1, q1, -, z1⟩ := readyB_sound (f := 0) h2 e 0 c0
    obtain ⟨l2, q2, -, z2⟩ := readyB_sound (f := 0) h2 e 1 c1
    rw [c] at q1; rw [d] at q2
    injection q1 with q1; injection q2 with q2
    subst q1; subst q2
    intro g hg
    rcases List.mem_append.1 hg with hg | hg
    · exact z1 g hg
    · exact z2 g hg
  · split at q
    · rename_i T' b' he
      simp only [Bool.and_eq_true, decide_eq_true_iff] at q
      obtain ⟨⟨rfl, q1⟩, q2⟩ := q
      exact ⟨T', he, q1, q2⟩
    · cases q

/-- the two pyramids with the square between them cut into two triangles -/
def cutPyramids : List Op :=
  [.newVertex, .newVertex, .newVertex, .newVertex, .newVertex, .newVertex,
   .newFace, .setVertices 0 [0,1,3],
   .newFace, .setVertices 1 [0,1,4], .newFace, .setVertices 2 [1,2,4],
   .newFace, .setVertices 3 [2,3,4], .newFace, .setVertices 4 [3,0,4],
   .newFace, .setVertices 5 [0,1,5], .newFace, .setVertices 6 [1,2,5],
   .newFace, .setVertices 7 [2,3,5], .newFace, .setVertices 8 [3,0,5],
   .newFace, .setVertices 9 [1,2,3],
   .newRegion, .setFaces 0 [(0,false),(9,false),(1,true),(2,true),(3,true),(4,true)],
   .newRegion, .setFaces 1 [(0,true),(9,true),(5,false),(6,false),(7,false),(8,false)]]

/-- **C53, what fails (1).**  When the regions have two faces in common the call succeeds, but the
joined region has the other common face twice, on both sides of it. -/
theorem C53_negation_two_faces : ∃ T, empty.run cutPyramids = .ok T ∧ T.Consistent ∧
    ∃ T' l, T.mrsJoin (fun _ => 1) 0 1 (some 0) = .ok (T', true) ∧ T'.mrFaces 0 = .ok l ∧ ¬ l.Nodup := by
  obtain ⟨T, h1, h2⟩ := reachable (os := cutPyramids) (by decide +kernel)
  have hq : answer cutPyramids (fun T => .ok (match T.mrsJoin (fun _ => 1) 0 1 (some 0) with
      | .ok (T', b) => b && decide (T'.mrFaces 0 = .ok [9,9,1,2,3,4,5,6,7,8])
      | _ => false)) = .ok true := by decide +kernel
  unfold answer at hq
  rw [h1, Res.bind_ok, Res.ok.injEq] at hq
  split at hq
  · rename_i T' b' he
    simp only [Bool.and_eq_true, decide_eq_true_iff] at hq
    obtain ⟨rfl, q⟩ := hq
    exact ⟨T, h1, h2, T', _, he, q, by decide⟩
  · cases hq

/-- **C53, what fails (2).**  Joining a region with itself uses it after it was freed. -/
theorem C53_negation_itself : ∃ T, empty.run twoPyramids = .ok T ∧ T.Consistent ∧
    T.sr 0 = .live ∧ T.mrsJoin (fun _ => 1) 0 0 none = .ub := by
  obtain ⟨T, h1, h2⟩ := reachable (os := twoPyramids) (by decide +kernel)
  have hq : answer twoPyramids (fun T => .ok (decide (T.sr 0 = .live) && match T.mrsJoin (fun _ => 1) 0 0 none with
      | .ub => true
      | _ => false)) = .ok true := by decide +kernel
  unfold answer at hq
  rw [h1, Res.bind_ok, Res.ok.injEq, Bool.and_eq_true, decide_eq_true_iff] at hq
  obtain ⟨a, hq⟩ := hq
  refine ⟨T, h1, h2, a, ?_⟩
  split at hq
  · assumption
  · cases hq

end Topo
end MSTK
