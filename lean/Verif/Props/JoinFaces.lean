import Verif.Props.SwapEdge

/-!
C52: joining two faces across a common edge (`MFs_Join`).

Specification: `Across` (the situation) and `FacesJoined` (the result).
-/
namespace MSTK
namespace Topo

/-- Edge `e` is the border between the faces `f0` and `f1` and belongs to no other face; `f0` goes along it
from `a` to `b`, then on through `ps` back to `a`, over the edges `xs`; `f1` goes along it from `b` to `a`,
then on through `qs` back to `b`, over the edges `ys`. -/
structure Across (T : Topo) (e f0 f1 a b : Nat) (ps qs : List Nat) (d : Bool) (xs ys : List (Nat × Bool)) : Prop where
  live : T.se e = .live
  leads : T.view.ends e = if d then (some a, some b) else (some b, some a)
  faces : ∀ f, T.FaceHas f e ↔ f = f0 ∨ f = f1
  two : f0 ≠ f1
  first : ∃ us, T.Loop f0 us ∧ us.Nodup ∧ us ~r (a :: b :: ps)
  first_edges : T.view.edges f0 ~r ((e, d) :: xs)
  second : ∃ us, T.Loop f1 us ∧ us.Nodup ∧ us ~r (b :: a :: qs)
  second_edges : T.view.edges f1 ~r ((e, !d) :: ys)
  once : e ∉ xs.map (·.1) ∧ e ∉ ys.map (·.1)

/-- The faces `f0` and `f1` and the edge `e` have made way for the new face `g`. -/
structure FacesJoined (T T' : Topo) (e f0 f1 a b : Nat) (ps qs : List Nat) (xs ys : List (Nat × Bool))
    (g : Nat) : Prop where
  consistent : T'.Consistent
  fresh : T.sf g = .unused
  vertices : T'.view.sv = T.view.sv
  edges : T'.view.se = upd T.view.se e .freed
  ends : T'.view.ends = T.view.ends
  faces : T'.view.sf = upd (upd (upd T.view.sf g .live) f0 .freed) f1 .freed
  bounded : T'.view.edges = upd T.view.edges g (xs ++ ys)
  loop : T'.Loop g (b :: ps ++ a :: qs)
  regions : T'.view.sr = T.view.sr ∧ T'.view.faces = T.view.faces ∧
    ∀ r, T'.mrElementType r = T.mrElementType r

/-! ### helpers -/

theorem rotate_of_once {α : Type} {l m : List α} {a : α} {k : Nat} (hr : l ~r a :: m) (hn : a ∉ m)
    (hk : l[k]? = some a) : l.rotate k = a :: m := by
  have hkl := (List.getElem?_eq_some_iff.1 hk).1
  obtain ⟨j, hj⟩ := hr
  have hj' : (a :: m).rotate (l.length - j % l.length) = l := by rw [← hj]; exact rotate_back l j
  generalize l.length - j % l.length = q at hj'
  have h0 : (l.rotate k)[0]? = some a := by
    rw [List.getElem?_rotate (by omega), Nat.zero_add, Nat.mod_eq_of_lt hkl, hk]
  rw [← hj', List.rotate_rotate] at h0 ⊢
  rw [List.getElem?_rotate (by simp), Nat.zero_add] at h0
  have e1 : (q + k) % (a :: m).length = 0 := by
    generalize (q + k) % (a :: m).length = z at h0
    match z with
    | 0 => rfl
    | z+1 => rw [List.getElem?_cons_succ] at h0; exact absurd (List.mem_of_getElem? h0) hn
  rw [rotate_add_mod (b := 0) (by rw [e1]; simp), List.rotate_zero]

theorem lastPos_ok (e : Nat) : ∀ (ps : List (Nat × Bool)) (i : Nat) (k : Option Nat),
    (e ∉ ps.map (·.1) → lastPos e ps i k = k) ∧
    ∀ (j : Nat) (d : Bool), ps[j]? = some (e, d) → (∀ (j' : Nat) (d' : Bool), ps[j']? = some (e, d') → j' = j) →
      lastPos e ps i k = some (i + j) := by
  intro ps
  induction ps with
  | nil => intro i k; exact ⟨fun _ => rfl, fun j d hj => by simp at hj⟩
  | cons p ps ih =>
    intro i k
    rw [show lastPos e (p :: ps) i k = lastPos e ps (i+1) (if p.1 = e then some i else k) from rfl]
    constructor
    · intro hn
      simp only [List.map_cons, List.mem_cons, not_or] at hn
      rw [if_neg (fun h => hn.1 h.symm)]
      exact (ih _ _).1 hn.2
    · intro j d hj huq
      match j with
      | 0 =>
        simp only [List.getElem?_cons_zero, Option.some.injEq] at hj
        subst hj
        rw [if_pos rfl, (ih _ _).1, Nat.add_zero]
        intro hc
        obtain ⟨⟨e', d'⟩, hm, he'⟩ := List.mem_map.1 hc
        obtain ⟨z, hz⟩ := List.mem_iff_getElem?.1 hm
        simp only at he'
        subst he'
        have := huq (z+1) d' (by rw [List.getElem?_cons_succ]; exact hz)
        omega
      | j+1 =>
        rw [List.getElem?_cons_succ] at hj
        have := (ih (i+1) (if p.1 = e then some i else k)).2 j d hj (by
          intro j' d' hj'
          have := huq (j'+1) d' (by rw [List.getElem?_cons_succ]; exact hj')
          omega)
        rw [this]; congr 1; omega

theorem afterPos_ok {ps : List (Nat × Bool)} {k : Nat} (hk : k < ps.length) :
    afterPos ps k = (ps.rotate k).drop 1 := by
  have hg : ∀ i, ps[(k+1+i) % ps.length]? = some (ps[(k+1+i) % ps.length]'(Nat.mod_lt _ (by omega))) :=
    fun i => List.getElem?_eq_getElem _
  have h1 : afterPos ps k = (List.range (ps.length - 1)).map
      fun i => ps[(k+1+i) % ps.length]'(Nat.mod_lt _ (by omega)) := by
    unfold afterPos
    rw [← List.filterMap_eq_map]
    refine congrArg (fun f => List.filterMap f _) (funext fun i => ?_)
    exact hg i
  rw [h1]
  apply List.ext_getElem?
  intro i
  rw [List.getElem?_map, List.getElem?_drop]
  by_cases hi : i < ps.length - 1
  · rw [List.getElem?_range hi, List.getElem?_rotate (by omega), Option.map_some, ← hg i]
    congr 2; omega
  · rw [List.getElem?_eq_none (by simp; omega), List.getElem?_eq_none (by simp; omega)]; rfl

/-- the loop of a face starting at one of its edges, and where the edge is found -/
theorem startAt_ok {T : Topo} (h : T.Consistent) {f e a b : Nat} {d : Bool} {us vs : List Nat} {xs : List (Nat × Bool)}
    (hf : T.sf f = .live) (hloop : T.Loop f us) (hn : us.Nodup) (hu : us ~r (a :: b :: vs))
    (he : T.view.edges f ~r ((e, d) :: xs)) (ho : e ∉ xs.map (·.1)) (hlead : Leads T e d a b) :
    T.Closed ((e, d) :: xs) (a :: b :: vs) ∧ T.readFace f = .ok (T.edgesOf f) ∧
      ∃ k, lastPos e (T.edgesOf f) 0 none = some k ∧ afterPos (T.edgesOf f) k = xs := by
  obtain ⟨l, hfe, hes, hlen, -⟩ := hloop.stored (alloc_of_live hf)
  have hel := h.fedgesLive hf hfe
  have hcl := hloop.closed (alloc_of_live hf) hfe (fun e he => alloc_of_live (hel e he))
  have hv : T.edgesOf f = pairs l (fbit (T.fd f)) := edgesOf_some hfe
  have he : T.edgesOf f ~r ((e, d) :: xs) := he
  rw [← hv] at hcl
  have hul := hloop.size hf
  have hel' : (T.edgesOf f).length = us.length := by rw [hv, pairs_length, hlen]
  have hm : (e, d) ∈ T.edgesOf f := he.mem_iff.2 (by simp)
  obtain ⟨k, hk⟩ := List.mem_iff_getElem?.1 hm
  have hpr := rotate_of_once he (fun hc => ho (List.mem_map_of_mem (f := (·.1)) hc)) hk
  have hkl := (List.getElem?_eq_some_iff.1 hk).1
  have huk := List.getElem?_eq_getElem (l := us) (i := k) (by omega)
  have huk1 := List.getElem?_eq_getElem (l := us) (i := (k+1) % us.length) (Nat.mod_lt _ (by omega))
  have hL := hcl.2 k _ _ _ hk huk huk1
  obtain ⟨ha, -⟩ := hlead.inj hL
  rw [← ha] at huk
  have hnn := hu.nodup_iff.1 hn
  have hur := rotate_of_once hu (List.nodup_cons.1 hnn).1 huk
  have hc := hcl.rotate k
  rw [hpr, hur] at hc
  refine ⟨hc, readFace_ok (alloc_of_live hf) hfe (by omega), k, ?_, ?_⟩
  · rw [(lastPos_ok e _ 0 none).2 k d hk, Nat.zero_add]
    intro j d' hj
    have hjl := (List.getElem?_eq_some_iff.1 hj).1
    by_contra hjk
    obtain ⟨s, hs⟩ : ∃ s, (s + k) % (T.edgesOf f).length = j ∧ 0 < s ∧ s < (T.edgesOf f).length := by
      by_cases hlt : k < j
      · exact ⟨j - k, by rw [Nat.sub_add_cancel (by omega), Nat.mod_eq_of_lt hjl], by omega, by omega⟩
      · refine ⟨j + (T.edgesOf f).length - k, ?_, by omega, by omega⟩
        rw [Nat.sub_add_cancel (by omega), Nat.add_mod_right, Nat.mod_eq_of_lt hjl]
    have hr : ((T.edgesOf f).rotate k)[s]? = some (e, d') := by
      rw [List.getElem?_rotate hs.2.2, hs.1, hj]
    rw [hpr, show s = (s-1)+1 by omega, List.getElem?_cons_succ] at hr
    exact ho (List.mem_map_of_mem (f := (·.1)) (List.mem_of_getElem? hr))
  · rw [afterPos_ok hkl, hpr]; rfl

/-- two closed chains which go along the same edge in opposite directions make one without it -/
theorem Closed.join {T : Topo} {p q : Nat × Bool} {a b : Nat} {ps qs : List Nat} {xs ys : List (Nat × Bool)}
    (h0 : T.Closed (p :: xs) (a :: b :: ps)) (h1 : T.Closed (q :: ys) (b :: a :: qs)) :
    T.Closed (xs ++ ys) (b :: ps ++ a :: qs) := by
  have e0 := h0.1
  have e1 := h1.1
  simp only [List.length_cons] at e0 e1
  have := h0.splice (nold := 1) (new := ys) (ws := a :: qs ++ [b]) (by simp) (by omega) (by simp; omega) (by
    intro k r s t hr hs ht
    have hkl := (List.getElem?_eq_some_iff.1 hr).1
    refine h1.2 (k+1) r s t (by rw [List.getElem?_cons_succ]; exact hr) ?_ ?_
    · rw [List.getElem?_cons_succ]
      rwa [List.getElem?_append_left (by simp; omega)] at hs
    · by_cases hk : k + 1 < ys.length
      · rw [Nat.mod_eq_of_lt (by simp; omega), List.getElem?_cons_succ]
        rwa [List.getElem?_append_left (by simp; omega)] at ht
      · have hke : k + 1 = ys.length := by omega
        rw [show (k+1+1) % (b :: a :: qs).length = 0 by
          rw [show k+1+1 = (b :: a :: qs).length by simp; omega, Nat.mod_self]]
        rw [List.getElem?_append_right (by simp; omega)] at ht
        rw [show k + 1 - (a :: qs).length = 0 by simp; omega] at ht
        exact ht) rfl (by
    rw [List.getElem?_append_right (by simp; omega), show ys.length - (a :: qs).length = 0 by simp; omega]
    rw [show 1 % (a :: b :: ps).length = 1 by apply Nat.mod_eq_of_lt; simp]
    rfl)
  rw [List.dropLast_concat] at this
  have hr := this.rotate ys.length
  rw [List.drop_succ_cons, List.drop_zero, List.drop_succ_cons, List.drop_zero, List.rotate_append_length_eq,
    show ys.length = (a :: qs).length by simp; omega, List.rotate_append_length_eq] at hr
  exact hr

/-- **C52.**  In a surface mesh two faces with a common edge are joined: a new face takes their place, whose boundary is
that of both without the edge, gone round in the same direction; the edge and the two faces are deleted and nothing else
changes. -/
theorem C52_join_partial {T : Topo} (h : T.Consistent) (cls : Nat → Nat × Nat) {e f0 f1 a b : Nat} {ps qs : List Nat} {d : Bool}
    {xs ys : List (Nat × Bool)} (hd : T.Across e f0 f1 a b ps qs d xs ys)
    (hno : ∀ r, ¬ T.RegionHas r f0 ∧ ¬ T.RegionHas r f1) (hsmall : xs.length + ys.length ≤ 32) :
    ∃ T' g, T.mfsJoin cls f0 f1 e = .ok (T', some g) ∧ FacesJoined T T' e f0 f1 a b ps qs xs ys g := by
  obtain ⟨he, hends, hfaces, hne, ⟨us0, hu0, hn0, hu0'⟩, hp0, ⟨us1, hu1, hn1, hu1'⟩, hp1, ho0, ho1⟩ := hd
  have hf0 : T.sf f0 = .live := ((hfaces f0).2 (Or.inl rfl)).1
  have hf1 : T.sf f1 = .live := ((hfaces f1).2 (Or.inr rfl)).1
  have hLe : Leads T e d a b := hends
  obtain ⟨c0, q0, k0, i0, j0⟩ := startAt_ok h hf0 hu0 hn0 hu0' hp0 ho0 hLe
  obtain ⟨c1, q1, k1, i1, j1⟩ := startAt_ok h hf1 hu1 hn1 hu1' hp1 ho1 hLe.flip
  have hc := c0.join c1
  have hliv : ∀ {f : Nat} {us : List Nat} {x : Nat × Bool} {zs : List (Nat × Bool)}, T.sf f = .live → T.Loop f us →
      T.view.edges f ~r (x :: zs) → ∀ p ∈ zs, T.se p.1 = .live := by
    intro f us x zs hf hl hr p hp
    obtain ⟨l, hfe, -, -, -⟩ := hl.stored (alloc_of_live hf)
    have hv : T.view.edges f = pairs l (fbit (T.fd f)) := edgesOf_some hfe
    have hm : p ∈ T.view.edges f := hr.mem_iff.2 (List.mem_cons_of_mem _ hp)
    rw [hv] at hm
    have := List.mem_map_of_mem (f := (·.1)) hm
    rw [pairs_map_fst] at this
    exact h.fedgesLive hf hfe _ this
  -- the new face
  obtain ⟨T1, r1, h1, s1, -, s3, s4, s5, s6, s7, s8, s9, s10, s11, s12, -, s14, s15, -⟩ :=
    newFaceE_ok h (es := xs ++ ys) (by simp; omega) (by
      intro p hp
      rcases List.mem_append.1 hp with hp | hp
      · exact hliv hf0 hu0 hp0 p hp
      · exact hliv hf1 hu1 hp1 p hp)
  have hfu : T.sf T.nf = .unused := h.newF _ (Nat.le_refl _)
  have hg0 : f0 ≠ T.nf := by rintro rfl; rw [hfu] at hf0; cases hf0
  have hg1 : f1 ≠ T.nf := by rintro rfl; rw [hfu] at hf1; cases hf1
  -- the old faces and the edge
  have hnr : ∀ {f : Nat}, (∀ r, ¬ T.RegionHas r f) → ∀ r d, T1.sr r = .live → (f, d) ∉ facesOf T1.rf T1.rd r := by
    intro f hno r d hr hc
    rw [s9] at hr; rw [s10, s11] at hc
    exact hno r ((regionHas_iff h).2 ⟨hr, mem_facesOf_iff.2 ⟨d, hc⟩⟩)
  have hf0' : T1.sf f0 = .live := by rw [s5, upd_ne _ _ hg0]; exact hf0
  obtain ⟨T2, r2, h2⟩ := h1.delFace (k := false) (alloc_of_live hf0') (hnr fun r => (hno r).1)
  have w2 := mfDelete_ok (keep := false) hf0' (fun x hx => alloc_of_live (h1.ef.down f0 x hf0' hx))
  have hT2 := Res.ok.inj (r2.symm.trans w2)
  have hf1' : T2.sf f1 = .live := by rw [hT2]; dsimp only; rw [upd_ne _ _ (Ne.symm hne), s5, upd_ne _ _ hg1]; exact hf1
  obtain ⟨T3, r3, h3⟩ := h2.delFace (f := f1) (k := false) (alloc_of_live hf1') (by
    rw [hT2]; exact hnr fun r => (hno r).2)
  have w3 := mfDelete_ok (keep := false) hf1' (fun x hx => alloc_of_live (h2.ef.down f1 x hf1' hx))
  have hT3 := Res.ok.inj (r3.symm.trans w3)
  have he3 : T3.se e = .live := by rw [hT3, hT2]; show T1.se e = _; rw [s3]; exact he
  have hsf3 : T3.sf = upd (upd (upd T.sf T.nf .live) f0 .freed) f1 .freed := by rw [hT3, hT2, ← s5]; rfl
  have hfe3 : T3.fe = T1.fe := by rw [hT3, hT2]
  obtain ⟨T4, r4, h4⟩ := h3.delEdge (k := false) (alloc_of_live he3) (by
    intro f hf hb
    rw [hsf3] at hf
    have hne1 : f ≠ f1 := by rintro rfl; rw [upd_same] at hf; cases hf
    rw [upd_ne _ _ hne1] at hf
    have hne0 : f ≠ f0 := by rintro rfl; rw [upd_same] at hf; cases hf
    rw [upd_ne _ _ hne0] at hf
    rw [hfe3] at hb
    by_cases hfn : f = T.nf
    · subst hfn
      unfold bounds at hb
      rw [s6, upd_same] at hb
      simp only [Option.getD_some, List.map_append, List.mem_append] at hb
      rcases hb with hb | hb
      · exact ho0 hb
      · exact ho1 hb
    · rw [upd_ne _ _ hfn] at hf
      have hb' : bounds T.fe f e := by unfold bounds at hb ⊢; rwa [s6, upd_ne _ _ hfn] at hb
      rcases (hfaces f).1 ((h.mem_ef he).1 ((h.ef.mem e (alloc_of_live he) f).2 ⟨hf, hb'⟩)) with hc | hc
      · exact hne0 hc
      · exact hne1 hc)
  have w4 := meDelete_ok (keep := false) he3 (fun v hv => alloc_of_live (h3.ve.down e v he3 hv))
  have hT4 := Res.ok.inj (r4.symm.trans w4)
  have hsv4 : T4.sv = T.sv := by rw [← s1, hT4, hT3, hT2]
  have hse4 : T4.se = upd T.se e .freed := by rw [← s3, hT4, hT3, hT2]; rfl
  have hev4 : T4.ev = T.ev := by rw [← s4, hT4, hT3, hT2]
  have hsf4 : T4.sf = upd (upd (upd T.sf T.nf .live) f0 .freed) f1 .freed := by rw [← hsf3, hT4]
  have hfe4 : T4.fe = T1.fe := by rw [hT4, hT3, hT2]
  have hed4 : T4.edgesOf = upd T.edgesOf T.nf (xs ++ ys) := by
    rw [← s7]; funext f; unfold edgesOf; rw [hT4, hT3, hT2]
  have hsr4 : T4.sr = T.sr := by rw [← s9, hT4, hT3, hT2]
  have hrf4 : T4.rf = T.rf := by rw [← s10, hT4, hT3, hT2]
  have hrd4 : T4.rd = T.rd := by rw [← s11, hT4, hT3, hT2]
  have hrt4 : T4.rt = T.rt := by rw [← s12, hT4, hT3, hT2]
  have hfn4 : T4.sf T.nf = .live := by rw [hsf4, upd_ne _ _ (Ne.symm hg1), upd_ne _ _ (Ne.symm hg0), upd_same]
  have hfen : T4.fe T.nf = some ((xs ++ ys).map (·.1)) := by rw [hfe4, s6, upd_same]
  refine ⟨T4, T.nf, ?_, h4, hfu, hsv4, hse4, hev4, hsf4, hed4, ?_, hsr4, ?_, ?_⟩
  · have hreg : ∀ {f : Nat}, T.sf f = .live → (∀ r, ¬ T.RegionHas r f) → ∃ L, T.mfRegions f = .ok L ∧ L.getD [] = [] := by
      intro f hf hn
      obtain ⟨L, g1, -, g3⟩ := C22_face_regions h hf
      exact ⟨L, g1, List.eq_nil_iff_forall_not_mem.2 fun r hr => hn r ((g3 r).1 hr)⟩
    obtain ⟨L0, m0, z0⟩ := hreg hf0 fun r => (hno r).1
    obtain ⟨L1, m1, z1⟩ := hreg hf1 fun r => (hno r).2
    unfold mfsJoin
    rw [derefF_ok (alloc_of_live hf0), Res.bind_ok, derefF_ok (alloc_of_live hf1), Res.bind_ok, if_neg (by simp),
      m0, Res.bind_ok, m1, Res.bind_ok]
    dsimp only
    rw [z0, z1, if_neg (by simp), q0, Res.bind_ok, q1, Res.bind_ok, i0, i1]
    dsimp only
    rw [j0, j1, show T.mfNew.2 = T.nf from rfl, r1, Res.bind_ok]
    rw [show joinInRegion f0 f1 T.nf ([] : List Nat)[0]? T1 = .ok T1 from rfl, Res.bind_ok,
      show joinInRegion f0 f1 T.nf ([] : List Nat)[1]? T1 = .ok T1 from rfl, Res.bind_ok,
      r2, Res.bind_ok, r3, Res.bind_ok, r4, Res.bind_ok]
    rfl
  · refine Closed.loop (alloc_of_live hfn4) hfen (fun x hx => alloc_of_live (h4.fedgesLive hfn4 hfen x hx))
      (by simp; omega) ?_
    rw [← edgesOf_some hfen, hed4, upd_same]
    exact hc.congr hev4
  · show facesOf T4.rf T4.rd = facesOf T.rf T.rd; rw [hrf4, hrd4]
  · intro r; unfold mrElementType derefR; rw [hsr4, hrt4]

/-- **C52, refusals.**  One of the faces does not have the edge. -/
theorem C52_refused {T : Topo} (h : T.Consistent) (cls : Nat → Nat × Nat) {e f0 f1 : Nat} {us0 us1 : List Nat}
    (hf0 : T.sf f0 = .live) (hf1 : T.sf f1 = .live) (hu0 : T.Loop f0 us0) (hu1 : T.Loop f1 us1)
    (hno : ¬ T.FaceHas f0 e ∨ ¬ T.FaceHas f1 e) :
    T.mfsJoin cls f0 f1 e = .ok (T, none) := by
  have key : ∀ {f : Nat} {us : List Nat}, T.sf f = .live → T.Loop f us → T.readFace f = .ok (T.edgesOf f) ∧
      (¬ T.FaceHas f e → lastPos e (T.edgesOf f) 0 none = none) := by
    intro f us hf hl
    obtain ⟨l, hfe, hes, hlen, -⟩ := hl.stored (alloc_of_live hf)
    have hul := hl.size hf
    refine ⟨readFace_ok (alloc_of_live hf) hfe (by omega), fun hn => (lastPos_ok e _ 0 none).1 ?_⟩
    rw [edgesOf_some hfe, pairs_map_fst]
    exact fun hc => hn ⟨hf, l, hes, hc⟩
  obtain ⟨q0, n0⟩ := key hf0 hu0
  obtain ⟨q1, n1⟩ := key hf1 hu1
  obtain ⟨L0, m0, -⟩ := C22_face_regions h hf0
  obtain ⟨L1, m1, -⟩ := C22_face_regions h hf1
  unfold mfsJoin
  rw [derefF_ok (alloc_of_live hf0), Res.bind_ok, derefF_ok (alloc_of_live hf1), Res.bind_ok, if_neg (by simp),
    m0, Res.bind_ok, m1, Res.bind_ok]
  dsimp only
  split
  · rfl
  · rw [q0, Res.bind_ok, q1, Res.bind_ok]
    rcases hno with hn | hn
    · rw [n0 hn]; rfl
    · rw [n1 hn]
      cases lastPos e (T.edgesOf f0) 0 none <;> rfl

/-- **C52, refusals.**  The faces lie between different regions. -/
theorem C52_refused_regions {T : Topo} (h : T.Consistent) (cls : Nat → Nat × Nat) {e f0 f1 r : Nat}
    (hf0 : T.sf f0 = .live) (hf1 : T.sf f1 = .live) (hno : ¬ (T.RegionHas r f0 ↔ T.RegionHas r f1)) :
    T.mfsJoin cls f0 f1 e = .ok (T, none) := by
  obtain ⟨L0, m0, -, k0⟩ := C22_face_regions h hf0
  obtain ⟨L1, m1, -, k1⟩ := C22_face_regions h hf1
  have hsz : ∀ {f : Nat} {L : Option (List Nat)}, T.sf f = .live → T.mfRegions f = .ok L → (L.getD []).length ≤ 2 := by
    intro f L hf hL
    have : T.mfRegions f = .ok (orNull ((T.fr f).1.toList ++ (T.fr f).2.toList)) := by
      unfold mfRegions; rw [derefF_ok (alloc_of_live hf)]; rfl
    rw [this] at hL
    cases hL
    rw [orNull_getD]
    rcases T.fr f with ⟨a, b⟩
    cases a <;> cases b <;> simp
  have s0 := hsz hf0 m0
  have s1 := hsz hf1 m1
  unfold mfsJoin
  rw [derefF_ok (alloc_of_live hf0), Res.bind_ok, derefF_ok (alloc_of_live hf1), Res.bind_ok, if_neg (by simp),
    m0, Res.bind_ok, m1, Res.bind_ok]
  dsimp only
  rw [if_pos]
  · rfl
  · by_contra hc
    simp only [ne_eq, not_or, not_not] at hc
    have : L0.getD [] = L1.getD [] := by
      apply List.ext_getElem?
      intro i
      match i with
      | 0 => exact hc.1
      | 1 => exact hc.2
      | i+2 => rw [List.getElem?_eq_none (by omega), List.getElem?_eq_none (by omega)]
    exact hno (by rw [← k0, ← k1, this])

/-! ### examples -/

/-- The two triangles become a quadrilateral, although they lie on different model faces.
(**C52, what fails**: the documented refusal of faces on different model entities never happens.) -/
theorem C52_negation_class : ∃ T, empty.run rhombus = .ok T ∧ T.Consistent ∧
    T.Across 1 0 1 1 2 [0] [3] true [(2, true), (0, true)] [(3, true), (4, true)] ∧
    (∀ r, ¬ T.RegionHas r 0 ∧ ¬ T.RegionHas r 1) ∧
    ∃ T', T.mfsJoin (fun f => (2, f)) 0 1 1 = .ok (T', some 2) ∧
      T'.mfVertices 2 true none = .ok [some 2, some 0, some 1, some 3] := by
  obtain ⟨T, h1, h2⟩ := reachable (os := rhombus) (by decide +kernel)
  have hq : answer rhombus (fun T => .ok (decide (T.se 1 = .live) && decide (T.ev 1 = (some 1, some 2)) &&
      decide (T.ef 1 = [0,1]) && T.loopB 0 [0,1,2] && T.loopB 1 [1,3,2] &&
      decide (T.edgesOf 0 = [(0,true),(1,true),(2,true)]) && decide (T.edgesOf 1 = [(3,true),(4,true),(1,false)]) &&
      decide (T.nr = 0) &&
      match T.mfsJoin (fun f => (2, f)) 0 1 1 with
      | .ok (T', b) => decide (b = some 2) && decide (T'.mfVertices 2 true none = .ok [some 2, some 0, some 1, some 3])
      | _ => false)) = .ok true := by decide +kernel
  unfold answer at hq
  rw [h1, Res.bind_ok, Res.ok.injEq] at hq
  simp only [Bool.and_eq_true, decide_eq_true_iff] at hq
  obtain ⟨⟨⟨⟨⟨⟨⟨⟨a, b⟩, c⟩, d⟩, e⟩, f⟩, g⟩, i⟩, q⟩ := hq
  refine ⟨T, h1, h2, ⟨a, b, ?_, by decide, ⟨_, loopB_sound d, by decide, 1, by decide⟩, ⟨1, ?_⟩,
    ⟨_, loopB_sound e, by decide, 2, by decide⟩, ⟨2, ?_⟩, by decide⟩, ?_, ?_⟩
  · intro x; rw [← h2.mem_ef a, c]; simp
  · show (T.edgesOf 0).rotate 1 = _; rw [f]; rfl
  · show (T.edgesOf 1).rotate 2 = _; rw [g]; rfl
  · intro r
    have : T.sr r = .unused := h2.newR r (by omega)
    exact ⟨fun hr => by have := hr.1; simp_all, fun hr => by have := hr.1; simp_all⟩
  · split at q
    · rename_i T' b' he
      simp only [Bool.and_eq_true, decide_eq_true_iff] at q
      obtain ⟨rfl, q1⟩ := q
      exact ⟨T', he, q1⟩
    · cases q

/-- a tetrahedron; faces 0, 1 and 3 point inwards -/
def inwardTet : List Op :=
  [.newVertex, .newVertex, .newVertex, .newVertex,
   .newFace, .setVertices 0 [0,1,2],
   .newFace, .setVertices 1 [1,0,3], .newFace, .setVertices 2 [1,2,3], .newFace, .setVertices 3 [0,2,3],
   .newRegion, .setFaces 0 [(0,false),(1,false),(2,true),(3,false)]]

/-- **C52, what fails.**  When the faces bound a region, joining them changes the side another face of the region thinks
the region is on, while the region still uses it in the same direction. -/
theorem C52_negation_region : ∃ T, empty.run inwardTet = .ok T ∧ T.Consistent ∧
    T.mrFaceDir 0 2 = .ok (some true) ∧ T.mfRegion 2 false = .ok (some 0) ∧
    ∃ T', T.mfsJoin (fun _ => (2,1)) 0 1 0 = .ok (T', some 4) ∧
      T'.mrFaceDir 0 2 = .ok (some true) ∧ T'.mfRegion 2 false = .ok none := by
  obtain ⟨T, h1, h2⟩ := reachable (os := inwardTet) (by decide +kernel)
  have hq : answer inwardTet (fun T => .ok (decide (T.mrFaceDir 0 2 = .ok (some true)) &&
      decide (T.mfRegion 2 false = .ok (some 0)) &&
      match T.mfsJoin (fun _ => (2,1)) 0 1 0 with
      | .ok (T', b) => decide (b = some 4) && decide (T'.mrFaceDir 0 2 = .ok (some true)) &&
        decide (T'.mfRegion 2 false = .ok none)
      | _ => false)) = .ok true := by decide +kernel
  unfold answer at hq
  rw [h1, Res.bind_ok, Res.ok.injEq] at hq
  simp only [Bool.and_eq_true, decide_eq_true_iff] at hq
  obtain ⟨⟨a, b⟩, q⟩ := hq
  refine ⟨T, h1, h2, a, b, ?_⟩
  split at q
  · rename_i T' b' he
    simp only [Bool.and_eq_true, decide_eq_true_iff] at q
    obtain ⟨⟨rfl, q1⟩, q2⟩ := q
    exact ⟨T', he, q1, q2⟩
  · cases q

/-- **C54, what fails.**  An edge of a tetrahedron has two faces and may be classified on a model face; swapping it
leaves a region whose faces are gone. -/
theorem C54_negation_region : ∃ T, empty.run inwardTet = .ok T ∧ T.Consistent ∧ T.sr 0 = .live ∧
    ∃ T', T.meSwap2D 2 0 = .ok (T', some (6, 4, 5)) ∧ T'.sr 0 = .live ∧ T'.mrFaces 0 = .ok [0,1,2,3] ∧
      T'.sf 0 = .freed ∧ T'.sf 1 = .freed := by
  obtain ⟨T, h1, h2⟩ := reachable (os := inwardTet) (by decide +kernel)
  have hq : answer inwardTet (fun T => .ok (decide (T.sr 0 = .live) &&
      match T.meSwap2D 2 0 with
      | .ok (T', b) => decide (b = some (6,4,5)) && decide (T'.sr 0 = .live) &&
        decide (T'.mrFaces 0 = .ok [0,1,2,3]) && decide (T'.sf 0 = .freed) && decide (T'.sf 1 = .freed)
      | _ => false)) = .ok true := by decide +kernel
  unfold answer at hq
  rw [h1, Res.bind_ok, Res.ok.injEq] at hq
  simp only [Bool.and_eq_true, decide_eq_true_iff] at hq
  obtain ⟨a, q⟩ := hq
  refine ⟨T, h1, h2, a, ?_⟩
  split at q
  · rename_i T' b' he
    simp only [Bool.and_eq_true, decide_eq_true_iff] at q
    obtain ⟨⟨⟨⟨rfl, q1⟩, q2⟩, q3⟩, q4⟩ := q
    exact ⟨T', he, q1, q2, q3, q4⟩
  · cases q

end Topo
end MSTK
