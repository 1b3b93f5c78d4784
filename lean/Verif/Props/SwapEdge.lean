import Verif.Props.MergeEdges

/-!
C54: swapping the diagonal of two triangles (`ME_Swap2D`).

Specification: `Diagonal` (the situation) and `Swapped` (the result).
-/
namespace MSTK
namespace Topo

/-- Edge `e` from `v0` to `v1` is the diagonal of the quadrilateral of exactly two triangles: `f0`
goes round `v0`, `v1`, `v3` and uses the edges `e`, `x0`, `x1` (with their directions); `f1`, on the
other side, goes round `v1`, `v0`, `v2` and uses `e`, `x2`, `x3`. -/
structure Diagonal (T : Topo) (e f0 f1 v0 v1 v2 v3 : Nat) (x0 x1 x2 x3 : Nat × Bool) : Prop where
  live : T.se e = .live
  ends : T.view.ends e = (some v0, some v1)
  faces : ∀ f, T.FaceHas f e ↔ f = f0 ∨ f = f1
  two : f0 ≠ f1
  first : ∃ us, T.Loop f0 us ∧ us ~r [v0, v1, v3]
  first_edges : T.view.edges f0 ~r [(e, true), x0, x1]
  second : ∃ us, T.Loop f1 us ∧ us ~r [v1, v0, v2]
  second_edges : T.view.edges f1 ~r [(e, false), x2, x3]
  distinct : [v0, v1, v2, v3].Nodup

/-- The diagonal `e` was exchanged for the new edge `e'` from `v2` to `v3`. -/
structure Swapped (T T' : Topo) (e f0 f1 v0 v1 v2 v3 : Nat) (x0 x1 x2 x3 : Nat × Bool)
    (e' g0 g1 : Nat) : Prop where
  consistent : T'.Consistent
  fresh : T.se e' = .unused ∧ T.sf g0 = .unused ∧ T.sf g1 = .unused ∧ g0 ≠ g1
  vertices : T'.view.sv = T.view.sv
  edges : T'.view.se = upd (upd T.view.se e .freed) e' .live
  ends : T'.view.ends = upd T.view.ends e' (some v2, some v3)
  faces : T'.view.sf = upd (upd (upd (upd T.view.sf f0 .freed) f1 .freed) g0 .live) g1 .live
  /-- the new triangles have the four outer edges, used in the same directions as before -/
  bounded : T'.view.edges = upd (upd T.view.edges g0 [(e', true), x1, x2]) g1 [(e', false), x3, x0]
  first : T'.Loop g0 [v2, v3, v0]
  second : T'.Loop g1 [v3, v2, v1]
  regions : T'.view.sr = T.view.sr ∧ T'.view.faces = T.view.faces ∧
    ∀ r, T'.mrElementType r = T.mrElementType r

/-! ### helpers -/

theorem rotate_of_head {α : Type} {l m : List α} {a : α} {k : Nat} (hr : l ~r a :: m) (hn : (a :: m).Nodup)
    (hk : l[k]? = some a) : l.rotate k = a :: m := by
  have hlen := hr.perm.length_eq
  have hkl := (List.getElem?_eq_some_iff.1 hk).1
  obtain ⟨j, hj⟩ := hr
  have hj' : (a :: m).rotate (l.length - j % l.length) = l := by rw [← hj]; exact rotate_back l j
  generalize l.length - j % l.length = q at hj'
  have h0 : (l.rotate k)[0]? = some a := by
    rw [List.getElem?_rotate (by omega), Nat.zero_add, Nat.mod_eq_of_lt hkl, hk]
  rw [← hj', List.rotate_rotate] at h0 ⊢
  rw [List.getElem?_rotate (by simp), Nat.zero_add] at h0
  have hz : (a :: m)[0]? = some a := rfl
  have e1 := (List.getElem?_inj (Nat.mod_lt _ (by simp)) hn).1 (h0.trans hz.symm)
  rw [rotate_add_mod (b := 0) (by rw [e1]; simp), List.rotate_zero]

/-- a triangle seen from one of its edges -/
theorem corner_ok {T : Topo} (h : T.Consistent) {f e a b c : Nat} {d : Bool} {y z : Nat × Bool} {us : List Nat}
    (hf : T.sf f = .live) (hloop : T.Loop f us) (hu : us ~r [a, b, c]) (hn : [a, b, c].Nodup)
    (he : T.view.edges f ~r [(e, d), y, z]) (hlead : Leads T e d a b) :
    T.mfEdges f true (some a) = .ok [e, y.1, z.1] ∧ Leads T y.1 y.2 b c ∧ Leads T z.1 z.2 c a ∧
      T.se e = .live ∧ T.se y.1 = .live ∧ T.se z.1 = .live ∧ e ≠ y.1 ∧ e ≠ z.1 := by
  obtain ⟨l, hfe, hes, hlen, -⟩ := hloop.stored (alloc_of_live hf)
  have hel := h.fedgesLive hf hfe
  have hun : us.Nodup := hu.nodup_iff.2 hn
  have hul : us.length = 3 := hu.perm.length_eq
  have hcl := hloop.closed (alloc_of_live hf) hfe (fun e he => alloc_of_live (hel e he))
  have hv : T.view.edges f = pairs l (fbit (T.fd f)) := edgesOf_some hfe
  rw [hv] at he
  have hpn := hcl.nodup hun
  have hm : (e, d) ∈ pairs l (fbit (T.fd f)) := he.mem_iff.2 (by simp)
  obtain ⟨k, hk⟩ := List.mem_iff_getElem?.1 hm
  have hpr := rotate_of_head he (he.nodup_iff.1 hpn) hk
  have hkl := (List.getElem?_eq_some_iff.1 hk).1
  rw [pairs_length] at hkl
  have huk := List.getElem?_eq_getElem (l := us) (i := k) (by omega)
  have huk1 := List.getElem?_eq_getElem (l := us) (i := (k+1) % us.length) (Nat.mod_lt _ (by omega))
  have hL := hcl.2 k _ _ _ hk huk huk1
  obtain ⟨ha, -⟩ := hlead.inj hL
  rw [← ha] at huk
  have hur := rotate_of_head hu hn huk
  have hc := hcl.rotate k
  rw [hpr, hur] at hc
  have hlr : l.rotate k = [e, y.1, z.1] := by
    have := congrArg (List.map (·.1)) hpr
    rw [map_fst_rotate, pairs_map_fst] at this
    exact this
  have hmem : ∀ x ∈ [e, y.1, z.1], T.se x = .live := by
    intro x hx
    rw [← hlr] at hx
    exact hel x (List.mem_rotate.1 hx)
  have hy := hc.2 1 y b c rfl rfl (by simp)
  have hz := hc.2 2 z c a rfl rfl (by simp)
  simp only [List.nodup_cons, List.mem_cons, List.not_mem_nil, or_false, not_or] at hn
  have hends : ∀ {p : Nat × Bool} {s t : Nat}, Leads T p.1 p.2 s t → p.1 = e →
      (s = a ∧ t = b) ∨ (s = b ∧ t = a) := by
    intro p s t hp hpe
    rw [hpe] at hp
    by_cases hd : p.2 = d
    · rw [hd] at hp; obtain ⟨q1, q2⟩ := hp.inj hlead; exact Or.inl ⟨q1, q2⟩
    · have : p.2 = !d := by revert hd; cases p.2 <;> cases d <;> simp
      rw [this] at hp; obtain ⟨q1, q2⟩ := hp.inj hlead.flip; exact Or.inr ⟨q1, q2⟩
  refine ⟨?_, hy, hz, hmem e (by simp), hmem _ (by simp), hmem _ (by simp), ?_, ?_⟩
  · have := (C23_edges_from hf hloop hun hes true a).1 k huk
    rw [this, if_pos rfl, hlr]
  · intro hx
    rcases hends hy hx.symm with ⟨q, -⟩ | ⟨-, q⟩
    · exact hn.1.1 q.symm
    · exact hn.1.2 q.symm
  · intro hx
    rcases hends hz hx.symm with ⟨q, -⟩ | ⟨q, -⟩
    · exact hn.1.2 q.symm
    · exact hn.2.1 q.symm

theorem otherEnd_ok {T : Topo} {x a b : Nat} {d i : Bool} (he : T.se x = .live) (hl : Leads T x d a b) (hab : a ≠ b) :
    T.otherEnd x i (some a) = .ok (some b) ∧ T.otherEnd x i (some b) = .ok (some a) := by
  unfold otherEnd
  rw [meVertex_ok (alloc_of_live he), meVertex_ok (alloc_of_live he), Res.bind_ok]
  unfold Leads at hl
  rw [hl]
  cases d <;> cases i <;> simp [endAt, hab, Ne.symm hab]

theorem dir_ok {T : Topo} {x a b : Nat} {d : Bool} (hl : Leads T x d a b) (hab : a ≠ b) :
    decide (endAt (T.ev x) false = some a) = d := by
  unfold Leads at hl
  rw [hl]
  cases d <;> simp [endAt, Ne.symm hab]

/-- **C54.**  In a surface mesh the diagonal of two triangles that go round the same way is exchanged for the
other one: a new edge and two new triangles take the place of the old ones, nothing else changes. -/
theorem C54_swap_partial {T : Topo} (h : T.Consistent) {e f0 f1 v0 v1 v2 v3 : Nat} {x0 x1 x2 x3 : Nat × Bool}
    (hd : T.Diagonal e f0 f1 v0 v1 v2 v3 x0 x1 x2 x3)
    (hno : ∀ r, ¬ T.RegionHas r f0 ∧ ¬ T.RegionHas r f1) :
    ∃ T' e' g0 g1, T.meSwap2D 2 e = .ok (T', some (e', g0, g1)) ∧
      Swapped T T' e f0 f1 v0 v1 v2 v3 x0 x1 x2 x3 e' g0 g1 := by
  obtain ⟨he, hends, hfaces, hne, ⟨us0, hu0, hu0'⟩, hp0, ⟨us1, hu1, hu1'⟩, hp1, hdist⟩ := hd
  have hends : T.ev e = (some v0, some v1) := hends
  simp only [List.nodup_cons, List.mem_cons, List.not_mem_nil, or_false, not_or, not_false_eq_true, and_true,
    List.nodup_nil] at hdist
  obtain ⟨⟨d01, d02, d03⟩, ⟨d12, d13⟩, d23⟩ := hdist
  have hf0 : T.sf f0 = .live := ((hfaces f0).2 (Or.inl rfl)).1
  have hf1 : T.sf f1 = .live := ((hfaces f1).2 (Or.inr rfl)).1
  have hLe : Leads T e true v0 v1 := hends
  have hLe' : Leads T e false v1 v0 := hends
  obtain ⟨m0, la0, la1, -, lx0, lx1, ex0, ex1⟩ := corner_ok h hf0 hu0 hu0'
    (by simp [d01, d03, d13]) hp0 hLe
  obtain ⟨m1, la2, la3, -, lx2, lx3, ex2, ex3⟩ := corner_ok h hf1 hu1 hu1'
    (by simp [Ne.symm d01, d12, d02]) hp1 hLe'
  have hvl0 : ∀ v ∈ us0, T.sv v = .live := hu0.live h hf0
  have hvl1 : ∀ v ∈ us1, T.sv v = .live := hu1.live h hf1
  have hv3 : T.sv v3 = .live := hvl0 _ (hu0'.mem_iff.2 (by simp))
  have hv2 : T.sv v2 = .live := hvl1 _ (hu1'.mem_iff.2 (by simp))
  -- the two faces of the edge
  obtain ⟨L, g1, g2⟩ := meFaces_ok (alloc_of_live he)
  have hLn : (L.getD []).Nodup := by rw [g2]; exact h.ef.nodup e (alloc_of_live he)
  have hLm : ∀ f, f ∈ L.getD [] ↔ f = f0 ∨ f = f1 := by
    intro f; rw [g2, h.mem_ef he]; exact hfaces f
  have hLp : (L.getD []).Perm [f0, f1] := by
    rw [List.perm_ext_iff_of_nodup hLn (by simp [hne])]
    intro f; rw [hLm f]; simp
  have hLs : ∃ fs, L = some fs ∧ (fs = [f0, f1] ∨ fs = [f1, f0]) := by
    cases L with
    | none => have := hLp.length_eq; simp at this
    | some fs =>
      refine ⟨fs, rfl, ?_⟩
      simp only [Option.getD_some] at hLp
      match fs, hLp with
      | [a, b], hLp =>
        have ha := hLp.mem_iff (a := a)
        have hb := hLp.mem_iff (a := b)
        have hn := hLp.nodup_iff.2 (by simp [hne])
        simp only [List.mem_cons, List.not_mem_nil, or_false, true_or, or_true, true_iff, List.nodup_cons,
          not_false_eq_true, and_true, List.nodup_nil] at ha hb hn
        rcases ha with rfl | rfl <;> rcases hb with rfl | rfl
        · exact absurd rfl hn
        · exact Or.inl rfl
        · exact Or.inr rfl
        · exact absurd rfl hn
      | [], hLp => have := hLp.length_eq; simp at this
      | [_], hLp => have := hLp.length_eq; simp at this
      | _ :: _ :: _ :: _, hLp => have := hLp.length_eq; simp at this
  obtain ⟨fs, rfl, hfs⟩ := hLs
  have hdir : ∀ {f : Nat} {d : Bool} {us : List Nat} {y z : Nat × Bool}, T.sf f = .live → T.Loop f us →
      T.view.edges f ~r [(e, d), y, z] → e ≠ y.1 → e ≠ z.1 → y.1 ≠ z.1 → us.length = 3 → T.mfEdgeDir f e = .ok d := by
    intro f d us y z hf hloop hp n1 n2 n3 hul
    obtain ⟨l, hfe, -, hlen, -⟩ := hloop.stored (alloc_of_live hf)
    have hv : T.view.edges f = pairs l (fbit (T.fd f)) := edgesOf_some hfe
    rw [hv] at hp
    have hln : l.Nodup := by
      have := hp.perm.map (·.1)
      rw [pairs_map_fst] at this
      exact this.nodup_iff.2 (by simp [n1, n2, n3])
    rw [mfEdgeDir_iff (alloc_of_live hf) hfe hln (by omega)]
    exact hp.mem_iff.2 (by simp)
  have hne01 : x0.1 ≠ x1.1 := by
    intro hc
    unfold Leads at la0 la1
    rw [hc, la1] at la0
    revert la0
    cases x0.2 <;> cases x1.2 <;> simp <;> omega
  have hne23 : x2.1 ≠ x3.1 := by
    intro hc
    unfold Leads at la2 la3
    rw [hc, la3] at la2
    revert la2
    cases x2.2 <;> cases x3.2 <;> simp <;> omega
  have q0 := hdir hf0 hu0 hp0 ex0 ex1 hne01 hu0'.perm.length_eq
  have q1 := hdir hf1 hu1 hp1 ex2 ex3 hne23 hu1'.perm.length_eq
  -- the old configuration is deleted
  have hnr : ∀ {f : Nat}, (∀ r, ¬ T.RegionHas r f) → ∀ r d, T.sr r = .live → (f, d) ∉ facesOf T.rf T.rd r :=
    fun hno r d hr hc => hno r ((regionHas_iff h).2 ⟨hr, mem_facesOf_iff.2 ⟨d, hc⟩⟩)
  obtain ⟨T1, r1, h1⟩ := h.delFace (k := false) (alloc_of_live hf0) (hnr fun r => (hno r).1)
  have w1 := mfDelete_ok (keep := false) hf0 (fun x hx => alloc_of_live (h.ef.down f0 x hf0 hx))
  have hT1 := Res.ok.inj (r1.symm.trans w1)
  have hf1' : T1.sf f1 = .live := by rw [hT1]; dsimp only; rw [upd_ne _ _ (Ne.symm hne)]; exact hf1
  obtain ⟨T2, r2, h2⟩ := h1.delFace (f := f1) (k := false) (alloc_of_live hf1') (by
    rw [hT1]; exact hnr fun r => (hno r).2)
  have w2 := mfDelete_ok (keep := false) hf1' (fun x hx => alloc_of_live (h1.ef.down f1 x hf1' hx))
  have hT2 := Res.ok.inj (r2.symm.trans w2)
  have he2 : T2.se e = .live := by rw [hT2, hT1]; exact he
  have hsf2 : T2.sf = upd (upd T.sf f0 .freed) f1 .freed := by rw [hT2, hT1]; rfl
  obtain ⟨T3, r3, h3⟩ := h2.delEdge (k := false) (alloc_of_live he2) (by
    intro f hf hb
    rw [hsf2] at hf
    have hne1 : f ≠ f1 := by rintro rfl; rw [upd_same] at hf; cases hf
    rw [upd_ne _ _ hne1] at hf
    have hne0 : f ≠ f0 := by rintro rfl; rw [upd_same] at hf; cases hf
    rw [upd_ne _ _ hne0] at hf
    have hb' : bounds T.fe f e := by rw [hT2, hT1] at hb; exact hb
    have := (hfaces f).1 ((h.mem_ef he).1 ((h.ef.mem e (alloc_of_live he) f).2 ⟨hf, hb'⟩))
    rcases this with hc | hc
    · exact hne0 hc
    · exact hne1 hc)
  have w3 := meDelete_ok (keep := false) he2 (fun v hv => alloc_of_live (h2.ve.down e v he2 hv))
  have hT3 := Res.ok.inj (r3.symm.trans w3)
  have hsv3 : T3.sv = T.sv := by rw [hT3, hT2, hT1]
  have hse3 : T3.se = upd T.se e .freed := by rw [hT3, hT2, hT1]; rfl
  have hev3 : T3.ev = T.ev := by rw [hT3, hT2, hT1]
  have hsf3 : T3.sf = upd (upd T.sf f0 .freed) f1 .freed := by rw [hT3]; exact hsf2
  have hed3 : T3.edgesOf = T.edgesOf := by funext f; unfold edgesOf; rw [hT3, hT2, hT1]
  have hsr3 : T3.sr = T.sr := by rw [hT3, hT2, hT1]
  have hrf3 : T3.rf = T.rf := by rw [hT3, hT2, hT1]
  have hrd3 : T3.rd = T.rd := by rw [hT3, hT2, hT1]
  have hrt3 : T3.rt = T.rt := by rw [hT3, hT2, hT1]
  have hn3e : T3.ne = T.ne := by rw [hT3, hT2, hT1]
  have hn3f : T3.nf = T.nf := by rw [hT3, hT2, hT1]
  -- the new edge
  obtain ⟨T4, T5, r4, r5, h5, s1, s2, s3, s4, s5, s6, -, s8, s9, s10, s11, -, s13, s14, -⟩ :=
    newEdge_fields h3 (a := v2) (b := v3) (by rw [hsv3]; exact hv2) (by rw [hsv3]; exact hv3)
  have heu : T.se T.ne = .unused := h.newE _ (Nat.le_refl _)
  have hfu : ∀ n, T.nf ≤ n → T.sf n = .unused := h.newF
  rw [hn3e] at r4 r5 s2 s3 s13
  rw [hn3f] at s14
  have hold : ∀ x, T.se x = .live → x ≠ e → T5.se x = .live := by
    intro x hx hxe
    have hxn : x ≠ T.ne := by rintro rfl; rw [heu] at hx; cases hx
    rw [s2, upd_ne _ _ hxn, hse3, upd_ne _ _ hxe]; exact hx
  have hevold : ∀ x, T.se x = .live → T5.ev x = T.ev x := by
    intro x hx
    have hxn : x ≠ T.ne := by rintro rfl; rw [heu] at hx; cases hx
    rw [s3, upd_ne _ _ hxn, hev3]
  have l0 := hold _ lx0 (Ne.symm ex0)
  have l1 := hold _ lx1 (Ne.symm ex1)
  have l2 := hold _ lx2 (Ne.symm ex2)
  have l3 := hold _ lx3 (Ne.symm ex3)
  have lnew : T5.se T.ne = .live := by rw [s2, upd_same]
  -- the new faces
  obtain ⟨T6, r6, h6, t1, -, t3, t4, t5, t6, t7, -, t9, t10, t11, t12, -, t14, t15, -⟩ :=
    newFaceE_ok h5 (es := [(T.ne, true), x1, x2]) (by simp) (by
      intro p hp
      simp only [List.mem_cons, List.not_mem_nil, or_false] at hp
      rcases hp with rfl | rfl | rfl
      · exact lnew
      · exact l1
      · exact l2)
  obtain ⟨T7, r7, h7, u1, -, u3, u4, u5, u6, u7, -, u9, u10, u11, u12, -, u14, u15, -⟩ :=
    newFaceE_ok h6 (es := [(T.ne, false), x3, x0]) (by simp) (by
      intro p hp
      simp only [List.mem_cons, List.not_mem_nil, or_false] at hp
      rw [t3]
      rcases hp with rfl | rfl | rfl
      · exact lnew
      · exact l3
      · exact l0)
  rw [s14] at r6 t5 t6 t7 t15
  rw [t15] at r7 u5 u6 u7
  have hev7 : T7.ev = upd T.ev T.ne (some v2, some v3) := by rw [u4, t4, s3, hev3]
  have hse7 : T7.se = upd (upd T.se e .freed) T.ne .live := by rw [u3, t3, s2, hse3]
  have hsf7 : T7.sf = upd (upd (upd (upd T.sf f0 .freed) f1 .freed) T.nf .live) (T.nf+1) .live := by
    rw [u5, t5, s4, hsf3]
  have hed5 : T5.edgesOf = T.edgesOf := by
    rw [← hed3]; funext f; unfold edgesOf; rw [s5, s6]
  have hed7 : T7.edgesOf = upd (upd T.edgesOf T.nf [(T.ne, true), x1, x2]) (T.nf+1) [(T.ne, false), x3, x0] := by
    rw [u7, t7, hed5]
  have hlead7 : ∀ {p : Nat × Bool} {s t : Nat}, T.se p.1 = .live → Leads T p.1 p.2 s t → Leads T7 p.1 p.2 s t := by
    intro p s t hp hl
    have hxn : p.1 ≠ T.ne := by intro hc; rw [hc, heu] at hp; cases hp
    unfold Leads at hl ⊢
    rw [hev7, upd_ne _ _ hxn]; exact hl
  have hnew7 : Leads T7 T.ne true v2 v3 := by unfold Leads; rw [hev7, upd_same]; rfl
  have hnew7' : Leads T7 T.ne false v3 v2 := by unfold Leads; rw [hev7, upd_same]; rfl
  have hfn0 : T7.sf T.nf = .live := by rw [hsf7, upd_ne _ _ (by omega), upd_same]
  have hfn1 : T7.sf (T.nf+1) = .live := by rw [hsf7, upd_same]
  have hfe0 : T7.fe T.nf = some [T.ne, x1.1, x2.1] := by rw [u6, upd_ne _ _ (by omega), t6, upd_same]; rfl
  have hfe1 : T7.fe (T.nf+1) = some [T.ne, x3.1, x0.1] := by rw [u6, upd_same]; rfl
  have hrow : ∀ {a b c : Nat} {p q s : Nat × Bool}, Leads T7 p.1 p.2 a b → Leads T7 q.1 q.2 b c → Leads T7 s.1 s.2 c a →
      T7.Closed [p, q, s] [a, b, c] := by
    intro a b c p q s hp hq hs
    refine ⟨rfl, ?_⟩
    intro k w x y hk hx hy
    match k with
    | 0 => simp at hk hx hy; subst hk; subst hx; subst hy; exact hp
    | 1 => simp at hk hx hy; subst hk; subst hx; subst hy; exact hq
    | 2 => simp at hk hx hy; subst hk; subst hx; subst hy; exact hs
    | k+3 => simp at hk
  refine ⟨T7, T.ne, T.nf, T.nf+1, ?_, h7, ⟨heu, hfu _ (by omega), hfu _ (by omega), by omega⟩, ?_, hse7, hev7, hsf7,
    hed7, ?_, ?_, ?_, ?_, ?_⟩
  · have hv0 : T.meVertex e false = .ok (some v0) := by rw [meVertex_ok (alloc_of_live he), hends]; rfl
    have hv1 : T.meVertex e true = .ok (some v1) := by rw [meVertex_ok (alloc_of_live he), hends]; rfl
    have o3 : T.otherEnd x0.1 true (some v1) = .ok (some v3) := (otherEnd_ok lx0 la0 d13).1
    have o2 : T.otherEnd x3.1 false (some v1) = .ok (some v2) := (otherEnd_ok lx3 la3 (Ne.symm d12)).2
    have hdirs : ∀ {Q : Topo} {p : Nat × Bool} {s t : Nat}, Q.se = T5.se → Q.ev = T5.ev → T.se p.1 = .live → p.1 ≠ e →
        Leads T p.1 p.2 s t → s ≠ t → ∃ v, Q.meVertex p.1 false = .ok v ∧ decide (v = some s) = p.2 := by
      intro Q p s t e1 e2 hp hpe hl hst
      have hx := hold _ hp hpe
      refine ⟨endAt (T.ev p.1) false, ?_, dir_ok hl hst⟩
      rw [meVertex_ok (by rw [e1]; exact alloc_of_live hx), e2, hevold _ hp]
    obtain ⟨y1, z1, k1⟩ := hdirs (Q := T5.mfNew.1) rfl rfl lx1 (Ne.symm ex1) la1 (Ne.symm d03)
    obtain ⟨y2, z2, k2⟩ := hdirs (Q := T5.mfNew.1) rfl rfl lx2 (Ne.symm ex2) la2 d02
    obtain ⟨y3, z3, k3⟩ := hdirs (Q := T6.mfNew.1) t3 t4 lx3 (Ne.symm ex3) la3 (Ne.symm d12)
    obtain ⟨y0, z0, k0⟩ := hdirs (Q := T6.mfNew.1) t3 t4 lx0 (Ne.symm ex0) la0 d13
    have htail : (do
        let T1 ← T.mfDelete f0 false
        let T2 ← T1.mfDelete f1 false
        let T3 ← T2.meDelete e false
        let p := T3.meNew
        let a ← Res.ofOption (some v2)
        let b ← Res.ofOption (some v3)
        let T4 ← p.1.meSetVertex p.2 false a
        let T5 ← T4.meSetVertex p.2 true b
        let q := T5.mfNew
        let w1 ← q.1.meVertex x1.1 false
        let w2 ← q.1.meVertex x2.1 false
        let T6 ← q.1.mfSetEdges q.2 [(p.2, true), (x1.1, decide (w1 = some v3)), (x2.1, decide (w2 = some v0))]
        let s := T6.mfNew
        let w3 ← s.1.meVertex x3.1 false
        let w0 ← s.1.meVertex x0.1 false
        let T7 ← s.1.mfSetEdges s.2 [(p.2, false), (x3.1, decide (w3 = some v2)), (x0.1, decide (w0 = some v1))]
        pure (T7, some (p.2, q.2, s.2)) : Res (Topo × Option (Nat × Nat × Nat))) =
        .ok (T7, some (T.ne, T.nf, T.nf+1)) := by
      rw [r1, Res.bind_ok, r2, Res.bind_ok, r3, Res.bind_ok]
      dsimp only
      rw [Res.ofOption_some, Res.bind_ok, Res.ofOption_some, Res.bind_ok, show T3.meNew.2 = T.ne from hn3e, r4,
        Res.bind_ok, r5, Res.bind_ok, z1, Res.bind_ok, z2, Res.bind_ok, k1, k2, show T5.mfNew.2 = T.nf from s14, r6,
        Res.bind_ok, z3, Res.bind_ok, z0, Res.bind_ok, k3, k0, show T6.mfNew.2 = T.nf+1 from t15, r7, Res.bind_ok]
      rfl
    unfold meSwap2D
    rw [derefE_ok (alloc_of_live he), Res.bind_ok, if_neg (by simp), hv0, Res.bind_ok, hv1, Res.bind_ok, g1,
      Res.bind_ok, Res.ofOption_some, Res.bind_ok]
    rcases hfs with rfl | rfl
    · dsimp only
      rw [q0, Res.bind_ok]
      simp only [if_true]
      rw [m0, Res.bind_ok]
      dsimp only
      rw [o3, Res.bind_ok, m1, Res.bind_ok]
      dsimp only
      rw [o2, Res.bind_ok]
      exact htail
    · dsimp only
      rw [q1, Res.bind_ok]
      simp only [Bool.false_eq_true, if_false]
      rw [m0, Res.bind_ok]
      dsimp only
      rw [o3, Res.bind_ok, m1, Res.bind_ok]
      dsimp only
      rw [o2, Res.bind_ok]
      exact htail
  · show T7.sv = T.sv; rw [u1, t1, s1, hsv3]
  · have hc := hrow (p := (T.ne, true)) hnew7 (hlead7 lx1 la1) (hlead7 lx2 la2)
    refine Closed.loop (alloc_of_live hfn0) hfe0 (fun x hx => alloc_of_live (h7.fedgesLive hfn0 hfe0 x hx)) (by simp) ?_
    rw [← edgesOf_some hfe0, hed7, upd_ne _ _ (by omega), upd_same]
    exact hc
  · have hc := hrow (p := (T.ne, false)) hnew7' (hlead7 lx3 la3) (hlead7 lx0 la0)
    refine Closed.loop (alloc_of_live hfn1) hfe1 (fun x hx => alloc_of_live (h7.fedgesLive hfn1 hfe1 x hx)) (by simp) ?_
    rw [← edgesOf_some hfe1, hed7, upd_same]
    exact hc
  · show T7.sr = T.sr; rw [u9, t9, s8, hsr3]
  · show facesOf T7.rf T7.rd = facesOf T.rf T.rd; rw [u10, t10, s9, hrf3, u11, t11, s10, hrd3]
  · intro r; unfold mrElementType derefR; rw [u9, t9, s8, hsr3, u12, t12, s11, hrt3]

/-- **C54, refusals.**  The edge is not on a surface, or does not have two faces. -/
theorem C54_refused {T : Topo} {gdim e : Nat} {fs : List Nat} (he : T.se e = .live)
    (hfs : T.meFaces e = .ok (some fs)) (hno : gdim ≠ 2 ∨ fs.length ≠ 2) :
    T.meSwap2D gdim e = .ok (T, none) := by
  unfold meSwap2D
  rw [derefE_ok (alloc_of_live he), Res.bind_ok]
  by_cases hg : gdim ≠ 2
  · rw [if_pos hg]; rfl
  · rw [if_neg hg, meVertex_ok (alloc_of_live he), Res.bind_ok, meVertex_ok (alloc_of_live he), Res.bind_ok, hfs,
      Res.bind_ok, Res.ofOption_some, Res.bind_ok]
    have hl : fs.length ≠ 2 := by rcases hno with hx | hx; exacts [absurd hx hg, hx]
    match fs, hl with
    | [], _ => rfl
    | [_], _ => rfl
    | [_, _], hl => exact absurd rfl hl
    | _ :: _ :: _ :: _, _ => rfl

/-- **C54, refusals.**  One of the two faces is not a triangle. -/
theorem C54_not_triangles {T : Topo} (h : T.Consistent) {e f0 f1 v0 v1 : Nat} {us0 us1 : List Nat}
    (hf0 : T.sf f0 = .live) (hf1 : T.sf f1 = .live)
    (he : T.se e = .live) (hends : T.view.ends e = (some v0, some v1))
    (hfaces : T.meFaces e = .ok (some [f0, f1]) ∨ T.meFaces e = .ok (some [f1, f0]))
    (hd0 : T.mfEdgeDir f0 e = .ok true) (hd1 : T.mfEdgeDir f1 e = .ok false)
    (hu0 : T.Loop f0 us0) (hn0 : us0.Nodup) (hm0 : v0 ∈ us0)
    (hu1 : T.Loop f1 us1) (hn1 : us1.Nodup) (hm1 : v1 ∈ us1)
    (hno : us0.length ≠ 3 ∨ us1.length ≠ 3) :
    T.meSwap2D 2 e = .ok (T, none) := by
  have hends : T.ev e = (some v0, some v1) := hends
  have key : ∀ {f v : Nat} {us : List Nat}, T.sf f = .live → T.Loop f us → us.Nodup → v ∈ us →
      ∃ es, T.mfEdges f true (some v) = .ok es ∧ es.length = us.length ∧ ∀ x ∈ es, T.se x = .live := by
    intro f v us hf hl hn hm
    obtain ⟨l, hfe, hes, hlen, -⟩ := hl.stored (alloc_of_live hf)
    obtain ⟨k, hk⟩ := List.mem_iff_getElem?.1 hm
    have := (C23_edges_from hf hl hn hes true v).1 k hk
    rw [if_pos rfl] at this
    exact ⟨_, this, by simp [hlen], fun x hx => h.fedgesLive hf hfe x (List.mem_rotate.1 hx)⟩
  obtain ⟨l0, m0, n0, a0⟩ := key hf0 hu0 hn0 hm0
  obtain ⟨l1, m1, n1, -⟩ := key hf1 hu1 hn1 hm1
  have hv0 : T.meVertex e false = .ok (some v0) := by rw [meVertex_ok (alloc_of_live he), hends]; rfl
  have hv1 : T.meVertex e true = .ok (some v1) := by rw [meVertex_ok (alloc_of_live he), hends]; rfl
  have oth : ∀ x ∈ l0, ∃ w, T.otherEnd x true (some v1) = .ok w := by
    intro x hx
    unfold otherEnd
    rw [meVertex_ok (alloc_of_live (a0 x hx)), Res.bind_ok, meVertex_ok (alloc_of_live (a0 x hx))]
    split
    · exact ⟨_, rfl⟩
    · exact ⟨_, rfl⟩
  rw [← n0, ← n1] at hno
  unfold meSwap2D
  rw [derefE_ok (alloc_of_live he), Res.bind_ok, if_neg (by simp), hv0, Res.bind_ok, hv1, Res.bind_ok]
  rcases hfaces with hfs | hfs
  all_goals
    rw [hfs, Res.bind_ok, Res.ofOption_some, Res.bind_ok]
    dsimp only
    first
      | rw [hd0, Res.bind_ok]; simp only [if_true]
      | rw [hd1, Res.bind_ok]; simp only [Bool.false_eq_true, if_false]
    rw [m0, Res.bind_ok]
    match l0, hno, oth with
    | [], _, _ => rfl
    | [_], _, _ => rfl
    | [_, _], _, _ => rfl
    | _ :: _ :: _ :: _ :: _, _, _ => rfl
    | [_, x, _], hno, oth =>
      dsimp only
      obtain ⟨w, hw⟩ := oth x (by simp)
      rw [hw, Res.bind_ok, m1, Res.bind_ok]
      match l1, hno with
      | [], _ => rfl
      | [_], _ => rfl
      | [_, _], _ => rfl
      | [_, _, _], hno => simp at hno
      | _ :: _ :: _ :: _ :: _, _ => rfl

/-! ### examples -/

/-- two triangles with a common edge (edge 1, from vertex 1 to vertex 2), going round the same way -/
def rhombus : List Op :=
  [.newVertex, .newVertex, .newVertex, .newVertex,
   .newFace, .setVertices 0 [0,1,2], .newFace, .setVertices 1 [1,3,2]]

/-- the same with the second triangle turned over -/
def foldedRhombus : List Op :=
  [.newVertex, .newVertex, .newVertex, .newVertex,
   .newFace, .setVertices 0 [0,1,2], .newFace, .setVertices 1 [1,2,3]]

/-- The diagonal from 1 to 2 becomes the one from 3 to 0. -/
example : ∃ T, empty.run rhombus = .ok T ∧ T.Consistent ∧
    T.Diagonal 1 0 1 1 2 3 0 (2, true) (0, true) (3, true) (4, true) ∧
    (∀ r, ¬ T.RegionHas r 0 ∧ ¬ T.RegionHas r 1) ∧
    ∃ T', T.meSwap2D 2 1 = .ok (T', some (5, 2, 3)) ∧ T'.mfVertices 2 true none = .ok [some 3, some 0, some 1] ∧
      T'.mfVertices 3 true none = .ok [some 0, some 3, some 2] := by
  obtain ⟨T, h1, h2⟩ := reachable (os := rhombus) (by decide +kernel)
  have hq : answer rhombus (fun T => .ok (decide (T.se 1 = .live) && decide (T.ev 1 = (some 1, some 2)) &&
      decide (T.ef 1 = [0,1]) && T.loopB 0 [0,1,2] && T.loopB 1 [1,3,2] &&
      decide (T.edgesOf 0 = [(0,true),(1,true),(2,true)]) && decide (T.edgesOf 1 = [(3,true),(4,true),(1,false)]) &&
      decide (T.nr = 0) &&
      match T.meSwap2D 2 1 with
      | .ok (T', b) => decide (b = some (5,2,3)) && decide (T'.mfVertices 2 true none = .ok [some 3, some 0, some 1]) &&
        decide (T'.mfVertices 3 true none = .ok [some 0, some 3, some 2])
      | _ => false)) = .ok true := by decide +kernel
  unfold answer at hq
  rw [h1, Res.bind_ok, Res.ok.injEq] at hq
  simp only [Bool.and_eq_true, decide_eq_true_iff] at hq
  obtain ⟨⟨⟨⟨⟨⟨⟨⟨a, b⟩, c⟩, d⟩, e⟩, f⟩, g⟩, i⟩, q⟩ := hq
  refine ⟨T, h1, h2, ⟨a, b, ?_, by decide, ⟨_, loopB_sound d, 1, by decide⟩, ⟨1, ?_⟩, ⟨_, loopB_sound e, 2, by decide⟩,
    ⟨2, ?_⟩, by decide⟩, ?_, ?_⟩
  · intro x; rw [← h2.mem_ef a, c]; simp
  · show (T.edgesOf 0).rotate 1 = _; rw [f]; rfl
  · show (T.edgesOf 1).rotate 2 = _; rw [g]; rfl
  · intro r
    have : T.sr r = .unused := h2.newR r (by omega)
    exact ⟨fun hr => by have := hr.1; simp_all, fun hr => by have := hr.1; simp_all⟩
  · split at q
    · rename_i T' b' he
      simp only [Bool.and_eq_true, decide_eq_true_iff] at q
      obtain ⟨⟨rfl, q1⟩, q2⟩ := q
      exact ⟨T', he, q1, q2⟩
    · cases q

/-- **C54, what fails.**  When the two triangles go round opposite ways (both use the edge in its own direction),
the call reads the edge it has just deleted. -/
theorem C54_negation_folded : ∃ T, empty.run foldedRhombus = .ok T ∧ T.Consistent ∧ T.se 1 = .live ∧
    T.meFaces 1 = .ok (some [0, 1]) ∧ T.Loop 0 [0,1,2] ∧ T.Loop 1 [1,2,3] ∧ T.meSwap2D 2 1 = .ub := by
  obtain ⟨T, h1, h2⟩ := reachable (os := foldedRhombus) (by decide +kernel)
  have hq : answer foldedRhombus (fun T => .ok (decide (T.se 1 = .live) &&
      decide (T.meFaces 1 = .ok (some [0, 1])) && T.loopB 0 [0,1,2] && T.loopB 1 [1,2,3] &&
      match T.meSwap2D 2 1 with
      | .ub => true
      | _ => false)) = .ok true := by decide +kernel
  unfold answer at hq
  rw [h1, Res.bind_ok, Res.ok.injEq] at hq
  simp only [Bool.and_eq_true, decide_eq_true_iff] at hq
  obtain ⟨⟨⟨⟨a, b⟩, c⟩, d⟩, q⟩ := hq
  refine ⟨T, h1, h2, a, b, loopB_sound c, loopB_sound d, ?_⟩
  split at q
  · assumption
  · cases q

end Topo
end MSTK
