import Verif.ModLemmas

/-!
C50: splitting a face by an edge between two of its vertices (`MF_Split_with_Edge`).

Specification: `Refaced` (what happens in the regions of the face) and `SplitByEdge` (the whole
mesh), in terms of the view of the mesh (Props/Effects) and of the loops of vertices.
-/
namespace MSTK
namespace Topo

/-- In the regions that used face `f` the faces `nu` have taken its place, in the direction in which
the region used `f`; the reported element type is up to date.  All other regions are as before. -/
structure Refaced (T T' : Topo) (f : Nat) (nu : List Nat) : Prop where
  with_face : ∀ r d, T.sr r = .live → T.mrFaceDir r f = .ok (some d) →
    (T'.view.faces r).Perm (nu.map (fun g => (g, d)) ++ (T.view.faces r).filter fun p => p.1 ≠ f) ∧
    T'.Typed r
  others : ∀ r, ¬ T.RegionHas r f → T'.view.faces r = T.view.faces r ∧
    T'.mrElementType r = T.mrElementType r

/-- The face `f`, a loop of the vertices `vs`, was cut from the `i`-th vertex `v0` to the vertex `v1`,
`j` places further on, by the new edge `e` into the new faces `f0` and `f1`. -/
structure SplitByEdge (T T' : Topo) (f v0 v1 i j : Nat) (vs : List Nat) (e f0 f1 : Nat) : Prop where
  consistent : T'.Consistent
  /-- the new entities are new -/
  fresh : T.se e = .unused ∧ T.sf f0 = .unused ∧ T.sf f1 = .unused ∧ f0 ≠ f1
  vertices : T'.view.sv = T.view.sv
  edges : T'.view.se = upd T.view.se e .live
  ends : T'.view.ends = upd T.view.ends e (some v0, some v1)
  /-- the two parts are there, the face is not -/
  faces : T'.view.sf = upd (upd (upd T.view.sf f0 .live) f1 .live) f .freed
  /-- each part has its share of the edges and the new edge; all other faces are as before -/
  bounded : T'.view.edges = upd (upd T.view.edges
    f0 (((T.view.edges f).rotate i).take j ++ [(e, false)]))
    f1 (((T.view.edges f).rotate i).drop j ++ [(e, true)])
  /-- both parts are loops, going round the same way as the face -/
  first : T'.Loop f0 ((vs.rotate i).take (j+1))
  second : T'.Loop f1 ((vs.rotate i).drop j ++ [v0])
  regions : T'.view.sr = T.view.sr
  in_regions : Refaced T T' f [f0, f1]

/-- The regions of `f` have room for `n` faces in its place (at most 512, `MAXPF3`), and all their
faces have their edges. -/
def RegionsReady (T : Topo) (f n : Nat) : Prop := ∀ r, T.RegionHas r f →
  ∃ l, T.mrFaces r = .ok l ∧ l.length - 1 + n ≤ 512 ∧ ∀ g ∈ l, ∃ es, T.mfEdges g true none = .ok es

/-! ### helpers -/

theorem regionHas_iff {T : Topo} (h : T.Consistent) {r f : Nat} :
    T.RegionHas r f ↔ T.sr r = .live ∧ f ∈ (T.rf r).getD [] := by
  unfold RegionHas
  constructor
  · rintro ⟨h1, d, h2⟩
    exact ⟨h1, mem_facesOf_iff.2 ⟨d, (mrFaceDir_iff h h1).1 h2⟩⟩
  · rintro ⟨h1, h2⟩
    obtain ⟨d, hd⟩ := mem_facesOf_iff.1 h2
    exact ⟨h1, d, (mrFaceDir_iff h h1).2 hd⟩

theorem RegionsReady.stored {T : Topo} (h : T.Consistent) {f n : Nat} (hr : T.RegionsReady f n) {r : Nat}
    (h1 : T.sr r = .live) (h2 : f ∈ (T.rf r).getD []) :
    ((T.rf r).getD []).length + n ≤ 513 ∧ T.Sized ((T.rf r).getD []) := by
  obtain ⟨l, a, b, c⟩ := hr r ((regionHas_iff h).2 ⟨h1, h2⟩)
  cases hl : T.rf r with
  | none => rw [hl] at h2; simp at h2
  | some l' =>
    have e1 := rfaces_ok (alloc_of_live h1) hl
    have e2 : T.mrFaces r = T.rfaces r := rfl
    rw [e2, e1] at a
    injection a with a
    subst a
    rw [hl] at h2
    have := List.length_pos_of_mem h2
    refine ⟨by simp only [Option.getD_some] at this ⊢; omega, ?_⟩
    intro g hg
    obtain ⟨es, hes⟩ := c g hg
    cases hfe : T.fe g with
    | none => exact absurd hes (mfEdges_none hfe _ _ _)
    | some x => exact ⟨x, rfl⟩

theorem closed_of_path {T : Topo} {part : List (Nat × Bool)} {ws : List Nat} {e : Nat} {d : Bool} {a b : Nat}
    (hlen : ws.length = part.length + 1)
    (hp : ∀ (k : Nat) p a b, part[k]? = some p → ws[k]? = some a → ws[k+1]? = some b → Leads T p.1 p.2 a b)
    (ha : ws[part.length]? = some a) (hb : ws[0]? = some b) (he : Leads T e d a b) :
    T.Closed (part ++ [(e, d)]) ws := by
  refine ⟨by simp [hlen], fun k p x y hk hx hy => ?_⟩
  have hklt := (List.getElem?_eq_some_iff.1 hx).1
  by_cases hkp : k < part.length
  · rw [List.getElem?_append_left hkp] at hk
    rw [Nat.mod_eq_of_lt (by omega)] at hy
    exact hp k p x y hk hx hy
  · have hke : k = part.length := by omega
    subst hke
    rw [List.getElem?_append_right (Nat.le_refl _), Nat.sub_self, List.getElem?_cons_zero] at hk
    injection hk with hk
    rw [ha] at hx
    injection hx with hx
    rw [hlen, Nat.mod_self, hb] at hy
    injection hy with hy
    subst hk; subst hx; subst hy
    exact he

/-- what follows in the regions from `retireFace_ok` -/
theorem refaced_of {T T0 T' : Topo} (hT : T.Consistent) (h' : T'.Consistent) {f : Nat} {nu rs : List Nat}
    (hmem : ∀ r, r ∈ rs ↔ T.sr r = .live ∧ f ∈ (T.rf r).getD [])
    (e1 : T0.rf = T.rf) (e2 : T0.rd = T.rd) (e3 : T0.rt = T.rt) (esr : T'.sr = T.sr)
    (hrest : ∀ z, z ∉ rs → T'.rt z = T0.rt z ∧ T'.rf z = T0.rf z ∧ T'.rd z = T0.rd z)
    (hin : ∀ r ∈ rs, T'.TypeStored r ∧ ∃ d, (f, d) ∈ facesOf T0.rf T0.rd r ∧
        (facesOf T'.rf T'.rd r).Perm
          (nu.map (fun g => (g, d)) ++ (facesOf T0.rf T0.rd r).filter fun p => p.1 ≠ f)) :
    Refaced T T' f nu := by
  rw [e1, e2] at hin
  rw [e1, e2, e3] at hrest
  constructor
  · intro r d hr hd
    have hd' := (mrFaceDir_iff hT hr).1 hd
    have hrr := (hmem r).2 ⟨hr, mem_facesOf_iff.2 ⟨d, hd'⟩⟩
    obtain ⟨a, d2, b, c⟩ := hin r hrr
    have := (mrFaceDir_iff hT hr).2 b
    rw [hd] at this
    injection this with this
    injection this with this
    subst this
    exact ⟨c, a.typed h' (by rw [esr]; exact hr)⟩
  · intro r hr
    have hrr : r ∉ rs := fun hc => hr ((regionHas_iff hT).2 ((hmem r).1 hc))
    obtain ⟨a, b, c⟩ := hrest r hrr
    refine ⟨by show facesOf _ _ r = facesOf _ _ r; unfold facesOf; rw [b, c], ?_⟩
    unfold mrElementType derefR
    rw [esr, a]

/-- the answers of `ME_Vertex` round a loop -/
theorem Closed.heads {T : Topo} {ps : List (Nat × Bool)} {vs : List Nat} (h : T.Closed ps vs)
    (hall : ∀ p ∈ ps, (T.se p.1).alloc) (hpos : 0 < vs.length) (k : Nat) :
    ∃ p, ps[k % ps.length]? = some p ∧
      T.meVertex p.1 p.2 = .ok (some ((vs[(k+1) % vs.length]?).getD 0)) := by
  have hlt : k % ps.length < ps.length := Nat.mod_lt _ (by rw [h.1]; exact hpos)
  have hlv : k % vs.length < vs.length := Nat.mod_lt _ hpos
  have hlw : (k+1) % vs.length < vs.length := Nat.mod_lt _ hpos
  refine ⟨ps[k % ps.length], List.getElem?_eq_getElem hlt, ?_⟩
  have := h.2 (k % ps.length) _ _ _ (List.getElem?_eq_getElem hlt)
    (by rw [h.1]; exact List.getElem?_eq_getElem hlv)
    (by rw [h.1, Nat.mod_add_mod]; exact List.getElem?_eq_getElem hlw)
  rw [meVertex_ok (hall _ (List.getElem_mem hlt)), this, List.getElem?_eq_getElem hlw]
  cases (ps[k % ps.length]).2 <;> rfl

theorem Closed.tails {T : Topo} {ps : List (Nat × Bool)} {vs : List Nat} (h : T.Closed ps vs)
    (hall : ∀ p ∈ ps, (T.se p.1).alloc) (k : Nat) (p : Nat × Bool) (hp : ps[k]? = some p) :
    T.meVertex p.1 (!p.2) = .ok vs[k]? := by
  have hlt := (List.getElem?_eq_some_iff.1 hp).1
  have hkv : k < vs.length := by rw [← h.1]; exact hlt
  have hlw : (k+1) % vs.length < vs.length := Nat.mod_lt _ (by omega)
  have := h.2 k p _ _ hp (List.getElem?_eq_getElem hkv) (List.getElem?_eq_getElem hlw)
  rw [meVertex_ok (hall _ (List.mem_of_getElem? hp)), this, List.getElem?_eq_getElem hkv]
  cases p.2 <;> rfl

/-- the vertices of a loop, numbered round and round -/
theorem round_ne {vs : List Nat} (hn : vs.Nodup) {a b : Nat} (hpos : 0 < vs.length)
    (hab : a % vs.length ≠ b % vs.length) :
    (vs[a % vs.length]?).getD 0 ≠ (vs[b % vs.length]?).getD 0 := by
  have h1 : a % vs.length < vs.length := Nat.mod_lt _ hpos
  have h2 : b % vs.length < vs.length := Nat.mod_lt _ hpos
  rw [List.getElem?_eq_getElem h1, List.getElem?_eq_getElem h2]
  intro hc
  exact hab ((List.Nodup.getElem_inj_iff hn).1 (by simpa using hc))

/-- both ends of the edges of a loop are there -/
theorem Loop.live {T : Topo} (h : T.Consistent) {f : Nat} {vs : List Nat} (hf : T.sf f = .live)
    (hl : T.Loop f vs) : ∀ v ∈ vs, T.sv v = .live := by
  intro v hv
  obtain ⟨k, hk, hkv⟩ := List.getElem_of_mem hv
  obtain ⟨l, hfe, -, hlen, -⟩ := hl.stored (alloc_of_live hf)
  have hel : ∀ e ∈ l, T.se e = .live := fun e he => h.ef.down f e hf (by
    show e ∈ (T.fe f).getD []
    rw [hfe]; exact he)
  have hc := hl.closed (alloc_of_live hf) hfe (fun e he => alloc_of_live (hel e he))
  have hkl : k < (pairs l (fbit (T.fd f))).length := by rw [pairs_length, hlen]; exact hk
  have hp := List.getElem?_eq_getElem hkl
  generalize (pairs l (fbit (T.fd f)))[k] = p at hp
  have hpl : p.1 ∈ l := mem_of_mem_pairs (List.mem_of_getElem? hp)
  have := hc.tails (fun q hq => alloc_of_live (hel _ (mem_of_mem_pairs hq))) k p hp
  rw [meVertex_ok (alloc_of_live (hel _ hpl)), List.getElem?_eq_getElem hk, hkv] at this
  injection this with this
  refine h.ve.down p.1 v (hel _ hpl) ?_
  unfold endAt at this
  split at this
  · exact Or.inr this
  · exact Or.inl this

/-- **C50.**  `MF_Split_with_Edge` cuts a face into two loops along a new edge and changes nothing
else. -/
theorem C50_split_with_edge {T : Topo} (h : T.Consistent) {f v0 v1 i j : Nat} {vs : List Nat}
    (hf : T.sf f = .live) (hloop : T.Loop f vs) (hn : vs.Nodup) (h32 : vs.length ≤ 32)
    (hi : vs[i]? = some v0) (hj : (vs.rotate i)[j]? = some v1) (hj0 : 0 < j)
    (hnew : ∀ e, ¬ (T.EdgeHas e v0 ∧ T.EdgeHas e v1)) (hready : T.RegionsReady f 2) :
    ∃ T' e f0 f1, T.mfSplitWithEdge f v0 v1 = .ok (T', e) ∧ SplitByEdge T T' f v0 v1 i j vs e f0 f1 := by
  obtain ⟨l, hfe, -, hlen, -⟩ := hloop.stored (alloc_of_live hf)
  have hel : ∀ e ∈ l, T.se e = .live := fun e he => h.ef.down f e hf (by
    show e ∈ (T.fe f).getD []
    rw [hfe]; exact he)
  have hilt := (List.getElem?_eq_some_iff.1 hi).1
  have hjlt := (List.getElem?_eq_some_iff.1 hj).1
  rw [List.length_rotate] at hjlt
  have hv0 := hloop.live h hf v0 (List.mem_of_getElem? hi)
  have hv1 := hloop.live h hf v1 (List.mem_rotate.1 (List.mem_of_getElem? hj))
  have hj1 : vs[(i+j) % vs.length]? = some v1 := by
    rw [List.getElem?_rotate hjlt] at hj; rw [Nat.add_comm]; exact hj
  -- the search for the edge
  obtain ⟨o, c1, c2, c3⟩ := C42_common_edge h (b := v1) hv0
  have ho : o = none := by
    cases o with
    | none => rfl
    | some e => exact absurd (c2 e rfl) (hnew e)
  subst ho
  -- the face
  have hc0 := hloop.closed (alloc_of_live hf) hfe (fun e he => alloc_of_live (hel e he))
  rw [← edgesOf_some hfe] at hc0
  have hpe : ∀ p ∈ T.edgesOf f, p.1 ∈ l := by
    intro p hp; rw [edgesOf_some hfe] at hp; exact mem_of_mem_pairs hp
  have hpl : (T.edgesOf f).length = vs.length := hc0.1
  have hrd := readFace_ok (alloc_of_live hf) hfe (by omega)
  generalize hps : T.edgesOf f = ps at *
  -- the new edge
  obtain ⟨Ta, T1, ra, rb, h1, u1, u2, u3, u4, u5, u6, u7, u8, u9, u10, u11, u12, u13, u14, u15⟩ :=
    newEdge_fields h hv0 hv1
  have heu : T.se T.ne = .unused := h.newE _ (Nat.le_refl _)
  have hne : ∀ p ∈ ps, p.1 ≠ T.ne := by
    intro p hp hc
    have := hel _ (hpe p hp)
    rw [hc, heu] at this; cases this
  have he1 : ∀ p ∈ ps, T1.se p.1 = .live := by
    intro p hp; rw [u2, upd_ne _ _ (hne p hp)]; exact hel _ (hpe p hp)
  have hen1 : T1.se T.ne = .live := by rw [u2, upd_same]
  have hc1 : T1.Closed ps vs := by
    refine ⟨hc0.1, fun k p a b hp ha hb => ?_⟩
    have := hc0.2 k p a b hp ha hb
    unfold Leads at this ⊢
    rw [u3, upd_ne _ _ (hne p (List.mem_of_getElem? hp))]; exact this
  have hedge1 : T1.edgesOf = T.edgesOf := by funext g; unfold edgesOf; rw [u5, u6]
  -- where the vertices are
  let w : Nat → Nat := fun k => (vs[k % vs.length]?).getD 0
  have hw0 : ∀ k, k % vs.length = i → w k = v0 := by
    intro k hk; show (vs[k % vs.length]?).getD 0 = v0; rw [hk, hi]; rfl
  have hw1 : w (i+j) = v1 := by show (vs[(i+j) % vs.length]?).getD 0 = v1; rw [hj1]; rfl
  have hpos : 0 < vs.length := by omega
  have hwne : ∀ a b, a % vs.length ≠ b % vs.length → w a ≠ w b := fun a b hab => round_ne hn hpos hab
  have hmod : ∀ t s, t < vs.length → s < vs.length → t ≠ s →
      (i+t) % vs.length ≠ (i+s) % vs.length := by
    intro t s ht hs hts hc
    have := Nat.ModEq.add_left_cancel' i hc
    unfold Nat.ModEq at this
    rw [Nat.mod_eq_of_lt ht, Nat.mod_eq_of_lt hs] at this
    exact hts this
  have hi0 : w i = v0 := hw0 i (Nat.mod_eq_of_lt hilt)
  have him : w (i + vs.length) = v0 := hw0 _ (by rw [Nat.add_mod_right]; exact Nat.mod_eq_of_lt hilt)
  have hfirst : T1.firstAt v0 ps 0 = .ok (some i) := by
    rw [firstAt_ok ps vs 0 hpl (hc1.tails (fun p hp => alloc_of_live (he1 p hp))),
      if_pos (List.mem_of_getElem? hi), idxOf_eq_of_nodup hn hi, Nat.zero_add]
  have hwalk1 : T1.walk ps v1 v0 ps.length i = .ok ((ps.rotate i).take j, i+j-1) := by
    refine walk_ok w (hc1.heads (fun p hp => alloc_of_live (he1 p hp)) hpos) j _ i hj0 (by omega) (by omega)
      hw1 ?_
    intro t ht htj
    refine ⟨?_, ?_⟩
    · rw [← hw1]; exact hwne _ _ (hmod t j (by omega) hjlt (by omega))
    · rw [← hi0]
      have := hwne _ _ (hmod t 0 (by omega) hpos (by omega))
      rwa [Nat.add_zero] at this
  -- the first part
  have hr1 : ∀ p ∈ ps.rotate i, p ∈ ps := fun p hp => List.mem_rotate.1 hp
  obtain ⟨T2, rc, h2, s1, s2, s3, s4, s5, s6, s7, s8, s9, s10, s11, s12, s13, s14, s15, s16⟩ :=
    newFaceE_ok h1 (es := (ps.rotate i).take j ++ [(T.ne, false)])
      (by simp only [List.length_append, List.length_take, List.length_rotate, List.length_singleton]; omega)
      (by
        intro p hp
        rcases List.mem_append.1 hp with hp | hp
        · exact he1 p (hr1 p (List.mem_of_mem_take hp))
        · rw [List.mem_singleton.1 hp]; exact hen1)
  have hclose1 : T1.closePart ps.length ((ps.rotate i).take j) T.ne false = .ok (T2, T1.nf) := by
    unfold closePart
    rw [if_pos (by rw [List.length_take, List.length_rotate]; omega)]
    show (T1.mfNew.1.mfSetEdges T1.nf _ >>= fun T => pure (T, T1.nf)) = _
    rw [rc, Res.bind_ok]; rfl
  have he2 : ∀ p ∈ ps, T2.se p.1 = .live := by rw [s3]; exact he1
  have hc2 : T2.Closed ps vs := hc1.congr s4
  have hwalk2 : T2.walk ps v0 v1 ps.length (i+j-1+1) =
      .ok ((ps.rotate (i+j)).take (vs.length - j), i+j-1+1+(vs.length-j)-1) := by
    have e1 : i+j-1+1 = i+j := by omega
    have := walk_ok (T := T2) (ps := ps) (stop := v0) (bad := v1) w
      (hc2.heads (fun p hp => alloc_of_live (he2 p hp)) hpos) (vs.length - j) ps.length (i+j-1+1)
      (by omega) (by omega) (by omega) (by rw [e1, show i + j + (vs.length - j) = i + vs.length by omega]; exact him)
      (by
        intro t ht htj
        rw [e1]
        refine ⟨?_, ?_⟩
        · rw [← hi0, Nat.add_assoc]
          have := hwne _ _ (hmod (j+t) 0 (by omega) hpos (by omega))
          rwa [Nat.add_zero] at this
        · rw [← hw1, Nat.add_assoc]
          exact hwne _ _ (hmod (j+t) j (by omega) hjlt (by omega)))
    rw [this, e1]
  have hpart2 : (ps.rotate (i+j)).take (vs.length - j) = (ps.rotate i).drop j := by
    rw [← List.rotate_rotate, List.rotate_eq_drop_append_take (by rw [List.length_rotate]; omega),
      List.take_append_of_le_length (by rw [List.length_drop, List.length_rotate]; omega),
      List.take_of_length_le (by rw [List.length_drop, List.length_rotate]; omega)]
  rw [hpart2] at hwalk2
  -- the second part
  obtain ⟨T3, rd, h3, t1, t2, t3, t4, t5, t6, t7, t8, t9, t10, t11, t12, t13, t14, t15, t16⟩ :=
    newFaceE_ok h2 (es := (ps.rotate i).drop j ++ [(T.ne, true)])
      (by simp only [List.length_append, List.length_drop, List.length_rotate, List.length_singleton]; omega)
      (by
        intro p hp
        rcases List.mem_append.1 hp with hp | hp
        · exact he2 p (hr1 p (List.mem_of_mem_drop hp))
        · rw [List.mem_singleton.1 hp, s3]; exact hen1)
  have hclose2 : T2.closePart ps.length ((ps.rotate i).drop j) T.ne true = .ok (T3, T2.nf) := by
    unfold closePart
    rw [if_pos (by rw [List.length_drop, List.length_rotate]; omega)]
    show (T2.mfNew.1.mfSetEdges T2.nf _ >>= fun T => pure (T, T2.nf)) = _
    rw [rd, Res.bind_ok]; rfl
  rw [u14] at s5 s6 s7 s8 s15
  rw [s15] at t5 t6 t7 t8
  -- handles
  have hfu : ∀ k, T.nf ≤ k → T.sf k = .unused := h.newF
  have hf0 : f ≠ T.nf := by rintro rfl; rw [hfu _ (Nat.le_refl _)] at hf; cases hf
  have hf1 : f ≠ T.nf + 1 := by rintro rfl; rw [hfu _ (by omega)] at hf; cases hf
  have esf : T3.sf = upd (upd T.sf T.nf .live) (T.nf+1) .live := by rw [t5, s5, u4]
  have efe : T3.fe = upd (upd T.fe T.nf (some (((ps.rotate i).take j ++ [(T.ne, false)]).map (·.1)))) (T.nf+1)
      (some (((ps.rotate i).drop j ++ [(T.ne, true)]).map (·.1))) := by rw [t6, s6, u5]
  have eed : T3.edgesOf = upd (upd T.edgesOf T.nf ((ps.rotate i).take j ++ [(T.ne, false)])) (T.nf+1)
      ((ps.rotate i).drop j ++ [(T.ne, true)]) := by rw [t7, s7, hedge1]
  have esr : T3.sr = T.sr := by rw [t9, s9, u8]
  have erf : T3.rf = T.rf := by rw [t10, s10, u9]
  have erd : T3.rd = T.rd := by rw [t11, s11, u10]
  have ert : T3.rt = T.rt := by rw [t12, s12, u11]
  have hf3 : T3.sf f = .live := by rw [esf, upd_ne _ _ hf1, upd_ne _ _ hf0]; exact hf
  obtain ⟨L, g1, g2, g3⟩ := C22_face_regions h3 hf3
  have hmem3 : ∀ r, r ∈ L.getD [] ↔ T3.sr r = .live ∧ f ∈ (T3.rf r).getD [] := fun r =>
    (g3 r).trans (regionHas_iff h3)
  have hmem : ∀ r, r ∈ L.getD [] ↔ T.sr r = .live ∧ f ∈ (T.rf r).getD [] := by
    intro r; rw [hmem3, esr, erf]
  have hunused : ∀ g d z, T.sf g = .unused → T.sr z = .live → (g, d) ∉ facesOf T.rf T.rd z := by
    intro g d z hg hz hc
    have := h.fr.down z g d hz hc
    rw [hg] at this; cases this
  obtain ⟨T', re, h', w1, w2, w3, w4, w5, w6, w7, w8, w9⟩ := retireFace_ok h3 hf3 (nu := [T.nf, T.nf+1])
    (rs := L.getD []) (by simp) (by simp) (by simp only [List.mem_cons, List.not_mem_nil, or_false, not_or]; exact ⟨hf0, hf1⟩)
    (by
      intro g hg
      rw [esr, erf, erd, esf, efe]
      simp only [List.mem_cons, List.not_mem_nil, or_false] at hg
      rcases hg with rfl | rfl
      · refine ⟨?_, ⟨((ps.rotate i).take j ++ [(T.ne, false)]).map (·.1), ?_⟩, fun z d hz => hunused _ _ _ (hfu _ (Nat.le_refl _)) hz⟩
        · rw [upd_ne _ _ (by omega), upd_same]
        · rw [upd_ne _ _ (by omega), upd_same]
      · exact ⟨upd_same _ _ _, ⟨_, upd_same _ _ _⟩, fun z d hz => hunused _ _ _ (hfu _ (by omega)) hz⟩)
    g2 hmem3
    (by
      intro r hr
      obtain ⟨a, b⟩ := (hmem r).1 hr
      have hst := hready.stored h a b
      rw [erf]
      refine ⟨hst.1, fun g hg => ?_⟩
      obtain ⟨x, hx⟩ := hst.2 g hg
      have hgl := h.rfacesLive a hg
      refine ⟨x, ?_⟩
      rw [efe, upd_ne _ _ (by rintro rfl; rw [hfu _ (by omega)] at hgl; cases hgl),
        upd_ne _ _ (by rintro rfl; rw [hfu _ (by omega)] at hgl; cases hgl), hx])
  have eev : T'.ev = upd T.ev T.ne (some v0, some v1) := by rw [w3, t4, s4, u3]
  have ese : T'.se = upd T.se T.ne .live := by rw [w2, t3, s3, u2]
  have hedges' : T'.edgesOf = T3.edgesOf := by funext g; unfold edgesOf; rw [w5, w6]
  have hc' : T'.Closed (ps.rotate i) (vs.rotate i) := (hc1.congr (eev.trans u3.symm)).rotate i
  have hlive' : ∀ p : Nat × Bool, p ∈ ps ∨ p.1 = T.ne → (T'.se p.1).alloc := by
    rintro p (hp | hp)
    · rw [ese, ← u2]; exact alloc_of_live (he1 p hp)
    · rw [hp, ese, upd_same]; rfl
  have hr0 : (vs.rotate i)[0]? = some v0 := by
    rw [List.getElem?_rotate hpos, Nat.zero_add, Nat.mod_eq_of_lt hilt]; exact hi
  have hlead : ∀ d, Leads T' T.ne d (if d then v0 else v1) (if d then v1 else v0) := by
    intro d; unfold Leads; rw [eev, upd_same]; cases d <;> rfl
  have hlr : (ps.rotate i).length = vs.length := by rw [List.length_rotate]; exact hpl
  refine ⟨T', T.ne, T.nf, T.nf+1, ?_, ?_⟩
  · unfold mfSplitWithEdge
    rw [c1, Res.bind_ok]
    dsimp only
    rw [hrd, Res.bind_ok]
    rw [show T.meNew.2 = T.ne from rfl, ra, Res.bind_ok, rb, Res.bind_ok]
    unfold splitAlong
    rw [hfirst, Res.bind_ok]
    dsimp only
    rw [hwalk1, Res.bind_ok]
    dsimp only
    rw [hclose1, Res.bind_ok]
    dsimp only
    rw [hwalk2, Res.bind_ok]
    dsimp only
    rw [hclose2, Res.bind_ok]
    dsimp only
    rw [g1, Res.bind_ok, u14, s15, re, Res.bind_ok]
    rfl
  · refine ⟨h', ⟨heu, hfu _ (Nat.le_refl _), hfu _ (by omega), by omega⟩, ?_, ese, eev, ?_, ?_, ?_, ?_, ?_, ?_⟩
    · show T'.sv = T.sv
      rw [w1, t1, s1, u1]
    · show T'.sf = _
      rw [w4, esf]; rfl
    · show T'.edgesOf = _
      rw [hedges', eed, ← hps]
      rfl
    · have hfe0 : T'.fe T.nf = some (((ps.rotate i).take j ++ [(T.ne, false)]).map (·.1)) := by
        rw [w5, efe, upd_ne _ _ (by omega), upd_same]
      refine Closed.loop (by rw [w4, esf, upd_ne _ _ (Ne.symm hf0), upd_ne _ _ (by omega), upd_same]; rfl) hfe0 ?_ ?_ ?_
      · intro e he
        obtain ⟨p, hp, rfl⟩ := List.mem_map.1 he
        rcases List.mem_append.1 hp with hp | hp
        · exact hlive' p (Or.inl (hr1 p (List.mem_of_mem_take hp)))
        · exact hlive' p (Or.inr (by rw [List.mem_singleton.1 hp]))
      · simp only [List.length_map, List.length_append, List.length_take, List.length_singleton]; omega
      · rw [← edgesOf_some hfe0, hedges', eed, upd_ne _ _ (by omega), upd_same]
        refine closed_of_path (a := v1) (b := v0) ?_ ?_ ?_ ?_ (hlead false)
        · simp only [List.length_take, List.length_rotate]; omega
        · intro k p a b hk ha hb
          have hkj : k < j := by
            have := (List.getElem?_eq_some_iff.1 hk).1
            rw [List.length_take] at this; omega
          rw [List.getElem?_take_of_lt hkj] at hk
          rw [List.getElem?_take_of_lt (by omega)] at ha hb
          refine hc'.2 k p a b hk ha ?_
          rw [Nat.mod_eq_of_lt (by rw [List.length_rotate]; omega)]; exact hb
        · rw [List.length_take, Nat.min_eq_left (by omega), List.getElem?_take_of_lt (by omega)]; exact hj
        · rw [List.getElem?_take_of_lt (by omega)]; exact hr0
    · have hfe1 : T'.fe (T.nf+1) = some (((ps.rotate i).drop j ++ [(T.ne, true)]).map (·.1)) := by
        rw [w5, efe, upd_same]
      refine Closed.loop (by rw [w4, esf, upd_ne _ _ (Ne.symm hf1), upd_same]; rfl) hfe1 ?_ ?_ ?_
      · intro e he
        obtain ⟨p, hp, rfl⟩ := List.mem_map.1 he
        rcases List.mem_append.1 hp with hp | hp
        · exact hlive' p (Or.inl (hr1 p (List.mem_of_mem_drop hp)))
        · exact hlive' p (Or.inr (by rw [List.mem_singleton.1 hp]))
      · simp only [List.length_map, List.length_append, List.length_drop, List.length_singleton]; omega
      · rw [← edgesOf_some hfe1, hedges', eed, upd_same]
        refine closed_of_path (a := v0) (b := v1) ?_ ?_ ?_ ?_ (hlead true)
        · simp only [List.length_append, List.length_drop, List.length_rotate, List.length_singleton]; omega
        · intro k p a b hk ha hb
          rw [List.getElem?_drop] at hk
          have hkj : j + k < vs.length := by
            have := (List.getElem?_eq_some_iff.1 hk).1
            omega
          rw [List.getElem?_append_left (by rw [List.length_drop, List.length_rotate]; omega),
            List.getElem?_drop] at ha
          refine hc'.2 (j+k) p a b hk ha ?_
          rw [List.length_rotate]
          by_cases hlast : j + k + 1 < vs.length
          · rw [List.getElem?_append_left (by rw [List.length_drop, List.length_rotate]; omega),
              List.getElem?_drop] at hb
            rw [Nat.mod_eq_of_lt hlast]; exact hb
          · rw [List.getElem?_append_right (by rw [List.length_drop, List.length_rotate]; omega),
              List.length_drop, List.length_rotate, show k + 1 - (vs.length - j) = 0 by omega,
              List.getElem?_cons_zero] at hb
            rw [show j + k + 1 = vs.length by omega, Nat.mod_self, hr0]; exact hb
        · rw [List.length_drop, List.getElem?_append_right (by rw [List.length_drop, List.length_rotate]; omega),
            List.length_drop, hlr, List.length_rotate, Nat.sub_self]; rfl
        · rw [List.getElem?_append_left (by rw [List.length_drop, List.length_rotate]; omega),
            List.getElem?_drop, Nat.add_zero]; exact hj
    · show T'.sr = T.sr
      rw [w7, esr]
    · exact refaced_of h h' hmem erf erd ert (by rw [w7, esr]) w8 w9

/-- **C50, the vertices are joined already.**  The edge that joins them is returned and the mesh is
left alone. -/
theorem C50_joined_already {T : Topo} (h : T.Consistent) {f v0 v1 e : Nat} (hv : T.sv v0 = .live)
    (h0 : T.EdgeHas e v0) (h1 : T.EdgeHas e v1) :
    ∃ e', T.mfSplitWithEdge f v0 v1 = .ok (T, e') ∧ T.EdgeHas e' v0 ∧ T.EdgeHas e' v1 := by
  obtain ⟨o, c1, c2, c3⟩ := C42_common_edge h (b := v1) hv
  cases o with
  | none => exact absurd ⟨h0, h1⟩ (c3 rfl e)
  | some e' =>
    refine ⟨e', ?_, c2 e' rfl⟩
    unfold mfSplitWithEdge
    rw [c1, Res.bind_ok]; rfl

/-- **C50, a vertex that is not one of the face.**  The program is ended (`MSTK_FATAL`). -/
theorem C50_not_on_face {T : Topo} (h : T.Consistent) {f v0 v1 : Nat} {vs : List Nat}
    (hf : T.sf f = .live) (hloop : T.Loop f vs) (h32 : vs.length ≤ 32) (hv0 : T.sv v0 = .live)
    (hv1 : T.sv v1 = .live) (hnew : ∀ e, ¬ (T.EdgeHas e v0 ∧ T.EdgeHas e v1))
    (hno : v0 ∉ vs ∨ v1 ∉ vs) : T.mfSplitWithEdge f v0 v1 = .fatal := by
  obtain ⟨l, hfe, -, hlen, -⟩ := hloop.stored (alloc_of_live hf)
  have hel : ∀ e ∈ l, T.se e = .live := fun e he => h.ef.down f e hf (by
    show e ∈ (T.fe f).getD []
    rw [hfe]; exact he)
  obtain ⟨o, c1, c2, c3⟩ := C42_common_edge h (b := v1) hv0
  have ho : o = none := by
    cases o with
    | none => rfl
    | some e => exact absurd (c2 e rfl) (hnew e)
  subst ho
  have hc0 := hloop.closed (alloc_of_live hf) hfe (fun e he => alloc_of_live (hel e he))
  rw [← edgesOf_some hfe] at hc0
  have hpe : ∀ p ∈ T.edgesOf f, p.1 ∈ l := by
    intro p hp; rw [edgesOf_some hfe] at hp; exact mem_of_mem_pairs hp
  have hpl : (T.edgesOf f).length = vs.length := hc0.1
  have hrd := readFace_ok (alloc_of_live hf) hfe (by omega)
  generalize hps : T.edgesOf f = ps at *
  obtain ⟨Ta, T1, ra, rb, h1, u1, u2, u3, u4, u5, u6, u7, u8, u9, u10, u11, u12, u13, u14, u15⟩ :=
    newEdge_fields h hv0 hv1
  have heu : T.se T.ne = .unused := h.newE _ (Nat.le_refl _)
  have hne : ∀ p ∈ ps, p.1 ≠ T.ne := by
    intro p hp hc
    have := hel _ (hpe p hp)
    rw [hc, heu] at this; cases this
  have he1 : ∀ p ∈ ps, T1.se p.1 = .live := by
    intro p hp; rw [u2, upd_ne _ _ (hne p hp)]; exact hel _ (hpe p hp)
  have hc1 : T1.Closed ps vs := by
    refine ⟨hc0.1, fun k p a b hp ha hb => ?_⟩
    have := hc0.2 k p a b hp ha hb
    unfold Leads at this ⊢
    rw [u3, upd_ne _ _ (hne p (List.mem_of_getElem? hp))]; exact this
  have hfirst := firstAt_ok (T := T1) (v0 := v0) ps vs 0 hpl (hc1.tails (fun p hp => alloc_of_live (he1 p hp)))
  unfold mfSplitWithEdge
  rw [c1, Res.bind_ok]
  dsimp only
  rw [hrd, Res.bind_ok]
  rw [show T.meNew.2 = T.ne from rfl, ra, Res.bind_ok, rb, Res.bind_ok]
  unfold splitAlong
  rw [hfirst, Res.bind_ok]
  by_cases hm : v0 ∈ vs
  · rw [if_pos hm]
    dsimp only
    have hv1n : v1 ∉ vs := by
      rcases hno with hc | hc
      · exact absurd hm hc
      · exact hc
    have hil := List.idxOf_lt_length_of_mem hm
    have hpos : 0 < vs.length := by omega
    rw [walk_fatal (fun k => (vs[k % vs.length]?).getD 0)
      (hc1.heads (fun p hp => alloc_of_live (he1 p hp)) hpos) vs.length ps.length _ hpos (by omega) ?_ ?_]
    · rfl
    · rw [Nat.zero_add, Nat.add_mod_right, Nat.mod_eq_of_lt hil, List.getElem?_eq_getElem hil]
      exact List.getElem_idxOf hil
    · intro t _ _ hc
      have hlt : (0 + vs.idxOf v0 + t) % vs.length < vs.length := Nat.mod_lt _ hpos
      rw [List.getElem?_eq_getElem hlt] at hc
      exact hv1n (hc ▸ List.getElem_mem hlt)
  · rw [if_neg hm]; rfl

/-! ### the hypotheses are met -/

/-- executable form of "no live edge joins them" -/
def apartB (T : Topo) (a b : Nat) : Bool := (List.range T.ne).all fun e =>
  decide (T.se e ≠ .live) || !((decide (T.meVertex e false = .ok (some a)) || decide (T.meVertex e true = .ok (some a))) &&
    (decide (T.meVertex e false = .ok (some b)) || decide (T.meVertex e true = .ok (some b))))

theorem apartB_sound {T : Topo} (h : T.Consistent) {a b : Nat} (ha : T.apartB a b = true) :
    ∀ e, ¬ (T.EdgeHas e a ∧ T.EdgeHas e b) := by
  rintro e ⟨⟨h1, h2⟩, -, h3⟩
  have hlt : e < T.ne := by
    by_contra hc
    rw [h.newE e (by omega)] at h1; cases h1
  have := List.all_eq_true.1 ha e (List.mem_range.2 hlt)
  simp only [Bool.or_eq_true, decide_eq_true_iff, Bool.not_eq_true', Bool.and_eq_false_iff,
    Bool.or_eq_false_iff, decide_eq_false_iff_not] at this
  rcases this with hc | hc | hc
  · exact hc h1
  · rcases h2 with h2 | h2
    · exact hc.1 h2
    · exact hc.2 h2
  · rcases h3 with h3 | h3
    · exact hc.1 h3
    · exact hc.2 h3

/-- executable form of `RegionsReady` -/
def readyB (T : Topo) (n : Nat) : Bool := (List.range T.nr).all fun r => match T.mrFaces r with
  | .ok l => decide (l.length - 1 + n ≤ 512) && l.all fun g => match T.mfEdges g true none with
    | .ok _ => true
    | _ => false
  | _ => false

theorem readyB_sound {T : Topo} (h : T.Consistent) {f n : Nat} (hr : T.readyB n = true) :
    T.RegionsReady f n := by
  rintro r ⟨h1, -⟩
  have hlt : r < T.nr := by
    by_contra hc
    rw [h.newR r (by omega)] at h1; cases h1
  have := List.all_eq_true.1 hr r (List.mem_range.2 hlt)
  split at this
  · rename_i l hl
    rw [Bool.and_eq_true, decide_eq_true_iff, List.all_eq_true] at this
    refine ⟨l, hl, this.1, fun g hg => ?_⟩
    have hg' := this.2 g hg
    split at hg'
    · rename_i es hes; exact ⟨es, hes⟩
    · cases hg'
  · cases this

/-- two pyramids on the square 0, 1, 2, 3 with the tops 4 and 5 -/
def twoPyramids : List Op :=
  [.newVertex, .newVertex, .newVertex, .newVertex, .newVertex, .newVertex,
   .newFace, .setVertices 0 [0,1,2,3],
   .newFace, .setVertices 1 [0,1,4], .newFace, .setVertices 2 [1,2,4],
   .newFace, .setVertices 3 [2,3,4], .newFace, .setVertices 4 [3,0,4],
   .newFace, .setVertices 5 [0,1,5], .newFace, .setVertices 6 [1,2,5],
   .newFace, .setVertices 7 [2,3,5], .newFace, .setVertices 8 [3,0,5],
   .newRegion, .setFaces 0 [(0,false),(1,true),(2,true),(3,true),(4,true)],
   .newRegion, .setFaces 1 [(5,false),(6,false),(0,true),(7,false),(8,false)]]

/-- The square between the two pyramids is cut from vertex 3 to vertex 1. -/
example : ∃ T, empty.run twoPyramids = .ok T ∧ T.Consistent ∧ T.sf 0 = .live ∧ T.Loop 0 [0,1,2,3] ∧
    (∀ e, ¬ (T.EdgeHas e 3 ∧ T.EdgeHas e 1)) ∧ T.RegionsReady 0 2 ∧
    ∃ T', T.mfSplitWithEdge 0 3 1 = .ok (T', 12) ∧ T'.mfVertices 9 true none = .ok ([3,0,1].map some) ∧
      T'.mfVertices 10 true none = .ok ([1,2,3].map some) ∧ T'.mrFaces 1 = .ok [5,6,9,7,8,10] ∧
      T'.mrFaceDir 0 10 = .ok (some false) ∧ T'.mrFaceDir 1 10 = .ok (some true) := by
  obtain ⟨T, h1, h2⟩ := reachable (os := twoPyramids) (by decide +kernel)
  have hq : answer twoPyramids (fun T => .ok (decide (T.sf 0 = .live) && T.loopB 0 [0,1,2,3] &&
      T.apartB 3 1 && T.readyB 2 && match T.mfSplitWithEdge 0 3 1 with
      | .ok (T', e) => decide (e = 12) && decide (T'.mfVertices 9 true none = .ok ([3,0,1].map some)) &&
        decide (T'.mfVertices 10 true none = .ok ([1,2,3].map some)) &&
        decide (T'.mrFaces 1 = .ok [5,6,9,7,8,10]) && decide (T'.mrFaceDir 0 10 = .ok (some false)) &&
        decide (T'.mrFaceDir 1 10 = .ok (some true))
      | _ => false)) = .ok true := by decide +kernel
  unfold answer at hq
  rw [h1, Res.bind_ok, Res.ok.injEq] at hq
  simp only [Bool.and_eq_true, decide_eq_true_iff] at hq
  obtain ⟨⟨⟨⟨a, b⟩, c⟩, d⟩, e⟩ := hq
  refine ⟨T, h1, h2, a, loopB_sound b, apartB_sound h2 c, readyB_sound h2 d, ?_⟩
  split at e
  · rename_i T' e' he
    simp only [Bool.and_eq_true, decide_eq_true_iff] at e
    obtain ⟨⟨⟨⟨⟨rfl, e2⟩, e3⟩, e4⟩, e5⟩, e6⟩ := e
    exact ⟨T', he, e2, e3, e4, e5, e6⟩
  · cases e

end Topo
end MSTK
