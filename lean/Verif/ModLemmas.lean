import Verif.ModModel
import Verif.Props.Effects
import Verif.Props.Split
import Verif.Props.Common

/-!
Steps of the mesh modification operators (helper lemmas for C50 to C56).
-/
namespace MSTK
namespace Topo

/-! ### reading a face -/

theorem readDirs_ok {T : Topo} {f : Nat} (hf : (T.sf f).alloc) : ∀ (l : List Nat) (i : Nat),
    i + l.length ≤ 64 → T.readDirs f l i = .ok (l.mapIdx fun j e => (e, fbit (T.fd f) (i+j))) := by
  intro l
  induction l with
  | nil => intro i _; rfl
  | cons e es ih =>
    intro i hi
    rw [List.length_cons] at hi
    rw [show T.readDirs f (e :: es) i = (T.mfEdgeDir_i f i >>= fun d => T.readDirs f es (i+1) >>= fun r =>
      pure ((e, d) :: r)) from rfl]
    unfold mfEdgeDir_i
    rw [derefF_ok hf, Res.bind_ok, bit_ok _ (by omega), Res.bind_ok, ih (i+1) (by omega), Res.bind_ok,
      Res.pure_eq, List.mapIdx_cons]
    simp only [Nat.add_assoc, Nat.add_comm 1, Nat.add_zero]

theorem readFace_ok {T : Topo} {f : Nat} {l : List Nat} (hf : (T.sf f).alloc) (hl : T.fe f = some l)
    (h64 : l.length ≤ 64) : T.readFace f = .ok (T.edgesOf f) := by
  unfold readFace
  rw [mfEdges_plain hf hl, Res.bind_ok, readDirs_ok hf l 0 (by omega), edgesOf_some hl]
  unfold pairs
  simp only [Nat.zero_add]

/-! ### new edges and faces -/

/-- a new edge from `a` to `b` -/
theorem newEdge_fields {T : Topo} (h : T.Consistent) {a b : Nat} (ha : T.sv a = .live)
    (hb : T.sv b = .live) : ∃ T0 T', T.meNew.1.meSetVertex T.ne false a = .ok T0 ∧
      T0.meSetVertex T.ne true b = .ok T' ∧ T'.Consistent ∧ T'.sv = T.sv ∧
      T'.se = upd T.se T.ne .live ∧ T'.ev = upd T.ev T.ne (some a, some b) ∧ T'.sf = T.sf ∧
      T'.fe = T.fe ∧ T'.fd = T.fd ∧ T'.fr = T.fr ∧ T'.sr = T.sr ∧ T'.rf = T.rf ∧ T'.rd = T.rd ∧
      T'.rt = T.rt ∧ T'.nv = T.nv ∧ T'.ne = T.ne + 1 ∧ T'.nf = T.nf ∧ T'.nr = T.nr := by
  obtain ⟨ve, r, hc⟩ := newEdge_ok h ha hb
  obtain ⟨T0, r0, r1⟩ := Res.bind_eq_ok.1 r
  exact ⟨T0, _, r0, r1, hc, rfl, rfl, rfl, rfl, rfl, rfl, rfl, rfl, rfl, rfl, rfl, rfl, rfl, rfl, rfl⟩

/-- a new face with the edges `es` -/
theorem newFaceE_ok {T : Topo} (h : T.Consistent) {es : List (Nat × Bool)} (hn : es.length ≤ 32)
    (hes : ∀ p ∈ es, T.se p.1 = .live) : ∃ T', T.mfNew.1.mfSetEdges T.nf es = .ok T' ∧ T'.Consistent ∧
      T'.sv = T.sv ∧ T'.ve = T.ve ∧ T'.se = T.se ∧ T'.ev = T.ev ∧ T'.sf = upd T.sf T.nf .live ∧
      T'.fe = upd T.fe T.nf (some (es.map (·.1))) ∧ T'.edgesOf = upd T.edgesOf T.nf es ∧
      T'.fr = upd T.fr T.nf (none, none) ∧ T'.sr = T.sr ∧ T'.rf = T.rf ∧ T'.rd = T.rd ∧ T'.rt = T.rt ∧
      T'.nv = T.nv ∧ T'.ne = T.ne ∧ T'.nf = T.nf + 1 ∧ T'.nr = T.nr := by
  have h0 := h.newFace
  have hf0 : T.mfNew.1.sf T.nf = .live := upd_same _ _ _
  have hfe0 : T.mfNew.1.fe T.nf = none := upd_same _ _ _
  obtain ⟨d', r2, hp⟩ := mfSetEdges_ok (T := T.mfNew.1) (f := T.nf) (es := es) (alloc_of_live hf0) hn
    (fun p hp => alloc_of_live (hes p hp))
  obtain ⟨T2, r3, h3⟩ := h0.setEdges hf0 (by rw [hfe0]; rfl) (es := es) hn hes
  have : Res.ok T2 = _ := r3.symm.trans r2
  injection this with hT2
  have hfe : T2.fe = upd T.fe T.nf (some (es.map (·.1))) := by
    rw [hT2]; exact upd_upd _ _ _ _
  have hfd : T2.fd = upd T.fd T.nf d' := by
    rw [hT2]; exact upd_upd _ _ _ _
  refine ⟨T2, r3, h3, ?_, ?_, ?_, ?_, ?_, hfe, edgesOf_upd hfe hfd hp, ?_, ?_, ?_, ?_, ?_, ?_, ?_, ?_, ?_⟩ <;>
    (rw [hT2]; rfl)

/-! ### exchanging a face in its regions -/

/-- exchange `f` for the faces `nus d` in the regions of the list, `d` being the direction in which
the region uses `f` -/
def inRegions (f : Nat) (nus : Bool → List (Nat × Bool)) : List Nat → Topo → Res Topo
  | [], T => .ok T
  | r :: rs, T => do
    let d ← T.mrFaceDir r f
    let d ← Res.ofOption d
    let T ← T.mrReplaceFaces r [f] (nus d)
    inRegions f nus rs T

theorem replaceInRegions_eq (f : Nat) (nu : List Nat) : ∀ (rs : List Nat) (T : Topo),
    replaceInRegions f nu rs T = inRegions f (fun d => nu.map fun g => (g, d)) rs T := by
  intro rs
  induction rs with
  | nil => intro T; rfl
  | cons r rs ih => intro T; simp only [replaceInRegions, inRegions, ih]

theorem mergeInRegions_eq (f1 f2 : Nat) (same : Bool) : ∀ (rs : List Nat) (T : Topo),
    mergeInRegions f1 f2 same rs T =
      inRegions f2 (fun d => [(f1, if same then d else !d)]) rs T := by
  intro rs
  induction rs with
  | nil => intro T; rfl
  | cons r rs ih => intro T; simp only [mergeInRegions, inRegions, ih]

theorem exchanged_perm {f : Nat} {d : Bool} {nu ps : List (Nat × Bool)} (hn : (ps.map (·.1)).Nodup)
    (hm : (f, d) ∈ ps) (hne : nu ≠ []) :
    (ps.map (exchanged [f] nu) ++ nu.drop 1).Perm (nu ++ ps.filter fun p => p.1 ≠ f) := by
  obtain ⟨q, rest, rfl⟩ := List.exists_cons_of_ne_nil hne
  obtain ⟨a, b, rfl⟩ := List.append_of_mem hm
  have hself : exchanged [f] (q :: rest) (f, d) = q := by
    unfold exchanged; simp
  have hoth : ∀ p : Nat × Bool, p.1 ≠ f → exchanged [f] (q :: rest) p = p := by
    intro p hp
    unfold exchanged
    rw [lookup_zip_none (by simpa using hp)]; rfl
  rw [List.map_append, List.map_cons, List.nodup_append, List.nodup_cons] at hn
  obtain ⟨-, ⟨hb, -⟩, hab⟩ := hn
  have ha' : ∀ p ∈ a, p.1 ≠ f := fun p hp hc =>
    hab p.1 (List.mem_map_of_mem hp) f (by simp) hc
  have hb' : ∀ p ∈ b, p.1 ≠ f := fun p hp hc => hb (by
    show f ∈ _
    rw [← hc]; exact List.mem_map_of_mem hp)
  rw [List.map_append, List.map_cons, hself, List.map_congr_left (fun p hp => hoth p (ha' p hp)),
    List.map_congr_left (fun p hp => hoth p (hb' p hp)), List.map_id'', List.map_id'', List.filter_append,
    List.filter_cons, List.filter_eq_self.2 (by intro p hp; simpa using ha' p hp),
    List.filter_eq_self.2 (by intro p hp; simpa using hb' p hp)]
  · simp only [ne_eq, not_true_eq_false, decide_false, Bool.false_eq_true, if_false, List.drop_one, List.tail_cons]
    rw [List.append_assoc, List.cons_append]
    refine List.perm_middle.trans ?_
    rw [List.cons_append]
    refine List.Perm.cons _ ?_
    rw [← List.append_assoc]
    exact List.perm_append_comm
  · intro p; rfl
  · intro p; rfl

/-- what a region must be like for `f` to be exchanged in it -/
structure Ready (T : Topo) (f : Nat) (nus : Bool → List (Nat × Bool)) (r : Nat) (d : Bool) : Prop where
  live : T.sr r = .live
  has : (f, d) ∈ facesOf T.rf T.rd r
  free : ∀ p ∈ nus d, T.sf p.1 = .live ∧ p.1 ∉ (T.rf r).getD [] ∧ (∃ l, T.fe p.1 = some l) ∧
    ∀ z, T.sr z = .live → p ∉ facesOf T.rf T.rd z
  room : ((T.rf r).getD []).length + (nus d).length ≤ 513
  sized : T.Sized ((T.rf r).getD [])

/-- the stored type of a region is that of its faces -/
def TypeStored (T : Topo) (r : Nat) : Prop :=
  ∃ l, T.rf r = some l ∧ T.rt r = typeOf T l ∧ T.Sized l

theorem TypeStored.congr {T T' : Topo} {r : Nat} (h : T.TypeStored r) (h1 : T'.rf r = T.rf r)
    (h2 : T'.rt r = T.rt r) (h3 : ∀ x ∈ (T.rf r).getD [], T'.fe x = T.fe x) : T'.TypeStored r := by
  obtain ⟨l, a, b, c⟩ := h
  rw [a] at h3
  refine ⟨l, h1.trans a, h2.trans (b.trans ?_), fun x hx => by rw [h3 x hx]; exact c x hx⟩
  unfold typeOf
  congr 1
  have hm : (l.map fun f => ((T.fe f).getD []).length) = l.map fun f => ((T'.fe f).getD []).length :=
    List.map_congr_left fun x hx => by rw [h3 x hx]
  rw [hm]

theorem TypeStored.typed {T : Topo} {r : Nat} (h : T.TypeStored r) (hc : T.Consistent)
    (hr : T.sr r = .live) : T.Typed r := by
  obtain ⟨l, a, b, c⟩ := h
  exact typed_of (alloc_of_live hr) a b (fun x hx => alloc_of_live (hc.rfacesLive hr (by rw [a]; exact hx))) c

/-- The faces of one region exchanged. -/
theorem inRegion_ok {T : Topo} (h : T.Consistent) {f r : Nat} {d : Bool}
    {nus : Bool → List (Nat × Bool)} (hnd : ∀ d, ((nus d).map (·.1)).Nodup) (hne : ∀ d, nus d ≠ [])
    (hr : Ready T f nus r d) : ∃ T', T.mrReplaceFaces r [f] (nus d) = .ok T' ∧ T'.Consistent ∧
      OnlyFaces T T' r ∧ T'.TypeStored r ∧
      (facesOf T'.rf T'.rd r).Perm (nus d ++ (facesOf T.rf T.rd r).filter fun p => p.1 ≠ f) := by
  obtain ⟨l, hl⟩ : ∃ l, T.rf r = some l := by
    cases hl : T.rf r with
    | none => have := hr.has; unfold facesOf at this; rw [hl] at this; simp [pairs] at this
    | some l => exact ⟨l, rfl⟩
  have hfree := hr.free
  have hroom := hr.room
  have hsized := hr.sized
  rw [hl] at hfree hroom hsized
  simp only [Option.getD_some] at hfree hroom hsized
  have hfl : f ∈ l := by
    have : f ∈ (T.rf r).getD [] := mem_facesOf_iff.2 ⟨d, hr.has⟩
    rw [hl] at this; exact this
  have hll : 0 < l.length := List.length_pos_of_mem hfl
  have hnl : 0 < (nus d).length := List.length_pos_iff.2 (hne d)
  have hs2 : T.Sized ((nus d).map (·.1)) := by
    intro g hg
    obtain ⟨p, hp, rfl⟩ := List.mem_map.1 hg
    exact (hfree p hp).2.2.1
  obtain ⟨T', l', r1, h1, h2, h3, h4, h5⟩ := mrReplaceFaces_ok (old := [f]) (nu := nus d) h hr.live hl
    (by simp) (by simpa using hfl) (hnd d) hnl
    (by simp only [List.length_singleton]; omega)
    (by
      intro p hp
      refine ⟨(hfree p hp).1, (hfree p hp).2.1, ?_⟩
      cases hc : endAt (T.fr p.1) (!p.2) with
      | none => rfl
      | some z =>
        obtain ⟨hz1, hz2⟩ := (h.fr.mem p.1 (alloc_of_live (hfree p hp).1) z p.2).1 hc
        exact absurd hz2 ((hfree p hp).2.2.2 z hz1))
    hsized hs2
  have hperm := exchanged_perm (f := f) (d := d) (nu := nus d) (ps := facesOf T.rf T.rd r)
    (by rw [facesOf_map_fst, hl]; exact (h.reg r l (alloc_of_live hr.live) hl).1) hr.has (hne d)
  rw [List.length_singleton] at h5
  rw [← h5] at hperm
  refine ⟨T', r1, h1, h2, ⟨l', h3, ?_, ?_⟩, hperm⟩
  · rw [h4]; unfold typeOf; rw [h2.fe]
  · intro g hg
    rw [h2.fe]
    have : g ∈ (facesOf T'.rf T'.rd r).map (·.1) := by rw [facesOf_map_fst, h3]; exact hg
    obtain ⟨p, hp, rfl⟩ := List.mem_map.1 this
    rcases List.mem_append.1 (hperm.mem_iff.1 hp) with hp | hp
    · exact hs2 _ (List.mem_map_of_mem hp)
    · refine hsized _ ?_
      have : p.1 ∈ (facesOf T.rf T.rd r).map (·.1) := List.mem_map_of_mem (List.mem_filter.1 hp).1
      rw [facesOf_map_fst, hl] at this
      exact this

/-- only the faces of the regions `rs` differ -/
structure OnlyRegions (T T' : Topo) (rs : List Nat) : Prop where
  sv : T'.sv = T.sv
  ve : T'.ve = T.ve
  se : T'.se = T.se
  ev : T'.ev = T.ev
  ef : T'.ef = T.ef
  sf : T'.sf = T.sf
  fe : T'.fe = T.fe
  fd : T'.fd = T.fd
  sr : T'.sr = T.sr
  rest : ∀ z, z ∉ rs → T'.rt z = T.rt z ∧ T'.rf z = T.rf z ∧ T'.rd z = T.rd z

theorem inRegions_ok {f : Nat} {nus : Bool → List (Nat × Bool)}
    (hdis : ∀ d p, p ∈ nus d → p ∉ nus (!d)) (hnd : ∀ d, ((nus d).map (·.1)).Nodup)
    (hne : ∀ d, nus d ≠ []) : ∀ (rs : List Nat) (T : Topo), T.Consistent → T.sf f = .live → rs.Nodup →
    (∀ r ∈ rs, ∃ d, Ready T f nus r d) →
    ∃ T', inRegions f nus rs T = .ok T' ∧ T'.Consistent ∧ OnlyRegions T T' rs ∧
      ∀ r ∈ rs, T'.TypeStored r ∧ ∃ d, (f, d) ∈ facesOf T.rf T.rd r ∧
        (facesOf T'.rf T'.rd r).Perm (nus d ++ (facesOf T.rf T.rd r).filter fun p => p.1 ≠ f) := by
  intro rs
  induction rs with
  | nil =>
    intro T h _ _ _
    exact ⟨T, rfl, h, ⟨rfl, rfl, rfl, rfl, rfl, rfl, rfl, rfl, rfl, fun _ _ => ⟨rfl, rfl, rfl⟩⟩, by simp⟩
  | cons r rs ih =>
    intro T h hf hrs hall
    obtain ⟨hrn, hrs'⟩ := List.nodup_cons.1 hrs
    obtain ⟨d, hr⟩ := hall r (by simp)
    obtain ⟨T1, r1, h1, h2, h3, h4⟩ := inRegion_ok h hnd hne hr
    have hsame : ∀ z, z ≠ r → facesOf T1.rf T1.rd z = facesOf T.rf T.rd z := by
      intro z hz; unfold facesOf; rw [h2.rf z hz, h2.rd z hz]
    have hready : ∀ z ∈ rs, ∃ d, Ready T1 f nus z d := by
      intro z hz
      have hzr : z ≠ r := by rintro rfl; exact hrn hz
      obtain ⟨d', hr'⟩ := hall z (by simp [hz])
      have hdd : d' = !d := by
        by_contra hc
        have hc : d' = d := by cases d <;> cases d' <;> simp_all
        subst hc
        have e1 := (h.fr.mem f (alloc_of_live hf) r d').2 ⟨hr.live, hr.has⟩
        have e2 := (h.fr.mem f (alloc_of_live hf) z d').2 ⟨hr'.live, hr'.has⟩
        rw [e1] at e2; injection e2 with e2; exact hzr e2.symm
      refine ⟨d', by rw [h2.sr]; exact hr'.live, by rw [hsame z hzr]; exact hr'.has, ?_, ?_, ?_⟩
      · intro p hp
        obtain ⟨q1, q2, q3, q4⟩ := hr'.free p hp
        refine ⟨by rw [h2.sf]; exact q1, by rw [h2.rf z hzr]; exact q2, by rw [h2.fe]; exact q3, ?_⟩
        intro y hy hc
        rw [h2.sr] at hy
        by_cases hyr : y = r
        · subst hyr
          rcases List.mem_append.1 (h4.mem_iff.1 hc) with hc | hc
          · exact hdis d p hc (hdd ▸ hp)
          · exact q4 y hy (List.mem_filter.1 hc).1
        · rw [hsame y hyr] at hc; exact q4 y hy hc
      · rw [h2.rf z hzr]; exact hr'.room
      · rw [h2.rf z hzr]; intro g hg; rw [h2.fe]; exact hr'.sized g hg
    obtain ⟨T2, r2, k1, k2, k3⟩ := ih T1 h1 (by rw [h2.sf]; exact hf) hrs' hready
    refine ⟨T2, ?_, k1, ?_, ?_⟩
    · rw [show inRegions f nus (r :: rs) T = (T.mrFaceDir r f >>= fun d => Res.ofOption d >>= fun d =>
        T.mrReplaceFaces r [f] (nus d) >>= fun T => inRegions f nus rs T) from rfl,
        (mrFaceDir_iff h hr.live).2 hr.has, Res.bind_ok, Res.ofOption_some, Res.bind_ok, r1, Res.bind_ok, r2]
    · refine ⟨k2.sv.trans h2.sv, k2.ve.trans h2.ve, k2.se.trans h2.se, k2.ev.trans h2.ev, k2.ef.trans h2.ef,
        k2.sf.trans h2.sf, k2.fe.trans h2.fe, k2.fd.trans h2.fd, k2.sr.trans h2.sr, ?_⟩
      intro z hz
      rw [List.mem_cons, not_or] at hz
      obtain ⟨a1, a2, a3⟩ := k2.rest z hz.2
      exact ⟨a1.trans (h2.rt z hz.1), a2.trans (h2.rf z hz.1), a3.trans (h2.rd z hz.1)⟩
    · intro z hz
      rcases List.mem_cons.1 hz with rfl | hz
      · obtain ⟨a1, a2, a3⟩ := k2.rest z hrn
        have hfz : facesOf T2.rf T2.rd z = facesOf T1.rf T1.rd z := by unfold facesOf; rw [a2, a3]
        exact ⟨h3.congr a2 a1 (fun x _ => by rw [k2.fe]), d, hr.has, by rw [hfz]; exact h4⟩
      · have hzr : z ≠ r := fun hc => hrn (hc ▸ hz)
        obtain ⟨b1, d', b2, b3⟩ := k3 z hz
        rw [hsame z hzr] at b2 b3
        exact ⟨b1, d', b2, b3⟩

/-- The end of a face that was exchanged for the faces `nu`: `rs` are its regions. -/
theorem retireFace_ok {T : Topo} (h : T.Consistent) {f : Nat} (hf : T.sf f = .live) {nu rs : List Nat}
    (hnn : nu.Nodup) (hne : nu ≠ []) (hfn : f ∉ nu)
    (hnu : ∀ g ∈ nu, T.sf g = .live ∧ (∃ l, T.fe g = some l) ∧
      ∀ z d, T.sr z = .live → (g, d) ∉ facesOf T.rf T.rd z)
    (hrs : rs.Nodup) (hmem : ∀ r, r ∈ rs ↔ T.sr r = .live ∧ f ∈ (T.rf r).getD [])
    (hroom : ∀ r ∈ rs, ((T.rf r).getD []).length + nu.length ≤ 513 ∧ T.Sized ((T.rf r).getD [])) :
    ∃ T', (replaceInRegions f nu rs T >>= fun T => T.mfDelete f false) = .ok T' ∧ T'.Consistent ∧
      T'.sv = T.sv ∧ T'.se = T.se ∧ T'.ev = T.ev ∧ T'.sf = upd T.sf f .freed ∧ T'.fe = T.fe ∧
      T'.fd = T.fd ∧ T'.sr = T.sr ∧
      (∀ z, z ∉ rs → T'.rt z = T.rt z ∧ T'.rf z = T.rf z ∧ T'.rd z = T.rd z) ∧
      ∀ r ∈ rs, T'.TypeStored r ∧ ∃ d, (f, d) ∈ facesOf T.rf T.rd r ∧
        (facesOf T'.rf T'.rd r).Perm
          (nu.map (fun g => (g, d)) ++ (facesOf T.rf T.rd r).filter fun p => p.1 ≠ f) := by
  have hready : ∀ r ∈ rs, ∃ d, Ready T f (fun d => nu.map fun g => (g, d)) r d := by
    intro r hr
    obtain ⟨h1, h2⟩ := (hmem r).1 hr
    obtain ⟨d, hd⟩ := mem_facesOf_iff.1 h2
    refine ⟨d, h1, hd, ?_, by rw [List.length_map]; exact (hroom r hr).1, (hroom r hr).2⟩
    intro p hp
    obtain ⟨g, hg, rfl⟩ := List.mem_map.1 hp
    obtain ⟨a, b, c⟩ := hnu g hg
    refine ⟨a, ?_, b, fun z hz => c z d hz⟩
    intro hc
    obtain ⟨d', hd'⟩ := mem_facesOf_iff.1 hc
    exact c r d' h1 hd'
  obtain ⟨T1, r1, h1, h2, h3⟩ := inRegions_ok (f := f) (nus := fun d => nu.map fun g => (g, d))
    (by
      intro d p hp hc
      obtain ⟨g, _, rfl⟩ := List.mem_map.1 hp
      obtain ⟨g', _, hg'⟩ := List.mem_map.1 hc
      have := congrArg Prod.snd hg'
      cases d <;> simp at this)
    (by
      intro d
      rw [List.map_map, show (fun x : Nat × Bool => x.1) ∘ (fun g : Nat => (g, d)) = id from rfl, List.map_id]
      exact hnn)
    (by intro d; simpa using hne) rs T h hf hrs hready
  have hno : ∀ r d, T1.sr r = .live → (f, d) ∉ facesOf T1.rf T1.rd r := by
    intro r d hr hc
    rw [h2.sr] at hr
    by_cases hrr : r ∈ rs
    · obtain ⟨-, d', -, hp⟩ := h3 r hrr
      rcases List.mem_append.1 (hp.mem_iff.1 hc) with hc | hc
      · obtain ⟨g, hg, hg'⟩ := List.mem_map.1 hc
        have : g = f := congrArg Prod.fst hg'
        exact hfn (this ▸ hg)
      · simpa using (List.mem_filter.1 hc).2
    · obtain ⟨-, a, b⟩ := h2.rest r hrr
      refine hrr ((hmem r).2 ⟨hr, mem_facesOf_iff.2 ⟨d, ?_⟩⟩)
      unfold facesOf at hc ⊢
      rwa [a, b] at hc
  have hf1 : T1.sf f = .live := by rw [h2.sf]; exact hf
  obtain ⟨T2, r2, h4⟩ := h1.delFace (k := false) (alloc_of_live hf1) hno
  have e2 := mfDelete_ok (keep := false) hf1 (fun e he => alloc_of_live (h1.ef.down f e hf1 he))
  have : Res.ok T2 = _ := r2.symm.trans e2
  injection this with hT2
  refine ⟨T2, ?_, h4, ?_, ?_, ?_, ?_, ?_, ?_, ?_, ?_, ?_⟩
  · rw [replaceInRegions_eq, r1, Res.bind_ok, r2]
  · rw [hT2]; exact h2.sv
  · rw [hT2]; exact h2.se
  · rw [hT2]; exact h2.ev
  · rw [hT2]; dsimp only; rw [h2.sf]; rfl
  · rw [hT2]; exact h2.fe
  · rw [hT2]; exact h2.fd
  · rw [hT2]; exact h2.sr
  · rw [hT2]; exact h2.rest
  · intro r hr
    obtain ⟨a, b⟩ := h3 r hr
    have e1 : T2.rf = T1.rf := by rw [hT2]
    have e2 : T2.rd = T1.rd := by rw [hT2]
    refine ⟨a.congr (by rw [e1]) (by rw [hT2]) (fun x _ => by rw [hT2]), ?_⟩
    rw [e1, e2]
    exact b

/-! ### walking round a face -/

theorem take_rotate_succ {α : Type} {l : List α} {x : α} {i j : Nat} (hx : l[i % l.length]? = some x)
    (hj : j + 1 ≤ l.length) : (l.rotate i).take (j+1) = x :: (l.rotate (i+1)).take j := by
  have h0 : (l.rotate i)[0]? = some x := by
    rw [List.getElem?_rotate (by omega), Nat.zero_add]; exact hx
  cases hl : l.rotate i with
  | nil => rw [hl] at h0; simp at h0
  | cons y tl =>
    rw [hl] at h0
    simp only [List.getElem?_cons_zero, Option.some.injEq] at h0
    subst h0
    have : l.rotate (i+1) = tl ++ [y] := by
      rw [← List.rotate_rotate, hl, List.rotate_cons_succ, List.rotate_zero]
    have hlen := congrArg List.length hl
    rw [List.length_rotate, List.length_cons] at hlen
    rw [this, List.take_succ_cons, List.take_append_of_le_length (by omega)]

/-- the walk from edge `i` on reaches `stop` with the `j`-th edge -/
theorem walk_ok {T : Topo} {ps : List (Nat × Bool)} {stop bad : Nat} (w : Nat → Nat)
    (hw : ∀ k, ∃ p, ps[k % ps.length]? = some p ∧ T.meVertex p.1 p.2 = .ok (some (w (k+1)))) :
    ∀ (j n i : Nat), 0 < j → j ≤ ps.length → j ≤ n → w (i+j) = stop →
    (∀ t, 0 < t → t < j → w (i+t) ≠ stop ∧ w (i+t) ≠ bad) →
    T.walk ps stop bad n i = .ok ((ps.rotate i).take j, i+j-1) := by
  intro j
  induction j with
  | zero => intro n i h; omega
  | succ j ih =>
    intro n i _ hj hn hs ht
    obtain ⟨n, rfl⟩ : ∃ m, n = m + 1 := ⟨n-1, by omega⟩
    obtain ⟨p, hp, hv⟩ := hw i
    rw [show T.walk ps stop bad (n+1) i = (Res.ofOption ps[i % ps.length]? >>= fun p =>
      T.meVertex p.1 p.2 >>= fun v => if v = some stop then pure ([p], i)
      else if v = some bad then .fatal else
        T.walk ps stop bad n (i+1) >>= fun r => pure (p :: r.1, r.2)) from rfl,
      hp, Res.ofOption_some, Res.bind_ok, hv, Res.bind_ok, take_rotate_succ hp hj]
    cases j with
    | zero => rw [if_pos (by rw [hs]), List.take_zero]; rfl
    | succ j =>
      obtain ⟨h1, h2⟩ := ht 1 (by omega) (by omega)
      rw [if_neg (fun hc => h1 (Option.some.inj hc)), if_neg (fun hc => h2 (Option.some.inj hc)),
        ih n (i+1) (by omega) (by omega) (by omega) (by rw [← hs]; congr 1; omega)
          (fun t a b => by have := ht (t+1) (by omega) (by omega); rwa [show i + (t+1) = i+1+t by omega] at this),
        Res.bind_ok, Res.pure_eq]
      congr 2
      omega

/-- the walk from edge `i` on comes to `bad` with the `j`-th edge -/
theorem walk_fatal {T : Topo} {ps : List (Nat × Bool)} {stop bad : Nat} (w : Nat → Nat)
    (hw : ∀ k, ∃ p, ps[k % ps.length]? = some p ∧ T.meVertex p.1 p.2 = .ok (some (w (k+1)))) :
    ∀ (j n i : Nat), 0 < j → j ≤ n → w (i+j) = bad → (∀ t, 0 < t → t ≤ j → w (i+t) ≠ stop) →
    T.walk ps stop bad n i = .fatal := by
  intro j
  induction j with
  | zero => intro n i h; omega
  | succ j ih =>
    intro n i _ hn hs ht
    obtain ⟨n, rfl⟩ : ∃ m, n = m + 1 := ⟨n-1, by omega⟩
    obtain ⟨p, hp, hv⟩ := hw i
    rw [show T.walk ps stop bad (n+1) i = (Res.ofOption ps[i % ps.length]? >>= fun p =>
      T.meVertex p.1 p.2 >>= fun v => if v = some stop then pure ([p], i)
      else if v = some bad then .fatal else
        T.walk ps stop bad n (i+1) >>= fun r => pure (p :: r.1, r.2)) from rfl,
      hp, Res.ofOption_some, Res.bind_ok, hv, Res.bind_ok,
      if_neg (fun hc => ht 1 (by omega) (by omega) (Option.some.inj hc))]
    by_cases hb : w (i+1) = bad
    · rw [if_pos (by rw [hb])]
    · rw [if_neg (fun hc => hb (Option.some.inj hc))]
      cases j with
      | zero => exact absurd hs hb
      | succ j =>
        rw [ih n (i+1) (by omega) (by omega) (by rw [← hs]; congr 1; omega)
          (fun t a b => by have := ht (t+1) (by omega) (by omega); rwa [show i + (t+1) = i+1+t by omega] at this),
          Res.bind_fatal]

theorem firstAt_ok {T : Topo} {v0 : Nat} : ∀ (ps : List (Nat × Bool)) (vs : List Nat) (i : Nat),
    ps.length = vs.length → (∀ (k : Nat) p, ps[k]? = some p → T.meVertex p.1 (!p.2) = .ok vs[k]?) →
    T.firstAt v0 ps i = .ok (if v0 ∈ vs then some (i + vs.idxOf v0) else none) := by
  intro ps
  induction ps with
  | nil =>
    intro vs i hlen _
    rw [List.eq_nil_of_length_eq_zero hlen.symm]; rfl
  | cons p ps ih =>
    intro vs i hlen hall
    cases vs with
    | nil => simp at hlen
    | cons v vs =>
      have h0 := hall 0 p rfl
      rw [show T.firstAt v0 (p :: ps) i = (T.meVertex p.1 (!p.2) >>= fun v =>
        if v = some v0 then pure (some i) else T.firstAt v0 ps (i+1)) from rfl, h0, Res.bind_ok,
        List.getElem?_cons_zero]
      by_cases hv : v = v0
      · subst hv; rw [if_pos rfl, if_pos (by simp), List.idxOf_cons_self]; rfl
      · rw [if_neg (fun hc => hv (Option.some.inj hc)),
          ih vs (i+1) (by simpa using hlen) (fun k p hk => by
            have := hall (k+1) p (by simpa using hk)
            simpa using this)]
        have hv' : v0 ≠ v := fun hc => hv hc.symm
        by_cases hm : v0 ∈ vs
        · rw [if_pos hm, if_pos (by simp [hm]), List.idxOf_cons_ne _ (fun hc => hv hc)]
          congr 2; omega
        · rw [if_neg hm, if_neg (by simp [hm, hv'])]

end Topo
end MSTK
