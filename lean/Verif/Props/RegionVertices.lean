import Verif.RegionPoly
import Verif.Props.RegionEdits

/-!
C48: a region defined by its vertices has the faces of the element, each seen from outside.

Specification: `stdCycles` lists the faces of the standard elements as cycles of vertices seen from
outside (the numbering of the MSTK documentation); `Uses` reads off the queries `MR_FaceDir` and
`MF_Vertices` that a region has a face and sees it from outside as a given cycle.
-/
namespace MSTK
namespace Topo

/-! ### Specification -/

/-- The faces of a standard element with the given vertices, counterclockwise from outside. -/
def stdCycles : List Nat → List (List Nat)
  | [a,b,c,d] => [[a,c,b],[a,b,d],[b,c,d],[a,d,c]]
  | [a,b,c,d,e] => [[a,d,c,b],[a,b,e],[b,c,e],[c,d,e],[d,a,e]]
  | [a,b,c,d,e,f] => [[a,c,b],[d,e,f],[a,b,e,d],[b,c,f,e],[c,a,d,f]]
  | [a,b,c,d,e,f,g,h] => [[a,d,c,b],[e,f,g,h],[a,b,f,e],[b,c,g,f],[c,d,h,g],[d,a,e,h]]
  | _ => []

/-- The element type for a number of vertices. -/
def stdType : Nat → MRType
  | 4 => .tet
  | 5 => .pyramid
  | 6 => .prism
  | 8 => .hex
  | _ => .runknown

/-- The live region `r` has the face `f`, and `MF_Vertices(f,MR_FaceDir(r,f),c[0])` lists `c`. -/
def Uses (T : Topo) (r f : Nat) (c : List Nat) : Prop :=
  T.sr r = .live ∧ ∃ d, T.mrFaceDir r f = .ok (some d) ∧ T.Seen f d c

/-- Everything that was there answers the queries as before, except region `r`. -/
structure KeptBut (T T' : Topo) (r : Nat) : Prop where
  vertices : ∀ v, T'.sv v = .live ↔ T.sv v = .live
  edges : ∀ e, T.se e = .live → T'.se e = .live ∧ ∀ i, T'.meVertex e i = T.meVertex e i
  faces : ∀ f, T.sf f = .live → T'.sf f = .live ∧ T'.mfEdges f true none = T.mfEdges f true none ∧
    ∀ i, T'.mfEdgeDir_i f i = T.mfEdgeDir_i f i
  regions : ∀ o, T'.sr o = .live ↔ T.sr o = .live
  others : ∀ o, o ≠ r → T.sr o = .live → T'.mrFaces o = T.mrFaces o ∧ ∀ f, T'.mrFaceDir o f = T.mrFaceDir o f

/-! ### the last step -/

theorem freeSide_of_unused {T : Topo} (h : T.Consistent) {c : List Nat} (hno : ∀ o f, ¬ T.Uses o f c) :
    T.FreeSide c := by
  intro f d hf hs
  cases ho : endAt (T.fr f) (!d) with
  | none => rfl
  | some o =>
    obtain ⟨h1, h2⟩ := (h.fr.mem f (alloc_of_live hf) o d).1 ho
    exact absurd ⟨h1, d, (mrFaceDir_iff h h1).2 h2, hs⟩ (hno o f)

/-- Queries of faces and loops do not depend on what `MR_Set_Faces` changes. -/
theorem loop_setFaces {T : Topo} {rf rd fr rt} {f : Nat} {ws : List Nat} (hl : T.Loop f ws) :
    Loop { T with rf := rf, rd := rd, fr := fr, rt := rt } f ws := hl

theorem setFaces_out {T T1 : Topo} {r : Nat} {fs : List (Nat × Bool)} {cs : List (List Nat)}
    (hr : T.sr r = .live) (hr0 : (T.rf r).getD [] = []) (ho : LoopOut T T1 fs cs)
    (hc3 : ∀ c ∈ cs, 3 ≤ c.length) (hcs : cs.Pairwise fun c c' => ¬ c.Perm c') :
    ∃ T', T1.mrSetFaces r fs = .ok T' ∧ T'.Consistent ∧ T'.AllLoops ∧ T'.mrFaces r = .ok (fs.map (·.1)) ∧
      (∀ (i : Nat) c f, cs[i]? = some c → (fs.map (·.1))[i]? = some f → T'.Uses r f c) ∧ KeptBut T T' r ∧
      T'.rt r = typeOf T1 (fs.map (·.1)) ∧ (T.SimpleEdges → T'.SimpleEdges) ∧
      (T.SimpleEdges → T.SimpleFaces → T'.SimpleFaces) ∧ T'.ne = T1.ne ∧ T'.nf = T1.nf ∧
      T'.se = T1.se ∧ T'.ev = T1.ev ∧ T'.sf = T1.sf ∧ T'.fe = T1.fe ∧ T'.fd = T1.fd ∧ T'.sr = T1.sr ∧ T'.sv = T1.sv ∧
      (∀ o, o ≠ r → T'.rf o = T1.rf o) ∧ T'.nr = T1.nr ∧ T'.nv = T1.nv ∧ (∀ o, o ≠ r → T'.rt o = T1.rt o) := by
  have hr1 : T1.sr r = .live := by rw [ho.ext.sr]; exact hr
  have hr01 : (T1.rf r).getD [] = [] := by rw [ho.ext.rf]; exact hr0
  have hget : ∀ (i : Nat) p, fs[i]? = some p → ∃ c, cs[i]? = some c := by
    intro i p hp
    have := (List.getElem?_eq_some_iff.1 hp).1
    exact ⟨_, List.getElem?_eq_getElem (by rw [← ho.len]; exact this)⟩
  have hmem : ∀ p ∈ fs, T1.sf p.1 = .live ∧ endAt (T1.fr p.1) (!p.2) = none := by
    intro p hp
    obtain ⟨i, hi⟩ := List.mem_iff_getElem?.1 hp
    obtain ⟨c, hc⟩ := hget i p hi
    obtain ⟨h1, -, h2⟩ := ho.each i p c hi hc
    exact ⟨h1, h2⟩
  have hsz : T1.Sized (fs.map (·.1)) := by
    intro f hf
    obtain ⟨p, hp, rfl⟩ := List.mem_map.1 hf
    obtain ⟨ws, hw, -⟩ := ho.loops p.1 (hmem p hp).1
    obtain ⟨l, h1, -⟩ := hw.stored (alloc_of_live (hmem p hp).1)
    exact ⟨l, h1⟩
  have hperm : ∀ f d c d' c', T1.sf f = .live → c ∈ cs → c' ∈ cs → T1.Seen f d c → T1.Seen f d' c' → c.Perm c' := by
    intro f d c d' c' hf hc hc' h1 h2
    obtain ⟨ws, hw, hn⟩ := ho.loops f hf
    have n1 : c ≠ [] := by rintro rfl; have := hc3 _ hc; simp at this
    have n2 : c' ≠ [] := by rintro rfl; have := hc3 _ hc'; simp at this
    rw [seen_iff hf hw hn n1] at h1
    rw [seen_iff hf hw hn n2] at h2
    exact (h1.perm.trans (turned_perm d)).trans (h2.perm.trans (turned_perm d')).symm
  have hnd : (fs.map (·.1)).Nodup := by
    rw [List.nodup_iff_getElem?_ne_getElem?]
    intro i j hij hj he
    rw [List.length_map] at hj
    rw [List.getElem?_map, List.getElem?_map, List.getElem?_eq_getElem hj, List.getElem?_eq_getElem (by omega)] at he
    simp only [Option.map_some, Option.some.injEq] at he
    have hi' := List.getElem?_eq_getElem (l := fs) (i := i) (by omega)
    have hj' := List.getElem?_eq_getElem hj
    obtain ⟨c, hc⟩ := hget i _ hi'
    obtain ⟨c', hc'⟩ := hget j _ hj'
    obtain ⟨a1, a2, -⟩ := ho.each i _ c hi' hc
    obtain ⟨b1, b2, -⟩ := ho.each j _ c' hj' hc'
    rw [← he] at b2
    have hp := hperm _ _ _ _ _ a1 (List.mem_of_getElem? hc) (List.mem_of_getElem? hc') a2 b2
    obtain ⟨ki, hki⟩ := List.getElem?_eq_some_iff.1 hc
    obtain ⟨kj, hkj⟩ := List.getElem?_eq_some_iff.1 hc'
    have := List.pairwise_iff_getElem.1 hcs i j ki kj hij
    rw [hki, hkj] at this
    exact this hp
  obtain ⟨w', e1, e2, e3⟩ := mrSetFaces_ok (T := T1) (r := r) (fs := fs) (alloc_of_live hr1)
    (fun p hp => alloc_of_live (hmem p hp).1) hsz
  obtain ⟨T', f1, f2⟩ := ho.cons.setFaces hr1 hr01 hnd hmem hsz
  have : Res.ok T' = _ := f1.symm.trans e1
  injection this with hT'
  have qsr : T'.sr = T1.sr := by rw [hT']
  have qsf : T'.sf = T1.sf := by rw [hT']
  have qse : T'.se = T1.se := by rw [hT']
  have qev : T'.ev = T1.ev := by rw [hT']
  have qsv : T'.sv = T1.sv := by rw [hT']
  have qfe : T'.fe = T1.fe := by rw [hT']
  have qfd : T'.fd = T1.fd := by rw [hT']
  have qrf : T'.rf = upd T1.rf r (some (fs.map (·.1))) := by rw [hT']
  have qrd : T'.rd = upd T1.rd r w' := by rw [hT']
  have hloop : ∀ f ws, T1.Loop f ws → T'.Loop f ws := by
    intro f ws hw; rw [hT']; exact loop_setFaces hw
  have hseen : ∀ f d c, T1.sf f = .live → c ≠ [] → (T'.Seen f d c ↔ T1.Seen f d c) := by
    intro f d c hf hc
    obtain ⟨ws, hw, hn⟩ := ho.loops f hf
    rw [seen_iff hf hw hn hc, seen_iff (by rw [qsf]; exact hf) (hloop f ws hw) hn hc]
  have hr2 : T'.sr r = .live := by rw [qsr]; exact hr1
  refine ⟨T', f1, f2, ?_, ?_, ?_, ?_, by rw [hT']; exact upd_same _ _ _, ?_, ?_, by rw [hT'], by rw [hT'], qse, qev,
    qsf, qfe, qfd, qsr, qsv, ?_, by rw [hT'], by rw [hT'], ?_⟩
  · intro f hf
    rw [qsf] at hf
    obtain ⟨ws, hw, hn⟩ := ho.loops f hf
    exact ⟨ws, hloop f ws hw, hn⟩
  · exact rfaces_ok (alloc_of_live hr2) (by rw [qrf, upd_same])
  · intro i c f hc hf
    rw [List.getElem?_map] at hf
    cases hp : fs[i]? with
    | none => rw [hp] at hf; cases hf
    | some p =>
      rw [hp] at hf
      simp only [Option.map_some, Option.some.injEq] at hf
      subst hf
      obtain ⟨a1, a2, -⟩ := ho.each i p c hp hc
      refine ⟨hr2, p.2, ?_, ?_⟩
      · rw [mrFaceDir_iff f2 hr2]
        unfold facesOf
        rw [qrf, qrd, upd_same, upd_same, Option.getD_some, e3]
        exact List.mem_of_getElem? hp
      · refine (hseen _ _ _ a1 ?_).2 a2
        rintro rfl
        have := hc3 _ (List.mem_of_getElem? hc)
        simp at this
  · have hx := ho.ext
    refine ⟨?_, ?_, ?_, ?_, ?_⟩
    · intro v; rw [qsv, hx.sv]
    · intro e he
      obtain ⟨g1, g2⟩ := hx.oldE e he
      have g1' : T'.se e = .live := by rw [qse]; exact g1
      refine ⟨g1', fun i => ?_⟩
      rw [meVertex_ok (alloc_of_live he), meVertex_ok (alloc_of_live g1'), qev, g2]
    · intro f hf
      obtain ⟨g1, g2, g3, -⟩ := hx.oldF f hf
      have g1' : T'.sf f = .live := by rw [qsf]; exact g1
      refine ⟨g1', ?_, ?_⟩
      · cases hfe : T.fe f with
        | none =>
          unfold mfEdges fedges
          rw [derefF_ok (alloc_of_live hf), derefF_ok (alloc_of_live g1'), qfe, g2, hfe]
          rfl
        | some l =>
          rw [mfEdges_plain (alloc_of_live hf) hfe, mfEdges_plain (alloc_of_live g1') (by rw [qfe, g2, hfe])]
      · intro i
        unfold mfEdgeDir_i
        rw [derefF_ok (alloc_of_live hf), derefF_ok (alloc_of_live g1'), qfd, g3]
    · intro o; rw [qsr, hx.sr]
    · intro o hor hol
      have h1 : T'.rf o = T.rf o := by rw [qrf, upd_ne _ _ hor, hx.rf]
      have h2 : T'.rd o = T.rd o := by rw [qrd, upd_ne _ _ hor, hx.rd]
      have h3 : T'.sr o = T.sr o := by rw [qsr, hx.sr]
      refine ⟨?_, fun f => ?_⟩
      · unfold mrFaces rfaces derefR; rw [h1, h3]
      · unfold mrFaceDir rfaces derefR; rw [h1, h2, h3]
  · intro hs
    have := ho.simpleE hs
    intro e e' a b hab h1 h2 h3 h4
    have key : ∀ e v, T'.EdgeHas e v ↔ T1.EdgeHas e v := by
      intro e v; rw [EdgeHas_iff, EdgeHas_iff, qse, qev]
    rw [key] at h1 h2 h3 h4
    exact this e e' a b hab h1 h2 h3 h4
  · intro hs hf
    have := ho.simpleF hs hf
    intro f g d d' c hc3 hf hg h1 h2
    rw [qsf] at hf hg
    have hne : c ≠ [] := by rintro rfl; simp at hc3
    exact this f g d d' c hc3 hf hg ((hseen _ _ _ hf hne).1 h1) ((hseen _ _ _ hg hne).1 h2)
  · intro o hor; rw [qrf, upd_ne _ _ hor]
  · intro o hor; rw [hT']; exact upd_ne _ _ hor

/-! ### standard elements -/

theorem rows_cycles {nv : Nat} {ty : MRType} {P : Poly} {rows : List (List (Int × Int) × List Int × Int)}
    (h : TableOk nv ty P rows) {vs : List Nat} (hn : vs.length = nv)
    (hlen : nv = 4 ∨ nv = 5 ∨ nv = 6 ∨ nv = 8) :
    rows.map (fun x => picks vs x.2.1) = stdCycles vs ∧ ty = stdType nv := by
  obtain ⟨nf, ht⟩ := h.type
  have htab := h.table
  rcases hlen with rfl | rfl | rfl | rfl
  all_goals
    simp only [Tmpl.setVerticesType, Res.ok.injEq, Prod.mk.injEq] at ht
    obtain ⟨rfl, -⟩ := ht
    have htab : some (_, _) = some _ := htab
    simp only [Option.some.injEq, Prod.mk.injEq] at htab
    obtain ⟨-, rfl⟩ := htab
  · match vs, hn with
    | [a,b,c,d], _ => exact ⟨rfl, rfl⟩
  · match vs, hn with
    | [a,b,c,d,e], _ => exact ⟨rfl, rfl⟩
  · match vs, hn with
    | [a,b,c,d,e,f], _ => exact ⟨rfl, rfl⟩
  · match vs, hn with
    | [a,b,c,d,e,f,g,h], _ => exact ⟨rfl, rfl⟩

/-- Everything about `MR_Set_Vertices` for a standard element. -/
theorem mrSetVertices_ok {T : Topo} (h : T.Consistent) (hl : T.AllLoops) {r : Nat} {vs : List Nat}
    (hr : T.sr r = .live) (hr0 : (T.rf r).getD [] = []) (hn : vs.Nodup) (hv : ∀ v ∈ vs, T.sv v = .live)
    (hlen : vs.length = 4 ∨ vs.length = 5 ∨ vs.length = 6 ∨ vs.length = 8)
    (hfree : ∀ c ∈ stdCycles vs, T.FreeSide c) :
    ∃ T' fs, T.mrSetVertices r vs = .ok T' ∧ T'.Consistent ∧ T'.AllLoops ∧ T'.mrFaces r = .ok fs ∧
      fs.length = (stdCycles vs).length ∧
      (∀ (i : Nat) c f, (stdCycles vs)[i]? = some c → fs[i]? = some f → T'.Uses r f c) ∧ KeptBut T T' r ∧
      T'.mrElementType r = .ok (stdType vs.length) ∧ (T.SimpleEdges → T'.SimpleEdges) ∧
      (T.SimpleEdges → T.SimpleFaces → T'.SimpleFaces) ∧
      (T.SimpleEdges → (∀ c ∈ stdCycles vs, ∃ g d, T.sf g = .live ∧ T.Seen g d c) →
        T'.ne = T.ne ∧ T'.nf = T.nf ∧ T'.se = T.se ∧ T'.ev = T.ev ∧ T'.sf = T.sf ∧ T'.fe = T.fe ∧ T'.fd = T.fd ∧
        T'.sr = T.sr ∧ T'.sv = T.sv ∧ T'.nr = T.nr ∧ T'.nv = T.nv ∧ ∀ o, o ≠ r → T'.rt o = T.rt o) := by
  obtain ⟨ty, P, rows, ht⟩ := tables_ok hlen
  obtain ⟨hcyc, hty⟩ := rows_cycles ht rfl hlen
  obtain ⟨nf, htype⟩ := ht.type
  have hnth : ∀ (i : Int), 0 ≤ i ∧ i < (vs.length : Int) → vs.getD i.toNat 0 ∈ vs := by
    intro i hi
    have : i.toNat < vs.length := by omega
    rw [List.getD_eq_getElem?_getD, List.getElem?_eq_getElem this]
    exact List.getElem_mem this
  have hps := edgeEnds_ok (vs := vs) (ps := P.edges) (fun e he => ⟨(ht.ends e he).2.1, (ht.ends e he).2.2⟩)
  obtain ⟨T1, red, r1, h1, g1, n1, l1, d1⟩ := edgesFor_ok
    (P.edges.map fun p => (vs.getD p.1.toNat 0, vs.getD p.2.toNat 0)) T h (by
      intro p hp
      obtain ⟨e, he, rfl⟩ := List.mem_map.1 hp
      exact ⟨hv _ (hnth _ (ht.ends e he).2.1), hv _ (hnth _ (ht.ends e he).2.2)⟩)
  have hl1 : T1.AllLoops := by
    intro f hf
    rw [g1.sf] at hf
    obtain ⟨ws, hw, hwn⟩ := hl f hf
    exact ⟨ws, g1.ext.loop h hf hw, hwn⟩
  have hc3 : ∀ c ∈ stdCycles vs, 3 ≤ c.length := by
    rw [← hcyc]
    intro c hc
    obtain ⟨x, hx, rfl⟩ := List.mem_map.1 hc
    rw [picks_length]; exact (ht.row x hx).three
  have hcne : ∀ c ∈ stdCycles vs, c ≠ [] := by
    rintro c hc rfl
    have := hc3 _ hc
    simp at this
  obtain ⟨T2, fs, r2, ho, hsame⟩ := stdFaces_ok (P := P) (vs := vs) (red := red) hn ht.num.symm
    (by rw [n1, List.length_map]) rows T1 h1 hl1 l1 (by
      intro k p q hp hq
      refine d1 k _ q (by rw [List.getElem?_map, hp]; rfl) hq ?_
      dsimp only
      intro he
      have hpe := ht.ends p (List.mem_of_getElem? hp)
      exact hpe.1 (getD_inj hn hpe.2.1 hpe.2.2 he)) ht.row (by
      intro x hx
      have hm : picks vs x.2.1 ∈ stdCycles vs := by rw [← hcyc]; exact List.mem_map.2 ⟨x, hx, rfl⟩
      exact g1.ext.freeSide h hl (hcne _ hm) (hfree _ hm))
  rw [hcyc] at ho
  have ho' : LoopOut T T2 fs (stdCycles vs) :=
    ⟨ho.cons, ho.loops, g1.ext.trans ho.ext, ho.len, ho.each, fun hs => ho.simpleE (g1.simpleEdges hs), by
      intro hs hf
      refine ho.simpleF (g1.simpleEdges hs) ?_
      intro f g d d' c hc hfl hgl k1 k2
      rw [g1.sf] at hfl hgl
      have hne : c ≠ [] := by rintro rfl; simp at hc
      exact hf f g d d' c hc hfl hgl ((g1.ext.seen h hl hfl hne).1 k1) ((g1.ext.seen h hl hgl hne).1 k2)⟩
  have hpw : (stdCycles vs).Pairwise fun c c' => ¬ c.Perm c' := by
    rw [← hcyc, List.pairwise_map]
    refine ht.distinct.imp_of_mem ?_
    intro x y hx hy hxy hp
    refine hxy (picks_perm hn (ht.row x hx).nodup (ht.row y hy).nodup ?_ ?_ hp)
    · rw [← ht.num]; exact (ht.row x hx).range
    · rw [← ht.num]; exact (ht.row y hy).range
  obtain ⟨T', e1, e2, e3, e4, e5, e6, e7, e8, e9, k1, k2, k3, k4, k5, k6, k7, k8, k9, -, k11, k12, k13⟩ :=
    setFaces_out hr hr0 ho' hc3 hpw
  have hrun : T.mrSetVertices r vs = .ok T' := by
    unfold mrSetVertices
    rw [derefR_ok (alloc_of_live hr), Res.bind_ok, derefVs_ok hv, Res.bind_ok, htype, Res.bind_ok, ht.table,
      Res.ofOption_some, Res.bind_ok, hps, Res.bind_ok, r1, Res.bind_ok, r2, Res.bind_ok]
    exact e1
  refine ⟨T', fs.map (·.1), hrun, e2, e3, e4, by rw [List.length_map]; exact ho.len, e5, e6, ?_, e8, e9, ?_⟩
  · -- the element type
    have hr' : T'.sr r = .live := (e6.regions r).2 hr
    have hlenfs : fs.length = rows.length := by rw [ho.len, ← hcyc, List.length_map]
    have hsizes : (fs.map (·.1)).map (fun f => ((T2.fe f).getD []).length) = rows.map fun x => x.2.1.length := by
      apply List.ext_getElem?
      intro i
      rw [List.map_map, List.getElem?_map, List.getElem?_map]
      by_cases hi : i < fs.length
      · have hp := List.getElem?_eq_getElem hi
        have hx := List.getElem?_eq_getElem (l := rows) (i := i) (by omega)
        rw [hp, hx]
        have hc : (stdCycles vs)[i]? = some (picks vs rows[i].2.1) := by rw [← hcyc, List.getElem?_map, hx]; rfl
        obtain ⟨a1, a2, -⟩ := ho.each i _ _ hp hc
        obtain ⟨ws, hw, hwn⟩ := ho.loops _ a1
        rw [seen_iff a1 hw hwn (hcne _ (List.mem_of_getElem? hc))] at a2
        obtain ⟨l, b1, -, b3, -⟩ := hw.stored (alloc_of_live a1)
        simp only [Option.map_some, Function.comp, Option.some.injEq]
        rw [b1, Option.getD_some, b3, ← (a2.perm.trans (turned_perm _)).length_eq, picks_length]
      · rw [List.getElem?_eq_none (by omega), List.getElem?_eq_none (by omega)]; rfl
    unfold mrElementType
    rw [derefR_ok (alloc_of_live hr'), Res.bind_ok, e7]
    unfold typeOf
    rw [if_pos (by rw [List.length_map, hlenfs]; exact ht.size), hsizes, ht.etype, hty]
    rfl
  · intro hs hex
    have hT1 : T1 = T := by
      refine edgesFor_same h _ ?_ r1
      intro p hp
      obtain ⟨e, he, rfl⟩ := List.mem_map.1 hp
      refine ⟨hv _ (hnth _ (ht.ends e he).2.1), ?_⟩
      obtain ⟨x, hx, hon⟩ := ht.on e he
      have hm : picks vs x.2.1 ∈ stdCycles vs := by rw [← hcyc]; exact List.mem_map.2 ⟨x, hx, rfl⟩
      obtain ⟨g, d, hg, hseen⟩ := hex _ hm
      obtain ⟨ws, hw, hwn⟩ := hl g hg
      rw [seen_iff hg hw hwn (hcne _ hm)] at hseen
      have key : ∀ a b, Next (picks vs x.2.1) a b → ∃ e, T.EdgeHas e a ∧ T.EdgeHas e b := by
        intro a b hab
        have := next_of_rotated hseen hab
        cases d
        · have := this.reverse
          rw [show turned false ws = ws.reverse from rfl, List.reverse_reverse] at this
          obtain ⟨e, -, q1, q2⟩ := edge_of_next h hg hw this
          exact ⟨e, q2, q1⟩
        · obtain ⟨e, -, q1, q2⟩ := edge_of_next h hg hw this
          exact ⟨e, q1, q2⟩
      rcases onFaceB_next (vs := vs) hon with hN | hN
      · exact key _ _ hN
      · obtain ⟨e', q1, q2⟩ := key _ _ hN
        exact ⟨e', q2, q1⟩
    subst hT1
    have hT2 : T2 = T1 := hsame hs (by
      intro x hx
      have hm : picks vs x.2.1 ∈ stdCycles vs := by rw [← hcyc]; exact List.mem_map.2 ⟨x, hx, rfl⟩
      exact hex _ hm)
    subst hT2
    exact ⟨k1, k2, k3, k4, k5, k6, k7, k8, k9, k11, k12, k13⟩

/-- **C48, standard elements.**  In a consistent mesh all of whose faces are loops of distinct
vertices, `MR_Set_Vertices(r,nv,v,nf,NULL)` with 4, 5, 6 or 8 distinct live vertices, for a region
without faces, when no region has one of the element's faces seen from the same side: the region
gets the faces of the element in the standard order, sees each from outside as the standard says,
and has the element type for the number of vertices; everything that was there keeps its answers,
and the mesh stays consistent. -/
theorem C48_standard {T : Topo} (h : T.Consistent) (hl : T.AllLoops) {r : Nat} {vs : List Nat}
    (hr : T.sr r = .live) (hr0 : (T.rf r).getD [] = []) (hn : vs.Nodup) (hv : ∀ v ∈ vs, T.sv v = .live)
    (hlen : vs.length = 4 ∨ vs.length = 5 ∨ vs.length = 6 ∨ vs.length = 8)
    (hfree : ∀ c ∈ stdCycles vs, ∀ o f, ¬ T.Uses o f c) :
    ∃ T' fs, T.mrSetVertices r vs = .ok T' ∧ T'.Consistent ∧ T'.AllLoops ∧ T'.mrFaces r = .ok fs ∧
      fs.length = (stdCycles vs).length ∧
      (∀ (i : Nat) c f, (stdCycles vs)[i]? = some c → fs[i]? = some f → T'.Uses r f c) ∧
      T'.mrElementType r = .ok (stdType vs.length) ∧ KeptBut T T' r := by
  obtain ⟨T', fs, a1, a2, a3, a4, a5, a6, a7, a8, -⟩ := mrSetVertices_ok h hl hr hr0 hn hv hlen
    (fun c hc => freeSide_of_unused h (hfree c hc))
  exact ⟨T', fs, a1, a2, a3, a4, a5, a6, a8, a7⟩

/-- **C48, nothing is duplicated.**  In a mesh in which no two edges join the same vertices and no two
faces go round the same vertices, this stays so; when all faces of the element are there already, no
edge and no face is created. -/
theorem C48_no_duplicates {T : Topo} (h : T.Consistent) (hl : T.AllLoops) {r : Nat} {vs : List Nat}
    (hr : T.sr r = .live) (hr0 : (T.rf r).getD [] = []) (hn : vs.Nodup) (hv : ∀ v ∈ vs, T.sv v = .live)
    (hlen : vs.length = 4 ∨ vs.length = 5 ∨ vs.length = 6 ∨ vs.length = 8)
    (hfree : ∀ c ∈ stdCycles vs, ∀ o f, ¬ T.Uses o f c) (hs : T.SimpleEdges) (hf : T.SimpleFaces) :
    ∃ T', T.mrSetVertices r vs = .ok T' ∧ T'.SimpleEdges ∧ T'.SimpleFaces ∧
      ((∀ c ∈ stdCycles vs, ∃ g d, T.sf g = .live ∧ T.Seen g d c) →
        ∀ x, (T'.se x = .live ↔ T.se x = .live) ∧ (T'.sf x = .live ↔ T.sf x = .live)) := by
  obtain ⟨T', fs, a1, -, -, -, -, -, -, -, a9, a10, a11⟩ := mrSetVertices_ok h hl hr hr0 hn hv hlen
    (fun c hc => freeSide_of_unused h (hfree c hc))
  refine ⟨T', a1, a9 hs, a10 hs hf, ?_⟩
  intro hex x
  obtain ⟨-, -, k3, -, k5, -⟩ := a11 hs hex
  rw [k3, k5]
  exact ⟨Iff.rfl, Iff.rfl⟩

/-- Any other number of vertices is reported as fatal. -/
theorem C48_other_numbers {T : Topo} {r : Nat} {vs : List Nat} (hr : T.sr r = .live)
    (hv : ∀ v ∈ vs, T.sv v = .live)
    (hlen : ¬ (vs.length = 4 ∨ vs.length = 5 ∨ vs.length = 6 ∨ vs.length = 8)) :
    T.mrSetVertices r vs = .fatal := by
  unfold mrSetVertices
  rw [derefR_ok (alloc_of_live hr), Res.bind_ok, derefVs_ok hv, Res.bind_ok]
  have : Tmpl.setVerticesType vs.length = .fatal := by
    unfold Tmpl.setVerticesType
    split <;> first | (exfalso; omega) | rfl
  rw [this]; rfl

/-! ### general polyhedra -/

/-- **C48, polyhedra.**  `MR_Set_Vertices(r,nv,v,nf,rfv)` with at most 200 distinct live vertices and
at most 512 faces, each face given by 3 to 30 distinct places in `v`, no two faces on the same set of
vertices; no region has one of these faces seen from the same side, and a face of the mesh on the
vertices of one of them goes round them in the given or in the opposite order: the region gets the
faces in the order given and sees each as it was given; everything that was there keeps its answers,
and the mesh stays consistent, without duplicates if it had none. -/
theorem C48_polyhedron {T : Topo} (h : T.Consistent) (hl : T.AllLoops) {r : Nat} {vs : List Nat}
    {rows : List (List Int)} (hr : T.sr r = .live) (hr0 : (T.rf r).getD [] = []) (hn : vs.Nodup)
    (hv : ∀ v ∈ vs, T.sv v = .live) (h200 : vs.length ≤ 200) (h512 : rows.length ≤ 512)
    (hrange : ∀ row ∈ rows, ∀ i ∈ row, 0 ≤ i ∧ i < (vs.length : Int))
    (hlen : ∀ row ∈ rows, 3 ≤ row.length ∧ row.length ≤ 30) (hnd : ∀ row ∈ rows, row.Nodup)
    (hpw : rows.Pairwise fun x y => ¬ x.Perm y)
    (hfree : ∀ row ∈ rows, ∀ o f, ¬ T.Uses o f (picks vs row))
    (hun : ∀ row ∈ rows, ∀ g, T.FaceOn g (picks vs row) → ∃ d, T.Seen g d (picks vs row)) :
    ∃ T' fs, T.mrSetVerticesPoly r vs rows = .ok T' ∧ T'.Consistent ∧ T'.AllLoops ∧ T'.mrFaces r = .ok fs ∧
      fs.length = rows.length ∧
      (∀ (i : Nat) row f, rows[i]? = some row → fs[i]? = some f → T'.Uses r f (picks vs row)) ∧
      KeptBut T T' r ∧ (T.SimpleEdges → T'.SimpleEdges) ∧
      (T.SimpleEdges → T.SimpleFaces → T'.SimpleFaces) ∧
      (T.SimpleEdges → (∀ row ∈ rows, ∃ g d, T.sf g = .live ∧ T.Seen g d (picks vs row)) →
        ∀ x, (T'.se x = .live ↔ T.se x = .live) ∧ (T'.sf x = .live ↔ T.sf x = .live)) := by
  have hmem : ∀ row ∈ rows, ∀ v ∈ picks vs row, v ∈ vs := by
    intro row hrow v hv'
    obtain ⟨i, hi, rfl⟩ := List.mem_map.1 hv'
    have := hrange row hrow i hi
    have hlt : i.toNat < vs.length := by omega
    rw [List.getD_eq_getElem?_getD, List.getElem?_eq_getElem hlt]
    exact List.getElem_mem hlt
  have hpw' : (rows.map (picks vs)).Pairwise fun c c' => ¬ c.Perm c' := by
    rw [List.pairwise_map]
    refine hpw.imp_of_mem ?_
    intro x y hx hy hxy hp
    exact hxy (picks_perm hn (hnd x hx) (hnd y hy) (hrange x hx) (hrange y hy) hp)
  obtain ⟨T1, fs, r1, ho, hsame⟩ := polyFaces_ok rows T h hl hrange hlen
    (fun row hrow v hv' => hv v (hmem row hrow v hv'))
    (fun row hrow => picks_nodup hn (hnd row hrow) (hrange row hrow))
    (fun row hrow => freeSide_of_unused h (hfree row hrow)) hun hpw'
  obtain ⟨T', e1, e2, e3, e4, e5, e6, -, e8, e9, -, -, k3, -, k5, -⟩ := setFaces_out hr hr0 ho (by
    intro c hc
    obtain ⟨row, hrow, rfl⟩ := List.mem_map.1 hc
    rw [picks_length]; exact (hlen row hrow).1) hpw'
  refine ⟨T', fs.map (·.1), ?_, e2, e3, e4, by rw [List.length_map, ho.len, List.length_map], ?_, e6, e8, e9, ?_⟩
  · unfold mrSetVerticesPoly
    rw [derefR_ok (alloc_of_live hr), Res.bind_ok, if_neg (by omega), if_neg (by omega), derefVs_ok hv, Res.bind_ok,
      r1, Res.bind_ok]
    exact e1
  · intro i row f hi hf
    exact e5 i _ f (by rw [List.getElem?_map, hi]; rfl) hf
  · intro hs hex x
    rw [k3, k5, hsame hs hex]
    exact ⟨Iff.rfl, Iff.rfl⟩

/-! ### the hypotheses are met -/

/-- executable form of "no region sees a face as `c`" -/
def unusedB (T : Topo) (c : List Nat) : Bool :=
  (List.range T.nr).all fun o => (List.range T.nf).all fun f =>
    match T.mrFaceDir o f with
    | .ok (some d) => decide (T.mfVertices f d c[0]? ≠ .ok (c.map some))
    | _ => true

theorem unusedB_sound {T : Topo} (h : T.Consistent) {c : List Nat} (hu : T.unusedB c = true) :
    ∀ o f, ¬ T.Uses o f c := by
  rintro o f ⟨ho, d, hd, a, h1, h2⟩
  have hlo : o < T.nr := by
    by_contra hge
    rw [h.newR o (by omega)] at ho
    cases ho
  have hf : T.sf f = .live := by
    have hm := (mrFaceDir_iff h ho).1 hd
    by_contra hf
    exact hf (h.fr.down o f d ho hm)
  have hlf : f < T.nf := by
    by_contra hge
    rw [h.newF f (by omega)] at hf
    cases hf
  have := List.all_eq_true.1 (List.all_eq_true.1 hu o (List.mem_range.2 hlo)) f (List.mem_range.2 hlf)
  rw [hd] at this
  dsimp only at this
  rw [decide_eq_true_iff, h1] at this
  exact this h2

/-- A tetrahedron with the vertices 0-3, a fifth vertex, and a region without faces. -/
def oneTet : List Op :=
  [.newVertex, .newVertex, .newVertex, .newVertex, .newVertex,
   .newFace, .setVertices 0 [0,1,2], .newFace, .setVertices 1 [0,1,3], .newFace,
   .setVertices 2 [1,2,3], .newFace, .setVertices 3 [2,0,3],
   .newRegion, .setFaces 0 [(0,false),(1,true),(2,true),(3,true)], .newRegion]

/-- The hypotheses hold for a second tetrahedron that shares a face with the first; the shared face
and its edges are not created again. -/
example : ∃ T T', empty.run oneTet = .ok T ∧ T.Consistent ∧ T.AllLoops ∧
    (∀ c ∈ stdCycles [0,2,1,4], ∀ o f, ¬ T.Uses o f c) ∧ T.mrSetVertices 1 [0,2,1,4] = .ok T' ∧
    T'.mrFaces 1 = .ok [0,4,5,6] ∧ T'.mrElementType 1 = .ok .tet ∧ T'.mfRegions 0 = .ok (some [1,0]) ∧
    T'.Uses 1 0 [0,1,2] ∧ T'.ne = 9 := by
  obtain ⟨T, h1, h2⟩ := reachable (os := oneTet) (by decide +kernel)
  have hq : answer oneTet (fun T => .ok (T.allLoopsB [[0,1,2],[0,1,3],[1,2,3],[2,0,3]] &&
      [0,2,1,4].all (fun v => decide (T.sv v = .live)) && decide (T.sr 1 = .live) &&
      decide ((T.rf 1).getD [] = []) && (stdCycles [0,2,1,4]).all T.unusedB &&
      decide ((T.mrSetVertices 1 [0,2,1,4] >>= fun T => T.mrFaces 1) = .ok [0,4,5,6]) &&
      decide ((T.mrSetVertices 1 [0,2,1,4] >>= fun T => T.mfRegions 0) = .ok (some [1,0])) &&
      decide ((T.mrSetVertices 1 [0,2,1,4] >>= fun T => .ok T.ne) = .ok 9))) = .ok true := by decide +kernel
  unfold answer at hq
  rw [h1, Res.bind_ok, Res.ok.injEq] at hq
  simp only [Bool.and_eq_true, decide_eq_true_iff, List.all_eq_true] at hq
  obtain ⟨⟨⟨⟨⟨⟨⟨a, b⟩, c⟩, d⟩, e⟩, f⟩, g⟩, k⟩ := hq
  have hu : ∀ c ∈ stdCycles [0,2,1,4], ∀ o f, ¬ T.Uses o f c := fun x hx => unusedB_sound h2 (e x hx)
  obtain ⟨T', fs, r1, r2, r3, r4, r5, r6, r7, -⟩ := C48_standard h2 (allLoopsB_sound h2 a) c d (by decide) b
    (Or.inl rfl) hu
  rw [r1, Res.bind_ok] at f g k
  refine ⟨T, T', h1, h2, allLoopsB_sound h2 a, hu, r1, f, r7, g, ?_, by injection k⟩
  rw [r4] at f
  injection f with f
  subst f
  exact r6 0 _ 0 rfl rfl

/-- The same mesh with the faces of the second tetrahedron given by the caller. -/
example : ∃ T T', empty.run oneTet = .ok T ∧ T.Consistent ∧ T.AllLoops ∧
    T.mrSetVerticesPoly 1 [0,2,1,4] [[0,2,1],[0,1,3],[1,2,3],[0,3,2]] = .ok T' ∧
    T'.mrFaces 1 = .ok [0,4,5,6] ∧ T'.Uses 1 0 [0,1,2] := by
  obtain ⟨T, h1, h2⟩ := reachable (os := oneTet) (by decide +kernel)
  have hq : answer oneTet (fun T => .ok (T.allLoopsB [[0,1,2],[0,1,3],[1,2,3],[2,0,3]] &&
      [0,2,1,4].all (fun v => decide (T.sv v = .live)) && decide (T.sr 1 = .live) &&
      decide ((T.rf 1).getD [] = []) &&
      ([[0,2,1],[0,1,3],[1,2,3],[0,3,2]].all fun row => T.unusedB (picks [0,2,1,4] row)) &&
      decide (T.nf = 4) && decide (T.mfVertices 0 true (some 0) = .ok [some 0, some 1, some 2]) &&
      decide (T.loopB 0 [0,1,2]) && decide (T.loopB 1 [0,1,3]) && decide (T.loopB 2 [1,2,3]) &&
      decide (T.loopB 3 [2,0,3]) &&
      decide ((T.mrSetVerticesPoly 1 [0,2,1,4] [[0,2,1],[0,1,3],[1,2,3],[0,3,2]] >>= fun T => T.mrFaces 1)
        = .ok [0,4,5,6]))) = .ok true := by decide +kernel
  unfold answer at hq
  rw [h1, Res.bind_ok, Res.ok.injEq] at hq
  simp only [Bool.and_eq_true, decide_eq_true_iff, List.all_eq_true] at hq
  obtain ⟨⟨⟨⟨⟨⟨⟨⟨⟨⟨⟨a, b⟩, c⟩, d⟩, e⟩, f⟩, g⟩, l0⟩, l1⟩, l2⟩, l3⟩, k⟩ := hq
  obtain ⟨T', fs, r1, r2, r3, r4, r5, r6, -⟩ := C48_polyhedron (rows := [[0,2,1],[0,1,3],[1,2,3],[0,3,2]]) h2
    (allLoopsB_sound h2 a) c d (by decide) b (by decide) (by decide) (by decide) (by decide) (by decide) (by decide)
    (fun x hx => unusedB_sound h2 (e x hx)) (by
      rintro row hrow x ⟨hx, ws, hw, -, hp⟩
      have hlt : x < 4 := by
        by_contra hge
        rw [h2.newF x (by omega)] at hx
        cases hx
      have hcases : (x = 0 ∧ ws = [0,1,2]) ∨ (x = 1 ∧ ws = [0,1,3]) ∨ (x = 2 ∧ ws = [1,2,3]) ∨ (x = 3 ∧ ws = [2,0,3]) := by
        have : x = 0 ∨ x = 1 ∨ x = 2 ∨ x = 3 := by omega
        rcases this with rfl | rfl | rfl | rfl
        · exact Or.inl ⟨rfl, Loop.unique hx hw (loopB_sound l0)⟩
        · exact Or.inr (Or.inl ⟨rfl, Loop.unique hx hw (loopB_sound l1)⟩)
        · exact Or.inr (Or.inr (Or.inl ⟨rfl, Loop.unique hx hw (loopB_sound l2)⟩))
        · exact Or.inr (Or.inr (Or.inr ⟨rfl, Loop.unique hx hw (loopB_sound l3)⟩))
      simp only [List.mem_cons, List.not_mem_nil, or_false] at hrow
      rcases hcases with ⟨rfl, rfl⟩ | ⟨rfl, rfl⟩ | ⟨rfl, rfl⟩ | ⟨rfl, rfl⟩
      · rcases hrow with rfl | rfl | rfl | rfl
        · exact ⟨true, 0, rfl, g⟩
        all_goals exact absurd hp (by decide)
      all_goals
        rcases hrow with rfl | rfl | rfl | rfl
        all_goals exact absurd hp (by decide))
  rw [r1, Res.bind_ok] at k
  refine ⟨T, T', h1, h2, allLoopsB_sound h2 a, r1, k, ?_⟩
  rw [r4] at k
  injection k with k
  subst k
  exact r6 0 _ 0 rfl rfl

/-! ### why the hypotheses -/

/-- A side of a face that is taken: given the vertices of the second tetrahedron in the order that
looks at the shared face from the side of the first, the region is built all the same and sees the
face the other way round than the element asks. -/
theorem C48_negation_side_taken :
    stdCycles [0,1,2,4] = [[0,2,1],[0,1,4],[1,2,4],[0,4,2]] ∧
    answer oneTet (fun T => T.mrSetVertices 1 [0,1,2,4] >>= fun T => T.mrFaces 1) = .ok [0,4,5,6] ∧
    answer oneTet (fun T => T.mrSetVertices 1 [0,1,2,4] >>= fun T => T.mrFaceDir 1 0) = .ok (some true) ∧
    answer oneTet (fun T => T.mrSetVertices 1 [0,1,2,4] >>= fun T => T.mfVertices 0 true (some 0))
      = .ok [some 0, some 1, some 2] := by decide +kernel

/-- A face on the vertices of a face of the polyhedron that goes round them in another order is
taken for it. -/
theorem C48_negation_twisted :
    let os : List Op := [.newVertex, .newVertex, .newVertex, .newVertex, .newVertex, .newFace,
      .setVertices 0 [0,1,2,3], .newRegion]
    let rows : List (List Int) := [[0,1,3,2],[0,4,1],[1,4,3],[3,4,2],[2,4,0]]
    answer os (fun T => T.mrSetVerticesPoly 0 [0,1,2,3,4] rows >>= fun T => T.mrFaces 0) = .ok [0,1,2,3,4] ∧
    answer os (fun T => T.mrSetVerticesPoly 0 [0,1,2,3,4] rows >>= fun T => T.mfVertices 0 true (some 0))
      = .ok [some 0, some 1, some 2, some 3] := by decide +kernel

end Topo
end MSTK
