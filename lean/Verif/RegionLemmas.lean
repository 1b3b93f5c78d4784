import Verif.TopoSeen
import Verif.Props.Templates

/-!
The steps of `MR_Set_Vertices` (helper lemmas for C48).
-/
namespace MSTK
namespace Topo

/-- no two edges join the same two vertices -/
def SimpleEdges (T : Topo) : Prop := ∀ e e' a b, a ≠ b → T.EdgeHas e a → T.EdgeHas e b →
  T.EdgeHas e' a → T.EdgeHas e' b → e' = e

/-- no two faces go round the same cycle of vertices -/
def SimpleFaces (T : Topo) : Prop := ∀ f g d d' c, 3 ≤ c.length → T.sf f = .live → T.sf g = .live →
  T.Seen f d c → T.Seen g d' c → g = f

theorem Grown.simpleEdges {T T' : Topo} (g : Grown T T') (h : T.SimpleEdges) : T'.SimpleEdges := by
  intro e e' a b hab h1 h2 h3 h4
  rw [EdgeHas_iff] at h1 h2 h3 h4
  by_cases he : T.se e = .live
  · by_cases he' : T.se e' = .live
    · have k := (g.old e he).2.1
      have k' := (g.old e' he').2.1
      exact h e e' a b hab (EdgeHas_iff.2 ⟨he, (ends_congr k).1 h1.2⟩) (EdgeHas_iff.2 ⟨he, (ends_congr k).1 h2.2⟩)
        (EdgeHas_iff.2 ⟨he', (ends_congr k').1 h3.2⟩) (EdgeHas_iff.2 ⟨he', (ends_congr k').1 h4.2⟩)
    · exact (g.only e' a b h3.1 he' hab h3.2 h4.2 e h1.1 h1.2 h2.2).symm
  · exact g.only e a b h1.1 he hab h1.2 h2.2 e' h3.1 h3.2 h4.2

/-- a face created from edges that lead round `c` -/
theorem newFace_ok {T : Topo} (h : T.Consistent) (hl : T.AllLoops) {es : List (Nat × Bool)} {c : List Nat}
    (hes : ∀ p ∈ es, T.se p.1 = .live) (hcl : T.Closed es c) (hc : c.Nodup) (hn : c.length ≤ 32) :
    ∃ T', T.mfNew.1.mfSetEdges T.nf es = .ok T' ∧ T'.Consistent ∧ T'.AllLoops ∧ Ext T T' ∧
      T.sf T.nf ≠ .live ∧ T'.sf T.nf = .live ∧ T'.Loop T.nf c ∧ T'.fe T.nf = some (es.map (·.1)) ∧
      T'.se = T.se ∧ T'.ev = T.ev ∧ (∀ g, T'.sf g = .live → g = T.nf ∨ T.sf g = .live) ∧
      T'.nf = T.nf + 1 ∧ T'.ne = T.ne := by
  have hun : T.sf T.nf = .unused := h.newF _ (Nat.le_refl _)
  have h0 := h.newFace
  have hf0 : T.mfNew.1.sf T.nf = .live := upd_same _ _ _
  have hfe0 : T.mfNew.1.fe T.nf = none := upd_same _ _ _
  have hlen : es.length ≤ 32 := by rw [hcl.1]; exact hn
  obtain ⟨d', r2, hp⟩ := mfSetEdges_ok (T := T.mfNew.1) (f := T.nf) (es := es) (alloc_of_live hf0) hlen
    (fun p hp => alloc_of_live (hes p hp))
  obtain ⟨T2, r3, h3⟩ := h0.setEdges hf0 (by rw [hfe0]; rfl) (es := es) hlen hes
  have : Res.ok T2 = _ := r3.symm.trans r2
  injection this with hT2
  have hf2 : T2.sf = upd T.sf T.nf .live := by rw [hT2]; rfl
  have hfe2 : T2.fe = upd (upd T.fe T.nf none) T.nf (some (es.map (·.1))) := by rw [hT2]; rfl
  have hfd2 : T2.fd = upd (upd T.fd T.nf 0) T.nf d' := by rw [hT2]; rfl
  have hfr2 : T2.fr = upd T.fr T.nf (none, none) := by rw [hT2]; rfl
  have hse2 : T2.se = T.se := by rw [hT2]; rfl
  have hev2 : T2.ev = T.ev := by rw [hT2]; rfl
  have hold : ∀ g, T2.sf g = .live → g = T.nf ∨ T.sf g = .live := by
    intro g hg
    rw [hf2, upd_apply] at hg
    split at hg
    · left; assumption
    · right; exact hg
  have hext : Ext T T2 := by
    refine ⟨by rw [hT2]; rfl, by rw [hT2]; rfl, by rw [hT2]; rfl, by rw [hT2]; rfl, ?_, ?_, ?_⟩
    · intro e he; rw [hse2, hev2]; exact ⟨he, rfl⟩
    · intro f hf
      have hne : f ≠ T.nf := by rintro rfl; rw [hun] at hf; cases hf
      rw [hf2, hfe2, hfd2, hfr2, upd_ne _ _ hne, upd_ne _ _ hne, upd_ne _ _ hne, upd_ne _ _ hne,
        upd_ne _ _ hne, upd_ne _ _ hne]
      exact ⟨hf, rfl, rfl, rfl⟩
    · intro f hf hnl
      rcases hold f hf with rfl | h1
      · rw [hfr2, upd_same]
      · exact absurd h1 hnl
  have hloop : T2.Loop T.nf c := by
    refine Closed.loop (l := es.map (·.1)) (by rw [hf2, upd_same]; simp [Stat.alloc]) (by rw [hfe2, upd_same]) ?_
      (by simp; omega) ?_
    · intro e he
      obtain ⟨p, hp', rfl⟩ := List.mem_map.1 he
      rw [hse2]; exact alloc_of_live (hes p hp')
    · rw [hfd2, upd_same, hp]; exact hcl.congr hev2
  refine ⟨T2, r3, h3, ?_, hext, by rw [hun]; simp, by rw [hf2, upd_same], hloop, by rw [hfe2, upd_same],
    hse2, hev2, hold, by rw [hT2]; rfl, by rw [hT2]; rfl⟩
  intro f hf
  rcases hold f hf with rfl | h1
  · exact ⟨c, hloop, hc⟩
  · obtain ⟨ws, hw, hn⟩ := hl f h1
    exact ⟨ws, hext.loop h h1 hw, hn⟩

/-- What one face of the new region leaves behind. -/
structure StepOut (T T' : Topo) (f : Nat) (d : Bool) (c : List Nat) : Prop where
  cons : T'.Consistent
  loops : T'.AllLoops
  ext : Ext T T'
  live : T'.sf f = .live
  seen : T'.Seen f d c
  free : endAt (T'.fr f) (!d) = none
  simpleE : T.SimpleEdges → T'.SimpleEdges
  simpleF : T.SimpleEdges → T.SimpleFaces → T'.SimpleFaces

theorem closed_edgeHas {T : Topo} {es : List (Nat × Bool)} {c : List Nat} (hcl : T.Closed es c)
    (hes : ∀ p ∈ es, T.se p.1 = .live) {j a b : Nat} (ha : c[j]? = some a)
    (hb : c[(j+1) % c.length]? = some b) :
    ∃ p ∈ es, T.EdgeHas p.1 a ∧ T.EdgeHas p.1 b := by
  have hj := (List.getElem?_eq_some_iff.1 ha).1
  have hp := List.getElem?_eq_getElem (l := es) (i := j) (by rw [hcl.1]; exact hj)
  have hL := hcl.2 j _ a b hp ha hb
  have hm := List.mem_of_getElem? hp
  refine ⟨_, hm, ?_, ?_⟩
  all_goals
    rw [EdgeHas_iff]
    refine ⟨hes _ hm, ?_⟩
    unfold Leads at hL
    unfold ends
    rw [hL]
    cases (es[j]'(by rw [hcl.1]; exact hj)).2 <;> simp

/-- Some face has all the edges of a closed chain: the face goes round the same cycle. -/
theorem turned_of_closed {T : Topo} {g : Nat} {ws c : List Nat} {es : List (Nat × Bool)}
    (hw : T.Loop g ws) (hn : ws.Nodup) (hcl : T.Closed es c)
    (hes : ∀ p ∈ es, T.se p.1 = .live) (hc : c.Nodup) (h3 : 3 ≤ c.length)
    (hall : ∀ p ∈ es, T.FaceHas g p.1) : ∃ d, c ~r turned d ws := by
  refine turned_of_edges hw hn hc h3 ?_
  intro j a b ha hb
  obtain ⟨p, hp, h1, h2⟩ := closed_edgeHas hcl hes ha hb
  exact ⟨p.1, hall p hp, h1, h2⟩

theorem next_of_rotated {ws c : List Nat} (h : c ~r ws) {a b : Nat} (hab : Next c a b) : Next ws a b := by
  obtain ⟨n, rfl⟩ := h.symm
  obtain ⟨k, h1, h2⟩ := hab
  have hk := (List.getElem?_eq_some_iff.1 h1).1
  rw [List.length_rotate] at hk h2
  have hpos : 0 < ws.length := by omega
  rw [List.getElem?_rotate hk] at h1
  rw [List.getElem?_rotate (Nat.mod_lt _ hpos)] at h2
  refine ⟨_, h1, ?_⟩
  rw [← h2]
  congr 1
  rw [Nat.mod_add_mod, Nat.mod_add_mod]
  congr 1
  omega

/-- Consecutive vertices of a face have an edge of the face between them. -/
theorem edge_of_next {T : Topo} (h : T.Consistent) {g : Nat} {ws : List Nat} (hg : T.sf g = .live)
    (hw : T.Loop g ws) {a b : Nat} (hab : Next ws a b) : ∃ e, T.FaceHas g e ∧ T.EdgeHas e a ∧ T.EdgeHas e b := by
  obtain ⟨l, h1, h2, h3, -⟩ := hw.stored (alloc_of_live hg)
  obtain ⟨es, k1, k2, k3⟩ := hw
  rw [h2] at k1; injection k1 with k1; subst k1
  obtain ⟨k, ha, hb⟩ := hab
  have hk := (List.getElem?_eq_some_iff.1 ha).1
  have he := List.getElem?_eq_getElem (l := l) (i := k) (by omega)
  have hm := List.mem_of_getElem? he
  have hel := h.fedgesLive hg h1 _ hm
  obtain ⟨d, -, g1, g2⟩ := k3 k _ he
  rw [ha] at g1
  rw [hb] at g2
  refine ⟨_, ⟨hg, l, h2, hm⟩, ⟨hel, ?_⟩, ⟨hel, ?_⟩⟩
  · cases d
    · right; exact g1
    · left; exact g1
  · cases d
    · left; exact g2
    · right; exact g2

/-- In a mesh without double edges, a face that goes round the cycle of a closed chain has the edges
of the chain. -/
theorem has_of_turned {T : Topo} (h : T.Consistent) (hs : T.SimpleEdges) {g : Nat} {ws c : List Nat}
    {es : List (Nat × Bool)} (hg : T.sf g = .live) (hw : T.Loop g ws) (hcl : T.Closed es c)
    (hes : ∀ p ∈ es, T.se p.1 = .live) (hc : c.Nodup) (h3 : 3 ≤ c.length) {d : Bool}
    (hr : c ~r turned d ws) : ∀ p ∈ es, T.FaceHas g p.1 := by
  intro p hp
  obtain ⟨k, hk⟩ := List.mem_iff_getElem?.1 hp
  have hkc : k < c.length := by
    have := (List.getElem?_eq_some_iff.1 hk).1
    rwa [hcl.1] at this
  have ha := List.getElem?_eq_getElem hkc
  have hm : (k+1) % c.length < c.length := Nat.mod_lt _ (by omega)
  have hb := List.getElem?_eq_getElem hm
  have hN : Next c _ _ := ⟨k, ha, hb⟩
  have hne : c[k] ≠ c[(k+1) % c.length] := by
    intro he
    have e1 := idxOf_eq_of_nodup hc ha
    rw [he, idxOf_eq_of_nodup hc hb] at e1
    by_cases hj1 : k + 1 = c.length
    · rw [hj1, Nat.mod_self] at e1; omega
    · rw [Nat.mod_eq_of_lt (by omega)] at e1; omega
  have hL := hcl.2 k p _ _ hk ha hb
  have hN' := next_of_rotated hr hN
  have hcase : ∃ e, T.FaceHas g e ∧ T.EdgeHas e c[k] ∧ T.EdgeHas e c[(k+1) % c.length] := by
    cases d
    · have := hN'.reverse
      rw [show turned false ws = ws.reverse from rfl, List.reverse_reverse] at this
      obtain ⟨e, h1, h2, h3⟩ := edge_of_next h hg hw this
      exact ⟨e, h1, h3, h2⟩
    · exact edge_of_next h hg hw hN'
  obtain ⟨e, h1, h2, h3'⟩ := hcase
  have hpe : T.EdgeHas p.1 c[k] ∧ T.EdgeHas p.1 c[(k+1) % c.length] := by
    constructor
    all_goals
      rw [EdgeHas_iff]
      refine ⟨hes p hp, ?_⟩
      unfold Leads at hL
      unfold ends
      rw [hL]
      cases p.2 <;> simp
  rw [hs e p.1 _ _ hne h2 h3' hpe.1 hpe.2]
  exact h1

/-- a new face, as one step -/
theorem newFace_step {T : Topo} (h : T.Consistent) (hl : T.AllLoops) {es : List (Nat × Bool)} {c c' : List Nat}
    (hes : ∀ p ∈ es, T.se p.1 = .live) (hcl : T.Closed es c') (hr : c' ~r c) (hc : c.Nodup) (h3 : 3 ≤ c.length)
    (hn : c.length ≤ 32) (hno : T.SimpleEdges → ∀ g, ¬ ∀ p ∈ es, T.FaceHas g p.1) :
    ∃ T', T.mfNew.1.mfSetEdges T.nf es = .ok T' ∧ StepOut T T' T.nf true c ∧ T'.Loop T.nf c' ∧
      (∀ g, T'.sf g = .live → g = T.nf ∨ T.sf g = .live) ∧ T'.nf = T.nf + 1 ∧ T'.ne = T.ne ∧ T'.ev = T.ev ∧ T'.se = T.se := by
  have hc' : c'.Nodup := (hr.perm.nodup_iff).2 hc
  have hlen := hr.perm.length_eq
  obtain ⟨T', r, k1, k2, k3, k4, k5, k6, k7, k8, k9, k10, k11, k12⟩ := newFace_ok h hl hes hcl hc' (by omega)
  have hne : c ≠ [] := by rintro rfl; simp at h3
  refine ⟨T', r, ⟨k1, k2, k3, k5, (seen_iff k5 k6 hc' hne).2 hr.symm, ?_, ?_, ?_⟩, k6, k10, k11, k12, k9, k8⟩
  · rw [k3.newF _ k5 k4]; rfl
  · intro hs e e' a b hab h1 h2 h3 h4
    have key : ∀ e v, T'.EdgeHas e v ↔ T.EdgeHas e v := by
      intro e v; rw [EdgeHas_iff, EdgeHas_iff, k8, k9]
    rw [key] at h1 h2 h3 h4
    exact hs e e' a b hab h1 h2 h3 h4
  · intro hs hsf
    have hnew : ∀ g d d' x, 3 ≤ x.length → T.sf g = .live → T'.Seen g d' x → T'.Seen T.nf d x → False := by
      intro g d d' x hx hg h1 h2
      have hxne : x ≠ [] := by rintro rfl; simp at hx
      rw [k3.seen h hl hg hxne] at h1
      obtain ⟨ws, hw, hwn⟩ := hl g hg
      rw [seen_iff hg hw hwn hxne] at h1
      rw [seen_iff k5 k6 hc' hxne] at h2
      -- `x` is `c'` up to turning, so `c'` is the cycle of `g` up to turning
      have h4 : ∃ d'', c' ~r turned d'' ws := by
        cases d
        · have h5 := h2.reverse
          rw [show turned false c' = c'.reverse from rfl, List.reverse_reverse] at h5
          have h6 := h5.symm.trans h1.reverse
          cases d'
          · rw [show turned false ws = ws.reverse from rfl, List.reverse_reverse] at h6
            exact ⟨true, h6⟩
          · exact ⟨false, h6⟩
        · exact ⟨d', h2.symm.trans h1⟩
      obtain ⟨d'', h5⟩ := h4
      exact hno hs g (has_of_turned h hs hg hw hcl hes hc' (by omega) h5)
    intro f g d d' x hx hf hg h1 h2
    have hxne : x ≠ [] := by rintro rfl; simp at hx
    rcases k10 f hf with rfl | hf'
    · rcases k10 g hg with rfl | hg'
      · rfl
      · exact (hnew g d d' x hx hg' h2 h1).elim
    · rcases k10 g hg with rfl | hg'
      · exact (hnew f d' d x hx hf' h1 h2).elim
      · exact hsf f g d d' x hx hf' hg' ((k3.seen h hl hf' hxne).1 h1) ((k3.seen h hl hg' hxne).1 h2)

/-- One face of a standard element. -/
theorem stdFace_ok {T : Topo} (h : T.Consistent) (hl : T.AllLoops) {vs : List Nat}
    {red : List (Nat × Bool)} {x : List (Int × Int) × List Int × Int} {es : List (Nat × Bool)}
    {i0 i1 : Int} {a b : Nat} {rest c' : List Nat}
    (hpick : pickEdges red x.1 = .ok es) (hes : ∀ p ∈ es, T.se p.1 = .live)
    (hcl : T.Closed es c') (hr : c' ~r (a :: b :: rest)) (hc : (a :: b :: rest).Nodup)
    (h3 : 1 ≤ rest.length) (hn : rest.length ≤ 30) (hi0 : x.2.1[0]? = some i0) (hi1 : x.2.1[1]? = some i1)
    (ha : readAt vs i0 = .ok a) (hb : readAt vs i1 = .ok b) (htd : x.2.2 = 1)
    (hfree : T.FreeSide (a :: b :: rest)) :
    ∃ T' f d, stdFace vs red x T = .ok (T', (f, d)) ∧ StepOut T T' f d (a :: b :: rest) ∧
      ((∃ g, ∀ p ∈ es, T.FaceHas g p.1) → T' = T) := by
  have hlen : c'.length = rest.length + 2 := by rw [hr.perm.length_eq]; rfl
  have hc' : c'.Nodup := (hr.perm.nodup_iff).2 hc
  have hesne : es ≠ [] := by
    rintro rfl
    have := hcl.1
    simp only [List.length_nil] at this
    omega
  obtain ⟨o, ho, hsome, hnone⟩ := C42_common_face_of_edges h (es := es.map (·.1)) (by simpa using hesne) (by
    intro e he
    obtain ⟨p, hp, rfl⟩ := List.mem_map.1 he
    exact hes p hp)
  have hmap : ∀ g, (∀ e ∈ es.map (·.1), T.FaceHas g e) ↔ ∀ p ∈ es, T.FaceHas g p.1 := by
    intro g; exact List.forall_mem_map
  unfold stdFace
  rw [hpick, Res.bind_ok, ho, Res.bind_ok]
  cases o with
  | none =>
    have hno : ∀ g, ¬ ∀ p ∈ es, T.FaceHas g p.1 := fun g hg => hnone rfl g ((hmap g).2 hg)
    obtain ⟨T', r, hst, -⟩ := newFace_step h hl hes hcl hr hc (by simp; omega) (by simp; omega) (fun _ => hno)
    refine ⟨T', T.nf, true, ?_, hst, fun ⟨g, hg⟩ => absurd hg (hno g)⟩
    dsimp only
    rw [show T.mfNew.2 = T.nf from rfl, r, Res.bind_ok, htd]
    rfl
  | some f =>
    have hall := (hmap f).1 (hsome f rfl)
    obtain ⟨p0, hp0⟩ := List.exists_mem_of_ne_nil es hesne
    have hf := (hall p0 hp0).1
    obtain ⟨ws, hw, hwn⟩ := hl f hf
    obtain ⟨d, hd⟩ := turned_of_closed hw hwn hcl hes hc' (by omega) hall
    have hd' := hr.symm.trans hd
    have hseen : T.Seen f d (a :: b :: rest) := (seen_iff hf hw hwn (by simp)).2 hd'
    have hside := hfree f d hf hseen
    refine ⟨T, f, d, ?_, ⟨h, hl, Ext.refl T, hf, hseen, hside, id, fun _ => id⟩, fun _ => rfl⟩
    dsimp only
    rw [hi0, hi1, Res.ofOption_some, Res.ofOption_some, Res.bind_ok, Res.bind_ok, ha, hb, Res.bind_ok, Res.bind_ok, htd]
    rw [show decide ((1:Int) = 1) = true from rfl, existingDir_ok h hf hw hwn h3 hd' hside]
    rfl

/-! ### the tables -/

/-- the vertices with the given numbers -/
def picks (vs : List Nat) (c : List Int) : List Nat := c.map fun i => vs.getD i.toNat 0

theorem readAt_ok {vs : List Nat} {i : Int} (h0 : 0 ≤ i) (h1 : i < vs.length) :
    readAt vs i = .ok (vs.getD i.toNat 0) := by
  unfold readAt
  have h : i.toNat < vs.length := by omega
  rw [if_pos h0, List.getElem?_eq_getElem h, List.getD_eq_getElem?_getD, List.getElem?_eq_getElem h]
  rfl

theorem vertsAt_ok {vs : List Nat} : ∀ {c : List Int}, (∀ i ∈ c, 0 ≤ i ∧ i < vs.length) →
    vertsAt vs c = .ok (picks vs c) := by
  intro c
  induction c with
  | nil => intro _; rfl
  | cons i c ih =>
    intro h
    rw [show vertsAt vs (i :: c) = (readAt vs i >>= fun v => vertsAt vs c >>= fun rest => pure (v :: rest)) from rfl,
      readAt_ok (h i (by simp)).1 (h i (by simp)).2, Res.bind_ok, ih (fun j hj => h j (by simp [hj])), Res.bind_ok]
    rfl

theorem edgeEnds_ok {vs : List Nat} : ∀ {ps : List (Int × Int)},
    (∀ p ∈ ps, (0 ≤ p.1 ∧ p.1 < vs.length) ∧ 0 ≤ p.2 ∧ p.2 < vs.length) →
    edgeEnds vs ps = .ok (ps.map fun p => (vs.getD p.1.toNat 0, vs.getD p.2.toNat 0)) := by
  intro ps
  induction ps with
  | nil => intro _; rfl
  | cons p ps ih =>
    intro h
    obtain ⟨h1, h2⟩ := h p (by simp)
    rw [show edgeEnds vs (p :: ps) = (readAt vs p.1 >>= fun a => readAt vs p.2 >>= fun b =>
      edgeEnds vs ps >>= fun rest => pure ((a, b) :: rest)) from rfl,
      readAt_ok h1.1 h1.2, Res.bind_ok, readAt_ok h2.1 h2.2, Res.bind_ok,
      ih (fun j hj => h j (by simp [hj])), Res.bind_ok]
    rfl

/-- the edges of a row, turned as the row says, lead from vertex to vertex -/
theorem pickEdges_ok {T : Topo} {P : Poly} {vs : List Nat} {red : List (Nat × Bool)}
    (hlen : red.length = P.edges.length) (hlive : ∀ q ∈ red, T.se q.1 = .live)
    (hL : ∀ (k : Nat) p q, P.edges[k]? = some p → red[k]? = some q →
      Leads T q.1 q.2 (vs.getD p.1.toNat 0) (vs.getD p.2.toNat 0)) :
    ∀ (row prs : List (Int × Int)), row.map P.ends = prs.map some →
    ∃ es, pickEdges red row = .ok es ∧ es.length = row.length ∧ (∀ p ∈ es, T.se p.1 = .live) ∧
      ∀ (k : Nat) p q, es[k]? = some p → prs[k]? = some q →
        Leads T p.1 p.2 (vs.getD q.1.toNat 0) (vs.getD q.2.toNat 0) := by
  intro row
  induction row with
  | nil => intro prs _; exact ⟨[], rfl, rfl, by simp, by simp⟩
  | cons x row ih =>
    intro prs hrow
    cases prs with
    | nil => simp at hrow
    | cons pr prs =>
      simp only [List.map_cons, List.cons.injEq] at hrow
      obtain ⟨hx, hrow⟩ := hrow
      obtain ⟨es, r, hl1, hl2, hl3⟩ := ih prs hrow
      unfold Poly.ends at hx
      cases he : P.edges[x.1.toNat]? with
      | none => rw [he] at hx; simp at hx
      | some e =>
        rw [he] at hx
        simp only [Option.bind_some] at hx
        by_cases hneg : x.1 < 0
        · rw [if_pos hneg] at hx; cases hx
        rw [if_neg hneg] at hx
        have hk : x.1.toNat < red.length := by
          rw [hlen]; exact (List.getElem?_eq_some_iff.1 he).1
        have hq := List.getElem?_eq_getElem hk
        have hLq := hL _ e _ he hq
        have hql := hlive _ (List.mem_of_getElem? hq)
        generalize red[x.1.toNat] = q at hq hLq hql
        refine ⟨(q.1, !(q.2 ^^ decide (x.2 = 1))) :: es, ?_, by simp [hl1], ?_, ?_⟩
        · rw [show pickEdges red (x :: row) = (readAt red x.1 >>= fun e => pickEdges red row >>= fun rest =>
            pure ((e.1, !(e.2 ^^ decide (x.2 = 1))) :: rest)) from rfl]
          unfold readAt
          rw [if_pos (by omega), hq, Res.ofOption_some, Res.bind_ok, r, Res.bind_ok]
          rfl
        · intro p hp
          rcases List.mem_cons.1 hp with rfl | hp
          · exact hql
          · exact hl2 p hp
        · intro k p q' hp hq'
          cases k with
          | succ k =>
            rw [List.getElem?_cons_succ] at hp hq'
            exact hl3 k p q' hp hq'
          | zero =>
            simp only [List.getElem?_cons_zero, Option.some.injEq] at hp hq'
            subst hp; subst hq'
            unfold Leads at hLq ⊢
            dsimp only
            rw [hLq]
            by_cases h1 : x.2 = 1
            · rw [if_pos h1] at hx
              injection hx with hx
              subst hx
              rw [h1]
              cases q.2 <;> rfl
            · rw [if_neg h1] at hx
              by_cases h0 : x.2 = 0
              · rw [if_pos h0] at hx
                injection hx with hx
                subst hx
                rw [h0]
                cases q.2 <;> rfl
              · rw [if_neg h0] at hx; cases hx

theorem picks_length (vs : List Nat) (c : List Int) : (picks vs c).length = c.length := by simp [picks]

theorem getElem?_picks (vs : List Nat) (c : List Int) (k : Nat) :
    (picks vs c)[k]? = c[k]?.map fun i => vs.getD i.toNat 0 := by simp [picks]

theorem getD_inj {vs : List Nat} (hn : vs.Nodup) {i j : Int} (hi : 0 ≤ i ∧ i < vs.length)
    (hj : 0 ≤ j ∧ j < vs.length) (h : vs.getD i.toNat 0 = vs.getD j.toNat 0) : i = j := by
  have h1 : i.toNat < vs.length := by omega
  have h2 : j.toNat < vs.length := by omega
  have e1 := List.getElem?_eq_getElem h1
  have e2 := List.getElem?_eq_getElem h2
  rw [List.getD_eq_getElem?_getD, List.getD_eq_getElem?_getD, e1, e2] at h
  simp only [Option.getD_some] at h
  have := idxOf_eq_of_nodup hn e1
  rw [h, idxOf_eq_of_nodup hn e2] at this
  omega

theorem picks_nodup {vs : List Nat} (hn : vs.Nodup) {c : List Int} (hc : c.Nodup)
    (hr : ∀ i ∈ c, 0 ≤ i ∧ i < vs.length) : (picks vs c).Nodup := by
  refine List.Nodup.map_on ?_ hc
  intro i hi j hj h
  exact getD_inj hn (hr i hi) (hr j hj) h

theorem picks_perm {vs : List Nat} (hn : vs.Nodup) {c c' : List Int} (hc : c.Nodup) (hc' : c'.Nodup)
    (hr : ∀ i ∈ c, 0 ≤ i ∧ i < vs.length) (hr' : ∀ i ∈ c', 0 ≤ i ∧ i < vs.length)
    (h : (picks vs c).Perm (picks vs c')) : c.Perm c' := by
  rw [List.perm_ext_iff_of_nodup hc hc']
  intro i
  constructor
  · intro hi
    have : vs.getD i.toNat 0 ∈ picks vs c' := h.mem_iff.1 (List.mem_map.2 ⟨i, hi, rfl⟩)
    obtain ⟨j, hj, he⟩ := List.mem_map.1 this
    rw [getD_inj hn (hr i hi) (hr' j hj) he.symm]; exact hj
  · intro hi
    have : vs.getD i.toNat 0 ∈ picks vs c := h.mem_iff.2 (List.mem_map.2 ⟨i, hi, rfl⟩)
    obtain ⟨j, hj, he⟩ := List.mem_map.1 this
    rw [getD_inj hn (hr' i hi) (hr j hj) he.symm]; exact hj

/-- A row of the tables: the edges walk round the vertices. -/
structure RowOk (P : Poly) (x : List (Int × Int) × List Int × Int) : Prop where
  walk : ∃ s, x.1.map P.ends = (cyclePairs x.2.1 s).map some
  three : 3 ≤ x.2.1.length
  small : x.2.1.length ≤ 32
  nodup : x.2.1.Nodup
  range : ∀ i ∈ x.2.1, 0 ≤ i ∧ i < P.nv
  dir : x.2.2 = 1

theorem RowOk.closed {T : Topo} {P : Poly} {vs : List Nat} {red : List (Nat × Bool)}
    {x : List (Int × Int) × List Int × Int} (hx : RowOk P x)
    (hlen : red.length = P.edges.length) (hlive : ∀ q ∈ red, T.se q.1 = .live)
    (hL : ∀ (k : Nat) p q, P.edges[k]? = some p → red[k]? = some q →
      Leads T q.1 q.2 (vs.getD p.1.toNat 0) (vs.getD p.2.toNat 0)) :
    ∃ es c', pickEdges red x.1 = .ok es ∧ (∀ p ∈ es, T.se p.1 = .live) ∧ T.Closed es c' ∧
      c' ~r picks vs x.2.1 := by
  obtain ⟨s, hs⟩ := hx.walk
  obtain ⟨es, h1, h2, h3, h4⟩ := pickEdges_ok hlen hlive hL x.1 _ hs
  have h3' := hx.three
  have hl : es.length = x.2.1.length := by
    rw [h2]
    have := congrArg List.length hs
    simpa [cyclePairs] using this
  refine ⟨es, (picks vs x.2.1).rotate s, h1, h3, ⟨by rw [hl, List.length_rotate, picks_length], ?_⟩,
    List.IsRotated.symm ⟨s, rfl⟩⟩
  intro k p a b hp ha hb
  have hk : k < x.2.1.length := by
    have := (List.getElem?_eq_some_iff.1 hp).1
    omega
  rw [List.getElem?_rotate (by rw [picks_length]; exact hk), picks_length, getElem?_picks] at ha
  rw [List.length_rotate, picks_length, List.getElem?_rotate (by rw [picks_length]; exact Nat.mod_lt _ (by omega)),
    picks_length, getElem?_picks, Nat.mod_add_mod] at hb
  have ha' := List.getElem?_eq_getElem (l := x.2.1) (i := (k + s) % x.2.1.length) (Nat.mod_lt _ (by omega))
  have hb' := List.getElem?_eq_getElem (l := x.2.1) (i := (k + 1 + s) % x.2.1.length) (Nat.mod_lt _ (by omega))
  rw [ha'] at ha
  rw [hb'] at hb
  simp only [Option.map_some, Option.some.injEq] at ha hb
  have hq : (cyclePairs x.2.1 s)[k]? = some (x.2.1[(k + s) % x.2.1.length]'(Nat.mod_lt _ (by omega)),
      x.2.1[(k + 1 + s) % x.2.1.length]'(Nat.mod_lt _ (by omega))) := by
    unfold cyclePairs
    rw [List.getElem?_zip_eq_some]
    refine ⟨?_, ?_⟩
    · rw [List.getElem?_rotate hk, ha']
    · rw [List.getElem?_rotate hk, show k + (s + 1) = k + 1 + s by omega, hb']
  have := h4 k p _ hp hq
  dsimp only at this
  rw [ha, hb] at this
  exact this

/-- What the loop over the faces leaves behind. -/
structure LoopOut (T T' : Topo) (fs : List (Nat × Bool)) (cs : List (List Nat)) : Prop where
  cons : T'.Consistent
  loops : T'.AllLoops
  ext : Ext T T'
  len : fs.length = cs.length
  each : ∀ (i : Nat) p c, fs[i]? = some p → cs[i]? = some c →
    T'.sf p.1 = .live ∧ T'.Seen p.1 p.2 c ∧ endAt (T'.fr p.1) (!p.2) = none
  simpleE : T.SimpleEdges → T'.SimpleEdges
  simpleF : T.SimpleEdges → T.SimpleFaces → T'.SimpleFaces

theorem LoopOut.nil {T : Topo} (h : T.Consistent) (hl : T.AllLoops) : LoopOut T T [] [] :=
  ⟨h, hl, Ext.refl T, rfl, by simp, id, fun _ => id⟩

theorem LoopOut.cons' {T T1 T2 : Topo} {f : Nat} {d : Bool} {c : List Nat} {fs : List (Nat × Bool)}
    {cs : List (List Nat)} (h1 : StepOut T T1 f d c) (hc : c ≠ []) (h2 : LoopOut T1 T2 fs cs) :
    LoopOut T T2 ((f, d) :: fs) (c :: cs) := by
  refine ⟨h2.cons, h2.loops, h1.ext.trans h2.ext, by simp [h2.len], ?_, fun hs => h2.simpleE (h1.simpleE hs),
    fun hs hf => h2.simpleF (h1.simpleE hs) (h1.simpleF hs hf)⟩
  intro i p c' hp hc'
  cases i with
  | zero =>
    simp only [List.getElem?_cons_zero, Option.some.injEq] at hp hc'
    subst hp; subst hc'
    obtain ⟨g1, -, -, g4⟩ := h2.ext.oldF f h1.live
    exact ⟨g1, (h2.ext.seen h1.cons h1.loops h1.live hc).2 h1.seen, by dsimp only; rw [g4]; exact h1.free⟩
  | succ i =>
    rw [List.getElem?_cons_succ] at hp hc'
    exact h2.each i p c' hp hc'

/-- The loop over the faces of a standard element. -/
theorem stdFaces_ok {P : Poly} {vs : List Nat} {red : List (Nat × Bool)} (hn : vs.Nodup)
    (hnv : vs.length = P.nv) (hlen : red.length = P.edges.length) :
    ∀ (xs : List (List (Int × Int) × List Int × Int)) (T : Topo), T.Consistent → T.AllLoops →
    (∀ q ∈ red, T.se q.1 = .live) →
    (∀ (k : Nat) p q, P.edges[k]? = some p → red[k]? = some q →
      Leads T q.1 q.2 (vs.getD p.1.toNat 0) (vs.getD p.2.toNat 0)) →
    (∀ x ∈ xs, RowOk P x) → (∀ x ∈ xs, T.FreeSide (picks vs x.2.1)) →
    ∃ T' fs, stdFaces vs red xs T = .ok (T', fs) ∧ LoopOut T T' fs (xs.map fun x => picks vs x.2.1) ∧
      (T.SimpleEdges → (∀ x ∈ xs, ∃ g d, T.sf g = .live ∧ T.Seen g d (picks vs x.2.1)) → T' = T) := by
  intro xs
  induction xs with
  | nil => intro T h hl _ _ _ _; exact ⟨T, [], rfl, LoopOut.nil h hl, fun _ _ => rfl⟩
  | cons x xs ih =>
    intro T h hl hlive hL hrow hfree
    have hx := hrow x (by simp)
    obtain ⟨es, c', hp, hes, hcl, hr⟩ := hx.closed hlen hlive hL
    have h3 := hx.three
    have hsm := hx.small
    have hnd := picks_nodup hn hx.nodup (by rw [hnv]; exact hx.range)
    obtain ⟨i0, i1, rest, hrest⟩ : ∃ i0 i1 rest, x.2.1 = i0 :: i1 :: rest := by
      match hh : x.2.1, h3 with
      | i0 :: i1 :: rest, _ => exact ⟨i0, i1, rest, rfl⟩
    have hfx := hfree x (by simp)
    have hpk : picks vs x.2.1 = vs.getD i0.toNat 0 :: vs.getD i1.toNat 0 :: picks vs rest := by rw [hrest]; rfl
    rw [hrest] at h3 hsm
    simp only [List.length_cons] at h3 hsm
    have hrange : ∀ i ∈ x.2.1, 0 ≤ i ∧ i < (vs.length : Int) := by rw [hnv]; exact hx.range
    rw [hrest] at hrange
    have k0 := hrange i0 (by simp)
    have k1 := hrange i1 (by simp)
    rw [hpk] at hr hnd hfx
    obtain ⟨T1, f, d, r1, hst, hsame⟩ := stdFace_ok (x := x) h hl hp hes hcl hr hnd
      (by rw [picks_length]; omega) (by rw [picks_length]; omega) (by rw [hrest]; rfl) (by rw [hrest]; rfl)
      (readAt_ok k0.1 k0.2) (readAt_ok k1.1 k1.2) hx.dir hfx
    rw [← hpk] at hst hr hnd
    have hne : ∀ y ∈ xs, picks vs y.2.1 ≠ [] := by
      intro y hy hc
      have := (hrow y (by simp [hy])).three
      have h0 := congrArg List.length hc
      rw [picks_length] at h0
      simp only [List.length_nil] at h0
      omega
    have hpne : picks vs x.2.1 ≠ [] := by rw [hpk]; simp
    obtain ⟨T2, fs, r2, hout, hsame2⟩ := ih T1 hst.cons hst.loops
      (fun q hq => (hst.ext.oldE q.1 (hlive q hq)).1)
      (by
        intro k p q hp hq
        have := hL k p q hp hq
        unfold Leads at this ⊢
        rw [(hst.ext.oldE q.1 (hlive q (List.mem_of_getElem? hq))).2]; exact this)
      (fun y hy => hrow y (by simp [hy]))
      (fun y hy => hst.ext.freeSide h hl (hne y hy) (hfree y (by simp [hy])))
    refine ⟨T2, (f, d) :: fs, ?_, LoopOut.cons' hst hpne hout, ?_⟩
    · rw [show stdFaces vs red (x :: xs) T = (stdFace vs red x T >>= fun p =>
        stdFaces vs red xs p.1 >>= fun q => pure (q.1, p.2 :: q.2)) from rfl, r1, Res.bind_ok, r2, Res.bind_ok]
      rfl
    · intro hs hex
      obtain ⟨g, d', hg, hseen⟩ := hex x (by simp)
      obtain ⟨ws, hw, hwn⟩ := hl g hg
      have hrg := (seen_iff hg hw hwn hpne).1 hseen
      have hlen' := hr.perm.length_eq
      have h1 : T1 = T := hsame ⟨g, has_of_turned h hs hg hw hcl hes ((hr.perm.nodup_iff).2 hnd)
        (by rw [hlen', picks_length, hrest]; simp; omega) (hr.trans hrg)⟩
      subst h1
      exact hsame2 hs (fun y hy => hex y (by simp [hy]))

/-- Nothing is created for vertices that are joined already. -/
theorem edgeFor_same {T T' : Topo} (h : T.Consistent) {a b e0 : Nat} {q : Nat × Bool} (ha : T.sv a = .live)
    (he : T.EdgeHas e0 a ∧ T.EdgeHas e0 b) (hr : T.edgeFor a b = .ok (T', q)) : T' = T := by
  obtain ⟨o, h1, h2, h3⟩ := C42_common_edge h (b := b) ha
  unfold edgeFor at hr
  rw [h1, Res.bind_ok] at hr
  cases o with
  | none => exact absurd he (h3 rfl e0)
  | some e =>
    dsimp only at hr
    rw [meVertex_ok (alloc_of_live (h2 e rfl).1.1), Res.bind_ok] at hr
    injection hr with hr
    exact (congrArg Prod.fst hr).symm

theorem edgesFor_same {T : Topo} (h : T.Consistent) : ∀ (ps : List (Nat × Nat)) {T' : Topo}
    {es : List (Nat × Bool)}, (∀ p ∈ ps, T.sv p.1 = .live ∧ ∃ e, T.EdgeHas e p.1 ∧ T.EdgeHas e p.2) →
    edgesFor ps T = .ok (T', es) → T' = T := by
  intro ps
  induction ps with
  | nil =>
    intro T' es _ hr
    injection hr with hr
    exact (congrArg Prod.fst hr).symm
  | cons p ps ih =>
    obtain ⟨a, b⟩ := p
    intro T' es hall hr
    rw [show edgesFor ((a, b) :: ps) T = (edgeFor T a b >>= fun p =>
        edgesFor ps p.1 >>= fun q => pure (q.1, p.2 :: q.2)) from rfl] at hr
    obtain ⟨x, h1, h2⟩ := Res.bind_eq_ok.1 hr
    obtain ⟨y, h3, h4⟩ := Res.bind_eq_ok.1 h2
    obtain ⟨ha, e, he⟩ := hall (a, b) (by simp)
    have hx : x.1 = T := edgeFor_same h ha he (q := x.2) h1
    rw [hx] at h3
    have := ih (T' := y.1) (es := y.2) (fun p hp => hall p (by simp [hp])) h3
    injection h4 with h4
    exact (congrArg Prod.fst h4).symm.trans this

theorem derefVs_ok {T : Topo} : ∀ {vs : List Nat}, (∀ v ∈ vs, T.sv v = .live) → T.derefVs vs = .ok () := by
  intro vs
  induction vs with
  | nil => intro _; rfl
  | cons v vs ih =>
    intro h
    rw [show T.derefVs (v :: vs) = (T.derefV v >>= fun _ => T.derefVs vs) from rfl,
      derefV_ok (alloc_of_live (h v (by simp))), Res.bind_ok]
    exact ih (fun x hx => h x (by simp [hx]))

/-- executable form of `RowOk` -/
def rowB (P : Poly) (x : List (Int × Int) × List Int × Int) : Bool :=
  ((List.range 4).any fun s => decide (x.1.map P.ends = (cyclePairs x.2.1 s).map some)) && decide (3 ≤ x.2.1.length) &&
  decide (x.2.1.length ≤ 32) && decide x.2.1.Nodup && decide (∀ i ∈ x.2.1, 0 ≤ i ∧ i < (P.nv : Int)) &&
  decide (x.2.2 = 1)

theorem rowB_sound {P : Poly} {x : List (Int × Int) × List Int × Int} (h : rowB P x = true) : RowOk P x := by
  unfold rowB at h
  simp only [Bool.and_eq_true, decide_eq_true_iff, List.any_eq_true] at h
  obtain ⟨⟨⟨⟨⟨⟨s, _, h1⟩, h2⟩, h3⟩, h4⟩, h5⟩, h6⟩ := h
  exact ⟨⟨s, h1⟩, h2, h3, h4, h5, h6⟩

/-- the ends of the edge follow each other on the face, one way or the other -/
def onFaceB (e : Int × Int) (c : List Int) : Bool :=
  (List.range c.length).any fun k => decide (c[k]? = some e.1 ∧ c[(k+1) % c.length]? = some e.2) ||
    decide (c[k]? = some e.2 ∧ c[(k+1) % c.length]? = some e.1)

/-- What the tables say about one element type. -/
structure TableOk (nv : Nat) (ty : MRType) (P : Poly) (rows : List (List (Int × Int) × List Int × Int)) : Prop where
  type : ∃ nf, Tmpl.setVerticesType nv = .ok (ty, nf)
  table : stdRows ty = some (P.edges, rows)
  num : P.nv = nv
  row : ∀ x ∈ rows, RowOk P x
  ends : ∀ e ∈ P.edges, e.1 ≠ e.2 ∧ (0 ≤ e.1 ∧ e.1 < (nv : Int)) ∧ 0 ≤ e.2 ∧ e.2 < (nv : Int)
  distinct : rows.Pairwise fun x y => ¬ x.2.1.Perm y.2.1
  etype : elementType (rows.map fun x => x.2.1.length) = ty
  size : 4 ≤ rows.length ∧ rows.length ≤ 6
  on : ∀ e ∈ P.edges, ∃ x ∈ rows, onFaceB e x.2.1 = true

theorem onFaceB_next {vs : List Nat} {e : Int × Int} {c : List Int} (h : onFaceB e c = true) :
    Next (picks vs c) (vs.getD e.1.toNat 0) (vs.getD e.2.toNat 0) ∨
    Next (picks vs c) (vs.getD e.2.toNat 0) (vs.getD e.1.toNat 0) := by
  unfold onFaceB at h
  rw [List.any_eq_true] at h
  obtain ⟨k, -, h⟩ := h
  rw [Bool.or_eq_true, decide_eq_true_iff, decide_eq_true_iff] at h
  rcases h with ⟨h1, h2⟩ | ⟨h1, h2⟩
  · left
    refine ⟨k, ?_, ?_⟩
    · rw [getElem?_picks, h1]; rfl
    · rw [getElem?_picks, picks_length, h2]; rfl
  · right
    refine ⟨k, ?_, ?_⟩
    · rw [getElem?_picks, h1]; rfl
    · rw [getElem?_picks, picks_length, h2]; rfl

theorem tables_ok {nv : Nat} (h : nv = 4 ∨ nv = 5 ∨ nv = 6 ∨ nv = 8) :
    ∃ ty P rows, TableOk nv ty P rows := by
  rcases h with rfl | rfl | rfl | rfl
  · refine ⟨.tet, _, _, ⟨⟨_, rfl⟩, rfl, (rfl : Poly.nv ⟨4, _, [], [], []⟩ = 4), ?_, ?_, ?_, ?_, ?_, ?_⟩⟩
    · exact fun x hx => rowB_sound (List.all_eq_true.1 (by decide +kernel) x hx)
    all_goals decide +kernel
  · refine ⟨.pyramid, _, _, ⟨⟨_, rfl⟩, rfl, (rfl : Poly.nv ⟨5, _, [], [], []⟩ = 5), ?_, ?_, ?_, ?_, ?_, ?_⟩⟩
    · exact fun x hx => rowB_sound (List.all_eq_true.1 (by decide +kernel) x hx)
    all_goals decide +kernel
  · refine ⟨.prism, _, _, ⟨⟨_, rfl⟩, rfl, (rfl : Poly.nv ⟨6, _, [], [], []⟩ = 6), ?_, ?_, ?_, ?_, ?_, ?_⟩⟩
    · exact fun x hx => rowB_sound (List.all_eq_true.1 (by decide +kernel) x hx)
    all_goals decide +kernel
  · refine ⟨.hex, _, _, ⟨⟨_, rfl⟩, rfl, (rfl : Poly.nv ⟨8, _, [], [], []⟩ = 8), ?_, ?_, ?_, ?_, ?_, ?_⟩⟩
    · exact fun x hx => rowB_sound (List.all_eq_true.1 (by decide +kernel) x hx)
    all_goals decide +kernel

end Topo
end MSTK
