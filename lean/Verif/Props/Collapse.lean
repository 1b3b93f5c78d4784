import Verif.CollapseDone

/-!
C65: contracting an edge to one of its vertices (`ME_Collapse`).

Specification: `Collapsible` and `Collapsed` (CollapseSpec), and here which vertex stays.
-/
namespace MSTK
namespace Topo

/-- With regard to the geometric model `v` stays and `u` goes: `v` is on an entity of lower dimension, or both are
on the same one and `v` has the smaller global ID. -/
def Stays (A : Labels) (u v : Nat) : Prop :=
  (A.vcls v).1 < (A.vcls u).1 ∨ (A.vcls v = A.vcls u ∧ A.vgid v < A.vgid u)

/-- The two vertices are on different model entities of the same dimension. -/
def Parted (A : Labels) (u v : Nat) : Prop := (A.vcls u).1 = (A.vcls v).1 ∧ (A.vcls u).2 ≠ (A.vcls v).2

/-- every edge at the vertex has two faces -/
def Surrounded (T : Topo) (w : Nat) : Prop :=
  ∀ x, T.EdgeHas x w → ∃ f g, f ≠ g ∧ T.FaceHas f x ∧ T.FaceHas g x

/-! ### helpers -/

theorem oppVertex_ok {T : Topo} {e u v : Nat} (hu : T.EdgeHas e u) (hv : T.EdgeHas e v) (hne : u ≠ v) :
    T.meOppVertex e v = .ok (some u) := by
  unfold meOppVertex
  rw [derefE_ok (alloc_of_live hu.1), Res.bind_ok]
  rcases ends_two hu hv hne with h | h <;> rw [h]
  · rw [if_neg (by simpa using hne)]; rfl
  · rw [if_pos rfl]; rfl

/-- the choice, for the vertex to go `a` and the vertex to stay `b` that the routine begins with -/
theorem chooseEnds_start {T : Topo} (h : T.Consistent) {e u v a b : Nat} {keep : Option Nat} (hu : T.EdgeHas e u)
    (hv : T.EdgeHas e v) (hne : u ≠ v)
    (hs : (keep = some v ∧ a = u ∧ b = v) ∨ (keep = none ∧ T.ev e = (some a, some b))) :
    (∀ A topoflag, T.chooseEnds A e keep topoflag =
      if topoflag then
        if (A.vcls b).1 = (A.vcls a).1 then
          if (A.vcls b).2 ≠ (A.vcls a).2 then .ok none
          else if A.vgid a < A.vgid b then .ok (some (b, a))
          else .ok (some (a, b))
        else if (A.vcls a).1 < (A.vcls b).1 then
          if keep = none then .ok (some (b, a)) else .ok none
        else .ok (some (a, b))
      else if keep = none then do
        let es ← T.mvEdges a
        let es ← Res.ofOption es
        let x ← T.anyOuter es
        pure (some (if x then (b, a) else (a, b)))
      else .ok (some (a, b))) ∧ ((a = u ∧ b = v) ∨ (a = v ∧ b = u)) := by
  have hul : T.sv u = .live := h.ve.down e u hu.1 (EdgeHas_iff.1 hu).2
  have hvl : T.sv v = .live := h.ve.down e v hv.1 (EdgeHas_iff.1 hv).2
  rcases hs with ⟨rfl, rfl, rfl⟩ | ⟨rfl, hev⟩
  · refine ⟨fun A topoflag => ?_, Or.inl ⟨rfl, rfl⟩⟩
    unfold chooseEnds
    dsimp only
    rw [oppVertex_ok hu hv hne, Res.bind_ok]
    simp only [Res.pure_eq, Res.bind_ok, Res.ofOption_some]
    rw [derefV_ok (alloc_of_live hvl), Res.bind_ok, derefV_ok (alloc_of_live hul), Res.bind_ok]
  · have hab : (a = u ∧ b = v) ∨ (a = v ∧ b = u) := by
      rcases ends_two hu hv hne with h | h <;> rw [h] at hev <;> simp at hev
      · exact Or.inl ⟨hev.1.symm, hev.2.symm⟩
      · exact Or.inr ⟨hev.1.symm, hev.2.symm⟩
    refine ⟨fun A topoflag => ?_, hab⟩
    have hal : T.sv a = .live := by rcases hab with ⟨rfl, -⟩ | ⟨rfl, -⟩ <;> assumption
    have hbl : T.sv b = .live := by rcases hab with ⟨-, rfl⟩ | ⟨-, rfl⟩ <;> assumption
    unfold chooseEnds
    dsimp only
    rw [meVertex_ok (alloc_of_live hu.1), Res.bind_ok, meVertex_ok (alloc_of_live hu.1), hev]
    simp only [endAt, Bool.false_eq_true, if_false, if_true, Res.pure_eq, Res.bind_ok, Res.ofOption_some]
    rw [derefV_ok (alloc_of_live hbl), Res.bind_ok, derefV_ok (alloc_of_live hal), Res.bind_ok]

theorem meCollapse_of {T : Topo} (h : T.Consistent) {A : Labels} {topoflag : Bool} {e u v : Nat} {keep : Option Nat}
    (C : T.Collapsible A topoflag e u v) (hc : T.chooseEnds A e keep topoflag = .ok (some (u, v))) :
    ∃ T' c, T.meCollapse A e keep topoflag = .ok (T', some c) ∧ Collapsed T T' A e u v c := by
  obtain ⟨T', c, h1, h2⟩ := contract_ok h C
  refine ⟨T', c, ?_, h2⟩
  unfold meCollapse
  rw [derefE_ok (alloc_of_live C.at_u.1), Res.bind_ok, hc, Res.bind_ok]
  dsimp only
  rw [h1, Res.bind_ok]; rfl

/-- the start with no vertex asked for -/
theorem start_none {T : Topo} {e u v : Nat} (hu : T.EdgeHas e u) (hv : T.EdgeHas e v) (hne : u ≠ v) :
    T.ev e = (some u, some v) ∨ T.ev e = (some v, some u) := ends_two hu hv hne

theorem anyOuter_ok {T : Topo} (h : T.Consistent) : ∀ (xs : List Nat),
    (∀ x ∈ xs, T.se x = .live ∧ ∃ f, T.FaceHas f x) →
    ∃ b, T.anyOuter xs = .ok b ∧ (b = true ↔ ∃ x ∈ xs, ¬ ∃ f g, f ≠ g ∧ T.FaceHas f x ∧ T.FaceHas g x) := by
  intro xs
  induction xs with
  | nil => intro _; exact ⟨false, rfl, by simp⟩
  | cons x xs ih =>
    intro hx
    obtain ⟨hl, f0, hf0⟩ := hx x (by simp)
    obtain ⟨L, g1, g2⟩ := meFaces_ok (alloc_of_live hl)
    have hm : ∀ f, f ∈ T.ef x ↔ T.FaceHas f x := fun f => h.mem_ef hl
    have hn : (T.ef x).Nodup := h.ef.nodup x (alloc_of_live hl)
    have hLs : L = some (T.ef x) := by
      cases L with
      | none => have := (hm f0).2 hf0; rw [← g2] at this; cases this
      | some l => rw [← g2]; rfl
    unfold anyOuter
    rw [g1, Res.bind_ok, hLs, Res.ofOption_some, Res.bind_ok]
    have key : (T.ef x).length < 2 ↔ ¬ ∃ f g, f ≠ g ∧ T.FaceHas f x ∧ T.FaceHas g x := by
      constructor
      · rintro hlt ⟨f, g, hne, hf, hg⟩
        have hf := (hm f).2 hf
        have hg := (hm g).2 hg
        match hE : T.ef x, hlt, hf, hg with
        | [], _, hf, _ => cases hf
        | [z], _, hf, hg =>
          exact hne ((List.mem_singleton.1 hf).trans (List.mem_singleton.1 hg).symm)
        | _ :: _ :: _, hlt, _, _ => simp at hlt; omega
      · intro hno
        by_contra hc
        match hE : T.ef x, hc with
        | [], hc => simp at hc
        | [z], hc => simp at hc
        | p :: q :: r, _ =>
          rw [hE] at hn
          refine hno ⟨p, q, ?_, (hm p).1 (by rw [hE]; simp), (hm q).1 (by rw [hE]; simp)⟩
          rintro rfl
          exact (List.nodup_cons.1 hn).1 (by simp)
    by_cases hlt : (T.ef x).length < 2
    · rw [if_pos hlt]
      exact ⟨true, rfl, by simpa using Or.inl (key.1 hlt)⟩
    · rw [if_neg hlt]
      obtain ⟨b, k1, k2⟩ := ih fun y hy => hx y (by simp [hy])
      refine ⟨b, k1, k2.trans ?_⟩
      constructor
      · rintro ⟨y, hy, hc⟩; exact ⟨y, by simp [hy], hc⟩
      · rintro ⟨y, hy, hc⟩
        rcases List.mem_cons.1 hy with rfl | hy
        · exact absurd (key.2 hc) hlt
        · exact ⟨y, hy, hc⟩

/-! ### C65 -/

/-- **C65.**  When no regard is to be paid to the geometric model, the edge is contracted to the vertex asked for. -/
theorem C65_asked_partial {T : Topo} (h : T.Consistent) {A : Labels} {e u v : Nat}
    (C : T.Collapsible A false e u v) :
    ∃ T' c, T.meCollapse A e (some v) false = .ok (T', some c) ∧ Collapsed T T' A e u v c := by
  refine meCollapse_of h C ?_
  rw [(chooseEnds_start (a := u) (b := v) h C.at_u C.at_v C.ne (Or.inl ⟨rfl, rfl, rfl⟩)).1]
  simp

/-- **C65.**  With regard to the geometric model the edge is contracted to the vertex on the model entity of lower
dimension, or, when both vertices are on the same one, to the vertex with the smaller global ID. -/
theorem C65_conforming_partial {T : Topo} (h : T.Consistent) {A : Labels} {e u v : Nat} {keep : Option Nat}
    (C : T.Collapsible A true e u v) (hs : Stays A u v) (hk : keep = none ∨ keep = some v) :
    ∃ T' c, T.meCollapse A e keep true = .ok (T', some c) ∧ Collapsed T T' A e u v c := by
  refine meCollapse_of h C ?_
  have key : ∀ a b, (a = u ∧ b = v) ∨ (a = v ∧ b = u) → (keep = none ∨ a = u) →
      (if (A.vcls b).1 = (A.vcls a).1 then
          if (A.vcls b).2 ≠ (A.vcls a).2 then .ok none
          else if A.vgid a < A.vgid b then .ok (some (b, a))
          else .ok (some (a, b))
        else if (A.vcls a).1 < (A.vcls b).1 then
          if keep = none then .ok (some (b, a)) else .ok none
        else .ok (some (a, b)) : Res (Option (Nat × Nat))) = .ok (some (u, v)) := by
    rintro a b (⟨rfl, rfl⟩ | ⟨rfl, rfl⟩) hka
    · rcases hs with hs | ⟨hs, hg⟩
      · rw [if_neg (by omega), if_neg (by omega)]
      · rw [if_pos (by rw [hs]), if_neg (by rw [hs]; simp), if_neg (by omega)]
    · rcases hs with hs | ⟨hs, hg⟩
      · rw [if_neg (by omega), if_pos hs, if_pos (hka.resolve_right C.ne.symm)]
      · rw [if_pos (by rw [hs]), if_neg (by rw [hs]; simp), if_pos hg]
  rcases hk with rfl | rfl
  · rcases start_none C.at_u C.at_v C.ne with hev | hev
    · obtain ⟨k1, k2⟩ := chooseEnds_start (a := u) (b := v) h C.at_u C.at_v C.ne (Or.inr ⟨rfl, hev⟩)
      rw [k1]; exact key _ _ k2 (Or.inl rfl)
    · obtain ⟨k1, k2⟩ := chooseEnds_start (a := v) (b := u) h C.at_u C.at_v C.ne (Or.inr ⟨rfl, hev⟩)
      rw [k1]; exact key _ _ k2 (Or.inl rfl)
  · obtain ⟨k1, k2⟩ := chooseEnds_start (a := u) (b := v) h C.at_u C.at_v C.ne (Or.inl ⟨rfl, rfl, rfl⟩)
    rw [k1]; exact key _ _ k2 (Or.inr rfl)

/-- **C65.**  The call is refused, and the mesh is as before, when the vertices are on different model entities of
the same dimension, or the vertex asked for is on an entity of higher dimension than the other. -/
theorem C65_refused {T : Topo} (h : T.Consistent) (A : Labels) {e u v : Nat} {keep : Option Nat} (hu : T.EdgeHas e u)
    (hv : T.EdgeHas e v) (hne : u ≠ v)
    (hr : (Parted A u v ∧ (keep = none ∨ keep = some v)) ∨ ((A.vcls u).1 < (A.vcls v).1 ∧ keep = some v)) :
    T.meCollapse A e keep true = .ok (T, none) := by
  have fin : T.chooseEnds A e keep true = .ok none → T.meCollapse A e keep true = .ok (T, none) := by
    intro hc
    unfold meCollapse
    rw [derefE_ok (alloc_of_live hu.1), Res.bind_ok, hc, Res.bind_ok]; rfl
  apply fin
  rcases hr with ⟨⟨p1, p2⟩, rfl | rfl⟩ | ⟨hlt, rfl⟩
  · rcases start_none hu hv hne with hev | hev
    · rw [(chooseEnds_start (a := u) (b := v) h hu hv hne (Or.inr ⟨rfl, hev⟩)).1,
        if_pos rfl, if_pos p1.symm, if_pos p2.symm]
    · rw [(chooseEnds_start (a := v) (b := u) h hu hv hne (Or.inr ⟨rfl, hev⟩)).1,
        if_pos rfl, if_pos p1, if_pos p2]
  · rw [(chooseEnds_start (a := u) (b := v) h hu hv hne (Or.inl ⟨rfl, rfl, rfl⟩)).1,
      if_pos rfl, if_pos p1.symm, if_pos p2.symm]
  · rw [(chooseEnds_start (a := u) (b := v) h hu hv hne (Or.inl ⟨rfl, rfl, rfl⟩)).1,
      if_pos rfl, if_neg (by omega), if_pos hlt, if_neg (by simp)]

/-- **C65.**  When no vertex is asked for and no regard is to be paid to the geometric model, the first vertex of the
edge stays if it is on the boundary of the surface and goes otherwise. -/
theorem C65_boundary_partial {T : Topo} (h : T.Consistent) {A : Labels} {e u v : Nat}
    (hw : ∀ w, T.meVertex e false = .ok (some w) → ∀ x, T.EdgeHas x w → ∃ f, T.FaceHas f x)
    (C : T.Collapsible A false e u v)
    (hs : (T.meVertex e false = .ok (some u) ∧ T.Surrounded u) ∨
      (T.meVertex e false = .ok (some v) ∧ ¬ T.Surrounded v)) :
    ∃ T' c, T.meCollapse A e none false = .ok (T', some c) ∧ Collapsed T T' A e u v c := by
  refine meCollapse_of h C ?_
  have start : ∀ a b, T.ev e = (some a, some b) → (a = u ∧ b = v) ∨ (a = v ∧ b = u) →
      ∃ q, T.chooseEnds A e none false = .ok (some (if q then (b, a) else (a, b))) ∧ (q = true ↔ ¬ T.Surrounded a) := by
    intro a b hev hab
    have hae : T.EdgeHas e a := by rcases hab with ⟨rfl, -⟩ | ⟨rfl, -⟩ <;> first | exact C.at_u | exact C.at_v
    have hal : T.sv a = .live := h.ve.down e a hae.1 (EdgeHas_iff.1 hae).2
    have hfirst : T.meVertex e false = .ok (some a) := by rw [meVertex_ok (alloc_of_live hae.1), hev]; rfl
    obtain ⟨L, hL1, hL2⟩ := mvEdges_getD (alloc_of_live hal)
    have hLs : L = some (T.ve a) := by
      cases L with
      | none => have := (h.mem_ve hal).2 hae; rw [← hL2] at this; cases this
      | some l => rw [← hL2]; rfl
    obtain ⟨q, g1, g2⟩ := anyOuter_ok h (T.ve a) fun x hx =>
      ⟨((h.mem_ve hal).1 hx).1, hw a hfirst x ((h.mem_ve hal).1 hx)⟩
    refine ⟨q, ?_, g2.trans ?_⟩
    · rw [(chooseEnds_start (a := a) (b := b) h C.at_u C.at_v C.ne (Or.inr ⟨rfl, hev⟩)).1,
        if_neg (by simp), if_pos rfl, hL1, Res.bind_ok, hLs, Res.ofOption_some, Res.bind_ok, g1, Res.bind_ok]
      rfl
    · unfold Surrounded
      constructor
      · rintro ⟨x, hx, hc⟩ hall; exact hc (hall x ((h.mem_ve hal).1 hx))
      · intro hc
        by_contra hno
        apply hc
        intro x hx
        by_contra hc2
        exact hno ⟨x, (h.mem_ve hal).2 hx, hc2⟩
  rcases start_none C.at_u C.at_v C.ne with hev | hev
  · obtain ⟨q, g1, g2⟩ := start u v hev (Or.inl ⟨rfl, rfl⟩)
    have hf : T.meVertex e false = .ok (some u) := by rw [meVertex_ok (alloc_of_live C.at_u.1), hev]; rfl
    rcases hs with ⟨-, hs⟩ | ⟨hs, -⟩
    · have : q = false := by cases q; rfl; exact absurd hs (g2.1 rfl)
      rw [g1, this]; rfl
    · rw [hf] at hs; exact absurd (Option.some.inj (Res.ok.inj hs)) C.ne
  · obtain ⟨q, g1, g2⟩ := start v u hev (Or.inr ⟨rfl, rfl⟩)
    have hf : T.meVertex e false = .ok (some v) := by rw [meVertex_ok (alloc_of_live C.at_u.1), hev]; rfl
    rcases hs with ⟨hs, -⟩ | ⟨-, hs⟩
    · rw [hf] at hs; exact absurd (Option.some.inj (Res.ok.inj hs)).symm C.ne
    · rw [g1, g2.2 hs]; rfl

/-- **C65, what fails.**  With regard to the geometric model, a vertex that was asked for goes whenever the other is on
the same model entity and has a smaller global ID. -/
theorem C65_asked_for_goes {T : Topo} (h : T.Consistent) {A : Labels} {e u v : Nat}
    (C : T.Collapsible A true e v u) (hc : A.vcls u = A.vcls v) (hg : A.vgid u < A.vgid v) :
    ∃ T' c, T.meCollapse A e (some v) true = .ok (T', some c) ∧ T'.sv v = .kept ∧ c.kept = u := by
  obtain ⟨T', c, h1, h2⟩ := meCollapse_of (keep := some v) h C (by
    rw [(chooseEnds_start (a := u) (b := v) h C.at_v C.at_u C.ne.symm (Or.inl ⟨rfl, rfl, rfl⟩)).1,
      if_pos rfl, if_pos (by rw [hc]), if_neg (by rw [hc]; simp), if_pos hg])
  exact ⟨T', c, h1, by rw [h2.vertices, upd_same], h2.kept⟩

/-! ### examples -/

/-- the vertices of a face -/
def cycleOf (T : Topo) (f : Nat) : List Nat :=
  match T.mfVertices f true none with
  | .ok l => l.map (·.getD 0)
  | _ => []

/-- decidable version of `Touches` -/
def touchesB (T : Topo) (f w : Nat) : Bool := ((T.fe f).getD []).any fun x => decide (ends T.ev x w)

/-- executable form of the part of `Collapsible` that does not depend on the labels, for a mesh without regions -/
def collapsibleB (T : Topo) (e u v : Nat) : Bool :=
  let es := (List.range T.ne).filter fun x => T.se x = .live
  let fs := (List.range T.nf).filter fun f => decide (T.sf f = .live) && (T.touchesB f u || T.touchesB f v)
  let flat := fun f => decide (e ∈ (T.fe f).getD []) && decide (((T.fe f).getD []).length = 3)
  decide (T.nr = 0) && decide (u ≠ v) && decide (T.se e = .live) && decide (ends T.ev e u) && decide (ends T.ev e v) &&
  ([u, v].all fun w => es.all fun x => !decide (ends T.ev x w) ||
    ((List.range T.nv).any fun a => decide (a ≠ w) && decide (ends T.ev x a))) &&
  ([u, v].all fun w => es.all fun x => es.all fun y => !decide (ends T.ev x w) || !decide (ends T.ev y w) ||
    decide (x = y) || ((List.range T.nv).all fun a => decide (a = w) || !decide (ends T.ev x a) || !decide (ends T.ev y a))) &&
  (fs.all fun f => T.loopB f (T.cycleOf f) && decide (T.cycleOf f).Nodup && decide (3 ≤ (T.cycleOf f).length) &&
    decide ((T.cycleOf f).length ≤ 32) &&
    (!decide (u ∈ T.cycleOf f) || !decide (v ∈ T.cycleOf f) || decide (e ∈ (T.fe f).getD []))) &&
  (fs.all fun f => fs.all fun g => flat f || flat g || decide (f = g) ||
    !(((drawnTo u v (T.cycleOf f)).all fun w => decide (w ∈ drawnTo u v (T.cycleOf g))) &&
      ((drawnTo u v (T.cycleOf g)).all fun w => decide (w ∈ drawnTo u v (T.cycleOf f)))))

theorem cycleOf_loop {T : Topo} {f : Nat} {vs : List Nat} (hf : T.sf f = .live) (hl : T.Loop f vs) : T.cycleOf f = vs := by
  unfold cycleOf
  rw [C23_vertices hf hl true]
  simp [Function.comp_def]

theorem collapsibleB_sound {T : Topo} (h : T.Consistent) {A : Labels} {topoflag : Bool} {e u v : Nat} {c : Nat × Nat}
    (hA : ∀ x, A.ecls x = c) (hc : c.1 ≠ 4) (hb : T.collapsibleB e u v = true) : T.Collapsible A topoflag e u v := by
  unfold collapsibleB at hb
  simp only [Bool.and_eq_true, decide_eq_true_eq] at hb
  obtain ⟨⟨⟨⟨⟨⟨⟨⟨b1, b2⟩, b3⟩, b4⟩, b5⟩, b6⟩, b7⟩, b8⟩, b9⟩ := hb
  rw [List.all_eq_true] at b6 b7 b8 b9
  have hes : ∀ x w, T.EdgeHas x w → x ∈ (List.range T.ne).filter (fun x => T.se x = .live) ∧ w < T.nv ∧ ends T.ev x w := by
    intro x w hx
    have hxe := EdgeHas_iff.1 hx
    refine ⟨?_, ?_, hxe.2⟩
    · rw [List.mem_filter]
      refine ⟨List.mem_range.2 ?_, by simpa using hxe.1⟩
      by_contra hc
      have := h.newE x (by omega); rw [hxe.1] at this; cases this
    · by_contra hc
      have := h.newV w (by omega)
      rw [h.ve.down x w hxe.1 hxe.2] at this; cases this
  have hfs : ∀ f, T.Touches f u ∨ T.Touches f v →
      f ∈ (List.range T.nf).filter (fun f => decide (T.sf f = .live) && (T.touchesB f u || T.touchesB f v)) ∧ T.sf f = .live := by
    intro f hf
    have hl : T.sf f = .live := by
      rcases hf with ⟨x, -, hx⟩ | ⟨x, -, hx⟩ <;> exact hx.1
    refine ⟨?_, hl⟩
    rw [List.mem_filter]
    refine ⟨List.mem_range.2 ?_, ?_⟩
    · by_contra hc
      have := h.newF f (by omega); rw [hl] at this; cases this
    · simp only [hl, decide_true, Bool.true_and, Bool.or_eq_true]
      have key : ∀ w, T.Touches f w → T.touchesB f w = true := by
        rintro w ⟨x, hx1, hx2⟩
        unfold touchesB
        rw [List.any_eq_true]
        exact ⟨x, (faceHas_fe.1 hx2).2, by simpa using (EdgeHas_iff.1 hx1).2⟩
      exact hf.imp (key u) (key v)
  refine ⟨b2, EdgeHas_iff.2 ⟨b3, b4⟩, EdgeHas_iff.2 ⟨b3, b5⟩, ?_, ?_, ?_, ?_, ?_, ?_⟩
  · intro x w hw hx
    obtain ⟨m1, -, m3⟩ := hes x w hx
    have := b6 w (by simpa using hw)
    rw [List.all_eq_true] at this
    have := this x m1
    simp only [m3, decide_true, Bool.not_true, Bool.false_or, List.any_eq_true, Bool.and_eq_true, decide_eq_true_eq] at this
    obtain ⟨a, -, ha1, ha2⟩ := this
    exact ⟨a, ha1, EdgeHas_iff.2 ⟨hx.1, ha2⟩⟩
  · intro x y w a hw ha hx hxa hy hya
    obtain ⟨m1, -, m3⟩ := hes x w hx
    obtain ⟨n1, -, n3⟩ := hes y w hy
    obtain ⟨-, r2, r3⟩ := hes x a hxa
    obtain ⟨-, -, s3⟩ := hes y a hya
    have := b7 w (by simpa using hw)
    rw [List.all_eq_true] at this
    have := this x m1
    rw [List.all_eq_true] at this
    have := this y n1
    simp only [m3, n3, decide_true, Bool.not_true, Bool.false_or, Bool.or_eq_true, decide_eq_true_eq, List.all_eq_true] at this
    rcases this with h | h
    · exact h
    · have := h a (List.mem_range.2 r2)
      simp [ha, r3, s3] at this
  · intro f hf
    obtain ⟨m1, m2⟩ := hfs f hf
    have := b8 f m1
    simp only [Bool.and_eq_true, decide_eq_true_eq, Bool.or_eq_true, Bool.not_eq_true', decide_eq_false_iff_not] at this
    obtain ⟨⟨⟨⟨k1, k2⟩, k3⟩, k4⟩, k5⟩ := this
    refine ⟨fun r hr => ?_, _, loopB_sound k1, k2, k3, k4, fun hu hv => ?_⟩
    · have := h.newR r (by omega)
      rw [hr.1] at this; cases this
    · rcases k5 with (k5 | k5) | k5
      · exact absurd hu k5
      · exact absurd hv k5
      · exact faceHas_fe.2 ⟨m2, k5⟩
  · intro f g vs ws hf hg hnf hng hlf hlg hsame
    obtain ⟨m1, m2⟩ := hfs f hf
    obtain ⟨n1, n2⟩ := hfs g hg
    have := b9 f m1
    rw [List.all_eq_true] at this
    have := this g n1
    rw [cycleOf_loop m2 hlf, cycleOf_loop n2 hlg] at this
    have hflat : ∀ f, T.sf f = .live → ¬ T.Flattened e f →
        (decide (e ∈ (T.fe f).getD []) && decide (((T.fe f).getD []).length = 3)) = false := by
      intro f hf hn
      rw [Bool.eq_false_iff]
      intro hc
      rw [Bool.and_eq_true, decide_eq_true_eq, decide_eq_true_eq] at hc
      exact hn (Flattened.iff.2 ⟨faceHas_fe.2 ⟨hf, hc.1⟩, hc.2⟩)
    rw [hflat f m2 hnf, hflat g n2 hng] at this
    simp only [Bool.false_or, Bool.or_eq_true, decide_eq_true_eq, Bool.not_eq_true'] at this
    rcases this with h | h
    · exact h
    · exfalso
      rw [Bool.eq_false_iff] at h
      apply h
      rw [Bool.and_eq_true, List.all_eq_true, List.all_eq_true]
      exact ⟨fun w hw => by simpa using (hsame w).1 hw, fun w hw => by simpa using (hsame w).2 hw⟩
  · intro x y _ h4; rw [hA] at h4; exact absurd h4 hc
  · intro x y _ _ _; right; rw [hA, hA]

/-- the vertices and faces of a surface -/
def surfaceOps (nv : Nat) (fs : List (List Nat)) : List Op :=
  List.replicate nv .newVertex ++ ((List.range fs.length).zip fs).flatMap fun p => [.newFace, .setVertices p.1 p.2]

/-- two inner vertices 0 and 1 (edge 0) in a ring of triangles and one quadrilateral -/
def fanOps : List Op := surfaceOps 8 [[0,1,2],[1,0,5],[0,2,3],[0,3,4,5],[1,5,6],[1,6,7],[1,7,2]]

/-- everything is on one model face; the first vertices have the smaller global IDs -/
def plainLabels : Labels :=
  ⟨fun _ => (2,1), fun _ => (2,1), fun _ => (2,1), fun _ => 1, fun v => v + 1, fun x => x + 1, fun f => f + 1,
    fun _ => false, fun _ => false⟩

/-- An edge between two inner vertices may be contracted either way, with either flag; two edges go with it. -/
example : ∃ T, empty.run fanOps = .ok T ∧ T.Consistent ∧ T.Collapsible plainLabels false 0 0 1 ∧
    T.Collapsible plainLabels true 0 1 0 ∧ Stays plainLabels 1 0 ∧ T.Twins 0 1 2 1 ∧ T.Flattened 0 0 ∧
    T.Loop 3 [0,3,4,5] ∧ T.meVertex 0 false = .ok (some 0) := by
  obtain ⟨T, h1, h2⟩ := reachable (os := fanOps) (by decide +kernel)
  have hq : answer fanOps (fun T => .ok (T.collapsibleB 0 0 1 && T.collapsibleB 0 1 0 && T.loopB 3 [0,3,4,5] &&
      decide (T.meVertex 0 false = .ok (some 0)) && decide (T.fe 0 = some [0,1,2]) && decide (T.sf 0 = .live) &&
      decide (T.se 1 = .live) && decide (T.se 2 = .live) && decide (T.ev 1 = (some 1, some 2)) &&
      decide (T.ev 2 = (some 2, some 0)))) = .ok true := by decide +kernel
  unfold answer at hq
  rw [h1, Res.bind_ok, Res.ok.injEq] at hq
  simp only [Bool.and_eq_true, decide_eq_true_iff] at hq
  obtain ⟨⟨⟨⟨⟨⟨⟨⟨⟨a, b⟩, c⟩, d⟩, e⟩, f⟩, g⟩, i⟩, j⟩, k⟩ := hq
  refine ⟨T, h1, h2, collapsibleB_sound h2 (c := (2,1)) (fun _ => rfl) (by decide) a,
    collapsibleB_sound h2 (c := (2,1)) (fun _ => rfl) (by decide) b, Or.inr ⟨rfl, by decide⟩, ?_, ?_, loopB_sound c, d⟩
  · refine ⟨2, by decide, by decide, EdgeHas_iff.2 ⟨i, ?_⟩, EdgeHas_iff.2 ⟨i, ?_⟩, EdgeHas_iff.2 ⟨g, ?_⟩,
      EdgeHas_iff.2 ⟨g, ?_⟩⟩ <;> unfold ends <;> first | rw [k]; simp | rw [j]; simp
  · exact Flattened.iff.2 ⟨faceHas_fe.2 ⟨f, by rw [e]; simp⟩, by rw [e]; rfl⟩

/-- two triangles on an edge (edge 0) and nothing else -/
def kiteOps : List Op := surfaceOps 4 [[0,1,2],[1,0,3]]

/-- nothing is classified -/
def unknownLabels : Labels := { plainLabels with vcls := fun _ => (4,0), ecls := fun _ => (4,0), fcls := fun _ => (4,0) }

/-- **C65, what fails.**  In a mesh that is not classified the call crashes when an edge that is merged was only on
the triangles that went. -/
theorem C65_negation_unclassified : ∃ T, empty.run kiteOps = .ok T ∧ T.Consistent ∧ T.EdgeHas 0 0 ∧ T.EdgeHas 0 1 ∧
    T.Loop 0 [0,1,2] ∧ T.Loop 1 [1,0,3] ∧ T.meCollapse unknownLabels 0 (some 0) false = .ub := by
  obtain ⟨T, h1, h2⟩ := reachable (os := kiteOps) (by decide +kernel)
  have hq : answer kiteOps (fun T => .ok (decide (T.se 0 = .live) && decide (T.ev 0 = (some 0, some 1)) &&
      T.loopB 0 [0,1,2] && T.loopB 1 [1,0,3] &&
      match T.meCollapse unknownLabels 0 (some 0) false with
      | .ub => true
      | _ => false)) = .ok true := by decide +kernel
  unfold answer at hq
  rw [h1, Res.bind_ok, Res.ok.injEq] at hq
  simp only [Bool.and_eq_true, decide_eq_true_iff] at hq
  obtain ⟨⟨⟨⟨a, b⟩, c⟩, d⟩, q⟩ := hq
  refine ⟨T, h1, h2, EdgeHas_iff.2 ⟨a, by unfold ends; rw [b]; simp⟩, EdgeHas_iff.2 ⟨a, by unfold ends; rw [b]; simp⟩,
    loopB_sound c, loopB_sound d, ?_⟩
  split at q
  · assumption
  · cases q

/-- edge 2 is on a model edge, the others are on a model face and have smaller global IDs -/
def rimLabels : Labels :=
  { plainLabels with ecls := fun x => if x = 2 then (1,1) else (2,1), egid := fun x => if x = 2 then 9 else 1 }

/-- **C65, what fails.**  An edge on a model edge and one on a model face both count as boundary edges, and the global
ID decides.  When it decides against the model edge the merge is refused, but the edge is still returned as deleted
and merged.  The mesh is left with two edges between the same vertices. -/
theorem C65_negation_refused_merge : ∃ T T' c, empty.run kiteOps = .ok T ∧ T.Consistent ∧
    T.meCollapse rimLabels 0 (some 0) true = .ok (T', some c) ∧ .edge 2 ∈ c.deleted ∧ (.edge 2, .edge 1) ∈ c.merged ∧
    T'.se 2 = .live ∧ T'.se 1 = .live ∧ T'.ev 2 = (some 2, some 0) ∧ T'.ev 1 = (some 0, some 2) := by
  obtain ⟨T, h1, h2⟩ := reachable (os := kiteOps) (by decide +kernel)
  have hq : answer kiteOps (fun T => .ok (match T.meCollapse rimLabels 0 (some 0) true with
      | .ok (T', some c) => decide (.edge 2 ∈ c.deleted) && decide ((.edge 2, .edge 1) ∈ c.merged) &&
        decide (T'.se 2 = .live) && decide (T'.se 1 = .live) && decide (T'.ev 2 = (some 2, some 0)) &&
        decide (T'.ev 1 = (some 0, some 2))
      | _ => false)) = .ok true := by decide +kernel
  unfold answer at hq
  rw [h1, Res.bind_ok, Res.ok.injEq] at hq
  split at hq
  · rename_i T' c he
    simp only [Bool.and_eq_true, decide_eq_true_iff] at hq
    obtain ⟨⟨⟨⟨⟨a, b⟩, c'⟩, d⟩, e⟩, f⟩ := hq
    exact ⟨T, T', c, h1, h2, he, a, b, c', d, e, f⟩
  · cases hq

/-- a tetrahedron cut into four at an inner vertex 4; edge 6 is from the outer vertex 1 to it -/
def fourTets : List Op := surfaceOps 5 [[0,1,2],[0,1,3],[0,2,3],[1,2,3],[0,1,4],[0,2,4],[0,3,4],[1,2,4],[1,3,4],[2,3,4]] ++
  [.newRegion, .setFaces 0 [(0,true),(4,false),(5,true),(7,false)],
   .newRegion, .setFaces 1 [(1,false),(4,true),(6,false),(8,true)],
   .newRegion, .setFaces 2 [(2,true),(5,false),(6,true),(9,false)],
   .newRegion, .setFaces 3 [(3,false),(7,true),(9,true),(8,false)]]

/-- **C65, what fails.**  In a mesh with regions the vertex on the outer boundary is not preferred: the flag that was to
record it is set to the value it has. -/
theorem C65_negation_outer : ∃ T T' c, empty.run fourTets = .ok T ∧ T.Consistent ∧
    T.meVertex 6 false = .ok (some 1) ∧ T.meVertex 6 true = .ok (some 4) ∧
    T.mfRegions 0 = .ok (some [0]) ∧ T.Loop 0 [0,1,2] ∧
    (∀ f, T.Touches f 4 → ∃ r r', r ≠ r' ∧ T.RegionHas r f ∧ T.RegionHas r' f) ∧
    T.meCollapse plainLabels 6 none false = .ok (T', some c) ∧ c.kept = 4 ∧ T'.sv 1 = .kept := by
  obtain ⟨T, h1, h2⟩ := reachable (os := fourTets) (by decide +kernel)
  have hq : answer fourTets (fun T => .ok (decide (T.meVertex 6 false = .ok (some 1)) &&
      decide (T.meVertex 6 true = .ok (some 4)) && decide (T.mfRegions 0 = .ok (some [0])) && T.loopB 0 [0,1,2] &&
      ((List.range T.nf).all fun f => !T.touchesB f 4 || match T.fr f with
        | (some a, some b) => decide (a ≠ b) && decide (T.sf f = .live)
        | _ => false) &&
      match T.meCollapse plainLabels 6 none false with
      | .ok (T', some c) => decide (c.kept = 4) && decide (T'.sv 1 = .kept)
      | _ => false)) = .ok true := by decide +kernel
  unfold answer at hq
  rw [h1, Res.bind_ok, Res.ok.injEq] at hq
  simp only [Bool.and_eq_true, decide_eq_true_iff] at hq
  obtain ⟨⟨⟨⟨⟨a, b⟩, c'⟩, d⟩, e⟩, q⟩ := hq
  split at q
  · rename_i T' c he
    simp only [Bool.and_eq_true, decide_eq_true_iff] at q
    refine ⟨T, T', c, h1, h2, a, b, c', loopB_sound d, ?_, he, q.1, q.2⟩
    rintro f ⟨x, hx1, hx2⟩
    rw [List.all_eq_true] at e
    have hf : f ∈ List.range T.nf := by
      rw [List.mem_range]
      by_contra hc
      have := h2.newF f (by omega); rw [hx2.1] at this; cases this
    have ht : T.touchesB f 4 = true := by
      unfold touchesB
      rw [List.any_eq_true]
      exact ⟨x, (faceHas_fe.1 hx2).2, by simpa using (EdgeHas_iff.1 hx1).2⟩
    have := e f hf
    rw [ht, Bool.not_true, Bool.false_or] at this
    split at this
    · rename_i r r' hr
      simp only [Bool.and_eq_true, decide_eq_true_iff] at this
      exact ⟨r, r', this.1, (h2.mem_fr this.2).1 (Or.inl (by rw [hr]; simp)), (h2.mem_fr this.2).1 (Or.inr (by rw [hr]; simp))⟩
    · cases this
  · cases q

end Topo
end MSTK
