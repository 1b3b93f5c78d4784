import Verif.CollapseModel
import Verif.Props.MergeEdges

/-!
Helper lemmas for C65 (collapse of an edge): merging the edges that have come to lie on each other.
-/
namespace MSTK
namespace Topo

theorem faceHas_fe {T : Topo} {f e : Nat} : T.FaceHas f e ↔ T.sf f = .live ∧ e ∈ (T.fe f).getD [] := by
  constructor
  · intro h
    obtain ⟨l, h1, -, h3⟩ := h.stored
    exact ⟨h.1, by rw [h1]; exact h3⟩
  · rintro ⟨h1, h2⟩
    cases hl : T.fe f with
    | none => rw [hl] at h2; cases h2
    | some l =>
      rw [hl] at h2
      exact ⟨h1, l, mfEdges_plain (alloc_of_live h1) hl, h2⟩

theorem faceHas_view {T : Topo} {f e : Nat} : T.FaceHas f e ↔ T.view.sf f = .live ∧ e ∈ (T.view.edges f).map (·.1) := by
  rw [faceHas_fe, show T.view.edges f = T.edgesOf f from rfl, edgesOf_map_fst]; rfl

/-- the ends of `x` and `y` are the same two vertices -/
def SameEnds (ev : Nat → Option Nat × Option Nat) (x y : Nat) : Prop :=
  ev y = ev x ∨ ev y = ((ev x).2, (ev x).1)

theorem SameEnds.symm {ev : Nat → Option Nat × Option Nat} {x y : Nat} (h : SameEnds ev x y) : SameEnds ev y x := by
  rcases h with h | h
  · exact Or.inl h.symm
  · exact Or.inr (by rw [h])

theorem sameEnds_iff {ev : Nat → Option Nat × Option Nat} {x y : Nat} :
    ((ev x).1 = (ev y).1 ∧ (ev x).2 = (ev y).2) ∨ ((ev x).1 = (ev y).2 ∧ (ev y).1 = (ev x).2) ↔ SameEnds ev x y := by
  unfold SameEnds
  constructor
  · rintro (⟨a, b⟩ | ⟨a, b⟩)
    · exact Or.inl (Prod.ext a.symm b.symm)
    · exact Or.inr (Prod.ext b a.symm)
  · rintro (h | h)
    · rw [h]; exact Or.inl ⟨rfl, rfl⟩
    · rw [h]; exact Or.inr ⟨rfl, rfl⟩

/-- The mesh after the edges `p.1` were merged into the edges `p.2` for the pairs `p` of `ms`. -/
structure MergedAll (T0 T : Topo) (ms : List (Nat × Nat)) : Prop where
  consistent : T.Consistent
  sv : T.sv = T0.sv
  ev : T.ev = T0.ev
  gone : ∀ x, x ∈ ms.map (·.1) → T.se x = .kept
  same : ∀ x, x ∉ ms.map (·.1) → T.se x = T0.se x
  sf : T.sf = T0.sf
  sr : T.sr = T0.sr
  faces : T.view.faces = T0.view.faces
  types : ∀ r, T.mrElementType r = T0.mrElementType r
  loops : ∀ f vs, T0.sf f = .live → T0.Loop f vs → ∃ vs', vs' ~r vs ∧ T.Loop f vs'
  has : ∀ f x, x ∉ ms.map (·.1) → x ∉ ms.map (·.2) → (T.FaceHas f x ↔ T0.FaceHas f x)
  away : ∀ f, (∀ y, y ∈ ms.map (·.1) → ¬ T0.FaceHas f y) → T.view.edges f = T0.view.edges f

theorem MergedAll.refl {T : Topo} (h : T.Consistent) : MergedAll T T [] :=
  ⟨h, rfl, rfl, fun _ h => absurd h (by simp), fun _ _ => rfl, rfl, rfl, rfl, fun _ => rfl,
    fun _ vs _ hl => ⟨vs, List.IsRotated.refl _, hl⟩, fun _ _ _ _ => Iff.rfl, fun _ _ => rfl⟩

theorem useOf_ne {e1 e2 x : Nat} {same : Bool} {l : List (Nat × Bool)} (h1 : x ≠ e1) (h2 : x ≠ e2) :
    x ∈ (l.map (useOf e1 e2 same)).map (·.1) ↔ x ∈ l.map (·.1) := by
  simp only [List.mem_map]
  constructor
  · rintro ⟨p, ⟨q, hq, rfl⟩, rfl⟩
    unfold useOf at h1 h2 ⊢
    by_cases hc : q.1 = e2
    · rw [if_pos hc] at h1; exact absurd rfl h1
    · rw [if_neg hc]; exact ⟨q, hq, rfl⟩
  · rintro ⟨q, hq, rfl⟩
    refine ⟨_, ⟨q, hq, rfl⟩, ?_⟩
    unfold useOf
    rw [if_neg h2]

/-- One more pair. -/
theorem MergedAll.add {T0 T T' : Topo} {ms : List (Nat × Nat)} (g : MergedAll T0 T ms) {x y : Nat} {same : Bool}
    (m : EdgesMerged T T' x y same) (hy1 : y ∉ ms.map (·.1)) (hy2 : y ∉ ms.map (·.2)) :
    MergedAll T0 T' ((y, x) :: ms) := by
  have hse : T'.se = upd T.se y .kept := m.edges.1
  refine ⟨m.consistent, m.vertices.trans g.sv, m.edges.2.trans g.ev, ?_, ?_, m.faces.trans g.sf, m.regions.1.trans g.sr,
    m.regions.2.1.trans g.faces, fun r => (m.regions.2.2 r).trans (g.types r), ?_, ?_, ?_⟩
  · intro z hz
    rw [hse, upd_apply]
    split
    · rfl
    · rename_i hne
      rw [List.map_cons, List.mem_cons] at hz
      exact g.gone z (hz.resolve_left hne)
  · intro z hz
    rw [List.map_cons, List.mem_cons, not_or] at hz
    rw [hse, upd_ne _ _ hz.1]
    exact g.same z hz.2
  · intro f vs hf hl
    obtain ⟨vs1, h1, h2⟩ := g.loops f vs hf hl
    obtain ⟨vs2, h3, h4⟩ := m.loops f vs1 (by rw [g.sf]; exact hf) h2
    exact ⟨vs2, h3.trans h1, h4⟩
  · intro f z h1 h2
    rw [List.map_cons, List.mem_cons, not_or] at h1 h2
    rw [← g.has f z h1.2 h2.2, faceHas_view, faceHas_view, m.faces]
    constructor
    · rintro ⟨a, b⟩
      refine ⟨a, ?_⟩
      rw [((m.in_faces f a).map (·.1)).mem_iff] at b
      exact (useOf_ne h2.1 h1.1).1 b
    · rintro ⟨a, b⟩
      refine ⟨a, ?_⟩
      rw [((m.in_faces f a).map (·.1)).mem_iff]
      exact (useOf_ne h2.1 h1.1).2 b
  · intro f hf
    rw [List.map_cons] at hf
    have hno : ¬ T.FaceHas f y := by rw [g.has f y hy1 hy2]; exact hf y (by simp)
    rw [m.other_faces f hno]
    exact g.away f fun z hz => hf z (by simp [hz])

/-- in a face round different vertices two edges with the same ends are the same -/
theorem Closed.edge_unique {T : Topo} {ps : List (Nat × Bool)} {vs : List Nat} (h : T.Closed ps vs) (hn : vs.Nodup)
    (h3 : 3 ≤ vs.length) {p q : Nat × Bool} (hp : p ∈ ps) (hq : q ∈ ps) (hs : SameEnds T.ev p.1 q.1) : p = q := by
  obtain ⟨i, hi⟩ := List.mem_iff_getElem?.1 hp
  obtain ⟨j, hj⟩ := List.mem_iff_getElem?.1 hq
  have hil : i < vs.length := by rw [← h.1]; exact (List.getElem?_eq_some_iff.1 hi).1
  have hjl : j < vs.length := by rw [← h.1]; exact (List.getElem?_eq_some_iff.1 hj).1
  have hi1 : (i+1) % vs.length < vs.length := Nat.mod_lt _ (by omega)
  have hj1 : (j+1) % vs.length < vs.length := Nat.mod_lt _ (by omega)
  have l1 := h.2 i p _ _ hi (List.getElem?_eq_getElem hil) (List.getElem?_eq_getElem hi1)
  have l2 := h.2 j q _ _ hj (List.getElem?_eq_getElem hjl) (List.getElem?_eq_getElem hj1)
  have inj : ∀ {a b : Nat} (ha : a < vs.length) (hb : b < vs.length), vs[a] = vs[b] → a = b :=
    fun ha hb hh => (List.Nodup.getElem_inj_iff hn).1 hh
  unfold Leads at l1 l2
  have key : (vs[i] = vs[j] ∧ vs[(i+1) % vs.length] = vs[(j+1) % vs.length]) ∨
      (vs[i] = vs[(j+1) % vs.length] ∧ vs[(i+1) % vs.length] = vs[j]) := by
    rcases hs with hs | hs
    · rw [l1, l2] at hs
      cases hp2 : p.2 <;> cases hq2 : q.2 <;> simp [hp2, hq2] at hs
      · exact Or.inl ⟨hs.2.symm, hs.1.symm⟩
      · exact Or.inr ⟨hs.2.symm, hs.1.symm⟩
      · exact Or.inr ⟨hs.1.symm, hs.2.symm⟩
      · exact Or.inl ⟨hs.1.symm, hs.2.symm⟩
    · rw [l1, l2] at hs
      cases hp2 : p.2 <;> cases hq2 : q.2 <;> simp [hp2, hq2] at hs
      · exact Or.inr ⟨hs.1.symm, hs.2.symm⟩
      · exact Or.inl ⟨hs.1.symm, hs.2.symm⟩
      · exact Or.inl ⟨hs.2.symm, hs.1.symm⟩
      · exact Or.inr ⟨hs.2.symm, hs.1.symm⟩
  have hij : i = j := by
    rcases key with ⟨a, -⟩ | ⟨a, b⟩
    · exact inj hil hjl a
    · have e1 := inj hil hj1 a
      have e2 := inj hi1 hjl b
      exfalso
      by_cases c1 : j + 1 = vs.length
      · rw [c1, Nat.mod_self] at e1
        rw [e1, Nat.mod_eq_of_lt (by omega)] at e2; omega
      · rw [Nat.mod_eq_of_lt (by omega)] at e1
        by_cases c2 : i + 1 = vs.length
        · rw [c2, Nat.mod_self] at e2; omega
        · rw [Nat.mod_eq_of_lt (by omega)] at e2; omega
  subst hij
  rw [hi] at hj
  injection hj

/-- another edge of the list with the same ends -/
def Twin (T : Topo) (ves : List Nat) (e x y : Nat) : Prop :=
  x ∈ ves ∧ y ∈ ves ∧ x ≠ y ∧ x ≠ e ∧ y ≠ e ∧ SameEnds T.ev x y

theorem Twin.symm {T : Topo} {ves : List Nat} {e x y : Nat} (h : T.Twin ves e x y) : T.Twin ves e y x :=
  ⟨h.2.1, h.1, h.2.2.1.symm, h.2.2.2.2.1, h.2.2.2.1, h.2.2.2.2.2.symm⟩

/-- the edge `x` stays when `x` and `y` are merged -/
def wins (A : Labels) (ob : Nat → Bool) (x y : Nat) : Bool :=
  if ob x = ob y then decide (A.egid x ≤ A.egid y) else ob x

/-- The situation when the edges are merged. -/
structure MergeReady (T0 : Topo) (A : Labels) (topoflag : Bool) (e : Nat) (ves : List Nat) (ob : Nat → Bool) : Prop where
  consistent : T0.Consistent
  live : ∀ x ∈ ves, T0.se x = .live
  ends : ∀ x ∈ ves, x ≠ e → ∃ a b, a ≠ b ∧ T0.ev x = (some a, some b)
  point : ∃ a, T0.ev e = (some a, some a)
  uniq : ∀ x y z, T0.Twin ves e x y → T0.Twin ves e x z → y = z
  bnd : ∀ x y, T0.Twin ves e x y → ∀ T ms, MergedAll T0 T ms → x ∉ ms.map (·.1) → x ∉ ms.map (·.2) →
    T.onBoundary A x = .ok (ob x)
  may : ∀ x y, T0.Twin ves e x y → wins A ob x y = true → topoflag = true →
    (A.ecls x).1 < (A.ecls y).1 ∨ A.ecls x = A.ecls y
  loops : ∀ x y f, T0.Twin ves e x y → T0.FaceHas f y → ∃ vs, T0.Loop f vs ∧ vs.Nodup ∧ 3 ≤ vs.length ∧ vs.length ≤ 32

/-- What holds between the rounds. -/
structure MergeInv (T0 : Topo) (A : Labels) (e : Nat) (ves : List Nat) (ob : Nat → Bool) (T : Topo) (cur : List Nat)
    (ms : List (Nat × Nat)) : Prop where
  all : MergedAll T0 T ms
  pairs : ∀ p ∈ ms, T0.Twin ves e p.2 p.1 ∧ wins A ob p.2 p.1 = true ∧ p.2 ∉ ms.map (·.1)
  once : (ms.map (·.1)).Nodup
  nodup : cur.Nodup
  mem : ∀ z, z ∈ cur ↔ z ∈ ves ∧ z ∉ ms.map (·.1)

theorem MergeInv.snd {T0 : Topo} {A : Labels} {topoflag : Bool} {e : Nat} {ves : List Nat} {ob : Nat → Bool}
    (R : MergeReady T0 A topoflag e ves ob) {T : Topo} {cur : List Nat} {ms : List (Nat × Nat)}
    (I : MergeInv T0 A e ves ob T cur ms) {x y : Nat} (ht : T0.Twin ves e x y) (hy : y ∈ cur) : x ∉ ms.map (·.2) := by
  intro hx
  obtain ⟨p, hp, rfl⟩ := List.mem_map.1 hx
  obtain ⟨a, -, -⟩ := I.pairs p hp
  have : p.1 = y := R.uniq _ _ _ a ht
  exact ((I.mem y).1 hy).2 (this ▸ List.mem_map_of_mem (f := (·.1)) hp)

theorem mergeOneEdge_ok {T0 : Topo} {A : Labels} {topoflag : Bool} {e : Nat} {ves : List Nat} {ob : Nat → Bool}
    (R : MergeReady T0 A topoflag e ves ob) {T : Topo} {cur : List Nat} {ms : List (Nat × Nat)}
    (I : MergeInv T0 A e ves ob T cur ms) {x : Nat} (hx : x ∈ cur) (hxe : x ≠ e) :
    ∀ ys : List Nat, (∀ y ∈ ys, y ∈ cur) →
      (∃ y ∈ ys, T0.Twin ves e x y ∧ wins A ob x y = true ∧ ∃ T',
        mergeOneEdge A topoflag e x (T0.ev x).1 (T0.ev x).2 ys T = .ok (T', some y) ∧ MergedAll T0 T' ((y, x) :: ms)) ∨
      ((∀ y ∈ ys, T0.Twin ves e x y → wins A ob x y = false) ∧
        mergeOneEdge A topoflag e x (T0.ev x).1 (T0.ev x).2 ys T = .ok (T, none)) := by
  have hxv := (I.mem x).1 hx
  obtain ⟨a, b, hab, hev⟩ := R.ends x hxv.1 hxe
  have hlive : ∀ y ∈ cur, T.se y = .live := fun y hy => by
    rw [I.all.same y ((I.mem y).1 hy).2]; exact R.live y ((I.mem y).1 hy).1
  intro ys
  induction ys with
  | nil => intro _; exact Or.inr ⟨by simp, rfl⟩
  | cons y ys ih =>
    intro hys
    have ih := ih fun z hz => hys z (by simp [hz])
    have skip : mergeOneEdge A topoflag e x (T0.ev x).1 (T0.ev x).2 (y :: ys) T =
        mergeOneEdge A topoflag e x (T0.ev x).1 (T0.ev x).2 ys T → (T0.Twin ves e x y → wins A ob x y = false) →
      (∃ y' ∈ y :: ys, T0.Twin ves e x y' ∧ wins A ob x y' = true ∧ ∃ T',
        mergeOneEdge A topoflag e x (T0.ev x).1 (T0.ev x).2 (y :: ys) T = .ok (T', some y') ∧
          MergedAll T0 T' ((y', x) :: ms)) ∨
      ((∀ y' ∈ y :: ys, T0.Twin ves e x y' → wins A ob x y' = false) ∧
        mergeOneEdge A topoflag e x (T0.ev x).1 (T0.ev x).2 (y :: ys) T = .ok (T, none)) := by
      intro heq hno
      rw [heq]
      rcases ih with ⟨z, hz, r⟩ | ⟨h1, h2⟩
      · exact Or.inl ⟨z, by simp [hz], r⟩
      · refine Or.inr ⟨?_, h2⟩
        intro z hz
        rcases List.mem_cons.1 hz with rfl | hz
        · exact hno
        · exact h1 z hz
    have hyc := hys y (by simp)
    have hyl := hlive y hyc
    by_cases hxy : x = y
    · refine skip ?_ fun ht => absurd hxy ht.2.2.1
      rw [mergeOneEdge, if_pos (Or.inr hxy)]
    · have hstep : mergeOneEdge A topoflag e x (T0.ev x).1 (T0.ev x).2 (y :: ys) T =
          (if ((T0.ev x).1 = (T0.ev y).1 ∧ (T0.ev x).2 = (T0.ev y).2) ∨ ((T0.ev x).1 = (T0.ev y).2 ∧ (T0.ev y).1 = (T0.ev x).2) then
            T.onBoundary A x >>= fun bx => T.onBoundary A y >>= fun b2 =>
            if (if bx = b2 then decide (A.egid x ≤ A.egid y) else bx) then
              T.mesMerge [] topoflag A.ecls x y >>= fun q => pure (q.1, some y)
            else mergeOneEdge A topoflag e x (T0.ev x).1 (T0.ev x).2 ys T
          else mergeOneEdge A topoflag e x (T0.ev x).1 (T0.ev x).2 ys T) := by
        rw [mergeOneEdge, if_neg (by rintro (h | h); exact hxe h; exact hxy h), meVertex_ok (alloc_of_live hyl),
          Res.bind_ok, meVertex_ok (alloc_of_live hyl), Res.bind_ok, I.all.ev]
        rfl
      by_cases hs : SameEnds T0.ev x y
      · have hye : y ≠ e := by
          rintro rfl
          obtain ⟨c, hc⟩ := R.point
          rcases hs with hs | hs
          · rw [hc, hev] at hs; simp at hs; exact hab (hs.1.symm.trans hs.2)
          · rw [hc, hev] at hs; simp at hs; exact hab (hs.2.symm.trans hs.1)
        have ht : T0.Twin ves e x y := ⟨hxv.1, ((I.mem y).1 hyc).1, hxy, hxe, hye, hs⟩
        have hx2 := I.snd R ht hyc
        have hy2 := I.snd R ht.symm hx
        rw [if_pos (sameEnds_iff.2 hs), R.bnd x y ht T ms I.all hxv.2 hx2, Res.bind_ok,
          R.bnd y x ht.symm T ms I.all ((I.mem y).1 hyc).2 hy2, Res.bind_ok] at hstep
        by_cases hw : wins A ob x y = true
        · rw [if_pos (by exact hw)] at hstep
          refine Or.inl ⟨y, by simp, ht, hw, ?_⟩
          have hxl := hlive x hx
          obtain ⟨same, hsame⟩ : ∃ same : Bool, T.ev y = if same then (some a, some b) else (some b, some a) := by
            rw [I.all.ev]
            rcases hs with hs | hs
            · exact ⟨true, by rw [hs, hev]; rfl⟩
            · exact ⟨false, by rw [hs, hev]; rfl⟩
          have hevx : T.ev x = (some a, some b) := by rw [I.all.ev]; exact hev
          have hfaces : ∀ f, T.FaceHas f y → ¬ T.FaceHas f x ∧
              ∃ es, T.mfEdges f true none = .ok es ∧ es.Nodup ∧ es.length ≤ 32 := by
            intro f hf
            obtain ⟨vs, q1, q2, q3, q4⟩ := R.loops x y f ht ((I.all.has f y ((I.mem y).1 hyc).2 hy2).1 hf)
            obtain ⟨vs', q5, q6⟩ := I.all.loops f vs (by rw [← I.all.sf]; exact hf.1) q1
            have hn' : vs'.Nodup := q5.nodup_iff.2 q2
            have hlen' := q5.perm.length_eq
            obtain ⟨l, g1, g2, g3⟩ := hf.stored
            have hel := I.all.consistent.fedgesLive hf.1 g1
            have hcl := q6.closed (alloc_of_live hf.1) g1 (fun e he => alloc_of_live (hel e he))
            have huniq : ∀ z ∈ l, SameEnds T.ev y z → z = y := by
              intro z hz hsz
              rw [← pairs_map_fst l (fbit (T.fd f))] at hz g3
              obtain ⟨p, hp, rfl⟩ := List.mem_map.1 hz
              obtain ⟨q, hq, rfl⟩ := List.mem_map.1 g3
              rw [hcl.edge_unique hn' (by omega) hq hp hsz]
            refine ⟨?_, l, g2, ?_, ?_⟩
            · intro hfx
              have hzx := (faceHas_fe.1 hfx).2
              rw [g1] at hzx
              exact hxy (huniq x hzx (by rw [I.all.ev]; exact hs.symm))
            · have hpn := hcl.nodup hn'
              rw [← pairs_map_fst l (fbit (T.fd f)), List.nodup_map_iff_inj_on hpn]
              intro p hp q hq hpq
              exact hcl.edge_unique hn' (by omega) hp hq (Or.inl (by rw [hpq]))
            · have := hcl.1
              rw [pairs_length] at this
              omega
          have hm : ∃ T', T.mesMerge [] topoflag A.ecls x y = .ok (T', some []) ∧ EdgesMerged T T' x y same := by
            have e0 : T.meVertex x false = .ok (some a) := by rw [meVertex_ok (alloc_of_live hxl), hevx]; rfl
            have e1 : T.meVertex x true = .ok (some b) := by rw [meVertex_ok (alloc_of_live hxl), hevx]; rfl
            cases same with
            | true =>
              obtain ⟨T', m1, m2, -⟩ := C55_merge_partial I.all.consistent [] (topoflag := topoflag) (cls := A.ecls)
                (same := true) hxy hxl hyl (R.may x y ht hw) hab
                (by rw [meVertex_ok (alloc_of_live hyl), hsame]; rfl)
                (by rw [meVertex_ok (alloc_of_live hyl), hsame]; rfl) e0 e1 hfaces (by simp)
              exact ⟨T', m1, m2⟩
            | false =>
              obtain ⟨T', m1, m2, -⟩ := C55_merge_partial I.all.consistent [] (topoflag := topoflag) (cls := A.ecls)
                (same := false) hxy hxl hyl (R.may x y ht hw) hab.symm
                (by rw [meVertex_ok (alloc_of_live hyl), hsame]; rfl)
                (by rw [meVertex_ok (alloc_of_live hyl), hsame]; rfl) e1 e0 hfaces (by simp)
              exact ⟨T', m1, m2⟩
          obtain ⟨T', m1, m2⟩ := hm
          refine ⟨T', ?_, I.all.add m2 ((I.mem y).1 hyc).2 hy2⟩
          rw [hstep, m1]
          rfl
        · refine skip ?_ fun _ => by simpa using hw
          rw [hstep, if_neg (by exact hw)]
      · refine skip ?_ fun ht => absurd ht.2.2.2.2.2 hs
        rw [hstep, if_neg (fun hc => hs (sameEnds_iff.1 hc))]

theorem mergeEdges_ok {T0 : Topo} {A : Labels} {topoflag : Bool} {e : Nat} {ves : List Nat} {ob : Nat → Bool}
    (R : MergeReady T0 A topoflag e ves ob) : ∀ (xs cur : List Nat) (T : Topo) (ms : List (Nat × Nat)),
    MergeInv T0 A e ves ob T cur ms → (∀ x ∈ xs, x ∈ ves) →
    ∃ T' ms' cur', mergeEdges A topoflag e xs cur T = .ok (T', ms') ∧
      MergeInv T0 A e ves ob T' cur' (ms'.reverse ++ ms) ∧
      ∀ x ∈ xs, ∀ y, T0.Twin ves e x y → wins A ob x y = true →
        x ∈ (ms'.reverse ++ ms).map (·.1) ∨ y ∈ (ms'.reverse ++ ms).map (·.1) := by
  intro xs
  induction xs with
  | nil => intro cur T ms I _; exact ⟨T, [], cur, rfl, I, by simp⟩
  | cons x xs ih =>
    intro cur T ms I hxs
    by_cases hskip : x ∉ cur ∨ x = e
    · obtain ⟨T', ms', cur', r1, r2, r3⟩ := ih cur T ms I fun z hz => hxs z (by simp [hz])
      refine ⟨T', ms', cur', ?_, r2, ?_⟩
      · rw [mergeEdges, if_pos hskip]; exact r1
      · intro z hz y ht hw
        rcases List.mem_cons.1 hz with rfl | hz
        · rcases hskip with h | h
          · left
            have : z ∈ ms.map (·.1) := by
              by_contra hc
              exact h ((I.mem z).2 ⟨ht.1, hc⟩)
            rw [List.map_append, List.mem_append]; exact Or.inr this
          · exact absurd h ht.2.2.2.1
        · exact r3 z hz y ht hw
    · have hs := not_or.1 hskip
      have hxc : x ∈ cur := not_not.1 hs.1
      have hxe : x ≠ e := hs.2
      have hxl : T.se x = .live := by
        rw [I.all.same x ((I.mem x).1 hxc).2]; exact R.live x ((I.mem x).1 hxc).1
      have hstep : mergeEdges A topoflag e (x :: xs) cur T =
          (mergeOneEdge A topoflag e x (T0.ev x).1 (T0.ev x).2 cur T >>= fun q =>
            match q.2 with
            | none => mergeEdges A topoflag e xs cur q.1
            | some y => mergeEdges A topoflag e xs (cur.erase y) q.1 >>= fun s => pure (s.1, (y, x) :: s.2)) := by
        rw [mergeEdges, if_neg hskip, meVertex_ok (alloc_of_live hxl), Res.bind_ok, meVertex_ok (alloc_of_live hxl),
          Res.bind_ok, I.all.ev]
        rfl
      rcases mergeOneEdge_ok R I hxc hxe cur (fun _ h => h) with ⟨y, hyc, ht, hw, T1, r1, g1⟩ | ⟨hno, r1⟩
      · have hy2 := I.snd R ht.symm hxc
        have hyf := ((I.mem y).1 hyc).2
        have I' : MergeInv T0 A e ves ob T1 (cur.erase y) ((y, x) :: ms) := by
          refine ⟨g1, ?_, ?_, I.nodup.erase y, ?_⟩
          · intro p hp
            rcases List.mem_cons.1 hp with rfl | hpm
            · refine ⟨ht, hw, ?_⟩
              rw [List.map_cons, List.mem_cons, not_or]
              exact ⟨ht.2.2.1, ((I.mem x).1 hxc).2⟩
            · obtain ⟨a, b, c⟩ := I.pairs p hpm
              refine ⟨a, b, ?_⟩
              rw [List.map_cons, List.mem_cons, not_or]
              refine ⟨?_, c⟩
              intro hpy
              have hpy : p.2 = y := hpy
              exact hy2 (hpy ▸ List.mem_map_of_mem (f := (·.2)) hpm)
          · rw [List.map_cons]
            exact List.nodup_cons.2 ⟨hyf, I.once⟩
          · intro z
            rw [I.nodup.mem_erase_iff, I.mem z, List.map_cons, List.mem_cons, not_or]
            constructor
            · rintro ⟨a, b, c⟩; exact ⟨b, a, c⟩
            · rintro ⟨b, a, c⟩; exact ⟨a, b, c⟩
        obtain ⟨T', ms', cur', s1, s2, s3⟩ := ih _ _ _ I' fun z hz => hxs z (by simp [hz])
        refine ⟨T', (y, x) :: ms', cur', ?_, ?_, ?_⟩
        · rw [hstep, r1, Res.bind_ok]
          dsimp only
          rw [s1, Res.bind_ok]
          rfl
        · rw [List.reverse_cons, List.append_assoc]; exact s2
        · intro z hz y' ht' hw'
          rw [List.reverse_cons, List.append_assoc]
          rcases List.mem_cons.1 hz with rfl | hz
          · right
            rw [← R.uniq _ _ _ ht ht']
            simp
          · exact s3 z hz y' ht' hw'
      · obtain ⟨T', ms', cur', s1, s2, s3⟩ := ih cur T ms I fun z hz => hxs z (by simp [hz])
        refine ⟨T', ms', cur', ?_, s2, ?_⟩
        · rw [hstep, r1, Res.bind_ok]; exact s1
        · intro z hz y' ht' hw'
          rcases List.mem_cons.1 hz with rfl | hz
          · right
            by_cases hy' : y' ∈ cur
            · have := hno y' hy' ht'
              rw [hw'] at this; cases this
            · have : y' ∈ ms.map (·.1) := by
                by_contra hc
                exact hy' ((I.mem y').2 ⟨ht'.2.1, hc⟩)
              rw [List.map_append, List.mem_append]; exact Or.inr this
          · exact s3 z hz y' ht' hw'

end Topo
end MSTK
