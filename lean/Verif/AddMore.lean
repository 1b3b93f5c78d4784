import Verif.AddPolys
import Verif.Props.Tet2Hex

/-!
Faces and regions added to a mesh that has others already (for C74 and C75).
-/
namespace MSTK
namespace Topo

/-! ### what stays as it was -/

/-- Vertices, and the edges, faces and regions of `T` that are not of `De`, `Df`, `Dr`, are in `T'` as they were. -/
structure Remains (De Df Dr : Nat → Prop) (T T' : Topo) : Prop where
  verts : ∀ v, T.sv v = .live → T'.sv v = .live
  edges : ∀ e, T.se e = .live → ¬ De e → T'.se e = .live ∧ T'.ev e = T.ev e
  faces : ∀ f, T.sf f = .live → ¬ Df f → T'.sf f = .live ∧ T'.mfEdges f true none = T.mfEdges f true none ∧
    ∀ i, T'.mfEdgeDir_i f i = T.mfEdgeDir_i f i
  regions : ∀ r, T.sr r = .live → ¬ Dr r → T'.sr r = .live ∧ T'.mrFaces r = T.mrFaces r ∧
    (∀ f, T'.mrFaceDir r f = T.mrFaceDir r f) ∧ T'.mrElementType r = T.mrElementType r

/-- `De`, `Df`, `Dr` contain what is bounded by what they contain. -/
structure Upward (T : Topo) (De Df Dr : Nat → Prop) : Prop where
  face : ∀ f e, T.FaceHas f e → De e → Df f
  region : ∀ r f, T.RegionHas r f → Df f → Dr r

abbrev Nothing : Nat → Prop := fun _ => False

theorem Upward.nothing (T : Topo) (Dr : Nat → Prop) : T.Upward Nothing Nothing Dr :=
  ⟨fun _ _ _ h => h.elim, fun _ _ _ h => h.elim⟩

theorem Remains.refl (T : Topo) (De Df Dr : Nat → Prop) : Remains De Df Dr T T :=
  ⟨fun _ h => h, fun _ h _ => ⟨h, rfl⟩, fun _ h _ => ⟨h, rfl, fun _ => rfl⟩, fun _ h _ => ⟨h, rfl, fun _ => rfl, rfl⟩⟩

theorem Remains.trans {De Df Dr : Nat → Prop} {T T1 T2 : Topo} (g : Remains De Df Dr T T1) (k : Remains De Df Dr T1 T2) :
    Remains De Df Dr T T2 := by
  refine ⟨fun v h => k.verts v (g.verts v h), fun e he hd => ?_, fun f hf hd => ?_, fun r hr hd => ?_⟩
  · obtain ⟨a1, a2⟩ := g.edges e he hd
    obtain ⟨b1, b2⟩ := k.edges e a1 hd
    exact ⟨b1, b2.trans a2⟩
  · obtain ⟨a1, a2, a3⟩ := g.faces f hf hd
    obtain ⟨b1, b2, b3⟩ := k.faces f a1 hd
    exact ⟨b1, b2.trans a2, fun i => (b3 i).trans (a3 i)⟩
  · obtain ⟨a1, a2, a3, a4⟩ := g.regions r hr hd
    obtain ⟨b1, b2, b3, b4⟩ := k.regions r a1 hd
    exact ⟨b1, b2.trans a2, fun f => (b3 f).trans (a3 f), b4.trans a4⟩

theorem Remains.mono {De Df Dr De' Df' Dr' : Nat → Prop} {T T' : Topo} (g : Remains De Df Dr T T') (h1 : ∀ x, De x → De' x)
    (h2 : ∀ x, Df x → Df' x) (h3 : ∀ x, Dr x → Dr' x) : Remains De' Df' Dr' T T' :=
  ⟨g.verts, fun e he hd => g.edges e he fun hx => hd (h1 e hx), fun f hf hd => g.faces f hf fun hx => hd (h2 f hx),
    fun r hr hd => g.regions r hr fun hx => hd (h3 r hx)⟩

section
variable {De Df Dr : Nat → Prop} {T T' : Topo}

theorem Remains.edgeHas (g : Remains De Df Dr T T') {e v : Nat} (hd : ¬ De e) (he : T.EdgeHas e v) : T'.EdgeHas e v := by
  rw [EdgeHas_iff] at he ⊢
  obtain ⟨a1, a2⟩ := g.edges e he.1 hd
  exact ⟨a1, (ends_congr a2).2 he.2⟩

theorem Remains.edgeHas_back (g : Remains De Df Dr T T') {e v : Nat} (hd : ¬ De e) (hl : T.se e = .live)
    (he : T'.EdgeHas e v) : T.EdgeHas e v := by
  rw [EdgeHas_iff] at he ⊢
  obtain ⟨a1, a2⟩ := g.edges e hl hd
  exact ⟨hl, (ends_congr a2).1 he.2⟩

theorem Remains.faceHas (g : Remains De Df Dr T T') {f e : Nat} (hf : T.sf f = .live) (hd : ¬ Df f) :
    T'.FaceHas f e ↔ T.FaceHas f e := by
  obtain ⟨a1, a2, a3⟩ := g.faces f hf hd
  constructor
  · rintro ⟨-, es, h1, h2⟩; exact ⟨hf, es, a2 ▸ h1, h2⟩
  · rintro ⟨-, es, h1, h2⟩; exact ⟨a1, es, a2 ▸ h1, h2⟩

theorem Remains.loop (g : Remains De Df Dr T T') (h : T.Consistent) (hu : T.Upward De Df Dr) {f : Nat} {c : List Nat}
    (hf : T.sf f = .live) (hd : ¬ Df f) (hl : T.Loop f c) : T'.Loop f c := by
  obtain ⟨es, e1, e2, e3⟩ := hl
  obtain ⟨f1, f2, f3⟩ := g.faces f hf hd
  refine ⟨es, f2.trans e1, e2, ?_⟩
  intro k' e he
  obtain ⟨d, d1, d2, d3⟩ := e3 k' e he
  have hfe : T.FaceHas f e := ⟨hf, es, e1, List.mem_of_getElem? he⟩
  have hel : T.se e = .live := faceHas_live h hfe
  obtain ⟨g1, g2⟩ := g.edges e hel fun hx => hd (hu.face f e hfe hx)
  rw [meVertex_ok (alloc_of_live hel)] at d2 d3
  refine ⟨d, (f3 k').trans d1, ?_, ?_⟩
  · rw [meVertex_ok (alloc_of_live g1), g2]; exact d2
  · rw [meVertex_ok (alloc_of_live g1), g2]; exact d3

theorem Remains.seen (g : Remains De Df Dr T T') (h : T.Consistent) (hl : T.AllLoops) (hu : T.Upward De Df Dr) {f : Nat} {d : Bool}
    {c : List Nat} (hf : T.sf f = .live) (hd : ¬ Df f) (hc : c ≠ []) : T'.Seen f d c ↔ T.Seen f d c := by
  obtain ⟨w, hw, hwn⟩ := hl f hf
  rw [seen_iff (g.faces f hf hd).1 (g.loop h hu hf hd hw) hwn hc, seen_iff hf hw hwn hc]

theorem Remains.regionHas (g : Remains De Df Dr T T') {r f : Nat} (hr : T.sr r = .live) (hd : ¬ Dr r) :
    T'.RegionHas r f ↔ T.RegionHas r f := by
  obtain ⟨a1, a2, a3, -⟩ := g.regions r hr hd
  constructor
  · rintro ⟨-, d, h1⟩; exact ⟨hr, d, a3 f ▸ h1⟩
  · rintro ⟨-, d, h1⟩; exact ⟨a1, d, a3 f ▸ h1⟩

theorem Remains.uses (g : Remains De Df Dr T T') (h : T.Consistent) (hl : T.AllLoops) (hu : T.Upward De Df Dr) {r f : Nat}
    {c : List Nat} (hr : T.sr r = .live) (hd : ¬ Dr r) (hc : c ≠ []) : T'.Uses r f c ↔ T.Uses r f c := by
  obtain ⟨a1, a2, a3, -⟩ := g.regions r hr hd
  constructor
  · rintro ⟨-, d, h1, h2⟩
    rw [a3] at h1
    have hfl : T.sf f = .live := h.fr.down r f d hr ((mrFaceDir_iff h hr).1 h1)
    have hdf : ¬ Df f := fun hx => hd (hu.region r f ⟨hr, d, h1⟩ hx)
    exact ⟨hr, d, h1, (g.seen h hl hu hfl hdf hc).1 h2⟩
  · rintro ⟨-, d, h1, h2⟩
    have hfl : T.sf f = .live := h.fr.down r f d hr ((mrFaceDir_iff h hr).1 h1)
    have hdf : ¬ Df f := fun hx => hd (hu.region r f ⟨hr, d, h1⟩ hx)
    exact ⟨a1, d, (a3 f).trans h1, (g.seen h hl hu hfl hdf hc).2 h2⟩

theorem Remains.isElement (g : Remains De Df Dr T T') (h : T.Consistent) (hl : T.AllLoops) (hu : T.Upward De Df Dr) {r : Nat}
    {vs : List Nat} (hr : T.sr r = .live) (hd : ¬ Dr r) : T'.IsElement r vs ↔ T.IsElement r vs := by
  obtain ⟨a1, a2, a3, -⟩ := g.regions r hr hd
  constructor
  · rintro ⟨k1, k2, -, fs, k3, k4, k5⟩
    refine ⟨k1, k2, hr, fs, a2 ▸ k3, k4, fun c hc => ?_⟩
    obtain ⟨f, hf⟩ := k5 c hc
    exact ⟨f, (g.uses h hl hu hr hd (stdCycles_ne hc)).1 hf⟩
  · rintro ⟨k1, k2, -, fs, k3, k4, k5⟩
    refine ⟨k1, k2, a1, fs, a2.trans k3, k4, fun c hc => ?_⟩
    obtain ⟨f, hf⟩ := k5 c hc
    exact ⟨f, (g.uses h hl hu hr hd (stdCycles_ne hc)).2 hf⟩
end

theorem Ext.stays {T T' : Topo} (g : Ext T T') (hrt : T'.rt = T.rt) : Remains Nothing Nothing Nothing T T' := by
  refine ⟨fun v hv => by rw [g.sv]; exact hv, fun e he _ => g.oldE e he, fun f hf _ => ?_, fun r hr _ => ?_⟩
  · obtain ⟨a1, a2, a3, -⟩ := g.oldF f hf
    refine ⟨a1, mfEdges_same f (a1.trans hf.symm) a2, fun i => ?_⟩
    unfold mfEdgeDir_i
    rw [derefF_ok (alloc_of_live hf), derefF_ok (alloc_of_live a1), a3]
  · refine ⟨by rw [g.sr]; exact hr, ?_, fun f => ?_, ?_⟩
    · unfold mrFaces rfaces derefR; rw [g.sr, g.rf]
    · unfold mrFaceDir rfaces derefR; rw [g.sr, g.rf, g.rd]
    · unfold mrElementType derefR; rw [g.sr, hrt]

/-! ### more faces -/

/-- `T'` is `T` with a new face for each of the cycles `cs`, and the edges this needs. -/
structure FacesMore (T T' : Topo) (cs : List (List Nat)) : Prop where
  cons : T'.Consistent
  loops : T'.AllLoops
  simpleE : T'.SimpleEdges
  simpleF : T'.SimpleFaces
  stays : Remains Nothing Nothing Nothing T T'
  sv : ∀ v, T'.sv v = .live ↔ T.sv v = .live
  sr : ∀ r, T'.sr r = .live ↔ T.sr r = .live
  nr : T'.nr = T.nr
  nf : T'.nf = T.nf + cs.length
  each : ∀ (i : Nat) c, cs[i]? = some c → T'.sf (T.nf + i) = .live ∧ T'.Loop (T.nf + i) c
  newF : ∀ f, T'.sf f = .live → T.sf f = .live ∨ ∃ i, i < cs.length ∧ f = T.nf + i
  newE : ∀ e, T'.se e = .live → T.se e = .live ∨ ∃ c ∈ cs, ∃ a b, Next c a b ∧ T'.ev e = (some a, some b)

theorem FacesMore.nil {T : Topo} (h : T.Consistent) (hl : T.AllLoops) (hE : T.SimpleEdges) (hF : T.SimpleFaces) :
    FacesMore T T [] :=
  ⟨h, hl, hE, hF, Remains.refl _ _ _ _, fun _ => Iff.rfl, fun _ => Iff.rfl, rfl, rfl, by simp, fun _ h => Or.inl h, fun _ h => Or.inl h⟩

theorem addFace_more {T : Topo} (h : T.Consistent) (hl : T.AllLoops) (hE : T.SimpleEdges) (hF : T.SimpleFaces) {c : List Nat}
    (hv : ∀ v ∈ c, T.sv v = .live) (hc : c.Nodup) (h3 : 3 ≤ c.length) (hn : c.length ≤ 30)
    (hno : ∀ g d, T.sf g = .live → ¬ T.Seen g d c) : ∃ T', T.addFace c = .ok T' ∧ FacesMore T T' [c] := by
  obtain ⟨T1, es, T', r1, g1, n1, r, hst, hloop, hnew, k1, k2, k3, k4⟩ := newFaceVerts_ok h hl hv hc h3 hn (fun _ => hno)
  obtain ⟨b1, b2, b3, b4, b5⟩ := edgesFor_frame _ _ _ _ h
      (fun q hq => ⟨hv _ (mem_cyclicPairs hq).1, hv _ (mem_cyclicPairs hq).2⟩) r1
  have hfr : T'.nr = T.nr ∧ T'.rt = T.rt := by
    have h1 := r
    unfold mfSetVertices at h1
    obtain ⟨-, -, h1⟩ := Res.bind_eq_ok.1 h1
    split at h1
    · cases h1
    obtain ⟨⟨T2, es2⟩, h2, h3⟩ := Res.bind_eq_ok.1 h1
    dsimp only at h3
    obtain ⟨a1, a2, a3, a4, a5⟩ := edgesFor_frame _ _ _ _ h.newFace
      (fun q hq => ⟨hv _ (mem_cyclicPairs hq).1, hv _ (mem_cyclicPairs hq).2⟩) h2
    unfold mfSetEdges at h3
    obtain ⟨-, -, h3⟩ := Res.bind_eq_ok.1 h3
    obtain ⟨q1, q2, q3, q4, q5, q6⟩ := setEdgesLoop_frame _ _ _ _ h3
    exact ⟨q1.trans a1, q3.trans a3⟩
  refine ⟨T', r, ⟨hst.cons, hst.loops, hst.simpleE hE, hst.simpleF hE hF, hst.ext.stays hfr.2, ?_, ?_, hfr.1, k1, ?_, ?_, ?_⟩⟩
  · intro v; rw [hst.ext.sv]
  · intro v; rw [hst.ext.sr]
  · intro i c' hi
    cases i with
    | zero =>
      simp only [List.getElem?_cons_zero, Option.some.injEq] at hi
      subst hi
      exact ⟨hst.live, hloop⟩
    | succ i => simp at hi
  · intro f hf
    rcases hnew f hf with rfl | h0
    · exact Or.inr ⟨0, by simp, rfl⟩
    · exact Or.inl h0
  · intro e he
    rw [k4] at he
    rw [k3]
    rcases b5 e he with k | ⟨q, hq, k⟩
    · exact Or.inl k
    · exact Or.inr ⟨c, by simp, q.1, q.2, edgesOf_next hq, k⟩

theorem addFaces_more : ∀ (cs : List (List Nat)) {T : Topo}, T.Consistent → T.AllLoops → T.SimpleEdges → T.SimpleFaces →
    (∀ c ∈ cs, (∀ v ∈ c, T.sv v = .live) ∧ c.Nodup ∧ 3 ≤ c.length ∧ c.length ≤ 30) →
    (∀ c ∈ cs, ∀ g d, T.sf g = .live → ¬ T.Seen g d c) →
    (cs.Pairwise fun c c' => ¬ c'.Perm c) → ∃ T', addFaces cs T = .ok T' ∧ FacesMore T T' cs := by
  intro cs
  induction cs with
  | nil => intro T h hl hE hF _ _ _; exact ⟨T, rfl, FacesMore.nil h hl hE hF⟩
  | cons c cs ih =>
    intro T h hl hE hF hc hno hp
    rw [List.pairwise_cons] at hp
    obtain ⟨c1, c2, c3, c4⟩ := hc c (by simp)
    obtain ⟨T1, r1, m1⟩ := addFace_more h hl hE hF c1 c2 c3 c4 (hno c (by simp))
    have l1 := m1.each 0 c (by simp)
    obtain ⟨T2, r2, m2⟩ := ih m1.cons m1.loops m1.simpleE m1.simpleF
      (fun x hx => ⟨fun v hv => (m1.sv v).2 ((hc x (by simp [hx])).1 v hv), (hc x (by simp [hx])).2⟩)
      (by
        intro x hx g d hg hseen
        have hne : x ≠ [] := by rintro rfl; have := (hc [] (by simp [hx])).2.2.1; simp at this
        rcases m1.newF g hg with hg0 | ⟨i, hi, rfl⟩
        · exact hno x (by simp [hx]) g d hg0 ((m1.stays.seen h hl (Upward.nothing _ _) hg0 id hne).1 hseen)
        · have : i = 0 := by simpa using hi
          subst this
          rw [seen_iff hg l1.2 c2 hne] at hseen
          exact hp.1 x hx (hseen.perm.trans (turned_perm d))) hp.2
    refine ⟨T2, ?_, ⟨m2.cons, m2.loops, m2.simpleE, m2.simpleF, m1.stays.trans m2.stays, fun v => (m2.sv v).trans (m1.sv v),
      fun v => (m2.sr v).trans (m1.sr v), m2.nr.trans m1.nr, ?_, ?_, ?_, ?_⟩⟩
    · rw [show addFaces (c :: cs) T = (T.addFace c >>= fun T => addFaces cs T) from rfl, r1, Res.bind_ok, r2]
    · rw [m2.nf, m1.nf]; simp; omega
    · intro i c' hi
      cases i with
      | zero =>
        simp only [List.getElem?_cons_zero, Option.some.injEq] at hi
        subst hi
        exact ⟨(m2.stays.faces _ l1.1 id).1, m2.stays.loop m1.cons (Upward.nothing _ Nothing) l1.1 id l1.2⟩
      | succ i =>
        rw [List.getElem?_cons_succ] at hi
        have := m2.each i c' hi
        rw [m1.nf] at this
        rw [show T.nf + (i+1) = T.nf + [c].length + i by simp; omega]
        exact this
    · intro f hf
      rcases m2.newF f hf with h0 | ⟨i, hi, rfl⟩
      · rcases m1.newF f h0 with h0 | ⟨i, hi, rfl⟩
        · exact Or.inl h0
        · exact Or.inr ⟨i, by simp at hi ⊢; omega, rfl⟩
      · exact Or.inr ⟨i+1, by simp; omega, by rw [m1.nf]; simp; omega⟩
    · intro e he
      rcases m2.newE e he with h0 | ⟨x, hx, a, b, k1, k2⟩
      · rcases m1.newE e h0 with h1 | ⟨x, hx, a, b, k1, k2⟩
        · exact Or.inl h1
        · refine Or.inr ⟨x, by simp at hx; simp [hx], a, b, k1, ?_⟩
          rw [(m2.stays.edges e h0 id).2]; exact k2
      · exact Or.inr ⟨x, by simp [hx], a, b, k1, k2⟩

/-! ### more regions -/

/-- `T'` is `T` with a new standard element for each of the lists of vertices `vss`, and the faces and edges this
needs. -/
structure RegsMore (T T' : Topo) (vss : List (List Nat)) : Prop where
  cons : T'.Consistent
  loops : T'.AllLoops
  simpleE : T'.SimpleEdges
  simpleF : T'.SimpleFaces
  stays : Remains Nothing Nothing Nothing T T'
  sv : ∀ v, T'.sv v = .live ↔ T.sv v = .live
  nr : T'.nr = T.nr + vss.length
  each : ∀ (i : Nat) vs, vss[i]? = some vs → T'.IsElement (T.nr + i) vs ∧ T'.mrElementType (T.nr + i) = .ok (stdType vs.length)
  newR : ∀ r, T'.sr r = .live → T.sr r = .live ∨ ∃ i, i < vss.length ∧ r = T.nr + i
  newF : ∀ f, T'.sf f = .live → T.sf f = .live ∨ ∃ vs ∈ vss, ∃ c ∈ stdCycles vs, ∃ d, T'.Seen f d c
  newE : ∀ e, T'.se e = .live → T.se e = .live ∨ ∃ vs ∈ vss, ∃ c ∈ stdCycles vs, ∃ a b, Next c a b ∧
    (T'.ev e = (some a, some b) ∨ T'.ev e = (some b, some a))

theorem RegsMore.nil {T : Topo} (h : T.Consistent) (hl : T.AllLoops) (hE : T.SimpleEdges) (hF : T.SimpleFaces) :
    RegsMore T T [] :=
  ⟨h, hl, hE, hF, Remains.refl _ _ _ _, fun _ => Iff.rfl, rfl, by simp, fun _ h => Or.inl h, fun _ h => Or.inl h, fun _ h => Or.inl h⟩

theorem newRegion_stays {T : Topo} (h : T.Consistent) : Remains Nothing Nothing Nothing T T.mrNew.1 := by
  refine ⟨fun v hv => hv, fun e he _ => ⟨he, rfl⟩, fun f hf _ => ⟨hf, rfl, fun _ => rfl⟩, fun r hr _ => ?_⟩
  have hne : r ≠ T.nr := by
    rintro rfl
    rw [h.newR _ (Nat.le_refl _)] at hr
    cases hr
  have q1 : T.mrNew.1.sr r = T.sr r := upd_ne _ _ hne
  have q2 : T.mrNew.1.rf r = T.rf r := upd_ne _ _ hne
  have q3 : T.mrNew.1.rd r = T.rd r := upd_ne _ _ hne
  have q4 : T.mrNew.1.rt r = T.rt r := upd_ne _ _ hne
  refine ⟨q1.trans hr, ?_, fun f => ?_, ?_⟩
  · unfold mrFaces rfaces derefR; rw [q1, q2]
  · unfold mrFaceDir rfaces derefR; rw [q1, q2, q3]
  · unfold mrElementType derefR; rw [q1, q4]

theorem addRegion_more {T : Topo} (h : T.Consistent) (hl : T.AllLoops) (hE : T.SimpleEdges) (hF : T.SimpleFaces) {vs : List Nat}
    (hv : ∀ v ∈ vs, T.sv v = .live) (hn : vs.Nodup)
    (hlen : vs.length = 4 ∨ vs.length = 5 ∨ vs.length = 6 ∨ vs.length = 8)
    (hfree : ∀ c ∈ stdCycles vs, ∀ o f, ¬ T.Uses o f c) : ∃ T', T.addRegion vs = .ok T' ∧ RegsMore T T' [vs] := by
  have hc1 := h.newRegion
  have hl1 : T.mrNew.1.AllLoops := hl
  have hr1 : T.mrNew.1.sr T.nr = .live := upd_same _ _ _
  have hrf : T.mrNew.1.rf T.nr = none := upd_same _ _ _
  have st := newRegion_stays h
  have hfree' : ∀ c ∈ stdCycles vs, T.mrNew.1.FreeSide c := by
    intro c hc f d hf hseen
    have hf' : T.sf f = .live := hf
    have hseen' : T.Seen f d c := (seen_newRegion hl hf' (stdCycles_ne hc)).1 hseen
    exact freeSide_of_unused h (hfree c hc) f d hf' hseen'
  have hs1 : T.mrNew.1.SimpleEdges := hE
  have hs2 : T.mrNew.1.SimpleFaces := by
    intro f g d d' c hc hf hg k1 k2
    have hne : c ≠ [] := by rintro rfl; simp at hc
    exact hF f g d d' c hc hf hg ((seen_newRegion hl hf hne).1 k1) ((seen_newRegion hl hg hne).1 k2)
  have hvl : ∀ v ∈ vs, T.mrNew.1.sv v = .live := hv
  obtain ⟨T', fs, a1, a2, a3, a4, a5, a6, a7, a8, a9, a10, -⟩ := mrSetVertices_ok hc1 hl1 (r := T.nr) (vs := vs) hr1
    (by rw [hrf]; rfl) hn hvl hlen hfree'
  obtain ⟨b1, b2, b3, b4, b5⟩ := mrSetVertices_frame hc1 hvl hlen a1
  have hnew : ∀ r, T.sr r = .live → r ≠ T.nr := by
    rintro r hr rfl
    rw [h.newR _ (Nat.le_refl _)] at hr
    cases hr
  have hst : Remains Nothing Nothing Nothing T T' := by
    refine ⟨fun v hv => (a7.vertices v).2 hv, fun e he _ => ?_, fun f hf _ => a7.faces f hf, fun r hr _ => ?_⟩
    · obtain ⟨g1, g2⟩ := a7.edges e he
      have q1 := g2 false
      have q2 := g2 true
      have k' : T.mrNew.1.se e = .live := he
      rw [meVertex_ok (alloc_of_live g1), meVertex_ok (alloc_of_live k')] at q1 q2
      injection q1 with q1
      injection q2 with q2
      exact ⟨g1, Prod.ext q1 q2⟩
    · obtain ⟨s1, s2, s3, s4⟩ := st.regions r hr id
      obtain ⟨o1, o2⟩ := a7.others r (hnew r hr) s1
      have hl' := (a7.regions r).2 s1
      refine ⟨hl', o1.trans s2, fun f => (o2 f).trans (s3 f), ?_⟩
      rw [← s4]
      unfold mrElementType
      rw [derefR_ok (alloc_of_live s1), derefR_ok (alloc_of_live hl'), b3 r (hnew r hr)]
  refine ⟨T', a1, ⟨a2, a3, a9 hs1, a10 hs1 hs2, hst, fun v => a7.vertices v, b1, ?_, ?_, ?_, ?_⟩⟩
  · intro i ws hi
    cases i with
    | zero =>
      simp only [List.getElem?_cons_zero, Option.some.injEq] at hi
      subst hi
      refine ⟨⟨hlen, hn, (a7.regions _).2 hr1, fs, a4, a5, fun c hc => ?_⟩, a8⟩
      obtain ⟨i, hi⟩ := List.mem_iff_getElem?.1 hc
      have hil := (List.getElem?_eq_some_iff.1 hi).1
      obtain ⟨f, hf⟩ : ∃ f, fs[i]? = some f := ⟨_, List.getElem?_eq_getElem (by omega)⟩
      exact ⟨f, a6 i c f hi hf⟩
    | succ i => simp at hi
  · intro r hr
    by_cases hx : r = T.nr
    · exact Or.inr ⟨0, by simp, hx⟩
    · left
      have := (a7.regions r).1 hr
      have : upd T.sr T.nr .live r = .live := this
      rwa [upd_ne _ _ hx] at this
  · intro f hf
    rcases b4 f hf with k | k
    · exact Or.inl k
    · have hfs : T'.rf T.nr = some fs := mrFaces_some a4
      rw [hfs, Option.getD_some] at k
      obtain ⟨i, hi⟩ := List.mem_iff_getElem?.1 k
      have hil := (List.getElem?_eq_some_iff.1 hi).1
      obtain ⟨c, hc⟩ : ∃ c, (stdCycles vs)[i]? = some c := ⟨_, List.getElem?_eq_getElem (by omega)⟩
      obtain ⟨-, d, -, u2⟩ := a6 i c f hc hi
      exact Or.inr ⟨vs, by simp, c, List.mem_of_getElem? hc, d, u2⟩
  · intro e he
    rcases b5 e he with k | ⟨c, hc, a, b, k1, k2⟩
    · exact Or.inl k
    · exact Or.inr ⟨vs, by simp, c, hc, a, b, k1, k2⟩

/-- a region that sees a face as `c` is an element one of whose cycles is `c` -/
theorem IsElement.cycle {T : Topo} (h : T.Consistent) (hl : T.AllLoops) {r f : Nat} {vs c : List Nat} (el : T.IsElement r vs)
    (hc : c ≠ []) (hu : T.Uses r f c) : ∃ c' ∈ stdCycles vs, T.Uses r f c' ∧ c ~r c' := by
  obtain ⟨fs, e⟩ := el.elt h hl
  obtain ⟨hr, d, hd, hs⟩ := hu
  have hm := (mrFaceDir_iff h hr).1 hd
  have h5 : f ∈ fs := by
    have := mem_facesOf_iff.2 ⟨d, hm⟩
    rw [e.rf] at this; exact this
  obtain ⟨i, hi⟩ := List.mem_iff_getElem?.1 h5
  obtain ⟨c', hc', d', s⟩ := e.at_ i f hi
  have hu' := s.uses h hr e.rf (stdCycles_ne hc')
  refine ⟨c', hc', hu', ?_⟩
  obtain ⟨-, d2, hd2, hs2⟩ := hu'
  rw [hd] at hd2
  injection hd2 with hd2
  injection hd2 with hd2
  subst hd2
  have hfl : T.sf f = .live := h.fr.down r f d hr hm
  obtain ⟨w, hw, hwn⟩ := hl f hfl
  rw [seen_iff hfl hw hwn hc] at hs
  rw [seen_iff hfl hw hwn (stdCycles_ne hc')] at hs2
  exact hs.trans hs2.symm

theorem addRegions_more : ∀ (vss : List (List Nat)) {T : Topo}, T.Consistent → T.AllLoops → T.SimpleEdges → T.SimpleFaces →
    (∀ vs ∈ vss, (∀ v ∈ vs, T.sv v = .live) ∧ vs.Nodup ∧ (vs.length = 4 ∨ vs.length = 5 ∨ vs.length = 6 ∨ vs.length = 8)) →
    (∀ vs ∈ vss, ∀ c ∈ stdCycles vs, ∀ o f, ¬ T.Uses o f c) →
    (vss.Pairwise fun vs ws => ∀ c ∈ stdCycles vs, ∀ c' ∈ stdCycles ws, ¬ c' ~r c) →
    ∃ T', addRegions vss T = .ok T' ∧ RegsMore T T' vss := by
  intro vss
  induction vss with
  | nil => intro T h hl hE hF _ _ _; exact ⟨T, rfl, RegsMore.nil h hl hE hF⟩
  | cons vs vss ih =>
    intro T h hl hE hF hc hno hp
    rw [List.pairwise_cons] at hp
    obtain ⟨c1, c2, c3⟩ := hc vs (by simp)
    obtain ⟨T1, r1, m1⟩ := addRegion_more h hl hE hF c1 c2 c3 (hno vs (by simp))
    have l1 := m1.each 0 vs (by simp)
    obtain ⟨T2, r2, m2⟩ := ih m1.cons m1.loops m1.simpleE m1.simpleF
      (fun x hx => ⟨fun v hv => (m1.sv v).2 ((hc x (by simp [hx])).1 v hv), (hc x (by simp [hx])).2⟩)
      (by
        intro ws hws c hcc o f hu
        rcases m1.newR o hu.1 with ho | ⟨i, hi, rfl⟩
        · exact hno ws (by simp [hws]) c hcc o f ((m1.stays.uses h hl (Upward.nothing _ _) ho id (stdCycles_ne hcc)).1 hu)
        · have : i = 0 := by simpa using hi
          subst this
          obtain ⟨c', hc', -, hrot⟩ := l1.1.cycle m1.cons m1.loops (stdCycles_ne hcc) hu
          exact hp.1 ws hws c' hc' c hcc hrot) hp.2
    refine ⟨T2, ?_, ⟨m2.cons, m2.loops, m2.simpleE, m2.simpleF, m1.stays.trans m2.stays, fun v => (m2.sv v).trans (m1.sv v),
      ?_, ?_, ?_, ?_, ?_⟩⟩
    · rw [show addRegions (vs :: vss) T = (T.addRegion vs >>= fun T => addRegions vss T) from rfl, r1, Res.bind_ok, r2]
    · rw [m2.nr, m1.nr]; simp; omega
    · intro i c' hi
      cases i with
      | zero =>
        simp only [List.getElem?_cons_zero, Option.some.injEq] at hi
        subst hi
        refine ⟨(m2.stays.isElement m1.cons m1.loops (Upward.nothing _ _) l1.1.live id).2 l1.1, ?_⟩
        rw [(m2.stays.regions _ l1.1.live id).2.2.2]; exact l1.2
      | succ i =>
        rw [List.getElem?_cons_succ] at hi
        have := m2.each i c' hi
        rw [m1.nr] at this
        rw [show T.nr + (i+1) = T.nr + [vs].length + i by simp; omega]
        exact this
    · intro f hf
      rcases m2.newR f hf with h0 | ⟨i, hi, rfl⟩
      · rcases m1.newR f h0 with h0 | ⟨i, hi, rfl⟩
        · exact Or.inl h0
        · exact Or.inr ⟨i, by simp at hi ⊢; omega, rfl⟩
      · exact Or.inr ⟨i+1, by simp; omega, by rw [m1.nr]; simp; omega⟩
    · intro f hf
      rcases m2.newF f hf with h0 | ⟨x, hx, c, hcc, d, k⟩
      · rcases m1.newF f h0 with h1 | ⟨x, hx, c, hcc, d, k⟩
        · exact Or.inl h1
        · exact Or.inr ⟨x, by simp at hx; simp [hx], c, hcc, d,
            (m2.stays.seen m1.cons m1.loops (Upward.nothing _ Nothing) h0 id (stdCycles_ne hcc)).2 k⟩
      · exact Or.inr ⟨x, by simp [hx], c, hcc, d, k⟩
    · intro e he
      rcases m2.newE e he with h0 | ⟨x, hx, c, hcc, a, b, k1, k2⟩
      · rcases m1.newE e h0 with h1 | ⟨x, hx, c, hcc, a, b, k1, k2⟩
        · exact Or.inl h1
        · refine Or.inr ⟨x, by simp at hx; simp [hx], c, hcc, a, b, k1, ?_⟩
          rw [(m2.stays.edges e h0 id).2]; exact k2
      · exact Or.inr ⟨x, by simp [hx], c, hcc, a, b, k1, k2⟩

end Topo
end MSTK
