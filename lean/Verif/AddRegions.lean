import Verif.RegionNew
import Verif.BuildLemmas
import Verif.Props.RegionContents

/-!
Regions defined by their vertices, one after the other, in a mesh that has only vertices: the edges and
faces of the mesh are those of the regions (for C71).
-/
namespace MSTK
namespace Topo

/-- The mesh has `n` vertices, the regions `R` given by their vertices, and of edges and faces exactly those of the
regions, each once. -/
structure Elements (T : Topo) (n : Nat) (R : List (List Nat)) : Prop where
  cons : T.Consistent
  loops : T.AllLoops
  simpleE : T.SimpleEdges
  simpleF : T.SimpleFaces
  verts : ∀ v, T.sv v = .live ↔ v < n
  nr : T.nr = R.length
  regions : ∀ r, T.sr r = .live ↔ r < R.length
  uses : ∀ r vs, R[r]? = some vs → T.mrElementType r = .ok (stdType vs.length) ∧
    ∃ fs, T.mrFaces r = .ok fs ∧ fs.length = (stdCycles vs).length ∧
      ∀ (i : Nat) c f, (stdCycles vs)[i]? = some c → fs[i]? = some f → T.Uses r f c
  faces : ∀ f, T.sf f = .live → ∃ vs ∈ R, ∃ c ∈ stdCycles vs, ∃ d, T.Seen f d c
  edges : ∀ e, T.se e = .live → ∃ vs ∈ R, ∃ c ∈ stdCycles vs, ∃ a b, Next c a b ∧
    (T.ev e = (some a, some b) ∨ T.ev e = (some b, some a))

structure ElementsOk (n : Nat) (R : List (List Nat)) : Prop where
  nodup : ∀ vs ∈ R, vs.Nodup
  size : ∀ vs ∈ R, vs.length = 4 ∨ vs.length = 5 ∨ vs.length = 6 ∨ vs.length = 8
  verts : ∀ vs ∈ R, ∀ v ∈ vs, v < n
  once : R.Pairwise fun vs ws => ∀ c ∈ stdCycles vs, ∀ c' ∈ stdCycles ws, ¬ c' ~r c

theorem KeptBut.loop {T T' : Topo} {r : Nat} (h : T.Consistent) (k : KeptBut T T' r) {f : Nat} {c : List Nat}
    (hf : T.sf f = .live) (hl : T.Loop f c) : T'.Loop f c := by
  obtain ⟨es, e1, e2, e3⟩ := hl
  obtain ⟨f1, f2, f3⟩ := k.faces f hf
  refine ⟨es, f2.trans e1, e2, ?_⟩
  intro k' e he
  obtain ⟨d, d1, d2, d3⟩ := e3 k' e he
  obtain ⟨l, hl, hl2⟩ : ∃ l, T.fe f = some l ∧ T.mfEdges f true none = .ok l := by
    cases hfe : T.fe f with
    | none => exact absurd e1 (mfEdges_none hfe _ _ _)
    | some l => exact ⟨l, rfl, mfEdges_plain (alloc_of_live hf) hfe⟩
  rw [e1] at hl2
  injection hl2 with hl2
  subst hl2
  have hel : T.se e = .live := h.fedgesLive hf hl e (List.mem_of_getElem? he)
  obtain ⟨g1, g2⟩ := k.edges e hel
  exact ⟨d, (f3 k').trans d1, (g2 _).trans d2, (g2 _).trans d3⟩

theorem KeptBut.seen {T T' : Topo} {r : Nat} (h : T.Consistent) (hl : T.AllLoops) (k : KeptBut T T' r) {f : Nat} {d : Bool}
    {c : List Nat} (hf : T.sf f = .live) (hc : c ≠ []) (hs : T.Seen f d c) : T'.Seen f d c := by
  obtain ⟨w, hw, hwn⟩ := hl f hf
  exact (seen_iff (k.faces f hf).1 (k.loop h hf hw) hwn hc).2 ((seen_iff hf hw hwn hc).1 hs)

theorem seen_newRegion {T : Topo} (hl : T.AllLoops) {f : Nat} {d : Bool} {c : List Nat} (hf : T.sf f = .live) (hc : c ≠ []) :
    T.mrNew.1.Seen f d c ↔ T.Seen f d c := by
  obtain ⟨w, hw, hwn⟩ := hl f hf
  have hw1 : T.mrNew.1.Loop f w := hw
  have hf1 : T.mrNew.1.sf f = .live := hf
  rw [seen_iff hf hw hwn hc, seen_iff hf1 hw1 hwn hc]

/-- the region that has the face has it with one of its cycles -/
theorem Elements.side {T : Topo} {n : Nat} {R : List (List Nat)} (h : Elements T n R) {o f : Nat} {d : Bool}
    (ho : T.sr o = .live) (hd : T.mrFaceDir o f = .ok (some d)) :
    ∃ ws ∈ R, R[o]? = some ws ∧ ∃ c ∈ stdCycles ws, T.Seen f d c := by
  obtain ⟨ws, hws⟩ : ∃ ws, R[o]? = some ws := ⟨_, List.getElem?_eq_getElem ((h.regions o).1 ho)⟩
  obtain ⟨-, fs, q1, q2, q3⟩ := h.uses o ws hws
  have hmf : f ∈ fs := by
    unfold mrFaces at q1
    have hd' := hd
    unfold mrFaceDir at hd'
    rw [q1, Res.bind_ok] at hd'
    by_cases hm : f ∈ fs
    · exact hm
    · rw [if_neg hm] at hd'; cases hd'
  obtain ⟨i, hi⟩ := List.mem_iff_getElem?.1 hmf
  have hil := (List.getElem?_eq_some_iff.1 hi).1
  obtain ⟨c', hc'⟩ : ∃ c', (stdCycles ws)[i]? = some c' := ⟨_, List.getElem?_eq_getElem (by omega)⟩
  obtain ⟨-, d', u1, u2⟩ := q3 i c' f hc' hi
  rw [hd] at u1
  injection u1 with u1
  injection u1 with u1
  subst u1
  exact ⟨ws, List.mem_of_getElem? hws, hws, c', List.mem_of_getElem? hc', u2⟩

theorem elements_add {T : Topo} {n : Nat} {R : List (List Nat)} {vs : List Nat} (h : Elements T n R)
    (hR : ElementsOk n (R ++ [vs])) : ∃ T', T.addRegion vs = .ok T' ∧ Elements T' n (R ++ [vs]) := by
  have hvm : vs ∈ R ++ [vs] := by simp
  have hc1 := h.cons.newRegion
  have hl1 : T.mrNew.1.AllLoops := h.loops
  have hr1 : T.mrNew.1.sr T.nr = .live := upd_same _ _ _
  have hrf : T.mrNew.1.rf T.nr = none := upd_same _ _ _
  have hfree : ∀ c ∈ stdCycles vs, T.mrNew.1.FreeSide c := by
    intro c hc f d hf hseen
    have hf' : T.sf f = .live := hf
    have hseen' : T.Seen f d c := (seen_newRegion h.loops hf' (stdCycles_ne hc)).1 hseen
    show endAt (T.fr f) (!d) = none
    cases ho : endAt (T.fr f) (!d) with
    | none => rfl
    | some o =>
      exfalso
      obtain ⟨h1, h2⟩ := (h.cons.fr.mem f (alloc_of_live hf') o d).1 ho
      obtain ⟨ws, hm, -, c', hc', u2⟩ := h.side h1 ((mrFaceDir_iff h.cons h1).2 h2)
      obtain ⟨w, hw, hwn⟩ := h.loops f hf'
      rw [seen_iff hf' hw hwn (stdCycles_ne hc)] at hseen'
      rw [seen_iff hf' hw hwn (stdCycles_ne hc')] at u2
      exact (List.pairwise_append.1 hR.once).2.2 ws hm vs (by simp) c' hc' c hc (hseen'.trans u2.symm)
  have hs1 : T.mrNew.1.SimpleEdges := h.simpleE
  have hs2 : T.mrNew.1.SimpleFaces := by
    intro f g d d' c hc hf hg k1 k2
    have hne : c ≠ [] := by rintro rfl; simp at hc
    exact h.simpleF f g d d' c hc hf hg ((seen_newRegion h.loops hf hne).1 k1) ((seen_newRegion h.loops hg hne).1 k2)
  have hvl : ∀ v ∈ vs, T.mrNew.1.sv v = .live := fun v hv => (h.verts v).2 (hR.verts vs hvm v hv)
  obtain ⟨T', fs, a1, a2, a3, a4, a5, a6, a7, a8, a9, a10, -⟩ := mrSetVertices_ok hc1 hl1 (r := T.nr) (vs := vs) hr1
    (by rw [hrf]; rfl) (hR.nodup vs hvm) hvl (hR.size vs hvm) hfree
  obtain ⟨b1, b2, b3, b4, b5⟩ := mrSetVertices_frame hc1 hvl (hR.size vs hvm) a1
  have hnr : T'.nr = (R ++ [vs]).length := by
    rw [b1]
    show T.nr + 1 = _
    rw [h.nr]; simp
  have hreg : ∀ r, T'.sr r = .live ↔ r < (R ++ [vs]).length := by
    intro r
    rw [a7.regions]
    exact live_new vs h.nr h.regions r
  refine ⟨T', a1, ⟨a2, a3, a9 hs1, a10 hs1 hs2, ?_, hnr, hreg, ?_, ?_, ?_⟩⟩
  · intro v
    rw [a7.vertices]
    exact h.verts v
  · intro r ws hr
    rcases getElem?_snoc hr with h1 | ⟨h1, h2⟩
    · have hlt := (List.getElem?_eq_some_iff.1 h1).1
      have hne : r ≠ T.nr := by rw [h.nr]; omega
      have hrl : T.sr r = .live := (h.regions r).2 hlt
      have hrl1 : T.mrNew.1.sr r = .live := by show upd T.sr T.nr .live r = _; rw [upd_ne _ _ hne]; exact hrl
      have hrl' : T'.sr r = .live := (a7.regions r).2 hrl1
      obtain ⟨p1, gs, p2, p3, p4⟩ := h.uses r ws h1
      obtain ⟨o1, o2⟩ := a7.others r hne hrl1
      have m1 : T.mrNew.1.mrFaces r = T.mrFaces r := by
        unfold mrFaces rfaces derefR
        show (if (upd T.sr T.nr .live r).alloc then _ else _) >>= (fun _ => Res.ofOption (upd T.rf T.nr none r)) = _
        rw [upd_ne _ _ hne, upd_ne _ _ hne]
      have m2 : ∀ f, T.mrNew.1.mrFaceDir r f = T.mrFaceDir r f := by
        intro f
        have m1' : T.mrNew.1.rfaces r = T.rfaces r := m1
        unfold mrFaceDir
        rw [m1', show T.mrNew.1.rd r = T.rd r from upd_ne _ _ hne]
      refine ⟨?_, gs, (o1.trans m1).trans p2, p3, ?_⟩
      · unfold mrElementType at p1 ⊢
        rw [derefR_ok (alloc_of_live hrl), Res.bind_ok] at p1
        rw [derefR_ok (alloc_of_live hrl'), Res.bind_ok, b3 r hne, show T.mrNew.1.rt r = T.rt r from upd_ne _ _ hne]
        exact p1
      · intro i c f hc hf
        obtain ⟨-, d, u1, u2⟩ := p4 i c f hc hf
        refine ⟨hrl', d, ((o2 f).trans (m2 f)).trans u1, ?_⟩
        have hmem : (f, d) ∈ facesOf T.rf T.rd r := (mrFaceDir_iff h.cons hrl).1 u1
        have hfl' : T.sf f = .live := h.cons.fr.down r f d hrl hmem
        have hcm := stdCycles_ne (List.mem_of_getElem? hc)
        exact a7.seen hc1 hl1 hfl' hcm ((seen_newRegion h.loops hfl' hcm).2 u2)
    · rw [h1, h2, ← h.nr]
      exact ⟨a8, fs, a4, a5, a6⟩
  · intro f hf
    rcases b4 f hf with k | k
    · obtain ⟨ws, hm, c, hc, d, hs⟩ := h.faces f k
      exact ⟨ws, by simp [hm], c, hc, d, a7.seen hc1 hl1 k (stdCycles_ne hc) ((seen_newRegion h.loops k (stdCycles_ne hc)).2 hs)⟩
    · have hfs : T'.rf T.nr = some fs := mrFaces_some a4
      rw [hfs, Option.getD_some] at k
      obtain ⟨i, hi⟩ := List.mem_iff_getElem?.1 k
      have hil := (List.getElem?_eq_some_iff.1 hi).1
      obtain ⟨c, hc⟩ : ∃ c, (stdCycles vs)[i]? = some c := ⟨_, List.getElem?_eq_getElem (by omega)⟩
      obtain ⟨-, d, -, u2⟩ := a6 i c f hc hi
      exact ⟨vs, hvm, c, List.mem_of_getElem? hc, d, u2⟩
  · intro e he
    rcases b5 e he with k | ⟨c, hc, a, b, k1, k2⟩
    · obtain ⟨ws, hm, c, hc, a, b, k1, k2⟩ := h.edges e k
      refine ⟨ws, by simp [hm], c, hc, a, b, k1, ?_⟩
      have hev : T'.ev e = T.ev e := by
        obtain ⟨g1, g2⟩ := a7.edges e k
        have q1 := g2 false
        have q2 := g2 true
        have k' : T.mrNew.1.se e = .live := k
        rw [meVertex_ok (alloc_of_live g1), meVertex_ok (alloc_of_live k')] at q1 q2
        injection q1 with q1
        injection q2 with q2
        exact Prod.ext q1 q2
      rw [hev]; exact k2
    · exact ⟨vs, hvm, c, hc, a, b, k1, k2⟩

theorem elements_adds : ∀ (vss : List (List Nat)) {T : Topo} {n : Nat} {R : List (List Nat)},
    Elements T n R → ElementsOk n (R ++ vss) → ∃ T', addRegions vss T = .ok T' ∧ Elements T' n (R ++ vss) := by
  intro cs
  induction cs with
  | nil => intro T n R h _; exact ⟨T, rfl, by rw [List.append_nil]; exact h⟩
  | cons c cs ih =>
    intro T n R h hR
    have hR' : ElementsOk n (R ++ [c]) := by
      rw [show R ++ c :: cs = R ++ [c] ++ cs by simp] at hR
      exact ⟨fun x hx => hR.nodup x (List.mem_append_left _ hx), fun x hx => hR.size x (List.mem_append_left _ hx),
        fun x hx => hR.verts x (List.mem_append_left _ hx), (List.pairwise_append.1 hR.once).1⟩
    obtain ⟨T1, r1, h1⟩ := elements_add h hR'
    obtain ⟨T2, r2, h2⟩ := ih h1 (by rw [List.append_assoc]; exact hR)
    refine ⟨T2, ?_, by rw [List.append_assoc] at h2; exact h2⟩
    rw [show addRegions (c :: cs) T = (T.addRegion c >>= fun T => addRegions cs T) from rfl, r1, Res.bind_ok, r2]

/-- a mesh with vertices only -/
theorem elements_of_built {T : Topo} {n : Nat} (h : Built T n [] [] []) : Elements T n [] where
  cons := h.cons
  loops := h.loops
  simpleE := by
    intro e e' a b _ he
    exact absurd ((h.edges e).1 (EdgeHas_iff.1 he).1) (by simp)
  simpleF := by
    intro f g d d' c _ hf
    exact absurd ((h.faces f).1 hf) (by simp)
  verts := h.verts
  nr := h.nr
  regions := h.regions
  uses := by intro r vs hr; simp at hr
  faces := by
    intro f hf
    exact absurd ((h.faces f).1 hf) (by simp)
  edges := by
    intro e he
    exact absurd ((h.edges e).1 he) (by simp)

/-- the elements as they are seen through the queries -/
theorem Elements.isElement {T : Topo} {n : Nat} {R : List (List Nat)} (h : Elements T n R) (hR : ElementsOk n R)
    {r : Nat} {vs : List Nat} (hr : R[r]? = some vs) : T.IsElement r vs ∧ T.mrElementType r = .ok (stdType vs.length) := by
  have hm := List.mem_of_getElem? hr
  obtain ⟨h1, fs, h2, h3, h4⟩ := h.uses r vs hr
  refine ⟨⟨hR.size vs hm, hR.nodup vs hm, (h.regions r).2 (List.getElem?_eq_some_iff.1 hr).1, fs, h2, h3, ?_⟩, h1⟩
  intro c hc
  obtain ⟨i, hi⟩ := List.mem_iff_getElem?.1 hc
  have hil := (List.getElem?_eq_some_iff.1 hi).1
  obtain ⟨f, hf⟩ : ∃ f, fs[i]? = some f := ⟨_, List.getElem?_eq_getElem (by omega)⟩
  exact ⟨f, h4 i c f hi hf⟩

end Topo
end MSTK
