import Verif.AddRegions

/-!
Regions given by the cycles of vertices of their faces, added one after the other (for C73).
-/
namespace MSTK
namespace Topo

/-! ### what the loop over the faces of a polyhedron makes -/

theorem polyFace_frame {T T' : Topo} (h : T.Consistent) {vs : List Nat} {row : List Int} {p : Nat × Bool}
    (hrange : ∀ i ∈ row, 0 ≤ i ∧ i < (vs.length : Int)) (hv : ∀ v ∈ picks vs row, T.sv v = .live)
    (hr : polyFace vs row T = .ok (T', p)) :
    T'.nr = T.nr ∧ T'.nv = T.nv ∧ T'.rt = T.rt ∧ (∀ f, T'.sf f = .live → T.sf f = .live ∨ f = p.1) ∧
    ∀ e, T'.se e = .live → T.se e = .live ∨ ∃ a b, Next (picks vs row) a b ∧ T'.ev e = (some a, some b) := by
  unfold polyFace at hr
  by_cases h30 : row.length > 30
  · rw [if_pos h30] at hr; cases hr
  rw [if_neg h30, vertsAt_ok hrange, Res.bind_ok] at hr
  obtain ⟨o, -, hr⟩ := Res.bind_eq_ok.1 hr
  cases o with
  | none =>
    dsimp only at hr
    obtain ⟨T1, h1, hr⟩ := Res.bind_eq_ok.1 hr
    injection hr with hr
    injection hr with hr hp
    subst hr
    subst hp
    unfold mfSetVertices at h1
    obtain ⟨-, -, h1⟩ := Res.bind_eq_ok.1 h1
    split at h1
    · cases h1
    obtain ⟨⟨T2, es⟩, h2, h3⟩ := Res.bind_eq_ok.1 h1
    dsimp only at h3
    obtain ⟨a1, a2, a3, a4, a5⟩ := edgesFor_frame _ _ _ _ h.newFace
      (fun q hq => ⟨hv _ (mem_cyclicPairs hq).1, hv _ (mem_cyclicPairs hq).2⟩) h2
    unfold mfSetEdges at h3
    obtain ⟨-, -, h3⟩ := Res.bind_eq_ok.1 h3
    obtain ⟨k1, k2, k3, k4, k5, k6⟩ := setEdgesLoop_frame _ _ _ _ h3
    refine ⟨k1.trans a1, k2.trans a2, k3.trans a3, fun f hf => ?_, fun e he => ?_⟩
    · rw [k4] at hf
      have hf : T2.sf f = .live := hf
      rw [a4] at hf
      by_cases hx : f = T.nf
      · exact Or.inr hx
      · left
        have : upd T.sf T.nf .live f = .live := hf
        rwa [upd_ne _ _ hx] at this
    · rw [k5] at he
      rw [k6]
      rcases a5 e he with k | ⟨q, hq, k⟩
      · exact Or.inl k
      · exact Or.inr ⟨q.1, q.2, edgesOf_next hq, k⟩
  | some f =>
    dsimp only at hr
    obtain ⟨a, -, hr⟩ := Res.bind_eq_ok.1 hr
    obtain ⟨b, -, hr⟩ := Res.bind_eq_ok.1 hr
    obtain ⟨d, -, hr⟩ := Res.bind_eq_ok.1 hr
    injection hr with hr
    injection hr with hr hp
    subst hr
    exact ⟨rfl, rfl, rfl, fun f hf => Or.inl hf, fun e he => Or.inl he⟩

/-- the loop: the result of `polyFaces_ok`, and what is new -/
theorem polyFaces_frame {vs : List Nat} : ∀ (rows : List (List Int)) (T : Topo), T.Consistent → T.AllLoops →
    (∀ row ∈ rows, ∀ i ∈ row, 0 ≤ i ∧ i < (vs.length : Int)) → (∀ row ∈ rows, 3 ≤ row.length ∧ row.length ≤ 30) →
    (∀ row ∈ rows, ∀ v ∈ picks vs row, T.sv v = .live) → (∀ row ∈ rows, (picks vs row).Nodup) →
    (∀ row ∈ rows, T.FreeSide (picks vs row)) → (∀ row ∈ rows, T.Untwisted (picks vs row)) →
    (rows.map (picks vs)).Pairwise (fun c c' => ¬ c.Perm c') →
    ∃ T' fs, polyFaces vs rows T = .ok (T', fs) ∧ LoopOut T T' fs (rows.map (picks vs)) ∧
      T'.nr = T.nr ∧ T'.nv = T.nv ∧ T'.rt = T.rt ∧ (∀ f, T'.sf f = .live → T.sf f = .live ∨ f ∈ fs.map (·.1)) ∧
      ∀ e, T'.se e = .live → T.se e = .live ∨ ∃ row ∈ rows, ∃ a b, Next (picks vs row) a b ∧
        T'.ev e = (some a, some b) := by
  intro rows
  induction rows with
  | nil =>
    intro T h hl _ _ _ _ _ _ _
    exact ⟨T, [], rfl, LoopOut.nil h hl, rfl, rfl, rfl, fun _ h => Or.inl h, fun _ h => Or.inl h⟩
  | cons row rows ih =>
    intro T h hl hrange hlen hv hn hfree hun hpw
    rw [List.map_cons, List.pairwise_cons] at hpw
    obtain ⟨T1, f, d, r1, hst, hnew, hsame⟩ := polyFace_ok h hl (hrange row (by simp)) (hlen row (by simp)).1
      (hlen row (by simp)).2 (hv row (by simp)) (hn row (by simp)) (hfree row (by simp)) (hun row (by simp))
    obtain ⟨m1, m2, m3, m4, m5⟩ := polyFace_frame h (hrange row (by simp)) (hv row (by simp)) r1
    have hne : ∀ y ∈ row :: rows, picks vs y ≠ [] := by
      intro y hy hc
      have := (hlen y hy).1
      have h0 := congrArg List.length hc
      rw [picks_length] at h0
      simp only [List.length_nil] at h0
      omega
    obtain ⟨T2, fs, r2, hout, q1, q2, q3, q4, q5⟩ := ih T1 hst.cons hst.loops (fun y hy => hrange y (by simp [hy]))
      (fun y hy => hlen y (by simp [hy])) (fun y hy v hv' => by rw [hst.ext.sv]; exact hv y (by simp [hy]) v hv')
      (fun y hy => hn y (by simp [hy]))
      (fun y hy => hst.ext.freeSide h hl (hne y (by simp [hy])) (hfree y (by simp [hy])))
      (by
        intro y hy g hg
        rcases hnew g hg.1 with h0 | h0
        · obtain ⟨ws, hw, hwn⟩ := hl g h0
          obtain ⟨-, ws', hw', -, hp⟩ := hg
          have := Loop.unique (hst.ext.oldF g h0).1 (hst.ext.loop h h0 hw) hw'
          subst this
          obtain ⟨d, hd⟩ := hun y (by simp [hy]) g ⟨h0, ws, hw, hwn, hp⟩
          exact ⟨d, (hst.ext.seen h hl h0 (hne y (by simp [hy]))).2 hd⟩
        · obtain ⟨-, ws, hw, -, hp⟩ := h0
          obtain ⟨hgl, ws', hw', -, hp'⟩ := hg
          have := Loop.unique hgl hw hw'
          subst this
          exact absurd (hp.symm.trans hp') (hpw.1 _ (List.mem_map.2 ⟨y, hy, rfl⟩)))
      hpw.2
    refine ⟨T2, (f, d) :: fs, ?_, LoopOut.cons' hst (hne row (by simp)) hout, q1.trans m1, q2.trans m2, q3.trans m3, ?_, ?_⟩
    · rw [show polyFaces vs (row :: rows) T = (polyFace vs row T >>= fun p =>
        polyFaces vs rows p.1 >>= fun q => pure (q.1, p.2 :: q.2)) from rfl, r1, Res.bind_ok, r2, Res.bind_ok]
      rfl
    · intro g hg
      rcases q4 g hg with k | k
      · rcases m4 g k with k | k
        · exact Or.inl k
        · exact Or.inr (by rw [k]; simp)
      · exact Or.inr (by rw [List.map_cons]; exact List.mem_cons_of_mem _ k)
    · intro e he
      rcases q5 e he with k | ⟨y, hy, a, b, k1, k2⟩
      · rcases m5 e k with k' | ⟨a, b, k1, k2⟩
        · exact Or.inl k'
        · refine Or.inr ⟨row, by simp, a, b, k1, ?_⟩
          rw [(hout.ext.oldE e k).2]; exact k2
      · exact Or.inr ⟨y, by simp [hy], a, b, k1, k2⟩

/-! ### a mesh of regions given by cycles -/

/-- The mesh has the vertices `0..n-1`, and region `r` has the faces with the cycles `C[r]`. -/
structure Cells (T : Topo) (n : Nat) (C : List (List (List Nat))) : Prop where
  cons : T.Consistent
  loops : T.AllLoops
  simpleE : T.SimpleEdges
  simpleF : T.SimpleFaces
  verts : ∀ v, T.sv v = .live ↔ v < n
  nr : T.nr = C.length
  regions : ∀ r, T.sr r = .live ↔ r < C.length
  uses : ∀ r cs, C[r]? = some cs → ∃ fs, T.mrFaces r = .ok fs ∧ fs.length = cs.length ∧
    ∀ (i : Nat) c f, cs[i]? = some c → fs[i]? = some f → T.Uses r f c
  faces : ∀ f, T.sf f = .live → ∃ cs ∈ C, ∃ c ∈ cs, ∃ d, T.Seen f d c
  edges : ∀ e, T.se e = .live → ∃ cs ∈ C, ∃ c ∈ cs, ∃ a b, Next c a b ∧
    (T.ev e = (some a, some b) ∨ T.ev e = (some b, some a))

/-- No cycle is empty, and no side of a face is taken twice. -/
structure CellsOk (C : List (List (List Nat))) : Prop where
  nonempty : ∀ cs ∈ C, ∀ c ∈ cs, c ≠ []
  once : C.Pairwise fun cs cs' => ∀ c ∈ cs, ∀ c' ∈ cs', ¬ c' ~r c

/-- the region that has the face has it with one of its cycles -/
theorem Cells.side {T : Topo} {n : Nat} {C : List (List (List Nat))} (h : Cells T n C) {o f : Nat} {d : Bool}
    (ho : T.sr o = .live) (hd : T.mrFaceDir o f = .ok (some d)) : ∃ cs ∈ C, ∃ c ∈ cs, T.Seen f d c := by
  obtain ⟨ws, hws⟩ : ∃ ws, C[o]? = some ws := ⟨_, List.getElem?_eq_getElem ((h.regions o).1 ho)⟩
  obtain ⟨fs, q1, q2, q3⟩ := h.uses o ws hws
  have hmf : f ∈ fs := by
    unfold mrFaces at q1
    have hd' := hd
    unfold mrFaceDir at hd'
    rw [q1, Res.bind_ok] at hd'
    by_cases hm : f ∈ fs
    · exact hm
    · rw [if_neg hm] at hd'; cases hd'
  obtain ⟨i, hi⟩ := List.mem_iff_getElem?.1 hmf
  have hil := (List.getElem?_eq_some_iff.1 hi).1
  obtain ⟨c', hc'⟩ : ∃ c', ws[i]? = some c' := ⟨_, List.getElem?_eq_getElem (by omega)⟩
  obtain ⟨-, d', u1, u2⟩ := q3 i c' f hc' hi
  rw [hd] at u1
  injection u1 with u1
  injection u1 with u1
  subst u1
  exact ⟨ws, List.mem_of_getElem? hws, c', List.mem_of_getElem? hc', u2⟩

theorem Cells.free {T : Topo} {n : Nat} {C : List (List (List Nat))} {cs : List (List Nat)} (h : Cells T n C)
    (hC : CellsOk (C ++ [cs])) : ∀ c ∈ cs, T.mrNew.1.FreeSide c := by
  intro c hc f d hf hseen
  have hcn := hC.nonempty cs (by simp) c hc
  have hf' : T.sf f = .live := hf
  have hseen' : T.Seen f d c := (seen_newRegion h.loops hf' hcn).1 hseen
  show endAt (T.fr f) (!d) = none
  cases ho : endAt (T.fr f) (!d) with
  | none => rfl
  | some o =>
    exfalso
    obtain ⟨h1, h2⟩ := (h.cons.fr.mem f (alloc_of_live hf') o d).1 ho
    obtain ⟨ws, hm, c', hc', u2⟩ := h.side h1 ((mrFaceDir_iff h.cons h1).2 h2)
    obtain ⟨w, hw, hwn⟩ := h.loops f hf'
    rw [seen_iff hf' hw hwn hcn] at hseen'
    rw [seen_iff hf' hw hwn (hC.nonempty ws (by simp [hm]) c' hc')] at u2
    exact (List.pairwise_append.1 hC.once).2.2 ws hm cs (by simp) c' hc' c hc (hseen'.trans u2.symm)

theorem Cells.simple {T : Topo} {n : Nat} {C : List (List (List Nat))} (h : Cells T n C) :
    T.mrNew.1.SimpleEdges ∧ T.mrNew.1.SimpleFaces := by
  refine ⟨h.simpleE, ?_⟩
  intro f g d d' c hc hf hg k1 k2
  have hne : c ≠ [] := by rintro rfl; simp at hc
  exact h.simpleF f g d d' c hc hf hg ((seen_newRegion h.loops hf hne).1 k1) ((seen_newRegion h.loops hg hne).1 k2)

/-- one more region -/
theorem cells_step {T T' : Topo} {n : Nat} {C : List (List (List Nat))} {cs : List (List Nat)} {fs : List Nat}
    (h : Cells T n C) (hC : CellsOk (C ++ [cs])) (a2 : T'.Consistent) (a3 : T'.AllLoops) (a4 : T'.mrFaces T.nr = .ok fs)
    (a5 : fs.length = cs.length) (a6 : ∀ (i : Nat) c f, cs[i]? = some c → fs[i]? = some f → T'.Uses T.nr f c)
    (a7 : KeptBut T.mrNew.1 T' T.nr) (a9 : T.mrNew.1.SimpleEdges → T'.SimpleEdges)
    (a10 : T.mrNew.1.SimpleEdges → T.mrNew.1.SimpleFaces → T'.SimpleFaces) (b1 : T'.nr = T.mrNew.1.nr)
    (b4 : ∀ f, T'.sf f = .live → T.mrNew.1.sf f = .live ∨ f ∈ fs)
    (b5 : ∀ e, T'.se e = .live → T.mrNew.1.se e = .live ∨ ∃ c ∈ cs, ∃ a b, Next c a b ∧
      (T'.ev e = (some a, some b) ∨ T'.ev e = (some b, some a))) : Cells T' n (C ++ [cs]) := by
  have hc1 := h.cons.newRegion
  have hl1 : T.mrNew.1.AllLoops := h.loops
  have hnr : T'.nr = (C ++ [cs]).length := by
    rw [b1]
    show T.nr + 1 = _
    rw [h.nr]; simp
  have hreg : ∀ r, T'.sr r = .live ↔ r < (C ++ [cs]).length := by
    intro r
    rw [a7.regions]
    exact live_new cs h.nr h.regions r
  refine ⟨a2, a3, a9 h.simple.1, a10 h.simple.1 h.simple.2, ?_, hnr, hreg, ?_, ?_, ?_⟩
  · intro v
    rw [a7.vertices]
    exact h.verts v
  · intro r ws hr
    rcases getElem?_snoc hr with h1 | ⟨h1, h2⟩
    · have hlt := (List.getElem?_eq_some_iff.1 h1).1
      have hne : r ≠ T.nr := by rw [h.nr]; omega
      have hrl : T.sr r = .live := (h.regions r).2 hlt
      have hrl1 : T.mrNew.1.sr r = .live := by show upd T.sr T.nr .live r = _; rw [upd_ne _ _ hne]; exact hrl
      have hrl' : T'.sr r = .live := (a7.regions r).2 hrl1
      obtain ⟨gs, p2, p3, p4⟩ := h.uses r ws h1
      obtain ⟨o1, o2⟩ := a7.others r hne hrl1
      have m1 : T.mrNew.1.mrFaces r = T.mrFaces r := by
        unfold mrFaces rfaces derefR
        show (if (upd T.sr T.nr .live r).alloc then _ else _) >>= (fun _ => Res.ofOption (upd T.rf T.nr none r)) = _
        rw [upd_ne _ _ hne, upd_ne _ _ hne]
      have m2 : ∀ f, T.mrNew.1.mrFaceDir r f = T.mrFaceDir r f := by
        intro f
        have m1' : T.mrNew.1.rfaces r = T.rfaces r := m1
        unfold mrFaceDir
        rw [m1', show T.mrNew.1.rd r = T.rd r from upd_ne _ _ hne]
      refine ⟨gs, (o1.trans m1).trans p2, p3, ?_⟩
      intro i c f hc hf
      obtain ⟨-, d, u1, u2⟩ := p4 i c f hc hf
      refine ⟨hrl', d, ((o2 f).trans (m2 f)).trans u1, ?_⟩
      have hmem : (f, d) ∈ facesOf T.rf T.rd r := (mrFaceDir_iff h.cons hrl).1 u1
      have hfl' : T.sf f = .live := h.cons.fr.down r f d hrl hmem
      have hcm := hC.nonempty ws (by simp [List.mem_of_getElem? h1]) c (List.mem_of_getElem? hc)
      exact a7.seen hc1 hl1 hfl' hcm ((seen_newRegion h.loops hfl' hcm).2 u2)
    · rw [h1, h2, ← h.nr]
      exact ⟨fs, a4, a5, a6⟩
  · intro f hf
    rcases b4 f hf with k | k
    · obtain ⟨ws, hm, c, hc, d, hs⟩ := h.faces f k
      have hcm := hC.nonempty ws (by simp [hm]) c hc
      exact ⟨ws, by simp [hm], c, hc, d, a7.seen hc1 hl1 k hcm ((seen_newRegion h.loops k hcm).2 hs)⟩
    · obtain ⟨i, hi⟩ := List.mem_iff_getElem?.1 k
      have hil := (List.getElem?_eq_some_iff.1 hi).1
      obtain ⟨c, hc⟩ : ∃ c, cs[i]? = some c := ⟨_, List.getElem?_eq_getElem (by omega)⟩
      obtain ⟨-, d, -, u2⟩ := a6 i c f hc hi
      exact ⟨cs, by simp, c, List.mem_of_getElem? hc, d, u2⟩
  · intro e he
    rcases b5 e he with k | ⟨c, hc, a, b, k1, k2⟩
    · obtain ⟨ws, hm, c, hc, a, b, k1, k2⟩ := h.edges e k
      refine ⟨ws, by simp [hm], c, hc, a, b, k1, ?_⟩
      have hev : T'.ev e = T.ev e := by
        obtain ⟨g1, g2⟩ := a7.edges e k
        have q1 := g2 false
        have q2 := g2 true
        have k' : T.mrNew.1.se e = .live := k
        rw [meVertex_ok (alloc_of_live g1), meVertex_ok (alloc_of_live k')] at q1 q2
        injection q1 with q1
        injection q2 with q2
        exact Prod.ext q1 q2
      rw [hev]; exact k2
    · exact ⟨cs, by simp, c, hc, a, b, k1, k2⟩

/-- a standard element -/
theorem cells_std {T : Topo} {n : Nat} {C : List (List (List Nat))} {vs : List Nat} (h : Cells T n C)
    (hC : CellsOk (C ++ [stdCycles vs])) (hn : vs.Nodup) (hv : ∀ v ∈ vs, v < n)
    (hlen : vs.length = 4 ∨ vs.length = 5 ∨ vs.length = 6 ∨ vs.length = 8) :
    ∃ T', T.mrNew.1.mrSetVertices T.nr vs = .ok T' ∧ Cells T' n (C ++ [stdCycles vs]) := by
  have hvl : ∀ v ∈ vs, T.mrNew.1.sv v = .live := fun v hv' => (h.verts v).2 (hv v hv')
  have hrf : T.mrNew.1.rf T.nr = none := upd_same _ _ _
  obtain ⟨T', fs, a1, a2, a3, a4, a5, a6, a7, -, a9, a10, -⟩ := mrSetVertices_ok h.cons.newRegion h.loops (r := T.nr)
    (vs := vs) (upd_same _ _ _) (by rw [hrf]; rfl) hn hvl hlen (h.free hC)
  obtain ⟨b1, -, -, b4, b5⟩ := mrSetVertices_frame h.cons.newRegion hvl hlen a1
  have hfs : T'.rf T.nr = some fs := mrFaces_some a4
  rw [hfs, Option.getD_some] at b4
  exact ⟨T', a1, cells_step h hC a2 a3 a4 a5 a6 a7 a9 a10 b1 b4 b5⟩

/-- a polyhedron with given faces -/
theorem cells_poly {T : Topo} {n : Nat} {C : List (List (List Nat))} {vs : List Nat} {rows : List (List Int)} (h : Cells T n C)
    (hC : CellsOk (C ++ [rows.map (picks vs)])) (hn : vs.Nodup) (hv : ∀ v ∈ vs, v < n)
    (h200 : vs.length ≤ 200) (h512 : rows.length ≤ 512)
    (hrange : ∀ row ∈ rows, ∀ i ∈ row, 0 ≤ i ∧ i < (vs.length : Int))
    (hlen : ∀ row ∈ rows, 3 ≤ row.length ∧ row.length ≤ 30) (hnd : ∀ row ∈ rows, row.Nodup)
    (hpw : rows.Pairwise fun x y => ¬ x.Perm y)
    (htw : ∀ cs ∈ C, ∀ c ∈ cs, ∀ row ∈ rows, c.Perm (picks vs row) → picks vs row ~r c ∨ picks vs row ~r c.reverse) :
    ∃ T', T.mrNew.1.mrSetVerticesPoly T.nr vs rows = .ok T' ∧ Cells T' n (C ++ [rows.map (picks vs)]) := by
  have hvl : ∀ v ∈ vs, T.mrNew.1.sv v = .live := fun v hv' => (h.verts v).2 (hv v hv')
  have hrf : T.mrNew.1.rf T.nr = none := upd_same _ _ _
  have hr : T.mrNew.1.sr T.nr = .live := upd_same _ _ _
  have hmem : ∀ row ∈ rows, ∀ v ∈ picks vs row, v ∈ vs := by
    intro row hrow v hv'
    obtain ⟨i, hi, rfl⟩ := List.mem_map.1 hv'
    have := hrange row hrow i hi
    have hlt : i.toNat < vs.length := by omega
    rw [List.getD_eq_getElem?_getD, List.getElem?_eq_getElem hlt]
    exact List.getElem_mem hlt
  have hpw' : (rows.map (picks vs)).Pairwise fun c c' => ¬ c.Perm c' := by
    rw [List.pairwise_map]
    refine hpw.imp_of_mem ?_
    intro x y hx hy hxy hp
    exact hxy (picks_perm hn (hnd x hx) (hnd y hy) (hrange x hx) (hrange y hy) hp)
  have hun : ∀ row ∈ rows, T.mrNew.1.Untwisted (picks vs row) := by
    rintro row hrow g ⟨hg, ws, hw, hwn, hp⟩
    have hg' : T.sf g = .live := hg
    have hcn := hC.nonempty _ (List.mem_append_right _ (List.mem_singleton.2 rfl)) _ (List.mem_map.2 ⟨row, hrow, rfl⟩)
    obtain ⟨cs, hcs, c, hc, d, hs⟩ := h.faces g hg'
    have hcn' := hC.nonempty cs (by simp [hcs]) c hc
    rw [seen_iff hg' hw hwn hcn'] at hs
    have hp' : c.Perm (picks vs row) := (hs.perm.trans (turned_perm d)).trans hp
    rcases htw cs hcs c hc row hrow hp' with k | k
    · exact ⟨d, (seen_iff hg hw hwn hcn).2 (k.trans hs)⟩
    · refine ⟨!d, (seen_iff hg hw hwn hcn).2 (k.trans ?_)⟩
      have := hs.reverse
      cases d <;> simpa [turned] using this
  obtain ⟨T1, fs, r1, ho, q1, q2, q3, q4, q5⟩ := polyFaces_frame rows T.mrNew.1 h.cons.newRegion h.loops hrange hlen
    (fun row hrow v hv' => hvl v (hmem row hrow v hv'))
    (fun row hrow => picks_nodup hn (hnd row hrow) (hrange row hrow))
    (fun row hrow => h.free hC _ (List.mem_map.2 ⟨row, hrow, rfl⟩)) hun hpw'
  obtain ⟨T', e1, e2, e3, e4, e5, e6, -, e8, e9, -, -, k3, k4, k5, -, -, -, -, -, k10, -, -⟩ := setFaces_out hr
    (by rw [hrf]; rfl) ho (by
    intro c hc
    obtain ⟨row, hrow, rfl⟩ := List.mem_map.1 hc
    rw [picks_length]; exact (hlen row hrow).1) hpw'
  refine ⟨T', ?_, cells_step h hC e2 e3 e4 (by rw [List.length_map]; exact ho.len) e5 e6 e8 e9 (k10.trans q1) ?_ ?_⟩
  · unfold mrSetVerticesPoly
    rw [derefR_ok (alloc_of_live hr), Res.bind_ok, if_neg (by omega), if_neg (by omega), derefVs_ok hvl, Res.bind_ok,
      r1, Res.bind_ok]
    exact e1
  · intro f hf
    rw [k5] at hf
    exact q4 f hf
  · intro e he
    rw [k3] at he
    rw [k4]
    rcases q5 e he with k | ⟨row, hrow, a, b, k1, k2⟩
    · exact Or.inl k
    · exact Or.inr ⟨_, List.mem_map.2 ⟨row, hrow, rfl⟩, a, b, k1, Or.inl k2⟩

/-- a mesh with vertices only -/
theorem cells_of_built {T : Topo} {n : Nat} (h : Built T n [] [] []) : Cells T n [] := by
  have := elements_of_built h
  exact ⟨this.cons, this.loops, this.simpleE, this.simpleF, this.verts, this.nr, this.regions, by simp,
    fun f hf => by obtain ⟨_, hm, _⟩ := this.faces f hf; simp at hm,
    fun e he => by obtain ⟨_, hm, _⟩ := this.edges e he; simp at hm⟩

end Topo
end MSTK
