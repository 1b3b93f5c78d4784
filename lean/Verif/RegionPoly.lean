import Verif.RegionLemmas

/-!
A face defined by its vertices in a mesh that may have it already, and the loop of
`MR_Set_Vertices` over the faces of a general polyhedron (helper lemmas for C48 and C38).
-/
namespace MSTK
namespace Topo

/-! ### creating edges and creating a face commute -/

theorem findEdge_mfNew {T : Topo} {b : Nat} : ∀ (l : List Nat), T.mfNew.1.findEdge b l = T.findEdge b l := by
  intro l
  induction l with
  | nil => rfl
  | cons e l ih =>
    rw [show T.mfNew.1.findEdge b (e :: l) = (T.mfNew.1.meUsesVertex e (some b) >>= fun x =>
      if x then pure (some e) else T.mfNew.1.findEdge b l) from rfl,
      show T.findEdge b (e :: l) = (T.meUsesVertex e (some b) >>= fun x =>
      if x then pure (some e) else T.findEdge b l) from rfl, ih]
    rfl

theorem mvsCommonEdge_mfNew {T : Topo} {a b : Nat} : T.mfNew.1.mvsCommonEdge a b = T.mvsCommonEdge a b := by
  unfold mvsCommonEdge
  rw [show T.mfNew.1.mvEdges a = T.mvEdges a from rfl]
  cases T.mvEdges a with
  | ok l => rw [Res.bind_ok, Res.bind_ok, findEdge_mfNew]
  | ub => rfl
  | fatal => rfl
  | hang => rfl

theorem meSetVertex_eq {T : Topo} {e v : Nat} {i : Bool} (h1 : (T.se e).alloc) (h2 : (T.sv v).alloc) :
    T.meSetVertex e i v = .ok { T with ev := upd T.ev e (setEnd (T.ev e) i (some v)), ve := upd T.ve v (chkn (T.ve v) e) } := by
  unfold meSetVertex mvAddEdge derefE derefV
  rw [if_pos h1, Res.bind_ok, if_pos (by exact h2), Res.bind_ok]
  rfl

theorem meSetVertex_inv {T T' : Topo} {e v : Nat} {i : Bool} (h : T.meSetVertex e i v = .ok T') :
    (T.se e).alloc ∧ (T.sv v).alloc := by
  unfold meSetVertex mvAddEdge derefE derefV at h
  by_cases h1 : (T.se e).alloc
  · refine ⟨h1, ?_⟩
    by_contra h2
    rw [if_pos h1, Res.bind_ok, if_neg (by exact h2)] at h
    cases h
  · rw [if_neg h1] at h; cases h

theorem meSetVertex_mfNew {T T' : Topo} {e v : Nat} {i : Bool} (h : T.meSetVertex e i v = .ok T') :
    T.mfNew.1.meSetVertex e i v = .ok T'.mfNew.1 ∧ T'.nf = T.nf := by
  obtain ⟨h1, h2⟩ := meSetVertex_inv h
  rw [meSetVertex_eq h1 h2] at h
  injection h with h
  subst h
  rw [meSetVertex_eq (T := T.mfNew.1) h1 h2]
  exact ⟨rfl, rfl⟩

theorem edgeFor_mfNew {T T' : Topo} {a b : Nat} {q : Nat × Bool} (h : T.edgeFor a b = .ok (T', q)) :
    T.mfNew.1.edgeFor a b = .ok (T'.mfNew.1, q) ∧ T'.nf = T.nf := by
  unfold edgeFor at h ⊢
  rw [mvsCommonEdge_mfNew]
  cases hc : T.mvsCommonEdge a b with
  | ok o =>
    rw [hc, Res.bind_ok] at h
    rw [Res.bind_ok]
    cases o with
    | some e =>
      dsimp only at h ⊢
      rw [show T.mfNew.1.meVertex e false = T.meVertex e false from rfl]
      cases hv : T.meVertex e false with
      | ok v =>
        rw [hv, Res.bind_ok] at h
        rw [Res.bind_ok]
        injection h with h
        injection h with h1 h2
        subst h1; subst h2
        exact ⟨rfl, rfl⟩
      | ub => rw [hv] at h; cases h
      | fatal => rw [hv] at h; cases h
      | hang => rw [hv] at h; cases h
    | none =>
      dsimp only at h ⊢
      obtain ⟨T1, h1, h⟩ := Res.bind_eq_ok.1 h
      obtain ⟨T2, h2, h⟩ := Res.bind_eq_ok.1 h
      injection h with h
      injection h with h3 h4
      subst h3; subst h4
      obtain ⟨k1, k2⟩ := meSetVertex_mfNew h1
      obtain ⟨k3, k4⟩ := meSetVertex_mfNew h2
      refine ⟨?_, k4.trans k2⟩
      rw [show T.mfNew.1.meNew.1 = T.meNew.1.mfNew.1 from rfl, show T.mfNew.1.meNew.2 = T.meNew.2 from rfl, k1,
        Res.bind_ok, k3, Res.bind_ok]
      rfl
  | ub => rw [hc] at h; cases h
  | fatal => rw [hc] at h; cases h
  | hang => rw [hc] at h; cases h

theorem edgesFor_mfNew : ∀ (ps : List (Nat × Nat)) {T T' : Topo} {es : List (Nat × Bool)},
    edgesFor ps T = .ok (T', es) → edgesFor ps T.mfNew.1 = .ok (T'.mfNew.1, es) ∧ T'.nf = T.nf := by
  intro ps
  induction ps with
  | nil =>
    intro T T' es h
    injection h with h
    injection h with h1 h2
    subst h1; subst h2
    exact ⟨rfl, rfl⟩
  | cons p ps ih =>
    obtain ⟨a, b⟩ := p
    intro T T' es h
    have hd : ∀ T, edgesFor ((a, b) :: ps) T = (edgeFor T a b >>= fun p => edgesFor ps p.1 >>= fun q =>
      pure (q.1, p.2 :: q.2)) := fun _ => rfl
    rw [hd] at h ⊢
    obtain ⟨⟨T1, q1⟩, h1, h⟩ := Res.bind_eq_ok.1 h
    obtain ⟨⟨T2, q2⟩, h2, h⟩ := Res.bind_eq_ok.1 h
    injection h with h
    injection h with h3 h4
    subst h3; subst h4
    obtain ⟨k1, k2⟩ := edgeFor_mfNew h1
    obtain ⟨k3, k4⟩ := ih h2
    rw [k1, Res.bind_ok, k3, Res.bind_ok]
    exact ⟨rfl, k4.trans k2⟩

/-! ### a new face with given vertices -/

/-- `MF_New` and `MF_Set_Vertices`. -/
theorem newFaceVerts_ok {T : Topo} (h : T.Consistent) (hl : T.AllLoops) {c : List Nat}
    (hv : ∀ v ∈ c, T.sv v = .live) (hc : c.Nodup) (h3 : 3 ≤ c.length) (hn : c.length ≤ 30)
    (hno : T.SimpleEdges → ∀ g d, T.sf g = .live → ¬ T.Seen g d c) :
    ∃ T1 es T', edgesFor (cyclicPairs c) T = .ok (T1, es) ∧ Grown T T1 ∧ T1.nf = T.nf ∧
      T.mfNew.1.mfSetVertices T.nf c = .ok T' ∧ StepOut T T' T.nf true c ∧ T'.Loop T.nf c ∧
      (∀ g, T'.sf g = .live → g = T.nf ∨ T.sf g = .live) ∧ T'.nf = T.nf + 1 ∧ T'.ne = T1.ne ∧ T'.ev = T1.ev ∧
      T'.se = T1.se := by
  obtain ⟨T1, es, r1, h1, g1, n1, l1, d1⟩ := edgesFor_ok (cyclicPairs c) T h (by
    intro p hp
    exact ⟨hv _ (mem_cyclicPairs hp).1, hv _ (mem_cyclicPairs hp).2⟩)
  rw [cyclicPairs_length] at n1
  obtain ⟨r2, hnf⟩ := edgesFor_mfNew _ r1
  have hcne : c ≠ [] := by rintro rfl; simp at h3
  have hl1 : T1.AllLoops := by
    intro f hf
    rw [g1.sf] at hf
    obtain ⟨ws, hw, hwn⟩ := hl f hf
    exact ⟨ws, g1.ext.loop h hf hw, hwn⟩
  have hcl : T1.Closed es c := by
    refine ⟨n1, fun k p a b hp ha hb => ?_⟩
    obtain ⟨b', hb', hp'⟩ := getElem?_cyclicPairs ha
    rw [hb] at hb'
    injection hb' with hb'
    subst hb'
    refine d1 k (a, b) p hp' hp ?_
    dsimp only
    rintro rfl
    have e1 := idxOf_eq_of_nodup hc ha
    rw [idxOf_eq_of_nodup hc hb] at e1
    have hj := (List.getElem?_eq_some_iff.1 ha).1
    by_cases hj1 : k + 1 = c.length
    · rw [hj1, Nat.mod_self] at e1; omega
    · rw [Nat.mod_eq_of_lt (by omega)] at e1; omega
  have hno1 : T1.SimpleEdges → ∀ g, ¬ ∀ p ∈ es, T1.FaceHas g p.1 := by
    intro hs g hg
    have hs0 : T.SimpleEdges := by
      intro e e' a b hab k1 k2 k3 k4
      rw [EdgeHas_iff] at k1 k2 k3 k4
      obtain ⟨e1, e2, -⟩ := g1.old e k1.1
      obtain ⟨e3, e4, -⟩ := g1.old e' k3.1
      refine hs e e' a b hab ?_ ?_ ?_ ?_ <;> rw [EdgeHas_iff]
      · exact ⟨e1, (ends_congr e2).2 k1.2⟩
      · exact ⟨e1, (ends_congr e2).2 k2.2⟩
      · exact ⟨e3, (ends_congr e4).2 k3.2⟩
      · exact ⟨e3, (ends_congr e4).2 k4.2⟩
    obtain ⟨p0, hp0⟩ := List.exists_mem_of_ne_nil es (by rintro rfl; simp at n1; omega)
    have hgl := (hg p0 hp0).1
    obtain ⟨ws, hw, hwn⟩ := hl1 g hgl
    obtain ⟨d, hd⟩ := turned_of_closed hw hwn hcl l1 hc h3 hg
    have hgl0 : T.sf g = .live := by rw [← g1.sf]; exact hgl
    exact hno hs0 g d hgl0 ((g1.ext.seen h hl hgl0 hcne).1 ((seen_iff hgl hw hwn hcne).2 hd))
  obtain ⟨T', r, hst, hloop, hnew, k1, k2, k3, k4⟩ := newFace_step h1 hl1 l1 hcl (List.IsRotated.refl c) hc h3 (by omega) hno1
  rw [hnf] at r hst hloop hnew k1
  refine ⟨T1, es, T', r1, g1, hnf, ?_, ?_, hloop, ?_, k1, k2, k3, k4⟩
  · unfold mfSetVertices
    rw [derefF_ok (alloc_of_live (upd_same _ _ _)), Res.bind_ok, if_neg (by omega), r2, Res.bind_ok]
    exact r
  · refine ⟨hst.cons, hst.loops, g1.ext.trans hst.ext, hst.live, hst.seen, hst.free,
      fun hs => hst.simpleE (g1.simpleEdges hs), ?_⟩
    intro hs hf
    refine hst.simpleF (g1.simpleEdges hs) ?_
    intro f g d d' x hx hfl hgl k1 k2
    rw [g1.sf] at hfl hgl
    have hne : x ≠ [] := by rintro rfl; simp at hx
    exact hf f g d d' x hx hfl hgl ((g1.ext.seen h hl hfl hne).1 k1) ((g1.ext.seen h hl hgl hne).1 k2)
  · intro g hg
    rcases hnew g hg with h0 | h0
    · exact Or.inl h0
    · rw [g1.sf] at h0; exact Or.inr h0

/-! ### the faces of a polyhedron -/

/-- every face with exactly the vertices of `c` goes round `c` -/
def Untwisted (T : Topo) (c : List Nat) : Prop := ∀ g, T.FaceOn g c → ∃ d, T.Seen g d c

theorem found_of_seen {T : Topo} (h : T.Consistent) (hl : T.AllLoops) (hs : T.SimpleEdges) {a b : Nat} {rest : List Nat}
    (hv : ∀ v ∈ a :: b :: rest, T.sv v = .live) (hc : (a :: b :: rest).Nodup) {g : Nat} {d : Bool} (hg : T.sf g = .live)
    (hseen : T.Seen g d (a :: b :: rest)) : ∃ f, T.mvsCommonFace (a :: b :: rest) = .ok (some f) := by
  obtain ⟨ws, hw, hwn⟩ := hl g hg
  rw [seen_iff hg hw hwn (by simp)] at hseen
  have hN : Next (a :: b :: rest) a b := by
    refine ⟨0, rfl, ?_⟩
    rw [Nat.mod_eq_of_lt (by simp)]; rfl
  have hab : a ≠ b := by
    rintro rfl
    simp at hc
  obtain ⟨e, h1, h2, h3⟩ : ∃ e, T.FaceHas g e ∧ T.EdgeHas e a ∧ T.EdgeHas e b := by
    have := next_of_rotated hseen hN
    cases d
    · have := this.reverse
      rw [show turned false ws = ws.reverse from rfl, List.reverse_reverse] at this
      obtain ⟨e, q0, q1, q2⟩ := edge_of_next h hg hw this
      exact ⟨e, q0, q2, q1⟩
    · exact edge_of_next h hg hw this
  obtain ⟨f, k1, -⟩ := C42_common_face_partial h hl (hv a (by simp))
    ⟨hg, ws, hw, hwn, (hseen.perm.trans (turned_perm d)).symm⟩ h1 h2 h3 (fun e' q1 q2 => hs e e' a b hab h2 h3 q1 q2)
  exact ⟨f, k1⟩

/-- One face of a polyhedron. -/
theorem polyFace_ok {T : Topo} (h : T.Consistent) (hl : T.AllLoops) {vs : List Nat} {row : List Int}
    (hrange : ∀ i ∈ row, 0 ≤ i ∧ i < (vs.length : Int)) (h3 : 3 ≤ row.length) (hn : row.length ≤ 30)
    (hv : ∀ v ∈ picks vs row, T.sv v = .live) (hc : (picks vs row).Nodup)
    (hfree : T.FreeSide (picks vs row)) (hun : T.Untwisted (picks vs row)) :
    ∃ T' f d, polyFace vs row T = .ok (T', (f, d)) ∧ StepOut T T' f d (picks vs row) ∧
      (∀ g, T'.sf g = .live → T.sf g = .live ∨ T'.FaceOn g (picks vs row)) ∧
      (T.SimpleEdges → (∃ g d, T.sf g = .live ∧ T.Seen g d (picks vs row)) → T' = T) := by
  unfold polyFace
  rw [if_neg (by omega), vertsAt_ok hrange, Res.bind_ok]
  have hlen := picks_length (vs := vs) (c := row)
  generalize picks vs row = c at hv hc hfree hun hlen ⊢
  have hcne : c ≠ [] := by rintro rfl; simp at hlen; omega
  obtain ⟨o, ho, hsome⟩ := C42_common_face_sound h hl hv (by omega)
  rw [ho, Res.bind_ok]
  match c, hlen with
  | a :: b :: rest, hlen =>
    cases o with
    | none =>
      have hno : T.SimpleEdges → ∀ g d, T.sf g = .live → ¬ T.Seen g d (a :: b :: rest) := by
        intro hs g d hg hseen
        obtain ⟨f, hf⟩ := found_of_seen h hl hs hv hc hg hseen
        rw [ho] at hf; cases hf
      obtain ⟨T1, es, T', -, -, -, r, hst, hloop, hnew, -⟩ := newFaceVerts_ok h hl hv hc (by omega) (by omega) hno
      refine ⟨T', T.nf, true, ?_, hst, ?_, ?_⟩
      · dsimp only
        rw [show T.mfNew.2 = T.nf from rfl, r, Res.bind_ok]
        rfl
      · intro g hg
        rcases hnew g hg with rfl | h0
        · exact Or.inr ⟨hg, _, hloop, hc, List.Perm.refl _⟩
        · exact Or.inl h0
      · rintro hs ⟨g, d, hg, hseen⟩
        exact absurd hseen (hno hs g d hg)
    | some f =>
      obtain ⟨d, hseen⟩ := hun f (hsome f rfl)
      have hf := (hsome f rfl).1
      obtain ⟨ws, hw, hwn⟩ := hl f hf
      have hside := hfree f d hf hseen
      refine ⟨T, f, d, ?_, ⟨h, hl, Ext.refl T, hf, hseen, hside, id, fun _ => id⟩, fun g hg => Or.inl hg, fun _ _ => rfl⟩
      dsimp only
      rw [show (a :: b :: rest)[0]? = some a from rfl, show (a :: b :: rest)[1]? = some b from rfl, Res.ofOption_some,
        Res.ofOption_some, Res.bind_ok, Res.bind_ok,
        existingDir_ok h hf hw hwn (by simp only [List.length_cons] at hlen; omega) ((seen_iff hf hw hwn hcne).1 hseen) hside]
      rfl

/-- The loop over the faces of a polyhedron. -/
theorem polyFaces_ok {vs : List Nat} : ∀ (rows : List (List Int)) (T : Topo), T.Consistent → T.AllLoops →
    (∀ row ∈ rows, ∀ i ∈ row, 0 ≤ i ∧ i < (vs.length : Int)) → (∀ row ∈ rows, 3 ≤ row.length ∧ row.length ≤ 30) →
    (∀ row ∈ rows, ∀ v ∈ picks vs row, T.sv v = .live) → (∀ row ∈ rows, (picks vs row).Nodup) →
    (∀ row ∈ rows, T.FreeSide (picks vs row)) → (∀ row ∈ rows, T.Untwisted (picks vs row)) →
    (rows.map (picks vs)).Pairwise (fun c c' => ¬ c.Perm c') →
    ∃ T' fs, polyFaces vs rows T = .ok (T', fs) ∧ LoopOut T T' fs (rows.map (picks vs)) ∧
      (T.SimpleEdges → (∀ row ∈ rows, ∃ g d, T.sf g = .live ∧ T.Seen g d (picks vs row)) → T' = T) := by
  intro rows
  induction rows with
  | nil => intro T h hl _ _ _ _ _ _ _; exact ⟨T, [], rfl, LoopOut.nil h hl, fun _ _ => rfl⟩
  | cons row rows ih =>
    intro T h hl hrange hlen hv hn hfree hun hpw
    rw [List.map_cons, List.pairwise_cons] at hpw
    obtain ⟨T1, f, d, r1, hst, hnew, hsame⟩ := polyFace_ok h hl (hrange row (by simp)) (hlen row (by simp)).1
      (hlen row (by simp)).2 (hv row (by simp)) (hn row (by simp)) (hfree row (by simp)) (hun row (by simp))
    have hne : ∀ y ∈ row :: rows, picks vs y ≠ [] := by
      intro y hy hc
      have := (hlen y hy).1
      have h0 := congrArg List.length hc
      rw [picks_length] at h0
      simp only [List.length_nil] at h0
      omega
    obtain ⟨T2, fs, r2, hout, hsame2⟩ := ih T1 hst.cons hst.loops (fun y hy => hrange y (by simp [hy]))
      (fun y hy => hlen y (by simp [hy])) (fun y hy v hv' => by rw [hst.ext.sv]; exact hv y (by simp [hy]) v hv')
      (fun y hy => hn y (by simp [hy]))
      (fun y hy => hst.ext.freeSide h hl (hne y (by simp [hy])) (hfree y (by simp [hy])))
      (by
        intro y hy g hg
        rcases hnew g hg.1 with h0 | h0
        · obtain ⟨ws, hw, hwn⟩ := hl g h0
          obtain ⟨-, ws', hw', -, hp⟩ := hg
          have := Loop.unique (hst.ext.oldF g h0).1 (hst.ext.loop h h0 hw) hw'
          subst this
          obtain ⟨d, hd⟩ := hun y (by simp [hy]) g ⟨h0, ws, hw, hwn, hp⟩
          exact ⟨d, (hst.ext.seen h hl h0 (hne y (by simp [hy]))).2 hd⟩
        · obtain ⟨-, ws, hw, -, hp⟩ := h0
          obtain ⟨hgl, ws', hw', -, hp'⟩ := hg
          have := Loop.unique hgl hw hw'
          subst this
          exact absurd (hp.symm.trans hp') (hpw.1 _ (List.mem_map.2 ⟨y, hy, rfl⟩)))
      hpw.2
    refine ⟨T2, (f, d) :: fs, ?_, LoopOut.cons' hst (hne row (by simp)) hout, ?_⟩
    · rw [show polyFaces vs (row :: rows) T = (polyFace vs row T >>= fun p =>
        polyFaces vs rows p.1 >>= fun q => pure (q.1, p.2 :: q.2)) from rfl, r1, Res.bind_ok, r2, Res.bind_ok]
      rfl
    · intro hs hex
      have h1 := hsame hs (hex row (by simp))
      subst h1
      exact hsame2 hs (fun y hy => hex y (by simp [hy]))

end Topo
end MSTK
