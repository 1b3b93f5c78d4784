import Verif.Props.SplitFace

/-!
Faces created from their vertices (helper lemmas for C51).
-/
namespace MSTK
namespace Topo

theorem meSetVertex_rt {T T' : Topo} {e v : Nat} {i : Bool} (h : T.meSetVertex e i v = .ok T') :
    T'.rt = T.rt := by
  obtain ⟨h1, h2⟩ := meSetVertex_inv h
  rw [meSetVertex_eq h1 h2] at h
  injection h with h
  subst h; rfl

theorem edgeFor_rt {T T' : Topo} {a b : Nat} {q : Nat × Bool} (h : T.edgeFor a b = .ok (T', q)) :
    T'.rt = T.rt := by
  unfold edgeFor at h
  obtain ⟨o, -, h⟩ := Res.bind_eq_ok.1 h
  cases o with
  | some e =>
    obtain ⟨v, -, h⟩ := Res.bind_eq_ok.1 h
    injection h with h
    exact (congrArg (fun p => p.1.rt) h).symm
  | none =>
    obtain ⟨T1, h1, h⟩ := Res.bind_eq_ok.1 h
    obtain ⟨T2, h2, h⟩ := Res.bind_eq_ok.1 h
    injection h with h
    have h3 : T'.rt = T2.rt := (congrArg (fun p => p.1.rt) h).symm
    have h4 : T1.rt = T.meNew.1.rt := meSetVertex_rt h1
    exact h3.trans ((meSetVertex_rt h2).trans h4)

theorem edgesFor_rt : ∀ (ps : List (Nat × Nat)) {T T' : Topo} {es : List (Nat × Bool)},
    edgesFor ps T = .ok (T', es) → T'.rt = T.rt := by
  intro ps
  induction ps with
  | nil =>
    intro T T' es h
    injection h with h
    exact (congrArg (fun p => p.1.rt) h).symm
  | cons p ps ih =>
    obtain ⟨a, b⟩ := p
    intro T T' es h
    rw [show edgesFor ((a, b) :: ps) T = (edgeFor T a b >>= fun p => edgesFor ps p.1 >>= fun q =>
      pure (q.1, p.2 :: q.2)) from rfl] at h
    obtain ⟨⟨T1, q1⟩, h1, h⟩ := Res.bind_eq_ok.1 h
    obtain ⟨⟨T2, q2⟩, h2, h⟩ := Res.bind_eq_ok.1 h
    injection h with h
    have h3 : T'.rt = T2.rt := (congrArg (fun p => p.1.rt) h).symm
    exact h3.trans ((ih h2).trans (edgeFor_rt h1))

/-- Edges may have been added: old ones are as before, a new one is the only one between its ends. -/
structure MoreEdges (T T' : Topo) : Prop where
  old : ∀ e, T.se e = .live → T'.se e = .live ∧ T'.ev e = T.ev e
  only : ∀ e a b, T'.se e = .live → T.se e ≠ .live → a ≠ b → ends T'.ev e a → ends T'.ev e b →
    ∀ e', T'.se e' = .live → ends T'.ev e' a → ends T'.ev e' b → e' = e
  fresh : ∀ e, T'.se e ≠ T.se e → T.se e = .unused ∧ T'.se e = .live

theorem MoreEdges.refl (T : Topo) : MoreEdges T T :=
  ⟨fun _ h => ⟨h, rfl⟩, fun _ _ _ h h' => absurd h h', fun _ h => absurd rfl h⟩

theorem MoreEdges.trans {T T1 T2 : Topo} (g : MoreEdges T T1) (k : MoreEdges T1 T2) : MoreEdges T T2 := by
  refine ⟨fun e he => ⟨(k.old e (g.old e he).1).1, ((k.old e (g.old e he).1).2).trans (g.old e he).2⟩, ?_, ?_⟩
  · intro e a b he hne hab ha hb e' he' ha' hb'
    by_cases h1 : T1.se e = .live
    · have k1 := (k.old e h1).2
      by_cases h1' : T1.se e' = .live
      · have k1' := (k.old e' h1').2
        exact g.only e a b h1 hne hab ((ends_congr k1).1 ha) ((ends_congr k1).1 hb) e' h1'
          ((ends_congr k1').1 ha') ((ends_congr k1').1 hb')
      · exact (k.only e' a b he' h1' hab ha' hb' e he ha hb).symm
    · exact k.only e a b he h1 hab ha hb e' he' ha' hb'
  · intro e he
    by_cases h1 : T1.se e = T.se e
    · have := k.fresh e (by rw [h1]; exact he)
      rw [h1] at this; exact this
    · obtain ⟨a, b⟩ := g.fresh e h1
      exact ⟨a, (k.old e b).1⟩

/-- `MF_New` and `MF_Set_Vertices`. -/
theorem newFaceV_ok {T : Topo} (h : T.Consistent) {c : List Nat} (hv : ∀ v ∈ c, T.sv v = .live)
    (hc : c.Nodup) (h2 : 2 ≤ c.length) (hn : c.length ≤ 30) :
    ∃ T' es, T.mfNew.1.mfSetVertices T.nf c = .ok T' ∧ T'.Consistent ∧ T'.sv = T.sv ∧
      T'.sf = upd T.sf T.nf .live ∧ T'.fe = upd T.fe T.nf (some (es.map (·.1))) ∧
      T'.edgesOf = upd T.edgesOf T.nf es ∧ T'.sr = T.sr ∧ T'.rf = T.rf ∧ T'.rd = T.rd ∧ T'.rt = T.rt ∧
      T'.nf = T.nf + 1 ∧ T'.Closed es c ∧ (∀ q ∈ es, T'.se q.1 = .live) ∧ MoreEdges T T' ∧
      (∀ e, T'.se e ≠ T.se e → ∃ d, (e, d) ∈ es) := by
  have h0 := h.newFace
  have hf0 : T.mfNew.1.sf T.nf = .live := upd_same _ _ _
  have hfe0 : (T.mfNew.1.fe T.nf).getD [] = [] := by rw [show T.mfNew.1.fe T.nf = none from upd_same _ _ _]; rfl
  obtain ⟨T1, es, d', r1, h1, g, r2, hp, hlen, hall, hlead, hcons⟩ := mfSetVertices_ok h0 hf0 hfe0 hn hv
  obtain ⟨T', s1, s2, s3⟩ := C49_effect h0 (.setVertices T.nf c) ⟨hf0, hfe0, hn, hv⟩
  have hs : T.mfNew.1.mfSetVertices T.nf c = .ok T' := s1
  have hT : T' = _ := Res.ok.inj (hs.symm.trans r2)
  have hfe : T'.fe = upd T.fe T.nf (some (es.map (·.1))) := by
    rw [hT]; dsimp only; rw [g.fe]; exact upd_upd _ _ _ _
  have hfd : T'.fd = upd T.fd T.nf d' := by
    rw [hT]; dsimp only; rw [g.fd]; exact upd_upd _ _ _ _
  have hed := edgesOf_upd hfe hfd hp
  obtain ⟨-, -, -, -, -, -, -, e8, -⟩ := s3
  have hse : T'.se = T1.se := by rw [hT]
  have hev : T'.ev = T1.ev := by rw [hT]
  refine ⟨T', es, hs, s2, ?_, ?_, hfe, hed, ?_, ?_, ?_, ?_, ?_, ⟨hlen, ?_⟩, ?_, ⟨?_, ?_, ?_⟩, ?_⟩
  · rw [hT]; exact g.sv
  · rw [hT]; exact g.sf
  · rw [hT]; exact g.sr
  · rw [hT]; exact g.rf
  · rw [hT]; exact g.rd
  · have : T1.rt = T.mfNew.1.rt := edgesFor_rt _ r1
    rw [hT]; exact this
  · have : T1.nf = T.mfNew.1.nf := (edgesFor_mfNew _ r1).2
    rw [hT]; exact this
  · intro k p a b hp' ha hb
    have hab : a ≠ b := by
      rintro rfl
      have e1 := idxOf_eq_of_nodup hc ha
      rw [idxOf_eq_of_nodup hc hb] at e1
      have hj := (List.getElem?_eq_some_iff.1 ha).1
      by_cases hj1 : k + 1 = c.length
      · rw [hj1, Nat.mod_self] at e1; omega
      · rw [Nat.mod_eq_of_lt (by omega)] at e1; omega
    have := hlead k a b p ha hb hp' hab
    unfold Leads at this ⊢
    rw [hev]; exact this
  · rw [hse]; exact hall
  · intro e he
    obtain ⟨a, b, -⟩ := g.old e he
    rw [hse, hev]; exact ⟨a, b⟩
  · intro e a b
    rw [hse, hev]; exact g.only e a b
  · intro e he
    obtain ⟨a, b, -⟩ := e8 e he
    exact ⟨a, b⟩
  · intro e he
    obtain ⟨-, -, d, hd⟩ := e8 e he
    have : (e, d) ∈ T'.edgesOf T.nf := hd
    rw [hed, upd_same] at this
    exact ⟨d, this⟩

/-- The triangles of `MF_Split`. -/
theorem newTriangles_ok (v : Nat) : ∀ (ps : List (Nat × Nat)) (T : Topo), T.Consistent → T.sv v = .live →
    (∀ p ∈ ps, T.sv p.1 = .live ∧ T.sv p.2 = .live ∧ p.1 ≠ p.2 ∧ v ≠ p.1 ∧ v ≠ p.2) →
    ∃ T', newTriangles v ps T = .ok (T', List.range' T.nf ps.length) ∧ T'.Consistent ∧ T'.sv = T.sv ∧
      (∀ g, T'.sf g = if T.nf ≤ g ∧ g < T.nf + ps.length then .live else T.sf g) ∧
      (∀ g, g < T.nf ∨ T.nf + ps.length ≤ g → T'.fe g = T.fe g ∧ T'.edgesOf g = T.edgesOf g) ∧
      T'.sr = T.sr ∧ T'.rf = T.rf ∧ T'.rd = T.rd ∧ T'.rt = T.rt ∧ MoreEdges T T' ∧
      (∀ (k : Nat) a b, ps[k]? = some (a, b) → ∃ es, T'.fe (T.nf + k) = some (es.map (·.1)) ∧
        T'.edgesOf (T.nf + k) = es ∧ T'.Closed es [v, a, b] ∧ ∀ q ∈ es, T'.se q.1 = .live) ∧
      (∀ e, T'.se e ≠ T.se e → ∃ p ∈ ps, (ends T'.ev e v ∧ ends T'.ev e p.1) ∨
        (ends T'.ev e p.1 ∧ ends T'.ev e p.2) ∨ (ends T'.ev e p.2 ∧ ends T'.ev e v)) := by
  intro ps
  induction ps with
  | nil =>
    intro T h _ _
    refine ⟨T, rfl, h, rfl, ?_, fun _ _ => ⟨rfl, rfl⟩, rfl, rfl, rfl, rfl, MoreEdges.refl T, by simp,
      fun _ h => absurd rfl h⟩
    intro g
    rw [if_neg (by simp only [List.length_nil]; omega)]
  | cons p ps ih =>
    intro T h hv hall
    obtain ⟨a, b⟩ := p
    obtain ⟨ha, hb, hab, hva, hvb⟩ := hall (a, b) (by simp)
    dsimp only at ha hb hab hva hvb
    obtain ⟨T1, es, r1, h1, s1, s2, s3, s4, s5, s6, s7, s8, s9, s10, s11, s12, s13⟩ :=
      newFaceV_ok h (c := [v, a, b])
        (by
          intro x hx
          simp only [List.mem_cons, List.not_mem_nil, or_false] at hx
          rcases hx with rfl | rfl | rfl <;> assumption)
        (by simp [hab, hva, hvb]) (by simp) (by simp)
    obtain ⟨T2, r2, h2, t1, t2, t3, t4, t5, t6, t7, t8, t9, t10⟩ := ih T1 h1 (by rw [s1]; exact hv)
      (by rw [s1]; exact fun p hp => hall p (by simp [hp]))
    rw [s9] at r2 t2 t3 t9
    have hcl2 : ∀ {es c}, T1.Closed es c → (∀ q ∈ es, T1.se q.1 = .live) → T2.Closed es c := by
      intro es c hc hl
      refine ⟨hc.1, fun k p x y hp hx hy => ?_⟩
      have := hc.2 k p x y hp hx hy
      unfold Leads at this ⊢
      rw [(t8.old p.1 (hl p (List.mem_of_getElem? hp))).2]; exact this
    refine ⟨T2, ?_, h2, t1.trans s1, ?_, ?_, t4.trans s5, t5.trans s6, t6.trans s7, t7.trans s8,
      s12.trans t8, ?_, ?_⟩
    · rw [show newTriangles v ((a, b) :: ps) T = (T.mfNew.1.mfSetVertices T.nf [v, a, b] >>= fun T1 =>
        newTriangles v ps T1 >>= fun r => pure (r.1, T.nf :: r.2)) from rfl, r1, Res.bind_ok, r2, Res.bind_ok]
      rfl
    · intro g
      rw [t2 g, s2, upd_apply, List.length_cons]
      by_cases hg : g = T.nf
      · subst hg
        rw [if_neg (by omega), if_pos rfl, if_pos (by omega)]
      · rw [if_neg hg]
        by_cases hg' : T.nf + 1 ≤ g ∧ g < T.nf + 1 + ps.length
        · rw [if_pos hg', if_pos (by omega)]
        · rw [if_neg hg', if_neg (by omega)]
    · intro g hg
      rw [List.length_cons] at hg
      obtain ⟨x, y⟩ := t3 g (by omega)
      rw [x, y, s3, s4, upd_ne _ _ (by omega), upd_ne _ _ (by omega)]
      exact ⟨rfl, rfl⟩
    · intro k x y hk
      cases k with
      | zero =>
        rw [List.getElem?_cons_zero] at hk
        injection hk with hk
        injection hk with hk1 hk2
        subst hk1; subst hk2
        obtain ⟨q1, q2⟩ := t3 T.nf (by omega)
        refine ⟨es, ?_, ?_, hcl2 s10 s11, fun q hq => (t8.old q.1 (s11 q hq)).1⟩
        · rw [Nat.add_zero, q1, s3, upd_same]
        · rw [Nat.add_zero, q2, s4, upd_same]
      | succ k =>
        rw [List.getElem?_cons_succ] at hk
        have := t9 k x y hk
        rwa [show T.nf + 1 + k = T.nf + (k+1) by omega] at this
    · intro e he
      by_cases he1 : T1.se e = T.se e
      · obtain ⟨p, hp, hr⟩ := t10 e (by rw [he1]; exact he)
        exact ⟨p, by simp [hp], hr⟩
      · obtain ⟨d, hd⟩ := s13 e he1
        refine ⟨(a, b), by simp, ?_⟩
        obtain ⟨k, hk, hke⟩ := List.getElem_of_mem hd
        have hk' := List.getElem?_eq_getElem hk
        rw [hke] at hk'
        have hc2 := hcl2 s10 s11
        rw [hc2.1, List.length_cons, List.length_cons, List.length_cons, List.length_nil] at hk
        have hends : ∀ {x y : Nat}, Leads T2 e d x y → ends T2.ev e x ∧ ends T2.ev e y := by
          intro x y hl
          unfold Leads at hl
          unfold ends
          rw [hl]
          cases d <;> simp
        rcases (show k = 0 ∨ k = 1 ∨ k = 2 by omega) with rfl | rfl | rfl
        · exact Or.inl (hends (hc2.2 0 _ v a hk' rfl rfl))
        · exact Or.inr (Or.inl (hends (hc2.2 1 _ a b hk' rfl rfl)))
        · exact Or.inr (Or.inr (hends (hc2.2 2 _ b v hk' rfl (by simp))))

end Topo
end MSTK
