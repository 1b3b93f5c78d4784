import Verif.TopoFaceKeep

/-!
`MVs_CommonEdge` and `MF_Set_Vertices`.
-/
namespace MSTK
namespace Topo

theorem mvEdges_ok {T : Topo} {v : Nat} (h : (T.sv v).alloc) :
    ∃ o, T.mvEdges v = .ok o ∧ o.getD [] = T.ve v ∧ (o = none ↔ T.ve v = []) := by
  unfold mvEdges
  rw [derefV_ok h, Res.bind_ok]
  refine ⟨_, rfl, ?_, ?_⟩
  · split
    · rename_i hl; rw [List.length_eq_zero_iff.1 hl]; rfl
    · rfl
  · split
    · rename_i hl; simp [List.length_eq_zero_iff.1 hl]
    · rename_i hl; simp [List.length_eq_zero_iff] at hl ⊢; exact hl

theorem findEdge_ok (T : Topo) (v2 : Nat) : ∀ (es : List Nat), (∀ e ∈ es, (T.se e).alloc) →
    T.findEdge v2 es = .ok (es.find? fun e => usesB T e (some v2)) := by
  intro es
  induction es with
  | nil => intro _; rfl
  | cons e es ih =>
    intro h
    rw [show T.findEdge v2 (e :: es) = (T.meUsesVertex e (some v2) >>= fun b =>
      if b then pure (some e) else T.findEdge v2 es) from rfl, meUsesVertex_ok _ (h e (by simp)),
      Res.bind_ok, ← usesB.eq_1, List.find?_cons]
    by_cases hb : usesB T e (some v2) = true
    · rw [hb, if_pos rfl]; rfl
    · rw [if_neg hb, Bool.eq_false_of_not_eq_true hb]
      exact ih (fun x hx => h x (by simp [hx]))

theorem Consistent.veLive {T : Topo} (h : T.Consistent) {v e : Nat} (hv : (T.sv v).alloc)
    (he : e ∈ T.ve v) : T.se e = .live := ((h.ve.mem v hv e).1 he).1

theorem mvsCommonEdge_ok {T : Topo} (h : T.Consistent) {a b : Nat} (ha : (T.sv a).alloc) :
    T.mvsCommonEdge a b = .ok ((T.ve a).find? fun e => usesB T e (some b)) := by
  obtain ⟨o, h1, h2, _⟩ := mvEdges_ok (T := T) ha
  unfold mvsCommonEdge
  rw [h1, Res.bind_ok, h2]
  exact findEdge_ok T b _ (fun e he => alloc_of_live (h.veLive ha he))

theorem usesB_iff {T : Topo} {e v : Nat} : usesB T e (some v) = true ↔ ends T.ev e v := by
  unfold usesB ends; simp

/-- What `MF_Set_Vertices` leaves alone while it creates edges: everything but the new edges. -/
structure Grown (T T' : Topo) : Prop where
  sv : T'.sv = T.sv
  sf : T'.sf = T.sf
  fe : T'.fe = T.fe
  fd : T'.fd = T.fd
  fr : T'.fr = T.fr
  sr : T'.sr = T.sr
  rf : T'.rf = T.rf
  rd : T'.rd = T.rd
  old : ∀ e, T.se e = .live → T'.se e = .live ∧ T'.ev e = T.ev e ∧ T'.ef e = T.ef e
  /-- an edge that was not there is the only one between its two vertices -/
  only : ∀ e a b, T'.se e = .live → T.se e ≠ .live → a ≠ b → ends T'.ev e a → ends T'.ev e b →
    ∀ e', T'.se e' = .live → ends T'.ev e' a → ends T'.ev e' b → e' = e

theorem Grown.refl (T : Topo) : Grown T T :=
  ⟨rfl, rfl, rfl, rfl, rfl, rfl, rfl, rfl, fun _ h => ⟨h, rfl, rfl⟩,
    fun _ _ _ h h' => absurd h h'⟩

theorem ends_congr {ev ev' : Nat → Option Nat × Option Nat} {e x : Nat} (h : ev' e = ev e) :
    ends ev' e x ↔ ends ev e x := by unfold ends; rw [h]

theorem Grown.trans {T T1 T2 : Topo} (g : Grown T T1) (k : Grown T1 T2) : Grown T T2 := by
  refine ⟨k.sv.trans g.sv, k.sf.trans g.sf, k.fe.trans g.fe, k.fd.trans g.fd, k.fr.trans g.fr,
    k.sr.trans g.sr, k.rf.trans g.rf, k.rd.trans g.rd, ?_, ?_⟩
  · intro e he
    obtain ⟨a1, a2, a3⟩ := g.old e he
    obtain ⟨b1, b2, b3⟩ := k.old e a1
    exact ⟨b1, b2.trans a2, b3.trans a3⟩
  · intro e a b he hne hab ha hb e' he' ha' hb'
    by_cases h1 : T1.se e = .live
    · by_cases h2 : T1.se e' = .live
      · have ee := (k.old e h1).2.1
        have ee' := (k.old e' h2).2.1
        exact g.only e a b h1 hne hab ((ends_congr ee).1 ha) ((ends_congr ee).1 hb) e' h2
          ((ends_congr ee').1 ha') ((ends_congr ee').1 hb')
      · exact (k.only e' a b he' h2 hab ha' hb' e he ha hb).symm
    · exact k.only e a b he h1 hab ha hb e' he' ha' hb'

/-- edge `e` used in direction `d` leads from `a` to `b` -/
def Leads (T : Topo) (e : Nat) (d : Bool) (a b : Nat) : Prop :=
  T.ev e = if d then (some a, some b) else (some b, some a)

/-- One round of `MF_Set_Vertices`. -/
theorem edgeFor_ok {T : Topo} (h : T.Consistent) {a b : Nat} (ha : T.sv a = .live)
    (hb : T.sv b = .live) : ∃ T' e d, T.edgeFor a b = .ok (T', (e, d)) ∧ T'.Consistent ∧
      Grown T T' ∧ T'.se e = .live ∧ (a ≠ b → Leads T' e d a b) := by
  unfold edgeFor
  rw [mvsCommonEdge_ok h (alloc_of_live ha), Res.bind_ok]
  cases hf : (T.ve a).find? (fun e => usesB T e (some b)) with
  | some e =>
    have hm := List.mem_of_find?_eq_some hf
    have hu := List.find?_some hf
    have hl := h.veLive (alloc_of_live ha) hm
    have hea := ((h.ve.mem a (alloc_of_live ha) e).1 hm).2
    have heb := usesB_iff.1 hu
    dsimp only
    unfold meVertex
    rw [derefE_ok (alloc_of_live hl), Res.bind_ok]
    refine ⟨T, e, _, rfl, h, Grown.refl T, hl, ?_⟩
    intro hab
    unfold Leads
    unfold ends at hea heb
    obtain ⟨⟨p, q⟩, hpq⟩ : ∃ pq, T.ev e = pq := ⟨_, rfl⟩
    rw [hpq] at hea heb
    simp only [endAt] at *
    rcases hea with rfl | rfl
    · rcases heb with h1 | rfl
      · injection h1 with h1; exact absurd h1 hab
      · simp [hpq]
    · rcases heb with rfl | h1
      · simp [hpq, Ne.symm hab]
      · injection h1 with h1; exact absurd h1 hab
  | none =>
    have hne : T.se T.ne = .unused := h.newE _ (Nat.le_refl _)
    have h0 := h.newEdge
    have he0 : T.meNew.1.se T.ne = .live := upd_same _ _ _
    have hv0 : T.meNew.1.ev T.ne = (none, none) := upd_same _ _ _
    obtain ⟨T1, r1, h1⟩ := h0.setVertex (e := T.ne) (v := a) (i := false) he0 ha (by rw [hv0]; rfl)
    have e1 := meSetVertex_ok (T := T.meNew.1) (e := T.ne) (i := false) (v := a)
      (alloc_of_live he0) (alloc_of_live ha)
    rw [hv0] at e1
    have hT1 := (r1.symm.trans e1)
    injection hT1 with hT1
    have he1 : T1.se T.ne = .live := by rw [hT1]; exact he0
    have hv1 : T1.ev T.ne = (some a, none) := by rw [hT1]; exact upd_same _ _ _
    have hsv1 : T1.sv = T.sv := by rw [hT1]; rfl
    have hb1 : T1.sv b = .live := by rw [hsv1]; exact hb
    obtain ⟨T2, r2, h2⟩ := h1.setVertex (e := T.ne) (v := b) (i := true) he1 hb1 (by rw [hv1]; rfl)
    have e2 := meSetVertex_ok (T := T1) (e := T.ne) (i := true) (v := b)
      (alloc_of_live he1) (alloc_of_live hb1)
    rw [hv1] at e2
    have hT2 := (r2.symm.trans e2)
    injection hT2 with hT2
    have hv2 : T2.ev T.ne = (some a, some b) := by rw [hT2]; exact upd_same _ _ _
    have hse2 : T2.se = upd T.se T.ne .live := by rw [hT2, hT1]; rfl
    have hev2 : ∀ e, e ≠ T.ne → T2.ev e = T.ev e := by
      intro e he
      rw [hT2, hT1]
      show upd (upd (upd T.ev T.ne _) T.ne _) T.ne _ e = _
      rw [upd_ne _ _ he, upd_ne _ _ he, upd_ne _ _ he]
    have hef2 : ∀ e, e ≠ T.ne → T2.ef e = T.ef e := by
      intro e he
      rw [hT2, hT1]
      show upd T.ef T.ne _ e = _
      rw [upd_ne _ _ he]
    refine ⟨T2, T.ne, true, ?_, h2, ?_, by rw [hse2]; exact upd_same _ _ _, ?_⟩
    · dsimp only
      rw [show T.meNew.2 = T.ne from rfl, r1, Res.bind_ok, r2]
      rfl
    · refine ⟨?_, ?_, ?_, ?_, ?_, ?_, ?_, ?_, ?_, ?_⟩
      · rw [hT2, hT1]; rfl
      · rw [hT2, hT1]; rfl
      · rw [hT2, hT1]; rfl
      · rw [hT2, hT1]; rfl
      · rw [hT2, hT1]; rfl
      · rw [hT2, hT1]; rfl
      · rw [hT2, hT1]; rfl
      · rw [hT2, hT1]; rfl
      · intro e he
        have hen : e ≠ T.ne := by rintro rfl; rw [hne] at he; cases he
        exact ⟨by rw [hse2, upd_ne _ _ hen]; exact he, hev2 e hen, hef2 e hen⟩
      · intro e x y he hne' hxy hx hy e' he' hx' hy'
        have hen : e = T.ne := by
          rw [hse2, upd_apply] at he
          split at he
          · assumption
          · exact absurd he hne'
        subst hen
        refine Classical.byContradiction fun hc => ?_
        have hl' : T.se e' = .live := by rw [hse2, upd_ne _ _ hc] at he'; exact he'
        have hx' := (ends_congr (hev2 e' hc)).1 hx'
        have hy' := (ends_congr (hev2 e' hc)).1 hy'
        unfold ends at hx hy
        rw [hv2] at hx hy
        simp only [Option.some.injEq] at hx hy
        have key : ends T.ev e' a ∧ ends T.ev e' b := by
          rcases hx with rfl | rfl
          · rcases hy with rfl | rfl
            · exact absurd rfl hxy
            · exact ⟨hx', hy'⟩
          · rcases hy with rfl | rfl
            · exact ⟨hy', hx'⟩
            · exact absurd rfl hxy
        have hm : e' ∈ T.ve a := (h.ve.mem a (alloc_of_live ha) e').2 ⟨hl', key.1⟩
        have := List.find?_eq_none.1 hf e' hm
        exact this (usesB_iff.2 key.2)
    · intro _; unfold Leads; rw [hv2]; rfl

/-- All rounds of `MF_Set_Vertices`. -/
theorem edgesFor_ok : ∀ (ps : List (Nat × Nat)) (T : Topo), T.Consistent →
    (∀ p ∈ ps, T.sv p.1 = .live ∧ T.sv p.2 = .live) →
    ∃ T' es, edgesFor ps T = .ok (T', es) ∧ T'.Consistent ∧ Grown T T' ∧ es.length = ps.length ∧
      (∀ q ∈ es, T'.se q.1 = .live) ∧
      ∀ (k : Nat) p q, ps[k]? = some p → es[k]? = some q → p.1 ≠ p.2 → Leads T' q.1 q.2 p.1 p.2 := by
  intro ps
  induction ps with
  | nil => intro T h _; exact ⟨T, [], rfl, h, Grown.refl T, rfl, by simp, by simp⟩
  | cons p ps ih =>
    obtain ⟨a, b⟩ := p
    intro T h hall
    obtain ⟨ha, hb⟩ := hall (a, b) (by simp)
    obtain ⟨T1, e, d, r1, h1, g1, l1, d1⟩ := edgeFor_ok h ha hb
    obtain ⟨T2, es, r2, h2, g2, n2, l2, d2⟩ := ih T1 h1 (by
      intro p hp; rw [g1.sv]; exact hall p (by simp [hp]))
    refine ⟨T2, (e, d) :: es, ?_, h2, g1.trans g2, by simp [n2], ?_, ?_⟩
    · rw [show edgesFor ((a, b) :: ps) T = (edgeFor T a b >>= fun p =>
        edgesFor ps p.1 >>= fun q => pure (q.1, p.2 :: q.2)) from rfl, r1, Res.bind_ok, r2, Res.bind_ok]
      rfl
    · intro q hq
      rcases List.mem_cons.1 hq with rfl | hq
      · exact (g2.old e l1).1
      · exact l2 q hq
    · intro k p q hp hq hne
      cases k with
      | zero =>
        simp only [List.getElem?_cons_zero, Option.some.injEq] at hp hq
        subst hp; subst hq
        have := d1 hne
        unfold Leads at this ⊢
        rw [(g2.old e l1).2.1]; exact this
      | succ k =>
        rw [List.getElem?_cons_succ] at hp hq
        exact d2 k p q hp hq hne

theorem cyclicPairs_length (vs : List Nat) : (cyclicPairs vs).length = vs.length := by
  unfold cyclicPairs
  rw [List.length_zip, List.length_append, List.length_tail, List.length_take]
  cases vs <;> simp

theorem mem_cyclicPairs {vs : List Nat} {p : Nat × Nat} (h : p ∈ cyclicPairs vs) :
    p.1 ∈ vs ∧ p.2 ∈ vs := by
  have h1 := List.of_mem_zip (a := p.1) (b := p.2) h
  refine ⟨h1.1, ?_⟩
  rcases List.mem_append.1 h1.2 with h2 | h2
  · exact List.mem_of_mem_tail h2
  · exact List.mem_of_mem_take h2

theorem getElem?_cyclicPairs {vs : List Nat} {k a : Nat} (h : vs[k]? = some a) :
    ∃ b, vs[(k+1) % vs.length]? = some b ∧ (cyclicPairs vs)[k]? = some (a, b) := by
  have hk : k < vs.length := (List.getElem?_eq_some_iff.1 h).1
  have hlt : (k+1) % vs.length < vs.length := Nat.mod_lt _ (by omega)
  refine ⟨vs[(k+1) % vs.length], List.getElem?_eq_getElem hlt, ?_⟩
  unfold cyclicPairs
  rw [List.getElem?_zip_eq_some]
  refine ⟨h, ?_⟩
  rcases Nat.lt_or_ge (k+1) vs.length with h1 | h1
  · rw [List.getElem?_append_left (by simp; omega), List.getElem?_tail]
    simp only [Nat.mod_eq_of_lt h1]
    exact List.getElem?_eq_getElem h1
  · have hk1 : k + 1 = vs.length := by omega
    rw [List.getElem?_append_right (by simp; omega), List.length_tail,
      show k - (vs.length - 1) = 0 by omega, List.getElem?_take]
    simp only [hk1, Nat.mod_self]
    rw [if_pos (by omega), List.getElem?_eq_getElem (by omega)]

/-- `MF_Set_Vertices`, together with what it leaves alone. -/
theorem mfSetVertices_ok {T : Topo} (h : T.Consistent) {f : Nat} {vs : List Nat}
    (hf : T.sf f = .live) (hfe : (T.fe f).getD [] = []) (hn : vs.length ≤ 30)
    (hv : ∀ v ∈ vs, T.sv v = .live) :
    ∃ T1 es d', edgesFor (cyclicPairs vs) T = .ok (T1, es) ∧ T1.Consistent ∧ Grown T T1 ∧
      T.mfSetVertices f vs = .ok { T1 with
        fe := upd T1.fe f (some (es.map (·.1))), fd := upd T1.fd f d',
        ef := addAll T1.ef f (es.map (·.1)) } ∧
      pairs (es.map (·.1)) (fbit d') = es ∧ es.length = vs.length ∧
      (∀ q ∈ es, T1.se q.1 = .live) ∧
      (∀ (k : Nat) a b q, vs[k]? = some a → vs[(k+1) % vs.length]? = some b → es[k]? = some q →
        a ≠ b → Leads T1 q.1 q.2 a b) ∧
      Consistent { T1 with
        fe := upd T1.fe f (some (es.map (·.1))), fd := upd T1.fd f d',
        ef := addAll T1.ef f (es.map (·.1)) } := by
  obtain ⟨T1, es, r1, h1, g1, n1, l1, d1⟩ := edgesFor_ok (cyclicPairs vs) T h (by
    intro p hp
    exact ⟨hv _ (mem_cyclicPairs hp).1, hv _ (mem_cyclicPairs hp).2⟩)
  rw [cyclicPairs_length] at n1
  have hf1 : T1.sf f = .live := by rw [g1.sf]; exact hf
  obtain ⟨d', r2, hp⟩ := mfSetEdges_ok (T := T1) (f := f) (es := es) (alloc_of_live hf1) (by omega)
    (fun p hp => alloc_of_live (l1 p hp))
  obtain ⟨T2, r3, h3⟩ := h1.setEdges hf1 (by rw [g1.fe]; exact hfe) (es := es) (by omega) l1
  have : Res.ok T2 = _ := r3.symm.trans r2
  injection this with hT2
  refine ⟨T1, es, d', r1, h1, g1, ?_, hp, n1, l1, ?_, hT2 ▸ h3⟩
  · unfold mfSetVertices
    rw [derefF_ok (alloc_of_live hf), Res.bind_ok, if_neg (by omega), r1, Res.bind_ok, r2]
  · intro k a b q ha hb hq hab
    obtain ⟨b', hb', hp'⟩ := getElem?_cyclicPairs ha
    rw [hb] at hb'
    injection hb' with hb'
    subst hb'
    exact d1 k (a, b) q hp' hq hab

theorem Consistent.setVertices {T : Topo} (h : T.Consistent) {f : Nat} {vs : List Nat}
    (hf : T.sf f = .live) (hfe : (T.fe f).getD [] = []) (hn : vs.length ≤ 30)
    (hv : ∀ v ∈ vs, T.sv v = .live) : ∃ T', T.mfSetVertices f vs = .ok T' ∧ T'.Consistent := by
  obtain ⟨T1, es, d', _, _, _, r, _, _, _, _, hc⟩ := mfSetVertices_ok h hf hfe hn hv
  exact ⟨_, r, hc⟩

end Topo
end MSTK
