import Verif.Props.RegionVertices

/-!
What `MR_Set_Vertices` with the tables of the standard elements does not touch, and which edges and faces it
makes (for C71).
-/
namespace MSTK
namespace Topo

/-! ### edges -/

theorem edgeFor_frame {T T' : Topo} {a b : Nat} {p : Nat × Bool} (hr : edgeFor T a b = .ok (T', p)) :
    T'.nr = T.nr ∧ T'.nv = T.nv ∧ T'.rt = T.rt ∧ T'.sf = T.sf ∧
    ∀ e, T'.se e = .live → T.se e = .live ∨ T'.ev e = (some a, some b) := by
  unfold edgeFor at hr
  obtain ⟨o, -, hr⟩ := Res.bind_eq_ok.1 hr
  cases o with
  | some e =>
    obtain ⟨v, -, hr⟩ := Res.bind_eq_ok.1 hr
    injection hr with hr
    injection hr with h1 h2
    subst h1
    exact ⟨rfl, rfl, rfl, rfl, fun e he => Or.inl he⟩
  | none =>
    dsimp only at hr
    obtain ⟨T1, h1, hr⟩ := Res.bind_eq_ok.1 hr
    obtain ⟨T2, h2, hr⟩ := Res.bind_eq_ok.1 hr
    injection hr with hr
    injection hr with hr _
    subst hr
    unfold meSetVertex at h1 h2
    obtain ⟨-, -, h1⟩ := Res.bind_eq_ok.1 h1
    obtain ⟨-, -, h2⟩ := Res.bind_eq_ok.1 h2
    unfold mvAddEdge at h1 h2
    obtain ⟨-, -, h1⟩ := Res.bind_eq_ok.1 h1
    obtain ⟨-, -, h2⟩ := Res.bind_eq_ok.1 h2
    injection h1 with h1
    injection h2 with h2
    subst h1
    subst h2
    refine ⟨rfl, rfl, rfl, rfl, fun e he => ?_⟩
    by_cases hx : e = T.ne
    · right
      subst hx
      simp [meNew, setEnd]
    · left
      have : upd T.se T.ne .live e = .live := he
      rwa [upd_ne _ _ hx] at this

theorem edgesFor_frame : ∀ (ps : List (Nat × Nat)) (T T' : Topo) (es : List (Nat × Bool)), T.Consistent →
    (∀ p ∈ ps, T.sv p.1 = .live ∧ T.sv p.2 = .live) → edgesFor ps T = .ok (T', es) →
    T'.nr = T.nr ∧ T'.nv = T.nv ∧ T'.rt = T.rt ∧ T'.sf = T.sf ∧
    ∀ e, T'.se e = .live → T.se e = .live ∨ ∃ p ∈ ps, T'.ev e = (some p.1, some p.2) := by
  intro ps
  induction ps with
  | nil =>
    intro T T' es _ _ hr
    injection hr with hr
    injection hr with h1 h2
    subst h1
    exact ⟨rfl, rfl, rfl, rfl, fun e he => Or.inl he⟩
  | cons p ps ih =>
    obtain ⟨a, b⟩ := p
    intro T T' es h hv hr
    unfold edgesFor at hr
    obtain ⟨x, h1, hr⟩ := Res.bind_eq_ok.1 hr
    obtain ⟨y, h2, hr⟩ := Res.bind_eq_ok.1 hr
    injection hr with hr
    injection hr with hr _
    subst hr
    obtain ⟨ha, hb⟩ := hv (a, b) (by simp)
    obtain ⟨T1, e, d, r1, c1, g1, -⟩ := edgeFor_ok h ha hb
    rw [r1] at h1
    injection h1 with h1
    subst h1
    have hv1 : ∀ p ∈ ps, T1.sv p.1 = .live ∧ T1.sv p.2 = .live := by
      intro p hp; rw [g1.sv]; exact hv p (by simp [hp])
    obtain ⟨k1, k2, k3, k4, k5⟩ := edgeFor_frame r1
    obtain ⟨q1, q2, q3, q4, q5⟩ := ih T1 y.1 y.2 c1 hv1 h2
    obtain ⟨T2, es2, r2, -, g2, -⟩ := edgesFor_ok ps T1 c1 hv1
    have hy : y.1 = T2 := by
      have h2 : edgesFor ps T1 = .ok y := h2
      rw [r2] at h2
      injection h2 with h2
      rw [← h2]
    rw [← hy] at g2
    refine ⟨q1.trans k1, q2.trans k2, q3.trans k3, q4.trans k4, fun e he => ?_⟩
    rcases q5 e he with h' | ⟨p, hp, h'⟩
    · rcases k5 e h' with h'' | h''
      · exact Or.inl h''
      · refine Or.inr ⟨(a, b), by simp, ?_⟩
        rw [(g2.old e h').2.1]; exact h''
    · exact Or.inr ⟨p, by simp [hp], h'⟩

/-! ### faces -/

theorem setEdgesLoop_frame {f : Nat} : ∀ (es : List (Nat × Bool)) (i : Nat) (T T' : Topo), setEdgesLoop f i es T = .ok T' →
    T'.nr = T.nr ∧ T'.nv = T.nv ∧ T'.rt = T.rt ∧ T'.sf = T.sf ∧ T'.se = T.se ∧ T'.ev = T.ev := by
  intro es
  induction es with
  | nil => intro i T T' h; injection h with h; subst h; exact ⟨rfl, rfl, rfl, rfl, rfl, rfl⟩
  | cons p es ih =>
    obtain ⟨e, d⟩ := p
    intro i T T' h
    unfold setEdgesLoop at h
    obtain ⟨w, -, h⟩ := Res.bind_eq_ok.1 h
    obtain ⟨l, -, h⟩ := Res.bind_eq_ok.1 h
    obtain ⟨T1, h1, h⟩ := Res.bind_eq_ok.1 h
    unfold meAddFace at h1
    obtain ⟨-, -, h1⟩ := Res.bind_eq_ok.1 h1
    injection h1 with h1
    subst h1
    obtain ⟨k1, k2, k3, k4, k5, k6⟩ := ih _ _ _ h
    exact ⟨k1, k2, k3, k4, k5, k6⟩

theorem stdFace_frame {T T' : Topo} {vs : List Nat} {red : List (Nat × Bool)} {x : List (Int × Int) × List Int × Int}
    {p : Nat × Bool} (hr : stdFace vs red x T = .ok (T', p)) :
    T'.nr = T.nr ∧ T'.nv = T.nv ∧ T'.rt = T.rt ∧ T'.se = T.se ∧ T'.ev = T.ev ∧
    ∀ f, T'.sf f = .live → T.sf f = .live ∨ f = p.1 := by
  unfold stdFace at hr
  obtain ⟨es, -, hr⟩ := Res.bind_eq_ok.1 hr
  obtain ⟨o, -, hr⟩ := Res.bind_eq_ok.1 hr
  cases o with
  | none =>
    dsimp only at hr
    obtain ⟨T1, h1, hr⟩ := Res.bind_eq_ok.1 hr
    injection hr with hr
    injection hr with hr hp
    subst hr
    subst hp
    unfold mfSetEdges at h1
    obtain ⟨-, -, h1⟩ := Res.bind_eq_ok.1 h1
    obtain ⟨k1, k2, k3, k4, k5, k6⟩ := setEdgesLoop_frame _ _ _ _ h1
    refine ⟨k1, k2, k3, k5, k6, fun f hf => ?_⟩
    rw [k4] at hf
    by_cases hx : f = T.nf
    · exact Or.inr hx
    · left
      have : upd T.sf T.nf .live f = .live := hf
      rwa [upd_ne _ _ hx] at this
  | some f =>
    dsimp only at hr
    obtain ⟨i0, -, hr⟩ := Res.bind_eq_ok.1 hr
    obtain ⟨i1, -, hr⟩ := Res.bind_eq_ok.1 hr
    obtain ⟨a, -, hr⟩ := Res.bind_eq_ok.1 hr
    obtain ⟨b, -, hr⟩ := Res.bind_eq_ok.1 hr
    obtain ⟨d, -, hr⟩ := Res.bind_eq_ok.1 hr
    injection hr with hr
    injection hr with hr hp
    subst hr
    exact ⟨rfl, rfl, rfl, rfl, rfl, fun f hf => Or.inl hf⟩

theorem stdFaces_frame {vs : List Nat} {red : List (Nat × Bool)} : ∀ (xs : List (List (Int × Int) × List Int × Int)) (T T' : Topo)
    (fs : List (Nat × Bool)), stdFaces vs red xs T = .ok (T', fs) →
    T'.nr = T.nr ∧ T'.nv = T.nv ∧ T'.rt = T.rt ∧ T'.se = T.se ∧ T'.ev = T.ev ∧
    ∀ f, T'.sf f = .live → T.sf f = .live ∨ f ∈ fs.map (·.1) := by
  intro xs
  induction xs with
  | nil =>
    intro T T' fs h
    injection h with h
    injection h with h _
    subst h
    exact ⟨rfl, rfl, rfl, rfl, rfl, fun f hf => Or.inl hf⟩
  | cons x xs ih =>
    intro T T' fs h
    unfold stdFaces at h
    obtain ⟨⟨T1, p⟩, h1, h⟩ := Res.bind_eq_ok.1 h
    obtain ⟨⟨T2, ps⟩, h2, h⟩ := Res.bind_eq_ok.1 h
    injection h with h
    injection h with h hp
    dsimp only at h hp
    subst h
    subst hp
    obtain ⟨k1, k2, k3, k4, k5, k6⟩ := stdFace_frame h1
    obtain ⟨q1, q2, q3, q4, q5, q6⟩ := ih _ _ _ h2
    refine ⟨q1.trans k1, q2.trans k2, q3.trans k3, q4.trans k4, q5.trans k5, fun f hf => ?_⟩
    rcases q6 f hf with h | h
    · rcases k6 f h with h | h
      · exact Or.inl h
      · subst h; exact Or.inr (by simp)
    · exact Or.inr (by rw [List.map_cons]; exact List.mem_cons_of_mem _ h)

/-! ### the region -/

theorem setFacesLoop_frame {r : Nat} : ∀ (fs : List (Nat × Bool)) (i : Nat) (T T' : Topo), setFacesLoop r i fs T = .ok T' →
    T'.nr = T.nr ∧ T'.nv = T.nv ∧ T'.rt = T.rt ∧ T'.sf = T.sf ∧ T'.se = T.se ∧ T'.ev = T.ev ∧
    T'.rf r = (T.rf r).map (· ++ fs.map (·.1)) := by
  intro fs
  induction fs with
  | nil =>
    intro i T T' h
    injection h with h
    subst h
    refine ⟨rfl, rfl, rfl, rfl, rfl, rfl, ?_⟩
    cases T.rf r <;> simp
  | cons p fs ih =>
    obtain ⟨f, d⟩ := p
    intro i T T' h
    unfold setFacesLoop at h
    obtain ⟨w, -, h⟩ := Res.bind_eq_ok.1 h
    obtain ⟨l, hl, h⟩ := Res.bind_eq_ok.1 h
    obtain ⟨T1, h1, h⟩ := Res.bind_eq_ok.1 h
    unfold mfAddRegion at h1
    obtain ⟨-, -, h1⟩ := Res.bind_eq_ok.1 h1
    injection h1 with h1
    subst h1
    obtain ⟨k1, k2, k3, k4, k5, k6, k7⟩ := ih _ _ _ h
    refine ⟨k1, k2, k3, k4, k5, k6, ?_⟩
    rw [k7]
    cases hq : T.rf r with
    | none => rw [hq] at hl; cases hl
    | some l' =>
      rw [hq] at hl
      injection hl with hl
      subst hl
      simp

/-- Only the region, the edges of the element that were missing and its faces are new. -/
theorem mrSetVertices_frame {T T' : Topo} (h : T.Consistent) {r : Nat} {vs : List Nat} (hv : ∀ v ∈ vs, T.sv v = .live)
    (hlen : vs.length = 4 ∨ vs.length = 5 ∨ vs.length = 6 ∨ vs.length = 8) (hr : T.mrSetVertices r vs = .ok T') :
    T'.nr = T.nr ∧ T'.nv = T.nv ∧ (∀ o, o ≠ r → T'.rt o = T.rt o) ∧
    (∀ f, T'.sf f = .live → T.sf f = .live ∨ f ∈ (T'.rf r).getD []) ∧
    ∀ e, T'.se e = .live → T.se e = .live ∨ ∃ c ∈ stdCycles vs, ∃ a b, Next c a b ∧
      (T'.ev e = (some a, some b) ∨ T'.ev e = (some b, some a)) := by
  obtain ⟨ty, P, rows, ht⟩ := tables_ok hlen
  obtain ⟨hcyc, hty⟩ := rows_cycles ht rfl hlen
  obtain ⟨nf, htype⟩ := ht.type
  have hnth : ∀ (i : Int), 0 ≤ i ∧ i < (vs.length : Int) → vs.getD i.toNat 0 ∈ vs := by
    intro i hi
    have : i.toNat < vs.length := by omega
    rw [List.getD_eq_getElem?_getD, List.getElem?_eq_getElem this]
    exact List.getElem_mem this
  have hps := edgeEnds_ok (vs := vs) (ps := P.edges) (fun e he => ⟨(ht.ends e he).2.1, (ht.ends e he).2.2⟩)
  unfold mrSetVertices at hr
  rw [htype] at hr
  obtain ⟨-, -, hr⟩ := Res.bind_eq_ok.1 hr
  obtain ⟨-, -, hr⟩ := Res.bind_eq_ok.1 hr
  rw [Res.bind_ok, ht.table, Res.ofOption_some, Res.bind_ok, hps, Res.bind_ok] at hr
  obtain ⟨⟨T1, red⟩, h1, hr⟩ := Res.bind_eq_ok.1 hr
  obtain ⟨⟨T2, fs⟩, h2, hr⟩ := Res.bind_eq_ok.1 hr
  dsimp only at h2 hr
  unfold mrSetFaces at hr
  obtain ⟨-, -, hr⟩ := Res.bind_eq_ok.1 hr
  obtain ⟨T3, h3, hr⟩ := Res.bind_eq_ok.1 hr
  unfold mrUpdateType at hr
  obtain ⟨l, -, hr⟩ := Res.bind_eq_ok.1 hr
  obtain ⟨s, -, hr⟩ := Res.bind_eq_ok.1 hr
  injection hr with hr
  subst hr
  obtain ⟨a1, a2, a3, a4, a5⟩ := edgesFor_frame _ _ _ _ h (by
    intro p hp
    obtain ⟨e, he, rfl⟩ := List.mem_map.1 hp
    exact ⟨hv _ (hnth _ (ht.ends e he).2.1), hv _ (hnth _ (ht.ends e he).2.2)⟩) h1
  obtain ⟨b1, b2, b3, b4, b5, b6⟩ := stdFaces_frame _ _ _ _ h2
  obtain ⟨c1, c2, c3, c4, c5, c6, c7⟩ := setFacesLoop_frame _ _ _ _ h3
  dsimp only at c1 c2 c3 c4 c5 c6 c7
  rw [upd_same] at c7
  refine ⟨c1.trans (b1.trans a1), c2.trans (b2.trans a2), ?_, ?_, ?_⟩
  · intro o ho
    show upd T3.rt r _ o = _
    rw [upd_ne _ _ ho, c3, b3, a3]
  · intro f hf
    have hf : T3.sf f = .live := hf
    rw [c4] at hf
    rcases b6 f hf with k | k
    · rw [a4] at k; exact Or.inl k
    · right
      show f ∈ (T3.rf r).getD []
      rw [c7]
      simpa using k
  · intro e he
    have he : T3.se e = .live := he
    show _ ∨ ∃ c ∈ _, ∃ a b, _ ∧ (T3.ev e = _ ∨ T3.ev e = _)
    rw [c5, b4] at he
    rw [c6, b5]
    rcases a5 e he with k | ⟨p, hp, k⟩
    · exact Or.inl k
    · right
      obtain ⟨x, hx, rfl⟩ := List.mem_map.1 hp
      obtain ⟨row, hrow, hon⟩ := ht.on x hx
      refine ⟨picks vs row.2.1, by rw [← hcyc]; exact List.mem_map.2 ⟨row, hrow, rfl⟩, ?_⟩
      rcases onFaceB_next (vs := vs) hon with hN | hN
      · exact ⟨_, _, hN, Or.inl k⟩
      · exact ⟨_, _, hN, Or.inr k⟩

end Topo
end MSTK
