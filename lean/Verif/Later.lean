import Verif.RegionNew
import Verif.BuildModel

/-!
Making faces and regions reuses no deleted entity and touches the state of none that was there.
-/
namespace MSTK
namespace Topo

/-- Nothing that had been made before `T` has come or gone in `T'`. -/
structure Later (T T' : Topo) : Prop where
  ne : T.ne ≤ T'.ne
  nf : T.nf ≤ T'.nf
  nr : T.nr ≤ T'.nr
  se : ∀ x, x < T.ne → T'.se x = T.se x
  sf : ∀ x, x < T.nf → T'.sf x = T.sf x
  sr : ∀ x, x < T.nr → T'.sr x = T.sr x

theorem Later.refl (T : Topo) : Later T T :=
  ⟨Nat.le_refl _, Nat.le_refl _, Nat.le_refl _, fun _ _ => rfl, fun _ _ => rfl, fun _ _ => rfl⟩

theorem Later.trans {T T1 T2 : Topo} (g : Later T T1) (k : Later T1 T2) : Later T T2 :=
  ⟨Nat.le_trans g.ne k.ne, Nat.le_trans g.nf k.nf, Nat.le_trans g.nr k.nr,
    fun x h => (k.se x (Nat.lt_of_lt_of_le h g.ne)).trans (g.se x h),
    fun x h => (k.sf x (Nat.lt_of_lt_of_le h g.nf)).trans (g.sf x h),
    fun x h => (k.sr x (Nat.lt_of_lt_of_le h g.nr)).trans (g.sr x h)⟩

theorem Later.same {T T' : Topo} (h1 : T'.ne = T.ne) (h2 : T'.nf = T.nf) (h3 : T'.nr = T.nr) (h4 : T'.se = T.se)
    (h5 : T'.sf = T.sf) (h6 : T'.sr = T.sr) : Later T T' :=
  ⟨Nat.le_of_eq h1.symm, Nat.le_of_eq h2.symm, Nat.le_of_eq h3.symm, fun x _ => by rw [h4], fun x _ => by rw [h5],
    fun x _ => by rw [h6]⟩

theorem edgeFor_later {T T' : Topo} {a b : Nat} {p : Nat × Bool} (hr : edgeFor T a b = .ok (T', p)) :
    Later T T' ∧ T'.nf = T.nf ∧ T'.nr = T.nr := by
  unfold edgeFor at hr
  obtain ⟨o, -, hr⟩ := Res.bind_eq_ok.1 hr
  cases o with
  | some e =>
    obtain ⟨v, -, hr⟩ := Res.bind_eq_ok.1 hr
    injection hr with hr
    injection hr with h1 h2
    subst h1
    exact ⟨Later.refl _, rfl, rfl⟩
  | none =>
    dsimp only at hr
    obtain ⟨T1, h1, hr⟩ := Res.bind_eq_ok.1 hr
    obtain ⟨T2, h2, hr⟩ := Res.bind_eq_ok.1 hr
    injection hr with hr
    injection hr with hr _
    subst hr
    unfold meSetVertex at h1 h2
    obtain ⟨-, -, h1⟩ := Res.bind_eq_ok.1 h1
    obtain ⟨-, -, h2⟩ := Res.bind_eq_ok.1 h2
    unfold mvAddEdge at h1 h2
    obtain ⟨-, -, h1⟩ := Res.bind_eq_ok.1 h1
    obtain ⟨-, -, h2⟩ := Res.bind_eq_ok.1 h2
    injection h1 with h1
    injection h2 with h2
    subst h1
    subst h2
    refine ⟨⟨Nat.le_succ _, Nat.le_refl _, Nat.le_refl _, fun x hx => ?_, fun _ _ => rfl, fun _ _ => rfl⟩, rfl, rfl⟩
    exact upd_ne _ _ (Nat.ne_of_lt hx)

theorem edgesFor_later : ∀ (ps : List (Nat × Nat)) (T T' : Topo) (es : List (Nat × Bool)), edgesFor ps T = .ok (T', es) →
    Later T T' ∧ T'.nf = T.nf ∧ T'.nr = T.nr := by
  intro ps
  induction ps with
  | nil =>
    intro T T' es hr
    injection hr with hr
    injection hr with h1 h2
    subst h1
    exact ⟨Later.refl _, rfl, rfl⟩
  | cons p ps ih =>
    obtain ⟨a, b⟩ := p
    intro T T' es hr
    unfold edgesFor at hr
    obtain ⟨⟨T1, x⟩, h1, hr⟩ := Res.bind_eq_ok.1 hr
    obtain ⟨⟨T2, y⟩, h2, hr⟩ := Res.bind_eq_ok.1 hr
    injection hr with hr
    injection hr with hr _
    subst hr
    obtain ⟨k1, k2, k3⟩ := edgeFor_later h1
    obtain ⟨q1, q2, q3⟩ := ih _ _ _ h2
    exact ⟨k1.trans q1, q2.trans k2, q3.trans k3⟩

theorem setEdgesLoop_later {f : Nat} : ∀ (es : List (Nat × Bool)) (i : Nat) (T T' : Topo), setEdgesLoop f i es T = .ok T' →
    T'.ne = T.ne ∧ T'.nf = T.nf ∧ T'.nr = T.nr ∧ T'.se = T.se ∧ T'.sf = T.sf ∧ T'.sr = T.sr := by
  intro es
  induction es with
  | nil => intro i T T' h; injection h with h; subst h; exact ⟨rfl, rfl, rfl, rfl, rfl, rfl⟩
  | cons p es ih =>
    obtain ⟨e, d⟩ := p
    intro i T T' h
    unfold setEdgesLoop at h
    obtain ⟨w, -, h⟩ := Res.bind_eq_ok.1 h
    obtain ⟨l, -, h⟩ := Res.bind_eq_ok.1 h
    obtain ⟨T1, h1, h⟩ := Res.bind_eq_ok.1 h
    unfold meAddFace at h1
    obtain ⟨-, -, h1⟩ := Res.bind_eq_ok.1 h1
    injection h1 with h1
    subst h1
    obtain ⟨k1, k2, k3, k4, k5, k6⟩ := ih _ _ _ h
    exact ⟨k1, k2, k3, k4, k5, k6⟩

theorem newFace_later {T T' : Topo} {es : List (Nat × Bool)} (h1 : T.mfNew.1.mfSetEdges T.mfNew.2 es = .ok T') :
    Later T T' ∧ T'.nf = T.nf + 1 ∧ T'.nr = T.nr := by
  unfold mfSetEdges at h1
  obtain ⟨-, -, h1⟩ := Res.bind_eq_ok.1 h1
  obtain ⟨k1, k2, k3, k4, k5, k6⟩ := setEdgesLoop_later _ _ _ _ h1
  refine ⟨⟨Nat.le_of_eq k1.symm, ?_, Nat.le_of_eq k3.symm, fun x _ => by rw [k4]; rfl, fun x hx => ?_,
    fun x _ => by rw [k6]; rfl⟩, k2, k3⟩
  · rw [k2]; exact Nat.le_succ _
  · rw [k5]; exact upd_ne _ _ (Nat.ne_of_lt hx)

theorem addFace_later {T T' : Topo} {c : List Nat} (h : T.addFace c = .ok T') :
    Later T T' ∧ T'.nf = T.nf + 1 ∧ T'.nr = T.nr := by
  unfold addFace mfSetVertices at h
  obtain ⟨-, -, h1⟩ := Res.bind_eq_ok.1 h
  split at h1
  · cases h1
  obtain ⟨⟨T2, es2⟩, h2, h3⟩ := Res.bind_eq_ok.1 h1
  dsimp only at h3
  obtain ⟨k1, k2, k3⟩ := edgesFor_later _ _ _ _ h2
  unfold mfSetEdges at h3
  obtain ⟨-, -, h3⟩ := Res.bind_eq_ok.1 h3
  obtain ⟨q1, q2, q3, q4, q5, q6⟩ := setEdgesLoop_later _ _ _ _ h3
  have g : Later T T.mfNew.1 := ⟨Nat.le_refl _, Nat.le_succ _, Nat.le_refl _, fun _ _ => rfl,
    fun x hx => upd_ne _ _ (Nat.ne_of_lt hx), fun _ _ => rfl⟩
  exact ⟨(g.trans k1).trans (Later.same q1 q2 q3 q4 q5 q6), q2.trans k2, q3.trans k3⟩

theorem stdFaces_later {vs : List Nat} {red : List (Nat × Bool)} : ∀ (xs : List (List (Int × Int) × List Int × Int)) (T T' : Topo)
    (fs : List (Nat × Bool)), stdFaces vs red xs T = .ok (T', fs) → Later T T' ∧ T'.nr = T.nr := by
  intro xs
  induction xs with
  | nil =>
    intro T T' fs h
    injection h with h
    injection h with h _
    subst h
    exact ⟨Later.refl _, rfl⟩
  | cons x xs ih =>
    intro T T' fs h
    unfold stdFaces at h
    obtain ⟨⟨T1, p⟩, h1, h⟩ := Res.bind_eq_ok.1 h
    obtain ⟨⟨T2, ps⟩, h2, h⟩ := Res.bind_eq_ok.1 h
    injection h with h
    injection h with h hp
    dsimp only at h hp
    subst h
    subst hp
    obtain ⟨q1, q2⟩ := ih _ _ _ h2
    have : Later T T1 ∧ T1.nr = T.nr := by
      unfold stdFace at h1
      obtain ⟨es, -, hr⟩ := Res.bind_eq_ok.1 h1
      obtain ⟨o, -, hr⟩ := Res.bind_eq_ok.1 hr
      cases o with
      | none =>
        dsimp only at hr
        obtain ⟨T5, h5, hr⟩ := Res.bind_eq_ok.1 hr
        injection hr with hr
        injection hr with hr hp
        subst hr
        obtain ⟨k1, -, k3⟩ := newFace_later h5
        exact ⟨k1, k3⟩
      | some f =>
        dsimp only at hr
        obtain ⟨i0, -, hr⟩ := Res.bind_eq_ok.1 hr
        obtain ⟨i1, -, hr⟩ := Res.bind_eq_ok.1 hr
        obtain ⟨a, -, hr⟩ := Res.bind_eq_ok.1 hr
        obtain ⟨b, -, hr⟩ := Res.bind_eq_ok.1 hr
        obtain ⟨d, -, hr⟩ := Res.bind_eq_ok.1 hr
        injection hr with hr
        injection hr with hr hp
        subst hr
        exact ⟨Later.refl _, rfl⟩
    exact ⟨this.1.trans q1, q2.trans this.2⟩

theorem setFacesLoop_later {r : Nat} : ∀ (fs : List (Nat × Bool)) (i : Nat) (T T' : Topo), setFacesLoop r i fs T = .ok T' →
    T'.ne = T.ne ∧ T'.nf = T.nf ∧ T'.nr = T.nr ∧ T'.se = T.se ∧ T'.sf = T.sf ∧ T'.sr = T.sr := by
  intro fs
  induction fs with
  | nil =>
    intro i T T' h
    injection h with h
    subst h
    exact ⟨rfl, rfl, rfl, rfl, rfl, rfl⟩
  | cons p fs ih =>
    obtain ⟨f, d⟩ := p
    intro i T T' h
    unfold setFacesLoop at h
    obtain ⟨w, -, h⟩ := Res.bind_eq_ok.1 h
    obtain ⟨l, hl, h⟩ := Res.bind_eq_ok.1 h
    obtain ⟨T1, h1, h⟩ := Res.bind_eq_ok.1 h
    unfold mfAddRegion at h1
    obtain ⟨-, -, h1⟩ := Res.bind_eq_ok.1 h1
    injection h1 with h1
    subst h1
    obtain ⟨k1, k2, k3, k4, k5, k6⟩ := ih _ _ _ h
    exact ⟨k1, k2, k3, k4, k5, k6⟩

theorem addRegion_later {T T' : Topo} {vs : List Nat} (h : T.addRegion vs = .ok T') : Later T T' ∧ T'.nr = T.nr + 1 := by
  unfold addRegion mrSetVertices at h
  obtain ⟨-, -, hr⟩ := Res.bind_eq_ok.1 h
  obtain ⟨-, -, hr⟩ := Res.bind_eq_ok.1 hr
  obtain ⟨ty, -, hr⟩ := Res.bind_eq_ok.1 hr
  obtain ⟨rows, -, hr⟩ := Res.bind_eq_ok.1 hr
  obtain ⟨ps, -, hr⟩ := Res.bind_eq_ok.1 hr
  obtain ⟨⟨T1, red⟩, h1, hr⟩ := Res.bind_eq_ok.1 hr
  obtain ⟨⟨T2, fs⟩, h2, hr⟩ := Res.bind_eq_ok.1 hr
  dsimp only at h2 hr
  unfold mrSetFaces at hr
  obtain ⟨-, -, hr⟩ := Res.bind_eq_ok.1 hr
  obtain ⟨T3, h3, hr⟩ := Res.bind_eq_ok.1 hr
  unfold mrUpdateType at hr
  obtain ⟨l, -, hr⟩ := Res.bind_eq_ok.1 hr
  obtain ⟨s, -, hr⟩ := Res.bind_eq_ok.1 hr
  injection hr with hr
  subst hr
  obtain ⟨k1, k2, k3⟩ := edgesFor_later _ _ _ _ h1
  obtain ⟨l1, l2⟩ := stdFaces_later _ _ _ _ h2
  obtain ⟨q1, q2, q3, q4, q5, q6⟩ := setFacesLoop_later _ _ _ _ h3
  have g : Later T T.mrNew.1 := ⟨Nat.le_refl _, Nat.le_refl _, Nat.le_succ _, fun _ _ => rfl, fun _ _ => rfl,
    fun x hx => upd_ne _ _ (Nat.ne_of_lt hx)⟩
  exact ⟨((g.trans k1).trans l1).trans (Later.same q1 q2 q3 q4 q5 q6), q3.trans (l2.trans k3)⟩

theorem addFaces_later : ∀ (cs : List (List Nat)) {T T' : Topo}, addFaces cs T = .ok T' → Later T T' := by
  intro cs
  induction cs with
  | nil => intro T T' h; injection h with h; subst h; exact Later.refl _
  | cons c cs ih =>
    intro T T' h
    obtain ⟨T1, h1, h2⟩ := Res.bind_eq_ok.1 (show (T.addFace c >>= fun T => addFaces cs T) = .ok T' from h)
    exact (addFace_later h1).1.trans (ih h2)

theorem addRegions_later : ∀ (cs : List (List Nat)) {T T' : Topo}, addRegions cs T = .ok T' → Later T T' := by
  intro cs
  induction cs with
  | nil => intro T T' h; injection h with h; subst h; exact Later.refl _
  | cons c cs ih =>
    intro T T' h
    obtain ⟨T1, h1, h2⟩ := Res.bind_eq_ok.1 (show (T.addRegion c >>= fun T => addRegions cs T) = .ok T' from h)
    exact (addRegion_later h1).1.trans (ih h2)

end Topo
end MSTK
