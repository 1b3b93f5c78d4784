import Verif.AddGhostModel
import Verif.Props.PBound
import Verif.Props.Queries

/-!
The overlap that `MESH_AddGhost` marks (AddGhostModel.lean): the rings of elements inside a piece.
-/
namespace MSTK
namespace Prt
open File Copy

variable {D : Type}

/-! ### the elements at a vertex -/

section
variable {M : FMesh D} {K : Nat}

theorem edgeHas_iff (hM : M.Sound) {v e : Nat} (hv : v ∈ M.vl) :
    M.T.EdgeHas e v ↔ e ∈ M.el ∧ ((M.T.view.ends e).1 = some v ∨ (M.T.view.ends e).2 = some v) := by
  rw [← hM.cons.mem_ve ((hM.vl.2 v).1 hv), mem_ve hM hv]

theorem faceHas_iff (hM : M.Sound) {e f : Nat} (he : e ∈ M.el) :
    M.T.FaceHas f e ↔ f ∈ M.fl ∧ ∃ p ∈ M.T.view.edges f, p.1 = e := by
  rw [← hM.cons.mem_ef ((hM.el.2 e).1 he), mem_ef hM he]

theorem regionHas_iff (hM : M.Sound) {f r : Nat} (hf : f ∈ M.fl) :
    M.T.RegionHas r f ↔ r ∈ M.rl ∧ ∃ p ∈ M.T.view.faces r, p.1 = f := by
  rw [← hM.cons.mem_fr ((hM.fl.2 f).1 hf), ← mem_regs hM hf]
  unfold regs
  rw [List.mem_append]

/-- `MV_Faces`, `MV_Regions` of a vertex that is in an element -/
theorem around_ok (hM : M.Sound) (hK : K = 2 ∨ K = 3) {v : Nat} (hv : v ∈ M.vl)
    (hne : ∃ x ∈ M.list K, OfElem M K x 0 v) :
    ∃ xs, around M K v = .ok xs ∧ ∀ x, x ∈ xs ↔ x ∈ M.list K ∧ OfElem M K x 0 v := by
  have key : ∃ o : Option (List Nat), (if K = 3 then M.T.mvRegions v else M.T.mvFaces v) = .ok o ∧
      ∀ x, x ∈ o.getD [] ↔ x ∈ M.list K ∧ OfElem M K x 0 v := by
    rcases hK with rfl | rfl
    · obtain ⟨o, h1, _, h3⟩ := Topo.C22_vertex_faces hM.cons ((hM.vl.2 v).1 hv)
      refine ⟨o, by rw [if_neg (by omega)]; exact h1, fun x => ?_⟩
      rw [h3, ofElem_vertex (Or.inl rfl)]
      constructor
      · rintro ⟨e, he, hf⟩
        obtain ⟨e1, e2⟩ := (edgeHas_iff hM hv).1 he
        obtain ⟨f1, f2⟩ := (faceHas_iff hM e1).1 hf
        exact ⟨f1, e, (ofElem_edge (Or.inl rfl)).2 ⟨x, (ofElem_same (Or.inl rfl)).2 rfl, f2⟩, e2⟩
      · rintro ⟨hx, e, h4, h5⟩
        have hel := elem_edge_in hM (Or.inl rfl) hx h4
        obtain ⟨f, f1, f2⟩ := (ofElem_edge (Or.inl rfl)).1 h4
        rw [ofElem_same (Or.inl rfl)] at f1
        subst f1
        exact ⟨e, (edgeHas_iff hM hv).2 ⟨hel, h5⟩, (faceHas_iff hM hel).2 ⟨hx, f2⟩⟩
    · obtain ⟨o, h1, _, h3⟩ := Topo.C22_vertex_regions hM.cons ((hM.vl.2 v).1 hv)
      refine ⟨o, by rw [if_pos rfl]; exact h1, fun x => ?_⟩
      rw [h3, ofElem_vertex (Or.inr rfl)]
      constructor
      · rintro ⟨e, f, he, hf, hr⟩
        obtain ⟨e1, e2⟩ := (edgeHas_iff hM hv).1 he
        obtain ⟨f1, f2⟩ := (faceHas_iff hM e1).1 hf
        obtain ⟨r1, r2⟩ := (regionHas_iff hM f1).1 hr
        exact ⟨r1, e, (ofElem_edge (Or.inr rfl)).2 ⟨f, ofElem_face.2 r2, f2⟩, e2⟩
      · rintro ⟨hx, e, h4, h5⟩
        have hel := elem_edge_in hM (Or.inr rfl) hx h4
        obtain ⟨f, f1, f2⟩ := (ofElem_edge (Or.inr rfl)).1 h4
        have hfl := elem_face_in hM (Or.inr rfl) hx f1
        exact ⟨e, f, (edgeHas_iff hM hv).2 ⟨hel, h5⟩, (faceHas_iff hM hel).2 ⟨hfl, f2⟩,
          (regionHas_iff hM hfl).2 ⟨hx, ofElem_face.1 f1⟩⟩
  obtain ⟨o, h1, h2⟩ := key
  have hr : around M K v = Res.ofOption o := by
    unfold around
    by_cases h3 : K = 3
    · rw [if_pos h3] at h1
      simp only [if_pos h3, h1, Res.bind_ok]
    · rw [if_neg h3] at h1
      simp only [if_neg h3, h1, Res.bind_ok]
  rw [hr]
  cases o with
  | none =>
    obtain ⟨x, hx⟩ := hne
    have := (h2 x).2 hx
    cases this
  | some xs => exact ⟨xs, rfl, h2⟩

end

/-! ### loops -/

/-- a loop that adds to a set of entities -/
theorem loop_adds2 {σ : Type} {step : Nat → σ → Res σ} {B : Nat → Nat → Nat → Prop} {Inv : (Nat → Nat → Prop) → σ → Prop} :
    ∀ (xs : List Nat),
    (∀ x ∈ xs, ∀ A t, Inv A t → ∃ t', step x t = .ok t' ∧ Inv (fun k l => A k l ∨ B x k l) t') →
    ∀ (A : Nat → Nat → Prop) (t : σ), Inv A t → ∃ t', loop step xs t = .ok t' ∧ Inv (fun k l => A k l ∨ ∃ x ∈ xs, B x k l) t'
  | [], _, A, t, h => by
    have e : (fun k l => A k l ∨ ∃ x ∈ ([] : List Nat), B x k l) = A := by funext k l; simp
    rw [e]; exact ⟨t, rfl, h⟩
  | x :: xs, hs, A, t, h => by
    obtain ⟨t1, r1, f1⟩ := hs x (by simp) A t h
    obtain ⟨t2, r2, f2⟩ := loop_adds2 xs (fun y hy => hs y (List.mem_cons_of_mem _ hy)) _ t1 f1
    have e : (fun k l => (A k l ∨ B x k l) ∨ ∃ y ∈ xs, B y k l) = fun k l => A k l ∨ ∃ y ∈ x :: xs, B y k l := by
      funext k l; simp [or_assoc]
    rw [e] at f2
    refine ⟨t2, ?_, f2⟩
    unfold loop
    rw [r1, Res.bind_ok, r2]

/-- a loop that adds to a set of elements -/
theorem loop_adds {σ : Type} {step : Nat → σ → Res σ} {B : Nat → Nat → Prop} {Inv : (Nat → Prop) → σ → Prop} :
    ∀ (xs : List Nat),
    (∀ x ∈ xs, ∀ A t, Inv A t → ∃ t', step x t = .ok t' ∧ Inv (fun y => A y ∨ B x y) t') →
    ∀ (A : Nat → Prop) (t : σ), Inv A t → ∃ t', loop step xs t = .ok t' ∧ Inv (fun y => A y ∨ ∃ x ∈ xs, B x y) t'
  | [], _, A, t, h => by
    have e : (fun y => A y ∨ ∃ x ∈ ([] : List Nat), B x y) = A := by funext y; simp
    rw [e]; exact ⟨t, rfl, h⟩
  | x :: xs, hs, A, t, h => by
    obtain ⟨t1, r1, f1⟩ := hs x (by simp) A t h
    obtain ⟨t2, r2, f2⟩ := loop_adds xs (fun y hy => hs y (List.mem_cons_of_mem _ hy)) _ t1 f1
    have e : (fun y => (A y ∨ B x y) ∨ ∃ z ∈ xs, B z y) = fun y => A y ∨ ∃ z ∈ x :: xs, B z y := by
      funext y; simp [or_assoc]
    rw [e] at f2
    refine ⟨t2, ?_, f2⟩
    unfold loop
    rw [r1, Res.bind_ok, r2]

/-! ### what is marked -/

/-- the data with type `POVERLAP` -/
def asOver (d : PDat) : PDat := { d with ptype := 1 }

/-- what is in `A` and not flagged is overlap; nothing else has changed since `P0` -/
def Overed (P0 par : Nat → Nat → PDat) (A : Nat → Nat → Prop) : Prop :=
  ∀ k l, ((A k l ∧ (P0 k l).onPB = false) → par k l = asOver (P0 k l)) ∧
    (¬ (A k l ∧ (P0 k l).onPB = false) → par k l = P0 k l)

theorem Overed.congr {P0 par : Nat → Nat → PDat} {A B : Nat → Nat → Prop} (h : Overed P0 par A)
    (he : ∀ k l, (P0 k l).onPB = false → (A k l ↔ B k l)) : Overed P0 par B := by
  intro k l
  obtain ⟨h1, h2⟩ := h k l
  refine ⟨fun hb => h1 ⟨(he k l hb.2).2 hb.1, hb.2⟩, fun hb => h2 fun ha => hb ⟨(he k l ha.2).1 ha.1, ha.2⟩⟩

theorem Overed.pb {P0 par : Nat → Nat → PDat} {A : Nat → Nat → Prop} (h : Overed P0 par A) (k l : Nat) :
    (par k l).onPB = (P0 k l).onPB := by
  by_cases hc : A k l ∧ (P0 k l).onPB = false
  · rw [(h k l).1 hc]; rfl
  · rw [(h k l).2 hc]

theorem Overed.over {P0 par : Nat → Nat → PDat} {A : Nat → Nat → Prop} (h : Overed P0 par A) (k l : Nat) :
    Overed P0 (over par k l) (fun k' l' => A k' l' ∨ (k' = k ∧ l' = l)) := by
  unfold Prt.over
  rw [h.pb]
  by_cases hb : (P0 k l).onPB = true
  · rw [if_pos hb]
    refine h.congr fun k' l' hf => ⟨Or.inl, ?_⟩
    rintro (h' | ⟨rfl, rfl⟩)
    · exact h'
    · rw [hb] at hf; cases hf
  · rw [if_neg hb]
    have hb : (P0 k l).onPB = false := by simpa using hb
    intro k' l'
    rw [upd2_at]
    by_cases he : k' = k ∧ l' = l
    · rw [if_pos he]
      obtain ⟨rfl, rfl⟩ := he
      refine ⟨fun _ => ?_, fun hc => absurd ⟨Or.inr ⟨rfl, rfl⟩, hb⟩ hc⟩
      by_cases hc : A k' l' ∧ (P0 k' l').onPB = false
      · rw [(h k' l').1 hc]; rfl
      · rw [(h k' l').2 hc]; rfl
    · rw [if_neg he]
      simp only [he, or_false]
      exact h k' l'

/-- Inside a ring.  `C0`: what the elements before the ring consist of; `bv`: the list of vertices the ring
is about; `A`: what has been gone through. -/
structure Inner (P0 : Nat → Nat → PDat) (C0 : Nat → Nat → Prop) (bv : List Nat) (em : Nat → Bool) (A : Nat → Nat → Prop) (t : LSt) : Prop where
  par : Overed P0 t.par (fun k l => C0 k l ∨ A k l)
  em : t.em = em
  vm : ∀ v, t.vm v = true ↔ v ∈ bv ∨ v ∈ t.nxt
  nxt : ∀ v, v ∈ t.nxt ↔ A 0 v ∧ v ∉ bv

section
variable {P0 : Nat → Nat → PDat} {C0 : Nat → Nat → Prop} {bv : List Nat} {em : Nat → Bool}

theorem Inner.congr {A B : Nat → Nat → Prop} {t : LSt} (h : Inner P0 C0 bv em A t) (he : ∀ k l, A k l ↔ B k l) :
    Inner P0 C0 bv em B t where
  par := h.par.congr fun k l _ => by rw [he]
  em := h.em
  vm := h.vm
  nxt := fun v => by rw [h.nxt, he]

theorem ovV_ok (hbv : ∀ v ∈ bv, (P0 0 v).onPB = true ∨ C0 0 v) {A : Nat → Nat → Prop} {t : LSt}
    (h : Inner P0 C0 bv em A t) (v : Nat) : Inner P0 C0 bv em (fun k l => A k l ∨ (k = 0 ∧ l = v)) (ovV v t) := by
  unfold ovV
  by_cases hm : t.vm v = true
  · rw [if_pos hm]
    have hv := (h.vm v).1 hm
    refine ⟨h.par.congr fun k l hf => ?_, h.em, h.vm, fun w => ?_⟩
    · constructor
      · rintro (h' | h')
        · exact Or.inl h'
        · exact Or.inr (Or.inl h')
      · rintro (h' | h' | ⟨rfl, rfl⟩)
        · exact Or.inl h'
        · exact Or.inr h'
        · rcases hv with hv | hv
          · rcases hbv l hv with hb | hb
            · rw [hb] at hf; cases hf
            · exact Or.inl hb
          · exact Or.inr ((h.nxt l).1 hv).1
    · rw [h.nxt]
      constructor
      · rintro ⟨h1, h2⟩; exact ⟨Or.inl h1, h2⟩
      · rintro ⟨h1 | ⟨_, rfl⟩, h2⟩
        · exact ⟨h1, h2⟩
        · rcases hv with hv | hv
          · exact absurd hv h2
          · exact (h.nxt w).1 hv
  · rw [if_neg hm]
    have hm' : v ∉ bv ∧ v ∉ t.nxt := by
      constructor
      · exact fun hv => hm ((h.vm v).2 (Or.inl hv))
      · exact fun hv => hm ((h.vm v).2 (Or.inr hv))
    refine ⟨(h.par.over 0 v).congr fun k l _ => or_assoc, h.em, fun w => ?_, fun w => ?_⟩
    · show upd t.vm v true w = true ↔ w ∈ bv ∨ w ∈ t.nxt ++ [v]
      rw [List.mem_append, List.mem_singleton]
      by_cases hw : w = v
      · subst hw; rw [upd_same]; simp
      · rw [upd_ne _ _ hw, h.vm]; simp [hw]
    · show w ∈ t.nxt ++ [v] ↔ _
      rw [List.mem_append, List.mem_singleton, h.nxt]
      constructor
      · rintro (⟨h1, h2⟩ | rfl)
        · exact ⟨Or.inl h1, h2⟩
        · exact ⟨Or.inr ⟨rfl, rfl⟩, hm'.1⟩
      · rintro ⟨h1 | ⟨_, rfl⟩, h2⟩
        · exact Or.inl ⟨h1, h2⟩
        · exact Or.inr rfl

theorem Inner.over {A : Nat → Nat → Prop} {t : LSt} (h : Inner P0 C0 bv em A t) {k l : Nat} (hk : k ≠ 0) :
    Inner P0 C0 bv em (fun k' l' => A k' l' ∨ (k' = k ∧ l' = l)) { t with par := over t.par k l } where
  par := (h.par.over k l).congr fun _ _ _ => or_assoc
  em := h.em
  vm := h.vm
  nxt := fun v => by
    show v ∈ t.nxt ↔ _
    rw [h.nxt]
    have : ¬ (0 = k ∧ v = l) := fun h => hk h.1.symm
    simp only [this, or_false]

variable {L : FMesh D} {K : Nat}

theorem ovE_ok (hbv : ∀ v ∈ bv, (P0 0 v).onPB = true ∨ C0 0 v) (hL : L.Sound) {e : Nat} (he : e ∈ L.el)
    {A : Nat → Nat → Prop} {t : LSt} (h : Inner P0 C0 bv em A t) :
    ∃ t', ovE L e t = .ok t' ∧ Inner P0 C0 bv em (fun k l => A k l ∨ OfEdge L e k l) t' := by
  obtain ⟨a, b, hab⟩ := hL.ends e he
  have hq := (Topo.C49_view hL.cons).1
  have hlive := (hL.el.2 e).1 he
  have q0 : L.T.meVertex e false = .ok (some a) := by rw [hq e false hlive, hab]; rfl
  have q1 : L.T.meVertex e true = .ok (some b) := by rw [hq e true hlive, hab]; rfl
  unfold ovE
  rw [Topo.derefE_ok (Topo.alloc_of_live hlive), Res.bind_ok]
  simp only [q0, q1, Res.bind_ok, Res.ofOption_some]
  refine ⟨_, rfl, (ovV_ok hbv (ovV_ok hbv (h.over (k := 1) (l := e) (by omega)) a) b).congr fun k l => ?_⟩
  unfold OfEdge
  rw [hab]
  simp only [Option.some.injEq]
  constructor
  · rintro (((h | h) | ⟨h1, h2⟩) | ⟨h1, h2⟩)
    · exact Or.inl h
    · exact Or.inr (Or.inl h)
    · exact Or.inr (Or.inr ⟨h1, Or.inl h2.symm⟩)
    · exact Or.inr (Or.inr ⟨h1, Or.inr h2.symm⟩)
  · rintro (h | h | ⟨h1, h2 | h2⟩)
    · exact Or.inl (Or.inl (Or.inl h))
    · exact Or.inl (Or.inl (Or.inr h))
    · exact Or.inl (Or.inr ⟨h1, h2.symm⟩)
    · exact Or.inr ⟨h1, h2.symm⟩

/-- the edges of a face, one after the other -/
theorem ovEs_ok (hbv : ∀ v ∈ bv, (P0 0 v).onPB = true ∨ C0 0 v) (hL : L.Sound) {f : Nat} (hf : f ∈ L.fl)
    {A : Nat → Nat → Prop} {t : LSt} (h : Inner P0 C0 bv em A t) :
    ∃ es t', L.T.mfEdges f true none = .ok es ∧ loop (ovE L) es t = .ok t' ∧
      Inner P0 C0 bv em (fun k l => A k l ∨ ∃ p ∈ L.T.view.edges f, OfEdge L p.1 k l) t' := by
  obtain ⟨q1, _⟩ := edges_ask hL hf
  obtain ⟨t', r, i⟩ := loop_adds2 (step := ovE L) (B := OfEdge L) (Inv := Inner P0 C0 bv em) ((L.T.view.edges f).map (·.1))
    (fun x hx A t h => by
      obtain ⟨p, hp, rfl⟩ := List.mem_map.1 hx
      exact ovE_ok hbv hL (hL.edgesLive hf hp) h) A t h
  refine ⟨_, t', q1, r, i.congr fun k l => or_congr_right ?_⟩
  constructor
  · rintro ⟨x, hx, ho⟩
    obtain ⟨p, hp, rfl⟩ := List.mem_map.1 hx
    exact ⟨p, hp, ho⟩
  · rintro ⟨p, hp, ho⟩
    exact ⟨p.1, List.mem_map.2 ⟨p, hp, rfl⟩, ho⟩

theorem ovF_ok (hbv : ∀ v ∈ bv, (P0 0 v).onPB = true ∨ C0 0 v) (hL : L.Sound) {f : Nat} (hf : f ∈ L.fl)
    {A : Nat → Nat → Prop} {t : LSt} (h : Inner P0 C0 bv em A t) :
    ∃ t', ovF L f t = .ok t' ∧ Inner P0 C0 bv em (fun k l => A k l ∨ OfFace L f k l) t' := by
  obtain ⟨es, t', q1, r, i⟩ := ovEs_ok hbv hL hf (h.over (k := 2) (l := f) (by omega))
  unfold ovF
  rw [Topo.derefF_ok (Topo.alloc_of_live ((hL.fl.2 f).1 hf)), Res.bind_ok]
  simp only [q1, Res.bind_ok]
  exact ⟨t', r, i.congr fun k l => or_assoc⟩

end

/-! ### elements -/

/-- Inside a ring: `E0` the elements that were marked before, `E` those that are now. -/
structure Marked (L : FMesh D) (K : Nat) (P0 : Nat → Nat → PDat) (E0 : Nat → Prop) (bv : List Nat) (E : Nat → Prop) (t : LSt) :
    Prop where
  more : ∀ x, E0 x → E x
  elem : ∀ x, E x → x ∈ L.list K
  em : ∀ x, t.em x = true ↔ E x
  inner : Inner P0 (fun k l => ∃ x, E0 x ∧ OfElem L K x k l) bv t.em (fun k l => ∃ x, E x ∧ ¬ E0 x ∧ OfElem L K x k l) t

section
variable {P0 : Nat → Nat → PDat} {bv : List Nat} {L : FMesh D} {K : Nat} {E0 : Nat → Prop}

theorem ovElem_ok (hL : L.Sound) (hK : K = 2 ∨ K = 3) (h0 : ∀ x ∈ L.list K, (P0 K x).onPB = false)
    (hbv : ∀ v ∈ bv, (P0 0 v).onPB = true ∨ ∃ x, E0 x ∧ OfElem L K x 0 v) {x : Nat} (hx : x ∈ L.list K)
    {E : Nat → Prop} {t : LSt} (h : Marked L K P0 E0 bv E t) :
    ∃ t', ovElem L K x t = .ok t' ∧ Marked L K P0 E0 bv (fun y => E y ∨ y = x) t' := by
  unfold ovElem
  by_cases hm : t.em x = true
  · rw [if_pos hm]
    have e : (fun y => E y ∨ y = x) = E := by
      funext y
      refine propext ⟨?_, Or.inl⟩
      rintro (h' | rfl)
      · exact h'
      · exact (h.em y).1 hm
    rw [e]; exact ⟨t, rfl, h⟩
  · rw [if_neg hm]
    have hE : ¬ E x := fun he => hm ((h.em x).2 he)
    have hE0 : ¬ E0 x := fun he => hE (h.more x he)
    have hov : over t.par K x = upd2 t.par K x { t.par K x with ptype := 1 } := by
      unfold Prt.over
      rw [h.inner.par.pb, h0 x hx, if_neg (by simp)]
    have hin := h.inner.over (k := K) (l := x) (by omega)
    rw [hov] at hin
    have hin' : Inner P0 (fun k l => ∃ x, E0 x ∧ OfElem L K x k l) bv (upd t.em x true)
        (fun k l => (∃ x, E x ∧ ¬ E0 x ∧ OfElem L K x k l) ∨ (k = K ∧ l = x))
        { t with par := upd2 t.par K x { t.par K x with ptype := 1 }, em := upd t.em x true } :=
      ⟨hin.par, rfl, hin.vm, hin.nxt⟩
    have fin : ∀ {t' : LSt}, Inner P0 (fun k l => ∃ x, E0 x ∧ OfElem L K x k l) bv (upd t.em x true)
        (fun k l => (∃ x, E x ∧ ¬ E0 x ∧ OfElem L K x k l) ∨ OfElem L K x k l) t' →
        Marked L K P0 E0 bv (fun y => E y ∨ y = x) t' := by
      intro t' hi
      refine ⟨fun y hy => Or.inl (h.more y hy), ?_, ?_, ?_⟩
      · rintro y (hy | rfl)
        · exact h.elem y hy
        · exact hx
      · intro y
        rw [hi.em]
        by_cases hy : y = x
        · subst hy; rw [upd_same]; simp
        · rw [upd_ne _ _ hy, h.em]; simp [hy]
      · rw [← hi.em] at hi
        refine hi.congr fun k l => ?_
        constructor
        · rintro (⟨y, h1, h2, h3⟩ | ho)
          · exact ⟨y, Or.inl h1, h2, h3⟩
          · exact ⟨x, Or.inr rfl, hE0, ho⟩
        · rintro ⟨y, h1 | rfl, h2, h3⟩
          · exact Or.inl ⟨y, h1, h2, h3⟩
          · exact Or.inr h3
    rcases hK with rfl | rfl
    · rw [if_neg (by omega)]
      obtain ⟨es, t', q1, r, i⟩ := ovEs_ok hbv hL hx hin'
      simp only [q1, Res.bind_ok]
      refine ⟨t', r, fin (i.congr fun k l => ?_)⟩
      rw [or_assoc]
      unfold OfElem
      rw [if_neg (by omega)]
      rfl
    · rw [if_pos rfl]
      obtain ⟨q1, _⟩ := faces_ask hL hx
      obtain ⟨t', r, i⟩ := loop_adds2 (step := ovF L) (B := OfFace L)
        (Inv := Inner P0 (fun k l => ∃ x, E0 x ∧ OfElem L 3 x k l) bv (upd t.em x true)) ((L.T.view.faces x).map (·.1))
        (fun y hy A t h => by
          obtain ⟨p, hp, rfl⟩ := List.mem_map.1 hy
          exact ovF_ok hbv hL (hL.facesLive hx hp) h) _ _ hin'
      simp only [q1, Res.bind_ok]
      refine ⟨t', r, fin (i.congr fun k l => ?_)⟩
      rw [or_assoc]
      refine or_congr_right ?_
      unfold OfElem
      rw [if_pos rfl]
      unfold OfRegion
      refine or_congr_right ?_
      constructor
      · rintro ⟨y, hy, ho⟩
        obtain ⟨p, hp, rfl⟩ := List.mem_map.1 hy
        exact ⟨p, hp, ho⟩
      · rintro ⟨p, hp, ho⟩
        exact ⟨p.1, List.mem_map.2 ⟨p, hp, rfl⟩, ho⟩

/-- one ring -/
theorem ovRing_ok (hL : L.Sound) (hK : K = 2 ∨ K = 3) (h0 : ∀ x ∈ L.list K, (P0 K x).onPB = false)
    (hbv : ∀ v ∈ bv, (P0 0 v).onPB = true ∨ ∃ x, E0 x ∧ OfElem L K x 0 v) (hvl : ∀ v ∈ bv, v ∈ L.vl)
    (hne : ∀ v ∈ bv, ∃ x ∈ L.list K, OfElem L K x 0 v) {E : Nat → Prop} {t : LSt} (h : Marked L K P0 E0 bv E t) :
    ∃ t', loop (ovVertex L K) bv t = .ok t' ∧
      Marked L K P0 E0 bv (fun x => E x ∨ ∃ v ∈ bv, x ∈ L.list K ∧ OfElem L K x 0 v) t' := by
  refine loop_adds (step := ovVertex L K) (B := fun v x => x ∈ L.list K ∧ OfElem L K x 0 v)
    (Inv := Marked L K P0 E0 bv) bv (fun v hv A t h => ?_) E t h
  obtain ⟨xs, r, hxs⟩ := around_ok hL hK (hvl v hv) (hne v hv)
  obtain ⟨t', r', h'⟩ := loop_adds (step := ovElem L K) (B := fun x y => y = x) (Inv := Marked L K P0 E0 bv) xs
    (fun x hx A t h => ovElem_ok hL hK h0 hbv ((hxs x).1 hx).1 h) A t h
  unfold ovVertex
  rw [r, Res.bind_ok]
  refine ⟨t', r', ?_⟩
  have e : (fun y => A y ∨ ∃ x ∈ xs, y = x) = fun y => A y ∨ y ∈ L.list K ∧ OfElem L K y 0 v := by
    funext y
    refine propext (or_congr_right ?_)
    rw [← hxs]; simp
  rwa [e] at h'

/-- the elements the rings around flagged vertices mark -/
def Inward (L : FMesh D) (K : Nat) (B : Nat → Prop) : Nat → Nat → Prop
  | 0, _ => False
  | n+1, x => Inward L K B n x ∨ x ∈ L.list K ∧ ∃ v, OfElem L K x 0 v ∧ (B v ∨ ∃ y, Inward L K B n y ∧ OfElem L K y 0 v)

theorem Inward.elem {B : Nat → Prop} : ∀ {n x : Nat}, Inward L K B n x → x ∈ L.list K
  | 0, _, h => h.elim
  | _+1, _, h => by
    rcases h with h | h
    · exact h.elem
    · exact h.1

theorem elem_vertex_in (hL : L.Sound) (hK : K = 2 ∨ K = 3) {x v : Nat} (hx : x ∈ L.list K) (h : OfElem L K x 0 v) :
    v ∈ L.vl := by
  obtain ⟨e, h1, h2⟩ := (ofElem_vertex hK).1 h
  have he := elem_edge_in hL hK hx h1
  obtain ⟨a, b, hab⟩ := hL.ends e he
  obtain ⟨ha, hb⟩ := hL.endsLive he hab
  rw [hab] at h2
  simp only [Option.some.injEq] at h2
  rcases h2 with rfl | rfl
  · exact ha
  · exact hb

/-- the rings -/
theorem ovRings_ok (hL : L.Sound) (hK : K = 2 ∨ K = 3) (h0 : ∀ x ∈ L.list K, (P0 K x).onPB = false)
    (hne : ∀ v ∈ L.vl, (P0 0 v).onPB = true → ∃ x ∈ L.list K, OfElem L K x 0 v) {B : Nat → Prop}
    (hB : ∀ v, B v ↔ v ∈ L.vl ∧ (P0 0 v).onPB = true) : ∀ (n m : Nat) (bv : List Nat) (t : LSt),
    (∀ v ∈ bv, B v ∨ ∃ x, Inward L K B m x ∧ OfElem L K x 0 v) →
    (∀ v, (B v ∨ ∃ x, Inward L K B m x ∧ OfElem L K x 0 v) →
      v ∈ bv ∨ ∀ x ∈ L.list K, OfElem L K x 0 v → Inward L K B m x) →
    (∀ x, t.em x = true ↔ Inward L K B m x) →
    (∀ v, t.vm v = true ↔ v ∈ bv) →
    Overed P0 t.par (fun k l => ∃ x, Inward L K B m x ∧ OfElem L K x k l) →
    ∃ t', ovRings L K n bv t = .ok t' ∧
      Overed P0 t'.par (fun k l => ∃ x, Inward L K B (m + n) x ∧ OfElem L K x k l)
  | 0, m, bv, t, _, _, _, _, h5 => ⟨t, rfl, h5⟩
  | n+1, m, bv, t, h1, h2, h3, h4, h5 => by
    have hbv : ∀ v ∈ bv, (P0 0 v).onPB = true ∨ ∃ x, Inward L K B m x ∧ OfElem L K x 0 v := by
      intro v hv
      rcases h1 v hv with h | h
      · exact Or.inl ((hB v).1 h).2
      · exact Or.inr h
    have hvl : ∀ v ∈ bv, v ∈ L.vl := by
      intro v hv
      rcases h1 v hv with h | ⟨x, hx, ho⟩
      · exact ((hB v).1 h).1
      · exact elem_vertex_in hL hK hx.elem ho
    have hne' : ∀ v ∈ bv, ∃ x ∈ L.list K, OfElem L K x 0 v := by
      intro v hv
      rcases h1 v hv with h | ⟨x, hx, ho⟩
      · exact hne v ((hB v).1 h).1 ((hB v).1 h).2
      · exact ⟨x, hx.elem, ho⟩
    have hstart : Marked L K P0 (Inward L K B m) bv (Inward L K B m) { t with nxt := [] } := by
      refine ⟨fun _ h => h, fun x hx => hx.elem, h3, ?_⟩
      refine ⟨h5.congr fun k l _ => ?_, rfl, fun v => ?_, fun v => ?_⟩
      · constructor
        · exact Or.inl
        · rintro (h | ⟨x, h, h', _⟩)
          · exact h
          · exact absurd h h'
      · rw [show ({ t with nxt := [] } : LSt).vm v = t.vm v from rfl, h4]; simp
      · constructor
        · intro h; cases h
        · rintro ⟨⟨x, h, h', _⟩, _⟩; exact absurd h h'
    obtain ⟨t1, r1, k1⟩ := ovRing_ok hL hK h0 hbv hvl hne' hstart
    -- the elements are those of the next ring
    have hE : ∀ x, (Inward L K B m x ∨ ∃ v ∈ bv, x ∈ L.list K ∧ OfElem L K x 0 v) ↔ Inward L K B (m+1) x := by
      intro x
      constructor
      · rintro (h | ⟨v, hv, hx, ho⟩)
        · exact Or.inl h
        · exact Or.inr ⟨hx, v, ho, h1 v hv⟩
      · rintro (h | ⟨hx, v, ho, hw⟩)
        · exact Or.inl h
        · rcases h2 v hw with hv | hv
          · exact Or.inr ⟨v, hv, hx, ho⟩
          · exact Or.inl (hv x hx ho)
    have e : (fun x => Inward L K B m x ∨ ∃ v ∈ bv, x ∈ L.list K ∧ OfElem L K x 0 v) = Inward L K B (m+1) := by
      funext x; exact propext (hE x)
    rw [e] at k1
    have hnxt := k1.inner.nxt
    obtain ⟨t2, r2, k2⟩ := ovRings_ok hL hK h0 hne hB n (m+1) t1.nxt
      { t1 with vm := fun v => if v ∈ bv then false else t1.vm v }
      (fun v hv => by
        obtain ⟨⟨x, h, _, ho⟩, _⟩ := (hnxt v).1 hv
        exact Or.inr ⟨x, h, ho⟩)
      (fun v hv => by
        by_cases hb : v ∈ bv
        · exact Or.inr fun x hx ho => (hE x).1 (Or.inr ⟨v, hb, hx, ho⟩)
        · have hold : (B v ∨ ∃ x, Inward L K B m x ∧ OfElem L K x 0 v) →
              ∀ x ∈ L.list K, OfElem L K x 0 v → Inward L K B (m+1) x := by
            intro hw x hx ho
            rcases h2 v hw with h | h
            · exact absurd h hb
            · exact Or.inl (h x hx ho)
          rcases hv with hv | ⟨x, hx, ho⟩
          · exact Or.inr (hold (Or.inl hv))
          · by_cases hx0 : Inward L K B m x
            · exact Or.inr (hold (Or.inr ⟨x, hx0, ho⟩))
            · exact Or.inl ((hnxt v).2 ⟨⟨x, hx, hx0, ho⟩, hb⟩))
      k1.em
      (fun v => by
        show (if v ∈ bv then false else t1.vm v) = true ↔ _
        by_cases hb : v ∈ bv
        · rw [if_pos hb]
          constructor
          · intro h; cases h
          · intro h; exact absurd hb ((hnxt v).1 h).2
        · rw [if_neg hb, k1.inner.vm]
          simp [hb])
      (k1.inner.par.congr fun k l _ => by
        constructor
        · rintro (⟨x, h, ho⟩ | ⟨x, h, _, ho⟩)
          · exact ⟨x, Or.inl h, ho⟩
          · exact ⟨x, h, ho⟩
        · rintro ⟨x, h, ho⟩
          by_cases hx0 : Inward L K B m x
          · exact Or.inl ⟨x, hx0, ho⟩
          · exact Or.inr ⟨x, h, hx0, ho⟩)
    refine ⟨t2, ?_, ?_⟩
    · unfold ovRings
      rw [r1, Res.bind_ok]
      exact r2
    · rw [show m + (n+1) = m + 1 + n by omega]; exact k2

end

end Prt
end MSTK
