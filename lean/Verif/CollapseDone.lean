import Verif.CollapseMid

/-!
Helper lemmas for C65 (collapse of an edge): the second half of the routine.
-/
namespace MSTK
namespace Topo

theorem faceHas_edges {T : Topo} {f x : Nat} : T.FaceHas f x ↔ T.sf f = .live ∧ x ∈ (T.edgesOf f).map (·.1) := by
  rw [faceHas_fe, edgesOf_map_fst]

section
variable {T T3 : Topo} {A : Labels} {topoflag : Bool} {e u v : Nat}

theorem Drawn.off_edges (D : Drawn T T3 e u v) {f : Nat} (hf : ¬ T.FaceHas f e) : T3.edgesOf f = T.edgesOf f := by
  obtain ⟨h1, h2⟩ := D.off f hf
  unfold edgesOf; rw [h1, h2]

theorem Drawn.faceHas (D : Drawn T T3 e u v) {f x : Nat} :
    T3.FaceHas f x ↔ T.FaceHas f x ∧ ¬ T.Flattened e f ∧ x ≠ e := by
  by_cases hfl : T.Flattened e f
  · constructor
    · intro hc; have := hc.1; rw [D.flat f hfl] at this; cases this
    · rintro ⟨-, hc, -⟩; exact absurd hfl hc
  · rw [faceHas_edges, D.sf f hfl, faceHas_edges]
    by_cases hfe : T.FaceHas f e
    · rw [((D.on f hfe hfl).perm.map (·.1)).mem_iff]
      simp only [List.mem_map, List.mem_filter, decide_eq_true_eq]
      constructor
      · rintro ⟨h1, q, ⟨h2, h3⟩, rfl⟩; exact ⟨⟨h1, q, h2, rfl⟩, hfl, h3⟩
      · rintro ⟨⟨h1, q, h2, rfl⟩, -, h3⟩; exact ⟨h1, q, ⟨h2, h3⟩, rfl⟩
    · rw [D.off_edges hfe]
      constructor
      · rintro ⟨h1, h2⟩
        refine ⟨⟨h1, h2⟩, hfl, ?_⟩
        rintro rfl
        exact hfe (faceHas_edges.2 ⟨h1, h2⟩)
      · rintro ⟨h, -, -⟩; exact h

theorem ends_repl {p : Nat → Option Nat × Option Nat} {q : Nat → Option Nat × Option Nat} {x w : Nat}
    (hne : u ≠ v) (h : q x = repl u v (p x)) : ends q x w ↔ (ends p x w ∧ w ≠ u) ∨ (w = v ∧ ends p x u) := by
  unfold ends
  rw [h]
  unfold repl
  rcases hp : p x with ⟨a, b⟩
  dsimp only
  constructor
  · rintro (h1 | h1)
    · split at h1
      · rename_i ha; exact Or.inr ⟨(Option.some.inj h1).symm, Or.inl ha⟩
      · rename_i ha; exact Or.inl ⟨Or.inl h1, fun hc => ha (by rw [h1, hc])⟩
    · split at h1
      · rename_i ha; exact Or.inr ⟨(Option.some.inj h1).symm, Or.inr ha⟩
      · rename_i ha; exact Or.inl ⟨Or.inr h1, fun hc => ha (by rw [h1, hc])⟩
  · rintro (⟨h1 | h1, h2⟩ | ⟨rfl, h1 | h1⟩)
    · left; rw [if_neg (by rw [h1]; simpa using h2)]; exact h1
    · right; rw [if_neg (by rw [h1]; simpa using h2)]; exact h1
    · left; rw [if_pos h1]
    · right; rw [if_pos h1]

theorem Drawn.edgeHas (D : Drawn T T3 e u v) (hne : u ≠ v) {x w : Nat} :
    T3.EdgeHas x w ↔ (T.EdgeHas x w ∧ w ≠ u) ∨ (w = v ∧ T.EdgeHas x u) := by
  rw [EdgeHas_iff, EdgeHas_iff, EdgeHas_iff, D.se]
  by_cases hx : T.se x = .live
  · rw [ends_repl hne (D.ev x hx)]
    simp [hx]
  · simp [hx]

theorem Drawn.loops (h : T.Consistent) (C : T.Collapsible A topoflag e u v) (D : Drawn T T3 e u v) {f : Nat}
    {vs : List Nat} (hf : T3.sf f = .live) (hl : T.Loop f vs) : ∃ vs', vs' ~r drawnTo u v vs ∧ T3.Loop f vs' := by
  have hnf : ¬ T.Flattened e f := fun hc => by rw [D.flat f hc] at hf; cases hf
  have hfT : T.sf f = .live := by rw [← D.sf f hnf]; exact hf
  obtain ⟨l, g1, g2, g3⟩ := hl.edgesOf h hfT
  have hlive := h.fedgesLive hfT g1
  have hsz := hl.size hfT
  by_cases hfe : T.FaceHas f e
  · obtain ⟨-, ws, q1, q2, q3, q4, -⟩ := C.faces f (Or.inl ⟨e, C.at_u, hfe⟩)
    have := q1.unique hfT hl
    subst this
    have h4 : 4 ≤ ws.length := by
      have : l.length ≠ 3 := fun hc => hnf (Flattened.iff.2 ⟨hfe, by rw [g1]; exact hc⟩)
      omega
    have hel : e ∈ l := by have := (faceHas_fe.1 hfe).2; rwa [g1] at this
    obtain ⟨i, p0, d, p2, rest, x, a, b, zs, hi, hr, hrest, hvr, hzs, hab⟩ :=
      roundEdge g1 g3 h4 g2 hel (ends_two C.at_u C.at_v C.ne)
    have hcr := g3.rotate i
    rw [hr, hvr] at hcr
    have hnr : (ws.rotate i).Nodup := List.nodup_rotate.2 q2
    rw [hvr] at hnr
    have hcm := hcr.moved (T' := T3) (u := u) (v := v) fun q hq => D.ev q.1 (by
      rw [← hr, List.mem_rotate] at hq
      have := List.mem_map_of_mem (f := (·.1)) hq
      rw [edgesOf_map_fst, g1] at this
      exact hlive _ this)
    have n1 := List.nodup_cons.1 hnr
    have n2 := List.nodup_cons.1 n1.2
    have n3 := List.nodup_cons.1 n2.2
    have hma : moved u v a = v := by
      unfold moved; rcases hab with ⟨rfl, -⟩ | ⟨rfl, -⟩
      · rw [if_pos rfl]
      · split <;> rfl
    have hmb : moved u v b = v := by
      unfold moved; rcases hab with ⟨-, rfl⟩ | ⟨-, rfl⟩
      · split <;> rfl
      · rw [if_pos rfl]
    have hout : ∀ w, w ≠ a → w ≠ b → moved u v w = w ∧ w ≠ u := by
      intro w h1 h2
      unfold moved
      rcases hab with ⟨rfl, rfl⟩ | ⟨rfl, rfl⟩
      · exact ⟨if_neg h1, h1⟩
      · exact ⟨if_neg h2, h2⟩
    have hx := hout x (fun hc => n1.1 (by simp [hc])) (fun hc => n1.1 (by simp [hc]))
    have hz : ∀ w ∈ zs, moved u v w = w ∧ w ≠ u := fun w hw =>
      hout w (fun hc => n2.1 (by simp [← hc, hw])) (fun hc => n3.1 (by simp [← hc, hw]))
    have hmz : zs.map (moved u v) = zs := map_id_of fun w hw => (hz w hw).1
    rw [List.map_cons, List.map_cons, List.map_cons, hx.1, hma, hmb, hmz] at hcm
    -- with the edge first
    have hc1 := hcm.rotate 1
    rw [List.rotate_cons_succ, List.rotate_cons_succ, List.rotate_zero, List.rotate_zero] at hc1
    have hc2 : T3.Closed (p2 :: rest ++ [p0]) (v :: (zs ++ [x])) := Closed.dropHead (a := v) (V := zs ++ [x]) hc1
    have hfil : (T.edgesOf f).filter (fun q => q.1 ≠ e) ~r p2 :: rest ++ [p0] := by
      have hnl : ((T.edgesOf f).map (·.1)).Nodup := g3.fsts_nodup q2 (by omega)
      have hnl2 : (((T.edgesOf f).rotate i).map (·.1)).Nodup := by
        rw [map_fst_rotate]; exact List.nodup_rotate.2 hnl
      rw [hr] at hnl2
      have k1 := List.nodup_cons.1 hnl2
      have k2 := List.nodup_cons.1 k1.2
      have : ((T.edgesOf f).rotate i).filter (fun q => q.1 ≠ e) = p0 :: p2 :: rest := by
        rw [hr, List.filter_cons_of_pos, List.filter_cons_of_neg (by simp), List.filter_eq_self.2]
        · intro q hq
          have : q.1 ≠ e := fun hc => k2.1 (by
            show e ∈ _
            rw [← hc]; exact List.mem_map_of_mem (f := (·.1)) hq)
          simpa using this
        · have : p0.1 ≠ e := fun hc => k1.1 (by
            show p0.1 ∈ _
            rw [hc]; simp)
          simpa using this
      have r1 := isRotated_filter (List.IsRotated.symm ⟨i, rfl⟩ : (T.edgesOf f).rotate i ~r T.edgesOf f) (fun q => q.1 ≠ e)
      rw [this] at r1
      refine r1.symm.trans ?_
      exact ⟨1, by simp⟩
    obtain ⟨vs', r1, r2⟩ := hc2.isRotated ((D.on f hfe hnf).trans hfil)
    refine ⟨vs', r1.trans ?_, ?_⟩
    · have hdr : drawnTo u v (ws.rotate i) = x :: v :: zs := by
        rw [hvr]
        unfold drawnTo
        rw [if_pos (by rcases hab with ⟨-, rfl⟩ | ⟨rfl, -⟩ <;> simp)]
        rw [List.filter_cons_of_pos (by simpa using hx.2)]
        have hzf : zs.filter (fun w => w ≠ u) = zs := List.filter_eq_self.2 fun w hw => by simpa using (hz w hw).2
        rcases hab with ⟨rfl, rfl⟩ | ⟨rfl, rfl⟩
        · rw [List.filter_cons_of_neg (by simp), List.filter_cons_of_pos (by simpa using C.ne.symm), hzf]
        · rw [List.filter_cons_of_pos (by simpa using C.ne.symm), List.filter_cons_of_neg (by simp), hzf]
      have r3 : drawnTo u v ws ~r x :: v :: zs := by
        rw [← hdr]; exact drawnTo_rotate ⟨i, rfl⟩
      refine List.IsRotated.trans ?_ r3.symm
      exact List.IsRotated.symm ⟨1, by simp⟩
    · have hlen' : (T3.edgesOf f).length ≤ 32 := by
        rw [(D.on f hfe hnf).perm.length_eq]
        refine le_trans (List.length_filter_le _ _) ?_
        rw [g3.1]; exact q4
      cases hl3 : T3.fe f with
      | none =>
        exfalso
        have := r2.1
        unfold Topo.edgesOf at this
        rw [hl3] at this
        have h2 := r1.perm.length_eq
        simp [pairs] at this h2
        omega
      | some l3 =>
        rw [edgesOf_some hl3] at r2
        rw [edgesOf_some hl3, pairs_length] at hlen'
        exact r2.loop (alloc_of_live hf) hl3
          (fun z hz => alloc_of_live (D.consistent.fedgesLive hf hl3 z hz)) (by omega)
  · have hnb : ¬ (u ∈ vs ∧ v ∈ vs) := by
      rintro ⟨a, b⟩
      obtain ⟨-, ws, q1, -, -, -, q5⟩ := C.faces f (Or.inl (hl.touches h hfT a))
      have := q1.unique hfT hl
      subst this
      exact hfe (q5 a b)
    have hcm := g3.moved (T' := T3) (u := u) (v := v) fun q hq => D.ev q.1 (by
      have := List.mem_map_of_mem (f := (·.1)) hq
      rw [edgesOf_map_fst, g1] at this
      exact hlive _ this)
    refine ⟨vs.map (moved u v), ?_, ?_⟩
    · have : drawnTo u v vs = vs.map (moved u v) := by
        unfold drawnTo
        by_cases hv : v ∈ vs
        · have hu : u ∉ vs := fun hc => hnb ⟨hc, hv⟩
          rw [if_pos hv, List.filter_eq_self.2 (fun w hw => by
            have : w ≠ u := fun hc => hu (hc ▸ hw)
            simpa using this), map_id_of]
          intro w hw
          unfold moved
          exact if_neg fun (hc : w = u) => hu (hc ▸ hw)
        · rw [if_neg hv]; rfl
      rw [this]
    · have hl3 : T3.fe f = some l := by rw [(D.off f hfe).1]; exact g1
      rw [← D.off_edges hfe, edgesOf_some hl3] at hcm
      exact hcm.loop (alloc_of_live hf) hl3 (fun z hz => alloc_of_live (by rw [D.se]; exact hlive z hz)) (by omega)

/-- an edge at `u` or `v`, and where it is afterwards -/
theorem Drawn.star (C : T.Collapsible A topoflag e u v) (D : Drawn T T3 e u v) {x : Nat} (hx : T.EdgeHas x u ∨ T.EdgeHas x v)
    (hxe : x ≠ e) : ∃ w a, (w = u ∨ w = v) ∧ a ≠ u ∧ a ≠ v ∧ T.EdgeHas x w ∧ T.EdgeHas x a ∧
      (T3.ev x = (some v, some a) ∨ T3.ev x = (some a, some v)) := by
  obtain ⟨w, hw, hxw⟩ : ∃ w, (w = u ∨ w = v) ∧ T.EdgeHas x w := by
    rcases hx with h | h
    · exact ⟨u, Or.inl rfl, h⟩
    · exact ⟨v, Or.inr rfl, h⟩
  obtain ⟨a, ha, hxa⟩ := C.ends x w hw hxw
  have hau : a ≠ u := by
    rintro rfl
    have hwv : w = v := hw.resolve_left fun hc => ha hc.symm
    subst hwv
    exact hxe (C.simple x e w a hw ha hxw hxa C.at_v C.at_u)
  have hav : a ≠ v := by
    rintro rfl
    have hwv : w = u := hw.resolve_right fun hc => ha hc.symm
    subst hwv
    exact hxe (C.simple x e w a hw ha hxw hxa C.at_u C.at_v)
  refine ⟨w, a, hw, hau, hav, hxw, hxa, ?_⟩
  rw [D.ev x hxw.1]
  have hmv : (if some w = some u then some v else some w) = some v := by
    rcases hw with rfl | rfl
    · rw [if_pos rfl]
    · split <;> rfl
  have hma : (if some a = some u then some v else some a) = some a := if_neg (by simpa using hau)
  unfold repl
  rcases ends_two hxw hxa (Ne.symm ha) with hev | hev <;> rw [hev] <;> dsimp only <;> rw [hmv, hma]
  · exact Or.inl rfl
  · exact Or.inr rfl

theorem Drawn.mem_ve (h : T.Consistent) (C : T.Collapsible A topoflag e u v) (D : Drawn T T3 e u v) {x : Nat} :
    x ∈ T3.ve v ↔ T.EdgeHas x u ∨ T.EdgeHas x v := by
  have hvl : T3.sv v = .live := by rw [D.sv]; exact h.ve.down e v C.at_v.1 (EdgeHas_iff.1 C.at_v).2
  rw [D.consistent.mem_ve hvl, D.edgeHas C.ne]
  constructor
  · rintro (h | h)
    · exact Or.inr h.1
    · exact Or.inl h.2
  · rintro (h | h)
    · exact Or.inr ⟨rfl, h⟩
    · exact Or.inl ⟨h, C.ne.symm⟩

theorem Drawn.twin (h : T.Consistent) (C : T.Collapsible A topoflag e u v) (D : Drawn T T3 e u v) {x y : Nat} :
    T3.Twin (T3.ve v) e x y ↔ T.Twins u v x y ∨ T.Twins u v y x := by
  constructor
  · rintro ⟨hx, hy, hxy, hxe, hye, hs⟩
    obtain ⟨w, a, hw, hau, hav, hxw, hxa, hex⟩ := D.star C ((D.mem_ve h C).1 hx) hxe
    obtain ⟨w', b, hw', hbu, hbv, hyw, hyb, hey⟩ := D.star C ((D.mem_ve h C).1 hy) hye
    have hab : b = a := by
      rcases hex with hex | hex <;> rcases hey with hey | hey <;> rcases hs with hs | hs <;>
        rw [hex, hey] at hs <;> simp only [Prod.mk.injEq, Option.some.injEq] at hs <;>
        first
          | exact hs.1.symm
          | exact hs.2.symm
          | exact hs.1
          | exact hs.2
          | exact absurd hs.1.symm hav
          | exact absurd hs.1 hav
          | exact absurd hs.2 hav
          | exact absurd hs.2.symm hav
    subst hab
    have hne : w ≠ w' := by
      rintro rfl
      exact hxy (C.simple x y w b hw (by rcases hw with rfl | rfl <;> assumption) hxw hxa hyw hyb)
    rcases hw with rfl | rfl <;> rcases hw' with rfl | rfl
    · exact absurd rfl hne
    · exact Or.inl ⟨b, hau, hav, hxw, hxa, hyw, hyb⟩
    · exact Or.inr ⟨b, hau, hav, hyw, hyb, hxw, hxa⟩
    · exact absurd rfl hne
  · have key : ∀ {x y}, T.Twins u v x y → T3.Twin (T3.ve v) e x y := by
      rintro x y ⟨w, hwu, hwv, hxu, hxw, hyv, hyw⟩
      have hne3 : ∀ {z p q}, T.EdgeHas z p → T.EdgeHas z q → p ≠ q → ∀ r, T.EdgeHas z r → r = p ∨ r = q := by
        intro z p q h1 h2 h3 r h4
        have hr := (EdgeHas_iff.1 h4).2
        unfold ends at hr
        rcases ends_two h1 h2 h3 with hev | hev <;> rw [hev] at hr <;> simp at hr
        · rcases hr with h | h
          · exact Or.inl h.symm
          · exact Or.inr h.symm
        · rcases hr with h | h
          · exact Or.inr h.symm
          · exact Or.inl h.symm
      have hxe : x ≠ e := by
        rintro rfl
        rcases hne3 C.at_u C.at_v C.ne w hxw with h | h
        · exact hwu h
        · exact hwv h
      have hye : y ≠ e := by
        rintro rfl
        rcases hne3 C.at_u C.at_v C.ne w hyw with h | h
        · exact hwu h
        · exact hwv h
      refine ⟨(D.mem_ve h C).2 (Or.inl hxu), (D.mem_ve h C).2 (Or.inr hyv), ?_, hxe, hye, ?_⟩
      · rintro rfl
        rcases hne3 hxu hxw (Ne.symm hwu) v hyv with h | h
        · exact C.ne h.symm
        · exact hwv h.symm
      · have e1 : T3.ev x = (some v, some w) ∨ T3.ev x = (some w, some v) := by
          rw [D.ev x hxu.1]
          unfold repl
          rcases ends_two hxu hxw (Ne.symm hwu) with hev | hev <;> rw [hev] <;> simp [hwu]
        have e2 : T3.ev y = (some v, some w) ∨ T3.ev y = (some w, some v) := by
          rw [D.ev y hyv.1]
          unfold repl
          rcases ends_two hyv hyw (Ne.symm hwv) with hev | hev <;> rw [hev] <;> simp [hwu, C.ne.symm]
        unfold SameEnds
        rcases e1 with e1 | e1 <;> rcases e2 with e2 | e2 <;> rw [e1, e2] <;> simp
    rintro (hc | hc)
    · exact key hc
    · exact (key hc).symm

theorem regionHas_faces {T : Topo} (h : T.Consistent) {r f : Nat} :
    T.RegionHas r f ↔ T.sr r = .live ∧ ∃ d, (f, d) ∈ T.view.faces r := by
  rw [regionHas_iff h, mem_facesOf_iff]; rfl

theorem anyBetween_none {T : Topo} {A : Labels} : ∀ (fs : List Nat), (∀ f ∈ fs, T.sf f = .live ∧ T.fr f = (none, none)) →
    T.anyBetween A fs = .ok false := by
  intro fs
  induction fs with
  | nil => intro _; rfl
  | cons f fs ih =>
    intro hfs
    obtain ⟨h1, h2⟩ := hfs f (by simp)
    rw [anyBetween, mfRegions_eq h1, h2, Res.bind_ok]
    exact ih fun g hg => hfs g (by simp [hg])

open Classical in
/-- an edge counts as one on the boundary -/
noncomputable def rimB (T : Topo) (A : Labels) (e x : Nat) : Bool := decide (T.OnRim A e x)

theorem rimB_true {x : Nat} (hx : T.OnRim A e x) : rimB T A e x = true := by classical
  unfold rimB; simp [hx]

theorem rimB_false {x : Nat} (hx : ¬ T.OnRim A e x) : rimB T A e x = false := by classical
  unfold rimB; simp [hx]

theorem Drawn.boundary (h : T.Consistent) (C : T.Collapsible A topoflag e u v) (D : Drawn T T3 e u v) {x y : Nat}
    (ht : T.Twins u v x y ∨ T.Twins u v y x) {T4 : Topo} {ms : List (Nat × Nat)} (M : MergedAll T3 T4 ms)
    (h1 : x ∉ ms.map (·.1)) (h2 : x ∉ ms.map (·.2)) : T4.onBoundary A x = .ok (rimB T A e x) := by
  have htw := (D.twin h C).2 ht
  have hxl : T.se x = .live := by
    rcases (D.mem_ve h C).1 htw.1 with h | h
    · exact h.1
    · exact h.1
  have hx4 : T4.se x = .live := by rw [M.same x h1, D.se]; exact hxl
  unfold onBoundary
  by_cases c1 : (A.ecls x).1 = 1 ∨ (A.ecls x).1 = 2
  · rw [if_pos c1]
    rw [rimB_true]
    · rfl
    · rcases c1 with c | c
      · exact Or.inl c
      · exact Or.inr (Or.inl c)
  · rw [if_neg c1]
    by_cases c2 : (A.ecls x).1 = 4 ∧ A.eghost x = false
    · rw [if_pos c2]
      obtain ⟨L, g1, g2⟩ := meFaces_ok (alloc_of_live hx4)
      have hmem : ∀ f, f ∈ T4.ef x ↔ T.FaceHas f x ∧ ¬ T.Flattened e f := by
        intro f
        rw [M.consistent.mem_ef hx4, M.has f x h1 h2, D.faceHas]
        exact ⟨fun ⟨a, b, _⟩ => ⟨a, b⟩, fun ⟨a, b⟩ => ⟨a, b, htw.2.2.2.1⟩⟩
      have hnd : (T4.ef x).Nodup := M.consistent.ef.nodup x (alloc_of_live hx4)
      obtain ⟨f0, hf0⟩ := C.left x y ht c2.1 c2.2
      have hf0 := (hmem f0).2 hf0
      have hLs : L = some (T4.ef x) := by
        cases L with
        | none => rw [← g2] at hf0; cases hf0
        | some l => rw [← g2]; rfl
      rw [g1, Res.bind_ok, hLs, Res.ofOption_some, Res.bind_ok]
      by_cases c3 : (T4.ef x).length = 1
      · rw [if_pos c3]
        rw [rimB_true]
        · rfl
        · refine Or.inr (Or.inr ⟨c2.1, c2.2, f0, ?_⟩)
          intro g
          rw [← hmem g]
          obtain ⟨z, hz⟩ := List.length_eq_one_iff.1 c3
          rw [hz] at hf0 ⊢
          rw [List.mem_singleton] at hf0 ⊢
          rw [hf0]
      · rw [if_neg c3, anyBetween_none]
        · rw [rimB_false]
          rintro (hc | hc | ⟨-, -, f, hf⟩)
          · exact c1 (Or.inl hc)
          · exact c1 (Or.inr hc)
          · apply c3
            have hm : ∀ g, g ∈ T4.ef x ↔ g = f := fun g => (hmem g).trans (hf g)
            have : (T4.ef x).Perm [f] := (List.perm_ext_iff_of_nodup hnd (List.nodup_singleton f)).2 (by
              intro g; rw [hm g, List.mem_singleton])
            exact this.length_eq
        · intro f hf
          have hf4 := (M.consistent.mem_ef hx4).1 hf
          refine ⟨hf4.1, fr_none M.consistent hf4.1 ?_⟩
          intro r hr
          have hfT := ((hmem f).1 hf).1
          rw [regionHas_faces M.consistent, M.sr, M.faces, D.sr, D.faces, ← regionHas_faces h] at hr
          have hto : T.Touches f u ∨ T.Touches f v := by
            rcases (D.mem_ve h C).1 htw.1 with hc | hc
            · exact Or.inl ⟨x, hc, hfT⟩
            · exact Or.inr ⟨x, hc, hfT⟩
          exact (C.faces f hto).1 r hr
    · rw [if_neg c2]
      rw [rimB_false]
      · rfl
      · rintro (hc | hc | ⟨hc, hd, -⟩)
        · exact c1 (Or.inl hc)
        · exact c1 (Or.inr hc)
        · exact c2 ⟨hc, hd⟩

theorem wins_iff {x y : Nat} : wins A (rimB T A e) x y = true ↔ T.Preferred A e x y := by
  unfold wins Preferred rimB
  by_cases hx : T.OnRim A e x <;> by_cases hy : T.OnRim A e y <;> simp [hx, hy]

theorem Preferred.total {x y : Nat} : T.Preferred A e x y ∨ T.Preferred A e y x := by
  unfold Preferred
  by_cases hx : T.OnRim A e x <;> by_cases hy : T.OnRim A e y <;> simp [hx, hy] <;> omega

theorem drawnTo_nodup {vs : List Nat} (hn : vs.Nodup) : (drawnTo u v vs).Nodup := by
  unfold drawnTo
  split
  · exact hn.filter _
  · rename_i hv
    rw [List.nodup_map_iff_inj_on hn]
    intro a ha b hb hab
    have hav : a ≠ v := fun hc => hv (hc ▸ ha)
    have hbv : b ≠ v := fun hc => hv (hc ▸ hb)
    by_cases h1 : a = u <;> by_cases h2 : b = u <;> simp [h1, h2] at hab
    · rw [h1, h2]
    · exact absurd hab.symm hbv
    · exact absurd hab hav
    · exact hab

theorem drawnTo_length {vs : List Nat} (hn : vs.Nodup) : (drawnTo u v vs).length ≤ vs.length ∧
    ((u ∉ vs ∨ v ∉ vs) → (drawnTo u v vs).length = vs.length) ∧ vs.length ≤ (drawnTo u v vs).length + 1 := by
  unfold drawnTo
  split
  · refine ⟨List.length_filter_le _ _, ?_, ?_⟩
    · rintro (h | h)
      · rw [List.filter_eq_self.2]
        intro w hw
        have : w ≠ u := fun hc => h (hc ▸ hw)
        simpa using this
      · rename_i hv; exact absurd hv h
    · by_cases hu : u ∈ vs
      · have : vs.filter (fun w => w ≠ u) = vs.erase u := by
          rw [hn.erase_eq_filter]
          congr 1
          funext w
          simp [bne, BEq.beq]
        rw [this, List.length_erase_of_mem hu]; omega
      · rw [List.filter_eq_self.2]
        · omega
        · intro w hw
          have : w ≠ u := fun hc => hu (hc ▸ hw)
          simpa using this
  · simp

/-- the faces at `u` and `v` afterwards -/
theorem Drawn.polygon (h : T.Consistent) (C : T.Collapsible A topoflag e u v) (D : Drawn T T3 e u v) {f : Nat}
    (hf : T3.sf f = .live) (ht : T.Touches f u ∨ T.Touches f v) :
    ∃ vs vs', T.Loop f vs ∧ vs' ~r drawnTo u v vs ∧ T3.Loop f vs' ∧ vs'.Nodup ∧ 3 ≤ vs'.length ∧ vs'.length ≤ 32 := by
  obtain ⟨-, vs, q1, q2, q3, q4, q5⟩ := C.faces f ht
  obtain ⟨vs', r1, r2⟩ := D.loops h C hf q1
  have hnf : ¬ T.Flattened e f := fun hc => by rw [D.flat f hc] at hf; cases hf
  have hfT : T.sf f = .live := by rw [← D.sf f hnf]; exact hf
  obtain ⟨a, b, c⟩ := drawnTo_length (u := u) (v := v) q2
  have hlen := r1.perm.length_eq
  refine ⟨vs, vs', q1, r1, r2, r1.nodup_iff.2 (drawnTo_nodup q2), ?_, by omega⟩
  by_cases hb : u ∈ vs ∧ v ∈ vs
  · have hfe := q5 hb.1 hb.2
    obtain ⟨l, g1, g2, -⟩ := q1.edgesOf h hfT
    have : l.length ≠ 3 := fun hc => hnf (Flattened.iff.2 ⟨hfe, by rw [g1]; exact hc⟩)
    omega
  · have := b (by by_cases hu : u ∈ vs
                  · exact Or.inr fun hv => hb ⟨hu, hv⟩
                  · exact Or.inl hu)
    omega

theorem Drawn.ready (h : T.Consistent) (C : T.Collapsible A topoflag e u v) (D : Drawn T T3 e u v) :
    MergeReady T3 A topoflag e (T3.ve v) (rimB T A e) := by
  refine ⟨D.consistent, ?_, ?_, ?_, ?_, ?_, ?_, ?_⟩
  · intro x hx
    rw [D.se]
    rcases (D.mem_ve h C).1 hx with h | h
    · exact h.1
    · exact h.1
  · intro x hx hxe
    obtain ⟨w, a, -, -, hav, -, -, hev⟩ := D.star C ((D.mem_ve h C).1 hx) hxe
    rcases hev with hev | hev
    · exact ⟨v, a, hav.symm, hev⟩
    · exact ⟨a, v, hav, hev⟩
  · refine ⟨v, ?_⟩
    rw [D.ev e C.at_u.1]
    unfold repl
    rcases ends_two C.at_u C.at_v C.ne with hev | hev <;> rw [hev] <;> simp [C.ne.symm]
  · intro x y z h1 h2
    have hs : ∀ {x y}, _ → _ := fun {x y} => (D.twin h C (x := x) (y := y)).1
    have other : ∀ {x y}, T.Twins u v x y → ∀ z, T.Twins u v x z ∨ T.Twins u v z x → z = y := by
      rintro x y ⟨w, hwu, hwv, hxu, hxw, hyv, hyw⟩ z hz
      rcases hz with ⟨w', hwu', hwv', hxu', hxw', hzv, hzw⟩ | ⟨w', hwu', hwv', hzu, hzw, hxv, hxw'⟩
      · have : w' = w := by
          have hr := (EdgeHas_iff.1 hxw').2
          unfold ends at hr
          rcases ends_two hxu hxw (Ne.symm hwu) with hev | hev <;> rw [hev] at hr <;> simp at hr
          · rcases hr with h | h
            · exact absurd h.symm hwu'
            · exact h.symm
          · rcases hr with h | h
            · exact h.symm
            · exact absurd h.symm hwu'
        subst this
        exact C.simple z y v w' (Or.inr rfl) hwv hzv hzw hyv hyw
      · exfalso
        have hr := (EdgeHas_iff.1 hxv).2
        unfold ends at hr
        rcases ends_two hxu hxw (Ne.symm hwu) with hev | hev <;> rw [hev] at hr <;> simp at hr
        · rcases hr with h | h
          · exact C.ne h
          · exact hwv h
        · rcases hr with h | h
          · exact hwv h
          · exact C.ne h
    have other' : ∀ {x y}, T.Twins u v y x → ∀ z, T.Twins u v x z ∨ T.Twins u v z x → z = y := by
      rintro x y ⟨w, hwu, hwv, hyu, hyw, hxv, hxw⟩ z hz
      rcases hz with ⟨w', hwu', hwv', hxu, hxw', hzv, hzw⟩ | ⟨w', hwu', hwv', hzu, hzw, hxv', hxw'⟩
      · exfalso
        have hr := (EdgeHas_iff.1 hxu).2
        unfold ends at hr
        rcases ends_two hxv hxw (Ne.symm hwv) with hev | hev <;> rw [hev] at hr <;> simp at hr
        · rcases hr with h | h
          · exact C.ne h.symm
          · exact hwu h
        · rcases hr with h | h
          · exact hwu h
          · exact C.ne h.symm
      · have : w' = w := by
          have hr := (EdgeHas_iff.1 hxw').2
          unfold ends at hr
          rcases ends_two hxv hxw (Ne.symm hwv) with hev | hev <;> rw [hev] at hr <;> simp at hr
          · rcases hr with h | h
            · exact absurd h.symm hwv'
            · exact h.symm
          · rcases hr with h | h
            · exact h.symm
            · exact absurd h.symm hwv'
        subst this
        exact C.simple z y u w' (Or.inl rfl) hwu hzu hzw hyu hyw
    rcases hs h1 with t | t
    · exact (other t z (hs h2)).symm
    · exact (other' t z (hs h2)).symm
  · intro x y ht T4 ms M h1 h2
    exact D.boundary h C ((D.twin h C).1 ht) M h1 h2
  · intro x y ht hw
    exact C.may x y ((D.twin h C).1 ht) (wins_iff.1 hw)
  · intro x y f ht hf
    have hfT := D.faceHas.1 hf
    have hto : T.Touches f u ∨ T.Touches f v := by
      rcases (D.mem_ve h C).1 ht.2.1 with hc | hc
      · exact Or.inl ⟨y, hc, hfT.1⟩
      · exact Or.inr ⟨y, hc, hfT.1⟩
    obtain ⟨-, vs', -, -, r2, r3, r4, r5⟩ := D.polygon h C hf.1 hto
    exact ⟨vs', r2, r3, r4, r5⟩

theorem mergeOneFace_none {f : Nat} {l : List Nat} {T4 : Topo} : ∀ gs : List Nat, (∀ g ∈ gs, g ≠ f → ∃ m, T4.mfEdges g true none = .ok m ∧
    ¬ (l.length = m.length ∧ ∀ x ∈ m, x ∈ l)) → mergeOneFace A topoflag f l gs T4 = .ok (T4, none) := by
  intro gs
  induction gs with
  | nil => intro _; rfl
  | cons g gs ih =>
    intro hg
    have ih := ih fun g' hg' => hg g' (by simp [hg'])
    unfold mergeOneFace
    by_cases hgf : g = f
    · rw [if_pos hgf]; exact ih
    · rw [if_neg hgf]
      obtain ⟨m, g1, g2⟩ := hg g (by simp) hgf
      rw [g1, Res.bind_ok, if_neg g2]
      exact ih

theorem mergeFaces_none {cur : List Nat} {T4 : Topo} (hok : ∀ f ∈ cur, ∃ l, T4.mfEdges f true none = .ok l)
    (hap : ∀ f ∈ cur, ∀ g ∈ cur, ∀ l m, T4.mfEdges f true none = .ok l → T4.mfEdges g true none = .ok m →
      l.length = m.length → (∀ x ∈ m, x ∈ l) → g = f) :
    ∀ fs : List Nat, mergeFaces A topoflag fs cur T4 = .ok (T4, []) := by
  intro fs
  induction fs with
  | nil => rfl
  | cons f fs ih =>
    unfold mergeFaces
    by_cases hf : f ∈ cur
    · rw [if_neg (not_not.2 hf)]
      obtain ⟨l, hl⟩ := hok f hf
      rw [hl, Res.bind_ok, mergeOneFace_none, Res.bind_ok]
      · exact ih
      · intro g hg hgf
        obtain ⟨m, hm⟩ := hok g hg
        exact ⟨m, hm, fun hc => hgf (hap f hf g hg l m hl hm hc.1 hc.2)⟩
    · rw [if_pos hf]; exact ih

theorem loop_mono {T4 : Topo} (h : T4.Consistent) {f g : Nat} {vs ws l m : List Nat} (hf : T4.sf f = .live) (hg : T4.sf g = .live)
    (hlf : T4.Loop f vs) (hlg : T4.Loop g ws) (hl : T4.fe f = some l) (hm : T4.fe g = some m) (hs : ∀ x ∈ m, x ∈ l) :
    ∀ w ∈ ws, w ∈ vs := by
  intro w hw
  obtain ⟨l', h1, -, h2⟩ := hlf.edgesOf h hf
  obtain ⟨m', h3, -, h4⟩ := hlg.edgesOf h hg
  obtain ⟨p, hp, he⟩ := h4.vertex_edge hw
  have hpm : p.1 ∈ m := by
    have := List.mem_map_of_mem (f := (·.1)) hp
    rw [edgesOf_map_fst, hm] at this; exact this
  have hpl : p.1 ∈ (T4.edgesOf f).map (·.1) := by rw [edgesOf_map_fst, hl]; exact hs _ hpm
  obtain ⟨q, hq, hqp⟩ := List.mem_map.1 hpl
  exact h2.edge_vertex hq (by rw [hqp]; exact he)

theorem contract_ok (h : T.Consistent) (C : T.Collapsible A topoflag e u v) :
    ∃ T' c, T.contract A topoflag e u v = .ok (T', c) ∧ Collapsed T T' A e u v c := by
  obtain ⟨T3, tris, D, htm, htn, hrun⟩ := drawn_ok h C
  have hel : T.se e = .live := C.at_u.1
  have hul : T.sv u = .live := h.ve.down e u hel (EdgeHas_iff.1 C.at_u).2
  have hvl : T.sv v = .live := h.ve.down e v hel (EdgeHas_iff.1 C.at_v).2
  have hv3 : T3.sv v = .live := by rw [D.sv]; exact hvl
  obtain ⟨L, hL1, hL2⟩ := mvEdges_getD (alloc_of_live hv3)
  have hev : e ∈ T3.ve v := (D.mem_ve h C).2 (Or.inl C.at_u)
  have hLs : L = some (T3.ve v) := by
    cases L with
    | none => rw [← hL2] at hev; cases hev
    | some l => rw [← hL2]; rfl
  have R := D.ready h C
  have I0 : MergeInv T3 A e (T3.ve v) (rimB T A e) T3 (T3.ve v) [] :=
    ⟨MergedAll.refl D.consistent, by simp, by simp, D.consistent.ve.nodup v (alloc_of_live hv3), by simp⟩
  obtain ⟨T4, ms, cur, hrun4, I, hall⟩ := mergeEdges_ok R (T3.ve v) (T3.ve v) T3 [] I0 fun _ h => h
  rw [List.append_nil] at I hall
  have hmem1 : ∀ x, x ∈ ms.reverse.map (·.1) ↔ x ∈ ms.map (·.1) := fun x => by simp
  have M := I.all
  have hgone : ∀ x, x ∈ ms.map (·.1) → T4.se x = .kept := fun x hx => M.gone x ((hmem1 x).2 hx)
  have hsame : ∀ x, x ∉ ms.map (·.1) → T4.se x = T.se x := fun x hx => by
    rw [M.same x (fun hc => hx ((hmem1 x).1 hc)), D.se]
  have hfst : ∀ x, x ∈ ms.map (·.1) → x ≠ e ∧ T.se x = .live ∧ (T.EdgeHas x u ∨ T.EdgeHas x v) := by
    intro x hx
    obtain ⟨p, hp, rfl⟩ := List.mem_map.1 hx
    have ht := (I.pairs p (by simpa using hp)).1
    have hor := (D.mem_ve h C).1 ht.2.1
    refine ⟨ht.2.2.2.2.1, ?_, hor⟩
    rcases hor with hc | hc
    · exact hc.1
    · exact hc.1
  have hee : e ∉ ms.map (·.1) := fun hc => (hfst e hc).1 rfl
  have hee2 : e ∉ ms.reverse.map (·.2) := by
    intro hc
    obtain ⟨p, hp, hpe⟩ := List.mem_map.1 hc
    exact (I.pairs p hp).1.2.2.2.1 hpe
  have he4 : T4.se e = .live := by rw [hsame e hee]; exact hel
  have hv4 : T4.sv v = .live := by rw [M.sv]; exact hv3
  -- the faces at `v`
  obtain ⟨F, hF1, -, hF3⟩ := C22_vertex_faces M.consistent hv4
  have htouch : ∀ f ∈ F.getD [], T3.sf f = .live ∧ ¬ T.Flattened e f ∧ (T.Touches f u ∨ T.Touches f v) := by
    intro f hf
    obtain ⟨x, hx1, hx2⟩ := (hF3 f).1 hf
    have hf3 : T3.sf f = .live := by rw [← M.sf]; exact hx2.1
    have hnf : ¬ T.Flattened e f := fun hc => by rw [D.flat f hc] at hf3; cases hf3
    refine ⟨hf3, hnf, ?_⟩
    by_cases hy : ∃ y, y ∈ ms.map (·.1) ∧ T3.FaceHas f y
    · obtain ⟨y, hy1, hy2⟩ := hy
      have hyT := (D.faceHas.1 hy2).1
      rcases (hfst y hy1).2.2 with hc | hc
      · exact Or.inl ⟨y, hc, hyT⟩
      · exact Or.inr ⟨y, hc, hyT⟩
    · have haw := M.away f fun y hy1 hy2 => hy ⟨y, (hmem1 y).1 hy1, hy2⟩
      have haw : T4.edgesOf f = T3.edgesOf f := haw
      have hx3 : T3.FaceHas f x := by
        rw [faceHas_edges] at hx2 ⊢
        rw [← haw]; exact ⟨hf3, hx2.2⟩
      have hxT := (D.faceHas.1 hx3).1
      have hx1' : T3.EdgeHas x v := by
        rw [EdgeHas_iff] at hx1 ⊢
        rw [← M.ev]
        refine ⟨?_, hx1.2⟩
        rw [← M.same x]
        · exact hx1.1
        · intro hc; rw [M.gone x hc] at hx1; cases hx1.1
      rcases (D.edgeHas C.ne).1 hx1' with hc | hc
      · exact Or.inr ⟨x, hc.1, hxT⟩
      · exact Or.inl ⟨x, hc.2, hxT⟩
  have hrun5 : mergeFaces A topoflag (F.getD []) (F.getD []) T4 = .ok (T4, []) := by
    have hfe : ∀ f ∈ F.getD [], ∃ l, T4.fe f = some l ∧ T4.mfEdges f true none = .ok l := by
      intro f hf
      obtain ⟨x, -, hx2⟩ := (hF3 f).1 hf
      obtain ⟨l, g1, -, -⟩ := hx2.stored
      exact ⟨l, g1, mfEdges_plain (alloc_of_live hx2.1) g1⟩
    refine mergeFaces_none (fun f hf => ?_) ?_ _
    · obtain ⟨l, -, g⟩ := hfe f hf; exact ⟨l, g⟩
    · intro f hf g hg l m hl hm hlen hsub
      obtain ⟨l', a1, a2⟩ := hfe f hf
      obtain ⟨m', b1, b2⟩ := hfe g hg
      rw [a2] at hl; cases hl
      rw [b2] at hm; cases hm
      obtain ⟨f1, f2, f3⟩ := htouch f hf
      obtain ⟨g1, g2, g3⟩ := htouch g hg
      obtain ⟨vs, vs', p1, p2, p3, p4, -, -⟩ := D.polygon h C f1 f3
      obtain ⟨ws, ws', q1, q2, q3, q4, -, -⟩ := D.polygon h C g1 g3
      obtain ⟨vs4, r1, r2⟩ := M.loops f vs' f1 p3
      obtain ⟨ws4, s1, s2⟩ := M.loops g ws' g1 q3
      have hf4 : T4.sf f = .live := by rw [M.sf]; exact f1
      have hg4 : T4.sf g = .live := by rw [M.sf]; exact g1
      have hin := loop_mono M.consistent hf4 hg4 r2 s2 a1 b1 hsub
      have hnv : vs4.Nodup := r1.nodup_iff.2 p4
      have hnw : ws4.Nodup := s1.nodup_iff.2 q4
      obtain ⟨_, t1, t2, -⟩ := r2.edgesOf M.consistent hf4
      obtain ⟨_, t3, t4, -⟩ := s2.edgesOf M.consistent hg4
      rw [a1] at t1; cases t1
      rw [b1] at t3; cases t3
      have hperm : ws4.Perm vs4 := (hnw.subperm hin).perm_of_length_le (by omega)
      refine (C.apart f g vs ws f3 g3 f2 g2 p1 q1 fun w => ?_).symm
      rw [← (r1.trans p2).mem_iff, ← (s1.trans q2).mem_iff, hperm.mem_iff]
  -- the deletions
  have hends4 : T4.ev e = (some v, some v) := by
    rw [M.ev, D.ev e hel]
    unfold repl
    rcases ends_two C.at_u C.at_v C.ne with hev | hev <;> rw [hev] <;> simp
  have hno5 : ∀ f, T4.sf f = .live → ¬ bounds T4.fe f e := by
    intro f hf hb
    have : T4.FaceHas f e := faceHas_fe.2 ⟨hf, by unfold bounds at hb; exact hb⟩
    have := (M.has f e (fun hc => hee ((hmem1 e).1 hc)) hee2).1 this
    exact (D.faceHas.1 this).2.2 rfl
  obtain ⟨T5, hrun6, hc5⟩ := M.consistent.delEdge (k := true) (alloc_of_live he4) hno5
  have h5 := meDelete_ok (keep := true) he4 (fun w hw => alloc_of_live (M.consistent.ve.down e w he4 hw))
  rw [hrun6] at h5
  have h5 := Res.ok.inj h5
  have hu4 : T4.sv u = .live := by rw [M.sv, D.sv]; exact hul
  have hu5 : (T5.sv u).alloc := by rw [h5]; exact alloc_of_live hu4
  obtain ⟨T6, hrun7, hc6⟩ := hc5.delVertex (v := u) (k := true) hu5 (by
    intro x hx hxu
    have hx4 : T4.se x = .live ∧ x ≠ e := by
      rw [h5] at hx
      have hx : upd T4.se e _ x = _ := hx
      by_cases hxe : x = e
      · subst hxe; rw [upd_same] at hx; cases hx
      · rw [upd_ne _ _ hxe] at hx; exact ⟨hx, hxe⟩
    have hxu : ends T4.ev x u := by rw [h5] at hxu; exact hxu
    have hx3 : T3.EdgeHas x u := by
      refine EdgeHas_iff.2 ⟨?_, by rw [← M.ev]; exact hxu⟩
      rw [← M.same x]
      · exact hx4.1
      · intro hc; have := M.gone x hc; rw [hx4.1] at this; cases this
    rcases (D.edgeHas C.ne).1 hx3 with hc | hc
    · exact hc.2 rfl
    · exact C.ne hc.1)
  have h6 : T6 = { T5 with sv := upd T5.sv u (afterDelete true) } := by
    have : T5.mvDelete u true = .ok { T5 with sv := upd T5.sv u (afterDelete true) } := by
      unfold mvDelete
      rw [derefV_ok hu5, Res.bind_ok]; rfl
    rw [hrun7] at this
    exact Res.ok.inj this
  have k_sv : T6.sv = upd T.sv u .kept := by
    rw [h6, h5]; show upd T4.sv u _ = _; rw [M.sv, D.sv]; rfl
  have k_se : T6.se = upd T4.se e .kept := by rw [h6, h5]; rfl
  have k_ev : T6.ev = T4.ev := by rw [h6, h5]
  have k_sf : T6.sf = T3.sf := by rw [h6, h5]; exact M.sf
  have k_sr : T6.sr = T.sr := by rw [h6, h5]; show T4.sr = _; rw [M.sr, D.sr]
  have k_fe : T6.fe = T4.fe := by rw [h6, h5]
  have k_fd : T6.fd = T4.fd := by rw [h6, h5]
  have k_faces : T6.view.faces = T.view.faces := by
    rw [h6, h5]; show T4.view.faces = _; rw [M.faces, D.faces]
  have k_types : ∀ r, T6.mrElementType r = T.mrElementType r := by
    intro r; rw [h6, h5]; show T4.mrElementType r = _; rw [M.types, D.types]
  have k_edges : ∀ f, T6.edgesOf f = T4.edgesOf f := by
    intro f; unfold Topo.edgesOf; rw [k_fe, k_fd]
  -- who stays
  have se6 : ∀ x, x ≠ e → T6.se x = if x ∈ ms.map (·.1) then .kept else T.se x := by
    intro x hx
    rw [k_se, upd_ne _ _ hx]
    split
    · rename_i hc; exact hgone x hc
    · rename_i hc; exact hsame x hc
  have pair : ∀ x y, T3.Twin (T3.ve v) e x y → y ∈ ms.map (·.1) → (y, x) ∈ ms ∧ T.Preferred A e x y ∧ x ∉ ms.map (·.1) := by
    intro x y ht hy
    obtain ⟨p, hp, hpy⟩ := List.mem_map.1 hy
    obtain ⟨a1, a2, a3⟩ := I.pairs p (by simpa using hp)
    rw [hpy] at a1 a2
    have hpx : p.2 = x := R.uniq y p.2 x a1.symm ht.symm
    rw [hpx] at a2 a3
    refine ⟨?_, wins_iff.1 a2, fun hc => a3 ((hmem1 x).2 hc)⟩
    have : p = (y, x) := Prod.ext hpy hpx
    rw [← this]; exact hp
  have twin_live : ∀ x y, T3.Twin (T3.ve v) e x y → T.se x = .live ∧ x ≠ e := by
    intro x y ht
    refine ⟨?_, ht.2.2.2.1⟩
    rcases (D.mem_ve h C).1 ht.1 with hc | hc
    · exact hc.1
    · exact hc.1
  have one : ∀ x y, T3.Twin (T3.ve v) e x y → (T6.se x = .live ∧ T6.se y = .kept ∧ T.Preferred A e x y) ∨
      (T6.se y = .live ∧ T6.se x = .kept ∧ T.Preferred A e y x) := by
    intro x y ht
    have hor : x ∈ ms.map (·.1) ∨ y ∈ ms.map (·.1) := by
      rcases Preferred.total (T := T) (A := A) (e := e) (x := x) (y := y) with hp | hp
      · have := hall x ht.1 y ht (wins_iff.2 hp)
        rwa [hmem1, hmem1] at this
      · have := hall y ht.2.1 x ht.symm (wins_iff.2 hp)
        rw [hmem1, hmem1] at this
        exact this.symm
    obtain ⟨lx, nx⟩ := twin_live x y ht
    obtain ⟨ly, ny⟩ := twin_live y x ht.symm
    rw [se6 x nx, se6 y ny]
    rcases hor with hx | hy
    · obtain ⟨-, b, c⟩ := pair y x ht.symm hx
      right; rw [if_neg c, if_pos hx]; exact ⟨ly, rfl, b⟩
    · obtain ⟨-, b, c⟩ := pair x y ht hy
      left; rw [if_neg c, if_pos hy]; exact ⟨lx, rfl, b⟩
  refine ⟨T6, { kept := v
                deleted := tris.map .face ++ ms.map (fun p => .edge p.1) ++ [].map (fun p : Nat × Nat => .face p.1) ++
                     [.edge e, .vertex u]
                merged := (.vertex u, .vertex v) :: ms.map (fun p => (.edge p.1, .edge p.2)) ++
                     [].map (fun p : Nat × Nat => (.face p.1, .face p.2)) }, ?_, ?_⟩
  · rw [hrun, hL1, Res.bind_ok, hLs, Res.ofOption_some, Res.bind_ok, hrun4, Res.bind_ok]
    dsimp only
    rw [hF1, Res.bind_ok, hrun5, Res.bind_ok]
    dsimp only
    rw [hrun6, Res.bind_ok, hrun7, Res.bind_ok]
    rfl
  · refine ⟨hc6, k_sv, by rw [k_se, upd_same], ?_, ?_, ?_, ?_, ?_, ?_, ?_, ⟨k_sr, k_faces, k_types⟩, rfl, ?_, ?_, ?_⟩
    · intro x y ht
      exact one x y ((D.twin h C).2 (Or.inl ht))
    · intro x hx hno
      rw [se6 x hx, if_neg]
      intro hc
      obtain ⟨p, hp, rfl⟩ := List.mem_map.1 hc
      rcases (D.twin h C).1 (I.pairs p (by simpa using hp)).1 with ht | ht
      · exact (hno p.2).2 ht
      · exact (hno p.2).1 ht
    · intro x i hx
      have hxe : x ≠ e := by rintro rfl; rw [k_se, upd_same] at hx; cases hx
      have hxT : T.se x = .live := by
        rw [se6 x hxe] at hx
        split at hx
        · cases hx
        · exact hx
      rw [meVertex_ok (alloc_of_live hx), meVertex_ok (alloc_of_live hxT), k_ev, M.ev, D.ev x hxT]
      unfold repl endAt
      cases i <;> simp only [Bool.false_eq_true, if_false, if_true, Res.ok.injEq] <;> split <;> rfl
    · intro f hf; rw [k_sf]; exact D.flat f hf
    · intro f hf; rw [k_sf]; exact D.sf f hf
    · intro f vs hf hl
      rw [k_sf] at hf
      obtain ⟨vs', r1, r2⟩ := D.loops h C hf hl
      obtain ⟨vs4, s1, s2⟩ := M.loops f vs' hf r2
      refine ⟨vs4, s1.trans r1, ?_⟩
      have hf4 : T4.sf f = .live := by rw [M.sf]; exact hf
      obtain ⟨l, g1, g2, g3⟩ := s2.edgesOf M.consistent hf4
      have hsz := s2.size hf4
      rw [edgesOf_some g1] at g3
      refine Closed.loop (alloc_of_live (by rw [k_sf]; exact hf)) (by rw [k_fe]; exact g1) ?_ (by omega) ?_
      · intro x hx
        have := M.consistent.fedgesLive hf4 g1 x hx
        rw [k_se, upd_apply]
        split
        · decide
        · exact alloc_of_live this
      · rw [k_fd]; exact g3.congr k_ev
    · intro f h1 h2
      have hfe : ¬ T.FaceHas f e := fun hc => h1 ⟨e, C.at_u, hc⟩
      show T6.edgesOf f = T.edgesOf f
      rw [k_edges]
      have := M.away f fun y hy hfy => by
        have hyT := (D.faceHas.1 hfy).1
        rcases (hfst y ((hmem1 y).1 hy)).2.2 with hc | hc
        · exact h1 ⟨y, hc, hyT⟩
        · exact h2 ⟨y, hc, hyT⟩
      have : T4.edgesOf f = T3.edgesOf f := this
      rw [this, D.off_edges hfe]
    · have hn1 : (ms.map (·.1)).Nodup := by
        have := I.once
        rwa [List.map_reverse, List.nodup_reverse] at this
      have hfn : (tris.map Ent.face).Nodup := htn.map fun a b hab => by cases hab; rfl
      have hen : (ms.map (fun p => Ent.edge p.1)).Nodup := by
        have : ms.map (fun p => Ent.edge p.1) = (ms.map (·.1)).map Ent.edge := by rw [List.map_map]; rfl
        rw [this]; exact hn1.map fun a b hab => by cases hab; rfl
      have hpn : (ms.map (fun p => ((Ent.edge p.1, Ent.edge p.2) : Ent × Ent))).Nodup := by
        apply List.Nodup.of_map (f := Prod.fst)
        rw [List.map_map]; exact hen
      constructor
      · dsimp only
        rw [List.map_nil, List.append_nil]
        refine List.Nodup.append (List.Nodup.append hfn hen ?_) (by simp) ?_
        · intro z h1 h2
          obtain ⟨a, -, rfl⟩ := List.mem_map.1 h1
          obtain ⟨b, -, hb⟩ := List.mem_map.1 h2
          cases hb
        · intro z h1 h2
          rw [List.mem_append] at h1
          simp only [List.mem_cons, List.not_mem_nil, or_false] at h2
          rcases h1 with h1 | h1
          · obtain ⟨a, -, rfl⟩ := List.mem_map.1 h1
            rcases h2 with h2 | h2 <;> cases h2
          · obtain ⟨a, ha, rfl⟩ := List.mem_map.1 h1
            rcases h2 with h2 | h2
            · exact hee (by rw [← Ent.edge.inj h2]; exact List.mem_map_of_mem (f := (·.1)) ha)
            · cases h2
      · dsimp only
        rw [List.map_nil, List.append_nil]
        refine List.nodup_cons.2 ⟨?_, hpn⟩
        intro hc
        obtain ⟨b, -, hb⟩ := List.mem_map.1 hc
        cases hb
    · intro z
      dsimp only
      rw [List.map_nil, List.append_nil, List.mem_append, List.mem_append]
      simp only [List.mem_cons, List.not_mem_nil, or_false, List.mem_map]
      cases z with
      | vertex w =>
        simp only [stateOf, Ent.vertex.injEq, reduceCtorEq, and_false, exists_false, false_or]
        rw [k_sv, upd_apply]
        constructor
        · rintro rfl; rw [if_pos rfl]; exact ⟨hul, by simp⟩
        · rintro ⟨a, b⟩
          by_contra hc
          rw [if_neg hc] at b; exact b a
      | edge x =>
        simp only [stateOf, Ent.edge.injEq, reduceCtorEq, and_false, exists_false, false_or, or_false]
        constructor
        · rintro (⟨p, hp, rfl⟩ | rfl)
          · have hx := List.mem_map_of_mem (f := (·.1)) hp
            obtain ⟨a, b, -⟩ := hfst _ hx
            rw [se6 _ a, if_pos hx]
            exact ⟨b, by simp⟩
          · rw [k_se, upd_same]; exact ⟨hel, by simp⟩
        · rintro ⟨a, b⟩
          by_cases hxe : x = e
          · exact Or.inr hxe
          · rw [se6 x hxe] at b
            by_cases hx : x ∈ ms.map (·.1)
            · obtain ⟨p, hp, hpx⟩ := List.mem_map.1 hx
              exact Or.inl ⟨p, hp, hpx⟩
            · rw [if_neg hx] at b; exact absurd a b
      | face f =>
        simp only [stateOf, Ent.face.injEq, exists_eq_right, reduceCtorEq, and_false, exists_false, or_false]
        rw [htm, k_sf]
        constructor
        · intro hf; rw [D.flat f hf]; exact ⟨hf.1.1, by simp⟩
        · rintro ⟨a, b⟩
          by_contra hc
          rw [D.sf f hc] at b; exact b a
      | region r =>
        simp only [stateOf, reduceCtorEq, and_false, exists_false, or_false, false_iff]
        rw [k_sr]; rintro ⟨a, b⟩; exact b a
    · intro p
      dsimp only
      rw [List.map_nil, List.append_nil, List.mem_cons, List.mem_map]
      refine or_congr Iff.rfl ?_
      constructor
      · rintro ⟨q, hq, rfl⟩
        have ht := (I.pairs q (by simpa using hq)).1
        have hx := List.mem_map_of_mem (f := (·.1)) hq
        refine ⟨q.2, q.1, (D.twin h C).1 ht, ?_, rfl⟩
        rw [se6 _ (hfst _ hx).1, if_pos hx]
      · rintro ⟨x, y, ht, hy, rfl⟩
        have ht := (D.twin h C).2 ht
        obtain ⟨ly, ny⟩ := twin_live y x ht.symm
        rw [se6 y ny] at hy
        by_cases hm : y ∈ ms.map (·.1)
        · exact ⟨(y, x), (pair x y ht hm).1, rfl⟩
        · rw [if_neg hm, ly] at hy; cases hy

end

end Topo
end MSTK
