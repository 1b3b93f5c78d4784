import Verif.SimplexLemmas
import Verif.SimplexFaceModel
import Verif.Props.RegionEdges

/-!
What `MF_Split_SimplexMesh` reads of the tetrahedra of a face.
-/
namespace MSTK
namespace Topo

/-- A tetrahedron can be turned so that a face seen from inside comes first. -/
theorem turn4_face {w : List Nat} (h4 : w.length = 4) {c c' : List Nat} (hc : c ∈ stdCycles w) (hr : c' ~r c.reverse) :
    ∃ t0 t1 t2 u, c' = [t0, t1, t2] ∧ Turn4 w [t0, t1, t2, u] := by
  match w, h4 with
  | [x0, x1, x2, x3], _ =>
    have hl : c'.length = 3 := by
      rw [hr.perm.length_eq, List.length_reverse]
      simp only [stdCycles, List.mem_cons, List.not_mem_nil, or_false] at hc
      rcases hc with rfl | rfl | rfl | rfl <;> rfl
    match c', hl with
    | [p, q, s], _ =>
      simp only [stdCycles, List.mem_cons, List.not_mem_nil, or_false] at hc
      rcases hc with rfl | rfl | rfl | rfl <;>
        simp only [List.reverse_cons, List.reverse_nil, List.nil_append, List.cons_append] at hr <;>
        rw [rot3] at hr <;> rcases hr with ⟨rfl, rfl, rfl⟩ | ⟨rfl, rfl, rfl⟩ | ⟨rfl, rfl, rfl⟩
      · exact ⟨_, _, _, x3, rfl, [1,2,0,3], by decide, rfl⟩
      · exact ⟨_, _, _, x3, rfl, [2,0,1,3], by decide, rfl⟩
      · exact ⟨_, _, _, x3, rfl, [0,1,2,3], by decide, rfl⟩
      · exact ⟨_, _, _, x2, rfl, [3,1,0,2], by decide, rfl⟩
      · exact ⟨_, _, _, x2, rfl, [1,0,3,2], by decide, rfl⟩
      · exact ⟨_, _, _, x2, rfl, [0,3,1,2], by decide, rfl⟩
      · exact ⟨_, _, _, x0, rfl, [3,2,1,0], by decide, rfl⟩
      · exact ⟨_, _, _, x0, rfl, [2,1,3,0], by decide, rfl⟩
      · exact ⟨_, _, _, x0, rfl, [1,3,2,0], by decide, rfl⟩
      · exact ⟨_, _, _, x1, rfl, [2,3,0,1], by decide, rfl⟩
      · exact ⟨_, _, _, x1, rfl, [3,0,2,1], by decide, rfl⟩
      · exact ⟨_, _, _, x1, rfl, [0,2,3,1], by decide, rfl⟩

/-- What is read of the tetrahedron `r` of the face `f`. -/
structure ReadAs (T : Topo) (f r : Nat) (d : Bool) (t0 t1 t2 u : Nat) : Prop where
  el : T.IsElement r [t0, t1, t2, u]
  dir : T.mrFaceDir r f = .ok (some d)
  seen : T.Seen f (!d) [t0, t1, t2]
  run : ∃ fs, T.mrFaces r = .ok fs ∧ T.faceOf f r fs [0,1,2,3] = .ok (some (d, [some t0, some t1, some t2])) ∧
    T.apexOf f d fs [0,1,2,3] = .ok (some u)

theorem readAs {T : Topo} (h : T.Consistent) (hl : T.AllLoops) {f r : Nat} (hrf : T.RegionHas r f) {w : List Nat}
    (h4 : w.length = 4) (el : T.IsElement r w) : ∃ d t0 t1 t2 u, T.ReadAs f r d t0 t1 t2 u := by
  obtain ⟨fs, E⟩ := el.elt h hl
  obtain ⟨fs', f1, -, -⟩ := el.faces
  have : fs' = fs := by have := (mrFaces_some f1).symm.trans E.rf; injection this
  subst this
  have hlen : fs'.length = 4 := by rw [E.len]; match w, h4 with | [_,_,_,_], _ => rfl
  have hm : f ∈ fs' := by have := ((regionHas_iff h).1 hrf).2; rw [E.rf] at this; exact this
  obtain ⟨j, hj⟩ := List.getElem?_of_mem hm
  obtain ⟨c, hc, d, sd⟩ := E.at_ j f hj
  obtain ⟨c', es, p1, p2, -⟩ := sd.plain (!d)
  rw [flipTo_not] at p1
  obtain ⟨t0, t1, t2, u, rfl, ht⟩ := turn4_face h4 hc p1
  have el' := el.turn4 h hl h4 ht
  obtain ⟨fs2, E'⟩ := el'.elt h hl
  have : fs2 = fs' := by have := E'.rf.symm.trans E.rf; injection this
  subst this
  have sd' : T.Side r fs2 j f d [t0, t2, t1] := sd.rotate (by
    have := p1.reverse
    rw [List.reverse_reverse] at this
    refine List.IsRotated.trans ?_ this
    exact rot3.2 (by simp))
  have hn := el'.nodup
  have hu : u ∉ [t0, t2, t1] := by
    simp only [List.nodup_cons, List.mem_cons, List.not_mem_nil, or_false, not_or, not_false_eq_true, List.nodup_nil, and_true] at hn ⊢
    obtain ⟨⟨n1, n2, n3⟩, ⟨n4, n5⟩, n6⟩ := hn
    exact ⟨Ne.symm n3, Ne.symm n6, Ne.symm n5⟩
  refine ⟨d, t0, t1, t2, u, el', (dirAt_ok h el.live E.rf hj).1 sd.dir, ?_, fs2, f1, ?_, ?_⟩
  · obtain ⟨ws, hw, hwn⟩ := hl f sd.live
    obtain ⟨ws', hw', hwn', hr'⟩ := sd'.loop
    rw [seen_iff sd.live hw' hwn' (by simp)]
    have := flipTo_turned (b := !d) hr'
    rw [flipTo_not] at this
    exact List.IsRotated.trans (rot3.2 (by simp)) this
  · have key : ∀ js : List Nat, (∀ k ∈ js, k < 4) → j ∈ js →
        T.faceOf f r fs2 js = .ok (some (d, [some t0, some t1, some t2])) := by
      intro js
      induction js with
      | nil => intro _ hx; cases hx
      | cons k js ih =>
        intro hk hjm
        have hkl : k < fs2.length := by rw [hlen]; exact hk k (by simp)
        unfold faceOf
        rw [List.getElem?_eq_getElem hkl, Res.ofOption_some, Res.bind_ok]
        by_cases hkf : fs2[k] = f
        · have : k = j := by
            have := idxOf_eq_of_nodup E.nodup (show fs2[k]? = some f by rw [List.getElem?_eq_getElem hkl, hkf])
            rw [← this, idxOf_eq_of_nodup E.nodup hj]
          subst this
          rw [if_pos hkf, sd.dir, Res.bind_ok, p2, Res.bind_ok]
          rfl
        · rw [if_neg hkf]
          refine ih (fun k' hk' => hk k' (by simp [hk'])) ?_
          rcases List.mem_cons.1 hjm with rfl | hjm
          · have := List.getElem?_eq_getElem hkl
            rw [hj] at this
            injection this with this
            exact absurd this.symm hkf
          · exact hjm
    refine key _ (by simp) ?_
    have := (List.getElem?_eq_some_iff.1 hj).1
    simp; omega
  · have found : ∀ k, k < 4 → ∀ js, k ≠ j → T.apexOf f d fs2 (k :: js) = .ok (some u) := by
      intro k hk js hkj
      have hkl : k < fs2.length := by rw [hlen]; exact hk
      have hkg := List.getElem?_eq_getElem hkl
      have hkf : fs2[k] ≠ f := by
        intro hkf
        rw [hkf] at hkg
        exact hkj ((idxOf_eq_of_nodup E.nodup hkg).symm.trans (idxOf_eq_of_nodup E.nodup hj))
      obtain ⟨c2, hc2, d2, s2⟩ := E'.at_ k _ hkg
      obtain ⟨c2', es2, q1, q2, -⟩ := s2.plain (!d)
      have hne : c2 ≠ [t0, t2, t1] := by
        rintro rfl
        exact hkj (E'.uniq _ hc2 _ _ _ _ _ _ s2 sd')
      have hmem : ∀ v, v ∈ c2' ↔ v ∈ c2 := fun v => (q1.perm.trans flipTo_perm).mem_iff
      have hl3 : c2'.length = 3 := by
        rw [(q1.perm.trans flipTo_perm).length_eq]
        simp only [stdCycles, List.mem_cons, List.not_mem_nil, or_false] at hc2
        rcases hc2 with rfl | rfl | rfl | rfl <;> rfl
      have hent : [0,1,2].map (entry (c2'.map some)) = c2'.map some := by
        match c2', hl3 with
        | [_,_,_], _ => rfl
      have hfa : T.findApex f (c2'.map some) = .ok (some u) := by
        refine findApex_one (fun x => sd'.usesVertex h (by simp) x) hu (fun x hx => ?_) ((hmem u).2 ?_)
        · rw [hmem] at hx
          simp only [stdCycles, List.mem_cons, List.not_mem_nil, or_false] at hc2 ⊢
          rcases hc2 with rfl | rfl | rfl | rfl <;> simp only [List.mem_cons, List.not_mem_nil, or_false] at hx <;> tauto
        · simp only [stdCycles, List.mem_cons, List.not_mem_nil, or_false] at hc2
          rcases hc2 with rfl | rfl | rfl | rfl
          · exact absurd rfl hne
          · simp
          · simp
          · simp
      unfold apexOf
      rw [hkg, Res.ofOption_some, Res.bind_ok, if_neg hkf, q2, Res.bind_ok, hent, hfa]
      rfl
    by_cases hj0 : 0 = j
    · unfold apexOf
      rw [hj0, hj, Res.ofOption_some, Res.bind_ok, if_pos rfl]
      exact found 1 (by omega) _ (by omega)
    · exact found 0 (by omega) _ hj0

theorem readFaceTets_ok {T : Topo} {f : Nat} {D : Nat → Bool} {B : Nat → Nat × Nat × Nat × Nat} : ∀ (rs : List Nat) (d0 : Bool),
    (∀ r ∈ rs, T.ReadAs f r (D r) (B r).1 (B r).2.1 (B r).2.2.1 (B r).2.2.2) →
    T.readFaceTets f d0 rs = .ok (rs.map fun r => some [some (B r).1, some (B r).2.1, some (B r).2.2.1, some (B r).2.2.2]) := by
  intro rs
  induction rs with
  | nil => intro _ _; rfl
  | cons r rs ih =>
    intro d0 he
    obtain ⟨fs, k1, k2, k3⟩ := (he r (by simp)).run
    unfold readFaceTets
    rw [k1, Res.bind_ok, k2, Res.bind_ok]
    show (T.apexOf f (D r) fs [0,1,2,3] >>= _) = _
    rw [k3, Res.bind_ok, Option.map_some, Option.getD_some, ih (D r) fun r' hr' => he r' (by simp [hr']), Res.bind_ok]
    rfl

end Topo
end MSTK
