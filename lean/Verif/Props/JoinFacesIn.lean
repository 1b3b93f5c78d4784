import Verif.Props.JoinFaces

/-!
C52 in a solid mesh: joining two faces of one or two regions (`MFs_Join` with `MR_Replace_Faces`).

`MR_Replace_Faces` with fewer new faces than old ones moves the direction bits of the faces behind the
removed one by calling the function that also moves the region to the other side of a face; this goes
unnoticed when the region uses all those faces in the same direction (`SameFrom`).  Otherwise the sides
are wrong afterwards (`C52_negation_region`).
-/
namespace MSTK
namespace Topo

/-! ### Specification -/

/-- Region `r` uses the faces that come after `f` in its list in the same direction as `f`; it can store
no more than 512 faces. -/
def SameFrom (T : Topo) (r f : Nat) : Prop :=
  ∃ l, T.mrFaces r = .ok l ∧ l.length ≤ 512 ∧ (∀ x ∈ l, ∃ es, T.mfEdges x true none = .ok es) ∧
    ∀ x ∈ l, l.idxOf f ≤ l.idxOf x → T.mrFaceDir r x = T.mrFaceDir r f

/-- The faces `f0` and `f1` and the edge `e` have made way for the new face `g`, also in their regions. -/
structure FacesJoinedIn (T T' : Topo) (e f0 f1 a b : Nat) (ps qs : List Nat) (xs ys : List (Nat × Bool))
    (g : Nat) : Prop where
  consistent : T'.Consistent
  fresh : T.sf g = .unused
  vertices : T'.view.sv = T.view.sv
  edges : T'.view.se = upd T.view.se e .freed
  ends : T'.view.ends = T.view.ends
  faces : T'.view.sf = upd (upd (upd T.view.sf g .live) f0 .freed) f1 .freed
  bounded : T'.view.edges = upd T.view.edges g (xs ++ ys)
  loop : T'.Loop g (b :: ps ++ a :: qs)
  regions : T'.view.sr = T.view.sr
  /-- a region of the two faces has the new one in their place, in the direction of the first -/
  inside : ∀ r, T.RegionHas r f0 → T'.Typed r ∧ ∃ d, T.mrFaceDir r f0 = .ok (some d) ∧
    (T'.view.faces r).Perm ((g, d) :: (T.view.faces r).filter fun p => p.1 ≠ f0 ∧ p.1 ≠ f1)
  others : ∀ r, ¬ T.RegionHas r f0 → T'.view.faces r = T.view.faces r ∧ T'.mrElementType r = T.mrElementType r

/-! ### taking a face out of a region -/

theorem shiftDirs_same {T : Topo} {r : Nat} (hr : (T.sr r).alloc) : ∀ (n ii : Nat),
    (∀ j, ii ≤ j → j ≤ ii + n → j / 32 < (T.rd r).length) →
    (∀ j, ii ≤ j → j < ii + n → rbit (T.rd r) j = rbit (T.rd r) (j+1)) → shiftDirs r n ii T = .ok T := by
  intro n
  induction n with
  | zero => intro ii _ _; rfl
  | succ n ih =>
    intro ii hw h
    have hd : ∀ j, ii ≤ j → j ≤ ii + (n+1) → T.mrFaceDir_i r j = .ok (rbit (T.rd r) j) := by
      intro j h1 h2
      unfold mrFaceDir_i
      rw [derefR_ok hr, Res.bind_ok, getW_ok (hw j h1 h2)]
    rw [show shiftDirs r (n+1) ii T = (do
      let a ← T.mrFaceDir_i r ii
      let b ← T.mrFaceDir_i r (ii+1)
      if a ≠ b then
        let T ← T.mrSetFaceDir_i r ii b
        shiftDirs r n (ii+1) T
      else shiftDirs r n (ii+1) T) from rfl, hd ii (by omega) (by omega), Res.bind_ok,
      hd (ii+1) (by omega) (by omega), Res.bind_ok, if_neg (by simpa using h ii (by omega) (by omega))]
    exact ih (ii+1) (fun j h1 h2 => hw j (by omega) (by omega)) (fun j h1 h2 => h j (by omega) (by omega))

theorem Consistent.dropFace {T : Topo} (h : T.Consistent) {r k f : Nat} {l : List Nat} (hr : T.sr r = .live)
    (hl : T.rf r = some l) (hk : l[k]? = some f)
    (hsame : ∀ j, k ≤ j → j + 1 < l.length → rbit (T.rd r) j = rbit (T.rd r) (j+1)) :
    Consistent { T with rf := upd T.rf r (some (l.eraseIdx k)), fr := upd T.fr f (remRegion (T.fr f) r) } ∧
      facesOf (upd T.rf r (some (l.eraseIdx k))) T.rd r = (facesOf T.rf T.rd r).eraseIdx k := by
  have hok := h.reg r l (alloc_of_live hr) hl
  have hkl := (List.getElem?_eq_some_iff.1 hk).1
  have h3 : pairs (l.eraseIdx k) (rbit (T.rd r)) = (pairs l (rbit (T.rd r))).eraseIdx k := by
    refine pairs_eraseIdx hkl ?_
    intro j hj
    by_cases hkj : k ≤ j
    · rw [if_pos hkj]; exact hsame j hkj (by omega)
    · rw [if_neg hkj]
  have hfo : facesOf (upd T.rf r (some (l.eraseIdx k))) T.rd r = (pairs l (rbit (T.rd r))).eraseIdx k := by
    unfold facesOf
    rw [upd_same, Option.getD_some, h3]
  refine ⟨⟨h.ve, h.ef, ?_, ?_, h.newV, h.newE, h.newF, h.newR⟩, by rw [hfo, facesOf_some hl]⟩
  · refine h.fr.regions (fun z => z = r) (fun _ _ => rfl)
      (fun z hz => by dsimp only; unfold facesOf; rw [upd_ne _ _ hz]) ?_ ?_ ?_
    · intro x hx z hz d
      dsimp only
      rw [upd_apply]
      split
      · rename_i hxf; subst hxf; rw [endAt_remRegion (h.notBoth hx)]; simp [hz]
      · rfl
    · intro x hx z hz d
      subst hz
      dsimp only
      rw [hfo, and_iff_right hr, mem_eraseIdx_pairs hok.1 hk, upd_apply]
      split
      · rename_i hxf; subst hxf; rw [endAt_remRegion (h.notBoth hx)]; simp
      · rename_i hxf
        rw [h.fr.mem x hx, facesOf_some hl, and_iff_right hr]
        simp [hxf]
    · intro z hz x d _ hm
      subst hz
      dsimp only at hm
      rw [hfo] at hm
      exact h.rfacesLive hr (by rw [hl]; exact mem_of_mem_pairs (List.mem_of_mem_eraseIdx hm))
  · intro z l' hz hl'
    dsimp only at hl' ⊢
    by_cases hzr : z = r
    · subst hzr
      rw [upd_same] at hl'
      injection hl' with hl'
      subst hl'
      refine ⟨(List.eraseIdx_sublist _ _).nodup hok.1, ?_⟩
      rw [List.length_eraseIdx_of_lt hkl]
      have := hok.2
      have : (l.length - 1)/32 ≤ l.length/32 := Nat.div_le_div_right (by omega)
      omega
    · rw [upd_ne _ _ hzr] at hl'
      exact h.reg z l' hz hl'

/-- the loop over the positions when no new face is left -/
theorem replaceOne_drop {T : Topo} (h : T.Consistent) {r k f : Nat} {l : List Nat} (hr : T.sr r = .live)
    (hl : T.rf r = some l) (hk : l[k]? = some f)
    (hsame : ∀ j, k ≤ j → j + 1 < l.length → rbit (T.rd r) j = rbit (T.rd r) (j+1)) :
    ∀ n i, i ≤ k → k < i + n → replaceOne r f l.length n i (T, []) =
      .ok ({ T with rf := upd T.rf r (some (l.eraseIdx k)), fr := upd T.fr f (remRegion (T.fr f) r) }, []) := by
  have hok := h.reg r l (alloc_of_live hr) hl
  have hkl := (List.getElem?_eq_some_iff.1 hk).1
  have hfl : T.sf f = .live := h.rfacesLive hr (by rw [hl]; exact List.mem_of_getElem? hk)
  intro n
  induction n with
  | zero => intro i h1 h2; omega
  | succ n ih =>
    intro i h1 h2
    rw [show replaceOne r f l.length (n+1) i (T, []) = (do
      let l' ← T.rfaces r
      if l'[i]? = some f then
        let p ← replaceFound r f l.length i T []
        replaceOne r f l.length n (i+1) p
      else replaceOne r f l.length n (i+1) (T, [])) from rfl, rfaces_ok (alloc_of_live hr) hl, Res.bind_ok]
    by_cases hik : i = k
    · subst hik
      rw [if_pos hk]
      rw [show replaceFound r f l.length i T [] = (do
        let T ← shiftDirs r (l.length - 1 - i) i T
        let l ← T.rfaces r
        let T ← mfRemRegion { T with rf := upd T.rf r (some (l.eraseIdx i)) } f r
        pure (T, [])) from rfl,
        shiftDirs_same (alloc_of_live hr) _ _ (fun j _ _ => hok.word (by omega))
          (fun j h1 h2 => hsame j h1 (by omega)), Res.bind_ok, rfaces_ok (alloc_of_live hr) hl, Res.bind_ok,
        mfRemRegion_ok (by exact alloc_of_live hfl), Res.bind_ok]
      refine replaceOne_absent (l := l.eraseIdx i) (by exact alloc_of_live hr) (by exact upd_same _ _ _) ?_ _ _
      intro hc
      obtain ⟨j, hj⟩ := List.mem_iff_getElem?.1 hc
      rw [List.getElem?_eraseIdx] at hj
      split at hj
      · have := getElem?_inj_nodup hok.1 hj hk; omega
      · have := getElem?_inj_nodup hok.1 hj hk; omega
    · have hne : l[i]? ≠ some f := fun hc => hik (getElem?_inj_nodup hok.1 hc hk)
      rw [if_neg hne]
      exact ih (i+1) (by omega) (by omega)

/-- `MR_Replace_Faces` of two faces by one. -/
theorem replaceTwo_ok {T : Topo} (h : T.Consistent) {r f0 f1 g k0 k1 : Nat} {l : List Nat} {d : Bool}
    (hr : T.sr r = .live) (hl : T.rf r = some l) (h0 : l[k0]? = some f0) (h1 : l[k1]? = some f1) (hne : f0 ≠ f1)
    (hd : rbit (T.rd r) k0 = d) (hlim : l.length ≤ 512) (hg : T.sf g = .live) (hgl : g ∉ l)
    (hfree : endAt (T.fr g) (!d) = none) (hs1 : T.Sized l) (hs2 : T.Sized [g])
    (hsame : ∀ j, k1 ≤ j → j + 1 < l.length → rbit (T.rd r) j = rbit (T.rd r) (j+1)) :
    ∃ T', T.mrReplaceFaces r [f0, f1] [(g, d)] = .ok T' ∧ T'.Consistent ∧ OnlyFaces T T' r ∧ T'.TypeStored r ∧
      facesOf T'.rf T'.rd r = ((facesOf T.rf T.rd r).set k0 (g, d)).eraseIdx k1 := by
  have hok := h.reg r l (alloc_of_live hr) hl
  have hl0 := (List.getElem?_eq_some_iff.1 h0).1
  have hl1 := (List.getElem?_eq_some_iff.1 h1).1
  have hk01 : k0 ≠ k1 := by rintro rfl; rw [h0] at h1; injection h1 with h1; exact hne h1
  obtain ⟨w, g1, g2, -, g4⟩ := growW_ok (nold := 2) (nnew := 1) hok.2
  have hbit : ∀ j, j < l.length → rbit w j = rbit (T.rd r) j := fun j hj => g4 j (by
    have : j/32 ≤ l.length/32 := Nat.div_le_div_right (by omega)
    omega)
  obtain ⟨hc, he⟩ := h.grow (w := w) (alloc_of_live hr) hl hbit g2
  obtain ⟨T1, i1, i2, i3, i4, i5, -, i7, i8⟩ := replaceOne_ok (nf := l.length) hc (k := k0) (f := f0) (g := g) (d := d) [] hr hl h0
    hg hgl hfree (by omega)
  dsimp only at i7
  rw [he] at i7
  have hr1 : T1.sr r = .live := by rw [i3.sr]; exact hr
  have h1' : (l.set k0 g)[k1]? = some f1 := by rw [List.getElem?_set_ne hk01]; exact h1
  have hbits : ∀ j, j < l.length → rbit (T1.rd r) j = rbit (T.rd r) j := by
    intro j hj
    have e1 : (facesOf T1.rf T1.rd r)[j]? = ((facesOf T.rf T.rd r).set k0 (g, d))[j]? := by rw [i7]
    rw [facesOf_some i5, facesOf_some hl, getElem?_pairs] at e1
    by_cases hj0 : k0 = j
    · subst hj0
      rw [List.getElem?_set_self hj, List.getElem?_set_self (by rw [pairs_length]; exact hj)] at e1
      simp only [Option.map_some, Option.some.injEq, Prod.mk.injEq] at e1
      rw [e1.2, hd]
    · rw [List.getElem?_set_ne hj0, List.getElem?_set_ne hj0, getElem?_pairs, List.getElem?_eq_getElem hj] at e1
      simp only [Option.map_some, Option.some.injEq, Prod.mk.injEq] at e1
      exact e1.2
  have hsame1 : ∀ j, k1 ≤ j → j + 1 < (l.set k0 g).length → rbit (T1.rd r) j = rbit (T1.rd r) (j+1) := by
    intro j hj hj1
    rw [List.length_set] at hj1
    rw [hbits j (by omega), hbits (j+1) hj1, hsame j hj hj1]
  have hdrop := replaceOne_drop i2 hr1 i5 h1' hsame1 l.length 0 (Nat.zero_le _) (by omega)
  rw [List.length_set] at hdrop
  obtain ⟨j1, j2⟩ := i2.dropFace hr1 i5 h1' hsame1
  generalize hT2 : ({ T1 with rf := upd T1.rf r (some ((l.set k0 g).eraseIdx k1)), fr := upd T1.fr f1 (remRegion (T1.fr f1) r) } : Topo) = T2 at hdrop j1
  have hO : OnlyFaces T T2 r := by
    refine OnlyFaces.trans (T1 := { T with rd := upd T.rd r w }) ?_ (i3.trans ?_)
    · exact ⟨rfl, rfl, rfl, rfl, rfl, rfl, rfl, rfl, rfl, fun _ _ => rfl, fun _ _ => rfl, fun z hz => upd_ne _ _ hz⟩
    · rw [← hT2]
      exact ⟨rfl, rfl, rfl, rfl, rfl, rfl, rfl, rfl, rfl, fun _ _ => rfl, fun z hz => upd_ne _ _ hz, fun _ _ => rfl⟩
  have hr2 : T2.sr r = .live := by rw [hO.sr]; exact hr
  have hl2 : T2.rf r = some ((l.set k0 g).eraseIdx k1) := by rw [← hT2]; exact upd_same _ _ _
  have hfo : facesOf T2.rf T2.rd r = ((facesOf T.rf T.rd r).set k0 (g, d)).eraseIdx k1 := by
    rw [← i7, ← j2, ← hT2]
  have hsized : ∀ x ∈ (l.set k0 g).eraseIdx k1, ∃ m, T2.fe x = some m := by
    intro x hx
    rw [hO.fe]
    rcases List.mem_or_eq_of_mem_set (List.mem_of_mem_eraseIdx hx) with hx | hx
    · exact hs1 x hx
    · subst hx; exact hs2 x (by simp)
  refine ⟨_, ?_, j1.retype (upd T2.rt r (typeOf T2 ((l.set k0 g).eraseIdx k1))), ?_, ⟨_, hl2, ?_, hsized⟩, hfo⟩
  · unfold mrReplaceFaces
    rw [rfaces_ok (alloc_of_live hr) hl, Res.bind_ok, show [f0, f1].length = 2 from rfl,
      show [(g, d)].length = 1 from rfl, g1, Res.bind_ok,
      show ∀ p, replaceOld r l.length [f0, f1] p = (replaceOne r f0 l.length l.length 0 p >>= fun p =>
        replaceOne r f1 l.length l.length 0 p >>= fun p => .ok p) from fun p => rfl,
      i1 l.length 0 (Nat.zero_le _) (by omega), Res.bind_ok, hdrop, Res.bind_ok, Res.bind_ok]
    dsimp only
    rw [show addLeft r [] T2 = .ok T2 from rfl, Res.bind_ok, mrUpdateType_ok (alloc_of_live hr2) hl2]
    intro x hx
    exact ⟨alloc_of_live (j1.rfacesLive hr2 (by rw [hl2]; exact hx)), hsized x hx⟩
  · exact ⟨hO.sv, hO.ve, hO.se, hO.ev, hO.ef, hO.sf, hO.fe, hO.fd, hO.sr,
      fun z hz => (upd_ne _ _ hz).trans (hO.rt z hz), hO.rf, hO.rd⟩
  · dsimp only
    rw [upd_same]
    rfl

/-! ### the list of faces afterwards -/

theorem twoForOne_perm {ps : List (Nat × Bool)} {k0 k1 f0 f1 g : Nat} {d d0 d1 : Bool}
    (hn : (ps.map (·.1)).Nodup) (h0 : ps[k0]? = some (f0, d0)) (h1 : ps[k1]? = some (f1, d1)) (hne : f0 ≠ f1)
    (hg : g ∉ ps.map (·.1)) :
    ((ps.set k0 (g, d)).eraseIdx k1).Perm ((g, d) :: ps.filter fun p => p.1 ≠ f0 ∧ p.1 ≠ f1) := by
  have hk : k0 ≠ k1 := by rintro rfl; rw [h0] at h1; cases h1; exact hne rfl
  obtain ⟨l0, e0⟩ := List.getElem?_eq_some_iff.1 h0
  obtain ⟨l1, e1⟩ := List.getElem?_eq_some_iff.1 h1
  have hg0 : g ≠ f0 := by rintro rfl; exact hg (List.mem_map.2 ⟨_, List.mem_of_getElem? h0, rfl⟩)
  have hg1 : g ≠ f1 := by rintro rfl; exact hg (List.mem_map.2 ⟨_, List.mem_of_getElem? h1, rfl⟩)
  have p0 := List.getElem_cons_eraseIdx_perm l0
  rw [e0] at p0
  have p1 := List.set_perm_cons_eraseIdx l0 (g, d)
  have p2 := List.getElem_cons_eraseIdx_perm (l := ps.set k0 (g, d)) (n := k1) (by rw [List.length_set]; exact l1)
  rw [List.getElem_set_ne hk, e1] at p2
  have p3 := p2.trans p1
  generalize (ps.set k0 (g, d)).eraseIdx k1 = R at p3 ⊢
  generalize ps.eraseIdx k0 = S at p0 p3
  have hn0 := (p0.map (·.1)).nodup_iff.2 hn
  have hg' : g ∉ ((f0, d0) :: S).map (·.1) := fun hc => hg ((p0.map (·.1)).mem_iff.1 hc)
  simp only [List.map_cons, List.nodup_cons, List.mem_cons, not_or] at hn0 hg'
  have hn1 : (((g, d) :: S).map (·.1)).Nodup := by
    simp only [List.map_cons, List.nodup_cons]; exact ⟨hg'.2, hn0.2⟩
  have hn2 := (p3.map (·.1)).nodup_iff.2 hn1
  simp only [List.map_cons, List.nodup_cons] at hn2
  have hR : R.filter (fun p => p.1 ≠ f0 ∧ p.1 ≠ f1) = R := by
    rw [List.filter_eq_self]
    intro p hp
    have m : p.1 ∈ R.map (·.1) := List.mem_map_of_mem (f := (·.1)) hp
    simp only [ne_eq, decide_eq_true_iff]
    refine ⟨fun hc => ?_, fun hc => hn2.1 (hc ▸ m)⟩
    have : p ∈ (g, d) :: S := p3.mem_iff.1 (List.mem_cons_of_mem _ hp)
    rcases List.mem_cons.1 this with rfl | hm
    · exact hg0 hc
    · exact hn0.1 (hc ▸ List.mem_map_of_mem (f := (·.1)) hm)
  have q1 := p3.filter (fun p => p.1 ≠ f0 ∧ p.1 ≠ f1)
  have q0 := p0.filter (fun p => p.1 ≠ f0 ∧ p.1 ≠ f1)
  rw [List.filter_cons_of_neg (by simp), List.filter_cons_of_pos (by simp [hg0, hg1]), hR] at q1
  rw [List.filter_cons_of_neg (by simp)] at q0
  exact q1.trans (q0.cons _)

/-- both faces of region `r` can be exchanged for `g` -/
structure Ready2 (T : Topo) (f0 f1 g r : Nat) (d : Bool) : Prop where
  live : T.sr r = .live
  has : (f0, d) ∈ facesOf T.rf T.rd r
  free : ∀ z, T.sr z = .live → (g, d) ∉ facesOf T.rf T.rd z
  rest : ∃ l k1, T.rf r = some l ∧ l[k1]? = some f1 ∧ l.length ≤ 512 ∧ g ∉ l ∧ T.Sized l ∧
    ∀ j, k1 ≤ j → j + 1 < l.length → rbit (T.rd r) j = rbit (T.rd r) (j+1)

/-- joinInRegion for several regions -/
def joinInRegions (f0 f1 g : Nat) : List Nat → Topo → Res Topo
  | [], T => .ok T
  | r :: rs, T => joinInRegion f0 f1 g (some r) T >>= joinInRegions f0 f1 g rs

theorem joinInRegions_ok {f0 f1 g : Nat} (hne : f0 ≠ f1) : ∀ (rs : List Nat) (T : Topo), T.Consistent →
    T.sf f0 = .live → T.sf g = .live → T.Sized [g] → rs.Nodup → (∀ r ∈ rs, ∃ d, Ready2 T f0 f1 g r d) →
    ∃ T', joinInRegions f0 f1 g rs T = .ok T' ∧ T'.Consistent ∧ OnlyRegions T T' rs ∧
      ∀ r ∈ rs, T'.TypeStored r ∧ ∃ d, (f0, d) ∈ facesOf T.rf T.rd r ∧
        (facesOf T'.rf T'.rd r).Perm ((g, d) :: (facesOf T.rf T.rd r).filter fun p => p.1 ≠ f0 ∧ p.1 ≠ f1) := by
  intro rs
  induction rs with
  | nil =>
    intro T h _ _ _ _ _
    exact ⟨T, rfl, h, ⟨rfl, rfl, rfl, rfl, rfl, rfl, rfl, rfl, rfl, fun _ _ => ⟨rfl, rfl, rfl⟩⟩, by simp⟩
  | cons r rs ih =>
    intro T h hf hg hsg hrs hall
    obtain ⟨hrn, hrs'⟩ := List.nodup_cons.1 hrs
    obtain ⟨d, hr⟩ := hall r (by simp)
    obtain ⟨l, k1, hl, hk1, hlim, hgl, hs, hsame⟩ := hr.rest
    obtain ⟨k0, hk0⟩ := List.mem_iff_getElem?.1 hr.has
    have hfo : facesOf T.rf T.rd r = pairs l (rbit (T.rd r)) := facesOf_some hl
    have hl0 : l[k0]? = some f0 ∧ rbit (T.rd r) k0 = d := by
      rw [hfo, getElem?_pairs] at hk0
      cases hx : l[k0]? with
      | none => rw [hx] at hk0; cases hk0
      | some x => rw [hx] at hk0; cases hk0; exact ⟨rfl, rfl⟩
    obtain ⟨T1, r1, h1, h2, h3, h4⟩ := replaceTwo_ok h hr.live hl hl0.1 hk1 hne hl0.2 hlim hg hgl (by
      cases hc : endAt (T.fr g) (!d) with
      | none => rfl
      | some z =>
        obtain ⟨hz1, hz2⟩ := (h.fr.mem g (alloc_of_live hg) z d).1 hc
        exact absurd hz2 (hr.free z hz1)) hs hsg hsame
    have hperm : (facesOf T1.rf T1.rd r).Perm
        ((g, d) :: (facesOf T.rf T.rd r).filter fun p => p.1 ≠ f0 ∧ p.1 ≠ f1) := by
      rw [h4]
      refine twoForOne_perm (d1 := rbit (T.rd r) k1) ?_ hk0 ?_ hne ?_
      · rw [facesOf_map_fst, hl]; exact (h.reg r l (alloc_of_live hr.live) hl).1
      · rw [hfo, getElem?_pairs, hk1]; rfl
      · rw [facesOf_map_fst, hl]; exact hgl
    have hsm : ∀ z, z ≠ r → facesOf T1.rf T1.rd z = facesOf T.rf T.rd z := by
      intro z hz; unfold facesOf; rw [h2.rf z hz, h2.rd z hz]
    have hready : ∀ z ∈ rs, ∃ d, Ready2 T1 f0 f1 g z d := by
      intro z hz
      have hzr : z ≠ r := by rintro rfl; exact hrn hz
      obtain ⟨d', hr'⟩ := hall z (by simp [hz])
      have hdd : d' ≠ d := by
        rintro rfl
        have e1 := (h.fr.mem f0 (alloc_of_live hf) r d').2 ⟨hr.live, hr.has⟩
        have e2 := (h.fr.mem f0 (alloc_of_live hf) z d').2 ⟨hr'.live, hr'.has⟩
        rw [e1] at e2; injection e2 with e2; exact hzr e2.symm
      refine ⟨d', by rw [h2.sr]; exact hr'.live, by rw [hsm z hzr]; exact hr'.has, ?_, ?_⟩
      · intro y hy hc
        rw [h2.sr] at hy
        by_cases hyr : y = r
        · subst hyr
          rcases List.mem_cons.1 (hperm.mem_iff.1 hc) with hc | hc
          · cases hc; exact hdd rfl
          · exact hr'.free y hy (List.mem_filter.1 hc).1
        · rw [hsm y hyr] at hc; exact hr'.free y hy hc
      · obtain ⟨l', k', q1, q2, q3, q4, q5, q6⟩ := hr'.rest
        refine ⟨l', k', by rw [h2.rf z hzr]; exact q1, q2, q3, q4, ?_, by rw [h2.rd z hzr]; exact q6⟩
        intro x hx; rw [h2.fe]; exact q5 x hx
    obtain ⟨T2, r2, k1, k2, k3⟩ := ih T1 h1 (by rw [h2.sf]; exact hf) (by rw [h2.sf]; exact hg)
      (by intro x hx; rw [h2.fe]; exact hsg x hx) hrs' hready
    refine ⟨T2, ?_, k1, ?_, ?_⟩
    · rw [show joinInRegions f0 f1 g (r :: rs) T = ((T.mrFaceDir r f0 >>= fun d => Res.ofOption d >>= fun d =>
        T.mrReplaceFaces r [f0, f1] [(g, d)]) >>= fun T => joinInRegions f0 f1 g rs T) from rfl,
        (mrFaceDir_iff h hr.live).2 hr.has, Res.bind_ok, Res.ofOption_some, Res.bind_ok, r1, Res.bind_ok, r2]
    · refine ⟨k2.sv.trans h2.sv, k2.ve.trans h2.ve, k2.se.trans h2.se, k2.ev.trans h2.ev, k2.ef.trans h2.ef,
        k2.sf.trans h2.sf, k2.fe.trans h2.fe, k2.fd.trans h2.fd, k2.sr.trans h2.sr, ?_⟩
      intro z hz
      rw [List.mem_cons, not_or] at hz
      obtain ⟨a1, a2, a3⟩ := k2.rest z hz.2
      exact ⟨a1.trans (h2.rt z hz.1), a2.trans (h2.rf z hz.1), a3.trans (h2.rd z hz.1)⟩
    · intro z hz
      rcases List.mem_cons.1 hz with rfl | hz
      · obtain ⟨a1, a2, a3⟩ := k2.rest z hrn
        have hfz : facesOf T2.rf T2.rd z = facesOf T1.rf T1.rd z := by unfold facesOf; rw [a2, a3]
        exact ⟨h3.congr a2 a1 (fun x _ => by rw [k2.fe]), d, hr.has, by rw [hfz]; exact hperm⟩
      · have hzr : z ≠ r := fun hc => hrn (hc ▸ hz)
        obtain ⟨b1, d', b2, b3⟩ := k3 z hz
        rw [hsm z hzr] at b2 b3
        exact ⟨b1, d', b2, b3⟩

/-- **C52 in a solid mesh.**  Two faces between the same regions are joined across their common edge: the new face takes
the place of both in these regions, in the direction in which they used the first one, and everything else is as in a
surface mesh; provided each of the regions uses the faces behind the second one in the same direction. -/
theorem C52_join_in_regions_partial {T : Topo} (h : T.Consistent) (cls : Nat → Nat × Nat) {e f0 f1 a b : Nat}
    {ps qs : List Nat} {d : Bool} {xs ys : List (Nat × Bool)} (hd : T.Across e f0 f1 a b ps qs d xs ys)
    (hreg : T.mfRegions f0 = T.mfRegions f1) (hdir : ∀ r, T.RegionHas r f0 → T.SameFrom r f1)
    (hsmall : xs.length + ys.length ≤ 32) :
    ∃ T' g, T.mfsJoin cls f0 f1 e = .ok (T', some g) ∧ FacesJoinedIn T T' e f0 f1 a b ps qs xs ys g := by
  obtain ⟨he, hends, hfaces, hne, ⟨us0, hu0, hn0, hu0'⟩, hp0, ⟨us1, hu1, hn1, hu1'⟩, hp1, ho0, ho1⟩ := hd
  have hf0 : T.sf f0 = .live := ((hfaces f0).2 (Or.inl rfl)).1
  have hf1 : T.sf f1 = .live := ((hfaces f1).2 (Or.inr rfl)).1
  have hLe : Leads T e d a b := hends
  obtain ⟨c0, q0, k0, i0, j0⟩ := startAt_ok h hf0 hu0 hn0 hu0' hp0 ho0 hLe
  obtain ⟨c1, q1, k1, i1, j1⟩ := startAt_ok h hf1 hu1 hn1 hu1' hp1 ho1 hLe.flip
  have hc := c0.join c1
  obtain ⟨L0, m0, hL0, g0⟩ := C22_face_regions h hf0
  obtain ⟨L1, m1, -, g1⟩ := C22_face_regions h hf1
  have hL01 : L1 = L0 := by rw [m0, m1] at hreg; exact (Res.ok.inj hreg).symm
  subst hL01
  have hL2 : (L1.getD []).length ≤ 2 := by
    have : T.mfRegions f0 = .ok (orNull ((T.fr f0).1.toList ++ (T.fr f0).2.toList)) := by
      unfold mfRegions; rw [derefF_ok (alloc_of_live hf0)]; rfl
    rw [this] at m0
    cases m0
    rw [orNull_getD]
    rcases T.fr f0 with ⟨a, b⟩
    cases a <;> cases b <;> simp
  generalize hrs : L1.getD [] = rs at hL0 g0 g1 hL2
  have hliv : ∀ {f : Nat} {us : List Nat} {x : Nat × Bool} {zs : List (Nat × Bool)}, T.sf f = .live → T.Loop f us →
      T.view.edges f ~r (x :: zs) → ∀ p ∈ zs, T.se p.1 = .live := by
    intro f us x zs hf hl hr p hp
    obtain ⟨l, hfe, -, -, -⟩ := hl.stored (alloc_of_live hf)
    have hv : T.view.edges f = pairs l (fbit (T.fd f)) := edgesOf_some hfe
    have hm : p ∈ T.view.edges f := hr.mem_iff.2 (List.mem_cons_of_mem _ hp)
    rw [hv] at hm
    have := List.mem_map_of_mem (f := (·.1)) hm
    rw [pairs_map_fst] at this
    exact h.fedgesLive hf hfe _ this
  -- the new face
  obtain ⟨T1, r1, h1, s1, -, s3, s4, s5, s6, s7, s8, s9, s10, s11, s12, -, s14, s15, -⟩ :=
    newFaceE_ok h (es := xs ++ ys) (by simp; omega) (by
      intro p hp
      rcases List.mem_append.1 hp with hp | hp
      · exact hliv hf0 hu0 hp0 p hp
      · exact hliv hf1 hu1 hp1 p hp)
  have hfu : T.sf T.nf = .unused := h.newF _ (Nat.le_refl _)
  have hg0 : f0 ≠ T.nf := by rintro rfl; rw [hfu] at hf0; cases hf0
  have hg1 : f1 ≠ T.nf := by rintro rfl; rw [hfu] at hf1; cases hf1
  have hunused : ∀ z, T.sr z = .live → T.nf ∉ (T.rf z).getD [] := by
    intro z hz hc
    have := h.rfacesLive hz hc
    rw [hfu] at this; cases this
  -- the regions
  obtain ⟨T2, r2, h2, h2o, h2r⟩ := joinInRegions_ok (g := T.nf) hne rs T1 h1 (by rw [s5, upd_ne _ _ hg0]; exact hf0)
    (by rw [s5, upd_same]) (by intro x hx; cases List.mem_singleton.1 hx; rw [s6, upd_same]; exact ⟨_, rfl⟩) hL0 (by
    intro r hr
    have hrh0 := (g0 r).1 hr
    obtain ⟨hrl, hm0⟩ := (regionHas_iff h).1 hrh0
    obtain ⟨-, hm1⟩ := (regionHas_iff h).1 ((g1 r).1 hr)
    obtain ⟨d', hd'⟩ := mem_facesOf_iff.1 hm0
    refine ⟨d', by rw [s9]; exact hrl, by rw [s10, s11]; exact hd', ?_, ?_⟩
    · intro z hz hc
      rw [s9] at hz; rw [s10, s11] at hc
      exact hunused z hz (mem_facesOf_iff.2 ⟨_, hc⟩)
    · obtain ⟨l, hl1, hl2, hl3, hl4⟩ := hdir r hrh0
      have hl : T.rf r = some l := by
        unfold mrFaces rfaces at hl1
        rw [derefR_ok (alloc_of_live hrl), Res.bind_ok] at hl1
        cases hx : T.rf r with
        | none => rw [hx] at hl1; cases hl1
        | some l' => rw [hx] at hl1; cases hl1; rfl
      rw [hl, Option.getD_some] at hm1
      have hok := h.reg r l (alloc_of_live hrl) hl
      obtain ⟨z1, hz1⟩ := List.mem_iff_getElem?.1 hm1
      have hidx : ∀ {x j : Nat}, l[j]? = some x → l.idxOf x = j := by
        intro x j hx
        obtain ⟨hj, rfl⟩ := List.getElem?_eq_some_iff.1 hx
        exact hok.1.idxOf_getElem j hj
      have hdr : ∀ {x j : Nat}, l[j]? = some x → T.mrFaceDir r x = .ok (some (rbit (T.rd r) j)) := by
        intro x j hx
        refine (mrFaceDir_iff h hrl).2 ?_
        rw [facesOf_some hl]
        exact List.mem_of_getElem? (i := j) (by rw [getElem?_pairs, hx]; rfl)
      have hbit : ∀ j, z1 ≤ j → j < l.length → rbit (T.rd r) j = rbit (T.rd r) z1 := by
        intro j h1 h2
        have hx := List.getElem?_eq_getElem h2
        have := hl4 _ (List.mem_of_getElem? hx) (by rw [hidx hx, hidx hz1]; exact h1)
        rw [hdr hx, hdr hz1] at this
        simpa using this
      refine ⟨l, z1, by rw [s10]; exact hl, hz1, hl2, ?_, ?_, ?_⟩
      · have := hunused r hrl; rwa [hl, Option.getD_some] at this
      · intro x hx
        have hxl := h.rfacesLive hrl (f := x) (by rw [hl]; exact hx)
        rw [s6, upd_ne _ _ (by rintro rfl; rw [hfu] at hxl; cases hxl)]
        obtain ⟨es, hes⟩ := hl3 x hx
        cases hfe : T.fe x with
        | none => 
          unfold mfEdges fedges at hes
          rw [derefF_ok (alloc_of_live hxl), Res.bind_ok, hfe] at hes
          cases hes
        | some m => exact ⟨m, rfl⟩
      · intro j h1 h2
        rw [s11, hbit j h1 (by omega), hbit (j+1) (by omega) h2])
  have hrest : ∀ z, z ∉ rs → T2.rt z = T.rt z ∧ T2.rf z = T.rf z ∧ T2.rd z = T.rd z := by
    intro z hz
    obtain ⟨a1, a2, a3⟩ := h2o.rest z hz
    exact ⟨by rw [a1, s12], by rw [a2, s10], by rw [a3, s11]⟩
  have hgone : ∀ {f : Nat}, f = f0 ∨ f = f1 → ∀ r d, T2.sr r = .live → (f, d) ∉ facesOf T2.rf T2.rd r := by
    intro f hf r d hr hm
    rw [h2o.sr, s9] at hr
    by_cases hrr : r ∈ rs
    · obtain ⟨-, d', -, hp⟩ := h2r r hrr
      rcases List.mem_cons.1 (hp.mem_iff.1 hm) with hx | hx
      · cases hx
        rcases hf with hf | hf
        · exact hg0 hf.symm
        · exact hg1 hf.symm
      · have := (List.mem_filter.1 hx).2
        simp only [ne_eq, decide_eq_true_iff] at this
        rcases hf with rfl | rfl
        · exact this.1 rfl
        · exact this.2 rfl
    · obtain ⟨-, a2, a3⟩ := hrest r hrr
      have : (f, d) ∈ facesOf T.rf T.rd r := by unfold facesOf at hm ⊢; rwa [a2, a3] at hm
      have := (regionHas_iff h).2 ⟨hr, mem_facesOf_iff.2 ⟨d, this⟩⟩
      rcases hf with rfl | rfl
      · exact hrr ((g0 r).2 this)
      · exact hrr ((g1 r).2 this)
  -- the old faces and the edge
  have hf0' : T2.sf f0 = .live := by rw [h2o.sf, s5, upd_ne _ _ hg0]; exact hf0
  obtain ⟨T3, r3, h3⟩ := h2.delFace (k := false) (alloc_of_live hf0') (hgone (Or.inl rfl))
  have w3 := mfDelete_ok (keep := false) hf0' (fun x hx => alloc_of_live (h2.ef.down f0 x hf0' hx))
  have hT3 := Res.ok.inj (r3.symm.trans w3)
  have hf1' : T3.sf f1 = .live := by
    rw [hT3]; dsimp only; rw [upd_ne _ _ (Ne.symm hne), h2o.sf, s5, upd_ne _ _ hg1]; exact hf1
  obtain ⟨T4, r4, h4⟩ := h3.delFace (f := f1) (k := false) (alloc_of_live hf1') (by
    rw [hT3]; exact hgone (Or.inr rfl))
  have w4 := mfDelete_ok (keep := false) hf1' (fun x hx => alloc_of_live (h3.ef.down f1 x hf1' hx))
  have hT4 := Res.ok.inj (r4.symm.trans w4)
  have he4 : T4.se e = .live := by rw [hT4, hT3]; show T2.se e = _; rw [h2o.se, s3]; exact he
  have hsf4 : T4.sf = upd (upd (upd T.sf T.nf .live) f0 .freed) f1 .freed := by
    rw [hT4, hT3, ← s5, ← h2o.sf]; rfl
  have hfe4 : T4.fe = T1.fe := by rw [hT4, hT3, ← h2o.fe]
  obtain ⟨T5, r5, h5⟩ := h4.delEdge (k := false) (alloc_of_live he4) (by
    intro f hf hb
    rw [hsf4] at hf
    have hne1 : f ≠ f1 := by rintro rfl; rw [upd_same] at hf; cases hf
    rw [upd_ne _ _ hne1] at hf
    have hne0 : f ≠ f0 := by rintro rfl; rw [upd_same] at hf; cases hf
    rw [upd_ne _ _ hne0] at hf
    rw [hfe4] at hb
    by_cases hfn : f = T.nf
    · subst hfn
      unfold bounds at hb
      rw [s6, upd_same] at hb
      simp only [Option.getD_some, List.map_append, List.mem_append] at hb
      rcases hb with hb | hb
      · exact ho0 hb
      · exact ho1 hb
    · rw [upd_ne _ _ hfn] at hf
      have hb' : bounds T.fe f e := by unfold bounds at hb ⊢; rwa [s6, upd_ne _ _ hfn] at hb
      rcases (hfaces f).1 ((h.mem_ef he).1 ((h.ef.mem e (alloc_of_live he) f).2 ⟨hf, hb'⟩)) with hc | hc
      · exact hne0 hc
      · exact hne1 hc)
  have w5 := meDelete_ok (keep := false) he4 (fun v hv => alloc_of_live (h4.ve.down e v he4 hv))
  have hT5 := Res.ok.inj (r5.symm.trans w5)
  have hsv5 : T5.sv = T.sv := by rw [← s1, ← h2o.sv, hT5, hT4, hT3]
  have hse5 : T5.se = upd T.se e .freed := by rw [← s3, ← h2o.se, hT5, hT4, hT3]; rfl
  have hev5 : T5.ev = T.ev := by rw [← s4, ← h2o.ev, hT5, hT4, hT3]
  have hsf5 : T5.sf = upd (upd (upd T.sf T.nf .live) f0 .freed) f1 .freed := by rw [← hsf4, hT5]
  have hfe5 : T5.fe = T1.fe := by rw [← hfe4, hT5]
  have hfd5 : T5.fd = T1.fd := by rw [← h2o.fd, hT5, hT4, hT3]
  have hed5 : T5.edgesOf = upd T.edgesOf T.nf (xs ++ ys) := by
    rw [← s7]; funext f; unfold edgesOf; rw [hfe5, hfd5]
  have hsr5 : T5.sr = T.sr := by rw [← s9, ← h2o.sr, hT5, hT4, hT3]
  have hrf5 : T5.rf = T2.rf := by rw [hT5, hT4, hT3]
  have hrd5 : T5.rd = T2.rd := by rw [hT5, hT4, hT3]
  have hrt5 : T5.rt = T2.rt := by rw [hT5, hT4, hT3]
  have hfn5 : T5.sf T.nf = .live := by rw [hsf5, upd_ne _ _ (Ne.symm hg1), upd_ne _ _ (Ne.symm hg0), upd_same]
  have hfen : T5.fe T.nf = some ((xs ++ ys).map (·.1)) := by rw [hfe5, s6, upd_same]
  refine ⟨T5, T.nf, ?_, h5, hfu, hsv5, hse5, hev5, hsf5, hed5, ?_, hsr5, ?_, ?_⟩
  · unfold mfsJoin
    rw [derefF_ok (alloc_of_live hf0), Res.bind_ok, derefF_ok (alloc_of_live hf1), Res.bind_ok, if_neg (by simp),
      m0, Res.bind_ok, m1, Res.bind_ok]
    dsimp only
    rw [hrs, if_neg (by simp), q0, Res.bind_ok, q1, Res.bind_ok, i0, i1]
    dsimp only
    rw [j0, j1, show T.mfNew.2 = T.nf from rfl, r1, Res.bind_ok]
    have hj : (joinInRegion f0 f1 T.nf rs[0]? T1 >>= fun T' => joinInRegion f0 f1 T.nf rs[1]? T') = .ok T2 := by
      rw [← r2]
      match rs, hL2 with
      | [], _ => rfl
      | [r], _ => rfl
      | [r, r'], _ =>
        show (joinInRegion f0 f1 T.nf (some r) T1 >>= fun T' => joinInRegion f0 f1 T.nf (some r') T') =
          (joinInRegion f0 f1 T.nf (some r) T1 >>= fun T' => joinInRegion f0 f1 T.nf (some r') T' >>= fun T'' => .ok T'')
        congr 1
        funext T'
        cases joinInRegion f0 f1 T.nf (some r') T' <;> rfl
    obtain ⟨Ta, ha, hb⟩ := Res.bind_eq_ok.1 hj
    rw [ha, Res.bind_ok, hb, Res.bind_ok, r3, Res.bind_ok, r4, Res.bind_ok, r5, Res.bind_ok]
    rfl
  · refine Closed.loop (alloc_of_live hfn5) hfen (fun x hx => alloc_of_live (h5.fedgesLive hfn5 hfen x hx))
      (by simp; omega) ?_
    rw [← edgesOf_some hfen, hed5, upd_same]
    exact hc.congr hev5
  · intro r hr
    have hrr := (g0 r).2 hr
    obtain ⟨t1, d', t2, t3⟩ := h2r r hrr
    rw [s10, s11] at t2 t3
    refine ⟨(t1.congr (T' := T5) (by rw [hrf5]) (by rw [hrt5]) (fun x _ => by rw [hfe5, ← h2o.fe])).typed h5
      (by rw [hsr5]; exact hr.1), d', (mrFaceDir_iff h hr.1).2 t2, ?_⟩
    show (facesOf T5.rf T5.rd r).Perm _
    rw [hrf5, hrd5]
    exact t3
  · intro r hr
    obtain ⟨a1, a2, a3⟩ := hrest r (fun hc => hr ((g0 r).1 hc))
    refine ⟨?_, ?_⟩
    · show facesOf T5.rf T5.rd r = facesOf T.rf T.rd r
      unfold facesOf; rw [hrf5, hrd5, a2, a3]
    · unfold mrElementType derefR; rw [hsr5, hrt5, a1]

/-! ### examples -/

/-- a tetrahedron whose faces all point outwards -/
def outwardTet : List Op :=
  [.newVertex, .newVertex, .newVertex, .newVertex,
   .newFace, .setVertices 0 [0,2,1],
   .newFace, .setVertices 1 [0,1,3], .newFace, .setVertices 2 [1,2,3], .newFace, .setVertices 3 [2,0,3],
   .newRegion, .setFaces 0 [(0,true),(1,true),(2,true),(3,true)]]

/-- Two of its faces meet the hypotheses of `C52_join_in_regions_partial`. -/
example : ∃ T, empty.run outwardTet = .ok T ∧ T.Consistent ∧ T.RegionHas 0 0 ∧
    (∃ a b ps qs d xs ys, T.Across 2 0 1 a b ps qs d xs ys ∧ xs.length + ys.length ≤ 32) ∧
    T.mfRegions 0 = T.mfRegions 1 ∧ ∀ r, T.RegionHas r 0 → T.SameFrom r 1 := by
  obtain ⟨T, h1, h2⟩ := reachable (os := outwardTet) (by decide +kernel)
  have hq : answer outwardTet (fun T => .ok (decide (T.se 2 = .live) && decide (T.ev 2 = (some 1, some 0)) &&
      decide (T.ef 2 = [0,1]) && T.loopB 0 [0,2,1] && T.loopB 1 [0,1,3] &&
      decide (T.edgesOf 0 = [(0,true),(1,true),(2,true)]) && decide (T.edgesOf 1 = [(2,false),(3,true),(4,true)]) &&
      decide (T.nr = 1) && decide (T.sr 0 = .live) && decide (T.mfRegions 0 = T.mfRegions 1) &&
      decide (T.mrFaces 0 = .ok [0,1,2,3]) &&
      [0,1,2,3].all (fun x => decide (T.mrFaceDir 0 x = .ok (some true)) &&
        match T.mfEdges x true none with | .ok _ => true | _ => false))) = .ok true := by decide +kernel
  unfold answer at hq
  rw [h1, Res.bind_ok, Res.ok.injEq] at hq
  simp only [Bool.and_eq_true, decide_eq_true_iff] at hq
  obtain ⟨⟨⟨⟨⟨⟨⟨⟨⟨⟨⟨a, b⟩, c⟩, d⟩, e⟩, f⟩, g⟩, i⟩, j⟩, k⟩, m⟩, q⟩ := hq
  rw [List.all_eq_true] at q
  have hmem : ∀ x ∈ [0,1,2,3], T.mrFaceDir 0 x = .ok (some true) ∧ ∃ es, T.mfEdges x true none = .ok es := by
    intro x hx
    have := q x hx
    rw [Bool.and_eq_true, decide_eq_true_iff] at this
    refine ⟨this.1, ?_⟩
    have hm := this.2
    split at hm
    · rename_i es hes; exact ⟨es, hes⟩
    · cases hm
  refine ⟨T, h1, h2, ⟨j, true, (hmem 0 (by decide)).1⟩, ⟨1, 0, [2], [3], true, [(0,true),(1,true)], [(3,true),(4,true)],
    ⟨a, b, ?_, by decide, ⟨_, loopB_sound d, by decide, 2, by decide⟩, ⟨2, ?_⟩,
    ⟨_, loopB_sound e, by decide, 0, by decide⟩, ⟨0, ?_⟩, by decide⟩, by decide⟩, k, ?_⟩
  · intro x; rw [← h2.mem_ef a, c]; simp
  · show (T.edgesOf 0).rotate 2 = _; rw [f]; rfl
  · show (T.edgesOf 1).rotate 0 = _; rw [g]; rfl
  · intro r hr
    have : r = 0 := by
      by_contra hc
      have : T.sr r = .unused := h2.newR r (by omega)
      have := hr.1
      simp_all
    subst this
    refine ⟨_, m, by decide, fun x hx => (hmem x hx).2, fun x hx _ => ?_⟩
    rw [(hmem x hx).1, (hmem 1 (by decide)).1]

end Topo
end MSTK
