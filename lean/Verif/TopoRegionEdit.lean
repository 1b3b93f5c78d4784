import Verif.TopoRegionOps

/-!
Changing the faces of a region: closed forms and preservation of the mesh consistency.
-/
namespace MSTK
namespace Topo

theorem facesOf_dirs_same {rf : Nat → Option (List Nat)} {rd : Nat → List (BitVec 32)} {r : Nat}
    {l : List Nat} (h : rf r = some l) (w : List (BitVec 32)) :
    facesOf rf (upd rd r w) r = pairs l (rbit w) := by
  unfold facesOf; rw [upd_same, h]; rfl

theorem facesOf_dirs_ne {rf : Nat → Option (List Nat)} {rd : Nat → List (BitVec 32)} {r z : Nat}
    (w : List (BitVec 32)) (h : z ≠ r) : facesOf rf (upd rd r w) z = facesOf rf rd z := by
  unfold facesOf; rw [upd_ne _ _ h]

theorem bool_ne_not {a b : Bool} (h : a ≠ b) : (!a) ≠ (!b) := by cases a <;> cases b <;> simp_all

theorem mem_pairs_other {l : List Nat} {b c : Nat → Bool} {i f x : Nat} (hi : l[i]? = some f)
    (hb : ∀ j, j ≠ i → c j = b j) (hx : x ≠ f) (d : Bool) : (x, d) ∈ pairs l c ↔ (x, d) ∈ pairs l b := by
  rw [mem_pairs, mem_pairs]
  constructor
  · rintro ⟨k, hk, hc⟩
    have hki : k ≠ i := by rintro rfl; rw [hi] at hk; injection hk with hk; exact hx hk.symm
    exact ⟨k, hk, by rw [← hb k hki]; exact hc⟩
  · rintro ⟨k, hk, hc⟩
    have hki : k ≠ i := by rintro rfl; rw [hi] at hk; injection hk with hk; exact hx hk.symm
    exact ⟨k, hk, by rw [hb k hki]; exact hc⟩

/-- the side of a face a region is on -/
theorem Consistent.slotAt {T : Topo} (h : T.Consistent) {r f i : Nat} {l : List Nat}
    (hr : T.sr r = .live) (hl : T.rf r = some l) (hi : l[i]? = some f) (d : Bool) :
    endAt (T.fr f) (!d) = some r ↔ rbit (T.rd r) i = d := by
  have hf : T.sf f = .live := h.rfacesLive hr (by rw [hl]; exact List.mem_of_getElem? hi)
  rw [h.fr.mem f (alloc_of_live hf), facesOf_some hl, and_iff_right hr,
    mem_pairs_dir (h.reg r l (alloc_of_live hr) hl).1 hi]

theorem slot_absent {T : Topo} (h : T.Consistent) {r g : Nat} {l : List Nat} (hl : T.rf r = some l)
    (hg : (T.sf g).alloc) (hn : g ∉ l) (j : Bool) : endAt (T.fr g) j ≠ some r := by
  intro hc
  have := ((h.fr.mem g hg r (!j)).1 (by rw [Bool.not_not]; exact hc)).2
  rw [facesOf_some hl] at this
  exact hn (mem_of_mem_pairs this)

/-- One face of a region is turned round. -/
theorem Consistent.redirect {T : Topo} (h : T.Consistent) {r i f : Nat} {l : List Nat} {d : Bool}
    {w : List (BitVec 32)} (hr : T.sr r = .live) (hl : T.rf r = some l) (hi : l[i]? = some f)
    (hw : ∀ j, rbit w j = if j = i then d else rbit (T.rd r) j) (hwl : w.length = (T.rd r).length)
    (hfree : endAt (T.fr f) (!d) = none ∨ endAt (T.fr f) (!d) = some r) :
    Consistent { T with rd := upd T.rd r w,
                        fr := upd T.fr f (setEnd (remRegion (T.fr f) r) (!d) (some r)) } := by
  have hok := h.reg r l (alloc_of_live hr) hl
  have hf : T.sf f = .live := h.rfacesLive hr (by rw [hl]; exact List.mem_of_getElem? hi)
  refine ⟨h.ve, h.ef, ?_, ?_, h.newV, h.newE, h.newF, h.newR⟩
  · refine h.fr.regions (fun z => z = r) (fun _ _ => rfl) (fun z hz => facesOf_dirs_ne _ hz) ?_ ?_ ?_
    · intro x hx z hz d'
      dsimp only
      by_cases hxf : x = f
      · subst hxf
        rw [upd_same, endAt_setEnd]
        split
        · rename_i hd
          rw [← hd]
          rcases hfree with h1 | h1 <;> rw [h1]
          · simp [Ne.symm hz]
        · rw [endAt_remRegion (h.notBoth hx)]; simp [hz]
      · rw [upd_ne _ _ hxf]
    · intro x hx z hz d'
      subst hz
      dsimp only
      rw [facesOf_dirs_same hl, and_iff_right hr]
      by_cases hxf : x = f
      · subst hxf
        rw [upd_same, endAt_setEnd, mem_pairs_dir hok.1 hi, hw i, if_pos rfl]
        split
        · rename_i hd; simp only [true_iff]; cases d <;> cases d' <;> simp_all
        · rename_i hd
          rw [endAt_remRegion (h.notBoth hx)]
          simp only [ne_eq, not_true, and_false, false_iff]
          rintro rfl; exact hd rfl
      · rw [upd_ne _ _ hxf, h.fr.mem x hx, facesOf_some hl, and_iff_right hr,
          mem_pairs_other (b := rbit (T.rd z)) (c := rbit w) hi (fun j hj => by rw [hw j, if_neg hj]) hxf]
    · intro z hz x d' _ hm
      subst hz
      dsimp only at hm
      rw [facesOf_dirs_same hl] at hm
      exact h.rfacesLive hr (by rw [hl]; exact mem_of_mem_pairs hm)
  · intro z l' hz hl'
    dsimp only at hl' ⊢
    by_cases hzr : z = r
    · subst hzr; rw [upd_same]
      have := h.reg z l' hz hl'
      exact ⟨this.1, by rw [hwl]; exact this.2⟩
    · rw [upd_ne _ _ hzr]; exact h.reg z l' hz hl'

theorem remIfThere_ok {T : Topo} {f r : Nat} (h : (T.sf f).alloc) :
    T.remIfThere f r = .ok { T with fr := upd T.fr f (remRegion (T.fr f) r) } := by
  unfold remIfThere
  rw [derefF_ok h, Res.bind_ok]
  split
  · exact mfRemRegion_ok h
  · rename_i hn
    rw [remRegion_absent (fun hc => hn (Or.inl hc)) (fun hc => hn (Or.inr hc)), upd_self]
    rfl

/-- Closed form of `MR_Set_FaceDir_i`. -/
theorem mrSetFaceDir_i_ok {T : Topo} {r i f : Nat} {d : Bool} {l : List Nat} (hr : (T.sr r).alloc)
    (hl : T.rf r = some l) (hi : l[i]? = some f) (hf : (T.sf f).alloc) (h512 : i < 512)
    (hw : i/32 < (T.rd r).length) :
    ∃ w, T.mrSetFaceDir_i r i d = .ok { T with
        rd := upd T.rd r w,
        fr := upd T.fr f (setEnd (remRegion (T.fr f) r) (!d) (some r)) } ∧
      w.length = (T.rd r).length ∧ ∀ j, rbit w j = if j = i then d else rbit (T.rd r) j := by
  obtain ⟨w, h1, h2, h3⟩ := setW_ok (w := T.rd r) (i := i) d hw
  refine ⟨w, ?_, h2, h3⟩
  unfold mrSetFaceDir_i
  rw [derefR_ok hr, Res.bind_ok, if_neg (by omega), h1, Res.bind_ok, hl, Res.ofOption_some,
    Res.bind_ok, hi, Res.ofOption_some, Res.bind_ok, remIfThere_ok (by exact hf), Res.bind_ok,
    mfAddRegion_ok (by exact hf)]
  simp only [upd_upd, upd_same]

theorem Consistent.setFaceDir {T : Topo} (h : T.Consistent) {r i f : Nat} {d : Bool} {l : List Nat}
    (hr : T.sr r = .live) (hl : T.rf r = some l) (hi : l[i]? = some f)
    (hfree : endAt (T.fr f) (!d) = none ∨ endAt (T.fr f) (!d) = some r) :
    ∃ T', T.mrSetFaceDir_i r i d = .ok T' ∧ T'.Consistent := by
  by_cases h512 : i < 512
  · have hok := h.reg r l (alloc_of_live hr) hl
    have hil : i < l.length := (List.getElem?_eq_some_iff.1 hi).1
    have hf : T.sf f = .live := h.rfacesLive hr (by rw [hl]; exact List.mem_of_getElem? hi)
    obtain ⟨w, h1, h2, h3⟩ := mrSetFaceDir_i_ok (d := d) (alloc_of_live hr) hl hi (alloc_of_live hf) h512
      (hok.word (by omega))
    exact ⟨_, h1, h.redirect hr hl hi h3 h2 hfree⟩
  · unfold mrSetFaceDir_i
    rw [derefR_ok (alloc_of_live hr), Res.bind_ok, if_pos (by omega)]
    exact ⟨T, rfl, h⟩

/-- The part of `MR_Rev_FaceDir_i` that both cases share. -/
theorem revFaceDir_start {T : Topo} {r i f : Nat} {l : List Nat} (hr : (T.sr r).alloc)
    (hl : T.rf r = some l) (hi : l[i]? = some f) (hf : (T.sf f).alloc) (hw : i/32 < (T.rd r).length) :
    ∃ w, w.length = (T.rd r).length ∧
      (∀ j, rbit w j = if j = i then !(rbit (T.rd r) i) else rbit (T.rd r) j) ∧
      T.mrRevFaceDir_i r i = swapRegions { T with rd := upd T.rd r w } f r (!(rbit (T.rd r) i))
        (oppRegion (T.fr f) r) := by
  obtain ⟨w, h1, h2, h3⟩ := setW_ok (w := T.rd r) (i := i) (!(rbit (T.rd r) i)) hw
  refine ⟨w, h2, h3, ?_⟩
  unfold mrRevFaceDir_i
  rw [derefR_ok hr, Res.bind_ok, getW_ok hw, Res.bind_ok, h1, Res.bind_ok, hl, Res.ofOption_some,
    Res.bind_ok, hi, Res.ofOption_some, Res.bind_ok, derefF_ok hf, Res.bind_ok]

theorem oppRegion_none {p : Option Nat × Option Nat} {r : Nat} {b : Bool}
    (hr : endAt p (!b) = some r) (h : oppRegion p r = none) : endAt p b = none := by
  obtain ⟨x, y⟩ := p
  cases b <;> cases x <;> cases y <;> simp [endAt, oppRegion] at * <;> split at h <;> simp at h

theorem oppRegion_some {p : Option Nat × Option Nat} {r o : Nat} {b : Bool}
    (hr : endAt p (!b) = some r) (hne : p ≠ (some r, some r)) (h : oppRegion p r = some o) :
    endAt p b = some o ∧ o ≠ r := by
  obtain ⟨x, y⟩ := p
  cases x with
  | none => simp [oppRegion] at h
  | some x =>
    cases y with
    | none => simp [oppRegion] at h
    | some y =>
      simp only [oppRegion] at h
      cases b
      · simp only [Bool.not_false, endAt, if_true, Option.some.injEq] at hr
        subst hr
        have hxy : y ≠ x := by rintro rfl; exact hne rfl
        rw [if_neg hxy] at h
        injection h with h
        subst h
        exact ⟨rfl, hxy.symm⟩
      · simp only [Bool.not_true, endAt, Bool.false_eq_true, if_false, Option.some.injEq] at hr
        subst hr
        rw [if_pos rfl] at h
        injection h with h
        subst h
        exact ⟨rfl, by rintro rfl; exact hne rfl⟩

/-- Closed form of `MR_Rev_FaceDir_i`. -/
theorem mrRevFaceDir_i_ok {T : Topo} (h : T.Consistent) {r i f : Nat} {l : List Nat}
    (hr : T.sr r = .live) (hl : T.rf r = some l) (hi : l[i]? = some f)
    (hlim : ∀ o k l', T.sr o = .live → T.rf o = some l' → l'[k]? = some f → k < 512) :
    ∃ w, w.length = (T.rd r).length ∧
      (∀ j, rbit w j = if j = i then !(rbit (T.rd r) i) else rbit (T.rd r) j) ∧
      ((endAt (T.fr f) (rbit (T.rd r) i) = none ∧
        T.mrRevFaceDir_i r i = .ok { T with
          rd := upd T.rd r w,
          fr := upd T.fr f (setEnd (remRegion (T.fr f) r) (rbit (T.rd r) i) (some r)) }) ∨
       ∃ o lo k w2, endAt (T.fr f) (rbit (T.rd r) i) = some o ∧ o ≠ r ∧ T.sr o = .live ∧
        T.rf o = some lo ∧ lo[k]? = some f ∧ rbit (T.rd o) k = !(rbit (T.rd r) i) ∧
        w2.length = (T.rd o).length ∧
        (∀ j, rbit w2 j = if j = k then rbit (T.rd r) i else rbit (T.rd o) j) ∧
        T.mrRevFaceDir_i r i = .ok { T with
          rd := upd (upd T.rd r w) o w2,
          fr := upd T.fr f (setEnd (setEnd (T.fr f) (rbit (T.rd r) i) (some r))
            (!(rbit (T.rd r) i)) (some o)) }) := by
  have hok := h.reg r l (alloc_of_live hr) hl
  have hil : i < l.length := (List.getElem?_eq_some_iff.1 hi).1
  have hf : T.sf f = .live := h.rfacesLive hr (by rw [hl]; exact List.mem_of_getElem? hi)
  have hfa := alloc_of_live hf
  obtain ⟨w, hw1, hw2, hrun⟩ := revFaceDir_start (alloc_of_live hr) hl hi hfa (hok.word (by omega))
  refine ⟨w, hw1, hw2, ?_⟩
  have hslot : endAt (T.fr f) (!(rbit (T.rd r) i)) = some r := (h.slotAt hr hl hi _).2 rfl
  generalize hb : rbit (T.rd r) i = b at *
  cases ho : oppRegion (T.fr f) r with
  | none =>
    left
    refine ⟨oppRegion_none hslot ho, ?_⟩
    rw [hrun, ho]
    simp only [swapRegions]
    rw [mfRemRegion_ok (by exact hfa), Res.bind_ok, mfAddRegion_ok (by exact hfa)]
    simp only [upd_upd, upd_same, Bool.not_not]
  | some o =>
    right
    obtain ⟨ho1, ho2⟩ := oppRegion_some hslot (h.notBoth hfa) ho
    have ho3 := (h.fr.mem f hfa o (!b)).1 (by rw [Bool.not_not]; exact ho1)
    obtain ⟨hol, hom⟩ := ho3
    obtain ⟨lo, hlo⟩ : ∃ lo, T.rf o = some lo := by
      cases hx : T.rf o with
      | none => unfold facesOf at hom; rw [hx] at hom; simp [pairs] at hom
      | some lo => exact ⟨lo, rfl⟩
    rw [facesOf_some hlo] at hom
    obtain ⟨k, hk, hkb⟩ := mem_pairs.1 hom
    have hoko := h.reg o lo (alloc_of_live hol) hlo
    have hidx := idxOf_eq_of_nodup hoko.1 hk
    have hkl : k < lo.length := (List.getElem?_eq_some_iff.1 hk).1
    obtain ⟨w2, h1, h2, h3⟩ := mrSetFaceDir_i_ok
      (T := { T with
        rd := upd T.rd r w
        fr := upd T.fr f
          (setEnd (setEnd (remRegion (remRegion (T.fr f) r) o) b (some r)) (!b) (some o)) })
      (r := o) (i := k) (f := f) (d := b) (l := lo) (alloc_of_live hol) hlo hk hfa (hlim o k lo hol hlo hk)
      (by show k/32 < (upd T.rd r w o).length; rw [upd_ne _ _ ho2]; exact hoko.word (by omega))
    refine ⟨o, lo, k, w2, ho1, ho2, hol, hlo, hk, hkb, ?_, ?_, ?_⟩
    · rw [h2]; show (upd T.rd r w o).length = _; rw [upd_ne _ _ ho2]
    · intro j; rw [h3 j]; show (if _ then _ else rbit (upd T.rd r w o) j) = _; rw [upd_ne _ _ ho2]
    · rw [hrun, ho]
      simp only [swapRegions]
      rw [mfRemRegion_ok (by exact hfa), Res.bind_ok, mfRemRegion_ok (by exact hfa), Res.bind_ok,
        mfAddRegion_ok (by exact hfa), Res.bind_ok, mfAddRegion_ok (by exact hfa), Res.bind_ok]
      simp only [upd_upd, upd_same, Bool.not_not]
      unfold mrSetFaceDir
      rw [rfaces_ok (by exact alloc_of_live hol) (by exact hlo), Res.bind_ok,
        if_pos (List.mem_of_getElem? hk), hidx, h1]
      simp only [upd_upd, upd_same]
      congr 2
      generalize T.fr f = p
      have hro : r ≠ o := Ne.symm ho2
      cases b <;> simp [setEnd, remRegion, hro]

theorem Consistent.revFaceDir {T : Topo} (h : T.Consistent) {r i f : Nat} {l : List Nat}
    (hr : T.sr r = .live) (hl : T.rf r = some l) (hi : l[i]? = some f)
    (hlim : ∀ o k l', T.sr o = .live → T.rf o = some l' → l'[k]? = some f → k < 512) :
    ∃ T', T.mrRevFaceDir_i r i = .ok T' ∧ T'.Consistent := by
  have hf : T.sf f = .live := h.rfacesLive hr (by rw [hl]; exact List.mem_of_getElem? hi)
  have hslot : endAt (T.fr f) (!(rbit (T.rd r) i)) = some r := (h.slotAt hr hl hi _).2 rfl
  have hok := h.reg r l (alloc_of_live hr) hl
  obtain ⟨w, hw1, hw2, hc⟩ := mrRevFaceDir_i_ok h hr hl hi hlim
  generalize hb : rbit (T.rd r) i = b at *
  rcases hc with ⟨hn, hrun⟩ | ⟨o, lo, k, w2, ho1, ho2, hol, hlo, hk, hkb, hw3, hw4, hrun⟩
  · refine ⟨_, hrun, ?_⟩
    have := h.redirect (d := !b) hr hl hi hw2 hw1 (by rw [Bool.not_not]; exact Or.inl hn)
    rw [Bool.not_not] at this
    exact this
  · refine ⟨_, hrun, h.ve, h.ef, ?_, ?_, h.newV, h.newE, h.newF, h.newR⟩
    · have hoko := h.reg o lo (alloc_of_live hol) hlo
      have hsl : ∀ d, endAt (setEnd (setEnd (T.fr f) b (some r)) (!b) (some o)) (!d) =
          some (if d = b then o else r) := by
        intro d
        cases b <;> cases d <;> simp [setEnd, endAt]
      have hor : ∀ d z, endAt (T.fr f) (!d) = some z → z = r ∨ z = o := by
        intro d z hz
        by_cases hd : d = b
        · subst hd; rw [hslot] at hz; injection hz with hz; exact Or.inl hz.symm
        · have : (!d) = b := by cases d <;> cases b <;> simp_all
          rw [this, ho1] at hz; injection hz with hz; exact Or.inr hz.symm
      have hfr : facesOf T.rf (upd (upd T.rd r w) o w2) r = pairs l (rbit w) := by
        rw [facesOf_dirs_ne _ (Ne.symm ho2), facesOf_dirs_same hl]
      have hfo : facesOf T.rf (upd (upd T.rd r w) o w2) o = pairs lo (rbit w2) :=
        facesOf_dirs_same hlo _
      refine h.fr.regions (fun z => z = r ∨ z = o) (fun _ _ => rfl) ?_ ?_ ?_ ?_
      · intro z hz
        dsimp only
        rw [facesOf_dirs_ne _ (fun hc => hz (Or.inr hc)), facesOf_dirs_ne _ (fun hc => hz (Or.inl hc))]
      · intro x hx z hz d
        dsimp only
        by_cases hxf : x = f
        · subst hxf
          rw [upd_same, hsl]
          constructor
          · intro hc
            injection hc with hc
            exfalso; apply hz
            split at hc
            · exact Or.inr hc.symm
            · exact Or.inl hc.symm
          · intro hc; exact absurd (hor d z hc) hz
        · rw [upd_ne _ _ hxf]
      · intro x hx z hz d
        dsimp only
        rcases hz with hz | hz
        · subst hz
          rw [hfr, and_iff_right hr]
          by_cases hxf : x = f
          · subst hxf
            rw [upd_same, hsl, mem_pairs_dir hok.1 hi, hw2, if_pos rfl]
            by_cases hd : d = b
            · subst hd; rw [if_pos rfl]; simp [ho2]
            · rw [if_neg hd]; cases d <;> cases b <;> simp_all
          · rw [upd_ne _ _ hxf, h.fr.mem x hx, facesOf_some hl, and_iff_right hr,
              mem_pairs_other (b := rbit (T.rd z)) (c := rbit w) hi
                (fun j hj => by rw [hw2 j, if_neg hj]) hxf]
        · subst hz
          rw [hfo, and_iff_right hol]
          by_cases hxf : x = f
          · subst hxf
            rw [upd_same, hsl, mem_pairs_dir hoko.1 hk, hw4, if_pos rfl]
            by_cases hd : d = b
            · subst hd; simp
            · rw [if_neg hd]; simp [Ne.symm ho2, Ne.symm hd]
          · rw [upd_ne _ _ hxf, h.fr.mem x hx, facesOf_some hlo, and_iff_right hol,
              mem_pairs_other (b := rbit (T.rd z)) (c := rbit w2) hk
                (fun j hj => by rw [hw4 j, if_neg hj]) hxf]
      · intro z hz x d _ hm
        dsimp only at hm
        rcases hz with hz | hz
        · subst hz
          rw [hfr] at hm
          exact h.rfacesLive hr (by rw [hl]; exact mem_of_mem_pairs hm)
        · subst hz
          rw [hfo] at hm
          exact h.rfacesLive hol (by rw [hlo]; exact mem_of_mem_pairs hm)
    · intro z l' hz hl'
      dsimp only at hl' ⊢
      by_cases hzo : z = o
      · subst hzo; rw [upd_same]
        have := h.reg z l' hz hl'
        exact ⟨this.1, by rw [hw3]; exact this.2⟩
      · rw [upd_ne _ _ hzo]
        by_cases hzr : z = r
        · subst hzr; rw [upd_same]
          have := h.reg z l' hz hl'
          exact ⟨this.1, by rw [hw1]; exact this.2⟩
        · rw [upd_ne _ _ hzr]; exact h.reg z l' hz hl'

/-! ### removing and replacing faces -/

/-- Closed form of `MR_Rem_Face`. -/
theorem mrRemFace_ok {T : Topo} {r f : Nat} {l : List Nat} (hr : (T.sr r).alloc)
    (hl : T.rf r = some l) (hf : f ∈ l) (hal : (T.sf f).alloc) (hw : RegOk l (T.rd r)) :
    ∃ w, T.mrRemFace r f = .ok { T with
        rf := upd T.rf r (some (l.eraseIdx (l.idxOf f))), rd := upd T.rd r w,
        fr := upd T.fr f (remRegion (T.fr f) r) } ∧ w.length = (T.rd r).length ∧
      pairs (l.eraseIdx (l.idxOf f)) (rbit w) = (pairs l (rbit (T.rd r))).eraseIdx (l.idxOf f) := by
  have hi := List.idxOf_lt_length_iff.2 hf
  obtain ⟨w, h1, h2, h3⟩ := shiftW_ok (l.length - 1 - l.idxOf f) (l.idxOf f) (T.rd r)
    (hw.word (by omega))
  refine ⟨w, ?_, h2, pairs_eraseIdx hi ?_⟩
  · unfold mrRemFace
    rw [rfaces_ok hr hl, Res.bind_ok, if_pos hf]
    simp only []
    rw [h1, Res.bind_ok, mfRemRegion_ok (by exact hal)]
  · intro j hj
    rw [h3 j]
    by_cases hij : l.idxOf f ≤ j
    · rw [if_pos (by omega), if_pos hij]
    · rw [if_neg (by omega), if_neg hij]

theorem mem_eraseIdx_pairs {l : List Nat} {b : Nat → Bool} (hnd : l.Nodup) {i f : Nat}
    (hi : l[i]? = some f) (x : Nat) (d : Bool) :
    (x, d) ∈ (pairs l b).eraseIdx i ↔ (x, d) ∈ pairs l b ∧ x ≠ f := by
  have hil : i < l.length := (List.getElem?_eq_some_iff.1 hi).1
  have hndp : (pairs l b).Nodup := by
    apply List.Nodup.of_map (·.1)
    rw [pairs_map_fst]; exact hnd
  rw [List.mem_iff_getElem?, List.mem_iff_getElem?]
  constructor
  · rintro ⟨k, hk⟩
    rw [List.getElem?_eraseIdx] at hk
    have key : ∃ k', k' ≠ i ∧ (pairs l b)[k']? = some (x, d) := by
      split at hk
      · exact ⟨k, by omega, hk⟩
      · exact ⟨k+1, by omega, hk⟩
    obtain ⟨k', hne, hk'⟩ := key
    refine ⟨⟨k', hk'⟩, ?_⟩
    rintro rfl
    rw [getElem?_pairs] at hk'
    cases hx : l[k']? with
    | none => rw [hx] at hk'; cases hk'
    | some y =>
      rw [hx] at hk'
      simp only [Option.map_some, Option.some.injEq, Prod.mk.injEq] at hk'
      rw [hk'.1] at hx
      exact hne (getElem?_inj_nodup hnd hx hi)
  · rintro ⟨⟨k, hk⟩, hne⟩
    have hki : k ≠ i := by
      rintro rfl
      rw [getElem?_pairs, hi] at hk
      simp only [Option.map_some, Option.some.injEq, Prod.mk.injEq] at hk
      exact hne hk.1.symm
    by_cases hlt : k < i
    · exact ⟨k, by rw [List.getElem?_eraseIdx, if_pos hlt]; exact hk⟩
    · refine ⟨k - 1, ?_⟩
      rw [List.getElem?_eraseIdx, if_neg (by omega), show k - 1 + 1 = k by omega]; exact hk

theorem Consistent.remFace {T : Topo} (h : T.Consistent) {r f : Nat} {l : List Nat}
    (hr : T.sr r = .live) (hl : T.rf r = some l) : ∃ T', T.mrRemFace r f = .ok T' ∧ T'.Consistent := by
  by_cases hf : f ∈ l
  · have hok := h.reg r l (alloc_of_live hr) hl
    have hfl : T.sf f = .live := h.rfacesLive hr (by rw [hl]; exact hf)
    obtain ⟨w, h1, h2, h3⟩ := mrRemFace_ok (alloc_of_live hr) hl hf (alloc_of_live hfl) hok
    refine ⟨_, h1, h.ve, h.ef, ?_, ?_, h.newV, h.newE, h.newF, h.newR⟩
    · refine h.fr.regions (fun z => z = r) (fun _ _ => rfl) (fun z hz => facesOf_ne _ _ _ _ hz) ?_ ?_ ?_
      · intro x hx z hz d
        dsimp only
        rw [upd_apply]
        split
        · rename_i hxf; subst hxf; rw [endAt_remRegion (h.notBoth hx)]; simp [hz]
        · rfl
      · intro x hx z hz d
        subst hz
        dsimp only
        rw [facesOf_same, h3, and_iff_right hr, mem_eraseIdx_pairs hok.1 (idxOf_getElem? hf), upd_apply]
        split
        · rename_i hxf; subst hxf; rw [endAt_remRegion (h.notBoth hx)]; simp
        · rename_i hxf
          rw [h.fr.mem x hx, facesOf_some hl, and_iff_right hr]
          simp [hxf]
      · intro z hz x d _ hm
        subst hz
        dsimp only at hm
        rw [facesOf_same, h3] at hm
        exact h.rfacesLive hr (by rw [hl]; exact mem_of_mem_pairs (List.mem_of_mem_eraseIdx hm))
    · intro z l' hz hl'
      dsimp only at hl' ⊢
      by_cases hzr : z = r
      · subst hzr
        rw [upd_same] at hl' ⊢
        injection hl' with hl'
        subst hl'
        refine ⟨(List.eraseIdx_sublist _ _).nodup hok.1, ?_⟩
        rw [h2, List.length_eraseIdx_of_lt (List.idxOf_lt_length_iff.2 hf)]
        have := hok.2
        have : (l.length - 1)/32 ≤ l.length/32 := Nat.div_le_div_right (by omega)
        omega
      · rw [upd_ne _ _ hzr] at hl' ⊢
        exact h.reg z l' hz hl'
  · unfold mrRemFace
    rw [rfaces_ok (alloc_of_live hr) hl, Res.bind_ok, if_neg hf]
    exact ⟨T, rfl, h⟩

/-- Position `i` of a region now holds `g` instead of `f`. -/
theorem Consistent.exchange {T : Topo} (h : T.Consistent) {r i f g : Nat} {l : List Nat} {d : Bool}
    {w : List (BitVec 32)} (hr : T.sr r = .live) (hl : T.rf r = some l) (hi : l[i]? = some f)
    (hw : ∀ j, rbit w j = if j = i then d else rbit (T.rd r) j) (hwl : w.length = (T.rd r).length)
    (hg : T.sf g = .live) (hgl : g ∉ l) (hfree : endAt (T.fr g) (!d) = none) :
    Consistent { T with
      rd := upd T.rd r w
      rf := upd T.rf r (some (l.set i g))
      fr := upd (upd T.fr g (setEnd (T.fr g) (!d) (some r))) f (remRegion (T.fr f) r) } ∧
    pairs (l.set i g) (rbit w) = (pairs l (rbit (T.rd r))).set i (g, d) := by
  have hok := h.reg r l (alloc_of_live hr) hl
  have hil : i < l.length := (List.getElem?_eq_some_iff.1 hi).1
  have hf : T.sf f = .live := h.rfacesLive hr (by rw [hl]; exact List.mem_of_getElem? hi)
  have hfg : f ≠ g := by rintro rfl; exact hgl (List.mem_of_getElem? hi)
  have hp : pairs (l.set i g) (rbit w) = (pairs l (rbit (T.rd r))).set i (g, d) := by
    apply List.ext_getElem?
    intro j
    rw [getElem?_pairs, List.getElem?_set, List.getElem?_set, pairs_length, getElem?_pairs, hw j]
    by_cases hij : i = j
    · subst hij; simp [hil]
    · rw [if_neg hij, if_neg hij, if_neg (Ne.symm hij)]
  have hmem : ∀ x d', (x, d') ∈ (pairs l (rbit (T.rd r))).set i (g, d) ↔
      (x = g ∧ d' = d) ∨ ((x, d') ∈ pairs l (rbit (T.rd r)) ∧ x ≠ f) := by
    intro x d'
    rw [List.mem_iff_getElem?]
    constructor
    · rintro ⟨k, hk⟩
      rw [List.getElem?_set] at hk
      split at hk
      · split at hk
        · simp only [Option.some.injEq, Prod.mk.injEq] at hk
          exact Or.inl ⟨hk.1.symm, hk.2.symm⟩
        · cases hk
      · rename_i hik
        right
        refine ⟨List.mem_of_getElem? hk, ?_⟩
        rintro rfl
        rw [getElem?_pairs] at hk
        cases hx : l[k]? with
        | none => rw [hx] at hk; cases hk
        | some y =>
          rw [hx] at hk
          simp only [Option.map_some, Option.some.injEq, Prod.mk.injEq] at hk
          rw [hk.1] at hx
          exact hik (getElem?_inj_nodup hok.1 hi hx)
    · rintro (⟨rfl, rfl⟩ | ⟨hm, hne⟩)
      · exact ⟨i, by rw [List.getElem?_set, if_pos rfl, if_pos (by rw [pairs_length]; exact hil)]⟩
      · obtain ⟨k, hk, hb⟩ := mem_pairs.1 hm
        have hik : i ≠ k := by rintro rfl; rw [hi] at hk; injection hk with hk; exact hne hk.symm
        exact ⟨k, by rw [List.getElem?_set, if_neg hik, getElem?_pairs, hk, hb]; rfl⟩
  refine ⟨⟨h.ve, h.ef, ?_, ?_, h.newV, h.newE, h.newF, h.newR⟩, hp⟩
  · refine h.fr.regions (fun z => z = r) (fun _ _ => rfl) (fun z hz => facesOf_ne _ _ _ _ hz) ?_ ?_ ?_
    · intro x hx z hz d'
      dsimp only
      by_cases hxf : x = f
      · subst hxf; rw [upd_same, endAt_remRegion (h.notBoth hx)]; simp [hz]
      · rw [upd_ne _ _ hxf]
        by_cases hxg : x = g
        · subst hxg
          rw [upd_same, endAt_setEnd]
          split
          · rename_i hd; rw [← hd, hfree]; simp [Ne.symm hz]
          · rfl
        · rw [upd_ne _ _ hxg]
    · intro x hx z hz d'
      subst hz
      dsimp only
      rw [facesOf_same, hp, hmem, and_iff_right hr]
      by_cases hxf : x = f
      · subst hxf; rw [upd_same, endAt_remRegion (h.notBoth hx)]; simp [hfg]
      · rw [upd_ne _ _ hxf]
        by_cases hxg : x = g
        · subst hxg
          rw [upd_same, endAt_setEnd]
          have hnp : (x, d') ∉ pairs l (rbit (T.rd z)) := fun hc => hgl (mem_of_mem_pairs hc)
          split
          · rename_i hd
            have : d' = d := by cases d <;> cases d' <;> simp_all
            simp [this]
          · rename_i hd
            have hdd : d' ≠ d := by rintro rfl; exact hd rfl
            simp only [hnp, hdd, and_false, false_and, or_self, iff_false]
            exact slot_absent h hl hx hgl _
        · rw [upd_ne _ _ hxg, h.fr.mem x hx, facesOf_some hl, and_iff_right hr]
          simp [hxg, hxf]
    · intro z hz x d' _ hm
      subst hz
      dsimp only at hm
      rw [facesOf_same, hp, hmem] at hm
      rcases hm with ⟨rfl, _⟩ | ⟨hm, _⟩
      · exact hg
      · exact h.rfacesLive hr (by rw [hl]; exact mem_of_mem_pairs hm)
  · intro z l' hz hl'
    dsimp only at hl' ⊢
    by_cases hzr : z = r
    · subst hzr
      rw [upd_same] at hl' ⊢
      injection hl' with hl'
      subst hl'
      exact ⟨hok.1.set hgl, by rw [hwl, List.length_set]; exact hok.2⟩
    · rw [upd_ne _ _ hzr] at hl' ⊢
      exact h.reg z l' hz hl'

/-- The face `g` is appended to the faces of a region. -/
theorem Consistent.append {T : Topo} (h : T.Consistent) {r g : Nat} {l : List Nat} {d : Bool}
    {w : List (BitVec 32)} (hr : T.sr r = .live) (hl : T.rf r = some l)
    (hw : ∀ j, rbit w j = if j = l.length then d else rbit (T.rd r) j)
    (hwl : 1 + (l.length + 1)/32 ≤ w.length)
    (hg : T.sf g = .live) (hgl : g ∉ l) (hfree : endAt (T.fr g) (!d) = none) :
    Consistent { T with
      rd := upd T.rd r w
      rf := upd T.rf r (some (l ++ [g]))
      fr := upd T.fr g (setEnd (T.fr g) (!d) (some r)) } ∧
    pairs (l ++ [g]) (rbit w) = pairs l (rbit (T.rd r)) ++ [(g, d)] := by
  have hok := h.reg r l (alloc_of_live hr) hl
  have hp : pairs (l ++ [g]) (rbit w) = pairs l (rbit (T.rd r)) ++ [(g, d)] := by
    unfold pairs
    rw [List.mapIdx_append]
    have h1 := pairs_congr (l := l) (b := rbit w) (c := rbit (T.rd r)) (by
      intro i hi; rw [hw i, if_neg (by omega)])
    unfold pairs at h1
    rw [h1]
    simp [hw]
  refine ⟨⟨h.ve, h.ef, ?_, ?_, h.newV, h.newE, h.newF, h.newR⟩, hp⟩
  · refine h.fr.regions (fun z => z = r) (fun _ _ => rfl) (fun z hz => facesOf_ne _ _ _ _ hz) ?_ ?_ ?_
    · intro x hx z hz d'
      dsimp only
      by_cases hxg : x = g
      · subst hxg
        rw [upd_same, endAt_setEnd]
        split
        · rename_i hd; rw [← hd, hfree]; simp [Ne.symm hz]
        · rfl
      · rw [upd_ne _ _ hxg]
    · intro x hx z hz d'
      subst hz
      dsimp only
      rw [facesOf_same, hp, List.mem_append, List.mem_singleton, Prod.mk.injEq, and_iff_right hr]
      by_cases hxg : x = g
      · subst hxg
        rw [upd_same, endAt_setEnd]
        have hnp : (x, d') ∉ pairs l (rbit (T.rd z)) := fun hc => hgl (mem_of_mem_pairs hc)
        split
        · rename_i hd
          have : d' = d := by cases d <;> cases d' <;> simp_all
          simp [this]
        · rename_i hd
          have hdd : d' ≠ d := by rintro rfl; exact hd rfl
          simp only [hnp, hdd, and_false, false_or, iff_false]
          exact slot_absent h hl hx hgl _
      · rw [upd_ne _ _ hxg, h.fr.mem x hx, facesOf_some hl, and_iff_right hr]
        simp [hxg]
    · intro z hz x d' _ hm
      subst hz
      dsimp only at hm
      rw [facesOf_same, hp, List.mem_append, List.mem_singleton, Prod.mk.injEq] at hm
      rcases hm with hm | ⟨rfl, _⟩
      · exact h.rfacesLive hr (by rw [hl]; exact mem_of_mem_pairs hm)
      · exact hg
  · intro z l' hz hl'
    dsimp only at hl' ⊢
    by_cases hzr : z = r
    · subst hzr
      rw [upd_same] at hl' ⊢
      injection hl' with hl'
      subst hl'
      refine ⟨?_, by rw [List.length_append]; exact hwl⟩
      rw [List.nodup_append]
      refine ⟨hok.1, by simp, ?_⟩
      intro a ha b hb hab
      simp only [List.mem_singleton] at hb
      subst hb; subst hab
      exact hgl ha
    · rw [upd_ne _ _ hzr] at hl' ⊢
      exact h.reg z l' hz hl'

theorem Consistent.retype {T : Topo} (h : T.Consistent) (rt : Nat → MRType) :
    Consistent { T with rt := rt } :=
  ⟨h.ve, h.ef, h.fr, h.reg, h.newV, h.newE, h.newF, h.newR⟩

end Topo
end MSTK
