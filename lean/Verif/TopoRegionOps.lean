import Verif.TopoSetVerts

/-!
Closed forms of the operations on regions and preservation of the mesh consistency.
-/
namespace MSTK
namespace Topo

/-- the regions in `S` change, together with the slots of faces -/
theorem Sides.regions {sf : Nat → Stat} {fr fr' : Nat → Option Nat × Option Nat}
    {sr sr' : Nat → Stat} {fo fo' : Nat → List (Nat × Bool)} (h : Sides sf fr sr fo)
    (S : Nat → Prop) (hsr : ∀ z, ¬ S z → sr' z = sr z) (hfo : ∀ z, ¬ S z → fo' z = fo z)
    (hoth : ∀ f, (sf f).alloc → ∀ z, ¬ S z → ∀ d,
      (endAt (fr' f) (!d) = some z ↔ endAt (fr f) (!d) = some z))
    (hr : ∀ f, (sf f).alloc → ∀ z, S z → ∀ d,
      (endAt (fr' f) (!d) = some z ↔ sr' z = .live ∧ (f, d) ∈ fo' z))
    (hdown : ∀ z, S z → ∀ f d, sr' z = .live → (f, d) ∈ fo' z → sf f = .live) :
    Sides sf fr' sr' fo' := by
  refine ⟨?_, ?_⟩
  · intro f hf z d
    by_cases hz : S z
    · exact hr f hf z hz d
    · rw [hoth f hf z hz d, h.mem f hf z d, hsr z hz, hfo z hz]
  · intro z f d hl hm
    by_cases hz : S z
    · exact hdown z hz f d hl hm
    · rw [hsr z hz] at hl
      rw [hfo z hz] at hm
      exact h.down z f d hl hm

theorem facesOf_same (rf : Nat → Option (List Nat)) (rd : Nat → List (BitVec 32)) (r : Nat)
    (l : List Nat) (w : List (BitVec 32)) :
    facesOf (upd rf r (some l)) (upd rd r w) r = pairs l (rbit w) := by
  unfold facesOf; rw [upd_same, upd_same]; rfl

theorem facesOf_ne (rf : Nat → Option (List Nat)) (rd : Nat → List (BitVec 32)) {r z : Nat}
    (o : Option (List Nat)) (w : List (BitVec 32)) (h : z ≠ r) :
    facesOf (upd rf r o) (upd rd r w) z = facesOf rf rd z := by
  unfold facesOf; rw [upd_ne _ _ h, upd_ne _ _ h]

theorem facesOf_some {rf : Nat → Option (List Nat)} {rd : Nat → List (BitVec 32)} {r : Nat}
    {l : List Nat} (h : rf r = some l) : facesOf rf rd r = pairs l (rbit (rd r)) := by
  unfold facesOf; rw [h]; rfl

theorem endAt_setEnd (p : Option Nat × Option Nat) (i j : Bool) (o : Option Nat) :
    endAt (setEnd p i o) j = if i = j then o else endAt p j := by
  cases i <;> cases j <;> rfl

theorem endAt_remRegion {p : Option Nat × Option Nat} {r : Nat} (h : p ≠ (some r, some r))
    (j : Bool) (z : Nat) : endAt (remRegion p r) j = some z ↔ endAt p j = some z ∧ z ≠ r := by
  obtain ⟨a, b⟩ := p
  unfold remRegion endAt
  by_cases h1 : a = some r
  · subst h1
    have hb : b ≠ some r := fun hb => h (by rw [hb])
    cases j
    · simp [eq_comm]
    · simp only [if_true]
      constructor
      · intro hz; subst hz; exact ⟨rfl, fun hz => hb (by rw [hz])⟩
      · exact fun hz => hz.1
  · simp only [h1, if_false]
    by_cases h2 : b = some r
    · subst h2
      cases j
      · simp only [if_true, Bool.false_eq_true, if_false]
        constructor
        · intro hz; subst hz; exact ⟨rfl, fun hz => h1 (by rw [hz])⟩
        · exact fun hz => hz.1
      · simp [eq_comm]
    · simp only [h2, if_false]
      constructor
      · intro hz
        refine ⟨hz, ?_⟩
        rintro rfl
        cases j
        · exact h1 hz
        · exact h2 hz
      · exact fun hz => hz.1

theorem remRegion_absent {p : Option Nat × Option Nat} {r : Nat} (h1 : p.1 ≠ some r)
    (h2 : p.2 ≠ some r) : remRegion p r = p := by
  unfold remRegion; rw [if_neg h1, if_neg h2]

theorem mem_pairs_dir {l : List Nat} {b : Nat → Bool} {i x : Nat} (hnd : l.Nodup)
    (hi : l[i]? = some x) (d : Bool) : (x, d) ∈ pairs l b ↔ b i = d := by
  rw [mem_pairs]
  constructor
  · rintro ⟨k, hk, hb⟩
    rw [getElem?_inj_nodup hnd hi hk]; exact hb
  · intro hb; exact ⟨i, hi, hb⟩

theorem mem_of_mem_pairs {l : List Nat} {b : Nat → Bool} {x : Nat} {d : Bool}
    (h : (x, d) ∈ pairs l b) : x ∈ l := by
  obtain ⟨k, hk, _⟩ := mem_pairs.1 h
  exact List.mem_of_getElem? hk

/-- no face has the same region on both sides -/
theorem Consistent.notBoth {T : Topo} (h : T.Consistent) {f r : Nat} (hf : (T.sf f).alloc) :
    T.fr f ≠ (some r, some r) := by
  intro he
  obtain ⟨h1, h2⟩ := (h.fr.mem f hf r true).1 (by rw [he]; rfl)
  obtain ⟨_, h3⟩ := (h.fr.mem f hf r false).1 (by rw [he]; rfl)
  cases hl : T.rf r with
  | none => unfold facesOf at h2; rw [hl] at h2; simp [pairs] at h2
  | some l =>
    have hok := h.reg r l (alloc_of_live h1) hl
    rw [facesOf_some hl] at h2 h3
    obtain ⟨i, hi, hb⟩ := mem_pairs.1 h2
    rw [mem_pairs_dir hok.1 hi] at h3
    rw [hb] at h3
    cases h3

theorem Consistent.newRegion {T : Topo} (h : T.Consistent) : T.mrNew.1.Consistent := by
  have hfree : T.sr T.nr = .unused := h.newR _ (Nat.le_refl _)
  refine ⟨h.ve, h.ef, ?_, ?_, h.newV, h.newE, h.newF, ?_⟩
  · have hfo : facesOf (upd T.rf T.nr none) (upd T.rd T.nr []) T.nr = [] := by
      unfold facesOf; rw [upd_same]; rfl
    refine h.fr.regions (fun z => z = T.nr) (fun z hz => upd_ne _ _ hz) (fun z hz => facesOf_ne _ _ _ _ hz)
      (fun _ _ _ _ _ => Iff.rfl) ?_ ?_
    · intro f hf z hz d
      subst hz
      show _ ↔ _ ∧ _ ∈ facesOf (upd T.rf T.nr none) (upd T.rd T.nr []) T.nr
      rw [hfo]
      show endAt (T.fr f) (!d) = some T.nr ↔ _
      rw [h.fr.mem f hf, hfree]
      simp
    · intro z hz f d _ hm
      subst hz
      have hm : (f, d) ∈ facesOf (upd T.rf T.nr none) (upd T.rd T.nr []) T.nr := hm
      rw [hfo] at hm; simp at hm
  · intro r l hr hl
    have hl : upd T.rf T.nr none r = some l := hl
    have hr : ((upd T.sr T.nr .live) r).alloc := hr
    by_cases hrn : r = T.nr
    · subst hrn; rw [upd_same] at hl; cases hl
    · rw [upd_ne _ _ hrn] at hl hr
      show RegOk l (upd T.rd T.nr [] r)
      rw [upd_ne _ _ hrn]
      exact h.reg r l hr hl
  · intro i hi
    show upd T.sr T.nr .live i = .unused
    have hi : T.nr + 1 ≤ i := hi
    rw [upd_ne _ _ (by omega)]
    exact h.newR i (by omega)

theorem mfAddRegion_ok {T : Topo} {f r : Nat} {s : Bool} (h : (T.sf f).alloc) :
    T.mfAddRegion f r s = .ok { T with fr := upd T.fr f (setEnd (T.fr f) s (some r)) } := by
  unfold mfAddRegion
  rw [derefF_ok h]; rfl

theorem mfRemRegion_ok {T : Topo} {f r : Nat} (h : (T.sf f).alloc) :
    T.mfRemRegion f r = .ok { T with fr := upd T.fr f (remRegion (T.fr f) r) } := by
  unfold mfRemRegion
  rw [derefF_ok h]; rfl

/-- slots after `r` was removed from the faces `fs` -/
def remSlots (fr : Nat → Option Nat × Option Nat) (r : Nat) (fs : List Nat) :
    Nat → Option Nat × Option Nat :=
  fun f => if f ∈ fs then remRegion (fr f) r else fr f

theorem mfRemRegionAll_ok (r : Nat) (fs : List Nat) : ∀ (T : Topo), fs.Nodup →
    (∀ f ∈ fs, (T.sf f).alloc) → T.mfRemRegionAll r fs = .ok { T with fr := remSlots T.fr r fs } := by
  induction fs with
  | nil =>
    intro T _ _
    show Res.ok T = _
    congr 1
  | cons f fs ih =>
    intro T hnd h
    rw [show T.mfRemRegionAll r (f :: fs) = (mfRemRegion T f r >>= fun T => mfRemRegionAll T r fs) from rfl,
      mfRemRegion_ok (h f (by simp)), Res.bind_ok, ih _ (List.nodup_cons.1 hnd).2 (by exact fun x hx => h x (by simp [hx]))]
    have hfn := (List.nodup_cons.1 hnd).1
    have : remSlots (upd T.fr f (remRegion (T.fr f) r)) r fs = remSlots T.fr r (f :: fs) := by
      funext x
      unfold remSlots
      by_cases hx : x = f
      · subst hx; simp [hfn]
      · simp [hx, upd_ne _ _ hx]
    dsimp only
    rw [this]

theorem mrDelete_ok {T : Topo} {r : Nat} {keep : Bool} (hr : T.sr r = .live)
    (hnd : ((T.rf r).getD []).Nodup) (hall : ∀ f ∈ (T.rf r).getD [], (T.sf f).alloc) :
    T.mrDelete r keep = .ok { T with fr := remSlots T.fr r ((T.rf r).getD []),
                                     sr := upd T.sr r (afterDelete keep) } := by
  unfold mrDelete
  rw [derefR_ok (alloc_of_live hr), Res.bind_ok, if_pos hr, mfRemRegionAll_ok r _ _ hnd hall, Res.bind_ok]
  rfl

theorem newR_upd {T : Topo} (h : T.Consistent) {e : Nat} {s : Stat} (he : (T.sr e).alloc) :
    ∀ i, T.nr ≤ i → upd T.sr e s i = .unused := by
  intro i hi
  rw [upd_ne]
  · exact h.newR i hi
  · rintro rfl
    rw [h.newR i hi] at he; cases he

theorem Consistent.rfacesNodup {T : Topo} (h : T.Consistent) {r : Nat} (hr : (T.sr r).alloc) :
    ((T.rf r).getD []).Nodup := by
  cases hl : T.rf r with
  | none => exact List.nodup_nil
  | some l => exact (h.reg r l hr hl).1

theorem mem_facesOf_iff {T : Topo} {r f : Nat} : f ∈ (T.rf r).getD [] ↔
    ∃ d, (f, d) ∈ facesOf T.rf T.rd r := by
  unfold facesOf
  constructor
  · intro hf
    obtain ⟨i, hi⟩ := List.mem_iff_getElem?.1 hf
    exact ⟨_, mem_pairs.2 ⟨i, hi, rfl⟩⟩
  · rintro ⟨d, hd⟩; exact mem_of_mem_pairs hd

theorem Consistent.rfacesLive {T : Topo} (h : T.Consistent) {r f : Nat} (hr : T.sr r = .live)
    (hf : f ∈ (T.rf r).getD []) : T.sf f = .live := by
  obtain ⟨d, hd⟩ := mem_facesOf_iff.1 hf
  exact h.fr.down r f d hr hd

theorem Consistent.delRegion {T : Topo} (h : T.Consistent) {r : Nat} {k : Bool}
    (hr : (T.sr r).alloc) : ∃ T', T.mrDelete r k = .ok T' ∧ T'.Consistent := by
  have hreg : ∀ z l, ((upd T.sr r (afterDelete k)) z).alloc → T.rf z = some l → RegOk l (T.rd z) := by
    intro z l hz hl
    by_cases hzr : z = r
    · subst hzr; exact h.reg z l hr hl
    · rw [upd_ne _ _ hzr] at hz; exact h.reg z l hz hl
  by_cases hl : T.sr r = .live
  · refine ⟨_, mrDelete_ok hl (h.rfacesNodup hr) (fun f hf => alloc_of_live (h.rfacesLive hl hf)),
      h.ve, h.ef, ?_, hreg, h.newV, h.newE, h.newF, newR_upd h hr⟩
    refine h.fr.regions (fun z => z = r) (fun z hz => upd_ne _ _ hz) (fun _ _ => rfl) ?_ ?_ ?_
    · intro f hf z hz d
      dsimp only
      unfold remSlots
      split
      · rw [endAt_remRegion (h.notBoth hf)]; simp [hz]
      · rfl
    · intro f hf z hz d
      subst hz
      dsimp only
      rw [upd_same]
      simp only [afterDelete_ne_live, false_and, iff_false]
      unfold remSlots
      split
      · rw [endAt_remRegion (h.notBoth hf)]; simp
      · rename_i hnm
        intro hc
        exact hnm (mem_facesOf_iff.2 ⟨d, ((h.fr.mem f hf z d).1 hc).2⟩)
    · intro z hz f d hlv
      subst hz
      dsimp only at hlv
      rw [upd_same] at hlv
      exact absurd hlv (afterDelete_ne_live k)
  · unfold mrDelete
    rw [derefR_ok hr, Res.bind_ok, if_neg hl]
    refine ⟨_, rfl, h.ve, h.ef, ?_, hreg, h.newV, h.newE, h.newF, newR_upd h hr⟩
    refine h.fr.regions (fun z => z = r) (fun z hz => upd_ne _ _ hz) (fun _ _ => rfl)
      (fun _ _ _ _ _ => Iff.rfl) ?_ ?_
    · intro f hf z hz d
      subst hz
      dsimp only
      rw [upd_same, h.fr.mem f hf]
      simp [hl, afterDelete_ne_live]
    · intro z hz f d hlv
      subst hz
      dsimp only at hlv
      rw [upd_same] at hlv
      exact absurd hlv (afterDelete_ne_live k)

/-! ### defining a region -/

/-- slots after `r` was entered for the faces `fs` used in the given directions -/
def addSlots (fr : Nat → Option Nat × Option Nat) (r : Nat) :
    List (Nat × Bool) → Nat → Option Nat × Option Nat
  | [] => fr
  | p :: ps => addSlots (upd fr p.1 (setEnd (fr p.1) (!p.2) (some r))) r ps

theorem addSlots_spec (r : Nat) (fs : List (Nat × Bool)) :
    ∀ (fr : Nat → Option Nat × Option Nat) (f : Nat) (d : Bool),
    endAt (addSlots fr r fs f) (!d) = if (f, d) ∈ fs then some r else endAt (fr f) (!d) := by
  induction fs with
  | nil => intro fr f d; simp [addSlots]
  | cons p ps ih =>
    intro fr f d
    rw [show addSlots fr r (p :: ps) f =
      addSlots (upd fr p.1 (setEnd (fr p.1) (!p.2) (some r))) r ps f from rfl, ih]
    by_cases hm : (f, d) ∈ ps
    · rw [if_pos hm, if_pos (List.mem_cons_of_mem _ hm)]
    · rw [if_neg hm]
      by_cases hf : f = p.1
      · rw [hf, upd_same, endAt_setEnd]
        by_cases hd : d = p.2
        · rw [hd, if_pos rfl, if_pos (by simp)]
        · rw [if_neg (by cases d <;> cases h2 : p.2 <;> simp_all), if_neg]
          rw [← hf, List.mem_cons]
          rintro (hc | hc)
          · exact hd (by rw [← hc])
          · exact hm hc
      · rw [upd_ne _ _ hf, if_neg]
        rw [List.mem_cons]
        rintro (hc | hc)
        · exact hf (by rw [← hc])
        · exact hm hc

theorem setFacesLoop_ok (r : Nat) (fs : List (Nat × Bool)) : ∀ (i : Nat) (T : Topo) (l : List Nat),
    T.rf r = some l → l.length = i → (i + fs.length)/32 < (T.rd r).length →
    (∀ j, i ≤ j → rbit (T.rd r) j = false) → (∀ p ∈ fs, (T.sf p.1).alloc) →
    ∃ w', setFacesLoop r i fs T = .ok { T with
        rf := upd T.rf r (some (l ++ fs.map (·.1))), rd := upd T.rd r w',
        fr := addSlots T.fr r fs } ∧ w'.length = (T.rd r).length ∧
      (∀ j, j < i → rbit w' j = rbit (T.rd r) j) ∧
      (∀ (k : Nat) p, fs[k]? = some p → rbit w' (i + k) = p.2) ∧
      (∀ j, i + fs.length ≤ j → rbit w' j = false) := by
  induction fs with
  | nil =>
    intro i T l hl _ _ hz _
    refine ⟨T.rd r, ?_, rfl, fun _ _ => rfl, ?_, ?_⟩
    · rw [upd_self, List.map_nil, List.append_nil, ← hl, upd_self]
      rfl
    · intro k p hk; simp at hk
    · intro j hj; exact hz j (by simpa using hj)
  | cons fd fs ih =>
    obtain ⟨f, d⟩ := fd
    intro i T l hl hi hn hz hall
    simp only [List.length_cons] at hn
    have hiw : i/32 < (T.rd r).length := by
      have : i/32 ≤ (i + (fs.length + 1))/32 := Nat.div_le_div_right (by omega)
      omega
    obtain ⟨w, hw, ew1, ew⟩ := orW_ok (w := T.rd r) (i := i) d hiw
    have hstep : setFacesLoop r i ((f, d) :: fs) T =
        setFacesLoop r (i+1) fs { T with rd := upd T.rd r w, rf := upd T.rf r (some (l ++ [f])),
                                         fr := upd T.fr f (setEnd (T.fr f) (!d) (some r)) } := by
      rw [show setFacesLoop r i ((f, d) :: fs) T = (orW (T.rd r) i d >>= fun w =>
        Res.ofOption (T.rf r) >>= fun l => mfAddRegion { T with rd := upd T.rd r w, rf := upd T.rf r (some (l ++ [f])) } f r (!d) >>= fun T => setFacesLoop r (i+1) fs T) from rfl,
        hw, Res.bind_ok, hl, Res.ofOption_some, Res.bind_ok, mfAddRegion_ok (by exact hall (f, d) (by simp)),
        Res.bind_ok]
    obtain ⟨w', h1, h1', h2, h3, h4⟩ := ih (i+1) { T with
        rd := upd T.rd r w, rf := upd T.rf r (some (l ++ [f])),
        fr := upd T.fr f (setEnd (T.fr f) (!d) (some r)) } (l ++ [f])
      (upd_same _ _ _) (by simp [hi])
      (by
        show _ < (upd T.rd r w r).length
        rw [upd_same, ew1, show i + 1 + fs.length = i + (fs.length + 1) by omega]
        exact hn)
      (by
        intro j h1
        show rbit (upd T.rd r w r) j = false
        rw [upd_same, ew j, hz j (by omega), decide_eq_false (by omega)]
        rfl)
      (fun p hp => hall p (by simp [hp]))
    refine ⟨w', ?_, ?_, ?_, ?_, ?_⟩
    · rw [hstep, h1]
      simp only [upd_upd, List.map_cons, List.append_assoc, List.cons_append, List.nil_append]
      rfl
    · rw [h1']
      show (upd T.rd r w r).length = _
      rw [upd_same, ew1]
    · intro j hj
      rw [h2 j (by omega)]
      show rbit (upd T.rd r w r) j = _
      rw [upd_same, ew j, decide_eq_false (by omega)]
      simp
    · intro k p hk
      cases k with
      | zero =>
        simp only [List.getElem?_cons_zero, Option.some.injEq] at hk
        subst hk
        rw [Nat.add_zero, h2 i (by omega)]
        show rbit (upd T.rd r w r) i = d
        rw [upd_same, ew i, hz i (by omega)]
        simp
      | succ k =>
        rw [List.getElem?_cons_succ] at hk
        have := h3 k p hk
        rw [show i + 1 + k = i + (k + 1) by omega] at this
        exact this
    · intro j hj
      simp only [List.length_cons] at hj
      exact h4 j (by omega)

theorem faceSizes_ok (T : Topo) : ∀ (fs : List Nat), (∀ f ∈ fs, (T.sf f).alloc ∧ ∃ l, T.fe f = some l) →
    T.faceSizes fs = .ok (fs.map fun f => ((T.fe f).getD []).length) := by
  intro fs
  induction fs with
  | nil => intro _; rfl
  | cons f fs ih =>
    intro h
    obtain ⟨hf, l, hl⟩ := h f (by simp)
    rw [show T.faceSizes (f :: fs) = (T.mfNumVertices f >>= fun n => T.faceSizes fs >>= fun r => pure (n :: r)) from rfl]
    unfold mfNumVertices
    rw [fedges_ok hf hl, Res.bind_ok, Res.pure_eq, Res.bind_ok, ih (fun x hx => h x (by simp [hx])), Res.bind_ok,
      List.map_cons, hl]
    rfl

/-- the element type computed from the faces of a region -/
def typeOf (T : Topo) (l : List Nat) : MRType :=
  elementType (if 4 ≤ l.length ∧ l.length ≤ 6 then l.map fun f => ((T.fe f).getD []).length
    else l.map fun _ => 0)

theorem mrUpdateType_ok {T : Topo} {r : Nat} {l : List Nat} (hr : (T.sr r).alloc)
    (hl : T.rf r = some l) (hall : ∀ f ∈ l, (T.sf f).alloc ∧ ∃ l, T.fe f = some l) :
    T.mrUpdateType r = .ok { T with rt := upd T.rt r (typeOf T l) } := by
  unfold mrUpdateType rfaces
  rw [derefR_ok hr, Res.bind_ok, hl, Res.ofOption_some, Res.bind_ok]
  unfold sizesRead typeOf
  split
  · rw [faceSizes_ok T l hall]; rfl
  · rfl

/-- Closed form of `MR_Set_Faces`. -/
theorem mrSetFaces_ok {T : Topo} {r : Nat} {fs : List (Nat × Bool)} (hr : (T.sr r).alloc)
    (hall : ∀ p ∈ fs, (T.sf p.1).alloc) (hsz : T.Sized (fs.map (·.1))) :
    ∃ w', T.mrSetFaces r fs = .ok { T with
        rf := upd T.rf r (some (fs.map (·.1))), rd := upd T.rd r w', fr := addSlots T.fr r fs,
        rt := upd T.rt r (typeOf T (fs.map (·.1))) } ∧
      w'.length = 1 + fs.length/32 ∧ pairs (fs.map (·.1)) (rbit w') = fs := by
  obtain ⟨w', h1, h2, _, h3, _⟩ := setFacesLoop_ok r fs 0
    { T with rd := upd T.rd r (List.replicate (1 + fs.length/32) 0), rf := upd T.rf r (some []) } []
    (upd_same _ _ _) rfl (by
      show _ < (upd T.rd r _ r).length
      rw [upd_same, List.length_replicate, Nat.zero_add]; omega)
    (by intro j _; show rbit (upd T.rd r _ r) j = false; rw [upd_same, rbit_replicate])
    hall
  refine ⟨w', ?_, ?_, pairs_eq ?_⟩
  · unfold mrSetFaces
    rw [derefR_ok hr, Res.bind_ok, h1, Res.bind_ok]
    simp only [upd_upd, List.nil_append]
    rw [mrUpdateType_ok (l := fs.map (·.1)) (by exact hr) (upd_same _ _ _) ?_]
    · rfl
    · intro f hf
      refine ⟨?_, hsz f hf⟩
      obtain ⟨p, hp, rfl⟩ := List.mem_map.1 hf
      exact hall p hp
  · rw [h2]
    show (upd T.rd r _ r).length = _
    rw [upd_same, List.length_replicate]
  · intro i p hp
    have := h3 i p hp
    rwa [Nat.zero_add] at this

/-- entering a region with faces `fs` whose sides are free -/
theorem Sides.enter {sf : Nat → Stat} {fr : Nat → Option Nat × Option Nat}
    {sr sr' : Nat → Stat} {fo fo' : Nat → List (Nat × Bool)} (h : Sides sf fr sr fo) {r : Nat}
    {fs : List (Nat × Bool)} (hno : ∀ f d, ¬ (sr r = .live ∧ (f, d) ∈ fo r))
    (hsr : ∀ z, z ≠ r → sr' z = sr z) (hl : sr' r = .live)
    (hfo : ∀ z, z ≠ r → fo' z = fo z) (hfr : fo' r = fs)
    (hfree : ∀ p ∈ fs, sf p.1 = .live ∧ endAt (fr p.1) (!p.2) = none) :
    Sides sf (addSlots fr r fs) sr' fo' := by
  refine h.regions (fun z => z = r) hsr hfo ?_ ?_ ?_
  · intro f hf z hz d
    rw [addSlots_spec]
    split
    · rename_i hm
      rw [(hfree _ hm).2]
      constructor
      · intro hc; injection hc with hc; exact absurd hc.symm hz
      · intro hc; cases hc
    · rfl
  · intro f hf z hz d
    subst hz
    rw [addSlots_spec, hfr, and_iff_right hl]
    split
    · rename_i hm; simp [hm]
    · rename_i hm
      rw [h.mem f hf]
      constructor
      · intro hc; exact absurd hc (hno f d)
      · intro hc; exact absurd hc hm
  · intro z hz f d _ hm
    subst hz
    rw [hfr] at hm
    exact (hfree _ hm).1

theorem Consistent.setFaces {T : Topo} (h : T.Consistent) {r : Nat} {fs : List (Nat × Bool)}
    (hr : T.sr r = .live) (he : (T.rf r).getD [] = []) (hnd : (fs.map (·.1)).Nodup)
    (hfree : ∀ p ∈ fs, T.sf p.1 = .live ∧ endAt (T.fr p.1) (!p.2) = none)
    (hsz : T.Sized (fs.map (·.1))) : ∃ T', T.mrSetFaces r fs = .ok T' ∧ T'.Consistent := by
  obtain ⟨w', h1, h2, h3⟩ := mrSetFaces_ok (T := T) (r := r) (fs := fs) (alloc_of_live hr)
    (fun p hp => alloc_of_live (hfree p hp).1) hsz
  refine ⟨_, h1, h.ve, h.ef, ?_, ?_, h.newV, h.newE, h.newF, h.newR⟩
  · refine h.fr.enter ?_ (fun _ _ => rfl) hr (fun z hz => facesOf_ne _ _ _ _ hz) ?_ hfree
    · rintro f d ⟨_, hm⟩
      unfold facesOf at hm
      rw [he] at hm; simp [pairs] at hm
    · dsimp only; rw [facesOf_same, h3]
  · intro z l hz hl
    dsimp only at hl ⊢
    by_cases hzr : z = r
    · subst hzr
      rw [upd_same] at hl ⊢
      injection hl with hl
      subst hl
      exact ⟨hnd, by rw [h2, List.length_map]⟩
    · rw [upd_ne _ _ hzr] at hl ⊢
      exact h.reg z l hz hl

theorem restoreFaces_ok (r : Nat) (w : List (BitVec 32)) (l : List Nat) : ∀ (i : Nat) (T : Topo),
    (∀ k, k < l.length → (i + k)/32 < w.length) → (∀ f ∈ l, (T.sf f).alloc) →
    restoreFaces r w i l T =
      .ok { T with fr := addSlots T.fr r (pairs l fun k => rbit w (i + k)) } := by
  induction l with
  | nil => intro i T _ _; rfl
  | cons f l ih =>
    intro i T hw hall
    rw [show restoreFaces r w i (f :: l) T = (getW w i >>= fun b => mfAddRegion T f r (!b) >>= fun T =>
      restoreFaces r w (i+1) l T) from rfl, getW_ok (by have := hw 0 (by simp); simpa using this), Res.bind_ok,
      mfAddRegion_ok (hall f (by simp)), Res.bind_ok]
    rw [ih (i+1) _ (by
      intro k hk
      have := hw (k+1) (by simp; omega)
      rwa [show i + (k+1) = i + 1 + k by omega] at this) (by exact fun x hx => hall x (by simp [hx]))]
    have hp : pairs (f :: l) (fun k => rbit w (i + k)) =
        (f, rbit w i) :: pairs l (fun k => rbit w (i + 1 + k)) := by
      unfold pairs
      rw [List.mapIdx_cons]
      simp only [Nat.add_zero, List.cons.injEq, true_and]
      congr 1
      funext k x
      rw [show i + (k + 1) = i + 1 + k by omega]
    rw [hp]
    rfl

theorem rfaces_ok {T : Topo} {r : Nat} {l : List Nat} (hr : (T.sr r).alloc) (hl : T.rf r = some l) :
    T.rfaces r = .ok l := by
  unfold rfaces
  rw [derefR_ok hr, Res.bind_ok, hl]
  rfl

theorem RegOk.word {l : List Nat} {w : List (BitVec 32)} (h : RegOk l w) {i : Nat}
    (hi : i ≤ l.length) : i/32 < w.length := by
  have : i/32 ≤ l.length/32 := Nat.div_le_div_right hi
  have := h.2
  omega

theorem Consistent.restoreRegion {T : Topo} (h : T.Consistent) {r : Nat} {l : List Nat}
    (hr : T.sr r = .kept) (hl : T.rf r = some l)
    (hfree : ∀ p ∈ facesOf T.rf T.rd r, T.sf p.1 = .live ∧ endAt (T.fr p.1) (!p.2) = none) :
    ∃ T', T.mrRestore r = .ok T' ∧ T'.Consistent := by
  have hal : (T.sr r).alloc := by rw [hr]; rfl
  have hok := h.reg r l hal hl
  rw [facesOf_some hl] at hfree
  have hrun : T.mrRestore r = .ok { T with sr := upd T.sr r .live,
                                           fr := addSlots T.fr r (pairs l (rbit (T.rd r))) } := by
    unfold mrRestore
    rw [rfaces_ok hal hl, Res.bind_ok, restoreFaces_ok r _ l 0 _ (by
      intro k hk; exact hok.word (by omega)) (by
      intro f hf
      have hf' : f ∈ (T.rf r).getD [] := by rw [hl]; exact hf
      obtain ⟨d, hd⟩ := mem_facesOf_iff.1 hf'
      rw [facesOf_some hl] at hd
      exact alloc_of_live (hfree _ hd).1)]
    simp only [Nat.zero_add]
  refine ⟨_, hrun, h.ve, h.ef, ?_, ?_, h.newV, h.newE, h.newF, newR_upd h hal⟩
  · refine h.fr.enter ?_ (fun z hz => upd_ne _ _ hz) (upd_same _ _ _) (fun _ _ => rfl) ?_ hfree
    · rintro f d ⟨hc, _⟩; rw [hr] at hc; cases hc
    · exact facesOf_some hl
  · intro z l' hz hl'
    dsimp only at hl' hz ⊢
    by_cases hzr : z = r
    · subst hzr; exact h.reg z l' hal hl'
    · rw [upd_ne _ _ hzr] at hz; exact h.reg z l' hz hl'

end Topo
end MSTK
