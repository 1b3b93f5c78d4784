import Verif.TopoRegionEdit

/-!
Proofs about `MR_Replace_Face_i` and `MR_Replace_Faces`.
-/
namespace MSTK
namespace Topo

/-- Only the faces of region `r` (and with them the sides of faces) differ. -/
structure OnlyFaces (T T' : Topo) (r : Nat) : Prop where
  sv : T'.sv = T.sv
  ve : T'.ve = T.ve
  se : T'.se = T.se
  ev : T'.ev = T.ev
  ef : T'.ef = T.ef
  sf : T'.sf = T.sf
  fe : T'.fe = T.fe
  fd : T'.fd = T.fd
  sr : T'.sr = T.sr
  rt : ∀ z, z ≠ r → T'.rt z = T.rt z
  rf : ∀ z, z ≠ r → T'.rf z = T.rf z
  rd : ∀ z, z ≠ r → T'.rd z = T.rd z

theorem OnlyFaces.refl (T : Topo) (r : Nat) : OnlyFaces T T r :=
  ⟨rfl, rfl, rfl, rfl, rfl, rfl, rfl, rfl, rfl, fun _ _ => rfl, fun _ _ => rfl, fun _ _ => rfl⟩

theorem OnlyFaces.trans {T T1 T2 : Topo} {r : Nat} (h : OnlyFaces T T1 r) (h' : OnlyFaces T1 T2 r) :
    OnlyFaces T T2 r :=
  ⟨h'.sv.trans h.sv, h'.ve.trans h.ve, h'.se.trans h.se, h'.ev.trans h.ev, h'.ef.trans h.ef,
   h'.sf.trans h.sf, h'.fe.trans h.fe, h'.fd.trans h.fd, h'.sr.trans h.sr,
   fun z hz => (h'.rt z hz).trans (h.rt z hz), fun z hz => (h'.rf z hz).trans (h.rf z hz),
   fun z hz => (h'.rd z hz).trans (h.rd z hz)⟩

/-- One step of a replacement: position `i`, holding `f`, now holds `g` used in direction `d`. -/
theorem replaceFound_ok {T : Topo} (h : T.Consistent) {r i f g nf : Nat} {l : List Nat} {d : Bool}
    (rest : List (Nat × Bool)) (hr : T.sr r = .live) (hl : T.rf r = some l) (hi : l[i]? = some f)
    (hg : T.sf g = .live) (hgl : g ∉ l) (hfree : endAt (T.fr g) (!d) = none) (h512 : i < 512) :
    ∃ T', replaceFound r f nf i T ((g, d) :: rest) = .ok (T', rest) ∧ T'.Consistent ∧
      OnlyFaces T T' r ∧ T'.rt = T.rt ∧ T'.rf r = some (l.set i g) ∧
      (T'.rd r).length = (T.rd r).length ∧
      facesOf T'.rf T'.rd r = (facesOf T.rf T.rd r).set i (g, d) ∧
      ∀ x, x ≠ f → x ≠ g → T'.fr x = T.fr x := by
  have hok := h.reg r l (alloc_of_live hr) hl
  have hil : i < l.length := (List.getElem?_eq_some_iff.1 hi).1
  have hf : T.sf f = .live := h.rfacesLive hr (by rw [hl]; exact List.mem_of_getElem? hi)
  have hfg : f ≠ g := by rintro rfl; exact hgl (List.mem_of_getElem? hi)
  obtain ⟨w, h1, h2, h3⟩ := mrSetFaceDir_i_ok (T := { T with rf := upd T.rf r (some (l.set i g)) })
    (r := r) (i := i) (f := g) (d := d) (l := l.set i g) (by exact alloc_of_live hr)
    (by exact upd_same _ _ _) (by simp [hil]) (by exact alloc_of_live hg) h512
    (by exact hok.word (by omega))
  have hab : remRegion (T.fr g) r = T.fr g :=
    remRegion_absent (slot_absent h hl (alloc_of_live hg) hgl false)
      (slot_absent h hl (alloc_of_live hg) hgl true)
  have hset : setEnd (setEnd (T.fr g) (!d) (some r)) (!d) (some r) = setEnd (T.fr g) (!d) (some r) := by
    cases d <;> rfl
  obtain ⟨hc, hp⟩ := h.exchange (d := d) (w := w) hr hl hi (by exact h3) (by exact h2) hg hgl hfree
  refine ⟨_, ?_, hc, ?_, ?_, ?_, ?_, ?_, ?_⟩
  · unfold replaceFound
    dsimp only
    rw [rfaces_ok (alloc_of_live hr) hl, Res.bind_ok]
    rw [h1, Res.bind_ok, mfAddRegion_ok (by exact alloc_of_live hg), Res.bind_ok,
      mfRemRegion_ok (by exact alloc_of_live hf), Res.bind_ok]
    dsimp only
    rw [hab, upd_same, hset, upd_upd, upd_ne _ _ hfg]
    rfl
  · exact ⟨rfl, rfl, rfl, rfl, rfl, rfl, rfl, rfl, rfl, fun _ _ => rfl, fun z hz => upd_ne _ _ hz,
      fun z hz => upd_ne _ _ hz⟩
  · rfl
  · exact upd_same _ _ _
  · dsimp only; rw [upd_same]; exact h2
  · dsimp only
    rw [facesOf_same, hp, facesOf_some hl]
  · intro x hxf hxg
    dsimp only
    rw [upd_ne _ _ hxf, upd_ne _ _ hxg]

theorem replaceOne_absent {r f nf : Nat} {T : Topo} {nu : List (Nat × Bool)} {l : List Nat}
    (hr : (T.sr r).alloc) (hl : T.rf r = some l) (hf : f ∉ l) :
    ∀ n i, replaceOne r f nf n i (T, nu) = .ok (T, nu) := by
  intro n
  induction n with
  | zero => intro i; rfl
  | succ n ih =>
    intro i
    rw [show replaceOne r f nf (n+1) i (T, nu) = (do
      let l ← T.rfaces r
      if l[i]? = some f then
        let p ← replaceFound r f nf i T nu
        replaceOne r f nf n (i+1) p
      else replaceOne r f nf n (i+1) (T, nu)) from rfl]
    rw [rfaces_ok hr hl, Res.bind_ok, if_neg (fun hc => hf (List.mem_of_getElem? hc)), ih]

/-- The inner loop finds the old face once and exchanges it. -/
theorem replaceOne_ok {T : Topo} (h : T.Consistent) {r k f g nf : Nat} {l : List Nat} {d : Bool}
    (rest : List (Nat × Bool)) (hr : T.sr r = .live) (hl : T.rf r = some l) (hk : l[k]? = some f)
    (hg : T.sf g = .live) (hgl : g ∉ l) (hfree : endAt (T.fr g) (!d) = none) (h512 : k < 512) :
    ∃ T', (∀ n i, i ≤ k → k < i + n → replaceOne r f nf n i (T, (g, d) :: rest) = .ok (T', rest)) ∧
      T'.Consistent ∧
      OnlyFaces T T' r ∧ T'.rt = T.rt ∧ T'.rf r = some (l.set k g) ∧
      (T'.rd r).length = (T.rd r).length ∧
      facesOf T'.rf T'.rd r = (facesOf T.rf T.rd r).set k (g, d) ∧
      ∀ x, x ≠ f → x ≠ g → T'.fr x = T.fr x := by
  have hok := h.reg r l (alloc_of_live hr) hl
  obtain ⟨T', h1, h2, h3, h4, h5, h6⟩ := replaceFound_ok (nf := nf) h rest hr hl hk hg hgl hfree h512
  refine ⟨T', ?_, h2, h3, h4, h5, h6⟩
  intro n
  induction n with
  | zero => intro i h1 h2; omega
  | succ n ih =>
    intro i hi1 hi2
    rw [show replaceOne r f nf (n+1) i (T, (g, d) :: rest) = (do
      let l ← T.rfaces r
      if l[i]? = some f then
        let p ← replaceFound r f nf i T ((g, d) :: rest)
        replaceOne r f nf n (i+1) p
      else replaceOne r f nf n (i+1) (T, (g, d) :: rest)) from rfl]
    rw [rfaces_ok (alloc_of_live hr) hl, Res.bind_ok]
    by_cases hik : i = k
    · subst hik
      rw [if_pos hk, h1, Res.bind_ok]
      refine replaceOne_absent (by rw [h3.sr]; exact alloc_of_live hr) h5 ?_ _ _
      intro hm
      obtain ⟨j, hj⟩ := List.mem_iff_getElem?.1 hm
      rw [List.getElem?_set] at hj
      split at hj
      · split at hj
        · injection hj with hj; subst hj; exact hgl (List.mem_of_getElem? hk)
        · cases hj
      · rename_i hne
        exact hne (getElem?_inj_nodup hok.1 hk hj)
    · rw [if_neg, ih (i+1) (by omega) (by omega)]
      intro hc
      exact hik (getElem?_inj_nodup hok.1 hc hk)

/-- A replaced face list: where an old face stood, the new one with its direction. -/
def exchanged (old : List Nat) (nu : List (Nat × Bool)) (p : Nat × Bool) : Nat × Bool :=
  ((old.zip nu).lookup p.1).getD p

theorem lookup_zip_none {old : List Nat} {nu : List (Nat × Bool)} {x : Nat} (h : x ∉ old) :
    (old.zip nu).lookup x = none := by
  rw [List.lookup_eq_none_iff]
  rintro ⟨a, b⟩ hm
  have := (List.of_mem_zip hm).1
  simp
  rintro rfl; exact h this

theorem map_exchanged_cons {ps : List (Nat × Bool)} (hnd : (ps.map (·.1)).Nodup) {k f : Nat}
    {g : Nat × Bool} {old : List Nat} {nu : List (Nat × Bool)} (hk : (ps.map (·.1))[k]? = some f)
    (hg : g.1 ∉ old) :
    (ps.set k g).map (exchanged old nu) = ps.map (exchanged (f :: old) (g :: nu)) := by
  apply List.ext_getElem?
  intro j
  rw [List.getElem?_map, List.getElem?_map, List.getElem?_set]
  have hkl : k < ps.length := by
    have := (List.getElem?_eq_some_iff.1 hk).1
    simpa using this
  by_cases hkj : k = j
  · subst hkj
    rw [if_pos rfl, if_pos hkl]
    rw [List.getElem?_map] at hk
    cases hp : ps[k]? with
    | none => rw [hp] at hk; cases hk
    | some p =>
      rw [hp] at hk
      simp only [Option.map_some, Option.some.injEq] at hk
      simp only [Option.map_some, Option.some.injEq]
      unfold exchanged
      rw [hk, lookup_zip_none hg]
      simp
  · rw [if_neg hkj]
    cases hp : ps[j]? with
    | none => rfl
    | some p =>
      have hpf : p.1 ≠ f := by
        intro hc
        apply hkj
        refine getElem?_inj_nodup hnd hk ?_
        rw [List.getElem?_map, hp, Option.map_some, hc]
      simp only [Option.map_some]
      unfold exchanged
      rw [List.zip_cons_cons, List.lookup_cons, beq_false_of_ne hpf]

theorem facesOf_map_fst (rf : Nat → Option (List Nat)) (rd : Nat → List (BitVec 32)) (r : Nat) :
    (facesOf rf rd r).map (·.1) = (rf r).getD [] := by
  unfold facesOf; exact pairs_map_fst _ _

/-- The outer loop: every old face is exchanged for the next new one. -/
theorem replaceOld_ok (r nf : Nat) : ∀ (old : List Nat) (T : Topo) (nu : List (Nat × Bool))
    (l : List Nat), T.Consistent → T.sr r = .live → T.rf r = some l → l.length = nf → nf ≤ 512 →
    old.Nodup → (∀ f ∈ old, f ∈ l) → (nu.map (·.1)).Nodup → old.length ≤ nu.length →
    (∀ p ∈ nu, T.sf p.1 = .live ∧ p.1 ∉ l ∧ endAt (T.fr p.1) (!p.2) = none) →
    ∃ T' l', replaceOld r nf old (T, nu) = .ok (T', nu.drop old.length) ∧ T'.Consistent ∧
      OnlyFaces T T' r ∧ T'.rt = T.rt ∧ T'.rf r = some l' ∧ l'.length = nf ∧
      (T'.rd r).length = (T.rd r).length ∧
      facesOf T'.rf T'.rd r = (facesOf T.rf T.rd r).map (exchanged old nu) ∧
      (∀ x, x ∉ old → x ∉ (nu.take old.length).map (·.1) → T'.fr x = T.fr x) ∧
      (∀ x ∈ l', x ∈ l ∨ x ∈ (nu.take old.length).map (·.1)) := by
  intro old
  induction old with
  | nil =>
    intro T nu l h hr hl hn h512 _ _ _ _ _
    refine ⟨T, l, rfl, h, OnlyFaces.refl T r, rfl, hl, hn, rfl, ?_, fun _ _ _ => rfl, fun x hx => Or.inl hx⟩
    unfold exchanged; simp
  | cons f old ih =>
    intro T nu l h hr hl hn h512 hnd hsub hnun hle hnu
    cases nu with
    | nil => simp at hle
    | cons g nu =>
      obtain ⟨g, d⟩ := g
      obtain ⟨hfo, hnd⟩ := List.nodup_cons.1 hnd
      obtain ⟨hgn, hnun⟩ := List.nodup_cons.1 (by simpa using hnun : (g :: nu.map (·.1)).Nodup)
      obtain ⟨hg, hgl, hfree⟩ := hnu (g, d) (by simp)
      dsimp only at hg hgl hfree
      have hfl : f ∈ l := hsub f (by simp)
      obtain ⟨k, hk⟩ := List.mem_iff_getElem?.1 hfl
      have hkl : k < l.length := (List.getElem?_eq_some_iff.1 hk).1
      have hok := h.reg r l (alloc_of_live hr) hl
      obtain ⟨T1, h1, h2, h3, h4, h5, h6, h7, h8⟩ :=
        replaceOne_ok (nf := nf) h nu hr hl hk hg hgl hfree (by omega)
      have hset : ∀ x, x ∈ l.set k g → x ∈ l ∨ x = g := fun x hx => by
        have := List.mem_or_eq_of_mem_set hx
        exact this
      obtain ⟨T2, l', i1, i2, i3, i4, i5, i6, i7, i8, i9, i10⟩ := ih T1 nu (l.set k g) h2
        (by rw [h3.sr]; exact hr) h5 (by rw [List.length_set]; exact hn) h512 hnd
        (by
          intro x hx
          have hxl := hsub x (by simp [hx])
          obtain ⟨j, hj⟩ := List.mem_iff_getElem?.1 hxl
          have hjk : k ≠ j := by
            rintro rfl; rw [hk] at hj; injection hj with hj; subst hj; exact hfo hx
          exact List.mem_of_getElem? (i := j) (by rw [List.getElem?_set, if_neg hjk]; exact hj))
        hnun (by simpa using hle)
        (by
          intro p hp
          obtain ⟨hp1, hp2, hp3⟩ := hnu p (by simp [hp])
          have hpg : p.1 ≠ g := fun hc => hgn (hc ▸ List.mem_map_of_mem hp)
          refine ⟨by rw [h3.sf]; exact hp1, ?_, ?_⟩
          · intro hc
            rcases hset _ hc with hc | hc
            · exact hp2 hc
            · exact hpg hc
          · rw [h8 p.1 (fun hc => hp2 (hc ▸ hfl)) hpg]; exact hp3)
      refine ⟨T2, l', ?_, i2, h3.trans i3, i4.trans h4, i5, i6, i7.trans h6, ?_, ?_, ?_⟩
      · rw [show replaceOld r nf (f :: old) (T, (g, d) :: nu) = (do
          let p ← replaceOne r f nf nf 0 (T, (g, d) :: nu)
          replaceOld r nf old p) from rfl]
        rw [h1 nf 0 (by omega) (by omega), Res.bind_ok, i1]
        rfl
      · rw [i8, h7]
        refine map_exchanged_cons ?_ ?_ ?_
        · rw [facesOf_map_fst, hl]; exact hok.1
        · rw [facesOf_map_fst, hl]; exact hk
        · intro hc; exact hgl (hsub g (by simp [hc]))
      · intro x hx1 hx2
        simp only [List.mem_cons, not_or] at hx1
        simp only [List.length_cons, List.take_succ_cons, List.map_cons, List.mem_cons, not_or] at hx2
        rw [i9 x hx1.2 hx2.2, h8 x hx1.1 hx2.1]
      · intro x hx
        simp only [List.length_cons, List.take_succ_cons, List.map_cons, List.mem_cons]
        rcases i10 x hx with hx | hx
        · rcases hset x hx with hx | hx
          · exact Or.inl hx
          · exact Or.inr (Or.inl hx)
        · exact Or.inr (Or.inr hx)

/-- The left-over new faces are appended. -/
theorem addLeft_ok (r : Nat) : ∀ (nu : List (Nat × Bool)) (T : Topo) (l : List Nat),
    T.Consistent → T.sr r = .live → T.rf r = some l → (nu.map (·.1)).Nodup →
    l.length + nu.length ≤ 512 → 1 + (l.length + nu.length)/32 ≤ (T.rd r).length →
    (∀ p ∈ nu, T.sf p.1 = .live ∧ p.1 ∉ l ∧ endAt (T.fr p.1) (!p.2) = none) →
    ∃ T', addLeft r nu T = .ok T' ∧ T'.Consistent ∧ OnlyFaces T T' r ∧ T'.rt = T.rt ∧
      T'.rf r = some (l ++ nu.map (·.1)) ∧
      facesOf T'.rf T'.rd r = facesOf T.rf T.rd r ++ nu := by
  intro nu
  induction nu with
  | nil =>
    intro T l h hr hl _ _ _ _
    exact ⟨T, rfl, h, OnlyFaces.refl T r, rfl, by simpa using hl, by simp⟩
  | cons g nu ih =>
    intro T l h hr hl hnun hlim hwl hnu
    obtain ⟨g, d⟩ := g
    obtain ⟨hgn, hnun⟩ := List.nodup_cons.1 (by simpa using hnun : (g :: nu.map (·.1)).Nodup)
    obtain ⟨hg, hgl, hfree⟩ := hnu (g, d) (by simp)
    dsimp only at hg hgl hfree
    rw [List.length_cons] at hlim hwl
    have hok := h.reg r l (alloc_of_live hr) hl
    obtain ⟨w, h1, h2, h3⟩ := mrSetFaceDir_i_ok (T := { T with rf := upd T.rf r (some (l ++ [g])) })
      (r := r) (i := l.length) (f := g) (d := d) (l := l ++ [g]) (by exact alloc_of_live hr)
      (by exact upd_same _ _ _) (by simp) (by exact alloc_of_live hg) (by omega)
      (by exact hok.word (by omega))
    have hab : remRegion (T.fr g) r = T.fr g :=
      remRegion_absent (slot_absent h hl (alloc_of_live hg) hgl false)
        (slot_absent h hl (alloc_of_live hg) hgl true)
    have hset : setEnd (setEnd (T.fr g) (!d) (some r)) (!d) (some r) =
        setEnd (T.fr g) (!d) (some r) := by cases d <;> rfl
    have hwl' : 1 + (l.length + 1)/32 ≤ w.length := by
      have h2' : w.length = (T.rd r).length := h2
      have : (l.length + 1)/32 ≤ (l.length + (nu.length + 1))/32 := Nat.div_le_div_right (by omega)
      omega
    obtain ⟨hc, hp⟩ := h.append (d := d) (w := w) hr hl (by exact h3) hwl' hg hgl hfree
    obtain ⟨T2, i1, i2, i3, i4, i5, i6⟩ := ih _ (l ++ [g]) hc (by exact hr) (by exact upd_same _ _ _)
      hnun (by rw [List.length_append]; simp only [List.length_singleton]; omega)
      (by
        dsimp only
        rw [upd_same, List.length_append, List.length_singleton]
        have h2' : w.length = (T.rd r).length := h2
        rw [h2', Nat.add_assoc, Nat.add_comm 1 nu.length]; exact hwl)
      (by
        intro p hp
        obtain ⟨hp1, hp2, hp3⟩ := hnu p (by simp [hp])
        have hpg : p.1 ≠ g := fun hc => hgn (hc ▸ List.mem_map_of_mem hp)
        refine ⟨hp1, ?_, ?_⟩
        · simp only [List.mem_append, List.mem_singleton, not_or]; exact ⟨hp2, hpg⟩
        · dsimp only; rw [upd_ne _ _ hpg]; exact hp3)
    refine ⟨T2, ?_, i2, OnlyFaces.trans ?_ i3, i4, ?_, ?_⟩
    · rw [show addLeft r ((g, d) :: nu) T = (do
        let l ← T.rfaces r
        let T ← mrSetFaceDir { T with rf := upd T.rf r (some (l ++ [g])) } r g d
        let T ← mfAddRegion T g r (!d)
        addLeft r nu T) from rfl]
      rw [rfaces_ok (alloc_of_live hr) hl, Res.bind_ok]
      have hidx : (l ++ [g]).idxOf g = l.length := by
        rw [List.idxOf_append_of_notMem hgl]; simp
      have hsd : mrSetFaceDir { T with rf := upd T.rf r (some (l ++ [g])) } r g d =
          mrSetFaceDir_i { T with rf := upd T.rf r (some (l ++ [g])) } r l.length d := by
        unfold mrSetFaceDir
        rw [rfaces_ok (by exact alloc_of_live hr) (by exact upd_same _ _ _), Res.bind_ok,
          if_pos (by simp), hidx]
      rw [hsd, h1, Res.bind_ok, mfAddRegion_ok (by exact alloc_of_live hg), Res.bind_ok]
      dsimp only
      rw [hab, upd_same, hset, upd_upd]
      exact i1
    · exact ⟨rfl, rfl, rfl, rfl, rfl, rfl, rfl, rfl, rfl, fun _ _ => rfl, fun z hz => upd_ne _ _ hz,
        fun z hz => upd_ne _ _ hz⟩
    · rw [i5]; simp
    · rw [i6]
      dsimp only
      rw [facesOf_same, hp, facesOf_some hl]; simp

/-- Longer direction words with the same directions change nothing. -/
theorem Consistent.grow {T : Topo} (h : T.Consistent) {r : Nat} {l : List Nat} {w : List (BitVec 32)}
    (hr : (T.sr r).alloc) (hl : T.rf r = some l) (hw : ∀ j, j < l.length → rbit w j = rbit (T.rd r) j)
    (hwl : 1 + l.length/32 ≤ w.length) :
    Consistent { T with rd := upd T.rd r w } ∧
      facesOf T.rf (upd T.rd r w) = facesOf T.rf T.rd := by
  have he : facesOf T.rf (upd T.rd r w) = facesOf T.rf T.rd := by
    funext z
    by_cases hz : z = r
    · subst hz
      rw [facesOf_dirs_same hl, facesOf_some hl]
      exact pairs_congr hw
    · exact facesOf_dirs_ne _ hz
  refine ⟨⟨h.ve, h.ef, ?_, ?_, h.newV, h.newE, h.newF, h.newR⟩, he⟩
  · dsimp only; rw [he]; exact h.fr
  · intro z l' hz hl'
    dsimp only at hl' ⊢
    by_cases hzr : z = r
    · subst hzr
      rw [hl] at hl'; injection hl' with hl'; subst hl'
      rw [upd_same]
      exact ⟨(h.reg z l hz hl).1, hwl⟩
    · rw [upd_ne _ _ hzr]; exact h.reg z l' hz hl'

/-- `MR_Replace_Faces` with at least as many new faces as old ones. -/
theorem mrReplaceFaces_ok {T : Topo} (h : T.Consistent) {r : Nat} {l : List Nat} {old : List Nat}
    {nu : List (Nat × Bool)} (hr : T.sr r = .live) (hl : T.rf r = some l) (hnd : old.Nodup)
    (hsub : ∀ f ∈ old, f ∈ l) (hnun : (nu.map (·.1)).Nodup) (hle : old.length ≤ nu.length)
    (hlim : l.length - old.length + nu.length ≤ 512)
    (hnu : ∀ p ∈ nu, T.sf p.1 = .live ∧ p.1 ∉ l ∧ endAt (T.fr p.1) (!p.2) = none)
    (hs1 : T.Sized l) (hs2 : T.Sized (nu.map (·.1))) :
    ∃ T' l', T.mrReplaceFaces r old nu = .ok T' ∧ T'.Consistent ∧ OnlyFaces T T' r ∧
      T'.rf r = some l' ∧ T'.rt r = typeOf T l' ∧
      facesOf T'.rf T'.rd r =
        (facesOf T.rf T.rd r).map (exchanged old nu) ++ nu.drop old.length := by
  have hok := h.reg r l (alloc_of_live hr) hl
  have hol : old.length ≤ l.length := hnd.length_le_of_subset hsub
  obtain ⟨w, g1, g2, g3, g4⟩ := growW_ok (nold := old.length) (nnew := nu.length) hok.2
  obtain ⟨hc, he⟩ := h.grow (w := w) (alloc_of_live hr) hl (fun j hj => g4 j (by
    have : j/32 ≤ l.length/32 := Nat.div_le_div_right (by omega)
    omega)) g2
  obtain ⟨T1, l1, i1, i2, i3, i4, i5, i6, i7, i8, i9, i10⟩ := replaceOld_ok r l.length old _ nu l hc hr
    hl rfl (by omega) hnd hsub hnun hle hnu
  dsimp only at i7 i8
  rw [upd_same] at i7
  rw [he] at i8
  have hdrop : ∀ p ∈ nu.drop old.length, p.1 ∉ (nu.take old.length).map (·.1) := by
    intro p hp hc
    have : (nu.take old.length ++ nu.drop old.length).map (·.1) = nu.map (·.1) := by
      rw [List.take_append_drop]
    rw [← this, List.map_append, List.nodup_append] at hnun
    exact hnun.2.2 p.1 hc p.1 (List.mem_map_of_mem hp) rfl
  obtain ⟨T2, j1, j2, j3, j4, j5, j6⟩ := addLeft_ok r (nu.drop old.length) T1 l1 i2
    (by rw [i3.sr]; exact hr) i5
    ((List.map_drop ▸ (hnun.sublist (List.drop_sublist _ _)) :
      ((nu.drop old.length).map (·.1)).Nodup))
    (by rw [List.length_drop, i6]; omega)
    (by
      rw [List.length_drop, i6, i7]
      have : l.length + (nu.length - old.length) = l.length - old.length + nu.length := by omega
      rw [this]; omega)
    (by
      intro p hp
      obtain ⟨hp1, hp2, hp3⟩ := hnu p (List.mem_of_mem_drop hp)
      refine ⟨by rw [i3.sf]; exact hp1, ?_, ?_⟩
      · intro hc
        rcases i10 p.1 hc with hc | hc
        · exact hp2 hc
        · exact hdrop p hp hc
      · rw [i9 p.1 (fun hc => hp2 (hsub _ hc)) (hdrop p hp)]; exact hp3)
  have hO : OnlyFaces T T2 r := by
    refine OnlyFaces.trans ?_ (i3.trans j3)
    exact ⟨rfl, rfl, rfl, rfl, rfl, rfl, rfl, rfl, rfl, fun _ _ => rfl, fun _ _ => rfl,
      fun z hz => upd_ne _ _ hz⟩
  have hr2 : T2.sr r = .live := by rw [hO.sr]; exact hr
  have hsz : ∀ f ∈ l1 ++ (nu.drop old.length).map (·.1), (T2.sf f).alloc ∧ ∃ l, T2.fe f = some l := by
    intro f hf
    refine ⟨alloc_of_live (j2.rfacesLive hr2 (by rw [j5]; exact hf)), ?_⟩
    rw [hO.fe]
    rcases List.mem_append.1 hf with hf | hf
    · rcases i10 f hf with hf | hf
      · exact hs1 f hf
      · refine hs2 f ?_
        obtain ⟨p, hp, rfl⟩ := List.mem_map.1 hf
        exact List.mem_map_of_mem (List.mem_of_mem_take hp)
    · refine hs2 f ?_
      obtain ⟨p, hp, rfl⟩ := List.mem_map.1 hf
      exact List.mem_map_of_mem (List.mem_of_mem_drop hp)
  refine ⟨_, l1 ++ (nu.drop old.length).map (·.1), ?_, j2.retype (upd T2.rt r (typeOf T2 (l1 ++ (nu.drop old.length).map (·.1)))), ?_, j5, ?_, ?_⟩
  · unfold mrReplaceFaces
    rw [rfaces_ok (alloc_of_live hr) hl, Res.bind_ok, g1, Res.bind_ok, i1, Res.bind_ok]
    dsimp only
    rw [j1, Res.bind_ok, mrUpdateType_ok (alloc_of_live hr2) j5 hsz]
  · exact ⟨hO.sv, hO.ve, hO.se, hO.ev, hO.ef, hO.sf, hO.fe, hO.fd, hO.sr,
      fun z hz => (upd_ne _ _ hz).trans (hO.rt z hz), hO.rf, hO.rd⟩
  · dsimp only
    rw [upd_same]
    unfold typeOf
    simp only [hO.fe]
  · rw [j6, i8]

/-- `MR_Replace_Face_i`. -/
theorem mrReplaceFace_i_ok {T : Topo} (h : T.Consistent) {r i g : Nat} {l : List Nat} {d : Bool}
    (hr : T.sr r = .live) (hl : T.rf r = some l) (hil : i < l.length)
    (hg : T.sf g = .live) (hgl : g ∉ l) (hfree : endAt (T.fr g) (!d) = none)
    (hs1 : T.Sized l) (hs2 : T.Sized [g]) :
    ∃ T', T.mrReplaceFace_i r i g d = .ok T' ∧ T'.Consistent ∧ OnlyFaces T T' r ∧
      T'.rf r = some (l.set i g) ∧ T'.rt r = typeOf T (l.set i g) ∧
      facesOf T'.rf T'.rd r = (facesOf T.rf T.rd r).set i (g, d) := by
  have hok := h.reg r l (alloc_of_live hr) hl
  have hi : l[i]? = some l[i] := List.getElem?_eq_getElem hil
  generalize l[i] = f at hi
  have hf : T.sf f = .live := h.rfacesLive hr (by rw [hl]; exact List.mem_of_getElem? hi)
  have hfg : f ≠ g := by rintro rfl; exact hgl (List.mem_of_getElem? hi)
  obtain ⟨w, h1, h2, h3⟩ := setW_ok (w := T.rd r) (i := i) d (hok.word (by omega))
  obtain ⟨hc, hp⟩ := h.exchange (d := d) (w := w) hr hl hi h3 h2 hg hgl hfree
  refine ⟨_, ?_, hc.retype (upd T.rt r (typeOf T (l.set i g))), ?_, ?_, ?_, ?_⟩
  · unfold mrReplaceFace_i
    rw [rfaces_ok (alloc_of_live hr) hl, Res.bind_ok, h1, Res.bind_ok, hi, Res.ofOption_some,
      Res.bind_ok, mfRemRegion_ok (by exact alloc_of_live hf), Res.bind_ok,
      mfAddRegion_ok (by exact alloc_of_live hg), Res.bind_ok,
      mrUpdateType_ok (l := l.set i g) (by exact alloc_of_live hr) (by exact upd_same _ _ _)]
    · dsimp only
      rw [upd_ne _ _ (Ne.symm hfg), upd_comm _ _ _ hfg]
      rfl
    · intro x hx
      dsimp only
      rcases List.mem_or_eq_of_mem_set hx with hx | hx
      · exact ⟨alloc_of_live (h.rfacesLive hr (by rw [hl]; exact hx)), hs1 x hx⟩
      · subst hx; exact ⟨alloc_of_live hg, hs2 x (by simp)⟩
  · exact ⟨rfl, rfl, rfl, rfl, rfl, rfl, rfl, rfl, rfl, fun z hz => upd_ne _ _ hz,
      fun z hz => upd_ne _ _ hz, fun z hz => upd_ne _ _ hz⟩
  · exact upd_same _ _ _
  · exact upd_same _ _ _
  · dsimp only
    rw [facesOf_same, hp, facesOf_some hl]

end Topo
end MSTK
