import Verif.CollapseLemmas

/-!
Helper lemmas for C65 (collapse of an edge): taking the edge out of the faces that are left.
-/
namespace MSTK
namespace Topo

/-- erasing one of two neighbours that are the same -/
theorem erase_twice {b : Nat} {A B : List Nat} (h : b ∉ A) :
    (A ++ b :: b :: B).erase b = (A ++ b :: b :: B).eraseIdx (A.length + 1) := by
  rw [List.erase_append_right _ h, List.erase_cons_head, List.eraseIdx_append_of_length_le (by omega)]
  simp

theorem isRotated_filter {α : Type} {l l' : List α} (h : l ~r l') (p : α → Bool) : l.filter p ~r l'.filter p := by
  obtain ⟨n, rfl⟩ := h
  rw [List.rotate_eq_drop_append_take_mod, List.filter_append]
  conv_lhs => rw [← List.take_append_drop (n % l.length) l, List.filter_append]
  exact List.isRotated_append

/-- `[p0, p1, p2]` replaced by `[p0, p2]`. -/
theorem replLists_middle {l : List Nat} {d : BitVec 64} {i : Nat} {p0 p1 p2 : Nat × Bool} {rest : List (Nat × Bool)}
    (hi : i < l.length) (h32 : l.length ≤ 32) (hnd : l.Nodup)
    (hP : (pairs l (fbit d)).rotate i = p0 :: p1 :: p2 :: rest) :
    ∃ l' d', replLists l d i [p0, p1, p2] [p0, p2] = .ok (l', d') ∧
      pairs l' (fbit d') ~r p0 :: p2 :: rest := by
  have hlen : l.length = rest.length + 3 := by
    have := congrArg List.length hP
    rw [List.length_rotate, pairs_length] at this
    simpa using this
  obtain ⟨d1, h1, e1⟩ := replCommon_ok i [p0, p2] 0 l d (by omega) h32
  have hr := rotate_setCyc i [p0, p2] 0 (pairs l (fbit d)) (by rw [pairs_length]; simp; omega)
  rw [pairs_length, hP] at hr
  have hr : (setCyc l.length i 0 [p0, p2] (pairs l (fbit d))).rotate i = p0 :: p2 :: p2 :: rest := hr
  generalize hP1 : setCyc l.length i 0 [p0, p2] (pairs l (fbit d)) = P1 at *
  generalize hl1 : setCyc l.length i 0 ([p0, p2].map (·.1)) l = l1 at *
  have hl1P : l1 = P1.map (·.1) := by rw [← e1, pairs_map_fst]
  have hP1len : P1.length = l.length := by rw [← hP1, setCyc_length, pairs_length]
  have hl1len : l1.length = l.length := by rw [hl1P, List.length_map, hP1len]
  have hl1r : l1.rotate i = p0.1 :: p2.1 :: p2.1 :: rest.map (·.1) := by
    rw [hl1P, ← map_fst_rotate, hr]; rfl
  have hk : (i + 2) % l.length < l.length := Nat.mod_lt _ (by omega)
  obtain ⟨d2, h2, e2⟩ := shiftDownI_ok (l.length - 1 - (i + 2) % l.length) ((i + 2) % l.length) d1 (by omega)
  have hndr : (p0.1 :: p1.1 :: p2.1 :: rest.map (·.1)).Nodup := by
    have : ((pairs l (fbit d)).rotate i).map (·.1) = l.rotate i := by rw [map_fst_rotate, pairs_map_fst]
    rw [hP] at this
    have h : (l.rotate i).Nodup := List.nodup_rotate.2 hnd
    rw [← this] at h; exact h
  have hat : ∀ j, j < l.length → l1[(i + j) % l.length]? = (l1.rotate i)[j]? := by
    intro j hj
    rw [List.getElem?_rotate (by omega), hl1len, Nat.add_comm]
  have hk1 : l1[(i+1) % l.length]? = some p2.1 := by rw [hat 1 (by omega), hl1r]; rfl
  have hk2 : l1[(i+2) % l.length]? = some p2.1 := by rw [hat 2 (by omega), hl1r]; rfl
  have hcount : l1.count p2.1 = 2 := by
    rw [← (List.rotate_perm l1 i).count_eq, hl1r]
    have n0 : p0.1 ≠ p2.1 := fun hc => by rw [hc] at hndr; simp at hndr
    have nr : p2.1 ∉ rest.map (·.1) := by
      have := (List.nodup_cons.1 (List.nodup_cons.1 hndr).2).2
      exact (List.nodup_cons.1 this).1
    rw [List.count_cons_of_ne n0, List.count_cons_self, List.count_cons_self, List.count_eq_zero.2 nr]
  have herase : l1.erase p2.1 = l1.eraseIdx ((i+2) % l.length) := by
    by_cases hz : (i + 2) % l.length = 0
    · rw [hz] at hk2 ⊢
      cases l1 with
      | nil => simp at hk2
      | cons x xs =>
        simp only [List.getElem?_cons_zero, Option.some.injEq] at hk2
        subst hk2
        simp
    · have hkk : (i + 1) % l.length = (i + 2) % l.length - 1 := by
        have hd := Nat.div_add_mod (i+2) l.length
        have : i + 1 = l.length * ((i+2) / l.length) + ((i+2) % l.length - 1) := by omega
        rw [this, Nat.mul_add_mod, Nat.mod_eq_of_lt (by omega)]
      rw [hkk] at hk1
      generalize (i + 2) % l.length = k at *
      obtain ⟨m, rfl⟩ : ∃ m, k = m + 1 := ⟨k - 1, by omega⟩
      rw [Nat.add_sub_cancel] at hk1
      obtain ⟨g1, g1e⟩ := List.getElem?_eq_some_iff.1 hk1
      obtain ⟨g2, g2e⟩ := List.getElem?_eq_some_iff.1 hk2
      have hsplit : l1 = l1.take m ++ p2.1 :: p2.1 :: l1.drop (m+2) := by
        conv_lhs => rw [← List.take_append_drop m l1]
        rw [List.drop_eq_getElem_cons g1, g1e, List.drop_eq_getElem_cons g2, g2e]
      have hnot : p2.1 ∉ l1.take m := by
        rw [hsplit, List.count_append, List.count_cons_self, List.count_cons_self] at hcount
        exact List.count_eq_zero.1 (by omega)
      have := erase_twice (B := l1.drop (m+2)) hnot
      rw [← hsplit, List.length_take, show min m l1.length = m by omega] at this
      exact this
  refine ⟨l1.erase p2.1, d2, ?_, ?_⟩
  · rw [show replLists l d i [p0, p1, p2] [p0, p2] = (replCommon l.length i 0 [p0, p2] (l, d) >>= fun p =>
      remBits 1 (i + 2) l.length p.2 >>= fun d2 => pure (remList p.1 [p2.1], d2)) from rfl, h1, Res.bind_ok]
    show (remBits 1 (i + 2) l.length d1 >>= fun d2 => pure (remList l1 [p2.1], d2)) = _
    rw [show remBits 1 (i + 2) l.length d1 = (if l.length = 0 then .ub else
      shiftDownI (l.length - 1 - (i + 2) % l.length) ((i + 2) % l.length) d1 >>= fun d => remBits 0 (i + 2 + 1) (l.length-1) d) from rfl,
      if_neg (by omega), h2]
    rfl
  · rw [herase, pairs_eraseIdx (b := fbit d1) (by omega) (by
      intro j hj
      rw [e2 j (by omega)]
      by_cases hc : (i + 2) % l.length ≤ j
      · rw [if_pos (by omega), if_pos hc]
      · rw [if_neg (by omega), if_neg hc]), e1]
    obtain ⟨s, hs⟩ := eraseIdx_rotate P1 (i := i) (c := 2) (by omega) (by omega)
    rw [hP1len, hr] at hs
    exact ⟨s, hs⟩

/-- The face `f`, which is not a triangle, has come to touch `v` at both ends of `e`. -/
structure Through (T : Topo) (e v f : Nat) (i : Nat) (l : List Nat) (p0 p1 p2 : Nat × Bool)
    (rest : List (Nat × Bool)) (x y : Nat) : Prop where
  fe : T.fe f = some l
  lt : i < l.length
  size : l.length ≤ 32
  nodup : l.Nodup
  around : (T.edgesOf f).rotate i = p0 :: p1 :: p2 :: rest
  more : rest ≠ []
  mid : p1.1 = e
  before : T.Leads p0.1 p0.2 x v
  after : T.Leads p2.1 p2.2 v y
  nx : x ≠ v
  ny : y ≠ v
  others : ∀ q ∈ rest, ¬ ends T.ev q.1 v

theorem Leads.endAt {T : Topo} {e : Nat} {d : Bool} {a b : Nat} (h : T.Leads e d a b) :
    Topo.endAt (T.ev e) d = some b ∧ Topo.endAt (T.ev e) (!d) = some a := by
  unfold Leads at h
  rw [h]
  cases d <;> exact ⟨rfl, rfl⟩

section
variable {T : Topo} {e v f i : Nat} {l : List Nat} {p0 p1 p2 : Nat × Bool} {rest : List (Nat × Bool)} {x y : Nat}

theorem Through.fsts (h : Through T e v f i l p0 p1 p2 rest x y) :
    l.rotate i = p0.1 :: e :: p2.1 :: rest.map (·.1) := by
  have := congrArg (List.map (·.1)) h.around
  rw [map_fst_rotate, edgesOf_map_fst, h.fe] at this
  rw [show l.rotate i = ((some l).getD []).rotate i from rfl, this, List.map_cons, List.map_cons, List.map_cons, h.mid]

theorem Through.distinct (h : Through T e v f i l p0 p1 p2 rest x y) :
    p0.1 ≠ e ∧ p0.1 ≠ p2.1 ∧ p2.1 ≠ e ∧ (∀ q ∈ rest, q.1 ≠ e ∧ q.1 ≠ p0.1 ∧ q.1 ≠ p2.1) := by
  have hn : (l.rotate i).Nodup := List.nodup_rotate.2 h.nodup
  rw [h.fsts] at hn
  have h1 := List.nodup_cons.1 hn
  have h2 := List.nodup_cons.1 h1.2
  have h3 := List.nodup_cons.1 h2.2
  refine ⟨fun hc => h1.1 (by simp [hc]), fun hc => h1.1 (by simp [hc]), fun hc => h2.1 (by simp [hc]), ?_⟩
  intro q hq
  have hm := List.mem_map_of_mem (f := (·.1)) hq
  refine ⟨fun hc => h2.1 ?_, fun hc => h1.1 ?_, fun hc => h3.1 ?_⟩
  · rw [← hc]; exact List.mem_cons_of_mem _ hm
  · rw [← hc]; exact List.mem_cons_of_mem _ (List.mem_cons_of_mem _ hm)
  · rw [← hc]; exact hm

theorem Through.mem (h : Through T e v f i l p0 p1 p2 rest x y) {q : Nat × Bool} :
    q ∈ T.edgesOf f ↔ q = p0 ∨ q = p1 ∨ q = p2 ∨ q ∈ rest := by
  rw [← List.mem_rotate (n := i), h.around]; simp

theorem beforeAfter_ok (h : Through T e v f i l p0 p1 p2 rest x y) (hf : T.sf f = .live)
    (hlive : ∀ z ∈ l, T.se z = .live) : ∀ (xs : List Nat) (k : Nat) (p : Option Nat × Option Nat),
    l.drop k = xs →
    T.beforeAfter f e v xs k p =
      .ok (if p0.1 ∈ xs then some p0.1 else p.1, if p2.1 ∈ xs then some p2.1 else p.2) := by
  intro xs
  induction xs with
  | nil => intro k p _; simp [beforeAfter]
  | cons z xs ih =>
    intro k p hd
    have hkl : k < l.length := by
      by_contra hc
      rw [List.drop_eq_nil_of_le (by omega)] at hd; cases hd
    rw [List.drop_eq_getElem_cons hkl] at hd
    injection hd with hz hd
    have hzl : z ∈ l := by rw [← hz]; exact List.getElem_mem _
    have hq : (z, fbit (T.fd f) k) ∈ T.edgesOf f := by
      rw [edgesOf_some h.fe]
      exact List.mem_of_getElem? (i := k) (by rw [getElem?_pairs, List.getElem?_eq_getElem hkl, hz]; rfl)
    obtain ⟨n1, n2, n3, n4⟩ := h.distinct
    have hzx : z ∉ xs := by
      have := h.nodup
      rw [← List.take_append_drop k l, List.nodup_append] at this
      have := this.2.1
      rw [List.drop_eq_getElem_cons hkl, hz, hd] at this
      exact (List.nodup_cons.1 this).1
    rw [h.mem] at hq
    by_cases hze : z = e
    · subst hze
      rw [beforeAfter, if_pos rfl, ih (k+1) p hd]
      have a1 : p0.1 ∈ z :: xs ↔ p0.1 ∈ xs := by rw [List.mem_cons]; exact or_iff_right n1
      have a2 : p2.1 ∈ z :: xs ↔ p2.1 ∈ xs := by rw [List.mem_cons]; exact or_iff_right n3
      simp only [a1, a2]
    · have hstep : T.beforeAfter f e v (z :: xs) k p = T.beforeAfter f e v xs (k+1)
          (if Topo.endAt (T.ev z) (fbit (T.fd f) k) = some v then (some z, p.2)
            else if Topo.endAt (T.ev z) (!fbit (T.fd f) k) = some v then (p.1, some z) else p) := by
        rw [beforeAfter, if_neg hze]
        unfold mfEdgeDir_i
        rw [derefF_ok (alloc_of_live hf), Res.bind_ok, bit_ok _ (by have := h.size; omega), Res.bind_ok,
          meVertex_ok (alloc_of_live (hlive z hzl)), Res.bind_ok, meVertex_ok (alloc_of_live (hlive z hzl)), Res.bind_ok]
      rw [hstep]
      rcases hq with hq | hq | hq | hq
      · subst hq
        obtain ⟨c1, c2⟩ := h.before.endAt
        dsimp only at c1 c2 n1 n2 n4 ⊢
        rw [if_pos c1, ih _ _ hd, if_neg hzx, if_pos (List.mem_cons_self)]
        have a2 : p2.1 ∈ z :: xs ↔ p2.1 ∈ xs := by rw [List.mem_cons]; exact or_iff_right n2.symm
        simp only [a2]
      · exact absurd (by rw [← h.mid, ← hq]) hze
      · subst hq
        obtain ⟨c1, c2⟩ := h.after.endAt
        dsimp only at c1 c2 n2 n3 n4 ⊢
        rw [if_neg (by rw [c1]; simp; exact h.ny), if_pos c2, ih _ _ hd, if_neg hzx, if_pos (List.mem_cons_self)]
        have a2 : p0.1 ∈ z :: xs ↔ p0.1 ∈ xs := by rw [List.mem_cons]; exact or_iff_right n2
        simp only [a2]
      · have hno := h.others _ hq
        obtain ⟨m1, m2, m3⟩ := n4 _ hq
        have hne : ∀ b, Topo.endAt (T.ev z) b ≠ some v := by
          intro b hc
          apply hno
          cases b
          · exact Or.inl hc
          · exact Or.inr hc
        rw [if_neg (hne _), if_neg (hne _), ih _ _ hd]
        have a1 : p0.1 ∈ z :: xs ↔ p0.1 ∈ xs := by rw [List.mem_cons]; exact or_iff_right (Ne.symm m2)
        have a2 : p2.1 ∈ z :: xs ↔ p2.1 ∈ xs := by rw [List.mem_cons]; exact or_iff_right (Ne.symm m3)
        simp only [a1, a2]

/-- one face -/
theorem dropEdge_ok (hc : T.Consistent) (h : Through T e v f i l p0 p1 p2 rest x y) (hf : T.sf f = .live) :
    ∃ l' d' ef, T.mfReplaceEdges f [p0.1, e, p2.1] [p0.1, p2.1] =
        .ok { T with fe := upd T.fe f (some l'), fd := upd T.fd f d', ef := ef } ∧
      Consistent { T with fe := upd T.fe f (some l'), fd := upd T.fd f d', ef := ef } ∧
      pairs l' (fbit d') ~r p0 :: p2 :: rest := by
  have hlive := hc.fedgesLive hf h.fe
  have hal := fun z hz => alloc_of_live (hlive z hz)
  have hr := h.fsts
  have hmem : ∀ z, z ∈ l ↔ z = p0.1 ∨ z = e ∨ z = p2.1 ∨ z ∈ rest.map (·.1) := by
    intro z; rw [← List.mem_rotate (n := i), hr]; simp
  have hlen : l.length = rest.length + 3 := by
    have := congrArg List.length hr
    rw [List.length_rotate] at this
    simpa using this
  have hrp : 0 < rest.length := List.length_pos_iff.2 h.more
  have hnamed := C25_replace_named_partial (T := T) (nu := [p0.1, p2.1]) (nold := 3) hf
    (mfEdges_plain (alloc_of_live hf) h.fe) h.nodup h.size h.lt (by omega) (Or.inl (by omega))
  rw [hr] at hnamed
  have hnamed : T.mfReplaceEdges f [p0.1, e, p2.1] [p0.1, p2.1] = T.mfReplaceEdges_i f 3 i [p0.1, p2.1] := hnamed
  have hP : (pairs l (fbit (T.fd f))).rotate i = p0 :: p1 :: p2 :: rest := by
    rw [← edgesOf_some h.fe]; exact h.around
  obtain ⟨l', d', h1, h2⟩ := replLists_middle h.lt h.size h.nodup hP
  have hold := oldPart_ok (l := l) (d := T.fd f) (i := i) (by have := h.size; omega) 3 0 (by omega)
  rw [hP] at hold
  have hold : oldPart l (T.fd f) i 3 0 = .ok [p0, p1, p2] := hold
  have a0 := hal p0.1 ((hmem _).2 (Or.inl rfl))
  have a2 := hal p2.1 ((hmem _).2 (Or.inr (Or.inr (Or.inl rfl))))
  have ae := hal e ((hmem _).2 (Or.inr (Or.inl rfl)))
  obtain ⟨b1, b2⟩ := h.before.endAt
  obtain ⟨c1, c2⟩ := h.after.endAt
  have u0 : usesB T p0.1 (some x) = true := by
    unfold usesB
    cases hd : p0.2 <;> rw [hd] at b2 <;> simp [endAt] at b2 <;> simp [b2]
  have u1 : usesB T p2.1 (some y) = true := by
    unfold usesB
    cases hd : p2.2 <;> rw [hd] at c1 <;> simp [endAt] at c1 <;> simp [c1]
  have hrev : revB T p0.1 p2.1 (some x) (some y) = false := by
    unfold revB; rw [u0, u1]; rfl
  have hdir : ∀ {p : Nat × Bool} {a b : Nat}, T.Leads p.1 p.2 a b → a ≠ b → decide (endAt (T.ev p.1) false = some a) = p.2 := by
    intro p a b hl hab
    unfold Leads at hl
    rw [hl]
    cases hd : p.2
    · simp [endAt, Ne.symm hab]
    · simp [endAt]
  have hpath : T.pathDirs (some x) [p0.1, p2.1] = .ok [p0, p2] := by
    have d0 := hdir h.before h.nx
    have d2 := hdir h.after h.ny.symm
    simp only [pathDirs, meVertex_ok a0, meVertex_ok a2, Res.bind_ok, Res.pure_eq, d0, b1, d2]
  have hrem : ∀ z ∈ [p0.1, e, p2.1], (T.se z).alloc := by
    intro z hz
    simp only [List.mem_cons, List.not_mem_nil, or_false] at hz
    rcases hz with rfl | rfl | rfl
    · exact a0
    · exact ae
    · exact a2
  have hadd : ∀ z ∈ [p0.1, p2.1], (T.se z).alloc := fun z hz => hrem z (by
    simp only [List.mem_cons, List.not_mem_nil, or_false] at hz ⊢
    rcases hz with h | h
    · exact Or.inl h
    · exact Or.inr (Or.inr h))
  refine ⟨l', d', addAll (remAll T.ef f [p0.1, e, p2.1]) f [p0.1, p2.1], ?_, ?_, h2⟩
  · rw [hnamed]
    unfold mfReplaceEdges_i
    rw [fedges_ok (alloc_of_live hf) h.fe, Res.bind_ok, hold, Res.bind_ok]
    show (T.meVertex p0.1 (!p0.2) >>= fun v0 => T.meVertex p2.1 p2.2 >>= fun v1 =>
      T.replRev p0.1 p2.1 v0 v1 >>= fun rev => T.pathDirs v0 (if rev then [p0.1, p2.1].reverse else [p0.1, p2.1]) >>= fun new =>
      replLists l (T.fd f) i [p0, p1, p2] new >>= fun p =>
      meRemFaceAll { T with fe := upd T.fe f (some p.1), fd := upd T.fd f p.2 } f [p0.1, p1.1, p2.1] >>= fun T1 =>
      meAddFaceAll T1 f (new.map (·.1))) = _
    rw [meVertex_ok a0, Res.bind_ok, meVertex_ok a2, Res.bind_ok, b2, c1, replRev_ok _ _ a0 a2, Res.bind_ok, hrev]
    rw [if_neg (by simp), hpath, Res.bind_ok, h1, Res.bind_ok, h.mid, meRemFaceAll_ok f _ _ (by exact hrem), Res.bind_ok]
    exact meAddFaceAll_ok f _ _ (by exact hadd)
  · refine ⟨hc.ve, ?_, hc.fr, hc.reg, hc.newV, hc.newE, hc.newF, hc.newR⟩
    have hs : ∀ z, (T.se z).alloc →
        (addAll (remAll T.ef f [p0.1, e, p2.1]) f [p0.1, p2.1] z).Nodup ∧
        ∀ g, g ∈ addAll (remAll T.ef f [p0.1, e, p2.1]) f [p0.1, p2.1] z ↔
          (g ∈ T.ef z ∧ ¬ (g = f ∧ z ∈ [p0.1, e, p2.1])) ∨ (g = f ∧ z ∈ [p0.1, p2.1]) := by
      intro z hz
      obtain ⟨a1, a2⟩ := remAll_spec f [p0.1, e, p2.1] T.ef z (hc.ef.nodup z hz)
      obtain ⟨b1, b2⟩ := addAll_spec f [p0.1, p2.1] (remAll T.ef f [p0.1, e, p2.1]) z
      refine ⟨b1 a1, fun g => ?_⟩
      rw [b2, a2]
    have hl' : ∀ z, z ∈ l' ↔ z = p0.1 ∨ z = p2.1 ∨ z ∈ rest.map (·.1) := by
      intro z
      have := (h2.perm.map (·.1)).mem_iff (a := z)
      rw [pairs_map_fst] at this
      rw [this]; simp
    obtain ⟨n1, n2, n3, n4⟩ := h.distinct
    refine hc.ef.faceEdges hf ?_ (fun z hz => (hs z hz).1) ?_ ?_
    · intro z hz
      apply hlive
      rw [hl'] at hz
      rw [hmem]
      rcases hz with h | h | h
      · exact Or.inl h
      · exact Or.inr (Or.inr (Or.inl h))
      · exact Or.inr (Or.inr (Or.inr h))
    · intro z hz g hg
      rw [(hs z hz).2]; simp [hg]
    · intro z hz
      rw [(hs z hz).2, hc.ef.mem z hz, hl']
      unfold bounds
      rw [h.fe]
      have hm := hmem z
      simp only [Option.getD_some, true_and, List.mem_cons, List.not_mem_nil, or_false]
      rw [hm]
      constructor
      · rintro (⟨⟨-, h1⟩, h2⟩ | h)
        · rcases h1 with h | h | h | h
          · exact Or.inl h
          · exact absurd (Or.inr (Or.inl h)) h2
          · exact Or.inr (Or.inl h)
          · exact Or.inr (Or.inr h)
        · rcases h with h | h
          · exact Or.inl h
          · exact Or.inr (Or.inl h)
      · rintro (h | h | h)
        · exact Or.inr (Or.inl h)
        · exact Or.inr (Or.inr h)
        · left
          refine ⟨⟨hf, Or.inr (Or.inr (Or.inr h))⟩, ?_⟩
          obtain ⟨q, hq, rfl⟩ := List.mem_map.1 h
          obtain ⟨m1, m2, m3⟩ := n4 q hq
          rintro (h | h | h)
          · exact m2 h
          · exact m1 h
          · exact m3 h

end

/-- The loop over the faces of the edge. -/
theorem takeFromFaces_ok {e v : Nat} : ∀ (fs : List Nat) (T : Topo), T.Consistent → fs.Nodup →
    (∀ f ∈ fs, T.sf f = .kept ∨ T.sf f = .live ∧ ∃ i l p0 p1 p2 rest x y, Through T e v f i l p0 p1 p2 rest x y) →
    ∃ fe fd ef, takeFromFaces e v fs T = .ok { T with fe := fe, fd := fd, ef := ef } ∧
      Consistent { T with fe := fe, fd := fd, ef := ef } ∧
      (∀ f, f ∈ fs → T.sf f = .live → ∃ l', fe f = some l' ∧
        pairs l' (fbit (fd f)) ~r (T.edgesOf f).filter (fun q => q.1 ≠ e)) ∧
      ∀ f, (f ∉ fs ∨ T.sf f ≠ .live) → fe f = T.fe f ∧ fd f = T.fd f := by
  intro fs
  induction fs with
  | nil => intro T h _ _; exact ⟨T.fe, T.fd, T.ef, rfl, h, by simp, fun _ _ => ⟨rfl, rfl⟩⟩
  | cons f fs ih =>
    intro T hc hn hfs
    obtain ⟨hnot, hn'⟩ := List.nodup_cons.1 hn
    rcases hfs f (by simp) with hk | ⟨hlv, i, l, p0, p1, p2, rest, x, y, h⟩
    · obtain ⟨fe, fd, ef, r1, r2, r3, r4⟩ := ih T hc hn' fun g hg => hfs g (by simp [hg])
      refine ⟨fe, fd, ef, by rw [takeFromFaces, if_pos hk]; exact r1, r2, ?_, ?_⟩
      · intro g hg hgl
        rcases List.mem_cons.1 hg with rfl | hg
        · rw [hk] at hgl; cases hgl
        · exact r3 g hg hgl
      · intro g hg
        rcases hg with hg | hg
        · exact r4 g (Or.inl fun hc => hg (by simp [hc]))
        · exact r4 g (Or.inr hg)
    · obtain ⟨l', d', ef', q1, q2, q3⟩ := dropEdge_ok hc h hlv
      have hne : ∀ g ∈ fs, g ≠ f := fun g hg hgf => hnot (hgf ▸ hg)
      have hsame : ∀ g, g ≠ f → Topo.edgesOf { T with fe := upd T.fe f (some l'), fd := upd T.fd f d', ef := ef' } g =
          T.edgesOf g := by
        intro g hg
        unfold edgesOf
        dsimp only
        rw [upd_ne _ _ hg, upd_ne _ _ hg]
      obtain ⟨fe, fd, ef, r1, r2, r3, r4⟩ := ih _ q2 hn' (by
        intro g hg
        rcases hfs g (by simp [hg]) with h' | ⟨h', i, l, p0, p1, p2, rest, x, y, k⟩
        · exact Or.inl h'
        · refine Or.inr ⟨h', i, l, p0, p1, p2, rest, x, y, ?_⟩
          exact ⟨by dsimp only; rw [upd_ne _ _ (hne g hg)]; exact k.fe, k.lt, k.size, k.nodup,
            by rw [hsame g (hne g hg)]; exact k.around, k.more, k.mid, k.before, k.after, k.nx, k.ny, k.others⟩)
      refine ⟨fe, fd, ef, ?_, r2, ?_, ?_⟩
      · have hlive := hc.fedgesLive hlv h.fe
        have hmem : ∀ z, z ∈ l ↔ z = p0.1 ∨ z = e ∨ z = p2.1 ∨ z ∈ rest.map (·.1) := by
          intro z; rw [← List.mem_rotate (n := i), h.fsts]; simp
        rw [takeFromFaces, if_neg (by rw [hlv]; simp), mfEdges_plain (alloc_of_live hlv) h.fe, Res.bind_ok,
          beforeAfter_ok h hlv hlive l 0 (none, none) rfl, Res.bind_ok, if_pos ((hmem _).2 (Or.inl rfl)),
          if_pos ((hmem _).2 (Or.inr (Or.inr (Or.inl rfl))))]
        dsimp only
        rw [q1, Res.bind_ok]
        exact r1
      · intro g hg hgl
        by_cases hgf : g = f
        · subst hgf
          obtain ⟨e1, e2⟩ := r4 g (Or.inl hnot)
          dsimp only at e1 e2
          rw [upd_same] at e1 e2
          refine ⟨l', e1, ?_⟩
          rw [e2]
          refine q3.trans ?_
          obtain ⟨n1, n2, n3, n4⟩ := h.distinct
          have : p0 :: p2 :: rest = ((T.edgesOf g).rotate i).filter (fun q => q.1 ≠ e) := by
            rw [h.around, List.filter_cons_of_pos (by simpa using n1), List.filter_cons_of_neg (by simp [h.mid]),
              List.filter_cons_of_pos (by simpa using n3), List.filter_eq_self.2]
            intro q hq
            simpa using (n4 q hq).1
          rw [this]
          exact isRotated_filter (List.IsRotated.symm ⟨i, rfl⟩) _
        · obtain ⟨l2, s1, s2⟩ := r3 g ((List.mem_cons.1 hg).resolve_left hgf) hgl
          rw [hsame g hgf] at s2
          exact ⟨l2, s1, s2⟩
      · intro g hg
        have hgf : g ≠ f := by
          rintro rfl
          rcases hg with hg | hg
          · exact hg (by simp)
          · exact hg hlv
        obtain ⟨e1, e2⟩ := r4 g (by
          rcases hg with hg | hg
          · exact Or.inl fun hc => hg (by simp [hc])
          · exact Or.inr hg)
        dsimp only at e1 e2
        rw [upd_ne _ _ hgf] at e1 e2
        exact ⟨e1, e2⟩

end Topo
end MSTK
