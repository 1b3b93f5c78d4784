import Mathlib.Data.List.Rotate
import Mathlib.Data.Nat.ModEq
import Verif.TopoLemmas

/-!
Closed forms of `MF_Rem_Edge` and `MF_Replace_Edges`.
-/
namespace MSTK
namespace Topo

theorem fedges_ok {T : Topo} {f : Nat} {l : List Nat} (hf : (T.sf f).alloc) (hl : T.fe f = some l) :
    T.fedges f = .ok l := by
  unfold fedges
  rw [derefF_ok hf, Res.bind_ok, hl]
  rfl

/-- Closed form of `MF_Rem_Edge` when the edge is there. -/
theorem mfRemEdge_ok {T : Topo} {f e : Nat} {l : List Nat} (hf : (T.sf f).alloc)
    (hl : T.fe f = some l) (he : e ∈ l) (hn : l.length ≤ 64) (hal : (T.se e).alloc) :
    ∃ d', T.mfRemEdge f e = .ok { T with
        fe := upd T.fe f (some (l.eraseIdx (l.idxOf e))), fd := upd T.fd f d',
        ef := upd T.ef e ((T.ef e).erase f) } ∧
      pairs (l.eraseIdx (l.idxOf e)) (fbit d') = (pairs l (fbit (T.fd f))).eraseIdx (l.idxOf e) := by
  have hi := List.idxOf_lt_length_iff.2 he
  obtain ⟨d', h1, h2⟩ := shiftDownL_ok (l.length - 1 - l.idxOf e) (l.idxOf e) (T.fd f) (by omega)
  refine ⟨d', ?_, pairs_eraseIdx hi ?_⟩
  · unfold mfRemEdge
    rw [fedges_ok hf hl, Res.bind_ok, if_pos he]
    simp only []
    rw [h1, Res.bind_ok, meRemFace_ok (by exact hal)]
  · intro j hj
    rw [h2 j (by omega)]
    by_cases hij : l.idxOf e ≤ j
    · rw [if_pos (by omega), if_pos hij]
    · rw [if_neg (by omega), if_neg hij]

/-! ### replacement of a cyclic range -/

/-- store `xs` at the positions `(i+j) % n`, `(i+j+1) % n`, ... -/
def setCyc (n i : Nat) : Nat → List α → List α → List α
  | _, [], l => l
  | j, x :: xs, l => setCyc n i (j+1) xs (l.set ((i+j) % n) x)

theorem setCyc_length (n i : Nat) (xs : List α) : ∀ j (l : List α),
    (setCyc n i j xs l).length = l.length := by
  induction xs with
  | nil => intro j l; rfl
  | cons x xs ih => intro j l; rw [show setCyc n i j (x :: xs) l = setCyc n i (j+1) xs (l.set ((i+j) % n) x) from rfl, ih, List.length_set]

theorem mod_eq_iff {n i a b : Nat} (ha : a < n) (hb : b < n) : (i + a) % n = (i + b) % n ↔ a = b := by
  constructor
  · intro h
    have h1 : (i + a) ≡ (i + b) [MOD n] := h
    have h2 : a ≡ b [MOD n] := Nat.ModEq.add_left_cancel' i h1
    have h3 : a % n = b % n := h2
    rwa [Nat.mod_eq_of_lt ha, Nat.mod_eq_of_lt hb] at h3
  · rintro rfl; rfl

theorem rotate_set (l : List α) (i j : Nat) (x : α) (hj : j < l.length) :
    (l.set ((i+j) % l.length) x).rotate i = (l.rotate i).set j x := by
  apply List.ext_getElem?
  intro k
  by_cases hk : k < l.length
  · rw [List.getElem?_rotate (by simpa using hk), List.length_set, List.getElem?_set, List.getElem?_set,
      List.getElem?_rotate hk, List.length_rotate]
    by_cases hjk : j = k
    · subst hjk
      rw [if_pos rfl, if_pos (by rw [Nat.add_comm j i]), if_pos hj, if_pos (Nat.mod_lt _ (by omega))]
    · rw [if_neg hjk, if_neg]
      rw [Nat.add_comm k i]
      intro h
      exact hjk ((mod_eq_iff hj hk).1 h)
  · rw [List.getElem?_eq_none (by simp; omega), List.getElem?_eq_none (by simp; omega)]

theorem rotate_setCyc (i : Nat) (xs : List α) : ∀ j (l : List α), j + xs.length ≤ l.length →
    (setCyc l.length i j xs l).rotate i =
      (l.rotate i).take j ++ xs ++ (l.rotate i).drop (j + xs.length) := by
  induction xs with
  | nil => intro j l _; simp [setCyc]
  | cons x xs ih =>
    intro j l h
    simp only [List.length_cons] at h
    rw [show setCyc l.length i j (x :: xs) l = setCyc l.length i (j+1) xs (l.set ((i+j) % l.length) x) from rfl]
    have := ih (j+1) (l.set ((i+j) % l.length) x) (by simp; omega)
    rw [List.length_set] at this
    rw [this, rotate_set l i j x (by omega)]
    have hlen : (l.rotate i).length = l.length := List.length_rotate ..
    generalize l.rotate i = m at hlen ⊢
    rw [List.drop_set_of_lt (by omega)]
    rw [List.take_set, List.take_add_one]
    rw [List.getElem?_eq_getElem (by omega)]
    simp only [Option.toList_some]
    rw [List.set_append_right _ _ (by simp)]
    simp only [List.length_take, List.length_cons]
    rw [show j - min j m.length = 0 by omega]
    simp [List.append_assoc, Nat.add_assoc, Nat.add_comm 1]

theorem pairs_set {l : List Nat} {b c : Nat → Bool} {k e : Nat} {d : Bool}
    (h : ∀ j, j < l.length → c j = if j = k then d else b j) :
    pairs (l.set k e) c = (pairs l b).set k (e, d) := by
  apply List.ext_getElem?
  intro j
  rw [getElem?_pairs, List.getElem?_set, List.getElem?_set, pairs_length, getElem?_pairs]
  by_cases hj : j < l.length
  · by_cases hk : k = j
    · subst hk; rw [if_pos rfl, if_pos rfl, if_pos hj, if_pos hj, h k hj, if_pos rfl]; rfl
    · rw [if_neg hk, if_neg hk, h j hj, if_neg (Ne.symm hk)]
  · rw [List.getElem?_eq_none (l := l) (by omega)]
    by_cases hk : k = j
    · rw [if_pos hk, if_pos hk, if_neg (by omega), if_neg (by omega)]; rfl
    · rw [if_neg hk, if_neg hk]; rfl

theorem replCommon_ok (i : Nat) (new : List (Nat × Bool)) : ∀ (j : Nat) (l : List Nat) (d : BitVec 64),
    0 < l.length → l.length ≤ 32 →
    ∃ d', replCommon l.length i j new (l, d) = .ok (setCyc l.length i j (new.map (·.1)) l, d') ∧
      pairs (setCyc l.length i j (new.map (·.1)) l) (fbit d') =
        setCyc l.length i j new (pairs l (fbit d)) := by
  induction new with
  | nil => intro j l d _ _; exact ⟨d, rfl, rfl⟩
  | cons p new ih =>
    obtain ⟨e, b⟩ := p
    intro j l d h0 h32
    have hk : (i + j) % l.length < l.length := Nat.mod_lt _ h0
    obtain ⟨d1, h1, e1⟩ := setI_ok d b (show (i+j) % l.length < 32 by omega)
    obtain ⟨d2, h2, e2⟩ := ih (j+1) (l.set ((i+j) % l.length) e) d1 (by simpa using h0) (by simpa using h32)
    rw [List.length_set] at h2 e2
    refine ⟨d2, ?_, ?_⟩
    · rw [show replCommon l.length i j ((e, b) :: new) (l, d) =
        (clr d ((i+j) % l.length) >>= fun d => orI d b ((i+j) % l.length) >>= fun d =>
          replCommon l.length i (j+1) new (l.set ((i+j) % l.length) e, d)) from rfl]
      rw [Res.bind_eq_ok] at h1
      obtain ⟨d0, h01, h02⟩ := h1
      rw [h01, Res.bind_ok, h02, Res.bind_ok, h2]
      rfl
    · rw [show setCyc l.length i j (((e, b) :: new).map (·.1)) l =
        setCyc l.length i (j+1) (new.map (·.1)) (l.set ((i+j) % l.length) e) from rfl, e2]
      rw [pairs_set (b := fbit d) (d := b) (fun k hk => e1 k (by omega))]
      rfl

theorem pairs_insert {l : List Nat} {b c : Nat → Bool} {k e : Nat} {d : Bool} (hk : k ≤ l.length)
    (h : ∀ j, j ≤ l.length → c j = if j = k then d else if k < j then b (j-1) else b j) :
    pairs (l.take k ++ e :: l.drop k) c =
      (pairs l b).take k ++ (e, d) :: (pairs l b).drop k := by
  apply List.ext_getElem?
  intro j
  rw [getElem?_pairs]
  rcases Nat.lt_trichotomy j k with hj | hj | hj
  · rw [List.getElem?_append_left (by simp; omega), List.getElem?_append_left (by simp [pairs_length]; omega),
      List.getElem?_take_of_lt hj, List.getElem?_take_of_lt hj, getElem?_pairs, h j (by omega),
      if_neg (by omega), if_neg (by omega)]
  · subst hj
    rw [List.getElem?_append_right (by simp), List.getElem?_append_right (by simp)]
    simp only [List.length_take, pairs_length]
    rw [show j - min j l.length = 0 by omega]
    simp [h j hk]
  · obtain ⟨m, rfl⟩ : ∃ m, j = k + 1 + m := ⟨j - (k+1), by omega⟩
    rw [List.getElem?_append_right (by simp; omega), List.getElem?_append_right (by simp; omega)]
    simp only [List.length_take, pairs_length]
    rw [show k + 1 + m - min k l.length = m + 1 by omega]
    simp only [List.getElem?_cons_succ, List.getElem?_drop]
    rw [getElem?_pairs]
    by_cases hm : k + m < l.length
    · rw [h (k+1+m) (by omega), if_neg (by omega), if_pos (by omega),
        show k + 1 + m - 1 = k + m by omega]
    · rw [List.getElem?_eq_none (by omega)]; rfl

theorem insRest_ok (new : List (Nat × Bool)) : ∀ (p : Nat) (l : List Nat) (d : BitVec 64),
    p ≤ l.length → l.length + new.length ≤ 32 →
    ∃ d', insRest p new (l, d) = .ok (l.take p ++ new.map (·.1) ++ l.drop p, d') ∧
      pairs (l.take p ++ new.map (·.1) ++ l.drop p) (fbit d') =
        (pairs l (fbit d)).take p ++ new ++ (pairs l (fbit d)).drop p := by
  induction new with
  | nil => intro p l d _ _; exact ⟨d, by simp [insRest], by simp⟩
  | cons x new ih =>
    obtain ⟨e, b⟩ := x
    intro p l d hp hn
    simp only [List.length_cons] at hn
    obtain ⟨d1, h1, e1⟩ := shiftUp_ok p (l.length - p) d (by omega)
    obtain ⟨d2, h2, e2⟩ := setI_ok d1 b (show p < 32 by omega)
    rw [Res.bind_eq_ok] at h2
    obtain ⟨d0, h01, h02⟩ := h2
    obtain ⟨d3, h3, e3⟩ := ih (p+1) (l.take p ++ e :: l.drop p) d2 (by simp; omega) (by simp; omega)
    have ht : (l.take p ++ e :: l.drop p).take (p+1) = l.take p ++ [e] := by
      rw [List.take_append, List.length_take]
      rw [show p + 1 - min p l.length = 1 by omega]
      simp [List.take_take]
    have hd : (l.take p ++ e :: l.drop p).drop (p+1) = l.drop p := by
      rw [List.drop_append, List.length_take]
      rw [show p + 1 - min p l.length = 1 by omega]
      simp
    have hpe : pairs (l.take p ++ e :: l.drop p) (fbit d2) =
        (pairs l (fbit d)).take p ++ (e, b) :: (pairs l (fbit d)).drop p := by
      apply pairs_insert hp
      intro j hj
      rw [e2 j (by omega)]
      by_cases hjp : j = p
      · rw [if_pos hjp, if_pos hjp]
      · rw [if_neg hjp, if_neg hjp, e1 j (by omega) hjp]
        by_cases hlt : p < j
        · rw [if_pos (by omega), if_pos hlt]
        · rw [if_neg (by omega), if_neg hlt]
    rw [ht, hd] at h3 e3
    refine ⟨d3, ?_, ?_⟩
    · rw [show insRest p ((e, b) :: new) (l, d) = (insi l e p >>= fun l' =>
        shiftUp p (l.length - p) d >>= fun d => clr d p >>= fun d => orI d b p >>= fun d =>
        insRest (p+1) new (l', d)) from rfl]
      unfold insi
      rw [if_pos hp, Res.bind_ok, h1, Res.bind_ok, h01, Res.bind_ok, h02, Res.bind_ok, h3]
      simp
    · have : l.take p ++ (((e, b) :: new).map (·.1)) ++ l.drop p = l.take p ++ [e] ++ new.map (·.1) ++ l.drop p := by
        simp
      rw [this, e3, hpe]
      have hpl : p ≤ (pairs l (fbit d)).length := by rw [pairs_length]; exact hp
      generalize pairs l (fbit d) = P at hpl ⊢
      rw [List.take_append, List.length_take, show p + 1 - min p P.length = 1 by omega,
        List.drop_append, List.length_take, show p + 1 - min p P.length = 1 by omega]
      simp [List.take_take]

/-! ### the replaced edges -/

theorem oldPart_ok {l : List Nat} {d : BitVec 64} {i : Nat} (h64 : l.length ≤ 64) (n : Nat) :
    ∀ j, j + n ≤ l.length →
    oldPart l d i n j = .ok ((((pairs l (fbit d)).rotate i).drop j).take n) := by
  induction n with
  | zero => intro j _; simp [oldPart]
  | succ n ih =>
    intro j h
    have hl : l.length ≠ 0 := by omega
    have hk : (i + j) % l.length < l.length := Nat.mod_lt _ (by omega)
    rw [show oldPart l d i (n+1) j = (if l.length = 0 then .ub else
      Res.ofOption l[(i+j) % l.length]? >>= fun e => bit d ((i+j) % l.length) >>= fun b =>
      oldPart l d i n (j+1) >>= fun r => pure ((e, b) :: r)) from rfl,
      if_neg hl, List.getElem?_eq_getElem hk, Res.ofOption_some, Res.bind_ok, bit_ok d (by omega), Res.bind_ok,
      ih (j+1) (by omega), Res.bind_ok]
    simp only [Res.pure_eq, Res.ok.injEq]
    have hlen : ((pairs l (fbit d)).rotate i).length = l.length := by
      rw [List.length_rotate, pairs_length]
    have hj : j < ((pairs l (fbit d)).rotate i).length := by omega
    rw [List.drop_eq_getElem_cons hj, List.take_succ_cons]
    congr 1
    rw [List.getElem_rotate]
    simp only [pairs, List.getElem_mapIdx, List.length_mapIdx]
    simp [Nat.add_comm i j]

theorem remBits_some (n : Nat) : ∀ (p ne : Nat) (d : BitVec 64), n ≤ ne → ne ≤ 32 →
    ∃ d', remBits n p ne d = .ok d' := by
  induction n with
  | zero => intro p ne d _ _; exact ⟨d, rfl⟩
  | succ n ih =>
    intro p ne d h h32
    have hk : p % ne < ne := Nat.mod_lt _ (by omega)
    obtain ⟨d1, h1, _⟩ := shiftDownI_ok (ne - 1 - p % ne) (p % ne) d (by omega)
    obtain ⟨d2, h2⟩ := ih (p+1) (ne-1) d1 (by omega) (by omega)
    refine ⟨d2, ?_⟩
    rw [show remBits (n+1) p ne d = (if ne = 0 then .ub else
      shiftDownI (ne - 1 - p % ne) (p % ne) d >>= fun d => remBits n (p+1) (ne-1) d) from rfl,
      if_neg (by omega), h1, Res.bind_ok, h2]

/-- removing one element of a cyclic sequence -/
theorem eraseIdx_rotate (P : List α) {i c : Nat} (hi : i < P.length) (hc : c < P.length) :
    ∃ s, (P.eraseIdx ((i + c) % P.length)).rotate s = (P.rotate i).eraseIdx c := by
  rw [List.rotate_eq_drop_append_take (by omega)]
  have hA : (P.take i).length = i := by simp; omega
  have hB : (P.drop i).length = P.length - i := by simp
  have hPk : P = P.take i ++ P.drop i := (List.take_append_drop i P).symm
  generalize hAA : P.take i = A at hA hPk ⊢
  generalize hBB : P.drop i = B at hB hPk ⊢
  by_cases hw : i + c < P.length
  · refine ⟨i, ?_⟩
    rw [Nat.mod_eq_of_lt hw, List.eraseIdx_append_of_lt_length (by omega)]
    have : P.eraseIdx (i + c) = A ++ B.eraseIdx c := by
      conv_lhs => rw [hPk]
      rw [List.eraseIdx_append_of_length_le (by omega), hA]
      congr 2; omega
    rw [this, List.rotate_eq_drop_append_take (by simp; omega), ← hA]
    simp
  · refine ⟨i - 1, ?_⟩
    have hm : (i + c) % P.length = i + c - P.length := by
      rw [Nat.mod_eq_sub_mod (by omega), Nat.mod_eq_of_lt (by omega)]
    have hcc : c - B.length = i + c - P.length := by omega
    rw [hm, List.eraseIdx_append_of_length_le (by omega), hcc]
    have hq : i + c - P.length < i := by omega
    generalize i + c - P.length = q at hq ⊢
    have : P.eraseIdx q = A.eraseIdx q ++ B := by
      rw [hPk, List.eraseIdx_append_of_lt_length (by omega)]
    rw [this]
    have hAe : (A.eraseIdx q).length = i - 1 := by
      rw [List.length_eraseIdx_of_lt (by omega), hA]
    rw [List.rotate_eq_drop_append_take (by simp; omega), ← hAe]
    simp

theorem erase_eq_eraseIdx {l : List Nat} (h : l.Nodup) {k x : Nat} (hk : l[k]? = some x) :
    l.erase x = l.eraseIdx k := by
  have := idxOf_eq_of_nodup h hk
  rw [List.erase_eq_eraseIdx_of_idxOf (a := x) (i := k) this]

theorem map_fst_rotate (P : List (Nat × Bool)) (i : Nat) :
    (P.rotate i).map (·.1) = (P.map (·.1)).rotate i := by
  rw [List.map_rotate]

theorem setCyc_map (n i : Nat) (xs : List (Nat × Bool)) : ∀ j (l : List (Nat × Bool)),
    (setCyc n i j xs l).map (·.1) = setCyc n i j (xs.map (·.1)) (l.map (·.1)) := by
  induction xs with
  | nil => intro j l; rfl
  | cons x xs ih =>
    intro j l
    show (setCyc n i (j+1) xs (l.set ((i+j) % n) x)).map (·.1) = _
    rw [ih, List.map_set]
    rfl

theorem remList_perm (xs : List Nat) : ∀ (l rest : List Nat), l.Perm (xs ++ rest) →
    (remList l xs).Perm rest := by
  induction xs with
  | nil => intro l rest h; exact h
  | cons x xs ih =>
    intro l rest h
    show (remList (l.erase x) xs).Perm rest
    apply ih
    have := h.erase x
    simpa using this

/-- Result of the list manipulation of `MF_Replace_Edges_i`. -/
theorem replLists_ok {l : List Nat} {d : BitVec 64} {i nold : Nat} {new : List (Nat × Bool)}
    (hi : i < l.length) (h32 : l.length ≤ 32) (hno : nold ≤ l.length)
    (hgrow : nold < new.length → i + nold ≤ l.length)
    (hsz : l.length - nold + new.length ≤ 32) (hnd : l.Nodup) (hnn : (new.map (·.1)).Nodup)
    (hdis : ∀ x ∈ new.map (·.1), x ∉ l) :
    ∃ l' d', replLists l d i (((pairs l (fbit d)).rotate i).take nold) new = .ok (l', d') ∧
      l'.Perm (new.map (·.1) ++ (l.rotate i).drop nold) ∧
      (nold ≤ new.length + 1 → ∃ s, (pairs l' (fbit d')).rotate s =
        new ++ ((pairs l (fbit d)).rotate i).drop nold) := by
  have holen : (((pairs l (fbit d)).rotate i).take nold).length = nold := by
    rw [List.length_take, List.length_rotate, pairs_length]; omega
  obtain ⟨d1, h1, e1⟩ := replCommon_ok i (new.take (min nold new.length)) 0 l d (by omega) h32
  have hP1r := rotate_setCyc i (new.take (min nold new.length)) 0 (pairs l (fbit d))
    (by rw [pairs_length, List.length_take]; omega)
  rw [pairs_length] at hP1r
  simp only [List.take_zero, List.nil_append, Nat.zero_add, List.length_take] at hP1r
  rw [show min (min nold new.length) new.length = min nold new.length by omega] at hP1r
  have hlen1 : (setCyc l.length i 0 ((new.take (min nold new.length)).map (·.1)) l).length = l.length :=
    setCyc_length ..
  unfold replLists
  simp only [holen]
  rw [h1, Res.bind_ok]
  generalize hl1 : setCyc l.length i 0 ((new.take (min nold new.length)).map (·.1)) l = l1 at *
  generalize hP1 : setCyc l.length i 0 (new.take (min nold new.length)) (pairs l (fbit d)) = P1 at *
  have hl1P : l1 = P1.map (·.1) := by
    rw [← hP1, setCyc_map, pairs_map_fst, hl1]
  have hP1len : P1.length = l.length := by rw [← hlen1, hl1P, List.length_map]
  by_cases hlt : nold < new.length
  · rw [if_pos hlt]
    have hmin : min nold new.length = nold := by omega
    rw [hmin] at hP1r
    obtain ⟨d2, h2, e2⟩ := insRest_ok (new.drop nold) (i + nold) l1 d1 (by have := hgrow hlt; omega)
      (by simp only [List.length_drop]; omega)
    rw [e1] at e2
    have key : (pairs (l1.take (i + nold) ++ (new.drop nold).map (·.1) ++ l1.drop (i + nold)) (fbit d2)).rotate i
        = new ++ ((pairs l (fbit d)).rotate i).drop nold := by
      rw [e2]
      have hr := hP1r
      rw [List.rotate_eq_drop_append_take (by omega)] at hr
      have hg := hgrow hlt
      have ha : (P1.drop i).take nold = new.take nold := by
        have := congrArg (List.take nold) hr
        rw [List.take_append_of_le_length (by simp; omega), List.take_append_of_le_length (by simp; omega),
          List.take_take, Nat.min_self] at this
        exact this
      have hb : P1.drop (i + nold) ++ P1.take i = ((pairs l (fbit d)).rotate i).drop nold := by
        have := congrArg (List.drop nold) hr
        rw [List.drop_append_of_le_length (by simp; omega), List.drop_append, List.drop_drop,
          List.length_take, show min nold new.length = nold by omega, Nat.sub_self, List.drop_zero,
          List.drop_take, Nat.sub_self, List.take_zero, List.nil_append] at this
        exact this
      rw [List.rotate_eq_drop_append_take (by simp; omega)]
      rw [List.append_assoc (P1.take (i+nold)), List.drop_append_of_le_length (by simp; omega), List.take_append_of_le_length (by simp; omega),
        List.drop_take, show i + nold - i = nold by omega, ha, List.take_take,
        show min i (i + nold) = i by omega]
      rw [List.append_assoc, List.append_assoc, hb, ← List.append_assoc, List.take_append_drop]
    rw [hmin]
    refine ⟨_, d2, h2, ?_, fun _ => ⟨i, key⟩⟩
    have := congrArg (List.map (·.1)) key
    rw [map_fst_rotate, pairs_map_fst, List.map_append, List.map_drop (i := nold) (l := (pairs l (fbit d)).rotate i), map_fst_rotate, pairs_map_fst] at this
    rw [← this]
    exact (List.rotate_perm _ _).symm
  · rw [if_neg hlt]
    have hmin : min nold new.length = new.length := by omega
    rw [hmin, List.take_length] at hP1r
    rw [hmin]
    simp only []
    obtain ⟨d2, h2⟩ := remBits_some (nold - new.length) (i + new.length) l.length d1 (by omega) h32
    rw [h2, Res.bind_ok]
    refine ⟨_, d2, rfl, ?_, ?_⟩
    · have hl1r : l1.rotate i = new.map (·.1) ++ (l.rotate i).drop new.length := by
        have := congrArg (List.map (·.1)) hP1r
        rw [map_fst_rotate, ← hl1P, List.map_append, List.map_drop, map_fst_rotate, pairs_map_fst] at this
        exact this
      apply remList_perm
      refine (List.rotate_perm l1 i).symm.trans ?_
      rw [hl1r]
      rw [List.map_drop, List.map_take, map_fst_rotate, pairs_map_fst]
      have hsplit : (l.rotate i).drop new.length =
          ((l.rotate i).take nold).drop new.length ++ (l.rotate i).drop nold := by
        conv_lhs => rw [← List.take_append_drop nold (l.rotate i)]
        rw [List.drop_append_of_le_length (by simp; omega)]
      rw [hsplit]
      exact List.perm_append_comm_assoc ..
    · intro hle
      by_cases heq : nold = new.length
      · subst heq
        rw [Nat.sub_self] at h2
        have hd : d1 = d2 := by injection h2
        subst hd
        refine ⟨i, ?_⟩
        rw [show (((pairs l (fbit d)).rotate i).take new.length).drop new.length = [] by
          apply List.drop_of_length_le; rw [holen]]
        show (pairs l1 (fbit d1)).rotate i = _
        rw [e1, hP1r]
      · have hn : nold = new.length + 1 := by omega
        subst hn
        rw [show new.length + 1 - new.length = 1 by omega] at h2
        have hk : (i + new.length) % l.length < l.length := Nat.mod_lt _ (by omega)
        obtain ⟨d3, h3, e3⟩ := shiftDownI_ok (l.length - 1 - (i + new.length) % l.length)
          ((i + new.length) % l.length) d1 (by omega)
        have hd : d2 = d3 := by
          rw [show remBits 1 (i + new.length) l.length d1 = (if l.length = 0 then .ub else
            (do let d ← shiftDownI (l.length - 1 - (i + new.length) % l.length)
                  ((i + new.length) % l.length) d1
                remBits 0 (i + new.length + 1) (l.length-1) d)) from rfl, if_neg (by omega), h3, Res.bind_ok] at h2
          injection h2 with h2
          exact h2.symm
        subst hd
        have hnd1 : l1.Nodup := by
          have hp : l1.Perm (new.map (·.1) ++ (l.rotate i).drop new.length) := by
            have := congrArg (List.map (·.1)) hP1r
            rw [map_fst_rotate, ← hl1P, List.map_append, List.map_drop, map_fst_rotate, pairs_map_fst] at this
            rw [← this]
            exact (List.rotate_perm _ _).symm
          rw [hp.nodup_iff, List.nodup_append]
          refine ⟨hnn, (List.drop_sublist _ _).nodup (List.nodup_rotate.2 hnd), ?_⟩
          intro a ha b hb hab
          subst hab
          exact hdis a ha (List.mem_rotate.1 (List.mem_of_mem_drop hb))
        obtain ⟨x, hxg⟩ : ∃ x, ((pairs l (fbit d)).rotate i)[new.length]? = some x := by
          refine ⟨_, List.getElem?_eq_getElem ?_⟩
          rw [List.length_rotate, pairs_length]; omega
        have hx : (((pairs l (fbit d)).rotate i).take (new.length + 1)).drop new.length = [x] := by
          obtain ⟨hlt', hxe⟩ := List.getElem?_eq_some_iff.1 hxg
          rw [List.drop_take, show new.length + 1 - new.length = 1 by omega,
            List.drop_eq_getElem_cons hlt', hxe]
          rfl
        have hPx : P1[(i + new.length) % l.length]? = ((pairs l (fbit d)).rotate i)[new.length]? := by
          have h := congrArg (fun (q : List (Nat × Bool)) => q[new.length]?) hP1r
          beta_reduce at h
          rw [List.getElem?_append_right (by omega), Nat.sub_self, List.getElem?_drop, Nat.add_zero,
            List.getElem?_rotate (by omega), hP1len, Nat.add_comm] at h
          exact h
        have hlx : l1[(i + new.length) % l.length]? = some x.1 := by
          have h := congrArg (Option.map (·.1)) hPx
          rw [hxg, ← List.getElem?_map, ← hl1P] at h
          exact h
        rw [hx]
        show ∃ s, (pairs (remList l1 [_]) (fbit d2)).rotate s = _
        show ∃ s, (pairs (l1.erase _) (fbit d2)).rotate s = _
        rw [erase_eq_eraseIdx hnd1 hlx, pairs_eraseIdx (b := fbit d1) (by omega) (by
          intro j hj
          rw [e3 j (by omega)]
          by_cases hc : (i + new.length) % l.length ≤ j
          · rw [if_pos (by omega), if_pos hc]
          · rw [if_neg (by omega), if_neg hc]), e1]
        obtain ⟨s, hs⟩ := eraseIdx_rotate P1 (i := i) (c := new.length) (by omega) (by omega)
        rw [hP1len] at hs
        refine ⟨s, ?_⟩
        rw [hs, hP1r, List.eraseIdx_append_of_length_le (by omega), Nat.sub_self]
        rw [List.eraseIdx_zero, List.tail_drop]

theorem pathDirs_ok (T : Topo) (es : List Nat) : ∀ (v : Option Nat), (∀ e ∈ es, (T.se e).alloc) →
    ∃ new, T.pathDirs v es = .ok new ∧ new.map (·.1) = es := by
  induction es with
  | nil => intro v _; exact ⟨[], rfl, rfl⟩
  | cons e es ih =>
    intro v h
    obtain ⟨new, h1, h2⟩ := ih (endAt (T.ev e) (decide (endAt (T.ev e) false = v)))
      (fun x hx => h x (by simp [hx]))
    refine ⟨(e, decide (endAt (T.ev e) false = v)) :: new, ?_, by simp [h2]⟩
    have hd := derefE_ok (h e (by simp))
    simp only [pathDirs, meVertex, hd, Res.bind_ok, Res.pure_eq]
    rw [h1]
    rfl

theorem meUsesVertex_ok {T : Topo} {e : Nat} (v : Option Nat) (h : (T.se e).alloc) :
    T.meUsesVertex e v = .ok (decide ((T.ev e).1 = v) || decide ((T.ev e).2 = v)) := by
  unfold meUsesVertex
  rw [derefE_ok h]
  rfl

/-- `e` uses `v` (possibly NULL) -/
def usesB (T : Topo) (e : Nat) (v : Option Nat) : Bool :=
  decide ((T.ev e).1 = v) || decide ((T.ev e).2 = v)

/-- the decision of `replRev` -/
def revB (T : Topo) (n0 n1 : Nat) (v0 v1 : Option Nat) : Bool :=
  !(usesB T n0 v0 && usesB T n1 v1) && (usesB T n0 v1 && usesB T n1 v0)

theorem replRev_ok {T : Topo} {n0 n1 : Nat} (v0 v1 : Option Nat) (h0 : (T.se n0).alloc)
    (h1 : (T.se n1).alloc) : T.replRev n0 n1 v0 v1 = .ok (revB T n0 n1 v0 v1) := by
  unfold replRev andThen revB
  simp only [meUsesVertex_ok _ h0, meUsesVertex_ok _ h1, Res.bind_ok, ← usesB.eq_1]
  cases usesB T n0 v0 <;> cases usesB T n1 v1 <;> cases usesB T n0 v1 <;> cases usesB T n1 v0 <;> rfl

/-- Closed form of `MF_Replace_Edges_i`. -/
theorem mfReplaceEdges_i_ok {T : Topo} {f nold i : Nat} {nu l : List Nat} (hf : (T.sf f).alloc)
    (hl : T.fe f = some l) (hnd : l.Nodup) (hi : i < l.length) (hn0 : 0 < nold)
    (hno : nold ≤ l.length) (hnu : nu ≠ []) (hnn : nu.Nodup)
    (hnl : ∀ e ∈ nu, (T.se e).alloc ∧ e ∉ l) (hll : ∀ e ∈ l, (T.se e).alloc)
    (h32 : l.length ≤ 32) (hsz : l.length - nold + nu.length ≤ 32)
    (hgrow : nold < nu.length → i + nold ≤ l.length) :
    ∃ o0 o1 n0 n1 new l' d',
      (((pairs l (fbit (T.fd f))).rotate i).take nold).head? = some o0 ∧
      (((pairs l (fbit (T.fd f))).rotate i).take nold).getLast? = some o1 ∧
      nu.head? = some n0 ∧ nu.getLast? = some n1 ∧
      T.pathDirs (endAt (T.ev o0.1) (!o0.2))
        (if revB T n0 n1 (endAt (T.ev o0.1) (!o0.2)) (endAt (T.ev o1.1) o1.2) then nu.reverse
         else nu) = .ok new ∧ new.map (·.1) =
        (if revB T n0 n1 (endAt (T.ev o0.1) (!o0.2)) (endAt (T.ev o1.1) o1.2) then nu.reverse
         else nu) ∧
      T.mfReplaceEdges_i f nold i nu = .ok { T with
        fe := upd T.fe f (some l'), fd := upd T.fd f d',
        ef := addAll (remAll T.ef f ((l.rotate i).take nold)) f (new.map (·.1)) } ∧
      l'.Perm (nu ++ (l.rotate i).drop nold) ∧
      (nold ≤ nu.length + 1 → ∃ s, (pairs l' (fbit d')).rotate s =
        new ++ ((pairs l (fbit (T.fd f))).rotate i).drop nold) := by
  have hold := oldPart_ok (l := l) (d := T.fd f) (i := i) (by omega) nold 0 (by omega)
  rw [List.drop_zero] at hold
  have hmf : (((pairs l (fbit (T.fd f))).rotate i).take nold).map (·.1) = (l.rotate i).take nold := by
    rw [List.map_take, map_fst_rotate, pairs_map_fst]
  have holdl : ∀ p ∈ ((pairs l (fbit (T.fd f))).rotate i).take nold, (T.se p.1).alloc := by
    intro p hp
    apply hll
    have : p.1 ∈ (l.rotate i).take nold := by rw [← hmf]; exact List.mem_map_of_mem hp
    exact List.mem_rotate.1 (List.mem_of_mem_take this)
  have holen : (((pairs l (fbit (T.fd f))).rotate i).take nold).length = nold := by
    rw [List.length_take, List.length_rotate, pairs_length]; omega
  have hone : ((pairs l (fbit (T.fd f))).rotate i).take nold ≠ [] := by
    intro h; rw [h] at holen; simp at holen; omega
  obtain ⟨o0, ho0⟩ : ∃ o0, (((pairs l (fbit (T.fd f))).rotate i).take nold).head? = some o0 :=
    ⟨_, List.head?_eq_some_head hone⟩
  obtain ⟨o1, ho1⟩ : ∃ o1, (((pairs l (fbit (T.fd f))).rotate i).take nold).getLast? = some o1 :=
    ⟨_, List.getLast?_eq_some_getLast hone⟩
  obtain ⟨n0, hn0'⟩ : ∃ n0, nu.head? = some n0 := ⟨_, List.head?_eq_some_head hnu⟩
  obtain ⟨n1, hn1'⟩ : ∃ n1, nu.getLast? = some n1 := ⟨_, List.getLast?_eq_some_getLast hnu⟩
  have ha0 := holdl o0 (List.mem_of_head? ho0)
  have ha1 := holdl o1 (List.mem_of_getLast? ho1)
  have hb0 := (hnl n0 (List.mem_of_head? hn0')).1
  have hb1 := (hnl n1 (List.mem_of_getLast? hn1')).1
  generalize hv0 : endAt (T.ev o0.1) (!o0.2) = v0
  generalize hv1 : endAt (T.ev o1.1) o1.2 = v1
  obtain ⟨new, hp, hpm⟩ := pathDirs_ok T (if revB T n0 n1 v0 v1 then nu.reverse else nu) v0 (by
    intro e he
    have : e ∈ nu := by
      split at he
      · exact List.mem_reverse.1 he
      · exact he
    exact (hnl e this).1)
  have hperm : (new.map (·.1)).Perm nu := by
    rw [hpm]
    split
    · exact List.reverse_perm nu
    · exact List.Perm.refl _
  have hlen : new.length = nu.length := by
    have := hperm.length_eq
    rwa [List.length_map] at this
  obtain ⟨l', d', hr, hperm', hrot⟩ := replLists_ok (l := l) (d := T.fd f) (i := i) (nold := nold)
    (new := new) hi h32 hno (by rw [hlen]; exact hgrow) (by rw [hlen]; exact hsz) hnd
    (hperm.nodup_iff.2 hnn) (fun x hx => (hnl x (hperm.mem_iff.1 hx)).2)
  refine ⟨o0, o1, n0, n1, new, l', d', ho0, ho1, hn0', hn1', by rw [hv0, hv1]; exact hp,
    by rw [hv0, hv1]; exact hpm, ?_, hperm'.trans (hperm.append_right _), by rw [← hlen]; exact hrot⟩
  unfold mfReplaceEdges_i
  rw [fedges_ok hf hl, Res.bind_ok, hold, Res.bind_ok, ho0, ho1, hn0', hn1']
  simp only [meVertex, derefE_ok ha0, derefE_ok ha1, Res.bind_ok, Res.pure_eq, hv0, hv1,
    replRev_ok v0 v1 hb0 hb1, hp, hr]
  rw [hmf]
  rw [meRemFaceAll_ok f _ _ (by
    intro e he
    exact hll e (List.mem_rotate.1 (List.mem_of_mem_take he))), Res.bind_ok]
  exact meAddFaceAll_ok f _ _ (by
    intro e he
    exact (hnl e (hperm.mem_iff.1 he)).1)

end Topo
end MSTK
