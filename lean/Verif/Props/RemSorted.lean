import Verif.Props.Lists
/-!
Property C07: `List_RemSorted` (src/util/List.c:713-817).
-/
namespace MSTK
namespace CList
variable {α : Type}

/-- sortedness by raw position -/
theorem key_lt_of_pos {s : List (Option α)} {key : α → Int}
    (hsort : ((s.filterMap id).map key).Pairwise (· < ·)) {i j : Nat} {a b : α}
    (hi : s[i]? = some (some a)) (hj : s[j]? = some (some b)) (hij : i < j) : key a < key b := by
  induction s generalizing i j with
  | nil => simp at hi
  | cons x s ih =>
    cases j with
    | zero => omega
    | succ j =>
      have hj' : s[j]? = some (some b) := by simpa using hj
      have hb : b ∈ s.filterMap id := by
        rw [List.mem_filterMap]
        exact ⟨some b, List.mem_of_getElem? hj', rfl⟩
      cases i with
      | zero =>
        simp at hi; subst hi
        simp only [List.filterMap_cons, id_eq, List.map_cons, List.pairwise_cons] at hsort
        exact hsort.1 _ (List.mem_map_of_mem hb)
      | succ i =>
        have hi' : s[i]? = some (some a) := by simpa using hi
        refine ih ?_ hi' hj' (by omega)
        cases x with
        | none => simpa using hsort
        | some c =>
          simp only [List.filterMap_cons, id_eq, List.map_cons, List.pairwise_cons] at hsort
          exact hsort.2

/-- forward scan from a position finds the next valid slot if there is one at `t` -/
theorem fwd_spec {l : CList α} (hc : l.slots.length ≤ 2 ^ l.p - 1) {t : Nat} {b : α}
    (ht : l.slots[t]? = some (some b)) : ∀ n i, i < t → t - i ≤ n →
    ∃ j c, l.fwd n i = .ok (j, true) ∧ i < j ∧ j ≤ t ∧ l.slots[j]? = some (some c) ∧
      ∀ k, i < k → k < j → l.slots[k]? = some none := by
  intro n
  induction n with
  | zero => intro i h1 h2; omega
  | succ n ih =>
    intro i h1 h2
    have htl := (List.getElem?_eq_some_iff.mp ht).1
    have hlt : i + 1 < l.slots.length := by omega
    have hg : l.slots[i+1]? = some l.slots[i+1] := List.getElem?_eq_getElem hlt
    unfold fwd
    rw [rd_eq hc hg]
    cases hx : l.slots[i+1] with
    | some c =>
      refine ⟨i+1, c, rfl, by omega, by omega, by rw [hg, hx], fun k h3 h4 => by omega⟩
    | none =>
      simp only [Res.bind_ok]
      have hne : i + 1 ≠ t := by
        intro he; subst he; rw [hg, hx] at ht; simp at ht
      obtain ⟨j, c, e1, e2, e3, e4, e5⟩ := ih (i+1) (by omega) (by omega)
      refine ⟨j, c, e1, by omega, e3, e4, fun k h3 h4 => ?_⟩
      by_cases hk : k = i + 1
      · subst hk; rw [hg, hx]
      · exact e5 k (by omega) h4

theorem bwd_spec {l : CList α} (hc : l.slots.length ≤ 2 ^ l.p - 1) {t : Nat} {b : α}
    (ht : l.slots[t]? = some (some b)) : ∀ n i, t < i → i ≤ l.slots.length → i - t ≤ n →
    ∃ j c, l.bwd n i = .ok (j, true) ∧ t ≤ j ∧ j < i ∧ l.slots[j]? = some (some c) ∧
      ∀ k, j < k → k < i → l.slots[k]? = some none := by
  intro n
  induction n with
  | zero => intro i h1 h2 h3; omega
  | succ n ih =>
    intro i h1 h2 h3
    cases i with
    | zero => omega
    | succ i =>
      have hg : l.slots[i]? = some l.slots[i] := List.getElem?_eq_getElem (by omega)
      unfold bwd
      rw [rd_eq hc hg]
      cases hx : l.slots[i] with
      | some c =>
        exact ⟨i, c, rfl, by omega, by omega, by rw [hg, hx], fun k h3 h4 => by omega⟩
      | none =>
        simp only [Res.bind_ok]
        have hne : i ≠ t := by
          intro he; subst he; rw [hg, hx] at ht; simp at ht
        obtain ⟨j, c, e1, e2, e3, e4, e5⟩ := ih i (by omega) (by omega) (by omega)
        refine ⟨j, c, e1, e2, by omega, e4, fun k h3 h4 => ?_⟩
        by_cases hk : k = i
        · subst hk; rw [hg, hx]
        · exact e5 k h3 (by omega)

theorem keyAt_eq {l : CList α} (hc : l.slots.length ≤ 2 ^ l.p - 1) (key : α → Int) {i : Nat} {a : α}
    (h : l.slots[i]? = some (some a)) : l.keyAt key i = .ok (key a) := by
  unfold keyAt; rw [rd_eq hc h]; rfl

/-- choice of the middle: a valid slot between the ends, strictly inside unless the ends are
neighbouring valid slots -/
theorem pickMid_spec {l : CList α} (hc : l.slots.length ≤ 2 ^ l.p - 1) {imin imax : Nat} {a b : α}
    (h1 : l.slots[imin]? = some (some a)) (h2 : l.slots[imax]? = some (some b)) (hle : imin ≤ imax) :
    ∃ m c, l.pickMid imin imax = .ok m ∧ l.slots[m]? = some (some c) ∧ imin ≤ m ∧ m ≤ imax ∧
      ((imin < m ∧ m < imax) ∨ (∀ k, imin < k → k < imax → l.slots[k]? = some none)) := by
  have hmaxl := (List.getElem?_eq_some_iff.mp h2).1
  have hg : l.slots[(imin+imax+1)/2]? = some (l.slots[(imin+imax+1)/2]'(by omega)) :=
    List.getElem?_eq_getElem (by omega)
  unfold pickMid
  simp only
  rw [rd_eq hc hg]
  cases hx : l.slots[(imin+imax+1)/2]'(by omega) with
  | some c =>
    refine ⟨_, c, rfl, by rw [hg, hx], by omega, by omega, ?_⟩
    by_cases hh : imin < (imin+imax+1)/2 ∧ (imin+imax+1)/2 < imax
    · exact Or.inl hh
    · right; intro k h3 h4; omega
  | none =>
    simp only [Res.bind_ok]
    have hlt : (imin+imax+1)/2 < imax := by
      rcases Nat.lt_or_ge ((imin+imax+1)/2) imax with h | h
      · exact h
      · have : (imin+imax+1)/2 = imax := by omega
        rw [← this, hg, hx] at h2; simp at h2
    obtain ⟨j, c, e1, e2, e3, e4, e5⟩ := fwd_spec hc h2 (imax + 1 - (imin+imax+1)/2) _ hlt (by omega)
    rw [e1]
    simp only [Res.bind_ok, ↓reduceIte]
    by_cases hj : j = imax
    · rw [if_pos hj]
      subst hj
      have hlt2 : imin < j := by omega
      obtain ⟨q, d, f1, f2, f3, f4, f5⟩ := bwd_spec hc h1 (j + 1 - imin) j hlt2 (by omega) (by omega)
      rw [f1]
      refine ⟨q, d, rfl, f4, f2, by omega, ?_⟩
      by_cases hq : q = imin
      · right; subst hq; exact f5
      · left; omega
    · rw [if_neg hj]
      exact ⟨j, c, rfl, e4, by omega, e3, Or.inl (by omega)⟩

theorem remSortedLoop_spec {l : CList α} (hc : l.slots.length ≤ 2 ^ l.p - 1) (key : α → Int)
    (hsort : ((l.slots.filterMap id).map key).Pairwise (· < ·)) {pos : Nat} {x : α}
    (hx : l.slots[pos]? = some (some x)) :
    ∀ fuel imin imax (a b : α), l.slots[imin]? = some (some a) → l.slots[imax]? = some (some b) →
      imin ≤ pos → pos ≤ imax → imax - imin < fuel →
      l.remSortedLoop key (key x) fuel imin imax (key a) (key b) = .ok pos := by
  intro fuel
  have cmp : ∀ {i : Nat} {c : α}, l.slots[i]? = some (some c) → (key x ≤ key c ↔ pos ≤ i) ∧
      (key x = key c ↔ pos = i) := by
    intro i c hi
    rcases Nat.lt_trichotomy pos i with h | h | h
    · have := key_lt_of_pos hsort hx hi h
      exact ⟨⟨fun _ => by omega, fun _ => by omega⟩, ⟨fun _ => by omega, fun _ => by omega⟩⟩
    · subst h
      rw [hx] at hi; simp at hi; subst hi
      simp
    · have := key_lt_of_pos hsort hi hx h
      exact ⟨⟨fun _ => by omega, fun _ => by omega⟩, ⟨fun _ => by omega, fun _ => by omega⟩⟩
  induction fuel with
  | zero => intro imin imax a b _ _ _ _ h; omega
  | succ fuel ih =>
    intro imin imax a b ha hb h1 h2 hf
    obtain ⟨m, c, e1, e2, e3, e4, e5⟩ := pickMid_spec hc ha hb (by omega)
    unfold remSortedLoop
    simp only [e1, Res.bind_ok, keyAt_eq hc key e2]
    by_cases hle : key x ≤ key c
    · simp only [hle, ↓reduceIte]
      have hpm := (cmp e2).1.mp hle
      by_cases h3 : key x = key a
      · rw [if_pos h3, (cmp ha).2.mp h3]; rfl
      · rw [if_neg h3]
        by_cases h4 : key x = key c
        · rw [if_pos h4, (cmp e2).2.mp h4]; rfl
        · rw [if_neg h4]
          have p1 : pos ≠ imin := fun h => h3 ((cmp ha).2.mpr h)
          have p2 : pos ≠ m := fun h => h4 ((cmp e2).2.mpr h)
          rw [if_neg (by omega)]
          apply ih _ _ _ _ ha e2 h1 hpm
          rcases e5 with e5 | e5
          · omega
          · have := e5 pos (by omega) (by omega)
            rw [hx] at this; simp at this
    · simp only [hle, ↓reduceIte]
      have hpm : ¬ pos ≤ m := fun h => hle ((cmp e2).1.mpr h)
      have hne : ¬ key x = key c := by omega
      rw [if_neg hne]
      by_cases h4 : key x = key b
      · rw [if_pos h4, (cmp hb).2.mp h4]; rfl
      · rw [if_neg h4]
        have p2 : pos ≠ imax := fun h => h4 ((cmp hb).2.mpr h)
        rw [if_neg (by omega)]
        apply ih _ _ _ _ e2 hb (by omega) h2
        rcases e5 with e5 | e5
        · omega
        · have := e5 pos (by omega) (by omega)
          rw [hx] at this; simp at this

theorem remSorted_spec [DecidableEq α] {l : CList α} (h : l.Inv) (key : α → Int)
    (hsort : (l.abs.map key).Pairwise (· < ·)) {x : α} (hx : x ∈ l.abs) (fuel : Nat)
    (hf : l.ntot ≤ fuel) :
    ∃ l', l.remSorted fuel x key = .ok (true, l') ∧ l'.Inv ∧ l'.abs = l.abs.erase x := by
  have hn := h.ntot
  have hxs := mem_abs.mp hx
  obtain ⟨pos, hpos⟩ := List.mem_iff_getElem?.mp hxs
  have hpl := (List.getElem?_eq_some_iff.mp hpos).1
  -- first valid slot
  have hmin : ∃ imin a, l.startMin (l.ntot - 1) = .ok imin ∧
      l.slots[imin]? = some (some a) ∧ imin ≤ pos := by
    unfold startMin
    have hg : l.slots[0]? = some l.slots[0] := List.getElem?_eq_getElem (by omega)
    rw [rd_eq h.capb hg]
    cases h0 : l.slots[0] with
    | some a => exact ⟨0, a, rfl, by rw [hg, h0], by omega⟩
    | none =>
      have : 0 < pos := by
        rcases Nat.eq_zero_or_pos pos with hp | hp
        · subst hp; rw [hg, h0] at hpos; simp at hpos
        · exact hp
      obtain ⟨j, c, e1, e2, e3, e4, _⟩ := fwd_spec h.capb hpos (l.ntot - 1 + 1 - 0) 0 this (by omega)
      refine ⟨j, c, ?_, e4, e3⟩
      simp only [Res.bind_ok, e1]; rfl
  obtain ⟨imin, a, m1, m2, m3⟩ := hmin
  have hmax : ∃ imax b, l.startMax imin (l.ntot - 1) = .ok imax ∧
      l.slots[imax]? = some (some b) ∧ pos ≤ imax ∧ imax < l.ntot := by
    unfold startMax
    have hg : l.slots[l.ntot - 1]? = some (l.slots[l.ntot - 1]'(by omega)) :=
      List.getElem?_eq_getElem (by omega)
    rw [rd_eq h.capb hg]
    cases h0 : l.slots[l.ntot - 1]'(by omega) with
    | some b => exact ⟨_, b, rfl, by rw [hg, h0], by omega, by omega⟩
    | none =>
      have hne : pos ≠ l.ntot - 1 := by
        intro hp; subst hp; rw [hg, h0] at hpos; simp at hpos
      obtain ⟨j, c, e1, e2, e3, e4, _⟩ := bwd_spec h.capb hpos (l.ntot - 1 + 1 - imin) (l.ntot - 1)
        (by omega) (by omega) (by omega)
      refine ⟨j, c, ?_, e4, e2, by omega⟩
      simp only [Res.bind_ok, e1]; rfl
  obtain ⟨imax, b, n1, n2, n3, n4⟩ := hmax
  have hloop := remSortedLoop_spec h.capb key hsort hpos fuel imin imax a b m2 n2 m3 n3 (by omega)
  have hsplit : l.slots = l.slots.take pos ++ some x :: l.slots.drop (pos+1) := by
    obtain ⟨hlt, hget⟩ := List.getElem?_eq_some_iff.mp hpos
    rw [← hget]; simp
  have hlen : (l.slots.take pos).length = pos := by simp; omega
  obtain ⟨l', b1, b2, b3, _⟩ := blank_spec h hsplit
  rw [hlen] at b1
  refine ⟨l', ?_, b2, ?_⟩
  · unfold remSorted
    simp only [m1, n1, Res.bind_ok, keyAt_eq h.capb key m2, keyAt_eq h.capb key n2, hloop, b1]
    rfl
  · rw [b3, split_abs hsplit, erase_append_cons]
    intro hm
    -- x would occur twice, contradicting strict sorting
    rw [List.mem_filterMap] at hm
    obtain ⟨y, hy, hy2⟩ := hm
    simp at hy2; subst hy2
    obtain ⟨j, hj⟩ := List.mem_iff_getElem?.mp hy
    have hjl := (List.getElem?_eq_some_iff.mp hj).1
    have hjp : j < pos := by simp at hjl; omega
    rw [List.getElem?_take_of_lt hjp] at hj
    have := key_lt_of_pos hsort hj hpos hjp
    omega

end CList

open ListOp

/-- **C07 (partial).** On any list reached by an in-range history whose entries are sorted by
strictly increasing keys, `List_RemSorted` of an entry *that is in the list* terminates, returns 1
and removes exactly that entry, whatever gaps the list has; the result keeps behaving as that
sequence in every later history.  Missing: entries that are not in the list (see
`C07_remSorted_absent_negation`). -/
theorem C07_remSorted_partial {α : Type} [DecidableEq α] (n : Nat) (ops later : List (ListOp α))
    (hpre : preAll [] ops) (key : α → Int)
    (hsort : ((specAll [] ops).map key).Pairwise (· < ·)) (x : α) (hx : x ∈ specAll [] ops)
    (hlater : preAll ((specAll [] ops).erase x) later)
    {l : CList α} {r} (hl : execAll (CList.new n) ops = .ok (l, r)) (fuel : Nat) (hf : l.sizeRaw ≤ fuel) :
    ∃ l' l'' r', l.remSorted fuel x key = .ok (true, l') ∧ execAll l' later = .ok (l'', r') ∧
      ∀ i, l''.entry i = .ok (specAll ((specAll [] ops).erase x) later)[i]? := by
  obtain ⟨l0, e1, e2, e3⟩ := execAll_spec (CList.new_inv n) ops (by rw [CList.new_abs]; exact hpre)
  rw [hl] at e1; simp only [Res.ok.injEq, Prod.mk.injEq] at e1; obtain ⟨rfl, _⟩ := e1
  rw [CList.new_abs] at e3
  obtain ⟨l', h1, h2, h3⟩ := CList.remSorted_spec e2 key (by rw [e3]; exact hsort)
    (by rw [e3]; exact hx) fuel hf
  rw [e3] at h3
  obtain ⟨l'', k1, k2, k3⟩ := execAll_spec h2 later (by rw [h3]; exact hlater)
  exact ⟨l', l'', _, h1, k1, fun i => by rw [CList.entry_spec k2, k3, h3]⟩

example : ∃ (l : CList Nat) (r : _), execAll (CList.new 0)
      [.add 1, .add 3, .add 5, .add 7, .add 9, .rem 1, .rem 5] = .ok (l, r) ∧
    ((specAll ([] : List Nat) [.add 1, .add 3, .add 5, .add 7, .add 9, .rem 1, .rem 5]).map
      (fun n : Nat => (n : Int))).Pairwise (· < ·) ∧ l.sizeRaw ≤ 5 ∧
    ∃ l', l.remSorted 5 9 (fun n : Nat => (n : Int)) = .ok (true, l') ∧ l'.entry 1 = .ok (some 7) := by
  refine ⟨{ nent := 3, p := 3, nrem := 2, rem1 := 0, slots := [none, some 3, none, some 7, some 9] },
    [none, none, none, none, none, some true, some true], by decide, by decide, by decide,
    { nent := 2, p := 3, nrem := 3, rem1 := 0, slots := [none, some 3, none, some 7, none] }, by decide⟩

/-- **C07 (negation, absent entry).** Looking for an entry that is not in the sorted list never
returns "not found": on [1,_,3] (2 was removed) removing 2 again loops forever, for every bound on
the number of iterations. -/
theorem C07_remSorted_absent_negation :
    ∃ (l : CList Nat) (r : _), execAll (CList.new 0) [.add 1, .add 2, .add 3, .rem 2] = .ok (l, r) ∧
      ∀ fuel, l.remSorted fuel 2 (fun n : Nat => (n : Int)) = .hang := by
  refine ⟨{ nent := 2, p := 3, nrem := 1, rem1 := 1, slots := [some 1, none, some 3] },
    [none, none, none, some true], by decide, fun fuel => ?_⟩
  have hloop : ∀ fuel, (CList.mk 2 3 1 1 [some 1, none, some 3]).remSortedLoop
      (fun n : Nat => (n : Int)) 2 fuel 0 2 1 3 = .hang := by
    intro fuel
    induction fuel with
    | zero => rfl
    | succ fuel ih => exact ih
  have hred : (CList.mk 2 3 1 1 [some 1, none, some 3]).remSorted fuel 2 (fun n : Nat => (n : Int)) =
      (((CList.mk 2 3 1 1 [some 1, none, some 3]).remSortedLoop (fun n : Nat => (n : Int)) 2 fuel 0 2 1 3)
        >>= fun i => do pure (true, ← (CList.mk 2 3 1 1 [some 1, none, some 3]).blank i)) := rfl
  rw [hred, hloop]; rfl

/-- **C07 (negation, absent entry without gaps).** Without gaps the same call reads an
uninitialised variable. -/
theorem C07_remSorted_absent_ub :
    ∃ (l : CList Nat) (r : _), execAll (CList.new 0) [.add 1, .add 3] = .ok (l, r) ∧
      l.remSorted 2 2 (fun n : Nat => (n : Int)) = .ub := by
  refine ⟨{ nent := 2, p := 3, nrem := 0, rem1 := -1, slots := [some 1, some 3] },
    [none, none], by decide, by decide⟩

end MSTK
