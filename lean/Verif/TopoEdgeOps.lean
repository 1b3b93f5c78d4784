import Verif.TopoFaceOps

/-!
`MF_Replace_Edges` (the start position it computes) and preservation of the layers
vertex-edge and edge-face.
-/
namespace MSTK
namespace Topo

/-! ### the start position of `MF_Replace_Edges` -/

theorem findAll_some {l : List Nat} : ∀ {old : List Nat}, (∀ e ∈ old, e ∈ l) →
    findAll l old = some (old.map l.idxOf) := by
  intro old
  induction old with
  | nil => intro _; rfl
  | cons e es ih =>
    intro h
    rw [show findAll l (e :: es) = if e ∈ l then (findAll l es).map (l.idxOf e :: ·) else none from rfl,
      if_pos (h e (by simp)), ih (fun x hx => h x (by simp [hx]))]
    rfl

theorem lowest_id (xs : List Nat) : ∀ (i m q : Nat), (∀ x ∈ xs, m ≤ x) →
    lowest xs i (m, q) = (m, q) := by
  induction xs with
  | nil => intro i m q _; rfl
  | cons y ys ih =>
    intro i m q h
    rw [show lowest (y :: ys) i (m, q) = lowest ys (i+1) (if y < m then (y, i) else (m, q)) from rfl,
      if_neg (by have := h y (by simp); omega)]
    exact ih _ _ _ (fun x hx => h x (by simp [hx]))

theorem lowest_eq (xs : List Nat) : ∀ (i m q k x : Nat), xs[k]? = some x → x < m →
    (∀ (j : Nat) y, xs[j]? = some y → j ≠ k → x < y) → lowest xs i (m, q) = (x, i + k) := by
  induction xs with
  | nil => intro i m q k x h; simp at h
  | cons y ys ih =>
    intro i m q k x hk hm hall
    rw [show lowest (y :: ys) i (m, q) = lowest ys (i+1) (if y < m then (y, i) else (m, q)) from rfl]
    cases k with
    | zero =>
      simp only [List.getElem?_cons_zero, Option.some.injEq] at hk
      subst hk
      rw [if_pos hm]
      apply lowest_id
      intro z hz
      obtain ⟨j, hj⟩ := List.mem_iff_getElem?.1 hz
      exact Nat.le_of_lt (hall (j+1) z (by simpa using hj) (by omega))
    | succ k =>
      rw [List.getElem?_cons_succ] at hk
      have hy : x < y := hall 0 y rfl (by omega)
      have hrest : ∀ (j : Nat) z, ys[j]? = some z → j ≠ k → x < z :=
        fun j z hj hjk => hall (j+1) z (by simpa using hj) (by omega)
      split
      · rw [ih (i+1) y i k x hk hy hrest]; congr 1; omega
      · rw [ih (i+1) m q k x hk hm hrest]; congr 1; omega

/-- the lowest index found is a member -/
theorem lowest_mem (xs : List Nat) : ∀ (i m q : Nat),
    (lowest xs i (m, q)).1 = m ∨ (lowest xs i (m, q)).1 ∈ xs := by
  induction xs with
  | nil => intro i m q; exact Or.inl rfl
  | cons y ys ih =>
    intro i m q
    rw [show lowest (y :: ys) i (m, q) = lowest ys (i+1) (if y < m then (y, i) else (m, q)) from rfl]
    split
    · rcases ih (i+1) y i with h | h
      · rw [h]; simp
      · exact Or.inr (List.mem_cons_of_mem _ h)
    · rcases ih (i+1) m q with h | h
      · exact Or.inl h
      · exact Or.inr (List.mem_cons_of_mem _ h)

theorem lowest_le (xs : List Nat) : ∀ (i m q : Nat),
    (lowest xs i (m, q)).1 ≤ m ∧ ∀ x ∈ xs, (lowest xs i (m, q)).1 ≤ x := by
  induction xs with
  | nil => intro i m q; simp [lowest]
  | cons y ys ih =>
    intro i m q
    rw [show lowest (y :: ys) i (m, q) = lowest ys (i+1) (if y < m then (y, i) else (m, q)) from rfl]
    split
    · obtain ⟨h1, h2⟩ := ih (i+1) y i
      refine ⟨by omega, ?_⟩
      intro x hx
      rcases List.mem_cons.1 hx with rfl | hx
      · exact h1
      · exact h2 x hx
    · obtain ⟨h1, h2⟩ := ih (i+1) m q
      refine ⟨by omega, ?_⟩
      intro x hx
      rcases List.mem_cons.1 hx with rfl | hx
      · omega
      · exact h2 x hx

theorem findBreak_mem (idx : List Nat) (p s n : Nat) : ∀ i nxt, idx ≠ [] →
    findBreak idx p s n i nxt = s ∨ findBreak idx p s n i nxt ∈ idx := by
  induction n with
  | zero => intro i nxt _; exact Or.inl rfl
  | succ n ih =>
    intro i nxt h
    rw [show findBreak idx p s (n+1) i nxt =
      (if idx.getD ((p + i) % idx.length) 0 ≠ nxt then idx.getD ((p + i) % idx.length) 0
       else findBreak idx p s n (i+1) (nxt+1)) from rfl]
    split
    · right
      have hl : 0 < idx.length := List.length_pos_iff.2 h
      have hlt := Nat.mod_lt (p+i) hl
      rw [List.getD_eq_getElem?_getD, List.getElem?_eq_getElem hlt]
      exact List.getElem_mem _
    · exact ih _ _ h

/-- the position `MF_Replace_Edges` starts from -/
def startOf (l old : List Nat) : Nat :=
  let idx := old.map l.idxOf
  let p := lowest idx 0 (10000, 0)
  findBreak idx p.2 p.1 (idx.length - 1) 1 (p.1 + 1)

theorem mfReplaceEdges_eq {T : Topo} {f : Nat} {old nu l : List Nat} (hf : (T.sf f).alloc)
    (hl : T.fe f = some l) (hold : ∀ e ∈ old, e ∈ l) :
    T.mfReplaceEdges f old nu = T.mfReplaceEdges_i f old.length (startOf l old) nu := by
  unfold mfReplaceEdges
  rw [fedges_ok hf hl, Res.bind_ok, findAll_some hold]
  rfl

theorem startOf_lt {l old : List Nat} (hne : old ≠ [])
    (hold : ∀ e ∈ old, e ∈ l) : startOf l old < l.length := by
  have hidx : ∀ x ∈ old.map l.idxOf, x < l.length := by
    intro x hx
    obtain ⟨e, he, rfl⟩ := List.mem_map.1 hx
    exact List.idxOf_lt_length_iff.2 (hold e he)
  have hne' : old.map l.idxOf ≠ [] := by simpa using hne
  have hlow : (lowest (old.map l.idxOf) 0 (10000, 0)).1 < l.length := by
    obtain ⟨x, hx⟩ := List.exists_mem_of_ne_nil _ hne'
    have := (lowest_le (old.map l.idxOf) 0 10000 0).2 x hx
    have := hidx x hx
    omega
  rcases findBreak_mem (old.map l.idxOf) (lowest (old.map l.idxOf) 0 (10000, 0)).2
    (lowest (old.map l.idxOf) 0 (10000, 0)).1 ((old.map l.idxOf).length - 1) 1
    ((lowest (old.map l.idxOf) 0 (10000, 0)).1 + 1) hne' with h | h
  · unfold startOf; simp only []; rw [h]; exact hlow
  · exact hidx _ h

theorem findBreak_none (idx : List Nat) (p s n : Nat) : ∀ i nxt,
    (∀ k, k < n → idx.getD ((p + (i + k)) % idx.length) 0 = nxt + k) →
    findBreak idx p s n i nxt = s := by
  induction n with
  | zero => intro i nxt _; rfl
  | succ n ih =>
    intro i nxt h
    rw [show findBreak idx p s (n+1) i nxt =
      (if idx.getD ((p + i) % idx.length) 0 ≠ nxt then idx.getD ((p + i) % idx.length) 0
       else findBreak idx p s n (i+1) (nxt+1)) from rfl, if_neg (by
        have := h 0 (by omega); simpa using this)]
    apply ih
    intro k hk
    have := h (k+1) (by omega)
    rw [show i + 1 + k = i + (k + 1) by omega, this]; omega

theorem findBreak_at (idx : List Nat) (p s x m : Nat) : ∀ n i nxt, m < n →
    (∀ k, k < m → idx.getD ((p + (i + k)) % idx.length) 0 = nxt + k) →
    idx.getD ((p + (i + m)) % idx.length) 0 = x → x ≠ nxt + m →
    findBreak idx p s n i nxt = x := by
  induction m with
  | zero =>
    intro n i nxt hm _ hx hne
    obtain ⟨n, rfl⟩ : ∃ k, n = k + 1 := ⟨n - 1, by omega⟩
    rw [show findBreak idx p s (n+1) i nxt =
      (if idx.getD ((p + i) % idx.length) 0 ≠ nxt then idx.getD ((p + i) % idx.length) 0
       else findBreak idx p s n (i+1) (nxt+1)) from rfl, if_pos (by
        simp only [Nat.add_zero] at hx hne; rw [hx]; exact hne)]
    exact hx
  | succ m ih =>
    intro n i nxt hm h hx hne
    obtain ⟨n, rfl⟩ : ∃ k, n = k + 1 := ⟨n - 1, by omega⟩
    rw [show findBreak idx p s (n+1) i nxt =
      (if idx.getD ((p + i) % idx.length) 0 ≠ nxt then idx.getD ((p + i) % idx.length) 0
       else findBreak idx p s n (i+1) (nxt+1)) from rfl, if_neg (by
        have := h 0 (by omega); simpa using this)]
    apply ih n (i+1) (nxt+1) (by omega)
    · intro k hk
      have := h (k+1) (by omega)
      rw [show i + 1 + k = i + (k + 1) by omega, this]; omega
    · rw [show i + 1 + m = i + (m + 1) by omega]; exact hx
    · omega

/-- Old edges given in the order of the face, starting at position `s`: that is where the
replacement starts. -/
theorem startOf_forward {l : List Nat} {s n : Nat} (hnd : l.Nodup) (h32 : l.length ≤ 32)
    (hs : s < l.length) (hn : 0 < n) (hlt : n < l.length ∨ s + n ≤ l.length) :
    startOf l ((l.rotate s).take n) = s := by
  have hidx : ∀ k, k < n → (((l.rotate s).take n).map l.idxOf)[k]? = some ((k + s) % l.length) := by
    intro k hk
    have hk' : k < l.length := by omega
    rw [List.getElem?_map, List.getElem?_take, if_pos hk, List.getElem?_rotate hk',
      List.getElem?_eq_getElem (Nat.mod_lt _ (by omega))]
    simp only [Option.map_some, Option.some.injEq]
    exact idxOf_eq_of_nodup hnd (List.getElem?_eq_getElem (Nat.mod_lt _ (by omega)))
  have hlen : (((l.rotate s).take n).map l.idxOf).length = n := by
    rw [List.length_map, List.length_take, List.length_rotate]; omega
  unfold startOf
  simp only []
  generalize ((l.rotate s).take n).map l.idxOf = idx at hidx hlen
  rw [hlen]
  have hget : ∀ k, k < n → idx.getD k 0 = (k + s) % l.length := by
    intro k hk
    rw [List.getD_eq_getElem?_getD, hidx k hk]; rfl
  have hsome : ∀ (j : Nat) y, idx[j]? = some y → j < n ∧ y = (j + s) % l.length := by
    intro j y hj
    have : j < idx.length := (List.getElem?_eq_some_iff.1 hj).1
    have hjn : j < n := by omega
    rw [hidx j hjn] at hj
    injection hj with hj
    exact ⟨hjn, hj.symm⟩
  by_cases hw : s + n ≤ l.length
  · have hlow : lowest idx 0 (10000, 0) = (s, 0 + 0) := by
      apply lowest_eq
      · rw [hidx 0 hn, Nat.zero_add, Nat.mod_eq_of_lt hs]
      · omega
      · intro j y hj hj0
        obtain ⟨h1, rfl⟩ := hsome j y hj
        rw [Nat.mod_eq_of_lt (by omega)]
        omega
    rw [hlow]
    apply findBreak_none
    intro k hk
    rw [hlen, Nat.mod_eq_of_lt (by omega), hget _ (by omega), Nat.mod_eq_of_lt (by omega)]
    omega
  · have hn' : n < l.length := by omega
    have hlow : lowest idx 0 (10000, 0) = (0, 0 + (l.length - s)) := by
      apply lowest_eq
      · rw [hidx _ (by omega), show l.length - s + s = l.length by omega, Nat.mod_self]
      · omega
      · intro j y hj hj0
        obtain ⟨h1, rfl⟩ := hsome j y hj
        rcases Nat.lt_or_ge (j + s) l.length with h | h
        · rw [Nat.mod_eq_of_lt h]
          rcases Nat.eq_zero_or_pos (j+s) with h0 | h0
          · omega
          · exact h0
        · rw [Nat.mod_eq_sub_mod h, Nat.mod_eq_of_lt (by omega)]
          omega
    rw [hlow]
    apply findBreak_at (m := n - (l.length - s) - 1)
    · omega
    · intro k hk
      rw [hlen, Nat.mod_eq_of_lt (by omega), hget _ (by omega),
        Nat.mod_eq_sub_mod (by omega), Nat.mod_eq_of_lt (by omega)]
      omega
    · rw [hlen, show 0 + (l.length - s) + (1 + (n - (l.length - s) - 1)) = n by omega, Nat.mod_self,
        hget 0 hn, Nat.zero_add, Nat.mod_eq_of_lt hs]
    · omega

/-! ### preservation: vertices and edges -/

theorem Consistent.newVertex {T : Topo} (h : T.Consistent) : T.mvNew.1.Consistent := by
  have hfree : T.sv T.nv = .unused := h.newV _ (Nat.le_refl _)
  refine ⟨?_, h.ef, h.fr, h.reg, ?_, h.newE, h.newF, h.newR⟩
  · refine h.ve.lower T.nv (fun z hz => upd_ne _ _ hz) (fun z hz => upd_ne _ _ hz) ?_ ?_
    · intro _
      show (upd T.ve T.nv [] T.nv).Nodup ∧ ∀ y, y ∈ upd T.ve T.nv [] T.nv ↔ _
      rw [upd_same]
      refine ⟨List.nodup_nil, fun y => ?_⟩
      constructor
      · intro hy; simp at hy
      · rintro ⟨h1, h2⟩
        have := h.ve.down y _ h1 h2
        rw [hfree] at this; cases this
    · intro _; exact upd_same _ _ _
  · intro i hi
    show upd T.sv T.nv .live i = .unused
    have hi : T.nv + 1 ≤ i := hi
    rw [upd_ne _ _ (by omega)]
    exact h.newV i (by omega)

theorem Consistent.newEdge {T : Topo} (h : T.Consistent) : T.meNew.1.Consistent := by
  have hfree : T.se T.ne = .unused := h.newE _ (Nat.le_refl _)
  refine ⟨?_, ?_, h.fr, h.reg, h.newV, ?_, h.newF, h.newR⟩
  · refine h.ve.update T.ne (fun z hz => upd_ne _ _ hz) ?_ h.ve.nodup (fun _ _ _ _ => Iff.rfl) ?_ ?_
    · intro z hz x
      show ends (upd T.ev T.ne (none, none)) z x ↔ _
      unfold ends; rw [upd_ne _ _ hz]
    · intro x hx
      show T.ne ∈ T.ve x ↔ _ ∧ ends (upd T.ev T.ne (none, none)) T.ne x
      unfold ends
      rw [h.ve.mem x hx, hfree, upd_same]
      simp
    · intro x _ hb
      have hb : ends (upd T.ev T.ne (none, none)) T.ne x := hb
      unfold ends at hb
      rw [upd_same] at hb
      simp at hb
  · refine h.ef.lower T.ne (fun z hz => upd_ne _ _ hz) (fun z hz => upd_ne _ _ hz) ?_ ?_
    · intro _
      show (upd T.ef T.ne [] T.ne).Nodup ∧ ∀ y, y ∈ upd T.ef T.ne [] T.ne ↔ _
      rw [upd_same]
      refine ⟨List.nodup_nil, fun y => ?_⟩
      constructor
      · intro hy; simp at hy
      · rintro ⟨h1, h2⟩
        have := h.ef.down y _ h1 h2
        rw [hfree] at this; cases this
    · intro _; exact upd_same _ _ _
  · intro i hi
    show upd T.se T.ne .live i = .unused
    have hi : T.ne + 1 ≤ i := hi
    rw [upd_ne _ _ (by omega)]
    exact h.newE i (by omega)

theorem Consistent.setVertex {T : Topo} (h : T.Consistent) {e v : Nat} {i : Bool}
    (he : T.se e = .live) (hv : T.sv v = .live) (hi : endAt (T.ev e) i = none) :
    ∃ T', T.meSetVertex e i v = .ok T' ∧ T'.Consistent :=
  ⟨_, meSetVertex_ok (alloc_of_live he) (alloc_of_live hv),
    h.ve.setVertex he hv hi, h.ef, h.fr, h.reg, h.newV, h.newE, h.newF, h.newR⟩

/-- replacing `o` by `n` as an end of `e` -/
theorem Layer.replaceVertex {sv : Nat → Stat} {ve : Nat → List Nat} {se : Nat → Stat}
    {ev : Nat → Option Nat × Option Nat} (h : Layer sv ve se (ends ev)) {e o n : Nat}
    {p : Option Nat × Option Nat} (he : se e = .live) (hn : sv n = .live) (hon : o ≠ n)
    (hp : ∀ x, (p.1 = some x ∨ p.2 = some x) ↔ x = n ∨ (x ≠ o ∧ ends ev e x)) :
    Layer sv (upd (upd ve n (chkn (ve n) e)) o ((ve o).erase e)) se (ends (upd ev e p)) := by
  have hb : ∀ x, ends (upd ev e p) e x ↔ x = n ∨ (x ≠ o ∧ ends ev e x) := by
    intro x; unfold ends; rw [upd_same]; exact hp x
  refine h.update e (fun _ _ => rfl) ?_ ?_ ?_ ?_ ?_
  · intro z hz x; unfold ends; rw [upd_ne _ _ hz]
  · intro x hx
    rw [upd_apply, upd_apply]
    split
    · rename_i hxo; subst hxo; exact (h.nodup x hx).erase _
    · split
      · rename_i hxn; subst hxn; exact nodup_chkn (h.nodup x hx)
      · exact h.nodup x hx
  · intro x hx z hz
    rw [upd_apply, upd_apply]
    split
    · rename_i hxo; subst hxo; rw [(h.nodup x hx).mem_erase_iff]; simp [hz]
    · split
      · rename_i hxn; subst hxn; rw [mem_chkn]; simp [hz]
      · rfl
  · intro x hx
    rw [hb, upd_apply, upd_apply]
    split
    · rename_i hxo; subst hxo; rw [(h.nodup x hx).mem_erase_iff]; simp [hon]
    · rename_i hxo
      split
      · rename_i hxn; subst hxn; rw [mem_chkn]; simp [he]
      · rename_i hxn; rw [h.mem x hx e]; simp [hxo, hxn, he]
  · intro x _ hx
    rw [hb] at hx
    rcases hx with rfl | hx
    · exact hn
    · exact h.down e x he hx.2

theorem Consistent.replaceVertex {T : Topo} (h : T.Consistent) {e o n : Nat} (he : T.se e = .live)
    (hn : T.sv n = .live) (hon : o ≠ n) (hdeg : ¬ ((T.ev e).1 = some o ∧ (T.ev e).2 = some o)) :
    ∃ T', T.meReplaceVertex e o n = .ok T' ∧ T'.Consistent := by
  have hlive : ends T.ev e o → (T.sv o).alloc := fun hb => alloc_of_live (h.ve.down e o he hb)
  unfold meReplaceVertex
  rw [derefE_ok (alloc_of_live he), Res.bind_ok]
  by_cases h1 : (T.ev e).1 = some o
  · rw [if_pos h1, mvAddEdge_ok (by exact alloc_of_live hn), Res.bind_ok,
      mvRemEdge_ok (by exact hlive (Or.inl h1))]
    refine ⟨_, rfl, ?_, h.ef, h.fr, h.reg, h.newV, h.newE, h.newF, h.newR⟩
    show Layer T.sv (upd (upd T.ve n (chkn (T.ve n) e)) o ((upd T.ve n (chkn (T.ve n) e) o).erase e)) _ _
    rw [upd_ne _ _ hon]
    refine h.ve.replaceVertex he hn hon ?_
    intro x
    unfold ends
    rw [h1]
    have h2 : (T.ev e).2 ≠ some o := fun h2 => hdeg ⟨h1, h2⟩
    by_cases hxo : x = o
    · subst hxo; simp [h2, eq_comm]
    · simp [hxo, Ne.symm hxo, eq_comm]
  · rw [if_neg h1]
    by_cases h2 : (T.ev e).2 = some o
    · rw [if_pos h2, mvAddEdge_ok (by exact alloc_of_live hn), Res.bind_ok,
        mvRemEdge_ok (by exact hlive (Or.inr h2))]
      refine ⟨_, rfl, ?_, h.ef, h.fr, h.reg, h.newV, h.newE, h.newF, h.newR⟩
      show Layer T.sv (upd (upd T.ve n (chkn (T.ve n) e)) o ((upd T.ve n (chkn (T.ve n) e) o).erase e)) _ _
      rw [upd_ne _ _ hon]
      refine h.ve.replaceVertex he hn hon ?_
      intro x
      unfold ends
      rw [h2]
      by_cases hxo : x = o
      · subst hxo; simp [h1, eq_comm]
      · simp [hxo, Ne.symm hxo, eq_comm, or_comm]
    · rw [if_neg h2]
      exact ⟨T, rfl, h⟩

theorem remFromEnd_ok {T : Topo} {e : Nat} {o : Option Nat} (h : ∀ v, o = some v → (T.sv v).alloc) :
    T.remFromEnd e o = .ok { T with ve := remAll T.ve e o.toList } := by
  cases o with
  | none => rfl
  | some v => exact mvRemEdge_ok (h v rfl)

theorem meDelete_ok {T : Topo} {e : Nat} {keep : Bool} (he : T.se e = .live)
    (hends : ∀ v, ends T.ev e v → (T.sv v).alloc) :
    T.meDelete e keep = .ok { T with
      ve := remAll (remAll T.ve e (T.ev e).1.toList) e (T.ev e).2.toList,
      se := upd T.se e (afterDelete keep) } := by
  unfold meDelete
  rw [derefE_ok (alloc_of_live he), Res.bind_ok, if_pos he,
    remFromEnd_ok (fun v hv => hends v (Or.inl hv)), Res.bind_ok,
    remFromEnd_ok (by exact fun v hv => hends v (Or.inr hv))]
  rfl

theorem afterDelete_ne_live (k : Bool) : afterDelete k ≠ .live := by cases k <;> simp [afterDelete]

/-- an entity that nothing live is bounded by changes its state -/
theorem Layer.retire {sl : Nat → Stat} {up : Nat → List Nat} {su : Nat → Stat}
    {bd : Nat → Nat → Prop} (h : Layer sl up su bd) {x : Nat} {s : Stat} (hx : (sl x).alloc)
    (hno : ∀ y, su y = .live → ¬ bd y x) : Layer (upd sl x s) up su bd := by
  refine h.lower x (fun z hz => upd_ne _ _ hz) (fun _ _ => rfl) ?_ ?_
  · intro _; exact ⟨h.nodup x hx, h.mem x hx⟩
  · rintro ⟨y, h1, h2⟩; exact absurd h2 (hno y h1)

theorem mem_toList_some {o : Option Nat} {x : Nat} : x ∈ o.toList ↔ o = some x := by
  cases o <;> simp [eq_comm]

theorem Consistent.delVertex {T : Topo} (h : T.Consistent) {v : Nat} {k : Bool}
    (hv : (T.sv v).alloc) (hno : ∀ e, T.se e = .live → ¬ ends T.ev e v) :
    ∃ T', T.mvDelete v k = .ok T' ∧ T'.Consistent := by
  unfold mvDelete
  rw [derefV_ok hv, Res.bind_ok]
  refine ⟨_, rfl, h.ve.retire hv hno, h.ef, h.fr, h.reg, ?_, h.newE, h.newF, h.newR⟩
  intro i hi
  show upd T.sv v _ i = _
  rw [upd_ne]
  · exact h.newV i hi
  · rintro rfl
    rw [h.newV i hi] at hv; cases hv

theorem Consistent.restoreVertex {T : Topo} (h : T.Consistent) {v : Nat}
    (hv : (T.sv v).alloc) : ∃ T', T.mvRestore v = .ok T' ∧ T'.Consistent := by
  unfold mvRestore
  rw [derefV_ok hv, Res.bind_ok]
  refine ⟨_, rfl, ?_, h.ef, h.fr, h.reg, ?_, h.newE, h.newF, h.newR⟩
  · refine h.ve.lower v (fun z hz => upd_ne _ _ hz) (fun _ _ => rfl) ?_ ?_
    · intro _; exact ⟨h.ve.nodup v hv, h.ve.mem v hv⟩
    · intro _; exact upd_same _ _ _
  · intro i hi
    show upd T.sv v _ i = _
    rw [upd_ne]
    · exact h.newV i hi
    · rintro rfl
      rw [h.newV i hi] at hv; cases hv

theorem newE_upd {T : Topo} (h : T.Consistent) {e : Nat} {s : Stat} (he : (T.se e).alloc) :
    ∀ i, T.ne ≤ i → upd T.se e s i = .unused := by
  intro i hi
  rw [upd_ne]
  · exact h.newE i hi
  · rintro rfl
    rw [h.newE i hi] at he; cases he

theorem Consistent.delEdge {T : Topo} (h : T.Consistent) {e : Nat} {k : Bool}
    (he : (T.se e).alloc) (hno : ∀ f, T.sf f = .live → ¬ bounds T.fe f e) :
    ∃ T', T.meDelete e k = .ok T' ∧ T'.Consistent := by
  by_cases hl : T.se e = .live
  · refine ⟨_, meDelete_ok hl (fun v hv => alloc_of_live (h.ve.down e v hl hv)), ?_,
      h.ef.retire he hno, h.fr, h.reg, h.newV, newE_upd h he, h.newF, h.newR⟩
    have hs : ∀ x, (T.sv x).alloc →
        (remAll (remAll T.ve e (T.ev e).1.toList) e (T.ev e).2.toList x).Nodup ∧
        ∀ z, z ∈ remAll (remAll T.ve e (T.ev e).1.toList) e (T.ev e).2.toList x ↔
          z ∈ T.ve x ∧ ¬ (z = e ∧ ends T.ev e x) := by
      intro x hx
      obtain ⟨a1, a2⟩ := remAll_spec e (T.ev e).1.toList T.ve x (h.ve.nodup x hx)
      obtain ⟨b1, b2⟩ := remAll_spec e (T.ev e).2.toList _ x a1
      refine ⟨b1, fun z => ?_⟩
      rw [b2, a2, mem_toList_some, mem_toList_some]
      unfold ends
      by_cases hz : z = e
      · subst hz; simp [and_assoc]
      · simp [hz]
    refine h.ve.update e (fun z hz => upd_ne _ _ hz) (fun _ _ _ => Iff.rfl) (fun x hx => (hs x hx).1) ?_ ?_ ?_
    · intro x hx z hz
      rw [(hs x hx).2]; simp [hz]
    · intro x hx
      dsimp only
      rw [(hs x hx).2, h.ve.mem x hx, upd_same]
      simp [afterDelete_ne_live]
    · intro x hx
      dsimp only at hx
      rw [upd_same] at hx
      exact absurd hx (afterDelete_ne_live k)
  · unfold meDelete
    rw [derefE_ok he, Res.bind_ok, if_neg hl]
    refine ⟨_, rfl, ?_, h.ef.retire he hno, h.fr, h.reg, h.newV, newE_upd h he, h.newF, h.newR⟩
    refine h.ve.update e (fun z hz => upd_ne _ _ hz) (fun _ _ _ => Iff.rfl) h.ve.nodup (fun _ _ _ _ => Iff.rfl) ?_ ?_
    · intro x hx
      dsimp only
      rw [h.ve.mem x hx, upd_same]
      simp [afterDelete_ne_live, hl]
    · intro x hx
      dsimp only at hx
      rw [upd_same] at hx
      exact absurd hx (afterDelete_ne_live k)

theorem Consistent.restoreEdge {T : Topo} (h : T.Consistent) {e a b : Nat} (he : (T.se e).alloc)
    (hev : T.ev e = (some a, some b)) (ha : T.sv a = .live) (hb : T.sv b = .live) :
    ∃ T', T.meRestore e = .ok T' ∧ T'.Consistent := by
  have hrun : T.meRestore e = .ok { T with se := upd T.se e .live, ve := addAll T.ve e [a, b] } := by
    unfold meRestore
    rw [derefE_ok he, Res.bind_ok]
    simp only [hev, addToEnd]
    rw [mvAddEdge_ok (by exact alloc_of_live ha), Res.bind_ok]
    simp only [hev]
    rw [mvAddEdge_ok (by exact alloc_of_live hb)]
    rfl
  have hends : ∀ x, ends T.ev e x ↔ x ∈ [a, b] := by
    intro x; unfold ends; rw [hev]; simp [eq_comm]
  refine ⟨_, hrun, ?_, ?_, h.fr, h.reg, h.newV, newE_upd h he, h.newF, h.newR⟩
  · refine h.ve.update e (fun z hz => upd_ne _ _ hz) (fun _ _ _ => Iff.rfl) ?_ ?_ ?_ ?_
    · intro x hx; exact (addAll_spec e [a,b] T.ve x).1 (h.ve.nodup x hx)
    · intro x hx z hz
      rw [(addAll_spec e [a,b] T.ve x).2]; simp [hz]
    · intro x hx
      dsimp only
      rw [(addAll_spec e [a,b] T.ve x).2, upd_same, hends, h.ve.mem x hx, hends]
      simp
    · intro x _ hx
      rw [hends] at hx
      simp only [List.mem_cons, List.not_mem_nil, or_false] at hx
      rcases hx with rfl | rfl
      · exact ha
      · exact hb
  · refine h.ef.lower e (fun z hz => upd_ne _ _ hz) (fun _ _ => rfl) ?_ ?_
    · intro _; exact ⟨h.ef.nodup e he, h.ef.mem e he⟩
    · intro _; exact upd_same _ _ _

end Topo
end MSTK
