import Verif.Props.SetVertices

/-!
Closed chains of directed edges (helper lemmas for C25 and C29).
-/
namespace MSTK
namespace Topo

/-- edge `e` joins `a` and `b`, whichever way round -/
def Joins (T : Topo) (e a b : Nat) : Prop :=
  (T.meVertex e false = .ok (some a) ∧ T.meVertex e true = .ok (some b)) ∨
  (T.meVertex e false = .ok (some b) ∧ T.meVertex e true = .ok (some a))

/-- the edges `es` lead through the vertices `ws`, one after the other -/
def PathOf (T : Topo) (es ws : List Nat) : Prop :=
  ws.length = es.length + 1 ∧ ∀ (k e a b : Nat), es[k]? = some e → ws[k]? = some a →
    ws[k+1]? = some b → T.Joins e a b

/-- directed edges leading round the vertices `vs` -/
def Closed (T : Topo) (ps : List (Nat × Bool)) (vs : List Nat) : Prop :=
  ps.length = vs.length ∧ ∀ (k : Nat) (p : Nat × Bool) (a b : Nat), ps[k]? = some p →
    vs[k]? = some a → vs[(k+1) % vs.length]? = some b → Leads T p.1 p.2 a b

theorem Joins.ev {T : Topo} {e a b : Nat} (he : (T.se e).alloc) (h : T.Joins e a b) :
    T.ev e = (some a, some b) ∨ T.ev e = (some b, some a) := by
  unfold Joins at h
  rw [meVertex_ok he, meVertex_ok he] at h
  simp only [endAt, Bool.false_eq_true, if_false, if_true, Res.ok.injEq] at h
  rcases h with ⟨h1, h2⟩ | ⟨h1, h2⟩
  · exact Or.inl (Prod.ext h1 h2)
  · exact Or.inr (Prod.ext h1 h2)

theorem Closed.rotate {T : Topo} {ps : List (Nat × Bool)} {vs : List Nat} (h : T.Closed ps vs) (i : Nat) :
    T.Closed (ps.rotate i) (vs.rotate i) := by
  refine ⟨by simp [h.1], fun k p a b hp ha hb => ?_⟩
  have hk : k < vs.length := by
    have := (List.getElem?_eq_some_iff.1 ha).1
    rwa [List.length_rotate] at this
  have hpos : 0 < vs.length := by omega
  rw [List.getElem?_rotate (by rw [h.1]; exact hk), h.1] at hp
  rw [List.getElem?_rotate hk] at ha
  rw [List.length_rotate, List.getElem?_rotate (Nat.mod_lt _ hpos)] at hb
  refine h.2 _ p a b hp ha ?_
  rw [← hb]
  congr 1
  rw [Nat.mod_add_mod, Nat.mod_add_mod]
  congr 1
  omega

theorem rotate_back {α : Type} (l : List α) (s : Nat) : (l.rotate s).rotate (l.length - s % l.length) = l := by
  rw [List.rotate_rotate]
  rcases Nat.eq_zero_or_pos l.length with h | h
  · rw [List.eq_nil_of_length_eq_zero h]; simp
  · have : (s + (l.length - s % l.length)) % l.length = 0 % l.length := by
      have h1 := Nat.mod_lt s h
      have h2 := Nat.div_add_mod s l.length
      have : s + (l.length - s % l.length) = l.length * (s / l.length + 1) := by
        rw [Nat.mul_add, Nat.mul_one]; omega
      rw [this, Nat.mul_mod_right, Nat.zero_mod]
    rw [rotate_add_mod this, List.rotate_zero]

theorem Closed.unrotate {T : Topo} {ps : List (Nat × Bool)} {us : List Nat} {s : Nat}
    (h : T.Closed (ps.rotate s) us) : T.Closed ps (us.rotate (ps.length - s % ps.length)) := by
  have := h.rotate (ps.length - s % ps.length)
  rwa [rotate_back] at this

/-- closed chains survive when the edges keep their ends -/
theorem Closed.congr {T T' : Topo} {ps : List (Nat × Bool)} {vs : List Nat} (h : T.Closed ps vs)
    (he : T'.ev = T.ev) : T'.Closed ps vs := by
  refine ⟨h.1, fun k p a b h1 h2 h3 => ?_⟩
  have := h.2 k p a b h1 h2 h3
  unfold Leads at this ⊢
  rw [he]; exact this

theorem Loop.closed {T : Topo} {f : Nat} {l vs : List Nat} (hf : (T.sf f).alloc) (hl : T.fe f = some l)
    (hall : ∀ e ∈ l, (T.se e).alloc) (h : T.Loop f vs) : T.Closed (pairs l (fbit (T.fd f))) vs := by
  obtain ⟨es, h1, h2, h3⟩ := h
  rw [mfEdges_plain hf hl] at h1; injection h1 with h1; subst h1
  refine ⟨by rw [pairs_length]; exact h2, fun k p a b hp ha hb => ?_⟩
  rw [getElem?_pairs] at hp
  cases he : l[k]? with
  | none => rw [he] at hp; cases hp
  | some e =>
    rw [he] at hp
    simp only [Option.map_some, Option.some.injEq] at hp
    subst hp
    obtain ⟨d, h4, h5, h6⟩ := h3 k e he
    have hea := hall e (List.mem_of_getElem? he)
    unfold mfEdgeDir_i at h4
    rw [derefF_ok hf, Res.bind_ok] at h4
    have hk : k < 64 := by
      unfold bit at h4
      split at h4
      · assumption
      · cases h4
    rw [bit_ok _ hk] at h4
    injection h4 with h4
    rw [meVertex_ok hea, ha] at h5
    rw [meVertex_ok hea, hb] at h6
    injection h5 with h5
    injection h6 with h6
    dsimp only
    rw [h4]
    unfold Leads
    unfold endAt at h5 h6
    cases d
    · exact Prod.ext h6 h5
    · exact Prod.ext h5 h6

theorem Closed.loop {T : Topo} {f : Nat} {l vs : List Nat} (hf : (T.sf f).alloc) (hl : T.fe f = some l)
    (hall : ∀ e ∈ l, (T.se e).alloc) (h64 : l.length ≤ 64)
    (h : T.Closed (pairs l (fbit (T.fd f))) vs) : T.Loop f vs := by
  refine loop_of_leads hf hl (by have := h.1; rwa [pairs_length] at this) h64 hall ?_
  intro k e a b he ha hb
  exact h.2 k (e, fbit (T.fd f) k) a b (by rw [getElem?_pairs, he]; rfl) ha hb

/-- the directions computed along a path -/
theorem pathDirs_leads {T : Topo} : ∀ (es ws : List Nat) (a0 : Nat) (new : List (Nat × Bool)),
    (∀ e ∈ es, (T.se e).alloc) → T.PathOf es ws → ws[0]? = some a0 → T.pathDirs (some a0) es = .ok new →
    ∀ (k : Nat) p a b, new[k]? = some p → ws[k]? = some a → ws[k+1]? = some b → Leads T p.1 p.2 a b := by
  intro es
  induction es with
  | nil =>
    intro ws a0 new _ _ _ h k p a b hp
    injection h with h; subst h; simp at hp
  | cons e es ih =>
    intro ws a0 new hal hpath h0 h k p a b hp ha hb
    have hea := hal e (by simp)
    obtain ⟨x, ws', rfl⟩ : ∃ x ws', ws = x :: ws' := by
      cases ws with
      | nil => simp at h0
      | cons x ws' => exact ⟨x, ws', rfl⟩
    simp only [List.getElem?_cons_zero, Option.some.injEq] at h0
    subst h0
    have hlen := hpath.1
    simp only [List.length_cons] at hlen
    obtain ⟨y, ws2, rfl⟩ : ∃ y ws2, ws' = y :: ws2 := by
      cases ws' with
      | nil => simp at hlen
      | cons y ws2 => exact ⟨y, ws2, rfl⟩
    have hj := (hpath.2 0 e x y rfl rfl rfl).ev hea
    have hd := derefE_ok hea
    rw [show T.pathDirs (some x) (e :: es) = (do
      let v0 ← T.meVertex e false
      let b := decide (v0 = some x)
      let nxt ← T.meVertex e b
      let r ← pathDirs T nxt es
      pure ((e, b) :: r)) from rfl, meVertex_ok hea, Res.bind_ok] at h
    dsimp only at h
    rw [meVertex_ok hea, Res.bind_ok] at h
    obtain ⟨r, hr, h⟩ := Res.bind_eq_ok.1 h
    injection h with h
    subst h
    have key : Leads T e (decide (endAt (T.ev e) false = some x)) x y := by
      unfold Leads
      rcases hj with hj | hj
      · rw [hj]; simp [endAt]
      · rw [hj]
        by_cases hxy : y = x
        · simp [endAt, hxy]
        · simp [endAt, hxy]
    have hnext : endAt (T.ev e) (decide (endAt (T.ev e) false = some x)) = some y := by
      unfold Leads at key
      generalize decide (endAt (T.ev e) false = some x) = bb at *
      rw [key]; cases bb <;> rfl
    cases k with
    | zero =>
      simp only [List.getElem?_cons_zero, List.getElem?_cons_succ, Option.some.injEq] at hp ha hb
      subst hp; subst ha; subst hb
      exact key
    | succ k =>
      rw [hnext] at hr
      refine ih (y :: ws2) y r (fun z hz => hal z (by simp [hz])) ⟨by simp at hlen ⊢; omega, ?_⟩ rfl hr k p a b
        (by simpa using hp) (by simpa using ha) (by simpa using hb)
      intro k' e' a' b' h1 h2 h3
      exact hpath.2 (k'+1) e' a' b' (by simpa using h1) (by simpa using h2) (by simpa using h3)

/-- Putting a path in the place of the first `nold` edges of a closed chain. -/
theorem Closed.splice {T : Topo} {R new : List (Nat × Bool)} {V ws : List Nat} {nold : Nat}
    (h : T.Closed R V) (hn : nold ≤ V.length) (hpos : 0 < new.length)
    (hw : ws.length = new.length + 1)
    (hnew : ∀ (k : Nat) p a b, new[k]? = some p → ws[k]? = some a → ws[k+1]? = some b → Leads T p.1 p.2 a b)
    (h0 : ws[0]? = V[0]?) (h1 : ws[new.length]? = V[nold % V.length]?) :
    T.Closed (new ++ R.drop nold) (ws.dropLast ++ V.drop nold) := by
  have hdl : ws.dropLast.length = new.length := by rw [List.length_dropLast]; omega
  have hRl := h.1
  have hVpos : 0 < V.length := by
    rcases Nat.eq_zero_or_pos V.length with hz | hz
    · rw [List.eq_nil_of_length_eq_zero hz] at h0
      rw [List.getElem?_eq_getElem (by omega)] at h0; simp at h0
    · exact hz
  refine ⟨by simp; omega, fun k p a b hp ha hb => ?_⟩
  have hN : (ws.dropLast ++ V.drop nold).length = new.length + (V.length - nold) := by simp; omega
  have hk : k < new.length + (V.length - nold) := by
    have := (List.getElem?_eq_some_iff.1 ha).1; omega
  rw [hN] at hb
  have hws : ∀ j, j < new.length → (ws.dropLast ++ V.drop nold)[j]? = ws[j]? := by
    intro j hj
    rw [List.getElem?_append_left (by omega), List.getElem?_dropLast, if_pos (by omega)]
  have hV : ∀ j, new.length ≤ j → (ws.dropLast ++ V.drop nold)[j]? = V[nold + (j - new.length)]? := by
    intro j hj
    rw [List.getElem?_append_right (by omega), List.getElem?_drop, hdl]
  by_cases hkm : k < new.length
  · rw [List.getElem?_append_left hkm] at hp
    rw [hws k hkm] at ha
    refine hnew k p a b hp ha ?_
    rw [← hb]
    by_cases hk1 : k + 1 < new.length
    · rw [Nat.mod_eq_of_lt (by omega), hws _ hk1]
    · have hk1 : k + 1 = new.length := by omega
      rw [hk1, h1]
      by_cases hnl : nold < V.length
      · rw [Nat.mod_eq_of_lt hnl, Nat.mod_eq_of_lt (by omega), hV _ (Nat.le_refl _), Nat.sub_self,
          Nat.add_zero]
      · have : nold = V.length := by omega
        rw [this, Nat.mod_self, Nat.sub_self, Nat.add_zero, Nat.mod_self, this.symm, hws 0 hpos, h0]
  · have hkm : new.length ≤ k := by omega
    rw [List.getElem?_append_right hkm, List.getElem?_drop] at hp
    rw [hV k hkm] at ha
    refine h.2 _ p a b hp ha ?_
    rw [← hb]
    by_cases hk1 : k + 1 < new.length + (V.length - nold)
    · rw [Nat.mod_eq_of_lt hk1, hV _ (by omega), Nat.mod_eq_of_lt (by omega)]
      congr 1
      omega
    · rw [show k + 1 = new.length + (V.length - nold) by omega, Nat.mod_self, hws 0 hpos, h0,
        show nold + (k - new.length) + 1 = V.length by omega, Nat.mod_self]

/-- `MF_EdgeDir` reports the direction in which the face uses the edge. -/
theorem mfEdgeDir_iff {T : Topo} {f e : Nat} {l : List Nat} {d : Bool} (hf : (T.sf f).alloc)
    (hl : T.fe f = some l) (hn : l.Nodup) (h64 : l.length ≤ 64) :
    T.mfEdgeDir f e = .ok d ↔ (e, d) ∈ pairs l (fbit (T.fd f)) := by
  unfold mfEdgeDir
  rw [fedges_ok hf hl, Res.bind_ok]
  by_cases he : e ∈ l
  · have hlt := List.idxOf_lt_length_iff.2 he
    rw [if_pos he, bit_ok _ (by omega), mem_pairs_dir hn (idxOf_getElem? he)]
    simp
  · rw [if_neg he]
    constructor
    · intro h; cases h
    · intro h; exact absurd (mem_of_mem_pairs h) he

theorem mfEdgeDir_eq {T T' : Topo} {f e : Nat} {l l' : List Nat} (hf : (T.sf f).alloc)
    (hf' : (T'.sf f).alloc) (hl : T.fe f = some l) (hl' : T'.fe f = some l') (hn : l.Nodup)
    (hn' : l'.Nodup) (h64 : l.length ≤ 64) (h64' : l'.length ≤ 64) (he : e ∈ l)
    (h : ∀ d, (e, d) ∈ pairs l (fbit (T.fd f)) → (e, d) ∈ pairs l' (fbit (T'.fd f))) :
    T'.mfEdgeDir f e = T.mfEdgeDir f e := by
  have h1 : (e, fbit (T.fd f) (l.idxOf e)) ∈ pairs l (fbit (T.fd f)) :=
    (mem_pairs_dir hn (idxOf_getElem? he) _).2 rfl
  rw [(mfEdgeDir_iff hf hl hn h64).2 h1, (mfEdgeDir_iff hf' hl' hn' h64').2 (h _ h1)]

end Topo
end MSTK
