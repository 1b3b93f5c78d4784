import Verif.TopoAnswers

/-!
What `MF_Vertices` and `MF_Edges` report for a face whose edges form a closed loop (helper lemmas
for C23-C25).
-/
namespace MSTK
namespace Topo

/-- The edges of face `f`, followed in the order of `MF_Edges(f,1,0)` and each in the direction
`MF_EdgeDir_i` reports, lead from vertex `vs[k]` to vertex `vs[k+1]`, round and back to `vs[0]`. -/
def Loop (T : Topo) (f : Nat) (vs : List Nat) : Prop :=
  ∃ es, T.mfEdges f true none = .ok es ∧ es.length = vs.length ∧
    ∀ (k e : Nat), es[k]? = some e → ∃ d, T.mfEdgeDir_i f k = .ok d ∧
      T.meVertex e (!d) = .ok vs[k]? ∧ T.meVertex e d = .ok vs[(k+1) % vs.length]?

theorem getElem?_range_map {α : Type} {g : Nat → α} {n i : Nat} (h : i < n) :
    ((List.range n).map g)[i]? = some (g i) := by
  rw [List.getElem?_map, List.getElem?_range h]; rfl

theorem straight_lt {dir : Bool} {n k : Nat} (h : k ∈ straight dir n) : k < n := by
  unfold straight at h
  rw [List.mem_map] at h
  obtain ⟨i, hi, rfl⟩ := h
  have := List.mem_range.1 hi
  split <;> omega

theorem turn_lt {dir : Bool} {n k j : Nat} (h : k ∈ turn dir j n) : k < n := by
  unfold turn at h
  rw [List.mem_map] at h
  obtain ⟨i, hi, rfl⟩ := h
  have := List.mem_range.1 hi
  split <;> exact Nat.mod_lt _ (by omega)

theorem collect_straight {α : Type} {g : Nat → Res α} {w : List α}
    (hg : ∀ k x, w[k]? = some x → g k = .ok x) (dir : Bool) :
    collect g (straight dir w.length) = .ok (if dir then w else w.reverse) := by
  cases hw : w with
  | nil => cases dir <;> rfl
  | cons x0 w0 =>
    rw [← hw]
    have : collect g (straight dir w.length) = .ok ((straight dir w.length).map fun k => w.getD k x0) := by
      apply collect_ok
      intro k hk
      have hk := straight_lt hk
      rw [hg k w[k] (List.getElem?_eq_getElem hk), List.getD_eq_getElem?_getD,
        List.getElem?_eq_getElem hk]; rfl
    rw [this]
    congr 1
    apply List.ext_getElem?
    intro i
    unfold straight
    by_cases hi : i < w.length
    · rw [List.getElem?_map, getElem?_range_map hi, Option.map_some]
      cases dir
      · have h2 : w.length - 1 - i < w.length := by omega
        simp only [Bool.false_eq_true, if_false]
        rw [List.getElem?_reverse hi, List.getD_eq_getElem?_getD, List.getElem?_eq_getElem h2]
        rfl
      · simp only [if_true]
        rw [List.getD_eq_getElem?_getD, List.getElem?_eq_getElem hi]; rfl
    · rw [List.getElem?_eq_none (by simpa using hi), List.getElem?_eq_none]
      split <;> simpa using hi

theorem collect_turn {α : Type} {g : Nat → Res α} {w : List α} {j : Nat} (hj : j < w.length)
    (hg : ∀ k x, w[k]? = some x → g k = .ok x) (dir : Bool) :
    collect g (turn dir j w.length) =
      .ok (if dir then w.rotate j else (w.rotate (j+1)).reverse) := by
  have hx0 : ∃ x0, w[0]? = some x0 := ⟨w[0], List.getElem?_eq_getElem (by omega)⟩
  obtain ⟨x0, -⟩ := hx0
  have : collect g (turn dir j w.length) = .ok ((turn dir j w.length).map fun k => w.getD k x0) := by
    apply collect_ok
    intro k hk
    have hk := turn_lt hk
    rw [hg k w[k] (List.getElem?_eq_getElem hk), List.getD_eq_getElem?_getD,
      List.getElem?_eq_getElem hk]; rfl
  rw [this]
  congr 1
  apply List.ext_getElem?
  intro i
  unfold turn
  by_cases hi : i < w.length
  · have hpos : 0 < w.length := by omega
    rw [List.getElem?_map, getElem?_range_map hi, Option.map_some]
    cases dir
    · simp only [Bool.false_eq_true, if_false]
      rw [List.getElem?_reverse (by rw [List.length_rotate]; exact hi), List.length_rotate,
        List.getElem?_rotate (by omega), List.getD_eq_getElem?_getD,
        List.getElem?_eq_getElem (Nat.mod_lt _ hpos), Option.getD_some,
        show w.length - 1 - i + (j + 1) = j + w.length - i by omega,
        List.getElem?_eq_getElem (Nat.mod_lt _ hpos)]
    · simp only [if_true]
      rw [List.getElem?_rotate hi, List.getD_eq_getElem?_getD,
        List.getElem?_eq_getElem (Nat.mod_lt _ hpos), Option.getD_some, Nat.add_comm i j,
        List.getElem?_eq_getElem (Nat.mod_lt _ hpos)]
  · rw [List.getElem?_eq_none (by simpa using hi), List.getElem?_eq_none]
    split <;> simpa using hi

/-- the search for the start vertex -/
theorem findStart_ok {T : Topo} {l : List Nat} {d : BitVec 64} {dir : Bool} {w : List Nat} {v : Nat}
    (hg : ∀ k x, w[k]? = some x → T.faceVertexAt l d dir k = .ok (some x)) : ∀ (n i : Nat),
    n + i = w.length → T.findStart l d dir v n i =
      .ok (if v ∈ w.drop i then some (i + (w.drop i).idxOf v) else none) := by
  intro n
  induction n with
  | zero =>
    intro i hi
    rw [List.drop_eq_nil_of_le (by omega)]
    rfl
  | succ n ih =>
    intro i hi
    have hlt : i < w.length := by omega
    rw [show T.findStart l d dir v (n+1) i = (do
      let x ← T.faceVertexAt l d dir i
      if x = some v then pure (some i) else findStart T l d dir v n (i+1)) from rfl,
      hg i w[i] (List.getElem?_eq_getElem hlt), Res.bind_ok, List.drop_eq_getElem_cons hlt]
    by_cases hv : w[i] = v
    · rw [if_pos (by rw [hv]), if_pos (by simp [hv]), List.idxOf_cons, beq_iff_eq.2 hv]; rfl
    · rw [if_neg (by simpa using hv), ih (i+1) (by omega)]
      congr 1
      by_cases hm : v ∈ w.drop (i+1)
      · rw [if_pos hm, if_pos (List.mem_cons_of_mem _ hm), List.idxOf_cons, beq_false_of_ne hv]
        simp only [cond_false]
        congr 1
        omega
      · rw [if_neg hm, if_neg]
        intro hc
        rcases List.mem_cons.1 hc with hc | hc
        · exact hv hc.symm
        · exact hm hc

/-- What a loop says about the stored face. -/
theorem Loop.stored {T : Topo} {f : Nat} {vs : List Nat} (hf : (T.sf f).alloc) (h : T.Loop f vs) :
    ∃ l, T.fe f = some l ∧ T.mfEdges f true none = .ok l ∧ l.length = vs.length ∧
      ∀ (k v : Nat) (dir : Bool), (if dir then vs else vs.rotate 1)[k]? = some v →
        T.faceVertexAt l (T.fd f) dir k = .ok (some v) := by
  obtain ⟨es, h1, h2, h3⟩ := h
  have hl : T.fe f = some es := by
    cases hfe : T.fe f with
    | none => exact absurd h1 (mfEdges_none hfe _ _ _)
    | some l => rw [mfEdges_plain hf hfe] at h1; injection h1 with h1; rw [h1]
  refine ⟨es, hl, h1, h2, ?_⟩
  intro k v dir hv
  have hk : k < vs.length := by
    have := (List.getElem?_eq_some_iff.1 hv).1
    split at this
    · exact this
    · rwa [List.length_rotate] at this
  have hke : k < es.length := by omega
  obtain ⟨d, h4, h5, h6⟩ := h3 k es[k] (List.getElem?_eq_getElem hke)
  unfold mfEdgeDir_i at h4
  rw [derefF_ok hf, Res.bind_ok] at h4
  unfold faceVertexAt
  rw [List.getElem?_eq_getElem hke, Res.ofOption_some, Res.bind_ok, h4, Res.bind_ok]
  cases dir
  · rw [Bool.xor_false, h6]
    simp only [Bool.false_eq_true, if_false] at hv
    rw [List.getElem?_rotate hk] at hv
    rw [hv]
  · rw [Bool.xor_true, h5]
    simp only [if_true] at hv
    rw [hv]

theorem collect_map_some {g : Nat → Res (Option Nat)} {w : List Nat}
    (hg : ∀ k x, w[k]? = some x → g k = .ok (some x)) : ∀ k x, (w.map some)[k]? = some x → g k = .ok x := by
  intro k x hx
  rw [List.getElem?_map] at hx
  cases hw : w[k]? with
  | none => rw [hw] at hx; cases hx
  | some y => rw [hw] at hx; injection hx with hx; subst hx; exact hg k y hw

theorem getElem?_ofOption {l : List Nat} : ∀ (k : Nat) x, l[k]? = some x → Res.ofOption l[k]? = .ok x := by
  intro k x h; rw [h]; rfl

/-- position of the start vertex in the list that is searched -/
theorem rotate_one_idxOf {vs : List Nat} (hn : vs.Nodup) {k v : Nat} (hk : vs[k]? = some v) :
    (vs.rotate 1).idxOf v = (k + vs.length - 1) % vs.length := by
  have hlt := (List.getElem?_eq_some_iff.1 hk).1
  apply idxOf_eq_of_nodup (List.nodup_rotate.2 hn)
  rw [List.getElem?_rotate (Nat.mod_lt _ (by omega)), ← hk]
  congr 1
  rw [Nat.mod_add_mod, show k + vs.length - 1 + 1 = k + vs.length by omega, Nat.add_mod_right,
    Nat.mod_eq_of_lt hlt]

theorem rotate_add_mod {α : Type} {w : List α} {a b : Nat} (h : a % w.length = b % w.length) :
    w.rotate a = w.rotate b := by
  rw [← List.rotate_mod w a, h, List.rotate_mod]

end Topo
end MSTK
