import Verif.Props.RegionContents

/-!
C58: `MR_Edges` of a standard element gives its edges in the standard order; `MR_UsesVertex` and
`MR_UsesEdge` tell whether some face of the region has the vertex or the edge.

Specification: `stdEdges` (the edges of the standard elements: those of the base, those of the top, those
between) and, from C57, `IsElement`, `NoChord`, `ClosedSurface`.
-/
namespace MSTK
namespace Topo

/-! ### Specification -/

/-- The edges of the standard element on the vertices `vs`, as pairs of vertices: round the base, round
the top, then from the base to the top. -/
def stdEdges : List Nat → List (Nat × Nat)
  | [a,b,c,x] => [(a,b),(b,c),(c,a),(a,x),(b,x),(c,x)]
  | [a,b,c,d,x] => [(a,b),(b,c),(c,d),(d,a),(a,x),(b,x),(c,x),(d,x)]
  | [a,b,c,x,y,z] => [(a,b),(b,c),(c,a),(x,y),(y,z),(z,x),(a,x),(b,y),(c,z)]
  | [a,b,c,d,p,q,u,w] => [(a,b),(b,c),(c,d),(d,a),(p,q),(q,u),(u,w),(w,p),(a,p),(b,q),(c,u),(d,w)]
  | _ => []

/-- the edge `e` joins the two vertices -/
def JoinsPair (T : Topo) (e : Nat) (p : Nat × Nat) : Prop := T.EdgeHas e p.1 ∧ T.EdgeHas e p.2

/-- The numbers of vertices of the faces are those of a tetrahedron, a pyramid, a prism or a hexahedron. -/
def StandardSizes (ns : List Nat) : Prop :=
  ns = [3,3,3,3] ∨ ns.length = 5 ∧ (ns.count 3 = 4 ∧ ns.count 4 = 1 ∨ ns.count 3 = 2 ∧ ns.count 4 = 3) ∨
    ns = [4,4,4,4,4,4]

instance (ns : List Nat) : Decidable (StandardSizes ns) := by unfold StandardSizes; infer_instance

/-! ### the table of edges -/

theorem stdEdges_cover {vs c : List Nat} (hc : c ∈ stdCycles vs) {x y : Nat} (hp : (x, y) ∈ nextPairs c) :
    (x, y) ∈ stdEdges vs ∨ (y, x) ∈ stdEdges vs := by
  have key : ∀ c ∈ stdCycles vs, ∀ p ∈ nextPairs c, p ∈ stdEdges vs ∨ (p.2, p.1) ∈ stdEdges vs := by
    unfold stdCycles
    split
    all_goals
      simp only [List.forall_mem_cons, nextPairs, List.rotate_cons_succ, List.rotate_zero, List.cons_append,
        List.nil_append, List.zip_cons_cons, List.zip_nil_left, List.not_mem_nil, false_imp_iff, implies_true,
        and_true]
    all_goals
      simp [stdEdges]
  exact key c hc _ hp

theorem stdEdges_back {vs : List Nat} {x y : Nat} (hp : (x, y) ∈ stdEdges vs) :
    ∃ c ∈ stdCycles vs, (x, y) ∈ nextPairs c ∨ (y, x) ∈ nextPairs c := by
  unfold stdEdges at hp
  split at hp
  all_goals
    simp only [List.mem_cons, List.not_mem_nil, or_false, Prod.mk.injEq] at hp
  · rcases hp with ⟨rfl, rfl⟩ | ⟨rfl, rfl⟩ | ⟨rfl, rfl⟩ | ⟨rfl, rfl⟩ | ⟨rfl, rfl⟩ | ⟨rfl, rfl⟩ <;>
      simp [nextPairs, stdCycles]
  · rcases hp with ⟨rfl, rfl⟩ | ⟨rfl, rfl⟩ | ⟨rfl, rfl⟩ | ⟨rfl, rfl⟩ | ⟨rfl, rfl⟩ | ⟨rfl, rfl⟩ | ⟨rfl, rfl⟩ | ⟨rfl, rfl⟩ <;>
      simp [nextPairs, stdCycles]
  · rcases hp with ⟨rfl, rfl⟩ | ⟨rfl, rfl⟩ | ⟨rfl, rfl⟩ | ⟨rfl, rfl⟩ | ⟨rfl, rfl⟩ | ⟨rfl, rfl⟩ | ⟨rfl, rfl⟩ | ⟨rfl, rfl⟩ |
      ⟨rfl, rfl⟩ <;> simp [nextPairs, stdCycles]
  · rcases hp with ⟨rfl, rfl⟩ | ⟨rfl, rfl⟩ | ⟨rfl, rfl⟩ | ⟨rfl, rfl⟩ | ⟨rfl, rfl⟩ | ⟨rfl, rfl⟩ | ⟨rfl, rfl⟩ | ⟨rfl, rfl⟩ |
      ⟨rfl, rfl⟩ | ⟨rfl, rfl⟩ | ⟨rfl, rfl⟩ | ⟨rfl, rfl⟩ <;> simp [nextPairs, stdCycles]

theorem stdEdges_distinct {vs : List Nat} (hn : vs.Nodup) :
    (stdEdges vs).Pairwise fun p q => ¬ ((p.1 = q.1 ∧ p.2 = q.2) ∨ (p.1 = q.2 ∧ p.2 = q.1)) := by
  unfold stdEdges
  split
  · simp only [List.nodup_cons, List.mem_cons, List.not_mem_nil, or_false, not_or, List.nodup_nil, and_true,
      not_false_eq_true] at hn
    simp only [List.pairwise_cons, List.forall_mem_cons, List.Pairwise.nil, List.not_mem_nil, false_imp_iff,
      implies_true, and_true]
    grind
  · simp only [List.nodup_cons, List.mem_cons, List.not_mem_nil, or_false, not_or, List.nodup_nil, and_true,
      not_false_eq_true] at hn
    simp only [List.pairwise_cons, List.forall_mem_cons, List.Pairwise.nil, List.not_mem_nil, false_imp_iff,
      implies_true, and_true]
    grind
  · simp only [List.nodup_cons, List.mem_cons, List.not_mem_nil, or_false, not_or, List.nodup_nil, and_true,
      not_false_eq_true] at hn
    simp only [List.pairwise_cons, List.forall_mem_cons, List.Pairwise.nil, List.not_mem_nil, false_imp_iff,
      implies_true, and_true]
    grind
  · simp only [List.nodup_cons, List.mem_cons, List.not_mem_nil, or_false, not_or, List.nodup_nil, and_true,
      not_false_eq_true] at hn
    simp only [List.pairwise_cons, List.forall_mem_cons, List.Pairwise.nil, List.not_mem_nil, false_imp_iff,
      implies_true, and_true]
    grind
  · exact List.Pairwise.nil

/-- What follows for the list of edges. -/
theorem edges_facts {T : Topo} (h : T.Consistent) (hs : T.SimpleEdges) {r : Nat} {fs vs es : List Nat}
    (el : T.IsElement r vs) (e : T.Elt r fs vs) (hf : List.Forall₂ T.JoinsPair es (stdEdges vs)) :
    es.Nodup ∧ ∀ x, x ∈ es ↔ ∃ f, T.RegionHas r f ∧ T.FaceHas f x := by
  have hne : ∀ p ∈ stdEdges vs, p.1 ≠ p.2 := by
    rintro ⟨x, y⟩ hp
    obtain ⟨c, hc, hN⟩ := stdEdges_back hp
    obtain ⟨i, f, d, s⟩ := e.find c hc
    have h3 := std_three c hc
    rw [mem_nextPairs, mem_nextPairs] at hN
    rcases hN with hN | hN
    · exact hN.ne s.nodup (by omega)
    · exact (hN.ne s.nodup (by omega)).symm
  have hdist := stdEdges_distinct el.nodup
  constructor
  · rw [List.Nodup, List.pairwise_iff_getElem]
    intro i j hi hj hij heq
    have hi' : i < (stdEdges vs).length := by rw [← hf.length_eq]; exact hi
    have hj' : j < (stdEdges vs).length := by rw [← hf.length_eq]; exact hj
    have a : T.JoinsPair es[i] (stdEdges vs)[i] := hf.get hi hi'
    have b : T.JoinsPair es[j] (stdEdges vs)[j] := hf.get hj hj'
    have hd := List.pairwise_iff_getElem.1 hdist i j hi' hj' hij
    have ha := hne _ (List.getElem_mem hi')
    have hb := hne _ (List.getElem_mem hj')
    rw [heq] at a
    rcases edgeHas_two ha a b.1 with k1 | k1 <;> rcases edgeHas_two ha a b.2 with k2 | k2
    · exact hb (k1.trans k2.symm)
    · exact hd (Or.inl ⟨k1.symm, k2.symm⟩)
    · exact hd (Or.inr ⟨k2.symm, k1.symm⟩)
    · exact hb (k1.trans k2.symm)
  · intro x
    constructor
    · intro hx
      obtain ⟨i, hi, rfl⟩ := List.getElem_of_mem hx
      have hi' : i < (stdEdges vs).length := by rw [← hf.length_eq]; exact hi
      have a : T.JoinsPair es[i] (stdEdges vs)[i] := hf.get hi hi'
      obtain ⟨c, hc, hN⟩ := stdEdges_back (x := (stdEdges vs)[i].1) (y := (stdEdges vs)[i].2) (List.getElem_mem hi')
      obtain ⟨j, f, d, s⟩ := e.find c hc
      have h3 := std_three c hc
      refine ⟨f, (regionHas_iff h).2 ⟨el.live, by rw [e.rf]; exact List.mem_of_getElem? s.pos⟩,
        (s.faceHas h hs (by omega)).2 ?_⟩
      rw [mem_nextPairs, mem_nextPairs] at hN
      rcases hN with hN | hN
      · exact ⟨_, _, hN, a⟩
      · exact ⟨_, _, hN, a.2, a.1⟩
    · rintro ⟨f, hf', hx⟩
      obtain ⟨-, hm⟩ := (regionHas_iff h).1 hf'
      rw [e.rf, Option.getD_some] at hm
      obtain ⟨i, hi⟩ := List.mem_iff_getElem?.1 hm
      obtain ⟨c, hc, d, s⟩ := e.at_ i f hi
      have h3 := std_three c hc
      obtain ⟨p, q, hN, hb⟩ := (s.faceHas h hs (by omega)).1 hx
      have hpq := hN.ne s.nodup (by omega)
      have key : ∀ p q, p ≠ q → T.Between x p q → (p, q) ∈ stdEdges vs → x ∈ es := by
        intro p q hpq hb hm
        obtain ⟨k, hk, he⟩ := List.getElem_of_mem hm
        have hk' : k < es.length := by rw [hf.length_eq]; exact hk
        have a : T.JoinsPair es[k] (stdEdges vs)[k] := hf.get hk' hk
        rw [he] at a
        have := hs x es[k] p q hpq hb.1 hb.2 a.1 a.2
        exact this ▸ List.getElem_mem hk'
      rcases stdEdges_cover hc (mem_nextPairs.2 hN) with hm | hm
      · exact key p q hpq hb hm
      · exact key q p hpq.symm ⟨hb.2, hb.1⟩ hm

/-! ### steps of `MR_Edges` -/

theorem Together.nodup {T : Topo} {es ws : List Nat} (h : T.Together es ws) (hlive : ∀ e ∈ es, T.se e = .live)
    (hn : ws.Nodup) (h3 : 3 ≤ ws.length) : es.Nodup := by
  rw [List.Nodup, List.pairwise_iff_getElem]
  intro i j hi hj hij heq
  have hl := h.1
  have wi := List.getElem?_eq_getElem (l := ws) (i := i) (by omega)
  have wj := List.getElem?_eq_getElem (l := ws) (i := j) (by omega)
  have wi1 := List.getElem?_eq_getElem (l := ws) (i := (i+1) % ws.length) (Nat.mod_lt _ (by omega))
  have wj1 := List.getElem?_eq_getElem (l := ws) (i := (j+1) % ws.length) (Nat.mod_lt _ (by omega))
  have a := h.joins hlive (List.getElem?_eq_getElem hi) wi wi1
  have b := h.joins hlive (List.getElem?_eq_getElem hj) wj wj1
  rw [heq] at a
  have hi1 : (i+1) % ws.length = i + 1 := Nat.mod_eq_of_lt (by omega)
  have hj1 : (j+1) % ws.length = j + 1 ∧ j + 1 < ws.length ∨ (j+1) % ws.length = 0 ∧ j + 1 = ws.length := by
    by_cases hc : j + 1 < ws.length
    · exact Or.inl ⟨Nat.mod_eq_of_lt hc, hc⟩
    · have : j + 1 = ws.length := by omega
      exact Or.inr ⟨by rw [this, Nat.mod_self], this⟩
  have hne : ws[i] ≠ ws[(i+1) % ws.length] := fun hc => by
    have := (hn.getElem_inj_iff).1 hc
    omega
  rcases edgeHas_two hne a b.1 with k1 | k1 <;> rcases edgeHas_two hne a b.2 with k2 | k2 <;>
    (have k1 := (hn.getElem_inj_iff).1 k1; have k2 := (hn.getElem_inj_iff).1 k2; omega)

/-- the start of an edge of the base seen from inside -/
theorem Side.start {T : Topo} (h : T.Consistent) (hs : T.SimpleEdges) {r i f : Nat} {fs c : List Nat} {d : Bool}
    (s : T.Side r fs i f d c) (h3' : 3 ≤ c.length) {e x y : Nat} (hN : Next c x y) (hb : T.Between e x y) :
    T.botVertex f d e = .ok (some y) := by
  obtain ⟨ws, h1, hn, h3⟩ := s.loop
  have hxy := hN.ne s.nodup (by omega)
  obtain ⟨l, k1, k2, k3, -⟩ := h1.stored (alloc_of_live s.live)
  have hlive : ∀ e ∈ l, T.se e = .live := h.fedgesLive s.live k1
  obtain ⟨es', q1, q2, q3⟩ := id h1
  rw [k2] at q1; injection q1 with q1; subst q1
  have ht : T.Together l ws := ⟨q2, fun i e hi => by
    obtain ⟨d, a, b, c⟩ := q3 i e hi
    exact ⟨!d, b, by rw [Bool.not_not]; exact c⟩⟩
  have hln := ht.nodup hlive hn (by rw [← (h3.perm.trans (turned_perm d)).length_eq]; exact h3')
  have hw := next_of_rotated h3 hN
  have key : ∀ {a b : Nat}, Next ws a b → a ≠ b → T.Between e a b → ∃ d', T.mfEdgeDir f e = .ok d' ∧
      T.meVertex e (!d') = .ok (some a) ∧ T.meVertex e d' = .ok (some b) := by
    rintro a b ⟨k, hka, hkb⟩ hab hbe
    have hk := (List.getElem?_eq_some_iff.1 hka).1
    have hle := List.getElem?_eq_getElem (l := l) (i := k) (by omega)
    have hj := ht.joins hlive hle hka hkb
    have hee := hs l[k] e a b hab hj.1 hj.2 hbe.1 hbe.2
    rw [← hee] at hle
    obtain ⟨d', a1, a2, a3⟩ := q3 k e hle
    rw [hka] at a2
    rw [hkb] at a3
    refine ⟨d', ?_, a2, a3⟩
    have hm := List.mem_of_getElem? hle
    have hidx : l.idxOf e = k := (List.getElem?_inj (by rw [List.idxOf_lt_length_iff]; exact hm) hln).1
      ((idxOf_getElem? hm).trans hle.symm)
    unfold mfEdgeDir_i at a1
    rw [derefF_ok (alloc_of_live s.live), Res.bind_ok] at a1
    unfold mfEdgeDir
    rw [fedges_ok (alloc_of_live s.live) k1, Res.bind_ok, if_pos hm, hidx, a1]
  unfold botVertex
  cases d with
  | true =>
    obtain ⟨d', a1, a2, a3⟩ := key hw hxy hb
    rw [a1, Res.bind_ok, show (!(true ^^ d')) = d' by cases d' <;> rfl, a3]
  | false =>
    have hw := hw.reverse
    rw [show turned false ws = ws.reverse from rfl, List.reverse_reverse] at hw
    obtain ⟨d', a1, a2, a3⟩ := key hw hxy.symm ⟨hb.2, hb.1⟩
    rw [a1, Res.bind_ok, show (!(false ^^ d')) = (!d') by cases d' <;> rfl, a2]

theorem laterals_step {T : Topo} {stop : Bool} {f : Nat} {d : Bool} {e l : Nat} {b v : Option Nat}
    {rest : List (Nat × Option Nat)} {acc : List Nat} (h1 : T.botVertex f d e = .ok b)
    (h2 : T.commonEdgeE b v = .ok (some l)) :
    T.laterals stop f d ((e, v) :: rest) acc = T.laterals stop f d rest (acc ++ [l]) := by
  rw [show T.laterals stop f d ((e, v) :: rest) acc = (T.botVertex f d e >>= fun b => T.commonEdgeE b v >>= fun o =>
    match o with
    | some l => T.laterals stop f d rest (acc ++ [l])
    | none => if stop then pure acc else T.laterals stop f d rest acc) from rfl, h1, Res.bind_ok, h2]
  rfl

theorem findApex_one {T : Topo} {f v : Nat} {c : List Nat} (hu : ∀ x, T.mfUsesVertex f x = .ok (decide (x ∈ c)))
    (hv : v ∉ c) : ∀ {l : List Nat}, (∀ x ∈ l, x ∈ c ∨ x = v) → v ∈ l →
    T.findApex f (l.map some) = .ok (some v) := by
  intro l
  induction l with
  | nil => intro _ h; cases h
  | cons x l ih =>
    intro hl hm
    rw [List.map_cons, show T.findApex f (some x :: l.map some) = (T.mfUsesVertex f x >>= fun b =>
      if b then T.findApex f (l.map some) else pure (some x)) from rfl, hu, Res.bind_ok]
    by_cases hx : x ∈ c
    · rw [if_pos (by simpa using hx)]
      refine ih (fun y hy => hl y (by simp [hy])) ?_
      rcases List.mem_cons.1 hm with rfl | hm
      · exact absurd hx hv
      · exact hm
    · rw [if_neg (by simpa using hx)]
      rcases hl x (by simp) with h1 | h1
      · exact absurd h1 hx
      · rw [h1]; rfl

theorem together_three {T : Topo} {es : List Nat} {a b c : Nat} (h : T.Together es [a,b,c])
    (hl : ∀ e ∈ es, T.se e = .live) : ∃ e0 e1 e2, es = [e0,e1,e2] ∧ T.Between e0 a b ∧ T.Between e1 b c ∧
      T.Between e2 c a := by
  have hlen := h.1
  match es, hlen with
  | [e0,e1,e2], _ =>
    exact ⟨e0, e1, e2, rfl, h.joins hl (i := 0) rfl rfl rfl, h.joins hl (i := 1) rfl rfl rfl,
      h.joins hl (i := 2) rfl rfl (by simp)⟩

theorem Between.symm {T : Topo} {e x y : Nat} (h : T.Between e x y) : T.Between e y x := ⟨h.2, h.1⟩

theorem tetEdges_ok {T : Topo} (h : T.Consistent) (hl : T.AllLoops) (hs : T.SimpleEdges) {r : Nat} {fs vs : List Nat}
    (el : T.IsElement r vs) (hfs : T.rf r = some fs) (h4 : vs.length = 4) :
    ∃ ws es, T.tetEdges r fs = .ok es ∧ T.IsElement r ws ∧ ws.Perm vs ∧
      List.Forall₂ T.JoinsPair es (stdEdges ws) := by
  obtain ⟨fs', e⟩ := el.elt h hl
  have : fs' = fs := by have := e.rf.symm.trans hfs; injection this
  subst this
  have hlen : fs'.length = 4 := by
    rw [e.len]
    match vs, h4 with
    | [a,b,c,d], _ => rfl
  have h0 := List.getElem?_eq_getElem (l := fs') (i := 0) (by omega)
  obtain ⟨c0, hc0, d0, s0⟩ := e.at_ 0 _ h0
  have hc3 : c0.length = 3 := std_len4 h4 c0 hc0
  obtain ⟨ws, d, es, w1, w2, e', s, -, v2, v3, v4⟩ := el.base h hl hfs h0 s0.num (by rw [h4]; trivial)
  rw [hc3] at s v3
  have hw4 : ws.length = 4 := by rw [w2.length_eq, h4]
  match ws, hw4 with
  | [a,b,c,x], _ =>
    simp only [List.take, List.reverse_cons, List.reverse_nil, List.nil_append, List.cons_append] at s v3
    obtain ⟨e0, e1, e2, rfl, b0, b1, b2⟩ := together_three v3 (fun e he => faceHas_live h ((v4 e).1 he))
    have hn := w1.nodup
    have h1 := List.getElem?_eq_getElem (l := fs') (i := 1) (by omega)
    obtain ⟨c1, hc1, d1, s1⟩ := e'.at_ 1 _ h1
    have hne : c1 ≠ [a,c,b] := by
      rintro rfl
      have := e'.uniq [a,c,b] hc1 0 1 _ _ _ _ (s.rotate (c' := [a,c,b]) ⟨1, rfl⟩) s1
      omega
    have key : c1.length = 3 ∧ (∀ y ∈ c1, y ∈ [c,b,a] ∨ y = x) ∧ x ∈ c1 := by
      simp only [stdCycles, List.mem_cons, List.not_mem_nil, or_false] at hc1
      rcases hc1 with rfl | rfl | rfl | rfl
      · exact absurd rfl hne
      all_goals simp
    obtain ⟨c', -, l1, l2, -⟩ := s1.plain true
    have hp : c'.Perm c1 := l1.perm.trans flipTo_perm
    have hap := findApex_one (fun y => s.usesVertex h (by simp) y) (v := x) (l := c') (by
      intro hm
      simp only [List.nodup_cons, List.mem_cons, List.not_mem_nil, or_false, not_or] at hn hm
      rcases hm with rfl | rfl | rfl <;> simp_all) (fun y hy => key.2.1 y (hp.mem_iff.1 hy)) (hp.mem_iff.2 key.2.2)
    obtain ⟨m0, p0, p0'⟩ := e'.joined h (c := [a,b,x]) (by simp [stdCycles]) (x := a) (y := x) (by simp [nextPairs])
    obtain ⟨m1, p1, p1'⟩ := e'.joined h (c := [a,b,x]) (by simp [stdCycles]) (x := b) (y := x) (by simp [nextPairs])
    obtain ⟨m2, p2, p2'⟩ := e'.joined h (c := [b,c,x]) (by simp [stdCycles]) (x := c) (y := x) (by simp [nextPairs])
    have t0 := s.start h hs (by simp) (mem_nextPairs.1 (by simp [nextPairs])) b0.symm
    have t1 := s.start h hs (by simp) (mem_nextPairs.1 (by simp [nextPairs])) b1.symm
    have t2 := s.start h hs (by simp) (mem_nextPairs.1 (by simp [nextPairs])) b2.symm
    refine ⟨_, [e0,e1,e2,m0,m1,m2], ?_, w1, w2, ?_⟩
    · unfold tetEdges
      rw [sideAt_ok s, Res.bind_ok]
      dsimp only
      rw [v2, Res.bind_ok, h1, Res.ofOption_some, Res.bind_ok, l2, Res.bind_ok,
        entries3_map (by rw [hp.length_eq]; exact key.1), hap, Res.bind_ok]
      dsimp only
      rw [show List.map (fun e => (e, some x)) (List.take 3 [e0,e1,e2]) = [(e0, some x), (e1, some x), (e2, some x)] from rfl,
        laterals_step t0 p0, laterals_step t1 p1, laterals_step t2 p2]
      rfl
    · exact .cons b0 (.cons b1 (.cons b2 (.cons p0' (.cons p1' (.cons p2' .nil)))))

theorem pyramidEdges_ok {T : Topo} (h : T.Consistent) (hl : T.AllLoops) (hs : T.SimpleEdges) {r : Nat} {fs vs : List Nat}
    (el : T.IsElement r vs) (hfs : T.rf r = some fs) (h5 : vs.length = 5) :
    ∃ st ws es, T.findFaces fs 0 noneFound = .ok st ∧ st.nquads = 1 ∧ st.ntris = 4 ∧
      T.pyramidEdges r fs st = .ok es ∧ T.IsElement r ws ∧ ws.Perm vs ∧
      List.Forall₂ T.JoinsPair es (stdEdges ws) := by
  obtain ⟨fs', e⟩ := el.elt h hl
  have : fs' = fs := by have := e.rf.symm.trans hfs; injection this
  subst this
  obtain ⟨st, r1, nt, nq, ft, -, fq⟩ := e.found
  have counts : st.ntris = 4 ∧ st.nquads = 1 := by
    rw [nt, nq]
    match vs, h5 with
    | [a,b,c,d,x], _ => exact ⟨rfl, rfl⟩
  obtain ⟨i, f, q1, q2, q3⟩ := fq (by omega)
  obtain ⟨j, g, t1, t2, t3⟩ := ft (by omega)
  obtain ⟨ws, d, es, w1, w2, e', s, -, v2, v3, v4⟩ := el.base h hl hfs q2 q3 (by rw [h5]; rfl)
  have hw5 : ws.length = 5 := by rw [w2.length_eq, h5]
  match ws, hw5 with
  | [a,b,c,x,y], _ =>
    simp only [List.take, List.reverse_cons, List.reverse_nil, List.nil_append, List.cons_append] at s v3
    obtain ⟨e0, e1, e2, e3, rfl, b0, b1, b2, b3⟩ := together_four v3 (fun e he => faceHas_live h ((v4 e).1 he))
    have hn := w1.nodup
    obtain ⟨c1, hc1, d1, s1⟩ := e'.at_ j _ t2
    have h3 : c1.length = 3 := by have := s1.num.symm.trans t3; injection this
    have key : (∀ z ∈ c1, z ∈ [x,c,b,a] ∨ z = y) ∧ y ∈ c1 := by
      simp only [stdCycles, List.mem_cons, List.not_mem_nil, or_false] at hc1
      rcases hc1 with rfl | rfl | rfl | rfl | rfl
      · simp at h3
      all_goals simp
    obtain ⟨c', -, l1, l2, -⟩ := s1.plain true
    have hp : c'.Perm c1 := l1.perm.trans flipTo_perm
    have hap := findApex_one (fun y => s.usesVertex h (by simp) y) (v := y) (l := c') (by
      intro hm
      simp only [List.nodup_cons, List.mem_cons, List.not_mem_nil, or_false, not_or] at hn hm
      rcases hm with rfl | rfl | rfl | rfl <;> simp_all) (fun y hy => key.1 y (hp.mem_iff.1 hy)) (hp.mem_iff.2 key.2)
    obtain ⟨m0, p0, p0'⟩ := e'.joined h (c := [a,b,y]) (by simp [stdCycles]) (x := a) (y := y) (by simp [nextPairs])
    obtain ⟨m1, p1, p1'⟩ := e'.joined h (c := [a,b,y]) (by simp [stdCycles]) (x := b) (y := y) (by simp [nextPairs])
    obtain ⟨m2, p2, p2'⟩ := e'.joined h (c := [b,c,y]) (by simp [stdCycles]) (x := c) (y := y) (by simp [nextPairs])
    obtain ⟨m3, p3, p3'⟩ := e'.joined h (c := [c,x,y]) (by simp [stdCycles]) (x := x) (y := y) (by simp [nextPairs])
    have u0 := s.start h hs (by simp) (mem_nextPairs.1 (by simp [nextPairs])) b0.symm
    have u1 := s.start h hs (by simp) (mem_nextPairs.1 (by simp [nextPairs])) b1.symm
    have u2 := s.start h hs (by simp) (mem_nextPairs.1 (by simp [nextPairs])) b2.symm
    have u3 := s.start h hs (by simp) (mem_nextPairs.1 (by simp [nextPairs])) b3.symm
    refine ⟨st, _, [e0,e1,e2,e3,m0,m1,m2,m3], r1, counts.2, counts.1, ?_, w1, w2, ?_⟩
    · unfold pyramidEdges
      rw [q1, sideOf_ok s, Res.bind_ok]
      dsimp only
      rw [v2, Res.bind_ok, t1, Res.ofOption_some, Res.bind_ok, t2, Res.ofOption_some, Res.bind_ok, l2, Res.bind_ok,
        entries3_map (by rw [hp.length_eq]; exact h3), hap, Res.bind_ok,
        show List.map (fun e => (e, some y)) (List.take 4 [e0,e1,e2,e3]) =
          [(e0, some y), (e1, some y), (e2, some y), (e3, some y)] from rfl,
        laterals_step u0 p0, laterals_step u1 p1, laterals_step u2 p2, laterals_step u3 p3]
      rfl
    · exact .cons b0 (.cons b1 (.cons b2 (.cons b3 (.cons p0' (.cons p1' (.cons p2' (.cons p3' .nil)))))))

theorem mapIdx_two {α β : Type} {g : Nat → α → β} {x y : α} : [x,y].mapIdx g = [g 0 x, g 1 y] := by
  simp [List.mapIdx_cons]

theorem mapIdx_three {α β : Type} {g : Nat → α → β} {x y z : α} : [x,y,z].mapIdx g = [g 0 x, g 1 y, g 2 z] := by
  simp [List.mapIdx_cons]

theorem prismEdges_ok {T : Topo} (h : T.Consistent) (hl : T.AllLoops) (hs : T.SimpleEdges) {r : Nat} {fs vs : List Nat}
    (el : T.IsElement r vs) (hfs : T.rf r = some fs) (h6 : vs.length = 6) (hno : T.NoChord r vs) :
    ∃ st ws es, T.findFaces fs 0 noneFound = .ok st ∧ st.nquads = 3 ∧ st.ntris = 2 ∧
      T.prismEdges r fs st = .ok es ∧ T.IsElement r ws ∧ ws.Perm vs ∧
      List.Forall₂ T.JoinsPair es (stdEdges ws) := by
  obtain ⟨fs', e⟩ := el.elt h hl
  have : fs' = fs := by have := e.rf.symm.trans hfs; injection this
  subst this
  obtain ⟨st, r1, nt, nq, ft, ft1, -⟩ := e.found
  have counts : st.ntris = 2 ∧ st.nquads = 3 := by
    rw [nt, nq]
    match vs, h6 with
    | [a,b,c,d,x,y], _ => exact ⟨rfl, rfl⟩
  obtain ⟨i, f, q1, q2, q3⟩ := ft (by omega)
  obtain ⟨j, g, t1, t2, t3, hij⟩ := ft1 (by omega)
  obtain ⟨ws, d, es, w1, w2, e', s, -, v2, v3, v4⟩ := el.base h hl hfs q2 q3 (by rw [h6]; rfl)
  have hno := hno.perm w2
  have hw6 : ws.length = 6 := by rw [w2.length_eq, h6]
  match ws, hw6 with
  | [a,b,c,x,y,z], _ =>
    simp only [List.take, List.reverse_cons, List.reverse_nil, List.nil_append, List.cons_append] at v3 s
    obtain ⟨e0, e1, e2, rfl, b0, b1, b2⟩ := together_three v3 (fun e he => faceHas_live h ((v4 e).1 he))
    have hn := w1.nodup
    simp only [List.nodup_cons, List.mem_cons, List.not_mem_nil, or_false, not_or, List.nodup_nil, and_true,
      not_false_eq_true] at hn
    obtain ⟨c1, hc1, d1, s1⟩ := e'.at_ j _ t2
    have h3 : c1.length = 3 := by have := s1.num.symm.trans t3; injection this
    have hc1e : c1 = [x,y,z] := by
      have hm := hc1
      simp only [stdCycles, List.mem_cons, List.not_mem_nil, or_false] at hm
      rcases hm with rfl | rfl | rfl | rfl | rfl
      · have := e'.uniq _ hc1 i j _ _ _ _ (s.rotate ⟨1, rfl⟩) s1
        exact absurd (this ▸ q1) hij
      · rfl
      all_goals simp at h3
    subst hc1e
    have hal : T.sv a = .live := s.vlive h (by simp)
    obtain ⟨m0, p0, p0'⟩ := e'.joined h (c := [a,b,y,x]) (by simp [stdCycles]) (x := a) (y := x) (by simp [nextPairs])
    obtain ⟨m1, p1, p1'⟩ := e'.joined h (c := [a,b,y,x]) (by simp [stdCycles]) (x := b) (y := y) (by simp [nextPairs])
    obtain ⟨m2, p2, p2'⟩ := e'.joined h (c := [b,c,z,y]) (by simp [stdCycles]) (x := c) (y := z) (by simp [nextPairs])
    have ny : T.commonEdgeE (some a) (some y) = .ok none := e'.apart h hs hno (by simp) (by simp) (by simp [hn]) hal
      (by simp only [stdCycles, List.forall_mem_cons]; simp [nextPairs]; grind)
    have nz : T.commonEdgeE (some a) (some z) = .ok none := e'.apart h hs hno (by simp) (by simp) (by simp [hn]) hal
      (by simp only [stdCycles, List.forall_mem_cons]; simp [nextPairs]; grind)
    have u0 := s.start h hs (by simp) (mem_nextPairs.1 (by simp [nextPairs])) b0.symm
    have u1 := s.start h hs (by simp) (mem_nextPairs.1 (by simp [nextPairs])) b1.symm
    have u2 := s.start h hs (by simp) (mem_nextPairs.1 (by simp [nextPairs])) b2.symm
    obtain ⟨l, -, l1, l2, -⟩ := s1.plain d1
    rw [flipTo_self] at l1
    obtain ⟨te, -, n2, n3, n4⟩ := s1.from (b := d1) (c' := [x,y,z]) (v := x) (by rw [flipTo_self]) rfl
    obtain ⟨g0, g1, g2, rfl, k0, k1, k2⟩ := together_three n3 (fun e he => faceHas_live h ((n4 e).1 he))
    refine ⟨st, _, [e0,e1,e2,g0,g1,g2,m0,m1,m2], r1, counts.2, counts.1, ?_, w1, w2, ?_⟩
    · unfold prismEdges
      rw [q1, sideOf_ok s, Res.bind_ok]
      dsimp only
      rw [v2, Res.bind_ok, t1, sideOf_ok s1, Res.bind_ok]
      unfold towerEdges
      dsimp only
      rw [show [e0,e1,e2][0]? = some e0 from rfl, Res.ofOption_some, Res.bind_ok, u0, Res.bind_ok, l2, Res.bind_ok]
      have fin : T.laterals true f d [(e1, some y), (e2, some z)] ([e0,e1,e2] ++ [g0,g1,g2] ++ [m0]) =
          .ok [e0,e1,e2,g0,g1,g2,m0,m1,m2] := by
        rw [laterals_step u1 p1, laterals_step u2 p2]
        rfl
      rcases rotated3 l1 with rfl | rfl | rfl
      · rw [findJoined_here (e := m0) (by exact p0), Res.bind_ok]
        dsimp only
        rw [show entry (List.map some [x,y,z]) 0 = some x from rfl, n2, Res.bind_ok]
        rw [show List.drop 1 (List.take 3 [e0,e1,e2]) = [e1,e2] from rfl, mapIdx_two]
        exact fin
      · rw [findJoined_skip (by exact ny), findJoined_skip (by exact nz), findJoined_here (e := m0) (by exact p0),
          Res.bind_ok]
        dsimp only
        rw [show entry (List.map some [y,z,x]) (0+1+1) = some x from rfl, n2, Res.bind_ok]
        rw [show List.drop 1 (List.take 3 [e0,e1,e2]) = [e1,e2] from rfl, mapIdx_two]
        exact fin
      · rw [findJoined_skip (by exact nz), findJoined_here (e := m0) (by exact p0), Res.bind_ok]
        dsimp only
        rw [show entry (List.map some [z,x,y]) (0+1) = some x from rfl, n2, Res.bind_ok]
        rw [show List.drop 1 (List.take 3 [e0,e1,e2]) = [e1,e2] from rfl, mapIdx_two]
        exact fin
    · exact .cons b0 (.cons b1 (.cons b2 (.cons k0 (.cons k1 (.cons k2 (.cons p0' (.cons p1' (.cons p2' .nil))))))))

theorem usesNone_ok {T : Topo} {f : Nat} (hf : T.sf f = .live) {l : List Nat} (hl : T.fe f = some l) :
    ∀ es : List Nat, T.usesNone f es = .ok (decide (∀ e ∈ es, e ∉ l)) := by
  intro es
  induction es with
  | nil => simp [usesNone]
  | cons e es ih =>
    rw [show T.usesNone f (e :: es) = (T.mfUsesEdge f e >>= fun b => if b then pure false else T.usesNone f es) from rfl]
    unfold mfUsesEdge
    rw [fedges_ok (alloc_of_live hf) hl, Res.bind_ok, Res.pure_eq, Res.bind_ok]
    by_cases hm : e ∈ l
    · rw [if_pos (by simpa using hm)]
      simp [hm]
    · rw [if_neg (by simpa using hm), ih]
      simp [hm]

theorem findTop_ok {T : Topo} {bot fO iO : Nat} : ∀ (fs : List Nat) (k : Nat),
    (∀ (j f : Nat), fs[j]? = some f → ∃ es b, T.mfEdges f true none = .ok es ∧ T.usesNone bot (es.take 4) = .ok b ∧
      (b = true → f = fO ∧ k + j = iO)) →
    (∃ f ∈ fs, ∃ es, T.mfEdges f true none = .ok es ∧ T.usesNone bot (es.take 4) = .ok true) →
    T.findTop bot fs k = .ok (some (fO, iO)) := by
  intro fs
  induction fs with
  | nil => rintro k - ⟨f, hf, -⟩; cases hf
  | cons g fs ih =>
    intro k hall hex
    obtain ⟨es, b, h1, h2, h3⟩ := hall 0 g rfl
    rw [show T.findTop bot (g :: fs) k = (T.mfEdges g true none >>= fun es => T.usesNone bot (es.take 4) >>= fun b =>
      if b then pure (some (g, k)) else T.findTop bot fs (k+1)) from rfl, h1, Res.bind_ok, h2, Res.bind_ok]
    cases b with
    | true =>
      obtain ⟨rfl, rfl⟩ := h3 rfl
      rfl
    | false =>
      rw [if_neg (by simp)]
      refine ih (k+1) ?_ ?_
      · intro j f hj
        obtain ⟨es, b, k1, k2, k3⟩ := hall (j+1) f (by simpa using hj)
        exact ⟨es, b, k1, k2, fun hb => ⟨(k3 hb).1, by have := (k3 hb).2; omega⟩⟩
      · obtain ⟨f, hf, es', k1, k2⟩ := hex
        rcases List.mem_cons.1 hf with rfl | hf
        · rw [h1] at k1; injection k1 with k1; subst k1
          rw [h2] at k2; cases k2
        · exact ⟨f, hf, es', k1, k2⟩

theorem hexTop {T : Topo} (h : T.Consistent) (hs : T.SimpleEdges) {r f0 : Nat} {fs : List Nat} {d0 : Bool}
    {a b c d p q u w e0 e1 e2 e3 : Nat} (E : T.Elt r fs [a,b,c,d,p,q,u,w]) (hn : [a,b,c,d,p,q,u,w].Nodup)
    (s : T.Side r fs 0 f0 d0 [d,c,b,a]) (b0 : T.Between e0 a b) (b1 : T.Between e1 b c) (b2 : T.Between e2 c d)
    (b3 : T.Between e3 d a) (v4 : ∀ e, e ∈ [e0,e1,e2,e3] ↔ T.FaceHas f0 e) :
    ∃ iO fO dO, T.Side r fs iO fO dO [p,q,u,w] ∧ T.findTop f0 (fs.drop 1) 1 = .ok (some (fO, iO)) := by
  simp only [List.nodup_cons, List.mem_cons, List.not_mem_nil, or_false, not_or, List.nodup_nil, and_true,
    not_false_eq_true] at hn
  obtain ⟨iO, fO, dO, sO⟩ := E.find [p,q,u,w] (by simp [stdCycles])
  have base : T.Side r fs 0 f0 d0 [a,d,c,b] := s.rotate ⟨1, rfl⟩
  have iO0 : iO ≠ 0 := by
    rintro rfl
    have := E.same [p,q,u,w] (by simp [stdCycles]) [a,d,c,b] (by simp [stdCycles]) 0 _ _ _ _ sO base
    simp at this
    simp [this] at hn
  obtain ⟨ws0, hw0, -⟩ := s.loop
  obtain ⟨l0, k1, -⟩ := hw0.stored (alloc_of_live s.live)
  have hfi : ∀ e, T.FaceHas f0 e ↔ e ∈ l0 := fun e => faceHas_iff s.live k1
  have htop : T.findTop f0 (fs.drop 1) 1 = .ok (some (fO, iO)) := by
    have step : ∀ (k f : Nat) (x : List Nat) (dd : Bool), x ∈ stdCycles [a,b,c,d,p,q,u,w] → T.Side r fs k f dd x →
        ∃ es, T.mfEdges f true none = .ok es ∧ T.usesNone f0 (es.take 4) = .ok (decide (∀ e ∈ es, e ∉ l0)) ∧
          ∀ e, e ∈ es ↔ T.FaceHas f e := by
      intro k f x dd hx s'
      obtain ⟨c', es, z1, z2, z3, z4, z5⟩ := s'.plain true
      refine ⟨es, z3, ?_, z5⟩
      have h4 := std_len8 (by simp) x hx
      have : es.length = 4 := by rw [z4.1, z1.perm.length_eq, flipTo_perm.length_eq, h4]
      rw [List.take_of_length_le (by omega), usesNone_ok s.live k1]
    refine findTop_ok _ _ ?_ ?_
    · intro k f hk
      rw [List.getElem?_drop] at hk
      obtain ⟨x, hx, dd, s'⟩ := E.at_ _ _ hk
      obtain ⟨es, z1, z2, z3⟩ := step _ _ _ _ hx s'
      refine ⟨es, _, z1, z2, ?_⟩
      intro hb
      have hb : ∀ e ∈ es, e ∉ l0 := by simpa using hb
      have no : ∀ {e' x1 y1 : Nat}, T.Between e' x1 y1 → T.FaceHas f0 e' → Next x x1 y1 ∨ Next x y1 x1 → False := by
        intro e' x1 y1 hbe hf0 hN
        refine hb e' ((z3 e').2 ((s'.faceHas h hs (by have := std_three x hx; omega)).2 ?_)) ((hfi e').1 hf0)
        rcases hN with hN | hN
        · exact ⟨_, _, hN, hbe⟩
        · exact ⟨_, _, hN, hbe.symm⟩
      have g0 := (v4 e0).1 (by simp)
      have g1 := (v4 e1).1 (by simp)
      have g2 := (v4 e2).1 (by simp)
      have g3 := (v4 e3).1 (by simp)
      have hx' := hx
      simp only [stdCycles, List.mem_cons, List.not_mem_nil, or_false] at hx'
      rcases hx' with rfl | rfl | rfl | rfl | rfl | rfl
      · exact absurd (no b0 g0 (Or.inr (mem_nextPairs.1 (by simp [nextPairs])))) id
      · have := E.uniq _ hx _ _ _ _ _ _ s' sO
        subst this
        have := s'.unique sO
        exact ⟨(Prod.mk.inj this).1, rfl⟩
      · exact absurd (no b0 g0 (Or.inl (mem_nextPairs.1 (by simp [nextPairs])))) id
      · exact absurd (no b1 g1 (Or.inl (mem_nextPairs.1 (by simp [nextPairs])))) id
      · exact absurd (no b2 g2 (Or.inl (mem_nextPairs.1 (by simp [nextPairs])))) id
      · exact absurd (no b3 g3 (Or.inl (mem_nextPairs.1 (by simp [nextPairs])))) id
    · obtain ⟨es, z1, z2, z3⟩ := step _ _ _ _ (by simp [stdCycles]) sO
      refine ⟨fO, ?_, es, z1, ?_⟩
      · rw [List.mem_iff_getElem?]
        refine ⟨iO - 1, ?_⟩
        rw [List.getElem?_drop, show 1 + (iO - 1) = iO by omega]
        exact sO.pos
      · rw [z2, decide_eq_true]
        intro e' he' hel
        obtain ⟨x1, y1, hN, hbe⟩ := (sO.faceHas h hs (by simp)).1 ((z3 e').1 he')
        obtain ⟨x2, y2, hN2, hbe2⟩ := (s.faceHas h hs (by simp)).1 ((hfi e').2 hel)
        have hne := hN.ne sO.nodup (by simp)
        have hm := edgeHas_two hne hbe hbe2.1
        have m2 := (mem_nextPairs.2 hN2)
        have m1 := (mem_nextPairs.2 hN)
        simp [nextPairs] at m1 m2
        grind
  exact ⟨iO, fO, dO, sO, htop⟩

theorem hexEdges_ok {T : Topo} (h : T.Consistent) (hl : T.AllLoops) (hs : T.SimpleEdges) {r : Nat} {fs vs : List Nat}
    (el : T.IsElement r vs) (hfs : T.rf r = some fs) (h8 : vs.length = 8) (hno : T.NoChord r vs) :
    ∃ ws es, T.hexEdges r fs = .ok es ∧ T.IsElement r ws ∧ ws.Perm vs ∧
      List.Forall₂ T.JoinsPair es (stdEdges ws) := by
  obtain ⟨fs', e⟩ := el.elt h hl
  have : fs' = fs := by have := e.rf.symm.trans hfs; injection this
  subst this
  have hlen : fs'.length = 6 := by
    rw [e.len]
    match vs, h8 with
    | [a,b,c,d,p,q,u,w], _ => rfl
  have h0 := List.getElem?_eq_getElem (l := fs') (i := 0) (by omega)
  obtain ⟨c0, hc0, d0, s0⟩ := e.at_ 0 _ h0
  have hc4 : c0.length = 4 := std_len8 h8 c0 hc0
  obtain ⟨ws, d0', es0, w1, w2, e', s, -, v2, v3, v4⟩ := el.base h hl hfs h0 s0.num (by rw [h8]; trivial)
  rw [hc4] at s v3
  have hno := hno.perm w2
  have hw8 : ws.length = 8 := by rw [w2.length_eq, h8]
  generalize fs'[0] = f0 at *
  match ws, hw8 with
  | [a,b,c,d,p,q,u,w], _ =>
    simp only [List.take, List.reverse_cons, List.reverse_nil, List.nil_append, List.cons_append] at s v3
    obtain ⟨e0, e1, e2, e3, rfl, b0, b1, b2, b3⟩ := together_four v3 (fun e he => faceHas_live h ((v4 e).1 he))
    have hn := w1.nodup
    simp only [List.nodup_cons, List.mem_cons, List.not_mem_nil, or_false, not_or, List.nodup_nil, and_true,
      not_false_eq_true] at hn
    obtain ⟨iO, fO, dO, sO, htop⟩ := hexTop h hs e' w1.nodup s b0 b1 b2 b3 v4
    have hal : T.sv a = .live := s.vlive h (by simp)
    obtain ⟨m0, p0, p0'⟩ := e'.joined h (c := [a,b,q,p]) (by simp [stdCycles]) (x := a) (y := p) (by simp [nextPairs])
    obtain ⟨m1, p1, p1'⟩ := e'.joined h (c := [a,b,q,p]) (by simp [stdCycles]) (x := b) (y := q) (by simp [nextPairs])
    obtain ⟨m2, p2, p2'⟩ := e'.joined h (c := [b,c,u,q]) (by simp [stdCycles]) (x := c) (y := u) (by simp [nextPairs])
    obtain ⟨m3, p3, p3'⟩ := e'.joined h (c := [c,d,w,u]) (by simp [stdCycles]) (x := d) (y := w) (by simp [nextPairs])
    have nq : T.commonEdgeE (some a) (some q) = .ok none := e'.apart h hs hno (by simp) (by simp) (by simp [hn]) hal
      (by simp only [stdCycles, List.forall_mem_cons]; simp [nextPairs]; grind)
    have nu : T.commonEdgeE (some a) (some u) = .ok none := e'.apart h hs hno (by simp) (by simp) (by simp [hn]) hal
      (by simp only [stdCycles, List.forall_mem_cons]; simp [nextPairs]; grind)
    have nw : T.commonEdgeE (some a) (some w) = .ok none := e'.apart h hs hno (by simp) (by simp) (by simp [hn]) hal
      (by simp only [stdCycles, List.forall_mem_cons]; simp [nextPairs]; grind)
    have u0 := s.start h hs (by simp) (mem_nextPairs.1 (by simp [nextPairs])) b0.symm
    have u1 := s.start h hs (by simp) (mem_nextPairs.1 (by simp [nextPairs])) b1.symm
    have u2 := s.start h hs (by simp) (mem_nextPairs.1 (by simp [nextPairs])) b2.symm
    have u3 := s.start h hs (by simp) (mem_nextPairs.1 (by simp [nextPairs])) b3.symm
    obtain ⟨l, -, l1, l2, -⟩ := sO.plain dO
    rw [flipTo_self] at l1
    obtain ⟨te, -, n2, n3, n4⟩ := sO.from (b := dO) (c' := [p,q,u,w]) (v := p) (by rw [flipTo_self]) rfl
    obtain ⟨g0, g1, g2, g3, rfl, k0, k1, k2, k3⟩ := together_four n3 (fun e he => faceHas_live h ((n4 e).1 he))
    refine ⟨_, [e0,e1,e2,e3,g0,g1,g2,g3,m0,m1,m2,m3], ?_, w1, w2, ?_⟩
    · unfold hexEdges
      rw [sideAt_ok s, Res.bind_ok]
      dsimp only
      rw [v2, Res.bind_ok, htop, Res.bind_ok]
      dsimp only
      rw [sO.dir, Res.bind_ok]
      unfold towerEdges
      dsimp only
      rw [show [e0,e1,e2,e3][0]? = some e0 from rfl, Res.ofOption_some, Res.bind_ok, u0, Res.bind_ok, l2, Res.bind_ok]
      have fin : T.laterals true f0 d0' [(e1, some q), (e2, some u), (e3, some w)]
          ([e0,e1,e2,e3] ++ [g0,g1,g2,g3] ++ [m0]) = .ok [e0,e1,e2,e3,g0,g1,g2,g3,m0,m1,m2,m3] := by
        rw [laterals_step u1 p1, laterals_step u2 p2, laterals_step u3 p3]
        rfl
      rcases rotated4 l1 with rfl | rfl | rfl | rfl
      · rw [findJoined_here (e := m0) (by exact p0), Res.bind_ok]
        dsimp only
        rw [show entry (List.map some [p,q,u,w]) 0 = some p from rfl, n2, Res.bind_ok]
        rw [show List.drop 1 (List.take 4 [e0,e1,e2,e3]) = [e1,e2,e3] from rfl, mapIdx_three]
        exact fin
      · rw [findJoined_skip (by exact nq), findJoined_skip (by exact nu), findJoined_skip (by exact nw),
          findJoined_here (e := m0) (by exact p0), Res.bind_ok]
        dsimp only
        rw [show entry (List.map some [q,u,w,p]) (0+1+1+1) = some p from rfl, n2, Res.bind_ok]
        rw [show List.drop 1 (List.take 4 [e0,e1,e2,e3]) = [e1,e2,e3] from rfl, mapIdx_three]
        exact fin
      · rw [findJoined_skip (by exact nu), findJoined_skip (by exact nw),
          findJoined_here (e := m0) (by exact p0), Res.bind_ok]
        dsimp only
        rw [show entry (List.map some [u,w,p,q]) (0+1+1) = some p from rfl, n2, Res.bind_ok]
        rw [show List.drop 1 (List.take 4 [e0,e1,e2,e3]) = [e1,e2,e3] from rfl, mapIdx_three]
        exact fin
      · rw [findJoined_skip (by exact nw), findJoined_here (e := m0) (by exact p0), Res.bind_ok]
        dsimp only
        rw [show entry (List.map some [w,p,q,u]) (0+1) = some p from rfl, n2, Res.bind_ok]
        rw [show List.drop 1 (List.take 4 [e0,e1,e2,e3]) = [e1,e2,e3] from rfl, mapIdx_three]
        exact fin
    · exact .cons b0 (.cons b1 (.cons b2 (.cons b3 (.cons k0 (.cons k1 (.cons k2 (.cons k3 (.cons p0' (.cons p1'
        (.cons p2' (.cons p3' .nil)))))))))))

/-! ### the choice between the elements -/

theorem faceSizes_region {T : Topo} (h : T.Consistent) (hl : T.AllLoops) {r : Nat} {fs : List Nat} (hr : T.sr r = .live)
    (hfs : T.rf r = some fs) : T.faceSizes fs = .ok (fs.map fun f => ((T.fe f).getD []).length) ∧
      ∀ f ∈ fs, T.mfNumVertices f = .ok ((T.fe f).getD []).length := by
  have key : ∀ f ∈ fs, (T.sf f).alloc ∧ ∃ l, T.fe f = some l := by
    intro f hf
    have hlive := h.rfacesLive hr (f := f) (by rw [hfs]; exact hf)
    obtain ⟨ws, hw, -⟩ := hl f hlive
    obtain ⟨l, k1, -⟩ := hw.stored (alloc_of_live hlive)
    exact ⟨alloc_of_live hlive, l, k1⟩
  refine ⟨faceSizes_ok T fs key, ?_⟩
  intro f hf
  obtain ⟨ha, l, hl⟩ := key f hf
  unfold mfNumVertices
  rw [fedges_ok ha hl, Res.bind_ok, hl]
  rfl

theorem sizes_all {ns : List Nat} {n k : Nat} (hp : ns.Perm (List.replicate k n)) : allOfSize n ns = true := by
  rw [allOfSize_iff, List.perm_replicate.1 hp, List.length_replicate]

theorem moreEdges_ok {T : Topo} (h : T.Consistent) (hl : T.AllLoops) : ∀ (fs : List Nat) (acc : List Nat),
    (∀ f ∈ fs, T.sf f = .live) → acc.Nodup →
    ∃ es : List Nat, T.moreEdges fs acc = .ok es ∧ es.Nodup ∧ ∀ e, e ∈ es ↔ e ∈ acc ∨ ∃ f ∈ fs, T.FaceHas f e := by
  intro fs
  induction fs with
  | nil => intro acc _ hn; exact ⟨acc, rfl, hn, by simp⟩
  | cons f fs ih =>
    intro acc hf hn
    obtain ⟨c, es, -, a1, -, -, a4, -⟩ := face_plain h hl (hf f (by simp)) true
    obtain ⟨ws, b1, b2, b3⟩ := ih (addMissing acc es) (fun g hg => hf g (by simp [hg])) (nodup_addMissing hn)
    refine ⟨ws, ?_, b2, ?_⟩
    · unfold moreEdges
      rw [a1, Res.bind_ok, b1]
    · intro v
      rw [b3, mem_addMissing, a4]
      simp only [List.mem_cons, exists_eq_or_imp]
      tauto

theorem polyEdges_ok {T : Topo} (h : T.Consistent) (hl : T.AllLoops) {r : Nat} {fs : List Nat} (hr : T.sr r = .live)
    (hfs : T.rf r = some fs) (h0 : fs ≠ []) (h3 : ∀ f ∈ fs, 3 ≤ ((T.fe f).getD []).length) (hc : T.ClosedSurface r) :
    ∃ es : List Nat, T.polyEdges r fs = .ok es ∧ es.Nodup ∧
      ∀ e, e ∈ es ↔ ∃ f, T.RegionHas r f ∧ T.FaceHas f e := by
  obtain ⟨f0, d0, a1, a2, a0, a3⟩ := faces_split h hr hfs h0
  obtain ⟨c, es, b1, b2, b3, bt, bm, b4⟩ := face_plain h hl a2 (!d0)
  have hlen : 3 ≤ c.length := by
    obtain ⟨-, hnum⟩ := faceSizes_region h hl hr hfs
    obtain ⟨ws, hw, -⟩ := hl f0 a2
    obtain ⟨l, k1, k2, k3, -⟩ := hw.stored (alloc_of_live a2)
    have := h3 f0 a0
    rw [k1, Option.getD_some] at this
    rw [C23_edges a2 hw k2 (!d0)] at b2
    injection b2 with b2
    rw [← bt.1, ← b2]
    split
    · exact this
    · rw [List.length_reverse]; exact this
  have hnd := bt.nodup (fun e he => faceHas_live h ((bm e).1 he)) b3 hlen
  have hsub : ∀ f ∈ fs.dropLast.drop 1, f ∈ fs := fun f hf =>
    (List.dropLast_subset fs) (List.mem_of_mem_drop hf)
  obtain ⟨ws, c1, c2, c3⟩ := moreEdges_ok h hl (fs.dropLast.drop 1) es
    (fun f hf => h.rfacesLive hr (by rw [hfs]; exact hsub f hf)) hnd
  refine ⟨ws, ?_, c2, ?_⟩
  · unfold polyEdges
    rw [a1, Res.bind_ok]
    dsimp only
    rw [b2, Res.bind_ok, c1]
  · intro e
    have hin : ∀ f, T.RegionHas r f ↔ f ∈ fs := fun f => by rw [regionHas_iff h, hfs]; exact ⟨fun k => k.2, fun k => ⟨hr, k⟩⟩
    rw [c3, bm]
    constructor
    · rintro (hv | ⟨f, hf, hv⟩)
      · exact ⟨f0, (hin f0).2 a0, hv⟩
      · exact ⟨f, (hin f).2 (hsub f hf), hv⟩
    · rintro ⟨f, hf, he⟩
      have first : ∀ g ∈ fs, T.FaceHas g e → g ≠ fs.getLast h0 →
          T.FaceHas f0 e ∨ ∃ f ∈ fs.dropLast.drop 1, T.FaceHas f e := by
        intro g hg hge hgl
        rcases a3 g hg with rfl | hg | hg
        · exact Or.inl hge
        · exact Or.inr ⟨g, hg, hge⟩
        · exact absurd hg hgl
      by_cases hfl : f = fs.getLast h0
      · obtain ⟨g, g1, g2, g3⟩ := hc f e hf he
        exact first g ((hin g).1 g2) g3 (hfl ▸ g1)
      · exact first f ((hin f).1 hf) he hfl

theorem anyFaceUses_ok {T : Topo} {g : Nat → Res Bool} {P : Nat → Prop} : ∀ {fs : List Nat},
    (∀ f ∈ fs, ∃ b, g f = .ok b ∧ (b = true ↔ P f)) →
    ∃ b, T.anyFaceUses g fs = .ok b ∧ (b = true ↔ ∃ f ∈ fs, P f) := by
  intro fs
  induction fs with
  | nil => intro _; exact ⟨false, rfl, by simp⟩
  | cons f fs ih =>
    intro h
    obtain ⟨b, h1, h2⟩ := h f (by simp)
    obtain ⟨b', h3, h4⟩ := ih (fun x hx => h x (by simp [hx]))
    rw [show T.anyFaceUses g (f :: fs) = (g f >>= fun b => if b then pure true else T.anyFaceUses g fs) from rfl, h1,
      Res.bind_ok]
    cases b with
    | true => exact ⟨true, rfl, by simp [h2.1 rfl]⟩
    | false =>
      refine ⟨b', by rw [if_neg (by simp)]; exact h3, ?_⟩
      rw [h4]
      have : ¬ P f := fun hp => by have := h2.2 hp; cases this
      simp [this]

/-! ### The theorems -/

/-- **C58, standard elements.**  For a region that is a standard element `MR_Edges` gives all edges of
its faces, each once, in the standard order: there is a standard numbering of the vertices of the element
such that the edges answered join, in turn, the pairs of `stdEdges`: first those round the base, then
those round the top, then those from base to top.  The stored element type is not needed.  (For prisms and
hexahedra the mesh must have no edge across; `C58_negation_diagonal`.) -/
theorem C58_standard {T : Topo} (h : T.Consistent) (hl : T.AllLoops) (hs : T.SimpleEdges) {r : Nat} {vs : List Nat}
    (el : T.IsElement r vs) (hno : vs.length = 6 ∨ vs.length = 8 → T.NoChord r vs) :
    ∃ ws es : List Nat, T.mrEdges r = .ok es ∧ T.IsElement r ws ∧ ws.Perm vs ∧
      List.Forall₂ T.JoinsPair es (stdEdges ws) ∧ es.Nodup ∧
      ∀ e, e ∈ es ↔ ∃ f, T.RegionHas r f ∧ T.FaceHas f e := by
  obtain ⟨fs, E⟩ := el.elt h hl
  have hfs := E.rf
  obtain ⟨hsz, -⟩ := faceSizes_region h hl el.live hfs
  suffices hmain : ∃ ws es : List Nat, T.mrEdges r = .ok es ∧ T.IsElement r ws ∧ ws.Perm vs ∧
      List.Forall₂ T.JoinsPair es (stdEdges ws) by
    obtain ⟨ws, es, h1, h2, h3, h4⟩ := hmain
    obtain ⟨fs', E'⟩ := h2.elt h hl
    obtain ⟨h5, h6⟩ := edges_facts h hs h2 E' h4
    exact ⟨ws, es, h1, h2, h3, h4, h5, h6⟩
  unfold mrEdges
  rw [rfaces_ok (alloc_of_live el.live) hfs, Res.bind_ok]
  have hsizes := E.sizes
  have hflen := E.len
  rcases el.size with k | k | k | k
  · obtain ⟨ws, es, h1, h2, h3, h4⟩ := tetEdges_ok h hl hs el hfs k
    refine ⟨ws, es, ?_, h2, h3, h4⟩
    have hr : (stdCycles vs).length = 4 ∧ (stdCycles vs).map List.length = List.replicate 4 3 := by
      match vs, k with
      | [a,b,c,d], _ => exact ⟨rfl, rfl⟩
    rw [hflen, hr.1]
    rw [hsz, Res.bind_ok, if_pos (sizes_all (hr.2 ▸ hsizes)), h1]
    rfl
  · obtain ⟨st, ws, es, h5, h6, h7, h1, h2, h3, h4⟩ := pyramidEdges_ok h hl hs el hfs k
    refine ⟨ws, es, ?_, h2, h3, h4⟩
    have hr : (stdCycles vs).length = 5 := by
      match vs, k with
      | [a,b,c,d,x], _ => rfl
    rw [hflen, hr]
    rw [h5, Res.bind_ok, if_neg (by omega), if_pos ⟨h6, h7⟩, h1]
    rfl
  · obtain ⟨st, ws, es, h5, h6, h7, h1, h2, h3, h4⟩ := prismEdges_ok h hl hs el hfs k (hno (Or.inl k))
    refine ⟨ws, es, ?_, h2, h3, h4⟩
    have hr : (stdCycles vs).length = 5 := by
      match vs, k with
      | [a,b,c,d,x,y], _ => rfl
    rw [hflen, hr]
    rw [h5, Res.bind_ok, if_pos ⟨h6, h7⟩, h1]
    rfl
  · obtain ⟨ws, es, h1, h2, h3, h4⟩ := hexEdges_ok h hl hs el hfs k (hno (Or.inr k))
    refine ⟨ws, es, ?_, h2, h3, h4⟩
    have hr : (stdCycles vs).length = 6 ∧ (stdCycles vs).map List.length = List.replicate 6 4 := by
      match vs, k with
      | [a,b,c,d,p,q,u,w], _ => exact ⟨rfl, rfl⟩
    rw [hflen, hr.1]
    show (T.faceSizes fs >>= fun ns => if allOfSize 4 ns then T.hexEdges r fs else T.polyEdges r fs) = _
    rw [hsz, Res.bind_ok, if_pos (sizes_all (hr.2 ▸ hsizes)), h1]

/-- **C58, other polyhedra.**  For a region with a closed surface of faces with three or more vertices each,
whose numbers of vertices are not those of a standard element, `MR_Edges` gives the edges of its faces,
each once.  (Of a surface that is not closed, edges may be missing: `C58_negation_open`.) -/
theorem C58_polyhedron {T : Topo} (h : T.Consistent) (hl : T.AllLoops) {r : Nat} {fs ns : List Nat}
    (hr : T.sr r = .live) (hfs : T.mrFaces r = .ok fs) (h0 : fs ≠ [])
    (hns : List.Forall₂ (fun f n => T.mfNumVertices f = .ok n) fs ns) (h3 : ∀ n ∈ ns, 3 ≤ n)
    (hstd : ¬ StandardSizes ns) (hc : T.ClosedSurface r) :
    ∃ es : List Nat, T.mrEdges r = .ok es ∧ es.Nodup ∧ ∀ e, e ∈ es ↔ ∃ f, T.RegionHas r f ∧ T.FaceHas f e := by
  have hrf := mrFaces_some hfs
  obtain ⟨hsz, hnum⟩ := faceSizes_region h hl hr hrf
  have hns' : ns = fs.map fun f => ((T.fe f).getD []).length := by
    clear hsz hfs h0 hrf h3 hstd
    induction hns with
    | nil => rfl
    | @cons f n fs ns h1 h2 ih =>
      have := hnum f (by simp)
      rw [h1] at this
      injection this with this
      rw [List.map_cons, ← this, ← ih (fun g hg => hnum g (by simp [hg]))]
  obtain ⟨es, h1, h2, h4⟩ := polyEdges_ok h hl hr hrf h0 (fun f hf => h3 _ (by
    rw [hns']; exact List.mem_map_of_mem (f := fun f => ((T.fe f).getD []).length) hf)) hc
  refine ⟨es, ?_, h2, h4⟩
  have hlen : ns.length = fs.length := by rw [hns', List.length_map]
  rw [← hns'] at hsz
  unfold mrEdges
  rw [rfaces_ok (alloc_of_live hr) hrf, Res.bind_ok]
  split
  · rename_i k
    rw [hsz, Res.bind_ok, if_neg, h1]
    intro hall
    rw [allOfSize_iff, hlen, k] at hall
    exact hstd (Or.inl hall)
  · rename_i k
    have ok := foundIn_all ns
    rw [findFaces_ok hnum, ← hns', Res.bind_ok, ok.ntris, ok.nquads, if_neg, if_neg, h1]
    · rintro ⟨k1, k2⟩
      exact hstd (Or.inr (Or.inl ⟨by omega, Or.inl ⟨k2, k1⟩⟩))
    · rintro ⟨k1, k2⟩
      exact hstd (Or.inr (Or.inl ⟨by omega, Or.inr ⟨k2, k1⟩⟩))
  · rename_i k
    rw [hsz, Res.bind_ok, if_neg, h1]
    intro hall
    rw [allOfSize_iff, hlen, k] at hall
    exact hstd (Or.inr (Or.inr hall))
  · exact h1

/-- **C58, the edge test.**  `MR_UsesEdge` answers whether some face of the region has the edge. -/
theorem C58_uses_edge {T : Topo} (h : T.Consistent) (hl : T.AllLoops) {r : Nat} {fs : List Nat} (hr : T.sr r = .live)
    (hfs : T.mrFaces r = .ok fs) (e : Nat) :
    ∃ b, T.mrUsesEdge r e = .ok b ∧ (b = true ↔ ∃ f, T.RegionHas r f ∧ T.FaceHas f e) := by
  have hrf := mrFaces_some hfs
  obtain ⟨b, h1, h2⟩ := anyFaceUses_ok (T := T) (g := fun f => T.mfUsesEdge f e) (P := fun f => T.FaceHas f e) (fs := fs) (by
    intro f hf
    have hlive := h.rfacesLive hr (f := f) (by rw [hrf]; exact hf)
    obtain ⟨ws, hw, -⟩ := hl f hlive
    obtain ⟨l, k1, -⟩ := hw.stored (alloc_of_live hlive)
    refine ⟨decide (e ∈ l), ?_, ?_⟩
    · show T.mfUsesEdge f e = _
      unfold mfUsesEdge
      rw [fedges_ok (alloc_of_live hlive) k1, Res.bind_ok]
      rfl
    · rw [decide_eq_true_iff, faceHas_iff hlive k1])
  refine ⟨b, ?_, ?_⟩
  · unfold mrUsesEdge
    rw [rfaces_ok (alloc_of_live hr) hrf, Res.bind_ok]
    exact h1
  · rw [h2]
    constructor
    · rintro ⟨f, hf, hP⟩; exact ⟨f, (regionHas_iff h).2 ⟨hr, by rw [hrf]; exact hf⟩, hP⟩
    · rintro ⟨f, hf, hP⟩
      have := ((regionHas_iff h).1 hf).2
      rw [hrf] at this
      exact ⟨f, this, hP⟩

/-- **C58, the vertex test.**  `MR_UsesVertex` answers whether some face of the region has the vertex. -/
theorem C58_uses_vertex {T : Topo} (h : T.Consistent) (hl : T.AllLoops) {r : Nat} {fs : List Nat} (hr : T.sr r = .live)
    (hfs : T.mrFaces r = .ok fs) (h2 : ∀ f ∈ fs, ∀ n, T.mfNumVertices f = .ok n → 2 ≤ n) (v : Nat) :
    ∃ b, T.mrUsesVertex r v = .ok b ∧ (b = true ↔ ∃ f, T.RegionHas r f ∧ T.FaceVertex f v) := by
  have hrf := mrFaces_some hfs
  obtain ⟨b, h1, hb⟩ := anyFaceUses_ok (T := T) (g := fun f => T.mfUsesVertex f v) (P := fun f => T.FaceVertex f v)
    (fs := fs) (by
    intro f hf
    have hlive := h.rfacesLive hr (f := f) (by rw [hrf]; exact hf)
    obtain ⟨ws, hw, hn⟩ := hl f hlive
    obtain ⟨i, hi⟩ := List.mem_iff_getElem?.1 hf
    obtain ⟨d, hd⟩ : ∃ d, T.mrFaceDir_i r i = .ok d := by
      have hok := h.reg r _ (alloc_of_live hr) hrf
      have hlt := (List.getElem?_eq_some_iff.1 hi).1
      unfold mrFaceDir_i
      rw [derefR_ok (alloc_of_live hr), Res.bind_ok, getW_ok (hok.word (by omega))]
      exact ⟨_, rfl⟩
    have s : T.Side r fs i f d (turned d ws) := ⟨hi, hd, hlive, ws, hw, hn, List.IsRotated.refl _⟩
    have hlen := h2 f hf _ s.num
    refine ⟨_, s.usesVertex h hlen v, ?_⟩
    obtain ⟨c', es, a1, -, -, -, -, a4⟩ := face_plain h hl hlive true
    obtain ⟨c'', -, l1, l2, -⟩ := s.plain true
    rw [a1] at l2
    injection l2 with l2
    rw [← map_some_inj l2] at l1
    rw [decide_eq_true_iff, ← a4, (l1.perm.trans flipTo_perm).mem_iff])
  refine ⟨b, ?_, ?_⟩
  · unfold mrUsesVertex
    rw [rfaces_ok (alloc_of_live hr) hrf, Res.bind_ok]
    exact h1
  · rw [hb]
    constructor
    · rintro ⟨f, hf, hP⟩; exact ⟨f, (regionHas_iff h).2 ⟨hr, by rw [hrf]; exact hf⟩, hP⟩
    · rintro ⟨f, hf, hP⟩
      have := ((regionHas_iff h).1 hf).2
      rw [hrf] at this
      exact ⟨f, this, hP⟩

/-! ### non-vacuity -/

/-- The hypotheses of `C58_standard` hold for a hexahedron, a pyramid, a tetrahedron and a prism in one mesh. -/
example : ∃ T, empty.run mixMesh = .ok T ∧
    (∀ p ∈ mixElements, ∃ ws es, T.mrEdges p.1 = .ok es ∧ T.IsElement p.1 ws ∧ ws.Perm p.2 ∧
      List.Forall₂ T.JoinsPair es (stdEdges ws)) ∧
    T.mrEdges 0 = .ok [8,5,10,1,9,7,11,3,0,4,6,2] := by
  obtain ⟨T, h1, h2, h3, h4, h5⟩ := mixMesh_ok
  refine ⟨T, h1, fun p hp => ?_, ?_⟩
  · obtain ⟨ws, es, a, b, c, d, -⟩ := C58_standard h2 h3 h4 (h5 p hp).1 (fun _ => (h5 p hp).2.2)
    exact ⟨ws, es, a, b, c, d⟩
  · have hq : answer mixMesh (fun T => T.mrEdges 0) = .ok [8,5,10,1,9,7,11,3,0,4,6,2] := by decide +kernel
    unfold answer at hq
    rw [h1, Res.bind_ok] at hq
    exact hq

/-- The hypotheses of `C58_polyhedron`, `C58_uses_edge` and `C58_uses_vertex` hold for a prism over a pentagon. -/
example : ∃ (T : Topo) (es : List Nat), empty.run pentaPrism = .ok T ∧ T.mrEdges 0 = .ok es ∧ es.Nodup ∧
    es.length = 15 ∧ (∀ e, e ∈ es ↔ ∃ f, T.RegionHas 0 f ∧ T.FaceHas f e) ∧
    (∀ e, ∃ b, T.mrUsesEdge 0 e = .ok b ∧ (b = true ↔ ∃ f, T.RegionHas 0 f ∧ T.FaceHas f e)) ∧
    ∀ v, ∃ b, T.mrUsesVertex 0 v = .ok b ∧ (b = true ↔ ∃ f, T.RegionHas 0 f ∧ T.FaceVertex f v) := by
  obtain ⟨T, h1, h2⟩ := reachable (os := pentaPrism) (by decide +kernel)
  have hq : answer pentaPrism (fun T => .ok (T.allLoopsB [[0,1,2,3,4],[5,6,7,8,9],[0,1,6,5],[1,2,7,6],[2,3,8,7],
      [3,4,9,8],[4,0,5,9]] && decide (T.sr 0 = .live) && decide (T.mrFaces 0 = .ok [2,0,3,4,1,6,5]) &&
      decide (T.mfNumVertices 2 = .ok 4 ∧ T.mfNumVertices 0 = .ok 5 ∧ T.mfNumVertices 3 = .ok 4 ∧
        T.mfNumVertices 4 = .ok 4 ∧ T.mfNumVertices 1 = .ok 5 ∧ T.mfNumVertices 6 = .ok 4 ∧
        T.mfNumVertices 5 = .ok 4) && T.closedB 0 &&
      (match T.mrEdges 0 with | .ok l => decide (l.length = 15) | _ => false))) = .ok true := by
    decide +kernel
  unfold answer at hq
  rw [h1, Res.bind_ok, Res.ok.injEq] at hq
  simp only [Bool.and_eq_true, decide_eq_true_iff] at hq
  obtain ⟨⟨⟨⟨⟨a, b⟩, c⟩, d2, d0, d3, d4, d1, d6, d5⟩, e⟩, f⟩ := hq
  have hl := allLoopsB_sound h2 a
  have hns : List.Forall₂ (fun f n => T.mfNumVertices f = .ok n) [2,0,3,4,1,6,5] [4,5,4,4,5,4,4] :=
    .cons d2 (.cons d0 (.cons d3 (.cons d4 (.cons d1 (.cons d6 (.cons d5 .nil))))))
  obtain ⟨es, r1, r2, r3⟩ := C58_polyhedron h2 hl b c (by simp) hns (by decide) (by decide) (closedB_sound h2 e)
  rw [r1] at f
  refine ⟨T, es, h1, r1, r2, by simpa using f, r3, C58_uses_edge h2 hl b c, C58_uses_vertex h2 hl b c ?_⟩
  intro x hx n hn
  simp only [List.mem_cons, List.not_mem_nil, or_false] at hx
  rcases hx with rfl | rfl | rfl | rfl | rfl | rfl | rfl
  all_goals
    simp_all

/-! ### what does not hold -/

/-- **C58 fails** for a prism in a mesh with an edge across one of its quadrilaterals: the region is the
prism on 0 1 2 3 4 5, which has nine edges; `MR_Edges` answers seven, among them edge 0, the diagonal,
which no face of the region has, and without the edges between the triangles. -/
theorem C58_negation_diagonal :
    answer crossedPrism (fun T => .ok (T.elementB 0 [0,1,2,3,4,5])) = .ok true ∧
    answer crossedPrism (fun T => T.mrEdges 0) = .ok [3,2,1,4,5,6,0] ∧
    answer crossedPrism (fun T => T.mrUsesEdge 0 0) = .ok false ∧
    answer crossedPrism (fun T => T.mrUsesEdge 0 7) = .ok true := by
  decide +kernel

/-- **C58 fails** for a region whose faces do not form a closed surface: the edges that only the last face
has are missing. -/
theorem C58_negation_open : answer openBook (fun T => T.mrFaces 0) = .ok [0,1] ∧
    answer openBook (fun T => T.mfEdges 1 true none) = .ok [0,3,4] ∧
    answer openBook (fun T => T.mrEdges 0) = .ok [2,1,0] ∧
    answer openBook (fun T => T.mrUsesEdge 0 3) = .ok true := by decide +kernel

end Topo
end MSTK
