import Verif.RegionQueryModel
import Verif.Props.RegionVertices

/-!
Helper lemmas for C57 and C58: what the queries say of one face of a region.
-/
namespace MSTK
namespace Topo

/-- `e` joins `x` and `y` -/
def Between (T : Topo) (e x y : Nat) : Prop := T.EdgeHas e x ∧ T.EdgeHas e y

/-- the cycle seen in direction `b` of a face that is seen as `c` in direction `d` -/
def flipTo (d b : Bool) (c : List Nat) : List Nat := if b = d then c else c.reverse

theorem flipTo_turned {d b : Bool} {c ws : List Nat} (h : c ~r turned d ws) : flipTo d b c ~r turned b ws := by
  unfold flipTo
  by_cases hb : b = d
  · rw [if_pos hb, hb]; exact h
  · rw [if_neg hb]
    have := h.reverse
    cases d <;> cases b <;> simp_all [turned]

theorem flipTo_perm {d b : Bool} {c : List Nat} : (flipTo d b c).Perm c := by
  unfold flipTo
  split
  · exact List.Perm.refl _
  · exact List.reverse_perm _

/-- The face `f` at position `i` is used in direction `d` and goes round `c` seen from outside. -/
structure Side (T : Topo) (r : Nat) (fs : List Nat) (i f : Nat) (d : Bool) (c : List Nat) : Prop where
  pos : fs[i]? = some f
  dir : T.mrFaceDir_i r i = .ok d
  live : T.sf f = .live
  loop : ∃ ws, T.Loop f ws ∧ ws.Nodup ∧ c ~r turned d ws

theorem dirAt_ok {T : Topo} (h : T.Consistent) {r i f : Nat} {fs : List Nat} {d : Bool} (hr : T.sr r = .live)
    (hfs : T.rf r = some fs) (hi : fs[i]? = some f) : T.mrFaceDir_i r i = .ok d ↔ T.mrFaceDir r f = .ok (some d) := by
  have hok := h.reg r fs (alloc_of_live hr) hfs
  have hlt := (List.getElem?_eq_some_iff.1 hi).1
  have hm := List.mem_of_getElem? hi
  unfold mrFaceDir_i mrFaceDir
  rw [derefR_ok (alloc_of_live hr), Res.bind_ok, rfaces_ok (alloc_of_live hr) hfs, Res.bind_ok, if_pos hm,
    idxOf_eq_of_nodup hok.1 hi, getW_ok (hok.word (Nat.le_of_lt hlt)), Res.bind_ok]
  simp

theorem mrFaces_some {T : Topo} {r : Nat} {fs : List Nat} (h : T.mrFaces r = .ok fs) : T.rf r = some fs := by
  unfold mrFaces rfaces at h
  obtain ⟨_, _, h2⟩ := Res.bind_eq_ok.1 h
  cases hr : T.rf r with
  | none => rw [hr] at h2; cases h2
  | some l => rw [hr] at h2; cases h2; rfl

theorem side_of_uses {T : Topo} (h : T.Consistent) (hl : T.AllLoops) {r i f : Nat} {fs c : List Nat}
    (hfs : T.rf r = some fs) (hi : fs[i]? = some f) (hc : c ≠ []) (hu : T.Uses r f c) : ∃ d, T.Side r fs i f d c := by
  obtain ⟨hr, d, hd, hs⟩ := hu
  have hf : T.sf f = .live := h.fr.down r f d hr ((mrFaceDir_iff h hr).1 hd)
  obtain ⟨ws, hw, hn⟩ := hl f hf
  exact ⟨d, hi, (dirAt_ok h hr hfs hi).2 hd, hf, ws, hw, hn, (seen_iff hf hw hn hc).1 hs⟩

theorem Side.rotate {T : Topo} {r i f : Nat} {fs c c' : List Nat} {d : Bool} (s : T.Side r fs i f d c)
    (hc : c' ~r c) : T.Side r fs i f d c' := by
  obtain ⟨ws, h1, h2, h3⟩ := s.loop
  exact ⟨s.pos, s.dir, s.live, ws, h1, h2, hc.trans h3⟩

theorem Side.uses {T : Topo} (h : T.Consistent) {r i f : Nat} {fs c : List Nat} {d : Bool} (hr : T.sr r = .live)
    (hfs : T.rf r = some fs) (s : T.Side r fs i f d c) (hc : c ≠ []) : T.Uses r f c := by
  obtain ⟨ws, h1, h2, h3⟩ := s.loop
  exact ⟨hr, d, (dirAt_ok h hr hfs s.pos).1 s.dir, (seen_iff s.live h1 h2 hc).2 h3⟩

theorem Side.nodup {T : Topo} {r i f : Nat} {fs c : List Nat} {d : Bool} (s : T.Side r fs i f d c) : c.Nodup := by
  obtain ⟨ws, h1, h2, h3⟩ := s.loop
  exact ((h3.perm.trans (turned_perm d)).nodup_iff).2 h2

theorem Side.num {T : Topo} {r i f : Nat} {fs c : List Nat} {d : Bool} (s : T.Side r fs i f d c) :
    T.mfNumVertices f = .ok c.length := by
  obtain ⟨ws, h1, h2, h3⟩ := s.loop
  obtain ⟨l, k1, -, k3, -⟩ := h1.stored (alloc_of_live s.live)
  unfold mfNumVertices
  rw [fedges_ok (alloc_of_live s.live) k1, Res.bind_ok, k3, ← (h3.perm.trans (turned_perm d)).length_eq]
  rfl

theorem faceHas_iff {T : Topo} {f e : Nat} {l : List Nat} (hf : T.sf f = .live) (hl : T.fe f = some l) :
    T.FaceHas f e ↔ e ∈ l := by
  unfold FaceHas
  rw [mfEdges_plain (alloc_of_live hf) hl]
  constructor
  · rintro ⟨-, es, h1, h2⟩; cases h1; exact h2
  · intro he; exact ⟨hf, l, rfl, he⟩

/-- `MF_Edges` and `MF_Vertices` without a start vertex -/
theorem Side.plain {T : Topo} {r i f : Nat} {fs c : List Nat} {d : Bool} (s : T.Side r fs i f d c) (b : Bool) :
    ∃ c' es, c' ~r flipTo d b c ∧ T.mfVertices f b none = .ok (c'.map some) ∧ T.mfEdges f b none = .ok es ∧
      T.Together es c' ∧ ∀ e, e ∈ es ↔ T.FaceHas f e := by
  obtain ⟨ws, h1, h2, h3⟩ := s.loop
  obtain ⟨l, k1, k2, k3, -⟩ := h1.stored (alloc_of_live s.live)
  obtain ⟨es, vs, e1, e2, e3, -⟩ := C23_together s.live h1 h2 b none (by intro v hv; cases hv)
  refine ⟨vs, es, ?_, e2, e1, e3, ?_⟩
  · rw [C23_vertices s.live h1 b] at e2
    injection e2 with e2
    rw [← map_some_inj e2]
    refine List.IsRotated.trans ?_ (flipTo_turned h3).symm
    cases b
    · exact List.IsRotated.reverse ⟨_, rotate_back ws 1⟩
    · exact List.IsRotated.refl _
  · intro e
    rw [C23_edges s.live h1 k2 b] at e1
    injection e1 with e1
    rw [faceHas_iff s.live k1, ← e1]
    cases b <;> simp

/-- `MF_Edges` and `MF_Vertices` from a start vertex -/
theorem Side.from {T : Topo} {r i f : Nat} {fs c : List Nat} {d : Bool} (s : T.Side r fs i f d c) {b : Bool}
    {v : Nat} {c' : List Nat} (hc : c' ~r flipTo d b c) (hv : c'[0]? = some v) :
    ∃ es, T.mfVertices f b (some v) = .ok (c'.map some) ∧ T.mfEdges f b (some v) = .ok es ∧
      T.Together es c' ∧ ∀ e, e ∈ es ↔ T.FaceHas f e := by
  obtain ⟨ws, h1, h2, h3⟩ := s.loop
  obtain ⟨l, k1, k2, k3, -⟩ := h1.stored (alloc_of_live s.live)
  have hr : c' ~r turned b ws := hc.trans (flipTo_turned h3)
  have hne : c' ≠ [] := by rintro rfl; simp at hv
  obtain ⟨a, ha, hseen⟩ := (seen_iff s.live h1 h2 hne).2 hr
  rw [hv] at ha; injection ha with ha; subst ha
  have hvw : v ∈ ws := (turned_perm b).mem_iff.1 (hr.perm.mem_iff.1 (List.mem_of_getElem? hv))
  obtain ⟨es, vs, e1, e2, e3, -⟩ := C23_together s.live h1 h2 b (some v) (by
    intro w hw; injection hw with hw; exact hw ▸ hvw)
  rw [hseen] at e2
  injection e2 with e2
  rw [← map_some_inj e2] at e3
  refine ⟨es, hseen, e1, e3, ?_⟩
  intro e
  obtain ⟨k, hk⟩ := List.mem_iff_getElem?.1 hvw
  rw [(C23_edges_from s.live h1 h2 k2 b v).1 k hk] at e1
  injection e1 with e1
  rw [faceHas_iff s.live k1, ← e1]
  cases b <;> simp

theorem Together.joins {T : Topo} {es ws : List Nat} (h : T.Together es ws) (hlive : ∀ e ∈ es, T.se e = .live)
    {i e x y : Nat} (hi : es[i]? = some e) (hx : ws[i]? = some x) (hy : ws[(i+1) % ws.length]? = some y) :
    T.Between e x y := by
  obtain ⟨d, h1, h2⟩ := h.2 i e hi
  have hl := hlive e (List.mem_of_getElem? hi)
  rw [hx] at h1
  rw [hy] at h2
  cases d
  · exact ⟨⟨hl, Or.inl h1⟩, ⟨hl, Or.inr h2⟩⟩
  · exact ⟨⟨hl, Or.inr h1⟩, ⟨hl, Or.inl h2⟩⟩

theorem edgeHas_two {T : Topo} {e x y z : Nat} (hxy : x ≠ y) (h : T.Between e x y) (hz : T.EdgeHas e z) :
    z = x ∨ z = y := by
  obtain ⟨h1, h2⟩ := h
  rw [EdgeHas_iff] at h1 h2 hz
  obtain ⟨-, h1⟩ := h1
  obtain ⟨-, h2⟩ := h2
  obtain ⟨-, hz⟩ := hz
  unfold ends at h1 h2 hz
  generalize T.ev e = p at h1 h2 hz
  obtain ⟨p, q⟩ := p
  dsimp only at h1 h2 hz
  rcases h1 with rfl | rfl <;> rcases h2 with h2 | h2 <;> rcases hz with hz | hz <;> simp_all

/-- the pairs of neighbours on a cycle, in the direction of the cycle -/
def nextPairs (c : List Nat) : List (Nat × Nat) := c.zip (c.rotate 1)

theorem mem_nextPairs {c : List Nat} {x y : Nat} : (x, y) ∈ nextPairs c ↔ Next c x y := by
  unfold nextPairs Next
  rw [List.mem_iff_getElem?]
  constructor
  · rintro ⟨k, hk⟩
    rw [List.getElem?_zip_eq_some] at hk
    obtain ⟨h1, h2⟩ := hk
    have hlt := (List.getElem?_eq_some_iff.1 h1).1
    rw [List.getElem?_rotate hlt] at h2
    exact ⟨k, h1, h2⟩
  · rintro ⟨k, h1, h2⟩
    have hlt := (List.getElem?_eq_some_iff.1 h1).1
    exact ⟨k, by rw [List.getElem?_zip_eq_some]; exact ⟨h1, by rw [List.getElem?_rotate hlt]; exact h2⟩⟩

theorem Next.ne {c : List Nat} (hn : c.Nodup) (h2 : 2 ≤ c.length) {x y : Nat} (h : Next c x y) : x ≠ y := by
  rintro rfl
  obtain ⟨k, h3, h4⟩ := h
  have hk := (List.getElem?_eq_some_iff.1 h3).1
  have e1 := idxOf_eq_of_nodup hn h3
  rw [idxOf_eq_of_nodup hn h4] at e1
  by_cases hk1 : k + 1 = c.length
  · rw [hk1, Nat.mod_self] at e1; omega
  · rw [Nat.mod_eq_of_lt (by omega)] at e1; omega

/-- The edges of a face are those that join neighbours on its cycle. -/
theorem Side.faceHas {T : Topo} (h : T.Consistent) (hs : T.SimpleEdges) {r i f : Nat} {fs c : List Nat} {d : Bool}
    (s : T.Side r fs i f d c) (h2 : 2 ≤ c.length) {e : Nat} :
    T.FaceHas f e ↔ ∃ x y, Next c x y ∧ T.Between e x y := by
  obtain ⟨ws, h1, hn, h3⟩ := s.loop
  obtain ⟨l, k1, k2, k3, -⟩ := h1.stored (alloc_of_live s.live)
  have hlive : ∀ e ∈ l, T.se e = .live := h.fedgesLive s.live k1
  have toW : ∀ x y, Next c x y → Next ws x y ∨ Next ws y x := by
    intro x y hxy
    have := next_of_rotated h3 hxy
    cases d
    · right
      have := this.reverse
      rwa [show turned false ws = ws.reverse from rfl, List.reverse_reverse] at this
    · left; exact this
  have toC : ∀ x y, Next ws x y → Next c x y ∨ Next c y x := by
    intro x y hxy
    cases d
    · right
      exact next_of_rotated h3.symm hxy.reverse
    · left
      exact next_of_rotated h3.symm hxy
  constructor
  · intro he
    rw [faceHas_iff s.live k1] at he
    obtain ⟨k, hk⟩ := List.mem_iff_getElem?.1 he
    obtain ⟨es', q1, q2, q3⟩ := id h1
    rw [k2] at q1; injection q1 with q1; subst q1
    have hkw : k < ws.length := by
      have := (List.getElem?_eq_some_iff.1 hk).1; omega
    have hx := List.getElem?_eq_getElem hkw
    have hy := List.getElem?_eq_getElem (Nat.mod_lt (k+1) (show 0 < ws.length by omega))
    have ht : T.Together l ws := ⟨q2, fun i e hi => by
      obtain ⟨d, a, b, c⟩ := q3 i e hi
      exact ⟨!d, b, by rw [Bool.not_not]; exact c⟩⟩
    have hj := ht.joins hlive hk hx hy
    rcases toC _ _ ⟨k, hx, hy⟩ with hN | hN
    · exact ⟨_, _, hN, hj⟩
    · exact ⟨_, _, hN, hj.2, hj.1⟩
  · rintro ⟨x, y, hN, hj⟩
    have hne := hN.ne s.nodup h2
    rcases toW x y hN with hN' | hN'
    · obtain ⟨e', a1, a2, a3⟩ := edge_of_next h s.live h1 hN'
      have := hs e e' x y hne hj.1 hj.2 a2 a3
      exact this ▸ a1
    · obtain ⟨e', a1, a2, a3⟩ := edge_of_next h s.live h1 hN'
      have := hs e e' x y hne hj.1 hj.2 a3 a2
      exact this ▸ a1

theorem Side.edge {T : Topo} (h : T.Consistent) {r i f : Nat} {fs c : List Nat} {d : Bool}
    (s : T.Side r fs i f d c) {x y : Nat} (hxy : Next c x y) : ∃ e, T.Between e x y := by
  obtain ⟨ws, h1, hn, h3⟩ := s.loop
  have := next_of_rotated h3 hxy
  cases d
  · have := this.reverse
    rw [show turned false ws = ws.reverse from rfl, List.reverse_reverse] at this
    obtain ⟨e', -, a2, a3⟩ := edge_of_next h s.live h1 this
    exact ⟨e', a3, a2⟩
  · obtain ⟨e', -, a2, a3⟩ := edge_of_next h s.live h1 this
    exact ⟨e', a2, a3⟩

theorem Side.vlive {T : Topo} (h : T.Consistent) {r i f : Nat} {fs c : List Nat} {d : Bool}
    (s : T.Side r fs i f d c) {x : Nat} (hx : x ∈ c) : T.sv x = .live := by
  obtain ⟨k, hk⟩ := List.mem_iff_getElem?.1 hx
  have hlt := (List.getElem?_eq_some_iff.1 hk).1
  obtain ⟨e, he, -⟩ := s.edge h ⟨k, hk, List.getElem?_eq_getElem (Nat.mod_lt (k+1) (show 0 < c.length by omega))⟩
  rw [EdgeHas_iff] at he
  exact h.ve.down e x he.1 he.2

/-- Whether a face uses an edge that joins two given vertices, read off its cycle. -/
theorem Side.usesEdge {T : Topo} (h : T.Consistent) (hs : T.SimpleEdges) {r i f : Nat} {fs c : List Nat} {d : Bool}
    (s : T.Side r fs i f d c) (h2 : 2 ≤ c.length) {e x y : Nat} (hxy : x ≠ y) (he : T.Between e x y) :
    T.mfUsesEdge f e = .ok (decide ((x, y) ∈ nextPairs c ∨ (y, x) ∈ nextPairs c)) := by
  obtain ⟨ws, h1, hn, h3⟩ := s.loop
  obtain ⟨l, k1, k2, k3, -⟩ := h1.stored (alloc_of_live s.live)
  unfold mfUsesEdge
  rw [fedges_ok (alloc_of_live s.live) k1, Res.bind_ok, Res.pure_eq]
  congr 1
  rw [decide_eq_decide, ← faceHas_iff s.live k1, s.faceHas h hs h2, mem_nextPairs, mem_nextPairs]
  constructor
  · rintro ⟨a, b, hN, ha, hb⟩
    have hab := hN.ne s.nodup h2
    rcases edgeHas_two hxy he ha with rfl | rfl
    · rcases edgeHas_two hxy he hb with rfl | rfl
      · exact absurd rfl hab
      · exact Or.inl hN
    · rcases edgeHas_two hxy he hb with rfl | rfl
      · exact Or.inr hN
      · exact absurd rfl hab
  · rintro (hN | hN)
    · exact ⟨_, _, hN, he⟩
    · exact ⟨_, _, hN, he.2, he.1⟩

theorem anyUses_ok {T : Topo} {v : Nat} : ∀ {l : List Nat}, (∀ e ∈ l, T.se e = .live) →
    ∃ b, T.anyUses v l = .ok b ∧ (b = true ↔ ∃ e ∈ l, T.EdgeHas e v) := by
  intro l
  induction l with
  | nil => intro _; exact ⟨false, rfl, by simp⟩
  | cons e l ih =>
    intro hl
    have hel := hl e (by simp)
    obtain ⟨b, h1, h2⟩ := ih (fun x hx => hl x (by simp [hx]))
    have hu : T.meUsesVertex e (some v) = .ok (usesB T e (some v)) := meUsesVertex_ok _ (alloc_of_live hel)
    rw [show T.anyUses v (e :: l) = (T.meUsesVertex e (some v) >>= fun b =>
      if b then pure true else T.anyUses v l) from rfl, hu, Res.bind_ok]
    by_cases hb : usesB T e (some v) = true
    · refine ⟨true, by rw [if_pos hb]; rfl, ?_⟩
      refine ⟨fun _ => ⟨e, by simp, ?_⟩, fun _ => rfl⟩
      rw [EdgeHas_iff]; exact ⟨hel, usesB_iff.1 hb⟩
    · refine ⟨b, by rw [if_neg hb, h1], ?_⟩
      rw [h2]
      constructor
      · rintro ⟨x, hx, hh⟩; exact ⟨x, by simp [hx], hh⟩
      · rintro ⟨x, hx, hh⟩
        rcases List.mem_cons.1 hx with rfl | hx
        · rw [EdgeHas_iff] at hh
          exact absurd (usesB_iff.2 hh.2) hb
        · exact ⟨x, hx, hh⟩

/-- `MF_UsesVertex`: the edges but the last one of a loop reach all its vertices. -/
theorem Side.usesVertex {T : Topo} (h : T.Consistent) {r i f : Nat} {fs c : List Nat} {d : Bool}
    (s : T.Side r fs i f d c) (h2 : 2 ≤ c.length) (v : Nat) : T.mfUsesVertex f v = .ok (decide (v ∈ c)) := by
  obtain ⟨ws, h1, hn, h3⟩ := s.loop
  obtain ⟨l, k1, k2, k3, -⟩ := h1.stored (alloc_of_live s.live)
  have hlive : ∀ e ∈ l, T.se e = .live := h.fedgesLive s.live k1
  have hperm := h3.perm.trans (turned_perm d)
  have hlen : 2 ≤ ws.length := by rw [← hperm.length_eq]; exact h2
  obtain ⟨b, b1, b2⟩ := anyUses_ok (T := T) (v := v) (l := l.take (l.length - 1))
    (fun e he => hlive e (List.mem_of_mem_take he))
  unfold mfUsesVertex
  rw [fedges_ok (alloc_of_live s.live) k1, Res.bind_ok, b1]
  congr 1
  rw [Bool.eq_iff_iff, b2, decide_eq_true_iff, hperm.mem_iff]
  obtain ⟨es', q1, q2, q3⟩ := id h1
  rw [k2] at q1; injection q1 with q1; subst q1
  have ht : T.Together l ws := ⟨q2, fun i e hi => by
    obtain ⟨d, a, b, c⟩ := q3 i e hi
    exact ⟨!d, b, by rw [Bool.not_not]; exact c⟩⟩
  have between : ∀ (k : Nat) (hk : k < ws.length), T.Between (l[k]'(by omega)) ws[k]
      (ws[(k+1) % ws.length]'(Nat.mod_lt _ (by omega))) := fun k hk =>
    ht.joins hlive (List.getElem?_eq_getElem _) (List.getElem?_eq_getElem hk) (List.getElem?_eq_getElem _)
  constructor
  · rintro ⟨e, he, hv⟩
    obtain ⟨k, hk, rfl⟩ := List.getElem_of_mem (List.mem_of_mem_take he)
    have hkw : k < ws.length := by omega
    have hb := between k hkw
    have hne : ws[k] ≠ ws[(k+1) % ws.length]'(Nat.mod_lt _ (by omega)) :=
      Next.ne hn hlen ⟨k, List.getElem?_eq_getElem hkw, List.getElem?_eq_getElem _⟩
    rcases edgeHas_two hne hb hv with rfl | rfl <;> exact List.getElem_mem _
  · intro hv
    obtain ⟨k, hk, rfl⟩ := List.getElem_of_mem hv
    have mem : ∀ (j : Nat) (hj : j < l.length - 1), l[j] ∈ l.take (l.length - 1) := by
      intro j hj
      rw [List.mem_take_iff_getElem]
      exact ⟨j, by omega, rfl⟩
    by_cases hk1 : k < l.length - 1
    · exact ⟨_, mem k hk1, (between k hk).1⟩
    · have e1 := (between (k-1) (by omega)).2
      have e2 : (k - 1 + 1) % ws.length = k := by
        rw [show k - 1 + 1 = k by omega, Nat.mod_eq_of_lt hk]
      simp only [e2] at e1
      exact ⟨_, mem (k-1) (by omega), e1⟩

/-- `MVs_CommonEdge` of two vertices -/
theorem common_joins {T : Topo} (h : T.Consistent) {x y : Nat} (hx : T.sv x = .live) :
    ∃ o, T.commonEdgeE (some x) (some y) = .ok o ∧ (∀ e, o = some e → T.Between e x y) ∧
      (o = none → ∀ e, ¬ T.Between e x y) := by
  obtain ⟨o, h1, h2, h3⟩ := C42_common_edge h (b := y) hx
  exact ⟨o, by unfold commonEdgeE; simpa using h1, h2, h3⟩

theorem rotated3 {l : List Nat} {x y z : Nat} (h : l ~r [x,y,z]) : l = [x,y,z] ∨ l = [y,z,x] ∨ l = [z,x,y] := by
  obtain ⟨k, hk⟩ := h.symm
  rw [← List.rotate_mod] at hk
  have := Nat.mod_lt k (show 0 < [x,y,z].length by simp)
  generalize k % [x,y,z].length = j at *
  match j, this with
  | 0, _ => exact Or.inl hk.symm
  | 1, _ => exact Or.inr (Or.inl hk.symm)
  | 2, _ => exact Or.inr (Or.inr hk.symm)

theorem rotated4 {l : List Nat} {x y z w : Nat} (h : l ~r [x,y,z,w]) :
    l = [x,y,z,w] ∨ l = [y,z,w,x] ∨ l = [z,w,x,y] ∨ l = [w,x,y,z] := by
  obtain ⟨k, hk⟩ := h.symm
  rw [← List.rotate_mod] at hk
  have := Nat.mod_lt k (show 0 < [x,y,z,w].length by simp)
  generalize k % [x,y,z,w].length = j at *
  match j, this with
  | 0, _ => exact Or.inl hk.symm
  | 1, _ => exact Or.inr (Or.inl hk.symm)
  | 2, _ => exact Or.inr (Or.inr (Or.inl hk.symm))
  | 3, _ => exact Or.inr (Or.inr (Or.inr hk.symm))

theorem flipTo_self {d : Bool} {c : List Nat} : flipTo d d c = c := by unfold flipTo; rw [if_pos rfl]

theorem flipTo_not {d : Bool} {c : List Nat} : flipTo d (!d) c = c.reverse := by
  unfold flipTo; rw [if_neg (by cases d <;> simp)]

/-- the other end of an edge -/
theorem Between.other {T : Topo} {e x y : Nat} (hxy : x ≠ y) (h : T.Between e x y) :
    ∃ p q, T.meVertex e false = .ok p ∧ T.meVertex e true = .ok q ∧ (if p = some x then q else p) = some y := by
  obtain ⟨h1, h2⟩ := h
  rw [EdgeHas_iff] at h1 h2
  obtain ⟨hl, h1⟩ := h1
  obtain ⟨-, h2⟩ := h2
  refine ⟨_, _, meVertex_ok (alloc_of_live hl) false, meVertex_ok (alloc_of_live hl) true, ?_⟩
  unfold ends at h1 h2
  generalize T.ev e = p at h1 h2
  obtain ⟨p, q⟩ := p
  simp only [endAt]
  dsimp only at h1 h2
  rcases h1 with rfl | rfl <;> rcases h2 with h2 | h2 <;> simp_all

/-! ### triangles and quadrilaterals -/

/-- `findFaces` on the sizes of the faces -/
def foundIn : List Nat → Nat → Found → Found
  | [], _, s => s
  | n :: ns, i, s => foundIn ns (i+1)
    (if n = 3 then
      if s.tri0.isNone then { s with tri0 := some i, ntris := s.ntris + 1 }
      else { s with tri1 := some i, ntris := s.ntris + 1 }
    else if n = 4 then
      if s.quad0.isNone then { s with quad0 := some i, nquads := s.nquads + 1 }
      else { s with nquads := s.nquads + 1 }
    else s)

theorem findFaces_ok {T : Topo} {len : Nat → Nat} : ∀ {fs : List Nat}, (∀ f ∈ fs, T.mfNumVertices f = .ok (len f)) →
    ∀ (i : Nat) (s : Found), T.findFaces fs i s = .ok (foundIn (fs.map len) i s) := by
  intro fs
  induction fs with
  | nil => intro _ i s; rfl
  | cons f fs ih =>
    intro h i s
    unfold findFaces
    rw [h f (by simp), Res.bind_ok]
    exact ih (fun g hg => h g (by simp [hg])) _ _

/-- what the loop knows after the sizes `pre` -/
structure FoundOk (pre : List Nat) (s : Found) : Prop where
  ntris : s.ntris = pre.count 3
  nquads : s.nquads = pre.count 4
  tri0 : ∀ k, s.tri0 = some k → pre[k]? = some 3
  tri0n : s.tri0 = none → pre.count 3 = 0
  tri1 : ∀ k, s.tri1 = some k → pre[k]? = some 3 ∧ s.tri0 ≠ some k ∧ s.tri0 ≠ none
  tri1n : s.tri1 = none → pre.count 3 ≤ 1
  quad0 : ∀ k, s.quad0 = some k → pre[k]? = some 4
  quad0n : s.quad0 = none → pre.count 4 = 0

theorem foundIn_ok : ∀ (ns pre : List Nat) (s : Found), FoundOk pre s →
    FoundOk (pre ++ ns) (foundIn ns pre.length s) := by
  intro ns
  induction ns with
  | nil => intro pre s h; rw [List.append_nil]; exact h
  | cons n ns ih =>
    intro pre s h
    unfold foundIn
    have hlen : pre.length + 1 = (pre ++ [n]).length := by simp
    rw [hlen, show pre ++ n :: ns = (pre ++ [n]) ++ ns by simp]
    apply ih
    have lift : ∀ {k m : Nat}, pre[k]? = some m → (pre ++ [n])[k]? = some m := by
      intro k m hk
      rw [List.getElem?_append_left (List.getElem?_eq_some_iff.1 hk).1]; exact hk
    have last : (pre ++ [n])[pre.length]? = some n := by simp
    have lt : ∀ {k m : Nat}, pre[k]? = some m → k ≠ pre.length := by
      intro k m hk; have := (List.getElem?_eq_some_iff.1 hk).1; omega
    by_cases h3 : n = 3
    · rw [if_pos h3]
      have c3 : (pre ++ [n]).count 3 = pre.count 3 + 1 := by rw [List.count_append, h3]; rfl
      have c4 : (pre ++ [n]).count 4 = pre.count 4 := by rw [List.count_append, h3]; rfl
      by_cases ht : s.tri0.isNone = true
      · have ht' : s.tri0 = none := by simpa using ht
        rw [if_pos ht]
        refine ⟨by rw [c3, ← h.ntris], by rw [c4, ← h.nquads], ?_, ?_, ?_, ?_, fun k hk => lift (h.quad0 k hk), ?_⟩
        · intro k hk
          injection hk with hk
          rw [← hk, last, h3]
        · intro hk; cases hk
        · intro k hk; exact absurd ht' (h.tri1 k hk).2.2
        · intro _; rw [c3, h.tri0n ht']
        · intro hk; rw [c4]; exact h.quad0n hk
      · have ht' : s.tri0 ≠ none := by simpa using ht
        rw [if_neg ht]
        refine ⟨by rw [c3, ← h.ntris], by rw [c4, ← h.nquads], fun k hk => lift (h.tri0 k hk), ?_, ?_, ?_,
          fun k hk => lift (h.quad0 k hk), ?_⟩
        · intro hk; exact absurd hk ht'
        · intro k hk
          injection hk with hk
          refine ⟨by rw [← hk, last, h3], ?_, ht'⟩
          intro he
          exact lt (h.tri0 k he) hk.symm
        · intro hk; cases hk
        · intro hk; rw [c4]; exact h.quad0n hk
    · rw [if_neg h3]
      have c3 : (pre ++ [n]).count 3 = pre.count 3 := by
        rw [List.count_append, List.count_singleton, if_neg (by simpa using h3), Nat.add_zero]
      by_cases h4 : n = 4
      · rw [if_pos h4]
        have c4 : (pre ++ [n]).count 4 = pre.count 4 + 1 := by rw [List.count_append, h4]; rfl
        by_cases hq : s.quad0.isNone = true
        · rw [if_pos hq]
          refine ⟨by rw [c3, ← h.ntris], by rw [c4, ← h.nquads], fun k hk => lift (h.tri0 k hk), ?_,
            fun k hk => ⟨lift (h.tri1 k hk).1, (h.tri1 k hk).2⟩, ?_, ?_, ?_⟩
          · intro hk; rw [c3]; exact h.tri0n hk
          · intro hk; rw [c3]; exact h.tri1n hk
          · intro k hk
            injection hk with hk
            rw [← hk, last, h4]
          · intro hk; cases hk
        · have hq' : s.quad0 ≠ none := by simpa using hq
          rw [if_neg hq]
          refine ⟨by rw [c3, ← h.ntris], by rw [c4, ← h.nquads], fun k hk => lift (h.tri0 k hk), ?_,
            fun k hk => ⟨lift (h.tri1 k hk).1, (h.tri1 k hk).2⟩, ?_, fun k hk => lift (h.quad0 k hk), ?_⟩
          · intro hk; rw [c3]; exact h.tri0n hk
          · intro hk; rw [c3]; exact h.tri1n hk
          · intro hk; exact absurd hk hq'
      · rw [if_neg h4]
        have c4 : (pre ++ [n]).count 4 = pre.count 4 := by
          rw [List.count_append, List.count_singleton, if_neg (by simpa using h4), Nat.add_zero]
        refine ⟨by rw [c3, ← h.ntris], by rw [c4, ← h.nquads], fun k hk => lift (h.tri0 k hk), ?_,
          fun k hk => ⟨lift (h.tri1 k hk).1, (h.tri1 k hk).2⟩, ?_, fun k hk => lift (h.quad0 k hk), ?_⟩
        · intro hk; rw [c3]; exact h.tri0n hk
        · intro hk; rw [c3]; exact h.tri1n hk
        · intro hk; rw [c4]; exact h.quad0n hk

theorem foundIn_all (ns : List Nat) : FoundOk ns (foundIn ns 0 noneFound) := by
  have := foundIn_ok ns [] noneFound ⟨rfl, rfl, fun _ h => (by cases h), fun _ => rfl,
    fun _ h => (by cases h), fun _ => (by simp), fun _ h => (by cases h), fun _ => rfl⟩
  simpa using this

end Topo
end MSTK
