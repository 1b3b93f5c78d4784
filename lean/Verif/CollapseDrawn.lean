import Verif.CollapseSpec
import Verif.Props.CheckTopo

/-!
Helper lemmas for C65 (collapse of an edge): the mesh before the edges are merged.
-/
namespace MSTK
namespace Topo

theorem fr_none {T : Topo} (h : T.Consistent) {f : Nat} (hf : T.sf f = .live) (hno : ∀ r, ¬ T.RegionHas r f) :
    T.fr f = (none, none) := by
  have hm := fun r => h.mem_fr (r := r) hf
  rcases hfr : T.fr f with ⟨a, b⟩
  rw [hfr] at hm
  cases a with
  | some r => exact absurd ((hm r).1 (Or.inl (by simp))) (hno r)
  | none => cases b with
    | some r => exact absurd ((hm r).1 (Or.inr (by simp))) (hno r)
    | none => rfl

theorem deleteTriangles_ok : ∀ (fs : List Nat) (T : Topo), T.Consistent → fs.Nodup →
    (∀ f ∈ fs, T.sf f = .live ∧ T.fr f = (none, none) ∧ ∃ l, T.fe f = some l) →
    ∃ sf ef, deleteTriangles fs T =
        .ok ({ T with sf := sf, ef := ef }, fs.filter (fun f => ((T.fe f).getD []).length = 3)) ∧
      Consistent { T with sf := sf, ef := ef } ∧
      ∀ f, sf f = if f ∈ fs ∧ ((T.fe f).getD []).length = 3 then .kept else T.sf f := by
  intro fs
  induction fs with
  | nil => intro T h _ _; exact ⟨T.sf, T.ef, rfl, h, fun f => by simp⟩
  | cons f fs ih =>
    intro T h hn hfs
    obtain ⟨hnot, hn'⟩ := List.nodup_cons.1 hn
    obtain ⟨hlv, hfr, l, hl⟩ := hfs f (by simp)
    have hes := mfEdges_plain (alloc_of_live hlv) hl
    by_cases h3 : l.length = 3
    · have hno : ∀ r d, T.sr r = .live → (f, d) ∉ facesOf T.rf T.rd r := by
        intro r d hr hm
        have := (h.fr.mem f (alloc_of_live hlv) r d).2 ⟨hr, hm⟩
        rw [hfr] at this
        cases d <;> simp [endAt] at this
      obtain ⟨T1, r1, c1⟩ := h.delFace (k := true) (alloc_of_live hlv) hno
      rw [mfDelete_ok hlv (fun e he => alloc_of_live (h.ef.down f e hlv he))] at r1
      injection r1 with r1
      subst r1
      obtain ⟨sf, ef, s1, s2, s3⟩ := ih _ c1 hn' (by
        intro g hg
        have hgf : g ≠ f := fun hc => hnot (hc ▸ hg)
        obtain ⟨q1, q2⟩ := hfs g (by simp [hg])
        exact ⟨by dsimp only; rw [upd_ne _ _ hgf]; exact q1, q2⟩)
      refine ⟨sf, ef, ?_, s2, ?_⟩
      · rw [deleteTriangles, hes, Res.bind_ok, if_pos h3, mfRegions_eq hlv, hfr, Res.bind_ok]
        show (T.mfDelete f true >>= fun T => deleteTriangles fs T >>= fun q => pure (q.1, f :: q.2)) = _
        rw [mfDelete_ok hlv (fun e he => alloc_of_live (h.ef.down f e hlv he)), Res.bind_ok, s1, Res.bind_ok,
          List.filter_cons_of_pos (by rw [hl]; simpa using h3)]
        rfl
      · intro g
        rw [s3 g]
        dsimp only
        by_cases hgf : g = f
        · subst hgf
          rw [if_neg (fun hc => hnot hc.1), upd_same, if_pos ⟨by simp, by rw [hl]; exact h3⟩]
          rfl
        · rw [upd_ne _ _ hgf]; simp [hgf]
    · obtain ⟨sf, ef, s1, s2, s3⟩ := ih T h hn' fun g hg => hfs g (by simp [hg])
      refine ⟨sf, ef, ?_, s2, ?_⟩
      · rw [deleteTriangles, hes, Res.bind_ok, if_neg h3, s1, List.filter_cons_of_neg (by rw [hl]; simpa using h3)]
      · intro g
        rw [s3 g]
        by_cases hgf : g = f
        · subst hgf
          rw [if_neg (fun hc => hnot hc.1), if_neg (fun hc => h3 (by have := hc.2; rwa [hl] at this))]
        · simp [hgf]

/-- `v` for `u` -/
def moved (u v w : Nat) : Nat := if w = u then v else w

theorem Leads.moved {T T' : Topo} {u v x a b : Nat} {d : Bool} (h : T.Leads x d a b)
    (he : T'.ev x = repl u v (T.ev x)) : T'.Leads x d (Topo.moved u v a) (Topo.moved u v b) := by
  unfold Leads at h ⊢
  rw [he, h]
  unfold repl Topo.moved
  cases d <;> simp only [Bool.false_eq_true, if_false, if_true, Option.some.injEq] <;> split <;> split <;> rfl

theorem Closed.moved {T T' : Topo} {ps : List (Nat × Bool)} {vs : List Nat} {u v : Nat} (h : T.Closed ps vs)
    (he : ∀ p ∈ ps, T'.ev p.1 = repl u v (T.ev p.1)) : T'.Closed ps (vs.map (Topo.moved u v)) := by
  refine ⟨by rw [List.length_map]; exact h.1, ?_⟩
  intro k p a b hp ha hb
  rw [List.getElem?_map] at ha
  rw [List.length_map, List.getElem?_map] at hb
  obtain ⟨a', ha', rfl⟩ := Option.map_eq_some_iff.1 ha
  obtain ⟨b', hb', rfl⟩ := Option.map_eq_some_iff.1 hb
  exact (h.2 k p a' b' hp ha' hb').moved (he p (List.mem_of_getElem? hp))

/-- an edge that has become a point is left out -/
theorem Closed.dropHead {T : Topo} {p : Nat × Bool} {ps : List (Nat × Bool)} {a : Nat} {V : List Nat}
    (h : T.Closed (p :: ps) (a :: a :: V)) : T.Closed ps (a :: V) := by
  have hl := h.1
  simp only [List.length_cons] at hl
  refine ⟨by simp only [List.length_cons]; omega, ?_⟩
  intro k q x y hq hx hy
  have hk : k < ps.length := (List.getElem?_eq_some_iff.1 hq).1
  refine h.2 (k+1) q x y (by rw [List.getElem?_cons_succ]; exact hq) (by rw [List.getElem?_cons_succ]; exact hx) ?_
  simp only [List.length_cons] at hy ⊢
  by_cases hc : k + 1 = V.length + 1
  · rw [hc, Nat.mod_self] at hy
    rw [show k + 1 + 1 = V.length + 1 + 1 by omega, Nat.mod_self]
    exact hy
  · rw [Nat.mod_eq_of_lt (by omega)] at hy
    rw [Nat.mod_eq_of_lt (by omega), List.getElem?_cons_succ]
    exact hy

theorem Closed.vertex_edge {T : Topo} {ps : List (Nat × Bool)} {vs : List Nat} (h : T.Closed ps vs) {w : Nat}
    (hw : w ∈ vs) : ∃ p ∈ ps, ends T.ev p.1 w := by
  obtain ⟨k, hk, rfl⟩ := List.getElem_of_mem hw
  have hk1 : (k+1) % vs.length < vs.length := Nat.mod_lt _ (by omega)
  have hkp : k < ps.length := by rw [h.1]; exact hk
  have := h.2 k ps[k] vs[k] _ (List.getElem?_eq_getElem hkp) (List.getElem?_eq_getElem hk) (List.getElem?_eq_getElem hk1)
  refine ⟨ps[k], List.getElem_mem _, ?_⟩
  unfold Leads at this
  unfold ends
  rw [this]
  cases ps[k].2 <;> simp

theorem Closed.edge_vertex {T : Topo} {ps : List (Nat × Bool)} {vs : List Nat} (h : T.Closed ps vs) {p : Nat × Bool}
    {w : Nat} (hp : p ∈ ps) (hw : ends T.ev p.1 w) : w ∈ vs := by
  obtain ⟨k, hk, rfl⟩ := List.getElem_of_mem hp
  have hkv : k < vs.length := by rw [← h.1]; exact hk
  have hk1 : (k+1) % vs.length < vs.length := Nat.mod_lt _ (by omega)
  have := h.2 k _ vs[k] _ (List.getElem?_eq_getElem hk) (List.getElem?_eq_getElem hkv) (List.getElem?_eq_getElem hk1)
  unfold Leads at this
  unfold ends at hw
  rw [this] at hw
  cases hd : ps[k].2 <;> simp [hd] at hw <;> rcases hw with rfl | rfl <;> exact List.getElem_mem _

/-- the cycle of a face of a consistent mesh -/
theorem Loop.edgesOf {T : Topo} (h : T.Consistent) {f : Nat} {vs : List Nat} (hf : T.sf f = .live) (hl : T.Loop f vs) :
    ∃ l, T.fe f = some l ∧ l.length = vs.length ∧ T.Closed (T.edgesOf f) vs := by
  obtain ⟨l, h1, -, h2, -⟩ := hl.stored (alloc_of_live hf)
  refine ⟨l, h1, h2, ?_⟩
  rw [edgesOf_some h1]
  exact hl.closed (alloc_of_live hf) h1 fun e he => alloc_of_live (h.fedgesLive hf h1 e he)

theorem Loop.touches {T : Topo} (h : T.Consistent) {f w : Nat} {vs : List Nat} (hf : T.sf f = .live) (hl : T.Loop f vs)
    (hw : w ∈ vs) : T.Touches f w := by
  obtain ⟨l, h1, -, h2⟩ := hl.edgesOf h hf
  obtain ⟨p, hp, he⟩ := h2.vertex_edge hw
  have hm : p.1 ∈ l := by
    have := List.mem_map_of_mem (f := (·.1)) hp
    rw [edgesOf_map_fst, h1] at this; exact this
  exact ⟨p.1, EdgeHas_iff.2 ⟨h.fedgesLive hf h1 _ hm, he⟩, faceHas_fe.2 ⟨hf, by rw [h1]; exact hm⟩⟩

theorem Touches.mem {T : Topo} (h : T.Consistent) {f w : Nat} {vs : List Nat} (hl : T.Loop f vs) (ht : T.Touches f w) :
    w ∈ vs := by
  obtain ⟨x, h1, h2⟩ := ht
  obtain ⟨l, g1, -, g2⟩ := hl.edgesOf h h2.1
  have hx := (faceHas_fe.1 h2).2
  rw [← edgesOf_map_fst] at hx
  obtain ⟨p, hp, rfl⟩ := List.mem_map.1 hx
  exact g2.edge_vertex hp (EdgeHas_iff.1 h1).2

theorem drawnTo_rotate {u v : Nat} {vs ws : List Nat} (h : vs ~r ws) : drawnTo u v vs ~r drawnTo u v ws := by
  unfold drawnTo
  have hm : v ∈ vs ↔ v ∈ ws := h.perm.mem_iff
  by_cases hv : v ∈ vs
  · rw [if_pos hv, if_pos (hm.1 hv)]; exact isRotated_filter h _
  · rw [if_neg hv, if_neg (fun hc => hv (hm.2 hc))]; exact h.map _

/-- The situation round a face, not a triangle, that has the edge. -/
theorem roundEdge {T : Topo} {e u v f : Nat} {vs l : List Nat} (hl : T.fe f = some l) (hc : T.Closed (T.edgesOf f) vs)
    (h4 : 4 ≤ vs.length) (hlen : l.length = vs.length) (hel : e ∈ l)
    (hev : T.ev e = (some u, some v) ∨ T.ev e = (some v, some u)) :
    ∃ i p0 d p2 rest x a b ws, i < l.length ∧ (T.edgesOf f).rotate i = p0 :: (e, d) :: p2 :: rest ∧ rest ≠ [] ∧
      vs.rotate i = x :: a :: b :: ws ∧ ws ≠ [] ∧ ((a = u ∧ b = v) ∨ (a = v ∧ b = u)) := by
  have hfst : (T.edgesOf f).map (·.1) = l := by rw [edgesOf_map_fst, hl]; rfl
  have hPl : (T.edgesOf f).length = vs.length := hc.1
  rw [← hfst] at hel
  obtain ⟨q, hq, hqe⟩ := List.mem_map.1 hel
  obtain ⟨k, hk⟩ := List.mem_iff_getElem?.1 hq
  have hkl : k < (T.edgesOf f).length := (List.getElem?_eq_some_iff.1 hk).1
  have hrk := drop_one_rotate hk
  generalize hQ : ((T.edgesOf f).rotate k).drop 1 = Q at hrk
  have hQl : Q.length = vs.length - 1 := by rw [← hQ, List.length_drop, List.length_rotate, hPl]
  have hQne : Q ≠ [] := by intro hc; rw [hc] at hQl; simp at hQl; omega
  have hQs : Q.dropLast ++ [Q.getLast hQne] = Q := List.dropLast_append_getLast hQne
  have hrot : (T.edgesOf f).rotate ((k + (vs.length - 1)) % vs.length) = Q.getLast hQne :: q :: Q.dropLast := by
    rw [← hPl, List.rotate_mod, ← List.rotate_rotate, hrk, hPl]
    conv_lhs => rw [← hQs]
    rw [← List.cons_append, List.rotate_eq_drop_append_take (by simp; omega)]
    have : (q :: Q.dropLast).length = vs.length - 1 := by simp; omega
    rw [List.drop_append_of_le_length (by omega), List.take_append_of_le_length (by omega), ← this, List.drop_length,
      List.take_length]
    rfl
  have hdl : Q.dropLast.length = vs.length - 2 := by rw [List.length_dropLast]; omega
  obtain ⟨p2, rest, hdr⟩ : ∃ p2 rest, Q.dropLast = p2 :: rest := by
    cases hd : Q.dropLast with
    | nil => rw [hd] at hdl; simp at hdl; omega
    | cons p2 rest => exact ⟨p2, rest, rfl⟩
  rw [hdr] at hrot hdl
  have hcr := hc.rotate ((k + (vs.length - 1)) % vs.length)
  rw [hrot] at hcr
  have hil : (k + (vs.length - 1)) % vs.length < vs.length := Nat.mod_lt _ (by omega)
  have hvl : (vs.rotate ((k + (vs.length - 1)) % vs.length)).length = vs.length := List.length_rotate ..
  generalize (k + (vs.length - 1)) % vs.length = i at *
  obtain ⟨x, a, b, ws, hws⟩ : ∃ x a b ws, vs.rotate i = x :: a :: b :: ws := by
    match hv : vs.rotate i with
    | [] => rw [hv] at hvl; simp at hvl; omega
    | [_] => rw [hv] at hvl; simp at hvl; omega
    | [_, _] => rw [hv] at hvl; simp at hvl; omega
    | x :: a :: b :: ws => exact ⟨x, a, b, ws, rfl⟩
  rw [hws] at hcr hvl
  simp only [List.length_cons] at hvl hdl
  refine ⟨i, Q.getLast hQne, q.2, p2, rest, x, a, b, ws, by omega, ?_, ?_, hws, ?_, ?_⟩
  · rw [hrot, ← hqe]
  · intro hc; rw [hc] at hdl; simp at hdl; omega
  · intro hc; rw [hc] at hvl; simp at hvl; omega
  · have hlead : T.Leads q.1 q.2 a b := by
      refine hcr.2 1 q a b rfl rfl ?_
      simp only [List.length_cons]
      rw [Nat.mod_eq_of_lt (by omega)]
      rfl
    unfold Leads at hlead
    have hqe : q.1 = e := hqe
    rw [hqe] at hlead
    rcases hev with hev | hev <;> rw [hev] at hlead <;> cases hd : q.2 <;> simp [hd] at hlead
    · exact Or.inr ⟨hlead.2.symm, hlead.1.symm⟩
    · exact Or.inl ⟨hlead.1.symm, hlead.2.symm⟩
    · exact Or.inl ⟨hlead.2.symm, hlead.1.symm⟩
    · exact Or.inr ⟨hlead.1.symm, hlead.2.symm⟩

end Topo
end MSTK
