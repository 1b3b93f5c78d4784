import Verif.Props.FaceLoops
import Verif.Props.Queries

/-!
C24: a face defined by vertices reports those vertices.
-/
namespace MSTK
namespace Topo

/-- Criterion for a loop in terms of what is stored. -/
theorem loop_of_leads {T : Topo} {f : Nat} {l vs : List Nat} (hf : (T.sf f).alloc) (hl : T.fe f = some l)
    (hlen : l.length = vs.length) (h64 : l.length ≤ 64) (hall : ∀ e ∈ l, (T.se e).alloc)
    (h : ∀ (k e a b : Nat), l[k]? = some e → vs[k]? = some a → vs[(k+1) % vs.length]? = some b →
      Leads T e (fbit (T.fd f) k) a b) : T.Loop f vs := by
  refine ⟨l, mfEdges_plain hf hl, hlen, fun k e he => ?_⟩
  have hk := (List.getElem?_eq_some_iff.1 he).1
  refine ⟨fbit (T.fd f) k, ?_, ?_⟩
  · unfold mfEdgeDir_i; rw [derefF_ok hf, Res.bind_ok, bit_ok _ (by omega)]
  · have ha := List.getElem?_eq_getElem (l := vs) (i := k) (by omega)
    have hb := List.getElem?_eq_getElem (l := vs) (i := (k+1) % vs.length) (Nat.mod_lt _ (by omega))
    have hL := h k e _ _ he ha hb
    have he' := hall e (List.mem_of_getElem? he)
    rw [meVertex_ok he', meVertex_ok he', ha, hb]
    unfold Leads at hL
    rw [hL]
    cases fbit (T.fd f) k <;> exact ⟨rfl, rfl⟩

/-- Consecutive vertices of the cyclic list are different. -/
def StepsDiffer (vs : List Nat) : Prop :=
  ∀ (k a b : Nat), vs[k]? = some a → vs[(k+1) % vs.length]? = some b → a ≠ b

/-- **C24.**  `MF_Set_Vertices(f,n,v)` with `n ≤ 30` live vertices, consecutive ones different:
`MF_Vertices(f,1,0)` returns them in order and the edges of `f` form the loop; the edges that were
there keep their ends; an edge is created only where the two vertices were not joined, and only
one; the other faces report the same vertices and edges as before; the mesh stays consistent. -/
theorem C24_set_vertices {T : Topo} (h : T.Consistent) {f : Nat} {vs : List Nat} (hf : T.sf f = .live)
    (hfe : (T.fe f).getD [] = []) (hn : vs.length ≤ 30) (hv : ∀ v ∈ vs, T.sv v = .live)
    (hd : StepsDiffer vs) :
    ∃ T', T.mfSetVertices f vs = .ok T' ∧ T'.Consistent ∧ T'.sf f = .live ∧
      T'.mfVertices f true none = .ok (vs.map some) ∧ T'.Loop f vs ∧
      (∀ e, T.se e = .live → T'.se e = .live ∧ ∀ i, T'.meVertex e i = T.meVertex e i) ∧
      (∀ e a b, a ≠ b → ¬ T.se e = .live → T'.EdgeHas e a → T'.EdgeHas e b →
        ∀ e', T'.EdgeHas e' a → T'.EdgeHas e' b → e' = e) ∧
      (∀ g, g ≠ f → T.sf g = .live → T'.sf g = .live ∧ T'.mfEdges g true none = T.mfEdges g true none ∧
        ∀ i, T'.mfEdgeDir_i g i = T.mfEdgeDir_i g i) := by
  obtain ⟨T1, es, d', -, h1, g1, r, hp, hlen, hlive, hL, hc⟩ := mfSetVertices_ok h hf hfe hn hv
  have hf1 : T1.sf f = .live := by rw [g1.sf]; exact hf
  have hloop : Loop { T1 with
        fe := upd T1.fe f (some (es.map (·.1))), fd := upd T1.fd f d',
        ef := addAll T1.ef f (es.map (·.1)) } f vs := by
    apply loop_of_leads (l := es.map (·.1))
    · exact alloc_of_live hf1
    · show upd T1.fe f _ f = _; rw [upd_same]
    · simp [hlen]
    · simp; omega
    · intro e he
      obtain ⟨q, hq, rfl⟩ := List.mem_map.1 he
      exact alloc_of_live (hlive q hq)
    · intro k e a b he ha hb
      dsimp only
      rw [upd_same]
      have hk := (List.getElem?_eq_some_iff.1 he).1
      rw [List.length_map] at hk
      have hq := List.getElem?_eq_getElem (l := es) (i := k) hk
      have := hL k a b _ ha hb hq (hd k a b ha hb)
      have hq' : (pairs (es.map (·.1)) (fbit d'))[k]? = some es[k] := by rw [hp]; exact hq
      rw [getElem?_pairs, he] at hq'
      simp only [Option.map_some, Option.some.injEq] at hq'
      rw [← hq'] at this
      exact this
  refine ⟨_, r, hc, hf1, ?_, hloop, ?_, ?_, ?_⟩
  · have := C23_vertices (by exact hf1) hloop true
    simpa using this
  · intro e he
    obtain ⟨a1, a2, -⟩ := g1.old e he
    refine ⟨a1, fun i => ?_⟩
    rw [meVertex_ok (alloc_of_live he), meVertex_ok (by exact alloc_of_live a1)]
    exact congrArg (fun p => Res.ok (endAt p i)) a2
  · intro e a b hab hne ha hb e' ha' hb'
    rw [EdgeHas_iff] at ha hb ha' hb'
    exact g1.only e a b ha.1 hne hab ha.2 hb.2 e' ha'.1 ha'.2 hb'.2
  · intro g hg hgl
    have hfe' : upd T1.fe f (some (es.map (·.1))) g = T.fe g := by rw [upd_ne _ _ hg, g1.fe]
    have hfd' : upd T1.fd f d' g = T.fd g := by rw [upd_ne _ _ hg, g1.fd]
    refine ⟨by rw [← hgl]; exact congrFun g1.sf g, ?_, ?_⟩
    · cases hx : T.fe g with
      | none =>
        unfold mfEdges fedges derefF
        dsimp only
        rw [hfe', hx, g1.sf]
        have : (T.sf g).alloc := alloc_of_live hgl
        rw [if_pos this]; rfl
      | some l =>
        rw [mfEdges_plain (alloc_of_live hgl) hx, mfEdges_plain (by dsimp only; rw [g1.sf]; exact alloc_of_live hgl) (by dsimp only; rw [hfe', hx])]
    · intro i
      unfold mfEdgeDir_i derefF
      dsimp only
      rw [hfd', g1.sf]

/-- More than 30 vertices overrun the local arrays (`MAXPV2`). -/
theorem C24_too_many {T : Topo} {f : Nat} {vs : List Nat} (hf : T.sf f = .live) (hn : 30 < vs.length) :
    T.mfSetVertices f vs = .ub := by
  unfold mfSetVertices
  rw [derefF_ok (alloc_of_live hf), Res.bind_ok, if_pos hn]

/-- The same vertex twice in a row: any edge at the vertex is taken for the edge from the vertex to
itself, and a vertex that was not given is reported in the other direction. -/
theorem C24_negation_repeated :
    answer [.newVertex, .newVertex, .newVertex, .newVertex, .newEdge, .setVertex 0 false 3,
      .setVertex 0 true 0, .newFace, .setVertices 0 [0,0,1,2]] (fun T => T.mfVertices 0 false none)
      = .ok [some 0, some 2, some 1, some 3] := by decide +kernel

/-- The premises of `C24_set_vertices` hold for the square of four vertices one of whose edges is
there already, pointing backwards. -/
example : ∃ T T', empty.run (square.take 8) = .ok T ∧ T.Consistent ∧
    T.mfSetVertices 0 [0,1,2,3] = .ok T' ∧ T'.Loop 0 [0,1,2,3] := by
  obtain ⟨T, r, hc⟩ := reachable (os := square.take 8) (by decide +kernel)
  have hq : ∀ (q : Topo → Bool), (answer (square.take 8) fun T => .ok (q T)) = .ok true → q T = true := by
    intro q hq
    unfold answer at hq
    rw [r, Res.bind_ok] at hq
    injection hq
  obtain ⟨T', h1, _, _, _, h5, _⟩ := C24_set_vertices (f := 0) (vs := [0,1,2,3]) hc
    (by have := hq (fun T => T.sf 0 = .live) (by decide +kernel); simpa using this)
    (by have := hq (fun T => (T.fe 0).getD [] = []) (by decide +kernel); simpa using this)
    (by decide)
    (by
      have := hq (fun T => decide (T.sv 0 = .live ∧ T.sv 1 = .live ∧ T.sv 2 = .live ∧ T.sv 3 = .live)) (by decide +kernel)
      simp at this
      simp [this])
    (by
      intro k a b ha hb
      have hk := (List.getElem?_eq_some_iff.1 ha).1
      have : k = 0 ∨ k = 1 ∨ k = 2 ∨ k = 3 := by simp at hk; omega
      rcases this with rfl | rfl | rfl | rfl <;> simp at ha hb <;> omega)
  exact ⟨T, T', r, hc, h1, h5⟩

end Topo
end MSTK
