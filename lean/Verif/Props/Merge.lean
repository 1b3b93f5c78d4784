import Verif.SplitModel
import Verif.Props.Queries

/-!
C30: `MVs_Merge` redirects every use of the second vertex.

Specification: `Merged` for the mesh, `MergedSet` for one mesh set, in terms of the answers before
and after.
-/
namespace MSTK
namespace Topo

/-- The mesh before (`T`) and after (`T'`) vertex `v2` was merged into `v1`. -/
structure Merged (T T' : Topo) (v1 v2 : Nat) : Prop where
  /-- an end of an edge is `v1` where it was `v2`, and unchanged otherwise -/
  ends : ∀ e i, T.se e = .live → T'.se e = .live ∧
    T'.meVertex e i = if T.meVertex e i = .ok (some v2) then .ok (some v1) else T.meVertex e i
  /-- no edge refers to `v2` -/
  unused : ∀ e, ¬ T'.EdgeHas e v2
  /-- the edges of `v1` are those of both -/
  edges : ∃ L, T'.mvEdges v1 = .ok L ∧ (L.getD []).Nodup ∧
    ∀ e, e ∈ L.getD [] ↔ T.EdgeHas e v1 ∨ T.EdgeHas e v2
  /-- `v2` is deleted (`MV_Delete(v2,1)`), every other vertex stays -/
  gone : T'.sv v2 = .kept
  vertices : ∀ v, v ≠ v2 → T'.sv v = T.sv v
  other_edges : T'.se = T.se
  /-- faces and regions are as before -/
  faces : T'.sf = T.sf ∧ ∀ f, T'.mfEdges f true none = T.mfEdges f true none ∧
    (∀ x, T'.mfEdgeDir f x = T.mfEdgeDir f x) ∧ ∀ i, T'.mfRegion f i = T.mfRegion f i
  regions : T'.sr = T.sr ∧ ∀ r, T'.mrFaces r = T.mrFaces r ∧ ∀ f, T'.mrFaceDir r f = T.mrFaceDir r f

/-- A mesh set before (`s`) and after (`s'`). -/
structure MergedSet (v1 v2 : Nat) (s s' : List Nat) : Prop where
  unused : v2 ∉ s'
  once : s'.Nodup
  mem : v1 ∈ s' ↔ v1 ∈ s ∨ v2 ∈ s
  others : ∀ x, x ≠ v1 → x ≠ v2 → (x ∈ s' ↔ x ∈ s)

/-! ### helpers -/

/-- the ends of an edge with `o` replaced by `n` -/
def repl (o n : Nat) (p : Option Nat × Option Nat) : Option Nat × Option Nat :=
  (if p.1 = some o then some n else p.1, if p.2 = some o then some n else p.2)

theorem meReplaceVertex_repl {T : Topo} (h : T.Consistent) {e o n : Nat} (he : T.se e = .live)
    (hn : T.sv n = .live) (hdeg : ¬ ((T.ev e).1 = some o ∧ (T.ev e).2 = some o)) :
    ∃ ve, T.meReplaceVertex e o n = .ok { T with ev := upd T.ev e (repl o n (T.ev e)), ve := ve } := by
  have hlive : Topo.ends T.ev e o → (T.sv o).alloc := fun hb => alloc_of_live (h.ve.down e o he hb)
  unfold meReplaceVertex repl
  rw [derefE_ok (alloc_of_live he), Res.bind_ok]
  by_cases h1 : (T.ev e).1 = some o
  · have h2 : (T.ev e).2 ≠ some o := fun h2 => hdeg ⟨h1, h2⟩
    rw [if_pos h1, mvAddEdge_ok (by exact alloc_of_live hn), Res.bind_ok,
      mvRemEdge_ok (by exact hlive (Or.inl h1)), if_pos h1, if_neg h2]
    exact ⟨_, rfl⟩
  · rw [if_neg h1, if_neg h1]
    by_cases h2 : (T.ev e).2 = some o
    · rw [if_pos h2, mvAddEdge_ok (by exact alloc_of_live hn), Res.bind_ok,
        mvRemEdge_ok (by exact hlive (Or.inr h2)), if_pos h2]
      exact ⟨_, rfl⟩
    · rw [if_neg h2, if_neg h2]
      refine ⟨T.ve, ?_⟩
      have : upd T.ev e ((T.ev e).1, (T.ev e).2) = T.ev := by
        funext x
        rw [upd_apply]
        split
        · rename_i hx; rw [hx]
        · rfl
      rw [this]
      rfl

theorem replaceEnds_ok {v1 v2 : Nat} (hne : v2 ≠ v1) : ∀ (es : List Nat) (T : Topo), T.Consistent →
    T.sv v1 = .live → es.Nodup →
    (∀ e ∈ es, T.se e = .live ∧ ¬ ((T.ev e).1 = some v2 ∧ (T.ev e).2 = some v2)) →
    ∃ ev ve, replaceEnds v1 v2 es T = .ok { T with ev := ev, ve := ve } ∧
      Consistent { T with ev := ev, ve := ve } ∧
      ∀ e, ev e = if e ∈ es then repl v2 v1 (T.ev e) else T.ev e := by
  intro es
  induction es with
  | nil => intro T h _ _ _; exact ⟨T.ev, T.ve, rfl, h, fun _ => rfl⟩
  | cons e es ih =>
    intro T h hv hnd hes
    obtain ⟨he, hdeg⟩ := hes e (by simp)
    obtain ⟨hnot, hnd'⟩ := List.nodup_cons.1 hnd
    obtain ⟨ve, hr⟩ := meReplaceVertex_repl h he hv hdeg
    obtain ⟨T1, hr1, hc1⟩ := h.replaceVertex he hv hne hdeg
    rw [hr] at hr1
    injection hr1 with hr1
    subst hr1
    obtain ⟨ev', ve', r2, c2, k2⟩ := ih _ hc1 hv hnd' (by
      intro x hx
      refine ⟨(hes x (by simp [hx])).1, ?_⟩
      show ¬ ((upd T.ev e _ x).1 = some v2 ∧ (upd T.ev e _ x).2 = some v2)
      rw [upd_ne _ _ (by rintro rfl; exact hnot hx)]
      exact (hes x (by simp [hx])).2)
    refine ⟨ev', ve', ?_, c2, ?_⟩
    · rw [show replaceEnds v1 v2 (e :: es) T = (T.meReplaceVertex e v2 v1 >>= fun T =>
        replaceEnds v1 v2 es T) from rfl, hr, Res.bind_ok, r2]
    · intro x
      rw [k2 x]
      dsimp only
      by_cases hx : x = e
      · subst hx
        rw [if_neg hnot, upd_same, if_pos (by simp)]
      · rw [upd_ne _ _ hx]
        simp [hx]

theorem mem_replaceFirst {x y : Nat} (hxy : x ≠ y) : ∀ {s : List Nat}, s.Nodup → x ∈ s → y ∉ s →
    (replaceFirst x y s).Nodup ∧ ∀ z, z ∈ replaceFirst x y s ↔ z = y ∨ (z ≠ x ∧ z ∈ s) := by
  intro s
  induction s with
  | nil => intro _ h; cases h
  | cons a s ih =>
    intro hn hx hy
    obtain ⟨ha, hn'⟩ := List.nodup_cons.1 hn
    rw [List.mem_cons, not_or] at hy
    unfold replaceFirst
    by_cases hax : a = x
    · subst hax
      rw [if_pos rfl]
      refine ⟨List.nodup_cons.2 ⟨hy.2, hn'⟩, ?_⟩
      intro z
      simp only [List.mem_cons]
      constructor
      · rintro (h | h)
        · exact Or.inl h
        · exact Or.inr ⟨by rintro rfl; exact ha h, Or.inr h⟩
      · rintro (h | ⟨h1, h2 | h2⟩)
        · exact Or.inl h
        · exact absurd h2 h1
        · exact Or.inr h2
    · rw [if_neg hax]
      rcases List.mem_cons.1 hx with h | hx
      · exact absurd h.symm hax
      · obtain ⟨i1, i2⟩ := ih hn' hx hy.2
        refine ⟨List.nodup_cons.2 ⟨?_, i1⟩, ?_⟩
        · rw [i2]
          rintro (h | h)
          · exact hy.1 h.symm
          · exact ha h.2
        · intro z
          simp only [List.mem_cons, i2]
          constructor
          · rintro (h | h | h)
            · subst h; exact Or.inr ⟨hax, Or.inl rfl⟩
            · exact Or.inl h
            · exact Or.inr ⟨h.1, Or.inr h.2⟩
          · rintro (h | ⟨h1, h2 | h2⟩)
            · exact Or.inr (Or.inl h)
            · exact Or.inl h2
            · exact Or.inr (Or.inr ⟨h1, h2⟩)

/-! ### the property -/

/-- **C30, sets.** -/
theorem C30_sets {v1 v2 : Nat} (hne : v1 ≠ v2) {s : List Nat} (hs : s.Nodup) :
    MergedSet v1 v2 s (mergeInSet v1 v2 s) := by
  unfold mergeInSet
  by_cases h2 : v2 ∈ s
  · rw [if_pos h2]
    by_cases h1 : v1 ∈ s
    · rw [if_pos h1]
      have hm : ∀ x, x ∈ s.erase v2 ↔ x ≠ v2 ∧ x ∈ s := fun x => hs.mem_erase_iff
      exact ⟨by rw [hm]; simp, hs.erase _, by rw [hm]; simp [hne, h1],
        fun x _ hx => by rw [hm]; simp [hx]⟩
    · rw [if_neg h1]
      obtain ⟨k1, k2⟩ := mem_replaceFirst (Ne.symm hne) hs h2 h1
      exact ⟨by rw [k2]; simp [Ne.symm hne], k1, by rw [k2]; simp [h2],
        fun x hx hx2 => by rw [k2]; simp [hx, hx2]⟩
  · rw [if_neg h2]
    exact ⟨h2, hs, by simp [h2], fun _ _ _ => Iff.rfl⟩

/-- **C30, in part.**  Two different live vertices are merged, of which the second has no edge from
itself to itself. -/
theorem C30_merge_partial {T : Topo} (h : T.Consistent) {v1 v2 : Nat} (S : List (List Nat))
    (hv1 : T.sv v1 = .live) (hv2 : T.sv v2 = .live) (hne : v1 ≠ v2)
    (hdeg : ∀ e, T.se e = .live →
      ¬ (T.meVertex e false = .ok (some v2) ∧ T.meVertex e true = .ok (some v2))) :
    ∃ T' S', T.mvsMerge S v1 v2 = .ok (T', S') ∧ T'.Consistent ∧ Merged T T' v1 v2 ∧
      S'.length = S.length ∧ ∀ (k : Nat) (s : List Nat), S[k]? = some s → s.Nodup →
        ∃ s', S'[k]? = some s' ∧ MergedSet v1 v2 s s' := by
  obtain ⟨L, hL1, hL2⟩ := mvEdges_getD (alloc_of_live hv2)
  have hmem2 : ∀ e, e ∈ T.ve v2 ↔ T.EdgeHas e v2 := fun e => h.mem_ve hv2
  have hmem1 : ∀ e, e ∈ T.ve v1 ↔ T.EdgeHas e v1 := fun e => h.mem_ve hv1
  have hdeg' : ∀ e, T.se e = .live → ¬ ((T.ev e).1 = some v2 ∧ (T.ev e).2 = some v2) := by
    intro e he hc
    apply hdeg e he
    rw [meVertex_ok (alloc_of_live he), meVertex_ok (alloc_of_live he)]
    simpa [endAt] using hc
  obtain ⟨ev, ve, r1, c1, k1⟩ := replaceEnds_ok (Ne.symm hne) (T.ve v2) T h hv1
    (h.ve.nodup v2 (alloc_of_live hv2)) (fun e he => ⟨((hmem2 e).1 he).1, hdeg' e ((hmem2 e).1 he).1⟩)
  -- the ends of live edges
  have kev : ∀ e, T.se e = .live → ev e = repl v2 v1 (T.ev e) := by
    intro e he
    rw [k1 e]
    split
    · rfl
    · rename_i hc
      rw [hmem2] at hc
      have h1 : (T.ev e).1 ≠ some v2 := by
        intro h1; apply hc; refine ⟨he, (meVertex_ends (alloc_of_live he)).2 (Or.inl h1)⟩
      have h2 : (T.ev e).2 ≠ some v2 := by
        intro h1; apply hc; refine ⟨he, (meVertex_ends (alloc_of_live he)).2 (Or.inr h1)⟩
      unfold repl
      rw [if_neg h1, if_neg h2]
  have hno : ∀ e, T.se e = .live → ¬ Topo.ends ev e v2 := by
    intro e he
    unfold Topo.ends
    rw [kev e he]
    unfold repl
    have hx : some v1 ≠ some v2 := fun hc => hne (Option.some.inj hc)
    rintro (h1 | h1)
    · dsimp only at h1
      split at h1
      · exact hx h1
      · contradiction
    · dsimp only at h1
      split at h1
      · exact hx h1
      · contradiction
  obtain ⟨T2, r2, c2⟩ := c1.delVertex (v := v2) (k := true) (by exact alloc_of_live hv2) hno
  have e2 : T2 = { T with ev := ev, ve := ve, sv := upd T.sv v2 .kept } := by
    unfold mvDelete at r2
    rw [derefV_ok (by exact alloc_of_live hv2), Res.bind_ok] at r2
    injection r2 with r2
    rw [← r2]
    rfl
  have hev2 : T2.ev = ev := by rw [e2]
  have hse2 : T2.se = T.se := by rw [e2]
  have hsv2 : T2.sv = upd T.sv v2 .kept := by rw [e2]
  have hsf2 : T2.sf = T.sf := by rw [e2]
  have hsr2 : T2.sr = T.sr := by rw [e2]
  have hends : ∀ e, T2.EdgeHas e v2 ↔ T.se e = .live ∧ Topo.ends ev e v2 := by
    intro e
    unfold EdgeHas
    rw [hse2]
    constructor
    · rintro ⟨a, b⟩
      exact ⟨a, by rw [← hev2]; exact (meVertex_ends (by rw [hse2]; exact alloc_of_live a)).1 b⟩
    · rintro ⟨a, b⟩
      exact ⟨a, (meVertex_ends (by rw [hse2]; exact alloc_of_live a)).2 (by rw [hev2]; exact b)⟩
  refine ⟨T2, S.map (mergeInSet v1 v2), ?_, c2, ?_, by simp, ?_⟩
  · unfold mvsMerge
    rw [derefV_ok (alloc_of_live hv1), Res.bind_ok, hL1, Res.bind_ok, hL2, r1, Res.bind_ok]
    dsimp only
    rw [r2]
    rfl
  · have hv1' : T2.sv v1 = .live := by rw [hsv2, upd_ne _ _ hne]; exact hv1
    refine ⟨?_, ?_, ?_, ?_, ?_, hse2, ⟨hsf2, ?_⟩, ⟨hsr2, ?_⟩⟩
    · intro e i he
      refine ⟨by rw [hse2]; exact he, ?_⟩
      rw [meVertex_ok (by rw [hse2]; exact alloc_of_live he), meVertex_ok (alloc_of_live he), hev2, kev e he]
      unfold repl endAt
      cases i
      · simp only [Bool.false_eq_true, if_false, Res.ok.injEq]
        split <;> rfl
      · simp only [if_true, Res.ok.injEq]
        split <;> rfl
    · intro e hc
      obtain ⟨a, b⟩ := (hends e).1 hc
      exact hno e a b
    · obtain ⟨L', hL', hL2'⟩ := mvEdges_getD (alloc_of_live hv1')
      refine ⟨L', hL', ?_, ?_⟩
      · rw [hL2']; exact c2.ve.nodup v1 (alloc_of_live hv1')
      · intro e
        rw [hL2', c2.mem_ve hv1']
        unfold EdgeHas
        rw [hse2]
        constructor
        · rintro ⟨a, b⟩
          rw [meVertex_ends (by rw [hse2]; exact alloc_of_live a), hev2] at b
          unfold Topo.ends at b
          rw [kev e a] at b
          rw [meVertex_ends (alloc_of_live a), meVertex_ends (alloc_of_live a)]
          unfold repl at b
          unfold Topo.ends
          dsimp only at b
          rcases b with b | b
          · split at b
            · exact Or.inr ⟨a, Or.inl (by assumption)⟩
            · exact Or.inl ⟨a, Or.inl b⟩
          · split at b
            · exact Or.inr ⟨a, Or.inr (by assumption)⟩
            · exact Or.inl ⟨a, Or.inr b⟩
        · intro hh
          have a : T.se e = .live := by rcases hh with hh | hh <;> exact hh.1
          refine ⟨a, ?_⟩
          rw [meVertex_ends (by rw [hse2]; exact alloc_of_live a), hev2]
          rw [meVertex_ends (alloc_of_live a), meVertex_ends (alloc_of_live a)] at hh
          unfold Topo.ends at hh ⊢
          rw [kev e a]
          unfold repl
          dsimp only
          rcases hh with ⟨-, hh | hh⟩ | ⟨-, hh | hh⟩
          · left; rw [hh, if_neg (fun hc => hne (Option.some.inj hc))]
          · right; rw [hh, if_neg (fun hc => hne (Option.some.inj hc))]
          · left; rw [if_pos hh]
          · right; rw [if_pos hh]
    · rw [hsv2, upd_same]
    · intro v hv; rw [hsv2, upd_ne _ _ hv]
    · intro f
      refine ⟨?_, ?_, ?_⟩
      · rw [e2]; rfl
      · intro x; rw [e2]; rfl
      · intro i; rw [e2]; rfl
    · intro r
      refine ⟨?_, ?_⟩
      · rw [e2]; rfl
      · intro x; rw [e2]; rfl
  · intro k s hk hs
    refine ⟨mergeInSet v1 v2 s, ?_, C30_sets hne hs⟩
    rw [List.getElem?_map, hk]
    rfl

/-- The five vertices of two tetrahedra; merging the tips 3 and 4 redirects the three edges of 4. -/
example : ∃ T, empty.run twoTets = .ok T ∧ T.Consistent ∧ T.sv 3 = .live ∧ T.sv 4 = .live ∧
    (∀ e, T.se e = .live → ¬ (T.meVertex e false = .ok (some 4) ∧ T.meVertex e true = .ok (some 4))) ∧
    T.mvEdges 4 = .ok (some [6,7,8]) := by
  obtain ⟨T, h1, h2⟩ := reachable (os := twoTets) (by decide +kernel)
  have hq : answer twoTets (fun T => .ok (decide (T.sv 3 = .live) && decide (T.sv 4 = .live) &&
      decide (T.mvEdges 4 = .ok (some [6,7,8])) && (List.range T.ne).all fun e => decide (¬
        (T.meVertex e false = .ok (some 4) ∧ T.meVertex e true = .ok (some 4))))) = .ok true := by
    decide +kernel
  unfold answer at hq
  rw [h1, Res.bind_ok, Res.ok.injEq] at hq
  simp only [Bool.and_eq_true, decide_eq_true_iff, List.all_eq_true] at hq
  refine ⟨T, h1, h2, hq.1.1.1, hq.1.1.2, ?_, hq.1.2⟩
  intro e he
  refine hq.2 e (List.mem_range.2 ?_)
  by_contra hge
  rw [h2.newE e (by omega)] at he
  cases he

/-! ### where the code does not do what the property says -/

/-- Merging a vertex with itself deletes it and takes it out of its edges' lists, while its edges
still refer to it. -/
theorem C30_negation_same_vertex :
    let os : List Op := [.newVertex, .newVertex, .newEdge, .setVertex 0 false 0, .setVertex 0 true 1]
    answer os (fun T => do
      let p ← T.mvsMerge [[0]] 0 0
      pure (p.1.sv 0, p.2, ← p.1.meVertex 0 false, ← p.1.mvEdges 0)) =
      .ok (.kept, [[]], some 0, none) := by decide +kernel

/-- An edge from the second vertex to itself keeps a reference to the deleted vertex. -/
theorem C30_negation_edge_to_itself :
    let os : List Op := [.newVertex, .newVertex, .newEdge, .setVertex 0 false 1, .setVertex 0 true 1]
    answer os (fun T => do
      let p ← T.mvsMerge [] 0 1
      pure (p.1.sv 1, ← p.1.meVertex 0 false, ← p.1.meVertex 0 true)) =
      .ok (.kept, some 0, some 1) := by decide +kernel

end Topo
end MSTK
