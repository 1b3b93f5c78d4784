import Verif.Props.MergeFaces

/-!
C55: merging two edges with the same vertices (`MEs_Merge`).

Specification: `useOf` (how a face uses the first edge after it used the second), `EdgesMerged` for
the mesh, `MergedSet` (Props/Merge) for the mesh sets.
-/
namespace MSTK
namespace Topo

/-- `e1` for `e2` in the use of an edge by a face: in the same direction if the two edges lead the
same way, in the opposite one otherwise -/
def useOf (e1 e2 : Nat) (same : Bool) (p : Nat × Bool) : Nat × Bool :=
  if p.1 = e2 then (e1, if same then p.2 else !p.2) else p

/-- The mesh before (`T`) and after (`T'`) edge `e2` was merged into `e1`. -/
structure EdgesMerged (T T' : Topo) (e1 e2 : Nat) (same : Bool) : Prop where
  consistent : T'.Consistent
  vertices : T'.view.sv = T.view.sv
  /-- the second edge is deleted (`ME_Delete(e2,1)`), every other edge is as before -/
  edges : T'.view.se = upd T.view.se e2 .kept ∧ T'.view.ends = T.view.ends
  faces : T'.view.sf = T.view.sf
  /-- the cycle of edges of a face is as before, with `e1` in the place of `e2` -/
  in_faces : ∀ f, T.sf f = .live → T'.view.edges f ~r (T.view.edges f).map (useOf e1 e2 same)
  other_faces : ∀ f, ¬ T.FaceHas f e2 → T'.view.edges f = T.view.edges f
  /-- a face goes round the same vertices -/
  loops : ∀ f vs, T.sf f = .live → T.Loop f vs → ∃ vs', vs' ~r vs ∧ T'.Loop f vs'
  regions : T'.view.sr = T.view.sr ∧ T'.view.faces = T.view.faces ∧
    ∀ r, T'.mrElementType r = T.mrElementType r

/-! ### helpers -/

theorem map_id_of {α : Type} {f : α → α} : ∀ {l : List α}, (∀ x ∈ l, f x = x) → l.map f = l := by
  intro l
  induction l with
  | nil => intro _; rfl
  | cons x xs ih =>
    intro h
    rw [List.map_cons, h x (by simp), ih fun y hy => h y (by simp [hy])]

theorem drop_one_rotate {α : Type} {l : List α} {i : Nat} {x : α} (h : l[i]? = some x) :
    l.rotate i = x :: (l.rotate i).drop 1 := by
  have := take_one_rotate h
  have e := List.take_append_drop 1 (l.rotate i)
  rw [this] at e
  exact e.symm

/-- one face -/
theorem swapEdge_ok {T : Topo} (h : T.Consistent) {f e1 e2 a b : Nat} {l : List Nat} {same : Bool}
    (hf : T.sf f = .live) (hl : T.fe f = some l) (hnd : l.Nodup) (he2 : e2 ∈ l) (h32 : l.length ≤ 32)
    (he1 : T.se e1 = .live) (hno : e1 ∉ l) (hab : a ≠ b) (hev2 : T.ev e2 = (some a, some b))
    (hev1 : T.ev e1 = if same then (some a, some b) else (some b, some a)) :
    ∃ T' l' w' ef, T.mfReplaceEdges f [e2] [e1] = .ok T' ∧ T'.Consistent ∧
      T' = { T with fe := upd T.fe f (some l'), fd := upd T.fd f w', ef := ef } ∧
      l'.Perm (l.map fun x => if x = e2 then e1 else x) ∧
      pairs l' (fbit w') ~r (pairs l (fbit (T.fd f))).map (useOf e1 e2 same) := by
  obtain ⟨i, hi⟩ := List.mem_iff_getElem?.1 he2
  have hilt := (List.getElem?_eq_some_iff.1 hi).1
  have hlive := h.fedgesLive hf hl
  have hes := mfEdges_plain (alloc_of_live hf) hl
  have hnamed := C25_replace_named_partial (T := T) (nu := [e1]) (nold := 1) hf hes hnd h32 hilt
    (by omega) (Or.inr (by omega))
  rw [take_one_rotate hi] at hnamed
  have hn1 : ∀ x ∈ [e1], T.se x = .live ∧ x ∉ l := by
    intro x hx; rw [List.mem_singleton] at hx; subst hx; exact ⟨he1, hno⟩
  obtain ⟨T', r, hc⟩ := h.replaceEdgesAt (nold := 1) (i := i) (nu := [e1]) hf hl hnd hilt (by omega) (by omega)
    (by simp) (by simp) hn1 h32 (by simp; omega) (fun hx => by simp at hx)
  obtain ⟨o0, o1, n0, n1, new, l', w', ho0, ho1, hh0, hh1, hpd, hm, h1, hp, hrot⟩ :=
    mfReplaceEdges_i_ok (T := T) (nold := 1) (i := i) (nu := [e1]) (alloc_of_live hf) hl hnd hilt (by omega)
    (by omega) (by simp) (by simp)
    (fun e he => ⟨alloc_of_live (hn1 e he).1, (hn1 e he).2⟩)
    (fun e he => alloc_of_live (hlive e he)) h32 (by simp; omega) (fun hx => by simp at hx)
  obtain ⟨s, hs⟩ := hrot (by simp)
  generalize hd : fbit (T.fd f) i = d
  have hpi : (pairs l (fbit (T.fd f)))[i]? = some (e2, d) := by rw [getElem?_pairs, hi, ← hd]; rfl
  rw [take_one_rotate hpi] at ho0 ho1
  simp only [List.head?_cons, List.getLast?_singleton, Option.some.injEq] at ho0 ho1
  subst ho0; subst ho1
  have hrev : (if revB T n0 n1 (endAt (T.ev (e2, d).1) (!(e2, d).2)) (endAt (T.ev (e2, d).1) (e2, d).2)
      then [e1].reverse else [e1]) = [e1] := by split <;> rfl
  rw [hrev] at hpd
  -- the direction
  have hnew : new = [(e1, if same then d else !d)] := by
    rw [show T.pathDirs (endAt (T.ev (e2, d).1) (!(e2, d).2)) [e1] = (T.meVertex e1 false >>= fun v0 =>
      T.meVertex e1 (decide (v0 = endAt (T.ev (e2, d).1) (!(e2, d).2))) >>= fun _ =>
        (pure [(e1, decide (v0 = endAt (T.ev (e2, d).1) (!(e2, d).2)))] : Res _)) from rfl,
      meVertex_ok (alloc_of_live he1), Res.bind_ok, meVertex_ok (alloc_of_live he1), Res.bind_ok] at hpd
    injection hpd with hpd
    rw [← hpd, hev1, hev2]
    cases same <;> cases d <;> simp [endAt, hab, Ne.symm hab]
  subst hnew
  have hT' := Res.ok.inj (r.symm.trans h1)
  -- the other edges
  have hnodup : (pairs l (fbit (T.fd f))).map (·.1) = l := pairs_map_fst _ _
  have hrest : (((pairs l (fbit (T.fd f))).rotate i).drop 1).map (useOf e1 e2 same) =
      ((pairs l (fbit (T.fd f))).rotate i).drop 1 := by
    refine map_id_of fun p hp => ?_
    unfold useOf
    rw [if_neg]
    intro hc
    have hn : (((pairs l (fbit (T.fd f))).rotate i).map (·.1)).Nodup := by
      rw [map_fst_rotate, hnodup]; exact List.nodup_rotate.2 hnd
    rw [drop_one_rotate hpi, List.map_cons, List.nodup_cons] at hn
    exact hn.1 (by dsimp only; rw [← hc]; exact List.mem_map_of_mem (f := (·.1)) hp)
  refine ⟨T', l', w', _, by rw [hnamed]; exact r, hc, hT', ?_, ?_⟩
  · refine hp.trans ?_
    have hlr : (l.rotate i).map (fun x => if x = e2 then e1 else x) = [e1] ++ (l.rotate i).drop 1 := by
      have hx := drop_one_rotate hi
      have hn : (l.rotate i).Nodup := List.nodup_rotate.2 hnd
      rw [hx] at hn
      obtain ⟨hn1, -⟩ := List.nodup_cons.1 hn
      conv_lhs => rw [hx]
      rw [List.map_cons, if_pos rfl]
      congr 1
      exact map_id_of fun x hxm => if_neg (by rintro rfl; exact hn1 hxm)
    rw [← hlr]
    exact (List.rotate_perm l i).map _
  · refine List.IsRotated.trans ⟨s, hs⟩ ?_
    have : [(e1, if same then d else !d)] ++ ((pairs l (fbit (T.fd f))).rotate i).drop 1 =
        ((pairs l (fbit (T.fd f))).map (useOf e1 e2 same)).rotate i := by
      rw [← List.map_rotate]
      conv_rhs => rw [drop_one_rotate hpi]
      rw [List.map_cons, hrest]
      unfold useOf
      rw [if_pos rfl]
      rfl
    rw [this]
    exact (List.IsRotated.symm ⟨i, rfl⟩)

/-- all faces -/
theorem replaceInFaces_ok {e1 e2 a b : Nat} {same : Bool} (hab : a ≠ b) : ∀ (fs : List Nat) (T : Topo),
    T.Consistent → fs.Nodup → T.se e1 = .live → T.ev e2 = (some a, some b) →
    T.ev e1 = (if same then (some a, some b) else (some b, some a)) →
    (∀ f ∈ fs, T.sf f = .live ∧ ∃ l, T.fe f = some l ∧ l.Nodup ∧ e2 ∈ l ∧ l.length ≤ 32 ∧ e1 ∉ l) →
    ∃ T' fe fd ef, replaceInFaces e1 e2 fs T = .ok T' ∧ T'.Consistent ∧
      T' = { T with fe := fe, fd := fd, ef := ef } ∧
      (∀ f, f ∉ fs → fe f = T.fe f ∧ fd f = T.fd f) ∧
      ∀ f ∈ fs, ∃ l l', T.fe f = some l ∧ fe f = some l' ∧
        l'.Perm (l.map fun x => if x = e2 then e1 else x) ∧
        pairs l' (fbit (fd f)) ~r (pairs l (fbit (T.fd f))).map (useOf e1 e2 same) := by
  intro fs
  induction fs with
  | nil =>
    intro T h _ _ _ _ _
    exact ⟨T, T.fe, T.fd, T.ef, rfl, h, rfl, fun _ _ => ⟨rfl, rfl⟩, by simp⟩
  | cons f fs ih =>
    intro T h hfs he1 hev2 hev1 hall
    obtain ⟨hfn, hfs'⟩ := List.nodup_cons.1 hfs
    obtain ⟨hf, l, hl, hnd, hm, h32, hno⟩ := hall f (by simp)
    obtain ⟨T1, l', w', ef1, r1, h1, hT1, hperm, hrot⟩ := swapEdge_ok h hf hl hnd hm h32 he1 hno hab hev2 hev1
    obtain ⟨T2, fe, fd, ef, r2, h2, hT2, hrest, hin⟩ := ih T1 h1 hfs' (by rw [hT1]; exact he1)
      (by rw [hT1]; exact hev2) (by rw [hT1]; exact hev1) (by
        intro g hg
        have hgf : g ≠ f := fun hc => hfn (hc ▸ hg)
        rw [hT1]
        dsimp only
        rw [upd_ne _ _ hgf]
        exact hall g (by simp [hg]))
    refine ⟨T2, fe, fd, ef, ?_, h2, ?_, ?_, ?_⟩
    · rw [show replaceInFaces e1 e2 (f :: fs) T = (T.mfReplaceEdges f [e2] [e1] >>= fun T =>
        replaceInFaces e1 e2 fs T) from rfl, r1, Res.bind_ok, r2]
    · rw [hT2, hT1]
    · intro g hg
      rw [List.mem_cons, not_or] at hg
      obtain ⟨a1, a2⟩ := hrest g hg.2
      rw [hT1] at a1 a2
      dsimp only at a1 a2
      rw [upd_ne _ _ hg.1] at a1 a2
      exact ⟨a1, a2⟩
    · intro g hg
      rcases List.mem_cons.1 hg with hgf | hg
      · obtain ⟨a1, a2⟩ := hrest g (by rw [hgf]; exact hfn)
        rw [hT1] at a1 a2
        dsimp only at a1 a2
        subst hgf
        rw [upd_same] at a1 a2
        exact ⟨l, l', hl, a1, hperm, by rw [a2]; exact hrot⟩
      · have hgf : g ≠ f := fun hc => hfn (hc ▸ hg)
        have := hin g hg
        rw [hT1] at this
        dsimp only at this
        rw [upd_ne _ _ hgf, upd_ne _ _ hgf] at this
        exact this

theorem Closed.isRotated {T : Topo} {ps qs : List (Nat × Bool)} {vs : List Nat} (h : T.Closed ps vs)
    (hr : qs ~r ps) : ∃ vs', vs' ~r vs ∧ T.Closed qs vs' := by
  obtain ⟨n, rfl⟩ := hr
  exact ⟨_, List.IsRotated.symm ⟨_, rfl⟩, h.unrotate⟩

theorem Loop.size {T : Topo} {f : Nat} {vs : List Nat} (hf : T.sf f = .live) (h : T.Loop f vs) : vs.length ≤ 64 := by
  obtain ⟨es, h1, h2, h3⟩ := h
  by_contra hc
  obtain ⟨d, h4, -⟩ := h3 64 es[64] (List.getElem?_eq_getElem (by omega))
  unfold mfEdgeDir_i at h4
  rw [derefF_ok (alloc_of_live hf), Res.bind_ok] at h4
  unfold bit at h4
  rw [if_neg (by omega)] at h4
  cases h4

/-! ### the property -/

/-- **C55.**  Two different edges with the same two vertices are merged: every face that used the
second one uses the first one in its place, in the direction that keeps the face going round the
same vertices; mesh sets have the first for the second; nothing else changes.  No face may use both
edges. -/
theorem C55_merge_partial {T : Topo} (h : T.Consistent) (S : List (List Nat)) {topoflag : Bool}
    {cls : Nat → Nat × Nat} {e1 e2 a b : Nat} {same : Bool} (hne : e1 ≠ e2) (he1 : T.se e1 = .live)
    (he2 : T.se e2 = .live) (hmay : topoflag = true → (cls e1).1 < (cls e2).1 ∨ cls e1 = cls e2)
    (hab : a ≠ b) (ha : T.meVertex e2 false = .ok (some a)) (hb : T.meVertex e2 true = .ok (some b))
    (hc : T.meVertex e1 (!same) = .ok (some a)) (hd : T.meVertex e1 same = .ok (some b))
    (hfaces : ∀ f, T.FaceHas f e2 → ¬ T.FaceHas f e1 ∧
      ∃ es, T.mfEdges f true none = .ok es ∧ es.Nodup ∧ es.length ≤ 32)
    (hS : ∀ s ∈ S, s.Nodup) :
    ∃ T', T.mesMerge S topoflag cls e1 e2 = .ok (T', some (S.map (mergeInSet e1 e2))) ∧
      EdgesMerged T T' e1 e2 same ∧ ∀ s ∈ S, MergedSet e1 e2 s (mergeInSet e1 e2 s) := by
  have hev2 : T.ev e2 = (some a, some b) := by
    rw [meVertex_ok (alloc_of_live he2)] at ha hb
    exact Prod.ext (Res.ok.inj ha) (Res.ok.inj hb)
  have hev1 : T.ev e1 = if same then (some a, some b) else (some b, some a) := by
    rw [meVertex_ok (alloc_of_live he1)] at hc hd
    cases same
    · exact Prod.ext (Res.ok.inj hd) (Res.ok.inj hc)
    · exact Prod.ext (Res.ok.inj hc) (Res.ok.inj hd)
  obtain ⟨L, g1, g2⟩ := meFaces_ok (alloc_of_live he2)
  have hmem : ∀ f, f ∈ T.ef e2 ↔ T.FaceHas f e2 := fun f => h.mem_ef he2
  have hst : ∀ f ∈ T.ef e2, T.sf f = .live ∧ ∃ l, T.fe f = some l ∧ l.Nodup ∧ e2 ∈ l ∧ l.length ≤ 32 ∧ e1 ∉ l := by
    intro f hf
    have hf' := (hmem f).1 hf
    obtain ⟨hn, es, q1, q2, q3⟩ := hfaces f hf'
    obtain ⟨l, q4, q5, q6⟩ := hf'.stored
    rw [q1] at q5; injection q5 with q5; subst q5
    exact ⟨hf'.1, es, q4, q2, q6, q3, fun hx => hn ((faceHas_iff hf'.1 q4).2 hx)⟩
  obtain ⟨T1, fe, fd, ef, r1, h1, hT1, hrest, hin⟩ := replaceInFaces_ok hab (T.ef e2) T h
    (h.ef.nodup e2 (alloc_of_live he2)) he1 hev2 hev1 hst
  have hno : ∀ f, T1.sf f = .live → ¬ bounds T1.fe f e2 := by
    intro f hf hx
    rw [hT1] at hf hx
    unfold bounds at hx
    dsimp only at hf hx
    by_cases hfm : f ∈ T.ef e2
    · obtain ⟨l, l', q1, q2, q3, -⟩ := hin f hfm
      rw [q2] at hx
      have := q3.mem_iff.1 hx
      obtain ⟨x, -, hxe⟩ := List.mem_map.1 this
      split at hxe
      · exact hne hxe
      · contradiction
    · rw [(hrest f hfm).1] at hx
      exact hfm ((h.ef.mem e2 (alloc_of_live he2) f).2 ⟨hf, hx⟩)
  have he2' : T1.se e2 = .live := by rw [hT1]; exact he2
  obtain ⟨T2, r2, h2⟩ := h1.delEdge (k := true) (alloc_of_live he2') hno
  have w2 := meDelete_ok (keep := true) he2' (fun v hv => alloc_of_live (h1.ve.down e2 v he2' hv))
  have hT2 := Res.ok.inj (r2.symm.trans w2)
  have hfe2 : T2.fe = fe := by rw [hT2, hT1]
  have hfd2 : T2.fd = fd := by rw [hT2, hT1]
  have hsf2 : T2.sf = T.sf := by rw [hT2, hT1]
  have hev2' : T2.ev = T.ev := by rw [hT2, hT1]
  have hse2 : T2.se = upd T.se e2 .kept := by rw [hT2, hT1]; rfl
  have hothers : ∀ f, f ∉ T.ef e2 → T2.edgesOf f = T.edgesOf f := by
    intro f hf
    obtain ⟨q1, q2⟩ := hrest f hf
    unfold edgesOf
    rw [hfe2, hfd2, q1, q2]
  have hinf : ∀ f, T.sf f = .live → T2.edgesOf f ~r (T.edgesOf f).map (useOf e1 e2 same) := by
    intro f hf
    by_cases hfm : f ∈ T.ef e2
    · obtain ⟨l, l', q1, q2, -, q4⟩ := hin f hfm
      rw [edgesOf_some (by rw [hfe2]; exact q2), edgesOf_some q1, hfd2]
      exact q4
    · rw [hothers f hfm, map_id_of]
      intro p hp
      unfold useOf
      rw [if_neg]
      intro hx
      apply hfm
      refine (h.ef.mem e2 (alloc_of_live he2) f).2 ⟨hf, ?_⟩
      unfold bounds
      rw [← edgesOf_map_fst, ← hx]
      exact List.mem_map_of_mem hp
  refine ⟨T2, ?_, ⟨h2, ?_, ⟨?_, ?_⟩, hsf2, hinf, ?_, ?_, ⟨?_, ?_, ?_⟩⟩, fun s hs => C30_sets hne (hS s hs)⟩
  · have hm : mayMerge topoflag (cls e1) (cls e2) = true := by
      unfold mayMerge
      cases topoflag with
      | false => rfl
      | true =>
        rcases hmay rfl with hx | hx
        · rw [if_pos rfl, if_neg (by omega)]; simp; omega
        · rw [hx]; simp
    unfold mesMerge
    rw [derefE_ok (alloc_of_live he1), Res.bind_ok, derefE_ok (alloc_of_live he2), Res.bind_ok, if_pos hm,
      meVertex_ok (alloc_of_live he1), Res.bind_ok, meVertex_ok (alloc_of_live he1), Res.bind_ok,
      ha, Res.bind_ok, hb, Res.bind_ok, hev1, if_neg (by cases same <;> simp [endAt]),
      g1, Res.bind_ok, g2, r1, Res.bind_ok, r2, Res.bind_ok]
    rfl
  · show T2.sv = T.sv; rw [hT2, hT1]
  · exact hse2
  · exact hev2'
  · intro f hf
    exact hothers f (fun hx => hf ((hmem f).1 hx))
  · intro f vs hf hloop
    obtain ⟨l, hl, h64, hlen, -⟩ := hloop.stored (alloc_of_live hf)
    have hel := h.fedgesLive hf hl
    have hcl := hloop.closed (alloc_of_live hf) hl (fun e he => alloc_of_live (hel e he))
    rw [← edgesOf_some hl] at hcl
    have hcl2 : T2.Closed ((T.edgesOf f).map (useOf e1 e2 same)) vs := by
      refine ⟨by rw [List.length_map]; exact hcl.1, fun k p x y hk hx hy => ?_⟩
      rw [List.getElem?_map] at hk
      cases hq : (T.edgesOf f)[k]? with
      | none => rw [hq] at hk; cases hk
      | some q =>
        rw [hq] at hk
        simp only [Option.map_some, Option.some.injEq] at hk
        have hL := hcl.2 k q x y hq hx hy
        subst hk
        unfold Leads at hL ⊢
        rw [hev2']
        unfold useOf
        by_cases hqe : q.1 = e2
        · rw [if_pos hqe]
          rw [hqe, hev2] at hL
          dsimp only
          rw [hev1]
          cases same <;> cases hq2 : q.2 <;> rw [hq2] at hL <;>
            simp only [Bool.false_eq_true, if_false, if_true, Prod.mk.injEq, Option.some.injEq,
              Bool.not_false, Bool.not_true] at hL ⊢ <;> exact ⟨by omega, by omega⟩
        · rw [if_neg hqe]; exact hL
    obtain ⟨vs', v1, v2⟩ := hcl2.isRotated (hinf f hf)
    refine ⟨vs', v1, ?_⟩
    have hfe' : ∃ l', T2.fe f = some l' ∧ l'.length = l.length := by
      rw [hfe2]
      by_cases hfm : f ∈ T.ef e2
      · obtain ⟨l0, l', q1, q2, q3, -⟩ := hin f hfm
        rw [hl] at q1; injection q1 with q1; subst q1
        exact ⟨l', q2, by rw [q3.length_eq, List.length_map]⟩
      · exact ⟨l, by rw [(hrest f hfm).1]; exact hl, rfl⟩
    obtain ⟨l', q1, q2⟩ := hfe'
    rw [edgesOf_some q1] at v2
    have hf2 : T2.sf f = .live := by rw [hsf2]; exact hf
    refine v2.loop (alloc_of_live hf2) q1 (fun e he => alloc_of_live (h2.fedgesLive hf2 q1 e he)) ?_
    have := hloop.size hf
    omega
  · show T2.sr = T.sr; rw [hT2, hT1]
  · show facesOf T2.rf T2.rd = facesOf T.rf T.rd; rw [hT2, hT1]
  · intro r; unfold mrElementType derefR; rw [hT2, hT1]

/-- **C55, refusals.**  Edges with different vertices are not merged, nor edges whose classification
does not allow it when that is to be looked at; the mesh is left alone. -/
theorem C55_refused {T : Topo} (S : List (List Nat)) {topoflag : Bool} {cls : Nat → Nat × Nat} {e1 e2 a b : Nat}
    (he1 : T.se e1 = .live) (he2 : T.se e2 = .live) (ha : T.meVertex e1 false = .ok (some a))
    (hb : T.meVertex e1 true = .ok (some b))
    (hno : (topoflag = true ∧ ((cls e2).1 < (cls e1).1 ∨ ((cls e1).1 = (cls e2).1 ∧ (cls e1).2 ≠ (cls e2).2))) ∨
      ¬ T.EdgeHas e2 a ∨ ¬ T.EdgeHas e2 b) :
    T.mesMerge S topoflag cls e1 e2 = .ok (T, none) := by
  unfold mesMerge
  rw [derefE_ok (alloc_of_live he1), Res.bind_ok, derefE_ok (alloc_of_live he2), Res.bind_ok]
  by_cases hm : mayMerge topoflag (cls e1) (cls e2) = true
  · rw [if_pos hm, ha, Res.bind_ok, hb, Res.bind_ok, meVertex_ok (alloc_of_live he2), Res.bind_ok,
      meVertex_ok (alloc_of_live he2), Res.bind_ok, if_pos]
    · rfl
    · rcases hno with ⟨ht, hx⟩ | hx | hx
      · exfalso
        unfold mayMerge at hm
        rw [ht, if_pos rfl] at hm
        rcases hx with hx | ⟨hx, hy⟩
        · rw [if_neg (by omega)] at hm; simp at hm; omega
        · rw [if_pos hx] at hm; simp at hm; exact hy hm
      · left
        rw [EdgeHas_iff] at hx
        exact ⟨fun hq => hx ⟨he2, Or.inl hq.symm⟩, fun hq => hx ⟨he2, Or.inr hq.symm⟩⟩
      · right
        rw [EdgeHas_iff] at hx
        exact ⟨fun hq => hx ⟨he2, Or.inl hq.symm⟩, fun hq => hx ⟨he2, Or.inr hq.symm⟩⟩
  · rw [if_neg hm]; rfl

/-! ### examples -/

/-- two triangles side by side which do not share an edge: each has its own one between the
vertices 1 and 2 (edges 1 and 5, leading opposite ways) -/
def slit : List Op :=
  [.newVertex, .newVertex, .newVertex, .newVertex,
   .newFace, .setVertices 0 [0,1,2],
   .newEdge, .setVertex 3 false 1, .setVertex 3 true 3,
   .newEdge, .setVertex 4 false 3, .setVertex 4 true 2,
   .newEdge, .setVertex 5 false 2, .setVertex 5 true 1,
   .newFace, .setEdges 1 [(3,true),(4,true),(5,true)]]

/-- The slit is closed: the second triangle uses edge 1, backwards, in the place of edge 5. -/
example : ∃ T, empty.run slit = .ok T ∧ T.Consistent ∧ T.se 1 = .live ∧ T.se 5 = .live ∧
    T.meVertex 5 false = .ok (some 2) ∧ T.meVertex 5 true = .ok (some 1) ∧
    T.meVertex 1 true = .ok (some 2) ∧ T.meVertex 1 false = .ok (some 1) ∧
    (∀ f, T.FaceHas f 5 → ¬ T.FaceHas f 1 ∧ ∃ es, T.mfEdges f true none = .ok es ∧ es.Nodup ∧ es.length ≤ 32) ∧
    ∃ T', T.mesMerge [[5]] true (fun _ => (2,1)) 1 5 = .ok (T', some [[1]]) ∧
      T'.edgesOf 1 = [(3,true),(4,true),(1,false)] ∧ T'.meFaces 1 = .ok (some [0,1]) ∧ T'.se 5 = .kept := by
  obtain ⟨T, h1, h2⟩ := reachable (os := slit) (by decide +kernel)
  have hq : answer slit (fun T => .ok (decide (T.se 1 = .live) && decide (T.se 5 = .live) &&
      decide (T.meVertex 5 false = .ok (some 2)) && decide (T.meVertex 5 true = .ok (some 1)) &&
      decide (T.meVertex 1 true = .ok (some 2)) && decide (T.meVertex 1 false = .ok (some 1)) &&
      decide (T.mfEdges 1 true none = .ok [3,4,5]) && decide (T.ef 5 = [1]) &&
      match T.mesMerge [[5]] true (fun _ => (2,1)) 1 5 with
      | .ok (T', b) => decide (b = some [[1]]) && decide (T'.edgesOf 1 = [(3,true),(4,true),(1,false)]) &&
        decide (T'.meFaces 1 = .ok (some [0,1])) && decide (T'.se 5 = .kept)
      | _ => false)) = .ok true := by decide +kernel
  unfold answer at hq
  rw [h1, Res.bind_ok, Res.ok.injEq] at hq
  simp only [Bool.and_eq_true, decide_eq_true_iff] at hq
  obtain ⟨⟨⟨⟨⟨⟨⟨⟨a, b⟩, c⟩, d⟩, e⟩, f⟩, g⟩, i⟩, q⟩ := hq
  refine ⟨T, h1, h2, a, b, c, d, e, f, ?_, ?_⟩
  · intro x hx
    have := (h2.mem_ef b).2 hx
    rw [i, List.mem_singleton] at this
    subst this
    refine ⟨?_, _, g, by decide, by decide⟩
    rintro ⟨-, es, k1, k2⟩
    rw [g] at k1; injection k1 with k1; subst k1
    simp at k2
  · split at q
    · rename_i T' b' he
      simp only [Bool.and_eq_true, decide_eq_true_iff] at q
      obtain ⟨⟨⟨rfl, q1⟩, q2⟩, q3⟩ := q
      exact ⟨T', he, q1, q2, q3⟩
    · cases q

/-- **C55, what fails.**  An edge merged with itself is deleted although a face still has it. -/
theorem C55_negation_itself : ∃ T, empty.run slit = .ok T ∧ T.Consistent ∧ T.se 1 = .live ∧
    ∃ T', T.mesMerge [] true (fun _ => (2,1)) 1 1 = .ok (T', some []) ∧ T'.se 1 = .kept ∧ T'.sf 0 = .live ∧
      ∃ es, T'.mfEdges 0 true none = .ok es ∧ 1 ∈ es := by
  obtain ⟨T, h1, h2⟩ := reachable (os := slit) (by decide +kernel)
  have hq : answer slit (fun T => .ok (decide (T.se 1 = .live) &&
      match T.mesMerge [] true (fun _ => (2,1)) 1 1 with
      | .ok (T', b) => decide (b = some []) && decide (T'.se 1 = .kept) && decide (T'.sf 0 = .live) &&
        decide (T'.mfEdges 0 true none = .ok [0,1,2])
      | _ => false)) = .ok true := by decide +kernel
  unfold answer at hq
  rw [h1, Res.bind_ok, Res.ok.injEq] at hq
  simp only [Bool.and_eq_true, decide_eq_true_iff] at hq
  obtain ⟨a, q⟩ := hq
  refine ⟨T, h1, h2, a, ?_⟩
  split at q
  · rename_i T' b' he
    simp only [Bool.and_eq_true, decide_eq_true_iff] at q
    obtain ⟨⟨⟨rfl, q1⟩, q2⟩, q3⟩ := q
    exact ⟨T', he, q1, q2, _, q3, by decide⟩
  · cases q

end Topo
end MSTK
