import Verif.SplitLemmas

/-!
C29: `ME_MultiSplit` and `ME_Split` preserve the mesh around the edge.

Specification: `FaceAfter` (a face that used the edge) and `SplitInto` (the whole mesh), in terms of
the answers of the queries before and after the call.
-/
namespace MSTK
namespace Topo

/-- Face `f` before (`T`) and after (`T'`) the split of its edge `e` into `enew`, which lead through
the vertices `ws`. -/
def FaceAfter (T T' : Topo) (e : Nat) (enew ws : List Nat) (f : Nat) : Prop :=
  ∃ es es' i d, T.mfEdges f true none = .ok es ∧ es[i]? = some e ∧ T.mfEdgeDir f e = .ok d ∧
    -- the new edges stand in the place of the old one, in the direction of the face
    T'.mfEdges f true none = .ok es' ∧
    es' ~r (if d then enew else enew.reverse) ++ (es.rotate i).drop 1 ∧
    (∀ x ∈ enew, T'.mfEdgeDir f x = .ok d) ∧
    -- the other edges keep their directions
    (∀ x ∈ es, x ≠ e → T'.mfEdgeDir f x = T.mfEdgeDir f x) ∧
    -- a closed loop stays one, with the new vertices in it
    (∀ vs, T.Loop f vs → ∃ vs', T'.Loop f vs' ∧
      vs' ~r (if d then ws else ws.reverse).dropLast ++ (vs.rotate i).drop 1)

/-- The mesh before (`T`) and after (`T'`) the split of edge `e` from `a` to `b` into `enew`. -/
structure SplitInto (T T' : Topo) (e a b : Nat) (enew ws : List Nat) : Prop where
  consistent : T'.Consistent
  /-- the new edges form a chain from `a` to `b` through new vertices -/
  chain : ws.length = enew.length + 1 ∧ ∀ (k x : Nat), enew[k]? = some x →
    T'.meVertex x false = .ok ws[k]? ∧ T'.meVertex x true = .ok ws[k+1]?
  first : ws[0]? = some a
  last : ws[enew.length]? = some b
  distinct : ws.Nodup ∧ enew.Nodup
  new_vertices : ∀ v ∈ ws, v = a ∨ v = b ∨ (T.sv v = .unused ∧ T'.sv v = .live)
  new_edges : ∀ x ∈ enew, T.se x = .unused ∧ T'.se x = .live
  /-- the edge is gone -/
  gone : T'.se e = .freed
  /-- everything else is as before -/
  other_vertices : ∀ v, T.sv v ≠ .unused → T'.sv v = T.sv v
  other_edges : ∀ x, x ≠ e → T.se x ≠ .unused →
    T'.se x = T.se x ∧ ∀ i, T'.meVertex x i = T.meVertex x i
  /-- nothing else is made -/
  only_vertices : ∀ v, T'.sv v = .live → T.sv v = .live ∨ v ∈ ws
  only_edges : ∀ x, T'.se x = .live → T.se x = .live ∨ x ∈ enew
  faces : T'.sf = T.sf
  regions : T'.sr = T.sr
  with_edge : ∀ f, T.FaceHas f e → FaceAfter T T' e enew ws f
  other_faces : ∀ f, T.sf f = .live → ¬ T.FaceHas f e →
    T'.mfEdges f true none = T.mfEdges f true none ∧ (∀ x, T'.mfEdgeDir f x = T.mfEdgeDir f x) ∧
    ∀ i, T'.mfEdgeDir_i f i = T.mfEdgeDir_i f i
  face_regions : ∀ f i, T'.mfRegion f i = T.mfRegion f i
  region_faces : ∀ r, T'.mrFaces r = T.mrFaces r ∧ ∀ f, T'.mrFaceDir r f = T.mrFaceDir r f
  /-- the element types of the regions at the edge are up to date -/
  typed : ∀ r f, T.RegionHas r f → T.FaceHas f e → T'.Typed r
  other_types : ∀ r, (∀ f, T.RegionHas r f → ¬ T.FaceHas f e) → T'.mrElementType r = T.mrElementType r

/-! ### helpers -/

theorem mfEdges_same {T T' : Topo} (f : Nat) (h1 : T'.sf f = T.sf f) (h2 : T'.fe f = T.fe f) :
    T'.mfEdges f true none = T.mfEdges f true none := by
  unfold mfEdges fedges derefF
  rw [h1, h2]
  rfl

theorem mfEdgeDir_same {T T' : Topo} (f x : Nat) (h1 : T'.sf f = T.sf f) (h2 : T'.fe f = T.fe f)
    (h3 : T'.fd f = T.fd f) : T'.mfEdgeDir f x = T.mfEdgeDir f x := by
  unfold mfEdgeDir fedges derefF
  rw [h1, h2, h3]

theorem faceHas_iff {T : Topo} {f e : Nat} {l : List Nat} (hf : T.sf f = .live) (hl : T.fe f = some l) :
    T.FaceHas f e ↔ e ∈ l := by
  have hp := mfEdges_plain (alloc_of_live hf) hl
  constructor
  · rintro ⟨_, l', h1, h2⟩
    rw [hp] at h1; injection h1 with h1; rw [h1]; exact h2
  · intro he; exact ⟨hf, l, hp, he⟩

theorem FaceHas.stored {T : Topo} {f e : Nat} (h : T.FaceHas f e) :
    ∃ l, T.fe f = some l ∧ T.mfEdges f true none = .ok l ∧ e ∈ l := by
  obtain ⟨hf, es, h1, h2⟩ := h
  cases hfe : T.fe f with
  | none => exact absurd h1 (mfEdges_none hfe _ _ _)
  | some l =>
    have hp := mfEdges_plain (alloc_of_live hf) hfe
    rw [hp] at h1; injection h1 with h1; subst h1
    exact ⟨l, rfl, hp, h2⟩

theorem mem_drop_rotate {l : List Nat} (hn : l.Nodup) {i e : Nat} (hi : l[i]? = some e) (x : Nat) :
    x ∈ (l.rotate i).drop 1 ↔ x ∈ l ∧ x ≠ e := by
  have hsplit : l.rotate i = e :: (l.rotate i).drop 1 := by
    have h1 := List.take_append_drop 1 (l.rotate i)
    rw [take_one_rotate hi] at h1
    exact h1.symm
  have hnr : (l.rotate i).Nodup := List.nodup_rotate.2 hn
  rw [hsplit] at hnr
  obtain ⟨h1, h2⟩ := List.nodup_cons.1 hnr
  have hm : x ∈ l ↔ x = e ∨ x ∈ (l.rotate i).drop 1 := by
    rw [← List.mem_rotate (l := l) (n := i), hsplit]
    simp
  rw [hm]
  constructor
  · intro hx; exact ⟨Or.inr hx, by rintro rfl; exact h1 hx⟩
  · rintro ⟨hx | hx, hne⟩
    · exact absurd hx hne
    · exact hx

/-- stored lists to answers, for a face that used the edge -/
theorem faceAfter_of {T T' : Topo} {e a b f : Nat} {enew ws l l' : List Nat}
    (hf : T.sf f = .live) (hf' : T'.sf f = .live) (hl : T.fe f = some l) (hl' : T'.fe f = some l')
    (hn : l.Nodup) (hsz : l.length + enew.length ≤ 33) (hpos : enew ≠ [])
    (hnn : enew.Nodup) (hnl : ∀ x ∈ enew, x ∉ l)
    (hlive : ∀ x ∈ l, (T.se x).alloc) (hlive' : ∀ x ∈ l', (T'.se x).alloc)
    (hab : T.ev e = (some a, some b)) (hev : ∀ x ∈ l, T'.ev x = T.ev x)
    (hch : T'.Chain true enew ws) (ha : ws[0]? = some a) (hb : ws[enew.length]? = some b)
    (hs : FaceSplit e enew l (T.fd f) l' (T'.fd f)) : FaceAfter T T' e enew ws f := by
  obtain ⟨i, s, hi, hp, hrot⟩ := hs
  generalize hd : fbit (T.fd f) i = d at hrot
  have hilt := (List.getElem?_eq_some_iff.1 hi).1
  have hpos : 0 < enew.length := List.length_pos_iff.2 hpos
  have hnl' : l'.Nodup := by
    rw [hp.nodup_iff, List.nodup_append]
    refine ⟨hnn, (List.nodup_rotate.2 hn).sublist (List.drop_sublist _ _), ?_⟩
    rintro x hx y hy rfl
    exact hnl x hx ((mem_drop_rotate hn hi x).1 hy).1
  have hlen' : l'.length = enew.length + (l.length - 1) := by rw [hp.length_eq]; simp
  have hdirT : ∀ x dd, T.mfEdgeDir f x = .ok dd ↔ (x, dd) ∈ pairs l (fbit (T.fd f)) := fun x dd =>
    mfEdgeDir_iff (alloc_of_live hf) hl hn (by omega)
  have hdirT' : ∀ x dd, T'.mfEdgeDir f x = .ok dd ↔ (x, dd) ∈ pairs l' (fbit (T'.fd f)) := fun x dd =>
    mfEdgeDir_iff (alloc_of_live hf') hl' hnl' (by omega)
  have hfst : l'.rotate s = (if d then enew else enew.reverse) ++ (l.rotate i).drop 1 := by
    have := congrArg (List.map (·.1)) hrot
    rw [map_fst_rotate, pairs_map_fst, List.map_append, along_fst, List.map_drop, map_fst_rotate,
      pairs_map_fst] at this
    exact this
  refine ⟨l, l', i, d, mfEdges_plain (alloc_of_live hf) hl, hi, ?_, mfEdges_plain (alloc_of_live hf') hl',
    ⟨s, hfst⟩, ?_, ?_, ?_⟩
  · rw [hdirT, mem_pairs_dir hn hi]; exact hd
  · intro x hx
    rw [hdirT', ← List.mem_rotate (n := s), hrot, List.mem_append]
    left
    unfold along
    refine List.mem_map.2 ⟨x, ?_, rfl⟩
    cases d
    · exact List.mem_reverse.2 hx
    · exact hx
  · intro x hx hxe
    apply mfEdgeDir_eq (alloc_of_live hf) (alloc_of_live hf') hl hl' hn hnl' (by omega) (by omega) hx
    intro dd hdd
    rw [← List.mem_rotate (n := s), hrot, List.mem_append]
    right
    have hrr : (x, dd) ∈ (pairs l (fbit (T.fd f))).rotate i := List.mem_rotate.2 hdd
    have hpi : (pairs l (fbit (T.fd f)))[i]? = some (e, d) := by rw [getElem?_pairs, hi, ← hd]; rfl
    have h1 := List.take_append_drop 1 ((pairs l (fbit (T.fd f))).rotate i)
    rw [take_one_rotate hpi] at h1
    rw [← h1, List.mem_append] at hrr
    rcases hrr with hrr | hrr
    · rw [List.mem_singleton, Prod.mk.injEq] at hrr
      exact absurd hrr.1 hxe
    · exact hrr
  · intro vs hloop
    have hvl : l.length = vs.length := by
      obtain ⟨m, h1, h2, -⟩ := hloop
      rw [mfEdges_plain (alloc_of_live hf) hl] at h1; injection h1 with h1; rw [h1]; exact h2
    have hvpos : 0 < vs.length := by omega
    have hc0 := hloop.closed (alloc_of_live hf) hl hlive
    -- the old edges have the same ends afterwards
    have hc1 : T'.Closed (pairs l (fbit (T.fd f))) vs := by
      refine ⟨hc0.1, fun k p x y h1 h2 h3 => ?_⟩
      have := hc0.2 k p x y h1 h2 h3
      unfold Leads at this ⊢
      rw [hev p.1 ?_]
      · exact this
      · have hm := List.mem_of_getElem? h1
        obtain ⟨p1, p2⟩ := p
        exact mem_of_mem_pairs hm
    have hcr := hc1.rotate i
    have hpi : (pairs l (fbit (T.fd f)))[i]? = some (e, d) := by rw [getElem?_pairs, hi, ← hd]; rfl
    have hp0 : ((pairs l (fbit (T.fd f))).rotate i)[0]? = some (e, d) := by
      have := congrArg (·[0]?) (take_one_rotate hpi)
      simp only [List.getElem?_take, List.getElem?_cons_zero] at this
      simpa using this
    obtain ⟨x, hx⟩ : ∃ x, (vs.rotate i)[0]? = some x :=
      ⟨_, List.getElem?_eq_getElem (by simpa using hvpos)⟩
    obtain ⟨y, hy⟩ : ∃ y, (vs.rotate i)[1 % (vs.rotate i).length]? = some y :=
      ⟨_, List.getElem?_eq_getElem (Nat.mod_lt _ (by simpa using hvpos))⟩
    have hL := hcr.2 0 (e, d) x y hp0 hx hy
    unfold Leads at hL
    dsimp only at hL
    rw [hev e (List.mem_of_getElem? hi), hab] at hL
    have hwl := hch.1
    -- the chain in the direction of the face
    have hspl := hcr.splice (nold := 1) (new := along d enew) (ws := if d then ws else ws.reverse)
      (by simp; omega) (by unfold along; cases d <;> simp <;> omega)
      (by unfold along; cases d <;> simp [hwl])
      (by
        intro k p u v h1 h2 h3
        unfold along at h1
        rw [List.getElem?_map] at h1
        cases hq : (if d then enew else enew.reverse)[k]? with
        | none => rw [hq] at h1; simp at h1
        | some z =>
          rw [hq] at h1
          simp only [Option.map_some, Option.some.injEq] at h1
          subst h1
          dsimp only
          cases d
          · exact hch.reverse.2 k z u v hq h2 h3
          · exact hch.2 k z u v hq h2 h3)
      (by
        rw [hx]
        cases d
        · simp only [Bool.false_eq_true, if_false, Prod.mk.injEq, Option.some.injEq] at hL ⊢
          rw [List.getElem?_reverse (by omega), ← hL.2, ← hb]; congr 1; omega
        · simp only [if_true, Prod.mk.injEq, Option.some.injEq] at hL ⊢
          rw [ha, hL.1])
      (by
        rw [hy]
        cases d
        · simp only [Bool.false_eq_true, if_false, Prod.mk.injEq, Option.some.injEq] at hL ⊢
          rw [show (along false enew).length = enew.length by unfold along; simp,
            List.getElem?_reverse (by omega), ← hL.1, ← ha]
          congr 1; omega
        · simp only [if_true, Prod.mk.injEq, Option.some.injEq] at hL ⊢
          rw [show (along true enew).length = enew.length by unfold along; simp, hb, hL.2])
    rw [← hrot] at hspl
    exact ⟨_, Closed.loop (alloc_of_live hf') hl' hlive' (by omega) hspl.unrotate,
      List.IsRotated.symm ⟨_, rfl⟩⟩

/-! ### the property -/

/-- The edge can be split into `n+1`: it joins two different vertices, the faces at it use it once
and have room for `n` more edges, and the faces of the regions at it are defined. -/
structure Splittable (T : Topo) (e a b n : Nat) : Prop where
  live : T.se e = .live
  start : T.meVertex e false = .ok (some a)
  stop : T.meVertex e true = .ok (some b)
  proper : a ≠ b
  room : ∀ f es, T.FaceHas f e → T.mfEdges f true none = .ok es → es.Nodup ∧ es.length + n ≤ 32
  defined : ∀ r f g, T.RegionHas r f → T.FaceHas f e → T.RegionHas r g →
    ∃ es, T.mfEdges g true none = .ok es

/-- **C29, ME_MultiSplit, in part.**  Edges from a vertex to itself and faces of more than 32 edges are
left out; for the latter see `C29_negation_too_many`. -/
theorem C29_multisplit_partial {T : Topo} (h : T.Consistent) {e a b n : Nat} (hs : T.Splittable e a b n) :
    ∃ T' enew ws, T.meMultiSplit e n = .ok (T', enew) ∧ enew.length = n + 1 ∧
      SplitInto T T' e a b enew ws := by
  obtain ⟨he, h0, h1, hab, hroom, hdef⟩ := hs
  have hal := alloc_of_live he
  have h0' := h0
  have h1' := h1
  rw [meVertex_ok hal] at h0 h1
  simp only [endAt, Res.ok.injEq, Bool.false_eq_true, if_false, if_true] at h0 h1
  have hev : T.ev e = (some a, some b) := by rw [← h0, ← h1]
  have hva : T.sv a = .live := h.ve.down e a he (Or.inl h0)
  have hvb : T.sv b = .live := h.ve.down e b he (Or.inr h1)
  obtain ⟨L, hL1, hL2⟩ := meFaces_ok hal
  obtain ⟨R, hR1, hR2, hR3⟩ := C22_edge_regions h he
  have hltV : ∀ v, T.sv v ≠ .unused → v < T.nv := by
    intro v hv
    by_contra hc
    exact hv (h.newV v (by omega))
  have hltE : ∀ x, T.se x ≠ .unused → x < T.ne := by
    intro v hv
    by_contra hc
    exact hv (h.newE v (by omega))
  have ha_lt := hltV a (by rw [hva]; simp)
  have hb_lt := hltV b (by rw [hvb]; simp)
  have he_lt := hltE e (by rw [he]; simp)
  -- the new vertices
  obtain ⟨ve1, e1, c1, l1, k1, n1⟩ := newVerts_ok n T h
  generalize hP : newVerts n T = P at *
  obtain ⟨T1, vn⟩ := P
  dsimp only at e1 c1 l1 k1 n1
  have hws : ∀ v ∈ a :: vn ++ [b], T1.sv v = .live := by
    intro v hv
    simp only [List.cons_append, List.mem_cons, List.mem_append, List.not_mem_nil, or_false] at hv
    rcases hv with rfl | hv | rfl
    · rw [k1 v ha_lt]; exact hva
    · rw [l1, List.mem_range'_1] at hv
      exact n1 v hv.1 hv.2
    · rw [k1 v hb_lt]; exact hvb
  have hnv1 : T1.nv = T.nv + n := by rw [e1]
  -- the new edges
  obtain ⟨T2, enew, r2, c2, e2, l2, ch2, k2, n2⟩ := newEdges_ok (a :: vn ++ [b]) T1 (by simp) c1 hws
  generalize hwsdef : a :: vn ++ [b] = ws at *
  have hwl : ws.length = n + 2 := by rw [← hwsdef, l1]; simp
  have hnel : enew.length = n + 1 := by rw [l2]; simp [hwl]
  have hT1ne : T1.ne = T.ne := by rw [e1]
  have hT1ev : T1.ev = T.ev := by rw [e1]
  have hT1se : T1.se = T.se := by rw [e1]
  have hT1ef : T1.ef = T.ef := by rw [e1]
  have hwn : ws.Nodup := by
    rw [← hwsdef, l1]
    have : (List.range' T.nv n).Nodup := List.nodup_range'
    simp only [List.cons_append, List.nodup_cons, List.mem_append, List.mem_range'_1, List.mem_cons,
      List.not_mem_nil, or_false, List.nodup_append]
    refine ⟨by omega, this, by simp, ?_⟩
    rintro x hx y rfl
    omega
  have hw0 : ws[0]? = some a := by rw [← hwsdef]; rfl
  have hwe : ws[enew.length]? = some b := by
    rw [hnel, ← hwsdef, l1, List.getElem?_append_right (by simp)]
    simp
  have hnn : enew.Nodup := by rw [l2]; exact List.nodup_range'
  have hne : enew ≠ [] := by intro hc; rw [hc] at hnel; simp at hnel
  have hnewE : ∀ x ∈ enew, T.ne ≤ x := by
    intro x hx
    rw [l2, List.mem_range'_1, hT1ne] at hx
    exact hx.1
  have hT2sf : T2.sf = T.sf := by rw [e2, e1]
  have hT2fe : T2.fe = T.fe := by rw [e2, e1]
  have hT2fd : T2.fd = T.fd := by rw [e2, e1]
  have hT2sv : T2.sv = T1.sv := by rw [e2]
  have hT2old : ∀ x, x < T.ne → T2.se x = T.se x ∧ T2.ev x = T.ev x := by
    intro x hx
    have := k2 x (by rw [hT1ne]; exact hx)
    rw [this.1, this.2.1, hT1se, hT1ev]
    exact ⟨rfl, rfl⟩
  -- the faces
  have hfaces : ∀ f, f ∈ T.ef e ↔ T.FaceHas f e := fun f => h.mem_ef he
  have hface : ∀ f ∈ T.ef e, T.sf f = .live ∧ ∃ l, T.fe f = some l ∧ l.Nodup ∧ e ∈ l ∧
      l.length + n ≤ 32 := by
    intro f hf
    have hh := (hfaces f).1 hf
    obtain ⟨l, a1, a2, a3⟩ := hh.stored
    obtain ⟨a4, a5⟩ := hroom f l hh a2
    exact ⟨hh.1, l, a1, a4, a3, a5⟩
  have hnotin : ∀ f l, T.sf f = .live → T.fe f = some l → ∀ x ∈ enew, x ∉ l := by
    intro f l hf hl x hx hc
    have := h.fedgesLive hf hl x hc
    have := hltE x (by rw [this]; simp)
    have := hnewE x hx
    omega
  obtain ⟨T3, r3, c3, o3, k3, d3⟩ := splitFaces_ok (e := e) (a := a) (b := b) hne hnn hwn hw0 hwe (T.ef e) T2 c2
    (h.ef.nodup e hal) (by rw [(hT2old e he_lt).2]; exact hev) ch2 n2 (by
      intro f hf
      obtain ⟨b1, l, b2, b3, b4, b5⟩ := hface f hf
      rw [hT2sf, hT2fe]
      exact ⟨b1, l, b2, b3, b4, by omega, hnotin f l b1 b2⟩)
  rw [OnlyBounds] at o3
  have hT3sf : T3.sf = T.sf := by rw [o3]; exact hT2sf
  have hT3sr : T3.sr = T.sr := by rw [o3, e2, e1]
  have hT3rf : T3.rf = T.rf := by rw [o3, e2, e1]
  have hT3rd : T3.rd = T.rd := by rw [o3, e2, e1]
  have hT3fr : T3.fr = T.fr := by rw [o3, e2, e1]
  have hT3se : T3.se = T2.se := by rw [o3]
  have hT3ev : T3.ev = T2.ev := by rw [o3]
  have hT3sv : T3.sv = T1.sv := by rw [o3]; exact hT2sv
  -- the regions
  have hregs : ∀ r ∈ R.getD [], T.sr r = .live ∧ ∃ l, T.rf r = some l ∧
      ∀ g ∈ l, T.sf g = .live ∧ ∃ m, T.fe g = some m := by
    intro r hr
    obtain ⟨f, hf1, hf2⟩ := (hR3 r).1 hr
    obtain ⟨hrl, d, hd⟩ := id hf2
    rw [mrFaceDir_iff h hrl] at hd
    have hfl := mem_facesOf_iff.2 ⟨d, hd⟩
    cases hl : T.rf r with
    | none => rw [hl] at hfl; simp at hfl
    | some l =>
      refine ⟨hrl, l, rfl, ?_⟩
      intro g hg
      have hgl : T.sf g = .live := h.rfacesLive hrl (by rw [hl]; exact hg)
      have hrg : T.RegionHas r g := by
        obtain ⟨d', hd'⟩ := mem_facesOf_iff.1 (show g ∈ (T.rf r).getD [] by rw [hl]; exact hg)
        exact ⟨hrl, d', (mrFaceDir_iff h hrl).2 hd'⟩
      obtain ⟨es, hes⟩ := hdef r f g hf2 hf1 hrg
      refine ⟨hgl, ?_⟩
      cases hfe : T.fe g with
      | none => exact absurd hes (mfEdges_none hfe _ _ _)
      | some m => exact ⟨m, rfl⟩
  have hT3fe_some : ∀ g m, T.fe g = some m → ∃ m', T3.fe g = some m' := by
    intro g m hg
    by_cases hgf : g ∈ T.ef e
    · obtain ⟨_, l', _, hl', _⟩ := d3 g hgf
      exact ⟨l', hl'⟩
    · exact ⟨m, by rw [(k3 g hgf).1, hT2fe]; exact hg⟩
  obtain ⟨rt, r4, k4, d4⟩ := updateTypes_ok (R.getD []) T3 c3 (by
    intro r hr
    obtain ⟨b1, l, b2, b3⟩ := hregs r hr
    rw [hT3sr, hT3rf]
    refine ⟨b1, l, b2, ?_⟩
    intro g hg
    obtain ⟨_, m, hm⟩ := b3 g hg
    exact hT3fe_some g m hm)
  have c4 : Consistent { T3 with rt := rt } :=
    ⟨c3.ve, c3.ef, c3.fr, c3.reg, c3.newV, c3.newE, c3.newF, c3.newR⟩
  -- no face uses the edge any more
  have hunused : ∀ f, T3.sf f = .live → ¬ bounds T3.fe f e := by
    intro f hf hbd
    rw [hT3sf] at hf
    unfold bounds at hbd
    by_cases hff : f ∈ T.ef e
    · obtain ⟨l, l', q1, q2, i, s, q3, q4, q5⟩ := d3 f hff
      obtain ⟨_, m, p1, p2, p3, p4⟩ := hface f hff
      rw [hT2fe, p1] at q1
      injection q1 with q1
      subst q1
      rw [q2, Option.getD_some, q4.mem_iff, List.mem_append] at hbd
      rcases hbd with hbd | hbd
      · have := hnewE e hbd; omega
      · exact ((mem_drop_rotate p2 q3 e).1 hbd).2 rfl
    · rw [(k3 f hff).1, hT2fe] at hbd
      apply hff
      rw [h.ef.mem e hal]
      exact ⟨hf, hbd⟩
  have heT3 : T3.se e = .live := by rw [hT3se, (hT2old e he_lt).1]; exact he
  obtain ⟨T5, r5, c5⟩ := c4.delEdge (e := e) (k := false) (by exact alloc_of_live heT3) hunused
  have e5 := meDelete_ok (T := { T3 with rt := rt }) (e := e) (keep := false) (by exact heT3)
    (fun v hv => alloc_of_live (c3.ve.down e v heT3 hv))
  rw [r5] at e5
  injection e5 with e5
  have hse5 : T5.se = upd T3.se e .freed := by rw [e5]; rfl
  have hev5 : T5.ev = T2.ev := by rw [e5]; exact hT3ev
  have hsv5 : T5.sv = T1.sv := by rw [e5]; exact hT3sv
  have hsf5 : T5.sf = T.sf := by rw [e5]; exact hT3sf
  have hfe5 : T5.fe = T3.fe := by rw [e5]
  have hfd5 : T5.fd = T3.fd := by rw [e5]
  have hsr5 : T5.sr = T.sr := by rw [e5]; exact hT3sr
  have hrf5 : T5.rf = T.rf := by rw [e5]; exact hT3rf
  have hrd5 : T5.rd = T.rd := by rw [e5]; exact hT3rd
  have hfr5 : T5.fr = T.fr := by rw [e5]; exact hT3fr
  have hrt5 : T5.rt = rt := by rw [e5]
  have hnv5 : T5.nv = T.nv + n := by rw [e5]; show T3.nv = _; rw [o3, e2]; exact hnv1
  have hne5 : T5.ne = T.ne + (ws.length - 1) := by rw [e5]; show T3.ne = _; rw [o3]; show T2.ne = _; rw [e2, hT1ne]
  have hne_e : ∀ x ∈ enew, x ≠ e := by
    rintro x hx rfl
    have := hnewE x hx
    omega
  have hse_new : ∀ x ∈ enew, T5.se x = .live := by
    intro x hx
    rw [hse5, upd_ne _ _ (hne_e x hx), hT3se]
    exact n2 x hx
  refine ⟨T5, enew, ws, ?_, hnel, c5, ?_, hw0, hwe, ⟨hwn, hnn⟩, ?_, ?_, ?_, ?_, ?_, ?_, ?_, hsf5, hsr5, ?_, ?_, ?_, ?_, ?_, ?_⟩
  · unfold meMultiSplit
    rw [hL1, Res.bind_ok, hR1, Res.bind_ok, h0', Res.bind_ok, h1', Res.bind_ok, Res.ofOption_some,
      Res.bind_ok, Res.ofOption_some, Res.bind_ok, derefV_ok (alloc_of_live hva), Res.bind_ok,
      derefV_ok (alloc_of_live hvb), Res.bind_ok]
    dsimp only
    rw [hP]
    dsimp only
    rw [hwsdef, r2, Res.bind_ok, hL2]
    dsimp only
    rw [r3, Res.bind_ok, r4, Res.bind_ok, r5]
    rfl
  · refine ⟨by omega, ?_⟩
    intro k x hx
    have hk := (List.getElem?_eq_some_iff.1 hx).1
    obtain ⟨u, hu⟩ : ∃ u, ws[k]? = some u := ⟨_, List.getElem?_eq_getElem (by omega)⟩
    obtain ⟨v, hv⟩ : ∃ v, ws[k+1]? = some v := ⟨_, List.getElem?_eq_getElem (by omega)⟩
    have hc := ch2.2 k x u v hx hu hv
    unfold Leads at hc
    rw [if_pos rfl] at hc
    have hx5 := alloc_of_live (hse_new x (List.mem_of_getElem? hx))
    rw [meVertex_ok hx5, meVertex_ok hx5, hev5, hc, hu, hv]
    exact ⟨rfl, rfl⟩
  · intro v hv
    rw [← hwsdef] at hv
    simp only [List.cons_append, List.mem_cons, List.mem_append, List.not_mem_nil, or_false] at hv
    rcases hv with hv | hv | hv
    · exact Or.inl hv
    · right; right
      rw [l1, List.mem_range'_1] at hv
      rw [hsv5]
      exact ⟨h.newV v hv.1, n1 v hv.1 hv.2⟩
    · exact Or.inr (Or.inl hv)
  · intro x hx
    exact ⟨h.newE x (hnewE x hx), hse_new x hx⟩
  · rw [hse5, upd_same]
  · intro v hv
    rw [hsv5, k1 v (hltV v hv)]
  · intro x hxe hx
    have hxl := hltE x hx
    have hsx : T5.se x = T.se x := by rw [hse5, upd_ne _ _ hxe, hT3se, (hT2old x hxl).1]
    refine ⟨hsx, ?_⟩
    intro i
    unfold meVertex derefE
    rw [hsx, hev5, (hT2old x hxl).2]
  · intro v hv
    have hlt : v < T.nv + n := by
      by_contra hc
      rw [c5.newV v (by rw [hnv5]; omega)] at hv
      cases hv
    by_cases hvl : v < T.nv
    · left; rw [hsv5, k1 v hvl] at hv; exact hv
    · right
      rw [← hwsdef, l1]
      simp only [List.cons_append, List.mem_cons, List.mem_append, List.mem_range'_1]
      right; left; omega
  · intro x hx
    have hlt : x < T.ne + (ws.length - 1) := by
      by_contra hc
      rw [c5.newE x (by rw [hne5]; omega)] at hx
      cases hx
    by_cases hxl : x < T.ne
    · left
      by_cases hxe : x = e
      · rw [hxe]; exact he
      · rw [hse5, upd_ne _ _ hxe, hT3se, (hT2old x hxl).1] at hx; exact hx
    · right
      rw [l2, List.mem_range'_1, hT1ne]; omega
  · intro f hfe
    have hff := (hfaces f).2 hfe
    obtain ⟨l, l', q1, q2, q3⟩ := d3 f hff
    obtain ⟨hfl, m, p1, p2, p3, p4⟩ := hface f hff
    rw [hT2fe, p1] at q1
    injection q1 with q1
    subst q1
    rw [hT2fd] at q3
    refine faceAfter_of hfl (by rw [hsf5]; exact hfl) p1 (by rw [hfe5]; exact q2) p2 (by omega) hne hnn
      (hnotin f m hfl p1) (fun x hx => alloc_of_live (h.fedgesLive hfl p1 x hx))
      (fun x hx => alloc_of_live (c5.fedgesLive (by rw [hsf5]; exact hfl) (by rw [hfe5]; exact q2) x hx)) hev
      (fun x hx => ?_) (ch2.congr hev5) hw0 hwe (by rw [hfd5]; exact q3)
    rw [hev5]
    exact (hT2old x (hltE x (by rw [h.fedgesLive hfl p1 x hx]; simp))).2
  · intro f hf hfe
    have hff : f ∉ T.ef e := fun hc => hfe ((hfaces f).1 hc)
    have b1 : T5.fe f = T.fe f := by rw [hfe5, (k3 f hff).1, hT2fe]
    have b2 : T5.fd f = T.fd f := by rw [hfd5, (k3 f hff).2, hT2fd]
    refine ⟨mfEdges_same f (by rw [hsf5]) b1, fun x => mfEdgeDir_same f x (by rw [hsf5]) b1 b2, fun i => ?_⟩
    unfold mfEdgeDir_i derefF
    rw [hsf5, b2]
  · intro f i
    unfold mfRegion derefF
    rw [hsf5, hfr5]
  · intro r
    refine ⟨?_, ?_⟩
    · unfold mrFaces rfaces derefR
      rw [hsr5, hrf5]
    · intro f
      unfold mrFaceDir rfaces derefR
      rw [hsr5, hrf5, hrd5]
  · intro r f hrf' hfe
    have hr : r ∈ R.getD [] := (hR3 r).2 ⟨f, hfe, hrf'⟩
    obtain ⟨l, t1, t2⟩ := d4 r hr
    obtain ⟨b1, l2, b2, b3⟩ := hregs r hr
    rw [hT3rf, b2] at t1
    injection t1 with t1
    subst t1
    refine typed_of (l := l2) (alloc_of_live (by rw [hsr5]; exact b1)) (by rw [hrf5]; exact b2) ?_ ?_ ?_
    · rw [hrt5, t2]
      unfold typeOf
      rw [hfe5]
    · intro g hg
      rw [hsf5]
      exact alloc_of_live (b3 g hg).1
    · intro g hg
      rw [hfe5]
      obtain ⟨_, m, hm⟩ := b3 g hg
      exact hT3fe_some g m hm
  · intro r hno
    have hr : r ∉ R.getD [] := by
      intro hr
      obtain ⟨f, hf1, hf2⟩ := (hR3 r).1 hr
      exact hno f hf2 hf1
    unfold mrElementType derefR
    rw [hsr5, hrt5, k4 r hr, o3, e2, e1]

/-- **C29, ME_Split.**  It is the split into two, and returns the new vertex. -/
theorem C29_split_partial {T : Topo} (h : T.Consistent) {e a b : Nat} (hs : T.Splittable e a b 1) :
    ∃ T' v e0 e1, T.meSplit e = .ok (T', some v) ∧ T.sv v = .unused ∧ T'.sv v = .live ∧
      SplitInto T T' e a b [e0, e1] [a, v, b] := by
  obtain ⟨T', enew, ws, r, hl, hsp⟩ := C29_multisplit_partial h hs
  have hwl := hsp.chain.1
  match enew, ws, hl, hwl, r, hsp with
  | [e0, e1], [a', v, b'], _, _, r, hsp =>
    have ha := hsp.first
    have hb := hsp.last
    simp at ha hb
    subst ha hb
    have hv := (hsp.chain.2 0 e0 rfl).2
    refine ⟨T', v, e0, e1, ?_, ?_⟩
    · unfold meSplit
      rw [r, Res.bind_ok]
      dsimp only
      rw [List.getElem?_cons_zero, Res.ofOption_some, Res.bind_ok, hv]
      rfl
    · have hd := hsp.distinct.1
      simp at hd
      rcases hsp.new_vertices v (by simp) with hx | hx | hx
      · exact absurd hx.symm hd.1.1
      · exact absurd hx hd.2
      · exact ⟨hx.1, hx.2, hsp⟩

/-! ### concrete cases -/

/-- an executable check of `Splittable` -/
def splittableB (T : Topo) (e a b n : Nat) : Bool :=
  decide (T.se e = .live) && decide (T.meVertex e false = .ok (some a)) &&
  decide (T.meVertex e true = .ok (some b)) && decide (a ≠ b) &&
  (List.range T.nf).all fun f => decide (T.sf f ≠ .live) || match T.mfEdges f true none with
    | .ok es => !es.contains e || (decide es.Nodup && decide (es.length + n ≤ 32))
    | _ => false

theorem splittableB_sound {T : Topo} (hc : T.Consistent) {e a b n : Nat}
    (h : T.splittableB e a b n = true) : T.Splittable e a b n := by
  unfold splittableB at h
  simp only [Bool.and_eq_true, decide_eq_true_iff] at h
  obtain ⟨⟨⟨⟨h1, h2⟩, h3⟩, h4⟩, h5⟩ := h
  have hface : ∀ f, T.sf f = .live → ∃ es, T.mfEdges f true none = .ok es ∧
      (e ∈ es → es.Nodup ∧ es.length + n ≤ 32) := by
    intro f hf
    have hlt : f < T.nf := by
      by_contra hge
      rw [hc.newF f (by omega)] at hf
      cases hf
    have h6 := List.all_eq_true.1 h5 f (List.mem_range.2 hlt)
    rw [Bool.or_eq_true, decide_eq_true_iff] at h6
    rcases h6 with h6 | h6
    · exact absurd hf h6
    · cases hm : T.mfEdges f true none with
      | ok es =>
        rw [hm] at h6
        refine ⟨es, rfl, fun he => ?_⟩
        simp only [Bool.or_eq_true, Bool.not_eq_true', Bool.and_eq_true, decide_eq_true_iff] at h6
        rcases h6 with h6 | h6
        · rw [List.contains_iff_mem.2 he] at h6; cases h6
        · exact h6
      | ub => rw [hm] at h6; cases h6
      | fatal => rw [hm] at h6; cases h6
      | hang => rw [hm] at h6; cases h6
  refine ⟨h1, h2, h3, h4, ?_, ?_⟩
  · intro f es hf hes
    obtain ⟨es', h6, h7⟩ := hface f hf.1
    rw [hes] at h6; injection h6 with h6; subst h6
    obtain ⟨_, es', h8, h9⟩ := hf
    rw [hes] at h8; injection h8 with h8; subst h8
    exact h7 h9
  · intro r f g hrf hfe hrg
    obtain ⟨hr, d, hd⟩ := hrg
    rw [mrFaceDir_iff hc hr] at hd
    obtain ⟨es, h6, -⟩ := hface g (hc.rfacesLive hr (mem_facesOf_iff.2 ⟨d, hd⟩))
    exact ⟨es, h6⟩

/-- The edge shared by both tetrahedra can be split into four; its faces get three more vertices. -/
example : ∃ T, empty.run twoTets = .ok T ∧ T.Consistent ∧ T.Splittable 0 0 1 3 ∧
    ∃ T', T.meMultiSplit 0 3 = .ok (T', [9, 10, 11, 12]) ∧
      T'.mfEdges 0 true none = .ok [9, 10, 11, 12, 1, 2] ∧
      T'.mfVertices 0 true none = .ok ([0, 5, 6, 7, 1, 2].map some) := by
  obtain ⟨T, h1, h2⟩ := reachable (os := twoTets) (by decide +kernel)
  have hq : answer twoTets (fun T => .ok (T.splittableB 0 0 1 3 &&
      match T.meMultiSplit 0 3 with
      | .ok (T', l) => decide (l = [9, 10, 11, 12]) &&
        decide (T'.mfEdges 0 true none = .ok [9, 10, 11, 12, 1, 2]) &&
        decide (T'.mfVertices 0 true none = .ok ([0, 5, 6, 7, 1, 2].map some))
      | _ => false)) = .ok true := by decide +kernel
  unfold answer at hq
  rw [h1, Res.bind_ok, Res.ok.injEq, Bool.and_eq_true] at hq
  refine ⟨T, h1, h2, splittableB_sound h2 hq.1, ?_⟩
  have hm := hq.2
  split at hm
  · simp only [Bool.and_eq_true, decide_eq_true_iff] at hm
    obtain ⟨⟨rfl, h4⟩, h5⟩ := hm
    exact ⟨_, by assumption, h4, h5⟩
  · cases hm

/-- The directions of the edges of a face are the bits of one `unsigned int`: splitting an edge of a
triangle into 31 makes a face of 33 edges, and the code shifts by 32 places (undefined).  Splitting
it into 30 is covered by the theorem. -/
theorem C29_negation_too_many :
    answer twoTets (fun T => do let p ← T.meMultiSplit 0 30; pure p.2) = .ub ∧
    answer twoTets (fun T => .ok (T.splittableB 0 0 1 29)) = .ok true := by decide +kernel

end Topo
end MSTK
