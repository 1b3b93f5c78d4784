import Verif.TopoWalk

/-!
C25: edge directions follow their edges when a face is edited.

Specification: `MF_Edges` as a cyclic list (`~r`: equal up to where one starts), `MF_EdgeDir`,
and `Loop`/`PathOf` (closed loop of a face, path of edges through given vertices).
-/
namespace MSTK
namespace Topo

/-- **C25, MF_Rem_Edge**: the edge disappears, the others stay in order and keep their
directions. -/
theorem C25_rem_edge {T : Topo} (h : T.Consistent) {f e : Nat} {es : List Nat} (hf : T.sf f = .live)
    (hes : T.mfEdges f true none = .ok es) (hn : es.Nodup) (h64 : es.length ≤ 64) :
    ∃ T', T.mfRemEdge f e = .ok T' ∧ T'.Consistent ∧ T'.mfEdges f true none = .ok (es.erase e) ∧
      ∀ x ∈ es, x ≠ e → T'.mfEdgeDir f x = T.mfEdgeDir f x := by
  have hl : T.fe f = some es := by
    cases hfe : T.fe f with
    | none => exact absurd hes (mfEdges_none hfe _ _ _)
    | some l => rw [mfEdges_plain (alloc_of_live hf) hfe] at hes; injection hes with hes; rw [hes]
  obtain ⟨T', r, hc⟩ := h.remEdge (e := e) hf hl h64 (List.nodup_iff_count_le_one.1 hn e)
  refine ⟨T', r, hc, ?_⟩
  by_cases he : e ∈ es
  · have hlive := h.fedgesLive hf hl
    obtain ⟨d', h1, h2⟩ := mfRemEdge_ok (T := T) (alloc_of_live hf) hl he h64 (alloc_of_live (hlive e he))
    rw [r] at h1
    injection h1 with h1
    have hfe' : T'.fe f = some (es.eraseIdx (es.idxOf e)) := by rw [h1]; exact upd_same _ _ _
    have hfd' : T'.fd f = d' := by rw [h1]; exact upd_same _ _ _
    have hsf' : (T'.sf f).alloc := by rw [h1]; exact alloc_of_live hf
    have her : es.erase e = es.eraseIdx (es.idxOf e) := erase_eq_eraseIdx hn (idxOf_getElem? he)
    refine ⟨by rw [mfEdges_plain hsf' hfe', her], ?_⟩
    intro x hx hxe
    apply mfEdgeDir_eq (alloc_of_live hf) hsf' hl hfe' hn (her ▸ hn.erase e) h64 _ hx
    · intro d hd
      rw [hfd', h2]
      rw [List.mem_eraseIdx_iff_getElem?]
      obtain ⟨i, hi⟩ := List.mem_iff_getElem?.1 hd
      refine ⟨i, ?_, hi⟩
      rintro rfl
      rw [getElem?_pairs, idxOf_getElem? he] at hi
      simp only [Option.map_some, Option.some.injEq, Prod.mk.injEq] at hi
      exact hxe hi.1.symm
    · exact (List.length_eraseIdx_le _ _).trans h64
  · unfold mfRemEdge at r
    rw [fedges_ok (alloc_of_live hf) hl, Res.bind_ok, if_neg he] at r
    injection r with r
    subst r
    exact ⟨by rw [List.erase_of_not_mem he]; exact hes, fun _ _ _ => rfl⟩

/-- The call `MF_Replace_Edges_i(f,nold,i,nnu,nu)` as it may be made: `es` are the edges of `f`. -/
structure Replaces (T : Topo) (f : Nat) (es : List Nat) (nold i : Nat) (nu : List Nat) : Prop where
  live : T.sf f = .live
  edges : T.mfEdges f true none = .ok es
  distinct : es.Nodup
  start : i < es.length
  some_old : 0 < nold
  enough : nold ≤ es.length
  some_new : nu ≠ []
  new_distinct : nu.Nodup
  new_live : ∀ e ∈ nu, T.se e = .live ∧ e ∉ es
  size : es.length ≤ 32
  new_size : es.length - nold + nu.length ≤ 32
  /-- a longer path is not put in across the end of the list -/
  no_wrap : nold < nu.length → i + nold ≤ es.length

/-- **C25, MF_Replace_Edges_i, at most one edge fewer than before.**  The edges at positions
`i, i+1, ..` are exchanged for the new ones, in the given or the opposite order; every edge that
stays keeps its direction.  Missing for the full property: replacements by two or more edges fewer
(`C25_negation_shrink`) and by more edges across the end of the list (`C25_negation_wrap`). -/
theorem C25_replace_at_partial {T : Topo} (h : T.Consistent) {f nold i : Nat} {es nu : List Nat}
    (hr : T.Replaces f es nold i nu) (hshrink : nold ≤ nu.length + 1) :
    ∃ T' es', T.mfReplaceEdges_i f nold i nu = .ok T' ∧ T'.Consistent ∧
      T'.mfEdges f true none = .ok es' ∧
      (es' ~r nu ++ (es.rotate i).drop nold ∨ es' ~r nu.reverse ++ (es.rotate i).drop nold) ∧
      ∀ x ∈ (es.rotate i).drop nold, T'.mfEdgeDir f x = T.mfEdgeDir f x := by
  obtain ⟨hf, hes, hnd, hi, hn0, hno, hnu, hnn, hnl, h32, hsz, hgrow⟩ := hr
  have hl : T.fe f = some es := by
    cases hfe : T.fe f with
    | none => exact absurd hes (mfEdges_none hfe _ _ _)
    | some l => rw [mfEdges_plain (alloc_of_live hf) hfe] at hes; injection hes with hes; rw [hes]
  have hlive := h.fedgesLive hf hl
  obtain ⟨T', r, hc⟩ := h.replaceEdgesAt hf hl hnd hi hn0 hno hnu hnn hnl h32 hsz hgrow
  obtain ⟨o0, o1, n0, n1, new, l', d', _, _, _, _, _, hm, h1, hp, hrot⟩ :=
    mfReplaceEdges_i_ok (T := T) (alloc_of_live hf) hl hnd hi hn0 hno hnu hnn
    (fun e he => ⟨alloc_of_live (hnl e he).1, (hnl e he).2⟩)
    (fun e he => alloc_of_live (hlive e he)) h32 hsz hgrow
  obtain ⟨s, hs⟩ := hrot hshrink
  rw [r] at h1
  injection h1 with h1
  have hfe' : T'.fe f = some l' := by rw [h1]; exact upd_same _ _ _
  have hfd' : T'.fd f = d' := by rw [h1]; exact upd_same _ _ _
  have hsf' : (T'.sf f).alloc := by rw [h1]; exact alloc_of_live hf
  have hfst : l'.rotate s = new.map (·.1) ++ (es.rotate i).drop nold := by
    have := congrArg (List.map (·.1)) hs
    rw [map_fst_rotate, pairs_map_fst, List.map_append, List.map_drop, map_fst_rotate, pairs_map_fst] at this
    exact this
  refine ⟨T', l', r, hc, mfEdges_plain hsf' hfe', ?_, ?_⟩
  · rw [hm] at hfst
    split at hfst
    · exact Or.inr ⟨s, hfst⟩
    · exact Or.inl ⟨s, hfst⟩
  · intro x hx
    have hx' : x ∈ es := List.mem_rotate.1 (List.mem_of_mem_drop hx)
    have hl'len : l'.length = nu.length + (es.length - nold) := by
      rw [hp.length_eq]; simp
    have hndr : (es.rotate i).Nodup := List.nodup_rotate.2 hnd
    have hnd' : l'.Nodup := by
      rw [hp.nodup_iff, List.nodup_append]
      refine ⟨hnn, hndr.sublist (List.drop_sublist _ _), ?_⟩
      rintro a ha b hb rfl
      exact (hnl a ha).2 (List.mem_rotate.1 (List.mem_of_mem_drop hb))
    apply mfEdgeDir_eq (alloc_of_live hf) hsf' hl hfe' hnd hnd' (by omega) (by omega) hx'
    intro d hd
    rw [hfd', ← List.mem_rotate (n := s), hs, List.mem_append]
    right
    -- the position of `x` in the rotated list is one that is kept
    obtain ⟨j, hj⟩ := List.mem_iff_getElem?.1 hx
    have hj2 := hj
    rw [List.getElem?_drop] at hj2
    have hjlt := (List.getElem?_eq_some_iff.1 hj2).1
    rw [List.length_rotate] at hjlt
    rw [List.getElem?_rotate hjlt] at hj2
    refine List.mem_of_getElem? (i := j) ?_
    rw [List.getElem?_drop, List.getElem?_rotate (by rw [pairs_length]; exact hjlt), pairs_length,
      getElem?_pairs, hj2]
    rw [mem_pairs_dir hnd hj2] at hd
    simp [hd]

theorem PathOf.firstUses {T : Topo} {es ws : List Nat} (h : T.PathOf es ws) {n0 v : Nat}
    (hal : (T.se n0).alloc) (h0 : es.head? = some n0) (hv : ws[0]? = some v) :
    usesB T n0 (some v) = true := by
  rw [List.head?_eq_getElem?] at h0
  have hlt := (List.getElem?_eq_some_iff.1 h0).1
  have hb := List.getElem?_eq_getElem (l := ws) (i := 1) (by have := h.1; omega)
  rw [usesB_iff]
  unfold ends
  rcases (h.2 0 n0 v _ h0 hv hb).ev hal with hj | hj <;> rw [hj] <;> simp

theorem PathOf.lastUses {T : Topo} {es ws : List Nat} (h : T.PathOf es ws) {n1 v : Nat}
    (hal : (T.se n1).alloc) (h0 : es.getLast? = some n1) (hv : ws[es.length]? = some v) :
    usesB T n1 (some v) = true := by
  rw [List.getLast?_eq_getElem?] at h0
  have hlt := (List.getElem?_eq_some_iff.1 h0).1
  have ha := List.getElem?_eq_getElem (l := ws) (i := es.length - 1) (by have := h.1; omega)
  rw [usesB_iff]
  unfold ends
  rcases (h.2 (es.length - 1) n1 _ v h0 ha (by rw [← hv]; congr 1; omega)).ev hal with hj | hj <;>
    rw [hj] <;> simp

/-- an edge of a path through distinct vertices uses only its own two vertices -/
theorem PathOf.uses {T : Topo} {es ws : List Nat} (h : T.PathOf es ws) (hw : ws.Nodup) {k e v j : Nat}
    (hal : (T.se e).alloc) (he : es[k]? = some e) (hv : ws[j]? = some v)
    (hu : usesB T e (some v) = true) : j = k ∨ j = k + 1 := by
  have hlt := (List.getElem?_eq_some_iff.1 he).1
  have hlen := h.1
  have ha := List.getElem?_eq_getElem (l := ws) (i := k) (by omega)
  have hb := List.getElem?_eq_getElem (l := ws) (i := k+1) (by omega)
  rw [usesB_iff] at hu
  unfold ends at hu
  have hcase : ws[k]'(by omega) = v ∨ ws[k+1]'(by omega) = v := by
    rcases (h.2 k e _ _ he ha hb).ev hal with hj | hj
    · rw [hj] at hu; simpa using hu
    · rw [hj] at hu; simpa [or_comm] using hu
  rcases hcase with hc | hc
  · rw [hc] at ha
    exact Or.inl (getElem?_inj_nodup hw hv ha)
  · rw [hc] at hb
    exact Or.inr (getElem?_inj_nodup hw hv hb)

/-- **C25, the loop stays closed.**  Face with loop `vs`; the new edges form a path through `ws`
from `vs[i]` to `vs[i+nold]`, given in that order or in the opposite one (then through distinct
vertices).  Afterwards the face has the closed loop that follows `ws` and then the rest of `vs`. -/
theorem C25_loop_stays_closed_partial {T : Topo} (h : T.Consistent) {f nold i : Nat}
    {es nu vs ws : List Nat} (hr : T.Replaces f es nold i nu) (hshrink : nold ≤ nu.length + 1)
    (hloop : T.Loop f vs)
    (hpath : T.PathOf nu ws ∨ (T.PathOf nu.reverse ws ∧ ws.Nodup))
    (hstart : ws[0]? = vs[i]?) (hend : ws[nu.length]? = vs[(i + nold) % vs.length]?) :
    ∃ T' vs', T.mfReplaceEdges_i f nold i nu = .ok T' ∧ T'.Loop f vs' ∧
      vs' ~r ws.dropLast ++ (vs.rotate i).drop nold := by
  obtain ⟨hf, hes, hnd, hi, hn0, hno, hnu, hnn, hnl, h32, hsz, hgrow⟩ := hr
  have hl : T.fe f = some es := by
    cases hfe : T.fe f with
    | none => exact absurd hes (mfEdges_none hfe _ _ _)
    | some l => rw [mfEdges_plain (alloc_of_live hf) hfe] at hes; injection hes with hes; rw [hes]
  have hlive := h.fedgesLive hf hl
  have hvl : es.length = vs.length := by
    obtain ⟨l, h1, h2, -⟩ := hloop
    rw [hes] at h1; injection h1 with h1; rw [h1]; exact h2
  have hpos : 0 < vs.length := by omega
  have hnupos : 0 < nu.length := List.length_pos_iff.2 hnu
  obtain ⟨T', r, hc⟩ := h.replaceEdgesAt hf hl hnd hi hn0 hno hnu hnn hnl h32 hsz hgrow
  obtain ⟨o0, o1, n0, n1, new, l', d', ho0, ho1, hh0, hh1, hpd, hm, h1, hp, hrot⟩ :=
    mfReplaceEdges_i_ok (T := T) (alloc_of_live hf) hl hnd hi hn0 hno hnu hnn
    (fun e he => ⟨alloc_of_live (hnl e he).1, (hnl e he).2⟩)
    (fun e he => alloc_of_live (hlive e he)) h32 hsz hgrow
  obtain ⟨s, hs⟩ := hrot hshrink
  rw [r] at h1
  injection h1 with h1
  have hclosed := (hloop.closed (alloc_of_live hf) hl (fun e he => alloc_of_live (hlive e he))).rotate i
  have hRlen : ((pairs es (fbit (T.fd f))).rotate i).length = vs.length := by
    rw [List.length_rotate, pairs_length, hvl]
  -- the ends of the replaced part
  have hv0 : endAt (T.ev o0.1) (!o0.2) = vs[i]? := by
    rw [List.head?_take, if_neg (by omega), List.head?_eq_getElem?] at ho0
    have ha := List.getElem?_eq_getElem (l := vs.rotate i) (i := 0) (by simpa using hpos)
    have hb := List.getElem?_eq_getElem (l := vs.rotate i) (i := (0+1) % (vs.rotate i).length)
      (Nat.mod_lt _ (by simpa using hpos))
    have hL := hclosed.2 0 o0 _ _ ho0 ha hb
    rw [List.getElem?_rotate hpos, Nat.zero_add, Nat.mod_eq_of_lt (by omega)] at ha
    rw [ha]
    unfold Leads at hL
    rw [hL]
    cases o0.2 <;> rfl
  have hv1 : endAt (T.ev o1.1) o1.2 = vs[(i + nold) % vs.length]? := by
    rw [List.getLast?_eq_getElem?, List.length_take, hRlen, Nat.min_eq_left (by omega),
      List.getElem?_take, if_pos (by omega)] at ho1
    have ha := List.getElem?_eq_getElem (l := vs.rotate i) (i := nold - 1) (by simp; omega)
    obtain ⟨y, hb⟩ : ∃ y, (vs.rotate i)[(nold-1+1) % (vs.rotate i).length]? = some y :=
      ⟨_, List.getElem?_eq_getElem (Nat.mod_lt _ (by simpa using hpos))⟩
    have hL := hclosed.2 (nold-1) o1 _ _ ho1 ha hb
    rw [List.length_rotate, List.getElem?_rotate (Nat.mod_lt _ hpos), Nat.mod_add_mod,
      show nold - 1 + 1 + i = i + nold by omega] at hb
    rw [hb]
    unfold Leads at hL
    rw [hL]
    cases o1.2 <;> rfl
  have hvi := List.getElem?_eq_getElem (l := vs) (i := i) (by omega)
  have hvj := List.getElem?_eq_getElem (l := vs) (i := (i + nold) % vs.length) (Nat.mod_lt _ hpos)
  generalize vs[i]'_ = a0 at hvi
  generalize vs[(i + nold) % vs.length]'_ = a1 at hvj
  rw [hv0, hvi, hv1, hvj] at hpd
  rw [hv0, hvi, hv1, hvj] at hm
  rw [hvi] at hstart
  rw [hvj] at hend
  have hal0 := alloc_of_live (hnl n0 (List.mem_of_head? hh0)).1
  have hal1 := alloc_of_live (hnl n1 (List.mem_of_getLast? hh1)).1
  -- the order in which the new edges are used
  have hord : ∃ nu', (if revB T n0 n1 (some a0) (some a1) then nu.reverse else nu) = nu' ∧
      T.PathOf nu' ws := by
    refine ⟨_, rfl, ?_⟩
    rcases hpath with hpath | ⟨hpath, hwn⟩
    · have u0 := hpath.firstUses hal0 hh0 hstart
      have u1 := hpath.lastUses hal1 hh1 hend
      rw [if_neg (by unfold revB; rw [u0, u1]; simp)]
      exact hpath
    · have hh0' : nu.reverse.getLast? = some n0 := by rw [List.getLast?_reverse]; exact hh0
      have hh1' : nu.reverse.head? = some n1 := by rw [List.head?_reverse]; exact hh1
      have u0 := hpath.lastUses hal0 hh0' (by rw [List.length_reverse]; exact hend)
      have u1 := hpath.firstUses hal1 hh1' hstart
      by_cases hone : nu.length = 1
      · obtain ⟨x, hx⟩ := List.length_eq_one_iff.1 hone
        subst hx
        have e0 : n0 = x := by simpa using hh0.symm
        have e1 : n1 = x := by simpa using hh1.symm
        subst e0; subst e1
        split
        · exact hpath
        · simpa using hpath
      · have hno0 : usesB T n0 (some a0) = false := by
          cases hu : usesB T n0 (some a0) with
          | false => rfl
          | true =>
            rw [List.getLast?_eq_getElem?] at hh0'
            have := hpath.uses hwn hal0 hh0' hstart hu
            rw [List.length_reverse] at this
            omega
        rw [if_pos (by unfold revB; rw [hno0, u0, u1]; rfl)]
        exact hpath
  obtain ⟨nu', hnu', hpath'⟩ := hord
  rw [hnu'] at hpd hm
  have hnu'l : nu'.length = nu.length := by
    rw [← hnu']; split
    · simp
    · rfl
  have hnewl : new.length = nu.length := by
    have := congrArg List.length hm
    rw [List.length_map] at this; omega
  have hnu'al : ∀ e ∈ nu', (T.se e).alloc := by
    intro e he
    rw [← hnu'] at he
    have : e ∈ nu := by
      split at he
      · exact List.mem_reverse.1 he
      · exact he
    exact alloc_of_live (hnl e this).1
  have hleads := pathDirs_leads nu' ws a0 new hnu'al hpath' hstart hpd
  have hspl := hclosed.splice (nold := nold) (new := new) (ws := ws) (by simp; omega) (by omega)
    (by rw [hpath'.1, hnu'l, hnewl]) hleads
    (by rw [hstart, List.getElem?_rotate hpos, Nat.zero_add, Nat.mod_eq_of_lt (by omega), hvi])
    (by rw [hnewl, hend, List.length_rotate, List.getElem?_rotate (Nat.mod_lt _ hpos), Nat.mod_add_mod,
      Nat.add_comm nold i, hvj])
  rw [← hs] at hspl
  have hun := hspl.unrotate
  have hfe' : T'.fe f = some l' := by rw [h1]; exact upd_same _ _ _
  have hfd' : T'.fd f = d' := by rw [h1]; exact upd_same _ _ _
  have hsf' : (T'.sf f).alloc := by rw [h1]; exact alloc_of_live hf
  have hev' : T'.ev = T.ev := by rw [h1]
  have hse' : T'.se = T.se := by rw [h1]
  refine ⟨T', _, r, Closed.loop hsf' hfe' ?_ ?_ (by rw [hfd']; exact hun.congr hev'), ?_⟩
  · intro e he
    rw [hse']
    rw [hp.mem_iff, List.mem_append] at he
    rcases he with he | he
    · exact alloc_of_live (hnl e he).1
    · exact alloc_of_live (hlive e (List.mem_rotate.1 (List.mem_of_mem_drop he)))
  · rw [hp.length_eq]; simp; omega
  · exact List.IsRotated.symm ⟨_, rfl⟩

/-- **C25, MF_Replace_Edges** with the old edges named in the order in which the face uses them:
the same as `MF_Replace_Edges_i` at their position. -/
theorem C25_replace_named_partial {T : Topo} {f i nold : Nat} {es nu : List Nat} (hf : T.sf f = .live)
    (hes : T.mfEdges f true none = .ok es) (hn : es.Nodup) (h32 : es.length ≤ 32) (hi : i < es.length)
    (h0 : 0 < nold) (hlt : nold < es.length ∨ i + nold ≤ es.length) :
    T.mfReplaceEdges f ((es.rotate i).take nold) nu = T.mfReplaceEdges_i f nold i nu := by
  have hl : T.fe f = some es := by
    cases hfe : T.fe f with
    | none => exact absurd hes (mfEdges_none hfe _ _ _)
    | some l => rw [mfEdges_plain (alloc_of_live hf) hfe] at hes; injection hes with hes; rw [hes]
  rw [mfReplaceEdges_eq (alloc_of_live hf) hl, startOf_forward hn h32 hi h0 hlt]
  · congr 1
    rw [List.length_take, List.length_rotate]; omega
  · intro e he; exact List.mem_rotate.1 (List.mem_of_mem_take he)

/-! ### where the code breaks the property -/

/-- a hexagon whose fourth edge (handle 0) is used backwards, and a new edge 6 from vertex 0 to
vertex 3 -/
def hexagon : List Op :=
  [.newVertex, .newVertex, .newVertex, .newVertex, .newVertex, .newVertex,
   .newEdge, .setVertex 0 false 4, .setVertex 0 true 3, .newFace, .setVertices 0 [0,1,2,3,4,5],
   .newEdge, .setVertex 6 false 0, .setVertex 6 true 3]

/-- Replacing the first three edges by one edge with the same ends turns round edge 0, which is
kept: the vertices reported no longer form the loop 0,3,4,5. -/
theorem C25_negation_shrink :
    answer hexagon (fun T => T.mfEdgeDir 0 0) = .ok false ∧
    answer (hexagon ++ [.replaceEdgesAt 0 3 0 [6]]) (fun T => T.mfEdges 0 true none) = .ok [6,0,4,5] ∧
    answer (hexagon ++ [.replaceEdgesAt 0 3 0 [6]]) (fun T => T.mfEdgeDir 0 0) = .ok true ∧
    answer (hexagon ++ [.replaceEdgesAt 0 3 0 [6]]) (fun T => T.mfVertices 0 true none)
      = .ok [some 0, some 4, some 4, some 5] := by decide +kernel

/-- Two edges across the end of the list (positions 5 and 0) replaced by three: the third is
inserted beyond the end of the list. -/
theorem C25_negation_wrap :
    answer (hexagon ++ [.newVertex, .newVertex, .newEdge, .setVertex 7 false 5, .setVertex 7 true 6,
      .newEdge, .setVertex 8 false 6, .setVertex 8 true 7, .newEdge, .setVertex 9 false 7,
      .setVertex 9 true 1, .replaceEdgesAt 0 2 5 [7,8,9]]) (fun T => T.mfEdges 0 true none) = .ub := by
  decide +kernel

/-- Three edges named in the opposite order: other edges are replaced. -/
theorem C25_negation_named_backwards :
    answer hexagon (fun T => T.mfEdges 0 true none) = .ok [1,2,3,0,4,5] ∧
    answer (hexagon ++ [.newVertex, .newVertex, .newEdge, .setVertex 7 false 0, .setVertex 7 true 6,
      .newEdge, .setVertex 8 false 6, .setVertex 8 true 7, .newEdge, .setVertex 9 false 7,
      .setVertex 9 true 3, .replaceEdges 0 [3,2,1] [7,8,9]]) (fun T => T.mfEdges 0 true none)
      = .ok [1,2,7,8,9,5] := by decide +kernel

/-- The two directions of `C25_loop_stays_closed_partial` on the hexagon: two edges replaced by
one, across the end of the list, and one by two given in the opposite order. -/
example :
    answer (hexagon ++ [.newEdge, .setVertex 7 false 1, .setVertex 7 true 5, .replaceEdgesAt 0 2 5 [7]])
      (fun T => T.mfVertices 0 true none) = .ok [some 1, some 2, some 3, some 4, some 5] ∧
    answer (hexagon ++ [.newVertex, .newEdge, .setVertex 7 false 4, .setVertex 7 true 6, .newEdge,
      .setVertex 8 false 6, .setVertex 8 true 3, .replaceEdgesAt 0 1 3 [7,8]])
      (fun T => T.mfVertices 0 true none) = .ok [some 0, some 1, some 2, some 3, some 6, some 4, some 5] := by
  decide +kernel

end Topo
end MSTK
