import Verif.TopoEdgeOps

/-!
Preservation of the mesh consistency by the operations on faces.
-/
namespace MSTK
namespace Topo

/-- one face changes its state or its slots, the regions do not change -/
theorem Sides.face {sf sf' : Nat → Stat} {fr fr' : Nat → Option Nat × Option Nat} {sr : Nat → Stat}
    {fo : Nat → List (Nat × Bool)} (h : Sides sf fr sr fo) (f : Nat)
    (hsf : ∀ z, z ≠ f → sf' z = sf z) (hfr : ∀ z, z ≠ f → fr' z = fr z)
    (hf : (sf' f).alloc → ∀ r d, endAt (fr' f) (!d) = some r ↔ sr r = .live ∧ (f, d) ∈ fo r)
    (hlive : (∃ r d, sr r = .live ∧ (f, d) ∈ fo r) → sf' f = .live) : Sides sf' fr' sr fo := by
  refine ⟨?_, ?_⟩
  · intro z hz r d
    by_cases hzf : z = f
    · subst hzf; exact hf hz r d
    · rw [hfr z hzf]
      exact h.mem z (by rw [← hsf z hzf]; exact hz) r d
  · intro r z d hr hm
    by_cases hzf : z = f
    · subst hzf; exact hlive ⟨r, d, hr, hm⟩
    · rw [hsf z hzf]; exact h.down r z d hr hm

theorem Consistent.newFace {T : Topo} (h : T.Consistent) : T.mfNew.1.Consistent := by
  have hfree : T.sf T.nf = .unused := h.newF _ (Nat.le_refl _)
  refine ⟨h.ve, ?_, ?_, h.reg, h.newV, h.newE, ?_, h.newR⟩
  · refine h.ef.update T.nf (fun z hz => upd_ne _ _ hz) ?_ h.ef.nodup (fun _ _ _ _ => Iff.rfl) ?_ ?_
    · intro z hz x
      show bounds (upd T.fe T.nf none) z x ↔ _
      unfold bounds; rw [upd_ne _ _ hz]
    · intro x hx
      show T.nf ∈ T.ef x ↔ _ ∧ bounds (upd T.fe T.nf none) T.nf x
      unfold bounds
      rw [h.ef.mem x hx, hfree, upd_same]
      simp
    · intro x _ hb
      have hb : bounds (upd T.fe T.nf none) T.nf x := hb
      unfold bounds at hb
      rw [upd_same] at hb
      simp at hb
  · refine h.fr.face T.nf (fun z hz => upd_ne _ _ hz) (fun z hz => upd_ne _ _ hz) ?_ ?_
    · intro _ r d
      show endAt (upd T.fr T.nf (none, none) T.nf) (!d) = some r ↔ _
      rw [upd_same]
      constructor
      · intro hc; cases d <;> simp [endAt] at hc
      · rintro ⟨h1, h2⟩
        have := h.fr.down r _ d h1 h2
        rw [hfree] at this; cases this
    · intro _; exact upd_same _ _ _
  · intro i hi
    show upd T.sf T.nf .live i = .unused
    have hi : T.nf + 1 ≤ i := hi
    rw [upd_ne _ _ (by omega)]
    exact h.newF i (by omega)

theorem Consistent.setEdges {T : Topo} (h : T.Consistent) {f : Nat} {es : List (Nat × Bool)}
    (hf : T.sf f = .live) (he : (T.fe f).getD [] = []) (hn : es.length ≤ 32)
    (hall : ∀ p ∈ es, T.se p.1 = .live) : ∃ T', T.mfSetEdges f es = .ok T' ∧ T'.Consistent := by
  obtain ⟨d', h1, _⟩ := mfSetEdges_ok (T := T) (alloc_of_live hf) hn
    (fun p hp => alloc_of_live (hall p hp))
  refine ⟨_, h1, h.ve, ?_, h.fr, h.reg, h.newV, h.newE, h.newF, h.newR⟩
  refine h.ef.faceEdges hf ?_ ?_ ?_ ?_
  · intro e hm
    obtain ⟨p, hp, rfl⟩ := List.mem_map.1 hm
    exact hall p hp
  · intro x hx; exact (addAll_spec f _ T.ef x).1 (h.ef.nodup x hx)
  · intro x _ z hz; dsimp only; rw [(addAll_spec f _ T.ef x).2]; simp [hz]
  · intro x hx
    dsimp only
    rw [(addAll_spec f _ T.ef x).2, h.ef.mem x hx]
    unfold bounds
    rw [he]
    simp

theorem Consistent.fedgesLive {T : Topo} (h : T.Consistent) {f : Nat} {l : List Nat}
    (hf : T.sf f = .live) (hl : T.fe f = some l) : ∀ e ∈ l, T.se e = .live := by
  intro e he
  exact h.ef.down f e hf (by unfold bounds; rw [hl]; exact he)

theorem mem_eraseIdx_count {l : List Nat} {e : Nat} (he : e ∈ l) (hc : l.count e ≤ 1) (x : Nat) :
    x ∈ l.eraseIdx (l.idxOf e) ↔ x ∈ l ∧ x ≠ e := by
  have heq : l.eraseIdx (l.idxOf e) = l.erase e :=
    (List.erase_eq_eraseIdx_of_idxOf rfl).symm
  rw [heq]
  by_cases hx : x = e
  · subst hx
    simp only [ne_eq, not_true, and_false, iff_false]
    intro hm
    have h1 := List.count_pos_iff.2 hm
    rw [List.count_erase_self] at h1
    omega
  · rw [List.mem_erase_of_ne hx]; simp [hx]

theorem Consistent.remEdge {T : Topo} (h : T.Consistent) {f e : Nat} {l : List Nat}
    (hf : T.sf f = .live) (hl : T.fe f = some l) (hn : l.length ≤ 64) (hc : l.count e ≤ 1) :
    ∃ T', T.mfRemEdge f e = .ok T' ∧ T'.Consistent := by
  by_cases he : e ∈ l
  · have hlive := h.fedgesLive hf hl
    obtain ⟨d', h1, _⟩ := mfRemEdge_ok (T := T) (alloc_of_live hf) hl he hn (alloc_of_live (hlive e he))
    refine ⟨_, h1, h.ve, ?_, h.fr, h.reg, h.newV, h.newE, h.newF, h.newR⟩
    refine h.ef.faceEdges hf ?_ ?_ ?_ ?_
    · intro x hx
      exact hlive x ((mem_eraseIdx_count he hc x).1 hx).1
    · intro x hx; dsimp only; rw [upd_apply]; split
      · rename_i hxe; subst hxe; exact (h.ef.nodup x hx).erase _
      · exact h.ef.nodup x hx
    · intro x hx z hz; dsimp only; rw [upd_apply]; split
      · rename_i hxe; subst hxe; rw [(h.ef.nodup x hx).mem_erase_iff]; simp [hz]
      · rfl
    · intro x hx
      dsimp only
      rw [mem_eraseIdx_count he hc, upd_apply]
      split
      · rename_i hxe; subst hxe; rw [(h.ef.nodup x hx).mem_erase_iff]; simp
      · rename_i hxe
        rw [h.ef.mem x hx]
        unfold bounds
        rw [hl]
        simp [hf, hxe]
  · unfold mfRemEdge
    rw [fedges_ok (alloc_of_live hf) hl, Res.bind_ok, if_neg he]
    exact ⟨T, rfl, h⟩

theorem Consistent.replaceEdgesAt {T : Topo} (h : T.Consistent) {f nold i : Nat} {nu l : List Nat}
    (hf : T.sf f = .live) (hl : T.fe f = some l) (hnd : l.Nodup) (hi : i < l.length)
    (hn0 : 0 < nold) (hno : nold ≤ l.length) (hnu : nu ≠ []) (hnn : nu.Nodup)
    (hnl : ∀ e ∈ nu, T.se e = .live ∧ e ∉ l) (h32 : l.length ≤ 32)
    (hsz : l.length - nold + nu.length ≤ 32) (hgrow : nold < nu.length → i + nold ≤ l.length) :
    ∃ T', T.mfReplaceEdges_i f nold i nu = .ok T' ∧ T'.Consistent := by
  have hlive := h.fedgesLive hf hl
  obtain ⟨o0, o1, n0, n1, new, l', d', _, _, _, _, _, hm, h1, hp, _⟩ :=
    mfReplaceEdges_i_ok (T := T) (alloc_of_live hf) hl hnd hi hn0 hno hnu hnn
    (fun e he => ⟨alloc_of_live (hnl e he).1, (hnl e he).2⟩)
    (fun e he => alloc_of_live (hlive e he)) h32 hsz hgrow
  have hnm : ∀ x, x ∈ new.map (·.1) ↔ x ∈ nu := by
    intro x; rw [hm]; split
    · exact List.mem_reverse
    · rfl
  have hold : ∀ x, x ∈ (l.rotate i).take nold → x ∈ l :=
    fun x hx => List.mem_rotate.1 (List.mem_of_mem_take hx)
  have hndr : (l.rotate i).Nodup := List.nodup_rotate.2 hnd
  have hrest : ∀ x, x ∈ (l.rotate i).drop nold ↔ x ∈ l ∧ x ∉ (l.rotate i).take nold := by
    intro x
    have hsp : l.rotate i = (l.rotate i).take nold ++ (l.rotate i).drop nold :=
      (List.take_append_drop _ _).symm
    have hdis : ∀ y, y ∈ (l.rotate i).take nold → y ∈ (l.rotate i).drop nold → False := by
      intro y hy1 hy2
      rw [hsp, List.nodup_append] at hndr
      exact hndr.2.2 y hy1 y hy2 rfl
    rw [← List.mem_rotate (l := l) (n := i)]
    constructor
    · intro hx
      exact ⟨List.mem_of_mem_drop hx, fun hy => hdis x hy hx⟩
    · rintro ⟨h1, h2⟩
      rw [hsp, List.mem_append] at h1
      exact h1.resolve_left h2
  refine ⟨_, h1, h.ve, ?_, h.fr, h.reg, h.newV, h.newE, h.newF, h.newR⟩
  have hs : ∀ x, (T.se x).alloc →
      (addAll (remAll T.ef f ((l.rotate i).take nold)) f (new.map (·.1)) x).Nodup ∧
      ∀ z, z ∈ addAll (remAll T.ef f ((l.rotate i).take nold)) f (new.map (·.1)) x ↔
        (z ∈ T.ef x ∧ ¬ (z = f ∧ x ∈ (l.rotate i).take nold)) ∨ (z = f ∧ x ∈ nu) := by
    intro x hx
    obtain ⟨a1, a2⟩ := remAll_spec f ((l.rotate i).take nold) T.ef x (h.ef.nodup x hx)
    obtain ⟨b1, b2⟩ := addAll_spec f (new.map (·.1)) (remAll T.ef f ((l.rotate i).take nold)) x
    refine ⟨b1 a1, fun z => ?_⟩
    rw [b2, a2, hnm]
  refine h.ef.faceEdges hf ?_ (fun x hx => (hs x hx).1) ?_ ?_
  · intro e he
    rw [hp.mem_iff, List.mem_append, hrest] at he
    rcases he with he | he
    · exact (hnl e he).1
    · exact hlive e he.1
  · intro x hx z hz
    rw [(hs x hx).2]; simp [hz]
  · intro x hx
    rw [(hs x hx).2, hp.mem_iff, List.mem_append, hrest, h.ef.mem x hx]
    unfold bounds
    rw [hl]
    simp [hf, or_comm]

theorem Consistent.replaceEdges {T : Topo} (h : T.Consistent) {f : Nat} {old nu l : List Nat}
    (hf : T.sf f = .live) (hl : T.fe f = some l) (hnd : l.Nodup) (hone : old ≠ [])
    (hond : old.Nodup) (hold : ∀ e ∈ old, e ∈ l) (hnu : nu ≠ []) (hnn : nu.Nodup)
    (hnl : ∀ e ∈ nu, T.se e = .live ∧ e ∉ l) (h32 : l.length ≤ 32)
    (hsz : l.length - old.length + nu.length ≤ 32)
    (hgrow : old.length < nu.length → ∃ s, old = (l.drop s).take old.length) :
    ∃ T', T.mfReplaceEdges f old nu = .ok T' ∧ T'.Consistent := by
  rw [mfReplaceEdges_eq (alloc_of_live hf) hl hold]
  have hlen : old.length ≤ l.length := List.Nodup.length_le_of_subset hond hold
  have hpos : 0 < old.length := List.length_pos_iff.2 hone
  refine h.replaceEdgesAt hf hl hnd (startOf_lt hone hold) hpos hlen hnu hnn hnl h32 hsz ?_
  intro hlt
  obtain ⟨s, hs⟩ := hgrow hlt
  have hsl : s + old.length ≤ l.length := by
    have := congrArg List.length hs
    rw [List.length_take, List.length_drop] at this
    omega
  have hrot : (l.rotate s).take old.length = (l.drop s).take old.length := by
    rw [List.rotate_eq_drop_append_take (by omega), List.take_append_of_le_length (by simp; omega)]
  have : startOf l old = s := by
    have := startOf_forward (l := l) (s := s) (n := old.length) hnd h32 (by omega) hpos (Or.inr hsl)
    rwa [hrot, ← hs] at this
  omega

theorem Consistent.revEdgeDir {T : Topo} (h : T.Consistent) {f i : Nat} (hf : T.sf f = .live)
    (hi : i < 64) : ∃ T', T.mfRevEdgeDir_i f i = .ok T' ∧ T'.Consistent := by
  unfold mfRevEdgeDir_i
  rw [derefF_ok (alloc_of_live hf), Res.bind_ok, if_pos hi]
  exact ⟨_, rfl, h.ve, h.ef, h.fr, h.reg, h.newV, h.newE, h.newF, h.newR⟩

theorem newF_upd {T : Topo} (h : T.Consistent) {e : Nat} {s : Stat} (he : (T.sf e).alloc) :
    ∀ i, T.nf ≤ i → upd T.sf e s i = .unused := by
  intro i hi
  rw [upd_ne]
  · exact h.newF i hi
  · rintro rfl
    rw [h.newF i hi] at he; cases he

theorem Sides.retire {sf : Nat → Stat} {fr : Nat → Option Nat × Option Nat} {sr : Nat → Stat}
    {fo : Nat → List (Nat × Bool)} (h : Sides sf fr sr fo) {f : Nat} {s : Stat} (hf : (sf f).alloc)
    (hno : ∀ r d, sr r = .live → (f, d) ∉ fo r) : Sides (upd sf f s) fr sr fo := by
  refine h.face f (fun z hz => upd_ne _ _ hz) (fun _ _ => rfl) (fun _ => h.mem f hf) ?_
  rintro ⟨r, d, h1, h2⟩
  exact absurd h2 (hno r d h1)

theorem mfDelete_ok {T : Topo} {f : Nat} {keep : Bool} (hf : T.sf f = .live)
    (hl : ∀ e ∈ (T.fe f).getD [], (T.se e).alloc) :
    T.mfDelete f keep = .ok { T with
      ef := remAll T.ef f ((T.fe f).getD []), sf := upd T.sf f (afterDelete keep) } := by
  unfold mfDelete
  rw [derefF_ok (alloc_of_live hf), Res.bind_ok, if_pos hf, meRemFaceAll_ok f _ _ hl, Res.bind_ok]
  rfl

theorem Consistent.delFace {T : Topo} (h : T.Consistent) {f : Nat} {k : Bool}
    (hf : (T.sf f).alloc) (hno : ∀ r d, T.sr r = .live → (f, d) ∉ facesOf T.rf T.rd r) :
    ∃ T', T.mfDelete f k = .ok T' ∧ T'.Consistent := by
  by_cases hl : T.sf f = .live
  · refine ⟨_, mfDelete_ok hl (fun e he => alloc_of_live (h.ef.down f e hl he)), h.ve, ?_,
      h.fr.retire hf hno, h.reg, h.newV, h.newE, newF_upd h hf, h.newR⟩
    have hs := fun x hx => remAll_spec f ((T.fe f).getD []) T.ef x (h.ef.nodup x hx)
    refine h.ef.update f (fun z hz => upd_ne _ _ hz) (fun _ _ _ => Iff.rfl) (fun x hx => (hs x hx).1) ?_ ?_ ?_
    · intro x hx z hz
      rw [(hs x hx).2]; simp [hz]
    · intro x hx
      dsimp only
      rw [(hs x hx).2, h.ef.mem x hx, upd_same]
      unfold bounds
      simp [afterDelete_ne_live]
    · intro x hx
      dsimp only at hx
      rw [upd_same] at hx
      exact absurd hx (afterDelete_ne_live k)
  · unfold mfDelete
    rw [derefF_ok hf, Res.bind_ok, if_neg hl]
    refine ⟨_, rfl, h.ve, ?_, h.fr.retire hf hno, h.reg, h.newV, h.newE, newF_upd h hf, h.newR⟩
    refine h.ef.update f (fun z hz => upd_ne _ _ hz) (fun _ _ _ => Iff.rfl) h.ef.nodup (fun _ _ _ _ => Iff.rfl) ?_ ?_
    · intro x hx
      dsimp only
      rw [h.ef.mem x hx, upd_same]
      simp [afterDelete_ne_live, hl]
    · intro x hx
      dsimp only at hx
      rw [upd_same] at hx
      exact absurd hx (afterDelete_ne_live k)

theorem Consistent.restoreFace {T : Topo} (h : T.Consistent) {f : Nat} {l : List Nat}
    (hf : (T.sf f).alloc) (hl : T.fe f = some l) (hall : ∀ e ∈ l, T.se e = .live) :
    ∃ T', T.mfRestore f = .ok T' ∧ T'.Consistent := by
  have hrun : T.mfRestore f = .ok { T with sf := upd T.sf f .live, ef := addAll T.ef f l } := by
    unfold mfRestore
    rw [fedges_ok hf hl, Res.bind_ok]
    exact meAddFaceAll_ok f l _ (fun e he => alloc_of_live (hall e he))
  have hb : ∀ x, bounds T.fe f x ↔ x ∈ l := by intro x; unfold bounds; rw [hl]; rfl
  refine ⟨_, hrun, h.ve, ?_, ?_, h.reg, h.newV, h.newE, newF_upd h hf, h.newR⟩
  · refine h.ef.update f (fun z hz => upd_ne _ _ hz) (fun _ _ _ => Iff.rfl) ?_ ?_ ?_ ?_
    · intro x hx; exact (addAll_spec f l T.ef x).1 (h.ef.nodup x hx)
    · intro x hx z hz
      rw [(addAll_spec f l T.ef x).2]; simp [hz]
    · intro x hx
      dsimp only
      rw [(addAll_spec f l T.ef x).2, upd_same, hb, h.ef.mem x hx, hb]
      simp
    · intro x _ hx
      exact hall x ((hb x).1 hx)
  · refine h.fr.face f (fun z hz => upd_ne _ _ hz) (fun _ _ => rfl) (fun _ => h.fr.mem f hf) ?_
    intro _; exact upd_same _ _ _

end Topo
end MSTK
