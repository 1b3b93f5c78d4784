import Verif.TopoStep

/-!
A decision procedure for `Legal`, used to show concrete histories legal.
-/
namespace MSTK
namespace Topo

instance (ev : Nat → Option Nat × Option Nat) (e v : Nat) : Decidable (ends ev e v) :=
  inferInstanceAs (Decidable (_ ∨ _))

instance (fe : Nat → Option (List Nat)) (f e : Nat) : Decidable (bounds fe f e) :=
  inferInstanceAs (Decidable (_ ∈ _))

/-- all entries have an edge list -/
def sizedB (T : Topo) (fs : List Nat) : Bool := fs.all fun f => (T.fe f).isSome

theorem sizedB_sound {T : Topo} {fs : List Nat} (h : T.sizedB fs = true) : T.Sized fs := by
  intro f hf
  have := List.all_eq_true.1 h f hf
  exact Option.isSome_iff_exists.1 this

/-- decidable version of `Legal` -/
def legalB (T : Topo) : Op → Bool
  | .newVertex | .newEdge | .newFace | .newRegion => true
  | .setVertex e i v => decide (T.se e = .live ∧ T.sv v = .live ∧ endAt (T.ev e) i = none)
  | .replaceVertex e o n => decide (T.se e = .live ∧ T.sv n = .live ∧ o ≠ n ∧
      ¬ ((T.ev e).1 = some o ∧ (T.ev e).2 = some o))
  | .setEdges f es => decide (T.sf f = .live ∧ (T.fe f).getD [] = [] ∧ es.length ≤ 32 ∧
      ∀ p ∈ es, T.se p.1 = .live)
  | .remEdge f e => decide (T.sf f = .live) &&
      (T.fe f).any fun l => decide (l.length ≤ 64 ∧ l.count e ≤ 1)
  | .replaceEdgesAt f nold i nu => decide (T.sf f = .live) && (T.fe f).any fun l => decide (l.Nodup ∧
      i < l.length ∧ 0 < nold ∧ nold ≤ l.length ∧ nu ≠ [] ∧ nu.Nodup ∧
      (∀ e ∈ nu, T.se e = .live ∧ e ∉ l) ∧ l.length ≤ 32 ∧ l.length - nold + nu.length ≤ 32 ∧
      (nold < nu.length → i + nold ≤ l.length))
  | .replaceEdges f old nu => decide (T.sf f = .live) && (T.fe f).any fun l => decide (l.Nodup ∧
      old ≠ [] ∧ old.Nodup ∧ (∀ e ∈ old, e ∈ l) ∧ nu ≠ [] ∧ nu.Nodup ∧
      (∀ e ∈ nu, T.se e = .live ∧ e ∉ l) ∧ l.length ≤ 32 ∧
      l.length - old.length + nu.length ≤ 32 ∧
      (old.length < nu.length → ∃ s ∈ List.range (l.length + 1), old = (l.drop s).take old.length))
  | .revEdgeDir f i => decide (T.sf f = .live ∧ i < 64)
  | .setVertices f vs => decide (T.sf f = .live ∧ (T.fe f).getD [] = [] ∧ vs.length ≤ 30 ∧
      ∀ v ∈ vs, T.sv v = .live)
  | .setFaces r fs => decide (T.sr r = .live ∧ (T.rf r).getD [] = [] ∧ (fs.map (·.1)).Nodup ∧
      (∀ p ∈ fs, T.sf p.1 = .live ∧ endAt (T.fr p.1) (!p.2) = none)) && T.sizedB (fs.map (·.1))
  | .remFace r _ => decide (T.sr r = .live) && (T.rf r).isSome
  | .setFaceDir r i d => decide (T.sr r = .live) && (T.rf r).any fun l => (l[i]?).any fun f =>
      decide (endAt (T.fr f) (!d) = none ∨ endAt (T.fr f) (!d) = some r)
  | .revFaceDir r i => decide (T.sr r = .live) && ((T.rf r).any fun l => (l[i]?).isSome) &&
      (List.range T.nr).all fun o => (T.rf o).all fun l => decide (l.length ≤ 512)
  | .replaceFaces r old nu => decide (T.sr r = .live) && (T.rf r).any fun l => decide (old.Nodup ∧
      (∀ f ∈ old, f ∈ l) ∧ (nu.map (·.1)).Nodup ∧ old.length ≤ nu.length ∧
      l.length - old.length + nu.length ≤ 512 ∧
      (∀ p ∈ nu, T.sf p.1 = .live ∧ p.1 ∉ l ∧ endAt (T.fr p.1) (!p.2) = none)) &&
      T.sizedB l && T.sizedB (nu.map (·.1))
  | .replaceFaceAt r i g d => decide (T.sr r = .live) && (T.rf r).any fun l => decide (i < l.length ∧
      T.sf g = .live ∧ g ∉ l ∧ endAt (T.fr g) (!d) = none) && T.sizedB l && T.sizedB [g]
  | .delVertex v _ => (T.sv v).alloc &&
      (List.range T.ne).all fun e => decide (T.se e = .live → ¬ ends T.ev e v)
  | .delEdge e _ => (T.se e).alloc &&
      (List.range T.nf).all fun f => decide (T.sf f = .live → ¬ bounds T.fe f e)
  | .delFace f _ => (T.sf f).alloc && (List.range T.nr).all fun r => decide (T.sr r = .live →
      (f, true) ∉ facesOf T.rf T.rd r ∧ (f, false) ∉ facesOf T.rf T.rd r)
  | .delRegion r _ => (T.sr r).alloc
  | .restoreVertex v => (T.sv v).alloc
  | .restoreEdge e => (T.se e).alloc && (T.ev e).1.any (fun a => decide (T.sv a = .live)) &&
      (T.ev e).2.any (fun a => decide (T.sv a = .live))
  | .restoreFace f => (T.sf f).alloc && (T.fe f).any fun l => decide (∀ e ∈ l, T.se e = .live)
  | .restoreRegion r => decide (T.sr r = .kept) && (T.rf r).isSome && decide (
      ∀ p ∈ facesOf T.rf T.rd r, T.sf p.1 = .live ∧ endAt (T.fr p.1) (!p.2) = none)

theorem any_some {o : Option α} {p : α → Bool} (h : o.any p = true) : ∃ a, o = some a ∧ p a = true := by
  cases o with
  | none => cases h
  | some a => exact ⟨a, rfl, h⟩

theorem legalB_sound {T : Topo} (h : T.Consistent) {o : Op} (hb : T.legalB o = true) : T.Legal o := by
  cases o with
  | newVertex => trivial
  | newEdge => trivial
  | newFace => trivial
  | newRegion => trivial
  | setVertex e i v => have := of_decide_eq_true hb; exact this
  | replaceVertex e o n => have := of_decide_eq_true hb; exact this
  | setEdges f es => have := of_decide_eq_true hb; exact this
  | remEdge f e =>
    simp only [legalB, Bool.and_eq_true, decide_eq_true_eq] at hb
    obtain ⟨l, h1, h2⟩ := any_some hb.2
    exact ⟨hb.1, l, h1, of_decide_eq_true h2⟩
  | replaceEdgesAt f nold i nu =>
    simp only [legalB, Bool.and_eq_true, decide_eq_true_eq] at hb
    obtain ⟨l, h1, h2⟩ := any_some hb.2
    exact ⟨hb.1, l, h1, of_decide_eq_true h2⟩
  | replaceEdges f old nu =>
    simp only [legalB, Bool.and_eq_true, decide_eq_true_eq] at hb
    obtain ⟨l, h1, h2⟩ := any_some hb.2
    obtain ⟨g1, g2, g3, g4, g5, g6, g7, g8, g9, g10⟩ := of_decide_eq_true h2
    refine ⟨hb.1, l, h1, g1, g2, g3, g4, g5, g6, g7, g8, g9, fun hc => ?_⟩
    obtain ⟨s, _, hs⟩ := g10 hc
    exact ⟨s, hs⟩
  | revEdgeDir f i => have := of_decide_eq_true hb; exact this
  | setVertices f vs => have := of_decide_eq_true hb; exact this
  | setFaces r fs =>
    simp only [legalB, Bool.and_eq_true, decide_eq_true_eq] at hb
    obtain ⟨⟨h1, h2, h3, h4⟩, h5⟩ := hb
    exact ⟨h1, h2, h3, h4, sizedB_sound h5⟩
  | remFace r f =>
    simp only [legalB, Bool.and_eq_true, decide_eq_true_eq] at hb
    exact ⟨hb.1, Option.isSome_iff_exists.1 hb.2⟩
  | setFaceDir r i d =>
    simp only [legalB, Bool.and_eq_true, decide_eq_true_eq] at hb
    obtain ⟨l, h1, h2⟩ := any_some hb.2
    obtain ⟨f, h3, h4⟩ := any_some h2
    exact ⟨hb.1, l, f, h1, h3, of_decide_eq_true h4⟩
  | revFaceDir r i =>
    simp only [legalB, Bool.and_eq_true, decide_eq_true_eq] at hb
    obtain ⟨l, h1, h2⟩ := any_some hb.1.2
    obtain ⟨f, h3⟩ := Option.isSome_iff_exists.1 h2
    refine ⟨hb.1.1, l, f, h1, h3, ?_⟩
    intro o k l' ho hl' hk
    have hon : o < T.nr := by
      apply Nat.lt_of_not_le
      intro hc
      rw [h.newR o hc] at ho
      cases ho
    have := List.all_eq_true.1 hb.2 o (List.mem_range.2 hon)
    rw [hl'] at this
    have h512 : l'.length ≤ 512 := of_decide_eq_true this
    have := (List.getElem?_eq_some_iff.1 hk).1
    omega
  | replaceFaces r old nu =>
    simp only [legalB, Bool.and_eq_true, decide_eq_true_eq] at hb
    obtain ⟨l, h1, h2⟩ := any_some hb.2
    simp only [Bool.and_eq_true, decide_eq_true_eq] at h2
    obtain ⟨⟨⟨g1, g2, g3, g4, g5, g6⟩, g7⟩, g8⟩ := h2
    exact ⟨hb.1, l, h1, g1, g2, g3, g4, g5, g6, sizedB_sound g7, sizedB_sound g8⟩
  | replaceFaceAt r i g d =>
    simp only [legalB, Bool.and_eq_true, decide_eq_true_eq] at hb
    obtain ⟨l, h1, h2⟩ := any_some hb.2
    simp only [Bool.and_eq_true, decide_eq_true_eq] at h2
    obtain ⟨⟨⟨g1, g2, g3, g4⟩, g7⟩, g8⟩ := h2
    exact ⟨hb.1, l, h1, g1, g2, g3, g4, sizedB_sound g7, sizedB_sound g8⟩
  | delVertex v k =>
    simp only [legalB, Bool.and_eq_true] at hb
    refine ⟨hb.1, fun e he => ?_⟩
    refine of_decide_eq_true (List.all_eq_true.1 hb.2 e (List.mem_range.2 ?_)) he
    apply Nat.lt_of_not_le
    intro hc; rw [h.newE e hc] at he; cases he
  | delEdge e k =>
    simp only [legalB, Bool.and_eq_true] at hb
    refine ⟨hb.1, fun f hf => ?_⟩
    refine of_decide_eq_true (List.all_eq_true.1 hb.2 f (List.mem_range.2 ?_)) hf
    apply Nat.lt_of_not_le
    intro hc; rw [h.newF f hc] at hf; cases hf
  | delFace f k =>
    simp only [legalB, Bool.and_eq_true] at hb
    refine ⟨hb.1, fun r d hr => ?_⟩
    have hrn : r < T.nr := by
      apply Nat.lt_of_not_le
      intro hc; rw [h.newR r hc] at hr; cases hr
    have := of_decide_eq_true (List.all_eq_true.1 hb.2 r (List.mem_range.2 hrn)) hr
    cases d
    · exact this.2
    · exact this.1
  | delRegion r k => exact hb
  | restoreVertex v => exact hb
  | restoreEdge e =>
    simp only [legalB, Bool.and_eq_true] at hb
    obtain ⟨a, ha, ha'⟩ := any_some hb.1.2
    obtain ⟨b, hb1, hb'⟩ := any_some hb.2
    exact ⟨hb.1.1, a, b, Prod.ext ha hb1, of_decide_eq_true ha', of_decide_eq_true hb'⟩
  | restoreFace f =>
    simp only [legalB, Bool.and_eq_true] at hb
    obtain ⟨l, h1, h2⟩ := any_some hb.2
    exact ⟨hb.1, l, h1, of_decide_eq_true h2⟩
  | restoreRegion r =>
    simp only [legalB, Bool.and_eq_true, decide_eq_true_eq] at hb
    obtain ⟨l, h1⟩ := Option.isSome_iff_exists.1 hb.1.2
    exact ⟨hb.1.1, l, h1, hb.2⟩

/-- decidable version of `LegalRun` -/
def legalRunB (T : Topo) : List Op → Bool
  | [] => true
  | o :: os => T.legalB o && match T.step o with
    | .ok T' => legalRunB T' os
    | _ => false

theorem legalRunB_sound {os : List Op} : ∀ {T : Topo}, T.Consistent → T.legalRunB os = true →
    T.LegalRun os := by
  induction os with
  | nil => intro T _ _; trivial
  | cons o os ih =>
    intro T h hb
    simp only [legalRunB, Bool.and_eq_true] at hb
    have hl := legalB_sound h hb.1
    refine ⟨hl, fun T' hs => ?_⟩
    obtain ⟨T1, h1, h2⟩ := h.step o hl
    rw [hs] at h1
    injection h1 with h1
    subst h1
    have := hb.2
    rw [hs] at this
    exact ih h2 this

/-- the mesh after a legal history -/
theorem reachable {os : List Op} (hb : empty.legalRunB os = true) :
    ∃ T, empty.run os = .ok T ∧ T.Consistent :=
  empty_consistent.run (legalRunB_sound empty_consistent hb)

end Topo
end MSTK
