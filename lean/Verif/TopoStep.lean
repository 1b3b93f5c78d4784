import Verif.TopoSetVerts
import Verif.TopoReplace

/-!
Every legal edit operation succeeds and keeps the mesh consistent.
-/
namespace MSTK
namespace Topo

theorem empty_consistent : empty.Consistent where
  ve := ⟨fun x hx => (by cases hx), fun x hx => (by cases hx), fun y x hy => (by cases hy)⟩
  ef := ⟨fun x hx => (by cases hx), fun x hx => (by cases hx), fun y x hy => (by cases hy)⟩
  fr := ⟨fun x hx => (by cases hx), fun y x d hy => (by cases hy)⟩
  reg := fun r l hr => (by cases hr)
  newV := fun _ _ => rfl
  newE := fun _ _ => rfl
  newF := fun _ _ => rfl
  newR := fun _ _ => rfl

theorem Consistent.step {T : Topo} (h : T.Consistent) (o : Op) (hl : T.Legal o) :
    ∃ T', T.step o = .ok T' ∧ T'.Consistent := by
  cases o with
  | newVertex => exact ⟨_, rfl, h.newVertex⟩
  | newEdge => exact ⟨_, rfl, h.newEdge⟩
  | newFace => exact ⟨_, rfl, h.newFace⟩
  | newRegion => exact ⟨_, rfl, h.newRegion⟩
  | setVertex e i v => exact h.setVertex hl.1 hl.2.1 hl.2.2
  | replaceVertex e o n => exact h.replaceVertex hl.1 hl.2.1 hl.2.2.1 hl.2.2.2
  | setEdges f es => exact h.setEdges hl.1 hl.2.1 hl.2.2.1 hl.2.2.2
  | remEdge f e =>
    obtain ⟨hf, l, hl, h1, h2⟩ := hl
    exact h.remEdge hf hl h1 h2
  | replaceEdges f old nu =>
    obtain ⟨hf, l, hl, h1, h2, h3, h4, h5, h6, h7, h8, h9, h10⟩ := hl
    exact h.replaceEdges hf hl h1 h2 h3 h4 h5 h6 h7 h8 h9 h10
  | replaceEdgesAt f nold i nu =>
    obtain ⟨hf, l, hl, h1, h2, h3, h4, h5, h6, h7, h8, h9, h10⟩ := hl
    exact h.replaceEdgesAt hf hl h1 h2 h3 h4 h5 h6 h7 h8 h9 h10
  | revEdgeDir f i => exact h.revEdgeDir hl.1 hl.2
  | setVertices f vs => exact h.setVertices hl.1 hl.2.1 hl.2.2.1 hl.2.2.2
  | setFaces r fs => exact h.setFaces hl.1 hl.2.1 hl.2.2.1 hl.2.2.2.1 hl.2.2.2.2
  | remFace r f =>
    obtain ⟨hr, l, hl⟩ := hl
    exact h.remFace hr hl
  | setFaceDir r i d =>
    obtain ⟨hr, l, f, hl, hi, hfree⟩ := hl
    exact h.setFaceDir hr hl hi hfree
  | revFaceDir r i =>
    obtain ⟨hr, l, f, hl, hi, hlim⟩ := hl
    exact h.revFaceDir hr hl hi hlim
  | replaceFaces r old nu =>
    obtain ⟨hr, l, hl, h1, h2, h3, h4, h5, h6, h7, h8⟩ := hl
    obtain ⟨T', _, h9, h10, _⟩ := mrReplaceFaces_ok h hr hl h1 h2 h3 h4 h5 h6 h7 h8
    exact ⟨T', h9, h10⟩
  | replaceFaceAt r i g d =>
    obtain ⟨hr, l, hl, h1, h2, h3, h4, h5, h6⟩ := hl
    obtain ⟨T', h9, h10, _⟩ := mrReplaceFace_i_ok h hr hl h1 h2 h3 h4 h5 h6
    exact ⟨T', h9, h10⟩
  | delVertex v k => exact h.delVertex hl.1 hl.2
  | delEdge e k => exact h.delEdge hl.1 hl.2
  | delFace f k => exact h.delFace hl.1 hl.2
  | delRegion r k => exact h.delRegion hl
  | restoreVertex v => exact h.restoreVertex hl
  | restoreEdge e =>
    obtain ⟨he, a, b, h1, h2, h3⟩ := hl
    exact h.restoreEdge he h1 h2 h3
  | restoreFace f =>
    obtain ⟨hf, l, hl, h1⟩ := hl
    exact h.restoreFace hf hl h1
  | restoreRegion r =>
    obtain ⟨hr, l, hl, h1⟩ := hl
    exact h.restoreRegion hr hl h1

theorem Consistent.run {os : List Op} : ∀ {T : Topo}, T.Consistent → T.LegalRun os →
    ∃ T', T.run os = .ok T' ∧ T'.Consistent := by
  induction os with
  | nil => intro T h _; exact ⟨T, rfl, h⟩
  | cons o os ih =>
    intro T h hl
    obtain ⟨T1, h1, h2⟩ := h.step o hl.1
    obtain ⟨T2, h3, h4⟩ := ih h2 (hl.2 T1 h1)
    refine ⟨T2, ?_, h4⟩
    rw [show T.run (o :: os) = (do let T ← T.step o; Topo.run T os) from rfl, h1, Res.bind_ok, h3]

end Topo
end MSTK
