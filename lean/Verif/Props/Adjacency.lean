import Verif.TopoAnswers
import Verif.TopoCheck

/-!
C21: upward and downward adjacency agree after every legal history of edits of an `F1` mesh.

Specification: `Agrees` compares the answers of the query functions with each other.  It says
nothing about what is stored.
-/
namespace MSTK
namespace Topo

/-- The answers of the adjacency queries fit together. -/
structure Agrees (T : Topo) : Prop where
  /-- `MV_Edges(v)` lists, once each, exactly the live edges one of whose `ME_Vertex` is `v` -/
  vertexEdges : ∀ v, T.sv v = .live → ∃ L, T.mvEdges v = .ok L ∧ (L.getD []).Nodup ∧
    ∀ e, e ∈ L.getD [] ↔
      T.se e = .live ∧ (T.meVertex e false = .ok (some v) ∨ T.meVertex e true = .ok (some v))
  /-- the ends of a live edge are live -/
  edgeVertices : ∀ e i v, T.se e = .live → T.meVertex e i = .ok (some v) → T.sv v = .live
  /-- `ME_Faces(e)` lists, once each, exactly the live faces whose `MF_Edges` contain `e` -/
  edgeFaces : ∀ e, T.se e = .live → ∃ L, T.meFaces e = .ok L ∧ (L.getD []).Nodup ∧
    ∀ f, f ∈ L.getD [] ↔ T.sf f = .live ∧ ∃ es, T.mfEdges f true none = .ok es ∧ e ∈ es
  /-- the edges of a live face are live -/
  faceEdges : ∀ f es, T.sf f = .live → T.mfEdges f true none = .ok es → ∀ e ∈ es, T.se e = .live
  /-- `MF_Region(f,0)` is the live region using `f` in direction 1, `MF_Region(f,1)` the one using
  it in direction 0 -/
  faceRegions : ∀ f i r, T.sf f = .live →
    (T.mfRegion f i = .ok (some r) ↔ T.sr r = .live ∧ T.mrFaceDir r f = .ok (some (!i)))
  /-- the faces of a live region are live -/
  regionFaces : ∀ r f d, T.sr r = .live → T.mrFaceDir r f = .ok (some d) → T.sf f = .live

theorem Consistent.agrees {T : Topo} (h : T.Consistent) : T.Agrees where
  vertexEdges := by
    intro v hv
    obtain ⟨L, h1, h2⟩ := mvEdges_getD (alloc_of_live hv)
    refine ⟨L, h1, by rw [h2]; exact h.ve.nodup v (alloc_of_live hv), fun e => ?_⟩
    rw [h2, h.ve.mem v (alloc_of_live hv)]
    constructor
    · rintro ⟨h3, h4⟩; exact ⟨h3, (meVertex_ends (alloc_of_live h3)).2 h4⟩
    · rintro ⟨h3, h4⟩; exact ⟨h3, (meVertex_ends (alloc_of_live h3)).1 h4⟩
  edgeVertices := by
    intro e i v he hv
    refine h.ve.down e v he ((meVertex_ends (alloc_of_live he)).1 ?_)
    cases i
    · exact Or.inl hv
    · exact Or.inr hv
  edgeFaces := by
    intro e he
    obtain ⟨L, h1, h2⟩ := meFaces_ok (alloc_of_live he)
    refine ⟨L, h1, by rw [h2]; exact h.ef.nodup e (alloc_of_live he), fun f => ?_⟩
    rw [h2, h.ef.mem e (alloc_of_live he)]
    unfold bounds
    constructor
    · rintro ⟨h3, h4⟩
      cases hl : T.fe f with
      | none => rw [hl] at h4; simp at h4
      | some l => exact ⟨h3, l, mfEdges_plain (alloc_of_live h3) hl, by rw [hl] at h4; exact h4⟩
    · rintro ⟨h3, es, h4, h5⟩
      refine ⟨h3, ?_⟩
      cases hl : T.fe f with
      | none => exact absurd h4 (mfEdges_none hl _ _ _)
      | some l =>
        rw [mfEdges_plain (alloc_of_live h3) hl] at h4
        injection h4 with h4
        subst h4; exact h5
  faceEdges := by
    intro f es hf hes e he
    cases hl : T.fe f with
    | none => exact absurd hes (mfEdges_none hl _ _ _)
    | some l =>
      rw [mfEdges_plain (alloc_of_live hf) hl] at hes
      injection hes with hes
      subst hes
      exact h.fedgesLive hf hl e he
  faceRegions := by
    intro f i r hf
    rw [mfRegion_ok (alloc_of_live hf)]
    have := h.fr.mem f (alloc_of_live hf) r (!i)
    rw [Bool.not_not] at this
    simp only [Res.ok.injEq]
    rw [this]
    constructor
    · rintro ⟨h1, h2⟩; exact ⟨h1, (mrFaceDir_iff h h1).2 h2⟩
    · rintro ⟨h1, h2⟩; exact ⟨h1, (mrFaceDir_iff h h1).1 h2⟩
  regionFaces := by
    intro r f d hr hd
    exact h.fr.down r f d hr ((mrFaceDir_iff h hr).1 hd)

/-- **C21.** Every legal history of topology edits, of any length, runs without error from the empty
mesh, and afterwards the answers of the adjacency queries agree. -/
theorem C21_history (os : List Op) (h : empty.LegalRun os) :
    ∃ T, empty.run os = .ok T ∧ T.Agrees := by
  obtain ⟨T, h1, h2⟩ := empty_consistent.run h
  exact ⟨T, h1, h2.agrees⟩

/-- A face is never attached to the same region on both sides. -/
theorem C21_sides_differ (os : List Op) (h : empty.LegalRun os) {T : Topo} (hT : empty.run os = .ok T)
    {f r : Nat} (hf : T.sf f = .live) :
    ¬ (T.mfRegion f false = .ok (some r) ∧ T.mfRegion f true = .ok (some r)) := by
  obtain ⟨T1, h1, h2⟩ := C21_history os h
  rw [hT] at h1; injection h1 with h1; subst h1
  rintro ⟨h3, h4⟩
  have e3 := ((h2.faceRegions f false r hf).1 h3).2
  have e4 := ((h2.faceRegions f true r hf).1 h4).2
  rw [e3] at e4
  cases e4

/-! ### a concrete history -/

/-- Two tetrahedra on the vertices 0-4 sharing the face 0 (vertices 0,1,2). -/
def twoTets : List Op :=
  [.newVertex, .newVertex, .newVertex, .newVertex, .newVertex,
   .newFace, .setVertices 0 [0,1,2], .newFace, .setVertices 1 [0,1,3], .newFace,
   .setVertices 2 [1,2,3], .newFace, .setVertices 3 [2,0,3], .newFace, .setVertices 4 [0,1,4],
   .newFace, .setVertices 5 [1,2,4], .newFace, .setVertices 6 [2,0,4],
   .newRegion, .setFaces 0 [(0,false),(1,true),(2,true),(3,true)],
   .newRegion, .setFaces 1 [(0,true),(4,false),(5,false),(6,false)]]

/-- Edits of that mesh: a region is deleted and restored, a face of it is turned round, an edge is
replaced by two edges in a face, a face of a region is exchanged, entities are deleted. -/
def edits : List Op :=
  [.delRegion 1 true, .setFaceDir 0 0 true, .setFaceDir 0 0 false, .restoreRegion 1,
   .revFaceDir 0 0, .revFaceDir 1 0,
   .newVertex, .newEdge, .setVertex 9 false 0, .setVertex 9 true 5, .newEdge, .setVertex 10 false 5,
   .setVertex 10 true 1, .replaceEdges 1 [0] [9,10], .remEdge 1 9,
   .newFace, .setVertices 7 [0,1,4], .replaceFaceAt 1 1 7 false, .delFace 4 true, .restoreFace 4,
   .replaceFaces 1 [7] [(4,false)], .delFace 7 false, .remFace 1 4, .delRegion 1 false,
   .newVertex, .replaceVertex 9 5 6]

example : empty.LegalRun (twoTets ++ edits) :=
  legalRunB_sound empty_consistent (by decide +kernel)

/-! ### why the histories are restricted

The code does not detach an entity when it is defined again. -/

/-- the history and the question of a counterexample -/
def answer (os : List Op) (q : Topo → Res α) : Res α := do
  let T ← empty.run os
  q T

/-- Setting an end of an edge a second time leaves the edge with the old vertex. -/
theorem C21_negation_reset_vertex :
    let os : List Op := [.newVertex, .newVertex, .newVertex, .newEdge, .setVertex 0 false 0,
      .setVertex 0 true 1, .setVertex 0 false 2]
    answer os (fun T => T.mvEdges 0) = .ok (some [0]) ∧
    answer os (fun T => T.meVertex 0 false) = .ok (some 2) ∧
    answer os (fun T => T.meVertex 0 true) = .ok (some 1) := by decide +kernel

/-- Replacing a vertex of an edge by itself detaches the edge from it. -/
theorem C21_negation_replace_same :
    let os : List Op := [.newVertex, .newVertex, .newEdge, .setVertex 0 false 0,
      .setVertex 0 true 1, .replaceVertex 0 0 0]
    answer os (fun T => T.mvEdges 0) = .ok none ∧
    answer os (fun T => T.meVertex 0 false) = .ok (some 0) := by decide +kernel

/-- Defining the edges of a face a second time leaves the face with the old edges. -/
theorem C21_negation_reset_edges :
    let os : List Op := [.newVertex, .newVertex, .newVertex, .newEdge, .setVertex 0 false 0,
      .setVertex 0 true 1, .newEdge, .setVertex 1 false 1, .setVertex 1 true 2,
      .newFace, .setEdges 0 [(0,true)], .setEdges 0 [(1,true)]]
    answer os (fun T => T.meFaces 0) = .ok (some [0]) ∧
    answer os (fun T => T.mfEdges 0 true none) = .ok [1] := by decide +kernel

/-- Removing one of two uses of an edge by a face detaches the face from the edge, although the edge
is still in the face. -/
theorem C21_negation_repeated_edge :
    let os : List Op := [.newVertex, .newVertex, .newEdge, .setVertex 0 false 0,
      .setVertex 0 true 1, .newFace, .setEdges 0 [(0,true),(0,false)], .remEdge 0 0]
    answer os (fun T => T.meFaces 0) = .ok none ∧
    answer os (fun T => T.mfEdges 0 true none) = .ok [0] := by decide +kernel

end Topo
end MSTK
