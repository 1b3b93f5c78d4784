import Verif.CollapseFaces

/-!
Specification for C65 (collapse of an edge): what the mesh is when the edge `e` with the vertices `u` and `v` has
been contracted to `v`, in terms of the answers before and after.
-/
namespace MSTK
namespace Topo

/-- the face has an edge at the vertex -/
def Touches (T : Topo) (f w : Nat) : Prop := ∃ x, T.EdgeHas x w ∧ T.FaceHas f x

/-- a triangle on the edge, which has no area left -/
def Flattened (T : Topo) (e f : Nat) : Prop :=
  T.FaceHas f e ∧ ∃ es, T.mfEdges f true none = .ok es ∧ es.length = 3

/-- an edge at `u` and an edge at `v` that come to have the same ends -/
def Twins (T : Topo) (u v x y : Nat) : Prop :=
  ∃ w, w ≠ u ∧ w ≠ v ∧ T.EdgeHas x u ∧ T.EdgeHas x w ∧ T.EdgeHas y v ∧ T.EdgeHas y w

/-- A cycle of vertices with `v` for `u`, but `v` only once. -/
def drawnTo (u v : Nat) (vs : List Nat) : List Nat :=
  if v ∈ vs then vs.filter (fun w => w ≠ u) else vs.map (fun w => if w = u then v else w)

/-- The edge counts as one on the boundary: it is classified on a model edge or face, or it is unclassified and
has one face left. -/
def OnRim (T : Topo) (A : Labels) (e x : Nat) : Prop :=
  (A.ecls x).1 = 1 ∨ (A.ecls x).1 = 2 ∨
    ((A.ecls x).1 = 4 ∧ A.eghost x = false ∧ ∃ f, ∀ g, T.FaceHas g x ∧ ¬ T.Flattened e g ↔ g = f)

/-- Of two edges that come to lie on each other `x` is to be kept: a boundary edge before an interior one, and of
two edges that are alike the one with the smaller global ID. -/
def Preferred (T : Topo) (A : Labels) (e x y : Nat) : Prop :=
  (T.OnRim A e x ∧ ¬ T.OnRim A e y) ∨ ((T.OnRim A e x ↔ T.OnRim A e y) ∧ A.egid x ≤ A.egid y)

/-- The edge `e` of a surface mesh between `u` and `v` may be contracted. -/
structure Collapsible (T : Topo) (A : Labels) (topoflag : Bool) (e u v : Nat) : Prop where
  ne : u ≠ v
  at_u : T.EdgeHas e u
  at_v : T.EdgeHas e v
  /-- the edges at `u` and `v` have two different ends, and no two of them the same -/
  ends : ∀ x w, (w = u ∨ w = v) → T.EdgeHas x w → ∃ a, a ≠ w ∧ T.EdgeHas x a
  simple : ∀ x y w a, (w = u ∨ w = v) → a ≠ w → T.EdgeHas x w → T.EdgeHas x a → T.EdgeHas y w → T.EdgeHas y a → x = y
  /-- the faces at `u` and `v` are polygons of a surface, and have the edge `e` when they have both vertices -/
  faces : ∀ f, T.Touches f u ∨ T.Touches f v → (∀ r, ¬ T.RegionHas r f) ∧
    ∃ vs, T.Loop f vs ∧ vs.Nodup ∧ 3 ≤ vs.length ∧ vs.length ≤ 32 ∧ (u ∈ vs → v ∈ vs → T.FaceHas f e)
  /-- no two of those that are left come to have the same vertices -/
  apart : ∀ f g vs ws, T.Touches f u ∨ T.Touches f v → T.Touches g u ∨ T.Touches g v → ¬ T.Flattened e f →
    ¬ T.Flattened e g → T.Loop f vs → T.Loop g ws → (∀ w, w ∈ drawnTo u v vs ↔ w ∈ drawnTo u v ws) → f = g
  /-- an edge that is merged, unclassified and not a ghost still has a face -/
  left : ∀ x y, T.Twins u v x y ∨ T.Twins u v y x → (A.ecls x).1 = 4 → A.eghost x = false →
    ∃ f, T.FaceHas f x ∧ ¬ T.Flattened e f
  /-- `MEs_Merge` does not refuse -/
  may : ∀ x y, T.Twins u v x y ∨ T.Twins u v y x → T.Preferred A e x y → topoflag = true →
    (A.ecls x).1 < (A.ecls y).1 ∨ A.ecls x = A.ecls y

/-- the state of an entity -/
def stateOf (T : Topo) : Ent → Stat
  | .vertex v => T.sv v
  | .edge e => T.se e
  | .face f => T.sf f
  | .region r => T.sr r

/-- The mesh before (`T`) and after (`T'`) the edge `e` was contracted, `u` going and `v` staying, and what the
routine returned. -/
structure Collapsed (T T' : Topo) (A : Labels) (e u v : Nat) (c : Collapse) : Prop where
  consistent : T'.Consistent
  /-- `u` is deleted, `v` and all other vertices stay -/
  vertices : T'.sv = upd T.sv u .kept
  edge : T'.se e = .kept
  /-- of two edges that come to have the same ends, the preferred one stays -/
  twins : ∀ x y, T.Twins u v x y → (T'.se x = .live ∧ T'.se y = .kept ∧ T.Preferred A e x y) ∨
    (T'.se y = .live ∧ T'.se x = .kept ∧ T.Preferred A e y x)
  other_edges : ∀ x, x ≠ e → (∀ y, ¬ T.Twins u v x y ∧ ¬ T.Twins u v y x) → T'.se x = T.se x
  /-- an edge ends at `v` where it ended at `u` -/
  ends : ∀ x i, T'.se x = .live →
    T'.meVertex x i = if T.meVertex x i = .ok (some u) then .ok (some v) else T.meVertex x i
  /-- the triangles on the edge are deleted, all other faces stay -/
  flattened : ∀ f, T.Flattened e f → T'.sf f = .kept
  other_faces : ∀ f, ¬ T.Flattened e f → T'.sf f = T.sf f
  /-- and go round the same vertices, with `v` for `u` -/
  loops : ∀ f vs, T'.sf f = .live → T.Loop f vs → ∃ vs', vs' ~r drawnTo u v vs ∧ T'.Loop f vs'
  untouched : ∀ f, ¬ T.Touches f u → ¬ T.Touches f v → T'.view.edges f = T.view.edges f
  regions : T'.sr = T.sr ∧ T'.view.faces = T.view.faces ∧ ∀ r, T'.mrElementType r = T.mrElementType r
  /-- what is returned: the vertex, everything that was deleted, each once, and what was merged into what -/
  kept : c.kept = v
  once : c.deleted.Nodup ∧ c.merged.Nodup
  deleted : ∀ z, z ∈ c.deleted ↔ T.stateOf z = .live ∧ T'.stateOf z ≠ .live
  merged : ∀ p, p ∈ c.merged ↔ p = (.vertex u, .vertex v) ∨
    ∃ x y, (T.Twins u v x y ∨ T.Twins u v y x) ∧ T'.se y = .kept ∧ p = (.edge y, .edge x)

end Topo
end MSTK
