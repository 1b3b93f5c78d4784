import Verif.ConcatModel
import Verif.Props.LabelLayer
import Mathlib.Data.List.Cycle

/-!
What the adding of ghosts from received meshes (ConcatModel.lean) is to do.
-/
namespace MSTK
namespace Cat
open File Copy Prt

variable {D : Type}

/-- An edge of a boundary as it is used there: its global ID and the global IDs of the vertex where it begins and
of the one where it ends. -/
def seg (M : CMesh D) (p : Nat × Bool) : Nat × Option Nat × Option Nat :=
  let q := M.F.T.view.ends p.1
  (gid M 1 p.1, if p.2 then (q.1.map (gid M 0), q.2.map (gid M 0)) else (q.2.map (gid M 0), q.1.map (gid M 0)))

/-- the boundary of a face in terms of global IDs -/
def trace (M : CMesh D) (f : Nat) : List (Nat × Option Nat × Option Nat) := (M.F.T.view.edges f).map (seg M)

/-- what was there is there, as it was, the classification of vertices, edges and faces aside; new entities come after -/
structure Kept (M M' : CMesh D) : Prop where
  list : ∀ k, ∃ new, M'.F.list k = M.F.list k ++ new
  par : ∀ k x, x ∈ M.F.list k → M'.par k x = M.par k x
  xyz : ∀ v ∈ M.F.vl, M'.F.xyz v = M.F.xyz v
  ends : ∀ e ∈ M.F.el, M'.F.T.view.ends e = M.F.T.view.ends e
  edges : ∀ f ∈ M.F.fl, M'.F.T.view.edges f = M.F.T.view.edges f
  faces : ∀ r ∈ M.F.rl, M'.F.T.view.faces r = M.F.T.view.faces r
  rc : ∀ r ∈ M.F.rl, M'.F.rc r = M.F.rc r

/-- no two entities of a kind have the same global ID -/
def Distinct (M : CMesh D) (k : Nat) : Prop := ∀ x ∈ M.F.list k, ∀ y ∈ M.F.list k, gid M k x = gid M k y → x = y

/-- an edge of one mesh and one of another with the same global ID join vertices with the same global IDs -/
def Agree (M N : CMesh D) : Prop := ∀ x ∈ M.F.el, ∀ y ∈ N.F.el, gid M 1 x = gid N 1 y →
  seg M (x, true) = seg N (y, true) ∨ seg M (x, true) = seg N (y, false)

/-- the vertices round a face in terms of global IDs -/
def ring (M : CMesh D) (f : Nat) : List (Option Nat) := (trace M f).map fun p => p.2.1

/-- a face of one mesh and one of another with the same global ID go round the same vertices in the same or in the other
direction -/
def AgreeF (M N : CMesh D) : Prop := ∀ x ∈ M.F.fl, ∀ y ∈ N.F.fl, gid M 2 x = gid N 2 y →
  ring M x ~r ring N y ∨ ring M x ~r (ring N y).reverse

/-- A face of a region as it is used there: its global ID and the cycle of the global IDs of its vertices, in the direction
in which the region has the face. -/
def side (M : CMesh D) (p : Nat × Bool) : Nat × Cycle (Option Nat) :=
  (gid M 2 p.1, if p.2 then ring M p.1 else (ring M p.1).reverse)

/-- the boundary of a region in terms of global IDs -/
def walls (M : CMesh D) (r : Nat) : List (Nat × Cycle (Option Nat)) := (M.F.T.view.faces r).map (side M)

/-- a vertex of the face is on the boundary of the part `M`: it has the global ID of a vertex of `M` that is not
interior -/
def Hit (M S : CMesh D) (f : Nat) : Prop :=
  ∃ v, OfFace S.F f 0 v ∧ ∃ w ∈ M.F.vl, (M.par 0 w).ptype ≠ 0 ∧ gid M 0 w = gid S 0 v

/-- the same for a region -/
def HitR (M S : CMesh D) (r : Nat) : Prop :=
  ∃ v, OfRegion S.F r 0 v ∧ ∃ w ∈ M.F.vl, (M.par 0 w).ptype ≠ 0 ∧ gid M 0 w = gid S 0 v

/-- a ghost of the vertex `x` of `S` -/
def GhostV (M S : CMesh D) (y x : Nat) : Prop :=
  M.par 0 y = ghostOf (S.par 0 x) ∧ M.F.xyz y = S.F.xyz x ∧ M.F.vc y = S.F.vc x
/-- a ghost of the edge `x` of `S`: from and to vertices with the same global IDs -/
def GhostE (M S : CMesh D) (y x : Nat) : Prop :=
  M.par 1 y = ghostOf (S.par 1 x) ∧ seg M (y, true) = seg S (x, true) ∧ M.F.ec y = S.F.ec x
/-- a ghost of the face `x` of `S`: with the same boundary, in terms of global IDs -/
def GhostF (M S : CMesh D) (y x : Nat) : Prop :=
  M.par 2 y = ghostOf (S.par 2 x) ∧ M.F.fc y = S.F.fc x ∧ trace M y = trace S x

/-- a ghost of the region `x` of `S`: with the same boundary, in terms of global IDs -/
def GhostR (M S : CMesh D) (y x : Nat) : Prop :=
  M.par 3 y = ghostOf (S.par 3 x) ∧ M.F.rc y = S.F.rc x ∧ walls M y = walls S x

/-- the classification `c'` of an entity of kind `k` of `M` is that it had; or the entity is a ghost, and it is that of
an entity with the same global ID, not a ghost, of one of the meshes received -/
def Retag (M : CMesh D) (subs : List (CMesh D)) (k x : Nat) (cls : FMesh D → Nat → Int × Int) (c' : Int × Int) : Prop :=
  c' = cls M.F x ∨ ((M.par k x).ptype = 3 ∧ ∃ S ∈ subs, ∃ v ∈ S.F.list k, gid S k v = gid M k x ∧
    (S.par k v).ptype ≠ 3 ∧ c' = cls S.F v)

/-- The mesh of a part and the meshes received (`K` is 2 for surface meshes, 3 for volume meshes): meshes; faces of those
received have at most 30 edges and are closed loops; global IDs of vertices, of edges and, in volume meshes, of faces are
different in each mesh; edges with the same global ID join vertices with the same global IDs; what a mesh received has in
common with the part, elements aside, is not interior there. -/
structure Given (K : Nat) (M : CMesh D) (subs : List (CMesh D)) : Prop where
  sound : M.F.Sound
  meshes : ∀ S ∈ subs, S.F.Sound
  short : ∀ S ∈ subs, ∀ f ∈ S.F.fl, (S.F.T.view.edges f).length ≤ 30
  loops : ∀ S ∈ subs, ∀ f ∈ S.F.fl, ∃ vs, S.F.T.Loop f vs
  dist : ∀ k, k < K → Distinct M k ∧ ∀ S ∈ subs, Distinct S k
  agree : ∀ S ∈ subs, Agree M S ∧ ∀ S' ∈ subs, Agree S S'
  border : ∀ S ∈ subs, ∀ k, k < K → ∀ x ∈ S.F.list k, ∀ y ∈ M.F.list k, gid M k y = gid S k x → (M.par k y).ptype ≠ 0

/-- all the regions of the meshes received, in order -/
def receivedR (subs : List (CMesh D)) : List (CMesh D × Nat) := subs.flatMap fun S => S.F.rl.map fun r => (S, r)

/-- the regions have no side in common: none is where the other one is -/
def Apart (M : CMesh D) (r : Nat) (N : CMesh D) (s : Nat) : Prop := ∀ w ∈ walls M r, w ∉ walls N s

/-- Volume meshes, moreover: faces with the same global ID have the same vertices round them; faces of the meshes received
have three or more vertices, all different; what regions received consist of can be asked for (`Topo.PlainRegion`), and
they have at most 512 faces; no region received is where another one received or one of the part is. -/
structure GivenR (M : CMesh D) (subs : List (CMesh D)) : Prop extends Given 3 M subs where
  agreeF : ∀ S ∈ subs, AgreeF M S ∧ ∀ S' ∈ subs, AgreeF S S'
  cycles : ∀ S ∈ subs, S.F.T.AllLoops ∧ S.F.T.SimpleEdges ∧ ∀ f ∈ S.F.fl, 3 ≤ (S.F.T.view.edges f).length
  plain : ∀ S ∈ subs, ∀ r ∈ S.F.rl, S.F.T.PlainRegion r ∧ (S.F.T.view.faces r).length ≤ 512
  apart : (receivedR subs).Pairwise fun p q => Apart p.1 p.2 q.1 q.2
  free : ∀ r ∈ M.F.rl, ∀ q ∈ receivedR subs, Apart M r q.1 q.2

end Cat
end MSTK
