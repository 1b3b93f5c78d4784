import Verif.CopyBuild

/-!
Parts of a mesh: what an element consists of, and what a piece made of some of the elements is.  Used
in the statements about `MESH_Partition` and its kin (Props/Partition.lean and after).
-/
namespace MSTK
namespace Prt
open File Copy

variable {D : Type}

/-- the edge and its vertices -/
def OfEdge (G : FMesh D) (e k g : Nat) : Prop :=
  (k = 1 ∧ g = e) ∨ (k = 0 ∧ ((G.T.view.ends e).1 = some g ∨ (G.T.view.ends e).2 = some g))
/-- the face, its edges and their vertices -/
def OfFace (G : FMesh D) (f k g : Nat) : Prop :=
  (k = 2 ∧ g = f) ∨ ∃ p ∈ G.T.view.edges f, OfEdge G p.1 k g
/-- the region, its faces, their edges and their vertices -/
def OfRegion (G : FMesh D) (r k g : Nat) : Prop :=
  (k = 3 ∧ g = r) ∨ ∃ p ∈ G.T.view.faces r, OfFace G p.1 k g
/-- what an element of kind `K` (2: faces of a surface mesh, 3: regions) consists of -/
def OfElem (G : FMesh D) (K x k g : Nat) : Prop := if K = 3 then OfRegion G x k g else OfFace G x k g

/-- entity `g` of kind `k` is in an element of part `p`: the `i`-th element is in the part `part[i]` -/
def InPart (G : FMesh D) (K : Nat) (part : List Int) (p k g : Nat) : Prop :=
  ∃ (i x : Nat), (G.list K)[i]? = some x ∧ part[i]? = some (p : Int) ∧ OfElem G K x k g

/-- `L` is the piece of the mesh `G` that consists of what `has` says; `up` leads from the entities of
`L` to those of `G`. -/
structure PieceOf (G L : FMesh D) (up : Nat → Nat → Option Nat) (has : Nat → Nat → Prop) : Prop where
  sound : L.Sound
  /-- every entity of the piece is one of those, and each of those is in the piece once -/
  from_has : ∀ k l, l ∈ L.list k → ∃ g ∈ G.list k, up k l = some g ∧ has k g
  all : ∀ k g, has k g → ∃ l ∈ L.list k, up k l = some g
  only : ∀ k l g, up k l = some g → l ∈ L.list k
  once : ∀ k l l' g, up k l = some g → up k l' = some g → l = l'
  /-- coordinates, classification and boundaries are those in the mesh -/
  vertex : ∀ l g, up 0 l = some g → L.xyz l = G.xyz g ∧ L.vc l = G.vc g
  edge : ∀ l g, up 1 l = some g → L.ec l = G.ec g ∧
    ∃ a b, L.T.view.ends l = (some a, some b) ∧ G.T.view.ends g = (up 0 a, up 0 b)
  face : ∀ l g, up 2 l = some g → L.fc l = G.fc g ∧
    List.Forall₂ (fun p q => up 1 p.1 = some q.1 ∧ p.2 = q.2) (L.T.view.edges l) (G.T.view.edges g)
  region : ∀ l g, up 3 l = some g → L.rc l = G.rc g ∧
    List.Forall₂ (fun p q => up 2 p.1 = some q.1 ∧ p.2 = q.2) (L.T.view.faces l) (G.T.view.faces g)

/-- two elements have a vertex in common -/
def Near (G : FMesh D) (K x y : Nat) : Prop := ∃ v, OfElem G K x 0 v ∧ OfElem G K y 0 v

/-- the elements in `sel` and `n` layers of elements around them -/
def Grow (G : FMesh D) (K : Nat) (sel : Nat → Prop) : Nat → Nat → Prop
  | 0, x => sel x
  | n+1, x => Grow G K sel n x ∨ (x ∈ G.list K ∧ ∃ y, Grow G K sel n y ∧ Near G K x y)

end Prt
end MSTK
