import Verif.SimplexModel
import Verif.ModModel

/-!
Splitting a face of a mesh of triangles and tetrahedra, src/mod/MF_Split_SimplexMesh.c.
-/
namespace MSTK
namespace Topo

/-- "for (j = 0; j < 4; j++) { f = List_Entry(rfaces,j); if (f == fsplit) ...", MF_Split_SimplexMesh.c:51-66: the
direction of the face in the region and its vertices seen from inside; `js` are the positions still to come. -/
def faceOf (T : Topo) (f r : Nat) (fs : List Nat) : List Nat → Res (Option (Bool × List (Option Nat)))
  | [] => .ok none
  | j :: js => do
    let g ← Res.ofOption fs[j]?
    if g = f then do
      let d ← T.mrFaceDir_i r j
      let fv ← T.mfVertices f (!d) none
      pure (some (d, [entry fv 0, entry fv 1, entry fv 2]))
    else faceOf T f r fs js

/-- The search for the fourth vertex, MF_Split_SimplexMesh.c:68-84. -/
def apexOf (T : Topo) (f : Nat) (d : Bool) (fs : List Nat) : List Nat → Res (Option Nat)
  | [] => .ok none
  | j :: js => do
    let g ← Res.ofOption fs[j]?
    if g = f then apexOf T f d fs js
    else do
      let fv ← T.mfVertices g (!d) none
      let o ← T.findApex f ([0,1,2].map (entry fv))
      match o with
      | some v => pure (some v)
      | none => apexOf T f d fs js

/-- The loop over the tetrahedra of the face, MF_Split_SimplexMesh.c:40-87; `d0` is the value `rfdir` has from before.
Where an entry of `tetverts[i]` is left unset the result is `none`. -/
def readFaceTets (T : Topo) (f : Nat) : Bool → List Nat → Res (List (Option (List (Option Nat))))
  | _, [] => pure []
  | d0, r :: rs => do
    let fs ← T.mrFaces r
    let o ← T.faceOf f r fs [0,1,2,3]
    let d := (o.map (·.1)).getD d0
    let a ← T.apexOf f d fs [0,1,2,3]
    let ts ← readFaceTets T f d rs
    pure ((match o, a with
      | some p, some v => some (p.2 ++ [some v])
      | _, _ => none) :: ts)

/-- The three tetrahedra for each recorded one, MF_Split_SimplexMesh.c:114-124; nothing is ever put into `rid`, as in
`newTet`. -/
def thirdTets (w : Option Nat) : List (Option (List (Option Nat))) → SMesh → Res SMesh
  | [], M => pure M
  | t :: ts, M => do
    let t ← Res.ofOption t
    let M ← newTet M [w, entry t 0, entry t 1, entry t 3]
    let M ← newTet M [w, entry t 1, entry t 2, entry t 3]
    let M ← newTet M [w, entry t 2, entry t 0, entry t 3]
    thirdTets w ts M

/-- The classification `MF_Split` gives to the faces it makes, MF_Split.c:36-37 and 65-67: that of the face `f`; `T` and
`T'` are the meshes before and after. -/
def splitCls (gf : Nat → Nat × Int) (f : Nat) (T T' : Topo) : Nat → Nat × Int :=
  fun g => if T.sf g = .unused ∧ T'.sf g = .live then gf f else gf g

/-- `MF_Split_SimplexMesh`, MF_Split_SimplexMesh.c:24-133.  Lines 100-106 read the vertices and the classification of
the face and use neither.  The position and the classification of the new vertex are left to `MF_Split` and are not part
of this state. -/
def mfSplitSimplex (M : SMesh) (f : Nat) : Res (SMesh × Nat) := do
  let L ← M.T.mfRegions f
  let tets ← M.T.readFaceTets f true (L.getD [])
  let T ← delRegions (L.getD []) M.T
  let _ ← T.mfVertices f true none
  let q ← T.mfSplit f
  let M ← thirdTets (some q.2) tets { M with T := q.1, gf := splitCls M.gf f T q.1 }
  pure (M, q.2)

end Topo
end MSTK
