import Verif.SplitModel
import Verif.BuildModel
import Verif.RegionQueryModel

/-!
Splitting an edge of a mesh of triangles and tetrahedra, src/mod/ME_Split_SimplexMesh.c.
-/
namespace MSTK
namespace Topo

/-- A mesh with the dimension and ID of the model entity each face is on (`MF_GEntDim`, `MF_GEntID`) and the ID of
the model region each region is in (`MR_GEntID`); `none` is an indeterminate value. -/
structure SMesh where
  T : Topo
  gf : Nat → Nat × Int
  gr : Nat → Option Int

/-- "if (fv == ev[0]) { tetverts[i][0] = ...", ME_Split_SimplexMesh.c:60-66, for one `k`. -/
def pickTet (v0 v1 : Option Nat) (d : Bool) (fv : List (Option Nat)) (t : Option (List (Option Nat))) (k : Nat) :
    Option (List (Option Nat)) :=
  if entry fv k = v0 then
    some [v0, if d then entry fv ((k+2)%3) else entry fv ((k+1)%3), if d then entry fv ((k+1)%3) else entry fv ((k+2)%3), v1]
  else t

/-- The loop over the faces of a tetrahedron, ME_Split_SimplexMesh.c:43-72; `js` are the positions still to come.
Where no face has the first end only, `tetverts[i]` is left unset: `none`. -/
def readTet (T : Topo) (v0 v1 : Option Nat) (r : Nat) (fs : List Nat) : List Nat → Res (Option (List (Option Nat)))
  | [] => .ok none
  | j :: js => do
    let f ← Res.ofOption fs[j]?
    let fv ← T.mfVertices f true none
    if v0 ∈ fv ∧ v1 ∉ fv then do
      let d ← T.mrFaceDir_i r j
      pure ([0,1,2].foldl (pickTet v0 v1 d fv) none)
    else readTet T v0 v1 r fs js

/-- ME_Split_SimplexMesh.c:35-75 -/
def readTets (T : Topo) (v0 v1 : Option Nat) : List Nat → Res (List (Option (List (Option Nat))))
  | [] => pure []
  | r :: rs => do
    let fs ← T.mrFaces r
    let t ← T.readTet v0 v1 r fs [0,1,2,3]
    let ts ← readTets T v0 v1 rs
    pure (t :: ts)

/-- "MR_Delete(List_Entry(etets,i),0)", ME_Split_SimplexMesh.c:80-83 -/
def delRegions : List Nat → Topo → Res Topo
  | [], T => pure T
  | r :: rs, T => do
    let T ← T.mrDelete r false
    delRegions rs T

/-- "for (j = 0; j < 3; j++) { fv = List_Entry(fverts,j); if (fv != ev[0] && fv != ev[1]) ...",
ME_Split_SimplexMesh.c:103-113; `none`: `triverts[i]`, `fdim[i]` and `fid[i]` are left unset. -/
def pickTri (v0 v1 : Option Nat) (fv : List (Option Nat)) : List Nat → Option (List (Option Nat))
  | [] => none
  | j :: js =>
    if entry fv j ≠ v0 ∧ entry fv j ≠ v1 then some [entry fv j, entry fv ((j+1)%3), entry fv ((j+2)%3)]
    else pickTri v0 v1 fv js

/-- The loop of ME_Split_SimplexMesh.c:99-117: what is recorded of each triangle, and the mesh without them. -/
def takeTris (v0 v1 : Option Nat) (gf : Nat → Nat × Int) :
    List Nat → Topo → Res (Topo × List (Option (List (Option Nat) × (Nat × Int))))
  | [], T => pure (T, [])
  | f :: fs, T => do
    let fv ← T.mfVertices f true none
    let t := (pickTri v0 v1 fv [0,1,2]).map fun vs => (vs, gf f)
    let T ← T.mfDelete f false
    let p ← takeTris v0 v1 gf fs T
    pure (p.1, t :: p.2)

/-- The vertices of an array of pointers that are all dereferenced; a NULL one is a crash. -/
def pointers : List (Option Nat) → Res (List Nat)
  | [] => pure []
  | v :: vs => do
    let v ← Res.ofOption v
    let vs ← pointers vs
    pure (v :: vs)

/-- `MF_New`, `MF_Set_Vertices(f,3,fvarr)`, `MF_Set_GEntDim`, `MF_Set_GEntID`, ME_Split_SimplexMesh.c:137-140 -/
def newTri (M : SMesh) (vs : List (Option Nat)) (g : Nat × Int) : Res SMesh := do
  let c ← pointers vs
  let T ← M.T.addFace c
  pure { M with T := T, gf := upd M.gf M.T.nf g }

/-- The two triangles for each recorded one, ME_Split_SimplexMesh.c:129-152; `w` is the new vertex. -/
def halfTris (w : Option Nat) : List (Option (List (Option Nat) × (Nat × Int))) → SMesh → Res SMesh
  | [], M => pure M
  | t :: ts, M => do
    let t ← Res.ofOption t
    let M ← newTri M [entry t.1 0, entry t.1 1, w] t.2
    let M ← newTri M [entry t.1 0, w, entry t.1 2] t.2
    halfTris w ts M

/-- `MR_New`, `MR_Set_Vertices(r,4,rvarr,0,NULL)`, `MR_Set_GEntID(r,rid[i])`, ME_Split_SimplexMesh.c:168-170: nothing
is ever put into the array `rid`, so the ID is indeterminate. -/
def newTet (M : SMesh) (vs : List (Option Nat)) : Res SMesh := do
  let c ← pointers vs
  let T ← M.T.addRegion c
  pure { M with T := T, gr := upd M.gr M.T.nr none }

/-- The two tetrahedra for each recorded one, ME_Split_SimplexMesh.c:162-180 -/
def halfTets (w : Option Nat) : List (Option (List (Option Nat))) → SMesh → Res SMesh
  | [], M => pure M
  | t :: ts, M => do
    let t ← Res.ofOption t
    let M ← newTet M [w, entry t 2, entry t 1, entry t 0]
    let M ← newTet M [w, entry t 1, entry t 2, entry t 3]
    halfTets w ts M

/-- `ME_Split_SimplexMesh`, ME_Split_SimplexMesh.c:16-188.  The position and the classification of the new vertex and
edges are left to `ME_Split` and are not part of this state. -/
def meSplitSimplex (M : SMesh) (e : Nat) : Res (SMesh × Option Nat) := do
  let v0 ← M.T.meVertex e false
  let v1 ← M.T.meVertex e true
  let L ← M.T.meRegions e
  let tets ← M.T.readTets v0 v1 (L.getD [])
  let T ← delRegions (L.getD []) M.T
  let F ← T.meFaces e
  let p ← takeTris v0 v1 M.gf (F.getD []) T
  let q ← p.1.meSplit e
  let M ← halfTris q.2 p.2 { M with T := q.1 }
  let M ← halfTets q.2 tets M
  pure (M, q.2)

end Topo
end MSTK
