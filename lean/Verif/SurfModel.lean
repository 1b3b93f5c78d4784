import Verif.FileModel
/-!
The export of surface meshes to the formats OFF and STL.
-/
namespace MSTK.File

/-- What the two exports look at in a mesh: the number of regions and edges, the vertices with
coordinates and IDs, and for each face its vertices (`MF_Vertices(mf,1,0)`). -/
structure Surf (D : Type) where
  regions : Nat
  edges : Nat
  verts : List Nat
  xyz : Nat → D × D × D
  id : Nat → Int
  faces : List (List Nat)

/-- What an export did: the return value and the text of the file; `none` if the file was not opened.
Opening a file for writing empties it. -/
structure Exported where
  ret : Bool
  file : Option Text
  deriving DecidableEq

/-- three numbers with `"%20.klf %20.klf %20.klf\n"`, or with another width -/
def showXYZ (dbl : Dbl D) (w k : Nat) (p : D × D × D) : Text :=
  pad w (dbl.fmt k p.1) ++ (' ' :: (pad w (dbl.fmt k p.2.1) ++ (' ' :: (pad w (dbl.fmt k p.2.2) ++ ['\n']))))

/-- `" %d"` for each vertex, `"\n"`, MESH_ExportToOFF.c:60-62 -/
def showIDs (id : Nat → Int) : List Nat → Text
  | [] => ['\n']
  | v :: vs => ' ' :: (showInt (id v) ++ showIDs id vs)

/-- one face, MESH_ExportToOFF.c:58-63 -/
def showPoly (id : Nat → Int) (vs : List Nat) : Text :=
  showInt vs.length ++ (' ' :: showIDs id vs)

/-- `MESH_ExportToOFF(mesh,filename)`, MESH_ExportToOFF.c:23-67.  A file that cannot be opened is not
modelled.  The code does not close the file; the text is what has been printed to it. -/
def exportOFF (dbl : Dbl D) (S : Surf D) : Exported :=
  if S.regions ≠ 0 ∨ S.faces = [] then ⟨false, none⟩
  else ⟨true, some (['O','F','F'] ++ ('\n' :: (showInt S.verts.length ++ (' ' :: (showInt S.faces.length ++
    (' ' :: (showInt S.edges ++ ('\n' :: (S.verts.flatMap (fun v => showXYZ dbl 20 12 (S.xyz v)) ++
      S.faces.flatMap (showPoly S.id))))))))))⟩

/-- the arithmetic of floating point numbers -/
structure Arith (D : Type) where
  add : D → D → D
  sub : D → D → D
  mul : D → D → D
  div : D → D → D
  sqrt : D → D

/-- the unit normal of the first three vertices, MESH_ExportToSTL.c:70-86 -/
def unitNormal (a : Arith D) (p q r : D × D × D) : D × D × D :=
  let u := (a.sub q.1 p.1, a.sub q.2.1 p.2.1, a.sub q.2.2 p.2.2)
  let w := (a.sub r.1 p.1, a.sub r.2.1 p.2.1, a.sub r.2.2 p.2.2)
  let n := (a.sub (a.mul u.2.1 w.2.2) (a.mul u.2.2 w.2.1), a.sub (a.mul u.2.2 w.1) (a.mul u.1 w.2.2),
    a.sub (a.mul u.1 w.2.1) (a.mul u.2.1 w.1))
  let len := a.sqrt (a.add (a.add (a.mul n.1 n.1) (a.mul n.2.1 n.2.1)) (a.mul n.2.2 n.2.2))
  (a.div n.1 len, a.div n.2.1 len, a.div n.2.2 len)

/-- one of the three lines `"    vertex %20.10lf %20.10lf %20.10lf\n"`, MESH_ExportToSTL.c:91 -/
def showCorner (dbl : Dbl D) (p : D × D × D) : Text :=
  [' ',' ',' ',' '] ++ (['v','e','r','t','e','x'] ++ (' ' :: showXYZ dbl 20 10 p))

/-- one facet, MESH_ExportToSTL.c:62-94; a face whose list has fewer than three vertices would make
the code read coordinates that were not set -/
def showFacet (dbl : Dbl D) (a : Arith D) (xyz : Nat → D × D × D) : List Nat → Res Text
  | i :: j :: k :: _ =>
    .ok (['f','a','c','e','t'] ++ (' ' :: (['n','o','r','m','a','l'] ++ (' ' ::
      (showXYZ dbl 12 8 (unitNormal a (xyz i) (xyz j) (xyz k)) ++
      ([' ',' '] ++ (['o','u','t','e','r'] ++ (' ' :: (['l','o','o','p'] ++ ('\n' ::
      (showCorner dbl (xyz i) ++ (showCorner dbl (xyz j) ++ (showCorner dbl (xyz k) ++
      (['e','n','d','l','o','o','p'] ++ ['e','n','d','f','a','c','e','t']))))))))))))))
  | _ => .ub

/-- the facets one after the other, MESH_ExportToSTL.c:59-95 -/
def showFacets (dbl : Dbl D) (a : Arith D) (xyz : Nat → D × D × D) : List (List Nat) → Res Text
  | [] => .ok []
  | f :: fs => do
    let t ← showFacet dbl a xyz f
    let s ← showFacets dbl a xyz fs
    pure (t ++ s)

/-- `MESH_ExportToSTL(mesh,filename)`, MESH_ExportToSTL.c:23-104: the file is opened before the mesh
is looked at.  A file that cannot be opened is not modelled.  `MF_Num_Edges` is taken as the number
of vertices of the face. -/
def exportSTL (dbl : Dbl D) (a : Arith D) (S : Surf D) : Res Exported :=
  if S.regions ≠ 0 then .ok ⟨false, some []⟩
  else if S.faces.any (fun f => f.length != 3) then .ok ⟨false, some []⟩
  else do
    let t ← showFacets dbl a S.xyz S.faces
    pure ⟨true, some (['s','o','l','i','d'] ++ ('\n' :: (t ++ ['e','n','d','s','o','l','i','d'])))⟩

end MSTK.File
