import Verif.TopoQuery

/-!
Model of edge splitting and vertex merging on a full representation: src/mod/ME_MultiSplit.c,
src/mod/ME_Split.c, src/mod/MVs_Merge_FN.c.

Simplifications: coordinates and the classification of entities on the geometric model are not part
of this model (`topoflag` is 0); the entities belong to one mesh.
-/
namespace MSTK
namespace Topo

/-- "verts[i+1] = MV_New(mesh)", ME_MultiSplit.c:62-67: `n` new vertices. -/
def newVerts : Nat → Topo → Topo × List Nat
  | 0, T => (T, [])
  | n+1, T =>
    let p := T.mvNew
    let q := newVerts n p.1
    (q.1, p.2 :: q.2)

/-- "enew[i] = ME_New(mesh); ME_Set_Vertex(enew[i],0,verts[i]); ME_Set_Vertex(enew[i],1,verts[i+1])",
ME_MultiSplit.c:72-80, along the vertices given. -/
def newEdges : List Nat → Topo → Res (Topo × List Nat)
  | a :: b :: rest, T => do
    let p := T.meNew
    let T ← p.1.meSetVertex p.2 false a
    let T ← T.meSetVertex p.2 true b
    let q ← newEdges (b :: rest) T
    pure (q.1, p.2 :: q.2)
  | _, T => .ok (T, [])

/-- The loop over the faces of the edge, ME_MultiSplit.c:82-91. -/
def splitFaces (e : Nat) (enew : List Nat) : List Nat → Topo → Res Topo
  | [], T => .ok T
  | f :: fs, T => do
    let d ← T.mfEdgeDir f e
    let T ← T.mfReplaceEdges f [e] (if d then enew else enew.reverse)
    splitFaces e enew fs T

/-- The loop over the regions of the edge, ME_MultiSplit.c:95-101. -/
def updateTypes : List Nat → Topo → Res Topo
  | [], T => .ok T
  | r :: rs, T => do
    let T ← T.mrUpdateType r
    updateTypes rs T

/-- `ME_MultiSplit`, ME_MultiSplit.c:24-115; the new edges are returned.  A missing end of the edge
is dereferenced by `MV_Coords` (line 47). -/
def meMultiSplit (T : Topo) (e n : Nat) : Res (Topo × List Nat) := do
  let efaces ← T.meFaces e
  let eregions ← T.meRegions e
  let v0 ← T.meVertex e false
  let v1 ← T.meVertex e true
  let a ← Res.ofOption v0
  let b ← Res.ofOption v1
  T.derefV a
  T.derefV b
  let p := newVerts n T
  let q ← newEdges (a :: p.2 ++ [b]) p.1
  let T ← splitFaces e q.2 (efaces.getD []) q.1
  let T ← updateTypes (eregions.getD []) T
  let T ← T.meDelete e false
  pure (T, q.2)

/-- `ME_Split`, ME_Split.c:23-58: the new vertex is returned. -/
def meSplit (T : Topo) (e : Nat) : Res (Topo × Option Nat) := do
  let p ← T.meMultiSplit e 1
  let e0 ← Res.ofOption p.2[0]?
  let v ← p.1.meVertex e0 true
  pure (p.1, v)

/-- "while ((edge = List_Next_Entry(vedges2,&idx))) ME_Replace_Vertex(edge,v2,v1)",
MVs_Merge_FN.c:41-43. -/
def replaceEnds (v1 v2 : Nat) : List Nat → Topo → Res Topo
  | [], T => .ok T
  | e :: es, T => do
    let T ← T.meReplaceVertex e v2 v1
    replaceEnds v1 v2 es T

/-- "if (l->entry[k] == entry) { l->entry[k] = nuentry; return 1; }", List.c:588-593: the first
occurrence is replaced. -/
def replaceFirst (x y : Nat) : List Nat → List Nat
  | [] => []
  | z :: zs => if z = x then y :: zs else z :: replaceFirst x y zs

/-- The body of the loop over the mesh sets, MVs_Merge_FN.c:53-58.  A set is the sequence of its
entries (C01, C06). -/
def mergeInSet (v1 v2 : Nat) (s : List Nat) : List Nat :=
  if v2 ∈ s then
    if v1 ∈ s then s.erase v2 else replaceFirst v2 v1 s
  else s

/-- `MVs_Merge_FN`, MVs_Merge_FN.c:16-64, on a mesh `T` with the sets `S`. -/
def mvsMerge (T : Topo) (S : List (List Nat)) (v1 v2 : Nat) : Res (Topo × List (List Nat)) := do
  T.derefV v1
  let l ← T.mvEdges v2
  let T ← replaceEnds v1 v2 (l.getD []) T
  let S := S.map (mergeInSet v1 v2)
  let T ← T.mvDelete v2 true
  pure (T, S)

end Topo
end MSTK
