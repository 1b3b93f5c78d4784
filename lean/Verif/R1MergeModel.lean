import Verif.R1EntModel
import Verif.R4Model
import Verif.SplitModel
/-!
Model of the merging of two vertices in the reduced representations: `MVs_Merge` (MVs_Merge.c) for `R1`
(MVs_Merge_R1R2.c) and for `R4` (MVs_Merge_R3R4.c).

Simplifications: those of `Verif.R1EntModel` and `Verif.R4Model`; both vertices are of one mesh (the check of
lines 27-30 and 26-29 passes), and the vertex that goes is kept as deleted (`MV_Delete(v2,1)`), the list of
vertices of the mesh is left out.  A set is the sequence of its entries.
-/
namespace MSTK.R1M

/-- `MF_Replace_Vertex_R1`, MF_Vertex_Funcs_R1.c:228-244: the first occurrence in the list of the face -/
def replaceInFace (M : Mesh1) (v w f : Nat) : Res Mesh1 := do
  derefF (M.sf f)
  let fs ← Res.ofOption (M.fv f)
  pure { M with fv := upd M.fv f (some (replace1 v w fs)) }

/-- MVs_Merge_R1R2.c:43-45 -/
def replaceInFaces (v w : Nat) : List Nat → Mesh1 → Res Mesh1
  | [], M => .ok M
  | f :: fs, M => do
    let M ← replaceInFace M v w f
    replaceInFaces v w fs M

/-- MVs_Merge_R1R2.c:55-57 -/
def replaceInRegions (v w : Nat) : List Nat → Mesh1 → Res Mesh1
  | [], M => .ok M
  | r :: rs, M => do
    let M ← replaceVertex M r v w
    replaceInRegions v w rs M

/-- `MV_Delete(v,1)`, MVertex.c:45-71 with MVertex_R1.c:28-39: only the mark is set -/
def keepVertex (M : Mesh1) (v : Nat) : Res Mesh1 := do
  deref (M.sv v)
  pure { M with sv := upd M.sv v .kept }

/-- `MVs_Merge_R1R2` for `R1`, MVs_Merge_R1R2.c:15-78; `cls`: the model entity of a vertex; the second part of
the result is none when 0 is returned, and else the sets of the mesh afterwards -/
def mvsMerge (M : Made) (S : List (List Nat)) (topoflag : Bool) (cls : Nat → Int × Int) (v1 v2 : Nat) :
    Res (Made × Option (List (List Nat))) := do
  deref (M.m.sv v1)
  deref (M.m.sv v2)
  if topoflag ∧ cls v1 ≠ cls v2 then pure (M, none)
  else do
    let x ← mvFaces M v2
    let m ← replaceInFaces v2 v1 (x.2.getD []) x.1.m
    let l ← mvRegions m v2
    let m ← replaceInRegions v2 v1 (l.getD []) m
    let m ← keepVertex m v2
    pure ({ x.1 with m := m }, some (S.map (Topo.mergeInSet v1 v2)))

end MSTK.R1M

namespace MSTK.R4M

open R1M (deref replace1)

/-- `MF_Replace_Vertex_R4`, MF_Vertex_Funcs_R4.c:166-182 -/
def replaceInFace (M : Mesh4) (v w f : Nat) : Res Mesh4 := do
  deref (M.sf f)
  let fs ← Res.ofOption (M.fv f)
  pure { M with fv := upd M.fv f (some (replace1 v w fs)) }

/-- MVs_Merge_R3R4.c:41-43 -/
def replaceInFaces (v w : Nat) : List Nat → Mesh4 → Res Mesh4
  | [], M => .ok M
  | f :: fs, M => do
    let M ← replaceInFace M v w f
    replaceInFaces v w fs M

/-- `MVs_Merge_R3R4`, MVs_Merge_R3R4.c:15-64 -/
def mvsMerge (M : Mesh4) (S : List (List Nat)) (topoflag : Bool) (cls : Nat → Int × Int) (v1 v2 : Nat) :
    Res (Mesh4 × Option (List (List Nat))) := do
  deref (M.sv v1)
  deref (M.sv v2)
  if topoflag ∧ cls v1 ≠ cls v2 then pure (M, none)
  else do
    let l ← mvFaces M v2
    let M ← replaceInFaces v2 v1 l M
    pure ({ M with sv := upd M.sv v2 .kept }, some (S.map (Topo.mergeInSet v1 v2)))

end MSTK.R4M
