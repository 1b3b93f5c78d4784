import Verif.R1MergeModel
/-!
Model of the merging of two faces in the representations `R3` and `R4` (`MFs_Merge_R3R4`) and of
`MR_Replace_Faces_FNR3R4` as it is called there, with one old and one new face.

Simplifications: those of `Verif.R4Model`; the two faces belong to the same mesh, as there is only one; the
check under `DEBUG` that the faces have the same vertices is left out.  A face occurs in a region at most
once: the branch for a second occurrence (MR_Face_Funcs_FNR3R4.c:705-715) is left out.
-/
namespace MSTK.R4M

open R1M (deref)

/-- The region comes onto a side of the face: `MF_Rem_Region` if it is on one already and `MF_Add_Region` in
`MR_Set_FaceDir_i_FNR3R4`, MR_Face_Funcs_FNR3R4.c:548-555; the region that was there is overwritten. -/
def tell (r : Nat) (d : Bool) (s : Bool → Option Nat) : Bool → Option Nat :=
  fun b => if b = !d then some r else
    if s false = some r ∨ s true = some r then without r s b else s b

/-- `List_Replacei` and the direction at the place of the old face, MR_Face_Funcs_FNR3R4.c:692-700, 545-546 -/
def setAt (f1 f2 : Nat) (d : Bool) : List (Nat × Bool) → List (Nat × Bool)
  | [] => []
  | p :: l => if f2 = p.1 then (f1, d) :: l else p :: setAt f1 f2 d l

/-- `MR_Replace_Faces_FNR3R4` for a face of the region, MR_Face_Funcs_FNR3R4.c:657-733; `MF_Add_Region` once
more (line 702) changes nothing. -/
def replaceOne (M : Mesh4) (r f1 f2 : Nat) (d : Bool) : Res Mesh4 := do
  deref (M.sr r)
  let fds ← Res.ofOption (M.rf r)
  deref (M.sf f1)
  let fr := upd M.fr f1 (tell r d (M.fr f1))
  deref (M.sf f2)
  let fr := upd fr f2 (without r (fr f2))
  let t ← typeFrom M ((setAt f1 f2 d fds).map (·.1))
  pure { M with fr := fr, rf := upd M.rf r (some (setAt f1 f2 d fds)), rt := upd M.rt r t }

/-- the loop over the regions of the second face, MFs_Merge_R3R4.c:81-84; the direction -1 of a face that
the region does not have is shifted (MR_Face_Funcs_FNR3R4.c:546) -/
def replaceAll (f1 f2 : Nat) : List Nat → Mesh4 → Res Mesh4
  | [], M => .ok M
  | r :: rs, M => do
    let d ← mrFaceDir M r f2
    if d = -1 then .ub
    else do
      let M ← replaceOne M r f1 f2 (decide (d = 1))
      replaceAll f1 f2 rs M

/-- `MFs_Merge_R3R4`, MFs_Merge_R3R4.c:16-105; `cls`: dimension and ID of the model entity of each face, `S`:
the sets of faces of the mesh.  The answer NULL means that the faces are not merged. -/
def mfsMerge (M : Mesh4) (cls : Nat → Nat × Int) (S : List (List Nat)) (f1 f2 : Nat) (topoflag : Bool) :
    Res (Mesh4 × List (List Nat) × Option Nat) := do
  deref (M.sf f1)
  deref (M.sf f2)
  if topoflag ∧ ((cls f1).2 ≠ (cls f2).2 ∨ (cls f1).1 ≠ (cls f2).1) then pure (M, S, none)
  else do
    let rs ← mfRegions M f2
    let M ← replaceAll f1 f2 rs M
    let M ← delFace M f2 true
    pure (M, S.map (Topo.mergeInSet f1 f2), some f1)

end MSTK.R4M
