import Verif.R1MergeModel
/-!
Model of the merging of two faces in the reduced representation `R1`: `MFs_Merge` (MFs_Merge.c) with
`MFs_Merge_R1R2` (MFs_Merge_R1R2.c).

Simplifications: those of `Verif.R1Model`.  A set is the sequence of its entries.
-/
namespace MSTK.R1M

/-- `MFs_Merge_R1R2`, MFs_Merge_R1R2.c:15-22, with `MFs_Merge`, MFs_Merge.c:20-24, which reads the mesh of the
first face: the second face is deleted for good.  `S`: the sets of the mesh; `cls`: the model entity of a face;
the last part of the result is the face returned. -/
def mfsMerge (M : Mesh1) (S : List (List Nat)) (_topoflag : Bool) (_cls : Nat → Int × Int) (f1 f2 : Nat) :
    Res (Mesh1 × List (List Nat) × Nat) := do
  derefF (M.sf f1)
  let M ← delFace M f2 false
  pure (M, S, f1)

end MSTK.R1M
