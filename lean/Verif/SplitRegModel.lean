import Verif.ModModel

/-!
Splitting a region with a loop of its edges: `MR_Split_with_EdgeLoop`
(src/mod/MR_Split_with_EdgeLoop.c).
-/
namespace MSTK
namespace Topo

/-- The directions of the edges after the first one, MR_Split_with_EdgeLoop.c:55-68; `p`, `d` are the
edge before and its direction.  "MSTK_Report(…, MSTK_FATAL)" ends the program. -/
def loopDirs (T : Topo) : Nat → Bool → List Nat → Res (List (Nat × Bool))
  | _, _, [] => .ok []
  | p, d, e :: es => do
    let w ← T.meVertex p d
    let v0 ← T.meVertex e false
    let v1 ← T.meVertex e true
    if w = v0 then
      let rest ← loopDirs T e true es
      pure ((e, true) :: rest)
    else if w = v1 then
      let rest ← loopDirs T e false es
      pure ((e, false) :: rest)
    else .fatal

/-- The directions of all edges; the first one is used in its own direction,
MR_Split_with_EdgeLoop.c:54-68.  (Without edges the array has an unused entry.) -/
def allDirs (T : Topo) : List Nat → Res (List (Nat × Bool))
  | [] => .ok []
  | e :: es => do
    let rest ← T.loopDirs e true es
    pure ((e, true) :: rest)

/-- The search for the face across an edge, MR_Split_with_EdgeLoop.c:113-135 (and 176-198): `cur` with
direction `curdir` is the current face, `fe` its edge with direction `edir`, `done` the processed
faces.  (`MR_FaceDir` is asked only for faces of the region, so the result -1 does not occur.) -/
def acrossEdge (T : Topo) (r cur : Nat) (curdir : Bool) (fe : Nat) (edir : Bool) (done : List Nat) :
    List Nat → Res (Option (Nat × Bool))
  | [] => .ok none
  | g :: gs =>
    if g = cur then acrossEdge T r cur curdir fe edir done gs
    else if g ∈ done then acrossEdge T r cur curdir fe edir done gs
    else do
      let u ← T.mrUsesFace r g
      if u then
        let a ← T.mfEdgeDir g fe
        let o ← T.mrFaceDir r g
        let d ← Res.ofOption o
        if (edir ≠ a ∧ curdir = d) ∨ (edir = a ∧ curdir ≠ d) then pure (some (g, d))
        else acrossEdge T r cur curdir fe edir done gs
      else acrossEdge T r cur curdir fe edir done gs

/-- One edge of the current face, MR_Split_with_EdgeLoop.c:103-136 (166-199); the state are the faces
collected with their directions (`rfarray1`, `rfdirs1`, of `MAXPF3` = 512 entries) and the processed
faces.  `List_Contains` of NULL and writing behind the array are undefined. -/
def crossEdge (T : Topo) (r fnew cur : Nat) (curdir : Bool) (fe : Nat) (edir : Bool)
    (st : List (Nat × Bool) × List Nat) : Res (List (Nat × Bool) × List Nat) := do
  let o ← T.meFaces fe
  let efaces ← Res.ofOption o
  if cur ≠ fnew ∧ fnew ∈ efaces then pure st
  else
    match ← T.acrossEdge r cur curdir fe edir st.2 efaces with
    | none => pure st
    | some p => if st.1.length < 512 then pure (st.1 ++ [p], st.2 ++ [p.1]) else .ub

/-- The edges of the current face, MR_Split_with_EdgeLoop.c:97-137 (159-200). -/
def crossEdges (T : Topo) (r fnew cur : Nat) (curdir : Bool) :
    List (Nat × Bool) → List (Nat × Bool) × List Nat → Res (List (Nat × Bool) × List Nat)
  | [], st => .ok st
  | (fe, edir) :: es, st => do
    let st ← T.crossEdge r fnew cur curdir fe edir st
    crossEdges T r fnew cur curdir es st

/-- "while (i < nrf1)", MR_Split_with_EdgeLoop.c:87-139 (149-202).  At most 512 faces are collected, so
513 rounds are enough.  The directions of the edges are read before the edges are crossed. -/
def collectSide (T : Topo) (r fnew : Nat) : Nat → Nat → List (Nat × Bool) × List Nat →
    Res (List (Nat × Bool) × List Nat)
  | 0, _, _ => .hang
  | n+1, i, st =>
    match st.1[i]? with
    | none => .ok st
    | some (cur, curdir) => do
      let es ← T.readFace cur
      let st ← T.crossEdges r fnew cur curdir es st
      collectSide T r fnew n (i+1) st

/-- `MR_Split_with_EdgeLoop`, MR_Split_with_EdgeLoop.c:24-223; the new face.  The array of directions
has `MAXPV2` = 30 entries.  The classification of the new entities (73-74, 211-212, 216-217) is left
out. -/
def mrSplitLoop (T : Topo) (r : Nat) (es : List Nat) : Res (Topo × Nat) := do
  T.derefR r
  if 30 < es.length then .ub
  else
    let ds ← T.allDirs es
    let q := T.mfNew
    let T ← q.1.mfSetEdges q.2 ds
    let s1 ← T.collectSide r q.2 513 0 ([(q.2, true)], [q.2])
    let s2 ← T.collectSide r q.2 513 0 ([(q.2, false)], s1.2 ++ [q.2])
    let T ← T.mrDelete r false
    let p := T.mrNew
    let T ← p.1.mrSetFaces p.2 s1.1
    let p' := T.mrNew
    let T ← p'.1.mrSetFaces p'.2 s2.1
    pure (T, q.2)

end Topo
end MSTK
