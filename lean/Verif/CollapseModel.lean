import Verif.ModModel
import Verif.RegionQueryModel

/-!
Model of `ME_Collapse` (src/mod/ME_Collapse.c): an edge is contracted to one of its vertices.
The mesh sets, which `MEs_Merge` and `MFs_Merge` update too (C55, C56), are left out.
-/
namespace MSTK
namespace Topo

/-- an entity in the lists which the routine returns -/
inductive Ent where
  | vertex (v : Nat)
  | edge (e : Nat)
  | face (f : Nat)
  | region (r : Nat)
  deriving DecidableEq

/-- What the routine reads besides the topology: dimension and ID of the model entities
(`MV_GEntDim`, `MV_GEntID`, ...), global IDs, and which edges and faces are ghosts. -/
structure Labels where
  vcls : Nat → Nat × Nat
  ecls : Nat → Nat × Nat
  fcls : Nat → Nat × Nat
  rid : Nat → Nat
  vgid : Nat → Nat
  egid : Nat → Nat
  fgid : Nat → Nat
  eghost : Nat → Bool
  fghost : Nat → Bool

/-- The returned vertex and the two lists. -/
structure Collapse where
  kept : Nat
  deleted : List Ent
  merged : List (Ent × Ent)
  deriving DecidableEq

/-- "nef < 2" for one of the edges, ME_Collapse.c:116-127; `List_Num_Entries(NULL)` crashes. -/
def anyOuter (T : Topo) : List Nat → Res Bool
  | [] => .ok false
  | x :: xs => do
    let fs ← T.meFaces x
    let fs ← Res.ofOption fs
    if fs.length < 2 then pure true else anyOuter T xs

/-- Which vertex goes and which one stays, ME_Collapse.c:60-168; `none` when the call is refused.
The loop over the faces of `vdel` (134-150) assigns 0 to `vdel_external`, which is 0 already, and
is left out. -/
def chooseEnds (T : Topo) (A : Labels) (e : Nat) (vkeepIn : Option Nat) (topoflag : Bool) :
    Res (Option (Nat × Nat)) := do
  let vdel ← match vkeepIn with
    | none => T.meVertex e false
    | some v => T.meOppVertex e v
  let vkeep ← match vkeepIn with
    | none => T.meVertex e true
    | some v => pure (some v)
  let vkeep ← Res.ofOption vkeep            -- MV_GEntDim(NULL) crashes
  T.derefV vkeep
  let vdel ← Res.ofOption vdel
  T.derefV vdel
  if topoflag then
    if (A.vcls vkeep).1 = (A.vcls vdel).1 then
      if (A.vcls vkeep).2 ≠ (A.vcls vdel).2 then pure none
      else if A.vgid vdel < A.vgid vkeep then pure (some (vkeep, vdel))
      else pure (some (vdel, vkeep))
    else if (A.vcls vdel).1 < (A.vcls vkeep).1 then
      if vkeepIn = none then pure (some (vkeep, vdel)) else pure none
    else pure (some (vdel, vkeep))
  else if vkeepIn = none then
    let es ← T.mvEdges vdel
    let es ← Res.ofOption es
    let x ← T.anyOuter es
    pure (some (if x then (vkeep, vdel) else (vdel, vkeep)))
  else pure (some (vdel, vkeep))

/-- The regions with four vertices are deleted, ME_Collapse.c:189-204. -/
def deleteTets : List Nat → Topo → Res (Topo × List Nat)
  | [], T => .ok (T, [])
  | r :: rs, T => do
    let vs ← T.mrVertices r
    let vs ← Res.ofOption vs
    if vs.length = 4 then
      let T ← T.mrDelete r true
      let q ← deleteTets rs T
      pure (q.1, r :: q.2)
    else deleteTets rs T

/-- "while ((reg = List_Next_Entry(fregs,&idx2))) MR_Rem_Face(reg,face)", ME_Collapse.c:221-222. -/
def takeFromRegions (f : Nat) : List Nat → Topo → Res Topo
  | [], T => .ok T
  | r :: rs, T => do
    let T ← T.mrRemFace r f
    takeFromRegions f rs T

/-- The triangles are deleted, ME_Collapse.c:208-234. -/
def deleteTriangles : List Nat → Topo → Res (Topo × List Nat)
  | [], T => .ok (T, [])
  | f :: fs, T => do
    let l ← T.mfEdges f true none
    if l.length = 3 then
      let rs ← T.mfRegions f
      let T ← takeFromRegions f (rs.getD []) T
      let T ← T.mfDelete f true
      let q ← deleteTriangles fs T
      pure (q.1, f :: q.2)
    else deleteTriangles fs T

/-- The edges before and after `e` in a face, ME_Collapse.c:262-273. -/
def beforeAfter (T : Topo) (f e v : Nat) : List Nat → Nat → Option Nat × Option Nat →
    Res (Option Nat × Option Nat)
  | [], _, p => .ok p
  | x :: xs, i, p =>
    if x = e then beforeAfter T f e v xs (i+1) p
    else do
      let d ← T.mfEdgeDir_i f i
      let a ← T.meVertex x d
      let b ← T.meVertex x (!d)
      beforeAfter T f e v xs (i+1)
        (if a = some v then (some x, p.2) else if b = some v then (p.1, some x) else p)

/-- `e` is taken out of the faces which are left, ME_Collapse.c:252-285.  An edge that was not
found is NULL, with which `MF_Replace_Edges` changes nothing. -/
def takeFromFaces (e v : Nat) : List Nat → Topo → Res Topo
  | [], T => .ok T
  | f :: fs, T =>
    if T.sf f = .kept then takeFromFaces e v fs T
    else do
      let l ← T.mfEdges f true none
      let p ← T.beforeAfter f e v l 0 (none, none)
      match p with
      | (some a, some b) =>
        let T ← T.mfReplaceEdges f [a, e, b] [a, b]
        takeFromFaces e v fs T
      | _ => takeFromFaces e v fs T

/-- Is there a face among `gs` with the vertices `vs`? ME_Collapse.c:316-350. -/
def twinOf (T : Topo) (vs : List (Option Nat)) : List Nat → Res Bool
  | [] => .ok false
  | g :: gs =>
    if T.sf g = .kept then twinOf T vs gs
    else do
      let ws ← T.mfVertices g true none
      if ws.length = vs.length ∧ ∀ w ∈ ws, w ∈ vs then pure true else twinOf T vs gs

/-- Two of the faces have the same vertices, ME_Collapse.c:305-356. -/
def degenerate (T : Topo) : List Nat → Res Bool
  | [] => .ok false
  | g :: gs =>
    if T.sf g = .kept then degenerate T gs
    else do
      let vs ← T.mfVertices g true none
      let b ← T.twinOf vs gs
      if b then pure true else degenerate T gs

/-- Regions two faces of which have the same vertices are deleted, ME_Collapse.c:292-365. -/
def deleteFlat : List Nat → Topo → Res (Topo × List Nat)
  | [], T => .ok (T, [])
  | r :: rs, T =>
    if T.sr r = .kept then deleteFlat rs T
    else do
      let fs ← T.mrFaces r
      let b ← T.degenerate fs
      if b then
        let T ← T.mrDelete r true
        let q ← deleteFlat rs T
        pure (q.1, r :: q.2)
      else deleteFlat rs T

/-- A face with one region, or between regions of different model regions, ME_Collapse.c:405-416. -/
def anyBetween (T : Topo) (A : Labels) : List Nat → Res Bool
  | [] => .ok false
  | f :: fs => do
    let rs ← T.mfRegions f
    match rs.getD [] with
    | [_] => pure true
    | [a, b] => if A.rid a ≠ A.rid b then pure true else anyBetween T A fs
    | _ => anyBetween T A fs

/-- "edge_on_boundary", ME_Collapse.c:388-419 (and 421-452 for the other edge). -/
def onBoundary (T : Topo) (A : Labels) (x : Nat) : Res Bool := do
  if (A.ecls x).1 = 1 ∨ (A.ecls x).1 = 2 then pure true
  else if (A.ecls x).1 = 4 ∧ A.eghost x = false then
    let fs ← T.meFaces x
    let fs ← Res.ofOption fs                -- List_Num_Entries(NULL) crashes
    if fs.length = 1 then pure true else T.anyBetween A fs
  else pure false

/-- The inner loop over the edges of `vkeep`, ME_Collapse.c:376-491, for the edge `x` with the ends
`x0`, `x1`; the edge that was merged into `x`, if any (the result of `MEs_Merge` is not looked
at). -/
def mergeOneEdge (A : Labels) (topoflag : Bool) (e x : Nat) (x0 x1 : Option Nat) :
    List Nat → Topo → Res (Topo × Option Nat)
  | [], T => .ok (T, none)
  | y :: ys, T =>
    if x = e ∨ x = y then mergeOneEdge A topoflag e x x0 x1 ys T
    else do
      let y0 ← T.meVertex y false
      let y1 ← T.meVertex y true
      if (x0 = y0 ∧ x1 = y1) ∨ (x0 = y1 ∧ y0 = x1) then
        let bx ← T.onBoundary A x
        let b2 ← T.onBoundary A y
        if (if bx = b2 then decide (A.egid x ≤ A.egid y) else bx) then
          let q ← T.mesMerge [] topoflag A.ecls x y
          pure (q.1, some y)
        else mergeOneEdge A topoflag e x x0 x1 ys T
      else mergeOneEdge A topoflag e x x0 x1 ys T

/-- The outer loop, ME_Collapse.c:367-493: the entries still to be visited, and the list with its
removed entries left out (`List_Rem` puts NULL in their place and the loops pass over it).  The
result lists the pairs (merged edge, edge it was merged into). -/
def mergeEdges (A : Labels) (topoflag : Bool) (e : Nat) :
    List Nat → List Nat → Topo → Res (Topo × List (Nat × Nat))
  | [], _, T => .ok (T, [])
  | x :: xs, cur, T =>
    if x ∉ cur ∨ x = e then mergeEdges A topoflag e xs cur T
    else do
      let x0 ← T.meVertex x false
      let x1 ← T.meVertex x true
      let q ← mergeOneEdge A topoflag e x x0 x1 cur T
      match q.2 with
      | none => mergeEdges A topoflag e xs cur q.1
      | some y =>
        let s ← mergeEdges A topoflag e xs (cur.erase y) q.1
        pure (s.1, (y, x) :: s.2)

/-- "face_on_boundary", ME_Collapse.c:540-546. -/
def faceOuter (T : Topo) (A : Labels) (f : Nat) : Res Bool := do
  let rs ← T.mfRegions f
  pure (decide (A.fghost f = false ∧ rs = none))

/-- The inner loop over the faces of `vkeep`, ME_Collapse.c:508-577, for the face `f` with the edges
`l`. -/
def mergeOneFace (A : Labels) (topoflag : Bool) (f : Nat) (l : List Nat) :
    List Nat → Topo → Res (Topo × Option Nat)
  | [], T => .ok (T, none)
  | g :: gs, T =>
    if g = f then mergeOneFace A topoflag f l gs T
    else do
      let m ← T.mfEdges g true none
      if l.length = m.length ∧ ∀ x ∈ m, x ∈ l then
        let b1 ← T.faceOuter A f
        let b2 ← T.faceOuter A g
        if (if b1 = b2 then decide (A.fgid f ≤ A.fgid g) else b1) then
          let q ← T.mfsMerge [] topoflag A.fcls f g
          pure (q.1, some g)
        else mergeOneFace A topoflag f l gs T
      else mergeOneFace A topoflag f l gs T

/-- The outer loop, ME_Collapse.c:500-583. -/
def mergeFaces (A : Labels) (topoflag : Bool) :
    List Nat → List Nat → Topo → Res (Topo × List (Nat × Nat))
  | [], _, T => .ok (T, [])
  | f :: fs, cur, T =>
    if f ∉ cur then mergeFaces A topoflag fs cur T
    else do
      let l ← T.mfEdges f true none
      let q ← mergeOneFace A topoflag f l cur T
      match q.2 with
      | none => mergeFaces A topoflag fs cur q.1
      | some g =>
        let s ← mergeFaces A topoflag fs (cur.erase g) q.1
        pure (s.1, (g, f) :: s.2)

/-- "MR_Update_ElementType(reg)" for the regions left, ME_Collapse.c:593-600. -/
def updateLeft : List Nat → Topo → Res Topo
  | [], T => .ok T
  | r :: rs, T =>
    if T.sr r = .kept then updateLeft rs T
    else do
      let T ← T.mrUpdateType r
      updateLeft rs T

/-- The collapse of `e` with `vdel` going and `vkeep` staying, ME_Collapse.c:171-602. -/
def contract (T : Topo) (A : Labels) (topoflag : Bool) (e vdel vkeep : Nat) :
    Res (Topo × Collapse) := do
  let fs ← T.meFaces e
  let fs := fs.getD []
  let rs ← T.meRegions e
  let rs := rs.getD []
  let t ← deleteTets rs T
  let d ← deleteTriangles fs t.1
  let es ← d.1.mvEdges vdel
  let es ← Res.ofOption es
  let T ← replaceEnds vkeep vdel es d.1
  let T ← takeFromFaces e vkeep fs T
  let k ← deleteFlat rs T
  let ves ← k.1.mvEdges vkeep
  let ves ← Res.ofOption ves
  let m ← mergeEdges A topoflag e ves ves k.1
  let vfs ← m.1.mvFaces vkeep
  let vfs := vfs.getD []
  let n ← mergeFaces A topoflag vfs vfs m.1
  let T ← n.1.meDelete e true
  let T ← T.mvDelete vdel true
  let T ← updateLeft rs T
  pure (T,
    { kept := vkeep
      deleted := t.2.map .region ++ d.2.map .face ++ k.2.map .region ++ m.2.map (fun p => .edge p.1) ++
        n.2.map (fun p => .face p.1) ++ [.edge e, .vertex vdel]
      merged := (.vertex vdel, .vertex vkeep) :: m.2.map (fun p => (.edge p.1, .edge p.2)) ++
        n.2.map (fun p => (.face p.1, .face p.2)) })

/-- `ME_Collapse`, ME_Collapse.c:47-603; `none` when the call is refused. -/
def meCollapse (T : Topo) (A : Labels) (e : Nat) (vkeepIn : Option Nat) (topoflag : Bool) :
    Res (Topo × Option Collapse) := do
  T.derefE e
  match ← T.chooseEnds A e vkeepIn topoflag with
  | none => pure (T, none)
  | some (vdel, vkeep) =>
    let q ← T.contract A topoflag e vdel vkeep
    pure (q.1, some q.2)

end Topo
end MSTK
