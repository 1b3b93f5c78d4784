import Verif.SplitModel

/-!
Model of the mesh modification operators on a full representation: splitting faces
(src/mod/MF_Split_with_Edge.c, MF_Split.c), joining faces and regions (MFs_Join.c, MRs_Join.c),
swapping an edge of a triangulation (ME_Swap2D.c), merging edges and faces (MEs_Merge_FN.c,
MFs_Merge_FN.c).

Simplifications, for the whole file: coordinates are not part of the model, and the classification
of entities only where an operator decides by it; the entities belong to one mesh; `MSTK_FATAL` ends
the program; storage that is not freed is not counted.
-/
namespace MSTK
namespace Topo

/-! ### reading a face -/

/-- "fedirs[i] = MF_EdgeDir_i(fsplit,i)" for the edges of the list, MF_Split_with_Edge.c:47-48. -/
def readDirs (T : Topo) (f : Nat) : List Nat → Nat → Res (List (Nat × Bool))
  | [], _ => .ok []
  | e :: es, i => do
    let d ← T.mfEdgeDir_i f i
    let r ← readDirs T f es (i+1)
    pure ((e, d) :: r)

/-- "felist = MF_Edges(fsplit,1,0)" and the directions, MF_Split_with_Edge.c:44-48. -/
def readFace (T : Topo) (f : Nat) : Res (List (Nat × Bool)) := do
  let l ← T.mfEdges f true none
  T.readDirs f l 0

/-- "while ((fr = List_Next_Entry(fregions,&idx))) { fdir[0] = fdir[1] = MR_FaceDir(fr,fsplit);
MR_Replace_Faces(fr,1,&fsplit,2,fnew,fdir); }", MF_Split_with_Edge.c:147-151, MF_Split.c:75-80.
A region of the face has the face (C21); the result -1 is not looked into. -/
def replaceInRegions (f : Nat) (nu : List Nat) : List Nat → Topo → Res Topo
  | [], T => .ok T
  | r :: rs, T => do
    let d ← T.mrFaceDir r f
    let d ← Res.ofOption d
    let T ← T.mrReplaceFaces r [f] (nu.map fun g => (g, d))
    replaceInRegions f nu rs T

/-! ### splitting a face -/

/-- "if (ME_Vertex(fe,!fedirs[i]) == v0) { found = 1; break; }", MF_Split_with_Edge.c:71-77. -/
def firstAt (T : Topo) (v0 : Nat) : List (Nat × Bool) → Nat → Res (Option Nat)
  | [], _ => .ok none
  | p :: ps, i => do
    let v ← T.meVertex p.1 (!p.2)
    if v = some v0 then pure (some i) else firstAt T v0 ps (i+1)

/-- The `while (!done)` loops of MF_Split_with_Edge.c:86-101 and 116-131: from edge `i` on until the
vertex `stop` is reached; arriving at `bad` is a fatal error.  `n` is the space left in the array,
which has an entry for every edge of the face.  The edges passed and the last index are returned. -/
def walk (T : Topo) (ps : List (Nat × Bool)) (stop bad : Nat) : Nat → Nat →
    Res (List (Nat × Bool) × Nat)
  | 0, _ => .ub
  | n+1, i => do
    let p ← Res.ofOption ps[i % ps.length]?
    let v ← T.meVertex p.1 p.2
    if v = some stop then pure ([p], i)
    else if v = some bad then .fatal
    else
      let r ← walk T ps stop bad n (i+1)
      pure (p :: r.1, r.2)

/-- "fedges0[n0] = enew; ... fnew[0] = MF_New(mesh); MF_Set_Edges(fnew[0],n0,fedges0,fedirs0)",
MF_Split_with_Edge.c:103-108, 133-138; `room` entries in the array. -/
def closePart (T : Topo) (room : Nat) (part : List (Nat × Bool)) (enew : Nat) (d : Bool) :
    Res (Topo × Nat) := do
  if part.length < room then
    let q := T.mfNew
    let T ← q.1.mfSetEdges q.2 (part ++ [(enew, d)])
    pure (T, q.2)
  else .ub

/-- The part of `MF_Split_with_Edge` after the new edge was made, MF_Split_with_Edge.c:69-162. -/
def splitAlong (T : Topo) (f : Nat) (ps : List (Nat × Bool)) (enew v0 v1 : Nat) : Res Topo := do
  match ← T.firstAt v0 ps 0 with
  | none => .fatal
  | some i =>
    let a ← T.walk ps v1 v0 ps.length i
    let q ← T.closePart ps.length a.1 enew false
    let b ← q.1.walk ps v0 v1 ps.length (a.2+1)
    let s ← q.1.closePart ps.length b.1 enew true
    let rs ← s.1.mfRegions f
    let T ← replaceInRegions f [q.2, s.2] (rs.getD []) s.1
    T.mfDelete f false

/-- `MF_Split_with_Edge`, MF_Split_with_Edge.c:23-164; the edge is returned. -/
def mfSplitWithEdge (T : Topo) (f v0 v1 : Nat) : Res (Topo × Nat) := do
  match ← T.mvsCommonEdge v0 v1 with
  | some e => pure (T, e)
  | none =>
    let ps ← T.readFace f
    let p := T.meNew
    let T ← p.1.meSetVertex p.2 false v0
    let T ← T.meSetVertex p.2 true v1
    let T ← T.splitAlong f ps p.2 v0 v1
    pure (T, p.2)

/-- The loop of MF_Split.c:60-69: a triangle at `v` for every edge. -/
def newTriangles (v : Nat) : List (Nat × Nat) → Topo → Res (Topo × List Nat)
  | [], T => .ok (T, [])
  | (a, b) :: rest, T => do
    let q := T.mfNew
    let T ← q.1.mfSetVertices q.2 [v, a, b]
    let r ← newTriangles v rest T
    pure (r.1, q.2 :: r.2)

/-- every pointer of the list is given -/
def given : List (Option Nat) → Res (List Nat)
  | [] => .ok []
  | x :: xs => do
    let v ← Res.ofOption x
    let r ← given xs
    pure (v :: r)

/-- `MF_Split`, MF_Split.c:26-88; the new vertex is returned.  The array `fnew` has `MAXPV2 = 30`
entries. -/
def mfSplit (T : Topo) (f : Nat) : Res (Topo × Nat) := do
  let rs ← T.mfRegions f
  let vs ← T.mfVertices f true none
  let vs ← given vs
  let p := T.mvNew
  if vs.length > 30 then .ub
  else
    let q ← newTriangles p.2 (cyclicPairs vs) p.1
    let T ← replaceInRegions f q.2 (rs.getD []) q.1
    let T ← T.mfDelete f false
    pure (T, p.2)

/-! ### joining -/

/-- "nuface" takes the place of `f0` and `f1` in a region, MFs_Join.c:108-117. -/
def joinInRegion (f0 f1 nu : Nat) : Option Nat → Topo → Res Topo
  | none, T => .ok T
  | some r, T => do
    let d ← T.mrFaceDir r f0
    let d ← Res.ofOption d
    T.mrReplaceFaces r [f0, f1] [(nu, d)]

/-- the last position of `e`, MFs_Join.c:69-74 (`k0 = -1` is `none`) -/
def lastPos (e : Nat) : List (Nat × Bool) → Nat → Option Nat → Option Nat
  | [], _, k => k
  | p :: ps, i, k => lastPos e ps (i+1) (if p.1 = e then some i else k)

/-- "fe3[i] = fe0[(k0+1+i)%nfe0]" for `i < nfe0-1`, MFs_Join.c:91-99: the edges after position
`k`, round to the one before it. -/
def afterPos (ps : List (Nat × Bool)) (k : Nat) : List (Nat × Bool) :=
  (List.range (ps.length - 1)).filterMap fun i => ps[(k+1+i) % ps.length]?

/-- `MFs_Join`, MFs_Join.c:14-128; the new face, or `none` when the call is refused.  `cls` is the
classification (dimension and ID of the model entity) of the faces; lines 30-33 compare `f0` with
itself. -/
def mfsJoin (T : Topo) (cls : Nat → Nat × Nat) (f0 f1 e : Nat) : Res (Topo × Option Nat) := do
  T.derefF f0
  T.derefF f1
  if (cls f0).2 ≠ (cls f0).2 ∨ (cls f0).1 ≠ (cls f0).1 then pure (T, none)
  else
    let r0 ← T.mfRegions f0
    let r1 ← T.mfRegions f1
    let fr00 := (r0.getD [])[0]?
    let fr01 := (r0.getD [])[1]?
    if fr00 ≠ (r1.getD [])[0]? ∨ fr01 ≠ (r1.getD [])[1]? then pure (T, none)
    else
      let ps0 ← T.readFace f0
      let ps1 ← T.readFace f1
      match lastPos e ps0 0 none, lastPos e ps1 0 none with
      | some k0, some k1 =>
        let q := T.mfNew
        let T ← q.1.mfSetEdges q.2 (afterPos ps0 k0 ++ afterPos ps1 k1)
        let T ← joinInRegion f0 f1 q.2 fr00 T
        let T ← joinInRegion f0 f1 q.2 fr01 T
        let T ← T.mfDelete f0 false
        let T ← T.mfDelete f1 false
        let T ← T.meDelete e false
        pure (T, some q.2)
      | _, _ => pure (T, none)

/-- "rf2[j] = rface; rfdir2[j] = MR_FaceDir_i(r2,i)" for the faces other than `f`,
MRs_Join.c:70-79. -/
def otherFaces (T : Topo) (r f : Nat) : List Nat → Nat → Res (List (Nat × Bool))
  | [], _ => .ok []
  | g :: gs, i => do
    if g = f then otherFaces T r f gs (i+1)
    else
      let d ← T.mrFaceDir_i r i
      let rest ← otherFaces T r f gs (i+1)
      pure ((g, d) :: rest)

/-- The common face, MRs_Join.c:43-64: the given one when the first region has it (otherwise the
call is refused), else the first face of the second region which the first one has. -/
def commonFace (T : Topo) (r1 : Nat) (l2 : List Nat) : Option Nat → Res (Option (Option Nat))
  | some f => do
    let u ← T.mrUsesFace r1 f
    pure (if u then some (some f) else none)
  | none => do
    let l1 ← T.mrFaces r1
    pure (some (l2.find? fun g => decide (g ∈ l1)))

/-- `MRs_Join`, MRs_Join.c:19-95; `false` when the call is refused.  `cls` is the ID of the model
entity a region is classified on. -/
def mrsJoin (T : Topo) (cls : Nat → Nat) (r1 r2 : Nat) (f : Option Nat) : Res (Topo × Bool) := do
  T.derefR r1
  T.derefR r2
  if cls r1 ≠ cls r2 then pure (T, false)
  else
    let l2 ← T.mrFaces r2
    match ← T.commonFace r1 l2 f with
    | none => pure (T, false)
    | some none => pure (T, false)          -- nothing found: "Cannot find common face in region"
    | some (some c) =>
      let nu ← T.otherFaces r2 c l2 0
      if c ∈ l2 then
        let T ← T.mrDelete r2 false
        let T ← T.mrReplaceFaces r1 [c] nu
        let T ← T.mfDelete c false
        pure (T, true)
      else pure (T, false)

/-! ### swapping an edge -/

/-- "v[3] = ME_Vertex(fe[0],1); if (v[3] == v[1]) v[3] = ME_Vertex(fe[0],0)", ME_Swap2D.c:63-65
(`i` is the end looked at first; 79-81 with the ends exchanged). -/
def otherEnd (T : Topo) (e : Nat) (i : Bool) (v : Option Nat) : Res (Option Nat) := do
  let a ← T.meVertex e i
  if a = v then T.meVertex e (!i) else pure a

/-- `ME_Swap2D`, ME_Swap2D.c:14-117; the new edge and the two new faces, or `none` when the call is
refused.  `gdim` is the dimension of the model entity the edge is classified on. -/
def meSwap2D (T : Topo) (gdim : Nat) (e : Nat) : Res (Topo × Option (Nat × Nat × Nat)) := do
  T.derefE e
  if gdim ≠ 2 then pure (T, none)
  else
    let v0 ← T.meVertex e false
    let v1 ← T.meVertex e true
    let fs ← T.meFaces e
    let fs ← Res.ofOption fs               -- List_Num_Entries(NULL)
    match fs with
    | [g0, g1] =>
      let d ← T.mfEdgeDir g0 e
      let f0 := if d then g0 else g1
      let f1 := if d then g1 else g0
      let es ← T.mfEdges f0 true v0
      match es with
      | [_, fe0, fe1] =>
        let v3 ← T.otherEnd fe0 true v1
        let es' ← T.mfEdges f1 true v1
        match es' with
        | [_, fe2, fe3] =>
          let v2 ← T.otherEnd fe3 false v1
          let T ← T.mfDelete f0 false
          let T ← T.mfDelete f1 false
          let T ← T.meDelete e false
          let p := T.meNew
          let a ← Res.ofOption v2
          let b ← Res.ofOption v3
          let T ← p.1.meSetVertex p.2 false a
          let T ← T.meSetVertex p.2 true b
          let q := T.mfNew
          let x1 ← q.1.meVertex fe1 false
          let x2 ← q.1.meVertex fe2 false
          let T ← q.1.mfSetEdges q.2 [(p.2, true), (fe1, decide (x1 = v3)), (fe2, decide (x2 = v0))]
          let s := T.mfNew
          let x3 ← s.1.meVertex fe3 false
          let x0 ← s.1.meVertex fe0 false
          let T ← s.1.mfSetEdges s.2 [(p.2, false), (fe3, decide (x3 = v2)), (fe0, decide (x0 = v1))]
          pure (T, some (p.2, q.2, s.2))
        | _ => pure (T, none)
      | _ => pure (T, none)
    | _ => pure (T, none)

/-! ### merging -/

/-- The check of the classification, MEs_Merge_FN.c:34-45, MFs_Merge_FN.c:40-51; `c1`, `c2` are
dimension and ID of the model entities. -/
def mayMerge (topoflag : Bool) (c1 c2 : Nat × Nat) : Bool :=
  if topoflag then
    if c1.1 = c2.1 then decide (c1.2 = c2.2) else decide (¬ c2.1 < c1.1)
  else true

/-- "while ((face = List_Next_Entry(efaces2,&idx))) MF_Replace_Edges(face,1,&e2,1,&e1)",
MEs_Merge_FN.c:61-63. -/
def replaceInFaces (e1 e2 : Nat) : List Nat → Topo → Res Topo
  | [], T => .ok T
  | f :: fs, T => do
    let T ← T.mfReplaceEdges f [e2] [e1]
    replaceInFaces e1 e2 fs T

/-- `MEs_Merge_FN`, MEs_Merge_FN.c:16-83, on a mesh with the sets `S`; `none` when the call is
refused. -/
def mesMerge (T : Topo) (S : List (List Nat)) (topoflag : Bool) (cls : Nat → Nat × Nat)
    (e1 e2 : Nat) : Res (Topo × Option (List (List Nat))) := do
  T.derefE e1
  T.derefE e2
  if mayMerge topoflag (cls e1) (cls e2) then
    let v11 ← T.meVertex e1 false
    let v12 ← T.meVertex e1 true
    let v21 ← T.meVertex e2 false
    let v22 ← T.meVertex e2 true
    if (v11 ≠ v21 ∧ v11 ≠ v22) ∨ (v12 ≠ v21 ∧ v12 ≠ v22) then pure (T, none)
    else
      let fs ← T.meFaces e2
      let T ← replaceInFaces e1 e2 (fs.getD []) T
      let T ← T.meDelete e2 true
      pure (T, some (S.map (mergeInSet e1 e2)))
  else pure (T, none)

/-- "while ((reg = List_Next_Entry(fregs2,&idx))) ...", MFs_Merge_FN.c:123-131; `same` when the two
faces are oriented the same way. -/
def mergeInRegions (f1 f2 : Nat) (same : Bool) : List Nat → Topo → Res Topo
  | [], T => .ok T
  | r :: rs, T => do
    let d ← T.mrFaceDir r f2
    let d ← Res.ofOption d
    let T ← T.mrReplaceFaces r [f2] [(f1, if same then d else !d)]
    mergeInRegions f1 f2 same rs T

/-- `MFs_Merge_FN`, MFs_Merge_FN.c:16-151, on a mesh with the sets `S`; `none` when the call is
refused.  The edge-by-edge comparison is compiled only with `DEBUG`. -/
def mfsMerge (T : Topo) (S : List (List Nat)) (topoflag : Bool) (cls : Nat → Nat × Nat)
    (f1 f2 : Nat) : Res (Topo × Option (List (List Nat))) := do
  T.derefF f1
  T.derefF f2
  if mayMerge topoflag (cls f1) (cls f2) then
    let l1 ← T.mfEdges f1 true none
    let d ← T.mfEdgeDir_i f1 0
    let x ← Res.ofOption l1[0]?              -- ME_Vertex(NULL,..) crashes
    let fv0 ← T.meVertex x (!d)
    let l2 ← T.mfEdges f2 true fv0
    if l1.length ≠ l2.length then pure (T, none)
    else if l1[0]? = l2[0]? ∨ l1[0]? = l2[l1.length-1]? then
      let rs ← T.mfRegions f2
      let T ← mergeInRegions f1 f2 (decide (l1[0]? = l2[0]?)) (rs.getD []) T
      let T ← T.mfDelete f2 true
      pure (T, some (S.map (mergeInSet f1 f2)))
    else pure (T, none)
  else pure (T, none)

end Topo
end MSTK
