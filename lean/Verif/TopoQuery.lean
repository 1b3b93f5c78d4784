import Verif.TopoModel

/-!
Model of the adjacency queries of an `F1` mesh and of `MF_Set_Vertices`, which is built on them.
Results that may be NULL are `Option`; lists of vertices are lists of pointers (`Option Nat`)
where the code stores `ME_Vertex(e,i)` without checking it.
-/
namespace MSTK
namespace Topo

/-- `MV_Edges_F1`, MVertex_F1.c:148-156. -/
def mvEdges (T : Topo) (v : Nat) : Res (Option (List Nat)) := do
  T.derefV v
  pure (if (T.ve v).length = 0 then none else some (T.ve v))

/-- `ME_Faces_F1`, MEdge_F1.c:85-91. -/
def meFaces (T : Topo) (e : Nat) : Res (Option (List Nat)) := do
  T.derefE e
  pure (if (T.ef e).length = 0 then none else some (T.ef e))

/-- `ME_OppVertex`, MEdge.c:302-304. -/
def meOppVertex (T : Topo) (e v : Nat) : Res (Option Nat) := do
  T.derefE e
  pure (if (T.ev e).1 = some v then (T.ev e).2 else (T.ev e).1)

/-- the loop of `MV_AdjVertices_F1`, MVertex_F1.c:117-121 -/
def oppAll (T : Topo) (v : Nat) : List Nat → Res (List (Option Nat))
  | [] => .ok []
  | e :: es => do
    let o ← T.meOppVertex e v
    let r ← oppAll T v es
    pure (o :: r)

/-- `MV_AdjVertices_F1`, MVertex_F1.c:103-124. -/
def mvAdjVertices (T : Topo) (v : Nat) : Res (List (Option Nat)) := do
  T.derefV v
  T.oppAll v (T.ve v)

/-- "if (!List_Contains(l,x)) List_Add(l,x)" over a list. -/
def addNew : List Nat → List Nat → List Nat
  | acc, [] => acc
  | acc, x :: xs => addNew (if x ∈ acc then acc else acc ++ [x]) xs

/-- the loop of `MV_Faces_F1`, MVertex_F1.c:188-207 -/
def facesOfEdges (T : Topo) : List Nat → List Nat → Res (List Nat)
  | [], acc => .ok acc
  | e :: es, acc => do
    let fs ← T.meFaces e
    facesOfEdges T es (addNew acc (fs.getD []))

/-- an empty result is returned as NULL -/
def orNull (l : List Nat) : Option (List Nat) := if l.length = 0 then none else some l

/-- `MV_Faces_F1`, MVertex_F1.c:172-214. -/
def mvFaces (T : Topo) (v : Nat) : Res (Option (List Nat)) := do
  T.derefV v
  let l ← T.facesOfEdges (T.ve v) []
  pure (orNull l)

/-- "for (k = 0; k < 2; k++) { region = MF_Region(f,k); if (region && !inlist) add }" over a list
of faces (MVertex_F1.c:254-267, MEdge_F1.c:116-130). -/
def regionsOfFaces (T : Topo) : List Nat → List Nat → Res (List Nat)
  | [], acc => .ok acc
  | f :: fs, acc => do
    let r0 ← T.mfRegion f false
    let r1 ← T.mfRegion f true
    regionsOfFaces T fs (addNew acc (r0.toList ++ r1.toList))

/-- the loop of `MV_Regions_F1`, MVertex_F1.c:246-269 -/
def regionsOfEdges (T : Topo) : List Nat → List Nat → Res (List Nat)
  | [], acc => .ok acc
  | e :: es, acc => do
    let fs ← T.meFaces e
    let acc ← T.regionsOfFaces (fs.getD []) acc
    regionsOfEdges T es acc

/-- `MV_Regions_F1`, MVertex_F1.c:229-277. -/
def mvRegions (T : Topo) (v : Nat) : Res (Option (List Nat)) := do
  T.derefV v
  let l ← T.regionsOfEdges (T.ve v) []
  pure (orNull l)

/-- `ME_Regions_F1`, MEdge_F1.c:104-138. -/
def meRegions (T : Topo) (e : Nat) : Res (Option (List Nat)) := do
  T.derefE e
  let l ← T.regionsOfFaces (T.ef e) []
  pure (orNull l)

/-- `MF_Regions_F1F3`, MF_Region_Funcs_F1F3.c:19-35. -/
def mfRegions (T : Topo) (f : Nat) : Res (Option (List Nat)) := do
  T.derefF f
  pure (orNull ((T.fr f).1.toList ++ (T.fr f).2.toList))

/-- `MV_Num_Faces_F1`, MVertex_F1.c:66-84. -/
def mvNumFaces (T : Topo) (v : Nat) : Res Nat := do
  let L ← T.mvFaces v
  pure (L.getD []).length

/-- `MV_Num_Regions_F1`, MVertex_F1.c:86-101: `List_Num_Entries` is called on NULL when there are
no regions. -/
def mvNumRegions (T : Topo) (v : Nat) : Res Nat := do
  let L ← T.mvRegions v
  let l ← Res.ofOption L
  pure l.length

/-- `ME_Num_Regions_F1`, MEdge_F1.c:68-83. -/
def meNumRegions (T : Topo) (e : Nat) : Res Nat := do
  let L ← T.meRegions e
  pure (L.getD []).length

/-- the loop of `MF_AdjFaces_F1`, MFace_F1.c:214-229 (`List_Num_Entries(NULL)` crashes) -/
def adjFacesLoop (T : Topo) (f : Nat) : List Nat → List Nat → Res (List Nat)
  | [], acc => .ok acc
  | e :: es, acc => do
    let fs ← T.meFaces e
    let fs ← Res.ofOption fs
    adjFacesLoop T f es (acc ++ fs.filter (· ≠ f))

/-- `MF_AdjFaces_F1`, MFace_F1.c:202-237. -/
def mfAdjFaces (T : Topo) (f : Nat) : Res (Option (List Nat)) := do
  let l ← T.fedges f
  let l ← T.adjFacesLoop f l []
  pure (orNull l)

/-- what `MR_AdjRegions_FNR3R4` adds for a face with regions `a`, `b`,
MR_Face_Funcs_FNR3R4.c:411-420 -/
def otherRegion (r : Nat) (a b : Option Nat) : List Nat :=
  match a with
  | none => []
  | some x => if x = r then b.toList else [x]

/-- the loop of `MR_AdjRegions_FNR3R4`, MR_Face_Funcs_FNR3R4.c:409-422 -/
def adjRegionsLoop (T : Topo) (r : Nat) : List Nat → Res (List Nat)
  | [] => .ok []
  | f :: fs => do
    let a ← T.mfRegion f false
    let b ← T.mfRegion f true
    let l ← adjRegionsLoop T r fs
    pure (otherRegion r a b ++ l)

/-- `MR_AdjRegions_FNR3R4`, MR_Face_Funcs_FNR3R4.c:398-424. -/
def mrAdjRegions (T : Topo) (r : Nat) : Res (List Nat) := do
  let l ← T.rfaces r
  T.adjRegionsLoop r l

/-- The end of edge `k` of a face that `MF_Vertices(f,dir,..)` reports:
`ME_Vertex(e, edir^dir)`, MF_Vertex_Funcs_F1F3.c:98-100. -/
def faceVertexAt (T : Topo) (l : List Nat) (d : BitVec 64) (dir : Bool) (k : Nat) :
    Res (Option Nat) := do
  let e ← Res.ofOption l[k]?
  let b ← bit d k
  T.meVertex e (b ^^ dir)

/-- apply a lookup to a sequence of positions -/
def collect (g : Nat → Res α) : List Nat → Res (List α)
  | [] => .ok []
  | k :: ks => do
    let x ← g k
    let r ← collect g ks
    pure (x :: r)

/-- "for (i = 0; i < ne; i++) if (ME_Vertex(e,edir^dir) == v0) { fnd = 1; k = i; break; }",
MF_Vertex_Funcs_F1F3.c:106-114 and MF_Edge_Funcs_F1F3.c:469-477: `n` rounds from `i`. -/
def findStart (T : Topo) (l : List Nat) (d : BitVec 64) (dir : Bool) (v0 : Nat) :
    Nat → Nat → Res (Option Nat)
  | 0, _ => .ok none
  | n+1, i => do
    let v ← T.faceVertexAt l d dir i
    if v = some v0 then pure (some i) else findStart T l d dir v0 n (i+1)

/-- Positions visited with a start position: `dir ? (k+i)%ne : (k+ne-i)%ne`. -/
def turn (dir : Bool) (k ne : Nat) : List Nat :=
  (List.range ne).map fun i => if dir then (k + i) % ne else (k + ne - i) % ne

/-- Positions visited without a start vertex: `dir ? i : ne-1-i`. -/
def straight (dir : Bool) (ne : Nat) : List Nat :=
  (List.range ne).map fun i => if dir then i else ne - 1 - i

/-- the positions visited, or `MSTK_FATAL` when the start vertex is not found -/
def visit (T : Topo) (l : List Nat) (d : BitVec 64) (dir : Bool) : Option Nat → Res (List Nat)
  | none => .ok (straight dir l.length)
  | some v => do
    match ← T.findStart l d dir v l.length 0 with
    | none => .fatal
    | some k => pure (turn dir k l.length)

/-- `MF_Vertices_F1F3`, MF_Vertex_Funcs_F1F3.c:84-130. -/
def mfVertices (T : Topo) (f : Nat) (dir : Bool) (v0 : Option Nat) : Res (List (Option Nat)) := do
  let l ← T.fedges f
  let ks ← T.visit l (T.fd f) dir v0
  collect (T.faceVertexAt l (T.fd f) dir) ks

/-- `MF_Edges_F1F3`, MF_Edge_Funcs_F1F3.c:446-491. -/
def mfEdges (T : Topo) (f : Nat) (dir : Bool) (v0 : Option Nat) : Res (List Nat) := do
  let l ← T.fedges f
  let ks ← T.visit l (T.fd f) dir v0
  collect (fun k => Res.ofOption l[k]?) ks

/-- `MF_EdgeDir_F1F3`, MF_Edge_Funcs_F1F3.c:538-553. -/
def mfEdgeDir (T : Topo) (f e : Nat) : Res Bool := do
  let l ← T.fedges f
  if e ∈ l then bit (T.fd f) (l.idxOf e) else .fatal

/-- `MF_EdgeDir_i_F1F3`, MF_Edge_Funcs_F1F3.c:555-566. -/
def mfEdgeDir_i (T : Topo) (f i : Nat) : Res Bool := do
  T.derefF f
  bit (T.fd f) i

/-- `MF_UsesEdge_F1F3`, MF_Edge_Funcs_F1F3.c:568-574. -/
def mfUsesEdge (T : Topo) (f e : Nat) : Res Bool := do
  let l ← T.fedges f
  pure (decide (e ∈ l))

/-- some edge of the list uses the vertex (the loop of MF_Vertex_Funcs_F1F3.c:190-194) -/
def anyUses (T : Topo) (v : Nat) : List Nat → Res Bool
  | [] => .ok false
  | e :: es => do
    let b ← T.meUsesVertex e (some v)
    if b then pure true else anyUses T v es

/-- `MF_UsesVertex_F1F3`, MF_Vertex_Funcs_F1F3.c:182-197: only the first `ne-1` edges are looked
at. -/
def mfUsesVertex (T : Topo) (f v : Nat) : Res Bool := do
  let l ← T.fedges f
  T.anyUses v (l.take (l.length - 1))

/-- `MR_Faces_FNR3R4`, MR_Face_Funcs_FNR3R4.c:380-384. -/
def mrFaces (T : Topo) (r : Nat) : Res (List Nat) := T.rfaces r

/-- `MR_ElementType`, MRegion.c:170-172. -/
def mrElementType (T : Topo) (r : Nat) : Res MRType := do
  T.derefR r
  pure (T.rt r)

/-- `MR_UsesFace_FNR3R4`, MR_Face_Funcs_FNR3R4.c:836-841. -/
def mrUsesFace (T : Topo) (r f : Nat) : Res Bool := do
  let l ← T.rfaces r
  pure (decide (f ∈ l))

/-- the loop of `MVs_CommonEdge`, MEdge.c:399-413 -/
def findEdge (T : Topo) (v2 : Nat) : List Nat → Res (Option Nat)
  | [] => .ok none
  | e :: es => do
    let b ← T.meUsesVertex e (some v2)
    if b then pure (some e) else findEdge T v2 es

/-- `MVs_CommonEdge`, MEdge.c:387-417. -/
def mvsCommonEdge (T : Topo) (v1 v2 : Nat) : Res (Option Nat) := do
  let l ← T.mvEdges v1
  T.findEdge v2 (l.getD [])

/-- "contains_all", MFace.c:393-410: every vertex of the face is one of the given ones. -/
def allIn (vs : List Nat) : List (Option Nat) → Bool
  | [] => true
  | none :: _ => false
  | some v :: rest => if v ∈ vs then allIn vs rest else false

/-- the loop of `MVs_CommonFace`, MFace.c:385-418 -/
def findFaceV (T : Topo) (vs : List Nat) : List Nat → Res (Option Nat)
  | [] => .ok none
  | f :: fs => do
    let n ← T.mfNumVertices f
    if n ≠ vs.length then findFaceV T vs fs
    else
      let l ← T.mfVertices f true none
      if allIn vs l then pure (some f) else findFaceV T vs fs

/-- `MVs_CommonFace`, MFace.c:369-422. -/
def mvsCommonFace (T : Topo) (vs : List Nat) : Res (Option Nat) := do
  match vs with
  | a :: b :: _ =>
    match ← T.mvsCommonEdge a b with
    | none => pure none
    | some e =>
      let fs ← T.meFaces e
      T.findFaceV vs (fs.getD [])
  | _ => .ub                 -- fverts[0], fverts[1] are read

/-- the loop of `MEs_CommonFace`, MFace.c:436-453 -/
def findFaceE (T : Topo) (es : List Nat) : List Nat → Res (Option Nat)
  | [] => .ok none
  | f :: fs => do
    let l ← T.mfEdges f true none
    if es.all (fun e => decide (e ∈ l)) then pure (some f) else findFaceE T es fs

/-- `MEs_CommonFace`, MFace.c:424-457. -/
def mesCommonFace (T : Topo) (es : List Nat) : Res (Option Nat) := do
  match es with
  | e :: rest =>
    let fs ← T.meFaces e
    T.findFaceE rest (fs.getD [])
  | [] => .ub

/-- One round of the loop of `MF_Set_Vertices_F1F3`, MF_Vertex_Funcs_F1F3.c:36-78: the edge from
`a` to `b` and its direction, created when there is none (the classification of a new edge is not
part of this model). -/
def edgeFor (T : Topo) (a b : Nat) : Res (Topo × (Nat × Bool)) := do
  match ← T.mvsCommonEdge a b with
  | some e =>
    let v0 ← T.meVertex e false
    pure (T, (e, decide (v0 = some a)))
  | none =>
    let p := T.meNew
    let T1 ← meSetVertex p.1 p.2 false a
    let T2 ← meSetVertex T1 p.2 true b
    pure (T2, (p.2, true))

/-- the rounds over the consecutive pairs -/
def edgesFor : List (Nat × Nat) → Topo → Res (Topo × List (Nat × Bool))
  | [], T => .ok (T, [])
  | (a, b) :: rest, T => do
    let p ← edgeFor T a b
    let q ← edgesFor rest p.1
    pure (q.1, p.2 :: q.2)

/-- `v[i]`, `v[(i+1)%n]` for `i = 0 .. n-1` -/
def cyclicPairs (vs : List Nat) : List (Nat × Nat) := vs.zip (vs.tail ++ vs.take 1)

/-- `MF_Set_Vertices_F1F3`, MF_Vertex_Funcs_F1F3.c:19-81.  The local arrays have `MAXPV2 = 30`
entries (include/MSTK_defines.h). -/
def mfSetVertices (T : Topo) (f : Nat) (vs : List Nat) : Res Topo := do
  T.derefF f
  if vs.length > 30 then .ub
  else
    let p ← edgesFor (cyclicPairs vs) T
    p.1.mfSetEdges f p.2

end Topo
end MSTK
