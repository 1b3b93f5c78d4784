import Verif.TopoQuery

/-!
The vertices and edges of a region: `MR_Vertices` and `MR_UsesVertex`
(src/base/MR_Vertex_Funcs_FNR3R4.c), `MR_Edges` and `MR_UsesEdge` (src/base/MR_Edge_Funcs_FN.c).

`List_Entry` beyond the end of a list gives NULL (`none`).  Where the code goes on to pass a NULL
vertex to `MVs_CommonEdge` or `MF_UsesEntity` the outcome of the model is `ub`.
-/
namespace MSTK
namespace Topo

/-- `List_Entry(l,i)` of a list of vertices, List.c:185-223: NULL beyond the end. -/
def entry (l : List (Option Nat)) (i : Nat) : Option Nat := (l[i]?).getD none

/-- "if (!List_Contains(rvertices,vert)) { List_Add(rvertices,vert); break; }" for a sequence of
vertices, MR_Vertex_Funcs_FNR3R4.c:46-52 and 133-139. -/
def addFirstNew (rv : List (Option Nat)) : List (Option Nat) → List (Option Nat)
  | [] => rv
  | v :: vs => if v ∈ rv then addFirstNew rv vs else rv ++ [v]

/-- The three entries read by "for (i = 0; i < 3; i++) vert = List_Entry(fverts,i)". -/
def entries3 (l : List (Option Nat)) : List (Option Nat) := [entry l 0, entry l 1, entry l 2]

/-- The face at a position and the direction in which the region uses it:
`List_Entry(adj->rfaces,i)`, `MR_FaceDir_i(r,i)`; without a face there the code crashes in the next
call. -/
def sideAt (T : Topo) (r : Nat) (fs : List Nat) (i : Nat) : Res (Nat × Bool) := do
  let f ← Res.ofOption fs[i]?
  let d ← T.mrFaceDir_i r i
  pure (f, d)

/-- case TET of `MR_Vertices_FNR3R4`, MR_Vertex_Funcs_FNR3R4.c:37-56. -/
def tetVertices (T : Topo) (r : Nat) (fs : List Nat) : Res (List (Option Nat)) := do
  let p ← T.sideAt r fs 0
  let rv ← T.mfVertices p.1 (!p.2) none
  let f1 ← Res.ofOption fs[1]?
  let fv ← T.mfVertices f1 true none
  pure (addFirstNew rv (entries3 fv))

/-- `itri0`, `itri1`, `iquad0` of MR_Vertex_Funcs_FNR3R4.c:60-77, 107-125 and
MR_Edge_Funcs_FN.c:104-130: positions of the first triangle, the last other triangle and the first
quadrilateral, with the numbers of triangles and quadrilaterals. -/
structure Found where
  tri0 : Option Nat
  tri1 : Option Nat
  quad0 : Option Nat
  ntris : Nat
  nquads : Nat
  deriving DecidableEq

/-- the loop that fills `Found`; `i` is the position of the first face of the list -/
def findFaces (T : Topo) : List Nat → Nat → Found → Res Found
  | [], _, s => .ok s
  | f :: fs, i, s => do
    let ne ← T.mfNumVertices f
    let s1 : Found :=
      if ne = 3 then
        if s.tri0.isNone then { s with tri0 := some i, ntris := s.ntris + 1 }
        else { s with tri1 := some i, ntris := s.ntris + 1 }
      else if ne = 4 then
        if s.quad0.isNone then { s with quad0 := some i, nquads := s.nquads + 1 }
        else { s with nquads := s.nquads + 1 }
      else s
    findFaces T fs (i+1) s1

/-- the state before the loop -/
def noneFound : Found := ⟨none, none, none, 0, 0⟩

/-- `List_Entry(rfaces,i)` and `MR_FaceDir_i(r,i)` for a position found, -1 (`none`) being a read
before the array. -/
def sideOf (T : Topo) (r : Nat) (fs : List Nat) (o : Option Nat) : Res (Nat × Bool) := do
  let i ← Res.ofOption o
  T.sideAt r fs i

/-- `MVs_CommonEdge` of a vertex and an entry of a list -/
def commonEdgeE (T : Topo) (v : Option Nat) (w : Option Nat) : Res (Option Nat) := do
  let a ← Res.ofOption v
  let b ← Res.ofOption w
  T.mvsCommonEdge a b

/-- "for (i = 0; i < n; i++) if (MVs_CommonEdge(rv0,List_Entry(fverts,i))) break": the first of `n`
positions from `i` whose vertex is joined to `v0`, and the edge.
MR_Vertex_Funcs_FNR3R4.c:89-98, MR_Edge_Funcs_FN.c:148-156 and 293-301. -/
def findJoined (T : Topo) (v0 : Option Nat) (fv : List (Option Nat)) : Nat → Nat → Res (Option (Nat × Nat))
  | 0, _ => .ok none
  | n+1, i => do
    match ← T.commonEdgeE v0 (entry fv i) with
    | some e => pure (some (i, e))
    | none => findJoined T v0 fv n (i+1)

/-- case PRISM of `MR_Vertices_FNR3R4`, MR_Vertex_Funcs_FNR3R4.c:58-103. -/
def prismVertices (T : Topo) (r : Nat) (fs : List Nat) : Res (List (Option Nat)) := do
  let s ← T.findFaces fs 0 noneFound
  let p ← T.sideOf r fs s.tri0
  let rv ← T.mfVertices p.1 (!p.2) none
  let q ← T.sideOf r fs s.tri1
  let fv ← T.mfVertices q.1 q.2 none
  match ← T.findJoined (entry rv 0) fv 3 0 with
  | some (i, _) => pure (rv ++ [entry fv i, entry fv ((i+1) % 3), entry fv ((i+2) % 3)])
  | none => pure rv

/-- case PYRAMID of `MR_Vertices_FNR3R4`, MR_Vertex_Funcs_FNR3R4.c:105-144. -/
def pyramidVertices (T : Topo) (r : Nat) (fs : List Nat) : Res (List (Option Nat)) := do
  let s ← T.findFaces fs 0 noneFound
  let p ← T.sideOf r fs s.quad0
  let rv ← T.mfVertices p.1 (!p.2) none
  let i ← Res.ofOption s.tri0
  let f ← Res.ofOption fs[i]?
  let fv ← T.mfVertices f true none
  pure (addFirstNew rv (entries3 fv))

/-- "for (j = 0, found = 0; j < 4; j++) if (MF_UsesEntity(face,edge j of face 0,1)) ...": the
position of the first of the given edges that the face uses, MR_Vertex_Funcs_FNR3R4.c:173-185. -/
def firstUsed (T : Topo) (f : Nat) : List Nat → Nat → Res (Option Nat)
  | [], _ => .ok none
  | e :: es, j => do
    let b ← T.mfUsesEdge f e
    if b then pure (some j) else firstUsed T f es (j+1)

/-- The loop of MR_Vertex_Funcs_FNR3R4.c:165-192 over the faces from position `i`: the opposite face
(one that uses no edge of face 0) and the face at edge 0, with their directions.  `es` are the edges
of face 0 (the first four are looked at). -/
def hexFaces (T : Topo) (r : Nat) (es : List Nat) :
    List Nat → Nat → Option (Nat × Bool) → Option (Nat × Bool) →
    Res (Option (Nat × Bool) × Option (Nat × Bool))
  | [], _, opp, adj => .ok (opp, adj)
  | f :: fs, i, opp, adj => do
    let d ← T.mrFaceDir_i r i
    match ← T.firstUsed f (es.take 4) 0 with
    | none =>
      if adj.isSome then pure (some (f, d), adj) else hexFaces T r es fs (i+1) (some (f, d)) adj
    | some j =>
      let adj' := if es[j]? = es[0]? then some (f, d) else adj
      if opp.isSome && adj'.isSome then pure (opp, adj') else hexFaces T r es fs (i+1) opp adj'

/-- case HEX of `MR_Vertices_FNR3R4`, MR_Vertex_Funcs_FNR3R4.c:146-230; `none` is the result NULL. -/
def hexVertices (T : Topo) (r : Nat) (fs : List Nat) : Res (Option (List (Option Nat))) := do
  let p ← T.sideAt r fs 0
  let rv ← T.mfVertices p.1 (!p.2) none
  let v0 ← Res.ofOption (entry rv 0)
  let es ← T.mfEdges p.1 (!p.2) (some v0)
  match ← T.hexFaces r es (fs.drop 1) 1 none none with
  | (none, _) => pure none
  | (some _, none) => .ub
  | (some opp, some adj) =>
    let ae ← T.mfEdges adj.1 true (some v0)
    let up ← Res.ofOption (if adj.2 then ae[3]? else ae[0]?)
    let a ← T.meVertex up false
    let b ← T.meVertex up true
    let fv ← T.mfVertices opp.1 opp.2 (if a = some v0 then b else a)
    pure (some (rv ++ [entry fv 0, entry fv 1, entry fv 2, entry fv 3]))

/-- "if (!List_Contains(l,x)) List_Add(l,x)" for a sequence, MR_Vertex_Funcs_FNR3R4.c:246-253 and
MR_Edge_Funcs_FN.c:378-385. -/
def addMissing {α : Type} [DecidableEq α] (acc : List α) : List α → List α
  | [] => acc
  | x :: xs => addMissing (if x ∈ acc then acc else acc ++ [x]) xs

/-- the loop over the faces 1 .. nf-2, MR_Vertex_Funcs_FNR3R4.c:242-255 -/
def moreVertices (T : Topo) : List Nat → List (Option Nat) → Res (List (Option Nat))
  | [], acc => .ok acc
  | f :: fs, acc => do
    let fv ← T.mfVertices f true none
    moreVertices T fs (addMissing acc fv)

/-- default case of `MR_Vertices_FNR3R4`, MR_Vertex_Funcs_FNR3R4.c:232-258; the last face is not
looked at. -/
def polyVertices (T : Topo) (r : Nat) (fs : List Nat) : Res (List (Option Nat)) := do
  let p ← T.sideAt r fs 0
  let rv ← T.mfVertices p.1 (!p.2) none
  T.moreVertices (fs.dropLast.drop 1) rv

/-- `MR_Vertices_FNR3R4`, MR_Vertex_Funcs_FNR3R4.c:20-261; `none` is the result NULL. -/
def mrVertices (T : Topo) (r : Nat) : Res (Option (List (Option Nat))) := do
  let fs ← T.rfaces r
  match T.rt r with
  | .tet => do let l ← T.tetVertices r fs; pure (some l)
  | .prism => do let l ← T.prismVertices r fs; pure (some l)
  | .pyramid => do let l ← T.pyramidVertices r fs; pure (some l)
  | .hex => T.hexVertices r fs
  | _ => do let l ← T.polyVertices r fs; pure (some l)

/-- the loop of `MR_UsesVertex_FNR3R4`, MR_Vertex_Funcs_FNR3R4.c:294-298 and of `MR_UsesEdge_FN`,
MR_Edge_Funcs_FN.c:410-414 -/
def anyFaceUses (T : Topo) (g : Nat → Res Bool) : List Nat → Res Bool
  | [] => .ok false
  | f :: fs => do
    let b ← g f
    if b then pure true else anyFaceUses T g fs

/-- `MR_UsesVertex_FNR3R4`, MR_Vertex_Funcs_FNR3R4.c:286-300. -/
def mrUsesVertex (T : Topo) (r v : Nat) : Res Bool := do
  let fs ← T.rfaces r
  T.anyFaceUses (fun f => T.mfUsesVertex f v) fs

/-- `MR_UsesEdge_FN`, MR_Edge_Funcs_FN.c:402-416. -/
def mrUsesEdge (T : Topo) (r e : Nat) : Res Bool := do
  let fs ← T.rfaces r
  T.anyFaceUses (fun f => T.mfUsesEdge f e) fs

/-! ### edges of a region -/

/-- "fedir = MF_EdgeDir(botface,botedge); dir = !(botfdir^fedir); botvert = ME_Vertex(botedge,dir)",
MR_Edge_Funcs_FN.c:86-88, 141-143, 218-220, 286-288. -/
def botVertex (T : Topo) (f : Nat) (d : Bool) (e : Nat) : Res (Option Nat) := do
  let b ← T.mfEdgeDir f e
  T.meVertex e (!(d ^^ b))

/-- The lateral edges of the given bottom edges and top vertices: found ones are added; a missing
one is skipped (tetrahedron, MR_Edge_Funcs_FN.c:84-97) or ends the loop (`stop`; the other elements,
170-194, 216-228, 315-353). -/
def laterals (T : Topo) (stop : Bool) (f : Nat) (d : Bool) : List (Nat × Option Nat) → List Nat →
    Res (List Nat)
  | [], acc => .ok acc
  | (e, v) :: rest, acc => do
    let b ← T.botVertex f d e
    match ← T.commonEdgeE b v with
    | some l => laterals T stop f d rest (acc ++ [l])
    | none => if stop then pure acc else laterals T stop f d rest acc

/-- "for (i = 0; i < 3; i++) if (!MF_UsesEntity(botface,vert,MVERTEX)) { vapex = vert; break; }",
MR_Edge_Funcs_FN.c:68-75 and 204-212. -/
def findApex (T : Topo) (f : Nat) : List (Option Nat) → Res (Option Nat)
  | [] => .ok none
  | v :: vs => do
    let a ← Res.ofOption v
    let b ← T.mfUsesVertex f a
    if b then findApex T f vs else pure (some a)

/-- the tetrahedron of `MR_Edges_FN`, MR_Edge_Funcs_FN.c:58-100 -/
def tetEdges (T : Topo) (r : Nat) (fs : List Nat) : Res (List Nat) := do
  let p ← T.sideAt r fs 0
  let re ← T.mfEdges p.1 (!p.2) none
  let f1 ← Res.ofOption fs[1]?
  let fv ← T.mfVertices f1 true none
  match ← T.findApex p.1 (entries3 fv) with
  | none => pure re
  | some v => T.laterals false p.1 p.2 ((re.take 3).map fun e => (e, some v)) re

/-- The common part of prism and hexahedron, MR_Edge_Funcs_FN.c:137-197 (`n = 3`) and 285-358
(`n = 4`): bottom edges, top edges from the vertex above the first bottom vertex, lateral edges. -/
def towerEdges (T : Topo) (n : Nat) (bot top : Nat × Bool) (re : List Nat) : Res (List Nat) := do
  let e0 ← Res.ofOption re[0]?
  let v0 ← T.botVertex bot.1 bot.2 e0
  let fv ← T.mfVertices top.1 top.2 none
  match ← T.findJoined v0 fv n 0 with
  | none => pure re
  | some (i, lat) =>
    let te ← T.mfEdges top.1 top.2 (entry fv i)
    T.laterals true bot.1 bot.2
      (((re.take n).drop 1).mapIdx fun j e => (e, entry fv ((i + (j+1)) % n))) (re ++ te ++ [lat])

/-- the prism of `MR_Edges_FN`, MR_Edge_Funcs_FN.c:132-198 -/
def prismEdges (T : Topo) (r : Nat) (fs : List Nat) (s : Found) : Res (List Nat) := do
  let p ← T.sideOf r fs s.tri0
  let re ← T.mfEdges p.1 (!p.2) none
  let q ← T.sideOf r fs s.tri1
  T.towerEdges 3 p q re

/-- the pyramid of `MR_Edges_FN`, MR_Edge_Funcs_FN.c:199-231 -/
def pyramidEdges (T : Topo) (r : Nat) (fs : List Nat) (s : Found) : Res (List Nat) := do
  let p ← T.sideOf r fs s.quad0
  let re ← T.mfEdges p.1 (!p.2) none
  let i ← Res.ofOption s.tri0
  let f ← Res.ofOption fs[i]?
  let fv ← T.mfVertices f true none
  let apex ← T.findApex p.1 (entries3 fv)
  T.laterals true p.1 p.2 ((re.take 4).map fun e => (e, apex)) re

/-- "MF_UsesEntity(botface,edge,MEDGE)" for the edges of another face, MR_Edge_Funcs_FN.c:263-271 -/
def usesNone (T : Topo) (f : Nat) : List Nat → Res Bool
  | [] => .ok true
  | e :: es => do
    let b ← T.mfUsesEdge f e
    if b then pure false else usesNone T f es

/-- "Find the opposite face", MR_Edge_Funcs_FN.c:258-277: the first face without a common edge, with
its position. -/
def findTop (T : Topo) (bot : Nat) : List Nat → Nat → Res (Option (Nat × Nat))
  | [], _ => .ok none
  | f :: fs, i => do
    let es ← T.mfEdges f true none
    let b ← T.usesNone bot (es.take 4)
    if b then pure (some (f, i)) else findTop T bot fs (i+1)

/-- the hexahedron of `MR_Edges_FN`, MR_Edge_Funcs_FN.c:234-359 -/
def hexEdges (T : Topo) (r : Nat) (fs : List Nat) : Res (List Nat) := do
  let p ← T.sideAt r fs 0
  let re ← T.mfEdges p.1 (!p.2) none
  match ← T.findTop p.1 (fs.drop 1) 1 with
  | none => pure re
  | some (top, i) =>
    let d ← T.mrFaceDir_i r i
    T.towerEdges 4 p (top, d) re

/-- the loop over the faces 1 .. nf-2, MR_Edge_Funcs_FN.c:374-387 -/
def moreEdges (T : Topo) : List Nat → List Nat → Res (List Nat)
  | [], acc => .ok acc
  | f :: fs, acc => do
    let fe ← T.mfEdges f true none
    moreEdges T fs (addMissing acc fe)

/-- general polyhedra of `MR_Edges_FN`, MR_Edge_Funcs_FN.c:366-389; the last face is not looked at -/
def polyEdges (T : Topo) (r : Nat) (fs : List Nat) : Res (List Nat) := do
  let p ← T.sideAt r fs 0
  let re ← T.mfEdges p.1 (!p.2) none
  T.moreEdges (fs.dropLast.drop 1) re

/-- `MR_Edges_FN`, MR_Edge_Funcs_FN.c:20-390: the kind of element is read off the numbers of edges of
the faces (not the stored type). -/
def mrEdges (T : Topo) (r : Nat) : Res (List Nat) := do
  let fs ← T.rfaces r
  match fs.length with
  | 4 => do
    let ns ← T.faceSizes fs
    if allOfSize 3 ns then T.tetEdges r fs else T.polyEdges r fs
  | 5 => do
    let s ← T.findFaces fs 0 noneFound
    if s.nquads = 3 ∧ s.ntris = 2 then T.prismEdges r fs s
    else if s.nquads = 1 ∧ s.ntris = 4 then T.pyramidEdges r fs s
    else T.polyEdges r fs
  | 6 => do
    let ns ← T.faceSizes fs
    if allOfSize 4 ns then T.hexEdges r fs else T.polyEdges r fs
  | _ => T.polyEdges r fs

end Topo
end MSTK
