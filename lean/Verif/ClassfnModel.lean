import Verif.TopoQuery

/-!
Model of `MESH_BuildClassfn` with `use_geometry` = 0 (src/hilev/MESH_BuildClassfn.c:34-89 with
MESH_BuildFaceClassfn.c, MESH_BuildEdgeClassfn.c and MESH_BuildVertexClassfn.c): from the model regions of
the mesh regions, the model faces, edges and vertices on which the other entities lie are worked out.

The classification of an entity is the pair (`GEntDim`, `GEntID`).  IDs are C `int`s; the model uses `Int`
and ignores the overflow of the largest ID.  The part for `use_geometry` = 1
(MESH_BuildFaceClassfn.c:188-end, MESH_BuildEdgeClassfn.c:358-end) is not modelled.  Entities are given in
the order of `MESH_Next_Vertex` etc.
-/
namespace MSTK
namespace Topo

/-- What a mesh entity lies on: dimension and ID of the model entity. -/
abbrev GEnt := Nat × Int

/-- What each of the vertices, edges, faces and regions lies on. -/
structure Classfn where
  v : Nat → GEnt
  e : Nat → GEnt
  f : Nat → GEnt
  r : Nat → GEnt

/-- The arrays `gfids` and `gfregids` (`geids` and `gefaceids`, `gvids` and `gvedgeids`) and the largest ID:
for every known model entity its ID and the IDs of the model entities around it. -/
structure Known where
  ents : List (Int × List Int)
  top : Int
  deriving DecidableEq

/-- Loop over the table up to the first entry for which `m` holds; its ID, or if there is none a new ID
that is entered in the table with `k` (MESH_BuildFaceClassfn.c:160-183, MESH_BuildEdgeClassfn.c:248-279,
295-349, MESH_BuildVertexClassfn.c:232-263, 280-334). -/
def Known.find (t : Known) (m : List Int → Bool) (k : List Int) : Int × Known :=
  match t.ents.find? (fun p => m p.2) with
  | some p => (p.1, t)
  | none => (t.top + 1, ⟨t.ents ++ [(t.top + 1, k)], t.top + 1⟩)

/-- A new ID is used but `ngedges`/`ngverts` is not increased, so that the entry is overwritten
(MESH_BuildEdgeClassfn.c:149-160, MESH_BuildVertexClassfn.c:115-126, 173-174). -/
def Known.skip (t : Known) : Int × Known := (t.top + 1, ⟨t.ents, t.top + 1⟩)

/-- The second loop of the three functions: what is around each entity is looked up and the entity
classified anew. -/
def classLoop (look : Nat → Res (List GEnt)) (step : GEnt → List GEnt → Known → GEnt × Known) :
    List Nat → (Nat → GEnt) → Known → Res ((Nat → GEnt) × Known)
  | [], c, t => .ok (c, t)
  | x :: xs, c, t => do
    let d ← look x
    classLoop look step xs (upd c x (step (c x) d t).1) (step (c x) d t).2

/-- The list or nothing (NULL). -/
def entries (l : Option (List Nat)) : List Nat := l.getD []

/-! ### Regions -/

/-- MESH_BuildClassfn.c:47-58: the largest ID and whether there is an ID 0. -/
def regionScan (c : Nat → GEnt) : List Nat → Int → Bool → Int × Bool
  | [], m, z => (m, z)
  | r :: rs, m, z =>
    if (c r).2 ≠ 0 then regionScan c rs (if (c r).2 > m then (c r).2 else m) z
    else regionScan c rs m true

/-- MESH_BuildClassfn.c:61-67. -/
def regionFill (m : Int) : List Nat → (Nat → GEnt) → Nat → GEnt
  | [], c => c
  | r :: rs, c => regionFill m rs (if (c r).2 ≤ 0 then upd c r ((c r).1, m + 1) else c)

/-- MESH_BuildClassfn.c:47-68. -/
def regionClassfn (rl : List Nat) (c : Nat → GEnt) : Nat → GEnt :=
  let p := regionScan c rl 0 false
  if p.2 then regionFill p.1 rl c else c

/-! ### Faces -/

/-- The model regions of the regions of a face (MESH_BuildFaceClassfn.c:92-105, 127-142). -/
def faceLook (T : Topo) (cr : Nat → GEnt) (f : Nat) : Res (List GEnt) := do
  let l ← T.mfRegions f
  pure ((entries l).map cr)

/-- `grid0`, `grid1` (MESH_BuildFaceClassfn.c:125-142). -/
def pairIDs (d : List GEnt) : Int × Int :=
  ((d[0]?.map Prod.snd).getD 0, if d.length = 2 then (d[1]?.map Prod.snd).getD 0 else 0)

/-- MESH_BuildFaceClassfn.c:61-111: the model faces already known. -/
def faceStock (T : Topo) (cr cf : Nat → GEnt) : List Nat → Known → Res Known
  | [], t => .ok t
  | f :: fs, t =>
    if (cf f).1 ≠ 2 then faceStock T cr cf fs t
    else if (cf f).2 = 0 then faceStock T cr cf fs t
    else if t.ents.any (fun p => p.1 == (cf f).2) then faceStock T cr cf fs t
    else do
      let d ← T.faceLook cr f
      faceStock T cr cf fs
        ⟨t.ents ++ [((cf f).2, [(pairIDs d).1, (pairIDs d).2])], if (cf f).2 > t.top then (cf f).2 else t.top⟩

/-- The comparison of MESH_BuildFaceClassfn.c:161-162. -/
def samePair (a b : Int) (k : List Int) : Bool :=
  (k[0]? == some a && k[1]? == some b) || (k[0]? == some b && k[1]? == some a)

/-- MESH_BuildFaceClassfn.c:119-185. -/
def faceStep (g : GEnt) (d : List GEnt) (t : Known) : GEnt × Known :=
  let p := pairIDs d
  if d.length = 2 ∧ p.1 = p.2 then ((3, p.1), t)
  else if g.1 > 2 ∨ (g.1 = 2 ∧ g.2 ≤ 0) then
    let q := t.find (samePair p.1 p.2) [p.1, p.2]
    ((2, q.1), q.2)
  else (g, t)

/-- `MESH_BuildFaceClassfn`, MESH_BuildFaceClassfn.c:30-186. -/
def faceClassfn (T : Topo) (fl : List Nat) (cr cf : Nat → GEnt) : Res (Nat → GEnt) := do
  let t ← T.faceStock cr cf fl ⟨[], 0⟩
  let p ← classLoop (T.faceLook cr) faceStep fl cf t
  pure p.1

/-! ### Edges -/

/-- What the faces of an edge lie on (MESH_BuildEdgeClassfn.c:130-131, 171-178). -/
def edgeLook (T : Topo) (cf : Nat → GEnt) (e : Nat) : Res (List GEnt) := do
  let l ← T.meFaces e
  pure ((entries l).map cf)

/-- IDs of the entries of dimension `k` (MESH_BuildEdgeClassfn.c:93-100, 171-178 and
MESH_BuildVertexClassfn.c:73-80, 136-143). -/
def idsOn (k : Nat) (d : List GEnt) : List Int := (d.filter (fun g => g.1 == k)).map Prod.snd

/-- MESH_BuildEdgeClassfn.c:58-109: the model edges already known.  `List_Num_Entries` of the NULL list of
an edge without faces is undefined. -/
def edgeStock (T : Topo) (cf ce : Nat → GEnt) : List Nat → Known → Res Known
  | [], t => .ok t
  | e :: es, t =>
    if (ce e).1 ≠ 1 then edgeStock T cf ce es t
    else if (ce e).2 = 0 then edgeStock T cf ce es t
    else if t.ents.any (fun p => p.1 == (ce e).2) then edgeStock T cf ce es t
    else do
      match ← T.meFaces e with
      | none => .ub
      | some l =>
        edgeStock T cf ce es
          ⟨t.ents ++ [((ce e).2, idsOn 2 (l.map cf))], if (ce e).2 > t.top then (ce e).2 else t.top⟩

/-- The comparison of MESH_BuildEdgeClassfn.c:249-255 and MESH_BuildVertexClassfn.c:233-239. -/
def sameTwo (a b : Int) (k : List Int) : Bool := k.length == 2 && samePair a b k

/-- The comparison of MESH_BuildEdgeClassfn.c:296-328 and MESH_BuildVertexClassfn.c:281-313: as many IDs,
and every one is found in the entry.  (`n` is not 0.) -/
def sameMany (l : List Int) (k : List Int) : Bool := l.length == k.length && l.all (fun a => k.contains a)

/-- The comparison of MESH_BuildEdgeClassfn.c:203-207: the first ID is compared with the number of IDs of
the entry, and this number with the first ID of the entry. -/
def sameSharp (a : Int) (k : List Int) : Bool := k.length == 2 && a == 2 && k[0]? == some 2

/-- MESH_BuildEdgeClassfn.c:124-353. -/
def edgeStep (g : GEnt) (d : List GEnt) (t : Known) : GEnt × Known :=
  if d.length = 0 then
    match t.ents.find? (fun p => p.2.length == 0) with
    | some p => ((1, p.1), t)
    | none => ((1, t.skip.1), t.skip.2)
  else
    match idsOn 2 d with
    | [] => ((3, (d[0]?.map Prod.snd).getD 0), t)
    | [a, b] =>
      if a = b then
        if g.1 = 1 then
          let q := t.find (sameSharp a) [a, b]
          ((1, q.1), q.2)
        else ((2, a), t)
      else
        let q := t.find (sameTwo a b) [a, b]
        ((1, q.1), q.2)
    | l =>
      let q := t.find (sameMany l) l
      ((1, q.1), q.2)

/-- `MESH_BuildEdgeClassfn`, MESH_BuildEdgeClassfn.c:31-355. -/
def edgeClassfn (T : Topo) (el : List Nat) (cf ce : Nat → GEnt) : Res (Nat → GEnt) := do
  let t ← T.edgeStock cf ce el ⟨[], 0⟩
  let p ← classLoop (T.edgeLook cf) edgeStep el ce t
  pure p.1

/-! ### Vertices -/

/-- What the edges of a vertex lie on (MESH_BuildVertexClassfn.c:107-108, 136-143). -/
def vertexLook (T : Topo) (ce : Nat → GEnt) (v : Nat) : Res (List GEnt) := do
  let l ← T.mvEdges v
  pure ((entries l).map ce)

/-- MESH_BuildVertexClassfn.c:49-86: the model vertices already known; an ID is entered again for every
mesh vertex that has it. -/
def vertexStock (T : Topo) (ce cv : Nat → GEnt) : List Nat → Known → Res Known
  | [], t => .ok t
  | v :: vs, t =>
    if (cv v).1 ≠ 0 then vertexStock T ce cv vs t
    else if (cv v).2 = 0 then vertexStock T ce cv vs t
    else do
      let d ← T.vertexLook ce v
      vertexStock T ce cv vs
        ⟨t.ents ++ [((cv v).2, idsOn 1 d)], if (cv v).2 > t.top then (cv v).2 else t.top⟩

/-- MESH_BuildVertexClassfn.c:153-163: `gfid` and `multiple_gfids` after the loop over the edges on model
faces. -/
def faceIDs : List Int → Int → Bool → Int × Bool
  | [], g, m => (g, m)
  | a :: as, g, m => faceIDs as a (if g ≠ 0 ∧ a ≠ g then true else m)

/-- MESH_BuildVertexClassfn.c:101-338. -/
def vertexStep (g : GEnt) (d : List GEnt) (t : Known) : GEnt × Known :=
  if d.length = 0 then ((0, t.skip.1), t.skip.2)
  else
    match idsOn 1 d with
    | [] =>
      if (idsOn 2 d).length ≠ 0 then
        if (faceIDs (idsOn 2 d) 0 false).2 then ((0, t.skip.1), t.skip.2)
        else ((2, (faceIDs (idsOn 2 d) 0 false).1), t)
      else ((3, (d[0]?.map Prod.snd).getD 0), t)
    | [a, b] =>
      if a = b then
        if g.1 = 0 then ((0, t.top + 1), ⟨t.ents ++ [(t.top + 1, [a, b])], t.top + 1⟩)
        else ((1, a), t)
      else
        let q := t.find (sameTwo a b) [a, b]
        ((0, q.1), q.2)
    | l =>
      let q := t.find (sameMany l) l
      ((0, q.1), q.2)

/-- `MESH_BuildVertexClassfn`, MESH_BuildVertexClassfn.c:28-349. -/
def vertexClassfn (T : Topo) (vl : List Nat) (ce cv : Nat → GEnt) : Res (Nat → GEnt) := do
  let t ← T.vertexStock ce cv vl ⟨[], 0⟩
  let p ← classLoop (T.vertexLook ce) vertexStep vl cv t
  pure p.1

/-- `MESH_BuildClassfn`, MESH_BuildClassfn.c:34-89. -/
def buildClassfn (T : Topo) (vl el fl rl : List Nat) (c : Classfn) : Res Classfn := do
  let cr := regionClassfn rl c.r
  let cf ← T.faceClassfn fl cr c.f
  let ce ← T.edgeClassfn el cf c.e
  let cv ← T.vertexClassfn vl ce c.v
  pure ⟨cv, ce, cf, cr⟩

end Topo
end MSTK
