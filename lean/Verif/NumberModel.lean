import Verif.SortModel

/-!
Model of `src/util/Graph_renumber.c`: renumbering the nodes of a graph to reduce its bandwidth, as
`MESH_Renumber` does for vertices, edges, faces and regions.

Simplifications: `int` is unbounded; `malloc` does not fail; the neighbours of a node are read before the
loop over them (a read outside the array is undefined either way); messages are not modelled.
-/
namespace MSTK
namespace Num

/-- read of an array cell -/
def rd {α : Type} (A : List α) (i : Nat) : Res α := Res.ofOption A[i]?

/-- write of an array cell -/
def wr {α : Type} (A : List α) (i : Nat) (x : α) : Res (List α) := if i < A.length then .ok (A.set i x) else .ub

/-- The graph as the routines get it: `nnodes`, `nadj`, `adj`, `offset`. -/
structure G where
  n : Nat
  nadj : List Nat
  adj : List Nat
  off : List Nat

/-- `adj[off+j]` for `j = 0, …, nadj[node]-1` -/
def G.nbrs (g : G) (node : Nat) : Res (List Nat) := do
  let k ← rd g.nadj node
  let o ← rd g.off node
  if k = 0 then pure [] else if o + k ≤ g.adj.length then pure ((g.adj.drop o).take k) else .ub

/-- `offset`, Graph_renumber.c:64-67; `offset[0]` is written even when there is no node. -/
def offsetsFrom : Nat → List Nat → List Nat
  | _, [] => []
  | o, k :: ks => o :: offsetsFrom (o + k) ks

/-- `mstk_quicksort(A, key, 0, n-1)` for an array of node numbers -/
def sortNodes (key : List Int) (A : List Nat) : Res (List Nat) := do
  let B ← quicksort (some key) (A.length + 1) (A.map fun (a : Nat) => (a : Int)) 0 (A.length - 1)
  pure (B.map Int.toNat)

/-! ### levels -/

/-- `level[]`, `nodemap[]` (a cell that was never written is `none`) and `nnew` -/
structure Bfs where
  level : List Int
  map : List (Option Nat)
  nnew : Nat

/-- The loop over the neighbours of a node, Graph_renumber.c:146-158. -/
def visit (curlev : Int) : List Nat → Bfs → Res Bfs
  | [], s => .ok s
  | a :: as, s => do
    let l ← rd s.level a
    if l ≠ 0 then visit curlev as s
    else
      let level ← wr s.level a (curlev + 1)
      let map ← wr s.map s.nnew (some a)
      visit curlev as ⟨level, map, s.nnew + 1⟩

/-- The loop over the nodes in the order of `nodemap`, Graph_renumber.c:137-160; `k` rounds remain. -/
def bfsLoop (g : G) : Nat → Nat → Bfs → Res Bfs
  | 0, _, s => .ok s
  | k+1, i, s => do
    let c ← rd s.map i
    let cur ← Res.ofOption c
    let lev ← rd s.level cur
    let l ← g.nbrs cur
    let s ← visit lev l s
    bfsLoop g k (i+1) s

/-- number of nodes on a level, Graph_renumber.c:172-174 -/
def width (level : List Int) (i : Int) : Nat := level.countP fun l => decide (l = i)

/-- `*maxwidth`, Graph_renumber.c:170-176: the largest width of the levels `1, …, depth` -/
def maxWidth (level : List Int) : Nat → Nat
  | 0 => 0
  | d+1 => max (maxWidth level d) (width level (d+1))

/-- what `Graph_Build_LevelStructure` gives back: `nodemap`, `level`, `*depth`, `*maxwidth` -/
structure Levels where
  map : List (Option Nat)
  level : List Int
  depth : Int
  maxwidth : Nat

/-- `Graph_Build_LevelStructure`, Graph_renumber.c:120-178.  `map`: what is in the caller's `nodemap[]`
when it is called. -/
def buildLevels (g : G) (start : Nat) (map : List (Option Nat)) : Res Levels := do
  let map ← wr map 0 (some start)
  let level ← wr (List.replicate g.n 0) start 1
  let s ← bfsLoop g g.n 0 ⟨level, map, 1⟩
  if s.nnew ≠ g.n then .fatal
  else
    let c ← rd s.map (g.n - 1)
    let last ← Res.ofOption c
    let depth ← rd s.level last
    pure ⟨s.map, s.level, depth, maxWidth s.level depth.toNat⟩

/-! ### ends of a pseudo-diameter -/

/-- The nodes of the last level, from the end of `nodemap`, Graph_renumber.c:231-248; `k` cells remain. -/
def lastLevel (level : List Int) (map : List (Option Nat)) (depth : Int) : Nat → Res (List Nat)
  | 0 => .ok []
  | k+1 => do
    let c ← rd map k
    let node ← Res.ofOption c
    let l ← rd level node
    if l = depth then do
      let r ← lastLevel level map depth k
      pure (node :: r)
    else pure []

/-- The nodes up to and including the first with more neighbours than the first one has,
Graph_renumber.c:254-261. -/
def upTo (nadj : List Nat) (d : Nat) : List Nat → Res (List Nat)
  | [] => .ok []
  | x :: xs => do
    let k ← rd nadj x
    if d < k then pure [x]
    else
      let r ← upTo nadj d xs
      pure (x :: r)

def shrink (nadj : List Nat) : List Nat → Res (List Nat)
  | [] => .ok []
  | [x] => .ok [x]
  | x :: y :: xs => do
    let d ← rd nadj x
    let r ← upTo nadj d (y :: xs)
    pure (x :: r)

/-- result of trying the nodes of the last level: a deeper structure was found from a node, or `*n_end` -/
inductive Tried where
  | deeper (beg : Nat)
  | done (e : Option Nat)

/-- The loop over the nodes of the last level, Graph_renumber.c:266-283. -/
def tryAll (g : G) (curdepth : Int) : List Nat → Option Nat → Int → List (Option Nat) →
    Res (Tried × List (Option Nat))
  | [], e, _, map => .ok (.done e, map)
  | x :: xs, e, minw, map => do
    let L ← buildLevels g x map
    let (e, minw) := if (L.maxwidth : Int) < minw then (some x, (L.maxwidth : Int)) else (e, minw)
    if curdepth < L.depth then pure (.deeper x, L.map)
    else tryAll g curdepth xs e minw L.map

/-- `Graph_Find_ExtremalNodes`, Graph_renumber.c:199-296; `fuel` bounds the rounds of the `while` loop.
Gives `*n_beg` and `*n_end`. -/
def extremal (g : G) : Nat → Nat → Option Nat → List (Option Nat) → Res (Nat × Nat)
  | 0, _, _, _ => .hang
  | fuel+1, beg, e, map => do
    let L ← buildLevels g beg map
    let last ← lastLevel L.level L.map L.depth g.n
    let last ← sortNodes (g.nadj.map fun (k : Nat) => (k : Int)) last
    let last ← shrink g.nadj last
    let (t, map) ← tryAll g L.depth last e 1000000000 L.map
    match t with
    | .deeper b => extremal g fuel b e map
    | .done e => do
      let e ← Res.ofOption e
      pure (beg, e)

/-! ### levels of minimal width -/

/-- `w[lev-1]++` -/
def bump (w : List Int) (lev : Int) : Res (List Int) :=
  if 1 ≤ lev then do
    let x ← rd w (lev - 1).toNat
    wr w (lev - 1).toNat (x + 1)
  else .ub

/-- `level`, `baselevelwidth`, `unmarked_nodes` -/
structure Assign where
  level : List Int
  base : List Int
  unmarked : List Nat

/-- The nodes whose two levels are the same, Graph_renumber.c:364-373; `k` nodes from `i` on remain. -/
def settle (p0 p1 : List Int) : Nat → Nat → Assign → Res Assign
  | 0, _, s => .ok s
  | k+1, i, s => do
    let a ← rd p0 i
    let b ← rd p1 i
    if a = b then
      let level ← wr s.level i a
      let base ← bump s.base a
      settle p0 p1 k (i+1) { s with level := level, base := base }
    else settle p0 p1 k (i+1) { s with unmarked := s.unmarked ++ [i] }

/-- The loop over the neighbours of a node of the connected set, Graph_renumber.c:418-424; `cset` has room
for `cap` nodes. -/
def reach (level : List Int) (cap : Nat) : List Nat → List Nat → List Bool → Res (List Nat × List Bool)
  | [], cset, tag => .ok (cset, tag)
  | a :: as, cset, tag => do
    let l ← rd level a
    let t ← rd tag a
    if l = 0 ∧ t = false then
      if cset.length < cap then do
        let tag ← wr tag a true
        reach level cap as (cset ++ [a]) tag
      else .ub
    else reach level cap as cset tag

/-- The loop over the connected set, which grows, Graph_renumber.c:414-425.  `cset` never gets longer than
`cap`, so `cap+1` rounds are enough. -/
def connect (g : G) (level : List Int) (cap : Nat) : Nat → Nat → List Nat → List Bool → Res (List Nat)
  | 0, _, _, _ => .hang
  | fuel+1, j, cset, tag =>
    match cset[j]? with
    | none => .ok cset
    | some node => do
      let l ← g.nbrs node
      let p ← reach level cap l cset tag
      connect g level cap fuel (j+1) p.1 p.2

/-- The largest connected set, Graph_renumber.c:396-434: `tag[i]` is set for the place `i` of the node in
`unmarked_nodes`, not for the node. -/
def largest (g : G) (level : List Int) (cap : Nat) : List Nat → Nat → List Nat → Res (List Nat)
  | [], _, best => .ok best
  | u :: us, i, best => do
    let l ← rd level u
    if l = 0 then
      let tag ← wr (List.replicate g.n false) i true
      let c ← connect g level cap (cap+1) 0 [u] tag
      largest g level cap us (i+1) (if best.length < c.length then c else best)
    else largest g level cap us (i+1) best

/-- Adding the nodes of a set to the widths, Graph_renumber.c:446-461. -/
def widen (p : List Int) : List Nat → List Int → Res (List Int)
  | [], w => .ok w
  | x :: xs, w => do
    let lev ← rd p x
    let w ← bump w lev
    widen p xs w

/-- Giving the nodes of a set their level, Graph_renumber.c:478-494. -/
def setLevels (p : List Int) : List Nat → List Int → List Int → Res (List Int × List Int)
  | [], level, base => .ok (level, base)
  | x :: xs, level, base => do
    let lev ← rd p x
    let level ← wr level x lev
    let base ← bump base lev
    setLevels p xs level base

/-- the largest entry of an array, at least 0 -/
def maxOf (w : List Int) : Int := w.foldl max 0

/-- `unmarked_nodes` without the nodes that have a level now, Graph_renumber.c:497-502 -/
def compress (level : List Int) : List Nat → Res (List Nat)
  | [] => .ok []
  | x :: xs => do
    let l ← rd level x
    let r ← compress level xs
    pure (if l = 0 then x :: r else r)

/-- The `while` loop, Graph_renumber.c:393-506; `cap`: the room in `cset` and `maxcset`, the number of
unmarked nodes at the beginning. -/
def spread (g : G) (p0 p1 : List Int) (cap : Nat) (depth : Nat) : Nat → Assign → Res Assign
  | 0, _ => .hang
  | fuel+1, s => do
    let c ← largest g s.level cap s.unmarked 0 []
    if c = [] then pure s
    else
      let d1 ← widen p0 c (List.replicate depth 0)
      let d2 ← widen p1 c (List.replicate depth 0)
      let w1 := maxOf (List.zipWith (· + ·) s.base d1)
      let w2 := maxOf (List.zipWith (· + ·) s.base d2)
      let q ← setLevels (if w1 < w2 then p0 else p1) c s.level s.base
      let u ← compress q.1 s.unmarked
      spread g p0 p1 cap depth fuel ⟨q.1, q.2, u⟩

/-- `Graph_Assign_Levels_MinWidth`, Graph_renumber.c:316-525: gives `level` and `*maxwidth`; `*depth` is not
set.  The widths are copied from `zeros`, which has `nnodes` cells. -/
def assignLevels (g : G) (n1 nk : Nat) : Res (List Int × Int) := do
  let L1 ← buildLevels g n1 (List.replicate g.n none)
  let L2 ← buildLevels g nk L1.map
  let p1 := L2.level.map fun l => L2.depth + 1 - l
  if 0 ≤ L2.depth ∧ L2.depth ≤ g.n then do
    let s ← settle L1.level p1 g.n 0 ⟨List.replicate g.n 0, List.replicate L2.depth.toNat 0, []⟩
    let s ← spread g L1.level p1 s.unmarked.length L2.depth.toNat (g.n + 1) s
    pure (s.level, maxOf s.base)
  else .ub

/-! ### numbers -/

/-- `nodemap`, `tag`, `nnew`, `curlevnodes` -/
structure Numb where
  map : List Int
  tag : List Bool
  nnew : Nat
  cur : List Nat

/-- The numbered nodes of a level, Graph_renumber.c:583-589; `k` nodes from `i` on remain. -/
def numbered (level map : List Int) (lev : Int) : Nat → Nat → Res (List Nat)
  | 0, _ => .ok []
  | k+1, i => do
    let l ← rd level i
    let m ← rd map i
    let r ← numbered level map lev k (i+1)
    pure (if l = lev ∧ m ≠ -1 then i :: r else r)

/-- The neighbours without number in the same level, Graph_renumber.c:610-617; `nbrs_curlev` has room for
the largest number of neighbours of any node. -/
def sameNbrs (level map : List Int) (lev : Int) : List Nat → List Nat → List Bool → Res (List Nat × List Bool)
  | [], out, tag => .ok (out, tag)
  | a :: as, out, tag => do
    let l ← rd level a
    let m ← rd map a
    if l = lev ∧ m = -1 then do
      let tag ← wr tag a true
      sameNbrs level map lev as (out ++ [a]) tag
    else sameNbrs level map lev as out tag

/-- Numbering them and adding them to `curlevnodes`, which has room for `n` nodes,
Graph_renumber.c:626-633. -/
def numberSame (n : Nat) : List Nat → Numb → Res Numb
  | [], s => .ok s
  | a :: as, s => do
    let map ← wr s.map a s.nnew
    if s.cur.length < n then
      numberSame n as { s with map := map, nnew := s.nnew + 1, cur := s.cur ++ [a] }
    else .ub

/-- The `while` loop over `curlevnodes`, Graph_renumber.c:599-636.  `continue` without `i++` would go round
for ever.  `curlevnodes` never gets longer than `n`, so `n+1` rounds are enough. -/
def sameLevel (g : G) (level : List Int) (lev : Int) : Nat → Nat → Numb → Res Numb
  | 0, _, _ => .hang
  | fuel+1, i, s =>
    match s.cur[i]? with
    | none => .ok s
    | some node => do
      let m ← rd s.map node
      if m = -1 then .hang
      else
        let l ← g.nbrs node
        let p ← sameNbrs level s.map lev l [] s.tag
        let o ← sortNodes (g.nadj.map fun (k : Nat) => (k : Int)) p.1
        let s ← numberSame g.n o { s with tag := p.2 }
        sameLevel g level lev fuel (i+1) s

/-- The neighbours in the next level that are not tagged, Graph_renumber.c:647-654. -/
def nextNbrs (level : List Int) (lev : Int) : List Nat → List Nat → List Bool → Res (List Nat × List Bool)
  | [], out, tag => .ok (out, tag)
  | a :: as, out, tag => do
    let l ← rd level a
    let t ← rd tag a
    if l = lev + 1 ∧ t = false then do
      let tag ← wr tag a true
      nextNbrs level lev as (out ++ [a]) tag
    else nextNbrs level lev as out tag

/-- Numbering them, Graph_renumber.c:662-665. -/
def numberNext : List Nat → Numb → Res Numb
  | [], s => .ok s
  | a :: as, s => do
    let map ← wr s.map a s.nnew
    numberNext as { s with map := map, nnew := s.nnew + 1 }

/-- The loop over `curlevnodes`, Graph_renumber.c:641-667. -/
def nextLevel (g : G) (level : List Int) (lev : Int) : List Nat → Numb → Res Numb
  | [], s => .ok s
  | node :: rest, s => do
    let l ← g.nbrs node
    let p ← nextNbrs level lev l [] s.tag
    let o ← sortNodes (g.nadj.map fun (k : Nat) => (k : Int)) p.1
    let s ← numberNext o { s with tag := p.2 }
    nextLevel g level lev rest s

/-- The levels one by one, Graph_renumber.c:579-668; `k` levels from `lev` on remain. -/
def marchLevels (g : G) (level : List Int) : Nat → Int → Numb → Res Numb
  | 0, _, s => .ok s
  | k+1, lev, s => do
    let c ← numbered level s.map lev g.n 0
    let c ← sortNodes s.map c
    let s ← sameLevel g level lev (g.n + 1) 0 { s with cur := c }
    let s ← nextLevel g level lev s.cur s
    marchLevels g level k (lev + 1) s

/-- `Graph_Assign_Numbers`, Graph_renumber.c:538-674: gives `nodemap`. -/
def assignNumbers (g : G) (beg e : Nat) (level : List Int) : Res (List Int) := do
  let depth := maxOf level
  let de ← rd g.nadj e
  let db ← rd g.nadj beg
  let (beg, level) := if de < db then (e, level.map fun l => depth - l + 1) else (beg, level)
  let map ← wr (List.replicate g.n (-1)) beg 0
  let tag ← wr (List.replicate g.n false) beg true
  let s ← marchLevels g level depth.toNat 1 ⟨map, tag, 1, []⟩
  pure s.map

/-- `Graph_Renumber_GPS`, Graph_renumber.c:43-104: gives `nodemap` and `*maxwidth`; `*depth` is not set.  The
rounds of the search for the ends are bounded by the number of nodes (see the theorems). -/
def renumberGPS (nnodes start : Nat) (nadj adj : List Nat) : Res (List Int × Int) := do
  if nnodes = 0 then .ub
  else
    let g : G := ⟨nnodes, nadj, adj, offsetsFrom 0 nadj⟩
    let p ← extremal g (nnodes + 1) start none (List.replicate nnodes none)
    let q ← assignLevels g p.1 p.2
    let m ← assignNumbers g p.1 p.2 q.1
    pure (m, q.2)

/-! ### MESH_Renumber, vertices -/

/-- The vertex to start with, MESH_Renumber.c:100-112: the last one none of whose coordinates is larger than
those of the vertex chosen before; coordinates are integers here. -/
def corner : List (Int × Int × Int) → Nat → (Int × Int × Int) → Option Nat → Option Nat
  | [], _, _, v => v
  | c :: cs, i, m, v =>
    if c.1 ≤ m.1 ∧ c.2.1 ≤ m.2.1 ∧ c.2.2 ≤ m.2.2 then corner cs (i+1) c (some i) else corner cs (i+1) m v

/-- The vertices of the elements around vertex `v`, MESH_Renumber.c:130-151 and 185-206: `marked`: the
marked vertices (the attribute `mkatt` is 1). -/
def gather (v : Nat) : List Nat → List Nat → List Nat → List Nat × List Nat
  | [], row, marked => (row, marked)
  | a :: as, row, marked =>
    if a ≠ v ∧ a ∉ marked then gather v as (row ++ [a]) (a :: marked) else gather v as row marked

/-- The loop over the vertices, MESH_Renumber.c:118-227.  `around`: for each vertex the vertices of each
element around it, in the order `MV_Faces` (or `MV_Regions`) gives the elements.  The IDs are 1, 2, … in the
order of the vertices, so that `MV_ID(adjv)-1` is the place of the vertex.  With `MSTK_USE_MARKERS`
(`markers`) the vertices are unmarked after each vertex; otherwise `mkatt` stays 1. -/
def gatherAll (markers : Bool) : List (List (List Nat)) → Nat → List Nat → List (List Nat)
  | [], _, _ => []
  | els :: rest, v, marked =>
    (gather v els.flatten [] marked).1 ::
      gatherAll markers rest (v+1) (if markers then [] else (gather v els.flatten [] marked).2)

/-- The inner loop of the bandwidth, MESH_Renumber.c:243-249 and 274-280: the largest difference and the sum. -/
def bwRow (num : List Int) (cur : Int) : List Nat → Nat × Nat → Res (Nat × Nat)
  | [], p => .ok p
  | a :: as, p => do
    let x ← rd num a
    bwRow num cur as (max p.1 (x - cur).natAbs, p.2 + (x - cur).natAbs)

/-- The bandwidth, MESH_Renumber.c:238-252 and 269-283; the sum instead of the average (the number of
connections is the same before and after). -/
def bandwidth (num : List Int) : List (List Nat) → Nat → Nat × Nat → Res (Nat × Nat)
  | [], _, p => .ok p
  | r :: rs, i, p => do
    let c ← rd num i
    let p ← bwRow num c r p
    bandwidth num rs (i+1) p

/-- `MESH_Renumber(mesh, 1, MVERTEX)`, MESH_Renumber.c:84-318: gives the IDs of the vertices after the call,
in their order. -/
def renumberVerts (markers : Bool) (coords : List (Int × Int × Int)) (around : List (List (List Nat))) : Res (List Int) := do
  let rows := gatherAll markers around 0 []
  let b1 ← bandwidth ((List.range rows.length).map fun (i : Nat) => (i : Int)) rows 0 (0, 0)
  let v0 ← Res.ofOption (corner coords 0 (1000000000000, 1000000000000, 1000000000000) none)
  let p ← renumberGPS rows.length v0 (rows.map List.length) rows.flatten
  let b2 ← bandwidth p.1 rows 0 (0, 0)
  if b2.1 < b1.1 ∧ b2.2 < b1.2 then pure (p.1.map (· + 1))
  else pure ((List.range rows.length).map fun (i : Nat) => (i : Int) + 1)

end Num
end MSTK
