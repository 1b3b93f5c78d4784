import Verif.TopoQuery

/-!
Model of `MESH_GetElementGraph` (src/hilev/MESH_GetElementGraph.c): the adjacency graph of the
elements of a mesh as partitioners and renumbering tools want it.

Simplifications: `int` is unbounded, `malloc` and `realloc` do not fail, the lists that are not
freed when `continue` is executed (lines 46 and 87) are not modelled.
-/
namespace MSTK
namespace Topo

/-- The array `*adjelems`: its size `nalloc` and the `pos` entries written so far. -/
structure Buf where
  cap : Nat
  out : List Int

/-- The graph handed to the caller: `nelems`, `adjbeg`, `adjelems` up to `adjbeg[nelems]`. -/
structure Graph where
  n : Nat
  beg : List Nat
  adj : List Int
  deriving DecidableEq

/-- Writing an entry in the branch for regions, MESH_GetElementGraph.c:53-58.  When the array is
full, `realloc` is called with `adjelems`, the address of the caller's variable, which no `malloc`
has returned: undefined. -/
def Buf.put3 (b : Buf) (x : Int) : Res Buf :=
  if b.out.length = b.cap then .ub
  else if b.out.length < b.cap then .ok { b with out := b.out ++ [x] }
  else .ub

/-- Writing an entry in the branch for faces, MESH_GetElementGraph.c:94-99. -/
def Buf.put2 (b : Buf) (x : Int) : Res Buf :=
  let cap := if b.out.length = b.cap then b.cap * 2 else b.cap
  if b.out.length < cap then .ok { cap := cap, out := b.out ++ [x] } else .ub

/-- `oppr`: the second region of the list when the first is `mr`, otherwise the first,
MESH_GetElementGraph.c:48-52. -/
def oppr (l : List Nat) (r : Nat) : Option Nat := if l[0]? = some r then l[1]? else l[0]?

/-- The faces of a region, MESH_GetElementGraph.c:44-61. -/
def nbrs3 (T : Topo) (rid : Nat → Int) (r : Nat) : List Nat → Buf → Res Buf
  | [], b => .ok b
  | f :: fs, b => do
    let L ← T.mfRegions f
    let l ← Res.ofOption L
    if l.length = 1 then nbrs3 T rid r fs b
    else
      let o ← Res.ofOption (oppr l r)
      T.derefR o
      let b ← b.put3 (rid o - 1)
      nbrs3 T rid r fs b

/-- The regions, MESH_GetElementGraph.c:38-65. -/
def loop3 (T : Topo) (rid : Nat → Int) : List Nat → List Nat → Buf → Res (List Nat × Buf)
  | [], beg, b => .ok (beg ++ [b.out.length], b)
  | r :: rs, beg, b => do
    let l ← T.mrFaces r
    let b' ← T.nbrs3 rid r l b
    loop3 T rid rs (beg ++ [b.out.length]) b'

/-- The faces around an edge, MESH_GetElementGraph.c:90-101. -/
def around (T : Topo) (fid : Nat → Int) (f : Nat) : List Nat → Buf → Res Buf
  | [], b => .ok b
  | g :: gs, b =>
    if g ≠ f then do
      T.derefF g
      let b ← b.put2 (fid g - 1)
      around T fid f gs b
    else around T fid f gs b

/-- The edges of a face, MESH_GetElementGraph.c:84-103. -/
def nbrs2 (T : Topo) (fid : Nat → Int) (f : Nat) : List Nat → Buf → Res Buf
  | [], b => .ok b
  | e :: es, b => do
    let L ← T.meFaces e
    let l ← Res.ofOption L
    if l.length = 1 then nbrs2 T fid f es b
    else
      let b ← T.around fid f l b
      nbrs2 T fid f es b

/-- The faces, MESH_GetElementGraph.c:79-107. -/
def loop2 (T : Topo) (fid : Nat → Int) : List Nat → List Nat → Buf → Res (List Nat × Buf)
  | [], beg, b => .ok (beg ++ [b.out.length], b)
  | f :: fs, beg, b => do
    let l ← T.mfEdges f true none
    let b' ← T.nbrs2 fid f l b
    loop2 T fid fs (beg ++ [b.out.length]) b'

/-- `MESH_GetElementGraph`, MESH_GetElementGraph.c:21-109.  `fl`, `rl`: the faces and regions of the
mesh in the order of `MESH_Next_Face`, `MESH_Next_Region`; `fid`, `rid`: their IDs. -/
def elementGraph (T : Topo) (fl rl : List Nat) (fid rid : Nat → Int) : Res Graph :=
  if rl.length ≠ 0 then do
    let p ← T.loop3 rid rl [] ⟨4 * rl.length, []⟩
    pure ⟨rl.length, p.1, p.2.out⟩
  else do
    let p ← T.loop2 fid fl [] ⟨4 * fl.length, []⟩
    pure ⟨fl.length, p.1, p.2.out⟩

end Topo
end MSTK
