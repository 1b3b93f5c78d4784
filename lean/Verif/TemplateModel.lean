import Verif.Res
/-!
Standard element tables (include/MSTK_globals.h:23-80) and the element type of a region
(src/base/MR_Face_Funcs_FNR3R4.c:766-833).

The tables are copied literally, padding included.
-/
namespace MSTK

/-- include/MSTK_types.h:68 `MRType`.  The C enumerators are `RUNKNOWN=0, TET=1, PYRAMID=2, PRISM=3,
HEX=4, POLYHED=5` (`RDELETED=-1` never comes out of the function modelled here). -/
inductive MRType where
  | runknown | tet | pyramid | prism | hex | polyhed
  deriving DecidableEq, Repr

/-- The value of the C enumerator, include/MSTK_types.h:68. -/
def MRType.code : MRType → Nat
  | .runknown => 0 | .tet => 1 | .pyramid => 2 | .prism => 3 | .hex => 4 | .polyhed => 5

namespace Tmpl

/-- MSTK_globals.h:25-26 `MSTK_nv2rtype`. -/
def nv2rtype : List MRType :=
  [.runknown, .runknown, .runknown, .runknown, .tet, .pyramid, .prism, .runknown, .hex]

/-- MSTK_globals.h:29 `MSTK_nrf_template`. -/
def nrf : List Int := [0,4,5,5,6]

/-- MSTK_globals.h:32 `MSTK_nre_template`. -/
def nre : List Int := [0,6,8,9,12]

/-- MSTK_globals.h:35-46 `MSTK_rfv_template`. -/
def rfv : List (List (List Int)) :=
  [[[0,-1,-1,-1,-1],[0,-1,-1,-1,-1],[0,-1,-1,-1,-1],[0,-1,-1,-1,-1],
    [0,-1,-1,-1,-1],[0,-1,-1,-1,-1]],
   [[3,0,2,1,-1],[3,0,1,3,-1],[3,1,2,3,-1],[3,0,3,2,-1],[0,-1,-1,-1,-1],
    [0,-1,-1,-1,-1]],
   [[4,0,3,2,1],[3,0,1,4,-1],[3,1,2,4,-1],[3,2,3,4,-1],[3,3,0,4,-1],
    [0,-1,-1,-1,-1]],
   [[3,0,2,1,-1],[3,3,4,5,-1],[4,0,1,4,3],[4,1,2,5,4],[4,2,0,3,5],
    [0,-1,-1,-1,-1]],
   [[4,0,3,2,1],[4,4,5,6,7],[4,0,1,5,4],[4,1,2,6,5],[4,2,3,7,6],
    [4,3,0,4,7]]]

/-- MSTK_globals.h:49-51 `MSTK_rfdir_template`. -/
def rfdir : List (List Int) :=
  [[-1,-1,-1,-1,-1,-1],[1,1,1,1,-1,-1],[1,1,1,1,1,-1],[1,1,1,1,1,-1],
   [1,1,1,1,1,1]]

/-- MSTK_globals.h:54-59 `MSTK_rfe_template`. -/
def rfe : List (List (List Int)) :=
  [[[0,-99,-99,-99,-99],[0,-99,-99,-99,-99],[0,-99,-99,-99,-99],[0,-99,-99,-99,-99],[0,-99,-99,-99,-99],[0,-99,-99,-99,-99]],
   [[3,  2,  1,  0,-99],[3,  0,  4,  3,-99],[3,  1,  5,  4,-99],[3,  2,  3,  5,-99],[0,-99,-99,-99,-99],[0,-99,-99,-99,-99]],
   [[4,  3,  2,  1,  0],[3,  0,  5,  4,-99],[3,  1,  6,  5,-99],[3,  2,  7,  6,-99],[3,  3,  4,  7,-99],[0,-99,-99,-99,-99]],
   [[3,  2,  1,  0,-99],[3,  3,  4,  5,-99],[4,  0,  7,  3, 6],[4,  1,  8,  4,  7],[4,  2,  6,  5,  8],[0,-99,-99,-99,-99]],
   [[4,  3,  2,  1,  0],[4,  4,  5,  6,  7],[4,  0,  9,  4, 8],[4,  1, 10,  5,  9],[4,  2, 11,  6, 10],[4,  3,  8,  7, 11]]]

/-- MSTK_globals.h:61-66 `MSTK_rfedir_template`. -/
def rfedir : List (List (List Int)) :=
  [[[0,-1,-1,-1,-1],    [0,-1,-1,-1,-1],    [0,-1,-1,-1,-1],    [0,-1,-1,-1,-1],    [0,-1,-1,-1,-1],    [0,-1,-1,-1,-1]],
   [[3, 0, 0, 0,-1],    [3, 1, 1, 0,-1],    [3, 1, 1, 0,-1],    [3, 1, 1, 0,-1],    [0,-1,-1,-1,-1],    [0,-1,-1,-1,-1]],
   [[4, 0, 0, 0, 0],    [3, 1, 1, 0,-1],    [3, 1, 1, 0,-1],    [3, 1, 1, 0,-1],    [3, 1, 1, 0,-1],    [0,-1,-1,-1,-1]],
   [[3, 0, 0, 0,-1],    [3, 1, 1, 1,-1],    [4, 1, 1, 0, 0],    [4, 1, 1, 0, 0],    [4, 1, 1, 0, 0],    [0,-1,-1,-1,-1]],
   [[4, 0, 0, 0, 0],    [4, 1, 1, 1, 1],    [4, 1, 1, 0, 0],    [4, 1, 1, 0, 0],    [4, 1, 1, 0, 0],    [4, 1, 1, 0, 0]]]

/-- MSTK_globals.h:70-80 `MSTK_rev_template`. -/
def rev : List (List (List Int)) :=
  [[[-99,-99],[-99,-99],[-99,-99],[-99,-99],[-99,-99],[-99,-99],
    [-99,-99],[-99,-99],[-99,-99],[-99,-99],[-99,-99],[-99,-99]],
   [[0,1],[1,2],[2,0],[0,3],[1,3],[2,3],[-99,-99],[-99,-99],[-99,-99],
    [-99,-99],[-99,-99],[-99,-99]],
   [[0,1],[1,2],[2,3],[3,0],[0,4],[1,4],[2,4],[3,4],[-99,-99],[-99,-99],
    [-99,-99],[-99,-99]],
   [[0,1],[1,2],[2,0],[3,4],[4,5],[5,3],[0,3],[1,4],[2,5],[-99,-99],
    [-99,-99],[-99,-99]],
   [[0,1],[1,2],[2,3],[3,0],[4,5],[5,6],[6,7],[7,4],[0,4],[1,5],[2,6],
    [3,7]]]

/-- Read of a one-dimensional table; `none` is an access outside the array. -/
def at1 (t : List Int) (i : Nat) : Option Int := t[i]?
/-- Read of a two-dimensional table. -/
def at2 (t : List (List Int)) (i j : Nat) : Option Int := do (← t[i]?)[j]?
/-- Read of a three-dimensional table. -/
def at3 (t : List (List (List Int))) (i j k : Nat) : Option Int := do at1 (← (← t[i]?)[j]?) k

/-- `n` entries after the leading count of row `[t][i]`, as every user of the tables reads them
(e.g. MR_Face_Funcs_FNR3R4.c:302-305, MR_Face_Funcs_R1.c:101-104). -/
def row (t : List (List (List Int))) (ty i : Nat) : Option (List Int) := do
  let n ← at3 t ty i 0
  (List.range n.toNat).mapM fun j => at3 t ty i (j+1)

/-- The faces of a standard element as vertex cycles, numbering `0..nrf-1`
(MR_Face_Funcs_R1.c:95-107: `nf = MSTK_nrf_template[regtype]`, row of `MSTK_rfv_template`). -/
def faces (ty : MRType) : Option (List (List Int)) := do
  let nf ← at1 nrf ty.code
  (List.range nf.toNat).mapM fun i => row rfv ty.code i

/-- The edges of a standard element as vertex pairs (MR_Face_Funcs_FNR3R4.c:222-235). -/
def edges (ty : MRType) : Option (List (Int × Int)) := do
  let ne ← at1 nre ty.code
  (List.range ne.toNat).mapM fun i => do
    return (← at3 rev ty.code i 0, ← at3 rev ty.code i 1)

/-- The edges and edge directions of each face (MR_Face_Funcs_FNR3R4.c:302-306). -/
def faceEdges (ty : MRType) : Option (List (List (Int × Int))) := do
  let nf ← at1 nrf ty.code
  (List.range nf.toNat).mapM fun i => do
    return (← row rfe ty.code i).zip (← row rfedir ty.code i)

/-- The direction in which the element uses each of its faces
(MR_Face_Funcs_FNR3R4.c:319 `rfdirs[i] = MSTK_rfdir_template[mrtype][i]`). -/
def faceDirs (ty : MRType) : Option (List Int) := do
  let nf ← at1 nrf ty.code
  (List.range nf.toNat).mapM fun i => at2 rfdir ty.code i

/-- The standard element chosen for `nv` vertices when no template is passed to `MR_Set_Vertices`
(MR_Face_Funcs_FNR3R4.c:193-216): 4 -> TET, 5 -> PYRAMID, 6 -> PRISM, 8 -> HEX with `nf` faces;
anything else is `MSTK_FATAL`. -/
def setVerticesType (nv : Nat) : Res (MRType × Int) :=
  match nv with
  | 4 => .ok (.tet, 4)
  | 5 => .ok (.pyramid, 5)
  | 6 => .ok (.prism, 5)
  | 8 => .ok (.hex, 6)
  | _ => .fatal

end Tmpl

/-- `for (i...) if (MF_Num_Vertices(face i) != n) { all = 0; break; }`
(MR_Face_Funcs_FNR3R4.c:780-785 and 816-821). -/
def allOfSize (n : Nat) : List Nat → Bool
  | [] => true
  | k :: rest => if k ≠ n then false else allOfSize n rest

/-- The counting loop of MR_Face_Funcs_FNR3R4.c:797-803; returns `(ntris, nquads)`. -/
def countTriQuad : List Nat → Nat → Nat → Nat × Nat
  | [], t, q => (t, q)
  | k :: rest, t, q =>
    if k = 3 then countTriQuad rest (t+1) q
    else if k = 4 then countTriQuad rest t (q+1)
    else countTriQuad rest t q

/-- `MR_Update_ElementType_FNR3R4`, MR_Face_Funcs_FNR3R4.c:766-833.  The argument is the list of
`MF_Num_Vertices` of the region's faces in order. -/
def elementType (sizes : List Nat) : MRType :=
  match sizes.length with
  | 0 | 1 | 2 | 3 => .runknown
  | 4 => if allOfSize 3 sizes then .tet else .polyhed
  | 5 =>
    let c := countTriQuad sizes 0 0
    if c.2 = 3 ∧ c.1 = 2 then .prism
    else if c.2 = 1 ∧ c.1 = 4 then .pyramid
    else .polyhed
  | 6 => if allOfSize 4 sizes then .hex else .polyhed
  | _ => .polyhed

end MSTK
