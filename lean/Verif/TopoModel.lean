import Verif.Res
import Verif.TemplateModel

/-!
Model of the mesh topology of a mesh in the full representation `F1`: what the vertices, edges,
faces and regions store about each other, and the functions that change it.

Entities are handles (natural numbers, one name space per kind).  Each stored field of an entity
is a map from handles, so an assignment `e->vertex[0] = v` changes one map at one place.

Simplifications, for the whole file
* the `List_ptr` fields are Lean lists: the list operations used here (`List_Add`,
  `List_ChknAdd`, `List_Rem`, `List_Remi`, `List_Replacei`, `List_Inserti`, `List_Entry`,
  `List_Contains`, `List_Copy`) act on the sequence of entries as proved in `Props/Lists.lean`
  (C01-C06);
* directions passed by the caller are `0`/`1` (`Bool`);
* the mesh's own entity lists, IDs, classification and attributes are not part of this state
  (`MeshModel.lean`, `EntityModel.lean`, `AttribModel.lean`);
* `int << k` is the two's complement shift for `k < 32` (as gcc and clang define it, including a
  shift into the sign bit) and undefined for `k ≥ 32`; `unsigned long` has 64 bits;
* the checks compiled only with `DEBUG` are left out.
-/
namespace MSTK

/-- State of an entity's storage.  `kept` is an entity deleted with `keep = 1`
(`MEnt_Dim == MDELETED`, storage intact). -/
inductive Stat where
  | unused | live | kept | freed
  deriving DecidableEq, Repr

/-- assignment to one entry of a field map -/
def upd (g : Nat → α) (i : Nat) (a : α) : Nat → α := fun j => if j = i then a else g j

@[simp] theorem upd_same (g : Nat → α) (i : Nat) (a : α) : upd g i a i = a := by simp [upd]
theorem upd_apply (g : Nat → α) (i : Nat) (a : α) (j : Nat) :
    upd g i a j = if j = i then a else g j := rfl
theorem upd_ne (g : Nat → α) {i j : Nat} (a : α) (h : j ≠ i) : upd g i a j = g j := by
  simp [upd, h]

/-- Everything the entities of an `F1` mesh store about each other. -/
structure Topo where
  /-- vertices: state, `vedges` (MVertex.h, `MVertex_Adj_F1F4`) -/
  sv : Nat → Stat
  ve : Nat → List Nat
  /-- edges: state, `vertex[2]` (MEdge.h), `efaces` (`MEdge_Adj_F1`) -/
  se : Nat → Stat
  ev : Nat → Option Nat × Option Nat
  ef : Nat → List Nat
  /-- faces: state, `fedges`, `edirs`, `fregions[2]` (MFace.h:52-64, `MFace_Adj_F1F3`) -/
  sf : Nat → Stat
  fe : Nat → Option (List Nat)
  fd : Nat → BitVec 64
  fr : Nat → Option Nat × Option Nat
  /-- regions: state, `rfaces`, `fdirs` (MRegion.h, `MRegion_Adj_FN`), `mrtype` -/
  sr : Nat → Stat
  rf : Nat → Option (List Nat)
  rd : Nat → List (BitVec 32)
  rt : Nat → MRType
  /-- next handle returned by `malloc`, per kind -/
  nv : Nat
  ne : Nat
  nf : Nat
  nr : Nat

/-- The storage of an entity may be accessed. -/
def Stat.alloc : Stat → Bool
  | .live | .kept => true
  | _ => false

namespace Topo

/-- A mesh without entities (`MESH_New`, Mesh.c). -/
def empty : Topo where
  sv := fun _ => .unused
  ve := fun _ => []
  se := fun _ => .unused
  ev := fun _ => (none, none)
  ef := fun _ => []
  sf := fun _ => .unused
  fe := fun _ => none
  fd := fun _ => 0
  fr := fun _ => (none, none)
  sr := fun _ => .unused
  rf := fun _ => none
  rd := fun _ => []
  rt := fun _ => .runknown
  nv := 0
  ne := 0
  nf := 0
  nr := 0

/-- Dereference of a vertex, edge, face or region pointer. -/
def derefV (T : Topo) (v : Nat) : Res Unit := if (T.sv v).alloc then .ok () else .ub
def derefE (T : Topo) (e : Nat) : Res Unit := if (T.se e).alloc then .ok () else .ub
def derefF (T : Topo) (f : Nat) : Res Unit := if (T.sf f).alloc then .ok () else .ub
def derefR (T : Topo) (r : Nat) : Res Unit := if (T.sr r).alloc then .ok () else .ub

/-! ### list and bit primitives -/

/-- `List_ChknAdd` on the sequence of entries. -/
def chkn (l : List Nat) (x : Nat) : List Nat := if x ∈ l then l else l ++ [x]

/-- `List_Inserti` on the sequence of entries.  An index beyond the end moves memory with a
negative length (List.c:470) when no entry was ever removed from the list and reports an error
otherwise; both are taken as undefined here. -/
def insi (l : List Nat) (x i : Nat) : Res (List Nat) :=
  if i ≤ l.length then .ok (l.take i ++ x :: l.drop i) else .ub

/-- `dir << k` with `int dir`: `dir` is 0 or 1. -/
def shlI (b : Bool) (k : Nat) : Res (BitVec 32) :=
  if k < 32 then .ok ((if b then 1#32 else 0#32) <<< k) else .ub

/-- `d & ~(1UL << k)`. -/
def clr (d : BitVec 64) (k : Nat) : Res (BitVec 64) :=
  if k < 64 then .ok (d &&& ~~~(1#64 <<< k)) else .ub

/-- `(d >> k) & 1UL`. -/
def bit (d : BitVec 64) (k : Nat) : Res Bool :=
  if k < 64 then .ok (((d >>> k) &&& 1#64) == 1#64) else .ub

/-- `d | (dir << k)` with `int dir`: the 32-bit result is sign-extended. -/
def orI (d : BitVec 64) (b : Bool) (k : Nat) : Res (BitVec 64) := do
  let s ← shlI b k
  pure (d ||| s.signExtend 64)

/-- `d | (dir << k)` with `long long dir`. -/
def orL (d : BitVec 64) (b : Bool) (k : Nat) : Res (BitVec 64) :=
  if k < 64 then .ok (d ||| ((if b then 1#64 else 0#64) <<< k)) else .ub

/-! ### creation -/

/-- `MV_New` (MVertex.c:20-43) with `MV_Set_RepType_F1` (MVertex_F1.c:21-26). -/
def mvNew (T : Topo) : Topo × Nat :=
  ({ T with sv := upd T.sv T.nv .live, ve := upd T.ve T.nv [], nv := T.nv + 1 }, T.nv)

/-- `ME_New` (MEdge.c:20-42) with `ME_Set_RepType_F1` (MEdge_F1.c:20-25). -/
def meNew (T : Topo) : Topo × Nat :=
  ({ T with se := upd T.se T.ne .live, ev := upd T.ev T.ne (none, none),
            ef := upd T.ef T.ne [], ne := T.ne + 1 }, T.ne)

/-- `MF_New` (MFace.c:20-41) with `MF_Set_RepType_F1` (MFace_F1.c:22-30). -/
def mfNew (T : Topo) : Topo × Nat :=
  ({ T with sf := upd T.sf T.nf .live, fe := upd T.fe T.nf none, fd := upd T.fd T.nf 0,
            fr := upd T.fr T.nf (none, none), nf := T.nf + 1 }, T.nf)

/-- `MR_New` (MRegion.c:24-45) with `MR_Set_RepType_FNR3R4` (MRegion_FNR3R4.c:20-28). -/
def mrNew (T : Topo) : Topo × Nat :=
  ({ T with sr := upd T.sr T.nr .live, rf := upd T.rf T.nr none, rd := upd T.rd T.nr [],
            rt := upd T.rt T.nr .runknown, nr := T.nr + 1 }, T.nr)

/-! ### vertices and edges -/

/-- `MV_Add_Edge_F1`, MVertex_F1.c:304-311. -/
def mvAddEdge (T : Topo) (v e : Nat) : Res Topo := do
  T.derefV v
  pure { T with ve := upd T.ve v (chkn (T.ve v) e) }

/-- `MV_Rem_Edge_F1`, MVertex_F1.c:313-320. -/
def mvRemEdge (T : Topo) (v e : Nat) : Res Topo := do
  T.derefV v
  pure { T with ve := upd T.ve v ((T.ve v).erase e) }

/-- `e->vertex[i]` for `i` 0 (`false`) or 1 (`true`). -/
def endAt (p : Option Nat × Option Nat) (i : Bool) : Option Nat := if i then p.2 else p.1

/-- `e->vertex[i] = v`. -/
def setEnd (p : Option Nat × Option Nat) (i : Bool) (v : Option Nat) :
    Option Nat × Option Nat := if i then (p.1, v) else (v, p.2)

/-- `ME_Vertex`, MEdge.c:294-296. -/
def meVertex (T : Topo) (e : Nat) (i : Bool) : Res (Option Nat) := do
  T.derefE e
  pure (endAt (T.ev e) i)

/-- `ME_Set_Vertex`, MEdge.c:125-128. -/
def meSetVertex (T : Topo) (e : Nat) (i : Bool) (v : Nat) : Res Topo := do
  T.derefE e
  mvAddEdge { T with ev := upd T.ev e (setEnd (T.ev e) i (some v)) } v e

/-- `ME_Replace_Vertex`, MEdge.c:130-143.  Vertices are given, not NULL. -/
def meReplaceVertex (T : Topo) (e oldv nuv : Nat) : Res Topo := do
  T.derefE e
  if (T.ev e).1 = some oldv then
    let T ← mvAddEdge { T with ev := upd T.ev e (some nuv, (T.ev e).2) } nuv e
    mvRemEdge T oldv e
  else if (T.ev e).2 = some oldv then
    let T ← mvAddEdge { T with ev := upd T.ev e ((T.ev e).1, some nuv) } nuv e
    mvRemEdge T oldv e
  else pure T        -- MSTK_ERROR: reported, nothing changed

/-- `if (e->vertex[i]) MV_Rem_Edge(e->vertex[i],e)`, MEdge_F1.c:31-32. -/
def remFromEnd (T : Topo) (e : Nat) : Option Nat → Res Topo
  | none => .ok T
  | some v => mvRemEdge T v e

/-- `MV_Add_Edge(e->vertex[i],e)` without the NULL check, MEdge_F1.c:48-49. -/
def addToEnd (T : Topo) (e : Nat) : Option Nat → Res Topo
  | none => .ub
  | some v => mvAddEdge T v e

/-- what is left of an entity after `XX_Delete(x, keep)` -/
def afterDelete (keep : Bool) : Stat := if keep then .kept else .freed

/-- `ME_Delete` (MEdge.c:44-69) with `ME_Delete_F1` (MEdge_F1.c:27-43). -/
def meDelete (T : Topo) (e : Nat) (keep : Bool) : Res Topo := do
  T.derefE e
  if T.se e = .live then
    let T1 ← remFromEnd T e (T.ev e).1
    let T2 ← remFromEnd T1 e (T1.ev e).2
    pure { T2 with se := upd T2.se e (afterDelete keep) }
  else
    pure { T with se := upd T.se e (afterDelete keep) }

/-- `ME_Restore` (MEdge.c:71-93) with `ME_Restore_F1` (MEdge_F1.c:45-50). -/
def meRestore (T : Topo) (e : Nat) : Res Topo := do
  T.derefE e
  let T0 : Topo := { T with se := upd T.se e .live }
  let T1 ← addToEnd T0 e (T0.ev e).1
  addToEnd T1 e (T1.ev e).2

/-- `MV_Delete` (MVertex.c:45-70) with `MV_Delete_F1` (MVertex_F1.c:28-39). -/
def mvDelete (T : Topo) (v : Nat) (keep : Bool) : Res Topo := do
  T.derefV v
  pure { T with sv := upd T.sv v (afterDelete keep) }

/-- `MV_Restore` (MVertex.c:72-) with `MV_Restore_F1` (MVertex_F1.c:41-43). -/
def mvRestore (T : Topo) (v : Nat) : Res Topo := do
  T.derefV v
  pure { T with sv := upd T.sv v .live }

/-! ### edges and faces -/

/-- `ME_Add_Face_F1`, MEdge_F1.c:152-160. -/
def meAddFace (T : Topo) (e f : Nat) : Res Topo := do
  T.derefE e
  pure { T with ef := upd T.ef e (chkn (T.ef e) f) }

/-- `ME_Rem_Face_F1`, MEdge_F1.c:162-168. -/
def meRemFace (T : Topo) (e f : Nat) : Res Topo := do
  T.derefE e
  pure { T with ef := upd T.ef e ((T.ef e).erase f) }

/-- `ME_Add_Face`/`ME_Rem_Face` over a list of edges. -/
def meAddFaceAll (T : Topo) (f : Nat) : List Nat → Res Topo
  | [] => .ok T
  | e :: es => do
    let T ← meAddFace T e f
    meAddFaceAll T f es

def meRemFaceAll (T : Topo) (f : Nat) : List Nat → Res Topo
  | [] => .ok T
  | e :: es => do
    let T ← meRemFace T e f
    meRemFaceAll T f es

/-- The edge list of a face; `List_Num_Entries(NULL)` and `List_Entry(NULL,i)` crash. -/
def fedges (T : Topo) (f : Nat) : Res (List Nat) := do
  T.derefF f
  Res.ofOption (T.fe f)

/-- The loop of `MF_Set_Edges_F1F3`, MF_Edge_Funcs_F1F3.c:127-137. -/
def setEdgesLoop (f : Nat) : Nat → List (Nat × Bool) → Topo → Res Topo
  | _, [], T => .ok T
  | i, (e, d) :: rest, T => do
    let w ← orI (T.fd f) d i
    let l ← Res.ofOption (T.fe f)
    let T ← meAddFace { T with fd := upd T.fd f w, fe := upd T.fe f (some (l ++ [e])) } e f
    setEdgesLoop f (i+1) rest T

/-- `MF_Set_Edges_F1F3`, MF_Edge_Funcs_F1F3.c:112-138. -/
def mfSetEdges (T : Topo) (f : Nat) (es : List (Nat × Bool)) : Res Topo := do
  T.derefF f
  setEdgesLoop f 0 es { T with fd := upd T.fd f 0, fe := upd T.fe f (some []) }

/-- "Move the remaining bits to the right", MF_Edge_Funcs_F1F3.c:174-183 (`long long dir`);
`n` rounds starting at bit `k`. -/
def shiftDownL : Nat → Nat → BitVec 64 → Res (BitVec 64)
  | 0, _, d => .ok d
  | n+1, k, d => do
    let d ← clr d k
    let b ← bit d (k+1)
    let d ← orL d b k
    shiftDownL n (k+1) d

/-- `MF_Rem_Edge_F1F3`, MF_Edge_Funcs_F1F3.c:144-192. -/
def mfRemEdge (T : Topo) (f e : Nat) : Res Topo := do
  let l ← T.fedges f
  if e ∈ l then
    let i := l.idxOf e
    let d ← shiftDownL (l.length - 1 - i) i (T.fd f)
    meRemFace { T with fe := upd T.fe f (some (l.eraseIdx i)), fd := upd T.fd f d } e f
  else pure T        -- MSTK_ERROR: reported, nothing changed

/-- The old edges and their directions, MF_Edge_Funcs_F1F3.c:217-221: `n` rounds from `j`. -/
def oldPart (l : List Nat) (d : BitVec 64) (i : Nat) : Nat → Nat → Res (List (Nat × Bool))
  | 0, _ => .ok []
  | n+1, j => do
    if l.length = 0 then .ub            -- division by zero
    else
      let k := (i + j) % l.length
      let e ← Res.ofOption l[k]?
      let b ← bit d k
      let r ← oldPart l d i n (j+1)
      pure ((e, b) :: r)

/-- `ME_UsesEntity(e,v,MVERTEX)`, MEdge.c:347-354. -/
def meUsesVertex (T : Topo) (e : Nat) (v : Option Nat) : Res Bool := do
  T.derefE e
  pure (decide ((T.ev e).1 = v) || decide ((T.ev e).2 = v))

/-- `a && b` of C: the second operand is evaluated only when the first holds. -/
def andThen (x y : Res Bool) : Res Bool := do
  let b ← x
  if b then y else pure false

/-- The directions of the new edges along the path that starts at `lastv`,
MF_Edge_Funcs_F1F3.c:241-245. -/
def pathDirs (T : Topo) : Option Nat → List Nat → Res (List (Nat × Bool))
  | _, [] => .ok []
  | lastv, e :: es => do
    let v0 ← T.meVertex e false
    let b := decide (v0 = lastv)
    let nxt ← T.meVertex e b
    let r ← pathDirs T nxt es
    pure ((e, b) :: r)

/-- "Replace old edges with new ones (up to the common number of edges)",
MF_Edge_Funcs_F1F3.c:261-266. -/
def replCommon (ne i : Nat) : Nat → List (Nat × Bool) → List Nat × BitVec 64 →
    Res (List Nat × BitVec 64)
  | _, [], p => .ok p
  | j, (e, b) :: rest, (l, d) => do
    let k := (i + j) % ne
    let d ← clr d k
    let d ← orI d b k
    replCommon ne i (j+1) rest (l.set k e, d)

/-- "Move the direction bits ... to the left", MF_Edge_Funcs_F1F3.c:282-292: from bit `k = a+n-1`
down to `a`. -/
def shiftUp (a : Nat) : Nat → BitVec 64 → Res (BitVec 64)
  | 0, d => .ok d
  | n+1, d => do
    let k := a + n
    let d ← clr d (k+1)
    let b ← bit d k
    let d ← orI d b (k+1)
    shiftUp a n d

/-- "Insert the rest of the nuedges at the right place", MF_Edge_Funcs_F1F3.c:273-299; `p = i+j`. -/
def insRest : Nat → List (Nat × Bool) → List Nat × BitVec 64 → Res (List Nat × BitVec 64)
  | _, [], x => .ok x
  | p, (e, b) :: rest, (l, d) => do
    let l' ← insi l e p
    let d ← shiftUp p (l.length - p) d
    let d ← clr d p
    let d ← orI d b p
    insRest (p+1) rest (l', d)

/-- "Delete the remaining old edges" from the list, MF_Edge_Funcs_F1F3.c:305-306. -/
def remList : List Nat → List Nat → List Nat
  | l, [] => l
  | l, e :: es => remList (l.erase e) es

/-- One pass of MF_Edge_Funcs_F1F3.c:312-321 (`int dir`): `n` rounds starting at bit `k`. -/
def shiftDownI : Nat → Nat → BitVec 64 → Res (BitVec 64)
  | 0, _, d => .ok d
  | n+1, k, d => do
    let d ← clr d k
    let b ← bit d (k+1)
    let d ← orI d b k
    shiftDownI n (k+1) d

/-- The loop of MF_Edge_Funcs_F1F3.c:311-324: `n` rounds, `p = i+ncom+j`, `ne` edges left. -/
def remBits : Nat → Nat → Nat → BitVec 64 → Res (BitVec 64)
  | 0, _, _, d => .ok d
  | n+1, p, ne, d =>
    if ne = 0 then .ub                    -- division by zero
    else do
      let k := p % ne
      let d ← shiftDownI (ne - 1 - k) k d
      remBits n (p+1) (ne-1) d

/-- Which way round the new edges come, MF_Edge_Funcs_F1F3.c:230-235 (a mismatch is reported and
treated as `rev = 0`). -/
def replRev (T : Topo) (first last : Nat) (v0 v1 : Option Nat) : Res Bool := do
  let a ← andThen (T.meUsesVertex first v0) (T.meUsesVertex last v1)
  if a then pure false
  else andThen (T.meUsesVertex first v1) (T.meUsesVertex last v0)

/-- The edge list and the direction bits after the replacement, MF_Edge_Funcs_F1F3.c:256-325. -/
def replLists (l : List Nat) (d : BitVec 64) (i : Nat) (old new : List (Nat × Bool)) :
    Res (List Nat × BitVec 64) := do
  let ncom := min old.length new.length
  let p ← replCommon l.length i 0 (new.take ncom) (l, d)
  if old.length < new.length then
    insRest (i + ncom) (new.drop ncom) p
  else
    let l2 := remList p.1 ((old.drop ncom).map (·.1))
    let d2 ← remBits (old.length - ncom) (i + ncom) l.length p.2
    pure (l2, d2)

/-- `MF_Replace_Edges_i_F1F3`, MF_Edge_Funcs_F1F3.c:201-339. -/
def mfReplaceEdges_i (T : Topo) (f nold i : Nat) (nu : List Nat) : Res Topo := do
  let l ← T.fedges f
  let old ← oldPart l (T.fd f) i nold 0
  match old.head?, old.getLast?, nu.head?, nu.getLast? with
  | some o0, some o1, some n0, some n1 =>
    let v0 ← T.meVertex o0.1 (!o0.2)
    let v1 ← T.meVertex o1.1 o1.2
    let rev ← T.replRev n0 n1 v0 v1
    let new ← T.pathDirs v0 (if rev then nu.reverse else nu)
    let p ← replLists l (T.fd f) i old new
    let T1 ← meRemFaceAll { T with fe := upd T.fe f (some p.1), fd := upd T.fd f p.2 } f
      (old.map (·.1))
    meAddFaceAll T1 f (new.map (·.1))
  | _, _, _, _ => .ub      -- nold = 0 or nnu = 0: access before or beyond the arrays

/-- Position of every old edge in the face, MF_Edge_Funcs_F1F3.c:362-374; `none` when one of them
is not found. -/
def findAll (l : List Nat) : List Nat → Option (List Nat)
  | [] => some []
  | e :: es => if e ∈ l then (findAll l es).map (l.idxOf e :: ·) else none

/-- Lowest index and its position, MF_Edge_Funcs_F1F3.c:379-385.  State `(imin1, ipos1)`. -/
def lowest : List Nat → Nat → Nat × Nat → Nat × Nat
  | [], _, p => p
  | x :: xs, i, (m, q) => lowest xs (i+1) (if x < m then (x, i) else (m, q))

/-- The search for a break, MF_Edge_Funcs_F1F3.c:392-406: `n` rounds from `i`. -/
def findBreak (idx : List Nat) (ipos istart : Nat) : Nat → Nat → Nat → Nat
  | 0, _, _ => istart
  | n+1, i, nxt =>
    let x := idx.getD ((ipos + i) % idx.length) 0
    if x ≠ nxt then x else findBreak idx ipos istart n (i+1) (nxt+1)

/-- `MF_Replace_Edges_F1F3`, MF_Edge_Funcs_F1F3.c:346-412.  (`imin1 = 10000` bounds the number of
edges of a face that can be found; a face with more than 64 edges is undefined anyway.) -/
def mfReplaceEdges (T : Topo) (f : Nat) (old nu : List Nat) : Res Topo := do
  let l ← T.fedges f
  match findAll l old with
  | none => pure T          -- MSTK_ERROR: reported, nothing changed
  | some idx =>
    let p := lowest idx 0 (10000, 0)
    let istart := findBreak idx p.2 p.1 (idx.length - 1) 1 (p.1 + 1)
    mfReplaceEdges_i T f old.length istart nu

/-- `MF_Rev_EdgeDir_i_F1F3`, MF_Edge_Funcs_F1F3.c:415-422. -/
def mfRevEdgeDir_i (T : Topo) (f i : Nat) : Res Topo := do
  T.derefF f
  if i < 64 then pure { T with fd := upd T.fd f (T.fd f ^^^ (1#64 <<< i)) } else .ub

/-- `MF_Delete` (MFace.c:43-68) with `MF_Delete_F1` (MFace_F1.c:32-58). -/
def mfDelete (T : Topo) (f : Nat) (keep : Bool) : Res Topo := do
  T.derefF f
  if T.sf f = .live then
    let T1 ← meRemFaceAll T f ((T.fe f).getD [])
    pure { T1 with sf := upd T1.sf f (afterDelete keep) }
  else
    pure { T with sf := upd T.sf f (afterDelete keep) }

/-- `MF_Restore` (MFace.c:70-92) with `MF_Restore_F1` (MFace_F1.c:60-74). -/
def mfRestore (T : Topo) (f : Nat) : Res Topo := do
  let l ← T.fedges f
  meAddFaceAll { T with sf := upd T.sf f .live } f l

/-! ### faces and regions -/

/-- `MF_Region_F1F3`, MF_Region_Funcs_F1F3.c:48-50. -/
def mfRegion (T : Topo) (f : Nat) (i : Bool) : Res (Option Nat) := do
  T.derefF f
  pure (endAt (T.fr f) i)

/-- `MF_Add_Region_F1F3` with a given side, MF_Region_Funcs_F1F3.c:56-70. -/
def mfAddRegion (T : Topo) (f r : Nat) (side : Bool) : Res Topo := do
  T.derefF f
  pure { T with fr := upd T.fr f (setEnd (T.fr f) side (some r)) }

/-- The slots after `MF_Rem_Region_F1F3`, MF_Region_Funcs_F1F3.c:78-83. -/
def remRegion (p : Option Nat × Option Nat) (r : Nat) : Option Nat × Option Nat :=
  if p.1 = some r then (none, p.2) else if p.2 = some r then (p.1, none) else p

/-- `MF_Rem_Region_F1F3`, MF_Region_Funcs_F1F3.c:72-84. -/
def mfRemRegion (T : Topo) (f r : Nat) : Res Topo := do
  T.derefF f
  pure { T with fr := upd T.fr f (remRegion (T.fr f) r) }

/-- `fdirs[i/32] & ~(1 << (i%32))` and `fdirs[i/32] | (dir << (i%32))`: an assignment to bit `i`
of the direction words of a region; outside the array it is undefined. -/
def setW (w : List (BitVec 32)) (i : Nat) (b : Bool) : Res (List (BitVec 32)) :=
  match w[i/32]? with
  | none => .ub
  | some x =>
    let x := x &&& ~~~(1#32 <<< (i % 32))
    .ok (w.set (i/32) (x ||| ((if b then 1#32 else 0#32) <<< (i % 32))))

/-- `fdirs[i/32] | (dir << (i%32))` alone, MR_Face_Funcs_FNR3R4.c:91-93. -/
def orW (w : List (BitVec 32)) (i : Nat) (b : Bool) : Res (List (BitVec 32)) :=
  match w[i/32]? with
  | none => .ub
  | some x => .ok (w.set (i/32) (x ||| ((if b then 1#32 else 0#32) <<< (i % 32))))

/-- `fdirs[i/32] >> (i%32) & 1`. -/
def getW (w : List (BitVec 32)) (i : Nat) : Res Bool :=
  match w[i/32]? with
  | none => .ub
  | some x => .ok (((x >>> (i % 32)) &&& 1#32) == 1#32)

/-- The face list of a region (`List_Num_Entries(NULL)` crashes). -/
def rfaces (T : Topo) (r : Nat) : Res (List Nat) := do
  T.derefR r
  Res.ofOption (T.rf r)

/-- `MF_Num_Vertices_F1F3`, MF_Vertex_Funcs_F1F3.c:177-180. -/
def mfNumVertices (T : Topo) (f : Nat) : Res Nat := do
  let l ← T.fedges f
  pure l.length

/-- Sizes of the faces of a region. -/
def faceSizes (T : Topo) : List Nat → Res (List Nat)
  | [] => .ok []
  | f :: fs => do
    let n ← T.mfNumVertices f
    let r ← faceSizes T fs
    pure (n :: r)

/-- The face sizes `MR_Update_ElementType_FNR3R4` looks at: none unless there are 4 to 6 faces. -/
def sizesRead (T : Topo) (l : List Nat) : Res (List Nat) :=
  if 4 ≤ l.length ∧ l.length ≤ 6 then T.faceSizes l else .ok (l.map fun _ => 0)

/-- `MR_Update_ElementType_FNR3R4`, MR_Face_Funcs_FNR3R4.c:766-833.  The decision is
`elementType` (TemplateModel.lean).  Simplification: for 4 to 6 faces the sizes of all of them are
read, while the C code may stop early. -/
def mrUpdateType (T : Topo) (r : Nat) : Res Topo := do
  let l ← T.rfaces r
  let s ← T.sizesRead l
  pure { T with rt := upd T.rt r (elementType s) }

/-- The loop of `MR_Set_Faces_FNR3R4`, MR_Face_Funcs_FNR3R4.c:83-99. -/
def setFacesLoop (r : Nat) : Nat → List (Nat × Bool) → Topo → Res Topo
  | _, [], T => .ok T
  | i, (f, d) :: rest, T => do
    let w ← orW (T.rd r) i d
    let l ← Res.ofOption (T.rf r)
    let T ← mfAddRegion { T with rd := upd T.rd r w, rf := upd T.rf r (some (l ++ [f])) } f r (!d)
    setFacesLoop r (i+1) rest T

/-- `MR_Set_Faces_FNR3R4`, MR_Face_Funcs_FNR3R4.c:71-103. -/
def mrSetFaces (T : Topo) (r : Nat) (fs : List (Nat × Bool)) : Res Topo := do
  T.derefR r
  let T1 ← setFacesLoop r 0 fs
    { T with rd := upd T.rd r (List.replicate (1 + fs.length/32) 0), rf := upd T.rf r (some []) }
  mrUpdateType T1 r

/-- `MR_FaceDir_i_FNR3R4`, MR_Face_Funcs_FNR3R4.c:582-594. -/
def mrFaceDir_i (T : Topo) (r i : Nat) : Res Bool := do
  T.derefR r
  getW (T.rd r) i

/-- `MR_FaceDir_FNR3R4`, MR_Face_Funcs_FNR3R4.c:560-580; `none` is the result -1. -/
def mrFaceDir (T : Topo) (r f : Nat) : Res (Option Bool) := do
  let l ← T.rfaces r
  if f ∈ l then
    let b ← getW (T.rd r) (l.idxOf f)
    pure (some b)
  else pure none

/-- "if (List_Contains(fregs, r)) MF_Rem_Region(f, r)", MR_Face_Funcs_FNR3R4.c:549-554. -/
def remIfThere (T : Topo) (f r : Nat) : Res Topo := do
  T.derefF f
  if (T.fr f).1 = some r ∨ (T.fr f).2 = some r then mfRemRegion T f r else pure T

/-- `MR_Set_FaceDir_i_FNR3R4`, MR_Face_Funcs_FNR3R4.c:532-557 (`MAXPF3` = 512). -/
def mrSetFaceDir_i (T : Topo) (r i : Nat) (d : Bool) : Res Topo := do
  T.derefR r
  if i ≥ 512 then pure T           -- MSTK_ERROR, return 0
  else
    let w ← setW (T.rd r) i d
    let l ← Res.ofOption (T.rf r)
    let f ← Res.ofOption l[i]?      -- List_Entry gives NULL beyond the end: MF_Regions crashes
    let T1 ← remIfThere { T with rd := upd T.rd r w } f r
    mfAddRegion T1 f r (!d)

/-- `MR_Set_FaceDir_FNR3R4`, MR_Face_Funcs_FNR3R4.c:513-525. -/
def mrSetFaceDir (T : Topo) (r f : Nat) (d : Bool) : Res Topo := do
  let l ← T.rfaces r
  if f ∈ l then mrSetFaceDir_i T r (l.idxOf f) d else pure T

/-- "oppr": the other region of a face with two regions, MR_Face_Funcs_FNR3R4.c:489-498. -/
def oppRegion (p : Option Nat × Option Nat) (r : Nat) : Option Nat :=
  match p with
  | (some a, some b) => if r = a then some b else some a
  | _ => none

/-- The part of `MR_Rev_FaceDir_i` after the bit was toggled, MR_Face_Funcs_FNR3R4.c:500-508. -/
def swapRegions (T : Topo) (f r : Nat) (dir : Bool) : Option Nat → Res Topo
  | none => do
    let T ← mfRemRegion T f r
    mfAddRegion T f r (!dir)
  | some o => do
    let T ← mfRemRegion T f r
    let T ← mfRemRegion T f o
    let T ← mfAddRegion T f r (!dir)
    let T ← mfAddRegion T f o dir
    mrSetFaceDir T o f (!dir)

/-- `MR_Rev_FaceDir_i_FNR3R4`, MR_Face_Funcs_FNR3R4.c:473-510. -/
def mrRevFaceDir_i (T : Topo) (r i : Nat) : Res Topo := do
  T.derefR r
  let b ← getW (T.rd r) i
  let w ← setW (T.rd r) i (!b)       -- `^= 1UL << k`
  let l ← Res.ofOption (T.rf r)
  let f ← Res.ofOption l[i]?
  T.derefF f
  swapRegions { T with rd := upd T.rd r w } f r (!b) (oppRegion (T.fr f) r)

/-- `MR_Rev_FaceDir_FNR3R4`, MR_Face_Funcs_FNR3R4.c:458-471. -/
def mrRevFaceDir (T : Topo) (r f : Nat) : Res Topo := do
  let l ← T.rfaces r
  if f ∈ l then mrRevFaceDir_i T r (l.idxOf f) else pure T

/-- "Move the remaining bits to the right", MR_Face_Funcs_FNR3R4.c:628-645: `n` rounds from bit
`i`. -/
def shiftW : Nat → Nat → List (BitVec 32) → Res (List (BitVec 32))
  | 0, _, w => .ok w
  | n+1, i, w => do
    let b ← getW w (i+1)             -- bit i+1 is not changed by clearing bit i
    let w ← setW w i b
    shiftW n (i+1) w

/-- `MR_Rem_Face_FNR3R4`, MR_Face_Funcs_FNR3R4.c:601-654. -/
def mrRemFace (T : Topo) (r f : Nat) : Res Topo := do
  let l ← T.rfaces r
  if f ∈ l then
    let i := l.idxOf f
    let w ← shiftW (l.length - 1 - i) i (T.rd r)
    mfRemRegion { T with rf := upd T.rf r (some (l.eraseIdx i)), rd := upd T.rd r w } f r
  else pure T          -- MSTK_ERROR: reported, nothing changed

/-- Growing the direction words, MR_Face_Funcs_FNR3R4.c:679-687.  The `realloc`ed array has
`newsize` words, the ones from `nint_current` on cleared. -/
def growW (w : List (BitVec 32)) (nf nold nnew : Nat) : Res (List (BitVec 32)) :=
  let cur := 1 + nf/32
  let fin := 1 + (nf - nold + nnew)/32
  if fin > cur then
    let size := if fin > 2*cur then 2*fin else 2*cur
    -- words that did not exist before and are below `cur` would stay uninitialised
    if w.length < cur then .ub else .ok (w.take cur ++ List.replicate (size - cur) 0)
  else .ok w

/-- Shifting the face directions of the following faces, MR_Face_Funcs_FNR3R4.c:711-713: `n` rounds
from `ii`. -/
def shiftDirs (r : Nat) : Nat → Nat → Topo → Res Topo
  | 0, _, T => .ok T
  | n+1, ii, T => do
    let a ← T.mrFaceDir_i r ii
    let b ← T.mrFaceDir_i r (ii+1)
    if a ≠ b then
      let T ← T.mrSetFaceDir_i r ii b
      shiftDirs r n (ii+1) T
    else shiftDirs r n (ii+1) T

/-- What happens when the old face `f` is found at position `i`,
MR_Face_Funcs_FNR3R4.c:694-717.  Second component: the new faces still to be placed. -/
def replaceFound (r f nf i : Nat) (T : Topo) : List (Nat × Bool) →
    Res (Topo × List (Nat × Bool))
  | (g, d) :: rest => do
    let l ← T.rfaces r
    let T ← mrSetFaceDir_i { T with rf := upd T.rf r (some (l.set i g)) } r i d
    let T ← mfAddRegion T g r (!d)
    let T ← mfRemRegion T f r
    pure (T, rest)
  | [] => do
    let T ← shiftDirs r (nf - 1 - i) i T
    let l ← T.rfaces r
    let T ← mfRemRegion { T with rf := upd T.rf r (some (l.eraseIdx i)) } f r
    pure (T, [])

/-- The inner loop of MR_Face_Funcs_FNR3R4.c:692-719: `n` rounds from position `i`. -/
def replaceOne (r f nf : Nat) : Nat → Nat → Topo × List (Nat × Bool) →
    Res (Topo × List (Nat × Bool))
  | 0, _, p => .ok p
  | n+1, i, (T, nu) => do
    let l ← T.rfaces r
    if l[i]? = some f then
      let p ← replaceFound r f nf i T nu
      replaceOne r f nf n (i+1) p
    else replaceOne r f nf n (i+1) (T, nu)

/-- The outer loop of MR_Face_Funcs_FNR3R4.c:690-720. -/
def replaceOld (r nf : Nat) : List Nat → Topo × List (Nat × Bool) →
    Res (Topo × List (Nat × Bool))
  | [], p => .ok p
  | f :: fs, p => do
    let p ← replaceOne r f nf nf 0 p
    replaceOld r nf fs p

/-- "If there are more new faces than old ones, add the left overs",
MR_Face_Funcs_FNR3R4.c:723-729. -/
def addLeft (r : Nat) : List (Nat × Bool) → Topo → Res Topo
  | [], T => .ok T
  | (g, d) :: rest, T => do
    let l ← T.rfaces r
    let T ← mrSetFaceDir { T with rf := upd T.rf r (some (l ++ [g])) } r g d
    let T ← mfAddRegion T g r (!d)
    addLeft r rest T

/-- `MR_Replace_Faces_FNR3R4`, MR_Face_Funcs_FNR3R4.c:657-733. -/
def mrReplaceFaces (T : Topo) (r : Nat) (old : List Nat) (nu : List (Nat × Bool)) : Res Topo := do
  let l ← T.rfaces r
  let w ← growW (T.rd r) l.length old.length nu.length
  let p ← replaceOld r l.length old ({ T with rd := upd T.rd r w }, nu)
  let T1 ← addLeft r p.2 p.1
  mrUpdateType T1 r

/-- `MR_Replace_Face_i_FNR3R4`, MR_Face_Funcs_FNR3R4.c:735-763. -/
def mrReplaceFace_i (T : Topo) (r i g : Nat) (d : Bool) : Res Topo := do
  let l ← T.rfaces r
  let w ← setW (T.rd r) i d
  let f ← Res.ofOption l[i]?
  let T1 ← mfRemRegion { T with rd := upd T.rd r w, rf := upd T.rf r (some (l.set i g)) } f r
  let T2 ← mfAddRegion T1 g r (!d)
  mrUpdateType T2 r

/-- `MF_Rem_Region` over the faces of a region. -/
def mfRemRegionAll (T : Topo) (r : Nat) : List Nat → Res Topo
  | [] => .ok T
  | f :: fs => do
    let T ← mfRemRegion T f r
    mfRemRegionAll T r fs

/-- `MR_Delete` (MRegion.c:47-72) with `MR_Delete_F1F3R3R4` (MRegion_FNR3R4.c:30-56). -/
def mrDelete (T : Topo) (r : Nat) (keep : Bool) : Res Topo := do
  T.derefR r
  if T.sr r = .live then
    let T1 ← mfRemRegionAll T r ((T.rf r).getD [])
    pure { T1 with sr := upd T1.sr r (afterDelete keep) }
  else
    pure { T with sr := upd T.sr r (afterDelete keep) }

/-- The loop of `MR_Restore_F1F3R3R4`, MRegion_FNR3R4.c:66-74. -/
def restoreFaces (r : Nat) (w : List (BitVec 32)) : Nat → List Nat → Topo → Res Topo
  | _, [], T => .ok T
  | i, f :: fs, T => do
    let b ← getW w i
    let T ← mfAddRegion T f r (!b)
    restoreFaces r w (i+1) fs T

/-- `MR_Restore` (MRegion.c:74-96) with `MR_Restore_F1F3R3R4` (MRegion_FNR3R4.c:58-75). -/
def mrRestore (T : Topo) (r : Nat) : Res Topo := do
  let l ← T.rfaces r
  restoreFaces r (T.rd r) 0 l { T with sr := upd T.sr r .live }

end Topo
end MSTK
