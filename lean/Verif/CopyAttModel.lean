import Verif.AttribModel
import Verif.AddGhostModel

/-!
`MESH_CopyAttr` (src/par/MESH_CopyAttr.c) and `MESH_CopySet` (src/par/MESH_CopySet.c): when a mesh is
distributed, the values of an attribute and the members of a mesh set go from the mesh to the copies its
entities have in the pieces.

The attributes are as in AttribModel: an attribute of the mesh or of a piece is a number, `ty` and `nc` give
type and number of components.  The instances of the entities of the pieces are kept beside the pieces, the
copies of an entity in the lists `g2l` (PartModel); a list that does not exist is empty there, and a list
that exists is not.
-/
namespace MSTK
namespace Prt
open File Copy

variable {D : Type}

/-- the instances of the entities of the pieces: piece, kind, entity -/
abbrev AttOf (D : Type) := Nat → Nat → Nat → List (AttIns D)

/-- the instances of one entity are replaced -/
def AttOf.put (loc : AttOf D) (p k l : Nat) (x : List (AttIns D)) : AttOf D :=
  fun p' k' l' => if p' = p ∧ k' = k ∧ l' = l then x else loc p' k' l'

/-- The second array, MESH_CopyAttr.c:102-107; reading from NULL is undefined behaviour. -/
def second (n : Nat) (v : PVal D) : Res (PVal D) := if 1 < n then Att.copyVec n v else .ok .null

/-- The value `(i, r, v)` goes to one copy, MESH_CopyAttr.c:102-114 (and 142-154, 182-194, 223-235): a second
array for the components, then the search for the piece of the copy and `MEnt_Set_AttVal`.  The array is
never given back. -/
def copyTo (ty : Nat → AttType) (nc : Nat → Nat) (num ga : Nat) (la : Nat → Nat) (k : Nat) (i : Int) (r : D) (v : PVal D)
    (loc : AttOf D) (q : Nat × Nat) : Res (AttOf D) := do
  let arr ← second (nc ga) v
  if q.1 < num then do
    let x ← Att.set ty nc (loc q.1 k q.2) (la q.1) i r arr
    pure (loc.put q.1 k q.2 x)
  else pure loc

/-- The copies in the list, MESH_CopyAttr.c:100-115. -/
def copyToAll (ty : Nat → AttType) (nc : Nat → Nat) (num ga : Nat) (la : Nat → Nat) (k : Nat) (i : Int) (r : D) (v : PVal D) :
    List (Nat × Nat) → AttOf D → Res (AttOf D)
  | [], loc => .ok loc
  | q :: qs, loc => do
    let loc ← copyTo ty nc num ga la k i r v loc q
    copyToAll ty nc num ga la k i r v qs loc

/-- "Don't copy null values", MESH_CopyAttr.c:90-93.  `isZero r` is `r == 0.0`.  (Attributes of type POINTER do
not get here, 71-75.) -/
def nullValue (isZero : D → Bool) (t : AttType) (i : Int) (r : D) (v : PVal D) : Bool :=
  match t with
  | .int => decide (i = 0)
  | .double => isZero r
  | .pointer => match v with | .null => true | _ => false
  | .vector => false
  | .tensor => false

/-- One entity of the mesh, MESH_CopyAttr.c:84-116. -/
def copyValue (ty : Nat → AttType) (nc : Nat → Nat) (zero : D) (isZero : D → Bool) (num ga : Nat) (la : Nat → Nat)
    (glob : Nat → Nat → List (AttIns D)) (g2l : Nat → Nat → List (Nat × Nat)) (k g : Nat) (loc : AttOf D) : Res (AttOf D) := do
  let v ← Att.get ty zero (glob k g) ga
  if nullValue isZero (ty ga) v.2.1 v.2.2.1 v.2.2.2 then pure loc
  else copyToAll ty nc num ga la k v.2.1 v.2.2.1 v.2.2.2 (g2l k g) loc

/-- All entities of a kind, MESH_CopyAttr.c:79-117, 119-157, 159-197, 200-238. -/
def copyKind (ty : Nat → AttType) (nc : Nat → Nat) (zero : D) (isZero : D → Bool) (num ga : Nat) (la : Nat → Nat)
    (glob : Nat → Nat → List (AttIns D)) (g2l : Nat → Nat → List (Nat × Nat)) (k : Nat) (xs : List Nat) (loc : AttOf D) :
    Res (AttOf D) :=
  loop (copyValue ty nc zero isZero num ga la glob g2l k) xs loc

/-- The attributes of the pieces under the name: MESH_CopyAttr.c:55-63, `none` if a piece has none. -/
def namedIn (la : Nat → Option Nat) (num : Nat) : Option (Nat → Nat) :=
  if (List.range num).all fun p => (la p).isSome then some fun p => (la p).getD 0 else none

/-- `MESH_CopyAttr(mesh,num,submeshes,name)`: `ga` is the attribute of the mesh with that name and `la p` that of piece
`p` (`MESH_AttribByName`), `dim` the kind of entity it is for, 4 being `MALLTYPE`.  The result is what is
returned and the values in the pieces. -/
def copyAttr (ty : Nat → AttType) (nc : Nat → Nat) (zero : D) (isZero : D → Bool) (num : Nat) (ga : Option Nat) (la : Nat → Option Nat)
    (dim : Nat) (list : Nat → List Nat) (glob : Nat → Nat → List (AttIns D)) (g2l : Nat → Nat → List (Nat × Nat)) (loc : AttOf D) :
    Res (Bool × AttOf D) :=
  match ga with
  | none => .ok (false, loc)
  | some ga =>
    match namedIn la num with
    | none => .ok (false, loc)
    | some la =>
      if ty ga = .pointer then .ok (false, loc)
      else do
        let loc ← loop (fun k loc => if dim = k ∨ dim = 4 then copyKind ty nc zero isZero num ga la glob g2l k (list k) loc else pure loc)
          [0, 1, 2, 3] loc
        pure (true, loc)

/-- What `MESH_Partition` does for an attribute of the mesh, MESH_Partition.c:101-114: every piece gets one with the
same name, type, kind and number of components.  `MAttrib_New` takes the number of components from the
optional argument if the type is VECTOR or TENSOR (MAttrib.c:58-68), and for one component none is given. -/
def newAttrib (t : AttType) (n : Nat) : Res (AttType × Nat) :=
  if n = 1 then
    match t with
    | .vector => .ub
    | .tensor => .ub
    | t => .ok (t, 1)
  else
    match t with
    | .vector => .ok (.vector, n)
    | .tensor => .ok (.tensor, n)
    | t => .ok (t, 1)

/-! ### sets -/

/-- `MESH_MSetByName`, Mesh.c:427-441 -/
def setNamed (sets : List SetD) (name : List Char) : Option SetD := sets.find? fun m => m.name == name

/-- The set of that name in a piece, made if there is none, MESH_CopySet.c:46-50. -/
def withSet (m : SetD) (sets : List SetD) : List SetD :=
  match setNamed sets m.name with
  | some _ => sets
  | none => sets ++ [⟨m.name, m.dim, []⟩]

/-- `MSet_Add` to the first set of that name: it is the one `MESH_MSetByName` gave. -/
def addTo (name : List Char) (e : Nat × Nat) : List SetD → List SetD
  | [] => []
  | m :: ms => if m.name = name then ⟨m.name, m.dim, m.ents ++ [some e]⟩ :: ms else m :: addTo name e ms

/-- The sets of all pieces. -/
abbrev SetsOf := Nat → List SetD

/-- The copies of one member, MESH_CopySet.c:58-70. -/
def addCopies (num : Nat) (name : List Char) (k : Nat) : List (Nat × Nat) → SetsOf → SetsOf
  | [], t => t
  | q :: qs, t => addCopies num name k qs (if q.1 < num then upd t q.1 (addTo name (k, q.2) (t q.1)) else t)

/-- The members of the set, MESH_CopySet.c:54-71.  That an entity has no list is not noticed: `List_Next_Entry`
reads through NULL. -/
def copyMembers (num : Nat) (name : List Char) (g2l : Nat → Nat → List (Nat × Nat)) : List (Nat × Nat) → SetsOf → Res SetsOf
  | [], t => .ok t
  | e :: es, t =>
    match g2l e.1 e.2 with
    | [] => .ub
    | q :: qs => copyMembers num name g2l es (addCopies num name e.1 (q :: qs) t)

/-- `MESH_CopySet(mesh,num,submeshes,gmset)`; `strcpy` to `msetname[256]`. -/
def copySet (num : Nat) (m : SetD) (s : PSt D) : Res (PSt D) :=
  if 256 ≤ m.name.length then .ub
  else do
    let t ← copyMembers num m.name s.g2l (m.ents.filterMap id)
      fun p => if p < num then withSet m (s.sub p).sets else (s.sub p).sets
    pure { s with sub := fun p => { s.sub p with sets := t p } }

end Prt
end MSTK
