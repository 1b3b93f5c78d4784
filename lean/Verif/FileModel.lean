import Verif.TopoQuery

/-!
The native file format: `MESH_WriteToFile` (src/base/MESH_WriteToFile.c) and `MESH_InitFromFile`
(src/base/MESH_InitFromFile.c) for the full representations `F1` and `F4`.

A file is a list of characters.  Integers are printed and scanned digit by digit.  Floating point
numbers are a type `D` given with what `fprintf("%.nlf")` prints for them and what `fscanf("%lf")`
reads (`Dbl`); the proofs use only what they are told about the two.
-/
namespace MSTK
namespace File

/-! ### characters -/

/-- the contents of a file -/
abbrev Text := List Char

/-- `isspace` of the C locale, what `fscanf` skips before a conversion -/
def blank (c : Char) : Bool :=
  c = ' ' || c = '\n' || c = '\t' || c = '\r' || c = '\x0b' || c = '\x0c'

/-- the text from the next character that is not a blank -/
def skip (s : Text) : Text := s.dropWhile blank

/-- a decimal digit -/
def isDig (c : Char) : Bool := 48 ≤ c.toNat && c.toNat ≤ 57

/-- the digit for a number below 10 -/
def digit : Nat → Char
  | 0 => '0' | 1 => '1' | 2 => '2' | 3 => '3' | 4 => '4'
  | 5 => '5' | 6 => '6' | 7 => '7' | 8 => '8' | _ => '9'

/-- digits of a number in front of `acc`; the first argument bounds the number of rounds -/
def digs : Nat → Nat → List Char → List Char
  | 0, _, acc => acc
  | k+1, n, acc =>
    if n < 10 then digit n :: acc else digs k (n/10) (digit (n % 10) :: acc)

/-- `fprintf("%d")` of a number that is not negative -/
def showNat (n : Nat) : List Char := digs (n+1) n []

/-- `fprintf("%d")`, and `"%-d"`, which is the same without a field width -/
def showInt (n : Int) : List Char :=
  if n < 0 then '-' :: showNat n.natAbs else showNat n.natAbs

/-- the value of a sequence of digits -/
def readNat (ds : List Char) : Nat := ds.foldl (fun a c => 10 * a + (c.toNat - 48)) 0

/-- The outcome of one conversion of `fscanf`: the end of the file was reached before it, the text
does not fit, an integer is not representable (undefined, C11 7.21.6.2p10), or a value with the
text behind it. -/
inductive Scan (α : Type) where
  | eof
  | bad (rest : Text)
  | big
  | ok (a : α) (rest : Text)

/-- digits after the sign -/
def scanDigits (neg : Bool) (t : Text) : Scan Int :=
  let ds := t.takeWhile isDig
  if ds = [] then .bad t
  else
    let v : Int := if neg then - (readNat ds : Int) else readNat ds
    if -2147483648 ≤ v ∧ v ≤ 2147483647 then .ok v (t.dropWhile isDig) else .big

/-- `fscanf("%d")` -/
def scanInt (s : Text) : Scan Int :=
  match skip s with
  | [] => .eof
  | c :: t =>
    if c = '-' then scanDigits true t
    else if c = '+' then scanDigits false t
    else scanDigits false (c :: t)

/-- `fscanf("%s")` into an array of `cap` characters; `none` is the end of the file.  A word that
does not fit is written past the end of the array. -/
def scanWord (cap : Nat) (s : Text) : Res (Option (List Char × Text)) :=
  match skip s with
  | [] => .ok none
  | c :: t =>
    let w := (c :: t).takeWhile fun c => !blank c
    if w.length + 1 > cap then .ub else .ok (some (w, (c :: t).dropWhile fun c => !blank c))

/-- Floating point numbers as `fprintf` and `fscanf` see them. -/
structure Dbl (D : Type) where
  /-- `fprintf("%.nlf")` -/
  fmt : Nat → D → List Char
  /-- the value `strtod` gives for a word, if it is a number -/
  scan : List Char → Option D
  /-- 0.0 -/
  zero : D

/-- `fscanf("%lf")`.  Simplification: the conversion takes the whole word up to the next blank (C
stops at the first character that cannot continue a number). -/
def scanDbl (dbl : Dbl D) (s : Text) : Scan D :=
  match skip s with
  | [] => .eof
  | c :: t =>
    match dbl.scan ((c :: t).takeWhile fun c => !blank c) with
    | none => .bad (c :: t)
    | some x => .ok x ((c :: t).dropWhile fun c => !blank c)

/-- `strncmp(w,key,strlen(key)) == 0` -/
def starts (key w : List Char) : Bool := key.isPrefixOf w

/-! ### the mesh -/

/-- `MAttType` without `POINTER`, and `POINTER` -/
inductive ATy where
  | int | dbl | vec | tns | ptr
  deriving DecidableEq, Repr

/-- A value of an attribute: an integer, a double or an array (MAttrib.h:25-34). -/
inductive AVal (D : Type) where
  | int (i : Int)
  | dbl (x : D)
  | arr (xs : List D)

/-- An attribute of a mesh (MAttrib.h:17-23) with the values the entities have for it
(`MEnt_Get_AttVal`, MEntity.c:409-449): kind of entity (0 to 3), entity, value.  `ent` is the kind
of entity the attribute is for; 5 stands for `MALLTYPE` (MSTK_types.h:70). -/
structure Attr (D : Type) where
  name : List Char
  ty : ATy
  ncomp : Int
  ent : Nat
  val : Nat → Nat → Option (AVal D)

/-- A mesh as the two functions see it: what the entities store about each other, the entities in
the order of `MESH_Next_Vertex` and so on, the coordinates, the classification (`gdim`, `gid`) and
the IDs. -/
structure FMesh (D : Type) where
  T : Topo
  vl : List Nat
  el : List Nat
  fl : List Nat
  rl : List Nat
  xyz : Nat → D × D × D
  vc : Nat → Int × Int
  ec : Nat → Int × Int
  fc : Nat → Int × Int
  rc : Nat → Int × Int
  vid : Nat → Int
  eid : Nat → Int
  fid : Nat → Int
  rid : Nat → Int
  atts : List (Attr D)

/-- A new mesh (`MESH_New`, Mesh.c). -/
def FMesh.new (dbl : Dbl D) : FMesh D where
  T := Topo.empty
  vl := []
  el := []
  fl := []
  rl := []
  xyz := fun _ => (dbl.zero, dbl.zero, dbl.zero)
  vc := fun _ => (4, 0)
  ec := fun _ => (4, 0)
  fc := fun _ => (4, 0)
  rc := fun _ => (4, 0)
  vid := fun _ => 0
  eid := fun _ => 0
  fid := fun _ => 0
  rid := fun _ => 0
  atts := []

/-! ### writing -/

/-- the number of an entity in the file, kept in the attributes `vidatt`, `eidatt`, `fidatt`,
`ridatt` (MESH_WriteToFile.c:94-113); `MEnt_Get_AttVal` gives 0 for an entity that is not in the
list -/
def num (l : List Nat) (x : Nat) : Int := if x ∈ l then (l.idxOf x : Int) + 1 else 0

/-- what is printed for a vertex -/
structure VLine (D : Type) where
  x : D
  y : D
  z : D
  gdim : Int
  gid : Int

/-- what is printed for an edge -/
structure ELine where
  a : Int
  b : Int
  gdim : Int
  gid : Int

/-- what is printed for a face or a region -/
structure FLine where
  refs : List Int
  gdim : Int
  gid : Int

/-- one value of an attribute -/
structure ALine (D : Type) where
  dim : Int
  id : Int
  val : AVal D

/-- an attribute -/
structure ABlock (D : Type) where
  name : List Char
  ty : ATy
  ncomp : Int
  ent : Nat
  lines : List (ALine D)

/-- what is printed for a mesh -/
structure Contents (D : Type) where
  f4 : Bool
  vs : List (VLine D)
  es : List ELine
  fs : List FLine
  rs : List FLine
  /-- `none` if the mesh has no attributes -/
  as : Option (List (ABlock D))

/-- all results of a list of computations -/
def each {α β : Type} (g : α → Res β) : List α → Res (List β)
  | [] => .ok []
  | x :: xs => do
    let y ← g x
    let ys ← each g xs
    pure (y :: ys)

/-- the arguments of the `fprintf` of MESH_WriteToFile.c:120-126 -/
def vLine (M : FMesh D) (v : Nat) : Res (VLine D) := do
  M.T.derefV v
  pure ⟨(M.xyz v).1, (M.xyz v).2.1, (M.xyz v).2.2, (M.vc v).1, (M.vc v).2⟩

/-- number of a vertex that may be NULL (`MEnt_Get_AttVal` dereferences it) -/
def numV (M : FMesh D) : Option Nat → Res Int
  | none => .ub
  | some v => do
    M.T.derefV v
    pure (num M.vl v)

/-- MESH_WriteToFile.c:158-166 -/
def eLine (M : FMesh D) (e : Nat) : Res ELine := do
  let v0 ← M.T.meVertex e false
  let a ← numV M v0
  let v1 ← M.T.meVertex e true
  let b ← numV M v1
  pure ⟨a, b, (M.ec e).1, (M.ec e).2⟩

/-- `if (dir != 1) id = -id` -/
def signed (dir : Bool) (id : Int) : Int := if dir then id else -id

/-- the loop of MESH_WriteToFile.c:185-191 -/
def edgeRefs (M : FMesh D) (f : Nat) : Nat → List Nat → Res (List Int)
  | _, [] => .ok []
  | j, e :: es => do
    let d ← M.T.mfEdgeDir_i f j
    M.T.derefE e
    let r ← edgeRefs M f (j+1) es
    pure (signed d (num M.el e) :: r)

/-- MESH_WriteToFile.c:181-201 -/
def fLine (M : FMesh D) (f : Nat) : Res FLine := do
  let es ← M.T.mfEdges f true none
  let r ← edgeRefs M f 0 es
  pure ⟨r, (M.fc f).1, (M.fc f).2⟩

/-- the loop of MESH_WriteToFile.c:250-256 -/
def faceRefs (M : FMesh D) (r : Nat) : Nat → List Nat → Res (List Int)
  | _, [] => .ok []
  | j, f :: fs => do
    let d ← M.T.mrFaceDir_i r j
    M.T.derefF f
    let l ← faceRefs M r (j+1) fs
    pure (signed d (num M.fl f) :: l)

/-- MESH_WriteToFile.c:246-262 -/
def rLine (M : FMesh D) (r : Nat) : Res FLine := do
  let fs ← M.T.mrFaces r
  let l ← faceRefs M r 0 fs
  pure ⟨l, (M.rc r).1, (M.rc r).2⟩

/-- a value as MESH_WriteToFile.c:446-460 prints it: an array is read up to `ncomp`; a value of the
wrong kind would be the wrong member of the union -/
def aVal (ty : ATy) (ncomp : Int) : AVal D → Res (AVal D)
  | .int i => if ty = .int then .ok (.int i) else .ub
  | .dbl x => if ty = .dbl then .ok (.dbl x) else .ub
  | .arr xs =>
    if ty = .vec ∨ ty = .tns then
      if ncomp.toNat ≤ xs.length then .ok (.arr (xs.take ncomp.toNat)) else .ub
    else .ub

/-- the values of an attribute for the entities of kind `k` -/
def aLines (at' : Attr D) (k : Nat) (all : List Nat) : List Nat → Res (List (ALine D))
  | [] => .ok []
  | x :: xs => do
    match at'.val k x with
    | none => aLines at' k all xs
    | some v => do
      let w ← aVal at'.ty at'.ncomp v
      let r ← aLines at' k all xs
      pure (⟨k, num all x, w⟩ :: r)

/-- the values of an attribute (MESH_WriteToFile.c:345-383, 439-638) -/
def aAll (M : FMesh D) (at' : Attr D) : Res (List (ALine D)) :=
  match at'.ent with
  | 0 => aLines at' 0 M.vl M.vl
  | 1 => aLines at' 1 M.el M.el
  | 2 => aLines at' 2 M.fl M.fl
  | 3 => aLines at' 3 M.rl M.rl
  | 5 => do
    let a ← aLines at' 0 M.vl M.vl
    let b ← aLines at' 1 M.el M.el
    let c ← aLines at' 2 M.fl M.fl
    let d ← aLines at' 3 M.rl M.rl
    pure (a ++ b ++ c ++ d)
  | _ => .ok []

/-- MESH_WriteToFile.c:324-640: pointers and attributes without values are left out.  The four
attributes the function makes itself are not in the list. -/
def aBlocks (M : FMesh D) : List (Attr D) → Res (List (ABlock D))
  | [] => .ok []
  | a :: as => do
    let rest ← aBlocks M as
    if a.ty = .ptr then pure rest
    else
      let l ← aAll M a
      match l with
      | [] => pure rest
      | x :: xs => pure (⟨a.name, a.ty, a.ncomp, a.ent, x :: xs⟩ :: rest)

/-- Everything `MESH_WriteToFile` looks up (MESH_WriteToFile.c:74-640).  Simplification: the C
function prints while it looks things up; here the printing, which has no influence on what is
looked up, comes afterwards (`render`). -/
def contents (M : FMesh D) (f4 : Bool) : Res (Contents D) := do
  let vs ← each (vLine M) M.vl
  let es ← each (eLine M) M.el
  let fs ← each (fLine M) M.fl
  let rs ← each (rLine M) M.rl
  let as ← aBlocks M M.atts
  pure ⟨f4, vs, es, fs, rs, if M.atts = [] then none else some as⟩

/-- field of a given width, right-adjusted -/
def pad (w : Nat) (l : List Char) : List Char := List.replicate (w - l.length) ' ' ++ l

/-- `"%24.16lf %24.16lf %24.16lf   %d %d\n"`, MESH_WriteToFile.c:125 -/
def showV (dbl : Dbl D) (l : VLine D) : Text :=
  pad 24 (dbl.fmt 16 l.x) ++ (' ' :: (pad 24 (dbl.fmt 16 l.y) ++ (' ' :: (pad 24 (dbl.fmt 16 l.z) ++
    (' ' :: ' ' :: ' ' :: (showInt l.gdim ++ (' ' :: (showInt l.gid ++ ['\n'])))))))) 

/-- `"%d %d \t%d %d\n"`, MESH_WriteToFile.c:166 -/
def showE (l : ELine) : Text :=
  showInt l.a ++ (' ' :: (showInt l.b ++ (' ' :: '\t' :: (showInt l.gdim ++ (' ' ::
    (showInt l.gid ++ ['\n']))))))

/-- `"%d "` for each number -/
def showRefs (l : List Int) : Text := l.flatMap fun i => showInt i ++ [' ']

/-- `"%d "`, the numbers, `"\t%d %d\n"`, MESH_WriteToFile.c:182-201, 247-262 -/
def showF (l : FLine) : Text :=
  showInt l.refs.length ++ (' ' :: (showRefs l.refs ++ ('\t' :: (showInt l.gdim ++ (' ' ::
    (showInt l.gid ++ ['\n']))))))

/-- `" %-d"`, `" %-lf "` -/
def showVal (dbl : Dbl D) : AVal D → Text
  | .int i => ' ' :: showInt i
  | .dbl x => ' ' :: (dbl.fmt 6 x ++ [' '])
  | .arr xs => xs.flatMap fun x => ' ' :: (dbl.fmt 6 x ++ [' '])

/-- `"0 %-d "`, the value, `"\n"` -/
def showA (dbl : Dbl D) (l : ALine D) : Text :=
  showInt l.dim ++ (' ' :: (showInt l.id ++ (' ' :: (showVal dbl l.val ++ ['\n']))))

/-- MESH_WriteToFile.c:394-411 -/
def tyName : ATy → List Char
  | .int => ['I','N','T']
  | .dbl => ['D','O','U','B','L','E']
  | .vec => ['V','E','C','T','O','R']
  | .tns => ['T','E','N','S','O','R']
  | .ptr => []

/-- MESH_WriteToFile.c:415-434 -/
def entName : Nat → List Char
  | 0 => ['M','V','E','R','T','E','X']
  | 1 => ['M','E','D','G','E']
  | 2 => ['M','F','A','C','E']
  | 3 => ['M','R','E','G','I','O','N']
  | 5 => ['M','A','L','L','T','Y','P','E']
  | _ => []

/-- MESH_WriteToFile.c:392-638 -/
def showBlock (dbl : Dbl D) (b : ABlock D) : Text :=
  b.name ++ ('\n' :: (tyName b.ty ++ ('\n' :: (showInt b.ncomp ++ ('\n' :: (entName b.ent ++ ('\n' ::
    (showInt b.lines.length ++ ('\n' :: b.lines.flatMap (showA dbl))))))))))

/-- MESH_WriteToFile.c:320-322, 642 -/
def showAtts (dbl : Dbl D) : Option (List (ABlock D)) → Text
  | none => []
  | some bs => ['a','t','t','r','i','b','u','t','e','s'] ++ ('\n' :: bs.flatMap (showBlock dbl))

/-- MESH_WriteToFile.c:239-264: nothing is printed if there are no regions -/
def showRegions (rs : List FLine) : Text :=
  if rs = [] then []
  else ['r','e','g','i','o','n','s'] ++ (' ' :: (['f','a','c','e'] ++ ('\n' :: rs.flatMap showF)))

/-- MESH_WriteToFile.c:172-203: printed in any case -/
def showFaces (fs : List FLine) : Text :=
  ['f','a','c','e','s'] ++ (' ' :: (['e','d','g','e'] ++ ('\n' :: fs.flatMap showF)))

/-- MESH_WriteToFile.c:152-168: nothing is printed if there are no edges -/
def showEdges (es : List ELine) : Text :=
  if es = [] then [] else ['e','d','g','e','s'] ++ ('\n' :: es.flatMap showE)

/-- MESH_WriteToFile.c:116-128 -/
def showVerts (dbl : Dbl D) (vs : List (VLine D)) : Text :=
  ['v','e','r','t','i','c','e','s'] ++ ('\n' :: vs.flatMap (showV dbl))

/-- `"%s %d %d %d %d\n"`, MESH_WriteToFile.c:87-92 -/
def showHead (c : Contents D) : Text :=
  (if c.f4 then ['F','4'] else ['F','1']) ++ (' ' :: (showInt c.vs.length ++ (' ' ::
    (showInt c.es.length ++ (' ' :: (showInt c.fs.length ++ (' ' :: (showInt c.rs.length ++
      ['\n']))))))))

/-- The printing of `MESH_WriteToFile`, MESH_WriteToFile.c:86-642.  `"%-2.1lf"` of `MSTK_FILE_VER`
(1.0) is `1.0`. -/
def render (dbl : Dbl D) (c : Contents D) : Text :=
  ['M','S','T','K'] ++ (' ' :: (['1','.','0'] ++ ('\n' :: (showHead c ++ (showVerts dbl c.vs ++
    (showEdges c.es ++ (showFaces c.fs ++ (showRegions c.rs ++ showAtts dbl c.as))))))))

/-- `MESH_WriteToFile(mesh,filename,rtype,comm)` for one process and `rtype` F1 or F4,
MESH_WriteToFile.c:33-672: the text of the file.  Modelled for release builds: in a DEBUG build
`MAttrib_New` gives back an attribute of the mesh that happens to be called `vidatt`, `eidatt`,
`fidatt` or `ridatt` (MAttrib.c:28-40).  A file that cannot be opened is not modelled. -/
def writeFile (dbl : Dbl D) (M : FMesh D) (f4 : Bool) : Res Text := do
  let c ← contents M f4
  pure (render dbl c)

/-! ### reading -/

/-- the first or only conversion of a call whose result is checked: `EOF` and 0 are reported as
fatal errors -/
def getInt (s : Text) : Res (Int × Text) :=
  match scanInt s with
  | .ok a s => .ok (a, s)
  | .big => .ub
  | _ => .fatal

/-- a later conversion of a call: on failure the call returns the number of conversions made, which
nobody looks at, and the variable keeps what it had.  Simplification: this is called undefined
behaviour although the variable may hold the value of an earlier round. -/
def nextInt (s : Text) : Res (Int × Text) :=
  match scanInt s with
  | .ok a s => .ok (a, s)
  | _ => .ub

/-- `fscanf("%d %d")` -/
def get2 (s : Text) : Res (Int × Int × Text) := do
  let (a, s) ← getInt s
  let (b, s) ← nextInt s
  pure (a, b, s)

/-- `fscanf("%d %d %d %d")` -/
def get4 (s : Text) : Res (Int × Int × Int × Int × Text) := do
  let (a, s) ← getInt s
  let (b, s) ← nextInt s
  let (c, s) ← nextInt s
  let (d, s) ← nextInt s
  pure (a, b, c, d, s)

/-- the first conversion of a checked call -/
def getDbl (dbl : Dbl D) (s : Text) : Res (D × Text) :=
  match scanDbl dbl s with
  | .ok a s => .ok (a, s)
  | .big => .ub
  | _ => .fatal

/-- a later conversion of a call -/
def nextDbl (dbl : Dbl D) (s : Text) : Res (D × Text) :=
  match scanDbl dbl s with
  | .ok a s => .ok (a, s)
  | _ => .ub

/-- the bit fields `gdim` (3 bits) and `gid` (26 bits) of an entity, MEntity.h -/
def field (gdim gid : Int) : Int × Int := (gdim % 8, gid % 67108864)

/-- `MV_New`, `MV_Set_Coords`, `MV_Set_GEntID`, `MV_Set_GEntDim`, `MV_Set_ID`,
MESH_InitFromFile.c:131-137 -/
def addV (i : Nat) (x y z : D) (gdim gid : Int) (M : FMesh D) : FMesh D :=
  let p := M.T.mvNew
  { M with T := p.1, vl := M.vl ++ [p.2], xyz := upd M.xyz p.2 (x, y, z),
           vc := upd M.vc p.2 (field gdim gid), vid := upd M.vid p.2 (i+1) }

/-- MESH_InitFromFile.c:122-138, from vertex `i` on -/
def readVerts (dbl : Dbl D) : Nat → Nat → Text → FMesh D → Res (FMesh D × Text)
  | 0, _, s, M => .ok (M, s)
  | n+1, i, s, M => do
    let (x, s) ← getDbl dbl s
    let (y, s) ← nextDbl dbl s
    let (z, s) ← nextDbl dbl s
    let (gdim, s) ← nextInt s
    let (gid, s) ← nextInt s
    readVerts dbl n (i+1) s (addV i x y z gdim gid M)

/-- `List_Entry(list,id-1)` whose result is dereferenced afterwards: NULL, or a word before the
array, if there is no such entry (List.c:185-223) -/
def entry (l : List Nat) (id : Int) : Res Nat :=
  if 1 ≤ id then Res.ofOption l[(id - 1).toNat]? else .ub

/-- MESH_InitFromFile.c:267-282 -/
def addE (i : Nat) (a b gdim gid : Int) (M : FMesh D) : Res (FMesh D) := do
  let v1 ← entry M.vl a
  let v2 ← entry M.vl b
  let p := M.T.meNew
  let T ← p.1.meSetVertex p.2 false v1
  let T ← T.meSetVertex p.2 true v2
  pure { M with T := T, el := M.el ++ [p.2], ec := upd M.ec p.2 (field gdim gid),
                eid := upd M.eid p.2 (i+1) }

/-- MESH_InitFromFile.c:258-283 -/
def readEdges : Nat → Nat → Text → FMesh D → Res (FMesh D × Text)
  | 0, _, s, M => .ok (M, s)
  | n+1, i, s, M => do
    let (a, b, gdim, gid, s) ← get4 s
    let M ← addE i a b gdim gid M
    readEdges n (i+1) s M

/-- `dirs[j] = id > 0`, `ents[j] = List_Entry(list,abs(id)-1)`, MESH_InitFromFile.c:445-461,
645-661 -/
def readRefs (l : List Nat) : Nat → Text → Res (List (Nat × Bool) × Text)
  | 0, s => .ok ([], s)
  | n+1, s => do
    let (id, s) ← getInt s
    let x ← entry l (id.natAbs : Int)
    let (r, s) ← readRefs l n s
    pure ((x, decide (0 < id)) :: r, s)

/-- MESH_InitFromFile.c:420-488 -/
def readFaces : Nat → Nat → Text → FMesh D → Res (FMesh D × Text)
  | 0, _, s, M => .ok (M, s)
  | n+1, i, s, M => do
    let p := M.T.mfNew
    let (nfe, s) ← getInt s
    let (es, s) ← readRefs M.el nfe.toNat s
    let T ← p.1.mfSetEdges p.2 es
    let (gdim, gid, s) ← get2 s
    readFaces n (i+1) s { M with T := T, fl := M.fl ++ [p.2], fc := upd M.fc p.2 (field gdim gid),
                                 fid := upd M.fid p.2 (i+1) }

/-- MESH_InitFromFile.c:620-689 -/
def readRegions : Nat → Nat → Text → FMesh D → Res (FMesh D × Text)
  | 0, _, s, M => .ok (M, s)
  | n+1, i, s, M => do
    let p := M.T.mrNew
    let (nrf, s) ← getInt s
    let (fs, s) ← readRefs M.fl nrf.toNat s
    let T ← p.1.mrSetFaces p.2 fs
    let (gdim, gid, s) ← get2 s
    readRegions n (i+1) s { M with T := T, rl := M.rl ++ [p.2], rc := upd M.rc p.2 (field gdim gid),
                                   rid := upd M.rid p.2 (i+1) }

/-- integers read without looking at the result and thrown away, MESH_InitFromFile.c:216-217 -/
def dropInts : Nat → Text → Res Text
  | 0, s => .ok s
  | n+1, s =>
    match scanInt s with
    | .ok _ s => dropInts n s
    | .bad s => dropInts n s
    | .big => .ub
    | .eof => .ok []

/-- MESH_InitFromFile.c:206-218 -/
def dropAdjV : Nat → Text → Res Text
  | 0, s => .ok s
  | n+1, s => do
    let (k, s) ← getInt s
    let s ← dropInts k.toNat s
    dropAdjV n s

/-- integers read and thrown away, MESH_InitFromFile.c:772-781 -/
def dropChecked : Nat → Text → Res Text
  | 0, s => .ok s
  | n+1, s => do
    let (_, s) ← getInt s
    dropChecked n s

/-- MESH_InitFromFile.c:762-782 -/
def dropAdjR : Nat → Text → Res Text
  | 0, s => .ok s
  | n+1, s => do
    let (k, s) ← getInt s
    let s ← dropChecked k.toNat s
    dropAdjR n s

/-- the type of an attribute, MESH_InitFromFile.c:824-839; `none` is a fatal error -/
def tyOf (w : List Char) : Option ATy :=
  if starts (tyName .int) w then some .int
  else if starts (tyName .dbl) w then some .dbl
  else if starts ['P','O','I','N','T','E','R'] w then none
  else if starts (tyName .vec) w then some .vec
  else if starts (tyName .tns) w then some .tns
  else none

/-- the kind of entity, MESH_InitFromFile.c:863-878; `none` is a fatal error -/
def entOf (w : List Char) : Option Nat :=
  if starts (entName 0) w then some 0
  else if starts (entName 1) w then some 1
  else if starts (entName 2) w then some 2
  else if starts (entName 3) w then some 3
  else if starts (entName 5) w then some 5
  else none

/-- components of a vector -/
def readArr (dbl : Dbl D) : Nat → Text → Res (List D × Text)
  | 0, s => .ok ([], s)
  | n+1, s => do
    let (x, s) ← nextDbl dbl s
    let (r, s) ← readArr dbl n s
    pure (x :: r, s)

/-- MESH_InitFromFile.c:917-927; the results of the calls are not looked at, see `nextInt` -/
def readVal (dbl : Dbl D) (ty : ATy) (ncomp : Int) (s : Text) : Res (AVal D × Text) :=
  match ty with
  | .int => do
    let (i, s) ← nextInt s
    pure (.int i, s)
  | .dbl => do
    let (x, s) ← nextDbl dbl s
    pure (.dbl x, s)
  | _ => do
    let (xs, s) ← readArr dbl ncomp.toNat s
    pure (.arr xs, s)

/-- numbers read and thrown away, MESH_InitFromFile.c:912-913 -/
def dropDbls (dbl : Dbl D) : Nat → Text → Text
  | 0, s => s
  | n+1, s =>
    match scanDbl dbl s with
    | .ok _ s => dropDbls dbl n s
    | .bad s => dropDbls dbl n s
    | _ => []

/-- MESH_InitFromFile.c:909-913 -/
def dropVal (dbl : Dbl D) (ty : ATy) (ncomp : Int) (s : Text) : Res Text :=
  if ty = .int then dropInts 1 s else .ok (dropDbls dbl ncomp.toNat s)

/-- `MESH_VertexFromID` and its like: the entity with an ID (C19).  `none` is NULL. -/
def fromID (l : List Nat) (ids : Nat → Int) (id : Int) : Option Nat := l.find? fun x => ids x = id

/-- MESH_InitFromFile.c:929-945; dimensions other than 0 to 3 are a fatal error, NULL is
dereferenced by `MEnt_Set_AttVal` -/
def entityOf (M : FMesh D) (dim id : Int) : Res Nat :=
  if dim = 0 then Res.ofOption (fromID M.vl M.vid id)
  else if dim = 1 then Res.ofOption (fromID M.el M.eid id)
  else if dim = 2 then Res.ofOption (fromID M.fl M.fid id)
  else if dim = 3 then Res.ofOption (fromID M.rl M.rid id)
  else .fatal

/-- `MEnt_Set_AttVal` (MEntity.c:306-344) -/
def Attr.put (a : Attr D) (k x : Nat) (v : AVal D) : Attr D :=
  { a with val := fun k' x' => if k' = k ∧ x' = x then some v else a.val k' x' }

/-- MESH_InitFromFile.c:897-951 -/
def readVals (dbl : Dbl D) (M : FMesh D) : Nat → Text → Attr D → Res (Attr D × Text)
  | 0, s, a => .ok (a, s)
  | n+1, s, a => do
    let (dim, id, s) ← get2 s
    if (a.ent : Int) ≠ dim ∧ a.ent ≠ 5 then
      let s ← dropVal dbl a.ty a.ncomp s
      readVals dbl M n s a
    else
      let (v, s) ← readVal dbl a.ty a.ncomp s
      let x ← entityOf M dim id
      readVals dbl M n s (a.put dim.toNat x v)

/-- a word that must be there -/
def getWord (cap : Nat) (s : Text) : Res (List Char × Text) := do
  match ← scanWord cap s with
  | none => .fatal
  | some p => pure p

/-- an option whose absence is a fatal error -/
def orFatal {α : Type} : Option α → Res α
  | some a => .ok a
  | none => .fatal

/-- `MAttrib_New` stores one component for an integer or a double (MAttrib.c:70-73) -/
def compsOf (ty : ATy) (ncomp : Int) : Int :=
  match ty with
  | .int | .dbl | .ptr => 1
  | _ => ncomp

/-- one round of MESH_InitFromFile.c:806-953 after the name was read -/
def readBlock (dbl : Dbl D) (M : FMesh D) (name : List Char) (s : Text) :
    Res (FMesh D × Text) := do
  let (w, s) ← getWord 256 s
  let ty ← orFatal (tyOf w)
  let (ncomp, s) ← getInt s
  if (ty = .vec ∨ ty = .tns) ∧ ncomp = 0 then .fatal
  else
    let (w, s) ← getWord 256 s
    let ent ← orFatal (entOf w)
    let (nent, s) ← getInt s
    if nent < 1 then .fatal
    else
      let (a, s) ← readVals dbl M nent.toNat s ⟨name, ty, ncomp, ent, fun _ _ => none⟩
      pure ({ M with atts := M.atts ++ [{ a with ncomp := compsOf ty ncomp }] }, s)

/-- MESH_InitFromFile.c:806-953.  Each round takes at least one character; the first argument bounds
the number of rounds. -/
def readAtts (dbl : Dbl D) : Nat → Text → FMesh D → Res (FMesh D)
  | 0, _, _ => .hang
  | k+1, s, M => do
    match ← scanWord 256 s with
    | none => pure M
    | some (name, s) => do
      let (M, s) ← readBlock dbl M name s
      readAtts dbl k s M

/-- the value returned by the function and the mesh -/
abbrev Ans (D : Type) := Option (Bool × FMesh D)

/-- `status = fscanf(fp,"%s",temp_str)`: what to do at the end of the file, and with a word -/
def word (s : Text) (atEnd : Res (Ans D)) (k : List Char → Text → Res (Ans D)) : Res (Ans D) := do
  match ← scanWord 256 s with
  | none => atEnd
  | some (w, s) => k w s

/-- end of the file: fatal if data were announced, otherwise the given result -/
def ending (missing : Bool) (ret : Bool) (M : FMesh D) : Res (Ans D) :=
  if missing then .fatal else .ok (some (ret, M))

/-- MESH_InitFromFile.c:801-959 -/
def attSection (dbl : Dbl D) (M : FMesh D) (w : List Char) (s : Text) : Res (Ans D) :=
  if starts ['a','t','t','r','i','b','u','t','e','s'] w then do
    let M ← readAtts dbl (s.length + 1) s M
    pure (some (true, M))
  else .ok (some (true, M))

/-- MESH_InitFromFile.c:720-799 -/
def adjRSection (nr : Nat) (M : FMesh D) (w : List Char) (s : Text)
    (k : FMesh D → List Char → Text → Res (Ans D)) : Res (Ans D) :=
  if starts ['a','d','j','r','e','g','i','o','n','s'] w then do
    let s ← dropAdjR nr s
    word s (ending false true M) (k M)
  else k M w s

/-- MESH_InitFromFile.c:529-717 for files of type F1 or F4 -/
def regionSection (nr : Int) (M : FMesh D) (w : List Char) (s : Text)
    (k : Nat → FMesh D → List Char → Text → Res (Ans D)) : Res (Ans D) :=
  if starts ['r','e','g','i','o','n'] w then do
    let (t, s) ← getWord 16 s
    if starts ['f','a','c','e'] t then
      let (M, s) ← readRegions nr.toNat 0 s M
      word s (ending false true M) (k nr.toNat M)
    else pure (some (false, M))
  else k 0 M w s

/-- MESH_InitFromFile.c:325-526 for files of type F1 or F4 -/
def faceSection (nf nr : Int) (M : FMesh D) (w : List Char) (s : Text)
    (k : FMesh D → List Char → Text → Res (Ans D)) : Res (Ans D) :=
  if starts ['f','a','c','e'] w then do
    let (t, s) ← getWord 16 s
    if starts ['e','d','g','e'] t then
      let (M, s) ← readFaces nf.toNat 0 s M
      word s (ending (nr ≠ 0) true M) (k M)
    else pure (some (false, M))
  else .ok (some (false, M))

/-- MESH_InitFromFile.c:247-321 for files of type F1 or F4 -/
def edgeSection (ne nf nr : Int) (M : FMesh D) (w : List Char) (s : Text)
    (k : FMesh D → List Char → Text → Res (Ans D)) : Res (Ans D) :=
  if starts ['e','d','g','e','s'] w then do
    let (M, s) ← readEdges ne.toNat 0 s M
    word s (ending (nf ≠ 0 || nr ≠ 0) true M) (k M)
  else .ok (some (false, M))

/-- MESH_InitFromFile.c:161-243 -/
def adjVSection (nv : Nat) (missing : Bool) (M : FMesh D) (w : List Char) (s : Text)
    (k : List Char → Text → Res (Ans D)) : Res (Ans D) :=
  if starts ['a','d','j','v','e','r','t','i','c','e','s'] w then do
    let s ← dropAdjV nv s
    word s (ending missing true M) k
  else k w s

/-- MESH_InitFromFile.c:109-959 for files of type F1 or F4 -/
def body (dbl : Dbl D) (nv ne nf nr : Int) (s : Text) : Res (Ans D) := do
  let M := FMesh.new dbl
  let missing := ne ≠ 0 || nf ≠ 0 || nr ≠ 0
  let (w, s) ← getWord 256 s
  if starts ['v','e','r','t','i','c','e','s'] w then
    let (M, s) ← readVerts dbl nv.toNat 0 s M
    word s (ending missing false M) fun w s =>
      adjVSection nv.toNat missing M w s fun w s =>
        edgeSection ne nf nr M w s fun M w s =>
          faceSection nf nr M w s fun M w s =>
            regionSection nr M w s fun k M w s =>
              adjRSection k M w s fun M w s => attSection dbl M w s
  else pure (some (false, M))

/-- the four counts of the header; the call is not checked for missing conversions, and the counts
of a new mesh are 0 (MESH_InitFromFile.c:71-75) -/
def counts : Nat → Text → Res (List Int × Text)
  | 0, s => .ok ([], s)
  | n+1, s =>
    match scanInt s with
    | .ok a s => do
      let (l, s) ← counts n s
      pure (a :: l, s)
    | .bad s => .ok (List.replicate (n+1) 0, s)
    | .eof => .ok (List.replicate (n+1) 0, [])
    | .big => .ub

/-- the representation types known, MESH_InitFromFile.c:78-90; `true` for F1 and F4 -/
def repOf (w : List Char) : Option Bool :=
  if w.take 2 = ['F','1'] ∨ w.take 2 = ['F','4'] then some true
  else if w.take 2 = ['R','1'] ∨ w.take 2 = ['R','2'] ∨ w.take 2 = ['R','4'] then some false
  else none

/-- MESH_InitFromFile.c:71-959 -/
def head (dbl : Dbl D) (s : Text) : Res (Ans D) := do
  let (w, s) ← getWord 16 s
  let (cs, s) ← counts 4 s
  match repOf w, cs with
  | some true, [nv, ne, nf, nr] => body dbl nv ne nf nr s
  | some false, _ => pure none
  | _, _ => pure (some (false, FMesh.new dbl))

/-- `MESH_InitFromFile(mesh,filename,comm)` with a new mesh of type F1, MESH_InitFromFile.c:29-960.
The result `none` stands for a file of one of the types R1, R2 and R4, for which the function is
not modelled; otherwise it is the value returned and the mesh.  The call that reads the first word
and the version number compares the word before it looks at the result, and the version number is
used although it may not have been read: undefined. -/
def readFile (dbl : Dbl D) (s : Text) : Res (Ans D) := do
  match ← scanWord 256 s with
  | none => .ub
  | some (w, s) =>
    if w ≠ ['M','S','T','K'] then pure (some (false, FMesh.new dbl))
    else
      match scanDbl dbl s with
      | .ok _ s => head dbl s
      | _ => .ub

end File
end MSTK
