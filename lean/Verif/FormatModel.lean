import Verif.Res
/-!
Model of how `MESH_ExportToFile` (src/io/MESH_ExportToFile.c) and `MESH_ImportFromFile`
(src/io/MESH_ImportFromFile.c) choose the format of a file.

Strings are lists of the characters before the terminating 0.  What the routine of a format does with the
file is left out; its being called, and with what is returned otherwise, is the outcome.  `exo` says whether
the library was built with `ENABLE_ExodusII`.
-/
namespace MSTK.Fmt

/-- the routines that write or read a file -/
inductive Format
  | mstk | gmv | x3d | exodus | nemesis | stl | off | dx
deriving DecidableEq, Repr

/-- what a call comes to: the routine of a format is called and its result is returned, -1 is returned with
"Unknown file format", or 0 is returned with an error message -/
inductive Outcome
  | calls (f : Format)
  | unknown
  | refused
deriving DecidableEq, Repr

/-- `strchr(s,'.')` and `++ext`: what follows the first dot -/
def afterDot : List Char → Option (List Char)
  | [] => none
  | c :: cs => if c = '.' then some cs else afterDot cs

/-- MESH_ExportToFile.c:39-46 and MESH_ImportFromFile.c:25-32: a dot the name begins with is skipped -/
def extOf : List Char → Option (List Char)
  | '.' :: cs => afterDot cs
  | cs => afterDot cs

/-- `strcpy(format,…)` into `char format[16]`, MESH_ExportToFile.c:34-37, MESH_ImportFromFile.c:20-23 -/
def copied (s : List Char) : Res (List Char) := if s.length < 16 then .ok s else .ub

/-- `strncmp(s,p,n) == 0` for strings `s` and `p`: equal in the first `n` characters or up to the end -/
def sameN (s p : List Char) (n : Nat) : Bool := decide (s.take n = p.take n)

/-- the format an extension stands for, MESH_ExportToFile.c:49-60 -/
def exportExt (e : List Char) : Option (List Char) :=
  if e = "mstk".toList then some "mstk".toList
  else if e = "gmv".toList then some "gmv".toList
  else if e = "exo".toList then some "exodusii".toList
  else if e = "off".toList then some "off".toList
  else none

/-- the choice of the routine, MESH_ExportToFile.c:69-91 -/
def exportCall (exo : Bool) (format : List Char) : Outcome :=
  if sameN format "mstk".toList 4 then .calls .mstk
  else if sameN format "gmv".toList 3 then .calls .gmv
  else if sameN format "x3d".toList 4 then .calls .x3d
  else if sameN format "exo".toList 3 then (if exo then .calls .exodus else .refused)
  else if sameN format "stl".toList 3 then .calls .stl
  else if sameN format "off".toList 3 then .calls .off
  else if sameN format "dx".toList 3 then .calls .dx
  else .refused

/-- `MESH_ExportToFile`, MESH_ExportToFile.c:31-93; `format`: `outformat`, NULL when none is given -/
def exportTo (exo : Bool) (name : List Char) (format : Option (List Char)) : Res Outcome :=
  match format with
  | some f => do
    let f ← copied f
    pure (exportCall exo f)
  | none =>
    match extOf name with
    | none => .ok .unknown
    | some e =>
      match exportExt e with
      | none => .ok .unknown
      | some f => do
        let f ← copied f
        pure (exportCall exo f)

/-- the format an extension stands for, MESH_ImportFromFile.c:35-48 -/
def importExt (e : List Char) : Option (List Char) :=
  if e = "mstk".toList then some "mstk".toList
  else if e = "gmv".toList then some "gmv".toList
  else if e = "exo".toList then some "exodusii".toList
  else if e = "par".toList then some "nemesisi".toList
  else if e = "x3d".toList then some "x3d".toList
  else none

/-- the choice of the routine, MESH_ImportFromFile.c:57-85; `rep`: the type of representation of the mesh,
none for `UNKNOWN_REP`, `full`: the type `F1` -/
def importCall (exo : Bool) (full : Nat) (rep : Option Nat) (format : List Char) : Option Nat × Outcome :=
  if format = "mstk".toList then (rep, .calls .mstk)
  else
    let rep' := match rep with | none => some full | some t => some t
    if format = "gmv".toList then (rep', .calls .gmv)
    else if format = "exodusii".toList then (rep', if exo then .calls .exodus else .refused)
    else if format = "nemesisi".toList then (rep', if exo then .calls .nemesis else .refused)
    else if format = "x3d".toList then (rep', .calls .x3d)
    else (rep', .refused)

/-- `MESH_ImportFromFile`, MESH_ImportFromFile.c:18-87: the type of representation of the mesh when the
routine of the format is called or at the return, and the outcome -/
def importFrom (exo : Bool) (full : Nat) (rep : Option Nat) (name : List Char) (format : Option (List Char)) :
    Res (Option Nat × Outcome) :=
  match format with
  | some f => do
    let f ← copied f
    pure (importCall exo full rep f)
  | none =>
    match extOf name with
    | none => .ok (rep, .unknown)
    | some e =>
      match importExt e with
      | none => .ok (rep, .unknown)
      | some f => do
        let f ← copied f
        pure (importCall exo full rep f)

end MSTK.Fmt
