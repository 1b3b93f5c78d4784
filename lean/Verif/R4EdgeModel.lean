import Verif.R4Model
/-!
Model of the edges of a region in the representations `R3` and `R4`: `MR_Edges_R3R4` and `MR_UsesEdge_R3R4`
(MR_Edge_Funcs_R3R4.c), with `MF_Edges_R4` in either direction.

Simplifications: those of `Verif.R4Model`; an edge is given by its number and what is stored as its two
vertices.  All edges made are new ones (without `HASHTABLE`); locks and classification are left out.  The
counter `n` is not set for regions that are neither tets nor hexes and not used for them.
-/
namespace MSTK.R4M

open R1M (deref)

/-- What a pointer to an entity may point to: the edges of some faces are handled as if they were vertices.
Only what vertices and edges have in common is read through these pointers (MVertex.c:219-222,
MEdge.c:125-128, 145-170). -/
inductive Ent
  | vert (v : Nat)
  | edge (e : Nat)
deriving DecidableEq, Repr

/-- an edge: its number and its two vertices -/
abbrev Side (α : Type) := Nat × α × α

/-- the number of edges made so far, the counter `n` and the list `redges` -/
structure St (α : Type) where
  en : Nat
  n : Nat
  es : List (Side α)
deriving DecidableEq

/-- the loop of `MF_Edges_R4`, MF_Edge_Funcs_R4.c:48-84, without start -/
def sidesFrom {α : Type} (fs : List α) (dir : Bool) : Nat → List Nat → Res (List (Side α))
  | _, [] => .ok []
  | en, i :: is => do
    let a ← Res.ofOption fs[if dir then i % fs.length else (fs.length - i) % fs.length]?
    let b ← Res.ofOption fs[if dir then (i + 1) % fs.length else (fs.length - (i + 1)) % fs.length]?
    let l ← sidesFrom fs dir (en + 1) is
    pure ((en, a, b) :: l)

/-- `MF_Edges_R4`, MF_Edge_Funcs_R4.c:23-94: the number of edges made and the edges -/
def faceSides (M : Mesh4) (en f : Nat) (dir : Bool) : Res (Nat × List (Side Ent)) := do
  deref (M.sf f)
  let fs ← Res.ofOption (M.fv f)
  let l ← sidesFrom (fs.map .vert) dir en (List.range fs.length)
  pure (en + fs.length, l)

/-- the search for an edge between two vertices, MR_Edge_Funcs_R3R4.c:47-55, 171-179, 239-247 -/
def joined {α : Type} [DecidableEq α] (es : List (Side α)) (a b : α) : Bool :=
  es.any fun e => (a = e.2.1 ∧ b = e.2.2) ∨ (a = e.2.2 ∧ b = e.2.1)

/-- an edge is made unless there is one, MR_Edge_Funcs_R3R4.c:57-85, 181-209, 249-277 -/
def addSide {α : Type} [DecidableEq α] (s : St α) (a b : α) : St α :=
  if joined s.es a b then s else ⟨s.en + 1, s.n + 1, s.es ++ [(s.en, a, b)]⟩

/-- whether the loop goes on: "n < cap" -/
def below (n : Nat) : Option Nat → Bool
  | none => true
  | some c => decide (n < c)

/-- the loop over the entries of `fverts`, MR_Edge_Funcs_R3R4.c:43-86, 92-135, 167-210, 235-278; `w`: the
number it goes around with -/
def addSides {α : Type} [DecidableEq α] (cap : Option Nat) (vs : List α) (w : Nat) : List Nat → St α → Res (St α)
  | [], s => .ok s
  | i :: is, s =>
    if below s.n cap then do
      let a ← Res.ofOption vs[i]?
      let b ← Res.ofOption vs[(i + 1) % w]?
      addSides cap vs w is (addSide s a b)
    else .ok s

/-- the tet, MR_Edge_Funcs_R3R4.c:37-138, for the vertices of its first three faces; `d`: the direction of
the first face -/
def tetSides {α : Type} [DecidableEq α] (en : Nat) (d : Bool) (fs0 fs1 fs2 : List α) : Res (St α) := do
  let l ← sidesFrom fs0 (!d) en (List.range fs0.length)
  let s ← addSides (some 5) fs1 3 (List.range 3) ⟨en + fs0.length, 3, l⟩
  addSides (some 6) fs2 3 (List.range 3) s

/-- the vertices of a face, as they are compared -/
def faceVerts (M : Mesh4) (f : Nat) : Res (List Ent) := do
  let o ← mfVertices M f true none
  let vs ← Res.ofOption o
  pure (vs.map .vert)

/-- the region with four faces, MR_Edge_Funcs_R3R4.c:33-138 -/
def tetEdges (M : Mesh4) (en : Nat) (fds : List (Nat × Bool)) : Res (St Ent) := do
  let p0 ← Res.ofOption fds[0]?
  let p1 ← Res.ofOption fds[1]?
  let p2 ← Res.ofOption fds[2]?
  let vs0 ← faceVerts M p0.1
  let vs1 ← faceVerts M p1.1
  let vs2 ← faceVerts M p2.1
  tetSides en p0.2 vs0 vs1 vs2

/-- the loop over the other faces but the last, MR_Edge_Funcs_R3R4.c:162-212 with `cap` 12 and going around with 4,
229-281 without: `fverts` is the list of the edges of the face -/
def otherFaces (M : Mesh4) (cap : Option Nat) : List (Nat × Bool) → St Ent → Res (St Ent)
  | [], s => .ok s
  | p :: ps, s =>
    if below s.n cap then do
      let q ← faceSides M s.en p.1 true
      let vs := q.2.map fun e => Ent.edge e.1
      let w := if cap.isSome then 4 else vs.length
      let s ← addSides cap vs w (List.range w) { s with en := q.1 }
      otherFaces M cap ps s
    else .ok s

/-- the first face and the others but the last, MR_Edge_Funcs_R3R4.c:155-214, 223-289 -/
def facesEdges (M : Mesh4) (en : Nat) (cap : Option Nat) (fds : List (Nat × Bool)) : Res (St Ent) := do
  let p0 ← Res.ofOption fds[0]?
  let q ← faceSides M en p0.1 (!p0.2)
  otherFaces M cap ((fds.take (fds.length - 1)).drop 1) ⟨q.1, 4, q.2⟩

/-- `MR_Edges_R3R4`, MR_Edge_Funcs_R3R4.c:20-290; `en`: the number of edges made before -/
def mrEdges (M : Mesh4) (en r : Nat) : Res (St Ent) := do
  deref (M.sr r)
  let fds ← Res.ofOption (M.rf r)
  if fds.length = 4 then tetEdges M en fds
  else if fds.length = 6 then do
    let ns ← sizes M (fds.map (·.1))
    if ns.all (· = 4) then facesEdges M en (some 12) fds
    else facesEdges M en none fds
  else facesEdges M en none fds

/-- the loop of `MR_UsesEdge_R3R4`, MR_Edge_Funcs_R3R4.c:305-309, with `MF_UsesEntity` for an edge, MFace.c:220-236 -/
def anyUsesEdge (M : Mesh4) (a b : Nat) : List Nat → Res Bool
  | [] => .ok false
  | f :: fs => do
    let u ← mfUsesEdge M f a b
    if u then pure true else anyUsesEdge M a b fs

/-- `MR_UsesEdge_R3R4`, MR_Edge_Funcs_R3R4.c:298-311, for an edge from `a` to `b` -/
def mrUsesEdge (M : Mesh4) (r a b : Nat) : Res Bool := do
  let fs ← mrFaces M r
  anyUsesEdge M a b fs

end MSTK.R4M
