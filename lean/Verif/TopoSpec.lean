import Verif.TopoQuery
import Verif.TopoBits

/-!
Specification of a consistent `F1` mesh, and the legal edit operations on it.
-/
namespace MSTK
namespace Topo

/-- entries of a list with the direction of their position -/
def pairs (l : List Nat) (b : Nat → Bool) : List (Nat × Bool) := l.mapIdx fun i x => (x, b i)

/-- `e` has `v` as an end -/
def ends (ev : Nat → Option Nat × Option Nat) (e v : Nat) : Prop :=
  (ev e).1 = some v ∨ (ev e).2 = some v

/-- `e` is one of the edges of `f` -/
def bounds (fe : Nat → Option (List Nat)) (f e : Nat) : Prop := e ∈ (fe f).getD []

/-- the faces of `r` with the direction in which `r` uses them -/
def facesOf (rf : Nat → Option (List Nat)) (rd : Nat → List (BitVec 32)) (r : Nat) :
    List (Nat × Bool) := pairs ((rf r).getD []) (rbit (rd r))

/-- the edges of `f` with the direction in which `f` uses them -/
def edgesOf (T : Topo) (f : Nat) : List (Nat × Bool) := pairs ((T.fe f).getD []) (fbit (T.fd f))

/-- Upward lists agree with downward definitions between two neighbouring dimensions:
`sl`/`su` state of the lower/upper entities, `up x` the upper entities stored with `x`, `bd y x`
"`x` is on the boundary of `y`". -/
structure Layer (sl : Nat → Stat) (up : Nat → List Nat) (su : Nat → Stat)
    (bd : Nat → Nat → Prop) : Prop where
  /-- `x` lists exactly the live `y` whose boundary contains `x` -/
  mem : ∀ x, (sl x).alloc → ∀ y, y ∈ up x ↔ su y = .live ∧ bd y x
  /-- each once -/
  nodup : ∀ x, (sl x).alloc → (up x).Nodup
  /-- a live entity is bounded by live entities -/
  down : ∀ y x, su y = .live → bd y x → sl x = .live

/-- The two region slots of a face agree with the regions: slot 0 holds the region that uses the
face in direction 1, slot 1 the one that uses it in direction 0. -/
structure Sides (sf : Nat → Stat) (fr : Nat → Option Nat × Option Nat) (sr : Nat → Stat)
    (fo : Nat → List (Nat × Bool)) : Prop where
  mem : ∀ f, (sf f).alloc → ∀ r d, endAt (fr f) (!d) = some r ↔ sr r = .live ∧ (f, d) ∈ fo r
  down : ∀ r f d, sr r = .live → (f, d) ∈ fo r → sf f = .live

/-- A region's face list has no repetitions and its direction words are long enough. -/
def RegOk (l : List Nat) (w : List (BitVec 32)) : Prop := l.Nodup ∧ 1 + l.length/32 ≤ w.length

/-- Consistent mesh. -/
structure Consistent (T : Topo) : Prop where
  ve : Layer T.sv T.ve T.se (ends T.ev)
  ef : Layer T.se T.ef T.sf (bounds T.fe)
  fr : Sides T.sf T.fr T.sr (facesOf T.rf T.rd)
  reg : ∀ r l, (T.sr r).alloc → T.rf r = some l → RegOk l (T.rd r)
  /-- handles not handed out yet are unused -/
  newV : ∀ i, T.nv ≤ i → T.sv i = .unused
  newE : ∀ i, T.ne ≤ i → T.se i = .unused
  newF : ∀ i, T.nf ≤ i → T.sf i = .unused
  newR : ∀ i, T.nr ≤ i → T.sr i = .unused

/-- The edit operations of the topology API. -/
inductive Op where
  | newVertex | newEdge | newFace | newRegion
  | setVertex (e : Nat) (i : Bool) (v : Nat)
  | replaceVertex (e oldv nuv : Nat)
  | setEdges (f : Nat) (es : List (Nat × Bool))
  | remEdge (f e : Nat)
  | replaceEdges (f : Nat) (old nu : List Nat)
  | replaceEdgesAt (f nold i : Nat) (nu : List Nat)
  | revEdgeDir (f i : Nat)
  | setVertices (f : Nat) (vs : List Nat)
  | setFaces (r : Nat) (fs : List (Nat × Bool))
  | remFace (r f : Nat)
  | setFaceDir (r i : Nat) (d : Bool)
  | revFaceDir (r i : Nat)
  | replaceFaces (r : Nat) (old : List Nat) (nu : List (Nat × Bool))
  | replaceFaceAt (r i g : Nat) (d : Bool)
  | delVertex (v : Nat) (keep : Bool)
  | delEdge (e : Nat) (keep : Bool)
  | delFace (f : Nat) (keep : Bool)
  | delRegion (r : Nat) (keep : Bool)
  | restoreVertex (v : Nat)
  | restoreEdge (e : Nat)
  | restoreFace (f : Nat)
  | restoreRegion (r : Nat)

/-- Execution of an operation. -/
def step (T : Topo) : Op → Res Topo
  | .newVertex => .ok T.mvNew.1
  | .newEdge => .ok T.meNew.1
  | .newFace => .ok T.mfNew.1
  | .newRegion => .ok T.mrNew.1
  | .setVertex e i v => T.meSetVertex e i v
  | .replaceVertex e o n => T.meReplaceVertex e o n
  | .setEdges f es => T.mfSetEdges f es
  | .remEdge f e => T.mfRemEdge f e
  | .replaceEdges f old nu => T.mfReplaceEdges f old nu
  | .replaceEdgesAt f nold i nu => T.mfReplaceEdges_i f nold i nu
  | .revEdgeDir f i => T.mfRevEdgeDir_i f i
  | .setVertices f vs => T.mfSetVertices f vs
  | .setFaces r fs => T.mrSetFaces r fs
  | .remFace r f => T.mrRemFace r f
  | .setFaceDir r i d => T.mrSetFaceDir_i r i d
  | .revFaceDir r i => T.mrRevFaceDir_i r i
  | .replaceFaces r old nu => T.mrReplaceFaces r old nu
  | .replaceFaceAt r i g d => T.mrReplaceFace_i r i g d
  | .delVertex v k => T.mvDelete v k
  | .delEdge e k => T.meDelete e k
  | .delFace f k => T.mfDelete f k
  | .delRegion r k => T.mrDelete r k
  | .restoreVertex v => T.mvRestore v
  | .restoreEdge e => T.meRestore e
  | .restoreFace f => T.mfRestore f
  | .restoreRegion r => T.mrRestore r

/-- Execution of a history. -/
def run (T : Topo) : List Op → Res Topo
  | [] => .ok T
  | o :: os => do
    let T ← T.step o
    run T os

/-- Every face in the list has an edge list (`MF_Num_Vertices` may be called). -/
def Sized (T : Topo) (fs : List Nat) : Prop := ∀ f ∈ fs, ∃ l, T.fe f = some l

/-- What the caller has to respect.  Entities passed are live; an entity is defined once; a
replacement does not bring in entities the owner has already; sides of faces are free;
lower-dimensional entities are deleted after the ones they bound; at most 32 edges per face
(MF_Edge_Funcs_F1F3.c:117) and 512 faces per region (`MAXPF3`). -/
def Legal (T : Topo) : Op → Prop
  | .newVertex | .newEdge | .newFace | .newRegion => True
  | .setVertex e i v => T.se e = .live ∧ T.sv v = .live ∧ endAt (T.ev e) i = none
  | .replaceVertex e o n => T.se e = .live ∧ T.sv n = .live ∧ o ≠ n ∧
      ¬ ((T.ev e).1 = some o ∧ (T.ev e).2 = some o)
  | .setEdges f es => T.sf f = .live ∧ (T.fe f).getD [] = [] ∧ es.length ≤ 32 ∧
      ∀ p ∈ es, T.se p.1 = .live
  | .remEdge f e => T.sf f = .live ∧ ∃ l, T.fe f = some l ∧ l.length ≤ 64 ∧ l.count e ≤ 1
  | .replaceEdgesAt f nold i nu => T.sf f = .live ∧ ∃ l, T.fe f = some l ∧ l.Nodup ∧
      i < l.length ∧ 0 < nold ∧ nold ≤ l.length ∧ nu ≠ [] ∧ nu.Nodup ∧
      (∀ e ∈ nu, T.se e = .live ∧ e ∉ l) ∧ l.length ≤ 32 ∧ l.length - nold + nu.length ≤ 32 ∧
      (nold < nu.length → i + nold ≤ l.length)
  | .replaceEdges f old nu => T.sf f = .live ∧ ∃ l, T.fe f = some l ∧ l.Nodup ∧
      old ≠ [] ∧ old.Nodup ∧ (∀ e ∈ old, e ∈ l) ∧ nu ≠ [] ∧ nu.Nodup ∧
      (∀ e ∈ nu, T.se e = .live ∧ e ∉ l) ∧ l.length ≤ 32 ∧
      l.length - old.length + nu.length ≤ 32 ∧
      (old.length < nu.length → ∃ s, old = (l.drop s).take old.length)
  | .revEdgeDir f i => T.sf f = .live ∧ i < 64
  | .setVertices f vs => T.sf f = .live ∧ (T.fe f).getD [] = [] ∧ vs.length ≤ 30 ∧
      ∀ v ∈ vs, T.sv v = .live
  | .setFaces r fs => T.sr r = .live ∧ (T.rf r).getD [] = [] ∧ (fs.map (·.1)).Nodup ∧
      (∀ p ∈ fs, T.sf p.1 = .live ∧ endAt (T.fr p.1) (!p.2) = none) ∧ T.Sized (fs.map (·.1))
  | .remFace r _ => T.sr r = .live ∧ ∃ l, T.rf r = some l
  | .setFaceDir r i d => T.sr r = .live ∧ ∃ l f, T.rf r = some l ∧ l[i]? = some f ∧
      (endAt (T.fr f) (!d) = none ∨ endAt (T.fr f) (!d) = some r)
  | .revFaceDir r i => T.sr r = .live ∧ ∃ l f, T.rf r = some l ∧ l[i]? = some f ∧
      ∀ o k l', T.sr o = .live → T.rf o = some l' → l'[k]? = some f → k < 512
  | .replaceFaces r old nu => T.sr r = .live ∧ ∃ l, T.rf r = some l ∧ old.Nodup ∧
      (∀ f ∈ old, f ∈ l) ∧ (nu.map (·.1)).Nodup ∧ old.length ≤ nu.length ∧
      l.length - old.length + nu.length ≤ 512 ∧
      (∀ p ∈ nu, T.sf p.1 = .live ∧ p.1 ∉ l ∧ endAt (T.fr p.1) (!p.2) = none) ∧
      T.Sized l ∧ T.Sized (nu.map (·.1))
  | .replaceFaceAt r i g d => T.sr r = .live ∧ ∃ l, T.rf r = some l ∧ i < l.length ∧
      T.sf g = .live ∧ g ∉ l ∧ endAt (T.fr g) (!d) = none ∧ T.Sized l ∧ T.Sized [g]
  | .delVertex v _ => (T.sv v).alloc ∧ ∀ e, T.se e = .live → ¬ ends T.ev e v
  | .delEdge e _ => (T.se e).alloc ∧ ∀ f, T.sf f = .live → ¬ bounds T.fe f e
  | .delFace f _ => (T.sf f).alloc ∧ ∀ r d, T.sr r = .live → (f, d) ∉ facesOf T.rf T.rd r
  | .delRegion r _ => (T.sr r).alloc
  | .restoreVertex v => (T.sv v).alloc
  | .restoreEdge e => (T.se e).alloc ∧ ∃ a b, T.ev e = (some a, some b) ∧ T.sv a = .live ∧
      T.sv b = .live
  | .restoreFace f => (T.sf f).alloc ∧ ∃ l, T.fe f = some l ∧ ∀ e ∈ l, T.se e = .live
  | .restoreRegion r => T.sr r = .kept ∧ ∃ l, T.rf r = some l ∧
      ∀ p ∈ facesOf T.rf T.rd r, T.sf p.1 = .live ∧ endAt (T.fr p.1) (!p.2) = none

/-- A history all of whose operations are legal when they are executed. -/
def LegalRun (T : Topo) : List Op → Prop
  | [] => True
  | o :: os => T.Legal o ∧ ∀ T', T.step o = .ok T' → LegalRun T' os

end Topo
end MSTK
