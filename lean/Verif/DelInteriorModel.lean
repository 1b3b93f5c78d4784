import Verif.TopoQuery

/-!
Model of `MESH_DelInterior` (src/hilev/MESH_DelInterior.c): the interior of a mesh is deleted and its
boundary remains.

`gv`, `ge`, `gf` are the dimensions of the model entities the vertices, edges and faces are on
(`MV_GEntDim`, `ME_GEntDim`, `MF_GEntDim`).  The entity lists of the mesh are given beside the topology;
deleting an entity takes it out of its list (`MESH_Rem_Vertex` and so on, called by the delete
functions).
-/
namespace MSTK
namespace Topo

/-- A loop `for (i = n-1; i >= 0; i--)` over the entities of one kind, MESH_DelInterior.c:54-57, 59-63,
65-69 and 71-75: entity `i` of the list is deleted if `cond` says so. -/
def delLoop (del : Topo → Nat → Res Topo) (cond : Nat → Bool) : Nat → List Nat → Topo → Res (List Nat × Topo)
  | 0, l, T => .ok (l, T)
  | i+1, l, T => do
    let x ← Res.ofOption l[i]?
    if cond x then
      let T' ← del T x
      delLoop del cond i (l.erase x) T'
    else delLoop del cond i l T

/-- What `MESH_DelInterior` leaves: the entity lists and the topology. -/
structure Left where
  vl : List Nat
  el : List Nat
  fl : List Nat
  rl : List Nat
  T : Topo

/-- `dim`, MESH_DelInterior.c:39-49; `none`: only vertices, nothing is done. -/
def interiorDim (nr nf ne : Nat) : Option Nat :=
  if nr ≠ 0 then some 3 else if nf ≠ 0 then some 2 else if ne ≠ 0 then some 1 else none

/-- `MESH_DelInterior`, MESH_DelInterior.c:28-78.  The value returned is 1 and 0 for `none`. -/
def delInterior (gv ge gf : Nat → Nat) (vl el fl rl : List Nat) (T : Topo) : Res (Option Left) :=
  match interiorDim rl.length fl.length el.length with
  | none => .ok none
  | some dim => do
    let (rl', T1) ← delLoop (fun T r => T.mrDelete r false) (fun _ => true) rl.length rl T
    let (fl', T2) ← delLoop (fun T f => T.mfDelete f false) (fun f => gf f = dim) fl.length fl T1
    let (el', T3) ← delLoop (fun T e => T.meDelete e false) (fun e => ge e = dim) el.length el T2
    let (vl', T4) ← delLoop (fun T v => T.mvDelete v false) (fun v => gv v = dim) vl.length vl T3
    pure (some ⟨vl', el', fl', rl', T4⟩)

end Topo
end MSTK
