import Verif.Res
/-!
Model of `FixColumnPartitions` (src/par/FixColumnPartitions.c:128-235).

The mesh enters through what the function asks it: for each region the upward and downward face that
`FixColumnPartitions_UpDownFaces` (lines 69-125, floating-point geometry) finds, `none` where that
function stops with MSTK_FATAL; and for each face the regions it bounds (`MF_Regions`).  A region is
named by `MR_ID - 1`, the index the code uses into `part` and `touched`.
-/
namespace MSTK.Column

structure Mesh where
  /-- `MESH_Next_Region` order -/
  order : List Nat
  up : Nat → Option Nat
  dn : Nat → Option Nat
  regs : Nat → List Nat

/-- The inner `while (!done)` loop, lines 173-206.  `fuel` bounds the number of iterations. -/
def sweep (m : Mesh) (home : Int) : Nat → Nat → Nat → List Bool → List Int → Res (List Bool × List Int)
  | 0, _, _, _, _ => .hang
  | fuel+1, cur, expected, touched, part =>
    match touched[cur]? with
    | none => .ub
    | some true => .fatal                       -- "touches the same cell twice"
    | some false =>
      let touched := touched.set cur true
      match m.up cur, m.dn cur with
      | some topf, some botf =>
        if topf ≠ expected then .fatal          -- "up/down faces aren't consistent"
        else match m.regs botf with
          | [r0, r1] =>
            let nxt := if r0 = cur then r1 else r0
            match part[nxt]? with
            | none => .ub
            | some nxtpid =>
              let part := if nxtpid ≠ home then part.set nxt home else part
              sweep m home fuel nxt botf touched part
          | _ => .ok (touched, part)
      | _, _ => .fatal

/-- The outer loop, lines 151-210: for each region whose upward face bounds one region only. -/
def outer (m : Mesh) : List Nat → List Bool → List Int → Res (List Bool × List Int)
  | [], touched, part => .ok (touched, part)
  | r :: rest, touched, part =>
    match m.up r, m.dn r with
    | some topf, some _ =>
      if (m.regs topf).length = 1 then
        match part[r]? with
        | none => .ub
        | some home => do
          let (touched, part) ← sweep m home (m.order.length + 1) r topf touched part
          outer m rest touched part
      else outer m rest touched part
    | _, _ => .fatal

/-- `FixColumnPartitions`, lines 128-235; the result is the final `part` array.  (The report about
untouched regions, lines 214-228, has no other effect.) -/
def fix (m : Mesh) (part : List Int) : Res (List Int) :=
  if m.order.length = 0 then .ok part
  else do
    let (_, part) ← outer m m.order (List.replicate m.order.length false) part
    return part

end MSTK.Column
