import Verif.GraphModel

/-!
Model of `MESH_PartitionWithMetis` (src/par/MESH_PartitionWithMetis.c) and of
`MESH_Get_Partitioning` (src/par/MESH_Get_Partitioning.c): the dual graph of a mesh is built, handed to
the METIS library, and the parts METIS chose are handed to the caller.

Simplifications: `int`, `idx_t` are unbounded, `malloc` does not fail, the lists that are not freed when
`continue` is executed (MESH_PartitionWithMetis.c:77) are not modelled.  The METIS library is not part of
the code: its two functions are parameters that answer with the entries they wrote to the array for the
parts.  So is the partitioning with Zoltan.
-/
namespace MSTK
namespace Topo

/-- "adjncy[ipos] = …; ipos++", MESH_PartitionWithMetis.c:84-85, 127-128.  The array is never made
larger: writing behind its end is undefined. -/
def Buf.write (b : Buf) (x : Int) : Res Buf :=
  if b.out.length < b.cap then .ok { b with out := b.out ++ [x] } else .ub

/-- The loop over the faces of an edge, MESH_PartitionWithMetis.c:81-87. -/
def metisEdge (T : Topo) (fid : Nat → Int) (f : Nat) : List Nat → Buf → Res Buf
  | [], b => .ok b
  | g :: gs, b =>
    if g ≠ f then do
      T.derefF g
      let b ← b.write (fid g - 1)
      metisEdge T fid f gs b
    else metisEdge T fid f gs b

/-- The loop over the edges of a face, MESH_PartitionWithMetis.c:70-92. -/
def metisFace (T : Topo) (fid : Nat → Int) (f : Nat) : List Nat → Buf → Res Buf
  | [], b => .ok b
  | e :: es, b => do
    let L ← T.meFaces e
    let l ← Res.ofOption L
    if l.length = 1 then metisFace T fid f es b
    else
      let b ← T.metisEdge fid f l b
      metisFace T fid f es b

/-- The loop over the faces, MESH_PartitionWithMetis.c:63-98; `xadj` is the first result. -/
def metisSurface (T : Topo) (fid : Nat → Int) : List Nat → List Nat → Buf → Res (List Nat × Buf)
  | [], xadj, b => .ok (xadj, b)
  | f :: fs, xadj, b => do
    let l ← T.mfEdges f true none
    let b ← T.metisFace fid f l b
    metisSurface T fid fs (xadj ++ [b.out.length]) b

/-- The loop over the faces of a region, MESH_PartitionWithMetis.c:116-132. -/
def metisRegion (T : Topo) (rid : Nat → Int) (r : Nat) : List Nat → Buf → Res Buf
  | [], b => .ok b
  | f :: fs, b => do
    let L ← T.mfRegions f
    let l ← Res.ofOption L
    if 1 < l.length then
      let o ← Res.ofOption (if l[0]? = some r then l[1]? else l[0]?)
      T.derefR o
      let b ← b.write (rid o - 1)
      metisRegion T rid r fs b
    else metisRegion T rid r fs b

/-- The loop over the regions, MESH_PartitionWithMetis.c:109-138. -/
def metisVolume (T : Topo) (rid : Nat → Int) : List Nat → List Nat → Buf → Res (List Nat × Buf)
  | [], xadj, b => .ok (xadj, b)
  | r :: rs, xadj, b => do
    let l ← T.mrFaces r
    let b ← T.metisRegion rid r l b
    metisVolume T rid rs (xadj ++ [b.out.length]) b

/-- The graph, MESH_PartitionWithMetis.c:40-140: `exit` when there are neither faces nor regions.  `el`,
`fl`, `rl`: the edges, faces and regions of the mesh in the order of `MESH_Next_…`; `fid`, `rid`: the IDs
of faces and regions. -/
def metisGraph (T : Topo) (el fl rl : List Nat) (fid rid : Nat → Int) : Res Graph :=
  if rl.length = 0 then
    if fl.length = 0 then .fatal
    else do
      let p ← T.metisSurface fid fl [0] ⟨2 * el.length, []⟩
      pure ⟨fl.length, p.1, p.2.out⟩
  else do
    let p ← T.metisVolume rid rl [0] ⟨2 * fl.length, []⟩
    pure ⟨rl.length, p.1, p.2.out⟩

/-- The functions of the METIS library that are called: `METIS_PartGraphRecursive` and
`METIS_PartGraphKway`, MESH_PartitionWithMetis.c:164, 168.  For a graph and a number of parts: the
entries written to the array for the parts, from the first one. -/
structure MetisLib where
  recursive : Graph → Nat → List Int
  kway : Graph → Nat → List Int

/-- "(*part)[i] = (int) idxpart[i]", MESH_PartitionWithMetis.c:178-179; an entry METIS has not written is
undefined. -/
def copyPart (idx : List Int) : Nat → Res (List Int)
  | 0 => .ok []
  | i+1 => do
    let l ← copyPart idx i
    let x ← Res.ofOption idx[i]?
    pure (l ++ [x])

/-- `MESH_PartitionWithMetis`, MESH_PartitionWithMetis.c:25-184. -/
def partitionWithMetis (lib : MetisLib) (T : Topo) (el fl rl : List Nat) (fid rid : Nat → Int)
    (nparts : Nat) : Res (List Int) := do
  let g ← T.metisGraph el fl rl fid rid
  let idx := if nparts ≤ 8 then lib.recursive g nparts else lib.kway g nparts
  copyPart idx g.n

/-- `MESH_Get_Partitioning`, MESH_Get_Partitioning.c:30-125, compiled without DEBUG.  `lib`: METIS, when
it was configured; `zoltan`: what `MESH_PartitionWithZoltan` does (not modelled).  The result is `*part`. -/
def getPartitioning (lib : Option MetisLib) (zoltan : Nat → Res (Option (List Int))) (T : Topo)
    (el fl rl : List Nat) (fid rid : Nat → Int) (rank num : Nat) (method : Int) :
    Res (Option (List Int)) :=
  let ncells := if rank = 0 then (if rl.length ≠ 0 then rl.length else fl.length) else 0
  if num = 1 then .ok (some (List.replicate ncells 0))
  else if method = 0 then
    if rank = 0 then
      match lib with
      | none => .fatal
      | some lib => do
        let p ← partitionWithMetis lib T el fl rl fid rid num
        pure (some p)
    else .ok none
  else if method = 1 then zoltan 1
  else if method = 2 then zoltan 2
  else .fatal

end Topo
end MSTK
