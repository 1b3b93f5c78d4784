import Verif.GenDescModel
import Verif.AddPolys
import Verif.Props.Tet2Hex

/-!
C73: `MESH_InitFromGenDesc` makes the mesh that the lists describe.
-/
namespace MSTK
namespace Topo

/-! ### specification -/

/-- the vertices with the given numbers; the vertices of a new mesh are `0, 1, ...` -/
def numbers (c : List Int) : List Nat := c.map Int.toNat

/-- Every face of the list has 3 to 30 different vertices that exist, and no face is listed twice. -/
structure FaceListOk (n : Nat) (F : List (List Int)) : Prop where
  range : ∀ c ∈ F, ∀ i ∈ c, 0 ≤ i ∧ i < (n : Int)
  nodup : ∀ c ∈ F, c.Nodup
  size : ∀ c ∈ F, 3 ≤ c.length ∧ c.length ≤ 30
  once : F.Pairwise fun c c' => ¬ c' ~r c ∧ ¬ c' ~r c.reverse

/-- The vertices have the coordinates of the list, and entities are numbered in the order of the lists. -/
structure Labelled {P : Type} (M : GenMesh P) (xyz : List P) (nf nr : Nat) : Prop where
  pos : ∀ v x, xyz[v]? = some x → M.pos v = some x
  vid : ∀ v, v < xyz.length → M.vid v = v + 1
  fid : ∀ f, f < nf → M.fid f = f + 1
  rid : ∀ r, r < nr → M.rid r = r + 1

/-- The mesh has the vertices `0..n-1`, the listed faces in order, and no other edges than theirs, each
once. -/
structure FaceMesh (T : Topo) (n : Nat) (F : List (List Int)) : Prop where
  cons : T.Consistent
  loops : T.AllLoops
  simple : T.SimpleEdges
  verts : ∀ v, T.sv v = .live ↔ v < n
  faces : ∀ f, T.sf f = .live ↔ f < F.length
  regions : ∀ r, T.sr r ≠ .live
  cycles : ∀ (f : Nat) c, F[f]? = some c → T.mfVertices f true none = .ok ((numbers c).map some)
  edges : ∀ a b, a ≠ b → (T.EdgeBetween a b ↔ ∃ c ∈ F, Next (numbers c) a b ∨ Next (numbers c) b a)

/-- The faces of region number `i` as cycles of vertices, seen from outside: the table of the standard
element, or the rows of the template. -/
def cellCycles (tm : Option (List (List (List Int)))) (i : Nat) (c : List Int) : List (List Nat) :=
  match tm with
  | none => stdCycles (numbers c)
  | some rows => if c.length = 4 then stdCycles (numbers c) else (rows.getD i []).map (picks (numbers c))

/-- the faces of all regions -/
def cellList (tm : Option (List (List (List Int)))) (R : List (List Int)) : List (List (List Nat)) :=
  R.mapIdx fun i c => cellCycles tm i c

/-- The mesh has the vertices `0..n-1` and regions with the listed faces in order, no other faces and edges
than theirs, each once. -/
structure RegionMesh (T : Topo) (n : Nat) (C : List (List (List Nat))) : Prop where
  cons : T.Consistent
  loops : T.AllLoops
  simpleE : T.SimpleEdges
  simpleF : T.SimpleFaces
  verts : ∀ v, T.sv v = .live ↔ v < n
  regions : ∀ r, T.sr r = .live ↔ r < C.length
  cells : ∀ (r : Nat) cs, C[r]? = some cs → ∃ fs, T.mrFaces r = .ok fs ∧ fs.length = cs.length ∧
    ∀ (i : Nat) c f, cs[i]? = some c → fs[i]? = some f → T.Uses r f c
  faces : ∀ f, T.sf f = .live → ∃ r, T.RegionHas r f
  edges : ∀ a b, a ≠ b → (T.EdgeBetween a b ↔ ∃ cs ∈ C, ∃ c ∈ cs, Next c a b ∨ Next c b a)

/-- A polyhedron with a template that can be built. -/
structure PolyOk (vs : List Int) (rows : List (List Int)) : Prop where
  size : vs.length ≤ 200 ∧ rows.length ≤ 512
  range : ∀ row ∈ rows, ∀ i ∈ row, 0 ≤ i ∧ i < (vs.length : Int)
  faces : ∀ row ∈ rows, 3 ≤ row.length ∧ row.length ≤ 30 ∧ row.Nodup
  apart : rows.Pairwise fun x y => ¬ x.Perm y

/-- Every region of the list is a standard element or has a usable template; its vertices are different and
exist; no side of a face belongs to two regions; two regions that meet in the vertices of a face go round
them in the same or in the opposite order. -/
structure RegionListOk (n : Nat) (R : List (List Int)) (tm : Option (List (List (List Int)))) : Prop where
  range : ∀ c ∈ R, ∀ i ∈ c, 0 ≤ i ∧ i < (n : Int)
  nodup : ∀ c ∈ R, c.Nodup
  std : tm = none → ∀ c ∈ R, c.length = 4 ∨ c.length = 5 ∨ c.length = 6 ∨ c.length = 8
  poly : ∀ rows, tm = some rows → ∀ (i : Nat) c, R[i]? = some c → c.length ≠ 4 → ∃ row, rows[i]? = some row ∧ PolyOk c row
  once : (cellList tm R).Pairwise fun cs cs' => ∀ c ∈ cs, ∀ c' ∈ cs', ¬ c' ~r c
  meet : (cellList tm R).Pairwise fun cs cs' => ∀ c ∈ cs, ∀ c' ∈ cs', c.Perm c' → c' ~r c ∨ c' ~r c.reverse

/-! ### numbers -/

theorem picks_range {n : Nat} {c : List Int} (h : ∀ i ∈ c, 0 ≤ i ∧ i < (n : Int)) : picks (List.range n) c = numbers c := by
  unfold picks numbers
  refine List.map_congr_left ?_
  intro i hi
  have := h i hi
  rw [List.getD_eq_getElem?_getD, List.getElem?_range (by omega)]
  rfl

theorem vertsAt_range {n : Nat} {c : List Int} (h : ∀ i ∈ c, 0 ≤ i ∧ i < (n : Int)) :
    vertsAt (List.range n) c = .ok (numbers c) := by
  rw [vertsAt_ok (by rw [List.length_range]; exact h), picks_range h]

theorem numbers_nodup {n : Nat} {c : List Int} (h : ∀ i ∈ c, 0 ≤ i ∧ i < (n : Int)) (hn : c.Nodup) : (numbers c).Nodup := by
  refine hn.map_on ?_
  intro i hi j hj e
  have := h i hi
  have := h j hj
  omega

theorem numbers_lt {n : Nat} {c : List Int} (h : ∀ i ∈ c, 0 ≤ i ∧ i < (n : Int)) : ∀ v ∈ numbers c, v < n := by
  intro v hv
  obtain ⟨i, hi, rfl⟩ := List.mem_map.1 hv
  have := h i hi
  omega

theorem numbers_back {n : Nat} {c : List Int} (h : ∀ i ∈ c, 0 ≤ i ∧ i < (n : Int)) :
    (numbers c).map Int.ofNat = c := by
  unfold numbers
  rw [List.map_map]
  conv => rhs; rw [← List.map_id c]
  refine List.map_congr_left ?_
  intro i hi
  have := h i hi
  show Int.ofNat i.toNat = i
  exact Int.toNat_of_nonneg this.1

theorem numbers_rotated {n : Nat} {c c' : List Int} (h : ∀ i ∈ c, 0 ≤ i ∧ i < (n : Int)) (h' : ∀ i ∈ c', 0 ≤ i ∧ i < (n : Int))
    (hr : numbers c ~r numbers c') : c ~r c' := by
  have := hr.map Int.ofNat
  rwa [numbers_back h, numbers_back h'] at this

theorem numbers_reverse (c : List Int) : numbers c.reverse = (numbers c).reverse := by
  unfold numbers; rw [List.map_reverse]

theorem numbers_length (c : List Int) : (numbers c).length = c.length := List.length_map ..

/-! ### the vertices -/

theorem genVerts_spec {P : Type} : ∀ (xs : List P) (i : Nat) (M : GenMesh P),
    (genVerts i xs M).1.T = addVerts xs.length M.T ∧ (genVerts i xs M).2 = List.range' M.T.nv xs.length ∧
    (∀ v, v < M.T.nv → (genVerts i xs M).1.pos v = M.pos v ∧ (genVerts i xs M).1.vid v = M.vid v) ∧
    (∀ j x, xs[j]? = some x → (genVerts i xs M).1.pos (M.T.nv + j) = some x ∧ (genVerts i xs M).1.vid (M.T.nv + j) = i + j + 1) ∧
    (genVerts i xs M).1.fid = M.fid ∧ (genVerts i xs M).1.rid = M.rid := by
  intro xs
  induction xs with
  | nil => intro i M; exact ⟨rfl, rfl, fun _ _ => ⟨rfl, rfl⟩, by simp, rfl, rfl⟩
  | cons x xs ih =>
    intro i M
    obtain ⟨h1, h2, h3, h4, h5, h6⟩ := ih (i+1)
      { M with T := M.T.mvNew.1, pos := upd M.pos M.T.mvNew.2 (some x), vid := upd M.vid M.T.mvNew.2 (i+1) }
    have hnv : M.T.mvNew.1.nv = M.T.nv + 1 := rfl
    have hid : M.T.mvNew.2 = M.T.nv := rfl
    unfold genVerts
    dsimp only at h1 h2 h3 h4 h5 h6 ⊢
    rw [hnv, hid] at h2 h3 h4
    rw [hid] at h1 h5 h6 ⊢
    refine ⟨h1, by rw [h2]; rfl, ?_, ?_, h5, h6⟩
    · intro v hv
      obtain ⟨k1, k2⟩ := h3 v (by omega)
      rw [k1, k2, upd_ne _ _ (by omega), upd_ne _ _ (by omega)]
      exact ⟨rfl, rfl⟩
    · intro j y hj
      cases j with
      | zero =>
        obtain ⟨k1, k2⟩ := h3 M.T.nv (by omega)
        rw [show M.T.nv + 0 = M.T.nv from rfl, k1, k2, upd_same, upd_same]
        injection hj with hj
        exact ⟨congrArg some hj, rfl⟩
      | succ j =>
        obtain ⟨k1, k2⟩ := h4 j y hj
        rw [show M.T.nv + (j + 1) = M.T.nv + 1 + j by omega, k1, k2]
        exact ⟨rfl, by omega⟩

/-- the state after the loop over the points -/
theorem genVerts_empty {P : Type} (xyz : List P) : ∃ M, genVerts 0 xyz (GenMesh.empty P) = (M, List.range xyz.length) ∧
    Built M.T xyz.length [] [] [] ∧ Labelled M xyz 0 0 := by
  obtain ⟨h1, h2, -, h4, -, -⟩ := genVerts_spec xyz 0 (GenMesh.empty P)
  have hnv : (GenMesh.empty P).T.nv = 0 := rfl
  rw [hnv] at h2 h4
  refine ⟨(genVerts 0 xyz (GenMesh.empty P)).1, Prod.ext rfl ?_, ?_, ⟨?_, ?_, by simp, by simp⟩⟩
  · rw [h2, List.range_eq_range']
  · rw [h1]
    have := built_verts xyz.length built_empty
    rwa [Nat.zero_add] at this
  · intro v x hx
    have := (h4 v x hx).1
    rwa [Nat.zero_add] at this
  · intro v hv
    have := (h4 v _ (List.getElem?_eq_getElem hv)).2
    rwa [Nat.zero_add] at this

/-! ### faces -/

theorem joinAll_snoc (F : List (List Nat)) (c : List Nat) (E : List (Nat × Nat)) :
    joinAll [c] (joinAll F E) = joinAll (F ++ [c]) E := by
  unfold joinAll; rw [List.foldl_append]

theorem genFaces_ok {P : Type} {xyz : List P} : ∀ (cs : List (List Int)) (F : List (List Int)) (M : GenMesh P),
    Built M.T xyz.length (joinAll (F.map numbers) []) (F.map numbers) [] → EdgesOk xyz.length (joinAll (F.map numbers) []) →
    FacesOk xyz.length (joinAll (F.map numbers) []) (F.map numbers) → Labelled M xyz F.length 0 →
    FaceListOk xyz.length (F ++ cs) → ∃ M', genFaces (List.range xyz.length) F.length cs M = .ok M' ∧
      Built M'.T xyz.length (joinAll ((F ++ cs).map numbers) []) ((F ++ cs).map numbers) [] ∧
      EdgesOk xyz.length (joinAll ((F ++ cs).map numbers) []) ∧
      FacesOk xyz.length (joinAll ((F ++ cs).map numbers) []) ((F ++ cs).map numbers) ∧
      Labelled M' xyz (F ++ cs).length 0 := by
  intro cs
  induction cs with
  | nil =>
    intro F M h1 h2 h3 h4 _
    rw [List.append_nil]
    exact ⟨M, rfl, h1, h2, h3, h4⟩
  | cons c cs ih =>
    intro F M h1 h2 h3 h4 hF
    have hcm : c ∈ F ++ c :: cs := by simp
    have hr := hF.range c hcm
    obtain ⟨T', r, b1, b2, b3⟩ := built_facesNew [numbers c] h1 h2 h3
      (by
        intro c' hc'
        rw [List.mem_singleton] at hc'
        subst hc'
        rw [numbers_length]
        exact ⟨numbers_nodup hr (hF.nodup c hcm), (hF.size c hcm).1, (hF.size c hcm).2, numbers_lt hr⟩)
      (by
        have ho := hF.once
        rw [show F ++ c :: cs = F ++ [c] ++ cs by simp] at ho
        have ho := (List.pairwise_append.1 ho).1
        rw [show F.map numbers ++ [numbers c] = (F ++ [c]).map numbers by simp, List.pairwise_map]
        refine ho.imp_of_mem ?_
        intro x y hx hy hxy
        have hx' : x ∈ F ++ c :: cs := by simp at hx ⊢; tauto
        have hy' : y ∈ F ++ c :: cs := by simp at hy ⊢; tauto
        refine ⟨fun k => hxy.1 (numbers_rotated (hF.range y hy') (hF.range x hx') k), fun k => hxy.2 ?_⟩
        rw [← numbers_reverse] at k
        exact numbers_rotated (hF.range y hy') (fun i hi => hF.range x hx' i (List.mem_reverse.1 hi)) k)
    have hadd : M.T.mfNew.1.mfSetVertices M.T.mfNew.2 (numbers c) = .ok T' := by
      rw [show addFaces [numbers c] M.T = (M.T.addFace (numbers c) >>= fun T => pure T) from rfl] at r
      obtain ⟨T1, e1, e2⟩ := Res.bind_eq_ok.1 r
      injection e2 with e2
      rw [← e2]; exact e1
    rw [joinAll_snoc, show F.map numbers ++ [numbers c] = (F ++ [c]).map numbers by simp] at b1 b2 b3
    have hnf : M.T.mfNew.2 = F.length := by
      show M.T.nf = _
      rw [h1.nf, List.length_map]
    obtain ⟨M', q1, q2, q3, q4, q5⟩ := ih (F ++ [c]) { M with T := T', fid := upd M.fid M.T.mfNew.2 (F.length + 1) } b1 b2 b3
      (by
        refine ⟨h4.pos, h4.vid, ?_, h4.rid⟩
        intro f hf
        rw [List.length_append, List.length_singleton] at hf
        show upd M.fid M.T.mfNew.2 (F.length + 1) f = f + 1
        rw [hnf]
        by_cases hx : f = F.length
        · rw [hx, upd_same]
        · rw [upd_ne _ _ hx]; exact h4.fid f (by omega))
      (by rw [List.append_assoc]; exact hF)
    rw [List.append_assoc, List.singleton_append] at q2 q3 q4 q5
    refine ⟨M', ?_, q2, q3, q4, q5⟩
    rw [List.length_append, List.length_singleton] at q1
    unfold genFaces
    rw [vertsAt_range hr, Res.bind_ok, hadd, Res.bind_ok]
    exact q1

theorem next_cyclicPairs {c : List Nat} {a b : Nat} : (a, b) ∈ cyclicPairs c ↔ Next c a b := by
  constructor
  · intro h; exact edgesOf_next h
  · rintro ⟨k, h1, h2⟩
    obtain ⟨b', h3, h4⟩ := getElem?_cyclicPairs h1
    rw [h2] at h3
    injection h3 with h3
    subst h3
    exact List.mem_of_getElem? h4

/-- **C73, faces.**  With a list of points and a non-empty list of faces, none of them listed twice,
`MESH_InitFromGenDesc` returns 1 and the mesh is the one described. -/
theorem C73_faces {P : Type} {xyz : List P} {F : List (List Int)} (hne : F ≠ []) (hF : FaceListOk xyz.length F)
    (tm : Option (List (List (List Int)))) :
    ∃ M, initFromGenDesc (GenMesh.empty P) xyz F [] tm = .ok (M, true) ∧ FaceMesh M.T xyz.length F ∧
      Labelled M xyz F.length 0 := by
  obtain ⟨M0, h1, h2, h3⟩ := genVerts_empty xyz
  obtain ⟨M, q1, q2, q3, q4, q5⟩ := genFaces_ok (xyz := xyz) F [] M0 h2 ⟨by simp [joinAll], List.Pairwise.nil⟩
    ⟨by simp, by simp, by simp, by simp, List.Pairwise.nil⟩ h3 hF
  rw [List.nil_append] at q2 q3 q4 q5
  refine ⟨M, ?_, ⟨q2.cons, q2.loops, q2.simpleEdges q3, q2.verts, ?_, ?_, ?_, ?_⟩, q5⟩
  · unfold initFromGenDesc
    rw [h1]
    dsimp only
    rw [if_neg (by simp), if_neg (by simp [hne]), show (0 : Nat) = ([] : List (List Int)).length from rfl, q1, Res.bind_ok]
    unfold genRegions
    rfl
  · intro f; rw [q2.faces f, List.length_map]
  · intro r hr
    have := (q2.regions r).1 hr
    simp at this
  · intro f c hc
    have hc' : (F.map numbers)[f]? = some (numbers c) := by rw [List.getElem?_map, hc]; rfl
    have := C23_vertices ((q2.faces _).2 (List.getElem?_eq_some_iff.1 hc').1) (q2.cycles _ _ hc') true
    rwa [if_pos rfl] at this
  · intro a b hab
    rw [edgeBetween_iff q2 hab, mem_joinAll_iff q4]
    simp only [List.mem_map, exists_exists_and_eq_and, next_cyclicPairs]

/-! ### regions -/

theorem Cells.mesh {T : Topo} {n : Nat} {C : List (List (List Nat))} (h : Cells T n C) (hC : ∀ cs ∈ C, ∀ c ∈ cs, 3 ≤ c.length) :
    RegionMesh T n C := by
  have uses : ∀ {cs c}, cs ∈ C → c ∈ cs → ∃ r f, T.Uses r f c := by
    intro cs c hcs hc
    obtain ⟨r, hr⟩ := List.mem_iff_getElem?.1 hcs
    obtain ⟨fs, -, q2, q3⟩ := h.uses r cs hr
    obtain ⟨i, hi⟩ := List.mem_iff_getElem?.1 hc
    have hil := (List.getElem?_eq_some_iff.1 hi).1
    exact ⟨r, _, q3 i c _ hi (List.getElem?_eq_getElem (by omega))⟩
  refine ⟨h.cons, h.loops, h.simpleE, h.simpleF, h.verts, h.regions, h.uses, ?_, ?_⟩
  · intro f hf
    obtain ⟨cs, hcs, c, hc, d, hs⟩ := h.faces f hf
    obtain ⟨r, g, hu⟩ := uses hcs hc
    have hg := hu.flive h.cons
    have hh := hu.has
    obtain ⟨-, d', -, hs'⟩ := hu
    rw [h.simpleF f g d d' c (hC cs hcs c hc) hf hg hs hs'] at hh
    exact ⟨r, hh⟩
  · intro a b hab
    constructor
    · rintro ⟨e, h1, h2⟩
      rw [EdgeHas_iff] at h1 h2
      obtain ⟨cs, hcs, c, hc, x, y, hN, he⟩ := h.edges e h1.1
      refine ⟨cs, hcs, c, hc, ?_⟩
      have k1 := h1.2
      have k2 := h2.2
      unfold ends at k1 k2
      rcases he with he | he <;> rw [he] at k1 k2 <;> rcases k1 with k1 | k1 <;> rcases k2 with k2 | k2 <;>
        injection k1 with k1 <;> injection k2 with k2 <;> subst k1 <;> subst k2 <;> simp_all
    · rintro ⟨cs, hcs, c, hc, hN⟩
      obtain ⟨r, f, hu⟩ := uses hcs hc
      have hf := hu.flive h.cons
      obtain ⟨-, d, -, hseen⟩ := hu
      rcases hN with hN | hN
      · obtain ⟨e, -, q1, q2⟩ := edge_of_seen h.cons h.loops hf hseen hN
        exact ⟨e, q1, q2⟩
      · obtain ⟨e, -, q1, q2⟩ := edge_of_seen h.cons h.loops hf hseen hN
        exact ⟨e, q2, q1⟩

theorem cellList_snoc (tm : Option (List (List (List Int)))) (R : List (List Int)) (c : List Int) :
    cellList tm (R ++ [c]) = cellList tm R ++ [cellCycles tm R.length c] := by
  unfold cellList
  rw [List.mapIdx_append]
  simp

theorem cellList_append (tm : Option (List (List (List Int)))) (R S : List (List Int)) :
    ∃ l, cellList tm (R ++ S) = cellList tm R ++ l := by
  unfold cellList
  rw [List.mapIdx_append]
  exact ⟨_, rfl⟩

theorem cellList_length (tm : Option (List (List (List Int)))) (R : List (List Int)) : (cellList tm R).length = R.length := by
  unfold cellList; rw [List.length_mapIdx]

theorem mem_cellList {tm : Option (List (List (List Int)))} {R : List (List Int)} {cs : List (List Nat)} (h : cs ∈ cellList tm R) :
    ∃ (i : Nat) (c : List Int), R[i]? = some c ∧ cellCycles tm i c = cs := by
  obtain ⟨i, hi⟩ := List.mem_iff_getElem?.1 h
  unfold cellList at hi
  rw [List.getElem?_mapIdx] at hi
  cases hr : R[i]? with
  | none => rw [hr] at hi; cases hi
  | some c =>
    rw [hr] at hi
    injection hi with hi
    exact ⟨i, c, hr, hi⟩

theorem RegionListOk.three {n : Nat} {R : List (List Int)} {tm : Option (List (List (List Int)))} (h : RegionListOk n R tm) :
    ∀ cs ∈ cellList tm R, ∀ c ∈ cs, 3 ≤ c.length := by
  intro cs hcs c hc
  obtain ⟨i, v, hi, rfl⟩ := mem_cellList hcs
  unfold cellCycles at hc
  cases tm with
  | none => exact std_three c hc
  | some rows =>
    dsimp only at hc
    by_cases h4 : v.length = 4
    · rw [if_pos h4] at hc; exact std_three c hc
    · rw [if_neg h4] at hc
      obtain ⟨row, hr, hp⟩ := h.poly rows rfl i v hi h4
      rw [List.getD_eq_getElem?_getD, hr] at hc
      obtain ⟨x, hx, rfl⟩ := List.mem_map.1 hc
      rw [picks_length]
      exact (hp.faces x hx).1

theorem RegionListOk.init {n : Nat} {R S : List (List Int)} {tm : Option (List (List (List Int)))} (h : RegionListOk n (R ++ S) tm) :
    RegionListOk n R tm := by
  obtain ⟨l, hl⟩ := cellList_append tm R S
  refine ⟨fun c hc => h.range c (by simp [hc]), fun c hc => h.nodup c (by simp [hc]), fun e c hc => h.std e c (by simp [hc]), ?_, ?_, ?_⟩
  · intro rows e i c hi
    exact h.poly rows e i c (by rw [List.getElem?_append_left (List.getElem?_eq_some_iff.1 hi).1]; exact hi)
  · have := h.once
    rw [hl] at this
    exact (List.pairwise_append.1 this).1
  · have := h.meet
    rw [hl] at this
    exact (List.pairwise_append.1 this).1

/-- the call for one region -/
def regionCall (tm : Option (List (List (List Int)))) (i : Nat) (c : List Int) (T : Topo) : Res Topo :=
  match tm with
  | none => T.mrNew.1.mrSetVertices T.nr (numbers c)
  | some rows => if c.length = 4 then T.mrNew.1.mrSetVertices T.nr (numbers c)
    else Res.ofOption rows[i]? >>= fun row => T.mrNew.1.mrSetVerticesPoly T.nr (numbers c) row

theorem regionCall_ok {T : Topo} {n : Nat} {R : List (List Int)} {c : List Int} {tm : Option (List (List (List Int)))}
    (h : Cells T n (cellList tm R)) (hR : RegionListOk n (R ++ [c]) tm) :
    ∃ T', regionCall tm R.length c T = .ok T' ∧ Cells T' n (cellList tm (R ++ [c])) := by
  have hcm : c ∈ R ++ [c] := by simp
  have hr := hR.range c hcm
  have hnd := numbers_nodup hr (hR.nodup c hcm)
  have hlt := numbers_lt hr
  have hC : CellsOk (cellList tm R ++ [cellCycles tm R.length c]) := by
    rw [← cellList_snoc]
    refine ⟨?_, hR.once⟩
    intro cs hcs c' hc' e
    have := hR.three cs hcs c' hc'
    rw [e] at this
    simp at this
  have hmeet := hR.meet
  rw [cellList_snoc] at hmeet ⊢
  have hmeet := (List.pairwise_append.1 hmeet).2.2
  unfold regionCall
  cases tm with
  | none =>
    dsimp only
    exact cells_std h hC hnd hlt (by rw [numbers_length]; exact hR.std rfl c hcm)
  | some rows =>
    dsimp only
    by_cases h4 : c.length = 4
    · rw [if_pos h4]
      have e : cellCycles (some rows) R.length c = stdCycles (numbers c) := by unfold cellCycles; dsimp only; rw [if_pos h4]
      rw [e] at hC ⊢
      exact cells_std h hC hnd hlt (by rw [numbers_length]; exact Or.inl h4)
    · rw [if_neg h4]
      obtain ⟨row, hrow, hp⟩ := hR.poly rows rfl R.length c (by simp) h4
      have e : cellCycles (some rows) R.length c = row.map (picks (numbers c)) := by
        unfold cellCycles; dsimp only; rw [if_neg h4, List.getD_eq_getElem?_getD, hrow]; rfl
      rw [e] at hC hmeet ⊢
      rw [hrow, Res.ofOption_some, Res.bind_ok]
      refine cells_poly h hC hnd hlt (by rw [numbers_length]; exact hp.size.1) hp.size.2 (by rw [numbers_length]; exact hp.range)
        (fun x hx => ⟨(hp.faces x hx).1, (hp.faces x hx).2.1⟩) (fun x hx => (hp.faces x hx).2.2) hp.apart ?_
      intro cs hcs c' hc' x hx
      exact hmeet cs hcs _ (by simp) c' hc' _ (List.mem_map.2 ⟨x, hx, rfl⟩)

theorem genRegions_cons {P : Type} {n : Nat} {tm : Option (List (List (List Int)))} {i : Nat} {c : List Int} {cs : List (List Int)}
    {M : GenMesh P} (hr : ∀ i ∈ c, 0 ≤ i ∧ i < (n : Int)) (hs : tm = none → c.length ≤ 6 ∨ c.length = 8) :
    genRegions (List.range n) tm i (c :: cs) M = regionCall tm i c M.T >>= fun T =>
      genRegions (List.range n) tm (i+1) cs { M with T := T, rid := upd M.rid M.T.nr (i+1) } := by
  unfold regionCall
  cases tm with
  | none =>
    rw [genRegions, if_pos (hs rfl), vertsAt_range hr, Res.bind_ok]
    rfl
  | some rows =>
    rw [genRegions, vertsAt_range hr, Res.bind_ok]
    dsimp only
    by_cases h4 : c.length = 4
    · rw [if_pos h4, if_pos h4]; rfl
    · rw [if_neg h4, if_neg h4]; rfl

theorem genRegions_ok {P : Type} {xyz : List P} {tm : Option (List (List (List Int)))} : ∀ (cs rest R : List (List Int)) (M : GenMesh P),
    Cells M.T xyz.length (cellList tm R) → Labelled M xyz 0 R.length →
    RegionListOk xyz.length (R ++ cs) tm →
    ∃ M', genRegions (List.range xyz.length) tm R.length (cs ++ rest) M =
        genRegions (List.range xyz.length) tm (R ++ cs).length rest M' ∧
      Cells M'.T xyz.length (cellList tm (R ++ cs)) ∧ Labelled M' xyz 0 (R ++ cs).length := by
  intro cs
  induction cs with
  | nil =>
    intro rest R M h1 h2 _
    rw [List.append_nil, List.nil_append]
    exact ⟨M, rfl, h1, h2⟩
  | cons c cs ih =>
    intro rest R M h1 h2 hR
    have hcm : c ∈ R ++ c :: cs := by simp
    have hR' : RegionListOk xyz.length (R ++ [c] ++ cs) tm := by rw [List.append_assoc]; exact hR
    obtain ⟨T', r1, h3⟩ := regionCall_ok h1 hR'.init
    have hnr : M.T.nr = R.length := by rw [h1.nr, cellList_length]
    obtain ⟨M', q1, q2, q3⟩ := ih rest (R ++ [c]) { M with T := T', rid := upd M.rid M.T.nr (R.length + 1) } h3
      (by
        refine ⟨h2.pos, h2.vid, h2.fid, ?_⟩
        intro f hf
        rw [List.length_append, List.length_singleton] at hf
        show upd M.rid M.T.nr (R.length + 1) f = f + 1
        rw [hnr]
        by_cases hx : f = R.length
        · rw [hx, upd_same]
        · rw [upd_ne _ _ hx]; exact h2.rid f (by omega)) hR'
    rw [List.append_assoc, List.singleton_append] at q1 q2 q3
    refine ⟨M', ?_, q2, q3⟩
    rw [List.length_append, List.length_singleton] at q1
    rw [List.cons_append, genRegions_cons (hR.range c hcm) (by
      intro e
      have := hR.std e c hcm
      omega), r1, Res.bind_ok]
    exact q1

/-- **C73, regions.**  With a list of points and a non-empty list of regions, standard elements or
polyhedra with a template, `MESH_InitFromGenDesc` returns 1 and the mesh is the one described: the regions
in the order of the list with the given faces, seen from the given side; faces and edges that regions share
exist once, and there are no others. -/
theorem C73_regions {P : Type} {xyz : List P} {R : List (List Int)} {tm : Option (List (List (List Int)))} (hne : R ≠ [])
    (hR : RegionListOk xyz.length R tm) :
    ∃ M, initFromGenDesc (GenMesh.empty P) xyz [] R tm = .ok (M, true) ∧ RegionMesh M.T xyz.length (cellList tm R) ∧
      Labelled M xyz 0 R.length := by
  obtain ⟨M0, h1, h2, h3⟩ := genVerts_empty xyz
  obtain ⟨M, q1, q2, q3⟩ := genRegions_ok (tm := tm) R [] [] M0 (cells_of_built h2) h3 hR
  rw [List.nil_append] at q1 q2 q3
  refine ⟨M, ?_, q2.mesh hR.three, q3⟩
  unfold initFromGenDesc
  rw [h1]
  dsimp only
  rw [if_neg (by simp), if_neg (by simp [hne])]
  unfold genFaces
  rw [Res.pure_eq, Res.bind_ok, show (0 : Nat) = ([] : List (List Int)).length from rfl]
  rw [List.append_nil] at q1
  rw [q1]
  unfold genRegions
  rfl

/-! ### when the call refuses -/

/-- **C73, both or none.**  With faces and regions, or with neither, the call returns 0; the vertices have
been made all the same and stay. -/
theorem C73_refused {P : Type} {xyz : List P} {F R : List (List Int)} (h : F = [] ↔ R = []) (tm : Option (List (List (List Int)))) :
    ∃ M, initFromGenDesc (GenMesh.empty P) xyz F R tm = .ok (M, false) ∧ (∀ v, M.T.sv v = .live ↔ v < xyz.length) ∧
      (∀ e, M.T.se e ≠ .live) ∧ (∀ f, M.T.sf f ≠ .live) ∧ (∀ r, M.T.sr r ≠ .live) ∧ Labelled M xyz 0 0 := by
  obtain ⟨M0, h1, h2, h3⟩ := genVerts_empty xyz
  refine ⟨M0, ?_, h2.verts, fun e he => ?_, fun e he => ?_, fun e he => ?_, h3⟩
  · unfold initFromGenDesc
    rw [h1]
    dsimp only
    by_cases hF : F = []
    · rw [if_neg (by simp [hF]), if_pos ⟨hF, h.1 hF⟩]; rfl
    · rw [if_pos ⟨hF, fun e => hF (h.2 e)⟩]; rfl
  · have := (h2.edges e).1 he; simp at this
  · have := (h2.faces e).1 he; simp at this
  · have := (h2.regions e).1 he; simp at this

/-- **C73, no standard shape.**  Without a template, a region with seven or more than eight vertices makes
the call return 0; the regions before it stay, those after it are not looked at. -/
theorem C73_no_shape {P : Type} {xyz : List P} {R rest : List (List Int)} {c : List Int} (hR : RegionListOk xyz.length R none)
    (hc : c.length = 7 ∨ 8 < c.length) :
    ∃ M, initFromGenDesc (GenMesh.empty P) xyz [] (R ++ c :: rest) none = .ok (M, false) ∧
      RegionMesh M.T xyz.length (cellList none R) ∧ Labelled M xyz 0 R.length := by
  obtain ⟨M0, h1, h2, h3⟩ := genVerts_empty xyz
  obtain ⟨M, q1, q2, q3⟩ := genRegions_ok (tm := none) R (c :: rest) [] M0 (cells_of_built h2) h3 hR
  rw [List.nil_append] at q1 q2 q3
  refine ⟨M, ?_, q2.mesh hR.three, q3⟩
  unfold initFromGenDesc
  rw [h1]
  dsimp only
  rw [if_neg (by simp), if_neg (by simp)]
  unfold genFaces
  rw [Res.pure_eq, Res.bind_ok, show (0 : Nat) = ([] : List (List Int)).length from rfl, q1]
  rw [genRegions, if_neg (by omega)]
  rfl

/-- **C73, too few vertices.**  A region with fewer than four vertices passes the test of the number, and
the program stops in `MR_Set_Vertices`. -/
theorem C73_negation_few {P : Type} {xyz : List P} {R rest : List (List Int)} {c : List Int} (hR : RegionListOk xyz.length R none)
    (hc : c.length < 4) (hr : ∀ i ∈ c, 0 ≤ i ∧ i < (xyz.length : Int)) :
    initFromGenDesc (GenMesh.empty P) xyz [] (R ++ c :: rest) none = .fatal := by
  obtain ⟨M0, h1, h2, h3⟩ := genVerts_empty xyz
  obtain ⟨M, q1, q2, q3⟩ := genRegions_ok (tm := none) R (c :: rest) [] M0 (cells_of_built h2) h3 hR
  rw [List.nil_append] at q1 q2 q3
  unfold initFromGenDesc
  rw [h1]
  dsimp only
  rw [if_neg (by simp), if_neg (by simp)]
  unfold genFaces
  rw [Res.pure_eq, Res.bind_ok, show (0 : Nat) = ([] : List (List Int)).length from rfl, q1,
    genRegions_cons hr (fun _ => by omega)]
  unfold regionCall
  dsimp only
  rw [C48_other_numbers (T := M.T.mrNew.1) (r := M.T.nr) (upd_same _ _ _) (fun v hv => (q2.verts v).2 (numbers_lt hr v hv))
    (by rw [numbers_length]; omega)]
  rfl

/-! ### the hypotheses are met -/

/-- Two triangles with a common edge. -/
example : ∃ M, initFromGenDesc (GenMesh.empty (Int × Int)) [(0,0), (1,0), (1,1), (0,1)] [[0,1,2], [0,2,3]] [] none = .ok (M, true) ∧
    FaceMesh M.T 4 [[0,1,2], [0,2,3]] ∧ Labelled M [(0,0), (1,0), (1,1), (0,1)] 2 0 :=
  C73_faces (by decide) ⟨by decide, by decide, by decide, by decide⟩ none

/-- Two tetrahedra with a common face. -/
example : ∃ M, initFromGenDesc (GenMesh.empty Nat) [0,1,2,3,4] [] [[0,1,2,3], [0,2,1,4]] none = .ok (M, true) ∧
    RegionMesh M.T 5 [[[0,2,1],[0,1,3],[1,2,3],[0,3,2]], [[0,1,2],[0,2,4],[2,1,4],[0,4,1]]] ∧ Labelled M [0,1,2,3,4] 0 2 :=
  C73_regions (by decide) ⟨by decide, by decide, by decide, by simp, by decide, by decide⟩

/-- A tetrahedron on a face of a triangular bipyramid, which no standard element is. -/
example : ∃ M, initFromGenDesc (GenMesh.empty Nat) [0,1,2,3,4,5] [] [[0,1,2,3,4], [0,1,3,5]]
      (some [[[0,1,3],[1,2,3],[2,0,3],[1,0,4],[2,1,4],[0,2,4]], []]) = .ok (M, true) ∧
    RegionMesh M.T 6 [[[0,1,3],[1,2,3],[2,0,3],[1,0,4],[2,1,4],[0,2,4]], [[0,3,1],[0,1,5],[1,3,5],[0,5,3]]] ∧
    Labelled M [0,1,2,3,4,5] 0 2 :=
  C73_regions (tm := some [[[0,1,3],[1,2,3],[2,0,3],[1,0,4],[2,1,4],[0,2,4]], []]) (by decide)
    ⟨by decide, by decide, by simp, by
      intro rows e i c hi h4
      injection e with e
      subst e
      match i, hi with
      | 0, hi =>
        injection hi with hi
        subst hi
        exact ⟨_, rfl, by decide, by decide, by decide, by decide⟩
      | 1, hi =>
        injection hi with hi
        subst hi
        exact absurd rfl h4, by decide, by decide⟩

/-- A tetrahedron and a region with seven vertices: the call fails and the tetrahedron stays. -/
example : ∃ M, initFromGenDesc (GenMesh.empty Nat) [0,1,2,3,4,5,6] [] [[0,1,2,3], [0,1,2,3,4,5,6], [3,4,5,6]] none = .ok (M, false) ∧
    RegionMesh M.T 7 [[[0,2,1],[0,1,3],[1,2,3],[0,3,2]]] ∧ Labelled M [0,1,2,3,4,5,6] 0 1 :=
  C73_no_shape (R := [[0,1,2,3]]) (rest := [[3,4,5,6]]) ⟨by decide, by decide, by decide, by simp, by decide, by decide⟩ (by decide)

end Topo
end MSTK
