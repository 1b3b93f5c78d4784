import Verif.Props.Tri2Quad
import Verif.AddRegions
import Verif.Props.DelInterior
import Verif.Props.ElementGraph

/-!
C71: `MESH_Tet2Hex` turns a mesh of tetrahedra into a conforming mesh of hexahedra.
-/
namespace MSTK
namespace Topo

/-! ### specification -/

/-- Every region is a tetrahedron. -/
def Tetrahedra (T : Topo) : Prop := ∀ r, T.sr r = .live → ∃ vs, vs.length = 4 ∧ T.IsElement r vs ∧ T.mrElementType r = .ok .tet

/-- The edges of a tetrahedron with vertices 0, 1, 2, 3. -/
def tetEdgeEnds : List (Nat × Nat) := [(0,1), (0,2), (0,3), (1,2), (1,3), (2,3)]

/-- The faces of a tetrahedron, seen from outside; number `k` is opposite to the vertex `k`. -/
def tetCycles : List (List Nat) := [[1,2,3], [0,3,2], [0,1,3], [0,2,1]]

/-- The vertices `V`, edges `E` and faces `F` of the tetrahedron `r`. -/
structure TetParts (T : Topo) (r : Nat) (V E F : Nat → Nat) : Prop where
  elem : T.IsElement r [V 0, V 1, V 2, V 3]
  verts : T.mrVertices r = .ok (some ([V 0, V 1, V 2, V 3].map some))
  edge : ∀ (k : Nat) i j, tetEdgeEnds[k]? = some (i, j) → T.EdgeHas (E k) (V i) ∧ T.EdgeHas (E k) (V j)
  face : ∀ (k : Nat) c, tetCycles[k]? = some c → T.Uses r (F k) (c.map V)

/-- the entities of a tetrahedron: vertices, edges, faces and the region itself -/
def partsOf (r : Nat) (V E F : Nat → Nat) (i : Nat) : Node :=
  if i < 4 then .v (V i) else if i < 10 then .e (E (i - 4)) else if i < 14 then .f (F (i - 10)) else .r r

/-- The four hexahedra of a tetrahedron, one at each vertex. -/
def hexesOf (r : Nat) (V E F : Nat → Nat) : List (List Node) :=
  [[.v (V 0), .e (E 0), .f (F 3), .e (E 1), .e (E 2), .f (F 2), .r r, .f (F 1)],
   [.v (V 1), .e (E 3), .f (F 3), .e (E 0), .e (E 4), .f (F 0), .r r, .f (F 2)],
   [.v (V 2), .e (E 1), .f (F 3), .e (E 3), .e (E 5), .f (F 1), .r r, .f (F 0)],
   [.v (V 3), .e (E 2), .f (F 1), .e (E 5), .e (E 4), .f (F 2), .r r, .f (F 0)]]

/-- The edges of the new mesh: halves of old edges, from the middle of an edge to the centre of a face, from the
centre of a face to the centre of a region. -/
def Half3 (T : Topo) : Node → Node → Prop
  | .v a, .e x => T.EdgeHas x a ∧ ∃ r f, T.RegionHas r f ∧ T.FaceHas f x
  | .e x, .f f => T.FaceHas f x ∧ ∃ r, T.RegionHas r f
  | .f f, .r r => T.RegionHas r f
  | _, _ => False

/-- The mesh `S` is the mesh of hexahedra made from the tetrahedra of `T`. -/
structure HexesFor (T : Topo) (G : ModelCls) (vl el fl rl : List Nat) (S : Conv) : Prop where
  cons : S.T.Consistent
  loops : S.T.AllLoops
  /-- no two edges between the same vertices -/
  simpleE : S.T.SimpleEdges
  /-- no two faces on the same vertices -/
  simpleF : S.T.SimpleFaces
  points : Points T G vl el fl rl S
  verts : ∀ x, S.T.sv x = .live ↔ x < vl.length + el.length + fl.length + rl.length
  regions : ∀ x, S.T.sr x = .live ↔ x < 4 * rl.length
  /-- the hexahedra of the `k`-th region -/
  hexes : ∀ k r, rl[k]? = some r → ∃ V E F, T.TetParts r V E F ∧ ∀ j q, (hexesOf r V E F)[j]? = some q →
    S.T.IsElement (4*k+j) (q.map (place vl el fl rl)) ∧ S.T.mrElementType (4*k+j) = .ok .hex ∧
    S.cells[4*k+j]? = some (G.r r)
  /-- all faces belong to hexahedra -/
  faces : ∀ f, S.T.sf f = .live → ∃ x, S.T.RegionHas x f
  edges : ∀ p q, p.In vl el fl rl → q.In vl el fl rl → p ≠ q →
    (S.T.EdgeBetween (place vl el fl rl p) (place vl el fl rl q) ↔ T.Half3 p q ∨ T.Half3 q p)

/-! ### cycles of three vertices -/

theorem perm3 {w c : List Nat} (h3 : c.length = 3) (hp : w.Perm c) : ∃ d, c ~r turned d w := by
  match c, h3, w, hp.length_eq with
  | [a, b, c], _, [x, y, z], _ =>
    have hx : x ∈ [a, b, c] := hp.mem_iff.1 (by simp)
    have : ∀ l l' : List Nat, (∃ n, l.rotate n = l') → l ~r l' := fun _ _ h => h
    simp only [List.mem_cons, List.not_mem_nil, or_false] at hx
    have two : ∀ {p q s t : Nat}, List.Perm [p, q] [s, t] → (p = s ∧ q = t) ∨ (p = t ∧ q = s) := by
      intro p q s t h
      have h1 : p ∈ [s, t] := h.mem_iff.1 (by simp)
      simp only [List.mem_cons, List.not_mem_nil, or_false] at h1
      rcases h1 with rfl | rfl
      · left
        have := (List.perm_cons p).1 h
        exact ⟨rfl, List.singleton_perm_singleton.1 this⟩
      · right
        have := (List.perm_cons p).1 (h.trans (List.Perm.swap p s []))
        exact ⟨rfl, List.singleton_perm_singleton.1 this⟩
    rcases hx with rfl | rfl | rfl
    · have h2 := (List.perm_cons x).1 hp
      rcases two h2 with ⟨rfl, rfl⟩ | ⟨rfl, rfl⟩
      · exact ⟨true, List.IsRotated.refl _⟩
      · exact ⟨false, ⟨1, rfl⟩⟩
    · have h2 := (List.perm_cons x).1 (hp.trans (List.Perm.swap x a [c]))
      rcases two h2 with ⟨rfl, rfl⟩ | ⟨rfl, rfl⟩
      · exact ⟨false, ⟨0 + 2, rfl⟩⟩
      · exact ⟨true, ⟨1, rfl⟩⟩
    · have h2 := (List.perm_cons x).1 (hp.trans (show List.Perm [a, b, x] [x, a, b] from (List.perm_append_comm (l₁ := [a, b]) (l₂ := [x]))))
      rcases two h2 with ⟨rfl, rfl⟩ | ⟨rfl, rfl⟩
      · exact ⟨true, ⟨2, rfl⟩⟩
      · exact ⟨false, ⟨0, rfl⟩⟩

/-- the face found for the three vertices of a face is that face -/
theorem commonFace3 {T : Topo} (h : T.Consistent) (hl : T.AllLoops) (hs : T.SimpleEdges) (hsf : T.SimpleFaces) {f : Nat} {d : Bool}
    {c c' : List Nat} (hf : T.sf f = .live) (hseen : T.Seen f d c) (h3 : c.length = 3) (hn : c.Nodup) (hp : c'.Perm c)
    (hv : ∀ v ∈ c, T.sv v = .live) : T.mvsCommonFace c' = .ok (some f) := by
  obtain ⟨ws, hw, hwn⟩ := hl f hf
  have hcne : c ≠ [] := by rintro rfl; simp at h3
  rw [seen_iff hf hw hwn hcne] at hseen
  have hpw : ws.Perm c' := (hseen.perm.trans (turned_perm d)).symm.trans hp.symm
  have hl' : c'.length = 3 := hp.length_eq.trans h3
  have hcne' : c' ≠ [] := by rintro rfl; simp at hl'
  obtain ⟨d', hd'⟩ := perm3 hl' hpw
  have hseen' : T.Seen f d' c' := (seen_iff hf hw hwn hcne').2 hd'
  have hn' : c'.Nodup := hp.nodup_iff.2 hn
  have hv' : ∀ v ∈ c', T.sv v = .live := fun v hv' => hv v (hp.mem_iff.1 hv')
  match c', hl' with
  | [x, y, z], _ =>
    obtain ⟨g, hg⟩ := found_of_seen h hl hs hv' hn' hf hseen'
    obtain ⟨o, ho, hon⟩ := C42_common_face_sound h hl hv' (by simp)
    rw [hg] at ho
    injection ho with ho
    obtain ⟨g1, w2, g2, g3, g4⟩ := hon g ho.symm
    obtain ⟨d2, hd2⟩ := perm3 (c := [x, y, z]) rfl g4
    rw [hg, hsf f g d' d2 [x, y, z] (by simp) hf g1 hseen' ((seen_iff g1 g2 g3 (by simp)).2 hd2)]

/-! ### the parts of a tetrahedron -/

theorem Uses.flive {T : Topo} (h : T.Consistent) {r f : Nat} {c : List Nat} (hu : T.Uses r f c) : T.sf f = .live := by
  obtain ⟨hr, d, hd, -⟩ := hu
  exact h.fr.down r f d hr ((mrFaceDir_iff h hr).1 hd)

theorem Uses.has {T : Topo} {r f : Nat} {c : List Nat} (hu : T.Uses r f c) : T.RegionHas r f := ⟨hu.1, hu.2.choose, hu.2.choose_spec.1⟩

theorem edge_of_seen {T : Topo} (h : T.Consistent) (hl : T.AllLoops) {g : Nat} {d : Bool} {c : List Nat} (hg : T.sf g = .live)
    (hseen : T.Seen g d c) {a b : Nat} (hN : Next c a b) : ∃ e, T.FaceHas g e ∧ T.EdgeHas e a ∧ T.EdgeHas e b := by
  obtain ⟨ws, hw, hwn⟩ := hl g hg
  have hc : c ≠ [] := by rintro rfl; obtain ⟨k, h1, -⟩ := hN; simp at h1
  rw [seen_iff hg hw hwn hc] at hseen
  have := next_of_rotated hseen hN
  cases d
  · have := this.reverse
    rw [show turned false ws = ws.reverse from rfl, List.reverse_reverse] at this
    obtain ⟨e, q0, q1, q2⟩ := edge_of_next h hg hw this
    exact ⟨e, q0, q2, q1⟩
  · exact edge_of_next h hg hw this

theorem Next.map {c : List Nat} {a b : Nat} (g : Nat → Nat) (h : Next c a b) : Next (c.map g) (g a) (g b) := by
  obtain ⟨k, h1, h2⟩ := h
  refine ⟨k, by rw [List.getElem?_map, h1]; rfl, ?_⟩
  rw [List.length_map, List.getElem?_map, h2]; rfl

/-- consecutive entries, as a test -/
def nextB (c : List Nat) (a b : Nat) : Bool :=
  (List.range c.length).any fun k => decide (c[k]? = some a ∧ c[(k+1) % c.length]? = some b)

theorem nextB_sound {c : List Nat} {a b : Nat} (h : nextB c a b = true) : Next c a b := by
  unfold nextB at h
  rw [List.any_eq_true] at h
  obtain ⟨k, -, h⟩ := h
  exact ⟨k, of_decide_eq_true h⟩

theorem nextB_of {c : List Nat} {a b : Nat} (h : Next c a b) : nextB c a b = true := by
  obtain ⟨k, h1, h2⟩ := h
  unfold nextB
  rw [List.any_eq_true]
  exact ⟨k, List.mem_range.2 (List.getElem?_eq_some_iff.1 h1).1, decide_eq_true ⟨h1, h2⟩⟩

/-- every edge of the tetrahedron is on a face -/
theorem tetEdgeEnds_on : ∀ p ∈ tetEdgeEnds, ∃ c ∈ tetCycles, nextB c p.1 p.2 = true ∨ nextB c p.2 p.1 = true := by decide

theorem tetCycles_std (V : Nat → Nat) : ∀ c ∈ tetCycles, c.map V ∈ stdCycles [V 0, V 1, V 2, V 3] := by
  simp [tetCycles, stdCycles]

theorem stdCycles_tet (V : Nat → Nat) : ∀ c ∈ stdCycles [V 0, V 1, V 2, V 3], ∃ (k : Nat) (c' : List Nat), tetCycles[k]? = some c' ∧ c'.map V = c := by
  simp only [stdCycles, List.forall_mem_cons, List.not_mem_nil, false_imp_iff, implies_true, and_true]
  exact ⟨⟨3, _, rfl, rfl⟩, ⟨2, _, rfl, rfl⟩, ⟨0, _, rfl, rfl⟩, ⟨1, _, rfl, rfl⟩⟩

theorem tetParts_ok {T : Topo} (h : T.Consistent) (hl : T.AllLoops) (hs : T.SimpleEdges) {r : Nat} {vs : List Nat}
    (h4 : vs.length = 4) (hel : T.IsElement r vs) (ht : T.mrElementType r = .ok .tet) : ∃ V E F, T.TetParts r V E F := by
  obtain ⟨ws, k1, k2, k3⟩ := C57_standard h hl hs hel (by rw [h4]; exact ht) (by omega)
  have hlen := k3.length_eq
  rw [h4] at hlen
  match ws, hlen with
  | [a, b, c, d], _ =>
    obtain ⟨V, hV⟩ : ∃ V : Nat → Nat, V 0 = a ∧ V 1 = b ∧ V 2 = c ∧ V 3 = d := ⟨fun i => [a,b,c,d].getD i 0, rfl, rfl, rfl, rfl⟩
    obtain ⟨rfl, rfl, rfl, rfl⟩ := hV
    have hF : ∀ k : Nat, ∃ f : Nat, ∀ c : List Nat, tetCycles[k]? = some c → T.Uses r f (c.map V) := by
      intro k
      cases hc : tetCycles[k]? with
      | none => exact ⟨0, by simp⟩
      | some c =>
        obtain ⟨f, hf⟩ := k2.faces.choose_spec.2.2 _ (tetCycles_std V c (List.mem_of_getElem? hc))
        exact ⟨f, by rintro c' h'; injection h' with h'; subst h'; exact hf⟩
    choose F hF using hF
    have hE : ∀ k : Nat, ∃ e : Nat, ∀ i j : Nat, tetEdgeEnds[k]? = some (i, j) → T.EdgeHas e (V i) ∧ T.EdgeHas e (V j) := by
      intro k
      cases hc : tetEdgeEnds[k]? with
      | none => exact ⟨0, by simp⟩
      | some p =>
        obtain ⟨c, hcm, hN⟩ := tetEdgeEnds_on p (List.mem_of_getElem? hc)
        obtain ⟨m, hm⟩ := List.mem_iff_getElem?.1 hcm
        have hu := hF m c hm
        have hfl := hu.flive h
        obtain ⟨-, d, -, hseen⟩ := hu
        rcases hN with hN | hN
        · obtain ⟨e, -, q1, q2⟩ := edge_of_seen h hl hfl hseen ((nextB_sound hN).map V)
          refine ⟨e, ?_⟩
          rintro i j h'
          injection h' with h'
          subst h'
          exact ⟨q1, q2⟩
        · obtain ⟨e, -, q1, q2⟩ := edge_of_seen h hl hfl hseen ((nextB_sound hN).map V)
          refine ⟨e, ?_⟩
          rintro i j h'
          injection h' with h'
          subst h'
          exact ⟨q2, q1⟩
    choose E hE using hE
    exact ⟨V, E, F, ⟨k2, k1, hE, hF⟩⟩

section parts
variable {T : Topo} {r : Nat} {V E F : Nat → Nat}

theorem TetParts.inj (p : T.TetParts r V E F) {i j : Nat} (hi : i < 4) (hj : j < 4) (h : V i = V j) : i = j := by
  have hn : ((List.range 4).map V).Nodup := p.elem.nodup
  exact List.inj_on_of_nodup_map hn (List.mem_range.2 hi) (List.mem_range.2 hj) h

theorem tetEdgeEnds_lt : ∀ p ∈ tetEdgeEnds, p.1 < 4 ∧ p.2 < 4 ∧ p.1 ≠ p.2 := by decide

theorem tetCycles_lt : ∀ c ∈ tetCycles, c.length = 3 ∧ c.Nodup ∧ ∀ i ∈ c, i < 4 := by decide

/-- the edge between two vertices of the tetrahedron -/
theorem TetParts.edge_eq (p : T.TetParts r V E F) (hs : T.SimpleEdges) {k i j e : Nat} (hk : tetEdgeEnds[k]? = some (i, j))
    (h1 : T.EdgeHas e (V i)) (h2 : T.EdgeHas e (V j)) : e = E k := by
  obtain ⟨q1, q2⟩ := p.edge k i j hk
  obtain ⟨t1, t2, t3⟩ := tetEdgeEnds_lt _ (List.mem_of_getElem? hk)
  exact hs (E k) e (V i) (V j) (fun he => t3 (p.inj t1 t2 he)) q1 q2 h1 h2

theorem TetParts.vlive (p : T.TetParts r V E F) (h : T.Consistent) : ∀ i < 4, T.sv (V i) = .live := by
  intro i hi
  have : ∀ i : Nat, i < 4 → ∃ k j : Nat, tetEdgeEnds[k]? = some (i, j) ∨ tetEdgeEnds[k]? = some (j, i) := by
    intro i hi
    have : i = 0 ∨ i = 1 ∨ i = 2 ∨ i = 3 := by omega
    rcases this with rfl | rfl | rfl | rfl
    · exact ⟨0, 1, Or.inl rfl⟩
    · exact ⟨0, 0, Or.inr rfl⟩
    · exact ⟨1, 0, Or.inr rfl⟩
    · exact ⟨2, 0, Or.inr rfl⟩
  obtain ⟨k, j, hk | hk⟩ := this i hi
  · have := (p.edge k i j hk).1
    exact h.ve.down _ _ this.1 (EdgeHas_iff.1 this).2
  · have := (p.edge k j i hk).2
    exact h.ve.down _ _ this.1 (EdgeHas_iff.1 this).2

theorem TetParts.commonEdge (p : T.TetParts r V E F) (h : T.Consistent) (hs : T.SimpleEdges) {k i j : Nat}
    (hk : tetEdgeEnds[k]? = some (i, j)) : T.mvsCommonEdge (V i) (V j) = .ok (some (E k)) := by
  obtain ⟨t1, t2, t3⟩ := tetEdgeEnds_lt _ (List.mem_of_getElem? hk)
  obtain ⟨o, h1, h2, h3⟩ := C42_common_edge h (b := V j) (p.vlive h i t1)
  rw [h1]
  cases o with
  | none => exact absurd (p.edge k i j hk) (h3 rfl _)
  | some e =>
    obtain ⟨q1, q2⟩ := h2 e rfl
    rw [p.edge_eq hs hk q1 q2]

theorem TetParts.cnodup (p : T.TetParts r V E F) {c : List Nat} (hc : c ∈ tetCycles) : (c.map V).Nodup := by
  obtain ⟨-, t2, t3⟩ := tetCycles_lt c hc
  refine List.Nodup.map_on ?_ t2
  intro i hi j hj he
  exact p.inj (t3 i hi) (t3 j hj) he

theorem TetParts.commonFace (p : T.TetParts r V E F) (h : T.Consistent) (hl : T.AllLoops) (hs : T.SimpleEdges) (hsf : T.SimpleFaces)
    {k : Nat} {c c' : List Nat} (hk : tetCycles[k]? = some c) (hp : c'.Perm c) : T.mvsCommonFace (c'.map V) = .ok (some (F k)) := by
  have hu := p.face k c hk
  have hf := hu.flive h
  obtain ⟨-, d, -, hseen⟩ := hu
  have hm := List.mem_of_getElem? hk
  obtain ⟨t1, t2, t3⟩ := tetCycles_lt c hm
  refine commonFace3 h hl hs hsf hf hseen (by rw [List.length_map]; exact t1) (p.cnodup hm) (hp.map V) ?_
  intro v hv
  obtain ⟨i, hi, rfl⟩ := List.mem_map.1 hv
  exact p.vlive h i (t3 i hi)

/-- The array of the entities of a tetrahedron. -/
theorem TetParts.array (p : T.TetParts r V E F) (h : T.Consistent) (hl : T.AllLoops) (hs : T.SimpleEdges) (hsf : T.SimpleFaces)
    {mv me mf mr : Nat → Option Nat} {P : Node → Nat} (hv : ∀ i < 4, mv (V i) = some (P (.v (V i))))
    (he : ∀ i < 6, me (E i) = some (P (.e (E i)))) (hf : ∀ i < 4, mf (F i) = some (P (.f (F i)))) (hr : mr r = some (P (.r r))) :
    T.tetArray mv me mf mr r = .ok ((List.range 15).map fun i => some (P (partsOf r V E F i))) := by
  have hes : T.sideEdges [some (V 0), some (V 1), some (V 2), some (V 3)] tetPairs =
      .ok [some (E 0), some (E 1), some (E 2), some (E 3), some (E 4), some (E 5)] := by
    rw [show tetPairs = [(0,1), (0,2), (0,3), (1,2), (1,3), (2,3)] by decide]
    have e0 := p.commonEdge h hs (k := 0) rfl
    have e1 := p.commonEdge h hs (k := 1) rfl
    have e2 := p.commonEdge h hs (k := 2) rfl
    have e3 := p.commonEdge h hs (k := 3) rfl
    have e4 := p.commonEdge h hs (k := 4) rfl
    have e5 := p.commonEdge h hs (k := 5) rfl
    simp [sideEdges, Res.ofOption, e0, e1, e2, e3, e4, e5]
  have hfs : T.sideFaces [some (V 0), some (V 1), some (V 2), some (V 3)] tetTriples =
      .ok [some (F 0), some (F 1), some (F 2), some (F 3)] := by
    rw [show tetTriples = [[1,2,3], [2,3,0], [3,0,1], [0,1,2]] by decide]
    have f0 := p.commonFace h hl hs hsf (k := 0) (c' := [1,2,3]) rfl (by decide)
    have f1 := p.commonFace h hl hs hsf (k := 1) (c' := [2,3,0]) rfl (by decide)
    have f2 := p.commonFace h hl hs hsf (k := 2) (c' := [3,0,1]) rfl (by decide)
    have f3 := p.commonFace h hl hs hsf (k := 3) (c' := [0,1,2]) rfl (by decide)
    simp only [List.map_cons, List.map_nil] at f0 f1 f2 f3
    simp [sideFaces, pickAll, Res.ofOption, f0, f1, f2, f3]
  unfold tetArray
  rw [p.verts, Res.bind_ok, Res.ofOption_some, Res.bind_ok]
  simp [fillAt, Res.ofOption, hv, he, hf, hr, hes, hfs, partsOf, List.range_succ]

/-- the faces of the tetrahedron are the four -/
theorem TetParts.faces (p : T.TetParts r V E F) (h : T.Consistent) (hl : T.AllLoops) {f : Nat} (hf : T.RegionHas r f) :
    ∃ k < 4, f = F k := by
  obtain ⟨fs, hel⟩ := p.elem.elt h hl
  rw [RegionHas_iff h, hel.rf] at hf
  obtain ⟨i, hi⟩ := List.mem_iff_getElem?.1 hf.2
  obtain ⟨c, hc, d, hs⟩ := hel.at_ i f hi
  obtain ⟨k, c', hk, rfl⟩ := stdCycles_tet V c hc
  have hu := p.face k c' hk
  have hg := (RegionHas_iff h).1 hu.has
  rw [hel.rf] at hg
  obtain ⟨j, hj⟩ := List.mem_iff_getElem?.1 hg.2
  obtain ⟨d', hs'⟩ := side_of_uses h hl hel.rf hj (stdCycles_ne hc) hu
  have := hel.uniq _ hc i j f (F k) d d' hs hs'
  subst this
  rw [hi] at hj
  injection hj with hj
  have hk4 : k < tetCycles.length := (List.getElem?_eq_some_iff.1 hk).1
  exact ⟨k, hk4, hj⟩

theorem tetSide_of : ∀ c ∈ tetCycles, ∀ i ∈ c, ∀ j ∈ c, i ≠ j → ∃ k ∈ List.range 6,
    tetEdgeEnds[k]? = some (i, j) ∨ tetEdgeEnds[k]? = some (j, i) := by decide

/-- the edge `k` lies on the face `m` -/
def onFace (k m : Nat) : Bool :=
  match tetEdgeEnds[k]?, tetCycles[m]? with
  | some (i, j), some c => decide (i ∈ c) && decide (j ∈ c)
  | _, _ => false

theorem onFace_iff {k m i j : Nat} {c : List Nat} (hk : tetEdgeEnds[k]? = some (i, j)) (hm : tetCycles[m]? = some c) :
    onFace k m = true ↔ i ∈ c ∧ j ∈ c := by
  unfold onFace
  rw [hk, hm]
  simp

theorem onFace_next : ∀ k ∈ List.range 6, ∀ m ∈ List.range 4, onFace k m = true → ∃ p ∈ tetEdgeEnds[k]?, ∃ c ∈ tetCycles[m]?,
    nextB c p.1 p.2 = true ∨ nextB c p.2 p.1 = true := by decide

theorem TetParts.onFace (p : T.TetParts r V E F) (h : T.Consistent) (hl : T.AllLoops) (hs : T.SimpleEdges) {k m : Nat}
    (hk : k < 6) (hm : m < 4) (ho : onFace k m = true) : T.FaceHas (F m) (E k) := by
  obtain ⟨q, h1, c, h2, h3⟩ := onFace_next k (List.mem_range.2 hk) m (List.mem_range.2 hm) ho
  rw [Option.mem_def] at h1 h2
  have hu := p.face m c h2
  have hf := hu.flive h
  obtain ⟨-, d, -, hseen⟩ := hu
  rcases h3 with h3 | h3
  · obtain ⟨e, q0, q1, q2⟩ := edge_of_seen h hl hf hseen ((nextB_sound h3).map V)
    rw [← p.edge_eq hs (i := q.1) (j := q.2) h1 q1 q2]; exact q0
  · obtain ⟨e, q0, q1, q2⟩ := edge_of_seen h hl hf hseen ((nextB_sound h3).map V)
    rw [← p.edge_eq hs (i := q.1) (j := q.2) h1 q2 q1]; exact q0

/-- the edges of a face of the tetrahedron -/
theorem TetParts.faceEdges (p : T.TetParts r V E F) (h : T.Consistent) (hl : T.AllLoops) (hs : T.SimpleEdges) {m x : Nat}
    (hm : m < 4) (hx : T.FaceHas (F m) x) : ∃ k < 6, x = E k ∧ Topo.onFace k m = true := by
  obtain ⟨c, hc⟩ : ∃ c, tetCycles[m]? = some c := ⟨_, List.getElem?_eq_getElem (show m < tetCycles.length from hm)⟩
  have hu := p.face m c hc
  have hf := hu.flive h
  have hcm := List.mem_of_getElem? hc
  obtain ⟨t1, t2, t3⟩ := tetCycles_lt c hcm
  obtain ⟨-, d, -, hseen⟩ := hu
  obtain ⟨ws, hw, hwn⟩ := hl _ hf
  have hne : c.map V ≠ [] := by
    intro hh
    have := congrArg List.length hh
    rw [List.length_map, t1] at this
    cases this
  rw [seen_iff hf hw hwn hne] at hseen
  have hp : (c.map V).Perm ws := hseen.perm.trans (turned_perm d)
  have h3 : ws.length = 3 := by rw [← hp.length_eq, List.length_map, t1]
  obtain ⟨a, b, c', x', y', z', -, -, k3, -, k5, k6, k7, rfl, k8⟩ := triNodes_ok h hf hw hwn h3
  simp only [List.nodup_cons, List.mem_cons, List.not_mem_nil, or_false, not_or, not_false_iff, List.nodup_nil, and_true] at k3
  have key : ∀ u v, u ∈ [a, b, c'] → v ∈ [a, b, c'] → u ≠ v → T.EdgeHas x u → T.EdgeHas x v → ∃ k < 6, x = E k ∧ Topo.onFace k m = true := by
    intro u v hu hv huv e1 e2
    obtain ⟨i, hi, rfl⟩ := List.mem_map.1 (hp.mem_iff.2 hu)
    obtain ⟨j, hj, rfl⟩ := List.mem_map.1 (hp.mem_iff.2 hv)
    obtain ⟨k, hk, hk2⟩ := tetSide_of c hcm i hi j hj (fun e => huv (congrArg V e))
    rcases hk2 with hk2 | hk2
    · exact ⟨k, List.mem_range.1 hk, p.edge_eq hs hk2 e1 e2, (onFace_iff hk2 hc).2 ⟨hi, hj⟩⟩
    · exact ⟨k, List.mem_range.1 hk, p.edge_eq hs hk2 e2 e1, (onFace_iff hk2 hc).2 ⟨hj, hi⟩⟩
  rcases (k8 x).1 hx with rfl | rfl | rfl
  · exact key a b (by simp) (by simp) k3.1.1 k5.2.1 k5.2.2
  · exact key b c' (by simp) (by simp) k3.2 k6.2.1 k6.2.2
  · exact key c' a (by simp) (by simp) (Ne.symm k3.1.2) k7.2.1 k7.2.2

/-- different parts are different entities -/
theorem TetParts.partsInj (p : T.TetParts r V E F) (h : T.Consistent) (hl : T.AllLoops) {i j : Nat} (hi : i < 15) (hj : j < 15)
    (he : partsOf r V E F i = partsOf r V E F j) : i = j := by
  have eInj : ∀ k < 6, ∀ m < 6, E k = E m → k = m := by
    intro k hk m hm e
    obtain ⟨q, hq⟩ : ∃ q, tetEdgeEnds[k]? = some q := ⟨_, List.getElem?_eq_getElem (show k < tetEdgeEnds.length from hk)⟩
    obtain ⟨q', hq'⟩ : ∃ q, tetEdgeEnds[m]? = some q := ⟨_, List.getElem?_eq_getElem (show m < tetEdgeEnds.length from hm)⟩
    obtain ⟨a1, a2⟩ := p.edge k q.1 q.2 hq
    obtain ⟨b1, b2⟩ := p.edge m q'.1 q'.2 hq'
    obtain ⟨t1, t2, t3⟩ := tetEdgeEnds_lt q (List.mem_of_getElem? hq)
    obtain ⟨t4, t5, t6⟩ := tetEdgeEnds_lt q' (List.mem_of_getElem? hq')
    rw [← e] at b1 b2
    have c1 : q'.1 = q.1 ∨ q'.1 = q.2 := by
      rcases two_ends a1 a2 b1 with k | k | k
      · exact absurd (p.inj t1 t2 k) t3
      · exact Or.inl (p.inj t1 t4 k).symm
      · exact Or.inr (p.inj t2 t4 k).symm
    have c2 : q'.2 = q.1 ∨ q'.2 = q.2 := by
      rcases two_ends a1 a2 b2 with k | k | k
      · exact absurd (p.inj t1 t2 k) t3
      · exact Or.inl (p.inj t1 t5 k).symm
      · exact Or.inr (p.inj t2 t5 k).symm
    have fin : ∀ k ∈ List.range 6, ∀ m ∈ List.range 6, ∀ q ∈ tetEdgeEnds[k]?, ∀ q' ∈ tetEdgeEnds[m]?,
        (q'.1 = q.1 ∨ q'.1 = q.2) → (q'.2 = q.1 ∨ q'.2 = q.2) → k = m := by decide
    exact fin k (List.mem_range.2 hk) m (List.mem_range.2 hm) q hq q' hq' c1 c2
  have fInj : ∀ k < 4, ∀ m < 4, F k = F m → k = m := by
    intro k hk m hm e
    obtain ⟨c, hc⟩ : ∃ q, tetCycles[k]? = some q := ⟨_, List.getElem?_eq_getElem (show k < tetCycles.length from hk)⟩
    obtain ⟨c', hc'⟩ : ∃ q, tetCycles[m]? = some q := ⟨_, List.getElem?_eq_getElem (show m < tetCycles.length from hm)⟩
    have hu := p.face k c hc
    have hu' := p.face m c' hc'
    rw [← e] at hu'
    have hperm : (c.map V).Perm (c'.map V) := by
      have hf := hu.flive h
      obtain ⟨-, d, -, hseen⟩ := hu
      obtain ⟨-, d', -, hseen'⟩ := hu'
      obtain ⟨ws, hw, hwn⟩ := hl _ hf
      have hne := stdCycles_ne (tetCycles_std V c (List.mem_of_getElem? hc))
      have hne' := stdCycles_ne (tetCycles_std V c' (List.mem_of_getElem? hc'))
      rw [seen_iff hf hw hwn hne] at hseen
      rw [seen_iff hf hw hwn hne'] at hseen'
      exact (hseen.perm.trans (turned_perm d)).trans (hseen'.perm.trans (turned_perm d')).symm
    have hsub : ∀ i ∈ c, i ∈ c' := by
      intro i hi
      obtain ⟨j, hj, e⟩ := List.mem_map.1 (hperm.mem_iff.1 (List.mem_map_of_mem hi))
      rw [p.inj ((tetCycles_lt c (List.mem_of_getElem? hc)).2.2 i hi) ((tetCycles_lt c' (List.mem_of_getElem? hc')).2.2 j hj) e.symm]
      exact hj
    have fin : ∀ k ∈ List.range 4, ∀ m ∈ List.range 4, ∀ q ∈ tetCycles[k]?, ∀ q' ∈ tetCycles[m]?,
        (∀ i ∈ q, i ∈ q') → k = m := by decide
    exact fin k (List.mem_range.2 hk) m (List.mem_range.2 hm) c hc c' hc' hsub
  unfold partsOf at he
  split at he <;> split at he <;> (try split at he) <;> (try split at he) <;> (try split at he) <;> (try split at he) <;>
    first
      | (cases he; done)
      | skip
  all_goals first
    | (injection he with he; exact p.inj (by omega) (by omega) he)
    | (injection he with he; have := eInj _ (by omega) _ (by omega) he; omega)
    | (injection he with he; have := fInj _ (by omega) _ (by omega) he; omega)
    | omega

end parts

/-! ### the hexahedra in terms of the parts -/

theorem hexesOf_eq (r : Nat) (V E F : Nat → Nat) : hexesOf r V E F = tetHex.map (·.map (partsOf r V E F)) := rfl

theorem tetHex_rows : ∀ row ∈ tetHex, row.Nodup ∧ row.length = 8 ∧ ∀ i ∈ row, i < 15 := by decide

theorem tetHex_lt : ∀ row ∈ tetHex, ∀ c ∈ stdCycles row, ∀ i ∈ c, i < 15 := by decide

/-- no two of the four hexahedra have a face which they see in the same direction -/
theorem tetHex_once : tetHex.Pairwise fun vs ws => ∀ c ∈ stdCycles vs, ∀ c' ∈ stdCycles ws, ¬ c' ~r c := by decide +kernel

/-- the quarters of the outer faces: the face `k`, its vertices from the one in the corner, the edges at the
corner -/
def corners : List (Nat × (Nat × Nat × Nat) × (Nat × Nat)) :=
  [(0,(1,2,3),(3,4)), (0,(2,3,1),(5,3)), (0,(3,1,2),(4,5)),
   (1,(0,3,2),(2,1)), (1,(3,2,0),(5,2)), (1,(2,0,3),(1,5)),
   (2,(0,1,3),(0,2)), (2,(1,3,0),(4,0)), (2,(3,0,1),(2,4)),
   (3,(0,2,1),(1,0)), (3,(2,1,0),(3,1)), (3,(1,0,2),(0,3))]

theorem corners_ok : ∀ t ∈ corners, t.1 < 4 ∧ (∃ c ∈ tetCycles[t.1]?, c ~r [t.2.1.1, t.2.1.2.1, t.2.1.2.2]) ∧
    t.2.1.1 < 4 ∧ t.2.1.2.1 < 4 ∧ t.2.1.2.2 < 4 ∧ t.2.1.1 ≠ t.2.1.2.1 ∧ t.2.1.1 ≠ t.2.1.2.2 ∧ t.2.2.1 < 6 ∧ t.2.2.2 < 6 ∧
    (tetEdgeEnds[t.2.2.1]? = some (t.2.1.1, t.2.1.2.1) ∨ tetEdgeEnds[t.2.2.1]? = some (t.2.1.2.1, t.2.1.1)) ∧
    (tetEdgeEnds[t.2.2.2]? = some (t.2.1.1, t.2.1.2.2) ∨ tetEdgeEnds[t.2.2.2]? = some (t.2.1.2.2, t.2.1.1)) := by decide +kernel

theorem tetHex_corners : ∀ row ∈ tetHex, ∀ c ∈ stdCycles row, 14 ∈ c ∨
    ∃ t ∈ corners, c ~r [t.2.1.1, 4 + t.2.2.1, 10 + t.1, 4 + t.2.2.2] := by decide +kernel

/-- the edges between the parts -/
def halves : List (Nat × Nat) :=
  [(0,4),(1,4),(0,5),(2,5),(0,6),(3,6),(1,7),(2,7),(1,8),(3,8),(2,9),(3,9)] ++
  (List.range 6).flatMap (fun k => ((List.range 4).filter (onFace k)).map fun m => (4+k, 10+m)) ++
  [(10,14),(11,14),(12,14),(13,14)]

theorem halves_of_next : ∀ row ∈ tetHex, ∀ c ∈ stdCycles row, ∀ i ∈ List.range 15, ∀ j ∈ List.range 15, nextB c i j = true →
    (i, j) ∈ halves ∨ (j, i) ∈ halves := by decide +kernel

theorem next_of_halves : ∀ p ∈ halves, ∃ row ∈ tetHex, ∃ c ∈ stdCycles row, nextB c p.1 p.2 = true ∨ nextB c p.2 p.1 = true := by
  decide +kernel

theorem map_inj_mem {α β : Type} {g : α → β} : ∀ {l l' : List α}, (∀ x ∈ l, ∀ y ∈ l', g x = g y → x = y) → l.map g = l'.map g → l = l' := by
  intro l
  induction l with
  | nil => intro l' _ h; cases l' with
    | nil => rfl
    | cons y l' => simp at h
  | cons x l ih =>
    intro l' hi h
    cases l' with
    | nil => simp at h
    | cons y l' =>
      rw [List.map_cons, List.map_cons, List.cons.injEq] at h
      rw [hi x (by simp) y (by simp) h.1, ih (fun a ha b hb => hi a (by simp [ha]) b (by simp [hb])) h.2]

theorem rotated_of_map {α β : Type} {g : α → β} {l l' : List α} (hi : ∀ x ∈ l, ∀ y ∈ l', g x = g y → x = y)
    (h : l.map g ~r l'.map g) : l ~r l' := by
  obtain ⟨n, hn⟩ := h
  refine ⟨n, map_inj_mem (g := g) ?_ ?_⟩
  · intro x hx y hy; exact hi x (List.mem_rotate.1 hx) y hy
  · rw [← hn, List.map_rotate]

theorem four_rotated {a b c d a' b' c' d' : Nat} (h : [Node.v a, .e b, .f c, .e d] ~r [Node.v a', .e b', .f c', .e d']) :
    a = a' ∧ b = b' ∧ c = c' ∧ d = d' := by
  obtain ⟨n, hn⟩ := h
  rw [← List.rotate_mod] at hn
  have : n % 4 = 0 ∨ n % 4 = 1 ∨ n % 4 = 2 ∨ n % 4 = 3 := by omega
  rw [show ([Node.v a, .e b, .f c, .e d] : List Node).length = 4 from rfl] at hn
  rcases this with h | h | h | h <;> rw [h] at hn <;> simp [List.rotate] at hn
  exact hn

/-- two regions with an equal oriented quarter of a face are one region -/
theorem same_region {T : Topo} (h : T.Consistent) (hl : T.AllLoops) {r r' : Nat} {V E F V' E' F' : Nat → Nat}
    (p : T.TetParts r V E F) (p' : T.TetParts r' V' E' F') {row row' c c' : List Nat} (hr : row ∈ tetHex) (hr' : row' ∈ tetHex)
    (hc : c ∈ stdCycles row) (hc' : c' ∈ stdCycles row') (he : c'.map (partsOf r' V' E' F') ~r c.map (partsOf r V E F)) : r = r' := by
  have pos : ∀ {r V E F} {c : List Nat}, (∀ i ∈ c, i < 15) → Node.r r ∈ c.map (partsOf r V E F) → 14 ∈ c := by
    intro r V E F c hlt hm
    obtain ⟨i, hi, e⟩ := List.mem_map.1 hm
    have := hlt i hi
    unfold partsOf at e
    split at e
    · cases e
    · split at e
      · cases e
      · split at e
        · cases e
        · have : i = 14 := by omega
          subst this; exact hi
  by_cases h14 : 14 ∈ c
  · have hm : Node.r r ∈ c.map (partsOf r V E F) := List.mem_map.2 ⟨14, h14, rfl⟩
    obtain ⟨i, hi, e⟩ := List.mem_map.1 (he.mem_iff.2 hm)
    unfold partsOf at e
    split at e
    · cases e
    · split at e
      · cases e
      · split at e
        · cases e
        · injection e with e; exact e.symm
  · have h14' : 14 ∉ c' := by
      intro hx
      have hm : Node.r r' ∈ c'.map (partsOf r' V' E' F') := List.mem_map.2 ⟨14, hx, rfl⟩
      obtain ⟨i, hi, e⟩ := List.mem_map.1 (he.mem_iff.1 hm)
      have hlt := tetHex_lt row hr c hc i hi
      unfold partsOf at e
      split at e
      · cases e
      · split at e
        · cases e
        · split at e
          · cases e
          · have : i = 14 := by omega
            subst this; exact h14 hi
    obtain ⟨⟨k, ⟨x, y, z⟩, e1, e2⟩, ht, hct⟩ := (tetHex_corners row hr c hc).resolve_left h14
    obtain ⟨⟨k', ⟨x', y', z'⟩, e1', e2'⟩, ht', hct'⟩ := (tetHex_corners row' hr' c' hc').resolve_left h14'
    obtain ⟨o1, ⟨w, hw, ow⟩, o2, o3, o4, o5, o6, o7, o8, o9, o10⟩ := corners_ok _ ht
    obtain ⟨o1', ⟨w', hw', ow'⟩, o2', o3', o4', o5', o6', o7', o8', o9', o10'⟩ := corners_ok _ ht'
    dsimp only at hct hct' o1 ow o2 o3 o4 o5 o6 o7 o8 o9 o10 o1' ow' o2' o3' o4' o5' o6' o7' o8' o9' o10' hw hw'
    have key : ∀ {r V E F} {k x e1 e2 : Nat}, k < 4 → x < 4 → e1 < 6 → e2 < 6 →
        [x, 4 + e1, 10 + k, 4 + e2].map (partsOf r V E F) = [Node.v (V x), .e (E e1), .f (F k), .e (E e2)] := by
      intro r V E F k x e1 e2 h1 h2 h3 h4
      have a1 : partsOf r V E F x = .v (V x) := if_pos h2
      have a2 : partsOf r V E F (4 + e1) = .e (E e1) := by
        unfold partsOf; rw [if_neg (by omega), if_pos (by omega), Nat.add_sub_cancel_left]
      have a3 : partsOf r V E F (10 + k) = .f (F k) := by
        unfold partsOf; rw [if_neg (by omega), if_neg (by omega), if_pos (by omega), Nat.add_sub_cancel_left]
      have a4 : partsOf r V E F (4 + e2) = .e (E e2) := by
        unfold partsOf; rw [if_neg (by omega), if_pos (by omega), Nat.add_sub_cancel_left]
      simp only [List.map_cons, List.map_nil, a1, a2, a3, a4]
    have hq := ((hct'.symm.map (partsOf r' V' E' F')).trans he).trans (hct.map (partsOf r V E F))
    rw [key o1 o2 o7 o8, key o1' o2' o7' o8'] at hq
    obtain ⟨q1, q2, q3, q4⟩ := four_rotated hq
    have ends : ∀ {T : Topo} {r V E F} (p : T.TetParts r V E F) {e x y : Nat},
        (tetEdgeEnds[e]? = some (x, y) ∨ tetEdgeEnds[e]? = some (y, x)) → T.EdgeHas (E e) (V x) ∧ T.EdgeHas (E e) (V y) := by
      rintro T r V E F p e x y (h | h)
      · exact p.edge e x y h
      · exact (p.edge e y x h).symm
    obtain ⟨a1, a2⟩ := ends p o9
    obtain ⟨b1, b2⟩ := ends p o10
    obtain ⟨a1', a2'⟩ := ends p' o9'
    obtain ⟨b1', b2'⟩ := ends p' o10'
    rw [q1, q2] at a1'
    rw [q2] at a2'
    rw [q1, q4] at b1'
    rw [q4] at b2'
    have hy : V y = V' y' := by
      rcases two_ends a1 a2 a2' with k | k | k
      · exact absurd (p.inj o2 o3 k) o5
      · exact absurd (p'.inj o2' o3' (q1.trans k)) o5'
      · exact k
    have hz : V z = V' z' := by
      rcases two_ends b1 b2 b2' with k | k | k
      · exact absurd (p.inj o2 o4 k) o6
      · exact absurd (p'.inj o2' o4' (q1.trans k)) o6'
      · exact k
    have hu := p.face k w hw
    have hu' := p'.face k' w' hw'
    have hf := hu.flive h
    have hf' := hu'.flive h
    obtain ⟨l1, d, l2, l3⟩ := hu
    obtain ⟨m1, d', m2, m3⟩ := hu'
    rw [q3] at m2 m3
    have n1 := Seen.rotate hf hl (stdCycles_ne (tetCycles_std V w (List.mem_of_getElem? hw))) (ow.symm.map V) l3
    have n2 := Seen.rotate hf hl (stdCycles_ne (tetCycles_std V' w' (List.mem_of_getElem? hw'))) (ow'.symm.map V') m3
    have e3 : [x', y', z'].map V' = [x, y, z].map V := by simp [q1, hy, hz]
    rw [e3] at n2
    have hdd := Seen.unique hf hl (by simp) n1 n2
    subst hdd
    have z1 := (h.fr.mem (F k) (alloc_of_live hf) r d).2 ⟨l1, (mrFaceDir_iff h l1).1 l2⟩
    have z2 := (h.fr.mem (F k) (alloc_of_live hf) r' d).2 ⟨m1, (mrFaceDir_iff h m1).1 m2⟩
    rw [z1] at z2
    injection z2

/-! ### the loops making the hexahedra -/

theorem addRegions_append : ∀ (xs ys : List (List Nat)) (T : Topo),
    addRegions (xs ++ ys) T = (addRegions xs T >>= fun T' => addRegions ys T') := by
  intro xs
  induction xs with
  | nil => intro ys T; rfl
  | cons x xs ih =>
    intro ys T
    rw [List.cons_append, addRegions, addRegions]
    cases T.addRegion x with
    | ok T' => rw [Res.bind_ok, Res.bind_ok, ih]
    | ub => rfl
    | fatal => rfl
    | hang => rfl

theorem addHexes_eq {c : Nat × Nat} {a : List (Option Nat)} {Q : List Nat → List Nat} : ∀ (rows : List (List Nat)) (S : Conv),
    (∀ row ∈ rows, pickAll a row = .ok (Q row)) →
    addHexes c a rows S = (addRegions (rows.map Q) S.T >>= fun T' =>
      .ok { S with T := T', cells := S.cells ++ rows.map fun _ => c }) := by
  intro rows
  induction rows with
  | nil =>
    intro S _
    show Res.ok S = .ok _
    congr 1
    cases S
    simp
  | cons row rows ih =>
    intro S h
    rw [addHexes, h row (by simp), Res.bind_ok, List.map_cons, addRegions]
    cases hT : S.T.addRegion (Q row) with
    | ok T' =>
      rw [Res.bind_ok, Res.bind_ok, ih _ (fun r hr => h r (by simp [hr]))]
      cases addRegions (rows.map Q) T' with
      | ok T2 => simp
      | ub => rfl
      | fatal => rfl
      | hang => rfl
    | ub => rfl
    | fatal => rfl
    | hang => rfl

theorem hexLoop_eq {T : Topo} {G : ModelCls} {mv me mf mr : Nat → Option Nat} {M : Nat → Nat → Nat} :
    ∀ (rl : List Nat) (S : Conv),
    (∀ r ∈ rl, T.tetArray mv me mf mr r = .ok ((List.range 15).map fun i => some (M r i))) →
    T.hexLoop G mv me mf mr rl S = (addRegions (rl.flatMap fun r => tetHex.map fun row => row.map (M r)) S.T >>= fun T' =>
      .ok { S with T := T', cells := S.cells ++ rl.flatMap fun r => [G.r r, G.r r, G.r r, G.r r] }) := by
  intro rl
  induction rl with
  | nil =>
    intro S _
    show Res.ok S = .ok _
    cases S
    simp
  | cons r rl ih =>
    intro S h
    rw [hexLoop, h r (by simp), Res.bind_ok, List.flatMap_cons]
    have hq : ∀ row ∈ tetHex, pickAll ((List.range 15).map fun i => some (M r i)) row = .ok (row.map (M r)) := by
      intro row hr
      refine pickAll_ok rfl _ _ ?_
      have := (tetHex_rows row hr).2.2
      refine List.map_congr_left fun i hi => ?_
      rw [List.getElem?_range (this i hi)]
    rw [addHexes_eq (Q := fun row => row.map (M r)) tetHex S hq, addRegions_append]
    cases addRegions (tetHex.map fun row => row.map (M r)) S.T with
    | ok T1 =>
      rw [Res.bind_ok, Res.bind_ok, Res.bind_ok, ih _ (fun g hg => h g (by simp [hg]))]
      dsimp only
      cases addRegions (rl.flatMap fun r => tetHex.map fun row => row.map (M r)) T1 with
      | ok T2 => simp [tetHex]
      | ub => rfl
      | fatal => rfl
      | hang => rfl
    | ub => rfl
    | fatal => rfl
    | hang => rfl

theorem flatMap4 {α β : Type} {g : α → List β} : ∀ (l : List α) (k : Nat) (x : α) (j : Nat), (∀ y ∈ l, (g y).length = 4) →
    l[k]? = some x → j < 4 → (l.flatMap g)[4*k+j]? = (g x)[j]? := by
  intro l
  induction l with
  | nil => intro k x j _ h; simp at h
  | cons y l ih =>
    intro k x j h3 hk hj
    have hy := h3 y (by simp)
    rw [List.flatMap_cons]
    cases k with
    | zero =>
      simp only [List.getElem?_cons_zero, Option.some.injEq] at hk
      subst hk
      rw [Nat.mul_zero, Nat.zero_add, List.getElem?_append_left (by omega)]
    | succ k =>
      rw [List.getElem?_cons_succ] at hk
      rw [List.getElem?_append_right (by omega), hy, show 4*(k+1)+j-4 = 4*k+j by omega]
      exact ih k x j (fun z hz => h3 z (by simp [hz])) hk hj

theorem flatMap4_length {α β : Type} {g : α → List β} : ∀ (l : List α), (∀ y ∈ l, (g y).length = 4) →
    (l.flatMap g).length = 4 * l.length := by
  intro l
  induction l with
  | nil => intro _; rfl
  | cons y l ih =>
    intro h
    rw [List.flatMap_cons, List.length_append, h y (by simp), ih (fun z hz => h z (by simp [hz])), List.length_cons]
    omega

/-! ### edges and faces of the new mesh -/

theorem Elements.usesCycle {T : Topo} {n : Nat} {R : List (List Nat)} (h : Elements T n R) {vs c : List Nat} (hv : vs ∈ R)
    (hc : c ∈ stdCycles vs) : ∃ r f, T.Uses r f c := by
  obtain ⟨r, hr⟩ := List.mem_iff_getElem?.1 hv
  obtain ⟨-, fs, -, q2, q3⟩ := h.uses r vs hr
  obtain ⟨i, hi⟩ := List.mem_iff_getElem?.1 hc
  have hil := (List.getElem?_eq_some_iff.1 hi).1
  exact ⟨r, _, q3 i c _ hi (List.getElem?_eq_getElem (by omega))⟩

theorem Elements.edgeBetween {T : Topo} {n : Nat} {R : List (List Nat)} (h : Elements T n R) {a b : Nat} (hab : a ≠ b) :
    T.EdgeBetween a b ↔ ∃ vs ∈ R, ∃ c ∈ stdCycles vs, Next c a b ∨ Next c b a := by
  constructor
  · rintro ⟨e, h1, h2⟩
    rw [EdgeHas_iff] at h1 h2
    obtain ⟨vs, hv, c, hc, x, y, hN, he⟩ := h.edges e h1.1
    refine ⟨vs, hv, c, hc, ?_⟩
    have k1 := h1.2
    have k2 := h2.2
    unfold ends at k1 k2
    rcases he with he | he <;> rw [he] at k1 k2 <;> rcases k1 with k1 | k1 <;> rcases k2 with k2 | k2 <;>
      injection k1 with k1 <;> injection k2 with k2 <;> subst k1 <;> subst k2 <;> simp_all
  · rintro ⟨vs, hv, c, hc, hN⟩
    obtain ⟨r, f, hu⟩ := h.usesCycle hv hc
    have hf := hu.flive h.cons
    obtain ⟨-, d, -, hseen⟩ := hu
    rcases hN with hN | hN
    · obtain ⟨e, -, q1, q2⟩ := edge_of_seen h.cons h.loops hf hseen hN
      exact ⟨e, q1, q2⟩
    · obtain ⟨e, -, q1, q2⟩ := edge_of_seen h.cons h.loops hf hseen hN
      exact ⟨e, q2, q1⟩

theorem Elements.faceUsed {T : Topo} {n : Nat} {R : List (List Nat)} (h : Elements T n R) {f : Nat} (hf : T.sf f = .live) :
    ∃ r, T.RegionHas r f := by
  obtain ⟨vs, hv, c, hc, d, hs⟩ := h.faces f hf
  obtain ⟨r, g, hu⟩ := h.usesCycle hv hc
  have hg := hu.flive h.cons
  have hh := hu.has
  obtain ⟨-, d', -, hs'⟩ := hu
  rw [h.simpleF f g d d' c (std_three _ hc) hf hg hs hs'] at hh
  exact ⟨r, hh⟩

theorem next_map_inv {c : List Nat} {g : Nat → Nat} {a b : Nat} (h : Next (c.map g) a b) : ∃ i j, Next c i j ∧ a = g i ∧ b = g j := by
  obtain ⟨k, h1, h2⟩ := h
  rw [List.getElem?_map, Option.map_eq_some_iff] at h1
  rw [List.length_map, List.getElem?_map, Option.map_eq_some_iff] at h2
  obtain ⟨i, h1, rfl⟩ := h1
  obtain ⟨j, h2, rfl⟩ := h2
  exact ⟨i, j, ⟨k, h1, h2⟩, rfl, rfl⟩

theorem Next.mem {c : List Nat} {a b : Nat} (h : Next c a b) : a ∈ c ∧ b ∈ c := by
  obtain ⟨k, h1, h2⟩ := h
  exact ⟨List.mem_of_getElem? h1, List.mem_of_getElem? h2⟩

section halves
variable {T : Topo} {r : Nat} {V E F : Nat → Nat}

theorem part_v (r : Nat) (V E F : Nat → Nat) {i : Nat} (h : i < 4) : partsOf r V E F i = .v (V i) := if_pos h

theorem part_e (r : Nat) (V E F : Nat → Nat) {i : Nat} (h : i < 6) : partsOf r V E F (4 + i) = .e (E i) := by
  unfold partsOf; rw [if_neg (by omega), if_pos (by omega), Nat.add_sub_cancel_left]

theorem part_f (r : Nat) (V E F : Nat → Nat) {i : Nat} (h : i < 4) : partsOf r V E F (10 + i) = .f (F i) := by
  unfold partsOf; rw [if_neg (by omega), if_neg (by omega), if_pos (by omega), Nat.add_sub_cancel_left]

theorem halves_kinds : ∀ p ∈ halves,
    (∃ k ∈ List.range 6, ∃ q ∈ tetEdgeEnds[k]?, p.2 = 4 + k ∧ (p.1 = q.1 ∨ p.1 = q.2) ∧ ∃ m ∈ List.range 4, onFace k m = true) ∨
    (∃ k ∈ List.range 6, ∃ m ∈ List.range 4, onFace k m = true ∧ p = (4 + k, 10 + m)) ∨
    (∃ m ∈ List.range 4, p = (10 + m, 14)) := by decide +kernel

theorem halves_all : (∀ k ∈ List.range 6, ∀ q ∈ tetEdgeEnds[k]?, (q.1, 4 + k) ∈ halves ∧ (q.2, 4 + k) ∈ halves) ∧
    (∀ k ∈ List.range 6, ∀ m ∈ List.range 4, onFace k m = true → (4 + k, 10 + m) ∈ halves) ∧
    (∀ m ∈ List.range 4, (10 + m, 14) ∈ halves) := by decide +kernel

/-- the edges between parts are new edges -/
theorem TetParts.half (p : T.TetParts r V E F) (h : T.Consistent) (hl : T.AllLoops) (hs : T.SimpleEdges) {q : Nat × Nat}
    (hq : q ∈ halves) : T.Half3 (partsOf r V E F q.1) (partsOf r V E F q.2) := by
  have hF : ∀ m < 4, T.RegionHas r (F m) := by
    intro m hm
    exact (p.face m _ (List.getElem?_eq_getElem (show m < tetCycles.length from hm))).has
  rcases halves_kinds q hq with ⟨k, hk, s, hs1, e2, e1, m, hm, ho⟩ | ⟨k, hk, m, hm, ho, rfl⟩ | ⟨m, hm, rfl⟩
  · rw [List.mem_range] at hk hm
    obtain ⟨t1, t2, -⟩ := tetEdgeEnds_lt s (List.mem_of_getElem? hs1)
    obtain ⟨a1, a2⟩ := p.edge k s.1 s.2 hs1
    rw [e2, part_e _ _ _ _ hk]
    rcases e1 with e1 | e1
    · rw [e1, part_v _ _ _ _ t1]
      exact ⟨a1, r, F m, hF m hm, p.onFace h hl hs hk hm ho⟩
    · rw [e1, part_v _ _ _ _ t2]
      exact ⟨a2, r, F m, hF m hm, p.onFace h hl hs hk hm ho⟩
  · rw [List.mem_range] at hk hm
    dsimp only
    rw [part_e _ _ _ _ hk, part_f _ _ _ _ hm]
    exact ⟨p.onFace h hl hs hk hm ho, r, hF m hm⟩
  · rw [List.mem_range] at hm
    dsimp only
    rw [part_f _ _ _ _ hm]
    exact hF m hm

/-- new edges are between parts of a tetrahedron -/
theorem half_parts (h : T.Consistent) (hl : T.AllLoops) (hs : T.SimpleEdges) {V E F : Nat → Nat → Nat}
    (hp : ∀ r, T.sr r = .live → T.TetParts r (V r) (E r) (F r)) {m n : Node} (hmn : T.Half3 m n) :
    ∃ r, T.sr r = .live ∧ ∃ q ∈ halves, m = partsOf r (V r) (E r) (F r) q.1 ∧ n = partsOf r (V r) (E r) (F r) q.2 := by
  obtain ⟨a1, a2, a3⟩ := halves_all
  cases m with
  | v u =>
    cases n with
    | e x =>
      obtain ⟨hu, r, f, hrf, hfx⟩ := hmn
      have p := hp r hrf.1
      obtain ⟨m, hm, rfl⟩ := p.faces h hl hrf
      obtain ⟨k, hk, rfl, -⟩ := p.faceEdges h hl hs hm hfx
      obtain ⟨s, hs1⟩ : ∃ s, tetEdgeEnds[k]? = some s := ⟨_, List.getElem?_eq_getElem (show k < tetEdgeEnds.length from hk)⟩
      obtain ⟨t1, t2, t3⟩ := tetEdgeEnds_lt s (List.mem_of_getElem? hs1)
      obtain ⟨b1, b2⟩ := p.edge k s.1 s.2 hs1
      obtain ⟨c1, c2⟩ := a1 k (List.mem_range.2 hk) s hs1
      refine ⟨r, hrf.1, ?_⟩
      rcases two_ends b1 b2 hu with e | e | e
      · exact absurd (p.inj t1 t2 e) t3
      · exact ⟨_, c1, by rw [part_v _ _ _ _ t1, e], by rw [part_e _ _ _ _ hk]⟩
      · exact ⟨_, c2, by rw [part_v _ _ _ _ t2, e], by rw [part_e _ _ _ _ hk]⟩
    | v _ => exact hmn.elim
    | f _ => exact hmn.elim
    | r _ => exact hmn.elim
  | e x =>
    cases n with
    | f f =>
      obtain ⟨hfx, r, hrf⟩ := hmn
      have p := hp r hrf.1
      obtain ⟨m, hm, rfl⟩ := p.faces h hl hrf
      obtain ⟨k, hk, rfl, ho⟩ := p.faceEdges h hl hs hm hfx
      exact ⟨r, hrf.1, _, a2 k (List.mem_range.2 hk) m (List.mem_range.2 hm) ho, by rw [part_e _ _ _ _ hk],
        by rw [part_f _ _ _ _ hm]⟩
    | v _ => exact hmn.elim
    | e _ => exact hmn.elim
    | r _ => exact hmn.elim
  | f f =>
    cases n with
    | r r =>
      have hrf : T.RegionHas r f := hmn
      obtain ⟨m, hm, rfl⟩ := (hp r hrf.1).faces h hl hrf
      exact ⟨r, hrf.1, _, a3 m (List.mem_range.2 hm), by rw [part_f _ _ _ _ hm], rfl⟩
    | v _ => exact hmn.elim
    | e _ => exact hmn.elim
    | f _ => exact hmn.elim
  | r _ => cases n <;> exact hmn.elim

end halves

theorem TetParts.in_ {T : Topo} {r : Nat} {V E F : Nat → Nat} (p : T.TetParts r V E F) (h : T.Consistent) {vl el fl rl : List Nat}
    (hV : Enumerates T.sv vl) (hE : Enumerates T.se el) (hF : Enumerates T.sf fl) (hR : Enumerates T.sr rl) :
    ∀ i, i < 15 → (partsOf r V E F i).In vl el fl rl := by
  intro i hi
  unfold partsOf
  split
  · exact (hV.2 _).2 (p.vlive h i (by assumption))
  · split
    · have hk : i - 4 < tetEdgeEnds.length := by show i - 4 < 6; omega
      exact (hE.2 _).2 (p.edge _ _ _ (List.getElem?_eq_getElem hk)).1.1
    · split
      · have hk : i - 10 < tetCycles.length := by show i - 10 < 4; omega
        exact (hF.2 _).2 ((p.face _ _ (List.getElem?_eq_getElem hk)).flive h)
      · exact (hR.2 _).2 p.elem.live

theorem regionPt_tet {T : Topo} {r : Nat} {V E F : Nat → Nat} (p : T.TetParts r V E F) (h : T.Consistent) :
    T.regionPt r = .ok (some [V 0, V 1, V 2, V 3]) := by
  unfold regionPt
  rw [p.verts, Res.bind_ok, Res.ofOption_some, Res.bind_ok, if_neg (by simp), coordsOf_ok, Res.bind_ok]
  · rfl
  · simp only [List.forall_mem_cons, List.not_mem_nil, false_imp_iff, implies_true, and_true]
    exact ⟨p.vlive h 0 (by omega), p.vlive h 1 (by omega), p.vlive h 2 (by omega), p.vlive h 3 (by omega)⟩

/-- **C71.**  For every mesh of tetrahedra `MESH_Tet2Hex` makes the mesh of its hexahedra. -/
theorem C71_hexes {T : Topo} (h : T.Consistent) (hl : T.AllLoops) (hs : T.SimpleEdges) (hsf : T.SimpleFaces) (hend : T.Ended)
    (htri : T.Triangles) (htet : T.Tetrahedra) (G : ModelCls)
    {vl el fl rl : List Nat} (hV : Enumerates T.sv vl) (hE : Enumerates T.se el) (hF : Enumerates T.sf fl) (hR : Enumerates T.sr rl) :
    ∃ S, T.tet2hex G vl el fl rl = .ok (some S) ∧ HexesFor T G vl el fl rl S := by
  obtain ⟨S1, S2, S3, mv, me, mf, ge, gf, s1, s2, s3, hm, hB0, hcl, hpts, hvc, hge, hgf⟩ := stages h hl hend htri G hV hE hF
  obtain ⟨hmv, hme, hmf⟩ := hm rl
  have hparts : ∀ r, ∃ V E F : Nat → Nat, T.sr r = .live → T.TetParts r V E F := by
    intro r
    by_cases hr : T.sr r = .live
    · obtain ⟨vs, t1, t2, t3⟩ := htet r hr
      obtain ⟨V, E, F, p⟩ := tetParts_ok h hl hs t1 t2 t3
      exact ⟨V, E, F, fun _ => p⟩
    · exact ⟨id, id, id, fun hr' => absurd hr' hr⟩
  choose V E F hp using hparts
  have hlive : ∀ {r}, r ∈ rl → T.sr r = .live := fun {r} hr => (hR.2 r).1 hr
  let N : Nat → Nat → Node := fun r => partsOf r (V r) (E r) (F r)
  let P := place vl el fl rl
  have hin : ∀ r ∈ rl, ∀ i, i < 15 → (N r i).In vl el fl rl := fun r hr => (hp r (hlive hr)).in_ h hV hE hF hR
  have hinj : ∀ r ∈ rl, ∀ i j, i < 15 → j < 15 → P (N r i) = P (N r j) → i = j := by
    intro r hr i j hi hj e
    exact (hp r (hlive hr)).partsInj h hl hi hj (place_inj (hin r hr i hi) (hin r hr j hj) e)
  -- the new vertices for the regions
  obtain ⟨mr, d1, d2, -⟩ := addPoints_ok (pt := T.regionPt) (cls := G.r) (g := fun r => [V r 0, V r 1, V r 2, V r 3]) rl S3
    (fun _ => none) hR.1 (fun r hr => regionPt_tet (hp r (hlive hr)) h)
  have hmr : ∀ x ∈ rl, mr x = some (P (.r x)) := by
    intro x hx
    rw [d2 x hx, hB0.nv]
    rfl
  have hB1 := built_verts rl.length hB0
  have hloop := hexLoop_eq (T := T) (G := G) (mv := mv) (me := me) (mf := mf) (mr := mr) (M := fun r i => P (N r i)) rl
    ⟨addVerts rl.length S3.T, S3.pts ++ rl.map (fun r => [V r 0, V r 1, V r 2, V r 3]), S3.vcls ++ rl.map G.r, S3.cells⟩ (by
      intro r hr
      have p := hp r (hlive hr)
      have hin := hin r hr
      refine p.array h hl hs hsf (P := P) ?_ ?_ ?_ (hmr r hr)
      · intro i hi
        have := hin i (by omega)
        rw [show N r i = _ from part_v _ _ _ _ hi] at this
        exact hmv _ this
      · intro i hi
        have := hin (4 + i) (by omega)
        rw [show N r (4 + i) = _ from part_e _ _ _ _ hi] at this
        exact hme _ this
      · intro i hi
        have := hin (10 + i) (by omega)
        rw [show N r (10 + i) = _ from part_f _ _ _ _ hi] at this
        exact hmf _ this)
  let R := rl.flatMap fun r => tetHex.map fun row => row.map fun i => P (N r i)
  have hRm : ∀ vs ∈ R, ∃ r ∈ rl, ∃ row ∈ tetHex, vs = row.map fun i => P (N r i) := by
    intro vs hv
    obtain ⟨r, hr, hv⟩ := List.mem_flatMap.1 hv
    obtain ⟨row, h1, rfl⟩ := List.mem_map.1 hv
    exact ⟨r, hr, row, h1, rfl⟩
  have hmemR : ∀ {r row}, r ∈ rl → row ∈ tetHex → row.map (fun i => P (N r i)) ∈ R := fun {r row} hr hrow =>
    List.mem_flatMap.2 ⟨r, hr, List.mem_map.2 ⟨row, hrow, rfl⟩⟩
  have hOk : ElementsOk (vl.length + el.length + fl.length + rl.length) R := by
    refine ⟨?_, ?_, ?_, ?_⟩
    · intro vs hv
      obtain ⟨r, hr, row, hrow, rfl⟩ := hRm vs hv
      obtain ⟨t1, -, t3⟩ := tetHex_rows row hrow
      exact t1.map_on fun i hi j hj e => hinj r hr i j (t3 i hi) (t3 j hj) e
    · intro vs hv
      obtain ⟨r, hr, row, hrow, rfl⟩ := hRm vs hv
      rw [List.length_map, (tetHex_rows row hrow).2.1]
      simp
    · intro vs hv v hvm
      obtain ⟨r, hr, row, hrow, rfl⟩ := hRm vs hv
      obtain ⟨i, hi, rfl⟩ := List.mem_map.1 hvm
      exact place_lt (hin r hr i ((tetHex_rows row hrow).2.2 i hi))
    · show List.Pairwise _ (rl.flatMap _)
      rw [List.pairwise_flatMap]
      constructor
      · intro r hr
        rw [List.pairwise_map]
        refine List.Pairwise.imp_of_mem ?_ tetHex_once
        intro row row' hrow hrow' hno c hc c' hc' hrot
        rw [stdCycles_map] at hc hc'
        obtain ⟨c0, hc0, rfl⟩ := List.mem_map.1 hc
        obtain ⟨c0', hc0', rfl⟩ := List.mem_map.1 hc'
        refine hno c0 hc0 c0' hc0' (rotated_of_map ?_ hrot)
        intro i hi j hj e
        exact hinj r hr i j (tetHex_lt row' hrow' c0' hc0' i hi) (tetHex_lt row hrow c0 hc0 j hj) e
      · refine List.Pairwise.imp_of_mem ?_ hR.1
        intro r r' hr hr' hne vs hvs ws hws c hc c' hc' hrot
        obtain ⟨row, hrow, rfl⟩ := List.mem_map.1 hvs
        obtain ⟨row', hrow', rfl⟩ := List.mem_map.1 hws
        rw [stdCycles_map] at hc hc'
        obtain ⟨c0, hc0, rfl⟩ := List.mem_map.1 hc
        obtain ⟨c0', hc0', rfl⟩ := List.mem_map.1 hc'
        refine hne (same_region h hl (hp r (hlive hr)) (hp r' (hlive hr')) hrow hrow' hc0 hc0' ?_)
        have e1 : c0.map (fun i => P (N r i)) = (c0.map (N r)).map P := by rw [List.map_map]; rfl
        have e2 : c0'.map (fun i => P (N r' i)) = (c0'.map (N r')).map P := by rw [List.map_map]; rfl
        rw [e1, e2] at hrot
        refine rotated_of_map ?_ hrot
        intro m hm n hn e
        obtain ⟨i, hi, rfl⟩ := List.mem_map.1 hm
        obtain ⟨j, hj, rfl⟩ := List.mem_map.1 hn
        exact place_inj (hin r' hr' i (tetHex_lt row' hrow' c0' hc0' i hi)) (hin r hr j (tetHex_lt row hrow c0 hc0 j hj)) e
  obtain ⟨T', r1, hEl⟩ := elements_adds R (elements_of_built hB1) (by rw [List.nil_append]; exact hOk)
  rw [List.nil_append] at hEl
  have hRlen : R.length = 4 * rl.length := flatMap4_length rl fun r hr => rfl
  refine ⟨⟨T', S3.pts ++ rl.map (fun r => [V r 0, V r 1, V r 2, V r 3]), S3.vcls ++ rl.map G.r,
    S3.cells ++ rl.flatMap fun r => [G.r r, G.r r, G.r r, G.r r]⟩, ?_, ?_⟩
  · unfold tet2hex
    rw [s1, Res.bind_ok]; dsimp only
    rw [s2, Res.bind_ok]; dsimp only
    rw [s3, Res.bind_ok]; dsimp only
    rw [d1, Res.bind_ok]; dsimp only
    rw [hloop]
    dsimp only
    rw [show addRegions (rl.flatMap fun r => tetHex.map fun row => row.map fun i => P (N r i)) (addVerts rl.length S3.T) = .ok T' from r1,
      Res.bind_ok, Res.bind_ok]
    rfl
  · refine ⟨hEl.cons, hEl.loops, hEl.simpleE, hEl.simpleF, ?_, hEl.verts, ?_, ?_, fun f hf => hEl.faceUsed hf, ?_⟩
    · exact points_of (by rw [← hpts]) (by rw [← hvc]) hge hgf (fun r hr => (hp r (hlive hr)).verts)
    · intro x; rw [← hRlen]; exact hEl.regions x
    · intro k r hk
      have hr := List.mem_of_getElem? hk
      refine ⟨V r, E r, F r, hp r (hlive hr), ?_⟩
      intro j q hq
      have hj : j < 4 := (List.getElem?_eq_some_iff.1 hq).1
      rw [hexesOf_eq, List.getElem?_map, Option.map_eq_some_iff] at hq
      obtain ⟨row, hrow, rfl⟩ := hq
      have hc : R[4*k+j]? = some (row.map fun i => P (N r i)) := by
        have := flatMap4 (g := fun r => tetHex.map fun row => row.map fun i => P (N r i)) rl k r j (fun r hr => rfl) hk hj
        rw [List.getElem?_map, hrow] at this
        exact this
      have hrm := List.mem_of_getElem? hrow
      obtain ⟨i1, i2⟩ := hEl.isElement hOk hc
      rw [List.length_map, (tetHex_rows row hrm).2.1] at i2
      refine ⟨?_, i2, ?_⟩
      · rw [List.map_map]; exact i1
      · dsimp only
        rw [hcl, List.nil_append, flatMap4 rl k r j (by simp) hk hj]
        match j, hj with
        | 0, _ => rfl
        | 1, _ => rfl
        | 2, _ => rfl
        | 3, _ => rfl
    · intro p q hpi hqi hne
      have hPne : P p ≠ P q := fun e => hne (place_inj hpi hqi e)
      show T'.EdgeBetween (P p) (P q) ↔ _
      rw [hEl.edgeBetween hPne]
      constructor
      · rintro ⟨vs, hvs, c, hc, hN⟩
        obtain ⟨r, hr, row, hrow, rfl⟩ := hRm vs hvs
        rw [stdCycles_map] at hc
        obtain ⟨c0, hc0, rfl⟩ := List.mem_map.1 hc
        have key : ∀ {a b : Node}, a.In vl el fl rl → b.In vl el fl rl → Next (c0.map fun i => P (N r i)) (P a) (P b) →
            T.Half3 a b ∨ T.Half3 b a := by
          intro a b ha hb hN
          obtain ⟨i, j, hij, e1, e2⟩ := next_map_inv hN
          have li := tetHex_lt row hrow c0 hc0 i hij.mem.1
          have lj := tetHex_lt row hrow c0 hc0 j hij.mem.2
          have e1 := place_inj ha (hin r hr i li) e1
          have e2 := place_inj hb (hin r hr j lj) e2
          subst e1 e2
          have pr := hp r (hlive hr)
          rcases halves_of_next row hrow c0 hc0 i (List.mem_range.2 li) j (List.mem_range.2 lj) (nextB_of hij) with hh | hh
          · exact Or.inl (pr.half h hl hs hh)
          · exact Or.inr (pr.half h hl hs hh)
        rcases hN with hN | hN
        · exact key hpi hqi hN
        · exact (key hqi hpi hN).symm
      · have key : ∀ {m n : Node}, T.Half3 m n → ∃ vs ∈ R, ∃ c ∈ stdCycles vs, Next c (P m) (P n) ∨ Next c (P n) (P m) := by
          intro m n hmn
          obtain ⟨r, hr, t, ht, rfl, rfl⟩ := half_parts h hl hs hp hmn
          obtain ⟨row, hrow, c, hc, hN⟩ := next_of_halves t ht
          refine ⟨_, hmemR ((hR.2 r).2 hr) hrow, c.map (fun i => P (N r i)), ?_, ?_⟩
          · rw [stdCycles_map]; exact List.mem_map_of_mem hc
          · rcases hN with hN | hN
            · exact Or.inl ((nextB_sound hN).map _)
            · exact Or.inr ((nextB_sound hN).map _)
        rintro (hh | hh)
        · exact key hh
        · obtain ⟨vs, h1, c, h2, h3⟩ := key hh
          exact ⟨vs, h1, c, h2, h3.symm⟩

/-- **C71, other meshes.**  When a face is not a triangle, the value returned is 0; nothing else happens. -/
theorem C71_refused {T : Topo} (h : T.Consistent) (hl : T.AllLoops) (hend : T.Ended) (G : ModelCls)
    {vl el fl : List Nat} (rl : List Nat) (hV : Enumerates T.sv vl) (hE : Enumerates T.se el) (hF : Enumerates T.sf fl)
    (h100 : ∀ f ws, T.sf f = .live → T.Loop f ws → ws.length ≤ 100)
    {g : Nat} {ws : List Nat} (hg : T.sf g = .live) (hw : T.Loop g ws) (h3 : ws.length ≠ 3) :
    T.tet2hex G vl el fl rl = .ok none := by
  have hq := C70_refused h hl hend G hV hE hF h100 hg hw h3
  have hpt : ∀ {pt : Nat → Res (Option (List Nat))} {cls : Nat → Nat × Nat} (xs : List Nat) (S : Conv) (m : Nat → Option Nat),
      (∀ x ∈ xs, ∃ l, pt x = .ok (some l)) → xs.Nodup → ∃ p, addPoints pt cls xs S m = .ok (some p) := by
    intro pt cls xs S m hx hn
    have : ∀ x, ∃ l : List Nat, x ∈ xs → pt x = .ok (some l) := by
      intro x
      by_cases hm : x ∈ xs
      · obtain ⟨l, hl⟩ := hx x hm; exact ⟨l, fun _ => hl⟩
      · exact ⟨[], fun h => absurd h hm⟩
    choose g' hg' using this
    obtain ⟨m', h1, -⟩ := addPoints_ok (cls := cls) (g := g') xs S m hn hg'
    exact ⟨_, h1⟩
  obtain ⟨⟨S1, mv⟩, a1⟩ := hpt (pt := T.vertexPt) (cls := G.v) vl Conv.start (fun _ => none)
    (fun x hx => ⟨_, vertexPt_ok ((hV.2 x).1 hx)⟩) hV.1
  obtain ⟨⟨S2, me⟩, b1⟩ := hpt (pt := T.edgePt) (cls := G.e) el S1 (fun _ => none) (fun x hx => by
    obtain ⟨a, b, -, -, k⟩ := edgePt_live h hend ((hE.2 x).1 hx); exact ⟨_, k⟩) hE.1
  have hface : ∀ x ∈ fl, ∃ vs, T.Loop x vs ∧ T.facePt x = .ok (if vs.length ≠ 3 then none else some vs) := by
    intro x hx
    have hx := (hF.2 x).1 hx
    obtain ⟨vs, hv, -⟩ := hl x hx
    refine ⟨vs, hv, ?_⟩
    have hv' := C23_vertices hx hv true
    rw [if_pos rfl] at hv'
    unfold facePt
    have hlen := h100 x vs hx hv
    rw [hv', Res.bind_ok, if_neg (by rw [List.length_map]; omega), coordsOf_ok vs (hv.live h hx), Res.bind_ok]
    split <;> rfl
  unfold tet2hex
  rw [a1, Res.bind_ok]; dsimp only
  rw [b1, Res.bind_ok]; dsimp only
  rw [addPoints_refused, Res.bind_ok]
  · rfl
  · intro x hx; obtain ⟨vs, -, k⟩ := hface x hx; exact ⟨_, k⟩
  · refine ⟨g, (hF.2 g).2 hg, ?_⟩
    obtain ⟨vs, k1, k2⟩ := hface g ((hF.2 g).2 hg)
    have e : vs.length = ws.length := by
      obtain ⟨l, q1, -, q2, -⟩ := k1.stored (alloc_of_live hg)
      obtain ⟨l', q1', -, q2', -⟩ := hw.stored (alloc_of_live hg)
      rw [q1] at q1'
      injection q1' with q1'
      rw [← q2, ← q2', q1']
    rw [k2, if_pos (by rw [e]; exact h3)]

/-! ### concrete meshes -/

/-- no two of the given cycles have the same vertices -/
def cyclesApartB (cert : List (List Nat)) : Bool :=
  (List.range cert.length).all fun f => (List.range cert.length).all fun g =>
    decide (f = g) || !((cert.getD f []).all fun v => decide (v ∈ cert.getD g []))

theorem simpleFaces_of {T : Topo} (hc : T.Consistent) {cert : List (List Nat)} (h : T.allLoopsB cert = true) (hn : T.nf = cert.length)
    (hb : cyclesApartB cert = true) : T.SimpleFaces := by
  have loop : ∀ f, T.sf f = .live → f < cert.length ∧ T.Loop f (cert.getD f []) ∧ (cert.getD f []).Nodup := by
    intro f hf
    have hlt : f < T.nf := by
      by_contra hge
      rw [hc.newF f (by omega)] at hf
      cases hf
    have := List.all_eq_true.1 h f (List.mem_range.2 hlt)
    rw [Bool.or_eq_true, Bool.and_eq_true, decide_eq_true_iff, decide_eq_true_iff] at this
    rcases this with h1 | ⟨h1, h2⟩
    · exact absurd hf h1
    · exact ⟨by omega, loopB_sound h1, h2⟩
  intro f g d d' c h3 hf hg hs hs'
  obtain ⟨f1, f2, f3⟩ := loop f hf
  obtain ⟨g1, g2, g3⟩ := loop g hg
  have hne : c ≠ [] := by rintro rfl; simp at h3
  rw [seen_iff hf f2 f3 hne] at hs
  rw [seen_iff hg g2 g3 hne] at hs'
  have hp : (cert.getD f []).Perm (cert.getD g []) :=
    (hs.perm.trans (turned_perm d)).symm.trans (hs'.perm.trans (turned_perm d'))
  unfold cyclesApartB at hb
  have := List.all_eq_true.1 (List.all_eq_true.1 hb f (List.mem_range.2 f1)) g (List.mem_range.2 g1)
  rw [Bool.or_eq_true, decide_eq_true_iff] at this
  rcases this with rfl | this
  · rfl
  · rw [Bool.not_eq_true', ← Bool.not_eq_true] at this
    exact absurd (List.all_eq_true.2 fun v hv => decide_eq_true (hp.mem_iff.1 hv)) this

/-- no vertex, edge, face and region is classified on anything special -/
def plainCls : ModelCls := ⟨fun _ => (3,1), fun _ => (3,1), fun _ => (3,1), fun _ => (3,1)⟩

/-- The hypotheses hold for two tetrahedra with a common face: eight hexahedra. -/
example : ∃ (T : Topo) (S : Conv), empty.run tetPair = .ok T ∧
    T.tet2hex plainCls (List.range 5) (List.range 9) (List.range 7) (List.range 2) = .ok (some S) ∧
    (∀ x, S.T.sr x = .live ↔ x < 8) ∧ HexesFor T plainCls (List.range 5) (List.range 9) (List.range 7) (List.range 2) S := by
  obtain ⟨T, h1, h2⟩ := reachable (os := tetPair) (by decide +kernel)
  have hq : answer tetPair (fun T => .ok (T.triReadyB 5 9 7 2 &&
      T.allLoopsB [[0,1,2],[0,1,3],[1,2,3],[2,0,3],[1,2,4],[2,3,4],[3,1,4]] && T.simpleEdgesB && decide (T.nf = 7) &&
      decide (T.nr = 2) && T.elementB 0 [0,1,2,3] && T.elementB 1 [1,2,3,4] && decide (T.mrElementType 0 = .ok .tet) && decide (T.mrElementType 1 = .ok .tet))) = .ok true := by
    decide +kernel
  unfold answer at hq
  rw [h1, Res.bind_ok, Res.ok.injEq] at hq
  simp only [Bool.and_eq_true, decide_eq_true_iff] at hq
  obtain ⟨⟨⟨⟨⟨⟨⟨⟨q1, q2⟩, q3⟩, q4⟩, q5⟩, q6⟩, q7⟩, q8⟩, q9⟩ := hq
  obtain ⟨k1, k2, k3, k4, k5, k6⟩ := triReadyB_sound h2 q1
  obtain ⟨S, r1, r2⟩ := C71_hexes h2 (allLoopsB_sound h2 q2) (simpleEdgesB_sound h2 q3)
    (simpleFaces_of h2 q2 q4 (by decide)) k5 k6 (by
      intro r hr
      have hr := (k4.2 r).2 hr
      rw [List.mem_range] at hr
      have : r = 0 ∨ r = 1 := by omega
      rcases this with rfl | rfl
      · exact ⟨_, by rfl, elementB_sound q6, q8⟩
      · exact ⟨_, by rfl, elementB_sound q7, q9⟩) plainCls k1 k2 k3 k4
  exact ⟨T, S, h1, r1, r2.regions, r2⟩

/-- The eight hexahedra: halves of nine edges, three edges in each of seven triangles and four in each tetrahedron;
three quadrilaterals on each triangle and six in each tetrahedron. -/
example : answer tetPair (fun T => do
    let o ← T.tet2hex plainCls (List.range 5) (List.range 9) (List.range 7) (List.range 2)
    let S ← Res.ofOption o
    pure (S.T.nv, S.T.ne, S.T.nf, S.T.nr)) = .ok (23, 9*2 + 7*3 + 8, 7*3 + 2*6, 8) := by
  decide +kernel

/-- one region with six triangles: two tetrahedra without the face between them -/
def doublePyramid : List Op :=
  List.replicate 5 .newVertex ++
  (([[0,1,2],[0,2,3],[0,3,1],[4,2,1],[4,3,2],[4,1,3]] : List (List Nat)).mapIdx
    fun i vs => [Op.newFace, .setVertices i vs]).flatten ++
  [.newRegion, .setFaces 0 [(0,true),(1,true),(2,true),(3,true),(4,true),(5,true)]]

/-- **C71, negation.**  Only the faces are looked at before the conversion.  A region which is not a tetrahedron but
has only triangles is not refused: the face on three of its vertices is not found and the attribute of a NULL face
is read. -/
theorem C71_negation_polyhedron : (answer doublePyramid fun T => T.mrVertices 0) = .ok (some [some 0, some 2, some 1, some 3, some 4]) ∧
    (answer doublePyramid fun T => T.mvsCommonFace [2,1,3]) = .ok none ∧
    (answer doublePyramid fun T => do
      let o ← T.tet2hex plainCls (List.range 5) (List.range 9) (List.range 6) [0]
      pure o.isNone) = .ub := by decide +kernel

/-- a mesh with a quadrilateral is refused -/
example : answer square (fun T => do
    let o ← T.tet2hex plainCls (List.range 4) (List.range 4) [0] []
    pure o.isNone) = .ok true := by decide +kernel

end Topo
end MSTK
