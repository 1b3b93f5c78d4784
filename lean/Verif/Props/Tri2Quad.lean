import Verif.RefineLemmas
import Verif.Props.SplitFace
import Verif.Props.RegionContents

/-!
C70: `MESH_Tri2Quad` turns a mesh of triangles into a conforming mesh of quadrilaterals.
-/
namespace MSTK
namespace Topo

/-! ### specification -/

/-- The list holds the entities that are there, each once. -/
def Enumerates (s : Nat → Stat) (l : List Nat) : Prop := l.Nodup ∧ ∀ x, x ∈ l ↔ s x = .live

/-- Every edge has two ends. -/
def Ended (T : Topo) : Prop := ∀ e, T.se e = .live → ∃ a b, T.meVertex e false = .ok (some a) ∧ T.meVertex e true = .ok (some b)

/-- Every face is a triangle. -/
def Triangles (T : Topo) : Prop := ∀ f ws, T.sf f = .live → T.Loop f ws → ws.length = 3

/-- `x` is an edge of the face `f` between `a` and `b`. -/
def SideOf (T : Topo) (f x a b : Nat) : Prop := T.FaceHas f x ∧ T.EdgeHas x a ∧ T.EdgeHas x b

/-- The entities of one triangle: its vertices in order, the edges following them, and the face itself. -/
def TriNodes (T : Topo) (f : Nat) (ns : List Node) : Prop :=
  ∃ a b c x y z, T.mfVertices f true none = .ok [some a, some b, some c] ∧ [a, b, c].Nodup ∧ [x, y, z].Nodup ∧
    T.SideOf f x a b ∧ T.SideOf f y b c ∧ T.SideOf f z c a ∧ ns = [.v a, .v b, .v c, .e x, .e y, .e z, .f f]

/-- The three quadrilaterals of a triangle: each goes round a corner of the triangle in the direction of the
triangle. -/
def quadsOf : List Node → List (List Node)
  | [a, b, c, x, y, z, f] => [[a, x, f, z], [x, b, y, f], [z, f, y, c]]
  | _ => []

/-- The edges of the new mesh: halves of the old edges of a face, and from the edges of a face to its
centre. -/
def Half (T : Topo) : Node → Node → Prop
  | .v a, .e x => T.EdgeHas x a ∧ ∃ f, T.FaceHas f x
  | .e x, .f f => T.FaceHas f x
  | _, _ => False

/-- Two vertices are joined by an edge. -/
def EdgeBetween (T : Topo) (a b : Nat) : Prop := ∃ e, T.EdgeHas e a ∧ T.EdgeHas e b

/-- The mesh `S` is the mesh of quadrilaterals made from the triangles of `T`. -/
structure QuadsFor (T : Topo) (G : ModelCls) (vl el fl : List Nat) (S : Conv) : Prop where
  cons : S.T.Consistent
  loops : S.T.AllLoops
  simple : S.T.SimpleEdges
  points : Points T G vl el fl [] S
  verts : ∀ x, S.T.sv x = .live ↔ x < vl.length + el.length + fl.length
  faces : ∀ x, S.T.sf x = .live ↔ x < 3 * fl.length
  regions : ∀ x, S.T.sr x ≠ .live
  /-- the quadrilaterals of the `k`-th face -/
  quads : ∀ k f, fl[k]? = some f → ∃ ns, T.TriNodes f ns ∧ ∀ j q, (quadsOf ns)[j]? = some q →
    S.T.mfVertices (3*k+j) true none = .ok (q.map fun n => some (place vl el fl [] n)) ∧
    S.cells[3*k+j]? = some (G.f f)
  /-- the edges -/
  edges : ∀ p q, p.In vl el fl [] → q.In vl el fl [] → p ≠ q →
    (S.T.EdgeBetween (place vl el fl [] p) (place vl el fl [] q) ↔ T.Half p q ∨ T.Half q p)

/-! ### the array of one triangle -/

/-- an edge has at most two ends -/
theorem two_ends {T : Topo} {e a b c : Nat} (h1 : T.EdgeHas e a) (h2 : T.EdgeHas e b) (h3 : T.EdgeHas e c) :
    a = b ∨ a = c ∨ b = c := by
  rw [EdgeHas_iff] at h1 h2 h3
  have k1 := h1.2
  have k2 := h2.2
  have k3 := h3.2
  unfold ends at k1 k2 k3
  rcases k1 with k1 | k1 <;> rcases k2 with k2 | k2 <;> rcases k3 with k3 | k3 <;> simp_all

theorem triNodes_ok {T : Topo} (h : T.Consistent) {f : Nat} {ws : List Nat} (hf : T.sf f = .live) (hl : T.Loop f ws)
    (hn : ws.Nodup) (h3 : ws.length = 3) : ∃ a b c x y z, T.mfVertices f true none = .ok [some a, some b, some c] ∧
      T.mfEdges f true (some a) = .ok [x, y, z] ∧ [a, b, c].Nodup ∧ [x, y, z].Nodup ∧
      T.SideOf f x a b ∧ T.SideOf f y b c ∧ T.SideOf f z c a ∧ ws = [a, b, c] ∧ ∀ e, T.FaceHas f e ↔ e = x ∨ e = y ∨ e = z := by
  match ws, h3 with
  | [a, b, c], _ =>
    obtain ⟨l, hfe, -⟩ := hl.stored (alloc_of_live hf)
    have hpl := mfEdges_plain (alloc_of_live hf) hfe
    have hv := C23_vertices hf hl true
    have he := (C23_edges_from hf hl hn hpl true a).1 0 rfl
    simp only [if_true, List.rotate_zero] at he hv
    obtain ⟨es, q1, q2, q3⟩ := id hl
    rw [hpl] at q1
    injection q1 with q1
    subst q1
    match l, q2 with
    | [x, y, z], _ =>
      have side : ∀ (i : Nat) e u v, [x, y, z][i]? = some e → [a, b, c][i]? = some u → [a, b, c][(i+1) % 3]? = some v →
          T.SideOf f e u v := by
        intro i e u v h1 h2 h3
        have hfh : T.FaceHas f e := ⟨hf, _, hpl, List.mem_of_getElem? h1⟩
        have hel := faceHas_live h hfh
        obtain ⟨d, d1, d2, d3⟩ := q3 i e h1
        refine ⟨hfh, ?_, ?_⟩
        · refine ⟨hel, ?_⟩
          rw [h2] at d2
          cases d
          · exact Or.inr d2
          · exact Or.inl d2
        · refine ⟨hel, ?_⟩
          have d3 := d3.trans (congrArg _ h3)
          cases d
          · exact Or.inl d3
          · exact Or.inr d3
      have s0 := side 0 x a b rfl rfl rfl
      have s1 := side 1 y b c rfl rfl rfl
      have s2 := side 2 z c a rfl rfl rfl
      have hnd : [x, y, z].Nodup := by
        simp only [List.nodup_cons, List.mem_cons, List.not_mem_nil, or_false, not_or, not_false_iff, List.nodup_nil,
          and_true] at hn ⊢
        refine ⟨⟨?_, ?_⟩, ?_⟩
        · rintro rfl
          rcases two_ends s0.2.1 s0.2.2 s1.2.2 with k | k | k <;> omega
        · rintro rfl
          rcases two_ends s0.2.1 s0.2.2 s2.2.1 with k | k | k <;> omega
        · rintro rfl
          rcases two_ends s1.2.1 s1.2.2 s2.2.2 with k | k | k <;> omega
      refine ⟨a, b, c, x, y, z, hv, he, hn, hnd, s0, s1, s2, rfl, ?_⟩
      intro e
      rw [faceHas_iff hf hfe]
      simp

theorem triArray_ok {T : Topo} {mv me mf : Nat → Option Nat} {P : Node → Nat} {f a b c x y z : Nat}
    (h1 : T.mfVertices f true none = .ok [some a, some b, some c]) (h2 : T.mfEdges f true (some a) = .ok [x, y, z])
    (hv : ∀ u ∈ [a, b, c], mv u = some (P (.v u))) (he : ∀ u ∈ [x, y, z], me u = some (P (.e u)))
    (hf : mf f = some (P (.f f))) :
    T.triArray mv me mf f = .ok ([.v a, .v b, .v c, .e x, .e y, .e z, .f f].map fun n => some (P n)) := by
  simp only [List.forall_mem_cons, List.not_mem_nil, false_imp_iff, implies_true, and_true] at hv he
  unfold triArray
  rw [h1, Res.bind_ok]
  show (T.mfEdges f true (some a) >>= _) = _
  rw [h2, Res.bind_ok]
  simp [fillAt, Res.ofOption, hv, he, hf]

/-! ### the loops making the quadrilaterals -/

theorem addQuads_eq {c : Nat × Nat} {a : List (Option Nat)} {Q : List Nat → List Nat} : ∀ (rows : List (List Nat)) (S : Conv),
    (∀ row ∈ rows, pickAll a row = .ok (Q row)) →
    addQuads c a rows S = (addFaces (rows.map Q) S.T >>= fun T' =>
      .ok { S with T := T', cells := S.cells ++ rows.map fun _ => c }) := by
  intro rows
  induction rows with
  | nil =>
    intro S _
    show Res.ok S = .ok _
    congr 1
    cases S
    simp
  | cons row rows ih =>
    intro S h
    rw [addQuads, h row (by simp), Res.bind_ok, List.map_cons, addFaces]
    cases hT : S.T.addFace (Q row) with
    | ok T' =>
      rw [Res.bind_ok, Res.bind_ok, ih _ (fun r hr => h r (by simp [hr]))]
      cases addFaces (rows.map Q) T' with
      | ok T2 => simp
      | ub => rfl
      | fatal => rfl
      | hang => rfl
    | ub => rfl
    | fatal => rfl
    | hang => rfl

theorem addFaces_append : ∀ (xs ys : List (List Nat)) (T : Topo),
    addFaces (xs ++ ys) T = (addFaces xs T >>= fun T' => addFaces ys T') := by
  intro xs
  induction xs with
  | nil => intro ys T; rfl
  | cons x xs ih =>
    intro ys T
    rw [List.cons_append, addFaces, addFaces]
    cases T.addFace x with
    | ok T' => rw [Res.bind_ok, Res.bind_ok, ih]
    | ub => rfl
    | fatal => rfl
    | hang => rfl

theorem quadLoop_eq {T : Topo} {G : ModelCls} {mv me mf : Nat → Option Nat} {P : Node → Nat} {A : Nat → List Node} :
    ∀ (fl : List Nat) (S : Conv),
    (∀ f ∈ fl, (∃ ns : List Node, A f = ns ∧ ns.length = 7) ∧ T.triArray mv me mf f = .ok ((A f).map fun n => some (P n))) →
    T.quadLoop G mv me mf fl S = (addFaces (fl.flatMap fun f => (quadsOf (A f)).map fun q => q.map P) S.T >>= fun T' =>
      .ok { S with T := T', cells := S.cells ++ fl.flatMap fun f => [G.f f, G.f f, G.f f] }) := by
  intro fl
  induction fl with
  | nil =>
    intro S _
    show Res.ok S = .ok _
    cases S
    simp
  | cons f fl ih =>
    intro S h
    obtain ⟨⟨ns, e1, e2⟩, h2⟩ := h f (by simp)
    rw [e1] at h2
    rw [quadLoop, h2, Res.bind_ok, List.flatMap_cons, e1]
    match ns, e2 with
    | [a, b, c, x, y, z, w], _ =>
      have hq : ∀ row ∈ triQuad, pickAll ([a, b, c, x, y, z, w].map fun n => some (P n)) row =
          .ok ((row.map fun i => ([a, b, c, x, y, z, w].getD i a)).map P) := by
        intro row hr
        refine pickAll_ok rfl _ _ ?_
        simp only [triQuad, List.mem_cons, List.not_mem_nil, or_false] at hr
        rcases hr with rfl | rfl | rfl <;> rfl
      rw [addQuads_eq (Q := fun row => (row.map fun i => ([a, b, c, x, y, z, w].getD i a)).map P) triQuad S hq,
        addFaces_append]
      have e3 : triQuad.map (fun row => (row.map fun i => ([a, b, c, x, y, z, w].getD i a)).map P) =
          (quadsOf [a, b, c, x, y, z, w]).map fun q => q.map P := rfl
      rw [e3]
      cases addFaces ((quadsOf [a, b, c, x, y, z, w]).map fun q => q.map P) S.T with
      | ok T1 =>
        rw [Res.bind_ok, Res.bind_ok, Res.bind_ok, ih _ (fun g hg => h g (by simp [hg]))]
        dsimp only
        cases addFaces (fl.flatMap fun f => (quadsOf (A f)).map fun q => q.map P) T1 with
        | ok T2 => simp [triQuad]
        | ub => rfl
        | fatal => rfl
        | hang => rfl
      | ub => rfl
      | fatal => rfl
      | hang => rfl

/-! ### the new edges -/

theorem mem_foldJoin_inv : ∀ (ps : List (Nat × Nat)) {E : List (Nat × Nat)} {p : Nat × Nat}, p ∈ ps.foldl joinE E → p ∈ E ∨ p ∈ ps := by
  intro ps
  induction ps with
  | nil => intro E p h; exact Or.inl h
  | cons q ps ih =>
    intro E p h
    rw [List.foldl_cons] at h
    rcases ih h with h | h
    · unfold joinE at h
      split at h
      · exact Or.inl h
      · rcases List.mem_append.1 h with h | h
        · exact Or.inl h
        · rw [List.mem_singleton] at h
          subst h
          exact Or.inr (by simp)
    · exact Or.inr (by simp [h])

theorem mem_joinAll_inv : ∀ (cs : List (List Nat)) {E : List (Nat × Nat)} {p : Nat × Nat}, p ∈ joinAll cs E →
    p ∈ E ∨ ∃ c ∈ cs, p ∈ cyclicPairs c := by
  intro cs
  induction cs with
  | nil => intro E p h; exact Or.inl h
  | cons c cs ih =>
    intro E p h
    rw [joinAll, List.foldl_cons] at h
    rcases ih h with h | ⟨d, h1, h2⟩
    · rcases mem_foldJoin_inv _ h with h | h
      · exact Or.inl h
      · exact Or.inr ⟨c, by simp, h⟩
    · exact Or.inr ⟨d, by simp [h1], h2⟩

theorem edgeBetween_iff {T : Topo} {n : Nat} {E : List (Nat × Nat)} {F R : List (List Nat)} (hB : Built T n E F R)
    {a b : Nat} (hab : a ≠ b) : T.EdgeBetween a b ↔ (a, b) ∈ E ∨ (b, a) ∈ E := by
  constructor
  · rintro ⟨e, h1, h2⟩
    obtain ⟨p, hp, q1⟩ := hB.edge_ends h1
    obtain ⟨p', hp', q2⟩ := hB.edge_ends h2
    rw [hp] at hp'; injection hp' with hp'; subst hp'
    have hm := List.mem_of_getElem? hp
    obtain ⟨x, y⟩ := p
    dsimp only at q1 q2
    rcases q1 with rfl | rfl <;> rcases q2 with rfl | rfl
    · exact absurd rfl hab
    · exact Or.inl hm
    · exact Or.inr hm
    · exact absurd rfl hab
  · rintro (h | h)
    · obtain ⟨e, he⟩ := List.mem_iff_getElem?.1 h
      exact ⟨e, hB.edgeHas he⟩
    · obtain ⟨e, he⟩ := List.mem_iff_getElem?.1 h
      exact ⟨e, (hB.edgeHas he).symm⟩

/-- the side of the faces -/
theorem mem_joinAll_iff {n : Nat} {cs : List (List Nat)} (hF : FacesOk n (joinAll cs []) cs) {a b : Nat} :
    ((a, b) ∈ joinAll cs [] ∨ (b, a) ∈ joinAll cs []) ↔ ∃ c ∈ cs, (a, b) ∈ cyclicPairs c ∨ (b, a) ∈ cyclicPairs c := by
  constructor
  · rintro (h | h)
    · rcases mem_joinAll_inv cs h with h | ⟨c, h1, h2⟩
      · cases h
      · exact ⟨c, h1, Or.inl h2⟩
    · rcases mem_joinAll_inv cs h with h | ⟨c, h1, h2⟩
      · cases h
      · exact ⟨c, h1, Or.inr h2⟩
  · rintro ⟨c, h1, h2 | h2⟩
    · exact hF.sides c h1 a b (edgesOf_next h2)
    · exact (hF.sides c h1 b a (edgesOf_next h2)).symm

/-- Two lists of listed entities, one of which has an entity the other has not, give cycles which are not
the same. -/
theorem not_same_cycle {vl el fl rl : List Nat} {c c' : List Node} (hc : ∀ n ∈ c, n.In vl el fl rl) (hc' : ∀ n ∈ c', n.In vl el fl rl)
    {n : Node} (h1 : n ∈ c) (h2 : n ∉ c') :
    ¬ c'.map (place vl el fl rl) ~r c.map (place vl el fl rl) ∧
    ¬ c'.map (place vl el fl rl) ~r (c.map (place vl el fl rl)).reverse := by
  have key : place vl el fl rl n ∉ c'.map (place vl el fl rl) := by
    intro h
    obtain ⟨m, hm, he⟩ := List.mem_map.1 h
    exact h2 (place_inj (hc' m hm) (hc n h1) he ▸ hm)
  exact ⟨fun h => key (h.mem_iff.2 (List.mem_map_of_mem h1)),
    fun h => key (h.mem_iff.2 (List.mem_reverse.2 (List.mem_map_of_mem h1)))⟩

/-! ### the new vertices -/

theorem facePt_tri {T : Topo} (h : T.Consistent) {f : Nat} {ws : List Nat} (hf : T.sf f = .live) (hl : T.Loop f ws)
    (h3 : ws.length = 3) : T.facePt f = .ok (some ws) := by
  unfold facePt
  have := C23_vertices hf hl true
  rw [if_pos rfl] at this
  rw [this, Res.bind_ok, if_neg (by rw [List.length_map]; omega), coordsOf_ok ws (hl.live h hf), Res.bind_ok,
    if_neg (by omega)]
  rfl

theorem edgePt_live {T : Topo} (h : T.Consistent) (hend : T.Ended) {e : Nat} (he : T.se e = .live) :
    ∃ a b, T.meVertex e false = .ok (some a) ∧ T.meVertex e true = .ok (some b) ∧ T.edgePt e = .ok (some [a, b]) := by
  obtain ⟨a, b, h1, h2⟩ := hend e he
  refine edgePt_ok h he ⟨a, b, ⟨he, Or.inl h1⟩, ⟨he, Or.inr h2⟩, ?_⟩
  rw [meVertex_ok (alloc_of_live he)] at h1 h2
  injection h1 with h1
  injection h2 with h2
  exact Prod.ext h1 h2

/-- The new vertices for vertices, edges and faces. -/
theorem stages {T : Topo} (h : T.Consistent) (hl : T.AllLoops) (hend : T.Ended) (htri : T.Triangles) (G : ModelCls)
    {vl el fl : List Nat} (hV : Enumerates T.sv vl) (hE : Enumerates T.se el) (hF : Enumerates T.sf fl) :
    ∃ S1 S2 S3 mv me mf ge gf, addPoints T.vertexPt G.v vl Conv.start (fun _ => none) = .ok (some (S1, mv)) ∧
      addPoints T.edgePt G.e el S1 (fun _ => none) = .ok (some (S2, me)) ∧
      addPoints T.facePt G.f fl S2 (fun _ => none) = .ok (some (S3, mf)) ∧
      (∀ rl, (∀ x ∈ vl, mv x = some (place vl el fl rl (.v x))) ∧ (∀ x ∈ el, me x = some (place vl el fl rl (.e x))) ∧
        (∀ x ∈ fl, mf x = some (place vl el fl rl (.f x)))) ∧
      Built S3.T (vl.length + el.length + fl.length) [] [] [] ∧ S3.cells = [] ∧
      S3.pts = vl.map (fun v => [v]) ++ el.map ge ++ fl.map gf ∧ S3.vcls = vl.map G.v ++ el.map G.e ++ fl.map G.f ∧
      (∀ x ∈ el, ∃ a b, T.meVertex x false = .ok (some a) ∧ T.meVertex x true = .ok (some b) ∧ ge x = [a, b]) ∧
      ∀ x ∈ fl, T.mfVertices x true none = .ok ((gf x).map some) := by
  have hge : ∀ x, ∃ l : List Nat, x ∈ el → (∃ a b, T.meVertex x false = .ok (some a) ∧ T.meVertex x true = .ok (some b) ∧ l = [a, b]) ∧
      T.edgePt x = .ok (some l) := by
    intro x
    by_cases hx : x ∈ el
    · obtain ⟨a, b, k1, k2, k3⟩ := edgePt_live h hend ((hE.2 x).1 hx)
      exact ⟨[a, b], fun _ => ⟨⟨a, b, k1, k2, rfl⟩, k3⟩⟩
    · exact ⟨[], fun hx' => absurd hx' hx⟩
  have hgf : ∀ x, ∃ l : List Nat, x ∈ fl → T.mfVertices x true none = .ok (l.map some) ∧ T.facePt x = .ok (some l) := by
    intro x
    by_cases hx : x ∈ fl
    · have hlive := (hF.2 x).1 hx
      obtain ⟨ws, hw, -⟩ := hl x hlive
      have hv := C23_vertices hlive hw true
      rw [if_pos rfl] at hv
      exact ⟨ws, fun _ => ⟨hv, facePt_tri h hlive hw (htri x ws hlive hw)⟩⟩
    · exact ⟨[], fun hx' => absurd hx' hx⟩
  choose ge hge using hge
  choose gf hgf using hgf
  obtain ⟨mv, a1, a2, -⟩ := addPoints_ok (cls := G.v) (g := fun v => [v]) vl Conv.start (fun _ => none) hV.1
    (fun x hx => vertexPt_ok ((hV.2 x).1 hx))
  obtain ⟨me, b1, b2, -⟩ := addPoints_ok (cls := G.e) (g := ge) el
    ⟨addVerts vl.length Conv.start.T, Conv.start.pts ++ vl.map (fun v => [v]), Conv.start.vcls ++ vl.map G.v, Conv.start.cells⟩
    (fun _ => none) hE.1 (fun x hx => (hge x hx).2)
  obtain ⟨mf, c1, c2, -⟩ := addPoints_ok (cls := G.f) (g := gf) fl
    ⟨addVerts el.length (addVerts vl.length Conv.start.T), Conv.start.pts ++ vl.map (fun v => [v]) ++ el.map ge,
      Conv.start.vcls ++ vl.map G.v ++ el.map G.e, Conv.start.cells⟩
    (fun _ => none) hF.1 (fun x hx => (hgf x hx).2)
  refine ⟨_, _, _, mv, me, mf, ge, gf, a1, b1, c1, ?_, ?_, rfl, rfl, rfl, fun x hx => (hge x hx).1, fun x hx => (hgf x hx).1⟩
  · intro rl
    refine ⟨fun x hx => ?_, fun x hx => ?_, fun x hx => ?_⟩
    · rw [a2 x hx]
      show some (0 + _) = _
      rw [Nat.zero_add]; rfl
    · rw [b2 x hx]
      dsimp only
      rw [addVerts_nv]
      show some (0 + vl.length + _) = _
      rw [Nat.zero_add]; rfl
    · rw [c2 x hx]
      dsimp only
      rw [addVerts_nv, addVerts_nv]
      show some (0 + vl.length + el.length + _) = _
      rw [Nat.zero_add]; rfl
  · have := built_verts fl.length (built_verts el.length (built_verts vl.length built_empty))
    rw [Nat.zero_add] at this
    exact this

theorem points_of {T : Topo} {G : ModelCls} {vl el fl rl : List Nat} {S : Conv} {ge gf gr : Nat → List Nat}
    (h1 : S.pts = vl.map (fun v => [v]) ++ el.map ge ++ fl.map gf ++ rl.map gr)
    (h2 : S.vcls = vl.map G.v ++ el.map G.e ++ fl.map G.f ++ rl.map G.r)
    (he : ∀ x ∈ el, ∃ a b, T.meVertex x false = .ok (some a) ∧ T.meVertex x true = .ok (some b) ∧ ge x = [a, b])
    (hf : ∀ x ∈ fl, T.mfVertices x true none = .ok ((gf x).map some))
    (hr : ∀ x ∈ rl, T.mrVertices x = .ok (some ((gr x).map some))) : Points T G vl el fl rl S where
  count := by rw [h1, h2]; simp [Nat.add_assoc]
  vertex := by
    intro x hx
    rw [h1, h2]
    simp only [List.append_assoc, place]
    have q1 := at_idx (A := []) (n := 0) (g := fun v => [v]) hx (B := el.map ge ++ (fl.map gf ++ rl.map gr)) rfl
    have q2 := at_idx (A := []) (n := 0) (g := G.v) hx (B := el.map G.e ++ (fl.map G.f ++ rl.map G.r)) rfl
    rw [Nat.zero_add, List.nil_append] at q1 q2
    exact ⟨q1, q2⟩
  edge := by
    intro x hx
    obtain ⟨a, b, k1, k2, k3⟩ := he x hx
    refine ⟨a, b, k1, k2, ?_⟩
    rw [h1, h2, ← k3]
    simp only [List.append_assoc, place]
    exact ⟨at_idx hx (by simp), at_idx hx (by simp)⟩
  face := by
    intro x hx
    refine ⟨gf x, hf x hx, ?_⟩
    rw [h1, h2, List.append_assoc _ (fl.map gf), List.append_assoc _ (fl.map G.f)]
    simp only [place]
    exact ⟨at_idx hx (by simp), at_idx hx (by simp)⟩
  region := by
    intro x hx
    refine ⟨gr x, hr x hx, ?_⟩
    have q1 := at_idx (g := gr) hx (A := vl.map (fun v => [v]) ++ el.map ge ++ fl.map gf) (B := [])
      (n := vl.length + el.length + fl.length) (by simp [Nat.add_assoc])
    have q2 := at_idx (g := G.r) hx (A := vl.map G.v ++ el.map G.e ++ fl.map G.f) (B := [])
      (n := vl.length + el.length + fl.length) (by simp [Nat.add_assoc])
    rw [List.append_nil] at q1 q2
    rw [h1, h2]
    exact ⟨q1, q2⟩

/-! ### quadrilaterals -/

theorem flatMap3 {α β : Type} {g : α → List β} : ∀ (l : List α) (k : Nat) (x : α) (j : Nat), (∀ y ∈ l, (g y).length = 3) →
    l[k]? = some x → j < 3 → (l.flatMap g)[3*k+j]? = (g x)[j]? := by
  intro l
  induction l with
  | nil => intro k x j _ h; simp at h
  | cons y l ih =>
    intro k x j h3 hk hj
    have hy := h3 y (by simp)
    rw [List.flatMap_cons]
    cases k with
    | zero =>
      simp only [List.getElem?_cons_zero, Option.some.injEq] at hk
      subst hk
      rw [Nat.mul_zero, Nat.zero_add, List.getElem?_append_left (by omega)]
    | succ k =>
      rw [List.getElem?_cons_succ] at hk
      rw [List.getElem?_append_right (by omega), hy, show 3*(k+1)+j-3 = 3*k+j by omega]
      exact ih k x j (fun z hz => h3 z (by simp [hz])) hk hj

theorem flatMap3_length {α β : Type} {g : α → List β} : ∀ (l : List α), (∀ y ∈ l, (g y).length = 3) →
    (l.flatMap g).length = 3 * l.length := by
  intro l
  induction l with
  | nil => intro _; rfl
  | cons y l ih =>
    intro h
    rw [List.flatMap_cons, List.length_append, h y (by simp), ih (fun z hz => h z (by simp [hz])), List.length_cons]
    omega

theorem TriNodes.mem {T : Topo} (h : T.Consistent) {vl el fl : List Nat} (hV : Enumerates T.sv vl) (hE : Enumerates T.se el)
    {f : Nat} (hf : f ∈ fl) {ns : List Node} (hns : T.TriNodes f ns) : ∀ n ∈ ns, n.In vl el fl [] := by
  obtain ⟨a, b, c, x, y, z, -, -, -, h1, h2, h3, rfl⟩ := hns
  have hx := faceHas_live h h1.1
  have hy := faceHas_live h h2.1
  have hz := faceHas_live h h3.1
  have va : ∀ {e u}, T.se e = .live → T.EdgeHas e u → u ∈ vl := fun he hu => (hV.2 _).2 (h.ve.down _ _ he (EdgeHas_iff.1 hu).2)
  simp only [List.forall_mem_cons, List.not_mem_nil, false_imp_iff, implies_true, and_true, Node.In]
  exact ⟨va hx h1.2.1, va hx h1.2.2, va hy h2.2.2, (hE.2 x).2 hx, (hE.2 y).2 hy, (hE.2 z).2 hz, hf⟩

theorem quadsOf_sub {ns : List Node} {q : List Node} (hq : q ∈ quadsOf ns) : ∀ n ∈ q, n ∈ ns := by
  unfold quadsOf at hq
  split at hq
  · simp only [List.mem_cons, List.not_mem_nil, or_false] at hq
    rcases hq with rfl | rfl | rfl <;> simp
  · cases hq

/-- **C70.**  For every mesh of triangles `MESH_Tri2Quad` makes the mesh of its quadrilaterals. -/
theorem C70_quads {T : Topo} (h : T.Consistent) (hl : T.AllLoops) (hend : T.Ended) (htri : T.Triangles) (G : ModelCls)
    {vl el fl : List Nat} (hV : Enumerates T.sv vl) (hE : Enumerates T.se el) (hF : Enumerates T.sf fl) :
    ∃ S, T.tri2quad G vl el fl = .ok (some S) ∧ QuadsFor T G vl el fl S := by
  obtain ⟨S1, S2, S3, mv, me, mf, ge, gf, s1, s2, s3, hm, hB0, hcl, hpts, hvc, hge, hgf⟩ := stages h hl hend htri G hV hE hF
  obtain ⟨hmv, hme, hmf⟩ := hm []
  -- the nodes of a triangle
  have hA : ∀ f, ∃ ns : List Node, f ∈ fl → T.TriNodes f ns ∧ (∀ e, T.FaceHas f e ↔ .e e ∈ ns) ∧
      T.triArray mv me mf f = .ok (ns.map fun n => some (place vl el fl [] n)) := by
    intro f
    by_cases hf : f ∈ fl
    · have hlive := (hF.2 f).1 hf
      obtain ⟨ws, hw, hwn⟩ := hl f hlive
      obtain ⟨a, b, c, x, y, z, k1, k2, k3, k4, k5, k6, k7, -, k8⟩ := triNodes_ok h hlive hw hwn (htri f ws hlive hw)
      have hN : T.TriNodes f [.v a, .v b, .v c, .e x, .e y, .e z, .f f] :=
        ⟨a, b, c, x, y, z, k1, k3, k4, k5, k6, k7, rfl⟩
      have hin := hN.mem h hV hE hf
      simp only [List.forall_mem_cons, List.not_mem_nil, false_imp_iff, implies_true, and_true, Node.In] at hin
      refine ⟨_, fun _ => ⟨hN, ?_, triArray_ok k1 k2 ?_ ?_ (hmf f hf)⟩⟩
      · intro e
        rw [k8]
        simp
      · simp only [List.forall_mem_cons, List.not_mem_nil, false_imp_iff, implies_true, and_true]
        exact ⟨hmv a hin.1, hmv b hin.2.1, hmv c hin.2.2.1⟩
      · simp only [List.forall_mem_cons, List.not_mem_nil, false_imp_iff, implies_true, and_true]
        exact ⟨hme x hin.2.2.2.1, hme y hin.2.2.2.2.1, hme z hin.2.2.2.2.2.1⟩
    · exact ⟨[], fun hf' => absurd hf' hf⟩
  choose A hA using hA
  have hAin : ∀ f ∈ fl, ∀ n ∈ A f, n.In vl el fl [] := fun f hf => (hA f hf).1.mem h hV hE hf
  have hAlen : ∀ f ∈ fl, (quadsOf (A f)).length = 3 := by
    intro f hf
    obtain ⟨a, b, c, x, y, z, -, -, -, -, -, -, e⟩ := (hA f hf).1
    rw [e]; rfl
  let P := place vl el fl []
  let qs := fl.flatMap fun f => (quadsOf (A f)).map fun q => q.map P
  have hqs : ∀ c ∈ qs, ∃ f ∈ fl, ∃ q ∈ quadsOf (A f), q.map P = c := by
    intro c hc
    obtain ⟨f, hf, hc⟩ := List.mem_flatMap.1 hc
    obtain ⟨q, hq, rfl⟩ := List.mem_map.1 hc
    exact ⟨f, hf, q, hq, rfl⟩
  obtain ⟨T', r1, hB, hEd, hFc⟩ := built_facesNew (cs := qs) hB0 ⟨by simp, List.Pairwise.nil⟩
    ⟨by simp, by simp, by simp, by simp, List.Pairwise.nil⟩
    (by
      intro c hc
      obtain ⟨f, hf, q, hq, rfl⟩ := hqs c hc
      have hqin : ∀ n ∈ q, n.In vl el fl [] := fun n hn => hAin f hf n (quadsOf_sub hq n hn)
      have hq4 : q.Nodup ∧ q.length = 4 := by
        obtain ⟨a, b, c, x, y, z, -, -, k, -, -, -, e⟩ := (hA f hf).1
        rw [e] at hq
        simp only [List.nodup_cons, List.mem_cons, List.not_mem_nil, or_false, not_or, not_false_iff, List.nodup_nil,
          and_true] at k
        simp only [quadsOf, List.mem_cons, List.not_mem_nil, or_false] at hq
        rcases hq with rfl | rfl | rfl
        · simp [k]
        · simp [k]
        · simp [Ne.symm k.2]
      refine ⟨hq4.1.map_on (fun m hm n hn e => place_inj (hqin m hm) (hqin n hn) e), by simp [hq4.2], by simp [hq4.2], ?_⟩
      intro v hv
      obtain ⟨n, hn, rfl⟩ := List.mem_map.1 hv
      exact place_lt (rl := []) (hqin n hn))
    (by
      rw [List.nil_append]
      show List.Pairwise _ (fl.flatMap _)
      rw [List.pairwise_flatMap]
      constructor
      · intro f hf
        have hin := hAin f hf
        obtain ⟨a, b, c, x, y, z, -, k, -, -, -, -, e⟩ := (hA f hf).1
        rw [e] at hin ⊢
        simp only [List.nodup_cons, List.mem_cons, List.not_mem_nil, or_false, not_or, not_false_iff, List.nodup_nil,
          and_true] at k
        have hsub : ∀ q ∈ quadsOf [Node.v a, .v b, .v c, .e x, .e y, .e z, .f f], ∀ n ∈ q, n.In vl el fl [] :=
          fun q hq n hn => hin n (quadsOf_sub hq n hn)
        simp only [quadsOf, List.map_cons, List.map_nil, List.pairwise_cons, List.forall_mem_cons, List.not_mem_nil,
          false_imp_iff, implies_true, and_true, List.Pairwise.nil] at hsub ⊢
        exact ⟨⟨not_same_cycle (c := [.v a, .e x, .f f, .e z]) (c' := [.e x, .v b, .e y, .f f]) (n := .v a)
            (by simpa using hsub.1) (by simpa using hsub.2.1) (by simp) (by simp [k.1]),
          not_same_cycle (c := [.v a, .e x, .f f, .e z]) (c' := [.e z, .f f, .e y, .v c]) (n := .v a)
            (by simpa using hsub.1) (by simpa using hsub.2.2) (by simp) (by simp [k.1])⟩,
          not_same_cycle (c := [.e x, .v b, .e y, .f f]) (c' := [.e z, .f f, .e y, .v c]) (n := .v b)
            (by simpa using hsub.2.1) (by simpa using hsub.2.2) (by simp) (by simp [k.2])⟩
      · refine List.Pairwise.imp_of_mem ?_ hF.1
        intro f g hf hg hne c hc c' hc'
        obtain ⟨q, hq, rfl⟩ := List.mem_map.1 hc
        obtain ⟨q', hq', rfl⟩ := List.mem_map.1 hc'
        refine not_same_cycle (n := .f f) (fun n hn => hAin f hf n (quadsOf_sub hq n hn))
          (fun n hn => hAin g hg n (quadsOf_sub hq' n hn)) ?_ ?_
        · obtain ⟨a, b, c, x, y, z, -, -, -, -, -, -, e⟩ := (hA f hf).1
          rw [e] at hq
          simp only [quadsOf, List.mem_cons, List.not_mem_nil, or_false] at hq
          rcases hq with rfl | rfl | rfl <;> simp
        · intro hm
          have hm := quadsOf_sub hq' _ hm
          obtain ⟨a, b, c, x, y, z, -, -, -, -, -, -, e⟩ := (hA g hg).1
          rw [e] at hm
          simp at hm
          exact hne hm)
  rw [List.nil_append] at hB hFc
  have hloop := quadLoop_eq (G := G) (P := P) (A := A) fl S3 (fun f hf => ⟨by
    obtain ⟨a, b, c, x, y, z, -, -, -, -, -, -, e⟩ := (hA f hf).1
    exact ⟨_, e, rfl⟩, (hA f hf).2.2⟩)
  have hqlen : qs.length = 3 * fl.length := flatMap3_length fl fun f hf => by rw [List.length_map]; exact hAlen f hf
  refine ⟨{ S3 with T := T', cells := S3.cells ++ fl.flatMap fun f => [G.f f, G.f f, G.f f] }, ?_, ?_⟩
  · unfold tri2quad
    rw [s1, Res.bind_ok]; dsimp only
    rw [s2, Res.bind_ok]; dsimp only
    rw [s3, Res.bind_ok]; dsimp only
    rw [hloop, show addFaces (fl.flatMap fun f => (quadsOf (A f)).map fun q => q.map P) S3.T = .ok T' from r1, Res.bind_ok, Res.bind_ok]
    rfl
  · refine ⟨hB.cons, hB.loops, hB.simpleEdges hEd, ?_, hB.verts, ?_, ?_, ?_, ?_⟩
    · exact points_of (gr := fun _ => []) (by rw [List.map_nil, List.append_nil]; exact hpts)
        (by rw [List.map_nil, List.append_nil]; exact hvc) hge hgf (by simp)
    · intro x; rw [← hqlen]; exact hB.faces x
    · intro x hx
      exact absurd ((hB.regions x).1 hx) (Nat.not_lt_zero _)
    · intro k f hk
      have hf := List.mem_of_getElem? hk
      refine ⟨A f, (hA f hf).1, ?_⟩
      intro j q hq
      have hj : j < 3 := by rw [← hAlen f hf]; exact (List.getElem?_eq_some_iff.1 hq).1
      have hc : qs[3*k+j]? = some (q.map P) := by
        have := flatMap3 (g := fun f => (quadsOf (A f)).map fun q => q.map P) fl k f j
          (fun f hf => by rw [List.length_map]; exact hAlen f hf) hk hj
        rw [List.getElem?_map, hq] at this
        exact this
      constructor
      · have := C23_vertices ((hB.faces _).2 (List.getElem?_eq_some_iff.1 hc).1) (hB.cycles _ _ hc) true
        rw [if_pos rfl, List.map_map] at this
        exact this
      · dsimp only
        rw [hcl, List.nil_append, flatMap3 fl k f j (by simp) hk hj]
        match j, hj with
        | 0, _ => rfl
        | 1, _ => rfl
        | 2, _ => rfl
    · intro p q hp hq hne
      have hPne : P p ≠ P q := fun e => hne (place_inj hp hq e)
      show T'.EdgeBetween (P p) (P q) ↔ _
      rw [edgeBetween_iff hB hPne, mem_joinAll_iff hFc]
      -- sides of the quadrilaterals with entities
      have pairs : ∀ (a b c d : Node), cyclicPairs ([a, b, c, d].map P) = [(P a, P b), (P b, P c), (P c, P d), (P d, P a)] :=
        fun _ _ _ _ => rfl
      have eqs : ∀ {m n : Node}, m.In vl el fl [] → n.In vl el fl [] → ((P p, P q) = (P m, P n) ↔ p = m ∧ q = n) := by
        intro m n hm hn
        rw [Prod.mk.injEq]
        exact ⟨fun e => ⟨place_inj hp hm e.1, place_inj hq hn e.2⟩, fun e => ⟨congrArg P e.1, congrArg P e.2⟩⟩
      have eqs' : ∀ {m n : Node}, m.In vl el fl [] → n.In vl el fl [] → ((P q, P p) = (P m, P n) ↔ q = m ∧ p = n) := by
        intro m n hm hn
        rw [Prod.mk.injEq]
        exact ⟨fun e => ⟨place_inj hq hm e.1, place_inj hp hn e.2⟩, fun e => ⟨congrArg P e.1, congrArg P e.2⟩⟩
      constructor
      · rintro ⟨c, hc, hpq⟩
        obtain ⟨f, hf, w, hw, rfl⟩ := hqs c hc
        have hin := hAin f hf
        obtain ⟨a, b, c, x, y, z, -, -, -, k1, k2, k3, e⟩ := (hA f hf).1
        rw [e] at hw hin
        simp only [List.forall_mem_cons, List.not_mem_nil, false_imp_iff, implies_true, and_true] at hin
        obtain ⟨i1, i2, i3, i4, i5, i6, i7⟩ := hin
        simp only [quadsOf, List.mem_cons, List.not_mem_nil, or_false] at hw
        rcases hw with rfl | rfl | rfl <;>
          simp only [pairs, List.mem_cons, List.not_mem_nil, or_false, eqs, eqs', i1, i2, i3, i4, i5, i6, i7] at hpq <;>
          rcases hpq with (⟨rfl, rfl⟩ | ⟨rfl, rfl⟩ | ⟨rfl, rfl⟩ | ⟨rfl, rfl⟩) | (⟨rfl, rfl⟩ | ⟨rfl, rfl⟩ | ⟨rfl, rfl⟩ | ⟨rfl, rfl⟩) <;>
          simp only [Half, or_false, false_or]
        all_goals first
          | exact k1.1
          | exact k2.1
          | exact k3.1
          | exact ⟨k1.2.1, f, k1.1⟩
          | exact ⟨k1.2.2, f, k1.1⟩
          | exact ⟨k2.2.1, f, k2.1⟩
          | exact ⟨k2.2.2, f, k2.1⟩
          | exact ⟨k3.2.1, f, k3.1⟩
          | exact ⟨k3.2.2, f, k3.1⟩
      · have key : ∀ {m n : Node}, T.Half m n → ∃ c ∈ qs, (P m, P n) ∈ cyclicPairs c ∨ (P n, P m) ∈ cyclicPairs c := by
          intro m n hmn
          have memq : ∀ {f w}, f ∈ fl → w ∈ quadsOf (A f) → w.map P ∈ qs := fun {f w} hf hw =>
            List.mem_flatMap.2 ⟨f, hf, List.mem_map_of_mem hw⟩
          cases m with
          | v u =>
            cases n with
            | e x =>
              obtain ⟨hu, f, hfx⟩ := hmn
              have hf := (hF.2 f).2 hfx.1
              have hx := ((hA f hf).2.1 x).1 hfx
              obtain ⟨a, b, c, x', y', z', -, kn, -, k1, k2, k3, e⟩ := (hA f hf).1
              rw [e] at hx
              simp only [List.nodup_cons, List.mem_cons, List.not_mem_nil, or_false, not_or, not_false_iff, List.nodup_nil,
                and_true] at kn
              have q0 : [Node.v a, .e x', .f f, .e z'].map P ∈ qs := memq hf (by rw [e]; simp [quadsOf])
              have q1 : [Node.e x', .v b, .e y', .f f].map P ∈ qs := memq hf (by rw [e]; simp [quadsOf])
              have q2 : [Node.e z', .f f, .e y', .v c].map P ∈ qs := memq hf (by rw [e]; simp [quadsOf])
              simp at hx
              rcases hx with rfl | rfl | rfl
              · rcases two_ends k1.2.1 k1.2.2 hu with k | k | k
                · exact absurd k kn.1.1
                · subst k; exact ⟨_, q0, Or.inl (by rw [pairs]; simp)⟩
                · subst k; exact ⟨_, q1, Or.inr (by rw [pairs]; simp)⟩
              · rcases two_ends k2.2.1 k2.2.2 hu with k | k | k
                · exact absurd k kn.2
                · subst k; exact ⟨_, q1, Or.inl (by rw [pairs]; simp)⟩
                · subst k; exact ⟨_, q2, Or.inr (by rw [pairs]; simp)⟩
              · rcases two_ends k3.2.1 k3.2.2 hu with k | k | k
                · exact absurd k.symm kn.1.2
                · subst k; exact ⟨_, q2, Or.inl (by rw [pairs]; simp)⟩
                · subst k; exact ⟨_, q0, Or.inr (by rw [pairs]; simp)⟩
            | v _ => exact hmn.elim
            | f _ => exact hmn.elim
            | r _ => exact hmn.elim
          | e x =>
            cases n with
            | f f =>
              have hfx : T.FaceHas f x := hmn
              have hf := (hF.2 f).2 hfx.1
              have hx := ((hA f hf).2.1 x).1 hfx
              obtain ⟨a, b, c, x', y', z', -, kn, -, k1, k2, k3, e⟩ := (hA f hf).1
              rw [e] at hx
              have q0 : [Node.v a, .e x', .f f, .e z'].map P ∈ qs := memq hf (by rw [e]; simp [quadsOf])
              have q2 : [Node.e z', .f f, .e y', .v c].map P ∈ qs := memq hf (by rw [e]; simp [quadsOf])
              simp at hx
              rcases hx with rfl | rfl | rfl
              · exact ⟨_, q0, Or.inl (by rw [pairs]; simp)⟩
              · exact ⟨_, q2, Or.inr (by rw [pairs]; simp)⟩
              · exact ⟨_, q2, Or.inl (by rw [pairs]; simp)⟩
            | v _ => exact hmn.elim
            | e _ => exact hmn.elim
            | r _ => exact hmn.elim
          | f _ => cases n <;> exact hmn.elim
          | r _ => cases n <;> exact hmn.elim
        rintro (hh | hh)
        · exact key hh
        · obtain ⟨c, h1, h2⟩ := key hh
          exact ⟨c, h1, h2.symm⟩

/-- **C70, other meshes.**  When a face is not a triangle, the value returned is 0; nothing else happens. -/
theorem C70_refused {T : Topo} (h : T.Consistent) (hl : T.AllLoops) (hend : T.Ended) (G : ModelCls)
    {vl el fl : List Nat} (hV : Enumerates T.sv vl) (hE : Enumerates T.se el) (hF : Enumerates T.sf fl)
    (h100 : ∀ f ws, T.sf f = .live → T.Loop f ws → ws.length ≤ 100)
    {g : Nat} {ws : List Nat} (hg : T.sf g = .live) (hw : T.Loop g ws) (h3 : ws.length ≠ 3) :
    T.tri2quad G vl el fl = .ok none := by
  have hge : ∀ x, ∃ l : List Nat, x ∈ el → T.edgePt x = .ok (some l) := by
    intro x
    by_cases hx : x ∈ el
    · obtain ⟨a, b, k1, k2, k3⟩ := edgePt_live h hend ((hE.2 x).1 hx)
      exact ⟨[a, b], fun _ => k3⟩
    · exact ⟨[], fun hx' => absurd hx' hx⟩
  choose ge hge using hge
  have pt : ∀ f ws, T.sf f = .live → T.Loop f ws → T.facePt f = .ok (if ws.length ≠ 3 then none else some ws) := by
    intro f ws hf hw
    have hv := C23_vertices hf hw true
    rw [if_pos rfl] at hv
    unfold facePt
    have hlen := h100 f ws hf hw
    rw [hv, Res.bind_ok, if_neg (by rw [List.length_map]; omega), coordsOf_ok ws (hw.live h hf), Res.bind_ok]
    split <;> rfl
  obtain ⟨mv, a1, -⟩ := addPoints_ok (cls := G.v) (g := fun v => [v]) vl Conv.start (fun _ => none) hV.1
    (fun x hx => vertexPt_ok ((hV.2 x).1 hx))
  obtain ⟨me, b1, -⟩ := addPoints_ok (cls := G.e) (g := ge) el
    ⟨addVerts vl.length Conv.start.T, Conv.start.pts ++ vl.map (fun v => [v]), Conv.start.vcls ++ vl.map G.v, Conv.start.cells⟩
    (fun _ => none) hE.1 (fun x hx => hge x hx)
  unfold tri2quad
  rw [a1, Res.bind_ok]; dsimp only
  rw [b1, Res.bind_ok]; dsimp only
  rw [addPoints_refused, Res.bind_ok]
  · rfl
  · intro x hx
    have hx := (hF.2 x).1 hx
    obtain ⟨vs, hv, -⟩ := hl x hx
    exact ⟨_, pt x vs hx hv⟩
  · exact ⟨g, (hF.2 g).2 hg, by rw [pt g ws hg hw, if_pos h3]⟩

/-! ### a concrete mesh -/

/-- checking the hypotheses of `C70_quads` -/
def triReadyB (T : Topo) (nv ne nf nr : Nat) : Bool :=
  decide (T.nv = nv ∧ T.ne = ne ∧ T.nf = nf ∧ T.nr = nr) &&
  (List.range nv).all (fun v => decide (T.sv v = .live)) && (List.range ne).all (fun e => decide (T.se e = .live)) &&
  (List.range nf).all (fun f => decide (T.sf f = .live)) && (List.range nr).all (fun r => decide (T.sr r = .live)) &&
  (List.range ne).all (fun e => (T.ev e).1.isSome && (T.ev e).2.isSome) &&
  (List.range nf).all (fun f => decide (((T.fe f).getD []).length = 3))

theorem lists_range {s : Nat → Stat} {n m : Nat} (he : m = n) (h1 : ∀ v, v < n → s v = .live) (h2 : ∀ v, m ≤ v → s v = .unused) :
    Enumerates s (List.range n) := by
  refine ⟨List.nodup_range, fun v => ?_⟩
  rw [List.mem_range]
  refine ⟨h1 v, fun hv => ?_⟩
  by_contra hge
  rw [h2 v (by omega)] at hv; cases hv

theorem triReadyB_sound {T : Topo} (h : T.Consistent) {nv ne nf nr : Nat} (hb : T.triReadyB nv ne nf nr = true) :
    Enumerates T.sv (List.range nv) ∧ Enumerates T.se (List.range ne) ∧ Enumerates T.sf (List.range nf) ∧ Enumerates T.sr (List.range nr) ∧
    T.Ended ∧ T.Triangles := by
  unfold triReadyB at hb
  simp only [Bool.and_eq_true, decide_eq_true_iff, List.all_eq_true, List.mem_range] at hb
  obtain ⟨⟨⟨⟨⟨⟨⟨e1, e2, e3, e4⟩, b1⟩, b2⟩, b3⟩, b4⟩, b5⟩, b6⟩ := hb
  refine ⟨lists_range e1 b1 h.newV, lists_range e2 b2 h.newE, lists_range e3 b3 h.newF, lists_range e4 b4 h.newR, ?_, ?_⟩
  · intro e he
    have hlt : e < ne := by
      by_contra hge
      rw [h.newE e (by omega)] at he; cases he
    obtain ⟨k1, k2⟩ := b5 e hlt
    obtain ⟨a, ha⟩ := Option.isSome_iff_exists.1 k1
    obtain ⟨b, hb⟩ := Option.isSome_iff_exists.1 k2
    refine ⟨a, b, ?_, ?_⟩ <;> rw [meVertex_ok (alloc_of_live he)]
    · exact congrArg Res.ok ha
    · exact congrArg Res.ok hb
  · intro f ws hf hw
    have hlt : f < nf := by
      by_contra hge
      rw [h.newF f (by omega)] at hf; cases hf
    obtain ⟨l, k1, -, k2, -⟩ := hw.stored (alloc_of_live hf)
    have := b6 f hlt
    rw [k1] at this
    rw [← k2]; exact this

/-- two triangles -/
def triPair : List Op :=
  List.replicate 4 .newVertex ++ [.newFace, .setVertices 0 [0,1,2], .newFace, .setVertices 1 [2,1,3]]

/-- The hypotheses hold for two triangles: six quadrilaterals with eleven vertices. -/
example : ∃ (T : Topo) (S : Conv), empty.run triPair = .ok T ∧
    T.tri2quad ⟨fun _ => (2,1), fun _ => (2,1), fun _ => (2,1), fun _ => (2,1)⟩ (List.range 4) (List.range 5) (List.range 2) =
      .ok (some S) ∧ (∀ x, S.T.sf x = .live ↔ x < 6) ∧
    QuadsFor T ⟨fun _ => (2,1), fun _ => (2,1), fun _ => (2,1), fun _ => (2,1)⟩ (List.range 4) (List.range 5) (List.range 2) S := by
  obtain ⟨T, h1, h2⟩ := reachable (os := triPair) (by decide +kernel)
  have hq : answer triPair (fun T => .ok (T.triReadyB 4 5 2 0 && T.allLoopsB [[0,1,2],[2,1,3]])) = .ok true := by
    decide +kernel
  unfold answer at hq
  rw [h1, Res.bind_ok, Res.ok.injEq, Bool.and_eq_true] at hq
  obtain ⟨k1, k2, k3, -, k4, k5⟩ := triReadyB_sound h2 hq.1
  obtain ⟨S, r1, r2⟩ := C70_quads h2 (allLoopsB_sound h2 hq.2) k4 k5
    ⟨fun _ => (2,1), fun _ => (2,1), fun _ => (2,1), fun _ => (2,1)⟩ k1 k2 k3
  exact ⟨T, S, h1, r1, r2.faces, r2⟩

/-- what is made of the second triangle, whose edge 1–2 it shares with the first -/
example : answer triPair (fun T => do
    let o ← T.tri2quad ⟨fun v => (0,v), fun _ => (1,1), fun f => (2,f), fun _ => (3,1)⟩ (List.range 4) (List.range 5) (List.range 2)
    let S ← Res.ofOption o
    let a ← S.T.mfVertices 3 true none
    let b ← S.T.mfVertices 4 true none
    let c ← S.T.mfVertices 5 true none
    pure ([a, b, c], S.pts, S.cells)) =
    .ok ([[some 2, some 5, some 10, some 8], [some 5, some 1, some 7, some 10], [some 8, some 10, some 7, some 3]],
      [[0],[1],[2],[3],[0,1],[1,2],[2,0],[1,3],[3,2],[0,1,2],[2,1,3]], [(2,0),(2,0),(2,0),(2,1),(2,1),(2,1)]) := by
  decide +kernel

/-- a quadrilateral is refused -/
example : answer square (fun T => do
    let o ← T.tri2quad ⟨fun v => (0,v), fun _ => (1,1), fun f => (2,f), fun _ => (3,1)⟩ (List.range 4) (List.range 4) [0]
    pure o.isNone) = .ok true := by decide +kernel

end Topo
end MSTK
