import Verif.Props.StructuredMesh

/-!
C38: the structured surface mesh as a whole, built by the calls `MESH_Gen_Structured` makes.
-/
namespace MSTK.Gen
open Topo

/-- `verts[i][j]`: the vertex made for a position -/
def Plan2.at (P : Plan2) (p : Nat × Nat) : Nat := (P.verts.map (·.1)).idxOf p

theorem cell_eq {c c' : Nat × Nat} (hs : ∀ p ∈ corners c', p ∈ corners c) : c = c' := by
  obtain ⟨i, j⟩ := c
  obtain ⟨i', j'⟩ := c'
  simp only [corners, List.forall_mem_cons, List.not_mem_nil, false_imp_iff, implies_true, and_true] at hs
  simp only [List.mem_cons, List.not_mem_nil, or_false, Prod.mk.injEq] at hs
  rw [Prod.mk.injEq]
  omega

theorem corners_nodup (c : Nat × Nat) : (corners c).Nodup := by
  obtain ⟨i, j⟩ := c; simp [corners]

section
variable {G : Nat × Nat → Prop} {h : Nat × Nat → Nat} (inj : ∀ p q, G p → G q → h p = h q → p = q)
include inj

theorem map_inj_on2 : ∀ {w w' : List (Nat × Nat)}, (∀ p ∈ w, G p) → (∀ p ∈ w', G p) → w.map h = w'.map h → w = w'
  | [], [], _, _, _ => rfl
  | [], _ :: _, _, _, e => by cases e
  | _ :: _, [], _, _, e => by cases e
  | a :: w, b :: w', h1, h2, e => by
    rw [List.map_cons, List.map_cons, List.cons.injEq] at e
    rw [List.forall_mem_cons] at h1 h2
    rw [inj a b h1.1 h2.1 e.1, map_inj_on2 h1.2 h2.2 e.2]

theorem rot_of_map2 {w w' : List (Nat × Nat)} (h1 : ∀ p ∈ w, G p) (h2 : ∀ p ∈ w', G p) (hr : w.map h ~r w'.map h) : w ~r w' := by
  obtain ⟨n, e⟩ := hr
  rw [← List.map_rotate] at e
  exact ⟨n, map_inj_on2 inj (fun p hp => h1 p (List.mem_rotate.1 hp)) h2 e⟩

/-- one side: the same edges with positions and with vertices -/
theorem side2_join {es : List Edge2} {v0 v1 : Nat × Nat} {c : Cls} (hes : ∀ e ∈ es, G e.1.1 ∧ G e.1.2) (h0 : G v0)
    (h1 : G v1) : (side2 es v0 v1 c).1.map (fun e => (h e.1.1, h e.1.2)) =
      joinE (es.map fun e => (h e.1.1, h e.1.2)) (h v0, h v1) ∧ ∀ e ∈ (side2 es v0 v1 c).1, G e.1.1 ∧ G e.1.2 := by
  have key : ((h v0, h v1) ∈ es.map (fun e => (h e.1.1, h e.1.2)) ∨ (h v1, h v0) ∈ es.map (fun e => (h e.1.1, h e.1.2))) ↔
      ∃ e ∈ es, Joins e v0 v1 := by
    simp only [List.mem_map, Prod.mk.injEq]
    constructor
    · rintro (⟨e, he, e1, e2⟩ | ⟨e, he, e1, e2⟩)
      · exact ⟨e, he, Or.inl (Prod.ext (inj _ _ (hes e he).1 h0 e1) (inj _ _ (hes e he).2 h1 e2))⟩
      · exact ⟨e, he, Or.inr (Prod.ext (inj _ _ (hes e he).1 h1 e1) (inj _ _ (hes e he).2 h0 e2))⟩
    · rintro ⟨e, he, hj | hj⟩
      · exact Or.inl ⟨e, he, by rw [hj], by rw [hj]⟩
      · exact Or.inr ⟨e, he, by rw [hj], by rw [hj]⟩
  unfold side2
  cases hc : common es v0 v1 with
  | some e =>
    obtain ⟨k1, k2⟩ := common_some hc
    exact ⟨(if_pos (key.2 ⟨e, k1, k2⟩)).symm, hes⟩
  | none =>
    have k := common_none hc
    refine ⟨?_, ?_⟩
    · rw [show joinE (es.map fun e => (h e.1.1, h e.1.2)) (h v0, h v1) = _ from
        if_neg (fun hh => by obtain ⟨e, he, hj⟩ := key.1 hh; exact k e he hj)]
      rw [List.map_append]
      rfl
    · intro e he
      rcases List.mem_append.1 he with he | he
      · exact hes e he
      · rw [List.mem_singleton.1 he]; exact ⟨h0, h1⟩

theorem face2_join {nx ny i j : Nat} {es : List Edge2} (hes : ∀ e ∈ es, G e.1.1 ∧ G e.1.2)
    (hc : ∀ p ∈ corners (i, j), G p) : (face2 nx ny i j es).1.map (fun e => (h e.1.1, h e.1.2)) =
      (cyclicPairs ((corners (i, j)).map h)).foldl joinE (es.map fun e => (h e.1.1, h e.1.2)) ∧
      ∀ e ∈ (face2 nx ny i j es).1, G e.1.1 ∧ G e.1.2 := by
  simp only [corners, List.forall_mem_cons, List.not_mem_nil, false_imp_iff, implies_true, and_true] at hc
  obtain ⟨g0, g1, g2, g3⟩ := hc
  unfold face2
  dsimp only
  generalize (if j = 0 then (1,1) else (2,1) : Nat × Nat) = c0
  generalize (if i + 1 = nx then (1,2) else (2,1) : Nat × Nat) = c1
  generalize (if j + 1 = ny then (1,3) else (2,1) : Nat × Nat) = c2
  generalize (if i = 0 then (1,4) else (2,1) : Nat × Nat) = c3
  obtain ⟨a0, b0⟩ := side2_join inj (c := c0) hes g0 g1
  obtain ⟨a1, b1⟩ := side2_join inj (c := c1) b0 g1 g2
  obtain ⟨a2, b2⟩ := side2_join inj (c := c2) b1 g2 g3
  obtain ⟨a3, b3⟩ := side2_join inj (c := c3) b2 g3 g0
  refine ⟨?_, b3⟩
  rw [a3, a2, a1, a0]
  rfl

theorem faces2_join {nx ny : Nat} : ∀ (todo : List (Nat × Nat)) {es : List Edge2} {fs : List Face2},
    (∀ e ∈ es, G e.1.1 ∧ G e.1.2) → (∀ c ∈ todo, ∀ p ∈ corners c, G p) →
    (faces2 nx ny todo (es, fs)).1.map (fun e => (h e.1.1, h e.1.2)) =
      joinAll (todo.map fun c => (corners c).map h) (es.map fun e => (h e.1.1, h e.1.2)) := by
  intro todo
  induction todo with
  | nil => intro es fs _ _; rfl
  | cons c todo ih =>
    obtain ⟨i, j⟩ := c
    intro es fs hes hc
    obtain ⟨k1, k2⟩ := face2_join inj (nx := nx) (ny := ny) hes (hc (i, j) List.mem_cons_self)
    have := ih (fs := fs ++ [(face2 nx ny i j es).2]) k2 (fun c hm => hc c (List.mem_cons_of_mem _ hm))
    rw [k1] at this
    exact this

end

theorem corner_next {h : Nat × Nat → Nat} {c : Nat × Nat} {a b : Nat} :
    Topo.Next ((corners c).map h) a b ↔
      ∃ p p', (p, p') ∈ (corners c).zip ((corners c).rotate 1) ∧ a = h p ∧ b = h p' := by
  obtain ⟨i, j⟩ := c
  simp only [mem_sides]
  constructor
  · intro hn
    rcases next4 hn with ⟨rfl, rfl⟩ | ⟨rfl, rfl⟩ | ⟨rfl, rfl⟩ | ⟨rfl, rfl⟩
    · exact ⟨_, _, Or.inl rfl, rfl, rfl⟩
    · exact ⟨_, _, Or.inr (Or.inl rfl), rfl, rfl⟩
    · exact ⟨_, _, Or.inr (Or.inr (Or.inl rfl)), rfl, rfl⟩
    · exact ⟨_, _, Or.inr (Or.inr (Or.inr rfl)), rfl, rfl⟩
  · rintro ⟨p, p', hp, rfl, rfl⟩
    simp only [Prod.mk.injEq] at hp
    rcases hp with ⟨rfl, rfl⟩ | ⟨rfl, rfl⟩ | ⟨rfl, rfl⟩ | ⟨rfl, rfl⟩
    · exact ⟨0, rfl, rfl⟩
    · exact ⟨1, rfl, rfl⟩
    · exact ⟨2, rfl, rfl⟩
    · exact ⟨3, rfl, by simp [corners]⟩

/-- neighbours among the corners of a cell follow one another around it -/
theorem corner_near {c p p' : Nat × Nat} (hn : Near p p') :
    ((p, p') ∈ (corners c).zip ((corners c).rotate 1) ∨ (p', p) ∈ (corners c).zip ((corners c).rotate 1)) ↔
      p ∈ corners c ∧ p' ∈ corners c := by
  obtain ⟨i, j⟩ := c
  obtain ⟨a, b⟩ := p
  obtain ⟨a', b'⟩ := p'
  simp only [Near] at hn
  simp only [mem_sides]
  simp only [corners, List.mem_cons, List.not_mem_nil, or_false, Prod.mk.injEq]
  constructor
  · rintro ((h | h | h | h) | (h | h | h | h)) <;> omega
  · rintro ⟨h | h | h | h, h' | h' | h' | h'⟩ <;> omega

/-- **C38 (the 2D mesh).**  The calls succeed on an empty mesh.  The result is a consistent mesh with exactly
the planned vertices, edges and faces; an edge goes from its first to its second point and a face goes round its
cell; an edge bounds a face exactly if its ends are corners of the cell. -/
theorem C38_plane_mesh {nx ny : Nat} (hx : 0 < nx) (hy : 0 < ny) :
    ∃ P T, gen2 nx ny = .ok P ∧ run2 nx ny = .ok T ∧ T.Consistent ∧
    -- entities
    (∀ v, T.sv v = .live ↔ v < P.verts.length) ∧ (∀ e, T.se e = .live ↔ e < P.edges.length) ∧
    (∀ f, T.sf f = .live ↔ f < (cells2 nx ny).length) ∧ (∀ r, T.sr r ≠ .live) ∧
    -- the vertices' names
    (∀ v x, P.verts[v]? = some x → P.at x.1 = v) ∧
    -- definitions
    (∀ e x, P.edges[e]? = some x →
      T.meVertex e false = .ok (some (P.at x.1.1)) ∧ T.meVertex e true = .ok (some (P.at x.1.2))) ∧
    (∀ f c, (cells2 nx ny)[f]? = some c → T.mfVertices f true none = .ok ((corners c).map fun p => some (P.at p))) ∧
    -- incidence
    (∀ f c e y, (cells2 nx ny)[f]? = some c → P.edges[e]? = some y →
      (T.FaceHas f e ↔ y.1.1 ∈ corners c ∧ y.1.2 ∈ corners c)) := by
  obtain ⟨P, h0, hvn, hv, -, -, -, hnear, -, -, -, -, -, hcn, hcell, -⟩ := C38_plane hx hy
  have inj : ∀ p q, (p.1 ≤ nx ∧ p.2 ≤ ny) → (q.1 ≤ nx ∧ q.2 ≤ ny) → P.at p = P.at q → p = q := fun p q h1 h2 e =>
    (List.idxOf_inj ((hv p).2 h1)).1 e
  have lt : ∀ p, (p.1 ≤ nx ∧ p.2 ≤ ny) → P.at p < P.verts.length := fun p h1 => by
    have := List.idxOf_lt_length_of_mem ((hv p).2 h1)
    rwa [List.length_map] at this
  have hat : ∀ v x, P.verts[v]? = some x → P.at x.1 = v := by
    intro v x hvx
    obtain ⟨hlt, rfl⟩ := List.getElem?_eq_some_iff.1 hvx
    have := List.Nodup.idxOf_getElem hvn v (by rw [List.length_map]; exact hlt)
    rwa [List.getElem_map] at this
  have hcg : ∀ c ∈ cells2 nx ny, ∀ p ∈ corners c, p.1 ≤ nx ∧ p.2 ≤ ny := by
    intro c hc
    have := (hcell c).1 hc
    simp only [corners, List.forall_mem_cons, List.not_mem_nil, false_imp_iff, implies_true, and_true]
    omega
  have hE0 : EdgesOk P.verts.length [] := ⟨by simp, List.Pairwise.nil⟩
  have hF0 : FacesOk P.verts.length [] [] := ⟨by simp, by simp, by simp, by simp, List.Pairwise.nil⟩
  have hB0 := built_verts P.verts.length built_empty
  rw [Nat.zero_add] at hB0
  obtain ⟨T, hT, hB, hE, hF⟩ := built_facesNew ((cells2 nx ny).map fun c => (corners c).map P.at) hB0 hE0 hF0
    (by
      simp only [List.forall_mem_map]
      intro c hc
      refine ⟨List.Nodup.map_on (fun x hx y hy e => inj x y (hcg c hc x hx) (hcg c hc y hy) e) (corners_nodup c),
        by simp [corners], by simp [corners], fun p hp => lt p (hcg c hc p hp)⟩)
    (by
      rw [List.nil_append, List.pairwise_map]
      refine List.Pairwise.imp_of_mem ?_ hcn
      intro c c' hc hc' hne
      constructor
      · intro hr
        have := rot_of_map2 inj (hcg c' hc') (hcg c hc) hr
        exact hne (cell_eq fun p hp => this.mem_iff.1 hp)
      · intro hr
        rw [← List.map_reverse] at hr
        have := rot_of_map2 inj (hcg c' hc') (fun p hp => hcg c hc p (List.mem_reverse.1 hp)) hr
        exact hne (cell_eq fun p hp => List.mem_reverse.1 (this.mem_iff.1 hp)))
  rw [List.nil_append] at hB hF
  have hedges : P.edges.map (fun e => (P.at e.1.1, P.at e.1.2)) = joinAll ((cells2 nx ny).map fun c => (corners c).map P.at) [] := by
    have := faces2_join inj (nx := nx) (ny := ny) (cells2 nx ny) (es := []) (fs := []) (by simp) hcg
    have hP : P.edges = (faces2 nx ny (cells2 nx ny) ([], [])).1 := by
      unfold gen2 at h0
      rw [if_neg (by omega)] at h0
      injection h0 with h0
      rw [← h0]
    rw [hP]
    exact this
  rw [← hedges] at hB hE hF
  have tabE : ∀ (e : Nat) x, P.edges[e]? = some x →
      (P.edges.map fun e => (P.at e.1.1, P.at e.1.2))[e]? = some (P.at x.1.1, P.at x.1.2) := fun e x h => by
    rw [List.getElem?_map, h]; rfl
  have tabF : ∀ (f : Nat) c, (cells2 nx ny)[f]? = some c →
      ((cells2 nx ny).map fun c => (corners c).map P.at)[f]? = some ((corners c).map P.at) := fun f x h => by
    rw [List.getElem?_map, h]; rfl
  refine ⟨P, T, h0, ?_, hB.cons, hB.verts, ?_, ?_, ?_, hat, ?_, ?_, ?_⟩
  · unfold run2
    rw [h0, Res.bind_ok]
    exact hT
  · intro e; rw [hB.edges, List.length_map]
  · intro e; rw [hB.faces, List.length_map]
  · intro r hr
    exact absurd ((hB.regions r).1 hr) (Nat.not_lt_zero _)
  · intro e x h
    have h1 := tabE e x h
    have hl := (hB.edges e).2 (List.getElem?_eq_some_iff.1 h1).1
    rw [meVertex_ok (alloc_of_live hl), meVertex_ok (alloc_of_live hl), hB.ends e _ _ h1]
    exact ⟨rfl, rfl⟩
  · intro f x h
    have h1 := tabF f x h
    have hl := (hB.faces f).2 (List.getElem?_eq_some_iff.1 h1).1
    rw [C23_vertices hl (hB.cycles f _ h1) true, if_pos rfl, List.map_map]
    rfl
  · intro f c e y h h'
    have hg := hcg c (List.mem_of_getElem? h)
    obtain ⟨hn, g1, g2⟩ := (hnear y.1.1 y.1.2).1 ⟨y, List.mem_of_getElem? h', Or.inl rfl⟩
    rw [faceHas_iff hB hE (tabF f c h) (tabE e y h'), ← corner_near hn, corner_next, corner_next]
    have hmem : ∀ {p p' : Nat × Nat}, (p, p') ∈ (corners c).zip ((corners c).rotate 1) → p ∈ corners c ∧ p' ∈ corners c :=
      fun hp => ⟨(List.of_mem_zip hp).1, List.mem_rotate.1 (List.of_mem_zip hp).2⟩
    constructor
    · rintro (⟨p, p', hp, e1, e2⟩ | ⟨p, p', hp, e1, e2⟩)
      · have hm := hmem hp
        rw [inj _ _ g1 (hg p hm.1) e1, inj _ _ g2 (hg p' hm.2) e2]
        exact Or.inl hp
      · have hm := hmem hp
        rw [inj _ _ g2 (hg p hm.1) e1, inj _ _ g1 (hg p' hm.2) e2]
        exact Or.inr hp
    · rintro (hp | hp)
      · exact Or.inl ⟨_, _, hp, rfl, rfl⟩
      · exact Or.inr ⟨_, _, hp, rfl, rfl⟩

/-- two cells: seven edges; the second face reuses the second edge, backwards -/
example : (do
    let T ← run2 2 1
    let a ← T.mfEdges 1 true none
    let b ← T.mfVertices 1 true none
    pure ([T.nv, T.ne, T.nf, T.nr], a, b) : Res (List Nat × List Nat × List (Option Nat))) =
    .ok ([6, 7, 2, 0], [4, 5, 6, 1], [some 1, some 2, some 5, some 4]) := by
  decide +kernel

end MSTK.Gen
