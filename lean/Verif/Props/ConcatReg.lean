import Verif.ConcatRegRun
import Verif.Props.Concat

/-!
C81: `MESH_ConcatSubMesh` for volume meshes (ConcatRegModel.lean).  What it adds to a part are ghosts of the regions of the
meshes received that touch the boundary of the part, put together with each other and with the part as they are in the
meshes received.
-/
namespace MSTK
namespace Cat
open File Copy Prt

variable {D : Type}

open Classical in
/-- the regions received that touch the boundary of the part, in order -/
noncomputable def hitsR (M : CMesh D) (subs : List (CMesh D)) : List (CMesh D × Nat) :=
  (receivedR subs).filter fun p => decide (HitR M p.1 p.2)

/-- what is in a region that touches the boundary of the part -/
def InHitR (M : CMesh D) (S : CMesh D) (k x : Nat) : Prop := ∃ r ∈ S.F.rl, HitR M S r ∧ OfRegion S.F r k x

theorem ghostR_grows {M M' T : CMesh D} (hw : Whole M.F) (hg : Grows 3 M M') {y x : Nat} (hy : y ∈ M.F.rl) (h : GhostR M T y x) :
    GhostR M' T y x := by
  obtain ⟨h1, h2, h3⟩ := h
  exact ⟨(hg.par 3 y hy).trans h1, (hg.rc y hy).trans h2, (hg.walls hw hy).trans h3⟩

theorem ghostsR_grow {M M' : CMesh D} (hw : Whole M.F) (hg : Grows 3 M M') {fs : List Nat} {ps : List (CMesh D × Nat)}
    (hm : ∀ l ∈ fs, l ∈ M.F.rl) (h : List.Forall₂ (fun l p => GhostR M p.1 l p.2) fs ps) :
    List.Forall₂ (fun l p => GhostR M' p.1 l p.2) fs ps := by
  induction h with
  | nil => exact .nil
  | cons h1 _ ih => exact .cons (ghostR_grows hw hg (hm _ (by simp)) h1) (ih fun l hl => hm l (List.mem_cons_of_mem _ hl))

/-- no region of the mesh is where one of those to come is -/
def Free (M : CMesh D) (todo : List (CMesh D × Nat)) : Prop := ∀ z ∈ M.F.rl, ∀ q ∈ todo, Apart M z q.1 q.2

theorem Free.grows {M M' : CMesh D} {todo : List (CMesh D × Nat)} (h : Free M todo) (hw : Whole M.F) (hg : Grows 3 M M')
    (hl : M'.F.rl = M.F.rl) : Free M' todo := by
  intro z hz q hq
  rw [hl] at hz
  unfold Apart
  rw [hg.walls hw hz]
  exact h z hz q hq

section
variable {srch : (Nat → Nat) → List Nat → Nat → Option Nat} (hf : Send.Finds srch) {M0 : CMesh D} {subs : List (CMesh D)}
include hf

open Classical in
theorem concatMeshR_loop (hG : GivenR M0 subs) {S : CMesh D} (hS : S ∈ subs) {rest : List (CMesh D × Nat)} : ∀ (xs : List Nat) {st : QSt D},
    Inv 3 M0 subs (InHitR M0) S st → (∀ r ∈ xs, r ∈ S.F.rl) → Free st.M ((xs.map fun r => (S, r)) ++ rest) →
    ((xs.map fun r => (S, r)) ++ rest).Pairwise (fun p q => Apart p.1 p.2 q.1 q.2) →
    ∃ st', loop (concatR srch (border M0) S) xs st = .ok st' ∧ Inv 3 M0 subs (InHitR M0) S st' ∧ Grows 3 st.M st'.M ∧ Free st'.M rest ∧
      ∃ new, st'.M.F.rl = st.M.F.rl ++ new ∧
        List.Forall₂ (fun l p => GhostR st'.M p.1 l p.2) new ((xs.map fun r => (S, r)).filter fun p => decide (HitR M0 p.1 p.2))
  | [], st, h, _, hfr, _ => ⟨st, rfl, h, Grows.refl _, hfr, [], (List.append_nil _).symm, .nil⟩
  | r :: xs, st, h, hx, hfr, hpw => by
    have hrl := hx r (by simp)
    rw [List.map_cons, List.cons_append, List.pairwise_cons] at hpw
    obtain ⟨hp1, hp2⟩ := hpw
    obtain ⟨s1, r1, i1, g1, _, c1⟩ := concatR_ok hf hG hS h hrl (fun hH k x hk => ⟨r, hrl, hH, hk⟩)
      (fun z hz => hfr z hz (S, r) (by simp))
    have hfr' : Free st.M ((xs.map fun r => (S, r)) ++ rest) := fun z hz q hq =>
      hfr z hz q (by rw [List.map_cons, List.cons_append]; exact List.mem_cons_of_mem _ hq)
    have hfree : Free s1.M ((xs.map fun r => (S, r)) ++ rest) := by
      rcases c1 with ⟨_, e1⟩ | ⟨_, l, e1, gh⟩
      · exact hfr'.grows h.base.whole g1 e1
      · intro z hz q hq
        rw [e1] at hz
        rcases List.mem_append.1 hz with hz | hz
        · unfold Apart
          rw [g1.walls h.base.whole hz]
          exact hfr' z hz q hq
        · rw [List.mem_singleton.1 hz]
          unfold Apart
          rw [gh.2.2]
          exact hp1 q hq
    obtain ⟨s2, r2, i2, g2, fr2, new, l2, f2⟩ := concatMeshR_loop hG hS xs i1 (fun x hx' => hx x (List.mem_cons_of_mem _ hx')) hfree hp2
    unfold loop
    rw [r1, Res.bind_ok, r2]
    refine ⟨s2, rfl, i2, g1.trans g2, fr2, ?_⟩
    rw [List.map_cons]
    rcases c1 with ⟨hno, e1⟩ | ⟨hH, l, e1, gh⟩
    · refine ⟨new, by rw [l2, e1], ?_⟩
      rw [List.filter_cons_of_neg (by simpa using hno)]
      exact f2
    · refine ⟨l :: new, by rw [l2, e1, List.append_assoc]; rfl, ?_⟩
      rw [List.filter_cons_of_pos (by simpa using hH)]
      exact .cons (ghostR_grows i1.base.whole g2 (by rw [e1]; simp) gh) f2

theorem concatAllR_ok (hG : GivenR M0 subs) : ∀ (ts : List (CMesh D)) {st : QSt D}, (∀ S ∈ ts, S ∈ subs) →
    Base 3 M0 subs (InHitR M0) st.M st.old → st.add = (fun _ => []) → Free st.M (receivedR ts) →
    (receivedR ts).Pairwise (fun p q => Apart p.1 p.2 q.1 q.2) →
    ∃ st', concatAllR srch (border M0) ts st = .ok st' ∧ Base 3 M0 subs (InHitR M0) st'.M st'.old ∧ Grows 3 st.M st'.M ∧
      ∃ new, st'.M.F.rl = st.M.F.rl ++ new ∧ List.Forall₂ (fun l p => GhostR st'.M p.1 l p.2) new (hitsR M0 ts)
  | [], st, _, h, _, _, _ => ⟨st, rfl, h, Grows.refl _, [], (List.append_nil _).symm, .nil⟩
  | S :: ts, st, hs, h, ha, hfr, hpw => by
    have hS := hs S (by simp)
    have hrec : receivedR (S :: ts) = (S.F.rl.map fun r => (S, r)) ++ receivedR ts := by
      unfold receivedR; rw [List.flatMap_cons]
    rw [hrec] at hfr hpw
    obtain ⟨s1, r1, i1, g1, fr1, n1, l1, f1⟩ := concatMeshR_loop hf hG hS (rest := receivedR ts) S.F.rl (st := { st with att := fun _ _ => none })
      ⟨by
        show Base 3 M0 subs (InHitR M0) st.M (fun k => st.old k ++ st.add k)
        rw [ha]
        simpa using h,
       (fun _ _ _ _ h => nomatch h), fun k _ y hy => by rw [show st.add = _ from ha] at hy; cases hy⟩ (fun _ h => h) hfr hpw
    obtain ⟨s2, r2, i2, g2, n2, l2, f2⟩ := concatAllR_ok hG ts (st := { s1 with old := fun k => s1.old k ++ s1.add k, add := fun _ => [] })
      (fun T hT => hs T (List.mem_cons_of_mem _ hT)) i1.base rfl fr1 (List.pairwise_append.1 hpw).2.1
    unfold concatAllR concatMeshR
    simp only [r1, Res.bind_ok, Res.pure_eq, r2]
    refine ⟨s2, rfl, i2, g1.trans g2, n1 ++ n2, ?_, ?_⟩
    · rw [l2]
      show s1.M.F.rl ++ n2 = _
      rw [l1, List.append_assoc]
    · have : hitsR M0 (S :: ts) = ((S.F.rl.map fun r => (S, r)).filter fun p => @decide (HitR M0 p.1 p.2) (Classical.propDecidable _)) ++ hitsR M0 ts := by
        unfold hitsR
        rw [hrec, List.filter_append]
      rw [this]
      exact List.rel_append (ghostsR_grow i1.base.whole g2 (fun l hl => by rw [l1]; exact List.mem_append_right _ hl) f1) f2

/-- **C81, partial: ghosts from the meshes received, volume meshes.**  The whole of the meshes received is looked at
(`GivenR`).  The run ends; what was in the part is as it was, but for the classification of ghosts it had; the new entities
come after the old ones.  No two vertices, edges or faces have the same global ID, so what the part has already is not made
again, nor is what two meshes received have in common.  The new regions are ghosts, one for each region received that
touches the boundary of the part, in order, with the same classification, owner and global ID and the same boundary: the same
faces by global ID, each with the same vertices round it in the direction in which the region has it.  New vertices, edges
and faces are ghosts of what is in these regions, with the same coordinates, classification, owner, ends and boundary.
Missing: regions that the part has already or that are received twice are made again (`C81_negation_twice`). -/
theorem C81_concat_partial (hG : GivenR M0 subs) :
    ∃ M', concatSubMesh srch 3 M0 subs = .ok M' ∧ Kept M0 M' ∧
      (M'.F.vl.length + M'.F.el.length + M'.F.fl.length + M'.F.rl.length < 2147483648 → M'.F.Sound) ∧
      Distinct M' 0 ∧ Distinct M' 1 ∧ Distinct M' 2 ∧
      (∃ new, M'.F.vl = M0.F.vl ++ new ∧ ∀ y ∈ new, ∃ S ∈ subs, ∃ x ∈ S.F.vl, InHitR M0 S 0 x ∧ GhostV M' S y x) ∧
      (∃ new, M'.F.el = M0.F.el ++ new ∧ ∀ y ∈ new, ∃ S ∈ subs, ∃ x ∈ S.F.el, InHitR M0 S 1 x ∧ GhostE M' S y x) ∧
      (∃ new, M'.F.fl = M0.F.fl ++ new ∧ ∀ y ∈ new, ∃ S ∈ subs, ∃ x ∈ S.F.fl, InHitR M0 S 2 x ∧ GhostF M' S y x) ∧
      (∃ new, M'.F.rl = M0.F.rl ++ new ∧ List.Forall₂ (fun l p => GhostR M' p.1 l p.2) new (hitsR M0 subs)) ∧
      (∀ x ∈ M0.F.vl, Retag M0 subs 0 x FMesh.vc (M'.F.vc x)) ∧ (∀ x ∈ M0.F.el, Retag M0 subs 1 x FMesh.ec (M'.F.ec x)) ∧
      (∀ x ∈ M0.F.fl, Retag M0 subs 2 x FMesh.fc (M'.F.fc x)) := by
  obtain ⟨st, r, h, _, new, l1, f1⟩ := concatAllR_ok hf hG subs
    (st := { M := M0, att := fun _ _ => none, old := fun _ => [], add := fun _ => [] }) (fun _ h => h)
    ⟨whole_of hG.sound, Grows.refl _, Or.inr rfl, fun _ _ => (List.append_nil _).symm, fun _ => rfl, fun k hk => (hG.dist k hk).1,
      fun T hT => (hG.agree T hT).1, fun _ T hT => (hG.agreeF T hT).1, (fun _ h => nomatch h), (fun _ h => nomatch h),
      (fun _ _ h => nomatch h), fun _ _ => Or.inl rfl, fun _ _ => Or.inl rfl, fun _ _ _ => Or.inl rfl⟩ rfl hG.free hG.apart
  refine ⟨st.M, ?_, h.grows.kept, h.whole.sound, h.dist 0 (by omega), h.dist 1 (by omega), h.dist 2 (by omega), ⟨_, h.list 0 (by omega), h.gv⟩,
    ⟨_, h.list 1 (by omega), h.ge⟩, ⟨_, h.list 2 (by omega), h.gf rfl⟩, ⟨new, l1, f1⟩, h.rv, h.re, h.rf rfl⟩
  unfold concatSubMesh concatRegion
  rw [if_pos rfl, r]
  rfl

end

/-! ### an example -/

/-- a tetrahedron -/
def tetOne : List Topo.Op := List.replicate 4 .newVertex ++
  [.newFace, .setVertices 0 [0,1,2], .newFace, .setVertices 1 [0,1,3], .newFace, .setVertices 2 [1,2,3], .newFace, .setVertices 3 [2,0,3],
   .newRegion, .setFaces 0 [(0,false),(1,true),(2,true),(3,true)]]

/-- a part: the tetrahedron 1 2 3 4, of which only the face 2 3 4 is on the boundary -/
def tetM (T : Topo) : CMesh Int := taggedC T [[1, 2, 3, 4], [1, 2, 3, 4, 5, 6], [1, 2, 3, 4], [1]]
  [(0, 0), (1, 0), (1, 2), (1, 4), (2, 0), (2, 1), (2, 3), (3, 0)] 0
/-- received: the tetrahedra 5 8 9 4 and 5 8 9 10 -/
def tetS (T : Topo) : CMesh Int := taggedC T [[5, 8, 9, 4, 10], [21, 22, 23, 24, 11, 25, 26, 27, 28], [21, 22, 23, 24, 25, 26, 27], [4, 5]] [] 1
/-- received: the tetrahedra 3 2 5 4 and 3 2 5 6 -/
def tetS' (T : Topo) : CMesh Int := taggedC T [[3, 2, 5, 4, 6], [2, 12, 13, 4, 6, 11, 14, 15, 16], [15, 3, 16, 17, 18, 19, 20], [2, 3]] [] 2

instance (M N : CMesh D) : Decidable (AgreeF M N) :=
  inferInstanceAs (Decidable (∀ x ∈ M.F.fl, ∀ y ∈ N.F.fl, gid M 2 x = gid N 2 y → ring M x ~r ring N y ∨ ring M x ~r (ring N y).reverse))
instance (M : CMesh D) (r : Nat) (N : CMesh D) (s : Nat) : Decidable (Apart M r N s) :=
  inferInstanceAs (Decidable (∀ w ∈ walls M r, w ∉ walls N s))

/-- a check of `GivenR` for the example -/
def givenRB (T1 T2 : Topo) : Bool :=
  let M := tetM T1
  let subs := [tetS T2, tetS' T2]
  rangeB T1 && rangeB T2 && T2.allLoopsB [[0,1,2],[0,1,3],[1,2,3],[2,0,3],[0,1,4],[1,2,4],[2,0,4]] &&
  [0, 1, 2].all (fun k => decide (Distinct M k) && subs.all fun S => decide (Distinct S k)) &&
  decide (∀ S ∈ subs, Agree M S ∧ ∀ S' ∈ subs, Agree S S') &&
  subs.all (fun S => [0, 1, 2].all fun k => decide (∀ x ∈ S.F.list k, ∀ y ∈ M.F.list k, gid M k y = gid S k x → (M.par k y).ptype ≠ 0)) &&
  decide (∀ S ∈ subs, AgreeF M S ∧ ∀ S' ∈ subs, AgreeF S S') && T2.simpleEdgesB &&
  decide (∀ f ∈ (rangeC T2).F.fl, 3 ≤ (T2.view.edges f).length) &&
  decide (T2.nr = 2) && T2.elementB 0 [0,1,2,3] && T2.elementB 1 [0,2,1,4] && decide (T2.mrElementType 0 = .ok .tet) &&
  decide (T2.mrElementType 1 = .ok .tet) &&
  decide ((receivedR subs).Pairwise fun p q => Apart p.1 p.2 q.1 q.2) && decide (∀ r ∈ M.F.rl, ∀ q ∈ receivedR subs, Apart M r q.1 q.2)

theorem givenRB_ok {T1 T2 : Topo} (c1 : T1.Consistent) (c2 : T2.Consistent) (h : givenRB T1 T2 = true) :
    GivenR (tetM T1) [tetS T2, tetS' T2] := by
  unfold givenRB at h
  simp only [Bool.and_eq_true, decide_eq_true_iff, List.all_eq_true] at h
  obtain ⟨⟨⟨⟨⟨⟨⟨⟨⟨⟨⟨⟨⟨⟨⟨a, b⟩, c⟩, d⟩, e⟩, f⟩, g⟩, s⟩, n3⟩, nr⟩, x0⟩, x1⟩, y0⟩, y1⟩, p⟩, q⟩ := h
  have hk : ∀ k, k < 3 → k ∈ [0, 1, 2] := by
    intro k hk
    match k, hk with
    | 0, _ => simp
    | 1, _ => simp
    | 2, _ => simp
  obtain ⟨m1, _, _⟩ := rangeC_ok c1 a
  obtain ⟨m2, e2, e3⟩ := rangeC_ok c2 b
  have hl := Topo.allLoopsB_sound c2 c
  have hall : ∀ S ∈ [tetS T2, tetS' T2], S.F = (rangeC T2).F := by
    intro S hS
    simp only [List.mem_cons, List.not_mem_nil, or_false] at hS
    rcases hS with rfl | rfl <;> rfl
  refine ⟨⟨m1, fun S hS => by rw [hall S hS]; exact m2, fun S hS => by rw [hall S hS]; exact e2, ?_, fun k hk' => d k (hk k hk'), e,
    fun S hS k hk' => f S hS k (hk k hk')⟩, g, ?_, ?_, p, q⟩
  · intro S hS f hf
    rw [hall S hS] at hf ⊢
    obtain ⟨ws, hw, _⟩ := hl f ((m2.fl.2 f).1 hf)
    exact ⟨ws, hw⟩
  · intro S hS
    rw [hall S hS]
    exact ⟨hl, Topo.simpleEdgesB_sound c2 s, n3⟩
  · intro S hS r hr
    rw [hall S hS] at hr ⊢
    refine ⟨?_, e3 r hr⟩
    have hlt : r < 2 := by
      have : r ∈ List.range T2.nr := hr
      rw [nr] at this
      exact List.mem_range.1 this
    have : r = 0 ∨ r = 1 := by omega
    rcases this with rfl | rfl
    · exact Or.inl ⟨[0,1,2,3], Topo.elementB_sound x0, y0, fun h => by simp at h⟩
    · exact Or.inl ⟨[0,2,1,4], Topo.elementB_sound x1, y1, fun h => by simp at h⟩

/-- The hypotheses of C81 hold for a tetrahedron and two meshes received. -/
example : ∃ T1 T2, Topo.empty.run tetOne = .ok T1 ∧ Topo.empty.run Topo.twoTets = .ok T2 ∧
    GivenR (tetM T1) [tetS T2, tetS' T2] ∧ ∃ M', concatSubMesh firstWith 3 (tetM T1) [tetS T2, tetS' T2] = .ok M' := by
  obtain ⟨T1, h1, c1⟩ := Topo.reachable (os := tetOne) (by decide +kernel)
  obtain ⟨T2, h2, c2⟩ := Topo.reachable (os := Topo.twoTets) (by decide +kernel)
  have hq : Topo.answer tetOne (fun T1 => Topo.answer Topo.twoTets fun T2 => .ok (givenRB T1 T2)) = .ok true := by decide +kernel
  unfold Topo.answer at hq
  rw [h1, Res.bind_ok, h2] at hq
  beta_reduce at hq
  rw [Res.bind_ok, Res.ok.injEq] at hq
  have hG := givenRB_ok c1 c2 hq
  obtain ⟨M', r, _⟩ := C81_concat_partial firstWith_finds hG
  exact ⟨T1, T2, h1, h2, hG, M', r⟩

/-- the global IDs of all entities -/
def all4 (M : CMesh Int) : List (List Nat) := [0, 1, 2, 3].map fun k => (M.F.list k).map (gid M k)
/-- the faces of the regions: global ID, direction, the vertices round the face -/
def shells (M : CMesh Int) : List (List (List Nat)) := M.F.rl.map fun r => (M.F.T.view.faces r).map fun p =>
  gid M 2 p.1 :: (if p.2 then 1 else 0) :: (ring M p.1).map fun o => o.getD 0

/-- Three regions are added: the first of the first mesh (the other one does not touch the part) and both of the second, of
which the first has the face 2 3 4 of the part, in the direction the part does not have it in. -/
example : Topo.answer tetOne (fun T1 => Topo.answer Topo.twoTets fun T2 => do
      let M ← concatSubMesh firstWith 3 (tetM T1) [tetS T2, tetS' T2]
      pure (all4 M)) = .ok
    [[1, 2, 3, 4, 5, 8, 9, 6], [1, 2, 3, 4, 5, 6, 21, 22, 23, 24, 11, 25, 12, 13, 14, 15, 16],
     [1, 2, 3, 4, 21, 22, 23, 24, 15, 16, 17, 18, 19, 20], [1, 4, 2, 3]] := by decide +kernel
example : Topo.answer tetOne (fun T1 => Topo.answer Topo.twoTets fun T2 => do
      let M ← concatSubMesh firstWith 3 (tetM T1) [tetS T2, tetS' T2]
      pure (shells M)) = .ok
    [[[1, 0, 1, 2, 3], [2, 1, 1, 2, 4], [3, 1, 2, 3, 4], [4, 1, 3, 1, 4]],
     [[21, 0, 5, 8, 9], [22, 1, 5, 8, 4], [23, 1, 8, 9, 4], [24, 1, 9, 5, 4]],
     [[15, 0, 3, 2, 5], [3, 0, 2, 3, 4], [16, 1, 2, 5, 4], [17, 1, 5, 3, 4]],
     [[15, 1, 3, 2, 5], [18, 0, 3, 2, 6], [19, 0, 2, 5, 6], [20, 0, 5, 3, 6]]] := by decide +kernel

/-- **Negation**: a region that is received twice is made twice, from the same faces; from these faces only the second one (2)
can be found. -/
theorem C81_negation_twice : Topo.answer tetOne (fun T1 => Topo.answer Topo.twoTets fun T2 => do
      let M ← concatSubMesh firstWith 3 (tetM T1) [tetS T2, tetS T2]
      let rs ← M.F.T.mfRegions 4
      pure (all4 M ++ [M.F.rl, rs.getD []])) = .ok
    [[1, 2, 3, 4, 5, 8, 9], [1, 2, 3, 4, 5, 6, 21, 22, 23, 24, 11, 25], [1, 2, 3, 4, 21, 22, 23, 24], [1, 4, 4], [0, 1, 2], [2]] := by
  decide +kernel

end Cat
end MSTK
