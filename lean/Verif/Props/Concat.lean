import Verif.ConcatRun
import Verif.RangeMesh
import Verif.Props.Tri2Quad

/-!
C80: what `MESH_ConcatSubMesh` adds to a part (ConcatModel.lean) are ghosts of the faces of the meshes received that
touch the boundary of the part, put together with each other and with the part as they are in the meshes received.
-/
namespace MSTK
namespace Cat
open File Copy Prt

variable {D : Type}

/-- all the faces of the meshes received, in order -/
def received (subs : List (CMesh D)) : List (CMesh D × Nat) := subs.flatMap fun S => S.F.fl.map fun f => (S, f)

open Classical in
/-- those that touch the boundary of the part -/
noncomputable def hits (M : CMesh D) (subs : List (CMesh D)) : List (CMesh D × Nat) :=
  (received subs).filter fun p => decide (Hit M p.1 p.2)

/-- what is in a face that touches the boundary of the part -/
def InHit (M : CMesh D) (S : CMesh D) (k x : Nat) : Prop := ∃ f ∈ S.F.fl, Hit M S f ∧ OfFace S.F f k x

theorem ghosts_grow {M M' : CMesh D} (hw : Whole M.F) (hg : Grows 2 M M') {fs : List Nat} {ps : List (CMesh D × Nat)}
    (hm : ∀ l ∈ fs, l ∈ M.F.fl) (h : List.Forall₂ (fun l p => GhostF M p.1 l p.2) fs ps) :
    List.Forall₂ (fun l p => GhostF M' p.1 l p.2) fs ps := by
  induction h with
  | nil => exact .nil
  | cons h1 _ ih => exact .cons (ghostF_grows hw hg (hm _ (by simp)) (hg.fc rfl _ (hm _ (by simp))) h1) (ih fun l hl => hm l (List.mem_cons_of_mem _ hl))

section
variable {srch : (Nat → Nat) → List Nat → Nat → Option Nat} (hf : Send.Finds srch) {M0 : CMesh D} {subs : List (CMesh D)}
include hf

open Classical in
theorem concatMesh_loop (hG : Given 2 M0 subs) {S : CMesh D} (hS : S ∈ subs) : ∀ (xs : List Nat) {st : QSt D},
    Inv 2 M0 subs (InHit M0) S st → (∀ f ∈ xs, f ∈ S.F.fl) →
    ∃ st', loop (concatF srch (border M0) S) xs st = .ok st' ∧ Inv 2 M0 subs (InHit M0) S st' ∧ Grows 2 st.M st'.M ∧
      ∃ new, st'.M.F.fl = st.M.F.fl ++ new ∧
        List.Forall₂ (fun l p => GhostF st'.M p.1 l p.2) new ((xs.map fun f => (S, f)).filter fun p => decide (Hit M0 p.1 p.2))
  | [], st, h, _ => ⟨st, rfl, h, Grows.refl _, [], (List.append_nil _).symm, .nil⟩
  | f :: xs, st, h, hx => by
    have hfl := hx f (by simp)
    obtain ⟨s1, r1, i1, g1, _, c1⟩ := concatF_ok hf hG hS h hfl (fun hH k x hk => ⟨f, hfl, hH, hk⟩)
    obtain ⟨s2, r2, i2, g2, new, l2, f2⟩ := concatMesh_loop hG hS xs i1 (fun x hx' => hx x (List.mem_cons_of_mem _ hx'))
    unfold loop
    rw [r1, Res.bind_ok, r2]
    refine ⟨s2, rfl, i2, g1.trans g2, ?_⟩
    rw [List.map_cons]
    rcases c1 with ⟨hno, e1⟩ | ⟨hH, l, hl, e1, gh⟩
    · refine ⟨new, by rw [l2, e1], ?_⟩
      rw [List.filter_cons_of_neg (by simpa using hno)]
      exact f2
    · refine ⟨l :: new, by rw [l2, e1, List.append_assoc]; rfl, ?_⟩
      rw [List.filter_cons_of_pos (by simpa using hH)]
      exact .cons (ghostF_grows i1.base.whole g2 (by rw [e1]; simp) (g2.fc rfl _ (by rw [e1]; simp)) gh) f2

theorem concatAll_ok (hG : Given 2 M0 subs) : ∀ (ts : List (CMesh D)) {st : QSt D}, (∀ S ∈ ts, S ∈ subs) →
    Base 2 M0 subs (InHit M0) st.M st.old → st.add = (fun _ => []) →
    ∃ st', concatAll srch (border M0) ts st = .ok st' ∧ Base 2 M0 subs (InHit M0) st'.M st'.old ∧ Grows 2 st.M st'.M ∧
      ∃ new, st'.M.F.fl = st.M.F.fl ++ new ∧ List.Forall₂ (fun l p => GhostF st'.M p.1 l p.2) new (hits M0 ts)
  | [], st, _, h, _ => ⟨st, rfl, h, Grows.refl _, [], (List.append_nil _).symm, .nil⟩
  | S :: ts, st, hs, h, ha => by
    have hS := hs S (by simp)
    obtain ⟨s1, r1, i1, g1, n1, l1, f1⟩ := concatMesh_loop hf hG hS S.F.fl (st := { st with att := fun _ _ => none })
      ⟨by
        show Base 2 M0 subs (InHit M0) st.M (fun k => st.old k ++ st.add k)
        rw [ha]
        simpa using h,
       (fun _ _ _ _ h => nomatch h), fun k _ y hy => by rw [show st.add = _ from ha] at hy; cases hy⟩ (fun _ h => h)
    obtain ⟨s2, r2, i2, g2, n2, l2, f2⟩ := concatAll_ok hG ts (st := { s1 with old := fun k => s1.old k ++ s1.add k, add := fun _ => [] })
      (fun T hT => hs T (List.mem_cons_of_mem _ hT)) i1.base rfl
    unfold concatAll concatMesh
    simp only [r1, Res.bind_ok, Res.pure_eq, r2]
    refine ⟨s2, rfl, i2, g1.trans g2, n1 ++ n2, ?_, ?_⟩
    · rw [l2]
      show s1.M.F.fl ++ n2 = _
      rw [l1, List.append_assoc]
    · have : hits M0 (S :: ts) = hits M0 [S] ++ hits M0 ts := by
        unfold hits received
        rw [List.flatMap_cons, List.filter_append, List.flatMap_singleton]
      rw [this]
      have hh : hits M0 [S] = ((S.F.fl.map fun f => (S, f)).filter fun p => @decide (Hit M0 p.1 p.2) (Classical.propDecidable _)) := by
        unfold hits received
        rw [List.flatMap_singleton]
      rw [hh]
      exact List.rel_append (ghosts_grow i1.base.whole g2 (fun l hl => by rw [l1]; exact List.mem_append_right _ hl) f1) f2

/-- **C80, partial: ghosts from the meshes received.**  The whole of the meshes received is looked at (`Given`).  The
run ends; what was in the part is as it was, but for the classification of ghosts it had; the new entities come
after the old ones.  No two vertices, no two edges have the same global ID, so what the part has already is not
made again, nor is what two meshes received have in common.  The new faces are ghosts, one for each face received
that touches the boundary of the part, in order, with the same classification, owner, global ID and the same
boundary: the same edges by global ID, going from and to the same vertices.  New vertices and edges are ghosts
of what is in these faces, with the same coordinates, classification, owner and ends.
Missing: surface meshes only; faces the part has already or that are received twice are made again
(`C80_negation_twice`). -/
theorem C80_concat_partial (hG : Given 2 M0 subs) :
    ∃ M', concatFace srch M0 subs = .ok M' ∧ Kept M0 M' ∧ (∀ f ∈ M0.F.fl, M'.F.fc f = M0.F.fc f) ∧ M'.F.rl = M0.F.rl ∧
      (M'.F.vl.length + M'.F.el.length + M'.F.fl.length + M'.F.rl.length < 2147483648 → M'.F.Sound) ∧
      Distinct M' 0 ∧ Distinct M' 1 ∧
      (∃ new, M'.F.vl = M0.F.vl ++ new ∧ ∀ y ∈ new, ∃ S ∈ subs, ∃ x ∈ S.F.vl, InHit M0 S 0 x ∧ GhostV M' S y x) ∧
      (∃ new, M'.F.el = M0.F.el ++ new ∧ ∀ y ∈ new, ∃ S ∈ subs, ∃ x ∈ S.F.el, InHit M0 S 1 x ∧ GhostE M' S y x) ∧
      (∃ new, M'.F.fl = M0.F.fl ++ new ∧ List.Forall₂ (fun l p => GhostF M' p.1 l p.2) new (hits M0 subs)) ∧
      (∀ x ∈ M0.F.vl, Retag M0 subs 0 x FMesh.vc (M'.F.vc x)) ∧ (∀ x ∈ M0.F.el, Retag M0 subs 1 x FMesh.ec (M'.F.ec x)) := by
  obtain ⟨st, r, h, _, new, l1, f1⟩ := concatAll_ok hf hG subs
    (st := { M := M0, att := fun _ _ => none, old := fun _ => [], add := fun _ => [] }) (fun _ h => h)
    ⟨whole_of hG.sound, Grows.refl _, Or.inl rfl, fun _ _ => (List.append_nil _).symm, fun _ => rfl, fun k hk => (hG.dist k hk).1,
      fun T hT => (hG.agree T hT).1, (fun h => nomatch h), (fun _ h => nomatch h), (fun _ h => nomatch h), (fun h => nomatch h), fun _ _ => Or.inl rfl,
      fun _ _ => Or.inl rfl, (fun h => nomatch h)⟩ rfl
  refine ⟨st.M, ?_, h.grows.kept, h.grows.fc rfl, h.rl rfl, h.whole.sound, h.dist 0 (by omega), h.dist 1 (by omega), ⟨_, h.list 0 (by omega), h.gv⟩,
    ⟨_, h.list 1 (by omega), h.ge⟩, ⟨new, l1, f1⟩, h.rv, h.re⟩
  unfold concatFace
  rw [r]
  rfl

end

/-- the first with the global ID -/
def firstWith (ids : Nat → Nat) (l : List Nat) (g : Nat) : Option Nat := l.find? fun x => decide (ids x = g)

theorem firstWith_finds : Send.Finds firstWith := by
  intro ids l g
  unfold firstWith
  refine ⟨fun x hx => ⟨List.mem_of_find?_eq_some hx, by simpa using List.find?_some hx⟩, fun hn x hx => ?_⟩
  simpa using List.find?_eq_none.1 hn x hx

/-- a mesh for examples with the global IDs in the lists; vertices and edges in `inside` are interior, others are
on the boundary of the part -/
def taggedC (T : Topo) (gs : List (List Nat)) (inside : List (Nat × Nat)) (owner : Nat) : CMesh Int :=
  { rangeC T with par := fun k x => ⟨if (k, x) ∈ inside then 0 else 2, owner, (gs.getD k []).getD x 0, true⟩ }

/-- a part: the triangle 1 2 3, of which only 2, 3 and the edge between them are on the boundary -/
def catM (T : Topo) : CMesh Int := taggedC T [[1, 2, 3], [1, 2, 3], [1]] [(0, 0), (1, 0), (1, 2), (2, 0)] 0
/-- received: triangles 3 4 5 and 4 5 6 -/
def catS (T : Topo) : CMesh Int := taggedC T [[3, 4, 5, 6], [4, 5, 6, 7, 8], [2, 3]] [] 1
/-- received: triangles 3 2 4 and 2 4 7 -/
def catS' (T : Topo) : CMesh Int := taggedC T [[3, 2, 4, 7], [2, 9, 4, 10, 11], [4, 5]] [] 2

/-- the global IDs of the entities of a mesh -/
def sums (M : CMesh Int) : List (List Nat) := [0, 1, 2].map fun k => (M.F.list k).map (gid M k)
/-- the boundaries of the faces of a mesh, each edge as three numbers -/
def bounds (M : CMesh Int) : List (List (List Nat)) :=
  M.F.fl.map fun f => (trace M f).map fun p => [p.1, p.2.1.getD 0, p.2.2.getD 0]

instance (M : CMesh D) (k : Nat) : Decidable (Distinct M k) :=
  inferInstanceAs (Decidable (∀ x ∈ M.F.list k, ∀ y ∈ M.F.list k, gid M k x = gid M k y → x = y))
instance (M N : CMesh D) : Decidable (Agree M N) :=
  inferInstanceAs (Decidable (∀ x ∈ M.F.el, ∀ y ∈ N.F.el, gid M 1 x = gid N 1 y →
    seg M (x, true) = seg N (y, true) ∨ seg M (x, true) = seg N (y, false)))

/-- a check of `Given` for the example -/
def givenB (T1 T2 : Topo) : Bool :=
  let M := catM T1
  let subs := [catS T2, catS' T2]
  rangeB T1 && rangeB T2 && T2.allLoopsB [[0, 1, 2], [2, 1, 3]] &&
  [0, 1].all (fun k => decide (Distinct M k) && subs.all fun S => decide (Distinct S k)) &&
  decide (∀ S ∈ subs, Agree M S ∧ ∀ S' ∈ subs, Agree S S') &&
  subs.all (fun S => [0, 1].all fun k => decide (∀ x ∈ S.F.list k, ∀ y ∈ M.F.list k, gid M k y = gid S k x → (M.par k y).ptype ≠ 0))

theorem givenB_ok {T1 T2 : Topo} (c1 : T1.Consistent) (c2 : T2.Consistent) (h : givenB T1 T2 = true) :
    Given 2 (catM T1) [catS T2, catS' T2] := by
  unfold givenB at h
  simp only [Bool.and_eq_true, decide_eq_true_iff, List.all_eq_true] at h
  obtain ⟨⟨⟨⟨⟨a, b⟩, c⟩, d⟩, e⟩, f⟩ := h
  have hk : ∀ k, k < 2 → k ∈ [0, 1] := by
    intro k hk
    match k, hk with
    | 0, _ => simp
    | 1, _ => simp
  obtain ⟨m1, _, _⟩ := rangeC_ok c1 a
  obtain ⟨m2, e2, _⟩ := rangeC_ok c2 b
  have hl := Topo.allLoopsB_sound c2 c
  have hall : ∀ S ∈ [catS T2, catS' T2], S.F = (rangeC T2).F := by
    intro S hS
    simp only [List.mem_cons, List.not_mem_nil, or_false] at hS
    rcases hS with rfl | rfl <;> rfl
  refine ⟨m1, fun S hS => by rw [hall S hS]; exact m2, fun S hS => by rw [hall S hS]; exact e2, ?_, fun k hk' => d k (hk k hk'), e,
    fun S hS k hk' => f S hS k (hk k hk')⟩
  intro S hS f hf
  rw [hall S hS] at hf ⊢
  obtain ⟨ws, hw, _⟩ := hl f ((m2.fl.2 f).1 hf)
  exact ⟨ws, hw⟩

/-- one triangle -/
def triOne : List Topo.Op := List.replicate 3 .newVertex ++ [.newFace, .setVertices 0 [0, 1, 2]]

/-- The hypotheses of C80 hold for a triangle and two meshes received. -/
example : ∃ T1 T2, Topo.empty.run triOne = .ok T1 ∧ Topo.empty.run Topo.triPair = .ok T2 ∧
    Given 2 (catM T1) [catS T2, catS' T2] ∧ ∃ M', concatFace firstWith (catM T1) [catS T2, catS' T2] = .ok M' := by
  obtain ⟨T1, h1, c1⟩ := Topo.reachable (os := triOne) (by decide +kernel)
  obtain ⟨T2, h2, c2⟩ := Topo.reachable (os := Topo.triPair) (by decide +kernel)
  have hq : Topo.answer triOne (fun T1 => Topo.answer Topo.triPair fun T2 => .ok (givenB T1 T2)) = .ok true := by decide +kernel
  unfold Topo.answer at hq
  rw [h1, Res.bind_ok, h2] at hq
  beta_reduce at hq
  rw [Res.bind_ok, Res.ok.injEq] at hq
  have hG := givenB_ok c1 c2 hq
  obtain ⟨M', r, _⟩ := C80_concat_partial firstWith_finds hG
  exact ⟨T1, T2, h1, h2, hG, M', r⟩

/-- Three faces are added: the first of the first mesh (the other one does not touch the part) and both of the second, whose
edge from 3 to 2 is that from 2 to 3 in the part and whose edge from 4 to 3 is the ghost from 3 to 4. -/
example : Topo.answer triOne (fun T1 => Topo.answer Topo.triPair fun T2 => do
      let M ← concatFace firstWith (catM T1) [catS T2, catS' T2]
      pure [sums M, M.F.fl.map (fun f => (M.par 2 f).master) :: [], [M.F.vl.map fun v => (M.par 0 v).ptype]]) =
    .ok [[[1, 2, 3, 4, 5, 7], [1, 2, 3, 4, 5, 6, 9, 10, 11], [1, 2, 4, 5]], [[0, 1, 2, 2]], [[0, 2, 2, 3, 3, 3]]] := by decide +kernel
example : Topo.answer triOne (fun T1 => Topo.answer Topo.triPair fun T2 => do
      let M ← concatFace firstWith (catM T1) [catS T2, catS' T2]
      pure (bounds M)) = .ok
        [[[1, 1, 2], [2, 2, 3], [3, 3, 1]], [[4, 3, 4], [5, 4, 5], [6, 5, 3]],
         [[2, 3, 2], [9, 2, 4], [4, 4, 3]], [[9, 4, 2], [10, 2, 7], [11, 7, 4]]] := by decide +kernel

/-- **Negation**: a face that is received twice is made twice. -/
theorem C80_negation_twice : Topo.answer triOne (fun T1 => Topo.answer Topo.triPair fun T2 => do
      let M ← concatFace firstWith (catM T1) [catS T2, catS T2]
      pure (sums M)) = .ok [[1, 2, 3, 4, 5], [1, 2, 3, 4, 5, 6], [1, 2, 2]] := by decide +kernel

/-- **Negation**: a vertex of the part that is interior is not found: there are two vertices with global ID 1. -/
theorem C80_negation_interior : Topo.answer triOne (fun T1 => Topo.answer Topo.triPair fun T2 => do
      let M ← concatFace firstWith (catM T1) [taggedC T2 [[3, 1, 5, 6], [3, 5, 6, 7, 8], [2, 3]] [] 1]
      pure (sums M)) = .ok [[1, 2, 3, 1, 5], [1, 2, 3, 3, 5, 6], [1, 2]] := by decide +kernel

end Cat
end MSTK
