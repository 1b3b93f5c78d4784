import Verif.RefineModel
import Verif.BuildLemmas
import Mathlib.Data.List.Flatten

/-!
The new vertices made by `MESH_Tri2Quad` and `MESH_Tet2Hex` and their numbers (for C70 and C71).
-/
namespace MSTK
namespace Topo

/-- An entity of the old mesh. -/
inductive Node where
  | v (x : Nat)
  | e (x : Nat)
  | f (x : Nat)
  | r (x : Nat)
deriving DecidableEq

/-- The number of the new vertex for an entity of the old mesh: first come the vertices, then the edges,
then the faces, then the regions, each in the order of the old mesh. -/
def place (vl el fl rl : List Nat) : Node → Nat
  | .v x => vl.idxOf x
  | .e x => vl.length + el.idxOf x
  | .f x => vl.length + el.length + fl.idxOf x
  | .r x => vl.length + el.length + fl.length + rl.idxOf x

/-- The entity is in the list of its kind. -/
def Node.In (vl el fl rl : List Nat) : Node → Prop
  | .v x => x ∈ vl
  | .e x => x ∈ el
  | .f x => x ∈ fl
  | .r x => x ∈ rl

theorem place_inj {vl el fl rl : List Nat} {p q : Node} (hp : p.In vl el fl rl) (hq : q.In vl el fl rl)
    (h : place vl el fl rl p = place vl el fl rl q) : p = q := by
  cases p <;> cases q <;> simp only [Node.In, place] at hp hq h
  all_goals
    have hi := List.idxOf_lt_length_of_mem hp
    have hj := List.idxOf_lt_length_of_mem hq
    first
      | (exfalso; omega)
      | (congr 1; exact (List.idxOf_inj hp).1 (by omega))

theorem place_lt {vl el fl rl : List Nat} {p : Node} (hp : p.In vl el fl rl) :
    place vl el fl rl p < vl.length + el.length + fl.length + rl.length := by
  cases p <;> simp only [Node.In, place] at hp ⊢
  all_goals
    have hi := List.idxOf_lt_length_of_mem hp
    omega

/-! ### the loops making the vertices -/

theorem addPoints_ok {pt : Nat → Res (Option (List Nat))} {cls : Nat → Nat × Nat} {g : Nat → List Nat} :
    ∀ (xs : List Nat) (S : Conv) (m : Nat → Option Nat), xs.Nodup → (∀ x ∈ xs, pt x = .ok (some (g x))) →
    ∃ m', addPoints pt cls xs S m =
        .ok (some (⟨addVerts xs.length S.T, S.pts ++ xs.map g, S.vcls ++ xs.map cls, S.cells⟩, m')) ∧
      (∀ x ∈ xs, m' x = some (S.T.nv + xs.idxOf x)) ∧ ∀ x, x ∉ xs → m' x = m x := by
  intro xs
  induction xs with
  | nil =>
    intro S m _ _
    refine ⟨m, ?_, by simp, fun _ _ => rfl⟩
    simp [addPoints, addVerts]
  | cons x xs ih =>
    intro S m hn hp
    rw [List.nodup_cons] at hn
    obtain ⟨m', h1, h2, h3⟩ := ih (S.addPoint (g x) (cls x)).1 (upd m x (some S.T.nv)) hn.2
      (fun y hy => hp y (by simp [hy]))
    refine ⟨m', ?_, ?_, ?_⟩
    · rw [addPoints, hp x (by simp), Res.bind_ok]
      dsimp only
      rw [show (S.addPoint (g x) (cls x)).2 = S.T.nv from rfl, h1]
      simp [Conv.addPoint, addVerts]
    · intro y hy
      by_cases hyx : y = x
      · subst hyx
        rw [h3 y hn.1, upd_same, List.idxOf_cons_self]
        rfl
      · rcases List.mem_cons.1 hy with hy | hy
        · exact absurd hy hyx
        · rw [h2 y hy, List.idxOf_cons_ne _ (fun h => hyx h.symm)]
          show some (S.T.nv + 1 + _) = _
          congr 1; omega
    · intro y hy
      rw [List.mem_cons, not_or] at hy
      rw [h3 y hy.2, upd_ne _ _ hy.1]

theorem addVerts_nv : ∀ (n : Nat) (T : Topo), (addVerts n T).nv = T.nv + n
  | 0, _ => rfl
  | n+1, T => by
    rw [addVerts, addVerts_nv n]
    show T.nv + 1 + n = _
    omega

/-- When an entity is refused nothing is returned. -/
theorem addPoints_refused {pt : Nat → Res (Option (List Nat))} {cls : Nat → Nat × Nat} :
    ∀ (xs : List Nat) (S : Conv) (m : Nat → Option Nat), (∀ x ∈ xs, ∃ o, pt x = .ok o) → (∃ x ∈ xs, pt x = .ok none) →
    addPoints pt cls xs S m = .ok none := by
  intro xs
  induction xs with
  | nil => intro S m _ h; simp at h
  | cons x xs ih =>
    intro S m h1 ⟨y, hy, h2⟩
    obtain ⟨o, ho⟩ := h1 x (by simp)
    rw [addPoints, ho, Res.bind_ok]
    cases o with
    | none => rfl
    | some ps =>
      refine ih _ _ (fun z hz => h1 z (by simp [hz])) ⟨y, ?_, h2⟩
      rcases List.mem_cons.1 hy with rfl | hy
      · rw [ho] at h2; cases h2
      · exact hy

theorem coordsOf_ok {T : Topo} : ∀ (vs : List Nat), (∀ v ∈ vs, T.sv v = .live) → T.coordsOf (vs.map some) = .ok vs := by
  intro vs
  induction vs with
  | nil => intro _; rfl
  | cons v vs ih =>
    intro h
    rw [List.map_cons, coordsOf, Res.ofOption_some, Res.bind_ok, derefV_ok (alloc_of_live (h v (by simp))), Res.bind_ok,
      ih (fun w hw => h w (by simp [hw])), Res.bind_ok]
    rfl

theorem pickAll_ok {a : List (Option Nat)} {α : Type} {ns : List α} {P : α → Nat} (ha : a = ns.map fun n => some (P n)) :
    ∀ (row : List Nat) (qs : List α), row.map (ns[·]?) = qs.map some → pickAll a row = .ok (qs.map P) := by
  intro row
  induction row with
  | nil =>
    intro qs h
    cases qs with
    | nil => rfl
    | cons q qs => simp at h
  | cons i row ih =>
    intro qs h
    cases qs with
    | nil => simp at h
    | cons q qs =>
      rw [List.map_cons, List.map_cons, List.cons.injEq] at h
      rw [pickAll, ih qs h.2, ha, List.getElem?_map, h.1]
      rfl

/-- What a converted mesh remembers of its vertices: for every entity of the old mesh the new vertex lies at
the mean of the right old vertices and is classified as the entity. -/
structure Points (T : Topo) (G : ModelCls) (vl el fl rl : List Nat) (S : Conv) : Prop where
  count : S.pts.length = vl.length + el.length + fl.length + rl.length ∧ S.vcls.length = S.pts.length
  vertex : ∀ x ∈ vl, S.pts[place vl el fl rl (.v x)]? = some [x] ∧ S.vcls[place vl el fl rl (.v x)]? = some (G.v x)
  edge : ∀ x ∈ el, ∃ a b, T.meVertex x false = .ok (some a) ∧ T.meVertex x true = .ok (some b) ∧
    S.pts[place vl el fl rl (.e x)]? = some [a, b] ∧ S.vcls[place vl el fl rl (.e x)]? = some (G.e x)
  face : ∀ x ∈ fl, ∃ vs : List Nat, T.mfVertices x true none = .ok (vs.map some) ∧
    S.pts[place vl el fl rl (.f x)]? = some vs ∧ S.vcls[place vl el fl rl (.f x)]? = some (G.f x)
  region : ∀ x ∈ rl, ∃ vs : List Nat, T.mrVertices x = .ok (some (vs.map some)) ∧
    S.pts[place vl el fl rl (.r x)]? = some vs ∧ S.vcls[place vl el fl rl (.r x)]? = some (G.r x)

theorem at_idx {α : Type} {vl : List Nat} {g : Nat → α} {x : Nat} (hx : x ∈ vl) {A B : List α} {n : Nat} (hn : A.length = n) :
    (A ++ (vl.map g ++ B))[n + vl.idxOf x]? = some (g x) := by
  have hi := List.idxOf_lt_length_of_mem hx
  rw [List.getElem?_append_right (by omega), List.getElem?_append_left (by rw [List.length_map]; omega), List.getElem?_map,
    show n + vl.idxOf x - A.length = vl.idxOf x by omega, List.getElem?_eq_getElem hi]
  simp

theorem vertexPt_ok {T : Topo} {v : Nat} (h : T.sv v = .live) : T.vertexPt v = .ok (some [v]) := by
  unfold vertexPt
  rw [derefV_ok (alloc_of_live h)]
  rfl

/-- the ends of an edge -/
theorem edgePt_ok {T : Topo} (h : T.Consistent) {e : Nat} (he : T.se e = .live)
    (hb : ∃ a b, T.EdgeHas e a ∧ T.EdgeHas e b ∧ T.ev e = (some a, some b)) :
    ∃ a b, T.meVertex e false = .ok (some a) ∧ T.meVertex e true = .ok (some b) ∧ T.edgePt e = .ok (some [a, b]) := by
  obtain ⟨a, b, h1, h2, h3⟩ := hb
  have k1 : T.meVertex e false = .ok (some a) := by rw [meVertex_ok (alloc_of_live he), h3]; rfl
  have k2 : T.meVertex e true = .ok (some b) := by rw [meVertex_ok (alloc_of_live he), h3]; rfl
  refine ⟨a, b, k1, k2, ?_⟩
  have hva : T.sv a = .live := h.ve.down e a he (EdgeHas_iff.1 h1).2
  have hvb : T.sv b = .live := h.ve.down e b he (EdgeHas_iff.1 h2).2
  unfold edgePt
  rw [k1, Res.bind_ok, k2, Res.bind_ok]
  rw [show [some a, some b] = [a, b].map some from rfl, coordsOf_ok [a, b] (by simp [hva, hvb]), Res.bind_ok]
  rfl

end Topo
end MSTK
