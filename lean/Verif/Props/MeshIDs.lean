import Verif.MeshLemmas
/-!
C19, C20, C40, C47: IDs, lookup by ID, counts and traversal of the entities of a mesh.

Specification: the list of live entities in creation order.  Handles 0,1,2,... are given to entities in the order
they are created.
-/
namespace MSTK
namespace MeshL

/-- API calls.  `touch` stands for a deletion (or change of ID) of an entity of another kind. -/
inductive Op where
  | new
  | delete (v : Nat)
  | enable      -- MESH_Enable_LocalIDSearch
  | renumber    -- MESH_Renumber(mesh,0,..)
  | touch

def step (s : St) : Op → Res St
  | .new => MeshL.new s
  | .delete v => MeshL.delete s v
  | .enable => MeshL.enable s
  | .renumber => MeshL.renumber s
  | .touch => .ok { s with sorted := false }

def run : St → List Op → Res St
  | s, [] => .ok s
  | s, o :: os => do
    let s ← step s o
    run s os

/-- specification state: live entities, number of entities ever created -/
structure Spec where
  live : List Nat
  created : Nat

def Spec.step (p : Spec) : Op → Spec
  | .new => ⟨p.live ++ [p.created], p.created + 1⟩
  | .delete v => ⟨p.live.erase v, p.created⟩
  | _ => p

def specRun (ops : List Op) : Spec := ops.foldl Spec.step ⟨[], 0⟩

/-- only live entities are deleted -/
def Op.legal (p : Spec) : Op → Prop
  | .delete v => v ∈ p.live
  | _ => True

/-- sorted search is enabled only while there are live entities, or before any was created -/
def Op.enableOk (p : Spec) : Op → Prop
  | .enable => p.live ≠ [] ∨ p.created = 0
  | _ => True

def legal : Spec → List Op → Prop
  | _, [] => True
  | p, o :: os => o.legal p ∧ legal (p.step o) os

def enableOk : Spec → List Op → Prop
  | _, [] => True
  | p, o :: os => o.enableOk p ∧ enableOk (p.step o) os

theorem step_ok (s : St) (p : Spec) (h : Ok s p.live) (hc : s.next = p.created) (hn : s.lst = none ↔ p.created = 0) (o : Op)
    (hl : o.legal p) :
    ∃ s', step s o = .ok s' ∧ Ok s' (p.step o).live ∧ s'.next = (p.step o).created ∧
      (s'.lst = none ↔ (p.step o).created = 0) ∧
      (o.enableOk p → NoGap s → NoGap s') := by
  cases o with
  | new =>
    obtain ⟨s', a, b, c, d, e, f, _⟩ := new_ok h
    exact ⟨s', a, by rw [hc] at b; exact b, by rw [c, hc]; rfl, by simp [f, Spec.step], fun _ => d⟩
  | delete v =>
    obtain ⟨s', a, b, c, d, e, _⟩ := delete_ok h hl
    refine ⟨s', a, b, by rw [c, hc]; rfl, ?_, fun _ _ => d⟩
    simp only [e, false_iff, Spec.step]
    intro h0
    have hl' : v ∈ p.live := hl
    rw [(h.lstN (hn.mpr h0)).1] at hl'
    simp at hl'
  | enable =>
    obtain ⟨s', a, b, c, _, _, _, d, e⟩ := enable_ok h
    exact ⟨s', a, b, by rw [c, hc]; rfl, by rw [e, hn]; rfl, fun h1 h2 => d h2 (by
      rcases h1 with h1 | h1
      · exact Or.inl h1
      · exact Or.inr (hn.mpr h1))⟩
  | renumber =>
    obtain ⟨s', a, b, c, d, e, _⟩ := renumber_ok h
    exact ⟨s', a, b, by rw [c, hc]; rfl, by rw [e, hn]; rfl, fun _ => d⟩
  | touch =>
    refine ⟨{ s with sorted := false }, rfl, ⟨h.lstN, h.lst, h.nv, h.inc, h.rng, h.max0, h.lt⟩, hc, hn, fun _ _ hh => ?_⟩
    simp at hh

theorem run_ok (ops : List Op) : ∀ (s : St) (p : Spec), Ok s p.live → s.next = p.created → (s.lst = none ↔ p.created = 0) →
    legal p ops → ∃ s', run s ops = .ok s' ∧ Ok s' (ops.foldl Spec.step p).live ∧
      s'.next = (ops.foldl Spec.step p).created ∧ (enableOk p ops → NoGap s → NoGap s') := by
  induction ops with
  | nil => intro s p h hc hn _; exact ⟨s, rfl, h, hc, fun _ hg => hg⟩
  | cons o os ih =>
    intro s p h hc hn hl
    obtain ⟨s1, a, b, c, d, e⟩ := step_ok s p h hc hn o hl.1
    obtain ⟨s2, a2, b2, c2, d2⟩ := ih s1 _ b c d hl.2
    exact ⟨s2, by simp only [run, a, Res.bind_ok, a2], b2, c2, fun he hg => d2 he.2 (e he.1 hg)⟩

theorem run_init (ops : List Op) (hl : legal ⟨[], 0⟩ ops) :
    ∃ s, run init ops = .ok s ∧ Ok s (specRun ops).live ∧ s.next = (specRun ops).created ∧
      (enableOk ⟨[], 0⟩ ops → NoGap s) := by
  obtain ⟨s, a, b, c, d⟩ := run_ok ops init ⟨[], 0⟩ init_ok rfl (by simp [init]) hl
  exact ⟨s, a, b, c, fun he => d he (by intro _ l hl; simp [init] at hl)⟩

/-- **C20** After every history of creations, deletions of live entities, renumberings and sorted-search requests
(and any activity on the other kinds), no step has undefined behaviour or aborts, the count equals the number of
live entities and traversal visits exactly the live entities, once each, in creation order. -/
theorem C20_count_and_traversal (ops : List Op) (hl : legal ⟨[], 0⟩ ops) :
    ∃ s, run init ops = .ok s ∧ num s = (specRun ops).live.length ∧ traverse s = .ok (specRun ops).live ∧
      (specRun ops).live.Nodup := by
  obtain ⟨s, a, b, _, _⟩ := run_init ops hl
  exact ⟨s, a, b.nv, traverse_spec b, b.inc.nodup⟩

/-- non-vacuity: deletions through the direct and the searching path -/
example : legal ⟨[], 0⟩ [.new, .new, .new, .delete 0, .touch, .enable, .delete 2, .renumber, .new] ∧
    (specRun [.new, .new, .new, .delete 0, .touch, .enable, .delete 2, .renumber, .new]).live = [1, 3] := by
  simp [legal, Op.legal, specRun, Spec.step]

/-- **C19 (IDs)** After every such history the IDs of live entities are positive, pairwise different and increasing
in creation order; a newly created entity gets an ID larger than that of every live entity. -/
theorem C19_ids_unique (ops : List Op) (hl : legal ⟨[], 0⟩ ops) :
    ∃ s, run init ops = .ok s ∧ (specRun ops).live.Pairwise (fun a b => s.id a < s.id b) ∧
      (∀ v ∈ (specRun ops).live, 1 ≤ s.id v) ∧
      ∃ s', step s .new = .ok s' ∧ ∀ v ∈ (specRun ops).live, s'.id v = s.id v ∧ s.id v < s'.id (specRun ops).created := by
  obtain ⟨s, a, b, c, _⟩ := run_init ops hl
  refine ⟨s, a, b.inc, fun v hv => (b.rng v hv).1, ?_⟩
  obtain ⟨s', a', b', c', d', e', f', g', h', _⟩ := new_ok b
  refine ⟨s', a', fun v hv => ?_⟩
  have hlt := b.lt v hv
  rw [← c, h', g' v (by omega)]
  exact ⟨rfl, by have := (b.rng v hv).2; omega⟩

/-- **C19 (lookup, partial)** If in addition sorted search is only requested while live entities exist (or before
any was created), looking up any number returns the live entity with that ID, and NULL if no live entity has it.
Missing: the two situations of `C19_lookup_negation` and `C19_lookup_crash`. -/
theorem C19_lookup_partial (ops : List Op) (hl : legal ⟨[], 0⟩ ops) (he : enableOk ⟨[], 0⟩ ops) (k : Int) :
    ∃ s, run init ops = .ok s ∧ ∃ o, fromID s k = .ok o ∧
      (∀ v, o = some v ↔ v ∈ (specRun ops).live ∧ s.id v = k) := by
  obtain ⟨s, a, b, c, d⟩ := run_init ops hl
  refine ⟨s, a, _, fromID_spec b (d he) k, fun v => ?_⟩
  constructor
  · intro hv
    have h1 := List.find?_some hv
    exact ⟨List.mem_of_find?_eq_some hv, by simpa using h1⟩
  · rintro ⟨h1, h2⟩
    cases hf : (specRun ops).live.find? (fun w => decide (s.id w = k)) with
    | none =>
      rw [List.find?_eq_none] at hf
      exact absurd h2 (by simpa using hf v h1)
    | some w =>
      have hw := List.find?_some hf
      simp only [decide_eq_true_eq] at hw
      rw [b.inc.inj (List.mem_of_find?_eq_some hf) h1 (by rw [hw, h2])]

/-- non-vacuity: lookups by position, by binary and by linear search -/
example : legal ⟨[], 0⟩ [.new, .new, .new, .delete 0, .enable, .new] ∧
    enableOk ⟨[], 0⟩ [.new, .new, .new, .delete 0, .enable, .new] ∧
    (match run init [.new, .new, .new, .delete 0, .enable, .new] with
      | .ok s => (s.sorted, fromID s 2, fromID s 4, fromID s 1)
      | _ => (false, .ub, .ub, .ub)) = (true, .ok (some 1), .ok (some 3), .ok none) := by
  refine ⟨by simp [legal, Op.legal, Spec.step], by simp [enableOk, Op.enableOk, Spec.step], by decide +kernel⟩

/-- **C19 (crash)** Sorted search requested on a mesh whose entities of the kind have all been deleted leaves the
list with gaps but flagged sorted: after creating one more vertex, looking up its ID dereferences NULL. -/
theorem C19_lookup_crash :
    legal ⟨[], 0⟩ [.new, .new, .new, .delete 0, .enable, .delete 1, .delete 2, .enable, .new] ∧
    (match run init [.new, .new, .new, .delete 0, .enable, .delete 1, .delete 2, .enable, .new] with
      | .ok s => (s.id 3, fromID s 4)
      | _ => (0, .ok none)) = (4, .ub) := by
  refine ⟨by simp [legal, Op.legal, Spec.step], by decide +kernel⟩

/-- **C19 (negation with restoration)** Delete a vertex keeping it, request sorted search, restore it: the vertex is
live again with ID 1, but lookup of ID 1 reports that no such vertex exists. -/
theorem C19_lookup_negation :
    (match run init [.new, .new, .new, .delete 0, .enable] with
      | .ok s => (match MeshL.restore s 0 with
        | .ok s => (traverse s, s.id 0, fromID s 1)
        | _ => (.ub, 0, .ub))
      | _ => (.ub, 0, .ub)) = (.ok [1, 2, 0], 1, .ok none) := by decide +kernel

/-- **C40** After sequential renumbering of a mesh reached by any such history, the entities in traversal order have
IDs 1, 2, ..., n, looking up ID i returns the i-th of them and any other number returns NULL. -/
theorem C40_sequential_renumber (ops : List Op) (hl : legal ⟨[], 0⟩ ops) (he : enableOk ⟨[], 0⟩ ops) :
    ∃ s s', run init ops = .ok s ∧ renumber s = .ok s' ∧ traverse s' = traverse s ∧
      (∀ (i : Nat) v, (specRun ops).live[i]? = some v → s'.id v = i + 1 ∧ fromID s' (i + 1) = .ok (some v)) ∧
      (∀ k : Int, k < 1 ∨ k > (specRun ops).live.length → fromID s' k = .ok none) := by
  obtain ⟨s, a, b, c, d⟩ := run_init ops hl
  obtain ⟨s', a', b', c', d', e', f', g', h', i', j'⟩ := renumber_ok b
  refine ⟨s, s', a, a', by rw [traverse_spec b', traverse_spec b], ?_, ?_⟩
  · intro i v hi
    refine ⟨f' i v hi, ?_⟩
    rw [fromID_spec b' (d' (d he))]
    have hv : v ∈ (specRun ops).live := List.mem_iff_getElem?.mpr ⟨i, hi⟩
    cases hf : (specRun ops).live.find? (fun w => decide (s'.id w = i + 1)) with
    | none =>
      rw [List.find?_eq_none] at hf
      exact absurd (f' i v hi) (by simpa using hf v hv)
    | some w =>
      have hw := List.find?_some hf
      simp only [decide_eq_true_eq] at hw
      rw [b'.inc.inj (List.mem_of_find?_eq_some hf) hv (by rw [hw, f' i v hi])]
  · intro k hk
    rw [fromID_spec b' (d' (d he))]
    congr 1
    rw [List.find?_eq_none]
    intro w hw hwk
    simp only [decide_eq_true_eq] at hwk
    have := b'.rng w hw
    rw [h'] at this
    omega

example : (match run init [.new, .new, .new, .delete 0] with
    | .ok s => (match renumber s with
      | .ok s => (s.id 1, s.id 2, fromID s 1, fromID s 2, fromID s 3)
      | _ => (0, 0, .ub, .ub, .ub))
    | _ => (0, 0, .ub, .ub, .ub)) = (1, 2, .ok (some 1), .ok (some 2), .ok none) := by decide +kernel

/-- **C47 (negation)** A vertex that was deleted (and kept) and restored cannot be deleted again: the list is no
longer in ID order, and the removal reads an uninitialised variable. -/
theorem C47_delete_restored_negation :
    (match run init [.new, .new, .new, .delete 0] with
      | .ok s => (match MeshL.restore s 0 with
        | .ok s => MeshL.delete s 0
        | _ => .fatal)
      | _ => .fatal) matches .ub := by decide +kernel

/-- **C47 (partial)** If the entity is the most recently created live one, deleting (keeping) and restoring it makes
it live again with its old ID, and it can be deleted again, giving back the other live entities; all without
undefined behaviour. -/
theorem C47_delete_restored_partial (ops : List Op) (hl : legal ⟨[], 0⟩ ops) (v : Nat) (others : List Nat)
    (hv : (specRun ops).live = others ++ [v]) :
    ∃ s s1 s2 s3, run init ops = .ok s ∧ delete s v = .ok s1 ∧ restore s1 v = .ok s2 ∧ delete s2 v = .ok s3 ∧
      s2.id v = s.id v ∧ traverse s1 = .ok others ∧ traverse s2 = .ok (others ++ [v]) ∧ traverse s3 = .ok others := by
  obtain ⟨s, a, b, c, _⟩ := run_init ops hl
  rw [hv] at b
  have hnd := b.inc.nodup
  have hno : v ∉ others := by
    intro h
    rw [List.nodup_append] at hnd
    exact hnd.2.2 v h v (by simp) rfl
  have her : (others ++ [v]).erase v = others := by
    rw [List.erase_append_right _ hno]; simp
  obtain ⟨s1, d1, d2, d3, _, _, d4, d5⟩ := delete_ok b (v := v) (by simp)
  rw [her] at d2
  have hbound : ∀ w ∈ others, s1.id w < s1.id v := by
    intro w hw
    have := b.inc
    unfold Incr at this
    rw [List.pairwise_append] at this
    rw [d4]; exact this.2.2 w hw v (by simp)
  have hr := b.rng v (by simp)
  obtain ⟨s2, e1, e2, e3⟩ := restore_ok d2 v hbound (by rw [d4]; omega) (by rw [d4, d5]; omega) (by
    rw [d3]; exact b.lt v (by simp))
  obtain ⟨s3, f1, f2, _⟩ := delete_ok e2 (v := v) (by simp)
  rw [her] at f2
  exact ⟨s, s1, s2, s3, a, d1, e1, f1, by rw [e3, d4], traverse_spec d2, traverse_spec e2, traverse_spec f2⟩

example : legal ⟨[], 0⟩ [.new, .new, .delete 0, .new] ∧ (specRun [.new, .new, .delete 0, .new]).live = [1] ++ [2] := by
  simp [legal, Op.legal, specRun, Spec.step]

end MeshL
end MSTK
