import Verif.GhostSteps
/-!
C66: the ghost, overlap and interior entities of a partition.
C67: the search by global ID.
-/
namespace MSTK
namespace Ghost
open CList

/-! ## C66 -/

/-- **C66 (lists)** After every legal history no step has failed, the traversal of each kind gives its live entities in
creation order and, if the ghost lists were built since labels and global IDs were last set, the traversal of its ghost
(overlap) entities gives exactly the live entities with this label, once each, in increasing order of global ID, and
their number is reported. -/
theorem C66_lists (ops : List Op) (hl : legal (fun _ => .init) ops) :
    ∃ m, M.init.run ops = .ok m ∧ ∀ i, MeshL.traverse (m.k i).base = .ok (specRun ops i).live ∧
      ((specRun ops i).fresh = true →
        (∃ es, listed (m.k i).gh = .ok es ∧ es.Perm ((specRun ops i).labelled .ghost) ∧
          (es.Pairwise fun x y => (specRun ops i).gid x ≤ (specRun ops i).gid y) ∧ numIn (m.k i).gh = es.length) ∧
        (∃ es, listed (m.k i).ov = .ok es ∧ es.Perm ((specRun ops i).labelled .overlap) ∧
          (es.Pairwise fun x y => (specRun ops i).gid x ≤ (specRun ops i).gid y) ∧ numIn (m.k i).ov = es.length)) := by
  obtain ⟨m, e, h⟩ := run_init ops hl
  refine ⟨m, e, fun i => ⟨MeshL.traverse_spec (h.k i).base, fun hf => ⟨?_, ?_⟩⟩⟩
  · obtain ⟨es, a, b, c, d⟩ := ((h.k i).gh hf).listed
    exact ⟨es, a, b, c, by rw [d, b.length_eq]⟩
  · obtain ⟨es, a, b, c, d⟩ := ((h.k i).ov hf).listed
    exact ⟨es, a, b, c, by rw [d, b.length_eq]⟩

/-- **C66 (counting interior entities, partial)** If a kind has ghost and overlap entities, the number of interior
entities reported is the number of live entities that are neither.  Missing: `C66_negation_num_interior`. -/
theorem C66_num_interior_partial (ops : List Op) (hl : legal (fun _ => .init) ops) (i : Fin 4)
    (hf : (specRun ops i).fresh = true) (hg : (specRun ops i).labelled .ghost ≠ [])
    (ho : (specRun ops i).labelled .overlap ≠ []) :
    ∃ m, M.init.run ops = .ok m ∧ (m.k i).numInterior = .ok
      ((specRun ops i).live.filter fun v => (specRun ops i).pt v = .interior ∨ (specRun ops i).pt v = .boundary).length := by
  obtain ⟨m, e, h⟩ := run_init ops hl
  have hk := h.k i
  refine ⟨m, e, ?_⟩
  have hgh := hk.gh hf
  have hov := hk.ov hf
  unfold St.numInterior
  cases h1 : (m.k i).base.lst with
  | none =>
    have := (hk.base.lstN h1).1
    unfold KSpec.labelled at hg
    rw [this] at hg; simp at hg
  | some l =>
    obtain ⟨hI, hA⟩ := hk.base.lst l h1
    cases h2 : (m.k i).gh with
    | none => rw [h2] at hgh; exact absurd hgh hg
    | some g =>
      cases h3 : (m.k i).ov with
      | none => rw [h3] at hov; exact absurd hov ho
      | some o =>
        rw [h2] at hgh
        rw [h3] at hov
        simp only [Res.ok.injEq]
        have n1 : l.numEntries = (specRun ops i).live.length := by rw [← hA]; exact hI.cnt.symm
        have n2 : g.numEntries = ((specRun ops i).labelled .ghost).length := by
          rw [← hgh.2.1.length_eq]; exact hgh.1.cnt.symm
        have n3 : o.numEntries = ((specRun ops i).labelled .overlap).length := by
          rw [← hov.2.1.length_eq]; exact hov.1.cnt.symm
        rw [n1, n2, n3]
        unfold KSpec.labelled
        generalize (specRun ops i).live = L
        generalize (specRun ops i).pt = f
        induction L with
        | nil => rfl
        | cons a L ih =>
          cases hc : f a <;> simp_all <;> omega

/-- the first `n` results of calling `MESH_Next_InteriorVertex` again and again -/
def St.firstInterior (s : St) : Nat → Nat → Res (List Nat)
  | 0, _ => .ok []
  | n+1, idx => do
    match ← s.nextInterior idx with
    | none => pure []
    | some (v, idx) => do pure (v :: (← s.firstInterior n idx))

theorem nextInteriorLoop_spec {l : CList Nat} (h : l.Inv) (pt : Nat → PT) (fuel : Nat) : ∀ (pre rest : List (Option Nat)),
    l.slots = pre ++ rest → rest.length < fuel →
    match (rest.filterMap _root_.id).filter (fun v => pt v = .interior) with
    | [] => nextInteriorLoop l pt fuel pre.length = .ub
    | a :: t => ∃ pre' post, l.slots = pre' ++ post ∧ nextInteriorLoop l pt fuel pre.length = .ok (a, pre'.length) ∧
        ((post.filterMap _root_.id).filter fun v => pt v = .interior) = t := by
  induction fuel with
  | zero => intro _ _ _ hf; omega
  | succ fuel ih =>
    intro pre rest hs hf
    unfold nextInteriorLoop
    rcases next_spec h hs with ⟨h1, h2⟩ | ⟨m, a, post, h1, h2, h3⟩
    · rw [h1, h2]; rfl
    · rw [h3]
      simp only [Res.bind_ok]
      have hr : rest.filterMap _root_.id = a :: post.filterMap _root_.id := by
        rw [h1, List.filterMap_append, h2]; rfl
      have hlen : (pre ++ m ++ [some a]).length = pre.length + m.length + 1 := by simp; omega
      have hs' : l.slots = (pre ++ m ++ [some a]) ++ post := by rw [hs, h1]; simp
      rw [hr]
      by_cases ha : pt a = .interior
      · rw [List.filter_cons_of_pos (by simpa using ha), if_pos ha]
        exact ⟨_, post, hs', by rw [hlen]; rfl, rfl⟩
      · rw [List.filter_cons_of_neg (by simpa using ha), if_neg ha, ← hlen]
        exact ih _ _ hs' (by rw [h1] at hf; simp at hf; omega)

/-- **C66 (interior entities, partial)** As many calls as there are interior entities give exactly the interior entities,
in creation order.  Missing: the call after the last of them, see `C66_negation_next_interior`. -/
theorem C66_next_interior_partial (ops : List Op) (hl : legal (fun _ => .init) ops) (i : Fin 4) :
    ∃ m, M.init.run ops = .ok m ∧ (m.k i).firstInterior ((specRun ops i).labelled .interior).length 0 =
      .ok ((specRun ops i).labelled .interior) := by
  obtain ⟨m, e, h⟩ := run_init ops hl
  have hk := h.k i
  refine ⟨m, e, ?_⟩
  cases h1 : (m.k i).base.lst with
  | none =>
    have := (hk.base.lstN h1).1
    have : (specRun ops i).labelled .interior = [] := by unfold KSpec.labelled; rw [this]; rfl
    rw [this]; rfl
  | some l =>
    obtain ⟨hI, hA⟩ := hk.base.lst l h1
    have key : ∀ (t : List Nat) (pre rest : List (Option Nat)), l.slots = pre ++ rest →
        ((rest.filterMap _root_.id).filter fun v => (m.k i).pt v = .interior) = t →
        (m.k i).firstInterior t.length pre.length = .ok t := by
      intro t
      induction t with
      | nil => intro pre rest _ _; rfl
      | cons a t ih =>
        intro pre rest hs ht
        have hsp := nextInteriorLoop_spec hI (m.k i).pt (l.ntot + 1) pre rest hs (by
          rw [hI.ntot, hs, List.length_append]; omega)
        rw [ht] at hsp
        obtain ⟨pre', post, p1, p2, p3⟩ := hsp
        simp only [List.length_cons, St.firstInterior, St.nextInterior, h1, p2, Res.bind_ok, Res.pure_eq]
        rw [ih pre' post p1 p3]
        rfl
    have := key ((specRun ops i).labelled .interior) [] l.slots rfl (by
      unfold KSpec.labelled
      rw [hk.pt, ← hA]; rfl)
    exact this

/-- **C66 (interior entities, negation)** Whatever the history, once an entity of a kind was created a loop over its
interior entities reads through a NULL pointer when it should end. -/
theorem C66_negation_next_interior (ops : List Op) (hl : legal (fun _ => .init) ops) (i : Fin 4)
    (hc : (specRun ops i).created ≠ 0) :
    ∃ m, M.init.run ops = .ok m ∧ ∀ fuel, (specRun ops i).live.length < fuel → (m.k i).interiorFrom fuel 0 = .ub := by
  obtain ⟨m, e, h⟩ := run_init ops hl
  have hk := h.k i
  refine ⟨m, e, fun fuel hfuel => ?_⟩
  have hn : (m.k i).base.lst ≠ none := fun hh => hc (hk.lst.mp hh)
  obtain ⟨l, h1⟩ := Option.ne_none_iff_exists'.mp hn
  obtain ⟨hI, hA⟩ := hk.base.lst l h1
  have key : ∀ (t : List Nat) (pre rest : List (Option Nat)) (fuel : Nat), t.length < fuel → l.slots = pre ++ rest →
      ((rest.filterMap _root_.id).filter fun v => (m.k i).pt v = .interior) = t →
      (m.k i).interiorFrom fuel pre.length = .ub := by
    intro t
    induction t with
    | nil =>
      intro pre rest fuel hf hs ht
      have hsp := nextInteriorLoop_spec hI (m.k i).pt (l.ntot + 1) pre rest hs (by
        rw [hI.ntot, hs, List.length_append]; omega)
      rw [ht] at hsp
      cases fuel with
      | zero => simp at hf
      | succ fuel => simp only [St.interiorFrom, St.nextInterior, h1, hsp, Res.bind_ub]
    | cons a t ih =>
      intro pre rest fuel hf hs ht
      have hsp := nextInteriorLoop_spec hI (m.k i).pt (l.ntot + 1) pre rest hs (by
        rw [hI.ntot, hs, List.length_append]; omega)
      rw [ht] at hsp
      obtain ⟨pre', post, p1, p2, p3⟩ := hsp
      cases fuel with
      | zero => simp at hf
      | succ fuel =>
        simp only [St.interiorFrom, St.nextInterior, h1, p2, Res.bind_ok, Res.pure_eq]
        rw [ih pre' post fuel (by simp at hf; omega) p1 p3]
        rfl
  refine key _ [] l.slots fuel ?_ rfl rfl
  refine Nat.lt_of_le_of_lt (List.length_filter_le _ _) ?_
  have : l.slots.filterMap _root_.id = (specRun ops i).live := hA
  rw [this]; exact hfuel

theorem look_spec {o : Option (CList Nat)} {g : Nat → Int} {L : List Nat} (h : Keeps o g L) (k : Int) :
    ∃ r, lookIn g k o = .ok r ∧
      (∀ v, r = some v → v ∈ L ∧ g v = k) ∧ (r = none → ∀ v ∈ L, g v ≠ k) := by
  cases o with
  | none => exact ⟨none, rfl, by simp, fun _ v hv => by rw [show L = [] from h] at hv; simp at hv⟩
  | some l =>
    have := MeshL.linSearch_spec h.1 g k (l.ntot + 1) [] l.slots rfl (by rw [h.1.ntot]; omega)
    refine ⟨_, this, fun v hv => ?_, fun hn v hv => ?_⟩
    · have h1 := List.find?_some hv
      exact ⟨h.2.1.mem_iff.mp (List.mem_of_find?_eq_some hv), by simpa using h1⟩
    · rw [List.find?_eq_none] at hn
      simpa using hn v (h.2.1.mem_iff.mpr hv)

/-- **C66 (search among shared entities)** While the ghost lists are up to date, the search by global ID among the
shared entities gives NULL exactly if no live ghost or overlap entity has the number, and otherwise one that has it. -/
theorem C66_shared_by_global_id (ops : List Op) (hl : legal (fun _ => .init) ops) (i : Fin 4)
    (hf : (specRun ops i).fresh = true) (k : Int) :
    ∃ m o, M.init.run ops = .ok m ∧ (m.k i).ghostFromGID k = .ok o ∧
      (∀ v, o = some v → v ∈ (specRun ops i).live ∧ (specRun ops i).gid v = k ∧
        ((specRun ops i).pt v = .ghost ∨ (specRun ops i).pt v = .overlap)) ∧
      (o = none → ∀ v ∈ (specRun ops i).live, (specRun ops i).gid v = k →
        (specRun ops i).pt v ≠ .ghost ∧ (specRun ops i).pt v ≠ .overlap) := by
  obtain ⟨m, e, h⟩ := run_init ops hl
  have hk := h.k i
  obtain ⟨r, a1, a2, a3⟩ := look_spec (hk.gh hf) k
  obtain ⟨r', b1, b2, b3⟩ := look_spec (hk.ov hf) k
  have hlab : ∀ t v, v ∈ (specRun ops i).labelled t ↔ v ∈ (specRun ops i).live ∧ (specRun ops i).pt v = t := fun t v => by
    unfold KSpec.labelled; simp
  rw [← hk.gid] at a1 b1
  have hrun : (m.k i).ghostFromGID k = .ok (if r.isSome then r else r') := by
    unfold St.ghostFromGID
    simp only [a1, b1, Res.bind_ok, Res.pure_eq]
    split <;> rfl
  refine ⟨m, _, e, hrun, fun v hv => ?_, fun hn v hv hgv => ?_⟩
  · cases r with
    | some w =>
      obtain ⟨x, y⟩ := a2 v (by simpa using hv)
      rw [hlab] at x
      exact ⟨x.1, y, Or.inl x.2⟩
    | none =>
      obtain ⟨x, y⟩ := b2 v (by simpa using hv)
      rw [hlab] at x
      exact ⟨x.1, y, Or.inr x.2⟩
  · cases r with
    | some w => simp at hn
    | none =>
      exact ⟨fun hp => a3 rfl v ((hlab _ _).mpr ⟨hv, hp⟩) hgv, fun hp => b3 (by simpa using hn) v ((hlab _ _).mpr ⟨hv, hp⟩) hgv⟩

/-- checking a run by evaluating it -/
theorem of_then {α : Type} {r : Res α} {P : α → Prop} [DecidablePred P]
    (h : (match r with | .ok a => decide (P a) | _ => false) = true) : ∃ a, r = .ok a ∧ P a := by
  cases r with
  | ok a => exact ⟨a, rfl, of_decide_eq_true h⟩
  | ub => simp at h
  | fatal => simp at h
  | hang => simp at h

/-- non-vacuity: two ghosts, an overlap and two interior vertices; a ghost and an interior vertex deleted -/
def someShared : List Op :=
  [.new 0, .new 0, .new 0, .new 0, .new 0, .setGID 0 0 50, .setGID 0 1 40, .setGID 0 2 30, .setGID 0 3 20,
   .setGID 0 4 10, .setPT 0 1 .ghost, .setPT 0 2 .overlap, .setPT 0 3 .ghost, .setPT 0 4 .ghost, .new 2, .build 3,
   .delete 0 3 false, .delete 0 0 true, .new 0]

example : legal (fun _ => .init) someShared ∧ (specRun someShared 0).fresh = true ∧
    (specRun someShared 0).labelled .ghost = [1, 4] ∧ (specRun someShared 0).labelled .overlap = [2] ∧
    (specRun someShared 0).created ≠ 0 :=
  ⟨legalB_sound _ _ (by decide +kernel), by decide +kernel⟩

example : (∃ m, M.init.run someShared = .ok m ∧
      listed (m.k 0).gh = .ok [4, 1] ∧ listed (m.k 0).ov = .ok [2] ∧ numIn (m.k 0).gh = 2 ∧
        (m.k 0).numInterior = .ok 1 ∧ (m.k 0).ghostFromGID 30 = .ok (some 2) ∧ (m.k 0).ghostFromGID 20 = .ok none ∧
        (m.k 0).firstInterior 1 0 = .ok [5]) := of_then (by decide +kernel)

/-- **C66 (negation)** In a mesh without ghost entities the number of interior entities cannot be asked for: the NULL
ghost list is read. -/
theorem C66_negation_num_interior : legal (fun _ => .init) [.new 0, .build 2] ∧
    (∃ m, M.init.run [.new 0, .build 2] = .ok m ∧
      (m.k 0).numInterior = .ub) := ⟨legalB_sound _ _ (by decide +kernel), of_then (by decide +kernel)⟩

/-- **C66 (negation)** A ghost entity that was deleted and restored is a ghost again but no entity of the mesh. -/
theorem C66_negation_restored_ghost :
    legal (fun _ => .init) [.new 0, .setPT 0 0 .ghost, .build 2, .delete 0 0 true] ∧
    ∃ s, (M.init.run [.new 0, .setPT 0 0 .ghost, .build 2, .delete 0 0 true] >>= fun m => (m.k 0).restore 0) = .ok s ∧
      listed s.gh = .ok [0] ∧ MeshL.traverse s.base = .ok [] := ⟨legalB_sound _ _ (by decide +kernel), of_then (by decide +kernel)⟩

/-- **C66 (negation)** An overlap entity that was deleted and restored is in the mesh but missing among the overlap
entities, and deleting it again reads an uninitialised variable. -/
theorem C66_negation_restored_overlap :
    legal (fun _ => .init) [.new 0, .new 0, .setPT 0 0 .overlap, .setPT 0 1 .overlap, .setGID 0 1 1, .build 2,
      .delete 0 1 true] ∧
    ∃ s, (M.init.run [.new 0, .new 0, .setPT 0 0 .overlap, .setPT 0 1 .overlap, .setGID 0 1 1, .build 2,
        .delete 0 1 true] >>= fun m => (m.k 0).restore 1) = .ok s ∧
      MeshL.traverse s.base = .ok [0, 1] ∧ s.pt 1 = .overlap ∧ listed s.ov = .ok [0] ∧
            ((s.delete 1 true) matches .ub) := ⟨legalB_sound _ _ (by decide +kernel), of_then (by decide +kernel)⟩

/-- **C66 (negation)** An entity labelled as ghost and deleted before any ghost list was built stays in the mesh, although
its memory is released. -/
theorem C66_negation_delete_unlisted :
    (∃ m, M.init.run [.new 0, .setPT 0 0 .ghost, .delete 0 0 false] = .ok m ∧
      MeshL.traverse (m.k 0).base = .ok [0] ∧ (m.k 0).freed 0 = true) := of_then (by decide +kernel)

/-- **C66 (negation)** After deleting a ghost entity, the search for its (local) ID reads through a NULL pointer. -/
theorem C66_negation_id_search :
    legal (fun _ => .init) [.new 0, .new 0, .new 0, .setPT 0 0 .ghost, .build 2, .delete 0 0 false] ∧
    (∃ m, M.init.run [.new 0, .new 0, .new 0, .setPT 0 0 .ghost, .build 2, .delete 0 0 false] = .ok m ∧
      MeshL.fromID (m.k 0).base 1 = .ub) := ⟨legalB_sound _ _ (by decide +kernel), of_then (by decide +kernel)⟩

/-! ## C67 -/

/-- **C67 (partial)** After every legal history, if the search lists of a kind were made and sorted since its last
creation, deletion and change of global ID, the mesh has vertices in the search (for faces and regions) and the global
IDs of the kind are different, the search by global ID gives the live entity with the number, and NULL if there is none.
Missing: the situations of `C67_negation_empty`, `C67_negation_no_faces`, `C67_negation_created`, `C67_negation_deleted`,
`C67_negation_changed` and `C67_negation_enable_again`. -/
theorem C67_lookup_partial (ops : List Op) (hl : legal (fun _ => .init) ops) (i : Fin 4)
    (hs : (specRun ops i).srch = .ready) (h0 : 2 ≤ i → (specRun ops 0).srch ≠ .absent)
    (hd : ((specRun ops i).live.map (specRun ops i).gid).Nodup) (k : Int) (hk : 0 ≤ k ∧ k < 2147483648) :
    ∃ m o, M.init.run ops = .ok m ∧ m.fromGID i k = .ok o ∧
      ∀ v, o = some v ↔ v ∈ (specRun ops i).live ∧ (specRun ops i).gid v = k := by
  obtain ⟨m, e, h⟩ := run_init ops hl
  have hki := h.k i
  have hsi := hki.srch
  unfold SrchOk at hsi
  rw [hs] at hsi
  obtain ⟨-, l, a1, a2, a3, a4, a5⟩ := hsi
  have hgs : m.gsorted = true := h.gs ⟨i, by rw [hs]; simp⟩
  have hguard : (if i ≤ 1 then (m.k i).srch else (m.k 0).srch).isNone = false := by
    split
    · rw [a1]; rfl
    · rename_i hi
      have h0 := h0 (by
        have h2 : ∀ i : Fin 4, ¬ i ≤ 1 → 2 ≤ i := by decide
        exact h2 i hi)
      have := (h.k 0).srch
      unfold SrchOk at this
      cases hp : (specRun ops 0).srch <;> rw [hp] at this
      · exact absurd hp h0
      · obtain ⟨-, l', b, -⟩ := this; rw [b]; rfl
      · obtain ⟨-, l', b, -⟩ := this; rw [b]; rfl
      · cases hx : (m.k 0).srch
        · exact absurd hx this
        · rfl
  have hnd : (l.abs.map (specRun ops i).gid).Nodup := (a4.map _).nodup_iff.mpr hd
  have hinc : l.abs.Pairwise fun x y => (specRun ops i).gid x < (specRun ops i).gid y := by
    rw [List.Nodup, List.pairwise_map] at hnd
    exact (a5.and hnd).imp fun ⟨a, b⟩ => by omega
  have hnv : (m.k i).base.nv = l.abs.length := by rw [hki.base.nv, a4.length_eq]
  have hb1 := bsearchG_spec a2 a3 (fr := (m.k i).freed) hki.range
    (fun v hv => hki.alive v (a4.mem_iff.mp hv)) hinc k hk ((m.k i).base.nv + 1) 0 (m.k i).base.nv (by omega) (by omega)
    (fun j v hj _ => ⟨by omega, by rw [hnv]; exact (List.getElem?_eq_some_iff.mp hj).1⟩)
  have hb2 := MeshL.bsearch_spec a2 a3 _ hinc k ((m.k i).base.nv + 1) 0 (m.k i).base.nv (by omega) (by omega)
    (fun j v hj _ => ⟨by omega, by rw [hnv]; exact (List.getElem?_eq_some_iff.mp hj).1⟩)
  refine ⟨m, l.abs.find? (fun v => decide ((specRun ops i).gid v = k)), e, ?_, fun v => ?_⟩
  · unfold M.fromGID
    rw [hguard]
    simp only [Bool.false_eq_true, if_false, hgs, not_true, a1]
    rw [hki.gid, hb1, hb2]
  · constructor
    · intro hv
      have h1 := List.find?_some hv
      exact ⟨a4.mem_iff.mp (List.mem_of_find?_eq_some hv), by simpa using h1⟩
    · rintro ⟨h1, h2⟩
      cases hf : l.abs.find? (fun w => decide ((specRun ops i).gid w = k)) with
      | none =>
        rw [List.find?_eq_none] at hf
        exact absurd h2 (by simpa using hf v (a4.mem_iff.mpr h1))
      | some w =>
        have hw := List.find?_some hf
        simp only [decide_eq_true_eq] at hw
        rw [MeshL.Incr.inj hinc (List.mem_of_find?_eq_some hf) (a4.mem_iff.mpr h1) (by rw [hw, h2])]

/-- non-vacuity: gaps in the main list, global IDs in another order, faces and vertices, the IDs changed and the lists
sorted again -/
def someSearch : List Op :=
  [.new 0, .new 0, .new 0, .new 0, .setGID 0 0 50, .setGID 0 1 40, .setGID 0 2 30, .setGID 0 3 20, .delete 0 1 false,
   .new 2, .new 2, .setGID 2 0 7, .setGID 2 1 6, .enable, .setGID 0 0 5, .resort]

example : legal (fun _ => .init) someSearch ∧ (specRun someSearch 0).srch = .ready ∧ (specRun someSearch 2).srch = .ready ∧
    ((specRun someSearch 0).live.map (specRun someSearch 0).gid).Nodup ∧
    ((specRun someSearch 2).live.map (specRun someSearch 2).gid).Nodup :=
  ⟨legalB_sound _ _ (by decide +kernel), by decide +kernel⟩

example : (∃ m, M.init.run someSearch = .ok m ∧
      m.fromGID 0 5 = .ok (some 0) ∧ m.fromGID 0 30 = .ok (some 2) ∧ m.fromGID 0 40 = .ok none ∧
        m.fromGID 2 7 = .ok (some 0)) := of_then (by decide +kernel)

/-- **C67 (negation)** With the search enabled, asking for an edge of a mesh without edges ends the process. -/
theorem C67_negation_empty : legal (fun _ => .init) [.new 0, .enable] ∧
    (∃ m, M.init.run [.new 0, .enable] = .ok m ∧
      m.fromGID 1 1 = .fatal) := ⟨legalB_sound _ _ (by decide +kernel), of_then (by decide +kernel)⟩

/-- **C67 (negation)** With the search enabled, asking for a face of a mesh without faces reads through NULL. -/
theorem C67_negation_no_faces : legal (fun _ => .init) [.new 0, .enable] ∧
    (∃ m, M.init.run [.new 0, .enable] = .ok m ∧
      m.fromGID 2 1 = .ub) := ⟨legalB_sound _ _ (by decide +kernel), of_then (by decide +kernel)⟩

/-- **C67 (negation)** A vertex created while the search is enabled is not found: entries past the end of the list are
read. -/
theorem C67_negation_created : legal (fun _ => .init) [.new 0, .setGID 0 0 5, .enable, .new 0, .setGID 0 1 7] ∧
    (∃ m, M.init.run [.new 0, .setGID 0 0 5, .enable, .new 0, .setGID 0 1 7] = .ok m ∧
      m.fromGID 0 7 = .ub ∧ m.fromGID 0 5 = .ub) := ⟨legalB_sound _ _ (by decide +kernel), of_then (by decide +kernel)⟩

/-- three vertices with global IDs 1, 2, 3 and the search enabled -/
def threeSearched : List Op :=
  [.new 0, .new 0, .new 0, .setGID 0 0 1, .setGID 0 1 2, .setGID 0 2 3, .enable]

/-- **C67 (negation)** After deleting a vertex while the search is enabled, the search for it gives the deleted vertex if
it was kept and reads released memory if not; a live vertex is not found any more. -/
theorem C67_negation_deleted : legal (fun _ => .init) (threeSearched ++ [.delete 0 1 true]) ∧
    legal (fun _ => .init) (threeSearched ++ [.delete 0 1 false]) ∧
    (∃ m, M.init.run (threeSearched ++ [.delete 0 1 true]) = .ok m ∧
      m.fromGID 0 2 = .ok (some 1) ∧ m.fromGID 0 3 = .ok none ∧ MeshL.traverse (m.k 0).base = .ok [0, 2]) ∧
    (∃ m, M.init.run (threeSearched ++ [.delete 0 1 false]) = .ok m ∧
      m.fromGID 0 2 = .ub) :=
  ⟨legalB_sound _ _ (by decide +kernel), legalB_sound _ _ (by decide +kernel), of_then (by decide +kernel),
    of_then (by decide +kernel)⟩

/-- **C67 (negation)** A vertex whose global ID is changed while the search is enabled is not found. -/
theorem C67_negation_changed : legal (fun _ => .init) (threeSearched ++ [.setGID 0 0 4]) ∧
    (∃ m, M.init.run (threeSearched ++ [.setGID 0 0 4]) = .ok m ∧
      (m.k 0).gid 0 = 4 ∧ m.fromGID 0 4 = .ok none) := ⟨legalB_sound _ _ (by decide +kernel), of_then (by decide +kernel)⟩

/-- **C67 (negation)** Enabling the search again after creating a vertex does not update it: memory past the end of the
old list is sorted. -/
theorem C67_negation_enable_again : (M.init.run [.new 0, .enable, .new 0, .enable]) matches .ub := by decide +kernel

end Ghost
end MSTK
