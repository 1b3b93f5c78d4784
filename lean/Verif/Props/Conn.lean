import Verif.ConnModel
import Verif.Props.ParAdj
import Verif.Props.Update
import Verif.Props.Gather
/-!
C88: after `MESH_BuildConnection` a partition plans to receive from exactly the partitions with which it
shares a boundary vertex.
-/
namespace MSTK.Par

/-! ### Specification -/

/-- the vertex with global ID `g` is in the partition and is not interior to it -/
def OnBdry (c : Piece) (g : Int) : Prop := (g, false) ∈ c.verts

/-- two partitions have a boundary vertex in common -/
def Neighbours (c d : Piece) : Prop := ∃ g, OnBdry c g ∧ OnBdry d g

/-- the types of entities a partition shares across its boundary: vertices and edges, and also faces if
it has regions -/
def SharedType (c : Piece) (k : Nat) : Prop := k = 0 ∨ k = 1 ∨ (k = 2 ∧ c.regions = true)

/-- The partitions as `MESH_BuildConnection` may find them: each went through some history of calls after
`MESH_Set_Prtn`, and no two of its boundary vertices have the same global ID. -/
structure Pieces (rs : List Piece) : Prop where
  history : ∀ (p : Nat) (c : Piece), rs[p]? = some c →
    ∃ os : List Op, (∀ o ∈ os, o.legal rs.length) ∧ runOps (setPrtn new p rs.length) os = .ok c.info
  distinct : ∀ c ∈ rs, ((c.verts.filter fun v => !v.2).map Prod.fst).Nodup

/-! ### helpers -/

theorem mem_bdry {c : Piece} {g : Int} : g ∈ c.bdry ↔ OnBdry c g := by
  unfold Piece.bdry OnBdry
  rw [(List.perm_insertionSort (α := Int) (· ≤ ·) _).mem_iff, List.mem_map]
  constructor
  · rintro ⟨⟨a, b⟩, h1, rfl⟩
    obtain ⟨h2, h3⟩ := List.mem_filter.1 h1
    cases b
    · exact h2
    · exact absurd h3 (by simp)
  · intro h
    exact ⟨(g, false), List.mem_filter.2 ⟨h, rfl⟩, rfl⟩

theorem bdry_sorted {c : Piece} (h : ((c.verts.filter fun v => !v.2).map Prod.fst).Nodup) :
    c.bdry.Pairwise (· < ·) := by
  have h1 := List.pairwise_insertionSort (α := Int) (· ≤ ·) ((c.verts.filter fun v => !v.2).map Prod.fst)
  have h2 : c.bdry.Nodup := (List.perm_insertionSort (α := Int) (· ≤ ·) _).nodup_iff.2 h
  refine (List.Pairwise.and h1 h2).imp ?_
  intro a b hab
  have := hab.1
  have := hab.2
  omega

theorem foldl_most : ∀ (rs : List Piece) (m : Nat),
    m ≤ rs.foldl (fun m c => if m < c.bdry.length then c.bdry.length else m) m ∧
    ∀ c ∈ rs, c.bdry.length ≤ rs.foldl (fun m c => if m < c.bdry.length then c.bdry.length else m) m := by
  intro rs
  induction rs with
  | nil => intro m; exact ⟨Nat.le_refl _, by simp⟩
  | cons d rs ih =>
    intro m
    rw [List.foldl_cons]
    obtain ⟨h1, h2⟩ := ih (if m < d.bdry.length then d.bdry.length else m)
    have h3 : m ≤ (if m < d.bdry.length then d.bdry.length else m) ∧
        d.bdry.length ≤ (if m < d.bdry.length then d.bdry.length else m) := by
      split <;> omega
    refine ⟨by omega, ?_⟩
    intro c hc
    rcases List.mem_cons.1 hc with rfl | hc
    · omega
    · exact h2 c hc

theorem le_most {rs : List Piece} {c : Piece} (h : c ∈ rs) : c.bdry.length ≤ mostBdry rs := (foldl_most rs 0).2 c h

theorem gathered_at {rs : List Piece} {j : Nat} {c : Piece} (h : rs[j]? = some c) (i : Nat)
    (hi : i < c.bdry.length) : (gathered rs)[mostBdry rs * j + i]? = (c.bdry[i]?).map some := by
  have hc := le_most (List.mem_of_getElem? h)
  unfold gathered
  rw [Nat.mul_comm, getElem?_flatten_rows (n := mostBdry rs) ?_ j i (by omega), List.getElem?_map, h]
  · rw [Option.map_some, Option.bind_some]
    unfold bdryBlock
    rw [List.getElem?_append_left (by simpa using hi), List.getElem?_map]
  · intro r hr
    obtain ⟨d, hd, rfl⟩ := List.mem_map.1 hr
    have := le_most hd
    unfold bdryBlock
    simp
    omega

/-- the search finds the vertex exactly if the partition has it on its boundary -/
theorem conn_search {rs : List Piece} (hd : ∀ c ∈ rs, ((c.verts.filter fun v => !v.2).map Prod.fst).Nodup)
    {j : Nat} {c : Piece} (h : rs[j]? = some c) (g : Int) :
    ∃ l, bsearchAt (gathered rs) g (mostBdry rs * j) (mostBdry rs * j + c.bdry.length) = .ok l ∧
      (l ≠ none ↔ OnBdry c g) := by
  by_cases hg : OnBdry c g
  · obtain ⟨t, ht, hgt⟩ := List.mem_iff_getElem.1 (mem_bdry.2 hg)
    refine ⟨_, bsearchAt_ok (bdry_sorted (hd c (List.mem_of_getElem? h))) (gathered_at h) (t := t)
      (by rw [List.getElem?_eq_getElem ht, hgt]) _ _ _ rfl (Nat.le_refl _) (by omega) (by omega) (Nat.le_refl _), ?_⟩
    simp [hg]
  · refine ⟨_, bsearchAt_none (gathered_at h) (fun hm => hg (mem_bdry.1 hm)) _ _ _ rfl (Nat.le_refl _)
      (Nat.le_refl _), ?_⟩
    simp [hg]

theorem flagGhosts_recv {s s' : Info} {p : Nat} {t : Int} (h : flagGhosts s p t = .ok s') : s'.recv = s.recv := by
  unfold flagGhosts at h
  split at h
  · cases h; rfl
  · unfold setFlag at h
    split at h
    · cases h; rfl
    · split at h
      · cases h
      · split at h
        · obtain ⟨_, _, h⟩ := Res.bind_eq_ok.1 h
          obtain ⟨_, _, h⟩ := Res.bind_eq_ok.1 h
          obtain ⟨_, _, h⟩ := Res.bind_eq_ok.1 h
          obtain ⟨_, _, h⟩ := Res.bind_eq_ok.1 h
          cases h; rfl
        · split at h
          · cases h
          · obtain ⟨_, _, h⟩ := Res.bind_eq_ok.1 h
            cases h; rfl

/-- raising one ghost flag -/
theorem ghost_one {me n : Nat} {s : Info} {σ : Spec} (h : Rel me n s σ) {j t : Nat} (hj : j < n) (ht : t < 4) :
    ∃ s' σ', flagGhosts s j (t : Int) = .ok s' ∧ Rel me n s' σ' ∧ s'.recv = s.recv ∧ σ'.overlap = σ.overlap ∧
      ∀ q k, σ'.ghost q k = true ↔ σ.ghost q k = true ∨ (q = j ∧ j ≠ me ∧ k = t) := by
  obtain ⟨s1, h1, h2⟩ := flag_ghost_rel h j (t : Int) ⟨hj, by omega, by omega⟩
  refine ⟨s1, _, h1, h2, flagGhosts_recv h1, rfl, ?_⟩
  intro q k
  simp only [Spec.step, covers, Bool.or_eq_true, Bool.and_eq_true, decide_eq_true_eq]
  have : ((t : Int) = k ∨ (t : Int) = 5) ↔ k = t := by omega
  rw [this, and_assoc]

theorem connFlag_rel {me n : Nat} {s : Info} {σ : Spec} (h : Rel me n s σ) {j : Nat} (hj : j < n) (reg : Bool) :
    ∃ s' σ', connFlag reg j s = .ok s' ∧ Rel me n s' σ' ∧ s'.recv = s.recv ∧ σ'.overlap = σ.overlap ∧
      ∀ q k, σ'.ghost q k = true ↔ σ.ghost q k = true ∨
        (q = j ∧ j ≠ me ∧ (k = 0 ∨ k = 1 ∨ (k = 2 ∧ reg = true))) := by
  obtain ⟨s1, σ1, a1, a2, a3, a4, a5⟩ := ghost_one h hj (t := 0) (by omega)
  obtain ⟨s2, σ2, b1, b2, b3, b4, b5⟩ := ghost_one a2 hj (t := 1) (by omega)
  unfold connFlag
  rw [show (0 : Int) = ((0 : Nat) : Int) from rfl, a1, Res.bind_ok,
    show (1 : Int) = ((1 : Nat) : Int) from rfl, b1, Res.bind_ok]
  cases reg with
  | false =>
    refine ⟨s2, σ2, rfl, b2, by rw [b3, a3], by rw [b4, a4], ?_⟩
    intro q k
    rw [b5, a5]
    constructor
    · rintro ((h | h) | h)
      · exact Or.inl h
      · exact Or.inr ⟨h.1, h.2.1, Or.inl h.2.2⟩
      · exact Or.inr ⟨h.1, h.2.1, Or.inr (Or.inl h.2.2)⟩
    · rintro (h | ⟨h1, h2, h3 | h3 | h3⟩)
      · exact Or.inl (Or.inl h)
      · exact Or.inl (Or.inr ⟨h1, h2, h3⟩)
      · exact Or.inr ⟨h1, h2, h3⟩
      · cases h3.2
  | true =>
    obtain ⟨s3, σ3, c1, c2, c3, c4, c5⟩ := ghost_one b2 hj (t := 2) (by omega)
    rw [if_pos rfl, show (2 : Int) = ((2 : Nat) : Int) from rfl, c1]
    refine ⟨s3, σ3, rfl, c2, by rw [c3, b3, a3], by rw [c4, b4, a4], ?_⟩
    intro q k
    rw [c5, b5, a5]
    constructor
    · rintro (((h | h) | h) | h)
      · exact Or.inl h
      · exact Or.inr ⟨h.1, h.2.1, Or.inl h.2.2⟩
      · exact Or.inr ⟨h.1, h.2.1, Or.inr (Or.inl h.2.2)⟩
      · exact Or.inr ⟨h.1, h.2.1, Or.inr (Or.inr ⟨h.2.2, rfl⟩)⟩
    · rintro (h | ⟨h1, h2, h3 | h3 | h3⟩)
      · exact Or.inl (Or.inl (Or.inl h))
      · exact Or.inl (Or.inl (Or.inr ⟨h1, h2, h3⟩))
      · exact Or.inl (Or.inr ⟨h1, h2, h3⟩)
      · exact Or.inr ⟨h1, h2, h3.1⟩

/-- what one vertex adds -/
theorem connRanks_rel {rs : List Piece} (hd : ∀ c ∈ rs, ((c.verts.filter fun v => !v.2).map Prod.fst).Nodup)
    {me : Nat} (reg : Bool) (g : Int) : ∀ (js : List Nat) {s : Info} {σ : Spec}, Rel me rs.length s σ →
    (∀ j ∈ js, j < rs.length) →
    ∃ s' σ', connRanks (gathered rs) (mostBdry rs) (rs.map fun c => c.bdry.length) me reg g js s = .ok s' ∧
      Rel me rs.length s' σ' ∧ s'.recv = s.recv ∧ σ'.overlap = σ.overlap ∧
      ∀ q k, σ'.ghost q k = true ↔ σ.ghost q k = true ∨
        (q ∈ js ∧ q ≠ me ∧ (k = 0 ∨ k = 1 ∨ (k = 2 ∧ reg = true)) ∧ ∃ d, rs[q]? = some d ∧ OnBdry d g) := by
  intro js
  induction js with
  | nil => intro s σ h _; exact ⟨s, σ, rfl, h, rfl, rfl, by simp⟩
  | cons j js ih =>
    intro s σ h hjs
    have hjs' : ∀ x ∈ js, x < rs.length := fun x hx => hjs x (List.mem_cons_of_mem _ hx)
    unfold connRanks
    by_cases hj : j = me
    · rw [if_pos hj]
      obtain ⟨s', σ', h1, h2, h3, h4, h5⟩ := ih h hjs'
      refine ⟨s', σ', h1, h2, h3, h4, fun q k => ?_⟩
      rw [h5]
      constructor
      · rintro (hh | hh)
        · exact Or.inl hh
        · exact Or.inr ⟨List.mem_cons_of_mem _ hh.1, hh.2⟩
      · rintro (hh | ⟨hh, hq, hr⟩)
        · exact Or.inl hh
        · rcases List.mem_cons.1 hh with rfl | hh
          · exact absurd hj hq
          · exact Or.inr ⟨hh, hq, hr⟩
    · rw [if_neg hj]
      have hjn := hjs j (List.mem_cons_self ..)
      obtain ⟨d, hdj⟩ : ∃ d, rs[j]? = some d := ⟨_, List.getElem?_eq_getElem hjn⟩
      obtain ⟨l, hl1, hl2⟩ := conn_search hd hdj g
      rw [List.getElem?_map, hdj, Option.map_some, Res.ofOption_some, Res.bind_ok, hl1, Res.bind_ok]
      cases l with
      | none =>
        have hno : ¬ OnBdry d g := fun hh => hl2.2 hh rfl
        obtain ⟨s', σ', h1, h2, h3, h4, h5⟩ := ih h hjs'
        refine ⟨s', σ', h1, h2, h3, h4, fun q k => ?_⟩
        rw [h5]
        constructor
        · rintro (hh | hh)
          · exact Or.inl hh
          · exact Or.inr ⟨List.mem_cons_of_mem _ hh.1, hh.2⟩
        · rintro (hh | ⟨hh, hq, hk, d', hd', ho⟩)
          · exact Or.inl hh
          · rcases List.mem_cons.1 hh with rfl | hh
            · rw [hdj] at hd'; cases hd'; exact absurd ho hno
            · exact Or.inr ⟨hh, hq, hk, d', hd', ho⟩
      | some i =>
        have hyes : OnBdry d g := hl2.1 (by simp)
        obtain ⟨s1, σ1, a1, a2, a3, a4, a5⟩ := connFlag_rel h hjn reg
        obtain ⟨s', σ', h1, h2, h3, h4, h5⟩ := ih a2 hjs'
        dsimp only
        rw [a1, Res.bind_ok]
        refine ⟨s', σ', h1, h2, by rw [h3, a3], by rw [h4, a4], fun q k => ?_⟩
        rw [h5, a5]
        constructor
        · rintro ((hh | ⟨rfl, hq, hk⟩) | hh)
          · exact Or.inl hh
          · exact Or.inr ⟨List.mem_cons_self .., hq, hk, d, hdj, hyes⟩
          · exact Or.inr ⟨List.mem_cons_of_mem _ hh.1, hh.2⟩
        · rintro (hh | ⟨hh, hq, hk, d', hd', ho⟩)
          · exact Or.inl (Or.inl hh)
          · rcases List.mem_cons.1 hh with rfl | hh
            · exact Or.inl (Or.inr ⟨rfl, hq, hk⟩)
            · exact Or.inr ⟨hh, hq, hk, d', hd', ho⟩

/-- what all vertices add -/
theorem connVerts_rel {rs : List Piece} (hd : ∀ c ∈ rs, ((c.verts.filter fun v => !v.2).map Prod.fst).Nodup)
    {me : Nat} (reg : Bool) : ∀ (gs : List Int) {s : Info} {σ : Spec}, Rel me rs.length s σ →
    ∃ s' σ', connVerts (gathered rs) (mostBdry rs) (rs.map fun c => c.bdry.length) me reg gs s = .ok s' ∧
      Rel me rs.length s' σ' ∧ s'.recv = s.recv ∧ σ'.overlap = σ.overlap ∧
      ∀ q k, σ'.ghost q k = true ↔ σ.ghost q k = true ∨
        (q ≠ me ∧ (k = 0 ∨ k = 1 ∨ (k = 2 ∧ reg = true)) ∧ ∃ d, rs[q]? = some d ∧ ∃ g ∈ gs, OnBdry d g) := by
  intro gs
  induction gs with
  | nil => intro s σ h; exact ⟨s, σ, rfl, h, rfl, rfl, by simp⟩
  | cons g gs ih =>
    intro s σ h
    unfold connVerts
    obtain ⟨s1, σ1, a1, a2, a3, a4, a5⟩ := connRanks_rel hd reg g
      (List.range (rs.map fun c => c.bdry.length).length).reverse h (by
        intro j hj
        simpa using hj)
    obtain ⟨s', σ', h1, h2, h3, h4, h5⟩ := ih a2
    rw [a1, Res.bind_ok]
    refine ⟨s', σ', h1, h2, by rw [h3, a3], by rw [h4, a4], fun q k => ?_⟩
    rw [h5, a5]
    constructor
    · rintro ((hh | ⟨_, hq, hk, d, hdq, ho⟩) | ⟨hq, hk, d, hdq, g', hg', ho⟩)
      · exact Or.inl hh
      · exact Or.inr ⟨hq, hk, d, hdq, g, List.mem_cons_self .., ho⟩
      · exact Or.inr ⟨hq, hk, d, hdq, g', List.mem_cons_of_mem _ hg', ho⟩
    · rintro (hh | ⟨hq, hk, d, hdq, g', hg', ho⟩)
      · exact Or.inl (Or.inl hh)
      · rcases List.mem_cons.1 hg' with rfl | hg'
        · refine Or.inl (Or.inr ⟨?_, hq, hk, d, hdq, ho⟩)
          have := (List.getElem?_eq_some_iff.1 hdq).1
          simpa using this
        · exact Or.inr ⟨hq, hk, d, hdq, g', hg', ho⟩

theorem conn_run {rs : List Piece} (h : Pieces rs) : ∃ out, buildConnection rs = .ok out ∧
    out.length = rs.length ∧ ∀ (p : Nat) (c : Piece), rs[p]? = some c → ∃ s σ σ', out[p]? = some s ∧
      Rel p rs.length c.info σ ∧ Rel p rs.length s σ' ∧ s.recv = c.info.recv ∧ σ'.overlap = σ.overlap ∧
      ∀ q k, σ'.ghost q k = true ↔ σ.ghost q k = true ∨
        (q ≠ p ∧ (k = 0 ∨ k = 1 ∨ (k = 2 ∧ c.regions = true)) ∧ ∃ d, rs[q]? = some d ∧
          ∃ g ∈ c.bdry, OnBdry d g) := by
  have step : ∀ (p : Nat) (c : Piece), rs[p]? = some c → ∃ s σ σ',
      connVerts (gathered rs) (mostBdry rs) (rs.map fun c => c.bdry.length) p c.regions c.bdry c.info = .ok s ∧
      Rel p rs.length c.info σ ∧ Rel p rs.length s σ' ∧ s.recv = c.info.recv ∧ σ'.overlap = σ.overlap ∧
      ∀ q k, σ'.ghost q k = true ↔ σ.ghost q k = true ∨
        (q ≠ p ∧ (k = 0 ∨ k = 1 ∨ (k = 2 ∧ c.regions = true)) ∧ ∃ d, rs[q]? = some d ∧
          ∃ g ∈ c.bdry, OnBdry d g) := by
    intro p c hc
    obtain ⟨os, h1, h2⟩ := h.history p c hc
    obtain ⟨s0, h3, h4⟩ := run_rel os (start_rel p rs.length) h1
    rw [h2] at h3; injection h3 with h3; subst h3
    obtain ⟨s', σ', e1, e2, e3, e4, e5⟩ := connVerts_rel h.distinct c.regions c.bdry h4
    exact ⟨s', _, σ', e1, h4, e2, e3, e4, e5⟩
  have hz : ∀ (p : Nat) (x : Nat × Piece), ((List.range rs.length).zip rs)[p]? = some x →
      x.1 = p ∧ rs[p]? = some x.2 := by
    intro p x hx
    obtain ⟨h1, h2⟩ := List.getElem?_zip_eq_some.1 hx
    have h3 := (List.getElem?_eq_some_iff.1 h2).1
    rw [List.getElem?_range h3] at h1
    exact ⟨(Option.some.inj h1).symm, h2⟩
  obtain ⟨out, m1, m2, m3⟩ := mapR_ok (g := fun pc : Nat × Piece =>
      connVerts (gathered rs) (mostBdry rs) (rs.map fun c => c.bdry.length) pc.1 pc.2.regions pc.2.bdry
        pc.2.info) (as := (List.range rs.length).zip rs) (by
    intro x hx
    obtain ⟨p, hp⟩ := List.mem_iff_getElem?.1 hx
    obtain ⟨h1, h2⟩ := hz p x hp
    obtain ⟨s, _, _, h3, _⟩ := step p x.2 h2
    exact ⟨s, by rw [h1]; exact h3⟩)
  refine ⟨out, m1, by rw [m2]; simp, ?_⟩
  intro p c hc
  have hp := (List.getElem?_eq_some_iff.1 hc).1
  obtain ⟨s, h1, h2⟩ := m3 p (p, c) (List.getElem?_zip_eq_some.2 ⟨List.getElem?_range hp, hc⟩)
  obtain ⟨s', σ, σ', h3, h4⟩ := step p c hc
  have : s = s' := by
    have := h2.symm.trans h3
    injection this
  subst this
  exact ⟨s, σ, σ', h1, h4⟩

/-! ### The property -/

/-- **C88.** The call ends on every partition; a partition plans afterwards to receive entities of a type
from another exactly if it did before, or if the other is not itself, the two share a boundary vertex and
the type is one of those shared across boundaries; what it plans to send and the numbers it expects are
as before. -/
theorem C88_connection {rs : List Piece} (h : Pieces rs) :
    ∃ out, buildConnection rs = .ok out ∧ out.length = rs.length ∧
      ∀ (p q : Nat) (c d : Piece) (s : Info), rs[p]? = some c → rs[q]? = some d → out[p]? = some s →
        (∀ k, k < 4 →
          (Receives s q k ↔ Receives c.info q k ∨ (q ≠ p ∧ Neighbours c d ∧ SharedType c k)) ∧
          (Sends s q k ↔ Sends c.info q k)) ∧
        s.recv = c.info.recv := by
  obtain ⟨out, h1, h2, h3⟩ := conn_run h
  refine ⟨out, h1, h2, ?_⟩
  intro p q c d s hc hd hs
  obtain ⟨s', σ, σ', a1, a2, a3, a4, a5, a6⟩ := h3 p c hc
  rw [hs] at a1; cases a1
  have hq := (List.getElem?_eq_some_iff.1 hd).1
  refine ⟨fun k hk => ⟨?_, ?_⟩, a4⟩
  · unfold Receives
    rw [((getFlag_rel a3 q hq).1 k hk).1, ((getFlag_rel a2 q hq).1 k hk).1]
    have e : ∀ b : Bool, (Res.ok (if b = true then 1#32 else 0#32) = Res.ok 1#32) ↔ b = true := by
      intro b; cases b <;> simp
    refine (e _).trans ((a6 q k).trans ?_)
    refine or_congr (e _).symm ?_
    constructor
    · rintro ⟨hq, hk, d', hd', g, hg, ho⟩
      rw [hd] at hd'; cases hd'
      exact ⟨hq, ⟨g, mem_bdry.1 hg, ho⟩, hk⟩
    · rintro ⟨hq, ⟨g, hg, ho⟩, hk⟩
      exact ⟨hq, hk, d, hd, g, mem_bdry.2 hg, ho⟩
  · unfold Sends
    rw [((getFlag_rel a3 q hq).1 k hk).2, ((getFlag_rel a2 q hq).1 k hk).2, a5]

/-- Starting without plans, two partitions of the same kind (both with regions or both without) plan
alike: one expects entities of a type from the other exactly if the other does so from it. -/
theorem C88_symmetric {rs : List Piece} (h : Pieces rs)
    (h0 : ∀ (p : Nat) (c : Piece), rs[p]? = some c → c.info = setPrtn new p rs.length) :
    ∃ out, buildConnection rs = .ok out ∧
      ∀ (p q : Nat) (c d : Piece) (s s' : Info), rs[p]? = some c → rs[q]? = some d → out[p]? = some s →
        out[q]? = some s' → c.regions = d.regions → ∀ k, k < 4 → (Receives s q k ↔ Receives s' p k) := by
  obtain ⟨out, h1, h2, h3⟩ := C88_connection h
  refine ⟨out, h1, ?_⟩
  intro p q c d s s' hc hd hs hs' hr k hk
  have none : ∀ (p q : Nat) (c : Piece), rs[p]? = some c → q < rs.length → ¬ Receives c.info q k := by
    intro p q c hc hq hh
    unfold Receives at hh
    rw [h0 p c hc, ((getFlag_rel (start_rel p rs.length) q hq).1 k hk).1] at hh
    simp [Spec.empty] at hh
  have hp' := (List.getElem?_eq_some_iff.1 hc).1
  have hq' := (List.getElem?_eq_some_iff.1 hd).1
  rw [((h3 p q c d s hc hd hs).1 k hk).1, ((h3 q p d c s' hd hc hs').1 k hk).1]
  constructor
  · rintro (hh | ⟨hne, ⟨g, hg1, hg2⟩, ht⟩)
    · exact absurd hh (none p q c hc hq')
    · refine Or.inr ⟨hne.symm, ⟨g, hg2, hg1⟩, ?_⟩
      unfold SharedType at ht ⊢
      rw [← hr]; exact ht
  · rintro (hh | ⟨hne, ⟨g, hg1, hg2⟩, ht⟩)
    · exact absurd hh (none q p d hd hp')
    · refine Or.inr ⟨hne.symm, ⟨g, hg2, hg1⟩, ?_⟩
      unfold SharedType at ht ⊢
      rw [hr]; exact ht

/-! ### A case: three partitions in a row -/

/-- three strips of a mesh; the middle one shares vertices with the other two -/
def strips : List Piece :=
  [⟨setPrtn new 0 3, [(3, false), (1, true), (2, false)], false⟩,
   ⟨setPrtn new 1 3, [(5, false), (2, false), (4, false), (3, false)], false⟩,
   ⟨setPrtn new 2 3, [(6, true), (4, false), (5, false)], false⟩]

theorem strips_pieces : Pieces strips := by
  refine ⟨?_, by decide +kernel⟩
  intro p c hc
  refine ⟨[], by simp, ?_⟩
  match p, hc with
  | 0, hc => cases hc; rfl
  | 1, hc => cases hc; rfl
  | 2, hc => cases hc; rfl
  | p+3, hc => simp [strips] at hc

example : ∃ out, buildConnection strips = .ok out ∧ ∀ s0 s2, out[0]? = some s0 → out[2]? = some s2 →
    Receives s0 1 0 ∧ Receives s0 1 1 ∧ ¬ Receives s0 1 2 ∧ ¬ Receives s0 2 0 ∧ Receives s2 1 0 := by
  obtain ⟨out, h1, _, h3⟩ := C88_connection strips_pieces
  refine ⟨out, h1, ?_⟩
  intro s0 s2 h0 h2
  have r01 := (h3 0 1 _ _ s0 rfl rfl h0).1
  have r02 := (h3 0 2 _ _ s0 rfl rfl h0).1
  have r21 := (h3 2 1 _ _ s2 rfl rfl h2).1
  have off : ∀ p q k, q < 3 → k < 4 → ¬ Receives (setPrtn new p 3) q k := by
    intro p q k hq hk hh
    unfold Receives at hh
    rw [((getFlag_rel (start_rel p 3) q hq).1 k hk).1] at hh
    simp [Spec.empty] at hh
  refine ⟨(r01 0 (by decide)).1.2 (Or.inr ⟨by decide, ⟨2, ?_, ?_⟩, Or.inl rfl⟩),
    (r01 1 (by decide)).1.2 (Or.inr ⟨by decide, ⟨2, ?_, ?_⟩, Or.inr (Or.inl rfl)⟩), ?_, ?_,
    (r21 0 (by decide)).1.2 (Or.inr ⟨by decide, ⟨4, ?_, ?_⟩, Or.inl rfl⟩)⟩
  · simp [OnBdry]
  · simp [OnBdry]
  · simp [OnBdry]
  · simp [OnBdry]
  · intro hh
    rcases (r01 2 (by decide)).1.1 hh with hh | ⟨_, _, hh⟩
    · exact off 0 1 2 (by decide) (by decide) hh
    · simp [SharedType] at hh
  · intro hh
    rcases (r02 0 (by decide)).1.1 hh with hh | ⟨_, ⟨g, hg1, hg2⟩, _⟩
    · exact off 0 2 0 (by decide) (by decide) hh
    · simp [OnBdry] at hg1 hg2
      omega
  · simp [OnBdry]
  · simp [OnBdry]

end MSTK.Par
