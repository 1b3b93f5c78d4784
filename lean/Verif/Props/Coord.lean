import Verif.CoordModel
import Verif.Props.Update

/-!
C84: ghost vertices are where the vertices are that they are copies of.
-/
namespace MSTK.Par

variable {D : Type}

/-! ### specification -/

/-- the overlap and ghost vertices of a partition -/
structure VSide (D : Type) where
  ov : List (OvVert D)
  gh : List (GhVert D)

/-- Sorted lists of overlap vertices, and every ghost is a copy of one on another partition. -/
structure VLayout (n : Nat) (side : Nat → VSide D) : Prop where
  sorted : ∀ p, p < n → ((side p).ov.map (·.gid)).Pairwise (· < ·)
  owner : ∀ q, q < n → ∀ g ∈ (side q).gh, g.master ≠ q ∧ g.master < n ∧ ∃ o ∈ (side g.master).ov, o.gid = g.gid

/-! ### proofs -/

theorem coordsSent_length (l : List (OvVert D)) : (coordsSent l).length = l.length * 3 := by
  induction l with
  | nil => rfl
  | cons o r ih =>
    unfold coordsSent
    simp only [List.length_cons, ih]
    omega

theorem coordsSent_at : ∀ (l : List (OvVert D)) (t : Nat) (o : OvVert D), l[t]? = some o → ∀ j, j < 3 →
    (coordsSent l)[t * 3 + j]? = [o.x, o.y, o.z][j]? := by
  intro l
  induction l with
  | nil => intro t o h; simp at h
  | cons a r ih =>
    intro t o h j hj
    cases t with
    | zero =>
      injection h with h
      subst h
      rw [Nat.zero_mul, Nat.zero_add]
      unfold coordsSent
      match j, hj with
      | 0, _ => rfl
      | 1, _ => rfl
      | 2, _ => rfl
    | succ t =>
      have := ih t o h j hj
      unfold coordsSent
      rw [show (t + 1) * 3 + j = (t * 3 + j) + 1 + 1 + 1 from by omega]
      simp only [List.getElem?_cons_succ]
      exact this

/-- **C84.** -/
theorem C84_coords {rs : List Rank} (h : Partitions rs) {out : List Info} (ho : updateParAdj rs = .ok out)
    {side : Nat → VSide D} (hlay : VLayout rs.length side)
    -- `side` describes the vertices of the partitions `rs`
    (hside : ∀ (p : Nat) (r : Rank), rs[p]? = some r →
      r.masters 0 = (side p).gh.map (·.master) ∧ r.ovNum 0 = (side p).ov.length)
    {plan : Nat → Plan (Msg D)} (hplan : ∀ (p : Nat) (s : Info), out[p]? = some s → plan p = coordPlan s (side p).ov) :
    ∃ bound, ∀ (steps : Nat) (net : Net (Msg D)), Exec steps (Net.start rs.length plan) net →
      -- no execution is longer than this, and none deadlocks
      steps ≤ bound ∧ (¬ net.done → ∃ net', Must net net') ∧
      -- and whatever the schedule, the ghosts have the coordinates of their owners and are otherwise as before
      (net.done → ∀ (q : Nat) (s : Info), out[q]? = some s → ∃ procs, ghostPrtns s = .ok procs ∧
        ∃ gh', coordFinish (plan q) rs.length q procs (net.got q) (side q).gh = .ok gh' ∧
          gh'.length = (side q).gh.length ∧
          ∀ (j : Nat) (g : GhVert D), (side q).gh[j]? = some g → ∃ o ∈ (side g.master).ov, o.gid = g.gid ∧
            gh'[j]? = some ⟨g.gid, g.master, o.x, o.y, o.z⟩) := by
  obtain ⟨out', ho', hlen, hprocs, hall⟩ := C32_partitions_agree h
  have : out' = out := by
    have := ho'.symm.trans ho
    injection this
  subst this
  have hk : (0:Nat) < 4 := by omega
  have hmat : Matched rs.length plan := by
    refine C33_plans_match h ho hk plan ?_
    intro p r s hr hs
    rw [(hside p r hr).2]
    exact ⟨_, _, hplan p s hs⟩
  refine ⟨(Net.start rs.length plan).left rs.length, fun steps net hex => ⟨(C33_no_deadlock hmat hex).2.1,
    fun hd => (C33_no_deadlock hmat hex).1.resolve_left hd, ?_⟩⟩
  intro hdone q sq hsq
  obtain ⟨procs, hp1, hp2, hp3⟩ := hprocs q sq hsq
  refine ⟨procs, hp1, ?_⟩
  have hqn : q < rs.length := by
    have := (List.getElem?_eq_some_iff.1 hsq).1
    omega
  have hrq := List.getElem?_eq_getElem hqn
  have hfin := (C33_no_deadlock hmat hex).2.2 hdone
  have hpq := hplan q sq hsq
  have hcond : ∀ i, i < rs.length → i ≠ q ∧ (plan q).ghosts i = true ∧ (plan q).recvSize i ≠ 0 →
      i ∈ procs ∧ net.got q i = [.ids ((side i).ov.map (·.gid)), .vals (coordsSent (side i).ov)] ∧
      ((side i).ov.map (·.gid)).length = (plan q).recvSize i ∧
      (coordsSent (side i).ov).length = (plan q).recvSize i * 3 := by
    rintro i hin ⟨hne, hg, hsz⟩
    have hri := List.getElem?_eq_getElem hin
    have hsi := List.getElem?_eq_getElem (l := out') (i := i) (by omega)
    obtain ⟨h1, h2, h3⟩ := hall i q _ _ _ _ hri hrq hsi hsq 0 hk
    have hrec : Receives sq i 0 := by
      rw [hpq] at hg
      have := of_decide_eq_true hg
      exact this
    have hsize : (plan q).recvSize i = (side i).ov.length := by
      rw [hpq]
      unfold coordPlan planOf
      dsimp only
      rw [h3 hrec, (hside i _ hri).2]
    refine ⟨(hp3 i).2 ⟨hin, 0, hk, hrec⟩, ?_, by rw [hsize, List.length_map], by rw [hsize, coordsSent_length]⟩
    rw [(hfin i q hin hqn hne).1]
    have hsend := (hmat i q hin hqn hne).2 ⟨hg, hsz⟩
    unfold messages
    rw [if_pos (by rw [hsend.1, decide_eq_true hsend.2]; rfl), hplan i _ hsi]
    rfl
  obtain ⟨b, hb1, -, hb3⟩ := recvAll_ok (n := rs.length) (got := net.got q) hcond (List.range rs.length)
    ⟨List.replicate ((procs.map (plan q).recvSize).sum) none,
     List.replicate ((procs.map (plan q).recvSize).sum * 3) none⟩ List.nodup_range
    (fun i hi => List.mem_range.1 hi) (by simp) (by simp)
  -- one ghost
  have hone : ∀ g ∈ (side q).gh, ∃ o ∈ (side g.master).ov, o.gid = g.gid ∧
      coordGhost (plan q).recvSize procs b g = .ok ⟨g.gid, g.master, o.x, o.y, o.z⟩ := by
    intro g hg
    obtain ⟨hne, hmn, o, hom, hoid⟩ := hlay.owner q hqn g hg
    refine ⟨o, hom, hoid, ?_⟩
    have hri := List.getElem?_eq_getElem hmn
    have hsi := List.getElem?_eq_getElem (l := out') (i := g.master) (by omega)
    obtain ⟨h1, h2, h3⟩ := hall g.master q _ _ _ _ hri hrq hsi hsq 0 hk
    have hrec : Receives sq g.master 0 := h2.2 (Or.inr ⟨hne, by
      rw [(hside q _ hrq).1]; exact List.mem_map_of_mem hg⟩)
    have hsize : (plan q).recvSize g.master = (side g.master).ov.length := by
      rw [hpq]
      unfold coordPlan planOf
      dsimp only
      rw [h3 hrec, (hside _ _ hri).2]
    have hpos : (plan q).recvSize g.master ≠ 0 := by
      rw [hsize]
      intro hc
      rw [List.length_eq_zero_iff.1 hc] at hom
      cases hom
    have hgh : (plan q).ghosts g.master = true := by
      rw [hpq]
      unfold coordPlan planOf
      dsimp only
      unfold Receives at hrec
      rw [hrec]
      rfl
    have hc := hcond g.master hmn ⟨hne, hgh, hpos⟩
    have hh := hb3 g.master (List.mem_range.2 hmn) ⟨hne, hgh, hpos⟩
    obtain ⟨pos, hpo, -, -⟩ := posOf_some (size := (plan q).recvSize) (acc := 0) hc.1
    obtain ⟨t, ht, hto⟩ := List.mem_iff_getElem.1 hom
    have hto' : (side g.master).ov[t]? = some o := by rw [List.getElem?_eq_getElem ht, hto]
    unfold coordGhost
    rw [hpo]
    dsimp only
    rw [bsearchAt_ok (base := pos) (t := t) (hlay.sorted g.master hmn) (fun j hj => by
        refine hh.ids pos hpo j ?_
        rw [← hc.2.2.1]; exact hj) (by
        rw [List.getElem?_map, hto', ← hoid]; rfl) _ _ _ rfl (by omega) (by omega) (by omega)
        (by rw [hsize, List.length_map]; exact Nat.le_refl _), Res.bind_ok]
    dsimp only
    rw [readAt_ok (n := 3) (x := [o.x, o.y, o.z]) rfl (fun j hj => ?_), Res.bind_ok]
    have hlt : t * 3 + j < (plan q).recvSize g.master * 3 := by omega
    have := hh.vals pos hpo (t * 3 + j) hlt
    rw [show (pos + t) * 3 + j = pos * 3 + (t * 3 + j) from by omega, this, coordsSent_at _ t o hto' j hj]
  obtain ⟨gh', m1, m2, m3⟩ := mapR_ok (g := coordGhost (plan q).recvSize procs b)
    (as := (side q).gh) (fun g hg => by
      obtain ⟨o, -, -, ho⟩ := hone g hg
      exact ⟨_, ho⟩)
  refine ⟨gh', ?_, m2, ?_⟩
  · unfold coordFinish
    dsimp only
    rw [hb1, Res.bind_ok, m1]
  · intro j g hj
    obtain ⟨o, ho1, ho2, ho3⟩ := hone g (List.mem_of_getElem? hj)
    refine ⟨o, ho1, ho2, ?_⟩
    obtain ⟨g', e1, e2⟩ := m3 j g hj
    rw [ho3] at e2
    injection e2 with e2
    rw [e1, e2]

/-- a vertex at (0, 1, 2) whose ghost is somewhere else -/
def twoVerts : Nat → VSide Int
  | 0 => ⟨[⟨7, 0, 1, 2⟩], []⟩
  | 1 => ⟨[], [⟨7, 0, 5, 6, 7⟩]⟩
  | _ => ⟨[], []⟩

/-- the theorem applies: the ghost is at (0, 1, 2) afterwards -/
example : ∃ out, updateParAdj twoRanks = .ok out ∧
    ∀ plan : Nat → Plan (Msg Int), (∀ (p : Nat) (s : Info), out[p]? = some s → plan p = coordPlan s (twoVerts p).ov) →
    ∀ (steps : Nat) (net : Net (Msg Int)), Exec steps (Net.start 2 plan) net → net.done →
    ∀ s, out[1]? = some s → ∃ procs, ghostPrtns s = .ok procs ∧
      coordFinish (plan 1) 2 1 procs (net.got 1) (twoVerts 1).gh = .ok [⟨7, 0, 0, 1, 2⟩] := by
  have hlen : twoRanks.length = 2 := rfl
  have two : ∀ p, p < twoRanks.length → p = 0 ∨ p = 1 := by intro p hp; omega
  obtain ⟨out, h1, -⟩ := C32_partitions_agree twoRanks_partitions
  have hlay : VLayout twoRanks.length twoVerts := by
    refine ⟨?_, ?_⟩
    · intro p hp
      rcases two p hp with rfl | rfl <;> simp [twoVerts]
    · intro q hq g hg
      rcases two q hq with rfl | rfl
      · cases hg
      · rw [List.mem_singleton.1 hg]
        exact ⟨(by decide : (0:Nat) ≠ 1), (by decide : 0 < twoRanks.length), ⟨7, 0, 1, 2⟩, List.mem_singleton.2 rfl, rfl⟩
  refine ⟨out, h1, ?_⟩
  intro plan hplan steps net hex hdone s hs
  obtain ⟨bound, hb⟩ := C84_coords twoRanks_partitions h1 hlay (by
    intro p r hr
    match p, hr with
    | 0, hr => injection hr with hr; rw [← hr]; exact ⟨rfl, rfl⟩
    | 1, hr => injection hr with hr; rw [← hr]; exact ⟨rfl, rfl⟩
    | p + 2, hr => simp [twoRanks] at hr) hplan
  obtain ⟨procs, h4, gh', h5, h6, h7⟩ := (hb steps net hex).2.2 hdone 1 s hs
  refine ⟨procs, h4, ?_⟩
  have h5' : coordFinish (plan 1) 2 1 procs (net.got 1) (twoVerts 1).gh = .ok gh' := h5
  rw [h5']
  obtain ⟨o, ho, -, h8⟩ := h7 0 ⟨7, 0, 5, 6, 7⟩ rfl
  have ho : o = ⟨7, 0, 1, 2⟩ := List.mem_singleton.1 ho
  rw [ho] at h8
  match gh', h6, h8 with
  | [g], _, h8 =>
    injection h8 with h8
    rw [h8]

end MSTK.Par
