import Verif.GhostSpec
import Verif.GhostLemmas
/-!
Every legal history keeps the ghost lists and the search lists in the order the specification says.
-/
namespace MSTK
namespace Ghost
open CList

/-! ## the invariant -/

def SrchOk (o : Option (CList Nat)) (p : KSpec) : Prop :=
  match p.srch with
  | .absent => o = none
  | .stale => o ≠ none
  | .unsorted => p.live ≠ [] ∧ ∃ l, o = some l ∧ l.Inv ∧ l.abs.Perm p.live
  | .ready => p.live ≠ [] ∧ ∃ l, o = some l ∧ l.Inv ∧ l.nrem = 0 ∧ l.abs.Perm p.live ∧
      l.abs.Pairwise fun x y => p.gid x ≤ p.gid y

structure KOk (p : KSpec) (s : St) : Prop where
  base : MeshL.Ok s.base p.live
  next : s.base.next = p.created
  lst : s.base.lst = none ↔ p.created = 0
  gid : s.gid = p.gid
  pt : s.pt = p.pt
  range : ∀ v, 0 ≤ p.gid v ∧ p.gid v < 2147483648
  alive : ∀ v ∈ p.live, s.freed v = false
  gh : p.fresh = true → Keeps s.gh p.gid (p.labelled .ghost)
  ov : p.fresh = true → Keeps s.ov p.gid (p.labelled .overlap)
  srch : SrchOk s.srch p

theorem KOk.blind (p : KSpec) : Blind (KOk p) := fun _ _ h =>
  ⟨⟨h.base.lstN, h.base.lst, h.base.nv, h.base.inc, h.base.rng, h.base.max0, h.base.lt⟩, h.next, h.lst, h.gid, h.pt,
    h.range, h.alive, h.gh, h.ov, h.srch⟩

structure MOk (q : MSpec) (m : M) : Prop where
  k : ∀ i, KOk (q i) (m.k i)
  gs : (∃ i, (q i).srch ≠ .absent) → m.gsorted = true

theorem MOk.set {q : MSpec} {m : M} (h : MOk q m) {i : Fin 4} {p : KSpec} {s : St} (hk : KOk p s)
    (hs : p.srch ≠ .absent → (q i).srch ≠ .absent) : MOk (setS q i p) (m.set i s) := by
  refine ⟨fun j => ?_, fun ⟨j, hj⟩ => h.gs ?_⟩
  · by_cases hij : j = i
    · subst hij; simpa [setS, M.set] using hk
    · simp only [setS, M.set, if_neg hij]
      exact KOk.blind _ _ _ (h.k j)
  · by_cases hij : j = i
    · subst hij; exact ⟨j, hs (by simpa [setS] using hj)⟩
    · exact ⟨j, by simpa [setS, hij] using hj⟩

theorem SrchOk.touched {o : Option (CList Nat)} {p p' : KSpec} (h : SrchOk o p) (hp : p'.srch = p.srch.touched) :
    SrchOk o p' := by
  unfold SrchOk at *
  rw [hp]
  cases hs : p.srch <;> rw [hs] at h <;> simp only [Srch.touched] at *
  · exact h
  · obtain ⟨-, l, rfl, _⟩ := h; simp
  · obtain ⟨-, l, rfl, _⟩ := h; simp
  · exact h

theorem touched_absent {x : Srch} (h : x.touched ≠ .absent) : x ≠ .absent := by
  rintro rfl; exact h rfl

theorem init_mok : MOk (fun _ => .init) M.init := by
  refine ⟨fun i => ⟨MeshL.init_ok, rfl, by simp [M.init, St.init, MeshL.init, KSpec.init], rfl, rfl, by simp [KSpec.init],
    by simp [KSpec.init], by simp [KSpec.init], by simp [KSpec.init], rfl⟩, fun ⟨i, hi⟩ => absurd rfl hi⟩

/-! ## the steps -/

theorem filter_updF {α : Type} [DecidableEq α] {f : Nat → α} {v : Nat} {a t : α} {L : List Nat} (hv : v ∉ L) :
    (L.filter fun w => updF f v a w = t) = L.filter fun w => f w = t := by
  apply List.filter_congr
  intro w hw
  have : w ≠ v := fun h => hv (h ▸ hw)
  simp [updF, this]

theorem Keeps.congr {o : Option (CList Nat)} {g g' : Nat → Int} {L : List Nat} (h : Keeps o g L)
    (hg : ∀ v ∈ L, g' v = g v) : Keeps o g' L := by
  cases o with
  | none => exact h
  | some l =>
    refine ⟨h.1, h.2.1, ?_⟩
    refine (List.Pairwise.and_mem.mp h.2.2).imp ?_
    rintro a b ⟨ha, hb, hab⟩
    rw [hg a (h.2.1.mem_iff.mp ha), hg b (h.2.1.mem_iff.mp hb)]; exact hab

theorem new_kok {p : KSpec} {s : St} (h : KOk p s) : ∃ s', s.new = .ok s' ∧ KOk p.new s' := by
  obtain ⟨b, e1, e2, e3, -, -, e4, -⟩ := MeshL.new_ok h.base
  have hno : p.created ∉ p.live := fun hc => by
    have := h.base.lt _ hc; rw [h.next] at this; omega
  have hlab : ∀ t, t ≠ .interior → p.new.labelled t = p.labelled t := by
    intro t ht
    unfold KSpec.labelled KSpec.new
    simp only [List.filter_append, filter_updF hno]
    rw [List.filter_cons_of_neg (by simp [updF, ht.symm])]
    simp
  have hkeep : ∀ {o t}, t ≠ .interior → Keeps o p.gid (p.labelled t) → Keeps o p.new.gid (p.new.labelled t) := by
    intro o t ht hk
    rw [hlab t ht]
    refine hk.congr fun v hv => ?_
    have : v ≠ p.created := fun hc => hno (hc ▸ (List.mem_filter.mp hv).1)
    simp [KSpec.new, updF, this]
  refine ⟨{ s with base := b, gid := updF s.gid s.base.next 0, pt := updF s.pt s.base.next .interior,
                   freed := updF s.freed s.base.next false }, by
    unfold St.new; simp only [e1, Res.bind_ok, Res.pure_eq], ?_⟩
  refine ⟨?_, ?_, ?_, ?_, ?_, ?_, ?_, ?_, ?_, ?_⟩
  · rw [h.next] at e2; exact e2
  · simp only [KSpec.new]; rw [e3, h.next]
  · simp [KSpec.new, e4]
  · simp only [KSpec.new, h.gid, h.next]
  · simp only [KSpec.new, h.pt, h.next]
  · intro v
    simp only [KSpec.new, updF]
    split
    · omega
    · exact h.range v
  · intro v hv
    simp only [KSpec.new, List.mem_append, List.mem_singleton] at hv
    simp only [updF, h.next]
    split
    · rfl
    · rename_i hne
      exact h.alive v (hv.resolve_right hne)
  · exact fun hf => hkeep (by simp) (h.gh hf)
  · exact fun hf => hkeep (by simp) (h.ov hf)
  · exact h.srch.touched rfl

theorem erase_filter {L : List Nat} (hn : L.Nodup) (f : Nat → Bool) (v : Nat) :
    (L.erase v).filter f = (L.filter f).erase v := by
  rw [hn.erase_eq_filter, (hn.filter f).erase_eq_filter, List.filter_filter, List.filter_filter]
  congr 1; funext x; exact Bool.and_comm _ _

theorem labelled_delete {p : KSpec} (hn : p.live.Nodup) (v : Nat) (t : PT) :
    (p.delete v).labelled t = (p.labelled t).erase v := erase_filter hn _ v

theorem Keeps.erase_other {o : Option (CList Nat)} {g : Nat → Int} {L : List Nat} (h : Keeps o g L) {v : Nat}
    (hv : v ∉ L) : Keeps o g (L.erase v) := by rw [List.erase_of_not_mem hv]; exact h

theorem delete_kok {p : KSpec} {s : St} (h : KOk p s) {v : Nat} (hv : v ∈ p.live)
    (hd : ∀ t, t = .ghost ∨ t = .overlap → p.pt v = t → p.fresh = true ∧ p.distinct t) (keep : Bool) :
    ∃ s', s.delete v keep = .ok s' ∧ KOk (p.delete v) s' := by
  obtain ⟨b, e1, e2, e3, -, e4, e5, -⟩ := MeshL.delete_ok h.base hv
  replace e1 : MeshL.remVertex s.base v = .ok b := e1
  have hnd := h.base.inc.nodup
  have hlst : s.base.lst ≠ none := by
    intro hc
    rw [(h.base.lstN hc).1] at hv; simp at hv
  have hcr : p.created ≠ 0 := fun hc => hlst (h.lst.mpr hc)
  have hmem : ∀ t, v ∈ p.labelled t ↔ p.pt v = t := fun t => by
    unfold KSpec.labelled; simp [hv]
  have hgid : (p.delete v).gid = p.gid := rfl
  -- the kind with the main list changed is in order but for its ghost lists
  have main : ∀ (b' : MeshL.St), MeshL.Ok b' (p.live.erase v) → b'.next = s.base.next → b'.lst ≠ none →
      ∀ (g o : Option (CList Nat)) (fr : Nat → Bool), (∀ w, w ≠ v → fr w = s.freed w) →
      (p.fresh = true → Keeps g p.gid ((p.labelled .ghost).erase v)) →
      (p.fresh = true → Keeps o p.gid ((p.labelled .overlap).erase v)) →
      KOk (p.delete v) { s with base := b', gh := g, ov := o, freed := fr } := by
    intro b' hb hnx hl g o fr hfr hg ho
    refine ⟨hb, hnx.trans h.next, by simp [KSpec.delete, hl, hcr], h.gid, h.pt, h.range, fun w hw => ?_,
      fun hf => by rw [labelled_delete hnd]; exact hg hf, fun hf => by rw [labelled_delete hnd]; exact ho hf,
      h.srch.touched rfl⟩
    have hw' : w ≠ v ∧ w ∈ p.live := (hnd.mem_erase_iff).mp hw
    show fr w = false
    rw [hfr w hw'.1]; exact h.alive w hw'.2
  have hfr : ∀ w, w ≠ v → (if keep then s.freed else updF s.freed v true) w = s.freed w := by
    intro w hw
    split
    · rfl
    · simp [updF, hw]
  obtain ⟨l0, hl0⟩ := Option.ne_none_iff_exists'.mp hlst
  unfold St.delete
  rw [h.pt]
  by_cases hg : p.pt v = .ghost
  · obtain ⟨hf, hdis⟩ := hd .ghost (Or.inl rfl) hg
    rw [if_pos hg]
    have hk := h.gh hf
    cases hgl : s.gh with
    | none =>
      rw [hgl] at hk
      have := (hmem .ghost).mpr hg
      rw [show p.labelled .ghost = [] from hk] at this; simp at this
    | some l =>
      rw [hgl] at hk
      obtain ⟨l', k1, k2⟩ := hk.rem hdis ((hmem .ghost).mpr hg)
      have hrem : s.remGhost v = .ok { s with base := { b with sorted := s.base.sorted }, gh := some l' } := by
        unfold St.remGhost
        simp only [hgl, hl0, e1, Res.bind_ok, h.gid, k1]
        simp
      rw [hrem]
      have := main { b with sorted := s.base.sorted }
        ⟨e2.lstN, e2.lst, e2.nv, e2.inc, e2.rng, e2.max0, e2.lt⟩ e3 e4 (some l') s.ov
        (if keep then s.freed else updF s.freed v true) hfr (fun _ => k2)
        (fun hf => (h.ov hf).erase_other (fun hc => by rw [hmem, hg] at hc; simp at hc))
      refine ⟨_, rfl, ?_⟩
      cases keep <;> simpa using this
  · rw [if_neg hg]
    by_cases ho : p.pt v = .overlap
    · obtain ⟨hf, hdis⟩ := hd .overlap (Or.inr rfl) ho
      have hk := h.ov hf
      cases hol : s.ov with
      | none =>
        rw [hol] at hk
        have := (hmem .overlap).mpr ho
        rw [show p.labelled .overlap = [] from hk] at this; simp at this
      | some l =>
        rw [hol] at hk
        obtain ⟨l', k1, k2⟩ := hk.rem hdis ((hmem .overlap).mpr ho)
        have hrem : s.remVertex v = .ok { s with base := b, ov := some l' } := by
          unfold St.remVertex
          simp only [hl0, e1, Res.bind_ok, h.pt, if_pos ho, hol, h.gid, k1]
          simp
        rw [hrem]
        have := main b e2 e3 e4 s.gh (some l')
          (if keep then s.freed else updF s.freed v true) hfr
          (fun hf => (h.gh hf).erase_other (fun hc => by rw [hmem] at hc; exact hg hc)) (fun _ => k2)
        refine ⟨_, rfl, ?_⟩
        cases keep <;> simpa using this
    · have hrem : s.remVertex v = .ok { s with base := b } := by
        unfold St.remVertex
        simp only [hl0, e1, Res.bind_ok, h.pt, if_neg ho, Res.pure_eq]
      rw [hrem]
      have := main b e2 e3 e4 s.gh s.ov (if keep then s.freed else updF s.freed v true) hfr
        (fun hf => (h.gh hf).erase_other (fun hc => by rw [hmem] at hc; exact hg hc))
        (fun hf => (h.ov hf).erase_other (fun hc => by rw [hmem] at hc; exact ho hc))
      refine ⟨_, rfl, ?_⟩
      cases keep <;> simpa using this

theorem setPT_kok {p : KSpec} {s : St} (h : KOk p s) (v : Nat) (t : PT) :
    KOk { p with pt := updF p.pt v t, fresh := false } (s.setPT v t) :=
  ⟨h.base, h.next, h.lst, h.gid, by unfold St.setPT; rw [h.pt], h.range, h.alive, by simp, by simp, h.srch⟩

theorem setGID_kok {p : KSpec} {s : St} (h : KOk p s) (v : Nat) {g : Int} (hg : 0 ≤ g ∧ g < 2147483648) :
    KOk { p with gid := updF p.gid v g, fresh := false, srch := p.srch.shuffled } (s.setGID v g) := by
  refine ⟨h.base, h.next, h.lst, by unfold St.setGID; rw [h.gid], h.pt, fun w => ?_, h.alive, by simp, by simp, ?_⟩
  · simp only [updF]
    split
    · exact hg
    · exact h.range w
  · have := h.srch
    show SrchOk s.srch _
    unfold SrchOk at *
    cases hs : p.srch <;> rw [hs] at this <;> simp only [Srch.shuffled] at *
    · exact this
    · obtain ⟨n, l, a, b, c, d, _⟩ := this; exact ⟨n, l, a, b, d⟩
    · exact this
    · exact this

theorem build_kok {p : KSpec} {s : St} (h : KOk p s) (hf : p.fresh = false) (hg : s.gh = none) (ho : s.ov = none) :
    ∃ s', s.build = .ok s' ∧ KOk p s' ∧ Holds s'.gh (p.labelled .ghost) ∧ Holds s'.ov (p.labelled .overlap) := by
  unfold St.build
  cases hl : s.base.lst with
  | none =>
    have := (h.base.lstN hl).1
    refine ⟨s, rfl, h, ?_, ?_⟩ <;> simp [Holds, hg, ho, KSpec.labelled, this]
  | some l =>
    obtain ⟨h1, h2⟩ := h.base.lst l hl
    obtain ⟨g, o, k1, k2, k3⟩ := buildLoop_spec h1 (l.ntot + 1) [] l.slots s [] [] rfl (by rw [h1.ntot]; omega)
      (fun v hv => by
        have : v ∈ p.live := by rw [← h2]; exact hv
        have := h.base.rng v this; omega) (by rw [hg]; rfl) (by rw [ho]; rfl)
    have hab : l.slots.filterMap id = p.live := h2
    rw [hab, h.pt] at k2 k3
    refine ⟨_, k1, ⟨h.base, h.next, h.lst, h.gid, h.pt, h.range, h.alive, fun hc => ?_, fun hc => ?_, h.srch⟩, ?_, ?_⟩
    · rw [hf] at hc; simp at hc
    · rw [hf] at hc; simp at hc
    · exact k2
    · exact k3

theorem sortGhosts_kok {p : KSpec} {s : St} (h : KOk p s) (hf : p.fresh = false) {G O : List Nat}
    (hG : ∀ v ∈ G, v ∈ p.live) (hO : ∀ v ∈ O, v ∈ p.live) (hg : Holds s.gh G) (ho : Holds s.ov O) :
    ∃ s', s.sortGhosts = .ok s' ∧ KOk p s' ∧ Keeps s'.gh p.gid G ∧ Keeps s'.ov p.gid O := by
  have hr : ∀ v, 0 ≤ s.gid v ∧ s.gid v < 2147483648 := by rw [h.gid]; exact h.range
  obtain ⟨g, e1, e2⟩ := sortOne_spec hg hr (fr := s.freed) fun v hv => h.alive v (hG v hv)
  obtain ⟨o, k1, k2⟩ := sortOne_spec ho hr (fr := s.freed) fun v hv => h.alive v (hO v hv)
  rw [h.gid] at e2 k2
  refine ⟨{ s with gh := g, ov := o }, by unfold St.sortGhosts; simp only [e1, k1, Res.bind_ok, Res.pure_eq],
    ⟨h.base, h.next, h.lst, h.gid, h.pt, h.range, h.alive, fun hc => ?_, fun hc => ?_, h.srch⟩, e2, k2⟩
  · rw [hf] at hc; simp at hc
  · rw [hf] at hc; simp at hc

theorem KOk.refresh {p : KSpec} {s : St} (h : KOk { p with fresh := false } s) {b : Bool}
    (hg : b = true → Keeps s.gh p.gid (p.labelled .ghost)) (ho : b = true → Keeps s.ov p.gid (p.labelled .overlap)) :
    KOk { p with fresh := b } s :=
  ⟨h.base, h.next, h.lst, h.gid, h.pt, h.range, h.alive, hg, ho, h.srch⟩

/-- the kinds for which `MESH_Build_GhostLists` makes lists -/
def kindsOf (d : Nat) : List (Fin 4) := if d = 3 then [0, 1, 2, 3] else [0, 1, 2]

theorem mem_kinds (i : Fin 4) : i ∈ ([0, 1, 2, 3] : List (Fin 4)) := by revert i; decide

theorem build_mok {q : MSpec} {m : M} (h : MOk q m) {d : Nat} (hd : d = 2 ∨ d = 3) :
    ∃ m', m.build d = .ok m' ∧ MOk (q.step (.build d)) m' := by
  have hb : ∀ i : Fin 4, Blind (fun s => KOk { q i with fresh := false } s ∧ s.gh = none ∧ s.ov = none) :=
    fun i s b ⟨x, y, z⟩ => ⟨KOk.blind _ s b x, y, z⟩
  have hb' : ∀ i : Fin 4, Blind (fun s => KOk { q i with fresh := false } s ∧ Holds s.gh ((q i).labelled .ghost) ∧
      Holds s.ov ((q i).labelled .overlap)) := fun i s b ⟨x, y, z⟩ => ⟨KOk.blind _ s b x, y, z⟩
  have hk : ∀ i, KOk { q i with fresh := false } ({ m.k i with gh := none, ov := none } : St) := fun i => by
    have := h.k i
    exact ⟨this.base, this.next, this.lst, this.gid, this.pt, this.range, this.alive, by simp, by simp, this.srch⟩
  obtain ⟨m1, e1, e2, e3⟩ := forK_spec (f := St.build) hb hb' (kindsOf d) (by unfold kindsOf; split <;> decide)
    (fun i _ s ⟨x, y, z⟩ => by
      obtain ⟨s', k1, k2, k3, k4⟩ := build_kok x rfl y z
      exact ⟨s', k1, k2, k3, k4⟩)
    { m with k := fun i => { m.k i with gh := none, ov := none } }
    (fun i s => KOk { q i with fresh := false } s ∧ s.gh = none ∧ s.ov = none) hb
    (fun i => by split <;> exact ⟨hk i, rfl, rfl⟩)
  have hA : ∀ i : Fin 4, Blind (fun s => if i ∈ kindsOf d then KOk { q i with fresh := false } s ∧
      Holds s.gh ((q i).labelled .ghost) ∧ Holds s.ov ((q i).labelled .overlap)
      else KOk { q i with fresh := false } s ∧ s.gh = none ∧ s.ov = none) := fun i s b hs => by
    by_cases hi : i ∈ kindsOf d
    · simp only [if_pos hi] at *; exact hb' i s b hs
    · simp only [if_neg hi] at *; exact hb i s b hs
  obtain ⟨m2, g1, g2, g3⟩ := forK_spec (f := St.sortGhosts) hA
    (B := fun i s => KOk ((q.step (.build d)) i) s) (fun i => KOk.blind _) [0, 1, 2, 3] (by decide)
    (fun i _ s hs => by
      have hmem : ∀ t, ∀ v ∈ (q i).labelled t, v ∈ (q i).live := fun t v hv => (List.mem_filter.mp hv).1
      by_cases hi : i ∈ kindsOf d
      · rw [if_pos hi] at hs
        obtain ⟨s', k1, k2, k3, k4⟩ := sortGhosts_kok hs.1 rfl (hmem .ghost) (hmem .overlap) hs.2.1 hs.2.2
        exact ⟨s', k1, k2.refresh (fun _ => k3) (fun _ => k4)⟩
      · rw [if_neg hi] at hs
        obtain ⟨s', k1, k2, -, -⟩ := sortGhosts_kok hs.1 rfl (G := []) (O := []) (by simp) (by simp)
          (by rw [hs.2.1]; rfl) (by rw [hs.2.2]; rfl)
        have hfalse : decide (d = 3 ∨ i ≠ 3) = false := by
          have h2 : ∀ i : Fin 4, i ∉ kindsOf 2 → i = 3 := by decide
          have h3 : ∀ i : Fin 4, i ∈ kindsOf 3 := by decide
          rcases hd with rfl | rfl
          · simp [h2 i hi]
          · exact absurd (h3 i) hi
        refine ⟨s', k1, ?_⟩
        show KOk { q i with fresh := decide (d = 3 ∨ i ≠ 3) } s'
        rw [hfalse]; exact k2) m1 (fun _ _ => True) (fun _ _ _ _ => trivial) (fun i => by
      rw [if_pos (mem_kinds i)]; exact e3 i)
  refine ⟨m2, ?_, fun i => ?_, fun ⟨i, hi⟩ => ?_⟩
  · unfold M.build
    rcases hd with rfl | rfl
    · simp only [kindsOf, if_neg (show ¬ (2 = 3) by omega)] at e1
      simp [e1, g1]
    · simp only [kindsOf, if_pos] at e1
      simp [e1, g1]
  · have := g3 i
    rw [if_pos (mem_kinds i)] at this
    exact this
  · rw [g2, e2]; exact h.gs ⟨i, hi⟩

theorem copy_kok {p : KSpec} {s : St} (h : KOk p s) (hs : p.srch ≠ .stale) :
    ∃ s', s.copyList = .ok s' ∧
      KOk { p with srch := if p.srch = .absent ∧ p.live ≠ [] then .unsorted else p.srch } s' := by
  have hnv := h.base.nv
  have hsr := h.srch
  unfold St.copyList
  by_cases hn : s.base.nv = 0
  · rw [if_neg (by omega)]
    have hlive : p.live = [] := List.eq_nil_of_length_eq_zero (by omega)
    refine ⟨s, rfl, ?_⟩
    rw [if_neg (by simp [hlive])]
    exact h
  · rw [if_pos hn]
    have hlive : p.live ≠ [] := fun hc => hn (by rw [hnv, hc]; rfl)
    by_cases ha : p.srch = .absent
    · have hnone : s.srch = none := by unfold SrchOk at hsr; rw [ha] at hsr; exact hsr
      have hl : s.base.lst ≠ none := fun hc => hn (h.base.lstN hc).2
      obtain ⟨l, hl⟩ := Option.ne_none_iff_exists'.mp hl
      obtain ⟨h1, h2⟩ := h.base.lst l hl
      refine ⟨{ s with srch := some l }, ?_, ?_⟩
      · simp only [hnone, hl, copy_spec h1, Res.bind_ok, Res.pure_eq]
      · rw [if_pos ⟨ha, hlive⟩]
        exact ⟨h.base, h.next, h.lst, h.gid, h.pt, h.range, h.alive, h.gh, h.ov, hlive, l, rfl, h1, by rw [h2]⟩
    · have hsome : ∃ l, s.srch = some l := by
        unfold SrchOk at hsr
        cases hp : p.srch <;> rw [hp] at hsr
        · exact absurd hp ha
        · obtain ⟨-, l, hl, -⟩ := hsr; exact ⟨l, hl⟩
        · obtain ⟨-, l, hl, -⟩ := hsr; exact ⟨l, hl⟩
        · exact absurd hp hs
      obtain ⟨l, hl⟩ := hsome
      refine ⟨s, by simp only [hl], ?_⟩
      rw [if_neg (fun hc => ha hc.1)]
      exact h

theorem sortSearch_kok {p : KSpec} {s : St} (h : KOk p s) (hs : p.srch ≠ .stale) :
    ∃ s', s.sortSearch = .ok s' ∧ KOk { p with srch := p.srch.sorted } s' := by
  have hnv := h.base.nv
  have hsr := h.srch
  have keep : p.live ≠ [] → ∀ l, l.Inv → l.abs.Perm p.live → s.srch = some l → p.srch.sorted = .ready →
      ∃ s', s.sortSearch = .ok s' ∧ KOk { p with srch := p.srch.sorted } s' := by
    intro hlive l h1 h2 h3 h4
    obtain ⟨l1, c1, c2, c3, c4⟩ := compress_spec h1
    obtain ⟨l2, e1, e2, e3, e4, e5⟩ := sortG_spec c2 c4 (g := s.gid) (fr := s.freed) (by rw [h.gid]; exact h.range)
      (fun v hv => h.alive v (h2.mem_iff.mp (by rw [← c3]; exact hv))) (num := s.base.nv) (by
        rw [hnv, c3, h2.length_eq])
    refine ⟨{ s with srch := some l2 }, ?_, ?_⟩
    · unfold St.sortSearch
      rw [if_pos (by rw [hnv]; exact fun hc => hlive (List.eq_nil_of_length_eq_zero hc))]
      simp only [h3, c1, Res.bind_ok, e1, Res.pure_eq]
    · refine ⟨h.base, h.next, h.lst, h.gid, h.pt, h.range, h.alive, h.gh, h.ov, ?_⟩
      show SrchOk (some l2) _
      unfold SrchOk
      simp only [h4]
      rw [h.gid] at e5
      exact ⟨hlive, l2, rfl, e2, e3, e4.trans (by rw [c3]; exact h2), e5⟩
  unfold SrchOk at hsr
  cases hp : p.srch <;> rw [hp] at hsr
  · refine ⟨s, by unfold St.sortSearch; simp only [hsr]; split <;> rfl, ?_⟩
    show KOk { p with srch := .absent } s
    rw [← hp]; exact h
  · obtain ⟨n, l, a, b, c, d, e⟩ := hsr
    rw [← hp]
    exact keep n l b d a (by rw [hp]; rfl)
  · obtain ⟨n, l, a, b, d⟩ := hsr
    rw [← hp]
    exact keep n l b d a (by rw [hp]; rfl)
  · exact absurd hp hs

theorem resort_mok {q : MSpec} {m : M} (h : ∀ i, KOk (q i) (m.k i)) (hs : ∀ i, (q i).srch ≠ .stale) :
    ∃ m', m.sortSearch = .ok m' ∧ MOk (q.step .resort) m' := by
  obtain ⟨m1, e1, e2, e3⟩ := forK_spec (f := St.sortSearch) (A := fun i => KOk (q i))
    (B := fun i => KOk { q i with srch := (q i).srch.sorted }) (fun i => KOk.blind _) (fun i => KOk.blind _)
    [0, 1, 2, 3] (by decide) (fun i _ s hk => sortSearch_kok hk (hs i)) m (fun _ _ => True) (fun _ _ _ _ => trivial)
    (fun i => by rw [if_pos (mem_kinds i)]; exact h i)
  refine ⟨{ m1 with gsorted := true }, by unfold M.sortSearch; simp only [e1, Res.bind_ok, Res.pure_eq], fun i => ?_,
    fun _ => rfl⟩
  have := e3 i
  rw [if_pos (mem_kinds i)] at this
  exact this

theorem enable_mok {q : MSpec} {m : M} (h : MOk q m) (hs : ∀ i, (q i).srch ≠ .stale) :
    ∃ m', m.enable = .ok m' ∧ MOk (q.step .enable) m' := by
  obtain ⟨m1, e1, e2, e3⟩ := forK_spec (f := St.copyList) (A := fun i => KOk (q i))
    (B := fun i => KOk { q i with srch := if (q i).srch = .absent ∧ (q i).live ≠ [] then .unsorted else (q i).srch })
    (fun i => KOk.blind _) (fun i => KOk.blind _)
    [0, 1, 2, 3] (by decide) (fun i _ s hk => copy_kok hk (hs i)) m (fun _ _ => True) (fun _ _ _ _ => trivial)
    (fun i => by rw [if_pos (mem_kinds i)]; exact h.k i)
  obtain ⟨m2, k1, k2⟩ := resort_mok
    (q := fun i => { q i with srch := if (q i).srch = .absent ∧ (q i).live ≠ [] then .unsorted else (q i).srch })
    (m := m1) (fun i => by have := e3 i; rw [if_pos (mem_kinds i)] at this; exact this) (fun i => by
      simp only
      split
      · simp
      · exact hs i)
  refine ⟨m2, by unfold M.enable; simp only [e1, Res.bind_ok, k1], ?_⟩
  have hq : (MSpec.step q .enable) = MSpec.step
      (fun i => { q i with srch := if (q i).srch = .absent ∧ (q i).live ≠ [] then .unsorted else (q i).srch }) .resort := by
    funext i
    simp only [MSpec.step, KSpec.enable]
    by_cases hc : (q i).srch = .absent ∧ (q i).live ≠ []
    · rw [if_pos hc, if_pos hc]; rfl
    · rw [if_neg hc, if_neg hc]
  rw [hq]; exact k2

theorem step_mok {q : MSpec} {m : M} (h : MOk q m) (o : Op) (hl : o.legal q) :
    ∃ m', m.step o = .ok m' ∧ MOk (q.step o) m' := by
  cases o with
  | new k =>
    obtain ⟨s', e1, e2⟩ := new_kok (h.k k)
    exact ⟨m.set k s', by unfold M.step; simp only [e1, Res.bind_ok, Res.pure_eq], h.set e2 touched_absent⟩
  | delete k v keep =>
    obtain ⟨s', e1, e2⟩ := delete_kok (h.k k) hl.1 hl.2 keep
    exact ⟨m.set k s', by unfold M.step; simp only [e1, Res.bind_ok, Res.pure_eq], h.set e2 touched_absent⟩
  | setPT k v t => exact ⟨_, rfl, h.set (setPT_kok (h.k k) v t) id⟩
  | setGID k v g =>
    exact ⟨_, rfl, h.set (setGID_kok (h.k k) v hl.2) (fun hc ha => hc (by
      show (q k).srch.shuffled = .absent
      rw [ha]; rfl))⟩
  | build d => exact build_mok h hl
  | enable => exact enable_mok h hl
  | resort => exact resort_mok h.k hl
  | disable =>
    refine ⟨_, rfl, fun i => ?_, fun ⟨i, hi⟩ => absurd rfl hi⟩
    have := h.k i
    exact ⟨this.base, this.next, this.lst, this.gid, this.pt, this.range, this.alive, this.gh, this.ov, rfl⟩

theorem run_mok (ops : List Op) : ∀ (q : MSpec) (m : M), MOk q m → legal q ops →
    ∃ m', m.run ops = .ok m' ∧ MOk (ops.foldl MSpec.step q) m' := by
  induction ops with
  | nil => intro q m h _; exact ⟨m, rfl, h⟩
  | cons o os ih =>
    intro q m h hl
    obtain ⟨m1, e1, e2⟩ := step_mok h o hl.1
    obtain ⟨m2, k1, k2⟩ := ih _ m1 e2 hl.2
    exact ⟨m2, by simp only [M.run, e1, Res.bind_ok, k1], k2⟩

theorem run_init (ops : List Op) (hl : legal (fun _ => .init) ops) :
    ∃ m, M.init.run ops = .ok m ∧ MOk (specRun ops) m := run_mok ops _ _ init_mok hl

end Ghost
end MSTK
