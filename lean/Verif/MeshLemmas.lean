import Verif.MeshModel
import Verif.ListLemmas
import Verif.Props.RemSorted
import Mathlib.Data.List.Pairwise
/-! Helper lemmas about the entity-list model. -/
namespace MSTK
namespace MeshL
open CList

/-- strictly increasing IDs -/
def Incr (id : Nat → Int) (live : List Nat) : Prop := live.Pairwise (fun a b => id a < id b)

theorem Incr.nodup {id : Nat → Int} {live : List Nat} (h : Incr id live) : live.Nodup := by
  unfold Incr at h
  exact h.imp (fun hab => by rintro rfl; omega)

theorem Incr.inj {id : Nat → Int} {live : List Nat} (h : Incr id live) {a b : Nat} (ha : a ∈ live) (hb : b ∈ live)
    (hab : id a = id b) : a = b := by
  unfold Incr at h
  induction live with
  | nil => simp at ha
  | cons x xs ih =>
    rw [List.pairwise_cons] at h
    rcases List.mem_cons.mp ha with ha' | ha' <;> rcases List.mem_cons.mp hb with hb' | hb'
    · rw [ha', hb']
    · have := h.1 b hb'; rw [← ha'] at this; omega
    · have := h.1 a ha'; rw [← hb'] at this; omega
    · exact ih h.2 ha' hb'

/-- invariant relating the state to the list of live entities (in creation order) -/
structure Ok (s : St) (live : List Nat) : Prop where
  lstN : s.lst = none → live = [] ∧ s.nv = 0
  lst : ∀ l, s.lst = some l → l.Inv ∧ l.abs = live
  nv : s.nv = live.length
  inc : Incr s.id live
  rng : ∀ v ∈ live, 1 ≤ s.id v ∧ s.id v ≤ s.maxid
  max0 : 0 ≤ s.maxid
  lt : ∀ v ∈ live, v < s.next

/-- extra invariant needed by the sorted search: no gaps while the lists count as sorted -/
def NoGap (s : St) : Prop := s.sorted = true → ∀ l, s.lst = some l → l.nrem = 0

theorem init_ok : Ok init [] := by
  constructor <;> simp [init, Incr]

theorem add_noRem {l : CList Nat} {a : Nat} {l' : CList Nat} (h : l.add (some a) = .ok l') (hn : l.nrem = 0) :
    l'.nrem = 0 := by
  unfold CList.add at h
  cases hw : l.grow.wr l.ntot (some a) with
  | ok g => simp only [hw, Res.bind_ok, Res.pure_eq, Res.ok.injEq] at h; rw [← h]; simp [setPars, hn]
  | ub => simp [hw] at h
  | fatal => simp [hw] at h
  | hang => simp [hw] at h

theorem incr_congr {id id' : Nat → Int} {live : List Nat} (h : Incr id live) (he : ∀ v ∈ live, id' v = id v) :
    Incr id' live := by
  unfold Incr at *
  induction live with
  | nil => simp
  | cons x xs ih =>
    rw [List.pairwise_cons] at *
    refine ⟨fun b hb => ?_, ih h.2 (fun v hv => he v (by simp [hv]))⟩
    rw [he x (by simp), he b (by simp [hb])]; exact h.1 b hb

theorem new_ok {s : St} {live : List Nat} (h : Ok s live) :
    ∃ s', new s = .ok s' ∧ Ok s' (live ++ [s.next]) ∧ s'.next = s.next + 1 ∧ (NoGap s → NoGap s') ∧
      s'.sorted = s.sorted ∧ s'.lst ≠ none ∧ (∀ v, v ≠ s.next → s'.id v = s.id v) ∧
      s'.id s.next = s.maxid + 1 ∧ s'.maxid = s.maxid + 1 := by
  have hl0 : ∃ l0, l0.Inv ∧ l0.abs = live ∧ s.lst.getD (CList.new 10) = l0 ∧
      (NoGap s → s.sorted = true → l0.nrem = 0) := by
    cases hs : s.lst with
    | none =>
      exact ⟨_, new_inv 10, by rw [new_abs]; exact ((h.lstN hs).1).symm, rfl, fun _ _ => rfl⟩
    | some l => exact ⟨l, (h.lst l hs).1, (h.lst l hs).2, rfl, fun hg hh => hg hh l hs⟩
  obtain ⟨l0, a1, a2, a3, a4⟩ := hl0
  obtain ⟨l', b1, b2, b3⟩ := add_spec a1 s.next
  have hnew : new s = .ok (St.mk (some l') (updId (updId s.id s.next 0) s.next (s.maxid + 1)) l'.numEntries
      (s.maxid + 1) s.sorted (s.next + 1)) := by
    unfold new addVertex
    simp only [a3, b1, Res.bind_ok]
    simp [updId, setID]
  have hid : ∀ v ∈ live, updId (updId s.id s.next 0) s.next (s.maxid + 1) v = s.id v := by
    intro v hv
    have := h.lt v hv
    simp [updId, show v ≠ s.next by omega]
  have hidn : updId (updId s.id s.next 0) s.next (s.maxid + 1) s.next = s.maxid + 1 := by simp [updId]
  refine ⟨_, hnew, ?_, rfl, ?_, rfl, by simp, ?_, hidn, rfl⟩
  · constructor
    · simp
    · intro l hl
      simp only [Option.some.injEq] at hl; subst hl
      exact ⟨b2, by rw [b3, a2]⟩
    · have := b2.cnt
      simp only [numEntries]; rw [← this, b3, a2]
    · show List.Pairwise _ _
      rw [List.pairwise_append]
      refine ⟨incr_congr h.inc hid, by simp, ?_⟩
      intro a ha b hb
      simp only [List.mem_singleton] at hb; subst hb
      dsimp only
      rw [hidn, hid a ha]
      have := h.rng a ha; omega
    · intro v hv
      rcases List.mem_append.mp hv with hv | hv
      · dsimp only; rw [hid v hv]; have := h.rng v hv; omega
      · simp only [List.mem_singleton] at hv; subst hv; dsimp only; rw [hidn]; have := h.max0; omega
    · simp only; have := h.max0; omega
    · intro v hv
      rcases List.mem_append.mp hv with hv | hv
      · have := h.lt v hv; simp only; omega
      · simp only [List.mem_singleton] at hv; subst hv; simp only; omega
  · intro hg hsort l hl
    simp only [Option.some.injEq] at hl; subst hl
    exact add_noRem b1 (a4 hg hsort)
  · intro v hv; simp [updId, hv]

theorem restore_ok {s : St} {live : List Nat} (h : Ok s live) (v : Nat) (hb : ∀ w ∈ live, s.id w < s.id v)
    (h1 : 1 ≤ s.id v) (h2 : s.id v ≤ s.maxid) (h3 : v < s.next) :
    ∃ s', restore s v = .ok s' ∧ Ok s' (live ++ [v]) ∧ s'.id = s.id := by
  have hl0 : ∃ l0, l0.Inv ∧ l0.abs = live ∧ s.lst.getD (CList.new 10) = l0 := by
    cases hs : s.lst with
    | none => exact ⟨_, new_inv 10, by rw [new_abs]; exact ((h.lstN hs).1).symm, rfl⟩
    | some l => exact ⟨l, (h.lst l hs).1, (h.lst l hs).2, rfl⟩
  obtain ⟨l0, a1, a2, a3⟩ := hl0
  obtain ⟨l', b1, b2, b3⟩ := add_spec a1 v
  have hnew : restore s v = .ok (St.mk (some l') s.id l'.numEntries s.maxid s.sorted s.next) := by
    unfold restore addVertex
    simp only [a3, b1, Res.bind_ok]
    rw [if_neg (by omega)]; rfl
  refine ⟨_, hnew, ?_, rfl⟩
  constructor
  · simp
  · intro l hl
    simp only [Option.some.injEq] at hl; subst hl
    exact ⟨b2, by rw [b3, a2]⟩
  · have := b2.cnt
    simp only [numEntries]; rw [← this, b3, a2]
  · show List.Pairwise _ _
    rw [List.pairwise_append]
    refine ⟨h.inc, by simp, ?_⟩
    intro a ha b hb'
    simp only [List.mem_singleton] at hb'; subst hb'
    exact hb a ha
  · intro w hw
    rcases List.mem_append.mp hw with hw | hw
    · exact h.rng w hw
    · simp only [List.mem_singleton] at hw; subst hw; exact ⟨h1, h2⟩
  · exact h.max0
  · intro w hw
    rcases List.mem_append.mp hw with hw | hw
    · exact h.lt w hw
    · simp only [List.mem_singleton] at hw; subst hw; exact h3

theorem incr_map {id : Nat → Int} {live : List Nat} (h : Incr id live) : (live.map id).Pairwise (· < ·) := by
  unfold Incr at h
  rw [List.pairwise_map]; exact h

/-- the search key of an entry found at a raw position -/
theorem raw_mem {l : CList Nat} (h : l.Inv) {i : Nat} {v : Nat} (he : l.entryRaw i = .ok (some v)) :
    v ∈ l.abs ∧ l.slots[i]? = some (some v) := by
  unfold entryRaw at he
  by_cases hi : i ≥ l.ntot
  · rw [if_pos hi] at he; simp at he
  · rw [if_neg hi] at he
    have hn := h.ntot
    have hlt : i < l.slots.length := by omega
    have hg : l.slots[i]? = some l.slots[i] := List.getElem?_eq_getElem hlt
    rw [rd_eq h.capb hg] at he
    simp only [Res.ok.injEq] at he
    rw [he] at hg
    exact ⟨mem_abs.mpr (List.mem_iff_getElem?.mpr ⟨i, hg⟩), hg⟩

theorem entryRaw_total {l : CList Nat} (h : l.Inv) (i : Nat) : ∃ o, l.entryRaw i = .ok o := by
  unfold entryRaw
  by_cases hi : i ≥ l.ntot
  · rw [if_pos hi]; exact ⟨none, rfl⟩
  · rw [if_neg hi]
    have hn := h.ntot
    have hlt : i < l.slots.length := by omega
    exact ⟨_, rd_eq h.capb (List.getElem?_eq_getElem hlt)⟩

theorem delete_ok {s : St} {live : List Nat} (h : Ok s live) {v : Nat} (hv : v ∈ live) :
    ∃ s', delete s v = .ok s' ∧ Ok s' (live.erase v) ∧ s'.next = s.next ∧ NoGap s' ∧ s'.lst ≠ none ∧ s'.id = s.id ∧
      s'.maxid = s.maxid := by
  cases hs : s.lst with
  | none => rw [(h.lstN hs).1] at hv; simp at hv
  | some l =>
    obtain ⟨hI, hA⟩ := h.lst l hs
    obtain ⟨h1, h2⟩ := h.rng v hv
    obtain ⟨o, ho⟩ := entryRaw_total hI (s.id v - 1).toNat
    have hrem : ∃ l', remFrom l s.id v o = .ok (true, l') ∧ l'.Inv ∧ l'.abs = live.erase v := by
      unfold remFrom
      by_cases hov : o = some v
      · rw [if_pos hov]
        subst hov
        obtain ⟨_, hsl⟩ := raw_mem hI ho
        generalize hi : (s.id v - 1).toNat = i at *
        obtain ⟨hlt, hget⟩ := List.getElem?_eq_some_iff.mp hsl
        have hsplit : l.slots = l.slots.take i ++ some v :: l.slots.drop (i+1) := by
          rw [← hget]; simp
        have hlen : (l.slots.take i).length = i := by simp; omega
        obtain ⟨l', b1, b2, b3, _⟩ := blank_spec hI hsplit
        rw [hlen] at b1
        refine ⟨l', ?_, b2, ?_⟩
        · unfold remiRaw
          have hn := hI.ntot
          rw [if_neg (by omega), rd_eq hI.capb hsl]
          simp only [Res.bind_ok, b1, Res.pure_eq]
        · rw [b3, ← hA, split_abs hsplit, erase_append_cons]
          intro hm
          have hnd := h.inc.nodup
          rw [← hA, split_abs hsplit, List.nodup_append] at hnd
          exact hnd.2.2 v hm v (by simp) rfl
      · rw [if_neg hov]
        obtain ⟨l', c1, c2, c3⟩ := remSorted_spec hI s.id (by rw [hA]; exact incr_map h.inc) (by rw [hA]; exact hv)
          (l.ntot + 1) (by omega)
        exact ⟨l', c1, c2, by rw [c3, hA]⟩
    obtain ⟨l', r1, r2, r3⟩ := hrem
    have hd : delete s v = .ok { s with lst := some l', nv := l'.numEntries, sorted := false } := by
      unfold delete remVertex
      rw [hs]
      simp only [entryRawI, show ¬ (s.id v - 1 < 0) by omega, if_false, ho, Res.bind_ok, r1, Res.pure_eq]
      simp
    refine ⟨_, hd, ?_, rfl, ?_, by simp, rfl, rfl⟩
    · have hsub : ∀ w ∈ live.erase v, w ∈ live := fun w hw => List.mem_of_mem_erase hw
      constructor
      · simp
      · intro l hl
        simp only [Option.some.injEq] at hl; subst hl
        exact ⟨r2, r3⟩
      · have := r2.cnt
        simp only [numEntries]; rw [← this, r3]
      · exact List.Pairwise.sublist List.erase_sublist h.inc
      · intro w hw; exact h.rng w (hsub w hw)
      · exact h.max0
      · intro w hw; exact h.lt w (hsub w hw)
    · intro hh; simp at hh

theorem insSort_incr {id : Nat → Int} {live : List Nat} (h : Incr id live) : sortById.insSort id live = live := by
  unfold Incr at h
  induction live with
  | nil => rfl
  | cons a t ih =>
    rw [List.pairwise_cons] at h
    rw [show sortById.insSort id (a :: t) = sortById.ins id a (sortById.insSort id t) from rfl, ih h.2]
    cases t with
    | nil => rfl
    | cons b t => 
      have := h.1 b (by simp)
      unfold sortById.ins
      rw [if_pos (by omega)]

theorem map_some_filterMap {sl : List (Option Nat)} (hall : ∀ x ∈ sl, x.isSome) :
    (sl.filterMap _root_.id).map some = sl := by
  induction sl with
  | nil => rfl
  | cons x xs ih =>
    obtain ⟨a, rfl⟩ := Option.isSome_iff_exists.mp (hall x (by simp))
    simp only [List.filterMap_cons, _root_.id, List.map_cons, List.cons.injEq, true_and]
    exact ih (fun y hy => hall y (by simp [hy]))

theorem enable_ok {s : St} {live : List Nat} (h : Ok s live) :
    ∃ s', enable s = .ok s' ∧ Ok s' live ∧ s'.next = s.next ∧ s'.id = s.id ∧ s'.maxid = s.maxid ∧ s'.sorted = true ∧
      (NoGap s → live ≠ [] ∨ s.lst = none → NoGap s') ∧ (s'.lst = none ↔ s.lst = none) := by
  unfold enable
  by_cases hsort : s.sorted = true
  · rw [if_pos hsort]
    exact ⟨s, rfl, h, rfl, rfl, rfl, hsort, fun hg _ => hg, Iff.rfl⟩
  · rw [if_neg hsort]
    by_cases hnv : s.nv ≠ 0
    · rw [if_pos hnv]
      cases hs : s.lst with
      | none => exact absurd (h.lstN hs).2 hnv
      | some l =>
        obtain ⟨hI, hA⟩ := h.lst l hs
        obtain ⟨l', c1, c2, c3, c4⟩ := compress_spec hI
        have hall := all_some_of_len (s := l'.slots) (by
          have h1 := c2.cnt; have h2 := c2.len; unfold abs at h1; omega)
        have hsl := map_some_filterMap hall
        have hsb : sortById l' s.id = .ok l' := by
          unfold sortById
          rw [if_neg (by omega)]
          have : l'.slots.filterMap _root_.id = live := by rw [← hA, ← c3]; rfl
          rw [this, insSort_incr h.inc, ← this, hsl]
        refine ⟨{ s with lst := some l', sorted := true }, by simp only [c1, Res.bind_ok, hsb, Res.pure_eq], ?_, rfl, rfl, rfl, rfl, ?_, by simp⟩
        · constructor
          · simp
          · intro l hl
            simp only [Option.some.injEq] at hl; subst hl
            exact ⟨c2, by rw [c3, hA]⟩
          · exact h.nv
          · exact h.inc
          · exact h.rng
          · exact h.max0
          · exact h.lt
        · intro _ _ _ l hl
          simp only [Option.some.injEq] at hl; subst hl; exact c4
    · rw [if_neg hnv]
      refine ⟨{ s with sorted := true }, rfl, ?_, rfl, rfl, rfl, rfl, ?_, Iff.rfl⟩
      · exact ⟨h.lstN, h.lst, h.nv, h.inc, h.rng, h.max0, h.lt⟩
      · intro _ hne
        have : live = [] := by
          have := h.nv; rw [Classical.not_not] at hnv; rw [hnv] at this
          exact List.length_eq_zero_iff.mp this.symm
        rcases hne with hne | hne
        · exact absurd this hne
        · intro _ l hl
          simp only at hl
          rw [hne] at hl; simp at hl

/-! loops over the list -/

theorem traverseFrom_spec {l : CList Nat} (h : l.Inv) (fuel : Nat) (pre rest : List (Option Nat))
    (hs : l.slots = pre ++ rest) (hf : rest.length < fuel) :
    traverseFrom l fuel pre.length = .ok (rest.filterMap _root_.id) := by
  induction fuel generalizing pre rest with
  | zero => omega
  | succ fuel ih =>
    unfold traverseFrom
    rcases next_spec h hs with ⟨h1, h2⟩ | ⟨m, a, post, h1, h2, h3⟩
    · rw [h2, h1]; rfl
    · rw [h3]
      have e : pre.length + m.length + 1 = (pre ++ m ++ [some a]).length := by simp; omega
      have := ih (pre ++ m ++ [some a]) post (by rw [hs, h1]; simp) (by
        rw [h1] at hf; simp at hf; omega)
      simp only [Res.bind_ok]
      rw [e, this, h1]
      simp [h2]

theorem linSearch_spec {l : CList Nat} (h : l.Inv) (id : Nat → Int) (k : Int) (fuel : Nat) (pre rest : List (Option Nat))
    (hs : l.slots = pre ++ rest) (hf : rest.length < fuel) :
    linSearch l id k fuel pre.length = .ok ((rest.filterMap _root_.id).find? (fun v => id v = k)) := by
  induction fuel generalizing pre rest with
  | zero => omega
  | succ fuel ih =>
    unfold linSearch
    rcases next_spec h hs with ⟨h1, h2⟩ | ⟨m, a, post, h1, h2, h3⟩
    · rw [h2, h1]; rfl
    · rw [h3]
      have e : pre.length + m.length + 1 = (pre ++ m ++ [some a]).length := by simp; omega
      have := ih (pre ++ m ++ [some a]) post (by rw [hs, h1]; simp) (by
        rw [h1] at hf; simp at hf; omega)
      simp only [Res.bind_ok]
      rw [h1, List.filterMap_append, h2, List.nil_append, List.filterMap_cons]
      by_cases hk : id a = k
      · simp [hk]
      · rw [if_neg hk, e, this]
        simp [hk]

theorem maxLoop_spec {l : CList Nat} (h : l.Inv) (id : Nat → Int) (fuel : Nat) (pre rest : List (Option Nat)) (m0 : Int)
    (hs : l.slots = pre ++ rest) (hf : rest.length < fuel) :
    maxLoop l id fuel pre.length m0 = .ok ((rest.filterMap _root_.id).foldl (fun m v => if m < id v then id v else m) m0) := by
  induction fuel generalizing pre rest m0 with
  | zero => omega
  | succ fuel ih =>
    unfold maxLoop
    rcases next_spec h hs with ⟨h1, h2⟩ | ⟨m, a, post, h1, h2, h3⟩
    · rw [h2, h1]; rfl
    · rw [h3]
      have e : pre.length + m.length + 1 = (pre ++ m ++ [some a]).length := by simp; omega
      have := ih (pre ++ m ++ [some a]) post (if m0 < id a then id a else m0) (by rw [hs, h1]; simp) (by
        rw [h1] at hf; simp at hf; omega)
      simp only [Res.bind_ok]
      rw [e, this, h1, List.filterMap_append, h2, List.nil_append, List.filterMap_cons]
      rfl

theorem foldl_max (id : Nat → Int) (live : List Nat) : ∀ m0,
    let r := live.foldl (fun m v => if m < id v then id v else m) m0
    m0 ≤ r ∧ (∀ v ∈ live, id v ≤ r) ∧ (r = m0 ∨ ∃ v ∈ live, id v = r) := by
  induction live with
  | nil => intro m0; simp
  | cons x xs ih =>
    intro m0
    simp only [List.foldl_cons]
    obtain ⟨a, b, c⟩ := ih (if m0 < id x then id x else m0)
    have hm : m0 ≤ (if m0 < id x then id x else m0) ∧ id x ≤ (if m0 < id x then id x else m0) := by
      split <;> omega
    refine ⟨by omega, ?_, ?_⟩
    · intro v hv
      rcases List.mem_cons.mp hv with rfl | hv
      · omega
      · exact b v hv
    · rcases c with c | ⟨v, hv, c⟩
      · rw [c]
        by_cases hx : m0 < id x
        · rw [if_pos hx]; exact Or.inr ⟨x, by simp, rfl⟩
        · rw [if_neg hx]; exact Or.inl rfl
      · exact Or.inr ⟨v, by simp [hv], c⟩

theorem resetMax_ok {s : St} {live : List Nat} (h : Ok s live) :
    ∃ m, resetMax s = .ok { s with maxid := m } ∧ Ok { s with maxid := m } live ∧ (m = 0 ∨ ∃ v ∈ live, s.id v = m) := by
  rcases Option.eq_none_or_eq_some s.lst with hs | ⟨l, hs⟩
  · have hl := (h.lstN hs).1
    refine ⟨0, by simp only [resetMax, hs], ?_, Or.inl rfl⟩
    subst hl
    exact ⟨h.lstN, h.lst, h.nv, h.inc, by simp, by simp, by simp⟩
  · obtain ⟨hI, hA⟩ := h.lst l hs
    have hloop := maxLoop_spec hI s.id (l.ntot + 1) [] l.slots 0 rfl (by rw [hI.ntot]; omega)
    rw [List.length_nil] at hloop
    rw [show l.slots.filterMap _root_.id = live from hA] at hloop
    obtain ⟨a, b, c⟩ := foldl_max s.id live 0
    refine ⟨_, by simp only [resetMax, hs, hloop, Res.bind_ok, Res.pure_eq], ?_, c⟩
    exact ⟨h.lstN, h.lst, h.nv, h.inc, fun v hv => ⟨(h.rng v hv).1, b v hv⟩, a, h.lt⟩

/-- assigning `n+1, n+2, ...` along a list -/
def assign (id : Nat → Int) : Int → List Nat → Nat → Int
  | _, [] => id
  | n, v :: t => assign (updId id v (n+1)) (n+1) t

theorem renumLoop_spec {l : CList Nat} (h : l.Inv) (fuel : Nat) : ∀ (pre rest : List (Option Nat)) (n : Int) (s : St),
    l.slots = pre ++ rest → rest.length < fuel →
    (∀ v ∈ rest.filterMap _root_.id, s.id v ≠ 0) → 0 ≤ n → 
    renumLoop l fuel pre.length n s = .ok (St.mk s.lst (assign s.id n (rest.filterMap _root_.id)) s.nv s.maxid
      (if rest.filterMap _root_.id = [] then s.sorted else false) s.next) := by
  induction fuel with
  | zero => intro pre rest n s hs hf; omega
  | succ fuel ih =>
    intro pre rest n s hs hf hnz hn0
    unfold renumLoop
    rcases next_spec h hs with ⟨h1, h2⟩ | ⟨m, a, post, h1, h2, h3⟩
    · rw [h2, h1]; rfl
    · rw [h3]
      have e : pre.length + m.length + 1 = (pre ++ m ++ [some a]).length := by simp; omega
      have hr : rest.filterMap _root_.id = a :: post.filterMap _root_.id := by
        rw [h1, List.filterMap_append, h2, List.nil_append, List.filterMap_cons]; rfl
      rw [hr] at hnz
      have hset : setID s a (n+1) = { s with id := updId s.id a (n+1), sorted := false } := by
        unfold setID; rw [if_pos (hnz a (by simp))]
      have := ih (pre ++ m ++ [some a]) post (n+1) (setID s a (n+1)) (by rw [hs, h1]; simp) (by
        rw [h1] at hf; simp at hf; omega) (by
          intro v hv
          rw [hset]
          simp only [updId]
          by_cases hva : v = a
          · simp [hva]; omega
          · rw [if_neg hva]; exact hnz v (by simp [hv])) (by omega)
      simp only [Res.bind_ok]
      rw [e, this, hr, hset]
      simp [assign]

theorem assign_not_mem (t : List Nat) : ∀ (id : Nat → Int) (n : Int) (v : Nat), v ∉ t → assign id n t v = id v := by
  induction t with
  | nil => intros; rfl
  | cons a t ih =>
    intro id n v hv
    simp only [List.mem_cons, not_or] at hv
    simp only [assign]
    rw [ih _ _ _ hv.2]; simp [updId, hv.1]

theorem assign_get (t : List Nat) : ∀ (id : Nat → Int) (n : Int), t.Nodup → ∀ (i : Nat) v, t[i]? = some v →
    assign id n t v = n + 1 + i := by
  induction t with
  | nil => intro id n hn i v hi; simp at hi
  | cons a t ih =>
    intro id n hn i v hi
    rw [List.nodup_cons] at hn
    simp only [assign]
    cases i with
    | zero =>
      simp only [List.getElem?_cons_zero, Option.some.injEq] at hi; subst hi
      rw [assign_not_mem t _ _ _ hn.1]; simp [updId]
    | succ i =>
      simp only [List.getElem?_cons_succ] at hi
      rw [ih _ _ hn.2 i v hi]; omega

theorem assign_incr (t : List Nat) (hn : t.Nodup) (id : Nat → Int) (n : Int) : Incr (assign id n t) t := by
  unfold Incr
  rw [List.pairwise_iff_getElem]
  intro i j hi hj hij
  rw [assign_get t id n hn i _ (List.getElem?_eq_getElem hi), assign_get t id n hn j _ (List.getElem?_eq_getElem hj)]
  omega

theorem renumber_ok {s : St} {live : List Nat} (h : Ok s live) :
    ∃ s', renumber s = .ok s' ∧ Ok s' live ∧ s'.next = s.next ∧ (NoGap s → NoGap s') ∧ (s'.lst = none ↔ s.lst = none) ∧
      (∀ (i : Nat) v, live[i]? = some v → s'.id v = i + 1) ∧ (∀ v, v ∉ live → s'.id v = s.id v) ∧ s'.maxid = live.length ∧
      (s'.sorted = true → s.sorted = true ∧ live = []) ∧ s'.lst = s.lst := by
  rcases Option.eq_none_or_eq_some s.lst with hs | ⟨l, hs⟩
  · obtain ⟨m, a, b, c⟩ := resetMax_ok h
    have hl := (h.lstN hs).1
    subst hl
    have hm : m = 0 := by simpa using c
    refine ⟨_, by rw [show renumber s = resetMax s by simp only [renumber, hs]]; exact a, b, rfl, fun hg => hg, Iff.rfl, by simp, by simp, by simp [hm],
      by simp, rfl⟩
  · obtain ⟨hI, hA⟩ := h.lst l hs
    have hloop := renumLoop_spec hI (l.ntot + 1) [] l.slots 0 s rfl (by rw [hI.ntot]; omega) (by
      intro v hv
      have : v ∈ live := by rw [← hA]; exact hv
      have := h.rng v this
      omega) (by omega)
    rw [List.length_nil] at hloop
    rw [show l.slots.filterMap _root_.id = live from hA] at hloop
    have hnd := h.inc.nodup
    have hget := assign_get live s.id 0 hnd
    have hbase : Ok (St.mk s.lst (assign s.id 0 live) s.nv live.length (if live = [] then s.sorted else false) s.next)
        live := by
      refine ⟨h.lstN, h.lst, h.nv, assign_incr live hnd _ _, ?_, by simp, h.lt⟩
      intro v hv
      obtain ⟨i, hi⟩ := List.mem_iff_getElem?.mp hv
      have := (List.getElem?_eq_some_iff.mp hi).1
      simp only [hget i v hi]; omega
    have hreset : ∀ s0 : St, ∀ m, resetMax { s0 with maxid := m } = resetMax s0 := by
      intro s0 m; unfold resetMax; cases s0.lst <;> rfl
    obtain ⟨m, a, b, c⟩ := resetMax_ok hbase
    have hm : m = live.length := by
      rcases c with c | ⟨v, hv, c⟩
      · cases hlv : live with
        | nil => simp [c]
        | cons x xs =>
          exfalso
          have := (b.rng x (by rw [hlv]; simp))
          simp only at this
          omega
      · obtain ⟨i, hi⟩ := List.mem_iff_getElem?.mp hv
        have hlt := (List.getElem?_eq_some_iff.mp hi).1
        have hlast := List.getElem?_eq_getElem (l := live) (i := live.length - 1) (by omega)
        have hb := (b.rng _ (List.mem_iff_getElem?.mpr ⟨_, hlast⟩)).2
        simp only at hb c
        rw [hget _ _ hlast] at hb
        rw [hget _ _ hi] at c
        omega
    subst hm
    refine ⟨St.mk s.lst (assign s.id 0 live) s.nv live.length (if live = [] then s.sorted else false) s.next,
      ?_, hbase, rfl, ?_, Iff.rfl, ?_, ?_, rfl, ?_, rfl⟩
    · simp only [renumber, hs, hloop, Res.bind_ok]
      have := hreset (St.mk s.lst (assign s.id 0 live) s.nv s.maxid (if live = [] then s.sorted else false) s.next)
        live.length
      rw [hs] at this a
      rw [← this]; exact a
    · intro hg hh l' hl'
      by_cases hle : live = []
      · simp only [hle, if_true] at hh; exact hg hh l' hl'
      · simp [hle] at hh
    · intro i v hi; simp only [hget i v hi]; omega
    · intro v hv; exact assign_not_mem live _ _ _ hv
    · intro hh
      by_cases hle : live = []
      · simp only [hle, if_true] at hh; exact ⟨hh, hle⟩
      · simp [hle] at hh

/-! searching -/

theorem bsearch_spec {l : CList Nat} (h : l.Inv) (hn : l.nrem = 0) (id : Nat → Int) (hinc : Incr id l.abs) (k : Int)
    (fuel : Nat) : ∀ lo hi, hi ≤ l.abs.length → hi - lo < fuel →
    (∀ i v, l.abs[i]? = some v → id v = k → lo ≤ i ∧ i < hi) →
    bsearch l id k fuel lo hi = .ok (l.abs.find? (fun v => id v = k)) := by
  have hslots : ∀ i, i < l.abs.length → l.rd i = .ok l.abs[i]? := by
    have hall := all_some_of_len (s := l.slots) (by
      have h1 := h.cnt; have h2 := h.len; unfold abs at h1; omega)
    have hsl : l.slots = l.abs.map some := (map_some_filterMap hall).symm
    intro i hi
    apply rd_eq h.capb
    rw [hsl, List.getElem?_map, List.getElem?_eq_getElem hi]; rfl
  induction fuel with
  | zero => intro lo hi _ hf; omega
  | succ fuel ih =>
    intro lo hi hh hf hkey
    unfold bsearch
    by_cases hlt : lo < hi
    · rw [if_pos hlt]
      have hm : (lo + hi) / 2 < l.abs.length := by omega
      rw [hslots _ hm, List.getElem?_eq_getElem hm]
      simp only [Res.bind_ok]
      have hmono : ∀ i j (hi : i < l.abs.length) (hj : j < l.abs.length), i < j → id l.abs[i] < id l.abs[j] := by
        intro i j hi hj hij
        exact (List.pairwise_iff_getElem.mp hinc) i j hi hj hij
      by_cases h1 : k < id l.abs[(lo + hi) / 2]
      · rw [if_pos h1]
        apply ih _ _ (by omega) (by omega)
        intro i v hi hv
        have := hkey i v hi hv
        refine ⟨this.1, ?_⟩
        obtain ⟨hil, rfl⟩ := List.getElem?_eq_some_iff.mp hi
        by_contra hc
        rcases Nat.eq_or_lt_of_le (Nat.not_lt.mp hc) with he | he
        · subst he; omega
        · have := hmono _ _ hm hil he; omega
      · rw [if_neg h1]
        by_cases h2 : id l.abs[(lo + hi) / 2] < k
        · rw [if_pos h2]
          apply ih _ _ (by omega) (by omega)
          intro i v hi hv
          have := hkey i v hi hv
          refine ⟨?_, this.2⟩
          obtain ⟨hil, rfl⟩ := List.getElem?_eq_some_iff.mp hi
          by_contra hc
          rcases Nat.eq_or_lt_of_le (Nat.lt_succ_iff.mp (Nat.not_le.mp hc)) with he | he
          · subst he; omega
          · have := hmono _ _ hil hm he; omega
        · rw [if_neg h2]
          have heq : id l.abs[(lo + hi) / 2] = k := by omega
          simp only [Res.pure_eq, Res.ok.injEq]
          symm
          cases hfd : l.abs.find? (fun v => decide (id v = k)) with
          | none =>
            rw [List.find?_eq_none] at hfd
            exact absurd heq (by simpa using hfd _ (List.getElem_mem hm))
          | some w =>
            have hw := List.find?_some hfd
            simp only [decide_eq_true_eq] at hw
            rw [hinc.inj (List.mem_of_find?_eq_some hfd) (List.getElem_mem hm) (by rw [hw, heq])]
    · rw [if_neg hlt]
      simp only [Res.ok.injEq]
      symm
      rw [List.find?_eq_none]
      intro v hv hvk
      obtain ⟨i, hi⟩ := List.mem_iff_getElem?.mp hv
      have := hkey i v hi (by simpa using hvk)
      omega

theorem fromID_spec {s : St} {live : List Nat} (h : Ok s live) (hg : NoGap s) (k : Int) :
    fromID s k = .ok (live.find? (fun v => s.id v = k)) := by
  unfold fromID
  by_cases hc : s.nv = 0 ∨ k < 1 ∨ k > s.maxid
  · rw [if_pos hc]
    simp only [Res.ok.injEq]
    symm
    rw [List.find?_eq_none]
    intro v hv hvk
    have := h.rng v hv
    simp only [decide_eq_true_eq] at hvk
    rcases hc with hc | hc | hc
    · have := h.nv; rw [hc] at this
      rw [List.length_eq_zero_iff.mp this.symm] at hv; simp at hv
    · omega
    · omega
  · rw [if_neg hc]
    cases hs : s.lst with
    | none => have := h.lstN hs; simp [this.2] at hc
    | some l =>
      obtain ⟨hI, hA⟩ := h.lst l hs
      simp only [entryRawI, show ¬ (k - 1 < 0) by omega, if_false]
      have hsearch : search s l k = .ok (live.find? (fun v => s.id v = k)) := by
        unfold search
        by_cases hsort : s.sorted = true
        · rw [if_pos hsort]
          have := bsearch_spec hI (hg hsort l hs) s.id (by rw [hA]; exact h.inc) k (s.nv + 1) 0 s.nv
            (by rw [hA, h.nv]; exact Nat.le_refl _) (by omega) (by
              intro i v hi _
              rw [hA] at hi
              have := (List.getElem?_eq_some_iff.mp hi).1
              rw [h.nv]; omega)
          rw [this, hA]
        · rw [if_neg hsort]
          have := linSearch_spec hI s.id k (l.ntot + 1) [] l.slots rfl (by rw [hI.ntot]; omega)
          rw [List.length_nil] at this
          rw [this]
          rw [show l.slots.filterMap _root_.id = live from hA]
      obtain ⟨o, ho⟩ := entryRaw_total hI (k - 1).toNat
      rw [ho]
      simp only [Res.bind_ok]
      cases o with
      | none => exact hsearch
      | some v =>
        simp only
        by_cases hvk : s.id v = k
        · rw [if_pos hvk]
          simp only [Res.pure_eq, Res.ok.injEq]
          symm
          have hvl : v ∈ live := by rw [← hA]; exact (raw_mem hI ho).1
          cases hfd : live.find? (fun v => decide (s.id v = k)) with
          | none =>
            rw [List.find?_eq_none] at hfd
            exact absurd hvk (by simpa using hfd _ hvl)
          | some w =>
            have hw := List.find?_some hfd
            simp only [decide_eq_true_eq] at hw
            rw [h.inc.inj (List.mem_of_find?_eq_some hfd) hvl (by rw [hw, hvk])]
        · rw [if_neg hvk]; exact hsearch

theorem traverse_spec {s : St} {live : List Nat} (h : Ok s live) : traverse s = .ok live := by
  unfold traverse
  cases hs : s.lst with
  | none => rw [(h.lstN hs).1]
  | some l =>
    obtain ⟨hI, hA⟩ := h.lst l hs
    have := traverseFrom_spec hI (l.ntot + 1) [] l.slots rfl (by rw [hI.ntot]; omega)
    rw [List.length_nil] at this
    simp only [this]
    rw [show l.slots.filterMap _root_.id = live from hA]

end MeshL
end MSTK
