import Verif.ListModel
/-! Helper lemmas about the list model. -/
namespace MSTK
namespace CList
variable {α : Type}

/-- The sequence a list stands for: its non-NULL slots in order. -/
def abs (l : CList α) : List α := l.slots.filterMap id

/-- Representation invariant. -/
structure Inv (l : CList α) : Prop where
  len : l.slots.length = l.nent + l.nrem
  cnt : l.abs.length = l.nent
  capb : l.slots.length ≤ 2 ^ l.p - 1
  r0 : l.nrem = 0 → l.rem1 = -1
  r1 : l.nrem ≠ 0 → 0 ≤ l.rem1 ∧ ∀ j : Nat, (j : Int) < l.rem1 → ∃ a, l.slots[j]? = some (some a)

theorem filterMap_len_le (s : List (Option α)) : (s.filterMap id).length ≤ s.length :=
  List.length_filterMap_le _ _

/-- no gaps: every slot is valid. -/
theorem all_some_of_len {s : List (Option α)} (h : (s.filterMap id).length = s.length) :
    ∀ x ∈ s, x.isSome := by
  simpa using h

theorem rd_eq {l : CList α} (h : l.slots.length ≤ 2 ^ l.p - 1) {i : Nat} {x : Option α}
    (hx : l.slots[i]? = some x) : l.rd i = .ok x := by
  have hi : i < l.slots.length := (List.getElem?_eq_some_iff.mp hx).1
  unfold rd cap
  rw [if_pos (by omega), hx]; rfl

theorem scan_spec {l : CList α} (hc : l.slots.length ≤ 2 ^ l.p - 1) (rest pre : List (Option α))
    (hs : l.slots = pre ++ rest) (left : Nat) (hl : left < (rest.filterMap id).length) :
    ∃ m a post, rest = m ++ some a :: post ∧ (m.filterMap id).length = left ∧
      l.scan rest.length pre.length left = .ok (some (pre.length + m.length)) := by
  induction rest generalizing pre left with
  | nil => simp at hl
  | cons x rest ih =>
    have hx : l.slots[pre.length]? = some x := by rw [hs]; simp
    have hs' : l.slots = (pre ++ [x]) ++ rest := by rw [hs]; simp
    cases x with
    | none =>
      have hl' : left < (rest.filterMap id).length := by simpa using hl
      obtain ⟨m, a, post, h1, h2, h3⟩ := ih (pre ++ [none]) hs' left hl'
      refine ⟨none :: m, a, post, by simp [h1], by simpa using h2, ?_⟩
      simp only [List.length_cons, scan, rd_eq hc hx, Res.bind_ok]
      simp only [List.length_append, List.length_cons, List.length_nil] at h3
      simp only [Nat.zero_add] at h3
      rw [h3]; congr 2; omega
    | some b =>
      cases left with
      | zero =>
        refine ⟨[], b, rest, by simp, by simp, ?_⟩
        simp only [List.length_cons, scan, rd_eq hc hx, Res.bind_ok]
        simp
      | succ left =>
        have hl' : left < (rest.filterMap id).length := by simp at hl; omega
        obtain ⟨m, a, post, h1, h2, h3⟩ := ih (pre ++ [some b]) hs' left hl'
        refine ⟨some b :: m, a, post, by simp [h1], by simp [h2], ?_⟩
        simp only [List.length_cons, scan, rd_eq hc hx, Res.bind_ok]
        simp only [List.length_append, List.length_cons, List.length_nil, Nat.zero_add] at h3
        rw [h3]; congr 2; omega

/-- positions before the first gap are valid, so counting and indexing agree there. -/
theorem take_all_some {s : List (Option α)} {i : Nat}
    (h : ∀ j, j < i → ∃ a, s[j]? = some (some a)) : ((s.take i).filterMap id).length = i ∧ i ≤ s.length := by
  induction i generalizing s with
  | zero => simp
  | succ i ih =>
    obtain ⟨a, ha⟩ := h 0 (by omega)
    cases s with
    | nil => simp at ha
    | cons x s =>
      simp at ha; subst ha
      have := ih (s := s) (fun j hj => by simpa using h (j+1) (by omega))
      simp [this.1]; omega

theorem rawPos_spec {l : CList α} (h : l.Inv) {i : Nat} (hi : i < l.nent) :
    ∃ pre a post, l.slots = pre ++ some a :: post ∧ (pre.filterMap id).length = i ∧
      l.rawPos i = .ok (some pre.length) := by
  unfold rawPos
  by_cases hc : l.nrem = 0 ∨ l.rem1 > (i : Int)
  · rw [if_pos hc]
    have hall : ∀ j, j < i + 1 → ∃ a, l.slots[j]? = some (some a) := by
      intro j hj
      by_cases hn : l.nrem = 0
      · have hlen := h.len
        have hcnt := h.cnt
        have := all_some_of_len (s := l.slots) (by unfold abs at hcnt; omega)
        have hjl : j < l.slots.length := by omega
        have h2 := this (l.slots[j]) (List.getElem_mem hjl)
        obtain ⟨a, ha⟩ := Option.isSome_iff_exists.mp h2
        exact ⟨a, by rw [List.getElem?_eq_getElem hjl, ha]⟩
      · have := (h.r1 hn).2 j (by rcases hc with hc | hc <;> omega)
        exact this
    obtain ⟨a, ha⟩ := hall i (by omega)
    have hlt := (List.getElem?_eq_some_iff.mp ha)
    obtain ⟨hlt, hget⟩ := hlt
    have ht := take_all_some (s := l.slots) (i := i) (fun j hj => hall j (by omega))
    refine ⟨l.slots.take i, a, l.slots.drop (i+1), ?_, ht.1, ?_⟩
    · rw [← hget]
      simp
    · simp; omega
  · rw [if_neg hc]
    have hcnt := h.cnt
    obtain ⟨m, a, post, h1, h2, h3⟩ := scan_spec (l := l) h.capb l.slots [] (by simp) i
      (by unfold abs at hcnt; omega)
    refine ⟨m, a, post, h1, h2, ?_⟩
    have : l.ntot = l.slots.length := by unfold ntot; exact h.len.symm
    rw [this]
    simpa using h3

theorem findRaw_none [DecidableEq α] {l : CList α} (hc : l.slots.length ≤ 2 ^ l.p - 1)
    (x : Option α) (rest pre : List (Option α)) (hs : l.slots = pre ++ rest) (hx : x ∉ rest) :
    l.findRaw x rest.length pre.length = .ok none := by
  induction rest generalizing pre with
  | nil => rfl
  | cons y rest ih =>
    have hy : l.slots[pre.length]? = some y := by rw [hs]; simp
    have hs' : l.slots = (pre ++ [y]) ++ rest := by rw [hs]; simp
    simp only [List.mem_cons, not_or] at hx
    simp only [List.length_cons, findRaw, rd_eq hc hy, Res.bind_ok]
    rw [if_neg (fun h => hx.1 h.symm)]
    have := ih (pre ++ [y]) hs' hx.2
    simpa using this

theorem findRaw_some [DecidableEq α] {l : CList α} (hc : l.slots.length ≤ 2 ^ l.p - 1)
    (x : Option α) (rest pre : List (Option α)) (hs : l.slots = pre ++ rest) (hx : x ∈ rest) :
    ∃ m post, rest = m ++ x :: post ∧ x ∉ m ∧
      l.findRaw x rest.length pre.length = .ok (some (pre.length + m.length)) := by
  induction rest generalizing pre with
  | nil => simp at hx
  | cons y rest ih =>
    have hy : l.slots[pre.length]? = some y := by rw [hs]; simp
    have hs' : l.slots = (pre ++ [y]) ++ rest := by rw [hs]; simp
    simp only [List.length_cons, findRaw, rd_eq hc hy, Res.bind_ok]
    by_cases hxy : y = x
    · subst hxy
      exact ⟨[], rest, by simp, by simp, by simp⟩
    · rw [if_neg hxy]
      have hx' : x ∈ rest := by
        rcases List.mem_cons.mp hx with h | h
        · exact absurd h.symm hxy
        · exact h
      obtain ⟨m, post, h1, h2, h3⟩ := ih (pre ++ [y]) hs' hx'
      refine ⟨y :: m, post, by simp [h1], ?_, ?_⟩
      · simp only [List.mem_cons, not_or]; exact ⟨fun h => hxy h.symm, h2⟩
      · simp only [List.length_append, List.length_cons, List.length_nil, Nat.zero_add] at h3
        rw [h3]; simp only [List.length_cons]; congr 2; omega

theorem mem_abs {l : CList α} {a : α} : a ∈ l.abs ↔ some a ∈ l.slots := by
  simp [abs, List.mem_filterMap]

theorem Inv.ntot {l : CList α} (h : l.Inv) : l.ntot = l.slots.length := h.len.symm

/-- result of the linear search in terms of the abstract sequence -/
theorem find_spec [DecidableEq α] {l : CList α} (h : l.Inv) (a : α) :
    (a ∉ l.abs ∧ l.findRaw (some a) l.ntot 0 = .ok none) ∨
    ∃ pre post, l.slots = pre ++ some a :: post ∧ a ∉ pre.filterMap id ∧
      l.findRaw (some a) l.ntot 0 = .ok (some pre.length) := by
  rw [h.ntot]
  by_cases ha : some a ∈ l.slots
  · right
    obtain ⟨m, post, h1, h2, h3⟩ := findRaw_some h.capb (some a) l.slots [] (by simp) ha
    refine ⟨m, post, h1, ?_, by simpa using h3⟩
    simp [List.mem_filterMap]; exact h2
  · left
    exact ⟨fun hh => ha (mem_abs.mp hh), findRaw_none h.capb (some a) l.slots [] (by simp) ha⟩

theorem wr_append {l : CList α} {pre post : List (Option α)} {y : Option α}
    (hc : l.slots.length ≤ 2 ^ l.p - 1) (hs : l.slots = pre ++ y :: post) (x : Option α) :
    l.wr pre.length x = .ok { l with slots := pre ++ x :: post } := by
  have h1 : l.slots.length = pre.length + (post.length + 1) := by rw [hs]; simp
  unfold wr cap
  rw [if_pos (by omega)]
  rw [hs]; simp

theorem blank_spec {l : CList α} (h : l.Inv) {pre post : List (Option α)} {a : α}
    (hs : l.slots = pre ++ some a :: post) :
    ∃ l', l.blank pre.length = .ok l' ∧ l'.Inv ∧
      l'.abs = pre.filterMap id ++ post.filterMap id ∧ l'.slots.length = l.slots.length := by
  have hn : l.nent = (pre.filterMap id).length + (post.filterMap id).length + 1 := by
    have := h.cnt; unfold abs at this; rw [hs] at this; simp at this; omega
  have hl : l.slots.length = pre.length + post.length + 1 := by rw [hs]; simp; omega
  unfold blank
  rw [wr_append h.capb hs]
  refine ⟨_, rfl, ?_, ?_, ?_⟩
  · have hcap := h.capb
    have hlen := h.len
    constructor
    · simp [setPars]; omega
    · simp [setPars, abs]; omega
    · simp [setPars]; omega
    · simp [setPars]
    · intro _
      simp only [setPars]
      simp only [Nat.add_eq_zero_iff, Nat.succ_ne_self, and_false, ↓reduceIte]
      constructor
      · split <;> rename_i hcond
        · omega
        · by_cases hn0 : l.nrem = 0
          · have := h.r0 hn0; omega
          · exact (h.r1 hn0).1
      · intro j hj
        have hjp : j < pre.length := by
          split at hj <;> rename_i hcond <;> omega
        have : l.slots[j]? = pre[j]? := by rw [hs]; simp [List.getElem?_append_left hjp]
        rw [List.getElem?_append_left hjp, ← this]
        by_cases hn0 : l.nrem = 0
        · have hall := all_some_of_len (s := l.slots) (by have := h.cnt; unfold abs at this; omega)
          have hjl : j < l.slots.length := by omega
          obtain ⟨a, ha⟩ := Option.isSome_iff_exists.mp (hall _ (List.getElem_mem hjl))
          exact ⟨a, by rw [List.getElem?_eq_getElem hjl, ha]⟩
        · have h1 := h.r1 hn0
          apply h1.2
          split at hj <;> rename_i hcond
          · rcases hcond with hc | hc <;> omega
          · exact hj
  · simp [setPars, abs]
  · simp [setPars, hl]; omega

theorem grow_capb {l : CList α} (h : l.Inv) :
    l.slots.length < 2 ^ l.grow.p - 1 := by
  have h1 := h.capb
  have h2 := h.ntot
  have h3 : 0 < 2 ^ l.p := Nat.pow_pos (by omega)
  unfold grow cap
  split
  · simp only [Nat.pow_succ]; omega
  · omega

@[simp] theorem grow_slots (l : CList α) : l.grow.slots = l.slots := by unfold grow; split <;> rfl
@[simp] theorem grow_nent (l : CList α) : l.grow.nent = l.nent := by unfold grow; split <;> rfl
@[simp] theorem grow_nrem (l : CList α) : l.grow.nrem = l.nrem := by unfold grow; split <;> rfl
@[simp] theorem grow_rem1 (l : CList α) : l.grow.rem1 = l.rem1 := by unfold grow; split <;> rfl

theorem grow_inv {l : CList α} (h : l.Inv) : l.grow.Inv := by
  have := grow_capb h
  constructor
  · simpa using h.len
  · simpa [abs] using h.cnt
  · simp; omega
  · simpa using h.r0
  · simpa using h.r1

/-- inserting a valid entry `a` at a raw position `pre.length` in a list with room: the new header
is consistent.  `hfront`: either at the end or at a valid slot. -/
theorem ins_inv {l : CList α} (h : l.Inv) {pre post : List (Option α)} (q : Nat)
    (hq : l.slots.length < 2 ^ q - 1)
    (hs : l.slots = pre ++ post) (a : α) :
    (setPars { l with p := q, slots := pre ++ some a :: post } (l.nent+1) q l.nrem l.rem1).Inv := by
  have hl : l.slots.length = pre.length + post.length := by rw [hs]; simp
  have hc : l.nent = (pre.filterMap id).length + (post.filterMap id).length := by
    have := h.cnt; unfold abs at this; rw [hs] at this; simp at this; omega
  have hlen := h.len
  by_cases hn0 : l.nrem = 0
  · constructor <;> simp [setPars, hn0, abs] <;> omega
  · constructor
    · simp [setPars, hn0]; omega
    · simp [setPars, hn0, abs]; omega
    · simp [setPars, hn0]; omega
    · simp [setPars, hn0]
    · intro _
      have h1 := h.r1 hn0
      simp only [setPars, hn0, ↓reduceIte]
      refine ⟨h1.1, fun j hj => ?_⟩
      obtain ⟨b, hb⟩ := h1.2 j hj
      rw [hs] at hb
      by_cases hjp : j < pre.length
      · rw [List.getElem?_append_left hjp] at hb ⊢
        exact ⟨b, hb⟩
      · by_cases hje : j = pre.length
        · subst hje; exact ⟨a, by simp⟩
        · obtain ⟨c, hc'⟩ := h1.2 (j-1) (by omega)
          rw [hs] at hc'
          rw [List.getElem?_append_right (by omega)] at hc' ⊢
          refine ⟨c, ?_⟩
          have : j - pre.length = (j - 1 - pre.length) + 1 := by omega
          rw [this]; simpa using hc'

theorem add_spec {l : CList α} (h : l.Inv) (a : α) :
    ∃ l', l.add (some a) = .ok l' ∧ l'.Inv ∧ l'.abs = l.abs ++ [a] := by
  have hg := grow_capb h
  have hw : l.grow.wr l.ntot (some a) = .ok { l.grow with slots := l.slots ++ [some a] } := by
    unfold wr cap
    rw [if_pos (by simp [h.ntot]; omega)]
    simp [h.ntot]
  unfold add
  simp only [hw, Res.bind_ok, Res.pure_eq]
  refine ⟨_, rfl, ?_, ?_⟩
  · have := ins_inv h (pre := l.slots) (post := []) l.grow.p hg (by simp) a
    have e : ({ l.grow with slots := l.slots ++ [some a] } : CList α) =
        { l with p := l.grow.p, slots := l.slots ++ [some a] } := by
      unfold grow; split <;> rfl
    rw [e]; exact this
  · simp [setPars, abs]; split <;> simp

theorem inserti_spec {l : CList α} (h : l.Inv) (a : α) {i : Nat} (hi : i ≤ l.nent) :
    ∃ l', l.inserti (some a) i = .ok (some l') ∧ l'.Inv ∧
      l'.abs = l.abs.take i ++ a :: l.abs.drop i := by
  have hg := grow_capb h
  by_cases hin : i = l.nent
  · have ⟨l', h1, h2, h3⟩ := add_spec h a
    refine ⟨l', ?_, h2, ?_⟩
    · unfold inserti
      rw [if_pos hin]
      unfold add at h1
      dsimp only at h1 ⊢
      cases hw : l.grow.wr l.ntot (some a) with
      | ok g => rw [hw] at h1; simp at h1; simp [h1]
      | ub => rw [hw] at h1; simp at h1
      | fatal => rw [hw] at h1; simp at h1
      | hang => rw [hw] at h1; simp at h1
    · rw [h3, hin, ← h.cnt]; simp
  · have hlt : i < l.nent := by omega
    obtain ⟨pre, b, post, h1, h2, h3⟩ := rawPos_spec (grow_inv h) (i := i) (by simpa using hlt)
    simp only [grow_slots] at h1
    have hlen : l.slots.length = pre.length + (post.length + 1) := by rw [h1]; simp
    unfold inserti
    rw [if_neg hin, h3]
    simp only [Res.bind_ok]
    have hsh : l.grow.shiftIn l.ntot pre.length (some a) =
        .ok { l.grow with slots := pre ++ some a :: some b :: post } := by
      unfold shiftIn cap
      rw [if_pos (by simp [h.ntot]; omega)]
      simp only [grow_slots, h.ntot, List.take_length]
      rw [show l.slots.drop (l.slots.length+1) = [] from List.drop_eq_nil_of_le (by omega), h1]
      simp
    rw [hsh]
    refine ⟨_, rfl, ?_, ?_⟩
    · have := ins_inv h (pre := pre) (post := some b :: post) l.grow.p hg h1 a
      have e : ({ l.grow with slots := pre ++ some a :: some b :: post } : CList α) =
          { l with p := l.grow.p, slots := pre ++ some a :: some b :: post } := by
        unfold grow; split <;> rfl
      rw [e]; exact this
    · have e : l.abs = pre.filterMap id ++ b :: post.filterMap id := by
        unfold abs; rw [h1]; simp
      rw [e, ← h2]
      simp [setPars, abs]; split <;> simp

theorem split_abs {l : CList α} {pre post : List (Option α)} {a : α}
    (hs : l.slots = pre ++ some a :: post) :
    l.abs = pre.filterMap id ++ a :: post.filterMap id := by
  unfold abs; rw [hs]; simp

theorem entry_spec {l : CList α} (h : l.Inv) (i : Nat) : l.entry i = .ok l.abs[i]? := by
  unfold entry
  split
  · rename_i hi
    rw [List.getElem?_eq_none (by rw [h.cnt]; omega)]
  · rename_i hi
    obtain ⟨pre, a, post, h1, h2, h3⟩ := rawPos_spec h (i := i) (by omega)
    rw [h3]
    simp only [Res.bind_ok]
    rw [rd_eq h.capb (x := some a) (by rw [h1]; simp), split_abs h1, ← h2]
    simp

theorem chknAdd_spec [DecidableEq α] {l : CList α} (h : l.Inv) (a : α) :
    ∃ l', l.chknAdd (some a) = .ok l' ∧ l'.Inv ∧
      l'.abs = if a ∈ l.abs then l.abs else l.abs ++ [a] := by
  unfold chknAdd
  rcases find_spec h a with ⟨h1, h2⟩ | ⟨pre, post, h1, _, h3⟩
  · rw [h2]; simp only [Res.bind_ok, if_neg h1]
    exact add_spec h a
  · rw [h3]
    refine ⟨l, rfl, h, ?_⟩
    rw [if_pos (by rw [split_abs h1]; simp)]

theorem erase_append_cons [DecidableEq α] {pre post : List α} {a : α} (h : a ∉ pre) :
    (pre ++ a :: post).erase a = pre ++ post := by
  rw [List.erase_append_right _ h]; simp

theorem rem_spec [DecidableEq α] {l : CList α} (h : l.Inv) (a : α) :
    ∃ l', l.rem (some a) = .ok (decide (a ∈ l.abs), l') ∧ l'.Inv ∧ l'.abs = l.abs.erase a := by
  unfold rem
  rcases find_spec h a with ⟨h1, h2⟩ | ⟨pre, post, h1, h2, h3⟩
  · rw [h2]
    refine ⟨l, by simp [h1], h, ?_⟩
    rw [List.erase_of_not_mem h1]
  · rw [h3]
    obtain ⟨l', e1, e2, e3, _⟩ := blank_spec h h1
    simp only [Res.bind_ok, e1]
    refine ⟨l', ?_, e2, ?_⟩
    · have : a ∈ l.abs := by rw [split_abs h1]; simp
      simp [this]
    · rw [e3, split_abs h1, erase_append_cons h2]

theorem remi_spec {l : CList α} (h : l.Inv) (i : Nat) :
    ∃ l', l.remi i = .ok (decide (i < l.abs.length), l') ∧ l'.Inv ∧ l'.abs = l.abs.eraseIdx i := by
  unfold remi
  rw [h.cnt]
  split
  · rename_i hi
    refine ⟨l, ?_, h, ?_⟩
    · congr 2; simp; omega
    · rw [List.eraseIdx_of_length_le (by rw [h.cnt]; omega)]
  · rename_i hi
    obtain ⟨pre, a, post, h1, h2, h3⟩ := rawPos_spec h (i := i) (by omega)
    obtain ⟨l', e1, e2, e3, _⟩ := blank_spec h h1
    simp only [h3, Res.bind_ok, e1]
    refine ⟨l', ?_, e2, ?_⟩
    · simp; omega
    · rw [e3, split_abs h1, ← h2, List.eraseIdx_append_of_length_le (by omega)]; simp

theorem set_inv {l : CList α} (h : l.Inv) {pre post : List (Option α)} {a b : α}
    (hs : l.slots = pre ++ some a :: post) :
    ({ l with slots := pre ++ some b :: post } : CList α).Inv := by
  have hl : l.slots.length = pre.length + (post.length + 1) := by rw [hs]; simp
  have hlen := h.len
  have hcap := h.capb
  have hcnt := h.cnt
  rw [split_abs hs] at hcnt
  constructor
  · simp; omega
  · simp [abs]; simp at hcnt; omega
  · simp; omega
  · exact h.r0
  · intro hn
    have h1 := h.r1 hn
    refine ⟨h1.1, fun j hj => ?_⟩
    obtain ⟨c, hc⟩ := h1.2 j hj
    rw [hs] at hc
    simp only
    by_cases hjp : j < pre.length
    · rw [List.getElem?_append_left hjp] at hc ⊢; exact ⟨c, hc⟩
    · rw [List.getElem?_append_right (by omega)] at hc ⊢
      by_cases hje : j - pre.length = 0
      · rw [hje]; exact ⟨b, rfl⟩
      · have : j - pre.length = (j - pre.length - 1) + 1 := by omega
        rw [this] at hc ⊢; exact ⟨c, by simpa using hc⟩

theorem replace_append_cons [DecidableEq α] {pre post : List α} {a b : α} (h : a ∉ pre) :
    (pre ++ a :: post).replace a b = pre ++ b :: post := by
  induction pre with
  | nil => simp
  | cons x pre ih =>
    simp only [List.mem_cons, not_or] at h
    have hx : (a == x) = false := by simp [h.1]
    simp only [List.cons_append, List.replace, hx]
    rw [ih h.2]

theorem replace_spec [DecidableEq α] {l : CList α} (h : l.Inv) (a b : α) :
    ∃ l', l.replace (some a) (some b) = .ok (decide (a ∈ l.abs), l') ∧ l'.Inv ∧
      l'.abs = l.abs.replace a b := by
  unfold replace
  rcases find_spec h a with ⟨h1, h2⟩ | ⟨pre, post, h1, h2, h3⟩
  · rw [h2]
    refine ⟨l, by simp [h1], h, ?_⟩
    rw [List.replace_of_not_mem (by simpa using h1)]
  · rw [h3]
    simp only [Res.bind_ok, wr_append h.capb h1]
    refine ⟨_, ?_, set_inv (b := b) h h1, ?_⟩
    · have : a ∈ l.abs := by rw [split_abs h1]; simp
      simp [this]
    · rw [split_abs h1, replace_append_cons h2]; simp [abs]

theorem replacei_spec {l : CList α} (h : l.Inv) {i : Nat} (hi : i < l.abs.length) (b : α) :
    ∃ l', l.replacei i (some b) = .ok (true, l') ∧ l'.Inv ∧ l'.abs = l.abs.set i b := by
  unfold replacei
  rw [h.cnt] at hi
  obtain ⟨pre, a, post, h1, h2, h3⟩ := rawPos_spec h hi
  simp only [h3, Res.bind_ok, wr_append h.capb h1]
  refine ⟨_, rfl, set_inv h h1, ?_⟩
  rw [split_abs h1, ← h2, List.set_append_right _ _ (by omega)]; simp [abs]

/-! ### Compress -/

theorem lastNull_spec (s : List (Option α)) (k : Nat) (hk : k ≤ s.length) :
    (lastNull s k = none → ∀ x ∈ s.take k, x.isSome) ∧
    (∀ ke, lastNull s k = some ke → ke < k ∧ s[ke]? = some none ∧
        ∀ x ∈ (s.take k).drop (ke+1), x.isSome) := by
  induction k with
  | zero => simp [lastNull]
  | succ k ih =>
    have hk' : k < s.length := by omega
    have hget : s[k]? = some s[k] := List.getElem?_eq_getElem hk'
    have htake : s.take (k+1) = s.take k ++ [s[k]] := by
      rw [List.take_add_one, hget]; rfl
    unfold lastNull
    cases hx : s[k] with
    | none =>
      rw [hget, hx]
      refine ⟨by simp, ?_⟩
      intro ke hke
      simp at hke; subst hke
      refine ⟨by omega, by rw [hget, hx], ?_⟩
      rw [List.drop_eq_nil_of_le (by simp; omega)]; simp
    | some a =>
      rw [hget, hx]
      simp only
      have ih := ih (by omega)
      constructor
      · intro hn x hxm
        rw [htake, hx] at hxm
        simp only [List.mem_append, List.mem_singleton] at hxm
        rcases hxm with hxm | rfl
        · exact ih.1 hn x hxm
        · rfl
      · intro ke hke
        obtain ⟨h1, h2, h3⟩ := ih.2 ke hke
        refine ⟨by omega, h2, ?_⟩
        intro x hxm
        rw [htake, hx, List.drop_append_of_le_length (by simp; omega)] at hxm
        simp only [List.mem_append, List.mem_singleton] at hxm
        rcases hxm with hxm | rfl
        · exact h3 x hxm
        · rfl

theorem blockStart_spec (s : List (Option α)) (k : Nat) (hk : k ≤ s.length) :
    blockStart s k ≤ k ∧ ∀ j, blockStart s k ≤ j → j < k → s[j]? = some none := by
  induction k with
  | zero => simp [blockStart]
  | succ k ih =>
    have hk' : k < s.length := by omega
    have hget : s[k]? = some s[k] := List.getElem?_eq_getElem hk'
    unfold blockStart
    rw [hget]
    cases hx : s[k] with
    | none =>
      have ih := ih (by omega)
      refine ⟨by simp only; omega, ?_⟩
      intro j h1 h2
      simp only at h1
      by_cases hj : j = k
      · subst hj; rw [hget, hx]
      · exact ih.2 j h1 (by omega)
    | some a =>
      refine ⟨by simp, ?_⟩
      intro j h1 h2
      simp only at h1; omega

theorem filterMap_all_none {s : List (Option α)} (h : ∀ x ∈ s, x = none) : s.filterMap id = [] := by
  simp; exact h

/-- The compaction loop returns a gap-free array with the same valid entries. -/
theorem compressLoop_spec (fuel kb : Nat) (s : List (Option α)) (hk : kb ≤ s.length)
    (hf : kb < fuel) (htail : ∀ x ∈ s.drop kb, x.isSome) :
    (∀ x ∈ compressLoop fuel kb s, x.isSome) ∧
      (compressLoop fuel kb s).filterMap id = s.filterMap id := by
  induction fuel generalizing kb s with
  | zero => omega
  | succ fuel ih =>
    unfold compressLoop
    have hl := lastNull_spec s kb hk
    cases hln : lastNull s kb with
    | none =>
      refine ⟨?_, rfl⟩
      intro x hx
      rw [← List.take_append_drop kb s] at hx
      rcases List.mem_append.mp hx with hx | hx
      · exact hl.1 hln x hx
      · exact htail x hx
    | some ke =>
      obtain ⟨h1, h2, h3⟩ := hl.2 ke hln
      have hb := blockStart_spec s ke (by omega)
      simp only
      have hdrop : s.drop (ke+1) = (s.take kb).drop (ke+1) ++ s.drop kb := by
        conv => lhs; rw [← List.take_append_drop kb s]
        rw [List.drop_append_of_le_length (by simp; omega)]
      have htl : (s.take (blockStart s ke)).length = blockStart s ke := by simp; omega
      have := ih (blockStart s ke) (s.take (blockStart s ke) ++ s.drop (ke+1))
        (by simp; omega) (by omega) (by
          rw [List.drop_append_of_le_length (by omega), List.drop_eq_nil_of_le (by omega)]
          intro x hx
          rw [hdrop] at hx
          simp only [List.nil_append, List.mem_append] at hx
          rcases hx with hx | hx
          · exact h3 x hx
          · exact htail x hx)
      refine ⟨this.1, this.2.trans ?_⟩
      have hmid : s = s.take (blockStart s ke) ++
          ((s.take (ke+1)).drop (blockStart s ke) ++ s.drop (ke+1)) := by
        have gen : ∀ b, b ≤ ke → s.drop b = (s.take (ke+1)).drop b ++ s.drop (ke+1) := by
          intro b hb'
          conv => lhs; rw [← List.take_append_drop (ke+1) s]
          rw [List.drop_append_of_le_length (by simp; omega)]
        conv => lhs; rw [← List.take_append_drop (blockStart s ke) s]
        rw [← gen _ hb.1]
      conv => rhs; rw [hmid]
      rw [List.filterMap_append, List.filterMap_append, List.filterMap_append,
        filterMap_all_none (s := (s.take (ke+1)).drop (blockStart s ke))]
      · simp
      · intro x hx
        obtain ⟨j, hj, rfl⟩ := List.mem_iff_getElem.mp hx
        simp only [List.length_drop, List.length_take] at hj
        simp only [List.getElem_drop, List.getElem_take]
        by_cases hje : blockStart s ke + j = ke
        · have := h2
          rw [List.getElem?_eq_some_iff] at this
          obtain ⟨_, hh⟩ := this
          simp only [hje]; exact hh
        · have := hb.2 (blockStart s ke + j) (by omega) (by omega)
          rw [List.getElem?_eq_some_iff] at this
          exact this.2

theorem compress_spec {l : CList α} (h : l.Inv) :
    ∃ l', l.compress = .ok l' ∧ l'.Inv ∧ l'.abs = l.abs ∧ l'.nrem = 0 := by
  unfold compress
  by_cases hn : l.nrem = 0
  · rw [if_pos hn]; exact ⟨l, rfl, h, rfl, hn⟩
  · rw [if_neg hn, if_pos (by have := h.capb; rw [h.ntot]; exact ⟨by omega, this⟩)]
    have hs : l.slots.take l.ntot = l.slots := by rw [h.ntot]; simp
    have hc := compressLoop_spec (l.ntot+1) l.ntot l.slots (by rw [h.ntot]; omega) (by omega)
      (by rw [h.ntot]; simp)
    rw [hs]
    refine ⟨_, rfl, ?_, ?_, ?_⟩
    · have hlen : (compressLoop (l.ntot+1) l.ntot l.slots).length = l.nent := by
        have e1 : ((compressLoop (l.ntot+1) l.ntot l.slots).filterMap id).length =
            (compressLoop (l.ntot+1) l.ntot l.slots).length := by simpa using hc.1
        rw [← e1, hc.2]; exact h.cnt
      have hcnt := h.cnt
      have hle := h.len
      have hcap := h.capb
      unfold abs at hcnt
      constructor
      · simp [setPars, hlen]
      · simp only [setPars, abs, ↓reduceIte]; rw [hc.2]; exact hcnt
      · simp [setPars, hlen]; omega
      · simp [setPars]
      · simp [setPars]
    · simp only [setPars, abs, ↓reduceIte]; exact hc.2
    · simp [setPars]

theorem growTo_spec (n : Nat) : ∀ fuel p, n < 2 ^ (p + fuel) → p ≤ growTo n fuel p ∧
    n < 2 ^ growTo n fuel p := by
  intro fuel
  induction fuel with
  | zero => intro p h; exact ⟨Nat.le_refl _, h⟩
  | succ fuel ih =>
    intro p h
    unfold growTo
    split
    · rename_i hp; exact ⟨Nat.le_refl _, hp⟩
    · have := ih (p+1) (by rw [show p + 1 + fuel = p + (fuel+1) by omega]; exact h)
      exact ⟨by omega, this.2⟩

theorem lt_pow_add (n p : Nat) : n < 2 ^ (p + (n+1)) := by
  have h1 : n < 2 ^ n := Nat.lt_two_pow_self
  have h2 : 2 ^ n ≤ 2 ^ (p + (n+1)) := Nat.pow_le_pow_right (by omega) (by omega)
  omega

theorem new_inv (n : Nat) : (new n : CList α).Inv := by
  constructor <;> simp [new, abs]

theorem new_abs (n : Nat) : (new n : CList α).abs = [] := by simp [new, abs]

theorem new_cap (n : Nat) : n ≤ (new n : CList α).cap := by
  unfold new cap
  simp only
  split
  · omega
  · have := (growTo_spec n (n+1) 0 (lt_pow_add n 0)).2
    omega

theorem copy_spec {l : CList α} (h : l.Inv) : l.copy = .ok l := by
  unfold copy
  rw [if_pos (by have := h.capb; rw [h.ntot]; exact ⟨by omega, this⟩)]
  have hs : l.slots.take l.ntot = l.slots := by rw [h.ntot]; simp
  rw [hs]
  by_cases hn : l.nrem = 0
  · have := h.r0 hn
    simp only [setPars, hn, ↓reduceIte]
    congr 1
    cases l; simp_all
  · simp [setPars, hn]

/-! ### Iteration, membership, location, concatenation -/

theorem nextFrom_none {l : CList α} (hc : l.slots.length ≤ 2 ^ l.p - 1) (rest pre : List (Option α))
    (hs : l.slots = pre ++ rest) (h : rest.filterMap id = []) :
    l.nextFrom rest.length pre.length = .ok none := by
  induction rest generalizing pre with
  | nil => rfl
  | cons y rest ih =>
    have hy : l.slots[pre.length]? = some y := by rw [hs]; simp
    have hs' : l.slots = (pre ++ [y]) ++ rest := by rw [hs]; simp
    cases y with
    | some a => simp at h
    | none =>
      simp only [List.length_cons, nextFrom, rd_eq hc hy, Res.bind_ok]
      have := ih (pre ++ [none]) hs' (by simpa using h)
      simpa using this

theorem nextFrom_some {l : CList α} (hc : l.slots.length ≤ 2 ^ l.p - 1) (rest pre : List (Option α))
    (hs : l.slots = pre ++ rest) {a : α} {t : List α} (h : rest.filterMap id = a :: t) :
    ∃ m post, rest = m ++ some a :: post ∧ m.filterMap id = [] ∧ post.filterMap id = t ∧
      l.nextFrom rest.length pre.length = .ok (some (a, pre.length + m.length + 1)) := by
  induction rest generalizing pre with
  | nil => simp at h
  | cons y rest ih =>
    have hy : l.slots[pre.length]? = some y := by rw [hs]; simp
    have hs' : l.slots = (pre ++ [y]) ++ rest := by rw [hs]; simp
    cases y with
    | some b =>
      simp at h
      obtain ⟨rfl, rfl⟩ := h
      exact ⟨[], rest, by simp, by simp, rfl, by
        simp only [List.length_cons, nextFrom, rd_eq hc hy, Res.bind_ok]; simp⟩
    | none =>
      simp only [List.length_cons, nextFrom, rd_eq hc hy, Res.bind_ok]
      obtain ⟨m, post, h1, h2, h3, h4⟩ := ih (pre ++ [none]) hs' (by simpa using h)
      refine ⟨none :: m, post, by simp [h1], by simpa using h2, h3, ?_⟩
      simp only [List.length_append, List.length_cons, List.length_nil, Nat.zero_add] at h4
      rw [h4]; simp only [List.length_cons]; congr 3; omega

/-- `List_Next_Entry` at raw index `pre.length`. -/
theorem next_spec {l : CList α} (h : l.Inv) {pre rest : List (Option α)} (hs : l.slots = pre ++ rest) :
    (rest.filterMap id = [] ∧ l.next pre.length = .ok (none, pre.length)) ∨
    ∃ m a post, rest = m ++ some a :: post ∧ m.filterMap id = [] ∧
      l.next pre.length = .ok (some a, pre.length + m.length + 1) := by
  have hn := h.ntot
  have hl : l.slots.length = pre.length + rest.length := by rw [hs]; simp
  unfold next
  by_cases hr : rest = []
  · subst hr
    left
    rw [if_pos (by simp at hl; omega)]
    exact ⟨rfl, rfl⟩
  · have : 0 < rest.length := List.length_pos_iff.mpr hr
    rw [if_neg (by omega)]
    have e : l.ntot - pre.length = rest.length := by omega
    rw [e]
    cases hf : rest.filterMap id with
    | nil =>
      left
      rw [nextFrom_none h.capb rest pre hs hf]
      exact ⟨rfl, rfl⟩
    | cons a t =>
      right
      obtain ⟨m, post, h1, h2, _, h4⟩ := nextFrom_some h.capb rest pre hs hf
      rw [h4]
      exact ⟨m, a, post, h1, h2, rfl⟩

theorem contains_spec [DecidableEq α] {l : CList α} (h : l.Inv) (a : α) :
    l.contains (some a) = .ok (decide (a ∈ l.abs)) := by
  unfold contains
  rcases find_spec h a with ⟨h1, h2⟩ | ⟨pre, post, h1, h2, h3⟩
  · rw [h2]; simp [h1]
  · rw [h3]
    have : a ∈ l.abs := by rw [split_abs h1]; simp
    simp [this]

theorem locateFrom_spec [DecidableEq α] {l : CList α} (hc : l.slots.length ≤ 2 ^ l.p - 1) (a : α)
    (rest pre : List (Option α)) (hs : l.slots = pre ++ rest) (c : Int) :
    l.locateFrom (some a) rest.length pre.length c =
      .ok (if a ∈ rest.filterMap id then c + 1 + ((rest.filterMap id).idxOf a : Nat) else -1) := by
  induction rest generalizing pre c with
  | nil => simp [locateFrom]
  | cons y rest ih =>
    have hy : l.slots[pre.length]? = some y := by rw [hs]; simp
    have hs' : l.slots = (pre ++ [y]) ++ rest := by rw [hs]; simp
    simp only [List.length_cons, locateFrom, rd_eq hc hy, Res.bind_ok]
    cases y with
    | none =>
      simp only [Option.isSome_none, Bool.false_eq_true, ↓reduceIte, reduceCtorEq]
      have := ih (pre ++ [none]) hs' c
      simp only [List.length_append, List.length_cons, List.length_nil, Nat.zero_add] at this
      rw [this]; simp
    | some b =>
      simp only [Option.isSome_some, ↓reduceIte, Option.some.injEq]
      by_cases hb : b = a
      · subst hb; simp
      · rw [if_neg hb]
        have := ih (pre ++ [some b]) hs' (c+1)
        simp only [List.length_append, List.length_cons, List.length_nil, Nat.zero_add] at this
        rw [this]
        simp only [List.filterMap_cons, id_eq, List.mem_cons]
        by_cases hm : a ∈ rest.filterMap id
        · rw [if_pos hm, if_pos (Or.inr hm), List.idxOf_cons]
          have hb' : (b == a) = false := by simpa using hb
          rw [hb']; simp only [cond_false]; congr 1; omega
        · rw [if_neg hm, if_neg (by simp only [not_or]; exact ⟨fun h => hb h.symm, hm⟩)]

theorem locate_spec [DecidableEq α] {l : CList α} (h : l.Inv) (a : α) :
    l.locate (some a) = .ok (if a ∈ l.abs then (l.abs.idxOf a : Int) else -1) := by
  unfold locate
  rw [h.ntot]
  have := locateFrom_spec h.capb a l.slots [] (by simp) (-1)
  simp only [List.length_nil] at this
  rw [this]; simp [abs]

theorem cat_eq {d s : CList α} (hd : d.Inv) (hs : s.Inv) :
    ∃ q, d.p ≤ q ∧ d.slots.length + s.slots.length < 2 ^ q ∧ d.cat s = .ok
      (setPars { d with slots := d.slots ++ s.slots } (d.nent + s.nent) q (d.nrem + s.nrem) d.rem1) := by
  have h1 := hd.ntot
  have h2 := hs.ntot
  have hg := growTo_spec (d.ntot + s.ntot) (d.ntot + s.ntot + 1) (max d.p s.p) (lt_pow_add _ _)
  refine ⟨if growTo (d.ntot + s.ntot) (d.ntot + s.ntot + 1) (max d.p s.p) > d.p then
    growTo (d.ntot + s.ntot) (d.ntot + s.ntot + 1) (max d.p s.p) else d.p, ?_, ?_, ?_⟩
  · split <;> omega
  · have : d.p ≤ growTo (d.ntot + s.ntot) (d.ntot + s.ntot + 1) (max d.p s.p) := by omega
    split
    · omega
    · rename_i hh
      have : d.p = growTo (d.ntot + s.ntot) (d.ntot + s.ntot + 1) (max d.p s.p) := by omega
      rw [this]; omega
  · unfold cat
    simp only
    rw [if_pos]
    · have e : ¬ (d.nrem + s.nrem = 0 ∧ s.nrem ≠ 0) := by omega
      rw [if_neg e, h1, h2]; simp
    · refine ⟨by omega, ?_, by omega⟩
      split
      · omega
      · rename_i hh
        have : d.p = growTo (d.ntot + s.ntot) (d.ntot + s.ntot + 1) (max d.p s.p) := by omega
        rw [this]; omega

/-- Concatenation keeps the invariant unless dest has no gap and src has one. -/
theorem cat_inv {d s : CList α} (hd : d.Inv) (hs : s.Inv) (hok : s.nrem = 0 ∨ d.nrem ≠ 0) :
    ∃ l', d.cat s = .ok l' ∧ l'.Inv ∧ l'.abs = d.abs ++ s.abs := by
  obtain ⟨q, hq, hcap, he⟩ := cat_eq hd hs
  refine ⟨_, he, ?_, ?_⟩
  · have hl1 := hd.len
    have hl2 := hs.len
    have hc1 := hd.cnt
    have hc2 := hs.cnt
    unfold abs at hc1 hc2
    by_cases hn : d.nrem = 0
    · have hsn : s.nrem = 0 := by rcases hok with h | h <;> omega
      constructor <;> simp [setPars, hn, hsn, abs] <;> omega
    · have hne : ¬ (d.nrem + s.nrem = 0) := by omega
      constructor
      · simp only [setPars, hne, ↓reduceIte, List.length_append]; omega
      · simp only [setPars, hne, ↓reduceIte, abs, List.filterMap_append, List.length_append]; omega
      · simp only [setPars, hne, ↓reduceIte, List.length_append]; omega
      · simp only [setPars, hne, ↓reduceIte]; exact fun h => h.elim
      · intro _
        have := hd.r1 hn
        simp only [setPars, hne, ↓reduceIte]
        refine ⟨this.1, fun j hj => ?_⟩
        obtain ⟨a, ha⟩ := this.2 j hj
        have hjl := (List.getElem?_eq_some_iff.mp ha).1
        exact ⟨a, by rw [List.getElem?_append_left hjl]; exact ha⟩
  · simp only [setPars]; split <;> simp [abs]

end CList
end MSTK
