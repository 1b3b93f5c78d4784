import Verif.ListLemmas
/-!
Properties C01-C06 of `List_ptr` (src/util/List.c).

Specification: an ordinary Lean list.  `ListOp` are the API calls, `ListOp.pre` says when a call is
in range, `ListOp.spec` what it does to a sequence, `ListOp.ret` what it returns.
-/
namespace MSTK

/-- API calls that edit a list. -/
inductive ListOp (α : Type) where
  | add (a : α)                 -- List_Add
  | chknAdd (a : α)             -- List_ChknAdd
  | inserti (a : α) (i : Nat)   -- List_Inserti
  | rem (a : α)                 -- List_Rem
  | remi (i : Nat)              -- List_Remi
  | replace (a b : α)           -- List_Replace
  | replacei (i : Nat) (b : α)  -- List_Replacei
  | compress                    -- List_Compress
  | copy                        -- continue with a List_Copy

namespace ListOp
variable {α : Type} [DecidableEq α]

/-- in-range arguments -/
def pre (s : List α) : ListOp α → Prop
  | inserti _ i => i ≤ s.length
  | replacei i _ => i < s.length
  | _ => True

instance (s : List α) (op : ListOp α) : Decidable (op.pre s) := by
  cases op <;> unfold pre <;> infer_instance

/-- effect on the abstract sequence -/
def spec (s : List α) : ListOp α → List α
  | add a => s ++ [a]
  | chknAdd a => if a ∈ s then s else s ++ [a]
  | inserti a i => s.take i ++ a :: s.drop i
  | rem a => s.erase a
  | remi i => s.eraseIdx i
  | replace a b => s.replace a b
  | replacei i b => s.set i b
  | compress => s
  | copy => s

/-- integer result of the calls that have one -/
def ret (s : List α) : ListOp α → Option Bool
  | rem a => some (decide (a ∈ s))
  | remi i => some (decide (i < s.length))
  | replace a _ => some (decide (a ∈ s))
  | replacei _ _ => some true
  | _ => none

/-- the modelled code of each call -/
def exec (l : CList α) : ListOp α → Res (CList α × Option Bool)
  | add a => do pure (← l.add (some a), none)
  | chknAdd a => do pure (← l.chknAdd (some a), none)
  | inserti a i => do
      match ← l.inserti (some a) i with
      | some l => pure (l, none)
      | none => pure (l, some false)
  | rem a => do let (b, l) ← l.rem (some a); pure (l, some b)
  | remi i => do let (b, l) ← l.remi i; pure (l, some b)
  | replace a b => do let (r, l) ← l.replace (some a) (some b); pure (l, some r)
  | replacei i b => do let (r, l) ← l.replacei i (some b); pure (l, some r)
  | compress => do pure (← l.compress, none)
  | copy => do pure (← l.copy, none)

/-- every call of a history is in range on the sequence it is applied to -/
def preAll : List α → List (ListOp α) → Prop
  | _, [] => True
  | s, op :: ops => op.pre s ∧ preAll (op.spec s) ops

instance decPreAll : (s : List α) → (ops : List (ListOp α)) → Decidable (preAll s ops)
  | _, [] => .isTrue trivial
  | s, op :: ops =>
    have := decPreAll (op.spec s) ops
    by unfold preAll; infer_instance

def specAll : List α → List (ListOp α) → List α
  | s, [] => s
  | s, op :: ops => specAll (op.spec s) ops

def retAll : List α → List (ListOp α) → List (Option Bool)
  | _, [] => []
  | s, op :: ops => op.ret s :: retAll (op.spec s) ops

def execAll : CList α → List (ListOp α) → Res (CList α × List (Option Bool))
  | l, [] => .ok (l, [])
  | l, op :: ops => do
    let (l, r) ← op.exec l
    let (l, rs) ← execAll l ops
    pure (l, r :: rs)

theorem exec_spec {l : CList α} (h : l.Inv) (op : ListOp α) (hp : op.pre l.abs) :
    ∃ l', op.exec l = .ok (l', op.ret l.abs) ∧ l'.Inv ∧ l'.abs = op.spec l.abs := by
  cases op with
  | add a =>
    obtain ⟨l', h1, h2, h3⟩ := CList.add_spec h a
    exact ⟨l', by simp [exec, h1, ret], h2, h3⟩
  | chknAdd a =>
    obtain ⟨l', h1, h2, h3⟩ := CList.chknAdd_spec h a
    exact ⟨l', by simp [exec, h1, ret], h2, h3⟩
  | inserti a i =>
    obtain ⟨l', h1, h2, h3⟩ := CList.inserti_spec h a (i := i) (by simpa [pre, h.cnt] using hp)
    exact ⟨l', by simp [exec, h1, ret], h2, h3⟩
  | rem a =>
    obtain ⟨l', h1, h2, h3⟩ := CList.rem_spec h a
    exact ⟨l', by simp [exec, h1, ret], h2, h3⟩
  | remi i =>
    obtain ⟨l', h1, h2, h3⟩ := CList.remi_spec h i
    exact ⟨l', by simp [exec, h1, ret], h2, h3⟩
  | replace a b =>
    obtain ⟨l', h1, h2, h3⟩ := CList.replace_spec h a b
    exact ⟨l', by simp [exec, h1, ret], h2, h3⟩
  | replacei i b =>
    obtain ⟨l', h1, h2, h3⟩ := CList.replacei_spec h hp b
    exact ⟨l', by simp [exec, h1, ret], h2, h3⟩
  | compress =>
    obtain ⟨l', h1, h2, h3, _⟩ := CList.compress_spec h
    exact ⟨l', by simp [exec, h1, ret], h2, h3⟩
  | copy =>
    exact ⟨l, by simp [exec, CList.copy_spec h, ret], h, rfl⟩

theorem execAll_spec {l : CList α} (h : l.Inv) (ops : List (ListOp α)) (hp : preAll l.abs ops) :
    ∃ l', execAll l ops = .ok (l', retAll l.abs ops) ∧ l'.Inv ∧ l'.abs = specAll l.abs ops := by
  induction ops generalizing l with
  | nil => exact ⟨l, rfl, h, rfl⟩
  | cons op ops ih =>
    obtain ⟨l1, h1, h2, h3⟩ := exec_spec h op hp.1
    obtain ⟨l2, h4, h5, h6⟩ := ih h2 (by rw [h3]; exact hp.2)
    refine ⟨l2, ?_, h5, ?_⟩
    · simp [execAll, h1, h4, retAll, h3]
    · rw [h6, h3]; rfl

end ListOp

open ListOp

/-- **C01.** Any in-range history of edits on a fresh list runs without undefined behaviour or
abort, each call returns what the same call on an ordinary sequence returns, and afterwards
`List_Num_Entries` and `List_Entry` report exactly that sequence (NULL past its end). -/
theorem C01_list_is_sequence {α : Type} [DecidableEq α] (inisize : Nat) (ops : List (ListOp α))
    (hpre : preAll [] ops) :
    ∃ l, execAll (CList.new inisize) ops = .ok (l, retAll [] ops) ∧
      l.numEntries = (specAll [] ops).length ∧
      ∀ i, l.entry i = .ok (specAll [] ops)[i]? := by
  obtain ⟨l, h1, h2, h3⟩ := execAll_spec (CList.new_inv inisize) ops
    (by rw [CList.new_abs]; exact hpre)
  rw [CList.new_abs] at h1 h3
  refine ⟨l, h1, ?_, fun i => ?_⟩
  · rw [← h3, h2.cnt]; rfl
  · rw [CList.entry_spec h2, h3]

/-- Non-vacuity: a history with gaps, insertion among gaps, and compression. -/
example : preAll ([] : List Nat)
    [.add 1, .add 2, .add 3, .rem 1, .inserti 9 1, .remi 0, .chknAdd 3, .replacei 1 7, .compress,
     .add 4] ∧
    specAll ([] : List Nat)
    [.add 1, .add 2, .add 3, .rem 1, .inserti 9 1, .remi 0, .chknAdd 3, .replacei 1 7, .compress,
     .add 4] = [9, 7, 4] := by decide

/-! ### C02 concatenation -/

/-- **C02 (negation).** `List_Cat` followed by further edits does not always behave as the
concatenated sequence: here dest = [1,2], src = [3] with one earlier removal; after
`List_Cat`, `List_Rem 3`, `List_Add 4` the list claims 3 entries but `List_Entry(l,2)` is NULL. -/
theorem C02_list_cat_negation :
    ∃ d s l1 l2 : CList Nat, ∃ r,
      execAll (CList.new 0) [.add 1, .add 2] = .ok (d, [none, none]) ∧
      execAll (CList.new 0) [.add 8, .add 3, .rem 8] = .ok (s, [none, none, some true]) ∧
      d.cat s = .ok l1 ∧
      execAll l1 [.rem 3, .add 4] = .ok (l2, r) ∧
      specAll ([1, 2] ++ [3]) [.rem 3, .add 4] = [1, 2, 4] ∧
      l2.numEntries = 3 ∧ l2.entry 2 = .ok none := by
  refine ⟨{ nent := 2, p := 3, nrem := 0, rem1 := -1, slots := [some 1, some 2] },
    { nent := 1, p := 3, nrem := 1, rem1 := 0, slots := [none, some 3] },
    { nent := 3, p := 3, nrem := 1, rem1 := -1, slots := [some 1, some 2, none, some 3] },
    { nent := 3, p := 3, nrem := 2, rem1 := 3, slots := [some 1, some 2, none, none, some 4] },
    [some true, none], ?_⟩
  decide

/-- **C02 (partial).** If dest already has a gap or src has none (in terms of the API:
`List_Size_Raw` differs from / equals `List_Num_Entries`), concatenation and every later in-range
history behave as the concatenated sequence.  Missing: dest without and src with gaps, where the
property fails. -/
theorem C02_list_cat_partial {α : Type} [DecidableEq α] (n m : Nat) (ops1 ops2 ops3 : List (ListOp α))
    (h1 : preAll [] ops1) (h2 : preAll [] ops2)
    (h3 : preAll (specAll [] ops1 ++ specAll [] ops2) ops3)
    {d s : CList α} {r1 r2} (hd : execAll (CList.new n) ops1 = .ok (d, r1))
    (hs : execAll (CList.new m) ops2 = .ok (s, r2))
    (hok : s.sizeRaw = s.numEntries ∨ d.sizeRaw ≠ d.numEntries) :
    ∃ l1 l2 r, d.cat s = .ok l1 ∧ execAll l1 ops3 = .ok (l2, r) ∧
      r = retAll (specAll [] ops1 ++ specAll [] ops2) ops3 ∧
      l2.numEntries = (specAll (specAll [] ops1 ++ specAll [] ops2) ops3).length ∧
      ∀ i, l2.entry i = .ok (specAll (specAll [] ops1 ++ specAll [] ops2) ops3)[i]? := by
  obtain ⟨d', e1, e2, e3⟩ := execAll_spec (CList.new_inv n) ops1 (by rw [CList.new_abs]; exact h1)
  rw [hd] at e1; simp only [Res.ok.injEq, Prod.mk.injEq] at e1; obtain ⟨rfl, _⟩ := e1
  obtain ⟨s', f1, f2, f3⟩ := execAll_spec (CList.new_inv m) ops2 (by rw [CList.new_abs]; exact h2)
  rw [hs] at f1; simp only [Res.ok.injEq, Prod.mk.injEq] at f1; obtain ⟨rfl, _⟩ := f1
  rw [CList.new_abs] at e3 f3
  obtain ⟨l1, g1, g2, g3⟩ := CList.cat_inv e2 f2 (by
    simp only [CList.sizeRaw, CList.ntot, CList.numEntries] at hok; omega)
  rw [e3, f3] at g3
  obtain ⟨l2, k1, k2, k3⟩ := execAll_spec g2 ops3 (by rw [g3]; exact h3)
  rw [g3] at k1 k3
  refine ⟨l1, l2, _, g1, k1, rfl, ?_, fun i => ?_⟩
  · rw [← k3, k2.cnt]; rfl
  · rw [CList.entry_spec k2, k3]

example : ∃ (d s : CList Nat) (r1 r2 : _), execAll (CList.new 0) [.add 1, .add 2, .rem 1] = .ok (d, r1) ∧
    execAll (CList.new 0) [.add 3, .add 4, .rem 3] = .ok (s, r2) ∧
    (s.sizeRaw = s.numEntries ∨ d.sizeRaw ≠ d.numEntries) ∧
    preAll (specAll ([] : List Nat) [.add 1, .add 2, .rem 1] ++ specAll [] [.add 3, .add 4, .rem 3])
      [.remi 1, .add 7] := by
  refine ⟨{ nent := 1, p := 3, nrem := 1, rem1 := 0, slots := [none, some 2] },
    { nent := 1, p := 3, nrem := 1, rem1 := 0, slots := [none, some 4] },
    [none, none, some true], [none, none, some true], ?_⟩
  decide

/-! ### C03 insertion before an entry -/

/-- Specification: `x` immediately before the first occurrence of `b`. -/
def insertBefore {α : Type} [DecidableEq α] (x b : α) : List α → List α
  | [] => []
  | y :: ys => if y = b then x :: y :: ys else y :: insertBefore x b ys

/-- **C03 (negation).** On every gap-free list that contains `b4`, `List_Insert(l,x,b4)` with
`x` a new entry fails to insert `x` before the first `b4`: the search loop stops at the first entry
that is *different* from `b4`. -/
theorem C03_list_insert_negation {α : Type} [DecidableEq α] (n : Nat) (s : List α) (x b : α)
    (hb : b ∈ s) (hxs : x ∉ s) {l l' : CList α}
    (hl : execAll (CList.new n) (s.map ListOp.add) = .ok (l, s.map (fun _ => none)))
    (hi : l.insert (some x) (some b) = .ok l') :
    ¬ (∀ i, l'.entry i = .ok (insertBefore x b s)[i]?) := by
  have hx : x ≠ b := fun h => hxs (h ▸ hb)
  have hpre : ∀ (t s : List α), preAll t (s.map ListOp.add) ∧ specAll t (s.map ListOp.add) = t ++ s := by
    intro t s
    induction s generalizing t with
    | nil => simp [preAll, specAll]
    | cons y s ih => simp [preAll, specAll, pre, spec, ih]
  obtain ⟨l0, e1, e2, e3⟩ := execAll_spec (CList.new_inv n) (s.map ListOp.add)
    (by rw [CList.new_abs]; exact (hpre [] s).1)
  rw [hl] at e1; simp only [Res.ok.injEq, Prod.mk.injEq] at e1; obtain ⟨rfl, _⟩ := e1
  rw [CList.new_abs, (hpre [] s).2, List.nil_append] at e3
  -- the list has no gaps: all adds
  have hgap : l.slots = s.map some := by
    have gen : ∀ (s : List α) (l0 l : CList α) (r : _), l0.Inv →
        execAll l0 (s.map ListOp.add) = .ok (l, r) → l.slots = l0.slots ++ s.map some := by
      intro s
      induction s with
      | nil => intro l0 l r h1 h2; simp [execAll] at h2; simp [h2.1]
      | cons y s ih =>
        intro l0 l r h1 h2
        obtain ⟨l1, a1, a2, a3⟩ := CList.add_spec h1 y
        have hsl : l1.slots = l0.slots ++ [some y] := by
          have hg := CList.grow_capb h1
          have hw : l0.grow.wr l0.ntot (some y) = .ok { l0.grow with slots := l0.slots ++ [some y] } := by
            unfold CList.wr CList.cap
            rw [if_pos (by simp [h1.ntot]; omega)]
            simp [h1.ntot]
          unfold CList.add at a1
          simp only [hw, Res.bind_ok, Res.pure_eq, Res.ok.injEq] at a1
          subst a1
          simp [CList.setPars]; split <;> rfl
        simp only [List.map_cons, execAll, exec, a1, Res.bind_ok, Res.pure_eq] at h2
        cases hr : execAll l1 (s.map ListOp.add) with
        | ok p =>
          rw [hr] at h2
          simp only [Res.bind_ok, Res.ok.injEq, Prod.mk.injEq] at h2
          have := ih l1 p.1 p.2 a2 hr
          rw [← h2.1, this, hsl]; simp
        | ub => rw [hr] at h2; simp at h2
        | fatal => rw [hr] at h2; simp at h2
        | hang => rw [hr] at h2; simp at h2
    have := gen s _ _ _ (CList.new_inv n) hl
    simpa [CList.new] using this
  have hinv := CList.grow_inv e2
  -- behaviour of the search loop
  have hfd : ∀ (rest pr : List α), l.grow.slots = pr.map some ++ rest.map some →
      (∀ y ∈ rest, y = b) ∧ l.grow.findDiff (some b) rest.length pr.length = .ok none ∨
      ∃ k z post, rest = List.replicate k b ++ z :: post ∧ z ≠ b ∧
        l.grow.findDiff (some b) rest.length pr.length = .ok (some (pr.length + k)) := by
    intro rest
    induction rest with
    | nil => intro pr _; left; exact ⟨by simp, rfl⟩
    | cons y rest ih =>
      intro pr hs
      have hy : l.grow.slots[pr.length]? = some (some y) := by rw [hs]; simp
      have hrd := CList.rd_eq hinv.capb hy
      by_cases hyb : y = b
      · subst hyb
        have := ih (pr ++ [y]) (by rw [hs]; simp)
        simp only [List.length_cons, CList.findDiff, hrd, Res.bind_ok, ne_eq, not_true_eq_false,
          ↓reduceIte]
        simp only [List.length_append, List.length_cons, List.length_nil, Nat.zero_add] at this
        rcases this with ⟨h1, h2⟩ | ⟨k, z, post, h1, h2, h3⟩
        · left; exact ⟨by simpa using h1, h2⟩
        · right
          refine ⟨k+1, z, post, by simp [List.replicate_succ, h1], h2, ?_⟩
          rw [h3]; congr 2; omega
      · right
        refine ⟨0, y, rest, by simp, hyb, ?_⟩
        simp only [List.length_cons, CList.findDiff, hrd, Res.bind_ok]
        simp [hyb]
  have hnt : l.ntot = s.length := by rw [e2.ntot, hgap]; simp
  unfold CList.insert at hi
  simp only at hi
  have := hfd s [] (by simpa using hgap)
  rw [List.length_nil, ← hnt] at this
  have hib : ∀ s : List α, b ∈ s → (insertBefore x b s).length = s.length + 1 := by
    intro s
    induction s with
    | nil => simp
    | cons y s ih =>
      intro hm
      unfold insertBefore
      split
      · simp
      · rename_i hy
        have : b ∈ s := by
          rcases List.mem_cons.mp hm with h | h
          · exact absurd h.symm hy
          · exact h
        simp [ih this]
  rcases this with ⟨h1, h2⟩ | ⟨k, z, post, h1, h2, h3⟩
  · -- all entries equal b: nothing inserted
    rw [h2] at hi
    simp only [Res.bind_ok, Res.pure_eq, Res.ok.injEq] at hi
    intro hall
    have hl' : l' = l := by
      rw [← hi]; unfold CList.grow; split <;> rfl
    rw [hl'] at hall
    have := hall s.length
    rw [CList.entry_spec e2, e3] at this
    simp at this
    have hh := hib s hb
    omega
  · rw [h3] at hi
    simp only [Res.bind_ok, Nat.zero_add] at hi
    have hcap := CList.grow_capb e2
    have hlen : l.slots.length = s.length := by rw [hgap]; simp
    have hks : k ≤ s.length := by rw [h1]; simp
    have hsh : l.grow.shiftIn l.ntot k (some x) = .ok { l.grow with
        slots := (List.replicate k b ++ x :: z :: post).map some } := by
      unfold CList.shiftIn CList.cap
      rw [if_pos (by simp [hnt]; omega)]
      simp only [CList.grow_slots, hgap, hnt]
      rw [List.take_of_length_le (i := s.length) (l := s.map some) (by simp),
        List.drop_eq_nil_of_le (as := s.map some) (i := s.length + 1) (by rw [List.length_map]; omega), h1]
      simp
    rw [hsh] at hi
    simp only [Res.bind_ok, Res.pure_eq, Res.ok.injEq] at hi
    have habs : l'.abs = List.replicate k b ++ x :: z :: post := by
      rw [← hi]; simp only [CList.setPars]; split <;> simp [CList.abs, List.filterMap_map]
    have hinv' : l'.Inv := by
      have := CList.ins_inv e2 (pre := (List.replicate k b).map some) (post := (z :: post).map some)
        l.grow.p hcap (by rw [hgap, h1]; simp) x
      rw [← hi]
      have e : ({ l.grow with slots := (List.replicate k b ++ x :: z :: post).map some } : CList α) =
        { l with p := l.grow.p, slots := (List.replicate k b).map some ++ some x :: (z :: post).map some } := by
        unfold CList.grow; split <;> simp
      rw [e]; exact this
    intro hall
    have heq : l'.abs = insertBefore x b s := by
      apply List.ext_getElem?
      intro i
      have := hall i
      rw [CList.entry_spec hinv'] at this
      simpa using this
    rw [habs, h1] at heq
    cases k with
    | zero =>
      simp only [List.replicate_zero, List.nil_append, insertBefore, if_neg h2] at heq
      exact hxs (by rw [h1, (List.cons.inj heq).1]; simp)
    | succ k =>
      rw [List.replicate_succ] at heq
      simp only [List.cons_append, insertBefore, ↓reduceIte] at heq
      exact hx (List.cons.inj heq).1.symm

/-- Non-vacuity: inserting 9 before 3 in [1,2,3] gives [9,1,2,3]. -/
example : ∃ l l' : CList Nat, execAll (CList.new 3) ([1, 2, 3].map ListOp.add) =
      .ok (l, [1, 2, 3].map (fun _ => none)) ∧ l.insert (some 9) (some 3) = .ok l' ∧
      3 ∈ [1, 2, 3] ∧ 9 ∉ [1, 2, 3] ∧
      l'.entry 0 = .ok (some 9) ∧ insertBefore 9 3 [1, 2, 3] = [1, 2, 9, 3] := by
  refine ⟨{ nent := 3, p := 2, nrem := 0, rem1 := -1, slots := [some 1, some 2, some 3] },
    { nent := 4, p := 3, nrem := 0, rem1 := -1, slots := [some 9, some 1, some 2, some 3] }, ?_⟩
  decide

/-- **C03 (partial).** With `b4entry == NULL`, `List_Insert` appends.  Missing: any non-NULL
`b4entry`, where the property fails. -/
theorem C03_list_insert_partial {α : Type} [DecidableEq α] (n : Nat) (ops : List (ListOp α))
    (hpre : preAll [] ops) (x : α) {l : CList α} {r} (hl : execAll (CList.new n) ops = .ok (l, r)) :
    ∃ l', l.insert (some x) none = .ok l' ∧ ∀ i, l'.entry i = .ok (specAll [] ops ++ [x])[i]? := by
  obtain ⟨l0, e1, e2, e3⟩ := execAll_spec (CList.new_inv n) ops (by rw [CList.new_abs]; exact hpre)
  rw [hl] at e1; simp only [Res.ok.injEq, Prod.mk.injEq] at e1; obtain ⟨rfl, _⟩ := e1
  rw [CList.new_abs] at e3
  obtain ⟨l', h1, h2, h3⟩ := CList.add_spec e2 x
  refine ⟨l', ?_, fun i => ?_⟩
  · exact h1
  · rw [CList.entry_spec h2, h3, e3]

/-! ### C04 iteration -/

/-- `idx = 0; while ((e = List_Next_Entry(l,&idx))) visit(e);` -- the loop used all over MSTK. -/
def iterate {α : Type} (l : CList α) : Nat → Nat → Res (List α)
  | 0, _ => .hang
  | fuel+1, idx => do
    match ← l.next idx with
    | (some a, idx) => do pure (a :: (← iterate l fuel idx))
    | (none, _) => pure []

theorem iterate_spec {α : Type} {l : CList α} (h : l.Inv) (fuel : Nat) (pre rest : List (Option α))
    (hs : l.slots = pre ++ rest) (hf : rest.length < fuel) :
    iterate l fuel pre.length = .ok (rest.filterMap id) := by
  induction fuel generalizing pre rest with
  | zero => omega
  | succ fuel ih =>
    unfold iterate
    rcases CList.next_spec h hs with ⟨h1, h2⟩ | ⟨m, a, post, h1, h2, h3⟩
    · rw [h2, h1]; rfl
    · rw [h3]
      have e : pre.length + m.length + 1 = (pre ++ m ++ [some a]).length := by simp; omega
      have := ih (pre ++ m ++ [some a]) post (by rw [hs, h1]; simp) (by
        rw [h1] at hf; simp at hf; omega)
      simp only [Res.bind_ok]
      rw [e, this, h1]
      simp [h2]

/-- **C04.** After any in-range history, iterating with `List_Next_Entry` from index 0 terminates
and returns exactly the entries of the sequence, once each and in order, however gapped the list. -/
theorem C04_iteration_visits_all_once {α : Type} [DecidableEq α] (n : Nat) (ops : List (ListOp α))
    (hpre : preAll [] ops) {l : CList α} {r} (hl : execAll (CList.new n) ops = .ok (l, r))
    (fuel : Nat) (hf : l.sizeRaw < fuel) :
    iterate l fuel 0 = .ok (specAll [] ops) := by
  obtain ⟨l0, e1, e2, e3⟩ := execAll_spec (CList.new_inv n) ops (by rw [CList.new_abs]; exact hpre)
  rw [hl] at e1; simp only [Res.ok.injEq, Prod.mk.injEq] at e1; obtain ⟨rfl, _⟩ := e1
  rw [CList.new_abs] at e3
  have hz : l.sizeRaw = l.slots.length := e2.ntot
  have := iterate_spec e2 fuel [] l.slots (by simp) (by omega)
  rw [List.length_nil] at this
  rw [this, ← e3]; rfl

example : ∃ (l : CList Nat) (r : _), execAll (CList.new 0) [.add 1, .add 2, .add 3, .add 4, .rem 1, .rem 3, .rem 4, .add 5]
    = .ok (l, r) ∧ l.sizeRaw < 6 ∧ iterate l 6 0 = .ok [2, 5] := by
  refine ⟨{ nent := 2, p := 3, nrem := 3, rem1 := 0, slots := [none, some 2, none, none, some 5] },
    [none, none, none, none, some true, some true, some true, none], ?_⟩
  decide

/-- `while ((e = List_Next_Entry(l,&idx))) List_Rem(l,e);` -- removing while iterating, as done by
MESH_Delete and the MSet/ghost-list code. -/
def drain {α : Type} [DecidableEq α] : Nat → CList α → Nat → Res (List α × CList α)
  | 0, _, _ => .hang
  | fuel+1, l, idx => do
    match ← l.next idx with
    | (some a, idx) => do
      let (_, l) ← l.rem (some a)
      let (v, l) ← drain fuel l idx
      pure (a :: v, l)
    | (none, _) => pure ([], l)

theorem drain_spec {α : Type} [DecidableEq α] (fuel : Nat) {l : CList α} (h : l.Inv)
    (pre rest : List (Option α)) (hs : l.slots = pre ++ rest) (hp : pre.filterMap id = [])
    (hf : rest.length < fuel) :
    ∃ l', drain fuel l pre.length = .ok (rest.filterMap id, l') ∧ l'.Inv ∧ l'.abs = [] := by
  induction fuel generalizing l pre rest with
  | zero => omega
  | succ fuel ih =>
    unfold drain
    rcases CList.next_spec h hs with ⟨h1, h2⟩ | ⟨m, a, post, h1, h2, h3⟩
    · rw [h2, h1]
      exact ⟨l, rfl, h, by simp [CList.abs, hs, hp, h1]⟩
    · rw [h3]
      simp only [Res.bind_ok]
      have hsp : l.slots = (pre ++ m) ++ some a :: post := by rw [hs, h1]; simp
      have hfind : l.findRaw (some a) l.ntot 0 = .ok (some (pre ++ m).length) := by
        rcases CList.find_spec h a with ⟨h4, _⟩ | ⟨pr, po, h4, h5, h6⟩
        · exact absurd (by rw [CList.split_abs hsp]; simp) h4
        · rw [h6]
          have hno : some a ∉ pre ++ m := by
            intro hm
            have : a ∈ (pre ++ m).filterMap id := by simp [List.mem_filterMap]; simpa using hm
            rw [List.filterMap_append, hp, h2] at this; simp at this
          have hno2 : some a ∉ pr := by
            intro hm; apply h5; simp [List.mem_filterMap]; exact hm
          have e := hsp.symm.trans h4
          rcases List.append_eq_append_iff.mp e with ⟨w, w1, w2⟩ | ⟨w, w1, w2⟩
          · cases w with
            | nil => simp [w1]
            | cons c w =>
              simp at w2
              exact absurd (by rw [w1, ← w2.1]; simp) hno2
          · cases w with
            | nil => simp [w1]
            | cons c w =>
              simp at w2
              exact absurd (by rw [w1, ← w2.1]; simp) hno
      obtain ⟨l1, b1, b2, b3, b4⟩ := CList.blank_spec h hsp
      have hb : l1.slots = (pre ++ m) ++ none :: post := by
        unfold CList.blank at b1
        rw [CList.wr_append h.capb hsp] at b1
        simp only [Res.bind_ok, Res.pure_eq, Res.ok.injEq] at b1
        rw [← b1]; simp [CList.setPars]
      have hrem : l.rem (some a) = .ok (true, l1) := by
        unfold CList.rem; rw [hfind]; simp only [Res.bind_ok]; rw [b1]; rfl
      rw [hrem]
      simp only [Res.bind_ok]
      have e : pre.length + m.length + 1 = (pre ++ m ++ [none]).length := by simp; omega
      obtain ⟨l2, c1, c2, c3⟩ := ih b2 (pre ++ m ++ [none]) post (by rw [hb]; simp)
        (by simp [hp, h2]) (by rw [h1] at hf; simp at hf; omega)
      rw [e, c1]
      refine ⟨l2, ?_, c2, c3⟩
      rw [h1]; simp [h2]

/-- **C04 (removal during iteration).** Removing each entry as it is visited still visits every
entry exactly once, in order, and leaves the list empty. -/
theorem C04_iteration_with_removal {α : Type} [DecidableEq α] (n : Nat) (ops : List (ListOp α))
    (hpre : preAll [] ops) {l : CList α} {r} (hl : execAll (CList.new n) ops = .ok (l, r))
    (fuel : Nat) (hf : l.sizeRaw < fuel) :
    ∃ l', drain fuel l 0 = .ok (specAll [] ops, l') ∧ l'.numEntries = 0 := by
  obtain ⟨l0, e1, e2, e3⟩ := execAll_spec (CList.new_inv n) ops (by rw [CList.new_abs]; exact hpre)
  rw [hl] at e1; simp only [Res.ok.injEq, Prod.mk.injEq] at e1; obtain ⟨rfl, _⟩ := e1
  rw [CList.new_abs] at e3
  have hz : l.sizeRaw = l.slots.length := e2.ntot
  obtain ⟨l', c1, c2, c3⟩ := drain_spec fuel e2 [] l.slots (by simp) (by simp) (by omega)
  refine ⟨l', ?_, ?_⟩
  · rw [← e3]; exact c1
  · unfold CList.numEntries; rw [← c2.cnt, c3]; rfl

/-! ### C05 storage bounds -/

/-- calls that only read -/
inductive ListQuery (α : Type) where
  | entry (i : Nat) | entryRaw (i : Nat) | next (idx : Nat) | contains (a : α) | locate (a : α)

/-- a query ends normally (no access outside the initialised storage) -/
def ListQuery.safe {α : Type} [DecidableEq α] (l : CList α) : ListQuery α → Prop
  | .entry i => ∃ x, l.entry i = .ok x
  | .entryRaw i => ∃ x, l.entryRaw i = .ok x
  | .next i => ∃ x, l.next i = .ok x
  | .contains a => ∃ x, l.contains (some a) = .ok x
  | .locate a => ∃ x, l.locate (some a) = .ok x

theorem query_safe {α : Type} [DecidableEq α] {l : CList α} (h : l.Inv) (q : ListQuery α) : q.safe l := by
  cases q with
  | entry i => exact ⟨_, CList.entry_spec h i⟩
  | entryRaw i =>
    simp only [ListQuery.safe, CList.entryRaw]
    split
    · exact ⟨_, rfl⟩
    · rename_i hi
      have hl : i < l.slots.length := by have := h.ntot; omega
      exact ⟨_, CList.rd_eq h.capb (List.getElem?_eq_getElem hl)⟩
  | next i =>
    simp only [ListQuery.safe]
    by_cases hi : i ≤ l.slots.length
    · have hs : l.slots = l.slots.take i ++ l.slots.drop i := (List.take_append_drop i _).symm
      have hlen : (l.slots.take i).length = i := by simp; omega
      have := CList.next_spec h hs
      rw [hlen] at this
      rcases this with ⟨_, h2⟩ | ⟨m, a, post, _, _, h3⟩
      · exact ⟨_, h2⟩
      · exact ⟨_, h3⟩
    · unfold CList.next
      rw [if_pos (by have := h.ntot; omega)]
      exact ⟨_, rfl⟩
  | contains a => exact ⟨_, CList.contains_spec h a⟩
  | locate a => exact ⟨_, CList.locate_spec h a⟩

/-- **C05.** Any in-range history of edits stays inside the allocated storage (the outcome is never
undefined behaviour, abort or non-termination), the number of used slots never exceeds the number
allocated, and every read-only call with any index is then safe as well; so is concatenating any
two such lists. -/
theorem C05_list_storage_safe {α : Type} [DecidableEq α] (n m : Nat) (ops1 ops2 : List (ListOp α))
    (h1 : preAll [] ops1) (h2 : preAll [] ops2) :
    ∃ d s r1 r2, execAll (CList.new n) ops1 = .ok (d, r1) ∧ execAll (CList.new m) ops2 = .ok (s, r2) ∧
      d.sizeRaw ≤ d.cap ∧ (∀ q : ListQuery α, q.safe d) ∧
      ∃ l, d.cat s = .ok l ∧ l.sizeRaw ≤ l.cap := by
  obtain ⟨d, e1, e2, e3⟩ := execAll_spec (CList.new_inv n) ops1 (by rw [CList.new_abs]; exact h1)
  obtain ⟨s, f1, f2, f3⟩ := execAll_spec (CList.new_inv m) ops2 (by rw [CList.new_abs]; exact h2)
  refine ⟨d, s, _, _, e1, f1, ?_, query_safe e2, ?_⟩
  · have := e2.capb; rw [← e2.ntot] at this; exact this
  · obtain ⟨q, q1, q2, q3⟩ := CList.cat_eq e2 f2
    refine ⟨_, q3, ?_⟩
    have := e2.len
    have := f2.len
    unfold CList.sizeRaw CList.cap CList.ntot CList.setPars
    split <;> simp only <;> omega

example : preAll ([] : List Nat) ((List.range 20).map ListOp.add ++ [.rem 3, .inserti 50 19, .remi 0]) := by
  decide

/-! ### C06 set-like use -/

/-- **C06.** A list filled only by `List_ChknAdd` (and reduced by removals) never holds duplicates;
`List_Contains` and `List_Locate` agree with membership and first position. -/
theorem C06_list_as_set {α : Type} [DecidableEq α] (n : Nat) (ops : List (ListOp α))
    (hops : ∀ op ∈ ops, (∃ a, op = .chknAdd a) ∨ (∃ a, op = .rem a) ∨ (∃ i, op = .remi i) ∨ op = .compress) :
    ∃ (l : CList α) (r : _) (s : List α), execAll (CList.new n) ops = .ok (l, r) ∧
      (∀ i, l.entry i = .ok s[i]?) ∧ s.Nodup ∧
      (∀ a, l.contains (some a) = .ok (decide (a ∈ s))) ∧
      (∀ a, l.locate (some a) = .ok (if a ∈ s then (s.idxOf a : Int) else -1)) := by
  have hall : ∀ (ops : List (ListOp α)) (s : List α),
      (∀ op ∈ ops, (∃ a, op = .chknAdd a) ∨ (∃ a, op = .rem a) ∨ (∃ i, op = .remi i) ∨ op = .compress) →
      s.Nodup → preAll s ops ∧ (specAll s ops).Nodup := by
    intro ops
    induction ops with
    | nil => intro s _ hn; exact ⟨trivial, hn⟩
    | cons op ops ih =>
      intro s ho hn
      have hstep : op.pre s ∧ (op.spec s).Nodup := by
        rcases ho op (by simp) with ⟨a, rfl⟩ | ⟨a, rfl⟩ | ⟨i, rfl⟩ | rfl
        · refine ⟨trivial, ?_⟩
          simp only [spec]
          split
          · exact hn
          · rename_i hm
            rw [List.nodup_append]
            exact ⟨hn, by simp, by intro x hx y hy; simp at hy; subst hy; exact fun h => hm (h ▸ hx)⟩
        · exact ⟨trivial, hn.erase a⟩
        · exact ⟨trivial, hn.sublist (List.eraseIdx_sublist s i)⟩
        · exact ⟨trivial, hn⟩
      have := ih (op.spec s) (fun o h => ho o (by simp [h])) hstep.2
      exact ⟨⟨hstep.1, this.1⟩, this.2⟩
  have := hall ops [] hops List.nodup_nil
  obtain ⟨l, h1, h2, h3⟩ := execAll_spec (CList.new_inv n) ops (by rw [CList.new_abs]; exact this.1)
  rw [CList.new_abs] at h1 h3
  refine ⟨l, _, specAll [] ops, h1, fun i => ?_, this.2, fun a => ?_, fun a => ?_⟩
  · rw [CList.entry_spec h2, h3]
  · rw [CList.contains_spec h2, h3]
  · rw [CList.locate_spec h2, h3]

/-- **C06.** `List_Rem` removes exactly the first occurrence and reports whether there was one. -/
theorem C06_list_rem_first {α : Type} [DecidableEq α] (n : Nat) (ops : List (ListOp α))
    (hpre : preAll [] ops) {l : CList α} {r} (hl : execAll (CList.new n) ops = .ok (l, r)) (a : α) :
    ∃ l', l.rem (some a) = .ok (decide (a ∈ specAll [] ops), l') ∧
      (∀ i, l'.entry i = .ok ((specAll [] ops).erase a)[i]?) := by
  obtain ⟨l0, e1, e2, e3⟩ := execAll_spec (CList.new_inv n) ops (by rw [CList.new_abs]; exact hpre)
  rw [hl] at e1; simp only [Res.ok.injEq, Prod.mk.injEq] at e1; obtain ⟨rfl, _⟩ := e1
  rw [CList.new_abs] at e3
  obtain ⟨l', h1, h2, h3⟩ := CList.rem_spec e2 a
  rw [e3] at h1 h3
  exact ⟨l', h1, fun i => by rw [CList.entry_spec h2, h3]⟩

example : ∃ (l : CList Nat) (r : _), execAll (CList.new 1) [.chknAdd 4, .chknAdd 5, .chknAdd 4, .rem 4, .chknAdd 4] = .ok (l, r)
    ∧ l.locate (some 4) = .ok 1 ∧ l.contains (some 7) = .ok false := by
  refine ⟨{ nent := 2, p := 2, nrem := 1, rem1 := 0, slots := [none, some 5, some 4] },
    [none, none, none, some true, none], ?_⟩
  decide

end MSTK
