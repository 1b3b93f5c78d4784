import Verif.CopyAttModel
import Verif.Props.Attrib
import Verif.Props.AddGhost

/-! C85: the values of attributes in the pieces of a distributed mesh.  C86: the mesh sets of the pieces. -/
namespace MSTK
namespace Prt
open File Copy

variable {D : Type}

/-! ### one entity -/

section one
variable (ty : Nat → AttType) (nc : Nat → Nat) (zero : D)

/-- what `MEnt_Set_AttVal` leaves in the list of instances -/
theorem set_find {ins ins' : List (AttIns D)} {a : Nat} {i : Int} {r : D} {v : PVal D} {c : AttCell D}
    (hc : Att.setValue ty nc a i r v = .ok c) (h : Att.set ty nc ins a i r v = .ok ins') :
    ins'.find? (fun x => x.attrib = a) = some ⟨a, c⟩ ∧
    ∀ b, b ≠ a → ins'.find? (fun x => x.attrib = b) = ins.find? (fun x => x.attrib = b) := by
  unfold Att.set at h
  rw [hc, Res.bind_ok] at h
  induction ins generalizing ins' with
  | nil =>
    simp only [List.findIdx?_nil, Res.pure_eq, Res.ok.injEq] at h
    subst h
    refine ⟨by simp, fun b hb => ?_⟩
    simp [Ne.symm hb]
  | cons y ys ih =>
    by_cases hy : y.attrib = a
    · rw [List.findIdx?_cons, if_pos (decide_eq_true hy)] at h
      simp only [List.set_cons_zero, Res.pure_eq, Res.ok.injEq] at h
      subst h
      refine ⟨by simp, fun b hb => ?_⟩
      have h1 : ¬ y.attrib = b := fun h => hb (h.symm.trans hy)
      simp [Ne.symm hb, h1]
    · rw [List.findIdx?_cons, if_neg (by simpa using hy)] at h
      cases hk : ys.findIdx? (fun x => decide (x.attrib = a)) with
      | some k =>
        rw [hk] at h ih
        simp only [Option.map_some, List.set_cons_succ, Res.pure_eq, Res.ok.injEq] at h
        subst h
        obtain ⟨h1, h2⟩ := ih rfl
        refine ⟨by rw [List.find?_cons_of_neg (by simpa using hy)]; exact h1, fun b hb => ?_⟩
        rw [List.find?_cons, List.find?_cons, h2 b hb]
      | none =>
        rw [hk] at h ih
        simp only [Option.map_none, List.cons_append, Res.pure_eq, Res.ok.injEq] at h
        subst h
        obtain ⟨h1, h2⟩ := ih rfl
        refine ⟨by rw [List.find?_cons_of_neg (by simpa using hy)]; exact h1, fun b hb => ?_⟩
        rw [List.find?_cons, List.find?_cons, h2 b hb]

/-- after setting a value it is reported, and the values of other attributes are what they were -/
theorem set_get {ins : List (AttIns D)} {a : Nat} (i : Int) (r : D) {v : PVal D}
    (hl : (ty a = .vector ∨ ty a = .tensor) → ∃ w, v = .buf w ∧ nc a ≤ w.length) :
    ∃ ins', Att.set ty nc ins a i r v = .ok ins' ∧
      Att.get ty zero ins' a = .ok (true, Att.reported ty nc zero a i r v) ∧
      ∀ b, b ≠ a → Att.get ty zero ins' b = Att.get ty zero ins b := by
  obtain ⟨c, h1, h2⟩ := Att.getValue_setValue ty nc zero a i r v hl
  obtain ⟨ins', h3⟩ : ∃ ins', Att.set ty nc ins a i r v = .ok ins' := by
    unfold Att.set
    rw [h1, Res.bind_ok]
    cases ins.findIdx? (fun x => decide (x.attrib = a)) with
    | some k => exact ⟨_, rfl⟩
    | none => exact ⟨_, rfl⟩
  obtain ⟨h4, h5⟩ := set_find ty nc h1 h3
  refine ⟨ins', h3, ?_, fun b hb => ?_⟩
  · unfold Att.get; rw [h4]; simp only [h2, Res.bind_ok, Res.pure_eq]
  · unfold Att.get; rw [h5 b hb]

end one

/-! ### the copies -/

/-- A value that can be copied: for a vector or tensor attribute an array with more than one component, all of
them there. -/
def Whole (t : AttType) (n : Nat) (v : PVal D) : Prop :=
  (t = .vector ∨ t = .tensor) → 1 < n ∧ ∃ w, v = .buf w ∧ w.length = n

section copies
variable {ty : Nat → AttType} {nc : Nat → Nat} {zero : D} {num ga : Nat} {la : Nat → Nat}

/-- what is reported for a copy -/
def given (ty : Nat → AttType) (zero : D) (a : Nat) (i : Int) (r : D) (v : PVal D) : Int × D × PVal D :=
  match ty a with
  | .int => (i, zero, .null)
  | .double => (0, r, .null)
  | _ => (0, zero, v)

theorem copyTo_ok (hty : ∀ p, p < num → ty (la p) = ty ga) (hnc : ∀ p, p < num → nc (la p) = nc ga) (hp : ty ga ≠ .pointer)
    (h1 : ¬ (ty ga = .vector ∨ ty ga = .tensor) → nc ga = 1)
    (k : Nat) (i : Int) (r : D) {v : PVal D} (hv : Whole (ty ga) (nc ga) v) (loc : AttOf D) (q : Nat × Nat) :
    ∃ loc', copyTo ty nc num ga la k i r v loc q = .ok loc' ∧
      (q.1 < num → Att.get ty zero (loc' q.1 k q.2) (la q.1) = .ok (true, given ty zero ga i r v)) ∧
      (∀ p k' l, ¬ (p < num ∧ k' = k ∧ (p, l) = q) → loc' p k' l = loc p k' l) ∧
      ∀ p k' l b, b ≠ la p → Att.get ty zero (loc' p k' l) b = Att.get ty zero (loc p k' l) b := by
  obtain ⟨arr, ra, harr⟩ : ∃ arr, second (nc ga) v = .ok arr ∧
      ((ty ga = .vector ∨ ty ga = .tensor) → arr = v ∧ ∃ w, v = .buf w ∧ w.length = nc ga) := by
    by_cases ht : ty ga = .vector ∨ ty ga = .tensor
    · obtain ⟨h2, w, rfl, h3⟩ := hv ht
      refine ⟨.buf w, ?_, fun _ => ⟨rfl, w, rfl, h3⟩⟩
      unfold second; rw [if_pos h2]; unfold Att.copyVec
      simp only [← h3, List.take_length]
      rw [if_pos (Nat.le_refl _)]
    · exact ⟨.null, by unfold second; rw [if_neg (by rw [h1 ht]; omega)], fun h => absurd h ht⟩
  unfold copyTo
  rw [ra, Res.bind_ok]
  by_cases hq : q.1 < num
  · rw [if_pos hq]
    obtain ⟨x, r1, g1, g2⟩ := set_get ty nc zero (ins := loc q.1 k q.2) (a := la q.1) i r (v := arr) (by
      rw [hty _ hq, hnc _ hq]
      intro ht
      obtain ⟨rfl, w, h2, h3⟩ := harr ht
      exact ⟨w, h2, by omega⟩)
    rw [r1, Res.bind_ok]
    refine ⟨_, rfl, fun _ => ?_, ?_, ?_⟩
    · unfold AttOf.put
      rw [if_pos ⟨rfl, rfl, rfl⟩, g1]
      unfold Att.reported given
      rw [hty _ hq, hnc _ hq]
      cases ht : ty ga with
      | int => rfl
      | double => rfl
      | pointer => exact absurd ht hp
      | vector =>
        obtain ⟨rfl, w, rfl, h3⟩ := harr (Or.inl ht)
        simp only [← h3, List.take_length]
      | tensor =>
        obtain ⟨rfl, w, rfl, h3⟩ := harr (Or.inr ht)
        simp only [← h3, List.take_length]
    · intro p k' l hn
      unfold AttOf.put
      rw [if_neg]
      rintro ⟨rfl, rfl, rfl⟩
      exact hn ⟨hq, rfl, rfl⟩
    · intro p k' l b hb
      unfold AttOf.put
      by_cases h : p = q.1 ∧ k' = k ∧ l = q.2
      · rw [if_pos h]
        obtain ⟨rfl, rfl, rfl⟩ := h
        exact g2 b hb
      · rw [if_neg h]
  · rw [if_neg hq]
    exact ⟨loc, rfl, fun h => absurd h hq, fun _ _ _ _ => rfl, fun _ _ _ _ _ => rfl⟩

theorem copyToAll_ok (hty : ∀ p, p < num → ty (la p) = ty ga) (hnc : ∀ p, p < num → nc (la p) = nc ga) (hp : ty ga ≠ .pointer)
    (h1 : ¬ (ty ga = .vector ∨ ty ga = .tensor) → nc ga = 1)
    (k : Nat) (i : Int) (r : D) {v : PVal D} (hv : Whole (ty ga) (nc ga) v) (qs : List (Nat × Nat)) (loc : AttOf D) :
    ∃ loc', copyToAll ty nc num ga la k i r v qs loc = .ok loc' ∧
      (∀ p l, p < num → (p, l) ∈ qs → Att.get ty zero (loc' p k l) (la p) = .ok (true, given ty zero ga i r v)) ∧
      (∀ p k' l, ¬ (p < num ∧ k' = k ∧ (p, l) ∈ qs) → loc' p k' l = loc p k' l) ∧
      ∀ p k' l b, b ≠ la p → Att.get ty zero (loc' p k' l) b = Att.get ty zero (loc p k' l) b := by
  induction qs generalizing loc with
  | nil => exact ⟨loc, rfl, (fun _ _ _ h => nomatch h), fun _ _ _ _ => rfl, fun _ _ _ _ _ => rfl⟩
  | cons q qs ih =>
    obtain ⟨a, r1, a1, a2, a3⟩ := copyTo_ok (zero := zero) hty hnc hp h1 k i r hv loc q
    obtain ⟨b, r2, b1, b2, b3⟩ := ih a
    refine ⟨b, by unfold copyToAll; rw [r1, Res.bind_ok, r2], ?_, ?_, ?_⟩
    · intro p l hn hm
      by_cases hm' : (p, l) ∈ qs
      · exact b1 p l hn hm'
      · rcases List.mem_cons.1 hm with h | h
        · rw [b2 p k l (fun h => hm' h.2.2)]
          subst h
          exact a1 hn
        · exact absurd h hm'
    · intro p k' l hn
      rw [b2 p k' l (fun h => hn ⟨h.1, h.2.1, List.mem_cons_of_mem _ h.2.2⟩),
        a2 p k' l (fun h => hn ⟨h.1, h.2.1, by rw [h.2.2]; exact List.mem_cons_self⟩)]
    · intro p k' l c hc
      rw [b3 p k' l c hc, a3 p k' l c hc]

end copies

/-! ### all entities -/

/-- the type of an attribute and its values in the mesh go together -/
def Typed (ty : Nat → AttType) (nc : Nat → Nat) (ga : Nat) : Prop :=
  ty ga ≠ .pointer ∧ (¬ (ty ga = .vector ∨ ty ga = .tensor) → nc ga = 1)

/-- two values are the same, except that all zeros are taken as one (`-0.0 == 0.0`) -/
def SameValue (isZero : D → Bool) (v w : Int × D × PVal D) : Prop :=
  v.1 = w.1 ∧ (v.2.1 = w.2.1 ∨ (isZero v.2.1 = true ∧ isZero w.2.1 = true)) ∧ v.2.2 = w.2.2

section all
variable {ty : Nat → AttType} {nc : Nat → Nat} {zero : D} {isZero : D → Bool} {num ga : Nat} {la : Nat → Nat}
  {glob : Nat → Nat → List (AttIns D)} {g2l : Nat → Nat → List (Nat × Nat)}

/-- the value of an entity of the mesh -/
def ValueOf (ty : Nat → AttType) (zero : D) (glob : Nat → Nat → List (AttIns D)) (ga k g : Nat) (v : Int × D × PVal D) : Prop :=
  ∃ b, Att.get ty zero (glob k g) ga = .ok (b, v)

theorem given_same {k g : Nat} {v : Int × D × PVal D} (h : ValueOf ty zero glob ga k g v) :
    given ty zero ga v.1 v.2.1 v.2.2 = v := by
  obtain ⟨b, h⟩ := h
  unfold Att.get at h
  split at h
  · simp only [Res.ok.injEq, Prod.mk.injEq] at h
    obtain ⟨_, rfl⟩ := h
    unfold given
    cases ty ga <;> rfl
  · rename_i x hx
    have hxa : x.attrib = ga := by simpa using List.find?_some hx
    obtain ⟨w, h1, h2⟩ := Res.bind_eq_ok.1 h
    simp only [Res.pure_eq, Res.ok.injEq, Prod.mk.injEq] at h2
    obtain ⟨_, rfl⟩ := h2
    unfold Att.getValue at h1
    rw [hxa] at h1
    unfold given
    cases ht : ty ga <;> cases hv : x.val <;> rw [ht, hv] at h1 <;> simp at h1 <;> subst h1 <;> rfl

/-- the value is not passed on, and the copy is to report zero: the same value -/
theorem null_same (hz : isZero zero = true) (hp : ty ga ≠ .pointer) {k g : Nat} {v : Int × D × PVal D}
    (h : ValueOf ty zero glob ga k g v) (hn : nullValue isZero (ty ga) v.1 v.2.1 v.2.2 = true) :
    SameValue isZero v (0, zero, .null) := by
  have hs := given_same h
  unfold given at hs
  unfold nullValue at hn
  cases ht : ty ga with
  | pointer => exact absurd ht hp
  | vector => rw [ht] at hn; cases hn
  | tensor => rw [ht] at hn; cases hn
  | int =>
    rw [ht] at hn hs
    rw [← hs]
    have := of_decide_eq_true hn
    exact ⟨this, Or.inl rfl, rfl⟩
  | double =>
    rw [ht] at hn hs
    rw [← hs]
    exact ⟨rfl, Or.inr ⟨hn, hz⟩, rfl⟩

/-- the state after the entities `xs` of kind `k` -/
structure Passed (ty : Nat → AttType) (zero : D) (isZero : D → Bool) (num ga : Nat) (la : Nat → Nat) (glob : Nat → Nat → List (AttIns D))
    (g2l : Nat → Nat → List (Nat × Nat)) (k : Nat) (xs : List Nat) (loc loc' : AttOf D) : Prop where
  got : ∀ p l g v, p < num → g ∈ xs → (p, l) ∈ g2l k g → ValueOf ty zero glob ga k g v →
    nullValue isZero (ty ga) v.1 v.2.1 v.2.2 = false → Att.get ty zero (loc' p k l) (la p) = .ok (true, v)
  same : ∀ p k' l, ¬ (p < num ∧ k' = k ∧ ∃ g v, g ∈ xs ∧ (p, l) ∈ g2l k g ∧ ValueOf ty zero glob ga k g v ∧
    nullValue isZero (ty ga) v.1 v.2.1 v.2.2 = false) → loc' p k' l = loc p k' l
  others : ∀ p k' l b, b ≠ la p → Att.get ty zero (loc' p k' l) b = Att.get ty zero (loc p k' l) b

theorem copyKind_ok (hty : ∀ p, p < num → ty (la p) = ty ga) (hnc : ∀ p, p < num → nc (la p) = nc ga) (ht : Typed ty nc ga)
    {k : Nat} (huniq : ∀ p l g g', p < num → (p, l) ∈ g2l k g → (p, l) ∈ g2l k g' → g = g')
    {xs : List Nat} (hv : ∀ g ∈ xs, ∃ v, ValueOf ty zero glob ga k g v ∧ Whole (ty ga) (nc ga) v.2.2) (loc : AttOf D) :
    ∃ loc', copyKind ty nc zero isZero num ga la glob g2l k xs loc = .ok loc' ∧
      Passed ty zero isZero num ga la glob g2l k xs loc loc' := by
  induction xs generalizing loc with
  | nil =>
    exact ⟨loc, rfl, (fun _ _ _ _ _ h => nomatch h), fun _ _ _ _ => rfl, fun _ _ _ _ _ => rfl⟩
  | cons g xs ih =>
    obtain ⟨v, hg, hw⟩ := hv g List.mem_cons_self
    have one : ∀ w, ValueOf ty zero glob ga k g w → w = v := by
      rintro w ⟨b, h1⟩
      obtain ⟨c, h2⟩ := hg
      rw [h1, Res.ok.injEq, Prod.mk.injEq] at h2
      exact h2.2
    obtain ⟨a, ra, a1, a2, a3⟩ : ∃ a, copyValue ty nc zero isZero num ga la glob g2l k g loc = .ok a ∧
        (∀ p l, p < num → (p, l) ∈ g2l k g → nullValue isZero (ty ga) v.1 v.2.1 v.2.2 = false →
          Att.get ty zero (a p k l) (la p) = .ok (true, v)) ∧
        (∀ p k' l, ¬ (p < num ∧ k' = k ∧ (p, l) ∈ g2l k g ∧ nullValue isZero (ty ga) v.1 v.2.1 v.2.2 = false) → a p k' l = loc p k' l) ∧
        ∀ p k' l b, b ≠ la p → Att.get ty zero (a p k' l) b = Att.get ty zero (loc p k' l) b := by
      have hgv := hg
      obtain ⟨b, h1⟩ := hg
      unfold copyValue
      rw [h1, Res.bind_ok]
      simp only
      by_cases hn : nullValue isZero (ty ga) v.1 v.2.1 v.2.2 = true
      · rw [if_pos hn]
        exact ⟨loc, rfl, fun _ _ _ _ h => by (rw [hn] at h; cases h), fun _ _ _ _ => rfl, fun _ _ _ _ _ => rfl⟩
      · rw [if_neg hn]
        obtain ⟨a, r1, a1, a2, a3⟩ := copyToAll_ok (zero := zero) hty hnc ht.1 ht.2 k v.1 v.2.1 hw (g2l k g) loc
        refine ⟨a, r1, ?_, ?_, a3⟩
        · intro p l hp hm _
          rw [a1 p l hp hm, given_same hgv]
        · intro p k' l h
          exact a2 p k' l fun h' => h ⟨h'.1, h'.2.1, h'.2.2, by simpa using hn⟩
    obtain ⟨b, rb, hb⟩ := ih (fun x hx => hv x (List.mem_cons_of_mem _ hx)) a
    refine ⟨b, ?_, ?_, ?_, ?_⟩
    · unfold copyKind loop
      rw [ra, Res.bind_ok]
      exact rb
    · intro p l g' w hp hg' hm hw' hn
      by_cases hin : g' ∈ xs
      · exact hb.got p l g' w hp hin hm hw' hn
      · rcases List.mem_cons.1 hg' with rfl | h
        · rw [hb.same p k l]
          · rw [one w hw'] at hn ⊢
            exact a1 p l hp hm hn
          · rintro ⟨_, _, x, _, hx, hm', _⟩
            exact hin (by rw [huniq p l g' x hp hm hm']; exact hx)
        · exact absurd h hin
    · intro p k' l h
      rw [hb.same p k' l, a2 p k' l]
      · rintro ⟨h1, h2, h3, h4⟩
        exact h ⟨h1, h2, g, v, List.mem_cons_self, h3, hg, h4⟩
      · rintro ⟨h1, h2, x, w, h3, h4⟩
        exact h ⟨h1, h2, x, w, List.mem_cons_of_mem _ h3, h4⟩
    · intro p k' l c hc
      rw [hb.others p k' l c hc, a3 p k' l c hc]

/-- all kinds -/
theorem copyKinds_ok (hty : ∀ p, p < num → ty (la p) = ty ga) (hnc : ∀ p, p < num → nc (la p) = nc ga) (ht : Typed ty nc ga)
    (huniq : ∀ k p l g g', p < num → (p, l) ∈ g2l k g → (p, l) ∈ g2l k g' → g = g')
    {dim : Nat} {list : Nat → List Nat}
    (hv : ∀ k, dim = k ∨ dim = 4 → ∀ g ∈ list k, ∃ v, ValueOf ty zero glob ga k g v ∧ Whole (ty ga) (nc ga) v.2.2)
    (ks : List Nat) (hks : ks.Nodup) (loc : AttOf D) :
    ∃ loc', loop (fun k loc => if dim = k ∨ dim = 4 then copyKind ty nc zero isZero num ga la glob g2l k (list k) loc else pure loc)
        ks loc = .ok loc' ∧
      (∀ k p l g v, k ∈ ks → dim = k ∨ dim = 4 → p < num → g ∈ list k → (p, l) ∈ g2l k g → ValueOf ty zero glob ga k g v →
        nullValue isZero (ty ga) v.1 v.2.1 v.2.2 = false → Att.get ty zero (loc' p k l) (la p) = .ok (true, v)) ∧
      (∀ k p l, ¬ (k ∈ ks ∧ (dim = k ∨ dim = 4) ∧ p < num ∧ ∃ g v, g ∈ list k ∧ (p, l) ∈ g2l k g ∧ ValueOf ty zero glob ga k g v ∧
        nullValue isZero (ty ga) v.1 v.2.1 v.2.2 = false) → loc' p k l = loc p k l) ∧
      ∀ p k l b, b ≠ la p → Att.get ty zero (loc' p k l) b = Att.get ty zero (loc p k l) b := by
  induction ks generalizing loc with
  | nil => exact ⟨loc, rfl, (fun _ _ _ _ _ h => nomatch h), fun _ _ _ _ => rfl, fun _ _ _ _ _ => rfl⟩
  | cons k ks ih =>
    rw [List.nodup_cons] at hks
    by_cases hd : dim = k ∨ dim = 4
    · obtain ⟨a, ra, ha⟩ := copyKind_ok (isZero := isZero) hty hnc ht (huniq k) (hv k hd) loc
      obtain ⟨b, rb, b1, b2, b3⟩ := ih hks.2 a
      refine ⟨b, by unfold loop; rw [if_pos hd, ra, Res.bind_ok]; exact rb, ?_, ?_, ?_⟩
      · intro k' p l g v hk' hd' hp hg hm hv' hn
        rcases List.mem_cons.1 hk' with rfl | h
        · rw [b2 k' p l (fun h => hks.1 h.1)]
          exact ha.got p l g v hp hg hm hv' hn
        · exact b1 k' p l g v h hd' hp hg hm hv' hn
      · intro k' p l h
        rw [b2 k' p l (fun h' => h ⟨List.mem_cons_of_mem _ h'.1, h'.2⟩), ha.same p k' l]
        rintro ⟨h1, rfl, h2⟩
        exact h ⟨List.mem_cons_self, hd, h1, h2⟩
      · intro p k' l c hc
        rw [b3 p k' l c hc, ha.others p k' l c hc]
    · obtain ⟨b, rb, b1, b2, b3⟩ := ih hks.2 loc
      refine ⟨b, by unfold loop; rw [if_neg hd, Res.pure_eq, Res.bind_ok]; exact rb, ?_, ?_, b3⟩
      · intro k' p l g v hk' hd' hp hg hm hv' hn
        rcases List.mem_cons.1 hk' with rfl | h
        · exact absurd hd' hd
        · exact b1 k' p l g v h hd' hp hg hm hv' hn
      · intro k' p l h
        exact b2 k' p l (fun h' => h ⟨List.mem_cons_of_mem _ h'.1, h'.2⟩)

end all

/-- **C85** (partial).  A mesh that has been cut into pieces with layers of ghosts (C78), and an attribute of the
mesh, not of type POINTER, that every piece has with the same type and number of components and that no
entity of a piece has a value for yet.  If the values in the mesh of a vector or tensor attribute are
set, and have more than one component, copying succeeds and then every entity of every piece that the
attribute is for - own or ghost - reports the value of the entity it is a copy of; the values of other attributes
and of entities of other kinds are what they were. -/
theorem C85_attributes_partial {S : CMesh D} {K num ring : Nat} {part : List Int} {s : PSt D} (h : Distributed S K num part ring s)
    {ty : Nat → AttType} {nc : Nat → Nat} {zero : D} {isZero : D → Bool} (hz : isZero zero = true)
    {ga : Nat} {la : Nat → Nat} (hty : ∀ p, p < num → ty (la p) = ty ga) (hnc : ∀ p, p < num → nc (la p) = nc ga) (ht : Typed ty nc ga)
    {dim : Nat} {glob : Nat → Nat → List (AttIns D)}
    (hv : ∀ k, dim = k ∨ dim = 4 → ∀ g ∈ S.F.list k, ∃ v, ValueOf ty zero glob ga k g v ∧ Whole (ty ga) (nc ga) v.2.2)
    {loc : AttOf D} (hloc : ∀ p k l, p < num → Att.get ty zero (loc p k l) (la p) = .ok (false, 0, zero, .null)) :
    ∃ loc', copyAttr ty nc zero isZero num (some ga) (fun p => some (la p)) dim S.F.list glob s.g2l loc = .ok (true, loc') ∧
      (∀ k p l, k < 4 → dim = k ∨ dim = 4 → p < num → l ∈ (s.sub p).F.list k →
        ∃ g v w b, s.l2g p k l = some g ∧ ValueOf ty zero glob ga k g v ∧
          Att.get ty zero (loc' p k l) (la p) = .ok (b, w) ∧ SameValue isZero v w) ∧
      (∀ k p l, ¬ (dim = k ∨ dim = 4) → loc' p k l = loc p k l) ∧
      ∀ p k l b, b ≠ la p → Att.get ty zero (loc' p k l) b = Att.get ty zero (loc p k l) b := by
  obtain ⟨loc', r, h1, h2, h3⟩ := copyKinds_ok (isZero := isZero) (g2l := s.g2l) hty hnc ht
    (fun k p l g g' hp hg hg' => by
      have e1 := (h.down p k g l hp).1 hg
      rw [(h.down p k g' l hp).1 hg'] at e1
      exact (Option.some.inj e1).symm) hv [0, 1, 2, 3] (by decide) loc
  refine ⟨loc', ?_, ?_, ?_, h3⟩
  · unfold copyAttr namedIn
    simp only [Option.isSome_some, List.all_eq_true, implies_true, if_true, if_neg ht.1, Option.getD_some]
    rw [r, Res.bind_ok]; rfl
  · intro k p l hk hd hp hl
    obtain ⟨g, hg, hu, _⟩ := (h.piece p hp).from_has k l hl
    obtain ⟨v, hgv, _⟩ := hv k hd g hg
    have hm := (h.down p k g l hp).2 hu
    by_cases hn : nullValue isZero (ty ga) v.1 v.2.1 v.2.2 = true
    · refine ⟨g, v, _, false, hu, hgv, ?_, null_same hz ht.1 hgv hn⟩
      · rw [h2 k p l, hloc p k l hp]
        rintro ⟨_, _, _, x, w, _, hx, hw, hn'⟩
        have hxg : x = g := by
          have e1 := (h.down p k x l hp).1 hx
          rw [hu] at e1
          exact (Option.some.inj e1).symm
        rw [hxg] at hw
        obtain ⟨b, e1⟩ := hw
        obtain ⟨c, e2⟩ := hgv
        rw [e1, Res.ok.injEq, Prod.mk.injEq] at e2
        rw [e2.2, hn] at hn'
        cases hn'
    · refine ⟨g, v, v, true, hu, hgv, ?_, rfl, Or.inl rfl, rfl⟩
      exact h1 k p l g v (by simp; omega) hd hp hg hm hgv (by simpa using hn)
  · intro k p l hd
    exact h2 k p l fun h => hd h.2.1

/-! ### sets -/

theorem find_addTo (name : List Char) (e : Nat × Nat) (sets : List SetD) (n : List Char) :
    setNamed (addTo name e sets) n = if n = name then (setNamed sets name).map (fun m => ⟨m.name, m.dim, m.ents ++ [some e]⟩)
      else setNamed sets n := by
  unfold setNamed
  induction sets with
  | nil => by_cases h : n = name <;> simp [addTo, h]
  | cons m ms ih =>
    unfold addTo
    by_cases hm : m.name = name
    · rw [if_pos hm]
      by_cases h : n = name
      · rw [if_pos h, List.find?_cons_of_pos (by simp [hm, h]), List.find?_cons_of_pos (by simp [hm])]; rfl
      · have : m.name ≠ n := fun h' => h (h'.symm.trans hm)
        rw [if_neg h, List.find?_cons_of_neg (by simpa using this), List.find?_cons_of_neg (by simpa using this)]
    · rw [if_neg hm]
      by_cases h : n = name
      · rw [if_pos h] at ih ⊢
        rw [List.find?_cons_of_neg (by simpa [h] using hm), List.find?_cons_of_neg (by simpa using hm), ih]
      · rw [if_neg h] at ih ⊢
        by_cases hmn : m.name = n
        · rw [List.find?_cons_of_pos (by simpa using hmn), List.find?_cons_of_pos (by simpa using hmn)]
        · rw [List.find?_cons_of_neg (by simpa using hmn), List.find?_cons_of_neg (by simpa using hmn), ih]

/-- the copies that are in piece `p` -/
def copiesIn (p k : Nat) (qs : List (Nat × Nat)) : List (Option (Nat × Nat)) :=
  qs.filterMap fun q => if q.1 = p then some (some (k, q.2)) else none

/-- entries added to a set -/
def SetD.more (m : SetD) (es : List (Option (Nat × Nat))) : SetD := ⟨m.name, m.dim, m.ents ++ es⟩

theorem addCopies_ok (num : Nat) (name : List Char) (k : Nat) (qs : List (Nat × Nat)) (t : SetsOf) (p : Nat) (n : List Char) :
    setNamed (addCopies num name k qs t p) n =
      if n = name ∧ p < num then (setNamed (t p) name).map (SetD.more · (copiesIn p k qs)) else setNamed (t p) n := by
  induction qs generalizing t with
  | nil =>
    unfold addCopies copiesIn SetD.more
    by_cases h : n = name ∧ p < num
    · rw [if_pos h, h.1]
      simp
    · rw [if_neg h]
  | cons q qs ih =>
    unfold addCopies
    rw [ih]
    by_cases hq : q.1 < num
    · rw [if_pos hq]
      by_cases hp : p = q.1
      · subst hp
        rw [upd_same, find_addTo, find_addTo, if_pos rfl]
        by_cases hn : n = name
        · rw [if_pos ⟨hn, hq⟩, if_pos ⟨hn, hq⟩, Option.map_map]
          congr 1
          funext m
          simp [SetD.more, copiesIn]
        · rw [if_neg (fun h => hn h.1), if_neg hn, if_neg (fun h => hn h.1)]
      · have : upd t q.1 (addTo name (k, q.2) (t q.1)) p = t p := upd_ne _ _ hp
        rw [this]
        have hc : copiesIn p k (q :: qs) = copiesIn p k qs := by simp [copiesIn, Ne.symm hp]
        rw [hc]
    · rw [if_neg hq]
      by_cases h : n = name ∧ p < num
      · have hc : copiesIn p k (q :: qs) = copiesIn p k qs := by
          have : q.1 ≠ p := by omega
          simp [copiesIn, this]
        rw [if_pos h, if_pos h, hc]
      · rw [if_neg h, if_neg h]

theorem copyMembers_ok (num : Nat) (name : List Char) (g2l : Nat → Nat → List (Nat × Nat)) (es : List (Nat × Nat))
    (he : ∀ e ∈ es, g2l e.1 e.2 ≠ []) (t : SetsOf) :
    ∃ t', copyMembers num name g2l es t = .ok t' ∧ ∀ p n, setNamed (t' p) n =
      if n = name ∧ p < num then (setNamed (t p) name).map (SetD.more · (es.flatMap fun e => copiesIn p e.1 (g2l e.1 e.2)))
      else setNamed (t p) n := by
  induction es generalizing t with
  | nil =>
    refine ⟨t, rfl, fun p n => ?_⟩
    by_cases h : n = name ∧ p < num
    · rw [if_pos h, h.1]
      simp [SetD.more]
    · rw [if_neg h]
  | cons e es ih =>
    have h0 := he e List.mem_cons_self
    obtain ⟨t', r, h⟩ := ih (fun x hx => he x (List.mem_cons_of_mem _ hx)) (addCopies num name e.1 (g2l e.1 e.2) t)
    refine ⟨t', ?_, fun p n => ?_⟩
    · unfold copyMembers
      cases hq : g2l e.1 e.2 with
      | nil => exact absurd hq h0
      | cons q qs => rw [hq] at r; exact r
    · rw [h p n]
      rw [addCopies_ok, addCopies_ok]
      by_cases hc : n = name ∧ p < num
      · rw [if_pos hc, if_pos hc, if_pos ⟨rfl, hc.2⟩, Option.map_map]
        congr 1
        funext m
        simp [SetD.more]
      · rw [if_neg hc, if_neg hc, if_neg hc]

theorem setNamed_withSet (m : SetD) (sets : List SetD) (n : List Char) :
    setNamed (withSet m sets) n = if n = m.name then some ((setNamed sets m.name).getD ⟨m.name, m.dim, []⟩) else setNamed sets n := by
  unfold withSet
  cases h : setNamed sets m.name with
  | some x =>
    by_cases hn : n = m.name
    · rw [if_pos hn, hn]; exact h
    · rw [if_neg hn]
  | none =>
    show setNamed (sets ++ [⟨m.name, m.dim, []⟩]) n = _
    by_cases hn : n = m.name
    · subst hn
      rw [if_pos rfl]
      unfold setNamed at h ⊢
      rw [List.find?_append, h]
      simp
    · rw [if_neg hn]
      unfold setNamed
      rw [List.find?_append]
      have : ([⟨m.name, m.dim, []⟩] : List SetD).find? (fun x => x.name == n) = none := by
        simp [Ne.symm hn]
      rw [this, Option.or_none]

theorem mem_copiesIn {p k : Nat} {qs : List (Nat × Nat)} {e : Option (Nat × Nat)} :
    e ∈ copiesIn p k qs ↔ ∃ l, (p, l) ∈ qs ∧ e = some (k, l) := by
  unfold copiesIn
  rw [List.mem_filterMap]
  constructor
  · rintro ⟨⟨q, l⟩, h1, h2⟩
    by_cases hq : q = p
    · subst hq
      simp only [if_true, Option.some.injEq] at h2
      exact ⟨l, h1, h2.symm⟩
    · simp only [hq, if_false] at h2
      cases h2
  · rintro ⟨l, h1, rfl⟩
    exact ⟨(p, l), h1, by simp⟩

theorem grow_start {G : FMesh D} {K : Nat} {sel : Nat → Prop} {x : Nat} (h : sel x) : ∀ n, Grow G K sel n x
  | 0 => h
  | n+1 => Or.inl (grow_start h n)

theorem grown_of {G : FMesh D} {K : Nat} {part : List Int} {p k g ring : Nat} (h : InPart G K part p k g) :
    Of G K (Grow G K (PartElem G K part p) ring) k g := by
  obtain ⟨x, h1, h2, h3⟩ := inPart_of.1 h
  exact ⟨x, h1, grow_start h2 ring, h3⟩

/-- **C86** (partial).  A mesh that has been cut into pieces with layers of ghosts (C78), in which every entity
is part of an element, and a mesh set of it with a name of at most 255 characters.  Copying the set succeeds;
then every piece has a set of that name, for the same kind of entity if it was not there before, and its
members are those it had before and the copies, in that piece, of the members of the set of the mesh, all
of them: own and ghosts.  Nothing else is changed: other sets of the pieces, their entities and boundaries. -/
theorem C86_sets_partial {S : CMesh D} {K num ring : Nat} {part : List Int} {s : PSt D} (h : Distributed S K num part ring s)
    {m : SetD} (hm : ∀ k g, some (k, g) ∈ m.ents → g ∈ S.F.list k) (hname : m.name.length < 256) :
    ∃ s', copySet num m s = .ok s' ∧
      (∀ p, p < num → ∃ m', setNamed (s'.sub p).sets m.name = some m' ∧
        (setNamed (s.sub p).sets m.name = none → m'.dim = m.dim) ∧
        ∀ k l, some (k, l) ∈ m'.ents ↔ (∃ m0, setNamed (s.sub p).sets m.name = some m0 ∧ some (k, l) ∈ m0.ents) ∨
          ∃ g, some (k, g) ∈ m.ents ∧ s.l2g p k l = some g) ∧
      (∀ p n, n ≠ m.name → setNamed (s'.sub p).sets n = setNamed (s.sub p).sets n) ∧
      (∀ p, (s'.sub p).F = (s.sub p).F ∧ (s'.sub p).par = (s.sub p).par ∧ (s'.sub p).top = (s.sub p).top) ∧
      s'.gp = s.gp ∧ s'.g2l = s.g2l ∧ s'.l2g = s.l2g ∧ s'.cnt = s.cnt := by
  obtain ⟨t, r, ht⟩ := copyMembers_ok num m.name s.g2l (m.ents.filterMap id)
    (by
      rintro ⟨k, g⟩ he
      have hg : some (k, g) ∈ m.ents := by
        obtain ⟨a, h1, h2⟩ := List.mem_filterMap.1 he
        simp only [id] at h2
        rw [← h2]; exact h1
      obtain ⟨q, hq, hf⟩ := h.owned k g (hm k g hg)
      obtain ⟨l, hl, hu⟩ := (h.piece q hq).all k g (grown_of hf.1)
      exact List.ne_nil_of_mem ((h.down q k g l hq).2 hu))
    (fun p => if p < num then withSet m (s.sub p).sets else (s.sub p).sets)
  refine ⟨{ s with sub := fun p => { s.sub p with sets := t p } }, ?_, ?_, ?_, fun _ => ⟨rfl, rfl, rfl⟩, rfl, rfl, rfl, rfl⟩
  · unfold copySet
    rw [if_neg (by omega), r, Res.bind_ok]; rfl
  · intro p hp
    have := ht p m.name
    rw [if_pos ⟨rfl, hp⟩, if_pos hp, setNamed_withSet, if_pos rfl, Option.map_some] at this
    refine ⟨_, this, ?_, ?_⟩
    · intro hn; rw [hn]; rfl
    · intro k l
      show some (k, l) ∈ (_ ++ _ : List _) ↔ _
      rw [List.mem_append]
      refine or_congr ?_ ?_
      · cases hs : setNamed (s.sub p).sets m.name with
        | none => simp
        | some m0 => simp
      · rw [List.mem_flatMap]
        constructor
        · rintro ⟨⟨k', g⟩, h1, h2⟩
          obtain ⟨l', h3, h4⟩ := mem_copiesIn.1 h2
          simp only [Option.some.injEq, Prod.mk.injEq] at h4
          obtain ⟨rfl, rfl⟩ := h4
          obtain ⟨a, h5, h6⟩ := List.mem_filterMap.1 h1
          simp only [id] at h6
          exact ⟨g, by rw [← h6]; exact h5, (h.down p _ g l hp).1 h3⟩
        · rintro ⟨g, h1, h2⟩
          exact ⟨(k, g), List.mem_filterMap.2 ⟨_, h1, rfl⟩, mem_copiesIn.2 ⟨l, (h.down p k g l hp).2 h2, rfl⟩⟩
  · intro p n hn
    show setNamed (t p) n = _
    rw [ht p n, if_neg (fun h => hn h.1)]
    by_cases hp : p < num
    · rw [if_pos hp, setNamed_withSet, if_neg hn]
    · rw [if_neg hp]

/-! ### examples -/

/-- every piece gets an attribute with the type and the number of components of the one of the mesh -/
theorem C85_new_attribute_partial {t : AttType} {n : Nat} (h1 : ¬ (t = .vector ∨ t = .tensor) → n = 1) (h2 : t = .vector ∨ t = .tensor → n ≠ 1) :
    newAttrib t n = .ok (t, n) := by
  unfold newAttrib
  cases t <;> simp at h1 h2 <;> simp [h1, h2]

/-- the two triangles with an edge in common, in two pieces with one layer of ghosts -/
theorem two_pieces : ∃ T s, Topo.empty.run Topo.triPair = .ok T ∧ distribute 0 (rangeC T) 2 [0, 1] 1 = .ok s ∧
    Distributed (rangeC T) 2 2 [0, 1] 1 s ∧ (rangeC T).F.list 0 = [0, 1, 2, 3] := by
  obtain ⟨T, h1, h2⟩ := Topo.reachable (os := Topo.triPair) (by decide +kernel)
  have hq : Topo.answer Topo.triPair (fun T => .ok (rangeB T && allInB (rangeC T).F 2 && decide (T.nf = 2 ∧ T.nr = 0 ∧ T.nv = 4))) = .ok true := by
    decide +kernel
  unfold Topo.answer at hq
  rw [h1, Res.bind_ok, Res.ok.injEq, Bool.and_eq_true, Bool.and_eq_true, decide_eq_true_iff] at hq
  obtain ⟨⟨a, b⟩, c, d, v⟩ := hq
  obtain ⟨m, e, f⟩ := rangeC_ok h2 a
  have hr : (rangeC T).F.rl = [] := by show List.range T.nr = _; rw [d]; rfl
  have hf : (rangeC T).F.fl = [0, 1] := by show List.range T.nf = _; rw [c]; rfl
  have hl : (rangeC T).F.list 2 = [0, 1] := hf
  have hv : (rangeC T).F.list 0 = [0, 1, 2, 3] := by show List.range T.nv = _; rw [v]; rfl
  obtain ⟨s, r, h⟩ := C78_distribute_partial (0 : Int) m (K := 2) (Or.inr ⟨hr, by rw [hf]; simp, rfl⟩) (allInB_sound b) e f
    (fun _ _ _ _ => rfl) (num := 2) (by omega) (part := [0, 1]) (by rw [hl]; exact le_refl _) (by decide) (ring := 1)
    (Or.inr (by
      intro p hp
      match p, hp with
      | 0, _ => exact ⟨0, 0, by rw [hl]; rfl, rfl⟩
      | 1, _ => exact ⟨1, 1, by rw [hl]; rfl, rfl⟩))
  exact ⟨T, s, h1, r, h, hv⟩

/-- A vector attribute of the vertices: the hypotheses of C85 hold, and the copies report the arrays. -/
example : ∃ T s loc', Topo.empty.run Topo.triPair = .ok T ∧ distribute 0 (rangeC T) 2 [0, 1] 1 = .ok s ∧
    copyAttr (fun _ => .vector) (fun _ => 2) (0 : Int) (· == 0) 2 (some 0) (fun p => some (p + 1)) 0 (rangeC T).F.list
      (fun k g => if k = 0 then [⟨0, .pval (.buf [7, (g : Int)])⟩] else []) s.g2l (fun _ _ _ => []) = .ok (true, loc') ∧
    ∀ p l, p < 2 → l ∈ (s.sub p).F.list 0 → ∃ (g : Nat) (b : Bool) (w : Int × Int × PVal Int), s.l2g p 0 l = some g ∧
      Att.get (fun _ => .vector) 0 (loc' p 0 l) (p + 1) = .ok (b, w) ∧ w.2.2 = .buf [7, (g : Int)] := by
  obtain ⟨T, s, h1, r, h, _⟩ := two_pieces
  obtain ⟨loc', r', h2, _⟩ := C85_attributes_partial h (ty := fun _ => .vector) (nc := fun _ => 2) (zero := (0 : Int)) (isZero := (· == 0)) rfl
    (ga := 0) (la := fun p => p + 1) (fun _ _ => rfl) (fun _ _ => rfl) ⟨by simp, by simp⟩ (dim := 0)
    (glob := fun k g => if k = 0 then [⟨0, .pval (.buf [7, (g : Int)])⟩] else [])
    (by
      rintro k (rfl | hk) g hg
      · exact ⟨(0, 0, .buf [7, (g : Int)]), ⟨true, rfl⟩, fun _ => ⟨by omega, _, rfl, rfl⟩⟩
      · omega)
    (loc := fun _ _ _ => []) (fun _ _ _ _ => rfl)
  refine ⟨T, s, loc', h1, r, r', fun p l hp hl => ?_⟩
  obtain ⟨g, v, w, b, e1, ⟨c, e2⟩, e3, e4⟩ := h2 0 p l (by omega) (Or.inl rfl) hp hl
  have : v = (0, 0, .buf [7, (g : Int)]) := by
    have hx : Att.get (fun _ => AttType.vector) (0 : Int) [⟨0, .pval (.buf [7, (g : Int)])⟩] 0 = .ok (true, 0, 0, .buf [7, (g : Int)]) := rfl
    have e2 : Att.get (fun _ => AttType.vector) (0 : Int) [⟨0, .pval (.buf [7, (g : Int)])⟩] 0 = .ok (c, v) := e2
    rw [hx, Res.ok.injEq, Prod.mk.injEq] at e2
    exact e2.2.symm
  exact ⟨g, b, w, e1, e3, by rw [← e4.2.2, this]⟩

/-- **Negation**: a vector attribute with two components that is set for vertex 0 only.  Copying it reads
through NULL. -/
theorem C85_negation_unset : Topo.answer Topo.triPair (fun T => do
      let s ← distribute 0 (rangeC T) 2 [0, 1] 1
      let r ← copyAttr (fun _ => .vector) (fun _ => 2) (0 : Int) (· == 0) 2 (some 0) (fun p => some (p + 1)) 0 (rangeC T).F.list
        (fun k g => if k = 0 ∧ g = 0 then [⟨0, .pval (.buf [7, 8])⟩] else []) s.g2l (fun _ _ _ => [])
      pure r.1) = .ub := by decide +kernel

/-- **Negation**: a vector attribute with one component, set for all vertices.  Making it in the pieces reads an
argument that is not there, and copying it reads through NULL. -/
theorem C85_negation_one_component : newAttrib .vector 1 = .ub ∧ Topo.answer Topo.triPair (fun T => do
      let s ← distribute 0 (rangeC T) 2 [0, 1] 1
      let r ← copyAttr (fun _ => .vector) (fun _ => 1) (0 : Int) (· == 0) 2 (some 0) (fun p => some (p + 1)) 0 (rangeC T).F.list
        (fun k _ => if k = 0 then [⟨0, .pval (.buf [7])⟩] else []) s.g2l (fun _ _ _ => [])
      pure r.1) = .ub := ⟨rfl, by decide +kernel⟩

/-- The hypotheses of C86 hold for a set of three of the vertices of the two triangles. -/
example : ∃ T s s', Topo.empty.run Topo.triPair = .ok T ∧ distribute 0 (rangeC T) 2 [0, 1] 1 = .ok s ∧
    copySet 2 ⟨['a'], 0, [some (0, 0), none, some (0, 1), some (0, 3)]⟩ s = .ok s' ∧
    ∀ p, p < 2 → ∃ m', setNamed (s'.sub p).sets ['a'] = some m' := by
  obtain ⟨T, s, h1, r, h, hl⟩ := two_pieces
  obtain ⟨s', r', h2, _⟩ := C86_sets_partial h (m := ⟨['a'], 0, [some (0, 0), none, some (0, 1), some (0, 3)]⟩) (by
    intro k g hg
    simp at hg
    rcases hg with ⟨rfl, rfl⟩ | ⟨rfl, rfl⟩ | ⟨rfl, rfl⟩ <;> rw [hl] <;> simp) (by simp)
  exact ⟨T, s, s', h1, r, r', fun p hp => (h2 p hp).imp fun _ h => h.1⟩

/-- the sets of the pieces, with the entities of the mesh that the members are copies of -/
def setsUp (s : PSt Int) (p : Nat) : List (List (Nat × Option Nat)) :=
  (s.sub p).sets.map fun m => (m.ents.filterMap id).map fun e => (e.1, s.l2g p e.1 e.2)

example : Topo.answer Topo.triPair (fun T => do
      let s ← distribute 0 (rangeC T) 2 [0, 1] 0
      let s ← copySet 2 ⟨['a'], 4, [some (0, 0), none, some (0, 1), some (2, 1)]⟩ s
      pure [setsUp s 0, setsUp s 1]) =
    .ok [[[(0, some 0), (0, some 1)]], [[(0, some 1), (2, some 1)]]] := by decide +kernel

/-- **Negation**: the mesh has an edge that is in no element, so it goes to no piece; copying a set that the edge
is in reads through NULL. -/
theorem C86_negation_edge : Topo.answer triTail (fun T => do
      let s ← distribute 0 (rangeC T) 1 [0] 1
      let s ← copySet 1 ⟨['a'], 1, [some (1, 0), some (1, 3)]⟩ s
      pure (setsUp s 0)) = .ub := by decide +kernel

end Prt
end MSTK
