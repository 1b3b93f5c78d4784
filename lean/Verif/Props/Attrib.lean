import Verif.AttribModel
/-! C16, C17: attribute values. -/
namespace MSTK
namespace Att
variable {D : Type} (ty : Nat → AttType) (nc : Nat → Nat) (zero : D)

/-- API calls on entity `e` and attribute `a` -/
inductive Op (D : Type) where
  | set (e a : Nat) (i : Int) (l : D) (p : PVal D)
  | rem (e a : Nat)
  | clear (e a : Nat)

/-- Specification: for each entity and attribute, either no value or what a query must report
(integer, real, pointer/array contents). -/
abbrev Spec (D : Type) := Nat → Nat → Option (Int × D × PVal D)

/-- what a query reports after a value has been set -/
def reported (a : Nat) (i : Int) (l : D) (p : PVal D) : Int × D × PVal D :=
  match ty a, p with
  | .int, _ => (i, zero, .null)
  | .double, _ => (0, l, .null)
  | .pointer, p => (0, zero, p)
  | .vector, .buf v => (0, zero, .buf (v.take (nc a)))
  | .tensor, .buf v => (0, zero, .buf (v.take (nc a)))
  | _, p => (0, zero, p)

def upd (s : Spec D) (e a : Nat) (v : Option (Int × D × PVal D)) : Spec D :=
  fun e' a' => if e' = e ∧ a' = a then v else s e' a'

def Spec.step (s : Spec D) : Op D → Spec D
  | .set e a i l p => upd s e a (some (reported ty nc zero a i l p))
  | .rem e a => upd s e a none
  | .clear e a => if (s e a).isSome then upd s e a (some (0, zero, .null)) else s

/-- legal calls: arrays given for vector/tensor attributes are long enough; clearing is restricted to scalar and
pointer attributes (see C17) -/
def Op.legal : Op D → Prop
  | .set _ a _ _ p => (ty a = .vector ∨ ty a = .tensor) → ∃ v, p = .buf v ∧ nc a ≤ v.length
  | .rem _ _ => True
  | .clear _ a => ty a ≠ .vector ∧ ty a ≠ .tensor

/-- implementation state: instance list of each entity -/
abbrev St (D : Type) := Nat → List (AttIns D)

def updSt (s : St D) (e : Nat) (l : List (AttIns D)) : St D := fun e' => if e' = e then l else s e'

def step (s : St D) : Op D → Res (St D)
  | .set e a i l p => do let x ← Att.set ty nc (s e) a i l p; pure (updSt s e x)
  | .rem e a => pure (updSt s e (Att.rem (s e) a))
  | .clear e a => do let x ← Att.clear ty nc zero (s e) a; pure (updSt s e x)

def run : St D → List (Op D) → Res (St D)
  | s, [] => .ok s
  | s, o :: os => do
    let s ← step ty nc zero s o
    run s os

/-- per-entity invariant: one instance per attribute; each answers as specified -/
structure Ok (ins : List (AttIns D)) (f : Nat → Option (Int × D × PVal D)) : Prop where
  nodup : (ins.map (·.attrib)).Nodup
  val : ∀ x ∈ ins, ∃ v, getValue ty zero x = .ok v ∧ f x.attrib = some v
  dom : ∀ a, (f a).isSome → ∃ x ∈ ins, x.attrib = a

theorem find_of_mem {ins : List (AttIns D)} (hn : (ins.map (·.attrib)).Nodup) {x : AttIns D} (hx : x ∈ ins) :
    ins.find? (fun y => y.attrib = x.attrib) = some x := by
  induction ins with
  | nil => simp at hx
  | cons y ys ih =>
    simp only [List.map_cons, List.nodup_cons] at hn
    rw [List.find?_cons]
    rcases List.mem_cons.mp hx with rfl | hx
    · simp
    · have : y.attrib ≠ x.attrib := fun h => hn.1 (by rw [h]; exact List.mem_map_of_mem hx)
      simp only [this, decide_false]
      exact ih hn.2 hx

theorem get_of_ok {ins : List (AttIns D)} {f : Nat → Option (Int × D × PVal D)} (h : Ok ty zero ins f) (a : Nat) :
    Att.get ty zero ins a = .ok (match f a with
      | some v => (true, v)
      | none => (false, 0, zero, .null)) := by
  unfold Att.get
  cases hf : f a with
  | none =>
    have : ins.find? (fun x => decide (x.attrib = a)) = none := by
      rw [List.find?_eq_none]
      intro x hx hxa
      simp only [decide_eq_true_eq] at hxa
      obtain ⟨v, _, h2⟩ := h.val x hx
      rw [hxa, hf] at h2; simp at h2
    rw [this]
  | some v =>
    obtain ⟨x, hx, hxa⟩ := h.dom a (by rw [hf]; rfl)
    subst hxa
    rw [find_of_mem h.nodup hx]
    obtain ⟨v', h1, h2⟩ := h.val x hx
    rw [hf] at h2
    simp only [Option.some.injEq] at h2
    subst h2
    simp only [h1, Res.bind_ok, Res.pure_eq]

theorem getValue_setValue (a : Nat) (i : Int) (l : D) (p : PVal D)
    (hl : (ty a = .vector ∨ ty a = .tensor) → ∃ v, p = .buf v ∧ nc a ≤ v.length) :
    ∃ c, setValue ty nc a i l p = .ok c ∧ getValue ty zero ⟨a, c⟩ = .ok (reported ty nc zero a i l p) := by
  unfold setValue getValue reported
  cases ht : ty a with
  | int => exact ⟨_, rfl, by simp only [ht]⟩
  | double => exact ⟨_, rfl, by simp only [ht]⟩
  | pointer => exact ⟨_, rfl, by simp only [ht]⟩
  | vector =>
    obtain ⟨v, rfl, hv⟩ := hl (Or.inl ht)
    exact ⟨.pval (.buf (v.take (nc a))), by simp [copyVec, hv], by simp only [ht]⟩
  | tensor =>
    obtain ⟨v, rfl, hv⟩ := hl (Or.inr ht)
    exact ⟨.pval (.buf (v.take (nc a))), by simp [copyVec, hv], by simp only [ht]⟩

theorem findIdx?_split {ins : List (AttIns D)} {a k : Nat}
    (h : ins.findIdx? (fun x => x.attrib = a) = some k) :
    ∃ P x Q, ins = P ++ x :: Q ∧ P.length = k ∧ x.attrib = a := by
  rw [List.findIdx?_eq_some_iff_getElem] at h
  obtain ⟨h1, h2, _⟩ := h
  refine ⟨ins.take k, ins[k], ins.drop (k+1), by simp, by simp; omega, by simpa using h2⟩

theorem ok_put {ins : List (AttIns D)} {f : Nat → Option (Int × D × PVal D)} (h : Ok ty zero ins f) (a k : Nat)
    (hk : ins.findIdx? (fun x => x.attrib = a) = some k) (c : AttCell D) (v : Int × D × PVal D)
    (hv : getValue ty zero ⟨a, c⟩ = .ok v) :
    Ok ty zero (ins.set k ⟨a, c⟩) (fun a' => if a' = a then some v else f a') := by
  obtain ⟨P, x, Q, rfl, rfl, hx⟩ := findIdx?_split hk
  have hset : (P ++ x :: Q).set P.length ⟨a, c⟩ = P ++ ⟨a, c⟩ :: Q := by simp
  rw [hset]
  have hn := h.nodup
  constructor
  · simpa [hx] using hn
  · intro y hy
    rcases List.mem_append.mp hy with hy' | hy'
    · obtain ⟨w, w1, w2⟩ := h.val y (by simp [hy'])
      refine ⟨w, w1, ?_⟩
      have : y.attrib ≠ a := by
        intro hya
        rw [List.map_append, List.nodup_append] at hn
        exact hn.2.2 y.attrib (List.mem_map_of_mem hy') x.attrib (by simp) (by rw [hya, hx])
      rw [if_neg this]; exact w2
    · rcases List.mem_cons.mp hy' with rfl | hy'
      · exact ⟨v, hv, by simp⟩
      · obtain ⟨w, w1, w2⟩ := h.val y (by simp [hy'])
        refine ⟨w, w1, ?_⟩
        have : y.attrib ≠ a := by
          intro hya
          rw [List.map_append, List.nodup_append] at hn
          have := hn.2.1
          rw [List.map_cons, List.nodup_cons] at this
          exact this.1 (by rw [hx, ← hya]; exact List.mem_map_of_mem hy')
        rw [if_neg this]; exact w2
  · intro a' ha'
    by_cases haa : a' = a
    · subst haa; exact ⟨⟨a', c⟩, by simp, rfl⟩
    · simp only [haa, if_false] at ha'
      obtain ⟨y, hy, hya⟩ := h.dom a' ha'
      refine ⟨y, ?_, hya⟩
      rcases List.mem_append.mp hy with hy' | hy'
      · simp [hy']
      · rcases List.mem_cons.mp hy' with rfl | hy'
        · exact absurd (hya.symm.trans hx) haa
        · simp [hy']

theorem ok_set {ins : List (AttIns D)} {f : Nat → Option (Int × D × PVal D)} (h : Ok ty zero ins f)
    (a : Nat) (i : Int) (l : D) (p : PVal D)
    (hl : (ty a = .vector ∨ ty a = .tensor) → ∃ v, p = .buf v ∧ nc a ≤ v.length) :
    ∃ ins', Att.set ty nc ins a i l p = .ok ins' ∧
      Ok ty zero ins' (fun a' => if a' = a then some (reported ty nc zero a i l p) else f a') := by
  obtain ⟨c, h1, h2⟩ := getValue_setValue ty nc zero a i l p hl
  unfold Att.set
  simp only [h1, Res.bind_ok]
  cases hk : ins.findIdx? (fun x => decide (x.attrib = a)) with
  | some k =>
    exact ⟨_, rfl, ok_put ty zero h a k hk c _ h2⟩
  | none =>
    refine ⟨_, rfl, ?_⟩
    rw [List.findIdx?_eq_none_iff] at hk
    have hne : ∀ x ∈ ins, x.attrib ≠ a := fun x hx => by simpa using hk x hx
    constructor
    · rw [List.map_append, List.nodup_append]
      refine ⟨h.nodup, by simp, ?_⟩
      intro y hy z hz
      obtain ⟨x, hx, rfl⟩ := List.mem_map.mp hy
      simp at hz; subst hz; exact hne x hx
    · intro y hy
      rcases List.mem_append.mp hy with hy' | hy'
      · obtain ⟨w, w1, w2⟩ := h.val y hy'
        exact ⟨w, w1, by rw [if_neg (hne y hy')]; exact w2⟩
      · simp at hy'; subst hy'; exact ⟨_, h2, by simp⟩
    · intro a' ha'
      by_cases haa : a' = a
      · subst haa; exact ⟨⟨a', c⟩, by simp, rfl⟩
      · simp only [haa, if_false] at ha'
        obtain ⟨y, hy, hya⟩ := h.dom a' ha'
        exact ⟨y, by simp [hy], hya⟩

theorem ok_rem {ins : List (AttIns D)} {f : Nat → Option (Int × D × PVal D)} (h : Ok ty zero ins f) (a : Nat) :
    Ok ty zero (Att.rem ins a) (fun a' => if a' = a then none else f a') := by
  unfold Att.rem
  cases hk : ins.findIdx? (fun x => decide (x.attrib = a)) with
  | none =>
    rw [List.findIdx?_eq_none_iff] at hk
    have hne : ∀ x ∈ ins, x.attrib ≠ a := fun x hx => by simpa using hk x hx
    refine ⟨h.nodup, ?_, ?_⟩
    · intro y hy
      obtain ⟨w, w1, w2⟩ := h.val y hy
      exact ⟨w, w1, by rw [if_neg (hne y hy)]; exact w2⟩
    · intro a' ha'
      by_cases haa : a' = a
      · simp [haa] at ha'
      · simp only [haa, if_false] at ha'
        exact h.dom a' ha'
  | some k =>
    obtain ⟨P, x, Q, rfl, rfl, hx⟩ := findIdx?_split hk
    have herase : (P ++ x :: Q).eraseIdx P.length = P ++ Q := by
      rw [List.eraseIdx_append_of_length_le (Nat.le_refl _)]; simp
    simp only [herase]
    have hn := h.nodup
    rw [List.map_append, List.map_cons] at hn
    have hsub : ((P ++ Q).map (·.attrib)).Nodup := by
      rw [List.map_append]
      exact hn.sublist (List.Sublist.append_left (List.sublist_cons_self _ _) _)
    have hne : ∀ y ∈ P ++ Q, y.attrib ≠ a := by
      intro y hy hya
      rw [List.nodup_append, List.nodup_cons] at hn
      rcases List.mem_append.mp hy with hy' | hy'
      · exact hn.2.2 y.attrib (List.mem_map_of_mem hy') x.attrib (by simp) (by rw [hya, hx])
      · exact hn.2.1.1 (by rw [hx, ← hya]; exact List.mem_map_of_mem hy')
    refine ⟨hsub, ?_, ?_⟩
    · intro y hy
      obtain ⟨w, w1, w2⟩ := h.val y (by
        rcases List.mem_append.mp hy with h' | h' <;> simp [h'])
      exact ⟨w, w1, by rw [if_neg (hne y hy)]; exact w2⟩
    · intro a' ha'
      by_cases haa : a' = a
      · simp [haa] at ha'
      · simp only [haa, if_false] at ha'
        obtain ⟨y, hy, hya⟩ := h.dom a' ha'
        refine ⟨y, ?_, hya⟩
        rcases List.mem_append.mp hy with hy' | hy'
        · simp [hy']
        · rcases List.mem_cons.mp hy' with rfl | hy'
          · exact absurd (hya.symm.trans hx) haa
          · simp [hy']

theorem ok_clear {ins : List (AttIns D)} {f : Nat → Option (Int × D × PVal D)} (h : Ok ty zero ins f) (a : Nat)
    (hl : ty a ≠ .vector ∧ ty a ≠ .tensor) :
    ∃ ins', Att.clear ty nc zero ins a = .ok ins' ∧
      Ok ty zero ins' (fun a' => if a' = a ∧ (f a).isSome then some (0, zero, .null) else f a') := by
  unfold Att.clear
  cases hk : ins.findIdx? (fun x => decide (x.attrib = a)) with
  | none =>
    refine ⟨_, rfl, ?_⟩
    have : f a = none := by
      cases hf : f a with
      | none => rfl
      | some v =>
        obtain ⟨x, hx, hxa⟩ := h.dom a (by rw [hf]; rfl)
        rw [List.findIdx?_eq_none_iff] at hk
        exact absurd hxa (by simpa using hk x hx)
    have e : (fun a' => if a' = a ∧ (f a).isSome = true then some ((0 : Int), zero, (PVal.null : PVal D)) else f a') = f := by
      funext a'; simp [this]
    rw [e]; exact h
  | some k =>
    obtain ⟨c, h1, h2⟩ := getValue_setValue ty nc zero a 0 zero .null (by
      intro h'; rcases h' with h' | h'
      · exact absurd h' hl.1
      · exact absurd h' hl.2)
    have hrep : reported ty nc zero a 0 zero .null = (0, zero, (PVal.null : PVal D)) := by
      unfold reported
      cases ht : ty a <;> simp
    have hsome : (f a).isSome = true := by
      obtain ⟨P, x, Q, rfl, rfl, hx⟩ := findIdx?_split hk
      obtain ⟨w, _, w2⟩ := h.val x (by simp)
      rw [hx] at w2; rw [w2]; rfl
    simp only [h1, Res.bind_ok, Res.pure_eq]
    refine ⟨_, rfl, ?_⟩
    rw [hrep] at h2
    have := ok_put ty zero h a k hk c _ h2
    simpa [hsome] using this

/-- all entities -/
def OkAll (s : St D) (f : Spec D) : Prop := ∀ e, Ok ty zero (s e) (f e)

theorem step_ok (s : St D) (f : Spec D) (h : OkAll ty zero s f) (o : Op D) (hl : o.legal ty nc) :
    ∃ s', step ty nc zero s o = .ok s' ∧ OkAll ty zero s' (Spec.step ty nc zero f o) := by
  have lift : ∀ (e : Nat) (l : List (AttIns D)) (g : Nat → Option (Int × D × PVal D)), Ok ty zero l g →
      OkAll ty zero (updSt s e l) (fun e' => if e' = e then g else f e') := by
    intro e l g hg e'
    unfold updSt
    by_cases he : e' = e
    · simp only [he, if_true]; exact hg
    · simp only [he, if_false]; exact h e'
  cases o with
  | set e a i l p =>
    obtain ⟨ins', h1, h2⟩ := ok_set ty nc zero (h e) a i l p hl
    refine ⟨updSt s e ins', by simp only [step, h1, Res.bind_ok, Res.pure_eq], ?_⟩
    have := lift e ins' _ h2
    have e2 : Spec.step ty nc zero f (.set e a i l p) = (fun e' => if e' = e then
        (fun a' => if a' = a then some (reported ty nc zero a i l p) else f e a') else f e') := by
      funext e' a'
      by_cases he : e' = e
      · subst he; by_cases ha : a' = a <;> simp [Spec.step, upd, ha]
      · simp [Spec.step, upd, he]
    rw [e2]; exact this
  | rem e a =>
    refine ⟨updSt s e (Att.rem (s e) a), rfl, ?_⟩
    have := lift e _ _ (ok_rem ty zero (h e) a)
    have e2 : Spec.step ty nc zero f (.rem e a) = (fun e' => if e' = e then
        (fun a' => if a' = a then none else f e a') else f e') := by
      funext e' a'
      by_cases he : e' = e
      · subst he; by_cases ha : a' = a <;> simp [Spec.step, upd, ha]
      · simp [Spec.step, upd, he]
    rw [e2]; exact this
  | clear e a =>
    obtain ⟨ins', h1, h2⟩ := ok_clear ty nc zero (h e) a hl
    refine ⟨updSt s e ins', by simp only [step, h1, Res.bind_ok, Res.pure_eq], ?_⟩
    have := lift e ins' _ h2
    have e2 : Spec.step ty nc zero f (.clear e a) = (fun e' => if e' = e then
        (fun a' => if a' = a ∧ (f e a).isSome then some (0, zero, .null) else f e a') else f e') := by
      funext e' a'
      by_cases hs : (f e a).isSome = true
      · by_cases he : e' = e
        · subst he; by_cases ha : a' = a <;> simp [Spec.step, upd, ha, hs]
        · simp [Spec.step, upd, he, hs]
      · by_cases he : e' = e
        · subst he; simp [Spec.step, hs]
        · simp [Spec.step, he, hs]
    rw [e2]; exact this

/-- **C16** After any history of set, remove and clear calls over any entities and attributes (arrays passed for
vector/tensor attributes long enough, clear restricted to int/double/pointer attributes, see C17), querying any
attribute of any entity reports exactly the value last set (arrays by content at the time of the call), or
absence with zero outputs if never set or removed since; calls never interfere. -/
theorem C16_attributes_are_a_map (ops : List (Op D)) (hl : ∀ o ∈ ops, o.legal ty nc) :
    ∃ s, run ty nc zero (fun _ => []) ops = .ok s ∧
      ∀ e a, Att.get ty zero (s e) a = .ok (match ops.foldl (Spec.step ty nc zero) (fun _ _ => none) e a with
        | some v => (true, v)
        | none => (false, 0, zero, .null)) := by
  have gen : ∀ (ops : List (Op D)), (∀ o ∈ ops, o.legal ty nc) → ∀ (s : St D) (f : Spec D), OkAll ty zero s f →
      ∃ s', run ty nc zero s ops = .ok s' ∧ OkAll ty zero s' (ops.foldl (Spec.step ty nc zero) f) := by
    intro ops
    induction ops with
    | nil => intro _ s f h; exact ⟨s, rfl, h⟩
    | cons o os ih =>
      intro hl s f h
      obtain ⟨s1, a1, a2⟩ := step_ok ty nc zero s f h o (hl o (by simp))
      obtain ⟨s2, b1, b2⟩ := ih (fun x hx => hl x (by simp [hx])) s1 _ a2
      exact ⟨s2, by simp only [run, a1, Res.bind_ok, b1], b2⟩
  obtain ⟨s, h1, h2⟩ := gen ops hl (fun _ => []) (fun _ _ => none) (by
    intro e
    exact ⟨by simp, by simp, by simp⟩)
  exact ⟨s, h1, fun e a => get_of_ok ty zero (h2 e) a⟩

/-- non-vacuity: an int and a vector attribute on two entities -/
example : (match run (D := Int) (fun a => if a = 0 then .int else .vector) (fun _ => 2) 0 (fun _ => [])
    [.set 5 0 42 0 .null, .set 5 1 0 0 (.buf [7, 8, 9]), .set 6 0 1 0 .null, .clear 6 0, .rem 5 0] with
    | .ok s => (get (fun a => if a = 0 then .int else .vector) 0 (s 5) 1,
                get (fun a => if a = 0 then .int else .vector) 0 (s 5) 0,
                get (fun a => if a = 0 then .int else .vector) 0 (s 6) 0)
    | _ => (.ub, .ub, .ub)) = (.ok (true, 0, 0, .buf [7, 8]), .ok (false, 0, 0, .null), .ok (true, 0, 0, .null)) := by
  rfl

/-- **C17 (negation)** Clearing a vector or tensor attribute that has a value copies from NULL: undefined
behaviour, for every such attribute (even with zero components) and every entity. -/
theorem C17_clear_negation (ins : List (AttIns D)) (a : Nat) (hv : ty a = .vector ∨ ty a = .tensor)
    (hin : ∃ x ∈ ins, x.attrib = a) : Att.clear ty nc zero ins a = .ub := by
  unfold Att.clear
  cases hk : ins.findIdx? (fun x => decide (x.attrib = a)) with
  | none =>
    rw [List.findIdx?_eq_none_iff] at hk
    obtain ⟨x, hx, hxa⟩ := hin
    exact absurd hxa (by simpa using hk x hx)
  | some k =>
    simp only [setValue]
    rcases hv with hv | hv <;> simp [hv, copyVec]

/-- the violating state is reached by one ordinary call -/
theorem C17_clear_negation_witness :
    (match run (D := Int) (fun _ => .vector) (fun _ => 3) 0 (fun _ => []) [.set 0 0 0 0 (.buf [1, 2, 3])] with
    | .ok s => (match step (fun _ => .vector) (fun _ => 3) 0 s (.clear 0 0) with | .ub => true | _ => false)
    | _ => false) = true := by decide

/-- **C17 (partial)** For int, double and pointer attributes clearing is safe and makes the query report
zero/NULL; for entities without a value it is a no-op for every type. -/
theorem C17_clear_partial (ins : List (AttIns D)) (f : Nat → Option (Int × D × PVal D)) (h : Ok ty zero ins f)
    (a : Nat) :
    ((ty a ≠ .vector ∧ ty a ≠ .tensor) → ∃ ins', Att.clear ty nc zero ins a = .ok ins' ∧
      ((f a).isSome → Att.get ty zero ins' a = .ok (true, 0, zero, .null))) ∧
    ((f a).isSome = false → Att.clear ty nc zero ins a = .ok ins) := by
  constructor
  · intro hl
    obtain ⟨ins', h1, h2⟩ := ok_clear ty nc zero h a hl
    refine ⟨ins', h1, fun hs => ?_⟩
    rw [get_of_ok ty zero h2 a]
    simp [hs]
  · intro hs
    unfold Att.clear
    cases hk : ins.findIdx? (fun x => decide (x.attrib = a)) with
    | none => rfl
    | some k =>
      obtain ⟨P, x, Q, rfl, rfl, hx⟩ := findIdx?_split hk
      obtain ⟨w, _, w2⟩ := h.val x (by simp)
      rw [← hx, w2] at hs; simp at hs

end Att
end MSTK
