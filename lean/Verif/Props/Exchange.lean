import Verif.ExchangeModel
import Verif.Props.ParAdj
import Mathlib.Data.List.Pairwise

/-!
C33: the exchange of attribute values between partitions cannot deadlock.
-/
namespace MSTK.Par

variable {M : Type}

/-- Plans agree: what one partition plans to send, the other plans to receive. -/
def Matched (n : Nat) (plan : Nat → Plan M) : Prop :=
  ∀ p q, p < n → q < n → p ≠ q →
    (((plan p).overlaps q = true ∧ (plan p).sendSize ≠ 0) ↔
      ((plan q).ghosts p = true ∧ (plan q).recvSize p ≠ 0))

/-- the messages that go from `p` to `q` -/
def messages (plan : Nat → Plan M) (p q : Nat) : List M :=
  if (plan p).overlaps q && decide ((plan p).sendSize ≠ 0) then [(plan p).info, (plan p).value] else []

/-! ### helpers -/

/-- the partner of a call -/
def Cmd.partner : Cmd M → Nat
  | .send q _ => q
  | .recv p => p

/-- The place of a call of `me` in the order of its calls: by partner, and the partition with the
lower rank sends first. -/
def Cmd.key (me : Nat) : Cmd M → Nat
  | .send q _ => 2 * q + (if me < q then 0 else 1)
  | .recv p => 2 * p + (if me < p then 1 else 0)

/-- messages still to be sent to `q` -/
def sendsTo (q : Nat) : List (Cmd M) → List M
  | [] => []
  | .send d m :: r => if d = q then m :: sendsTo q r else sendsTo q r
  | .recv _ :: r => sendsTo q r

/-- number of messages still to be received from `p` -/
def recvsFrom (p : Nat) : List (Cmd M) → Nat
  | [] => 0
  | .send _ _ :: r => recvsFrom p r
  | .recv s :: r => (if s = p then 1 else 0) + recvsFrom p r

theorem sendsTo_send_ne {d q : Nat} {m : M} {r : List (Cmd M)} (h : d ≠ q) :
    sendsTo q (.send d m :: r) = sendsTo q r := by
  rw [show sendsTo q (.send d m :: r) = if d = q then m :: sendsTo q r else sendsTo q r from rfl, if_neg h]

theorem recvsFrom_recv_ne {s p : Nat} {r : List (Cmd M)} (h : s ≠ p) :
    recvsFrom p (.recv s :: r) = recvsFrom p r := by
  rw [show recvsFrom p (.recv s :: r) = (if s = p then 1 else 0) + recvsFrom p r from rfl, if_neg h,
    Nat.zero_add]

theorem sendsTo_append (q : Nat) (a b : List (Cmd M)) : sendsTo q (a ++ b) = sendsTo q a ++ sendsTo q b := by
  induction a with
  | nil => rfl
  | cons c a ih =>
    cases c with
    | send d m => simp only [List.cons_append, sendsTo, ih]; split <;> rfl
    | recv s => simp only [List.cons_append, sendsTo, ih]

theorem recvsFrom_append (p : Nat) (a b : List (Cmd M)) :
    recvsFrom p (a ++ b) = recvsFrom p a + recvsFrom p b := by
  induction a with
  | nil => simp [recvsFrom]
  | cons c a ih =>
    cases c with
    | send d m => simp only [List.cons_append, recvsFrom, ih]
    | recv s => simp only [List.cons_append, recvsFrom, ih]; omega

theorem exists_send {q : Nat} : ∀ {l : List (Cmd M)}, sendsTo q l ≠ [] → ∃ m, Cmd.send q m ∈ l := by
  intro l
  induction l with
  | nil => intro h; exact absurd rfl h
  | cons c l ih =>
    intro h
    cases c with
    | send d m =>
      unfold sendsTo at h
      split at h
      · rename_i hd; subst hd; exact ⟨m, by simp⟩
      · obtain ⟨m', hm⟩ := ih h; exact ⟨m', by simp [hm]⟩
    | recv s =>
      unfold sendsTo at h
      obtain ⟨m', hm⟩ := ih h; exact ⟨m', by simp [hm]⟩

theorem exists_recv {p : Nat} : ∀ {l : List (Cmd M)}, recvsFrom p l ≠ 0 → Cmd.recv p ∈ l := by
  intro l
  induction l with
  | nil => intro h; exact absurd rfl h
  | cons c l ih =>
    intro h
    cases c with
    | send d m => unfold recvsFrom at h; simp [ih h]
    | recv s =>
      unfold recvsFrom at h
      by_cases hs : s = p
      · subst hs; simp
      · rw [if_neg hs, Nat.zero_add] at h; simp [ih h]

/-- What holds in every reachable state. -/
structure Inv (n : Nat) (plan : Nat → Plan M) (s : Net M) : Prop where
  sorted : ∀ p, (s.todo p).Pairwise fun a b => a.key p ≤ b.key p
  partners : ∀ p c, c ∈ s.todo p → p < n ∧ c.partner < n ∧ c.partner ≠ p
  flow : ∀ p q, p < n → q < n → p ≠ q →
    s.got q p ++ s.chan p q ++ sendsTo q (s.todo p) = messages plan p q
  count : ∀ p q, p < n → q < n → p ≠ q →
    recvsFrom p (s.todo q) = (s.chan p q).length + (sendsTo q (s.todo p)).length

theorem sends_cases (p : Plan M) (i : Nat) : p.sends i = [] ∨ p.sends i = [.send i p.info, .send i p.value] := by
  unfold Plan.sends; split <;> simp

theorem recvs_cases (p : Plan M) (i : Nat) : p.recvs i = [] ∨ p.recvs i = [.recv i, .recv i] := by
  unfold Plan.recvs; split <;> simp

theorem round_partner (p : Plan M) (me i : Nat) : ∀ c ∈ p.round me i, c.partner = i ∧ i ≠ me := by
  intro c hc
  unfold Plan.round at hc
  have h1 : c ∈ p.sends i ∨ c ∈ p.recvs i → c.partner = i := by
    rintro (h | h)
    · rcases sends_cases p i with e | e <;> rw [e] at h <;> simp at h
      rcases h with rfl | rfl <;> rfl
    · rcases recvs_cases p i with e | e <;> rw [e] at h <;> simp at h
      subst h; rfl
  split at hc
  · exact ⟨h1 (List.mem_append.1 hc), by omega⟩
  · split at hc
    · exact ⟨h1 (List.mem_append.1 hc).symm, by omega⟩
    · simp at hc

theorem key_partner (me : Nat) (c : Cmd M) : 2 * c.partner ≤ c.key me ∧ c.key me ≤ 2 * c.partner + 1 := by
  cases c <;> simp only [Cmd.key, Cmd.partner] <;> split <;> omega

theorem round_sorted (p : Plan M) (me i : Nat) : (p.round me i).Pairwise fun a b => a.key me ≤ b.key me := by
  unfold Plan.round
  split
  · rename_i h1
    rcases sends_cases p i with e | e <;> rcases recvs_cases p i with e' | e' <;> rw [e, e'] <;>
      simp [Cmd.key, h1]
  · split
    · rename_i h1 h2
      rcases sends_cases p i with e | e <;> rcases recvs_cases p i with e' | e' <;> rw [e, e'] <;>
        simp [Cmd.key, h1]
    · exact List.Pairwise.nil

theorem calls_sorted (p : Plan M) (n me : Nat) : (p.calls n me).Pairwise fun a b => a.key me ≤ b.key me := by
  unfold Plan.calls
  rw [List.pairwise_flatMap]
  refine ⟨fun i _ => round_sorted p me i, ?_⟩
  refine List.pairwise_lt_range.imp ?_
  intro i j hij a ha b hb
  have h1 := round_partner p me i a ha
  have h2 := round_partner p me j b hb
  have h3 := key_partner me a
  have h4 := key_partner me b
  omega

theorem sendsTo_flatMap_ne {p : Plan M} {me q : Nat} : ∀ (l : List Nat), q ∉ l →
    sendsTo q (l.flatMap (p.round me)) = [] ∧ recvsFrom q (l.flatMap (p.round me)) = 0 := by
  intro l
  induction l with
  | nil => intro _; exact ⟨rfl, rfl⟩
  | cons i l ih =>
    intro hq
    rw [List.mem_cons, not_or] at hq
    obtain ⟨h1, h2⟩ := ih hq.2
    rw [List.flatMap_cons, sendsTo_append, recvsFrom_append, h1, h2]
    constructor
    · rw [List.append_nil]
      by_contra hc
      obtain ⟨m, hm⟩ := exists_send hc
      exact hq.1 (round_partner p me i _ hm).1
    · by_contra hc
      have := exists_recv (p := q) (l := p.round me i) (by omega)
      exact hq.1 (round_partner p me i _ this).1

theorem calls_only {p : Plan M} {n me q : Nat} (hq : q < n) :
    sendsTo q (p.calls n me) = sendsTo q (p.round me q) ∧
    recvsFrom q (p.calls n me) = recvsFrom q (p.round me q) := by
  unfold Plan.calls
  have hn : (List.range n).Nodup := List.nodup_range
  obtain ⟨a, b, hs⟩ := List.append_of_mem (List.mem_range.2 hq)
  rw [hs] at hn ⊢
  rw [List.nodup_append, List.nodup_cons] at hn
  obtain ⟨-, ⟨hb, -⟩, hab⟩ := hn
  rw [List.flatMap_append, List.flatMap_cons, sendsTo_append, sendsTo_append, recvsFrom_append,
    recvsFrom_append]
  obtain ⟨a1, a2⟩ := sendsTo_flatMap_ne (p := p) (me := me) (q := q) a (fun h => hab q h q (by simp) rfl)
  obtain ⟨b1, b2⟩ := sendsTo_flatMap_ne (p := p) (me := me) (q := q) b hb
  rw [a1, a2, b1, b2]
  simp

theorem round_flow (plan : Nat → Plan M) {me q : Nat} (hne : me ≠ q) :
    sendsTo q ((plan me).round me q) = messages plan me q := by
  unfold Plan.round messages
  have hr : sendsTo q ((plan me).recvs q) = [] := by
    rcases recvs_cases (plan me) q with e | e <;> rw [e] <;> rfl
  have hs : sendsTo q ((plan me).sends q) = messages plan me q := by
    unfold Plan.sends messages
    split <;> simp [sendsTo]
  unfold messages at hs
  split
  · rw [sendsTo_append, hr, hs, List.append_nil]
  · rw [if_pos (by omega), sendsTo_append, hr, hs, List.nil_append]

theorem round_count (plan : Nat → Plan M) {me p : Nat} (hne : me ≠ p) :
    recvsFrom p ((plan me).round me p) =
      if (plan me).ghosts p && decide ((plan me).recvSize p ≠ 0) then 2 else 0 := by
  unfold Plan.round
  have hr : recvsFrom p ((plan me).recvs p) =
      if (plan me).ghosts p && decide ((plan me).recvSize p ≠ 0) then 2 else 0 := by
    unfold Plan.recvs
    split <;> simp [recvsFrom]
  have hs : recvsFrom p ((plan me).sends p) = 0 := by
    rcases sends_cases (plan me) p with e | e <;> rw [e] <;> rfl
  split
  · rw [recvsFrom_append, hr, hs, Nat.zero_add]
  · rw [if_pos (by omega), recvsFrom_append, hr, hs, Nat.add_zero]

theorem inv_start {n : Nat} {plan : Nat → Plan M} (h : Matched n plan) : Inv n plan (Net.start n plan) := by
  refine ⟨?_, ?_, ?_, ?_⟩
  · intro p
    unfold Net.start
    dsimp only
    split
    · exact calls_sorted _ _ _
    · exact List.Pairwise.nil
  · intro p c hc
    unfold Net.start at hc
    dsimp only at hc
    split at hc
    · rename_i hp
      unfold Plan.calls at hc
      obtain ⟨i, hi, hci⟩ := List.mem_flatMap.1 hc
      have := round_partner _ _ _ _ hci
      have := List.mem_range.1 hi
      refine ⟨hp, by omega, by omega⟩
    · simp at hc
  · intro p q hp hq hne
    unfold Net.start
    dsimp only
    rw [if_pos hp, (calls_only hq).1, round_flow plan hne]
    rfl
  · intro p q hp hq hne
    unfold Net.start
    dsimp only
    rw [if_pos hp, if_pos hq, (calls_only hq).1, (calls_only hp).2, round_flow plan hne,
      round_count plan (Ne.symm hne)]
    unfold messages
    have := h p q hp hq hne
    by_cases ha : (plan p).overlaps q = true ∧ (plan p).sendSize ≠ 0
    · have hb := this.1 ha
      simp [ha, hb]
    · have hb := fun hb => ha (this.2 hb)
      have e1 : ((plan p).overlaps q && decide ((plan p).sendSize ≠ 0)) = false := by
        rw [Bool.eq_false_iff]; simpa using ha
      have e2 : ((plan q).ghosts p && decide ((plan q).recvSize p ≠ 0)) = false := by
        rw [Bool.eq_false_iff]; simpa using hb
      rw [e1, e2]; rfl

@[simp] theorem put_same {α : Type} (g : Nat → α) (i : Nat) (a : α) : put g i a i = a := by simp [put]
theorem put_ne {α : Type} (g : Nat → α) {i j : Nat} (a : α) (h : j ≠ i) : put g i a j = g j := by simp [put, h]
@[simp] theorem put2_same {α : Type} (g : Nat → Nat → α) (i k : Nat) (a : α) : put2 g i k a i k = a := by simp [put2]
theorem put2_ne {α : Type} (g : Nat → Nat → α) {i k j l : Nat} (a : α) (h : ¬ (j = i ∧ l = k)) :
    put2 g i k a j l = g j l := by simp [put2, h]

/-- the calls of `p` other than the first satisfy what all of them do -/
theorem Inv.tail {n : Nat} {plan : Nat → Plan M} {s : Net M} (h : Inv n plan s) {p : Nat} {c : Cmd M}
    {r : List (Cmd M)} (hp : s.todo p = c :: r) :
    (∀ x, (put s.todo p r x).Pairwise fun a b => a.key x ≤ b.key x) ∧
    (∀ x d, d ∈ put s.todo p r x → x < n ∧ d.partner < n ∧ d.partner ≠ x) := by
  refine ⟨?_, ?_⟩
  · intro x
    by_cases hx : x = p
    · subst hx
      rw [put_same]
      have := h.sorted x
      rw [hp] at this
      exact (List.pairwise_cons.1 this).2
    · rw [put_ne _ _ hx]; exact h.sorted x
  · intro x d hd
    by_cases hx : x = p
    · subst hx
      rw [put_same] at hd
      exact h.partners x d (by rw [hp]; simp [hd])
    · rw [put_ne _ _ hx] at hd; exact h.partners x d hd

theorem sendsTo_put {todo : Nat → List (Cmd M)} {p x y : Nat} {r : List (Cmd M)}
    (h : x = p → sendsTo y r = sendsTo y (todo p)) : sendsTo y (put todo p r x) = sendsTo y (todo x) := by
  by_cases hx : x = p
  · subst hx; rw [put_same, h rfl]
  · rw [put_ne _ _ hx]

theorem recvsFrom_put {todo : Nat → List (Cmd M)} {p x y : Nat} {r : List (Cmd M)}
    (h : x = p → recvsFrom y r = recvsFrom y (todo p)) : recvsFrom y (put todo p r x) = recvsFrom y (todo x) := by
  by_cases hx : x = p
  · subst hx; rw [put_same, h rfl]
  · rw [put_ne _ _ hx]

theorem Inv.buffer {n : Nat} {plan : Nat → Plan M} {s : Net M} (h : Inv n plan s) {p q : Nat} {m : M}
    {r : List (Cmd M)} (hp : s.todo p = .send q m :: r) :
    Inv n plan ⟨put s.todo p r, put2 s.chan p q (s.chan p q ++ [m]), s.got⟩ := by
  obtain ⟨t1, t2⟩ := h.tail hp
  refine ⟨t1, t2, ?_, ?_⟩
  · intro x y hx hy hne
    dsimp only
    by_cases hxy : x = p ∧ y = q
    · obtain ⟨rfl, rfl⟩ := hxy
      rw [put2_same, put_same, ← h.flow x y hx hy hne, hp]
      simp [sendsTo]
    · rw [put2_ne _ _ hxy, sendsTo_put, h.flow x y hx hy hne]
      rintro rfl
      rw [hp, sendsTo_send_ne (fun hc => hxy ⟨rfl, hc.symm⟩)]
  · intro x y hx hy hne
    dsimp only
    rw [recvsFrom_put (by rintro rfl; rw [hp]; rfl)]
    by_cases hxy : x = p ∧ y = q
    · obtain ⟨rfl, rfl⟩ := hxy
      rw [put2_same, put_same, h.count x y hx hy hne, hp]
      simp [sendsTo]
      omega
    · rw [put2_ne _ _ hxy, sendsTo_put, h.count x y hx hy hne]
      rintro rfl
      rw [hp, sendsTo_send_ne (fun hc => hxy ⟨rfl, hc.symm⟩)]

theorem Inv.take {n : Nat} {plan : Nat → Plan M} {s : Net M} (h : Inv n plan s) {p q : Nat} {m : M}
    {r : List (Cmd M)} {ms : List M} (hq : s.todo q = .recv p :: r) (hc : s.chan p q = m :: ms) :
    Inv n plan ⟨put s.todo q r, put2 s.chan p q ms, put2 s.got q p (s.got q p ++ [m])⟩ := by
  obtain ⟨t1, t2⟩ := h.tail hq
  refine ⟨t1, t2, ?_, ?_⟩
  · intro x y hx hy hne
    dsimp only
    rw [sendsTo_put (by rintro rfl; rw [hq]; rfl)]
    by_cases hxy : x = p ∧ y = q
    · obtain ⟨rfl, rfl⟩ := hxy
      rw [put2_same, put2_same, ← h.flow x y hx hy hne, hc]
      simp
    · rw [put2_ne _ _ hxy, put2_ne _ _ (fun hh => hxy hh.symm), h.flow x y hx hy hne]
  · intro x y hx hy hne
    dsimp only
    rw [sendsTo_put (by rintro rfl; rw [hq]; rfl)]
    by_cases hxy : x = p ∧ y = q
    · obtain ⟨rfl, rfl⟩ := hxy
      have := h.count x y hx hy hne
      rw [hq, hc] at this
      simp only [recvsFrom, if_true, List.length_cons] at this
      rw [put2_same, put_same]
      omega
    · rw [put2_ne _ _ hxy, recvsFrom_put, h.count x y hx hy hne]
      rintro rfl
      rw [hq, recvsFrom_recv_ne (fun hc => hxy ⟨hc.symm, rfl⟩)]

theorem Inv.may {n : Nat} {plan : Nat → Plan M} {s s' : Net M} (h : Inv n plan s) (hs : May s s') :
    Inv n plan s' := by
  cases hs with
  | buffer hp => exact h.buffer hp
  | must hm =>
    cases hm with
    | take hq hc => exact h.take hq hc
    | @meet p q m r r' hp hq hc =>
      -- the meeting is a buffering followed by a taking
      have hpq : p ≠ q := by
        rintro rfl
        rw [hp] at hq; cases hq
      have h1 := h.buffer hp
      have h2 := h1.take (p := p) (q := q) (m := m) (ms := []) (r := r')
        (by dsimp only; rw [put_ne _ _ (Ne.symm hpq)]; exact hq) (by dsimp only; rw [put2_same, hc]; rfl)
      have e : put2 (put2 s.chan p q (s.chan p q ++ [m])) p q [] = s.chan := by
        funext x y
        by_cases hxy : x = p ∧ y = q
        · obtain ⟨rfl, rfl⟩ := hxy; rw [put2_same, hc]
        · rw [put2_ne _ _ hxy, put2_ne _ _ hxy]
      dsimp only at h2
      rw [e] at h2
      exact h2

theorem Inv.exec {n : Nat} {plan : Nat → Plan M} {k : Nat} {s s' : Net M} (hs : Exec k s s') (h : Inv n plan s) :
    Inv n plan s' := by
  induction hs with
  | refl => exact h
  | step _ hm ih => exact (ih h).may hm

/-- in a sorted list the first call has the least key -/
theorem head_le {me : Nat} {c d : Cmd M} {r : List (Cmd M)}
    (h : (c :: r).Pairwise fun a b => a.key me ≤ b.key me) (hd : d ∈ c :: r) : c.key me ≤ d.key me := by
  rcases List.mem_cons.1 hd with rfl | hd
  · exact Nat.le_refl _
  · exact (List.pairwise_cons.1 h).1 d hd

/-- Where a partition has a call left, some step has to happen. -/
theorem Inv.progress {n : Nat} {plan : Nat → Plan M} {s : Net M} (h : Inv n plan s) :
    ∀ p, s.todo p ≠ [] → ∃ s', Must s s' := by
  intro p
  induction p using Nat.strongRecOn with
  | _ p ih =>
    intro hp
    obtain ⟨c, r, hcr⟩ := List.exists_cons_of_ne_nil hp
    have hpart := h.partners p c (by rw [hcr]; simp)
    generalize hq : c.partner = q at hpart
    obtain ⟨hpn, hqn, hqp⟩ := hpart
    -- the partner still has a call that answers this one
    have hcount := h.count p q hpn hqn (Ne.symm hqp)
    have hcount' := h.count q p hqn hpn hqp
    by_cases hch : s.chan p q ≠ [] ∧ ∃ r', s.todo q = .recv p :: r'
    · obtain ⟨h1, r', h2⟩ := hch
      obtain ⟨m, ms, hm⟩ := List.exists_cons_of_ne_nil h1
      exact ⟨_, .take h2 hm⟩
    by_cases hch' : s.chan q p ≠ [] ∧ c = .recv q
    · obtain ⟨h1, rfl⟩ := hch'
      obtain ⟨m, ms, hm⟩ := List.exists_cons_of_ne_nil h1
      exact ⟨_, .take hcr hm⟩
    -- a partition with a lower rank the partner is busy with
    have hlow : ∀ d r', s.todo q = d :: r' → d.partner < p → ∃ s', Must s s' := by
      intro d r' hd hlt
      obtain ⟨-, htn, htq⟩ := h.partners q d (by rw [hd]; simp)
      cases d with
      | send t m =>
        have hc1 := h.count q t hqn htn (Ne.symm htq)
        refine ih t hlt ?_
        intro hnil
        rw [show (Cmd.send t m).partner = t from rfl] at *
        rw [hnil, hd] at hc1
        simp [sendsTo, recvsFrom] at hc1
      | recv t =>
        have hc1 := h.count t q htn hqn htq
        rw [show (Cmd.recv t : Cmd M).partner = t from rfl] at *
        by_cases hct : s.chan t q = []
        · refine ih t hlt ?_
          intro hnil
          rw [hnil, hd, hct] at hc1
          simp [sendsTo, recvsFrom] at hc1
        · obtain ⟨m, ms, hm⟩ := List.exists_cons_of_ne_nil hct
          exact ⟨_, .take hd hm⟩
    have hsq := h.sorted q
    have hsp := h.sorted p
    cases c with
    | send q' m =>
      have hq' : q' = q := hq
      subst hq'
      rw [hcr] at hcount
      simp only [sendsTo, if_true, List.length_cons] at hcount
      have hmem := exists_recv (p := p) (l := s.todo q') (by omega)
      obtain ⟨d, r', hd⟩ := List.exists_cons_of_ne_nil (List.ne_nil_of_mem hmem)
      rw [hd] at hsq hmem
      have hkey := head_le hsq hmem
      by_cases hdp : d.partner = p
      · cases d with
        | recv p' =>
          have hp' : p' = p := hdp
          subst hp'
          by_cases hcn : s.chan p' q' = []
          · exact ⟨_, .meet hcr hd hcn⟩
          · exact absurd ⟨hcn, r', hd⟩ hch
        | send p' m' =>
          have hp' : p' = p := hdp
          subst hp'
          exfalso
          simp only [Cmd.key] at hkey
          have hlt : q' < p' := by
            by_contra hc
            rw [if_neg hc, if_neg hc] at hkey
            omega
          rw [hd] at hcount'
          simp only [sendsTo, if_true, List.length_cons] at hcount'
          have hm2 := exists_recv (p := q') (l := s.todo p') (by omega)
          rw [hcr] at hm2 hsp
          have hk2 := head_le hsp hm2
          simp only [Cmd.key] at hk2
          rw [if_neg (by omega), if_neg (by omega)] at hk2
          omega
      · refine hlow d r' hd ?_
        have h1 := key_partner q' d
        have h2 := key_partner q' (.recv p : Cmd M)
        simp only [show (.recv p : Cmd M).partner = p from rfl] at h2
        omega
    | recv q' =>
      have hq' : q' = q := hq
      subst hq'
      have hcn : s.chan q' p = [] := by
        by_contra hc
        exact hch' ⟨hc, rfl⟩
      rw [hcr, hcn] at hcount'
      simp only [recvsFrom, if_true, List.length_nil, Nat.zero_add] at hcount'
      obtain ⟨m', hmem⟩ := exists_send (q := p) (l := s.todo q') (by
        intro hc; rw [hc] at hcount'; simp at hcount')
      obtain ⟨d, r', hd⟩ := List.exists_cons_of_ne_nil (List.ne_nil_of_mem hmem)
      rw [hd] at hsq hmem
      have hkey := head_le hsq hmem
      by_cases hdp : d.partner = p
      · cases d with
        | send p' m2 =>
          have hp' : p' = p := hdp
          subst hp'
          exact ⟨_, .meet hd hcr hcn⟩
        | recv p' =>
          have hp' : p' = p := hdp
          subst hp'
          exfalso
          simp only [Cmd.key] at hkey
          have hlt : p' < q' := by
            by_contra hc
            rw [if_pos (by omega), if_pos (by omega)] at hkey
            omega
          have hcn2 : s.chan p' q' = [] := by
            by_contra hc
            exact hch ⟨hc, r', hd⟩
          rw [hd, hcn2] at hcount
          simp only [recvsFrom, if_true, List.length_nil, Nat.zero_add] at hcount
          obtain ⟨m3, hm3⟩ := exists_send (q := q') (l := s.todo p') (by
            intro hc; rw [hc] at hcount; simp at hcount)
          rw [hcr] at hm3 hsp
          have hk2 := head_le hsp hm3
          simp only [Cmd.key] at hk2
          rw [if_pos (by omega), if_pos (by omega)] at hk2
          omega
      · refine hlow d r' hd ?_
        have h1 := key_partner q' d
        have h2 := key_partner q' (.send p m' : Cmd M)
        simp only [show (.send p m' : Cmd M).partner = p from rfl] at h2
        omega

/-! ### number of steps -/

/-- calls left -/
def Net.left (n : Nat) (s : Net M) : Nat := ((List.range n).map fun p => (s.todo p).length).sum

theorem sum_put {todo : Nat → List (Cmd M)} {p : Nat} {c : Cmd M} {r : List (Cmd M)}
    (hp : todo p = c :: r) : ∀ {l : List Nat}, l.Nodup → p ∈ l →
    (l.map fun x => (put todo p r x).length).sum + 1 = (l.map fun x => (todo x).length).sum := by
  intro l
  induction l with
  | nil => intro _ h; cases h
  | cons a l ih =>
    intro hn hm
    obtain ⟨ha, hn'⟩ := List.nodup_cons.1 hn
    simp only [List.map_cons, List.sum_cons]
    by_cases hap : a = p
    · subst hap
      have : (l.map fun x => (put todo a r x).length) = l.map fun x => (todo x).length := by
        apply List.map_congr_left
        intro x hx
        rw [put_ne _ _ (by rintro rfl; exact ha hx)]
      rw [this, put_same, hp]
      simp
      omega
    · rw [put_ne _ _ hap]
      have := ih hn' ((List.mem_cons.1 hm).resolve_left (fun h => hap h.symm))
      omega

theorem Inv.left_lt {n : Nat} {plan : Nat → Plan M} {s s' : Net M} (h : Inv n plan s) (hs : May s s') :
    s'.left n < s.left n := by
  have key : ∀ {t : Nat → List (Cmd M)} {p : Nat} {c : Cmd M} {r : List (Cmd M)}, t p = c :: r → p < n →
      ((List.range n).map fun x => (put t p r x).length).sum + 1 = ((List.range n).map fun x => (t x).length).sum :=
    fun ht hp => sum_put ht List.nodup_range (List.mem_range.2 hp)
  unfold Net.left
  cases hs with
  | buffer hp =>
    have := key hp (h.partners _ _ (by rw [hp]; exact List.mem_cons_self)).1
    dsimp only; omega
  | must hm =>
    cases hm with
    | take hq hc =>
      have := key hq (h.partners _ _ (by rw [hq]; exact List.mem_cons_self)).1
      dsimp only; omega
    | @meet p q m r r' hp hq hc =>
      have hpq : p ≠ q := by
        rintro rfl
        rw [hp] at hq; cases hq
      have h1 := key hp (h.partners _ _ (by rw [hp]; exact List.mem_cons_self)).1
      have h2 := key (t := put s.todo p r) (p := q) (by rw [put_ne _ _ (Ne.symm hpq)]; exact hq)
        (h.partners _ _ (by rw [hq]; exact List.mem_cons_self)).1
      dsimp only; omega

/-! ### the property -/

/-- **C33.**  With matching plans, the exchange never gets stuck, under any order of events and
whichever messages are buffered: in every state that can be reached, either all partitions have
returned, or there is a step that MPI has to make; every run ends after a bounded number of steps;
and when all have returned, each partition has received exactly the messages meant for it, in order,
and no message is left over. -/
theorem C33_no_deadlock {n : Nat} {plan : Nat → Plan M} (h : Matched n plan) {k : Nat} {s : Net M}
    (hs : Exec k (Net.start n plan) s) :
    (s.done ∨ ∃ s', Must s s') ∧ k ≤ (Net.start n plan).left n ∧
    (s.done → ∀ p q, p < n → q < n → p ≠ q → s.got q p = messages plan p q ∧ s.chan p q = []) := by
  have hi : Inv n plan s := Inv.exec hs (inv_start h)
  refine ⟨?_, ?_, ?_⟩
  · by_cases hd : s.done
    · exact Or.inl hd
    · right
      unfold Net.done at hd
      rw [Classical.not_forall] at hd
      obtain ⟨p, hp⟩ := hd
      exact hi.progress p hp
  · have : k + s.left n ≤ (Net.start n plan).left n := by
      clear hi
      have h0 := inv_start h
      generalize Net.start n plan = s0 at *
      induction hs with
      | refl => omega
      | step h1 h2 ih =>
        have := (Inv.exec h1 h0).left_lt h2
        have := ih h0
        omega
    omega
  · intro hd p q hp hq hne
    have h1 := hi.flow p q hp hq hne
    have h2 := hi.count p q hp hq hne
    rw [hd p] at h1 h2
    rw [hd q] at h2
    simp only [sendsTo, recvsFrom, List.append_nil, List.length_nil, Nat.add_zero] at h1 h2
    have h3 : s.chan p q = [] := List.eq_nil_of_length_eq_zero h2.symm
    rw [h3, List.append_nil] at h1
    exact ⟨h1, h3⟩

/-- A complete run exists: the hypotheses of the last part of C33 can be met. -/
theorem C33_completes {n : Nat} {plan : Nat → Plan M} (h : Matched n plan) :
    ∃ k s, Exec k (Net.start n plan) s ∧ s.done := by
  have key : ∀ d k (s : Net M), s.left n = d → Exec k (Net.start n plan) s →
      ∃ k s, Exec k (Net.start n plan) s ∧ s.done := by
    intro d
    induction d using Nat.strongRecOn with
    | _ d ih =>
      intro k s hd hs
      rcases (C33_no_deadlock h hs).1 with hdone | ⟨s', hs'⟩
      · exact ⟨k, s, hs, hdone⟩
      · have hlt := (Inv.exec hs (inv_start h)).left_lt (.must hs')
        exact ih _ (by omega) _ s' rfl (.step hs (.must hs'))
  exact key _ 0 _ rfl (.refl _)

/-- The plans that partitions make after `MESH_Update_ParallelAdj` match, so that C33 applies to them:
no assumption on the communication pattern is left. -/
theorem C33_plans_match {rs : List Rank} (h : Partitions rs) {out : List Info} (ho : updateParAdj rs = .ok out)
    {k : Nat} (hk : k < 4) (plan : Nat → Plan M)
    (hplan : ∀ (p : Nat) (r : Rank) (s : Info), rs[p]? = some r → out[p]? = some s →
      ∃ info value, plan p = planOf s k (r.ovNum k) info value) :
    Matched rs.length plan := by
  obtain ⟨out', ho', hlen, -, hall⟩ := C32_partitions_agree h
  have : out' = out := by
    have := ho'.symm.trans ho
    injection this
  subst this
  intro p q hp hq hne
  have hr := List.getElem?_eq_getElem hp
  have hr' := List.getElem?_eq_getElem hq
  have hs := List.getElem?_eq_getElem (l := out') (i := p) (by omega)
  have hs' := List.getElem?_eq_getElem (l := out') (i := q) (by omega)
  obtain ⟨h1, -, h3⟩ := hall p q _ _ _ _ hr hr' hs hs' k hk
  obtain ⟨i1, v1, e1⟩ := hplan p _ _ hr hs
  obtain ⟨i2, v2, e2⟩ := hplan q _ _ hr' hs'
  rw [e1, e2]
  unfold planOf
  simp only [decide_eq_true_eq]
  constructor
  · rintro ⟨ha, hb⟩
    have hrec := h1.1 ha
    refine ⟨hrec, ?_⟩
    rw [h3 hrec]
    exact hb
  · rintro ⟨ha, hb⟩
    refine ⟨h1.2 ha, ?_⟩
    rw [h3 ha] at hb
    exact hb

/-- three partitions, all of which exchange with all others -/
example : Matched 3 (fun p => (⟨fun _ => true, fun _ => true, p + 1, fun q => q + 1, p, 10 * p⟩ : Plan Nat)) := by
  intro p q _ _ _
  simp

/-- The order of the calls matters: were both partitions to send first, two of them would block each
other when messages are not buffered (no step has to happen). -/
example : ¬ ∃ s', Must (⟨fun p => if p = 0 then [.send 1 7, .recv 1] else if p = 1 then [.send 0 8, .recv 0] else [],
    fun _ _ => [], fun _ _ => []⟩ : Net Nat) s' := by
  rintro ⟨s', hs⟩
  cases hs with
  | take _ hc => cases hc
  | @meet p q m r r' hp hq hc =>
    dsimp only at hq
    split at hq
    · cases hq
    · split at hq <;> cases hq

end MSTK.Par
