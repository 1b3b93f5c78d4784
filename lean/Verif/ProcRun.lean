import Verif.ProcModel
import Verif.Props.Exchange

/-!
Executions of programs that follow matching scripts: no deadlock, they end, and what is computed does
not depend on the schedule.
-/
namespace MSTK.Par

variable {M A : Type}

/-- An event in the script of a partition: a message sent to or received from a partner.  The key puts
the events of all partitions in order. -/
structure Ev (M : Type) where
  key : Nat
  out : Bool
  partner : Nat
  msg : M

/-- sender and receiver -/
def Ev.ends (p : Nat) (e : Ev M) : Nat × Nat := if e.out then (p, e.partner) else (e.partner, p)

/-- the program makes these calls, gets these messages and computes `a` -/
inductive Follows : Proc M A → List (Ev M) → A → Prop
  | ret (a : A) : Follows (.ret a) [] a
  | send {κ q : Nat} {m : M} {k : Proc M A} {t : List (Ev M)} {a : A} :
      Follows k t a → Follows (.send q m k) (⟨κ, true, q, m⟩ :: t) a
  | recv {κ p : Nat} {m : M} {k : M → Proc M A} {t : List (Ev M)} {a : A} :
      Follows (k m) t a → Follows (.recv p k) (⟨κ, false, p, m⟩ :: t) a

/-- what is sent to `q` -/
def sentTo (q : Nat) : List (Ev M) → List (Nat × M)
  | [] => []
  | e :: r => if e.out = true ∧ e.partner = q then (e.key, e.msg) :: sentTo q r else sentTo q r

/-- what is received from `p` -/
def rcvdFrom (p : Nat) : List (Ev M) → List (Nat × M)
  | [] => []
  | e :: r => if e.out = false ∧ e.partner = p then (e.key, e.msg) :: rcvdFrom p r else rcvdFrom p r

/-- Scripts that match: in order, with the same messages sent and received, and different keys for
different pairs of partners. -/
structure Script (n : Nat) (t : Nat → List (Ev M)) : Prop where
  sorted : ∀ p, (t p).Pairwise fun a b => a.key ≤ b.key
  partners : ∀ p, ∀ e ∈ t p, p < n ∧ e.partner < n ∧ e.partner ≠ p
  matched : ∀ p q, sentTo q (t p) = rcvdFrom p (t q)
  ends : ∀ p q, ∀ e ∈ t p, ∀ e' ∈ t q, e.key = e'.key → e.ends p = e'.ends q

/-- What holds in every reachable state: the rest of the scripts. -/
structure PInv (n : Nat) (a : Nat → A) (s : PNet M A) (t : Nat → List (Ev M)) (c : Nat → Nat → List (Nat × M)) :
    Prop where
  follows : ∀ p, Follows (s.run p) (t p) (a p)
  chan : ∀ p q, s.chan p q = (c p q).map (·.2)
  sorted : ∀ p, (t p).Pairwise fun a b => a.key ≤ b.key
  partners : ∀ p, ∀ e ∈ t p, p < n ∧ e.partner < n ∧ e.partner ≠ p
  matched : ∀ p q, c p q ++ sentTo q (t p) = rcvdFrom p (t q)
  ends : ∀ p q, ∀ e ∈ t p, ∀ e' ∈ t q, e.key = e'.key → e.ends p = e'.ends q

theorem PInv.start {n : Nat} {a : Nat → A} {run : Nat → Proc M A} {t : Nat → List (Ev M)} (h : Script n t)
    (hf : ∀ p, Follows (run p) (t p) (a p)) : PInv n a ⟨run, fun _ _ => []⟩ t (fun _ _ => []) :=
  ⟨hf, fun _ _ => rfl, h.sorted, h.partners, fun p q => by rw [List.nil_append]; exact h.matched p q, h.ends⟩

theorem sentTo_mem {q : Nat} : ∀ {t : List (Ev M)} {x : Nat × M}, x ∈ sentTo q t →
    ∃ e ∈ t, e.out = true ∧ e.partner = q ∧ e.key = x.1 := by
  intro t
  induction t with
  | nil => intro x hx; cases hx
  | cons e t ih =>
    intro x hx
    unfold sentTo at hx
    split at hx
    · rename_i he
      rcases List.mem_cons.1 hx with rfl | hx
      · exact ⟨e, List.mem_cons_self, he.1, he.2, rfl⟩
      · obtain ⟨e', h1, h2⟩ := ih hx
        exact ⟨e', List.mem_cons_of_mem _ h1, h2⟩
    · obtain ⟨e', h1, h2⟩ := ih hx
      exact ⟨e', List.mem_cons_of_mem _ h1, h2⟩

theorem rcvdFrom_mem {p : Nat} : ∀ {t : List (Ev M)} {x : Nat × M}, x ∈ rcvdFrom p t →
    ∃ e ∈ t, e.out = false ∧ e.partner = p ∧ e.key = x.1 := by
  intro t
  induction t with
  | nil => intro x hx; cases hx
  | cons e t ih =>
    intro x hx
    unfold rcvdFrom at hx
    split at hx
    · rename_i he
      rcases List.mem_cons.1 hx with rfl | hx
      · exact ⟨e, List.mem_cons_self, he.1, he.2, rfl⟩
      · obtain ⟨e', h1, h2⟩ := ih hx
        exact ⟨e', List.mem_cons_of_mem _ h1, h2⟩
    · obtain ⟨e', h1, h2⟩ := ih hx
      exact ⟨e', List.mem_cons_of_mem _ h1, h2⟩

/-- the rest of the scripts satisfies what the scripts do -/
theorem PInv.tails {n : Nat} {a : Nat → A} {s : PNet M A} {t : Nat → List (Ev M)} {c : Nat → Nat → List (Nat × M)}
    (h : PInv n a s t c) {p : Nat} {e : Ev M} {r : List (Ev M)} (hp : t p = e :: r) :
    (∀ x, (put t p r x).Pairwise fun a b => a.key ≤ b.key) ∧
    (∀ x, ∀ e ∈ put t p r x, x < n ∧ e.partner < n ∧ e.partner ≠ x) ∧
    (∀ x y, ∀ e ∈ put t p r x, ∀ e' ∈ put t p r y, e.key = e'.key → e.ends x = e'.ends y) := by
  have hsub : ∀ x, ∀ d ∈ put t p r x, d ∈ t x := by
    intro x d hd
    by_cases hx : x = p
    · subst hx
      rw [put_same] at hd
      rw [hp]
      exact List.mem_cons_of_mem _ hd
    · rw [put_ne _ _ hx] at hd; exact hd
  refine ⟨fun x => ?_, fun x d hd => h.partners x d (hsub x d hd),
    fun x y d hd d' hd' => h.ends x y d (hsub x d hd) d' (hsub y d' hd')⟩
  by_cases hx : x = p
  · subst hx
    rw [put_same]
    have := h.sorted x
    rw [hp] at this
    exact (List.pairwise_cons.1 this).2
  · rw [put_ne _ _ hx]; exact h.sorted x

theorem put_run {f : Nat → Proc M A} {t : Nat → List (Ev M)} {a : Nat → A} {p : Nat} {k : Proc M A} {r : List (Ev M)}
    (h : ∀ x, Follows (f x) (t x) (a x)) (hk : Follows k r (a p)) (x : Nat) :
    Follows (put f p k x) (put t p r x) (a x) := by
  by_cases hx : x = p
  · subst hx; rw [put_same, put_same]; exact hk
  · rw [put_ne _ _ hx, put_ne _ _ hx]; exact h x

theorem PInv.buffer {n : Nat} {a : Nat → A} {s : PNet M A} {t : Nat → List (Ev M)} {c : Nat → Nat → List (Nat × M)}
    (h : PInv n a s t c) {p q : Nat} {m : M} {k : Proc M A} (hp : s.run p = .send q m k) :
    ∃ κ r, t p = ⟨κ, true, q, m⟩ :: r ∧
    PInv n a ⟨put s.run p k, put2 s.chan p q (s.chan p q ++ [m])⟩ (put t p r) (put2 c p q (c p q ++ [(κ, m)])) := by
  have hf := h.follows p
  rw [hp] at hf
  generalize ht : t p = tp at hf
  cases hf with
  | @send κ _ _ _ r _ hk =>
    refine ⟨κ, r, rfl, ?_⟩
    obtain ⟨t1, t2, t3⟩ := h.tails ht
    refine ⟨put_run h.follows hk, ?_, t1, t2, ?_, t3⟩
    · intro x y
      dsimp only
      by_cases hxy : x = p ∧ y = q
      · obtain ⟨rfl, rfl⟩ := hxy
        rw [put2_same, put2_same, h.chan, List.map_append]
        rfl
      · rw [put2_ne _ _ hxy, put2_ne _ _ hxy, h.chan]
    · intro x y
      have hr : rcvdFrom x (put t p r y) = rcvdFrom x (t y) := by
        by_cases hy : y = p
        · subst hy
          rw [put_same, ht]
          unfold rcvdFrom
          rw [if_neg (by simp)]
          cases r <;> rfl
        · rw [put_ne _ _ hy]
      rw [hr, ← h.matched x y]
      by_cases hxy : x = p ∧ y = q
      · obtain ⟨rfl, rfl⟩ := hxy
        rw [put2_same, put_same, ht, show sentTo y ((⟨κ, true, y, m⟩ : Ev M) :: r) = (κ, m) :: sentTo y r from by
          rw [sentTo, if_pos ⟨rfl, rfl⟩]]
        simp
      · rw [put2_ne _ _ hxy]
        by_cases hx : x = p
        · subst hx
          rw [put_same, ht, show sentTo y ((⟨κ, true, q, m⟩ : Ev M) :: r) = sentTo y r from by
            rw [sentTo, if_neg (fun hc => hxy ⟨rfl, hc.2.symm⟩)]]
        · rw [put_ne _ _ hx]

theorem PInv.take {n : Nat} {a : Nat → A} {s : PNet M A} {t : Nat → List (Ev M)} {c : Nat → Nat → List (Nat × M)}
    (h : PInv n a s t c) {p q : Nat} {m : M} {k : M → Proc M A} {ms : List M} (hq : s.run q = .recv p k)
    (hc : s.chan p q = m :: ms) :
    ∃ κ r cs, t q = ⟨κ, false, p, m⟩ :: r ∧ c p q = (κ, m) :: cs ∧
    PInv n a ⟨put s.run q (k m), put2 s.chan p q ms⟩ (put t q r) (put2 c p q cs) := by
  have hf := h.follows q
  rw [hq] at hf
  generalize ht : t q = tq at hf
  cases hf with
  | @recv κ _ m' _ r _ hk =>
    have hm := h.matched p q
    rw [ht, rcvdFrom, if_pos ⟨rfl, rfl⟩] at hm
    have hch := h.chan p q
    rw [hc] at hch
    cases hcs : c p q with
    | nil => rw [hcs] at hch; cases hch
    | cons x cs =>
      rw [hcs] at hch hm
      obtain ⟨κ', m''⟩ := x
      simp only [List.map_cons, List.cons.injEq] at hch
      simp only [List.cons_append, List.cons.injEq, Prod.mk.injEq] at hm
      obtain ⟨⟨rfl, rfl⟩, hm2⟩ := hm
      obtain ⟨rfl, hch2⟩ := hch
      refine ⟨κ', r, cs, rfl, rfl, ?_⟩
      obtain ⟨t1, t2, t3⟩ := h.tails ht
      refine ⟨put_run h.follows hk, ?_, t1, t2, ?_, t3⟩
      · intro x y
        dsimp only
        by_cases hxy : x = p ∧ y = q
        · obtain ⟨rfl, rfl⟩ := hxy
          rw [put2_same, put2_same, hch2]
        · rw [put2_ne _ _ hxy, put2_ne _ _ hxy, h.chan]
      · intro x y
        have hs : sentTo y (put t q r x) = sentTo y (t x) := by
          by_cases hx : x = q
          · subst hx
            rw [put_same, ht, sentTo, if_neg (by simp)]
          · rw [put_ne _ _ hx]
        rw [hs]
        by_cases hxy : x = p ∧ y = q
        · obtain ⟨rfl, rfl⟩ := hxy
          rw [put2_same, put_same, hm2]
        · rw [put2_ne _ _ hxy, h.matched x y]
          by_cases hy : y = q
          · subst hy
            rw [put_same, ht, rcvdFrom, if_neg (fun hcc => hxy ⟨hcc.2.symm, rfl⟩)]
          · rw [put_ne _ _ hy]

/-- what is left to do: events, with those sent but not received counted on the side of the receiver -/
def left (n : Nat) (t : Nat → List (Ev M)) : Nat := ((List.range n).map fun p => (t p).length).sum

theorem left_put {n : Nat} {t : Nat → List (Ev M)} {p : Nat} {e : Ev M} {r : List (Ev M)} (hp : p < n)
    (h : t p = e :: r) : left n (put t p r) + 1 = left n t := by
  unfold left
  have hn : (List.range n).Nodup := List.nodup_range
  obtain ⟨a, b, hs⟩ := List.append_of_mem (List.mem_range.2 hp)
  rw [hs] at hn ⊢
  rw [List.nodup_append, List.nodup_cons] at hn
  obtain ⟨-, ⟨hb, -⟩, hab⟩ := hn
  have e1 : a.map (fun x => (put t p r x).length) = a.map fun x => (t x).length :=
    List.map_congr_left fun x hx => by
      rw [put_ne _ _ (hab x hx p List.mem_cons_self)]
  have e2 : b.map (fun x => (put t p r x).length) = b.map fun x => (t x).length :=
    List.map_congr_left fun x hx => by
      rw [put_ne _ _ (show x ≠ p from fun hc => hb (by rw [← hc]; exact hx))]
  simp only [List.map_append, List.map_cons, List.sum_append, List.sum_cons, e1, e2, put_same, h, List.length_cons]
  omega

theorem PInv.may {n : Nat} {a : Nat → A} {s s' : PNet M A} {t : Nat → List (Ev M)} {c : Nat → Nat → List (Nat × M)}
    (h : PInv n a s t c) (hs : PMay s s') : ∃ t' c', PInv n a s' t' c' ∧ left n t' < left n t := by
  have lt : ∀ {x : Nat} {e : Ev M} {r : List (Ev M)} {t : Nat → List (Ev M)} {c : Nat → Nat → List (Nat × M)}
      {s : PNet M A}, PInv n a s t c → t x = e :: r → left n (put t x r) < left n t := by
    intro x e r t c s h hx
    have := left_put (n := n) (h.partners x e (by rw [hx]; exact List.mem_cons_self)).1 hx
    omega
  cases hs with
  | buffer hp =>
    obtain ⟨κ, r, h1, h2⟩ := h.buffer hp
    exact ⟨_, _, h2, lt h h1⟩
  | must hm =>
    cases hm with
    | take hq hc =>
      obtain ⟨κ, r, cs, h1, -, h2⟩ := h.take hq hc
      exact ⟨_, _, h2, lt h h1⟩
    | @meet p q m k k' hp hq hc =>
      have hpq : p ≠ q := by
        rintro rfl
        rw [hp] at hq; cases hq
      obtain ⟨κ, r, h1, h2⟩ := h.buffer hp
      have l1 := lt h h1
      obtain ⟨κ', r', cs, h3, -, h4⟩ := h2.take (p := p) (q := q) (m := m) (ms := []) (k := k')
        (by dsimp only; rw [put_ne _ _ (Ne.symm hpq)]; exact hq) (by dsimp only; rw [put2_same, hc]; rfl)
      have l2 := lt h2 h3
      have e : put2 (put2 s.chan p q (s.chan p q ++ [m])) p q [] = s.chan := by
        funext x y
        by_cases hxy : x = p ∧ y = q
        · obtain ⟨rfl, rfl⟩ := hxy; rw [put2_same, hc]
        · rw [put2_ne _ _ hxy, put2_ne _ _ hxy]
      dsimp only at h4
      rw [e] at h4
      exact ⟨_, _, h4, by omega⟩

/-- Something can be done as long as a partition has not returned. -/
theorem PInv.progress {n : Nat} {a : Nat → A} {s : PNet M A} {t : Nat → List (Ev M)}
    {c : Nat → Nat → List (Nat × M)} (h : PInv n a s t c) (hd : ¬ s.done) : ∃ s', PMust s s' := by
  classical
  -- a first event with the least key
  have hex : ∃ κ, ∃ p e r, t p = e :: r ∧ e.key = κ := by
    by_contra hc
    apply hd
    intro p
    have hf := h.follows p
    generalize ht : t p = tp at hf
    generalize s.run p = rp at hf
    cases hf with
    | ret => exact ⟨_, rfl⟩
    | send => exact absurd ⟨_, p, _, _, ht, rfl⟩ hc
    | recv => exact absurd ⟨_, p, _, _, ht, rfl⟩ hc
  obtain ⟨κ, ⟨p, e, r, hp, hκ⟩, hmin⟩ : ∃ κ, (∃ p e r, t p = e :: r ∧ e.key = κ) ∧
      ∀ κ', (∃ p e r, t p = e :: r ∧ e.key = κ') → κ ≤ κ' := by
    obtain ⟨κ, hκ⟩ := hex
    induction κ using Nat.strongRecOn with
    | ind κ ih =>
      by_cases hlt : ∃ κ', κ' < κ ∧ ∃ p e r, t p = e :: r ∧ e.key = κ'
      · obtain ⟨κ', h1, h2⟩ := hlt
        exact ih κ' h1 h2
      · exact ⟨κ, hκ, fun κ' h' => by
          by_contra hc
          exact hlt ⟨κ', by omega, h'⟩⟩
  -- a partition with an event of at most that key has one of that key first
  have first : ∀ q, ∀ e' ∈ t q, e'.key ≤ κ → ∃ e'' r'', t q = e'' :: r'' ∧ e''.key = κ ∧ e''.ends q = e.ends p := by
    intro q e' he' hle
    cases hq : t q with
    | nil => rw [hq] at he'; cases he'
    | cons e'' r'' =>
      have h1 := hmin _ ⟨q, e'', r'', hq, rfl⟩
      have h2 : e''.key ≤ e'.key := by
        rw [hq] at he'
        rcases List.mem_cons.1 he' with rfl | he'
        · exact Nat.le_refl _
        · have := h.sorted q
          rw [hq] at this
          exact (List.pairwise_cons.1 this).1 e' he'
      have h3 : e''.key = κ := by omega
      exact ⟨e'', r'', rfl, h3, h.ends q p e'' (by rw [hq]; exact List.mem_cons_self) e
        (by rw [hp]; exact List.mem_cons_self) (by omega)⟩
  have hf := h.follows p
  rw [hp] at hf
  generalize hrun : s.run p = rp at hf
  have hpne := (h.partners p e (by rw [hp]; exact List.mem_cons_self)).2.2
  cases hf with
  | @send κ0 q m k _ _ hk =>
    have hm := h.matched p q
    rw [hp, sentTo, if_pos ⟨rfl, rfl⟩] at hm
    dsimp only at hm hκ hpne
    -- the receiver waits for a message of `p` with at most that key
    obtain ⟨x, rs, hx, hxle⟩ : ∃ x rs, rcvdFrom p (t q) = x :: rs ∧ x.1 ≤ κ := by
      cases hcs : c p q with
      | nil => rw [hcs] at hm; exact ⟨_, _, hm.symm, by simp [hκ]⟩
      | cons x cs =>
        rw [hcs] at hm
        refine ⟨x, _, hm.symm, ?_⟩
        have h1 : x ∈ rcvdFrom p (t q) := by rw [← hm]; simp
        have h2 : (κ0, m) ∈ rcvdFrom p (t q) := by rw [← hm]; simp
        have hsort : ∀ l : List (Ev M), l.Pairwise (fun a b => a.key ≤ b.key) →
            (rcvdFrom p l).Pairwise fun a b => a.1 ≤ b.1 := by
          intro l
          induction l with
          | nil => intro _; exact List.Pairwise.nil
          | cons e l ih =>
            intro hl
            rw [List.pairwise_cons] at hl
            unfold rcvdFrom
            split
            · rw [List.pairwise_cons]
              refine ⟨fun y hy => ?_, ih hl.2⟩
              obtain ⟨e', he', -, -, hk'⟩ := rcvdFrom_mem hy
              have := hl.1 e' he'
              dsimp only
              omega
            · exact ih hl.2
        have h3 := hsort _ (h.sorted q)
        rw [← hm, List.cons_append, List.pairwise_cons] at h3
        have := h3.1 (κ0, m) (by simp)
        dsimp only at this
        omega
    obtain ⟨e', he', ho', hpar', hkey'⟩ := rcvdFrom_mem (x := x) (t := t q) (p := p) (by rw [hx]; simp)
    obtain ⟨e'', r'', hq, -, hends⟩ := first q e' he' (by omega)
    have hfq := h.follows q
    rw [hq] at hfq
    generalize hrunq : s.run q = rq at hfq
    have hout : e''.out = false ∧ e''.partner = p := by
      unfold Ev.ends at hends
      dsimp only at hends
      rw [if_pos rfl] at hends
      cases ho : e''.out with
      | true =>
        rw [ho, if_pos rfl] at hends
        injection hends with a1 a2
        exact absurd a1.symm (Ne.symm hpne)
      | false =>
        rw [ho, if_neg Bool.false_ne_true] at hends
        injection hends with a1 a2
        exact ⟨rfl, a1⟩
    cases hfq with
    | send => exact absurd hout.1 (by simp)
    | @recv _ p' m' k' _ _ hk' =>
      obtain rfl : p' = p := hout.2
      cases hch : s.chan p' q with
      | nil => exact ⟨_, PMust.meet hrun hrunq hch⟩
      | cons m0 ms => exact ⟨_, PMust.take hrunq hch⟩
  | @recv κ0 q m k _ _ hk =>
    cases hch : s.chan q p with
    | cons m0 ms => exact ⟨_, PMust.take hrun hch⟩
    | nil =>
      have hm := h.matched q p
      rw [hp, rcvdFrom, if_pos ⟨rfl, rfl⟩] at hm
      dsimp only at hm hκ hpne
      have hc0 : c q p = [] := by
        have := h.chan q p
        rw [hch] at this
        exact List.map_eq_nil_iff.1 this.symm
      rw [hc0, List.nil_append] at hm
      obtain ⟨e', he', ho', hpar', hkey'⟩ := sentTo_mem (x := (κ0, m)) (t := t q) (q := p) (by rw [hm]; simp)
      obtain ⟨e'', r'', hq, -, hends⟩ := first q e' he' (by dsimp only at hkey'; omega)
      have hfq := h.follows q
      rw [hq] at hfq
      generalize hrunq : s.run q = rq at hfq
      have hout : e''.out = true ∧ e''.partner = p := by
        unfold Ev.ends at hends
        dsimp only at hends
        rw [if_neg Bool.false_ne_true] at hends
        cases ho : e''.out with
        | false =>
          rw [ho, if_neg Bool.false_ne_true] at hends
          injection hends with a1 a2
          exact absurd a2 hpne
        | true =>
          rw [ho, if_pos rfl] at hends
          injection hends with a1 a2
          exact ⟨rfl, a2⟩
      cases hfq with
      | recv => exact absurd hout.1 (by simp)
      | @send _ p' m' k' _ _ hk' =>
        obtain rfl : p' = p := hout.2
        exact ⟨_, PMust.meet hrunq hrun hch⟩

/-- Programs with matching scripts cannot deadlock, end after a bounded number of steps, and compute
the same for every schedule. -/
theorem script_runs {n : Nat} {a : Nat → A} {run : Nat → Proc M A} {t : Nat → List (Ev M)} (h : Script n t)
    (hf : ∀ p, Follows (run p) (t p) (a p)) {k : Nat} {s : PNet M A}
    (hx : PExec k ⟨run, fun _ _ => []⟩ s) :
    k ≤ left n t ∧ (¬ s.done → ∃ s', PMust s s') ∧ (s.done → ∀ p, s.run p = .ret (a p)) := by
  have hinv : ∃ t' c', PInv n a s t' c' ∧ left n t' + k ≤ left n t := by
    generalize hs0 : (⟨run, fun _ _ => []⟩ : PNet M A) = s0 at hx
    induction hx with
    | refl s => subst hs0; exact ⟨_, _, PInv.start h hf, Nat.le_refl _⟩
    | step _ hm ih =>
      obtain ⟨t', c', h1, h2⟩ := ih hs0
      obtain ⟨t'', c'', h3, h4⟩ := h1.may hm
      exact ⟨t'', c'', h3, by omega⟩
  obtain ⟨t', c', h1, h2⟩ := hinv
  refine ⟨by omega, h1.progress, fun hd p => ?_⟩
  have hfp := h1.follows p
  obtain ⟨b, hb⟩ := hd p
  rw [hb] at hfp ⊢
  generalize t' p = tp at hfp
  generalize a p = ap at hfp
  cases hfp with
  | ret => rfl

end MSTK.Par
