import Verif.NumberLemmas2

/-!
Lemmas about the levels given to the nodes in graph renumbering (helper lemmas for C64).
-/
namespace MSTK
namespace Num

theorem bump_ok {w : List Int} {lev : Int} (h1 : 1 ≤ lev) (h2 : lev ≤ w.length) :
    ∃ w', bump w lev = .ok w' ∧ w'.length = w.length := by
  unfold bump
  rw [if_pos h1, rd_getD 0 (by omega), Res.bind_ok, wr_ok _ (by omega)]
  exact ⟨_, rfl, by simp⟩

theorem settle_ok {n depth : Nat} {p0 p1 : List Int} (h0 : p0.length = n) (h1 : p1.length = n)
    (hp : ∀ x, x < n → p0.getD x 0 = p1.getD x 0 → 1 ≤ p0.getD x 0 ∧ p0.getD x 0 ≤ depth) :
    ∀ (k i : Nat) (s : Assign), i + k = n → s.level.length = n → s.base.length = depth →
    ∃ s', settle p0 p1 k i s = .ok s' ∧ s'.level.length = n ∧ s'.base.length = depth ∧
      s'.unmarked = s.unmarked ++ (List.range' i k).filter (fun x => decide (p0.getD x 0 ≠ p1.getD x 0)) ∧
      (∀ x, x < n → s'.level.getD x 0 = if i ≤ x ∧ p0.getD x 0 = p1.getD x 0 then p0.getD x 0 else s.level.getD x 0) := by
  intro k
  induction k with
  | zero =>
    intro i s hi hl hb
    refine ⟨s, rfl, hl, hb, by simp, fun x hx => ?_⟩
    rw [if_neg (by omega)]
  | succ k ih =>
    intro i s hi hl hb
    have e : settle p0 p1 (k+1) i s = if p0.getD i 0 = p1.getD i 0 then
        (wr s.level i (p0.getD i 0) >>= fun level => bump s.base (p0.getD i 0) >>= fun base =>
          settle p0 p1 k (i+1) { s with level := level, base := base })
        else settle p0 p1 k (i+1) { s with unmarked := s.unmarked ++ [i] } := by
      rw [show settle p0 p1 (k+1) i s = (rd p0 i >>= fun a => rd p1 i >>= fun b => if a = b then
        (wr s.level i a >>= fun level => bump s.base a >>= fun base => settle p0 p1 k (i+1) { s with level := level, base := base })
        else settle p0 p1 k (i+1) { s with unmarked := s.unmarked ++ [i] }) from rfl, rd_getD 0 (by omega), Res.bind_ok,
        rd_getD 0 (by omega), Res.bind_ok]
    rw [e]
    by_cases hc : p0.getD i 0 = p1.getD i 0
    · obtain ⟨q1, q2⟩ := hp i (by omega) hc
      obtain ⟨w', rw', hw'⟩ := bump_ok (w := s.base) q1 (by omega)
      rw [if_pos hc, wr_ok _ (by omega), Res.bind_ok, rw', Res.bind_ok]
      obtain ⟨s', r, a1, a2, a3, a4⟩ := ih (i+1) ⟨s.level.set i (p0.getD i 0), w', s.unmarked⟩ (by omega) (by simp [hl]) (hw'.trans hb)
      refine ⟨s', r, a1, a2, ?_, ?_⟩
      · rw [a3, List.range'_succ, List.filter_cons, if_neg (by simpa using hc)]
      · intro x hx
        rw [a4 x hx]
        dsimp only
        rw [getD_set (by omega)]
        by_cases hix : i = x
        · subst hix
          rw [if_neg (by omega), if_pos rfl, if_pos ⟨Nat.le_refl _, hc⟩]
        · rw [if_neg hix]
          by_cases hle : i + 1 ≤ x
          · simp only [hle, true_and, show i ≤ x by omega]
          · rw [if_neg (fun h => hle h.1), if_neg (fun h => hle (by have := h.1; omega))]
    · rw [if_neg hc]
      obtain ⟨s', r, a1, a2, a3, a4⟩ := ih (i+1) ⟨s.level, s.base, s.unmarked ++ [i]⟩ (by omega) hl hb
      refine ⟨s', r, a1, a2, ?_, ?_⟩
      · rw [a3, List.range'_succ, List.filter_cons, if_pos (by simpa using hc)]; simp
      · intro x hx
        rw [a4 x hx]
        by_cases hix : i = x
        · subst hix
          rw [if_neg (by omega), if_neg (fun h => hc h.2)]
        · by_cases hle : i + 1 ≤ x
          · simp only [hle, true_and, show i ≤ x by omega]
          · rw [if_neg (fun h => hle h.1), if_neg (fun h => hle (by have := h.1; omega))]

/-! ### the loops end -/

/-- the function returns or runs into undefined behaviour -/
def Stops {α : Type} (r : Res α) : Prop := r ≠ .hang ∧ r ≠ .fatal

theorem stops_ok {α : Type} (a : α) : Stops (.ok a) := ⟨by simp, by simp⟩
theorem stops_ub {α : Type} : Stops (.ub : Res α) := ⟨by simp, by simp⟩

theorem stops_bind {α β : Type} {r : Res α} {f : α → Res β} (h : Stops r) (h' : ∀ a, r = .ok a → Stops (f a)) :
    Stops (r >>= f) := by
  cases r with
  | ok a => exact h' a rfl
  | ub => exact stops_ub
  | hang => exact absurd rfl h.1
  | fatal => exact absurd rfl h.2

theorem stops_ite {α : Type} {c : Prop} [Decidable c] {r s : Res α} (h : c → Stops r) (h' : ¬ c → Stops s) :
    Stops (if c then r else s) := by
  split
  · exact h ‹_›
  · exact h' ‹_›

theorem stops_rd {α : Type} (A : List α) (i : Nat) : Stops (rd A i) := by
  unfold rd
  cases A[i]? with
  | none => exact stops_ub
  | some a => exact stops_ok a

theorem stops_wr {α : Type} (A : List α) (i : Nat) (x : α) : Stops (wr A i x) := by
  unfold wr
  exact stops_ite (fun _ => stops_ok _) (fun _ => stops_ub)

theorem stops_nbrs (g : G) (x : Nat) : Stops (g.nbrs x) := by
  unfold G.nbrs
  refine stops_bind (stops_rd _ _) fun _ _ => stops_bind (stops_rd _ _) fun _ _ => ?_
  repeat' split
  all_goals first | exact stops_ok _ | exact stops_ub

theorem stops_bump (w : List Int) (lev : Int) : Stops (bump w lev) :=
  stops_ite (fun _ => stops_bind (stops_rd _ _) fun _ _ => stops_wr _ _ _) (fun _ => stops_ub)

theorem wr_len {α : Type} {A B : List α} {i : Nat} {x : α} (h : wr A i x = .ok B) : i < A.length ∧ B = A.set i x := by
  unfold wr at h
  split at h
  · cases h; exact ⟨‹_›, rfl⟩
  · cases h

theorem bump_len {w w' : List Int} {lev : Int} (h : bump w lev = .ok w') : 1 ≤ lev := by
  unfold bump at h
  split at h
  · assumption
  · cases h

theorem reach_stops (level : List Int) (cap : Nat) : ∀ (as cset : List Nat) (tag : List Bool), Stops (reach level cap as cset tag) := by
  intro as
  induction as with
  | nil => intro cset tag; exact stops_ok _
  | cons a as ih =>
    intro cset tag
    refine stops_bind (stops_rd _ _) fun l _ => stops_bind (stops_rd _ _) fun t _ => stops_ite (fun _ => ?_) (fun _ => ih _ _)
    exact stops_ite (fun _ => stops_bind (stops_wr _ _ _) fun _ _ => ih _ _) (fun _ => stops_ub)

theorem reach_grows {level : List Int} {cap : Nat} : ∀ {as cset : List Nat} {tag : List Bool} {p : List Nat × List Bool},
    reach level cap as cset tag = .ok p → cset.length ≤ cap → (∃ t, p.1 = cset ++ t) ∧ p.1.length ≤ cap := by
  intro as
  induction as with
  | nil => intro cset tag p h hl; cases h; exact ⟨⟨[], by simp⟩, hl⟩
  | cons a as ih =>
    intro cset tag p h hl
    rw [show reach level cap (a :: as) cset tag = (rd level a >>= fun l => rd tag a >>= fun t =>
      if l = 0 ∧ t = false then (if cset.length < cap then wr tag a true >>= fun tag => reach level cap as (cset ++ [a]) tag else .ub)
      else reach level cap as cset tag) from rfl] at h
    obtain ⟨l, -, h⟩ := Res.bind_eq_ok.1 h
    obtain ⟨t, -, h⟩ := Res.bind_eq_ok.1 h
    split at h
    · split at h
      · obtain ⟨tag', -, h⟩ := Res.bind_eq_ok.1 h
        obtain ⟨⟨u, h1⟩, h2⟩ := ih h (by rw [List.length_append]; simpa using ‹_›)
        exact ⟨⟨[a] ++ u, by rw [h1]; simp⟩, h2⟩
      · cases h
    · exact ih h hl

theorem connect_stops (g : G) (level : List Int) (cap : Nat) : ∀ (fuel j : Nat) (cset : List Nat) (tag : List Bool),
    cset.length ≤ cap → cap < fuel + j → j ≤ cset.length → Stops (connect g level cap fuel j cset tag) := by
  intro fuel
  induction fuel with
  | zero => intro j cset tag h1 h2 h3; omega
  | succ fuel ih =>
    intro j cset tag h1 h2 h3
    unfold connect
    cases hj : cset[j]? with
    | none => exact stops_ok _
    | some node =>
      refine stops_bind (stops_nbrs _ _) fun l _ => stops_bind (reach_stops _ _ _ _ _) fun p hp => ?_
      obtain ⟨⟨t, e⟩, h⟩ := reach_grows hp h1
      refine ih _ _ _ h (by omega) ?_
      have := (List.getElem?_eq_some_iff.1 hj).1
      rw [e, List.length_append]; omega

theorem connect_grows {g : G} {level : List Int} {cap : Nat} : ∀ {fuel j : Nat} {cset : List Nat} {tag : List Bool} {c : List Nat},
    connect g level cap fuel j cset tag = .ok c → cset.length ≤ cap → ∃ t, c = cset ++ t := by
  intro fuel
  induction fuel with
  | zero => intro j cset tag c h; cases h
  | succ fuel ih =>
    intro j cset tag c h h1
    unfold connect at h
    cases hj : cset[j]? with
    | none => rw [hj] at h; cases h; exact ⟨[], by simp⟩
    | some node =>
      rw [hj] at h
      obtain ⟨l, -, h⟩ := Res.bind_eq_ok.1 h
      obtain ⟨p, hp, h⟩ := Res.bind_eq_ok.1 h
      obtain ⟨⟨t, e⟩, hl⟩ := reach_grows hp h1
      obtain ⟨t', e'⟩ := ih h hl
      exact ⟨t ++ t', by rw [e', e]; simp⟩

theorem largest_stops (g : G) (level : List Int) {cap : Nat} (hc : 1 ≤ cap) : ∀ (us : List Nat) (i : Nat) (best : List Nat),
    Stops (largest g level cap us i best) := by
  intro us
  induction us with
  | nil => intro i best; exact stops_ok _
  | cons u us ih =>
    intro i best
    refine stops_bind (stops_rd _ _) fun l _ => stops_ite (fun _ => ?_) (fun _ => ih _ _)
    exact stops_bind (stops_wr _ _ _) fun tag _ => stops_bind
      (connect_stops _ _ _ _ _ _ _ (by simpa using hc) (by omega) (Nat.zero_le _)) fun c _ => ih _ _

/-- what is found has a node of the list in it -/
theorem largest_mem {g : G} {level : List Int} {cap : Nat} (hc : 1 ≤ cap) : ∀ {us : List Nat} {i : Nat} {best c : List Nat},
    largest g level cap us i best = .ok c → c = best ∨ ∃ u ∈ us, u ∈ c := by
  intro us
  induction us with
  | nil => intro i best c h; cases h; exact Or.inl rfl
  | cons u us ih =>
    intro i best c h
    rw [show largest g level cap (u :: us) i best = (rd level u >>= fun l => if l = 0 then
      (wr (List.replicate g.n false) i true >>= fun tag => connect g level cap (cap+1) 0 [u] tag >>= fun c =>
        largest g level cap us (i+1) (if best.length < c.length then c else best)) else largest g level cap us (i+1) best) from rfl] at h
    obtain ⟨l, -, h⟩ := Res.bind_eq_ok.1 h
    split at h
    · obtain ⟨tag, -, h⟩ := Res.bind_eq_ok.1 h
      obtain ⟨c', hc', h⟩ := Res.bind_eq_ok.1 h
      obtain ⟨t, e⟩ := connect_grows hc' (by simpa using hc)
      rcases ih h with h | ⟨v, h1, h2⟩
      · split at h
        · right; exact ⟨u, by simp, by rw [h, e]; simp⟩
        · left; exact h
      · exact Or.inr ⟨v, by simp [h1], h2⟩
    · rcases ih h with h | ⟨v, h1, h2⟩
      · exact Or.inl h
      · exact Or.inr ⟨v, by simp [h1], h2⟩

theorem widen_stops (p : List Int) : ∀ (xs : List Nat) (w : List Int), Stops (widen p xs w) := by
  intro xs
  induction xs with
  | nil => intro w; exact stops_ok _
  | cons x xs ih => intro w; exact stops_bind (stops_rd _ _) fun _ _ => stops_bind (stops_bump _ _) fun _ _ => ih _

theorem setLevels_stops (p : List Int) : ∀ (xs : List Nat) (level base : List Int), Stops (setLevels p xs level base) := by
  intro xs
  induction xs with
  | nil => intro level base; exact stops_ok _
  | cons x xs ih =>
    intro level base
    exact stops_bind (stops_rd _ _) fun _ _ => stops_bind (stops_wr _ _ _) fun _ _ => stops_bind (stops_bump _ _) fun _ _ => ih _ _

theorem setLevels_some {p : List Int} : ∀ {xs : List Nat} {level base : List Int} {q : List Int × List Int},
    setLevels p xs level base = .ok q → q.1.length = level.length ∧ (∀ x, level.getD x 0 ≠ 0 → q.1.getD x 0 ≠ 0) ∧
      ∀ x ∈ xs, q.1.getD x 0 ≠ 0 := by
  intro xs
  induction xs with
  | nil => intro level base q h; cases h; exact ⟨rfl, fun _ h => h, by simp⟩
  | cons x xs ih =>
    intro level base q h
    obtain ⟨lev, -, h⟩ := Res.bind_eq_ok.1 h
    obtain ⟨level', h1, h⟩ := Res.bind_eq_ok.1 h
    obtain ⟨base', h2, h⟩ := Res.bind_eq_ok.1 h
    obtain ⟨h3, rfl⟩ := wr_len h1
    have h4 := bump_len h2
    obtain ⟨a1, a2, a3⟩ := ih h
    refine ⟨by simpa using a1, ?_, ?_⟩
    · intro y hy
      refine a2 y ?_
      rw [getD_set h3]
      split
      · omega
      · exact hy
    · intro y hy
      rcases List.mem_cons.1 hy with rfl | hy
      · exact a2 _ (by rw [getD_set h3, if_pos rfl]; omega)
      · exact a3 y hy

theorem compress_stops (level : List Int) : ∀ xs : List Nat, Stops (compress level xs) := by
  intro xs
  induction xs with
  | nil => exact stops_ok _
  | cons x xs ih => exact stops_bind (stops_rd _ _) fun _ _ => stops_bind ih fun _ _ => stops_ok _

theorem compress_len {level : List Int} : ∀ {xs r : List Nat}, compress level xs = .ok r → r.length ≤ xs.length ∧
    ((∃ x ∈ xs, level.getD x 0 ≠ 0) → r.length < xs.length) := by
  intro xs
  induction xs with
  | nil => intro r h; cases h; exact ⟨Nat.le_refl _, by simp⟩
  | cons x xs ih =>
    intro r h
    obtain ⟨l, h1, h⟩ := Res.bind_eq_ok.1 h
    obtain ⟨r', h2, h⟩ := Res.bind_eq_ok.1 h
    obtain ⟨a1, a2⟩ := ih h2
    have hl : level.getD x 0 = l := by
      unfold rd at h1
      cases hx : level[x]? with
      | none => rw [hx] at h1; cases h1
      | some v => rw [hx] at h1; cases h1; rw [List.getD_eq_getElem?_getD, hx]; rfl
    cases h
    by_cases hz : l = 0
    · rw [if_pos hz, List.length_cons, List.length_cons]
      refine ⟨by omega, ?_⟩
      rintro ⟨y, hy, hyl⟩
      rcases List.mem_cons.1 hy with rfl | hy
      · exact absurd (hl.trans hz) hyl
      · have := a2 ⟨y, hy, hyl⟩; omega
    · rw [if_neg hz, List.length_cons]
      exact ⟨by omega, fun _ => by omega⟩

theorem spread_stops (g : G) (p0 p1 : List Int) (cap depth : Nat) : ∀ (fuel : Nat) (s : Assign), s.unmarked.length ≤ cap →
    s.unmarked.length < fuel → Stops (spread g p0 p1 cap depth fuel s) := by
  intro fuel
  induction fuel with
  | zero => intro s _ h; omega
  | succ fuel ih =>
    intro s hcap h
    by_cases hu : s.unmarked = []
    · unfold spread
      rw [hu]
      exact stops_ok _
    · have hc : 1 ≤ cap := by
        have := List.length_pos_iff.2 hu
        omega
      refine stops_bind (largest_stops _ _ hc _ _ _) fun c hcc => stops_ite (fun _ => stops_ok _) (fun hne => ?_)
      refine stops_bind (widen_stops _ _ _) fun _ _ => stops_bind (widen_stops _ _ _) fun _ _ =>
        stops_bind (setLevels_stops _ _ _ _) fun q hq => stops_bind (compress_stops _ _) fun u hu => ?_
      rcases largest_mem hc hcc with e | ⟨x, hx, hxc⟩
      · exact absurd e hne
      · have h1 := (compress_len hu).1
        have h2 := (compress_len hu).2 ⟨x, hx, (setLevels_some hq).2.2 x hxc⟩
        exact ih _ (by dsimp only; omega) (by dsimp only; omega)

theorem spread_len {g : G} {p0 p1 : List Int} {cap depth : Nat} : ∀ {fuel : Nat} {s s' : Assign},
    spread g p0 p1 cap depth fuel s = .ok s' → s'.level.length = s.level.length := by
  intro fuel
  induction fuel with
  | zero => intro s s' h; cases h
  | succ fuel ih =>
    intro s s' h
    unfold spread at h
    obtain ⟨c, -, h⟩ := Res.bind_eq_ok.1 h
    split at h
    · cases h; rfl
    · obtain ⟨d1, -, h⟩ := Res.bind_eq_ok.1 h
      obtain ⟨d2, -, h⟩ := Res.bind_eq_ok.1 h
      obtain ⟨q, hq, h⟩ := Res.bind_eq_ok.1 h
      obtain ⟨u, -, h⟩ := Res.bind_eq_ok.1 h
      rw [ih h]
      exact (setLevels_some hq).1

/-! ### levels from both ends -/

/-- `x` is on a shortest walk between `a` and `b`, which are `D` steps apart -/
def Between (rows : List (List Nat)) (a b D x : Nat) : Prop := ∃ d e, Dist rows a x d ∧ Dist rows b x e ∧ d + e = D

theorem assignLevels_eq {rows : List (List Nat)} (hr : InRange rows) (hc : Connected rows) {a b D : Nat}
    (ha : a < rows.length) (hb : b < rows.length) (hea : Ecc rows a D) (heb : Ecc rows b D) :
    ∃ (p0 p1 : List Int) (s : Assign), (∀ x d, x < rows.length → Dist rows a x d → p0.getD x 0 = d + 1) ∧
      s.level.length = rows.length ∧ s.base.length = D + 1 ∧ s.unmarked.Nodup ∧
      (∀ x, x ∈ s.unmarked ↔ x < rows.length ∧ ¬ Between rows a b D x) ∧
      (∀ x, x < rows.length → s.level.getD x 0 = if x ∈ s.unmarked then 0 else p0.getD x 0) ∧
      assignLevels (ofRows rows) a b = (spread (ofRows rows) p0 p1 s.unmarked.length (D+1) (rows.length+1) s >>= fun s =>
        pure (s.level, maxOf s.base)) := by
  obtain ⟨L1, q1, r1, h1⟩ := buildLevels_ok hr ha (hc a ha) (m0 := List.replicate rows.length none) (by simp)
  obtain ⟨L2, q2, r2, h2⟩ := buildLevels_ok hr hb (hc b hb) (m0 := L1.map) (by
    rw [h1.map, List.length_map, h1.perm.length_eq, List.length_range])
  obtain ⟨D2, hD2, he2⟩ := h2.ecc
  have hD : D2 = D := by
    obtain ⟨⟨y, hy, hyd⟩, hm⟩ := he2
    obtain ⟨⟨z, hz, hzd⟩, hm'⟩ := heb
    exact Nat.le_antisymm (hm' y D2 hy hyd) (hm z D hz hzd)
  subst hD
  have hDn : D2 + 1 ≤ rows.length := by
    obtain ⟨⟨y, hy, hyd⟩, -⟩ := hea
    have := hyd.lt hr ha
    omega
  have hp1 : ∀ x e, x < rows.length → Dist rows b x e → (L2.level.map fun l => L2.depth + 1 - l).getD x 0 = D2 + 1 - e := by
    intro x e hx he
    have hl := h2.level_eq hx he
    rw [List.getD_eq_getElem?_getD, List.getElem?_eq_getElem (by rw [h2.levlen]; exact hx), Option.getD_some] at hl
    rw [List.getD_eq_getElem?_getD, List.getElem?_map, List.getElem?_eq_getElem (by rw [h2.levlen]; exact hx), Option.map_some,
      Option.getD_some, hl, hD2]
    omega
  have heq : ∀ x, x < rows.length → (L1.level.getD x 0 = (L2.level.map fun l => L2.depth + 1 - l).getD x 0 ↔ Between rows a b D2 x) := by
    intro x hx
    obtain ⟨d, hd, hl⟩ := h1.dist x hx
    obtain ⟨e, he, -⟩ := h2.dist x hx
    rw [hl, hp1 x e hx he]
    constructor
    · intro h; exact ⟨d, e, hd, he, by omega⟩
    · rintro ⟨d', e', hd', he', h⟩
      rw [← hd.unique hd', ← he.unique he'] at h
      omega
  obtain ⟨s, r3, s1, s2, s3, s4⟩ := settle_ok (depth := D2 + 1) h1.levlen (p1 := L2.level.map fun l => L2.depth + 1 - l)
    (by rw [List.length_map]; exact h2.levlen) (by
      intro x hx _
      obtain ⟨d, hd, hl⟩ := h1.dist x hx
      have := hea.2 x d hx hd
      rw [hl]; push_cast; omega) rows.length 0 ⟨List.replicate rows.length 0, List.replicate (D2 + 1) 0, []⟩ (by omega) (by simp) (by simp)
  have hmem : ∀ x, x ∈ s.unmarked ↔ x < rows.length ∧ ¬ Between rows a b D2 x := by
    intro x
    rw [s3]
    simp only [List.nil_append, List.mem_filter, List.mem_range'_1, decide_eq_true_eq, ne_eq]
    constructor
    · rintro ⟨h1, h2⟩; exact ⟨by omega, fun h => h2 ((heq x (by omega)).2 h)⟩
    · rintro ⟨h1, h2⟩; exact ⟨by omega, fun h => h2 ((heq x (by omega)).1 h)⟩
  refine ⟨L1.level, L2.level.map fun l => L2.depth + 1 - l, s, fun x d hx hd => h1.level_eq hx hd, s1, s2, ?_, hmem, ?_, ?_⟩
  · rw [s3]; simp only [List.nil_append]; exact (List.nodup_range').filter _
  · intro x hx
    rw [s4 x hx]
    by_cases hB : Between rows a b D2 x
    · rw [if_pos ⟨Nat.zero_le _, (heq x hx).2 hB⟩, if_neg (fun h => ((hmem x).1 h).2 hB)]
    · rw [if_neg (fun h => hB ((heq x hx).1 h.2)), if_pos ((hmem x).2 ⟨hx, hB⟩)]
      dsimp only
      simp [List.getD_eq_getElem?_getD, hx]
  · rw [show assignLevels (ofRows rows) a b = (buildLevels (ofRows rows) a (List.replicate rows.length none) >>= fun L1 =>
      buildLevels (ofRows rows) b L1.map >>= fun L2 => if 0 ≤ L2.depth ∧ L2.depth ≤ rows.length then
        (settle L1.level (L2.level.map fun l => L2.depth + 1 - l) rows.length 0
          ⟨List.replicate rows.length 0, List.replicate L2.depth.toNat 0, []⟩ >>= fun s =>
         spread (ofRows rows) L1.level (L2.level.map fun l => L2.depth + 1 - l) s.unmarked.length L2.depth.toNat (rows.length + 1) s >>= fun s =>
         pure (s.level, maxOf s.base)) else .ub) from rfl, r1, Res.bind_ok, r2, Res.bind_ok, if_pos (by omega)]
    rw [show L2.depth.toNat = D2 + 1 by omega, r3, Res.bind_ok]

/-! ### the set that outgrows its array -/

/-- a walk through nodes of `U`; the first one need not be in `U` -/
inductive WalkIn (rows : List (List Nat)) (U : Nat → Prop) : Nat → Nat → Prop
  | here (x) : WalkIn rows U x x
  | step {x y z} : WalkIn rows U x y → Nbr rows y z → U z → WalkIn rows U x z

/-- the state of the search for the connected set of `u`, when the place 0 was tagged instead of `u` -/
structure Searched (rows : List (List Nat)) (level : List Int) (u j : Nat) (tail : List Nat) (tag : List Bool) : Prop where
  taglen : tag.length = rows.length
  tag : ∀ x, x < rows.length → (tag.getD x false = true ↔ x = 0 ∨ x ∈ tail)
  done : ∀ (k : Nat) x y, k < j → (u :: tail)[k]? = some x → Nbr rows x y → level.getD y 0 = 0 → y ∈ tail
  range : ∀ x ∈ tail, x < rows.length

theorem reach_searched {rows : List (List Nat)} {level : List Int} (hl : level.length = rows.length)
    (h0 : level.getD 0 0 ≠ 0) {cap u : Nat} : ∀ {as tail : List Nat} {tag : List Bool} {p : List Nat × List Bool},
    (∀ a ∈ as, a < rows.length) → tag.length = rows.length → (∀ x, x < rows.length → (tag.getD x false = true ↔ x = 0 ∨ x ∈ tail)) →
    (∀ x ∈ tail, x < rows.length) → reach level cap as (u :: tail) tag = .ok p →
    ∃ new, p.1 = u :: (tail ++ new) ∧ p.2.length = rows.length ∧
      (∀ x, x < rows.length → (p.2.getD x false = true ↔ x = 0 ∨ x ∈ tail ++ new)) ∧
      (∀ x ∈ tail ++ new, x < rows.length) ∧ ∀ a ∈ as, level.getD a 0 = 0 → a ∈ tail ++ new := by
  intro as
  induction as with
  | nil =>
    intro tail tag p _ h1 h2 h3 h
    cases h
    exact ⟨[], by simp, h1, by simpa using h2, by simpa using h3, by simp⟩
  | cons a as ih =>
    intro tail tag p ha h1 h2 h3 h
    have han := ha a (by simp)
    rw [show reach level cap (a :: as) (u :: tail) tag = (rd level a >>= fun l => rd tag a >>= fun t =>
      if l = 0 ∧ t = false then (if (u :: tail).length < cap then wr tag a true >>= fun tag => reach level cap as (u :: tail ++ [a]) tag else .ub)
      else reach level cap as (u :: tail) tag) from rfl, rd_getD 0 (by omega), Res.bind_ok, rd_getD false (by omega), Res.bind_ok] at h
    by_cases hc : level.getD a 0 = 0 ∧ tag.getD a false = false
    · rw [if_pos hc] at h
      split at h
      · rw [wr_ok _ (by omega), Res.bind_ok, show u :: tail ++ [a] = u :: (tail ++ [a]) from rfl] at h
        obtain ⟨new, e, a1, a2, a3, a4⟩ := ih (tail := tail ++ [a]) (fun b hb => ha b (by simp [hb])) (by simp [h1]) (by
          intro x hx
          rw [getD_set (by omega)]
          by_cases hax : a = x
          · subst hax; rw [if_pos rfl]; simp
          · rw [if_neg hax, h2 x hx, List.mem_append, List.mem_singleton]
            exact ⟨fun h => h.imp_right Or.inl, fun h => h.imp_right fun h => h.resolve_right (fun e => hax e.symm)⟩) (by
          intro x hx
          rcases List.mem_append.1 hx with hx | hx
          · exact h3 x hx
          · rw [List.mem_singleton.1 hx]; exact han) h
        refine ⟨a :: new, by rw [e]; simp, a1, by simpa using a2, by simpa using a3, ?_⟩
        intro b hb hbl
        rcases List.mem_cons.1 hb with rfl | hb
        · simp
        · have := a4 b hb hbl; simpa using this
      · cases h
    · rw [if_neg hc] at h
      obtain ⟨new, e, a1, a2, a3, a4⟩ := ih (fun b hb => ha b (by simp [hb])) h1 h2 h3 h
      refine ⟨new, e, a1, a2, a3, ?_⟩
      intro b hb hbl
      rcases List.mem_cons.1 hb with rfl | hb
      · have ht : tag.getD b false = true := by
          cases htb : tag.getD b false
          · exact absurd ⟨hbl, htb⟩ hc
          · rfl
        rcases (h2 b han).1 ht with rfl | hm
        · exact absurd hbl h0
        · simp [hm]
      · exact a4 b hb hbl

theorem connect_searched {rows : List (List Nat)} (hr : InRange rows) {level : List Int} (hl : level.length = rows.length)
    (h0 : level.getD 0 0 ≠ 0) {cap u : Nat} (hu : u < rows.length) : ∀ {fuel j : Nat} {tail : List Nat} {tag : List Bool} {c : List Nat},
    Searched rows level u j tail tag → (u :: tail).length ≤ cap → connect (ofRows rows) level cap fuel j (u :: tail) tag = .ok c →
    ∃ t, c = u :: t ∧ c.length ≤ cap ∧ ∀ x y, x ∈ c → Nbr rows x y → level.getD y 0 = 0 → y ∈ t := by
  intro fuel
  induction fuel with
  | zero => intro j tail tag c _ _ h; cases h
  | succ fuel ih =>
    intro j tail tag c hs hcap h
    unfold connect at h
    cases hj : (u :: tail)[j]? with
    | none =>
      rw [hj] at h
      cases h
      refine ⟨tail, rfl, hcap, ?_⟩
      intro x y hx hn hy
      obtain ⟨k, hk⟩ := List.mem_iff_getElem?.1 hx
      have h1 := (List.getElem?_eq_some_iff.1 hk).1
      have h2 := List.getElem?_eq_none_iff.1 hj
      exact hs.done k x y (by omega) hk hn hy
    | some node =>
      rw [hj] at h
      have hnode : node < rows.length := by
        rcases List.mem_cons.1 (List.mem_of_getElem? hj) with rfl | hm
        · exact hu
        · exact hs.range node hm
      obtain ⟨l, hlr⟩ : ∃ l, rows[node]? = some l := ⟨_, List.getElem?_eq_getElem hnode⟩
      dsimp only at h
      rw [nbrs_ok hlr, Res.bind_ok] at h
      obtain ⟨p, hp, h⟩ := Res.bind_eq_ok.1 h
      have hlen := (reach_grows hp hcap).2
      obtain ⟨new, e, a1, a2, a3, a4⟩ := reach_searched hl h0 (hr l (List.mem_of_getElem? hlr)) hs.taglen hs.tag hs.range hp
      rw [e] at h hlen
      refine ih (j := j+1) ⟨a1, a2, ?_, a3⟩ hlen h
      intro k x y hk hx hn hy
      by_cases hkj : k < j
      · have hlt : k < (u :: tail).length := by
          have := (List.getElem?_eq_some_iff.1 hj).1; omega
        rw [show u :: (tail ++ new) = (u :: tail) ++ new from rfl, List.getElem?_append_left hlt] at hx
        have := hs.done k x y hkj hx hn hy
        simp [this]
      · have : k = j := by omega
        subst this
        have hlt := (List.getElem?_eq_some_iff.1 hj).1
        rw [show u :: (tail ++ new) = (u :: tail) ++ new from rfl, List.getElem?_append_left hlt, hj] at hx
        cases hx
        obtain ⟨l', e', hyl⟩ := hn
        rw [hlr] at e'
        cases e'
        exact a4 y hyl hy

theorem eq_ub_of_stops {α : Type} {r : Res α} (h : Stops r) (h' : ∀ a, r ≠ .ok a) : r = .ub := by
  cases r with
  | ok a => exact absurd rfl (h' a)
  | ub => rfl
  | hang => exact absurd rfl h.1
  | fatal => exact absurd rfl h.2

/-- When the nodes without level hang together, are two or more and node 0 is not one of them, the array for
them overflows. -/
theorem spread_ub {rows : List (List Nat)} (hr : InRange rows) {s : Assign} {p0 p1 : List Int} {depth fuel : Nat}
    (hl : s.level.length = rows.length) (hU : ∀ x, x ∈ s.unmarked ↔ x < rows.length ∧ s.level.getD x 0 = 0)
    (hn : s.unmarked.Nodup) (h2 : 2 ≤ s.unmarked.length) (h0 : s.level.getD 0 0 ≠ 0)
    (hc : ∀ x ∈ s.unmarked, ∀ y ∈ s.unmarked, WalkIn rows (· ∈ s.unmarked) x y) :
    spread (ofRows rows) p0 p1 s.unmarked.length depth (fuel+1) s = .ub := by
  have key : largest (ofRows rows) s.level s.unmarked.length s.unmarked 0 [] = .ub := by
    cases hus : s.unmarked with
    | nil => rw [hus] at h2; simp at h2
    | cons u us =>
      have hum : u ∈ s.unmarked := by rw [hus]; simp
      obtain ⟨hur, hul⟩ := (hU u).1 hum
      have hcon : connect (ofRows rows) s.level s.unmarked.length (s.unmarked.length+1) 0 [u]
          ((List.replicate rows.length false).set 0 true) = .ub := by
        refine eq_ub_of_stops (connect_stops _ _ _ _ _ _ _ (by simp only [List.length_singleton]; omega) (by omega) (Nat.zero_le _)) ?_
        intro c hcc
        obtain ⟨t, e, hlen, hcl⟩ := connect_searched hr hl h0 hur (tail := []) (j := 0)
          { taglen := by simp
            tag := by
              intro x hx
              rw [getD_set (by simp only [List.length_replicate]; omega)]
              by_cases hx0 : 0 = x
              · subst hx0; simp
              · rw [if_neg hx0]; simp [List.getD_eq_getElem?_getD, hx]; omega
            done := by intro k _ _ hk; omega
            range := by simp } (by simp only [List.length_singleton]; omega) hcc
        have hall : ∀ y, WalkIn rows (· ∈ s.unmarked) u y → y ∈ c := by
          intro y hw
          induction hw with
          | here => rw [e]; simp
          | step _ hn hz ih =>
            have := hcl _ _ ih hn ((hU _).1 hz).2
            rw [e]; simp [this]
        obtain ⟨v, hv, hvu⟩ : ∃ v ∈ s.unmarked, v ≠ u := by
          cases us with
          | nil => rw [hus] at h2; simp at h2
          | cons v us =>
            refine ⟨v, by rw [hus]; simp, ?_⟩
            rintro rfl
            rw [hus] at hn
            simp at hn
        have hut : u ∈ t := by
          have hw := hc v hv u hum
          cases hw with
          | here => exact absurd rfl hvu
          | step hw hn hz =>
            rename_i y
            have hy : y ∈ s.unmarked := by
              cases hw with
              | here => exact hv
              | step _ _ h => exact h
            exact hcl y u (hall y (hc u hum y hy)) hn hul
        have hsub : ∀ x ∈ s.unmarked, x ∈ t := by
          intro x hx
          have := hall x (hc u hum x hx)
          rw [e] at this
          rcases List.mem_cons.1 this with rfl | h
          · exact hut
          · exact h
        have := (hn.subperm hsub).length_le
        rw [e, List.length_cons] at hlen
        omega
      rw [show largest (ofRows rows) s.level (u :: us).length (u :: us) 0 [] = (rd s.level u >>= fun l => if l = 0 then
        (wr (List.replicate rows.length false) 0 true >>= fun tag => connect (ofRows rows) s.level (u :: us).length ((u :: us).length+1) 0 [u] tag >>= fun c =>
        largest (ofRows rows) s.level (u :: us).length us 1 (if 0 < c.length then c else [])) else largest (ofRows rows) s.level (u :: us).length us 1 []) from rfl,
        rd_getD 0 (by omega), Res.bind_ok, if_pos hul, wr_ok _ (by simp only [List.length_replicate]; omega), Res.bind_ok, ← hus, hcon,
        Res.bind_ub]
  rw [show spread (ofRows rows) p0 p1 s.unmarked.length depth (fuel+1) s = (largest (ofRows rows) s.level s.unmarked.length s.unmarked 0 [] >>= fun c => _) from rfl,
    key, Res.bind_ub]

end Num
end MSTK
