import Verif.PartRun

/-!
Who owns what, and the links between the mesh and the pieces, while a mesh is partitioned
(PartModel.lean).
-/
namespace MSTK
namespace Prt
open File Copy

variable {D : Type}

/-! ### the loops -/

theorem ofElem_same {G : FMesh D} {K : Nat} (hK : K = 2 ∨ K = 3) {x g : Nat} : OfElem G K x K g ↔ g = x := by
  unfold OfElem
  rcases hK with rfl | rfl
  · rw [if_neg (by omega)]
    unfold OfFace OfEdge
    constructor
    · rintro (h | ⟨_, _, h | h⟩)
      · exact h.2
      · exact absurd h.1 (by omega)
      · exact absurd h.1 (by omega)
    · intro h; exact Or.inl ⟨rfl, h⟩
  · rw [if_pos rfl]
    unfold OfRegion OfFace OfEdge
    constructor
    · rintro (h | ⟨_, _, h | ⟨_, _, h | h⟩⟩)
      · exact h.2
      · exact absurd h.1 (by omega)
      · exact absurd h.1 (by omega)
      · exact absurd h.1 (by omega)
    · intro h; exact Or.inl ⟨rfl, h⟩

/-- what is in the elements of the list, from the `ic`-th on, that are in part `p` -/
def InElems (G : FMesh D) (K : Nat) (part : List Int) (p ic : Nat) (xs : List Nat) (k g : Nat) : Prop :=
  ∃ i x, xs[i]? = some x ∧ part[ic + i]? = some (p : Int) ∧ OfElem G K x k g

theorem elems_run {S : CMesh D} (hS : S.F.Sound)
    (h30 : ∀ f ∈ S.F.fl, (S.F.T.view.edges f).length ≤ 30) (h512 : ∀ r ∈ S.F.rl, (S.F.T.view.faces r).length ≤ 512)
    {K p : Nat} (hK : K = 2 ∨ K = 3) {part : List Int} : ∀ (xs : List Nat) (ic : Nat) (s : PSt D),
    ic + xs.length ≤ part.length → (∀ x ∈ xs, x ∈ S.F.list K) → xs.Nodup → (∀ x ∈ xs, s.found p K x = none) →
    Sub S.F (s.sub p).F (s.found p) →
    ∃ s', elems K S part p ic xs s = .ok s' ∧ Run (claims K p) S.F p (InElems S.F K part p ic xs) s s'
  | [], _, s, _, _, _, _, h => ⟨s, rfl, (Run.none h).congr fun k g => by
      unfold InElems; constructor
      · exact False.elim
      · rintro ⟨i, x, h, _⟩; simp at h⟩
  | x :: xs, ic, s, hlen, hmem, hnd, hno, h => by
    rw [List.length_cons] at hlen
    rw [List.nodup_cons] at hnd
    obtain ⟨q, hq⟩ : ∃ q, part[ic]? = some q := ⟨_, List.getElem?_eq_getElem (by omega)⟩
    have hcons : ∀ k g, InElems S.F K part p ic (x :: xs) k g ↔
        (q = (p : Int) ∧ OfElem S.F K x k g) ∨ InElems S.F K part p (ic+1) xs k g := by
      intro k g
      unfold InElems
      constructor
      · rintro ⟨i, y, h1, h2, h3⟩
        cases i with
        | zero =>
          rw [Nat.add_zero, hq] at h2
          rw [List.getElem?_cons_zero] at h1
          injection h1 with h1; subst h1
          injection h2 with h2
          exact Or.inl ⟨h2, h3⟩
        | succ i =>
          rw [List.getElem?_cons_succ] at h1
          exact Or.inr ⟨i, y, h1, by rw [Nat.add_assoc, Nat.add_comm 1]; exact h2, h3⟩
      · rintro (⟨h1, h2⟩ | ⟨i, y, h1, h2, h3⟩)
        · exact ⟨0, x, rfl, by rw [Nat.add_zero, hq, h1], h2⟩
        · exact ⟨i+1, y, by rw [List.getElem?_cons_succ]; exact h1,
            by rw [Nat.add_assoc, Nat.add_comm 1] at h2; exact h2, h3⟩
    unfold elems
    rw [hq, Res.ofOption_some, Res.bind_ok]
    by_cases hqp : q = (p : Int)
    · rw [if_pos hqp]
      obtain ⟨s1, r1, u1⟩ := newElem_run (cl := claims K p) hS h30 h512 hK h (hmem x (by simp)) (hno x (by simp))
      rw [r1, Res.bind_ok]
      obtain ⟨s2, r2, u2⟩ := elems_run hS h30 h512 hK (part := part) xs (ic+1) s1 (by omega)
        (fun y hy => hmem y (List.mem_cons_of_mem _ hy)) hnd.2
        (fun y hy => by
          by_contra hne
          rcases (u1.dom K y).1 hne with h' | h'
          · exact h' (hno y (List.mem_cons_of_mem _ hy))
          · rw [ofElem_same hK] at h'; subst h'; exact hnd.1 hy) u1.sub
      refine ⟨s2, r2, (u1.trans u2).congr fun k g => ?_⟩
      rw [hcons]; simp [hqp]
    · rw [if_neg hqp, Res.pure_eq, Res.bind_ok]
      obtain ⟨s2, r2, u2⟩ := elems_run hS h30 h512 hK (part := part) xs (ic+1) s (by omega)
        (fun y hy => hmem y (List.mem_cons_of_mem _ hy)) hnd.2
        (fun y hy => hno y (List.mem_cons_of_mem _ hy)) h
      refine ⟨s2, r2, u2.congr fun k g => ?_⟩
      rw [hcons]; simp [hqp]

/-! ### owners and links -/

/-- What is known of owners, global IDs and links when the pieces from `n` on are empty; `P0` are the
data before. -/
structure Owned (K : Nat) (G : FMesh D) (P0 : Nat → Nat → PDat) (n : Nat) (s : PSt D) : Prop where
  later : ∀ q k g, n ≤ q → s.found q k g = none
  untouched : ∀ k g, (∀ q, s.found q k g = none) → s.gp k g = P0 k g
  shared : ∀ k g m, k ≠ K → s.found m k g ≠ none → (∀ q, q < m → s.found q k g = none) → (s.gp k g).master = m + 1
  elem : ∀ g q, s.found q K g ≠ none → ∃ m, s.found m K g ≠ none ∧ (s.gp K g).master = m
  kept : ∀ k g, (s.gp k g).ptype = (P0 k g).ptype ∧ (s.gp k g).onPB = (P0 k g).onPB ∧
    ((P0 k g).gid ≠ 0 → (s.gp k g).gid = (P0 k g).gid)
  pos : ∀ q k g, s.found q k g ≠ none → (s.gp k g).gid ≠ 0
  copy : ∀ q k g l, s.found q k g = some l →
    (s.sub q).par k l = ⟨0, if k = K then q else (s.gp k g).master - 1, (s.gp k g).gid, false⟩
  up : ∀ q k g l, s.l2g q k l = some g ↔ s.found q k g = some l
  lists : ∀ q k g l, (q, l) ∈ s.g2l k g ↔ s.found q k g = some l
  cnt : ∀ k, 1 ≤ s.cnt k
  below : ∀ k, (∀ g ∈ G.list k, (P0 k g).gid = 0) → ∀ q g, s.found q k g ≠ none → (s.gp k g).gid < s.cnt k
  distinct : ∀ k, (∀ g ∈ G.list k, (P0 k g).gid = 0) → ∀ q g q' g', s.found q k g ≠ none → s.found q' k g' ≠ none →
    (s.gp k g).gid = (s.gp k g').gid → g = g'

theorem first_of {P : Nat → Prop} {q : Nat} (h : P q) : ∃ m, m ≤ q ∧ P m ∧ ∀ j, j < m → ¬ P j := by
  induction q using Nat.strong_induction_on with
  | _ q ih =>
    by_cases hex : ∃ j, j < q ∧ P j
    · obtain ⟨j, hj, hp⟩ := hex
      obtain ⟨m, h1, h2⟩ := ih j hj hp
      exact ⟨m, by omega, h2⟩
    · exact ⟨q, le_refl _, h, fun j hj hp => hex ⟨j, hj, hp⟩⟩

theorem Owned.nobody {K : Nat} {G : FMesh D} {P0 : Nat → Nat → PDat} {n : Nat} {s : PSt D} (h : Owned K G P0 n s)
    {k g : Nat} (hk : k ≠ K) (hm : (s.gp k g).master = 0) (q : Nat) : s.found q k g = none := by
  by_contra hne
  obtain ⟨m, _, h1, h2⟩ := first_of (P := fun q => s.found q k g ≠ none) hne
  have := h.shared k g m hk h1 fun j hj => by have := h2 j hj; simpa using this
  omega

/-- The shape of what becomes of the data. -/
structure Fair (K p : Nat) (k : Nat) (d : PDat) (c : Nat) (a : Claim) : Prop where
  ptype : a.glob.ptype = d.ptype
  onPB : a.glob.onPB = d.onPB
  gid : d.gid ≠ 0 → a.glob.gid = d.gid
  next : (a.next = c ∧ (d.gid ≠ 0 ∨ k ≠ K ∧ d.master ≠ 0) ∧ a.glob.gid = d.gid) ∨
    (a.next = c + 1 ∧ d.gid = 0 ∧ (k ≠ K → d.master = 0) ∧ a.glob.gid = c)
  loc : a.loc = ⟨0, if k = K then p else a.glob.master - 1, a.glob.gid, false⟩
  own : k = K → a.glob.master = p
  share : k ≠ K → a.glob.master = if d.master = 0 then p + 1 else d.master

theorem fair_claims {K p k : Nat} (hp : p + 1 < 536870912) (d : PDat) (c : Nat) :
    Fair K p k d c (claims K p k d c) := by
  have e1 : (p + 1) % 536870912 = p + 1 := Nat.mod_eq_of_lt hp
  have e2 : p % 536870912 = p := Nat.mod_eq_of_lt (by omega)
  obtain ⟨pt, ma, gi, ob⟩ := d
  unfold claims
  by_cases hk : k = K
  · rw [if_pos hk]
    unfold own
    by_cases hg : gi = 0
    · subst hg
      simp only [if_true, e2]
      exact ⟨rfl, rfl, fun h => absurd rfl h, Or.inr ⟨rfl, rfl, fun h => absurd hk h, rfl⟩, by simp [hk], fun _ => rfl,
        fun h => absurd hk h⟩
    · simp only [if_neg hg, e2]
      exact ⟨rfl, rfl, fun _ => rfl, Or.inl ⟨rfl, Or.inl hg, rfl⟩, by simp [hk], fun _ => rfl, fun h => absurd hk h⟩
  · rw [if_neg hk]
    unfold share
    by_cases hm : ma = 0
    · subst hm
      simp only [if_true, e1, e2]
      by_cases hg : gi = 0
      · subst hg
        simp only [if_true]
        exact ⟨rfl, rfl, fun h => absurd rfl h, Or.inr ⟨rfl, rfl, fun _ => rfl, rfl⟩, by simp [hk], fun h => absurd h hk,
          fun _ => rfl⟩
      · simp only [if_neg hg]
        exact ⟨rfl, rfl, fun _ => rfl, Or.inl ⟨rfl, Or.inl hg, rfl⟩, by simp [hk], fun h => absurd h hk, fun _ => rfl⟩
    · simp only [if_neg hm]
      exact ⟨rfl, rfl, fun _ => rfl, Or.inl ⟨rfl, Or.inr ⟨hk, hm⟩, rfl⟩, by simp [hk], fun h => absurd h hk,
        fun _ => by simp [hm]⟩

theorem upd2_at {α : Type} {f : Nat → Nat → α} {k g : Nat} {a : α} (k' g' : Nat) :
    upd2 f k g a k' g' = if k' = k ∧ g' = g then a else f k' g' := by
  by_cases hk : k' = k
  · subst hk
    rw [upd2_same]
    by_cases hg : g' = g
    · subst hg; rw [upd_same, if_pos ⟨rfl, rfl⟩]
    · rw [upd_ne _ _ hg, if_neg fun h => hg h.2]
  · rw [upd2_ne _ _ _ hk, if_neg fun h => hk h.1]

theorem found_link_at {cl : Nat → PDat → Nat → Claim} {s : PSt D} {p k g l : Nat} {N : CMesh D}
    (h : s.found p k g = none) (q k' g' : Nat) :
    (s.link cl p k g l N).found q k' g' = if q = p ∧ k' = k ∧ g' = g then some l else s.found q k' g' := by
  by_cases hq : q = p
  · subst hq
    rw [found_link h, upd2_at]
    simp
  · rw [found_link_ne hq, if_neg fun h => hq h.1]

theorem Owned.link {K p : Nat} {G : FMesh D} {P0 : Nat → Nat → PDat} {s : PSt D} (h : Owned K G P0 (p+1) s)
    (hp : p + 1 < 536870912) (h0 : ∀ k, k ≠ K → ∀ g ∈ G.list k, (P0 k g).master = 0)
    {k g l : Nat} {N : CMesh D} (hc : s.found p k g = none) (hg : g ∈ G.list k) (hl : ∀ g', s.found p k g' ≠ some l)
    (hN : N.par = (s.sub p).par) : Owned K G P0 (p+1) (s.link (claims K p) p k g l N) := by
  have hf := fair_claims (K := K) (k := k) hp (s.gp k g) (s.cnt k)
  have hgp : ∀ k' g', (s.link (claims K p) p k g l N).gp k' g' =
      if k' = k ∧ g' = g then (claims K p k (s.gp k g) (s.cnt k)).glob else s.gp k' g' := fun k' g' => upd2_at k' g'
  have hcnt : ∀ k', (s.link (claims K p) p k g l N).cnt k' =
      if k' = k then (claims K p k (s.gp k g) (s.cnt k)).next else s.cnt k' := by
    intro k'
    show upd _ _ _ _ = _
    by_cases hk : k' = k
    · subst hk; rw [upd_same, if_pos rfl]
    · rw [upd_ne _ _ hk, if_neg hk]
  have hfd := fun q k' g' => found_link_at (cl := claims K p) (l := l) (N := N) hc q k' g'
  have hpar : ∀ q k' l', ((s.link (claims K p) p k g l N).sub q).par k' l' =
      if q = p ∧ k' = k ∧ l' = l then (claims K p k (s.gp k g) (s.cnt k)).loc else (s.sub q).par k' l' := by
    intro q k' l'
    unfold PSt.link
    simp only
    by_cases hqp : q = p
    · subst hqp
      rw [upd_same]
      show upd2 _ _ _ _ _ _ = _
      rw [upd2_at, hN]
      simp
    · rw [upd_ne _ _ hqp, if_neg fun h => hqp h.1]
  have hlg : ∀ q k' l', (s.link (claims K p) p k g l N).l2g q k' l' =
      if q = p ∧ k' = k ∧ l' = l then some g else s.l2g q k' l' := by
    intro q k' l'
    unfold PSt.link
    simp only
    by_cases hqp : q = p
    · subst hqp
      rw [upd_same, upd2_at]
      simp
    · rw [upd_ne _ _ hqp, if_neg fun h => hqp h.1]
  generalize claims K p k (s.gp k g) (s.cnt k) = a at hf hgp hcnt hpar
  have hpos : a.glob.gid ≠ 0 := by
    rcases hf.next with ⟨_, h1, h2⟩ | ⟨_, _, _, h2⟩
    · rw [h2]
      rcases h1 with h1 | ⟨hk, hm⟩
      · exact h1
      · by_contra hg0
        -- it has an owner, so it is in a piece
        by_cases hex : ∃ q, s.found q k g ≠ none
        · obtain ⟨q, hq⟩ := hex
          exact h.pos q k g hq hg0
        · have hu := h.untouched k g fun q => by
            by_contra hne; exact hex ⟨q, hne⟩
          rw [hu, h0 k hk g hg] at hm
          exact hm rfl
    · rw [h2]; have := h.cnt k; omega
  have hgid : ∀ q, s.found q k g ≠ none → a.glob.gid = (s.gp k g).gid := fun q hq => hf.gid (h.pos q k g hq)
  constructor
  · intro q k' g' hq
    rw [hfd, if_neg (by omega)]
    exact h.later q k' g' hq
  · intro k' g' hno
    have hne : ¬ (k' = k ∧ g' = g) := by
      rintro ⟨rfl, rfl⟩
      have := hno p
      rw [hfd, if_pos ⟨rfl, rfl, rfl⟩] at this; cases this
    rw [hgp, if_neg hne]
    refine h.untouched k' g' fun q => ?_
    have := hno q
    rwa [hfd, if_neg fun h => hne h.2] at this
  · intro k' g' m hk' hm hq
    rw [hgp]
    by_cases he : k' = k ∧ g' = g
    · obtain ⟨rfl, rfl⟩ := he
      rw [if_pos ⟨rfl, rfl⟩, hf.share hk']
      by_cases hm0 : (s.gp k' g').master = 0
      · rw [if_pos hm0]
        have hno := h.nobody hk' hm0
        rw [hfd] at hm
        by_cases hmp : m = p
        · rw [hmp]
        · rw [if_neg fun h => hmp h.1] at hm
          exact absurd (hno m) hm
      · rw [if_neg hm0]
        -- somebody before has it
        have hex : ∃ q, s.found q k' g' ≠ none := by
          by_contra hno
          have hu := h.untouched k' g' fun q => by by_contra hne; exact hno ⟨q, hne⟩
          rw [hu, h0 k' hk' g' hg] at hm0
          exact hm0 rfl
        obtain ⟨q, hq'⟩ := hex
        obtain ⟨j, _, j1, j2⟩ := first_of (P := fun q => s.found q k' g' ≠ none) hq'
        have hjp : j < p := by
          by_contra hge
          by_cases hjp : j = p
          · subst hjp; exact j1 hc
          · exact j1 (h.later j k' g' (by omega))
        have hs := h.shared k' g' j hk' j1 fun i hi => by have := j2 i hi; simpa using this
        rw [hs]
        have hmj : m = j := by
          rcases Nat.lt_trichotomy m j with h' | h' | h'
          · rw [hfd, if_neg (by omega)] at hm
            exact absurd hm (j2 m h')
          · exact h'
          · have := hq j h'
            rw [hfd, if_neg (by omega)] at this
            exact absurd this j1
        rw [hmj]
    · rw [if_neg he]
      rw [hfd, if_neg fun h => he h.2] at hm
      refine h.shared k' g' m hk' hm fun q hq' => ?_
      have := hq q hq'
      rwa [hfd, if_neg fun h => he h.2] at this
  · intro g' q hq
    rw [hgp]
    by_cases he : K = k ∧ g' = g
    · obtain ⟨rfl, rfl⟩ := he
      rw [if_pos ⟨rfl, rfl⟩]
      exact ⟨p, by rw [hfd, if_pos ⟨rfl, rfl, rfl⟩]; simp, hf.own rfl⟩
    · rw [if_neg he]
      rw [hfd, if_neg fun h => he h.2] at hq
      obtain ⟨m, h1, h2⟩ := h.elem g' q hq
      exact ⟨m, by rw [hfd, if_neg fun h => he h.2]; exact h1, h2⟩
  · intro k' g'
    rw [hgp]
    by_cases he : k' = k ∧ g' = g
    · obtain ⟨rfl, rfl⟩ := he
      rw [if_pos ⟨rfl, rfl⟩, hf.ptype, hf.onPB]
      obtain ⟨h1, h2, h3⟩ := h.kept k' g'
      exact ⟨h1, h2, fun hne => by rw [hf.gid (by rw [h3 hne]; exact hne), h3 hne]⟩
    · rw [if_neg he]; exact h.kept k' g'
  · intro q k' g' hq
    rw [hgp]
    by_cases he : k' = k ∧ g' = g
    · rw [if_pos he]; exact hpos
    · rw [if_neg he]
      rw [hfd, if_neg fun h => he h.2] at hq
      exact h.pos q k' g' hq
  · intro q k' g' l' hq
    rw [hfd] at hq
    by_cases he : k' = k ∧ g' = g
    · obtain ⟨rfl, rfl⟩ := he
      have e := hgp k' g'
      rw [if_pos ⟨rfl, rfl⟩] at e
      rw [e, hpar]
      by_cases hqp : q = p
      · subst hqp
        rw [if_pos ⟨rfl, rfl, rfl⟩] at hq
        injection hq with hq; subst hq
        rw [if_pos ⟨rfl, rfl, rfl⟩, hf.loc]
      · rw [if_neg fun h => hqp h.1] at hq
        rw [if_neg fun h => hqp h.1, h.copy q k' g' l' hq, hgid q (by rw [hq]; simp)]
        by_cases hk : k' = K
        · rw [if_pos hk, if_pos hk]
        · rw [if_neg hk, if_neg hk, hf.share hk, if_neg]
          intro hm0
          rw [h.nobody hk hm0 q] at hq; cases hq
    · rw [if_neg fun h => he h.2] at hq
      have e := hgp k' g'
      rw [if_neg he] at e
      rw [e, hpar, if_neg]
      · exact h.copy q k' g' l' hq
      · rintro ⟨rfl, rfl, rfl⟩
        exact hl g' hq
  · intro q k' g' l'
    rw [hfd, hlg]
    by_cases hqp : q = p
    · subst hqp
      have hup := h.up q
      by_cases hk : k' = k
      · subst hk
        by_cases hl' : l' = l
        · subst hl'
          rw [if_pos ⟨rfl, rfl, rfl⟩]
          by_cases he : g' = g
          · subst he; simp
          · rw [if_neg fun h => he h.2.2]
            constructor
            · intro h'; injection h' with h'; exact absurd h'.symm he
            · intro h'; exact absurd h' (hl g')
        · rw [if_neg fun h => hl' h.2.2, hup]
          by_cases he : g' = g
          · subst he
            rw [if_pos ⟨rfl, rfl, rfl⟩, hc]
            simp [Ne.symm hl']
          · rw [if_neg fun h => he h.2.2]
      · rw [if_neg fun h => hk h.2.1, if_neg fun h => hk h.2.1]; exact hup k' g' l'
    · rw [if_neg fun h => hqp h.1, if_neg fun h => hqp h.1]
      exact h.up q k' g' l'
  · intro q k' g' l'
    rw [hfd]
    show _ ∈ upd2 _ _ _ _ _ _ ↔ _
    rw [upd2_at]
    by_cases he : k' = k ∧ g' = g
    · obtain ⟨rfl, rfl⟩ := he
      rw [if_pos ⟨rfl, rfl⟩, List.mem_append, List.mem_singleton, h.lists]
      by_cases hqp : q = p
      · subst hqp
        rw [if_pos ⟨rfl, rfl, rfl⟩, hc]
        simp [eq_comm]
      · rw [if_neg fun h => hqp h.1]
        simp [hqp]
    · rw [if_neg he, if_neg fun h => he h.2]
      exact h.lists q k' g' l'
  · intro k'
    rw [hcnt]
    by_cases hk : k' = k
    · rw [if_pos hk]
      have := h.cnt k
      rcases hf.next with ⟨h1, _⟩ | ⟨h1, _⟩ <;> omega
    · rw [if_neg hk]; exact h.cnt k'
  · intro k' hz q g' hq
    rw [hgp, hcnt]
    rw [hfd] at hq
    by_cases hk : k' = k
    · subst hk
      rw [if_pos rfl]
      have hnx : s.cnt k' ≤ a.next := by rcases hf.next with ⟨h1, _⟩ | ⟨h1, _⟩ <;> omega
      by_cases he : g' = g
      · subst he
        rw [if_pos ⟨rfl, rfl⟩]
        rcases hf.next with ⟨h1, h2, h3⟩ | ⟨h1, _, _, h3⟩
        · rw [h1, h3]
          by_cases hex : ∃ q, s.found q k' g' ≠ none
          · obtain ⟨q, hq⟩ := hex
            exact h.below k' hz q g' hq
          · exfalso
            have hu := h.untouched k' g' fun q => by by_contra hne; exact hex ⟨q, hne⟩
            rw [h3, hu] at hpos
            exact hpos (hz g' hg)
        · rw [h1, h3]; omega
      · rw [if_neg fun h => he h.2]
        rw [if_neg fun h => he h.2.2] at hq
        have := h.below k' hz q g' hq
        omega
    · rw [if_neg fun h => hk h.1, if_neg hk]
      rw [if_neg fun h => hk h.2.1] at hq
      exact h.below k' hz q g' hq
  · intro k' hz q g1 q' g2 hq1 hq2
    rw [hgp, hgp]
    rw [hfd] at hq1 hq2
    by_cases hk : k' = k
    · subst hk
      -- what `g` has now differs from what the others have
      have key : ∀ q g', g' ≠ g → s.found q k' g' ≠ none → a.glob.gid ≠ (s.gp k' g').gid := by
        intro q g' hne hq heq
        rcases hf.next with ⟨h1, h2, h3⟩ | ⟨h1, _, _, h3⟩
        · by_cases hex : ∃ q, s.found q k' g ≠ none
          · obtain ⟨j, hj⟩ := hex
            rw [h3] at heq
            exact hne (h.distinct k' hz j g q g' hj hq heq).symm
          · have hu := h.untouched k' g fun q => by by_contra hne; exact hex ⟨q, hne⟩
            rw [h3, hu] at hpos
            exact hpos (hz g hg)
        · have := h.below k' hz q g' hq
          omega
      by_cases e1 : g1 = g
      · by_cases e2 : g2 = g
        · intro _; rw [e1, e2]
        · rw [if_pos ⟨rfl, e1⟩, if_neg fun h => e2 h.2]
          rw [if_neg fun h => e2 h.2.2] at hq2
          exact fun h => absurd h (key q' g2 e2 hq2)
      · rw [if_neg fun h => e1 h.2.2] at hq1
        by_cases e2 : g2 = g
        · rw [if_neg fun h => e1 h.2, if_pos ⟨rfl, e2⟩]
          exact fun h => absurd h.symm (key q g1 e1 hq1)
        · rw [if_neg fun h => e1 h.2, if_neg fun h => e2 h.2]
          rw [if_neg fun h => e2 h.2.2] at hq2
          exact h.distinct k' hz q g1 q' g2 hq1 hq2
    · rw [if_neg fun h => hk h.1, if_neg fun h => hk h.1]
      rw [if_neg fun h => hk h.2.1] at hq1 hq2
      exact h.distinct k' hz q g1 q' g2 hq1 hq2

theorem Owned.later_le {K : Nat} {G : FMesh D} {P0 : Nat → Nat → PDat} {n m : Nat} {s : PSt D} (h : Owned K G P0 n s)
    (hnm : n ≤ m) : Owned K G P0 m s :=
  { h with later := fun q k g hq => h.later q k g (by omega) }

/-! ### the parts -/

/-- What the parts before `n` give. -/
structure Done (K : Nat) (S : CMesh D) (part : List Int) (n : Nat) (s : PSt D) : Prop where
  sub : ∀ q, Sub S.F (s.sub q).F (s.found q)
  dom : ∀ q k g, q < n → (s.found q k g ≠ none ↔ InElems S.F K part q 0 (S.F.list K) k g)
  owned : Owned K S.F S.par n s

theorem parts_run {S : CMesh D} (hS : S.F.Sound)
    (h30 : ∀ f ∈ S.F.fl, (S.F.T.view.edges f).length ≤ 30) (h512 : ∀ r ∈ S.F.rl, (S.F.T.view.faces r).length ≤ 512)
    {K : Nat} (hK : K = 2 ∨ K = 3) {part : List Int} (hlen : (S.F.list K).length ≤ part.length)
    (h0 : ∀ k, k ≠ K → ∀ g ∈ S.F.list k, (S.par k g).master = 0) : ∀ (n p : Nat) (s : PSt D),
    p + n < 536870912 → Done K S part p s → ∃ s', parts K S part n p s = .ok s' ∧ Done K S part (p + n) s'
  | 0, p, s, _, h => ⟨s, rfl, h⟩
  | n+1, p, s, hn, h => by
    obtain ⟨s1, r1, u1⟩ := elems_run hS h30 h512 hK (p := p) (part := part) (S.F.list K) 0 s (by omega)
      (fun x hx => hx) (hS.nodup K) (fun x _ => h.owned.later p K x (le_refl _)) (h.sub p)
    have hd : Done K S part (p+1) s1 := by
      refine ⟨fun q => ?_, fun q k g hq => ?_, ?_⟩
      · by_cases hqp : q = p
        · subst hqp; exact u1.sub
        · obtain ⟨e1, e2, _⟩ := u1.links.others hqp
          rw [e1, e2]; exact h.sub q
      · by_cases hqp : q = p
        · subst hqp
          rw [u1.dom, h.owned.later q k g (le_refl _)]
          simp
        · rw [(u1.links.others hqp).1]
          exact h.dom q k g (by omega)
      · exact u1.links.keeps (P := Owned K S.F S.par (p+1))
          (fun t k g l N ht hc hg hl hp => ht.link (by omega) h0 hc hg hl hp) (h.owned.later_le (by omega))
    unfold parts
    rw [r1, Res.bind_ok]
    obtain ⟨s2, r2, d2⟩ := parts_run hS h30 h512 hK hlen h0 n (p+1) s1 (by omega) hd
    exact ⟨s2, r2, by rw [show p + (n+1) = p + 1 + n by omega]; exact d2⟩

end Prt
end MSTK
