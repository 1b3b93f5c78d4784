import Verif.UpdateModel
import Verif.Props.Exchange

/-!
C34: after an update of an attribute, ghosts carry the value of their owner.
-/
namespace MSTK.Par

variable {D : Type}

/-! ### specification -/

/-- the entities of one partition that take part -/
structure Side (D : Type) where
  ov : List (Ov D)
  gh : List (Gh D)

/-- A value that fits an attribute with `ncomp` components; `arr` tells whether it is a VECTOR or
TENSOR attribute. -/
def Fits (arr : Bool) (ncomp : Nat) : Value D → Prop
  | .num _ => arr = false ∧ ncomp = 1
  | .arr (some l) => arr = true ∧ l.length = ncomp ∧ 2 ≤ ncomp
  | .arr none => False

/-- a value all of whose numbers are zero -/
def Value.zero (isZero : D → Bool) : Value D → Bool
  | .num x => isZero x
  | .arr (some l) => l.all isZero
  | .arr none => true

/-- the kind of attribute -/
def Value.isArr : Value D → Bool
  | .num _ => false
  | .arr _ => true

/-- Overlap entities are sorted by global ID (MESH_Sort_GhostLists), each ghost's owner is another
partition and has the entity as overlap entity, and all values are of the attribute's kind. -/
structure Layout (n : Nat) (side : Nat → Side D) (arr : Bool) (ncomp : Nat) : Prop where
  sorted : ∀ p, p < n → ((side p).ov.map (·.gid)).Pairwise (· < ·)
  owner : ∀ q, q < n → ∀ g ∈ (side q).gh, g.master ≠ q ∧ g.master < n ∧ ∃ o ∈ (side g.master).ov, o.gid = g.gid
  fits : ∀ p, p < n → ∀ o ∈ (side p).ov, Fits arr ncomp o.val
  kind : ∀ q, q < n → ∀ g ∈ (side q).gh, g.val.isArr = arr

/-! ### arrays -/

theorem recvAt_ok {α : Type} {a : List (Option α)} {pos cap : Nat} {m : List α} (h1 : m.length ≤ cap)
    (h2 : pos + m.length ≤ a.length) : ∃ a', recvAt a pos cap m = .ok a' ∧ a'.length = a.length ∧
    (∀ j, j < m.length → a'[pos + j]? = (m[j]?).map some) ∧
    (∀ i, i < pos ∨ pos + m.length ≤ i → a'[i]? = a[i]?) := by
  refine ⟨_, by unfold recvAt; rw [if_pos ⟨h1, h2⟩], ?_, ?_, ?_⟩
  · simp; omega
  · intro j hj
    rw [List.getElem?_append_left (by simp; omega), List.getElem?_append_right (by simp; omega)]
    simp only [List.length_take, List.getElem?_map]
    rw [Nat.min_eq_left (by omega), Nat.add_sub_cancel_left]
  · intro i hi
    rcases hi with hi | hi
    · rw [List.append_assoc, List.getElem?_append_left (by simp; omega), List.getElem?_take, if_pos hi]
    · rw [List.getElem?_append_right (by simp; omega)]
      simp only [List.length_append, List.length_take, List.length_map, List.getElem?_drop]
      congr 1
      omega

theorem posOf_some {size : Nat → Nat} {p : Nat} : ∀ {l : List Nat} {acc : Nat}, p ∈ l →
    ∃ a, posOf size p l acc = some a ∧ acc ≤ a ∧ a + size p ≤ acc + (l.map size).sum := by
  intro l
  induction l with
  | nil => intro acc h; cases h
  | cons q r ih =>
    intro acc h
    by_cases hq : q = p
    · refine ⟨acc, by unfold posOf; rw [if_pos hq], Nat.le_refl _, ?_⟩
      simp [hq]
    · obtain ⟨a, h1, h2, h3⟩ := ih (acc := acc + size q) ((List.mem_cons.1 h).resolve_left (fun e => hq e.symm))
      refine ⟨a, by unfold posOf; rw [if_neg hq, h1], by omega, ?_⟩
      simp; omega

theorem posOf_disjoint {size : Nat → Nat} {p q : Nat} (hpq : p ≠ q) : ∀ {l : List Nat} {acc a b : Nat},
    posOf size p l acc = some a → posOf size q l acc = some b → a + size p ≤ b ∨ b + size q ≤ a := by
  intro l
  induction l with
  | nil => intro acc a b h; cases h
  | cons x r ih =>
    intro acc a b h1 h2
    have mem : ∀ {y c acc'}, posOf size y r acc' = some c → acc' ≤ c := by
      intro y c acc' h
      clear ih h1 h2
      induction r generalizing acc' with
      | nil => cases h
      | cons z r ih =>
        unfold posOf at h
        split at h
        · injection h with h; omega
        · have := ih h; omega
    unfold posOf at h1 h2
    by_cases hx : x = p
    · subst hx
      rw [if_pos rfl] at h1
      rw [if_neg hpq] at h2
      injection h1 with h1
      have := mem h2
      omega
    · rw [if_neg hx] at h1
      by_cases hy : x = q
      · subst hy
        rw [if_pos rfl] at h2
        injection h2 with h2
        have := mem h1
        omega
      · rw [if_neg hy] at h2
        exact ih h1 h2

/-- what the buffers hold after the receives -/
structure Holds (ncomp : Nat) (size : Nat → Nat) (procs : List Nat) (L : Nat → List Int) (V : Nat → List D)
    (b : Bufs D) (i : Nat) : Prop where
  ids : ∀ pos, posOf size i procs 0 = some pos → ∀ j, j < size i → b.ids[pos + j]? = ((L i)[j]?).map some
  vals : ∀ pos, posOf size i procs 0 = some pos → ∀ j, j < size i * ncomp →
    b.vals[pos * ncomp + j]? = ((V i)[j]?).map some

theorem recvAll_ok {n ncomp : Nat} {plan : Plan (Msg D)} {me : Nat} {procs : List Nat}
    {got : Nat → List (Msg D)} {L : Nat → List Int} {V : Nat → List D}
    (hcond : ∀ i, i < n → i ≠ me ∧ plan.ghosts i = true ∧ plan.recvSize i ≠ 0 →
      i ∈ procs ∧ got i = [.ids (L i), .vals (V i)] ∧ (L i).length = plan.recvSize i ∧
      (V i).length = plan.recvSize i * ncomp) :
    ∀ (is : List Nat) (b : Bufs D), is.Nodup → (∀ i ∈ is, i < n) →
      b.ids.length = (procs.map plan.recvSize).sum → b.vals.length = (procs.map plan.recvSize).sum * ncomp →
      ∃ b', recvAll ncomp plan me procs got is b = .ok b' ∧
        (∀ i, Holds ncomp plan.recvSize procs L V b i → i ∉ is → Holds ncomp plan.recvSize procs L V b' i) ∧
        (∀ i ∈ is, i ≠ me ∧ plan.ghosts i = true ∧ plan.recvSize i ≠ 0 → Holds ncomp plan.recvSize procs L V b' i) := by
  intro is
  induction is with
  | nil => intro b _ _ _ _; exact ⟨b, rfl, fun _ h _ => h, fun _ h => by cases h⟩
  | cons i r ih =>
    intro b hn hin hl1 hl2
    obtain ⟨hi, hn'⟩ := List.nodup_cons.1 hn
    rw [show recvAll ncomp plan me procs got (i :: r) b =
      if i ≠ me ∧ plan.ghosts i = true ∧ plan.recvSize i ≠ 0 then
        (recvFrom ncomp plan.recvSize procs i (got i) b >>= fun b => recvAll ncomp plan me procs got r b)
      else recvAll ncomp plan me procs got r b from rfl]
    by_cases hc : i ≠ me ∧ plan.ghosts i = true ∧ plan.recvSize i ≠ 0
    · rw [if_pos hc]
      obtain ⟨hm, hg, hL, hV⟩ := hcond i (hin i List.mem_cons_self) hc
      obtain ⟨pos, hp, -, hp2⟩ := posOf_some (size := plan.recvSize) (acc := 0) hm
      rw [Nat.zero_add] at hp2
      have hmul : pos * ncomp + plan.recvSize i * ncomp ≤ (procs.map plan.recvSize).sum * ncomp := by
        rw [← Nat.add_mul]; exact Nat.mul_le_mul_right _ hp2
      obtain ⟨a1, h1, h2, h3, h4⟩ := recvAt_ok (a := b.ids) (pos := pos) (cap := plan.recvSize i) (m := L i)
        (by omega) (by omega)
      obtain ⟨a2, k1, k2, k3, k4⟩ := recvAt_ok (a := b.vals) (pos := pos * ncomp) (cap := (L i).length * ncomp)
        (m := V i) (by rw [hV, hL]; exact Nat.le_refl _) (by rw [hV, hl2]; exact hmul)
      obtain ⟨b', e1, e2, e3⟩ := ih ⟨a1, a2⟩ hn' (fun i hi => hin i (List.mem_cons_of_mem _ hi)) (by dsimp only; omega) (by dsimp only; omega)
      have hself : Holds ncomp plan.recvSize procs L V ⟨a1, a2⟩ i := by
        constructor
        · intro pos' hp' j hj
          rw [hp] at hp'; injection hp' with hp'; subst hp'
          exact h3 j (by omega)
        · intro pos' hp' j hj
          rw [hp] at hp'; injection hp' with hp'; subst hp'
          exact k3 j (by omega)
      refine ⟨b', ?_, ?_, ?_⟩
      · unfold recvFrom
        rw [hp, hg]
        dsimp only
        rw [h1, Res.bind_ok, k1, Res.bind_ok]
        exact e1
      · intro i' hh hi'
        have hne : i' ≠ i := fun e => hi' (by rw [e]; exact List.mem_cons_self)
        refine e2 i' ⟨?_, ?_⟩ (fun h => hi' (List.mem_cons_of_mem _ h))
        · intro pos' hp' j hj
          dsimp only
          rw [h4 _ ?_]
          · exact hh.ids pos' hp' j hj
          · rcases posOf_disjoint hne hp' hp with h | h <;> omega
        · intro pos' hp' j hj
          dsimp only
          rw [k4 _ ?_]
          · exact hh.vals pos' hp' j hj
          · rw [hV]
            rcases posOf_disjoint hne hp' hp with h | h
            · left
              have := Nat.mul_le_mul_right ncomp h
              rw [Nat.add_mul] at this
              omega
            · right
              have := Nat.mul_le_mul_right ncomp h
              rw [Nat.add_mul] at this
              omega
      · intro i' hi' hc'
        rcases List.mem_cons.1 hi' with rfl | hr
        · exact e2 _ hself hi
        · exact e3 i' hr hc'
    · rw [if_neg hc]
      obtain ⟨b', e1, e2, e3⟩ := ih b hn' (fun i hi => hin i (List.mem_cons_of_mem _ hi)) hl1 hl2
      refine ⟨b', e1, fun i' hh hi' => e2 i' hh (fun h => hi' (List.mem_cons_of_mem _ h)), ?_⟩
      intro i' hi' hc'
      rcases List.mem_cons.1 hi' with rfl | hr
      · exact absurd hc' hc
      · exact e3 i' hr hc'

theorem bsearchAt_ok {a : List (Option Int)} {base : Nat} {L : List Int} (hs : L.Pairwise (· < ·))
    (ha : ∀ j, j < L.length → a[base + j]? = (L[j]?).map some) {key : Int} {t : Nat} (ht : L[t]? = some key) :
    ∀ d l u, u - l = d → base ≤ l → l ≤ base + t → base + t < u → u ≤ base + L.length →
      bsearchAt a key l u = .ok (some (base + t)) := by
  intro d
  induction d using Nat.strongRecOn with
  | _ d ih =>
    intro l u hd hl hlt htu hu
    unfold bsearchAt
    rw [dif_pos (by omega)]
    obtain ⟨m, hm⟩ : ∃ m, (l + u) / 2 = base + m := ⟨(l + u) / 2 - base, by omega⟩
    rw [hm]
    have hml : m < L.length := by omega
    rw [ha m hml, List.getElem?_eq_getElem hml]
    dsimp only [Option.map_some]
    obtain ⟨htl, htk⟩ := List.getElem?_eq_some_iff.1 ht
    have cmp : ∀ {i j : Nat} (hi : i < L.length) (hj : j < L.length), i < j → L[i] < L[j] :=
      fun hi hj hij => List.pairwise_iff_getElem.1 hs _ _ hi hj hij
    rcases Nat.lt_trichotomy t m with h | h | h
    · have := cmp htl hml h
      rw [if_pos (by omega)]
      exact ih _ (by omega) l (base + m) rfl hl hlt (by omega) (by omega)
    · subst h
      rw [if_neg (by omega), if_neg (by omega)]
    · have := cmp hml htl h
      rw [if_neg (by omega), if_pos (by omega)]
      exact ih _ (by omega) (base + m + 1) u rfl (by omega) (by omega) htu hu

theorem readAt_ok {a : List (Option D)} : ∀ {n i : Nat} {x : List D}, x.length = n →
    (∀ j, j < n → a[i + j]? = (x[j]?).map some) → readAt a i n = .ok x := by
  intro n
  induction n with
  | zero => intro i x hx _; rw [List.length_eq_zero_iff.1 hx]; rfl
  | succ n ih =>
    intro i x hx ha
    cases x with
    | nil => cases hx
    | cons y x =>
      have h0 := ha 0 (by omega)
      rw [Nat.add_zero] at h0
      unfold readAt
      rw [h0]
      dsimp only [List.getElem?_cons_zero, Option.map_some]
      rw [ih (x := x) (by simpa using hx) (fun j hj => by
        have := ha (j+1) (by omega)
        rw [show i + 1 + j = i + (j + 1) from by omega, this, List.getElem?_cons_succ])]
      rfl

/-! ### values -/

theorem collect_fits {zero : D} {arr : Bool} {ncomp : Nat} {v : Value D} (h : Fits arr ncomp v) :
    ∃ x, collect zero ncomp v = .ok x ∧ x.length = ncomp ∧
      (v = .arr (some x) ∧ 2 ≤ ncomp ∨ ∃ y, v = .num y ∧ x = [y]) := by
  unfold Fits at h
  split at h
  · refine ⟨_, rfl, h.2.symm, Or.inr ⟨_, rfl, rfl⟩⟩
  · obtain ⟨-, h1, h2⟩ := h
    refine ⟨_, ?_, h1, Or.inl ⟨rfl, h2⟩⟩
    unfold collect
    dsimp only
    rw [if_neg (by omega), if_neg (by omega), ← h1, List.take_length]
  · exact h.elim

theorem collectAll_fits {zero : D} {arr : Bool} {ncomp : Nat} : ∀ {l : List (Ov D)}, (∀ o ∈ l, Fits arr ncomp o.val) →
    ∃ V, collectAll zero ncomp l = .ok V ∧ V.length = l.length * ncomp ∧
      ∀ (t : Nat) o, l[t]? = some o → ∃ x, collect zero ncomp o.val = .ok x ∧ x.length = ncomp ∧
        ∀ j, j < ncomp → V[t * ncomp + j]? = x[j]? := by
  intro l
  induction l with
  | nil => intro _; exact ⟨[], rfl, by simp, fun t o h => by simp at h⟩
  | cons o l ih =>
    intro h
    obtain ⟨V, h1, h2, h3⟩ := ih (fun o ho => h o (List.mem_cons_of_mem _ ho))
    obtain ⟨x, k1, k2, -⟩ := collect_fits (zero := zero) (h o List.mem_cons_self)
    refine ⟨x ++ V, ?_, ?_, ?_⟩
    · unfold collectAll
      rw [k1, Res.bind_ok, h1]
      rfl
    · rw [List.length_append, List.length_cons, Nat.add_mul, k2, h2]; omega
    · intro t o' ht
      cases t with
      | zero =>
        rw [List.getElem?_cons_zero] at ht
        injection ht with ht
        subst ht
        refine ⟨x, k1, k2, fun j hj => ?_⟩
        rw [Nat.zero_mul, Nat.zero_add, List.getElem?_append_left (by omega)]
      | succ t =>
        rw [List.getElem?_cons_succ] at ht
        obtain ⟨x', l1, l2, l3⟩ := h3 t o' ht
        refine ⟨x', l1, l2, fun j hj => ?_⟩
        rw [List.getElem?_append_right (by rw [k2, Nat.add_mul]; omega), k2, ← l3 j hj]
        congr 1
        rw [Nat.add_mul]; omega

theorem store_spec {zero : D} {isZero : D → Bool} {arr : Bool} {ncomp : Nat} {v old : Value D} {x : List D}
    (hf : Fits arr ncomp v) (hk : old.isArr = arr) (hc : collect zero ncomp v = .ok x) :
    store isZero ncomp old x = if v.zero isZero then old else v := by
  obtain ⟨x', h1, h2, h3⟩ := collect_fits (zero := zero) hf
  rw [hc] at h1; injection h1 with h1; subst h1
  rcases h3 with ⟨rfl, h4⟩ | ⟨y, rfl, rfl⟩
  · cases old with
    | num z =>
      exfalso
      have h5 : arr = true := hf.1
      rw [h5] at hk
      exact Bool.noConfusion hk
    | arr p =>
      unfold store Value.zero
      dsimp only
      rw [if_neg (by omega)]
  · cases old with
    | num z => rfl
    | arr p =>
      exfalso
      have h5 : arr = false := hf.1
      rw [h5] at hk
      exact Bool.noConfusion hk

/-! ### the property -/

/-- **C34** (partial: values that are zero are not passed on; see the negations).  When all partitions
have returned from the exchange, in whichever way it was scheduled, each ghost has the value its owner
has for the entity, unless that value is zero; then the ghost keeps the value it had. -/
theorem C34_update_partial {rs : List Rank} (h : Partitions rs) {out : List Info} (ho : updateParAdj rs = .ok out)
    {k : Nat} (hk : k < 4) {side : Nat → Side D} {arr : Bool} {ncomp : Nat} (zero : D) (isZero : D → Bool)
    (hlay : Layout rs.length side arr ncomp)
    -- `side` describes the entities of type `k` of the partitions `rs`
    (hside : ∀ (p : Nat) (r : Rank), rs[p]? = some r →
      r.masters k = (side p).gh.map (·.master) ∧ r.ovNum k = (side p).ov.length) :
    -- collecting the values succeeds on all partitions
    ∃ V : Nat → List D, (∀ p, p < rs.length → collectAll zero ncomp (side p).ov = .ok (V p)) ∧
    ∀ plan : Nat → Plan (Msg D),
      (∀ (p : Nat) (s : Info), out[p]? = some s →
        plan p = planOf s k (side p).ov.length (.ids ((side p).ov.map (·.gid))) (.vals (V p))) →
    ∀ (steps : Nat) (net : Net (Msg D)), Exec steps (Net.start rs.length plan) net → net.done →
    ∀ (q : Nat) (s : Info), out[q]? = some s → ∃ procs, ghostPrtns s = .ok procs ∧
    ∃ gh', finish isZero ncomp (plan q) rs.length q procs (net.got q) (side q).gh = .ok gh' ∧
      gh'.length = (side q).gh.length ∧
      ∀ (j : Nat) (g : Gh D), (side q).gh[j]? = some g → ∃ o ∈ (side g.master).ov, o.gid = g.gid ∧
        gh'[j]? = some ⟨g.gid, g.master, if o.val.zero isZero then g.val else o.val⟩ := by
  have hV : ∀ p : Fin rs.length, ∃ V, collectAll zero ncomp (side p).ov = .ok V ∧
      V.length = (side p).ov.length * ncomp ∧
      ∀ (t : Nat) o, (side p).ov[t]? = some o → ∃ x, collect zero ncomp o.val = .ok x ∧ x.length = ncomp ∧
        ∀ j, j < ncomp → V[t * ncomp + j]? = x[j]? :=
    fun p => collectAll_fits (hlay.fits p p.isLt)
  choose V0 hV1 hV2 hV3 using hV
  refine ⟨fun p => if hp : p < rs.length then V0 ⟨p, hp⟩ else [], ?_, ?_⟩
  · intro p hp
    dsimp only
    rw [dif_pos hp]
    exact hV1 ⟨p, hp⟩
  generalize hVd : (fun p => if hp : p < rs.length then V0 ⟨p, hp⟩ else []) = V
  have hVeq : ∀ p : Fin rs.length, V p.val = V0 p := by
    intro p
    rw [← hVd]
    simp
  intro plan hplan steps net hex hdone q sq hsq
  obtain ⟨out', ho', hlen, hprocs, hall⟩ := C32_partitions_agree h
  have : out' = out := by
    have := ho'.symm.trans ho
    injection this
  subst this
  have hmat : Matched rs.length plan := by
    refine C33_plans_match h ho hk plan ?_
    intro p r s hr hs
    rw [(hside p r hr).2]
    exact ⟨_, _, hplan p s hs⟩
  obtain ⟨procs, hp1, hp2, hp3⟩ := hprocs q sq hsq
  refine ⟨procs, hp1, ?_⟩
  have hqn : q < rs.length := by
    have := (List.getElem?_eq_some_iff.1 hsq).1
    omega
  have hrq := List.getElem?_eq_getElem hqn
  have hfin := (C33_no_deadlock hmat hex).2.2 hdone
  have hpq := hplan q sq hsq
  have hcond : ∀ i, i < rs.length → i ≠ q ∧ (plan q).ghosts i = true ∧ (plan q).recvSize i ≠ 0 →
      i ∈ procs ∧ net.got q i = [.ids ((side i).ov.map (·.gid)), .vals (V i)] ∧
      ((side i).ov.map (·.gid)).length = (plan q).recvSize i ∧ (V i).length = (plan q).recvSize i * ncomp := by
    rintro i hin ⟨hne, hg, hsz⟩
    have hri := List.getElem?_eq_getElem hin
    have hsi := List.getElem?_eq_getElem (l := out') (i := i) (by omega)
    obtain ⟨h1, h2, h3⟩ := hall i q _ _ _ _ hri hrq hsi hsq k hk
    have hrec : Receives sq i k := by
      rw [hpq] at hg
      have := of_decide_eq_true hg
      exact this
    have hsize : (plan q).recvSize i = (side i).ov.length := by
      rw [hpq]
      unfold planOf
      dsimp only
      rw [h3 hrec, (hside i _ hri).2]
    refine ⟨(hp3 i).2 ⟨hin, k, hk, hrec⟩, ?_, by rw [hsize, List.length_map], ?_⟩
    · rw [(hfin i q hin hqn hne).1]
      have hsend := (hmat i q hin hqn hne).2 ⟨hg, hsz⟩
      unfold messages
      rw [if_pos (by rw [hsend.1, decide_eq_true hsend.2]; rfl), hplan i _ hsi]
      rfl
    · rw [hsize, hVeq ⟨i, hin⟩]
      exact hV2 ⟨i, hin⟩
  obtain ⟨b, hb1, -, hb3⟩ := recvAll_ok (n := rs.length) (got := net.got q) hcond (List.range rs.length)
    ⟨List.replicate ((procs.map (plan q).recvSize).sum) none,
     List.replicate ((procs.map (plan q).recvSize).sum * ncomp) none⟩ List.nodup_range
    (fun i hi => List.mem_range.1 hi) (by simp) (by simp)
  -- one ghost
  have hone : ∀ g ∈ (side q).gh, ∃ o ∈ (side g.master).ov, o.gid = g.gid ∧
      updateGhost isZero ncomp (plan q).recvSize procs b g =
        .ok ⟨g.gid, g.master, if o.val.zero isZero then g.val else o.val⟩ := by
    intro g hg
    obtain ⟨hne, hmn, o, hom, hoid⟩ := hlay.owner q hqn g hg
    refine ⟨o, hom, hoid, ?_⟩
    have hri := List.getElem?_eq_getElem hmn
    have hsi := List.getElem?_eq_getElem (l := out') (i := g.master) (by omega)
    obtain ⟨h1, h2, h3⟩ := hall g.master q _ _ _ _ hri hrq hsi hsq k hk
    have hrec : Receives sq g.master k := h2.2 (Or.inr ⟨hne, by
      rw [(hside q _ hrq).1]; exact List.mem_map_of_mem hg⟩)
    have hsize : (plan q).recvSize g.master = (side g.master).ov.length := by
      rw [hpq]
      unfold planOf
      dsimp only
      rw [h3 hrec, (hside _ _ hri).2]
    have hpos : (plan q).recvSize g.master ≠ 0 := by
      rw [hsize]
      intro hc
      rw [List.length_eq_zero_iff.1 hc] at hom
      cases hom
    have hgh : (plan q).ghosts g.master = true := by
      rw [hpq]
      unfold planOf
      dsimp only
      unfold Receives at hrec
      rw [hrec]
      rfl
    have hc := hcond g.master hmn ⟨hne, hgh, hpos⟩
    have hh := hb3 g.master (List.mem_range.2 hmn) ⟨hne, hgh, hpos⟩
    obtain ⟨pos, hpo, -, -⟩ := posOf_some (size := (plan q).recvSize) (acc := 0) hc.1
    obtain ⟨t, ht, hto⟩ := List.mem_iff_getElem.1 hom
    have hto' : (side g.master).ov[t]? = some o := by rw [List.getElem?_eq_getElem ht, hto]
    obtain ⟨x, hx1, hx2, hx3⟩ := hV3 ⟨g.master, hmn⟩ t o hto'
    unfold updateGhost
    rw [hpo]
    dsimp only
    rw [bsearchAt_ok (base := pos) (t := t) (hlay.sorted g.master hmn) (fun j hj => by
        refine hh.ids pos hpo j ?_
        rw [← hc.2.2.1]; exact hj) (by
        rw [List.getElem?_map, hto', ← hoid]; rfl) _ _ _ rfl (by omega) (by omega) (by omega)
        (by rw [hsize, List.length_map]; exact Nat.le_refl _), Res.bind_ok]
    dsimp only
    rw [readAt_ok hx2 (fun j hj => ?_), Res.bind_ok]
    · show Res.ok _ = _
      rw [store_spec (hlay.fits _ hmn o hom) (hlay.kind q hqn g hg) hx1]
    · have hlt : t * ncomp + j < (plan q).recvSize g.master * ncomp := by
        rw [hsize]
        have := Nat.mul_le_mul_right ncomp (show t + 1 ≤ (side g.master).ov.length from ht)
        rw [Nat.add_mul, Nat.one_mul] at this
        omega
      have := hh.vals pos hpo (t * ncomp + j) hlt
      rw [show (pos + t) * ncomp + j = pos * ncomp + (t * ncomp + j) from by rw [Nat.add_mul]; omega, this,
        hVeq ⟨g.master, hmn⟩, hx3 j hj]
  obtain ⟨gh', m1, m2, m3⟩ := mapR_ok (g := updateGhost isZero ncomp (plan q).recvSize procs b)
    (as := (side q).gh) (fun g hg => by
      obtain ⟨o, -, -, ho⟩ := hone g hg
      exact ⟨_, ho⟩)
  refine ⟨gh', ?_, m2, ?_⟩
  · unfold finish
    dsimp only
    rw [hb1, Res.bind_ok, m1]
  · intro j g hj
    obtain ⟨o, ho1, ho2, ho3⟩ := hone g (List.mem_of_getElem? hj)
    refine ⟨o, ho1, ho2, ?_⟩
    obtain ⟨g', e1, e2⟩ := m3 j g hj
    rw [ho3] at e2
    injection e2 with e2
    rw [e1, e2]

/-! ### a concrete case, and what goes wrong -/

/-- two partitions, of which the second has a ghost of a vertex of the first -/
def twoRanks : List Rank :=
  [⟨setPrtn new 0 2, fun _ => [], fun k => if k = 0 then 1 else 0⟩,
   ⟨setPrtn new 1 2, fun k => if k = 0 then [0] else [], fun _ => 0⟩]

/-- the owner has the value `v`, the ghost the value `w` -/
def twoSides (v w : Int) : Nat → Side Int
  | 0 => ⟨[⟨7, .num v⟩], []⟩
  | 1 => ⟨[], [⟨7, 0, .num w⟩]⟩
  | _ => ⟨[], []⟩

theorem twoRanks_partitions : Partitions twoRanks := by
  refine fresh_partitions (by decide) ?_ ?_
  · intro p r hr
    match p, hr with
    | 0, hr => injection hr with hr; rw [← hr]; rfl
    | 1, hr => injection hr with hr; rw [← hr]; rfl
    | p + 2, hr => simp [twoRanks] at hr
  · intro r hr k hk m hm
    simp only [twoRanks, List.mem_cons, List.not_mem_nil, or_false] at hr
    have hlen : twoRanks.length = 2 := rfl
    rcases hr with rfl | rfl
    · cases hm
    · dsimp only at hm
      split at hm
      · rw [List.mem_singleton.1 hm]; decide
      · cases hm

theorem twoSides_layout (v w : Int) : Layout twoRanks.length (twoSides v w) false 1 := by
  have hlen : twoRanks.length = 2 := rfl
  have two : ∀ p, p < twoRanks.length → p = 0 ∨ p = 1 := by intro p hp; omega
  constructor
  · intro p hp
    rcases two p hp with rfl | rfl <;> simp [twoSides]
  · intro q hq g hg
    rcases two q hq with rfl | rfl
    · cases hg
    · rw [List.mem_singleton.1 hg]
      exact ⟨(by decide : (0:Nat) ≠ 1), (by decide : 0 < twoRanks.length), ⟨7, .num v⟩, List.mem_singleton.2 rfl, rfl⟩
  · intro p hp o ho
    rcases two p hp with rfl | rfl
    · rw [List.mem_singleton.1 ho]; exact ⟨rfl, rfl⟩
    · cases ho
  · intro q hq g hg
    rcases two q hq with rfl | rfl
    · cases hg
    · rw [List.mem_singleton.1 hg]; rfl

theorem twoSides_side (v w : Int) (p : Nat) (r : Rank) (hr : twoRanks[p]? = some r) :
    r.masters 0 = (twoSides v w p).gh.map (·.master) ∧ r.ovNum 0 = (twoSides v w p).ov.length := by
  match p, hr with
  | 0, hr => injection hr with hr; rw [← hr]; exact ⟨rfl, rfl⟩
  | 1, hr => injection hr with hr; rw [← hr]; exact ⟨rfl, rfl⟩
  | p + 2, hr => simp [twoRanks] at hr

/-- The property fails for values that are zero: whatever the schedule, with 0 on the owner and 5 on
the ghost, the ghost still has 5 after the update. -/
theorem C34_negation_zero : ∃ out, updateParAdj twoRanks = .ok out ∧
    ∃ V : Nat → List Int, (∀ p, p < 2 → collectAll 0 1 (twoSides 0 5 p).ov = .ok (V p)) ∧
    ∀ plan : Nat → Plan (Msg Int),
      (∀ (p : Nat) (s : Info), out[p]? = some s →
        plan p = planOf s 0 (twoSides 0 5 p).ov.length (.ids ((twoSides 0 5 p).ov.map (·.gid))) (.vals (V p))) →
    ∀ (steps : Nat) (net : Net (Msg Int)), Exec steps (Net.start 2 plan) net → net.done →
    ∀ s, out[1]? = some s → ∃ procs, ghostPrtns s = .ok procs ∧
      finish (fun x => x == 0) 1 (plan 1) 2 1 procs (net.got 1) (twoSides 0 5 1).gh = .ok [⟨7, 0, .num 5⟩] := by
  obtain ⟨out, h1, -⟩ := C32_partitions_agree twoRanks_partitions
  obtain ⟨V, h2, h3⟩ := C34_update_partial twoRanks_partitions h1 (k := 0) (by omega) 0 (fun x => x == 0)
    (twoSides_layout 0 5) (twoSides_side 0 5)
  refine ⟨out, h1, V, h2, ?_⟩
  intro plan hplan steps net hex hdone s hs
  obtain ⟨procs, h4, gh', h5, h6, h7⟩ := h3 plan hplan steps net hex hdone 1 s hs
  refine ⟨procs, h4, ?_⟩
  have h5' : finish (fun x : Int => x == 0) 1 (plan 1) 2 1 procs (net.got 1) (twoSides 0 5 1).gh = .ok gh' := h5
  rw [h5']
  obtain ⟨o, ho, -, h8⟩ := h7 0 ⟨7, 0, .num 5⟩ rfl
  have ho : o = ⟨7, .num 0⟩ := List.mem_singleton.1 ho
  rw [ho] at h8
  match gh', h6, h8 with
  | [g], _, h8 =>
    injection h8 with h8
    rw [h8]
    rfl

/-- The property fails for VECTOR and TENSOR attributes with one component: ghosts never change. -/
theorem C34_negation_one_component (isZero : D → Bool) (size : Nat → Nat) (procs : List Nat) (b : Bufs D)
    (g g' : Gh D) (p : Option (List D)) (hv : g.val = .arr p) (h : updateGhost isZero 1 size procs b g = .ok g') :
    g'.val = g.val := by
  unfold updateGhost at h
  split at h
  · cases h
  · obtain ⟨loc, -, h⟩ := Res.bind_eq_ok.1 h
    split at h
    · cases h
    · obtain ⟨x, -, h⟩ := Res.bind_eq_ok.1 h
      injection h with h
      rw [← h, hv]
      rfl

/-- An overlap entity without a value of a VECTOR attribute: a null pointer is read. -/
theorem C34_negation_no_vector (zero : D) (ncomp : Nat) (h : 2 ≤ ncomp) (gid : Int) (r : List (Ov D)) :
    collectAll zero ncomp (⟨gid, .arr none⟩ :: r) = .ub := by
  unfold collectAll collect
  dsimp only
  rw [if_neg (by omega)]
  rfl

end MSTK.Par
