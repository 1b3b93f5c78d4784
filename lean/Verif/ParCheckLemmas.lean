import Verif.ParCheckModel
import Verif.ProcPhase
import Mathlib.Data.Nat.Bitwise

/-!
Lemmas about `MESH_Parallel_Check`.
-/
namespace MSTK.Par

/-! ### programs that go through any number of phases -/

section
variable {M : Type}

/-- the events of some phases, the first of which has the number `φ` -/
def phasesTrace (n : Nat) : Nat → List (Nat → Nat → List M) → Nat → List (Ev M)
  | _, [], _ => []
  | φ, a :: r, p => phaseTrace n φ a p ++ phasesTrace n (φ + 1) r p

theorem phases_event {n p : Nat} {e : Ev M} : ∀ {ps : List (Nat → Nat → List M)} {φ : Nat},
    e ∈ phasesTrace n φ ps p → ∃ ψ, φ ≤ ψ ∧ ∃ c : Nat → Nat → List M, e ∈ phaseTrace n ψ c p := by
  intro ps
  induction ps with
  | nil => intro φ h; cases h
  | cons a r ih =>
    intro φ h
    rcases List.mem_append.1 h with h | h
    · exact ⟨φ, Nat.le_refl _, a, h⟩
    · obtain ⟨ψ, h1, h2⟩ := ih h
      exact ⟨ψ, by omega, h2⟩

theorem ends_inside {n p : Nat} {e : Ev M} (h1 : e.partner < n) (h2 : p < n)
    (h3 : e.ends p = (p, e.partner) ∨ e.ends p = (e.partner, p)) : (e.ends p).1 < n ∧ (e.ends p).2 < n := by
  rcases h3 with h3 | h3 <;> rw [h3] <;> exact ⟨by assumption, by assumption⟩

theorem phases_ordered {n p : Nat} (hp : p < n) : ∀ (ps : List (Nat → Nat → List M)) (φ : Nat),
    (phasesTrace n φ ps p).Pairwise fun a b => a.key ≤ b.key := by
  intro ps
  induction ps with
  | nil => intro φ; exact List.Pairwise.nil
  | cons a r ih =>
    intro φ
    unfold phasesTrace
    rw [List.pairwise_append]
    refine ⟨phase_ordered hp, ih _, ?_⟩
    intro x hx y hy
    obtain ⟨ψ, hψ, c, hy⟩ := phases_event hy
    obtain ⟨x1, x2, x3, x4⟩ := phase_event hx
    obtain ⟨y1, y2, y3, y4⟩ := phase_event hy
    have hx' := ends_inside x1 hp x4
    have hy' := ends_inside y1 hp y4
    have k1 := (key_bound (φ := φ) hx'.1 hx'.2).2
    have k2 := (key_bound (φ := ψ) hy'.1 hy'.2).1
    have k3 := Nat.mul_le_mul_right (n * n * 2) hψ
    rw [x3, y3]
    omega

theorem phases_matched {n p q : Nat} (hp : p < n) (hq : q < n) : ∀ (ps : List (Nat → Nat → List M)) (φ : Nat),
    sentTo q (phasesTrace n φ ps p) = rcvdFrom p (phasesTrace n φ ps q) := by
  intro ps
  induction ps with
  | nil => intro φ; rfl
  | cons a r ih =>
    intro φ
    unfold phasesTrace
    rw [sentTo_app, rcvdFrom_app, ih, phase_sent, phase_rcvd]
    by_cases hpq : p = q
    · subst hpq; simp
    · rw [if_pos ⟨hq, Ne.symm hpq⟩, if_pos ⟨hp, hpq⟩]

theorem phases_sent_out {n p q : Nat} (hq : ¬ q < n) : ∀ (ps : List (Nat → Nat → List M)) (φ : Nat),
    sentTo q (phasesTrace n φ ps p) = [] := by
  intro ps
  induction ps with
  | nil => intro φ; rfl
  | cons a r ih =>
    intro φ
    unfold phasesTrace
    rw [sentTo_app, ih, phase_sent, if_neg (fun h => hq h.1)]
    rfl

theorem phases_rcvd_out {n p q : Nat} (hp : ¬ p < n) : ∀ (ps : List (Nat → Nat → List M)) (φ : Nat),
    rcvdFrom p (phasesTrace n φ ps q) = [] := by
  intro ps
  induction ps with
  | nil => intro φ; rfl
  | cons a r ih =>
    intro φ
    unfold phasesTrace
    rw [rcvdFrom_app, ih, phase_rcvd, if_neg (fun h => hp h.1)]
    rfl

/-- The scripts of programs that go through the same phases match. -/
theorem many_phases (n : Nat) (ps : List (Nat → Nat → List M)) :
    Script n fun p => if p < n then phasesTrace n 0 ps p else [] := by
  have mem : ∀ {p : Nat} {e : Ev M}, e ∈ (if p < n then phasesTrace n 0 ps p else []) →
      p < n ∧ ∃ φ : Nat, ∃ c : Nat → Nat → List M, e ∈ phaseTrace n φ c p := by
    intro p e he
    by_cases hp : p < n
    · rw [if_pos hp] at he
      obtain ⟨ψ, -, h⟩ := phases_event he
      exact ⟨hp, ψ, h⟩
    · rw [if_neg hp] at he; cases he
  constructor
  · intro p
    by_cases hp : p < n
    · rw [if_pos hp]; exact phases_ordered hp ps 0
    · rw [if_neg hp]; exact List.Pairwise.nil
  · intro p e he
    obtain ⟨hp, φ, c, he⟩ := mem he
    obtain ⟨h1, h2, -, -⟩ := phase_event he
    exact ⟨hp, h1, h2⟩
  · intro p q
    by_cases hp : p < n
    · rw [if_pos hp]
      by_cases hq : q < n
      · rw [if_pos hq]; exact phases_matched hp hq ps 0
      · rw [if_neg hq, phases_sent_out hq]; rfl
    · rw [if_neg hp]
      by_cases hq : q < n
      · rw [if_pos hq, phases_rcvd_out hp]; rfl
      · rw [if_neg hq]; rfl
  · intro p q e he e' he' hk
    obtain ⟨hp, φ, c, he⟩ := mem he
    obtain ⟨hq, φ', c', he'⟩ := mem he'
    obtain ⟨x1, x2, x3, x4⟩ := phase_event he
    obtain ⟨y1, y2, y3, y4⟩ := phase_event he'
    have hx' := ends_inside x1 hp x4
    have hy' := ends_inside y1 hq y4
    rw [x3, y3] at hk
    obtain ⟨h1, h2⟩ := key_inj hx'.1 hx'.2 hy'.1 hy'.2 hk
    exact Prod.ext h1 h2

end

/-! ### one check -/

/-- what a partition sends in the loop of a check -/
def sentIn (S : Nat → Stage) (p q : Nat) : List CMsg := if (S p).ghosts q then (S p).out q else []

theorem follows_sendList {S : Stage} {max i κ : Nat} {k : Proc CMsg (Res Bool)} {t : List (Ev CMsg)} {a : Res Bool}
    (ho : S.ghosts i = true → S.over max i = false) (h : Follows k t a) :
    Follows (sendList S max i k) ((if S.ghosts i then S.out i else []).map (fun m => ⟨κ, true, i, m⟩) ++ t) a := by
  unfold sendList
  by_cases hg : S.ghosts i = true
  · rw [if_pos hg, if_pos hg, ho hg, if_neg Bool.false_ne_true]
    exact follows_sendAll h _
  · rw [if_neg hg, if_neg hg]
    exact h

theorem follows_checkLoop {n φ me max : Nat} {S : Nat → Stage} {b : Nat → Bool} {t : List (Ev CMsg)} {a : Res Bool}
    {k : Bool → Proc CMsg (Res Bool)} : ∀ (is : List Nat) (v : Bool),
    (∀ i ∈ is, i ≠ me → ((S me).ghosts i = true → (S me).over max i = false) ∧
      (S i).ghosts me = (S me).overlaps i ∧ ((S i).out me).length = (S me).nmsg ∧
      ((S me).overlaps i = true → ∀ v, (S me).step ((S i).out me) v = .ok (v && b i))) →
    Follows (k (v && is.all fun i => decide (i = me) || !(S me).overlaps i || b i)) t a →
    Follows (checkLoop (S me) me max is v k) (is.flatMap (roundTrace n φ (sentIn S) me) ++ t) a := by
  intro is
  induction is with
  | nil =>
    intro v _ h
    rw [List.all_nil, Bool.and_true] at h
    exact h
  | cons i r ih =>
    intro v hi h
    rw [List.flatMap_cons, List.append_assoc]
    unfold checkLoop
    have hi' := fun j hj => hi j (List.mem_cons_of_mem _ hj)
    rw [List.all_cons] at h
    by_cases hm : i = me
    · rw [if_pos hm]
      have e0 : roundTrace n φ (sentIn S) me i = [] := by
        unfold roundTrace
        dsimp only
        rw [if_pos hm]
      rw [e0, List.nil_append]
      rw [decide_eq_true hm, Bool.true_or, Bool.true_or, Bool.true_and] at h
      exact ih v hi' h
    · rw [if_neg hm]
      obtain ⟨h1, h2, h3, h4⟩ := hi i List.mem_cons_self hm
      rw [decide_eq_false hm, Bool.false_or] at h
      unfold roundTrace
      dsimp only
      rw [if_neg hm]
      by_cases hlt : i < me
      · rw [if_pos hlt, if_neg (show ¬ me < i by omega), List.append_assoc]
        by_cases hov : (S me).overlaps i = true
        · rw [if_pos hov, show sentIn S i me = (S i).out me by unfold sentIn; rw [h2, if_pos hov], ← h3]
          refine follows_recvN _ ?_
          rw [h4 hov]
          refine follows_sendList h1 (ih _ hi' ?_)
          rw [hov] at h
          rw [Bool.and_assoc]
          exact h
        · rw [if_neg hov, show sentIn S i me = [] by unfold sentIn; rw [h2, if_neg hov], List.map_nil, List.nil_append]
          refine follows_sendList h1 (ih _ hi' ?_)
          rw [show (S me).overlaps i = false by simpa using hov] at h
          exact h
      · rw [if_neg hlt, if_pos (show me < i by omega), List.append_assoc]
        refine follows_sendList h1 ?_
        by_cases hov : (S me).overlaps i = true
        · rw [if_pos hov, show sentIn S i me = (S i).out me by unfold sentIn; rw [h2, if_pos hov], ← h3]
          refine follows_recvN _ ?_
          rw [h4 hov]
          refine ih _ hi' ?_
          rw [hov] at h
          rw [Bool.and_assoc]
          exact h
        · rw [if_neg hov, show sentIn S i me = [] by unfold sentIn; rw [h2, if_neg hov], List.map_nil, List.nil_append]
          refine ih _ hi' ?_
          rw [show (S me).overlaps i = false by simpa using hov] at h
          exact h

theorem le_maxNum : ∀ (l : List (List CMsg)) (own : Nat), own ≤ maxNum own l := by
  intro l
  induction l with
  | nil => intro own; exact Nat.le_refl _
  | cons a r ih =>
    intro own
    unfold maxNum
    split
    · rename_i h; cases h
    · rename_i c r' h
      injection h with h1 h2
      subst h2
      refine Nat.le_trans ?_ (ih _)
      split <;> omega
    · rename_i h
      injection h with h1 h2
      subst h2
      exact ih own

/-- the conditions for one check -/
structure Works (n me : Nat) (S : Nat → Stage) (b : Nat → Bool) : Prop where
  room : ∀ i, i < n → i ≠ me → ∀ max, (S me).num ≤ max → (S me).over max i = false
  flags : ∀ i, i < n → i ≠ me → (S i).ghosts me = (S me).overlaps i
  number : ∀ i, i < n → i ≠ me → ((S i).out me).length = (S me).nmsg
  step : ∀ i, i < n → i ≠ me → (S me).overlaps i = true → ∀ v, (S me).step ((S i).out me) v = .ok (v && b i)

/-- what partition `me` answers -/
def verdict (n me : Nat) (S : Stage) (b : Nat → Bool) : Bool :=
  (List.range n).all fun i => decide (i = me) || !S.overlaps i || b i

theorem follows_runStage {n φ me : Nat} {S : Nat → Stage} {b : Nat → Bool} {t : List (Ev CMsg)} {a : Res Bool}
    {k : Bool → Proc CMsg (Res Bool)} (h : Works n me S b) (hk : Follows (k (verdict n me (S me) b)) t a) :
    Follows (runStage n me (S me) k)
      (phaseTrace n φ (fun p _ => [.count (S p).num]) me ++ (phaseTrace n (φ + 1) (sentIn S) me ++ t)) a := by
  unfold runStage
  refine follows_rounds' (n := n) (φ := φ) (me := me) (out := fun p _ => [CMsg.count (S p).num]) (inn := fun _ => 1)
    (List.range n) (fun _ => []) (fun i _ => rfl) (fun i _ _ => rfl) ?_
  refine follows_checkLoop (b := b) _ true ?_ ?_
  · intro i hi hm
    have hi := List.mem_range.1 hi
    exact ⟨fun _ => h.room i hi hm _ (le_maxNum _ _), h.flags i hi hm, h.number i hi hm, h.step i hi hm⟩
  · rw [Bool.true_and]
    exact hk

/-! ### looking up -/

theorem insGid_perm (a : CKey) : ∀ l, (insGid a l).Perm (a :: l)
  | [] => List.Perm.refl _
  | b :: t => by
    unfold insGid
    split
    · exact List.Perm.refl _
    · exact (List.Perm.cons b (insGid_perm a t)).trans (List.Perm.swap a b t)

theorem sortGid_perm : ∀ l, (sortGid l).Perm l
  | [] => List.Perm.refl _
  | a :: t => (insGid_perm a _).trans (List.Perm.cons a (sortGid_perm t))

theorem insGid_sorted (a : CKey) : ∀ l : List CKey, l.Pairwise (fun x y => x.gid ≤ y.gid) →
    (insGid a l).Pairwise (fun x y => x.gid ≤ y.gid)
  | [], _ => by unfold insGid; exact List.pairwise_singleton _ _
  | b :: t, h => by
    unfold insGid
    rw [List.pairwise_cons] at h
    split
    · rename_i hab
      rw [List.pairwise_cons, List.pairwise_cons]
      refine ⟨?_, h⟩
      intro x hx
      rcases List.mem_cons.1 hx with rfl | hx
      · exact hab
      · exact Int.le_trans hab (h.1 x hx)
    · rename_i hab
      rw [List.pairwise_cons]
      refine ⟨?_, insGid_sorted a t h.2⟩
      intro x hx
      rcases List.mem_cons.1 ((insGid_perm a t).mem_iff.1 hx) with rfl | hx
      · omega
      · exact h.1 x hx

theorem sortGid_sorted : ∀ l : List CKey, (sortGid l).Pairwise (fun x y => x.gid ≤ y.gid)
  | [] => List.Pairwise.nil
  | a :: t => insGid_sorted a _ (sortGid_sorted t)

theorem sortGid_strict {l : List CKey} (h : (l.map (·.gid)).Nodup) :
    (sortGid l).Pairwise (fun x y => x.gid < y.gid) := by
  have h1 : ((sortGid l).map (·.gid)).Nodup := ((sortGid_perm l).map _).nodup_iff.2 h
  rw [List.Nodup, List.pairwise_map] at h1
  refine ((sortGid_sorted l).and h1).imp ?_
  intro a b hab
  have := hab.1
  have := hab.2
  omega

theorem searchGid_found {l : List CKey} (hs : l.Pairwise (fun x y => x.gid < y.gid)) {k : CKey} {t : Nat}
    (ht : l[t]? = some k) : ∀ fuel lo hi, hi - lo < fuel → lo ≤ t → t < hi → hi ≤ l.length →
      searchGid l k.gid fuel lo hi = some k := by
  rw [List.pairwise_iff_getElem] at hs
  obtain ⟨htl, htk⟩ := List.getElem?_eq_some_iff.1 ht
  intro fuel
  induction fuel with
  | zero => intro lo hi h; omega
  | succ fuel ih =>
    intro lo hi hf hlo hhi hl
    unfold searchGid
    rw [if_pos (by omega)]
    have hm : (lo + hi) / 2 < l.length := by omega
    rw [List.getElem?_eq_getElem hm]
    dsimp only
    rcases Nat.lt_trichotomy ((lo + hi) / 2) t with hc | hc | hc
    · have := hs _ _ hm htl hc
      rw [htk] at this
      rw [if_neg (by omega), if_pos this]
      exact ih _ _ (by omega) (by omega) hhi hl
    · have : l[(lo + hi) / 2] = k := by rw [← htk]; congr 1
      rw [this, if_neg (by omega), if_neg (by omega)]
    · have := hs _ _ htl hm hc
      rw [htk] at this
      rw [if_pos this]
      exact ih _ _ (by omega) hlo (by omega) (by omega)

theorem searchGid_sound {l : List CKey} {g : Int} : ∀ fuel lo hi k, searchGid l g fuel lo hi = some k →
    k ∈ l ∧ k.gid = g := by
  intro fuel
  induction fuel with
  | zero => intro lo hi k h; cases h
  | succ fuel ih =>
    intro lo hi k h
    unfold searchGid at h
    split at h
    · split at h
      · cases h
      · rename_i x hx
        split at h
        · exact ih _ _ _ h
        · split at h
          · exact ih _ _ _ h
          · injection h with h
            subst h
            exact ⟨List.mem_of_getElem? hx, by omega⟩
    · cases h

/-- different entities have different local IDs, and different overlap entities different global IDs -/
structure Distinct {α : Type} (key : α → CKey) (es : List α) : Prop where
  ids : es.Pairwise fun a b => (key a).id ≠ (key b).id
  gids : (es.filter fun e => decide ((key e).ptype = pOverlap)).Pairwise fun a b => (key a).gid ≠ (key b).gid

theorem ov_nodup {α : Type} {key : α → CKey} {es : List α} (h : Distinct key es) :
    (((es.map key).filter fun k => decide (k.ptype = pOverlap)).map (·.gid)).Nodup := by
  rw [List.filter_map, List.map_map, List.Nodup, List.pairwise_map]
  exact h.gids

theorem same_id {α : Type} {key : α → CKey} {es : List α} (h : Distinct key es) {a b : α} (ha : a ∈ es) (hb : b ∈ es)
    (hid : (key a).id = (key b).id) : a = b := by
  have h := h.ids
  rw [List.pairwise_iff_getElem] at h
  obtain ⟨i, hi, rfl⟩ := List.mem_iff_getElem.1 ha
  obtain ⟨j, hj, rfl⟩ := List.mem_iff_getElem.1 hb
  rcases Nat.lt_trichotomy i j with hc | hc | hc
  · exact absurd hid (h i j hi hj hc)
  · subst hc; rfl
  · exact absurd hid.symm (h j i hj hi hc)

theorem findGid_found {α : Type} {key : α → CKey} {es : List α} (h : Distinct key es) {e : α} (he : e ∈ es)
    (ho : (key e).ptype = pOverlap) : findGid key es (key e).gid = some e := by
  unfold findGid
  dsimp only
  have hmem : key e ∈ ovList (es.map key) := by
    unfold ovList
    rw [(sortGid_perm _).mem_iff]
    exact List.mem_filter.2 ⟨List.mem_map_of_mem he, decide_eq_true ho⟩
  obtain ⟨t, ht⟩ := List.mem_iff_getElem?.1 hmem
  have htl := (List.getElem?_eq_some_iff.1 ht).1
  have hs : (ovList (es.map key)).Pairwise (fun x y => x.gid < y.gid) := sortGid_strict (ov_nodup h)
  rw [searchGid_found hs ht _ 0 _ (by omega) (by omega) htl (Nat.le_refl _)]
  dsimp only
  cases hf : es.find? fun x => decide ((key x).id = (key e).id) with
  | none =>
    have := List.find?_eq_none.1 hf e he
    simp at this
  | some x =>
    have h1 := List.mem_of_find?_eq_some hf
    have h2 : (key x).id = (key e).id := by simpa using List.find?_some hf
    rw [same_id h h1 he h2]

theorem findGid_sound {α : Type} {key : α → CKey} {es : List α} (h : Distinct key es) {g : Int} {e : α}
    (hf : findGid key es g = some e) : e ∈ es ∧ (key e).ptype = pOverlap ∧ (key e).gid = g := by
  unfold findGid at hf
  dsimp only at hf
  split at hf
  · cases hf
  · rename_i k hk
    obtain ⟨h1, h2⟩ := searchGid_sound _ _ _ _ hk
    unfold ovList at h1
    rw [(sortGid_perm _).mem_iff] at h1
    obtain ⟨h3, h4⟩ := List.mem_filter.1 h1
    obtain ⟨x, hx, rfl⟩ := List.mem_map.1 h3
    have he := List.mem_of_find?_eq_some hf
    have hid : (key e).id = (key x).id := by simpa using List.find?_some hf
    obtain rfl := same_id h he hx hid
    exact ⟨he, of_decide_eq_true h4, h2⟩

/-! ### packing -/

theorem pack_low (a b k : Nat) (h : b < 2 ^ k) : (a <<< k ||| b) &&& (2 ^ k - 1) = b := by
  rw [Nat.and_two_pow_sub_one_eq_mod, ← Nat.shiftLeft_add_eq_or_of_lt h, Nat.shiftLeft_eq, Nat.mul_comm,
    Nat.mul_add_mod, Nat.mod_eq_of_lt h]

theorem pack_high (a b k : Nat) (h : b < 2 ^ k) : (a <<< k ||| b) >>> k = a := by
  rw [← Nat.shiftLeft_add_eq_or_of_lt h, Nat.shiftLeft_eq, Nat.shiftRight_eq_div_pow, Nat.mul_comm,
    Nat.mul_add_div (Nat.two_pow_pos k), Nat.div_eq_of_lt h, Nat.add_zero]

/-- the values of an entity are those of the enumerations -/
def InRange (k : CKey) : Prop := k.gdim < 8 ∧ k.ptype < 4

theorem agrees_packed {unknown : Bool} {rank : Nat} {k e : CKey} (h : InRange e) :
    agrees unknown rank k (packClass e) (packOwner e) = true ↔
      (k.gdim = e.gdim ∨ unknown = true ∧ (k.gdim = mUnknown ∨ e.gdim = mUnknown)) ∧ k.gent = e.gent ∧
      e.ptype = pGhost ∧ e.master = rank := by
  unfold agrees packClass packOwner
  dsimp only
  have h1 := pack_low e.gent e.gdim 3 h.1
  have h2 := pack_low e.master e.ptype 2 h.2
  rw [show 2 ^ 3 - 1 = 7 from rfl] at h1
  rw [show 2 ^ 2 - 1 = 3 from rfl] at h2
  rw [Int.toNat_natCast, Int.toNat_natCast, h1, h2, pack_high _ _ 3 h.1, pack_high _ _ 2 h.2]
  cases unknown <;> simp <;> tauto

/-! ### the messages -/

/-- a vertex that was received -/
def vertOk (rank : Nat) (vs : List CVert) (e : CVert) : Bool :=
  match findGid CVert.key vs e.key.gid with
  | none => false
  | some mv => agrees true rank mv.key (packClass e.key) (packOwner e.key) &&
      !decide (cmpCoor coorTol mv.coor e.coor ≠ 0)

theorem checkVerts_all (rank : Nat) (vs : List CVert) : ∀ (l : List CVert) (v : Bool),
    checkVerts rank vs (l.flatMap fun e => [packClass e.key, packOwner e.key, e.key.gid]) (l.map fun e => e.coor) v =
      .ok (v && l.all (vertOk rank vs)) := by
  intro l
  induction l with
  | nil => intro v; simp [checkVerts]
  | cons e l ih =>
    intro v
    rw [List.flatMap_cons, List.map_cons]
    simp only [List.cons_append, List.nil_append, checkVerts]
    rw [List.all_cons]
    unfold vertOk
    cases findGid CVert.key vs e.key.gid with
    | none => dsimp only; rw [ih, Bool.false_and, Bool.false_and, Bool.and_false]
    | some mv =>
      dsimp only
      rw [ih]
      congr 1
      simp only [Bool.and_assoc]
      rfl

/-- an edge that was received -/
def edgeOk (rank : Nat) (es : List CEdge) (e : CEdge) : Bool :=
  match findGid CEdge.key es e.key.gid with
  | none => false
  | some me => agrees true rank me.key (packClass e.key) (packOwner e.key) && !decide (cmpEdge me.ends e.ends ≠ 0)

theorem checkEdges_all (rank : Nat) (es : List CEdge) : ∀ (l : List CEdge) (v : Bool),
    checkEdges rank es (l.flatMap fun e => [e.ends.1, e.ends.2, packClass e.key, packOwner e.key, e.key.gid]) v =
      .ok (v && l.all (edgeOk rank es)) := by
  intro l
  induction l with
  | nil => intro v; simp [checkEdges]
  | cons e l ih =>
    intro v
    rw [List.flatMap_cons]
    simp only [List.cons_append, List.nil_append, checkEdges]
    rw [List.all_cons]
    unfold edgeOk
    cases findGid CEdge.key es e.key.gid with
    | none => dsimp only; rw [ih, Bool.false_and, Bool.false_and, Bool.and_false]
    | some me =>
      dsimp only
      rw [ih]
      congr 1
      simp only [Bool.and_assoc]
      rfl

/-- a face or region that was received -/
def cellOk (unknown : Bool) (rank : Nat) (cs : List CCell) (e : CCell) : Bool :=
  match findGid CCell.key cs e.key.gid with
  | none => false
  | some mf => agrees unknown rank mf.key (packClass e.key) (packOwner e.key)

theorem checkCells_all (unknown : Bool) (rank : Nat) (cs : List CCell) : ∀ (l : List CCell) (v : Bool) (fuel : Nat),
    l.length < fuel → (∀ e ∈ l, (findGid CCell.key cs e.key.gid).isSome = true) →
    checkCells unknown rank cs fuel (l.flatMap fun e =>
      (e.parts.length : Int) :: e.parts ++ [packClass e.key, packOwner e.key, e.key.gid]) v =
      .ok (v && l.all (cellOk unknown rank cs)) := by
  intro l
  induction l with
  | nil =>
    intro v fuel hf _
    match fuel, hf with
    | fuel+1, _ => simp [checkCells]
  | cons e l ih =>
    intro v fuel hf hfound
    match fuel, hf with
    | fuel+1, hf =>
      rw [List.flatMap_cons]
      simp only [List.cons_append, checkCells]
      rw [Int.toNat_natCast, List.append_assoc, List.drop_left]
      dsimp only [List.cons_append]
      have h1 := hfound e List.mem_cons_self
      rw [List.all_cons]
      unfold cellOk
      cases hc : findGid CCell.key cs e.key.gid with
      | none => rw [hc] at h1; cases h1
      | some mf =>
        dsimp only
        have ih := ih (v && agrees unknown rank mf.key (packClass e.key) (packOwner e.key))
        simp only [List.cons_append] at ih
        rw [List.nil_append, ih fuel (by rw [List.length_cons] at hf; omega)
          (fun x hx => hfound x (List.mem_cons_of_mem _ hx)), Bool.and_assoc]
        rfl

/-- the loop never ends when a face or region is not found -/
theorem checkCells_hang {unknown : Bool} {rank : Nat} {cs : List CCell} {n c o g : Int} {r r' : List Int}
    (hd : r.drop n.toNat = c :: o :: g :: r') (hn : findGid CCell.key cs g = none) :
    ∀ (fuel : Nat) (v : Bool), checkCells unknown rank cs fuel (n :: r) v = .hang := by
  intro fuel
  induction fuel with
  | zero => intro v; rfl
  | succ fuel ih =>
    intro v
    unfold checkCells
    rw [hd]
    dsimp only
    rw [hn]
    exact ih false

end MSTK.Par
