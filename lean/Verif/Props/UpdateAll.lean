import Verif.UpdateAllModel
import Verif.Props.Update
/-!
C102: the update of all attributes of a mesh on all partitions.
-/
namespace MSTK.Par

variable {D : Type}

/-! ### Specification -/

/-- the attributes that have values other partitions can use -/
def shared (as : List Attr) : List Attr := as.filter fun a => a.type ≠ .pointer

/-- whether the values are arrays -/
def Attr.isArr (a : Attr) : Bool := a.type = .vector ∨ a.type = .tensor

/-- the entities of a partition with their values of the attribute -/
def sideOf (W : World D) (b : Nat → Attr) (p : Nat) : Side D := ⟨(W p (b p)).ov, (W p (b p)).gh⟩

/-- Partitions `rs` with these values of the attribute `b p` on partition `p`, all of them for entities of type
`k` with `ncomp` components: overlap entities sorted, the owner of each ghost has its entity, all values are set
and fit (`Layout`), and the ghosts and overlap entities are those of the partitions. -/
def Fit (rs : List Rank) (W : World D) (b : Nat → Attr) (k ncomp : Nat) (arr : Bool) : Prop :=
  Layout rs.length (sideOf W b) arr ncomp ∧
  ∀ (p : Nat) (r : Rank), rs[p]? = some r →
    r.masters k = ((W p (b p)).gh.map (·.master)) ∧ r.ovNum k = (W p (b p)).ov.length

/-- Every ghost of partition `q` has in `W'` the value of the attribute `b` that the owner has in `W` for the
attribute `c`, unless that is zero; then it has the one it had. -/
def FromOwner (isZero : D → Bool) (W W' : World D) (q : Nat) (b : Attr) (c : Nat → Attr) : Prop :=
  (W' q b).ov = (W q b).ov ∧ (W' q b).gh.length = (W q b).gh.length ∧
  ∀ (j : Nat) (g : Gh D), (W q b).gh[j]? = some g → ∃ o ∈ (W g.master (c g.master)).ov, o.gid = g.gid ∧
    (W' q b).gh[j]? = some ⟨g.gid, g.master, if o.val.zero isZero then g.val else o.val⟩

/-! ### The rounds -/

/-- the calls for attributes none of which is a pointer -/
def pairs (us : List Attr) : List Coll := us.flatMap fun a => [.barrier, .update a]

theorem collCalls_eq : ∀ as : List Attr, collCalls as = pairs (shared as)
  | [] => rfl
  | a :: as => by
    unfold collCalls shared
    rw [List.filter_cons]
    by_cases h : a.type = .pointer
    · rw [if_pos h, if_neg (by simp [h]), collCalls_eq as]; rfl
    · rw [if_neg h, if_pos (by simp [h]), collCalls_eq as]; rfl

theorem pairs_empty (o : List Attr) : (pairs o).isEmpty = o.isEmpty := by
  cases o <;> rfl

theorem split_heads : ∀ oss : List (List Attr), (∀ o ∈ oss, o ≠ []) →
    ∃ hs : List (Attr × List Attr), oss = hs.map fun x => x.1 :: x.2
  | [], _ => ⟨[], rfl⟩
  | o :: oss, h => by
    obtain ⟨hs, rfl⟩ := split_heads oss (fun o ho => h o (List.mem_cons_of_mem _ ho))
    cases o with
    | nil => exact absurd rfl (h [] (List.mem_cons_self ..))
    | cons b o => exact ⟨(b, o) :: hs, rfl⟩

theorem mapM_heads : ∀ hs : List (Attr × List Attr),
    (hs.map fun x => Coll.update x.1 :: pairs x.2).mapM headAttr = some (hs.map (·.1))
  | [] => rfl
  | x :: hs => by
    rw [List.map_cons, List.mapM_cons, mapM_heads hs]; rfl

theorem together_cons (a : Attr) (us : List Attr) (hs : List (Attr × List Attr)) :
    together (pairs (a :: us)) ((hs.map fun x => x.1 :: x.2).map pairs) =
      (together (pairs us) ((hs.map (·.2)).map pairs) >>= fun r => Res.ok ((a :: hs.map (·.1)) :: r)) := by
  have e1 : (hs.map fun x => x.1 :: x.2).map pairs = hs.map fun x => Coll.barrier :: .update x.1 :: pairs x.2 := by
    rw [List.map_map]; rfl
  have e2 : (hs.map fun x => Coll.barrier :: .update x.1 :: pairs x.2).map (·.tail) =
      hs.map fun x => Coll.update x.1 :: pairs x.2 := by rw [List.map_map]; rfl
  have e3 : (hs.map fun x => Coll.update x.1 :: pairs x.2).map (·.tail) = (hs.map (·.2)).map pairs := by
    rw [List.map_map, List.map_map]; rfl
  rw [e1]
  show together (.barrier :: .update a :: pairs us) _ = _
  rw [together, if_neg (by simp), if_pos (by simp), e2, together, if_neg (by simp)]
  rw [mapM_heads, e3]
  rfl

theorem together_ok : ∀ (us : List Attr) (oss : List (List Attr)), (∀ o ∈ oss, o.length = us.length) →
    ∃ rounds, together (pairs us) (oss.map pairs) = .ok rounds ∧ rounds.length = us.length ∧
      ∀ k, k < us.length → ∃ r, rounds[k]? = some r ∧ r.map some = (us :: oss).map (·[k]?)
  | [], oss, h => by
    refine ⟨[], ?_, rfl, fun k hk => absurd hk (Nat.not_lt_zero k)⟩
    show (if (oss.map pairs).all (·.isEmpty) then Res.ok [] else .hang) = _
    rw [if_pos]
    rw [List.all_eq_true]
    intro l hl
    obtain ⟨o, ho, rfl⟩ := List.mem_map.1 hl
    rw [pairs_empty, List.isEmpty_iff]
    exact List.length_eq_zero_iff.1 (h o ho)
  | a :: us, oss, h => by
    obtain ⟨hs, rfl⟩ := split_heads oss (fun o ho => by
      have := h o ho
      intro hc
      rw [hc] at this; cases this)
    obtain ⟨rounds, h1, h2, h3⟩ := together_ok us (hs.map (·.2)) (by
      intro o ho
      obtain ⟨x, hx, rfl⟩ := List.mem_map.1 ho
      have := h (x.1 :: x.2) (List.mem_map.2 ⟨x, hx, rfl⟩)
      simpa using this)
    refine ⟨(a :: hs.map (·.1)) :: rounds, ?_, ?_, ?_⟩
    · rw [together_cons, h1]; rfl
    · rw [List.length_cons, h2]; rfl
    · intro k hk
      cases k with
      | zero =>
        refine ⟨_, rfl, ?_⟩
        simp [List.map_map, Function.comp_def]
      | succ k =>
        obtain ⟨r, h4, h5⟩ := h3 k (by simpa using hk)
        refine ⟨r, h4, ?_⟩
        rw [h5]
        simp [List.map_map, Function.comp_def]

theorem together_hang : ∀ (us : List Attr) (oss : List (List Attr)), (∃ o ∈ oss, o.length ≠ us.length) →
    together (pairs us) (oss.map pairs) = .hang
  | [], oss, ⟨o, ho, hl⟩ => by
    show (if (oss.map pairs).all (·.isEmpty) then Res.ok [] else .hang) = _
    rw [if_neg]
    rw [List.all_eq_true]
    intro hc
    have := hc (pairs o) (List.mem_map.2 ⟨o, ho, rfl⟩)
    rw [pairs_empty, List.isEmpty_iff] at this
    rw [this] at hl
    exact hl rfl
  | a :: us, oss, ⟨o, ho, hl⟩ => by
    by_cases he : ∃ o ∈ oss, o = []
    · obtain ⟨o', ho', rfl⟩ := he
      show together (.barrier :: .update a :: pairs us) _ = _
      rw [together, if_pos]
      rw [List.any_eq_true]
      exact ⟨pairs [], List.mem_map.2 ⟨[], ho', rfl⟩, rfl⟩
    · obtain ⟨hs, rfl⟩ := split_heads oss (fun o ho hc => he ⟨o, ho, hc⟩)
      obtain ⟨x, hx, rfl⟩ := List.mem_map.1 ho
      rw [together_cons, together_hang us (hs.map (·.2)) ⟨x.2, List.mem_map.2 ⟨x, hx, rfl⟩, by simpa using hl⟩]
      rfl

/-- **C102, what is updated together.** If all partitions have the same number of attributes that are no
pointers, the update goes through as many rounds, and in each round every partition updates its own next such
attribute: attributes are brought together by their position, whatever their names, types and entities. -/
theorem C102_rounds (A : List (List Attr)) (m : Nat) (hA : A ≠ []) (h : ∀ as ∈ A, (shared as).length = m) :
    ∃ rounds, updateRounds A = .ok rounds ∧ rounds.length = m ∧
      ∀ k, k < m → ∃ r, rounds[k]? = some r ∧ r.map some = A.map fun as => (shared as)[k]? := by
  cases A with
  | nil => exact absurd rfl hA
  | cons as rest =>
    have hm := h as (List.mem_cons_self ..)
    obtain ⟨rounds, h1, h2, h3⟩ := together_ok (shared as) (rest.map shared) (by
      intro o ho
      obtain ⟨bs, hb, rfl⟩ := List.mem_map.1 ho
      rw [hm, h bs (List.mem_cons_of_mem _ hb)])
    refine ⟨rounds, ?_, by rw [h2, hm], ?_⟩
    · show together (collCalls as) (rest.map collCalls) = _
      rw [collCalls_eq, show rest.map collCalls = (rest.map shared).map pairs by
        rw [List.map_map]; exact List.map_congr_left fun b _ => collCalls_eq b]
      exact h1
    · intro k hk
      obtain ⟨r, h4, h5⟩ := h3 k (by omega)
      refine ⟨r, h4, ?_⟩
      rw [h5, List.map_cons, List.map_cons, List.map_map]; rfl

/-- **C102, negation: different numbers of attributes.** If two partitions have different numbers of attributes
that are no pointers, the update never ends, whatever else is the case. -/
theorem C102_negation_hang (A : List (List Attr)) (as bs : List Attr) (ha : as ∈ A) (hb : bs ∈ A)
    (hne : (shared as).length ≠ (shared bs).length) : updateRounds A = .hang := by
  cases A with
  | nil => cases ha
  | cons cs rest =>
    have hex : ∃ o ∈ rest.map shared, o.length ≠ (shared cs).length := by
      by_cases h1 : (shared as).length = (shared cs).length
      · rcases List.mem_cons.1 hb with rfl | hb
        · exact absurd h1 hne
        · exact ⟨shared bs, List.mem_map.2 ⟨bs, hb, rfl⟩, fun hc => hne (h1.trans hc.symm)⟩
      · rcases List.mem_cons.1 ha with rfl | ha
        · exact absurd rfl h1
        · exact ⟨shared as, List.mem_map.2 ⟨as, ha, rfl⟩, h1⟩
    show together (collCalls cs) (rest.map collCalls) = _
    rw [collCalls_eq, show rest.map collCalls = (rest.map shared).map pairs by
      rw [List.map_map]; exact List.map_congr_left fun b _ => collCalls_eq b]
    exact together_hang _ _ hex

/-! ### One round -/

theorem round_from_owner {rs : List Rank} (h : Partitions rs) {out : List Info} (ho : updateParAdj rs = .ok out)
    {zero : D} {isZero : D → Bool} {W W' : World D} {b : Nat → Attr} {atts : List Attr} {k ncomp : Nat} {arr : Bool}
    (hk : k < 4) (hb : ∀ p, p < rs.length → atts[p]? = some (b p) ∧ (b p).dim = k ∧ (b p).ncomp = ncomp)
    (hf : Fit rs W b k ncomp arr) (hr : Round rs.length out zero isZero atts W W') (q : Nat) (hq : q < rs.length) :
    FromOwner isZero W W' q (b q) b := by
  obtain ⟨out', ho', hlen, -, -⟩ := C32_partitions_agree h
  have : out' = out := by
    have := ho'.symm.trans ho
    injection this
  subst this
  obtain ⟨V, hV, hfin⟩ := C34_update_partial h ho' hk zero isZero hf.1 hf.2
  obtain ⟨V', plan, steps, net, hV', hplan, -, hex, hdone, hend⟩ := hr.run
  have hVV : ∀ p, p < rs.length → V' p = V p := by
    intro p hp
    obtain ⟨e1, e2, e3⟩ := hb p hp
    have := hV' p (b p) e1 (by omega)
    rw [e3] at this
    have := this.symm.trans (hV p hp)
    injection this
  have hqs := List.getElem?_eq_getElem (l := out') (i := q) (by omega)
  obtain ⟨procs, h1, gh', h2, h3, h4⟩ := hfin plan (by
    intro p s hs
    have hp : p < rs.length := by
      have := (List.getElem?_eq_some_iff.1 hs).1
      omega
    obtain ⟨e1, e2, e3⟩ := hb p hp
    rw [hplan p s (b p) hs e1 (by omega), e2, hVV p hp]; rfl) steps net hex hdone q _ hqs
  obtain ⟨e1, e2, e3⟩ := hb q hq
  obtain ⟨g1, procs', g2, g3⟩ := hend q _ (b q) hqs e1 (by omega)
  have hp : procs' = procs := by
    have := g2.symm.trans h1
    injection this
  rw [hp, e3] at g3
  have hgh : (W' q (b q)).gh = gh' := by
    have := g3.symm.trans h2
    injection this
  refine ⟨g1, by rw [hgh]; exact h3, fun j g hg => ?_⟩
  obtain ⟨o, o1, o2, o3⟩ := h4 j g hg
  exact ⟨o, o1, o2, by rw [hgh]; exact o3⟩

/-! ### All rounds, when all partitions have the same attributes -/

theorem same_rounds (A : List (List Attr)) (us : List Attr) (hA : A ≠ []) (h : ∀ as ∈ A, shared as = us) :
    updateRounds A = .ok (us.map (List.replicate A.length)) := by
  obtain ⟨rounds, h1, h2, h3⟩ := C102_rounds A us.length hA (fun as ha => by rw [h as ha])
  rw [h1]
  congr 1
  apply List.ext_getElem?
  intro k
  by_cases hk : k < us.length
  · obtain ⟨r, h4, h5⟩ := h3 k hk
    rw [h4, List.getElem?_map, List.getElem?_eq_getElem hk]
    have : A.map (fun as => (shared as)[k]?) = (List.replicate A.length us[k]).map some := by
      rw [List.map_replicate, List.eq_replicate_iff]
      refine ⟨List.length_map .., fun x hx => ?_⟩
      obtain ⟨as, ha, rfl⟩ := List.mem_map.1 hx
      rw [h as ha, List.getElem?_eq_getElem hk]
    rw [this] at h5
    rw [List.map_injective_iff.2 (fun _ _ e => Option.some.inj e) h5]; rfl
  · rw [List.getElem?_eq_none (by omega), List.getElem?_eq_none (by rw [List.length_map]; omega)]

/-- The values of the attributes are as they should be. -/
def AllFit (rs : List Rank) (W : World D) (us : List Attr) : Prop :=
  ∀ a ∈ us, a.dim < 4 → Fit rs W (fun _ => a) a.dim a.ncomp a.isArr

theorem Fit.congr {rs : List Rank} {W W' : World D} {a : Attr} {k ncomp : Nat} {arr : Bool}
    (h : Fit rs W (fun _ => a) k ncomp arr) (e : ∀ q, W' q a = W q a) : Fit rs W' (fun _ => a) k ncomp arr := by
  have : sideOf W' (fun _ => a) = sideOf W (fun _ => a) := by
    funext p
    unfold sideOf
    rw [e p]
  unfold Fit
  rw [this]
  refine ⟨h.1, fun p r hr => ?_⟩
  rw [e p]
  exact h.2 p r hr

theorem rounds_from_owner {rs : List Rank} (h : Partitions rs) {out : List Info} (ho : updateParAdj rs = .ok out)
    {zero : D} {isZero : D → Bool} : ∀ (us : List Attr) (W W' : World D), us.Nodup → AllFit rs W us →
    Rounds rs.length out zero isZero (us.map (List.replicate rs.length)) W W' →
    (∀ q a, a ∉ us ∨ 4 ≤ a.dim → W' q a = W q a) ∧
    ∀ a ∈ us, a.dim < 4 → ∀ q, q < rs.length → FromOwner isZero W W' q a (fun _ => a)
  | [], W, W', _, _, hr => by
    cases hr
    exact ⟨fun _ _ _ => rfl, fun a ha => absurd ha List.not_mem_nil⟩
  | a :: us, W, W', hn, hf, hr => by
    cases hr with
    | cons hr1 hr2 =>
      rename_i W₁
      have hn' := List.nodup_cons.1 hn
      have hkeep : ∀ q c, c ≠ a ∨ 4 ≤ c.dim → W₁ q c = W q c := by
        intro q c hc
        apply hr1.keep
        rcases hc with hc | hc
        · left
          rw [List.getElem?_replicate]
          split
          · exact fun e => hc (Option.some.inj e).symm
          · exact fun e => nomatch e
        · exact Or.inr hc
      have hf1 : AllFit rs W₁ us := fun c hc hd =>
        (hf c (List.mem_cons_of_mem _ hc) hd).congr (fun q => hkeep q c (Or.inl (fun e => hn'.1 (e ▸ hc))))
      obtain ⟨i1, i2⟩ := rounds_from_owner h ho us W₁ W' hn'.2 hf1 hr2
      refine ⟨?_, ?_⟩
      · intro q c hc
        have hc' : c ∉ us ∨ 4 ≤ c.dim := hc.imp (fun hc hm => hc (List.mem_cons_of_mem _ hm)) id
        rw [i1 q c hc', hkeep q c (hc.imp (fun hc e => hc (e ▸ List.mem_cons_self ..)) id)]
      · intro c hc hd q hq
        rcases List.mem_cons.1 hc with rfl | hc
        · have := round_from_owner h ho (b := fun _ => c) hd
            (fun p hp => ⟨by rw [List.getElem?_replicate, if_pos hp], rfl, rfl⟩)
            (hf c (List.mem_cons_self ..) hd) hr1 q hq
          unfold FromOwner at this ⊢
          rw [i1 q c (Or.inl hn'.1)]
          exact this
        · have hca : c ≠ a := fun e => hn'.1 (e ▸ hc)
          have := i2 c hc hd q hq
          unfold FromOwner at this ⊢
          simp only [hkeep _ c (Or.inl hca)] at this
          exact this

theorem no_calls (n p : Nat) :
    (⟨fun _ => false, fun _ => false, 0, fun _ => 0, .ids [], .ids []⟩ : Plan (Msg D)).calls n p = [] := by
  unfold Plan.calls
  rw [List.flatMap_eq_nil_iff]
  intro i _
  unfold Plan.round Plan.sends Plan.recvs
  simp

/-- A round can be gone through. -/
theorem round_complete {rs : List Rank} (h : Partitions rs) {out : List Info} (ho : updateParAdj rs = .ok out)
    (zero : D) (isZero : D → Bool) {W : World D} {b : Nat → Attr} {atts : List Attr} {k ncomp : Nat} {arr : Bool}
    (hk : k < 4) (hl : atts.length = rs.length)
    (hb : ∀ p, p < rs.length → atts[p]? = some (b p) ∧ (b p).dim = k ∧ (b p).ncomp = ncomp)
    (hf : Fit rs W b k ncomp arr) : ∃ W', Round rs.length out zero isZero atts W W' := by
  have hat : ∀ {p : Nat} {c : Attr}, atts[p]? = some c →
      p < rs.length ∧ c = b p ∧ c.dim = k ∧ c.ncomp = ncomp := by
    intro p c hc
    have hp := (List.getElem?_eq_some_iff.1 hc).1
    rw [hl] at hp
    obtain ⟨e1, e2, e3⟩ := hb p hp
    rw [hc] at e1
    cases e1
    exact ⟨hp, rfl, e2, e3⟩
  obtain ⟨out', ho', hlen, -, -⟩ := C32_partitions_agree h
  have : out' = out := by
    have := ho'.symm.trans ho
    injection this
  subst this
  obtain ⟨hlay, hside⟩ := hf
  obtain ⟨V, hV, hfin⟩ := C34_update_partial h ho' hk zero isZero hlay hside
  let plan : Nat → Plan (Msg D) := fun p =>
    match out'[p]? with
    | some s => planOf s k (W p (b p)).ov.length (.ids ((W p (b p)).ov.map (·.gid))) (.vals (V p))
    | none => ⟨fun _ => false, fun _ => false, 0, fun _ => 0, .ids [], .ids []⟩
  have hplan : ∀ (p : Nat) (s : Info), out'[p]? = some s →
      plan p = planOf s k (W p (b p)).ov.length (.ids ((W p (b p)).ov.map (·.gid))) (.vals (V p)) := by
    intro p s hs
    show (match out'[p]? with
      | some s => _
      | none => _) = _
    rw [hs]
  obtain ⟨steps, net, hex, hdone⟩ := C33_completes (C33_plans_match h ho' hk plan (by
    intro p r s hr hs
    exact ⟨_, _, by rw [hplan p s hs, (hside p r hr).2]⟩))
  have hg : ∀ q : Fin rs.length, ∃ gh, ∀ s, out'[q.val]? = some s → ∃ procs, ghostPrtns s = .ok procs ∧
      finish isZero ncomp (plan q) rs.length q procs (net.got q) (W q (b q)).gh = .ok gh := by
    intro q
    have hqs := List.getElem?_eq_getElem (l := out') (i := q.val) (by omega)
    obtain ⟨procs, h1, gh', h2, -⟩ := hfin plan hplan steps net hex hdone q.val _ hqs
    refine ⟨gh', fun s hs => ?_⟩
    rw [hqs] at hs
    cases hs
    exact ⟨procs, h1, h2⟩
  choose gh hgh using hg
  let W₁ : World D := fun q c =>
    if hq : q < rs.length ∧ c = b q then ⟨(W q (b q)).ov, gh ⟨q, hq.1⟩⟩ else W q c
  refine ⟨W₁, ?_, V, plan, steps, net, ?_, ?_, ?_, hex, hdone, ?_⟩
  · intro q c hc
    have hne : ¬ (q < rs.length ∧ c = b q) := by
      rintro ⟨hq, rfl⟩
      obtain ⟨e1, e2, -⟩ := hb q hq
      rcases hc with hc | hc
      · exact hc e1
      · omega
    show (if hq : q < rs.length ∧ c = b q then (⟨(W q (b q)).ov, gh ⟨q, hq.1⟩⟩ : Ents D) else W q c) = _
    rw [dif_neg hne]
  · intro p c hc _
    obtain ⟨hp, rfl, -, e⟩ := hat hc
    rw [e]
    exact hV p hp
  · intro p s c hs hc _
    obtain ⟨hp, rfl, e, -⟩ := hat hc
    rw [e]
    exact hplan p s hs
  · intro p c hc hd'
    obtain ⟨hp, -, e, -⟩ := hat hc
    omega
  · intro q s c hs hc _
    obtain ⟨hq, rfl, -, e'⟩ := hat hc
    have e : W₁ q (b q) = ⟨(W q (b q)).ov, gh ⟨q, hq⟩⟩ := by
      show (if hq : q < rs.length ∧ b q = b q then (⟨(W q (b q)).ov, gh ⟨q, hq.1⟩⟩ : Ents D) else W q (b q)) = _
      rw [dif_pos ⟨hq, rfl⟩]
    rw [e, e']
    exact ⟨rfl, hgh ⟨q, hq⟩ s hs⟩

/-- The rounds can be gone through. -/
theorem rounds_complete {rs : List Rank} (h : Partitions rs) {out : List Info} (ho : updateParAdj rs = .ok out)
    (zero : D) (isZero : D → Bool) : ∀ (us : List Attr) (W : World D), us.Nodup → AllFit rs W us →
    ∃ W', Rounds rs.length out zero isZero (us.map (List.replicate rs.length)) W W'
  | [], W, _, _ => ⟨W, .nil W⟩
  | a :: us, W, hn, hf => by
    have hn' := List.nodup_cons.1 hn
    obtain ⟨W₁, hr⟩ : ∃ W₁, Round rs.length out zero isZero (List.replicate rs.length a) W W₁ := by
      by_cases hd : a.dim < 4
      · exact round_complete h ho zero isZero hd List.length_replicate
          (fun p hp => ⟨by rw [List.getElem?_replicate, if_pos hp], rfl, rfl⟩) (hf a (List.mem_cons_self ..) hd)
      · have hat : ∀ {p : Nat} {c : Attr}, (List.replicate rs.length a)[p]? = some c → c = a :=
          fun hc => List.eq_of_mem_replicate (List.mem_of_getElem? hc)
        refine ⟨W, fun _ _ _ => rfl, fun _ => [],
          fun _ => ⟨fun _ => false, fun _ => false, 0, fun _ => 0, .ids [], .ids []⟩, 0, _, ?_, ?_, ?_, .refl _, ?_, ?_⟩
        · intro p c hc hd'
          exact absurd (hat hc ▸ hd') hd
        · intro p s c _ hc hd'
          exact absurd (hat hc ▸ hd') hd
        · intro p c _ _
          exact no_calls rs.length p
        · intro p
          show (if p < rs.length then _ else []) = []
          rw [no_calls]; simp
        · intro q s c _ hc hd'
          exact absurd (hat hc ▸ hd') hd
    have hkeep : ∀ q c, c ≠ a → W₁ q c = W q c := fun q c hc =>
      hr.keep q c (Or.inl (fun e => hc (List.eq_of_mem_replicate (List.mem_of_getElem? e))))
    obtain ⟨W', hw⟩ := rounds_complete h ho zero isZero us W₁ hn'.2 (fun c hc hd =>
      (hf c (List.mem_cons_of_mem _ hc) hd).congr (fun q => hkeep q c (fun e => hn'.1 (e ▸ hc))))
    exact ⟨W', .cons hr hw⟩

/-- **C102** (partial: all partitions must have the same attributes in the same order, pointers aside, and zero is
not passed on; see the negations).  When all partitions update all their attributes, all of them return, in
whichever way the messages are scheduled, and then each ghost has for each attribute of a type of entity that is
no pointer the value of its owner, unless that is zero; pointers, and attributes of all types of entities, are as
they were. -/
theorem C102_update_partial {rs : List Rank} (h : Partitions rs) {out : List Info} (ho : updateParAdj rs = .ok out)
    (zero : D) (isZero : D → Bool) (A : List (List Attr)) (us : List Attr) (hlen : A.length = rs.length) (hA : A ≠ [])
    (hn : us.Nodup) (hs : ∀ as ∈ A, shared as = us) (W : World D) (hf : AllFit rs W us) :
    ∃ rounds, updateRounds A = .ok rounds ∧ (∃ W', Rounds rs.length out zero isZero rounds W W') ∧
      ∀ W', Rounds rs.length out zero isZero rounds W W' →
        (∀ q a, a.type = .pointer ∨ 4 ≤ a.dim → W' q a = W q a) ∧
        ∀ a ∈ us, a.dim < 4 → ∀ q, q < rs.length → FromOwner isZero W W' q a (fun _ => a) := by
  refine ⟨_, same_rounds A us hA hs, ?_, ?_⟩
  · rw [hlen]
    exact rounds_complete h ho zero isZero us W hn hf
  · intro W' hw
    rw [hlen] at hw
    obtain ⟨h1, h2⟩ := rounds_from_owner h ho us W W' hn hf hw
    refine ⟨fun q a ha => h1 q a (ha.imp (fun ha hm => ?_) id), h2⟩
    obtain ⟨as, has⟩ := List.exists_mem_of_ne_nil A hA
    rw [← hs as has] at hm
    have := (List.mem_filter.1 hm).2
    simp [ha] at this

/-! ### Attributes in another order, and examples -/

def attX : Attr := ⟨"x", .int, 0, 1⟩
def attY : Attr := ⟨"y", .int, 0, 1⟩
def attP : Attr := ⟨"p", .pointer, 0, 1⟩

/-- The owner has the value `v` of `x` and `w` of `y`, the ghost `t` of `x` and `u` of `y`. -/
def twoWorld (v w t u : Int) : World Int := fun p a =>
  if a = attX then ⟨(twoSides v t p).ov, (twoSides v t p).gh⟩
  else if a = attY then ⟨(twoSides w u p).ov, (twoSides w u p).gh⟩
  else ⟨[], []⟩

theorem twoSides_fit {W : World Int} {b : Nat → Attr} (v t : Int)
    (e : ∀ p, W p (b p) = ⟨(twoSides v t p).ov, (twoSides v t p).gh⟩) : Fit twoRanks W b 0 1 false := by
  have : sideOf W b = twoSides v t := by
    funext p
    unfold sideOf
    rw [e p]
  refine ⟨by rw [this]; exact twoSides_layout v t, fun p r hr => ?_⟩
  rw [e p]
  exact twoSides_side v t p r hr

/-- the ghost after a round in which its owner had the value `v` -/
theorem twoSides_ghost {W W' : World Int} {b : Nat → Attr} {v t : Int} (hv : v ≠ 0)
    (e : ∀ p, W p (b p) = ⟨(twoSides v t p).ov, (twoSides v t p).gh⟩)
    (h : FromOwner (fun x => x == 0) W W' 1 (b 1) b) : (W' 1 (b 1)).gh = [⟨7, 0, .num v⟩] := by
  obtain ⟨-, h2, h3⟩ := h
  rw [e 1] at h2 h3
  obtain ⟨o, ho, -, hg⟩ := h3 0 ⟨7, 0, .num t⟩ rfl
  rw [e 0] at ho
  rw [List.mem_singleton.1 ho] at hg
  have hz : Value.zero (fun x : Int => x == 0) (.num v) = false := by
    show (v == 0) = false
    simp [hv]
  dsimp only at hg
  rw [hz] at hg
  match hl : (W' 1 (b 1)).gh, h2, hg with
  | [g], _, hg =>
    injection hg with hg
    rw [hg]; rfl

/-- **C102, negation: attributes in another order.** Two partitions have the same two attributes, one of them in
the other order.  Both return, and then, in whichever way the messages are scheduled, the ghost has for each
attribute the value its owner has for the other one. -/
theorem C102_negation_order (v w t u : Int) (hv : v ≠ 0) (hw : w ≠ 0) :
    ∃ out rounds, updateParAdj twoRanks = .ok out ∧ updateRounds [[attX, attY], [attY, attX]] = .ok rounds ∧
      (∃ W', Rounds 2 out 0 (fun x => x == 0) rounds (twoWorld v w t u) W') ∧
      ∀ W', Rounds 2 out 0 (fun x => x == 0) rounds (twoWorld v w t u) W' →
        (W' 0 attX).ov = [⟨7, .num v⟩] ∧ (W' 0 attY).ov = [⟨7, .num w⟩] ∧
        (W' 1 attX).gh = [⟨7, 0, .num w⟩] ∧ (W' 1 attY).gh = [⟨7, 0, .num v⟩] := by
  obtain ⟨out, ho, -⟩ := C32_partitions_agree twoRanks_partitions
  have hxy : attX ≠ attY := by decide
  let b : Nat → Attr := fun p => if p = 0 then attX else attY
  let c : Nat → Attr := fun p => if p = 0 then attY else attX
  have hlen : twoRanks.length = 2 := rfl
  have hb : ∀ p, p < twoRanks.length → [attX, attY][p]? = some (b p) ∧ (b p).dim = 0 ∧ (b p).ncomp = 1 := by
    intro p hp
    rcases (by omega : p = 0 ∨ p = 1) with rfl | rfl <;> exact ⟨rfl, rfl, rfl⟩
  have hc : ∀ p, p < twoRanks.length → [attY, attX][p]? = some (c p) ∧ (c p).dim = 0 ∧ (c p).ncomp = 1 := by
    intro p hp
    rcases (by omega : p = 0 ∨ p = 1) with rfl | rfl <;> exact ⟨rfl, rfl, rfl⟩
  have e1 : ∀ p, twoWorld v w t u p (b p) = ⟨(twoSides v u p).ov, (twoSides v u p).gh⟩ := by
    intro p
    match p with
    | 0 => rfl
    | 1 => rfl
    | p + 2 => rfl
  have keep : ∀ {W₁ : World Int}, Round 2 out 0 (fun x => x == 0) [attX, attY] (twoWorld v w t u) W₁ →
      ∀ p, W₁ p (c p) = ⟨(twoSides w t p).ov, (twoSides w t p).gh⟩ := by
    intro W₁ hr p
    rw [hr.keep p (c p)]
    · match p with
      | 0 => rfl
      | 1 => rfl
      | p + 2 => rfl
    · match p with
      | 0 => exact Or.inl (by decide)
      | 1 => exact Or.inl (by decide)
      | p + 2 => exact Or.inl (fun e => nomatch e)
  refine ⟨out, [[attX, attY], [attY, attX]], ho, by decide +kernel, ?_, ?_⟩
  · obtain ⟨W₁, h1⟩ := round_complete twoRanks_partitions ho 0 (fun x => x == 0) (by omega) rfl hb (twoSides_fit v u e1)
    obtain ⟨W₂, h2⟩ := round_complete twoRanks_partitions ho 0 (fun x => x == 0) (by omega) rfl hc
      (twoSides_fit w t (keep h1))
    exact ⟨W₂, .cons h1 (.cons h2 (.nil _))⟩
  · intro W' hr
    cases hr with
    | cons h1 hr =>
      cases hr with
      | cons h2 hr =>
        cases hr
        have f1 := fun q hq => round_from_owner twoRanks_partitions ho (by omega) hb (twoSides_fit v u e1) h1 q hq
        have f2 := fun q hq => round_from_owner twoRanks_partitions ho (by omega) hc (twoSides_fit w t (keep h1)) h2 q hq
        refine ⟨?_, ?_, twoSides_ghost (b := c) hw (keep h1) (f2 1 (by decide)), ?_⟩
        · rw [h2.keep 0 attX (Or.inl (by decide))]
          exact (f1 0 (by decide)).1
        · rw [show (W' 0 attY).ov = _ from (f2 0 (by decide)).1]
          exact congrArg Ents.ov (keep h1 0)
        · rw [h2.keep 1 attY (Or.inl (by decide))]
          exact twoSides_ghost (b := b) hv e1 (f1 1 (by decide))

/-- the hypotheses of `C102_update_partial`: two partitions, one of which has a pointer in between -/
example (v w t u : Int) : Partitions twoRanks ∧ (∀ as ∈ [[attX, attY], [attX, attP, attY]], shared as = [attX, attY]) ∧
    [attX, attY].Nodup ∧ AllFit twoRanks (twoWorld v w t u) [attX, attY] := by
  refine ⟨twoRanks_partitions, by decide, by decide, ?_⟩
  intro a ha _
  simp only [List.mem_cons, List.not_mem_nil, or_false] at ha
  rcases ha with rfl | rfl
  · exact twoSides_fit v t (fun _ => rfl)
  · exact twoSides_fit w u (fun _ => rfl)

example : updateRounds [[attX, attY], [attX]] = .hang := by decide +kernel

end MSTK.Par
