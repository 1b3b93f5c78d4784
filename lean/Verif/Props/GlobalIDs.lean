import Verif.Numbering
import Verif.Props.Update

/-!
C36: renumbering of global IDs.
-/
namespace MSTK.Par

/-! ### specification -/

/-- The parallel mesh before renumbering, for one type of entity: overlap lists are sorted by global ID
and hold entities that are owned; the ghost list holds exactly the ghosts; each ghost is an overlap
entity of its owner, with the same global ID. -/
structure Setup (rs : List RPart) : Prop where
  ovOwned : ∀ p ∈ rs, ∀ i ∈ p.ov, ∃ e, p.ents[i]? = some e ∧ e.ghost = false
  ovSorted : ∀ p ∈ rs, (p.ov.filterMap fun i => (p.ents[i]?).map (·.gid)).Pairwise (· < ·)
  ghNodup : ∀ p ∈ rs, p.gh.Nodup
  ghIff : ∀ p ∈ rs, ∀ i, i ∈ p.gh ↔ ∃ e, p.ents[i]? = some e ∧ e.ghost = true
  owner : ∀ (q : Nat) (p : RPart), rs[q]? = some p → ∀ (i : Nat) (e : REnt), p.ents[i]? = some e → e.ghost = true →
    e.master ≠ q ∧ ∃ m, rs[e.master]? = some m ∧ ∃ j ∈ m.ov, ∃ e', m.ents[j]? = some e' ∧ e'.gid = e.gid

/-- the number of owned entities of all partitions -/
def total (rs : List RPart) : Nat := (rs.map fun p => p.ents.countP fun e => !e.ghost).sum

/-! ### owned entities -/

/-- **C36, owned entities** (partial: all partitions must have entities of the type, or none; see the
negation).  They get the IDs 1 to `N`, each once, in the order of partitions and within each partition
in the order of the entities. -/
theorem C36_owned_partial {rs : List RPart}
    (h : (∀ p ∈ rs, p.ents ≠ []) ∨ (∀ p ∈ rs, p.ents = [])) :
    ∃ new, renumberNew rs = .ok new ∧ new.length = rs.length ∧
      -- one number for each entity, 0 for ghosts
      (∀ (q : Nat) p, rs[q]? = some p → ∃ l, new[q]? = some l ∧ l.length = p.ents.length ∧
        ∀ (i : Nat) e, p.ents[i]? = some e → ∃ v, l[i]? = some v ∧
          (e.ghost = true → v = 0) ∧ (e.ghost = false → 1 ≤ v ∧ v ≤ total rs)) ∧
      -- increasing by partition and position
      (∀ (q q' : Nat) p p' l l' (i i' : Nat) e e' v v', rs[q]? = some p → rs[q']? = some p' →
        new[q]? = some l → new[q']? = some l' →
        p.ents[i]? = some e → p'.ents[i']? = some e' → l[i]? = some v → l'[i']? = some v' →
        e.ghost = false → e'.ghost = false → (q < q' ∨ q = q' ∧ i < i' ↔ v < v')) ∧
      -- every number is used
      (∀ v, 1 ≤ v → v ≤ total rs → ∃ (q i : Nat) (p : RPart) (e : REnt) (l : List Nat), rs[q]? = some p ∧
        p.ents[i]? = some e ∧ e.ghost = false ∧ new[q]? = some l ∧ l[i]? = some v) := by
  rcases h with h | h
  · by_cases hall : rs.all (fun p => p.ents.isEmpty) = true
    · -- no partitions at all
      have : rs = [] := by
        cases rs with
        | nil => rfl
        | cons p r =>
          exfalso
          have h1 := List.all_eq_true.1 hall p List.mem_cons_self
          exact h p List.mem_cons_self (List.isEmpty_iff.1 h1)
      subst this
      refine ⟨[], rfl, rfl, by simp, by simp, ?_⟩
      intro v h1 h2
      simp [total] at h2
      omega
    · have hne : rs.all (fun p => !p.ents.isEmpty) = true := by
        rw [List.all_eq_true]
        intro p hp
        cases hc : p.ents with
        | nil => exact absurd hc (h p hp)
        | cons a b => rfl
      have htot : ((rs.map (·.ents)).map (nOwned REnt.ghost)).sum = total rs := by
        unfold total nOwned
        rw [List.map_map]
        rfl
      refine ⟨_, by unfold renumberNew; rw [if_neg hall, if_pos hne], ?_, ?_, ?_, ?_⟩
      · unfold numberAll
        rw [List.length_map, List.length_zip, offsets_length]
        simp
      · intro q p hq
        have hm : (rs.map (·.ents))[q]? = some p.ents := by rw [List.getElem?_map, hq]; rfl
        refine ⟨_, numberAll_get hm, assign_length _ _, ?_⟩
        intro i e he
        refine ⟨_, assign_get he, ?_, ?_⟩
        · intro hg; rw [if_pos hg]
        · intro hg
          have := number_range hm he hg
          rw [hg, htot] at *
          simp only [Bool.false_eq_true, if_false]
          omega
      · intro q q' p p' l l' i i' e e' v v' hq hq' hl hl' he he' hv hv' hg hg'
        have hm : (rs.map (·.ents))[q]? = some p.ents := by rw [List.getElem?_map, hq]; rfl
        have hm' : (rs.map (·.ents))[q']? = some p'.ents := by rw [List.getElem?_map, hq']; rfl
        rw [numberAll_get hm] at hl
        rw [numberAll_get hm'] at hl'
        injection hl with hl
        injection hl' with hl'
        rw [← hl, assign_get he, hg] at hv
        rw [← hl', assign_get he', hg'] at hv'
        simp only [Bool.false_eq_true, if_false] at hv hv'
        injection hv with hv
        injection hv' with hv'
        have lt : ∀ {q q' : Nat} {p p' : RPart} {i i' : Nat} {e e' : REnt}, rs[q]? = some p → rs[q']? = some p' →
            p.ents[i]? = some e → p'.ents[i']? = some e' → e.ghost = false → (q < q' ∨ q = q' ∧ i < i') →
            before ((rs.map (·.ents)).map (nOwned REnt.ghost)) q + 1 + nOwned REnt.ghost (p.ents.take i) <
            before ((rs.map (·.ents)).map (nOwned REnt.ghost)) q' + 1 + nOwned REnt.ghost (p'.ents.take i') := by
          intro q q' p p' i i' e e' hq hq' he he' hg hlt
          have hm : (rs.map (·.ents))[q]? = some p.ents := by rw [List.getElem?_map, hq]; rfl
          have h1 := nOwned_take_lt_all he hg
          have h2 := before_succ (l := (rs.map (·.ents)).map (nOwned REnt.ghost)) (r := q)
            (c := nOwned REnt.ghost p.ents) (by rw [List.getElem?_map, hm]; rfl)
          rcases hlt with hlt | ⟨rfl, hlt⟩
          · have := before_mono (l := (rs.map (·.ents)).map (nOwned REnt.ghost)) (r := q+1) (s := q') hlt
            omega
          · rw [hq] at hq'
            injection hq' with hq'
            subst hq'
            have := nOwned_take_lt he hg hlt
            omega
        constructor
        · intro hlt
          have := lt hq hq' he he' hg hlt
          omega
        · intro hvv
          by_contra hc
          by_cases heq : q = q' ∧ i = i'
          · obtain ⟨rfl, rfl⟩ := heq
            rw [hq] at hq'
            injection hq' with hq'
            subst hq'
            omega
          · have := lt hq' hq he' he hg' (by omega)
            omega
      · intro v h1 h2
        obtain ⟨r, i, l, e, k1, k2, k3, k4⟩ := number_surj (ghost := REnt.ghost) (rs := rs.map (·.ents)) h1
          (by rw [htot]; exact h2)
        have k1' := k1
        rw [List.getElem?_map] at k1'
        obtain ⟨p, hp, rfl⟩ := Option.map_eq_some_iff.1 k1'
        refine ⟨r, i, p, e, _, hp, k2, k3, numberAll_get k1, ?_⟩
        rw [assign_get k2, k3, ← k4]
        rfl
  · have hall : rs.all (fun p => p.ents.isEmpty) = true := by
      rw [List.all_eq_true]
      intro p hp
      rw [h p hp]; rfl
    refine ⟨_, by unfold renumberNew; rw [if_pos hall], by simp, ?_, ?_, ?_⟩
    · intro q p hq
      have := h p (List.mem_of_getElem? hq)
      refine ⟨[], by rw [List.getElem?_map, hq]; rfl, by rw [this]; rfl, ?_⟩
      intro i e he
      rw [this] at he
      simp at he
    · intro q q' p p' l l' i i' e e' v v' hq hq' hl hl' he
      rw [h p (List.mem_of_getElem? hq)] at he
      simp at he
    · intro v h1 h2
      exfalso
      have : total rs = 0 := by
        unfold total
        clear h1 h2 hall
        induction rs with
        | nil => rfl
        | cons p r ih =>
          rw [List.map_cons, List.sum_cons, ih (fun p hp => h p (List.mem_cons_of_mem _ hp)), h p List.mem_cons_self]
          rfl
      omega

/-- The property fails when one partition has no entities of the type while another has: the call
never returns. -/
theorem C36_negation_empty_partition (rs : List RPart) (p p' : RPart) (h1 : p ∈ rs) (h2 : p' ∈ rs)
    (e1 : p.ents = []) (e2 : p'.ents ≠ []) : renumberNew rs = .hang := by
  unfold renumberNew
  rw [if_neg, if_neg]
  · intro hc
    have := List.all_eq_true.1 hc p h1
    rw [e1] at this
    exact Bool.noConfusion this
  · intro hc
    have := List.all_eq_true.1 hc p' h2
    exact e2 (List.isEmpty_iff.1 this)

/-! ### ghosts -/

theorem foldl_set {β : Type} (f : β → Int) : ∀ (l : List (Nat × β)) (a : List Int),
    (l.map (·.1)).Nodup → (∀ x ∈ l, x.1 < a.length) →
    (l.foldl (fun a x => a.set x.1 (f x.2)) a).length = a.length ∧
    (∀ x ∈ l, (l.foldl (fun a x => a.set x.1 (f x.2)) a)[x.1]? = some (f x.2)) ∧
    (∀ i, i ∉ l.map (·.1) → (l.foldl (fun a x => a.set x.1 (f x.2)) a)[i]? = a[i]?) := by
  intro l
  induction l with
  | nil => intro a _ _; refine ⟨rfl, ?_, fun i _ => rfl⟩; intro x hx; cases hx
  | cons y l ih =>
    intro a hn hb
    obtain ⟨hy, hn'⟩ := List.nodup_cons.1 hn
    obtain ⟨h1, h2, h3⟩ := ih (a.set y.1 (f y.2)) hn' (fun x hx => by
      rw [List.length_set]; exact hb x (List.mem_cons_of_mem _ hx))
    rw [List.foldl_cons]
    refine ⟨by rw [h1, List.length_set], ?_, ?_⟩
    · intro x hx
      rcases List.mem_cons.1 hx with rfl | hx
      · rw [h3 x.1 hy, List.getElem?_set_self (hb x List.mem_cons_self)]
      · exact h2 x hx
    · intro i hi
      rw [List.map_cons, List.mem_cons, not_or] at hi
      rw [h3 i hi.2, List.getElem?_set_ne (fun e => hi.1 e.symm)]

theorem filterMap_eq_map {α β : Type} {f : α → Option β} {g : α → β} : ∀ {l : List α}, (∀ x ∈ l, f x = some (g x)) →
    l.filterMap f = l.map g := by
  intro l
  induction l with
  | nil => intro _; rfl
  | cons a l ih =>
    intro h
    rw [List.filterMap_cons_some (h a List.mem_cons_self), ih (fun x hx => h x (List.mem_cons_of_mem _ hx))]
    rfl

/-- **C36, ghosts.**  After the exchange, in whichever way it was scheduled, owned entities keep their
new ID and each ghost has the new ID of the entity of its owner that had the same old ID. -/
theorem C36_ghosts {parts : List RPart} (hset : Setup parts)
    (hne : (∀ p ∈ parts, p.ents ≠ []) ∨ (∀ p ∈ parts, p.ents = []))
    {new : List (List Nat)} (hnew : renumberNew parts = .ok new)
    -- the flags of the partitions, for entities of type `k`
    {rs : List Rank} (h : Partitions rs) {out : List Info} (ho : updateParAdj rs = .ok out) {k : Nat} (hk : k < 4)
    (hlen : parts.length = rs.length)
    (hrs : ∀ (q : Nat) (r : Rank) (p : RPart), rs[q]? = some r → parts[q]? = some p →
      r.masters k = p.gh.filterMap (fun i => (p.ents[i]?).map (·.master)) ∧ r.ovNum k = p.ov.length)
    {side : Nat → Side Int}
    (hside : ∀ (q : Nat) (p : RPart) (l : List Nat), parts[q]? = some p → new[q]? = some l →
      side q = ⟨p.ovs l, p.ghs l⟩) :
    ∃ V : Nat → List Int, (∀ q, q < rs.length → collectAll 0 1 (side q).ov = .ok (V q)) ∧
    ∀ plan : Nat → Plan (Msg Int),
      (∀ (q : Nat) (s : Info), out[q]? = some s →
        plan q = planOf s k (side q).ov.length (.ids ((side q).ov.map (·.gid))) (.vals (V q))) →
    ∀ (steps : Nat) (net : Net (Msg Int)), Exec steps (Net.start rs.length plan) net → net.done →
    ∀ (q : Nat) (s : Info) (p : RPart) (l : List Nat), out[q]? = some s → parts[q]? = some p → new[q]? = some l →
    ∃ procs, ghostPrtns s = .ok procs ∧
    ∃ gh', finish (fun x => x == 0) 1 (plan q) rs.length q procs (net.got q) (side q).gh = .ok gh' ∧
      ∀ (i : Nat) (e : REnt), p.ents[i]? = some e →
        (e.ghost = false → (p.final l gh')[i]? = (l[i]?).map fun (x : Nat) => (x : Int)) ∧
        (e.ghost = true → ∃ (m : RPart) (lm : List Nat) (j : Nat) (e' : REnt) (v : Nat),
          parts[e.master]? = some m ∧ new[e.master]? = some lm ∧ m.ents[j]? = some e' ∧ e'.ghost = false ∧
          e'.gid = e.gid ∧ lm[j]? = some v ∧ (p.final l gh')[i]? = some (v : Int)) := by
  obtain ⟨new', hn1, hn2, hn3, -, -⟩ := C36_owned_partial hne
  have : new' = new := by
    have := hn1.symm.trans hnew
    injection this
  subst this
  -- what is sent and what is updated
  have hov : ∀ p ∈ parts, ∀ l : List Nat, p.ovs l =
      p.ov.map fun i => ⟨((p.ents[i]?).map (·.gid)).getD 0, .num (l.getD i 0 : Nat)⟩ := by
    intro p hp l
    unfold RPart.ovs
    apply filterMap_eq_map
    intro i hi
    obtain ⟨e, he, -⟩ := hset.ovOwned p hp i hi
    rw [he]; rfl
  have hgh : ∀ p ∈ parts, ∀ l : List Nat, p.ghs l =
      p.gh.map fun i => ⟨((p.ents[i]?).map (·.gid)).getD 0, ((p.ents[i]?).map (·.master)).getD 0,
        .num (l.getD i 0 : Nat)⟩ := by
    intro p hp l
    unfold RPart.ghs
    apply filterMap_eq_map
    intro i hi
    obtain ⟨e, he, -⟩ := (hset.ghIff p hp i).1 hi
    rw [he]; rfl
  have hall : ∀ q, q < rs.length → ∃ p l, parts[q]? = some p ∧ new'[q]? = some l ∧ p ∈ parts ∧
      side q = ⟨p.ovs l, p.ghs l⟩ := by
    intro q hq
    have h1 := List.getElem?_eq_getElem (l := parts) (i := q) (by omega)
    have h2 := List.getElem?_eq_getElem (l := new') (i := q) (by omega)
    exact ⟨_, _, h1, h2, List.mem_of_getElem? h1, hside q _ _ h1 h2⟩
  have hlay : Layout rs.length side false 1 := by
    constructor
    · intro q hq
      obtain ⟨p, l, h1, h2, h3, h4⟩ := hall q hq
      rw [h4]
      dsimp only
      rw [hov p h3, List.map_map]
      have := hset.ovSorted p h3
      rw [filterMap_eq_map (g := fun i => ((p.ents[i]?).map (·.gid)).getD 0) ?_] at this
      · exact this
      · intro i hi
        obtain ⟨e, he, -⟩ := hset.ovOwned p h3 i hi
        rw [he]; rfl
    · intro q hq g hg
      obtain ⟨p, l, h1, h2, h3, h4⟩ := hall q hq
      rw [h4] at hg
      dsimp only at hg
      rw [hgh p h3] at hg
      obtain ⟨i, hi, rfl⟩ := List.mem_map.1 hg
      obtain ⟨e, he, heg⟩ := (hset.ghIff p h3 i).1 hi
      obtain ⟨k1, m, k2, j, k3, e', k4, k5⟩ := hset.owner q p h1 i e he heg
      rw [he]
      have hmn : e.master < rs.length := by rw [← hlen]; exact (List.getElem?_eq_some_iff.1 k2).1
      obtain ⟨m', lm, h1', h2', h3', h4'⟩ := hall e.master hmn
      rw [k2] at h1'
      injection h1' with h1'
      subst h1'
      refine ⟨k1, hmn, ⟨e'.gid, .num (lm.getD j 0 : Nat)⟩, ?_, k5⟩
      dsimp only [Option.map_some, Option.getD_some]
      rw [h4']
      dsimp only
      rw [hov m h3']
      refine List.mem_map.2 ⟨j, k3, ?_⟩
      rw [k4]; rfl
    · intro q hq o hom
      obtain ⟨p, l, h1, h2, h3, h4⟩ := hall q hq
      rw [h4] at hom
      dsimp only at hom
      rw [hov p h3] at hom
      obtain ⟨i, hi, rfl⟩ := List.mem_map.1 hom
      exact ⟨rfl, rfl⟩
    · intro q hq g hg
      obtain ⟨p, l, h1, h2, h3, h4⟩ := hall q hq
      rw [h4] at hg
      dsimp only at hg
      rw [hgh p h3] at hg
      obtain ⟨i, hi, rfl⟩ := List.mem_map.1 hg
      rfl
  have hsd : ∀ (q : Nat) (r : Rank), rs[q]? = some r →
      r.masters k = (side q).gh.map (·.master) ∧ r.ovNum k = (side q).ov.length := by
    intro q r hr
    have hq := (List.getElem?_eq_some_iff.1 hr).1
    obtain ⟨p, l, h1, h2, h3, h4⟩ := hall q hq
    obtain ⟨k1, k2⟩ := hrs q r p hr h1
    rw [h4]
    dsimp only
    rw [hgh p h3, hov p h3, k1, k2, List.length_map, List.map_map]
    refine ⟨?_, rfl⟩
    apply filterMap_eq_map
    intro i hi
    obtain ⟨e, he, -⟩ := (hset.ghIff p h3 i).1 hi
    simp only [Function.comp_apply, he, Option.map_some, Option.getD_some]
  obtain ⟨V, hV, hmain⟩ := C34_update_partial h ho hk (0 : Int) (fun x => x == 0) hlay hsd
  refine ⟨V, hV, ?_⟩
  intro plan hplan steps net hex hdone q s p l hs hp hl
  obtain ⟨procs, m1, gh', m2, m3, m4⟩ := hmain plan hplan steps net hex hdone q s hs
  refine ⟨procs, m1, gh', m2, ?_⟩
  have hpm := List.mem_of_getElem? hp
  have hsq := hside q p l hp hl
  have hlg : gh'.length = p.gh.length := by
    rw [m3, hsq]
    dsimp only
    rw [hgh p hpm, List.length_map]
  obtain ⟨l', hl', hll, -⟩ := hn3 q p hp
  rw [hl] at hl'
  injection hl' with hl'
  subst hl'
  have hz1 : (p.gh.zip gh').map (·.1) = p.gh := by
    rw [List.map_fst_zip]; omega
  obtain ⟨-, f2, f3⟩ := foldl_set (fun g : Gh Int => g.val.toInt) (p.gh.zip gh') (l.map fun (x : Nat) => (x : Int))
    (by rw [hz1]; exact hset.ghNodup p hpm)
    (by
      intro x hx
      have : x.1 ∈ p.gh := by rw [← hz1]; exact List.mem_map_of_mem hx
      obtain ⟨e, he, -⟩ := (hset.ghIff p hpm x.1).1 this
      rw [List.length_map, hll]
      exact (List.getElem?_eq_some_iff.1 he).1)
  rw [hz1] at f3
  intro i e he
  constructor
  · intro hg
    unfold RPart.final
    rw [f3 i, List.getElem?_map]
    intro hc
    obtain ⟨e2, he2, hg2⟩ := (hset.ghIff p hpm i).1 hc
    rw [he] at he2
    injection he2 with he2
    subst he2
    rw [hg] at hg2
    exact Bool.noConfusion hg2
  · intro hg
    have hi : i ∈ p.gh := (hset.ghIff p hpm i).2 ⟨e, he, hg⟩
    obtain ⟨t, ht, hti⟩ := List.mem_iff_getElem.1 hi
    have hgt : (side q).gh[t]? = some ⟨e.gid, e.master, .num (l.getD i 0 : Nat)⟩ := by
      rw [hsq]
      dsimp only
      rw [hgh p hpm, List.getElem?_map, List.getElem?_eq_getElem ht, hti]
      simp only [Option.map_some, he, Option.getD_some]
    obtain ⟨o, ho1, ho2, ho3⟩ := m4 t _ hgt
    dsimp only at ho1 ho2 ho3
    obtain ⟨k1, m, k2, -⟩ := hset.owner q p hp i e he hg
    have hmn : e.master < rs.length := by rw [← hlen]; exact (List.getElem?_eq_some_iff.1 k2).1
    obtain ⟨m', lm, h1', h2', h3', h4'⟩ := hall e.master hmn
    rw [k2] at h1'
    injection h1' with h1'
    subst h1'
    rw [h4'] at ho1
    dsimp only at ho1
    rw [hov m h3'] at ho1
    obtain ⟨j, hj, rfl⟩ := List.mem_map.1 ho1
    obtain ⟨e', he', heg'⟩ := hset.ovOwned m h3' j hj
    obtain ⟨lm', hlm', -, hlm2⟩ := hn3 e.master m k2
    rw [h2'] at hlm'
    injection hlm' with hlm'
    subst hlm'
    obtain ⟨v, hv1, -, hv2⟩ := hlm2 j e' he'
    have hv3 := (hv2 heg').1
    refine ⟨m, lm, j, e', v, k2, h2', he', heg', ?_, hv1, ?_⟩
    · rw [he'] at ho2
      exact ho2
    · have hval : gh'[t]? = some ⟨e.gid, e.master, .num (v : Int)⟩ := by
        rw [ho3, List.getD_eq_getElem?_getD, hv1, Option.getD_some]
        unfold Value.zero
        dsimp only
        rw [if_neg (by simp; omega)]
      have hz : (i, (⟨e.gid, e.master, .num (v : Int)⟩ : Gh Int)) ∈ p.gh.zip gh' := by
        apply List.mem_of_getElem? (i := t)
        rw [List.getElem?_zip_eq_some]
        exact ⟨by rw [List.getElem?_eq_getElem ht, hti], hval⟩
      unfold RPart.final
      exact f2 _ hz

/-- two partitions, the second with a ghost of the first one's second entity -/
def twoParts : List RPart :=
  [⟨[⟨false, 10, 0⟩, ⟨false, 20, 0⟩], [1], []⟩, ⟨[⟨true, 20, 0⟩, ⟨false, 30, 1⟩], [], [0]⟩]

example : Setup twoParts := by
  constructor
  · intro p hp i hi
    simp only [twoParts, List.mem_cons, List.not_mem_nil, or_false] at hp
    rcases hp with rfl | rfl
    · rw [List.mem_singleton.1 hi]; exact ⟨_, rfl, rfl⟩
    · cases hi
  · intro p hp
    simp only [twoParts, List.mem_cons, List.not_mem_nil, or_false] at hp
    rcases hp with rfl | rfl <;> simp
  · intro p hp
    simp only [twoParts, List.mem_cons, List.not_mem_nil, or_false] at hp
    rcases hp with rfl | rfl <;> simp
  · intro p hp i
    simp only [twoParts, List.mem_cons, List.not_mem_nil, or_false] at hp
    rcases hp with rfl | rfl
    · match i with
      | 0 => simp
      | 1 => simp
      | i + 2 => simp
    · match i with
      | 0 => simp
      | 1 => simp
      | i + 2 => simp
  · intro q p hq i e he hg
    match q, hq with
    | 0, hq =>
      injection hq with hq
      subst hq
      match i, he with
      | 0, he => injection he with he; subst he; cases hg
      | 1, he => injection he with he; subst he; cases hg
      | i + 2, he => simp at he
    | 1, hq =>
      injection hq with hq
      subst hq
      match i, he with
      | 0, he =>
        injection he with he
        subst he
        exact ⟨by decide, _, rfl, 1, List.mem_singleton.2 rfl, _, rfl, rfl⟩
      | 1, he => injection he with he; subst he; cases hg
      | i + 2, he => simp at he
    | q + 2, hq => simp [twoParts] at hq

example : renumberNew twoParts = .ok [[1, 2], [0, 3]] := by decide

end MSTK.Par
