import Verif.XchngModel
import Verif.Props.Gather

/-!
C83: owners and ghosts on the boundary of partitions exchange their values.
-/
namespace MSTK.Par

variable {D : Type}

/-! ### specification -/

/-- the entities of a partition that take part, each with whether it is on the boundary of the partition -/
structure XSide (D : Type) where
  ov : List (Ov D × Bool)
  gh : List (Gh D × Bool)

/-- the same without the flags -/
def XSide.plain (x : XSide D) : Side D := ⟨x.ov.map (·.1), x.gh.map (·.1)⟩

/-- the value on the ghost of the entity, if there is one among these -/
def ghostValue (gh : List (Gh D)) (owner : Nat) (gid : Int) : Option (Value D) :=
  (gh.find? fun g => decide (g.master = owner ∧ g.gid = gid)).map (·.val)

/-- the value on the ghost of an entity that is on the partition of the lowest rank, among those on the
boundary of their partitions -/
def firstValue (n : Nat) (side : Nat → XSide D) (owner : Nat) (gid : Int) : Option (Value D) :=
  (List.range n).findSome? fun i => if i = owner then none else ghostValue (onBoundary (side i).gh) owner gid

/-- a value that is not zero replaces the old one -/
def replaced (isZero : D → Bool) (old : Value D) : Option (Value D) → Value D
  | none => old
  | some v => if v.zero isZero then old else v

/-- all partitions about to call the function -/
def xchngStart (N : Nums D) (ncomp : Nat) (out : List Info) (k : Nat) (side : Nat → XSide D) :
    PNet (Pack D) (Res (Fetched D)) :=
  ⟨fun p => match out[p]? with
    | some s => xchng N ncomp out.length p ⟨fun i => decide (hasGhosts s i (k : Nat) = .ok 1),
        fun i => decide (hasOverlaps s i (k : Nat) = .ok 1), (side p).ov, (side p).gh⟩
    | none => .ret .ub, fun _ _ => []⟩

/-! ### looking up -/

theorem ghostValue_listed {gh : List (Gh D)} {p : Nat} {o : Ov D} (h : (gh.map (·.gid)).Pairwise (· < ·))
    (hm : o ∈ toOwner gh p) : ghostValue gh p o.gid = some o.val := by
  have hg := toOwner_mem hm
  unfold ghostValue
  cases hf : gh.find? fun g => decide (g.master = p ∧ g.gid = o.gid) with
  | none =>
    have := List.find?_eq_none.1 hf _ hg
    simp at this
  | some g =>
    have h1 := List.mem_of_find?_eq_some hf
    have h2 : g.master = p ∧ g.gid = o.gid := by simpa using List.find?_some hf
    have : g = ⟨o.gid, p, o.val⟩ := by
      obtain ⟨i, hi, ei⟩ := List.mem_iff_getElem.1 h1
      obtain ⟨j, hj, ej⟩ := List.mem_iff_getElem.1 hg
      rw [List.pairwise_map, List.pairwise_iff_getElem] at h
      have hij : i = j := by
        rcases Nat.lt_trichotomy i j with hc | hc | hc
        · have := h i j hi hj hc
          rw [ei, ej] at this
          dsimp only at this
          rw [h2.2] at this
          omega
        · exact hc
        · have := h j i hj hi hc
          rw [ei, ej] at this
          dsimp only at this
          rw [h2.2] at this
          omega
      subst hij
      rw [← ei, ej]
    subst this
    rfl

theorem ghostValue_not_listed {gh : List (Gh D)} {p : Nat} {gid : Int}
    (hm : gid ∉ (toOwner gh p).map (·.gid)) : ghostValue gh p gid = none := by
  unfold ghostValue
  cases hf : gh.find? fun g => decide (g.master = p ∧ g.gid = gid) with
  | none => rfl
  | some g =>
    exfalso
    have h1 := List.mem_of_find?_eq_some hf
    have h2 : g.master = p ∧ g.gid = gid := by simpa using List.find?_some hf
    apply hm
    unfold toOwner
    rw [List.map_map]
    exact List.mem_map.2 ⟨g, List.mem_filter.2 ⟨h1, decide_eq_true h2.1⟩, h2.2⟩

/-- what is found, and the numbers there -/
theorem lookFirst_ok {N : Nums D} {arr : Bool} {ncomp : Nat} {f : Fetched D} {gh : Nat → List (Gh D)} {me : Nat} {gid : Int}
    (hsz : ∀ i ∈ f.procs, f.size i = (toOwner (gh i) me).length)
    (hsort : ∀ i ∈ f.procs, ((gh i).map (·.gid)).Pairwise (· < ·))
    (hfits : ∀ i ∈ f.procs, ∀ g ∈ gh i, Fits arr ncomp g.val)
    (hb : ∀ i ∈ f.procs, f.size i ≠ 0 →
      Holds ncomp f.size f.procs (fun i => (toOwner (gh i) me).map (·.gid)) (fun i => valsFor N ncomp (gh i) me) f.bufs i) :
    ∀ (is : List Nat), (∀ i ∈ is, i ∈ f.procs) →
      (is.findSome? (fun i => ghostValue (gh i) me gid) = none ∧ lookFirst f gid is = .ok none) ∨
      ∃ v ind x, is.findSome? (fun i => ghostValue (gh i) me gid) = some v ∧ lookFirst f gid is = .ok (some ind) ∧
        Fits arr ncomp v ∧ collect N.zero ncomp v = .ok x ∧ readAt f.bufs.vals (ind * ncomp) ncomp = .ok x := by
  intro is
  induction is with
  | nil => intro _; exact Or.inl ⟨rfl, rfl⟩
  | cons i r ih =>
    intro hin
    have hi := hin i List.mem_cons_self
    obtain ⟨pos, hp, -, -⟩ := posOf_some (size := f.size) (acc := 0) hi
    have ha : ∀ j, j < ((toOwner (gh i) me).map (·.gid)).length →
        f.bufs.ids[pos + j]? = (((toOwner (gh i) me).map (·.gid))[j]?).map some := by
      intro j hj
      rw [List.length_map, ← hsz i hi] at hj
      exact (hb i hi (by omega)).ids pos hp j hj
    by_cases hm : gid ∈ (toOwner (gh i) me).map (·.gid)
    · right
      obtain ⟨o, ho, hog⟩ := List.mem_map.1 hm
      obtain ⟨t, ht, hto⟩ := List.mem_iff_getElem.1 ho
      have hto' : (toOwner (gh i) me)[t]? = some o := by rw [List.getElem?_eq_getElem ht, hto]
      have hgv := ghostValue_listed (hsort i hi) ho
      rw [hog] at hgv
      obtain ⟨V, k1, k2, k3⟩ := collectAll_fits (zero := N.zero) (arr := arr) (ncomp := ncomp)
        (l := toOwner (gh i) me) (fun o ho => hfits i hi _ (toOwner_mem ho))
      have hv : valsFor N ncomp (gh i) me = V := by
        unfold valsFor
        rw [k1]
      obtain ⟨x, m1, m2, m3⟩ := k3 t o hto'
      refine ⟨o.val, pos + t, x, ?_, ?_, hfits i hi _ (toOwner_mem ho), m1, ?_⟩
      · rw [List.findSome?_cons, hgv]
      · unfold lookFirst
        rw [hp]
        dsimp only
        rw [bsearchAt_ok (base := pos) (t := t) (toOwner_sorted (hsort i hi)) ha (by
          rw [List.getElem?_map, hto', ← hog]; rfl) _ _ _ rfl (by omega) (by omega)
          (by have := hsz i hi; omega) (by rw [hsz i hi, List.length_map]; exact Nat.le_refl _), Res.bind_ok]
      · refine readAt_ok m2 fun j hj => ?_
        have hpos : f.size i ≠ 0 := by have := hsz i hi; omega
        have hlt : t * ncomp + j < f.size i * ncomp := by
          rw [hsz i hi]
          have := Nat.mul_le_mul_right ncomp (show t + 1 ≤ (toOwner (gh i) me).length from ht)
          rw [Nat.add_mul, Nat.one_mul] at this
          omega
        have := (hb i hi hpos).vals pos hp (t * ncomp + j) hlt
        rw [show (pos + t) * ncomp + j = pos * ncomp + (t * ncomp + j) from by rw [Nat.add_mul]; omega, this, hv,
          m3 j hj]
    · have hgv := ghostValue_not_listed hm
      have hstep : lookFirst f gid (i :: r) = lookFirst f gid r := by
        conv_lhs => unfold lookFirst
        rw [hp]
        dsimp only
        rw [bsearchAt_none ha hm _ _ _ rfl (by omega) (by rw [hsz i hi, List.length_map]; exact Nat.le_refl _),
          Res.bind_ok]
      rw [List.findSome?_cons, hgv, hstep]
      exact ih fun j hj => hin j (List.mem_cons_of_mem _ hj)

theorem findSome_filter {α β : Type} {p : α → Bool} {f g : α → Option β} : ∀ {l : List α},
    (∀ a ∈ l, (if p a then f a else none) = g a) → (l.filter p).findSome? f = l.findSome? g
  | [], _ => rfl
  | a :: l, h => by
    have ih := findSome_filter fun b hb => h b (List.mem_cons_of_mem a hb)
    have ha := h a List.mem_cons_self
    rw [List.findSome?_cons, ← ha, ← ih]
    by_cases hp : p a = true
    · rw [List.filter_cons_of_pos hp, List.findSome?_cons, if_pos hp]
    · rw [List.filter_cons_of_neg hp, if_neg hp]

/-! ### the property -/

/-- **C83 (owners).**  Partial: a zero is not taken. -/
theorem C83_owners_partial {rs : List Rank} (h : Partitions rs) {out : List Info}
    (ho : updateParAdj rs = .ok out) {k : Nat} (hk : k < 4) {side : Nat → XSide D} {arr : Bool} {ncomp : Nat}
    (hlay : Layout rs.length (fun p => (side p).plain) arr ncomp)
    (hsort : ∀ q, q < rs.length → ((side q).gh.map (·.1.gid)).Pairwise (· < ·))
    (hfits : ∀ q, q < rs.length → ∀ g ∈ onBoundary (side q).gh, Fits arr ncomp g.val)
    -- `side` describes the entities of type `k` of the partitions `rs`
    (hside : ∀ (p : Nat) (r : Rank), rs[p]? = some r →
      r.masters k = (side p).gh.map (·.1.master) ∧ r.ovNum k = (side p).ov.length) (N : Nums D) :
    ∃ bound, ∀ steps net, PExec steps (xchngStart N ncomp out k side) net →
      steps ≤ bound ∧
      (¬ net.done → ∃ net', PMust net net') ∧
      (net.done → ∀ p, p < rs.length → ∃ f, net.run p = .ret (.ok f) ∧
        ∃ ov', takeAll N.isZero ncomp f (side p).ov = .ok ov' ∧ ov'.length = (side p).ov.length ∧
        ∀ (j : Nat) (o : Ov D) (onb : Bool), (side p).ov[j]? = some (o, onb) →
          ov'[j]? = some ⟨o.gid,
            if onb then replaced N.isZero o.val (firstValue rs.length side p o.gid) else o.val⟩) := by
  have hsub : ∀ q g, g ∈ onBoundary (side q).gh → g ∈ (side q).plain.gh := by
    intro q g hg
    unfold onBoundary at hg
    obtain ⟨g', h1, rfl⟩ := List.mem_map.1 hg
    exact List.mem_map_of_mem (List.mem_filter.1 h1).1
  have hsort' : ∀ q, q < rs.length → ((onBoundary (side q).gh).map (·.gid)).Pairwise (· < ·) := by
    intro q hq
    have := hsort q hq
    unfold onBoundary
    rw [List.map_map, List.pairwise_map]
    rw [List.pairwise_map] at this
    exact this.sublist List.filter_sublist
  obtain ⟨hlen, hready⟩ := flags_ready h ho hk (gh := fun p => onBoundary (side p).gh) (arr := arr) (ncomp := ncomp)
    (fun q hq g hg => ⟨(hlay.owner q hq g (hsub q g hg)).1, (hlay.owner q hq g (hsub q g hg)).2.1⟩) hsort' hfits
    (fun p r hr g hg => by
      rw [(hside p r hr).1]
      obtain ⟨g', h1, rfl⟩ := List.mem_map.1 (hsub p g hg)
      exact List.mem_map.2 ⟨g', h1, rfl⟩)
  have hp : ∀ p : Fin rs.length, ∃ f : Fetched D,
      Follows ((xchngStart N ncomp out k side).run p) (fetchTrace N ncomp rs.length (flagsG out k)
        (fun p => onBoundary (side p).gh) p) (.ok f) ∧
      ∃ ov', takeAll N.isZero ncomp f (side p).ov = .ok ov' ∧ ov'.length = (side p).ov.length ∧
        ∀ (j : Nat) (o : Ov D) (onb : Bool), (side p).ov[j]? = some (o, onb) →
          ov'[j]? = some ⟨o.gid,
            if onb then replaced N.isZero o.val (firstValue rs.length side p o.gid) else o.val⟩ := by
    rintro ⟨p, hp⟩
    dsimp only
    obtain ⟨hprocs, hnone, size, b, hsize, hholds, hfol⟩ := fetch_follows hready N hp
    refine ⟨⟨size, recvProcs p (flagsO out k p) rs.length, b⟩, ?_, ?_⟩
    · obtain ⟨sp, hp'⟩ : ∃ sp, out[p]? = some sp := ⟨_, List.getElem?_eq_getElem (by omega)⟩
      have : (xchngStart N ncomp out k side).run p =
          fetch N ncomp rs.length p ⟨flagsG out k p, flagsO out k p, (side p).ov.map (·.1), onBoundary (side p).gh⟩
            fun size procs b => .ok ⟨size, procs, b⟩ := by
        unfold xchngStart flagsG flagsO xchng
        dsimp only
        rw [hp', hlen]
      rw [this]
      exact hfol _ _ _
    · have hfirst : ∀ gid, (recvProcs p (flagsO out k p) rs.length).findSome?
          (fun i => ghostValue (onBoundary (side i).gh) p gid) = firstValue rs.length side p gid := by
        intro gid
        unfold recvProcs firstValue
        refine findSome_filter ?_
        intro i hi
        have hi := List.mem_range.1 hi
        by_cases hne : i = p
        · simp [hne]
        · rw [if_neg hne]
          by_cases hov : flagsO out k p i = true
          · simp [hne, hov]
          · have : ghostValue (onBoundary (side i).gh) p gid = none := by
              refine ghostValue_not_listed ?_
              rw [hnone i hi hne (by simpa using hov)]
              simp
            rw [this]
            simp
      have hone : ∀ (o : Ov D) (onb : Bool), (o, onb) ∈ (side p).ov →
          takeOne N.isZero ncomp ⟨size, recvProcs p (flagsO out k p) rs.length, b⟩ (o, onb) = .ok ⟨o.gid,
            if onb then replaced N.isZero o.val (firstValue rs.length side p o.gid) else o.val⟩ := by
        intro o onb hmem
        unfold takeOne
        dsimp only
        cases onb with
        | false => rfl
        | true =>
          rw [if_pos rfl, if_pos rfl, ← hfirst]
          have hkind : o.val.isArr = arr := by
            have := hlay.fits p hp o (List.mem_map.2 ⟨_, hmem, rfl⟩)
            match hv : o.val, this with
            | .num x, hh => exact hh.1.symm
            | .arr (some l), hh => exact hh.1.symm
          rcases lookFirst_ok (N := N) (arr := arr) (ncomp := ncomp)
              (f := ⟨size, recvProcs p (flagsO out k p) rs.length, b⟩)
              (gh := fun i => onBoundary (side i).gh) (me := p) (gid := o.gid)
              (fun i hi => hsize i ((hprocs i).1 hi).1 ((hprocs i).1 hi).2.1)
              (fun i hi => hsort' i ((hprocs i).1 hi).1) (fun i hi => hfits i ((hprocs i).1 hi).1)
              hholds (recvProcs p (flagsO out k p) rs.length) (fun i hi => hi) with ⟨e1, e2⟩ | ⟨v, ind, x, e1, e2, e3, e4, e5⟩
          · rw [e1, e2]
            rfl
          · rw [e1, e2, Res.bind_ok]
            dsimp only at e5 ⊢
            rw [e5, Res.bind_ok, store_spec e3 hkind e4]
            rfl
      obtain ⟨ov', m1, m2, m3⟩ := mapR_ok
        (g := takeOne N.isZero ncomp ⟨size, recvProcs p (flagsO out k p) rs.length, b⟩) (as := (side p).ov)
        (fun o ho => ⟨_, hone o.1 o.2 ho⟩)
      refine ⟨ov', m1, m2, ?_⟩
      intro j o onb hj
      obtain ⟨o', e1, e2⟩ := m3 j _ hj
      rw [hone o onb (List.mem_of_getElem? hj)] at e2
      injection e2 with e2
      rw [e1, e2]
  choose f g1 g2 using hp
  obtain ⟨bound, hb⟩ := fetch_runs (n := rs.length) (N := N) (ncomp := ncomp) (gf := flagsG out k)
    (gh := fun p => onBoundary (side p).gh) (run := (xchngStart N ncomp out k side).run)
    (a := fun p => if hp : p < rs.length then .ok (f ⟨p, hp⟩) else .ub)
    (fun p hp => by rw [dif_pos hp]; exact g1 ⟨p, hp⟩)
    (fun p hp => by
      rw [dif_neg hp]
      have hp' : out[p]? = none := List.getElem?_eq_none (by omega)
      have : (xchngStart N ncomp out k side).run p = .ret .ub := by
        unfold xchngStart
        dsimp only
        rw [hp']
      rw [this]
      exact Follows.ret _)
  refine ⟨bound, fun steps net hx => ?_⟩
  obtain ⟨r1, r2, r3⟩ := hb steps net hx
  refine ⟨r1, r2, ?_⟩
  intro hd p hp
  refine ⟨f ⟨p, hp⟩, ?_, g2 ⟨p, hp⟩⟩
  rw [r3 hd p, dif_pos hp]

/-- **C83.**  Partial: a zero is not passed on.  After the exchange, an owner and its ghost, both on the
boundary of their partitions, have each the value that the other one had, if the ghost is the only such
ghost; all other ghosts have the value of their owner, and other owners keep theirs. -/
theorem C83_exchange_partial {rs : List Rank} (h : Partitions rs) {out : List Info}
    (ho : updateParAdj rs = .ok out) {k : Nat} (hk : k < 4) {side : Nat → XSide D} {arr : Bool} {ncomp : Nat}
    (hlay : Layout rs.length (fun p => (side p).plain) arr ncomp)
    (hsort : ∀ q, q < rs.length → ((side q).gh.map (·.1.gid)).Pairwise (· < ·))
    (hfits : ∀ q, q < rs.length → ∀ g ∈ onBoundary (side q).gh, Fits arr ncomp g.val)
    (hside : ∀ (p : Nat) (r : Rank), rs[p]? = some r →
      r.masters k = (side p).gh.map (·.1.master) ∧ r.ovNum k = (side p).ov.length) (N : Nums D) :
    -- the values of the owners that the update of the ghosts sends
    ∃ V : Nat → List D, (∀ p, p < rs.length → collectAll N.zero ncomp (side p).plain.ov = .ok (V p)) ∧
    ∀ plan : Nat → Plan (Msg D),
      (∀ (p : Nat) (s : Info), out[p]? = some s →
        plan p = planOf s k (side p).plain.ov.length (.ids ((side p).plain.ov.map (·.gid))) (.vals (V p))) →
    -- both communications, in any schedule
    ∀ (steps : Nat) (net : PNet (Pack D) (Res (Fetched D))), PExec steps (xchngStart N ncomp out k side) net → net.done →
    ∀ (steps' : Nat) (net' : Net (Msg D)), Exec steps' (Net.start rs.length plan) net' → net'.done →
    ∃ ov' : Nat → List (Ov D), ∃ gh' : Nat → List (Gh D),
      (∀ p, p < rs.length → ∃ f, net.run p = .ret (.ok f) ∧ takeAll N.isZero ncomp f (side p).ov = .ok (ov' p) ∧
        ∀ (j : Nat) (o : Ov D), (side p).ov[j]? = some (o, false) → (ov' p)[j]? = some o) ∧
      (∀ (q : Nat) (s : Info), out[q]? = some s → ∃ procs, ghostPrtns s = .ok procs ∧
        finish N.isZero ncomp (plan q) rs.length q procs (net'.got q) (side q).plain.gh = .ok (gh' q)) ∧
      ∀ (q : Nat), q < rs.length → ∀ (j : Nat) (g : Gh D) (onb : Bool), (side q).gh[j]? = some (g, onb) →
      ∀ (i : Nat) (o : Ov D) (onb' : Bool), (side g.master).ov[i]? = some (o, onb') → o.gid = g.gid →
        -- the ghost has the value of the owner
        (gh' q)[j]? = some ⟨g.gid, g.master, if o.val.zero N.isZero then g.val else o.val⟩ ∧
        -- the owner has that of the ghost
        (onb = true → onb' = true → (∀ q', q' < rs.length → ∀ g', (g', true) ∈ (side q').gh →
            g'.master = g.master → g'.gid = g.gid → q' = q) →
          (ov' g.master)[i]? = some ⟨g.gid, if g.val.zero N.isZero then o.val else g.val⟩) := by
  obtain ⟨bound, hB⟩ := C83_owners_partial h ho hk hlay hsort hfits hside N
  obtain ⟨V, hV, hU⟩ := C34_update_partial h ho hk N.zero N.isZero hlay (by
    intro p r hr
    unfold XSide.plain
    dsimp only
    rw [List.map_map, List.length_map]
    exact hside p r hr)
  refine ⟨V, hV, ?_⟩
  intro plan hplan steps net hx hd steps' net' hx' hd'
  have hA : ∀ p : Fin rs.length, ∃ ov', ∃ f, net.run p = .ret (.ok f) ∧ takeAll N.isZero ncomp f (side p).ov = .ok ov' ∧
      ov'.length = (side p).ov.length ∧
        ∀ (j : Nat) (o : Ov D) (onb : Bool), (side p).ov[j]? = some (o, onb) →
          ov'[j]? = some ⟨o.gid,
            if onb then replaced N.isZero o.val (firstValue rs.length side p o.gid) else o.val⟩ := by
    intro p
    obtain ⟨f, h1, ov', h2⟩ := (hB steps net hx).2.2 hd p p.isLt
    exact ⟨ov', f, h1, h2⟩
  choose ov' f a1 a2 a3 a4 using hA
  have hlen : out.length = rs.length := by
    obtain ⟨out', hh, hl, -⟩ := C32_partitions_agree h
    have : out' = out := by
      have := hh.symm.trans ho
      injection this
    rw [← this, hl]
  have hG : ∀ q : Fin rs.length, ∃ gh', ∃ s, out[q.val]? = some s ∧ ∃ procs, ghostPrtns s = .ok procs ∧
      finish N.isZero ncomp (plan q) rs.length q procs (net'.got q) (side q).plain.gh = .ok gh' ∧
      ∀ (j : Nat) (g : Gh D), (side q).plain.gh[j]? = some g → ∃ o ∈ (side g.master).plain.ov, o.gid = g.gid ∧
        gh'[j]? = some ⟨g.gid, g.master, if o.val.zero N.isZero then g.val else o.val⟩ := by
    intro q
    have hs := List.getElem?_eq_getElem (l := out) (i := q.val) (by rw [hlen]; exact q.isLt)
    obtain ⟨procs, h1, gh', h2, -, h3⟩ := hU plan hplan steps' net' hx' hd' q _ hs
    exact ⟨gh', _, hs, procs, h1, h2, h3⟩
  choose gh' s b1 procs b2 b3 b4 using hG
  refine ⟨fun p => if hp : p < rs.length then ov' ⟨p, hp⟩ else [], fun p => if hp : p < rs.length then gh' ⟨p, hp⟩ else [],
    ?_, ?_, ?_⟩
  · intro p hp
    refine ⟨f ⟨p, hp⟩, a1 ⟨p, hp⟩, ?_, ?_⟩
    · dsimp only
      rw [dif_pos hp]
      exact a2 ⟨p, hp⟩
    · intro j o hj
      dsimp only
      rw [dif_pos hp, a4 ⟨p, hp⟩ j o false hj]
      rfl
  · intro q sq hs
    have hq : q < rs.length := by
      have := (List.getElem?_eq_some_iff.1 hs).1
      omega
    have hsq : s ⟨q, hq⟩ = sq := by
      have := (b1 ⟨q, hq⟩).symm.trans hs
      injection this
    refine ⟨procs ⟨q, hq⟩, hsq ▸ b2 ⟨q, hq⟩, ?_⟩
    dsimp only
    rw [dif_pos hq]
    exact b3 ⟨q, hq⟩
  · intro q hq j g onb hj i o onb' hi hgid
    have hjp : (side q).plain.gh[j]? = some g := by
      unfold XSide.plain
      dsimp only
      rw [List.getElem?_map, hj]
      rfl
    have hip : (side g.master).plain.ov[i]? = some o := by
      unfold XSide.plain
      dsimp only
      rw [List.getElem?_map, hi]
      rfl
    obtain ⟨hm1, hm2, -⟩ := hlay.owner q hq g (List.mem_of_getElem? hjp)
    refine ⟨?_, ?_⟩
    · dsimp only
      rw [dif_pos hq]
      obtain ⟨o', c1, c2, c3⟩ := b4 ⟨q, hq⟩ j g hjp
      have : o' = o := by
        have hs := hlay.sorted g.master hm2
        rw [List.pairwise_map, List.pairwise_iff_getElem] at hs
        obtain ⟨t, ht, et⟩ := List.mem_iff_getElem.1 c1
        obtain ⟨hi1, hi2⟩ := List.getElem?_eq_some_iff.1 hip
        have hti : t = i := by
          rcases Nat.lt_trichotomy t i with hc | hc | hc
          · have := hs t i ht hi1 hc
            rw [et, hi2, c2, hgid] at this
            omega
          · exact hc
          · have := hs i t hi1 ht hc
            rw [et, hi2, c2, hgid] at this
            omega
        subst hti
        rw [← et, hi2]
      rw [c3, this]
    · rintro rfl rfl honly
      dsimp only
      rw [dif_pos hm2, a4 ⟨g.master, hm2⟩ i o true hi, if_pos rfl, hgid]
      have hfv : firstValue rs.length side g.master g.gid = some g.val := by
        have hat : ghostValue (onBoundary (side q).gh) g.master g.gid = some g.val := by
          refine ghostValue_listed (o := ⟨g.gid, g.val⟩) ?_ ?_
          · have := hsort q hq
            unfold onBoundary
            rw [List.map_map, List.pairwise_map]
            rw [List.pairwise_map] at this
            exact this.sublist List.filter_sublist
          · unfold toOwner onBoundary
            refine List.mem_map.2 ⟨g, List.mem_filter.2 ⟨List.mem_map.2 ⟨(g, true), List.mem_filter.2
              ⟨List.mem_of_getElem? hj, rfl⟩, rfl⟩, by simp⟩, rfl⟩
        have hnot : ∀ q', q' < rs.length → q' ≠ q → ghostValue (onBoundary (side q').gh) g.master g.gid = none := by
          intro q' hq' hne
          refine ghostValue_not_listed ?_
          intro hc
          obtain ⟨o1, ho1, ho2⟩ := List.mem_map.1 hc
          have := toOwner_mem ho1
          unfold onBoundary at this
          obtain ⟨⟨g1, fl⟩, hg1, e⟩ := List.mem_map.1 this
          obtain ⟨hg2, hg3⟩ := List.mem_filter.1 hg1
          dsimp only at e hg3
          subst hg3
          refine hne (honly q' hq' g1 hg2 ?_ ?_)
          · rw [e]
          · rw [e]
            exact ho2
        unfold firstValue
        have hcong : ∀ (l : List Nat), (∀ x ∈ l, x < rs.length) → q ∈ l →
            l.findSome? (fun i => if i = g.master then none else ghostValue (onBoundary (side i).gh) g.master g.gid) =
              some g.val := by
          intro l
          induction l with
          | nil => intro _ hc; cases hc
          | cons x l ih =>
            intro hl hc
            rw [List.findSome?_cons]
            by_cases hx : x = q
            · rw [hx, if_neg (fun hc => hm1 hc.symm), hat]
            · have : (if x = g.master then none else ghostValue (onBoundary (side x).gh) g.master g.gid) = none := by
                split
                · rfl
                · exact hnot x (hl x List.mem_cons_self) hx
              rw [this]
              refine ih (fun y hy => hl y (List.mem_cons_of_mem _ hy)) ?_
              rcases List.mem_cons.1 hc with hc | hc
              · exact absurd hc.symm hx
              · exact hc
        exact hcong _ (fun x hx => List.mem_range.1 hx) (List.mem_range.2 hq)
      rw [hfv]
      rfl

/-! ### concrete cases, and where the property fails -/

/-- two partitions: 1 has a ghost edge of 0 -/
def edgeRanks : List Rank :=
  [⟨setPrtn new 0 2, fun _ => [], fun k => if k = 1 then 1 else 0⟩,
   ⟨setPrtn new 1 2, fun k => if k = 1 then [0] else [], fun _ => 0⟩]

/-- the edge has the global ID 7 and the values `v` and `w`, and is on the boundary of both partitions -/
def edgeSides (v w : Int) : Nat → XSide Int
  | 0 => ⟨[(⟨7, .num v⟩, true)], []⟩
  | 1 => ⟨[], [(⟨7, 0, .num w⟩, true)]⟩
  | _ => ⟨[], []⟩

theorem edgeRanks_partitions : Partitions edgeRanks := by
  refine fresh_partitions (by decide) ?_ ?_
  · intro p r hr
    match p, hr with
    | 0, hr => injection hr with hr; rw [← hr]; rfl
    | 1, hr => injection hr with hr; rw [← hr]; rfl
    | p + 2, hr => simp [edgeRanks] at hr
  · intro r hr k hk m hm
    simp only [edgeRanks, List.mem_cons, List.not_mem_nil, or_false] at hr
    have hlen : edgeRanks.length = 2 := rfl
    rcases hr with rfl | rfl
    · cases hm
    · dsimp only at hm
      split at hm
      · rw [List.mem_singleton.1 hm]; decide
      · cases hm

/-- The theorems apply: in all executions the owner gets the value of the ghost unless it is zero, and the
ghost that of the owner unless it is zero. -/
theorem edges_exchange (v w : Int) : ∃ out, updateParAdj edgeRanks = .ok out ∧
    ∀ (steps : Nat) (net : PNet (Pack Int) (Res (Fetched Int))),
      PExec steps (xchngStart ints 1 out 1 (edgeSides v w)) net → net.done →
      ∃ f, net.run 0 = .ret (.ok f) ∧
        takeAll ints.isZero 1 f (edgeSides v w 0).ov = .ok [⟨7, .num (if w == 0 then v else w)⟩] := by
  have two : ∀ p, p < edgeRanks.length → p = 0 ∨ p = 1 := by
    intro p hp
    have : p < 2 := hp
    omega
  obtain ⟨out, h1, -⟩ := C32_partitions_agree edgeRanks_partitions
  refine ⟨out, h1, ?_⟩
  have hlay : Layout edgeRanks.length (fun p => (edgeSides v w p).plain) false 1 := by
    refine ⟨?_, ?_, ?_, ?_⟩
    · intro p hp
      rcases two p hp with rfl | rfl <;> simp [edgeSides, XSide.plain]
    · intro q hq g hg
      rcases two q hq with rfl | rfl
      · cases hg
      · have : g = ⟨7, 0, .num w⟩ := List.mem_singleton.1 hg
        subst this
        exact ⟨(by decide : (0:Nat) ≠ 1), (by decide : 0 < edgeRanks.length), ⟨7, .num v⟩, List.mem_cons_self, rfl⟩
    · intro p hp o ho
      rcases two p hp with rfl | rfl
      · have : o = ⟨7, .num v⟩ := List.mem_singleton.1 ho
        subst this
        exact ⟨rfl, rfl⟩
      · cases ho
    · intro q hq g hg
      rcases two q hq with rfl | rfl
      · cases hg
      · have : g = ⟨7, 0, .num w⟩ := List.mem_singleton.1 hg
        subst this
        rfl
  obtain ⟨bound, hb⟩ := C83_owners_partial edgeRanks_partitions h1 (k := 1) (by omega) hlay
    (fun q hq => by rcases two q hq with rfl | rfl <;> simp [edgeSides])
    (fun q hq g hg => by
      rcases two q hq with rfl | rfl
      · cases hg
      · have : g = ⟨7, 0, .num w⟩ := List.mem_singleton.1 hg
        subst this
        exact ⟨rfl, rfl⟩)
    (fun p r hr => by
      match p, hr with
      | 0, hr => injection hr with hr; rw [← hr]; exact ⟨rfl, rfl⟩
      | 1, hr => injection hr with hr; rw [← hr]; exact ⟨rfl, rfl⟩
      | p + 2, hr => simp [edgeRanks] at hr) ints
  intro steps net hx hd
  obtain ⟨f, e1, ov', e2, e3, e4⟩ := (hb steps net hx).2.2 hd 0 (show 0 < 2 by omega)
  refine ⟨f, e1, ?_⟩
  rw [e2]
  have e5 := e4 0 ⟨7, .num v⟩ true rfl
  have : firstValue edgeRanks.length (edgeSides v w) 0 7 = some (.num w) := rfl
  dsimp only at e5
  rw [if_pos rfl, this] at e5
  match ov', e3, e5 with
  | [o], _, e5 =>
    injection e5 with e5
    rw [e5]
    unfold replaced Value.zero
    dsimp only
    by_cases hw : (w == 0) = true
    · rw [if_pos hw, if_pos (show ints.isZero w = true from hw)]
    · rw [if_neg hw, if_neg (show ¬ ints.isZero w = true from hw)]

/-- The property fails for a zero: with 5 on the owner and 0 on the ghost, the owner keeps 5. -/
theorem C83_negation_zero : ∃ out, updateParAdj edgeRanks = .ok out ∧
    ∀ (steps : Nat) (net : PNet (Pack Int) (Res (Fetched Int))),
      PExec steps (xchngStart ints 1 out 1 (edgeSides 5 0)) net → net.done →
      ∃ f, net.run 0 = .ret (.ok f) ∧ takeAll ints.isZero 1 f (edgeSides 5 0 0).ov = .ok [⟨7, .num 5⟩] :=
  edges_exchange 5 0

/-- The property fails for VECTOR and TENSOR attributes with one component: owners never change. -/
theorem C83_negation_one_component {isZero : D → Bool} {f : Fetched D} {o : Ov D × Bool} {o' : Ov D}
    {p : Option (List D)} (hv : o.1.val = .arr p) (h : takeOne isZero 1 f o = .ok o') : o' = o.1 := by
  unfold takeOne at h
  split at h
  · obtain ⟨loc, -, h⟩ := Res.bind_eq_ok.1 h
    cases loc with
    | none =>
      injection h with h
      exact h.symm
    | some ind =>
      dsimp only at h
      obtain ⟨x, -, h⟩ := Res.bind_eq_ok.1 h
      injection h with h
      rw [← h, hv]
      unfold store
      dsimp only
      rw [if_pos rfl, ← hv]
  · injection h with h
    exact h.symm

/-- with 3 on the owner and 8 on the ghost, the owner has 8 -/
example : ∃ out, updateParAdj edgeRanks = .ok out ∧
    ∀ (steps : Nat) (net : PNet (Pack Int) (Res (Fetched Int))),
      PExec steps (xchngStart ints 1 out 1 (edgeSides 3 8)) net → net.done →
      ∃ f, net.run 0 = .ret (.ok f) ∧ takeAll ints.isZero 1 f (edgeSides 3 8 0).ov = .ok [⟨7, .num 8⟩] :=
  edges_exchange 3 8

/-- an edge with ghosts on two other partitions: the value of the one with the lower rank is taken -/
example : firstValue 3 (fun p => if p = 0 then ⟨[(⟨7, .num 3⟩, true)], []⟩
    else ⟨[], [(⟨7, 0, .num (10 * p : Int)⟩, true)]⟩) 0 7 = some (.num 10) := rfl

end MSTK.Par
