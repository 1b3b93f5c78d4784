import Verif.Props.Column
/-!
C37 on meshes that need not be columnar: what a successful return of `FixColumnPartitions` tells, and
that it always comes to an end.
-/
namespace MSTK.Column
open Relation

/-- `s` is the other region of the downward face of `r`. -/
def Next (m : Mesh) (r s : Nat) : Prop :=
  ∃ f a b, m.dn r = some f ∧ m.regs f = [a, b] ∧ s = if a = r then b else a

/-- `r` is reached from `t` by going down from region to region. -/
def Reach (m : Mesh) (t r : Nat) : Prop := ReflTransGen (Next m) t r

/-- a column starts at `t`: it is a region of the mesh with an upward face that bounds one region -/
def Starts (m : Mesh) (t : Nat) : Prop := ∃ f, m.up t = some f ∧ (m.regs f).length = 1

theorem Next.det {m : Mesh} {r s s' : Nat} (h : Next m r s) (h' : Next m r s') : s = s' := by
  obtain ⟨f, a, b, h1, h2, h3⟩ := h
  obtain ⟨f', a', b', h1', h2', h3'⟩ := h'
  rw [h1] at h1'; cases h1'
  rw [h2] at h2'; cases h2'
  rw [h3, h3']

theorem reach_cases {m : Mesh} {cur nxt r : Nat} (hn : Next m cur nxt) (h : Reach m cur r) :
    r = cur ∨ Reach m nxt r := by
  rcases ReflTransGen.cases_head h with h1 | ⟨c, h1, h2⟩
  · exact Or.inl h1.symm
  · rw [Next.det hn h1]; exact Or.inr h2

/-- what a successful sweep tells -/
structure Swept (m : Mesh) (home : Int) (cur expected : Nat) (t : List Bool) (p : List Int)
    (t' : List Bool) (p' : List Int) : Prop where
  top : m.up cur = some expected
  fresh : ∀ r, Reach m cur r → t[r]? = some false ∧ t'[r]? = some true
  keepT : ∀ r, ¬ Reach m cur r → t'[r]? = t[r]?
  part : ∀ r, Reach m cur r → r ≠ cur → p'[r]? = some home
  same : p'[cur]? = p[cur]?
  keepP : ∀ r, ¬ Reach m cur r → p'[r]? = p[r]?
  match_ : ∀ r s, Reach m cur r → Next m r s → m.up s = m.dn r

theorem sweep_spec {m : Mesh} {home : Int} : ∀ {fuel cur expected : Nat} {t : List Bool} {p : List Int}
    {t' : List Bool} {p' : List Int}, sweep m home fuel cur expected t p = .ok (t', p') →
    Swept m home cur expected t p t' p' := by
  intro fuel
  induction fuel with
  | zero => intro cur expected t p t' p' h; cases h
  | succ fuel ih =>
    intro cur expected t p t' p' h
    rw [show sweep m home (fuel+1) cur expected t p = (match t[cur]? with
      | none => .ub
      | some true => .fatal
      | some false =>
        match m.up cur, m.dn cur with
        | some topf, some botf =>
          if topf ≠ expected then .fatal
          else match m.regs botf with
            | [r0, r1] =>
              match p[if r0 = cur then r1 else r0]? with
              | none => .ub
              | some nxtpid =>
                sweep m home fuel (if r0 = cur then r1 else r0) botf (t.set cur true)
                  (if nxtpid ≠ home then p.set (if r0 = cur then r1 else r0) home else p)
            | _ => .ok (t.set cur true, p)
        | _, _ => .fatal) from rfl] at h
    cases ht : t[cur]? with
    | none => rw [ht] at h; cases h
    | some b =>
      cases b with
      | true => rw [ht] at h; cases h
      | false =>
        have hlt := (List.getElem?_eq_some_iff.1 ht).1
        rw [ht] at h
        dsimp only at h
        cases hu : m.up cur with
        | none => rw [hu] at h; cases h
        | some topf =>
          cases hd : m.dn cur with
          | none => rw [hu, hd] at h; cases h
          | some botf =>
            rw [hu, hd] at h
            dsimp only at h
            by_cases he : topf = expected
            swap
            · rw [if_pos he] at h; cases h
            subst he
            rw [if_neg (by simp)] at h
            have stop : (∀ a b, m.regs botf ≠ [a, b]) → (Res.ok (t.set cur true, p) = Res.ok (t', p')) →
                Swept m home cur topf t p t' p' := by
              intro hno h
              injection h with h
              injection h with e1 e2
              subst e1; subst e2
              have hnn : ∀ s, ¬ Next m cur s := by
                rintro s ⟨f, a, b, h1, h2, -⟩
                rw [hd] at h1; cases h1
                exact hno a b h2
              have honly : ∀ r, Reach m cur r → r = cur := by
                intro r hr
                rcases ReflTransGen.cases_head hr with h1 | ⟨c, h1, -⟩
                · exact h1.symm
                · exact absurd h1 (hnn c)
              refine ⟨hu, ?_, ?_, ?_, rfl, fun _ _ => rfl, ?_⟩
              · intro r hr
                rw [honly r hr]
                exact ⟨ht, by rw [List.getElem?_set_self hlt]⟩
              · intro r hr
                exact List.getElem?_set_ne (fun (e : cur = r) => hr (e ▸ ReflTransGen.refl))
              · intro r hr hne; exact absurd (honly r hr) hne
              · intro r s hr hn
                rw [honly r hr] at hn
                exact absurd hn (hnn s)
            rcases hr : m.regs botf with _ | ⟨r0, _ | ⟨r1, _ | ⟨r2, l⟩⟩⟩
            · rw [hr] at h stop; exact stop (by simp) h
            · rw [hr] at h stop; exact stop (by simp) h
            · rw [hr] at h
              dsimp only at h
              have hnx : Next m cur (if r0 = cur then r1 else r0) := ⟨botf, r0, r1, hd, hr, rfl⟩
              generalize (if r0 = cur then r1 else r0) = nxt at h hnx
              cases hp : p[nxt]? with
              | none => rw [hp] at h; cases h
              | some npid =>
                have hpl := (List.getElem?_eq_some_iff.1 hp).1
                rw [hp] at h
                dsimp only at h
                have S := ih h
                have hnot : ¬ Reach m nxt cur := by
                  intro hc
                  have := (S.fresh cur hc).1
                  rw [List.getElem?_set_self hlt] at this
                  cases this
                have hP : ∀ r, r ≠ nxt → (if npid ≠ home then p.set nxt home else p)[r]? = p[r]? := by
                  intro r hr
                  split
                  · exact List.getElem?_set_ne (Ne.symm hr)
                  · rfl
                have hPn : (if npid ≠ home then p.set nxt home else p)[nxt]? = some home := by
                  split
                  · exact List.getElem?_set_self hpl
                  · rename_i hh
                    rw [hp, not_not.1 hh]
                have hcn : cur ≠ nxt := fun e => hnot (e ▸ ReflTransGen.refl)
                refine ⟨hu, ?_, ?_, ?_, ?_, ?_, ?_⟩
                · intro r hr
                  rcases reach_cases hnx hr with rfl | hr
                  · refine ⟨ht, ?_⟩
                    rw [S.keepT _ hnot, List.getElem?_set_self hlt]
                  · obtain ⟨f1, f2⟩ := S.fresh r hr
                    rw [List.getElem?_set_ne (fun (e : cur = r) => hnot (e ▸ hr))] at f1
                    exact ⟨f1, f2⟩
                · intro r hr
                  have h1 : ¬ Reach m nxt r := fun h => hr (ReflTransGen.head hnx h)
                  rw [S.keepT r h1]
                  exact List.getElem?_set_ne (fun (e : cur = r) => hr (e ▸ ReflTransGen.refl))
                · intro r hr hne
                  rcases reach_cases hnx hr with rfl | hr
                  · exact absurd rfl hne
                  · by_cases hrn : r = nxt
                    · rw [hrn, S.same, hPn]
                    · exact S.part r hr hrn
                · rw [S.keepP cur hnot, hP cur hcn]
                · intro r hr
                  have h1 : ¬ Reach m nxt r := fun h => hr (ReflTransGen.head hnx h)
                  rw [S.keepP r h1]
                  exact hP r (fun e => h1 (e ▸ ReflTransGen.refl))
                · intro r s hr hn
                  rcases reach_cases hnx hr with rfl | hr
                  · rw [← Next.det hnx hn, S.top, hd]
                  · exact S.match_ r s hr hn
            · rw [hr] at h stop; exact stop (by simp) h

/-- what a successful pass over a list of regions tells -/
structure Passed (m : Mesh) (l : List Nat) (t : List Bool) (p : List Int) (p' : List Int) : Prop where
  fresh : ∀ c ∈ l, Starts m c → ∀ r, Reach m c r → t[r]? = some false ∧ p'[r]? = p[c]?
  keep : ∀ r, (∀ c ∈ l, Starts m c → ¬ Reach m c r) → p'[r]? = p[r]?
  match_ : ∀ c ∈ l, Starts m c → ∀ r s, Reach m c r → Next m r s → m.up s = m.dn r
  apart : l.Pairwise fun c c' => Starts m c → Starts m c' → ∀ r, Reach m c r → ¬ Reach m c' r

theorem outer_spec {m : Mesh} : ∀ {l : List Nat} {t : List Bool} {p : List Int} {t' : List Bool} {p' : List Int},
    outer m l t p = .ok (t', p') → Passed m l t p p' := by
  intro l
  induction l with
  | nil =>
    intro t p t' p' h
    injection h with h
    injection h with e1 e2
    subst e2
    exact ⟨by simp, fun _ _ => rfl, by simp, List.Pairwise.nil⟩
  | cons x l ih =>
    intro t p t' p' h
    have hdef : outer m (x :: l) t p = (match m.up x, m.dn x with
      | some topf, some _ =>
        if (m.regs topf).length = 1 then
          match p[x]? with
          | none => .ub
          | some home => sweep m home (m.order.length + 1) x topf t p >>= fun q => outer m l q.1 q.2
        else outer m l t p
      | _, _ => .fatal) := rfl
    rw [hdef] at h
    cases hu : m.up x with
    | none => rw [hu] at h; cases h
    | some topf =>
      cases hd : m.dn x with
      | none => rw [hu, hd] at h; cases h
      | some botf =>
        rw [hu, hd] at h
        dsimp only at h
        by_cases h1 : (m.regs topf).length = 1
        · rw [if_pos h1] at h
          have hst : Starts m x := ⟨topf, hu, h1⟩
          cases hp : p[x]? with
          | none => rw [hp] at h; cases h
          | some home =>
            rw [hp] at h
            dsimp only at h
            obtain ⟨q, g1, g2⟩ := Res.bind_eq_ok.1 h
            have S := sweep_spec (t' := q.1) (p' := q.2) g1
            have P := ih g2
            -- no later column meets the first one
            have hap : ∀ c ∈ l, Starts m c → ∀ r, Reach m x r → ¬ Reach m c r := by
              intro c hc hs r hr hcr
              have a1 := (P.fresh c hc hs r hcr).1
              rw [(S.fresh r hr).2] at a1
              cases a1
            have hx : ∀ r, Reach m x r → q.2[r]? = p[x]? := by
              intro r hr
              by_cases hrx : r = x
              · rw [hrx]; exact S.same
              · rw [S.part r hr hrx, hp]
            refine ⟨?_, ?_, ?_, ?_⟩
            · intro c hc hs r hr
              rcases List.mem_cons.1 hc with rfl | hc
              · refine ⟨(S.fresh r hr).1, ?_⟩
                rw [P.keep r (fun c' hc' hs' => hap c' hc' hs' r hr)]
                exact hx r hr
              · obtain ⟨f1, f2⟩ := P.fresh c hc hs r hr
                have n1 : ¬ Reach m x r := fun h => hap c hc hs r h hr
                have n2 : ¬ Reach m x c := fun h => hap c hc hs c h ReflTransGen.refl
                rw [S.keepT r n1] at f1
                rw [S.keepP c n2] at f2
                exact ⟨f1, f2⟩
            · intro r hr
              rw [P.keep r (fun c hc => hr c (List.mem_cons_of_mem _ hc))]
              exact S.keepP r (hr x (by simp) hst)
            · intro c hc hs r s hr hn
              rcases List.mem_cons.1 hc with rfl | hc
              · exact S.match_ r s hr hn
              · exact P.match_ c hc hs r s hr hn
            · exact List.pairwise_cons.2 ⟨fun c hc _ hs r hr => hap c hc hs r hr, P.apart⟩
        · rw [if_neg h1] at h
          have P := ih h
          have hst : ¬ Starts m x := by
            rintro ⟨f, hf, hl⟩
            rw [hu] at hf; cases hf
            exact h1 hl
          refine ⟨?_, ?_, ?_, ?_⟩
          · intro c hc hs r hr
            rcases List.mem_cons.1 hc with rfl | hc
            · exact absurd hs hst
            · exact P.fresh c hc hs r hr
          · intro r hr
            exact P.keep r (fun c hc => hr c (List.mem_cons_of_mem _ hc))
          · intro c hc hs r s hr hn
            rcases List.mem_cons.1 hc with rfl | hc
            · exact absurd hs hst
            · exact P.match_ c hc hs r s hr hn
          · exact List.pairwise_cons.2 ⟨fun c hc hs => absurd hs hst, P.apart⟩

/-- **C37, any mesh.**  If `FixColumnPartitions` returns, every region reached by going down from the
top of a column has that top's partition, the others keep theirs; going down, the face below a region
was always the upward face of the next one; and no two columns have a region in common.  (Otherwise
the function reports an error.) -/
theorem C37_any_mesh {m : Mesh} {part part' : List Int} (h : fix m part = .ok part') :
    (∀ c ∈ m.order, Starts m c → ∀ r, Reach m c r → part'[r]? = part[c]?) ∧
    (∀ r, (∀ c ∈ m.order, Starts m c → ¬ Reach m c r) → part'[r]? = part[r]?) ∧
    (∀ c ∈ m.order, Starts m c → ∀ r s, Reach m c r → Next m r s → m.up s = m.dn r) ∧
    m.order.Pairwise (fun c c' => Starts m c → Starts m c' → ∀ r, Reach m c r → ¬ Reach m c' r) := by
  unfold fix at h
  by_cases h0 : m.order.length = 0
  · rw [if_pos h0] at h
    injection h with h
    subst h
    rw [List.length_eq_zero_iff.1 h0]
    exact ⟨by simp, fun _ _ => rfl, by simp, List.Pairwise.nil⟩
  · rw [if_neg h0] at h
    obtain ⟨q, g1, g2⟩ := Res.bind_eq_ok.1 h
    injection g2 with g2
    subst g2
    have P := outer_spec (t' := q.1) (p' := q.2) g1
    exact ⟨fun c hc hs r hr => (P.fresh c hc hs r hr).2, P.keep, P.match_, P.apart⟩

theorem count_set {t : List Bool} {i : Nat} (h : t[i]? = some false) :
    (t.set i true).count false + 1 = t.count false := by
  induction t generalizing i with
  | nil => simp at h
  | cons a t ih =>
    cases i with
    | zero =>
      simp only [List.getElem?_cons_zero, Option.some.injEq] at h
      subst h
      simp
    | succ i =>
      rw [List.getElem?_cons_succ] at h
      have := ih h
      rw [List.set_cons_succ, List.count_cons, List.count_cons]
      omega

theorem sweep_ends {m : Mesh} {home : Int} : ∀ (fuel cur expected : Nat) (t : List Bool) (p : List Int),
    t.count false < fuel → sweep m home fuel cur expected t p ≠ .hang ∧
      ∀ t' p', sweep m home fuel cur expected t p = .ok (t', p') → t'.length = t.length := by
  intro fuel
  induction fuel with
  | zero => intro cur expected t p h; omega
  | succ fuel ih =>
    intro cur expected t p h
    unfold sweep
    cases ht : t[cur]? with
    | none => simp
    | some b =>
      cases b with
      | true => simp
      | false =>
        have hc := count_set ht
        dsimp only
        cases hu : m.up cur with
        | none => simp
        | some topf =>
          cases hd : m.dn cur with
          | none => simp
          | some botf =>
            dsimp only
            split
            · simp
            · split
              · split
                · simp
                · obtain ⟨k1, k2⟩ := ih (if _ = cur then _ else _) botf (t.set cur true) (if _ ≠ home then p.set _ home else p) (by omega)
                  refine ⟨k1, ?_⟩
                  intro t' p' hh
                  rw [k2 t' p' hh, List.length_set]
              · refine ⟨by simp, ?_⟩
                intro t' p' hh
                injection hh with hh
                injection hh with e1 e2
                rw [← e1, List.length_set]

theorem outer_ends {m : Mesh} : ∀ (l : List Nat) (t : List Bool) (p : List Int), t.length ≤ m.order.length →
    outer m l t p ≠ .hang := by
  intro l
  induction l with
  | nil => intro t p _ h; cases h
  | cons x l ih =>
    intro t p hl h
    have hdef : outer m (x :: l) t p = (match m.up x, m.dn x with
      | some topf, some _ =>
        if (m.regs topf).length = 1 then
          match p[x]? with
          | none => .ub
          | some home => sweep m home (m.order.length + 1) x topf t p >>= fun q => outer m l q.1 q.2
        else outer m l t p
      | _, _ => .fatal) := rfl
    rw [hdef] at h
    cases hu : m.up x with
    | none => rw [hu] at h; cases h
    | some topf =>
      cases hd : m.dn x with
      | none => rw [hu, hd] at h; cases h
      | some botf =>
        rw [hu, hd] at h
        dsimp only at h
        split at h
        · cases hp : p[x]? with
          | none => rw [hp] at h; cases h
          | some home =>
            rw [hp] at h
            dsimp only at h
            have hcnt : t.count false < m.order.length + 1 := by
              have := List.count_le_length (a := false) (l := t)
              omega
            obtain ⟨k1, k2⟩ := sweep_ends (m := m) (home := home) (m.order.length + 1) x topf t p hcnt
            cases hs : sweep m home (m.order.length + 1) x topf t p with
            | ok q =>
              rw [hs, Res.bind_ok] at h
              refine ih q.1 q.2 ?_ h
              rw [k2 q.1 q.2 hs]; exact hl
            | ub => rw [hs] at h; cases h
            | fatal => rw [hs] at h; cases h
            | hang => exact k1 hs
        · exact ih t p hl h

/-- **C37, termination.**  On every mesh, columnar or not, the walk down the columns comes to an end. -/
theorem C37_terminates (m : Mesh) (part : List Int) : fix m part ≠ .hang := by
  unfold fix
  split
  · simp
  · intro h
    cases ho : outer m m.order (List.replicate m.order.length false) part with
    | ok q => rw [ho, Res.bind_ok] at h; cases h
    | ub => rw [ho] at h; cases h
    | fatal => rw [ho] at h; cases h
    | hang => exact outer_ends m.order _ part (by simp) ho

/-- a column whose second region has another upward face: reported -/
def crooked : Mesh where
  order := [0, 1]
  up r := some (match r with | 0 => 10 | _ => 11)
  dn r := some r
  regs f := match f with | 10 => [0] | 0 => [0, 1] | 11 => [1, 0] | _ => [1]

/-- a ring of regions below the top: reported, no endless walk -/
def ring : Mesh where
  order := [0, 1, 2]
  up r := some (match r with | 0 => 10 | 1 => 0 | _ => 1)
  dn r := some r
  regs f := match f with | 10 => [0] | 0 => [0, 1] | 1 => [1, 2] | _ => [2, 1]

example : fix crooked [1, 2] = .fatal := by decide
example : fix ring [1, 2, 3] = .fatal := by decide
example : fix exMesh [5, 6, 7, 5] = .ok [5, 5, 7, 7] := by decide
example : Starts exMesh 2 ∧ Reach exMesh 2 3 :=
  ⟨⟨12, rfl, rfl⟩, ReflTransGen.single ⟨2, 3, 2, rfl, rfl, rfl⟩⟩

end MSTK.Column
