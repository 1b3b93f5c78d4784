import Verif.ColumnModel
import Mathlib.Logic.Relation
import Mathlib.Data.List.Nodup
/-!
C37: `FixColumnPartitions` keeps the regions of a column together.
-/
namespace MSTK.Column
open Relation

/-- `s` lies directly below `r`: the downward face of `r` is shared with `s`. -/
def Below (m : Mesh) (r s : Nat) : Prop :=
  s ≠ r ∧ ∃ f, m.dn r = some f ∧ s ∈ m.regs f

/-- `r` is the top of its column: its upward face bounds no other region. -/
def IsTop (m : Mesh) (r : Nat) : Prop := ∃ f, m.up r = some f ∧ m.regs f = [r]

/-- A columnar mesh with `n` regions named 0..n-1: every region has an upward and a downward face, each
of them on the boundary or shared with exactly one other region for which it is the face on the
opposite side, and following regions upwards never comes round in a circle (`depth` grows
downwards). -/
structure Columnar (m : Mesh) (n : Nat) (depth : Nat → Nat) : Prop where
  nodup : m.order.Nodup
  all : ∀ r, r ∈ m.order ↔ r < n
  up : ∀ r, r < n → ∃ f, m.up r = some f ∧ (m.regs f = [r] ∨
    ∃ a, a < n ∧ a ≠ r ∧ m.dn a = some f ∧ (m.regs f = [r, a] ∨ m.regs f = [a, r]))
  dn : ∀ r, r < n → ∃ f, m.dn r = some f ∧ (m.regs f = [r] ∨
    ∃ b, b < n ∧ b ≠ r ∧ m.up b = some f ∧ (m.regs f = [r, b] ∨ m.regs f = [b, r]))
  depth : ∀ r s, r < n → Below m r s → depth r < depth s

variable {m : Mesh} {n : Nat} {depth : Nat → Nat}

theorem Below.lt (hc : Columnar m n depth) {r s : Nat} (hr : r < n) (h : Below m r s) :
    s < n ∧ ∃ f, m.dn r = some f ∧ m.up s = some f ∧ (m.regs f = [r, s] ∨ m.regs f = [s, r]) := by
  obtain ⟨hne, f, hf, hm⟩ := h
  obtain ⟨f', hf', h'⟩ := hc.dn r hr
  rw [hf] at hf'; cases hf'
  rcases h' with h1 | ⟨b, hb, hbr, hup, h2⟩
  · rw [h1] at hm; simp at hm; exact absurd hm hne
  · have : s = b := by
      rcases h2 with h2 | h2 <;> rw [h2] at hm <;> simp at hm <;> omega
    subst this
    exact ⟨hb, f, hf, hup, h2⟩

theorem Below.inj (hc : Columnar m n depth) {r r' s : Nat} (hr : r < n) (hr' : r' < n)
    (h : Below m r s) (h' : Below m r' s) : r = r' := by
  obtain ⟨_, f, _, hu, hl⟩ := Below.lt hc hr h
  obtain ⟨_, f', _, hu', hl'⟩ := Below.lt hc hr' h'
  rw [hu] at hu'; cases hu'
  have h1 := h.1
  have h2 := h'.1
  rcases hl with hl | hl <;> rcases hl' with hl' | hl' <;> rw [hl] at hl' <;> simp at hl' <;> omega

theorem Below.det (hc : Columnar m n depth) {r s s' : Nat} (hr : r < n)
    (h : Below m r s) (h' : Below m r s') : s = s' := by
  obtain ⟨_, f, hd, _, hl⟩ := Below.lt hc hr h
  obtain ⟨_, f', hd', _, hl'⟩ := Below.lt hc hr h'
  rw [hd] at hd'; cases hd'
  have h1 := h.1
  have h2 := h'.1
  rcases hl with hl | hl <;> rcases hl' with hl' | hl' <;> rw [hl] at hl' <;> simp at hl' <;> omega

/-- Column membership: `r` is reached from `t` going down. -/
def Col (m : Mesh) (t r : Nat) : Prop := ReflTransGen (Below m) t r

theorem Col.lt (hc : Columnar m n depth) {t r : Nat} (ht : t < n) (h : Col m t r) : r < n := by
  induction h with
  | refl => exact ht
  | tail _ hb ih => exact (Below.lt hc ih hb).1

theorem Col.depth_le (hc : Columnar m n depth) {t r : Nat} (ht : t < n) (h : Col m t r) : depth t ≤ depth r := by
  induction h with
  | refl => exact Nat.le_refl _
  | tail h hb ih => have := hc.depth _ _ (Col.lt hc ht h) hb; omega

theorem not_below_top (hc : Columnar m n depth) {r t : Nat} (hr : r < n) (ht : IsTop m t) : ¬ Below m r t := by
  intro h
  obtain ⟨_, f, _, hu, hl⟩ := Below.lt hc hr h
  obtain ⟨f', hu', h1⟩ := ht
  rw [hu] at hu'; cases hu'
  rcases hl with hl | hl <;> rw [h1] at hl <;> simp at hl

theorem top_unique (hc : Columnar m n depth) {t t' r : Nat} (ht : t < n) (ht' : t' < n)
    (hT : IsTop m t) (hT' : IsTop m t') (h : Col m t r) (h' : Col m t' r) : t = t' := by
  induction h with
  | refl =>
    cases h' with
    | refl => rfl
    | tail h2 hb => exact absurd hb (not_below_top hc (Col.lt hc ht' h2) hT)
  | tail h1 hb ih =>
    cases h' with
    | refl => exact absurd hb (not_below_top hc (Col.lt hc ht h1) hT')
    | tail h2 hb' =>
      have := Below.inj hc (Col.lt hc ht h1) (Col.lt hc ht' h2) hb hb'
      subst this
      exact ih h2

theorem exists_top (hc : Columnar m n depth) : ∀ d r, depth r = d → r < n → ∃ t, t < n ∧ IsTop m t ∧ Col m t r := by
  intro d
  induction d using Nat.strongRecOn with
  | _ d ih =>
    intro r hd hr
    obtain ⟨f, hf, h⟩ := hc.up r hr
    rcases h with h | ⟨a, ha, har, hdn, hl⟩
    · exact ⟨r, hr, ⟨f, hf, h⟩, ReflTransGen.refl⟩
    · have hb : Below m a r := ⟨fun e => har e.symm, f, hdn, by rcases hl with h | h <;> simp [h]⟩
      have hlt := hc.depth a r ha hb
      obtain ⟨t, ht, hT, hcol⟩ := ih (depth a) (by omega) a rfl ha
      exact ⟨t, ht, hT, hcol.tail hb⟩

/-- everything below a cell of the column is in the column, and members are comparable -/
theorem below_cases (hc : Columnar m n depth) {t r cur nxt : Nat} (ht : t < n) (hcur : Col m t cur)
    (hb : Below m cur nxt) (h : Col m cur r) : r = cur ∨ Col m nxt r := by
  rcases ReflTransGen.cases_head h with h1 | ⟨c, h1, h2⟩
  · exact Or.inl h1.symm
  · have := Below.det hc (Col.lt hc ht hcur) hb h1
    subst this
    exact Or.inr h2

/-- The state while processing: `D r` tells the cells done. -/
structure Inv (m : Mesh) (n : Nat) (part0 : List Int) (D : Nat → Prop) (P : Nat → Prop) (touched : List Bool) (part : List Int) : Prop where
  tl : touched.length = n
  pl : part.length = n
  td : ∀ r, r < n → (touched[r]? = some true ↔ D r)
  /-- cells already assigned have the partition of the top of their column -/
  pa : ∀ r t, r < n → t < n → IsTop m t → Col m t r → P r → part[r]? = part0[t]?
  pn : ∀ r, r < n → ¬ P r → part[r]? = part0[r]?

theorem get_bool_false {l : List Bool} {i : Nat} (h : i < l.length) (hn : ¬ l[i]? = some true) : l[i]? = some false := by
  rw [List.getElem?_eq_getElem h] at hn ⊢
  cases e : l[i] <;> simp_all

/-- One column. `T` is the set of tops done before. -/
theorem sweep_ok (hc : Columnar m n depth) (part0 : List Int) (T : Nat → Prop) (hT : ∀ t, T t → t < n ∧ IsTop m t)
    (t0 : Nat) (ht0 : t0 < n) (hIs : IsTop m t0) (hnew : ¬ T t0) (home : Int) (hhome : part0[t0]? = some home) :
    ∀ fuel cur expected touched part, touched.count false < fuel → Col m t0 cur → m.up cur = some expected →
      Inv m n part0 (fun r => (∃ t, T t ∧ Col m t r) ∨ (Col m t0 r ∧ ¬ Col m cur r))
        (fun r => (∃ t, T t ∧ Col m t r) ∨ (Col m t0 r ∧ (¬ Col m cur r ∨ r = cur))) touched part →
      ∃ touched' part', sweep m home fuel cur expected touched part = .ok (touched', part') ∧
        Inv m n part0 (fun r => ∃ t, (T t ∨ t = t0) ∧ Col m t r) (fun r => ∃ t, (T t ∨ t = t0) ∧ Col m t r) touched' part' := by
  intro fuel
  induction fuel with
  | zero => intro _ _ _ _ h; omega
  | succ fuel ih =>
    intro cur expected touched part hfuel hcol hup inv
    have hcur : cur < n := Col.lt hc ht0 hcol
    have hnotD : ¬ ((∃ t, T t ∧ Col m t cur) ∨ (Col m t0 cur ∧ ¬ Col m cur cur)) := by
      rintro (⟨t, hTt, h⟩ | ⟨_, h⟩)
      · obtain ⟨h1, h2⟩ := hT t hTt
        have := top_unique hc h1 ht0 h2 hIs h hcol
        subst this; exact hnew hTt
      · exact h ReflTransGen.refl
    have hfalse : touched[cur]? = some false :=
      get_bool_false (by rw [inv.tl]; exact hcur) (fun h => hnotD ((inv.td cur hcur).mp h))
    obtain ⟨botf, hdn, hregs⟩ := hc.dn cur hcur
    unfold sweep
    rw [hfalse, hup, hdn]
    simp only [ne_eq, not_true_eq_false, if_false]
    have htd : ∀ r, r < n → ((touched.set cur true)[r]? = some true ↔
        ((∃ t, T t ∧ Col m t r) ∨ (Col m t0 r ∧ ¬ Col m cur r)) ∨ r = cur) := by
      intro r hr
      by_cases e : r = cur
      · subst e
        rw [List.getElem?_set_self (by rw [inv.tl]; exact hr)]
        simp
      · rw [List.getElem?_set_ne (Ne.symm e), inv.td r hr]
        simp [e]
    rcases hregs with h1 | ⟨b, hb, hbr, hupb, h2⟩
    · rw [h1]
      dsimp only
      refine ⟨_, _, rfl, by simp [inv.tl], inv.pl, fun r hr => ?_, fun r t hr ht hti hct hP => ?_, fun r hr hn => ?_⟩
      all_goals
        have hbot : ∀ r, Col m cur r → r = cur := by
          intro r h
          rcases ReflTransGen.cases_head h with h3 | ⟨c, h3, _⟩
          · exact h3.symm
          · obtain ⟨hne, f, hf, hmem⟩ := h3
            rw [hdn] at hf; cases hf
            rw [h1] at hmem; simp at hmem; exact absurd hmem hne
      · rw [htd r hr]
        constructor
        · rintro ((⟨t, h, h'⟩ | ⟨h, _⟩) | rfl)
          · exact ⟨t, Or.inl h, h'⟩
          · exact ⟨t0, Or.inr rfl, h⟩
          · exact ⟨t0, Or.inr rfl, hcol⟩
        · rintro ⟨t, (h | rfl), h'⟩
          · exact Or.inl (Or.inl ⟨t, h, h'⟩)
          · by_cases e : r = cur
            · exact Or.inr e
            · exact Or.inl (Or.inr ⟨h', fun h => e (hbot r h)⟩)
      · apply inv.pa r t hr ht hti hct
        obtain ⟨t', (h | rfl), h'⟩ := hP
        · exact Or.inl ⟨t', h, h'⟩
        · refine Or.inr ⟨h', ?_⟩
          by_cases e : r = cur
          · exact Or.inr e
          · exact Or.inl fun h => e (hbot r h)
      · apply inv.pn r hr
        rintro (⟨t', h, h'⟩ | ⟨h, _⟩)
        · exact hn ⟨t', Or.inl h, h'⟩
        · exact hn ⟨t0, Or.inr rfl, h⟩
    · have hbel : Below m cur b := ⟨hbr, botf, hdn, by rcases h2 with h | h <;> simp [h]⟩
      have hsel : ∃ r0 r1, m.regs botf = [r0, r1] ∧ (if r0 = cur then r1 else r0) = b := by
        rcases h2 with h | h
        · exact ⟨cur, b, h, by simp⟩
        · exact ⟨b, cur, h, by simp [hbr]⟩
      obtain ⟨r0, r1, hreg, hnx⟩ := hsel
      rw [hreg]
      dsimp only
      rw [hnx]
      have hpb : b < part.length := by rw [inv.pl]; exact hb
      rw [List.getElem?_eq_getElem hpb]
      dsimp only
      have hcolb : Col m t0 b := hcol.tail hbel
      have hncol : ¬ Col m b cur := by
        intro h
        have h1 := Col.depth_le hc hb h
        have h2 := hc.depth cur b hcur hbel
        omega
      have hset : ∀ r, (if part[b] ≠ home then part.set b home else part)[r]? =
          if r = b then some home else part[r]? := by
        intro r
        by_cases e : r = b
        · subst e
          by_cases h : part[r] = home
          · rw [if_neg (by simp [h])]; simp [List.getElem?_eq_getElem hpb, h]
          · rw [if_pos h]; simp [List.getElem?_set_self hpb]
        · by_cases h : part[b] = home
          · simp [h, e]
          · rw [if_pos h, List.getElem?_set_ne (Ne.symm e)]; simp [e]
      apply ih b botf _ _ ?_ hcolb hupb
      · refine ⟨by simp [inv.tl], by split <;> simp [inv.pl], fun r hr => ?_, fun r t hr ht hti hct hP => ?_, fun r hr hn => ?_⟩
        · rw [htd r hr]
          constructor
          · rintro ((h | ⟨h, h'⟩) | rfl)
            · exact Or.inl h
            · exact Or.inr ⟨h, fun hb' => h' ((ReflTransGen.single hbel).trans hb')⟩
            · exact Or.inr ⟨hcol, hncol⟩
          · rintro (h | ⟨h, h'⟩)
            · exact Or.inl (Or.inl h)
            · by_cases e : Col m cur r
              · rcases below_cases hc ht0 hcol hbel e with e' | e'
                · exact Or.inr e'
                · exact absurd e' h'
              · exact Or.inl (Or.inr ⟨h, e⟩)
        · rw [hset]
          by_cases e : r = b
          · subst e
            rw [if_pos rfl]
            have := top_unique hc ht ht0 hti hIs hct hcolb
            rw [this, hhome]
          · rw [if_neg e]
            apply inv.pa r t hr ht hti hct
            rcases hP with h | ⟨h, (h' | h')⟩
            · exact Or.inl h
            · refine Or.inr ⟨h, ?_⟩
              by_cases e2 : Col m cur r
              · rcases below_cases hc ht0 hcol hbel e2 with e' | e'
                · exact Or.inr e'
                · exact absurd e' h'
              · exact Or.inl e2
            · exact absurd h' e
        · rw [hset]
          by_cases e : r = b
          · subst e
            exact absurd (Or.inr ⟨hcolb, Or.inr rfl⟩) hn
          · rw [if_neg e]
            apply inv.pn r hr
            rintro (h | ⟨h, (h' | h')⟩)
            · exact hn (Or.inl h)
            · exact hn (Or.inr ⟨h, Or.inl fun hb' => h' ((ReflTransGen.single hbel).trans hb')⟩)
            · subst h'; exact hn (Or.inr ⟨h, Or.inl hncol⟩)
      · have hlt : cur < touched.length := by rw [inv.tl]; exact hcur
        have hcount := List.count_set (l := touched) (i := cur) (a := true) (b := false) hlt
        have hel : touched[cur] = false := by
          rw [List.getElem?_eq_getElem hlt] at hfalse; simpa using hfalse
        rw [hel] at hcount
        have hpos : 0 < touched.count false := List.count_pos_iff.mpr (hel ▸ List.getElem_mem hlt)
        simp at hcount
        omega

theorem outer_ok (hc : Columnar m n depth) (part0 : List Int) :
    ∀ (l done : List Nat) touched part, m.order = done ++ l →
      Inv m n part0 (fun r => ∃ t, (t ∈ done ∧ IsTop m t) ∧ Col m t r) (fun r => ∃ t, (t ∈ done ∧ IsTop m t) ∧ Col m t r) touched part →
      ∃ touched' part', outer m l touched part = .ok (touched', part') ∧
        Inv m n part0 (fun r => ∃ t, (t ∈ m.order ∧ IsTop m t) ∧ Col m t r) (fun r => ∃ t, (t ∈ m.order ∧ IsTop m t) ∧ Col m t r) touched' part' := by
  intro l
  induction l with
  | nil =>
    intro done touched part ho inv
    have : m.order = done := by simpa using ho
    exact ⟨touched, part, rfl, this ▸ inv⟩
  | cons r rest ih =>
    intro done touched part ho inv
    have hr : r < n := (hc.all r).mp (by rw [ho]; simp)
    have hdlt : ∀ t, t ∈ done → t < n := fun t ht => (hc.all t).mp (by rw [ho]; simp [ht])
    obtain ⟨f, hf, hfr⟩ := hc.up r hr
    obtain ⟨g, hg, _⟩ := hc.dn r hr
    have ho' : m.order = (done ++ [r]) ++ rest := by rw [ho]; simp
    unfold outer
    rw [hf, hg]
    dsimp only
    by_cases hlen : (m.regs f).length = 1
    · rw [if_pos hlen]
      have hreg : m.regs f = [r] := by
        rcases hfr with h | ⟨a, _, _, _, h | h⟩
        · exact h
        · rw [h] at hlen; simp at hlen
        · rw [h] at hlen; simp at hlen
      have hIs : IsTop m r := ⟨f, hf, hreg⟩
      have hrp : r < part.length := by rw [inv.pl]; exact hr
      have hnd : r ∉ done := by
        have := hc.nodup
        rw [ho] at this
        intro h
        exact (List.nodup_append.mp this).2.2 r h r (by simp) rfl
      have hhome : part[r]? = part0[r]? := by
        apply inv.pn r hr
        rintro ⟨t, ⟨h1, h2⟩, h3⟩
        have := top_unique hc (hdlt t h1) hr h2 hIs h3 ReflTransGen.refl
        subst this; exact hnd h1
      rw [List.getElem?_eq_getElem hrp]
      dsimp only
      have hh0 : part0[r]? = some part[r] := by rw [← hhome, List.getElem?_eq_getElem hrp]
      obtain ⟨t1, p1, hs, inv1⟩ := sweep_ok hc part0 (fun t => t ∈ done ∧ IsTop m t)
        (fun t h => ⟨hdlt t h.1, h.2⟩) r hr hIs (fun h => hnd h.1) part[r] hh0 (m.order.length + 1) r f touched part
        (by
          have hle := List.count_le_length (a := false) (l := touched)
          rw [inv.tl] at hle
          have : n ≤ m.order.length := by
            have hsub : List.range n ⊆ m.order := fun x hx => (hc.all x).mpr (List.mem_range.mp hx)
            have := (List.nodup_range (n := n)).length_le_of_subset hsub
            simpa using this
          omega)
        ReflTransGen.refl hf
        ⟨inv.tl, inv.pl, fun x hx => by
            rw [inv.td x hx]
            constructor
            · exact fun h => Or.inl h
            · rintro (h | ⟨h, h'⟩)
              · exact h
              · exact absurd h h',
          fun x t hx ht hti hct hP => by
            rcases hP with h | ⟨h, (h' | h')⟩
            · exact inv.pa x t hx ht hti hct h
            · exact absurd h h'
            · subst h'
              have := top_unique hc ht hr hti hIs hct ReflTransGen.refl
              rw [this, hhome],
          fun x hx hn => inv.pn x hx (fun h => hn (Or.inl h))⟩
      rw [hs]
      simp only [Res.bind_ok]
      apply ih (done ++ [r]) t1 p1 ho'
      have heq : ∀ x, (∃ t, ((t ∈ done ∧ IsTop m t) ∨ t = r) ∧ Col m t x) ↔ (∃ t, (t ∈ done ++ [r] ∧ IsTop m t) ∧ Col m t x) := by
        intro x
        constructor
        · rintro ⟨t, (⟨h1, h2⟩ | rfl), h3⟩
          · exact ⟨t, ⟨by simp [h1], h2⟩, h3⟩
          · exact ⟨t, ⟨by simp, hIs⟩, h3⟩
        · rintro ⟨t, ⟨h1, h2⟩, h3⟩
          simp at h1
          rcases h1 with h1 | rfl
          · exact ⟨t, Or.inl ⟨h1, h2⟩, h3⟩
          · exact ⟨t, Or.inr rfl, h3⟩
      exact ⟨inv1.tl, inv1.pl, fun x hx => by rw [inv1.td x hx, heq], fun x t hx ht hti hct hP => inv1.pa x t hx ht hti hct ((heq x).mpr hP),
        fun x hx hn => inv1.pn x hx (fun h => hn ((heq x).mp h))⟩
    · rw [if_neg hlen]
      apply ih (done ++ [r]) touched part ho'
      have hnt : ¬ IsTop m r := by
        rintro ⟨f', hf', h⟩
        rw [hf] at hf'; cases hf'
        rw [h] at hlen; simp at hlen
      have heq : ∀ x, (∃ t, (t ∈ done ∧ IsTop m t) ∧ Col m t x) ↔ (∃ t, (t ∈ done ++ [r] ∧ IsTop m t) ∧ Col m t x) := by
        intro x
        constructor
        · rintro ⟨t, ⟨h1, h2⟩, h3⟩
          exact ⟨t, ⟨by simp [h1], h2⟩, h3⟩
        · rintro ⟨t, ⟨h1, h2⟩, h3⟩
          simp at h1
          rcases h1 with h1 | rfl
          · exact ⟨t, ⟨h1, h2⟩, h3⟩
          · exact absurd h2 hnt
      exact ⟨inv.tl, inv.pl, fun x hx => by rw [inv.td x hx, heq], fun x t hx ht hti hct hP => inv.pa x t hx ht hti hct ((heq x).mpr hP),
        fun x hx hn => inv.pn x hx (fun h => hn ((heq x).mp h))⟩

/-- **C37.** On a columnar mesh and for any initial partitioning, FixColumnPartitions returns normally
(no error exit, no access outside the arrays, no endless loop), every region ends with the partition
of the region directly above it, a region with nothing above keeps its partition, and no new partition
number appears. -/
theorem C37_columns_together (m : Mesh) (n : Nat) (depth : Nat → Nat) (hc : Columnar m n depth)
    (part : List Int) (hp : part.length = n) :
    ∃ part', fix m part = .ok part' ∧ part'.length = n ∧
      (∀ r s, r < n → Below m r s → part'[s]? = part'[r]?) ∧
      (∀ r, r < n → (∀ a, a < n → ¬ Below m a r) → part'[r]? = part[r]?) ∧
      (∀ x ∈ part', x ∈ part) := by
  unfold fix
  by_cases h0 : m.order.length = 0
  · rw [if_pos h0]
    have hn : ∀ r, ¬ r < n := by
      intro r hr
      have := (hc.all r).mpr hr
      rw [List.length_eq_zero_iff.mp h0] at this
      simp at this
    exact ⟨part, rfl, hp, fun r s hr => absurd hr (hn r), fun r hr => absurd hr (hn r), fun x hx => hx⟩
  · rw [if_neg h0]
    have hlen : m.order.length = n := by
      have h1 : n ≤ m.order.length := by
        have hsub : List.range n ⊆ m.order := fun x hx => (hc.all x).mpr (List.mem_range.mp hx)
        have := (List.nodup_range (n := n)).length_le_of_subset hsub
        simpa using this
      have h2 : m.order.length ≤ n := by
        have hsub : m.order ⊆ List.range n := fun x hx => List.mem_range.mpr ((hc.all x).mp hx)
        have := hc.nodup.length_le_of_subset hsub
        simpa using this
      omega
    obtain ⟨t', p', he, inv⟩ := outer_ok hc part m.order [] (List.replicate m.order.length false) part (by simp)
      ⟨by simp [hlen], hp, fun r hr => by
          rw [List.getElem?_replicate]
          split <;> simp, fun r t _ _ _ _ h => by simp at h, fun _ _ _ => rfl⟩
    rw [he]
    have key : ∀ r, r < n → ∃ t, t < n ∧ IsTop m t ∧ Col m t r ∧ p'[r]? = part[t]? := by
      intro r hr
      obtain ⟨t, ht, hT, hcol⟩ := exists_top hc _ r rfl hr
      exact ⟨t, ht, hT, hcol, inv.pa r t hr ht hT hcol ⟨t, ⟨(hc.all t).mpr ht, hT⟩, hcol⟩⟩
    refine ⟨p', rfl, inv.pl, fun r s hr hb => ?_, fun r hr hno => ?_, fun x hx => ?_⟩
    · obtain ⟨hs, _⟩ := Below.lt hc hr hb
      obtain ⟨t, ht, hT, hcol, e⟩ := key r hr
      have hcs : Col m t s := hcol.tail hb
      rw [e, inv.pa s t hs ht hT hcs ⟨t, ⟨(hc.all t).mpr ht, hT⟩, hcs⟩]
    · obtain ⟨t, ht, hT, hcol, e⟩ := key r hr
      rcases ReflTransGen.cases_tail hcol with h | ⟨a, h1, h2⟩
      · rw [e, h]
      · exact absurd h2 (hno a (Col.lt hc ht h1))
    · obtain ⟨i, hi, rfl⟩ := List.mem_iff_getElem.mp hx
      have hin : i < n := by rw [← inv.pl]; exact hi
      obtain ⟨t, ht, hT, hcol, e⟩ := key i hin
      rw [List.getElem?_eq_getElem hi] at e
      exact List.mem_of_getElem? e.symm

/-- A 2x1x2 grid: columns 0 over 1 and 2 over 3 (faces: i = bottom of region i, 10+i = top of i if on the boundary). -/
def exMesh : Mesh where
  order := [0, 1, 2, 3]
  up r := some (match r with | 0 => 10 | 1 => 0 | 2 => 12 | _ => 2)
  dn r := some r
  regs f := match f with | 10 => [0] | 0 => [0, 1] | 1 => [1] | 12 => [2] | 2 => [3, 2] | 3 => [3] | _ => []

example : Columnar exMesh 4 (fun r => r) := by
  refine ⟨by decide, fun r => by simp [exMesh]; omega, fun r hr => ?_, fun r hr => ?_, fun r s hr h => ?_⟩
  · have : r = 0 ∨ r = 1 ∨ r = 2 ∨ r = 3 := by omega
    rcases this with rfl | rfl | rfl | rfl <;> exact ⟨_, rfl, by simp [exMesh]⟩
  · have : r = 0 ∨ r = 1 ∨ r = 2 ∨ r = 3 := by omega
    rcases this with rfl | rfl | rfl | rfl <;> exact ⟨_, rfl, by simp [exMesh]⟩
  · obtain ⟨hne, f, hf, hm⟩ := h
    have : r = 0 ∨ r = 1 ∨ r = 2 ∨ r = 3 := by omega
    rcases this with rfl | rfl | rfl | rfl <;> cases hf <;> simp [exMesh] at hm <;> omega

example : fix exMesh [5, 6, 7, 5] = .ok [5, 5, 7, 7] := by decide

end MSTK.Column
