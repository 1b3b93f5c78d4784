import Verif.ClassfnModel
import Verif.Props.DelInterior
import Mathlib.Data.List.Perm.Subperm

/-!
# C72  Classification built from the model regions

`MESH_BuildClassfn` works out on which model faces, edges and vertices the entities of a mesh lie.
-/
namespace MSTK
namespace Topo

/-! ### the specification -/

/-- the model regions on the two sides of a face, 0 for none -/
def sideIDs (T : Topo) (cr : Nat → GEnt) (f : Nat) : Int × Int :=
  ((((T.fr f).1).map (fun r => (cr r).2)).getD 0, (((T.fr f).2).map (fun r => (cr r).2)).getD 0)

/-- The faces lie between the same two model regions. -/
def SameSides (T : Topo) (cr : Nat → GEnt) (f g : Nat) : Prop :=
  T.sideIDs cr f = T.sideIDs cr g ∨ T.sideIDs cr f = (T.sideIDs cr g).swap

/-- The face has the model region `g` on both sides. -/
def Within (T : Topo) (cr : Nat → GEnt) (f : Nat) (g : Int) : Prop :=
  ∃ r s, T.fr f = (some r, some s) ∧ (cr r).2 = g ∧ (cr s).2 = g

/-- Nothing useful is known about the face: it is neither on a model face with a positive ID nor on something
smaller. -/
def Unset (g : GEnt) : Prop := g.1 > 2 ∨ (g.1 = 2 ∧ g.2 ≤ 0)

/-- `x` is the first of the list with its classification, and that is a model entity of dimension `k` with
an ID. -/
def FirstOn (c : Nat → GEnt) (l : List Nat) (k : Nat) (x : Nat) : Prop :=
  (c x).1 = k ∧ (c x).2 ≠ 0 ∧ ∃ pre post, l = pre ++ x :: post ∧ ∀ y ∈ pre, c y ≠ c x

/-- `c'` is the classification of faces found from that of the regions, `cr`, and what was known of the
faces, `c`. -/
structure FacesOn (T : Topo) (fl : List Nat) (cr c c' : Nat → GEnt) : Prop where
  others : ∀ f, f ∉ fl → c' f = c f
  within : ∀ f ∈ fl, ∀ g, T.Within cr f g → c' f = (3, g)
  kept : ∀ f ∈ fl, (∀ g, ¬ T.Within cr f g) → ¬ Unset (c f) → c' f = c f
  face : ∀ f ∈ fl, (∀ g, ¬ T.Within cr f g) → Unset (c f) → (c' f).1 = 2
  same : ∀ f ∈ fl, ∀ g ∈ fl, (∀ a, ¬ T.Within cr f a) → Unset (c f) → (∀ a, ¬ T.Within cr g a) → Unset (c g) →
    ((c' f).2 = (c' g).2 ↔ T.SameSides cr f g)
  known : ∀ f ∈ fl, (∀ g, ¬ T.Within cr f g) → Unset (c f) →
    (∃ g, FirstOn c fl 2 g ∧ T.SameSides cr f g ∧ (c' f).2 = (c g).2) ∨
      ((∀ g, FirstOn c fl 2 g → ¬ T.SameSides cr f g) ∧ 0 < (c' f).2 ∧ ∀ g ∈ fl, (c g).1 = 2 → (c g).2 < (c' f).2)

/-- IDs of the model entities of dimension `k` on which the entries of `l` lie. -/
def modelIDs (k : Nat) (c : Nat → GEnt) (l : List Nat) : List Int := (l.filter (fun x => (c x).1 = k)).map (fun x => (c x).2)

/-- `c'` is the classification of edges found from that of the faces, `cf`, and what was known of the
edges, `c`. -/
structure EdgesOn (T : Topo) (el : List Nat) (cf c c' : Nat → GEnt) : Prop where
  others : ∀ e, e ∉ el → c' e = c e
  alone : ∀ e ∈ el, T.ef e = [] → (c' e).1 = 1
  inside : ∀ e ∈ el, ∀ f l, T.ef e = f :: l → modelIDs 2 cf (T.ef e) = [] → c' e = (3, (cf f).2)
  onFace : ∀ e ∈ el, ∀ a, modelIDs 2 cf (T.ef e) = [a, a] → (c e).1 ≠ 1 → c' e = (2, a)
  edge : ∀ e ∈ el, modelIDs 2 cf (T.ef e) ≠ [] → ((c e).1 = 1 ∨ ∀ a, modelIDs 2 cf (T.ef e) ≠ [a, a]) → (c' e).1 = 1
  same : ∀ e ∈ el, ∀ e' ∈ el, modelIDs 2 cf (T.ef e) ≠ [] → (modelIDs 2 cf (T.ef e)).Nodup →
    modelIDs 2 cf (T.ef e') ≠ [] → (modelIDs 2 cf (T.ef e')).Nodup →
    ((c' e).2 = (c' e').2 ↔ (modelIDs 2 cf (T.ef e)).Perm (modelIDs 2 cf (T.ef e')))
  known : ∀ e ∈ el, modelIDs 2 cf (T.ef e) ≠ [] → (modelIDs 2 cf (T.ef e)).Nodup →
    (∃ g, FirstOn c el 1 g ∧ (modelIDs 2 cf (T.ef e)).Perm (modelIDs 2 cf (T.ef g)) ∧ (c' e).2 = (c g).2) ∨
      ((∀ g, FirstOn c el 1 g → ¬ (modelIDs 2 cf (T.ef e)).Perm (modelIDs 2 cf (T.ef g))) ∧ 0 < (c' e).2 ∧
        ∀ g ∈ el, (c g).1 = 1 → (c g).2 < (c' e).2)

/-- Nobody else is on the model vertex on which `v` is. -/
def Own (vl : List Nat) (c' : Nat → GEnt) (v : Nat) : Prop := (c' v).1 = 0 ∧ ∀ w ∈ vl, w ≠ v → c' w ≠ c' v

/-- `c'` is the classification of vertices found from that of the edges, `ce`, and what was known of the
vertices, `c`. -/
structure VerticesOn (T : Topo) (vl : List Nat) (ce c c' : Nat → GEnt) : Prop where
  others : ∀ v, v ∉ vl → c' v = c v
  alone : ∀ v ∈ vl, T.ve v = [] → Own vl c' v
  inside : ∀ v ∈ vl, ∀ e l, T.ve v = e :: l → modelIDs 1 ce (T.ve v) = [] → modelIDs 2 ce (T.ve v) = [] → c' v = (3, (ce e).2)
  onFace : ∀ v ∈ vl, ∀ a, modelIDs 1 ce (T.ve v) = [] → a ∈ modelIDs 2 ce (T.ve v) → (∀ b ∈ modelIDs 2 ce (T.ve v), b = a) →
    c' v = (2, a)
  touching : ∀ v ∈ vl, ∀ a b, modelIDs 1 ce (T.ve v) = [] → a ∈ modelIDs 2 ce (T.ve v) → b ∈ modelIDs 2 ce (T.ve v) → a ≠ b →
    (∀ x ∈ modelIDs 2 ce (T.ve v), x ≠ 0) → Own vl c' v
  onEdge : ∀ v ∈ vl, ∀ a, modelIDs 1 ce (T.ve v) = [a, a] → (c v).1 ≠ 0 → c' v = (1, a)
  corner : ∀ v ∈ vl, ∀ a, modelIDs 1 ce (T.ve v) = [a, a] → (c v).1 = 0 → Own vl c' v
  vertex : ∀ v ∈ vl, modelIDs 1 ce (T.ve v) ≠ [] → (∀ a, modelIDs 1 ce (T.ve v) ≠ [a, a]) → (c' v).1 = 0
  same : ∀ v ∈ vl, ∀ w ∈ vl, modelIDs 1 ce (T.ve v) ≠ [] → (modelIDs 1 ce (T.ve v)).Nodup →
    (modelIDs 1 ce (T.ve v)).Perm (modelIDs 1 ce (T.ve w)) → c' v = c' w
  differ : (∀ v ∈ vl, (c v).1 = 0 → (c v).2 = 0) → ∀ v ∈ vl, ∀ w ∈ vl, modelIDs 1 ce (T.ve v) ≠ [] →
    (modelIDs 1 ce (T.ve v)).Nodup → modelIDs 1 ce (T.ve w) ≠ [] → (modelIDs 1 ce (T.ve w)).Nodup →
    c' v = c' w → (modelIDs 1 ce (T.ve v)).Perm (modelIDs 1 ce (T.ve w))

/-- Regions: if one has ID 0, all without a positive ID are put in one new model region. -/
structure RegionsOn (rl : List Nat) (c c' : Nat → GEnt) : Prop where
  kept : ∀ r, r ∉ rl ∨ 0 < (c r).2 ∨ (∀ s ∈ rl, (c s).2 ≠ 0) → c' r = c r
  fresh : ∀ r ∈ rl, (c r).2 ≤ 0 → ∀ s ∈ rl, (c s).2 = 0 →
    (c' r).1 = (c r).1 ∧ 0 < (c' r).2 ∧ ∀ x ∈ rl, 0 < (c x).2 → (c x).2 < (c' r).2
  one : ∀ r ∈ rl, ∀ s ∈ rl, (c r).2 ≤ 0 → (c s).2 ≤ 0 → (∃ x ∈ rl, (c x).2 = 0) → (c' r).2 = (c' s).2

/-! ### the table -/

/-- the table `t'` has grown from `t` -/
def Extends (t t' : Known) : Prop :=
  ∃ n, t'.ents = t.ents ++ n ∧ t.top ≤ t'.top ∧ (∀ p ∈ n, t.top < p.1 ∧ p.1 ≤ t'.top) ∧ (n.map Prod.fst).Nodup

theorem Extends.refl (t : Known) : Extends t t := ⟨[], by simp, le_refl _, by simp, by simp⟩

theorem Extends.trans {a b c : Known} (h : Extends a b) (h' : Extends b c) : Extends a c := by
  obtain ⟨n, h1, h2, h3, h4⟩ := h
  obtain ⟨m, k1, k2, k3, k4⟩ := h'
  refine ⟨n ++ m, by rw [k1, h1, List.append_assoc], by omega, ?_, ?_⟩
  · intro p hp
    rcases List.mem_append.1 hp with hp | hp
    · have := h3 p hp; omega
    · have := k3 p hp; omega
  · rw [List.map_append, List.nodup_append]
    refine ⟨h4, k4, ?_⟩
    intro x hx y hy hxy
    obtain ⟨p, hp, rfl⟩ := List.mem_map.1 hx
    obtain ⟨q, hq, rfl⟩ := List.mem_map.1 hy
    have := h3 p hp; have := k3 q hq; omega

/-- the IDs are at most the largest -/
def Bounded (t : Known) : Prop := ∀ p ∈ t.ents, p.1 ≤ t.top

/-- no ID twice -/
def Distinct (t : Known) : Prop := (t.ents.map Prod.fst).Nodup

theorem Extends.bounded {t t' : Known} (h : Extends t t') (hb : Bounded t) : Bounded t' := by
  obtain ⟨n, h1, h2, h3, h4⟩ := h
  intro p hp
  rw [h1, List.mem_append] at hp
  rcases hp with hp | hp
  · have := hb p hp; omega
  · exact (h3 p hp).2

theorem Extends.distinct {t t' : Known} (h : Extends t t') (hb : Bounded t) (hd : Distinct t) : Distinct t' := by
  obtain ⟨n, h1, h2, h3, h4⟩ := h
  unfold Distinct
  rw [h1, List.map_append, List.nodup_append]
  refine ⟨hd, h4, ?_⟩
  intro x hx y hy hxy
  obtain ⟨p, hp, rfl⟩ := List.mem_map.1 hx
  obtain ⟨q, hq, rfl⟩ := List.mem_map.1 hy
  have := hb p hp; have := h3 q hq; omega

theorem find_ext (t : Known) (m : List Int → Bool) (k : List Int) : Extends t (t.find m k).2 := by
  unfold Known.find
  split
  · exact Extends.refl t
  · exact ⟨[(t.top + 1, k)], rfl, by simp, by simp, by simp⟩

theorem skip_ext (t : Known) : Extends t t.skip.2 := ⟨[], by simp [Known.skip], by simp [Known.skip], by simp, by simp⟩

theorem add_ext (t : Known) (k : List Int) : Extends t ⟨t.ents ++ [(t.top + 1, k)], t.top + 1⟩ :=
  ⟨[(t.top + 1, k)], rfl, by simp, by simp, by simp⟩

/-- what was found is still the first match in the table at the end -/
theorem find_final {t tf : Known} {m : List Int → Bool} {k : List Int} (hm : m k = true) (he : Extends (t.find m k).2 tf) :
    ∃ k', tf.ents.find? (fun p => m p.2) = some ((t.find m k).1, k') := by
  obtain ⟨n, h1, -, -, -⟩ := he
  unfold Known.find at h1 ⊢
  cases hf : t.ents.find? (fun p => m p.2) with
  | some p =>
    simp only [hf] at h1 ⊢
    exact ⟨p.2, by rw [h1, List.find?_append, hf]; rfl⟩
  | none =>
    simp only [hf] at h1 ⊢
    exact ⟨k, by rw [h1, List.append_assoc, List.find?_append, hf]; simp [hm]⟩

/-- the ID found is at most the largest afterwards -/
theorem find_le {t : Known} (hb : Bounded t) (m : List Int → Bool) (k : List Int) : (t.find m k).1 ≤ (t.find m k).2.top := by
  unfold Known.find
  split
  · rename_i p hp
    exact hb p (List.mem_of_find?_eq_some hp)
  · exact le_refl _

theorem distinct_eq {t : Known} (hd : Distinct t) {p q : Int × List Int} (hp : p ∈ t.ents) (hq : q ∈ t.ents) (h : p.1 = q.1) :
    p = q := List.inj_on_of_nodup_map hd hp hq h

theorem classLoop_spec {look : Nat → Res (List GEnt)} {step : GEnt → List GEnt → Known → GEnt × Known}
    (hs : ∀ g d t, Extends t (step g d t).2) (d : Nat → List GEnt) : ∀ (xs : List Nat), xs.Nodup →
    (∀ x ∈ xs, look x = .ok (d x)) → ∀ (c : Nat → GEnt) (t : Known), ∃ (c' : Nat → GEnt) (tf : Known) (tab : Nat → Known),
      classLoop look step xs c t = .ok (c', tf) ∧ (∀ x, x ∉ xs → c' x = c x) ∧
      (∀ x ∈ xs, c' x = (step (c x) (d x) (tab x)).1 ∧ Extends t (tab x) ∧ Extends (step (c x) (d x) (tab x)).2 tf) ∧
      xs.Pairwise (fun x y => Extends (step (c x) (d x) (tab x)).2 (tab y)) ∧ Extends t tf := by
  intro xs
  induction xs with
  | nil => intro _ _ c t; exact ⟨c, t, fun _ => t, rfl, by simp, by simp, List.Pairwise.nil, Extends.refl t⟩
  | cons x xs ih =>
    intro hn hl c t
    rw [List.nodup_cons] at hn
    obtain ⟨c', tf, tab, h1, h2, h3, h4, h5⟩ := ih hn.2 (fun y hy => hl y (by simp [hy]))
      (upd c x (step (c x) (d x) t).1) (step (c x) (d x) t).2
    have hne : ∀ y ∈ xs, y ≠ x := fun y hy hyx => hn.1 (hyx ▸ hy)
    have hcy : ∀ y ∈ xs, upd c x (step (c x) (d x) t).1 y = c y := fun y hy => by simp [upd, hne y hy]
    refine ⟨c', tf, upd tab x t, ?_, ?_, ?_, ?_, (hs _ _ _).trans h5⟩
    · rw [classLoop, hl x (by simp), Res.bind_ok, h1]
    · intro y hy
      rw [List.mem_cons, not_or] at hy
      rw [h2 y hy.2]; simp [upd, hy.1]
    · intro y hy
      rcases List.mem_cons.1 hy with rfl | hy
      · rw [h2 y hn.1]
        simp only [upd_same]
        exact ⟨trivial, Extends.refl t, h5⟩
      · have := h3 y hy
        rw [hcy y hy] at this
        rw [show upd tab x t y = tab y by simp [upd, hne y hy]]
        exact ⟨this.1, (hs _ _ _).trans this.2.1, this.2.2⟩
    · rw [List.pairwise_cons]
      refine ⟨?_, ?_⟩
      · intro y hy
        rw [show upd tab x t y = tab y by simp [upd, hne y hy]]
        simp only [upd_same]
        exact (h3 y hy).2.1
      · refine h4.imp_of_mem ?_
        intro y z hy hz hyz
        rw [show upd tab x t y = tab y by simp [upd, hne y hy], show upd tab x t z = tab z by simp [upd, hne z hz]]
        rwa [hcy y hy] at hyz


/-! ### taking stock -/

/-- The first loop of the functions for faces and edges. -/
def stockP (k : Nat) (key : Nat → List Int) (c : Nat → GEnt) : List Nat → Known → Known
  | [], t => t
  | x :: xs, t =>
    if (c x).1 ≠ k then stockP k key c xs t
    else if (c x).2 = 0 then stockP k key c xs t
    else if t.ents.any (fun p => p.1 == (c x).2) then stockP k key c xs t
    else stockP k key c xs ⟨t.ents ++ [((c x).2, key x)], if (c x).2 > t.top then (c x).2 else t.top⟩

/-- the table after taking stock of `pre` -/
structure Stocked (k : Nat) (key : Nat → List Int) (c : Nat → GEnt) (pre : List Nat) (t : Known) : Prop where
  bounded : Bounded t
  distinct : Distinct t
  top : 0 ≤ t.top
  sound : ∀ p ∈ t.ents, ∃ x, FirstOn c pre k x ∧ p = ((c x).2, key x)
  complete : ∀ x, FirstOn c pre k x → ((c x).2, key x) ∈ t.ents
  le : ∀ x ∈ pre, (c x).1 = k → (c x).2 ≤ t.top

theorem FirstOn.append {c : Nat → GEnt} {pre : List Nat} {k x : Nat} (h : FirstOn c pre k x) (l : List Nat) :
    FirstOn c (pre ++ l) k x := by
  obtain ⟨h1, h2, a, b, rfl, h3⟩ := h
  exact ⟨h1, h2, a, b ++ l, by simp, h3⟩

theorem FirstOn.of_append {c : Nat → GEnt} {pre : List Nat} {k x y : Nat} (h : FirstOn c (pre ++ [y]) k x) :
    FirstOn c pre k x ∨ (x = y ∧ ∀ z ∈ pre, c z ≠ c x) := by
  obtain ⟨h1, h2, a, b, h3, h4⟩ := h
  rcases List.eq_nil_or_concat b with rfl | ⟨b', z, rfl⟩
  · rw [← List.concat_eq_append, ← List.concat_eq_append] at h3
    obtain ⟨rfl, rfl⟩ := List.concat_inj.1 h3
    exact .inr ⟨rfl, h4⟩
  · refine .inl ⟨h1, h2, a, b', ?_, h4⟩
    rw [List.concat_eq_append, ← List.cons_append, ← List.append_assoc] at h3
    exact (List.append_inj' h3 rfl).1

/-- an entity that is first or not, on the same model entity as one that is first -/
theorem firstOn_exists {c : Nat → GEnt} {k : Nat} : ∀ {pre : List Nat} {x : Nat}, x ∈ pre → (c x).1 = k → (c x).2 ≠ 0 →
    ∃ y, FirstOn c pre k y ∧ c y = c x := by
  intro pre
  induction pre with
  | nil => intro x hx; simp at hx
  | cons z pre ih =>
    intro x hx h1 h2
    by_cases hz : c z = c x
    · exact ⟨z, ⟨by rw [hz]; exact h1, by rw [hz]; exact h2, [], pre, rfl, by simp⟩, hz⟩
    · rcases List.mem_cons.1 hx with rfl | hx
      · exact absurd rfl hz
      · obtain ⟨y, ⟨k1, k2, a, b, rfl, k3⟩, k4⟩ := ih hx h1 h2
        refine ⟨y, ⟨k1, k2, z :: a, b, rfl, ?_⟩, k4⟩
        intro w hw
        rcases List.mem_cons.1 hw with rfl | hw
        · rw [k4]; exact hz
        · exact k3 w hw

theorem stockP_spec {k : Nat} {key : Nat → List Int} {c : Nat → GEnt} : ∀ (xs pre : List Nat) (t : Known),
    Stocked k key c pre t → Stocked k key c (pre ++ xs) (stockP k key c xs t) := by
  intro xs
  induction xs with
  | nil => intro pre t h; simpa [stockP] using h
  | cons x xs ih =>
    intro pre t h
    rw [← List.singleton_append, ← List.append_assoc, List.singleton_append, stockP]
    have hskip : (∀ y, FirstOn c (pre ++ [x]) k y → FirstOn c pre k y) → ((c x).1 = k → (c x).2 ≤ t.top) →
        Stocked k key c (pre ++ [x]) t := by
      intro hy hx
      refine ⟨h.bounded, h.distinct, h.top, ?_, fun y hf => h.complete y (hy y hf), ?_⟩
      · intro p hp
        obtain ⟨y, h1, h2⟩ := h.sound p hp
        exact ⟨y, h1.append _, h2⟩
      · intro y hy' h1
        rcases List.mem_append.1 hy' with hy' | hy'
        · exact h.le y hy' h1
        · obtain rfl := List.mem_singleton.1 hy'
          exact hx h1
    split
    · rename_i hk
      refine ih _ _ (hskip ?_ (fun h' => absurd h' hk))
      intro y hy
      rcases hy.of_append with h1 | ⟨rfl, -⟩
      · exact h1
      · exact absurd hy.1 hk
    · rename_i hk
      rw [not_not] at hk
      split
      · rename_i h0
        refine ih _ _ (hskip ?_ (fun _ => by rw [h0]; exact h.top))
        intro y hy
        rcases hy.of_append with h1 | ⟨rfl, -⟩
        · exact h1
        · exact absurd h0 hy.2.1
      · rename_i h0
        split
        · rename_i ha
          rw [List.any_eq_true] at ha
          obtain ⟨p, hp, hpe⟩ := ha
          have hpe : p.1 = (c x).2 := by simpa using hpe
          obtain ⟨z, hz, rfl⟩ := h.sound p hp
          have hzc : c z = c x := Prod.ext (by rw [hz.1, hk]) hpe
          have hzm : z ∈ pre := by obtain ⟨-, -, a, b, rfl, -⟩ := hz; simp
          refine ih _ _ (hskip ?_ (fun _ => ?_))
          · intro y hy
            rcases hy.of_append with h1 | ⟨rfl, h2⟩
            · exact h1
            · exact absurd hzc (h2 z hzm)
          · rw [← hpe]; exact h.bounded _ hp
        · rename_i ha
          have ha' : ∀ p ∈ t.ents, p.1 ≠ (c x).2 := by
            intro p hp he
            exact ha (List.any_eq_true.2 ⟨p, hp, by simp [he]⟩)
          have hnew : FirstOn c (pre ++ [x]) k x := by
            refine ⟨hk, h0, pre, [], rfl, ?_⟩
            intro y hy hyx
            obtain ⟨z, hz, hzy⟩ := firstOn_exists (c := c) (k := k) hy (by rw [hyx]; exact hk) (by rw [hyx]; exact h0)
            refine ha' _ (h.complete z hz) ?_
            rw [← hyx, ← hzy]
          refine ih _ _ ⟨?_, ?_, ?_, ?_, ?_, ?_⟩
          · intro p hp
            show p.1 ≤ if (c x).2 > t.top then (c x).2 else t.top
            rcases List.mem_append.1 hp with hp | hp
            · have := h.bounded p hp
              split <;> omega
            · obtain rfl := List.mem_singleton.1 hp
              split <;> simp_all
          · show (List.map Prod.fst (t.ents ++ _)).Nodup
            rw [List.map_append, List.nodup_append]
            refine ⟨h.distinct, by simp, ?_⟩
            intro a ha1 b hb hab
            obtain ⟨p, hp, rfl⟩ := List.mem_map.1 ha1
            simp only [List.map_cons, List.map_nil, List.mem_singleton] at hb
            exact ha' p hp (by rw [hab, hb])
          · show (0 : Int) ≤ if (c x).2 > t.top then (c x).2 else t.top
            have := h.top
            split <;> omega
          · intro p hp
            rcases List.mem_append.1 hp with hp | hp
            · obtain ⟨y, h1, h2⟩ := h.sound p hp
              exact ⟨y, h1.append _, h2⟩
            · exact ⟨x, hnew, List.mem_singleton.1 hp⟩
          · intro y hy
            rcases hy.of_append with h1 | ⟨rfl, -⟩
            · exact List.mem_append_left _ (h.complete y h1)
            · simp
          · intro y hy h1
            show (c y).2 ≤ if (c x).2 > t.top then (c x).2 else t.top
            rcases List.mem_append.1 hy with hy | hy
            · have := h.le y hy h1
              split <;> omega
            · obtain rfl := List.mem_singleton.1 hy
              split <;> simp_all

theorem stocked_nil (k : Nat) (key : Nat → List Int) (c : Nat → GEnt) : Stocked k key c [] ⟨[], 0⟩ :=
  ⟨by simp [Bounded], by simp [Distinct], le_refl _, by simp, by intro x hx; obtain ⟨-, -, a, b, h, -⟩ := hx; simp at h, by simp⟩

theorem stockP_stocked (k : Nat) (key : Nat → List Int) (c : Nat → GEnt) (xs : List Nat) :
    Stocked k key c xs (stockP k key c xs ⟨[], 0⟩) := by
  have := stockP_spec xs [] _ (stocked_nil k key c)
  simpa using this

/-- the entry found at the end was there from the start, or no entry from the start matches and the ID is new -/
theorem final_known {t tf : Known} (he : Extends t tf) {m : List Int → Bool} {i : Int} {k : List Int}
    (hf : tf.ents.find? (fun p => m p.2) = some (i, k)) :
    m k = true ∧ (i, k) ∈ tf.ents ∧ ((i, k) ∈ t.ents ∨ ((∀ p ∈ t.ents, m p.2 ≠ true) ∧ t.top < i)) := by
  obtain ⟨n, h1, -, h3, -⟩ := he
  have hm : m k = true := by simpa using List.find?_some hf
  refine ⟨hm, List.mem_of_find?_eq_some hf, ?_⟩
  rw [h1, List.find?_append] at hf
  cases ht : t.ents.find? (fun p => m p.2) with
  | some p =>
    rw [ht, Option.some_or, Option.some.injEq] at hf
    exact .inl (hf ▸ List.mem_of_find?_eq_some ht)
  | none =>
    rw [ht, Option.none_or] at hf
    rw [List.find?_eq_none] at ht
    exact .inr ⟨fun p hp => ht p hp, (h3 _ (List.mem_of_find?_eq_some hf)).1⟩

/-! ### faces -/

theorem samePair_iff {a b x y : Int} : samePair a b [x, y] = true ↔ (x = a ∧ y = b) ∨ (x = b ∧ y = a) := by
  simp [samePair]

theorem samePair_both {a b a' b' : Int} {k : List Int} (h : samePair a b k = true) (h' : samePair a' b' k = true) :
    (a, b) = (a', b') ∨ (a, b) = (b', a') := by
  simp only [samePair, Bool.or_eq_true, Bool.and_eq_true, beq_iff_eq] at h h'
  rcases h with ⟨h1, h2⟩ | ⟨h1, h2⟩ <;> rcases h' with ⟨h3, h4⟩ | ⟨h3, h4⟩ <;> rw [h1, Option.some.injEq] at h3 <;>
    rw [h2, Option.some.injEq] at h4 <;> simp [h3, h4]

/-- the regions of a face as `faceLook` gives them -/
def faceData (T : Topo) (cr : Nat → GEnt) (f : Nat) : List GEnt := ((T.fr f).1.toList ++ (T.fr f).2.toList).map cr

theorem entries_orNull (l : List Nat) : entries (orNull l) = l := by
  cases l <;> rfl

theorem faceLook_ok {T : Topo} {f : Nat} (hf : (T.sf f).alloc) (cr : Nat → GEnt) : T.faceLook cr f = .ok (T.faceData cr f) := by
  simp [faceLook, mfRegions, derefF, hf, entries_orNull, faceData]

theorem pair_sides (T : Topo) (cr : Nat → GEnt) (f : Nat) :
    pairIDs (T.faceData cr f) = T.sideIDs cr f ∨ pairIDs (T.faceData cr f) = (T.sideIDs cr f).swap := by
  unfold pairIDs faceData sideIDs
  rcases T.fr f with ⟨_ | r, _ | s⟩ <;> simp

theorem within_iff (T : Topo) (cr : Nat → GEnt) (f : Nat) (g : Int) :
    T.Within cr f g ↔ (T.faceData cr f).length = 2 ∧ (pairIDs (T.faceData cr f)).1 = g ∧ (pairIDs (T.faceData cr f)).2 = g := by
  unfold pairIDs faceData Within
  rcases T.fr f with ⟨_ | r, _ | s⟩ <;> simp

theorem sameSides_iff (T : Topo) (cr : Nat → GEnt) (f g : Nat) :
    T.SameSides cr f g ↔ samePair (pairIDs (T.faceData cr f)).1 (pairIDs (T.faceData cr f)).2
      [(pairIDs (T.faceData cr g)).1, (pairIDs (T.faceData cr g)).2] = true := by
  rw [samePair_iff]
  have h1 := pair_sides T cr f
  have h2 := pair_sides T cr g
  unfold SameSides
  generalize pairIDs (T.faceData cr f) = p at *
  generalize pairIDs (T.faceData cr g) = q at *
  generalize T.sideIDs cr f = x at *
  generalize T.sideIDs cr g = y at *
  obtain ⟨p1, p2⟩ := p
  obtain ⟨q1, q2⟩ := q
  obtain ⟨x1, x2⟩ := x
  obtain ⟨y1, y2⟩ := y
  simp only [Prod.mk.injEq, Prod.swap_prod_mk] at *
  omega

theorem faceStock_ok {T : Topo} (cr c : Nat → GEnt) : ∀ (fl : List Nat) (t : Known), (∀ f ∈ fl, (T.sf f).alloc) →
    T.faceStock cr c fl t =
      .ok (stockP 2 (fun f => [(pairIDs (T.faceData cr f)).1, (pairIDs (T.faceData cr f)).2]) c fl t) := by
  intro fl
  induction fl with
  | nil => intro t _; rfl
  | cons f fl ih =>
    intro t h
    have ih' := fun t => ih t (fun g hg => h g (by simp [hg]))
    rw [faceStock, stockP, faceLook_ok (h f (by simp)), Res.bind_ok]
    split
    · exact ih' _
    split
    · exact ih' _
    split
    · exact ih' _
    exact ih' _

theorem faceStep_ext (g : GEnt) (d : List GEnt) (t : Known) : Extends t (faceStep g d t).2 := by
  simp only [faceStep]
  by_cases h : d.length = 2 ∧ (pairIDs d).1 = (pairIDs d).2
  · rw [if_pos h]; exact Extends.refl t
  · rw [if_neg h]
    by_cases h' : g.1 > 2 ∨ (g.1 = 2 ∧ g.2 ≤ 0)
    · rw [if_pos h']; exact find_ext _ _ _
    · rw [if_neg h']; exact Extends.refl t

theorem samePair_self (a b : Int) : samePair a b [a, b] = true := by simp [samePair]

/-- Faces: for every classification known before. -/
theorem faces_on {T : Topo} {fl : List Nat} (hn : fl.Nodup) (hl : ∀ f ∈ fl, (T.sf f).alloc) (cr c : Nat → GEnt) :
    ∃ c', T.faceClassfn fl cr c = .ok c' ∧ FacesOn T fl cr c c' := by
  have hst := stockP_stocked 2 (fun f => [(pairIDs (T.faceData cr f)).1, (pairIDs (T.faceData cr f)).2]) c fl
  have hsk := faceStock_ok (T := T) cr c fl ⟨[], 0⟩ hl
  generalize stockP 2 (fun f => [(pairIDs (T.faceData cr f)).1, (pairIDs (T.faceData cr f)).2]) c fl ⟨[], 0⟩ = t at hst hsk
  obtain ⟨c', tf, tab, h1, h2, h3, -, h5⟩ := classLoop_spec faceStep_ext (T.faceData cr) fl hn
    (fun f hf => faceLook_ok (hl f hf) cr) c t
  have hd := h5.distinct hst.bounded hst.distinct
  have key : ∀ f ∈ fl, (∀ g, ¬ T.Within cr f g) → Unset (c f) → (c' f).1 = 2 ∧
      ∃ k, tf.ents.find? (fun p => samePair (pairIDs (T.faceData cr f)).1 (pairIDs (T.faceData cr f)).2 p.2) = some ((c' f).2, k) := by
    intro f hf hw hu
    obtain ⟨k1, k2, k3⟩ := h3 f hf
    rw [k1]
    have hu' : (c f).1 > 2 ∨ ((c f).1 = 2 ∧ (c f).2 ≤ 0) := hu
    unfold faceStep at k3 ⊢
    have hnw : ¬ ((T.faceData cr f).length = 2 ∧ (pairIDs (T.faceData cr f)).1 = (pairIDs (T.faceData cr f)).2) := by
      rintro ⟨x1, x2⟩
      exact hw _ ((within_iff T cr f _).2 ⟨x1, x2, rfl⟩)
    rw [if_neg hnw, if_pos hu'] at k3 ⊢
    exact ⟨rfl, find_final (samePair_self _ _) k3⟩
  refine ⟨c', ?_, h2, ?_, ?_, fun f hf hw hu => (key f hf hw hu).1, ?_, ?_⟩
  · rw [faceClassfn, hsk, Res.bind_ok, h1, Res.bind_ok, Res.pure_eq]
  · intro f hf g hw
    rw [within_iff] at hw
    rw [(h3 f hf).1, faceStep, if_pos ⟨hw.1, by rw [hw.2.1, hw.2.2]⟩, hw.2.1]
  · intro f hf hw hu
    have hu' : ¬ ((c f).1 > 2 ∨ ((c f).1 = 2 ∧ (c f).2 ≤ 0)) := hu
    rw [(h3 f hf).1, faceStep, if_neg, if_neg hu']
    rintro ⟨x1, x2⟩
    exact hw _ ((within_iff T cr f _).2 ⟨x1, x2, rfl⟩)
  · intro f hf g hg wf uf wg ug
    obtain ⟨-, kf, h6⟩ := key f hf wf uf
    obtain ⟨-, kg, h7⟩ := key g hg wg ug
    obtain ⟨m1, m2, -⟩ := final_known h5 h6
    obtain ⟨n1, n2, -⟩ := final_known h5 h7
    rw [sameSides_iff, samePair_iff]
    constructor
    · intro he
      have := distinct_eq hd m2 n2 he
      simp only [Prod.mk.injEq] at this
      rw [← this.2] at n1
      have := samePair_both m1 n1
      simp only [Prod.mk.injEq] at this
      omega
    · intro hs
      have : (fun p : Int × List Int => samePair (pairIDs (T.faceData cr f)).1 (pairIDs (T.faceData cr f)).2 p.2) =
          fun p => samePair (pairIDs (T.faceData cr g)).1 (pairIDs (T.faceData cr g)).2 p.2 := by
        funext p
        rcases hs with ⟨x1, x2⟩ | ⟨x1, x2⟩ <;> rw [x1, x2]
        unfold samePair
        rw [Bool.or_comm]
      rw [this, h7] at h6
      simp only [Option.some.injEq, Prod.mk.injEq] at h6
      exact h6.1.symm
  · intro f hf wf uf
    obtain ⟨-, kf, h6⟩ := key f hf wf uf
    obtain ⟨m1, -, m3⟩ := final_known h5 h6
    rcases m3 with m3 | ⟨m3, m4⟩
    · obtain ⟨g, g1, g2⟩ := hst.sound _ m3
      simp only [Prod.mk.injEq] at g2
      refine .inl ⟨g, g1, ?_, g2.1⟩
      rw [sameSides_iff, ← g2.2]; exact m1
    · refine .inr ⟨?_, by have := hst.top; omega, ?_⟩
      · intro g hg hs
        exact m3 _ (hst.complete g hg) ((sameSides_iff T cr f g).1 hs)
      · intro g hg h2'
        have := hst.le g hg h2'
        omega

/-! ### edges -/

/-- the comparison with the entries for an edge or a vertex where the model entities `l` meet -/
def keyMatch : List Int → List Int → Bool
  | [a, b] => sameTwo a b
  | l => sameMany l

theorem sameMany_iff {l k : List Int} (hn : l.Nodup) : sameMany l k = true ↔ l.Perm k := by
  simp only [sameMany, Bool.and_eq_true, beq_iff_eq, List.all_eq_true, List.contains_iff_mem]
  constructor
  · rintro ⟨h1, h2⟩
    exact (List.subperm_of_subset hn h2).perm_of_length_le (by omega)
  · intro h
    exact ⟨h.length_eq, fun a ha => h.subset ha⟩

theorem keyMatch_two {a b : Int} {k : List Int} : keyMatch [a, b] k = true ↔ k = [a, b] ∨ k = [b, a] := by
  simp only [keyMatch, sameTwo, Bool.and_eq_true, beq_iff_eq]
  constructor
  · rintro ⟨h1, h2⟩
    obtain ⟨x, y, rfl⟩ := List.length_eq_two.1 h1
    rw [samePair_iff] at h2
    simpa using h2
  · rintro (rfl | rfl) <;> simp [samePair]

theorem keyMatch_many {l : List Int} (h : ∀ a b, l ≠ [a, b]) : keyMatch l = sameMany l := by
  unfold keyMatch
  split
  · exact absurd rfl (h _ _)
  · rfl

theorem keyMatch_perm {l k : List Int} (hn : l.Nodup) : keyMatch l k = true ↔ l.Perm k := by
  by_cases h : ∃ a b, l = [a, b]
  · obtain ⟨a, b, rfl⟩ := h
    rw [keyMatch_two]
    constructor
    · rintro (rfl | rfl)
      · exact List.Perm.refl _
      · exact List.Perm.swap _ _ _
    · intro h
      obtain ⟨x, y, rfl⟩ := List.length_eq_two.1 (h.length_eq.symm.trans rfl)
      have h1 := h.subset (a := a) (by simp)
      have h2 := h.subset (a := b) (by simp)
      simp only [List.nodup_cons, List.mem_singleton, List.not_mem_nil, not_false_eq_true, List.nodup_nil, and_true] at hn
      simp only [List.mem_cons, List.not_mem_nil, or_false] at h1 h2
      rcases h1 with rfl | rfl <;> rcases h2 with rfl | rfl <;> simp_all
  · rw [keyMatch_many (fun a b hab => h ⟨a, b, hab⟩), sameMany_iff hn]

theorem keyMatch_self (l : List Int) : keyMatch l l = true := by
  by_cases h : ∃ a b, l = [a, b]
  · obtain ⟨a, b, rfl⟩ := h
    rw [keyMatch_two]; exact .inl rfl
  · rw [keyMatch_many (fun a b hab => h ⟨a, b, hab⟩)]
    simp [sameMany]

theorem idsOn_map (k : Nat) (c : Nat → GEnt) (l : List Nat) : idsOn k (l.map c) = modelIDs k c l := by
  induction l with
  | nil => rfl
  | cons x l ih =>
    unfold idsOn modelIDs at *
    rw [List.map_cons, List.filter_cons, List.filter_cons]
    by_cases h : (c x).1 = k
    · simp [h, ih]
    · simp [h, ih]

theorem entries_list (l : List Nat) : entries (if l.length = 0 then none else some l) = l := by
  cases l <;> rfl

theorem edgeLook_ok {T : Topo} {e : Nat} (he : (T.se e).alloc) (cf : Nat → GEnt) : T.edgeLook cf e = .ok ((T.ef e).map cf) := by
  simp only [edgeLook, meFaces, derefE, if_pos he, Res.bind_ok, Res.pure_eq, entries_list]

theorem edgeStock_ok {T : Topo} (cf c : Nat → GEnt) : ∀ (el : List Nat) (t : Known), (∀ e ∈ el, (T.se e).alloc) →
    (∀ e ∈ el, (c e).1 = 1 → (c e).2 ≠ 0 → T.ef e ≠ []) →
    T.edgeStock cf c el t = .ok (stockP 1 (fun e => modelIDs 2 cf (T.ef e)) c el t) := by
  intro el
  induction el with
  | nil => intro t _ _; rfl
  | cons e el ih =>
    intro t h h'
    have ih' := fun t => ih t (fun g hg => h g (by simp [hg])) (fun g hg => h' g (by simp [hg]))
    rw [edgeStock, stockP]
    split
    · exact ih' _
    rename_i h1
    rw [not_not] at h1
    split
    · exact ih' _
    rename_i h2
    split
    · exact ih' _
    have := h' e (by simp) h1 h2
    have hlen : ¬ (T.ef e).length = 0 := by rwa [List.length_eq_zero_iff]
    simp only [meFaces, derefE, if_pos (h e (by simp)), Res.bind_ok, Res.pure_eq, if_neg hlen, idsOn_map]
    exact ih' _

theorem edgeStep_ext (g : GEnt) (d : List GEnt) (t : Known) : Extends t (edgeStep g d t).2 := by
  unfold edgeStep
  split
  · split
    · exact Extends.refl t
    · exact skip_ext t
  · split
    · exact Extends.refl t
    · split
      · split
        · exact find_ext _ _ _
        · exact Extends.refl t
      · exact find_ext _ _ _
    · exact find_ext _ _ _

theorem idsOn_nil (k : Nat) : idsOn k [] = [] := rfl

theorem edgeStep_junction (g : GEnt) {d : List GEnt} (t : Known) (h0 : idsOn 2 d ≠ []) (ha : ∀ a, idsOn 2 d ≠ [a, a]) :
    edgeStep g d t = ((1, (t.find (keyMatch (idsOn 2 d)) (idsOn 2 d)).1), (t.find (keyMatch (idsOn 2 d)) (idsOn 2 d)).2) := by
  have hd : ¬ d.length = 0 := by
    intro h
    rw [List.length_eq_zero_iff] at h
    rw [h] at h0; exact h0 rfl
  unfold edgeStep
  rw [if_neg hd]
  generalize idsOn 2 d = l at *
  split
  · exact absurd rfl h0
  · rename_i a b
    rw [if_neg (fun hab => ha a (by rw [← hab]))]
    rfl
  · rename_i h1 h2
    rw [keyMatch_many h2]

theorem nodup_ne {l : List Int} (hn : l.Nodup) (a : Int) : l ≠ [a, a] := by
  rintro rfl
  simp at hn

/-- Edges: for every classification known before, unless an edge without faces is known to be on a model edge. -/
theorem edges_on {T : Topo} {el : List Nat} (hn : el.Nodup) (hl : ∀ e ∈ el, (T.se e).alloc) (cf c : Nat → GEnt)
    (hk : ∀ e ∈ el, (c e).1 = 1 → (c e).2 ≠ 0 → T.ef e ≠ []) :
    ∃ c', T.edgeClassfn el cf c = .ok c' ∧ EdgesOn T el cf c c' := by
  have hst := stockP_stocked 1 (fun e => modelIDs 2 cf (T.ef e)) c el
  have hsk := edgeStock_ok (T := T) cf c el ⟨[], 0⟩ hl hk
  generalize stockP 1 (fun e => modelIDs 2 cf (T.ef e)) c el ⟨[], 0⟩ = t at hst hsk
  obtain ⟨c', tf, tab, h1, h2, h3, -, h5⟩ := classLoop_spec edgeStep_ext (fun e => (T.ef e).map cf) el hn
    (fun e he => edgeLook_ok (hl e he) cf) c t
  have hd := h5.distinct hst.bounded hst.distinct
  have key : ∀ e ∈ el, modelIDs 2 cf (T.ef e) ≠ [] → (modelIDs 2 cf (T.ef e)).Nodup →
      ∃ k, tf.ents.find? (fun p => keyMatch (modelIDs 2 cf (T.ef e)) p.2) = some ((c' e).2, k) := by
    intro e he h0 hnd
    obtain ⟨k1, k2, k3⟩ := h3 e he
    have := edgeStep_junction (c e) (d := (T.ef e).map cf) (tab e) (by rwa [idsOn_map]) (by rw [idsOn_map]; exact nodup_ne hnd)
    rw [idsOn_map] at this
    rw [this] at k1 k3
    rw [k1]
    exact find_final (keyMatch_self _) k3
  refine ⟨c', ?_, h2, ?_, ?_, ?_, ?_, ?_, ?_⟩
  · rw [edgeClassfn, hsk, Res.bind_ok, h1, Res.bind_ok, Res.pure_eq]
  · intro e he h0
    rw [(h3 e he).1, h0, edgeStep]
    simp only [List.map_nil, List.length_nil, if_true]
    split <;> rfl
  · intro e he f l h0 hi
    have hi' : idsOn 2 ((T.ef e).map cf) = [] := by rw [idsOn_map, hi]
    rw [(h3 e he).1]
    simp only [edgeStep, hi']
    rw [h0]
    simp
  · intro e he a ha h1'
    have ha' : idsOn 2 ((T.ef e).map cf) = [a, a] := by rw [idsOn_map, ha]
    have hne : ¬ ((T.ef e).map cf).length = 0 := by
      intro h
      rw [List.length_eq_zero_iff] at h
      rw [h] at ha'; simp [idsOn] at ha'
    rw [(h3 e he).1]
    simp only [edgeStep, ha', if_neg hne, if_neg h1', if_true]
  · intro e he h0 hor
    have h0' : idsOn 2 ((T.ef e).map cf) ≠ [] := by rwa [idsOn_map]
    rw [(h3 e he).1]
    by_cases ha : ∀ a, idsOn 2 ((T.ef e).map cf) ≠ [a, a]
    · rw [edgeStep_junction _ _ h0' ha]
    · rw [not_forall] at ha
      obtain ⟨a, ha⟩ := ha
      rw [not_not] at ha
      have h1' : (c e).1 = 1 := by
        rcases hor with h | h
        · exact h
        · exact absurd (by rw [← idsOn_map, ha]) (h a)
      have hne : ¬ ((T.ef e).map cf).length = 0 := by
        intro h
        rw [List.length_eq_zero_iff] at h
        rw [h] at ha; simp [idsOn] at ha
      simp only [edgeStep, ha, if_neg hne, h1', if_true]
  · intro e he e' he' h0 hnd h0' hnd'
    obtain ⟨kf, h6⟩ := key e he h0 hnd
    obtain ⟨kg, h7⟩ := key e' he' h0' hnd'
    obtain ⟨m1, m2, -⟩ := final_known h5 h6
    obtain ⟨n1, n2, -⟩ := final_known h5 h7
    rw [keyMatch_perm hnd] at m1
    rw [keyMatch_perm hnd'] at n1
    constructor
    · intro he
      have := distinct_eq hd m2 n2 he
      simp only [Prod.mk.injEq] at this
      rw [← this.2] at n1
      exact m1.trans n1.symm
    · intro hs
      have : (fun p : Int × List Int => keyMatch (modelIDs 2 cf (T.ef e)) p.2) =
          fun p => keyMatch (modelIDs 2 cf (T.ef e')) p.2 := by
        funext p
        rw [Bool.eq_iff_iff, keyMatch_perm hnd, keyMatch_perm hnd']
        exact ⟨fun h => hs.symm.trans h, fun h => hs.trans h⟩
      rw [this, h7] at h6
      simp only [Option.some.injEq, Prod.mk.injEq] at h6
      exact h6.1.symm
  · intro e he h0 hnd
    obtain ⟨kf, h6⟩ := key e he h0 hnd
    obtain ⟨m1, -, m3⟩ := final_known h5 h6
    rcases m3 with m3 | ⟨m3, m4⟩
    · obtain ⟨g, g1, g2⟩ := hst.sound _ m3
      simp only [Prod.mk.injEq] at g2
      refine .inl ⟨g, g1, ?_, g2.1⟩
      rw [← g2.2, ← keyMatch_perm hnd]; exact m1
    · refine .inr ⟨?_, by have := hst.top; omega, ?_⟩
      · intro g hg hs
        exact m3 _ (hst.complete g hg) ((keyMatch_perm hnd).2 hs)
      · intro g hg h2'
        have := hst.le g hg h2'
        omega

/-! ### vertices -/

theorem vertexLook_ok {T : Topo} {v : Nat} (hv : (T.sv v).alloc) (ce : Nat → GEnt) : T.vertexLook ce v = .ok ((T.ve v).map ce) := by
  simp only [vertexLook, mvEdges, derefV, if_pos hv, Res.bind_ok, Res.pure_eq, entries_list]

theorem vertexStock_ok {T : Topo} (ce c : Nat → GEnt) : ∀ (vl : List Nat) (t : Known), (∀ v ∈ vl, (T.sv v).alloc) → Bounded t →
    ∃ t', T.vertexStock ce c vl t = .ok t' ∧ Bounded t' ∧ ((∀ v ∈ vl, (c v).1 = 0 → (c v).2 = 0) → t' = t) := by
  intro vl
  induction vl with
  | nil => intro t _ hb; exact ⟨t, rfl, hb, fun _ => rfl⟩
  | cons v vl ih =>
    intro t h hb
    have ih' := fun t => ih t (fun g hg => h g (by simp [hg]))
    rw [vertexStock]
    split
    · obtain ⟨t', h1, h2, h3⟩ := ih' t hb
      exact ⟨t', h1, h2, fun hh => h3 (fun g hg => hh g (by simp [hg]))⟩
    · rename_i hd
      rw [not_not] at hd
      split
      · obtain ⟨t', h1, h2, h3⟩ := ih' t hb
        exact ⟨t', h1, h2, fun hh => h3 (fun g hg => hh g (by simp [hg]))⟩
      · rename_i h0
        rw [vertexLook_ok (h v (by simp)), Res.bind_ok]
        obtain ⟨t', h1, h2, h3⟩ := ih' ⟨t.ents ++ [((c v).2, idsOn 1 ((T.ve v).map ce))], if (c v).2 > t.top then (c v).2 else t.top⟩ (by
          intro p hp
          show p.1 ≤ if (c v).2 > t.top then (c v).2 else t.top
          rcases List.mem_append.1 hp with hp | hp
          · have := hb p hp
            split <;> omega
          · obtain rfl := List.mem_singleton.1 hp
            split <;> simp_all)
        exact ⟨t', h1, h2, fun hh => absurd (hh v (by simp) hd) h0⟩

theorem vertexStep_ext (g : GEnt) (d : List GEnt) (t : Known) : Extends t (vertexStep g d t).2 := by
  unfold vertexStep
  split
  · exact skip_ext t
  · split
    · split
      · split
        · exact skip_ext t
        · exact Extends.refl t
      · exact Extends.refl t
    · split
      · split
        · exact add_ext t _
        · exact Extends.refl t
      · exact find_ext _ _ _
    · exact find_ext _ _ _

theorem vertexStep_junction (g : GEnt) {d : List GEnt} (t : Known) (h0 : idsOn 1 d ≠ []) (ha : ∀ a, idsOn 1 d ≠ [a, a]) :
    vertexStep g d t = ((0, (t.find (keyMatch (idsOn 1 d)) (idsOn 1 d)).1), (t.find (keyMatch (idsOn 1 d)) (idsOn 1 d)).2) := by
  have hd : ¬ d.length = 0 := by
    intro h
    rw [List.length_eq_zero_iff] at h
    rw [h] at h0; exact h0 rfl
  unfold vertexStep
  rw [if_neg hd]
  generalize idsOn 1 d = l at *
  split
  · exact absurd rfl h0
  · rename_i a b
    rw [if_neg (fun hab => ha a (by rw [← hab]))]
    rfl
  · rename_i h1 h2
    rw [keyMatch_many h2]

/-- A new ID that no later search finds. -/
def Fresh (t : Known) (i : Int) (t' : Known) : Prop :=
  i = t.top + 1 ∧ t'.top = t.top + 1 ∧ (t'.ents = t.ents ∨ ∃ a, t'.ents = t.ents ++ [(t.top + 1, [a, a])])

/-- What a vertex can get on dimension 0: a fresh ID or what a search for something else than `[a, a]` finds. -/
theorem vertexStep_zero (g : GEnt) (d : List GEnt) (t : Known) (h : (vertexStep g d t).1.1 = 0) :
    Fresh t (vertexStep g d t).1.2 (vertexStep g d t).2 ∨
      (idsOn 1 d ≠ [] ∧ (∀ a, idsOn 1 d ≠ [a, a]) ∧ (vertexStep g d t).1.2 = (t.find (keyMatch (idsOn 1 d)) (idsOn 1 d)).1 ∧
        (vertexStep g d t).2 = (t.find (keyMatch (idsOn 1 d)) (idsOn 1 d)).2) := by
  by_cases h0 : idsOn 1 d = []
  · left
    revert h
    unfold vertexStep
    rw [h0]
    split
    · intro _; exact ⟨rfl, rfl, .inl rfl⟩
    · simp only
      split
      · split
        · intro _; exact ⟨rfl, rfl, .inl rfl⟩
        · intro h; simp at h
      · intro h; simp at h
  · by_cases ha : ∀ a, idsOn 1 d ≠ [a, a]
    · right
      rw [vertexStep_junction g t h0 ha]
      exact ⟨h0, ha, rfl, rfl⟩
    · left
      rw [not_forall] at ha
      obtain ⟨a, ha⟩ := ha
      rw [not_not] at ha
      revert h
      unfold vertexStep
      rw [ha]
      have hd : ¬ d.length = 0 := by
        intro h
        rw [List.length_eq_zero_iff] at h
        rw [h] at h0; exact h0 rfl
      rw [if_neg hd]
      simp only [if_true]
      split
      · intro _; exact ⟨rfl, rfl, .inr ⟨a, rfl⟩⟩
      · intro h; simp at h

theorem faceIDs_false : ∀ (l : List Int) (g : Int) (a : Int), (∀ b ∈ l, b = a) → (g = 0 ∨ g = a) →
    (faceIDs l g false).2 = false ∧ (l ≠ [] → (faceIDs l g false).1 = a) := by
  intro l
  induction l with
  | nil => intro g a _ _; exact ⟨rfl, fun h => absurd rfl h⟩
  | cons b l ih =>
    intro g a h hg
    obtain rfl := h b (by simp)
    rw [faceIDs, if_neg (by rintro ⟨h1, h2⟩; rcases hg with rfl | rfl <;> simp_all)]
    obtain ⟨h1, h2⟩ := ih b b (fun x hx => h x (by simp [hx])) (.inr rfl)
    refine ⟨h1, fun _ => ?_⟩
    by_cases hl : l = []
    · subst hl; rfl
    · exact h2 hl

theorem faceIDs_stay : ∀ (l : List Int) (g : Int), (faceIDs l g true).2 = true := by
  intro l
  induction l with
  | nil => intro g; rfl
  | cons b l ih => intro g; rw [faceIDs]; split <;> exact ih b

theorem faceIDs_true : ∀ (l : List Int) (g : Int), g ≠ 0 → (∀ b ∈ l, b ≠ 0) → (∃ b ∈ l, b ≠ g) → (faceIDs l g false).2 = true := by
  intro l
  induction l with
  | nil => intro g _ _ h; simp at h
  | cons b l ih =>
    intro g hg h0 hx
    rw [faceIDs]
    by_cases hb : b = g
    · rw [if_neg (by simp [hb])]
      refine ih b (h0 b (by simp)) (fun x hx => h0 x (by simp [hx])) ?_
      obtain ⟨x, h1, h2⟩ := hx
      rcases List.mem_cons.1 h1 with rfl | h1
      · exact absurd hb h2
      · exact ⟨x, h1, by rw [hb]; exact h2⟩
    · rw [if_pos ⟨hg, hb⟩]; exact faceIDs_stay l b

theorem faceIDs_many {l : List Int} {a b : Int} (ha : a ∈ l) (hb : b ∈ l) (hab : a ≠ b) (h0 : ∀ x ∈ l, x ≠ 0) :
    (faceIDs l 0 false).2 = true := by
  cases l with
  | nil => simp at ha
  | cons x l =>
    rw [faceIDs, if_neg (by simp)]
    refine faceIDs_true l x (h0 x (by simp)) (fun y hy => h0 y (by simp [hy])) ?_
    by_cases hx : a = x
    · rcases List.mem_cons.1 hb with h | h
      · exact absurd (hx.trans h.symm) hab
      · exact ⟨b, h, fun h' => hab (hx.trans h'.symm)⟩
    · rcases List.mem_cons.1 ha with h | h
      · exact absurd h hx
      · exact ⟨a, h, hx⟩

/-- Vertices: for every classification known before. -/
theorem vertices_on {T : Topo} {vl : List Nat} (hn : vl.Nodup) (hl : ∀ v ∈ vl, (T.sv v).alloc) (ce c : Nat → GEnt) :
    ∃ c', T.vertexClassfn vl ce c = .ok c' ∧ VerticesOn T vl ce c c' := by
  obtain ⟨t, hsk, hb, hempty⟩ := vertexStock_ok (T := T) ce c vl ⟨[], 0⟩ hl (by simp [Bounded])
  obtain ⟨c', tf, tab, h1, h2, h3, h4, h5⟩ := classLoop_spec vertexStep_ext (fun v => (T.ve v).map ce) vl hn
    (fun v hv => vertexLook_ok (hl v hv) ce) c t
  have key : ∀ v ∈ vl, modelIDs 1 ce (T.ve v) ≠ [] → (∀ a, modelIDs 1 ce (T.ve v) ≠ [a, a]) → (c' v).1 = 0 ∧
      ∃ k, tf.ents.find? (fun p => keyMatch (modelIDs 1 ce (T.ve v)) p.2) = some ((c' v).2, k) := by
    intro v hv h0 ha
    obtain ⟨k1, k2, k3⟩ := h3 v hv
    have := vertexStep_junction (c v) (d := (T.ve v).map ce) (tab v) (by rwa [idsOn_map]) (by rwa [idsOn_map])
    rw [idsOn_map] at this
    rw [this] at k1 k3
    rw [k1]
    exact ⟨rfl, find_final (keyMatch_self _) k3⟩
  -- a fresh ID is given to nobody else
  have own : ∀ v ∈ vl, (c' v).1 = 0 → Fresh (tab v) (c' v).2 (vertexStep (c v) ((T.ve v).map ce) (tab v)).2 → Own vl c' v := by
    intro v hv h0 hf
    refine ⟨h0, ?_⟩
    intro w hw hne he
    have hbw := (h3 w hw).2.1.bounded hb
    have hbv := (h3 v hv).2.1.bounded hb
    have hw0 : (c' w).1 = 0 := by rw [he]; exact h0
    have hz := vertexStep_zero (c w) ((T.ve w).map ce) (tab w) (by rw [← (h3 w hw).1]; exact hw0)
    rw [← (h3 w hw).1] at hz
    -- which of them comes first
    have hord : Extends (vertexStep (c v) ((T.ve v).map ce) (tab v)).2 (tab w) ∨
        Extends (vertexStep (c w) ((T.ve w).map ce) (tab w)).2 (tab v) := by
      obtain ⟨i, hi, rfl⟩ := List.mem_iff_getElem.1 hv
      obtain ⟨j, hj, rfl⟩ := List.mem_iff_getElem.1 hw
      rw [List.pairwise_iff_getElem] at h4
      rcases Nat.lt_trichotomy i j with h | h | h
      · exact .inl (h4 i j hi hj h)
      · subst h; exact absurd rfl hne
      · exact .inr (h4 j i hj hi h)
    obtain ⟨f1, f2, f3⟩ := hf
    have he2 : (c' w).2 = (c' v).2 := by rw [he]
    rcases hord with hord | hord
    · obtain ⟨n, o1, o2, o3, -⟩ := hord
      rcases hz with ⟨z1, -, -⟩ | ⟨z1, z2, z3, -⟩
      · omega
      · rw [idsOn_map] at z1 z2 z3
        unfold Known.find at z3
        split at z3
        · rename_i p hp
          have hpm := List.mem_of_find?_eq_some hp
          have hpk : keyMatch (modelIDs 1 ce (T.ve w)) p.2 = true := by simpa using List.find?_some hp
          have hp1 : p.1 = (c' v).2 := by rw [← he2, z3]
          rw [o1, List.mem_append] at hpm
          rcases hpm with hpm | hpm
          · have hold : ∀ q ∈ (tab v).ents, q.1 ≠ (c' v).2 := by
              intro q hq hqe
              have := hbv q hq
              omega
            rcases f3 with f3 | ⟨a, f3⟩
            · rw [f3] at hpm; exact hold p hpm hp1
            · rw [f3, List.mem_append, List.mem_singleton] at hpm
              rcases hpm with hpm | rfl
              · exact hold p hpm hp1
              · -- the entry `[a, a]` is never found
                simp only at hpk
                by_cases h2' : ∃ x y, modelIDs 1 ce (T.ve w) = [x, y]
                · obtain ⟨x, y, hxy⟩ := h2'
                  rw [hxy, keyMatch_two] at hpk
                  simp only [List.cons.injEq, and_true] at hpk
                  refine z2 a ?_
                  rw [hxy]
                  rcases hpk with ⟨rfl, rfl⟩ | ⟨rfl, rfl⟩ <;> rfl
                · rw [keyMatch_many (fun x y hxy => h2' ⟨x, y, hxy⟩)] at hpk
                  simp only [sameMany, Bool.and_eq_true, beq_iff_eq] at hpk
                  obtain ⟨x, y, hxy⟩ := List.length_eq_two.1 (hpk.1.trans rfl)
                  exact h2' ⟨x, y, hxy⟩
          · have := (o3 p hpm).1
            omega
        · simp only at z3; omega
    · obtain ⟨n, o1, o2, o3, -⟩ := hord
      have : (c' w).2 ≤ (vertexStep (c w) ((T.ve w).map ce) (tab w)).2.top := by
        rcases hz with ⟨z1, z2, -⟩ | ⟨-, -, z3, z4⟩
        · omega
        · rw [z3, z4]; exact find_le hbw _ _
      omega
  refine ⟨c', ?_, h2, ?_, ?_, ?_, ?_, ?_, ?_, fun v hv h0 ha => (key v hv h0 ha).1, ?_, ?_⟩
  · rw [vertexClassfn, hsk, Res.bind_ok, h1, Res.bind_ok, Res.pure_eq]
  · intro v hv h0
    have hs : vertexStep (c v) ((T.ve v).map ce) (tab v) = ((0, (tab v).skip.1), (tab v).skip.2) := by
      rw [h0]; rfl
    refine own v hv ?_ ?_
    · rw [(h3 v hv).1, hs]
    · rw [(h3 v hv).1, hs]; exact ⟨rfl, rfl, .inl rfl⟩
  · intro v hv e l h0 hi hi2
    have hi' : idsOn 1 ((T.ve v).map ce) = [] := by rw [idsOn_map, hi]
    have hi2' : idsOn 2 ((T.ve v).map ce) = [] := by rw [idsOn_map, hi2]
    rw [(h3 v hv).1]
    simp only [vertexStep, hi', hi2']
    rw [h0]
    simp
  · intro v hv a hi ha hall
    have hi' : idsOn 1 ((T.ve v).map ce) = [] := by rw [idsOn_map, hi]
    obtain ⟨q1, q2⟩ := faceIDs_false _ 0 a hall (.inl rfl)
    have hne : modelIDs 2 ce (T.ve v) ≠ [] := List.ne_nil_of_mem ha
    have hd : ¬ ((T.ve v).map ce).length = 0 := by
      intro h
      rw [List.length_map, List.length_eq_zero_iff] at h
      rw [h] at hne; exact hne rfl
    have hlen : (modelIDs 2 ce (T.ve v)).length ≠ 0 := by rwa [ne_eq, List.length_eq_zero_iff]
    rw [(h3 v hv).1]
    simp only [vertexStep, hi', idsOn_map, if_neg hd, if_pos hlen, q1, q2 hne]
    rfl
  · intro v hv a b hi ha hb' hab h0
    have hi' : idsOn 1 ((T.ve v).map ce) = [] := by rw [idsOn_map, hi]
    have q := faceIDs_many ha hb' hab h0
    have hne : modelIDs 2 ce (T.ve v) ≠ [] := List.ne_nil_of_mem ha
    have hd : ¬ ((T.ve v).map ce).length = 0 := by
      intro h
      rw [List.length_map, List.length_eq_zero_iff] at h
      rw [h] at hne; exact hne rfl
    have hlen : (modelIDs 2 ce (T.ve v)).length ≠ 0 := by rwa [ne_eq, List.length_eq_zero_iff]
    have hs : vertexStep (c v) ((T.ve v).map ce) (tab v) = ((0, (tab v).skip.1), (tab v).skip.2) := by
      simp only [vertexStep, hi', idsOn_map, if_neg hd, if_pos hlen, q, if_true]
    refine own v hv ?_ ?_
    · rw [(h3 v hv).1, hs]
    · rw [(h3 v hv).1, hs]; exact ⟨rfl, rfl, .inl rfl⟩
  · intro v hv a ha h0
    have ha' : idsOn 1 ((T.ve v).map ce) = [a, a] := by rw [idsOn_map, ha]
    have hd : ¬ ((T.ve v).map ce).length = 0 := by
      intro h
      rw [List.length_eq_zero_iff] at h
      rw [h] at ha'; simp [idsOn] at ha'
    rw [(h3 v hv).1]
    simp only [vertexStep, ha', if_neg hd, if_neg h0, if_true]
  · intro v hv a ha h0
    have ha' : idsOn 1 ((T.ve v).map ce) = [a, a] := by rw [idsOn_map, ha]
    have hd : ¬ ((T.ve v).map ce).length = 0 := by
      intro h
      rw [List.length_eq_zero_iff] at h
      rw [h] at ha'; simp [idsOn] at ha'
    have hs : vertexStep (c v) ((T.ve v).map ce) (tab v) =
        ((0, (tab v).top + 1), ⟨(tab v).ents ++ [((tab v).top + 1, [a, a])], (tab v).top + 1⟩) := by
      simp only [vertexStep, ha', if_neg hd, h0, if_true]
    refine own v hv ?_ ?_
    · rw [(h3 v hv).1, hs]
    · rw [(h3 v hv).1, hs]; exact ⟨rfl, rfl, .inr ⟨a, rfl⟩⟩
  · intro v hv w hw h0 hnd hp
    have hnd' : (modelIDs 1 ce (T.ve w)).Nodup := hp.nodup_iff.1 hnd
    have h0' : modelIDs 1 ce (T.ve w) ≠ [] := by
      intro h
      rw [h] at hp; exact h0 hp.eq_nil
    obtain ⟨d1, kf, h6⟩ := key v hv h0 (nodup_ne hnd)
    obtain ⟨d2, kg, h7⟩ := key w hw h0' (nodup_ne hnd')
    have : (fun p : Int × List Int => keyMatch (modelIDs 1 ce (T.ve v)) p.2) =
        fun p => keyMatch (modelIDs 1 ce (T.ve w)) p.2 := by
      funext p
      rw [Bool.eq_iff_iff, keyMatch_perm hnd, keyMatch_perm hnd']
      exact ⟨fun h => hp.symm.trans h, fun h => hp.trans h⟩
    rw [this, h7] at h6
    simp only [Option.some.injEq, Prod.mk.injEq] at h6
    exact Prod.ext (d1.trans d2.symm) h6.1.symm
  · intro hfr v hv w hw h0 hnd h0' hnd' heq
    have ht := hempty hfr
    subst ht
    have hd := h5.distinct hb (by simp [Distinct])
    obtain ⟨-, kf, h6⟩ := key v hv h0 (nodup_ne hnd)
    obtain ⟨-, kg, h7⟩ := key w hw h0' (nodup_ne hnd')
    obtain ⟨m1, m2, -⟩ := final_known h5 h6
    obtain ⟨n1, n2, -⟩ := final_known h5 h7
    rw [keyMatch_perm hnd] at m1
    rw [keyMatch_perm hnd'] at n1
    have := distinct_eq hd m2 n2 (by rw [heq])
    simp only [Prod.mk.injEq] at this
    rw [← this.2] at n1
    exact m1.trans n1.symm

/-! ### regions -/

theorem regionScan_spec (c : Nat → GEnt) : ∀ (rl : List Nat) (m : Int) (z : Bool), 0 ≤ m →
    0 ≤ (regionScan c rl m z).1 ∧ m ≤ (regionScan c rl m z).1 ∧ (∀ r ∈ rl, (c r).2 ≤ (regionScan c rl m z).1) ∧
      ((regionScan c rl m z).2 = true ↔ z = true ∨ ∃ r ∈ rl, (c r).2 = 0) := by
  intro rl
  induction rl with
  | nil => intro m z hm; simp [regionScan, hm]
  | cons r rl ih =>
    intro m z hm
    rw [regionScan]
    by_cases h0 : (c r).2 = 0
    · rw [if_neg (by simp [h0])]
      obtain ⟨h1, h2, h3, h4⟩ := ih m true hm
      refine ⟨h1, h2, ?_, ?_⟩
      · intro s hs
        rcases List.mem_cons.1 hs with rfl | hs
        · omega
        · exact h3 s hs
      · rw [h4]; simp [h0]
    · rw [if_pos h0]
      obtain ⟨h1, h2, h3, h4⟩ := ih (if (c r).2 > m then (c r).2 else m) z (by split <;> omega)
      have hle : m ≤ (if (c r).2 > m then (c r).2 else m) ∧ (c r).2 ≤ (if (c r).2 > m then (c r).2 else m) := by
        split <;> omega
      refine ⟨h1, by omega, ?_, ?_⟩
      · intro s hs
        rcases List.mem_cons.1 hs with rfl | hs
        · omega
        · exact h3 s hs
      · rw [h4]; simp [h0]

theorem regionFill_spec (m : Int) (hm : 0 ≤ m) : ∀ (rl : List Nat) (c : Nat → GEnt) (r : Nat),
    regionFill m rl c r = if r ∈ rl ∧ (c r).2 ≤ 0 then ((c r).1, m + 1) else c r := by
  intro rl
  induction rl with
  | nil => intro c r; simp [regionFill]
  | cons s rl ih =>
    intro c r
    rw [regionFill, ih]
    by_cases hs : (c s).2 ≤ 0
    · rw [if_pos hs]
      by_cases hrs : r = s
      · subst hrs
        rw [upd_same, if_neg (by simp; intro _; omega), if_pos (by simp [hs])]
      · have : upd c s ((c s).1, m + 1) r = c r := by simp [upd, hrs]
        rw [this]
        simp [hrs]
    · rw [if_neg hs]
      by_cases hrs : r = s
      · subst hrs
        rw [if_neg (by simp [hs]), if_neg (by simp [hs])]
      · simp [hrs]

/-- Regions: for every classification known before. -/
theorem regions_on (rl : List Nat) (c : Nat → GEnt) : RegionsOn rl c (regionClassfn rl c) := by
  obtain ⟨h1, -, h3, h4⟩ := regionScan_spec c rl 0 false (le_refl _)
  have hz : (regionScan c rl 0 false).2 = true ↔ ∃ r ∈ rl, (c r).2 = 0 := by rw [h4]; simp
  have ht : (∃ r ∈ rl, (c r).2 = 0) → ∀ r, regionClassfn rl c r =
      if r ∈ rl ∧ (c r).2 ≤ 0 then ((c r).1, (regionScan c rl 0 false).1 + 1) else c r := by
    intro h r
    simp only [regionClassfn]
    rw [if_pos (hz.2 h), regionFill_spec _ h1]
  refine ⟨?_, ?_, ?_⟩
  · intro r hr
    by_cases h : ∃ s ∈ rl, (c s).2 = 0
    · rw [ht h, if_neg]
      rintro ⟨q1, q2⟩
      rcases hr with hr | hr | hr
      · exact hr q1
      · omega
      · obtain ⟨s, s1, s2⟩ := h
        exact hr s s1 s2
    · simp only [regionClassfn]
      rw [if_neg (fun hh => h (hz.1 hh))]
  · intro r hr hr0 s hs hs0
    rw [ht ⟨s, hs, hs0⟩, if_pos ⟨hr, hr0⟩]
    refine ⟨rfl, by simp only; omega, ?_⟩
    intro x hx hx0
    have := h3 x hx
    simp only; omega
  · intro r hr s hs hr0 hs0 hx
    rw [ht hx, ht hx, if_pos ⟨hr, hr0⟩, if_pos ⟨hs, hs0⟩]

/-! ### the theorems -/

/-- **C72.**  `MESH_BuildClassfn` on any mesh and any classification known before, unless an edge without faces is
known to be on a model edge. -/
theorem C72_build {T : Topo} {vl el fl rl : List Nat} (hL : T.Listed vl el fl rl) (c : Classfn)
    (hk : ∀ e ∈ el, (c.e e).1 = 1 → (c.e e).2 ≠ 0 → T.ef e ≠ []) :
    ∃ c', T.buildClassfn vl el fl rl c = .ok c' ∧ RegionsOn rl c.r c'.r ∧ FacesOn T fl c'.r c.f c'.f ∧
      EdgesOn T el c'.f c.e c'.e ∧ VerticesOn T vl c'.e c.v c'.v := by
  obtain ⟨cf, f1, f2⟩ := faces_on hL.f.1 (fun f hf => alloc_of_live ((hL.f.2 f).1 hf)) (regionClassfn rl c.r) c.f
  obtain ⟨ce, e1, e2⟩ := edges_on hL.e.1 (fun e he => alloc_of_live ((hL.e.2 e).1 he)) cf c.e hk
  obtain ⟨cv, v1, v2⟩ := vertices_on hL.v.1 (fun v hv => alloc_of_live ((hL.v.2 v).1 hv)) ce c.v
  refine ⟨⟨cv, ce, cf, regionClassfn rl c.r⟩, ?_, regions_on rl c.r, f2, e2, v2⟩
  rw [buildClassfn, f1, Res.bind_ok, e1, Res.bind_ok, v1, Res.bind_ok, Res.pure_eq]

theorem mem_modelIDs {k : Nat} {c : Nat → GEnt} {l : List Nat} {a : Int} :
    a ∈ modelIDs k c l ↔ ∃ x ∈ l, (c x).1 = k ∧ (c x).2 = a := by
  simp [modelIDs, and_assoc]

theorem modelIDs_nil {k : Nat} {c : Nat → GEnt} {l : List Nat} : modelIDs k c l = [] ↔ ∀ x ∈ l, (c x).1 ≠ k := by
  simp [modelIDs]

/-- A face ends on a model face or inside the model, with an ID on a model face. -/
theorem FacesOn.dims {T : Topo} {fl : List Nat} {cr c c' : Nat → GEnt} (h : FacesOn T fl cr c c') (hd : ∀ f ∈ fl, 2 ≤ (c f).1)
    {f : Nat} (hf : f ∈ fl) : ((c' f).1 = 2 ∧ (c' f).2 ≠ 0 ∧ ∀ g, ¬ T.Within cr f g) ∨ ((c' f).1 = 3 ∧ ∃ g, T.Within cr f g) := by
  by_cases hw : ∃ g, T.Within cr f g
  · obtain ⟨g, hg⟩ := hw
    right
    rw [h.within f hf g hg]; exact ⟨rfl, g, hg⟩
  · rw [not_exists] at hw
    left
    by_cases hu : Unset (c f)
    · refine ⟨h.face f hf hw hu, ?_, hw⟩
      rcases h.known f hf hw hu with ⟨g, g1, -, g3⟩ | ⟨-, g2, -⟩
      · rw [g3]; exact g1.2.1
      · omega
    · rw [h.kept f hf hw hu]
      have := hd f hf
      unfold Unset at hu
      rw [not_or, not_and_or] at hu
      refine ⟨by omega, ?_, hw⟩
      rcases hu.2 with h' | h' <;> omega

theorem EdgesOn.dims {T : Topo} {el : List Nat} {cf c c' : Nat → GEnt} (h : EdgesOn T el cf c c') {e : Nat} (he : e ∈ el) :
    (T.ef e = [] ∧ (c' e).1 = 1) ∨ (T.ef e ≠ [] ∧ modelIDs 2 cf (T.ef e) = [] ∧ (c' e).1 = 3) ∨
      (modelIDs 2 cf (T.ef e) ≠ [] ∧ (c' e).1 = 1) ∨ (∃ a, modelIDs 2 cf (T.ef e) = [a, a] ∧ c' e = (2, a)) := by
  by_cases h0 : T.ef e = []
  · exact .inl ⟨h0, h.alone e he h0⟩
  · by_cases hm : modelIDs 2 cf (T.ef e) = []
    · obtain ⟨f, l, hfl⟩ := List.exists_cons_of_ne_nil h0
      exact .inr (.inl ⟨h0, hm, by rw [h.inside e he f l hfl hm]⟩)
    · by_cases hor : (c e).1 = 1 ∨ ∀ a, modelIDs 2 cf (T.ef e) ≠ [a, a]
      · exact .inr (.inr (.inl ⟨hm, h.edge e he hm hor⟩))
      · simp only [not_or, not_forall, not_not] at hor
        obtain ⟨h1, a, ha⟩ := hor
        exact .inr (.inr (.inr ⟨a, ha, h.onFace e he a ha h1⟩))

theorem VerticesOn.dims {T : Topo} {vl : List Nat} {ce c c' : Nat → GEnt} (h : VerticesOn T vl ce c c') {v : Nat} (hv : v ∈ vl)
    (hz : ∀ x ∈ modelIDs 2 ce (T.ve v), x ≠ 0) :
    (c' v).1 = 0 ∨ ((c' v).1 = 3 ∧ T.ve v ≠ [] ∧ modelIDs 1 ce (T.ve v) = [] ∧ modelIDs 2 ce (T.ve v) = []) ∨
      ((c' v).1 = 2 ∧ modelIDs 1 ce (T.ve v) = []) ∨ ((c' v).1 = 1 ∧ modelIDs 1 ce (T.ve v) ≠ []) := by
  by_cases h0 : T.ve v = []
  · exact .inl (h.alone v hv h0).1
  · by_cases hm : modelIDs 1 ce (T.ve v) = []
    · by_cases hm2 : modelIDs 2 ce (T.ve v) = []
      · obtain ⟨f, l, hfl⟩ := List.exists_cons_of_ne_nil h0
        exact .inr (.inl ⟨by rw [h.inside v hv f l hfl hm hm2], h0, hm, hm2⟩)
      · obtain ⟨a, l, hal⟩ := List.exists_cons_of_ne_nil hm2
        have ha : a ∈ modelIDs 2 ce (T.ve v) := by rw [hal]; simp
        by_cases hall : ∀ b ∈ modelIDs 2 ce (T.ve v), b = a
        · exact .inr (.inr (.inl ⟨by rw [h.onFace v hv a hm ha hall], hm⟩))
        · simp only [not_forall] at hall
          obtain ⟨b, hb, hba⟩ := hall
          exact .inl (h.touching v hv a b hm ha hb (fun h => hba h.symm) hz).1
    · by_cases ha : ∃ a, modelIDs 1 ce (T.ve v) = [a, a]
      · obtain ⟨a, ha⟩ := ha
        by_cases hc : (c v).1 = 0
        · exact .inl (h.corner v hv a ha hc).1
        · exact .inr (.inr (.inr ⟨by rw [h.onEdge v hv a ha hc], hm⟩))
      · exact .inl (h.vertex v hv hm (fun a h' => ha ⟨a, h'⟩))

/-- **C72.**  What is inside the model bounds only what is inside the model: the classification found meets what
`MESH_DelInterior` (C69) needs. -/
theorem C72_classified {T : Topo} (h : T.Consistent) {vl el fl rl : List Nat} (hL : T.Listed vl el fl rl) (c : Classfn)
    (hd : ∀ f ∈ fl, 2 ≤ (c.f f).1) (hk : ∀ e ∈ el, (c.e e).1 = 1 → (c.e e).2 ≠ 0 → T.ef e ≠ []) :
    ∃ c', T.buildClassfn vl el fl rl c = .ok c' ∧
      T.Classified (fun v => (c'.v v).1) (fun e => (c'.e e).1) (fun f => (c'.f f).1) (meshDim fl rl) := by
  obtain ⟨c', h1, -, hF, hE, hV⟩ := C72_build hL c hk
  refine ⟨c', h1, ?_⟩
  -- neighbours
  have hef : ∀ e ∈ el, ∀ f, f ∈ T.ef e ↔ T.FaceHas f e := by
    intro e he f
    rw [h.ef.mem e (alloc_of_live ((hL.e.2 e).1 he))]
    constructor
    · rintro ⟨k1, k2⟩
      cases hfe : T.fe f with
      | none => simp [bounds, hfe] at k2
      | some l =>
        rw [faceHas_iff k1 hfe]
        simpa [bounds, hfe] using k2
    · intro hh
      obtain ⟨l, k1, -, k2⟩ := hh.stored
      exact ⟨hh.1, by simp [bounds, k1, k2]⟩
  have hefl : ∀ e ∈ el, ∀ f ∈ T.ef e, f ∈ fl := fun e he f hf => (hL.f.2 f).2 ((hef e he f).1 hf).1
  have hve : ∀ v ∈ vl, ∀ e, e ∈ T.ve v ↔ T.EdgeHas e v := by
    intro v hv e
    rw [h.ve.mem v (alloc_of_live ((hL.v.2 v).1 hv)), EdgeHas_iff]
  have hvel : ∀ v ∈ vl, ∀ e ∈ T.ve v, e ∈ el := fun v hv e he => (hL.e.2 e).2 ((hve v hv e).1 he).1
  have hz : ∀ v ∈ vl, ∀ x ∈ modelIDs 2 c'.e (T.ve v), x ≠ 0 := by
    intro v hv x hx
    obtain ⟨e, he, k1, rfl⟩ := mem_modelIDs.1 hx
    have hel := hvel v hv e he
    rcases hE.dims hel with ⟨-, k⟩ | ⟨-, -, k⟩ | ⟨-, k⟩ | ⟨a, k2, k3⟩
    · omega
    · omega
    · omega
    · rw [k3]
      have : a ∈ modelIDs 2 c'.f (T.ef e) := by rw [k2]; simp
      obtain ⟨f, hf, q1, rfl⟩ := mem_modelIDs.1 this
      rcases hF.dims hd (hefl e hel f hf) with q | q
      · exact q.2.1
      · omega
  have hEl : ∀ {f e}, T.FaceHas f e → e ∈ el := fun hh => (hL.e.2 _).2 (faceHas_live h hh)
  have hVl : ∀ {e v}, T.EdgeHas e v → v ∈ vl := fun hh => (hL.v.2 _).2 (h.ve.down _ _ hh.1 (EdgeHas_iff.1 hh).2)
  have hfl : ∀ {f e}, T.FaceHas f e → f ∈ fl := fun hh => (hL.f.2 _).2 hh.1
  have hel' : ∀ {e v}, T.EdgeHas e v → e ∈ el := fun hh => (hL.e.2 _).2 hh.1
  unfold meshDim
  by_cases hr : rl ≠ []
  · rw [if_pos hr]
    refine ⟨?_, ?_⟩
    · intro f e hfe h3
      have he := hEl hfe
      rcases hF.dims hd (hfl hfe) with ⟨q, -, -⟩ | ⟨q, -⟩
      · exfalso
        rcases hE.dims he with ⟨-, k⟩ | ⟨-, k, -⟩ | ⟨-, k⟩ | ⟨a, -, k⟩
        · omega
        · exact modelIDs_nil.1 k f ((hef e he f).2 hfe) q
        · omega
        · rw [k] at h3; omega
      · exact q
    · intro e v hev h3
      have hv := hVl hev
      have hm := (hve v hv e).2 hev
      rcases hV.dims hv (hz v hv) with k | ⟨-, -, k1, k2⟩ | ⟨k, -⟩ | ⟨k, -⟩
      · omega
      · have q1 := modelIDs_nil.1 k1 e hm
        have q2 := modelIDs_nil.1 k2 e hm
        rcases hE.dims (hel' hev) with ⟨-, k⟩ | ⟨-, -, k⟩ | ⟨-, k⟩ | ⟨a, -, k⟩
        · exact absurd k q1
        · exact k
        · exact absurd k q1
        · rw [k] at q2; exact absurd rfl q2
      · omega
      · omega
  · rw [if_neg hr]
    rw [not_not] at hr
    have hnoR : ∀ f ∈ fl, ∀ g, ¬ T.Within c'.r f g := by
      rintro f hf g ⟨r, s, hfr, -, -⟩
      have := (h.fr.mem f (alloc_of_live ((hL.f.2 f).1 hf)) r true).1 (by rw [hfr]; rfl)
      have := (hL.r.2 r).2 this.1
      rw [hr] at this; simp at this
    have hf2 : ∀ f ∈ fl, (c'.f f).1 = 2 := by
      intro f hf
      rcases hF.dims hd hf with ⟨q, -, -⟩ | ⟨-, g, hg⟩
      · exact q
      · exact absurd hg (hnoR f hf g)
    by_cases hf0 : fl ≠ []
    · rw [if_pos hf0]
      refine ⟨fun f e hfe _ => hf2 f (hfl hfe), ?_⟩
      intro e v hev h2
      have hv := hVl hev
      have hm := (hve v hv e).2 hev
      have he := hel' hev
      rcases hV.dims hv (hz v hv) with k | ⟨k, -⟩ | ⟨-, k⟩ | ⟨k, -⟩
      · omega
      · omega
      · have q1 := modelIDs_nil.1 k e hm
        rcases hE.dims he with ⟨-, k⟩ | ⟨k1, k2, k⟩ | ⟨-, k⟩ | ⟨a, -, k⟩
        · exact absurd k q1
        · exfalso
          obtain ⟨f, l, hfl'⟩ := List.exists_cons_of_ne_nil k1
          have hfm : f ∈ T.ef e := by rw [hfl']; simp
          exact modelIDs_nil.1 k2 f hfm (hf2 f (hefl e he f hfm))
        · exact absurd k q1
        · rw [k]
      · omega
    · rw [if_neg hf0]
      rw [not_not] at hf0
      refine ⟨?_, ?_⟩
      · intro f e hfe _
        have := hfl hfe
        rw [hf0] at this; simp at this
      · intro e v hev _
        have he := hel' hev
        have : T.ef e = [] := by
          rw [List.eq_nil_iff_forall_not_mem]
          intro f hf
          have := hefl e he f hf
          rw [hf0] at this; simp at this
        exact hE.alone e he this

/-! ### non-vacuity and negations -/

/-- nothing known but the regions -/
def onlyRegions (g : Nat → Int) : Classfn := ⟨fun _ => (4, 0), fun _ => (4, 0), fun _ => (4, 0), fun r => (3, g r)⟩

/-- what the entities lie on, in lists -/
def Classfn.table (c : Classfn) (nv ne nf nr : Nat) : List (List GEnt) :=
  [(List.range nv).map c.v, (List.range ne).map c.e, (List.range nf).map c.f, (List.range nr).map c.r]

/-- The hypotheses hold for two tetrahedra in two model regions. -/
example : ∃ (T : Topo) (c' : Classfn), empty.run tetPair = .ok T ∧
    T.buildClassfn (List.range 5) (List.range 9) (List.range 7) (List.range 2) (onlyRegions fun r => r + 1) = .ok c' ∧
    FacesOn T (List.range 7) c'.r (fun _ => (4, 0)) c'.f ∧
    T.Classified (fun v => (c'.v v).1) (fun e => (c'.e e).1) (fun f => (c'.f f).1) 3 := by
  obtain ⟨T, h1, h2⟩ := reachable (os := tetPair) (by decide +kernel)
  have hq : answer tetPair (fun T => .ok (T.boundReadyB (fun _ => 0) (fun _ => 0) (fun _ => 0) 5 9 7 2 9)) = .ok true := by
    decide +kernel
  unfold answer at hq
  rw [h1, Res.bind_ok, Res.ok.injEq] at hq
  obtain ⟨hL, -⟩ := boundReadyB_sound h2 hq
  obtain ⟨c', r1, -, r2, -⟩ := C72_build hL (onlyRegions fun r => r + 1) (by simp [onlyRegions])
  obtain ⟨c2, q1, q2⟩ := C72_classified h2 hL (onlyRegions fun r => r + 1) (by simp [onlyRegions]) (by simp [onlyRegions])
  rw [r1, Res.ok.injEq] at q1
  subst q1
  exact ⟨T, c', h1, r1, r2, q2⟩

/-- The classification found: the outer faces of the tetrahedra are on the model faces 1 and 3, the face between
them on the model face 2, and its edges on one model edge, on which also its vertices lie. -/
example : answer tetPair (fun T => do
    let c ← T.buildClassfn (List.range 5) (List.range 9) (List.range 7) (List.range 2) (onlyRegions fun r => r + 1)
    pure (c.table 5 9 7 2)) =
    .ok [[(2, 1), (1, 1), (1, 1), (1, 1), (2, 3)],
      [(2, 1), (1, 1), (2, 1), (1, 1), (2, 1), (1, 1), (2, 3), (2, 3), (2, 3)],
      [(2, 1), (2, 1), (2, 2), (2, 1), (2, 3), (2, 3), (2, 3)], [(3, 1), (3, 2)]] := by
  decide +kernel

/-- a run of operations followed by `MESH_BuildClassfn` -/
theorem run_build {os : List Op} {vl el fl rl : List Nat} {c : Classfn} {P : Topo → Classfn → Bool}
    (h : answer os (fun T => do let c' ← T.buildClassfn vl el fl rl c; pure (P T c')) = .ok true) :
    ∃ T c', empty.run os = .ok T ∧ T.buildClassfn vl el fl rl c = .ok c' ∧ P T c' = true := by
  unfold answer at h
  cases h1 : empty.run os with
  | ok T =>
    rw [h1, Res.bind_ok] at h
    beta_reduce at h
    cases h2 : T.buildClassfn vl el fl rl c with
    | ok c' =>
      rw [h2, Res.bind_ok, Res.pure_eq, Res.ok.injEq] at h
      exact ⟨T, c', rfl, h2, h⟩
    | ub => rw [h2] at h; cases h
    | fatal => rw [h2] at h; cases h
    | hang => rw [h2] at h; cases h
  | ub => rw [h1] at h; cases h
  | fatal => rw [h1] at h; cases h
  | hang => rw [h1] at h; cases h

/-- Two triangles with a common edge. -/
def facePair : List Op :=
  List.replicate 4 .newVertex ++ [.newFace, .setVertices 0 [0,1,2], .newFace, .setVertices 1 [2,1,3]]

/-- **C72, negation.**  The two ends of the model edge between two model faces are put on the same model vertex: here
the vertices 1 and 2 of the common edge of two triangles on different model faces. -/
theorem C72_negation_corners : ∃ T c', empty.run facePair = .ok T ∧
    T.buildClassfn (List.range 4) (List.range 5) (List.range 2) []
      { onlyRegions (fun _ => 0) with f := fun f => (2, f + 1) } = .ok c' ∧
    c'.e 1 = (1, 2) ∧ T.ev 1 = (some 1, some 2) ∧ c'.v 1 = (0, 1) ∧ c'.v 2 = (0, 1) := by
  obtain ⟨T, c', h1, h2, h3⟩ := run_build (os := facePair) (vl := List.range 4) (el := List.range 5) (fl := List.range 2) (rl := [])
    (c := { onlyRegions (fun _ => 0) with f := fun f => (2, f + 1) })
    (P := fun T c' => decide (c'.e 1 = (1, 2) ∧ T.ev 1 = (some 1, some 2) ∧ c'.v 1 = (0, 1) ∧ c'.v 2 = (0, 1))) (by decide +kernel)
  exact ⟨T, c', h1, h2, of_decide_eq_true h3⟩

/-- **C72, negation.**  The model edge given for a mesh edge is not kept: of the outer edges of one model face, one is
given on the model edge 7 and one on the model edge 8; afterwards both are on 7. -/
theorem C72_negation_given : ∃ T c', empty.run facePair = .ok T ∧
    T.buildClassfn (List.range 4) (List.range 5) (List.range 2) []
      { onlyRegions (fun _ => 0) with f := fun _ => (2, 1), e := fun e => if e = 0 then (1, 7) else if e = 2 then (1, 8) else (4, 0) } =
        .ok c' ∧ c'.e 2 = (1, 7) := by
  obtain ⟨T, c', h1, h2, h3⟩ := run_build (os := facePair) (vl := List.range 4) (el := List.range 5) (fl := List.range 2) (rl := [])
    (c := { onlyRegions (fun _ => 0) with f := fun _ => (2, 1), e := fun e => if e = 0 then (1, 7) else if e = 2 then (1, 8) else (4, 0) })
    (P := fun _ c' => decide (c'.e 2 = (1, 7))) (by decide +kernel)
  exact ⟨T, c', h1, h2, of_decide_eq_true h3⟩

/-- Two books of three triangles each. -/
def books : List Op := List.replicate 10 .newVertex ++
  (([[0,1,2],[0,1,3],[0,1,4],[5,6,7],[5,6,8],[5,6,9]] : List (List Nat)).mapIdx
    fun i vs => [Op.newFace, .setVertices i vs]).flatten

/-- **C72, negation.**  Edges on which different model faces meet are put on the same model edge when a model face is
there more than once: 1, 2, 3 on one edge and 1, 1, 2 on the other. -/
theorem C72_negation_repeated : ∃ T c', empty.run books = .ok T ∧
    T.buildClassfn (List.range 10) (List.range 14) (List.range 6) []
      { onlyRegions (fun _ => 0) with f := fun f => (2, [1,2,3,1,1,2].getD f 0) } = .ok c' ∧
    modelIDs 2 c'.f (T.ef 0) = [1, 2, 3] ∧ modelIDs 2 c'.f (T.ef 7) = [1, 1, 2] ∧ c'.e 0 = (1, 1) ∧ c'.e 7 = (1, 1) := by
  obtain ⟨T, c', h1, h2, h3⟩ := run_build (os := books) (vl := List.range 10) (el := List.range 14) (fl := List.range 6) (rl := [])
    (c := { onlyRegions (fun _ => 0) with f := fun f => (2, [1,2,3,1,1,2].getD f 0) })
    (P := fun T c' => decide (modelIDs 2 c'.f (T.ef 0) = [1, 2, 3] ∧ modelIDs 2 c'.f (T.ef 7) = [1, 1, 2] ∧
      c'.e 0 = (1, 1) ∧ c'.e 7 = (1, 1))) (by decide +kernel)
  exact ⟨T, c', h1, h2, of_decide_eq_true h3⟩

/-- **C72, negation.**  An edge without faces that is given on a model edge: undefined behaviour. -/
theorem C72_negation_alone : answer [.newVertex, .newVertex, .newEdge, .setVertex 0 false 0, .setVertex 0 true 1] (fun T => do
    let c ← T.buildClassfn [0, 1] [0] [] [] { onlyRegions (fun _ => 0) with e := fun _ => (1, 1) }
    pure (c.table 2 1 0 0)) = .ub := by
  decide +kernel

/-- **C72, negation.**  A region in a model region with a negative ID is only put right when another region has
ID 0. -/
theorem C72_negation_region : regionClassfn [0, 1] (fun r => if r = 0 then (3, -1) else (3, 1)) 0 = (3, -1) ∧
    regionClassfn [0, 1] (fun r => if r = 0 then (3, -1) else (3, 0)) 0 = (3, 1) := by
  decide +kernel

end Topo
end MSTK
