import Verif.PBoundModel
import Verif.Props.Partition
import Verif.Props.Tri2Quad
import Verif.RangeMesh

/-!
# The boundary between parts

`MESH_BuildPBoundary` flags what a piece has in common with the rest of the mesh.
-/
namespace MSTK
namespace Prt
open File Copy

variable {D : Type}

/-! ### specification -/

/-- what the elements with `sel` consist of -/
def Of (G : FMesh D) (K : Nat) (sel : Nat → Prop) (k g : Nat) : Prop := ∃ x ∈ G.list K, sel x ∧ OfElem G K x k g

/-- everything in the mesh is in an element -/
def AllInElements (G : FMesh D) (K : Nat) : Prop := ∀ k g, g ∈ G.list k → Of G K (fun _ => True) k g

/-! ### what is flagged -/

/-- `A` are the entities that are flagged; nothing else has changed since `P0`. -/
def Flagged (P0 par : Nat → Nat → PDat) (A : Nat → Nat → Prop) : Prop :=
  ∀ k l, ((par k l).onPB = true ↔ A k l) ∧ (par k l).ptype = (P0 k l).ptype ∧ (par k l).master = (P0 k l).master ∧
    (par k l).gid = (P0 k l).gid

theorem Flagged.congr {P0 par : Nat → Nat → PDat} {A B : Nat → Nat → Prop} (h : Flagged P0 par A)
    (hab : ∀ k l, A k l ↔ B k l) : Flagged P0 par B := fun k l => by rw [← hab]; exact h k l

theorem Flagged.flag {P0 par : Nat → Nat → PDat} {A : Nat → Nat → Prop} (h : Flagged P0 par A) (k l : Nat) :
    Flagged P0 (flag par k l) (fun k' l' => A k' l' ∨ (k' = k ∧ l' = l)) := by
  intro k' l'
  unfold Prt.flag
  rw [upd2_at]
  by_cases he : k' = k ∧ l' = l
  · rw [if_pos he]
    obtain ⟨rfl, rfl⟩ := he
    exact ⟨by simp, (h k' l').2⟩
  · rw [if_neg he]
    simp only [he, or_false]
    exact h k' l'

theorem Flagged.interior {P0 par : Nat → Nat → PDat} {A : Nat → Nat → Prop} (h : Flagged P0 par A) {k l : Nat}
    (h0 : (P0 k l).ptype = 0) : Flagged P0 (interior par k l) A := by
  intro k' l'
  unfold Prt.interior
  rw [upd2_at]
  by_cases he : k' = k ∧ l' = l
  · rw [if_pos he]
    obtain ⟨rfl, rfl⟩ := he
    exact ⟨(h k' l').1, h0.symm, (h k' l').2.2⟩
  · rw [if_neg he]; exact h k' l'

theorem Flagged.interiors {P0 : Nat → Nat → PDat} {A : Nat → Nat → Prop} {k : Nat} : ∀ (xs : List Nat) {par : Nat → Nat → PDat},
    (∀ x ∈ xs, (P0 k x).ptype = 0) → Flagged P0 par A → Flagged P0 (xs.foldl (fun par x => Prt.interior par k x) par) A
  | [], _, _, h => h
  | x :: xs, _, h0, h => Flagged.interiors xs (fun y hy => h0 y (List.mem_cons_of_mem _ hy)) (h.interior (h0 x (by simp)))

/-- a loop that flags things: `C` holds of what is flagged all the time -/
theorem loop_flags {P0 : Nat → Nat → PDat} {step : Nat → (Nat → Nat → PDat) → Res (Nat → Nat → PDat)}
    {B : Nat → Nat → Nat → Prop} {C : (Nat → Nat → Prop) → Prop} : ∀ (xs : List Nat),
    (∀ x ∈ xs, ∀ par A, Flagged P0 par A → C A → C (fun k l => A k l ∨ B x k l) ∧
      ∃ par', step x par = .ok par' ∧ Flagged P0 par' (fun k l => A k l ∨ B x k l)) →
    ∀ (par : Nat → Nat → PDat) (A : Nat → Nat → Prop), Flagged P0 par A → C A →
    ∃ par', loop step xs par = .ok par' ∧ Flagged P0 par' (fun k l => A k l ∨ ∃ x ∈ xs, B x k l) ∧
      C (fun k l => A k l ∨ ∃ x ∈ xs, B x k l)
  | [], _, par, A, h, hC => by
    have e : (fun k l => A k l ∨ ∃ x ∈ ([] : List Nat), B x k l) = A := by funext k l; simp
    rw [e]
    exact ⟨par, rfl, h, hC⟩
  | x :: xs, hs, par, A, h, hC => by
    obtain ⟨c1, par1, r1, f1⟩ := hs x (by simp) par A h hC
    obtain ⟨par2, r2, f2, c2⟩ := loop_flags xs (fun y hy => hs y (List.mem_cons_of_mem _ hy)) par1 _ f1 c1
    have e : (fun k l => (A k l ∨ B x k l) ∨ ∃ y ∈ xs, B y k l) = fun k l => A k l ∨ ∃ y ∈ x :: xs, B y k l := by
      funext k l; simp [or_assoc]
    rw [e] at f2 c2
    refine ⟨par2, ?_, f2, c2⟩
    unfold loop
    rw [r1, Res.bind_ok, r2]

theorem flagEdge_ok {L : FMesh D} (hL : L.Sound) {e : Nat} (he : e ∈ L.el) {P0 par : Nat → Nat → PDat}
    {A : Nat → Nat → Prop} (h : Flagged P0 par A) :
    ∃ par', flagEdge L e par = .ok par' ∧ Flagged P0 par' (fun k l => A k l ∨ OfEdge L e k l) := by
  obtain ⟨a, b, hab⟩ := hL.ends e he
  have hq := (Topo.C49_view hL.cons).1
  have hlive := (hL.el.2 e).1 he
  have q0 : L.T.meVertex e false = .ok (some a) := by rw [hq e false hlive, hab]; rfl
  have q1 : L.T.meVertex e true = .ok (some b) := by rw [hq e true hlive, hab]; rfl
  unfold flagEdge
  simp only [q0, q1, Res.bind_ok, Res.ofOption_some]
  refine ⟨_, rfl, (((h.flag 1 e).flag 0 a).flag 0 b).congr fun k l => ?_⟩
  unfold OfEdge
  rw [hab]
  simp only [Option.some.injEq]
  constructor
  · rintro (((h | h) | ⟨h1, h2⟩) | ⟨h1, h2⟩)
    · exact Or.inl h
    · exact Or.inr (Or.inl h)
    · exact Or.inr (Or.inr ⟨h1, Or.inl h2.symm⟩)
    · exact Or.inr (Or.inr ⟨h1, Or.inr h2.symm⟩)
  · rintro (h | h | ⟨h1, h2 | h2⟩)
    · exact Or.inl (Or.inl (Or.inl h))
    · exact Or.inl (Or.inl (Or.inr h))
    · exact Or.inl (Or.inr ⟨h1, h2.symm⟩)
    · exact Or.inr ⟨h1, h2.symm⟩

/-! ### counting -/

theorem diff_iff {xs ys : List Nat} {u : Nat → Option Nat} {P : Nat → Prop} (hx : xs.Nodup) (hy : ys.Nodup)
    (inj : ∀ l l' g, u l = some g → u l' = some g → l = l') (h1 : ∀ l ∈ xs, ∃ g ∈ ys, u l = some g ∧ P g)
    (h2 : ∀ g ∈ ys, P g → ∃ l ∈ xs, u l = some g) : xs.length ≠ ys.length ↔ ∃ g ∈ ys, ¬ P g := by
  have hlen : ∀ zs : List Nat, (∀ l ∈ zs, ∃ g, u l = some g) → (zs.filterMap u).length = zs.length := by
    intro zs hz
    induction zs with
    | nil => rfl
    | cons z zs ih =>
      obtain ⟨g, hg⟩ := hz z (by simp)
      rw [List.filterMap_cons_some hg, List.length_cons, List.length_cons,
        ih fun l hl => hz l (List.mem_cons_of_mem _ hl)]
  have hl := hlen xs fun l hl => by obtain ⟨g, _, h, _⟩ := h1 l hl; exact ⟨g, h⟩
  have hnd : (xs.filterMap u).Nodup := by
    refine hx.filterMap ?_
    intro a a' b hb hb'
    exact inj a a' b hb hb'
  have hsub : xs.filterMap u ⊆ ys := by
    intro g hg
    obtain ⟨l, hl, hu⟩ := List.mem_filterMap.1 hg
    obtain ⟨g', h, hu', _⟩ := h1 l hl
    rw [hu] at hu'; injection hu' with hu'; subst hu'; exact h
  have hsp := List.subperm_of_subset hnd hsub
  constructor
  · intro hne
    by_contra hall
    have hall : ∀ g ∈ ys, P g := fun g hg => by by_contra hp; exact hall ⟨g, hg, hp⟩
    have hsub' : ys ⊆ xs.filterMap u := by
      intro g hg
      obtain ⟨l, hl, hu⟩ := h2 g hg (hall g hg)
      exact List.mem_filterMap.2 ⟨l, hl, hu⟩
    have a := hsp.length_le
    have b := (List.subperm_of_subset hy hsub').length_le
    omega
  · rintro ⟨g, hg, hp⟩ heq
    have hperm := hsp.perm_of_length_le (by omega)
    have hg' := hperm.mem_iff.2 hg
    obtain ⟨l, hl, hu⟩ := List.mem_filterMap.1 hg'
    obtain ⟨g', _, hu', hp'⟩ := h1 l hl
    rw [hu] at hu'; injection hu' with hu'; subst hu'
    exact hp hp'

theorem orNull_some {l : List Nat} (h : l ≠ []) : Topo.orNull l = some l := by
  unfold Topo.orNull
  rw [if_neg]
  intro h0; exact h (List.length_eq_zero_iff.1 h0)

theorem mem_ve {M : FMesh D} (hM : M.Sound) {v e : Nat} (hv : v ∈ M.vl) :
    e ∈ M.T.ve v ↔ e ∈ M.el ∧ ((M.T.view.ends e).1 = some v ∨ (M.T.view.ends e).2 = some v) := by
  rw [hM.cons.ve.mem v (Topo.alloc_of_live ((hM.vl.2 v).1 hv)), hM.el.2]
  rfl

theorem mem_ef {M : FMesh D} (hM : M.Sound) {e f : Nat} (he : e ∈ M.el) :
    f ∈ M.T.ef e ↔ f ∈ M.fl ∧ ∃ p ∈ M.T.view.edges f, p.1 = e := by
  rw [hM.cons.ef.mem e (Topo.alloc_of_live ((hM.el.2 e).1 he)), hM.fl.2]
  refine and_congr_right fun _ => ?_
  unfold Topo.bounds
  show _ ↔ ∃ p ∈ M.T.edgesOf f, p.1 = e
  unfold Topo.edgesOf
  rw [← Topo.pairs_map_fst ((M.T.fe f).getD []) (Topo.fbit (M.T.fd f)), List.mem_map, Topo.pairs_map_fst]

/-- the regions of a face -/
def regs (T : Topo) (f : Nat) : List Nat := (T.fr f).1.toList ++ (T.fr f).2.toList

theorem mem_regs {M : FMesh D} (hM : M.Sound) {f r : Nat} (hf : f ∈ M.fl) :
    r ∈ regs M.T f ↔ r ∈ M.rl ∧ ∃ p ∈ M.T.view.faces r, p.1 = f := by
  have hm := hM.cons.fr.mem f (Topo.alloc_of_live ((hM.fl.2 f).1 hf)) r
  unfold regs
  rw [List.mem_append, Option.mem_toList, Option.mem_toList, hM.rl.2]
  have h1 := hm true
  have h0 := hm false
  constructor
  · rintro (h | h)
    · obtain ⟨a, b⟩ := h1.1 h
      exact ⟨a, _, b, rfl⟩
    · obtain ⟨a, b⟩ := h0.1 h
      exact ⟨a, _, b, rfl⟩
  · rintro ⟨a, ⟨x, d⟩, b, rfl⟩
    cases d with
    | true => exact Or.inl (h1.2 ⟨a, b⟩)
    | false => exact Or.inr (h0.2 ⟨a, b⟩)

theorem nodup_regs {M : FMesh D} (hM : M.Sound) {f : Nat} (hf : f ∈ M.fl) : (regs M.T f).Nodup := by
  unfold regs
  cases h1 : (M.T.fr f).1 with
  | none => cases h2 : (M.T.fr f).2 <;> simp
  | some a =>
    cases h2 : (M.T.fr f).2 with
    | none => simp
    | some b =>
      have hm := hM.cons.fr.mem f (Topo.alloc_of_live ((hM.fl.2 f).1 hf))
      obtain ⟨ha, ha'⟩ := (hm a true).1 h1
      obtain ⟨hb, hb'⟩ := (hm b false).1 h2
      have hab : a ≠ b := by
        rintro rfl
        obtain ⟨i, hi, bi⟩ := Topo.mem_pairs.1 ha'
        obtain ⟨l, hl⟩ := hM.faces a ((hM.rl.2 a).2 ha)
        have hreg := (hM.cons.reg a l (Topo.alloc_of_live ha) hl).1
        unfold Topo.facesOf at hb'
        rw [hl] at hi hb'
        have := (Topo.mem_pairs_dir hreg hi false).1 hb'
        rw [bi] at this; cases this
      simp [hab]

theorem forall₂_left {α β : Type} {R : α → β → Prop} : ∀ {xs : List α} {ys : List β}, List.Forall₂ R xs ys → ∀ x ∈ xs, ∃ y ∈ ys, R x y
  | _, _, .nil, _, h => by cases h
  | _, _, .cons h t, x, hx => by
    rcases List.mem_cons.1 hx with rfl | hx
    · exact ⟨_, by simp, h⟩
    · obtain ⟨y, hy, r⟩ := forall₂_left t x hx
      exact ⟨y, List.mem_cons_of_mem _ hy, r⟩

theorem forall₂_right {α β : Type} {R : α → β → Prop} : ∀ {xs : List α} {ys : List β}, List.Forall₂ R xs ys → ∀ y ∈ ys, ∃ x ∈ xs, R x y
  | _, _, .nil, _, h => by cases h
  | _, _, .cons h t, y, hy => by
    rcases List.mem_cons.1 hy with rfl | hy
    · exact ⟨_, by simp, h⟩
    · obtain ⟨x, hx, r⟩ := forall₂_right t y hy
      exact ⟨x, List.mem_cons_of_mem _ hx, r⟩

section
variable {G L : FMesh D} {up : Nat → Nat → Option Nat} {has : Nat → Nat → Prop}

theorem PieceOf.mem (h : PieceOf G L up has) {k l g : Nat} (hl : l ∈ L.list k) (hu : up k l = some g) :
    g ∈ G.list k ∧ has k g := by
  obtain ⟨g', h1, h2, h3⟩ := h.from_has k l hl
  rw [hu] at h2; injection h2 with h2; subst h2; exact ⟨h1, h3⟩

/-- the edges of a vertex, in the piece and in the mesh -/
theorem diffV (h : PieceOf G L up has) (hG : G.Sound) {l g : Nat} (hl : l ∈ L.vl) (hu : up 0 l = some g) :
    (L.T.ve l).length ≠ (G.T.ve g).length ↔
      ∃ e ∈ G.el, ((G.T.view.ends e).1 = some g ∨ (G.T.view.ends e).2 = some g) ∧ ¬ has 1 e := by
  have hL := h.sound
  have hg : g ∈ G.vl := (h.mem (k := 0) hl hu).1
  rw [diff_iff (u := up 1) (P := has 1) (hL.cons.ve.nodup l (Topo.alloc_of_live ((hL.vl.2 l).1 hl)))
    (hG.cons.ve.nodup g (Topo.alloc_of_live ((hG.vl.2 g).1 hg))) (h.once 1)]
  · simp only [mem_ve hG hg, and_assoc]
  · intro e' he'
    obtain ⟨h1, h2⟩ := (mem_ve hL hl).1 he'
    obtain ⟨e, k1, k2, k3⟩ := h.from_has 1 e' h1
    obtain ⟨_, a, b, m1, m2⟩ := h.edge e' e k2
    rw [m1] at h2
    refine ⟨e, (mem_ve hG hg).2 ⟨k1, ?_⟩, k2, k3⟩
    rw [m2]
    simp only [Option.some.injEq] at h2
    rcases h2 with rfl | rfl
    · exact Or.inl hu
    · exact Or.inr hu
  · intro e he hP
    obtain ⟨h1, h2⟩ := (mem_ve hG hg).1 he
    obtain ⟨e', k1, k2⟩ := h.all 1 e hP
    obtain ⟨_, a, b, m1, m2⟩ := h.edge e' e k2
    rw [m2] at h2
    refine ⟨e', (mem_ve hL hl).2 ⟨k1, ?_⟩, k2⟩
    rw [m1]
    rcases h2 with h2 | h2
    · exact Or.inl (by rw [h.once 0 a l g h2 hu])
    · exact Or.inr (by rw [h.once 0 b l g h2 hu])

/-- the faces of an edge -/
theorem diffE (h : PieceOf G L up has) (hG : G.Sound) {l g : Nat} (hl : l ∈ L.el) (hu : up 1 l = some g) :
    (L.T.ef l).length ≠ (G.T.ef g).length ↔ ∃ f ∈ G.fl, (∃ p ∈ G.T.view.edges f, p.1 = g) ∧ ¬ has 2 f := by
  have hL := h.sound
  have hg : g ∈ G.el := (h.mem (k := 1) hl hu).1
  rw [diff_iff (u := up 2) (P := has 2) (hL.cons.ef.nodup l (Topo.alloc_of_live ((hL.el.2 l).1 hl)))
    (hG.cons.ef.nodup g (Topo.alloc_of_live ((hG.el.2 g).1 hg))) (h.once 2)]
  · simp only [mem_ef hG hg, and_assoc]
  · intro f' hf'
    obtain ⟨h1, p, hp, rfl⟩ := (mem_ef hL hl).1 hf'
    obtain ⟨f, k1, k2, k3⟩ := h.from_has 2 f' h1
    obtain ⟨q, hq, m1, _⟩ := forall₂_left (h.face f' f k2).2 p hp
    rw [hu] at m1; injection m1 with m1
    exact ⟨f, (mem_ef hG hg).2 ⟨k1, q, hq, m1.symm⟩, k2, k3⟩
  · intro f hf hP
    obtain ⟨h1, q, hq, rfl⟩ := (mem_ef hG hg).1 hf
    obtain ⟨f', k1, k2⟩ := h.all 2 f hP
    obtain ⟨p, hp, m1, _⟩ := forall₂_right (h.face f' f k2).2 q hq
    exact ⟨f', (mem_ef hL hl).2 ⟨k1, p, hp, h.once 1 _ _ _ m1 hu⟩, k2⟩

/-- the regions of a face -/
theorem diffF (h : PieceOf G L up has) (hG : G.Sound) {l g : Nat} (hl : l ∈ L.fl) (hu : up 2 l = some g) :
    (regs L.T l).length ≠ (regs G.T g).length ↔ ∃ r ∈ G.rl, (∃ p ∈ G.T.view.faces r, p.1 = g) ∧ ¬ has 3 r := by
  have hL := h.sound
  have hg : g ∈ G.fl := (h.mem (k := 2) hl hu).1
  rw [diff_iff (u := up 3) (P := has 3) (nodup_regs hL hl) (nodup_regs hG hg) (h.once 3)]
  · simp only [mem_regs hG hg, and_assoc]
  · intro f' hf'
    obtain ⟨h1, p, hp, rfl⟩ := (mem_regs hL hl).1 hf'
    obtain ⟨f, k1, k2, k3⟩ := h.from_has 3 f' h1
    obtain ⟨q, hq, m1, _⟩ := forall₂_left (h.region f' f k2).2 p hp
    rw [hu] at m1; injection m1 with m1
    exact ⟨f, (mem_regs hG hg).2 ⟨k1, q, hq, m1.symm⟩, k2, k3⟩
  · intro f hf hP
    obtain ⟨h1, q, hq, rfl⟩ := (mem_regs hG hg).1 hf
    obtain ⟨f', k1, k2⟩ := h.all 3 f hP
    obtain ⟨p, hp, m1, _⟩ := forall₂_right (h.region f' f k2).2 q hq
    exact ⟨f', (mem_regs hL hl).2 ⟨k1, p, hp, h.once 2 _ _ _ m1 hu⟩, k2⟩

/-- The piece has with an entity something it bounds. -/
structure Borne (G : FMesh D) (has : Nat → Nat → Prop) (K : Nat) : Prop where
  vertex : ∀ g, has 0 g → ∃ e, has 1 e ∧ ((G.T.view.ends e).1 = some g ∨ (G.T.view.ends e).2 = some g)
  edge : ∀ g, has 1 g → ∃ f, has 2 f ∧ ∃ p ∈ G.T.view.edges f, p.1 = g
  face : K = 3 → ∀ g, has 2 g → ∃ r, has 3 r ∧ ∃ p ∈ G.T.view.faces r, p.1 = g

theorem ve_ne (h : PieceOf G L up has) {K : Nat} (hb : Borne G has K) {l g : Nat}
    (hl : l ∈ L.vl) (hu : up 0 l = some g) : L.T.ve l ≠ [] := by
  obtain ⟨e, h1, h2⟩ := hb.vertex g (h.mem (k := 0) hl hu).2
  obtain ⟨e', k1, k2⟩ := h.all 1 e h1
  obtain ⟨_, a, b, m1, m2⟩ := h.edge e' e k2
  rw [m2] at h2
  refine List.ne_nil_of_mem (a := e') ((mem_ve h.sound hl).2 ⟨k1, ?_⟩)
  rw [m1]
  rcases h2 with h2 | h2
  · exact Or.inl (by rw [h.once 0 a l g h2 hu])
  · exact Or.inr (by rw [h.once 0 b l g h2 hu])

theorem ef_ne (h : PieceOf G L up has) {K : Nat} (hb : Borne G has K) {l g : Nat}
    (hl : l ∈ L.el) (hu : up 1 l = some g) : L.T.ef l ≠ [] := by
  obtain ⟨f, h1, q, hq, rfl⟩ := hb.edge g (h.mem (k := 1) hl hu).2
  obtain ⟨f', k1, k2⟩ := h.all 2 f h1
  obtain ⟨p, hp, m1, _⟩ := forall₂_right (h.face f' f k2).2 q hq
  exact List.ne_nil_of_mem (a := f') ((mem_ef h.sound hl).2 ⟨k1, p, hp, h.once 1 _ _ _ m1 hu⟩)

theorem regs_ne (h : PieceOf G L up has) (hb : Borne G has 3) {l g : Nat}
    (hl : l ∈ L.fl) (hu : up 2 l = some g) : regs L.T l ≠ [] := by
  obtain ⟨f, h1, q, hq, rfl⟩ := hb.face rfl g (h.mem (k := 2) hl hu).2
  obtain ⟨f', k1, k2⟩ := h.all 3 f h1
  obtain ⟨p, hp, m1, _⟩ := forall₂_right (h.region f' f k2).2 q hq
  exact List.ne_nil_of_mem (a := f') ((mem_regs h.sound hl).2 ⟨k1, p, hp, h.once 2 _ _ _ m1 hu⟩)

/-! ### the steps -/

/-- the edges, faces, regions at an original that the piece does not have -/
def MissV (G : FMesh D) (has : Nat → Nat → Prop) (g : Nat) : Prop :=
  ∃ e ∈ G.el, ((G.T.view.ends e).1 = some g ∨ (G.T.view.ends e).2 = some g) ∧ ¬ has 1 e
/-- faces -/
def MissE (G : FMesh D) (has : Nat → Nat → Prop) (g : Nat) : Prop :=
  ∃ f ∈ G.fl, (∃ p ∈ G.T.view.edges f, p.1 = g) ∧ ¬ has 2 f
/-- regions -/
def MissF (G : FMesh D) (has : Nat → Nat → Prop) (g : Nat) : Prop :=
  ∃ r ∈ G.rl, (∃ p ∈ G.T.view.faces r, p.1 = g) ∧ ¬ has 3 r

theorem num_ok {l : List Nat} (h : l ≠ []) : num (.ok (Topo.orNull l)) = .ok l.length := by
  unfold num
  rw [Res.bind_ok, orNull_some h]
  rfl

theorem mvEdges_num {T : Topo} {v : Nat} (hv : T.sv v = .live) (h : T.ve v ≠ []) : num (T.mvEdges v) = .ok (T.ve v).length := by
  have : T.mvEdges v = .ok (Topo.orNull (T.ve v)) := by
    unfold Topo.mvEdges Topo.derefV; rw [hv]; rfl
  rw [this, num_ok h]
theorem meFaces_num {T : Topo} {v : Nat} (hv : T.se v = .live) (h : T.ef v ≠ []) : num (T.meFaces v) = .ok (T.ef v).length := by
  have : T.meFaces v = .ok (Topo.orNull (T.ef v)) := by
    unfold Topo.meFaces Topo.derefE; rw [hv]; rfl
  rw [this, num_ok h]
theorem mfRegions_num {T : Topo} {v : Nat} (hv : T.sf v = .live) (h : regs T v ≠ []) : num (T.mfRegions v) = .ok (regs T v).length := by
  have : T.mfRegions v = .ok (Topo.orNull (regs T v)) := by
    unfold Topo.mfRegions Topo.derefF; rw [hv]; rfl
  rw [this, num_ok h]

theorem PieceOf.in_mesh (h : PieceOf G L up has) {k g : Nat} (hg : has k g) : g ∈ G.list k := by
  obtain ⟨l, h1, h2⟩ := h.all k g hg
  exact (h.mem h1 h2).1

/-- flagged edges are flagged with their vertices -/
def Closed (L : FMesh D) (A : Nat → Nat → Prop) : Prop := ∀ e ∈ L.el, A 1 e → ∀ k l, OfEdge L e k l → A k l

theorem Closed.or {L : FMesh D} {A B : Nat → Nat → Prop} (hA : Closed L A) (hB : Closed L B) :
    Closed L (fun k l => A k l ∨ B k l) := by
  rintro e he (h | h) k l ho
  · exact Or.inl (hA e he h k l ho)
  · exact Or.inr (hB e he h k l ho)

theorem closed_edge {L : FMesh D} {e : Nat} {c : Prop} : Closed L (fun k l => c ∧ OfEdge L e k l) := by
  rintro e' _ ⟨hc, h | h⟩ k l ho
  · obtain ⟨_, rfl⟩ := h; exact ⟨hc, ho⟩
  · exact absurd h.1 (by omega)

theorem closed_face {L : FMesh D} {f : Nat} {c : Prop} : Closed L (fun k l => c ∧ OfFace L f k l) := by
  rintro e' _ ⟨hc, h | ⟨p, hp, h | h⟩⟩ k l ho
  · exact absurd h.1 (by omega)
  · obtain ⟨_, rfl⟩ := h; exact ⟨hc, Or.inr ⟨p, hp, ho⟩⟩
  · exact absurd h.1 (by omega)

theorem vertex_step (h : PieceOf G L up has) (hG : G.Sound) {K : Nat} (hb : Borne G has K) {P0 : Nat → Nat → PDat}
    (h0 : ∀ k l, l ∈ L.list k → (P0 k l).ptype = 0) {v : Nat} (hv : v ∈ L.vl) {par : Nat → Nat → PDat}
    {A : Nat → Nat → Prop} (hF : Flagged P0 par A) :
    ∃ par', vertexStep G L up v par = .ok par' ∧
      Flagged P0 par' (fun k l => A k l ∨ (∃ g, up 0 v = some g ∧ MissV G has g) ∧ k = 0 ∧ l = v) := by
  obtain ⟨g, g1, g2, g3⟩ := h.from_has 0 v hv
  unfold vertexStep
  by_cases hA : (par 0 v).onPB = true
  · rw [if_pos hA]
    refine ⟨par, rfl, hF.congr fun k l => ?_⟩
    constructor
    · exact Or.inl
    · rintro (h | ⟨_, rfl, rfl⟩)
      · exact h
      · exact (hF 0 _).1.1 hA
  · rw [if_neg hA]
    have hne : G.T.ve g ≠ [] := by
      obtain ⟨e, e1, e2⟩ := hb.vertex g g3
      exact List.ne_nil_of_mem ((mem_ve hG g1).2 ⟨h.in_mesh (k := 1) e1, e2⟩)
    rw [g2, Res.ofOption_some, Res.bind_ok, mvEdges_num ((h.sound.vl.2 v).1 hv) (ve_ne h hb hv g2), Res.bind_ok,
      mvEdges_num ((hG.vl.2 g).1 g1) hne, Res.bind_ok]
    refine ⟨_, rfl, ?_⟩
    have hd := diffV h hG hv g2
    by_cases hm : MissV G has g
    · rw [if_pos (hd.2 hm)]
      refine (hF.flag 0 v).congr fun k l => or_congr_right ?_
      exact ⟨fun h => ⟨⟨g, rfl, hm⟩, h⟩, fun h => h.2⟩
    · rw [if_neg fun h => hm (hd.1 h)]
      refine (hF.interior (h0 0 v hv)).congr fun k l => ?_
      constructor
      · exact Or.inl
      · rintro (h | ⟨⟨g', e, h⟩, _⟩)
        · exact h
        · injection e with e; subst e; exact absurd h hm

theorem edge_step (h : PieceOf G L up has) (hG : G.Sound) {K : Nat} (hb : Borne G has K) {P0 : Nat → Nat → PDat}
    (h0 : ∀ k l, l ∈ L.list k → (P0 k l).ptype = 0) (skip : Bool) {e : Nat} (he : e ∈ L.el) {par : Nat → Nat → PDat}
    {A : Nat → Nat → Prop} (hF : Flagged P0 par A) (hC : Closed L A) :
    ∃ par', edgeStep G L up skip e par = .ok par' ∧
      Flagged P0 par' (fun k l => A k l ∨ (∃ g, up 1 e = some g ∧ MissE G has g) ∧ OfEdge L e k l) := by
  obtain ⟨g, g1, g2, g3⟩ := h.from_has 1 e he
  unfold edgeStep
  by_cases hA : (skip && (par 1 e).onPB) = true
  · rw [if_pos hA]
    rw [Bool.and_eq_true] at hA
    refine ⟨par, rfl, hF.congr fun k l => ?_⟩
    constructor
    · exact Or.inl
    · rintro (h | ⟨_, ho⟩)
      · exact h
      · exact hC e he ((hF 1 e).1.1 hA.2) k l ho
  · rw [if_neg hA]
    have hne : G.T.ef g ≠ [] := by
      obtain ⟨f, f1, f2⟩ := hb.edge g g3
      exact List.ne_nil_of_mem ((mem_ef hG g1).2 ⟨h.in_mesh (k := 2) f1, f2⟩)
    rw [g2, Res.ofOption_some, Res.bind_ok, meFaces_num ((h.sound.el.2 e).1 he) (ef_ne h hb he g2), Res.bind_ok,
      meFaces_num ((hG.el.2 g).1 g1) hne, Res.bind_ok]
    have hd := diffE h hG he g2
    by_cases hm : MissE G has g
    · rw [if_pos (hd.2 hm)]
      obtain ⟨par', r, f⟩ := flagEdge_ok h.sound he hF
      refine ⟨par', r, f.congr fun k l => or_congr_right ?_⟩
      exact ⟨fun h => ⟨⟨g, rfl, hm⟩, h⟩, fun h => h.2⟩
    · rw [if_neg fun h => hm (hd.1 h)]
      refine ⟨_, rfl, (hF.interior (h0 1 e he)).congr fun k l => ?_⟩
      constructor
      · exact Or.inl
      · rintro (h | ⟨⟨g', e, h⟩, _⟩)
        · exact h
        · injection e with e; subst e; exact absurd h hm

theorem face_step (h : PieceOf G L up has) (hG : G.Sound) (hb : Borne G has 3) {P0 : Nat → Nat → PDat}
    (h0 : ∀ k l, l ∈ L.list k → (P0 k l).ptype = 0) {f : Nat} (hf : f ∈ L.fl) {par : Nat → Nat → PDat}
    {A : Nat → Nat → Prop} (hF : Flagged P0 par A) :
    ∃ par', faceStep G L up f par = .ok par' ∧
      Flagged P0 par' (fun k l => A k l ∨ (∃ g, up 2 f = some g ∧ MissF G has g) ∧ OfFace L f k l) := by
  obtain ⟨g, g1, g2, g3⟩ := h.from_has 2 f hf
  have hL := h.sound
  unfold faceStep
  have hne : regs G.T g ≠ [] := by
    obtain ⟨r, r1, r2⟩ := hb.face rfl g g3
    exact List.ne_nil_of_mem ((mem_regs hG g1).2 ⟨h.in_mesh (k := 3) r1, r2⟩)
  rw [g2, Res.ofOption_some, Res.bind_ok, mfRegions_num ((hL.fl.2 f).1 hf) (regs_ne h hb hf g2), Res.bind_ok,
    mfRegions_num ((hG.fl.2 g).1 g1) hne, Res.bind_ok]
  have hd := diffF h hG hf g2
  by_cases hm : MissF G has g
  · rw [if_pos (hd.2 hm)]
    obtain ⟨l, hfe⟩ := (hL.edges f hf).1
    have hvw : L.T.view.edges f = Topo.pairs l (Topo.fbit (L.T.fd f)) := Topo.edgesOf_some hfe
    have q1 : L.T.mfEdges f true none = .ok ((L.T.view.edges f).map (·.1)) := by
      rw [hvw, Topo.pairs_map_fst]; exact Topo.mfEdges_plain (Topo.alloc_of_live ((hL.fl.2 f).1 hf)) hfe
    rw [q1, Res.bind_ok]
    obtain ⟨par', r, hfl, _⟩ := loop_flags (P0 := P0) (step := flagEdge L) (B := OfEdge L) (C := fun _ => True)
      ((L.T.view.edges f).map (·.1)) (fun x hx par A hF _ => by
        obtain ⟨p, hp, rfl⟩ := List.mem_map.1 hx
        exact ⟨trivial, flagEdge_ok hL (hL.edgesLive hf hp) hF⟩) _ _ (hF.flag 2 f) trivial
    refine ⟨par', r, hfl.congr fun k l => ?_⟩
    rw [or_assoc]
    refine or_congr_right ?_
    unfold OfFace
    constructor
    · rintro (h | ⟨x, hx, h⟩)
      · exact ⟨⟨g, rfl, hm⟩, Or.inl h⟩
      · obtain ⟨p, hp, rfl⟩ := List.mem_map.1 hx
        exact ⟨⟨g, rfl, hm⟩, Or.inr ⟨p, hp, h⟩⟩
    · rintro ⟨_, h | ⟨p, hp, h⟩⟩
      · exact Or.inl h
      · exact Or.inr ⟨p.1, List.mem_map.2 ⟨p, hp, rfl⟩, h⟩
  · rw [if_neg fun h => hm (hd.1 h)]
    refine ⟨_, rfl, (hF.interior (h0 2 f hf)).congr fun k l => ?_⟩
    constructor
    · exact Or.inl
    · rintro (h | ⟨⟨g', e, h⟩, _⟩)
      · exact h
      · injection e with e; subst e; exact absurd h hm

/-! ### the loops -/

theorem vertex_loop (h : PieceOf G L up has) (hG : G.Sound) {K : Nat} (hb : Borne G has K) {P0 : Nat → Nat → PDat}
    (h0 : ∀ k l, l ∈ L.list k → (P0 k l).ptype = 0) {par : Nat → Nat → PDat} {A : Nat → Nat → Prop} (hF : Flagged P0 par A) :
    ∃ par', loop (vertexStep G L up) L.vl par = .ok par' ∧
      Flagged P0 par' (fun k l => A k l ∨ ∃ v ∈ L.vl, (∃ g, up 0 v = some g ∧ MissV G has g) ∧ k = 0 ∧ l = v) := by
  obtain ⟨par', r, f, _⟩ := loop_flags (P0 := P0) (C := fun _ => True) L.vl
    (fun x hx par A hF _ => ⟨trivial, vertex_step h hG hb h0 hx hF⟩) par A hF trivial
  exact ⟨par', r, f⟩

theorem edge_loop (h : PieceOf G L up has) (hG : G.Sound) {K : Nat} (hb : Borne G has K) {P0 : Nat → Nat → PDat}
    (h0 : ∀ k l, l ∈ L.list k → (P0 k l).ptype = 0) (skip : Bool) {par : Nat → Nat → PDat} {A : Nat → Nat → Prop}
    (hF : Flagged P0 par A) (hC : Closed L A) :
    ∃ par', loop (edgeStep G L up skip) L.el par = .ok par' ∧
      Flagged P0 par' (fun k l => A k l ∨ ∃ v ∈ L.el, (∃ g, up 1 v = some g ∧ MissE G has g) ∧ OfEdge L v k l) ∧
      Closed L (fun k l => A k l ∨ ∃ v ∈ L.el, (∃ g, up 1 v = some g ∧ MissE G has g) ∧ OfEdge L v k l) :=
  loop_flags (P0 := P0) (C := Closed L) L.el
    (fun _ hx _ _ hF hC => ⟨hC.or closed_edge, edge_step h hG hb h0 skip hx hF hC⟩) par A hF hC

theorem face_loop (h : PieceOf G L up has) (hG : G.Sound) (hb : Borne G has 3) {P0 : Nat → Nat → PDat}
    (h0 : ∀ k l, l ∈ L.list k → (P0 k l).ptype = 0) {par : Nat → Nat → PDat} {A : Nat → Nat → Prop}
    (hF : Flagged P0 par A) (hC : Closed L A) :
    ∃ par', loop (faceStep G L up) L.fl par = .ok par' ∧
      Flagged P0 par' (fun k l => A k l ∨ ∃ v ∈ L.fl, (∃ g, up 2 v = some g ∧ MissF G has g) ∧ OfFace L v k l) ∧
      Closed L (fun k l => A k l ∨ ∃ v ∈ L.fl, (∃ g, up 2 v = some g ∧ MissF G has g) ∧ OfFace L v k l) :=
  loop_flags (P0 := P0) (C := Closed L) L.fl
    (fun _ hx _ _ hF hC => ⟨hC.or closed_face, face_step h hG hb h0 hx hF⟩) par A hF hC

end

/-! ### what the elements that are not there have -/

section
variable {G L : FMesh D} {up : Nat → Nat → Option Nat} {K : Nat} {sel : Nat → Prop}

theorem ofElem_edge {x g : Nat} (hK : K = 2 ∨ K = 3) :
    OfElem G K x 1 g ↔ ∃ f, OfElem G K x 2 f ∧ ∃ p ∈ G.T.view.edges f, p.1 = g := by
  unfold OfElem
  rcases hK with rfl | rfl
  · rw [if_neg (by omega)]
    unfold OfFace OfEdge
    constructor
    · rintro (h | ⟨p, hp, h | h⟩)
      · exact absurd h.1 (by omega)
      · exact ⟨x, by rw [if_neg (by omega)]; exact Or.inl ⟨rfl, rfl⟩, p, hp, h.2.symm⟩
      · exact absurd h.1 (by omega)
    · rintro ⟨f, h, p, hp, rfl⟩
      rw [if_neg (by omega)] at h
      rcases h with ⟨_, rfl⟩ | ⟨_, _, h | h⟩
      · exact Or.inr ⟨p, hp, Or.inl ⟨rfl, rfl⟩⟩
      · exact absurd h.1 (by omega)
      · exact absurd h.1 (by omega)
  · rw [if_pos rfl]
    unfold OfRegion OfFace OfEdge
    constructor
    · rintro (h | ⟨p, hp, h | ⟨q, hq, h | h⟩⟩)
      · exact absurd h.1 (by omega)
      · exact absurd h.1 (by omega)
      · exact ⟨p.1, by rw [if_pos rfl]; exact Or.inr ⟨p, hp, Or.inl ⟨rfl, rfl⟩⟩, q, hq, h.2.symm⟩
      · exact absurd h.1 (by omega)
    · rintro ⟨f, h, p, hp, rfl⟩
      rw [if_pos rfl] at h
      rcases h with ⟨h, _⟩ | ⟨q, hq, ⟨_, rfl⟩ | ⟨_, _, h | h⟩⟩
      · exact absurd h (by omega)
      · exact Or.inr ⟨q, hq, Or.inr ⟨p, hp, Or.inl ⟨rfl, rfl⟩⟩⟩
      · exact absurd h.1 (by omega)
      · exact absurd h.1 (by omega)

theorem ofElem_vertex {x g : Nat} (hK : K = 2 ∨ K = 3) :
    OfElem G K x 0 g ↔ ∃ e, OfElem G K x 1 e ∧ ((G.T.view.ends e).1 = some g ∨ (G.T.view.ends e).2 = some g) := by
  unfold OfElem
  rcases hK with rfl | rfl
  · rw [if_neg (by omega)]
    unfold OfFace OfEdge
    constructor
    · rintro (h | ⟨p, hp, h | h⟩)
      · exact absurd h.1 (by omega)
      · exact absurd h.1 (by omega)
      · exact ⟨p.1, by rw [if_neg (by omega)]; exact Or.inr ⟨p, hp, Or.inl ⟨rfl, rfl⟩⟩, h.2⟩
    · rintro ⟨e, h, he⟩
      rw [if_neg (by omega)] at h
      rcases h with h | ⟨p, hp, ⟨_, rfl⟩ | h⟩
      · exact absurd h.1 (by omega)
      · exact Or.inr ⟨p, hp, Or.inr ⟨rfl, he⟩⟩
      · exact absurd h.1 (by omega)
  · rw [if_pos rfl]
    unfold OfRegion OfFace OfEdge
    constructor
    · rintro (h | ⟨p, hp, h | ⟨q, hq, h | h⟩⟩)
      · exact absurd h.1 (by omega)
      · exact absurd h.1 (by omega)
      · exact absurd h.1 (by omega)
      · exact ⟨q.1, by rw [if_pos rfl]; exact Or.inr ⟨p, hp, Or.inr ⟨q, hq, Or.inl ⟨rfl, rfl⟩⟩⟩, h.2⟩
    · rintro ⟨e, h, he⟩
      rw [if_pos rfl] at h
      rcases h with h | ⟨p, hp, h | ⟨q, hq, ⟨_, rfl⟩ | h⟩⟩
      · exact absurd h.1 (by omega)
      · exact absurd h.1 (by omega)
      · exact Or.inr ⟨p, hp, Or.inr ⟨q, hq, Or.inr ⟨rfl, he⟩⟩⟩
      · exact absurd h.1 (by omega)

theorem ofElem_face {x g : Nat} : OfElem G 3 x 2 g ↔ ∃ p ∈ G.T.view.faces x, p.1 = g := by
  unfold OfElem
  rw [if_pos rfl]
  unfold OfRegion OfFace OfEdge
  constructor
  · rintro (h | ⟨p, hp, h | ⟨q, hq, h | h⟩⟩)
    · exact absurd h.1 (by omega)
    · exact ⟨p, hp, h.2.symm⟩
    · exact absurd h.1 (by omega)
    · exact absurd h.1 (by omega)
  · rintro ⟨p, hp, rfl⟩
    exact Or.inr ⟨p, hp, Or.inl ⟨rfl, rfl⟩⟩

theorem of_same (hK : K = 2 ∨ K = 3) {x : Nat} (hx : x ∈ G.list K) : Of G K sel K x ↔ sel x := by
  unfold Of
  constructor
  · rintro ⟨y, _, hs, ho⟩
    rw [ofElem_same hK] at ho; subst ho; exact hs
  · exact fun hs => ⟨x, hx, hs, (ofElem_same hK).2 rfl⟩

theorem of_borne (hK : K = 2 ∨ K = 3) : Borne G (Of G K sel) K where
  vertex := by
    rintro g ⟨x, hx, hs, ho⟩
    obtain ⟨e, h1, h2⟩ := (ofElem_vertex hK).1 ho
    exact ⟨e, ⟨x, hx, hs, h1⟩, h2⟩
  edge := by
    rintro g ⟨x, hx, hs, ho⟩
    obtain ⟨f, h1, h2⟩ := (ofElem_edge hK).1 ho
    exact ⟨f, ⟨x, hx, hs, h1⟩, h2⟩
  face := by
    rintro rfl g ⟨x, hx, hs, ho⟩
    exact ⟨x, ⟨x, hx, hs, (ofElem_same hK).2 rfl⟩, ofElem_face.1 ho⟩

/-- what is not in the elements with `sel` is in one without -/
theorem of_other (hall : AllInElements G K) {k g : Nat} (hg : g ∈ G.list k) (hno : ¬ Of G K sel k g) :
    Of G K (fun x => ¬ sel x) k g := by
  obtain ⟨x, hx, _, ho⟩ := hall k g hg
  exact ⟨x, hx, fun hs => hno ⟨x, hx, hs, ho⟩, ho⟩

theorem miss_face {g : Nat} : MissF G (Of G 3 sel) g ↔ Of G 3 (fun x => ¬ sel x) 2 g := by
  unfold MissF
  constructor
  · rintro ⟨r, hr, h1, h2⟩
    rw [of_same (Or.inr rfl) hr] at h2
    exact ⟨r, hr, h2, ofElem_face.2 h1⟩
  · rintro ⟨r, hr, h1, h2⟩
    exact ⟨r, hr, ofElem_face.1 h2, fun h => h1 ((of_same (Or.inr rfl) hr).1 h)⟩

theorem miss_edge_of (hK : K = 2 ∨ K = 3) (hall : AllInElements G K) {g : Nat} (h : MissE G (Of G K sel) g) :
    Of G K (fun x => ¬ sel x) 1 g := by
  obtain ⟨f, hf, hp, hno⟩ := h
  obtain ⟨x, hx, hs, ho⟩ := of_other hall (k := 2) hf hno
  exact ⟨x, hx, hs, (ofElem_edge hK).2 ⟨f, ho, hp⟩⟩

theorem miss_vertex_of (hK : K = 2 ∨ K = 3) (hall : AllInElements G K) {g : Nat} (h : MissV G (Of G K sel) g) :
    Of G K (fun x => ¬ sel x) 0 g := by
  obtain ⟨e, he, hp, hno⟩ := h
  obtain ⟨x, hx, hs, ho⟩ := of_other hall (k := 1) he hno
  exact ⟨x, hx, hs, (ofElem_vertex hK).2 ⟨e, ho, hp⟩⟩

theorem out_down (hK : K = 2 ∨ K = 3) {e k g : Nat} (ho : OfEdge G e k g) (h : Of G K sel 1 e) : Of G K sel k g := by
  obtain ⟨x, hx, hs, hx1⟩ := h
  rcases ho with ⟨rfl, rfl⟩ | ⟨rfl, ho⟩
  · exact ⟨x, hx, hs, hx1⟩
  · exact ⟨x, hx, hs, (ofElem_vertex hK).2 ⟨e, hx1, ho⟩⟩

theorem out_down2 (hK : K = 2 ∨ K = 3) {f k g : Nat} (ho : OfFace G f k g) (h : Of G K sel 2 f) : Of G K sel k g := by
  rcases ho with ⟨rfl, rfl⟩ | ⟨p, hp, ho⟩
  · exact h
  · refine out_down hK ho ?_
    obtain ⟨x, hx, hs, hx2⟩ := h
    exact ⟨x, hx, hs, (ofElem_edge hK).2 ⟨f, hx2, p, hp, rfl⟩⟩

/-- what an edge of the piece consists of, and its original -/
theorem ofEdge_up {has : Nat → Nat → Prop} (h : PieceOf G L up has) {e' e k l g : Nat} (he : up 1 e' = some e)
    (hl : up k l = some g) : OfEdge L e' k l ↔ OfEdge G e k g := by
  unfold OfEdge
  obtain ⟨_, a, b, m1, m2⟩ := h.edge e' e he
  rw [m1, m2]
  simp only [Option.some.injEq]
  constructor
  · rintro (⟨rfl, rfl⟩ | ⟨rfl, rfl | rfl⟩)
    · rw [he] at hl; injection hl with hl; exact Or.inl ⟨rfl, hl.symm⟩
    · exact Or.inr ⟨rfl, Or.inl hl⟩
    · exact Or.inr ⟨rfl, Or.inr hl⟩
  · rintro (⟨rfl, rfl⟩ | ⟨rfl, h' | h'⟩)
    · exact Or.inl ⟨rfl, h.once 1 _ _ _ hl he⟩
    · exact Or.inr ⟨rfl, Or.inl (h.once 0 _ _ _ h' hl)⟩
    · exact Or.inr ⟨rfl, Or.inr (h.once 0 _ _ _ h' hl)⟩

theorem ofFace_up {has : Nat → Nat → Prop} (h : PieceOf G L up has) {f' f k l g : Nat} (hf : up 2 f' = some f)
    (hl : up k l = some g) : OfFace L f' k l ↔ OfFace G f k g := by
  unfold OfFace
  have hfa := (h.face f' f hf).2
  constructor
  · rintro (⟨rfl, rfl⟩ | ⟨p, hp, ho⟩)
    · rw [hf] at hl; injection hl with hl; exact Or.inl ⟨rfl, hl.symm⟩
    · obtain ⟨q, hq, m, _⟩ := forall₂_left hfa p hp
      exact Or.inr ⟨q, hq, (ofEdge_up h m hl).1 ho⟩
  · rintro (⟨rfl, rfl⟩ | ⟨q, hq, ho⟩)
    · exact Or.inl ⟨rfl, h.once 2 _ _ _ hl hf⟩
    · obtain ⟨p, hp, m, _⟩ := forall₂_right hfa q hq
      exact Or.inr ⟨p, hp, (ofEdge_up h m hl).2 ho⟩

theorem elem_face_in (hG : G.Sound) (hK : K = 2 ∨ K = 3) {x f : Nat} (hx : x ∈ G.list K) (h : OfElem G K x 2 f) :
    f ∈ G.fl := by
  rcases hK with rfl | rfl
  · rw [ofElem_same (Or.inl rfl)] at h
    subst h; exact hx
  · obtain ⟨p, hp, rfl⟩ := ofElem_face.1 h
    exact hG.facesLive hx hp

theorem elem_edge_in (hG : G.Sound) (hK : K = 2 ∨ K = 3) {x e : Nat} (hx : x ∈ G.list K) (h : OfElem G K x 1 e) :
    e ∈ G.el := by
  obtain ⟨f, h1, p, hp, rfl⟩ := (ofElem_edge hK).1 h
  exact hG.edgesLive (elem_face_in hG hK hx h1) hp

/-- what the loops flag is what is in an element without `sel` -/
theorem flags_out (hG : G.Sound) (h : PieceOf G L up (Of G K sel)) (hK : K = 2 ∨ K = 3) (hall : AllInElements G K)
    {A : Nat → Nat → Prop} (hA : ∀ k l, l ∈ L.list k → (A k l ↔ (K = 3 ∧ ∃ v ∈ L.fl, (∃ g, up 2 v = some g ∧ MissF G (Of G K sel) g) ∧ OfFace L v k l) ∨
      (∃ v ∈ L.el, (∃ g, up 1 v = some g ∧ MissE G (Of G K sel) g) ∧ OfEdge L v k l)))
    (hC : Closed L A) {k l g : Nat} (hl : l ∈ L.list k) (hu : up k l = some g) :
    (A k l ∨ ∃ v ∈ L.vl, (∃ g, up 0 v = some g ∧ MissV G (Of G K sel) g) ∧ k = 0 ∧ l = v) ↔
      Of G K (fun x => ¬ sel x) k g := by
  constructor
  · rintro (ha | ⟨v, _, ⟨g', e, hm⟩, rfl, rfl⟩)
    · rcases (hA k l hl).1 ha with ⟨rfl, v, _, ⟨g', e, hm⟩, ho⟩ | ⟨v, _, ⟨g', e, hm⟩, ho⟩
      · exact out_down2 hK ((ofFace_up h e hu).1 ho) (miss_face.1 hm)
      · exact out_down hK ((ofEdge_up h e hu).1 ho) (miss_edge_of hK hall hm)
    · rw [hu] at e; injection e with e; subst e
      exact miss_vertex_of hK hall hm
  · intro hout
    -- edges
    have hedge : ∀ l g, l ∈ L.el → up 1 l = some g → Of G K (fun x => ¬ sel x) 1 g → A 1 l := by
      rintro l g hl hu ⟨x, hx, hs, ho⟩
      obtain ⟨f, h1, h2⟩ := (ofElem_edge hK).1 ho
      rw [hA 1 l hl]
      by_cases hf : Of G K sel 2 f
      · rcases hK with rfl | rfl
        · rw [ofElem_same (Or.inl rfl)] at h1
          subst h1
          exact absurd ((of_same (Or.inl rfl) hx).1 hf) hs
        · obtain ⟨f', f1, f2⟩ := h.all 2 f hf
          refine Or.inl ⟨rfl, f', f1, ⟨f, f2, miss_face.2 ⟨x, hx, hs, h1⟩⟩, ?_⟩
          rw [ofFace_up h f2 hu]
          obtain ⟨p, hp, rfl⟩ := h2
          exact Or.inr ⟨p, hp, Or.inl ⟨rfl, rfl⟩⟩
      · have hfl := elem_face_in hG hK hx h1
        exact Or.inr ⟨l, hl, ⟨g, hu, f, hfl, h2, hf⟩, Or.inl ⟨rfl, rfl⟩⟩
    match k, hl, hu, hout with
    | 0, hl, hu, hout =>
      obtain ⟨x, hx, hs, ho⟩ := hout
      obtain ⟨e, h1, h2⟩ := (ofElem_vertex hK).1 ho
      by_cases he : Of G K sel 1 e
      · obtain ⟨e', e1, e2⟩ := h.all 1 e he
        exact Or.inl (hC e' e1 (hedge e' e e1 e2 ⟨x, hx, hs, h1⟩) 0 l
          ((ofEdge_up h e2 hu).2 (Or.inr ⟨rfl, h2⟩)))
      · exact Or.inr ⟨l, hl, ⟨g, hu, e, elem_edge_in hG hK hx h1, h2, he⟩, rfl, rfl⟩
    | 1, hl, hu, hout => exact Or.inl (hedge l g hl hu hout)
    | 2, hl, hu, hout =>
      rcases hK with rfl | rfl
      · exfalso
        obtain ⟨x, hx, hs, ho⟩ := hout
        rw [ofElem_same (Or.inl rfl)] at ho; subst ho
        exact hs ((of_same (Or.inl rfl) hx).1 (h.mem (k := 2) hl hu).2)
      · exact Or.inl ((hA 2 l hl).2 (Or.inl ⟨rfl, l, hl, ⟨g, hu, miss_face.2 hout⟩, Or.inl ⟨rfl, rfl⟩⟩))
    | 3, hl, hu, hout =>
      exfalso
      obtain ⟨x, hx, hs, ho⟩ := hout
      rcases hK with rfl | rfl
      · unfold OfElem at ho
        rw [if_neg (by omega)] at ho
        rcases ho with h' | ⟨_, _, h' | h'⟩
        · exact absurd h'.1 (by omega)
        · exact absurd h'.1 (by omega)
        · exact absurd h'.1 (by omega)
      · rw [ofElem_same (Or.inr rfl)] at ho; subst ho
        exact hs ((of_same (Or.inr rfl) hx).1 (h.mem (k := 3) hl hu).2)
    | k+4, hl, _, _ => cases hl

end

section
variable {G L : FMesh D} {up : Nat → Nat → Option Nat}

/-- the elements a part has, and those it has not -/
theorem inPart_of {K : Nat} {part : List Int} {p k g : Nat} :
    InPart G K part p k g ↔ Of G K (fun x => ∃ i : Nat, (G.list K)[i]? = some x ∧ part[i]? = some (p : Int)) k g := by
  unfold InPart Of
  constructor
  · rintro ⟨i, x, h1, h2, h3⟩
    exact ⟨x, List.mem_of_getElem? h1, ⟨i, h1, h2⟩, h3⟩
  · rintro ⟨x, _, ⟨i, h1, h2⟩, h3⟩
    exact ⟨i, x, h1, h2, h3⟩

/-- **C77 (the boundary between parts).**  `L` is the piece of the mesh `G` made of the elements with
`sel`, everything in the mesh is in an element, and nothing of the piece is flagged yet or has a parallel
type: `MESH_BuildPBoundary` flags just those entities of the piece that are in an element without `sel`, and
changes nothing else. -/
theorem C77_boundary_partial (hG : G.Sound) {K : Nat} (hK : ElementsOf G K) {sel : Nat → Prop}
    (h : PieceOf G L up (Of G K sel)) (hall : AllInElements G K) {par : Nat → Nat → PDat}
    (h0 : ∀ k l, l ∈ L.list k → (par k l).ptype = 0 ∧ (par k l).onPB = false) :
    ∃ par', buildPBoundary G L up par = .ok par' ∧
      (∀ k l g, l ∈ L.list k → up k l = some g →
        ((par' k l).onPB = true ↔ Of G K (fun x => ¬ sel x) k g)) ∧
      ∀ k l, (par' k l).ptype = (par k l).ptype ∧ (par' k l).master = (par k l).master ∧
        (par' k l).gid = (par k l).gid := by
  have hK' : K = 2 ∨ K = 3 := by rcases hK with ⟨_, h⟩ | ⟨_, _, h⟩ <;> omega
  have hb := of_borne (G := G) (sel := sel) hK'
  have hz := fun k l hl => (h0 k l hl).1
  have hF : Flagged par par (fun k l => l ∉ L.list k ∧ (par k l).onPB = true) := by
    refine fun k l => ⟨⟨fun he => ⟨fun hl => ?_, he⟩, fun he => he.2⟩, rfl, rfl, rfl⟩
    rw [(h0 k l hl).2] at he; cases he
  have hC : Closed L (fun k l => l ∉ L.list k ∧ (par k l).onPB = true) := fun e he ha => absurd he ha.1
  rcases hK with ⟨h1, rfl⟩ | ⟨h1, h2, rfl⟩
  · have f1 := hF.interiors (k := 3) L.rl fun x hx => hz 3 x hx
    obtain ⟨p2, r2, f2, c2⟩ := face_loop h hG hb hz f1 hC
    obtain ⟨p3, r3, f3, c3⟩ := edge_loop h hG hb hz true f2 c2
    obtain ⟨p4, r4, f4⟩ := vertex_loop h hG hb hz f3
    refine ⟨p4, ?_, ?_, fun k l => (f4 k l).2⟩
    · unfold buildPBoundary volBoundary
      rw [if_pos h1]
      simp only [r2, Res.bind_ok, r3, r4]
    · intro k l g hl hu
      refine (f4 k l).1.trans (flags_out hG h (Or.inr rfl) hall ?_ c3 hl hu)
      intro k l hl
      simp only [hl, not_true, false_and, false_or, true_and]
  · have f1 := hF.interiors (k := 2) L.fl fun x hx => hz 2 x hx
    obtain ⟨p3, r3, f3, c3⟩ := edge_loop h hG hb hz false f1 hC
    obtain ⟨p4, r4, f4⟩ := vertex_loop h hG hb hz f3
    refine ⟨p4, ?_, ?_, fun k l => (f4 k l).2⟩
    · unfold buildPBoundary surfBoundary
      rw [if_neg (by simpa using h1), if_pos h2]
      simp only [r3, Res.bind_ok, r4]
    · intro k l g hl hu
      refine (f4 k l).1.trans (flags_out hG h (Or.inl rfl) hall ?_ c3 hl hu)
      intro k l hl
      simp only [hl, not_true, false_and, false_or]
      simp

/-- **C77 (partitions).**  A mesh everything in which is in an element, partitioned (as in C76) into
parts `0 … num-1`: then `MESH_BuildPBoundary` flags, in piece `p`, just what another part has too. -/
theorem C77_shared_partial (zero : D) {S : CMesh D} (hS : S.F.Sound) {K : Nat} (hK : ElementsOf S.F K)
    (hall : AllInElements S.F K)
    (h30 : ∀ f ∈ S.F.fl, (S.F.T.view.edges f).length ≤ 30) (h512 : ∀ r ∈ S.F.rl, (S.F.T.view.faces r).length ≤ 512)
    (h0 : ∀ k, k ≠ K → ∀ g ∈ S.F.list k, (S.par k g).master = 0)
    {num : Nat} (hnum : num < 536870912) {part : List Int} (hlen : (S.F.list K).length ≤ part.length)
    (hpart : ∀ x ∈ part, 0 ≤ x ∧ x < num) :
    ∃ s, meshPartition zero S num part = .ok s ∧ Pieces S K num part s ∧
      ∀ p, p < num → ∃ par', buildPBoundary S.F (s.sub p).F (s.l2g p) (s.sub p).par = .ok par' ∧
        ∀ k l g, l ∈ (s.sub p).F.list k → s.l2g p k l = some g →
          ((par' k l).onPB = true ↔ ∃ q, q < num ∧ q ≠ p ∧ InPart S.F K part q k g) := by
  have hK' : K = 2 ∨ K = 3 := by rcases hK with ⟨_, h⟩ | ⟨_, _, h⟩ <;> omega
  obtain ⟨s, r, hp, ho⟩ := C76_partition_partial zero hS hK h30 h512 h0 hnum hlen
  refine ⟨s, r, hp, fun p hlt => ?_⟩
  have hpc := hp.piece p hlt
  have heq : InPart S.F K part p =
      Of S.F K (fun x => ∃ i : Nat, (S.F.list K)[i]? = some x ∧ part[i]? = some (p : Int)) := by
    funext k g; exact propext inPart_of
  rw [heq] at hpc
  obtain ⟨par', r', hf, _⟩ := C77_boundary_partial hS hK hpc hall (par := (s.sub p).par) (by
    intro k l hl
    obtain ⟨g, _, hu, hin⟩ := (hp.piece p hlt).from_has k l hl
    obtain ⟨q, hqp, hq, hfirst⟩ := first_of (P := fun q => InPart S.F K part q k g) hin
    rw [(ho.first q k g (by omega) hq hfirst).2.2 p l hlt hu]
    exact ⟨rfl, rfl⟩)
  refine ⟨par', r', fun k l g hl hu => ?_⟩
  rw [hf k l g hl hu]
  constructor
  · rintro ⟨x, hx, hs, hox⟩
    obtain ⟨i, hi⟩ := List.getElem?_of_mem hx
    have hlt' : i < part.length := lt_of_lt_of_le (List.getElem?_eq_some_iff.1 hi).1 hlen
    have hpi : part[i]? = some part[i] := List.getElem?_eq_getElem hlt'
    obtain ⟨b1, b2⟩ := hpart part[i] (List.getElem_mem hlt')
    have e : part[i] = ((part[i].toNat : Nat) : Int) := by omega
    rw [e] at hpi
    refine ⟨part[i].toNat, by omega, ?_, i, x, hi, hpi, hox⟩
    rintro rfl
    exact hs ⟨i, hi, hpi⟩
  · rintro ⟨q, _, hne, i, x, hi, hpi, hox⟩
    refine ⟨x, List.mem_of_getElem? hi, ?_, hox⟩
    rintro ⟨j, hj, hpj⟩
    have hij := (List.getElem?_inj (List.getElem?_eq_some_iff.1 hi).1 (hS.nodup K)).1 (hi.trans hj.symm)
    subst hij
    rw [hpi] at hpj
    injection hpj with hpj
    exact hne (Int.ofNat.inj hpj)

end

/-! ### examples -/

/-- a check of `AllInElements` -/
def allInB (G : FMesh Int) (K : Nat) : Bool :=
  [0, 1, 2, 3].all fun k => (G.list k).all fun g => (G.list K).any fun x => decide (OfElem G K x k g)

theorem allInB_sound {G : FMesh Int} {K : Nat} (h : allInB G K = true) : AllInElements G K := by
  unfold allInB at h
  simp only [List.all_eq_true, List.any_eq_true, decide_eq_true_iff] at h
  intro k g hg
  have hk : k ∈ [0, 1, 2, 3] := by
    match k, hg with
    | 0, _ => decide
    | 1, _ => decide
    | 2, _ => decide
    | 3, _ => decide
    | k+4, hg => cases hg
  obtain ⟨x, hx, ho⟩ := h k hk g hg
  exact ⟨x, hx, trivial, ho⟩

/-- The hypotheses of `C77_shared_partial` (and with it those of `C77_boundary_partial`) hold for two
tetrahedra with a face in common, in two parts. -/
example : ∃ T s, Topo.empty.run Topo.twoTets = .ok T ∧ meshPartition 0 (rangeC T) 2 [1, 0] = .ok s ∧
    Pieces (rangeC T) 3 2 [1, 0] s ∧
    ∀ p, p < 2 → ∃ par', buildPBoundary (rangeC T).F (s.sub p).F (s.l2g p) (s.sub p).par = .ok par' ∧
      ∀ k l g, l ∈ (s.sub p).F.list k → s.l2g p k l = some g →
        ((par' k l).onPB = true ↔ ∃ q, q < 2 ∧ q ≠ p ∧ InPart (rangeC T).F 3 [1, 0] q k g) := by
  obtain ⟨T, h1, h2⟩ := Topo.reachable (os := Topo.twoTets) (by decide +kernel)
  have hq : Topo.answer Topo.twoTets (fun T => .ok (rangeB T && allInB (rangeC T).F 3 && decide (T.nr = 2))) = .ok true := by
    decide +kernel
  unfold Topo.answer at hq
  rw [h1, Res.bind_ok, Res.ok.injEq, Bool.and_eq_true, Bool.and_eq_true, decide_eq_true_iff] at hq
  obtain ⟨⟨a, b⟩, c⟩ := hq
  obtain ⟨m, e, f⟩ := rangeC_ok h2 a
  have hr : (rangeC T).F.rl = [0, 1] := by show List.range T.nr = _; rw [c]; rfl
  have hl : (rangeC T).F.list 3 = [0, 1] := hr
  obtain ⟨s, r, hp, h⟩ := C77_shared_partial (0 : Int) m (K := 3) (Or.inl ⟨by rw [hr]; simp, rfl⟩) (allInB_sound b) e f
    (fun _ _ _ _ => rfl) (num := 2) (by omega) (part := [1, 0]) (by rw [hl]; exact le_refl _) (by decide)
  exact ⟨T, s, h1, r, hp, h⟩

/-- They hold for two triangles with an edge in common. -/
example : ∃ T s, Topo.empty.run Topo.triPair = .ok T ∧ meshPartition 0 (rangeC T) 2 [0, 1] = .ok s ∧
    Pieces (rangeC T) 2 2 [0, 1] s ∧
    ∀ p, p < 2 → ∃ par', buildPBoundary (rangeC T).F (s.sub p).F (s.l2g p) (s.sub p).par = .ok par' ∧
      ∀ k l g, l ∈ (s.sub p).F.list k → s.l2g p k l = some g →
        ((par' k l).onPB = true ↔ ∃ q, q < 2 ∧ q ≠ p ∧ InPart (rangeC T).F 2 [0, 1] q k g) := by
  obtain ⟨T, h1, h2⟩ := Topo.reachable (os := Topo.triPair) (by decide +kernel)
  have hq : Topo.answer Topo.triPair (fun T => .ok (rangeB T && allInB (rangeC T).F 2 && decide (T.nf = 2 ∧ T.nr = 0))) = .ok true := by
    decide +kernel
  unfold Topo.answer at hq
  rw [h1, Res.bind_ok, Res.ok.injEq, Bool.and_eq_true, Bool.and_eq_true, decide_eq_true_iff] at hq
  obtain ⟨⟨a, b⟩, c, d⟩ := hq
  obtain ⟨m, e, f⟩ := rangeC_ok h2 a
  have hr : (rangeC T).F.rl = [] := by show List.range T.nr = _; rw [d]; rfl
  have hf : (rangeC T).F.fl = [0, 1] := by show List.range T.nf = _; rw [c]; rfl
  have hl : (rangeC T).F.list 2 = [0, 1] := hf
  obtain ⟨s, r, hp, h⟩ := C77_shared_partial (0 : Int) m (K := 2) (Or.inr ⟨hr, by rw [hf]; simp, rfl⟩) (allInB_sound b) e f
    (fun _ _ _ _ => rfl) (num := 2) (by omega) (part := [0, 1]) (by rw [hl]; exact le_refl _) (by decide)
  exact ⟨T, s, h1, r, hp, h⟩

/-- the entities of a piece that are flagged -/
def flagged (L : FMesh Int) (par : Nat → Nat → PDat) : List (List Nat) :=
  [0, 1, 2, 3].map fun k => (L.list k).filter fun l => (par k l).onPB

/-- partition, and build the boundary of piece `p` -/
def boundaryOf (S : CMesh Int) (num : Nat) (part : List Int) (p : Nat) : Res (List (List Nat)) := do
  let s ← meshPartition 0 S num part
  let par' ← buildPBoundary S.F (s.sub p).F (s.l2g p) (s.sub p).par
  pure (flagged (s.sub p).F par')

/-- The two tetrahedra: in each piece the three vertices, the three edges and the face they share are flagged. -/
example : Topo.answer Topo.twoTets (fun T => boundaryOf (rangeC T) 2 [1, 0] 0) = .ok [[0, 1, 2], [0, 1, 2], [0], []] := by
  decide +kernel

/-- **Negation**: two tetrahedra and an edge that is in none of them, all in one part: there is no other
part, yet the vertex at the end of that edge is flagged. -/
theorem C77_negation_edge : Topo.answer twoTetsGap (fun T => boundaryOf (plainC T) 1 [0, 0] 0) =
    .ok [[0], [], [], []] := by decide +kernel

/-- **Negation**: flags are not taken back: two tetrahedra in one part, and their vertices are still
flagged from before. -/
theorem C77_negation_again : Topo.answer Topo.twoTets (fun T => do
      let s ← meshPartition 0 (rangeC T) 1 [0, 0]
      let par' ← buildPBoundary (rangeC T).F (s.sub 0).F (s.l2g 0) (fun k l => if k = 0 then ⟨0, 0, 0, true⟩ else (s.sub 0).par k l)
      pure (flagged (s.sub 0).F par')) = .ok [[0, 1, 2, 3, 4], [], [], []] := by decide +kernel

end Prt
end MSTK
