import Verif.AddGhostIn

/-!
The ghosts that `MESH_AddGhost` makes (AddGhostModel.lean): the rings of elements outside a piece.
-/
namespace MSTK
namespace Prt
open File Copy

variable {D : Type}

/-! ### making ghosts -/

/-- the lists of copies are not empty, for all there is in the mesh -/
def Somewhere (G : FMesh D) (s : PSt D) : Prop := ∀ k g, g ∈ G.list k → s.g2l k g ≠ []

theorem Links.somewhere {cl : Nat → PDat → Nat → Claim} {G : FMesh D} {p : Nat} {s s' : PSt D} (h : Links cl G p s s')
    (h0 : Somewhere G s) : Somewhere G s' := by
  refine h.keeps (P := Somewhere G) ?_ h0
  intro t k g l N ht _ _ _ _ k' g' hg'
  show upd2 t.g2l k g _ k' g' ≠ []
  rw [upd2_at]
  by_cases he : k' = k ∧ g' = g
  · rw [if_pos he]; simp
  · rw [if_neg he]; exact ht k' g' hg'

/-- Inside a ring that began with `s1`.  `gb`: the vertices the ring is about; `A`: what has been gone
through. -/
structure Outer (S : CMesh D) (p : Nat) (s1 : PSt D) (gb : List Nat) (em : Nat → Bool) (A : Nat → Nat → Prop) (t : GSt D) :
    Prop where
  run : Run ghost S.F p A s1 t.s
  lists : Somewhere S.F t.s
  em : t.em = em
  gm : ∀ v, t.gm v = true ↔ v ∈ gb ∨ v ∈ t.nxt
  nxt : ∀ v, v ∈ t.nxt ↔ v ∉ gb ∧ ∃ e, s1.found p 1 e = none ∧ t.s.found p 1 e ≠ none ∧ OfEdge S.F e 0 v

section
variable {S : CMesh D} {p : Nat} {s1 : PSt D} {gb : List Nat} {em : Nat → Bool}

theorem Outer.more {A B : Nat → Nat → Prop} {t : GSt D} (h : Outer S p s1 gb em A t)
    (he : ∀ k g, B k g → t.s.found p k g ≠ none) : Outer S p s1 gb em (fun k g => A k g ∨ B k g) t where
  run := h.run.more fun k g => by
    constructor
    · rintro (h | h)
      · exact Or.inl h
      · exact Or.inr (Or.inl h)
    · rintro (h' | h' | h')
      · exact Or.inl h'
      · exact Or.inr h'
      · exact (h.run.dom k g).1 (he k g h')
  lists := h.lists
  em := h.em
  gm := h.gm
  nxt := h.nxt

theorem Outer.congr {A B : Nat → Nat → Prop} {t : GSt D} (h : Outer S p s1 gb em A t) (he : ∀ k g, A k g ↔ B k g) :
    Outer S p s1 gb em B t where
  run := h.run.congr he
  lists := h.lists
  em := h.em
  gm := h.gm
  nxt := h.nxt

/-- copies of entities that are not edges -/
theorem Outer.next {A B : Nat → Nat → Prop} {t : GSt D} (h : Outer S p s1 gb em A t) {s' : PSt D}
    (hr : Run ghost S.F p B t.s s') (hB : ∀ g, ¬ B 1 g) : Outer S p s1 gb em (fun k g => A k g ∨ B k g) { t with s := s' } where
  run := h.run.trans hr
  lists := hr.links.somewhere h.lists
  em := h.em
  gm := h.gm
  nxt := fun v => by
    show v ∈ t.nxt ↔ _ ∧ ∃ e, _ ∧ s'.found p 1 e ≠ none ∧ _
    rw [h.nxt]
    refine and_congr_right fun _ => exists_congr fun e => and_congr_right fun _ => and_congr_left fun _ => ?_
    rw [hr.dom]
    simp [hB e]

theorem meet_mem (t : GSt D) (v w : Nat) :
    ((t.meet v).gm w = true ↔ t.gm w = true ∨ w = v) ∧ (w ∈ (t.meet v).nxt ↔ w ∈ t.nxt ∨ (w = v ∧ ¬ t.gm w = true)) := by
  unfold GSt.meet
  by_cases hm : t.gm v = true
  · rw [if_pos hm]
    constructor
    · constructor
      · exact Or.inl
      · rintro (h | rfl)
        · exact h
        · exact hm
    · constructor
      · exact Or.inl
      · rintro (h | ⟨rfl, h⟩)
        · exact h
        · exact absurd hm h
  · rw [if_neg hm]
    constructor
    · show upd t.gm v true w = true ↔ _
      by_cases hw : w = v
      · subst hw; rw [upd_same]; simp
      · rw [upd_ne _ _ hw]; simp [hw]
    · show w ∈ t.nxt ++ [v] ↔ _
      rw [List.mem_append, List.mem_singleton]
      constructor
      · rintro (h | rfl)
        · exact Or.inl h
        · exact Or.inr ⟨rfl, hm⟩
      · rintro (h | ⟨rfl, _⟩)
        · exact Or.inl h
        · exact Or.inr rfl

theorem meet_same (t : GSt D) (v : Nat) : (t.meet v).s = t.s ∧ (t.meet v).em = t.em := by
  unfold GSt.meet
  by_cases hm : t.gm v = true
  · rw [if_pos hm]; exact ⟨rfl, rfl⟩
  · rw [if_neg hm]; exact ⟨rfl, rfl⟩

variable {K : Nat}

theorem ghostE_ok (hS : S.F.Sound) {e : Nat} (he : e ∈ S.F.el) {A : Nat → Nat → Prop} {t : GSt D}
    (h : Outer S p s1 gb em A t) :
    ∃ t' l, ghostE S K p e t = .ok (t', l) ∧ Outer S p s1 gb em (fun k g => A k g ∨ OfEdge S.F e k g) t' ∧
      t'.s.found p 1 e = some l ∧ Knows (t.s.found p) (t'.s.found p) := by
  have hlive := (hS.el.2 e).1 he
  unfold ghostE
  rw [Topo.derefE_ok (Topo.alloc_of_live hlive), Res.bind_ok, if_neg (h.lists 1 e he)]
  cases hc : t.s.found p 1 e with
  | some l => exact ⟨t, l, rfl, h.more fun k g ho => h.run.sub.ofEdge hc ho, hc, Knows.refl _⟩
  | none =>
    obtain ⟨a, b, hab⟩ := hS.ends e he
    obtain ⟨ha, hb⟩ := hS.endsLive he hab
    have hq := (Topo.C49_view hS.cons).1
    have q0 : S.F.T.meVertex e false = .ok (some a) := by rw [hq e false hlive, hab]; rfl
    have q1 : S.F.T.meVertex e true = .ok (some b) := by rw [hq e true hlive, hab]; rfl
    obtain ⟨s', l, r, u, f⟩ := partE_run (cl := ghost) hS h.run.sub he
    simp only [q0, q1, Res.bind_ok, Res.ofOption_some]
    rw [if_neg (by
      rintro (h' | h')
      · exact h.lists 0 a ha h'
      · exact h.lists 0 b hb h')]
    simp only [r, Res.bind_ok]
    refine ⟨_, l, rfl, ?_, ?_, ?_⟩
    · have m1 := meet_same ({ t with s := s' } : GSt D) a
      have m2 := meet_same (({ t with s := s' } : GSt D).meet a) b
      have hs : ((({ t with s := s' } : GSt D).meet a).meet b).s = s' := by rw [m2.1, m1.1]
      have n1 := meet_mem ({ t with s := s' } : GSt D) a
      have n2 := meet_mem (({ t with s := s' } : GSt D).meet a) b
      have hoe : ∀ w, OfEdge S.F e 0 w ↔ w = a ∨ w = b := by
        intro w
        unfold OfEdge
        rw [hab]
        simp [eq_comm]
      have hgm : ∀ w, (({ t with s := s' } : GSt D).gm w = true) = (t.gm w = true) := fun _ => rfl
      have hnx : ∀ w, (w ∈ ({ t with s := s' } : GSt D).nxt) = (w ∈ t.nxt) := fun _ => rfl
      have hnew : ∀ w, w ∈ ((({ t with s := s' } : GSt D).meet a).meet b).nxt ↔ w ∈ t.nxt ∨ ((w = a ∨ w = b) ∧ w ∉ gb) := by
        intro w
        rw [(n2 w).2, (n1 w).2, (n1 w).1, hgm, hnx, h.gm]
        by_cases h1 : w ∈ t.nxt
        · simp [h1]
        · by_cases h2 : w ∈ gb
          · simp [h1, h2]
          · by_cases h3 : w = a
            · subst h3; simp [h1, h2]
            · simp [h1, h2, h3]
      refine ⟨?_, ?_, ?_, fun w => ?_, fun w => ?_⟩
      · rw [hs]; exact h.run.trans u
      · rw [hs]; exact u.links.somewhere h.lists
      · rw [m2.2, m1.2]; exact h.em
      · rw [hnew, (n2 w).1, (n1 w).1, hgm, h.gm]
        by_cases h1 : w ∈ gb
        · simp [h1]
        · simp [h1, or_assoc]
      · rw [hnew, hs, h.nxt]
        have h1e : s1.found p 1 e = none := by
          by_contra hne
          exact ((h.run.dom 1 e).2 (Or.inl hne)) hc
        constructor
        · rintro (⟨h1, e', h2, h3, h4⟩ | ⟨h1, h2⟩)
          · exact ⟨h1, e', h2, (u.dom 1 e').2 (Or.inl h3), h4⟩
          · exact ⟨h2, e, h1e, (u.dom 1 e).2 (Or.inr (Or.inl ⟨rfl, rfl⟩)), (hoe w).2 h1⟩
        · rintro ⟨h1, e', h2, h3, h4⟩
          rcases (u.dom 1 e').1 h3 with h3 | h3 | h3
          · exact Or.inl ⟨h1, e', h2, h3, h4⟩
          · obtain ⟨_, rfl⟩ := h3
            exact Or.inr ⟨(hoe w).1 h4, h1⟩
          · exact absurd h3.1 (by omega)
    · have m1 := meet_same ({ t with s := s' } : GSt D) a
      have m2 := meet_same (({ t with s := s' } : GSt D).meet a) b
      rw [m2.1, m1.1]; exact f
    · have m1 := meet_same ({ t with s := s' } : GSt D) a
      have m2 := meet_same (({ t with s := s' } : GSt D).meet a) b
      rw [m2.1, m1.1]; exact u.links.knows

/-- the things on a boundary, one after the other -/
theorem gather_out {σ : Type} {get : Nat → σ → Res (σ × Nat)} {fnd : σ → Nat → Nat → Option Nat} {k : Nat}
    {Inv : (Nat → Nat → Prop) → σ → Prop} {Of : Nat → Nat → Nat → Prop} {ok : Nat → Prop}
    (hget : ∀ x A t, Inv A t → ok x → ∃ t' l, get x t = .ok (t', l) ∧ Inv (fun k g => A k g ∨ Of x k g) t' ∧
      fnd t' k x = some l ∧ Knows (fnd t) (fnd t'))
    {dir : Nat → Res Bool} {cap : Nat} : ∀ (ps : List (Nat × Bool)) (j : Nat) (A : Nat → Nat → Prop) (t : σ), j + ps.length ≤ cap →
    (∀ i q, ps[i]? = some q → dir (j+i) = .ok q.2) → (∀ q ∈ ps, ok q.1) → Inv A t →
    ∃ t' ys, gather get dir cap j (ps.map (·.1)) t = .ok (t', ys) ∧ Inv (fun k g => A k g ∨ ∃ q ∈ ps, Of q.1 k g) t' ∧
      Same (fnd t' k) ps ys ∧ Knows (fnd t) (fnd t')
  | [], _, A, t, _, _, _, h => by
    refine ⟨t, [], rfl, ?_, .nil, Knows.refl _⟩
    have e : (fun k g => A k g ∨ ∃ q ∈ ([] : List (Nat × Bool)), Of q.1 k g) = A := by funext k g; simp
    rw [e]; exact h
  | q :: ps, j, A, t, hcap, hdir, hok, h => by
    rw [List.length_cons] at hcap
    obtain ⟨t1, l, r1, u1, f1, w1⟩ := hget q.1 A t h (hok q (by simp))
    obtain ⟨t2, ys, r2, u2, f2, w2⟩ := gather_out hget (dir := dir) (cap := cap) ps (j+1) _ t1 (by omega)
      (fun i x hx => by rw [Nat.add_assoc, Nat.add_comm 1 i]; exact hdir (i+1) x hx)
      (fun x hx => hok x (List.mem_cons_of_mem _ hx)) u1
    refine ⟨t2, (l, q.2) :: ys, ?_, ?_, .cons ⟨w2 _ _ _ f1, rfl⟩ f2, w1.trans w2⟩
    · rw [List.map_cons]
      unfold gather
      rw [if_neg (by omega), r1, Res.bind_ok, show dir j = Res.ok q.2 from hdir 0 q rfl, Res.bind_ok, r2, Res.bind_ok]
      rfl
    · have e : (fun k g => (A k g ∨ Of q.1 k g) ∨ ∃ x ∈ ps, Of x.1 k g) = fun k g => A k g ∨ ∃ x ∈ q :: ps, Of x.1 k g := by
        funext k g; simp [or_assoc]
      rw [e] at u2; exact u2

theorem ghostF_ok (hS : S.F.Sound) (h30 : ∀ f ∈ S.F.fl, (S.F.T.view.edges f).length ≤ 30) {f : Nat} (hf : f ∈ S.F.fl)
    {A : Nat → Nat → Prop} {t : GSt D} (h : Outer S p s1 gb em A t) (hc : t.s.found p 2 f = none) :
    ∃ t' l, ghostF S K p f t = .ok (t', l) ∧ Outer S p s1 gb em (fun k g => A k g ∨ OfFace S.F f k g) t' ∧
      t'.s.found p 2 f = some l ∧ Knows (t.s.found p) (t'.s.found p) := by
  obtain ⟨q1, q2⟩ := edges_ask hS hf
  have hle := h30 f hf
  obtain ⟨t1, es, r1, u1, f1, w1⟩ := gather_out (get := ghostE S K p) (fnd := fun t => t.s.found p) (k := 1)
    (Inv := Outer S p s1 gb em) (Of := OfEdge S.F) (ok := fun e => e ∈ S.F.el) (fun x A t h' hx => ghostE_ok hS hx h')
    (dir := S.F.T.mfEdgeDir_i f) (cap := 30) (S.F.T.view.edges f) 0 A t (by omega)
    (fun i q hq => by rw [Nat.zero_add]; exact q2 hle i q hq) (fun q hq => hS.edgesLive hf hq) h
  have hc2 : t1.s.found p 2 f = none := by
    by_contra hne
    rcases (u1.run.dom 2 f).1 hne with h' | h' | ⟨q, _, h' | h'⟩
    · exact (h.run.dom 2 f).2 (Or.inl h') hc
    · exact (h.run.dom 2 f).2 (Or.inr h') hc
    · exact absurd h'.1 (by omega)
    · exact absurd h'.1 (by omega)
  obtain ⟨s2, l, r2, u2, f2⟩ := makeF_run (cl := ghost) hS u1.run.sub hf hc2 f1
  unfold ghostF
  simp only [q1, Res.bind_ok, r1]
  rw [if_neg (fun h' => u1.lists 2 f hf h'.2)]
  simp only [r2, Res.bind_ok]
  refine ⟨_, l, rfl, (u1.next u2 (by intro g hg; exact absurd hg.1 (by omega))).congr fun k g => ?_, f2, w1.trans u2.links.knows⟩
  unfold OfFace
  rw [or_assoc]
  exact or_congr_right or_comm

theorem ghostRF_ok (hS : S.F.Sound) (h30 : ∀ f ∈ S.F.fl, (S.F.T.view.edges f).length ≤ 30) {f : Nat} (hf : f ∈ S.F.fl)
    {A : Nat → Nat → Prop} {t : GSt D} (h : Outer S p s1 gb em A t) :
    ∃ t' l, ghostRF S p f t = .ok (t', l) ∧ Outer S p s1 gb em (fun k g => A k g ∨ OfFace S.F f k g) t' ∧
      t'.s.found p 2 f = some l ∧ Knows (t.s.found p) (t'.s.found p) := by
  unfold ghostRF
  rw [Topo.derefF_ok (Topo.alloc_of_live ((hS.fl.2 f).1 hf)), Res.bind_ok, if_neg (h.lists 2 f hf)]
  cases hc : t.s.found p 2 f with
  | some l => exact ⟨t, l, rfl, h.more fun k g ho => h.run.sub.ofFace hc ho, hc, Knows.refl _⟩
  | none => exact ghostF_ok hS h30 hf h hc

theorem ghostR_ok (hS : S.F.Sound) (h30 : ∀ f ∈ S.F.fl, (S.F.T.view.edges f).length ≤ 30)
    (h512 : ∀ r ∈ S.F.rl, (S.F.T.view.faces r).length ≤ 512) {r : Nat} (hr : r ∈ S.F.rl)
    {A : Nat → Nat → Prop} {t : GSt D} (h : Outer S p s1 gb em A t) (hc : t.s.found p 3 r = none) :
    ∃ t' l, ghostR S p r t = .ok (t', l) ∧ Outer S p s1 gb em (fun k g => A k g ∨ OfRegion S.F r k g) t' ∧
      t'.s.found p 3 r = some l ∧ Knows (t.s.found p) (t'.s.found p) := by
  obtain ⟨q1, q2⟩ := faces_ask hS hr
  have hle := h512 r hr
  obtain ⟨t1, fs, r1, u1, f1, w1⟩ := gather_out (get := ghostRF S p) (fnd := fun t => t.s.found p) (k := 2)
    (Inv := Outer S p s1 gb em) (Of := OfFace S.F) (ok := fun e => e ∈ S.F.fl) (fun x A t h' hx => ghostRF_ok hS h30 hx h')
    (dir := S.F.T.mrFaceDir_i r) (cap := 512) (S.F.T.view.faces r) 0 A t (by omega)
    (fun i q hq => by rw [Nat.zero_add]; exact q2 i q hq) (fun q hq => hS.facesLive hr hq) h
  have hc2 : t1.s.found p 3 r = none := by
    by_contra hne
    rcases (u1.run.dom 3 r).1 hne with h' | h' | ⟨q, _, h' | ⟨q', _, h' | h'⟩⟩
    · exact (h.run.dom 3 r).2 (Or.inl h') hc
    · exact (h.run.dom 3 r).2 (Or.inr h') hc
    · exact absurd h'.1 (by omega)
    · exact absurd h'.1 (by omega)
    · exact absurd h'.1 (by omega)
  obtain ⟨s2, l, r2, u2, f2⟩ := makeR_run (cl := ghost) hS u1.run.sub hr hc2 f1
  unfold ghostR
  simp only [q1, Res.bind_ok, r1]
  rw [if_neg (u1.lists 3 r hr)]
  simp only [r2, Res.bind_ok]
  refine ⟨_, l, rfl, (u1.next u2 (by intro g hg; exact absurd hg.1 (by omega))).congr fun k g => ?_, f2, w1.trans u2.links.knows⟩
  unfold OfRegion
  rw [or_assoc]
  exact or_congr_right or_comm

/-! ### elements -/

/-- Inside a ring: `E0` the elements that were in the piece before, `E` those that are now. -/
structure Outs (S : CMesh D) (K p : Nat) (s1 : PSt D) (E0 : Nat → Prop) (gb : List Nat) (E : Nat → Prop) (t : GSt D) : Prop where
  more : ∀ x, E0 x → E x
  elem : ∀ x, E x → x ∈ S.F.list K
  em : ∀ x, t.em x = true ↔ E x
  outer : Outer S p s1 gb t.em (fun k g => ∃ x, E x ∧ ¬ E0 x ∧ OfElem S.F K x k g) t

variable {E0 : Nat → Prop}

theorem Outs.dom {E : Nat → Prop} {t : GSt D} (h : Outs S K p s1 E0 gb E t)
    (hd : ∀ k g, s1.found p k g ≠ none ↔ ∃ x, E0 x ∧ OfElem S.F K x k g) (k g : Nat) :
    t.s.found p k g ≠ none ↔ ∃ x, E x ∧ OfElem S.F K x k g := by
  rw [h.outer.run.dom, hd]
  constructor
  · rintro (⟨x, h1, h2⟩ | ⟨x, h1, _, h2⟩)
    · exact ⟨x, h.more x h1, h2⟩
    · exact ⟨x, h1, h2⟩
  · rintro ⟨x, h1, h2⟩
    by_cases hx : E0 x
    · exact Or.inl ⟨x, hx, h2⟩
    · exact Or.inr ⟨x, h1, hx, h2⟩

theorem ghostElem_ok (hS : S.F.Sound) (h30 : ∀ f ∈ S.F.fl, (S.F.T.view.edges f).length ≤ 30)
    (h512 : ∀ r ∈ S.F.rl, (S.F.T.view.faces r).length ≤ 512) (hK : K = 2 ∨ K = 3)
    (hd : ∀ k g, s1.found p k g ≠ none ↔ ∃ x, E0 x ∧ OfElem S.F K x k g) {x : Nat} (hx : x ∈ S.F.list K)
    {E : Nat → Prop} {t : GSt D} (h : Outs S K p s1 E0 gb E t) :
    ∃ t', ghostElem S K p x t = .ok t' ∧ Outs S K p s1 E0 gb (fun y => E y ∨ y = x) t' := by
  unfold ghostElem
  by_cases hm : t.em x = true
  · rw [if_pos hm]
    have e : (fun y => E y ∨ y = x) = E := by
      funext y
      refine propext ⟨?_, Or.inl⟩
      rintro (h' | rfl)
      · exact h'
      · exact (h.em y).1 hm
    rw [e]; exact ⟨t, rfl, h⟩
  · rw [if_neg hm]
    have hE : ¬ E x := fun he => hm ((h.em x).2 he)
    have hE0 : ¬ E0 x := fun he => hE (h.more x he)
    have hc : t.s.found p K x = none := by
      by_contra hne
      obtain ⟨y, hy, ho⟩ := (h.dom hd K x).1 hne
      rw [ofElem_same hK] at ho
      subst ho
      exact hE hy
    have hin : Outer S p s1 gb (upd t.em x true) (fun k g => ∃ x, E x ∧ ¬ E0 x ∧ OfElem S.F K x k g)
        { t with em := upd t.em x true } :=
      ⟨h.outer.run, h.outer.lists, rfl, h.outer.gm, h.outer.nxt⟩
    have fin : ∀ {t' : GSt D}, Outer S p s1 gb (upd t.em x true)
        (fun k g => (∃ x, E x ∧ ¬ E0 x ∧ OfElem S.F K x k g) ∨ OfElem S.F K x k g) t' →
        Outs S K p s1 E0 gb (fun y => E y ∨ y = x) t' := by
      intro t' hi
      refine ⟨fun y hy => Or.inl (h.more y hy), ?_, ?_, ?_⟩
      · rintro y (hy | rfl)
        · exact h.elem y hy
        · exact hx
      · intro y
        rw [hi.em]
        by_cases hy : y = x
        · subst hy; rw [upd_same]; simp
        · rw [upd_ne _ _ hy, h.em]; simp [hy]
      · rw [← hi.em] at hi
        refine hi.congr fun k l => ?_
        constructor
        · rintro (⟨y, h1, h2, h3⟩ | ho)
          · exact ⟨y, Or.inl h1, h2, h3⟩
          · exact ⟨x, Or.inr rfl, hE0, ho⟩
        · rintro ⟨y, h1 | rfl, h2, h3⟩
          · exact Or.inl ⟨y, h1, h2, h3⟩
          · exact Or.inr h3
    rcases hK with rfl | rfl
    · obtain ⟨t', l, r, i, _⟩ := ghostF_ok (K := 2) hS h30 hx hin hc
      rw [if_neg (by omega)]
      simp only [r, Res.bind_ok]
      refine ⟨t', rfl, fin (i.congr fun k g => ?_)⟩
      refine or_congr_right ?_
      unfold OfElem
      rw [if_neg (by omega)]
    · obtain ⟨t', l, r, i, _⟩ := ghostR_ok hS h30 h512 hx hin hc
      rw [if_pos rfl]
      simp only [r, Res.bind_ok]
      refine ⟨t', rfl, fin (i.congr fun k g => ?_)⟩
      refine or_congr_right ?_
      unfold OfElem
      rw [if_pos rfl]

/-- one ring -/
theorem ghostRing_ok (hS : S.F.Sound) (h30 : ∀ f ∈ S.F.fl, (S.F.T.view.edges f).length ≤ 30)
    (h512 : ∀ r ∈ S.F.rl, (S.F.T.view.faces r).length ≤ 512) (hK : K = 2 ∨ K = 3)
    (hd : ∀ k g, s1.found p k g ≠ none ↔ ∃ x, E0 x ∧ OfElem S.F K x k g)
    (hgb : ∀ v ∈ gb, ∃ x ∈ S.F.list K, OfElem S.F K x 0 v) {E : Nat → Prop} {t : GSt D} (h : Outs S K p s1 E0 gb E t) :
    ∃ t', loop (ghostVertex S K p) gb t = .ok t' ∧
      Outs S K p s1 E0 gb (fun x => E x ∨ ∃ v ∈ gb, x ∈ S.F.list K ∧ OfElem S.F K x 0 v) t' := by
  refine loop_adds (step := ghostVertex S K p) (B := fun v x => x ∈ S.F.list K ∧ OfElem S.F K x 0 v)
    (Inv := Outs S K p s1 E0 gb) gb (fun v hv A t h => ?_) E t h
  obtain ⟨x0, hx0, ho0⟩ := hgb v hv
  obtain ⟨xs, r, hxs⟩ := around_ok hS hK (elem_vertex_in hS hK hx0 ho0) ⟨x0, hx0, ho0⟩
  obtain ⟨t', r', h'⟩ := loop_adds (step := ghostElem S K p) (B := fun x y => y = x) (Inv := Outs S K p s1 E0 gb) xs
    (fun x hx A t h => ghostElem_ok hS h30 h512 hK hd ((hxs x).1 hx).1 h) A t h
  unfold ghostVertex
  rw [r, Res.bind_ok]
  refine ⟨t', r', ?_⟩
  have e : (fun y => A y ∨ ∃ x ∈ xs, y = x) = fun y => A y ∨ y ∈ S.F.list K ∧ OfElem S.F K y 0 v := by
    funext y
    refine propext (or_congr_right ?_)
    rw [← hxs]; simp
  rwa [e] at h'

end

theorem Grow.elem {G : FMesh D} {K : Nat} {sel : Nat → Prop} (hsel : ∀ x, sel x → x ∈ G.list K) :
    ∀ {n x : Nat}, Grow G K sel n x → x ∈ G.list K
  | 0, _, h => hsel _ h
  | _+1, _, h => by
    rcases h with h | h
    · exact Grow.elem hsel h
    · exact h.1

/-- the rings -/
theorem ghostRings_ok {S : CMesh D} {K p : Nat} (hS : S.F.Sound)
    (h30 : ∀ f ∈ S.F.fl, (S.F.T.view.edges f).length ≤ 30)
    (h512 : ∀ r ∈ S.F.rl, (S.F.T.view.faces r).length ≤ 512) (hK : K = 2 ∨ K = 3)
    {sel : Nat → Prop} (hsel : ∀ x, sel x → x ∈ S.F.list K) : ∀ (n m : Nat) (gb : List Nat) (t : GSt D),
    (∀ v ∈ gb, ∃ x, Grow S.F K sel m x ∧ OfElem S.F K x 0 v) →
    (∀ v, (∃ x, Grow S.F K sel m x ∧ OfElem S.F K x 0 v) →
      v ∈ gb ∨ ∀ x ∈ S.F.list K, OfElem S.F K x 0 v → Grow S.F K sel m x) →
    (∀ x, t.em x = true ↔ Grow S.F K sel m x) →
    (∀ v, t.gm v = true ↔ v ∈ gb) →
    Sub S.F (t.s.sub p).F (t.s.found p) →
    Somewhere S.F t.s →
    (∀ k g, t.s.found p k g ≠ none ↔ ∃ x, Grow S.F K sel m x ∧ OfElem S.F K x k g) →
    ∃ t', ghostRings S K p n gb t = .ok t' ∧ Links ghost S.F p t.s t'.s ∧ Sub S.F (t'.s.sub p).F (t'.s.found p) ∧
      (∀ k g, t'.s.found p k g ≠ none ↔ ∃ x, Grow S.F K sel (m + n) x ∧ OfElem S.F K x k g)
  | 0, m, gb, t, _, _, _, _, h5, _, h7 => ⟨t, rfl, .refl _, h5, h7⟩
  | n+1, m, gb, t, h1, h2, h3, h4, h5, h6, h7 => by
    have hstart : Outs S K p t.s (Grow S.F K sel m) gb (Grow S.F K sel m) { t with nxt := [] } := by
      refine ⟨fun _ h => h, fun x hx => hx.elem hsel, h3, ⟨?_, h6, rfl, fun v => ?_, fun v => ?_⟩⟩
      · refine (Run.none h5).congr fun k g => ?_
        constructor
        · exact fun h => h.elim
        · rintro ⟨x, h, h', _⟩; exact h' h
      · rw [show ({ t with nxt := [] } : GSt D).gm v = t.gm v from rfl, h4]; simp
      · constructor
        · intro h; cases h
        · rintro ⟨_, e, h, h', _⟩; exact absurd h h'
    obtain ⟨t1, r1, k1⟩ := ghostRing_ok hS h30 h512 hK h7
      (fun v hv => by obtain ⟨x, hx, ho⟩ := h1 v hv; exact ⟨x, hx.elem hsel, ho⟩) hstart
    have hE : ∀ x, (Grow S.F K sel m x ∨ ∃ v ∈ gb, x ∈ S.F.list K ∧ OfElem S.F K x 0 v) ↔ Grow S.F K sel (m+1) x := by
      intro x
      constructor
      · rintro (h | ⟨v, hv, hx, ho⟩)
        · exact Or.inl h
        · obtain ⟨y, hy, hoy⟩ := h1 v hv
          exact Or.inr ⟨hx, y, hy, v, ho, hoy⟩
      · rintro (h | ⟨hx, y, hy, v, ho, hoy⟩)
        · exact Or.inl h
        · rcases h2 v ⟨y, hy, hoy⟩ with hv | hv
          · exact Or.inr ⟨v, hv, hx, ho⟩
          · exact Or.inl (hv x hx ho)
    have e : (fun x => Grow S.F K sel m x ∨ ∃ v ∈ gb, x ∈ S.F.list K ∧ OfElem S.F K x 0 v) = Grow S.F K sel (m+1) := by
      funext x; exact propext (hE x)
    rw [e] at k1
    have hnxt := k1.outer.nxt
    have hdom := k1.dom h7
    obtain ⟨t2, r2, l2, s2, d2⟩ := ghostRings_ok hS h30 h512 hK hsel n (m+1) t1.nxt
      { t1 with gm := fun v => if v ∈ t1.nxt then true else if v ∈ gb then false else t1.gm v }
      (fun v hv => by
        obtain ⟨_, e', _, he1, he2⟩ := (hnxt v).1 hv
        obtain ⟨l, hl⟩ := Option.ne_none_iff_exists'.1 he1
        exact (hdom 0 v).1 (k1.outer.run.sub.ofEdge hl he2))
      (fun v hv => by
        by_cases hb : v ∈ gb
        · exact Or.inr fun x hx ho => (hE x).1 (Or.inr ⟨v, hb, hx, ho⟩)
        · by_cases hold : ∃ x, Grow S.F K sel m x ∧ OfElem S.F K x 0 v
          · rcases h2 v hold with h | h
            · exact absurd h hb
            · exact Or.inr fun x hx ho => Or.inl (h x hx ho)
          · left
            obtain ⟨x, hx, ho⟩ := hv
            obtain ⟨e', he1, he2⟩ := (ofElem_vertex hK).1 ho
            refine (hnxt v).2 ⟨hb, e', ?_, (hdom 1 e').2 ⟨x, hx, he1⟩, Or.inr ⟨rfl, he2⟩⟩
            by_contra hne
            obtain ⟨l, hl⟩ := Option.ne_none_iff_exists'.1 hne
            exact hold ((h7 0 v).1 (h5.ofEdge hl (Or.inr ⟨rfl, he2⟩))))
      k1.em
      (fun v => by
        show (if v ∈ t1.nxt then true else if v ∈ gb then false else t1.gm v) = true ↔ _
        by_cases hv : v ∈ t1.nxt
        · rw [if_pos hv]; simp [hv]
        · rw [if_neg hv]
          by_cases hb : v ∈ gb
          · rw [if_pos hb]; simp [hv]
          · rw [if_neg hb, k1.outer.gm]; simp [hb, hv])
      k1.outer.run.sub k1.outer.lists hdom
    refine ⟨t2, ?_, k1.outer.run.links.trans l2, s2, fun k g => ?_⟩
    · unfold ghostRings
      rw [r1, Res.bind_ok]
      exact r2
    · rw [show m + (n+1) = m + 1 + n by omega]; exact d2 k g

end Prt
end MSTK
