import Verif.PartLemmas
import Verif.PartSpec

/-!
The steps of `MESH_Partition` and `MESH_BuildSubMesh` (PartModel.lean).
-/
namespace MSTK
namespace Prt
open File Copy

variable {D : Type}

/-! ### a copy more -/

theorem found_link {cl : Nat → PDat → Nat → Claim} {s : PSt D} {p k g l : Nat} {N : CMesh D}
    (h : s.found p k g = none) : (s.link cl p k g l N).found p = upd2 (s.found p) k g (some l) := by
  funext k' g'
  unfold PSt.found PSt.link at *
  simp only
  by_cases hk : k' = k
  · subst hk
    rw [upd2_same, upd2_same]
    by_cases hg : g' = g
    · subst hg
      rw [upd_same, upd_same, List.find?_append]
      rw [Option.map_eq_none_iff] at h
      rw [h]
      simp
    · rw [upd_ne _ _ hg, upd_ne _ _ hg]
  · rw [upd2_ne _ _ _ hk, upd2_ne _ _ _ hk]

theorem found_link_ne {cl : Nat → PDat → Nat → Claim} {s : PSt D} {p q k g l : Nat} {N : CMesh D}
    (hq : q ≠ p) : (s.link cl p k g l N).found q = s.found q := by
  funext k' g'
  unfold PSt.found PSt.link
  simp only
  by_cases hk : k' = k
  · subst hk
    rw [upd2_same]
    by_cases hg : g' = g
    · subst hg
      rw [upd_same, List.find?_append]
      have : (p == q) = false := by simpa using (Ne.symm hq)
      simp [this]
    · rw [upd_ne _ _ hg]
  · rw [upd2_ne _ _ _ hk]

/-- The state is reached by making copies in piece `p`, each of an entity that had none there, with a
handle that was not in use. -/
inductive Links (cl : Nat → PDat → Nat → Claim) (G : FMesh D) (p : Nat) : PSt D → PSt D → Prop where
  | refl (s : PSt D) : Links cl G p s s
  | add {s s' : PSt D} (h : Links cl G p s s') (k g l : Nat) (N : CMesh D) (hc : s'.found p k g = none)
      (hg : g ∈ G.list k) (hl : ∀ g', s'.found p k g' ≠ some l) (hp : N.par = (s'.sub p).par) :
      Links cl G p s (s'.link cl p k g l N)

theorem Links.trans {cl : Nat → PDat → Nat → Claim} {G : FMesh D} {p : Nat} {a b c : PSt D} (h : Links cl G p a b)
    (h' : Links cl G p b c) : Links cl G p a c := by
  induction h' with
  | refl => exact h
  | add _ k g l N hc hg hl hp ih => exact ih.add k g l N hc hg hl hp

/-- an invariant -/
theorem Links.keeps {cl : Nat → PDat → Nat → Claim} {G : FMesh D} {p : Nat} {P : PSt D → Prop} {s s' : PSt D}
    (h : Links cl G p s s')
    (hstep : ∀ (t : PSt D) k g l N, P t → t.found p k g = none → g ∈ G.list k → (∀ g', t.found p k g' ≠ some l) →
      N.par = (t.sub p).par → P (t.link cl p k g l N)) (h0 : P s) : P s' := by
  induction h with
  | refl => exact h0
  | add _ k g l N hc hg hl hp ih => exact hstep _ k g l N ih hc hg hl hp

theorem Links.knows {cl : Nat → PDat → Nat → Claim} {G : FMesh D} {p : Nat} {s s' : PSt D} (h : Links cl G p s s') :
    Knows (s.found p) (s'.found p) := by
  induction h with
  | refl => exact Knows.refl _
  | add _ k g l N hc hg hl hp ih => rw [found_link hc]; exact ih.trans (Knows.add hc)

/-- other pieces are not touched -/
theorem Links.others {cl : Nat → PDat → Nat → Claim} {G : FMesh D} {p : Nat} {s s' : PSt D} (h : Links cl G p s s')
    {q : Nat} (hq : q ≠ p) : s'.found q = s.found q ∧ s'.sub q = s.sub q ∧ s'.l2g q = s.l2g q := by
  induction h with
  | refl => exact ⟨rfl, rfl, rfl⟩
  | add _ k g l N hc hg hl hp ih =>
    obtain ⟨h1, h2, h3⟩ := ih
    refine ⟨by rw [found_link_ne hq, h1], ?_, ?_⟩
    · show upd _ _ _ _ = _; rw [upd_ne _ _ hq, h2]
    · show upd _ _ _ _ = _; rw [upd_ne _ _ hq, h3]

/-! ### runs -/

/-- The run from `s` to `s'`: copies are made of what is in `B`. -/
structure Run (cl : Nat → PDat → Nat → Claim) (G : FMesh D) (p : Nat) (B : Nat → Nat → Prop) (s s' : PSt D) : Prop where
  links : Links cl G p s s'
  sub : Sub G (s'.sub p).F (s'.found p)
  dom : ∀ k g, s'.found p k g ≠ none ↔ s.found p k g ≠ none ∨ B k g

theorem Run.none {cl : Nat → PDat → Nat → Claim} {G : FMesh D} {p : Nat} {s : PSt D}
    (h : Sub G (s.sub p).F (s.found p)) : Run cl G p (fun _ _ => False) s s :=
  ⟨.refl _, h, fun _ _ => by simp⟩

theorem Run.trans {cl : Nat → PDat → Nat → Claim} {G : FMesh D} {p : Nat} {A B : Nat → Nat → Prop} {a b c : PSt D}
    (h : Run cl G p A a b) (h' : Run cl G p B b c) : Run cl G p (fun k g => A k g ∨ B k g) a c :=
  ⟨h.links.trans h'.links, h'.sub, fun k g => by rw [h'.dom, h.dom, or_assoc]⟩

theorem Run.congr {cl : Nat → PDat → Nat → Claim} {G : FMesh D} {p : Nat} {A B : Nat → Nat → Prop} {a b : PSt D}
    (h : Run cl G p A a b) (he : ∀ k g, A k g ↔ B k g) : Run cl G p B a b :=
  ⟨h.links, h.sub, fun k g => by rw [h.dom, he]⟩

/-- what is there already does not count -/
theorem Run.more {cl : Nat → PDat → Nat → Claim} {G : FMesh D} {p : Nat} {A B : Nat → Nat → Prop} {a b : PSt D}
    (h : Run cl G p A a b) (he : ∀ k g, a.found p k g ≠ Option.none ∨ A k g ↔ a.found p k g ≠ Option.none ∨ B k g) :
    Run cl G p B a b :=
  ⟨h.links, h.sub, fun k g => by rw [h.dom, he]⟩

theorem upd2_dom {f : Nat → Nat → Option Nat} {k g l : Nat} (k' g' : Nat) :
    upd2 f k g (some l) k' g' ≠ none ↔ f k' g' ≠ none ∨ (k' = k ∧ g' = g) := by
  rw [Option.ne_none_iff_exists', Option.ne_none_iff_exists']
  constructor
  · rintro ⟨x, hx⟩
    rcases upd2_some.1 hx with ⟨h1, h2, _⟩ | ⟨_, h⟩
    · exact Or.inr ⟨h1, h2⟩
    · exact Or.inl ⟨x, h⟩
  · intro h
    by_cases hk : k' = k ∧ g' = g
    · exact ⟨l, upd2_some.2 (Or.inl ⟨hk.1, hk.2, rfl⟩)⟩
    · rcases h with ⟨x, hx⟩ | h
      · exact ⟨x, upd2_some.2 (Or.inr ⟨hk, hx⟩)⟩
      · exact absurd h hk

theorem sub_link {cl : Nat → PDat → Nat → Claim} {s : PSt D} {p k g l : Nat} {N : CMesh D} :
    ((s.link cl p k g l N).sub p).F = N.F := by
  unfold PSt.link; simp only [upd_same]

/-- one copy more, in terms of `Sub` -/
theorem run_link {cl : Nat → PDat → Nat → Claim} {G : FMesh D} {p : Nat} {s : PSt D} {k g l : Nat} {N : CMesh D}
    (hc : s.found p k g = none) (hg : g ∈ G.list k) (hl : ∀ g', s.found p k g' ≠ some l)
    (hp : N.par = (s.sub p).par) (hs : Sub G N.F (upd2 (s.found p) k g (some l))) :
    Run cl G p (fun k' g' => k' = k ∧ g' = g) s (s.link cl p k g l N) where
  links := (Links.refl s).add k g l N hc hg hl hp
  sub := by rw [sub_link, found_link hc]; exact hs
  dom := fun k' g' => by rw [found_link hc]; exact upd2_dom k' g'

theorem fresh_of {G N : FMesh D} {c : Nat → Nat → Option Nat} (h : Sub G N c) {k l : Nat} (hl : l ∉ N.list k) :
    ∀ g', c k g' ≠ some l := fun g' hg' => hl (h.maps.dom k g' l hg').1

/-! ### vertices, edges, faces, regions -/

theorem makeV_run {cl : Nat → PDat → Nat → Claim} {S : CMesh D} {p v : Nat} {s : PSt D}
    (h : Sub S.F (s.sub p).F (s.found p)) (hv : v ∈ S.F.vl) (hc : s.found p 0 v = none) :
    Run cl S.F p (fun k g => k = 0 ∧ g = v) s (makeV cl S p v s).1 ∧
      (makeV cl S p v s).1.found p 0 v = some (makeV cl S p v s).2 := by
  have hu : (s.sub p).F.T.sv (s.sub p).F.T.nv = .unused := h.cons.newV _ (by omega)
  refine ⟨run_link hc hv (fresh_of h (h.vl.add hu).1) rfl (h.addV hc hv rfl), ?_⟩
  unfold makeV
  simp only
  rw [found_link hc]
  exact upd2_some.2 (Or.inl ⟨rfl, rfl, rfl⟩)

theorem makeE_run {cl : Nat → PDat → Nat → Claim} {S : CMesh D} {p e a b a' b' : Nat} {s : PSt D}
    (h : Sub S.F (s.sub p).F (s.found p)) (he : e ∈ S.F.el) (hc : s.found p 1 e = none)
    (hab : S.F.T.view.ends e = (some a, some b)) (ha : s.found p 0 a = some a') (hb : s.found p 0 b = some b') :
    ∃ s' l, makeE cl S p e s a' b' = .ok (s', l) ∧ Run cl S.F p (fun k g => k = 1 ∧ g = e) s s' ∧ s'.found p 1 e = some l := by
  obtain ⟨T2, T3, t2, t3, hadd⟩ := h.addE hc he hab ha hb
  have hu : (s.sub p).F.T.se (s.sub p).F.T.ne = .unused := h.cons.newE _ (by omega)
  unfold makeE
  simp only
  rw [show (s.sub p).F.T.meNew.2 = (s.sub p).F.T.ne from rfl, t2, Res.bind_ok, t3, Res.bind_ok]
  refine ⟨_, _, rfl, ?_, ?_⟩
  · refine run_link hc he (fresh_of h (h.el.add hu).1) ?_ (hadd _)
    rfl
  · rw [found_link hc]
    exact upd2_some.2 (Or.inl ⟨rfl, rfl, rfl⟩)

theorem partV_run {cl : Nat → PDat → Nat → Claim} {S : CMesh D} (hS : S.F.Sound) {p v : Nat} {s : PSt D}
    (h : Sub S.F (s.sub p).F (s.found p)) (hv : v ∈ S.F.vl) :
    ∃ s' l, partV cl S p v s = .ok (s', l) ∧ Run cl S.F p (fun k g => k = 0 ∧ g = v) s s' ∧ s'.found p 0 v = some l := by
  have hd : S.F.T.derefV v = .ok () := by unfold Topo.derefV; rw [(hS.vl.2 v).1 hv]; rfl
  unfold partV
  rw [hd, Res.bind_ok]
  cases hc : s.found p 0 v with
  | some l =>
    refine ⟨s, l, rfl, (Run.none h).more ?_, hc⟩
    intro k g
    constructor
    · rintro (h | h)
      · exact Or.inl h
      · exact absurd h id
    · rintro (h | ⟨rfl, rfl⟩)
      · exact Or.inl h
      · rw [hc]; simp
  | none =>
    obtain ⟨u, f⟩ := makeV_run (cl := cl) h hv hc
    exact ⟨_, _, rfl, u, f⟩

theorem partE_run {cl : Nat → PDat → Nat → Claim} {S : CMesh D} (hS : S.F.Sound) {p e : Nat} {s : PSt D}
    (h : Sub S.F (s.sub p).F (s.found p)) (he : e ∈ S.F.el) :
    ∃ s' l, partE cl S p e s = .ok (s', l) ∧ Run cl S.F p (OfEdge S.F e) s s' ∧ s'.found p 1 e = some l := by
  have hlive := (hS.el.2 e).1 he
  have hd : S.F.T.derefE e = .ok () := by unfold Topo.derefE; rw [hlive]; rfl
  obtain ⟨a, b, hab⟩ := hS.ends e he
  obtain ⟨ha, hb⟩ := hS.endsLive he hab
  have hq := (Topo.C49_view hS.cons).1
  have q0 : S.F.T.meVertex e false = .ok (some a) := by rw [hq e false hlive, hab]; rfl
  have q1 : S.F.T.meVertex e true = .ok (some b) := by rw [hq e true hlive, hab]; rfl
  have hof : ∀ k g, OfEdge S.F e k g ↔ (k = 0 ∧ g = a) ∨ (k = 0 ∧ g = b) ∨ (k = 1 ∧ g = e) := by
    intro k g
    unfold OfEdge
    rw [hab]
    simp only [Option.some.injEq]
    constructor
    · rintro (h | ⟨h, rfl | rfl⟩)
      · exact Or.inr (Or.inr h)
      · exact Or.inl ⟨h, rfl⟩
      · exact Or.inr (Or.inl ⟨h, rfl⟩)
    · rintro (⟨h, rfl⟩ | ⟨h, rfl⟩ | h)
      · exact Or.inr ⟨h, Or.inl rfl⟩
      · exact Or.inr ⟨h, Or.inr rfl⟩
      · exact Or.inl h
  unfold partE
  rw [hd, Res.bind_ok]
  cases hc : s.found p 1 e with
  | some l =>
    refine ⟨s, l, rfl, (Run.none h).more ?_, hc⟩
    intro k g
    rw [hof]
    constructor
    · rintro (h | h)
      · exact Or.inl h
      · exact absurd h id
    · obtain ⟨_, a1, b1, a', b', h2, h3, h4, _⟩ := h.edge e l hc
      rw [hab] at h2
      simp only [Prod.mk.injEq, Option.some.injEq] at h2
      obtain ⟨rfl, rfl⟩ := h2
      rintro (h | ⟨rfl, rfl⟩ | ⟨rfl, rfl⟩ | ⟨rfl, rfl⟩)
      · exact Or.inl h
      · rw [h3]; simp
      · rw [h4]; simp
      · rw [hc]; simp
  | none =>
    obtain ⟨s1, a', r1, u1, f1⟩ := partV_run (cl := cl) hS h ha
    obtain ⟨s2, b', r2, u2, f2⟩ := partV_run (cl := cl) hS u1.sub hb
    have hc2 : s2.found p 1 e = none := by
      by_contra hne
      rcases (u2.dom 1 e).1 hne with h' | h'
      · rcases (u1.dom 1 e).1 h' with h'' | h''
        · exact h'' hc
        · exact absurd h''.1 (by omega)
      · exact absurd h'.1 (by omega)
    obtain ⟨s3, l, r3, u3, f3⟩ := makeE_run (cl := cl) u2.sub he hc2 hab (u2.links.knows _ _ _ f1) f2
    simp only [q0, q1, Res.bind_ok, Res.ofOption_some, r1, r2, r3]
    refine ⟨_, _, rfl, ?_, f3⟩
    refine Run.congr (Run.trans (u1.trans u2) u3) ?_
    intro k g
    rw [hof, or_assoc]

/-- the things on a boundary, one after the other -/
theorem gather_run {cl : Nat → PDat → Nat → Claim} {G : FMesh D} {p k : Nat}
    {get : Nat → PSt D → Res (PSt D × Nat)} {Of : Nat → Nat → Nat → Prop} {ok : Nat → Prop}
    (hget : ∀ x s, Sub G (s.sub p).F (s.found p) → ok x →
      ∃ s' l, get x s = .ok (s', l) ∧ Run cl G p (Of x) s s' ∧ s'.found p k x = some l)
    {dir : Nat → Res Bool} {cap : Nat} : ∀ (ps : List (Nat × Bool)) (j : Nat) (s : PSt D), j + ps.length ≤ cap →
    (∀ i q, ps[i]? = some q → dir (j+i) = .ok q.2) → (∀ q ∈ ps, ok q.1) → Sub G (s.sub p).F (s.found p) →
    ∃ s' ys, gather get dir cap j (ps.map (·.1)) s = .ok (s', ys) ∧ Run cl G p (fun k g => ∃ q ∈ ps, Of q.1 k g) s s' ∧
      Same (s'.found p k) ps ys
  | [], _, s, _, _, _, h => ⟨s, [], rfl, (Run.none h).congr (by simp), .nil⟩
  | q :: ps, j, s, hcap, hdir, hok, h => by
    rw [List.length_cons] at hcap
    obtain ⟨s1, l, r1, u1, f1⟩ := hget q.1 s h (hok q (by simp))
    obtain ⟨s2, ys, r2, u2, f2⟩ := gather_run hget (dir := dir) (cap := cap) ps (j+1) s1 (by omega)
      (fun i x hx => by rw [Nat.add_assoc, Nat.add_comm 1 i]; exact hdir (i+1) x hx)
      (fun x hx => hok x (List.mem_cons_of_mem _ hx)) u1.sub
    refine ⟨s2, (l, q.2) :: ys, ?_, (u1.trans u2).congr ?_, .cons ⟨u2.links.knows _ _ _ f1, rfl⟩ f2⟩
    · rw [List.map_cons]
      unfold gather
      rw [if_neg (by omega), r1, Res.bind_ok, show dir j = Res.ok q.2 from hdir 0 q rfl, Res.bind_ok, r2, Res.bind_ok]
      rfl
    · intro k g; simp

theorem makeF_run {cl : Nat → PDat → Nat → Claim} {S : CMesh D} (hS : S.F.Sound) {p f : Nat} {s : PSt D}
    (h : Sub S.F (s.sub p).F (s.found p)) (hf : f ∈ S.F.fl) (hc : s.found p 2 f = none) {es : List (Nat × Bool)}
    (hes : Same (s.found p 1) (S.F.T.view.edges f) es) :
    ∃ s' l, makeF cl S p f s es = .ok (s', l) ∧ Run cl S.F p (fun k g => k = 2 ∧ g = f) s s' ∧ s'.found p 2 f = some l := by
  obtain ⟨T2, t2, hadd⟩ := h.addF hc hf (hS.edges f hf).2 hes
  have hu : (s.sub p).F.T.sf (s.sub p).F.T.nf = .unused := h.cons.newF _ (by omega)
  unfold makeF
  simp only
  rw [show (s.sub p).F.T.mfNew.2 = (s.sub p).F.T.nf from rfl, t2, Res.bind_ok]
  refine ⟨_, _, rfl, ?_, ?_⟩
  · refine run_link hc hf (fresh_of h (h.fl.add hu).1) ?_ (hadd _)
    rfl
  · rw [found_link hc]
    exact upd2_some.2 (Or.inl ⟨rfl, rfl, rfl⟩)

theorem makeR_run {cl : Nat → PDat → Nat → Claim} {S : CMesh D} (hS : S.F.Sound) {p r : Nat} {s : PSt D}
    (h : Sub S.F (s.sub p).F (s.found p)) (hr : r ∈ S.F.rl) (hc : s.found p 3 r = none) {fs : List (Nat × Bool)}
    (hfs : Same (s.found p 2) (S.F.T.view.faces r) fs) :
    ∃ s' l, makeR cl S p r s fs = .ok (s', l) ∧ Run cl S.F p (fun k g => k = 3 ∧ g = r) s s' ∧ s'.found p 3 r = some l := by
  obtain ⟨T2, t2, hadd⟩ := h.addR hS hc hr hfs
  have hu : (s.sub p).F.T.sr (s.sub p).F.T.nr = .unused := h.cons.newR _ (by omega)
  unfold makeR
  simp only
  rw [show (s.sub p).F.T.mrNew.2 = (s.sub p).F.T.nr from rfl, t2, Res.bind_ok]
  refine ⟨_, _, rfl, ?_, ?_⟩
  · refine run_link hc hr (fresh_of h (h.rl.add hu).1) ?_ (hadd _)
    rfl
  · rw [found_link hc]
    exact upd2_some.2 (Or.inl ⟨rfl, rfl, rfl⟩)

/-- the edges of a face -/
theorem edges_ask {M : FMesh D} (hM : M.Sound) {f : Nat} (hf : f ∈ M.fl) :
    M.T.mfEdges f true none = .ok ((M.T.view.edges f).map (·.1)) ∧
      ((M.T.view.edges f).length ≤ 30 → ∀ i q, (M.T.view.edges f)[i]? = some q → M.T.mfEdgeDir_i f i = .ok q.2) := by
  have hl := (hM.fl.2 f).1 hf
  obtain ⟨⟨l, hfe⟩, h32⟩ := hM.edges f hf
  have hvw : M.T.view.edges f = Topo.pairs l (Topo.fbit (M.T.fd f)) := Topo.edgesOf_some hfe
  refine ⟨by rw [hvw, Topo.pairs_map_fst]; exact Topo.mfEdges_plain (Topo.alloc_of_live hl) hfe, ?_⟩
  intro h30 i q hq
  have hi : i < (M.T.view.edges f).length := (List.getElem?_eq_some_iff.1 hq).1
  exact ((Topo.C49_view hM.cons).2.1 f hl (by intro h0; rw [h0] at hi; exact absurd hi (by simp))).2 i q (by omega) hq

/-- the faces of a region -/
theorem faces_ask {M : FMesh D} (hM : M.Sound) {r : Nat} (hr : r ∈ M.rl) :
    M.T.mrFaces r = .ok ((M.T.view.faces r).map (·.1)) ∧
      ∀ i q, (M.T.view.faces r)[i]? = some q → M.T.mrFaceDir_i r i = .ok q.2 := by
  have hl := (hM.rl.2 r).1 hr
  obtain ⟨l, hrf⟩ := hM.faces r hr
  have hvw : M.T.view.faces r = Topo.pairs l (Topo.rbit (M.T.rd r)) := Topo.facesOf_some hrf
  refine ⟨by rw [hvw, Topo.pairs_map_fst]; exact Topo.rfaces_ok (Topo.alloc_of_live hl) hrf, ?_⟩
  intro i q hq
  have hi : i < (M.T.view.faces r).length := (List.getElem?_eq_some_iff.1 hq).1
  exact ((Topo.C49_view hM.cons).2.2 r hl (by intro h0; rw [h0] at hi; exact absurd hi (by simp))).2 i q hq

theorem newF_run {cl : Nat → PDat → Nat → Claim} {S : CMesh D} (hS : S.F.Sound)
    (h30 : ∀ f ∈ S.F.fl, (S.F.T.view.edges f).length ≤ 30) {p f : Nat} {s : PSt D}
    (h : Sub S.F (s.sub p).F (s.found p)) (hf : f ∈ S.F.fl) (hc : s.found p 2 f = none) :
    ∃ s' l, newF cl S p f s = .ok (s', l) ∧ Run cl S.F p (OfFace S.F f) s s' ∧ s'.found p 2 f = some l := by
  obtain ⟨q1, q2⟩ := edges_ask hS hf
  have hle := h30 f hf
  obtain ⟨s1, es, r1, u1, f1⟩ := gather_run (cl := cl) (G := S.F) (p := p) (k := 1) (get := partE cl S p)
    (Of := OfEdge S.F) (ok := fun e => e ∈ S.F.el) (fun x s h' hx => partE_run hS h' hx)
    (dir := S.F.T.mfEdgeDir_i f) (cap := 30) (S.F.T.view.edges f) 0 s (by omega)
    (fun i q hq => by rw [Nat.zero_add]; exact q2 hle i q hq) (fun q hq => hS.edgesLive hf hq) h
  have hc2 : s1.found p 2 f = none := by
    by_contra hne
    rcases (u1.dom 2 f).1 hne with h' | ⟨q, _, h' | h'⟩
    · exact h' hc
    · exact absurd h'.1 (by omega)
    · exact absurd h'.1 (by omega)
  obtain ⟨s2, l, r2, u2, f2⟩ := makeF_run (cl := cl) hS u1.sub hf hc2 f1
  unfold newF
  simp only [q1, Res.bind_ok, r1, r2]
  exact ⟨_, _, rfl, (u1.trans u2).congr fun k g => or_comm, f2⟩

/-- what is copied is copied with all it consists of -/
theorem Sub.ofEdge {G N : FMesh D} {c : Nat → Nat → Option Nat} (h : Sub G N c) {e l : Nat} (hc : c 1 e = some l)
    {k g : Nat} (ho : OfEdge G e k g) : c k g ≠ none := by
  obtain ⟨_, a, b, a', b', h2, h3, h4, _⟩ := h.edge e l hc
  rcases ho with ⟨rfl, rfl⟩ | ⟨rfl, ho⟩
  · rw [hc]; simp
  · rw [h2] at ho
    simp only [Option.some.injEq] at ho
    rcases ho with rfl | rfl
    · rw [h3]; simp
    · rw [h4]; simp

theorem Sub.ofFace {G N : FMesh D} {c : Nat → Nat → Option Nat} (h : Sub G N c) {f l : Nat} (hc : c 2 f = some l)
    {k g : Nat} (ho : OfFace G f k g) : c k g ≠ none := by
  rcases ho with ⟨rfl, rfl⟩ | ⟨q, hq, ho⟩
  · rw [hc]; simp
  · obtain ⟨q', _, h1, _⟩ := (h.face f l hc).2.2.mem' hq
    exact h.ofEdge h1 ho

theorem Sub.ofRegion {G N : FMesh D} {c : Nat → Nat → Option Nat} (h : Sub G N c) {r l : Nat} (hc : c 3 r = some l)
    {k g : Nat} (ho : OfRegion G r k g) : c k g ≠ none := by
  rcases ho with ⟨rfl, rfl⟩ | ⟨q, hq, ho⟩
  · rw [hc]; simp
  · obtain ⟨q', _, h1, _⟩ := (h.region r l hc).2.2.mem' hq
    exact h.ofFace h1 ho

theorem partF_run {cl : Nat → PDat → Nat → Claim} {S : CMesh D} (hS : S.F.Sound)
    (h30 : ∀ f ∈ S.F.fl, (S.F.T.view.edges f).length ≤ 30) {p f : Nat} {s : PSt D}
    (h : Sub S.F (s.sub p).F (s.found p)) (hf : f ∈ S.F.fl) :
    ∃ s' l, partF cl S p f s = .ok (s', l) ∧ Run cl S.F p (OfFace S.F f) s s' ∧ s'.found p 2 f = some l := by
  have hl := (hS.fl.2 f).1 hf
  have hd : S.F.T.derefF f = .ok () := by unfold Topo.derefF; rw [hl]; rfl
  unfold partF
  rw [hd, Res.bind_ok]
  cases hc : s.found p 2 f with
  | some l =>
    refine ⟨s, l, rfl, (Run.none h).more ?_, hc⟩
    intro k g
    constructor
    · rintro (h | h)
      · exact Or.inl h
      · exact absurd h id
    · rintro (h' | h')
      · exact Or.inl h'
      · exact Or.inl (h.ofFace hc h')
  | none => exact newF_run hS h30 h hf hc

theorem newR_run {cl : Nat → PDat → Nat → Claim} {S : CMesh D} (hS : S.F.Sound)
    (h30 : ∀ f ∈ S.F.fl, (S.F.T.view.edges f).length ≤ 30) (h512 : ∀ r ∈ S.F.rl, (S.F.T.view.faces r).length ≤ 512)
    {p r : Nat} {s : PSt D}
    (h : Sub S.F (s.sub p).F (s.found p)) (hr : r ∈ S.F.rl) (hc : s.found p 3 r = none) :
    ∃ s' l, newR cl S p r s = .ok (s', l) ∧ Run cl S.F p (OfRegion S.F r) s s' ∧ s'.found p 3 r = some l := by
  obtain ⟨q1, q2⟩ := faces_ask hS hr
  have hle := h512 r hr
  obtain ⟨s1, es, r1, u1, f1⟩ := gather_run (cl := cl) (G := S.F) (p := p) (k := 2) (get := partF cl S p)
    (Of := OfFace S.F) (ok := fun e => e ∈ S.F.fl) (fun x s h' hx => partF_run hS h30 h' hx)
    (dir := S.F.T.mrFaceDir_i r) (cap := 512) (S.F.T.view.faces r) 0 s (by omega)
    (fun i q hq => by rw [Nat.zero_add]; exact q2 i q hq) (fun q hq => hS.facesLive hr hq) h
  have hc2 : s1.found p 3 r = none := by
    by_contra hne
    rcases (u1.dom 3 r).1 hne with h' | ⟨q, _, h' | ⟨q', _, h' | h'⟩⟩
    · exact h' hc
    · exact absurd h'.1 (by omega)
    · exact absurd h'.1 (by omega)
    · exact absurd h'.1 (by omega)
  obtain ⟨s2, l, r2, u2, f2⟩ := makeR_run (cl := cl) hS u1.sub hr hc2 f1
  unfold newR
  simp only [q1, Res.bind_ok, r1, r2]
  exact ⟨_, _, rfl, (u1.trans u2).congr fun k g => or_comm, f2⟩

theorem newElem_run {cl : Nat → PDat → Nat → Claim} {S : CMesh D} (hS : S.F.Sound)
    (h30 : ∀ f ∈ S.F.fl, (S.F.T.view.edges f).length ≤ 30) (h512 : ∀ r ∈ S.F.rl, (S.F.T.view.faces r).length ≤ 512)
    {K p x : Nat} (hK : K = 2 ∨ K = 3) {s : PSt D}
    (h : Sub S.F (s.sub p).F (s.found p)) (hx : x ∈ S.F.list K) (hc : s.found p K x = none) :
    ∃ s', newElem cl S K p x s = .ok s' ∧ Run cl S.F p (OfElem S.F K x) s s' := by
  unfold newElem
  rcases hK with rfl | rfl
  · obtain ⟨s', l, h1, h2, _⟩ := newF_run (cl := cl) hS h30 h hx hc
    rw [if_neg (by omega), h1]
    exact ⟨s', rfl, h2.congr fun k g => by unfold OfElem; rw [if_neg (by omega)]⟩
  · obtain ⟨s', l, h1, h2, _⟩ := newR_run (cl := cl) hS h30 h512 h hx hc
    rw [if_pos rfl, h1]
    exact ⟨s', rfl, h2.congr fun k g => by unfold OfElem; rw [if_pos rfl]⟩

end Prt
end MSTK
