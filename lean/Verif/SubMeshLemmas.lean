import Verif.SubMeshModel
import Verif.PartOwn

/-!
`MESH_BuildSubMesh` (SubMeshModel.lean) does what the making of a piece (PartModel.lean) does: marks and
arrays say where the copy of an entity is.
-/
namespace MSTK
namespace Prt
open File Copy

variable {D : Type}

/-- The IDs of the entities of kind `k` are 1, 2, …, as many as there are entities, in some order. -/
structure Compact (F : FMesh D) (k : Nat) : Prop where
  range : ∀ g ∈ F.list k, 1 ≤ ident F k g ∧ ident F k g ≤ (F.list k).length
  inj : ∀ g ∈ F.list k, ∀ g' ∈ F.list k, ident F k g = ident F k g' → g = g'

/-- marks and arrays are right -/
structure Match (S : CMesh D) (K : Nat) (t : BSt D) : Prop where
  sub : Sub S.F (t.s.sub 0).F (t.s.found 0)
  top : ∀ k, (t.s.sub 0).top k = ((t.s.sub 0).F.list k).length
  seen : ∀ k, k < K → ∀ g, t.seen k g = true ↔ t.s.found 0 k g ≠ none
  seen' : ∀ k g, t.seen k g = true → t.s.found 0 k g ≠ none
  tab : ∀ k, k < K → ∀ g l, t.s.found 0 k g = some l →
    ∃ j, t.tab k (ident S.F k g - 1).toNat = some j ∧ ((t.s.sub 0).F.list k)[j]? = some l

/-- one entity more, at the end of the list -/
structure Added (s s' : PSt D) (k g l : Nat) : Prop where
  found : s'.found 0 = upd2 (s.found 0) k g (some l)
  same : (s'.sub 0).F.list k = (s.sub 0).F.list k ++ [l]
  list : ∀ k', k' ≠ k → (s'.sub 0).F.list k' = (s.sub 0).F.list k'
  top : (s'.sub 0).top = upd (s.sub 0).top k ((s.sub 0).top k + 1)
  id : ident (s'.sub 0).F k l = (s.sub 0).top k + 1

theorem added_link {cl : Nat → PDat → Nat → Claim} {s : PSt D} {k g l : Nat} {N : CMesh D}
    (hc : s.found 0 k g = none) (h1 : N.F.list k = (s.sub 0).F.list k ++ [l])
    (h2 : ∀ k', k' ≠ k → N.F.list k' = (s.sub 0).F.list k') (h3 : N.top = (s.sub 0).top)
    (h4 : ident N.F k l = (s.sub 0).top k + 1) : Added s (s.link cl 0 k g l N) k g l where
  found := found_link hc
  same := by rw [sub_link]; exact h1
  list := fun k' hk' => by rw [sub_link]; exact h2 k' hk'
  top := by unfold PSt.link; simp only [upd_same]; rw [h3]
  id := by rw [sub_link]; exact h4


/-- kinds are 0, 1, 2, 3 -/
macro "lists" : tactic => `(tactic| (intro k' hk'; rcases k' with _ | _ | _ | _ | _ <;> first | rfl | exact absurd rfl hk'))

theorem makeV_added {cl : Nat → PDat → Nat → Claim} {S : CMesh D} {v : Nat} {s : PSt D} (hc : s.found 0 0 v = none) :
    Added s (makeV cl S 0 v s).1 0 v (makeV cl S 0 v s).2 := by
  unfold makeV
  simp only
  refine added_link hc ?_ ?_ ?_ ?_
  · rfl
  · lists
  · rfl
  · exact upd_same _ _ _

theorem makeE_added {cl : Nat → PDat → Nat → Claim} {S : CMesh D} {e a b l : Nat} {s s' : PSt D} (hc : s.found 0 1 e = none)
    (h : makeE cl S 0 e s a b = .ok (s', l)) : Added s s' 1 e l := by
  unfold makeE at h
  simp only at h
  obtain ⟨T1, _, h⟩ := Res.bind_eq_ok.1 h
  obtain ⟨T2, _, h⟩ := Res.bind_eq_ok.1 h
  simp only [Res.pure_eq, Res.ok.injEq, Prod.mk.injEq] at h
  obtain ⟨rfl, rfl⟩ := h
  refine added_link hc ?_ ?_ ?_ ?_
  · rfl
  · lists
  · rfl
  · exact upd_same _ _ _

theorem makeF_added {cl : Nat → PDat → Nat → Claim} {S : CMesh D} {f l : Nat} {es : List (Nat × Bool)} {s s' : PSt D}
    (hc : s.found 0 2 f = none) (h : makeF cl S 0 f s es = .ok (s', l)) : Added s s' 2 f l := by
  unfold makeF at h
  simp only at h
  obtain ⟨T1, _, h⟩ := Res.bind_eq_ok.1 h
  simp only [Res.pure_eq, Res.ok.injEq, Prod.mk.injEq] at h
  obtain ⟨rfl, rfl⟩ := h
  refine added_link hc ?_ ?_ ?_ ?_
  · rfl
  · lists
  · rfl
  · exact upd_same _ _ _

theorem makeR_added {cl : Nat → PDat → Nat → Claim} {S : CMesh D} {r l : Nat} {fs : List (Nat × Bool)} {s s' : PSt D}
    (hc : s.found 0 3 r = none) (h : makeR cl S 0 r s fs = .ok (s', l)) : Added s s' 3 r l := by
  unfold makeR at h
  simp only at h
  obtain ⟨T1, _, h⟩ := Res.bind_eq_ok.1 h
  simp only [Res.pure_eq, Res.ok.injEq, Prod.mk.injEq] at h
  obtain ⟨rfl, rfl⟩ := h
  refine added_link hc ?_ ?_ ?_ ?_
  · rfl
  · lists
  · rfl
  · exact upd_same _ _ _

theorem Added.len {s s' : PSt D} {k g l : Nat} (h : Added s s' k g l)
    (ht : ∀ k, (s.sub 0).top k = ((s.sub 0).F.list k).length) : ∀ k, (s'.sub 0).top k = ((s'.sub 0).F.list k).length := by
  intro k'
  rw [h.top]
  by_cases hk : k' = k
  · subst hk; rw [upd_same, h.same, ht]; simp
  · rw [upd_ne _ _ hk, h.list _ hk, ht]

/-- a place in a list is not changed by adding to the lists -/
theorem Added.place {s s' : PSt D} {k g l : Nat} (h : Added s s' k g l) {k' j x : Nat}
    (hx : ((s.sub 0).F.list k')[j]? = some x) : ((s'.sub 0).F.list k')[j]? = some x := by
  by_cases hk : k' = k
  · subst hk
    rw [h.same, List.getElem?_append_left (List.getElem?_eq_some_iff.1 hx).1]; exact hx
  · rw [h.list _ hk]; exact hx

theorem slot_ok {S : CMesh D} {k g : Nat} (hC : Compact S.F k) (hg : g ∈ S.F.list k) :
    slot S k g = .ok (ident S.F k g - 1).toNat := by
  unfold slot
  rw [if_pos (hC.range g hg)]

/-- places in the arrays are different for different entities -/
theorem slot_inj {S : CMesh D} {k g g' : Nat} (hC : Compact S.F k) (hg : g ∈ S.F.list k) (hg' : g' ∈ S.F.list k)
    (h : (ident S.F k g - 1).toNat = (ident S.F k g' - 1).toNat) : g = g' := by
  have h1 := hC.range g hg
  have h2 := hC.range g' hg'
  exact hC.inj g hg g' hg' (by omega)

section
variable {S : CMesh D} {K : Nat}

theorem Match.recall {t : BSt D} (h : Match S K t) {k g l : Nat} (hk : k < K) (hC : Compact S.F k)
    (hc : t.s.found 0 k g = some l) : t.recall S k g = .ok l := by
  obtain ⟨j, h1, h2⟩ := h.tab k hk g l hc
  unfold BSt.recall
  rw [slot_ok hC (h.sub.maps.dom k g l hc).2, Res.bind_ok, h1, Res.ofOption_some, Res.bind_ok, h2, Res.ofOption_some]

theorem Match.note {t : BSt D} (h : Match S K t) {s' : PSt D} {k g l : Nat} (hk : k < K) (hC : Compact S.F k)
    (hg : g ∈ S.F.list k) (hs : Sub S.F (s'.sub 0).F (s'.found 0)) (ha : Added t.s s' k g l) :
    ∃ t', t.note S k g (s', l) = .ok (t', l) ∧ t'.s = s' ∧ Match S K t' := by
  unfold BSt.note
  rw [slot_ok hC hg, Res.bind_ok]
  refine ⟨_, rfl, rfl, ?_⟩
  have hseen : ∀ k' g', upd2 t.seen k g true k' g' = true ↔ t.seen k' g' = true ∨ (k' = k ∧ g' = g) := by
    intro k' g'
    rw [upd2_at]
    by_cases he : k' = k ∧ g' = g
    · rw [if_pos he]; simp [he]
    · rw [if_neg he]; simp [he]
  refine ⟨hs, ha.len h.top, ?_, ?_, ?_⟩
  · intro k' hk' g'
    show upd2 t.seen k g true k' g' = true ↔ s'.found 0 k' g' ≠ none
    rw [hseen, ha.found, upd2_dom, h.seen k' hk']
  · intro k' g' h'
    show s'.found 0 k' g' ≠ none
    rw [ha.found, upd2_dom]
    exact ((hseen k' g').1 h').imp (h.seen' k' g') id
  · intro k' hk' g' l' h'
    replace h' : s'.found 0 k' g' = some l' := h'
    show ∃ j, upd2 t.tab k (ident S.F k g - 1).toNat (some (ident (s'.sub 0).F k l - 1).toNat) k' (ident S.F k' g' - 1).toNat = some j ∧
      ((s'.sub 0).F.list k')[j]? = some l'
    rw [ha.found] at h'
    rw [upd2_at]
    rcases upd2_some.1 h' with ⟨rfl, rfl, rfl⟩ | ⟨hne, h2⟩
    · refine ⟨_, if_pos ⟨rfl, rfl⟩, ?_⟩
      rw [ha.id, h.top, ha.same]
      simp
    · rw [if_neg]
      · obtain ⟨j, h3, h4⟩ := h.tab k' hk' g' l' h2
        exact ⟨j, h3, ha.place h4⟩
      · rintro ⟨rfl, h5⟩
        exact hne ⟨rfl, slot_inj hC (h.sub.maps.dom k' g' l' h2).2 hg h5⟩

/-- an element: no place is kept in an array -/
theorem Match.last {t : BSt D} (h : Match S K t) {s' : PSt D} {k g l : Nat} (hk : K ≤ k)
    (hs : Sub S.F (s'.sub 0).F (s'.found 0)) (ha : Added t.s s' k g l) :
    Match S K { t with s := s' } ∧ Match S K { t with s := s', seen := upd2 t.seen k g true } := by
  have hf : ∀ k' g', k' < K → s'.found 0 k' g' = t.s.found 0 k' g' := by
    intro k' g' hk'
    rw [ha.found, upd2_at, if_neg (fun h => by omega)]
  have hmono : ∀ k' g', t.s.found 0 k' g' ≠ none → s'.found 0 k' g' ≠ none := by
    intro k' g' h'
    rw [ha.found, upd2_dom]; exact Or.inl h'
  have htab : ∀ k', k' < K → ∀ g' l', s'.found 0 k' g' = some l' →
      ∃ j, t.tab k' (ident S.F k' g' - 1).toNat = some j ∧ ((s'.sub 0).F.list k')[j]? = some l' := by
    intro k' hk' g' l' h'
    rw [hf k' g' hk'] at h'
    obtain ⟨j, h3, h4⟩ := h.tab k' hk' g' l' h'
    exact ⟨j, h3, ha.place h4⟩
  refine ⟨⟨hs, ha.len h.top, ?_, ?_, htab⟩, ⟨hs, ha.len h.top, ?_, ?_, htab⟩⟩
  · intro k' hk' g'
    show _ ↔ s'.found 0 k' g' ≠ none
    rw [hf k' g' hk']; exact h.seen k' hk' g'
  · intro k' g' h'
    exact hmono k' g' (h.seen' k' g' h')
  · intro k' hk' g'
    show upd2 t.seen k g true k' g' = true ↔ s'.found 0 k' g' ≠ none
    rw [hf k' g' hk', upd2_at, if_neg (fun h => by omega)]; exact h.seen k' hk' g'
  · intro k' g' h'
    replace h' : upd2 t.seen k g true k' g' = true := h'
    show s'.found 0 k' g' ≠ none
    rw [upd2_at] at h'
    by_cases he : k' = k ∧ g' = g
    · rw [ha.found, upd2_dom]; exact Or.inr he
    · rw [if_neg he] at h'
      exact hmono k' g' (h.seen' k' g' h')


theorem not_seen {t : BSt D} (h : Match S K t) {k g : Nat} (hk : k < K) (hc : t.s.found 0 k g = none) : ¬ t.seen k g = true := by
  rw [h.seen k hk, hc]; simp

theorem subV_ok (hS : S.F.Sound) (hK : 2 ≤ K) (hC : ∀ k, k < K → Compact S.F k) {v : Nat} (hv : v ∈ S.F.vl) {t : BSt D}
    (h : Match S K t) :
    ∃ t' l, subV S v t = .ok (t', l) ∧ partV alike S 0 v t.s = .ok (t'.s, l) ∧ Match S K t' := by
  have hd : S.F.T.derefV v = .ok () := Topo.derefV_ok (Topo.alloc_of_live ((hS.vl.2 v).1 hv))
  unfold subV partV
  rw [hd, Res.bind_ok, Res.bind_ok]
  cases hc : t.s.found 0 0 v with
  | some l =>
    rw [if_pos ((h.seen 0 (by omega) v).2 (by rw [hc]; simp)), h.recall (by omega) (hC 0 (by omega)) hc]
    exact ⟨t, l, rfl, rfl, h⟩
  | none =>
    rw [if_neg (not_seen h (by omega) hc)]
    obtain ⟨t', h1, h2, h3⟩ := h.note (by omega) (hC 0 (by omega)) hv
      (makeV_run (cl := alike) h.sub hv hc).1.sub (makeV_added (cl := alike) (S := S) hc)
    refine ⟨t', _, h1, ?_, h3⟩
    rw [h2]; rfl

theorem subE_ok (hS : S.F.Sound) (hK : 2 ≤ K) (hC : ∀ k, k < K → Compact S.F k) {e : Nat} (he : e ∈ S.F.el) {t : BSt D}
    (h : Match S K t) :
    ∃ t' l, subE S e t = .ok (t', l) ∧ partE alike S 0 e t.s = .ok (t'.s, l) ∧ Match S K t' := by
  have hlive := (hS.el.2 e).1 he
  have hd : S.F.T.derefE e = .ok () := Topo.derefE_ok (Topo.alloc_of_live hlive)
  obtain ⟨a, b, hab⟩ := hS.ends e he
  obtain ⟨ha, hb⟩ := hS.endsLive he hab
  have hq := (Topo.C49_view hS.cons).1
  have q0 : S.F.T.meVertex e false = .ok (some a) := by rw [hq e false hlive, hab]; rfl
  have q1 : S.F.T.meVertex e true = .ok (some b) := by rw [hq e true hlive, hab]; rfl
  unfold subE partE
  rw [hd, Res.bind_ok, Res.bind_ok]
  cases hc : t.s.found 0 1 e with
  | some l =>
    rw [if_pos ((h.seen 1 (by omega) e).2 (by rw [hc]; simp)), h.recall (by omega) (hC 1 (by omega)) hc]
    exact ⟨t, l, rfl, rfl, h⟩
  | none =>
    rw [if_neg (not_seen h (by omega) hc)]
    obtain ⟨t1, a', r1, p1, h1⟩ := subV_ok hS hK hC ha h
    obtain ⟨t2, b', r2, p2, h2⟩ := subV_ok hS hK hC hb h1
    obtain ⟨s1, a1, r1', u1, f1⟩ := partV_run (cl := alike) hS h.sub ha
    rw [p1] at r1'
    simp only [Res.ok.injEq, Prod.mk.injEq] at r1'
    obtain ⟨rfl, rfl⟩ := r1'
    obtain ⟨s2, b1, r2', u2, f2⟩ := partV_run (cl := alike) hS h1.sub hb
    rw [p2] at r2'
    simp only [Res.ok.injEq, Prod.mk.injEq] at r2'
    obtain ⟨rfl, rfl⟩ := r2'
    have hc2 : t2.s.found 0 1 e = none := by
      by_contra hne
      rcases (u2.dom 1 e).1 hne with h' | h'
      · rcases (u1.dom 1 e).1 h' with h'' | h''
        · exact h'' hc
        · exact absurd h''.1 (by omega)
      · exact absurd h'.1 (by omega)
    obtain ⟨s3, l, r3, u3, f3⟩ := makeE_run (cl := alike) u2.sub he hc2 hab (u2.links.knows _ _ _ f1) f2
    obtain ⟨t', n1, n2, n3⟩ := h2.note (by omega) (hC 1 (by omega)) he u3.sub (makeE_added hc2 r3)
    simp only [q0, q1, Res.bind_ok, Res.ofOption_some, r1, r2, r3, p1, p2, n1]
    exact ⟨t', l, rfl, by rw [n2], n3⟩

/-- both ways of getting what is on a boundary -/
theorem gather_same {get : Nat → BSt D → Res (BSt D × Nat)} {get' : Nat → PSt D → Res (PSt D × Nat)} {ok : Nat → Prop}
    (hget : ∀ x t, ok x → Match S K t → ∃ t' l, get x t = .ok (t', l) ∧ get' x t.s = .ok (t'.s, l) ∧ Match S K t')
    {dir : Nat → Res Bool} {cap : Nat} : ∀ (ps : List (Nat × Bool)) (j : Nat) (t : BSt D), j + ps.length ≤ cap →
    (∀ i q, ps[i]? = some q → dir (j+i) = .ok q.2) → (∀ q ∈ ps, ok q.1) → Match S K t →
    ∃ t' ys, gather get dir cap j (ps.map (·.1)) t = .ok (t', ys) ∧
      gather get' dir cap j (ps.map (·.1)) t.s = .ok (t'.s, ys) ∧ Match S K t'
  | [], _, t, _, _, _, h => ⟨t, [], rfl, rfl, h⟩
  | q :: ps, j, t, hcap, hdir, hok, h => by
    rw [List.length_cons] at hcap
    obtain ⟨t1, l, r1, p1, h1⟩ := hget q.1 t (hok q (by simp)) h
    obtain ⟨t2, ys, r2, p2, h2⟩ := gather_same hget (dir := dir) (cap := cap) ps (j+1) t1 (by omega)
      (fun i x hx => by rw [Nat.add_assoc, Nat.add_comm 1 i]; exact hdir (i+1) x hx)
      (fun x hx => hok x (List.mem_cons_of_mem _ hx)) h1
    refine ⟨t2, (l, q.2) :: ys, ?_, ?_, h2⟩
    · rw [List.map_cons]
      unfold gather
      rw [if_neg (by omega), r1, Res.bind_ok, show dir j = Res.ok q.2 from hdir 0 q rfl, Res.bind_ok, r2, Res.bind_ok]
      rfl
    · rw [List.map_cons]
      unfold gather
      rw [if_neg (by omega), p1, Res.bind_ok, show dir j = Res.ok q.2 from hdir 0 q rfl, Res.bind_ok, p2, Res.bind_ok]
      rfl

/-- a face, before it is noted -/
theorem subF_ok (hS : S.F.Sound) (h30 : ∀ f ∈ S.F.fl, (S.F.T.view.edges f).length ≤ 30) (hK : 2 ≤ K)
    (hC : ∀ k, k < K → Compact S.F k) {f : Nat} (hf : f ∈ S.F.fl) {t : BSt D} (h : Match S K t) (hc : t.s.found 0 2 f = none) :
    ∃ t1 s' l, subF S f t = .ok ({ t1 with s := s' }, l) ∧ newF alike S 0 f t.s = .ok (s', l) ∧ Match S K t1 ∧
      Sub S.F (s'.sub 0).F (s'.found 0) ∧ Added t1.s s' 2 f l := by
  obtain ⟨q1, q2⟩ := edges_ask hS hf
  have hle := h30 f hf
  have hget : ∀ i q, (S.F.T.view.edges f)[i]? = some q → S.F.T.mfEdgeDir_i f (0+i) = .ok q.2 :=
    fun i q hq => by rw [Nat.zero_add]; exact q2 hle i q hq
  obtain ⟨t1, es, r1, p1, h1⟩ := gather_same (get := subE S) (get' := partE alike S 0) (ok := fun e => e ∈ S.F.el)
    (fun x t hx h => subE_ok hS hK hC hx h) (S.F.T.view.edges f) 0 t (cap := 30) (by omega) hget
    (fun q hq => hS.edgesLive hf hq) h
  obtain ⟨s1, es', r1', u1, f1⟩ := gather_run (cl := alike) (G := S.F) (p := 0) (k := 1) (get := partE alike S 0)
    (Of := OfEdge S.F) (ok := fun e => e ∈ S.F.el) (fun x s h' hx => partE_run hS h' hx)
    (dir := S.F.T.mfEdgeDir_i f) (cap := 30) (S.F.T.view.edges f) 0 t.s (by omega) hget (fun q hq => hS.edgesLive hf hq) h.sub
  rw [p1] at r1'
  simp only [Res.ok.injEq, Prod.mk.injEq] at r1'
  obtain ⟨rfl, rfl⟩ := r1'
  have hc2 : t1.s.found 0 2 f = none := by
    by_contra hne
    rcases (u1.dom 2 f).1 hne with h' | ⟨q, _, h' | h'⟩
    · exact h' hc
    · exact absurd h'.1 (by omega)
    · exact absurd h'.1 (by omega)
  obtain ⟨s2, l, r2, u2, f2⟩ := makeF_run (cl := alike) hS u1.sub hf hc2 f1
  refine ⟨t1, s2, l, ?_, ?_, h1, u2.sub, makeF_added hc2 r2⟩
  · unfold subF
    simp only [q1, Res.bind_ok, r1, r2]
    rfl
  · unfold newF
    simp only [q1, Res.bind_ok, p1, r2]

theorem subRF_ok (hS : S.F.Sound) (h30 : ∀ f ∈ S.F.fl, (S.F.T.view.edges f).length ≤ 30) (hK : 3 ≤ K)
    (hC : ∀ k, k < K → Compact S.F k) {f : Nat} (hf : f ∈ S.F.fl) {t : BSt D} (h : Match S K t) :
    ∃ t' l, subRF S f t = .ok (t', l) ∧ partF alike S 0 f t.s = .ok (t'.s, l) ∧ Match S K t' := by
  have hd : S.F.T.derefF f = .ok () := Topo.derefF_ok (Topo.alloc_of_live ((hS.fl.2 f).1 hf))
  unfold subRF partF
  rw [hd, Res.bind_ok, Res.bind_ok]
  cases hc : t.s.found 0 2 f with
  | some l =>
    rw [if_pos ((h.seen 2 (by omega) f).2 (by rw [hc]; simp)), h.recall (by omega) (hC 2 (by omega)) hc]
    exact ⟨t, l, rfl, rfl, h⟩
  | none =>
    rw [if_neg (not_seen h (by omega) hc)]
    obtain ⟨t1, s', l, r1, p1, h1, hs, ha⟩ := subF_ok hS h30 (by omega) hC hf h hc
    obtain ⟨t', n1, n2, n3⟩ := h1.note (by omega) (hC 2 (by omega)) hf hs ha
    rw [r1, Res.bind_ok]
    refine ⟨t', l, ?_, by rw [n2]; exact p1, n3⟩
    exact n1

theorem subR_ok (hS : S.F.Sound) (h30 : ∀ f ∈ S.F.fl, (S.F.T.view.edges f).length ≤ 30)
    (h512 : ∀ r ∈ S.F.rl, (S.F.T.view.faces r).length ≤ 512) (hK : K = 3)
    (hC : ∀ k, k < K → Compact S.F k) {r : Nat} (hr : r ∈ S.F.rl) {t : BSt D} (h : Match S K t) (hc : t.s.found 0 3 r = none) :
    ∃ t' l, subR S r t = .ok (t', l) ∧ newR alike S 0 r t.s = .ok (t'.s, l) ∧ Match S K t' := by
  obtain ⟨q1, q2⟩ := faces_ask hS hr
  have hle := h512 r hr
  have hget : ∀ i q, (S.F.T.view.faces r)[i]? = some q → S.F.T.mrFaceDir_i r (0+i) = .ok q.2 :=
    fun i q hq => by rw [Nat.zero_add]; exact q2 i q hq
  obtain ⟨t1, es, r1, p1, h1⟩ := gather_same (get := subRF S) (get' := partF alike S 0) (ok := fun e => e ∈ S.F.fl)
    (fun x t hx h => subRF_ok hS h30 (by omega) hC hx h) (S.F.T.view.faces r) 0 t (cap := 512) (by omega) hget
    (fun q hq => hS.facesLive hr hq) h
  obtain ⟨s1, es', r1', u1, f1⟩ := gather_run (cl := alike) (G := S.F) (p := 0) (k := 2) (get := partF alike S 0)
    (Of := OfFace S.F) (ok := fun e => e ∈ S.F.fl) (fun x s h' hx => partF_run hS h30 h' hx)
    (dir := S.F.T.mrFaceDir_i r) (cap := 512) (S.F.T.view.faces r) 0 t.s (by omega) hget (fun q hq => hS.facesLive hr hq) h.sub
  rw [p1] at r1'
  simp only [Res.ok.injEq, Prod.mk.injEq] at r1'
  obtain ⟨rfl, rfl⟩ := r1'
  have hc2 : t1.s.found 0 3 r = none := by
    by_contra hne
    rcases (u1.dom 3 r).1 hne with h' | ⟨q, _, h' | ⟨q', _, h' | h'⟩⟩
    · exact h' hc
    · exact absurd h'.1 (by omega)
    · exact absurd h'.1 (by omega)
    · exact absurd h'.1 (by omega)
  obtain ⟨s2, l, r2, u2, f2⟩ := makeR_run (cl := alike) hS u1.sub hr hc2 f1
  refine ⟨{ t1 with s := s2 }, l, ?_, ?_, (h1.last (by omega) u2.sub (makeR_added hc2 r2)).1⟩
  · unfold subR
    simp only [q1, Res.bind_ok, r1, r2]
    rfl
  · unfold newR
    simp only [q1, Res.bind_ok, p1, r2]

theorem subElem_ok (hS : S.F.Sound) (h30 : ∀ f ∈ S.F.fl, (S.F.T.view.edges f).length ≤ 30)
    (h512 : ∀ r ∈ S.F.rl, (S.F.T.view.faces r).length ≤ 512) (hK : K = 2 ∨ K = 3)
    (hC : ∀ k, k < K → Compact S.F k) {x : Nat} (hx : x ∈ S.F.list K) {t : BSt D} (h : Match S K t)
    (hc : t.s.found 0 K x = none) :
    ∃ t', subElem S K x t = .ok t' ∧ Match S K t' ∧
      ((S.par K x).ptype ≠ 1 → t' = t) ∧ ((S.par K x).ptype = 1 → newElem alike S K 0 x t.s = .ok t'.s) := by
  unfold subElem newElem
  by_cases hp : (S.par K x).ptype = 1
  · rw [if_neg (not_not.2 hp)]
    rcases hK with rfl | rfl
    · obtain ⟨t1, s', l, r1, p1, h1, hs, ha⟩ := subF_ok hS h30 (by omega) hC hx h hc
      simp only [if_neg (show ¬ (2 = 3) by omega), if_neg (show ¬ (t.seen 2 x = true) from fun hs => h.seen' 2 x hs hc), r1, p1, Res.bind_ok]
      exact ⟨_, rfl, (h1.last (by omega) hs ha).2, fun h => absurd hp h, fun _ => rfl⟩
    · obtain ⟨t', l, r1, p1, h1⟩ := subR_ok hS h30 h512 rfl hC hx h hc
      rw [if_pos rfl, if_pos rfl, r1, p1]
      exact ⟨_, rfl, h1, fun h => absurd hp h, fun _ => rfl⟩
  · rw [if_pos hp]
    exact ⟨t, rfl, h, fun _ => rfl, fun h => absurd h hp⟩

end

end Prt
end MSTK
