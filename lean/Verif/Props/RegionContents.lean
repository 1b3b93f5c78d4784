import Verif.RegionQueryLemmas
import Verif.Props.SplitFace
import Mathlib.Data.List.Forall2

/-!
C57: `MR_Vertices` of a standard element is a standard numbering of its vertices.

Specification: `IsElement` says, in terms of `MR_Faces`, `MR_FaceDir` and `MF_Vertices`, that a region
is the standard element on a list of vertices: its faces, in whatever order, orientation and starting
vertex they are stored, are those of the standard (`stdCycles`, C48), seen from outside.
-/
namespace MSTK
namespace Topo

/-! ### Specification -/

/-- The live region `r` is the standard element (tetrahedron, pyramid, prism or hexahedron) on the
vertices `vs`: it has as many faces as the element, and for each face of the element one that goes
round the same vertices seen from outside. -/
structure IsElement (T : Topo) (r : Nat) (vs : List Nat) : Prop where
  size : vs.length = 4 ∨ vs.length = 5 ∨ vs.length = 6 ∨ vs.length = 8
  nodup : vs.Nodup
  live : T.sr r = .live
  faces : ∃ fs, T.mrFaces r = .ok fs ∧ fs.length = (stdCycles vs).length ∧
    ∀ c ∈ stdCycles vs, ∃ f, T.Uses r f c

/-- `v` is an end of an edge of the face `f` -/
def FaceVertex (T : Topo) (f v : Nat) : Prop := ∃ e, T.FaceHas f e ∧ T.EdgeHas e v

/-- The faces of the region form a closed surface: every edge of one of them is an edge of another. -/
def ClosedSurface (T : Topo) (r : Nat) : Prop :=
  ∀ f e, T.RegionHas r f → T.FaceHas f e → ∃ g, g ≠ f ∧ T.RegionHas r g ∧ T.FaceHas g e

/-- Every edge between two vertices of the region is an edge of one of its faces. -/
def NoChord (T : Topo) (r : Nat) (vs : List Nat) : Prop :=
  ∀ e x y, x ∈ vs → y ∈ vs → x ≠ y → T.EdgeHas e x → T.EdgeHas e y → ∃ f, T.RegionHas r f ∧ T.FaceHas f e

/-! ### faces and cycles matched up -/

theorem std_three {vs : List Nat} : ∀ c ∈ stdCycles vs, 3 ≤ c.length := by
  unfold stdCycles
  split <;> simp

theorem std_len4 {vs : List Nat} (h : vs.length = 4) : ∀ c ∈ stdCycles vs, c.length = 3 := by
  match vs, h with
  | [a,b,c,d], _ => simp [stdCycles]

theorem std_len8 {vs : List Nat} (h : vs.length = 8) : ∀ c ∈ stdCycles vs, c.length = 4 := by
  match vs, h with
  | [a,b,c,d,e,f,g,h], _ => simp [stdCycles]

theorem std_distinct {vs : List Nat} (hn : vs.Nodup)
    (hlen : vs.length = 4 ∨ vs.length = 5 ∨ vs.length = 6 ∨ vs.length = 8) :
    (stdCycles vs).Pairwise fun c c' => ¬ c.Perm c' := by
  obtain ⟨ty, P, rows, ht⟩ := tables_ok hlen
  obtain ⟨hcyc, hty⟩ := rows_cycles ht rfl hlen
  rw [← hcyc, List.pairwise_map]
  refine ht.distinct.imp_of_mem ?_
  intro x y hx hy hxy hp
  refine hxy (picks_perm hn (ht.row x hx).nodup (ht.row y hy).nodup ?_ ?_ hp)
  · rw [← ht.num]; exact (ht.row x hx).range
  · rw [← ht.num]; exact (ht.row y hy).range

theorem match_up {α β : Type} {R : α → β → Prop} {fs : List α} : ∀ {cs : List β},
    cs.Pairwise (fun c c' => ∀ f, R f c → ¬ R f c') → (∀ c ∈ cs, ∃ f ∈ fs, R f c) →
    ∃ gs : List α, gs.Nodup ∧ gs ⊆ fs ∧ List.Forall₂ R gs cs := by
  intro cs
  induction cs with
  | nil => intro _ _; exact ⟨[], List.nodup_nil, by simp, List.Forall₂.nil⟩
  | cons c cs ih =>
    intro hp hex
    rw [List.pairwise_cons] at hp
    obtain ⟨gs, h1, h2, h3⟩ := ih hp.2 (fun c hc => hex c (by simp [hc]))
    obtain ⟨f, hf, hR⟩ := hex c (by simp)
    refine ⟨f :: gs, List.nodup_cons.2 ⟨?_, h1⟩, ?_, List.Forall₂.cons hR h3⟩
    · intro hm
      obtain ⟨k, hk, rfl⟩ := List.getElem_of_mem hm
      have hk' : k < cs.length := by rw [← h3.length_eq]; exact hk
      exact hp.1 _ (List.getElem_mem hk') _ hR (h3.get hk hk')
    · intro x hx
      rcases List.mem_cons.1 hx with rfl | hx
      · exact hf
      · exact h2 hx

/-- two cycles of the same face have the same vertices -/
theorem Uses.perm {T : Topo} (h : T.Consistent) (hl : T.AllLoops) {r f : Nat} {c c' : List Nat} (h0 : c ≠ [])
    (h0' : c' ≠ []) (hu : T.Uses r f c) (hu' : T.Uses r f c') : c.Perm c' := by
  obtain ⟨hr, d, hd, hs⟩ := hu
  obtain ⟨-, d', hd', hs'⟩ := hu'
  have hf : T.sf f = .live := h.fr.down r f d hr ((mrFaceDir_iff h hr).1 hd)
  obtain ⟨ws, hw, hn⟩ := hl f hf
  rw [seen_iff hf hw hn h0] at hs
  rw [seen_iff hf hw hn h0'] at hs'
  exact (hs.perm.trans (turned_perm d)).trans (hs'.perm.trans (turned_perm d')).symm

/-- What `IsElement` says about the stored faces. -/
structure Elt (T : Topo) (r : Nat) (fs : List Nat) (vs : List Nat) : Prop where
  rf : T.rf r = some fs
  nodup : fs.Nodup
  len : fs.length = (stdCycles vs).length
  find : ∀ c ∈ stdCycles vs, ∃ i f d, T.Side r fs i f d c
  at_ : ∀ (i f : Nat), fs[i]? = some f → ∃ c ∈ stdCycles vs, ∃ d, T.Side r fs i f d c
  uniq : ∀ c ∈ stdCycles vs, ∀ i j f g d d', T.Side r fs i f d c → T.Side r fs j g d' c → i = j
  same : ∀ c ∈ stdCycles vs, ∀ c' ∈ stdCycles vs, ∀ i f g d d', T.Side r fs i f d c → T.Side r fs i g d' c' → c = c'
  sizes : (fs.map fun f => ((T.fe f).getD []).length).Perm ((stdCycles vs).map List.length)

theorem IsElement.elt {T : Topo} (h : T.Consistent) (hl : T.AllLoops) {r : Nat} {vs : List Nat}
    (el : T.IsElement r vs) : ∃ fs, T.Elt r fs vs := by
  obtain ⟨fs, h1, h2, h3⟩ := el.faces
  have hrf := mrFaces_some h1
  have hr := el.live
  have hn : fs.Nodup := (h.reg r fs (alloc_of_live hr) hrf).1
  have hne : ∀ c ∈ stdCycles vs, c ≠ [] := by
    rintro c hc rfl; have := std_three _ hc; simp at this
  have hdist := std_distinct el.nodup el.size
  have hmem : ∀ f c, T.Uses r f c → f ∈ fs := by
    rintro f c ⟨-, d, hd, -⟩
    have := (mrFaceDir_iff h hr).1 hd
    have h5 := mem_facesOf_iff.2 ⟨d, this⟩
    rw [hrf] at h5; exact h5
  obtain ⟨gs, g1, g2, g3⟩ := match_up (R := fun f c => T.Uses r f c) (fs := fs)
    (hdist.imp_of_mem (fun {c c'} hc hc' hp f hu hu' => hp (hu.perm h hl (hne c hc) (hne c' hc') hu')))
    (fun c hc => by obtain ⟨f, hf⟩ := h3 c hc; exact ⟨f, hmem f c hf, hf⟩)
  have hperm : gs.Perm fs := by
    refine (List.subperm_of_subset g1 g2).perm_of_length_le ?_
    rw [g3.length_eq, h2]
  have hat : ∀ (i f : Nat), fs[i]? = some f → ∃ c ∈ stdCycles vs, ∃ d, T.Side r fs i f d c := by
    intro i f hi
    obtain ⟨k, hk, rfl⟩ := List.getElem_of_mem (hperm.mem_iff.2 (List.mem_of_getElem? hi))
    have hk' : k < (stdCycles vs).length := by rw [← g3.length_eq]; exact hk
    have hc := List.getElem_mem hk'
    obtain ⟨d, hd⟩ := side_of_uses h hl hrf hi (hne _ hc) (g3.get hk hk')
    exact ⟨_, hc, d, hd⟩
  have eqc : ∀ c ∈ stdCycles vs, ∀ c' ∈ stdCycles vs, c.Perm c' → c = c' := by
    intro c hc c' hc' hp
    obtain ⟨i, hi, rfl⟩ := List.getElem_of_mem hc
    obtain ⟨j, hj, rfl⟩ := List.getElem_of_mem hc'
    rcases Nat.lt_trichotomy i j with hij | hij | hij
    · exact absurd hp (List.pairwise_iff_getElem.1 hdist i j hi hj hij)
    · subst hij; rfl
    · exact absurd hp.symm (List.pairwise_iff_getElem.1 hdist j i hj hi hij)
  refine ⟨fs, hrf, hn, h2, ?_, hat, ?_, ?_, ?_⟩
  · intro c hc
    obtain ⟨f, hf⟩ := h3 c hc
    obtain ⟨i, hi⟩ := List.mem_iff_getElem?.1 (hmem f c hf)
    obtain ⟨d, hd⟩ := side_of_uses h hl hrf hi (hne c hc) hf
    exact ⟨i, f, d, hd⟩
  · intro c hc i j f g d d' s s'
    have key : ∀ i f d, T.Side r fs i f d c → ∃ (k : Nat), gs[k]? = some f ∧ (stdCycles vs)[k]? = some c := by
      intro i f d s
      have u := s.uses h hr hrf (hne c hc)
      obtain ⟨k, hk, rfl⟩ := List.getElem_of_mem (hperm.mem_iff.2 (hmem f c u))
      have hk' : k < (stdCycles vs).length := by rw [← g3.length_eq]; exact hk
      have he := eqc _ (List.getElem_mem hk') c hc (Uses.perm h hl (hne _ (List.getElem_mem hk')) (hne c hc)
        (g3.get hk hk') u)
      exact ⟨k, List.getElem?_eq_getElem hk, by rw [List.getElem?_eq_getElem hk', he]⟩
    obtain ⟨k, a1, a2⟩ := key i f d s
    obtain ⟨k', b1, b2⟩ := key j g d' s'
    have hcn : (stdCycles vs).Nodup := by
      refine hdist.imp ?_
      intro a b hab he
      exact hab (he ▸ List.Perm.refl a)
    have hkk : k = k' := (List.getElem?_inj (List.getElem?_eq_some_iff.1 a2).1 hcn).1 (a2.trans b2.symm)
    subst hkk
    have hfg : f = g := by rw [a1] at b1; injection b1
    subst hfg
    exact (List.getElem?_inj (List.getElem?_eq_some_iff.1 s.pos).1 hn).1 (s.pos.trans s'.pos.symm)
  · intro c hc c' hc' i f g d d' s s'
    have hfg : f = g := by have := s.pos.symm.trans s'.pos; injection this
    subst hfg
    exact eqc c hc c' hc' (Uses.perm h hl (hne _ hc) (hne _ hc') (s.uses h hr hrf (hne _ hc))
      (s'.uses h hr hrf (hne _ hc')))
  · refine (hperm.symm.map _).trans ?_
    have : gs.map (fun f => ((T.fe f).getD []).length) = (stdCycles vs).map List.length := by
      apply List.ext_getElem
      · simp [g3.length_eq]
      · intro k hk hk'
        simp only [List.length_map] at hk hk'
        simp only [List.getElem_map]
        have u : T.Uses r gs[k] (stdCycles vs)[k] := g3.get hk hk'
        obtain ⟨i, hi⟩ := List.mem_iff_getElem?.1 (hmem _ _ u)
        obtain ⟨d, hd⟩ := side_of_uses h hl hrf hi (hne _ (List.getElem_mem hk')) u
        have hnum := hd.num
        obtain ⟨ws, w1, -⟩ := hd.loop
        obtain ⟨l, k1, -⟩ := w1.stored (alloc_of_live hd.live)
        unfold mfNumVertices at hnum
        rw [fedges_ok (alloc_of_live hd.live) k1, Res.bind_ok] at hnum
        rw [k1]
        injection hnum
    rw [this]

/-! ### symmetry -/

/-- The rotations of the standard elements, as lists of vertex numbers. -/
def rotations : Nat → List (List Nat)
  | 4 => [[0,1,2,3],[0,2,3,1],[0,3,1,2],[1,0,3,2],[1,2,0,3],[1,3,2,0],[2,0,1,3],[2,1,3,0],[2,3,0,1],[3,0,2,1],
      [3,1,0,2],[3,2,1,0]]
  | 5 => [[0,1,2,3,4],[1,2,3,0,4],[2,3,0,1,4],[3,0,1,2,4]]
  | 6 => [[0,1,2,3,4,5],[1,2,0,4,5,3],[2,0,1,5,3,4],[3,5,4,0,2,1],[4,3,5,1,0,2],[5,4,3,2,1,0]]
  | 8 => [[0,1,2,3,4,5,6,7],[0,3,7,4,1,2,6,5],[0,4,5,1,3,7,6,2],[1,0,4,5,2,3,7,6],[1,2,3,0,5,6,7,4],
      [1,5,6,2,0,4,7,3],[2,1,5,6,3,0,4,7],[2,3,0,1,6,7,4,5],[2,6,7,3,1,5,4,0],[3,0,1,2,7,4,5,6],[3,2,6,7,0,1,5,4],
      [3,7,4,0,2,6,5,1],[4,0,3,7,5,1,2,6],[4,5,1,0,7,6,2,3],[4,7,6,5,0,3,2,1],[5,1,0,4,6,2,3,7],[5,4,7,6,1,0,3,2],
      [5,6,2,1,4,7,3,0],[6,2,1,5,7,3,0,4],[6,5,4,7,2,1,0,3],[6,7,3,2,5,4,0,1],[7,3,2,6,4,0,1,5],[7,4,0,3,6,5,1,2],
      [7,6,5,4,3,2,1,0]]
  | _ => []

theorem stdCycles_map (g : Nat → Nat) (l : List Nat) : stdCycles (l.map g) = (stdCycles l).map (List.map g) := by
  match l with
  | [] => rfl
  | [_] => rfl
  | [_,_] => rfl
  | [_,_,_] => rfl
  | [_,_,_,_] => rfl
  | [_,_,_,_,_] => rfl
  | [_,_,_,_,_,_] => rfl
  | [_,_,_,_,_,_,_] => rfl
  | [_,_,_,_,_,_,_,_] => rfl
  | _::_::_::_::_::_::_::_::_::_ => rfl

/-- the number of vertices of the face an element is built on -/
def baseSize : Nat → Nat → Prop
  | 5, k => k = 4
  | 6, k => k = 3
  | _, _ => True

instance (n k : Nat) : Decidable (baseSize n k) := by
  unfold baseSize; split <;> infer_instance

theorem rotations_table : ∀ n ∈ [4,5,6,8], ∀ c ∈ stdCycles (List.range n), baseSize n c.length →
    ∀ k ∈ List.range c.length, ∃ s ∈ rotations n, s.take c.length = c.reverse.rotate k ∧
      s.length = n ∧ s.Perm (List.range n) ∧ ∀ c' ∈ stdCycles s, ∃ c'' ∈ stdCycles (List.range n),
        ∃ j ∈ List.range c''.length, c''.rotate j = c' := by
  decide +kernel

theorem Seen.rotate {T : Topo} {f : Nat} {d : Bool} {c c' : List Nat} (hf : T.sf f = .live) (hl : T.AllLoops)
    (hc : c ≠ []) (hr : c' ~r c) (hs : T.Seen f d c) : T.Seen f d c' := by
  obtain ⟨ws, hw, hn⟩ := hl f hf
  have hc' : c' ≠ [] := by rintro rfl; exact hc (List.eq_nil_of_length_eq_zero hr.perm.length_eq.symm)
  rw [seen_iff hf hw hn hc] at hs
  exact (seen_iff hf hw hn hc').2 (hr.trans hs)

theorem stdCycles_length {vs ws : List Nat} (h : vs.length = ws.length) :
    (stdCycles vs).length = (stdCycles ws).length := by
  have e1 := stdCycles_map (fun _ => 0) vs
  have e2 := stdCycles_map (fun _ => 0) ws
  rw [show vs.map (fun _ => 0) = ws.map (fun _ => 0) by simp [List.map_const', h]] at e1
  rw [e1] at e2
  simpa using congrArg List.length e2

/-- The numbering can be chosen to start with any of the faces seen from inside, from any of its
vertices. -/
theorem IsElement.turn {T : Topo} (h : T.Consistent) (hl : T.AllLoops) {r : Nat} {vs : List Nat}
    (el : T.IsElement r vs) {c x : List Nat} (hc : c ∈ stdCycles vs) (hb : baseSize vs.length c.length)
    (hx : x ~r c.reverse) : ∃ ws, T.IsElement r ws ∧ ws.Perm vs ∧ ws.take x.length = x := by
  have hg : vs = (List.range vs.length).map (fun i => vs.getD i 0) := (map_range_getD vs).symm
  generalize hgg : (fun i => vs.getD i 0) = g at hg
  have hlen4 : vs.length ∈ [4,5,6,8] := by
    have := el.size
    simp only [List.mem_cons, List.not_mem_nil, or_false]
    exact this
  generalize hnn : vs.length = n at *
  rw [hg, stdCycles_map] at hc
  obtain ⟨c0, hc0, rfl⟩ := List.mem_map.1 hc
  rw [List.length_map] at hb
  obtain ⟨k, hk⟩ := hx.symm
  rw [← List.map_reverse, ← List.map_rotate] at hk
  have hxl : x.length = c0.length := by rw [← hk]; simp
  have hc0pos : 0 < c0.length := by have := std_three _ hc0; omega
  obtain ⟨s, hs, s1, s2, s3, s4⟩ := rotations_table n hlen4 c0 hc0 hb (k % c0.length)
    (List.mem_range.2 (Nat.mod_lt _ hc0pos))
  have hperm : (s.map g).Perm vs := by rw [hg]; exact s3.map g
  refine ⟨s.map g, ⟨?_, hperm.nodup_iff.2 el.nodup, el.live, ?_⟩, hperm, ?_⟩
  · rw [List.length_map, s2, ← hnn]; exact el.size
  · obtain ⟨fs, f1, f2, f3⟩ := el.faces
    refine ⟨fs, f1, ?_, ?_⟩
    · rw [f2]; exact stdCycles_length (by rw [List.length_map, s2, hnn])
    · intro c' hc'
      rw [stdCycles_map] at hc'
      obtain ⟨q, hq, rfl⟩ := List.mem_map.1 hc'
      obtain ⟨q', hq', j, -, hj⟩ := s4 q hq
      have hm : q'.map g ∈ stdCycles vs := by rw [hg, stdCycles_map]; exact List.mem_map.2 ⟨q', hq', rfl⟩
      obtain ⟨f, hr, d, hd, hsn⟩ := f3 _ hm
      have hf : T.sf f = .live := h.fr.down r f d hr ((mrFaceDir_iff h hr).1 hd)
      refine ⟨f, hr, d, hd, hsn.rotate hf hl ?_ ?_⟩
      · rintro he; have := std_three _ hm; rw [he] at this; simp at this
      · rw [← hj, List.map_rotate]; exact List.IsRotated.forall _ _
  · rw [← List.map_take, hxl, s1, ← hk]
    congr 1
    rw [← List.length_reverse, List.rotate_mod]

/-- The face at a position as the base: a numbering that starts with its vertices seen from inside. -/
theorem IsElement.base {T : Topo} (h : T.Consistent) (hl : T.AllLoops) {r : Nat} {fs vs : List Nat}
    (el : T.IsElement r vs) (hfs : T.rf r = some fs) {i f n : Nat} (hi : fs[i]? = some f)
    (hn : T.mfNumVertices f = .ok n) (hb : baseSize vs.length n) :
    ∃ ws d es, T.IsElement r ws ∧ ws.Perm vs ∧ T.Elt r fs ws ∧ T.Side r fs i f d (ws.take n).reverse ∧
      T.mfVertices f (!d) none = .ok ((ws.take n).map some) ∧ T.mfEdges f (!d) none = .ok es ∧
      T.Together es (ws.take n) ∧ ∀ e, e ∈ es ↔ T.FaceHas f e := by
  obtain ⟨fs', e⟩ := el.elt h hl
  have : fs' = fs := by have := e.rf.symm.trans hfs; injection this
  subst this
  obtain ⟨c, hc, d, s⟩ := e.at_ i f hi
  have hnc : n = c.length := by have := hn.symm.trans s.num; injection this
  subst hnc
  obtain ⟨x, es, x1, x2, x3, x4, x5⟩ := s.plain (!d)
  have hx : x ~r c.reverse := by
    rw [show flipTo d (!d) c = c.reverse by unfold flipTo; cases d <;> rfl] at x1; exact x1
  obtain ⟨ws, w1, w2, w3⟩ := el.turn h hl hc hb hx
  have hlen : x.length = c.length := by rw [hx.perm.length_eq, List.length_reverse]
  rw [hlen] at w3
  obtain ⟨fs'', e'⟩ := w1.elt h hl
  have : fs'' = fs' := by have := e'.rf.symm.trans hfs; injection this
  subst this
  refine ⟨ws, d, es, w1, w2, e', s.rotate ?_, ?_, x3, ?_, x5⟩
  · rw [w3]
    have := hx.reverse
    rwa [List.reverse_reverse] at this
  · rw [w3]; exact x2
  · rw [w3]; exact x4

/-! ### the loops of `MR_Vertices` -/

theorem addFirstNew_one {rv : List (Option Nat)} {v : Option Nat} : ∀ {l : List (Option Nat)},
    (∀ x ∈ l, x ∈ rv ∨ x = v) → v ∈ l → v ∉ rv → addFirstNew rv l = rv ++ [v] := by
  intro l
  induction l with
  | nil => intro _ h _; cases h
  | cons x l ih =>
    intro h hv hn
    unfold addFirstNew
    by_cases hx : x ∈ rv
    · rw [if_pos hx]
      refine ih (fun y hy => h y (by simp [hy])) ?_ hn
      rcases List.mem_cons.1 hv with rfl | hv
      · exact absurd hx hn
      · exact hv
    · rw [if_neg hx]
      rcases h x (by simp) with h1 | h1
      · exact absurd h1 hx
      · rw [h1]

theorem entries3_map {l : List Nat} (h : l.length = 3) : entries3 (l.map some) = l.map some := by
  match l, h with
  | [a,b,c], _ => rfl

/-- the fourth (or fifth) vertex: the only vertex of another face that is not in the base -/
theorem apex_ok {T : Topo} {r i f : Nat} {fs c xs : List Nat} {d : Bool} {v : Nat} (s : T.Side r fs i f d c)
    (h3 : c.length = 3) (hc : ∀ x ∈ c, x ∈ xs ∨ x = v) (hv : v ∈ c) (hx : v ∉ xs) :
    ∃ l, T.mfVertices f true none = .ok l ∧ addFirstNew (xs.map some) (entries3 l) = (xs ++ [v]).map some := by
  obtain ⟨c', es, h1, h2, -⟩ := s.plain true
  have hp : c'.Perm c := h1.perm.trans flipTo_perm
  refine ⟨_, h2, ?_⟩
  rw [entries3_map (by rw [hp.length_eq]; exact h3), addFirstNew_one (v := some v)]
  · simp
  · intro y hy
    obtain ⟨z, hz, rfl⟩ := List.mem_map.1 hy
    rcases hc z (hp.mem_iff.1 hz) with h4 | h4
    · exact Or.inl (List.mem_map.2 ⟨z, h4, rfl⟩)
    · exact Or.inr (by rw [h4])
  · exact List.mem_map.2 ⟨v, hp.mem_iff.2 hv, rfl⟩
  · intro hm
    obtain ⟨z, hz, he⟩ := List.mem_map.1 hm
    injection he with he
    exact hx (he ▸ hz)

theorem sideAt_ok {T : Topo} {r i f : Nat} {fs c : List Nat} {d : Bool} (s : T.Side r fs i f d c) :
    T.sideAt r fs i = .ok (f, d) := by
  unfold sideAt
  rw [s.pos, Res.ofOption_some, Res.bind_ok, s.dir, Res.bind_ok]
  rfl

theorem tet_ok {T : Topo} (h : T.Consistent) (hl : T.AllLoops) {r : Nat} {fs vs : List Nat}
    (el : T.IsElement r vs) (hfs : T.rf r = some fs) (h4 : vs.length = 4) :
    ∃ ws, T.tetVertices r fs = .ok (ws.map some) ∧ T.IsElement r ws ∧ ws.Perm vs := by
  obtain ⟨fs', e⟩ := el.elt h hl
  have : fs' = fs := by have := e.rf.symm.trans hfs; injection this
  subst this
  have hlen : fs'.length = 4 := by
    rw [e.len]
    match vs, h4 with
    | [a,b,c,d], _ => rfl
  have h0 := List.getElem?_eq_getElem (l := fs') (i := 0) (by omega)
  obtain ⟨c0, hc0, d0, s0⟩ := e.at_ 0 _ h0
  have hc3 : c0.length = 3 := std_len4 h4 c0 hc0
  obtain ⟨ws, d, es, w1, w2, e', s, v1, -⟩ := el.base h hl hfs h0 s0.num (by rw [h4]; trivial)
  rw [hc3] at s v1
  have hw4 : ws.length = 4 := by rw [w2.length_eq, h4]
  match ws, hw4 with
  | [a,b,c,x], _ =>
    refine ⟨_, ?_, w1, w2⟩
    simp only [List.take, List.reverse_cons, List.reverse_nil, List.nil_append, List.cons_append] at s v1
    have hn := w1.nodup
    have h1 := List.getElem?_eq_getElem (l := fs') (i := 1) (by omega)
    obtain ⟨c1, hc1, d1, s1⟩ := e'.at_ 1 _ h1
    have hne : c1 ≠ [a,c,b] := by
      rintro rfl
      have := e'.uniq [a,c,b] hc1 0 1 _ _ _ _ (s.rotate (c' := [a,c,b]) ⟨1, rfl⟩) s1
      omega
    have key : c1.length = 3 ∧ (∀ y ∈ c1, y ∈ [a,b,c] ∨ y = x) ∧ x ∈ c1 := by
      simp only [stdCycles, List.mem_cons, List.not_mem_nil, or_false] at hc1
      rcases hc1 with rfl | rfl | rfl | rfl
      · exact absurd rfl hne
      all_goals simp
    obtain ⟨l, l1, l2⟩ := apex_ok s1 key.1 key.2.1 key.2.2 (by
      intro hm
      simp only [List.nodup_cons, List.mem_cons, List.not_mem_nil, or_false, not_or] at hn hm
      rcases hm with rfl | rfl | rfl <;> simp_all)
    unfold tetVertices
    rw [sideAt_ok s, Res.bind_ok]
    dsimp only
    rw [v1, Res.bind_ok, h1, Res.ofOption_some, Res.bind_ok, l1, Res.bind_ok, l2]
    rfl

/-- What the search for triangles and quadrilaterals finds in a standard element. -/
theorem Elt.found {T : Topo} {r : Nat} {fs vs : List Nat} (e : T.Elt r fs vs) :
    ∃ s, T.findFaces fs 0 noneFound = .ok s ∧ s.ntris = ((stdCycles vs).map List.length).count 3 ∧
      s.nquads = ((stdCycles vs).map List.length).count 4 ∧
      (1 ≤ s.ntris → ∃ i f, s.tri0 = some i ∧ fs[i]? = some f ∧ T.mfNumVertices f = .ok 3) ∧
      (2 ≤ s.ntris → ∃ i f, s.tri1 = some i ∧ fs[i]? = some f ∧ T.mfNumVertices f = .ok 3 ∧ s.tri0 ≠ some i) ∧
      (1 ≤ s.nquads → ∃ i f, s.quad0 = some i ∧ fs[i]? = some f ∧ T.mfNumVertices f = .ok 4) := by
  have hnum : ∀ f ∈ fs, T.mfNumVertices f = .ok ((T.fe f).getD []).length := by
    intro f hf
    obtain ⟨i, hi⟩ := List.mem_iff_getElem?.1 hf
    obtain ⟨c, -, d, s⟩ := e.at_ i f hi
    obtain ⟨ws, w1, -⟩ := s.loop
    obtain ⟨l, k1, -⟩ := w1.stored (alloc_of_live s.live)
    unfold mfNumVertices
    rw [fedges_ok (alloc_of_live s.live) k1, Res.bind_ok, k1]
    rfl
  have ok := foundIn_all (fs.map fun f => ((T.fe f).getD []).length)
  generalize hs : foundIn (fs.map fun f => ((T.fe f).getD []).length) 0 noneFound = s at ok
  have get : ∀ {k m : Nat}, (fs.map fun f => ((T.fe f).getD []).length)[k]? = some m →
      ∃ f, fs[k]? = some f ∧ T.mfNumVertices f = .ok m := by
    intro k m hk
    rw [List.getElem?_map, Option.map_eq_some_iff] at hk
    obtain ⟨f, h1, h2⟩ := hk
    exact ⟨f, h1, by rw [hnum f (List.mem_of_getElem? h1), h2]⟩
  refine ⟨s, by rw [findFaces_ok hnum, hs], by rw [ok.ntris]; exact e.sizes.count_eq _,
    by rw [ok.nquads]; exact e.sizes.count_eq _, ?_, ?_, ?_⟩
  · intro h1
    cases ht : s.tri0 with
    | none => have := ok.tri0n ht; rw [← ok.ntris] at this; omega
    | some k =>
      obtain ⟨f, h2, h3⟩ := get (ok.tri0 k ht)
      exact ⟨k, f, rfl, h2, h3⟩
  · intro h1
    cases ht : s.tri1 with
    | none => have := ok.tri1n ht; rw [← ok.ntris] at this; omega
    | some k =>
      obtain ⟨f, h2, h3⟩ := get (ok.tri1 k ht).1
      exact ⟨k, f, rfl, h2, h3, (ok.tri1 k ht).2.1⟩
  · intro h1
    cases ht : s.quad0 with
    | none => have := ok.quad0n ht; rw [← ok.nquads] at this; omega
    | some k =>
      obtain ⟨f, h2, h3⟩ := get (ok.quad0 k ht)
      exact ⟨k, f, rfl, h2, h3⟩

theorem sideOf_ok {T : Topo} {r i f : Nat} {fs c : List Nat} {d : Bool} (s : T.Side r fs i f d c) :
    T.sideOf r fs (some i) = .ok (f, d) := by
  unfold sideOf
  rw [Res.ofOption_some, Res.bind_ok]
  exact sideAt_ok s

theorem pyramid_ok {T : Topo} (h : T.Consistent) (hl : T.AllLoops) {r : Nat} {fs vs : List Nat}
    (el : T.IsElement r vs) (hfs : T.rf r = some fs) (h5 : vs.length = 5) :
    ∃ ws, T.pyramidVertices r fs = .ok (ws.map some) ∧ T.IsElement r ws ∧ ws.Perm vs := by
  obtain ⟨fs', e⟩ := el.elt h hl
  have : fs' = fs := by have := e.rf.symm.trans hfs; injection this
  subst this
  obtain ⟨st, r1, nt, nq, ft, -, fq⟩ := e.found
  have counts : st.ntris = 4 ∧ st.nquads = 1 := by
    rw [nt, nq]
    match vs, h5 with
    | [a,b,c,d,x], _ => exact ⟨rfl, rfl⟩
  obtain ⟨i, f, q1, q2, q3⟩ := fq (by omega)
  obtain ⟨j, g, t1, t2, t3⟩ := ft (by omega)
  obtain ⟨ws, d, es, w1, w2, e', s, v1, -⟩ := el.base h hl hfs q2 q3 (by rw [h5]; rfl)
  have hw5 : ws.length = 5 := by rw [w2.length_eq, h5]
  match ws, hw5 with
  | [a,b,c,x,y], _ =>
    refine ⟨_, ?_, w1, w2⟩
    simp only [List.take] at v1
    have hn := w1.nodup
    obtain ⟨c1, hc1, d1, s1⟩ := e'.at_ j _ t2
    have h3 : c1.length = 3 := by have := s1.num.symm.trans t3; injection this
    have key : (∀ z ∈ c1, z ∈ [a,b,c,x] ∨ z = y) ∧ y ∈ c1 := by
      simp only [stdCycles, List.mem_cons, List.not_mem_nil, or_false] at hc1
      rcases hc1 with rfl | rfl | rfl | rfl | rfl
      · simp at h3
      all_goals simp
    obtain ⟨l, l1, l2⟩ := apex_ok s1 h3 key.1 key.2 (by
      intro hm
      simp only [List.nodup_cons, List.mem_cons, List.not_mem_nil, or_false, not_or] at hn hm
      rcases hm with rfl | rfl | rfl | rfl <;> simp_all)
    unfold pyramidVertices
    rw [r1, Res.bind_ok, q1, sideOf_ok s, Res.bind_ok]
    dsimp only
    rw [v1, Res.bind_ok, t1, Res.ofOption_some, Res.bind_ok, t2, Res.ofOption_some, Res.bind_ok, l1, Res.bind_ok, l2]
    rfl

/-- An edge of the element is found between its two vertices. -/
theorem Elt.joined {T : Topo} (h : T.Consistent) {r : Nat} {fs vs c : List Nat} (e : T.Elt r fs vs)
    (hc : c ∈ stdCycles vs) {x y : Nat} (hxy : (x, y) ∈ nextPairs c ∨ (y, x) ∈ nextPairs c) :
    ∃ e0, T.commonEdgeE (some x) (some y) = .ok (some e0) ∧ T.Between e0 x y := by
  obtain ⟨i, f, d, s⟩ := e.find c hc
  have hb : ∃ e0, T.Between e0 x y := by
    rcases hxy with hN | hN
    · exact s.edge h (mem_nextPairs.1 hN)
    · obtain ⟨e0, h1, h2⟩ := s.edge h (mem_nextPairs.1 hN)
      exact ⟨e0, h2, h1⟩
  have hm : x ∈ c := by
    rcases hxy with hN | hN
    · exact (List.of_mem_zip hN).1
    · exact List.mem_rotate.1 (List.of_mem_zip hN).2
  obtain ⟨o, h1, h2, h3⟩ := common_joins h (y := y) (s.vlive h hm)
  obtain ⟨e0, he0⟩ := hb
  cases o with
  | none => exact absurd he0 (h3 rfl e0)
  | some e1 => exact ⟨e1, h1, h2 e1 rfl⟩

/-- No edge is found between two vertices that are not neighbours on any face. -/
theorem Elt.apart {T : Topo} (h : T.Consistent) (hs : T.SimpleEdges) {r : Nat} {fs vs : List Nat}
    (e : T.Elt r fs vs) (hno : T.NoChord r vs) {x y : Nat} (hx : x ∈ vs) (hy : y ∈ vs) (hxy : x ≠ y)
    (hxl : T.sv x = .live) (hc : ∀ c ∈ stdCycles vs, (x, y) ∉ nextPairs c ∧ (y, x) ∉ nextPairs c) :
    T.commonEdgeE (some x) (some y) = .ok none := by
  obtain ⟨o, h1, h2, h3⟩ := common_joins h (y := y) hxl
  cases o with
  | none => exact h1
  | some e0 =>
    exfalso
    have hb := h2 e0 rfl
    obtain ⟨f, ⟨hr, d, hd⟩, hf⟩ := hno e0 x y hx hy hxy hb.1 hb.2
    have hm := mem_facesOf_iff.2 ⟨d, (mrFaceDir_iff h hr).1 hd⟩
    rw [e.rf] at hm
    obtain ⟨i, hi⟩ := List.mem_iff_getElem?.1 hm
    obtain ⟨c, hcm, d', s⟩ := e.at_ i f hi
    have h3 := std_three c hcm
    obtain ⟨a, b, hN, ha, hb'⟩ := (s.faceHas h hs (by omega)).1 hf
    have hab := hN.ne s.nodup (by omega)
    have := hc c hcm
    rw [mem_nextPairs, mem_nextPairs] at this
    rcases edgeHas_two hxy hb ha with rfl | rfl <;> rcases edgeHas_two hxy hb hb' with rfl | rfl
    · exact hab rfl
    · exact this.1 hN
    · exact this.2 hN
    · exact hab rfl

theorem NoChord.perm {T : Topo} {r : Nat} {vs ws : List Nat} (hno : T.NoChord r vs) (hp : ws.Perm vs) :
    T.NoChord r ws :=
  fun e x y hx hy hxy h1 h2 => hno e x y (hp.mem_iff.1 hx) (hp.mem_iff.1 hy) hxy h1 h2

theorem findJoined_skip {T : Topo} {v0 : Option Nat} {fv : List (Option Nat)} {n i : Nat}
    (h : T.commonEdgeE v0 (entry fv i) = .ok none) : T.findJoined v0 fv (n+1) i = T.findJoined v0 fv n (i+1) := by
  rw [show T.findJoined v0 fv (n+1) i = (T.commonEdgeE v0 (entry fv i) >>= fun o => match o with
    | some e => pure (some (i, e))
    | none => T.findJoined v0 fv n (i+1)) from rfl, h]
  rfl

theorem findJoined_here {T : Topo} {v0 : Option Nat} {fv : List (Option Nat)} {n i e : Nat}
    (h : T.commonEdgeE v0 (entry fv i) = .ok (some e)) : T.findJoined v0 fv (n+1) i = .ok (some (i, e)) := by
  rw [show T.findJoined v0 fv (n+1) i = (T.commonEdgeE v0 (entry fv i) >>= fun o => match o with
    | some e => pure (some (i, e))
    | none => T.findJoined v0 fv n (i+1)) from rfl, h]
  rfl

theorem prism_ok {T : Topo} (h : T.Consistent) (hl : T.AllLoops) (hs : T.SimpleEdges) {r : Nat} {fs vs : List Nat}
    (el : T.IsElement r vs) (hfs : T.rf r = some fs) (h6 : vs.length = 6) (hno : T.NoChord r vs) :
    ∃ ws, T.prismVertices r fs = .ok (ws.map some) ∧ T.IsElement r ws ∧ ws.Perm vs := by
  obtain ⟨fs', e⟩ := el.elt h hl
  have : fs' = fs := by have := e.rf.symm.trans hfs; injection this
  subst this
  obtain ⟨st, r1, nt, nq, ft, ft1, -⟩ := e.found
  have counts : st.ntris = 2 := by
    rw [nt]
    match vs, h6 with
    | [a,b,c,d,x,y], _ => rfl
  obtain ⟨i, f, q1, q2, q3⟩ := ft (by omega)
  obtain ⟨j, g, t1, t2, t3, hij⟩ := ft1 (by omega)
  obtain ⟨ws, d, es, w1, w2, e', s, v1, -⟩ := el.base h hl hfs q2 q3 (by rw [h6]; rfl)
  have hno := hno.perm w2
  have hw6 : ws.length = 6 := by rw [w2.length_eq, h6]
  match ws, hw6 with
  | [a,b,c,x,y,z], _ =>
    refine ⟨_, ?_, w1, w2⟩
    simp only [List.take, List.reverse_cons, List.reverse_nil, List.nil_append, List.cons_append] at v1 s
    have hn := w1.nodup
    simp only [List.nodup_cons, List.mem_cons, List.not_mem_nil, or_false, not_or, List.nodup_nil, and_true,
      not_false_eq_true] at hn
    obtain ⟨c1, hc1, d1, s1⟩ := e'.at_ j _ t2
    have h3 : c1.length = 3 := by have := s1.num.symm.trans t3; injection this
    have hc1e : c1 = [x,y,z] := by
      have hm := hc1
      simp only [stdCycles, List.mem_cons, List.not_mem_nil, or_false] at hm
      rcases hm with rfl | rfl | rfl | rfl | rfl
      · have := e'.uniq _ hc1 i j _ _ _ _ (s.rotate ⟨1, rfl⟩) s1
        exact absurd (this ▸ q1) hij
      · rfl
      all_goals simp at h3
    subst hc1e
    have hal : T.sv a = .live := s.vlive h (by simp)
    have jx := e'.joined h (c := [a,b,y,x]) (by simp [stdCycles]) (x := a) (y := x) (by simp [nextPairs])
    have ny : T.commonEdgeE (some a) (some y) = .ok none := e'.apart h hs hno (by simp) (by simp) (by simp [hn]) hal
      (by simp only [stdCycles, List.forall_mem_cons]; simp [nextPairs]; grind)
    have nz : T.commonEdgeE (some a) (some z) = .ok none := e'.apart h hs hno (by simp) (by simp) (by simp [hn]) hal
      (by simp only [stdCycles, List.forall_mem_cons]; simp [nextPairs]; grind)
    obtain ⟨l, es', l1, l2, -⟩ := s1.plain d1
    rw [flipTo_self] at l1
    obtain ⟨e0, j1, -⟩ := jx
    unfold prismVertices
    rw [r1, Res.bind_ok, q1, sideOf_ok s, Res.bind_ok]
    dsimp only
    rw [v1, Res.bind_ok, t1, sideOf_ok s1, Res.bind_ok]
    dsimp only
    rw [l2, Res.bind_ok]
    rcases rotated3 l1 with rfl | rfl | rfl
    · rw [findJoined_here (e := e0) (by exact j1), Res.bind_ok]; rfl
    · rw [findJoined_skip (by exact ny), findJoined_skip (by exact nz), findJoined_here (e := e0) (by exact j1),
        Res.bind_ok]; rfl
    · rw [findJoined_skip (by exact nz), findJoined_here (e := e0) (by exact j1), Res.bind_ok]; rfl

theorem hexFaces_ok {T : Topo} {r : Nat} {es : List Nat} {A O : Nat × Bool} : ∀ (rest : List Nat) (i : Nat)
    (opp adj : Option (Nat × Bool)),
    (∀ (k f : Nat), rest[k]? = some f → ∃ d o, T.mrFaceDir_i r (i+k) = .ok d ∧ T.firstUsed f (es.take 4) 0 = .ok o ∧
      (o = none → (f, d) = O) ∧ (∀ j, o = some j → es[j]? = es[0]? → (f, d) = A)) →
    (opp = none ∨ opp = some O) → (adj = none ∨ adj = some A) →
    (opp = some O ∨ ∃ f ∈ rest, T.firstUsed f (es.take 4) 0 = .ok none) →
    (adj = some A ∨ ∃ f ∈ rest, T.firstUsed f (es.take 4) 0 = .ok (some 0)) →
    T.hexFaces r es rest i opp adj = .ok (some O, some A) := by
  intro rest
  induction rest with
  | nil =>
    intro i opp adj _ _ _ h3 h4
    rcases h3 with rfl | ⟨f, hf, -⟩
    · rcases h4 with rfl | ⟨f, hf, -⟩
      · rfl
      · cases hf
    · cases hf
  | cons f rest ih =>
    intro i opp adj h0 h1 h2 h3 h4
    obtain ⟨d, o, k1, k2, k3, k4⟩ := h0 0 f rfl
    have h0' : ∀ (k g : Nat), rest[k]? = some g → ∃ d o, T.mrFaceDir_i r (i+1+k) = .ok d ∧
        T.firstUsed g (es.take 4) 0 = .ok o ∧ (o = none → (g, d) = O) ∧
        (∀ j, o = some j → es[j]? = es[0]? → (g, d) = A) := by
      intro k g hk
      have := h0 (k+1) g (by simpa using hk)
      rwa [show i + (k+1) = i + 1 + k by omega] at this
    rw [Nat.add_zero] at k1
    unfold hexFaces
    rw [k1, Res.bind_ok, k2, Res.bind_ok]
    cases o with
    | none =>
      dsimp only
      have hO := k3 rfl
      have h4' : adj = some A ∨ ∃ g ∈ rest, T.firstUsed g (es.take 4) 0 = .ok (some 0) := by
        rcases h4 with h4 | ⟨g, hg, h4⟩
        · exact Or.inl h4
        · rcases List.mem_cons.1 hg with rfl | hg
          · rw [k2] at h4; cases h4
          · exact Or.inr ⟨g, hg, h4⟩
      by_cases ha : adj.isSome = true
      · rw [if_pos ha, hO]
        rcases h2 with h2 | h2
        · rw [h2] at ha; cases ha
        · rw [h2]; rfl
      · rw [if_neg ha, hO]
        exact ih (i+1) _ _ h0' (Or.inr rfl) h2 (Or.inl rfl) h4'
    | some j =>
      dsimp only
      have h3' : opp = some O ∨ ∃ g ∈ rest, T.firstUsed g (es.take 4) 0 = .ok none := by
        rcases h3 with h3 | ⟨g, hg, h3⟩
        · exact Or.inl h3
        · rcases List.mem_cons.1 hg with rfl | hg
          · rw [k2] at h3; cases h3
          · exact Or.inr ⟨g, hg, h3⟩
      generalize hadj : (if es[j]? = es[0]? then some (f, d) else adj) = adj'
      have h2' : adj' = none ∨ adj' = some A := by
        by_cases hj : es[j]? = es[0]?
        · rw [if_pos hj] at hadj
          right; rw [← hadj, k4 j rfl hj]
        · rw [if_neg hj] at hadj
          rw [← hadj]; exact h2
      have h4' : adj' = some A ∨ ∃ g ∈ rest, T.firstUsed g (es.take 4) 0 = .ok (some 0) := by
        by_cases hj : es[j]? = es[0]?
        · rw [if_pos hj] at hadj
          left; rw [← hadj, k4 j rfl hj]
        · rw [if_neg hj] at hadj
          rw [← hadj]
          rcases h4 with h4 | ⟨g, hg, h4⟩
          · exact Or.inl h4
          · rcases List.mem_cons.1 hg with rfl | hg
            · rw [k2] at h4
              injection h4 with h4
              injection h4 with h4
              rw [h4] at hj; exact absurd rfl hj
            · exact Or.inr ⟨g, hg, h4⟩
      by_cases hb : (opp.isSome && adj'.isSome) = true
      · rw [if_pos hb]
        rw [Bool.and_eq_true] at hb
        rcases h1 with h1 | h1
        · rw [h1] at hb; simp at hb
        · rcases h2' with h2' | h2'
          · rw [h2'] at hb; simp at hb
          · rw [h1, h2']; rfl
      · rw [if_neg hb]
        exact ih (i+1) _ _ h0' h1 h2' h3' h4'

/-- which of the four edges of the base another face uses -/
theorem firstUsed_four {T : Topo} (h : T.Consistent) (hs : T.SimpleEdges) {r i f : Nat} {fs q : List Nat} {dd : Bool}
    (s : T.Side r fs i f dd q) (h2 : 2 ≤ q.length) {a b c d e0 e1 e2 e3 : Nat} (hab : a ≠ b) (hbc : b ≠ c)
    (hcd : c ≠ d) (hda : d ≠ a) (b0 : T.Between e0 a b) (b1 : T.Between e1 b c) (b2 : T.Between e2 c d)
    (b3 : T.Between e3 d a) : T.firstUsed f [e0,e1,e2,e3] 0 = .ok (
      if (a, b) ∈ nextPairs q ∨ (b, a) ∈ nextPairs q then some 0
      else if (b, c) ∈ nextPairs q ∨ (c, b) ∈ nextPairs q then some 1
      else if (c, d) ∈ nextPairs q ∨ (d, c) ∈ nextPairs q then some 2
      else if (d, a) ∈ nextPairs q ∨ (a, d) ∈ nextPairs q then some 3 else none) := by
  unfold firstUsed
  rw [s.usesEdge h hs h2 hab b0, Res.bind_ok]
  split
  · rename_i hc; rw [if_pos (by simpa using hc)]; rfl
  rename_i hc; rw [if_neg (by simpa using hc)]
  unfold firstUsed
  rw [s.usesEdge h hs h2 hbc b1, Res.bind_ok]
  split
  · rename_i hc; rw [if_pos (by simpa using hc)]; rfl
  rename_i hc; rw [if_neg (by simpa using hc)]
  unfold firstUsed
  rw [s.usesEdge h hs h2 hcd b2, Res.bind_ok]
  split
  · rename_i hc; rw [if_pos (by simpa using hc)]; rfl
  rename_i hc; rw [if_neg (by simpa using hc)]
  unfold firstUsed
  rw [s.usesEdge h hs h2 hda b3, Res.bind_ok]
  split
  · rename_i hc; rw [if_pos (by simpa using hc)]; rfl
  rename_i hc; rw [if_neg (by simpa using hc)]
  rfl

theorem chain_none {P Q R S : Prop} [Decidable P] [Decidable Q] [Decidable R] [Decidable S]
    (h : (if P then some 0 else if Q then some 1 else if R then some 2 else if S then some 3 else none) =
      (none : Option Nat)) : ¬ P ∧ ¬ Q ∧ ¬ R ∧ ¬ S := by
  split_ifs at h; simp [*]

theorem together_four {T : Topo} {es : List Nat} {a b c d : Nat} (h : T.Together es [a,b,c,d])
    (hl : ∀ e ∈ es, T.se e = .live) : ∃ e0 e1 e2 e3, es = [e0,e1,e2,e3] ∧ T.Between e0 a b ∧ T.Between e1 b c ∧
      T.Between e2 c d ∧ T.Between e3 d a := by
  have hlen := h.1
  match es, hlen with
  | [e0,e1,e2,e3], _ =>
    exact ⟨e0, e1, e2, e3, rfl, h.joins hl (i := 0) rfl rfl rfl, h.joins hl (i := 1) rfl rfl rfl,
      h.joins hl (i := 2) rfl rfl rfl, h.joins hl (i := 3) rfl rfl (by simp)⟩

theorem faceHas_live {T : Topo} (h : T.Consistent) {f e : Nat} (hf : T.FaceHas f e) : T.se e = .live := by
  obtain ⟨h1, l, h2, h3⟩ := hf
  cases hfe : T.fe f with
  | none => exact absurd h2 (mfEdges_none hfe _ _ _)
  | some l' =>
    rw [mfEdges_plain (alloc_of_live h1) hfe] at h2
    injection h2 with h2
    exact h.fedgesLive h1 hfe e (h2 ▸ h3)

theorem Side.unique {T : Topo} {r i f g : Nat} {fs c c' : List Nat} {d d' : Bool} (s : T.Side r fs i f d c)
    (s' : T.Side r fs i g d' c') : (f, d) = (g, d') := by
  have h1 := s.pos.symm.trans s'.pos
  have h2 := s.dir.symm.trans s'.dir
  injection h1 with h1
  injection h2 with h2
  rw [h1, h2]

theorem hex_ok {T : Topo} (h : T.Consistent) (hl : T.AllLoops) (hs : T.SimpleEdges) {r : Nat} {fs vs : List Nat}
    (el : T.IsElement r vs) (hfs : T.rf r = some fs) (h8 : vs.length = 8) :
    ∃ ws, T.hexVertices r fs = .ok (some (ws.map some)) ∧ T.IsElement r ws ∧ ws.Perm vs := by
  obtain ⟨fs', e⟩ := el.elt h hl
  have : fs' = fs := by have := e.rf.symm.trans hfs; injection this
  subst this
  have hlen : fs'.length = 6 := by
    rw [e.len]
    match vs, h8 with
    | [a,b,c,d,p,q,u,w], _ => rfl
  have h0 := List.getElem?_eq_getElem (l := fs') (i := 0) (by omega)
  obtain ⟨c0, hc0, d0, s0⟩ := e.at_ 0 _ h0
  have hc4 : c0.length = 4 := std_len8 h8 c0 hc0
  obtain ⟨ws, d0', es0, w1, w2, e', s, v1, -⟩ := el.base h hl hfs h0 s0.num (by rw [h8]; trivial)
  rw [hc4] at s v1
  have hw8 : ws.length = 8 := by rw [w2.length_eq, h8]
  generalize fs'[0] = f0 at *
  match ws, hw8 with
  | [a,b,c,d,p,q,u,w], _ =>
    refine ⟨_, ?_, w1, w2⟩
    simp only [List.take, List.reverse_cons, List.reverse_nil, List.nil_append, List.cons_append] at s v1
    have hn := w1.nodup
    simp only [List.nodup_cons, List.mem_cons, List.not_mem_nil, or_false, not_or, List.nodup_nil, and_true,
      not_false_eq_true] at hn
    -- the edges of face 0
    obtain ⟨es, -, m2, m3, m4⟩ := s.from (b := !d0') (c' := [a,b,c,d]) (v := a) (by rw [flipTo_not]; exact List.IsRotated.refl _) rfl
    obtain ⟨e0, e1, e2, e3, rfl, b0, b1, b2, b3⟩ := together_four m3 (fun e he => faceHas_live h ((m4 e).1 he))
    have hab : a ≠ b := by simp [hn]
    have hbc : b ≠ c := by simp [hn]
    have hcd : c ≠ d := by simp [hn]
    have hda : d ≠ a := Ne.symm (by simp [hn])
    have used := fun {i f : Nat} {x : List Nat} {dd : Bool} (s' : T.Side r fs' i f dd x) (h2 : 2 ≤ x.length) =>
      firstUsed_four h hs s' h2 hab hbc hcd hda b0 b1 b2 b3
    -- the opposite face and the face at edge 0
    obtain ⟨iO, fO, dO, sO⟩ := e'.find [p,q,u,w] (by simp [stdCycles])
    obtain ⟨iA, fA, dA, sA⟩ := e'.find [a,b,q,p] (by simp [stdCycles])
    have uO : T.firstUsed fO [e0,e1,e2,e3] 0 = .ok none := by
      rw [used sO (by simp)]
      have : nextPairs [p,q,u,w] = [(p,q),(q,u),(u,w),(w,p)] := rfl
      simp [this, hn]
    have uA : T.firstUsed fA [e0,e1,e2,e3] 0 = .ok (some 0) := by
      rw [used sA (by simp)]
      have : nextPairs [a,b,q,p] = [(a,b),(b,q),(q,p),(p,a)] := rfl
      simp [this]
    have e01 : e1 ≠ e0 := by
      rintro rfl
      rcases edgeHas_two hab b0 b1.2 with rfl | rfl <;> simp at hn
    have e02 : e2 ≠ e0 := by
      rintro rfl
      rcases edgeHas_two hab b0 b2.1 with rfl | rfl <;> simp at hn
    have e03 : e3 ≠ e0 := by
      rintro rfl
      rcases edgeHas_two hab b0 b3.1 with rfl | rfl <;> simp at hn
    have pos : ∀ {i f : Nat} {x : List Nat} {dd : Bool}, T.Side r fs' i f dd x → i ≠ 0 → f ∈ fs'.drop 1 := by
      intro i f x dd s' hi
      rw [List.mem_iff_getElem?]
      refine ⟨i - 1, ?_⟩
      rw [List.getElem?_drop, show 1 + (i - 1) = i by omega]
      exact s'.pos
    have base : T.Side r fs' 0 f0 d0' [a,d,c,b] := s.rotate ⟨1, rfl⟩
    have iO0 : iO ≠ 0 := by
      rintro rfl
      have := e'.same [p,q,u,w] (by simp [stdCycles]) [a,d,c,b] (by simp [stdCycles]) 0 _ _ _ _ sO base
      simp at this
      simp [this] at hn
    have iA0 : iA ≠ 0 := by
      rintro rfl
      have := e'.same [a,b,q,p] (by simp [stdCycles]) [a,d,c,b] (by simp [stdCycles]) 0 _ _ _ _ sA base
      simp at this
      simp [this] at hn
    have hfound : T.hexFaces r [e0,e1,e2,e3] (fs'.drop 1) 1 none none = .ok (some (fO, dO), some (fA, dA)) := by
      refine hexFaces_ok _ _ _ _ ?_ (Or.inl rfl) (Or.inl rfl) (Or.inr ⟨fO, pos sO iO0, uO⟩) (Or.inr ⟨fA, pos sA iA0, uA⟩)
      intro k f hk
      rw [List.getElem?_drop] at hk
      obtain ⟨x, hx, dd, s'⟩ := e'.at_ _ _ hk
      have h4 := std_len8 (by simp) x hx
      refine ⟨dd, _, s'.dir, used s' (by omega), ?_, ?_⟩
      · intro hnone
        obtain ⟨z0, z1, z2, z3⟩ := chain_none hnone
        have hx' := hx
        simp only [stdCycles, List.mem_cons, List.not_mem_nil, or_false] at hx'
        rcases hx' with rfl | rfl | rfl | rfl | rfl | rfl
        · exact absurd (Or.inr (by simp [nextPairs])) z0
        · have := e'.uniq _ hx _ _ _ _ _ _ s' sO
          subst this
          exact s'.unique sO
        · exact absurd (Or.inl (by simp [nextPairs])) z0
        · exact absurd (Or.inl (by simp [nextPairs])) z1
        · exact absurd (Or.inl (by simp [nextPairs])) z2
        · exact absurd (Or.inl (by simp [nextPairs])) z3
      · intro j hj hej
        have hx' := hx
        simp only [stdCycles, List.mem_cons, List.not_mem_nil, or_false] at hx'
        have no : ∀ m, j = m → m ≠ 0 → m < 4 → False := by
          intro m hm hm0 hm4
          subst hm
          match j, hm0, hm4, hej with
          | 1, _, _, hej => exact e01 (by simpa using hej)
          | 2, _, _, hej => exact e02 (by simpa using hej)
          | 3, _, _, hej => exact e03 (by simpa using hej)
        rcases hx' with rfl | rfl | rfl | rfl | rfl | rfl
        · have := e'.uniq _ hx _ _ _ _ _ _ s' base
          omega
        · rw [if_neg (by simp [nextPairs]; grind), if_neg (by simp [nextPairs]; grind),
            if_neg (by simp [nextPairs]; grind), if_neg (by simp [nextPairs]; grind)] at hj
          cases hj
        · have := e'.uniq _ hx _ _ _ _ _ _ s' sA
          subst this
          exact s'.unique sA
        · rw [if_neg (by simp [nextPairs]; grind), if_pos (by simp [nextPairs])] at hj
          injection hj with hj
          exact (no 1 hj.symm (by omega) (by omega)).elim
        · rw [if_neg (by simp [nextPairs]; grind), if_neg (by simp [nextPairs]; grind),
            if_pos (by simp [nextPairs])] at hj
          injection hj with hj
          exact (no 2 hj.symm (by omega) (by omega)).elim
        · rw [if_neg (by simp [nextPairs]; grind), if_neg (by simp [nextPairs]; grind),
            if_neg (by simp [nextPairs]; grind), if_pos (by simp [nextPairs])] at hj
          injection hj with hj
          exact (no 3 hj.symm (by omega) (by omega)).elim
    -- the edge up from vertex 0
    have hap : a ≠ p := by simp [hn]
    have hup : ∃ ae up, T.mfEdges fA true (some a) = .ok ae ∧ (if dA = true then ae[3]? else ae[0]?) = some up ∧
        T.Between up a p := by
      cases dA with
      | true =>
        obtain ⟨ae, -, a2, a3, a4⟩ := sA.from (b := true) (c' := [a,b,q,p]) (v := a) (by rw [flipTo_self]) rfl
        obtain ⟨x0, x1, x2, x3, rfl, -, -, -, y3⟩ := together_four a3 (fun e he => faceHas_live h ((a4 e).1 he))
        exact ⟨_, x3, a2, rfl, y3.2, y3.1⟩
      | false =>
        obtain ⟨ae, -, a2, a3, a4⟩ := sA.from (b := true) (c' := [a,p,q,b]) (v := a)
          (by rw [show flipTo false true [a,b,q,p] = [p,q,b,a] from rfl]; exact ⟨1, rfl⟩) rfl
        obtain ⟨x0, x1, x2, x3, rfl, y0, -⟩ := together_four a3 (fun e he => faceHas_live h ((a4 e).1 he))
        exact ⟨_, x0, a2, rfl, y0⟩
    obtain ⟨ae, up, a1, a2, a3⟩ := hup
    obtain ⟨x, y, z1, z2, z3⟩ := a3.other hap
    obtain ⟨-, t1, -⟩ := sO.from (b := dO) (c' := [p,q,u,w]) (v := p) (by rw [flipTo_self]) rfl
    unfold hexVertices
    rw [sideAt_ok s, Res.bind_ok]
    dsimp only
    rw [v1, Res.bind_ok]
    rw [show entry (List.map some [a,b,c,d]) 0 = some a from rfl, Res.ofOption_some, Res.bind_ok, m2, Res.bind_ok,
      hfound, Res.bind_ok]
    dsimp only
    rw [a1, Res.bind_ok, a2, Res.ofOption_some, Res.bind_ok, z1, Res.bind_ok, z2, Res.bind_ok, z3, t1, Res.bind_ok]
    rfl

/-! ### other polyhedra -/

theorem mem_addMissing {α : Type} [DecidableEq α] {x : α} : ∀ {l acc : List α},
    x ∈ addMissing acc l ↔ x ∈ acc ∨ x ∈ l := by
  intro l
  induction l with
  | nil => intro acc; simp [addMissing]
  | cons y l ih =>
    intro acc
    unfold addMissing
    rw [ih]
    by_cases hy : y ∈ acc
    · rw [if_pos hy]
      simp only [List.mem_cons]
      constructor
      · rintro (h | h)
        · exact Or.inl h
        · exact Or.inr (Or.inr h)
      · rintro (h | rfl | h)
        · exact Or.inl h
        · exact Or.inl hy
        · exact Or.inr h
    · rw [if_neg hy]
      simp only [List.mem_append, List.mem_cons, List.not_mem_nil, or_false]
      tauto

theorem nodup_addMissing {α : Type} [DecidableEq α] : ∀ {l acc : List α}, acc.Nodup → (addMissing acc l).Nodup := by
  intro l
  induction l with
  | nil => intro acc h; exact h
  | cons y l ih =>
    intro acc h
    unfold addMissing
    apply ih
    by_cases hy : y ∈ acc
    · rw [if_pos hy]; exact h
    · rw [if_neg hy, List.nodup_append]
      refine ⟨h, by simp, ?_⟩
      intro a ha b hb
      rw [List.mem_singleton] at hb
      subst hb
      exact fun hab => hy (hab ▸ ha)

theorem addMissing_map {α β : Type} [DecidableEq α] [DecidableEq β] {g : α → β} (hg : Function.Injective g) :
    ∀ {l acc : List α}, addMissing (acc.map g) (l.map g) = (addMissing acc l).map g := by
  intro l
  induction l with
  | nil => intro acc; rfl
  | cons y l ih =>
    intro acc
    rw [List.map_cons]
    unfold addMissing
    rw [← ih]
    have : (g y ∈ acc.map g) ↔ y ∈ acc := by
      rw [List.mem_map]
      constructor
      · rintro ⟨a, ha, hay⟩; exact hg hay ▸ ha
      · intro h; exact ⟨y, h, rfl⟩
    by_cases hy : y ∈ acc
    · rw [if_pos hy, if_pos (this.2 hy)]
    · rw [if_neg hy, if_neg (fun h => hy (this.1 h)), List.map_append]; rfl

/-- the vertices and edges of a live face -/
theorem face_plain {T : Topo} (h : T.Consistent) (hl : T.AllLoops) {f : Nat} (hf : T.sf f = .live) (b : Bool) :
    ∃ c es : List Nat, T.mfVertices f b none = .ok (c.map some) ∧ T.mfEdges f b none = .ok es ∧ c.Nodup ∧ T.Together es c ∧
      (∀ e, e ∈ es ↔ T.FaceHas f e) ∧ ∀ v, v ∈ c ↔ T.FaceVertex f v := by
  obtain ⟨ws, h1, hn⟩ := hl f hf
  obtain ⟨l, k1, k2, k3, -⟩ := h1.stored (alloc_of_live hf)
  obtain ⟨es, c, e1, e2, e3, e4, -⟩ := C23_together hf h1 hn b none (by intro v hv; cases hv)
  have hes : es.Perm l := by
    have h4 : T.mfEdges f true none = .ok l := mfEdges_plain (alloc_of_live hf) k1
    rw [C23_edges hf h1 h4 b] at e1
    injection e1 with e1
    rw [← e1]
    split
    · exact List.Perm.refl _
    · exact List.reverse_perm _
  have hm : ∀ e, e ∈ es ↔ T.FaceHas f e := fun e => by rw [hes.mem_iff, faceHas_iff hf k1]
  have hlive : ∀ e ∈ es, T.se e = .live := fun e he => h.fedgesLive hf k1 e (hes.mem_iff.1 he)
  refine ⟨c, es, e2, e1, e4.nodup_iff.2 hn, e3, hm, ?_⟩
  intro v
  constructor
  · intro hv
    obtain ⟨i, hi⟩ := List.mem_iff_getElem?.1 hv
    have hlt := (List.getElem?_eq_some_iff.1 hi).1
    have hie := List.getElem?_eq_getElem (l := es) (i := i) (by rw [e3.1]; exact hlt)
    have hj := List.getElem?_eq_getElem (l := c) (i := (i+1) % c.length) (Nat.mod_lt _ (by omega))
    exact ⟨_, (hm _).1 (List.mem_of_getElem? hie), (e3.joins hlive hie hi hj).1⟩
  · rintro ⟨e, he, hev⟩
    obtain ⟨i, hi⟩ := List.mem_iff_getElem?.1 ((hm e).2 he)
    obtain ⟨d, d1, d2⟩ := e3.2 i e hi
    have : ∀ b, T.meVertex e b = .ok (some v) → v ∈ c := by
      intro b hb
      by_cases hbd : b = d
      · rw [hbd, d1] at hb
        injection hb with hb
        exact List.mem_of_getElem? hb
      · have hbd : b = !d := by cases b <;> cases d <;> simp_all
        rw [hbd, d2] at hb
        injection hb with hb
        exact List.mem_of_getElem? hb
    rcases hev.2 with hb | hb
    · exact this _ hb
    · exact this _ hb

theorem moreVertices_ok {T : Topo} (h : T.Consistent) (hl : T.AllLoops) : ∀ (fs : List Nat) (acc : List Nat),
    (∀ f ∈ fs, T.sf f = .live) → acc.Nodup →
    ∃ ws : List Nat, T.moreVertices fs (acc.map some) = .ok (ws.map some) ∧ ws.Nodup ∧
      ∀ v, v ∈ ws ↔ v ∈ acc ∨ ∃ f ∈ fs, T.FaceVertex f v := by
  intro fs
  induction fs with
  | nil => intro acc _ hn; exact ⟨acc, rfl, hn, by simp⟩
  | cons f fs ih =>
    intro acc hf hn
    obtain ⟨c, es, a1, -, a3, -, -, a4⟩ := face_plain h hl (hf f (by simp)) true
    obtain ⟨ws, b1, b2, b3⟩ := ih (addMissing acc c) (fun g hg => hf g (by simp [hg])) (nodup_addMissing hn)
    refine ⟨ws, ?_, b2, ?_⟩
    · unfold moreVertices
      rw [a1, Res.bind_ok, addMissing_map (g := (some : Nat → Option Nat)) (Option.some_injective _), b1]
    · intro v
      rw [b3, mem_addMissing, a4]
      simp only [List.mem_cons, exists_eq_or_imp]
      tauto

/-- the first faces and the last one -/
theorem faces_split {T : Topo} (h : T.Consistent) {r : Nat} {fs : List Nat} (hr : T.sr r = .live)
    (hfs : T.rf r = some fs) (h0 : fs ≠ []) : ∃ f0 d0, T.sideAt r fs 0 = .ok (f0, d0) ∧ T.sf f0 = .live ∧ f0 ∈ fs ∧
      ∀ f ∈ fs, f = f0 ∨ f ∈ fs.dropLast.drop 1 ∨ f = fs.getLast h0 := by
  cases fs with
  | nil => exact absurd rfl h0
  | cons f0 fs =>
    obtain ⟨d, hd⟩ : ∃ d, T.mrFaceDir_i r 0 = .ok d := by
      have hok := h.reg r _ (alloc_of_live hr) hfs
      unfold mrFaceDir_i
      rw [derefR_ok (alloc_of_live hr), Res.bind_ok, getW_ok (hok.word (Nat.zero_le _))]
      exact ⟨_, rfl⟩
    refine ⟨f0, d, ?_, h.rfacesLive hr (by rw [hfs]; simp), by simp, ?_⟩
    · unfold sideAt
      rw [List.getElem?_cons_zero, Res.ofOption_some, Res.bind_ok, hd]
      rfl
    · intro f hf
      rcases List.mem_cons.1 hf with rfl | hf
      · exact Or.inl rfl
      · right
        cases fs with
        | nil => cases hf
        | cons f1 fs =>
          rw [List.dropLast_cons_cons, List.drop_succ_cons, List.drop_zero, List.getLast_cons_cons]
          by_cases hg : f = (f1 :: fs).getLast (by simp)
          · exact Or.inr hg
          · left
            rw [← List.dropLast_append_getLast (l := f1 :: fs) (by simp), List.mem_append, List.mem_singleton] at hf
            rcases hf with hf | hf
            · exact hf
            · exact absurd hf hg

theorem poly_ok {T : Topo} (h : T.Consistent) (hl : T.AllLoops) {r : Nat} {fs : List Nat} (hr : T.sr r = .live)
    (hfs : T.rf r = some fs) (h0 : fs ≠ []) (hc : T.ClosedSurface r) :
    ∃ ws : List Nat, T.polyVertices r fs = .ok (ws.map some) ∧ ws.Nodup ∧
      ∀ v, v ∈ ws ↔ ∃ f, T.RegionHas r f ∧ T.FaceVertex f v := by
  obtain ⟨f0, d0, a1, a2, a0, a3⟩ := faces_split h hr hfs h0
  obtain ⟨c, es, b1, -, b3, -, -, b4⟩ := face_plain h hl a2 (!d0)
  have hsub : ∀ f ∈ fs.dropLast.drop 1, f ∈ fs := fun f hf =>
    (List.dropLast_subset fs) (List.mem_of_mem_drop hf)
  obtain ⟨ws, c1, c2, c3⟩ := moreVertices_ok h hl (fs.dropLast.drop 1) c
    (fun f hf => h.rfacesLive hr (by rw [hfs]; exact hsub f hf)) b3
  refine ⟨ws, ?_, c2, ?_⟩
  · unfold polyVertices
    rw [a1, Res.bind_ok]
    dsimp only
    rw [b1, Res.bind_ok, c1]
  · intro v
    have hin : ∀ f, T.RegionHas r f ↔ f ∈ fs := fun f => by rw [regionHas_iff h, hfs]; exact ⟨fun k => k.2, fun k => ⟨hr, k⟩⟩
    rw [c3, b4]
    constructor
    · rintro (hv | ⟨f, hf, hv⟩)
      · exact ⟨f0, (hin f0).2 a0, hv⟩
      · exact ⟨f, (hin f).2 (hsub f hf), hv⟩
    · rintro ⟨f, hf, e, he, hv⟩
      have first : ∀ g ∈ fs, T.FaceHas g e → g ≠ fs.getLast h0 →
          T.FaceVertex f0 v ∨ ∃ f ∈ fs.dropLast.drop 1, T.FaceVertex f v := by
        intro g hg hge hgl
        rcases a3 g hg with rfl | hg | hg
        · exact Or.inl ⟨e, hge, hv⟩
        · exact Or.inr ⟨g, hg, e, hge, hv⟩
        · exact absurd hg hgl
      by_cases hfl : f = fs.getLast h0
      · obtain ⟨g, g1, g2, g3⟩ := hc f e hf he
        exact first g ((hin g).1 g2) g3 (hfl ▸ g1)
      · exact first f ((hin f).1 hf) he hfl

/-! ### The theorems -/

/-- **C57, standard elements.**  For a region that is a standard element and has the matching element
type, `MR_Vertices` gives its vertices, each once, in an order that is again a standard numbering of the
same element: read off in that order, the faces of the region are those of the standard, seen from
outside.  This holds in whatever order the faces were given to the region, whichever way each of them
is oriented and at whatever vertex it starts.  (For prisms the mesh must have no edge across one of the
quadrilaterals; `C57_negation_diagonal`.) -/
theorem C57_standard {T : Topo} (h : T.Consistent) (hl : T.AllLoops) (hs : T.SimpleEdges) {r : Nat} {vs : List Nat}
    (el : T.IsElement r vs) (ht : T.mrElementType r = .ok (stdType vs.length))
    (hno : vs.length = 6 → T.NoChord r vs) :
    ∃ ws : List Nat, T.mrVertices r = .ok (some (ws.map some)) ∧ T.IsElement r ws ∧ ws.Perm vs := by
  obtain ⟨fs, e⟩ := el.elt h hl
  have hfs := e.rf
  have hrt : T.rt r = stdType vs.length := by
    unfold mrElementType at ht
    rw [derefR_ok (alloc_of_live el.live), Res.bind_ok] at ht
    injection ht
  unfold mrVertices
  rw [rfaces_ok (alloc_of_live el.live) hfs, Res.bind_ok, hrt]
  rcases el.size with k | k | k | k
  · obtain ⟨ws, h1, h2, h3⟩ := tet_ok h hl el hfs k
    rw [k]
    refine ⟨ws, ?_, h2, h3⟩
    rw [show stdType 4 = .tet from rfl]
    dsimp only
    rw [h1]; rfl
  · obtain ⟨ws, h1, h2, h3⟩ := pyramid_ok h hl el hfs k
    rw [k]
    refine ⟨ws, ?_, h2, h3⟩
    rw [show stdType 5 = .pyramid from rfl]
    dsimp only
    rw [h1]; rfl
  · obtain ⟨ws, h1, h2, h3⟩ := prism_ok h hl hs el hfs k (hno k)
    rw [k]
    refine ⟨ws, ?_, h2, h3⟩
    rw [show stdType 6 = .prism from rfl]
    dsimp only
    rw [h1]; rfl
  · obtain ⟨ws, h1, h2, h3⟩ := hex_ok h hl hs el hfs k
    rw [k]
    exact ⟨ws, h1, h2, h3⟩

/-- **C57, after building the element from its vertices.**  `MR_Vertices` after `MR_Set_Vertices` gives
back the vertices in a standard order of the same element. -/
theorem C57_after_set_vertices {T : Topo} (h : T.Consistent) (hl : T.AllLoops) (hs : T.SimpleEdges)
    (hf : T.SimpleFaces) {r : Nat} {vs : List Nat} (hr : T.sr r = .live) (hr0 : (T.rf r).getD [] = [])
    (hn : vs.Nodup) (hv : ∀ v ∈ vs, T.sv v = .live) (hlen : vs.length = 4 ∨ vs.length = 5 ∨ vs.length = 8)
    (hfree : ∀ c ∈ stdCycles vs, ∀ o f, ¬ T.Uses o f c) :
    ∃ T' ws, T.mrSetVertices r vs = .ok T' ∧ T'.mrVertices r = .ok (some (ws.map some)) ∧ ws.Perm vs ∧
      T'.IsElement r ws := by
  have hlen' : vs.length = 4 ∨ vs.length = 5 ∨ vs.length = 6 ∨ vs.length = 8 := by omega
  obtain ⟨T', fs, a1, a2, a3, a4, a5, a6, a7, a8⟩ := C48_standard h hl hr hr0 hn hv hlen' hfree
  obtain ⟨T2, b1, b2, -⟩ := C48_no_duplicates h hl hr hr0 hn hv hlen' hfree hs hf
  rw [a1] at b1
  injection b1 with b1
  subst b1
  have hpos : 0 < (stdCycles vs).length := by
    rcases hlen with k | k | k
    · match vs, k with
      | [_,_,_,_], _ => simp [stdCycles]
    · match vs, k with
      | [_,_,_,_,_], _ => simp [stdCycles]
    · match vs, k with
      | [_,_,_,_,_,_,_,_], _ => simp [stdCycles]
  have hlive : T'.sr r = .live := by
    have h0 := List.getElem?_eq_getElem (l := stdCycles vs) (i := 0) hpos
    have h1 := List.getElem?_eq_getElem (l := fs) (i := 0) (by rw [a5]; exact hpos)
    exact (a6 0 _ _ h0 h1).1
  have el : T'.IsElement r vs := ⟨hlen', hn, hlive, fs, a4, a5, fun c hc => by
    obtain ⟨i, hi⟩ := List.mem_iff_getElem?.1 hc
    have hlt := (List.getElem?_eq_some_iff.1 hi).1
    exact ⟨_, a6 i c _ hi (List.getElem?_eq_getElem (by rw [a5]; exact hlt))⟩⟩
  obtain ⟨ws, c1, c2, c3⟩ := C57_standard a2 a3 b2 el a7 (by omega)
  exact ⟨T', ws, a1, c1, c3, c2⟩

/-- **C57, other polyhedra.**  For a region of any other type whose faces form a closed surface,
`MR_Vertices` gives exactly the vertices of its faces, each once. -/
theorem C57_polyhedron {T : Topo} (h : T.Consistent) (hl : T.AllLoops) {r : Nat} {fs : List Nat} {t : MRType}
    (hr : T.sr r = .live) (hfs : T.mrFaces r = .ok fs) (h0 : fs ≠ []) (ht : T.mrElementType r = .ok t)
    (hty : t = .polyhed ∨ t = .runknown) (hc : T.ClosedSurface r) :
    ∃ ws : List Nat, T.mrVertices r = .ok (some (ws.map some)) ∧ ws.Nodup ∧
      ∀ v, v ∈ ws ↔ ∃ f, T.RegionHas r f ∧ T.FaceVertex f v := by
  obtain ⟨ws, h1, h2, h3⟩ := poly_ok h hl hr (mrFaces_some hfs) h0 hc
  refine ⟨ws, ?_, h2, h3⟩
  have hrt : T.rt r = t := by
    unfold mrElementType at ht
    rw [derefR_ok (alloc_of_live hr), Res.bind_ok] at ht
    injection ht
  unfold mrVertices
  rw [rfaces_ok (alloc_of_live hr) (mrFaces_some hfs), Res.bind_ok, hrt]
  rcases hty with rfl | rfl <;> · dsimp only; rw [h1]; rfl

/-! ### non-vacuity -/

/-- the ends of two edges, compared -/
def simpleEdgesB (T : Topo) : Bool :=
  (List.range T.ne).all fun e => (List.range T.ne).all fun e' => decide (e' = e) || decide (T.se e ≠ .live) ||
    decide (T.se e' ≠ .live) ||
    !([(T.meVertex e false, T.meVertex e true), (T.meVertex e true, T.meVertex e false)].any fun p =>
      decide (p = (T.meVertex e' false, T.meVertex e' true)))

theorem simpleEdgesB_sound {T : Topo} (h : T.Consistent) (hb : T.simpleEdgesB = true) : T.SimpleEdges := by
  intro e e' a b hab h1 h2 h3 h4
  have lt : ∀ {x y : Nat}, T.EdgeHas x y → x < T.ne := by
    intro x y hx
    by_contra hge
    have := hx.1
    rw [h.newE x (by omega)] at this
    cases this
  unfold simpleEdgesB at hb
  rw [List.all_eq_true] at hb
  have := hb e (List.mem_range.2 (lt h1))
  rw [List.all_eq_true] at this
  have := this e' (List.mem_range.2 (lt h3))
  simp only [Bool.or_eq_true, decide_eq_true_iff, Bool.not_eq_true'] at this
  rcases this with ((k | k) | k) | k
  · exact k
  · exact absurd h1.1 k
  · exact absurd h3.1 k
  · exfalso
    simp only [List.any_cons, List.any_nil, Bool.or_false, Bool.or_eq_false_iff, decide_eq_false_iff_not,
      Prod.mk.injEq, not_and] at k
    have z1 := h1.2
    have z2 := h2.2
    have z3 := h3.2
    have z4 := h4.2
    rcases z1 with z1 | z1 <;> rcases z2 with z2 | z2 <;> rcases z3 with z3 | z3 <;> rcases z4 with z4 | z4 <;>
      simp_all

/-- the region uses one of its faces as the cycle says -/
def usesSomeB (T : Topo) (r : Nat) (c : List Nat) : Bool :=
  match T.mrFaces r with
  | .ok fs => fs.any fun f => match T.mrFaceDir r f with
    | .ok (some d) => decide (T.mfVertices f d c[0]? = .ok (c.map some)) && decide (c ≠ [])
    | _ => false
  | _ => false

theorem usesSomeB_sound {T : Topo} {r : Nat} {c : List Nat} (hr : T.sr r = .live) (h : T.usesSomeB r c = true) :
    ∃ f, T.Uses r f c := by
  unfold usesSomeB at h
  split at h
  · rename_i fs hfs
    rw [List.any_eq_true] at h
    obtain ⟨f, hf, h⟩ := h
    split at h
    · rename_i d hd
      simp only [Bool.and_eq_true, decide_eq_true_iff] at h
      obtain ⟨h1, h2⟩ := h
      refine ⟨f, hr, d, hd, ?_⟩
      cases c with
      | nil => exact absurd rfl h2
      | cons a c => exact ⟨a, rfl, h1⟩
    · cases h
  · cases h

def elementB (T : Topo) (r : Nat) (vs : List Nat) : Bool :=
  decide (vs.length = 4 ∨ vs.length = 5 ∨ vs.length = 6 ∨ vs.length = 8) && decide vs.Nodup &&
  decide (T.sr r = .live) && (match T.mrFaces r with
    | .ok fs => decide (fs.length = (stdCycles vs).length)
    | _ => false) && (stdCycles vs).all (T.usesSomeB r)

theorem elementB_sound {T : Topo} {r : Nat} {vs : List Nat} (h : T.elementB r vs = true) : T.IsElement r vs := by
  unfold elementB at h
  simp only [Bool.and_eq_true, decide_eq_true_iff, List.all_eq_true] at h
  obtain ⟨⟨⟨⟨h1, h2⟩, h3⟩, h4⟩, h5⟩ := h
  split at h4
  · rename_i fs hfs
    exact ⟨h1, h2, h3, fs, hfs, of_decide_eq_true h4, fun c hc => usesSomeB_sound h3 (h5 c hc)⟩
  · cases h4

def noChordB (T : Topo) (r : Nat) (vs : List Nat) : Bool :=
  (List.range T.ne).all fun e => decide (T.se e ≠ .live) ||
    !((match T.meVertex e false with | .ok (some x) => decide (x ∈ vs) | _ => false) &&
      (match T.meVertex e true with | .ok (some x) => decide (x ∈ vs) | _ => false)) ||
    ((T.rf r).getD []).any fun f => decide (T.sf f = .live) && (match T.mfEdges f true none with
      | .ok es => decide (e ∈ es)
      | _ => false)

theorem noChordB_sound {T : Topo} (h : T.Consistent) {r : Nat} {vs : List Nat} (hr : T.sr r = .live)
    (hb : T.noChordB r vs = true) : T.NoChord r vs := by
  intro e x y hx hy hxy h1 h2
  have lt : e < T.ne := by
    by_contra hge
    have := h1.1
    rw [h.newE e (by omega)] at this
    cases this
  unfold noChordB at hb
  rw [List.all_eq_true] at hb
  have := hb e (List.mem_range.2 lt)
  simp only [Bool.or_eq_true, decide_eq_true_iff, Bool.not_eq_true', Bool.and_eq_false_iff] at this
  rcases this with (k | k) | k
  · exact absurd h1.1 k
  · exfalso
    rcases h1.2 with z1 | z1 <;> rcases h2.2 with z2 | z2
    · rw [z1] at z2; injection z2 with z2; injection z2 with z2; exact hxy z2
    · rw [z1, z2] at k; simp [hx, hy] at k
    · rw [z1, z2] at k; simp [hx, hy] at k
    · rw [z1] at z2; injection z2 with z2; injection z2 with z2; exact hxy z2
  · rw [List.any_eq_true] at k
    obtain ⟨f, hf, k⟩ := k
    rw [Bool.and_eq_true, decide_eq_true_iff] at k
    obtain ⟨k1, k2⟩ := k
    split at k2
    · rename_i es hes
      exact ⟨f, (regionHas_iff h).2 ⟨hr, hf⟩, k1, es, hes, of_decide_eq_true k2⟩
    · cases k2

/-- A hexahedron, a pyramid on its top, a tetrahedron on the pyramid and a prism at the side of the
hexahedron, with their faces in various orders and orientations. -/
def mixMesh : List Op :=
  List.replicate 12 .newVertex ++
  (([[0,1,2,3],[4,5,6,7],[0,1,5,4],[1,2,6,5],[2,3,7,6],[3,0,4,7],[4,5,8],[5,6,8],[6,7,8],[7,4,8],
     [4,5,9],[5,8,9],[8,4,9],[1,10,2],[5,11,6],[1,10,11,5],[10,2,6,11]] : List (List Nat)).mapIdx
    fun i vs => [Op.newFace, .setVertices i vs]).flatten ++
  [.newRegion, .setFaces 0 [(3,true),(1,true),(0,false),(5,true),(2,true),(4,true)],
   .newRegion, .setFaces 1 [(8,true),(6,true),(1,false),(9,true),(7,true)],
   .newRegion, .setFaces 2 [(11,true),(6,false),(12,true),(10,true)],
   .newRegion, .setFaces 3 [(15,true),(14,true),(3,false),(13,false),(16,true)]]

/-- the elements of `mixMesh` -/
def mixElements : List (Nat × List Nat) :=
  [(0, [0,1,2,3,4,5,6,7]), (1, [4,5,6,7,8]), (2, [4,5,8,9]), (3, [1,10,2,5,11,6])]

/-- the mesh meets the hypotheses, for each of its regions -/
theorem mixMesh_ok : ∃ T, empty.run mixMesh = .ok T ∧ T.Consistent ∧ T.AllLoops ∧ T.SimpleEdges ∧
    ∀ p ∈ mixElements, T.IsElement p.1 p.2 ∧ T.mrElementType p.1 = .ok (stdType p.2.length) ∧ T.NoChord p.1 p.2 := by
  obtain ⟨T, h1, h2⟩ := reachable (os := mixMesh) (by decide +kernel)
  have hq : answer mixMesh (fun T => .ok (T.allLoopsB [[0,1,2,3],[4,5,6,7],[0,1,5,4],[1,2,6,5],[2,3,7,6],
      [3,0,4,7],[4,5,8],[5,6,8],[6,7,8],[7,4,8],[4,5,9],[5,8,9],[8,4,9],[1,10,2],[5,11,6],[1,10,11,5],[10,2,6,11]] &&
      T.simpleEdgesB && mixElements.all fun p => T.elementB p.1 p.2 &&
        decide (T.mrElementType p.1 = .ok (stdType p.2.length)) && T.noChordB p.1 p.2)) = .ok true := by
    decide +kernel
  unfold answer at hq
  rw [h1, Res.bind_ok, Res.ok.injEq] at hq
  simp only [Bool.and_eq_true, decide_eq_true_iff, List.all_eq_true] at hq
  obtain ⟨⟨a, b⟩, c⟩ := hq
  refine ⟨T, h1, h2, allLoopsB_sound h2 a, simpleEdgesB_sound h2 b, ?_⟩
  intro p hp
  obtain ⟨⟨c1, c2⟩, c3⟩ := c p hp
  exact ⟨elementB_sound c1, c2, noChordB_sound h2 (elementB_sound c1).live c3⟩

/-- The hypotheses of `C57_standard` hold for all four elements; for the hexahedron, whose first face
is a side face, the vertices come as 1 5 6 2 / 0 4 7 3. -/
example : ∃ T, empty.run mixMesh = .ok T ∧
    (∀ p ∈ mixElements, ∃ ws, T.mrVertices p.1 = .ok (some (ws.map some)) ∧ T.IsElement p.1 ws ∧ ws.Perm p.2) ∧
    T.mrVertices 0 = .ok (some [some 1, some 5, some 6, some 2, some 0, some 4, some 7, some 3]) := by
  obtain ⟨T, h1, h2, h3, h4, h5⟩ := mixMesh_ok
  refine ⟨T, h1, fun p hp => C57_standard h2 h3 h4 (h5 p hp).1 (h5 p hp).2.1 (fun _ => (h5 p hp).2.2), ?_⟩
  have hq : answer mixMesh (fun T => T.mrVertices 0) =
    .ok (some [some 1, some 5, some 6, some 2, some 0, some 4, some 7, some 3]) := by decide +kernel
  unfold answer at hq
  rw [h1, Res.bind_ok] at hq
  exact hq

/-- The hypotheses of `C57_after_set_vertices` hold for a second tetrahedron on a face of the first. -/
example : ∃ (T T' : Topo) (ws : List Nat), empty.run oneTet = .ok T ∧ T.mrSetVertices 1 [0,2,1,4] = .ok T' ∧
    T'.mrVertices 1 = .ok (some (ws.map some)) ∧ ws.Perm [0,2,1,4] ∧ T'.IsElement 1 ws := by
  obtain ⟨T, h1, h2⟩ := reachable (os := oneTet) (by decide +kernel)
  have hq : answer oneTet (fun T => .ok (T.allLoopsB [[0,1,2],[0,1,3],[1,2,3],[2,0,3]] &&
      [0,2,1,4].all (fun v => decide (T.sv v = .live)) && decide (T.sr 1 = .live) &&
      decide ((T.rf 1).getD [] = []) && (stdCycles [0,2,1,4]).all T.unusedB && T.simpleEdgesB &&
      decide (T.nf = 4) && decide (T.loopB 0 [0,1,2]) && decide (T.loopB 1 [0,1,3]) && decide (T.loopB 2 [1,2,3]) &&
      decide (T.loopB 3 [2,0,3]))) = .ok true := by decide +kernel
  unfold answer at hq
  rw [h1, Res.bind_ok, Res.ok.injEq] at hq
  simp only [Bool.and_eq_true, decide_eq_true_iff, List.all_eq_true] at hq
  obtain ⟨⟨⟨⟨⟨⟨⟨⟨⟨⟨a, b⟩, c⟩, d⟩, e⟩, f⟩, g⟩, l0⟩, l1⟩, l2⟩, l3⟩ := hq
  have hl := allLoopsB_sound h2 a
  have hsf : T.SimpleFaces := by
    intro x y d1 d2 c hc hx hy hsx hsy
    have key : ∀ z d, T.sf z = .live → T.Seen z d c → ∃ ws, c.Perm ws ∧
        ((z = 0 ∧ ws = [0,1,2]) ∨ (z = 1 ∧ ws = [0,1,3]) ∨ (z = 2 ∧ ws = [1,2,3]) ∨ (z = 3 ∧ ws = [2,0,3])) := by
      intro z d hz hs
      obtain ⟨ws, hw, hn⟩ := hl z hz
      have hp := ((seen_iff hz hw hn (by rintro rfl; simp at hc)).1 hs).perm.trans (turned_perm d)
      have hlt : z < 4 := by
        by_contra hge
        rw [h2.newF z (by omega)] at hz
        cases hz
      refine ⟨ws, hp, ?_⟩
      have : z = 0 ∨ z = 1 ∨ z = 2 ∨ z = 3 := by omega
      rcases this with rfl | rfl | rfl | rfl
      · exact Or.inl ⟨rfl, Loop.unique hz hw (loopB_sound l0)⟩
      · exact Or.inr (Or.inl ⟨rfl, Loop.unique hz hw (loopB_sound l1)⟩)
      · exact Or.inr (Or.inr (Or.inl ⟨rfl, Loop.unique hz hw (loopB_sound l2)⟩))
      · exact Or.inr (Or.inr (Or.inr ⟨rfl, Loop.unique hz hw (loopB_sound l3)⟩))
    obtain ⟨w1, p1, k1⟩ := key x d1 hx hsx
    obtain ⟨w2, p2, k2⟩ := key y d2 hy hsy
    have hp := p1.symm.trans p2
    rcases k1 with ⟨rfl, rfl⟩ | ⟨rfl, rfl⟩ | ⟨rfl, rfl⟩ | ⟨rfl, rfl⟩ <;>
      rcases k2 with ⟨rfl, rfl⟩ | ⟨rfl, rfl⟩ | ⟨rfl, rfl⟩ | ⟨rfl, rfl⟩ <;>
      first
        | rfl
        | exact absurd hp (by decide)
  obtain ⟨T', ws, r1, r2, r3, r4⟩ := C57_after_set_vertices h2 hl (simpleEdgesB_sound h2 f) hsf c d (by decide) b
    (Or.inl rfl) (fun x hx => unusedB_sound h2 (e x hx))
  exact ⟨T, T', ws, h1, r1, r2, r3, r4⟩

/-- every edge of a face of the region is in another of its faces -/
def closedB (T : Topo) (r : Nat) : Bool :=
  ((T.rf r).getD []).all fun f => match T.mfEdges f true none with
    | .ok es => es.all fun e => ((T.rf r).getD []).any fun g => decide (g ≠ f) && decide (T.sf g = .live) &&
        (match T.mfEdges g true none with
        | .ok es' => decide (e ∈ es')
        | _ => false)
    | _ => false

theorem closedB_sound {T : Topo} (h : T.Consistent) {r : Nat} (hb : T.closedB r = true) : T.ClosedSurface r := by
  intro f e hf he
  obtain ⟨hr, hf⟩ := (regionHas_iff h).1 hf
  obtain ⟨hl, es, h1, h2⟩ := he
  unfold closedB at hb
  rw [List.all_eq_true] at hb
  have := hb f hf
  rw [h1] at this
  dsimp only at this
  rw [List.all_eq_true] at this
  have := this e h2
  rw [List.any_eq_true] at this
  obtain ⟨g, g1, g2⟩ := this
  simp only [Bool.and_eq_true, decide_eq_true_iff] at g2
  obtain ⟨⟨g2, g3⟩, g4⟩ := g2
  split at g4
  · rename_i es' hes
    exact ⟨g, g2, (regionHas_iff h).2 ⟨hr, g1⟩, g3, es', hes, of_decide_eq_true g4⟩
  · cases g4

/-- a prism over a pentagon -/
def pentaPrism : List Op :=
  List.replicate 10 .newVertex ++
  (([[0,1,2,3,4],[5,6,7,8,9],[0,1,6,5],[1,2,7,6],[2,3,8,7],[3,4,9,8],[4,0,5,9]] : List (List Nat)).mapIdx
    fun i vs => [Op.newFace, .setVertices i vs]).flatten ++
  [.newRegion, .setFaces 0 [(2,true),(0,false),(3,true),(4,true),(1,true),(6,true),(5,true)]]

/-- The hypotheses of `C57_polyhedron` hold for a prism over a pentagon. -/
example : ∃ (T : Topo) (ws : List Nat), empty.run pentaPrism = .ok T ∧ T.mrVertices 0 = .ok (some (ws.map some)) ∧ ws.Nodup ∧
    ws.length = 10 ∧ ∀ v, v ∈ ws ↔ ∃ f, T.RegionHas 0 f ∧ T.FaceVertex f v := by
  obtain ⟨T, h1, h2⟩ := reachable (os := pentaPrism) (by decide +kernel)
  have hq : answer pentaPrism (fun T => .ok (T.allLoopsB [[0,1,2,3,4],[5,6,7,8,9],[0,1,6,5],[1,2,7,6],[2,3,8,7],
      [3,4,9,8],[4,0,5,9]] && decide (T.sr 0 = .live) && decide (T.mrFaces 0 = .ok [2,0,3,4,1,6,5]) &&
      decide (T.mrElementType 0 = .ok .polyhed) && T.closedB 0 &&
      (match T.mrVertices 0 with | .ok (some l) => decide (l.length = 10) | _ => false))) = .ok true := by
    decide +kernel
  unfold answer at hq
  rw [h1, Res.bind_ok, Res.ok.injEq] at hq
  simp only [Bool.and_eq_true, decide_eq_true_iff] at hq
  obtain ⟨⟨⟨⟨⟨a, b⟩, c⟩, d⟩, e⟩, f⟩ := hq
  obtain ⟨ws, r1, r2, r3⟩ := C57_polyhedron h2 (allLoopsB_sound h2 a) b c (by simp) d (Or.inl rfl) (closedB_sound h2 e)
  rw [r1] at f
  exact ⟨T, ws, h1, r1, r2, by simpa using f, r3⟩

/-! ### what does not hold -/

/-- a prism and an edge across one of its quadrilaterals -/
def crossedPrism : List Op :=
  List.replicate 6 .newVertex ++ [.newEdge, .setVertex 0 false 0, .setVertex 0 true 4] ++
  (([[0,2,1],[4,5,3],[0,1,4,3],[1,2,5,4],[2,0,3,5]] : List (List Nat)).mapIdx
    fun i vs => [Op.newFace, .setVertices i vs]).flatten ++
  [.newRegion, .setFaces 0 [(0,true),(1,true),(2,true),(3,true),(4,true)]]

/-- **C57 fails** for a prism in a mesh with an edge across one of its quadrilaterals: the vertex above
the first one is looked for by a common edge, and the diagonal is one.  The region is the prism on
0 1 2 3 4 5, the answer is 0 1 2 4 5 3, and the side 0 1 5 4 that a prism with this numbering has is
no face of the region. -/
theorem C57_negation_diagonal :
    answer crossedPrism (fun T => .ok (T.elementB 0 [0,1,2,3,4,5] && decide (T.mrElementType 0 = .ok .prism))) = .ok true ∧
    answer crossedPrism (fun T => T.mrVertices 0) = .ok (some [some 0, some 1, some 2, some 4, some 5, some 3]) ∧
    [0,1,5,4] ∈ stdCycles [0,1,2,4,5,3] ∧
    answer crossedPrism (fun T => .ok (T.usesSomeB 0 [0,1,5,4])) = .ok false := by
  decide +kernel

/-- two triangles with a common edge -/
def openBook : List Op :=
  List.replicate 4 .newVertex ++ [.newFace, .setVertices 0 [0,1,2], .newFace, .setVertices 1 [0,1,3],
    .newRegion, .setFaces 0 [(0,true),(1,true)]]

/-- **C57 fails** for a region whose faces do not form a closed surface: the last face is not looked
at, and vertex 3, which only it has, is missing. -/
theorem C57_negation_open : answer openBook (fun T => T.mrFaces 0) = .ok [0,1] ∧
    answer openBook (fun T => T.mfVertices 1 true none) = .ok [some 0, some 1, some 3] ∧
    answer openBook (fun T => T.mrVertices 0) = .ok (some [some 0, some 2, some 1]) := by decide +kernel

end Topo
end MSTK
