import Verif.BuildModel
import Verif.Props.RegionVertices
import Verif.SplitLemmas

/-!
A mesh built bottom-up from tables has exactly the entities of the tables (helper lemmas for C38).
-/
namespace MSTK
namespace Topo

/-- The mesh consists of exactly the given vertices, edges (with their ends), faces (with their loops) and
regions (with their faces as seen from outside), numbered in the given order. -/
structure Built (T : Topo) (n : Nat) (E : List (Nat × Nat)) (F R : List (List Nat)) : Prop where
  cons : T.Consistent
  loops : T.AllLoops
  nv : T.nv = n
  verts : ∀ v, T.sv v = .live ↔ v < n
  ne : T.ne = E.length
  edges : ∀ e, T.se e = .live ↔ e < E.length
  ends : ∀ e a b, E[e]? = some (a, b) → T.ev e = (some a, some b)
  nf : T.nf = F.length
  faces : ∀ f, T.sf f = .live ↔ f < F.length
  cycles : ∀ f c, F[f]? = some c → T.Loop f c
  nr : T.nr = R.length
  regions : ∀ r, T.sr r = .live ↔ r < R.length
  uses : ∀ r vs, R[r]? = some vs → T.mrElementType r = .ok (stdType vs.length) ∧
    ∃ fs, T.mrFaces r = .ok fs ∧ fs.length = (stdCycles vs).length ∧
      ∀ (i : Nat) c f, (stdCycles vs)[i]? = some c → fs[i]? = some f → T.Uses r f c

theorem live_new {α : Type} {s : Nat → Stat} {l : List α} {n : Nat} (x : α) (hn : n = l.length)
    (h : ∀ v, s v = .live ↔ v < l.length) (v : Nat) : upd s n .live v = .live ↔ v < (l ++ [x]).length := by
  rw [List.length_append, List.length_singleton]
  by_cases hv : v = n
  · subst hv; rw [upd_same]; simp [hn]
  · rw [upd_ne _ _ hv, h v]; omega

theorem getElem?_snoc {α : Type} {l : List α} {x y : α} {i : Nat} (h : (l ++ [x])[i]? = some y) :
    l[i]? = some y ∨ (i = l.length ∧ y = x) := by
  by_cases hi : i < l.length
  · rw [List.getElem?_append_left hi] at h; exact Or.inl h
  · rw [List.getElem?_append_right (by omega)] at h
    have : i - l.length = 0 := by
      refine Classical.byContradiction fun hc => ?_
      rw [List.getElem?_eq_none (by simp; omega)] at h; cases h
    rw [this] at h
    simp only [List.getElem?_cons_zero, Option.some.injEq] at h
    exact Or.inr ⟨by omega, h.symm⟩

theorem built_empty : Built empty 0 [] [] [] where
  cons := empty_consistent
  loops := fun f hf => by cases hf
  nv := rfl
  verts := fun v => ⟨fun h => (by cases h), fun h => absurd h (Nat.not_lt_zero _)⟩
  ne := rfl
  edges := fun v => ⟨fun h => (by cases h), fun h => absurd h (Nat.not_lt_zero _)⟩
  ends := by simp
  nf := rfl
  faces := fun v => ⟨fun h => (by cases h), fun h => absurd h (Nat.not_lt_zero _)⟩
  cycles := by simp
  nr := rfl
  regions := fun v => ⟨fun h => (by cases h), fun h => absurd h (Nat.not_lt_zero _)⟩
  uses := by simp

theorem built_verts : ∀ (n : Nat) {T : Topo} {m : Nat}, Built T m [] [] [] → Built (addVerts n T) (m + n) [] [] [] := by
  intro n
  induction n with
  | zero => intro T m h; exact h
  | succ n ih =>
    intro T m h
    have h1 : Built T.mvNew.1 (m+1) [] [] [] :=
      { cons := h.cons.newVertex
        loops := fun f hf => absurd ((h.faces f).1 hf) (Nat.not_lt_zero _)
        nv := by show T.nv + 1 = _; rw [h.nv]
        verts := by
          intro v
          show upd T.sv T.nv .live v = .live ↔ _
          by_cases hv : v = T.nv
          · subst hv; rw [upd_same, h.nv]; simp
          · rw [upd_ne _ _ hv, h.verts v]; rw [h.nv] at hv; omega
        ne := h.ne, edges := h.edges, ends := by simp, nf := h.nf, faces := h.faces, cycles := by simp
        nr := h.nr, regions := h.regions, uses := by simp }
    have := ih h1
    rw [show m + 1 + n = m + (n + 1) by omega] at this
    exact this

theorem built_edge {T : Topo} {nv : Nat} {E : List (Nat × Nat)} (h : Built T nv E [] []) {a b : Nat}
    (ha : a < nv) (hb : b < nv) : ∃ T', T.addEdge a b = .ok T' ∧ Built T' nv (E ++ [(a, b)]) [] [] := by
  obtain ⟨ve, r, hc⟩ := newEdge_ok h.cons ((h.verts a).2 ha) ((h.verts b).2 hb)
  refine ⟨_, r, ?_⟩
  exact
    { cons := hc
      loops := fun f hf => absurd ((h.faces f).1 hf) (Nat.not_lt_zero _)
      nv := h.nv, verts := h.verts
      ne := by show T.ne + 1 = _; rw [h.ne]; simp
      edges := fun e => live_new (a, b) h.ne h.edges e
      ends := by
        intro e x y he
        show upd T.ev T.ne _ e = _
        rcases getElem?_snoc he with h1 | ⟨h1, h2⟩
        · have := (List.getElem?_eq_some_iff.1 h1).1
          rw [upd_ne _ _ (by rw [h.ne]; omega)]
          exact h.ends e x y h1
        · rw [h1, ← h.ne, upd_same]
          injection h2 with h2 h3
          rw [h2, h3]
      nf := h.nf, faces := h.faces, cycles := by simp
      nr := h.nr, regions := h.regions, uses := by simp }

theorem built_edges : ∀ (ps : List (Nat × Nat)) {T : Topo} {nv : Nat} {E : List (Nat × Nat)}, Built T nv E [] [] →
    (∀ p ∈ ps, p.1 < nv ∧ p.2 < nv) → ∃ T', addEdges ps T = .ok T' ∧ Built T' nv (E ++ ps) [] [] := by
  intro ps
  induction ps with
  | nil => intro T nv E h _; exact ⟨T, rfl, by rw [List.append_nil]; exact h⟩
  | cons p ps ih =>
    intro T nv E h hp
    obtain ⟨T1, r1, h1⟩ := built_edge h (hp p (by simp)).1 (hp p (by simp)).2
    obtain ⟨T2, r2, h2⟩ := ih h1 (fun q hq => hp q (by simp [hq]))
    refine ⟨T2, ?_, by rw [List.append_assoc] at h2; exact h2⟩
    rw [show addEdges (p :: ps) T = (T.addEdge p.1 p.2 >>= fun T => addEdges ps T) from rfl, r1, Res.bind_ok, r2]

/-- the table of edges: no edge twice, two different ends -/
structure EdgesOk (nv : Nat) (E : List (Nat × Nat)) : Prop where
  ends : ∀ p ∈ E, p.1 < nv ∧ p.2 < nv ∧ p.1 ≠ p.2
  once : E.Pairwise fun p q => p ≠ q ∧ p ≠ q.swap

theorem Built.edge_ends {T : Topo} {nv : Nat} {E : List (Nat × Nat)} {F R : List (List Nat)} (h : Built T nv E F R)
    {e v : Nat} (hv : T.EdgeHas e v) : ∃ p, E[e]? = some p ∧ (v = p.1 ∨ v = p.2) := by
  rw [EdgeHas_iff] at hv
  have he := (h.edges e).1 hv.1
  refine ⟨E[e], List.getElem?_eq_getElem he, ?_⟩
  have := h.ends e E[e].1 E[e].2 (List.getElem?_eq_getElem he)
  have h2 := hv.2
  unfold Topo.ends at h2
  rw [this] at h2
  simp only [Option.some.injEq] at h2
  rcases h2 with h2 | h2
  · exact Or.inl h2.symm
  · exact Or.inr h2.symm

theorem Built.edgeHas {T : Topo} {nv : Nat} {E : List (Nat × Nat)} {F R : List (List Nat)} (h : Built T nv E F R)
    {e a b : Nat} (he : E[e]? = some (a, b)) : T.EdgeHas e a ∧ T.EdgeHas e b := by
  have hl := (h.edges e).2 (List.getElem?_eq_some_iff.1 he).1
  have := h.ends e a b he
  rw [EdgeHas_iff, EdgeHas_iff]
  unfold Topo.ends
  rw [this]
  exact ⟨⟨hl, Or.inl rfl⟩, hl, Or.inr rfl⟩

theorem Built.simpleEdges {T : Topo} {nv : Nat} {E : List (Nat × Nat)} {F R : List (List Nat)} (h : Built T nv E F R)
    (hE : EdgesOk nv E) : T.SimpleEdges := by
  intro e e' a b hab h1 h2 h3 h4
  obtain ⟨p, hp, q1⟩ := h.edge_ends h1
  obtain ⟨p', hp', q2⟩ := h.edge_ends h2
  rw [hp] at hp'; injection hp' with hp'; subst hp'
  obtain ⟨q, hq, q3⟩ := h.edge_ends h3
  obtain ⟨q', hq', q4⟩ := h.edge_ends h4
  rw [hq] at hq'; injection hq' with hq'; subst hq'
  have key : p = q ∨ p = q.swap := by
    obtain ⟨x, y⟩ := p
    obtain ⟨z, w⟩ := q
    dsimp only at q1 q2 q3 q4
    simp only [Prod.swap, Prod.mk.injEq]
    omega
  obtain ⟨i1, i2⟩ := List.getElem?_eq_some_iff.1 hp
  obtain ⟨j1, j2⟩ := List.getElem?_eq_some_iff.1 hq
  have hpw := List.pairwise_iff_getElem.1 hE.once
  rcases Nat.lt_trichotomy e e' with hlt | heq | hgt
  · have := hpw e e' i1 j1 hlt
    rw [i2, j2] at this
    exact absurd key (by rintro (k | k); exact this.1 k; exact this.2 k)
  · exact heq.symm
  · have := hpw e' e j1 i1 hgt
    rw [i2, j2] at this
    exact absurd key (by rintro (k | k); exact this.1 k.symm; exact this.2 (by rw [k]; rfl))

/-- the table of faces: each a cycle of different vertices joined by edges of the table, no cycle twice, in
whichever direction -/
structure FacesOk (nv : Nat) (E : List (Nat × Nat)) (F : List (List Nat)) : Prop where
  nodup : ∀ c ∈ F, c.Nodup
  size : ∀ c ∈ F, 3 ≤ c.length ∧ c.length ≤ 30
  verts : ∀ c ∈ F, ∀ v ∈ c, v < nv
  sides : ∀ c ∈ F, ∀ a b, Next c a b → (a, b) ∈ E ∨ (b, a) ∈ E
  once : F.Pairwise fun c c' => ¬ c' ~r c ∧ ¬ c' ~r c.reverse

theorem FacesOk.init {nv : Nat} {E : List (Nat × Nat)} {F : List (List Nat)} {c : List Nat}
    (h : FacesOk nv E (F ++ [c])) : FacesOk nv E F :=
  ⟨fun x hx => h.nodup x (by simp [hx]), fun x hx => h.size x (by simp [hx]), fun x hx => h.verts x (by simp [hx]),
    fun x hx => h.sides x (by simp [hx]), (List.pairwise_append.1 h.once).1⟩

theorem edgesOf_next {c : List Nat} {p : Nat × Nat} (hp : p ∈ cyclicPairs c) : Next c p.1 p.2 := by
  obtain ⟨k, hk⟩ := List.mem_iff_getElem?.1 hp
  have hlt := (List.getElem?_eq_some_iff.1 hk).1
  rw [cyclicPairs_length] at hlt
  obtain ⟨b, h1, h2⟩ := getElem?_cyclicPairs (List.getElem?_eq_getElem hlt)
  rw [hk] at h2
  injection h2 with h2
  rw [h2]
  exact ⟨k, List.getElem?_eq_getElem hlt, h1⟩

theorem Built.seen_iff' {T : Topo} {nv : Nat} {E : List (Nat × Nat)} {F R : List (List Nat)} (h : Built T nv E F R)
    (hF : FacesOk nv E F) {f : Nat} {d : Bool} {w c : List Nat} (hf : F[f]? = some w) (hc : c ≠ []) :
    T.Seen f d c ↔ c ~r turned d w :=
  seen_iff ((h.faces f).2 (List.getElem?_eq_some_iff.1 hf).1) (h.cycles f w hf)
    (hF.nodup w (List.mem_of_getElem? hf)) hc

theorem built_face_of {T T1 : Topo} {nv : Nat} {E E' : List (Nat × Nat)} {F : List (List Nat)} {c : List Nat}
    {es : List (Nat × Bool)} (h : Built T nv E F []) (r1 : edgesFor (cyclicPairs c) T = .ok (T1, es))
    (h1 : Built T1 nv E' F []) (hF : FacesOk nv E' (F ++ [c])) :
    ∃ T', T.addFace c = .ok T' ∧ Built T' nv E' (F ++ [c]) [] := by
  have hcm : c ∈ F ++ [c] := by simp
  have hv : ∀ v ∈ c, T.sv v = .live := fun v hv => (h.verts v).2 (hF.verts c hcm v hv)
  have hs := hF.size c hcm
  have hcne : c ≠ [] := by rintro rfl; simp at hs
  obtain ⟨T1', es', T', r1', g1, n1, r2, hst, hlp, hnew, k1, k2, k3, k4⟩ := newFaceVerts_ok h.cons h.loops hv
    (hF.nodup c hcm) hs.1 hs.2 (by
      intro _ g d hg hseen
      obtain ⟨w, hw⟩ : ∃ w, F[g]? = some w := ⟨_, List.getElem?_eq_getElem ((h.faces g).1 hg)⟩
      rw [seen_iff hg (h.cycles g w hw) (hF.init.nodup w (List.mem_of_getElem? hw)) hcne] at hseen
      have := (List.pairwise_append.1 hF.once).2.2 w (List.mem_of_getElem? hw) c (by simp)
      cases d
      · exact this.2 hseen
      · exact this.1 hseen)
  rw [r1] at r1'
  injection r1' with r1'
  injection r1' with e1 e2
  subst e1; subst e2
  obtain ⟨T2, es', d', q1, -, -, q2, -⟩ := mfSetVertices_ok (T := T.mfNew.1) (f := T.nf) (vs := c) h.cons.newFace
    (upd_same _ _ _) (by rw [show T.mfNew.1.fe T.nf = none from upd_same _ _ _]; rfl) hs.2 hv
  have q3 := (edgesFor_mfNew _ r1).1
  have q4 := q3.symm.trans q1
  injection q4 with q4
  injection q4 with q5 q6
  subst q5; subst q6
  have q7 := r2.symm.trans q2
  injection q7 with q7
  have qsf : T'.sf = upd T1.sf T1.nf .live := by rw [q7]; rfl
  refine ⟨T', r2, ?_⟩
  exact
    { cons := hst.cons, loops := hst.loops
      nv := by rw [q7]; exact h1.nv
      verts := by rw [hst.ext.sv]; exact h.verts
      ne := k2.trans h1.ne
      edges := by rw [k4]; exact h1.edges
      ends := by rw [k3]; exact h1.ends
      nf := by rw [k1, h.nf]; simp
      faces := by rw [qsf]; exact fun f => live_new c h1.nf h1.faces f
      cycles := by
        intro f w hf
        rcases getElem?_snoc hf with h1 | ⟨h1, h2⟩
        · exact hst.ext.loop h.cons ((h.faces f).2 (List.getElem?_eq_some_iff.1 h1).1) (h.cycles f w h1)
        · rw [h1, h2, ← h.nf]; exact hlp
      nr := by rw [q7]; exact h1.nr
      regions := by rw [hst.ext.sr]; exact h.regions
      uses := by simp }

theorem built_face {T : Topo} {nv : Nat} {E : List (Nat × Nat)} {F : List (List Nat)} {c : List Nat}
    (h : Built T nv E F []) (hF : FacesOk nv E (F ++ [c])) :
    ∃ T', T.addFace c = .ok T' ∧ Built T' nv E (F ++ [c]) [] := by
  have hcm : c ∈ F ++ [c] := by simp
  have hv : ∀ v ∈ c, T.sv v = .live := fun v hv => (h.verts v).2 (hF.verts c hcm v hv)
  obtain ⟨T1, es, r1, -⟩ := edgesFor_ok (cyclicPairs c) T h.cons (by
    intro p hp
    exact ⟨hv _ (mem_cyclicPairs hp).1, hv _ (mem_cyclicPairs hp).2⟩)
  have hT1 : T1 = T := by
    refine edgesFor_same h.cons _ ?_ r1
    intro p hp
    refine ⟨hv _ (mem_cyclicPairs hp).1, ?_⟩
    rcases hF.sides c hcm p.1 p.2 (edgesOf_next hp) with hm | hm
    · obtain ⟨e, he⟩ := List.mem_iff_getElem?.1 hm
      exact ⟨e, h.edgeHas he⟩
    · obtain ⟨e, he⟩ := List.mem_iff_getElem?.1 hm
      exact ⟨e, (h.edgeHas he).symm⟩
  subst hT1
  exact built_face_of h r1 h hF

/-! ### edges made with the faces -/

/-- the edge `a`–`b` is added unless there is one -/
def joinE (E : List (Nat × Nat)) (p : Nat × Nat) : List (Nat × Nat) :=
  if p ∈ E ∨ p.swap ∈ E then E else E ++ [p]

theorem built_edgeFor {T : Topo} {nv : Nat} {E : List (Nat × Nat)} {F : List (List Nat)} (h : Built T nv E F []) {a b : Nat}
    (ha : a < nv) (hb : b < nv) (hab : a ≠ b) : ∃ T' q, T.edgeFor a b = .ok (T', q) ∧ Built T' nv (joinE E (a, b)) F [] := by
  have hva := (h.verts a).2 ha
  have hvb := (h.verts b).2 hb
  obtain ⟨T', e, d, r, hc, g, hl, -⟩ := edgeFor_ok h.cons hva hvb
  by_cases hE : (a, b) ∈ E ∨ (b, a) ∈ E
  · have : ∃ e, T.EdgeHas e a ∧ T.EdgeHas e b := by
      rcases hE with hm | hm
      · obtain ⟨e, he⟩ := List.mem_iff_getElem?.1 hm
        exact ⟨e, h.edgeHas he⟩
      · obtain ⟨e, he⟩ := List.mem_iff_getElem?.1 hm
        exact ⟨e, (h.edgeHas he).symm⟩
    obtain ⟨e', he'⟩ := this
    have hT := edgeFor_same h.cons hva he' r
    subst hT
    refine ⟨_, _, r, ?_⟩
    rw [show joinE E (a, b) = E from if_pos hE]
    exact h
  · have r' := r
    unfold edgeFor at r'
    rw [mvsCommonEdge_ok h.cons (alloc_of_live hva), Res.bind_ok] at r'
    cases hf : (T.ve a).find? (fun e => usesB T e (some b)) with
    | some e' =>
      exfalso
      have hm := List.mem_of_find?_eq_some hf
      have hu := List.find?_some hf
      have hlv := h.cons.veLive (alloc_of_live hva) hm
      have hea := ((h.cons.ve.mem a (alloc_of_live hva) e').1 hm).2
      have heb := usesB_iff.1 hu
      obtain ⟨p, hp, hpa⟩ := h.edge_ends (EdgeHas_iff.2 ⟨hlv, hea⟩)
      obtain ⟨p', hp', hpb⟩ := h.edge_ends (EdgeHas_iff.2 ⟨hlv, heb⟩)
      rw [hp] at hp'; injection hp' with hp'; subst hp'
      have hmem := List.mem_of_getElem? hp
      obtain ⟨x, y⟩ := p
      dsimp only at hpa hpb
      rcases hpa with rfl | rfl <;> rcases hpb with rfl | rfl
      · exact hab rfl
      · exact hE (Or.inl hmem)
      · exact hE (Or.inr hmem)
      · exact hab rfl
    | none =>
      obtain ⟨ve, r2, -⟩ := newEdge_ok h.cons hva hvb
      rw [hf] at r'
      dsimp only at r'
      rw [show T.meNew.2 = T.ne from rfl] at r'
      obtain ⟨Ta, ra, r'⟩ := Res.bind_eq_ok.1 r'
      obtain ⟨Tb, rb, r'⟩ := Res.bind_eq_ok.1 r'
      rw [ra, Res.bind_ok, rb] at r2
      injection r' with r'
      injection r' with e0 e2
      injection r2 with e1
      have e1 := e1.symm.trans e0
      refine ⟨T', _, r, ?_⟩
      rw [show joinE E (a, b) = E ++ [(a, b)] from if_neg hE]
      exact
        { cons := hc
          loops := by
            intro f hf
            rw [g.sf] at hf
            obtain ⟨ws, hw, hn⟩ := h.loops f hf
            exact ⟨ws, g.ext.loop h.cons hf hw, hn⟩
          nv := by rw [← e1]; exact h.nv
          verts := by rw [← e1]; exact h.verts
          ne := by rw [← e1]; show T.ne + 1 = _; rw [h.ne]; simp
          edges := by rw [← e1]; exact fun e => live_new (a, b) h.ne h.edges e
          ends := by
            intro e x y he
            rw [← e1]
            show upd T.ev T.ne _ e = _
            rcases getElem?_snoc he with h1 | ⟨h1, h2⟩
            · have := (List.getElem?_eq_some_iff.1 h1).1
              rw [upd_ne _ _ (by rw [h.ne]; omega)]
              exact h.ends e x y h1
            · rw [h1, ← h.ne, upd_same]
              injection h2 with h2 h3
              rw [h2, h3]
          nf := by rw [← e1]; exact h.nf
          faces := by rw [← e1]; exact h.faces
          cycles := fun f c hfc => g.ext.loop h.cons ((h.faces f).2 (List.getElem?_eq_some_iff.1 hfc).1) (h.cycles f c hfc)
          nr := by rw [← e1]; exact h.nr
          regions := by rw [← e1]; exact h.regions
          uses := by simp }

theorem built_edgesFor : ∀ (ps : List (Nat × Nat)) {T : Topo} {nv : Nat} {E : List (Nat × Nat)} {F : List (List Nat)},
    Built T nv E F [] → (∀ p ∈ ps, p.1 < nv ∧ p.2 < nv ∧ p.1 ≠ p.2) →
    ∃ T' es, edgesFor ps T = .ok (T', es) ∧ Built T' nv (ps.foldl joinE E) F [] := by
  intro ps
  induction ps with
  | nil => intro T nv E F h _; exact ⟨T, [], rfl, h⟩
  | cons p ps ih =>
    obtain ⟨a, b⟩ := p
    intro T nv E F h hp
    obtain ⟨h1, h2, h3⟩ := hp (a, b) (by simp)
    obtain ⟨T1, q, r1, k1⟩ := built_edgeFor h h1 h2 h3
    obtain ⟨T2, es, r2, k2⟩ := ih k1 (fun q hq => hp q (by simp [hq]))
    refine ⟨T2, q :: es, ?_, k2⟩
    rw [show edgesFor ((a, b) :: ps) T = (edgeFor T a b >>= fun p =>
      edgesFor ps p.1 >>= fun q => pure (q.1, p.2 :: q.2)) from rfl, r1, Res.bind_ok, r2, Res.bind_ok]
    rfl

theorem mem_joinE {E : List (Nat × Nat)} {p q : Nat × Nat} (h : p ∈ E) : p ∈ joinE E q := by
  unfold joinE; split
  · exact h
  · exact List.mem_append_left _ h

theorem mem_foldJoin : ∀ (ps : List (Nat × Nat)) {E : List (Nat × Nat)} {p : Nat × Nat}, p ∈ E → p ∈ ps.foldl joinE E
  | [], _, _, h => h
  | _ :: ps, _, _, h => mem_foldJoin ps (mem_joinE h)

theorem joined : ∀ (ps : List (Nat × Nat)) {E : List (Nat × Nat)}, ∀ p ∈ ps, p ∈ ps.foldl joinE E ∨ p.swap ∈ ps.foldl joinE E := by
  intro ps
  induction ps with
  | nil => intro E p hp; cases hp
  | cons q ps ih =>
    intro E p hp
    rcases List.mem_cons.1 hp with rfl | hp
    · rw [List.foldl_cons]
      by_cases h : p ∈ E ∨ p.swap ∈ E
      · rw [show joinE E p = E from if_pos h]
        rcases h with h | h
        · exact Or.inl (mem_foldJoin ps h)
        · exact Or.inr (mem_foldJoin ps h)
      · rw [show joinE E p = E ++ [p] from if_neg h]
        exact Or.inl (mem_foldJoin ps (by simp))
    · exact ih p hp

theorem EdgesOk.join : ∀ (ps : List (Nat × Nat)) {nv : Nat} {E : List (Nat × Nat)}, EdgesOk nv E →
    (∀ p ∈ ps, p.1 < nv ∧ p.2 < nv ∧ p.1 ≠ p.2) → EdgesOk nv (ps.foldl joinE E) := by
  intro ps
  induction ps with
  | nil => intro nv E h _; exact h
  | cons q ps ih =>
    intro nv E h hp
    rw [List.foldl_cons]
    refine ih ?_ (fun p hm => hp p (by simp [hm]))
    by_cases hq : q ∈ E ∨ q.swap ∈ E
    · rw [show joinE E q = E from if_pos hq]; exact h
    · rw [show joinE E q = E ++ [q] from if_neg hq]
      refine ⟨?_, ?_⟩
      · intro p hm
        rcases List.mem_append.1 hm with hm | hm
        · exact h.ends p hm
        · rw [List.mem_singleton.1 hm]; exact hp q (by simp)
      · rw [List.pairwise_append]
        refine ⟨h.once, List.pairwise_singleton _ _, ?_⟩
        intro p hm q' hq'
        rw [List.mem_singleton] at hq'
        subst hq'
        refine ⟨fun e => hq (Or.inl (e ▸ hm)), fun e => hq (Or.inr (e ▸ hm))⟩

/-- the edges after making the faces -/
def joinAll (cs : List (List Nat)) (E : List (Nat × Nat)) : List (Nat × Nat) :=
  cs.foldl (fun E c => (cyclicPairs c).foldl joinE E) E

theorem pairs_ne {c : List Nat} (hc : c.Nodup) (h2 : 2 ≤ c.length) {p : Nat × Nat} (hp : p ∈ cyclicPairs c) : p.1 ≠ p.2 := by
  obtain ⟨k, ha, hb⟩ := edgesOf_next hp
  have hk := (List.getElem?_eq_some_iff.1 ha).1
  intro he
  have e1 := idxOf_eq_of_nodup hc ha
  rw [he, idxOf_eq_of_nodup hc hb] at e1
  by_cases hj1 : k + 1 = c.length
  · rw [hj1, Nat.mod_self] at e1; omega
  · rw [Nat.mod_eq_of_lt (by omega)] at e1; omega

theorem built_facesNew : ∀ (cs : List (List Nat)) {T : Topo} {nv : Nat} {E : List (Nat × Nat)} {F : List (List Nat)},
    Built T nv E F [] → EdgesOk nv E → FacesOk nv E F → (∀ c ∈ cs, c.Nodup ∧ 3 ≤ c.length ∧ c.length ≤ 30 ∧ ∀ v ∈ c, v < nv) →
    ((F ++ cs).Pairwise fun c c' => ¬ c' ~r c ∧ ¬ c' ~r c.reverse) →
    ∃ T', addFaces cs T = .ok T' ∧ Built T' nv (joinAll cs E) (F ++ cs) [] ∧ EdgesOk nv (joinAll cs E) ∧
      FacesOk nv (joinAll cs E) (F ++ cs) := by
  intro cs
  induction cs with
  | nil =>
    intro T nv E F h hE hF _ _
    exact ⟨T, rfl, by rw [List.append_nil]; exact h, hE, by rw [List.append_nil]; exact hF⟩
  | cons c cs ih =>
    intro T nv E F h hE hF hc hp
    obtain ⟨c1, c2, c3, c4⟩ := hc c (by simp)
    have hps : ∀ p ∈ cyclicPairs c, p.1 < nv ∧ p.2 < nv ∧ p.1 ≠ p.2 := fun p hp =>
      ⟨c4 _ (mem_cyclicPairs hp).1, c4 _ (mem_cyclicPairs hp).2, pairs_ne c1 (by omega) hp⟩
    obtain ⟨T1, es, r1, h1⟩ := built_edgesFor (cyclicPairs c) h hps
    have hE1 := hE.join (cyclicPairs c) hps
    have hF1 : FacesOk nv ((cyclicPairs c).foldl joinE E) (F ++ [c]) := by
      refine ⟨?_, ?_, ?_, ?_, ?_⟩
      · intro x hx
        rcases List.mem_append.1 hx with hx | hx
        · exact hF.nodup x hx
        · rw [List.mem_singleton.1 hx]; exact c1
      · intro x hx
        rcases List.mem_append.1 hx with hx | hx
        · exact hF.size x hx
        · rw [List.mem_singleton.1 hx]; exact ⟨c2, c3⟩
      · intro x hx
        rcases List.mem_append.1 hx with hx | hx
        · exact hF.verts x hx
        · rw [List.mem_singleton.1 hx]; exact c4
      · intro x hx a b hab
        rcases List.mem_append.1 hx with hx | hx
        · rcases hF.sides x hx a b hab with hm | hm
          · exact Or.inl (mem_foldJoin _ hm)
          · exact Or.inr (mem_foldJoin _ hm)
        · rw [List.mem_singleton.1 hx] at hab
          obtain ⟨k, ha, hb⟩ := hab
          obtain ⟨b', hb', hm⟩ := getElem?_cyclicPairs ha
          rw [hb] at hb'; injection hb' with hb'; subst hb'
          exact joined (cyclicPairs c) (a, b) (List.mem_of_getElem? hm)
      · rw [show F ++ c :: cs = (F ++ [c]) ++ cs by simp] at hp
        exact (List.pairwise_append.1 hp).1
    obtain ⟨T2, r2, h2⟩ := built_face_of h r1 h1 hF1
    obtain ⟨T3, r3, h3, h4, h5⟩ := ih h2 hE1 hF1 (fun x hx => hc x (by simp [hx])) (by simpa using hp)
    refine ⟨T3, ?_, ?_, h4, ?_⟩
    · rw [show addFaces (c :: cs) T = (T.addFace c >>= fun T => addFaces cs T) from rfl, r2, Res.bind_ok, r3]
    · rw [List.append_assoc] at h3; exact h3
    · rw [List.append_assoc] at h5; exact h5

theorem built_faces : ∀ (cs : List (List Nat)) {T : Topo} {nv : Nat} {E : List (Nat × Nat)} {F : List (List Nat)},
    Built T nv E F [] → FacesOk nv E (F ++ cs) → ∃ T', addFaces cs T = .ok T' ∧ Built T' nv E (F ++ cs) [] := by
  intro cs
  induction cs with
  | nil => intro T nv E F h _; exact ⟨T, rfl, by rw [List.append_nil]; exact h⟩
  | cons c cs ih =>
    intro T nv E F h hF
    have hF' : FacesOk nv E (F ++ [c]) := by
      rw [show F ++ c :: cs = F ++ [c] ++ cs by simp] at hF
      exact ⟨fun x hx => hF.nodup x (List.mem_append_left _ hx), fun x hx => hF.size x (List.mem_append_left _ hx),
        fun x hx => hF.verts x (List.mem_append_left _ hx), fun x hx => hF.sides x (List.mem_append_left _ hx),
        (List.pairwise_append.1 hF.once).1⟩
    obtain ⟨T1, r1, h1⟩ := built_face h hF'
    obtain ⟨T2, r2, h2⟩ := ih h1 (by rw [List.append_assoc]; exact hF)
    refine ⟨T2, ?_, by rw [List.append_assoc] at h2; exact h2⟩
    rw [show addFaces (c :: cs) T = (T.addFace c >>= fun T => addFaces cs T) from rfl, r1, Res.bind_ok, r2]

/-- the table of regions: each a standard element of different vertices with all its faces in the table, no
face used twice from the same side -/
structure RegionsOk (nv : Nat) (F R : List (List Nat)) : Prop where
  nodup : ∀ vs ∈ R, vs.Nodup
  size : ∀ vs ∈ R, vs.length = 4 ∨ vs.length = 5 ∨ vs.length = 6 ∨ vs.length = 8
  verts : ∀ vs ∈ R, ∀ v ∈ vs, v < nv
  sides : ∀ vs ∈ R, ∀ c ∈ stdCycles vs, ∃ w ∈ F, c ~r w ∨ c ~r w.reverse
  once : R.Pairwise fun vs ws => ∀ c ∈ stdCycles vs, ∀ c' ∈ stdCycles ws, ¬ c' ~r c

theorem stdCycles_ne {vs c : List Nat} (h : c ∈ stdCycles vs) : c ≠ [] := by
  rintro rfl
  unfold stdCycles at h
  split at h <;> simp at h

theorem built_region {T : Topo} {nv : Nat} {E : List (Nat × Nat)} {F R : List (List Nat)} {vs : List Nat}
    (h : Built T nv E F R) (hE : EdgesOk nv E) (hF : FacesOk nv E F) (hR : RegionsOk nv F (R ++ [vs])) :
    ∃ T', T.addRegion vs = .ok T' ∧ Built T' nv E F (R ++ [vs]) := by
  have hvm : vs ∈ R ++ [vs] := by simp
  have hc1 := h.cons.newRegion
  have hl1 : T.mrNew.1.AllLoops := h.loops
  have hr1 : T.mrNew.1.sr T.nr = .live := upd_same _ _ _
  have hrf : T.mrNew.1.rf T.nr = none := upd_same _ _ _
  have hfree : ∀ c ∈ stdCycles vs, T.mrNew.1.FreeSide c := by
    intro c hc f d hf hseen
    have hf' : T.sf f = .live := hf
    have hseen' : T.Seen f d c := by
      obtain ⟨w, hw, hwn⟩ := h.loops f hf'
      have hw1 : T.mrNew.1.Loop f w := hw
      exact (seen_iff hf' hw hwn (stdCycles_ne hc)).2 ((seen_iff hf hw1 hwn (stdCycles_ne hc)).1 hseen)
    show endAt (T.fr f) (!d) = none
    cases ho : endAt (T.fr f) (!d) with
    | none => rfl
    | some o =>
      exfalso
      obtain ⟨h1, h2⟩ := (h.cons.fr.mem f (alloc_of_live hf') o d).1 ho
      obtain ⟨ws, hws⟩ : ∃ ws, R[o]? = some ws := ⟨_, List.getElem?_eq_getElem ((h.regions o).1 h1)⟩
      obtain ⟨-, fs, q1, q2, q3⟩ := h.uses o ws hws
      have hmf : f ∈ fs := by
        have hd := (mrFaceDir_iff h.cons h1).2 h2
        unfold mrFaces at q1
        unfold mrFaceDir at hd
        rw [q1, Res.bind_ok] at hd
        by_cases hm : f ∈ fs
        · exact hm
        · rw [if_neg hm] at hd; cases hd
      obtain ⟨i, hi⟩ := List.mem_iff_getElem?.1 hmf
      have hil := (List.getElem?_eq_some_iff.1 hi).1
      obtain ⟨c', hc'⟩ : ∃ c', (stdCycles ws)[i]? = some c' := ⟨_, List.getElem?_eq_getElem (by omega)⟩
      obtain ⟨-, d', u1, u2⟩ := q3 i c' f hc' hi
      rw [mrFaceDir_iff h.cons h1] at u1
      have hdd : d' = d := by
        have e1 := (mrFaceDir_iff h.cons h1).2 u1
        rw [(mrFaceDir_iff h.cons h1).2 h2] at e1
        injection e1 with e1
        injection e1 with e1
        exact e1.symm
      subst hdd
      obtain ⟨w, hw⟩ : ∃ w, F[f]? = some w := ⟨_, List.getElem?_eq_getElem ((h.faces f).1 hf')⟩
      have hcm' := List.mem_of_getElem? hc'
      rw [h.seen_iff' hF hw (stdCycles_ne hc)] at hseen'
      rw [h.seen_iff' hF hw (stdCycles_ne hcm')] at u2
      exact (List.pairwise_append.1 hR.once).2.2 ws (List.mem_of_getElem? hws) vs (by simp) c' hcm' c hc
        (hseen'.trans u2.symm)
  have hs1 : T.mrNew.1.SimpleEdges := h.simpleEdges hE
  obtain ⟨T', fs, a1, a2, a3, a4, a5, a6, a7, a8, -, -, a11⟩ := mrSetVertices_ok hc1 hl1 (r := T.nr) (vs := vs) hr1
    (by rw [hrf]; rfl) (hR.nodup vs hvm) (fun v hv => (h.verts v).2 (hR.verts vs hvm v hv)) (hR.size vs hvm) hfree
  obtain ⟨k1, k2, k3, k4, k5, k6, k7, k8, k9, k10, k11, k12⟩ := a11 hs1 (by
    intro c hc
    have hseen1 : ∀ g d, T.sf g = .live → T.Seen g d c → T.mrNew.1.Seen g d c := by
      intro g d hg hs
      obtain ⟨w, hw, hwn⟩ := h.loops g hg
      have hw1 : T.mrNew.1.Loop g w := hw
      have hg1 : T.mrNew.1.sf g = .live := hg
      exact (seen_iff hg1 hw1 hwn (stdCycles_ne hc)).2 ((seen_iff hg hw hwn (stdCycles_ne hc)).1 hs)
    obtain ⟨w, hw, hcw⟩ := hR.sides vs hvm c hc
    obtain ⟨g, hg⟩ := List.mem_iff_getElem?.1 hw
    have hgl : T.sf g = .live := (h.faces g).2 (List.getElem?_eq_some_iff.1 hg).1
    rcases hcw with hcw | hcw
    · exact ⟨g, true, hgl, hseen1 g true hgl ((h.seen_iff' hF hg (stdCycles_ne hc)).2 hcw)⟩
    · exact ⟨g, false, hgl, hseen1 g false hgl ((h.seen_iff' hF hg (stdCycles_ne hc)).2 hcw)⟩)
  have hloop : ∀ f c, T.sf f = .live → T.Loop f c → T'.Loop f c := by
    intro f c hf hl
    obtain ⟨es, e1, e2, e3⟩ := hl
    obtain ⟨f1, f2, f3⟩ := a7.faces f hf
    refine ⟨es, f2.trans e1, e2, ?_⟩
    intro k e he
    obtain ⟨d, d1, d2, d3⟩ := e3 k e he
    obtain ⟨l, hl, hl2⟩ : ∃ l, T.fe f = some l ∧ T.mfEdges f true none = .ok l := by
      cases hfe : T.fe f with
      | none => exact absurd e1 (mfEdges_none hfe _ _ _)
      | some l => exact ⟨l, rfl, mfEdges_plain (alloc_of_live hf) hfe⟩
    rw [e1] at hl2
    injection hl2 with hl2
    subst hl2
    have hel : T.se e = .live := h.cons.fedgesLive hf hl e (List.mem_of_getElem? he)
    obtain ⟨g1, g2⟩ := a7.edges e hel
    exact ⟨d, (f3 k).trans d1, (g2 _).trans d2, (g2 _).trans d3⟩
  have hcyc : ∀ f c, F[f]? = some c → T'.Loop f c := fun f c hf =>
    hloop f c ((h.faces f).2 (List.getElem?_eq_some_iff.1 hf).1) (h.cycles f c hf)
  have hfl : ∀ f, T'.sf f = .live ↔ f < F.length := by rw [k5]; exact h.faces
  refine ⟨T', a1, ?_⟩
  exact
    { cons := a2, loops := a3
      nv := k11.trans h.nv
      verts := by rw [k9]; exact h.verts
      ne := k1.trans h.ne
      edges := by rw [k3]; exact h.edges
      ends := by rw [k4]; exact h.ends
      nf := k2.trans h.nf
      faces := hfl
      cycles := hcyc
      nr := by rw [k10]; show T.nr + 1 = _; rw [h.nr]; simp
      regions := by rw [k8]; exact fun r => live_new vs h.nr h.regions r
      uses := by
        intro r ws hr
        rcases getElem?_snoc hr with h1 | ⟨h1, h2⟩
        · have hlt := (List.getElem?_eq_some_iff.1 h1).1
          have hne : r ≠ T.nr := by rw [h.nr]; omega
          have hrl : T.sr r = .live := (h.regions r).2 hlt
          have hrl1 : T.mrNew.1.sr r = .live := by show upd T.sr T.nr .live r = _; rw [upd_ne _ _ hne]; exact hrl
          have hrl' : T'.sr r = .live := by rw [k8]; exact hrl1
          obtain ⟨p1, gs, p2, p3, p4⟩ := h.uses r ws h1
          obtain ⟨o1, o2⟩ := a7.others r hne hrl1
          have m1 : T.mrNew.1.mrFaces r = T.mrFaces r := by
            unfold mrFaces rfaces derefR
            show (if (upd T.sr T.nr .live r).alloc then _ else _) >>= (fun _ => Res.ofOption (upd T.rf T.nr none r)) = _
            rw [upd_ne _ _ hne, upd_ne _ _ hne]
          have m2 : ∀ f, T.mrNew.1.mrFaceDir r f = T.mrFaceDir r f := by
            intro f
            have m1' : T.mrNew.1.rfaces r = T.rfaces r := m1
            unfold mrFaceDir
            rw [m1', show T.mrNew.1.rd r = T.rd r from upd_ne _ _ hne]
          refine ⟨?_, gs, (o1.trans m1).trans p2, p3, ?_⟩
          · unfold mrElementType at p1 ⊢
            rw [derefR_ok (alloc_of_live hrl), Res.bind_ok] at p1
            rw [derefR_ok (alloc_of_live hrl'), Res.bind_ok, k12 r hne, show T.mrNew.1.rt r = T.rt r from upd_ne _ _ hne]
            exact p1
          · intro i c f hc hf
            obtain ⟨-, d, u1, u2⟩ := p4 i c f hc hf
            refine ⟨hrl', d, ((o2 f).trans (m2 f)).trans u1, ?_⟩
            have hmem : (f, d) ∈ facesOf T.rf T.rd r := (mrFaceDir_iff h.cons hrl).1 u1
            have hfl' : T.sf f = .live := h.cons.fr.down r f d hrl hmem
            obtain ⟨w, hw⟩ : ∃ w, F[f]? = some w := ⟨_, List.getElem?_eq_getElem ((h.faces f).1 hfl')⟩
            have hcm := stdCycles_ne (List.mem_of_getElem? hc)
            rw [h.seen_iff' hF hw hcm] at u2
            exact (seen_iff ((hfl f).2 ((h.faces f).1 hfl')) (hcyc f w hw) (hF.nodup w (List.mem_of_getElem? hw)) hcm).2 u2
        · rw [h1, h2, ← h.nr]
          exact ⟨a8, fs, a4, a5, a6⟩ }

theorem built_regions : ∀ (vss : List (List Nat)) {T : Topo} {nv : Nat} {E : List (Nat × Nat)} {F R : List (List Nat)},
    Built T nv E F R → EdgesOk nv E → FacesOk nv E F → RegionsOk nv F (R ++ vss) →
    ∃ T', addRegions vss T = .ok T' ∧ Built T' nv E F (R ++ vss) := by
  intro cs
  induction cs with
  | nil => intro T nv E F R h _ _ _; exact ⟨T, rfl, by rw [List.append_nil]; exact h⟩
  | cons c cs ih =>
    intro T nv E F R h hE hF hR
    have hR' : RegionsOk nv F (R ++ [c]) := by
      rw [show R ++ c :: cs = R ++ [c] ++ cs by simp] at hR
      exact ⟨fun x hx => hR.nodup x (List.mem_append_left _ hx), fun x hx => hR.size x (List.mem_append_left _ hx),
        fun x hx => hR.verts x (List.mem_append_left _ hx), fun x hx => hR.sides x (List.mem_append_left _ hx),
        (List.pairwise_append.1 hR.once).1⟩
    obtain ⟨T1, r1, h1⟩ := built_region h hE hF hR'
    obtain ⟨T2, r2, h2⟩ := ih h1 hE hF (by rw [List.append_assoc]; exact hR)
    refine ⟨T2, ?_, by rw [List.append_assoc] at h2; exact h2⟩
    rw [show addRegions (c :: cs) T = (T.addRegion c >>= fun T => addRegions cs T) from rfl, r1, Res.bind_ok, r2]

/-- Building from sound tables succeeds and gives exactly the entities of the tables. -/
theorem build_ok {nv : Nat} {E : List (Nat × Nat)} {F R : List (List Nat)} (hE : EdgesOk nv E) (hF : FacesOk nv E F)
    (hR : RegionsOk nv F R) : ∃ T, build nv E F R = .ok T ∧ Built T nv E F R := by
  have h0 := built_verts nv built_empty
  rw [Nat.zero_add] at h0
  obtain ⟨T1, r1, h1⟩ := built_edges E h0 (fun p hp => ⟨(hE.ends p hp).1, (hE.ends p hp).2.1⟩)
  rw [List.nil_append] at h1
  obtain ⟨T2, r2, h2⟩ := built_faces F h1 hF
  rw [List.nil_append] at h2
  obtain ⟨T3, r3, h3⟩ := built_regions R h2 hE hF hR
  rw [List.nil_append] at h3
  refine ⟨T3, ?_, h3⟩
  unfold build
  rw [r1, Res.bind_ok, r2, Res.bind_ok, r3]

end Topo
end MSTK
