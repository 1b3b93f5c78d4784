import Verif.Props.R4
/-!
C95, continued: the edges that an `R4` mesh makes on request.
-/
namespace MSTK.R4M

open R1M (Lists listOrNull deref)

theorem sideEdges_ok (fs : List Nat) : ∀ (is : List Nat) (M : Mesh4), (∀ i ∈ is, i < fs.length) →
    ∃ M' es, sideEdges M fs is = .ok (M', es) ∧ M'.en = M.en + is.length ∧ es = List.range' M.en is.length ∧
      M' = { M with en := M'.en, ends := M'.ends } ∧ (∀ e, e < M.en → M'.ends e = M.ends e) ∧
      ∀ j i, is[j]? = some i → fs[i]? = some (M'.ends (M.en + j)).1 ∧
        fs[(i + 1) % fs.length]? = some (M'.ends (M.en + j)).2 := by
  intro is
  induction is with
  | nil => intro M _; exact ⟨M, [], rfl, rfl, rfl, rfl, fun _ _ => rfl, fun j i h => by simp at h⟩
  | cons i is ih =>
    intro M hlt
    have hi : i < fs.length := hlt i (List.mem_cons_self ..)
    have hi' : (i + 1) % fs.length < fs.length := Nat.mod_lt _ (by omega)
    obtain ⟨M', es, h1, h2, h3, h4, h5, h6⟩ := ih (newEdge M fs[i] fs[(i + 1) % fs.length]).1
      (fun j hj => hlt j (List.mem_cons_of_mem _ hj))
    have hen : (newEdge M fs[i] fs[(i + 1) % fs.length]).1.en = M.en + 1 := rfl
    refine ⟨M', M.en :: es, ?_, ?_, ?_, ?_, ?_, ?_⟩
    · unfold sideEdges
      rw [List.getElem?_eq_getElem hi, Res.ofOption_some, Res.bind_ok, List.getElem?_eq_getElem hi',
        Res.ofOption_some, Res.bind_ok, h1]
      rfl
    · rw [h2, hen, List.length_cons]; omega
    · rw [h3, hen, List.length_cons, List.range'_succ]
    · rw [h4]; rfl
    · intro e he
      rw [h5 e (by rw [hen]; omega)]
      exact upd_ne _ _ (by omega)
    · intro j x hx
      cases j with
      | zero =>
        simp only [List.getElem?_cons_zero, Option.some.injEq] at hx
        subst hx
        rw [Nat.add_zero, h5 M.en (by rw [hen]; omega)]
        have : (newEdge M fs[i] fs[(i + 1) % fs.length]).1.ends M.en = (fs[i], fs[(i + 1) % fs.length]) :=
          upd_same ..
        rw [this]
        exact ⟨List.getElem?_eq_getElem hi, List.getElem?_eq_getElem hi'⟩
      | succ j =>
        have := h6 j x (by simpa using hx)
        rw [hen, show M.en + 1 + j = M.en + (j + 1) by omega] at this
        exact this

theorem inv_edges {M M' : Mesh4} {k : Known} (h : Inv M k)
    (he : M' = { M with en := M'.en, ends := M'.ends }) : Inv M' k := by
  rw [he]
  exact ⟨h.sv, h.sf, h.sr, h.noface, h.fdead, h.backed, h.noreg, h.goner, h.fv, h.rf, h.shape, h.fhas, h.vf,
    h.nodup, h.fr, h.rt⟩

theorem nextTo_ok {fs : List Nat} {a b : Nat} : nextTo fs a b = true ↔ Follows fs a b ∨ Follows fs b a := by
  unfold nextTo Follows
  rw [List.any_eq_true]
  constructor
  · rintro ⟨j, hj, h⟩
    rw [List.mem_range] at hj
    obtain ⟨h1, h2⟩ := of_decide_eq_true h
    rcases h2 with h2 | h2
    · exact Or.inl ⟨j, h1, h2⟩
    · refine Or.inr ⟨(j + fs.length - 1) % fs.length, h2, ?_⟩
      have : ((j + fs.length - 1) % fs.length + 1) % fs.length = j := by
        rw [Nat.mod_add_mod, show j + fs.length - 1 + 1 = j + fs.length by omega, Nat.add_mod_right,
          Nat.mod_eq_of_lt hj]
      rw [this]; exact h1
  · rintro (⟨i, h1, h2⟩ | ⟨i, h1, h2⟩)
    · have hi := (List.getElem?_eq_some_iff.1 h1).1
      exact ⟨i, List.mem_range.2 hi, decide_eq_true ⟨h1, Or.inl h2⟩⟩
    · have hi := (List.getElem?_eq_some_iff.1 h1).1
      have hj : (i + 1) % fs.length < fs.length := Nat.mod_lt _ (by omega)
      refine ⟨(i + 1) % fs.length, List.mem_range.2 hj, decide_eq_true ⟨h2, Or.inr ?_⟩⟩
      have : ((i + 1) % fs.length + fs.length - 1) % fs.length = i := by
        by_cases hl : i + 1 < fs.length
        · rw [Nat.mod_eq_of_lt hl, show i + 1 + fs.length - 1 = i + fs.length by omega, Nat.add_mod_right,
            Nat.mod_eq_of_lt hi]
        · have : i + 1 = fs.length := by omega
          rw [this, Nat.mod_self, Nat.mod_eq_of_lt (by omega)]; omega
      rw [this]; exact h1

/-- the edge from `a` to `b` is a side of the face -/
def Known.Side (k : Known) (f a b : Nat) : Prop :=
  ∃ vs, k.fverts f = some vs ∧ (Follows vs a b ∨ Follows vs b a)

theorem edgeFaces_ok {M : Mesh4} {k : Known} (h : Inv M k) (a b : Nat) : ∀ fs : List Nat,
    (∀ f ∈ fs, k.fverts f ≠ none) →
    ∃ l, edgeFaces M a b fs = .ok l ∧ l.Sublist fs ∧ ∀ f, f ∈ l ↔ f ∈ fs ∧ k.Side f a b := by
  intro fs
  induction fs with
  | nil => intro _; exact ⟨[], rfl, List.Sublist.refl _, fun f => by simp⟩
  | cons f fs ih =>
    intro hf
    obtain ⟨vs, hvs⟩ := Option.ne_none_iff_exists'.1 (hf f (List.mem_cons_self ..))
    obtain ⟨l, h1, h2, h3⟩ := ih (fun g hg => hf g (List.mem_cons_of_mem _ hg))
    have hmv := ((answers_ok h).faceVertices f vs (h.hasFace (by rw [hvs]; exact Option.some_ne_none _)) hvs).2.2.1
    have hside : k.Side f a b ↔ nextTo vs a b = true := by
      rw [nextTo_ok]
      constructor
      · rintro ⟨ws, hw, hh⟩; rw [hvs] at hw; cases hw; exact hh
      · exact fun hh => ⟨vs, hvs, hh⟩
    refine ⟨if nextTo vs a b then f :: l else l, ?_, ?_, ?_⟩
    · unfold edgeFaces
      rw [hmv, Res.bind_ok, Res.ofOption_some, Res.bind_ok, h1]; rfl
    · split
      · exact h2.cons_cons _
      · exact h2.cons _
    · intro g
      by_cases hb : nextTo vs a b = true
      · rw [if_pos hb, List.mem_cons, h3, List.mem_cons]
        constructor
        · rintro (rfl | ⟨hg, hs⟩)
          · exact ⟨Or.inl rfl, hside.2 hb⟩
          · exact ⟨Or.inr hg, hs⟩
        · rintro ⟨rfl | hg, hs⟩
          · exact Or.inl rfl
          · exact Or.inr ⟨hg, hs⟩
      · rw [if_neg hb, h3, List.mem_cons]
        constructor
        · rintro ⟨hg, hs⟩; exact ⟨Or.inr hg, hs⟩
        · rintro ⟨rfl | hg, hs⟩
          · exact absurd (hside.1 hs) hb
          · exact ⟨hg, hs⟩

theorem meFaces_ok {M : Mesh4} {k : Known} (h : Inv M k) (e : Nat) (hv : k.vert (M.ends e).1 = true) :
    ∃ l, Lists l (fun f => k.back f = true ∧ k.Side f (M.ends e).1 (M.ends e).2) ∧
      meFaces M e = .ok (listOrNull l) := by
  obtain ⟨l, h1, h2, h3⟩ := edgeFaces_ok h (M.ends e).1 (M.ends e).2 (M.vf (M.ends e).1)
    (fun f hf => (h.backed f ((h.vf _ f).1 hf).1).2)
  refine ⟨l, ⟨(h.nodup _).sublist h2, fun f => ?_⟩, ?_⟩
  · rw [h3, h.vf]
    constructor
    · rintro ⟨⟨hb, _⟩, hs⟩; exact ⟨hb, hs⟩
    · rintro ⟨hb, hs⟩
      refine ⟨⟨hb, ?_⟩, hs⟩
      obtain ⟨vs, hvs, hh⟩ := hs
      unfold Known.Has
      rw [hvs]
      rcases hh with ⟨i, hi, _⟩ | ⟨i, _, hi⟩
      · exact List.mem_of_getElem? hi
      · exact List.mem_of_getElem? hi
  · unfold meFaces mvFaces
    rw [R1M.deref_live (h.vlive hv), Res.bind_ok, Res.pure_eq, Res.bind_ok, h1, Res.bind_ok, Res.pure_eq]
    unfold listOrNull
    cases l <;> simp

/-- **C95, edges, in part.** In every mesh made through the interface a face with its vertices answers as many
edges as it has vertices, all different, each from one vertex to the next one around the face, and asking for
them does not change any of the other answers.  Each of these edges answers the faces that were deleted and
restored and have it as a side, in either direction.  The edges are not those of other faces and the other
faces of the edge are missing, `C95_negation_edges` and `C95_negation_edge_faces`. -/
theorem C95_edges_partial (ops : List Op) (h : Legal nothing ops) (f : Nat) (vs : List Nat)
    (hvs : (ops.foldl note nothing).fverts f = some vs) :
    ∃ M M' es, run empty ops = .ok M ∧ mfEdges M f = .ok (M', es) ∧ Answers M' (ops.foldl note nothing) ∧
      es.length = vs.length ∧ es.Nodup ∧
      ∀ (i e : Nat), es[i]? = some e →
        vs[i]? = some (M'.ends e).1 ∧ vs[(i + 1) % vs.length]? = some (M'.ends e).2 ∧
        ∃ l, Lists l (fun g => (ops.foldl note nothing).back g = true ∧
            (ops.foldl note nothing).Side g (M'.ends e).1 (M'.ends e).2) ∧
          meFaces M' e = .ok (listOrNull l) := by
  obtain ⟨M, hM, hI⟩ := run_inv ops inv_empty h
  obtain ⟨M', es, h1, h2, h3, h4, _, h6⟩ := sideEdges_ok vs (List.range vs.length) M
    (fun i hi => List.mem_range.1 hi)
  rw [List.length_range] at h2 h3
  have hI' := inv_edges hI h4
  refine ⟨M, M', es, hM, ?_, answers_ok hI', by rw [h3, List.length_range'], by rw [h3]; exact List.nodup_range',
    fun i e hie => ?_⟩
  · unfold mfEdges
    rw [hI.fthere (hI.hasFace (by rw [hvs]; exact Option.some_ne_none _)), Res.bind_ok, hI.fv, hvs,
      Res.ofOption_some, Res.bind_ok, h1]
  · have hi : i < vs.length := by
      have := (List.getElem?_eq_some_iff.1 hie).1
      rwa [h3, List.length_range'] at this
    rw [h3, List.getElem?_range' hi] at hie
    have he : M.en + i = e := by simpa using hie
    subst he
    obtain ⟨ha, hb⟩ := h6 i i (List.getElem?_range hi)
    refine ⟨ha, hb, meFaces_ok hI' _ ?_⟩
    exact hI.fhas f _ (by unfold Known.Has; rw [hvs]; exact List.mem_of_getElem? ha)

theorem mfEdges_new {M M' : Mesh4} {f : Nat} {es : List Nat} (h : mfEdges M f = .ok (M', es)) :
    es = List.range' M.en es.length ∧ M'.en = M.en + es.length := by
  unfold mfEdges at h
  obtain ⟨_, _, h⟩ := Res.bind_eq_ok.1 h
  obtain ⟨fs, _, h⟩ := Res.bind_eq_ok.1 h
  obtain ⟨M1, es1, h1, h2, h3, _⟩ := sideEdges_ok fs (List.range fs.length) M (fun i hi => List.mem_range.1 hi)
  rw [h1] at h
  cases h
  rw [List.length_range] at h2 h3
  have : es.length = fs.length := by rw [h3, List.length_range']
  exact ⟨by rw [this]; exact h3, by rw [h2, this]⟩

/-- **C95, edges, negation.** No edge is ever answered twice: the edges of a face have nothing in common with
those of any face asked for before, be it a neighbour or the same face. -/
theorem C95_negation_edges (M M1 M2 : Mesh4) (f g : Nat) (es es' : List Nat) (h : mfEdges M f = .ok (M1, es))
    (h' : mfEdges M1 g = .ok (M2, es')) : ∀ e ∈ es, e ∉ es' := by
  obtain ⟨h1, h2⟩ := mfEdges_new h
  obtain ⟨h3, _⟩ := mfEdges_new h'
  intro e he he'
  rw [h1] at he
  rw [h3] at he'
  rw [List.mem_range'_1] at he he'
  omega

/-- **C95, edges, negation.** Unless faces are deleted and restored, no edge has a face: not even the face it
was asked for. -/
theorem C95_negation_edge_faces (ops : List Op) (h : Legal nothing ops) (hn : ∀ f, Op.resF f ∉ ops) (f : Nat)
    (vs : List Nat) (hvs : (ops.foldl note nothing).fverts f = some vs) :
    ∃ M M' es, run empty ops = .ok M ∧ mfEdges M f = .ok (M', es) ∧ ∀ e ∈ es, meFaces M' e = .ok none := by
  obtain ⟨M, M', es, h1, h2, _, _, _, h6⟩ := C95_edges_partial ops h f vs hvs
  refine ⟨M, M', es, h1, h2, fun e he => ?_⟩
  obtain ⟨i, hi⟩ := List.getElem?_of_mem he
  obtain ⟨_, _, l, hl, hm⟩ := h6 i e hi
  rw [hm]
  cases l with
  | nil => rfl
  | cons g l =>
    have := ((hl.2 g).1 (List.mem_cons_self ..)).1
    rw [no_back ops nothing hn (fun _ => rfl)] at this
    cases this

/-- what a question answers after a history -/
def ran (ops : List Op) (q : Mesh4 → Bool) : Bool :=
  match run empty ops with
  | .ok M => q M
  | _ => false

/-- two tets: the edges of face 1, which was restored, and then those of face 4, which was not -/
example : Legal nothing twoTets ∧ (twoTets.foldl note nothing).fverts 1 = some [0, 1, 3] ∧
    (ran twoTets fun M => match mfEdges M 1 with
      | .ok (M1, es) => decide (es = [0, 1, 2] ∧ es.map M1.ends = [(0, 1), (1, 3), (3, 0)] ∧
          es.map (meFaces M1) = [.ok (some [1]), .ok (some [1]), .ok (some [1])]) &&
        (match mfEdges M1 4 with
        | .ok (M2, es) => decide (es = [3, 4, 5] ∧ es.map M2.ends = [(0, 1), (1, 4), (4, 0)] ∧
            es.map (meFaces M2) = [.ok (some [1]), .ok none, .ok none])
        | _ => false)
      | _ => false) = true := by decide +kernel

/-- without restored faces the edges have no faces -/
example : ∃ M M' es, run empty (twoTets.take 20) = .ok M ∧ mfEdges M 1 = .ok (M', es) ∧
    ∀ e ∈ es, meFaces M' e = .ok none :=
  C95_negation_edge_faces (twoTets.take 20) (by decide +kernel) (by
    intro f hf
    simp [twoTets, List.range_succ] at hf) 1 [0, 1, 3] (by decide +kernel)

end MSTK.R4M
