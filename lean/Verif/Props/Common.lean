import Verif.Props.Queries
import Verif.Props.FaceLoops
import Mathlib.Data.List.Perm.Subperm

/-!
C42: edges and faces are found again from their vertices.

`EdgeHas`, `FaceHas` (Props/Queries) and `Loop` (TopoLoop) read the connectivity off the downward
queries; the searches go through the upward lists.
-/
namespace MSTK
namespace Topo

/-- **C42, edges.**  `MVs_CommonEdge` returns a live edge joining the two vertices, and NULL only
when there is none. -/
theorem C42_common_edge {T : Topo} (h : T.Consistent) {a b : Nat} (ha : T.sv a = .live) :
    ∃ o, T.mvsCommonEdge a b = .ok o ∧ (∀ e, o = some e → T.EdgeHas e a ∧ T.EdgeHas e b) ∧
      (o = none → ∀ e, ¬ (T.EdgeHas e a ∧ T.EdgeHas e b)) := by
  refine ⟨_, mvsCommonEdge_ok h (alloc_of_live ha), ?_, ?_⟩
  · intro e he
    have hm := (h.mem_ve ha).1 (List.mem_of_find?_eq_some he)
    have hu := List.find?_some he
    exact ⟨hm, hm.1, (meVertex_ends (alloc_of_live hm.1)).2 (usesB_iff.1 hu)⟩
  · intro hn e ⟨h1, h2⟩
    have := List.find?_eq_none.1 hn e ((h.mem_ve ha).2 h1)
    exact this (usesB_iff.2 ((meVertex_ends (alloc_of_live h2.1)).1 h2.2))

/-- For one vertex given twice the answer is any edge of the vertex, although none joins it to
itself. -/
theorem C42_negation_same_vertex :
    answer [.newVertex, .newVertex, .newEdge, .setVertex 0 false 0, .setVertex 0 true 1]
      (fun T => T.mvsCommonEdge 0 0) = .ok (some 0) := by decide +kernel

theorem findFaceE_ok {T : Topo} {es : List Nat} : ∀ (fs : List Nat),
    (∀ f ∈ fs, T.sf f = .live ∧ ∃ l, T.fe f = some l) →
    ∃ o, T.findFaceE es fs = .ok o ∧ (∀ f, o = some f → f ∈ fs ∧ ∀ e ∈ es, T.FaceHas f e) ∧
      (o = none → ∀ f ∈ fs, ¬ ∀ e ∈ es, T.FaceHas f e) := by
  intro fs
  induction fs with
  | nil => intro _; exact ⟨none, rfl, by simp, by simp⟩
  | cons f fs ih =>
    intro hfs
    obtain ⟨hf, l, hl⟩ := hfs f (by simp)
    have hp := mfEdges_plain (alloc_of_live hf) hl
    have hh : ∀ e, T.FaceHas f e ↔ e ∈ l := by
      intro e
      constructor
      · rintro ⟨_, l', h1, h2⟩
        rw [hp] at h1; injection h1 with h1; rw [h1]; exact h2
      · intro he; exact ⟨hf, l, hp, he⟩
    obtain ⟨o, h1, h2, h3⟩ := ih (fun g hg => hfs g (by simp [hg]))
    rw [show T.findFaceE es (f :: fs) = (T.mfEdges f true none >>= fun l =>
      if es.all (fun e => decide (e ∈ l)) then pure (some f) else findFaceE T es fs) from rfl, hp,
      Res.bind_ok]
    by_cases hall : es.all (fun e => decide (e ∈ l)) = true
    · rw [if_pos hall]
      refine ⟨some f, rfl, ?_, by simp⟩
      intro g hg
      injection hg with hg; subst hg
      refine ⟨by simp, fun e he => (hh e).2 ?_⟩
      simpa using List.all_eq_true.1 hall e he
    · rw [if_neg hall]
      refine ⟨o, h1, fun g hg => ⟨List.mem_cons_of_mem _ (h2 g hg).1, (h2 g hg).2⟩, ?_⟩
      intro ho g hg
      rcases List.mem_cons.1 hg with rfl | hg
      · intro hc
        exact hall (List.all_eq_true.2 fun e he => by simpa using (hh e).1 (hc e he))
      · exact h3 ho g hg

/-- **C42, faces from edges.**  `MEs_CommonFace` returns a live face with all the given edges, and
NULL only when there is none. -/
theorem C42_common_face_of_edges {T : Topo} (h : T.Consistent) {es : List Nat} (hne : es ≠ [])
    (hes : ∀ e ∈ es, T.se e = .live) :
    ∃ o, T.mesCommonFace es = .ok o ∧ (∀ f, o = some f → ∀ e ∈ es, T.FaceHas f e) ∧
      (o = none → ∀ f, ¬ ∀ e ∈ es, T.FaceHas f e) := by
  obtain ⟨e, rest, rfl⟩ := List.exists_cons_of_ne_nil hne
  have he := hes e (by simp)
  obtain ⟨L, h1, h2⟩ := meFaces_ok (alloc_of_live he)
  obtain ⟨o, h3, h4, h5⟩ := findFaceE_ok (T := T) (es := rest) (T.ef e) (by
    intro f hf
    have hb := (h.ef.mem e (alloc_of_live he) f).1 hf
    refine ⟨hb.1, ?_⟩
    have := hb.2
    unfold bounds at this
    cases hl : T.fe f with
    | none => rw [hl] at this; simp at this
    | some l => exact ⟨l, rfl⟩)
  refine ⟨o, ?_, ?_, ?_⟩
  · unfold mesCommonFace
    dsimp only
    rw [h1, Res.bind_ok, h2, h3]
  · intro f hf x hx
    obtain ⟨h6, h7⟩ := h4 f hf
    rcases List.mem_cons.1 hx with rfl | hx
    · exact (h.mem_ef he).1 h6
    · exact h7 x hx
  · intro ho f hc
    exact h5 ho f ((h.mem_ef he).2 (hc e (by simp))) (fun x hx => hc x (by simp [hx]))

/-! ### faces from vertices -/

theorem allIn_map_some (vs : List Nat) : ∀ ws : List Nat,
    allIn vs (ws.map some) = true ↔ ∀ w ∈ ws, w ∈ vs := by
  intro ws
  induction ws with
  | nil => simp [allIn]
  | cons w ws ih =>
    rw [List.map_cons, show allIn vs (some w :: ws.map some)
      = if w ∈ vs then allIn vs (ws.map some) else false from rfl]
    by_cases hw : w ∈ vs
    · rw [if_pos hw, ih]; simp [hw]
    · rw [if_neg hw]; simp [hw]

/-- The live face `f` is a loop of distinct vertices, which are the given ones in some order. -/
def FaceOn (T : Topo) (f : Nat) (vs : List Nat) : Prop :=
  T.sf f = .live ∧ ∃ ws, T.Loop f ws ∧ ws.Nodup ∧ ws.Perm vs

/-- Every face of the mesh is a loop of distinct vertices. -/
def AllLoops (T : Topo) : Prop := ∀ f, T.sf f = .live → ∃ ws, T.Loop f ws ∧ ws.Nodup

theorem Loop.unique {T : Topo} {f : Nat} {vs ws : List Nat} (hf : T.sf f = .live) (h : T.Loop f vs)
    (h' : T.Loop f ws) : vs = ws := by
  have h1 := C23_vertices hf h true
  have h2 := C23_vertices hf h' true
  rw [h1] at h2
  simp only [if_true, Res.ok.injEq] at h2
  exact List.map_injective_iff.2 (Option.some_injective _) h2

theorem findFaceV_ok {T : Topo} {vs : List Nat} (hloops : T.AllLoops) : ∀ (fs : List Nat),
    (∀ f ∈ fs, T.sf f = .live) →
    ∃ o, T.findFaceV vs fs = .ok o ∧ (∀ f, o = some f → f ∈ fs ∧ T.FaceOn f vs) ∧
      (o = none → ∀ f ∈ fs, ¬ T.FaceOn f vs) := by
  intro fs
  induction fs with
  | nil => intro _; exact ⟨none, rfl, by simp, by simp⟩
  | cons f fs ih =>
    intro hfs
    have hf := hfs f (by simp)
    obtain ⟨ws, hw, hn⟩ := hloops f hf
    obtain ⟨l, hl, -, hlen, -⟩ := hw.stored (alloc_of_live hf)
    have hnum : T.mfNumVertices f = .ok ws.length := by
      unfold mfNumVertices
      rw [fedges_ok (alloc_of_live hf) hl, Res.bind_ok, hlen]; rfl
    have hv := C23_vertices hf hw true
    simp only [if_true] at hv
    obtain ⟨o, h1, h2, h3⟩ := ih (fun g hg => hfs g (by simp [hg]))
    have later : (¬ T.FaceOn f vs) → ∃ o', T.findFaceV vs fs = .ok o' ∧
        (∀ g, o' = some g → g ∈ f :: fs ∧ T.FaceOn g vs) ∧
        (o' = none → ∀ g ∈ f :: fs, ¬ T.FaceOn g vs) := by
      intro hno
      refine ⟨o, h1, fun g hg => ⟨List.mem_cons_of_mem _ (h2 g hg).1, (h2 g hg).2⟩, ?_⟩
      intro ho g hg
      rcases List.mem_cons.1 hg with rfl | hg
      · exact hno
      · exact h3 ho g hg
    rw [show T.findFaceV vs (f :: fs) = (T.mfNumVertices f >>= fun n =>
      if n ≠ vs.length then findFaceV T vs fs
      else T.mfVertices f true none >>= fun l =>
        if allIn vs l then pure (some f) else findFaceV T vs fs) from rfl, hnum, Res.bind_ok]
    by_cases hlen' : ws.length = vs.length
    · rw [if_neg (by simpa using hlen'), hv, Res.bind_ok]
      by_cases hall : allIn vs (ws.map some) = true
      · rw [if_pos hall]
        have hsub : ws.Perm vs := by
          refine (hn.subperm ((allIn_map_some vs ws).1 hall)).perm_of_length_le ?_
          omega
        refine ⟨some f, rfl, ?_, by simp⟩
        intro g hg
        injection hg with hg; subst hg
        exact ⟨by simp, hf, ws, hw, hn, hsub⟩
      · rw [if_neg hall]
        apply later
        rintro ⟨_, xs, hx, _, hp⟩
        have := Loop.unique hf hw hx
        subst this
        exact hall ((allIn_map_some vs ws).2 fun w hw => hp.mem_iff.1 hw)
    · rw [if_pos (by simpa using hlen')]
      apply later
      rintro ⟨_, xs, hx, _, hp⟩
      have := Loop.unique hf hw hx
      subst this
      exact hlen' hp.length_eq

/-- **C42, faces from vertices, soundness.**  A face returned by `MVs_CommonFace` is live and has
exactly the given vertices. -/
theorem C42_common_face_sound {T : Topo} (h : T.Consistent) (hloops : T.AllLoops) {vs : List Nat}
    (hv : ∀ v ∈ vs, T.sv v = .live) (hlen : 2 ≤ vs.length) :
    ∃ o, T.mvsCommonFace vs = .ok o ∧ ∀ f, o = some f → T.FaceOn f vs := by
  match vs, hlen with
  | a :: b :: rest, _ =>
    obtain ⟨o, h1, h2, h3⟩ := C42_common_edge h (b := b) (hv a (by simp))
    unfold mvsCommonFace
    dsimp only
    rw [h1, Res.bind_ok]
    cases o with
    | none => exact ⟨none, rfl, by simp⟩
    | some e =>
      dsimp only
      have he := (h2 e rfl).1.1
      obtain ⟨L, a1, a2⟩ := meFaces_ok (alloc_of_live he)
      obtain ⟨o, b1, b2, b3⟩ := findFaceV_ok (vs := a :: b :: rest) hloops (T.ef e)
        (fun f hf => ((h.mem_ef he).1 hf).1)
      rw [a1, Res.bind_ok, a2]
      exact ⟨o, b1, fun f hf => (b2 f hf).2⟩

/-- **C42, faces from vertices, partial completeness.**  When some face has exactly the given
vertices, its edge between the first two of them exists and is the only edge of the mesh joining
these two, then `MVs_CommonFace` returns a face with the given vertices.  Missing: the first two
vertices not joined by an edge of the face, or joined by two edges; the code then misses the face
(the two negations below). -/
theorem C42_common_face_partial {T : Topo} (h : T.Consistent) (hloops : T.AllLoops) {a b : Nat}
    {rest : List Nat} (ha : T.sv a = .live) {f e : Nat}
    (hf : T.FaceOn f (a :: b :: rest)) (hfe : T.FaceHas f e) (hea : T.EdgeHas e a)
    (heb : T.EdgeHas e b) (huniq : ∀ e', T.EdgeHas e' a → T.EdgeHas e' b → e' = e) :
    ∃ g, T.mvsCommonFace (a :: b :: rest) = .ok (some g) ∧ T.FaceOn g (a :: b :: rest) := by
  obtain ⟨o, h1, h2, h3⟩ := C42_common_edge h (b := b) ha
  unfold mvsCommonFace
  dsimp only
  rw [h1, Res.bind_ok]
  cases o with
  | none => exact absurd ⟨hea, heb⟩ (h3 rfl e)
  | some e' =>
    have := huniq e' (h2 e' rfl).1 (h2 e' rfl).2
    subst this
    dsimp only
    obtain ⟨L, a1, a2⟩ := meFaces_ok (alloc_of_live hea.1)
    obtain ⟨o, b1, b2, b3⟩ := findFaceV_ok (vs := a :: b :: rest) hloops (T.ef e')
      (fun f hf => ((h.mem_ef hea.1).1 hf).1)
    rw [a1, Res.bind_ok, a2, b1]
    cases o with
    | none => exact absurd hf (b3 rfl f ((h.mem_ef hea.1).2 hfe))
    | some g => exact ⟨g, rfl, (b2 g rfl).2⟩

/-- A quadrilateral is not found when its first two vertices are given across the diagonal. -/
theorem C42_negation_diagonal :
    answer square (fun T => T.mvsCommonFace [0,1,2,3]) = .ok (some 0) ∧
    answer square (fun T => T.mvsCommonFace [0,2,1,3]) = .ok none := by decide +kernel

/-- A triangle is not found when the first edge found between two of its vertices is another one. -/
theorem C42_negation_parallel_edges :
    let os : List Op := [.newVertex, .newVertex, .newVertex, .newEdge, .setVertex 0 false 0,
      .setVertex 0 true 1, .newEdge, .setVertex 1 false 0, .setVertex 1 true 1, .newEdge,
      .setVertex 2 false 1, .setVertex 2 true 2, .newEdge, .setVertex 3 false 2, .setVertex 3 true 0,
      .newFace, .setEdges 0 [(1,true),(2,true),(3,true)]]
    answer os (fun T => T.mfVertices 0 true none) = .ok [some 0, some 1, some 2] ∧
    answer os (fun T => T.mvsCommonFace [0,1,2]) = .ok none := by decide +kernel

/-- Fewer than two vertices: the array is read outside its bounds. -/
theorem C42_negation_too_few (T : Topo) (v : Nat) : T.mvsCommonFace [v] = .ub ∧
    T.mvsCommonFace [] = .ub := ⟨rfl, rfl⟩

/-! ### the hypotheses are met -/

/-- executable form of `Loop` -/
def loopB (T : Topo) (f : Nat) (vs : List Nat) : Bool :=
  match T.mfEdges f true none with
  | .ok es => decide (es.length = vs.length) && (List.range es.length).all fun k =>
      match es[k]?, T.mfEdgeDir_i f k with
      | some e, .ok d => decide (T.meVertex e (!d) = .ok vs[k]?) &&
          decide (T.meVertex e d = .ok vs[(k+1) % vs.length]?)
      | _, _ => false
  | _ => false

theorem loopB_sound {T : Topo} {f : Nat} {vs : List Nat} (h : T.loopB f vs = true) : T.Loop f vs := by
  unfold loopB at h
  split at h
  · rename_i es hes
    rw [Bool.and_eq_true, decide_eq_true_iff, List.all_eq_true] at h
    refine ⟨es, hes, h.1, ?_⟩
    intro k e he
    have hk : k < es.length := (List.getElem?_eq_some_iff.1 he).1
    have := h.2 k (List.mem_range.2 hk)
    rw [he] at this
    split at this
    · rename_i e' d h1 h2
      injection h1 with h1; subst h1
      rw [Bool.and_eq_true, decide_eq_true_iff, decide_eq_true_iff] at this
      exact ⟨d, h2, this⟩
    · cases this
  · cases h

/-- executable form of `AllLoops`, with the loops given -/
def allLoopsB (T : Topo) (cert : List (List Nat)) : Bool :=
  (List.range T.nf).all fun f => decide (T.sf f ≠ .live) ||
    (T.loopB f (cert.getD f []) && decide ((cert.getD f []).Nodup))

theorem allLoopsB_sound {T : Topo} (hc : T.Consistent) {cert : List (List Nat)}
    (h : T.allLoopsB cert = true) : T.AllLoops := by
  intro f hf
  have hlt : f < T.nf := by
    by_contra hge
    rw [hc.newF f (by omega)] at hf
    cases hf
  have := List.all_eq_true.1 h f (List.mem_range.2 hlt)
  rw [Bool.or_eq_true, Bool.and_eq_true, decide_eq_true_iff, decide_eq_true_iff] at this
  rcases this with h1 | ⟨h1, h2⟩
  · exact absurd hf h1
  · exact ⟨_, loopB_sound h1, h2⟩

/-- The mesh of two tetrahedra meets the hypotheses of the face theorems, and both faces through an
edge are told apart. -/
example : ∃ T, empty.run twoTets = .ok T ∧ T.Consistent ∧ T.AllLoops ∧ (∀ v ∈ [2,0,4], T.sv v = .live) ∧
    T.mvsCommonFace [2,0,4] = .ok (some 6) ∧ T.mvsCommonFace [0,3,2] = .ok (some 3) ∧
    T.mvsCommonFace [0,3,4] = .ok none := by
  obtain ⟨T, h1, h2⟩ := reachable (os := twoTets) (by decide +kernel)
  have hq : answer twoTets (fun T => .ok (T.allLoopsB
      [[0,1,2],[0,1,3],[1,2,3],[2,0,3],[0,1,4],[1,2,4],[2,0,4]] &&
      [2,0,4].all (fun v => decide (T.sv v = .live)) &&
      decide (T.mvsCommonFace [2,0,4] = .ok (some 6)) &&
      decide (T.mvsCommonFace [0,3,2] = .ok (some 3)) &&
      decide (T.mvsCommonFace [0,3,4] = .ok none))) = .ok true := by decide +kernel
  unfold answer at hq
  rw [h1, Res.bind_ok, Res.ok.injEq] at hq
  simp only [Bool.and_eq_true, decide_eq_true_iff, List.all_eq_true] at hq
  obtain ⟨⟨⟨⟨a, b⟩, c⟩, d⟩, e⟩ := hq
  exact ⟨T, h1, h2, allLoopsB_sound h2 a, b, c, d, e⟩

end Topo
end MSTK
