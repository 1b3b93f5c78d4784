import Verif.Props.Queries

/-!
C27: `XX_Delete(x, 1)` followed by `XX_Restore(x)` changes no adjacency answer.

Specification: `SameAnswers` compares the answers of the query functions before and after.  The
downward queries and the regions of a face return the same; the queries that return a set return
the same entities, in a possibly different order.
-/
namespace MSTK
namespace Topo

/-- two answers list the same entities, each as often -/
def SameList (a b : Res (Option (List Nat))) : Prop :=
  ∃ L L', a = .ok L ∧ b = .ok L' ∧ (L.getD []).Perm (L'.getD [])

/-- The answers of the adjacency queries in two states of the mesh. -/
structure SameAnswers (T T' : Topo) : Prop where
  /-- the same entities are in the mesh -/
  vertices : T'.sv = T.sv
  edges : T'.se = T.se
  faces : T'.sf = T.sf
  regions : T'.sr = T.sr
  edgeVertex : ∀ e i, T'.meVertex e i = T.meVertex e i
  faceEdges : ∀ f dir v0, T'.mfEdges f dir v0 = T.mfEdges f dir v0
  faceVertices : ∀ f dir v0, T'.mfVertices f dir v0 = T.mfVertices f dir v0
  faceEdgeDir : ∀ f e, T'.mfEdgeDir f e = T.mfEdgeDir f e
  regionFaces : ∀ r, T'.mrFaces r = T.mrFaces r
  regionFaceDir : ∀ r f, T'.mrFaceDir r f = T.mrFaceDir r f
  faceRegion : ∀ f i, T.sf f = .live → T'.mfRegion f i = T.mfRegion f i
  vertexEdges : ∀ v, T.sv v = .live → SameList (T.mvEdges v) (T'.mvEdges v)
  vertexFaces : ∀ v, T.sv v = .live → SameList (T.mvFaces v) (T'.mvFaces v)
  vertexRegions : ∀ v, T.sv v = .live → SameList (T.mvRegions v) (T'.mvRegions v)
  edgeFaces : ∀ e, T.se e = .live → SameList (T.meFaces e) (T'.meFaces e)
  edgeRegions : ∀ e, T.se e = .live → SameList (T.meRegions e) (T'.meRegions e)

/-! ### helpers -/

theorem Layer.perm {sl : Nat → Stat} {up up' : Nat → List Nat} {su : Nat → Stat}
    {bd : Nat → Nat → Prop} (h : Layer sl up su bd)
    (hp : ∀ x, (sl x).alloc → (up x).Perm (up' x)) : Layer sl up' su bd where
  mem := fun x hx y => by rw [← (hp x hx).mem_iff]; exact h.mem x hx y
  nodup := fun x hx => (hp x hx).nodup_iff.1 (h.nodup x hx)
  down := h.down

theorem sameList_of {a b : Res (Option (List Nat))} {L L' : Option (List Nat)} {p : Nat → Prop}
    (h1 : a = .ok L) (h2 : b = .ok L') (n1 : (L.getD []).Nodup) (n2 : (L'.getD []).Nodup)
    (m1 : ∀ x, x ∈ L.getD [] ↔ p x) (m2 : ∀ x, x ∈ L'.getD [] ↔ p x) : SameList a b :=
  ⟨L, L', h1, h2, (List.perm_ext_iff_of_nodup n1 n2).2 fun x => by rw [m1, m2]⟩

theorem findStart_congr {T T' : Topo} (h : ∀ e i, T'.meVertex e i = T.meVertex e i) (l : List Nat)
    (d : BitVec 64) (dir : Bool) (v0 : Nat) : ∀ n i,
    T'.findStart l d dir v0 n i = T.findStart l d dir v0 n i := by
  have hf : ∀ i, T'.faceVertexAt l d dir i = T.faceVertexAt l d dir i := by
    intro i; unfold faceVertexAt; simp only [h]
  intro n
  induction n with
  | zero => intro i; rfl
  | succ n ih => intro i; simp only [findStart, hf, ih]

theorem visit_congr {T T' : Topo} (h : ∀ e i, T'.meVertex e i = T.meVertex e i) (l : List Nat)
    (d : BitVec 64) (dir : Bool) (v0 : Option Nat) : T'.visit l d dir v0 = T.visit l d dir v0 := by
  cases v0 with
  | none => rfl
  | some v => simp only [visit, findStart_congr h]

/-- Only the upward lists were written, and they are as before up to order. -/
theorem sameAnswers_of {T : Topo} (h : T.Consistent) {ve ef : Nat → List Nat}
    {fr : Nat → Option Nat × Option Nat}
    (hve : ∀ v, (T.sv v).alloc → (T.ve v).Perm (ve v))
    (hef : ∀ e, (T.se e).alloc → (T.ef e).Perm (ef e))
    (hfr : ∀ f, (T.sf f).alloc → T.fr f = fr f) :
    SameAnswers T { T with ve := ve, ef := ef, fr := fr } ∧
      Consistent { T with ve := ve, ef := ef, fr := fr } := by
  have h' : Consistent { T with ve := ve, ef := ef, fr := fr } := by
    refine ⟨h.ve.perm hve, h.ef.perm hef, ⟨?_, h.fr.down⟩, h.reg, h.newV, h.newE, h.newF, h.newR⟩
    intro f hf r d
    show endAt (fr f) (!d) = some r ↔ _
    rw [← hfr f hf]
    exact h.fr.mem f hf r d
  refine ⟨?_, h'⟩
  refine ⟨rfl, rfl, rfl, rfl, fun _ _ => rfl, ?_, ?_, fun _ _ => rfl,
    fun _ => rfl, fun _ _ => rfl, ?_, ?_, ?_, ?_, ?_, ?_⟩
  · intro f dir v0
    simp only [mfEdges, visit_congr (T := T) (T' := { T with ve := ve, ef := ef, fr := fr })
      (fun _ _ => rfl)]
    rfl
  · intro f dir v0
    simp only [mfVertices, visit_congr (T := T) (T' := { T with ve := ve, ef := ef, fr := fr })
      (fun _ _ => rfl)]
    rfl
  · intro f i hf
    rw [mfRegion_ok (by exact alloc_of_live hf), mfRegion_ok (alloc_of_live hf), hfr f (alloc_of_live hf)]
  · intro v hv
    obtain ⟨L, a1, a2⟩ := mvEdges_getD (alloc_of_live hv)
    obtain ⟨L', b1, b2⟩ := mvEdges_getD (T := { T with ve := ve, ef := ef, fr := fr }) (alloc_of_live hv)
    exact ⟨L, L', a1, b1, by rw [a2, b2]; exact hve v (alloc_of_live hv)⟩
  · intro v hv
    obtain ⟨L, a1, a2, a3⟩ := C22_vertex_faces h hv
    obtain ⟨L', b1, b2, b3⟩ := C22_vertex_faces h' hv
    exact sameList_of a1 b1 a2 b2 a3 b3
  · intro v hv
    obtain ⟨L, a1, a2, a3⟩ := C22_vertex_regions h hv
    obtain ⟨L', b1, b2, b3⟩ := C22_vertex_regions h' hv
    exact sameList_of a1 b1 a2 b2 a3 b3
  · intro e he
    obtain ⟨L, a1, a2⟩ := meFaces_ok (alloc_of_live he)
    obtain ⟨L', b1, b2⟩ := meFaces_ok (T := { T with ve := ve, ef := ef, fr := fr }) (alloc_of_live he)
    exact ⟨L, L', a1, b1, by rw [a2, b2]; exact hef e (alloc_of_live he)⟩
  · intro e he
    obtain ⟨L, a1, a2, a3⟩ := C22_edge_regions h he
    obtain ⟨L', b1, b2, b3⟩ := C22_edge_regions h' he
    exact sameList_of a1 b1 a2 b2 a3 b3

theorem upd_back {α : Type} {s : Nat → α} {x : Nat} {a b : α} (h : s x = b) :
    upd (upd s x a) x b = s := by
  funext z
  by_cases hz : z = x
  · subst hz; rw [upd_same, h]
  · rw [upd_ne _ _ hz, upd_ne _ _ hz]

/-! ### the properties -/

/-- **C27, vertices.** -/
theorem C27_vertex {T : Topo} (h : T.Consistent) {v : Nat} (hv : T.sv v = .live) :
    ∃ T1 T2, T.mvDelete v true = .ok T1 ∧ T1.sv v ≠ .live ∧ T1.mvRestore v = .ok T2 ∧
      SameAnswers T T2 ∧ T2.Consistent := by
  refine ⟨{ T with sv := upd T.sv v .kept }, { T with sv := upd (upd T.sv v .kept) v .live }, ?_, ?_, ?_, ?_⟩
  · unfold mvDelete
    rw [derefV_ok (alloc_of_live hv)]; rfl
  · show upd T.sv v .kept v ≠ _
    rw [upd_same]; simp
  · unfold mvRestore
    rw [derefV_ok (by show (upd T.sv v .kept v).alloc = true; rw [upd_same]; rfl)]; rfl
  · rw [upd_back hv]
    exact sameAnswers_of h (fun _ _ => List.Perm.refl _) (fun _ _ => List.Perm.refl _) (fun _ _ => rfl)

/-- **C27, edges.**  The edge has both its vertices. -/
theorem C27_edge {T : Topo} (h : T.Consistent) {e a b : Nat} (he : T.se e = .live)
    (h0 : T.meVertex e false = .ok (some a)) (h1 : T.meVertex e true = .ok (some b)) :
    ∃ T1 T2, T.meDelete e true = .ok T1 ∧ T1.se e ≠ .live ∧ T1.meRestore e = .ok T2 ∧
      SameAnswers T T2 ∧ T2.Consistent := by
  have hal := alloc_of_live he
  rw [meVertex_ok hal] at h0 h1
  simp only [endAt, Res.ok.injEq, Bool.false_eq_true, if_false, if_true] at h0 h1
  have hev : T.ev e = (some a, some b) := by rw [← h0, ← h1]
  have ha : T.sv a = .live := h.ve.down e a he (Or.inl h0)
  have hb : T.sv b = .live := h.ve.down e b he (Or.inr h1)
  have hends : ∀ x, ends T.ev e x ↔ x ∈ [a, b] := by
    intro x; unfold ends; rw [hev]; simp [eq_comm]
  refine ⟨_, { T with ve := addAll (remAll (remAll T.ve e [a]) e [b]) e [a, b],
                      se := upd (upd T.se e .kept) e .live },
    meDelete_ok he (fun v hv => alloc_of_live (h.ve.down e v he hv)), ?_, ?_, ?_⟩
  · show upd T.se e .kept e ≠ _
    rw [upd_same]; simp
  · unfold meRestore
    rw [derefE_ok (by show (upd T.se e .kept e).alloc = true; rw [upd_same]; rfl), Res.bind_ok]
    simp only [hev, addToEnd]
    rw [mvAddEdge_ok (by exact alloc_of_live ha), Res.bind_ok]
    simp only [hev]
    rw [mvAddEdge_ok (by exact alloc_of_live hb)]
    rfl
  · rw [upd_back he]
    refine sameAnswers_of h ?_ (fun _ _ => List.Perm.refl _) (fun _ _ => rfl)
    intro x hx
    obtain ⟨a1, a2⟩ := remAll_spec e [a] T.ve x (h.ve.nodup x hx)
    obtain ⟨b1, b2⟩ := remAll_spec e [b] _ x a1
    obtain ⟨c1, c2⟩ := addAll_spec e [a, b] (remAll (remAll T.ve e [a]) e [b]) x
    refine (List.perm_ext_iff_of_nodup (h.ve.nodup x hx) (c1 b1)).2 fun z => ?_
    rw [c2, b2, a2]
    by_cases hz : z = e
    · subst hz
      rw [h.ve.mem x hx, hends]
      simp only [he, List.mem_cons, List.not_mem_nil, or_false, true_and]
      by_cases p : x = a <;> by_cases q : x = b <;> simp [p, q]
    · simp [hz]

/-- An edge that lacks one of its vertices can be deleted but not restored: `ME_Restore` passes a
NULL vertex on. -/
theorem C27_negation_edge_without_vertex {T : Topo} {e : Nat} (he : (T.se e).alloc)
    (h0 : T.meVertex e false = .ok none) : T.meRestore e = .ub := by
  rw [meVertex_ok he] at h0
  simp only [endAt, Res.ok.injEq, Bool.false_eq_true, if_false] at h0
  unfold meRestore
  rw [derefE_ok he, Res.bind_ok]
  simp only [h0, addToEnd, Res.bind_ub]

/-- **C27, faces.** -/
theorem C27_face {T : Topo} (h : T.Consistent) {f : Nat} {es : List Nat} (hf : T.sf f = .live)
    (hes : T.mfEdges f true none = .ok es) :
    ∃ T1 T2, T.mfDelete f true = .ok T1 ∧ T1.sf f ≠ .live ∧ T1.mfRestore f = .ok T2 ∧
      SameAnswers T T2 ∧ T2.Consistent := by
  have hal := alloc_of_live hf
  obtain ⟨l, hl⟩ : ∃ l, T.fe f = some l := by
    cases hl : T.fe f with
    | none => exact absurd hes (mfEdges_none hl _ _ _)
    | some l => exact ⟨l, rfl⟩
  have hd : ∀ e ∈ (T.fe f).getD [], (T.se e).alloc := fun e he => alloc_of_live (h.ef.down f e hf he)
  refine ⟨_, { T with ef := addAll (remAll T.ef f l) f l, sf := upd (upd T.sf f .kept) f .live },
    mfDelete_ok hf hd, ?_, ?_, ?_⟩
  · show upd T.sf f .kept f ≠ _
    rw [upd_same]; simp
  · unfold mfRestore
    rw [fedges_ok (l := l) (by show (upd T.sf f .kept f).alloc = true; rw [upd_same]; rfl) (by exact hl),
      Res.bind_ok, meAddFaceAll_ok f l _ (by intro e he; exact hd e (by rw [hl]; exact he))]
    simp only [hl, Option.getD_some]
    rfl
  · rw [upd_back hf]
    refine sameAnswers_of h (fun _ _ => List.Perm.refl _) ?_ (fun _ _ => rfl)
    intro x hx
    obtain ⟨a1, a2⟩ := remAll_spec f l T.ef x (h.ef.nodup x hx)
    obtain ⟨c1, c2⟩ := addAll_spec f l (remAll T.ef f l) x
    refine (List.perm_ext_iff_of_nodup (h.ef.nodup x hx) (c1 a1)).2 fun z => ?_
    rw [c2, a2]
    by_cases hz : z = f
    · subst hz
      rw [h.ef.mem x hx]
      unfold bounds
      simp only [hf, hl, Option.getD_some, true_and]
      by_cases p : x ∈ l <;> simp [p]
    · simp [hz]

/-- **C27, regions.** -/
theorem C27_region {T : Topo} (h : T.Consistent) {r : Nat} {fs : List Nat} (hr : T.sr r = .live)
    (hfs : T.mrFaces r = .ok fs) :
    ∃ T1 T2, T.mrDelete r true = .ok T1 ∧ T1.sr r ≠ .live ∧ T1.mrRestore r = .ok T2 ∧
      SameAnswers T T2 ∧ T2.Consistent := by
  have hal := alloc_of_live hr
  obtain ⟨l, hl⟩ : ∃ l, T.rf r = some l := by
    cases hl : T.rf r with
    | none =>
      unfold mrFaces rfaces at hfs
      rw [derefR_ok hal, Res.bind_ok, hl] at hfs
      cases hfs
    | some l => exact ⟨l, rfl⟩
  have hok := h.reg r l hal hl
  have hfl : ∀ f ∈ l, T.sf f = .live := fun f hf => h.rfacesLive hr (by rw [hl]; exact hf)
  refine ⟨_, { T with fr := addSlots (remSlots T.fr r l) r (pairs l (rbit (T.rd r))),
                      sr := upd (upd T.sr r .kept) r .live },
    mrDelete_ok hr (h.rfacesNodup hal) (fun f hf => alloc_of_live (h.rfacesLive hr hf)), ?_, ?_, ?_⟩
  · show upd T.sr r .kept r ≠ _
    rw [upd_same]; simp
  · unfold mrRestore
    rw [rfaces_ok (l := l) (by show (upd T.sr r .kept r).alloc = true; rw [upd_same]; rfl) (by exact hl),
      Res.bind_ok, restoreFaces_ok r _ l 0 _ (by
      intro k hk; exact hok.word (by omega)) (by
      intro f hf; exact alloc_of_live (hfl f hf))]
    simp only [Nat.zero_add, hl, Option.getD_some]
    rfl
  · rw [upd_back hr]
    refine sameAnswers_of h (fun _ _ => List.Perm.refl _) (fun _ _ => List.Perm.refl _) ?_
    intro f hf
    have key : ∀ d, endAt (addSlots (remSlots T.fr r l) r (pairs l (rbit (T.rd r))) f) (!d)
        = endAt (T.fr f) (!d) := by
      intro d
      rw [addSlots_spec]
      have hm := h.fr.mem f hf r d
      rw [facesOf_some hl] at hm
      split
      · rename_i hp
        exact (hm.2 ⟨hr, hp⟩).symm
      · rename_i hp
        have hne : endAt (T.fr f) (!d) ≠ some r := fun hc => hp (hm.1 hc).2
        unfold remSlots
        split
        · apply Option.ext
          intro z
          rw [endAt_remRegion (h.notBoth hf)]
          exact ⟨fun hz => hz.1, fun hz => ⟨hz, by rintro rfl; exact hne hz⟩⟩
        · rfl
    have k1 := key true
    have k0 := key false
    simp only [endAt, Bool.not_true, Bool.not_false, Bool.false_eq_true, if_false, if_true] at k0 k1
    exact Prod.ext k1.symm k0.symm

/-- The hypotheses on the mesh of two tetrahedra, and the effect there: the order in which a vertex
lists its edges changes. -/
example : empty.legalRunB twoTets = true ∧
    answer twoTets (fun T => T.meVertex 0 false) = .ok (some 0) ∧
    answer twoTets (fun T => T.meVertex 0 true) = .ok (some 1) ∧
    answer twoTets (fun T => T.mfEdges 0 true none) = .ok [0,1,2] ∧
    answer twoTets (fun T => T.mrFaces 1) = .ok [0,4,5,6] ∧
    answer twoTets (fun T => T.mvEdges 0) = .ok (some [0,2,4,7]) ∧
    answer (twoTets ++ [.delEdge 0 true]) (fun T => T.mvEdges 0) = .ok (some [2,4,7]) ∧
    answer (twoTets ++ [.delEdge 0 true, .restoreEdge 0]) (fun T => T.mvEdges 0)
      = .ok (some [2,4,7,0]) := by decide +kernel

end Topo
end MSTK
