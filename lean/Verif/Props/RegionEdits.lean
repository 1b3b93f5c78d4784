import Verif.Props.Queries
import Verif.Props.Templates

/-!
C26: replacing faces of a region leaves other faces alone.  C41: the element type matches the
faces after `MR_Set_Faces` and `MR_Replace_Faces`.
-/
namespace MSTK
namespace Topo

theorem mem_zip_lookup {old : List Nat} {nu : List (Nat × Bool)} {x : Nat} {q : Nat × Bool}
    (h : (old.zip nu).lookup x = some q) : q ∈ nu := by
  induction old generalizing nu with
  | nil => simp at h
  | cons o old ih =>
    cases nu with
    | nil => simp at h
    | cons n nu =>
      rw [List.zip_cons_cons, List.lookup_cons] at h
      split at h
      · injection h with h; subst h; simp
      · exact List.mem_cons_of_mem _ (ih h)

theorem lookup_zip_some {old : List Nat} {nu : List (Nat × Bool)} (hle : old.length ≤ nu.length) {x : Nat}
    (hx : x ∈ old) : ∃ q, (old.zip nu).lookup x = some q := by
  induction old generalizing nu with
  | nil => cases hx
  | cons o old ih =>
    cases nu with
    | nil => simp at hle
    | cons n nu =>
      rw [List.zip_cons_cons, List.lookup_cons]
      split
      · exact ⟨n, rfl⟩
      · rename_i hne
        rcases List.mem_cons.1 hx with rfl | hx
        · simp at hne
        · exact ih (by simpa using hle) hx

theorem lookup_zip_at {old : List Nat} {nu : List (Nat × Bool)} (hnd : old.Nodup) {k x : Nat} {q : Nat × Bool}
    (hx : old[k]? = some x) (hq : nu[k]? = some q) : (old.zip nu).lookup x = some q := by
  induction old generalizing nu k with
  | nil => simp at hx
  | cons o old ih =>
    cases nu with
    | nil => simp at hq
    | cons n nu =>
      rw [List.zip_cons_cons, List.lookup_cons]
      cases k with
      | zero =>
        simp only [List.getElem?_cons_zero, Option.some.injEq] at hx hq
        subst hx; subst hq; simp
      | succ k =>
        rw [List.getElem?_cons_succ] at hx hq
        have hne : x ≠ o := by
          rintro rfl
          exact (List.nodup_cons.1 hnd).1 (List.mem_of_getElem? hx)
        rw [beq_false_of_ne hne]
        exact ih (List.nodup_cons.1 hnd).2 hx hq

/-- the faces of the region after the replacement -/
theorem mem_exchanged {old : List Nat} {nu F : List (Nat × Bool)} (hnd : old.Nodup)
    (hle : old.length ≤ nu.length) (hsub : ∀ f ∈ old, ∃ d, (f, d) ∈ F) (p : Nat × Bool) :
    p ∈ F.map (exchanged old nu) ++ nu.drop old.length ↔ p ∈ nu ∨ (p ∈ F ∧ p.1 ∉ old) := by
  rw [List.mem_append, List.mem_map]
  constructor
  · rintro (⟨q, hq, rfl⟩ | h)
    · unfold exchanged
      by_cases ho : q.1 ∈ old
      · obtain ⟨x, hx⟩ := lookup_zip_some hle ho
        rw [hx]; exact Or.inl (mem_zip_lookup hx)
      · rw [lookup_zip_none ho]; exact Or.inr ⟨hq, ho⟩
    · exact Or.inl (List.mem_of_mem_drop h)
  · rintro (h | ⟨h, ho⟩)
    · obtain ⟨k, hk⟩ := List.mem_iff_getElem?.1 h
      by_cases hlt : k < old.length
      · have hx := List.getElem?_eq_getElem hlt
        obtain ⟨d, hd⟩ := hsub _ (List.getElem_mem hlt)
        refine Or.inl ⟨_, hd, ?_⟩
        unfold exchanged
        rw [lookup_zip_at hnd hx hk]; rfl
      · refine Or.inr (List.mem_of_getElem? (i := k - old.length) ?_)
        rw [List.getElem?_drop, ← hk]
        congr 1; omega
    · refine Or.inl ⟨p, h, ?_⟩
      unfold exchanged
      rw [lookup_zip_none ho]; rfl

/-- **C26**, for at least as many new faces as old ones.  After `MR_Replace_Faces(r,old,nu,dirs)`
the faces of `r` are the new ones with the given directions and the old ones that were not
replaced with theirs; on every side of every face of the mesh the region is `r` exactly when `r`
uses the face from that side, and any other region is where it was.
Missing for the full property: fewer new faces than old ones (`C26_negation`). -/
theorem C26_replace_faces_partial {T : Topo} (h : T.Consistent) {r : Nat} {old : List Nat}
    {nu : List (Nat × Bool)} (hleg : T.Legal (.replaceFaces r old nu)) :
    ∃ T', T.mrReplaceFaces r old nu = .ok T' ∧ T'.Consistent ∧
      (∀ g d, T'.mrFaceDir r g = .ok (some d) ↔
        (g, d) ∈ nu ∨ (T.mrFaceDir r g = .ok (some d) ∧ g ∉ old)) ∧
      (∀ f i, T.sf f = .live → (T'.mfRegion f i = .ok (some r) ↔
        (f, !i) ∈ nu ∨ (T.mfRegion f i = .ok (some r) ∧ f ∉ old))) ∧
      (∀ f i x, T.sf f = .live → x ≠ r →
        (T'.mfRegion f i = .ok (some x) ↔ T.mfRegion f i = .ok (some x))) := by
  obtain ⟨hr, l, hl, hnd, hsub, hnun, hle, hlim, hnu, hs1, hs2⟩ := hleg
  obtain ⟨T', l', r1, hc, ho, hl', ht, hF⟩ := mrReplaceFaces_ok h hr hl hnd hsub hnun hle hlim hnu hs1 hs2
  have hr' : T'.sr r = .live := by rw [ho.sr]; exact hr
  have hmem : ∀ g d, T'.mrFaceDir r g = .ok (some d) ↔
      (g, d) ∈ nu ∨ (T.mrFaceDir r g = .ok (some d) ∧ g ∉ old) := by
    intro g d
    rw [mrFaceDir_iff hc hr', mrFaceDir_iff h hr, hF, mem_exchanged hnd hle]
    intro f hf
    exact mem_facesOf_iff.1 (by rw [hl]; exact hsub f hf)
  refine ⟨T', r1, hc, hmem, ?_, ?_⟩
  · intro f i hf
    have hf' : T'.sf f = .live := by rw [ho.sf]; exact hf
    rw [hc.agrees.faceRegions f i r hf', h.agrees.faceRegions f i r hf, hmem]
    simp [hr, hr']
  · intro f i x hf hx
    have hf' : T'.sf f = .live := by rw [ho.sf]; exact hf
    rw [hc.agrees.faceRegions f i x hf', h.agrees.faceRegions f i x hf, ho.sr]
    constructor
    · rintro ⟨a, b⟩
      refine ⟨a, ?_⟩
      rw [mrFaceDir_iff h a]
      rw [mrFaceDir_iff hc (by rw [ho.sr]; exact a)] at b
      unfold facesOf at b ⊢
      rwa [ho.rf x hx, ho.rd x hx] at b
    · rintro ⟨a, b⟩
      refine ⟨a, ?_⟩
      rw [mrFaceDir_iff hc (by rw [ho.sr]; exact a)]
      rw [mrFaceDir_iff h a] at b
      unfold facesOf at b ⊢
      rwa [ho.rf x hx, ho.rd x hx]

/-- One tetrahedron on faces 0..3 of which face 3 is used backwards by region 0; region 1 uses
face 3 from the other side; face 4 is free. -/
def mixedDirs : List Op :=
  [.newVertex, .newVertex, .newVertex,
   .newFace, .setVertices 0 [0,1,2], .newFace, .setVertices 1 [0,1,2], .newFace, .setVertices 2 [0,1,2],
   .newFace, .setVertices 3 [0,1,2], .newFace, .setVertices 4 [0,1,2],
   .newRegion, .setFaces 0 [(0,true),(1,true),(2,false),(3,true)],
   .newRegion, .setFaces 1 [(2,true)]]

/-- Replacing two faces by one: face 2, which is neither replaced nor new, loses region 1 on its
other side, although region 1 still uses it. -/
theorem C26_negation :
    answer mixedDirs (fun T => T.mfRegion 2 false) = .ok (some 1) ∧
    answer (mixedDirs ++ [.replaceFaces 0 [0,1] [(4,true)]]) (fun T => T.mfRegion 2 false) ≠ .ok (some 1) ∧
    answer (mixedDirs ++ [.replaceFaces 0 [0,1] [(4,true)]]) (fun T => T.mrFaceDir 1 2)
      = .ok (some true) := by decide +kernel

/-- The premises of `C26_replace_faces_partial` are met by a history. -/
example : ∃ T, empty.run (mixedDirs ++ [.replaceFaces 0 [1] [(4,true)]]) = .ok T ∧ T.Consistent :=
  reachable (by decide +kernel)

/-! ### element type -/

/-- The element type reported for `r` is the one that the sizes of its faces stand for. -/
def Typed (T : Topo) (r : Nat) : Prop :=
  ∃ fs sizes ty, T.mrFaces r = .ok fs ∧ T.faceSizes fs = .ok sizes ∧ T.mrElementType r = .ok ty ∧
    IsType sizes ty

theorem faceSizes_all {T : Topo} : ∀ {l : List Nat}, (∀ f ∈ l, (T.sf f).alloc) → T.Sized l →
    T.faceSizes l = .ok (l.map fun f => ((T.fe f).getD []).length) := by
  intro l
  induction l with
  | nil => intro _ _; rfl
  | cons f l ih =>
    intro h1 h2
    obtain ⟨m, hm⟩ := h2 f (by simp)
    rw [show T.faceSizes (f :: l) = (do
      let n ← T.mfNumVertices f
      let r ← faceSizes T l
      pure (n :: r)) from rfl, ih (fun x hx => h1 x (by simp [hx])) (fun x hx => h2 x (by simp [hx]))]
    unfold mfNumVertices
    rw [fedges_ok (h1 f (by simp)) hm]
    simp [hm]

theorem typeOf_isType (T : Topo) (l : List Nat) : IsType (l.map fun f => ((T.fe f).getD []).length) (typeOf T l) := by
  rw [← C41_element_type]
  unfold typeOf
  split
  · rfl
  · rename_i h
    unfold elementType
    simp only [List.length_map]
    have : l.length = 0 ∨ l.length = 1 ∨ l.length = 2 ∨ l.length = 3 ∨ 7 ≤ l.length := by omega
    rcases this with h | h | h | h | h
    · simp [h]
    · simp [h]
    · simp [h]
    · simp [h]
    · obtain ⟨k, hk⟩ : ∃ k, l.length = k + 7 := ⟨l.length - 7, by omega⟩
      simp [hk]

theorem typed_of {T : Topo} {r : Nat} {l : List Nat} (hr : (T.sr r).alloc) (hl : T.rf r = some l)
    (ht : T.rt r = typeOf T l) (hall : ∀ f ∈ l, (T.sf f).alloc) (hs : T.Sized l) : T.Typed r := by
  refine ⟨l, _, typeOf T l, rfaces_ok hr hl, faceSizes_all hall hs, ?_, typeOf_isType T l⟩
  unfold mrElementType
  rw [derefR_ok hr, ht]; rfl

/-- **C41, after MR_Set_Faces.** -/
theorem C41_after_set_faces {T : Topo} {r : Nat} {fs : List (Nat × Bool)}
    (hleg : T.Legal (.setFaces r fs)) : ∃ T', T.mrSetFaces r fs = .ok T' ∧ T'.Typed r := by
  obtain ⟨hr, he, hnd, hfree, hsz⟩ := hleg
  obtain ⟨w', h1, h2, h3⟩ := mrSetFaces_ok (T := T) (r := r) (fs := fs) (alloc_of_live hr)
    (fun p hp => alloc_of_live (hfree p hp).1) hsz
  refine ⟨_, h1, typed_of (l := fs.map (·.1)) (by exact alloc_of_live hr) (by exact upd_same _ _ _)
    (by exact upd_same _ _ _) ?_ (by exact hsz)⟩
  intro f hf
  obtain ⟨p, hp, rfl⟩ := List.mem_map.1 hf
  exact alloc_of_live (hfree p hp).1

/-- **C41, after MR_Replace_Faces.** -/
theorem C41_after_replace_faces {T : Topo} (h : T.Consistent) {r : Nat} {old : List Nat}
    {nu : List (Nat × Bool)} (hleg : T.Legal (.replaceFaces r old nu)) :
    ∃ T', T.mrReplaceFaces r old nu = .ok T' ∧ T'.Typed r := by
  obtain ⟨hr, l, hl, hnd, hsub, hnun, hle, hlim, hnu, hs1, hs2⟩ := hleg
  obtain ⟨T', l', r1, hc, ho, hl', ht, hF⟩ := mrReplaceFaces_ok h hr hl hnd hsub hnun hle hlim hnu hs1 hs2
  have hmem : ∀ f ∈ l', f ∈ l ∨ f ∈ nu.map (·.1) := by
    intro f hf
    obtain ⟨d, hd⟩ := mem_facesOf_iff.1 (show f ∈ (T'.rf r).getD [] by rw [hl']; exact hf)
    rw [hF, mem_exchanged hnd hle (fun x hx => mem_facesOf_iff.1 (by rw [hl]; exact hsub x hx))] at hd
    rcases hd with hd | ⟨hd, -⟩
    · exact Or.inr (List.mem_map_of_mem hd)
    · left
      have := mem_facesOf_iff.2 ⟨d, hd⟩
      rwa [hl] at this
  have hr' : T'.sr r = .live := by rw [ho.sr]; exact hr
  refine ⟨T', r1, typed_of (alloc_of_live hr') hl' ?_ ?_ ?_⟩
  · rw [ht]; unfold typeOf; rw [ho.fe]
  · intro f hf
    exact alloc_of_live (hc.rfacesLive hr' (by rw [hl']; exact hf))
  · intro f hf
    rw [ho.fe]
    rcases hmem f hf with hm | hm
    · exact hs1 f hm
    · exact hs2 f hm

/-- `MR_Rem_Face` leaves the element type as it was: a tetrahedron with three faces. -/
theorem C41_negation_rem_face :
    answer (twoTets ++ [.remFace 0 1]) (fun T => T.mrFaces 0) = .ok [0,2,3] ∧
    answer (twoTets ++ [.remFace 0 1]) (fun T => T.mrElementType 0) = .ok .tet := by decide +kernel

example : answer twoTets (fun T => T.mrElementType 1) = .ok .tet := by decide +kernel

end Topo
end MSTK
