import Verif.R1MergeFaceModel
import Verif.Props.R1
/-!
C103: merging two faces in a mesh with the representation `R1`.
-/
namespace MSTK.R1M

/-! ### Specification -/

/-- what the caller knows when a face is no longer there -/
def Known.withoutFace (k : Known) (f : Nat) : Known :=
  { k with face := fun x => k.face x && x != f }

/-- Using the face in any way is undefined. -/
def FaceLost (M : Mesh1) (f : Nat) : Prop :=
  (∀ dir v, mfVertices M f dir v = .ub) ∧ mfRegions M f = .ub ∧ ∀ keep, delFace M f keep = .ub

/-- a mesh that never had regions; only such a mesh lists its faces (Mesh.c:876-877) -/
def Surface (ops : List Op) : Prop := ∀ r, Op.newR r ∉ ops

/-! ### what does not depend on the faces there are -/

theorem regionsIn_sf (M : Mesh1) (s : Nat → Stat) : ∀ l, regionsIn { M with sf := s } l = regionsIn M l
  | [] => rfl
  | r :: rs => by rw [regionsIn, regionsIn, regionsIn_sf M s rs]

theorem countIn_sf (M : Mesh1) (s : Nat → Stat) : ∀ l, countIn { M with sf := s } l = countIn M l
  | [] => rfl
  | r :: rs => by rw [countIn, countIn, countIn_sf M s rs]

theorem mvRegions_sf (M : Mesh1) (s : Nat → Stat) (v : Nat) :
    mvRegions { M with sf := s } v = mvRegions M v := by
  unfold mvRegions; rw [regionsIn_sf]

theorem mvNumRegions_sf (M : Mesh1) (s : Nat → Stat) (v : Nat) :
    mvNumRegions { M with sf := s } v = mvNumRegions M v := by
  unfold mvNumRegions; rw [countIn_sf]

theorem facing_sf (M : Mesh1) (s : Nat → Stat) (rest : List Nat) : ∀ (rs : List Nat) (b : Bool) (l : List Nat),
    facing { M with sf := s } rest rs b l = facing M rest rs b l
  | [], _, _ => rfl
  | r :: rs, b, l => by
    rw [facing, facing]
    simp only [facing_sf M s rest rs]
    rfl

theorem dirLoop_sf (M : Mesh1) (s : Nat → Stat) (r : Nat) (a b : List Int) : ∀ l,
    dirLoop { M with sf := s } r a b l = dirLoop M r a b l
  | [] => rfl
  | i :: is => by
    rw [dirLoop, dirLoop]
    simp only [dirLoop_sf M s r a b is]
    rfl

theorem mfVertices_sf {M : Mesh1} {s : Nat → Stat} {f : Nat} (h : s f = M.sf f) (d : Bool) (o : Option Nat) :
    mfVertices { M with sf := s } f d o = mfVertices M f d o := by
  unfold mfVertices
  show (derefF (s f) >>= _) = _
  rw [h]

theorem mfRegions_sf {M : Mesh1} {s : Nat → Stat} {f : Nat} (h : s f = M.sf f) :
    mfRegions { M with sf := s } f = mfRegions M f := by
  unfold mfRegions
  simp only [mvRegions_sf, facing_sf, h]

theorem faceDir_sf {M : Mesh1} {s : Nat → Stat} {f : Nat} (h : s f = M.sf f) (id : Nat → Int) (r : Nat) :
    faceDir { M with sf := s } id r f = faceDir M id r f := by
  unfold faceDir
  simp only [mfVertices_sf h, dirLoop_sf]
  rfl

theorem mrUsesFace_sf {M : Mesh1} {s : Nat → Stat} {f : Nat} (h : s f = M.sf f) (id : Nat → Int) (r : Nat) :
    mrUsesFace { M with sf := s } id r f = mrUsesFace M id r f := by
  unfold mrUsesFace
  rw [faceDir_sf h]

theorem mfRegion_sf {M : Mesh1} {s : Nat → Stat} {f : Nat} (h : s f = M.sf f) (id : Nat → Int) (b : Bool) :
    mfRegion { M with sf := s } id f b = mfRegion M id f b := by
  unfold mfRegion
  simp only [mfRegions_sf h, faceDir_sf h]

theorem answers_without {M : Mesh1} {k : Known} (h : Answers M k) (f2 : Nat) :
    Answers { M with sf := upd M.sf f2 .freed } (k.withoutFace f2) := by
  have hf : ∀ {f}, (k.withoutFace f2).face f = true →
      k.face f = true ∧ upd M.sf f2 .freed f = M.sf f := by
    intro f hf
    have h2 : (k.face f && f != f2) = true := hf
    rw [Bool.and_eq_true, bne_iff_ne] at h2
    exact ⟨h2.1, upd_ne _ _ h2.2⟩
  refine ⟨?_, h.regVertices, ?_, ?_, ?_, ?_⟩
  · intro v hv
    rw [mvRegions_sf, mvNumRegions_sf]
    exact h.vertRegions v hv
  · intro f vs hk hv
    simp only [mfVertices_sf (hf hk).2]
    exact h.faceVertices f vs (hf hk).1 hv
  · intro f vs hk hv hl
    rw [mfRegions_sf (hf hk).2]
    exact h.faceRegions f vs (hf hk).1 hv hl
  · intro id r f vs fs hu hs hk hv hl hd
    rw [faceDir_sf (hf hk).2, mrUsesFace_sf (hf hk).2]
    exact h.direction id r f vs fs hu hs (hf hk).1 hv hl hd
  · intro id f fs hk hv h2 hl hs h3 side
    rw [mfRegion_sf (hf hk).2]
    exact h.side id f fs (hf hk).1 hv h2 hl hs h3 side

theorem merge_eq {M : Mesh1} {f1 f2 : Nat} (h1 : M.sf f1 = .live) (h2 : M.sf f2 = .live) (S : List (List Nat))
    (t : Bool) (cls : Nat → Int × Int) :
    mfsMerge M S t cls f1 f2 = .ok ({ M with sf := upd M.sf f2 .freed }, S, f1) := by
  unfold mfsMerge delFace
  rw [derefF_live h1, derefF_live h2]; rfl

/-! ### the list of faces -/

theorem bind_inv {α β : Type} {x : Res α} {g : α → Res β} {b : β} (h : (x >>= g) = .ok b) :
    ∃ a, x = .ok a ∧ g a = .ok b := by
  cases x with
  | ok a => exact ⟨a, rfl, h⟩
  | ub => cases h
  | fatal => cases h
  | hang => cases h

theorem step_fl {M M' : Mesh1} {k : Known} {o : Op} (hs : step M o = .ok M')
    (h : ∀ f, k.face f = true → f ∈ M.fl) : ∀ f, (note k o).face f = true → f ∈ M'.fl := by
  intro f hf
  cases o with
  | newV v => cases hs; exact h f hf
  | newF g =>
    cases hs
    show f ∈ M.fl ++ [g]
    have h2 : upd k.face g true f = true := hf
    by_cases e : f = g
    · rw [e]; exact List.mem_append_right _ (List.mem_singleton.2 rfl)
    · rw [upd_ne _ _ e] at h2
      exact List.mem_append_left _ (h f h2)
  | setF g vs =>
    obtain ⟨_, _, h1⟩ := bind_inv hs
    cases h1; exact h f hf
  | newR r => cases hs; exact h f hf
  | setR r vs rows =>
    have hk := h f hf
    obtain ⟨_, _, h1⟩ := bind_inv hs
    obtain ⟨ve, _, h1⟩ := bind_inv h1
    split at h1
    · cases h1; exact hk
    · obtain ⟨t, _, h1⟩ := bind_inv h1
      cases h1; exact hk
  | delR r =>
    obtain ⟨_, _, h1⟩ := bind_inv hs
    obtain ⟨ve, _, h1⟩ := bind_inv h1
    cases h1; exact h f hf
  | resR r =>
    obtain ⟨_, _, h1⟩ := bind_inv hs
    obtain ⟨vs, _, h1⟩ := bind_inv h1
    obtain ⟨ve, _, h1⟩ := bind_inv h1
    cases h1; exact h f hf

theorem run_fl : ∀ (os : List Op) {M M' : Mesh1} {k : Known}, run M os = .ok M' →
    (∀ f, k.face f = true → f ∈ M.fl) → ∀ f, (os.foldl note k).face f = true → f ∈ M'.fl
  | [], _, _, _, hr, h => by cases hr; exact h
  | o :: os, M, M', k, hr, h => by
    obtain ⟨M1, h1, h2⟩ := bind_inv (show (step M o >>= fun x => run x os) = .ok M' from hr)
    exact run_fl os h2 (step_fl h1 h)

/-! ### Theorems -/

/-- **C103, partial.** Merging two faces of a mesh after any legal history answers the first face, and every
question about the vertices, the regions and all the other faces is answered as if the second face had never
been made.  What is missing is the list of faces of a mesh without regions, the sets and the classification, see the negations. -/
theorem C103_faces_partial (ops : List Op) (h : Legal nothing ops) (f1 f2 : Nat) (hne : f1 ≠ f2)
    (h1 : (ops.foldl note nothing).face f1 = true) (h2 : (ops.foldl note nothing).face f2 = true)
    (S : List (List Nat)) (topoflag : Bool) (cls : Nat → Int × Int) :
    ∃ M M' S', run empty ops = .ok M ∧ mfsMerge M S topoflag cls f1 f2 = .ok (M', S', f1) ∧
      Answers M' ((ops.foldl note nothing).withoutFace f2) ∧
      ((ops.foldl note nothing).withoutFace f2).face f1 = true := by
  obtain ⟨M, hM, hi⟩ := run_inv ops inv_empty h
  obtain ⟨M0, hM0, ha⟩ := C92_answers_partial ops h
  have e : M0 = M := by rw [hM] at hM0; cases hM0; rfl
  subst e
  have l1 : M0.sf f1 = .live := by rw [hi.sf, if_pos h1]
  have l2 : M0.sf f2 = .live := by rw [hi.sf, if_pos h2]
  refine ⟨M0, _, S, hM, merge_eq l1 l2 S topoflag cls, answers_without ha f2, ?_⟩
  show ((ops.foldl note nothing).face f1 && f1 != f2) = true
  rw [h1, Bool.true_and, bne_iff_ne]; exact hne

/-- **C103, negation.** The face that is gone stays in every set it was in, and on the list of faces if the mesh
has one, although using it in any way is undefined. -/
theorem C103_negation_list (ops : List Op) (h : Legal nothing ops) (f1 f2 : Nat)
    (h1 : (ops.foldl note nothing).face f1 = true) (h2 : (ops.foldl note nothing).face f2 = true)
    (S : List (List Nat)) (topoflag : Bool) (cls : Nat → Int × Int) :
    ∃ M M' S', run empty ops = .ok M ∧ mfsMerge M S topoflag cls f1 f2 = .ok (M', S', f1) ∧
      (Surface ops → f2 ∈ M'.fl) ∧ FaceLost M' f2 ∧
      ∀ (i : Nat) s, S[i]? = some s → f2 ∈ s → ∃ s', S'[i]? = some s' ∧ f2 ∈ s' := by
  obtain ⟨M, hM, hi⟩ := run_inv ops inv_empty h
  have l1 : M.sf f1 = .live := by rw [hi.sf, if_pos h1]
  have l2 : M.sf f2 = .live := by rw [hi.sf, if_pos h2]
  have hd : derefF (upd M.sf f2 .freed f2) = .ub := by rw [upd_same]; rfl
  refine ⟨M, _, S, hM, merge_eq l1 l2 S topoflag cls, ?_, ⟨?_, ?_, ?_⟩, fun i s hs hm => ⟨s, hs, hm⟩⟩
  · intro _
    exact run_fl ops hM (fun f hf => by cases hf) f2 h2
  · intro dir v
    unfold mfVertices
    simp only [hd]; rfl
  · unfold mfRegions
    simp only [hd]; rfl
  · intro keep
    unfold delFace
    simp only [hd]; rfl

/-- **C103, negation.** The model entities of the faces are not looked at, also when the caller asks to respect
them. -/
theorem C103_negation_class (M : Mesh1) (S : List (List Nat)) (f1 f2 : Nat) (h1 : M.sf f1 = .live)
    (h2 : M.sf f2 = .live) (cls : Nat → Int × Int) (_hc : cls f1 ≠ cls f2) :
    ∃ M' S', mfsMerge M S true cls f1 f2 = .ok (M', S', f1) ∧ M'.sf f2 = .freed :=
  ⟨_, _, merge_eq h1 h2 S true cls, upd_same ..⟩

/-- **C103, negation.** A face merged with itself is answered and is gone. -/
theorem C103_negation_self (ops : List Op) (h : Legal nothing ops) (f : Nat)
    (hf : (ops.foldl note nothing).face f = true) (S : List (List Nat)) (topoflag : Bool)
    (cls : Nat → Int × Int) :
    ∃ M M' S', run empty ops = .ok M ∧ mfsMerge M S topoflag cls f f = .ok (M', S', f) ∧ FaceLost M' f := by
  obtain ⟨M, M', S', h1, h2, _, h3, _⟩ := C103_negation_list ops h f f hf hf S topoflag cls
  exact ⟨M, M', S', h1, h2, h3⟩

/-- two tetrahedra at a triangle, which is there twice -/
def twice : List Op :=
  (List.range 5).map .newV ++
  [.newR 0, .setR 0 [0, 1, 2, 3] [], .newR 1, .setR 1 [0, 2, 1, 4] [],
   .newF 0, .setF 0 [0, 1, 2], .newF 1, .setF 1 [2, 1, 0]]

/-- the hypotheses are met, and the first face still finds both regions -/
example : Legal nothing twice ∧ (twice.foldl note nothing).face 0 = true ∧
    (twice.foldl note nothing).face 1 = true ∧
    (do let M ← run empty twice
        let x ← mfsMerge M [[1, 0]] true (fun f => (2, (f : Int))) 0 1
        pure (← mfRegions x.1 0, x.2)) = .ok (some [0, 1], [[1, 0]], 0) := by
  decide +kernel

/-- two triangles on the same vertices -/
def flat : List Op :=
  [.newV 0, .newV 1, .newV 2, .newF 0, .setF 0 [0, 1, 2], .newF 1, .setF 1 [2, 1, 0]]

/-- also in a mesh without regions, where the list of faces keeps the face that is gone -/
example : Legal nothing flat ∧ Surface flat ∧ (flat.foldl note nothing).face 0 = true ∧
    (flat.foldl note nothing).face 1 = true ∧
    (do let M ← run empty flat
        let x ← mfsMerge M [[1, 0]] true (fun f => (2, (f : Int))) 0 1
        pure (← mfVertices x.1 0 true none, x.1.fl, x.2)) = .ok (some [0, 1, 2], [0, 1], [[1, 0]], 0) :=
  ⟨by decide +kernel, fun r h => by simp [flat] at h, by decide +kernel, by decide +kernel, by decide +kernel⟩

end MSTK.R1M
