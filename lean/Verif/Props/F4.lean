import Verif.F4Model
import Mathlib.Data.List.Nodup
/-!
C89: upward adjacency in a mesh with the representation `F4`.
-/
namespace MSTK.F4M

/-! ### Specification -/

/-- the calls that make up a history of the mesh -/
inductive Op where
  | newV (v : Nat)
  | newE (e a b : Nat)
  | newF (f : Nat) (es : List Nat)
  | newR (r : Nat) (fs : List (Nat × Bool))
  | delR (r : Nat) (keep : Bool)
  | resR (r : Nat)
  | delF (f : Nat)
  | resF (f : Nat)

/-- `delF` is the temporary deletion of a face -/
def step (M : Mesh4) : Op → Res Mesh4
  | .newV v => newVertex M v
  | .newE e a b => newEdge M e a b
  | .newF f es => newFace M f es
  | .newR r fs => newRegion M r fs
  | .delR r keep => delRegion M r keep
  | .resR r => restoreRegion M r
  | .delF f => delFace M f true
  | .resF f => restoreFace M f

def run (M : Mesh4) : List Op → Res Mesh4
  | [] => .ok M
  | o :: os => do run (← step M o) os

/-- `v` is an end of the edge -/
def Ends (M : Mesh4) (e v : Nat) : Prop := (M.ev e).1 = v ∨ (M.ev e).2 = v

/-- the edge is an edge of a face of the region -/
def EdgeOfRegion (M : Mesh4) (r e : Nat) : Prop := ∃ f ∈ M.facesOf r, e ∈ M.fe f

/-- New entities get storage that is not in use, the parts of a new entity exist, the edges of a face
close a loop (every end of an edge is the end of another than the last), a face is not deleted while
a region has it and a region is restored after its faces. -/
def Op.legal (M : Mesh4) : Op → Prop
  | .newV v => M.sv v = .unused
  | .newE e a b => M.se e = .unused ∧ M.sv a = .live ∧ M.sv b = .live
  | .newF f es => M.sf f = .unused ∧ es ≠ [] ∧ (∀ e ∈ es, M.se e = .live) ∧
      ∀ e ∈ es, ∀ v, Ends M e v → ∃ e' ∈ es.dropLast, Ends M e' v
  | .newR r fs => M.sr r = .unused ∧ ∀ p ∈ fs, M.sf p.1 = .live
  | .delR r keep => M.sr r = .live ∨ (M.sr r = .kept ∧ keep = false)
  | .resR r => M.sr r = .kept ∧ ∀ f ∈ M.facesOf r, M.sf f = .live
  | .delF f => M.sf f = .live ∧ ∀ r, M.sr r = .live → f ∉ M.facesOf r
  | .resF f => M.sf f = .kept

def LegalRun (M : Mesh4) : List Op → Prop
  | [] => True
  | o :: os => o.legal M ∧ ∀ M', step M o = .ok M' → LegalRun M' os

/-- which regions were restored after a temporary deletion and not deleted since -/
def restored (K : Nat → Bool) : List Op → Nat → Bool
  | [] => K
  | .resR r :: os => restored (upd K r true) os
  | .delR r _ :: os => restored (upd K r false) os
  | _ :: os => restored K os

/-- a list without repetitions of the things with a property -/
def Lists (l : List Nat) (P : Nat → Prop) : Prop := l.Nodup ∧ ∀ x, x ∈ l ↔ P x

/-- What the queries answer, where `K` says which regions the mesh knows of. -/
structure Answers (M : Mesh4) (K : Nat → Bool) : Prop where
  vertEdges : ∀ v, M.sv v = .live → ∃ l, mvEdges M v = .ok l ∧
    Lists l fun e => M.se e = .live ∧ Ends M e v
  edgeFaces : ∀ e, M.se e = .live → ∃ l, meFaces M e = .ok l ∧
    Lists l fun f => M.sf f = .live ∧ e ∈ M.fe f
  edgeRegions : ∀ e, M.se e = .live → ∃ l, meRegions M e = .ok l ∧
    Lists l fun r => M.sr r = .live ∧ K r = true ∧ EdgeOfRegion M r e
  vertRegions : ∀ v, M.sv v = .live → ∃ l, mvRegions M v = .ok l ∧
    Lists l fun r => M.sr r = .live ∧ K r = true ∧ ∃ e, M.se e = .live ∧ Ends M e v ∧ EdgeOfRegion M r e
  faceRegions : ∀ f, M.sf f = .live → ∃ l, mfRegions M f = .ok l ∧ l.Nodup ∧ l.length ≤ 2 ∧
    (∀ r ∈ l, M.sr r = .live ∧ K r = true ∧ f ∈ M.facesOf r) ∧
    (l.length < 2 → ∀ r, M.sr r = .live → K r = true → f ∈ M.facesOf r → r ∈ l)
  vertFaces : ∀ v, M.sv v = .live →
    -- at each edge of the vertex there are no known regions, or all faces belong to known regions
    (∀ e, M.se e = .live → Ends M e v → (∀ r, K r = true → ¬ EdgeOfRegion M r e) ∨
      ∀ f, M.sf f = .live → e ∈ M.fe f → ∃ r, K r = true ∧ f ∈ M.facesOf r) →
    ∃ l, mvFaces M v = .ok l ∧
      Lists l fun f => M.sf f = .live ∧ ∃ e ∈ M.fe f, Ends M e v

/-! ### helpers: lists -/

theorem mem_addNew {α : Type} [DecidableEq α] {l : List α} {x y : α} : y ∈ addNew l x ↔ y ∈ l ∨ y = x := by
  unfold addNew
  split
  · constructor
    · exact Or.inl
    · rintro (h | rfl) <;> assumption
  · simp

theorem nodup_addNew {α : Type} [DecidableEq α] {l : List α} {x : α} (h : l.Nodup) : (addNew l x).Nodup := by
  unfold addNew
  split
  · exact h
  · rename_i hx
    exact List.nodup_append.2 ⟨h, by simp, by
      intro a ha b hb
      rw [List.mem_singleton.1 hb]
      intro hab
      exact hx (hab ▸ ha)⟩

theorem foldl_addNew {α : Type} [DecidableEq α] : ∀ (rs acc : List α),
    (acc.Nodup → (rs.foldl addNew acc).Nodup) ∧ ∀ x, x ∈ rs.foldl addNew acc ↔ x ∈ acc ∨ x ∈ rs := by
  intro rs
  induction rs with
  | nil => intro acc; exact ⟨id, by simp⟩
  | cons r rs ih =>
    intro acc
    rw [List.foldl_cons]
    refine ⟨fun h => (ih _).1 (nodup_addNew h), fun x => ?_⟩
    rw [(ih _).2, mem_addNew, List.mem_cons, or_assoc]

theorem mem_dropLast_mem {l : List Nat} {x : Nat} (h : x ∈ l.dropLast) : x ∈ l :=
  (List.dropLast_prefix l).mem h

theorem deref_live {s : Stat} (h : s = .live) : deref s = .ok () := by
  unfold deref; rw [if_pos (Or.inl h)]

theorem deref_ok {s : Stat} (h : s = .live ∨ s = .kept) : deref s = .ok () := by
  unfold deref; rw [if_pos h]

theorem addElem_ok {se : Nat → Stat} {x : Bool × Nat} : ∀ (es : List Nat) (el : Nat → List (Bool × Nat)),
    (∀ e ∈ es, se e = .live) → ∃ el', addElem se x es el = .ok el' ∧
      (∀ e, (el e).Nodup → (el' e).Nodup) ∧ ∀ e y, y ∈ el' e ↔ y ∈ el e ∨ (y = x ∧ e ∈ es) := by
  intro es
  induction es with
  | nil => intro el _; exact ⟨el, rfl, fun _ => id, by simp⟩
  | cons d es ih =>
    intro el h
    obtain ⟨el', h1, h2, h3⟩ := ih (upd el d (addNew (el d) x)) (fun e he => h e (List.mem_cons_of_mem _ he))
    refine ⟨el', ?_, ?_, ?_⟩
    · unfold addElem
      rw [deref_live (h d (List.mem_cons_self ..)), Res.bind_ok]
      exact h1
    · intro e hn
      apply h2
      by_cases he : e = d
      · subst he; rw [upd_same]; exact nodup_addNew hn
      · rw [upd_ne _ _ he]; exact hn
    · intro e y
      rw [h3]
      by_cases he : e = d
      · subst he
        rw [upd_same, mem_addNew]
        simp only [List.mem_cons, true_or, and_true]
        constructor
        · rintro ((h | h) | h)
          · exact Or.inl h
          · exact Or.inr h
          · exact Or.inr h.1
        · rintro (h | h)
          · exact Or.inl (Or.inl h)
          · exact Or.inl (Or.inr h)
      · rw [upd_ne _ _ he]
        simp [he]

theorem remElem_ok {se : Nat → Stat} {x : Bool × Nat} : ∀ (es : List Nat) (el : Nat → List (Bool × Nat)),
    (∀ e ∈ es, se e = .live) → (∀ e, (el e).Nodup) → ∃ el', remElem se x es el = .ok el' ∧
      (∀ e, (el' e).Nodup) ∧ ∀ e y, y ∈ el' e ↔ y ∈ el e ∧ ¬ (y = x ∧ e ∈ es) := by
  intro es
  induction es with
  | nil => intro el _ hn; exact ⟨el, rfl, hn, by simp⟩
  | cons d es ih =>
    intro el h hn
    obtain ⟨el', h1, h2, h3⟩ := ih (upd el d ((el d).erase x)) (fun e he => h e (List.mem_cons_of_mem _ he)) (by
      intro e
      by_cases he : e = d
      · subst he; rw [upd_same]; exact (hn e).erase _
      · rw [upd_ne _ _ he]; exact hn e)
    refine ⟨el', ?_, h2, ?_⟩
    · unfold remElem
      rw [deref_live (h d (List.mem_cons_self ..)), Res.bind_ok]
      exact h1
    · intro e y
      rw [h3]
      by_cases he : e = d
      · subst he
        rw [upd_same, (hn e).mem_erase_iff]
        simp only [List.mem_cons, true_or, and_true]
        constructor
        · rintro ⟨⟨h1, h2⟩, _⟩; exact ⟨h2, h1⟩
        · rintro ⟨h1, h2⟩; exact ⟨⟨h2, h1⟩, fun h => h2 h.1⟩
      · rw [upd_ne _ _ he]
        simp [he]

theorem edgesOf_ok {M : Mesh4} : ∀ (fs : List Nat), (∀ f ∈ fs, M.sf f = .live) →
    ∃ es, edgesOf M fs = .ok es ∧ ∀ e, e ∈ es ↔ ∃ f ∈ fs, e ∈ M.fe f := by
  intro fs
  induction fs with
  | nil => intro _; exact ⟨[], rfl, by simp⟩
  | cons f fs ih =>
    intro h
    obtain ⟨es, h1, h2⟩ := ih fun x hx => h x (List.mem_cons_of_mem _ hx)
    refine ⟨M.fe f ++ es, ?_, ?_⟩
    · unfold edgesOf
      rw [deref_live (h f (List.mem_cons_self ..)), Res.bind_ok, h1]
      rfl
    · intro e
      rw [List.mem_append, h2]
      simp

/-! ### the invariant -/

structure Inv (M : Mesh4) (K : Nat → Bool) : Prop where
  ve : ∀ v e, e ∈ M.ve v ↔ M.se e = .live ∧ Ends M e v
  veNodup : ∀ v, (M.ve v).Nodup
  ends : ∀ e v, M.se e = .live → Ends M e v → M.sv v = .live
  edges : ∀ e, M.se e = .unused ∨ M.se e = .live
  faces : ∀ f, M.sf f ≠ .freed
  fe : ∀ f, M.sf f ≠ .unused → M.fe f ≠ [] ∧ (∀ e ∈ M.fe f, M.se e = .live) ∧
    ∀ e ∈ M.fe f, ∀ v, Ends M e v → ∃ e' ∈ (M.fe f).dropLast, Ends M e' v
  elF : ∀ e f, (false, f) ∈ M.el e ↔ M.sf f ≠ .unused ∧ e ∈ M.fe f
  elR : ∀ e r, (true, r) ∈ M.el e ↔ K r = true ∧ EdgeOfRegion M r e
  elNodup : ∀ e, (M.el e).Nodup
  known : ∀ r, K r = true → M.sr r = .live
  rf : ∀ r, M.sr r = .live → ∀ f ∈ M.facesOf r, M.sf f = .live
  rfKept : ∀ r, M.sr r = .kept → ∀ f ∈ M.facesOf r, M.sf f ≠ .unused

theorem inv_empty : Inv empty fun _ => false := by
  constructor <;> simp [empty, EdgeOfRegion]

theorem step_inv {M : Mesh4} {K : Nat → Bool} (h : Inv M K) {o : Op} (hl : o.legal M) :
    ∃ M', step M o = .ok M' ∧ Inv M' (restored K [o]) := by
  cases o with
  | newV v =>
    refine ⟨_, rfl, ?_⟩
    have hv : M.sv v = .unused := hl
    have hno : ∀ e, M.se e = .live → ¬ Ends M e v := by
      intro e he hh
      rw [h.ends e v he hh] at hv; cases hv
    refine ⟨?_, ?_, ?_, h.edges, h.faces, h.fe, h.elF, h.elR, h.elNodup, h.known, h.rf, h.rfKept⟩
    · intro w e
      dsimp only
      by_cases hw : w = v
      · subst hw
        rw [upd_same]
        constructor
        · intro hh; cases hh
        · rintro ⟨h1, h2⟩; exact absurd h2 (hno e h1)
      · rw [upd_ne _ _ hw]; exact h.ve w e
    · intro w
      dsimp only
      by_cases hw : w = v
      · subst hw; rw [upd_same]; simp
      · rw [upd_ne _ _ hw]; exact h.veNodup w
    · intro e w he hh
      dsimp only
      by_cases hw : w = v
      · subst hw; rw [upd_same]
      · rw [upd_ne _ _ hw]; exact h.ends e w he hh
  | newE e a b =>
    obtain ⟨he, ha, hb⟩ := hl
    have hnl : ∀ x, M.se x = .live → x ≠ e := by
      rintro x hx rfl; rw [he] at hx; cases hx
    refine ⟨_, by show newEdge M e a b = _; unfold newEdge; rw [deref_live ha, Res.bind_ok, deref_live hb, Res.bind_ok]; rfl, ?_⟩
    have hev : ∀ x v, x ≠ e → (((upd M.ev e (a, b)) x).1 = v ∨ ((upd M.ev e (a, b)) x).2 = v ↔ Ends M x v) := by
      intro x v hx
      rw [upd_ne _ _ hx]; rfl
    have hin : ∀ v x, x ∈ upd (upd M.ve a (addNew (M.ve a) e)) b
        (addNew (upd M.ve a (addNew (M.ve a) e) b) e) v ↔ x ∈ M.ve v ∨ (x = e ∧ (a = v ∨ b = v)) := by
      intro v x
      by_cases hv : v = b
      · subst hv
        rw [upd_same, mem_addNew]
        by_cases hva : v = a
        · subst hva; rw [upd_same, mem_addNew]; simp
        · rw [upd_ne _ _ hva]; simp
      · rw [upd_ne _ _ hv]
        by_cases hva : v = a
        · subst hva; rw [upd_same, mem_addNew]; simp
        · rw [upd_ne _ _ hva]
          have h1 : ¬ (a = v ∨ b = v) := by rintro (h | h) <;> exact absurd h.symm (by assumption)
          simp [h1]
    refine ⟨?_, ?_, ?_, ?_, h.faces, ?_, ?_, ?_, ?_, h.known, h.rf, h.rfKept⟩
    · intro v x
      dsimp only [Ends]
      rw [hin]
      by_cases hx : x = e
      · subst hx
        rw [upd_same, upd_same]
        constructor
        · rintro (hh | hh)
          · have := ((h.ve v x).1 hh).1
            rw [he] at this; cases this
          · exact ⟨rfl, hh.2⟩
        · rintro ⟨_, hh⟩; exact Or.inr ⟨rfl, hh⟩
      · rw [upd_ne _ _ hx, hev x v hx, h.ve]
        simp [hx]
    · intro v
      dsimp only
      by_cases hv : v = b
      · subst hv
        rw [upd_same]
        apply nodup_addNew
        by_cases hva : v = a
        · subst hva; rw [upd_same]; exact nodup_addNew (h.veNodup v)
        · rw [upd_ne _ _ hva]; exact h.veNodup v
      · rw [upd_ne _ _ hv]
        by_cases hva : v = a
        · subst hva; rw [upd_same]; exact nodup_addNew (h.veNodup v)
        · rw [upd_ne _ _ hva]; exact h.veNodup v
    · intro x v hx hv
      dsimp only [Ends] at hx hv ⊢
      by_cases hxe : x = e
      · subst hxe
        rw [upd_same] at hv
        rcases hv with hv | hv
        · dsimp only at hv; rw [← hv]; exact ha
        · dsimp only at hv; rw [← hv]; exact hb
      · rw [upd_ne _ _ hxe] at hx
        exact h.ends x v hx ((hev x v hxe).1 hv)
    · intro x
      dsimp only
      by_cases hx : x = e
      · subst hx; right; rw [upd_same]
      · rw [upd_ne _ _ hx]; exact h.edges x
    · intro f hf
      obtain ⟨h1, h2, h3⟩ := h.fe f hf
      refine ⟨h1, ?_, ?_⟩
      · intro x hx
        dsimp only
        rw [upd_ne _ _ (hnl x (h2 x hx))]; exact h2 x hx
      · intro x hx v hv
        obtain ⟨y, hy, hyv⟩ := h3 x hx v ((hev x v (hnl x (h2 x hx))).1 hv)
        exact ⟨y, hy, (hev y v (hnl y (h2 y (mem_dropLast_mem hy)))).2 hyv⟩
    · intro x f
      dsimp only
      by_cases hx : x = e
      · subst hx
        rw [upd_same]
        constructor
        · intro hh; cases hh
        · rintro ⟨h1, h2⟩
          have := (h.fe f h1).2.1 x h2
          exact absurd rfl (hnl x this)
      · rw [upd_ne _ _ hx]; exact h.elF x f
    · intro x r
      dsimp only
      by_cases hx : x = e
      · subst hx
        rw [upd_same]
        constructor
        · intro hh; cases hh
        · rintro ⟨h1, f, h2, h3⟩
          have h4 := h.rf r (h.known r h1) f h2
          have := (h.fe f (by rw [h4]; decide)).2.1 x h3
          exact absurd rfl (hnl x this)
      · rw [upd_ne _ _ hx]; exact h.elR x r
    · intro x
      dsimp only
      by_cases hx : x = e
      · subst hx; rw [upd_same]; simp
      · rw [upd_ne _ _ hx]; exact h.elNodup x
  | newF f es =>
    obtain ⟨hf, hne, hes, hloop⟩ := hl
    obtain ⟨el', e1, e2, e3⟩ := addElem_ok (se := M.se) (x := (false, f)) es M.el hes
    refine ⟨_, by show newFace M f es = _; unfold newFace; rw [e1]; rfl, ?_⟩
    have hreg : ∀ r, M.sr r = .live → f ∉ M.facesOf r := by
      intro r hr hh
      have := h.rf r hr f hh
      rw [hf] at this; cases this
    refine ⟨h.ve, h.veNodup, h.ends, h.edges, ?_, ?_, ?_, ?_, fun e => e2 e (h.elNodup e), h.known, ?_, ?_⟩
    · intro g
      dsimp only
      by_cases hg : g = f
      · subst hg; rw [upd_same]; decide
      · rw [upd_ne _ _ hg]; exact h.faces g
    · intro g hg'
      dsimp only at hg' ⊢
      by_cases hg : g = f
      · subst hg; rw [upd_same]; exact ⟨hne, hes, hloop⟩
      · rw [upd_ne _ _ hg] at hg' ⊢; exact h.fe g hg'
    · intro e g
      dsimp only
      rw [e3]
      by_cases hg : g = f
      · subst hg
        rw [upd_same, upd_same]
        constructor
        · rintro (hh | hh)
          · exact absurd hf ((h.elF e g).1 hh).1
          · exact ⟨by decide, hh.2⟩
        · rintro ⟨_, hh⟩; exact Or.inr ⟨rfl, hh⟩
      · rw [upd_ne _ _ hg, upd_ne _ _ hg, h.elF]
        have : ((false, g) = ((false, f) : Bool × Nat)) ↔ False := by simp [hg]
        rw [this]; simp
    · intro e r
      dsimp only
      rw [e3]
      have : ((true, r) = ((false, f) : Bool × Nat)) ↔ False := by simp
      rw [this, false_and, or_false, h.elR]
      refine and_congr_right fun hk => ?_
      constructor
      · rintro ⟨g, hg1, hg2⟩
        refine ⟨g, hg1, ?_⟩
        have : g ≠ f := by rintro rfl; exact hreg r (h.known r hk) hg1
        dsimp only
        rw [upd_ne _ _ this]; exact hg2
      · rintro ⟨g, hg1, hg2⟩
        refine ⟨g, hg1, ?_⟩
        have : g ≠ f := by rintro rfl; exact hreg r (h.known r hk) hg1
        dsimp only at hg2
        rw [upd_ne _ _ this] at hg2; exact hg2
    · intro r hr g hg
      dsimp only
      by_cases hgf : g = f
      · subst hgf; rw [upd_same]
      · rw [upd_ne _ _ hgf]; exact h.rf r hr g hg
    · intro r hr g hg
      dsimp only
      by_cases hgf : g = f
      · subst hgf; rw [upd_same]; decide
      · rw [upd_ne _ _ hgf]; exact h.rfKept r hr g hg
  | newR r fs =>
    obtain ⟨hr, hfs⟩ := hl
    refine ⟨_, rfl, ?_⟩
    have hK : ∀ x, K x = true → x ≠ r := by
      rintro x hx rfl
      have := h.known x hx
      rw [hr] at this; cases this
    refine ⟨h.ve, h.veNodup, h.ends, h.edges, h.faces, h.fe, h.elF, ?_, h.elNodup, ?_, ?_, ?_⟩
    · intro e x
      rw [show (true, x) ∈ M.el e ↔ _ from h.elR e x]
      refine and_congr_right fun hk => ?_
      unfold EdgeOfRegion Mesh4.facesOf
      dsimp only
      rw [upd_ne _ _ (hK x hk)]
    · intro x hx
      dsimp only
      rw [upd_ne _ _ (hK x hx)]; exact h.known x hx
    · intro x hx f hf
      dsimp only [Mesh4.facesOf] at hx hf ⊢
      by_cases hxr : x = r
      · subst hxr
        rw [upd_same] at hf
        obtain ⟨p, hp, rfl⟩ := List.mem_map.1 hf
        exact hfs p hp
      · rw [upd_ne _ _ hxr] at hx hf; exact h.rf x hx f hf
    · intro x hx f hf
      dsimp only [Mesh4.facesOf] at hx hf ⊢
      by_cases hxr : x = r
      · subst hxr
        rw [upd_same] at hx; cases hx
      · rw [upd_ne _ _ hxr] at hx hf; exact h.rfKept x hx f hf
  | delR r keep =>
    have hd : deref (M.sr r) = .ok () := by
      apply deref_ok
      rcases hl with hl | hl
      · exact Or.inl hl
      · exact Or.inr hl.1
    have hst : (if keep = true then Stat.kept else Stat.freed) ≠ .live := by cases keep <;> decide
    have hknown : ∀ x, upd K r false x = true → upd M.sr r (if keep then .kept else .freed) x = .live := by
      intro x hx
      by_cases hxr : x = r
      · subst hxr; rw [upd_same] at hx; cases hx
      · rw [upd_ne _ _ hxr] at hx ⊢; exact h.known x hx
    have hrf : ∀ x, upd M.sr r (if keep then .kept else .freed) x = .live → ∀ f ∈ M.facesOf x, M.sf f = .live := by
      intro x hx
      by_cases hxr : x = r
      · subst hxr; rw [upd_same] at hx; exact absurd hx hst
      · rw [upd_ne _ _ hxr] at hx; exact h.rf x hx
    have hrk : ∀ x, upd M.sr r (if keep then .kept else .freed) x = .kept → ∀ f ∈ M.facesOf x, M.sf f ≠ .unused := by
      intro x hx
      by_cases hxr : x = r
      · subst hxr
        intro f hf
        rcases hl with hl | hl
        · rw [h.rf x hl f hf]; decide
        · exact h.rfKept x hl.1 f hf
      · rw [upd_ne _ _ hxr] at hx; exact h.rfKept x hx
    by_cases hlive : M.sr r = .live
    · obtain ⟨es, a1, a2⟩ := edgesOf_ok (M := M) (M.facesOf r) (h.rf r hlive)
      have hes : ∀ e ∈ es, M.se e = .live := by
        intro e he
        obtain ⟨f, hf, hef⟩ := (a2 e).1 he
        exact (h.fe f (by rw [h.rf r hlive f hf]; decide)).2.1 e hef
      obtain ⟨el', b1, b2, b3⟩ := remElem_ok (se := M.se) (x := (true, r)) es M.el hes h.elNodup
      refine ⟨_, by show delRegion M r keep = _; unfold delRegion; rw [hd, Res.bind_ok, if_pos hlive, a1, Res.bind_ok, b1]; rfl, ?_⟩
      refine ⟨h.ve, h.veNodup, h.ends, h.edges, h.faces, h.fe, ?_, ?_, b2, hknown, hrf, hrk⟩
      · intro e f
        dsimp only
        rw [b3, h.elF]
        simp
      · intro e x
        dsimp only
        rw [b3, h.elR]
        show _ ↔ upd K r false x = true ∧ EdgeOfRegion M x e
        by_cases hxr : x = r
        · subst hxr
          rw [upd_same]
          constructor
          · rintro ⟨⟨_, h2⟩, h3⟩
            exact absurd ⟨rfl, (a2 e).2 h2⟩ h3
          · rintro ⟨hh, _⟩; cases hh
        · rw [upd_ne _ _ hxr]
          simp [hxr]
    · refine ⟨_, by show delRegion M r keep = _; unfold delRegion; rw [hd, Res.bind_ok, if_neg hlive]; rfl, ?_⟩
      refine ⟨h.ve, h.veNodup, h.ends, h.edges, h.faces, h.fe, h.elF, ?_, h.elNodup, hknown, hrf, hrk⟩
      intro e x
      rw [show (true, x) ∈ M.el e ↔ _ from h.elR e x]
      show _ ↔ upd K r false x = true ∧ EdgeOfRegion M x e
      by_cases hxr : x = r
      · subst hxr
        rw [upd_same]
        constructor
        · rintro ⟨hk, _⟩; exact absurd (h.known x hk) hlive
        · rintro ⟨hh, _⟩; cases hh
      · rw [upd_ne _ _ hxr]
  | resR r =>
    obtain ⟨hr, hfs⟩ := hl
    obtain ⟨es, a1, a2⟩ := edgesOf_ok (M := M) (M.facesOf r) hfs
    have hes : ∀ e ∈ es, M.se e = .live := by
      intro e he
      obtain ⟨f, hf, hef⟩ := (a2 e).1 he
      exact (h.fe f (by rw [hfs f hf]; decide)).2.1 e hef
    obtain ⟨el', b1, b2, b3⟩ := addElem_ok (se := M.se) (x := (true, r)) es M.el hes
    refine ⟨_, by show restoreRegion M r = _; unfold restoreRegion; rw [deref_ok (Or.inr hr), Res.bind_ok, a1, Res.bind_ok, b1]; rfl, ?_⟩
    refine ⟨h.ve, h.veNodup, h.ends, h.edges, h.faces, h.fe, ?_, ?_, fun e => b2 e (h.elNodup e), ?_, ?_, ?_⟩
    · intro e f
      dsimp only
      rw [b3, h.elF]
      simp
    · intro e x
      dsimp only
      rw [b3, h.elR]
      show _ ↔ upd K r true x = true ∧ EdgeOfRegion M x e
      by_cases hxr : x = r
      · subst hxr
        rw [upd_same]
        constructor
        · rintro (hh | hh)
          · exact ⟨rfl, hh.2⟩
          · exact ⟨rfl, (a2 e).1 hh.2⟩
        · rintro ⟨_, hh⟩; exact Or.inr ⟨rfl, (a2 e).2 hh⟩
      · rw [upd_ne _ _ hxr]
        simp [hxr]
    · intro x hx
      dsimp only
      by_cases hxr : x = r
      · subst hxr; rw [upd_same]
      · rw [upd_ne _ _ hxr]
        exact h.known x (by rw [show restored K [Op.resR r] = upd K r true from rfl, upd_ne _ _ hxr] at hx; exact hx)
    · intro x hx
      dsimp only at hx
      by_cases hxr : x = r
      · subst hxr; exact hfs
      · rw [upd_ne _ _ hxr] at hx; exact h.rf x hx
    · intro x hx
      dsimp only at hx
      by_cases hxr : x = r
      · subst hxr; rw [upd_same] at hx; cases hx
      · rw [upd_ne _ _ hxr] at hx; exact h.rfKept x hx
  | delF f =>
    obtain ⟨hf, hno⟩ := hl
    refine ⟨_, by show delFace M f true = _; unfold delFace; rw [deref_live hf]; rfl, ?_⟩
    have hun : ∀ g, upd M.sf f (if true = true then Stat.kept else Stat.freed) g ≠ .unused ↔ M.sf g ≠ .unused := by
      intro g
      by_cases hg : g = f
      · subst hg; rw [upd_same, hf]; decide
      · rw [upd_ne _ _ hg]
    refine ⟨h.ve, h.veNodup, h.ends, h.edges, ?_, ?_, ?_, h.elR, h.elNodup, h.known, ?_, ?_⟩
    · intro g
      dsimp only
      by_cases hg : g = f
      · subst hg; rw [upd_same]; decide
      · rw [upd_ne _ _ hg]; exact h.faces g
    · intro g hg; exact h.fe g ((hun g).1 hg)
    · intro e g
      rw [show (false, g) ∈ M.el e ↔ _ from h.elF e g]
      exact and_congr_left fun _ => (hun g).symm
    · intro r hr g hg
      dsimp only
      have : g ≠ f := by rintro rfl; exact hno r hr hg
      rw [upd_ne _ _ this]; exact h.rf r hr g hg
    · intro r hr g hg
      exact (hun g).2 (h.rfKept r hr g hg)
  | resF f =>
    have hf : M.sf f = .kept := hl
    refine ⟨_, by show restoreFace M f = _; unfold restoreFace; rw [deref_ok (Or.inr hf)]; rfl, ?_⟩
    have hun : ∀ g, upd M.sf f Stat.live g ≠ .unused ↔ M.sf g ≠ .unused := by
      intro g
      by_cases hg : g = f
      · subst hg; rw [upd_same, hf]; decide
      · rw [upd_ne _ _ hg]
    refine ⟨h.ve, h.veNodup, h.ends, h.edges, ?_, ?_, ?_, h.elR, h.elNodup, h.known, ?_, ?_⟩
    · intro g
      dsimp only
      by_cases hg : g = f
      · subst hg; rw [upd_same]; decide
      · rw [upd_ne _ _ hg]; exact h.faces g
    · intro g hg; exact h.fe g ((hun g).1 hg)
    · intro e g
      rw [show (false, g) ∈ M.el e ↔ _ from h.elF e g]
      exact and_congr_left fun _ => (hun g).symm
    · intro r hr g hg
      dsimp only
      by_cases hgf : g = f
      · subst hgf; rw [upd_same]
      · rw [upd_ne _ _ hgf]; exact h.rf r hr g hg
    · intro r hr g hg
      exact (hun g).2 (h.rfKept r hr g hg)

theorem restored_cons (K : Nat → Bool) (o : Op) (os : List Op) :
    restored K (o :: os) = restored (restored K [o]) os := by
  cases o <;> rfl

theorem run_inv : ∀ (os : List Op) {M : Mesh4} {K : Nat → Bool}, Inv M K → LegalRun M os →
    ∃ M', run M os = .ok M' ∧ Inv M' (restored K os) := by
  intro os
  induction os with
  | nil => intro M K h _; exact ⟨M, rfl, h⟩
  | cons o os ih =>
    intro M K h hl
    obtain ⟨M1, h1, h2⟩ := step_inv h hl.1
    obtain ⟨M2, h3, h4⟩ := ih h2 (hl.2 M1 h1)
    refine ⟨M2, ?_, ?_⟩
    · unfold run; rw [h1]; exact h3
    · rw [restored_cons]; exact h4

/-! ### the queries -/

theorem regionsIn_ok {M : Mesh4} : ∀ (l : List (Bool × Nat)),
    (∀ x ∈ l, (x.1 = true → M.sr x.2 = .live) ∧ (x.1 = false → M.sf x.2 = .live ∨ M.sf x.2 = .kept)) →
    ∃ rs, regionsIn M l = .ok rs ∧ (l.Nodup → rs.Nodup) ∧ ∀ r, r ∈ rs ↔ (true, r) ∈ l := by
  intro l
  induction l with
  | nil => intro _; exact ⟨[], rfl, fun _ => List.nodup_nil, by simp⟩
  | cons x xs ih =>
    intro h
    obtain ⟨rs, h1, h2, h3⟩ := ih fun y hy => h y (List.mem_cons_of_mem _ hy)
    obtain ⟨hx1, hx2⟩ := h x (List.mem_cons_self ..)
    obtain ⟨b, i⟩ := x
    cases b with
    | true =>
      refine ⟨i :: rs, ?_, ?_, ?_⟩
      · have hd : dim M (true, i) = .ok (some true) := by
          unfold dim; rw [if_pos rfl, hx1 rfl]
        unfold regionsIn
        rw [hd, Res.bind_ok, h1]
        rfl
      · intro hn
        obtain ⟨a, b⟩ := List.nodup_cons.1 hn
        exact List.nodup_cons.2 ⟨fun hh => a ((h3 i).1 hh), h2 b⟩
      · intro r
        rw [List.mem_cons, h3, List.mem_cons]
        simp
    | false =>
      refine ⟨rs, ?_, fun hn => h2 (List.nodup_cons.1 hn).2, ?_⟩
      · have hd : dim M (false, i) = .ok (some false) ∨ dim M (false, i) = .ok none := by
          unfold dim
          rw [if_neg (by simp)]
          rcases hx2 rfl with hh | hh
          · left; dsimp only at hh ⊢; rw [hh]
          · right; dsimp only at hh ⊢; rw [hh]
        unfold regionsIn
        rcases hd with hd | hd
        · rw [hd, Res.bind_ok, h1]; rfl
        · rw [hd, Res.bind_ok, h1]; rfl
      · intro r
        rw [h3, List.mem_cons]
        simp

theorem elems_good {M : Mesh4} {K : Nat → Bool} (h : Inv M K) (e : Nat) : ∀ x ∈ M.el e,
    (x.1 = true → M.sr x.2 = .live) ∧ (x.1 = false → M.sf x.2 = .live ∨ M.sf x.2 = .kept) := by
  rintro ⟨b, i⟩ hx
  constructor
  · rintro rfl
    exact h.known i ((h.elR e i).1 hx).1
  · rintro rfl
    have h1 := ((h.elF e i).1 hx).1
    have h2 := h.faces i
    dsimp only
    cases hs : M.sf i with
    | unused => exact absurd hs h1
    | live => exact Or.inl rfl
    | kept => exact Or.inr rfl
    | freed => exact absurd hs h2

theorem meRegions_ok {M : Mesh4} {K : Nat → Bool} (h : Inv M K) {e : Nat} (he : M.se e = .live) :
    ∃ l, meRegions M e = .ok l ∧ l.Nodup ∧ ∀ r, r ∈ l ↔ K r = true ∧ EdgeOfRegion M r e := by
  obtain ⟨rs, h1, h2, h3⟩ := regionsIn_ok (M.el e) (elems_good h e)
  refine ⟨rs, ?_, h2 (h.elNodup e), fun r => (h3 r).trans (h.elR e r)⟩
  unfold meRegions
  rw [deref_live he, Res.bind_ok]
  exact h1

theorem pick_ok {test : Nat → Res Bool} {P : Nat → Prop} : ∀ (fs acc : List Nat),
    (∀ f ∈ fs, ∃ b, test f = .ok b ∧ (b = true ↔ P f)) → acc.Nodup →
    ∃ acc', pick test fs acc = .ok acc' ∧ acc'.Nodup ∧ ∀ y, y ∈ acc' ↔ y ∈ acc ∨ (y ∈ fs ∧ P y) := by
  intro fs
  induction fs with
  | nil => intro acc _ hn; exact ⟨acc, rfl, hn, by simp⟩
  | cons f fs ih =>
    intro acc h hn
    have h' : ∀ g ∈ fs, ∃ b, test g = .ok b ∧ (b = true ↔ P g) := fun g hg => h g (List.mem_cons_of_mem _ hg)
    unfold pick
    by_cases hf : f ∈ acc
    · rw [if_pos hf]
      obtain ⟨acc', h1, h2, h3⟩ := ih acc h' hn
      refine ⟨acc', h1, h2, fun y => ?_⟩
      rw [h3, List.mem_cons]
      constructor
      · rintro (hh | hh)
        · exact Or.inl hh
        · exact Or.inr ⟨Or.inr hh.1, hh.2⟩
      · rintro (hh | ⟨rfl | hh, hp⟩)
        · exact Or.inl hh
        · exact Or.inl hf
        · exact Or.inr ⟨hh, hp⟩
    · rw [if_neg hf]
      obtain ⟨b, hb1, hb2⟩ := h f (List.mem_cons_self ..)
      rw [hb1, Res.bind_ok]
      cases b with
      | true =>
        have hp : P f := hb2.1 rfl
        obtain ⟨acc', h1, h2, h3⟩ := ih (acc ++ [f]) h' (List.nodup_append.2 ⟨hn, by simp, by
          intro a ha b hb
          rw [List.mem_singleton.1 hb]
          intro hab
          exact hf (hab ▸ ha)⟩)
        refine ⟨acc', h1, h2, fun y => ?_⟩
        rw [h3, List.mem_append, List.mem_singleton, List.mem_cons]
        constructor
        · rintro ((hh | rfl) | hh)
          · exact Or.inl hh
          · exact Or.inr ⟨Or.inl rfl, hp⟩
          · exact Or.inr ⟨Or.inr hh.1, hh.2⟩
        · rintro (hh | ⟨rfl | hh, hp⟩)
          · exact Or.inl (Or.inl hh)
          · exact Or.inl (Or.inr rfl)
          · exact Or.inr ⟨hh, hp⟩
      | false =>
        have hp : ¬ P f := fun hh => by have := hb2.2 hh; cases this
        obtain ⟨acc', h1, h2, h3⟩ := ih acc h' hn
        refine ⟨acc', h1, h2, fun y => ?_⟩
        rw [h3, List.mem_cons]
        constructor
        · rintro (hh | hh)
          · exact Or.inl hh
          · exact Or.inr ⟨Or.inr hh.1, hh.2⟩
        · rintro (hh | ⟨rfl | hh, hp'⟩)
          · exact Or.inl hh
          · exact absurd hp' hp
          · exact Or.inr ⟨hh, hp'⟩

theorem facesIn_ok {M : Mesh4} {K : Nat → Bool} (h : Inv M K) (e : Nat) : ∀ (l : List (Bool × Nat)) (acc : List Nat),
    (∀ x ∈ l, x ∈ M.el e) → acc.Nodup → ∃ acc', facesIn M e l acc = .ok acc' ∧ acc'.Nodup ∧
      ∀ y, y ∈ acc' ↔ y ∈ acc ∨ ((false, y) ∈ l ∧ M.sf y = .live) ∨
        ∃ r, (true, r) ∈ l ∧ y ∈ M.facesOf r ∧ e ∈ M.fe y := by
  intro l
  induction l with
  | nil => intro acc _ hn; exact ⟨acc, rfl, hn, by simp⟩
  | cons x xs ih =>
    intro acc hl hn
    have hl' : ∀ y ∈ xs, y ∈ M.el e := fun y hy => hl y (List.mem_cons_of_mem _ hy)
    have hx := hl x (List.mem_cons_self ..)
    obtain ⟨hx1, hx2⟩ := elems_good h e x hx
    obtain ⟨b, i⟩ := x
    cases b with
    | true =>
      have hlive := hx1 rfl
      dsimp only at hlive
      have hd : dim M (true, i) = .ok (some true) := by
        unfold dim; rw [if_pos rfl, hlive]
      obtain ⟨a1, p1, p2, p3⟩ := pick_ok (test := usesEdge M e) (P := fun f => e ∈ M.fe f) (M.facesOf i) acc (by
        intro f hf
        refine ⟨decide (e ∈ M.fe f), ?_, by simp⟩
        unfold usesEdge
        rw [deref_live (h.rf i hlive f hf)]
        rfl) hn
      obtain ⟨acc', q1, q2, q3⟩ := ih a1 hl' p2
      refine ⟨acc', ?_, q2, ?_⟩
      · unfold facesIn
        rw [hd, Res.bind_ok]
        dsimp only
        rw [p1, Res.bind_ok]
        exact q1
      · intro y
        rw [q3, p3]
        constructor
        · rintro ((hh | hh) | hh | ⟨r, hr, hh⟩)
          · exact Or.inl hh
          · exact Or.inr (Or.inr ⟨i, List.mem_cons_self .., hh⟩)
          · exact Or.inr (Or.inl ⟨List.mem_cons_of_mem _ hh.1, hh.2⟩)
          · exact Or.inr (Or.inr ⟨r, List.mem_cons_of_mem _ hr, hh⟩)
        · rintro (hh | ⟨hh, hs⟩ | ⟨r, hr, hh⟩)
          · exact Or.inl (Or.inl hh)
          · rcases List.mem_cons.1 hh with hh | hh
            · cases hh
            · exact Or.inr (Or.inl ⟨hh, hs⟩)
          · rcases List.mem_cons.1 hr with hr | hr
            · cases hr; exact Or.inl (Or.inr hh)
            · exact Or.inr (Or.inr ⟨r, hr, hh⟩)
    | false =>
      rcases hx2 rfl with hs | hs
      · dsimp only at hs
        have hd : dim M (false, i) = .ok (some false) := by
          unfold dim; rw [if_neg (by simp), hs]
        obtain ⟨acc', q1, q2, q3⟩ := ih (addNew acc i) hl' (nodup_addNew hn)
        refine ⟨acc', ?_, q2, ?_⟩
        · unfold facesIn
          rw [hd, Res.bind_ok]
          exact q1
        · intro y
          rw [q3, mem_addNew]
          constructor
          · rintro ((hh | rfl) | hh | ⟨r, hr, hh⟩)
            · exact Or.inl hh
            · exact Or.inr (Or.inl ⟨List.mem_cons_self .., hs⟩)
            · exact Or.inr (Or.inl ⟨List.mem_cons_of_mem _ hh.1, hh.2⟩)
            · exact Or.inr (Or.inr ⟨r, List.mem_cons_of_mem _ hr, hh⟩)
          · rintro (hh | ⟨hh, hs⟩ | ⟨r, hr, hh⟩)
            · exact Or.inl (Or.inl hh)
            · rcases List.mem_cons.1 hh with hh | hh
              · cases hh; exact Or.inl (Or.inr rfl)
              · exact Or.inr (Or.inl ⟨hh, hs⟩)
            · rcases List.mem_cons.1 hr with hr | hr
              · cases hr
              · exact Or.inr (Or.inr ⟨r, hr, hh⟩)
      · dsimp only at hs
        have hd : dim M (false, i) = .ok none := by
          unfold dim; rw [if_neg (by simp), hs]
        obtain ⟨acc', q1, q2, q3⟩ := ih acc hl' hn
        refine ⟨acc', ?_, q2, ?_⟩
        · unfold facesIn
          rw [hd, Res.bind_ok]
          exact q1
        · intro y
          rw [q3]
          constructor
          · rintro (hh | hh | ⟨r, hr, hh⟩)
            · exact Or.inl hh
            · exact Or.inr (Or.inl ⟨List.mem_cons_of_mem _ hh.1, hh.2⟩)
            · exact Or.inr (Or.inr ⟨r, List.mem_cons_of_mem _ hr, hh⟩)
          · rintro (hh | ⟨hh, hs'⟩ | ⟨r, hr, hh⟩)
            · exact Or.inl hh
            · rcases List.mem_cons.1 hh with hh | hh
              · cases hh; rw [hs] at hs'; cases hs'
              · exact Or.inr (Or.inl ⟨hh, hs'⟩)
            · rcases List.mem_cons.1 hr with hr | hr
              · cases hr
              · exact Or.inr (Or.inr ⟨r, hr, hh⟩)

theorem meFaces_ok {M : Mesh4} {K : Nat → Bool} (h : Inv M K) {e : Nat} (he : M.se e = .live) :
    ∃ l, meFaces M e = .ok l ∧ Lists l fun f => M.sf f = .live ∧ e ∈ M.fe f := by
  obtain ⟨l, h1, h2, h3⟩ := facesIn_ok h e (M.el e) [] (fun _ hx => hx) List.nodup_nil
  refine ⟨l, ?_, h2, fun f => ?_⟩
  · unfold meFaces
    rw [deref_live he, Res.bind_ok]
    exact h1
  · rw [h3]
    constructor
    · rintro (hh | ⟨hh, hs⟩ | ⟨r, hr, hf, hh⟩)
      · cases hh
      · exact ⟨hs, ((h.elF e f).1 hh).2⟩
      · exact ⟨h.rf r (h.known r ((h.elR e r).1 hr).1) f hf, hh⟩
    · rintro ⟨hs, hh⟩
      exact Or.inr (Or.inl ⟨(h.elF e f).2 ⟨by rw [hs]; decide, hh⟩, hs⟩)

theorem vertRegions_ok {M : Mesh4} {K : Nat → Bool} (h : Inv M K) : ∀ (es acc : List Nat),
    (∀ e ∈ es, M.se e = .live) → acc.Nodup → ∃ acc', vertRegions M es acc = .ok acc' ∧ acc'.Nodup ∧
      ∀ r, r ∈ acc' ↔ r ∈ acc ∨ ∃ e ∈ es, K r = true ∧ EdgeOfRegion M r e := by
  intro es
  induction es with
  | nil => intro acc _ hn; exact ⟨acc, rfl, hn, by simp⟩
  | cons e es ih =>
    intro acc hes hn
    obtain ⟨l, l1, l2, l3⟩ := meRegions_ok h (hes e (List.mem_cons_self ..))
    obtain ⟨f1, f2⟩ := foldl_addNew l acc
    obtain ⟨acc', h1, h2, h3⟩ := ih (l.foldl addNew acc) (fun x hx => hes x (List.mem_cons_of_mem _ hx)) (f1 hn)
    refine ⟨acc', ?_, h2, fun r => ?_⟩
    · unfold vertRegions
      rw [l1, Res.bind_ok]
      exact h1
    · rw [h3, f2, l3]
      constructor
      · rintro ((hh | hh) | ⟨x, hx, hh⟩)
        · exact Or.inl hh
        · exact Or.inr ⟨e, List.mem_cons_self .., hh⟩
        · exact Or.inr ⟨x, List.mem_cons_of_mem _ hx, hh⟩
      · rintro (hh | ⟨x, hx, hh⟩)
        · exact Or.inl (Or.inl hh)
        · rcases List.mem_cons.1 hx with rfl | hx
          · exact Or.inl (Or.inr hh)
          · exact Or.inr ⟨x, hx, hh⟩

theorem anyEnd_ok {M : Mesh4} (v : Nat) : ∀ (es : List Nat), (∀ e ∈ es, M.se e = .live) →
    ∃ b, anyEnd M v es = .ok b ∧ (b = true ↔ ∃ e ∈ es, Ends M e v) := by
  intro es
  induction es with
  | nil => intro _; exact ⟨false, rfl, by simp⟩
  | cons e es ih =>
    intro h
    unfold anyEnd
    rw [deref_live (h e (List.mem_cons_self ..)), Res.bind_ok]
    by_cases he : (M.ev e).1 = v ∨ (M.ev e).2 = v
    · rw [if_pos he]
      exact ⟨true, rfl, by simp only [true_iff]; exact ⟨e, List.mem_cons_self .., he⟩⟩
    · rw [if_neg he]
      obtain ⟨b, h1, h2⟩ := ih fun x hx => h x (List.mem_cons_of_mem _ hx)
      refine ⟨b, h1, h2.trans ?_⟩
      constructor
      · rintro ⟨x, hx, hh⟩; exact ⟨x, List.mem_cons_of_mem _ hx, hh⟩
      · rintro ⟨x, hx, hh⟩
        rcases List.mem_cons.1 hx with rfl | hx
        · exact absurd hh he
        · exact ⟨x, hx, hh⟩

theorem usesVertex_ok {M : Mesh4} {K : Nat → Bool} (h : Inv M K) (v : Nat) {f : Nat} (hf : M.sf f = .live) :
    ∃ b, usesVertex M v f = .ok b ∧ (b = true ↔ ∃ e ∈ M.fe f, Ends M e v) := by
  obtain ⟨_, h2, h3⟩ := h.fe f (by rw [hf]; decide)
  obtain ⟨b, b1, b2⟩ := anyEnd_ok (M := M) v (M.fe f).dropLast fun e he => h2 e (mem_dropLast_mem he)
  refine ⟨b, ?_, b2.trans ?_⟩
  · unfold usesVertex
    rw [deref_live hf, Res.bind_ok]
    exact b1
  · constructor
    · rintro ⟨e, he, hh⟩; exact ⟨e, mem_dropLast_mem he, hh⟩
    · rintro ⟨e, he, hh⟩; exact h3 e he v hh

theorem overRegions_ok {M : Mesh4} {K : Nat → Bool} (h : Inv M K) (v : Nat) : ∀ (rs acc : List Nat),
    (∀ r ∈ rs, M.sr r = .live) → acc.Nodup → ∃ acc', overRegions M v rs acc = .ok acc' ∧ acc'.Nodup ∧
      ∀ f, f ∈ acc' ↔ f ∈ acc ∨ ∃ r ∈ rs, f ∈ M.facesOf r ∧ ∃ e ∈ M.fe f, Ends M e v := by
  intro rs
  induction rs with
  | nil => intro acc _ hn; exact ⟨acc, rfl, hn, by simp⟩
  | cons r rs ih =>
    intro acc hrs hn
    have hr := hrs r (List.mem_cons_self ..)
    obtain ⟨a1, p1, p2, p3⟩ := pick_ok (test := usesVertex M v) (P := fun f => ∃ e ∈ M.fe f, Ends M e v)
      (M.facesOf r) acc (fun f hf => usesVertex_ok h v (h.rf r hr f hf)) hn
    obtain ⟨acc', h1, h2, h3⟩ := ih a1 (fun x hx => hrs x (List.mem_cons_of_mem _ hx)) p2
    refine ⟨acc', ?_, h2, fun f => ?_⟩
    · unfold overRegions
      rw [deref_live hr, Res.bind_ok, p1, Res.bind_ok]
      exact h1
    · rw [h3, p3]
      constructor
      · rintro ((hh | hh) | ⟨x, hx, hh⟩)
        · exact Or.inl hh
        · exact Or.inr ⟨r, List.mem_cons_self .., hh⟩
        · exact Or.inr ⟨x, List.mem_cons_of_mem _ hx, hh⟩
      · rintro (hh | ⟨x, hx, hh⟩)
        · exact Or.inl (Or.inl hh)
        · rcases List.mem_cons.1 hx with rfl | hx
          · exact Or.inl (Or.inr hh)
          · exact Or.inr ⟨x, hx, hh⟩

/-- one edge adds faces of the vertex, and all faces of the edge under the condition of the property -/
theorem facesAt_ok {M : Mesh4} {K : Nat → Bool} (h : Inv M K) {v e : Nat} (he : M.se e = .live) (hev : Ends M e v)
    (hc : (∀ r, K r = true → ¬ EdgeOfRegion M r e) ∨
      ∀ f, M.sf f = .live → e ∈ M.fe f → ∃ r, K r = true ∧ f ∈ M.facesOf r)
    {acc : List Nat} (hn : acc.Nodup) : ∃ acc', facesAt M v e acc = .ok acc' ∧ acc'.Nodup ∧
      (∀ f ∈ acc, f ∈ acc') ∧ (∀ f ∈ acc', f ∈ acc ∨ (M.sf f = .live ∧ ∃ e ∈ M.fe f, Ends M e v)) ∧
      ∀ f, M.sf f = .live → e ∈ M.fe f → f ∈ acc' := by
  obtain ⟨l, l1, l2, l3⟩ := meRegions_ok h he
  unfold facesAt
  rw [l1, Res.bind_ok]
  cases l with
  | nil =>
    obtain ⟨fs, f1, f2, f3⟩ := meFaces_ok h he
    obtain ⟨acc', p1, p2, p3⟩ := pick_ok (test := usesVertex M v) (P := fun f => ∃ e ∈ M.fe f, Ends M e v)
      fs acc (fun f hf => usesVertex_ok h v ((f3 f).1 hf).1) hn
    dsimp only
    rw [f1, Res.bind_ok]
    refine ⟨acc', p1, p2, fun f hf => (p3 f).2 (Or.inl hf), ?_, ?_⟩
    · intro f hf
      rcases (p3 f).1 hf with hh | ⟨h1, h2⟩
      · exact Or.inl hh
      · exact Or.inr ⟨((f3 f).1 h1).1, h2⟩
    · intro f hf hef
      exact (p3 f).2 (Or.inr ⟨(f3 f).2 ⟨hf, hef⟩, e, hef, hev⟩)
  | cons r rs =>
    dsimp only
    have hlive : ∀ x ∈ r :: rs, M.sr x = .live := fun x hx => h.known x ((l3 x).1 hx).1
    obtain ⟨acc', p1, p2, p3⟩ := overRegions_ok h v (r :: rs) acc hlive hn
    refine ⟨acc', p1, p2, fun f hf => (p3 f).2 (Or.inl hf), ?_, ?_⟩
    · intro f hf
      rcases (p3 f).1 hf with hh | ⟨x, hx, h1, h2⟩
      · exact Or.inl hh
      · exact Or.inr ⟨h.rf x (hlive x hx) f h1, h2⟩
    · intro f hf hef
      obtain ⟨hk, hr⟩ := (l3 r).1 (List.mem_cons_self ..)
      rcases hc with hc | hc
      · exact absurd hr (hc r hk)
      · obtain ⟨x, hx1, hx2⟩ := hc f hf hef
        exact (p3 f).2 (Or.inr ⟨x, (l3 x).2 ⟨hx1, f, hx2, hef⟩, hx2, e, hef, hev⟩)

theorem vertFaces_ok {M : Mesh4} {K : Nat → Bool} (h : Inv M K) {v : Nat} : ∀ (es acc : List Nat),
    (∀ e ∈ es, M.se e = .live ∧ Ends M e v ∧ ((∀ r, K r = true → ¬ EdgeOfRegion M r e) ∨
      ∀ f, M.sf f = .live → e ∈ M.fe f → ∃ r, K r = true ∧ f ∈ M.facesOf r)) → acc.Nodup →
    ∃ acc', vertFaces M v es acc = .ok acc' ∧ acc'.Nodup ∧ (∀ f ∈ acc, f ∈ acc') ∧
      (∀ f ∈ acc', f ∈ acc ∨ (M.sf f = .live ∧ ∃ e ∈ M.fe f, Ends M e v)) ∧
      ∀ e ∈ es, ∀ f, M.sf f = .live → e ∈ M.fe f → f ∈ acc' := by
  intro es
  induction es with
  | nil => intro acc _ hn; exact ⟨acc, rfl, hn, fun _ hf => hf, fun _ hf => Or.inl hf, by simp⟩
  | cons e es ih =>
    intro acc hes hn
    obtain ⟨he1, he2, he3⟩ := hes e (List.mem_cons_self ..)
    obtain ⟨a1, p1, p2, p3, p4, p5⟩ := facesAt_ok h he1 he2 he3 hn
    obtain ⟨acc', h1, h2, h3, h4, h5⟩ := ih a1 (fun x hx => hes x (List.mem_cons_of_mem _ hx)) p2
    refine ⟨acc', ?_, h2, fun f hf => h3 f (p3 f hf), ?_, ?_⟩
    · unfold vertFaces
      rw [p1, Res.bind_ok]
      exact h1
    · intro f hf
      rcases h4 f hf with hh | hh
      · exact p4 f hh
      · exact Or.inr hh
    · intro x hx f hf hxf
      rcases List.mem_cons.1 hx with rfl | hx
      · exact h3 f (p5 f hf hxf)
      · exact h5 x hx f hf hxf

theorem twoUsing_ok {M : Mesh4} (f : Nat) : ∀ (rs : List Nat) (k : Nat), k < 2 → (∀ r ∈ rs, M.sr r = .live) →
    rs.Nodup → ∃ l, twoUsing M f k rs = .ok l ∧ l.Nodup ∧ l.length ≤ 2 - k ∧
      (∀ r ∈ l, r ∈ rs ∧ f ∈ M.facesOf r) ∧ (l.length < 2 - k → ∀ r ∈ rs, f ∈ M.facesOf r → r ∈ l) := by
  intro rs
  induction rs with
  | nil => intro k _ _ _; exact ⟨[], rfl, List.nodup_nil, by simp, by simp, by simp⟩
  | cons r rs ih =>
    intro k hk hr hn
    obtain ⟨hn1, hn2⟩ := List.nodup_cons.1 hn
    have hr' : ∀ x ∈ rs, M.sr x = .live := fun x hx => hr x (List.mem_cons_of_mem _ hx)
    unfold twoUsing
    rw [deref_live (hr r (List.mem_cons_self ..)), Res.bind_ok]
    by_cases hf : f ∈ M.facesOf r
    · rw [if_pos hf]
      by_cases hk1 : k + 1 = 2
      · rw [if_pos hk1]
        refine ⟨[r], rfl, by simp, by simp; omega, ?_, ?_⟩
        · intro x hx
          rw [List.mem_singleton.1 hx]
          exact ⟨List.mem_cons_self .., hf⟩
        · intro hh
          simp only [List.length_singleton] at hh
          omega
      · rw [if_neg hk1]
        obtain ⟨l, h1, h2, h3, h4, h5⟩ := ih (k + 1) (by omega) hr' hn2
        rw [h1]
        refine ⟨r :: l, rfl, List.nodup_cons.2 ⟨fun hh => hn1 (h4 r hh).1, h2⟩, by simp only [List.length_cons]; omega, ?_, ?_⟩
        · intro x hx
          rcases List.mem_cons.1 hx with rfl | hx
          · exact ⟨List.mem_cons_self .., hf⟩
          · exact ⟨List.mem_cons_of_mem _ (h4 x hx).1, (h4 x hx).2⟩
        · intro hh x hx hxf
          simp only [List.length_cons] at hh
          rcases List.mem_cons.1 hx with rfl | hx
          · exact List.mem_cons_self ..
          · exact List.mem_cons_of_mem _ (h5 (by omega) x hx hxf)
    · rw [if_neg hf]
      obtain ⟨l, h1, h2, h3, h4, h5⟩ := ih k hk hr' hn2
      refine ⟨l, h1, h2, h3, fun x hx => ⟨List.mem_cons_of_mem _ (h4 x hx).1, (h4 x hx).2⟩, ?_⟩
      intro hh x hx hxf
      rcases List.mem_cons.1 hx with rfl | hx
      · exact absurd hxf hf
      · exact h5 hh x hx hxf

theorem first_edge {M : Mesh4} {K : Nat → Bool} (h : Inv M K) {f : Nat} (hf : M.sf f = .live) :
    ∃ e, (M.fe f).head? = some e ∧ e ∈ M.fe f ∧ M.se e = .live := by
  obtain ⟨h1, h2, _⟩ := h.fe f (by rw [hf]; decide)
  cases hes : M.fe f with
  | nil => exact absurd hes h1
  | cons e es =>
    have : e ∈ M.fe f := by rw [hes]; exact List.mem_cons_self ..
    exact ⟨e, rfl, List.mem_cons_self .., h2 e this⟩

theorem answers_of {M : Mesh4} {K : Nat → Bool} (h : Inv M K) : Answers M K := by
  constructor
  · intro v hv
    refine ⟨M.ve v, ?_, h.veNodup v, h.ve v⟩
    unfold mvEdges
    rw [deref_live hv]
    rfl
  · intro e he; exact meFaces_ok h he
  · intro e he
    obtain ⟨l, h1, h2, h3⟩ := meRegions_ok h he
    refine ⟨l, h1, h2, fun r => (h3 r).trans ?_⟩
    constructor
    · rintro ⟨a, b⟩; exact ⟨h.known r a, a, b⟩
    · rintro ⟨_, a, b⟩; exact ⟨a, b⟩
  · intro v hv
    obtain ⟨l, h1, h2, h3⟩ := vertRegions_ok h (M.ve v) [] (fun e he => ((h.ve v e).1 he).1) List.nodup_nil
    refine ⟨l, ?_, h2, fun r => (h3 r).trans ?_⟩
    · unfold mvRegions
      rw [deref_live hv, Res.bind_ok]
      exact h1
    · constructor
      · rintro (hh | ⟨e, he, hk, hh⟩)
        · cases hh
        · exact ⟨h.known r hk, hk, e, ((h.ve v e).1 he).1, ((h.ve v e).1 he).2, hh⟩
      · rintro ⟨_, hk, e, he, hev, hh⟩
        exact Or.inr ⟨e, (h.ve v e).2 ⟨he, hev⟩, hk, hh⟩
  · intro f hf
    obtain ⟨e, e1, e2, e3⟩ := first_edge h hf
    obtain ⟨rs, r1, r2, r3⟩ := meRegions_ok h e3
    obtain ⟨l, h1, h2, h3, h4, h5⟩ := twoUsing_ok (M := M) f rs 0 (by omega) (fun r hr => h.known r ((r3 r).1 hr).1) r2
    refine ⟨l, ?_, h2, h3, ?_, ?_⟩
    · unfold mfRegions
      rw [deref_live hf, Res.bind_ok, e1]
      dsimp only
      rw [r1, Res.bind_ok]
      exact h1
    · intro r hr
      obtain ⟨a, b⟩ := h4 r hr
      have := ((r3 r).1 a).1
      exact ⟨h.known r this, this, b⟩
    · intro hlt r _ hk hfr
      exact h5 hlt r ((r3 r).2 ⟨hk, f, hfr, e2⟩) hfr
  · intro v hv hc
    obtain ⟨l, h1, h2, _, h4, h5⟩ := vertFaces_ok h (v := v) (M.ve v) [] (fun e he =>
      ⟨((h.ve v e).1 he).1, ((h.ve v e).1 he).2, hc e ((h.ve v e).1 he).1 ((h.ve v e).1 he).2⟩) List.nodup_nil
    refine ⟨l, ?_, h2, fun f => ?_⟩
    · unfold mvFaces
      rw [deref_live hv, Res.bind_ok]
      exact h1
    · constructor
      · intro hf
        rcases h4 f hf with hh | hh
        · cases hh
        · exact hh
      · rintro ⟨hf, e, he, hev⟩
        have := (h.fe f (by rw [hf]; decide)).2.1 e he
        exact h5 e ((h.ve v e).2 ⟨this, hev⟩) f hf he

theorem no_restore : ∀ (os : List Op) (K : Nat → Bool), (∀ r, K r = false) → (∀ r, Op.resR r ∉ os) →
    ∀ r, restored K os r = false := by
  intro os
  induction os with
  | nil => intro K hK _; exact hK
  | cons o os ih =>
    intro K hK hno
    rw [restored_cons]
    refine ih _ ?_ fun r hr => hno r (List.mem_cons_of_mem _ hr)
    cases o with
    | resR r => exact absurd (List.mem_cons_self ..) (hno r)
    | delR r keep =>
      intro x
      show upd K r false x = false
      unfold upd
      split
      · rfl
      · exact hK x
    | newV => exact hK
    | newE => exact hK
    | newF => exact hK
    | newR => exact hK
    | delF => exact hK
    | resF => exact hK

/-! ### The property -/

/-- **C89 (partial).** After any legal history the queries answer with exactly the live entities that use
the given one, where the regions are those that were restored after a temporary deletion. -/
theorem C89_answers_partial (os : List Op) (hl : LegalRun empty os) :
    ∃ M, run empty os = .ok M ∧ Answers M (restored (fun _ => false) os) := by
  obtain ⟨M, h1, h2⟩ := run_inv os inv_empty hl
  exact ⟨M, h1, answers_of h2⟩

/-- **C89, negation.** In a mesh that was filled without restoring regions no edge, face or vertex knows
a region, and asking for the number of regions of a vertex reads through NULL, no matter how many
regions there are. -/
theorem C89_negation_regions (os : List Op) (hl : LegalRun empty os) (hno : ∀ r, Op.resR r ∉ os) :
    ∃ M, run empty os = .ok M ∧ (∀ e, M.se e = .live → meRegions M e = .ok []) ∧
      (∀ f, M.sf f = .live → mfRegions M f = .ok []) ∧
      ∀ v, M.sv v = .live → mvRegions M v = .ok [] ∧ mvNumRegions M v = .ub := by
  obtain ⟨M, h1, h2⟩ := C89_answers_partial os hl
  have hK := no_restore os (fun _ => false) (fun _ => rfl) hno
  refine ⟨M, h1, ?_, ?_, ?_⟩
  · intro e he
    obtain ⟨l, a, b, c⟩ := h2.edgeRegions e he
    rw [a]
    congr 1
    refine List.eq_nil_iff_forall_not_mem.2 fun r hr => ?_
    have := ((c r).1 hr).2.1
    rw [hK r] at this; cases this
  · intro f hf
    obtain ⟨l, a, _, _, c, _⟩ := h2.faceRegions f hf
    rw [a]
    congr 1
    refine List.eq_nil_iff_forall_not_mem.2 fun r hr => ?_
    have := (c r hr).2.1
    rw [hK r] at this; cases this
  · intro v hv
    obtain ⟨l, a, b, c⟩ := h2.vertRegions v hv
    have hnil : l = [] := by
      refine List.eq_nil_iff_forall_not_mem.2 fun r hr => ?_
      have := ((c r).1 hr).2.1
      rw [hK r] at this; cases this
    subst hnil
    refine ⟨a, ?_⟩
    unfold mvNumRegions
    rw [a]
    rfl

theorem facesIn_freed {M : Mesh4} {e f : Nat} (hf : M.sf f = .freed) : ∀ (l : List (Bool × Nat)) (acc acc' : List Nat),
    (false, f) ∈ l → facesIn M e l acc ≠ .ok acc' := by
  intro l
  induction l with
  | nil => intro _ _ hh; cases hh
  | cons x xs ih =>
    intro acc acc' hx hok
    unfold facesIn at hok
    obtain ⟨d, hd, hok⟩ := Res.bind_eq_ok.1 hok
    rcases List.mem_cons.1 hx with rfl | hx
    · unfold dim at hd
      rw [if_neg (by simp)] at hd
      dsimp only at hd
      rw [hf] at hd
      cases hd
    · cases d with
      | none => exact ih acc acc' hx hok
      | some b =>
        cases b with
        | false => exact ih _ acc' hx hok
        | true =>
          obtain ⟨a, _, hok⟩ := Res.bind_eq_ok.1 hok
          exact ih a acc' hx hok

/-- **C89, negation.** After any legal history, once a face is deleted for good no edge of it can be asked
for its faces any more: the edge still lists the freed face. -/
theorem C89_negation_free (os : List Op) (hl : LegalRun empty os) :
    ∃ M, run empty os = .ok M ∧ ∀ f e, M.sf f = .live → e ∈ M.fe f →
      ∃ M', delFace M f false = .ok M' ∧ ∀ l, meFaces M' e ≠ .ok l := by
  obtain ⟨M, h1, h2⟩ := run_inv os inv_empty hl
  refine ⟨M, h1, ?_⟩
  intro f e hf he
  refine ⟨_, by unfold delFace; rw [deref_live hf]; rfl, ?_⟩
  intro l hh
  unfold meFaces at hh
  obtain ⟨_, _, hh⟩ := Res.bind_eq_ok.1 hh
  refine facesIn_freed (f := f) ?_ _ _ _ ?_ hh
  · dsimp only; rw [upd_same]; rfl
  · exact (h2.elF e f).2 ⟨by rw [hf]; decide, he⟩

theorem firstWith_ok {M : Mesh4} (f : Nat) (d : Bool) : ∀ (rs : List Nat), (∀ r ∈ rs, M.sr r = .live) →
    ∃ o, firstWith M f d rs = .ok o ∧ (∀ r, o = some r → r ∈ rs ∧ faceDir M r f = some d) ∧
      (o = none → ∀ r ∈ rs, faceDir M r f ≠ some d) := by
  intro rs
  induction rs with
  | nil => intro _; exact ⟨none, rfl, by simp, by simp⟩
  | cons r rs ih =>
    intro h
    unfold firstWith
    rw [deref_live (h r (List.mem_cons_self ..)), Res.bind_ok]
    by_cases hd : faceDir M r f = some d
    · rw [if_pos hd]
      refine ⟨some r, rfl, ?_, by simp⟩
      intro x hx
      cases hx
      exact ⟨List.mem_cons_self .., hd⟩
    · rw [if_neg hd]
      obtain ⟨o, h1, h2, h3⟩ := ih fun x hx => h x (List.mem_cons_of_mem _ hx)
      refine ⟨o, h1, fun x hx => ⟨List.mem_cons_of_mem _ (h2 x hx).1, (h2 x hx).2⟩, ?_⟩
      intro ho x hx
      rcases List.mem_cons.1 hx with rfl | hx
      · exact hd
      · exact h3 ho x hx

/-- **C89, negation.** A region that has the face with direction `d` is on the side `!d` of the face (that
is where `MR_Set_Faces` puts it in other representations); the `F4` query answers with it for the side
`d`: after any legal history in which only one known region has the face. -/
theorem C89_negation_side (os : List Op) (hl : LegalRun empty os) :
    ∃ M, run empty os = .ok M ∧ ∀ f r d, M.sf f = .live → restored (fun _ => false) os r = true →
      faceDir M r f = some d →
      (∀ r', restored (fun _ => false) os r' = true → f ∈ M.facesOf r' → r' = r) →
      mfRegion M f d = .ok (some r) ∧ mfRegion M f (!d) = .ok none := by
  obtain ⟨M, h1, h⟩ := run_inv os inv_empty hl
  refine ⟨M, h1, ?_⟩
  intro f r d hf hk hd hone
  have hin : ∀ x c, faceDir M x f = some c → f ∈ M.facesOf x := by
    intro x c hx
    unfold faceDir at hx
    obtain ⟨p, hp, _⟩ := Option.map_eq_some_iff.1 hx
    have h1 := List.mem_of_find?_eq_some hp
    have h2 := List.find?_some hp
    exact List.mem_map.2 ⟨p, h1, by simpa using h2⟩
  obtain ⟨e, e1, e2, e3⟩ := first_edge h hf
  obtain ⟨rs, r1, r2, r3⟩ := meRegions_ok h e3
  have hlive : ∀ x ∈ rs, M.sr x = .live := fun x hx => h.known x ((r3 x).1 hx).1
  have hunf : ∀ c, mfRegion M f c = firstWith M f c rs := by
    intro c
    unfold mfRegion
    rw [deref_live hf, Res.bind_ok, e1]
    dsimp only
    rw [r1, Res.bind_ok]
  have hr : r ∈ rs := (r3 r).2 ⟨hk, f, hin r d hd, e2⟩
  constructor
  · obtain ⟨o, a1, a2, a3⟩ := firstWith_ok (M := M) f d rs hlive
    rw [hunf, a1]
    cases o with
    | none => exact absurd hd (a3 rfl r hr)
    | some x =>
      obtain ⟨b1, b2⟩ := a2 x rfl
      rw [hone x ((r3 x).1 b1).1 (hin x d b2)]
  · obtain ⟨o, a1, a2, a3⟩ := firstWith_ok (M := M) f (!d) rs hlive
    rw [hunf, a1]
    cases o with
    | none => rfl
    | some x =>
      obtain ⟨b1, b2⟩ := a2 x rfl
      rw [hone x ((r3 x).1 b1).1 (hin x _ b2), hd] at b2
      cases d <;> cases b2

/-! ### A case: a tetrahedron -/

/-- the calls that make a tetrahedron -/
def tetOps : List Op :=
  [.newV 0, .newV 1, .newV 2, .newV 3,
   .newE 0 0 1, .newE 1 1 2, .newE 2 2 0, .newE 3 0 3, .newE 4 1 3, .newE 5 2 3,
   .newF 0 [0, 1, 2], .newF 1 [0, 4, 3], .newF 2 [1, 5, 4], .newF 3 [2, 3, 5],
   .newR 0 [(0, false), (1, true), (2, true), (3, true)]]

/-- legality as a test -/
def legalB (M : Mesh4) : Op → Bool
  | .newV v => M.sv v == .unused
  | .newE e a b => M.se e == .unused && M.sv a == .live && M.sv b == .live
  | .newF f es => M.sf f == .unused && !es.isEmpty && (es.all fun e => M.se e == .live) &&
      (es.all fun e => (es.dropLast.any fun e' => (M.ev e').1 == (M.ev e).1 || (M.ev e').2 == (M.ev e).1) &&
        (es.dropLast.any fun e' => (M.ev e').1 == (M.ev e).2 || (M.ev e').2 == (M.ev e).2))
  | .newR r fs => M.sr r == .unused && fs.all fun p => M.sf p.1 == .live
  | .delR r _ => M.sr r == .live
  | .resR r => M.sr r == .kept && (M.facesOf r).all fun f => M.sf f == .live
  | .delF _ => false
  | .resF f => M.sf f == .kept

theorem legalB_sound {M : Mesh4} {o : Op} (h : legalB M o = true) : o.legal M := by
  cases o with
  | newV v => simpa [legalB, Op.legal] using h
  | newE e a b => simpa [legalB, Op.legal, and_assoc] using h
  | newF f es =>
    simp only [legalB, Bool.and_eq_true, beq_iff_eq, Bool.not_eq_true', List.isEmpty_eq_false_iff,
      List.all_eq_true, List.any_eq_true, Bool.or_eq_true] at h
    obtain ⟨⟨⟨h1, h2⟩, h3⟩, h4⟩ := h
    refine ⟨h1, h2, h3, ?_⟩
    intro e he v hv
    obtain ⟨⟨a, ha1, ha2⟩, b, hb1, hb2⟩ := h4 e he
    rcases hv with hv | hv
    · exact ⟨a, ha1, by rw [hv] at ha2; exact ha2⟩
    · exact ⟨b, hb1, by rw [hv] at hb2; exact hb2⟩
  | newR r fs =>
    simp only [legalB, Bool.and_eq_true, beq_iff_eq, List.all_eq_true] at h
    exact h
  | delR r keep =>
    simp only [legalB, beq_iff_eq] at h
    exact Or.inl h
  | resR r =>
    simp only [legalB, Bool.and_eq_true, beq_iff_eq, List.all_eq_true] at h
    exact h
  | delF f => cases h
  | resF f => simpa [legalB, Op.legal] using h

def legalRunB (M : Mesh4) : List Op → Bool
  | [] => true
  | o :: os => legalB M o && (match step M o with
    | .ok M' => legalRunB M' os
    | _ => false)

theorem legalRunB_sound : ∀ (os : List Op) {M : Mesh4}, legalRunB M os = true → LegalRun M os := by
  intro os
  induction os with
  | nil => intro _ _; trivial
  | cons o os ih =>
    intro M h
    unfold legalRunB at h
    rw [Bool.and_eq_true] at h
    refine ⟨legalB_sound h.1, ?_⟩
    intro M' hM'
    rw [hM'] at h
    exact ih h.2

theorem tet_legal : LegalRun empty tetOps := legalRunB_sound _ (by decide +kernel)

/-- after a temporary deletion and restoration of the region it is known -/
theorem tet_legal2 : LegalRun empty (tetOps ++ [.delR 0 true, .resR 0]) := legalRunB_sound _ (by decide +kernel)

/-- the tetrahedron just made: the region has the edge, but the edge does not know the region; its faces
are known -/
example : ∃ M, run empty tetOps = .ok M ∧ M.sr 0 = .live ∧ EdgeOfRegion M 0 3 ∧ meRegions M 3 = .ok [] ∧
    mvNumRegions M 3 = .ub ∧ meFaces M 3 = .ok [1, 3] := by
  obtain ⟨M, h1, h2, _, h3⟩ := C89_negation_regions tetOps tet_legal (by simp [tetOps])
  have hM : M = ((match run empty tetOps with | .ok M => M | _ => empty)) := by rw [h1]
  refine ⟨M, h1, ?_, ?_, h2 3 ?_, (h3 3 ?_).2, ?_⟩
  · rw [hM]; decide +kernel
  · rw [hM]; exact ⟨1, by decide +kernel, by decide +kernel⟩
  · rw [hM]; decide +kernel
  · rw [hM]; decide +kernel
  · rw [hM]; decide +kernel

/-- after deleting and restoring the region the edge, the vertex and the face know it, the face on the
wrong side: `MR_Set_Faces` puts a region with direction 1 on side 0 -/
example : ∃ M, run empty (tetOps ++ [.delR 0 true, .resR 0]) = .ok M ∧ meRegions M 3 = .ok [0] ∧
    mvRegions M 3 = .ok [0] ∧ mfRegions M 1 = .ok [0] ∧ mfRegion M 1 true = .ok (some 0) ∧
    mfRegion M 1 false = .ok none ∧ mvFaces M 3 = .ok [1, 2, 3] := by
  obtain ⟨M, h1, _⟩ := C89_answers_partial _ tet_legal2
  have hM : M = ((match run empty (tetOps ++ [.delR 0 true, .resR 0]) with | .ok M => M | _ => empty)) := by rw [h1]
  refine ⟨M, h1, ?_⟩
  rw [hM]
  decide +kernel

end MSTK.F4M
