import Verif.R4Model
import Verif.Props.R1
/-!
C95: the answers of a mesh with the representation `R4`.
-/
namespace MSTK.R4M

open R1M (Lists listOrNull deref place entries)

/-! ### Specification -/

/-- the calls that make up a history of the mesh; `delF` and `delR` are temporary deletions, `killR` deletes
a region for good -/
inductive Op where
  | newV (v : Nat)
  | newF (f : Nat)
  | setF (f : Nat) (vs : List Nat)
  | delF (f : Nat)
  | resF (f : Nat)
  | newR (r : Nat)
  | setR (r : Nat) (fds : List (Nat × Bool))
  | delR (r : Nat)
  | killR (r : Nat)
  | resR (r : Nat)

def step (M : Mesh4) : Op → Res Mesh4
  | .newV v => newVertex M v
  | .newF f => newFace M f
  | .setF f vs => setFaceVertices M f vs
  | .delF f => delFace M f true
  | .resF f => restoreFace M f
  | .newR r => newRegion M r
  | .setR r fds => setFaces M r fds
  | .delR r => delRegion M r true
  | .killR r => delRegion M r false
  | .resR r => restoreRegion M r

def run (M : Mesh4) : List Op → Res Mesh4
  | [] => .ok M
  | o :: os => do run (← step M o) os

/-- What the caller knows after a history: the vertices there are; the faces that were made, those that are
not deleted, the vertices they were given and whether they were deleted and restored; the regions that were
made, those that are not deleted, those deleted for good and the faces they were given with the directions. -/
structure Known where
  vert : Nat → Bool
  face : Nat → Bool
  falive : Nat → Bool
  fverts : Nat → Option (List Nat)
  back : Nat → Bool
  regs : List Nat
  alive : Nat → Bool
  gone : Nat → Bool
  faces : Nat → Option (List (Nat × Bool))

def nothing : Known :=
  ⟨fun _ => false, fun _ => false, fun _ => false, fun _ => none, fun _ => false, [], fun _ => false,
    fun _ => false, fun _ => none⟩

def note (k : Known) : Op → Known
  | .newV v => { k with vert := upd k.vert v true }
  | .newF f => { k with face := upd k.face f true, falive := upd k.falive f true }
  | .setF f vs => { k with fverts := upd k.fverts f (some vs) }
  | .delF f => { k with falive := upd k.falive f false, back := upd k.back f false }
  | .resF f => { k with falive := upd k.falive f true, back := upd k.back f true }
  | .newR r => { k with regs := r :: k.regs, alive := upd k.alive r true }
  | .setR r fds => { k with faces := upd k.faces r (some fds) }
  | .delR r => { k with alive := upd k.alive r false }
  | .killR r => { k with alive := upd k.alive r false, gone := upd k.gone r true }
  | .resR r => { k with alive := upd k.alive r true }

/-- the region was given the face in this direction: its own (`true`), when the normal points out -/
def Known.Uses (k : Known) (r f : Nat) (d : Bool) : Prop := (f, d) ∈ (k.faces r).getD []

/-- no region that is there uses the face in this direction -/
def Known.Free (k : Known) (f : Nat) (d : Bool) : Prop :=
  ∀ x ∈ k.regs, k.alive x = true → (f, d) ∉ (k.faces x).getD []

/-- the vertex is a vertex of the face -/
def Known.Has (k : Known) (f v : Nat) : Prop := v ∈ (k.fverts f).getD []

/-- New entities get storage that is not in use; a face gets its vertices once and they exist; a region gets
its faces once, they are different and have their vertices, and none is used in the same direction already;
a face or region is deleted when it is there and restored when it was deleted. -/
def Op.legal (k : Known) : Op → Prop
  | .newV v => k.vert v = false
  | .newF f => k.face f = false
  | .setF f vs => k.falive f = true ∧ k.fverts f = none ∧ ∀ v ∈ vs, k.vert v = true
  | .delF f => k.falive f = true ∧ k.fverts f ≠ none
  | .resF f => k.face f = true ∧ k.falive f = false
  | .newR r => r ∉ k.regs
  | .setR r fds => k.alive r = true ∧ k.faces r = none ∧ (fds.map (·.1)).Nodup ∧
      ∀ p ∈ fds, k.fverts p.1 ≠ none ∧ k.Free p.1 p.2
  | .delR r => k.alive r = true
  | .killR r => r ∈ k.regs ∧ k.gone r = false
  | .resR r => r ∈ k.regs ∧ k.gone r = false ∧ k.alive r = false ∧ k.faces r ≠ none ∧
      ∀ p ∈ (k.faces r).getD [], k.Free p.1 p.2

def Legal (k : Known) : List Op → Prop
  | [] => True
  | o :: os => o.legal k ∧ Legal (note k o) os

/-- the vertex `b` comes after `a` around the face -/
def Follows (vs : List Nat) (a b : Nat) : Prop :=
  ∃ i, vs[i]? = some a ∧ vs[(i + 1) % vs.length]? = some b

/-- the type of a region whose faces have these numbers of vertices -/
def kind (ns : List Nat) : MRType :=
  if ns.length < 4 then .runknown
  else if ns = [3, 3, 3, 3] then .tet
  else if ns.length = 5 ∧ ns.count 4 = 3 ∧ ns.count 3 = 2 then .prism
  else if ns.length = 5 ∧ ns.count 4 = 1 ∧ ns.count 3 = 4 then .pyramid
  else if ns = [4, 4, 4, 4, 4, 4] then .hex
  else .polyhed

/-- What the queries answer. -/
structure Answers (M : Mesh4) (k : Known) : Prop where
  faceVertices : ∀ f vs, k.face f = true → k.fverts f = some vs →
    mfNumVertices M f = .ok vs.length ∧
    (∀ v, mfUsesVertex M f v = .ok (decide (v ∈ vs))) ∧
    mfVertices M f true none = .ok (some vs) ∧
    mfVertices M f false none = .ok (some vs.reverse) ∧
    (∀ dir v, v ∉ vs → mfVertices M f dir (some v) = .ok none) ∧
    ∀ dir, ∀ v ∈ vs, ∃ l, mfVertices M f dir (some v) = .ok (some l) ∧ l.head? = some v ∧
      l ~r if dir then vs else vs.reverse
  faceEdges : ∀ f vs a b, k.face f = true → k.fverts f = some vs → vs.Nodup → 3 ≤ vs.length →
    (Follows vs a b → mfEdgeDir M f a b = .ok 1 ∧ mfUsesEdge M f a b = .ok true) ∧
    (Follows vs b a → mfEdgeDir M f a b = .ok 0 ∧ mfUsesEdge M f a b = .ok true) ∧
    (¬ Follows vs a b → ¬ Follows vs b a → mfEdgeDir M f a b = .ok (-1) ∧ mfUsesEdge M f a b = .ok false)
  faceRegions : ∀ f, k.face f = true →
    (∃ l, mfRegions M f = .ok l ∧ ∀ r, r ∈ l ↔ k.alive r = true ∧ ∃ d, k.Uses r f d) ∧
    ∀ side, ∃ o, mfRegion M f side = .ok o ∧ ∀ r, o = some r ↔ k.alive r = true ∧ k.Uses r f (!side)
  regFaces : ∀ r fds, r ∈ k.regs → k.gone r = false → k.faces r = some fds →
    mrFaces M r = .ok (fds.map (·.1)) ∧ mrNumFaces M r = .ok fds.length ∧
    ∀ f, (k.Uses r f true → mrFaceDir M r f = .ok 1 ∧ mrUsesFace M r f = .ok true) ∧
      (k.Uses r f false → mrFaceDir M r f = .ok 0 ∧ mrUsesFace M r f = .ok true) ∧
      ((∀ d, ¬ k.Uses r f d) → mrFaceDir M r f = .ok (-1) ∧ mrUsesFace M r f = .ok false)
  regVertices : ∀ r fds, r ∈ k.regs → k.gone r = false → k.faces r = some fds →
    ∀ v, ∃ b, mrUsesVertex M r v = .ok b ∧ (b = true ↔ ∃ f d, k.Uses r f d ∧ k.Has f v)
  regType : ∀ r fds, r ∈ k.regs → k.gone r = false → k.faces r = some fds →
    M.rt r = kind (fds.map fun p => ((k.fverts p.1).getD []).length)
  /-- the regions on the other sides of its faces, each as often as it shares a face -/
  neighbours : ∀ r fds, k.alive r = true → k.faces r = some fds →
    ∃ l, mrAdjRegions M r = .ok l ∧
      (∀ x, x ∈ l ↔ k.alive x = true ∧ ∃ f d, k.Uses r f d ∧ k.Uses x f (!d)) ∧
      ∀ x, k.alive x = true → l.count x = (fds.filter fun p => (p.1, !p.2) ∈ (k.faces x).getD []).length
  /-- a vertex answers the faces that were deleted and restored -/
  vertFaces : ∀ v, k.vert v = true → ∃ l, Lists l (fun f => k.back f = true ∧ k.Has f v) ∧
    mvFaces M v = .ok l ∧ mvNumFaces M v = .ok l.length
  /-- and the regions at those faces; they can be counted when there is one -/
  vertRegions : ∀ v, k.vert v = true →
    ∃ l, Lists l (fun r => k.alive r = true ∧ ∃ f d, k.Uses r f d ∧ k.back f = true ∧ k.Has f v) ∧
    mvRegions M v = .ok (listOrNull l) ∧ mvNumRegions M v = if l = [] then .ub else .ok l.length

/-! ### helpers -/

theorem addTo_eq (sv : Nat → Stat) (r : Nat) : ∀ (vs : List Nat) (vf : Nat → List Nat),
    addTo sv r vs vf = R1M.addTo sv r vs vf := by
  intro vs
  induction vs with
  | nil => intro vf; rfl
  | cons v vs ih =>
    intro vf
    unfold addTo R1M.addTo
    congr 1
    funext _
    exact ih _

theorem remFrom_eq (sv : Nat → Stat) (r : Nat) : ∀ (vs : List Nat) (vf : Nat → List Nat),
    remFrom sv r vs vf = R1M.remFrom sv r vs vf := by
  intro vs
  induction vs with
  | nil => intro vf; rfl
  | cons v vs ih =>
    intro vf
    unfold remFrom R1M.remFrom
    congr 1
    funext _
    exact ih _

theorem attach_ok {sf : Nat → Stat} {r : Nat} : ∀ (l : List (Nat × Bool)) (fr : Nat → Bool → Option Nat),
    (∀ p ∈ l, deref (sf p.1) = .ok ()) → ∃ fr', attach sf r l fr = .ok fr' ∧
      ∀ f s, fr' f s = if (f, !s) ∈ l then some r else fr f s := by
  intro l
  induction l with
  | nil => intro fr _; exact ⟨fr, rfl, by simp⟩
  | cons p l ih =>
    obtain ⟨g, d⟩ := p
    intro fr h
    obtain ⟨fr', h1, h2⟩ := ih (upd fr g (fun s => if s = !d then some r else fr g s))
      (fun p hp => h p (List.mem_cons_of_mem _ hp))
    refine ⟨fr', ?_, ?_⟩
    · unfold attach
      rw [h (g, d) (List.mem_cons_self ..), Res.bind_ok]
      exact h1
    · intro f s
      rw [h2]
      by_cases hm : (f, !s) ∈ l
      · rw [if_pos hm, if_pos (List.mem_cons_of_mem _ hm)]
      · rw [if_neg hm, R1M.upd_apply']
        by_cases hf : f = g
        · subst hf
          rw [if_pos rfl]
          cases s <;> cases d <;> simp_all
        · rw [if_neg hf, if_neg]
          intro hc
          rcases List.mem_cons.1 hc with hc | hc
          · exact hf (Prod.ext_iff.1 hc).1
          · exact hm hc

theorem without_eq {r : Nat} {s : Bool → Option Nat} {d : Bool} (h : s (!d) = some r) (h' : s d ≠ some r)
    (b : Bool) : without r s b = if b = !d then none else s b := by
  unfold without
  cases d
  · have h1 : s true = some r := h
    rw [if_neg h', if_pos h1]
    cases b <;> simp
  · have h1 : s false = some r := h
    rw [if_pos h1]
    cases b <;> simp

theorem detach_ok {sf : Nat → Stat} {r : Nat} : ∀ (l : List (Nat × Bool)) (fr : Nat → Bool → Option Nat),
    (∀ p ∈ l, deref (sf p.1) = .ok ()) → (l.map (·.1)).Nodup →
    (∀ p ∈ l, fr p.1 (!p.2) = some r ∧ fr p.1 p.2 ≠ some r) → ∃ fr', detach sf r l fr = .ok fr' ∧
      ∀ f s, fr' f s = if (f, !s) ∈ l then none else fr f s := by
  intro l
  induction l with
  | nil => intro fr _ _ _; exact ⟨fr, rfl, by simp⟩
  | cons p l ih =>
    obtain ⟨g, d⟩ := p
    intro fr h hn hr
    rw [List.map_cons, List.nodup_cons] at hn
    have hg : ∀ b, (g, b) ∉ l := fun b hb => hn.1 (List.mem_map.2 ⟨_, hb, rfl⟩)
    obtain ⟨q1, q2⟩ := hr (g, d) (List.mem_cons_self ..)
    obtain ⟨fr', h1, h2⟩ := ih (upd fr g (without r (fr g)))
      (fun p hp => h p (List.mem_cons_of_mem _ hp)) hn.2 (by
        intro p hp
        have hpg : p.1 ≠ g := by
          intro he
          exact hg p.2 (by rw [← he]; exact hp)
        rw [upd_ne _ _ hpg]
        exact hr p (List.mem_cons_of_mem _ hp))
    refine ⟨fr', ?_, ?_⟩
    · unfold detach
      rw [h (g, d) (List.mem_cons_self ..), Res.bind_ok]
      exact h1
    · intro f s
      rw [h2]
      by_cases hf : f = g
      · subst hf
        rw [if_neg (hg _), upd_same, without_eq q1 q2]
        by_cases hs : s = !d
        · rw [if_pos hs, if_pos]
          rw [hs, Bool.not_not]
          exact List.mem_cons_self ..
        · rw [if_neg hs, if_neg]
          intro hc
          rcases List.mem_cons.1 hc with hc | hc
          · apply hs
            have := (Prod.ext_iff.1 hc).2
            simp only at this
            rw [← this, Bool.not_not]
          · exact hg _ hc
      · rw [upd_ne _ _ hf]
        have : (f, !s) ∈ (g, d) :: l ↔ (f, !s) ∈ l := by
          rw [List.mem_cons]
          constructor
          · rintro (h | h)
            · exact absurd (Prod.ext_iff.1 h).1 hf
            · exact h
          · exact Or.inr
        by_cases hm : (f, !s) ∈ l
        · rw [if_pos hm, if_pos (this.2 hm)]
        · rw [if_neg hm, if_neg (fun hc => hm (this.1 hc))]

/-! ### the invariant -/

structure Inv (M : Mesh4) (k : Known) : Prop where
  sv : ∀ v, M.sv v = if k.vert v then .live else .unused
  sf : ∀ f, M.sf f = if k.face f then (if k.falive f then .live else .kept) else .unused
  sr : ∀ r, M.sr r = if r ∈ k.regs then
    (if k.gone r then .freed else if k.alive r then .live else .kept) else .unused
  noface : ∀ f, k.face f = false → k.fverts f = none ∧ k.falive f = false
  fdead : ∀ f, k.face f = true → k.falive f = false → k.fverts f ≠ none
  backed : ∀ f, k.back f = true → k.falive f = true ∧ k.fverts f ≠ none
  noreg : ∀ r, r ∉ k.regs → k.alive r = false ∧ k.faces r = none ∧ k.gone r = false
  goner : ∀ r, k.gone r = true → k.alive r = false
  fv : ∀ f, M.fv f = k.fverts f
  rf : ∀ r, M.rf r = k.faces r
  shape : ∀ r fds, k.faces r = some fds → (fds.map (·.1)).Nodup ∧ ∀ p ∈ fds, k.fverts p.1 ≠ none
  fhas : ∀ f v, k.Has f v → k.vert v = true
  vf : ∀ v f, f ∈ M.vf v ↔ k.back f = true ∧ k.Has f v
  nodup : ∀ v, (M.vf v).Nodup
  fr : ∀ f s r, M.fr f s = some r ↔ k.alive r = true ∧ k.Uses r f (!s)
  rt : ∀ r fds, k.faces r = some fds → M.rt r = kind (fds.map fun p => ((k.fverts p.1).getD []).length)

theorem inv_empty : Inv empty nothing := by
  constructor <;> simp [empty, nothing, Known.Has, Known.Uses]

section
variable {M : Mesh4} {k : Known}

theorem Inv.vlive (h : Inv M k) {v : Nat} (hv : k.vert v = true) : M.sv v = .live := by
  rw [h.sv, hv]; rfl

theorem Inv.hasFace (h : Inv M k) {f : Nat} (hf : k.fverts f ≠ none) : k.face f = true := by
  cases hc : k.face f with
  | false => exact absurd (h.noface f hc).1 hf
  | true => rfl

theorem Inv.hasFace' (h : Inv M k) {f : Nat} (hf : k.falive f = true) : k.face f = true := by
  cases hc : k.face f with
  | false => rw [(h.noface f hc).2] at hf; cases hf
  | true => rfl

theorem Inv.fthere (h : Inv M k) {f : Nat} (hf : k.face f = true) : deref (M.sf f) = .ok () := by
  apply R1M.deref_ok
  rw [h.sf, hf]
  cases k.falive f
  · right; rfl
  · left; rfl

theorem Inv.inRegs (h : Inv M k) {r : Nat} (ha : k.alive r = true) : r ∈ k.regs := by
  by_contra hc
  rw [(h.noreg r hc).1] at ha; cases ha

theorem Inv.notGone (h : Inv M k) {r : Nat} (ha : k.alive r = true) : k.gone r = false := by
  cases hg : k.gone r with
  | false => rfl
  | true => rw [h.goner r hg] at ha; cases ha

theorem Inv.live (h : Inv M k) {r : Nat} (ha : k.alive r = true) : M.sr r = .live := by
  rw [h.sr, if_pos (h.inRegs ha), h.notGone ha, ha]; rfl

theorem Inv.there (h : Inv M k) {r : Nat} (hr : r ∈ k.regs) (hg : k.gone r = false) :
    deref (M.sr r) = .ok () := by
  apply R1M.deref_ok
  rw [h.sr, if_pos hr, hg]
  cases k.alive r
  · right; rfl
  · left; rfl

/-- the two sides of a face used by a region that is there -/
theorem Inv.sides (h : Inv M k) {r : Nat} (ha : k.alive r = true) {p : Nat × Bool}
    (hp : p ∈ (k.faces r).getD []) : M.fr p.1 (!p.2) = some r ∧ M.fr p.1 p.2 ≠ some r := by
  constructor
  · rw [h.fr]
    refine ⟨ha, ?_⟩
    unfold Known.Uses
    rw [Bool.not_not]; exact hp
  · rw [Ne, h.fr]
    rintro ⟨_, hu⟩
    unfold Known.Uses at hu
    cases hf : k.faces r with
    | none => rw [hf] at hp; cases hp
    | some fds =>
      rw [hf] at hp hu
      have hn := (h.shape r fds hf).1
      have := List.inj_on_of_nodup_map hn hp hu rfl
      have := (Prod.ext_iff.1 this).2
      simp at this

theorem numVertices_ok (h : Inv M k) {f : Nat} (hf : k.fverts f ≠ none) :
    mfNumVertices M f = .ok ((k.fverts f).getD []).length := by
  unfold mfNumVertices
  rw [h.fthere (h.hasFace hf), Res.bind_ok, h.fv]
  cases hv : k.fverts f with
  | none => exact absurd hv hf
  | some vs => rfl

theorem allSize_ok (h : Inv M k) (n : Nat) : ∀ (fs : List Nat), (∀ f ∈ fs, k.fverts f ≠ none) →
    allSize M n fs = .ok (decide (∀ f ∈ fs, ((k.fverts f).getD []).length = n)) := by
  intro fs
  induction fs with
  | nil => intro _; simp [allSize]
  | cons f fs ih =>
    intro hf
    unfold allSize
    rw [numVertices_ok h (hf f (List.mem_cons_self ..)), Res.bind_ok,
      ih (fun g hg => hf g (List.mem_cons_of_mem _ hg))]
    by_cases hc : ((k.fverts f).getD []).length = n
    · rw [if_neg (by simpa using hc)]
      simp [hc]
    · rw [if_pos (by simpa using hc)]
      simp [hc]

theorem sizes_ok (h : Inv M k) : ∀ (fs : List Nat), (∀ f ∈ fs, k.fverts f ≠ none) →
    sizes M fs = .ok (fs.map fun f => ((k.fverts f).getD []).length) := by
  intro fs
  induction fs with
  | nil => intro _; rfl
  | cons f fs ih =>
    intro hf
    unfold sizes
    rw [numVertices_ok h (hf f (List.mem_cons_self ..)), Res.bind_ok,
      ih (fun g hg => hf g (List.mem_cons_of_mem _ hg)), Res.bind_ok]
    rfl

theorem filter_count (ns : List Nat) (n : Nat) : (ns.filter (· = n)).length = ns.count n := by
  rw [List.count, List.countP_eq_length_filter]
  congr 1

theorem all_same {ns : List Nat} {n m : Nat} (hl : ns.length = m) :
    (∀ x ∈ ns, x = n) ↔ ns = List.replicate m n := by
  rw [List.eq_replicate_iff]
  exact ⟨fun h => ⟨hl, h⟩, fun h => h.2⟩

theorem typeFrom_ok (h : Inv M k) {fs : List Nat} (hf : ∀ f ∈ fs, k.fverts f ≠ none) :
    typeFrom M fs = .ok (kind (fs.map fun f => ((k.fverts f).getD []).length)) := by
  have hl : (fs.map fun f => ((k.fverts f).getD []).length).length = fs.length := List.length_map ..
  have hall : ∀ n, (∀ f ∈ fs, ((k.fverts f).getD []).length = n) ↔
      ∀ x ∈ fs.map (fun f => ((k.fverts f).getD []).length), x = n := by
    intro n; simp
  unfold typeFrom
  rw [allSize_ok h 3 fs hf, allSize_ok h 4 fs hf, sizes_ok h fs hf]
  generalize hns : (fs.map fun f => ((k.fverts f).getD []).length) = ns at hl hall
  unfold kind
  rw [hl]
  have hno : ∀ m : Nat, ∀ l : List Nat, l.length = m → fs.length ≠ m → ¬ ns = l := by
    intro m l h1 h2 h3
    rw [h3, h1] at hl; exact h2 hl.symm
  by_cases h0 : fs.length < 4
  · rw [if_pos h0, if_pos h0]
  · rw [if_neg h0, if_neg h0]
    by_cases h4 : fs.length = 4
    · rw [if_pos h4, Res.bind_ok]
      have e := (hall 3).trans (all_same (hl.trans h4))
      by_cases hc : ns = [3, 3, 3, 3]
      · rw [if_pos hc, decide_eq_true (e.2 hc)]; rfl
      · rw [if_neg hc, decide_eq_false (fun hh => hc (e.1 hh)),
          if_neg (show ¬ (fs.length = 5 ∧ ns.count 4 = 3 ∧ ns.count 3 = 2) from fun hh => by omega),
          if_neg (show ¬ (fs.length = 5 ∧ ns.count 4 = 1 ∧ ns.count 3 = 4) from fun hh => by omega),
          if_neg (hno 6 [4, 4, 4, 4, 4, 4] rfl (by omega))]
        rfl
    · rw [if_neg h4, if_neg (hno 4 [3, 3, 3, 3] rfl h4)]
      by_cases h5 : fs.length = 5
      · rw [if_pos h5, Res.bind_ok]
        unfold typeOfFive
        rw [filter_count, filter_count]
        simp only [h5, true_and]
        rw [if_neg (hno 6 [4, 4, 4, 4, 4, 4] rfl (by omega))]
        rfl
      · rw [if_neg h5, if_neg (show ¬ (fs.length = 5 ∧ ns.count 4 = 3 ∧ ns.count 3 = 2) from fun hh => h5 hh.1),
          if_neg (show ¬ (fs.length = 5 ∧ ns.count 4 = 1 ∧ ns.count 3 = 4) from fun hh => h5 hh.1)]
        by_cases h6 : fs.length = 6
        · rw [if_pos h6, Res.bind_ok]
          have e := (hall 4).trans (all_same (hl.trans h6))
          by_cases hc : ns = [4, 4, 4, 4, 4, 4]
          · rw [if_pos hc, decide_eq_true (e.2 hc)]; rfl
          · rw [if_neg hc, decide_eq_false (fun hh => hc (e.1 hh))]; rfl
        · rw [if_neg h6, if_neg (hno 6 [4, 4, 4, 4, 4, 4] rfl h6)]

/-! ### every call keeps the invariant -/

theorem getD_none {α : Type} {o : Option (List α)} {x : α} (h : x ∈ o.getD []) : o ≠ none := by
  rintro rfl; cases h

theorem Inv.usesShape (h : Inv M k) {r f : Nat} {d : Bool} (hu : k.Uses r f d) : k.fverts f ≠ none := by
  unfold Known.Uses at hu
  cases hf : k.faces r with
  | none => rw [hf] at hu; cases hu
  | some fds => rw [hf] at hu; exact (h.shape r fds hf).2 _ hu

theorem newV_inv (h : Inv M k) {v : Nat} (hv : k.vert v = false) :
    ∃ M', step M (.newV v) = .ok M' ∧ Inv M' (note k (.newV v)) := by
  refine ⟨_, rfl, ?_, h.sf, h.sr, h.noface, h.fdead, h.backed, h.noreg, h.goner, h.fv, h.rf, h.shape, ?_, ?_, ?_,
    h.fr, h.rt⟩
  · intro x
    show upd M.sv v _ x = if upd k.vert v true x then _ else _
    rw [R1M.upd_apply', R1M.upd_apply']
    split
    · rfl
    · exact h.sv x
  · intro f x hx
    show upd k.vert v true x = true
    rw [R1M.upd_apply']
    split
    · rfl
    · exact h.fhas f x hx
  · intro x f
    show f ∈ upd M.vf v [] x ↔ _
    by_cases hx : x = v
    · subst hx
      rw [upd_same]
      constructor
      · intro hh; cases hh
      · rintro ⟨_, hh⟩
        rw [h.fhas f x hh] at hv; cases hv
    · rw [upd_ne _ _ hx]; exact h.vf x f
  · intro x
    show (upd M.vf v [] x).Nodup
    rw [R1M.upd_apply']
    split
    · exact List.nodup_nil
    · exact h.nodup x

theorem newF_inv (h : Inv M k) {f : Nat} (hf : k.face f = false) :
    ∃ M', step M (.newF f) = .ok M' ∧ Inv M' (note k (.newF f)) := by
  obtain ⟨hn, hna⟩ := h.noface f hf
  refine ⟨_, rfl, h.sv, ?_, h.sr, ?_, ?_, ?_, h.noreg, h.goner, ?_, h.rf, h.shape, h.fhas, h.vf, h.nodup, ?_, h.rt⟩
  · intro x
    show upd M.sf f _ x = if upd k.face f true x then (if upd k.falive f true x then _ else _) else _
    rw [R1M.upd_apply', R1M.upd_apply', R1M.upd_apply']
    by_cases hx : x = f
    · rw [if_pos hx, if_pos hx, if_pos hx]; rfl
    · rw [if_neg hx, if_neg hx, if_neg hx]; exact h.sf x
  · intro x hx
    have hx : upd k.face f true x = false := hx
    have hxf : x ≠ f := by rintro rfl; rw [upd_same] at hx; cases hx
    rw [upd_ne _ _ hxf] at hx
    refine ⟨(h.noface x hx).1, ?_⟩
    show upd k.falive f true x = false
    rw [upd_ne _ _ hxf]; exact (h.noface x hx).2
  · intro x hx hxa
    have hxa : upd k.falive f true x = false := hxa
    have hx : upd k.face f true x = true := hx
    have hxf : x ≠ f := by rintro rfl; rw [upd_same] at hxa; cases hxa
    rw [upd_ne _ _ hxf] at hx hxa
    exact h.fdead x hx hxa
  · intro x hx
    refine ⟨?_, (h.backed x hx).2⟩
    show upd k.falive f true x = true
    rw [R1M.upd_apply']
    split
    · rfl
    · exact (h.backed x hx).1
  · intro x
    show upd M.fv f none x = k.fverts x
    rw [R1M.upd_apply']
    split
    · rename_i hx; rw [hx, hn]
    · exact h.fv x
  · intro x s r
    show upd M.fr f (fun _ => none) x s = some r ↔ _
    by_cases hx : x = f
    · subst hx
      rw [upd_same]
      constructor
      · intro hh; cases hh
      · rintro ⟨_, hu⟩
        exact absurd hn (h.usesShape hu)
    · rw [upd_ne _ _ hx]; exact h.fr x s r

theorem setF_inv (h : Inv M k) {f : Nat} {vs : List Nat} (ha : k.falive f = true) (hn : k.fverts f = none)
    (hv : ∀ v ∈ vs, k.vert v = true) :
    ∃ M', step M (.setF f vs) = .ok M' ∧ Inv M' (note k (.setF f vs)) := by
  have hne : ∀ x, k.fverts x ≠ none → x ≠ f := by rintro x hx rfl; exact hx hn
  have hne' : ∀ x, k.fverts x ≠ none → upd k.fverts f (some vs) x ≠ none := by
    intro x hx; rw [upd_ne _ _ (hne x hx)]; exact hx
  refine ⟨{ M with fv := upd M.fv f (some vs) }, ?_, h.sv, h.sf, h.sr, ?_, ?_, ?_, h.noreg, h.goner, ?_, h.rf, ?_,
    ?_, ?_, h.nodup, h.fr, ?_⟩
  · show setFaceVertices M f vs = _
    unfold setFaceVertices
    rw [h.fthere (h.hasFace' ha), Res.bind_ok]; rfl
  · intro x hx
    have hxf : x ≠ f := by rintro rfl; rw [(h.noface x hx).2] at ha; cases ha
    refine ⟨?_, (h.noface x hx).2⟩
    show upd k.fverts f _ x = none
    rw [upd_ne _ _ hxf]; exact (h.noface x hx).1
  · intro x hx hxa
    exact hne' x (h.fdead x hx hxa)
  · intro x hx
    exact ⟨(h.backed x hx).1, hne' x (h.backed x hx).2⟩
  · intro x
    show upd M.fv f _ x = upd k.fverts f _ x
    rw [R1M.upd_apply', R1M.upd_apply', h.fv]
  · intro r fds hr
    obtain ⟨h1, h2⟩ := h.shape r fds hr
    exact ⟨h1, fun p hp => hne' _ (h2 p hp)⟩
  · intro x v hx
    have hx : v ∈ (upd k.fverts f (some vs) x).getD [] := hx
    by_cases hxf : x = f
    · subst hxf; rw [upd_same] at hx; exact hv v hx
    · rw [upd_ne _ _ hxf] at hx; exact h.fhas x v hx
  · intro v x
    rw [h.vf v x]
    show k.back x = true ∧ v ∈ (k.fverts x).getD [] ↔ k.back x = true ∧ v ∈ (upd k.fverts f (some vs) x).getD []
    constructor
    · rintro ⟨hb, hx⟩
      rw [upd_ne _ _ (hne x (h.backed x hb).2)]; exact ⟨hb, hx⟩
    · rintro ⟨hb, hx⟩
      rw [upd_ne _ _ (hne x (h.backed x hb).2)] at hx; exact ⟨hb, hx⟩
  · intro r fds hr
    rw [h.rt r fds hr]
    congr 1
    apply List.map_congr_left
    intro p hp
    show _ = ((upd k.fverts f (some vs) p.1).getD []).length
    rw [upd_ne _ _ (hne _ ((h.shape r fds hr).2 p hp))]

theorem delF_inv (h : Inv M k) {f : Nat} (ha : k.falive f = true) (hn : k.fverts f ≠ none) :
    ∃ M', step M (.delF f) = .ok M' ∧ Inv M' (note k (.delF f)) := by
  obtain ⟨vs, hvs⟩ := Option.ne_none_iff_exists'.1 hn
  have hlive : M.sf f = .live := by rw [h.sf, h.hasFace' ha, ha]; rfl
  have hhas : ∀ v, k.Has f v ↔ v ∈ vs := by intro v; unfold Known.Has; rw [hvs]; rfl
  obtain ⟨vf', h1, h2, h3⟩ := R1M.remFrom_ok (sv := M.sv) (r := f) vs M.vf
    (fun v hv => h.vlive (h.fhas f v ((hhas v).2 hv))) h.nodup
  refine ⟨{ M with sf := upd M.sf f .kept, vf := vf' }, ?_, h.sv, ?_, h.sr, ?_, ?_, ?_, h.noreg, h.goner, h.fv,
    h.rf, h.shape, h.fhas, ?_, h2, h.fr, h.rt⟩
  · show delFace M f true = _
    unfold delFace withdrawFace
    rw [h.fthere (h.hasFace' ha), Res.bind_ok, if_pos hlive, h.fv, hvs, Res.ofOption_some, Res.bind_ok,
      remFrom_eq, h1, Res.bind_ok]
    rfl
  · intro x
    show upd M.sf f _ x = if k.face x then (if upd k.falive f false x then _ else _) else _
    rw [R1M.upd_apply', R1M.upd_apply']
    by_cases hx : x = f
    · rw [if_pos hx, if_pos hx, hx, h.hasFace' ha]; rfl
    · rw [if_neg hx, if_neg hx]; exact h.sf x
  · intro x hx
    refine ⟨(h.noface x hx).1, ?_⟩
    show upd k.falive f false x = false
    rw [R1M.upd_apply']
    split
    · rfl
    · exact (h.noface x hx).2
  · intro x hx hxa
    by_cases hxf : x = f
    · rw [hxf]; exact hn
    · have hxa : upd k.falive f false x = false := hxa
      rw [upd_ne _ _ hxf] at hxa
      exact h.fdead x hx hxa
  · intro x hx
    have hx : upd k.back f false x = true := hx
    have hxf : x ≠ f := by rintro rfl; rw [upd_same] at hx; cases hx
    rw [upd_ne _ _ hxf] at hx
    refine ⟨?_, (h.backed x hx).2⟩
    show upd k.falive f false x = true
    rw [upd_ne _ _ hxf]; exact (h.backed x hx).1
  · intro v x
    show x ∈ vf' v ↔ upd k.back f false x = true ∧ k.Has x v
    rw [h3, h.vf]
    by_cases hx : x = f
    · subst hx
      rw [upd_same]
      constructor
      · rintro ⟨⟨_, hh⟩, hh'⟩
        exact absurd ⟨rfl, (hhas v).1 hh⟩ hh'
      · rintro ⟨hh, _⟩; cases hh
    · rw [upd_ne _ _ hx]
      exact ⟨fun hh => hh.1, fun hh => ⟨hh, fun hc => hx hc.1⟩⟩

theorem resF_inv (h : Inv M k) {f : Nat} (hf : k.face f = true) (ha : k.falive f = false) :
    ∃ M', step M (.resF f) = .ok M' ∧ Inv M' (note k (.resF f)) := by
  have hn := h.fdead f hf ha
  obtain ⟨vs, hvs⟩ := Option.ne_none_iff_exists'.1 hn
  have hhas : ∀ v, k.Has f v ↔ v ∈ vs := by intro v; unfold Known.Has; rw [hvs]; rfl
  obtain ⟨vf', h1, h2, h3⟩ := R1M.addTo_ok (sv := M.sv) (r := f) vs M.vf
    (fun v hv => h.vlive (h.fhas f v ((hhas v).2 hv))) h.nodup
  refine ⟨{ M with sf := upd M.sf f .live, vf := vf' }, ?_, h.sv, ?_, h.sr, ?_, ?_, ?_, h.noreg, h.goner, h.fv,
    h.rf, h.shape, h.fhas, ?_, h2, h.fr, h.rt⟩
  · show restoreFace M f = _
    unfold restoreFace
    rw [h.fthere hf, Res.bind_ok, h.fv, hvs, Res.ofOption_some, Res.bind_ok, addTo_eq, h1, Res.bind_ok]
    rfl
  · intro x
    show upd M.sf f _ x = if k.face x then (if upd k.falive f true x then _ else _) else _
    rw [R1M.upd_apply', R1M.upd_apply']
    by_cases hx : x = f
    · rw [if_pos hx, if_pos hx, hx, hf]; rfl
    · rw [if_neg hx, if_neg hx]; exact h.sf x
  · intro x hx
    have hxf : x ≠ f := by rintro rfl; rw [show k.face x = false from hx] at hf; cases hf
    refine ⟨(h.noface x hx).1, ?_⟩
    show upd k.falive f true x = false
    rw [upd_ne _ _ hxf]; exact (h.noface x hx).2
  · intro x hx hxa
    have hxa : upd k.falive f true x = false := hxa
    have hxf : x ≠ f := by rintro rfl; rw [upd_same] at hxa; cases hxa
    rw [upd_ne _ _ hxf] at hxa
    exact h.fdead x hx hxa
  · intro x hx
    have hx : upd k.back f true x = true := hx
    show upd k.falive f true x = true ∧ k.fverts x ≠ none
    by_cases hxf : x = f
    · subst hxf; rw [upd_same]; exact ⟨rfl, hn⟩
    · rw [upd_ne _ _ hxf] at hx ⊢; exact h.backed x hx
  · intro v x
    show x ∈ vf' v ↔ upd k.back f true x = true ∧ k.Has x v
    rw [h3, h.vf]
    by_cases hx : x = f
    · subst hx
      rw [upd_same]
      constructor
      · rintro (⟨_, hh⟩ | ⟨_, hh⟩)
        · exact ⟨rfl, hh⟩
        · exact ⟨rfl, (hhas v).2 hh⟩
      · rintro ⟨_, hh⟩; exact Or.inr ⟨rfl, (hhas v).1 hh⟩
    · rw [upd_ne _ _ hx]
      exact ⟨fun hh => hh.elim id (fun hc => absurd hc.1 hx), Or.inl⟩

theorem newR_inv (h : Inv M k) {r : Nat} (hr : r ∉ k.regs) :
    ∃ M', step M (.newR r) = .ok M' ∧ Inv M' (note k (.newR r)) := by
  obtain ⟨h1, h2, h3⟩ := h.noreg r hr
  refine ⟨_, rfl, h.sv, h.sf, ?_, h.noface, h.fdead, h.backed, ?_, ?_, h.fv, ?_, h.shape, h.fhas, h.vf, h.nodup,
    ?_, ?_⟩
  · intro x
    show upd M.sr r _ x = if x ∈ r :: k.regs then (if k.gone x then _ else if upd k.alive r true x then _ else _)
      else _
    rw [R1M.upd_apply', R1M.upd_apply']
    by_cases hx : x = r
    · subst hx
      rw [if_pos rfl, if_pos rfl, if_pos (List.mem_cons_self ..), h3]; rfl
    · rw [if_neg hx, if_neg hx, h.sr]
      simp [hx]
  · intro x hx
    have hx : x ∉ r :: k.regs := hx
    rw [List.mem_cons, not_or] at hx
    obtain ⟨a, b, c⟩ := h.noreg x hx.2
    refine ⟨?_, b, c⟩
    show upd k.alive r true x = false
    rw [upd_ne _ _ hx.1]; exact a
  · intro x hx
    show upd k.alive r true x = false
    have hxr : x ≠ r := by rintro rfl; rw [show k.gone x = true from hx] at h3; cases h3
    rw [upd_ne _ _ hxr]; exact h.goner x hx
  · intro x
    show upd M.rf r none x = k.faces x
    rw [R1M.upd_apply']
    split
    · rename_i hx; rw [hx, h2]
    · exact h.rf x
  · intro f s x
    rw [h.fr f s x]
    show _ ↔ upd k.alive r true x = true ∧ k.Uses x f (!s)
    by_cases hx : x = r
    · subst hx
      rw [upd_same, h1]
      constructor
      · rintro ⟨hh, _⟩; cases hh
      · rintro ⟨_, hh⟩
        unfold Known.Uses at hh; rw [h2] at hh; cases hh
    · rw [upd_ne _ _ hx]
  · intro x fds hx
    have hxr : x ≠ r := by rintro rfl; rw [show k.faces x = some fds from hx] at h2; cases h2
    show upd M.rt r _ x = _
    rw [upd_ne _ _ hxr]; exact h.rt x fds hx

theorem setR_inv (h : Inv M k) {r : Nat} {fds : List (Nat × Bool)} (ha : k.alive r = true)
    (hn : k.faces r = none) (hnd : (fds.map (·.1)).Nodup)
    (hf : ∀ p ∈ fds, k.fverts p.1 ≠ none ∧ k.Free p.1 p.2) :
    ∃ M', step M (.setR r fds) = .ok M' ∧ Inv M' (note k (.setR r fds)) := by
  have hr := h.inRegs ha
  have hty : typeFrom M (fds.map (·.1)) = .ok (kind (fds.map fun p => ((k.fverts p.1).getD []).length)) := by
    rw [typeFrom_ok h (by
      intro f hfm
      obtain ⟨p, hp, rfl⟩ := List.mem_map.1 hfm
      exact (hf p hp).1), List.map_map]
    rfl
  obtain ⟨fr', h1, h2⟩ := attach_ok (sf := M.sf) (r := r) fds M.fr
    (fun p hp => h.fthere (h.hasFace (hf p hp).1))
  refine ⟨{ M with fr := fr', rf := upd M.rf r (some fds), rt := upd M.rt r (kind (fds.map fun p => ((k.fverts p.1).getD []).length)) },
    ?_, h.sv, h.sf, h.sr, h.noface,
    h.fdead, h.backed, ?_, h.goner, h.fv, ?_, ?_, h.fhas, h.vf, h.nodup, ?_, ?_⟩
  · show setFaces M r fds = _
    unfold setFaces
    rw [h.there hr (h.notGone ha), Res.bind_ok, h1, Res.bind_ok, hty, Res.bind_ok]
    rfl
  · intro x hx
    have hxr : x ≠ r := by rintro rfl; exact hx hr
    obtain ⟨a, b, c⟩ := h.noreg x hx
    refine ⟨a, ?_, c⟩
    show upd k.faces r _ x = none
    rw [upd_ne _ _ hxr]; exact b
  · intro x
    show upd M.rf r _ x = upd k.faces r _ x
    rw [R1M.upd_apply', R1M.upd_apply', h.rf]
  · intro x gs hx
    have hx : upd k.faces r (some fds) x = some gs := hx
    by_cases hxr : x = r
    · subst hxr; rw [upd_same] at hx; cases hx
      exact ⟨hnd, fun p hp => (hf p hp).1⟩
    · rw [upd_ne _ _ hxr] at hx; exact h.shape x gs hx
  · intro f s x
    show fr' f s = some x ↔ k.alive x = true ∧ (f, !s) ∈ (upd k.faces r (some fds) x).getD []
    rw [h2]
    by_cases hm : (f, !s) ∈ fds
    · rw [if_pos hm]
      constructor
      · intro hh; cases hh
        rw [upd_same]; exact ⟨ha, hm⟩
      · rintro ⟨hxa, hx⟩
        by_cases hxr : x = r
        · rw [hxr]
        · rw [upd_ne _ _ hxr] at hx
          exact absurd hx ((hf _ hm).2 x (h.inRegs hxa) hxa)
    · rw [if_neg hm, h.fr]
      by_cases hxr : x = r
      · subst hxr
        rw [upd_same]
        constructor
        · rintro ⟨_, hu⟩
          unfold Known.Uses at hu; rw [hn] at hu; cases hu
        · rintro ⟨_, hu⟩; exact absurd hu hm
      · rw [upd_ne _ _ hxr]; rfl
  · intro x gs hx
    have hx : upd k.faces r (some fds) x = some gs := hx
    by_cases hxr : x = r
    · subst hxr; rw [upd_same] at hx; cases hx
      exact upd_same ..
    · rw [upd_ne _ _ hxr] at hx
      show upd M.rt r _ x = _
      rw [upd_ne _ _ hxr]; exact h.rt x gs hx

/-- what the faces of a region keep when it is deleted -/
theorem withdraw_ok (h : Inv M k) {r : Nat} (hr : r ∈ k.regs) (hg : k.gone r = false) :
    ∃ fr', withdraw M r = .ok fr' ∧
      ∀ f s x, fr' f s = some x ↔ upd k.alive r false x = true ∧ k.Uses x f (!s) := by
  unfold withdraw
  cases ha : k.alive r with
  | false =>
    have hns : ¬ M.sr r = .live := by rw [h.sr, if_pos hr, hg, ha]; simp
    rw [if_neg hns]
    refine ⟨M.fr, rfl, ?_⟩
    intro f s x
    rw [h.fr]
    by_cases hx : x = r
    · subst hx; rw [upd_same, ha]
    · rw [upd_ne _ _ hx]
  | true =>
    rw [if_pos (h.live ha), h.rf]
    have hmem : ∀ p ∈ (k.faces r).getD [], deref (M.sf p.1) = .ok () := by
      intro p hp
      exact h.fthere (h.hasFace (h.usesShape (r := r) (d := p.2) hp))
    have hnd : (((k.faces r).getD []).map (·.1)).Nodup := by
      cases hf : k.faces r with
      | none => exact List.nodup_nil
      | some fds => exact (h.shape r fds hf).1
    obtain ⟨fr', h1, h2⟩ := detach_ok (sf := M.sf) (r := r) ((k.faces r).getD []) M.fr hmem hnd
      (fun p hp => h.sides ha hp)
    refine ⟨fr', h1, ?_⟩
    intro f s x
    rw [h2]
    by_cases hm : (f, !s) ∈ (k.faces r).getD []
    · rw [if_pos hm]
      constructor
      · intro hh; cases hh
      · rintro ⟨hxa, hu⟩
        have hs := (h.sides ha hm).1
        simp only [Bool.not_not] at hs
        by_cases hxr : x = r
        · subst hxr; rw [upd_same] at hxa; cases hxa
        · rw [upd_ne _ _ hxr] at hxa
          have := (h.fr f s x).2 ⟨hxa, hu⟩
          rw [hs] at this
          cases this
          exact absurd rfl hxr
    · rw [if_neg hm, h.fr]
      by_cases hx : x = r
      · subst hx
        rw [upd_same]
        constructor
        · rintro ⟨_, hu⟩; exact absurd hu hm
        · rintro ⟨hh, _⟩; cases hh
      · rw [upd_ne _ _ hx]

theorem delR_inv (h : Inv M k) {r : Nat} (ha : k.alive r = true) :
    ∃ M', step M (.delR r) = .ok M' ∧ Inv M' (note k (.delR r)) := by
  have hr := h.inRegs ha
  have hg := h.notGone ha
  obtain ⟨fr', h1, h2⟩ := withdraw_ok h hr hg
  refine ⟨{ M with sr := upd M.sr r .kept, fr := fr' }, ?_, h.sv, h.sf, ?_, h.noface, h.fdead, h.backed, ?_, ?_,
    h.fv, h.rf, h.shape, h.fhas, h.vf, h.nodup, h2, h.rt⟩
  · show delRegion M r true = _
    unfold delRegion
    rw [h.there hr hg, Res.bind_ok, h1, Res.bind_ok]; rfl
  · intro x
    show upd M.sr r _ x = if x ∈ k.regs then (if k.gone x then _ else if upd k.alive r false x then _ else _) else _
    rw [R1M.upd_apply', R1M.upd_apply']
    by_cases hx : x = r
    · subst hx
      rw [if_pos rfl, if_pos rfl, if_pos hr, hg]; rfl
    · rw [if_neg hx, if_neg hx]; exact h.sr x
  · intro x hx
    obtain ⟨a, b, c⟩ := h.noreg x hx
    refine ⟨?_, b, c⟩
    show upd k.alive r false x = false
    rw [R1M.upd_apply']; split
    · rfl
    · exact a
  · intro x hx
    show upd k.alive r false x = false
    rw [R1M.upd_apply']; split
    · rfl
    · exact h.goner x hx

theorem killR_inv (h : Inv M k) {r : Nat} (hr : r ∈ k.regs) (hg : k.gone r = false) :
    ∃ M', step M (.killR r) = .ok M' ∧ Inv M' (note k (.killR r)) := by
  obtain ⟨fr', h1, h2⟩ := withdraw_ok h hr hg
  refine ⟨{ M with sr := upd M.sr r .freed, fr := fr' }, ?_, h.sv, h.sf, ?_, h.noface, h.fdead, h.backed, ?_, ?_,
    h.fv, h.rf, h.shape, h.fhas, h.vf, h.nodup, h2, h.rt⟩
  · show delRegion M r false = _
    unfold delRegion
    rw [h.there hr hg, Res.bind_ok, h1, Res.bind_ok]; rfl
  · intro x
    show upd M.sr r _ x = if x ∈ k.regs then
      (if upd k.gone r true x then _ else if upd k.alive r false x then _ else _) else _
    rw [R1M.upd_apply', R1M.upd_apply', R1M.upd_apply']
    by_cases hx : x = r
    · subst hx
      rw [if_pos rfl, if_pos rfl, if_pos rfl, if_pos hr]
    · rw [if_neg hx, if_neg hx, if_neg hx]; exact h.sr x
  · intro x hx
    have hxr : x ≠ r := by rintro rfl; exact hx hr
    obtain ⟨a, b, c⟩ := h.noreg x hx
    refine ⟨?_, b, ?_⟩
    · show upd k.alive r false x = false
      rw [upd_ne _ _ hxr]; exact a
    · show upd k.gone r true x = false
      rw [upd_ne _ _ hxr]; exact c
  · intro x hx
    show upd k.alive r false x = false
    have hx : upd k.gone r true x = true := hx
    by_cases hxr : x = r
    · subst hxr; exact upd_same ..
    · rw [upd_ne _ _ hxr] at hx ⊢; exact h.goner x hx

theorem resR_inv (h : Inv M k) {r : Nat} (hr : r ∈ k.regs) (hg : k.gone r = false) (ha : k.alive r = false)
    (hn : k.faces r ≠ none) (hf : ∀ p ∈ (k.faces r).getD [], k.Free p.1 p.2) :
    ∃ M', step M (.resR r) = .ok M' ∧ Inv M' (note k (.resR r)) := by
  obtain ⟨fds, hfds⟩ := Option.ne_none_iff_exists'.1 hn
  rw [hfds] at hf
  obtain ⟨fr', h1, h2⟩ := attach_ok (sf := M.sf) (r := r) fds M.fr
    (fun p hp => h.fthere (h.hasFace ((h.shape r fds hfds).2 p hp)))
  refine ⟨{ M with sr := upd M.sr r .live, fr := fr' }, ?_, h.sv, h.sf, ?_, h.noface, h.fdead, h.backed, ?_, ?_,
    h.fv, h.rf, h.shape, h.fhas, h.vf, h.nodup, ?_, h.rt⟩
  · show restoreRegion M r = _
    unfold restoreRegion
    rw [h.there hr hg, Res.bind_ok, h.rf, hfds, Res.ofOption_some, Res.bind_ok, h1, Res.bind_ok]; rfl
  · intro x
    show upd M.sr r _ x = if x ∈ k.regs then (if k.gone x then _ else if upd k.alive r true x then _ else _) else _
    rw [R1M.upd_apply', R1M.upd_apply']
    by_cases hx : x = r
    · subst hx
      rw [if_pos rfl, if_pos rfl, if_pos hr, hg]; rfl
    · rw [if_neg hx, if_neg hx]; exact h.sr x
  · intro x hx
    have hxr : x ≠ r := by rintro rfl; exact hx hr
    obtain ⟨a, b, c⟩ := h.noreg x hx
    refine ⟨?_, b, c⟩
    show upd k.alive r true x = false
    rw [upd_ne _ _ hxr]; exact a
  · intro x hx
    have hxr : x ≠ r := by rintro rfl; rw [show k.gone x = true from hx] at hg; cases hg
    show upd k.alive r true x = false
    rw [upd_ne _ _ hxr]; exact h.goner x hx
  · intro f s x
    show fr' f s = some x ↔ upd k.alive r true x = true ∧ k.Uses x f (!s)
    rw [h2]
    by_cases hm : (f, !s) ∈ fds
    · rw [if_pos hm]
      constructor
      · intro hh; cases hh
        rw [upd_same]
        refine ⟨rfl, ?_⟩
        unfold Known.Uses; rw [hfds]; exact hm
      · rintro ⟨hxa, hx⟩
        by_cases hxr : x = r
        · rw [hxr]
        · rw [upd_ne _ _ hxr] at hxa
          exact absurd hx (hf _ hm x (h.inRegs hxa) hxa)
    · rw [if_neg hm, h.fr]
      by_cases hxr : x = r
      · subst hxr
        rw [upd_same, ha]
        constructor
        · rintro ⟨hh, _⟩; cases hh
        · rintro ⟨_, hu⟩
          unfold Known.Uses at hu; rw [hfds] at hu; exact absurd hu hm
      · rw [upd_ne _ _ hxr]

theorem step_inv (h : Inv M k) {o : Op} (hl : o.legal k) : ∃ M', step M o = .ok M' ∧ Inv M' (note k o) := by
  cases o with
  | newV v => exact newV_inv h hl
  | newF f => exact newF_inv h hl
  | setF f vs => exact setF_inv h hl.1 hl.2.1 hl.2.2
  | delF f => exact delF_inv h hl.1 hl.2
  | resF f => exact resF_inv h hl.1 hl.2
  | newR r => exact newR_inv h hl
  | setR r fds => exact setR_inv h hl.1 hl.2.1 hl.2.2.1 hl.2.2.2
  | delR r => exact delR_inv h hl
  | killR r => exact killR_inv h hl.1 hl.2
  | resR r => exact resR_inv h hl.1 hl.2.1 hl.2.2.1 hl.2.2.2.1 hl.2.2.2.2

end

theorem run_inv : ∀ (os : List Op) {M : Mesh4} {k : Known}, Inv M k → Legal k os →
    ∃ M', run M os = .ok M' ∧ Inv M' (os.foldl note k) := by
  intro os
  induction os with
  | nil => intro M k h _; exact ⟨M, rfl, h⟩
  | cons o os ih =>
    intro M k h hl
    obtain ⟨M1, h1, h2⟩ := step_inv h hl.1
    obtain ⟨M2, h3, h4⟩ := ih h2 hl.2
    refine ⟨M2, ?_, h4⟩
    unfold run
    rw [h1, Res.bind_ok]; exact h3

/-! ### the vertices and edges of a face -/

theorem mfVertices_ok {M : Mesh4} {k : Known} (h : Inv M k) {f : Nat} {vs : List Nat}
    (hf : k.face f = true) (hv : k.fverts f = some vs) :
    mfVertices M f true none = .ok (some vs) ∧
    mfVertices M f false none = .ok (some vs.reverse) ∧
    (∀ dir v, v ∉ vs → mfVertices M f dir (some v) = .ok none) ∧
    ∀ dir, ∀ v ∈ vs, ∃ l, mfVertices M f dir (some v) = .ok (some l) ∧ l.head? = some v ∧
      l ~r if dir then vs else vs.reverse := by
  have hd := h.fthere hf
  have hfv : Res.ofOption (M.fv f) = .ok vs := by rw [h.fv, hv, Res.ofOption_some]
  refine ⟨?_, ?_, ?_, ?_⟩
  · unfold mfVertices
    rw [hd, Res.bind_ok, hfv, Res.bind_ok]; rfl
  · unfold mfVertices
    rw [hd, Res.bind_ok, hfv, Res.bind_ok]
    obtain ⟨xs, h1, h2, h3⟩ := R1M.entries_ok (l := vs) (List.range vs.length).reverse (by
      intro x hx; rw [List.mem_reverse, List.mem_range] at hx; exact hx)
    dsimp only
    rw [if_neg Bool.false_ne_true, h1, Res.bind_ok]
    have : xs = vs.reverse := by
      apply List.ext_getElem?
      intro i
      rw [h3]
      by_cases hi : i < vs.length
      · rw [List.getElem?_reverse (by rw [List.length_range]; exact hi), List.length_range,
          List.getElem?_range (by omega), List.getElem?_reverse hi]
        rfl
      · rw [List.getElem?_eq_none (by rw [List.length_reverse, List.length_range]; omega),
          List.getElem?_eq_none (by rw [List.length_reverse]; omega)]
        rfl
    rw [this]; rfl
  · intro dir v hn
    unfold mfVertices
    rw [hd, Res.bind_ok, hfv, Res.bind_ok]
    dsimp only
    rw [(R1M.place_spec v vs).1.2 hn]; rfl
  · intro dir v hin
    unfold mfVertices
    rw [hd, Res.bind_ok, hfv, Res.bind_ok]
    dsimp only
    cases hp : place v vs with
    | none => exact absurd hin ((R1M.place_spec v vs).1.1 hp)
    | some i =>
      have hi := (R1M.place_spec v vs).2 i hp
      have hlt : i < vs.length := (List.getElem?_eq_some_iff.1 hi).1
      have hpos : 0 < vs.length := by omega
      dsimp only
      obtain ⟨xs, h1, h2, h3⟩ := R1M.entries_ok (l := vs) ((List.range vs.length).map fun j =>
        if dir then (i + j) % vs.length else (i + vs.length - j) % vs.length) (by
          intro x hx
          rw [List.mem_map] at hx
          obtain ⟨j, _, rfl⟩ := hx
          split <;> exact Nat.mod_lt _ hpos)
      have hx : ∀ j < vs.length, xs[j]? =
          vs[if dir then (i + j) % vs.length else (i + vs.length - j) % vs.length]? := by
        intro j hj
        rw [h3, List.getElem?_map, List.getElem?_range hj]; rfl
      rw [List.length_map, List.length_range] at h2
      rw [h1, Res.bind_ok]
      refine ⟨xs, rfl, ?_, ?_⟩
      · rw [List.head?_eq_getElem?, hx 0 hpos, ← hi]
        congr 1
        split
        · exact Nat.mod_eq_of_lt hlt
        · rw [Nat.sub_zero, Nat.add_mod_right]; exact Nat.mod_eq_of_lt hlt
      · cases dir with
        | true => exact List.IsRotated.symm ⟨i, (R1M.rotate_of h2 hx).symm⟩
        | false => exact R1M.rotated_reverse (R1M.reverse_of h2 hx)

theorem edgeDirLoop_spec (fs : List Nat) (a b : Nat) : ∀ is : List Nat,
    (edgeDirLoop fs a b is = 1 ∧ ∃ i ∈ is, fs[i]? = some a ∧ fs[(i + 1) % fs.length]? = some b) ∨
    (edgeDirLoop fs a b is = 0 ∧ ∃ i ∈ is, fs[i]? = some b ∧ fs[(i + 1) % fs.length]? = some a) ∨
    (edgeDirLoop fs a b is = -1 ∧ ∀ i ∈ is, ¬ (fs[i]? = some a ∧ fs[(i + 1) % fs.length]? = some b) ∧
      ¬ (fs[i]? = some b ∧ fs[(i + 1) % fs.length]? = some a)) := by
  intro is
  induction is with
  | nil => exact Or.inr (Or.inr ⟨rfl, fun i hi => by cases hi⟩)
  | cons i is ih =>
    have rest : ∀ e, e = edgeDirLoop fs a b is →
        ¬ (fs[i]? = some a ∧ fs[(i + 1) % fs.length]? = some b) →
        ¬ (fs[i]? = some b ∧ fs[(i + 1) % fs.length]? = some a) →
        (e = 1 ∧ ∃ j ∈ i :: is, fs[j]? = some a ∧ fs[(j + 1) % fs.length]? = some b) ∨
        (e = 0 ∧ ∃ j ∈ i :: is, fs[j]? = some b ∧ fs[(j + 1) % fs.length]? = some a) ∨
        (e = -1 ∧ ∀ j ∈ i :: is, ¬ (fs[j]? = some a ∧ fs[(j + 1) % fs.length]? = some b) ∧
          ¬ (fs[j]? = some b ∧ fs[(j + 1) % fs.length]? = some a)) := by
      rintro e rfl n1 n2
      rcases ih with ⟨e, j, hj, hh⟩ | ⟨e, j, hj, hh⟩ | ⟨e, hh⟩
      · exact Or.inl ⟨e, j, List.mem_cons_of_mem _ hj, hh⟩
      · exact Or.inr (Or.inl ⟨e, j, List.mem_cons_of_mem _ hj, hh⟩)
      · refine Or.inr (Or.inr ⟨e, ?_⟩)
        intro j hj
        rcases List.mem_cons.1 hj with rfl | hj
        · exact ⟨n1, n2⟩
        · exact hh j hj
    unfold edgeDirLoop
    by_cases ha : fs[i]? = some a
    · rw [if_pos ha]
      by_cases hb : fs[(i + 1) % fs.length]? = some b
      · rw [if_pos hb]; exact Or.inl ⟨rfl, i, List.mem_cons_self .., ha, hb⟩
      · rw [if_neg hb]
        refine rest _ rfl (fun hh => hb hh.2) ?_
        rintro ⟨h1, h2⟩
        rw [ha] at h1; cases h1
        exact hb h2
    · rw [if_neg ha]
      by_cases hb : fs[i]? = some b
      · rw [if_pos hb]
        by_cases hc : fs[(i + 1) % fs.length]? = some a
        · rw [if_pos hc]; exact Or.inr (Or.inl ⟨rfl, i, List.mem_cons_self .., hb, hc⟩)
        · rw [if_neg hc]; exact rest _ rfl (fun hh => ha hh.1) (fun hh => hc hh.2)
      · rw [if_neg hb]; exact rest _ rfl (fun hh => ha hh.1) (fun hh => hb hh.1)

/-- around a face with three or more different vertices an edge is met in one direction only -/
theorem follows_one {vs : List Nat} (hn : vs.Nodup) (h3 : 3 ≤ vs.length) {a b : Nat} (h : Follows vs a b) :
    ¬ Follows vs b a := by
  obtain ⟨i, h1, h2⟩ := h
  rintro ⟨j, h4, h5⟩
  have same : ∀ (x y c : Nat), vs[x]? = some c → vs[y]? = some c → x = y := by
    intro x y c hx hy
    exact (List.getElem?_inj (List.getElem?_eq_some_iff.1 hx).1 hn).1 (hx.trans hy.symm)
  have e1 := same _ _ _ h2 h4
  have e2 := same _ _ _ h5 h1
  have hi := (List.getElem?_eq_some_iff.1 h1).1
  have hj := (List.getElem?_eq_some_iff.1 h4).1
  by_cases ci : i + 1 < vs.length
  · rw [Nat.mod_eq_of_lt ci] at e1
    by_cases cj : j + 1 < vs.length
    · rw [Nat.mod_eq_of_lt cj] at e2; omega
    · have : j + 1 = vs.length := by omega
      rw [this, Nat.mod_self] at e2; omega
  · have : i + 1 = vs.length := by omega
    rw [this, Nat.mod_self] at e1
    rw [← e1, Nat.mod_eq_of_lt (by omega)] at e2
    omega

theorem follows_range {vs : List Nat} {a b : Nat} :
    Follows vs a b ↔ ∃ i ∈ List.range vs.length, vs[i]? = some a ∧ vs[(i + 1) % vs.length]? = some b := by
  constructor
  · rintro ⟨i, h1, h2⟩
    exact ⟨i, List.mem_range.2 (List.getElem?_eq_some_iff.1 h1).1, h1, h2⟩
  · rintro ⟨i, _, h1, h2⟩; exact ⟨i, h1, h2⟩

theorem mfEdgeDir_ok {M : Mesh4} {k : Known} (h : Inv M k) {f : Nat} {vs : List Nat} (a b : Nat)
    (hf : k.face f = true) (hv : k.fverts f = some vs) (hn : vs.Nodup) (h3 : 3 ≤ vs.length) :
    (Follows vs a b → mfEdgeDir M f a b = .ok 1 ∧ mfUsesEdge M f a b = .ok true) ∧
    (Follows vs b a → mfEdgeDir M f a b = .ok 0 ∧ mfUsesEdge M f a b = .ok true) ∧
    (¬ Follows vs a b → ¬ Follows vs b a → mfEdgeDir M f a b = .ok (-1) ∧ mfUsesEdge M f a b = .ok false) := by
  have e : mfEdgeDir M f a b = .ok (edgeDirLoop vs a b (List.range vs.length)) := by
    unfold mfEdgeDir
    rw [h.fthere hf, Res.bind_ok, h.fv, hv, Res.ofOption_some, Res.bind_ok]; rfl
  have u : ∀ d, edgeDirLoop vs a b (List.range vs.length) = d →
      mfEdgeDir M f a b = .ok d ∧ mfUsesEdge M f a b = .ok (decide (d ≠ -1)) := by
    rintro d rfl
    refine ⟨e, ?_⟩
    unfold mfUsesEdge
    rw [e, Res.bind_ok]; rfl
  rcases edgeDirLoop_spec vs a b (List.range vs.length) with ⟨h1, h2⟩ | ⟨h1, h2⟩ | ⟨h1, h2⟩
  · have hab := follows_range.2 h2
    exact ⟨fun _ => u 1 h1, fun hh => absurd hh (follows_one hn h3 hab), fun hh => absurd hab hh⟩
  · have hba := follows_range.2 h2
    exact ⟨fun hh => absurd hh (follows_one hn h3 hba), fun _ => u 0 h1, fun _ hh => absurd hba hh⟩
  · refine ⟨fun hh => ?_, fun hh => ?_, fun _ _ => u (-1) h1⟩
    · obtain ⟨i, hi, hh⟩ := follows_range.1 hh
      exact absurd hh (h2 i hi).1
    · obtain ⟨i, hi, hh⟩ := follows_range.1 hh
      exact absurd hh (h2 i hi).2

/-! ### the faces of a region -/

theorem dirIn_ok {f : Nat} : ∀ {fds : List (Nat × Bool)}, (fds.map (·.1)).Nodup →
    (∀ d, (f, d) ∈ fds → dirIn f fds = if d then 1 else 0) ∧ (f ∉ fds.map (·.1) → dirIn f fds = -1) := by
  intro fds
  induction fds with
  | nil => intro _; exact ⟨fun d hd => absurd hd List.not_mem_nil, fun _ => rfl⟩
  | cons p fds ih =>
    obtain ⟨g, c⟩ := p
    intro hn
    rw [List.map_cons, List.nodup_cons] at hn
    obtain ⟨h1, h2⟩ := ih hn.2
    refine ⟨?_, ?_⟩
    · intro d hd
      unfold dirIn
      rcases List.mem_cons.1 hd with hd | hm
      · cases hd; rw [if_pos rfl]
      · have hne : f ≠ g := by
          rintro rfl
          exact hn.1 (List.mem_map.2 ⟨(f, d), hm, rfl⟩)
        rw [if_neg hne]; exact h1 d hm
    · intro hf
      rw [List.map_cons, List.mem_cons, not_or] at hf
      unfold dirIn
      rw [if_neg hf.1]; exact h2 hf.2

theorem anyUses_ok {M : Mesh4} {k : Known} (h : Inv M k) (v : Nat) : ∀ fs : List Nat,
    (∀ f ∈ fs, k.fverts f ≠ none) → ∃ b, anyUses M v fs = .ok b ∧ (b = true ↔ ∃ f ∈ fs, k.Has f v) := by
  intro fs
  induction fs with
  | nil => intro _; exact ⟨false, rfl, by simp⟩
  | cons f fs ih =>
    intro hf
    obtain ⟨vs, hvs⟩ := Option.ne_none_iff_exists'.1 (hf f (List.mem_cons_self ..))
    obtain ⟨b, h1, h2⟩ := ih fun g hg => hf g (List.mem_cons_of_mem _ hg)
    have e : mfUsesVertex M f v = .ok (decide (v ∈ vs)) := by
      unfold mfUsesVertex
      rw [h.fthere (h.hasFace (hf f (List.mem_cons_self ..))), Res.bind_ok, h.fv, hvs, Res.ofOption_some, Res.bind_ok]
      rfl
    have hh : k.Has f v ↔ v ∈ vs := by unfold Known.Has; rw [hvs]; rfl
    unfold anyUses
    rw [e, Res.bind_ok]
    by_cases hv : v ∈ vs
    · rw [decide_eq_true hv, if_pos rfl]
      exact ⟨true, rfl, by simp only [true_iff]; exact ⟨f, List.mem_cons_self .., hh.2 hv⟩⟩
    · rw [decide_eq_false hv, if_neg Bool.false_ne_true]
      refine ⟨b, h1, h2.trans ?_⟩
      constructor
      · rintro ⟨g, hg, hx⟩; exact ⟨g, List.mem_cons_of_mem _ hg, hx⟩
      · rintro ⟨g, hg, hx⟩
        rcases List.mem_cons.1 hg with rfl | hg
        · exact absurd (hh.1 hx) hv
        · exact ⟨g, hg, hx⟩

theorem adjLoop_ok {M : Mesh4} {r : Nat} : ∀ fds : List (Nat × Bool), (∀ p ∈ fds, deref (M.sf p.1) = .ok ()) →
    (∀ p ∈ fds, M.fr p.1 (!p.2) = some r ∧ M.fr p.1 p.2 ≠ some r) →
    adjLoop M r (fds.map (·.1)) = .ok (fds.flatMap fun p => (M.fr p.1 p.2).toList) := by
  intro fds
  induction fds with
  | nil => intro _ _; rfl
  | cons p fds ih =>
    obtain ⟨f, d⟩ := p
    intro hd hs
    obtain ⟨s1, s2⟩ := hs (f, d) (List.mem_cons_self ..)
    have e : across r (M.fr f false) (M.fr f true) = (M.fr f d).toList := by
      unfold across
      cases d
      · have s1 : M.fr f true = some r := s1
        have s2 : M.fr f false ≠ some r := s2
        cases ho : M.fr f false with
        | none => rfl
        | some x =>
          rw [ho] at s2
          dsimp only
          rw [if_neg (fun hx => s2 (by rw [hx]))]; rfl
      · have s1 : M.fr f false = some r := s1
        rw [s1]
        dsimp only
        rw [if_pos rfl]
    rw [List.map_cons]
    unfold adjLoop mfRegion
    rw [hd (f, d) (List.mem_cons_self ..)]
    simp only [Res.bind_ok, Res.pure_eq]
    rw [ih (fun p hp => hd p (List.mem_cons_of_mem _ hp)) (fun p hp => hs p (List.mem_cons_of_mem _ hp)),
      Res.bind_ok, e, List.flatMap_cons]

theorem count_flat {α : Type} [BEq α] (g : α → Option Nat) (q : α → Bool) (x : Nat) : ∀ l : List α,
    (∀ p ∈ l, g p = some x ↔ q p = true) →
    (l.flatMap fun p => (g p).toList).count x = (l.filter q).length := by
  intro l
  induction l with
  | nil => intro _; rfl
  | cons p l ih =>
    intro h
    have ih := ih fun p hp => h p (List.mem_cons_of_mem _ hp)
    have hp := h p (List.mem_cons_self ..)
    rw [List.flatMap_cons, List.count_append, ih]
    by_cases hq : q p = true
    · rw [List.filter_cons_of_pos hq, hp.2 hq]
      simp [Nat.add_comm]
    · rw [List.filter_cons_of_neg hq]
      have : g p ≠ some x := fun hh => hq (hp.1 hh)
      cases hg : g p with
      | none => simp
      | some y =>
        rw [hg] at this
        have hy : y ≠ x := fun hh => this (by rw [hh])
        simp [hy]

theorem neighbours_ok {M : Mesh4} {k : Known} (h : Inv M k) {r : Nat} {fds : List (Nat × Bool)}
    (ha : k.alive r = true) (hf : k.faces r = some fds) :
    ∃ l, mrAdjRegions M r = .ok l ∧
      (∀ x, x ∈ l ↔ k.alive x = true ∧ ∃ f d, k.Uses r f d ∧ k.Uses x f (!d)) ∧
      ∀ x, k.alive x = true → l.count x = (fds.filter fun p => (p.1, !p.2) ∈ (k.faces x).getD []).length := by
  have hu : ∀ p : Nat × Bool, p ∈ fds ↔ k.Uses r p.1 p.2 := by
    intro p; unfold Known.Uses; rw [hf]; rfl
  refine ⟨fds.flatMap fun p => (M.fr p.1 p.2).toList, ?_, ?_, ?_⟩
  · unfold mrAdjRegions mrFaces
    rw [h.there (h.inRegs ha) (h.notGone ha), Res.bind_ok, h.rf, hf, Res.ofOption_some, Res.bind_ok]
    exact adjLoop_ok fds (fun p hp => h.fthere (h.hasFace ((h.shape r fds hf).2 p hp)))
      (fun p hp => h.sides ha ((hu p).1 hp))
  · intro x
    rw [List.mem_flatMap]
    constructor
    · rintro ⟨p, hp, hx⟩
      have hx : M.fr p.1 p.2 = some x := by simpa using hx
      obtain ⟨h1, h2⟩ := (h.fr _ _ _).1 hx
      exact ⟨h1, p.1, p.2, (hu p).1 hp, h2⟩
    · rintro ⟨h1, f, d, h2, h3⟩
      refine ⟨(f, d), (hu (f, d)).2 h2, ?_⟩
      have := (h.fr f d x).2 ⟨h1, h3⟩
      rw [this]; simp
  · intro x hx
    refine count_flat (fun p : Nat × Bool => M.fr p.1 p.2) _ x fds ?_
    intro p _
    rw [decide_eq_true_iff, h.fr]
    exact ⟨fun hh => hh.2, fun hh => ⟨hx, hh⟩⟩

/-! ### the regions of a vertex -/

theorem chkAdd_ok {l : List Nat} {o : Option Nat} (hn : l.Nodup) :
    (chkAdd l o).Nodup ∧ ∀ x, x ∈ chkAdd l o ↔ x ∈ l ∨ o = some x := by
  unfold chkAdd
  cases o with
  | none => exact ⟨hn, fun x => by simp⟩
  | some r =>
    dsimp only
    by_cases hr : r ∈ l
    · rw [if_pos hr]
      refine ⟨hn, fun x => ⟨Or.inl, fun hh => hh.elim id fun hh => by cases hh; exact hr⟩⟩
    · rw [if_neg hr]
      refine ⟨?_, fun x => by simp [eq_comm]⟩
      rw [List.nodup_append]
      refine ⟨hn, List.nodup_cons.2 ⟨List.not_mem_nil, List.nodup_nil⟩, ?_⟩
      intro a ha b hb hab
      rw [List.mem_singleton] at hb
      exact hr (hb ▸ hab ▸ ha)

theorem atFaces_ok {M : Mesh4} : ∀ (fs l : List Nat), (∀ f ∈ fs, deref (M.sf f) = .ok ()) → l.Nodup →
    ∃ l', atFaces M fs l = .ok l' ∧ l'.Nodup ∧ ∀ x, x ∈ l' ↔ x ∈ l ∨ ∃ f ∈ fs, ∃ s, M.fr f s = some x := by
  intro fs
  induction fs with
  | nil => intro l _ hn; exact ⟨l, rfl, hn, by simp⟩
  | cons f fs ih =>
    intro l hd hn
    obtain ⟨n1, m1⟩ := chkAdd_ok (o := M.fr f false) hn
    obtain ⟨n2, m2⟩ := chkAdd_ok (o := M.fr f true) n1
    obtain ⟨l', h1, h2, h3⟩ := ih _ (fun g hg => hd g (List.mem_cons_of_mem _ hg)) n2
    refine ⟨l', ?_, h2, ?_⟩
    · unfold atFaces mfRegion
      rw [hd f (List.mem_cons_self ..)]
      simp only [Res.bind_ok, Res.pure_eq]
      exact h1
    · intro x
      rw [h3, m2, m1]
      constructor
      · rintro (((hx | hx) | hx) | ⟨g, hg, s, hx⟩)
        · exact Or.inl hx
        · exact Or.inr ⟨f, List.mem_cons_self .., false, hx⟩
        · exact Or.inr ⟨f, List.mem_cons_self .., true, hx⟩
        · exact Or.inr ⟨g, List.mem_cons_of_mem _ hg, s, hx⟩
      · rintro (hx | ⟨g, hg, s, hx⟩)
        · exact Or.inl (Or.inl (Or.inl hx))
        · rcases List.mem_cons.1 hg with rfl | hg
          · cases s
            · exact Or.inl (Or.inl (Or.inr hx))
            · exact Or.inl (Or.inr hx)
          · exact Or.inr ⟨g, hg, s, hx⟩

theorem answers_ok {M : Mesh4} {k : Known} (h : Inv M k) : Answers M k := by
  have hrF : ∀ r fds, r ∈ k.regs → k.gone r = false → k.faces r = some fds →
      mrFaces M r = .ok (fds.map (·.1)) := by
    intro r fds hr hg hf
    unfold mrFaces
    rw [h.there hr hg, Res.bind_ok, h.rf, hf, Res.ofOption_some, Res.bind_ok]; rfl
  have hvF : ∀ v, k.vert v = true → mvFaces M v = .ok (M.vf v) := by
    intro v hv
    unfold mvFaces
    rw [R1M.deref_live (h.vlive hv), Res.bind_ok]; rfl
  refine ⟨?_, ?_, ?_, ?_, ?_, ?_, ?_, ?_, ?_⟩
  · intro f vs hf hv
    refine ⟨?_, ?_, mfVertices_ok h hf hv⟩
    · rw [numVertices_ok h (by rw [hv]; exact Option.some_ne_none _), hv]; rfl
    · intro v
      unfold mfUsesVertex
      rw [h.fthere hf, Res.bind_ok, h.fv, hv, Res.ofOption_some, Res.bind_ok]; rfl
  · intro f vs a b hf hv hn h3
    exact mfEdgeDir_ok h a b hf hv hn h3
  · intro f hf
    have hd := h.fthere hf
    refine ⟨⟨(M.fr f false).toList ++ (M.fr f true).toList, ?_, ?_⟩, ?_⟩
    · unfold mfRegions
      rw [hd, Res.bind_ok]; rfl
    · intro r
      rw [List.mem_append, Option.mem_toList, Option.mem_toList, h.fr, h.fr]
      constructor
      · rintro (⟨h1, h2⟩ | ⟨h1, h2⟩)
        · exact ⟨h1, _, h2⟩
        · exact ⟨h1, _, h2⟩
      · rintro ⟨h1, d, h2⟩
        cases d
        · exact Or.inr ⟨h1, h2⟩
        · exact Or.inl ⟨h1, h2⟩
    · intro side
      refine ⟨M.fr f side, ?_, fun r => h.fr f side r⟩
      unfold mfRegion
      rw [hd, Res.bind_ok]; rfl
  · intro r fds hr hg hf
    have hn := (h.shape r fds hf).1
    refine ⟨hrF r fds hr hg hf, ?_, ?_⟩
    · unfold mrNumFaces
      rw [h.there hr hg, Res.bind_ok, h.rf, hf, Res.ofOption_some, Res.bind_ok]; rfl
    · intro f
      have hdir : mrFaceDir M r f = .ok (dirIn f fds) := by
        unfold mrFaceDir
        rw [h.there hr hg, Res.bind_ok, h.rf, hf, Res.ofOption_some, Res.bind_ok]; rfl
      have huse : mrUsesFace M r f = .ok (decide (f ∈ fds.map (·.1))) := by
        unfold mrUsesFace
        rw [hrF r fds hr hg hf, Res.bind_ok]; rfl
      have hu : ∀ d, k.Uses r f d ↔ (f, d) ∈ fds := by intro d; unfold Known.Uses; rw [hf]; rfl
      rw [hdir, huse]
      refine ⟨fun hh => ?_, fun hh => ?_, fun hh => ?_⟩
      · have hh := (hu true).1 hh
        rw [(dirIn_ok hn).1 true hh, decide_eq_true (List.mem_map.2 ⟨_, hh, rfl⟩)]
        exact ⟨rfl, rfl⟩
      · have hh := (hu false).1 hh
        rw [(dirIn_ok hn).1 false hh, decide_eq_true (List.mem_map.2 ⟨_, hh, rfl⟩)]
        exact ⟨rfl, rfl⟩
      · have : f ∉ fds.map (·.1) := by
          intro hm
          obtain ⟨⟨g, d⟩, hp, rfl⟩ := List.mem_map.1 hm
          exact hh d ((hu d).2 hp)
        rw [(dirIn_ok hn).2 this, decide_eq_false this]
        exact ⟨rfl, rfl⟩
  · intro r fds hr hg hf v
    obtain ⟨b, h1, h2⟩ := anyUses_ok h v (fds.map (·.1)) (by
      intro f hfm
      obtain ⟨p, hp, rfl⟩ := List.mem_map.1 hfm
      exact (h.shape r fds hf).2 p hp)
    refine ⟨b, ?_, h2.trans ?_⟩
    · unfold mrUsesVertex
      rw [hrF r fds hr hg hf, Res.bind_ok]; exact h1
    · constructor
      · rintro ⟨f, hfm, hx⟩
        obtain ⟨⟨g, d⟩, hp, rfl⟩ := List.mem_map.1 hfm
        refine ⟨g, d, ?_, hx⟩
        unfold Known.Uses; rw [hf]; exact hp
      · rintro ⟨f, d, hu, hx⟩
        unfold Known.Uses at hu; rw [hf] at hu
        exact ⟨f, List.mem_map.2 ⟨(f, d), hu, rfl⟩, hx⟩
  · intro r fds _ _ hf
    exact h.rt r fds hf
  · intro r fds ha hf
    exact neighbours_ok h ha hf
  · intro v hv
    refine ⟨M.vf v, ⟨h.nodup v, fun f => h.vf v f⟩, hvF v hv, ?_⟩
    unfold mvNumFaces
    rw [R1M.deref_live (h.vlive hv), Res.bind_ok]; rfl
  · intro v hv
    obtain ⟨l, h1, h2, h3⟩ := atFaces_ok (M := M) (M.vf v) [] (by
      intro f hf
      obtain ⟨hb, _⟩ := (h.vf v f).1 hf
      exact h.fthere (h.hasFace (h.backed f hb).2)) List.nodup_nil
    have hl : ∀ r, r ∈ l ↔ k.alive r = true ∧ ∃ f d, k.Uses r f d ∧ k.back f = true ∧ k.Has f v := by
      intro r
      rw [h3]
      constructor
      · rintro (hh | ⟨f, hf, s, hr⟩)
        · cases hh
        · obtain ⟨h4, h5⟩ := (h.fr f s r).1 hr
          obtain ⟨h6, h7⟩ := (h.vf v f).1 hf
          exact ⟨h4, f, _, h5, h6, h7⟩
      · rintro ⟨h4, f, d, h5, h6, h7⟩
        refine Or.inr ⟨f, (h.vf v f).2 ⟨h6, h7⟩, !d, (h.fr f (!d) r).2 ⟨h4, ?_⟩⟩
        rw [Bool.not_not]; exact h5
    have hreg : mvRegions M v = .ok (listOrNull l) := by
      unfold mvRegions
      rw [hvF v hv, Res.bind_ok, h1, Res.bind_ok]
      unfold listOrNull
      cases l <;> rfl
    refine ⟨l, ⟨h2, hl⟩, hreg, ?_⟩
    unfold mvNumRegions
    rw [hreg, Res.bind_ok]
    unfold listOrNull
    cases l <;> rfl

/-! ### regions given by their vertices and the faces of a template -/

/-- the vertices of a row of a template -/
def rowVerts (vs row : List Nat) : List Nat := row.map fun i => vs.getD i 0

/-- a new face for each row -/
def making (vs : List Nat) : List (List Nat) → List Nat → List Op
  | row :: rows, f :: fs => .newF f :: .setF f (rowVerts vs row) :: making vs rows fs
  | _, _ => []

theorem entries_row {vs : List Nat} : ∀ row : List Nat, (∀ i ∈ row, i < vs.length) →
    entries vs row = .ok (rowVerts vs row) := by
  intro row
  induction row with
  | nil => intro _; rfl
  | cons i row ih =>
    intro h
    have hi := h i (List.mem_cons_self ..)
    unfold entries
    rw [List.getElem?_eq_getElem hi, Res.ofOption_some, Res.bind_ok,
      ih fun j hj => h j (List.mem_cons_of_mem _ hj), Res.bind_ok]
    show _ = Res.ok (vs.getD i 0 :: rowVerts vs row)
    rw [List.getD_eq_getElem?_getD, List.getElem?_eq_getElem hi]; rfl

theorem rowVerts_mem {vs row : List Nat} (h : ∀ i ∈ row, i < vs.length) : ∀ v ∈ rowVerts vs row, v ∈ vs := by
  intro v hv
  obtain ⟨i, hi, rfl⟩ := List.mem_map.1 hv
  rw [List.getD_eq_getElem?_getD, List.getElem?_eq_getElem (h i hi)]
  exact List.getElem_mem _

theorem commonFace_none {M : Mesh4} {ws : List Nat} (h2 : 2 ≤ ws.length)
    (hd : ∀ v ∈ ws, deref (M.sv v) = .ok ()) : commonFace M ws = .ok none := by
  match ws, h2 with
  | a :: b :: ws, _ =>
    unfold commonFace commonEdge mvEdges
    rw [show (a :: b :: ws)[0]? = some a from rfl, show (a :: b :: ws)[1]? = some b from rfl,
      Res.ofOption_some, Res.bind_ok, Res.ofOption_some, Res.bind_ok, hd a (List.mem_cons_self ..)]
    rfl

theorem facesByVertices_run (vs : List Nat) : ∀ (rows : List (List Nat)) (nfs : List Nat) (M : Mesh4),
    (∀ v ∈ vs, deref (M.sv v) = .ok ()) → nfs.length = rows.length →
    (∀ row ∈ rows, 2 ≤ row.length ∧ ∀ i ∈ row, i < vs.length) →
    ∃ M', facesByVertices M vs rows nfs = .ok (M', nfs.map fun f => (f, true)) ∧
      run M (making vs rows nfs) = .ok M' := by
  intro rows
  induction rows with
  | nil =>
    intro nfs M _ hl _
    have : nfs = [] := List.length_eq_zero_iff.1 hl
    subst this
    exact ⟨M, rfl, rfl⟩
  | cons row rows ih =>
    intro nfs M hd hl hr
    match nfs, hl with
    | f :: fs, hl =>
      obtain ⟨h2, hi⟩ := hr row (List.mem_cons_self ..)
      have hc : commonFace M (rowVerts vs row) = .ok none :=
        commonFace_none (by unfold rowVerts; rw [List.length_map]; exact h2)
          (fun v hv => hd v (rowVerts_mem hi v hv))
      let M1 : Mesh4 := { M with sf := upd M.sf f .live, fv := upd M.fv f none, fr := upd M.fr f fun _ => none }
      let M2 : Mesh4 := { M1 with fv := upd M1.fv f (some (rowVerts vs row)) }
      have e1 : newFace M f = .ok M1 := rfl
      have e2 : setFaceVertices M1 f (rowVerts vs row) = .ok M2 := by
        unfold setFaceVertices
        rw [show M1.sf f = .live from upd_same .., R1M.deref_live rfl, Res.bind_ok]; rfl
      have e3 : faceByVertices M (rowVerts vs row) f = .ok (M2, (f, true)) := by
        unfold faceByVertices
        rw [hc, Res.bind_ok]
        dsimp only
        rw [e1, Res.bind_ok, e2, Res.bind_ok]; rfl
      obtain ⟨M', h3, h4⟩ := ih fs M2 hd (by simpa using hl) (fun w hw => hr w (List.mem_cons_of_mem _ hw))
      refine ⟨M', ?_, ?_⟩
      · unfold facesByVertices pick
        rw [entries_row row hi, Res.bind_ok, e3, Res.bind_ok, h3, Res.bind_ok]; rfl
      · show run M (.newF f :: .setF f (rowVerts vs row) :: making vs rows fs) = _
        unfold run
        rw [show step M (.newF f) = .ok M1 from rfl, Res.bind_ok]
        unfold run
        rw [show step M1 (.setF f (rowVerts vs row)) = .ok M2 from e2, Res.bind_ok]
        exact h4

/-- making new faces is legal, they have their vertices then and nothing else changes -/
theorem making_legal (vs : List Nat) : ∀ (rows : List (List Nat)) (nfs : List Nat) (k : Known),
    (∀ v ∈ vs, k.vert v = true) → nfs.length = rows.length → nfs.Nodup →
    (∀ f ∈ nfs, k.face f = false ∧ k.fverts f = none) → (∀ row ∈ rows, ∀ i ∈ row, i < vs.length) →
    Legal k (making vs rows nfs) ∧
    (∀ (i : Nat) f row, nfs[i]? = some f → rows[i]? = some row →
      ((making vs rows nfs).foldl note k).face f = true ∧
      ((making vs rows nfs).foldl note k).fverts f = some (rowVerts vs row)) ∧
    (∀ f, f ∉ nfs → ((making vs rows nfs).foldl note k).fverts f = k.fverts f) ∧
    (∀ f, k.face f = true → ((making vs rows nfs).foldl note k).face f = true) ∧
    ((making vs rows nfs).foldl note k).regs = k.regs ∧ ((making vs rows nfs).foldl note k).alive = k.alive ∧
    ((making vs rows nfs).foldl note k).gone = k.gone ∧ ((making vs rows nfs).foldl note k).faces = k.faces := by
  intro rows
  induction rows with
  | nil =>
    intro nfs k _ hl _ _ _
    have : nfs = [] := List.length_eq_zero_iff.1 hl
    subst this
    exact ⟨trivial, fun i f row hf => (by cases hf), fun _ _ => rfl, fun _ h => h, rfl, rfl, rfl, rfl⟩
  | cons row rows ih =>
    intro nfs k hv hl hn hf hr
    match nfs, hl, hn, hf with
    | f :: fs, hl, hn, hf =>
      rw [List.nodup_cons] at hn
      obtain ⟨hf1, hf2⟩ := hf f (List.mem_cons_self ..)
      let k2 := note (note k (.newF f)) (.setF f (rowVerts vs row))
      have hk2f : ∀ g, g ≠ f → k2.face g = k.face g ∧ k2.fverts g = k.fverts g := by
        intro g hg
        exact ⟨upd_ne _ _ hg, upd_ne _ _ hg⟩
      obtain ⟨h1, h2, h3, h4, h5, h6, h7, h8⟩ := ih fs k2 hv (by simpa using hl) hn.2 (by
          intro g hg
          have hgf : g ≠ f := by rintro rfl; exact hn.1 hg
          rw [(hk2f g hgf).1, (hk2f g hgf).2]
          exact hf g (List.mem_cons_of_mem _ hg)) (fun w hw => hr w (List.mem_cons_of_mem _ hw))
      have hk2 : k2.face f = true ∧ k2.fverts f = some (rowVerts vs row) := ⟨upd_same .., upd_same ..⟩
      refine ⟨⟨hf1, ⟨upd_same .., hf2, ?_⟩, h1⟩, ?_, ?_, ?_, h5, ?_, h7, h8⟩
      · intro v hvm
        exact hv v (rowVerts_mem (hr row (List.mem_cons_self ..)) v hvm)
      · intro i g w hg hw
        cases i with
        | zero =>
          cases hg; cases hw
          exact ⟨h4 f hk2.1, (h3 f hn.1).trans hk2.2⟩
        | succ i => exact h2 i g w hg hw
      · intro g hg
        rw [List.mem_cons, not_or] at hg
        exact (h3 g hg.2).trans (hk2f g hg.1).2
      · intro g hg
        refine h4 g ?_
        by_cases hgf : g = f
        · rw [hgf]; exact hk2.1
        · rw [(hk2f g hgf).1]; exact hg
      · exact h6

/-! ### regions given by their vertices alone -/

/-- undefined behaviour, or a result with a property -/
def UbOr {α : Type} (x : Res α) (P : α → Prop) : Prop := x = .ub ∨ ∃ a, x = .ok a ∧ P a

theorem UbOr.bind {α β : Type} {x : Res α} {f : α → Res β} {P : α → Prop} {Q : β → Prop} (h : UbOr x P)
    (hf : ∀ a, P a → UbOr (f a) Q) : UbOr (x >>= f) Q := by
  rcases h with h | ⟨a, h, hp⟩
  · rw [h]; exact Or.inl rfl
  · rw [h, Res.bind_ok]; exact hf a hp

theorem UbOr.ok {α : Type} {a : α} {P : α → Prop} (h : P a) : UbOr (.ok a) P := Or.inr ⟨a, rfl, h⟩

theorem UbOr.of {α : Type} {o : Option α} : UbOr (Res.ofOption o) (fun a => o = some a) := by
  cases o with
  | none => exact Or.inl rfl
  | some a => exact Or.inr ⟨a, rfl, rfl⟩

theorem UbOr.deref {s : Stat} : UbOr (R1M.deref s) (fun _ => True) := by
  unfold R1M.deref
  split
  · exact UbOr.ok trivial
  · exact Or.inl rfl

theorem UbOr.mono {α : Type} {x : Res α} {P Q : α → Prop} (h : UbOr x P) (hp : ∀ a, P a → Q a) : UbOr x Q := by
  rcases h with h | ⟨a, h, h'⟩
  · exact Or.inl h
  · exact Or.inr ⟨a, h, hp a h'⟩

theorem entries_mem {es : List Nat} : ∀ row : List Nat,
    UbOr (entries es row) (fun l => l.length = row.length ∧ ∀ e ∈ l, e ∈ es) := by
  intro row
  induction row with
  | nil => exact UbOr.ok ⟨rfl, fun e he => absurd he List.not_mem_nil⟩
  | cons i row ih =>
    unfold entries
    refine UbOr.of.bind fun x hx => ih.bind fun xs hxs => UbOr.ok ⟨by simp [hxs.1], ?_⟩
    intro e he
    rcases List.mem_cons.1 he with rfl | he
    · exact List.mem_of_getElem? hx
    · exact hxs.2 e he

theorem readAll_ub {M : Mesh4} : ∀ vs : List Nat, UbOr (readAll M vs) (fun _ => True) := by
  intro vs
  induction vs with
  | nil => exact UbOr.ok trivial
  | cons v vs ih => unfold readAll; exact UbOr.deref.bind fun _ _ => ih

theorem mvFaces_ub {M : Mesh4} {v : Nat} : UbOr (mvFaces M v) (fun _ => True) := by
  unfold mvFaces; exact UbOr.deref.bind fun _ _ => UbOr.ok trivial

/-- no edge is found, a new one is made for each pair -/
theorem edgesByVertices_ub (vs : List Nat) : ∀ (l : List (Int × Int)) (M : Mesh4),
    UbOr (edgesByVertices M vs l) (fun p => M.en ≤ p.1.en ∧ ∀ e ∈ p.2, e < p.1.en) := by
  intro l
  induction l with
  | nil => intro M; exact UbOr.ok ⟨Nat.le_refl _, fun e he => absurd he List.not_mem_nil⟩
  | cons q l ih =>
    obtain ⟨i, j⟩ := q
    intro M
    unfold edgesByVertices
    refine UbOr.of.bind fun a _ => UbOr.of.bind fun b _ => ?_
    have hc : UbOr (commonEdge M a b) (fun o => o = none) := by
      unfold commonEdge mvEdges
      rcases (UbOr.deref (s := M.sv a)) with h | ⟨_, h, _⟩
      · rw [h]; exact Or.inl rfl
      · rw [h]; exact Or.inr ⟨none, rfl, rfl⟩
    refine hc.bind ?_
    rintro o rfl
    dsimp only
    refine (ih (newEdge M a b).1).bind fun p hp => UbOr.ok ⟨?_, ?_⟩
    · have h1 : M.en + 1 ≤ p.1.en := hp.1
      show M.en ≤ p.1.en
      omega
    · intro e he
      rcases List.mem_cons.1 he with rfl | he
      · have h1 : M.en + 1 ≤ p.1.en := hp.1
        show M.en < p.1.en
        omega
      · exact hp.2 e he

theorem sideEdges_ub (fs : List Nat) : ∀ (is : List Nat) (M : Mesh4),
    UbOr (sideEdges M fs is) (fun p => p.1.fv = M.fv ∧ M.en ≤ p.1.en ∧ ∀ e ∈ p.2, M.en ≤ e) := by
  intro is
  induction is with
  | nil => intro M; exact UbOr.ok ⟨rfl, Nat.le_refl _, fun e he => absurd he List.not_mem_nil⟩
  | cons i is ih =>
    intro M
    unfold sideEdges
    refine UbOr.of.bind fun a _ => UbOr.of.bind fun b _ => (ih (newEdge M a b).1).bind fun p hp =>
      UbOr.ok ⟨hp.1, ?_, ?_⟩
    · have h1 : M.en + 1 ≤ p.1.en := hp.2.1
      show M.en ≤ p.1.en
      omega
    · intro e he
      rcases List.mem_cons.1 he with rfl | he
      · exact Nat.le_refl _
      · have h1 : M.en + 1 ≤ e := hp.2.2 e he
        omega

/-- the edges of a face are new each time, so no face has the edges searched for -/
theorem searchByEdges_ub {rest : List Nat} (hr : rest ≠ []) : ∀ (fs : List Nat) (M : Mesh4),
    (∀ e ∈ rest, e < M.en) →
    UbOr (searchByEdges M rest fs) (fun p => p.2 = none ∧ p.1.fv = M.fv ∧ M.en ≤ p.1.en) := by
  intro fs
  induction fs with
  | nil => intro M _; exact UbOr.ok ⟨rfl, rfl, Nat.le_refl _⟩
  | cons f fs ih =>
    intro M hlt
    unfold searchByEdges
    have hm : UbOr (mfEdges M f) (fun p => p.1.fv = M.fv ∧ M.en ≤ p.1.en ∧ ∀ e ∈ p.2, M.en ≤ e) := by
      unfold mfEdges
      exact UbOr.deref.bind fun _ _ => UbOr.of.bind fun vs _ => sideEdges_ub vs _ M
    refine hm.bind ?_
    rintro ⟨M1, es⟩ ⟨h1, h2, h3⟩
    dsimp only at h1 h2 h3 ⊢
    have hn : ¬ (rest.all (fun x => decide (x ∈ es)) = true) := by
      intro hall
      obtain ⟨e, he⟩ := List.exists_mem_of_ne_nil _ hr
      have := List.all_eq_true.1 hall e he
      have h4 := h3 e (of_decide_eq_true this)
      have h5 := hlt e he
      omega
    rw [if_neg hn]
    refine (ih M1 (fun e he => Nat.lt_of_lt_of_le (hlt e he) h2)).mono ?_
    rintro p ⟨p1, p2, p3⟩
    exact ⟨p1, p2.trans h1, Nat.le_trans h2 p3⟩

theorem edgeFaces_ub {M : Mesh4} (a b : Nat) : ∀ fs : List Nat, UbOr (edgeFaces M a b fs) (fun _ => True) := by
  intro fs
  induction fs with
  | nil => exact UbOr.ok trivial
  | cons f fs ih =>
    unfold edgeFaces
    have hm : UbOr (mfVertices M f true none) (fun _ => True) := by
      unfold mfVertices
      refine UbOr.deref.bind fun _ _ => UbOr.of.bind fun vs _ => ?_
      exact UbOr.ok trivial
    exact hm.bind fun o _ => UbOr.of.bind fun vs _ => ih.bind fun l _ => UbOr.ok trivial

theorem faceByEdges_ub {M : Mesh4} {es : List Nat} (nf : Nat) (dir : Bool) (h2 : 2 ≤ es.length)
    (hlt : ∀ e ∈ es, e < M.en) :
    UbOr (faceByEdges M es nf dir)
      (fun p => p.2.1 = nf ∧ p.1.fv = upd M.fv nf none ∧ M.en ≤ p.1.en) := by
  unfold faceByEdges
  have hc : UbOr (commonFaceE M es) (fun p => p.2 = none ∧ p.1.fv = M.fv ∧ M.en ≤ p.1.en) := by
    unfold commonFaceE
    refine UbOr.of.bind fun e _ => ?_
    have hm : UbOr (meFaces M e) (fun _ => True) := by
      unfold meFaces
      exact mvFaces_ub.bind fun fs _ => (edgeFaces_ub _ _ fs).bind fun l _ => UbOr.ok trivial
    refine hm.bind fun o _ => ?_
    cases o with
    | none => exact UbOr.ok ⟨rfl, rfl, Nat.le_refl _⟩
    | some fs =>
      refine searchByEdges_ub ?_ fs M ?_
      · intro hn
        have := congrArg List.length hn
        rw [List.length_drop] at this
        simp at this
        omega
      · intro e he
        exact hlt e (List.mem_of_mem_drop he)
  refine hc.bind ?_
  rintro ⟨M1, o⟩ ⟨h1, h3, h4⟩
  dsimp only at h1 h3 h4
  subst h1
  dsimp only
  refine UbOr.ok ⟨rfl, ?_, h4⟩
  show upd M1.fv nf none = _
  rw [h3]

theorem facesByEdges_ub {es : List Nat} : ∀ (rows : List (List Nat × Bool)) (nfs : List Nat) (M : Mesh4),
    (∀ e ∈ es, e < M.en) → (∀ w ∈ rows, 2 ≤ w.1.length) → rows.length ≤ nfs.length →
    UbOr (facesByEdges M es rows nfs) (fun p => p.2.length = rows.length ∧ (∀ q ∈ p.2, p.1.fv q.1 = none) ∧
      ∀ f, M.fv f = none → p.1.fv f = none) := by
  intro rows
  induction rows with
  | nil => intro nfs M _ _ _; exact UbOr.ok ⟨rfl, fun q hq => absurd hq List.not_mem_nil, fun _ h => h⟩
  | cons w rows ih =>
    obtain ⟨row, dir⟩ := w
    intro nfs M hlt hr hl
    match nfs, hl with
    | nf :: nfs, hl =>
      unfold facesByEdges pick
      refine (entries_mem row).bind fun fe hfe => ?_
      refine (faceByEdges_ub nf dir (by rw [hfe.1]; exact hr _ (List.mem_cons_self ..))
        (fun e he => hlt e (hfe.2 e he))).bind ?_
      rintro ⟨M1, g, d⟩ ⟨h1, h2, h3⟩
      dsimp only at h1 h2 h3 ⊢
      subst h1
      refine (ih nfs M1 (fun e he => Nat.lt_of_lt_of_le (hlt e he) h3)
        (fun w hw => hr w (List.mem_cons_of_mem _ hw)) (by simpa using hl)).bind ?_
      rintro ⟨M2, L⟩ ⟨h4, h5, h6⟩
      have hg : M1.fv g = none := by rw [h2]; exact upd_same ..
      refine UbOr.ok ⟨by simpa using h4, ?_, ?_⟩
      · intro q hq
        rcases List.mem_cons.1 hq with rfl | hq
        · exact h6 g hg
        · exact h5 q hq
      · intro f hf
        refine h6 f ?_
        rw [h2, R1M.upd_apply']
        split
        · rfl
        · exact hf

theorem attach_ub {sf : Nat → Stat} {r : Nat} : ∀ (l : List (Nat × Bool)) (fr : Nat → Bool → Option Nat),
    UbOr (attach sf r l fr) (fun _ => True) := by
  intro l
  induction l with
  | nil => intro fr; exact UbOr.ok trivial
  | cons p l ih =>
    obtain ⟨f, d⟩ := p
    intro fr
    unfold attach
    exact UbOr.deref.bind fun _ _ => ih _

/-- the type of a region with four to six faces cannot be found when the first has no vertices -/
theorem typeFrom_bare {M : Mesh4} {fs : List Nat} (h4 : 4 ≤ fs.length) (h6 : fs.length ≤ 6)
    (hf : ∀ f ∈ fs, M.fv f = none) : typeFrom M fs = .ub := by
  match fs, h4 with
  | f :: fs, h4 =>
    have hn : mfNumVertices M f = .ub := by
      unfold mfNumVertices
      rw [hf f (List.mem_cons_self ..)]
      rcases (UbOr.deref (s := M.sf f)) with h | ⟨_, h, _⟩
      · rw [h]; rfl
      · rw [h]; rfl
    unfold typeFrom
    rw [if_neg (show ¬ (f :: fs).length < 4 by omega)]
    by_cases c4 : (f :: fs).length = 4
    · rw [if_pos c4]; unfold allSize; rw [hn]; rfl
    · rw [if_neg c4]
      by_cases c5 : (f :: fs).length = 5
      · rw [if_pos c5]; unfold sizes; rw [hn]; rfl
      · rw [if_neg c5, if_pos (show (f :: fs).length = 6 by omega)]; unfold allSize; rw [hn]; rfl

theorem rows_shape : ∀ ty ∈ [MRType.tet, .pyramid, .prism, .hex], ∀ rows, edgeRows ty = some rows →
    4 ≤ rows.length ∧ rows.length ≤ 6 ∧ ∀ w ∈ rows, 2 ≤ w.1.length := by
  intro ty hty
  have h : [MRType.tet, .pyramid, .prism, .hex].all (fun ty => match edgeRows ty with
      | none => true
      | some rows => decide (4 ≤ rows.length ∧ rows.length ≤ 6) && rows.all fun w => decide (2 ≤ w.1.length)) =
      true := by decide +kernel
  have := List.all_eq_true.1 h ty hty
  intro rows hr
  rw [hr] at this
  simp only [Bool.and_eq_true, decide_eq_true_eq, List.all_eq_true] at this
  exact ⟨this.1.1, this.1.2, this.2⟩

theorem setStandard_ub {M : Mesh4} {r : Nat} {vs nfs : List Nat} (hv : vs.length ∈ [4, 5, 6, 8])
    (hn : 6 ≤ nfs.length) : UbOr (setStandard M r vs nfs) (fun _ => False) := by
  unfold setStandard
  refine UbOr.deref.bind fun _ _ => (readAll_ub vs).bind fun _ _ => ?_
  have ht : UbOr (Tmpl.setVerticesType vs.length) (fun t => t.1 ∈ [MRType.tet, .pyramid, .prism, .hex]) := by
    rw [List.mem_cons, List.mem_cons, List.mem_cons, List.mem_singleton] at hv
    rcases hv with h | h | h | h <;> rw [h] <;> exact UbOr.ok (by decide)
  refine ht.bind fun t htm => UbOr.of.bind fun ev _ => (edgesByVertices_ub vs ev M).bind fun p hp =>
    UbOr.of.bind fun rows hrows => ?_
  obtain ⟨s1, s2, s3⟩ := rows_shape t.1 htm rows hrows
  refine (facesByEdges_ub rows nfs p.1 hp.2 s3 (by omega)).bind fun q hq => ?_
  unfold setFaces
  refine UbOr.deref.bind fun _ _ => (attach_ub _ _).bind fun _ _ => Or.inl ?_
  rw [typeFrom_bare (by rw [List.length_map]; omega) (by rw [List.length_map]; omega) (by
    intro f hf
    obtain ⟨x, hx, rfl⟩ := List.mem_map.1 hf
    exact hq.2.1 x hx)]
  rfl

/-! ### The theorems -/

/-- **C95**: after every history the queries give the vertices and edges of the faces, the faces of the
regions and the regions of the faces, the neighbours of a region and its type as the caller made them.  What
a vertex answers is less than its faces and regions; see the negations. -/
theorem C95_answers_partial (ops : List Op) (h : Legal nothing ops) :
    ∃ M, run empty ops = .ok M ∧ Answers M (ops.foldl note nothing) := by
  obtain ⟨M, h1, h2⟩ := run_inv ops inv_empty h
  exact ⟨M, h1, answers_ok h2⟩

theorem no_back : ∀ (ops : List Op) (k : Known), (∀ f, Op.resF f ∉ ops) → (∀ f, k.back f = false) →
    ∀ f, (ops.foldl note k).back f = false := by
  intro ops
  induction ops with
  | nil => intro k _ h; exact h
  | cons o os ih =>
    intro k hn h
    rw [List.foldl_cons]
    refine ih _ (fun f hf => hn f (List.mem_cons_of_mem _ hf)) ?_
    intro f
    cases o with
    | delF g =>
      show upd k.back g false f = false
      rw [R1M.upd_apply']
      split
      · rfl
      · exact h f
    | resF g => exact absurd (List.mem_cons_self ..) (hn g)
    | _ => exact h f

/-- **C95** fails for vertices: unless a face is deleted and restored, no vertex has a face or a region, and
counting the regions reads a null pointer. -/
theorem C95_negation_vertices (ops : List Op) (h : Legal nothing ops) (hn : ∀ f, Op.resF f ∉ ops) (v : Nat)
    (hv : (ops.foldl note nothing).vert v = true) :
    ∃ M, run empty ops = .ok M ∧ mvFaces M v = .ok [] ∧ mvRegions M v = .ok none ∧ mvNumRegions M v = .ub := by
  obtain ⟨M, h1, h2⟩ := C95_answers_partial ops h
  have hb := no_back ops nothing hn (fun _ => rfl)
  obtain ⟨l, ⟨_, hl⟩, hf, _⟩ := h2.vertFaces v hv
  obtain ⟨l', ⟨_, hl'⟩, hr, hnr⟩ := h2.vertRegions v hv
  have e : l = [] := by
    apply List.eq_nil_iff_forall_not_mem.2
    intro f hm
    have := ((hl f).1 hm).1
    rw [hb] at this; cases this
  have e' : l' = [] := by
    apply List.eq_nil_iff_forall_not_mem.2
    intro r hm
    obtain ⟨_, f, _, _, hbf, _⟩ := (hl' r).1 hm
    rw [hb] at hbf; cases hbf
  subst e; subst e'
  exact ⟨M, h1, hf, hr, hnr⟩

/-- **C95** fails for regions given by their vertices and the faces of a template: faces that are there are
not found, each region gets new ones and so has no neighbours, whatever the other regions are. -/
theorem C95_negation_template (ops : List Op) (h : Legal nothing ops) (r : Nat) (vs : List Nat)
    (rows : List (List Nat)) (nfs : List Nat) (hr : (ops.foldl note nothing).alive r = true)
    (hr' : (ops.foldl note nothing).faces r = none) (hv : ∀ v ∈ vs, (ops.foldl note nothing).vert v = true)
    (hrow : ∀ row ∈ rows, 2 ≤ row.length ∧ ∀ i ∈ row, i < vs.length) (hlen : nfs.length = rows.length)
    (hnd : nfs.Nodup) (hnew : ∀ f ∈ nfs, (ops.foldl note nothing).face f = false) :
    ∃ M M', run empty ops = .ok M ∧ setByTemplate M r vs rows nfs = .ok M' ∧
      mrFaces M' r = .ok nfs ∧ mrAdjRegions M' r = .ok [] ∧
      ∀ (i : Nat) f row, nfs[i]? = some f → rows[i]? = some row →
        mfVertices M' f true none = .ok (some (row.map fun j => vs.getD j 0)) ∧ mfRegions M' f = .ok [r] := by
  obtain ⟨M, h1, hi⟩ := run_inv ops inv_empty h
  generalize hk : ops.foldl note nothing = k at hi hr hr' hv hnew
  have hbare : ∀ f ∈ nfs, k.face f = false ∧ k.fverts f = none :=
    fun f hf => ⟨hnew f hf, (hi.noface f (hnew f hf)).1⟩
  obtain ⟨l1, l2, l3, l4, l5, l6, l7, l8⟩ :=
    making_legal vs rows nfs k hv hlen hnd hbare (fun w hw => (hrow w hw).2)
  have hderef : ∀ v ∈ vs, deref (M.sv v) = .ok () := fun v hvm => R1M.deref_live (hi.vlive (hv v hvm))
  obtain ⟨M1, f1, f2⟩ := facesByVertices_run vs rows nfs M hderef hlen hrow
  obtain ⟨M1', g1, g2⟩ := run_inv _ hi l1
  rw [f2] at g1; cases g1
  generalize hk1 : (making vs rows nfs).foldl note k = k1 at l2 l3 l4 l5 l6 l7 l8 g2
  have hfree : ∀ x f d, (f, d) ∈ (k.faces x).getD [] → f ∉ nfs := by
    intro x f d hx hf
    exact hi.usesShape (r := x) (d := d) hx (hbare f hf).2
  have hrowAt : ∀ f ∈ nfs, ∃ row, k1.fverts f = some (rowVerts vs row) := by
    intro f hf
    obtain ⟨i, hlt, rfl⟩ := List.getElem_of_mem hf
    have hlt' : i < rows.length := by omega
    exact ⟨_, (l2 i _ _ (List.getElem?_eq_getElem hlt) (List.getElem?_eq_getElem hlt')).2⟩
  have hlegal : (Op.setR r (nfs.map fun f => (f, true))).legal k1 := by
    refine ⟨by rw [l6]; exact hr, by rw [l8]; exact hr', ?_, ?_⟩
    · rw [List.map_map, show ((fun x : Nat × Bool => x.1) ∘ fun f : Nat => (f, true)) = id from rfl, List.map_id]
      exact hnd
    · intro p hp
      obtain ⟨f, hf, rfl⟩ := List.mem_map.1 hp
      obtain ⟨row, hrw⟩ := hrowAt f hf
      refine ⟨by rw [hrw]; exact Option.some_ne_none _, ?_⟩
      intro x _ _ hx
      rw [l8] at hx
      exact hfree x f _ hx hf
  obtain ⟨M2, s1, s2⟩ := step_inv g2 hlegal
  have a := answers_ok s2
  have hset : setByTemplate M r vs rows nfs = .ok M2 := by
    unfold setByTemplate
    have hra : readAll M vs = .ok () := by
      clear f1 hv hrow l1 l2 l3 l4 l5 l6 l7 l8 hrowAt hk1 hlegal f2
      induction vs with
      | nil => rfl
      | cons v vs ih =>
        unfold readAll
        rw [hderef v (List.mem_cons_self ..), Res.bind_ok]
        exact ih fun w hw => hderef w (List.mem_cons_of_mem _ hw)
    rw [hi.there (hi.inRegs hr) (hi.notGone hr), Res.bind_ok, hra, Res.bind_ok, f1, Res.bind_ok]
    exact s1
  have hfaces : (note k1 (.setR r (nfs.map fun f => (f, true)))).faces r = some (nfs.map fun f => (f, true)) :=
    upd_same ..
  have halive : (note k1 (.setR r (nfs.map fun f => (f, true)))).alive r = true := by
    show k1.alive r = true
    rw [l6]; exact hr
  have huses : ∀ x f d, (note k1 (.setR r (nfs.map fun f => (f, true)))).Uses x f d → f ∈ nfs →
      x = r ∧ d = true := by
    intro x f d hu hf
    have hu : (f, d) ∈ (upd k1.faces r (some (nfs.map fun f => (f, true))) x).getD [] := hu
    by_cases hx : x = r
    · subst hx
      rw [upd_same] at hu
      obtain ⟨g, _, hg⟩ := List.mem_map.1 hu
      cases hg
      exact ⟨rfl, rfl⟩
    · rw [upd_ne _ _ hx, l8] at hu
      exact absurd hf (hfree x f d hu)
  have hmem : ∀ f d, (note k1 (.setR r (nfs.map fun f => (f, true)))).Uses r f d → f ∈ nfs := by
    intro f d hu
    unfold Known.Uses at hu
    rw [hfaces] at hu
    obtain ⟨g, hg, he⟩ := List.mem_map.1 hu
    cases he; exact hg
  refine ⟨M, M2, h1, hset, ?_, ?_, ?_⟩
  · have hx := (a.regFaces r _ (s2.inRegs halive) (s2.notGone halive) hfaces).1
    rw [List.map_map, show ((fun x : Nat × Bool => x.1) ∘ fun f : Nat => (f, true)) = id from rfl,
      List.map_id] at hx
    exact hx
  · obtain ⟨l, e1, e2, _⟩ := a.neighbours r _ halive hfaces
    rw [e1]
    congr 1
    apply List.eq_nil_iff_forall_not_mem.2
    intro x hx
    obtain ⟨_, f, d, u1, u2⟩ := (e2 x).1 hx
    have hf := hmem f d u1
    have := (huses r f d u1 hf).2
    subst this
    have := (huses x f _ u2 hf).2
    cases this
  · intro i f row hfi hri
    have hf : f ∈ nfs := List.mem_of_getElem? hfi
    obtain ⟨hface, hfv⟩ := l2 i f row hfi hri
    refine ⟨(a.faceVertices f (rowVerts vs row) hface hfv).2.2.1, ?_⟩
    have hur : (note k1 (.setR r (nfs.map fun f => (f, true)))).Uses r f true := by
      unfold Known.Uses
      rw [hfaces]
      exact List.mem_map.2 ⟨f, hf, rfl⟩
    unfold mfRegions
    rw [s2.fthere (show k1.face f = true from hface), Res.bind_ok]
    have e0 : M2.fr f false = some r := (s2.fr f false r).2 ⟨halive, hur⟩
    have e1 : M2.fr f true = none := by
      cases ho : M2.fr f true with
      | none => rfl
      | some x =>
        have := (huses x f _ ((s2.fr f true x).1 ho).2 hf).2
        cases this
    rw [e0, e1]; rfl

/-- **C95** fails for regions given by their vertices alone: in every mesh, giving a new region the vertices
of a standard element reads a null pointer, as the faces that are made get no vertices. -/
theorem C95_negation_standard (M : Mesh4) (r : Nat) (vs nfs : List Nat) (hv : vs.length ∈ [4, 5, 6, 8])
    (hn : 6 ≤ nfs.length) : setStandard M r vs nfs = .ub := by
  rcases setStandard_ub (M := M) (r := r) hv hn with h | ⟨_, _, h⟩
  · exact h
  · exact h.elim

/-- **C95** fails for faces without vertices: deleting one reads a null pointer. -/
theorem C95_negation_bare (ops : List Op) (h : Legal nothing ops) (f : Nat) (keep : Bool)
    (hf : (ops.foldl note nothing).falive f = true) (hv : (ops.foldl note nothing).fverts f = none) :
    ∃ M, run empty ops = .ok M ∧ delFace M f keep = .ub := by
  obtain ⟨M, h1, hi⟩ := run_inv ops inv_empty h
  refine ⟨M, h1, ?_⟩
  have hlive : M.sf f = .live := by rw [hi.sf, hi.hasFace' hf, hf]; rfl
  unfold delFace withdrawFace
  rw [hi.fthere (hi.hasFace' hf), Res.bind_ok, if_pos hlive, hi.fv, hv]
  rfl

/-! ### examples -/

instance (k : Known) (f : Nat) (d : Bool) : Decidable (k.Free f d) := by
  unfold Known.Free; infer_instance

instance (k : Known) (o : Op) : Decidable (o.legal k) := by
  cases o <;> unfold Op.legal <;> infer_instance

instance decLegal : (k : Known) → (ops : List Op) → Decidable (Legal k ops)
  | _, [] => isTrue trivial
  | k, o :: os =>
    have := decLegal (note k o) os
    inferInstanceAs (Decidable (o.legal k ∧ Legal (note k o) os))

/-- two tets on both sides of face 0; region 0 is deleted and restored, face 1 as well -/
def twoTets : List Op :=
  (List.range 5).map .newV ++
  [.newF 0, .setF 0 [0, 1, 2], .newF 1, .setF 1 [0, 1, 3], .newF 2, .setF 2 [1, 2, 3], .newF 3, .setF 3 [0, 3, 2],
   .newF 4, .setF 4 [0, 1, 4], .newF 5, .setF 5 [1, 2, 4], .newF 6, .setF 6 [0, 4, 2],
   .newR 0, .setR 0 [(0, false), (1, true), (2, true), (3, true)],
   .newR 1, .setR 1 [(0, true), (4, false), (5, false), (6, false)], .delR 0, .resR 0, .delF 1, .resF 1]

example : Legal nothing twoTets ∧ ∃ M, run empty twoTets = .ok M ∧
    mfVertices M 0 false (some 1) = .ok (some [1, 0, 2]) ∧ mfEdgeDir M 0 2 0 = .ok 1 ∧ mfEdgeDir M 0 0 2 = .ok 0 ∧
    mfRegions M 0 = .ok [1, 0] ∧ mrFaceDir M 0 0 = .ok 0 ∧ mrAdjRegions M 0 = .ok [1] ∧
    mrAdjRegions M 1 = .ok [0] ∧ mrUsesVertex M 0 3 = .ok true ∧ mrUsesVertex M 0 4 = .ok false ∧
    M.rt 0 = .tet ∧ mvFaces M 0 = .ok [1] ∧ mvRegions M 0 = .ok (some [0]) ∧ mvNumRegions M 2 = .ub := by
  have hl : Legal nothing twoTets := by decide +kernel
  refine ⟨hl, ?_⟩
  obtain ⟨M, h, _⟩ := C95_answers_partial twoTets hl
  refine ⟨M, h, ?_⟩
  have : ∀ o, run empty twoTets = o → (match o with
    | .ok M => decide (mfVertices M 0 false (some 1) = .ok (some [1, 0, 2]) ∧ mfEdgeDir M 0 2 0 = .ok 1 ∧
        mfEdgeDir M 0 0 2 = .ok 0 ∧ mfRegions M 0 = .ok [1, 0] ∧ mrFaceDir M 0 0 = .ok 0 ∧
        mrAdjRegions M 0 = .ok [1] ∧ mrAdjRegions M 1 = .ok [0] ∧ mrUsesVertex M 0 3 = .ok true ∧
        mrUsesVertex M 0 4 = .ok false ∧ M.rt 0 = .tet ∧ mvFaces M 0 = .ok [1] ∧
        mvRegions M 0 = .ok (some [0]) ∧ mvNumRegions M 2 = .ub)
    | _ => false) = true := by rintro o rfl; decide +kernel
  exact of_decide_eq_true (this _ h)

/-- without restored faces the vertices have no faces -/
example : ∃ M, run empty (twoTets.take 20) = .ok M ∧ mvFaces M 0 = .ok [] ∧ mvRegions M 0 = .ok none ∧
    mvNumRegions M 0 = .ub :=
  C95_negation_vertices (twoTets.take 20) (by decide +kernel) (by
    intro f hf
    simp [twoTets, List.range_succ] at hf) 0 (by decide +kernel)

/-- the faces of a tet -/
def tetRows : List (List Nat) := [[0, 1, 2], [0, 3, 1], [1, 3, 2], [0, 2, 3]]

/-- the tets 0 1 2 3 and 0 2 1 4 have the vertices 0, 1, 2 in common and no face -/
example : ∃ M M', run empty ((List.range 5).map .newV ++ [.newR 0] ++ making [0, 1, 2, 3] tetRows [0, 1, 2, 3] ++
      [.setR 0 [(0, true), (1, true), (2, true), (3, true)], .newR 1]) = .ok M ∧
    setByTemplate M 1 [0, 2, 1, 4] tetRows [4, 5, 6, 7] = .ok M' ∧ mrFaces M' 1 = .ok [4, 5, 6, 7] ∧
    mrAdjRegions M' 1 = .ok [] :=
  let ⟨M, M', h1, h2, h3, h4, _⟩ := C95_negation_template
    ((List.range 5).map .newV ++ [.newR 0] ++ making [0, 1, 2, 3] tetRows [0, 1, 2, 3] ++
      [.setR 0 [(0, true), (1, true), (2, true), (3, true)], .newR 1]) (by decide +kernel) 1 [0, 2, 1, 4] tetRows
    [4, 5, 6, 7] (by decide +kernel) (by decide +kernel) (by decide +kernel) (by decide +kernel) (by decide +kernel)
    (by decide +kernel) (by decide +kernel)
  ⟨M, M', h1, h2, h3, h4⟩

example : setStandard empty 0 [0, 1, 2, 3] [0, 1, 2, 3, 4, 5] = .ub :=
  C95_negation_standard _ _ _ _ (by decide) (by decide)

example : ∃ M, run empty [.newF 0] = .ok M ∧ delFace M 0 true = .ub :=
  C95_negation_bare [.newF 0] (by decide) 0 true (by decide) (by decide)

end MSTK.R4M
