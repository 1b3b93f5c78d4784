import Verif.R1Model
import Mathlib.Data.List.Rotate
import Mathlib.Data.List.Nodup
/-!
C92: the answers of a mesh with the representation `R1`.
-/
namespace MSTK.R1M

/-! ### Specification -/

/-- the calls that make up a history of the mesh; `delR` is the temporary deletion of a region -/
inductive Op where
  | newV (v : Nat)
  | newF (f : Nat)
  | setF (f : Nat) (vs : List Nat)
  | newR (r : Nat)
  | setR (r : Nat) (vs : List Nat) (rows : List (List Nat))
  | delR (r : Nat)
  | resR (r : Nat)

def step (M : Mesh1) : Op → Res Mesh1
  | .newV v => newVertex M v
  | .newF f => newFace M f
  | .setF f vs => setFaceVertices M f vs
  | .newR r => newRegion M r
  | .setR r vs rows => setVertices M r vs rows
  | .delR r => delRegion M r true
  | .resR r => restoreRegion M r

def run (M : Mesh1) : List Op → Res Mesh1
  | [] => .ok M
  | o :: os => do run (← step M o) os

/-- what the caller knows after a history: the vertices there are, the faces there are and the vertices they
were given, the regions there are and the vertices and the templates they were given -/
structure Known where
  vert : Nat → Bool
  face : Nat → Bool
  fverts : Nat → Option (List Nat)
  used : Nat → Bool
  alive : Nat → Bool
  verts : Nat → Option (List Nat)
  rows : Nat → Option (List (List Nat))

def nothing : Known :=
  ⟨fun _ => false, fun _ => false, fun _ => none, fun _ => false, fun _ => false, fun _ => none, fun _ => none⟩

def note (k : Known) : Op → Known
  | .newV v => { k with vert := upd k.vert v true }
  | .newF f => { k with face := upd k.face f true }
  | .setF f vs => { k with fverts := upd k.fverts f (some vs) }
  | .newR r => { k with used := upd k.used r true, alive := upd k.alive r true }
  | .setR r vs rows => { k with verts := upd k.verts r (some vs),
                                rows := upd k.rows r (if rows = [] then none else some rows) }
  | .delR r => { k with alive := upd k.alive r false }
  | .resR r => { k with alive := upd k.alive r true }

/-- New entities get storage that is not in use, a region gets its vertices once, they exist and their
number is that of a standard element unless a template is given; a region is deleted when it is there and
restored when it was deleted. -/
def Op.legal (k : Known) : Op → Prop
  | .newV v => k.vert v = false
  | .newF f => k.face f = false
  | .setF f vs => k.face f = true ∧ ∀ v ∈ vs, k.vert v = true
  | .newR r => k.used r = false
  | .setR r vs rows => k.alive r = true ∧ k.verts r = none ∧ (∀ v ∈ vs, k.vert v = true) ∧
      (rows ≠ [] ∨ vs.length ∈ [4, 5, 6, 8])
  | .delR r => k.alive r = true
  | .resR r => k.used r = true ∧ k.alive r = false ∧ k.verts r ≠ none

def Legal (k : Known) : List Op → Prop
  | [] => True
  | o :: os => o.legal k ∧ Legal (note k o) os

/-- the vertex is a vertex of the region -/
def Known.Has (k : Known) (r v : Nat) : Prop := ∃ vs, k.verts r = some vs ∧ v ∈ vs

/-- a list without repetitions of the things with a property -/
def Lists (l : List Nat) (P : Nat → Prop) : Prop := l.Nodup ∧ ∀ x, x ∈ l ↔ P x

/-- the answer of the library: a null pointer instead of an empty list -/
def listOrNull (l : List Nat) : Option (List Nat) := if l = [] then none else some l

/-- the faces of the standard element with the given number of vertices, seen from outside they go around
counter-clockwise -/
def outward : Nat → List (List Nat)
  | 4 => [[0, 2, 1], [0, 1, 3], [1, 2, 3], [0, 3, 2]]
  | 5 => [[0, 3, 2, 1], [0, 1, 4], [1, 2, 4], [2, 3, 4], [3, 0, 4]]
  | 6 => [[0, 2, 1], [3, 4, 5], [0, 1, 4, 3], [1, 2, 5, 4], [2, 0, 3, 5]]
  | 8 => [[0, 3, 2, 1], [4, 5, 6, 7], [0, 1, 5, 4], [1, 2, 6, 5], [2, 3, 7, 6], [3, 0, 4, 7]]
  | _ => []

/-- the vertices `fs` go around a face of the element with vertices `vs`, its normal pointing out -/
def Outward (vs fs : List Nat) : Prop :=
  ∃ w ∈ outward vs.length, fs ~r w.map fun i => vs.getD i 0

/-- a standard element given without template -/
def Known.Standard (k : Known) (r : Nat) (vs : List Nat) : Prop :=
  k.verts r = some vs ∧ k.rows r = none ∧ vs.Nodup

/-- different vertices have different IDs -/
def IdsDiffer (id : Nat → Int) (l : List Nat) : Prop := ∀ a ∈ l, ∀ b ∈ l, id a = id b → a = b

/-- What the queries answer. -/
structure Answers (M : Mesh1) (k : Known) : Prop where
  vertRegions : ∀ v, k.vert v = true → ∃ l, Lists l (fun r => k.alive r = true ∧ k.Has r v) ∧
    mvRegions M v = .ok (listOrNull l) ∧ mvNumRegions M v = .ok l.length
  regVertices : ∀ r vs, k.used r = true → k.verts r = some vs →
    mrVertices M r = .ok vs ∧ ∀ v, mrUsesVertex M r v = .ok (decide (v ∈ vs))
  faceVertices : ∀ f vs, k.face f = true → k.fverts f = some vs →
    mfVertices M f true none = .ok (some vs) ∧
    mfVertices M f false none = .ok (some vs.reverse) ∧
    (∀ dir v, v ∉ vs → mfVertices M f dir (some v) = .ok none) ∧
    ∀ dir, ∀ v ∈ vs, ∃ l, mfVertices M f dir (some v) = .ok (some l) ∧ l.head? = some v ∧
      l ~r if dir then vs else vs.reverse
  faceRegions : ∀ f vs, k.face f = true → k.fverts f = some vs → 2 ≤ vs.length →
    ∃ l, mfRegions M f = .ok (listOrNull l) ∧ l.Nodup ∧ l.length ≤ 2 ∧
      (∀ r ∈ l, k.alive r = true ∧ ∀ v ∈ vs, k.Has r v) ∧
      (l.length < 2 → ∀ r, k.alive r = true → (∀ v ∈ vs, k.Has r v) → r ∈ l)
  direction : ∀ id r f vs fs, k.used r = true → k.Standard r vs → k.face f = true → k.fverts f = some fs →
    fs.length ≤ 30 → IdsDiffer id (vs ++ fs) →
    (Outward vs fs → faceDir M id r f = .ok 1 ∧ mrUsesFace M id r f = .ok true) ∧
    (Outward vs fs.reverse → faceDir M id r f = .ok 0 ∧ mrUsesFace M id r f = .ok true) ∧
    (¬ Outward vs fs → ¬ Outward vs fs.reverse →
      faceDir M id r f = .ok (-1) ∧ mrUsesFace M id r f = .ok false)
  side : ∀ id f fs, k.face f = true → k.fverts f = some fs → 2 ≤ fs.length → fs.length ≤ 30 →
    -- the regions with all vertices of the face are standard elements
    (∀ r, k.alive r = true → (∀ v ∈ fs, k.Has r v) → ∃ vs, k.Standard r vs ∧ IdsDiffer id (vs ++ fs)) →
    -- and there are at most two
    (∀ r s t, (∀ x ∈ [r, s, t], k.alive x = true ∧ ∀ v ∈ fs, k.Has x v) → r = s ∨ r = t ∨ s = t) →
    ∀ side : Bool, ∃ o, mfRegion M id f side = .ok o ∧
      (∀ r, o = some r → k.alive r = true ∧ ∃ vs, k.verts r = some vs ∧
        Outward vs (if side then fs.reverse else fs)) ∧
      (o = none → ∀ r, k.alive r = true → ∀ vs, k.verts r = some vs →
        ¬ Outward vs (if side then fs.reverse else fs))

/-! ### helpers -/

theorem deref_live {s : Stat} (h : s = .live) : deref s = .ok () := by
  unfold deref; rw [if_pos (Or.inl h)]

theorem deref_ok {s : Stat} (h : s = .live ∨ s = .kept) : deref s = .ok () := by
  unfold deref; rw [if_pos h]

theorem derefF_live {s : Stat} (h : s = .live) : derefF s = .ok () := by
  unfold derefF; rw [if_pos h]

theorem addTo_ok {sv : Nat → Stat} {r : Nat} : ∀ (vs : List Nat) (ve : Nat → List Nat),
    (∀ v ∈ vs, sv v = .live) → (∀ v, (ve v).Nodup) → ∃ ve', addTo sv r vs ve = .ok ve' ∧
      (∀ v, (ve' v).Nodup) ∧ ∀ v x, x ∈ ve' v ↔ x ∈ ve v ∨ (x = r ∧ v ∈ vs) := by
  intro vs
  induction vs with
  | nil => intro ve _ hn; exact ⟨ve, rfl, hn, by simp⟩
  | cons d vs ih =>
    intro ve h hn
    obtain ⟨ve', h1, h2, h3⟩ := ih (upd ve d (if r ∈ ve d then ve d else ve d ++ [r]))
      (fun e he => h e (List.mem_cons_of_mem _ he)) (by
        intro v
        by_cases hv : v = d
        · subst hv; rw [upd_same]
          split
          · exact hn v
          · rename_i hx
            exact List.nodup_append.2 ⟨hn v, by simp, by
              intro a ha b hb
              rw [List.mem_singleton.1 hb]
              intro hab
              exact hx (hab ▸ ha)⟩
        · rw [upd_ne _ _ hv]; exact hn v)
    refine ⟨ve', ?_, h2, ?_⟩
    · unfold addTo
      rw [deref_live (h d (List.mem_cons_self ..)), Res.bind_ok]
      exact h1
    · intro v x
      rw [h3]
      by_cases hv : v = d
      · subst hv
        rw [upd_same]
        split
        · rename_i hr
          constructor
          · rintro (h | ⟨h1, h2⟩)
            · exact Or.inl h
            · exact Or.inr ⟨h1, List.mem_cons_of_mem _ h2⟩
          · rintro (h | ⟨h1, h2⟩)
            · exact Or.inl h
            · exact Or.inl (h1 ▸ hr)
        · rw [List.mem_append, List.mem_singleton]
          constructor
          · rintro ((h | h) | ⟨h1, h2⟩)
            · exact Or.inl h
            · exact Or.inr ⟨h, List.mem_cons_self ..⟩
            · exact Or.inr ⟨h1, List.mem_cons_of_mem _ h2⟩
          · rintro (h | ⟨h1, h2⟩)
            · exact Or.inl (Or.inl h)
            · exact Or.inl (Or.inr h1)
      · rw [upd_ne _ _ hv]
        simp [hv]

theorem remFrom_ok {sv : Nat → Stat} {r : Nat} : ∀ (vs : List Nat) (ve : Nat → List Nat),
    (∀ v ∈ vs, sv v = .live) → (∀ v, (ve v).Nodup) → ∃ ve', remFrom sv r vs ve = .ok ve' ∧
      (∀ v, (ve' v).Nodup) ∧ ∀ v x, x ∈ ve' v ↔ x ∈ ve v ∧ ¬ (x = r ∧ v ∈ vs) := by
  intro vs
  induction vs with
  | nil => intro ve _ hn; exact ⟨ve, rfl, hn, by simp⟩
  | cons d vs ih =>
    intro ve h hn
    obtain ⟨ve', h1, h2, h3⟩ := ih (upd ve d ((ve d).erase r)) (fun e he => h e (List.mem_cons_of_mem _ he)) (by
      intro e
      by_cases he : e = d
      · subst he; rw [upd_same]; exact (hn e).erase _
      · rw [upd_ne _ _ he]; exact hn e)
    refine ⟨ve', ?_, h2, ?_⟩
    · unfold remFrom
      rw [deref_live (h d (List.mem_cons_self ..)), Res.bind_ok]
      exact h1
    · intro e y
      rw [h3]
      by_cases he : e = d
      · subst he
        rw [upd_same, (hn e).mem_erase_iff]
        simp only [List.mem_cons, true_or, and_true]
        constructor
        · rintro ⟨⟨h1, h2⟩, _⟩; exact ⟨h2, h1⟩
        · rintro ⟨h1, h2⟩; exact ⟨⟨h2, h1⟩, fun h => h2 h.1⟩
      · rw [upd_ne _ _ he]
        simp [he]

/-! ### the invariant -/

structure Inv (M : Mesh1) (k : Known) : Prop where
  sv : ∀ v, M.sv v = if k.vert v then .live else .unused
  sf : ∀ f, M.sf f = if k.face f then .live else .unused
  sr : ∀ r, M.sr r = if k.used r then (if k.alive r then .live else .kept) else .unused
  unused : ∀ r, k.used r = false → k.alive r = false ∧ k.verts r = none ∧ k.rows r = none
  noface : ∀ f, k.face f = false → k.fverts f = none
  fv : ∀ f, M.fv f = k.fverts f
  rv : ∀ r, M.rv r = k.verts r
  tm : ∀ r, M.tm r = k.rows r
  norows : ∀ r, k.verts r = none → k.rows r = none
  size : ∀ r vs, k.verts r = some vs → k.rows r = none → vs.length ∈ [4, 5, 6, 8]
  has : ∀ r v, k.Has r v → k.vert v = true
  fhas : ∀ f vs, k.fverts f = some vs → ∀ v ∈ vs, k.vert v = true
  ve : ∀ v r, r ∈ M.ve v ↔ k.alive r = true ∧ k.Has r v
  nodup : ∀ v, (M.ve v).Nodup

theorem inv_empty : Inv empty nothing := by
  constructor <;> simp [empty, nothing, Known.Has]

theorem Inv.live {M : Mesh1} {k : Known} (h : Inv M k) {r : Nat} (ha : k.alive r = true) : M.sr r = .live := by
  rw [h.sr]
  cases hu : k.used r with
  | false => rw [(h.unused r hu).1] at ha; cases ha
  | true => rw [ha]; rfl

theorem Inv.used {M : Mesh1} {k : Known} (h : Inv M k) {r : Nat} (ha : k.alive r = true) : k.used r = true := by
  cases hu : k.used r with
  | false => rw [(h.unused r hu).1] at ha; cases ha
  | true => rfl

theorem Inv.there {M : Mesh1} {k : Known} (h : Inv M k) {r : Nat} (hu : k.used r = true) :
    deref (M.sr r) = .ok () := by
  apply deref_ok
  rw [h.sr, hu]
  cases k.alive r
  · right; rfl
  · left; rfl

theorem Inv.vlive {M : Mesh1} {k : Known} (h : Inv M k) {v : Nat} (hv : k.vert v = true) : M.sv v = .live := by
  rw [h.sv, hv]; rfl

theorem Inv.flive {M : Mesh1} {k : Known} (h : Inv M k) {f : Nat} (hf : k.face f = true) : M.sf f = .live := by
  rw [h.sf, hf]; rfl

theorem upd_apply' {α : Type} (g : Nat → α) (a : Nat) (x : α) (y : Nat) :
    upd g a x y = if y = a then x else g y := by
  by_cases h : y = a
  · subst h; rw [upd_same, if_pos rfl]
  · rw [upd_ne _ _ h, if_neg h]

theorem type_ok {n : Nat} (h : n ∈ [4, 5, 6, 8]) : ∃ t, Tmpl.setVerticesType n = .ok t := by
  simp only [List.mem_cons, List.not_mem_nil, or_false] at h
  rcases h with rfl | rfl | rfl | rfl <;> exact ⟨_, rfl⟩

theorem set_inv {M : Mesh1} {k : Known} (h : Inv M k) {r : Nat} {vs : List Nat} {rows : List (List Nat)}
    (ha : k.alive r = true) (hn : k.verts r = none) (hv : ∀ v ∈ vs, k.vert v = true)
    (hs : rows ≠ [] ∨ vs.length ∈ [4, 5, 6, 8]) {ve' : Nat → List Nat} (h2 : ∀ v, (ve' v).Nodup)
    (h3 : ∀ v x, x ∈ ve' v ↔ x ∈ M.ve v ∨ (x = r ∧ v ∈ vs)) {t : Nat → MRType}
    {tm : Nat → Option (List (List Nat))}
    (htm : ∀ x, tm x = upd k.rows r (if rows = [] then none else some rows) x) :
    Inv { M with ve := ve', rv := upd M.rv r (some vs), tm := tm, rt := t } (note k (.setR r vs rows)) := by
  have hu := h.used ha
  refine ⟨h.sv, h.sf, h.sr, ?_, h.noface, h.fv, ?_, ?_, ?_, ?_, ?_, h.fhas, ?_, h2⟩
  · intro x hx
    have hxr : x ≠ r := by rintro rfl; rw [show k.used x = false from hx] at hu; cases hu
    obtain ⟨a, b, c⟩ := h.unused x hx
    refine ⟨a, ?_, ?_⟩
    · show upd k.verts r _ x = none; rw [upd_ne _ _ hxr]; exact b
    · show upd k.rows r _ x = none; rw [upd_ne _ _ hxr]; exact c
  · intro x
    show upd M.rv r _ x = upd k.verts r _ x
    rw [upd_apply', upd_apply', h.rv]
  · exact htm
  · intro x hx
    have hxr : x ≠ r := by
      rintro rfl
      rw [show (note k (.setR x vs rows)).verts x = some vs from upd_same ..] at hx; cases hx
    show upd k.rows r _ x = none
    rw [upd_ne _ _ hxr]
    apply h.norows
    rw [← show upd k.verts r (some vs) x = k.verts x from upd_ne _ _ hxr]; exact hx
  · intro x ws hx hr
    by_cases hxr : x = r
    · subst hxr
      rw [show (note k (.setR x vs rows)).verts x = some vs from upd_same ..] at hx
      rw [show (note k (.setR x vs rows)).rows x = if rows = [] then none else some rows from upd_same ..] at hr
      cases hx
      rcases hs with hs | hs
      · rw [if_neg hs] at hr; cases hr
      · exact hs
    · rw [show (note k (.setR r vs rows)).verts x = k.verts x from upd_ne _ _ hxr] at hx
      rw [show (note k (.setR r vs rows)).rows x = k.rows x from upd_ne _ _ hxr] at hr
      exact h.size x ws hx hr
  · rintro x v ⟨ws, hw, hvw⟩
    by_cases hxr : x = r
    · subst hxr
      rw [show (note k (.setR x vs rows)).verts x = some vs from upd_same ..] at hw
      cases hw
      exact hv v hvw
    · rw [show (note k (.setR r vs rows)).verts x = k.verts x from upd_ne _ _ hxr] at hw
      exact h.has x v ⟨ws, hw, hvw⟩
  · intro v x
    show x ∈ ve' v ↔ k.alive x = true ∧ (note k (.setR r vs rows)).Has x v
    rw [h3, h.ve]
    unfold Known.Has
    by_cases hxr : x = r
    · subst hxr
      rw [show (note k (.setR x vs rows)).verts x = some vs from upd_same ..]
      simp [ha, hn]
    · rw [show (note k (.setR r vs rows)).verts x = k.verts x from upd_ne _ _ hxr]
      simp [hxr]

theorem step_inv {M : Mesh1} {k : Known} (h : Inv M k) {o : Op} (hl : o.legal k) :
    ∃ M', step M o = .ok M' ∧ Inv M' (note k o) := by
  cases o with
  | newV v =>
    have hv : k.vert v = false := hl
    refine ⟨_, rfl, ?_, h.sf, h.sr, h.unused, h.noface, h.fv, h.rv, h.tm, h.norows, h.size, ?_, ?_, ?_, ?_⟩
    · intro x
      show upd M.sv v .live x = if upd k.vert v true x then _ else _
      rw [upd_apply', upd_apply', h.sv]
      by_cases hx : x = v
      · rw [if_pos hx, if_pos hx]; rfl
      · rw [if_neg hx, if_neg hx]
    · intro r x hx
      show upd k.vert v true x = true
      rw [upd_apply']
      split
      · rfl
      · exact h.has r x hx
    · intro f ws hw x hx
      show upd k.vert v true x = true
      rw [upd_apply']
      split
      · rfl
      · exact h.fhas f ws hw x hx
    · intro x r
      show r ∈ upd M.ve v [] x ↔ k.alive r = true ∧ k.Has r x
      by_cases hx : x = v
      · subst hx
        rw [upd_same]
        constructor
        · intro hh; cases hh
        · rintro ⟨_, hh⟩
          rw [h.has r x hh] at hv; cases hv
      · rw [upd_ne _ _ hx]; exact h.ve x r
    · intro x
      show (upd M.ve v [] x).Nodup
      rw [upd_apply']
      split
      · exact List.nodup_nil
      · exact h.nodup x
  | newF f =>
    have hf : k.face f = false := hl
    refine ⟨_, rfl, h.sv, ?_, h.sr, h.unused, ?_, ?_, h.rv, h.tm, h.norows, h.size, h.has, h.fhas, h.ve, h.nodup⟩
    · intro x
      show upd M.sf f .live x = if upd k.face f true x then _ else _
      rw [upd_apply', upd_apply', h.sf]
      by_cases hx : x = f
      · rw [if_pos hx, if_pos hx]; rfl
      · rw [if_neg hx, if_neg hx]
    · intro x hx
      have hxf : x ≠ f := by
        rintro rfl
        rw [show (note k (.newF x)).face x = true from upd_same ..] at hx; cases hx
      rw [show (note k (.newF f)).face x = k.face x from upd_ne _ _ hxf] at hx
      exact h.noface x hx
    · intro x
      show upd M.fv f none x = k.fverts x
      rw [upd_apply']
      split
      · rename_i hx; rw [hx, h.noface f hf]
      · exact h.fv x
  | setF f vs =>
    obtain ⟨hf, hv⟩ := hl
    have hrun : step M (.setF f vs) = .ok { M with fv := upd M.fv f (some vs) } := by
      show setFaceVertices M f vs = _
      unfold setFaceVertices
      rw [derefF_live (h.flive hf), Res.bind_ok]; rfl
    refine ⟨_, hrun, h.sv, h.sf, h.sr, h.unused, ?_, ?_, h.rv, h.tm, h.norows, h.size, h.has, ?_, h.ve, h.nodup⟩
    · intro x hx
      have hxf : x ≠ f := by rintro rfl; rw [show k.face x = false from hx] at hf; cases hf
      show upd k.fverts f _ x = none
      rw [upd_ne _ _ hxf]; exact h.noface x hx
    · intro x
      show upd M.fv f _ x = upd k.fverts f _ x
      rw [upd_apply', upd_apply', h.fv]
    · intro x ws hx
      by_cases hxf : x = f
      · subst hxf
        rw [show (note k (.setF x vs)).fverts x = some vs from upd_same ..] at hx
        cases hx; exact hv
      · rw [show (note k (.setF f vs)).fverts x = k.fverts x from upd_ne _ _ hxf] at hx
        exact h.fhas x ws hx
  | newR r =>
    have hr : k.used r = false := hl
    obtain ⟨h1, h2, h3⟩ := h.unused r hr
    refine ⟨_, rfl, h.sv, h.sf, ?_, ?_, h.noface, h.fv, ?_, ?_, h.norows, h.size, h.has, h.fhas, ?_, h.nodup⟩
    · intro x
      show upd M.sr r .live x = if upd k.used r true x then (if upd k.alive r true x then _ else _) else _
      rw [upd_apply', upd_apply', upd_apply', h.sr]
      by_cases hx : x = r
      · rw [if_pos hx, if_pos hx, if_pos hx]; rfl
      · rw [if_neg hx, if_neg hx, if_neg hx]
    · intro x hx
      have hxr : x ≠ r := by
        rintro rfl
        rw [show (note k (.newR x)).used x = true from upd_same ..] at hx; cases hx
      rw [show (note k (.newR r)).used x = k.used x from upd_ne _ _ hxr] at hx
      refine ⟨?_, (h.unused x hx).2⟩
      show upd k.alive r true x = false
      rw [upd_ne _ _ hxr]; exact (h.unused x hx).1
    · intro x
      show upd M.rv r none x = k.verts x
      rw [upd_apply']
      split
      · rename_i hx; rw [hx, h2]
      · exact h.rv x
    · intro x
      show upd M.tm r none x = k.rows x
      rw [upd_apply']
      split
      · rename_i hx; rw [hx, h3]
      · exact h.tm x
    · intro v x
      show x ∈ M.ve v ↔ upd k.alive r true x = true ∧ k.Has x v
      rw [h.ve]
      by_cases hx : x = r
      · subst hx
        constructor
        · rintro ⟨a, _⟩; rw [h1] at a; cases a
        · rintro ⟨_, ws, hw, _⟩; rw [h2] at hw; cases hw
      · rw [upd_ne _ _ hx]
  | setR r vs rows =>
    obtain ⟨ha, hn, hv, hs⟩ := hl
    obtain ⟨ve', h1, h2, h3⟩ := addTo_ok (sv := M.sv) (r := r) vs M.ve (fun v hv' => h.vlive (hv v hv')) h.nodup
    by_cases hrows : rows = []
    · have hs' : vs.length ∈ [4, 5, 6, 8] := by
        rcases hs with hs | hs
        · exact absurd hrows hs
        · exact hs
      obtain ⟨t, ht⟩ := type_ok hs'
      have htm : ∀ x, M.tm x = upd k.rows r (if rows = [] then none else some rows) x := by
        intro x
        rw [if_pos hrows, upd_apply', h.tm]
        split
        · rename_i hx; rw [hx]; exact h.norows r hn
        · rfl
      refine ⟨_, ?_, set_inv h ha hn hv hs h2 h3 (t := upd M.rt r t.1) (tm := M.tm) htm⟩
      · show setVertices M r vs rows = _
        unfold setVertices
        rw [deref_live (h.live ha), Res.bind_ok, h1, Res.bind_ok, if_neg (by simp [hrows]), ht, Res.bind_ok]
        rfl
    · have htm : ∀ x, upd M.tm r (some rows) x = upd k.rows r (if rows = [] then none else some rows) x := by
        intro x
        rw [if_neg hrows, upd_apply', upd_apply', h.tm]
      refine ⟨_, ?_, set_inv h ha hn hv hs h2 h3 (t := upd M.rt r (typeOfRows rows))
        (tm := upd M.tm r (some rows)) htm⟩
      · show setVertices M r vs rows = _
        unfold setVertices
        rw [deref_live (h.live ha), Res.bind_ok, h1, Res.bind_ok, if_pos hrows]
        rfl
  | delR r =>
    have ha : k.alive r = true := hl
    have hu := h.used ha
    have hsome : ∀ v, v ∈ (M.rv r).getD [] ↔ k.Has r v := by
      intro v
      rw [h.rv]
      unfold Known.Has
      cases k.verts r <;> simp
    obtain ⟨ve', h1, h2, h3⟩ := remFrom_ok (sv := M.sv) (r := r) ((M.rv r).getD []) M.ve
      (fun v hv => h.vlive (h.has r v ((hsome v).1 hv))) h.nodup
    have hrun : step M (.delR r) = .ok { M with sr := upd M.sr r .kept, ve := ve' } := by
      show delRegion M r true = _
      unfold delRegion withdraw
      rw [deref_live (h.live ha), Res.bind_ok, if_pos (h.live ha), h1, Res.bind_ok]
      rfl
    refine ⟨_, hrun, h.sv, h.sf, ?_, ?_, h.noface, h.fv, h.rv, h.tm, h.norows, h.size, h.has, h.fhas, ?_, h2⟩
    · intro x
      show upd M.sr r .kept x = if k.used x then (if upd k.alive r false x then _ else _) else _
      rw [upd_apply', upd_apply', h.sr]
      by_cases hx : x = r
      · rw [if_pos hx, if_pos hx, hx, hu]; rfl
      · rw [if_neg hx, if_neg hx]
    · intro x hx
      refine ⟨?_, (h.unused x hx).2⟩
      show upd k.alive r false x = false
      rw [upd_apply']
      split
      · rfl
      · exact (h.unused x hx).1
    · intro v x
      show x ∈ ve' v ↔ upd k.alive r false x = true ∧ k.Has x v
      rw [h3, h.ve, hsome]
      by_cases hx : x = r
      · subst hx
        rw [upd_same]
        constructor
        · rintro ⟨⟨_, a⟩, b⟩; exact absurd ⟨rfl, a⟩ b
        · rintro ⟨a, _⟩; cases a
      · rw [upd_ne _ _ hx]
        simp [hx]
  | resR r =>
    obtain ⟨hu, ha, hne⟩ := hl
    obtain ⟨vs, hvs⟩ := Option.ne_none_iff_exists'.1 hne
    obtain ⟨ve', h1, h2, h3⟩ := addTo_ok (sv := M.sv) (r := r) vs M.ve
      (fun v hv => h.vlive (h.has r v ⟨vs, hvs, hv⟩)) h.nodup
    have hrun : step M (.resR r) = .ok { M with sr := upd M.sr r .live, ve := ve' } := by
      show restoreRegion M r = _
      unfold restoreRegion
      rw [h.there hu, Res.bind_ok, h.rv, hvs, Res.ofOption_some, Res.bind_ok, h1, Res.bind_ok]
      rfl
    refine ⟨_, hrun, h.sv, h.sf, ?_, ?_, h.noface, h.fv, h.rv, h.tm, h.norows, h.size, h.has, h.fhas, ?_, h2⟩
    · intro x
      show upd M.sr r .live x = if k.used x then (if upd k.alive r true x then _ else _) else _
      rw [upd_apply', upd_apply', h.sr]
      by_cases hx : x = r
      · rw [if_pos hx, if_pos hx, hx, hu]; rfl
      · rw [if_neg hx, if_neg hx]
    · intro x hx
      have hxr : x ≠ r := by rintro rfl; rw [show k.used x = false from hx] at hu; cases hu
      refine ⟨?_, (h.unused x hx).2⟩
      show upd k.alive r true x = false
      rw [upd_ne _ _ hxr]; exact (h.unused x hx).1
    · intro v x
      show x ∈ ve' v ↔ upd k.alive r true x = true ∧ k.Has x v
      rw [h3, h.ve]
      by_cases hx : x = r
      · subst hx
        rw [upd_same]
        unfold Known.Has
        simp [ha, hvs]
      · rw [upd_ne _ _ hx]
        simp [hx]

theorem run_inv : ∀ (os : List Op) {M : Mesh1} {k : Known}, Inv M k → Legal k os →
    ∃ M', run M os = .ok M' ∧ Inv M' (os.foldl note k) := by
  intro os
  induction os with
  | nil => intro M k h _; exact ⟨M, rfl, h⟩
  | cons o os ih =>
    intro M k h hl
    obtain ⟨M', h1, h2⟩ := step_inv h hl.1
    obtain ⟨M'', h3, h4⟩ := ih h2 hl.2
    refine ⟨M'', ?_, h4⟩
    show (do run (← step M o) os) = _
    rw [h1, Res.bind_ok]; exact h3

/-! ### the regions of a vertex -/

theorem regionsIn_ok {M : Mesh1} : ∀ (rs : List Nat), (∀ r ∈ rs, M.sr r = .live) →
    regionsIn M rs = .ok rs ∧ countIn M rs = .ok rs.length := by
  intro rs
  induction rs with
  | nil => intro _; exact ⟨rfl, rfl⟩
  | cons r rs ih =>
    intro h
    obtain ⟨h1, h2⟩ := ih fun x hx => h x (List.mem_cons_of_mem _ hx)
    have hr := h r (List.mem_cons_self ..)
    constructor
    · unfold regionsIn
      rw [deref_live hr, Res.bind_ok, h1, Res.bind_ok, if_pos hr]; rfl
    · unfold countIn
      rw [deref_live hr, Res.bind_ok, h2, Res.bind_ok, if_pos hr]; rfl

theorem null_eq (l : List Nat) : (if l.length ≠ 0 then some l else none) = listOrNull l := by
  unfold listOrNull
  cases l <;> simp

theorem mvRegions_ok {M : Mesh1} {k : Known} (h : Inv M k) {v : Nat} (hv : k.vert v = true) :
    mvRegions M v = .ok (listOrNull (M.ve v)) ∧ mvNumRegions M v = .ok (M.ve v).length := by
  have hl : ∀ r ∈ M.ve v, M.sr r = .live := fun r hr => h.live ((h.ve v r).1 hr).1
  obtain ⟨h1, h2⟩ := regionsIn_ok _ hl
  constructor
  · unfold mvRegions
    rw [deref_live (h.vlive hv), Res.bind_ok, h1, Res.bind_ok, null_eq]; rfl
  · unfold mvNumRegions
    rw [deref_live (h.vlive hv), Res.bind_ok, h2]

theorem mrVertices_ok {M : Mesh1} {k : Known} (h : Inv M k) {r : Nat} {vs : List Nat}
    (hu : k.used r = true) (hv : k.verts r = some vs) : mrVertices M r = .ok vs := by
  unfold mrVertices
  rw [h.there hu, Res.bind_ok, h.rv, hv, Res.ofOption_some]

/-! ### the vertices of a face -/

theorem entries_ok {l : List Nat} : ∀ (ks : List Nat), (∀ k ∈ ks, k < l.length) →
    ∃ xs, entries l ks = .ok xs ∧ xs.length = ks.length ∧ ∀ i : Nat, xs[i]? = (ks[i]?).bind fun (k : Nat) => l[k]? := by
  intro ks
  induction ks with
  | nil => intro _; exact ⟨[], rfl, rfl, by simp⟩
  | cons k ks ih =>
    intro h
    obtain ⟨xs, h1, h2, h3⟩ := ih fun x hx => h x (List.mem_cons_of_mem _ hx)
    have hk := h k (List.mem_cons_self ..)
    refine ⟨l[k] :: xs, ?_, by simp [h2], ?_⟩
    · unfold entries
      rw [List.getElem?_eq_getElem hk, Res.ofOption_some, Res.bind_ok, h1]; rfl
    · intro i
      cases i with
      | zero => simp [List.getElem?_eq_getElem hk]
      | succ i => simpa using h3 i

theorem place_spec (v : Nat) : ∀ (l : List Nat),
    (place v l = none ↔ v ∉ l) ∧ ∀ k, place v l = some k → l[k]? = some v := by
  intro l
  induction l with
  | nil => simp [place]
  | cons x xs ih =>
    unfold place
    by_cases hx : x = v
    · rw [if_pos hx]
      refine ⟨by simp [hx], ?_⟩
      intro k hk; cases hk; simp [hx]
    · rw [if_neg hx]
      refine ⟨?_, ?_⟩
      · rw [Option.map_eq_none_iff, ih.1, List.mem_cons, not_or]
        exact ⟨fun h => ⟨fun e => hx e.symm, h⟩, fun h => h.2⟩
      · intro k hk
        rw [Option.map_eq_some_iff] at hk
        obtain ⟨j, hj, rfl⟩ := hk
        simpa using ih.2 j hj

/-- going through a list from place `k` on is a rotation -/
theorem rotate_of {α : Type} {l m : List α} {k : Nat} (hlen : m.length = l.length)
    (h : ∀ j < l.length, m[j]? = l[(k + j) % l.length]?) : m = l.rotate k := by
  apply List.ext_getElem?
  intro j
  by_cases hj : j < l.length
  · rw [h j hj, List.getElem?_rotate hj, Nat.add_comm]
  · rw [List.getElem?_eq_none (by omega), List.getElem?_eq_none (by rw [List.length_rotate]; omega)]

/-- going through a list backwards from place `k` on -/
theorem reverse_of {α : Type} {l m : List α} {k : Nat} (hlen : m.length = l.length)
    (h : ∀ j < l.length, m[j]? = l[(k + l.length - j) % l.length]?) : m.reverse = l.rotate (k + 1) := by
  apply rotate_of (by rw [List.length_reverse, hlen])
  intro j hj
  rw [List.getElem?_reverse (by omega), hlen, h _ (by omega)]
  congr 1
  congr 1
  omega

theorem rotated_reverse {α : Type} {l m : List α} {k : Nat} (h : m.reverse = l.rotate k) : m ~r l.reverse := by
  have h1 : m.reverse ~r l := (List.IsRotated.symm ⟨k, h.symm⟩)
  have := h1.reverse
  rwa [List.reverse_reverse] at this

theorem mfVertices_ok {M : Mesh1} {k : Known} (h : Inv M k) {f : Nat} {vs : List Nat}
    (hf : k.face f = true) (hv : k.fverts f = some vs) :
    mfVertices M f true none = .ok (some vs) ∧
    mfVertices M f false none = .ok (some vs.reverse) ∧
    (∀ dir v, v ∉ vs → mfVertices M f dir (some v) = .ok none) ∧
    ∀ dir, ∀ v ∈ vs, ∃ l, mfVertices M f dir (some v) = .ok (some l) ∧ l.head? = some v ∧
      l ~r if dir then vs else vs.reverse := by
  have hd := derefF_live (h.flive hf)
  have hfv : Res.ofOption (M.fv f) = .ok vs := by rw [h.fv, hv, Res.ofOption_some]
  refine ⟨?_, ?_, ?_, ?_⟩
  · unfold mfVertices
    rw [hd, Res.bind_ok, hfv, Res.bind_ok]; rfl
  · unfold mfVertices
    rw [hd, Res.bind_ok, hfv, Res.bind_ok]
    obtain ⟨xs, h1, h2, h3⟩ := entries_ok (l := vs) (List.range vs.length).reverse (by
      intro x hx; rw [List.mem_reverse, List.mem_range] at hx; exact hx)
    dsimp only
    rw [if_neg Bool.false_ne_true, h1, Res.bind_ok]
    have : xs = vs.reverse := by
      apply List.ext_getElem?
      intro i
      rw [h3]
      by_cases hi : i < vs.length
      · rw [List.getElem?_reverse (by rw [List.length_range]; exact hi), List.length_range,
          List.getElem?_range (by omega), List.getElem?_reverse hi]
        rfl
      · rw [List.getElem?_eq_none (by rw [List.length_reverse, List.length_range]; omega),
          List.getElem?_eq_none (by rw [List.length_reverse]; omega)]
        rfl
    rw [this]; rfl
  · intro dir v hn
    unfold mfVertices
    rw [hd, Res.bind_ok, hfv, Res.bind_ok]
    dsimp only
    rw [(place_spec v vs).1.2 hn]; rfl
  · intro dir v hin
    unfold mfVertices
    rw [hd, Res.bind_ok, hfv, Res.bind_ok]
    dsimp only
    cases hp : place v vs with
    | none => exact absurd hin ((place_spec v vs).1.1 hp)
    | some i =>
      have hi := (place_spec v vs).2 i hp
      have hlt : i < vs.length := (List.getElem?_eq_some_iff.1 hi).1
      have hpos : 0 < vs.length := by omega
      dsimp only
      obtain ⟨xs, h1, h2, h3⟩ := entries_ok (l := vs) ((List.range vs.length).map fun j =>
        if dir then (i + j) % vs.length else (i + vs.length - j) % vs.length) (by
          intro x hx
          rw [List.mem_map] at hx
          obtain ⟨j, _, rfl⟩ := hx
          split <;> exact Nat.mod_lt _ hpos)
      have hx : ∀ j < vs.length, xs[j]? =
          vs[if dir then (i + j) % vs.length else (i + vs.length - j) % vs.length]? := by
        intro j hj
        rw [h3, List.getElem?_map, List.getElem?_range hj]; rfl
      rw [List.length_map, List.length_range] at h2
      rw [h1, Res.bind_ok]
      refine ⟨xs, rfl, ?_, ?_⟩
      · rw [List.head?_eq_getElem?, hx 0 hpos, ← hi]
        congr 1
        split
        · exact Nat.mod_eq_of_lt hlt
        · rw [Nat.sub_zero, Nat.add_mod_right]; exact Nat.mod_eq_of_lt hlt
      · cases dir with
        | true => exact List.IsRotated.symm ⟨i, (rotate_of h2 hx).symm⟩
        | false => exact rotated_reverse (reverse_of h2 hx)

/-! ### the regions of a face -/

theorem facing_ok {M : Mesh1} {k : Known} (h : Inv M k) {rest : List Nat} (hrest : rest ≠ []) :
    ∀ (rs : List Nat) (fnd : Bool) (acc : List Nat), rs.Nodup → acc.Nodup → acc.length ≤ 2 →
    (∀ r ∈ rs, r ∉ acc) → (∀ r ∈ rs, k.alive r = true ∧ k.verts r ≠ none) →
    ∃ l, facing M rest rs fnd acc = .ok l ∧ l.Nodup ∧ l.length ≤ 2 ∧
      (∀ r ∈ l, r ∈ acc ∨ (r ∈ rs ∧ ∀ v ∈ rest, k.Has r v)) ∧ (∀ r ∈ acc, r ∈ l) ∧
      (l.length < 2 → ∀ r ∈ rs, (∀ v ∈ rest, k.Has r v) → r ∈ l) := by
  intro rs
  induction rs with
  | nil =>
    intro fnd acc _ ha hl _ _
    exact ⟨acc, rfl, ha, hl, fun r hr => Or.inl hr, fun r hr => hr, fun _ r hr => by cases hr⟩
  | cons r rs ih =>
    intro fnd acc hn ha hl hd hk
    unfold facing
    by_cases hlt : acc.length < 2
    · rw [if_pos hlt]
      obtain ⟨hal, hne⟩ := hk r (List.mem_cons_self ..)
      obtain ⟨vs, hvs⟩ := Option.ne_none_iff_exists'.1 hne
      rw [mrVertices_ok h (h.used hal) hvs, Res.bind_ok]
      dsimp only
      rw [if_neg hrest]
      have hall : (rest.all (· ∈ vs)) = true ↔ ∀ v ∈ rest, k.Has r v := by
        rw [List.all_eq_true]
        constructor
        · intro hh v hv; exact ⟨vs, hvs, of_decide_eq_true (hh v hv)⟩
        · intro hh v hv
          obtain ⟨ws, hw, hvw⟩ := hh v hv
          rw [hvs] at hw; cases hw
          exact decide_eq_true hvw
      have hrn : r ∉ rs := (List.nodup_cons.1 hn).1
      by_cases hc : (rest.all (· ∈ vs)) = true
      · rw [if_pos hc]
        obtain ⟨l, h1, h2, h3, h4, h5, h6⟩ := ih (rest.all (· ∈ vs)) (acc ++ [r]) (List.nodup_cons.1 hn).2
          (List.nodup_append.2 ⟨ha, by simp, by
            intro a ha' b hb
            rw [List.mem_singleton.1 hb]
            intro hab
            exact hd r (List.mem_cons_self ..) (hab ▸ ha')⟩)
          (by rw [List.length_append, List.length_singleton]; omega)
          (by
            intro x hx hxa
            rcases List.mem_append.1 hxa with hxa | hxa
            · exact hd x (List.mem_cons_of_mem _ hx) hxa
            · rw [List.mem_singleton.1 hxa] at hx; exact hrn hx)
          (fun x hx => hk x (List.mem_cons_of_mem _ hx))
        refine ⟨l, h1, h2, h3, ?_, fun x hx => h5 x (List.mem_append_left _ hx), ?_⟩
        · intro x hx
          rcases h4 x hx with hx | ⟨hx, hh⟩
          · rcases List.mem_append.1 hx with hx | hx
            · exact Or.inl hx
            · rw [List.mem_singleton.1 hx]
              exact Or.inr ⟨List.mem_cons_self .., hall.1 hc⟩
          · exact Or.inr ⟨List.mem_cons_of_mem _ hx, hh⟩
        · intro hll x hx hh
          rcases List.mem_cons.1 hx with rfl | hx
          · exact h5 x (List.mem_append_right _ (List.mem_singleton.2 rfl))
          · exact h6 hll x hx hh
      · rw [if_neg hc]
        obtain ⟨l, h1, h2, h3, h4, h5, h6⟩ := ih (rest.all (· ∈ vs)) acc (List.nodup_cons.1 hn).2 ha hl
          (fun x hx => hd x (List.mem_cons_of_mem _ hx)) (fun x hx => hk x (List.mem_cons_of_mem _ hx))
        refine ⟨l, h1, h2, h3, ?_, h5, ?_⟩
        · intro x hx
          rcases h4 x hx with hx | ⟨hx, hh⟩
          · exact Or.inl hx
          · exact Or.inr ⟨List.mem_cons_of_mem _ hx, hh⟩
        · intro hll x hx hh
          rcases List.mem_cons.1 hx with rfl | hx
          · exact absurd (hall.2 hh) hc
          · exact h6 hll x hx hh
    · rw [if_neg hlt]
      exact ⟨acc, rfl, ha, hl, fun r hr => Or.inl hr, fun r hr => hr, fun hh => absurd hh hlt⟩

theorem mfRegions_ok {M : Mesh1} {k : Known} (h : Inv M k)
    {f : Nat} {vs : List Nat} (hf : k.face f = true) (hv : k.fverts f = some vs) (h2 : 2 ≤ vs.length) :
    ∃ l, mfRegions M f = .ok (listOrNull l) ∧ l.Nodup ∧ l.length ≤ 2 ∧
      (∀ r ∈ l, k.alive r = true ∧ ∀ v ∈ vs, k.Has r v) ∧
      (l.length < 2 → ∀ r, k.alive r = true → (∀ v ∈ vs, k.Has r v) → r ∈ l) := by
  cases vs with
  | nil => simp at h2
  | cons a rest =>
    have hrest : rest ≠ [] := by rintro rfl; simp at h2
    have hfv : Res.ofOption (M.fv f) = .ok (a :: rest) := by rw [h.fv, hv, Res.ofOption_some]
    obtain ⟨hm, _⟩ := mvRegions_ok h (h.fhas f _ hv a (List.mem_cons_self ..))
    unfold mfRegions
    rw [derefF_live (h.flive hf), Res.bind_ok, hfv, Res.bind_ok]
    rw [show Res.ofOption (a :: rest)[0]? = .ok a from rfl, Res.bind_ok, hm, Res.bind_ok]
    by_cases he : M.ve a = []
    · refine ⟨[], ?_, List.nodup_nil, by simp, (fun r hr => by cases hr), ?_⟩
      · rw [he]; rfl
      · intro _ r hr hh
        have := (h.ve a r).2 ⟨hr, hh a (List.mem_cons_self ..)⟩
        rw [he] at this; exact this
    · obtain ⟨l, h1, h3, h4, h5, _, h6⟩ := facing_ok h hrest (M.ve a) false [] (h.nodup a) List.nodup_nil
        (by simp) (by simp) (by
          intro r hr
          obtain ⟨x, ws, hw, _⟩ := (h.ve a r).1 hr
          exact ⟨x, by rw [hw]; simp⟩)
      refine ⟨l, ?_, h3, h4, ?_, ?_⟩
      · unfold listOrNull
        rw [if_neg he]
        dsimp only
        rw [show (a :: rest).drop 1 = rest from rfl, h1, Res.bind_ok, null_eq]; rfl
      · intro r hr
        rcases h5 r hr with hx | ⟨hx, hh⟩
        · cases hx
        · obtain ⟨h7, h8⟩ := (h.ve a r).1 hx
          refine ⟨h7, ?_⟩
          intro v hv'
          rcases List.mem_cons.1 hv' with rfl | hv'
          · exact h8
          · exact hh v hv'
      · intro hl r hr hh
        exact h6 hl r ((h.ve a r).2 ⟨hr, hh a (List.mem_cons_self ..)⟩) fun v hv' => hh v (List.mem_cons_of_mem _ hv')

/-! ### the direction of a face -/

theorem locate_at {cyc fids : List Int} {m : Nat} {y : Int} {d : Bool} (h0 : cyc[m]? = fids[0]?)
    (h1 : fids[1]? = some y) (ht : d = true → cyc[(m + 1) % cyc.length]? = some y)
    (hf : d = false → cyc[(m + 1) % cyc.length]? ≠ some y ∧
      cyc[(m + cyc.length - 1) % cyc.length]? = some y) : ∀ js : List Nat,
    (∀ j ∈ js, j ≠ m → cyc[j]? ≠ fids[0]?) → m ∈ js → locate cyc fids js = .ok (some (d, m)) := by
  intro js
  induction js with
  | nil => intro _ h; cases h
  | cons j js ih =>
    intro hne hm
    unfold locate
    by_cases hj : j = m
    · subst hj
      rw [if_pos h0, h1, Res.ofOption_some, Res.bind_ok]
      cases d with
      | true => rw [if_pos (ht rfl)]; rfl
      | false => rw [if_neg (hf rfl).1, if_pos (hf rfl).2]; rfl
    · rw [if_neg (hne j (List.mem_cons_self ..) hj)]
      apply ih (fun x hx => hne x (List.mem_cons_of_mem _ hx))
      rcases List.mem_cons.1 hm with hm | hm
      · exact absurd hm.symm hj
      · exact hm

theorem locate_total {cyc fids : List Int} (h : 2 ≤ fids.length) : ∀ js : List Nat,
    ∃ o, locate cyc fids js = .ok o := by
  intro js
  induction js with
  | nil => exact ⟨none, rfl⟩
  | cons j js ih =>
    unfold locate
    rw [List.getElem?_eq_getElem (l := fids) (i := 1) (by omega), Res.ofOption_some]
    split
    · rw [Res.bind_ok]
      split
      · exact ⟨_, rfl⟩
      · split
        · exact ⟨_, rfl⟩
        · exact ih
    · exact ih

theorem sameFrom_iff {cyc fids : List Int} {d : Bool} {m : Nat} : sameFrom cyc fids d m = true ↔
    ∀ j < cyc.length, fids[j]? =
      cyc[if d then (m + j) % cyc.length else (m + cyc.length - j) % cyc.length]? := by
  unfold sameFrom
  rw [List.all_eq_true]
  constructor
  · intro h j hj
    exact (of_decide_eq_true (h j (List.mem_range.2 hj))).symm
  · intro h j hj
    exact decide_eq_true (h j (List.mem_range.1 hj)).symm

theorem inj_at {l : List Int} (h : l.Nodup) {i j : Nat} (hi : i < l.length) (he : l[i]? = l[j]?) : i = j :=
  (List.getElem?_inj hi h).1 he

theorem side_forward {cyc fids : List Int} (hn : cyc.Nodup) (h3 : 3 ≤ cyc.length) (h : fids ~r cyc) :
    sideDir cyc fids = .ok (some true) := by
  obtain ⟨m, hm⟩ := h.symm
  have hpos : 0 < cyc.length := by omega
  have hat : ∀ j < cyc.length, fids[j]? = cyc[(m % cyc.length + j) % cyc.length]? := by
    intro j hj
    rw [← hm, List.getElem?_rotate hj, Nat.mod_add_mod, Nat.add_comm]
  have hlt := Nat.mod_lt m hpos
  generalize m % cyc.length = k at hat hlt
  have h0 : cyc[k]? = fids[0]? := by
    rw [hat 0 hpos, Nat.add_zero, Nat.mod_eq_of_lt hlt]
  have hk1 : (k + 1) % cyc.length < cyc.length := Nat.mod_lt _ hpos
  have hl : locate cyc fids (List.range cyc.length) = .ok (some (true, k)) := by
    refine locate_at h0 (y := cyc[(k + 1) % cyc.length]) ?_ ?_ ?_ _ ?_ (List.mem_range.2 hlt)
    · rw [hat 1 (by omega), List.getElem?_eq_getElem hk1]
    · intro _; rw [List.getElem?_eq_getElem hk1]
    · intro hh; cases hh
    · intro j hj hne he
      rw [← h0] at he
      exact hne (inj_at hn (List.mem_range.1 hj) he)
  unfold sideDir
  rw [hl, Res.bind_ok]
  dsimp only
  rw [if_pos (sameFrom_iff.2 hat)]; rfl

theorem side_backward {cyc fids : List Int} (hn : cyc.Nodup) (h3 : 3 ≤ cyc.length) (h : fids.reverse ~r cyc) :
    sideDir cyc fids = .ok (some false) := by
  obtain ⟨m, hm⟩ := h.symm
  have hpos : 0 < cyc.length := by omega
  have hlen : fids.length = cyc.length := by
    have := congrArg List.length hm
    rw [List.length_rotate, List.length_reverse] at this; omega
  have hat : ∃ k < cyc.length, ∀ j < cyc.length, fids[j]? = cyc[(k + cyc.length - j) % cyc.length]? := by
    have hat' : ∀ j < cyc.length, fids[j]? = cyc[(cyc.length - 1 - j + m % cyc.length) % cyc.length]? := by
      intro j hj
      have h1 : fids[j]? = fids.reverse[cyc.length - 1 - j]? := by
        rw [List.getElem?_reverse (by omega), hlen]
        congr 1; omega
      rw [h1, ← hm, List.getElem?_rotate (by omega), Nat.add_mod_mod]
    have hlt := Nat.mod_lt m hpos
    generalize m % cyc.length = k at hat' hlt
    cases k with
    | zero =>
      refine ⟨cyc.length - 1, by omega, ?_⟩
      intro j hj
      rw [hat' j hj]
      congr 1
      rw [show cyc.length - 1 + cyc.length - j = (cyc.length - 1 - j + 0) + cyc.length by omega,
        Nat.add_mod_right]
    | succ k =>
      refine ⟨k, by omega, ?_⟩
      intro j hj
      rw [hat' j hj]
      congr 2
      omega
  obtain ⟨k, hlt, hat⟩ := hat
  have h0 : cyc[k]? = fids[0]? := by
    rw [hat 0 hpos, Nat.sub_zero, Nat.add_mod_right, Nat.mod_eq_of_lt hlt]
  have hk1 : (k + cyc.length - 1) % cyc.length < cyc.length := Nat.mod_lt _ hpos
  have hl : locate cyc fids (List.range cyc.length) = .ok (some (false, k)) := by
    refine locate_at h0 (y := cyc[(k + cyc.length - 1) % cyc.length]) ?_ ?_ ?_ _ ?_ (List.mem_range.2 hlt)
    · rw [hat 1 (by omega), List.getElem?_eq_getElem hk1]
    · intro hh; cases hh
    · intro _
      rw [← List.getElem?_eq_getElem hk1]
      refine ⟨?_, rfl⟩
      intro he
      have := inj_at hn (Nat.mod_lt _ hpos) he
      by_cases hk : k + 1 = cyc.length
      · rw [hk, Nat.mod_self, show k + cyc.length - 1 = (k - 1) + cyc.length by omega, Nat.add_mod_right,
          Nat.mod_eq_of_lt (by omega)] at this
        omega
      · rw [Nat.mod_eq_of_lt (by omega : k + 1 < cyc.length)] at this
        by_cases hk0 : k = 0
        · subst hk0
          rw [Nat.zero_add, Nat.mod_eq_of_lt (by omega)] at this; omega
        · rw [show k + cyc.length - 1 = (k - 1) + cyc.length by omega, Nat.add_mod_right,
            Nat.mod_eq_of_lt (by omega)] at this
          omega
    · intro j hj hne he
      rw [← h0] at he
      exact hne (inj_at hn (List.mem_range.1 hj) he)
  unfold sideDir
  rw [hl, Res.bind_ok]
  dsimp only
  rw [if_pos (sameFrom_iff.2 hat)]; rfl

theorem side_sound {cyc fids : List Int} (hlen : fids.length = cyc.length) (h3 : 3 ≤ cyc.length) :
    ∃ o, sideDir cyc fids = .ok o ∧ (o = some true → fids ~r cyc) ∧ (o = some false → fids.reverse ~r cyc) := by
  obtain ⟨o, ho⟩ := locate_total (cyc := cyc) (fids := fids) (by omega) (List.range cyc.length)
  unfold sideDir
  rw [ho, Res.bind_ok]
  match o with
  | none => exact ⟨none, rfl, (fun h => by cases h), (fun h => by cases h)⟩
  | some (d, m) =>
    dsimp only
    by_cases hs : sameFrom cyc fids d m = true
    · rw [if_pos hs]
      refine ⟨some d, rfl, ?_, ?_⟩
      · intro hd; cases hd
        exact List.IsRotated.symm ⟨m, (rotate_of hlen (sameFrom_iff.1 hs)).symm⟩
      · intro hd; cases hd
        exact List.IsRotated.symm ⟨m + 1, (reverse_of hlen (sameFrom_iff.1 hs)).symm⟩
    · rw [if_neg hs]
      exact ⟨none, rfl, (fun h => by cases h), (fun h => by cases h)⟩

theorem side_not_both {cyc fids : List Int} (hn : cyc.Nodup) (h3 : 3 ≤ cyc.length) (h : fids ~r cyc)
    (h' : fids.reverse ~r cyc) : False := by
  have h1 := side_forward hn h3 h
  rw [side_backward hn h3 h'] at h1
  cases h1

/-- the loop over the faces of a region: `cyc i` are the IDs of the vertices of face `i` -/
theorem dirLoop_ok {M : Mesh1} {r : Nat} {rids fids : List Int} {w : Nat → List Nat} {cyc : Nat → List Int} :
    ∀ (is : List Nat), (∀ i ∈ is, rowOf M r rids.length i = .ok (true, w i) ∧ cycOf rids (w i) = .ok (cyc i) ∧
      (cyc i).length = (w i).length ∧ 3 ≤ (w i).length ∧ (cyc i).Nodup) →
    ∃ d, dirLoop M r rids fids is = .ok d ∧
      ((d = 1 ∧ ∃ i ∈ is, fids ~r cyc i) ∨ (d = 0 ∧ ∃ i ∈ is, fids.reverse ~r cyc i) ∨
        (d = -1 ∧ ∀ i ∈ is, ¬ fids ~r cyc i ∧ ¬ fids.reverse ~r cyc i)) := by
  intro is
  induction is with
  | nil => intro _; exact ⟨-1, rfl, Or.inr (Or.inr ⟨rfl, fun i hi => by cases hi⟩)⟩
  | cons i is ih =>
    intro h
    obtain ⟨h1, h2, h3, h4, h5⟩ := h i (List.mem_cons_self ..)
    obtain ⟨d, hd, hcase⟩ := ih fun x hx => h x (List.mem_cons_of_mem _ hx)
    -- when this face is not the given face
    have hgo : ¬ fids ~r cyc i → ¬ fids.reverse ~r cyc i →
        (d = 1 ∧ ∃ x ∈ i :: is, fids ~r cyc x) ∨ (d = 0 ∧ ∃ x ∈ i :: is, fids.reverse ~r cyc x) ∨
        (d = -1 ∧ ∀ x ∈ i :: is, ¬ fids ~r cyc x ∧ ¬ fids.reverse ~r cyc x) := by
      intro ha hb
      rcases hcase with ⟨a, x, hx, b⟩ | ⟨a, x, hx, b⟩ | ⟨a, b⟩
      · exact Or.inl ⟨a, x, List.mem_cons_of_mem _ hx, b⟩
      · exact Or.inr (Or.inl ⟨a, x, List.mem_cons_of_mem _ hx, b⟩)
      · refine Or.inr (Or.inr ⟨a, ?_⟩)
        intro x hx
        rcases List.mem_cons.1 hx with rfl | hx
        · exact ⟨ha, hb⟩
        · exact b x hx
    unfold dirLoop
    rw [h1, Res.bind_ok]
    dsimp only
    by_cases hl : fids.length ≠ (w i).length
    · rw [if_pos hl]
      refine ⟨d, hd, hgo ?_ ?_⟩
      · intro hr; exact hl (by rw [hr.perm.length_eq, h3])
      · intro hr
        have := hr.perm.length_eq
        rw [List.length_reverse] at this
        exact hl (by rw [this, h3])
    · rw [if_neg hl, h2, Res.bind_ok]
      have hlen : fids.length = (cyc i).length := by
        have := not_not.1 hl
        omega
      obtain ⟨o, ho, ht, hf⟩ := side_sound hlen (by omega)
      rw [ho, Res.bind_ok]
      match o, ho, ht, hf with
      | none, ho, ht, hf =>
        dsimp only
        refine ⟨d, hd, hgo ?_ ?_⟩
        · intro hr; rw [side_forward h5 (by omega) hr] at ho; cases ho
        · intro hr; rw [side_backward h5 (by omega) hr] at ho; cases ho
      | some true, ho, ht, hf =>
        exact ⟨1, rfl, Or.inl ⟨rfl, i, List.mem_cons_self .., ht rfl⟩⟩
      | some false, ho, ht, hf =>
        exact ⟨0, rfl, Or.inr (Or.inl ⟨rfl, i, List.mem_cons_self .., hf rfl⟩)⟩

theorem rowOf_std {M : Mesh1} {r n : Nat} (htm : M.tm r = none) (hn : n ∈ [4, 5, 6, 8]) :
    ∀ i < (outward n).length, rowOf M r n i = .ok (true, (outward n).getD i []) := by
  unfold rowOf
  rw [htm]
  dsimp only
  simp only [List.mem_cons, List.not_mem_nil, or_false] at hn
  rcases hn with rfl | rfl | rfl | rfl <;> decide

theorem outward_table {n : Nat} (hn : n ∈ [4, 5, 6, 8]) :
    (∀ w ∈ outward n, 3 ≤ w.length ∧ w.Nodup ∧ ∀ i ∈ w, i < n) ∧
    ∀ w ∈ outward n, ∀ w' ∈ outward n, w ≠ w' → ∃ i ∈ w, i ∉ w' := by
  simp only [List.mem_cons, List.not_mem_nil, or_false] at hn
  rcases hn with rfl | rfl | rfl | rfl <;> decide

theorem numFaces_std {M : Mesh1} {k : Known} (h : Inv M k) {r : Nat} {vs : List Nat} (hu : k.used r = true)
    (hs : k.Standard r vs) : mrNumFaces M r = .ok (outward vs.length).length := by
  obtain ⟨h1, h2, _⟩ := hs
  have hn := h.size r vs h1 h2
  unfold mrNumFaces
  rw [h.there hu, Res.bind_ok, h.tm, h2]
  dsimp only
  rw [h.rv, h1, Res.ofOption_some, Res.bind_ok]
  generalize vs.length = n at hn
  simp only [List.mem_cons, List.not_mem_nil, or_false] at hn
  rcases hn with rfl | rfl | rfl | rfl <;> rfl

theorem cycOf_ok {vs : List Nat} {id : Nat → Int} : ∀ (w : List Nat), (∀ i ∈ w, i < vs.length) →
    cycOf (vs.map id) w = .ok ((w.map fun i => vs.getD i 0).map id) := by
  intro w
  induction w with
  | nil => intro _; rfl
  | cons i w ih =>
    intro h
    have hi := h i (List.mem_cons_self ..)
    unfold cycOf
    rw [List.getElem?_map, List.getElem?_eq_getElem hi, ih fun x hx => h x (List.mem_cons_of_mem _ hx)]
    rw [List.map_cons, List.map_cons, List.getD_eq_getElem?_getD, List.getElem?_eq_getElem hi]
    rfl

theorem getD_mem {vs : List Nat} {i : Nat} (h : i < vs.length) : vs.getD i 0 ∈ vs := by
  rw [List.getD_eq_getElem?_getD, List.getElem?_eq_getElem h]
  exact List.getElem_mem h

theorem getD_inj {vs : List Nat} (hn : vs.Nodup) {i j : Nat} (hi : i < vs.length) (hj : j < vs.length)
    (h : vs.getD i 0 = vs.getD j 0) : i = j := by
  rw [List.getD_eq_getElem?_getD, List.getD_eq_getElem?_getD, List.getElem?_eq_getElem hi,
    List.getElem?_eq_getElem hj] at h
  exact (hn.getElem_inj_iff).1 h

theorem map_inj_on {id : Nat → Int} : ∀ {l m : List Nat}, (∀ a ∈ l, ∀ b ∈ m, id a = id b → a = b) →
    l.map id = m.map id → l = m := by
  intro l
  induction l with
  | nil =>
    intro m _ h
    cases m with
    | nil => rfl
    | cons _ _ => cases h
  | cons a l ih =>
    intro m hi h
    cases m with
    | nil => cases h
    | cons b m =>
      rw [List.map_cons, List.map_cons, List.cons.injEq] at h
      rw [hi a (List.mem_cons_self ..) b (List.mem_cons_self ..) h.1,
        ih (fun x hx y hy => hi x (List.mem_cons_of_mem _ hx) y (List.mem_cons_of_mem _ hy)) h.2]

theorem rotated_ids {id : Nat → Int} {l m : List Nat} (hi : ∀ a ∈ l, ∀ b ∈ m, id a = id b → a = b) :
    l.map id ~r m.map id ↔ l ~r m := by
  constructor
  · intro h
    obtain ⟨n, hn⟩ := h.symm
    rw [← List.map_rotate] at hn
    have := map_inj_on (id := id) (l := l) (m := m.rotate n)
      (fun a ha b hb => hi a ha b (List.mem_rotate.1 hb)) hn.symm
    exact List.IsRotated.symm ⟨n, this.symm⟩
  · intro h; exact h.map id

theorem direction_ok {M : Mesh1} {k : Known} (h : Inv M k) {id : Nat → Int} {r f : Nat} {vs fs : List Nat}
    (hu : k.used r = true) (hs : k.Standard r vs) (hf : k.face f = true) (hfv : k.fverts f = some fs)
    (h30 : fs.length ≤ 30) (hid : IdsDiffer id (vs ++ fs)) :
    (Outward vs fs → faceDir M id r f = .ok 1) ∧
    (Outward vs fs.reverse → faceDir M id r f = .ok 0) ∧
    (¬ Outward vs fs → ¬ Outward vs fs.reverse → faceDir M id r f = .ok (-1)) := by
  obtain ⟨hv, hrows, hnd⟩ := hs
  have hsz := h.size r vs hv hrows
  obtain ⟨htab, hdif⟩ := outward_table hsz
  have hget : ∀ i < (outward vs.length).length, (outward vs.length).getD i [] ∈ outward vs.length := by
    intro i hi
    rw [List.getD_eq_getElem?_getD, List.getElem?_eq_getElem hi]
    exact List.getElem_mem hi
  have hmemv : ∀ w ∈ outward vs.length, ∀ x ∈ w.map (fun i => vs.getD i 0), x ∈ vs := by
    intro w hw x hx
    obtain ⟨i, hi, rfl⟩ := List.mem_map.1 hx
    exact getD_mem ((htab w hw).2.2 i hi)
  have hnodup : ∀ w ∈ outward vs.length, ((w.map fun i => vs.getD i 0).map id).Nodup := by
    intro w hw
    rw [List.map_map]
    refine List.Nodup.map_on ?_ (htab w hw).2.1
    intro a ha b hb he
    have ha' := (htab w hw).2.2 a ha
    have hb' := (htab w hw).2.2 b hb
    exact getD_inj hnd ha' hb' (hid _ (List.mem_append_left _ (getD_mem ha')) _
      (List.mem_append_left _ (getD_mem hb')) he)
  have hrot : ∀ w ∈ outward vs.length, ∀ l : List Nat, (∀ x ∈ l, x ∈ fs) →
      (l.map id ~r (w.map fun i => vs.getD i 0).map id ↔ l ~r w.map fun i => vs.getD i 0) := by
    intro w hw l hl
    apply rotated_ids
    intro a ha b hb
    exact hid a (List.mem_append_right _ (hl a ha)) b (List.mem_append_left _ (hmemv w hw b hb))
  obtain ⟨d, hd, hcase⟩ := dirLoop_ok (M := M) (r := r) (rids := vs.map id) (fids := fs.map id)
    (w := fun i => (outward vs.length).getD i [])
    (cyc := fun i => (((outward vs.length).getD i []).map fun i => vs.getD i 0).map id)
    (List.range (outward vs.length).length) (by
      intro i hi
      have hi' := List.mem_range.1 hi
      refine ⟨?_, cycOf_ok _ ((htab _ (hget i hi')).2.2), by rw [List.length_map, List.length_map],
        (htab _ (hget i hi')).1, hnodup _ (hget i hi')⟩
      rw [List.length_map]
      exact rowOf_std (by rw [h.tm, hrows]) hsz i hi')
  have hrun : faceDir M id r f = .ok d := by
    unfold faceDir
    rw [h.there hu, Res.bind_ok, (mfVertices_ok h hf hfv).1, Res.bind_ok, Res.ofOption_some, Res.bind_ok,
      if_neg (by omega), h.rv, hv, Res.ofOption_some, Res.bind_ok, numFaces_std h hu ⟨hv, hrows, hnd⟩,
      Res.bind_ok]
    exact hd
  -- the face cannot be in both directions
  have hexcl : Outward vs fs → Outward vs fs.reverse → False := by
    rintro ⟨w, hw, h1⟩ ⟨w', hw', h2⟩
    by_cases hww : w = w'
    · subst hww
      refine side_not_both (hnodup w hw) ?_ ((hrot w hw fs fun _ h => h).2 h1) ?_
      · rw [List.length_map, List.length_map]; exact (htab w hw).1
      · rw [← List.map_reverse]
        exact (hrot w hw fs.reverse fun _ h => List.mem_reverse.1 h).2 h2
    · obtain ⟨i, hi, hni⟩ := hdif w hw w' hw' hww
      have : vs.getD i 0 ∈ w'.map fun i => vs.getD i 0 := by
        rw [← h2.mem_iff, List.mem_reverse, h1.mem_iff]
        exact List.mem_map.2 ⟨i, hi, rfl⟩
      obtain ⟨j, hj, he⟩ := List.mem_map.1 this
      have := getD_inj hnd ((htab w' hw').2.2 j hj) ((htab w hw).2.2 i hi) he
      exact hni (this ▸ hj)
  have hout : ∀ l : List Nat, (∀ x ∈ l, x ∈ fs) → (Outward vs l ↔ ∃ i ∈ List.range (outward vs.length).length,
      l.map id ~r (((outward vs.length).getD i []).map fun i => vs.getD i 0).map id) := by
    intro l hl
    constructor
    · rintro ⟨w, hw, hh⟩
      obtain ⟨i, hi, he⟩ := List.mem_iff_getElem.1 hw
      refine ⟨i, List.mem_range.2 hi, ?_⟩
      rw [List.getD_eq_getElem?_getD, List.getElem?_eq_getElem hi, Option.getD_some, he]
      exact (hrot w hw l hl).2 hh
    · rintro ⟨i, hi, hh⟩
      have hm := hget i (List.mem_range.1 hi)
      exact ⟨_, hm, (hrot _ hm l hl).1 hh⟩
  have hA := hout fs fun _ h => h
  have hB := hout fs.reverse fun _ h => List.mem_reverse.1 h
  rw [List.map_reverse] at hB
  rw [hrun]
  rcases hcase with ⟨rfl, hh⟩ | ⟨rfl, hh⟩ | ⟨rfl, hh⟩
  · have ha := hA.2 hh
    exact ⟨fun _ => rfl, fun hb => (hexcl ha hb).elim, fun hb => absurd ha hb⟩
  · have hb := hB.2 hh
    exact ⟨fun ha => (hexcl ha hb).elim, fun _ => rfl, fun _ hb' => absurd hb hb'⟩
  · refine ⟨?_, ?_, fun _ _ => rfl⟩
    · intro ha
      obtain ⟨i, hi, hr⟩ := hA.1 ha
      exact absurd hr (hh i hi).1
    · intro hb
      obtain ⟨i, hi, hr⟩ := hB.1 hb
      exact absurd hr (hh i hi).2

theorem outward_mem {vs fs : List Nat} (hsz : vs.length ∈ [4, 5, 6, 8]) (h : Outward vs fs) : ∀ v ∈ fs, v ∈ vs := by
  obtain ⟨w, hw, hr⟩ := h
  intro v hv
  rw [hr.mem_iff, List.mem_map] at hv
  obtain ⟨i, hi, rfl⟩ := hv
  exact getD_mem (((outward_table hsz).1 w hw).2.2 i hi)

theorem uses_of {M : Mesh1} {id : Nat → Int} {r f : Nat} {d : Int} (h : faceDir M id r f = .ok d) :
    mrUsesFace M id r f = .ok (decide (d ≠ -1)) := by
  unfold mrUsesFace
  rw [h]; rfl

/-- whether the face has the region on the given side -/
theorem sided {M : Mesh1} {k : Known} (h : Inv M k) {id : Nat → Int} {r f : Nat} {vs fs : List Nat}
    (hu : k.used r = true) (hs : k.Standard r vs) (hf : k.face f = true) (hfv : k.fverts f = some fs)
    (h30 : fs.length ≤ 30) (hid : IdsDiffer id (vs ++ fs)) (side : Bool) :
    ∃ d, faceDir M id r f = .ok d ∧
      (d = (if side then 0 else 1) ↔ Outward vs (if side then fs.reverse else fs)) := by
  obtain ⟨h1, h2, h3⟩ := direction_ok h hu hs hf hfv h30 hid
  by_cases ha : Outward vs fs
  · refine ⟨1, h1 ha, ?_⟩
    cases side with
    | false => simp [ha]
    | true =>
      simp only [if_true]
      constructor
      · intro hh; cases hh
      · intro hb; rw [h1 ha] at h2; cases h2 hb
  · by_cases hb : Outward vs fs.reverse
    · refine ⟨0, h2 hb, ?_⟩
      cases side with
      | false => simp [ha]
      | true => simp [hb]
    · refine ⟨-1, h3 ha hb, ?_⟩
      cases side with
      | false => simp [ha]
      | true => simp [hb]

theorem mfRegion_ok {M : Mesh1} {k : Known} (h : Inv M k) {id : Nat → Int} {f : Nat} {fs : List Nat}
    (hf : k.face f = true) (hfv : k.fverts f = some fs) (h2 : 2 ≤ fs.length) (h30 : fs.length ≤ 30)
    (hstd : ∀ r, k.alive r = true → (∀ v ∈ fs, k.Has r v) → ∃ vs, k.Standard r vs ∧ IdsDiffer id (vs ++ fs))
    (htwo : ∀ r s t, (∀ x ∈ [r, s, t], k.alive x = true ∧ ∀ v ∈ fs, k.Has x v) → r = s ∨ r = t ∨ s = t)
    (side : Bool) : ∃ o, mfRegion M id f side = .ok o ∧
      (∀ r, o = some r → k.alive r = true ∧ ∃ vs, k.verts r = some vs ∧
        Outward vs (if side then fs.reverse else fs)) ∧
      (o = none → ∀ r, k.alive r = true → ∀ vs, k.verts r = some vs →
        ¬ Outward vs (if side then fs.reverse else fs)) := by
  obtain ⟨l, h1, hn, hl, hsound, hcomp⟩ := mfRegions_ok h hf hfv h2
  -- a region with the face as one of its own has all vertices of the face
  have hall : ∀ r, k.alive r = true → ∀ vs, k.verts r = some vs →
      Outward vs (if side then fs.reverse else fs) → ∀ v ∈ fs, k.Has r v := by
    intro r hr vs hv ho v hvf
    have hne : outward vs.length ≠ [] := by
      obtain ⟨w, hw, _⟩ := ho
      intro he; rw [he] at hw; cases hw
    have hsz : vs.length ∈ [4, 5, 6, 8] := by
      generalize vs.length = n at hne
      unfold outward at hne
      split at hne <;> simp at hne ⊢
    refine ⟨vs, hv, outward_mem hsz ho v ?_⟩
    cases side
    · exact hvf
    · exact List.mem_reverse.2 hvf
  have hdir : ∀ r ∈ l, ∃ d vs, faceDir M id r f = .ok d ∧ k.verts r = some vs ∧
      (d = (if side then 0 else 1) ↔ Outward vs (if side then fs.reverse else fs)) := by
    intro r hr
    obtain ⟨ha, hh⟩ := hsound r hr
    obtain ⟨vs, hs, hid⟩ := hstd r ha hh
    obtain ⟨d, hd, hiff⟩ := sided h (h.used ha) hs hf hfv h30 hid side
    exact ⟨d, vs, hd, hs.1, hiff⟩
  unfold mfRegion
  rw [h1, Res.bind_ok]
  match l, hn, hl, hsound, hcomp, hdir with
  | [], _, _, _, hcomp, _ =>
    refine ⟨none, rfl, (fun r hr => by cases hr), ?_⟩
    intro _ r hr vs hv ho
    have := hcomp (by simp) r hr (hall r hr vs hv ho)
    cases this
  | [a], _, _, hsound, hcomp, hdir =>
    obtain ⟨d, vs, hd, hv, hiff⟩ := hdir a (List.mem_cons_self ..)
    rw [show listOrNull [a] = some [a] from rfl]
    dsimp only
    rw [hd, Res.bind_ok]
    by_cases hc : d = (if side then 0 else 1)
    · rw [if_pos hc]
      refine ⟨some a, rfl, ?_, (fun hh => by cases hh)⟩
      intro r hr; cases hr
      exact ⟨(hsound a (List.mem_cons_self ..)).1, vs, hv, hiff.1 hc⟩
    · rw [if_neg hc]
      refine ⟨none, rfl, (fun r hr => by cases hr), ?_⟩
      intro _ r hr ws hw ho
      have := hcomp (by simp) r hr (hall r hr ws hw ho)
      rw [List.mem_singleton] at this
      subst this
      rw [hv] at hw; cases hw
      exact hc (hiff.2 ho)
  | [a, b], hn, _, hsound, _, hdir =>
    obtain ⟨d, vs, hd, hv, hiff⟩ := hdir a (List.mem_cons_self ..)
    obtain ⟨d', vs', hd', hv', hiff'⟩ := hdir b (List.mem_cons_of_mem _ (List.mem_cons_self ..))
    rw [show listOrNull [a, b] = some [a, b] from rfl]
    dsimp only
    rw [hd, Res.bind_ok]
    by_cases hc : d = (if side then 0 else 1)
    · rw [if_pos hc]
      refine ⟨some a, rfl, ?_, (fun hh => by cases hh)⟩
      intro r hr; cases hr
      exact ⟨(hsound a (List.mem_cons_self ..)).1, vs, hv, hiff.1 hc⟩
    · rw [if_neg hc, hd', Res.bind_ok]
      by_cases hc' : d' = (if side then 0 else 1)
      · rw [if_pos hc']
        refine ⟨some b, rfl, ?_, (fun hh => by cases hh)⟩
        intro r hr; cases hr
        exact ⟨(hsound b (List.mem_cons_of_mem _ (List.mem_cons_self ..))).1, vs', hv', hiff'.1 hc'⟩
      · rw [if_neg hc']
        refine ⟨none, rfl, (fun r hr => by cases hr), ?_⟩
        intro _ r hr ws hw ho
        have hrab : r = a ∨ r = b := by
          have hr' := hall r hr ws hw ho
          rcases htwo r a b (by
            intro x hx
            rcases List.mem_cons.1 hx with rfl | hx
            · exact ⟨hr, hr'⟩
            · exact hsound x hx) with hh | hh | hh
          · exact Or.inl hh
          · exact Or.inr hh
          · rw [hh] at hn; simp at hn
        rcases hrab with rfl | rfl
        · rw [hv] at hw; cases hw
          exact hc (hiff.2 ho)
        · rw [hv'] at hw; cases hw
          exact hc' (hiff'.2 ho)
  | _ :: _ :: _ :: _, _, hl, _, _, _ => simp at hl

/-! ### C92 -/

/-- **C92, partial.** For every history of a mesh with the representation `R1` in which vertices and faces
are made, regions are made, get their vertices once, are deleted temporarily and restored: every query
answers what the history says.  Missing: the histories of the negations below. -/
theorem C92_answers_partial (ops : List Op) (h : Legal nothing ops) :
    ∃ M, run empty ops = .ok M ∧ Answers M (ops.foldl note nothing) := by
  obtain ⟨M, hM, hi⟩ := run_inv ops inv_empty h
  refine ⟨M, hM, ?_, ?_, ?_, ?_, ?_, ?_⟩
  · intro v hv
    obtain ⟨h1, h2⟩ := mvRegions_ok hi hv
    exact ⟨_, ⟨hi.nodup v, hi.ve v⟩, h1, h2⟩
  · intro r vs hu hv
    refine ⟨mrVertices_ok hi hu hv, ?_⟩
    intro v
    unfold mrUsesVertex
    rw [hi.there hu, Res.bind_ok, hi.rv, hv, Res.ofOption_some]; rfl
  · intro f vs hf hv; exact mfVertices_ok hi hf hv
  · intro f vs hf hv h2; exact mfRegions_ok hi hf hv h2
  · intro id r f vs fs hu hs hf hv h30 hid
    obtain ⟨h1, h2, h3⟩ := direction_ok hi hu hs hf hv h30 hid
    exact ⟨fun hh => ⟨h1 hh, uses_of (h1 hh)⟩, fun hh => ⟨h2 hh, uses_of (h2 hh)⟩,
      fun ha hb => ⟨h3 ha hb, uses_of (h3 ha hb)⟩⟩
  · intro id f fs hf hv h2 h30 hstd htwo side
    exact mfRegion_ok hi hf hv h2 h30 hstd htwo side

instance (k : Known) (o : Op) : Decidable (o.legal k) := by
  cases o <;> unfold Op.legal <;> infer_instance

instance decLegal : (k : Known) → (ops : List Op) → Decidable (Legal k ops)
  | _, [] => isTrue trivial
  | k, o :: os =>
    have := decLegal (note k o) os
    inferInstanceAs (Decidable (o.legal k ∧ Legal (note k o) os))

/-- twelve vertices, two hexes on top of each other, the face between them, the lower one deleted and
restored -/
def twoHexes : List Op :=
  (List.range 12).map .newV ++
  [.newR 0, .setR 0 [0, 1, 2, 3, 4, 5, 6, 7] [], .newR 1, .setR 1 [4, 5, 6, 7, 8, 9, 10, 11] [],
   .newF 0, .setF 0 [5, 6, 7, 4], .delR 0, .resR 0]

/-- `C92_answers_partial` speaks about a history with two hexes that share a face -/
example : Legal nothing twoHexes ∧
    (do let M ← run empty twoHexes
        pure (← mvRegions M 5, ← mfRegions M 0, ← mfRegion M (·) 0 false, ← mfRegion M (·) 0 true)) =
      .ok (some [1, 0], some [1, 0], some 0, some 1) := by decide +kernel

example : (do let M ← run empty twoHexes
              pure (← faceDir M (·) 0 0, ← faceDir M (·) 1 0, ← mfVertices M 0 false (some 7))) =
    .ok (1, 0, some [7, 6, 5, 4]) := by decide +kernel

example : Outward [0, 1, 2, 3, 4, 5, 6, 7] [5, 6, 7, 4] ∧
    Outward [4, 5, 6, 7, 8, 9, 10, 11] [5, 6, 7, 4].reverse :=
  ⟨⟨[4, 5, 6, 7], by decide, ⟨3, by decide⟩⟩, ⟨[0, 3, 2, 1], by decide, ⟨0, by decide⟩⟩⟩

/-- **C92, negation.** After every history, deleting a region for good reads storage that was freed. -/
theorem C92_negation_delete (ops : List Op) (h : Legal nothing ops) (r : Nat)
    (hr : (ops.foldl note nothing).alive r = true) :
    ∃ M, run empty ops = .ok M ∧ delRegion M r false = .ub := by
  obtain ⟨M, hM, hi⟩ := run_inv ops inv_empty h
  refine ⟨M, hM, ?_⟩
  have hsome : ∀ v, v ∈ (M.rv r).getD [] ↔ (ops.foldl note nothing).Has r v := by
    intro v
    rw [hi.rv]
    unfold Known.Has
    cases (ops.foldl note nothing).verts r <;> simp
  obtain ⟨ve', h1, _, _⟩ := remFrom_ok (sv := M.sv) (r := r) ((M.rv r).getD []) M.ve
    (fun v hv => hi.vlive (hi.has r v ((hsome v).1 hv))) hi.nodup
  unfold delRegion withdraw
  rw [deref_live (hi.live hr), Res.bind_ok, if_pos (hi.live hr), h1, Res.bind_ok]
  rfl

example : Legal nothing twoHexes ∧ (twoHexes.foldl note nothing).alive 1 = true := by decide +kernel

/-- **C92, negation.** A face deleted for good stays in the list of faces of the mesh; the vertices of a
face that is deleted temporarily are gone. -/
theorem C92_negation_faces : ∃ ops, Legal nothing ops ∧
    (do let M ← run empty ops; let M ← delFace M 0 false; pure (M.fl, M.sf 0)) = .ok ([0], .freed) ∧
    (do let M ← run empty ops; let M ← delFace M 0 true; mfVertices M 0 true none) = .ub :=
  ⟨[.newV 0, .newV 1, .newV 2, .newF 0, .setF 0 [0, 1, 2]], by decide +kernel, by decide +kernel,
    by decide +kernel⟩

/-- a hex given with its faces -/
def hexRows : List Op :=
  (List.range 8).map .newV ++
  [.newR 0, .setR 0 [0, 1, 2, 3, 4, 5, 6, 7] (outward 8), .newF 0, .setF 0 [0, 3, 2, 1]]

/-- **C92, negation.** A hex given with its six faces is said to have four, and its first face is said not
to be one of its faces. -/
theorem C92_negation_template : Legal nothing hexRows ∧
    (do let M ← run empty hexRows; pure (← mrNumFaces M 0, ← mrUsesFace M (·) 0 0)) = .ok (4, false) := by
  decide +kernel

/-- **C92, negation.** A prism and a pyramid given with their faces are taken for polyhedra. -/
theorem C92_negation_type : typeOfRows (outward 6) = .polyhed ∧ typeOfRows (outward 5) = .polyhed := by
  decide

/-- a hex and a quadrilateral across it -/
def across : List Op :=
  (List.range 8).map .newV ++
  [.newR 0, .setR 0 [0, 1, 2, 3, 4, 5, 6, 7] [], .newF 0, .setF 0 [0, 2, 6, 4]]

/-- **C92, negation.** A quadrilateral across a hex is said to be next to the hex, which does not use it. -/
theorem C92_negation_across : Legal nothing across ∧
    (do let M ← run empty across; pure (← mfRegions M 0, ← mrUsesFace M (·) 0 0)) =
      .ok (some [0], false) := by
  decide +kernel

/-- two pyramids on a quadrilateral and a tetrahedron on one half of it -/
def halves : List Op :=
  (List.range 8).map .newV ++
  [.newR 0, .setR 0 [0, 1, 2, 3, 4] [], .newR 1, .setR 1 [3, 2, 1, 0, 5] [],
   .newR 2, .setR 2 [0, 1, 2, 6] [], .newF 0, .setF 0 [0, 2, 1]]

/-- **C92, negation.** A third region with the vertices of a face is not found, although it is the only one
that uses the face. -/
theorem C92_negation_third : Legal nothing halves ∧
    (do let M ← run empty halves
        pure (← mfRegions M 0, ← mrUsesFace M (·) 2 0, ← mfRegion M (·) 0 false)) =
      .ok (some [0, 1], true, none) := by
  decide +kernel

/-- **C92, negation.** After a vertex of a region is replaced, the old vertex still answers the region and
the new one does not. -/
theorem C92_negation_replace : Legal nothing across ∧
    (do let M ← run empty across; let M ← newVertex M 8; let M ← replaceVertex M 0 3 8
        pure (← mrVertices M 0, ← mvRegions M 3, ← mvRegions M 8)) =
      .ok ([0, 1, 2, 8, 4, 5, 6, 7], some [0], none) := by
  decide +kernel

/-- **C92, negation.** When a region gets its vertices a second time, the vertices it had before still
answer the region. -/
theorem C92_negation_again : Legal nothing across ∧
    (do let M ← run empty across; let M ← setVertices M 0 [0, 1, 2, 4] []
        pure (← mrVertices M 0, ← mvRegions M 7)) = .ok ([0, 1, 2, 4], some [0]) := by
  decide +kernel

end MSTK.R1M
