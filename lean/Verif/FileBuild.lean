import Verif.FileLemmas
import Verif.Props.Effects

/-!
What `MESH_WriteToFile` looks up in a mesh, and the mesh `MESH_InitFromFile` builds from it
(FileModel.lean).
-/
namespace MSTK
namespace File

/-! ### specification of meshes -/

/-- a classification as an entity stores it: 3 and 26 bits (MEntity.h) -/
def ClassOk (p : Int × Int) : Prop := 0 ≤ p.1 ∧ p.1 < 8 ∧ 0 ≤ p.2 ∧ p.2 < 67108864

/-- the vertices (0), edges (1), faces (2), regions (3) of a mesh in their order -/
def FMesh.list (M : FMesh D) : Nat → List Nat
  | 0 => M.vl
  | 1 => M.el
  | 2 => M.fl
  | 3 => M.rl
  | _ => []

/-- the kinds of entities an attribute is for -/
def Attr.kinds (a : Attr D) : List Nat :=
  if a.ent = 5 then [0, 1, 2, 3] else if a.ent < 4 then [a.ent] else []

/-- An attribute that can be written so that it can be read: the name is a word that fits into the
buffer, the values are of the kind the attribute says. -/
structure Attr.Ok (a : Attr D) : Prop where
  name : Word a.name
  short : a.name.length < 256
  ent : a.ent ∈ [0, 1, 2, 3, 5]
  comps : Fits a.ncomp
  vector : a.ty = .vec ∨ a.ty = .tns → 0 < a.ncomp
  scalar : a.ty = .int ∨ a.ty = .dbl → a.ncomp = 1
  vals : ∀ k x v, a.val k x = some v → ValFit a.ty a.ncomp v

/-- A mesh, attributes aside: the entities are consistent with each other, the lists of the mesh hold
the entities that exist, every edge has two vertices, every face was given at most 32 edges, every
region was given faces, classifications are what the bit fields can hold, and the numbers of entities
are of type `int`. -/
structure FMesh.Sound (M : FMesh D) : Prop where
  cons : M.T.Consistent
  vl : M.vl.Nodup ∧ ∀ v, v ∈ M.vl ↔ M.T.sv v = .live
  el : M.el.Nodup ∧ ∀ e, e ∈ M.el ↔ M.T.se e = .live
  fl : M.fl.Nodup ∧ ∀ f, f ∈ M.fl ↔ M.T.sf f = .live
  rl : M.rl.Nodup ∧ ∀ r, r ∈ M.rl ↔ M.T.sr r = .live
  ends : ∀ e ∈ M.el, ∃ a b, M.T.view.ends e = (some a, some b)
  edges : ∀ f ∈ M.fl, (∃ l, M.T.fe f = some l) ∧ (M.T.view.edges f).length ≤ 32
  faces : ∀ r ∈ M.rl, ∃ l, M.T.rf r = some l
  vc : ∀ v ∈ M.vl, ClassOk (M.vc v)
  ec : ∀ e ∈ M.el, ClassOk (M.ec e)
  fc : ∀ f ∈ M.fl, ClassOk (M.fc f)
  rc : ∀ r ∈ M.rl, ClassOk (M.rc r)
  size : M.vl.length + M.el.length + M.fl.length + M.rl.length < 2147483648

/-- A mesh whose attributes (but for pointers, which are not written) are all right. -/
structure FMesh.Ok (M : FMesh D) : Prop extends M.Sound where
  atts : ∀ a ∈ M.atts, a.ty ≠ .ptr → a.Ok

/-! ### what is written -/

theorem each_ok {α β : Type} {g : α → Res β} {h : α → β} : ∀ {l : List α}, (∀ x ∈ l, g x = .ok (h x)) →
    each g l = .ok (l.map h)
  | [], _ => rfl
  | x :: xs, hx => by
    unfold each
    rw [hx x (by simp), Res.bind_ok, each_ok fun y hy => hx y (List.mem_cons_of_mem _ hy)]
    rfl

/-- the line of a vertex -/
def vL (M : FMesh D) (v : Nat) : VLine D :=
  ⟨(M.xyz v).1, (M.xyz v).2.1, (M.xyz v).2.2, (M.vc v).1, (M.vc v).2⟩
/-- the line of an edge -/
def eL (M : FMesh D) (e : Nat) : ELine :=
  ⟨num M.vl ((M.T.view.ends e).1.getD 0), num M.vl ((M.T.view.ends e).2.getD 0), (M.ec e).1, (M.ec e).2⟩
/-- the line of a face -/
def fL (M : FMesh D) (f : Nat) : FLine :=
  ⟨(M.T.view.edges f).map fun p => signed p.2 (num M.el p.1), (M.fc f).1, (M.fc f).2⟩
/-- the line of a region -/
def rL (M : FMesh D) (r : Nat) : FLine :=
  ⟨(M.T.view.faces r).map fun p => signed p.2 (num M.fl p.1), (M.rc r).1, (M.rc r).2⟩

theorem FMesh.Sound.endsLive {M : FMesh D} (h : M.Sound) {e a b : Nat} (he : e ∈ M.el)
    (hab : M.T.view.ends e = (some a, some b)) : a ∈ M.vl ∧ b ∈ M.vl := by
  have hl := (h.el.2 e).1 he
  have hab' : M.T.ev e = (some a, some b) := hab
  exact ⟨(h.vl.2 a).2 (h.cons.ve.down e a hl (Or.inl (by rw [hab']))),
    (h.vl.2 b).2 (h.cons.ve.down e b hl (Or.inr (by rw [hab'])))⟩

theorem FMesh.Sound.edgesLive {M : FMesh D} (h : M.Sound) {f : Nat} (hf : f ∈ M.fl) {p : Nat × Bool}
    (hp : p ∈ M.T.view.edges f) : p.1 ∈ M.el := by
  have hl := (h.fl.2 f).1 hf
  obtain ⟨⟨l, hfe⟩, _⟩ := h.edges f hf
  have : p.1 ∈ l := by
    have := List.mem_map_of_mem (f := (·.1)) hp
    rwa [show M.T.view.edges f = M.T.edgesOf f from rfl, Topo.edgesOf_map_fst, hfe] at this
  exact (h.el.2 _).2 (h.cons.fedgesLive hl hfe _ this)

theorem FMesh.Sound.facesLive {M : FMesh D} (h : M.Sound) {r : Nat} (hr : r ∈ M.rl) {p : Nat × Bool}
    (hp : p ∈ M.T.view.faces r) : p.1 ∈ M.fl := 
  (h.fl.2 _).2 (h.cons.fr.down r p.1 p.2 ((h.rl.2 r).1 hr) hp)

theorem vLine_ok {M : FMesh D} (h : M.Ok) {v : Nat} (hv : v ∈ M.vl) : vLine M v = .ok (vL M v) := by
  unfold vLine
  have : M.T.derefV v = .ok () := by
    unfold Topo.derefV; rw [(h.vl.2 v).1 hv]; rfl
  rw [this]; rfl

theorem numV_ok {M : FMesh D} (h : M.Ok) {v : Nat} (hv : v ∈ M.vl) :
    numV M (some v) = .ok (num M.vl v) := by
  unfold numV
  have : M.T.derefV v = .ok () := by
    unfold Topo.derefV; rw [(h.vl.2 v).1 hv]; rfl
  simp only [this, Res.bind_ok, Res.pure_eq]

theorem eLine_ok {M : FMesh D} (h : M.Ok) {e : Nat} (he : e ∈ M.el) : eLine M e = .ok (eL M e) := by
  obtain ⟨a, b, hab⟩ := h.ends e he
  obtain ⟨ha, hb⟩ := h.endsLive he hab
  have hq := (Topo.C49_view h.cons).1
  unfold eLine
  rw [hq e false ((h.el.2 e).1 he), hab, Res.bind_ok]
  simp only [Bool.false_eq_true, if_false]
  rw [numV_ok h ha, Res.bind_ok, hq e true ((h.el.2 e).1 he), hab, Res.bind_ok]
  simp only [if_true]
  rw [numV_ok h hb, Res.bind_ok]
  unfold eL
  rw [hab]
  rfl

theorem edgeRefs_ok {M : FMesh D} {f : Nat} : ∀ (ps : List (Nat × Bool)) (j : Nat),
    (∀ i p, ps[i]? = some p → M.T.mfEdgeDir_i f (j+i) = .ok p.2) →
    (∀ p ∈ ps, (M.T.se p.1).alloc) →
    edgeRefs M f j (ps.map (·.1)) = .ok (ps.map fun p => signed p.2 (num M.el p.1))
  | [], _, _, _ => rfl
  | p :: ps, j, h1, h2 => by
    rw [List.map_cons]
    unfold edgeRefs
    rw [show M.T.mfEdgeDir_i f j = Res.ok p.2 from h1 0 p rfl, Res.bind_ok, Topo.derefE_ok (h2 p (by simp)), Res.bind_ok, edgeRefs_ok ps (j+1)
      (fun i q hq => by rw [Nat.add_assoc, Nat.add_comm 1 i]; exact h1 (i+1) q hq)
      (fun q hq => h2 q (List.mem_cons_of_mem _ hq))]
    rfl

theorem faceRefs_ok {M : FMesh D} {r : Nat} : ∀ (ps : List (Nat × Bool)) (j : Nat),
    (∀ i p, ps[i]? = some p → M.T.mrFaceDir_i r (j+i) = .ok p.2) →
    (∀ p ∈ ps, (M.T.sf p.1).alloc) →
    faceRefs M r j (ps.map (·.1)) = .ok (ps.map fun p => signed p.2 (num M.fl p.1))
  | [], _, _, _ => rfl
  | p :: ps, j, h1, h2 => by
    rw [List.map_cons]
    unfold faceRefs
    rw [show M.T.mrFaceDir_i r j = Res.ok p.2 from h1 0 p rfl, Res.bind_ok, Topo.derefF_ok (h2 p (by simp)), Res.bind_ok, faceRefs_ok ps (j+1)
      (fun i q hq => by rw [Nat.add_assoc, Nat.add_comm 1 i]; exact h1 (i+1) q hq)
      (fun q hq => h2 q (List.mem_cons_of_mem _ hq))]
    rfl

theorem fLine_ok {M : FMesh D} (h : M.Ok) {f : Nat} (hf : f ∈ M.fl) : fLine M f = .ok (fL M f) := by
  have hl := (h.fl.2 f).1 hf
  obtain ⟨⟨l, hfe⟩, h32⟩ := h.edges f hf
  have hv : M.T.view.edges f = Topo.pairs l (Topo.fbit (M.T.fd f)) := Topo.edgesOf_some hfe
  unfold fLine
  have h1 : M.T.mfEdges f true none = .ok ((M.T.view.edges f).map (·.1)) := by
    rw [hv, Topo.pairs_map_fst]; exact Topo.mfEdges_plain (Topo.alloc_of_live hl) hfe
  rw [h1, Res.bind_ok, edgeRefs_ok (M.T.view.edges f) 0]
  · rfl
  · intro i p hp
    have hi : i < (M.T.view.edges f).length := (List.getElem?_eq_some_iff.1 hp).1
    rw [Nat.zero_add]
    exact ((Topo.C49_view h.cons).2.1 f hl (by intro h0; rw [h0] at hi; exact absurd hi (by simp))).2 i p
      (by omega) hp
  · intro p hp
    exact Topo.alloc_of_live ((h.el.2 _).1 (h.edgesLive hf hp))

theorem rLine_ok {M : FMesh D} (h : M.Ok) {r : Nat} (hr : r ∈ M.rl) : rLine M r = .ok (rL M r) := by
  have hl := (h.rl.2 r).1 hr
  obtain ⟨l, hrf⟩ := h.faces r hr
  have hv : M.T.view.faces r = Topo.pairs l (Topo.rbit (M.T.rd r)) := Topo.facesOf_some hrf
  unfold rLine
  have h1 : M.T.mrFaces r = .ok ((M.T.view.faces r).map (·.1)) := by
    rw [hv, Topo.pairs_map_fst]; exact Topo.rfaces_ok (Topo.alloc_of_live hl) hrf
  rw [h1, Res.bind_ok, faceRefs_ok (M.T.view.faces r) 0]
  · rfl
  · intro i p hp
    have hi : i < (M.T.view.faces r).length := (List.getElem?_eq_some_iff.1 hp).1
    rw [Nat.zero_add]
    exact ((Topo.C49_view h.cons).2.2 r hl (by intro h0; rw [h0] at hi; exact absurd hi (by simp))).2 i p hp
  · intro p hp
    exact Topo.alloc_of_live ((h.fl.2 _).1 (h.facesLive hr hp))

/-- the lines of an attribute for the entities of kind `k` -/
def linesOf (a : Attr D) (k : Nat) (all : List Nat) (xs : List Nat) : List (ALine D) :=
  xs.filterMap fun x => (a.val k x).map fun v => ⟨k, num all x, v⟩

theorem aVal_ok {ty : ATy} {ncomp : Int} {v : AVal D} (h : ValFit ty ncomp v) : aVal ty ncomp v = .ok v := by
  cases v with
  | int i => unfold aVal; simp only; rw [if_pos h.1]
  | dbl x => unfold aVal; simp only; rw [if_pos (show ty = .dbl from h)]
  | arr xs =>
    unfold aVal
    simp only
    rw [if_pos h.1, if_pos (Nat.le_of_eq h.2.symm), ← h.2, List.take_length]

theorem aLines_ok {a : Attr D} (ha : a.Ok) (k : Nat) (all : List Nat) : ∀ xs : List Nat,
    aLines a k all xs = .ok (linesOf a k all xs)
  | [] => rfl
  | x :: xs => by
    unfold aLines linesOf
    rw [List.filterMap_cons]
    cases hv : a.val k x with
    | none =>
      simp only [Option.map_none]
      exact aLines_ok ha k all xs
    | some v =>
      simp only [Option.map_some]
      rw [aVal_ok (ha.vals k x v hv), Res.bind_ok, aLines_ok ha k all xs]
      rfl

/-- all the lines of an attribute -/
def allLines (M : FMesh D) (a : Attr D) : List (ALine D) :=
  a.kinds.flatMap fun k => linesOf a k (M.list k) (M.list k)

theorem aAll_ok {M : FMesh D} {a : Attr D} (ha : a.Ok) : aAll M a = .ok (allLines M a) := by
  have he := ha.ent
  unfold aAll allLines Attr.kinds
  simp only [List.mem_cons, List.not_mem_nil, or_false] at he
  rcases he with h | h | h | h | h <;> rw [h] <;> simp [aLines_ok ha, FMesh.list]

/-- the attribute has a value for an entity it is for -/
def hasValue (M : FMesh D) (a : Attr D) : Bool :=
  a.kinds.any fun k => (M.list k).any fun x => (a.val k x).isSome

/-- the attributes that are written -/
def written (M : FMesh D) : List (Attr D) := M.atts.filter fun a => a.ty ≠ .ptr && hasValue M a

/-- what is written for an attribute -/
def blockOf (M : FMesh D) (a : Attr D) : ABlock D := ⟨a.name, a.ty, a.ncomp, a.ent, allLines M a⟩

theorem allLines_nil {M : FMesh D} {a : Attr D} : allLines M a = [] ↔ hasValue M a = false := by
  unfold allLines hasValue linesOf
  rw [List.flatMap_eq_nil_iff, List.any_eq_false]
  apply forall_congr'; intro k
  apply forall_congr'; intro hk
  rw [List.filterMap_eq_nil_iff, Bool.not_eq_true, List.any_eq_false]
  apply forall_congr'; intro x
  apply forall_congr'; intro hx
  cases a.val k x <;> simp

theorem aBlocks_ok {M : FMesh D} : ∀ {as : List (Attr D)}, (∀ a ∈ as, a.ty ≠ .ptr → a.Ok) →
    aBlocks M as = .ok ((as.filter fun a => a.ty ≠ .ptr && hasValue M a).map (blockOf M))
  | [], _ => rfl
  | a :: as, h => by
    unfold aBlocks
    rw [aBlocks_ok fun b hb => h b (List.mem_cons_of_mem _ hb), Res.bind_ok]
    by_cases hp : a.ty = .ptr
    · rw [if_pos hp, List.filter_cons, if_neg (by simp [hp])]
      rfl
    · rw [if_neg hp, aAll_ok (h a (by simp) hp), Res.bind_ok, List.filter_cons]
      by_cases hv : hasValue M a = true
      · rw [if_pos (by simp [hp, hv]), List.map_cons]
        cases hl : allLines M a with
        | nil => rw [allLines_nil.1 hl] at hv; cases hv
        | cons x xs => unfold blockOf; simp only [hl]; rfl
      · rw [if_neg (by simp [hv]), allLines_nil.2 (by simpa using hv)]
        rfl

/-- what is written for a mesh -/
def contentsOf (M : FMesh D) (f4 : Bool) : Contents D :=
  ⟨f4, M.vl.map (vL M), M.el.map (eL M), M.fl.map (fL M), M.rl.map (rL M),
    if M.atts = [] then none else some ((written M).map (blockOf M))⟩

theorem contents_ok {M : FMesh D} (h : M.Ok) (f4 : Bool) : contents M f4 = .ok (contentsOf M f4) := by
  unfold contents
  rw [each_ok fun v hv => vLine_ok h hv, Res.bind_ok, each_ok fun e he => eLine_ok h he, Res.bind_ok,
    each_ok fun f hf => fLine_ok h hf, Res.bind_ok, each_ok fun r hr => rLine_ok h hr, Res.bind_ok,
    aBlocks_ok h.atts, Res.bind_ok]
  rfl

/-! ### what is written fits -/

theorem num_mem {l : List Nat} {x : Nat} (h : x ∈ l) : num l x = (l.idxOf x : Int) + 1 := by
  unfold num; rw [if_pos h]

theorem num_fits {l : List Nat} {x : Nat} (hl : l.length < 2147483648) : Fits (num l x) := by
  unfold num Fits
  split
  · next h => have := List.idxOf_lt_length_of_mem h; omega
  · omega

theorem signed_fits {d : Bool} {n : Int} (h : Fits n) (h0 : 0 ≤ n) : Fits (signed d n) := by
  unfold signed
  unfold Fits at *
  split <;> omega

theorem num_nonneg (l : List Nat) (x : Nat) : 0 ≤ num l x := by
  unfold num; split <;> omega

theorem class_fits {p : Int × Int} (h : ClassOk p) : Fits p.1 ∧ Fits p.2 := by
  unfold ClassOk at h; unfold Fits; omega

theorem linesOf_length (a : Attr D) (k : Nat) (all xs : List Nat) :
    (linesOf a k all xs).length ≤ xs.length := List.length_filterMap_le _ _

theorem allLines_length {M : FMesh D} {a : Attr D} (ha : a.Ok) :
    (allLines M a).length ≤ M.vl.length + M.el.length + M.fl.length + M.rl.length := by
  have he := ha.ent
  have h0 := linesOf_length a 0 M.vl M.vl
  have h1 := linesOf_length a 1 M.el M.el
  have h2 := linesOf_length a 2 M.fl M.fl
  have h3 := linesOf_length a 3 M.rl M.rl
  unfold allLines Attr.kinds
  simp only [List.mem_cons, List.not_mem_nil, or_false] at he
  rcases he with h | h | h | h | h <;> rw [h] <;> simp [FMesh.list] <;> omega

theorem kinds_spec {a : Attr D} {k : Nat} (hk : k ∈ a.kinds) : k < 4 ∧ (k = a.ent ∨ a.ent = 5) := by
  unfold Attr.kinds at hk
  split at hk
  · next h => 
    simp only [List.mem_cons, List.not_mem_nil, or_false] at hk
    exact ⟨by omega, Or.inr h⟩
  · split at hk
    · next h => rw [List.mem_singleton] at hk; exact ⟨by omega, Or.inl hk⟩
    · exact absurd hk (by simp)

theorem list_length {M : FMesh D} (h : M.Ok) (k : Nat) : (M.list k).length < 2147483648 := by
  have := h.size
  unfold FMesh.list
  split <;> simp <;> omega

theorem block_fit {M : FMesh D} (h : M.Ok) {a : Attr D} (ha : a.Ok) (hp : a.ty ≠ .ptr)
    (hv : hasValue M a = true) : (blockOf M a).Fit where
  name := ha.name
  short := ha.short
  ty := hp
  comps := ha.comps
  some_comps := fun hh => by have := ha.vector hh; show a.ncomp ≠ 0; omega
  ent := ha.ent
  nonempty := by
    intro h0
    rw [allLines_nil.1 h0] at hv; cases hv
  few := by
    have h1 := allLines_length (M := M) ha
    have h2 := h.size
    show Fits ((allLines M a).length : Int)
    unfold Fits; omega
  lines := by
    intro l hl
    obtain ⟨k, hk, hl⟩ := List.mem_flatMap.1 (show l ∈ allLines M a from hl)
    obtain ⟨x, hx, hl⟩ := List.mem_filterMap.1 hl
    obtain ⟨h4, hke⟩ := kinds_spec hk
    cases hvx : a.val k x with
    | none => rw [hvx] at hl; cases hl
    | some v =>
      rw [hvx] at hl
      cases hl
      refine ⟨by unfold Fits; simp only; omega, num_fits (list_length h k), ha.vals k x v hvx, ?_⟩
      rcases hke with e | e
      · left; show (k : Int) = ((blockOf M a).ent : Nat); rw [e]; rfl
      · right; exact e

theorem facesOf_length {M : FMesh D} (h : M.Sound) {r : Nat} (hr : r ∈ M.rl) :
    ((M.T.view.faces r).map (·.1)).Nodup ∧ (M.T.view.faces r).length ≤ M.fl.length := by
  obtain ⟨l, hrf⟩ := h.faces r hr
  have hv : M.T.view.faces r = Topo.pairs l (Topo.rbit (M.T.rd r)) := Topo.facesOf_some hrf
  have hn : ((M.T.view.faces r).map (·.1)).Nodup := by
    rw [hv, Topo.pairs_map_fst]
    exact (h.cons.reg r l (Topo.alloc_of_live ((h.rl.2 r).1 hr)) hrf).1
  refine ⟨hn, ?_⟩
  have := (List.subperm_of_subset hn (l₂ := M.fl) (by
    intro f hf
    obtain ⟨p, hp, rfl⟩ := List.mem_map.1 hf
    exact h.facesLive hr hp)).length_le
  rwa [List.length_map] at this

theorem contents_fit {M : FMesh D} (h : M.Ok) (f4 : Bool) : (contentsOf M f4).Fit where
  nv := by
    have := h.size
    show Fits ((M.vl.map (vL M)).length : Int)
    rw [List.length_map]; unfold Fits; omega
  ne := by
    have := h.size
    show Fits ((M.el.map (eL M)).length : Int)
    rw [List.length_map]; unfold Fits; omega
  nf := by
    have := h.size
    show Fits ((M.fl.map (fL M)).length : Int)
    rw [List.length_map]; unfold Fits; omega
  nr := by
    have := h.size
    show Fits ((M.rl.map (rL M)).length : Int)
    rw [List.length_map]; unfold Fits; omega
  vs := by
    intro l hl
    obtain ⟨v, hv, rfl⟩ := List.mem_map.1 (show l ∈ M.vl.map (vL M) from hl)
    exact class_fits (h.vc v hv)
  es := by
    intro l hl
    obtain ⟨e, he, rfl⟩ := List.mem_map.1 (show l ∈ M.el.map (eL M) from hl)
    exact ⟨num_fits (list_length h 0), num_fits (list_length h 0), class_fits (h.ec e he)⟩
  fs := by
    intro l hl
    obtain ⟨f, hf, rfl⟩ := List.mem_map.1 (show l ∈ M.fl.map (fL M) from hl)
    refine ⟨?_, ?_, class_fits (h.fc f hf)⟩
    · have := (h.edges f hf).2
      show Fits (((M.T.view.edges f).map _).length : Int)
      rw [List.length_map]; unfold Fits; omega
    · intro i hi
      obtain ⟨p, _, rfl⟩ := List.mem_map.1 (show i ∈ (M.T.view.edges f).map _ from hi)
      exact signed_fits (num_fits (list_length h 1)) (num_nonneg _ _)
  rs := by
    intro l hl
    obtain ⟨r, hr, rfl⟩ := List.mem_map.1 (show l ∈ M.rl.map (rL M) from hl)
    refine ⟨?_, ?_, class_fits (h.rc r hr)⟩
    · have := (facesOf_length h.toSound hr).2
      have := h.size
      show Fits (((M.T.view.faces r).map _).length : Int)
      rw [List.length_map]; unfold Fits; omega
    · intro i hi
      obtain ⟨p, _, rfl⟩ := List.mem_map.1 (show i ∈ (M.T.view.faces r).map _ from hi)
      exact signed_fits (num_fits (list_length h 2)) (num_nonneg _ _)
  as := by
    intro bs hbs b hb
    rw [show (contentsOf M f4).as = if M.atts = [] then none else some ((written M).map (blockOf M)) from rfl]
      at hbs
    split at hbs
    · cases hbs
    · cases hbs
      obtain ⟨a, ha, rfl⟩ := List.mem_map.1 hb
      obtain ⟨ha, hw⟩ := List.mem_filter.1 ha
      simp only [ne_eq, decide_not, Bool.and_eq_true, Bool.not_eq_eq_eq_not, Bool.not_true,
        decide_eq_false_iff_not] at hw
      exact block_fit h (h.atts a ha hw.1) hw.1 hw.2

/-! ### what is built -/

/-- `g` below `n`, `d` from there on -/
def upto {α : Type} (n : Nat) (g : Nat → α) (d : α) : Nat → α := fun i => if i < n then g i else d

theorem upto_succ {α : Type} (n : Nat) (g : Nat → α) (d : α) : upto (n+1) g d = upd (upto n g d) n (g n) := by
  funext i
  unfold upto
  by_cases hi : i = n
  · subst hi; rw [upd_same, if_pos (by omega)]
  · rw [upd_ne _ _ hi]
    by_cases h : i < n
    · rw [if_pos h, if_pos (by omega)]
    · rw [if_neg h, if_neg (by omega)]

theorem upto_at {α : Type} {n i : Nat} {g : Nat → α} {d : α} (h : i < n) : upto n g d i = g i := by
  unfold upto; rw [if_pos h]
theorem upto_out {α : Type} {n i : Nat} {g : Nat → α} {d : α} (h : n ≤ i) : upto n g d i = d := by
  unfold upto; rw [if_neg (by omega)]

/-- the ends of the `i`-th edge as positions -/
def endsI (M : FMesh D) (i : Nat) : Option Nat × Option Nat :=
  let p := M.T.view.ends (M.el.getD i 0)
  (p.1.map M.vl.idxOf, p.2.map M.vl.idxOf)
/-- the edges of the `i`-th face as positions -/
def edgesI (M : FMesh D) (i : Nat) : List (Nat × Bool) :=
  (M.T.view.edges (M.fl.getD i 0)).map fun p => (M.el.idxOf p.1, p.2)
/-- the faces of the `i`-th region as positions -/
def facesI (M : FMesh D) (i : Nat) : List (Nat × Bool) :=
  (M.T.view.faces (M.rl.getD i 0)).map fun p => (M.fl.idxOf p.1, p.2)

/-- the first entities of a mesh with handles that are positions -/
def image (M : FMesh D) (nv ne nf nr : Nat) : Topo.View where
  sv := upto nv (fun _ => .live) .unused
  se := upto ne (fun _ => .live) .unused
  sf := upto nf (fun _ => .live) .unused
  sr := upto nr (fun _ => .live) .unused
  ends := upto ne (endsI M) (none, none)
  edges := upto nf (edgesI M) []
  faces := upto nr (facesI M) []

/-- coordinates after printing and scanning -/
def back3 (dbl : Dbl D) (p : D × D × D) : D × D × D :=
  (dbl.back 16 p.1, dbl.back 16 p.2.1, dbl.back 16 p.2.2)

/-- `N` is what was built from the first entities of `M` -/
structure Img (dbl : Dbl D) (M N : FMesh D) (nv ne nf nr : Nat) : Prop where
  cons : N.T.Consistent
  cv : N.T.nv = nv
  ce : N.T.ne = ne
  cf : N.T.nf = nf
  cr : N.T.nr = nr
  vl : N.vl = List.range nv
  el : N.el = List.range ne
  fl : N.fl = List.range nf
  rl : N.rl = List.range nr
  view : N.T.view = image M nv ne nf nr
  fe : ∀ i < nf, ∃ l, N.T.fe i = some l
  rf : ∀ i < nr, ∃ l, N.T.rf i = some l
  xyz : ∀ i < nv, N.xyz i = back3 dbl (M.xyz (M.vl.getD i 0))
  vc : ∀ i < nv, N.vc i = M.vc (M.vl.getD i 0)
  ec : ∀ i < ne, N.ec i = M.ec (M.el.getD i 0)
  fc : ∀ i < nf, N.fc i = M.fc (M.fl.getD i 0)
  rc : ∀ i < nr, N.rc i = M.rc (M.rl.getD i 0)
  vid : ∀ i < nv, N.vid i = i+1
  eid : ∀ i < ne, N.eid i = i+1
  fid : ∀ i < nf, N.fid i = i+1
  rid : ∀ i < nr, N.rid i = i+1
  atts : N.atts = []

theorem img_new (dbl : Dbl D) (M : FMesh D) : Img dbl M (FMesh.new dbl) 0 0 0 0 where
  cons := Topo.empty_consistent
  cv := rfl
  ce := rfl
  cf := rfl
  cr := rfl
  vl := rfl
  el := rfl
  fl := rfl
  rl := rfl
  view := rfl
  fe := by omega
  rf := by omega
  xyz := by omega
  vc := by omega
  ec := by omega
  fc := by omega
  rc := by omega
  vid := by omega
  eid := by omega
  fid := by omega
  rid := by omega
  atts := rfl

theorem field_ok {p : Int × Int} (h : ClassOk p) : field p.1 p.2 = p := by
  unfold ClassOk at h
  unfold field
  ext <;> simp only <;> omega

/-- extending a table by one -/
theorem upd_lt {α : Type} {f g : Nat → α} {n : Nat} {x : α} (h : ∀ i < n, f i = g i) (hx : x = g n) :
    ∀ i < n + 1, upd f n x i = g i := by
  intro i hi
  by_cases e : i = n
  · subst e; rw [upd_same, hx]
  · rw [upd_ne _ _ e]; exact h i (by omega)

theorem img_addV {dbl : Dbl D} {M N : FMesh D} (h : M.Ok) {nv ne nf nr : Nat} (hi : Img dbl M N nv ne nf nr)
    {v : Nat} (hv : M.vl[nv]? = some v) :
    Img dbl M (addV nv (dbl.back 16 (vL M v).x) (dbl.back 16 (vL M v).y) (dbl.back 16 (vL M v).z)
      (vL M v).gdim (vL M v).gid N) (nv+1) ne nf nr := by
  have hg : M.vl.getD nv 0 = v := by rw [List.getD_eq_getElem?_getD, hv]; rfl
  have hmem : v ∈ M.vl := List.mem_of_getElem? hv
  have hp : N.T.mvNew.2 = nv := hi.cv
  unfold addV
  simp only [hp]
  exact
  { hi with
    cons := hi.cons.newVertex
    cv := by show N.T.nv + 1 = _; rw [hi.cv]
    vl := by show N.vl ++ [nv] = _; rw [hi.vl, List.range_succ]
    view := by
      have := hi.view
      show Topo.View.mk (upd N.T.sv N.T.nv .live) N.T.view.se N.T.view.sf N.T.view.sr N.T.view.ends
        N.T.view.edges N.T.view.faces = _
      rw [hi.cv, show N.T.sv = N.T.view.sv from rfl, hi.view]
      unfold image
      simp only
      rw [upto_succ]
    xyz := upd_lt hi.xyz (by rw [hg]; rfl)
    vc := upd_lt hi.vc (by rw [hg]; exact field_ok (h.vc v hmem))
    vid := upd_lt (g := fun i : Nat => (i : Int) + 1) hi.vid rfl }

theorem img_buildVs {dbl : Dbl D} {M : FMesh D} (h : M.Ok) : ∀ (xs : List Nat) (k : Nat) (N : FMesh D),
    M.vl.drop k = xs → Img dbl M N k 0 0 0 →
    Img dbl M (buildVs dbl k (xs.map (vL M)) N) (k + xs.length) 0 0 0
  | [], k, N, _, hi => hi
  | v :: xs, k, N, hd, hi => by
    have hv : M.vl[k]? = some v := by rw [← List.head?_drop, hd]; rfl
    have hx : M.vl.drop (k+1) = xs := by rw [← List.tail_drop, hd]; rfl
    have := img_buildVs h xs (k+1) _ hx (img_addV h hi hv)
    rw [show k + (v :: xs).length = k + 1 + xs.length by simp; omega]
    exact this

theorem entry_num {n : Nat} {l : List Nat} {x : Nat} (hx : x ∈ l) (hn : l.length = n) :
    entry (List.range n) (num l x) = .ok (l.idxOf x) := by
  have h := List.idxOf_lt_length_of_mem hx
  rw [num_mem hx]
  unfold entry
  rw [if_pos (by omega), show ((l.idxOf x : Int) + 1 - 1).toNat = l.idxOf x by omega,
    List.getElem?_range (by omega)]
  rfl

/-- a new edge with its ends -/
theorem newEdge_ends {T : Topo} (hc : T.Consistent) {x y : Nat} (hx : T.sv x = .live) (hy : T.sv y = .live) :
    ∃ T2 T', T.meNew.1.meSetVertex T.ne false x = .ok T2 ∧ T2.meSetVertex T.ne true y = .ok T' ∧
      T'.Consistent ∧ T'.nv = T.nv ∧ T'.ne = T.ne + 1 ∧ T'.nf = T.nf ∧ T'.nr = T.nr ∧ T'.fe = T.fe ∧ T'.rf = T.rf ∧
      T'.view = { T.view with se := upd T.view.se T.ne .live,
                              ends := upd T.view.ends T.ne (some x, some y) } := by
  have c1 : T.meNew.1.Consistent := hc.newEdge
  have e1 : T.meNew.1.se T.ne = .live := upd_same _ _ _
  have v1 : T.meNew.1.ev T.ne = (none, none) := upd_same _ _ _
  have s2 := Topo.meSetVertex_ok (T := T.meNew.1) (i := false) (v := x) (Topo.alloc_of_live e1) (Topo.alloc_of_live hx)
  obtain ⟨T2, hs2, c2⟩ := c1.step (.setVertex T.ne false x) ⟨e1, hx, by rw [v1]; rfl⟩
  have h2 := Res.ok.inj (hs2.symm.trans s2)
  have e2 : T2.se T.ne = .live := by rw [h2]; exact e1
  have v2 : T2.ev T.ne = (some x, none) := by
    rw [h2]; show upd _ _ _ _ = _; rw [upd_same, v1]; rfl
  have y2 : T2.sv y = .live := by rw [h2]; exact hy
  have s3 := Topo.meSetVertex_ok (i := true) (Topo.alloc_of_live e2) (Topo.alloc_of_live y2)
  obtain ⟨T3, hs3, c3⟩ := c2.step (.setVertex T.ne true y) ⟨e2, y2, by rw [v2]; rfl⟩
  have h3 := Res.ok.inj (hs3.symm.trans s3)
  refine ⟨T2, T3, hs2, hs3, c3, by rw [h3, h2]; rfl, by rw [h3, h2]; rfl, by rw [h3, h2]; rfl,
    by rw [h3, h2]; rfl, by rw [h3, h2]; rfl, by rw [h3, h2]; rfl, ?_⟩
  have hev : T3.ev = upd T.ev T.ne (some x, some y) := by
    rw [h3]
    show upd T2.ev T.ne (Topo.setEnd (T2.ev T.ne) true (some y)) = _
    rw [v2, h2]
    show upd (upd (upd T.ev T.ne (none, none)) T.ne _) T.ne _ = _
    rw [Topo.upd_upd, Topo.upd_upd]
    rfl
  show Topo.View.mk T3.sv T3.se T3.sf T3.sr T3.ev T3.edgesOf (Topo.facesOf T3.rf T3.rd) = _
  rw [hev, h3, h2]
  rfl

/-- a new face with its edges -/
theorem newFace_edges {T : Topo} (hc : T.Consistent) {es : List (Nat × Bool)} (h32 : es.length ≤ 32)
    (hes : ∀ p ∈ es, T.se p.1 = .live) :
    ∃ T', T.mfNew.1.mfSetEdges T.nf es = .ok T' ∧
      T'.Consistent ∧ T'.nv = T.nv ∧ T'.ne = T.ne ∧ T'.nf = T.nf + 1 ∧ T'.nr = T.nr ∧
      (∃ l, T'.fe T.nf = some l) ∧ (∀ f, f ≠ T.nf → T'.fe f = T.fe f) ∧ T'.rf = T.rf ∧
      T'.view = { T.view with sf := upd T.view.sf T.nf .live,
                              edges := upd T.view.edges T.nf es } := by
  have c1 : T.mfNew.1.Consistent := hc.newFace
  have e1 : T.mfNew.1.sf T.nf = .live := upd_same _ _ _
  have v1 : T.mfNew.1.fe T.nf = none := upd_same _ _ _
  obtain ⟨d, s2, hd⟩ := Topo.mfSetEdges_ok (T := T.mfNew.1) (Topo.alloc_of_live e1) h32
    (fun p hp => Topo.alloc_of_live (hes p hp))
  obtain ⟨T2, hs2, c2⟩ := c1.step (.setEdges T.nf es) ⟨e1, by rw [v1]; rfl, h32, hes⟩
  have h2 := Res.ok.inj (hs2.symm.trans s2)
  refine ⟨T2, hs2, c2, by rw [h2]; rfl, by rw [h2]; rfl, by rw [h2]; rfl,
    by rw [h2]; rfl, ⟨_, by rw [h2]; exact upd_same _ _ _⟩, ?_, by rw [h2]; rfl, ?_⟩
  · intro f hf
    rw [h2]
    show upd (upd T.fe T.nf none) T.nf _ f = _
    rw [upd_ne _ _ hf, upd_ne _ _ hf]
  have hed : T2.edgesOf = upd T.edgesOf T.nf es := by
    refine Topo.edgesOf_upd (l := es.map (·.1)) (d := d) ?_ ?_ hd
    · rw [h2]; show upd (upd T.fe T.nf none) T.nf _ = _; rw [Topo.upd_upd]
    · rw [h2]; show upd (upd T.fd T.nf 0) T.nf _ = _; rw [Topo.upd_upd]
  show Topo.View.mk T2.sv T2.se T2.sf T2.sr T2.ev T2.edgesOf (Topo.facesOf T2.rf T2.rd) = _
  rw [hed, h2]
  rfl

/-- a new region with its faces -/
theorem newRegion_faces {T : Topo} (hc : T.Consistent) {fs : List (Nat × Bool)} 
    (hn : (fs.map (·.1)).Nodup)
    (hfs : ∀ p ∈ fs, T.sf p.1 = .live ∧ Topo.endAt (T.fr p.1) (!p.2) = none) (hsz : T.Sized (fs.map (·.1))) :
    ∃ T', T.mrNew.1.mrSetFaces T.nr fs = .ok T' ∧
      T'.Consistent ∧ T'.nv = T.nv ∧ T'.ne = T.ne ∧ T'.nf = T.nf ∧ T'.nr = T.nr + 1 ∧ T'.fe = T.fe ∧
      (∃ l, T'.rf T.nr = some l) ∧ (∀ r, r ≠ T.nr → T'.rf r = T.rf r) ∧
      T'.view = { T.view with sr := upd T.view.sr T.nr .live,
                              faces := upd T.view.faces T.nr fs } := by
  have c1 : T.mrNew.1.Consistent := hc.newRegion
  have e1 : T.mrNew.1.sr T.nr = .live := upd_same _ _ _
  have v1 : T.mrNew.1.rf T.nr = none := upd_same _ _ _
  obtain ⟨w, s2, _, hd⟩ := Topo.mrSetFaces_ok (T := T.mrNew.1) (Topo.alloc_of_live e1) 
    (fun p hp => Topo.alloc_of_live (hfs p hp).1) hsz
  obtain ⟨T2, hs2, c2⟩ := c1.step (.setFaces T.nr fs) ⟨e1, by rw [v1]; rfl, hn, hfs, hsz⟩
  have h2 := Res.ok.inj (hs2.symm.trans s2)
  refine ⟨T2, hs2, c2, by rw [h2]; rfl, by rw [h2]; rfl, by rw [h2]; rfl,
    by rw [h2]; rfl, by rw [h2]; rfl, ⟨_, by rw [h2]; exact upd_same _ _ _⟩, ?_, ?_⟩
  · intro f hf
    rw [h2]
    show upd (upd T.rf T.nr none) T.nr _ f = _
    rw [upd_ne _ _ hf, upd_ne _ _ hf]
  have hrf : T2.rf = upd T.rf T.nr (some (fs.map (·.1))) := by
    rw [h2]; show upd (upd T.rf T.nr none) T.nr _ = _; rw [Topo.upd_upd]
  have hrd : T2.rd = upd T.rd T.nr w := by
    rw [h2]; show upd (upd T.rd T.nr []) T.nr _ = _; rw [Topo.upd_upd]
  have hed : Topo.facesOf T2.rf T2.rd = upd (Topo.facesOf T.rf T.rd) T.nr fs := by
    refine Topo.facesOf_upd (fun z hz => by rw [hrf, upd_ne _ _ hz]) (fun z hz => by rw [hrd, upd_ne _ _ hz]) ?_
    unfold Topo.facesOf
    rw [hrf, hrd, upd_same, upd_same]
    exact hd
  show Topo.View.mk T2.sv T2.se T2.sf T2.sr T2.ev T2.edgesOf (Topo.facesOf T2.rf T2.rd) = _
  rw [hed, h2]
  rfl

theorem img_addE {dbl : Dbl D} {M N : FMesh D} (h : M.Ok) {ne nf nr : Nat}
    (hi : Img dbl M N M.vl.length ne nf nr) {e : Nat} (he : M.el[ne]? = some e) :
    ∃ N', addE ne (eL M e).a (eL M e).b (eL M e).gdim (eL M e).gid N = .ok N' ∧
      Img dbl M N' M.vl.length (ne+1) nf nr := by
  have hg : M.el.getD ne 0 = e := by rw [List.getD_eq_getElem?_getD, he]; rfl
  have hmem : e ∈ M.el := List.mem_of_getElem? he
  obtain ⟨a, b, hab⟩ := h.ends e hmem
  obtain ⟨ha, hb⟩ := h.endsLive hmem hab
  have hp : N.T.meNew.2 = ne := hi.ce
  have hsv : ∀ x ∈ M.vl, N.T.sv (M.vl.idxOf x) = .live := by
    intro x hx
    rw [show N.T.sv = N.T.view.sv from rfl, hi.view]
    exact upto_at (g := fun _ => Stat.live) (List.idxOf_lt_length_of_mem hx)
  obtain ⟨T2, T3, s2, s3, c3, n1, n2, n3, n4, n5, n7, hv⟩ := newEdge_ends hi.cons (hsv a ha) (hsv b hb)
  rw [hi.ce] at s2 s3 n2 hv
  refine ⟨{ N with T := T3, el := N.el ++ [ne], ec := upd N.ec ne (field (M.ec e).1 (M.ec e).2),
                   eid := upd N.eid ne (ne+1) }, ?_, ?_⟩
  · unfold addE eL
    rw [hab, hi.vl]
    simp only [Option.getD_some]
    rw [entry_num ha rfl, Res.bind_ok, entry_num hb rfl, Res.bind_ok]
    simp only [hp]
    rw [s2, Res.bind_ok, s3, Res.bind_ok]
    rfl
  · exact
    { hi with
      cons := c3
      cv := n1.trans hi.cv
      ce := n2
      cf := n3.trans hi.cf
      cr := n4.trans hi.cr
      fe := fun i hi' => by rw [show T3.fe = _ from n5]; exact hi.fe i hi'
      rf := fun i hi' => by rw [show T3.rf = _ from n7]; exact hi.rf i hi'
      el := by show N.el ++ [ne] = _; rw [hi.el, List.range_succ]
      view := by
        have hei : endsI M ne = (some (M.vl.idxOf a), some (M.vl.idxOf b)) := by
          unfold endsI; rw [hg, hab]; rfl
        show T3.view = _
        rw [hv, hi.view]
        unfold image
        rw [upto_succ, upto_succ, hei]
      ec := upd_lt hi.ec (by rw [hg]; exact field_ok (h.ec e hmem))
      eid := upd_lt (g := fun i : Nat => (i : Int) + 1) hi.eid rfl }

theorem img_buildEs {dbl : Dbl D} {M : FMesh D} (h : M.Ok) : ∀ (xs : List Nat) (k : Nat) (N : FMesh D),
    M.el.drop k = xs → Img dbl M N M.vl.length k 0 0 →
    ∃ N', buildEs k (xs.map (eL M)) N = .ok N' ∧ Img dbl M N' M.vl.length (k + xs.length) 0 0
  | [], k, N, _, hi => ⟨N, rfl, hi⟩
  | v :: xs, k, N, hd, hi => by
    have hv : M.el[k]? = some v := by rw [← List.head?_drop, hd]; rfl
    have hx : M.el.drop (k+1) = xs := by rw [← List.tail_drop, hd]; rfl
    obtain ⟨N1, h1, i1⟩ := img_addE h hi hv
    obtain ⟨N2, h2, i2⟩ := img_buildEs h xs (k+1) N1 hx i1
    refine ⟨N2, ?_, ?_⟩
    · rw [List.map_cons]
      unfold buildEs
      rw [h1, Res.bind_ok, h2]
    · rw [show k + (v :: xs).length = k + 1 + xs.length by simp; omega]
      exact i2

theorem refsOf_ok {n : Nat} {l : List Nat} (hn : l.length = n) : ∀ (ps : List (Nat × Bool)),
    (∀ p ∈ ps, p.1 ∈ l) →
    refsOf (List.range n) (ps.map fun p => signed p.2 (num l p.1)) = .ok (ps.map fun p => (l.idxOf p.1, p.2))
  | [], _ => rfl
  | p :: ps, h => by
    have hp := h p (by simp)
    have h1 : ((signed p.2 (num l p.1)).natAbs : Int) = num l p.1 := by
      rw [num_mem hp]; unfold signed; split <;> omega
    have h2 : decide (0 < signed p.2 (num l p.1)) = p.2 := by
      rw [num_mem hp]; unfold signed
      cases p.2 <;> simp
    rw [List.map_cons]
    unfold refsOf
    rw [h1, entry_num hp hn, Res.bind_ok, refsOf_ok hn ps fun q hq => h q (List.mem_cons_of_mem _ hq),
      Res.bind_ok, h2]
    rfl

theorem img_addF {dbl : Dbl D} {M N : FMesh D} (h : M.Ok) {nf nr : Nat}
    (hi : Img dbl M N M.vl.length M.el.length nf nr) {f : Nat} (hf : M.fl[nf]? = some f) :
    ∃ N', addF nf (fL M f) N = .ok N' ∧ Img dbl M N' M.vl.length M.el.length (nf+1) nr := by
  have hg : M.fl.getD nf 0 = f := by rw [List.getD_eq_getElem?_getD, hf]; rfl
  have hmem : f ∈ M.fl := List.mem_of_getElem? hf
  have hp : N.T.mfNew.2 = nf := hi.cf
  have hei : edgesI M nf = (M.T.view.edges f).map fun p => (M.el.idxOf p.1, p.2) := by
    unfold edgesI; rw [hg]
  obtain ⟨T2, s2, c2, n1, n2, n3, n4, n5, n6, n7, hv⟩ := newFace_edges hi.cons (es := edgesI M nf)
    (by rw [hei, List.length_map]; exact (h.edges f hmem).2) (by
      intro p hp
      rw [hei] at hp
      obtain ⟨q, hq, rfl⟩ := List.mem_map.1 hp
      rw [show N.T.se = N.T.view.se from rfl, hi.view]
      exact upto_at (g := fun _ => Stat.live) (List.idxOf_lt_length_of_mem (h.edgesLive hmem hq)))
  rw [hi.cf] at s2 n3 n5 n6 hv
  refine ⟨{ N with T := T2, fl := N.fl ++ [nf], fc := upd N.fc nf (field (M.fc f).1 (M.fc f).2),
                   fid := upd N.fid nf (nf+1) }, ?_, ?_⟩
  · unfold addF fL
    simp only [hp]
    rw [hi.el, refsOf_ok rfl _ fun p hp => h.edgesLive hmem hp, Res.bind_ok, ← hei, s2, Res.bind_ok]
    rfl
  · exact
    { hi with
      cons := c2
      cv := n1.trans hi.cv
      ce := n2.trans hi.ce
      cf := n3
      cr := n4.trans hi.cr
      fe := fun i hi' => by
        by_cases e : i = nf
        · rw [e]; exact n5
        · rw [show T2.fe i = _ from n6 i e]; exact hi.fe i (by omega)
      rf := fun i hi' => by rw [show T2.rf = _ from n7]; exact hi.rf i hi'
      fl := by show N.fl ++ [nf] = _; rw [hi.fl, List.range_succ]
      view := by
        show T2.view = _
        rw [hv, hi.view]
        unfold image
        rw [upto_succ, upto_succ]
      fc := upd_lt hi.fc (by rw [hg]; exact field_ok (h.fc f hmem))
      fid := upd_lt (g := fun i : Nat => (i : Int) + 1) hi.fid rfl }

theorem img_buildFs {dbl : Dbl D} {M : FMesh D} (h : M.Ok) : ∀ (xs : List Nat) (k : Nat) (N : FMesh D),
    M.fl.drop k = xs → Img dbl M N M.vl.length M.el.length k 0 →
    ∃ N', buildFs addF k (xs.map (fL M)) N = .ok N' ∧
      Img dbl M N' M.vl.length M.el.length (k + xs.length) 0
  | [], k, N, _, hi => ⟨N, rfl, hi⟩
  | v :: xs, k, N, hd, hi => by
    have hv : M.fl[k]? = some v := by rw [← List.head?_drop, hd]; rfl
    have hx : M.fl.drop (k+1) = xs := by rw [← List.tail_drop, hd]; rfl
    obtain ⟨N1, h1, i1⟩ := img_addF h hi hv
    obtain ⟨N2, h2, i2⟩ := img_buildFs h xs (k+1) N1 hx i1
    refine ⟨N2, ?_, ?_⟩
    · rw [List.map_cons]
      unfold buildFs
      rw [h1, Res.bind_ok, h2]
    · rw [show k + (v :: xs).length = k + 1 + xs.length by simp; omega]
      exact i2

theorem idxOf_inj {l : List Nat} {x y : Nat} (hx : x ∈ l) (h : l.idxOf x = l.idxOf y) : x = y := by
  have hl := List.idxOf_lt_length_of_mem hx
  have h1 := List.getElem_idxOf hl
  have h2 : l[l.idxOf y]'(h ▸ hl) = y := List.getElem_idxOf _
  rw [← h1, ← h2]
  congr 1

theorem nodup_positions {l : List Nat} : ∀ {ps : List Nat}, ps.Nodup → (∀ p ∈ ps, p ∈ l) →
    (ps.map l.idxOf).Nodup
  | [], _, _ => List.nodup_nil
  | p :: ps, hn, hm => by
    obtain ⟨h1, h2⟩ := List.nodup_cons.1 hn
    rw [List.map_cons, List.nodup_cons]
    refine ⟨?_, nodup_positions h2 fun q hq => hm q (List.mem_cons_of_mem _ hq)⟩
    intro hmem
    obtain ⟨q, hq, he⟩ := List.mem_map.1 hmem
    rw [idxOf_inj (hm q (List.mem_cons_of_mem _ hq)) he] at hq
    exact h1 hq

theorem img_addR {dbl : Dbl D} {M N : FMesh D} (h : M.Ok) {nr : Nat}
    (hi : Img dbl M N M.vl.length M.el.length M.fl.length nr) {r : Nat} (hr : M.rl[nr]? = some r) :
    ∃ N', addR nr (rL M r) N = .ok N' ∧ Img dbl M N' M.vl.length M.el.length M.fl.length (nr+1) := by
  have hg : M.rl.getD nr 0 = r := by rw [List.getD_eq_getElem?_getD, hr]; rfl
  have hmem : r ∈ M.rl := List.mem_of_getElem? hr
  have hp : N.T.mrNew.2 = nr := hi.cr
  have hei : facesI M nr = (M.T.view.faces r).map fun p => (M.fl.idxOf p.1, p.2) := by
    unfold facesI; rw [hg]
  have hmap : (facesI M nr).map (·.1) = ((M.T.view.faces r).map (·.1)).map M.fl.idxOf := by
    rw [hei, List.map_map, List.map_map]; rfl
  have hin : ∀ f ∈ (M.T.view.faces r).map (·.1), f ∈ M.fl := by
    intro f hf
    obtain ⟨p, hp, rfl⟩ := List.mem_map.1 hf
    exact h.facesLive hmem hp
  obtain ⟨T2, s2, c2, n1, n2, n3, n4, n5, n6, n7, hv⟩ := newRegion_faces hi.cons (fs := facesI M nr)
    (by rw [hmap]; exact nodup_positions (facesOf_length h.toSound hmem).1 hin)
    (by
      intro p hp
      rw [hei] at hp
      obtain ⟨⟨f, d⟩, hq, rfl⟩ := List.mem_map.1 hp
      have hf := h.facesLive hmem hq
      have hlive : N.T.sf (M.fl.idxOf f) = .live := by
        rw [show N.T.sf = N.T.view.sf from rfl, hi.view]
        exact upto_at (g := fun _ => Stat.live) (List.idxOf_lt_length_of_mem hf)
      refine ⟨hlive, ?_⟩
      cases hend : Topo.endAt (N.T.fr (M.fl.idxOf f)) (!d) with
      | none => rfl
      | some s =>
        exfalso
        obtain ⟨hs, hms⟩ := (hi.cons.fr.mem _ (Topo.alloc_of_live hlive) s d).1 hend
        have hsr : s < nr := by
          by_cases hlt : s < nr
          · exact hlt
          · rw [show N.T.sr = N.T.view.sr from rfl, hi.view,
              show (image M M.vl.length M.el.length M.fl.length nr).sr s = .unused from
                upto_out (g := fun _ => Stat.live) (d := Stat.unused) (by omega : nr ≤ s)] at hs
            cases hs
        have hfs : Topo.facesOf N.T.rf N.T.rd s = facesI M s := by
          rw [show Topo.facesOf N.T.rf N.T.rd = N.T.view.faces from rfl, hi.view]
          exact upto_at hsr
        rw [hfs] at hms
        obtain ⟨⟨f', d'⟩, hq', he⟩ := List.mem_map.1 (show _ ∈ (M.T.view.faces (M.rl.getD s 0)).map _ from hms)
        simp only [Prod.mk.injEq] at he
        obtain ⟨he1, rfl⟩ := he
        have hnr : nr < M.rl.length := (List.getElem?_eq_some_iff.1 hr).1
        have hsl : s < M.rl.length := by omega
        have hsg : M.rl.getD s 0 = M.rl[s] := by
          rw [List.getD_eq_getElem?_getD, List.getElem?_eq_getElem hsl]; rfl
        have hsm : M.rl[s] ∈ M.rl := List.getElem_mem _
        rw [hsg] at hq'
        have hf' := h.facesLive hsm hq'
        have : f' = f := idxOf_inj hf' he1
        subst this
        have a1 := (h.cons.fr.mem f' (Topo.alloc_of_live ((h.fl.2 _).1 hf)) r d').2 ⟨(h.rl.2 _).1 hmem, hq⟩
        have a2 := (h.cons.fr.mem f' (Topo.alloc_of_live ((h.fl.2 _).1 hf)) _ d').2 ⟨(h.rl.2 _).1 hsm, hq'⟩
        have heq : r = M.rl[s] := Option.some.inj (a1.symm.trans a2)
        have : nr = s := (List.getElem?_inj hnr h.rl.1).1 (by rw [hr, heq, List.getElem?_eq_getElem hsl])
        omega)
    (by
      intro g hgm
      rw [hmap] at hgm
      obtain ⟨f, hf, rfl⟩ := List.mem_map.1 hgm
      exact hi.fe _ (List.idxOf_lt_length_of_mem (hin f hf)))
  rw [hi.cr] at s2 n4 n6 n7 hv
  refine ⟨{ N with T := T2, rl := N.rl ++ [nr], rc := upd N.rc nr (field (M.rc r).1 (M.rc r).2),
                   rid := upd N.rid nr (nr+1) }, ?_, ?_⟩
  · unfold addR rL
    simp only [hp]
    rw [hi.fl, refsOf_ok rfl _ fun p hp => h.facesLive hmem hp, Res.bind_ok, ← hei, s2, Res.bind_ok]
    rfl
  · exact
    { hi with
      cons := c2
      cv := n1.trans hi.cv
      ce := n2.trans hi.ce
      cf := n3.trans hi.cf
      cr := n4
      fe := fun i hi' => by rw [show T2.fe = _ from n5]; exact hi.fe i hi'
      rf := fun i hi' => by
        by_cases e : i = nr
        · rw [e]; exact n6
        · rw [show T2.rf i = _ from n7 i e]; exact hi.rf i (by omega)
      rl := by show N.rl ++ [nr] = _; rw [hi.rl, List.range_succ]
      view := by
        show T2.view = _
        rw [hv, hi.view]
        unfold image
        rw [upto_succ, upto_succ]
      rc := upd_lt hi.rc (by rw [hg]; exact field_ok (h.rc r hmem))
      rid := upd_lt (g := fun i : Nat => (i : Int) + 1) hi.rid rfl }

theorem img_buildRs {dbl : Dbl D} {M : FMesh D} (h : M.Ok) : ∀ (xs : List Nat) (k : Nat) (N : FMesh D),
    M.rl.drop k = xs → Img dbl M N M.vl.length M.el.length M.fl.length k →
    ∃ N', buildFs addR k (xs.map (rL M)) N = .ok N' ∧
      Img dbl M N' M.vl.length M.el.length M.fl.length (k + xs.length)
  | [], k, N, _, hi => ⟨N, rfl, hi⟩
  | v :: xs, k, N, hd, hi => by
    have hv : M.rl[k]? = some v := by rw [← List.head?_drop, hd]; rfl
    have hx : M.rl.drop (k+1) = xs := by rw [← List.tail_drop, hd]; rfl
    obtain ⟨N1, h1, i1⟩ := img_addR h hi hv
    obtain ⟨N2, h2, i2⟩ := img_buildRs h xs (k+1) N1 hx i1
    refine ⟨N2, ?_, ?_⟩
    · rw [List.map_cons]
      unfold buildFs
      rw [h1, Res.bind_ok, h2]
    · rw [show k + (v :: xs).length = k + 1 + xs.length by simp; omega]
      exact i2

/-! ### attributes -/

theorem fromID_num {n : Nat} {ids : Nat → Int} (hid : ∀ i < n, ids i = i+1) {l : List Nat} {x : Nat}
    (hx : x ∈ l) (hn : l.length = n) : fromID (List.range n) ids (num l x) = some (l.idxOf x) := by
  have h := List.idxOf_lt_length_of_mem hx
  unfold fromID
  rw [num_mem hx, List.find?_range_eq_some]
  refine ⟨by simp only [decide_eq_true_eq]; exact hid _ (by omega), by rw [List.mem_range]; omega, ?_⟩
  intro j hj
  rw [hid j (by omega)]
  simp only [Bool.not_eq_eq_eq_not, Bool.not_true, decide_eq_false_iff_not]
  omega

/-- what finding entities needs to know about the mesh that is built -/
structure Numbered (M N : FMesh D) : Prop where
  vl : N.vl = List.range M.vl.length
  el : N.el = List.range M.el.length
  fl : N.fl = List.range M.fl.length
  rl : N.rl = List.range M.rl.length
  vid : ∀ i < M.vl.length, N.vid i = i+1
  eid : ∀ i < M.el.length, N.eid i = i+1
  fid : ∀ i < M.fl.length, N.fid i = i+1
  rid : ∀ i < M.rl.length, N.rid i = i+1

theorem Numbered.find {M N : FMesh D} (h : Numbered M N) {k x : Nat} (hk : k < 4) (hx : x ∈ M.list k) :
    entityOf N k (num (M.list k) x) = .ok ((M.list k).idxOf x) := by
  match k, hk, hx with
  | 0, _, hx =>
    show Res.ofOption (fromID N.vl N.vid _) = _
    rw [h.vl, fromID_num h.vid hx rfl]; rfl
  | 1, _, hx =>
    show Res.ofOption (fromID N.el N.eid _) = _
    rw [h.el, fromID_num h.eid hx rfl]; rfl
  | 2, _, hx =>
    show Res.ofOption (fromID N.fl N.fid _) = _
    rw [h.fl, fromID_num h.fid hx rfl]; rfl
  | 3, _, hx =>
    show Res.ofOption (fromID N.rl N.rid _) = _
    rw [h.rl, fromID_num h.rid hx rfl]; rfl

/-- two attributes that differ in their values only -/
def SameHead (A B : Attr D) : Prop := A.name = B.name ∧ A.ty = B.ty ∧ A.ncomp = B.ncomp ∧ A.ent = B.ent

theorem buildVals_kind {dbl : Dbl D} {M N : FMesh D} (h : Numbered M N) {a : Attr D} {k : Nat} (hk : k < 4) :
    ∀ (xs : List Nat) (A : Attr D), xs.Nodup → (∀ x ∈ xs, x ∈ M.list k) →
    ∃ B, buildVals dbl N (linesOf a k (M.list k) xs) A = .ok B ∧ SameHead B A ∧
      (∀ x ∈ xs, ∀ v, a.val k x = some v → B.val k ((M.list k).idxOf x) = some (backVal dbl v)) ∧
      (∀ k' j, ¬ (k' = k ∧ ∃ x ∈ xs, (M.list k).idxOf x = j ∧ a.val k x ≠ none) → B.val k' j = A.val k' j)
  | [], A, _, _ => ⟨A, rfl, ⟨rfl, rfl, rfl, rfl⟩, by simp, fun _ _ _ => rfl⟩
  | x :: xs, A, hn, hm => by
    obtain ⟨hx, hn⟩ := List.nodup_cons.1 hn
    have hxm := hm x (by simp)
    have hm' : ∀ y ∈ xs, y ∈ M.list k := fun y hy => hm y (List.mem_cons_of_mem _ hy)
    cases hv : a.val k x with
    | none =>
      obtain ⟨B, h1, h2, h3, h4⟩ := buildVals_kind h hk xs A hn hm'
      refine ⟨B, ?_, h2, ?_, ?_⟩
      · unfold linesOf
        rw [List.filterMap_cons, hv]
        exact h1
      · intro y hy v hyv
        rcases List.mem_cons.1 hy with rfl | hy
        · rw [hv] at hyv; cases hyv
        · exact h3 y hy v hyv
      · intro k' j hno
        exact h4 k' j fun ⟨e, y, hy, hh⟩ => hno ⟨e, y, List.mem_cons_of_mem _ hy, hh⟩
    | some v =>
      obtain ⟨B, h1, h2, h3, h4⟩ := buildVals_kind h hk xs (A.put k ((M.list k).idxOf x) (backVal dbl v)) hn hm'
      refine ⟨B, ?_, h2, ?_, ?_⟩
      · unfold linesOf
        rw [List.filterMap_cons, hv]
        simp only [Option.map_some]
        unfold buildVals
        simp only
        rw [h.find hk hxm, Res.bind_ok, Int.toNat_natCast]
        exact h1
      · intro y hy w hyw
        rcases List.mem_cons.1 hy with rfl | hy
        · rw [hv] at hyw
          cases hyw
          rw [h4 k _ (by
            rintro ⟨_, z, hz, he, _⟩
            rw [idxOf_inj (hm' z hz) he] at hz
            exact hx hz)]
          unfold Attr.put
          simp
        · exact h3 y hy w hyw
      · intro k' j hno
        rw [h4 k' j fun ⟨e, y, hy, hh⟩ => hno ⟨e, y, List.mem_cons_of_mem _ hy, hh⟩]
        unfold Attr.put
        simp only
        rw [if_neg]
        rintro ⟨rfl, rfl⟩
        exact hno ⟨rfl, x, by simp, rfl, by rw [hv]; simp⟩

theorem buildVals_append {dbl : Dbl D} {N : FMesh D} : ∀ (ls ms : List (ALine D)) {A B : Attr D},
    buildVals dbl N ls A = .ok B → buildVals dbl N (ls ++ ms) A = buildVals dbl N ms B
  | [], ms, A, B, h => by cases h; rfl
  | l :: ls, ms, A, B, h => by
    rw [List.cons_append]
    unfold buildVals at h
    obtain ⟨x, hx, h⟩ := Res.bind_eq_ok.1 h
    rw [show buildVals dbl N (l :: (ls ++ ms)) A = (do
      let x ← entityOf N l.dim l.id
      buildVals dbl N (ls ++ ms) (A.put l.dim.toNat x (backVal dbl l.val))) from rfl, hx, Res.bind_ok]
    exact buildVals_append ls ms h

theorem buildVals_kinds {dbl : Dbl D} {M N : FMesh D} (hM : M.Ok) (h : Numbered M N) {a : Attr D} :
    ∀ (ks : List Nat) (A : Attr D), (∀ k ∈ ks, k < 4) → ks.Nodup → 
    ∃ B, buildVals dbl N (ks.flatMap fun k => linesOf a k (M.list k) (M.list k)) A = .ok B ∧ SameHead B A ∧
      (∀ k ∈ ks, ∀ x ∈ M.list k, ∀ v, a.val k x = some v →
        B.val k ((M.list k).idxOf x) = some (backVal dbl v)) ∧
      (∀ k j, ¬ (k ∈ ks ∧ ∃ x ∈ M.list k, (M.list k).idxOf x = j ∧ a.val k x ≠ none) → B.val k j = A.val k j)
  | [], A, _, _ => ⟨A, rfl, ⟨rfl, rfl, rfl, rfl⟩, by simp, fun _ _ _ => rfl⟩
  | k :: ks, A, h4, hn => by
    obtain ⟨hk, hn⟩ := List.nodup_cons.1 hn
    have hnd : (M.list k).Nodup := by
      unfold FMesh.list
      split
      · exact hM.vl.1
      · exact hM.el.1
      · exact hM.fl.1
      · exact hM.rl.1
      · exact List.nodup_nil
    obtain ⟨B, b1, b2, b3, b4⟩ := buildVals_kind (dbl := dbl) h (a := a) (h4 k (by simp)) (M.list k) A hnd
      (fun x hx => hx)
    obtain ⟨C, c1, c2, c3, c4⟩ := buildVals_kinds hM h ks B (fun k' hk' => h4 k' (List.mem_cons_of_mem _ hk')) hn
    refine ⟨C, ?_, ?_, ?_, ?_⟩
    · rw [List.flatMap_cons, buildVals_append _ _ b1]; exact c1
    · obtain ⟨x1, x2, x3, x4⟩ := c2
      obtain ⟨y1, y2, y3, y4⟩ := b2
      exact ⟨x1.trans y1, x2.trans y2, x3.trans y3, x4.trans y4⟩
    · intro k' hk' x hx v hv
      rcases List.mem_cons.1 hk' with rfl | hk'
      · rw [c4 k' _ fun hh => hk hh.1]
        exact b3 x hx v hv
      · exact c3 k' hk' x hx v hv
    · intro k' j hno
      rw [c4 k' j fun ⟨e, hh⟩ => hno ⟨List.mem_cons_of_mem _ e, hh⟩,
        b4 k' j fun ⟨e, hh⟩ => hno ⟨by rw [e]; simp, by rw [e]; exact hh⟩]

/-- `B` is the attribute `a` carried over to the mesh with positions as handles -/
structure Carried (dbl : Dbl D) (M : FMesh D) (a B : Attr D) : Prop where
  head : SameHead B a
  vals : ∀ k ∈ a.kinds, ∀ i x, (M.list k)[i]? = some x → B.val k i = (a.val k x).map (backVal dbl)
  none : ∀ k i, k ∉ a.kinds ∨ (M.list k).length ≤ i → B.val k i = none

theorem kinds_nodup (a : Attr D) : a.kinds.Nodup := by
  unfold Attr.kinds
  split
  · decide
  · split
    · exact List.nodup_singleton _
    · exact List.nodup_nil

theorem FMesh.Sound.nodup {M : FMesh D} (hM : M.Sound) (k : Nat) : (M.list k).Nodup := by
  unfold FMesh.list
  split
  · exact hM.vl.1
  · exact hM.el.1
  · exact hM.fl.1
  · exact hM.rl.1
  · exact List.nodup_nil

theorem addBlock_ok {dbl : Dbl D} {M N : FMesh D} (hM : M.Ok) (h : Numbered M N) {a : Attr D} (ha : a.Ok)
    (hp : a.ty ≠ .ptr) :
    ∃ B, addBlock dbl (blockOf M a) N = .ok { N with atts := N.atts ++ [B] } ∧ Carried dbl M a B := by
  obtain ⟨B, b1, b2, b3, b4⟩ := buildVals_kinds (dbl := dbl) hM h (a := a) a.kinds
    ⟨a.name, a.ty, a.ncomp, a.ent, fun _ _ => none⟩ (fun k hk => (kinds_spec hk).1) (kinds_nodup a)
  have hc : compsOf a.ty a.ncomp = a.ncomp := by
    unfold compsOf
    cases hty : a.ty with
    | int => exact (ha.scalar (Or.inl hty)).symm
    | dbl => exact (ha.scalar (Or.inr hty)).symm
    | ptr => exact absurd hty hp
    | vec => rfl
    | tns => rfl
  refine ⟨{ B with ncomp := a.ncomp }, ?_, ⟨b2.1, b2.2.1, rfl, b2.2.2.2⟩, ?_, ?_⟩
  · unfold addBlock
    rw [show buildVals dbl N (blockOf M a).lines
        ⟨(blockOf M a).name, (blockOf M a).ty, (blockOf M a).ncomp, (blockOf M a).ent, fun _ _ => none⟩ = _ from b1,
      Res.bind_ok, show compsOf (blockOf M a).ty (blockOf M a).ncomp = _ from hc]
    rfl
  · intro k hk i x hx
    have hmem : x ∈ M.list k := List.mem_of_getElem? hx
    have hidx : (M.list k).idxOf x = i := by
      have hi := (List.getElem?_eq_some_iff.1 hx).1
      have hi2 := List.idxOf_lt_length_of_mem hmem
      exact (List.getElem?_inj hi2 (hM.nodup k)).1 (by rw [hx, List.getElem?_eq_getElem hi2, List.getElem_idxOf])
    show B.val k i = _
    cases hv : a.val k x with
    | some v => rw [← hidx]; exact b3 k hk x hmem v hv
    | none =>
      rw [b4 k i]
      · rfl
      · rintro ⟨_, y, hy, he, hne⟩
        rw [← hidx] at he
        rw [idxOf_inj hy he] at hne
        exact hne hv
  · intro k i hno
    show B.val k i = _
    rw [b4 k i]
    rintro ⟨hk, y, hy, he, _⟩
    rcases hno with hno | hno
    · exact hno hk
    · have := List.idxOf_lt_length_of_mem hy
      omega

theorem buildAs_ok {dbl : Dbl D} {M : FMesh D} (hM : M.Ok) : ∀ (as : List (Attr D)) (N : FMesh D),
    Numbered M N → (∀ a ∈ as, a.Ok ∧ a.ty ≠ .ptr) →
    ∃ Bs, buildAs dbl (as.map (blockOf M)) N = .ok { N with atts := N.atts ++ Bs } ∧
      List.Forall₂ (Carried dbl M) as Bs
  | [], N, _, _ => ⟨[], by rw [List.append_nil]; rfl, .nil⟩
  | a :: as, N, h, ha => by
    obtain ⟨B, b1, b2⟩ := addBlock_ok (dbl := dbl) hM h (ha a (by simp)).1 (ha a (by simp)).2
    obtain ⟨Bs, c1, c2⟩ := buildAs_ok (dbl := dbl) hM as { N with atts := N.atts ++ [B] } { h with }
      (fun b hb => ha b (List.mem_cons_of_mem _ hb))
    refine ⟨B :: Bs, ?_, .cons b2 c2⟩
    rw [List.map_cons]
    unfold buildAs
    rw [b1, Res.bind_ok, c1]
    simp

/-- everything that is built from a mesh -/
theorem build_ok {dbl : Dbl D} {M : FMesh D} (hM : M.Ok) (f4 : Bool) :
    ∃ M1 M2 M3 Bs, buildEs 0 (contentsOf M f4).es (buildVs dbl 0 (contentsOf M f4).vs (FMesh.new dbl)) = .ok M1 ∧
      buildFs addF 0 (contentsOf M f4).fs M1 = .ok M2 ∧ buildFs addR 0 (contentsOf M f4).rs M2 = .ok M3 ∧
      buildOpt dbl (contentsOf M f4).as M3 = .ok { M3 with atts := Bs } ∧
      Img dbl M M3 M.vl.length M.el.length M.fl.length M.rl.length ∧
      List.Forall₂ (Carried dbl M) (written M) Bs := by
  have i0 := img_buildVs hM M.vl 0 _ rfl (img_new dbl M)
  rw [Nat.zero_add] at i0
  obtain ⟨M1, h1, i1⟩ := img_buildEs hM M.el 0 _ rfl i0
  rw [Nat.zero_add] at i1
  obtain ⟨M2, h2, i2⟩ := img_buildFs hM M.fl 0 _ rfl i1
  rw [Nat.zero_add] at i2
  obtain ⟨M3, h3, i3⟩ := img_buildRs hM M.rl 0 _ rfl i2
  rw [Nat.zero_add] at i3
  have hw : ∀ a ∈ written M, a.Ok ∧ a.ty ≠ .ptr := by
    intro a ha
    obtain ⟨ha, hw⟩ := List.mem_filter.1 ha
    simp only [ne_eq, decide_not, Bool.and_eq_true, Bool.not_eq_eq_eq_not, Bool.not_true,
      decide_eq_false_iff_not] at hw
    exact ⟨hM.atts a ha hw.1, hw.1⟩
  obtain ⟨Bs, h4, h5⟩ := buildAs_ok (dbl := dbl) hM (written M) M3
    ⟨i3.vl, i3.el, i3.fl, i3.rl, i3.vid, i3.eid, i3.fid, i3.rid⟩ hw
  refine ⟨M1, M2, M3, Bs, h1, h2, h3, ?_, i3, h5⟩
  show buildOpt dbl (if M.atts = [] then none else some ((written M).map (blockOf M))) M3 = _
  split
  · next h0 =>
    have hwn : written M = [] := by unfold written; rw [h0]; rfl
    rw [hwn] at h5
    cases h5
    show Res.ok M3 = _
    rw [← i3.atts]
  · rw [show buildOpt dbl (some ((written M).map (blockOf M))) M3 = buildAs dbl _ M3 from rfl, h4, i3.atts,
      List.nil_append]

end File
end MSTK
