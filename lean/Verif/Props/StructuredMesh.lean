import Verif.BuildLemmas
import Verif.Props.Structured
import Verif.Props.Queries

/-!
C38: the structured mesh as a whole, built by the calls `MESH_Gen_Structured` makes.
-/
namespace MSTK.Gen
open Topo

/-! ### what bounds what in a mesh built from lists -/

theorem faceHas_iff {T : Topo} {n : Nat} {E : List (Nat × Nat)} {F R : List (List Nat)} (h : Built T n E F R)
    (hE : EdgesOk n E) {f e a b : Nat} {w : List Nat} (hf : F[f]? = some w) (he : E[e]? = some (a, b)) :
    T.FaceHas f e ↔ Topo.Next w a b ∨ Topo.Next w b a := by
  have hl := (h.faces f).2 (List.getElem?_eq_some_iff.1 hf).1
  have hel := (h.edges e).2 (List.getElem?_eq_some_iff.1 he).1
  have hw := h.cycles f w hf
  constructor
  · rintro ⟨-, es, h1, h2⟩
    obtain ⟨es', k1, k2, k3⟩ := hw
    rw [h1] at k1; injection k1 with k1; subst k1
    obtain ⟨k, hk⟩ := List.mem_iff_getElem?.1 h2
    obtain ⟨d, -, g1, g2⟩ := k3 k e hk
    rw [meVertex_ok (alloc_of_live hel), h.ends e a b he] at g1 g2
    cases d
    · simp at g1 g2
      exact Or.inr ⟨k, g1.symm, g2.symm⟩
    · simp at g1 g2
      exact Or.inl ⟨k, g1.symm, g2.symm⟩
  · have hne := (hE.ends _ (List.mem_of_getElem? he)).2.2
    have hh := h.edgeHas he
    rintro (hn | hn)
    · obtain ⟨e', g1, g2, g3⟩ := edge_of_next h.cons hl hw hn
      rwa [h.simpleEdges hE e e' a b hne hh.1 hh.2 g2 g3] at g1
    · obtain ⟨e', g1, g2, g3⟩ := edge_of_next h.cons hl hw hn
      rwa [h.simpleEdges hE e e' a b hne hh.1 hh.2 g3 g2] at g1

theorem face_unique {n : Nat} {E : List (Nat × Nat)} {F : List (List Nat)} (hF : FacesOk n E F) {f g : Nat} {w v : List Nat}
    (hf : F[f]? = some w) (hg : F[g]? = some v) (hr : v ~r w ∨ v ~r w.reverse) : f = g := by
  have h1 := (List.getElem?_eq_some_iff.1 hf)
  have h2 := (List.getElem?_eq_some_iff.1 hg)
  obtain ⟨i1, rfl⟩ := h1
  obtain ⟨i2, rfl⟩ := h2
  rcases Nat.lt_trichotomy f g with hlt | heq | hgt
  · have := List.pairwise_iff_getElem.1 hF.once f g i1 i2 hlt
    rcases hr with hr | hr
    · exact absurd hr this.1
    · exact absurd hr this.2
  · exact heq
  · have := List.pairwise_iff_getElem.1 hF.once g f i2 i1 hgt
    rcases hr with hr | hr
    · exact absurd hr.symm this.1
    · refine absurd ?_ this.2
      have := hr.reverse
      rw [List.reverse_reverse] at this
      exact this.symm

theorem regionHas_iff {T : Topo} {n : Nat} {E : List (Nat × Nat)} {F R : List (List Nat)} (h : Built T n E F R)
    (hF : FacesOk n E F) {r f : Nat} {w vs : List Nat} (hf : F[f]? = some w) (hr : R[r]? = some vs) :
    T.RegionHas r f ↔ ∃ c ∈ stdCycles vs, c ~r w ∨ c ~r w.reverse := by
  have hl := (h.regions r).2 (List.getElem?_eq_some_iff.1 hr).1
  obtain ⟨-, fs, h1, h2, h3⟩ := h.uses r vs hr
  have tr : ∀ {d : Bool} {c w : List Nat}, c ~r turned d w → c ~r w ∨ c ~r w.reverse := by
    intro d c w h; cases d
    · exact Or.inr h
    · exact Or.inl h
  constructor
  · rintro ⟨-, d, hd⟩
    have hm := (mrFaceDir_iff h.cons hl).1 hd
    have hmem : f ∈ fs := by
      unfold facesOf at hm
      cases hrf : T.rf r with
      | none => rw [hrf] at hm; cases hm
      | some l =>
        rw [hrf] at hm
        have := rfaces_ok (alloc_of_live hl) hrf
        rw [show T.rfaces r = T.mrFaces r from rfl, h1] at this
        injection this with this
        subst this
        exact mem_of_mem_pairs hm
    obtain ⟨i, hi⟩ := List.mem_iff_getElem?.1 hmem
    have hlt := (List.getElem?_eq_some_iff.1 hi).1
    have hc := List.getElem?_eq_getElem (l := stdCycles vs) (i := i) (by omega)
    obtain ⟨-, d', -, hs⟩ := h3 i _ f hc hi
    have hcm := List.mem_of_getElem? hc
    exact ⟨_, hcm, tr ((h.seen_iff' hF hf (stdCycles_ne hcm)).1 hs)⟩
  · rintro ⟨c, hc, hcw⟩
    obtain ⟨i, hi⟩ := List.mem_iff_getElem?.1 hc
    have hlt := (List.getElem?_eq_some_iff.1 hi).1
    have hg := List.getElem?_eq_getElem (l := fs) (i := i) (by omega)
    obtain ⟨-, d', hd, hs⟩ := h3 i c _ hi hg
    have hgl : T.sf fs[i] = .live := h.cons.fr.down r _ d' hl ((mrFaceDir_iff h.cons hl).1 hd)
    have hF' := List.getElem?_eq_getElem ((h.faces fs[i]).1 hgl)
    have hcw' := tr ((h.seen_iff' hF hF' (stdCycles_ne hc)).1 hs)
    have : f = fs[i] := by
      refine face_unique hF hf hF' ?_
      rcases hcw with a | a <;> rcases hcw' with b | b
      · exact Or.inl (b.symm.trans a)
      · right
        have := (b.symm.trans a).reverse
        rwa [List.reverse_reverse] at this
      · exact Or.inr (b.symm.trans a)
      · left
        have := (b.symm.trans a).reverse
        rwa [List.reverse_reverse, List.reverse_reverse] at this
    rw [this]
    exact ⟨hl, d', hd⟩

/-! ### grid geometry -/

/-- the six sides of a cube, seen from outside -/
def cubeSides : List Pos → List (List Pos)
  | [a,b,c,d,e,f,g,h] => [[a,d,c,b],[e,f,g,h],[a,b,f,e],[b,c,g,f],[c,d,h,g],[d,a,e,h]]
  | _ => []

theorem square_eq {q q' : List Pos} (h : Square q) (h' : Square q') (hs : ∀ p ∈ q', p ∈ q) : q = q' := by
  obtain ⟨i, j, k, h⟩ := h
  obtain ⟨i', j', k', h'⟩ := h'
  rcases h with rfl | rfl | rfl <;> rcases h' with rfl | rfl | rfl <;>
  · simp only [List.forall_mem_cons, List.not_mem_nil, false_imp_iff, implies_true, and_true] at hs
    simp only [List.mem_cons, List.not_mem_nil, or_false, Prod.mk.injEq] at hs
    obtain ⟨h1, h2, h3, h4⟩ := hs
    have : i = i' ∧ j = j' ∧ k = k' := by omega
    first
      | (obtain ⟨rfl, rfl, rfl⟩ := this; rfl)
      | omega

theorem rot4 {α : Type} {a b c d : α} {w : List α} (h : w ~r [a,b,c,d]) :
    w = [a,b,c,d] ∨ w = [b,c,d,a] ∨ w = [c,d,a,b] ∨ w = [d,a,b,c] := by
  obtain ⟨n, hn, h⟩ := List.isRotated_iff_mod.1 h.symm
  simp only [List.length_cons, List.length_nil] at hn
  have : n = 0 ∨ n = 1 ∨ n = 2 ∨ n = 3 ∨ n = 4 := by omega
  rcases this with rfl | rfl | rfl | rfl | rfl <;> simp [← h]

theorem next4 {a b c d x y : Nat} (h : Topo.Next [a,b,c,d] x y) :
    (x = a ∧ y = b) ∨ (x = b ∧ y = c) ∨ (x = c ∧ y = d) ∨ (x = d ∧ y = a) := by
  obtain ⟨k, h1, h2⟩ := h
  have hk := (List.getElem?_eq_some_iff.1 h1).1
  simp only [List.length_cons, List.length_nil] at hk
  have : k = 0 ∨ k = 1 ∨ k = 2 ∨ k = 3 := by omega
  rcases this with rfl | rfl | rfl | rfl <;> simp at h1 h2 <;> simp [h1, h2]

/-- different cubes do not have a side in common that looks the same from outside both -/
theorem cube_once {q q' c c' : List Pos} (h : Cube q) (h' : Cube q') (hc : c ∈ cubeSides q) (hc' : c' ∈ cubeSides q')
    (hr : c' ~r c) : q = q' := by
  obtain ⟨i, j, k, rfl⟩ := h
  obtain ⟨i', j', k', rfl⟩ := h'
  simp only [cubeSides, List.mem_cons, List.not_mem_nil, or_false] at hc hc'
  have : i = i' ∧ j = j' ∧ k = k' := by
    rcases hc with rfl | rfl | rfl | rfl | rfl | rfl <;>
    · have hr := rot4 hr
      rcases hc' with rfl | rfl | rfl | rfl | rfl | rfl <;>
      · simp only [List.cons.injEq, Prod.mk.injEq, and_true] at hr
        omega
  obtain ⟨rfl, rfl, rfl⟩ := this
  rfl

theorem side_sub {q c : List Pos} (h : Cube q) (hc : c ∈ cubeSides q) : ∀ p ∈ c, p ∈ q := by
  obtain ⟨i, j, k, rfl⟩ := h
  simp only [cubeSides, List.mem_cons, List.not_mem_nil, or_false] at hc
  rcases hc with rfl | rfl | rfl | rfl | rfl | rfl <;> simp

theorem side_square {q c : List Pos} (h : Cube q) (hc : c ∈ cubeSides q) :
    ∃ w, Square w ∧ (∀ p ∈ w, p ∈ q) ∧ (c ~r w ∨ c ~r w.reverse) := by
  obtain ⟨i, j, k, rfl⟩ := h
  simp only [cubeSides, List.mem_cons, List.not_mem_nil, or_false] at hc
  rcases hc with rfl | rfl | rfl | rfl | rfl | rfl
  · exact ⟨_, ⟨i, j, k, Or.inr (Or.inr rfl)⟩, by simp, Or.inr ⟨1, rfl⟩⟩
  · exact ⟨_, ⟨i, j, k+1, Or.inr (Or.inr rfl)⟩, by simp, Or.inl ⟨0, rfl⟩⟩
  · exact ⟨_, ⟨i, j, k, Or.inr (Or.inl rfl)⟩, by simp, Or.inl ⟨0, rfl⟩⟩
  · exact ⟨_, ⟨i+1, j, k, Or.inl rfl⟩, by simp, Or.inl ⟨0, rfl⟩⟩
  · exact ⟨_, ⟨i, j+1, k, Or.inr (Or.inl rfl)⟩, by simp, Or.inr ⟨2, rfl⟩⟩
  · exact ⟨_, ⟨i, j, k, Or.inl rfl⟩, by simp, Or.inr ⟨2, rfl⟩⟩

theorem square_side {q w : List Pos} (h : Cube q) (hw : Square w) (hs : ∀ p ∈ w, p ∈ q) :
    ∃ c ∈ cubeSides q, c ~r w ∨ c ~r w.reverse := by
  obtain ⟨i, j, k, rfl⟩ := h
  obtain ⟨i', j', k', hw⟩ := hw
  rcases hw with rfl | rfl | rfl
  · simp only [List.forall_mem_cons, List.not_mem_nil, false_imp_iff, implies_true, and_true] at hs
    simp only [List.mem_cons, List.not_mem_nil, or_false, Prod.mk.injEq] at hs
    have : (i' = i ∨ i' = i+1) ∧ j' = j ∧ k' = k := by omega
    obtain ⟨rfl | rfl, rfl, rfl⟩ := this
    · exact ⟨[(i',j'+1,k'), (i',j',k'), (i',j',k'+1), (i',j'+1,k'+1)], by simp [cubeSides], Or.inr ⟨2, rfl⟩⟩
    · exact ⟨[(i+1,j',k'), (i+1,j'+1,k'), (i+1,j'+1,k'+1), (i+1,j',k'+1)], by simp [cubeSides], Or.inl ⟨0, rfl⟩⟩
  · simp only [List.forall_mem_cons, List.not_mem_nil, false_imp_iff, implies_true, and_true] at hs
    simp only [List.mem_cons, List.not_mem_nil, or_false, Prod.mk.injEq] at hs
    have : (j' = j ∨ j' = j+1) ∧ i' = i ∧ k' = k := by omega
    obtain ⟨rfl | rfl, rfl, rfl⟩ := this
    · exact ⟨[(i',j',k'), (i'+1,j',k'), (i'+1,j',k'+1), (i',j',k'+1)], by simp [cubeSides], Or.inl ⟨0, rfl⟩⟩
    · exact ⟨[(i'+1,j+1,k'), (i',j+1,k'), (i',j+1,k'+1), (i'+1,j+1,k'+1)], by simp [cubeSides], Or.inr ⟨2, rfl⟩⟩
  · simp only [List.forall_mem_cons, List.not_mem_nil, false_imp_iff, implies_true, and_true] at hs
    simp only [List.mem_cons, List.not_mem_nil, or_false, Prod.mk.injEq] at hs
    have : (k' = k ∨ k' = k+1) ∧ i' = i ∧ j' = j := by omega
    obtain ⟨rfl | rfl, rfl, rfl⟩ := this
    · exact ⟨[(i',j',k'), (i',j'+1,k'), (i'+1,j'+1,k'), (i'+1,j',k')], by simp [cubeSides], Or.inr ⟨1, rfl⟩⟩
    · exact ⟨[(i',j',k+1), (i'+1,j',k+1), (i'+1,j'+1,k+1), (i',j'+1,k+1)], by simp [cubeSides], Or.inl ⟨0, rfl⟩⟩

theorem next_ne {p q : Pos} (h : Next p q) : p ≠ q := by
  obtain ⟨i, j, k⟩ := p
  rintro rfl
  simp only [Next, Prod.mk.injEq] at h
  omega

theorem next_asymm {p q : Pos} (h : Next p q) : ¬ Next q p := by
  obtain ⟨i, j, k⟩ := p
  obtain ⟨i', j', k'⟩ := q
  simp only [Next, Prod.mk.injEq] at h ⊢
  omega

theorem square_nodup {q : List Pos} (h : Square q) : q.Nodup := by
  obtain ⟨i, j, k, rfl | rfl | rfl⟩ := h <;> simp

theorem cube_nodup {q : List Pos} (h : Cube q) : q.Nodup := by
  obtain ⟨i, j, k, rfl⟩ := h; simp

theorem square_length {q : List Pos} (h : Square q) : q.length = 4 := by
  obtain ⟨i, j, k, rfl | rfl | rfl⟩ := h <;> rfl

theorem cube_length {q : List Pos} (h : Cube q) : q.length = 8 := by
  obtain ⟨i, j, k, rfl⟩ := h; rfl

theorem around_mem {q : List Pos} {p p' : Pos} (hn : (p, p') ∈ around q) : p ∈ q ∧ p' ∈ q := by
  unfold around at hn
  have := List.of_mem_zip hn
  exact ⟨this.1, List.mem_rotate.1 this.2⟩

/-- consecutive corners of a square, in either direction, are the neighbours among its corners -/
theorem square_next {q : List Pos} (h : Square q) {p p' : Pos} (hn : Next p p') :
    ((p, p') ∈ around q ∨ (p', p) ∈ around q) ↔ p ∈ q ∧ p' ∈ q := by
  constructor
  · rintro (h1 | h1)
    · exact around_mem h1
    · exact (around_mem h1).symm
  rintro ⟨h1, h2⟩
  obtain ⟨i, j, k, hq⟩ := h
  rcases hq with rfl | rfl | rfl <;>
  · simp only [List.mem_cons, List.not_mem_nil, or_false] at h1 h2
    rcases h1 with rfl | rfl | rfl | rfl <;> rcases h2 with rfl | rfl | rfl | rfl <;>
    first
      | (left; simp [around]; done)
      | (right; simp [around]; done)
      | (exfalso; simp only [Next, Prod.mk.injEq] at hn; omega)

/-! ### names of the vertices -/

section
variable {G : Pos → Prop} {h : Pos → Nat} (inj : ∀ p q, G p → G q → h p = h q → p = q)
include inj

theorem map_inj_on : ∀ {w w' : List Pos}, (∀ p ∈ w, G p) → (∀ p ∈ w', G p) → w.map h = w'.map h → w = w'
  | [], [], _, _, _ => rfl
  | [], _ :: _, _, _, e => by cases e
  | _ :: _, [], _, _, e => by cases e
  | a :: w, b :: w', h1, h2, e => by
    rw [List.map_cons, List.map_cons, List.cons.injEq] at e
    rw [List.forall_mem_cons] at h1 h2
    rw [inj a b h1.1 h2.1 e.1, map_inj_on h1.2 h2.2 e.2]

theorem rot_of_map {w w' : List Pos} (h1 : ∀ p ∈ w, G p) (h2 : ∀ p ∈ w', G p) (hr : w.map h ~r w'.map h) : w ~r w' := by
  obtain ⟨n, e⟩ := hr
  rw [← List.map_rotate] at e
  exact ⟨n, map_inj_on inj (fun p hp => h1 p (List.mem_rotate.1 hp)) h2 e⟩

theorem nodup_map_on {w : List Pos} (h1 : ∀ p ∈ w, G p) (hn : w.Nodup) : (w.map h).Nodup :=
  List.Nodup.map_on (fun _ hx _ hy e => inj _ _ (h1 _ hx) (h1 _ hy) e) hn

end

theorem next_map {h : Pos → Nat} {q : List Pos} (hq : Square q) {a b : Nat} :
    Topo.Next (q.map h) a b ↔ ∃ p p', (p, p') ∈ around q ∧ a = h p ∧ b = h p' := by
  obtain ⟨x, y, z, w, rfl⟩ : ∃ x y z w, q = [x, y, z, w] := by
    obtain ⟨i, j, k, rfl | rfl | rfl⟩ := hq <;> exact ⟨_, _, _, _, rfl⟩
  simp only [around, List.rotate_cons_succ, List.rotate_zero, List.cons_append, List.nil_append, List.zip_cons_cons,
      List.zip_nil_left, List.mem_cons, List.not_mem_nil, or_false]
  constructor
  · intro hn
    rcases next4 hn with ⟨rfl, rfl⟩ | ⟨rfl, rfl⟩ | ⟨rfl, rfl⟩ | ⟨rfl, rfl⟩
    · exact ⟨x, y, by simp, rfl, rfl⟩
    · exact ⟨y, z, by simp, rfl, rfl⟩
    · exact ⟨z, w, by simp, rfl, rfl⟩
    · exact ⟨w, x, by simp, rfl, rfl⟩
  · rintro ⟨p, p', hp, rfl, rfl⟩
    simp only [Prod.mk.injEq] at hp
    rcases hp with ⟨rfl, rfl⟩ | ⟨rfl, rfl⟩ | ⟨rfl, rfl⟩ | ⟨rfl, rfl⟩
    · exact ⟨0, rfl, rfl⟩
    · exact ⟨1, rfl, rfl⟩
    · exact ⟨2, rfl, rfl⟩
    · exact ⟨3, rfl, by simp⟩

theorem stdCycles_map {h : Pos → Nat} {q : List Pos} (hq : Cube q) :
    stdCycles (q.map h) = (cubeSides q).map (·.map h) := by
  obtain ⟨i, j, k, rfl⟩ := hq; rfl

/-! ### the lists are fit for building -/

/-- `verts[i][j][k]`: the vertex made for a position -/
def Plan3.at (P : Plan3) (p : Pos) : Nat := (P.verts.map (·.1)).idxOf p

theorem plan_ok {nx ny nz : Nat} (hx : 0 < nx) (hy : 0 < ny) (hz : 0 < nz) :
    ∃ P, gen3 nx ny nz = .ok P ∧
      (∀ p q, InGrid nx ny nz p → InGrid nx ny nz q → P.at p = P.at q → p = q) ∧
      (∀ v x, P.verts[v]? = some x → P.at x.1 = v) ∧
      EdgesOk P.verts.length (P.edges.map fun e => (P.at e.1.1, P.at e.1.2)) ∧
      FacesOk P.verts.length (P.edges.map fun e => (P.at e.1.1, P.at e.1.2)) (P.faces.map fun f => f.1.map P.at) ∧
      RegionsOk P.verts.length (P.faces.map fun f => f.1.map P.at) (P.regions.map fun r => r.1.map P.at) := by
  obtain ⟨P, h0, hvn, hv, -, -, hen, he, -, -, hfn, hf, -, -, hrn, hr, -⟩ := C38_entities hx hy hz
  obtain ⟨Q, -, q0, -, hs, -⟩ := C38_sides hx hy hz
  rw [h0] at q0; injection q0 with q0; subst q0
  have inj : ∀ p q, InGrid nx ny nz p → InGrid nx ny nz q → P.at p = P.at q → p = q := fun p q h1 h2 e =>
    (List.idxOf_inj ((hv p).2 h1)).1 e
  have lt : ∀ p, InGrid nx ny nz p → P.at p < P.verts.length := fun p h1 => by
    have := List.idxOf_lt_length_of_mem ((hv p).2 h1)
    rwa [List.length_map] at this
  have memE : ∀ x ∈ P.edges, Next x.1.1 x.1.2 ∧ InGrid nx ny nz x.1.1 ∧ InGrid nx ny nz x.1.2 := fun x hx =>
    (he x.1.1 x.1.2).1 (List.mem_map.2 ⟨x, hx, rfl⟩)
  have memF : ∀ x ∈ P.faces, Square x.1 ∧ ∀ p ∈ x.1, InGrid nx ny nz p := fun x hx =>
    (hf x.1).1 (List.mem_map.2 ⟨x, hx, rfl⟩)
  have memR : ∀ x ∈ P.regions, Cube x.1 ∧ ∀ p ∈ x.1, InGrid nx ny nz p := fun x hx =>
    (hr x.1).1 (List.mem_map.2 ⟨x, hx, rfl⟩)
  refine ⟨P, h0, inj, ?_, ⟨?_, ?_⟩, ⟨?_, ?_, ?_, ?_, ?_⟩, ⟨?_, ?_, ?_, ?_, ?_⟩⟩
  · intro v x hvx
    obtain ⟨hlt, rfl⟩ := List.getElem?_eq_some_iff.1 hvx
    have := List.Nodup.idxOf_getElem hvn v (by rw [List.length_map]; exact hlt)
    rwa [List.getElem_map] at this
  · simp only [List.forall_mem_map]
    intro x hx
    obtain ⟨h1, h2, h3⟩ := memE x hx
    exact ⟨lt _ h2, lt _ h3, fun e => next_ne h1 (inj _ _ h2 h3 e)⟩
  · rw [List.pairwise_map]
    have : P.edges.Pairwise fun x y => x.1 ≠ y.1 := List.pairwise_map.1 hen
    refine this.imp_of_mem fun {x y} hx hy hne => ?_
    obtain ⟨h1, h2, h3⟩ := memE x hx
    obtain ⟨g1, g2, g3⟩ := memE y hy
    constructor
    · intro e
      rw [Prod.mk.injEq] at e
      exact hne (Prod.ext (inj _ _ h2 g2 e.1) (inj _ _ h3 g3 e.2))
    · intro e
      rw [Prod.swap_prod_mk, Prod.mk.injEq] at e
      have e1 := inj _ _ h2 g3 e.1
      have e2 := inj _ _ h3 g2 e.2
      rw [e1, e2] at h1
      exact next_asymm g1 h1
  · simp only [List.forall_mem_map]
    intro x hx
    obtain ⟨h1, h2⟩ := memF x hx
    exact nodup_map_on inj h2 (square_nodup h1)
  · simp only [List.forall_mem_map, List.length_map]
    intro x hx
    rw [square_length (memF x hx).1]; omega
  · simp only [List.forall_mem_map]
    intro x hx p hp
    exact lt _ ((memF x hx).2 p hp)
  · simp only [List.forall_mem_map]
    intro x hx a b hab
    obtain ⟨h1, h2⟩ := memF x hx
    obtain ⟨p, p', hp, rfl, rfl⟩ := (next_map h1).1 hab
    have := hs x.1 (List.mem_map.2 ⟨x, hx, rfl⟩) _ hp
    rcases this with h | h
    · obtain ⟨y, hy, e⟩ := List.mem_map.1 h
      exact Or.inl (List.mem_map.2 ⟨y, hy, by rw [e]⟩)
    · obtain ⟨y, hy, e⟩ := List.mem_map.1 h
      exact Or.inr (List.mem_map.2 ⟨y, hy, by rw [e]⟩)
  · rw [List.pairwise_map]
    have : P.faces.Pairwise fun x y => x.1 ≠ y.1 := List.pairwise_map.1 hfn
    refine this.imp_of_mem fun {x y} hx hy hne => ?_
    obtain ⟨h1, h2⟩ := memF x hx
    obtain ⟨g1, g2⟩ := memF y hy
    constructor
    · intro hr
      have := rot_of_map inj g2 h2 hr
      exact hne (square_eq h1 g1 fun p hp => this.mem_iff.1 hp)
    · intro hr
      rw [← List.map_reverse] at hr
      have := rot_of_map inj g2 (fun p hp => h2 p (List.mem_reverse.1 hp)) hr
      exact hne (square_eq h1 g1 fun p hp => List.mem_reverse.1 (this.mem_iff.1 hp))
  · simp only [List.forall_mem_map]
    intro x hx
    obtain ⟨h1, h2⟩ := memR x hx
    exact nodup_map_on inj h2 (cube_nodup h1)
  · simp only [List.forall_mem_map, List.length_map]
    intro x hx
    rw [cube_length (memR x hx).1]; omega
  · simp only [List.forall_mem_map]
    intro x hx p hp
    exact lt _ ((memR x hx).2 p hp)
  · simp only [List.forall_mem_map]
    intro x hx c hc
    obtain ⟨h1, h2⟩ := memR x hx
    rw [stdCycles_map h1] at hc
    obtain ⟨s, hs, rfl⟩ := List.mem_map.1 hc
    obtain ⟨w, hw, hsub, hrot⟩ := side_square h1 hs
    obtain ⟨y, hy, rfl⟩ := List.mem_map.1 ((hf w).2 ⟨hw, fun p hp => h2 p (hsub p hp)⟩)
    refine ⟨_, List.mem_map.2 ⟨y, hy, rfl⟩, ?_⟩
    rw [← List.map_reverse]
    rcases hrot with h | h
    · exact Or.inl (h.map _)
    · exact Or.inr (h.map _)
  · rw [List.pairwise_map]
    have : P.regions.Pairwise fun x y => x.1 ≠ y.1 := List.pairwise_map.1 hrn
    refine this.imp_of_mem fun {x y} hx hy hne => ?_
    obtain ⟨h1, h2⟩ := memR x hx
    obtain ⟨g1, g2⟩ := memR y hy
    rw [stdCycles_map h1, stdCycles_map g1]
    simp only [List.forall_mem_map]
    intro c hc c' hc' hr
    have := rot_of_map inj (fun p hp => g2 p (side_sub g1 hc' p hp)) (fun p hp => h2 p (side_sub h1 hc p hp)) hr
    exact hne (cube_once h1 g1 hc hc' this)

/-! ### the property -/

/-- **C38 (the 3D mesh).**  The calls succeed on an empty mesh.  The result is a consistent mesh with exactly
the planned vertices, edges, faces and regions: nothing is made on the side.  An edge goes from its first to its
second point, a face goes round its square, a region is a hexahedron whose faces, in order, are the sides of its
cube, each seen from outside.  An entity bounds another exactly if the corners of the one are among the corners
of the other. -/
theorem C38_mesh {nx ny nz : Nat} (hx : 0 < nx) (hy : 0 < ny) (hz : 0 < nz) :
    ∃ P T, gen3 nx ny nz = .ok P ∧ run3 nx ny nz = .ok T ∧ T.Consistent ∧
    -- entities
    (∀ v, T.sv v = .live ↔ v < P.verts.length) ∧ (∀ e, T.se e = .live ↔ e < P.edges.length) ∧
    (∀ f, T.sf f = .live ↔ f < P.faces.length) ∧ (∀ r, T.sr r = .live ↔ r < P.regions.length) ∧
    -- the vertices' names
    (∀ v x, P.verts[v]? = some x → P.at x.1 = v) ∧
    -- definitions
    (∀ e x, P.edges[e]? = some x →
      T.meVertex e false = .ok (some (P.at x.1.1)) ∧ T.meVertex e true = .ok (some (P.at x.1.2))) ∧
    (∀ f x, P.faces[f]? = some x → T.mfVertices f true none = .ok (x.1.map fun p => some (P.at p))) ∧
    (∀ r x, P.regions[r]? = some x → T.mrElementType r = .ok .hex ∧
      ∃ fs, T.mrFaces r = .ok fs ∧ fs.length = 6 ∧
        ∀ (i : Nat) c f, (cubeSides x.1)[i]? = some c → fs[i]? = some f → T.Uses r f (c.map P.at)) ∧
    -- incidence
    (∀ f x e y, P.faces[f]? = some x → P.edges[e]? = some y → (T.FaceHas f e ↔ y.1.1 ∈ x.1 ∧ y.1.2 ∈ x.1)) ∧
    (∀ r x f y, P.regions[r]? = some x → P.faces[f]? = some y → (T.RegionHas r f ↔ ∀ p ∈ y.1, p ∈ x.1)) := by
  obtain ⟨P, h0, inj, hat, hE, hF, hR⟩ := plan_ok hx hy hz
  obtain ⟨P', h0', -, -, -, -, -, he, -, -, -, hf, -, -, -, hr, -⟩ := C38_entities hx hy hz
  rw [h0] at h0'; injection h0' with h0'; subst h0'
  have memE : ∀ x ∈ P.edges, Next x.1.1 x.1.2 ∧ InGrid nx ny nz x.1.1 ∧ InGrid nx ny nz x.1.2 := fun x hx =>
    (he x.1.1 x.1.2).1 (List.mem_map.2 ⟨x, hx, rfl⟩)
  have memF : ∀ x ∈ P.faces, Square x.1 ∧ ∀ p ∈ x.1, InGrid nx ny nz p := fun x hx =>
    (hf x.1).1 (List.mem_map.2 ⟨x, hx, rfl⟩)
  have memR : ∀ x ∈ P.regions, Cube x.1 ∧ ∀ p ∈ x.1, InGrid nx ny nz p := fun x hx =>
    (hr x.1).1 (List.mem_map.2 ⟨x, hx, rfl⟩)
  obtain ⟨T, hT, hB⟩ := build_ok hE hF hR
  have tabE : ∀ (e : Nat) x, P.edges[e]? = some x →
      (P.edges.map fun e => (P.at e.1.1, P.at e.1.2))[e]? = some (P.at x.1.1, P.at x.1.2) := fun e x h => by
    rw [List.getElem?_map, h]; rfl
  have tabF : ∀ (f : Nat) x, P.faces[f]? = some x → (P.faces.map fun f => f.1.map P.at)[f]? = some (x.1.map P.at) := fun f x h => by
    rw [List.getElem?_map, h]; rfl
  have tabR : ∀ (r : Nat) x, P.regions[r]? = some x → (P.regions.map fun f => f.1.map P.at)[r]? = some (x.1.map P.at) := fun f x h => by
    rw [List.getElem?_map, h]; rfl
  refine ⟨P, T, h0, ?_, hB.cons, hB.verts, ?_, ?_, ?_, hat, ?_, ?_, ?_, ?_, ?_⟩
  · unfold run3
    rw [h0, Res.bind_ok]
    exact hT
  · intro e; rw [hB.edges, List.length_map]
  · intro e; rw [hB.faces, List.length_map]
  · intro e; rw [hB.regions, List.length_map]
  · intro e x h
    have h1 := tabE e x h
    have hl := (hB.edges e).2 (List.getElem?_eq_some_iff.1 h1).1
    rw [meVertex_ok (alloc_of_live hl), meVertex_ok (alloc_of_live hl), hB.ends e _ _ h1]
    exact ⟨rfl, rfl⟩
  · intro f x h
    have h1 := tabF f x h
    have hl := (hB.faces f).2 (List.getElem?_eq_some_iff.1 h1).1
    rw [C23_vertices hl (hB.cycles f _ h1) true, if_pos rfl, List.map_map]
    rfl
  · intro r x h
    obtain ⟨h1, fs, h2, h3, h4⟩ := hB.uses r _ (tabR r x h)
    have hc := (memR x (List.mem_of_getElem? h)).1
    rw [List.length_map, cube_length hc] at h1
    rw [stdCycles_map hc] at h3 h4
    refine ⟨h1, fs, h2, ?_, fun i c f hi hfi => h4 i _ f (by rw [List.getElem?_map, hi]; rfl) hfi⟩
    rw [h3, List.length_map]
    obtain ⟨i, j, k, hq⟩ := hc
    rw [hq]; rfl
  · intro f x e y h h'
    obtain ⟨hs, hg⟩ := memF x (List.mem_of_getElem? h)
    obtain ⟨hn, g1, g2⟩ := memE y (List.mem_of_getElem? h')
    rw [faceHas_iff hB hE (tabF f x h) (tabE e y h'), ← square_next hs hn, next_map hs, next_map hs]
    constructor
    · rintro (⟨p, p', hp, e1, e2⟩ | ⟨p, p', hp, e1, e2⟩)
      · have hm := around_mem hp
        rw [inj _ _ g1 (hg p hm.1) e1, inj _ _ g2 (hg p' hm.2) e2]
        exact Or.inl hp
      · have hm := around_mem hp
        rw [inj _ _ g2 (hg p hm.1) e1, inj _ _ g1 (hg p' hm.2) e2]
        exact Or.inr hp
    · rintro (hp | hp)
      · exact Or.inl ⟨_, _, hp, rfl, rfl⟩
      · exact Or.inr ⟨_, _, hp, rfl, rfl⟩
  · intro r x f y h h'
    obtain ⟨hc, hg⟩ := memR x (List.mem_of_getElem? h)
    obtain ⟨hs, hg'⟩ := memF y (List.mem_of_getElem? h')
    rw [regionHas_iff hB hF (tabF f y h') (tabR r x h), stdCycles_map hc]
    constructor
    · rintro ⟨c, hcm, hrot⟩
      obtain ⟨s, hs', rfl⟩ := List.mem_map.1 hcm
      have hsg : ∀ p ∈ s, InGrid nx ny nz p := fun p hp => hg p (side_sub hc hs' p hp)
      intro p hp
      refine side_sub hc hs' p ?_
      rw [← List.map_reverse] at hrot
      rcases hrot with hrot | hrot
      · exact (rot_of_map inj hsg hg' hrot).mem_iff.2 hp
      · exact (rot_of_map inj hsg (fun p hp => hg' p (List.mem_reverse.1 hp)) hrot).mem_iff.2 (List.mem_reverse.2 hp)
    · intro hsub
      obtain ⟨c, hcm, hrot⟩ := square_side hc hs hsub
      refine ⟨_, List.mem_map.2 ⟨c, hcm, rfl⟩, ?_⟩
      rw [← List.map_reverse]
      rcases hrot with hrot | hrot
      · exact Or.inl (hrot.map _)
      · exact Or.inr (hrot.map _)

theorem sideOf_mid {n i : Nat} (hn : 0 < n) (hi : i ≤ n) : sideOf (idx n i) = .mid ↔ 0 < i ∧ i < n := by
  rcases idx_cases hn hi with ⟨h1, h2⟩ | ⟨h1, h2⟩ | ⟨h1, h3, h2⟩ <;> rw [h2] <;> simp [sideOf] <;> omega

/-- the cube with the given lowest corner -/
def cubeAt (i j k : Nat) : List Pos :=
  [(i,j,k), (i+1,j,k), (i+1,j+1,k), (i,j+1,k), (i,j,k+1), (i+1,j,k+1), (i+1,j+1,k+1), (i,j+1,k+1)]

theorem mem_cubeAt {i j k a b c : Nat} : (a, b, c) ∈ cubeAt i j k ↔ (a = i ∨ a = i+1) ∧ (b = j ∨ b = j+1) ∧ (c = k ∨ c = k+1) := by
  simp only [cubeAt, List.mem_cons, List.not_mem_nil, or_false, Prod.mk.injEq]
  omega

theorem cubeAt_grid {nx ny nz i j k : Nat} : (∀ p ∈ cubeAt i j k, InGrid nx ny nz p) ↔ i < nx ∧ j < ny ∧ k < nz := by
  simp only [cubeAt, List.forall_mem_cons, List.not_mem_nil, false_imp_iff, implies_true, and_true, InGrid]
  omega

/-- A square of the grid is a side of one or two cubes of the grid; of two exactly if it is classified on the
inside of the box. -/
theorem square_cubes {nx ny nz : Nat} (hx : 0 < nx) (hy : 0 < ny) (hz : 0 < nz) {q : List Pos} (hq : Square q)
    (hg : ∀ p ∈ q, InGrid nx ny nz p) :
    (∃ i j k, (∀ p ∈ cubeAt i j k, InGrid nx ny nz p) ∧ ∀ p ∈ q, p ∈ cubeAt i j k) ∧
    ((boxOf nx ny nz q).1 = 3 ↔ ∃ i j k i' j' k', (i, j, k) ≠ (i', j', k') ∧
      (∀ p ∈ cubeAt i j k, InGrid nx ny nz p) ∧ (∀ p ∈ q, p ∈ cubeAt i j k) ∧
      (∀ p ∈ cubeAt i' j' k', InGrid nx ny nz p) ∧ (∀ p ∈ q, p ∈ cubeAt i' j' k')) := by
  obtain ⟨i, j, k, rfl | rfl | rfl⟩ := hq
  · simp only [List.forall_mem_cons, List.not_mem_nil, false_imp_iff, implies_true, and_true, InGrid] at hg
    have hb : (boxOf nx ny nz [(i,j,k), (i,j+1,k), (i,j+1,k+1), (i,j,k+1)]).1 = 3 ↔ 0 < i ∧ i < nx := by
      unfold boxOf
      rw [side_const (i := i) hx (by omega) (by simp) (by simp), side_mid (i := j) (by simp) (by simp),
        side_mid (i := k) (by simp) (by simp), ← sideOf_mid hx (by omega)]
      cases sideOf (idx nx i) <;> decide
    simp only [hb, cubeAt_grid, List.forall_mem_cons, List.not_mem_nil, false_imp_iff, implies_true, and_true, mem_cubeAt]
    refine ⟨⟨if i < nx then i else i - 1, j, k, ?_⟩, ⟨fun h => ⟨i, j, k, i - 1, j, k, ?_⟩, ?_⟩⟩
    · split <;> omega
    · simp only [ne_eq, Prod.mk.injEq, and_true, true_and, true_or, or_true, and_self]; omega
    · rintro ⟨a, b, c, a', b', c', h⟩
      simp only [ne_eq, Prod.mk.injEq] at h
      omega
  · simp only [List.forall_mem_cons, List.not_mem_nil, false_imp_iff, implies_true, and_true, InGrid] at hg
    have hb : (boxOf nx ny nz [(i,j,k), (i+1,j,k), (i+1,j,k+1), (i,j,k+1)]).1 = 3 ↔ 0 < j ∧ j < ny := by
      unfold boxOf
      rw [side_mid (i := i) (by simp) (by simp), side_const (i := j) hy (by omega) (by simp) (by simp),
        side_mid (i := k) (by simp) (by simp), ← sideOf_mid hy (by omega)]
      cases sideOf (idx ny j) <;> decide
    simp only [hb, cubeAt_grid, List.forall_mem_cons, List.not_mem_nil, false_imp_iff, implies_true, and_true, mem_cubeAt]
    refine ⟨⟨i, if j < ny then j else j - 1, k, ?_⟩, ⟨fun h => ⟨i, j, k, i, j - 1, k, ?_⟩, ?_⟩⟩
    · split <;> omega
    · simp only [ne_eq, Prod.mk.injEq, and_true, true_and, true_or, or_true, and_self]; omega
    · rintro ⟨a, b, c, a', b', c', h⟩
      simp only [ne_eq, Prod.mk.injEq] at h
      omega
  · simp only [List.forall_mem_cons, List.not_mem_nil, false_imp_iff, implies_true, and_true, InGrid] at hg
    have hb : (boxOf nx ny nz [(i,j,k), (i+1,j,k), (i+1,j+1,k), (i,j+1,k)]).1 = 3 ↔ 0 < k ∧ k < nz := by
      unfold boxOf
      rw [side_mid (i := i) (by simp) (by simp), side_mid (i := j) (by simp) (by simp),
        side_const (i := k) hz (by omega) (by simp) (by simp), ← sideOf_mid hz (by omega)]
      cases sideOf (idx nz k) <;> decide
    simp only [hb, cubeAt_grid, List.forall_mem_cons, List.not_mem_nil, false_imp_iff, implies_true, and_true, mem_cubeAt]
    refine ⟨⟨i, j, if k < nz then k else k - 1, ?_⟩, ⟨fun h => ⟨i, j, k, i, j, k - 1, ?_⟩, ?_⟩⟩
    · split <;> omega
    · simp only [ne_eq, Prod.mk.injEq, true_and, true_or, or_true, and_self]; omega
    · rintro ⟨a, b, c, a', b', c', h⟩
      simp only [ne_eq, Prod.mk.injEq] at h
      omega

/-- **C38 (boundary).**  Every face of the mesh has a region, and it has two exactly if it is classified on the
inside of the box. -/
theorem C38_boundary {nx ny nz : Nat} (hx : 0 < nx) (hy : 0 < ny) (hz : 0 < nz) :
    ∃ P T, gen3 nx ny nz = .ok P ∧ run3 nx ny nz = .ok T ∧ ∀ f x, P.faces[f]? = some x →
      (∃ r, T.RegionHas r f) ∧ (x.2.1 = 3 ↔ ∃ r r', r ≠ r' ∧ T.RegionHas r f ∧ T.RegionHas r' f) := by
  obtain ⟨P, T, h0, hT, hcons, -, -, -, hlr, -, -, -, -, -, hinc⟩ := C38_mesh hx hy hz
  obtain ⟨P', h0', -, -, -, -, -, -, -, -, -, hf, hfc, -, -, hr, -⟩ := C38_entities hx hy hz
  rw [h0] at h0'; injection h0' with h0'; subst h0'
  refine ⟨P, T, h0, hT, fun f x h => ?_⟩
  have hxm := List.mem_of_getElem? h
  obtain ⟨hs, hg⟩ := (hf x.1).1 (List.mem_map.2 ⟨x, hxm, rfl⟩)
  obtain ⟨h1, h2⟩ := square_cubes hx hy hz hs hg
  have find : ∀ i j k, (∀ p ∈ cubeAt i j k, InGrid nx ny nz p) → ∃ (r : Nat) (y : List Pos × Cls), P.regions[r]? = some y ∧ y.1 = cubeAt i j k := by
    intro i j k hin
    obtain ⟨y, hy, e⟩ := List.mem_map.1 ((hr (cubeAt i j k)).2 ⟨⟨i, j, k, rfl⟩, hin⟩)
    obtain ⟨r, hr⟩ := List.mem_iff_getElem?.1 hy
    exact ⟨r, y, hr, e⟩
  constructor
  · obtain ⟨i, j, k, hin, hsub⟩ := h1
    obtain ⟨r, y, hy, e⟩ := find i j k hin
    exact ⟨r, (hinc r y f x hy h).2 (by rw [e]; exact hsub)⟩
  rw [hfc x hxm, h2]
  constructor
  · rintro ⟨i, j, k, i', j', k', hne, hin, hsub, hin', hsub'⟩
    obtain ⟨r, y, hy, e⟩ := find i j k hin
    obtain ⟨r', y', hy', e'⟩ := find i' j' k' hin'
    refine ⟨r, r', ?_, (hinc r y f x hy h).2 (by rw [e]; exact hsub), (hinc r' y' f x hy' h).2 (by rw [e']; exact hsub')⟩
    rintro rfl
    rw [hy] at hy'; injection hy' with hy'; subst hy'
    rw [e] at e'
    simp only [cubeAt, List.cons.injEq] at e'
    exact hne e'.1
  · rintro ⟨r, r', hne, g, g'⟩
    have hl := (hlr r).1 g.1
    have hl' := (hlr r').1 g'.1
    have e := List.getElem?_eq_getElem hl
    have e' := List.getElem?_eq_getElem hl'
    obtain ⟨⟨i, j, k, c1⟩, c2⟩ := (hr P.regions[r].1).1 (List.mem_map.2 ⟨_, List.getElem_mem hl, rfl⟩)
    obtain ⟨⟨i', j', k', c1'⟩, c2'⟩ := (hr P.regions[r'].1).1 (List.mem_map.2 ⟨_, List.getElem_mem hl', rfl⟩)
    have s1 := (hinc r _ f x e h).1 g
    have s2 := (hinc r' _ f x e' h).1 g'
    rw [c1] at c2 s1
    rw [c1'] at c2' s2
    refine ⟨i, j, k, i', j', k', ?_, c2, s1, c2', s2⟩
    intro hh
    simp only [Prod.mk.injEq] at hh
    obtain ⟨rfl, rfl, rfl⟩ := hh
    obtain ⟨Q, hQ, -, -, -, -, -, -, -, -, -, -, -, -, hrn, -⟩ := C38_entities hx hy hz
    rw [h0] at hQ; injection hQ with hQ; subst hQ
    refine hne ((List.Nodup.getElem_inj_iff hrn (hi := by simpa using hl) (hj := by simpa using hl')).1 ?_)
    rw [List.getElem_map, List.getElem_map, c1, c1']

/-- two cubes side by side: face 1 lies between them; the faces of the second cube -/
example : (do
    let T ← run3 2 1 1
    let a ← T.mfRegion 1 false
    let b ← T.mfRegion 1 true
    let c ← T.mrFaces 1
    pure ([T.nv, T.ne, T.nf, T.nr], [a, b], c) : Res (List Nat × List (Option Nat) × List Nat)) =
    .ok ([12, 20, 11, 2], [some 0, some 1], [8, 10, 4, 2, 6, 1]) := by
  decide +kernel

end MSTK.Gen
