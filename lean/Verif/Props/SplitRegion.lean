import Verif.SplitRegModel
import Verif.FileBuild
import Verif.Props.JoinRegions

/-!
C87: splitting a region with a loop of its edges (`MR_Split_with_EdgeLoop`).

Specification: `EdgeUse`, `Sealed`, `Halves`, `LoopPath`, `SplitInTwo`.
-/
namespace MSTK
namespace Topo

/-- Region `r` uses face `f`, which uses edge `e`; seen from the region the edge is used in direction
`s`. -/
def EdgeUse (V : View) (r f e : Nat) (s : Bool) : Prop :=
  ∃ d b, (f, d) ∈ V.faces r ∧ (e, b) ∈ V.edges f ∧ s = (b == d)

/-- The boundary of the region is closed: every edge of it is used once in each direction. -/
structure Sealed (V : View) (r : Nat) : Prop where
  opposite : ∀ f e s, EdgeUse V r f e s → ∃ g, EdgeUse V r g e (!s)
  once : ∀ f g e s, EdgeUse V r f e s → EdgeUse V r g e s → f = g

/-- A face of the region that can be reached from the loop without going across it. -/
inductive FromLoop (V : View) (r : Nat) (ds : List (Nat × Bool)) : Nat → Prop
  | start {f e : Nat} {b s : Bool} : (e, b) ∈ ds → EdgeUse V r f e s → FromLoop V r ds f
  | next {f g e : Nat} {s s' : Bool} : FromLoop V r ds f → e ∉ ds.map (·.1) → EdgeUse V r f e s →
      EdgeUse V r g e s' → FromLoop V r ds g

/-- The loop divides the boundary of the region into two halves; `side` says in which one a face is. -/
structure Halves (V : View) (r : Nat) (ds : List (Nat × Bool)) (side : Nat → Bool) : Prop where
  /-- the edges of the loop are edges of the region -/
  on : ∀ p ∈ ds, ∃ f s, EdgeUse V r f p.1 s
  /-- the faces on the two sides of the loop -/
  near : ∀ p ∈ ds, ∀ f s, EdgeUse V r f p.1 s → (side f = true ↔ s ≠ p.2)
  /-- the halves meet only at the loop -/
  apart : ∀ e, e ∉ ds.map (·.1) → ∀ f g s s', EdgeUse V r f e s → EdgeUse V r g e s' → side f = side g
  /-- each half is connected -/
  reach : ∀ p ∈ V.faces r, FromLoop V r ds p.1

/-- `q` continues where `p` ends. -/
def Continues (V : View) (p q : Nat × Bool) : Prop :=
  (∃ v, endAt (V.ends p.1) p.2 = some v ∧ endAt (V.ends q.1) (!q.2) = some v) ∧ (V.ends q.1).1 ≠ (V.ends q.1).2

/-- The edges form a path in the given directions and the first one is used in its own direction. -/
def LoopPath (V : View) (ds : List (Nat × Bool)) : Prop :=
  List.IsChain (Continues V) ds ∧ ∀ p, ds.head? = some p → p.2 = true

/-- Region `r` was replaced by `r0` and `r1` with the new face `f` between them. -/
structure SplitInTwo (T T' : Topo) (r : Nat) (ds : List (Nat × Bool)) (side : Nat → Bool) (f r0 r1 : Nat) : Prop where
  consistent : T'.Consistent
  vertices : T'.view.sv = T.view.sv
  edges : T'.view.se = T.view.se ∧ T'.view.ends = T.view.ends
  fresh : T.view.sf f = .unused ∧ T.view.sr r0 = .unused ∧ T.view.sr r1 = .unused ∧ r0 ≠ r1
  /-- the new face has the edges of the loop -/
  faces : T'.view.sf = upd T.view.sf f .live ∧ T'.view.edges = upd T.view.edges f ds
  regions : T'.view.sr = upd (upd (upd T.view.sr r .freed) r0 .live) r1 .live
  /-- the new regions have the new face, on different sides, and the faces of one half each, in the
  directions in which the old region used them -/
  first : (T'.view.faces r0).Perm ((f, true) :: (T.view.faces r).filter fun p => side p.1)
  second : (T'.view.faces r1).Perm ((f, false) :: (T.view.faces r).filter fun p => !side p.1)
  others : ∀ x, x ≠ r0 → x ≠ r1 → T'.view.faces x = T.view.faces x

/-! ### the directions of the loop -/

theorem loopDirs_ok {T : Topo} {V : View} (hV : T.view = V) : ∀ (ds : List (Nat × Bool)) (p : Nat × Bool),
    (∀ q ∈ p :: ds, T.se q.1 = .live) → List.IsChain (Continues V) (p :: ds) →
    T.loopDirs p.1 p.2 (ds.map (·.1)) = .ok ds := by
  subst hV
  intro ds
  induction ds with
  | nil => intro p _ _; rfl
  | cons q ds ih =>
    intro p hl hc
    obtain ⟨⟨⟨v, h1, h2⟩, h3⟩, hc'⟩ := List.isChain_cons_cons.1 hc
    have hr := ih q (fun x hx => hl x (List.mem_cons_of_mem _ hx)) hc'
    obtain ⟨e, b⟩ := q
    have m1 := meVertex_ok (alloc_of_live (hl p (by simp))) p.2
    have m2 := meVertex_ok (alloc_of_live (hl (e, b) (by simp)))
    show (T.meVertex p.1 p.2 >>= _) = _
    replace h1 : endAt (T.ev p.1) p.2 = some v := h1
    replace h2 : endAt (T.ev e) (!b) = some v := h2
    replace h3 : (T.ev e).1 ≠ (T.ev e).2 := h3
    rw [m1, Res.bind_ok, m2, Res.bind_ok, m2, Res.bind_ok, h1]
    cases b with
    | true =>
      rw [if_pos (show some v = endAt (T.ev e) false from h2.symm)]
      dsimp only at hr
      rw [hr]; rfl
    | false =>
      have : ¬ (some v = endAt (T.ev e) false) := by
        intro hc; exact h3 (hc.symm.trans h2.symm)
      rw [if_neg this, if_pos (show some v = endAt (T.ev e) true from h2.symm)]
      dsimp only at hr
      rw [hr]; rfl

theorem allDirs_ok {T : Topo} {ds : List (Nat × Bool)} (hl : ∀ q ∈ ds, T.se q.1 = .live) (h : LoopPath T.view ds) :
    T.allDirs (ds.map (·.1)) = .ok ds := by
  cases ds with
  | nil => rfl
  | cons p ds =>
    have hp : p.2 = true := h.2 p rfl
    have := loopDirs_ok rfl ds p hl h.1
    obtain ⟨e, b⟩ := p
    cases hp
    show (T.loopDirs e true (ds.map (·.1)) >>= _) = _
    rw [this]; rfl

/-! ### collecting the faces of a half -/

/-- what the collection of a half works on -/
structure Field (T : Topo) (r fnew : Nat) (F : List (Nat × Bool)) (ds : List (Nat × Bool)) (side : Nat → Bool) : Prop where
  cons : T.Consistent
  live : T.sr r = .live
  faces : T.view.faces r = F
  new : T.sf fnew = .live ∧ T.view.edges fnew = ds
  out : fnew ∉ F.map (·.1)
  edged : ∀ f, f = fnew ∨ f ∈ F.map (·.1) → T.view.edges f ≠ [] ∧ ((T.view.edges f).map (·.1)).Nodup ∧
    (T.view.edges f).length ≤ 64
  closed : Sealed T.view r
  notNil : F ≠ []
  halves : Halves T.view r ds side
  room : F.length + 1 ≤ 512

variable {T : Topo} {r fnew : Nat} {F ds : List (Nat × Bool)} {side : Nat → Bool}

theorem Field.nodup (h : Field T r fnew F ds side) : (F.map (·.1)).Nodup := by
  rw [← h.faces]
  show ((facesOf T.rf T.rd r).map (·.1)).Nodup
  rw [facesOf_map_fst]
  cases hl : T.rf r with
  | none => simp
  | some l => exact (h.cons.reg r l (alloc_of_live h.live) hl).1

theorem Field.faceLive (h : Field T r fnew F ds side) {p : Nat × Bool} (hp : p ∈ F) : T.sf p.1 = .live :=
  h.cons.fr.down r p.1 p.2 h.live (by rw [← h.faces] at hp; exact hp)

theorem fe_of_edges {T : Topo} {f : Nat} (h : T.view.edges f ≠ []) : ∃ l, T.fe f = some l := by
  cases hl : T.fe f with
  | none => exact absurd (by show T.edgesOf f = []; unfold edgesOf; rw [hl]; rfl) h
  | some l => exact ⟨l, rfl⟩

theorem fst_unique {l : List (Nat × Bool)} (hn : (l.map (·.1)).Nodup) {x : Nat} {a b : Bool} (ha : (x, a) ∈ l)
    (hb : (x, b) ∈ l) : a = b := by
  induction l with
  | nil => cases ha
  | cons p l ih =>
    rw [List.map_cons, List.nodup_cons] at hn
    rcases List.mem_cons.1 ha with h1 | h1 <;> rcases List.mem_cons.1 hb with h2 | h2
    · rw [← h1] at h2; exact (Prod.mk.inj h2).2.symm
    · exact absurd (List.mem_map_of_mem (f := (·.1)) h2) (by rw [← h1] at hn; exact hn.1)
    · exact absurd (List.mem_map_of_mem (f := (·.1)) h1) (by rw [← h2] at hn; exact hn.1)
    · exact ih hn.2 h1 h2

theorem Field.fedges (h : Field T r fnew F ds side) {f : Nat} (hf : f = fnew ∨ f ∈ F.map (·.1)) :
    ∃ l, T.fe f = some l ∧ l.Nodup ∧ l.length ≤ 64 ∧ T.view.edges f = pairs l (fbit (T.fd f)) ∧ T.sf f = .live := by
  obtain ⟨h1, h2, h3⟩ := h.edged f hf
  obtain ⟨l, hl⟩ := fe_of_edges h1
  have e : T.view.edges f = pairs l (fbit (T.fd f)) := edgesOf_some hl
  refine ⟨l, hl, by rw [e, pairs_map_fst] at h2; exact h2, by rw [e, pairs_length] at h3; exact h3, e, ?_⟩
  rcases hf with rfl | hf
  · exact h.new.1
  · obtain ⟨p, hp, rfl⟩ := List.mem_map.1 hf
    exact h.faceLive hp

/-- the faces at an edge -/
theorem Field.atEdge (h : Field T r fnew F ds side) {f e : Nat} {b : Bool} (hf : f = fnew ∨ f ∈ F.map (·.1))
    (he : (e, b) ∈ T.view.edges f) : ∃ L, T.meFaces e = .ok (some L) ∧ (∀ g ∈ L, T.sf g = .live) ∧
      (∀ g, g = fnew ∨ g ∈ F.map (·.1) → (g ∈ L ↔ ∃ b', (e, b') ∈ T.view.edges g)) := by
  have key : ∀ g, g = fnew ∨ g ∈ F.map (·.1) → ((∃ b', (e, b') ∈ T.view.edges g) ↔ T.sf g = .live ∧ bounds T.fe g e) := by
    intro g hg
    obtain ⟨l, hl, -, -, he', hlive⟩ := h.fedges hg
    rw [he']
    constructor
    · rintro ⟨b', hb'⟩
      obtain ⟨i, hi, -⟩ := mem_pairs.1 hb'
      refine ⟨hlive, ?_⟩
      unfold bounds; rw [hl]; exact List.mem_of_getElem? hi
    · rintro ⟨-, hb⟩
      unfold bounds at hb; rw [hl] at hb
      obtain ⟨i, hi⟩ := List.mem_iff_getElem?.1 hb
      exact ⟨_, mem_pairs.2 ⟨i, hi, rfl⟩⟩
  have hfb := (key f hf).1 ⟨b, he⟩
  have hel : T.se e = .live := h.cons.ef.down f e hfb.1 hfb.2
  obtain ⟨L, h1, h2⟩ := meFaces_ok (T := T) (alloc_of_live hel)
  have hfL := (h.cons.ef.mem e (alloc_of_live hel) f).2 hfb
  cases L with
  | none => rw [← h2] at hfL; cases hfL
  | some L =>
    replace h2 : L = T.ef e := h2
    refine ⟨L, h1, ?_, ?_⟩
    · intro g hg; rw [h2] at hg; exact ((h.cons.ef.mem e (alloc_of_live hel) g).1 hg).1
    · intro g hg; rw [key g hg, h2]; exact h.cons.ef.mem e (alloc_of_live hel) g

/-- the search for the face across an edge -/
theorem acrossEdge_ok (h : Field T r fnew F ds side) (cur : Nat) (cd : Bool) (e : Nat) (b : Bool) (done : List Nat) :
    ∀ L : List Nat, (∀ g ∈ L, g ∈ F.map (·.1) → ∃ b', (e, b') ∈ T.view.edges g) →
    ∃ o, T.acrossEdge r cur cd e b done L = .ok o ∧
      (∀ p, o = some p → p ∈ F ∧ p.1 ∉ done ∧ EdgeUse T.view r p.1 e (!(b == cd))) ∧
      (o = none → ∀ g ∈ L, EdgeUse T.view r g e (!(b == cd)) → g = cur ∨ g ∈ done) := by
  intro L
  induction L with
  | nil => intro _; exact ⟨none, rfl, (fun _ hc => nomatch hc), (fun _ _ hg => nomatch hg)⟩
  | cons g gs ih =>
    intro hL
    obtain ⟨o, h1, h2, h3⟩ := ih (fun x hx => hL x (List.mem_cons_of_mem _ hx))
    show ∃ o, (if g = cur then T.acrossEdge r cur cd e b done gs else if g ∈ done then _ else _) = _ ∧ _
    by_cases hg : g = cur
    · rw [if_pos hg]
      refine ⟨o, h1, h2, fun ho x hx hu => ?_⟩
      rcases List.mem_cons.1 hx with rfl | hx
      · exact Or.inl hg
      · exact h3 ho x hx hu
    rw [if_neg hg]
    by_cases hd : g ∈ done
    · rw [if_pos hd]
      refine ⟨o, h1, h2, fun ho x hx hu => ?_⟩
      rcases List.mem_cons.1 hx with rfl | hx
      · exact Or.inr hd
      · exact h3 ho x hx hu
    rw [if_neg hd]
    obtain ⟨l, hl⟩ : ∃ l, T.rf r = some l := by
      cases hl : T.rf r with
      | some l => exact ⟨l, rfl⟩
      | none =>
        exfalso
        exact h.notNil (by rw [← h.faces]; show facesOf T.rf T.rd r = []; unfold facesOf; rw [hl]; rfl)
    have hfst : l = F.map (·.1) := by
      rw [← h.faces]; show l = (facesOf T.rf T.rd r).map (·.1); rw [facesOf_map_fst, hl]; rfl
    have hm : T.mrUsesFace r g = .ok (decide (g ∈ l)) := by
      unfold mrUsesFace; rw [rfaces_ok (alloc_of_live h.live) hl, Res.bind_ok]; rfl
    rw [hm, Res.bind_ok]
    by_cases hgl : g ∈ l
    · rw [if_pos (by simpa using hgl)]
      rw [hfst] at hgl
      obtain ⟨q, hq, hqg⟩ := List.mem_map.1 hgl
      obtain ⟨g', d⟩ := q
      replace hqg : g' = g := hqg
      subst hqg
      obtain ⟨b', hb'⟩ := hL g' (by simp) hgl
      obtain ⟨le, hle, hn, h64, hpe, hglive⟩ := h.fedges (Or.inr hgl)
      have m1 : T.mfEdgeDir g' e = .ok b' := (mfEdgeDir_iff (alloc_of_live hglive) hle hn h64).2 (hpe ▸ hb')
      have m2 : T.mrFaceDir r g' = .ok (some d) := (mrFaceDir_iff h.cons h.live).2 (by rw [← h.faces] at hq; exact hq)
      have huse : ∀ s, EdgeUse T.view r g' e s ↔ s = (b' == d) := by
        intro s
        constructor
        · rintro ⟨d', b'', x1, x2, rfl⟩
          rw [h.faces] at x1
          rw [fst_unique h.nodup x1 hq, fst_unique (h.edged g' (Or.inr hgl)).2.1 x2 hb']
        · rintro rfl; exact ⟨d, b', by rw [h.faces]; exact hq, hb', rfl⟩
      rw [m1, Res.bind_ok, m2, Res.bind_ok, Res.ofOption_some, Res.bind_ok]
      by_cases hc : (b ≠ b' ∧ cd = d) ∨ (b = b' ∧ cd ≠ d)
      · rw [if_pos hc]
        refine ⟨_, rfl, ?_, (fun hc => nomatch hc)⟩
        intro p hp; cases hp
        refine ⟨hq, hd, (huse _).2 ?_⟩
        revert hc; cases b <;> cases b' <;> cases cd <;> cases d <;> simp
      · rw [if_neg hc]
        refine ⟨o, h1, h2, fun ho x hx hu => ?_⟩
        rcases List.mem_cons.1 hx with rfl | hx
        · exfalso; have := (huse _).1 hu
          revert hc this; cases b <;> cases b' <;> cases cd <;> cases d <;> simp
        · exact h3 ho x hx hu
    · rw [if_neg (by simpa using hgl)]
      refine ⟨o, h1, h2, fun ho x hx hu => ?_⟩
      rcases List.mem_cons.1 hx with rfl | hx
      · exfalso
        obtain ⟨d, _, hx1, -, -⟩ := hu
        rw [h.faces] at hx1
        exact hgl (by rw [hfst]; exact List.mem_map_of_mem hx1)
      · exact h3 ho x hx hu

/-- the collected faces: `s0` is the side looked for, `arr` the faces collected and `done` the processed
ones, `d0` those at the start -/
structure Part (fnew : Nat) (F : List (Nat × Bool)) (side : Nat → Bool) (s0 : Bool) (d0 : List Nat)
    (st : List (Nat × Bool) × List Nat) : Prop where
  head : ∃ rest, st.1 = (fnew, s0) :: rest ∧ ∀ p ∈ rest, p ∈ F ∧ side p.1 = s0
  nodup : (st.1.map (·.1)).Nodup
  sub : ∀ g ∈ st.1.map (·.1), g ∈ st.2
  start : ∀ g ∈ d0, g = fnew ∨ side g ≠ s0
  done : ∀ g ∈ st.2, g ∈ d0 ∨ g ∈ st.1.map (·.1)

theorem Part.len {F : List (Nat × Bool)} {s0 : Bool} {d0 : List Nat} {st : List (Nat × Bool) × List Nat}
    (hp : Part fnew F side s0 d0 st) : st.1.length ≤ F.length + 1 := by
  obtain ⟨rest, h1, h2⟩ := hp.head
  have hn := hp.nodup
  rw [h1, List.map_cons, List.nodup_cons] at hn
  have : (rest.map (·.1)).length ≤ (F.map (·.1)).length := by
    refine List.Subperm.length_le (List.Nodup.subperm hn.2 ?_)
    intro x hx
    obtain ⟨q, hq, rfl⟩ := List.mem_map.1 hx
    exact List.mem_map_of_mem (h2 q hq).1
  rw [List.length_map, List.length_map] at this
  rw [h1, List.length_cons]; omega

/-- the face across an edge, seen from a collected face -/
def Crossed (T : Topo) (r fnew : Nat) (ds : List (Nat × Bool)) (c : Nat) (d : Bool) (e : Nat) (b : Bool)
    (st : List (Nat × Bool) × List Nat) : Prop :=
  c = fnew ∨ e ∉ ds.map (·.1) → ∀ g, EdgeUse T.view r g e (!(b == d)) → g ∈ st.1.map (·.1)

/-- the side of the face across an edge -/
theorem Field.sideOf (h : Field T r fnew F ds side) {s0 : Bool} {c : Nat} {d : Bool} {e : Nat} {b : Bool}
    (hc : (c = fnew ∧ d = s0) ∨ ((c, d) ∈ F ∧ side c = s0)) (he : (e, b) ∈ T.view.edges c)
    (hx : c = fnew ∨ e ∉ ds.map (·.1)) {g : Nat} (hg : EdgeUse T.view r g e (!(b == d))) : side g = s0 := by
  rcases hc with ⟨rfl, rfl⟩ | ⟨hcF, hs⟩
  · rw [h.new.2] at he
    have := h.halves.near _ he g _ hg
    revert this
    cases side g <;> cases b <;> cases d <;> simp
  · rcases hx with rfl | hx
    · exact absurd (List.mem_map_of_mem (f := (·.1)) hcF) h.out
    · rw [← hs]
      exact (h.halves.apart e hx c g _ _ ⟨d, b, by rw [h.faces]; exact hcF, he, rfl⟩ hg).symm

theorem crossEdge_ok (h : Field T r fnew F ds side) {s0 : Bool} {d0 : List Nat} {st : List (Nat × Bool) × List Nat}
    (hp : Part fnew F side s0 d0 st) {c : Nat} {d : Bool} (hcur : (c, d) ∈ st.1) {e : Nat} {b : Bool}
    (he : (e, b) ∈ T.view.edges c) :
    ∃ st', T.crossEdge r fnew c d e b st = .ok st' ∧ Part fnew F side s0 d0 st' ∧ (∃ more, st'.1 = st.1 ++ more) ∧
      (∃ more, st'.2 = st.2 ++ more) ∧ Crossed T r fnew ds c d e b st' := by
  have hc : (c = fnew ∧ d = s0) ∨ ((c, d) ∈ F ∧ side c = s0) := by
    obtain ⟨rest, h1, h2⟩ := hp.head
    rw [h1] at hcur
    rcases List.mem_cons.1 hcur with hq | hq
    · left; exact Prod.mk.inj hq
    · right; exact h2 _ hq
  have hcf : c = fnew ∨ c ∈ F.map (·.1) := by
    rcases hc with hc | hc
    · exact Or.inl hc.1
    · exact Or.inr (List.mem_map_of_mem (f := (·.1)) hc.1)
  obtain ⟨L, hL, -, hmem⟩ := h.atEdge hcf he
  unfold crossEdge
  rw [hL, Res.bind_ok, Res.ofOption_some, Res.bind_ok]
  by_cases hblock : c ≠ fnew ∧ fnew ∈ L
  · rw [if_pos hblock]
    refine ⟨st, rfl, hp, ⟨[], by simp⟩, ⟨[], by simp⟩, ?_⟩
    intro hx
    exfalso
    rcases hx with hx | hx
    · exact hblock.1 hx
    · obtain ⟨b', hb'⟩ := (hmem fnew (Or.inl rfl)).1 hblock.2
      rw [h.new.2] at hb'
      exact hx (List.mem_map_of_mem (f := (·.1)) hb')
  · rw [if_neg hblock]
    have hx : c = fnew ∨ e ∉ ds.map (·.1) := by
      by_cases hcn : c = fnew
      · exact Or.inl hcn
      · right
        intro hin
        obtain ⟨q, hq, hqe⟩ := List.mem_map.1 hin
        obtain ⟨e', b'⟩ := q
        replace hqe : e' = e := hqe
        subst hqe
        exact hblock ⟨hcn, (hmem fnew (Or.inl rfl)).2 ⟨b', by rw [h.new.2]; exact hq⟩⟩
    obtain ⟨o, ho, ho1, ho2⟩ := acrossEdge_ok h c d e b st.2 L (fun g hg hgF => (hmem g (Or.inr hgF)).1 hg)
    rw [ho, Res.bind_ok]
    cases o with
    | none =>
      refine ⟨st, rfl, hp, ⟨[], by simp⟩, ⟨[], by simp⟩, ?_⟩
      intro _ g hg
      obtain ⟨dg, bg, hgF, hge, hs⟩ := hg
      rw [h.faces] at hgF
      have hgL : g ∈ L := (hmem g (Or.inr (List.mem_map_of_mem (f := (·.1)) hgF))).2 ⟨bg, hge⟩
      have hu : EdgeUse T.view r g e (!(b == d)) := ⟨dg, bg, by rw [h.faces]; exact hgF, hge, hs⟩
      rcases ho2 rfl g hgL hu with rfl | hgd
      · -- a face is not its own neighbour
        exfalso
        rcases hc with ⟨rfl, -⟩ | ⟨hcF, -⟩
        · exact h.out (List.mem_map_of_mem (f := (·.1)) hgF)
        · have e1 := fst_unique h.nodup hcF hgF
          have e2 := fst_unique (h.edged g hcf).2.1 he hge
          rw [e1, e2] at hs
          revert hs; cases bg <;> cases dg <;> simp
      · rcases hp.done g hgd with hin | hin
        · rcases hp.start g hin with rfl | hside
          · exact absurd (List.mem_map_of_mem (f := (·.1)) hgF) h.out
          · exact absurd (h.sideOf hc he hx hu) hside
        · exact hin
    | some p =>
      obtain ⟨p1, p2, p3⟩ := ho1 p rfl
      have hside := h.sideOf hc he hx p3
      have hpart : Part fnew F side s0 d0 (st.1 ++ [p], st.2 ++ [p.1]) := by
        obtain ⟨rest, h1, h2⟩ := hp.head
        refine ⟨⟨rest ++ [p], by rw [h1]; rfl, ?_⟩, ?_, ?_, hp.start, ?_⟩
        · intro q hq
          rcases List.mem_append.1 hq with hq | hq
          · exact h2 q hq
          · rw [List.mem_singleton.1 hq]; exact ⟨p1, hside⟩
        · rw [List.map_append, List.map_cons, List.map_nil]
          refine List.nodup_append.2 ⟨hp.nodup, by simp, ?_⟩
          intro x hxx y hy hxy
          rw [List.mem_singleton.1 hy] at hxy
          exact p2 (hxy ▸ hp.sub x hxx)
        · intro g hg
          rw [List.map_append, List.mem_append] at hg
          rcases hg with hg | hg
          · exact List.mem_append_left _ (hp.sub g hg)
          · exact List.mem_append_right _ hg
        · intro g hg
          rcases List.mem_append.1 hg with hg | hg
          · rcases hp.done g hg with hg | hg
            · exact Or.inl hg
            · exact Or.inr (by rw [List.map_append]; exact List.mem_append_left _ hg)
          · exact Or.inr (by rw [List.map_append]; exact List.mem_append_right _ hg)
      have hlen := hpart.len
      have hroom := h.room
      dsimp only at hlen ⊢
      rw [List.length_append, List.length_singleton] at hlen
      rw [if_pos (by omega)]
      refine ⟨_, rfl, hpart, ⟨_, rfl⟩, ⟨_, rfl⟩, ?_⟩
      intro _ g hg
      rw [h.closed.once _ _ _ _ hg p3]
      simp

theorem Crossed.mono {c e : Nat} {d b : Bool} {st st' : List (Nat × Bool) × List Nat} (hc : Crossed T r fnew ds c d e b st)
    (hm : ∃ more, st'.1 = st.1 ++ more) : Crossed T r fnew ds c d e b st' := by
  intro hx g hg
  obtain ⟨more, hm⟩ := hm
  rw [hm, List.map_append]
  exact List.mem_append_left _ (hc hx g hg)

theorem crossEdges_ok (h : Field T r fnew F ds side) {s0 : Bool} {d0 : List Nat} {c : Nat} {d : Bool} :
    ∀ (es : List (Nat × Bool)) {st : List (Nat × Bool) × List Nat}, (∀ p ∈ es, p ∈ T.view.edges c) →
      Part fnew F side s0 d0 st → (c, d) ∈ st.1 →
    ∃ st', T.crossEdges r fnew c d es st = .ok st' ∧ Part fnew F side s0 d0 st' ∧ (∃ more, st'.1 = st.1 ++ more) ∧
      (∃ more, st'.2 = st.2 ++ more) ∧ ∀ p ∈ es, Crossed T r fnew ds c d p.1 p.2 st' := by
  intro es
  induction es with
  | nil => intro st _ hp _; exact ⟨st, rfl, hp, ⟨[], by simp⟩, ⟨[], by simp⟩, (fun _ hq => nomatch hq)⟩
  | cons p es ih =>
    intro st hes hp hcur
    obtain ⟨e, b⟩ := p
    obtain ⟨st1, a1, a2, ⟨m, a3⟩, ⟨m', a3'⟩, a4⟩ := crossEdge_ok h hp hcur (hes (e, b) (by simp))
    obtain ⟨st2, b1, b2, ⟨n, b3⟩, ⟨n', b3'⟩, b4⟩ := ih (st := st1) (fun q hq => hes q (List.mem_cons_of_mem _ hq)) a2
      (by rw [a3]; exact List.mem_append_left _ hcur)
    refine ⟨st2, ?_, b2, ⟨m ++ n, by rw [b3, a3, List.append_assoc]⟩, ⟨m' ++ n', by rw [b3', a3', List.append_assoc]⟩, ?_⟩
    · show (T.crossEdge r fnew c d e b st >>= _) = _
      rw [a1, Res.bind_ok]; exact b1
    · intro q hq
      rcases List.mem_cons.1 hq with rfl | hq
      · exact a4.mono ⟨n, b3⟩
      · exact b4 q hq

theorem collectSide_ok (h : Field T r fnew F ds side) {s0 : Bool} {d0 : List Nat} :
    ∀ (n i : Nat) {st : List (Nat × Bool) × List Nat}, Part fnew F side s0 d0 st → 513 ≤ n + i → i ≤ st.1.length →
      (∀ k c d, k < i → st.1[k]? = some (c, d) → ∀ p ∈ T.view.edges c, Crossed T r fnew ds c d p.1 p.2 st) →
    ∃ st', T.collectSide r fnew n i st = .ok st' ∧ Part fnew F side s0 d0 st' ∧ (∃ more, st'.2 = st.2 ++ more) ∧
      ∀ c d, (c, d) ∈ st'.1 → ∀ p ∈ T.view.edges c, Crossed T r fnew ds c d p.1 p.2 st' := by
  intro n
  induction n with
  | zero =>
    intro i st hp hn hi _
    have := hp.len
    have := h.room
    omega
  | succ n ih =>
    intro i st hp hn hi hcl
    unfold collectSide
    cases hq : st.1[i]? with
    | none =>
      dsimp only
      refine ⟨st, rfl, hp, ⟨[], by simp⟩, ?_⟩
      intro c d hcd
      obtain ⟨k, hk⟩ := List.mem_iff_getElem?.1 hcd
      refine hcl k c d ?_ hk
      have := (List.getElem?_eq_some_iff.1 hk).1
      have := List.getElem?_eq_none_iff.1 hq
      omega
    | some q =>
      obtain ⟨c, d⟩ := q
      have hcur : (c, d) ∈ st.1 := List.mem_of_getElem? hq
      have hcf : c = fnew ∨ c ∈ F.map (·.1) := by
        obtain ⟨rest, h1, h2⟩ := hp.head
        rw [h1] at hcur
        rcases List.mem_cons.1 hcur with hq | hq
        · exact Or.inl (Prod.mk.inj hq).1
        · exact Or.inr (List.mem_map_of_mem (f := (·.1)) (h2 _ hq).1)
      obtain ⟨l, hl, -, h64, hpe, hlive⟩ := h.fedges hcf
      have hread : T.readFace c = .ok (T.view.edges c) := readFace_ok (alloc_of_live hlive) hl h64
      obtain ⟨st1, a1, a2, ⟨m, a3⟩, ⟨m', a3'⟩, a4⟩ := crossEdges_ok h (T.view.edges c) (fun p hp => hp) hp hcur
      have hlt := (List.getElem?_eq_some_iff.1 hq).1
      obtain ⟨st2, b1, b2, ⟨n', b3⟩, b4⟩ := ih (i+1) (st := st1) a2 (by omega)
        (by rw [a3, List.length_append]; omega) (by
        intro k c' d' hk hk'
        rw [a3, List.getElem?_append_left (by omega)] at hk'
        by_cases hki : k = i
        · subst hki
          rw [hq] at hk'
          cases hk'
          exact a4
        · intro p hp
          exact (hcl k c' d' (by omega) hk' p hp).mono ⟨m, a3⟩)
      refine ⟨st2, ?_, b2, ⟨m' ++ n', by rw [b3, a3', List.append_assoc]⟩, b4⟩
      dsimp only
      rw [hread, Res.bind_ok, a1, Res.bind_ok]
      exact b1

/-- **A half is collected.** -/
theorem half_ok (h : Field T r fnew F ds side) {s0 : Bool} {done : List Nat} (hin : fnew ∈ done)
    (hdone : ∀ g ∈ done, g = fnew ∨ side g ≠ s0) :
    ∃ arr done', T.collectSide r fnew 513 0 ([(fnew, s0)], done) = .ok (arr, done') ∧
      (∃ rest, arr = (fnew, s0) :: rest ∧ rest.Perm (F.filter fun p => side p.1 == s0)) ∧
      ∀ g ∈ done', g ∈ done ∨ g ∈ arr.map (·.1) := by
  have hp : Part fnew F side s0 done ([(fnew, s0)], done) := by
    refine ⟨⟨[], rfl, (fun _ hq => nomatch hq)⟩, by simp, ?_, hdone, fun g hg => Or.inl hg⟩
    intro g hg
    rw [show g = fnew by simpa using hg]; exact hin
  obtain ⟨⟨arr, done'⟩, a1, a2, -, a4⟩ := collectSide_ok h 513 0 hp (by omega) (by omega)
    (fun k _ _ hk => absurd hk (by omega))
  dsimp only at a4
  obtain ⟨rest, h1, h2⟩ := a2.head
  dsimp only at h1
  refine ⟨arr, done', a1, ⟨rest, h1, ?_⟩, a2.done⟩
  have hall : ∀ g, FromLoop T.view r ds g → side g = s0 → g ∈ arr.map (·.1) := by
    intro g hg
    induction hg with
    | @start f e b s hd hu =>
      intro hs
      refine a4 fnew s0 (by rw [h1]; simp) (e, b) (by rw [h.new.2]; exact hd) (Or.inl rfl) f ?_
      have hn := h.halves.near _ hd f s hu
      rw [hs] at hn
      have : s = !(b == s0) := by
        revert hn; cases s <;> cases b <;> cases s0 <;> simp
      rw [← this]; exact hu
    | @next f g e s s' _ he hf hg' ih =>
      intro hs
      have hsf : side f = s0 := (h.halves.apart e he f g s s' hf hg').trans hs
      have hfa := ih hsf
      by_cases hss : s' = s
      · subst hss
        rw [← h.closed.once f g e s' hf hg']; exact hfa
      · obtain ⟨q, hq, hqf⟩ := List.mem_map.1 hfa
        obtain ⟨f', d⟩ := q
        replace hqf : f' = f := hqf
        subst hqf
        obtain ⟨d', b, x1, x2, x3⟩ := hf
        rw [h.faces] at x1
        have hdd : d = d' := by
          rw [h1] at hq
          rcases List.mem_cons.1 hq with hq | hq
          · exact absurd (List.mem_map_of_mem (f := (·.1)) x1) ((Prod.mk.inj hq).1 ▸ h.out)
          · exact fst_unique h.nodup (h2 _ hq).1 x1
        subst hdd
        refine a4 f' d hq (e, b) x2 (Or.inr he) g ?_
        have : s' = !(b == d) := by
          rw [← x3]; revert hss; cases s <;> cases s' <;> simp
        rw [← this]; exact hg'
  have hnr : (rest.map (·.1)).Nodup := by
    have := a2.nodup
    dsimp only at this
    rw [h1, List.map_cons, List.nodup_cons] at this
    exact this.2
  refine (List.perm_ext_iff_of_nodup (List.Nodup.of_map _ hnr)
    ((List.Nodup.of_map _ h.nodup).filter _)).2 ?_
  intro p
  rw [List.mem_filter]
  constructor
  · intro hpr; exact ⟨(h2 p hpr).1, by simpa using (h2 p hpr).2⟩
  · rintro ⟨hpF, hps⟩
    have hps : side p.1 = s0 := by simpa using hps
    have := hall p.1 (h.halves.reach p (by rw [h.faces]; exact hpF)) hps
    rw [h1, List.map_cons] at this
    rcases List.mem_cons.1 this with hpn | hpn
    · exact absurd (List.mem_map_of_mem (f := (·.1)) hpF) (by rw [hpn]; exact h.out)
    · obtain ⟨q, hq, hqp⟩ := List.mem_map.1 hpn
      obtain ⟨x, d⟩ := p
      obtain ⟨x', d'⟩ := q
      replace hqp : x' = x := hqp
      subst hqp
      rw [fst_unique h.nodup hpF (h2 _ hq).1]; exact hq

/-! ### the split -/

theorem edgeUse_congr {V W : View} {r : Nat} (h1 : W.faces r = V.faces r)
    (h2 : ∀ p ∈ V.faces r, W.edges p.1 = V.edges p.1) (f e : Nat) (s : Bool) : EdgeUse W r f e s ↔ EdgeUse V r f e s := by
  unfold EdgeUse
  constructor
  · rintro ⟨d, b, x1, x2, x3⟩
    rw [h1] at x1
    exact ⟨d, b, x1, (h2 _ x1) ▸ x2, x3⟩
  · rintro ⟨d, b, x1, x2, x3⟩
    exact ⟨d, b, by rw [h1]; exact x1, by rw [h2 _ x1]; exact x2, x3⟩

theorem fromLoop_congr {V W : View} {r : Nat} {ds : List (Nat × Bool)}
    (h : ∀ f e s, EdgeUse W r f e s ↔ EdgeUse V r f e s) {g : Nat} (hg : FromLoop V r ds g) : FromLoop W r ds g := by
  induction hg with
  | start hd hu => exact .start hd ((h _ _ _).2 hu)
  | next _ he hf hg ih => exact .next ih he ((h _ _ _).2 hf) ((h _ _ _).2 hg)

theorem edgeUse_live (hc : T.Consistent) (hr : T.sr r = .live) {f e : Nat} {s : Bool} (h : EdgeUse T.view r f e s) :
    T.se e = .live := by
  obtain ⟨d, b, x1, x2, -⟩ := h
  have hf := hc.fr.down r f d hr x1
  obtain ⟨l, hl⟩ := fe_of_edges (List.ne_nil_of_mem x2)
  have e1 : T.view.edges f = pairs l (fbit (T.fd f)) := edgesOf_some hl
  rw [e1] at x2
  obtain ⟨i, hi, -⟩ := mem_pairs.1 x2
  refine hc.ef.down f e hf ?_
  unfold bounds; rw [hl]; exact List.mem_of_getElem? hi

/-- **C87.**  A loop of at most 30 different edges that divides the closed boundary of a region into
two halves, listed as a path whose first edge points along it, splits the region in two: the halves
become regions of their own, closed by the new face.
(A loop listed against the direction of its first edge ends the program, `C87_negation_first_edge`.) -/
theorem C87_split_partial (h : T.Consistent) (hr : T.sr r = .live) (hne : ds ≠ []) (h30 : ds.length ≤ 30)
    (hdn : (ds.map (·.1)).Nodup) (hp : LoopPath T.view ds)
    (hf : ∀ p ∈ T.view.faces r, ((T.view.edges p.1).map (·.1)).Nodup ∧ T.view.edges p.1 ≠ [] ∧ (T.view.edges p.1).length ≤ 64)
    (hroom : (T.view.faces r).length ≤ 511) (hs : Sealed T.view r) (hh : Halves T.view r ds side) :
    ∃ T' f r0 r1, T.mrSplitLoop r (ds.map (·.1)) = .ok (T', f) ∧ SplitInTwo T T' r ds side f r0 r1 := by
  have hlive : ∀ p ∈ ds, T.se p.1 = .live := by
    intro p hp
    obtain ⟨f, s, hu⟩ := hh.on p hp
    exact edgeUse_live h hr hu
  have hdirs := allDirs_ok hlive hp
  obtain ⟨T2, s2, c2, -, -, -, n2, f2, f2', rf2, v2⟩ := File.newFace_edges h (es := ds) (by omega) hlive
  have hunew : T.sf T.nf = .unused := h.newF _ (by omega)
  have hout : T.nf ∉ (T.view.faces r).map (·.1) := by
    intro hc
    obtain ⟨p, hp, hpe⟩ := List.mem_map.1 hc
    have := h.fr.down r p.1 p.2 hr hp
    rw [hpe, hunew] at this; cases this
  have hfa2 : T2.view.faces = T.view.faces := by have := congrArg View.faces v2; exact this
  have hed2 : T2.view.edges = upd T.view.edges T.nf ds := by have := congrArg View.edges v2; exact this
  have hsf2 : T2.sf = upd T.sf T.nf .live := by have := congrArg View.sf v2; exact this
  have hsr2 : T2.sr = T.sr := by have := congrArg View.sr v2; exact this
  have hold : ∀ p ∈ T.view.faces r, p.1 ≠ T.nf := by
    intro p hp hc; exact hout (hc ▸ List.mem_map_of_mem (f := (·.1)) hp)
  have huse : ∀ f e s, EdgeUse T2.view r f e s ↔ EdgeUse T.view r f e s := by
    refine edgeUse_congr (by rw [hfa2]) ?_
    intro p hp; rw [hed2, upd_ne _ _ (hold p hp)]
  have hF : Field T2 r T.nf (T.view.faces r) ds side := by
    refine ⟨c2, by rw [hsr2]; exact hr, by rw [hfa2], ⟨by rw [hsf2, upd_same], by rw [hed2, upd_same]⟩, hout, ?_, ?_, ?_, ?_, by omega⟩
    · rintro f (rfl | hfm)
      · rw [hed2, upd_same]; exact ⟨hne, hdn, by omega⟩
      · obtain ⟨p, hpm, rfl⟩ := List.mem_map.1 hfm
        rw [hed2, upd_ne _ _ (hold p hpm)]
        obtain ⟨y1, y2, y3⟩ := hf p hpm
        exact ⟨y2, y1, y3⟩
    · refine ⟨fun f e s hu => ?_, fun f g e s hu hu' => hs.once f g e s ((huse _ _ _).1 hu) ((huse _ _ _).1 hu')⟩
      obtain ⟨g, hg⟩ := hs.opposite f e s ((huse _ _ _).1 hu)
      exact ⟨g, (huse _ _ _).2 hg⟩
    · obtain ⟨p, hp⟩ := List.exists_mem_of_ne_nil _ hne
      obtain ⟨f, s, d, b, x1, -, -⟩ := hh.on p hp
      exact List.ne_nil_of_mem x1
    · refine ⟨?_, ?_, ?_, ?_⟩
      · intro p hp
        obtain ⟨f, s, hu⟩ := hh.on p hp
        exact ⟨f, s, (huse _ _ _).2 hu⟩
      · intro p hp f s hu; exact hh.near p hp f s ((huse _ _ _).1 hu)
      · intro e he f g s s' hu hu'
        exact hh.apart e he f g s s' ((huse _ _ _).1 hu) ((huse _ _ _).1 hu')
      · intro p hp
        rw [hfa2] at hp
        exact fromLoop_congr huse (hh.reach p hp)
  obtain ⟨arr1, done1, a1, ⟨rest1, a2, a3⟩, a5⟩ := half_ok hF (s0 := true) (done := [T.nf]) (by simp)
    (by intro g hg; exact Or.inl (by simpa using hg))
  have hr1 : ∀ p, p ∈ rest1 ↔ p ∈ T.view.faces r ∧ side p.1 = true := by
    intro p; rw [a3.mem_iff, List.mem_filter]; simp
  obtain ⟨arr2, done2, b1, ⟨rest2, b2, b3⟩, -⟩ := half_ok hF (s0 := false) (done := done1 ++ [T.nf]) (by simp)
    (by
      intro g hg
      rcases List.mem_append.1 hg with hg | hg
      · rcases a5 g hg with hg | hg
        · exact Or.inl (by simpa using hg)
        · rw [a2, List.map_cons] at hg
          rcases List.mem_cons.1 hg with hg | hg
          · exact Or.inl hg
          · obtain ⟨p, hp, rfl⟩ := List.mem_map.1 hg
            right; rw [((hr1 p).1 hp).2]; decide
      · exact Or.inl (by simpa using hg))
  have hr2 : ∀ p, p ∈ rest2 ↔ p ∈ T.view.faces r ∧ side p.1 = false := by
    intro p; rw [b3.mem_iff, List.mem_filter]; simp
  -- the region is deleted
  obtain ⟨T3, s3, c3⟩ := c2.delRegion (k := false) (alloc_of_live hF.live)
  have k3 := mrDelete_ok (keep := false) hF.live (by
      have := hF.nodup
      rw [← hF.faces] at this
      replace this : ((facesOf T2.rf T2.rd r).map (·.1)).Nodup := this
      rw [facesOf_map_fst] at this; exact this)
    (fun g hg => alloc_of_live (c2.rfacesLive hF.live hg))
  have hT3 := Res.ok.inj (s3.symm.trans k3)
  have hv3 : T3.view = { T2.view with sr := upd T2.sr r .freed } := by rw [hT3]; rfl
  have hsr3 : T3.sr = upd T.sr r .freed := by rw [hT3]; show upd T2.sr r .freed = _; rw [hsr2]
  have hsf3 : T3.sf = upd T.sf T.nf .live := by rw [hT3]; exact hsf2
  have hfa3 : T3.view.faces = T.view.faces := by rw [hv3]; exact hfa2
  have hfe3 : T3.fe = T2.fe := by rw [hT3]
  have hnr3 : T3.nr = T.nr := by rw [hT3]; exact n2
  have hurn : T.sr T.nr = .unused := h.newR _ (by omega)
  have hrnr : r ≠ T.nr := by rintro rfl; rw [hurn] at hr; cases hr
  have hsize : ∀ f, f = T.nf ∨ f ∈ (T.view.faces r).map (·.1) → ∃ l, T3.fe f = some l := by
    intro f hf'
    rw [hfe3]
    obtain ⟨l, hl, -⟩ := hF.fedges hf'
    exact ⟨l, hl⟩
  have hliv3 : ∀ f, f = T.nf ∨ f ∈ (T.view.faces r).map (·.1) → T3.sf f = .live := by
    intro f hf'
    rw [hsf3, ← hsf2]
    obtain ⟨_, _, _, _, _, hl⟩ := hF.fedges hf'
    exact hl
  -- no other region has the faces
  have hnone : ∀ f d x, f = T.nf ∨ (f, d) ∈ T.view.faces r → T3.sr x = .live → (f, d) ∉ T.view.faces x := by
    intro f d x hfd hx hc
    rw [hsr3] at hx
    have hxr : x ≠ r := by rintro rfl; rw [upd_same] at hx; cases hx
    rw [upd_ne _ _ hxr] at hx
    have hfl := h.fr.down x f d hx hc
    rcases hfd with rfl | hfd
    · rw [hunew] at hfl; cases hfl
    · have y1 := (h.fr.mem f (alloc_of_live hfl) x d).2 ⟨hx, hc⟩
      have y2 := (h.fr.mem f (alloc_of_live hfl) r d).2 ⟨hr, hfd⟩
      rw [y1] at y2; exact hxr (Option.some.inj y2)
  have free3 : ∀ f d, f = T.nf ∨ (f, d) ∈ T.view.faces r → T3.sf f = .live ∧ endAt (T3.fr f) (!d) = none := by
    intro f d hfd
    have hl := hliv3 f (hfd.imp id fun hm => List.mem_map_of_mem (f := (·.1)) hm)
    refine ⟨hl, ?_⟩
    cases hx : endAt (T3.fr f) (!d) with
    | none => rfl
    | some x =>
      obtain ⟨z1, z2⟩ := (c3.fr.mem f (alloc_of_live hl) x d).1 hx
      exact absurd (show (f, d) ∈ T.view.faces x by rw [← hfa3]; exact z2) (hnone f d x hfd z1)
  have arrIn1 : ∀ p ∈ arr1, p.1 = T.nf ∨ p ∈ T.view.faces r := by
    intro p hp
    rw [a2] at hp
    rcases List.mem_cons.1 hp with rfl | hp
    · exact Or.inl rfl
    · exact Or.inr ((hr1 p).1 hp).1
  have arrIn2 : ∀ p ∈ arr2, p.1 = T.nf ∨ p ∈ T.view.faces r := by
    intro p hp
    rw [b2] at hp
    rcases List.mem_cons.1 hp with rfl | hp
    · exact Or.inl rfl
    · exact Or.inr ((hr2 p).1 hp).1
  have hnd : ∀ {rest : List (Nat × Bool)} {b : Bool}, rest.Perm ((T.view.faces r).filter fun p => side p.1 == b) →
      (((T.nf, b) :: rest).map (·.1)).Nodup := by
    intro rest b hpm
    rw [List.map_cons, List.nodup_cons]
    constructor
    · intro hc
      obtain ⟨p, hp, hpe⟩ := List.mem_map.1 hc
      exact hold p (List.mem_filter.1 (hpm.mem_iff.1 hp)).1 hpe
    · refine (hpm.map (·.1)).nodup_iff.2 ?_
      exact hF.nodup.sublist (List.Sublist.map _ List.filter_sublist)
  have toOr : ∀ {p : Nat × Bool}, p.1 = T.nf ∨ p ∈ T.view.faces r → p.1 = T.nf ∨ p.1 ∈ (T.view.faces r).map (·.1) :=
    fun hp => hp.imp id fun hm => List.mem_map_of_mem (f := (·.1)) hm
  obtain ⟨T4, s4, c4, -, -, -, n4, fe4, -, -, v4⟩ := File.newRegion_faces c3 (fs := arr1) (by rw [a2]; exact hnd a3)
    (fun p hp => free3 p.1 p.2 (arrIn1 p hp)) (by
      intro f hf'
      obtain ⟨p, hp, rfl⟩ := List.mem_map.1 hf'
      exact hsize p.1 (toOr (arrIn1 p hp)))
  have hfa4 : T4.view.faces = upd T.view.faces T.nr arr1 := by
    have := congrArg View.faces v4; rw [← hfa3, ← hnr3]; exact this
  have hsf4 : T4.sf = T3.sf := by have := congrArg View.sf v4; exact this
  have hsr4 : T4.sr = upd T3.sr T.nr .live := by have := congrArg View.sr v4; rw [← hnr3]; exact this
  have hn4 : T4.nr = T.nr + 1 := by rw [n4, hnr3]
  have hurn1 : T.sr (T.nr + 1) = .unused := h.newR _ (by omega)
  obtain ⟨T5, s5, c5, -, -, -, -, -, -, -, v5⟩ := File.newRegion_faces c4 (fs := arr2) (by rw [b2]; exact hnd b3)
    (by
      intro p hp
      have hl : T4.sf p.1 = .live := by rw [hsf4]; exact hliv3 p.1 (toOr (arrIn2 p hp))
      refine ⟨hl, ?_⟩
      cases hx : endAt (T4.fr p.1) (!p.2) with
      | none => rfl
      | some x =>
        exfalso
        obtain ⟨z1, z2⟩ := (c4.fr.mem p.1 (alloc_of_live hl) x p.2).1 hx
        replace z2 : p ∈ T4.view.faces x := z2
        rw [hfa4] at z2
        by_cases hxn : x = T.nr
        · rw [hxn, upd_same, a2] at z2
          rw [b2] at hp
          rcases List.mem_cons.1 hp with rfl | hp
          · rcases List.mem_cons.1 z2 with z2 | z2
            · cases z2
            · exact hold _ ((hr1 _).1 z2).1 rfl
          · rcases List.mem_cons.1 z2 with rfl | z2
            · exact hold _ ((hr2 _).1 hp).1 rfl
            · have q1 := ((hr1 _).1 z2).2
              rw [((hr2 _).1 hp).2] at q1; cases q1
        · rw [upd_ne _ _ hxn] at z2
          rw [hsr4, upd_ne _ _ hxn] at z1
          exact hnone p.1 p.2 x (arrIn2 p hp) z1 z2)
    (by
      intro f hf'
      obtain ⟨p, hp, rfl⟩ := List.mem_map.1 hf'
      rw [fe4]
      exact hsize p.1 (toOr (arrIn2 p hp)))
  refine ⟨T5, T.nf, T.nr, T.nr + 1, ?_, c5, ?_, ⟨?_, ?_⟩, ⟨hunew, hurn, hurn1, by omega⟩, ⟨?_, ?_⟩, ?_, ?_, ?_, ?_⟩
  · unfold mrSplitLoop
    rw [derefR_ok (alloc_of_live hr), Res.bind_ok, if_neg (by rw [List.length_map]; omega), hdirs, Res.bind_ok]
    show (T.mfNew.1.mfSetEdges T.nf ds >>= _) = _
    rw [s2, Res.bind_ok]
    show (T2.collectSide r T.nf 513 0 ([(T.nf, true)], [T.nf]) >>= _) = _
    rw [a1, Res.bind_ok]
    show (T2.collectSide r T.nf 513 0 ([(T.nf, false)], done1 ++ [T.nf]) >>= _) = _
    rw [b1, Res.bind_ok, s3, Res.bind_ok]
    show (T3.mrNew.1.mrSetFaces T3.nr arr1 >>= _) = _
    rw [s4, Res.bind_ok]
    show (T4.mrNew.1.mrSetFaces T4.nr arr2 >>= _) = _
    rw [s5, Res.bind_ok]
    rfl
  · rw [v5, v4, hv3, v2]
  · rw [v5, v4, hv3, v2]
  · rw [v5, v4, hv3, v2]
  · rw [v5, v4, hv3, v2]
  · rw [v5, v4, hv3, v2]
  · rw [v5]
    show upd T4.sr T4.nr .live = _
    rw [hn4, hsr4, hsr3]; rfl
  · rw [v5]
    show (upd T4.view.faces T4.nr arr2 T.nr).Perm _
    rw [hn4, upd_ne _ _ (by omega), hfa4, upd_same, a2]
    refine List.Perm.cons _ (a3.trans ?_)
    simp
  · rw [v5]
    show (upd T4.view.faces T4.nr arr2 (T.nr + 1)).Perm _
    rw [hn4, upd_same, b2]
    refine List.Perm.cons _ (b3.trans ?_)
    simp
  · intro x h0 h1
    rw [v5]
    show upd T4.view.faces T4.nr arr2 x = _
    rw [hn4, upd_ne _ _ h1, hfa4, upd_ne _ _ h0]

/-- **C87, watertight.**  The boundaries of both new regions are closed again. -/
theorem C87_sealed {T' : Topo} {f r0 r1 : Nat} (h : T.Consistent) (hr : T.sr r = .live) (hs : Sealed T.view r)
    (hh : Halves T.view r ds side) (hx : SplitInTwo T T' r ds side f r0 r1) : Sealed T'.view r0 ∧ Sealed T'.view r1 := by
  have hold : ∀ p ∈ T.view.faces r, p.1 ≠ f := by
    intro p hp hc
    have := h.fr.down r p.1 p.2 hr hp
    rw [hc, show T.sf f = .unused from hx.fresh.1] at this; cases this
  have key : ∀ x s0, (T'.view.faces x).Perm ((f, s0) :: (T.view.faces r).filter fun p => side p.1 == s0) → Sealed T'.view x := by
    intro x s0 hpm
    have hm : ∀ g e s, EdgeUse T'.view x g e s ↔
        (g = f ∧ ∃ b, (e, b) ∈ ds ∧ s = (b == s0)) ∨ (EdgeUse T.view r g e s ∧ side g = s0) := by
      intro g e s
      unfold EdgeUse
      rw [hx.faces.2]
      constructor
      · rintro ⟨d, b, y1, y2, y3⟩
        rcases List.mem_cons.1 (hpm.mem_iff.1 y1) with y1 | y1
        · cases y1
          rw [upd_same] at y2
          exact Or.inl ⟨rfl, b, y2, y3⟩
        · obtain ⟨y1, y4⟩ := List.mem_filter.1 y1
          rw [upd_ne _ _ (hold _ y1)] at y2
          exact Or.inr ⟨⟨d, b, y1, y2, y3⟩, by simpa using y4⟩
      · rintro (⟨rfl, b, y1, y2⟩ | ⟨⟨d, b, y1, y2, y3⟩, y4⟩)
        · exact ⟨s0, b, hpm.mem_iff.2 (by simp), by rw [upd_same]; exact y1, y2⟩
        · exact ⟨d, b, hpm.mem_iff.2 (List.mem_cons_of_mem _ (List.mem_filter.2 ⟨y1, by simpa using y4⟩)),
            by rw [upd_ne _ _ (hold _ y1)]; exact y2, y3⟩
    have nf : ∀ e s, ¬ EdgeUse T.view r f e s := by
      rintro e s ⟨d, b, y1, -, -⟩; exact hold _ y1 rfl
    constructor
    · intro g e s hu
      rcases (hm g e s).1 hu with ⟨rfl, b, y1, y2⟩ | ⟨y1, y2⟩
      · -- the face of the half at the loop
        obtain ⟨g0, s', hu0⟩ := hh.on _ y1
        have : ∃ g', EdgeUse T.view r g' e (!s) := by
          by_cases hss : s' = !s
          · exact ⟨g0, hss ▸ hu0⟩
          · obtain ⟨g1, hu1⟩ := hs.opposite _ _ _ hu0
            exact ⟨g1, by rw [show s = s' by revert hss; cases s <;> cases s' <;> simp]; exact hu1⟩
        obtain ⟨g', hu'⟩ := this
        refine ⟨g', (hm _ _ _).2 (Or.inr ⟨hu', ?_⟩)⟩
        have := hh.near _ y1 _ _ hu'
        revert this y2
        cases side g' <;> cases s <;> cases b <;> cases s0 <;> simp
      · by_cases he : e ∈ ds.map (·.1)
        · obtain ⟨q, hq, hqe⟩ := List.mem_map.1 he
          obtain ⟨e', b⟩ := q
          replace hqe : e' = e := hqe
          subst hqe
          refine ⟨f, (hm _ _ _).2 (Or.inl ⟨rfl, b, hq, ?_⟩)⟩
          have := hh.near _ hq _ _ y1
          rw [y2] at this
          revert this
          cases s <;> cases b <;> cases s0 <;> simp
        · obtain ⟨g', hu'⟩ := hs.opposite _ _ _ y1
          exact ⟨g', (hm _ _ _).2 (Or.inr ⟨hu', by rw [← y2]; exact (hh.apart e he _ _ _ _ y1 hu').symm⟩)⟩
    · intro g g' e s hu hu'
      have mixed : ∀ g', (∃ b, (e, b) ∈ ds ∧ s = (b == s0)) → EdgeUse T.view r g' e s → side g' = s0 → False := by
        rintro g' ⟨b, y1, y2⟩ y3 y4
        have := hh.near _ y1 _ _ y3
        rw [y4] at this
        revert this y2
        cases s <;> cases b <;> cases s0 <;> simp
      rcases (hm g e s).1 hu with ⟨rfl, y1⟩ | ⟨y1, y2⟩ <;> rcases (hm g' e s).1 hu' with ⟨rfl, z1⟩ | ⟨z1, z2⟩
      · rfl
      · exact (mixed _ y1 z1 z2).elim
      · exact (mixed _ z1 y1 y2).elim
      · exact hs.once _ _ _ _ y1 z1
  refine ⟨key r0 true (hx.first.trans ?_), key r1 false (hx.second.trans ?_)⟩ <;> simp

/-! ### examples -/

/-- all uses of edges by a region -/
def useList (V : View) (r : Nat) : List (Nat × Nat × Bool) :=
  (V.faces r).flatMap fun p => (V.edges p.1).map fun q => (p.1, q.1, q.2 == p.2)

theorem mem_useList {V : View} {r f e : Nat} {s : Bool} : (f, e, s) ∈ useList V r ↔ EdgeUse V r f e s := by
  unfold useList EdgeUse
  rw [List.mem_flatMap]
  constructor
  · rintro ⟨⟨f', d⟩, h1, h2⟩
    obtain ⟨⟨e', b⟩, h3, h4⟩ := List.mem_map.1 h2
    cases h4
    exact ⟨d, b, h1, h3, rfl⟩
  · rintro ⟨d, b, h1, h2, rfl⟩
    exact ⟨(f, d), h1, List.mem_map.2 ⟨(e, b), h2, rfl⟩⟩

/-- the hypotheses about the region, for a loop that touches every face -/
def halvesB (V : View) (r : Nat) (ds : List (Nat × Bool)) (side : Nat → Bool) : Bool :=
  let U := useList V r
  (U.all fun x => (U.any fun y => y.2.1 == x.2.1 && y.2.2 == !x.2.2) &&
    U.all fun y => !(y.2.1 == x.2.1 && y.2.2 == x.2.2) || y.1 == x.1) &&
  (ds.all fun p => (U.any fun x => x.2.1 == p.1) && U.all fun x => !(x.2.1 == p.1) || side x.1 == (x.2.2 != p.2)) &&
  (U.all fun x => (ds.map (·.1)).contains x.2.1 || U.all fun y => !(y.2.1 == x.2.1) || side x.1 == side y.1) &&
  (V.faces r).all fun p => (ds.any fun q => U.any fun x => x.1 == p.1 && x.2.1 == q.1) &&
    decide (((V.edges p.1).map (·.1)).Nodup) && !(V.edges p.1).isEmpty && decide ((V.edges p.1).length ≤ 64)

theorem halvesB_sound {V : View} {r : Nat} {ds : List (Nat × Bool)} {side : Nat → Bool} (h : halvesB V r ds side = true) :
    Sealed V r ∧ Halves V r ds side ∧ ∀ p ∈ V.faces r, ((V.edges p.1).map (·.1)).Nodup ∧ V.edges p.1 ≠ [] ∧
      (V.edges p.1).length ≤ 64 := by
  unfold halvesB at h
  simp only [Bool.and_eq_true, List.all_eq_true, List.any_eq_true, beq_iff_eq, decide_eq_true_iff, Bool.or_eq_true,
    Bool.not_eq_true', Bool.and_eq_false_iff, beq_eq_false_iff_ne, List.contains_iff_mem, List.isEmpty_eq_false_iff] at h
  obtain ⟨⟨⟨h1, h2⟩, h3⟩, h4⟩ := h
  refine ⟨⟨?_, ?_⟩, ⟨?_, ?_, ?_, ?_⟩, ?_⟩
  · intro f e s hu
    obtain ⟨⟨g, e', s'⟩, x1, x2, x3⟩ := (h1 _ (mem_useList.2 hu)).1
    dsimp only at x2 x3
    subst x2; subst x3
    exact ⟨g, mem_useList.1 x1⟩
  · intro f g e s hu hu'
    have := (h1 _ (mem_useList.2 hu)).2 _ (mem_useList.2 hu')
    dsimp only at this
    exact (this.resolve_left (by simp)).symm
  · intro p hp
    obtain ⟨⟨g, e', s'⟩, x1, x2⟩ := (h2 p hp).1
    dsimp only at x2
    subst x2
    exact ⟨g, s', mem_useList.1 x1⟩
  · intro p hp f s hu
    have := (h2 p hp).2 _ (mem_useList.2 hu)
    dsimp only at this
    have := this.resolve_left (by simp)
    rw [this]; simp
  · intro e he f g s s' hu hu'
    have := (h3 _ (mem_useList.2 hu)).resolve_left he _ (mem_useList.2 hu')
    exact this.resolve_left (by simp)
  · intro p hp
    obtain ⟨⟨e, b⟩, hq, ⟨g, e', s'⟩, x1, x2, x3⟩ := (h4 p hp).1.1.1
    dsimp only at x2 x3
    subst x2; subst x3
    exact .start hq (mem_useList.1 x1)
  · intro p hp
    exact ⟨(h4 p hp).1.1.2, (h4 p hp).1.2, (h4 p hp).2⟩

/-- an octahedron -/
def octahedron : List Op :=
  [.newVertex, .newVertex, .newVertex, .newVertex, .newVertex, .newVertex,
   .newFace, .setVertices 0 [0,1,4], .newFace, .setVertices 1 [1,2,4],
   .newFace, .setVertices 2 [2,3,4], .newFace, .setVertices 3 [3,0,4],
   .newFace, .setVertices 4 [0,1,5], .newFace, .setVertices 5 [1,2,5],
   .newFace, .setVertices 6 [2,3,5], .newFace, .setVertices 7 [3,0,5],
   .newRegion, .setFaces 0 [(0,true),(1,true),(2,true),(3,true),(4,false),(5,false),(6,false),(7,false)]]

/-- The octahedron is split with the square in its middle: the hypotheses hold, and the new regions
are the two pyramids. -/
example : ∃ T, empty.run octahedron = .ok T ∧ T.Consistent ∧ T.sr 0 = .live ∧
    LoopPath T.view [(0, true), (3, true), (5, true), (7, true)] ∧ (T.view.faces 0).length ≤ 511 ∧ Sealed T.view 0 ∧
    Halves T.view 0 [(0, true), (3, true), (5, true), (7, true)] (fun f => decide (4 ≤ f)) ∧
    (∀ p ∈ T.view.faces 0, ((T.view.edges p.1).map (·.1)).Nodup ∧ T.view.edges p.1 ≠ [] ∧ (T.view.edges p.1).length ≤ 64) ∧
    ∃ T', T.mrSplitLoop 0 [0,3,5,7] = .ok (T', 8) ∧
      T'.mrFaces 1 = .ok [8,4,5,6,7] ∧ T'.mrFaces 2 = .ok [8,0,1,2,3] := by
  obtain ⟨T, h1, h2⟩ := reachable (os := octahedron) (by decide +kernel)
  have hq : answer octahedron (fun T => .ok (decide (T.sr 0 = .live) && decide ((T.view.faces 0).length ≤ 511) &&
      decide (T.ev 0 = (some 0, some 1)) && decide (T.ev 3 = (some 1, some 2)) && decide (T.ev 5 = (some 2, some 3)) &&
      decide (T.ev 7 = (some 3, some 0)) &&
      halvesB T.view 0 [(0, true), (3, true), (5, true), (7, true)] (fun f => decide (4 ≤ f)) &&
      match T.mrSplitLoop 0 [0,3,5,7] with
      | .ok (T', f) => decide (f = 8) && decide (T'.mrFaces 1 = .ok [8,4,5,6,7]) && decide (T'.mrFaces 2 = .ok [8,0,1,2,3])
      | _ => false)) = .ok true := by decide +kernel
  unfold answer at hq
  rw [h1, Res.bind_ok, Res.ok.injEq] at hq
  simp only [Bool.and_eq_true, decide_eq_true_iff] at hq
  obtain ⟨⟨⟨⟨⟨⟨⟨a, b⟩, e0⟩, e3⟩, e5⟩, e7⟩, hb⟩, q⟩ := hq
  obtain ⟨y1, y2, y3⟩ := halvesB_sound hb
  refine ⟨T, h1, h2, a, ⟨?_, by simp⟩, b, y1, y2, y3, ?_⟩
  · have cont : ∀ {p q a b c}, T.ev p = (some a, some b) → T.ev q = (some b, some c) → b ≠ c →
        Continues T.view (p, true) (q, true) := by
      intro p q a b c hp hq hbc
      refine ⟨⟨b, ?_, ?_⟩, ?_⟩
      · show endAt (T.ev p) true = _; rw [hp]; rfl
      · show endAt (T.ev q) false = _; rw [hq]; rfl
      · show (T.ev q).1 ≠ (T.ev q).2; rw [hq]; simpa using hbc
    rw [List.isChain_cons_cons, List.isChain_cons_cons, List.isChain_cons_cons]
    exact ⟨cont e0 e3 (by decide), cont e3 e5 (by decide), cont e5 e7 (by decide), by simp⟩
  · split at q
    · rename_i T' f he
      simp only [Bool.and_eq_true, decide_eq_true_iff] at q
      obtain ⟨⟨rfl, q1⟩, q2⟩ := q
      exact ⟨T', he, q1, q2⟩
    · cases q

/-- **C87, what fails.**  The same loop, listed in the other direction (also a closed path of edges of
the region that divides its boundary), ends the program: the first edge is always taken in its own
direction. -/
theorem C87_negation_first_edge : ∃ T, empty.run octahedron = .ok T ∧ T.Consistent ∧ T.sr 0 = .live ∧
    List.IsChain (Continues T.view) [(7, false), (5, false), (3, false), (0, false)] ∧
    Halves T.view 0 [(7, false), (5, false), (3, false), (0, false)] (fun f => decide (f < 4)) ∧
    T.mrSplitLoop 0 [7,5,3,0] = .fatal := by
  obtain ⟨T, h1, h2⟩ := reachable (os := octahedron) (by decide +kernel)
  have hq : answer octahedron (fun T => .ok (decide (T.sr 0 = .live) &&
      decide (T.ev 0 = (some 0, some 1)) && decide (T.ev 3 = (some 1, some 2)) && decide (T.ev 5 = (some 2, some 3)) &&
      decide (T.ev 7 = (some 3, some 0)) &&
      halvesB T.view 0 [(7, false), (5, false), (3, false), (0, false)] (fun f => decide (f < 4)) &&
      match T.mrSplitLoop 0 [7,5,3,0] with
      | .fatal => true
      | _ => false)) = .ok true := by decide +kernel
  unfold answer at hq
  rw [h1, Res.bind_ok, Res.ok.injEq] at hq
  simp only [Bool.and_eq_true, decide_eq_true_iff] at hq
  obtain ⟨⟨⟨⟨⟨⟨a, e0⟩, e3⟩, e5⟩, e7⟩, hb⟩, q⟩ := hq
  refine ⟨T, h1, h2, a, ?_, (halvesB_sound hb).2.1, ?_⟩
  · have cont : ∀ {p q a b c}, T.ev p = (some b, some c) → T.ev q = (some a, some b) → a ≠ b →
        Continues T.view (p, false) (q, false) := by
      intro p q a b c hp hq hbc
      refine ⟨⟨b, ?_, ?_⟩, ?_⟩
      · show endAt (T.ev p) false = _; rw [hp]; rfl
      · show endAt (T.ev q) true = _; rw [hq]; rfl
      · show (T.ev q).1 ≠ (T.ev q).2; rw [hq]; simpa using hbc
    rw [List.isChain_cons_cons, List.isChain_cons_cons, List.isChain_cons_cons]
    exact ⟨cont e7 e5 (by decide), cont e5 e3 (by decide), cont e3 e0 (by decide), by simp⟩
  · split at q
    · assumption
    · cases q

end Topo
end MSTK
