import Verif.DelInteriorModel
import Verif.Props.Effects
import Verif.Props.RegionContents

/-!
# C69  Deleting the interior of a mesh

`MESH_DelInterior` deletes all regions and the entities on model entities of the dimension of the mesh.
-/
namespace MSTK
namespace Topo

/-! ### the specification -/

/-- the dimension of the mesh -/
def meshDim (fl rl : List Nat) : Nat := if rl ≠ [] then 3 else if fl ≠ [] then 2 else 1

/-- The lists have the entities of the mesh, each once. -/
structure Listed (T : Topo) (vl el fl rl : List Nat) : Prop where
  v : vl.Nodup ∧ ∀ v, v ∈ vl ↔ T.sv v = .live
  e : el.Nodup ∧ ∀ e, e ∈ el ↔ T.se e = .live
  f : fl.Nodup ∧ ∀ f, f ∈ fl ↔ T.sf f = .live
  r : rl.Nodup ∧ ∀ r, r ∈ rl ↔ T.sr r = .live

/-- An entity inside the model bounds only entities inside the model. -/
structure Classified (T : Topo) (gv ge gf : Nat → Nat) (dim : Nat) : Prop where
  edge : ∀ f e, T.FaceHas f e → ge e = dim → gf f = dim
  vertex : ∀ e v, T.EdgeHas e v → gv v = dim → ge e = dim

/-- `T'` is what is left of `T` when the regions and the entities inside the model are taken out. -/
structure Boundary (gv ge gf : Nat → Nat) (dim : Nat) (T T' : Topo) : Prop where
  v : ∀ v, T'.sv v = .live ↔ T.sv v = .live ∧ gv v ≠ dim
  e : ∀ e, T'.se e = .live ↔ T.se e = .live ∧ ge e ≠ dim
  f : ∀ f, T'.sf f = .live ↔ T.sf f = .live ∧ gf f ≠ dim
  r : ∀ r, T'.sr r ≠ .live
  ends : ∀ e, T'.se e = .live → ∀ i, T'.meVertex e i = T.meVertex e i
  edges : ∀ f, T'.sf f = .live → T'.mfEdges f true none = T.mfEdges f true none ∧
    ∀ i, T'.mfEdgeDir_i f i = T.mfEdgeDir_i f i
  faces : ∀ e, T'.se e = .live → ∀ f, T'.FaceHas f e ↔ T.FaceHas f e ∧ gf f ≠ dim
  sides : ∀ f, T'.sf f = .live → ∀ i, T'.mfRegion f i = .ok none

/-! ### the loop -/

theorem delLoop_ok {del : Topo → Nat → Res Topo} {cond : Nat → Bool} {Ok : (Nat → Prop) → Topo → Prop} {L : List Nat}
    (step : ∀ D T x, Ok D T → x ∈ L → ¬ D x → cond x = true → ∃ T', del T x = .ok T' ∧ Ok (fun y => D y ∨ y = x) T')
    (hcongr : ∀ D D' T, (∀ y, D y ↔ D' y) → Ok D T → Ok D' T) :
    ∀ (pre suf : List Nat) (T : Topo) (D : Nat → Prop), (pre ++ suf).Nodup → (∀ x ∈ pre, x ∈ L ∧ ¬ D x) → Ok D T →
    ∃ T', delLoop del cond pre.length (pre ++ suf) T = .ok (pre.filter (fun x => !cond x) ++ suf, T') ∧
      Ok (fun y => D y ∨ (y ∈ pre ∧ cond y = true)) T' := by
  intro pre
  induction pre using List.reverseRecOn with
  | nil =>
    intro suf T D _ _ h
    exact ⟨T, rfl, hcongr _ _ _ (by simp) h⟩
  | append_singleton pre x ih =>
    intro suf T D hn hm h
    have hx : x ∉ pre := by
      intro hx
      rw [List.append_assoc, List.nodup_append] at hn
      exact hn.2.2 x hx x (by simp) rfl
    have hget : (pre ++ [x] ++ suf)[pre.length]? = some x := by simp
    rw [List.length_append, List.length_singleton]
    show ∃ T', (do
      let y ← Res.ofOption (pre ++ [x] ++ suf)[pre.length]?
      if cond y then
        let T1 ← del T y
        delLoop del cond pre.length ((pre ++ [x] ++ suf).erase y) T1
      else delLoop del cond pre.length (pre ++ [x] ++ suf) T) = _ ∧ _
    rw [hget, Res.ofOption_some, Res.bind_ok]
    have hn' : (pre ++ (x :: suf)).Nodup := by simpa using hn
    by_cases hc : cond x = true
    · rw [if_pos hc]
      obtain ⟨T1, a1, a2⟩ := step D T x h (hm x (by simp)).1 (hm x (by simp)).2 hc
      rw [a1, Res.bind_ok]
      have her : (pre ++ [x] ++ suf).erase x = pre ++ suf := by
        rw [List.append_assoc, List.erase_append_right _ hx]; simp
      rw [her]
      have hn2 : (pre ++ suf).Nodup := by
        rw [← her]; exact hn.erase _
      obtain ⟨T', b1, b2⟩ := ih suf T1 _ hn2 (fun y hy => ⟨(hm y (by simp [hy])).1, by
        rintro (hd | rfl)
        · exact (hm y (by simp [hy])).2 hd
        · exact hx hy⟩) a2
      refine ⟨T', ?_, hcongr _ _ _ (fun y => ?_) b2⟩
      · rw [b1, List.filter_append]; simp [hc]
      · constructor
        · rintro ((hd | rfl) | ⟨hy, hcy⟩)
          · exact Or.inl hd
          · exact Or.inr ⟨by simp, hc⟩
          · exact Or.inr ⟨by simp [hy], hcy⟩
        · rintro (hd | ⟨hy, hcy⟩)
          · exact Or.inl (Or.inl hd)
          · rcases List.mem_append.1 hy with hy | hy
            · exact Or.inr ⟨hy, hcy⟩
            · exact Or.inl (Or.inr (by simpa using hy))
    · rw [if_neg hc]
      obtain ⟨T', b1, b2⟩ := ih (x :: suf) T D hn' (fun y hy => hm y (by simp [hy])) h
      refine ⟨T', ?_, hcongr _ _ _ (fun y => ?_) b2⟩
      · rw [List.append_assoc, List.singleton_append, b1, List.filter_append]; simp [hc]
      · constructor
        · rintro (hd | ⟨hy, hcy⟩)
          · exact Or.inl hd
          · exact Or.inr ⟨by simp [hy], hcy⟩
        · rintro (hd | ⟨hy, hcy⟩)
          · exact Or.inl hd
          · rcases List.mem_append.1 hy with hy | hy
            · exact Or.inr ⟨hy, hcy⟩
            · rw [List.mem_singleton] at hy; subst hy; exact absurd hcy hc

open Classical in
/-- the entities of `D` deleted -/
noncomputable def gone (s : Nat → Stat) (D : Nat → Prop) : Nat → Stat := fun x => if D x then .freed else s x

theorem gone_or (s : Nat → Stat) (D : Nat → Prop) (x : Nat) : gone s (fun y => D y ∨ y = x) = upd (gone s D) x .freed := by
  funext y
  by_cases hy : y = x
  · subst hy; rw [upd_same]; simp [gone]
  · rw [upd_ne _ _ hy]
    unfold gone
    by_cases hD : D y
    · rw [if_pos (Or.inl hD), if_pos hD]
    · rw [if_neg (by rintro (h | h); exacts [hD h, hy h]), if_neg hD]

theorem gone_none (s : Nat → Stat) : gone s (fun _ => False) = s := by funext y; simp [gone]

theorem gone_live {s : Nat → Stat} {D : Nat → Prop} {x : Nat} : gone s D x = .live ↔ s x = .live ∧ ¬ D x := by
  unfold gone; by_cases h : D x <;> simp [h]

/-- `T'` is `T` with entities deleted -/
structure Cut (T : Topo) (Dv De Df Dr : Nat → Prop) (T' : Topo) : Prop where
  cons : T'.Consistent
  ev : T'.ev = T.ev
  fe : T'.fe = T.fe
  fd : T'.fd = T.fd
  rf : T'.rf = T.rf
  rd : T'.rd = T.rd
  rt : T'.rt = T.rt
  sv : T'.sv = gone T.sv Dv
  se : T'.se = gone T.se De
  sf : T'.sf = gone T.sf Df
  sr : T'.sr = gone T.sr Dr

theorem Cut.region {T T' : Topo} {Dv De Df Dr : Nat → Prop} (c : Cut T Dv De Df Dr T') {r : Nat} (hr : T.sr r = .live)
    (hd : ¬ Dr r) : ∃ T2, T'.mrDelete r false = .ok T2 ∧ Cut T Dv De Df (fun y => Dr y ∨ y = r) T2 := by
  have hl : T'.sr r = .live := by rw [c.sr]; exact gone_live.2 ⟨hr, hd⟩
  obtain ⟨T2, h1, h2⟩ := c.cons.delRegion (k := false) (alloc_of_live hl)
  have h3 := mrDelete_ok (keep := false) hl (c.cons.rfacesNodup (alloc_of_live hl)) fun f hf => alloc_of_live (c.cons.rfacesLive hl hf)
  rw [h1] at h3
  injection h3 with h3
  refine ⟨T2, h1, h2, ?_, ?_, ?_, ?_, ?_, ?_, ?_, ?_, ?_, ?_⟩ <;> rw [h3]
  · exact c.ev
  · exact c.fe
  · exact c.fd
  · exact c.rf
  · exact c.rd
  · exact c.rt
  · exact c.sv
  · exact c.se
  · exact c.sf
  · rw [gone_or, ← c.sr]; rfl

theorem Cut.face {T T' : Topo} {Dv De Df Dr : Nat → Prop} (c : Cut T Dv De Df Dr T') {f : Nat} (hf : T.sf f = .live)
    (hd : ¬ Df f) (hno : ∀ r d, T.sr r = .live → (f, d) ∈ facesOf T.rf T.rd r → Dr r) :
    ∃ T2, T'.mfDelete f false = .ok T2 ∧ Cut T Dv De (fun y => Df y ∨ y = f) Dr T2 := by
  have hl : T'.sf f = .live := by rw [c.sf]; exact gone_live.2 ⟨hf, hd⟩
  obtain ⟨T2, h1, h2⟩ := c.cons.delFace (k := false) (alloc_of_live hl) (by
    intro r d hr
    rw [c.sr] at hr
    obtain ⟨k1, k2⟩ := gone_live.1 hr
    rw [c.rf, c.rd]
    exact fun hm => k2 (hno r d k1 hm))
  have h3 := mfDelete_ok (keep := false) hl fun e he => alloc_of_live (c.cons.ef.down f e hl he)
  rw [h1] at h3
  injection h3 with h3
  refine ⟨T2, h1, h2, ?_, ?_, ?_, ?_, ?_, ?_, ?_, ?_, ?_, ?_⟩ <;> rw [h3]
  · exact c.ev
  · exact c.fe
  · exact c.fd
  · exact c.rf
  · exact c.rd
  · exact c.rt
  · exact c.sv
  · exact c.se
  · rw [gone_or, ← c.sf]; rfl
  · exact c.sr

theorem Cut.edge {T T' : Topo} {Dv De Df Dr : Nat → Prop} (c : Cut T Dv De Df Dr T') {e : Nat} (he : T.se e = .live)
    (hd : ¬ De e) (hno : ∀ f, T.FaceHas f e → Df f) :
    ∃ T2, T'.meDelete e false = .ok T2 ∧ Cut T Dv (fun y => De y ∨ y = e) Df Dr T2 := by
  have hl : T'.se e = .live := by rw [c.se]; exact gone_live.2 ⟨he, hd⟩
  obtain ⟨T2, h1, h2⟩ := c.cons.delEdge (k := false) (alloc_of_live hl) (by
    intro f hf hb
    rw [c.sf] at hf
    obtain ⟨k1, k2⟩ := gone_live.1 hf
    unfold bounds at hb
    rw [c.fe] at hb
    cases hfe : T.fe f with
    | none => rw [hfe] at hb; simp at hb
    | some l =>
      rw [hfe] at hb
      exact k2 (hno f ((faceHas_iff k1 hfe).2 hb)))
  have h3 := meDelete_ok (keep := false) hl fun v hv => alloc_of_live (c.cons.ve.down e v hl hv)
  rw [h1] at h3
  injection h3 with h3
  refine ⟨T2, h1, h2, ?_, ?_, ?_, ?_, ?_, ?_, ?_, ?_, ?_, ?_⟩ <;> rw [h3]
  · exact c.ev
  · exact c.fe
  · exact c.fd
  · exact c.rf
  · exact c.rd
  · exact c.rt
  · exact c.sv
  · rw [gone_or, ← c.se]; rfl
  · exact c.sf
  · exact c.sr

theorem Cut.vertex {T T' : Topo} {Dv De Df Dr : Nat → Prop} (c : Cut T Dv De Df Dr T') {v : Nat} (hv : T.sv v = .live)
    (hd : ¬ Dv v) (hno : ∀ e, T.EdgeHas e v → De e) :
    ∃ T2, T'.mvDelete v false = .ok T2 ∧ Cut T (fun y => Dv y ∨ y = v) De Df Dr T2 := by
  have hl : T'.sv v = .live := by rw [c.sv]; exact gone_live.2 ⟨hv, hd⟩
  obtain ⟨T2, h1, h2⟩ := c.cons.delVertex (k := false) (alloc_of_live hl) (by
    intro e he hb
    rw [c.se] at he
    obtain ⟨k1, k2⟩ := gone_live.1 he
    rw [c.ev] at hb
    exact k2 (hno e (EdgeHas_iff.2 ⟨k1, hb⟩)))
  have h3 : T'.mvDelete v false = .ok { T' with sv := upd T'.sv v (afterDelete false) } := by
    unfold mvDelete; rw [derefV_ok (alloc_of_live hl)]; rfl
  rw [h1] at h3
  injection h3 with h3
  refine ⟨T2, h1, h2, ?_, ?_, ?_, ?_, ?_, ?_, ?_, ?_, ?_, ?_⟩ <;> rw [h3]
  · exact c.ev
  · exact c.fe
  · exact c.fd
  · exact c.rf
  · exact c.rd
  · exact c.rt
  · rw [gone_or, ← c.sv]; rfl
  · exact c.se
  · exact c.sf
  · exact c.sr

theorem cut_congr {T T' : Topo} {Dv De Df Dr Dv' De' Df' Dr' : Nat → Prop} (h1 : ∀ y, Dv y ↔ Dv' y)
    (h2 : ∀ y, De y ↔ De' y) (h3 : ∀ y, Df y ↔ Df' y) (h4 : ∀ y, Dr y ↔ Dr' y) (c : Cut T Dv De Df Dr T') :
    Cut T Dv' De' Df' Dr' T' := by
  have e1 : Dv = Dv' := funext fun y => propext (h1 y)
  have e2 : De = De' := funext fun y => propext (h2 y)
  have e3 : Df = Df' := funext fun y => propext (h3 y)
  have e4 : Dr = Dr' := funext fun y => propext (h4 y)
  rw [← e1, ← e2, ← e3, ← e4]; exact c

/-- **C69** In a consistent mesh in which only interior entities are bounded by interior entities,
`MESH_DelInterior` succeeds and leaves exactly the boundary: the regions and the entities inside the model are
gone, whatever remains has its boundary as before, and the remaining entities are listed in their order. -/
theorem C69_boundary {T : Topo} (h : T.Consistent) {gv ge gf : Nat → Nat} {vl el fl rl : List Nat}
    (hL : T.Listed vl el fl rl) (hc : T.Classified gv ge gf (meshDim fl rl)) (h0 : el ≠ [] ∨ fl ≠ [] ∨ rl ≠ []) :
    ∃ R, T.delInterior gv ge gf vl el fl rl = .ok (some R) ∧ R.T.Consistent ∧
      Boundary gv ge gf (meshDim fl rl) T R.T ∧ R.T.Listed R.vl R.el R.fl R.rl ∧
      R.vl = vl.filter (fun v => gv v ≠ meshDim fl rl) ∧ R.el = el.filter (fun e => ge e ≠ meshDim fl rl) ∧
      R.fl = fl.filter (fun f => gf f ≠ meshDim fl rl) ∧ R.rl = [] := by
  have hdim : interiorDim rl.length fl.length el.length = some (meshDim fl rl) := by
    unfold interiorDim meshDim
    cases rl with
    | cons a l => simp
    | nil =>
      cases fl with
      | cons a l => simp
      | nil =>
        cases el with
        | cons a l => simp
        | nil => simp at h0
  generalize hdef : meshDim fl rl = dim at *
  have c0 : Cut T (fun _ => False) (fun _ => False) (fun _ => False) (fun _ => False) T :=
    ⟨h, rfl, rfl, rfl, rfl, rfl, rfl, (gone_none _).symm, (gone_none _).symm, (gone_none _).symm, (gone_none _).symm⟩
  obtain ⟨T1, a1, c1⟩ := delLoop_ok (del := fun T r => T.mrDelete r false) (cond := fun _ => true)
    (Ok := fun D T' => Cut T (fun _ => False) (fun _ => False) (fun _ => False) D T') (L := rl)
    (fun D T' x c hx hd _ => c.region ((hL.r.2 x).1 hx) hd)
    (fun D D' T' hD c => cut_congr (fun _ => Iff.rfl) (fun _ => Iff.rfl) (fun _ => Iff.rfl) hD c)
    rl [] T (fun _ => False) (by simpa using hL.r.1) (fun x hx => ⟨hx, id⟩) c0
  obtain ⟨T2, a2, c2⟩ := delLoop_ok (del := fun T f => T.mfDelete f false) (cond := fun f => decide (gf f = dim))
    (Ok := fun D T' => Cut T (fun _ => False) (fun _ => False) D _ T') (L := fl)
    (fun D T' x c hx hd _ => c.face ((hL.f.2 x).1 hx) hd fun r _ hr _ => Or.inr ⟨(hL.r.2 r).2 hr, rfl⟩)
    (fun D D' T' hD c => cut_congr (fun _ => Iff.rfl) (fun _ => Iff.rfl) hD (fun _ => Iff.rfl) c)
    fl [] T1 (fun _ => False) (by simpa using hL.f.1) (fun x hx => ⟨hx, id⟩) c1
  obtain ⟨T3, a3, c3⟩ := delLoop_ok (del := fun T e => T.meDelete e false) (cond := fun e => decide (ge e = dim))
    (Ok := fun D T' => Cut T (fun _ => False) D _ _ T') (L := el)
    (fun D T' x c hx hd hcx => c.edge ((hL.e.2 x).1 hx) hd fun f hf => Or.inr ⟨(hL.f.2 f).2 hf.1,
      decide_eq_true (hc.edge f x hf (of_decide_eq_true hcx))⟩)
    (fun D D' T' hD c => cut_congr (fun _ => Iff.rfl) hD (fun _ => Iff.rfl) (fun _ => Iff.rfl) c)
    el [] T2 (fun _ => False) (by simpa using hL.e.1) (fun x hx => ⟨hx, id⟩) c2
  obtain ⟨T4, a4, c4⟩ := delLoop_ok (del := fun T v => T.mvDelete v false) (cond := fun v => decide (gv v = dim))
    (Ok := fun D T' => Cut T D _ _ _ T') (L := vl)
    (fun D T' x c hx hd hcx => c.vertex ((hL.v.2 x).1 hx) hd fun e he => Or.inr ⟨(hL.e.2 e).2 he.1,
      decide_eq_true (hc.vertex e x he (of_decide_eq_true hcx))⟩)
    (fun D D' T' hD c => cut_congr hD (fun _ => Iff.rfl) (fun _ => Iff.rfl) (fun _ => Iff.rfl) c)
    vl [] T3 (fun _ => False) (by simpa using hL.v.1) (fun x hx => ⟨hx, id⟩) c3
  simp only [List.append_nil] at a1 a2 a3 a4
  have sv : ∀ v, T4.sv v = .live ↔ T.sv v = .live ∧ gv v ≠ dim := by
    intro v; rw [c4.sv, gone_live]
    constructor
    · rintro ⟨k1, k2⟩; exact ⟨k1, fun hg => k2 (Or.inr ⟨(hL.v.2 v).2 k1, decide_eq_true hg⟩)⟩
    · rintro ⟨k1, k2⟩; refine ⟨k1, ?_⟩; rintro (hf | ⟨-, hg⟩); exacts [hf, k2 (of_decide_eq_true hg)]
  have se : ∀ v, T4.se v = .live ↔ T.se v = .live ∧ ge v ≠ dim := by
    intro v; rw [c4.se, gone_live]
    constructor
    · rintro ⟨k1, k2⟩; exact ⟨k1, fun hg => k2 (Or.inr ⟨(hL.e.2 v).2 k1, decide_eq_true hg⟩)⟩
    · rintro ⟨k1, k2⟩; refine ⟨k1, ?_⟩; rintro (hf | ⟨-, hg⟩); exacts [hf, k2 (of_decide_eq_true hg)]
  have sf : ∀ v, T4.sf v = .live ↔ T.sf v = .live ∧ gf v ≠ dim := by
    intro v; rw [c4.sf, gone_live]
    constructor
    · rintro ⟨k1, k2⟩; exact ⟨k1, fun hg => k2 (Or.inr ⟨(hL.f.2 v).2 k1, decide_eq_true hg⟩)⟩
    · rintro ⟨k1, k2⟩; refine ⟨k1, ?_⟩; rintro (hf | ⟨-, hg⟩); exacts [hf, k2 (of_decide_eq_true hg)]
  have sr : ∀ r, T4.sr r ≠ .live := by
    intro r hr; rw [c4.sr, gone_live] at hr
    exact hr.2 (Or.inr ⟨(hL.r.2 r).2 hr.1, rfl⟩)
  have hedges : ∀ f, T4.sf f = .live → T4.mfEdges f true none = T.mfEdges f true none ∧
      ∀ i, T4.mfEdgeDir_i f i = T.mfEdgeDir_i f i := by
    intro f hf
    have ht := alloc_of_live ((sf f).1 hf).1
    have hf := alloc_of_live hf
    constructor
    · unfold mfEdges fedges
      rw [derefF_ok ht, derefF_ok hf, c4.fe]
      rfl
    · intro i
      unfold mfEdgeDir_i
      rw [derefF_ok ht, derefF_ok hf, c4.fd]
  refine ⟨⟨vl.filter fun x => !decide (gv x = dim), el.filter fun x => !decide (ge x = dim),
    fl.filter fun x => !decide (gf x = dim), rl.filter fun _ => !true, T4⟩, ?_, c4.cons, ?_, ?_, ?_, ?_, ?_, ?_⟩
  · unfold delInterior
    rw [hdim]
    simp only [a1, a2, a3, a4, Res.bind_ok]
    rfl
  · refine ⟨sv, se, sf, sr, ?_, hedges, ?_, ?_⟩
    · intro e he i
      have ht := alloc_of_live ((se e).1 he).1
      rw [meVertex_ok (alloc_of_live he), meVertex_ok ht, c4.ev]
    · intro e he f
      constructor
      · rintro ⟨k1, es, k2, k3⟩
        obtain ⟨k4, k5⟩ := (sf f).1 k1
        exact ⟨⟨k4, es, by rw [← (hedges f k1).1]; exact k2, k3⟩, k5⟩
      · rintro ⟨⟨k1, es, k2, k3⟩, k4⟩
        have k5 := (sf f).2 ⟨k1, k4⟩
        exact ⟨k5, es, by rw [(hedges f k5).1]; exact k2, k3⟩
    · intro f hf i
      rw [mfRegion_ok (alloc_of_live hf)]
      congr 1
      cases hr : endAt (T4.fr f) i with
      | none => rfl
      | some r =>
        have := (c4.cons.fr.mem f (alloc_of_live hf) r (!i)).1 (by rw [Bool.not_not]; exact hr)
        exact absurd this.1 (sr r)
  · refine ⟨⟨hL.v.1.filter _, fun v => ?_⟩, ⟨hL.e.1.filter _, fun v => ?_⟩, ⟨hL.f.1.filter _, fun v => ?_⟩,
      ⟨hL.r.1.filter _, fun v => ?_⟩⟩
    · rw [sv, ← hL.v.2]; simp
    · rw [se, ← hL.e.2]; simp
    · rw [sf, ← hL.f.2]; simp
    · simp [sr]
  · simp
  · simp
  · simp
  · simp

/-- A mesh that has vertices only is left alone. -/
theorem C69_vertices_only (T : Topo) (gv ge gf : Nat → Nat) (vl : List Nat) :
    T.delInterior gv ge gf vl [] [] [] = .ok none := rfl

/-! ### non-vacuity and negations -/

/-- Two tetrahedra with the common face 2 (vertices 1, 2, 3). -/
def tetPair : List Op :=
  List.replicate 5 .newVertex ++
  (([[0,1,2],[0,1,3],[1,2,3],[2,0,3],[1,2,4],[2,3,4],[3,1,4]] : List (List Nat)).mapIdx
    fun i vs => [Op.newFace, .setVertices i vs]).flatten ++
  [.newRegion, .setFaces 0 [(0,false),(1,true),(2,true),(3,true)],
   .newRegion, .setFaces 1 [(2,false),(4,true),(5,true),(6,true)]]

/-- face 2 is inside the model, the other faces, and all edges and vertices, are on its boundary -/
def tetFaces (f : Nat) : Nat := if f = 2 then 3 else 2

/-- checking the hypotheses of `C69_boundary` -/
def boundReadyB (T : Topo) (gv ge gf : Nat → Nat) (nv ne nf nr dim : Nat) : Bool :=
  decide (T.nv = nv ∧ T.ne = ne ∧ T.nf = nf ∧ T.nr = nr) &&
  (List.range nv).all (fun v => decide (T.sv v = .live)) && (List.range ne).all (fun e => decide (T.se e = .live)) &&
  (List.range nf).all (fun f => decide (T.sf f = .live)) && (List.range nr).all (fun r => decide (T.sr r = .live)) &&
  (List.range nf).all (fun f => decide (gf f = dim) || ((T.fe f).getD []).all fun e => decide (ge e ≠ dim)) &&
  (List.range ne).all (fun e => decide (ge e = dim) ||
    ((T.ev e).1.toList ++ (T.ev e).2.toList).all fun v => decide (gv v ≠ dim))

theorem boundReadyB_sound {T : Topo} (h : T.Consistent) {gv ge gf : Nat → Nat} {nv ne nf nr dim : Nat}
    (hb : T.boundReadyB gv ge gf nv ne nf nr dim = true) :
    T.Listed (List.range nv) (List.range ne) (List.range nf) (List.range nr) ∧ T.Classified gv ge gf dim := by
  unfold boundReadyB at hb
  simp only [Bool.and_eq_true, decide_eq_true_iff, List.all_eq_true, List.mem_range, Bool.or_eq_true] at hb
  obtain ⟨⟨⟨⟨⟨⟨⟨e1, e2, e3, e4⟩, b1⟩, b2⟩, b3⟩, b4⟩, b5⟩, b6⟩ := hb
  refine ⟨⟨⟨List.nodup_range, fun v => ?_⟩, ⟨List.nodup_range, fun v => ?_⟩, ⟨List.nodup_range, fun v => ?_⟩,
    ⟨List.nodup_range, fun v => ?_⟩⟩, ?_, ?_⟩
  · rw [List.mem_range]
    refine ⟨b1 v, fun hv => ?_⟩
    by_contra hge
    rw [h.newV v (by omega)] at hv; cases hv
  · rw [List.mem_range]
    refine ⟨b2 v, fun hv => ?_⟩
    by_contra hge
    rw [h.newE v (by omega)] at hv; cases hv
  · rw [List.mem_range]
    refine ⟨b3 v, fun hv => ?_⟩
    by_contra hge
    rw [h.newF v (by omega)] at hv; cases hv
  · rw [List.mem_range]
    refine ⟨b4 v, fun hv => ?_⟩
    by_contra hge
    rw [h.newR v (by omega)] at hv; cases hv
  · intro f e hfe hg
    have hlt : f < nf := by
      by_contra hge
      have := hfe.1
      rw [h.newF f (by omega)] at this; cases this
    obtain ⟨l, k1, -, k2⟩ := hfe.stored
    rcases b5 f hlt with hd | hd
    · exact hd
    · exact absurd hg (hd e (by rw [k1]; exact k2))
  · intro e v hev hg
    have hlt : e < ne := by
      by_contra hge
      have := hev.1
      rw [h.newE e (by omega)] at this; cases this
    rcases b6 e hlt with hd | hd
    · exact hd
    · refine absurd hg (hd v ?_)
      rcases (EdgeHas_iff.1 hev).2 with hv | hv <;> rw [List.mem_append]
      · left; rw [hv]; simp
      · right; rw [hv]; simp

/-- The hypotheses hold for two tetrahedra; face 2 goes and the other six stay. -/
example : ∃ (T : Topo) (R : Left), empty.run tetPair = .ok T ∧
    T.delInterior (fun _ => 2) (fun _ => 2) tetFaces (List.range 5) (List.range 9) (List.range 7) (List.range 2) =
      .ok (some R) ∧ R.fl = [0,1,3,4,5,6] ∧ R.rl = [] ∧ R.el = List.range 9 ∧
    Boundary (fun _ => 2) (fun _ => 2) tetFaces 3 T R.T := by
  obtain ⟨T, h1, h2⟩ := reachable (os := tetPair) (by decide +kernel)
  have hq : answer tetPair (fun T => .ok (T.boundReadyB (fun _ => 2) (fun _ => 2) tetFaces 5 9 7 2 3)) = .ok true := by
    decide +kernel
  unfold answer at hq
  rw [h1, Res.bind_ok, Res.ok.injEq] at hq
  obtain ⟨k1, k2⟩ := boundReadyB_sound h2 hq
  obtain ⟨R, r1, -, r2, -, -, r3, r4, r5⟩ := C69_boundary h2 k1 k2 (Or.inl (by decide))
  exact ⟨T, R, h1, r1, by rw [r4]; decide, r5, by rw [r3]; decide, r2⟩

/-- **C69 (negation)** In a mesh without classification (dimension 4, the value new entities have) the regions are
deleted but the face between them stays. -/
theorem C69_negation_unclassified :
    answer tetPair (fun T => do
      let R ← T.delInterior (fun _ => 4) (fun _ => 4) (fun _ => 4) (List.range 5) (List.range 9) (List.range 7) (List.range 2)
      let R ← Res.ofOption R
      pure (R.fl, R.rl)) = .ok (List.range 7, []) ∧
    answer tetPair (fun T => T.mfRegions 2) = .ok (some [0, 1]) := by decide +kernel

/-- **C69 (negation)** When an edge inside the model bounds a face on its boundary, the face is left with an edge
that was deleted: asking for the vertices of the face reads memory that was released. -/
theorem C69_negation_misclassified :
    answer tetPair (fun T => do
      let R ← T.delInterior (fun _ => 2) (fun e => if e = 0 then 3 else 2) tetFaces (List.range 5) (List.range 9)
        (List.range 7) (List.range 2)
      let R ← Res.ofOption R
      R.T.mfVertices 0 true none) = .ub := by decide +kernel

end Topo
end MSTK
