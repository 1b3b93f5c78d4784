import Verif.TopoStep

/-!
Closed forms of the adjacency queries in a consistent mesh.
-/
namespace MSTK
namespace Topo

theorem collect_ok {g : Nat → Res α} {h : Nat → α} : ∀ {ks : List Nat}, (∀ k ∈ ks, g k = .ok (h k)) →
    collect g ks = .ok (ks.map h) := by
  intro ks
  induction ks with
  | nil => intro _; rfl
  | cons k ks ih =>
    intro hk
    rw [show collect g (k :: ks) = (do
      let x ← g k
      let r ← collect g ks
      pure (x :: r)) from rfl, hk k (by simp), Res.bind_ok, ih (fun j hj => hk j (by simp [hj])), Res.bind_ok]
    rfl

theorem collect_getElem {l : List Nat} : ∀ {ks : List Nat}, (∀ k ∈ ks, k < l.length) →
    collect (fun k => Res.ofOption l[k]?) ks = .ok (ks.map fun k => l.getD k 0) := by
  intro ks h
  apply collect_ok
  intro k hk
  rw [List.getElem?_eq_getElem (h k hk), Res.ofOption_some, List.getD_eq_getElem?_getD,
    List.getElem?_eq_getElem (h k hk), Option.getD_some]

theorem map_range_getD (l : List Nat) : (List.range l.length).map (fun k => l.getD k 0) = l := by
  apply List.ext_getElem?
  intro i
  rw [List.getElem?_map]
  by_cases hi : i < l.length
  · rw [List.getElem?_range hi, Option.map_some, List.getD_eq_getElem?_getD, List.getElem?_eq_getElem hi]
    rfl
  · rw [List.getElem?_eq_none (by simpa using hi), List.getElem?_eq_none (by simpa using hi)]; rfl

theorem mfEdges_plain {T : Topo} {f : Nat} {l : List Nat} (hf : (T.sf f).alloc) (hl : T.fe f = some l) :
    T.mfEdges f true none = .ok l := by
  unfold mfEdges
  rw [fedges_ok hf hl, Res.bind_ok]
  show (do let ks ← Res.ok (straight true l.length); collect _ ks) = _
  rw [Res.bind_ok, collect_getElem]
  · unfold straight
    simp only [if_true, List.map_map]
    congr 1
    exact map_range_getD l
  · intro k hk
    unfold straight at hk
    simpa using hk

theorem mfEdges_none {T : Topo} {f : Nat} (hl : T.fe f = none) (dir : Bool) (v0 : Option Nat)
    (es : List Nat) : T.mfEdges f dir v0 ≠ .ok es := by
  unfold mfEdges fedges
  rw [hl]
  intro h
  obtain ⟨_, h1, _⟩ := Res.bind_eq_ok.1 h
  obtain ⟨_, _, h2⟩ := Res.bind_eq_ok.1 h1
  cases h2

/-- `MR_FaceDir` reports the direction in which the region uses the face. -/
theorem mrFaceDir_iff {T : Topo} (h : T.Consistent) {r f : Nat} {d : Bool} (hr : T.sr r = .live) :
    T.mrFaceDir r f = .ok (some d) ↔ (f, d) ∈ facesOf T.rf T.rd r := by
  cases hl : T.rf r with
  | none =>
    constructor
    · intro hc
      unfold mrFaceDir rfaces at hc
      rw [hl] at hc
      obtain ⟨_, h1, _⟩ := Res.bind_eq_ok.1 hc
      obtain ⟨_, _, h2⟩ := Res.bind_eq_ok.1 h1
      cases h2
    · intro hc
      unfold facesOf at hc
      rw [hl] at hc
      simp [pairs] at hc
  | some l =>
    have hok := h.reg r l (alloc_of_live hr) hl
    unfold mrFaceDir
    rw [rfaces_ok (alloc_of_live hr) hl, Res.bind_ok, facesOf_some hl]
    by_cases hf : f ∈ l
    · rw [if_pos hf, getW_ok (hok.word (Nat.le_of_lt (List.idxOf_lt_length_iff.2 hf))), Res.bind_ok,
        mem_pairs_dir hok.1 (idxOf_getElem? hf)]
      simp
    · rw [if_neg hf]
      constructor
      · intro hc; cases hc
      · intro hc; exact absurd (mem_of_mem_pairs hc) hf

theorem mfRegion_ok {T : Topo} {f : Nat} (hf : (T.sf f).alloc) (i : Bool) :
    T.mfRegion f i = .ok (endAt (T.fr f) i) := by
  unfold mfRegion; rw [derefF_ok hf]; rfl

theorem meVertex_ok {T : Topo} {e : Nat} (he : (T.se e).alloc) (i : Bool) :
    T.meVertex e i = .ok (endAt (T.ev e) i) := by
  unfold meVertex; rw [derefE_ok he]; rfl

theorem meVertex_ends {T : Topo} {e v : Nat} (he : (T.se e).alloc) :
    (T.meVertex e false = .ok (some v) ∨ T.meVertex e true = .ok (some v)) ↔ ends T.ev e v := by
  rw [meVertex_ok he, meVertex_ok he]
  simp [endAt, ends]

theorem meFaces_ok {T : Topo} {e : Nat} (he : (T.se e).alloc) :
    ∃ L, T.meFaces e = .ok L ∧ L.getD [] = T.ef e := by
  unfold meFaces
  rw [derefE_ok he, Res.bind_ok]
  refine ⟨_, rfl, ?_⟩
  split
  · rename_i hz; rw [List.eq_nil_of_length_eq_zero hz]; rfl
  · rfl

theorem mvEdges_getD {T : Topo} {v : Nat} (hv : (T.sv v).alloc) :
    ∃ L, T.mvEdges v = .ok L ∧ L.getD [] = T.ve v := by
  unfold mvEdges
  rw [derefV_ok hv, Res.bind_ok]
  refine ⟨_, rfl, ?_⟩
  split
  · rename_i hz; rw [List.eq_nil_of_length_eq_zero hz]; rfl
  · rfl

theorem orNull_getD (l : List Nat) : (orNull l).getD [] = l := by
  unfold orNull
  split
  · rename_i hz; rw [List.eq_nil_of_length_eq_zero hz]; rfl
  · rfl

end Topo
end MSTK
