import Mathlib.Data.List.Nodup
import Verif.TopoSpec

/-!
Helper lemmas for the topology layer: the layers are preserved by changes of one entity, and the
closed forms of the loops of `TopoModel.lean`.
-/
namespace MSTK
namespace Topo

@[simp] theorem alloc_live : Stat.live.alloc = true := rfl
@[simp] theorem alloc_kept : Stat.kept.alloc = true := rfl
@[simp] theorem alloc_freed : Stat.freed.alloc = false := rfl
@[simp] theorem alloc_unused : Stat.unused.alloc = false := rfl

theorem alloc_of_live {s : Stat} (h : s = .live) : s.alloc = true := by rw [h]; rfl

theorem mem_chkn {l : List Nat} {x y : Nat} : y ∈ chkn l x ↔ y = x ∨ y ∈ l := by
  unfold chkn
  split
  · constructor
    · exact Or.inr
    · rintro (rfl | h)
      · assumption
      · exact h
  · simp [or_comm]

theorem nodup_chkn {l : List Nat} {x : Nat} (h : l.Nodup) : (chkn l x).Nodup := by
  unfold chkn
  split
  · exact h
  · rename_i hx
    rw [List.nodup_append]
    refine ⟨h, by simp, ?_⟩
    intro a ha b hb
    simp only [List.mem_singleton] at hb
    subst hb
    intro e
    exact hx (e ▸ ha)

/-- Master lemma: only the upper entity `y` changes. -/
theorem Layer.update {sl : Nat → Stat} {up up' : Nat → List Nat} {su su' : Nat → Stat}
    {bd bd' : Nat → Nat → Prop} (h : Layer sl up su bd) (y : Nat)
    (hsu : ∀ z, z ≠ y → su' z = su z) (hbd : ∀ z, z ≠ y → ∀ x, bd' z x ↔ bd z x)
    (hnd : ∀ x, (sl x).alloc → (up' x).Nodup)
    (hoth : ∀ x, (sl x).alloc → ∀ z, z ≠ y → (z ∈ up' x ↔ z ∈ up x))
    (hy : ∀ x, (sl x).alloc → (y ∈ up' x ↔ su' y = .live ∧ bd' y x))
    (hdown : ∀ x, su' y = .live → bd' y x → sl x = .live) : Layer sl up' su' bd' := by
  refine ⟨?_, hnd, ?_⟩
  · intro x hx z
    by_cases hz : z = y
    · subst hz; exact hy x hx
    · rw [hoth x hx z hz, h.mem x hx z, hsu z hz, hbd z hz x]
  · intro z x hz hb
    by_cases hzy : z = y
    · subst hzy; exact hdown x hz hb
    · rw [hsu z hzy] at hz
      exact h.down z x hz ((hbd z hzy x).1 hb)

/-- A lower entity `x` changes its state; nothing live is bounded by it unless it stays live. -/
theorem Layer.lower {sl sl' : Nat → Stat} {up up' : Nat → List Nat} {su : Nat → Stat}
    {bd : Nat → Nat → Prop} (h : Layer sl up su bd) (x : Nat)
    (hsl : ∀ z, z ≠ x → sl' z = sl z) (hup : ∀ z, z ≠ x → up' z = up z)
    (hx : (sl' x).alloc → (up' x).Nodup ∧ ∀ y, y ∈ up' x ↔ su y = .live ∧ bd y x)
    (hlive : (∃ y, su y = .live ∧ bd y x) → sl' x = .live) : Layer sl' up' su bd := by
  refine ⟨?_, ?_, ?_⟩
  · intro z hz y
    by_cases hzx : z = x
    · subst hzx; exact (hx hz).2 y
    · rw [hup z hzx]
      exact h.mem z (by rw [← hsl z hzx]; exact hz) y
  · intro z hz
    by_cases hzx : z = x
    · subst hzx; exact (hx hz).1
    · rw [hup z hzx]
      exact h.nodup z (by rw [← hsl z hzx]; exact hz)
  · intro y z hy hb
    by_cases hzx : z = x
    · subst hzx; exact hlive ⟨y, hy, hb⟩
    · rw [hsl z hzx]; exact h.down y z hy hb

/-! ### pairs -/

theorem pairs_length (l : List Nat) (b : Nat → Bool) : (pairs l b).length = l.length := by
  simp [pairs]

theorem getElem?_pairs (l : List Nat) (b : Nat → Bool) (i : Nat) :
    (pairs l b)[i]? = l[i]?.map fun x => (x, b i) := by
  simp [pairs, List.getElem?_mapIdx]

theorem mem_pairs {l : List Nat} {b : Nat → Bool} {x : Nat} {d : Bool} :
    (x, d) ∈ pairs l b ↔ ∃ i, l[i]? = some x ∧ b i = d := by
  rw [List.mem_iff_getElem?]
  constructor
  · rintro ⟨i, hi⟩
    rw [getElem?_pairs] at hi
    cases hl : l[i]? with
    | none => rw [hl] at hi; simp at hi
    | some y =>
      rw [hl] at hi
      simp only [Option.map_some, Option.some.injEq, Prod.mk.injEq] at hi
      exact ⟨i, by rw [hl, hi.1], hi.2⟩
  · rintro ⟨i, hi, hb⟩
    exact ⟨i, by rw [getElem?_pairs, hi, ← hb]; rfl⟩

theorem pairs_map_fst (l : List Nat) (b : Nat → Bool) : (pairs l b).map (·.1) = l := by
  apply List.ext_getElem?
  intro i
  rw [List.getElem?_map, getElem?_pairs]
  cases l[i]? <;> rfl

theorem pairs_congr {l : List Nat} {b c : Nat → Bool} (h : ∀ i, i < l.length → b i = c i) :
    pairs l b = pairs l c := by
  apply List.ext_getElem?
  intro i
  rw [getElem?_pairs, getElem?_pairs]
  by_cases hi : i < l.length
  · rw [h i hi]
  · rw [List.getElem?_eq_none (by omega)]; rfl

/-- pairs of a list of pairs whose directions are stored in the bits -/
theorem pairs_eq {es : List (Nat × Bool)} {b : Nat → Bool}
    (h : ∀ i p, es[i]? = some p → b i = p.2) : pairs (es.map (·.1)) b = es := by
  apply List.ext_getElem?
  intro i
  rw [getElem?_pairs, List.getElem?_map]
  cases he : es[i]? with
  | none => rfl
  | some p => simp [h i p he]

theorem getElem?_inj_nodup {l : List Nat} (h : l.Nodup) {i j x : Nat} (hi : l[i]? = some x)
    (hj : l[j]? = some x) : i = j := by
  have h1 := (List.getElem?_eq_some_iff.1 hi)
  have h2 := (List.getElem?_eq_some_iff.1 hj)
  obtain ⟨a1, a2⟩ := h1
  obtain ⟨b1, b2⟩ := h2
  exact (List.Nodup.getElem_inj_iff h).1 (a2.trans b2.symm)

theorem idxOf_getElem? {l : List Nat} {x : Nat} (h : x ∈ l) : l[l.idxOf x]? = some x := by
  have h1 := List.idxOf_lt_length_iff.2 h
  rw [List.getElem?_eq_getElem h1, List.getElem_idxOf h1]

theorem idxOf_eq_of_nodup {l : List Nat} (h : l.Nodup) {i x : Nat} (hi : l[i]? = some x) :
    l.idxOf x = i :=
  getElem?_inj_nodup h (idxOf_getElem? (List.mem_of_getElem? hi)) hi

/-! ### layer vertex - edge -/

theorem mvAddEdge_ok {T : Topo} {v e : Nat} (h : (T.sv v).alloc) :
    T.mvAddEdge v e = .ok { T with ve := upd T.ve v (chkn (T.ve v) e) } := by
  unfold mvAddEdge derefV
  rw [if_pos h]
  rfl

theorem mvRemEdge_ok {T : Topo} {v e : Nat} (h : (T.sv v).alloc) :
    T.mvRemEdge v e = .ok { T with ve := upd T.ve v ((T.ve v).erase e) } := by
  unfold mvRemEdge derefV
  rw [if_pos h]
  rfl

theorem derefE_ok {T : Topo} {e : Nat} (h : (T.se e).alloc) : T.derefE e = .ok () := by
  unfold derefE; rw [if_pos h]

theorem derefV_ok {T : Topo} {e : Nat} (h : (T.sv e).alloc) : T.derefV e = .ok () := by
  unfold derefV; rw [if_pos h]

theorem derefF_ok {T : Topo} {e : Nat} (h : (T.sf e).alloc) : T.derefF e = .ok () := by
  unfold derefF; rw [if_pos h]

theorem derefR_ok {T : Topo} {e : Nat} (h : (T.sr e).alloc) : T.derefR e = .ok () := by
  unfold derefR; rw [if_pos h]

theorem meSetVertex_ok {T : Topo} {e : Nat} {i : Bool} {v : Nat} (he : (T.se e).alloc)
    (hv : (T.sv v).alloc) :
    T.meSetVertex e i v = .ok { T with ev := upd T.ev e (setEnd (T.ev e) i (some v)),
                                       ve := upd T.ve v (chkn (T.ve v) e) } := by
  unfold meSetVertex
  rw [derefE_ok he, Res.bind_ok, mvAddEdge_ok (by exact hv)]

theorem ends_setEnd {p : Option Nat × Option Nat} {i : Bool} {v x : Nat}
    (h : endAt p i = none) :
    ((setEnd p i (some v)).1 = some x ∨ (setEnd p i (some v)).2 = some x) ↔
      x = v ∨ (p.1 = some x ∨ p.2 = some x) := by
  obtain ⟨a, b⟩ := p
  cases i <;> simp [setEnd, endAt] at h ⊢ <;> subst h <;> simp <;> constructor <;> rintro (h | h) <;> simp [h]

theorem Layer.setVertex {sv : Nat → Stat} {ve : Nat → List Nat} {se : Nat → Stat}
    {ev : Nat → Option Nat × Option Nat} (h : Layer sv ve se (ends ev)) {e v : Nat} {i : Bool}
    (he : se e = .live) (hv : sv v = .live) (hi : endAt (ev e) i = none) :
    Layer sv (upd ve v (chkn (ve v) e)) se (ends (upd ev e (setEnd (ev e) i (some v)))) := by
  have hb : ∀ x, ends (upd ev e (setEnd (ev e) i (some v))) e x ↔ x = v ∨ ends ev e x := by
    intro x
    unfold ends
    rw [upd_same]
    exact ends_setEnd hi
  refine h.update e (fun _ _ => rfl) ?_ ?_ ?_ ?_ ?_
  · intro z hz x
    unfold ends
    rw [upd_ne _ _ hz]
  · intro x hx
    rw [upd_apply]
    split
    · rename_i hxv; subst hxv; exact nodup_chkn (h.nodup x hx)
    · exact h.nodup x hx
  · intro x hx z hz
    rw [upd_apply]
    split
    · rename_i hxv; subst hxv; rw [mem_chkn]; simp [hz]
    · rfl
  · intro x hx
    rw [hb, upd_apply]
    split
    · rename_i hxv; subst hxv; rw [mem_chkn]; simp [he]
    · rename_i hxv
      rw [h.mem x hx e]; simp [hxv]
  · intro x _ hx
    rw [hb] at hx
    rcases hx with rfl | hx
    · exact hv
    · exact h.down e x he hx

/-! ### layer edge - face -/

theorem meAddFace_ok {T : Topo} {e f : Nat} (h : (T.se e).alloc) :
    T.meAddFace e f = .ok { T with ef := upd T.ef e (chkn (T.ef e) f) } := by
  unfold meAddFace
  rw [derefE_ok h]; rfl

theorem meRemFace_ok {T : Topo} {e f : Nat} (h : (T.se e).alloc) :
    T.meRemFace e f = .ok { T with ef := upd T.ef e ((T.ef e).erase f) } := by
  unfold meRemFace
  rw [derefE_ok h]; rfl

/-- the edges' face lists after adding `f` to each of `es` -/
def addAll (ef : Nat → List Nat) (f : Nat) : List Nat → Nat → List Nat
  | [] => ef
  | e :: es => addAll (upd ef e (chkn (ef e) f)) f es

def remAll (ef : Nat → List Nat) (f : Nat) : List Nat → Nat → List Nat
  | [] => ef
  | e :: es => remAll (upd ef e ((ef e).erase f)) f es

theorem meAddFaceAll_ok (f : Nat) (es : List Nat) : ∀ (T : Topo), (∀ e ∈ es, (T.se e).alloc) →
    T.meAddFaceAll f es = .ok { T with ef := addAll T.ef f es } := by
  induction es with
  | nil => intro T _; rfl
  | cons e es ih =>
    intro T h
    rw [show T.meAddFaceAll f (e :: es) = (meAddFace T e f >>= fun T => meAddFaceAll T f es) from rfl,
      meAddFace_ok (h e (by simp)), Res.bind_ok]
    exact ih _ (fun x hx => h x (by simp [hx]))

theorem meRemFaceAll_ok (f : Nat) (es : List Nat) : ∀ (T : Topo), (∀ e ∈ es, (T.se e).alloc) →
    T.meRemFaceAll f es = .ok { T with ef := remAll T.ef f es } := by
  induction es with
  | nil => intro T _; rfl
  | cons e es ih =>
    intro T h
    rw [show T.meRemFaceAll f (e :: es) = (meRemFace T e f >>= fun T => meRemFaceAll T f es) from rfl,
      meRemFace_ok (h e (by simp)), Res.bind_ok]
    exact ih _ (fun x hx => h x (by simp [hx]))

theorem addAll_spec (f : Nat) (es : List Nat) : ∀ (ef : Nat → List Nat) (x : Nat),
    ((ef x).Nodup → (addAll ef f es x).Nodup) ∧
    ∀ z, z ∈ addAll ef f es x ↔ z ∈ ef x ∨ (z = f ∧ x ∈ es) := by
  induction es with
  | nil => intro ef x; simp [addAll]
  | cons e es ih =>
    intro ef x
    obtain ⟨h1, h2⟩ := ih (upd ef e (chkn (ef e) f)) x
    refine ⟨fun h => h1 ?_, fun z => ?_⟩
    · rw [upd_apply]; split
      · rename_i hx; subst hx; exact nodup_chkn h
      · exact h
    · rw [show addAll ef f (e :: es) x = addAll (upd ef e (chkn (ef e) f)) f es x from rfl, h2 z,
        upd_apply]
      split
      · rename_i hx; subst hx
        rw [mem_chkn]
        simp only [List.mem_cons, true_or, and_true]
        constructor
        · rintro ((h | h) | ⟨h, _⟩)
          · exact Or.inr h
          · exact Or.inl h
          · exact Or.inr h
        · rintro (h | h)
          · exact Or.inl (Or.inr h)
          · exact Or.inl (Or.inl h)
      · rename_i hx; simp [hx]

theorem remAll_spec (f : Nat) (es : List Nat) : ∀ (ef : Nat → List Nat) (x : Nat),
    ((ef x).Nodup → (remAll ef f es x).Nodup ∧
    ∀ z, z ∈ remAll ef f es x ↔ z ∈ ef x ∧ ¬ (z = f ∧ x ∈ es)) := by
  induction es with
  | nil => intro ef x; simp [remAll]
  | cons e es ih =>
    intro ef x hnd
    have hnd' : (upd ef e ((ef e).erase f) x).Nodup := by
      rw [upd_apply]; split
      · rename_i hx; subst hx; exact hnd.erase _
      · exact hnd
    obtain ⟨h1, h2⟩ := ih (upd ef e ((ef e).erase f)) x hnd'
    refine ⟨h1, fun z => ?_⟩
    rw [show remAll ef f (e :: es) x = remAll (upd ef e ((ef e).erase f)) f es x from rfl, h2 z,
        upd_apply]
    split
    · rename_i hx; subst hx
      rw [hnd.mem_erase_iff]
      simp only [List.mem_cons, true_or, and_true]
      constructor
      · rintro ⟨⟨h1, h2⟩, _⟩; exact ⟨h2, h1⟩
      · rintro ⟨h1, h2⟩; exact ⟨⟨h2, h1⟩, fun h => h2 h.1⟩
    · rename_i hx; simp [hx]

/-- A face changes its edge list from `l` to `l'`: first removed from `old`, then added to `nu`. -/
theorem Layer.faceEdges {se : Nat → Stat} {ef ef' : Nat → List Nat} {sf : Nat → Stat}
    {fe : Nat → Option (List Nat)} (h : Layer se ef sf (bounds fe)) {f : Nat} {l' : List Nat}
    (hf : sf f = .live) (hlive : ∀ e ∈ l', se e = .live)
    (hnd : ∀ x, (se x).alloc → (ef' x).Nodup)
    (hoth : ∀ x, (se x).alloc → ∀ z, z ≠ f → (z ∈ ef' x ↔ z ∈ ef x))
    (hy : ∀ x, (se x).alloc → (f ∈ ef' x ↔ x ∈ l')) :
    Layer se ef' sf (bounds (upd fe f (some l'))) := by
  have hb : ∀ x, bounds (upd fe f (some l')) f x ↔ x ∈ l' := by
    intro x; unfold bounds; rw [upd_same]; rfl
  refine h.update f (fun _ _ => rfl) ?_ hnd hoth ?_ ?_
  · intro z hz x
    unfold bounds
    rw [upd_ne _ _ hz]
  · intro x hx; rw [hy x hx, hb, and_iff_right hf]
  · intro x _ hx; exact hlive x ((hb x).1 hx)

theorem upd_upd (g : Nat → α) (i : Nat) (a b : α) : upd (upd g i a) i b = upd g i b := by
  funext j
  simp only [upd_apply]
  split <;> rfl

theorem upd_self (g : Nat → α) (i : Nat) : upd g i (g i) = g := by
  funext j
  rw [upd_apply]
  split
  · rename_i h; rw [h]
  · rfl

theorem upd_comm (g : Nat → α) {i j : Nat} (a b : α) (h : i ≠ j) :
    upd (upd g i a) j b = upd (upd g j b) i a := by
  funext k
  simp only [upd_apply]
  by_cases hj : k = j
  · subst hj
    rw [if_pos rfl, if_neg (Ne.symm h), if_pos rfl]
  · rw [if_neg hj]
    split <;> rfl

/-! ### MF_Set_Edges -/

theorem setEdgesLoop_ok (f : Nat) (es : List (Nat × Bool)) : ∀ (i : Nat) (T : Topo) (l : List Nat),
    T.fe f = some l → l.length = i → i + es.length ≤ 32 →
    (∀ j, i ≤ j → j < 32 → fbit (T.fd f) j = false) → (∀ p ∈ es, (T.se p.1).alloc) →
    ∃ d', setEdgesLoop f i es T = .ok { T with
        fe := upd T.fe f (some (l ++ es.map (·.1))), fd := upd T.fd f d',
        ef := addAll T.ef f (es.map (·.1)) } ∧
      (∀ j, j < i → fbit d' j = fbit (T.fd f) j) ∧
      ∀ (k : Nat) p, es[k]? = some p → fbit d' (i + k) = p.2 := by
  induction es with
  | nil =>
    intro i T l hl _ _ _ _
    refine ⟨T.fd f, ?_, fun _ _ => rfl, ?_⟩
    · rw [upd_self, List.map_nil, List.append_nil, ← hl, upd_self]
      rfl
    · intro k p hk; simp at hk
  | cons ed es ih =>
    obtain ⟨e, d⟩ := ed
    intro i T l hl hi hn hz hall
    simp only [List.length_cons] at hn
    obtain ⟨w, hw, ew⟩ := orI_ok (T.fd f) d (show i < 32 by omega)
    have hstep : setEdgesLoop f i ((e, d) :: es) T =
        setEdgesLoop f (i+1) es { T with fd := upd T.fd f w, fe := upd T.fe f (some (l ++ [e])),
                                         ef := upd T.ef e (chkn (T.ef e) f) } := by
      rw [show setEdgesLoop f i ((e, d) :: es) T = (orI (T.fd f) d i >>= fun w =>
        Res.ofOption (T.fe f) >>= fun l => meAddFace { T with fd := upd T.fd f w, fe := upd T.fe f (some (l ++ [e])) } e f >>= fun T => setEdgesLoop f (i+1) es T) from rfl,
        hw, Res.bind_ok, hl, Res.ofOption_some, Res.bind_ok, meAddFace_ok (by exact hall (e, d) (by simp)),
        Res.bind_ok]
    obtain ⟨d', h1, h2, h3⟩ := ih (i+1) { T with
        fd := upd T.fd f w, fe := upd T.fe f (some (l ++ [e])),
        ef := upd T.ef e (chkn (T.ef e) f) } (l ++ [e])
      (upd_same _ _ _) (by simp [hi]) (by omega)
      (by
        intro j h1 h2
        show fbit (upd T.fd f w f) j = false
        rw [upd_same, ew j h2, hz j (by omega) h2, decide_eq_false (by omega)]
        rfl)
      (fun p hp => hall p (by simp [hp]))
    refine ⟨d', ?_, ?_, ?_⟩
    · rw [hstep, h1]
      simp only [upd_upd, List.map_cons, List.append_assoc, List.cons_append, List.nil_append]
      rfl
    · intro j hj
      rw [h2 j (by omega)]
      show fbit (upd T.fd f w f) j = _
      rw [upd_same, ew j (by omega), decide_eq_false (by omega)]
      simp
    · intro k p hk
      cases k with
      | zero =>
        simp only [List.getElem?_cons_zero, Option.some.injEq] at hk
        subst hk
        rw [Nat.add_zero, h2 i (by omega)]
        show fbit (upd T.fd f w f) i = d
        rw [upd_same, ew i (by omega), hz i (by omega) (by omega)]
        simp
      | succ k =>
        rw [List.getElem?_cons_succ] at hk
        have := h3 k p hk
        rw [show i + 1 + k = i + (k + 1) by omega] at this
        exact this

theorem fbit_zero (j : Nat) : fbit 0 j = false := by simp [fbit]

/-- Closed form of `MF_Set_Edges`. -/
theorem mfSetEdges_ok {T : Topo} {f : Nat} {es : List (Nat × Bool)} (hf : (T.sf f).alloc)
    (hn : es.length ≤ 32) (hall : ∀ p ∈ es, (T.se p.1).alloc) :
    ∃ d', T.mfSetEdges f es = .ok { T with
        fe := upd T.fe f (some (es.map (·.1))), fd := upd T.fd f d',
        ef := addAll T.ef f (es.map (·.1)) } ∧ pairs (es.map (·.1)) (fbit d') = es := by
  obtain ⟨d', h1, _, h3⟩ := setEdgesLoop_ok f es 0
    { T with fd := upd T.fd f 0, fe := upd T.fe f (some []) } [] (upd_same _ _ _) rfl (by omega)
    (by intro j _ _; show fbit (upd T.fd f 0 f) j = false; rw [upd_same, fbit_zero])
    hall
  refine ⟨d', ?_, pairs_eq ?_⟩
  · unfold mfSetEdges
    rw [derefF_ok hf, Res.bind_ok, h1]
    simp only [upd_upd, List.nil_append]
  · intro i p hp
    have := h3 i p hp
    rwa [Nat.zero_add] at this

/-! ### MF_Rem_Edge -/

theorem pairs_eraseIdx {l : List Nat} {b c : Nat → Bool} {i : Nat}
    (hi : i < l.length) (h : ∀ j, j < l.length - 1 → c j = if i ≤ j then b (j+1) else b j) :
    pairs (l.eraseIdx i) c = (pairs l b).eraseIdx i := by
  apply List.ext_getElem?
  intro j
  rw [getElem?_pairs, List.getElem?_eraseIdx, List.getElem?_eraseIdx]
  by_cases hj : j < i
  · rw [if_pos hj, if_pos hj, getElem?_pairs]
    by_cases hl : j < l.length
    · rw [h j (by omega), if_neg (by omega)]
    · rw [List.getElem?_eq_none (by omega)]; rfl
  · rw [if_neg hj, if_neg hj, getElem?_pairs]
    by_cases hl : j + 1 < l.length
    · rw [h j (by omega), if_pos (by omega)]
    · rw [List.getElem?_eq_none (by omega)]; rfl

end Topo
end MSTK
