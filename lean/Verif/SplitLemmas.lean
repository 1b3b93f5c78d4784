import Verif.SplitModel
import Verif.Props.FaceEdits
import Verif.Props.RegionEdits

/-!
Helper lemmas for C29 (edge splitting).
-/
namespace MSTK
namespace Topo

/-! ### new vertices and edges -/

theorem newVerts_ok : ∀ (n : Nat) (T : Topo), T.Consistent →
    ∃ ve, (newVerts n T).1 = { T with sv := (newVerts n T).1.sv, ve := ve, nv := T.nv + n } ∧
      (newVerts n T).1.Consistent ∧ (newVerts n T).2 = List.range' T.nv n ∧
      (∀ v, v < T.nv → (newVerts n T).1.sv v = T.sv v) ∧
      (∀ v, T.nv ≤ v → v < T.nv + n → (newVerts n T).1.sv v = .live) := by
  intro n
  induction n with
  | zero =>
    intro T h
    exact ⟨T.ve, rfl, h, rfl, fun _ _ => rfl, fun v h1 h2 => absurd h2 (by omega)⟩
  | succ n ih =>
    intro T h
    obtain ⟨ve, h1, h2, h3, h4, h5⟩ := ih T.mvNew.1 h.newVertex
    refine ⟨ve, ?_, h2, ?_, ?_, ?_⟩
    · show (newVerts n T.mvNew.1).1 = _
      rw [h1]
      show ({ T with sv := _, ve := ve, nv := T.nv + 1 + n } : Topo) = _
      rw [Nat.add_right_comm]
      rfl
    · show T.nv :: (newVerts n T.mvNew.1).2 = _
      rw [h3]; rfl
    · intro v hv
      show (newVerts n T.mvNew.1).1.sv v = _
      rw [h4 v (by show v < T.nv + 1; omega)]
      exact upd_ne _ _ (by omega)
    · intro v hv1 hv2
      show (newVerts n T.mvNew.1).1.sv v = _
      by_cases hv : v = T.nv
      · rw [h4 v (by show v < T.nv + 1; omega), hv]; exact upd_same _ _ _
      · exact h5 v (by show T.nv + 1 ≤ v; omega) (by show v < T.nv + 1 + n; omega)

/-- a new edge from `a` to `b` -/
theorem newEdge_ok {T : Topo} (h : T.Consistent) {a b : Nat} (ha : T.sv a = .live)
    (hb : T.sv b = .live) : ∃ ve, (do
      let T1 ← T.meNew.1.meSetVertex T.ne false a
      T1.meSetVertex T.ne true b) = .ok { T with
        se := upd T.se T.ne .live, ev := upd T.ev T.ne (some a, some b), ef := upd T.ef T.ne [],
        ve := ve, ne := T.ne + 1 } ∧
      Consistent { T with
        se := upd T.se T.ne .live, ev := upd T.ev T.ne (some a, some b), ef := upd T.ef T.ne [],
        ve := ve, ne := T.ne + 1 } := by
  have h0 := h.newEdge
  have he0 : T.meNew.1.se T.ne = .live := upd_same _ _ _
  have hv0 : T.meNew.1.ev T.ne = (none, none) := upd_same _ _ _
  obtain ⟨T1, r1, h1⟩ := h0.setVertex (e := T.ne) (v := a) (i := false) he0 ha (by rw [hv0]; rfl)
  have e1 := meSetVertex_ok (T := T.meNew.1) (e := T.ne) (i := false) (v := a)
    (alloc_of_live he0) (alloc_of_live ha)
  rw [hv0] at e1
  have hT1 := (r1.symm.trans e1)
  injection hT1 with hT1
  have he1 : T1.se T.ne = .live := by rw [hT1]; exact he0
  have hv1 : T1.ev T.ne = (some a, none) := by rw [hT1]; exact upd_same _ _ _
  have hb1 : T1.sv b = .live := by rw [hT1]; exact hb
  obtain ⟨T2, r2, h2⟩ := h1.setVertex (e := T.ne) (v := b) (i := true) he1 hb1 (by rw [hv1]; rfl)
  have e2 := meSetVertex_ok (T := T1) (e := T.ne) (i := true) (v := b)
    (alloc_of_live he1) (alloc_of_live hb1)
  rw [hv1] at e2
  have hT2 := (r2.symm.trans e2)
  injection hT2 with hT2
  have hform : T2 = { T with
        se := upd T.se T.ne .live, ev := upd T.ev T.ne (some a, some b), ef := upd T.ef T.ne [],
        ve := T2.ve, ne := T.ne + 1 } := by
    have hev : T2.ev = upd T.ev T.ne (some a, some b) := by
      rw [hT2, hT1]
      funext z
      show upd (upd (upd T.ev T.ne _) T.ne _) T.ne _ z = _
      by_cases hz : z = T.ne
      · subst hz; rw [upd_same, upd_same]; rfl
      · rw [upd_ne _ _ hz, upd_ne _ _ hz, upd_ne _ _ hz, upd_ne _ _ hz]
    rw [← hev]
    rw [hT2, hT1]
    rfl
  refine ⟨T2.ve, ?_, ?_⟩
  · rw [← hform, r1, Res.bind_ok, r2]
  · rw [← hform]; exact h2

/-- `es` are edges leading one after the other through `ws`, all used in direction `d` -/
def Chain (T : Topo) (d : Bool) (es ws : List Nat) : Prop :=
  ws.length = es.length + 1 ∧ ∀ (k e a b : Nat), es[k]? = some e → ws[k]? = some a →
    ws[k+1]? = some b → Leads T e d a b

theorem newEdges_ok : ∀ (ws : List Nat) (T : Topo), ws ≠ [] → T.Consistent →
    (∀ v ∈ ws, T.sv v = .live) →
    ∃ T' enew, newEdges ws T = .ok (T', enew) ∧ T'.Consistent ∧
      T' = { T with se := T'.se, ev := T'.ev, ef := T'.ef, ve := T'.ve, ne := T.ne + (ws.length - 1) } ∧
      enew = List.range' T.ne (ws.length - 1) ∧ T'.Chain true enew ws ∧
      (∀ e, e < T.ne → T'.se e = T.se e ∧ T'.ev e = T.ev e ∧ T'.ef e = T.ef e) ∧
      (∀ e ∈ enew, T'.se e = .live) := by
  intro ws
  induction ws with
  | nil => intro T h; exact absurd rfl h
  | cons a ws ih =>
    intro T _ h hall
    cases ws with
    | nil =>
      refine ⟨T, [], rfl, h, rfl, rfl, ⟨rfl, ?_⟩, fun _ _ => ⟨rfl, rfl, rfl⟩, by simp⟩
      intro k e a b he; simp at he
    | cons b rest =>
      obtain ⟨ve, r1, h1⟩ := newEdge_ok h (hall a (by simp)) (hall b (by simp))
      obtain ⟨T', enew, r2, h2, h3, h4, h5, h6, h7⟩ := ih _ (by simp) h1
        (fun v hv => hall v (List.mem_cons_of_mem _ hv))
      have hkeep := h6 T.ne (by show T.ne < T.ne + 1; omega)
      refine ⟨T', T.ne :: enew, ?_, h2, ?_, ?_, ?_, ?_, ?_⟩
      · rw [show newEdges (a :: b :: rest) T = (do
          let T1 ← T.meNew.1.meSetVertex T.ne false a
          let T2 ← T1.meSetVertex T.ne true b
          let q ← newEdges (b :: rest) T2
          pure (q.1, T.ne :: q.2)) from rfl]
        obtain ⟨T1, q1, q2⟩ := Res.bind_eq_ok.1 r1
        rw [q1, Res.bind_ok, q2, Res.bind_ok, r2, Res.bind_ok]
        rfl
      · have hn : (a :: b :: rest).length - 1 = (b :: rest).length - 1 + 1 := by simp
        rw [hn]
        rw [show T.ne + ((b :: rest).length - 1 + 1) = T.ne + 1 + ((b :: rest).length - 1) by omega]
        exact h3
      · rw [h4]
        have hn : (a :: b :: rest).length - 1 = (b :: rest).length - 1 + 1 := by simp
        rw [hn, List.range'_succ]
      · refine ⟨by have := h5.1; simp at this ⊢; omega, ?_⟩
        intro k e x y he hx hy
        cases k with
        | zero =>
          simp only [List.getElem?_cons_zero, List.getElem?_cons_succ, Option.some.injEq] at he hx hy
          subst he; subst hx; subst hy
          unfold Leads
          rw [hkeep.2.1]
          exact upd_same _ _ _
        | succ k =>
          exact h5.2 k e x y (by simpa using he) (by simpa using hx) (by simpa using hy)
      · intro e he
        have := h6 e (by show e < T.ne + 1; omega)
        refine ⟨?_, ?_, ?_⟩
        · rw [this.1]; exact upd_ne _ _ (by omega)
        · rw [this.2.1]; exact upd_ne _ _ (by omega)
        · rw [this.2.2]; exact upd_ne _ _ (by omega)
      · intro e he
        rcases List.mem_cons.1 he with rfl | he
        · rw [hkeep.1]; exact upd_same _ _ _
        · exact h7 e he

theorem Chain.reverse {T : Topo} {d : Bool} {es ws : List Nat} (h : T.Chain d es ws) :
    T.Chain (!d) es.reverse ws.reverse := by
  refine ⟨by simp [h.1], ?_⟩
  intro k e a b he ha hb
  have hlen := h.1
  have hk : k < es.length := by
    have := (List.getElem?_eq_some_iff.1 he).1; simpa using this
  rw [List.getElem?_reverse hk] at he
  rw [List.getElem?_reverse (by omega)] at ha hb
  have := h.2 (es.length - 1 - k) e b a he
    (by rw [← hb]; congr 1; omega) (by rw [← ha]; congr 1; omega)
  unfold Leads at this ⊢
  rw [this]
  cases d <;> rfl

theorem Chain.pathOf {T : Topo} {d : Bool} {es ws : List Nat} (h : T.Chain d es ws)
    (hal : ∀ e ∈ es, (T.se e).alloc) : T.PathOf es ws := by
  refine ⟨h.1, ?_⟩
  intro k e a b he ha hb
  have hL := h.2 k e a b he ha hb
  have hea := hal e (List.mem_of_getElem? he)
  unfold Leads at hL
  unfold Joins
  rw [meVertex_ok hea, meVertex_ok hea, hL]
  cases d <;> simp [endAt]

/-- the directions computed along a chain -/
theorem Chain.pathDirs {T : Topo} {d : Bool} : ∀ (es ws : List Nat) (a : Nat),
    T.Chain d es ws → ws.Nodup → (∀ e ∈ es, (T.se e).alloc) → ws[0]? = some a →
    T.pathDirs (some a) es = .ok (es.map fun e => (e, d)) := by
  intro es
  induction es with
  | nil => intros; rfl
  | cons e es ih =>
    intro ws a h hn hal h0
    have hea := hal e (by simp)
    obtain ⟨y, hy⟩ : ∃ y, ws[1]? = some y :=
      ⟨_, List.getElem?_eq_getElem (by have := h.1; simp at this; omega)⟩
    have hay : a ≠ y := by
      rintro rfl
      have := getElem?_inj_nodup hn h0 hy
      omega
    have hL := h.2 0 e a y rfl h0 hy
    unfold Leads at hL
    have hdec : decide (endAt (T.ev e) false = some a) = d := by
      rw [hL]
      cases d
      · simp [endAt, Ne.symm hay]
      · simp [endAt]
    have hnxt : endAt (T.ev e) d = some y := by
      rw [hL]; cases d <;> rfl
    rw [show T.pathDirs (some a) (e :: es) = (do
      let v0 ← T.meVertex e false
      let b := decide (v0 = some a)
      let nxt ← T.meVertex e b
      let r ← Topo.pathDirs T nxt es
      pure ((e, b) :: r)) from rfl, meVertex_ok hea, Res.bind_ok]
    dsimp only
    rw [hdec, meVertex_ok hea, Res.bind_ok, hnxt]
    have hws : ws = a :: ws.tail := by
      cases ws with
      | nil => simp at h0
      | cons x xs => simp at h0; rw [h0]; rfl
    have hrest : T.Chain d es ws.tail := by
      refine ⟨by have := h.1; simp at this; simp [this], ?_⟩
      intro k e' a' b' h1 h2 h3
      rw [List.getElem?_tail] at h2 h3
      exact h.2 (k+1) e' a' b' (by simpa using h1) h2 h3
    rw [ih ws.tail y hrest (hn.sublist (List.tail_sublist ws)) (fun x hx => hal x (by simp [hx]))
      (by rw [List.getElem?_tail]; exact hy), Res.bind_ok]
    rfl

/-! ### one face -/

/-- the new edges with the direction in which a face uses them that used the split edge in
direction `d` -/
def along (d : Bool) (enew : List Nat) : List (Nat × Bool) :=
  (if d then enew else enew.reverse).map fun e => (e, d)

theorem along_fst (d : Bool) (enew : List Nat) :
    (along d enew).map (·.1) = if d then enew else enew.reverse := by
  unfold along
  rw [List.map_map]
  exact List.map_id _

/-- what becomes of a face: stored lists before (`l`, `w`) and after (`l'`, `w'`) -/
def FaceSplit (e : Nat) (enew : List Nat) (l : List Nat) (w : BitVec 64) (l' : List Nat)
    (w' : BitVec 64) : Prop :=
  ∃ i s, l[i]? = some e ∧ l'.Perm (enew ++ (l.rotate i).drop 1) ∧
    (pairs l' (fbit w')).rotate s =
      along (fbit w i) enew ++ ((pairs l (fbit w)).rotate i).drop 1

theorem take_one_rotate {α : Type} {l : List α} {i : Nat} {x : α} (h : l[i]? = some x) :
    (l.rotate i).take 1 = [x] := by
  have hi := (List.getElem?_eq_some_iff.1 h).1
  have h0 : (l.rotate i)[0]? = some x := by
    rw [List.getElem?_rotate (by omega), Nat.zero_add, Nat.mod_eq_of_lt hi, h]
  cases hr : l.rotate i with
  | nil => rw [hr] at h0; simp at h0
  | cons y ys => rw [hr] at h0; simp at h0; simp [h0]

theorem splitFace_ok {T : Topo} (h : T.Consistent) {f e a b : Nat} {l enew ws : List Nat}
    (hf : T.sf f = .live) (hl : T.fe f = some l) (hnd : l.Nodup) (he : e ∈ l)
    (hsz : l.length + enew.length ≤ 33) (hne : enew ≠ []) (hnn : enew.Nodup)
    (hnl : ∀ x ∈ enew, T.se x = .live ∧ x ∉ l) (hab : T.ev e = (some a, some b))
    (hch : T.Chain true enew ws) (hw : ws.Nodup) (ha : ws[0]? = some a)
    (hb : ws[enew.length]? = some b) :
    ∃ T' l' w', (do
      let d ← T.mfEdgeDir f e
      T.mfReplaceEdges f [e] (if d then enew else enew.reverse)) = .ok T' ∧ T'.Consistent ∧
      T' = { T with fe := upd T.fe f (some l'), fd := upd T.fd f w', ef := T'.ef } ∧
      FaceSplit e enew l (T.fd f) l' w' := by
  obtain ⟨i, hi⟩ := List.mem_iff_getElem?.1 he
  have hilt := (List.getElem?_eq_some_iff.1 hi).1
  have hpos : 0 < enew.length := List.length_pos_iff.2 hne
  have h32 : l.length ≤ 32 := by omega
  generalize hd : fbit (T.fd f) i = d
  have hdir : T.mfEdgeDir f e = .ok d := by
    rw [mfEdgeDir_iff (alloc_of_live hf) hl hnd (by omega), mem_pairs_dir hnd hi, hd]
  have hes := mfEdges_plain (alloc_of_live hf) hl
  have hlive := h.fedgesLive hf hl
  generalize hnu : (if d then enew else enew.reverse) = nu
  have hperm : nu.Perm enew := by
    rw [← hnu]; cases d
    · exact List.reverse_perm _
    · exact List.Perm.refl _
  have hnulen : nu.length = enew.length := hperm.length_eq
  have hnu0 : nu ≠ [] := by intro hc; rw [hc] at hnulen; simp at hnulen; omega
  have hnun : nu.Nodup := hperm.nodup_iff.2 hnn
  have hnul : ∀ x ∈ nu, T.se x = .live ∧ x ∉ l := fun x hx => hnl x (hperm.mem_iff.1 hx)
  have hnamed := C25_replace_named_partial (T := T) (nu := nu) (nold := 1) hf hes hnd h32 hilt
    (by omega) (Or.inr (by omega))
  rw [take_one_rotate hi] at hnamed
  obtain ⟨T', r, hc⟩ := h.replaceEdgesAt (nold := 1) (i := i) hf hl hnd hilt (by omega) (by omega) hnu0
    hnun hnul h32 (by omega) (fun _ => by omega)
  obtain ⟨o0, o1, n0, n1, new, l', w', ho0, ho1, hh0, hh1, hpd, hm, h1, hp, hrot⟩ :=
    mfReplaceEdges_i_ok (T := T) (nold := 1) (i := i) (nu := nu) (alloc_of_live hf) hl hnd hilt (by omega)
    (by omega) hnu0 hnun
    (fun e he => ⟨alloc_of_live (hnul e he).1, (hnul e he).2⟩)
    (fun e he => alloc_of_live (hlive e he)) h32 (by omega) (fun _ => by omega)
  obtain ⟨s, hs⟩ := hrot (by omega)
  have hpi : (pairs l (fbit (T.fd f)))[i]? = some (e, d) := by rw [getElem?_pairs, hi, ← hd]; rfl
  rw [take_one_rotate hpi] at ho0 ho1
  simp only [List.head?_cons, List.getLast?_singleton, Option.some.injEq] at ho0 ho1
  subst ho0; subst ho1
  dsimp only at hpd hm
  -- the chain in the direction of the face
  have hal : ∀ x ∈ nu, (T.se x).alloc := fun x hx => alloc_of_live (hnul x hx).1
  obtain ⟨vs, v0, v1, hcv, hvn, e0, e1, q0, q1⟩ : ∃ vs v0 v1, T.Chain d nu vs ∧ vs.Nodup ∧
      vs[0]? = some v0 ∧ vs[nu.length]? = some v1 ∧ endAt (T.ev e) (!d) = some v0 ∧
      endAt (T.ev e) d = some v1 := by
    cases d with
    | true =>
      simp only [if_true] at hnu
      subst hnu
      exact ⟨ws, a, b, hch, hw, ha, hb, by rw [hab]; rfl, by rw [hab]; rfl⟩
    | false =>
      simp only [Bool.false_eq_true, if_false] at hnu
      subst hnu
      have hwl := hch.1
      refine ⟨ws.reverse, b, a, hch.reverse, List.nodup_reverse.2 hw, ?_, ?_, by rw [hab]; rfl,
        by rw [hab]; rfl⟩
      · rw [List.getElem?_reverse (by omega), ← hb]; congr 1; omega
      · rw [List.getElem?_reverse (by simp; omega), ← ha]; congr 1; simp; omega
  have hpath := hcv.pathOf hal
  have u0 := hpath.firstUses (hal n0 (List.mem_of_head? hh0)) hh0 e0
  have u1 := hpath.lastUses (hal n1 (List.mem_of_getLast? hh1)) hh1 e1
  have hrev : revB T n0 n1 (some v0) (some v1) = false := by unfold revB; rw [u0, u1]; rfl
  rw [q0, q1, hrev] at hpd hm
  simp only [Bool.false_eq_true, if_false] at hpd hm
  rw [Chain.pathDirs nu vs v0 hcv hvn hal e0] at hpd
  injection hpd with hpd
  rw [r] at h1
  injection h1 with h1
  refine ⟨T', l', w', ?_, hc, ?_, i, s, hi, hp.trans (hperm.append_right _), ?_⟩
  · rw [hdir, Res.bind_ok, hnu, hnamed, r]
  · rw [h1]
  · rw [hs, ← hpd, hd]
    unfold along
    rw [hnu]

/-! ### all faces -/

/-- a state reached from `T0` by changing the boundaries of faces only -/
def OnlyBounds (T0 T : Topo) : Prop := T = { T0 with fe := T.fe, fd := T.fd, ef := T.ef }

theorem OnlyBounds.trans {T T1 T2 : Topo} (h1 : OnlyBounds T T1) (h2 : OnlyBounds T1 T2) :
    OnlyBounds T T2 := by
  unfold OnlyBounds at *
  rw [h2, h1]

theorem Chain.congr {T T' : Topo} {d : Bool} {es ws : List Nat} (h : T.Chain d es ws)
    (he : T'.ev = T.ev) : T'.Chain d es ws :=
  ⟨h.1, fun k e a b h1 h2 h3 => by
    have := h.2 k e a b h1 h2 h3
    unfold Leads at this ⊢
    rw [he]; exact this⟩

theorem splitFaces_ok {e a b : Nat} {enew ws : List Nat} (hne : enew ≠ []) (hnn : enew.Nodup)
    (hw : ws.Nodup) (ha : ws[0]? = some a) (hb : ws[enew.length]? = some b) :
    ∀ (fs : List Nat) (T : Topo), T.Consistent → fs.Nodup → T.ev e = (some a, some b) →
    T.Chain true enew ws → (∀ x ∈ enew, T.se x = .live) →
    (∀ f ∈ fs, T.sf f = .live ∧ ∃ l, T.fe f = some l ∧ l.Nodup ∧ e ∈ l ∧ l.length + enew.length ≤ 33 ∧
      ∀ x ∈ enew, x ∉ l) →
    ∃ T', splitFaces e enew fs T = .ok T' ∧ T'.Consistent ∧ OnlyBounds T T' ∧
      (∀ f, f ∉ fs → T'.fe f = T.fe f ∧ T'.fd f = T.fd f) ∧
      (∀ f ∈ fs, ∃ l l', T.fe f = some l ∧ T'.fe f = some l' ∧
        FaceSplit e enew l (T.fd f) l' (T'.fd f)) := by
  intro fs
  induction fs with
  | nil => intro T h _ _ _ _ _; exact ⟨T, rfl, h, rfl, fun _ _ => ⟨rfl, rfl⟩, by simp⟩
  | cons f fs ih =>
    intro T h hnd hev hch hlv hfs
    obtain ⟨hf, l, hl, hln, hel, hsz, hnl⟩ := hfs f (by simp)
    obtain ⟨hff, hnd'⟩ := List.nodup_cons.1 hnd
    obtain ⟨T1, l', w', r1, h1, hT1, hsp⟩ := splitFace_ok h hf hl hln hel hsz hne hnn
      (fun x hx => ⟨hlv x hx, hnl x hx⟩) hev hch hw ha hb
    have hO : OnlyBounds T T1 := by unfold OnlyBounds; rw [hT1]
    have hev1 : T1.ev = T.ev := by rw [hT1]
    have hse1 : T1.se = T.se := by rw [hT1]
    have hsf1 : T1.sf = T.sf := by rw [hT1]
    have hfe1 : ∀ g, g ≠ f → T1.fe g = T.fe g := fun g hg => by rw [hT1]; exact upd_ne _ _ hg
    have hfd1 : ∀ g, g ≠ f → T1.fd g = T.fd g := fun g hg => by rw [hT1]; exact upd_ne _ _ hg
    have hfef : T1.fe f = some l' := by rw [hT1]; exact upd_same _ _ _
    have hfdf : T1.fd f = w' := by rw [hT1]; exact upd_same _ _ _
    obtain ⟨T', r2, h2, hO2, hrest, hdone⟩ := ih T1 h1 hnd' (by rw [hev1]; exact hev) (hch.congr hev1)
      (fun x hx => by rw [hse1]; exact hlv x hx) (by
        intro g hg
        have hgf : g ≠ f := by rintro rfl; exact hff hg
        rw [hsf1, hfe1 g hgf]
        exact hfs g (by simp [hg]))
    refine ⟨T', ?_, h2, hO.trans hO2, ?_, ?_⟩
    · rw [show splitFaces e enew (f :: fs) T = (do
        let d ← T.mfEdgeDir f e
        let T1 ← T.mfReplaceEdges f [e] (if d then enew else enew.reverse)
        splitFaces e enew fs T1) from rfl]
      obtain ⟨d, q1, q2⟩ := Res.bind_eq_ok.1 r1
      rw [q1, Res.bind_ok, q2, Res.bind_ok, r2]
    · intro g hg
      have hgf : g ≠ f := by rintro rfl; exact hg (by simp)
      obtain ⟨x1, x2⟩ := hrest g (fun hc => hg (by simp [hc]))
      rw [x1, x2]
      exact ⟨hfe1 g hgf, hfd1 g hgf⟩
    · intro g hg
      rcases List.mem_cons.1 hg with rfl | hg'
      · obtain ⟨x1, x2⟩ := hrest g hff
        exact ⟨l, l', hl, by rw [x1, hfef], by rw [x2, hfdf]; exact hsp⟩
      · have hgf : g ≠ f := by rintro rfl; exact hff hg'
        obtain ⟨m, m', y1, y2, y3⟩ := hdone g hg'
        refine ⟨m, m', by rw [← hfe1 g hgf]; exact y1, y2, ?_⟩
        rw [← hfd1 g hgf]; exact y3

/-! ### the regions -/

theorem updateTypes_ok : ∀ (rs : List Nat) (T : Topo), T.Consistent →
    (∀ r ∈ rs, T.sr r = .live ∧ ∃ l, T.rf r = some l ∧ T.Sized l) →
    ∃ rt, updateTypes rs T = .ok { T with rt := rt } ∧
      (∀ r, r ∉ rs → rt r = T.rt r) ∧ (∀ r ∈ rs, ∃ l, T.rf r = some l ∧ rt r = typeOf T l) := by
  intro rs
  induction rs with
  | nil => intro T _ _; exact ⟨T.rt, rfl, fun _ _ => rfl, by simp⟩
  | cons r rs ih =>
    intro T h hrs
    obtain ⟨hr, l, hl, hs⟩ := hrs r (by simp)
    have hu := mrUpdateType_ok (T := T) (alloc_of_live hr) hl (fun f hf =>
      ⟨alloc_of_live (h.rfacesLive hr (by rw [hl]; exact hf)), hs f hf⟩)
    have h1 : Consistent { T with rt := upd T.rt r (typeOf T l) } :=
      ⟨h.ve, h.ef, h.fr, h.reg, h.newV, h.newE, h.newF, h.newR⟩
    obtain ⟨rt, r2, h2, h3⟩ := ih _ h1 (fun x hx => hrs x (by simp [hx]))
    refine ⟨rt, ?_, ?_, ?_⟩
    · rw [show updateTypes (r :: rs) T = (T.mrUpdateType r >>= fun T => updateTypes rs T) from rfl, hu,
        Res.bind_ok, r2]
    · intro x hx
      rw [h2 x (fun hc => hx (by simp [hc]))]
      exact upd_ne _ _ (fun hc => hx (by simp [hc]))
    · intro x hx
      by_cases hxr : x ∈ rs
      · exact h3 x hxr
      · have : x = r := by
          rcases List.mem_cons.1 hx with hc | hc
          · exact hc
          · exact absurd hc hxr
        subst this
        exact ⟨l, hl, by rw [h2 x hxr]; exact upd_same _ _ _⟩

end Topo
end MSTK
