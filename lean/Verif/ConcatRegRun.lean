import Verif.ConcatRun
import Verif.ConcatRegModel
import Verif.AddGhostIn

/-!
`MESH_ConcatSubMesh` for volume meshes (ConcatRegModel.lean): the steps.
-/
namespace MSTK
namespace Cat
open File Copy Prt

variable {D : Type}

/-! ### cycles -/

/-- what comes before the `j`-th of a list that is another one turned -/
theorem before_rotated {α : Type} {a c : List α} (h : a ~r c) (hn : c.Nodup) {j t : Nat} (hj : j < a.length) (ht : t < c.length)
    (he : a[j]? = c[t]?) : a[(j + a.length - 1) % a.length]? = c[(t + c.length - 1) % c.length]? := by
  obtain ⟨m, rfl⟩ := h.symm
  rw [List.length_rotate] at hj ⊢
  have hpos : 0 < c.length := by omega
  rw [List.getElem?_rotate hj] at he
  have hmj := Nat.mod_lt (j + m) hpos
  rw [List.getElem?_eq_getElem hmj, List.getElem?_eq_getElem ht, Option.some.injEq, hn.getElem_inj_iff] at he
  rw [List.getElem?_rotate (Nat.mod_lt _ hpos), Nat.mod_add_mod]
  congr 1
  have h1 : j + c.length - 1 + m = (j + m) + (c.length - 1) := by omega
  have h2 : t + c.length - 1 = t + (c.length - 1) := by omega
  rw [h1, h2, ← he, Nat.mod_add_mod]

theorem turned_ok {a b : List Nat} (hn : b.Nodup) (h3 : 3 ≤ b.length) (h : a ~r b ∨ a ~r b.reverse) {b0 b1 : Nat}
    (e0 : b[0]? = some b0) (e1 : b[1]? = some b1) : (turned a b0 b1 = true ∧ a ~r b.reverse) ∨ (turned a b0 b1 = false ∧ a ~r b) := by
  have hmem : b0 ∈ a := by
    have hb : b0 ∈ b := List.mem_of_getElem? e0
    rcases h with h | h
    · exact h.mem_iff.2 hb
    · exact h.mem_iff.2 (List.mem_reverse.2 hb)
  have hlen : a.length = b.length := by
    rcases h with h | h
    · exact h.perm.length_eq
    · rw [h.perm.length_eq, List.length_reverse]
  have hj : ∃ j, a.findIdx? (fun x => decide (x = b0)) = some j ∧ j < a.length ∧ a[j]? = some b0 := by
    cases hf : a.findIdx? (fun x => decide (x = b0)) with
    | none =>
      rw [List.findIdx?_eq_none_iff] at hf
      have := hf b0 hmem
      simp at this
    | some j =>
      rw [List.findIdx?_eq_some_iff_getElem] at hf
      obtain ⟨h1, h2, _⟩ := hf
      refine ⟨j, rfl, h1, ?_⟩
      rw [List.getElem?_eq_getElem h1]
      simpa using h2
  obtain ⟨j, hj1, hj2, hj3⟩ := hj
  unfold turned
  rw [hj1]
  dsimp only
  rcases h with h | h
  · right
    refine ⟨?_, h⟩
    rw [before_rotated h hn hj2 (t := 0) (by omega) (by rw [hj3, e0]), decide_eq_false_iff_not]
    rw [show (0 + b.length - 1) % b.length = b.length - 1 by rw [Nat.zero_add]; exact Nat.mod_eq_of_lt (by omega), ← e1,
      List.getElem?_eq_getElem (by omega), List.getElem?_eq_getElem (by omega), Option.some.injEq, hn.getElem_inj_iff]
    omega
  · left
    refine ⟨?_, h⟩
    rw [decide_eq_true_iff, before_rotated h (List.nodup_reverse.2 hn) hj2 (t := b.length - 1) (by simp; omega) (by
      rw [hj3, List.getElem?_reverse (by omega), show b.length - 1 - (b.length - 1) = 0 by omega, e0])]
    rw [List.length_reverse, show b.length - 1 + b.length - 1 = (b.length - 2) + b.length by omega, Nat.add_mod_right,
      Nat.mod_eq_of_lt (by omega), List.getElem?_reverse (by omega), show b.length - 1 - (b.length - 2) = 1 by omega, e1]

theorem rotated_of_map {a b : List Nat} (h : a.map some ~r b.map some) : a ~r b := by
  obtain ⟨n, h⟩ := h
  rw [← List.map_rotate] at h
  exact ⟨n, (List.map_injective_iff.2 (Option.some_injective _)) h⟩

/-! ### the vertices of a face -/

/-- where the edges of a face begin -/
def starts (F : FMesh D) (f : Nat) : List (Option Nat) :=
  (F.T.view.edges f).map fun p => if p.2 then (F.T.view.ends p.1).1 else (F.T.view.ends p.1).2

theorem ring_starts (M : CMesh D) (f : Nat) : ring M f = (starts M.F f).map (Option.map (gid M 0)) := by
  unfold ring trace starts seg
  rw [List.map_map, List.map_map]
  refine List.map_congr_left fun p _ => ?_
  simp only [Function.comp]
  cases p.2 <;> rfl

theorem verts_ask {F : FMesh D} (h : Whole F) {f : Nat} (hf : f ∈ F.fl) (h30 : (F.T.view.edges f).length ≤ 30) :
    F.T.mfVertices f true none = .ok (starts F f) := by
  have hl := (h.fl.2 f).1 hf
  obtain ⟨⟨l, hfe⟩, _⟩ := h.edges f hf
  have hvw : F.T.view.edges f = Topo.pairs l (Topo.fbit (F.T.fd f)) := Topo.edgesOf_some hfe
  have hlen : l.length = (starts F f).length := by
    unfold starts
    rw [List.length_map, hvw, ← List.length_map (fun p : Nat × Bool => p.1) (as := Topo.pairs l _), Topo.pairs_map_fst]
  unfold Topo.mfVertices
  rw [Topo.fedges_ok (Topo.alloc_of_live hl) hfe, Res.bind_ok]
  show (do let ks ← Res.ok (Topo.straight true l.length); Topo.collect _ ks) = _
  rw [Res.bind_ok, hlen, Topo.collect_straight (w := starts F f) ?_ true]
  · rfl
  intro k x hx
  unfold starts at hx
  rw [List.getElem?_map] at hx
  cases hp : (F.T.view.edges f)[k]? with
  | none => rw [hp] at hx; cases hx
  | some p =>
    rw [hp] at hx
    simp only [Option.map_some, Option.some.injEq] at hx
    have hk : k < (F.T.view.edges f).length := (List.getElem?_eq_some_iff.1 hp).1
    have hdir := ((Topo.C49_view h.cons).2.1 f hl (by intro h0; rw [h0] at hk; exact absurd hk (by simp))).2 k p (by omega) hp
    unfold Topo.mfEdgeDir_i at hdir
    rw [Topo.derefF_ok (Topo.alloc_of_live hl), Res.bind_ok] at hdir
    have hlk : l[k]? = some p.1 := by
      have := congrArg (List.map (·.1)) hvw
      rw [Topo.pairs_map_fst] at this
      rw [← this, List.getElem?_map, hp]; rfl
    unfold Topo.faceVertexAt
    rw [hlk, Res.ofOption_some, Res.bind_ok, hdir, Res.bind_ok]
    have hpl := (h.el.2 _).1 (h.edgesLive hf (List.mem_of_getElem? hp))
    rw [(Topo.C49_view h.cons).1 p.1 _ hpl, ← hx]
    cases p.2 <;> rfl

theorem starts_some {F : FMesh D} (h : Whole F) {f : Nat} (hf : f ∈ F.fl) : ∃ vs : List Nat, starts F f = vs.map some ∧ ∀ v ∈ vs, v ∈ F.vl := by
  have : ∀ o ∈ starts F f, ∃ v ∈ F.vl, o = some v := by
    intro o ho
    obtain ⟨p, hp, rfl⟩ := List.mem_map.1 ho
    have hpl := h.edgesLive hf hp
    obtain ⟨a, b, hab⟩ := h.ends p.1 hpl
    obtain ⟨ha, hb⟩ := h.endsLive hpl hab
    simp only [hab]
    cases p.2
    · exact ⟨b, hb, rfl⟩
    · exact ⟨a, ha, rfl⟩
  generalize starts F f = l at this
  induction l with
  | nil => exact ⟨[], rfl, by simp⟩
  | cons o l ih =>
    obtain ⟨vs, h1, h2⟩ := ih (fun x hx => this x (List.mem_cons_of_mem _ hx))
    obtain ⟨v, hv, rfl⟩ := this o (by simp)
    exact ⟨v :: vs, by rw [h1]; rfl, fun x hx => by rcases List.mem_cons.1 hx with rfl | hx; exacts [hv, h2 x hx]⟩

theorem gidsOf_ok (M : CMesh D) : ∀ vs : List Nat, gidsOf M (vs.map some) = .ok (vs.map (gid M 0))
  | [] => rfl
  | v :: vs => by
    rw [List.map_cons]
    unfold gidsOf
    rw [Res.ofOption_some, Res.bind_ok, gidsOf_ok M vs, Res.bind_ok]
    rfl

/-! ### what is not touched -/

section
variable {srch : (Nat → Nat) → List Nat → Nat → Option Nat} {S : CMesh D}

/-- an edge changes nothing of faces and regions -/
theorem ghostE_same {e : Nat} {d : Bool} {s t : QSt D} {p : Nat × Bool} (hr : ghostE srch S e d s = .ok (t, p)) :
    ∀ k, 2 ≤ k → t.att k = s.att k ∧ t.M.F.list k = s.M.F.list k := by
  intro k hk
  unfold ghostE at hr
  obtain ⟨_, _, hr⟩ := Res.bind_eq_ok.1 hr
  have hfd := find_same (srch := srch) (S := S) (v := e) (s := s) (k := 1) k (by omega)
  simp only at hr
  cases hc' : (s.find srch S 1 e).2 with
  | some w' =>
    rw [hc'] at hr
    simp only at hr
    obtain ⟨_, _, hr⟩ := Res.bind_eq_ok.1 hr
    obtain ⟨_, _, hr⟩ := Res.bind_eq_ok.1 hr
    obtain ⟨_, _, hr⟩ := Res.bind_eq_ok.1 hr
    obtain ⟨_, _, hr⟩ := Res.bind_eq_ok.1 hr
    simp only [Res.pure_eq, Res.ok.injEq, Prod.mk.injEq] at hr
    rw [← hr.1, hfd.1, hfd.2]; exact ⟨rfl, rfl⟩
  | none =>
    rw [hc'] at hr
    simp only at hr
    obtain ⟨_, _, hr⟩ := Res.bind_eq_ok.1 hr
    obtain ⟨_, _, hr⟩ := Res.bind_eq_ok.1 hr
    obtain ⟨b, hb, hr⟩ := Res.bind_eq_ok.1 hr
    obtain ⟨_, _, hr⟩ := Res.bind_eq_ok.1 hr
    obtain ⟨_, _, hr⟩ := Res.bind_eq_ok.1 hr
    obtain ⟨c, hc, hr⟩ := Res.bind_eq_ok.1 hr
    obtain ⟨_, _, hr⟩ := Res.bind_eq_ok.1 hr
    obtain ⟨_, _, hr⟩ := Res.bind_eq_ok.1 hr
    simp only [Res.pure_eq, Res.ok.injEq, Prod.mk.injEq] at hr
    obtain ⟨x1, y1⟩ := ghostV_same (t := b.1) (w := b.2) hb k (by omega)
    obtain ⟨x2, y2⟩ := ghostV_same (t := c.1) (w := c.2) hc k (by omega)
    rw [← hr.1]
    refine ⟨?_, ?_⟩
    · exact (upd2_ne c.1.att e (some c.1.M.F.T.meNew.2) (show k ≠ 1 by omega)).trans ((x2.trans x1).trans hfd.1)
    · refine Eq.trans ?_ ((y2.trans y1).trans (by rw [hfd.2]))
      match k, hk with
      | 2, _ => rfl
      | 3, _ => rfl
      | k+4, _ => rfl

theorem ghostEs_same {f : Nat} : ∀ (es : List Nat) (j : Nat) {s t : QSt D} {ps : List (Nat × Bool)}, ghostEs srch S f j es s = .ok (t, ps) →
    ∀ k, 2 ≤ k → t.att k = s.att k ∧ t.M.F.list k = s.M.F.list k
  | [], _, s, t, ps, hr, k, _ => by
    unfold ghostEs at hr
    simp only [Res.ok.injEq, Prod.mk.injEq] at hr
    rw [hr.1]; exact ⟨rfl, rfl⟩
  | e :: es, j, s, t, ps, hr, k, hk => by
    unfold ghostEs at hr
    by_cases hj : 30 ≤ j
    · rw [if_pos hj] at hr; cases hr
    · rw [if_neg hj] at hr
      obtain ⟨_, _, hr⟩ := Res.bind_eq_ok.1 hr
      obtain ⟨a, ha, hr⟩ := Res.bind_eq_ok.1 hr
      obtain ⟨q, hq, hr⟩ := Res.bind_eq_ok.1 hr
      simp only [Res.pure_eq, Res.ok.injEq, Prod.mk.injEq] at hr
      obtain ⟨x1, y1⟩ := ghostE_same (t := a.1) (p := a.2) ha k hk
      obtain ⟨x2, y2⟩ := ghostEs_same es (j+1) (t := q.1) (ps := q.2) hq k hk
      rw [← hr.1]
      exact ⟨x2.trans x1, y2.trans y1⟩

end

/-! ### looking for what is there -/

section
variable {srch : (Nat → Nat) → List Nat → Nat → Option Nat} (hf : Send.Finds srch)
variable {M0 : CMesh D} {subs : List (CMesh D)} {C : CMesh D → Nat → Nat → Prop} {S : CMesh D}
include hf

theorem matchVR_ok (hG : Given 3 M0 subs) (hS : S ∈ subs) {st : QSt D} (h : Inv 3 M0 subs C S st) {v : Nat} (hv : v ∈ S.F.vl) :
    ∃ st' b, matchVR srch (border M0) S v st = .ok (st', b) ∧ Inv 3 M0 subs C S st' ∧ Next 3 st st' ∧
      (b = true ↔ ∃ w ∈ border M0 0, gid M0 0 w = gid S 0 v) ∧ Placed M0 S st' 0 v := by
  have hSs := hG.meshes S hS
  have hd : S.F.T.derefV v = .ok () := Topo.derefV_ok (Topo.alloc_of_live ((hSs.vl.2 v).1 hv))
  unfold matchVR
  rw [hd, Res.bind_ok]
  cases hs : srch (gid st.M 0) (border M0 0) (gid S 0 v) with
  | none =>
    have hno := (hf (gid st.M 0) (border M0 0) (gid S 0 v)).2 hs
    have hno' : ∀ w ∈ border M0 0, gid M0 0 w ≠ gid S 0 v := fun w hw he =>
      hno w hw (by rw [h.base.grows.gid (mem_border.1 hw).1]; exact he)
    refine ⟨st, false, rfl, h, Next.refl _, ?_, ?_⟩
    · refine Iff.intro (fun h => nomatch h) ?_
      rintro ⟨w, hw, he⟩
      exact absurd he (hno' w hw)
    · rintro ⟨w, hw, he⟩
      exact absurd he (hno' w (mem_border.2 ⟨hw, hG.border S hS 0 (by omega) v hv w hw he⟩))
  | some w =>
    obtain ⟨hw, hg⟩ := (hf (gid st.M 0) (border M0 0) (gid S 0 v)).1 w hs
    have hw0 := (mem_border.1 hw).1
    have hg0 : gid M0 0 w = gid S 0 v := by rw [← h.base.grows.gid hw0]; exact hg
    have hwM := h.base.grows.mem hw0
    have hc : ∀ y, st.att 0 v = some y → y = w := by
      intro y hy
      obtain ⟨_, y1, y2⟩ := h.att 0 v y (by omega) hy
      exact h.base.dist 0 (by omega) y y1 w hwM (y2.trans hg.symm)
    simp only
    by_cases hif : (st.M.par 0 w).ptype = 3 ∧ (S.par 0 v).ptype ≠ 3
    · rw [if_pos hif]
      obtain ⟨h1, h2⟩ := h.relearn (h.base.classV hS hSs hv hw0 hg0.symm (by rw [← h.base.grows.par 0 w hw0]; exact hif.1) hif.2)
        (h.base.whole.classV (hSs.vc v hv)).2 rfl (k := 0) hv hc hwM hg
      refine ⟨_, true, rfl, h1, h2, Iff.intro (fun _ => ⟨w, hw, hg0⟩) (fun _ => rfl), fun _ hn => ?_⟩
      exact att_set (f := st.att) (k := 0) (x := v) (w := w) hn
    · rw [if_neg hif]
      obtain ⟨h1, h2⟩ := h.relearn h.base (Grows.refl _) rfl (k := 0) hv hc hwM hg
      refine ⟨_, true, rfl, h1, h2, Iff.intro (fun _ => ⟨w, hw, hg0⟩) (fun _ => rfl), fun _ hn => ?_⟩
      exact att_set (f := st.att) (k := 0) (x := v) (w := w) hn

theorem matchVsR_ok (hG : Given 3 M0 subs) (hS : S ∈ subs) : ∀ (vs : List Nat) {st : QSt D}, Inv 3 M0 subs C S st → (∀ v ∈ vs, v ∈ S.F.vl) →
    ∃ st' b, matchVsR srch (border M0) S (vs.map some) st = .ok (st', b) ∧ Inv 3 M0 subs C S st' ∧ Next 3 st st' ∧
      (b = true ↔ ∃ v ∈ vs, ∃ w ∈ border M0 0, gid M0 0 w = gid S 0 v) ∧ ∀ v ∈ vs, Placed M0 S st' 0 v
  | [], st, h, _ => ⟨st, false, rfl, h, Next.refl _, by simp, by simp⟩
  | v :: vs, st, h, hvs => by
    obtain ⟨s1, b1, r1, i1, n1, e1, p1⟩ := matchVR_ok hf hG hS h (hvs v (by simp))
    obtain ⟨s2, b2, r2, i2, n2, e2, p2⟩ := matchVsR_ok hG hS vs i1 (fun x hx => hvs x (List.mem_cons_of_mem _ hx))
    rw [List.map_cons]
    unfold matchVsR
    rw [Res.ofOption_some, Res.bind_ok, r1, Res.bind_ok, r2, Res.bind_ok]
    refine ⟨s2, b1 || b2, rfl, i2, n1.trans n2, ?_, ?_⟩
    · rw [Bool.or_eq_true, e1, e2]; simp
    · intro x hx
      rcases List.mem_cons.1 hx with rfl | hx
      · exact p1.mono n2
      · exact p2 x hx

theorem matchEsR_ok (hG : Given 3 M0 subs) (hS : S ∈ subs) : ∀ (es : List Nat) {st : QSt D}, Inv 3 M0 subs C S st → (∀ e ∈ es, e ∈ S.F.el) →
    ∃ st' b, matchEsR srch (border M0) S es st = .ok (st', b) ∧ Inv 3 M0 subs C S st' ∧ Next 3 st st' ∧
      (b = true → ∃ e ∈ es, ∃ w ∈ border M0 1, gid M0 1 w = gid S 1 e) ∧ ∀ e ∈ es, Placed M0 S st' 1 e
  | [], st, h, _ => ⟨st, false, rfl, h, Next.refl _, by simp, by simp⟩
  | e :: es, st, h, hes => by
    obtain ⟨s1, r1, i1, n1, p1⟩ := matchE_ok hf hG hS h (hes e (by simp))
    obtain ⟨s2, b2, r2, i2, n2, e2, p2⟩ := matchEsR_ok hG hS es i1 (fun x hx => hes x (List.mem_cons_of_mem _ hx))
    unfold matchEsR matchER
    simp only [r1, Res.bind_ok, Res.pure_eq, r2]
    refine ⟨s2, _, rfl, i2, n1.trans n2, ?_, ?_⟩
    · intro hb
      rcases Bool.or_eq_true _ _ ▸ hb with hb | hb
      · rw [Bool.and_eq_true, Option.isSome_iff_exists] at hb
        obtain ⟨_, w, hs⟩ := hb
        obtain ⟨hw, hg⟩ := (hf (gid st.M 1) (border M0 1) (gid S 1 e)).1 w hs
        exact ⟨e, by simp, w, hw, by rw [← h.base.grows.gid (mem_border.1 hw).1]; exact hg⟩
      · obtain ⟨x, hx, hw⟩ := e2 hb
        exact ⟨x, List.mem_cons_of_mem _ hx, hw⟩
    · intro x hx
      rcases List.mem_cons.1 hx with rfl | hx
      · exact p1.mono n2
      · exact p2 x hx

theorem matchF_ok (hG : Given 3 M0 subs) (hS : S ∈ subs) {st : QSt D} (h : Inv 3 M0 subs C S st) {f : Nat} (hfl : f ∈ S.F.fl) :
    ∃ st', matchF srch (border M0) S f st = .ok st' ∧ Inv 3 M0 subs C S st' ∧ Next 3 st st' ∧ Placed M0 S st' 2 f := by
  have hSs := hG.meshes S hS
  have hd : S.F.T.derefF f = .ok () := Topo.derefF_ok (Topo.alloc_of_live ((hSs.fl.2 f).1 hfl))
  unfold matchF
  rw [hd, Res.bind_ok]
  cases hc : st.att 2 f with
  | some w => exact ⟨st, rfl, h, Next.refl _, fun _ hn => by rw [hc] at hn; cases hn⟩
  | none =>
    cases hs : srch (gid st.M 2) (border M0 2) (gid S 2 f) with
    | none =>
      have hno := (hf (gid st.M 2) (border M0 2) (gid S 2 f)).2 hs
      refine ⟨st, rfl, h, Next.refl _, ?_⟩
      rintro ⟨w, hw, hg⟩
      exact absurd ((h.base.grows.gid hw).trans hg) (hno w (mem_border.2 ⟨hw, hG.border S hS 2 (by omega) f hfl w hw hg⟩))
    | some w =>
      obtain ⟨hw, hg⟩ := (hf (gid st.M 2) (border M0 2) (gid S 2 f)).1 w hs
      have hw0 := (mem_border.1 hw).1
      have hg0 : gid M0 2 w = gid S 2 f := by rw [← h.base.grows.gid hw0]; exact hg
      have hwM := h.base.grows.mem hw0
      simp only
      by_cases hif : (st.M.par 2 w).ptype = 3 ∧ (S.par 2 f).ptype ≠ 3
      · rw [if_pos hif]
        obtain ⟨h1, h2⟩ := h.learn (h.base.classF hS hSs hfl hw0 hg0.symm (by rw [← h.base.grows.par 2 w hw0]; exact hif.1) hif.2)
          (h.base.whole.classF (hSs.fc f hfl)).2 rfl (k := 2) hfl hc hwM hg
        refine ⟨_, rfl, h1, h2, fun _ hn => ?_⟩
        exact att_set (f := st.att) (k := 2) (x := f) (w := w) hn
      · rw [if_neg hif]
        obtain ⟨h1, h2⟩ := h.learn h.base (Grows.refl _) rfl (k := 2) hfl hc hwM hg
        refine ⟨_, rfl, h1, h2, fun _ hn => ?_⟩
        exact att_set (f := st.att) (k := 2) (x := f) (w := w) hn

theorem matchFs_ok (hG : Given 3 M0 subs) (hS : S ∈ subs) : ∀ (es : List Nat) {st : QSt D}, Inv 3 M0 subs C S st → (∀ e ∈ es, e ∈ S.F.fl) →
    ∃ st', loop (matchF srch (border M0) S) es st = .ok st' ∧ Inv 3 M0 subs C S st' ∧ Next 3 st st' ∧ ∀ e ∈ es, Placed M0 S st' 2 e
  | [], st, h, _ => ⟨st, rfl, h, Next.refl _, by simp⟩
  | e :: es, st, h, hes => by
    obtain ⟨s1, r1, i1, n1, p1⟩ := matchF_ok hf hG hS h (hes e (by simp))
    obtain ⟨s2, r2, i2, n2, p2⟩ := matchFs_ok hG hS es i1 (fun x hx => hes x (List.mem_cons_of_mem _ hx))
    unfold loop
    rw [r1, Res.bind_ok, r2]
    refine ⟨s2, rfl, i2, n1.trans n2, ?_⟩
    intro x hx
    rcases List.mem_cons.1 hx with rfl | hx
    · exact p1.mono n2
    · exact p2 x hx

/-! ### the faces of a region -/

omit hf in
/-- what is round a face of a mesh received -/
theorem cycle_of (hG : GivenR M0 subs) (hS : S ∈ subs) {f : Nat} (hfl : f ∈ S.F.fl) :
    ∃ us : List Nat, starts S.F f = us.map some ∧ (us.map (gid S 0)).Nodup ∧ 3 ≤ us.length ∧
      ring S f = (us.map (gid S 0)).map some := by
  have hSs := hG.meshes S hS
  have hlive := (hSs.fl.2 f).1 hfl
  obtain ⟨us, hus, hn⟩ := (hG.cycles S hS).1 f hlive
  have h1 := verts_ask (whole_of hSs) hfl (hG.short S hS f hfl)
  have h2 := Topo.C23_vertices hlive hus true
  rw [h1] at h2
  simp only [if_true, Res.ok.injEq] at h2
  have hlen : us.length = (S.F.T.view.edges f).length := by
    have := congrArg List.length h2
    unfold starts at this
    rw [List.length_map, List.length_map] at this
    exact this.symm
  obtain ⟨us', e1, e2⟩ := starts_some (whole_of hSs) hfl
  have : us' = us := (List.map_injective_iff.2 (Option.some_injective _)) (e1.symm.trans h2)
  subst this
  refine ⟨us', h2, ?_, by rw [hlen]; exact (hG.cycles S hS).2.2 f hfl, ?_⟩
  · exact hn.map_on fun x hx y hy hxy => (hG.dist 0 (by omega)).2 S hS x (e2 x hx) y (e2 y hy) hxy
  · rw [ring_starts, h2]
    simp [List.map_map, Function.comp_def]

omit hf in
theorem reverse_rotated {α : Type} {a b : List α} (h : a ~r b.reverse) : a.reverse ~r b := by
  have := h.reverse
  rwa [List.reverse_reverse] at this

theorem ghostF_ok (hG : GivenR M0 subs) (hS : S ∈ subs) {st : QSt D} (h : Inv 3 M0 subs C S st) {f : Nat} (hfl : f ∈ S.F.fl) (d : Bool)
    (hC : ∀ k x, OfFace S.F f k x → C S k x) (hp : ∀ k x, OfFace S.F f k x → Placed M0 S st k x) :
    ∃ st' p, ghostF srch S f d st = .ok (st', p) ∧ Inv 3 M0 subs C S st' ∧ Next 3 st st' ∧ p.1 ∈ st'.M.F.fl ∧
      side st'.M p = side S (f, d) := by
  have hSs := hG.meshes S hS
  have hlive := (hSs.fl.2 f).1 hfl
  have h30 := hG.short S hS f hfl
  have hd : S.F.T.derefF f = .ok () := Topo.derefF_ok (Topo.alloc_of_live hlive)
  obtain ⟨i1, n1, f1, f2⟩ := find_ok hf h (k := 2) (by omega) hfl ((hG.dist 2 (by omega)).2 S hS) (hp 2 f (Or.inl ⟨rfl, rfl⟩))
  unfold ghostF
  rw [hd, Res.bind_ok]
  simp only
  cases hc : (st.find srch S 2 f).2 with
  | some w =>
    obtain ⟨w1, w2, w3⟩ := i1.att 2 f w (by omega) (f1 w hc)
    generalize hst : (st.find srch S 2 f).1 = s1 at i1 n1 f1 w2 w3 ⊢
    obtain ⟨us, u1, u2, u3, u4⟩ := cycle_of hG hS hfl
    obtain ⟨vs, v1, _⟩ := starts_some i1.base.whole w2
    have v4 : ring s1.M w = (vs.map (gid s1.M 0)).map some := by
      rw [ring_starts, v1]; simp [List.map_map, Function.comp_def]
    have hag := i1.base.agreeF rfl S hS w w2 f hfl w3
    have hag' : vs.map (gid s1.M 0) ~r us.map (gid S 0) ∨ vs.map (gid s1.M 0) ~r (us.map (gid S 0)).reverse := by
      rw [u4, v4] at hag
      rcases hag with hag | hag
      · exact Or.inl (rotated_of_map hag)
      · exact Or.inr (rotated_of_map (by rw [List.map_reverse]; exact hag))
    have hlen : vs.length = us.length := by
      rcases hag' with hag | hag
      · simpa using hag.perm.length_eq
      · simpa using hag.perm.length_eq
    have hul : us.length = (S.F.T.view.edges f).length := by
      have := congrArg List.length u1
      unfold starts at this
      rw [List.length_map, List.length_map] at this
      exact this.symm
    have hvl : vs.length = (s1.M.F.T.view.edges w).length := by
      have := congrArg List.length v1
      unfold starts at this
      rw [List.length_map, List.length_map] at this
      exact this.symm
    have q1 := verts_ask (whole_of hSs) hfl h30
    have q2 := verts_ask i1.base.whole w2 (by omega)
    rw [u1] at q1
    rw [v1] at q2
    have e0 : us[0]? = some us[0] := List.getElem?_eq_getElem (by omega)
    have e1 : us[1]? = some us[1] := List.getElem?_eq_getElem (by omega)
    dsimp only
    rw [q1, Res.bind_ok, List.getElem?_map, List.getElem?_map, e0, e1]
    simp only [Option.map_some, Res.ofOption_some, Res.bind_ok, q2, List.length_map, if_neg (show ¬ 30 < vs.length by omega), gidsOf_ok]
    refine ⟨s1, _, rfl, i1, n1, w2, ?_⟩
    have key := turned_ok u2 (by simpa using u3) hag' (b0 := gid S 0 us[0]) (b1 := gid S 0 us[1])
      (by rw [List.getElem?_map, e0]; rfl) (by rw [List.getElem?_map, e1]; rfl)
    unfold side
    dsimp only
    refine Prod.ext w3 ?_
    dsimp only
    rcases key with ⟨k1, k2⟩ | ⟨k1, k2⟩
    · rw [k1, if_pos rfl]
      have k3 : ring s1.M w ~r (ring S f).reverse := by
        rw [u4, v4, ← List.map_reverse]; exact k2.map some
      cases d
      · exact Cycle.coe_eq_coe.2 k3
      · exact Cycle.coe_eq_coe.2 (reverse_rotated k3)
    · rw [k1, if_neg Bool.false_ne_true]
      have k3 : ring s1.M w ~r ring S f := by
        rw [u4, v4]; exact k2.map some
      cases d
      · exact Cycle.coe_eq_coe.2 k3.reverse
      · exact Cycle.coe_eq_coe.2 k3
  | none =>
    obtain ⟨e1, e2, e3⟩ := f2 hc
    rw [e1]
    obtain ⟨q1, q2⟩ := edges_ask hSs hfl
    obtain ⟨s3, es, r3, i3, n3, m3, g3⟩ := ghostEs_ok hf hG.toGiven hS (f := f) (S.F.T.view.edges f) 0 h (by omega)
      (fun i q hq => by rw [Nat.zero_add]; exact q2 h30 i q hq) (fun q hq => hSs.edgesLive hfl hq)
      (fun q hq k x hx => ⟨hC k x (Or.inr ⟨q, hq, hx⟩), hp k x (Or.inr ⟨q, hq, hx⟩)⟩)
    obtain ⟨x1, y1⟩ := ghostEs_same _ _ r3 2 (by omega)
    obtain ⟨M', k1, k2, k3, k4, k5, k6⟩ := i3.base.newF hS hSs hfl (fun _ => (hG.agreeF S hS).2) (fun _ => hC 2 f (Or.inl ⟨rfl, rfl⟩))
      (by
        intro _ y hy
        have hy' : y ∈ st.M.F.list 2 := by rw [← y1]; exact hy
        rw [n3.grows.gid (k := 2) hy']
        exact e3 y hy') m3 g3
    dsimp only
    simp only [q1, Res.bind_ok, r3, k1]
    have hgid : gid M' 2 s3.M.F.T.nf = gid S 2 f := by unfold gid; rw [k4.1]; rfl
    obtain ⟨g1, g2, g3'⟩ := i3.enter (k := 2) (by omega) hfl (by rw [x1]; exact e2) k2 k3 k5 hgid
      (st' := { s3 with M := M', att := upd2 s3.att 2 f (some s3.M.F.T.nf), add := upd s3.add 2 (s3.add 2 ++ [s3.M.F.T.nf]) }) rfl rfl rfl rfl
    refine ⟨_, _, rfl, g1, n3.trans g2, (g1.att 2 f _ (by omega) g3').2.1, ?_⟩
    unfold side ring
    dsimp only
    rw [k4.2.2, hgid]

theorem ghostFs_ok (hG : GivenR M0 subs) (hS : S ∈ subs) {r : Nat} : ∀ (ps : List (Nat × Bool)) (j : Nat) {st : QSt D}, Inv 3 M0 subs C S st →
    j + ps.length ≤ 512 → (∀ i q, ps[i]? = some q → S.F.T.mrFaceDir_i r (j+i) = .ok q.2) → (∀ q ∈ ps, q.1 ∈ S.F.fl) →
    (∀ q ∈ ps, ∀ k x, OfFace S.F q.1 k x → C S k x ∧ Placed M0 S st k x) →
    ∃ st' es, ghostFs srch S r j (ps.map (·.1)) st = .ok (st', es) ∧ Inv 3 M0 subs C S st' ∧ Next 3 st st' ∧
      (∀ p ∈ es, p.1 ∈ st'.M.F.fl) ∧ es.map (side st'.M) = ps.map (side S)
  | [], _, st, h, _, _, _, _ => ⟨st, [], rfl, h, Next.refl _, by simp, rfl⟩
  | q :: ps, j, st, h, hcap, hdir, hok, hpl => by
    rw [List.length_cons] at hcap
    obtain ⟨s1, p, r1, i1, n1, m1, g1⟩ := ghostF_ok hf hG hS h (hok q (by simp)) q.2 (fun k x hx => (hpl q (by simp) k x hx).1)
      (fun k x hx => (hpl q (by simp) k x hx).2)
    obtain ⟨s2, es, r2, i2, n2, m2, g2⟩ := ghostFs_ok hG hS ps (j+1) i1 (by omega)
      (fun i x hx => by rw [Nat.add_assoc, Nat.add_comm 1 i]; exact hdir (i+1) x hx)
      (fun x hx => hok x (List.mem_cons_of_mem _ hx))
      (fun x hx k y hy => ⟨(hpl x (List.mem_cons_of_mem _ hx) k y hy).1, (hpl x (List.mem_cons_of_mem _ hx) k y hy).2.mono n1⟩)
    rw [List.map_cons]
    unfold ghostFs
    rw [if_neg (by omega), show S.F.T.mrFaceDir_i r j = Res.ok q.2 from hdir 0 q rfl, Res.bind_ok, r1, Res.bind_ok, r2, Res.bind_ok]
    refine ⟨s2, p :: es, rfl, i2, n1.trans n2, ?_, ?_⟩
    · intro x hx
      rcases List.mem_cons.1 hx with rfl | hx
      · exact n2.grows.mem (k := 2) m1
      · exact m2 x hx
    · rw [List.map_cons, List.map_cons, g2, n2.grows.side i1.base.whole m1, g1]

/-! ### a region -/

omit hf in
theorem Base.newR {M : CMesh D} {new : Nat → List Nat} (h : Base 3 M0 subs C M new) (hSs : S.F.Sound) {r : Nat} (hr : r ∈ S.F.rl)
    {fs : List (Nat × Bool)} (hn : (fs.map (·.1)).Nodup) (hfs : ∀ p ∈ fs, p.1 ∈ M.F.fl ∧ ∀ z ∈ M.F.rl, p ∉ M.F.T.view.faces z)
    (hside : fs.map (side M) = walls S r) :
    ∃ M', makeRegion S r fs M = .ok (M', M.F.T.nr) ∧ Base 3 M0 subs C M' new ∧ Grows 3 M M' ∧ GhostR M' S M.F.T.nr r ∧
      M'.F.list = upd M.F.list 3 (M.F.list 3 ++ [M.F.T.nr]) := by
  obtain ⟨T2, s2, hfa, hadd⟩ := h.whole.addR (K := 3) hn hfs
  unfold makeRegion
  simp only [show M.F.T.mrNew.2 = M.F.T.nr from rfl, s2, Res.bind_ok]
  generalize hF : ({ M.F with T := T2, rl := M.F.rl ++ [M.F.T.nr], rc := upd M.F.rc M.F.T.nr (S.F.rc r), rid := upd M.F.rid M.F.T.nr (M.top 3 + 1) } : FMesh D) = F
  obtain ⟨h1, h2, hno, hlist⟩ := hadd (S.F.rc r) (hSs.rc r hr) _ (ghostOf (S.par 3 r)) _ hF.symm
  generalize hM' : put M 3 M.F.T.nr (ghostOf (S.par 3 r)) F = M' at h2
  have hFM : M'.F = F := by rw [← hM']; rfl
  have hpar : M'.par 3 M.F.T.nr = ghostOf (S.par 3 r) := by rw [← hM']; exact put_own
  have hlist' : M'.F.list = upd M.F.list 3 (M.F.list 3 ++ [M.F.T.nr]) := by rw [hFM]; exact hlist
  have ln : ∀ k, k < 3 → M'.F.list k = M.F.list k := fun k hk => by rw [hlist', upd_ne _ _ (by omega)]
  have hvc : M'.F.vc = M.F.vc := by rw [hFM, ← hF]
  have hec : M'.F.ec = M.F.ec := by rw [hFM, ← hF]
  have hfc : M'.F.fc = M.F.fc := by rw [hFM, ← hF]
  refine ⟨M', by rw [← hM']; rfl, ⟨by rw [hFM]; exact h1, h.grows.trans h2, h.dim, fun k hk => by rw [ln k hk, h.list k hk],
    (fun hk => absurd hk (by omega)), fun k hk => dist_same h2 (ln k hk) (h.dist k hk),
    fun T hT => agree_grows h.whole h2 (ln 1 (by omega)) (h.agree T hT),
    fun hk T hT => agreeF_grows h.whole h2 (ln 2 (by omega)) (h.agreeF hk T hT), ?_, ?_, ?_, ?_, ?_, ?_⟩, h2, ⟨hpar, ?_, ?_⟩, hlist'⟩
  · intro y hy
    obtain ⟨T, hT, x, hx, hc, hgh⟩ := h.gv y hy
    exact ⟨T, hT, x, hx, hc, ghostV_grows h2 (h.mem (k := 0) (by omega) hy) (congrFun hvc y) hgh⟩
  · intro y hy
    obtain ⟨T, hT, x, hx, hc, hgh⟩ := h.ge y hy
    exact ⟨T, hT, x, hx, hc, ghostE_grows h.whole h2 (h.mem (k := 1) (by omega) hy) (congrFun hec y) hgh⟩
  · intro hk y hy
    obtain ⟨T, hT, x, hx, hc, hgh⟩ := h.gf hk y hy
    exact ⟨T, hT, x, hx, hc, ghostF_grows h.whole h2 (h.mem (k := 2) (by omega) hy) (congrFun hfc y) hgh⟩
  · intro x hx; rw [hvc]; exact h.rv x hx
  · intro x hx; rw [hec]; exact h.re x hx
  · intro hk x hx; rw [hfc]; exact h.rf hk x hx
  · rw [hFM, ← hF]; exact upd_same _ _ _
  · rw [← hside]
    unfold walls
    rw [show M'.F.T.view.faces M.F.T.nr = fs by rw [hFM, ← hF]; exact hfa]
    exact List.map_congr_left fun p hp => h2.side h.whole (hfs p hp).1

omit hf in
/-- what a region consists of, and what may be asked for -/
theorem region_ask (hG : GivenR M0 subs) (hS : S ∈ subs) {r : Nat} (hr : r ∈ S.F.rl) :
    ∃ ws es : List Nat, S.F.T.regionVerts r = .ok (ws.map some) ∧ S.F.T.mrEdges r = .ok es ∧
      (∀ v, v ∈ ws ↔ OfRegion S.F r 0 v) ∧ (∀ e, e ∈ es ↔ OfRegion S.F r 1 e) := by
  have hSs := hG.meshes S hS
  obtain ⟨ws, es, fs, h1, h2, h3, h4, h5, h6⟩ := (hG.plain S hS r hr).1.answers hSs.cons (hG.cycles S hS).1 (hG.cycles S hS).2.1
  have rl : ∀ {p : Nat × Bool}, p ∈ S.F.T.view.faces r → p.1 ∈ S.F.fl := fun hp => (whole_of hSs).facesLive hr hp
  have fh : ∀ {f e : Nat}, f ∈ S.F.fl → (S.F.T.FaceHas f e ↔ ∃ p ∈ S.F.T.view.edges f, p.1 = e) := by
    intro f e hfl
    unfold Topo.FaceHas
    rw [(edges_ask hSs hfl).1]
    simp only [Res.ok.injEq, (hSs.fl.2 f).1 hfl, true_and]
    constructor
    · rintro ⟨es, rfl, he⟩
      exact List.mem_map.1 he
    · intro he
      exact ⟨_, rfl, List.mem_map.2 he⟩
  have eh : ∀ {e v : Nat}, e ∈ S.F.el → (S.F.T.EdgeHas e v ↔ (S.F.T.view.ends e).1 = some v ∨ (S.F.T.view.ends e).2 = some v) := by
    intro e v he
    have hq := (Topo.C49_view hSs.cons).1
    have hl := (hSs.el.2 e).1 he
    unfold Topo.EdgeHas
    rw [hq e false hl, hq e true hl]
    simp [hl]
  have rh : ∀ {f : Nat}, S.F.T.RegionHas r f ↔ ∃ p ∈ S.F.T.view.faces r, p.1 = f := by
    intro f
    constructor
    · intro hh
      have hfr := (h6 f).2 hh
      rw [(faces_ask hSs hr).1, Res.ok.injEq] at h3
      rw [← h3] at hfr
      exact List.mem_map.1 hfr
    · rintro ⟨p, hp, rfl⟩
      rw [← h6]
      rw [(faces_ask hSs hr).1, Res.ok.injEq] at h3
      rw [← h3]
      exact List.mem_map_of_mem hp
  refine ⟨ws, es, h1, h2, ?_, ?_⟩
  · intro v
    rw [h4]
    constructor
    · rintro ⟨f, hh, e, he, hv⟩
      obtain ⟨p, hp, rfl⟩ := rh.1 hh
      obtain ⟨q, hq, rfl⟩ := (fh (rl hp)).1 he
      exact Or.inr ⟨p, hp, Or.inr ⟨q, hq, Or.inr ⟨rfl, (eh (hSs.edgesLive (rl hp) hq)).1 hv⟩⟩⟩
    · rintro (⟨h0, _⟩ | ⟨p, hp, ⟨h0, _⟩ | ⟨q, hq, ⟨h0, _⟩ | ⟨_, hv⟩⟩⟩)
      · exact absurd h0 (by omega)
      · exact absurd h0 (by omega)
      · exact absurd h0 (by omega)
      · exact ⟨p.1, rh.2 ⟨p, hp, rfl⟩, q.1, (fh (rl hp)).2 ⟨q, hq, rfl⟩, (eh (hSs.edgesLive (rl hp) hq)).2 hv⟩
  · intro e
    rw [h5]
    constructor
    · rintro ⟨f, hh, he⟩
      obtain ⟨p, hp, rfl⟩ := rh.1 hh
      obtain ⟨q, hq, rfl⟩ := (fh (rl hp)).1 he
      exact Or.inr ⟨p, hp, Or.inr ⟨q, hq, Or.inl ⟨rfl, rfl⟩⟩⟩
    · rintro (⟨h0, _⟩ | ⟨p, hp, ⟨h0, _⟩ | ⟨q, hq, ⟨_, rfl⟩ | ⟨h0, _⟩⟩⟩)
      · exact absurd h0 (by omega)
      · exact absurd h0 (by omega)
      · exact ⟨p.1, rh.2 ⟨p, hp, rfl⟩, (fh (rl hp)).2 ⟨q, hq, rfl⟩⟩
      · exact absurd h0 (by omega)

omit hf in
theorem ofRegion_in (hSs : S.F.Sound) {r : Nat} (hr : r ∈ S.F.rl) {k x : Nat} (h : OfRegion S.F r k x) : x ∈ S.F.list k := by
  rcases h with ⟨rfl, rfl⟩ | ⟨p, hp, ⟨rfl, rfl⟩ | ⟨q, hq, ⟨rfl, rfl⟩ | ⟨rfl, hv⟩⟩⟩
  · exact hr
  · exact (whole_of hSs).facesLive hr hp
  · exact hSs.edgesLive ((whole_of hSs).facesLive hr hp) hq
  · have hel := hSs.edgesLive ((whole_of hSs).facesLive hr hp) hq
    obtain ⟨a, b, hab⟩ := hSs.ends q.1 hel
    obtain ⟨ha, hb⟩ := hSs.endsLive hel hab
    rw [hab] at hv
    rcases hv with hv | hv
    · injection hv with hv; rw [← hv]; exact ha
    · injection hv with hv; rw [← hv]; exact hb

/-- A region of a mesh received: nothing, or a ghost. -/
theorem concatR_ok (hG : GivenR M0 subs) (hS : S ∈ subs) {st : QSt D} (h : Inv 3 M0 subs C S st) {r : Nat} (hr : r ∈ S.F.rl)
    (hC : HitR M0 S r → ∀ k x, OfRegion S.F r k x → C S k x) (hfree : ∀ z ∈ st.M.F.rl, Apart st.M z S r) :
    ∃ st', concatR srch (border M0) S r st = .ok st' ∧ Inv 3 M0 subs C S st' ∧ Grows 3 st.M st'.M ∧ st'.old = st.old ∧
      ((¬ HitR M0 S r ∧ st'.M.F.rl = st.M.F.rl) ∨
        (HitR M0 S r ∧ ∃ l, st'.M.F.rl = st.M.F.rl ++ [l] ∧ GhostR st'.M S l r)) := by
  have hG3 := hG.toGiven
  have hSs := hG.meshes S hS
  obtain ⟨ws, es, a1, a2, a3, a4⟩ := region_ask hG hS hr
  obtain ⟨b1, b2⟩ := faces_ask hSs hr
  obtain ⟨s1, t1, r1, i1, n1, e1, p1⟩ := matchVsR_ok hf hG3 hS ws h (fun v hv => ofRegion_in hSs hr ((a3 v).1 hv))
  obtain ⟨s2, t2, r2, i2, n2, e2, p2⟩ := matchEsR_ok hf hG3 hS es i1 (fun v hv => ofRegion_in hSs hr ((a4 v).1 hv))
  have hfl : ∀ p ∈ S.F.T.view.faces r, p.1 ∈ S.F.fl := fun p hp => (whole_of hSs).facesLive hr hp
  obtain ⟨s3, r3, i3, n3, p3⟩ := matchFs_ok hf hG3 hS ((S.F.T.view.faces r).map (·.1)) i2 (by
    intro f hf
    obtain ⟨p, hp, rfl⟩ := List.mem_map.1 hf
    exact hfl p hp)
  have hhit : (t1 || t2) = true ↔ HitR M0 S r := by
    rw [Bool.or_eq_true]
    constructor
    · rintro (ht | ht)
      · obtain ⟨v, hv, w, hw, hg⟩ := e1.1 ht
        exact ⟨v, (a3 v).1 hv, w, (mem_border.1 hw).1, (mem_border.1 hw).2, hg⟩
      · obtain ⟨e, he, w, hw, hg⟩ := e2 ht
        have heR := (a4 e).1 he
        have hel : e ∈ S.F.el := ofRegion_in hSs hr heR
        obtain ⟨x, y, hxy⟩ := hSs.ends e hel
        obtain ⟨hx, hy⟩ := hSs.endsLive hel hxy
        have hw1 : w ∈ M0.F.el := (mem_border.1 hw).1
        obtain ⟨x', y', hxy'⟩ := hG.sound.ends w hw1
        obtain ⟨hx', hy'⟩ := hG.sound.endsLive hw1 hxy'
        have hor : ∀ v, (S.F.T.view.ends e).1 = some v ∨ (S.F.T.view.ends e).2 = some v → OfRegion S.F r 0 v := by
          intro v hv
          rcases heR with ⟨h0, _⟩ | ⟨p, hp, ⟨h0, _⟩ | ⟨q, hq, ⟨_, rfl⟩ | ⟨h0, _⟩⟩⟩
          · exact absurd h0 (by omega)
          · exact absurd h0 (by omega)
          · exact Or.inr ⟨p, hp, Or.inr ⟨q, hq, Or.inr ⟨rfl, hv⟩⟩⟩
          · exact absurd h0 (by omega)
        rcases (hG.agree S hS).1 w hw1 e hel hg with hs | hs
        · have hg0 : gid M0 0 x' = gid S 0 x := by
            unfold seg at hs
            simpa [hxy, hxy'] using congrArg (fun q => q.2.1) hs
          exact ⟨x, hor x (Or.inl (by rw [hxy])), x', hx', hG.border S hS 0 (by omega) x hx x' hx' hg0, hg0⟩
        · have hg0 : gid M0 0 x' = gid S 0 y := by
            unfold seg at hs
            simpa [hxy, hxy'] using congrArg (fun q => q.2.1) hs
          exact ⟨y, hor y (Or.inr (by rw [hxy])), x', hx', hG.border S hS 0 (by omega) y hy x' hx' hg0, hg0⟩
    · rintro ⟨v, hv, w, hw, hp, hg⟩
      exact Or.inl (e1.2 ⟨v, (a3 v).2 hv, w, mem_border.2 ⟨hw, hp⟩, hg⟩)
  have hn := (n1.trans n2).trans n3
  unfold concatR
  simp only [a1, a2, b1, Res.bind_ok, r1, r2, r3]
  by_cases hb : (t1 || t2) = true
  · rw [if_pos hb]
    have hH := hhit.1 hb
    obtain ⟨s4, fs, r4, i4, n4, m4, g4⟩ := ghostFs_ok hf hG hS (r := r) (S.F.T.view.faces r) 0 i3 (by have := (hG.plain S hS r hr).2; omega)
      (fun i q hq => by rw [Nat.zero_add]; exact b2 i q hq) hfl
      (by
        intro q hq k x hx
        have hxr : OfRegion S.F r k x := Or.inr ⟨q, hq, hx⟩
        refine ⟨hC hH k x hxr, ?_⟩
        rcases hx with ⟨rfl, rfl⟩ | ⟨p, hp, ⟨rfl, rfl⟩ | ⟨rfl, hx⟩⟩
        · exact p3 q.1 (List.mem_map_of_mem hq)
        · exact (p2 p.1 ((a4 _).2 hxr)).mono n3
        · exact (p1 x ((a3 _).2 hxr)).mono (n2.trans n3))
    have hn4 := hn.trans n4
    have hwM := h.base.whole
    have hfirst : ∀ (M : CMesh D) (l : List (Nat × Bool)), (l.map (side M)).map (·.1) = (l.map (·.1)).map (gid M 2) := by
      intro M l
      rw [List.map_map, List.map_map]
      rfl
    have hnd : (fs.map (·.1)).Nodup := by
      have h1 := (facesOf_length hSs hr).1
      have h2 : (((S.F.T.view.faces r).map (·.1)).map (gid S 2)).Nodup := by
        refine h1.map_on fun x hx y hy hxy => ?_
        obtain ⟨p, hp, rfl⟩ := List.mem_map.1 hx
        obtain ⟨q, hq, rfl⟩ := List.mem_map.1 hy
        exact (hG.dist 2 (by omega)).2 S hS _ (hfl p hp) _ (hfl q hq) hxy
      rw [← hfirst, ← g4, hfirst] at h2
      exact List.Nodup.of_map _ h2
    obtain ⟨M', k1, k2, k3, k4, k5⟩ := i4.base.newR hSs hr hnd (by
      intro p hp
      refine ⟨m4 p hp, fun z hz hpz => ?_⟩
      have hz0 : z ∈ st.M.F.rl := by
        have : z ∈ s4.M.F.list 3 := hz
        rw [hn4.top] at this
        exact this
      have hm1 : side s4.M p ∈ walls st.M z := by
        rw [← hn4.grows.walls hwM hz0]
        exact List.mem_map_of_mem hpz
      have hm2 : side s4.M p ∈ walls S r := by
        unfold walls
        rw [← g4]
        exact List.mem_map_of_mem hp
      exact hfree z hz0 _ hm1 hm2) g4
    simp only [r4, Res.bind_ok, k1]
    refine ⟨_, rfl, ⟨k2, ?_, i4.ghosts⟩, hn4.grows.trans k3, hn4.old, Or.inr ⟨hH, s4.M.F.T.nr, ?_, k4⟩⟩
    · intro k x y hk hx
      obtain ⟨h1, h2, h3⟩ := i4.att k x y hk hx
      exact ⟨h1, k3.mem h2, (k3.gid h2).trans h3⟩
    · show M'.F.list 3 = st.M.F.list 3 ++ _
      rw [k5, upd_same, hn4.top]
  · rw [if_neg hb]
    exact ⟨_, rfl, i3, hn.grows, hn.old, Or.inl ⟨fun hH => hb (hhit.2 hH), hn.top⟩⟩

end

end Cat
end MSTK
