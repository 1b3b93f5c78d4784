import Verif.TopoCycle
import Verif.RegionModel

/-!
How a face looks from either side, and meshes that grow by new edges and faces (helper lemmas for
C48).
-/
namespace MSTK
namespace Topo

/-- `MF_Vertices(f,d,c[0])` lists `c`: seen in direction `d`, the face goes round `c` -/
def Seen (T : Topo) (f : Nat) (d : Bool) (c : List Nat) : Prop :=
  ∃ a, c[0]? = some a ∧ T.mfVertices f d (some a) = .ok (c.map some)

theorem map_some_inj {c c' : List Nat} (h : c.map some = c'.map some) : c = c' :=
  List.map_injective_iff.2 (Option.some_injective _) h

theorem seen_iff {T : Topo} {f : Nat} {ws c : List Nat} {d : Bool} (hf : T.sf f = .live)
    (h : T.Loop f ws) (hn : ws.Nodup) (hc : c ≠ []) : T.Seen f d c ↔ c ~r turned d ws := by
  constructor
  · rintro ⟨a, h1, h2⟩
    obtain ⟨g1, g2⟩ := C23_vertices_from hf h hn d a
    by_cases ha : a ∈ ws
    · obtain ⟨k, hk⟩ := List.mem_iff_getElem?.1 ha
      rw [g1 k hk] at h2
      injection h2 with h2
      rw [← map_some_inj h2]
      cases d
      · exact List.IsRotated.reverse ⟨_, rotate_back ws (k+1)⟩
      · exact ⟨_, rotate_back ws k⟩
    · rw [g2 ha] at h2; cases h2
  · intro hr
    have hlen : c.length = ws.length := (hr.perm.trans (turned_perm d)).length_eq
    have hpos : 0 < c.length := List.length_pos_iff.2 hc
    cases d
    · obtain ⟨m, hm⟩ := hr.reverse.symm
      rw [show turned false ws = ws.reverse from rfl, List.reverse_reverse] at hm
      have hmod := Nat.mod_lt (m + ws.length - 1) (show 0 < ws.length by omega)
      have hk := List.getElem?_eq_getElem hmod
      have hcm : c = (ws.rotate ((m + ws.length - 1) % ws.length + 1)).reverse := by
        rw [← List.reverse_reverse c, ← hm]
        congr 1
        apply rotate_add_mod
        rw [Nat.mod_add_mod, show m + ws.length - 1 + 1 = m + ws.length by omega, Nat.add_mod_right]
      refine ⟨_, ?_, ((C23_vertices_from hf h hn false _).1 _ hk).trans ?_⟩
      · conv => lhs; rw [hcm]
        rw [List.getElem?_reverse (by rw [List.length_rotate]; omega), List.length_rotate,
          List.getElem?_rotate (by omega), ← hk]
        congr 1
        rw [show ws.length - 1 - 0 + ((m + ws.length - 1) % ws.length + 1)
          = (m + ws.length - 1) % ws.length + ws.length by omega, Nat.add_mod_right, Nat.mod_mod]
      · rw [if_neg (by simp), ← hcm]
    · obtain ⟨m, hm⟩ := hr.symm
      rw [show turned true ws = ws from rfl] at hm
      have hmod := Nat.mod_lt m (show 0 < ws.length by omega)
      have hk := List.getElem?_eq_getElem hmod
      have hcm : c = ws.rotate (m % ws.length) := by rw [List.rotate_mod, hm]
      refine ⟨_, ?_, ((C23_vertices_from hf h hn true _).1 _ hk).trans ?_⟩
      · conv => lhs; rw [hcm]
        rw [List.getElem?_rotate (by omega), ← hk, Nat.zero_add, Nat.mod_mod]
      · rw [if_pos rfl, ← hcm]

/-- A face is seen as the same cycle of three or more vertices in one direction only. -/
theorem Seen.unique {T : Topo} {f : Nat} {c : List Nat} {d d' : Bool} (hf : T.sf f = .live)
    (hl : T.AllLoops) (h3 : 3 ≤ c.length) (h : T.Seen f d c) (h' : T.Seen f d' c) : d = d' := by
  obtain ⟨ws, hw, hn⟩ := hl f hf
  have hc : c ≠ [] := by rintro rfl; simp at h3
  rw [seen_iff hf hw hn hc] at h h'
  have hlen : c.length = ws.length := (h.perm.trans (turned_perm d)).length_eq
  exact turned_unique hn (by omega) h h'

/-- Closed walk through distinct vertices along edges of a face. -/
theorem turned_of_edges {T : Topo} {f : Nat} {ws c : List Nat} 
    (h : T.Loop f ws) (hn : ws.Nodup) (hc : c.Nodup) (h3 : 3 ≤ c.length)
    (he : ∀ (j a b : Nat), c[j]? = some a → c[(j+1) % c.length]? = some b →
      ∃ e, T.FaceHas f e ∧ T.EdgeHas e a ∧ T.EdgeHas e b) : ∃ d, c ~r turned d ws := by
  have key := rotated_of_nb hn hc h3 (fun j a b ha hb => by
    obtain ⟨e, ⟨_, l, hl, hm⟩, h1, h2⟩ := he j a b ha hb
    obtain ⟨l', hl', hlen, hL⟩ := id h
    rw [hl] at hl'; injection hl' with hl'; subst hl'
    have hab : a ≠ b := by
      rintro rfl
      have e1 := idxOf_eq_of_nodup hc ha
      rw [idxOf_eq_of_nodup hc hb] at e1
      have hj := (List.getElem?_eq_some_iff.1 ha).1
      by_cases hj1 : j + 1 = c.length
      · rw [hj1, Nat.mod_self] at e1; omega
      · rw [Nat.mod_eq_of_lt (by omega)] at e1; omega
    obtain ⟨k, hk⟩ := List.mem_iff_getElem?.1 hm
    obtain ⟨d, -, g1, g2⟩ := hL k e hk
    have hkw : k < ws.length := by
      have := (List.getElem?_eq_some_iff.1 hk).1; omega
    obtain ⟨x, hx⟩ : ∃ x, ws[k]? = some x := ⟨_, List.getElem?_eq_getElem hkw⟩
    obtain ⟨y, hy⟩ : ∃ y, ws[(k+1) % ws.length]? = some y :=
      ⟨_, List.getElem?_eq_getElem (Nat.mod_lt (k+1) (show 0 < ws.length by omega))⟩
    rw [hx] at g1
    rw [hy] at g2
    have hN : Next ws _ _ := ⟨k, hx, hy⟩
    have cases : ∀ z, T.EdgeHas e z → z = x ∨ z = y := by
      rintro z ⟨_, hz⟩
      cases d
      · simp only [Bool.not_false] at g1
        rw [g1, g2] at hz
        simp only [Res.ok.injEq, Option.some.injEq] at hz
        rcases hz with rfl | rfl <;> simp
      · simp only [Bool.not_true] at g1
        rw [g1, g2] at hz
        simp only [Res.ok.injEq, Option.some.injEq] at hz
        rcases hz with rfl | rfl <;> simp
    rcases cases a h1 with rfl | rfl
    · rcases cases b h2 with rfl | rfl
      · exact absurd rfl hab
      · exact Or.inl hN
    · rcases cases b h2 with rfl | rfl
      · exact Or.inr hN
      · exact absurd rfl hab)
  rcases key with h1 | h1
  · exact ⟨true, h1⟩
  · exact ⟨false, h1⟩

/-- The direction chosen for a face that is there already. -/
theorem existingDir_ok {T : Topo} (h : T.Consistent) {f a b : Nat} {ws rest : List Nat} {d : Bool}
    (hf : T.sf f = .live) (hl : T.Loop f ws) (hn : ws.Nodup) (h3 : 1 ≤ rest.length)
    (hr : (a :: b :: rest) ~r turned d ws) (hfree : endAt (T.fr f) (!d) = none) :
    T.existingDir f a b true = .ok d := by
  have hnd : (a :: b :: rest).Nodup := ((hr.perm.trans (turned_perm d)).nodup_iff).2 hn
  unfold existingDir mfRegions
  rw [derefF_ok (alloc_of_live hf), Res.bind_ok]
  cases ho : endAt (T.fr f) d with
  | none =>
    have e0 : T.fr f = (none, none) := by
      cases d <;> simp only [endAt, Bool.not_true, Bool.not_false, Bool.false_eq_true, if_false, if_true] at hfree ho
      · exact Prod.ext ho hfree
      · exact Prod.ext hfree ho
    rw [e0]
    show (T.mfVertices f true (some a) >>= fun l => pure (if l[1]?.getD none = some b then true else !true)) = _
    cases d
    · -- the other way round: the vertex after `a` is the last one of the list
      have hrev : (a :: (b :: rest).reverse) ~r turned true ws := by
        have h1 := hr.reverse
        rw [show turned false ws = ws.reverse from rfl, List.reverse_reverse] at h1
        refine List.IsRotated.trans ?_ h1
        rw [List.reverse_cons]
        exact ⟨1, by simp⟩
      obtain ⟨a', h1, h2⟩ := (seen_iff hf hl hn (by simp)).2 hrev
      simp only [List.getElem?_cons_zero, Option.some.injEq] at h1
      subst h1
      rw [h2, Res.bind_ok]
      have : ((a :: (b :: rest).reverse).map some)[1]?.getD none ≠ some b := by
        rw [List.map_cons, List.getElem?_cons_succ, List.getElem?_map, List.getElem?_reverse (by simp)]
        have hlt : rest.length - 1 < rest.length := by omega
        rw [show (b :: rest).length - 1 - 0 = (rest.length - 1) + 1 by simp; omega,
          List.getElem?_cons_succ, List.getElem?_eq_getElem hlt]
        simp only [Option.map_some, Option.getD_some, ne_eq, Option.some.injEq]
        intro hb
        have : b ∈ rest := hb ▸ List.getElem_mem hlt
        simp only [List.nodup_cons] at hnd
        exact hnd.2.1 this
      rw [if_neg this]; rfl
    · obtain ⟨a', h1, h2⟩ := (seen_iff (d := true) hf hl hn (by simp)).2 hr
      simp only [List.getElem?_cons_zero, Option.some.injEq] at h1
      subst h1
      rw [h2, Res.bind_ok]
      simp
  | some o =>
    have ho' := (h.fr.mem f (alloc_of_live hf) o (!d)).1 (by rw [Bool.not_not]; exact ho)
    have hdir := (mrFaceDir_iff h (f := f) (d := !d) ho'.1).2 ho'.2
    have e0 : orNull ((T.fr f).1.toList ++ (T.fr f).2.toList) = some [o] := by
      cases d <;> simp only [endAt, Bool.not_true, Bool.not_false, Bool.false_eq_true, if_false, if_true] at hfree ho
      all_goals rw [hfree, ho]; rfl
    rw [e0]
    show (Res.ok o >>= fun o => T.mrFaceDir o f >>= fun d => pure (match d with
      | some d => !d
      | none => false)) = _
    rw [Res.bind_ok, hdir, Res.bind_ok]
    simp

/-! ### growing meshes -/

/-- `T'` is `T` with more edges and more faces; the new faces belong to no region. -/
structure Ext (T T' : Topo) : Prop where
  sv : T'.sv = T.sv
  sr : T'.sr = T.sr
  rf : T'.rf = T.rf
  rd : T'.rd = T.rd
  oldE : ∀ e, T.se e = .live → T'.se e = .live ∧ T'.ev e = T.ev e
  oldF : ∀ f, T.sf f = .live → T'.sf f = .live ∧ T'.fe f = T.fe f ∧ T'.fd f = T.fd f ∧ T'.fr f = T.fr f
  newF : ∀ f, T'.sf f = .live → T.sf f ≠ .live → T'.fr f = (none, none)

theorem Ext.refl (T : Topo) : Ext T T :=
  ⟨rfl, rfl, rfl, rfl, fun _ h => ⟨h, rfl⟩, fun _ h => ⟨h, rfl, rfl, rfl⟩, fun _ h h' => absurd h h'⟩

theorem Ext.trans {T T1 T2 : Topo} (g : Ext T T1) (k : Ext T1 T2) : Ext T T2 := by
  refine ⟨k.sv.trans g.sv, k.sr.trans g.sr, k.rf.trans g.rf, k.rd.trans g.rd, ?_, ?_, ?_⟩
  · intro e he
    obtain ⟨a1, a2⟩ := g.oldE e he
    obtain ⟨b1, b2⟩ := k.oldE e a1
    exact ⟨b1, b2.trans a2⟩
  · intro f hf
    obtain ⟨a1, a2, a3, a4⟩ := g.oldF f hf
    obtain ⟨b1, b2, b3, b4⟩ := k.oldF f a1
    exact ⟨b1, b2.trans a2, b3.trans a3, b4.trans a4⟩
  · intro f hf hn
    by_cases h1 : T1.sf f = .live
    · rw [(k.oldF f h1).2.2.2]; exact g.newF f h1 hn
    · exact k.newF f hf h1

theorem Grown.ext {T T' : Topo} (g : Grown T T') : Ext T T' :=
  ⟨g.sv, g.sr, g.rf, g.rd, fun e he => ⟨(g.old e he).1, (g.old e he).2.1⟩,
    fun f hf => ⟨by rw [g.sf]; exact hf, by rw [g.fe], by rw [g.fd], by rw [g.fr]⟩,
    fun f hf hn => by rw [g.sf] at hf; exact absurd hf hn⟩

theorem Ext.loop {T T' : Topo} (g : Ext T T') (h : T.Consistent) {f : Nat} {ws : List Nat}
    (hf : T.sf f = .live) (hl : T.Loop f ws) : T'.Loop f ws := by
  obtain ⟨l, h1, h2, h3, -⟩ := hl.stored (alloc_of_live hf)
  obtain ⟨es, k1, k2, k3⟩ := hl
  rw [h2] at k1; injection k1 with k1; subst k1
  obtain ⟨b1, b2, b3, -⟩ := g.oldF f hf
  refine ⟨l, mfEdges_plain (alloc_of_live b1) (b2.trans h1), k2, fun k e he => ?_⟩
  obtain ⟨d, c1, c2, c3⟩ := k3 k e he
  have hel := h.fedgesLive hf h1 e (List.mem_of_getElem? he)
  obtain ⟨e1, e2⟩ := g.oldE e hel
  refine ⟨d, ?_, ?_, ?_⟩
  · unfold mfEdgeDir_i at c1 ⊢
    rw [derefF_ok (alloc_of_live hf), Res.bind_ok] at c1
    rw [derefF_ok (alloc_of_live b1), Res.bind_ok, b3]; exact c1
  · rw [meVertex_ok (alloc_of_live hel)] at c2
    rw [meVertex_ok (alloc_of_live e1), e2]; exact c2
  · rw [meVertex_ok (alloc_of_live hel)] at c3
    rw [meVertex_ok (alloc_of_live e1), e2]; exact c3

theorem Ext.seen {T T' : Topo} (g : Ext T T') (h : T.Consistent) (hl : T.AllLoops) {f : Nat} {d : Bool}
    {c : List Nat} (hf : T.sf f = .live) (hc : c ≠ []) : T'.Seen f d c ↔ T.Seen f d c := by
  obtain ⟨ws, hw, hn⟩ := hl f hf
  rw [seen_iff hf hw hn hc, seen_iff (g.oldF f hf).1 (g.loop h hf hw) hn hc]

/-- The side on which the cycle `c` is seen is free on every face that goes round `c`. -/
def FreeSide (T : Topo) (c : List Nat) : Prop :=
  ∀ f d, T.sf f = .live → T.Seen f d c → endAt (T.fr f) (!d) = none

theorem Ext.freeSide {T T' : Topo} (g : Ext T T') (h : T.Consistent) (hl : T.AllLoops) {c : List Nat}
    (hc : c ≠ []) (hfree : T.FreeSide c) : T'.FreeSide c := by
  intro f d hf hs
  by_cases h1 : T.sf f = .live
  · rw [(g.oldF f h1).2.2.2]
    exact hfree f d h1 ((g.seen h hl h1 hc).1 hs)
  · rw [g.newF f hf h1]; cases d <;> rfl

theorem Ext.closed {T T' : Topo} (g : Ext T T') {es : List (Nat × Bool)} {c : List Nat}
    (hall : ∀ p ∈ es, T.se p.1 = .live) (hc : T.Closed es c) : T'.Closed es c := by
  refine ⟨hc.1, fun k p a b hp ha hb => ?_⟩
  have := hc.2 k p a b hp ha hb
  unfold Leads at this ⊢
  rw [(g.oldE p.1 (hall p (List.mem_of_getElem? hp))).2]; exact this

end Topo
end MSTK
