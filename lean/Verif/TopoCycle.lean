import Verif.TopoWalk
import Verif.Props.Common
import Mathlib.Data.List.Rotate

/-!
Cycles of vertices: a closed walk through distinct vertices along edges of a face is the whole face
(helper lemmas for C48).
-/
namespace MSTK
namespace Topo

/-- `b` comes after `a` on the cycle `ws` -/
def Next (ws : List Nat) (a b : Nat) : Prop :=
  ∃ k : Nat, ws[k]? = some a ∧ ws[(k+1) % ws.length]? = some b

theorem Next.reverse {ws : List Nat} {a b : Nat} (h : Next ws a b) : Next ws.reverse b a := by
  obtain ⟨k, h1, h2⟩ := h
  have hk := (List.getElem?_eq_some_iff.1 h1).1
  have hm := Nat.mod_lt (k+1) (show 0 < ws.length by omega)
  refine ⟨ws.length - 1 - (k+1) % ws.length, ?_, ?_⟩
  · rw [List.getElem?_reverse (by omega), ← h2]
    congr 1
    omega
  · rw [List.length_reverse, List.getElem?_reverse (Nat.mod_lt _ (by omega)), ← h1]
    congr 1
    by_cases hk1 : k + 1 = ws.length
    · rw [hk1, Nat.mod_self, show ws.length - 1 - 0 + 1 = ws.length by omega, Nat.mod_self]; omega
    · rw [Nat.mod_eq_of_lt (show k+1 < ws.length by omega),
        show ws.length - 1 - (k+1) + 1 = ws.length - 1 - k by omega, Nat.mod_eq_of_lt (by omega)]
      omega

theorem Next.right {ws : List Nat} (hn : ws.Nodup) {a b c : Nat} (h : Next ws a b) (h' : Next ws a c) :
    b = c := by
  obtain ⟨k, h1, h2⟩ := h
  obtain ⟨j, h3, h4⟩ := h'
  have : k = j := by rw [← idxOf_eq_of_nodup hn h1, idxOf_eq_of_nodup hn h3]
  subst this
  rw [h2] at h4; injection h4

theorem Next.left {ws : List Nat} (hn : ws.Nodup) {a b c : Nat} (h : Next ws b a) (h' : Next ws c a) :
    b = c := h.reverse.right (List.nodup_reverse.2 hn) h'.reverse

/-- a closed walk along the cycle that starts forwards goes all the way round -/
theorem rotated_of_next {ws c : List Nat} (hn : ws.Nodup) (hc : c.Nodup) (h3 : 3 ≤ c.length)
    (h : ∀ (j a b : Nat), c[j]? = some a → c[(j+1) % c.length]? = some b → Next ws a b ∨ Next ws b a)
    (h0 : Next ws c[0] c[1]) : c ~r ws := by
  have get : ∀ {j : Nat} (hj : j < c.length), c[j]? = some c[j] := fun hj => List.getElem?_eq_getElem hj
  have inj : ∀ {i j : Nat} (hi : i < c.length) (hj : j < c.length), c[i] = c[j] → i = j := by
    intro i j hi hj he
    rw [← idxOf_eq_of_nodup hc (get hi), he, idxOf_eq_of_nodup hc (get hj)]
  -- every step goes forwards
  have step : ∀ (j : Nat) (hj : j + 1 < c.length), Next ws c[j] c[j+1] := by
    intro j
    induction j with
    | zero => intro _; exact h0
    | succ j ih =>
      intro hj
      have h1 := ih (by omega)
      rcases h (j+1) c[j+1] c[j+2] (get _) (by rw [Nat.mod_eq_of_lt hj]; exact get _) with h2 | h2
      · exact h2
      · have := inj (by omega) (by omega) (h1.left hn h2)
        omega
  have last : Next ws c[c.length - 1] c[0] := by
    rcases h (c.length-1) c[c.length-1] c[0] (get _) (by
      rw [show c.length - 1 + 1 = c.length by omega, Nat.mod_self]; exact get _) with h2 | h2
    · exact h2
    · have h1 := step (c.length - 2) (by omega)
      simp only [show c.length - 2 + 1 = c.length - 1 by omega] at h1
      have := inj (by omega) (by omega) (h1.left hn h2)
      omega
  obtain ⟨p, hp, -⟩ := id h0
  have hpn := (List.getElem?_eq_some_iff.1 hp).1
  have hpos : 0 < ws.length := by omega
  have pos : ∀ (j : Nat) (hj : j < c.length), ws[(p + j) % ws.length]? = some c[j] := by
    intro j
    induction j with
    | zero => intro _; rw [Nat.add_zero, Nat.mod_eq_of_lt hpn]; exact hp
    | succ j ih =>
      intro hj
      have h1 := ih (by omega)
      have h2 : ws[((p+j) % ws.length + 1) % ws.length]? = some
          (ws[((p+j) % ws.length + 1) % ws.length]'(Nat.mod_lt _ hpos)) := List.getElem?_eq_getElem _
      have h4 : Next ws c[j] _ := ⟨_, h1, h2⟩
      rw [h4.right hn (step j hj), Nat.mod_add_mod] at h2
      exact h2
  have hdiv : (p + c.length) % ws.length = p := by
    have h1 := pos (c.length - 1) (by omega)
    have h2 : ws[((p+(c.length-1)) % ws.length + 1) % ws.length]? = some
          (ws[((p+(c.length-1)) % ws.length + 1) % ws.length]'(Nat.mod_lt _ hpos)) := List.getElem?_eq_getElem _
    have h4 : Next ws c[c.length-1] _ := ⟨_, h1, h2⟩
    rw [h4.right hn last, Nat.mod_add_mod, show p + (c.length - 1) + 1 = p + c.length by omega] at h2
    rw [← idxOf_eq_of_nodup hn h2, idxOf_eq_of_nodup hn hp]
  have hle : c.length ≤ ws.length := by
    apply List.Subperm.length_le
    apply hc.subperm
    intro x hx
    obtain ⟨j, hj, rfl⟩ := List.mem_iff_getElem.1 hx
    exact List.mem_of_getElem? (pos j hj)
  have hlen : c.length = ws.length := by
    by_contra hne
    have h1 : c.length < ws.length := by omega
    rcases Nat.lt_or_ge (p + c.length) ws.length with h2 | h2
    · rw [Nat.mod_eq_of_lt h2] at hdiv; omega
    · rw [Nat.mod_eq_sub_mod h2, Nat.mod_eq_of_lt (by omega)] at hdiv; omega
  refine List.IsRotated.symm ⟨p, ?_⟩
  apply List.ext_getElem?
  intro j
  by_cases hj : j < ws.length
  · rw [List.getElem?_rotate hj, Nat.add_comm j p, pos j (by omega), get (by omega)]
  · rw [List.getElem?_eq_none (by simpa using hj), List.getElem?_eq_none (by omega)]

/-- a closed walk through distinct vertices along a cycle goes all the way round, one way or the
other -/
theorem rotated_of_nb {ws c : List Nat} (hn : ws.Nodup) (hc : c.Nodup) (h3 : 3 ≤ c.length)
    (h : ∀ (j a b : Nat), c[j]? = some a → c[(j+1) % c.length]? = some b → Next ws a b ∨ Next ws b a) :
    c ~r ws ∨ c ~r ws.reverse := by
  rcases h 0 c[0] c[1] (List.getElem?_eq_getElem _) (by
    rw [Nat.mod_eq_of_lt (by omega)]; exact List.getElem?_eq_getElem _) with h0 | h0
  · exact Or.inl (rotated_of_next hn hc h3 h h0)
  · refine Or.inr (rotated_of_next (List.nodup_reverse.2 hn) hc h3 ?_ h0.reverse)
    intro j a b ha hb
    rcases h j a b ha hb with h1 | h1
    · exact Or.inr h1.reverse
    · exact Or.inl h1.reverse

/-- a cycle of three or more distinct vertices is not its own reverse -/
theorem not_rotated_reverse {ws : List Nat} (hn : ws.Nodup) (h3 : 3 ≤ ws.length) : ¬ ws ~r ws.reverse := by
  rintro ⟨k, hk⟩
  have get : ∀ {j : Nat} (hj : j < ws.length), ws[j]? = some ws[j] := fun hj => List.getElem?_eq_getElem hj
  have key : ∀ i, i < ws.length → (i + k) % ws.length = ws.length - 1 - i := by
    intro i hi
    have h1 : (ws.rotate k)[i]? = ws.reverse[i]? := by rw [hk]
    rw [List.getElem?_rotate hi, List.getElem?_reverse hi, get (show ws.length - 1 - i < ws.length by omega)] at h1
    rw [← idxOf_eq_of_nodup hn h1, idxOf_eq_of_nodup hn (get _)]
  have k0 := key 0 (by omega)
  have k1 := key 1 (by omega)
  rw [show 1 + k = (0 + k) + 1 by omega, ← Nat.mod_add_mod, k0,
    show ws.length - 1 - 0 + 1 = ws.length by omega, Nat.mod_self] at k1
  omega

/-- the cycle seen from one side or from the other -/
def turned (d : Bool) (ws : List Nat) : List Nat := if d then ws else ws.reverse

theorem turned_unique {ws c : List Nat} (hn : ws.Nodup) (h3 : 3 ≤ ws.length) {d d' : Bool}
    (h : c ~r turned d ws) (h' : c ~r turned d' ws) : d = d' := by
  cases d <;> cases d' <;> first | rfl | skip
  · exact absurd (h'.symm.trans h) (not_rotated_reverse hn h3)
  · exact absurd (h.symm.trans h') (not_rotated_reverse hn h3)

theorem turned_perm {ws : List Nat} (d : Bool) : (turned d ws).Perm ws := by
  cases d
  · exact List.reverse_perm _
  · exact List.Perm.refl _

end Topo
end MSTK
