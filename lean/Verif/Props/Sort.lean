import Verif.SortModel
import Mathlib.Data.List.Perm.Basic
/-! C11: the internal quicksort. -/
namespace MSTK

theorem rdA_append (P : List Int) (x : Int) (Q : List Int) : rdA (P ++ x :: Q) P.length = .ok x := by
  unfold rdA; simp

theorem rdA_at {A : List Int} {i : Int} (P : List Int) (x : Int) (Q : List Int)
    (hA : A = P ++ x :: Q) (hi : i = P.length) : rdA A i = .ok x := by
  subst hA hi; exact rdA_append P x Q

theorem wrA_at {A : List Int} {i : Int} (P : List Int) (x : Int) (Q : List Int) (v : Int)
    (hA : A = P ++ x :: Q) (hi : i = P.length) : wrA A i v = .ok (P ++ v :: Q) := by
  subst hA hi; unfold wrA; simp

theorem swapA_lt (X Y Z : List Int) (a b i j : Int) (hi : i = X.length) (hj : j = X.length + 1 + Y.length) :
    swapA (X ++ a :: (Y ++ b :: Z)) i j = .ok (X ++ b :: (Y ++ a :: Z)) := by
  unfold swapA
  rw [rdA_at X a (Y ++ b :: Z) rfl hi]
  simp only [Res.bind_ok]
  rw [rdA_at (X ++ a :: Y) b Z (by simp) (by simp; omega)]
  simp only [Res.bind_ok]
  rw [wrA_at X a (Y ++ b :: Z) b rfl hi]
  simp only [Res.bind_ok]
  rw [wrA_at (X ++ b :: Y) b Z a (by simp) (by simp; omega)]
  simp

theorem swapA_gt (X Y Z : List Int) (a b i j : Int) (hi : i = X.length) (hj : j = X.length + 1 + Y.length) :
    swapA (X ++ a :: (Y ++ b :: Z)) j i = .ok (X ++ b :: (Y ++ a :: Z)) := by
  unfold swapA
  rw [rdA_at (X ++ a :: Y) b Z (by simp) (by simp; omega)]
  simp only [Res.bind_ok]
  rw [rdA_at X a (Y ++ b :: Z) rfl hi]
  simp only [Res.bind_ok]
  rw [wrA_at (X ++ a :: Y) b Z a (by simp) (by simp; omega)]
  simp only [Res.bind_ok]
  rw [wrA_at X a (Y ++ a :: Z) b (by simp) hi]

theorem swapA_eq (X Z : List Int) (a i j : Int) (hi : i = X.length) (hj : j = X.length) :
    swapA (X ++ a :: Z) i j = .ok (X ++ a :: Z) := by
  unfold swapA
  rw [rdA_at X a Z rfl hi]
  simp only [Res.bind_ok]
  rw [rdA_at X a Z rfl hj]
  simp only [Res.bind_ok]
  rw [wrA_at X a Z a rfl hi]
  simp only [Res.bind_ok]
  rw [wrA_at X a Z a rfl hj]

/-- Specification: the sort value of an array entry: the entry itself, or its entry in the key array. -/
def sortVal : Option (List Int) → Int → Int
  | none, a => a
  | some k, a => k.getD a.toNat 0

/-- Specification: the entry can be looked up in the key array (if there is one). -/
def keyed : Option (List Int) → Int → Prop
  | none, _ => True
  | some k, a => 0 ≤ a ∧ a.toNat < k.length

theorem keyAtA_at {A : List Int} {i : Int} (key : Option (List Int)) (P : List Int) (x : Int) (Q : List Int)
    (hA : A = P ++ x :: Q) (hi : i = P.length) (hk : keyed key x) :
    keyAtA key A i = .ok (sortVal key x) := by
  unfold keyAtA
  rw [rdA_at P x Q hA hi]
  cases key with
  | none => rfl
  | some k =>
    obtain ⟨h1, h2⟩ := hk
    simp [rdA, sortVal, h1, h2]

theorem partLoop_spec (key : Option (List Int)) (v : Int) (P Q : List Int) (x : Int) :
    ∀ (R L G : List Int), (∀ a ∈ R, keyed key a) → (∀ a ∈ L, sortVal key a < v) →
      (∀ a ∈ G, v ≤ sortVal key a) →
      ∃ L' G', partLoop key v R.length (P ++ (L ++ (G ++ (R ++ x :: Q)))) (P.length + L.length + G.length)
          (P.length + L.length) = .ok (P ++ (L' ++ (G' ++ x :: Q)), P.length + L'.length) ∧
        (L' ++ G').Perm (L ++ (G ++ R)) ∧ (∀ a ∈ L', sortVal key a < v) ∧ (∀ a ∈ G', v ≤ sortVal key a) := by
  intro R
  induction R with
  | nil =>
    intro L G _ hL hG
    exact ⟨L, G, by simp [partLoop], by simp, hL, hG⟩
  | cons r R ih =>
    intro L G hR hL hG
    have hR' : ∀ a ∈ R, keyed key a := fun a ha => hR a (by simp [ha])
    have hk := keyAtA_at (A := P ++ (L ++ (G ++ (r :: R ++ x :: Q)))) (i := P.length + L.length + G.length) key
      (P ++ (L ++ G)) r (R ++ x :: Q) (by simp) (by simp; omega) (hR r (by simp))
    simp only [List.length_cons, partLoop]
    rw [hk]
    simp only [Res.bind_ok]
    by_cases hlt : sortVal key r < v
    · rw [if_pos hlt]
      have hL' : ∀ a ∈ L ++ [r], sortVal key a < v := by
        intro a ha
        rcases List.mem_append.mp ha with h | h
        · exact hL a h
        · simp at h; subst h; exact hlt
      cases G with
      | nil =>
        have hs := swapA_eq (P ++ L) (R ++ x :: Q) r (P.length + L.length + ([] : List Int).length)
          (P.length + L.length) (by simp) (by simp)
        simp only [List.append_assoc, List.cons_append, List.nil_append, List.length_nil] at hs ⊢
        rw [hs]
        simp only [Res.bind_ok]
        obtain ⟨L', G', h1, h2, h3, h4⟩ := ih (L ++ [r]) [] hR' hL' (by simp)
        simp only [List.append_assoc, List.cons_append, List.nil_append, List.length_nil,
          List.length_append, List.length_cons] at h1
        refine ⟨L', G', ?_, ?_, h3, h4⟩
        · rw [← h1]; congr 1
        · simpa using h2
      | cons g G =>
        have hs := swapA_gt (P ++ L) G (R ++ x :: Q) g r (P.length + L.length)
          (P.length + L.length + (g :: G).length) (by simp) (by simp; omega)
        simp only [List.append_assoc, List.cons_append] at hs ⊢
        rw [hs]
        simp only [Res.bind_ok]
        obtain ⟨L', G', h1, h2, h3, h4⟩ := ih (L ++ [r]) (G ++ [g]) hR' hL' (by
          intro a ha
          rcases List.mem_append.mp ha with h | h
          · exact hG a (by simp [h])
          · simp at h; subst h; exact hG a (by simp))
        refine ⟨L', G', ?_, ?_, h3, h4⟩
        · rw [← h1]
          simp only [List.append_assoc, List.cons_append, List.nil_append, List.length_append,
            List.length_cons, List.length_nil]
          congr 1
          push_cast
          omega
        · refine h2.trans ?_
          have : (L ++ [r] ++ (G ++ [g] ++ R)).Perm (L ++ (g :: G ++ r :: R)) := by
            rw [List.append_assoc]
            apply List.Perm.append_left
            rw [show [r] ++ (G ++ [g] ++ R) = r :: (G ++ g :: R) by simp]
            rw [show g :: G ++ r :: R = g :: (G ++ r :: R) by simp]
            refine (List.Perm.cons r List.perm_middle).trans ?_
            refine (List.Perm.swap g r (G ++ R)).trans ?_
            exact List.Perm.cons g List.perm_middle.symm
          exact this
    · rw [if_neg hlt]
      obtain ⟨L', G', h1, h2, h3, h4⟩ := ih L (G ++ [r]) hR' hL (by
          intro a ha
          rcases List.mem_append.mp ha with h | h
          · exact hG a h
          · simp at h; subst h; omega)
      refine ⟨L', G', ?_, by simpa using h2, h3, h4⟩
      rw [← h1]
      simp only [List.append_assoc, List.cons_append, List.nil_append, List.length_append,
        List.length_cons, List.length_nil]
      congr 1

/-- The partition step in terms of a segment `S` of the array. -/
theorem partition_spec (key : Option (List Int)) (P S Q : List Int) (k : Nat) (hk : k < S.length)
    (hS : ∀ a ∈ S, keyed key a) :
    ∃ L x G, partition (P ++ (S ++ Q)) key P.length (P.length + S.length - 1) (P.length + k)
        = .ok (P ++ (L ++ (x :: (G ++ Q))), P.length + L.length) ∧
      (L ++ x :: G).Perm S ∧ (∀ a ∈ L, sortVal key a < sortVal key x) ∧
      (∀ a ∈ G, sortVal key x ≤ sortVal key a) := by
  obtain ⟨S1, x, S2, hSe, hS1⟩ : ∃ S1 x S2, S = S1 ++ x :: S2 ∧ S1.length = k :=
    ⟨S.take k, S[k], S.drop (k+1), by simp, by simp; omega⟩
  -- after the pivot has been moved to the end
  have hmove : ∃ R : List Int, swapA (P ++ (S ++ Q)) (P.length + S.length - 1) (P.length + k) =
      .ok (P ++ (R ++ x :: Q)) ∧ (R ++ [x]).Perm S ∧ R.length + 1 = S.length := by
    rcases List.eq_nil_or_concat S2 with h | ⟨S3, z, h⟩
    · subst h
      refine ⟨S1, ?_, by rw [hSe], by rw [hSe]; simp⟩
      have := swapA_eq (P ++ S1) Q x (P.length + S.length - 1) (P.length + k)
        (by rw [hSe]; simp; omega) (by simp; omega)
      rw [hSe] at this ⊢
      simpa using this
    · rw [List.concat_eq_append] at h
      subst h
      refine ⟨S1 ++ z :: S3, ?_, ?_, by rw [hSe]; simp; omega⟩
      · have := swapA_gt (P ++ S1) S3 Q x z (P.length + k) (P.length + S.length - 1)
          (by simp; omega) (by rw [hSe]; simp; omega)
        rw [hSe] at this ⊢
        simpa using this
      · rw [hSe, List.append_assoc]
        apply List.Perm.append_left
        rw [List.cons_append]
        refine (List.Perm.cons z List.perm_append_comm).trans ?_
        refine (List.Perm.swap x z S3).trans ?_
        exact List.Perm.cons x (by simpa using (List.perm_append_comm (l₁ := [z]) (l₂ := S3)))
  obtain ⟨R, hsw, hRp, hRl⟩ := hmove
  have hRk : ∀ a ∈ R, keyed key a := fun a ha => hS a (hRp.mem_iff.mp (by simp [ha]))
  have hxk : keyed key x := hS x (hRp.mem_iff.mp (by simp))
  have hpv := keyAtA_at (A := P ++ (S ++ Q)) (i := P.length + k) key (P ++ S1) x (S2 ++ Q)
    (by rw [hSe]; simp) (by simp; omega) hxk
  obtain ⟨L, G, h1, h2, h3, h4⟩ := partLoop_spec key (sortVal key x) P Q x R [] [] hRk (by simp) (by simp)
  unfold partition
  rw [hpv]
  simp only [Res.bind_ok]
  rw [hsw]
  simp only [Res.bind_ok]
  have hn : ((P.length : Int) + S.length - 1 - P.length).toNat = R.length := by omega
  rw [hn]
  simp only [List.nil_append, List.length_nil] at h1 h2
  rw [show (P.length : Int) + ((0:Nat):Int) + ((0:Nat):Int) = P.length by omega,
    show (P.length : Int) + ((0:Nat):Int) = P.length by omega] at h1
  rw [h1]
  simp only [Res.bind_ok]
  have hlen : L.length + G.length = R.length := by
    have := h2.length_eq; simpa using this
  cases G with
  | nil =>
    have := swapA_eq (P ++ L) Q x (P.length + L.length) (P.length + S.length - 1) (by simp)
      (by simp at hlen ⊢; omega)
    simp only [List.append_assoc, List.nil_append] at this ⊢
    rw [this]
    refine ⟨L, x, [], rfl, ?_, h3, by simp⟩
    simp only [List.append_nil] at h2
    exact (List.Perm.append_right [x] h2).trans hRp
  | cons g G =>
    have := swapA_lt (P ++ L) G Q g x (P.length + L.length) (P.length + S.length - 1) (by simp)
      (by simp at hlen ⊢; omega)
    simp only [List.append_assoc, List.cons_append] at this ⊢
    rw [this]
    refine ⟨L, x, G ++ [g], by simp, ?_, h3, ?_⟩
    · refine List.Perm.trans ?_ hRp
      have e : (L ++ x :: (G ++ [g])).Perm (L ++ g :: G ++ [x]) := by
        rw [List.append_assoc]
        apply List.Perm.append_left
        rw [List.cons_append]
        have a1 : (x :: (G ++ [g])).Perm (x :: g :: G) := List.Perm.cons x (by simpa using (List.perm_append_comm (l₁ := G) (l₂ := [g])))
        refine a1.trans ((List.Perm.swap g x G).trans (List.Perm.cons g ?_))
        simpa using (List.perm_append_comm (l₁ := [x]) (l₂ := G))
      exact e.trans (List.Perm.append_right [x] h2)
    · intro a ha
      rcases List.mem_append.mp ha with h | h
      · exact h4 a (by simp [h])
      · simp at h; subst h; exact h4 a (by simp)

/-- non-decreasing sort values -/
def SortedBy (key : Option (List Int)) (S : List Int) : Prop :=
  S.Pairwise (fun a b => sortVal key a ≤ sortVal key b)

theorem quicksort_segment (key : Option (List Int)) : ∀ (fuel : Nat) (P S Q : List Int),
    S.length < fuel → (∀ a ∈ S, keyed key a) →
    ∃ S', quicksort key fuel (P ++ (S ++ Q)) P.length (P.length + S.length - 1) = .ok (P ++ (S' ++ Q)) ∧
      S'.Perm S ∧ SortedBy key S' := by
  intro fuel
  induction fuel with
  | zero => intro P S Q h; omega
  | succ fuel ih =>
    intro P S Q hf hS
    simp only [quicksort]
    have hn : (P.length : Int) + S.length - 1 - P.length + 1 = S.length := by omega
    rw [hn]
    by_cases h1 : (S.length : Int) ≤ 1
    · rw [if_pos h1]
      refine ⟨S, rfl, List.Perm.refl _, ?_⟩
      match S, h1 with
      | [], _ => exact List.Pairwise.nil
      | [a], _ => exact List.pairwise_singleton _ _
      | a :: b :: l, h => simp at h; omega
    · rw [if_neg h1]
      by_cases h2 : (S.length : Int) = 2
      · rw [if_pos h2]
        match S, h2 with
        | [a, b], _ =>
          have ka := keyAtA_at (A := P ++ ([a, b] ++ Q)) (i := P.length) key P a (b :: Q) (by simp) rfl (hS a (by simp))
          have kb := keyAtA_at (A := P ++ ([a, b] ++ Q)) (i := P.length + ([a, b] : List Int).length - 1) key
            (P ++ [a]) b Q (by simp) (by simp; omega) (hS b (by simp))
          rw [ka, kb]
          simp only [Res.bind_ok, Res.pure_eq]
          by_cases hgt : sortVal key a > sortVal key b
          · rw [if_pos hgt]
            have := swapA_lt P [] Q a b P.length (P.length + ([a, b] : List Int).length - 1) rfl (by simp; omega)
            refine ⟨[b, a], by simpa using this, List.Perm.swap a b [], ?_⟩
            simp only [SortedBy, List.pairwise_cons, List.mem_singleton, forall_eq, List.not_mem_nil,
              false_imp_iff, implies_true, List.Pairwise.nil, and_true]
            omega
          · rw [if_neg hgt]
            refine ⟨[a, b], rfl, List.Perm.refl _, ?_⟩
            simp only [SortedBy, List.pairwise_cons, List.mem_singleton, forall_eq, List.not_mem_nil,
              false_imp_iff, implies_true, List.Pairwise.nil, and_true]
            omega
        | [], h => simp at h
        | [a], h => simp at h
        | a :: b :: c :: l, h => simp at h; omega
      · rw [if_neg h2]
        obtain ⟨L, x, G, hp, hperm, hL, hG⟩ := partition_spec key P S Q (S.length / 2) (by omega) hS
        have hdiv : (P.length : Int) + (S.length : Int) / 2 = P.length + (S.length / 2 : Nat) := by omega
        rw [hdiv, hp]
        simp only [Res.bind_ok]
        have hlen : L.length + G.length + 1 = S.length := by
          have := hperm.length_eq; simp at this; omega
        have hkL : ∀ a ∈ L, keyed key a := fun a ha => hS a (hperm.mem_iff.mp (by simp [ha]))
        have hkG : ∀ a ∈ G, keyed key a := fun a ha => hS a (hperm.mem_iff.mp (by simp [ha]))
        have fin : ∀ L' G', L'.Perm L → G'.Perm G → SortedBy key L' → SortedBy key G' →
            (L' ++ x :: G').Perm S ∧ SortedBy key (L' ++ x :: G') := by
          intro L' G' pL pG sL sG
          refine ⟨(List.Perm.append pL (List.Perm.cons x pG)).trans hperm, ?_⟩
          unfold SortedBy at *
          rw [List.pairwise_append, List.pairwise_cons]
          refine ⟨sL, ⟨fun a ha => hG a (pG.mem_iff.mp ha), sG⟩, ?_⟩
          intro a ha b hb
          have h1 := hL a (pL.mem_iff.mp ha)
          rcases List.mem_cons.mp hb with rfl | hb
          · omega
          · have := hG b (pG.mem_iff.mp hb); omega
        have stepL : ∀ G' : List Int, ∃ L', quicksort key fuel (P ++ (L ++ (x :: (G' ++ Q)))) P.length
            (P.length + L.length - 1) = .ok (P ++ (L' ++ (x :: (G' ++ Q)))) ∧ L'.Perm L ∧ SortedBy key L' :=
          fun G' => ih P L (x :: (G' ++ Q)) (by omega) hkL
        have stepG : ∀ L' : List Int, L'.length = L.length → ∃ G', quicksort key fuel (P ++ (L' ++ (x :: (G ++ Q))))
            (P.length + L.length + 1) (P.length + S.length - 1) = .ok (P ++ (L' ++ (x :: (G' ++ Q)))) ∧
            G'.Perm G ∧ SortedBy key G' := by
          intro L' hl
          obtain ⟨G', a1, a2, a3⟩ := ih (P ++ (L' ++ [x])) G Q (by omega) hkG
          refine ⟨G', ?_, a2, a3⟩
          have e1 : P ++ (L' ++ (x :: (G ++ Q))) = (P ++ (L' ++ [x])) ++ (G ++ Q) := by simp
          have e2 : (P.length : Int) + L.length + 1 = (P ++ (L' ++ [x])).length := by simp; omega
          have e3 : (P.length : Int) + S.length - 1 = (P ++ (L' ++ [x])).length + G.length - 1 := by simp; omega
          rw [e1, e2, e3, a1]; simp
        split
        · obtain ⟨L', b1, b2, b3⟩ := stepL G
          rw [b1]
          simp only [Res.bind_ok]
          obtain ⟨G', c1, c2, c3⟩ := stepG L' b2.length_eq
          rw [c1]
          obtain ⟨d1, d2⟩ := fin L' G' b2 c2 b3 c3
          exact ⟨L' ++ x :: G', by simp, d1, d2⟩
        · obtain ⟨G', c1, c2, c3⟩ := stepG L rfl
          rw [c1]
          simp only [Res.bind_ok]
          obtain ⟨L', b1, b2, b3⟩ := stepL G'
          rw [b1]
          obtain ⟨d1, d2⟩ := fin L' G' b2 c2 b3 c3
          exact ⟨L' ++ x :: G', by simp, d1, d2⟩

/-- **C11** For every array, with or without a key array in which all its entries can be looked up,
`mstk_quicksort(A, key, 0, n-1)` terminates (recursion depth at most n+1), never accesses either array out
of bounds, and leaves a permutation of the array with non-decreasing sort values. -/
theorem C11_quicksort_sorts (key : Option (List Int)) (A : List Int) (hA : ∀ a ∈ A, keyed key a) :
    ∃ A', quicksort key (A.length + 1) A 0 (A.length - 1) = .ok A' ∧ A'.Perm A ∧
      A'.Pairwise (fun a b => sortVal key a ≤ sortVal key b) := by
  obtain ⟨S', h1, h2, h3⟩ := quicksort_segment key (A.length + 1) [] A [] (by omega) hA
  refine ⟨S', ?_, h2, h3⟩
  simpa using h1

/-- **C11 (sub-range)** Sorting a sub-range leaves everything outside the range untouched. -/
theorem C11_quicksort_subrange (key : Option (List Int)) (P S Q : List Int) (hS : ∀ a ∈ S, keyed key a) :
    ∃ S', quicksort key (S.length + 1) (P ++ S ++ Q) P.length (P.length + S.length - 1) =
        .ok (P ++ S' ++ Q) ∧ S'.Perm S ∧ S'.Pairwise (fun a b => sortVal key a ≤ sortVal key b) := by
  obtain ⟨S', h1, h2, h3⟩ := quicksort_segment key (S.length + 1) P S Q (by omega) hS
  exact ⟨S', by simpa using h1, h2, h3⟩

/-- a wrong key array (an entry of `A` not covered) is undefined behaviour: the hypothesis is needed -/
example : quicksort (some [0]) 4 [0, 5, 0] 0 2 = .ub := by decide
example : (∀ a ∈ [3, 0, 2, 1], keyed (some [7, 7, 1, 9]) a) ∧
    quicksort (some [7, 7, 1, 9]) 5 [3, 0, 2, 1] 0 3 = .ok [2, 1, 0, 3] := by
  constructor
  · intro a ha; simp at ha; rcases ha with rfl | rfl | rfl | rfl <;> simp [keyed]
  · decide

end MSTK
