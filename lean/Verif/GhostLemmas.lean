import Verif.GhostModel
import Verif.MeshLemmas
import Verif.Props.RemSorted
/-!
Lemmas about the model of ghost lists and of the search by global ID: what each action does to the lists.
-/
namespace MSTK
namespace Ghost
open CList

/-! ## sorting -/

theorem ins_perm (g : Nat → Int) (a : Nat) (t : List Nat) : (MeshL.sortById.ins g a t).Perm (a :: t) := by
  induction t with
  | nil => exact List.Perm.refl _
  | cons b t ih =>
    unfold MeshL.sortById.ins
    split
    · exact List.Perm.refl _
    · exact (List.Perm.cons b ih).trans (List.Perm.swap a b t)

theorem insSort_perm (g : Nat → Int) (t : List Nat) : (MeshL.sortById.insSort g t).Perm t := by
  induction t with
  | nil => exact List.Perm.refl _
  | cons a t ih => exact (ins_perm g a _).trans (List.Perm.cons a ih)

theorem ins_sorted (g : Nat → Int) (a : Nat) {t : List Nat} (h : t.Pairwise fun x y => g x ≤ g y) :
    (MeshL.sortById.ins g a t).Pairwise fun x y => g x ≤ g y := by
  induction t with
  | nil => exact List.pairwise_singleton _ _
  | cons b t ih =>
    rw [List.pairwise_cons] at h
    unfold MeshL.sortById.ins
    split
    · rename_i hab
      rw [List.pairwise_cons]
      refine ⟨fun x hx => ?_, List.pairwise_cons.mpr h⟩
      rcases List.mem_cons.mp hx with rfl | hx
      · exact hab
      · have := h.1 x hx; omega
    · rename_i hab
      rw [List.pairwise_cons]
      refine ⟨fun x hx => ?_, ih h.2⟩
      rcases List.mem_cons.mp ((ins_perm g a t).mem_iff.mp hx) with rfl | hx
      · omega
      · exact h.1 x hx

theorem insSort_sorted (g : Nat → Int) (t : List Nat) :
    (MeshL.sortById.insSort g t).Pairwise fun x y => g x ≤ g y := by
  induction t with
  | nil => exact List.Pairwise.nil
  | cons a t ih => exact ins_sorted g a ih

theorem insSort_length (g : Nat → Int) (t : List Nat) : (MeshL.sortById.insSort g t).length = t.length :=
  (insSort_perm g t).length_eq

theorem isInt_sub {a b : Int} (ha : 0 ≤ a ∧ a < 2147483648) (hb : 0 ≤ b ∧ b < 2147483648) : isInt (a - b) := by
  unfold isInt; omega

theorem sortG_spec {l : CList Nat} (h : l.Inv) (hn : l.nrem = 0) {g : Nat → Int} {fr : Nat → Bool}
    (hr : ∀ v, 0 ≤ g v ∧ g v < 2147483648) (hl : ∀ v ∈ l.abs, fr v = false) {num : Nat} (hnum : num = l.abs.length) :
    ∃ l', sortG l g fr num = .ok l' ∧ l'.Inv ∧ l'.nrem = 0 ∧ l'.abs.Perm l.abs ∧
      l'.abs.Pairwise fun x y => g x ≤ g y := by
  have hc := h.cnt
  have hlen := h.len
  have hs : num = l.slots.length := by omega
  unfold sortG
  rw [if_neg (by omega), if_pos (by omega)]
  have ht : l.slots.take num = l.slots := by rw [hs]; simp
  have hd : l.slots.drop num = [] := by rw [hs]; simp
  simp only [ht, hd, List.append_nil]
  have hes : l.slots.filterMap id = l.abs := rfl
  rw [hes, if_pos (by
    rw [List.all_eq_true]
    intro v hv
    simp only [Bool.and_eq_true, Bool.not_eq_true', List.all_eq_true, decide_eq_true_eq]
    exact ⟨hl v hv, fun w _ => isInt_sub (hr v) (hr w)⟩)]
  have habs : ({ l with slots := (MeshL.sortById.insSort g l.abs).map some } : CList Nat).abs =
      MeshL.sortById.insSort g l.abs := by
    unfold abs
    simp [List.filterMap_map]
  refine ⟨_, rfl, ⟨?_, ?_, ?_, h.r0, ?_⟩, hn, ?_, ?_⟩
  · simp only [List.length_map, insSort_length]; omega
  · rw [habs, insSort_length]; exact hc
  · simp only [List.length_map, insSort_length]
    have := h.capb; omega
  · intro hh; exact absurd hn hh
  · rw [habs]; exact insSort_perm g _
  · rw [habs]; exact insSort_sorted g _

/-! ## lists -/

/-- a list, or NULL, whose entries are `L` in this order -/
def Holds (o : Option (CList Nat)) (L : List Nat) : Prop :=
  match o with
  | none => L = []
  | some l => l.Inv ∧ l.abs = L

/-- a list, or NULL, whose entries are those of `L` in increasing order of `g` -/
def Keeps (o : Option (CList Nat)) (g : Nat → Int) (L : List Nat) : Prop :=
  match o with
  | none => L = []
  | some l => l.Inv ∧ l.abs.Perm L ∧ l.abs.Pairwise fun x y => g x ≤ g y

theorem Holds.add {o : Option (CList Nat)} {L : List Nat} (h : Holds o L) (v : Nat) :
    ∃ l, (o.getD (CList.new 10)).add (some v) = .ok l ∧ Holds (some l) (L ++ [v]) := by
  cases o with
  | none =>
    obtain ⟨l, h1, h2, h3⟩ := add_spec (new_inv (α := Nat) 10) v
    refine ⟨l, h1, h2, ?_⟩
    rw [h3, new_abs, show L = [] from h]
  | some l0 =>
    obtain ⟨l, h1, h2, h3⟩ := add_spec h.1 v
    exact ⟨l, h1, h2, by rw [h3, h.2]⟩

theorem sortOne_spec {o : Option (CList Nat)} {L : List Nat} (h : Holds o L) {g : Nat → Int} {fr : Nat → Bool}
    (hr : ∀ v, 0 ≤ g v ∧ g v < 2147483648) (hl : ∀ v ∈ L, fr v = false) :
    ∃ o', sortOne g fr o = .ok o' ∧ Keeps o' g L := by
  cases o with
  | none => exact ⟨none, rfl, h⟩
  | some l =>
    obtain ⟨l1, h1, h2, h3, h4⟩ := compress_spec h.1
    obtain ⟨l2, e1, e2, e3, e4, e5⟩ := sortG_spec h2 h4 hr (fr := fr) (by rw [h3, h.2]; exact hl) (num := l1.numEntries)
      h2.cnt.symm
    refine ⟨some l2, ?_, e2, ?_, e5⟩
    · unfold sortOne; simp only [h1, Res.bind_ok, e1, Res.pure_eq]
    · rw [← h.2, ← h3]; exact e4

theorem traverse_list {l : CList Nat} (h : l.Inv) : MeshL.traverseFrom l (l.ntot + 1) 0 = .ok l.abs := by
  have := MeshL.traverseFrom_spec h (l.ntot + 1) [] l.slots rfl (by rw [h.ntot]; omega)
  exact this

theorem Keeps.listed {o : Option (CList Nat)} {g : Nat → Int} {L : List Nat} (h : Keeps o g L) :
    ∃ es, listed o = .ok es ∧ es.Perm L ∧ (es.Pairwise fun x y => g x ≤ g y) ∧ numIn o = L.length := by
  cases o with
  | none => exact ⟨[], rfl, by rw [show L = [] from h], List.Pairwise.nil, by rw [show L = [] from h]; rfl⟩
  | some l => exact ⟨l.abs, traverse_list h.1, h.2.1, h.2.2, by rw [← h.2.1.length_eq]; exact h.1.cnt.symm⟩

/-- removal of an entry from a sorted list -/
theorem Keeps.rem {l : CList Nat} {g : Nat → Int} {L : List Nat} (h : Keeps (some l) g L) (hd : (L.map g).Nodup)
    {v : Nat} (hv : v ∈ L) : ∃ l', l.remSorted (l.ntot + 1) v g = .ok (true, l') ∧ Keeps (some l') g (L.erase v) := by
  obtain ⟨h1, h2, h3⟩ := h
  have hnd : (l.abs.map g).Nodup := (h2.map g).nodup_iff.mpr hd
  have hs : (l.abs.map g).Pairwise (· < ·) := by
    rw [List.pairwise_map]
    rw [List.Nodup, List.pairwise_map] at hnd
    exact (h3.and hnd).imp fun ⟨a, b⟩ => by omega
  obtain ⟨l', e1, e2, e3⟩ := remSorted_spec h1 g hs (h2.mem_iff.mpr hv) (l.ntot + 1) (by omega)
  refine ⟨l', e1, e2, by rw [e3]; exact h2.erase v, ?_⟩
  rw [e3]
  exact h3.sublist List.erase_sublist

theorem buildLoop_spec {l : CList Nat} (h : l.Inv) (fuel : Nat) : ∀ (pre rest : List (Option Nat)) (s : St) (A B : List Nat),
    l.slots = pre ++ rest → rest.length < fuel → (∀ v ∈ rest.filterMap _root_.id, s.base.id v ≠ 0) →
    Holds s.gh A → Holds s.ov B →
    ∃ g o, buildLoop l fuel pre.length s = .ok { s with gh := g, ov := o } ∧
      Holds g (A ++ (rest.filterMap _root_.id).filter fun v => s.pt v = .ghost) ∧
      Holds o (B ++ (rest.filterMap _root_.id).filter fun v => s.pt v = .overlap) := by
  induction fuel with
  | zero => intros; omega
  | succ fuel ih =>
    intro pre rest s A B hs hf hid hA hB
    unfold buildLoop
    rcases next_spec h hs with ⟨h1, h2⟩ | ⟨m, a, post, h1, h2, h3⟩
    · rw [h2, h1]
      exact ⟨s.gh, s.ov, rfl, by simpa using hA, by simpa using hB⟩
    · rw [h3]
      simp only [Res.bind_ok]
      have hr : rest.filterMap _root_.id = a :: post.filterMap _root_.id := by
        rw [h1, List.filterMap_append, h2]; rfl
      have hlen : (pre ++ m ++ [some a]).length = pre.length + m.length + 1 := by simp; omega
      have hs' : l.slots = (pre ++ m ++ [some a]) ++ post := by rw [hs, h1]; simp
      have hf' : post.length < fuel := by rw [h1] at hf; simp at hf; omega
      have hida : s.base.id a ≠ 0 := hid a (by rw [hr]; simp)
      have hid' : ∀ v ∈ post.filterMap _root_.id, s.base.id v ≠ 0 := fun v hv => hid v (by
        rw [hr]; exact List.mem_cons_of_mem _ hv)
      rw [← hlen]
      by_cases hg : s.pt a = .ghost
      · obtain ⟨l1, e1, e2⟩ := hA.add a
        rw [if_pos hg]
        have hadd : s.addGhost a = .ok { s with gh := some l1 } := by
          unfold St.addGhost; simp only [e1, Res.bind_ok, if_neg hida, Res.pure_eq]
        rw [hadd]
        simp only [Res.bind_ok]
        obtain ⟨g, o, k1, k2, k3⟩ := ih _ _ { s with gh := some l1 } (A ++ [a]) B hs' hf' hid' e2 hB
        refine ⟨g, o, k1, ?_, ?_⟩
        · rw [hr, List.filter_cons_of_pos (by simpa using hg)]
          simpa using k2
        · rw [hr, List.filter_cons_of_neg (by simp [hg])]; exact k3
      · rw [if_neg hg]
        by_cases ho : s.pt a = .overlap
        · obtain ⟨l1, e1, e2⟩ := hB.add a
          rw [if_pos ho]
          have hadd : s.addOverlap a = .ok { s with ov := some l1 } := by
            unfold St.addOverlap; simp only [e1, Res.bind_ok, Res.pure_eq]
          rw [hadd]
          simp only [Res.bind_ok]
          obtain ⟨g, o, k1, k2, k3⟩ := ih _ _ { s with ov := some l1 } A (B ++ [a]) hs' hf' hid' hA e2
          refine ⟨g, o, k1, ?_, ?_⟩
          · rw [hr, List.filter_cons_of_neg (by simp [hg])]; exact k2
          · rw [hr, List.filter_cons_of_pos (by simpa using ho)]
            simpa using k3
        · rw [if_neg ho]
          obtain ⟨g, o, k1, k2, k3⟩ := ih _ _ s A B hs' hf' hid' hA hB
          refine ⟨g, o, k1, ?_, ?_⟩
          · rw [hr, List.filter_cons_of_neg (by simp [hg])]; exact k2
          · rw [hr, List.filter_cons_of_neg (by simp [ho])]; exact k3

/-! ## binary search -/

theorem bsearchG_spec {l : CList Nat} (h : l.Inv) (hn : l.nrem = 0) {g : Nat → Int} {fr : Nat → Bool}
    (hr : ∀ v, 0 ≤ g v ∧ g v < 2147483648) (hl : ∀ v ∈ l.abs, fr v = false)
    (hinc : l.abs.Pairwise fun x y => g x < g y) (k : Int) (hk : 0 ≤ k ∧ k < 2147483648) (fuel : Nat) :
    ∀ lo hi, hi ≤ l.abs.length → hi - lo < fuel → (∀ i v, l.abs[i]? = some v → g v = k → lo ≤ i ∧ i < hi) →
    bsearchG l g fr k fuel lo hi = MeshL.bsearch l g k fuel lo hi := by
  have hslots : ∀ i, i < l.abs.length → l.rd i = .ok l.abs[i]? := by
    have hall := all_some_of_len (s := l.slots) (by
      have h1 := h.cnt; have h2 := h.len; unfold abs at h1; omega)
    have hsl : l.slots = l.abs.map some := (MeshL.map_some_filterMap hall).symm
    intro i hi
    apply rd_eq h.capb
    rw [hsl, List.getElem?_map, List.getElem?_eq_getElem hi]; rfl
  induction fuel with
  | zero => intro lo hi _ hf; omega
  | succ fuel ih =>
    intro lo hi hh hf hkey
    have hmono : ∀ i j (hi : i < l.abs.length) (hj : j < l.abs.length), i < j → g l.abs[i] < g l.abs[j] := by
      intro i j hi hj hij
      exact (List.pairwise_iff_getElem.mp hinc) i j hi hj hij
    unfold bsearchG MeshL.bsearch
    by_cases hlt : lo < hi
    · rw [if_pos hlt, if_pos hlt]
      have hm : (lo + hi) / 2 < l.abs.length := by omega
      rw [hslots _ hm, List.getElem?_eq_getElem hm]
      simp only [Res.bind_ok]
      rw [if_neg (by rw [hl _ (List.getElem_mem hm)]; simp)]
      unfold cmpInt
      rw [if_pos (isInt_sub hk (hr _))]
      simp only [Res.bind_ok]
      by_cases h1 : k < g l.abs[(lo + hi) / 2]
      · rw [if_pos h1, if_pos (by omega)]
        apply ih _ _ (by omega) (by omega)
        intro i v hi hv
        have := hkey i v hi hv
        refine ⟨this.1, ?_⟩
        obtain ⟨hil, rfl⟩ := List.getElem?_eq_some_iff.mp hi
        by_contra hc
        rcases Nat.eq_or_lt_of_le (Nat.not_lt.mp hc) with he | he
        · subst he; omega
        · have := hmono _ _ hm hil he; omega
      · rw [if_neg h1, if_neg (by omega)]
        by_cases h2 : g l.abs[(lo + hi) / 2] < k
        · rw [if_pos h2, if_pos (by omega)]
          apply ih _ _ (by omega) (by omega)
          intro i v hi hv
          have := hkey i v hi hv
          refine ⟨?_, this.2⟩
          obtain ⟨hil, rfl⟩ := List.getElem?_eq_some_iff.mp hi
          by_contra hc
          rcases Nat.eq_or_lt_of_le (Nat.lt_succ_iff.mp (Nat.not_le.mp hc)) with he | he
          · subst he; omega
          · have := hmono _ _ hil hm he; omega
        · rw [if_neg h2, if_neg (by omega)]
    · rw [if_neg hlt, if_neg hlt]

/-! ## one kind after the other -/

/-- a condition on a kind that does not look at the flag shared by all kinds -/
def Blind (A : St → Prop) : Prop := ∀ s b, A s → A { s with base := { s.base with sorted := b } }

theorem forK_spec {f : St → Res St} {A B : Fin 4 → St → Prop} (hA : ∀ i, Blind (A i)) (hB : ∀ i, Blind (B i)) :
    ∀ (is : List (Fin 4)), is.Nodup → (∀ i ∈ is, ∀ s, A i s → ∃ s', f s = .ok s' ∧ B i s') →
    ∀ (m : M) (Q : Fin 4 → St → Prop), (∀ i, Blind (Q i)) → (∀ i, if i ∈ is then A i (m.k i) else Q i (m.k i)) →
    ∃ m', forK f is m = .ok m' ∧ m'.gsorted = m.gsorted ∧ ∀ i, if i ∈ is then B i (m'.k i) else Q i (m'.k i) := by
  intro is
  induction is with
  | nil =>
    intro _ _ m Q _ hm
    exact ⟨m, rfl, rfl, hm⟩
  | cons j is ih =>
    intro hnd hf m Q hQ hm
    rw [List.nodup_cons] at hnd
    have hj := hm j
    rw [if_pos (by simp)] at hj
    obtain ⟨s', e1, e2⟩ := hf j (by simp) _ hj
    obtain ⟨m', k1, k2, k3⟩ := ih hnd.2 (fun i hi => hf i (List.mem_cons_of_mem _ hi)) (m.set j s')
      (fun i s => if i = j then B i s else Q i s) (fun i s b h => by
        by_cases hij : i = j
        · simp only [if_pos hij] at *; exact hB i s b h
        · simp only [if_neg hij] at *; exact hQ i s b h) (fun i => by
        by_cases hij : i = j
        · subst hij
          rw [if_neg hnd.1, if_pos rfl]
          simpa [M.set] using e2
        · have hmi := hm i
          simp only [List.mem_cons, hij, false_or] at hmi
          by_cases hi : i ∈ is
          · rw [if_pos hi] at hmi ⊢
            simp only [M.set, if_neg hij]
            exact hA i _ _ hmi
          · rw [if_neg hi] at hmi ⊢
            rw [if_neg hij]
            simp only [M.set, if_neg hij]
            exact hQ i _ _ hmi)
    refine ⟨m', ?_, ?_, fun i => ?_⟩
    · unfold forK; simp only [e1, Res.bind_ok, k1]
    · rw [k2]; rfl
    · have := k3 i
      by_cases hij : i = j
      · subst hij
        rw [if_neg hnd.1, if_pos rfl] at this
        rw [if_pos (by simp)]; exact this
      · simp only [List.mem_cons, hij, false_or]
        simpa only [if_neg hij] using this

end Ghost
end MSTK
