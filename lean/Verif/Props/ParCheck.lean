import Verif.ParCheckLemmas
import Mathlib.Tactic.Linarith

/-!
C93: the check of the parallel information of a distributed mesh.
-/
namespace MSTK.Par

/-! ### specification -/

/-- the same geometric entity, where an unknown dimension agrees with every other one -/
def SameClass (o e : CKey) : Prop := o.gent = e.gent ∧ (o.gdim = e.gdim ∨ o.gdim = 4 ∨ e.gdim = 4)

/-- the coordinates differ by at most 10^-12 -/
def Near (a b : Rat × Rat × Rat) : Prop :=
  (a.1 - b.1 ≤ 1 / 1000000000000 ∧ b.1 - a.1 ≤ 1 / 1000000000000) ∧
  (a.2.1 - b.2.1 ≤ 1 / 1000000000000 ∧ b.2.1 - a.2.1 ≤ 1 / 1000000000000) ∧
  (a.2.2 - b.2.2 ≤ 1 / 1000000000000 ∧ b.2.2 - a.2.2 ≤ 1 / 1000000000000)

/-- the same end points -/
def SameEnds (a b : Int × Int) : Prop := a = b ∨ a = (b.2, b.1)

/-- `o` is an overlap entity with the global ID of the ghost `e` -/
def Original (o e : CKey) : Prop := o.ptype = pOverlap ∧ o.gid = e.gid

/-- Every ghost of an entity of partition `q` on another partition has its original on `q`, with the same
classification, and the same place or end points. -/
structure Backed (n : Nat) (m : Nat → CMesh) (q : Nat) : Prop where
  verts : ∀ p, p < n → p ≠ q → ∀ e ∈ (m p).verts, e.key.master = q →
    ∃ o ∈ (m q).verts, Original o.key e.key ∧ SameClass o.key e.key ∧ Near o.coor e.coor
  edges : ∀ p, p < n → p ≠ q → ∀ e ∈ (m p).edges, e.key.master = q →
    ∃ o ∈ (m q).edges, Original o.key e.key ∧ SameClass o.key e.key ∧ SameEnds o.ends e.ends
  faces : ∀ p, p < n → p ≠ q → ∀ e ∈ (m p).faces, e.key.master = q →
    ∃ o ∈ (m q).faces, Original o.key e.key ∧ SameClass o.key e.key
  regions : ∀ p, p < n → p ≠ q → ∀ e ∈ (m p).regions, e.key.master = q →
    ∃ o ∈ (m q).regions, Original o.key e.key ∧ o.key.gent = e.key.gent ∧ o.key.gdim = e.key.gdim

/-- the entities of one type -/
def CMesh.keys (m : CMesh) : Nat → List CKey
  | 0 => m.verts.map (·.key)
  | 1 => m.edges.map (·.key)
  | 2 => m.faces.map (·.key)
  | 3 => m.regions.map (·.key)
  | _ => []

/-- ghosts, and only they, belong to another partition -/
def Marked (p : Nat) (m : CMesh) : Prop := ∀ t, t < 4 → ∀ k ∈ m.keys t, (k.ptype = pGhost ↔ k.master ≠ p)

/-- What is assumed of the partitions, apart from what is checked. -/
structure Spread (n : Nat) (m : Nat → CMesh) : Prop where
  /-- the flags fit together, and tell of all ghosts -/
  flags : ∀ p, p < n → ∀ q, q < n → p ≠ q → ∀ t, t < 4 → (m p).ghosts t q = (m q).overlaps t p
  told : ∀ p, p < n → ∀ q, q < n → p ≠ q → ∀ t, t < 4 → ∀ k ∈ (m p).keys t, k.master = q → (m p).ghosts t q = true
  ranges : ∀ p, p < n → ∀ t, t < 4 → ∀ k ∈ (m p).keys t, k.gdim < 8 ∧ k.ptype < 4
  /-- local IDs, and global IDs of overlap entities, are distinct -/
  ids : ∀ p, p < n → ∀ t, t < 4 → ((m p).keys t).Pairwise fun a b => a.id ≠ b.id
  gids : ∀ p, p < n → ∀ t, t < 4 → (((m p).keys t).filter fun k => decide (k.ptype = pOverlap)).Pairwise
    fun a b => a.gid ≠ b.gid
  /-- all partitions have regions or none has -/
  solid : ∀ p, p < n → ∀ q, q < n → (m p).regions = [] → (m q).regions = []
  /-- a partition has no more ghosts of entities of another one than that has entities -/
  fit : ∀ p, p < n → ∀ q, q < n → p ≠ q → ∀ t, t < 4 →
    (((m p).keys t).filter fun k => decide (k.master = q)).length ≤ ((m q).keys t).length
  /-- faces and regions are not too large -/
  small : ∀ p, p < n → (∀ e ∈ (m p).faces, e.parts.length ≤ 200) ∧ ∀ e ∈ (m p).regions, e.parts.length ≤ 512
  /-- the originals of faces and regions exist -/
  found : ∀ p, p < n → ∀ q, q < n → p ≠ q → ∀ t, t = 2 ∨ t = 3 → ∀ k ∈ (m p).keys t, k.master = q →
    ∃ o ∈ (m q).keys t, Original o k

/-- all partitions about to call the function -/
def checkStart (n : Nat) (m : Nat → CMesh) : PNet CMsg (Res Bool) :=
  ⟨fun p => if p < n then parallelCheck n p (m p) else .ret (.ok true), fun _ _ => []⟩

/-! ### the single comparisons -/

theorem cmpCoor_near {a b : Rat × Rat × Rat} : cmpCoor coorTol a b = 0 ↔ Near a b := by
  unfold cmpCoor Near coorTol
  constructor
  · intro h
    split at h; · cases h
    split at h; · cases h
    split at h; · cases h
    split at h; · cases h
    split at h; · cases h
    split at h; · cases h
    refine ⟨⟨?_, ?_⟩, ⟨?_, ?_⟩, ⟨?_, ?_⟩⟩ <;> apply le_of_not_gt <;> assumption
  · rintro ⟨⟨h1, h2⟩, ⟨h3, h4⟩, ⟨h5, h6⟩⟩
    rw [if_neg (not_lt_of_ge h1), if_neg (not_lt_of_ge h2), if_neg (not_lt_of_ge h3), if_neg (not_lt_of_ge h4),
      if_neg (not_lt_of_ge h5), if_neg (not_lt_of_ge h6)]

theorem cmpEdge_ends {a b : Int × Int} : cmpEdge a b = 0 ↔ SameEnds a b := by
  obtain ⟨a1, a2⟩ := a
  obtain ⟨b1, b2⟩ := b
  unfold cmpEdge SameEnds
  simp only [Prod.mk.injEq]
  by_cases h1 : a1 < a2 <;> by_cases h2 : b1 < b2 <;> simp only [h1, h2, if_true, if_false] <;>
    constructor <;> intro h <;> first
      | (repeat' (split at h)) <;> first | (cases h; done) | omega

theorem distinct_of {α : Type} {key : α → CKey} {es : List α}
    (h1 : (es.map key).Pairwise fun a b => a.id ≠ b.id)
    (h2 : ((es.map key).filter fun k => decide (k.ptype = pOverlap)).Pairwise fun a b => a.gid ≠ b.gid) :
    Distinct key es := by
  constructor
  · rwa [List.pairwise_map] at h1
  · rw [List.filter_map, List.pairwise_map] at h2
    exact h2

theorem vertOk_iff {q : Nat} {vs : List CVert} (h : Distinct CVert.key vs) {e : CVert} (hr : InRange e.key)
    (hg : e.key.ptype = pGhost) (hm : e.key.master = q) : vertOk q vs e = true ↔
      ∃ o ∈ vs, Original o.key e.key ∧ SameClass o.key e.key ∧ Near o.coor e.coor := by
  unfold vertOk
  constructor
  · intro hv
    cases hf : findGid CVert.key vs e.key.gid with
    | none => rw [hf] at hv; cases hv
    | some o =>
      rw [hf] at hv
      dsimp only at hv
      obtain ⟨h1, h2, h3⟩ := findGid_sound h hf
      rw [Bool.and_eq_true] at hv
      have h4 := (agrees_packed hr).1 hv.1
      have h5 : cmpCoor coorTol o.coor e.coor = 0 := by simpa using hv.2
      refine ⟨o, h1, ⟨h2, h3⟩, ⟨h4.2.1, ?_⟩, cmpCoor_near.1 h5⟩
      rcases h4.1 with h | h
      · exact Or.inl h
      · exact Or.inr h.2
  · rintro ⟨o, h1, ⟨h2, h3⟩, ⟨h4, h5⟩, h6⟩
    rw [← h3, findGid_found h h1 h2]
    dsimp only
    rw [Bool.and_eq_true]
    refine ⟨(agrees_packed hr).2 ⟨?_, h4, hg, hm⟩, by simpa using cmpCoor_near.2 h6⟩
    rcases h5 with h5 | h5
    · exact Or.inl h5
    · exact Or.inr ⟨rfl, h5⟩

theorem edgeOk_iff {q : Nat} {es : List CEdge} (h : Distinct CEdge.key es) {e : CEdge} (hr : InRange e.key)
    (hg : e.key.ptype = pGhost) (hm : e.key.master = q) : edgeOk q es e = true ↔
      ∃ o ∈ es, Original o.key e.key ∧ SameClass o.key e.key ∧ SameEnds o.ends e.ends := by
  unfold edgeOk
  constructor
  · intro hv
    cases hf : findGid CEdge.key es e.key.gid with
    | none => rw [hf] at hv; cases hv
    | some o =>
      rw [hf] at hv
      dsimp only at hv
      obtain ⟨h1, h2, h3⟩ := findGid_sound h hf
      rw [Bool.and_eq_true] at hv
      have h4 := (agrees_packed hr).1 hv.1
      have h5 : cmpEdge o.ends e.ends = 0 := by simpa using hv.2
      refine ⟨o, h1, ⟨h2, h3⟩, ⟨h4.2.1, ?_⟩, cmpEdge_ends.1 h5⟩
      rcases h4.1 with h | h
      · exact Or.inl h
      · exact Or.inr h.2
  · rintro ⟨o, h1, ⟨h2, h3⟩, ⟨h4, h5⟩, h6⟩
    rw [← h3, findGid_found h h1 h2]
    dsimp only
    rw [Bool.and_eq_true]
    refine ⟨(agrees_packed hr).2 ⟨?_, h4, hg, hm⟩, by simpa using cmpEdge_ends.2 h6⟩
    rcases h5 with h5 | h5
    · exact Or.inl h5
    · exact Or.inr ⟨rfl, h5⟩

theorem cellOk_iff {unknown : Bool} {q : Nat} {cs : List CCell} (h : Distinct CCell.key cs) {e : CCell}
    (hr : InRange e.key) (hg : e.key.ptype = pGhost) (hm : e.key.master = q) : cellOk unknown q cs e = true ↔
      ∃ o ∈ cs, Original o.key e.key ∧ o.key.gent = e.key.gent ∧
        (o.key.gdim = e.key.gdim ∨ unknown = true ∧ (o.key.gdim = mUnknown ∨ e.key.gdim = mUnknown)) := by
  unfold cellOk
  constructor
  · intro hv
    cases hf : findGid CCell.key cs e.key.gid with
    | none => rw [hf] at hv; cases hv
    | some o =>
      rw [hf] at hv
      dsimp only at hv
      obtain ⟨h1, h2, h3⟩ := findGid_sound h hf
      have h4 := (agrees_packed hr).1 hv
      exact ⟨o, h1, ⟨h2, h3⟩, h4.2.1, h4.1⟩
  · rintro ⟨o, h1, ⟨h2, h3⟩, h4, h5⟩
    rw [← h3, findGid_found h h1 h2]
    exact (agrees_packed hr).2 ⟨h5, h4, hg, hm⟩

/-! ### the four checks -/

theorem verdict_iff {α : Type} {n me : Nat} {S : Stage} {es : Nat → List α} {key : α → CKey} {f : α → Bool}
    (told : ∀ i, i < n → i ≠ me → ∀ e ∈ es i, (key e).master = me → S.overlaps i = true) :
    verdict n me S (fun i => ((es i).filter fun e => decide ((key e).master = me)).all f) = true ↔
      ∀ i, i < n → i ≠ me → ∀ e ∈ es i, (key e).master = me → f e = true := by
  unfold verdict
  rw [List.all_eq_true]
  constructor
  · intro h i hi hne e he hm
    have := h i (List.mem_range.2 hi)
    rw [decide_eq_false hne, told i hi hne e he hm, Bool.false_or, Bool.not_true, Bool.false_or,
      List.all_eq_true] at this
    exact this e (List.mem_filter.2 ⟨he, decide_eq_true hm⟩)
  · intro h i hi
    have hi := List.mem_range.1 hi
    by_cases hne : i = me
    · rw [decide_eq_true hne]; rfl
    · by_cases ho : S.overlaps i = true
      · rw [ho, decide_eq_false hne, Bool.false_or, Bool.not_true, Bool.false_or, List.all_eq_true]
        intro e he
        obtain ⟨h1, h2⟩ := List.mem_filter.1 he
        exact h i hi hne e h1 (of_decide_eq_true h2)
      · rw [show S.overlaps i = false by simpa using ho]
        simp

theorem flat_length {α : Type} {f : α → List Int} {c : Nat} : ∀ {l : List α}, (∀ e ∈ l, (f e).length ≤ c) →
    (l.flatMap f).length ≤ c * l.length := by
  intro l
  induction l with
  | nil => intro _; simp
  | cons a l ih =>
    intro h
    rw [List.flatMap_cons, List.length_append, List.length_cons, Nat.mul_add, Nat.mul_one]
    have := ih fun e he => h e (List.mem_cons_of_mem _ he)
    have := h a List.mem_cons_self
    omega

theorem le_flat {α : Type} {f : α → List Int} : ∀ {l : List α}, (∀ e ∈ l, 1 ≤ (f e).length) →
    l.length ≤ (l.flatMap f).length := by
  intro l
  induction l with
  | nil => intro _; simp
  | cons a l ih =>
    intro h
    rw [List.flatMap_cons, List.length_append, List.length_cons]
    have := ih fun e he => h e (List.mem_cons_of_mem _ he)
    have := h a List.mem_cons_self
    omega

theorem filter_keys {α : Type} {key : α → CKey} {es : List α} {q : Nat} :
    ((es.map key).filter fun k => decide (k.master = q)).length =
      (es.filter fun e => decide ((key e).master = q)).length := by
  rw [List.filter_map, List.length_map]
  rfl

theorem vert_works {n : Nat} {m : Nat → CMesh} (h : Spread n m) {q : Nat} (hq : q < n) :
    Works n q (fun p => vertStage p (m p))
      (fun i => ((m i).verts.filter fun e => decide (e.key.master = q)).all (vertOk q (m q).verts)) := by
  refine ⟨fun _ _ _ _ _ => rfl, fun i hi hne => h.flags i hi q hq hne 0 (by omega), fun _ _ _ => rfl, ?_⟩
  intro i hi hne _ v
  have hfit := h.fit i hi q hq hne 0 (by omega)
  simp only [CMesh.keys] at hfit
  rw [filter_keys (key := CVert.key), List.length_map] at hfit
  have e1 := flat_length (f := fun e : CVert => [packClass e.key, packOwner e.key, e.key.gid]) (c := 3)
    (l := (m i).verts.filter fun e => decide (e.key.master = q)) (fun _ _ => Nat.le_refl _)
  have e2 : (vertInts (m i).verts q).length ≤ 3 * (m q).verts.length :=
    Nat.le_trans e1 (Nat.mul_le_mul_left 3 hfit)
  have e3 : (vertCoors (m i).verts q).length ≤ (m q).verts.length := by
    unfold vertCoors
    rw [List.length_map]
    exact hfit
  show (if _ then _ else _) = _
  rw [if_neg (by omega)]
  exact checkVerts_all q _ _ v

theorem edge_works {n : Nat} {m : Nat → CMesh} (h : Spread n m) {q : Nat} (hq : q < n) :
    Works n q (fun p => edgeStage p (m p))
      (fun i => ((m i).edges.filter fun e => decide (e.key.master = q)).all (edgeOk q (m q).edges)) := by
  refine ⟨fun _ _ _ _ _ => rfl, fun i hi hne => h.flags i hi q hq hne 1 (by omega), fun _ _ _ => rfl, ?_⟩
  intro i hi hne _ v
  have hfit := h.fit i hi q hq hne 1 (by omega)
  simp only [CMesh.keys] at hfit
  rw [filter_keys (key := CEdge.key), List.length_map] at hfit
  have e1 := flat_length (f := fun e : CEdge => [e.ends.1, e.ends.2, packClass e.key, packOwner e.key, e.key.gid])
    (c := 5) (l := (m i).edges.filter fun e => decide (e.key.master = q)) (fun _ _ => Nat.le_refl _)
  have e2 : (edgeInts (m i).edges q).length ≤ 5 * (m q).edges.length :=
    Nat.le_trans e1 (Nat.mul_le_mul_left 5 hfit)
  show (if _ then _ else _) = _
  rw [if_neg (by omega)]
  exact checkEdges_all q _ _ v

theorem cell_works {n q : Nat} {unknown : Bool} {cap : Nat} {cs : Nat → List CCell} {gh ov : Nat → Nat → Bool}
    (hq : q < n) (hf : ∀ i, i < n → i ≠ q → gh i q = ov q i)
    (hsmall : ∀ i, i < n → ∀ e ∈ cs i, e.parts.length ≤ cap)
    (hfit : ∀ i, i < n → i ≠ q → ((cs i).filter fun e => decide (e.key.master = q)).length ≤ (cs q).length)
    (hd : Distinct CCell.key (cs q))
    (hfound : ∀ i, i < n → i ≠ q → ∀ e ∈ cs i, e.key.master = q → ∃ o ∈ cs q, Original o.key e.key) :
    Works n q (fun p => cellStage unknown cap p (cs p) (gh p) (ov p))
      (fun i => ((cs i).filter fun e => decide (e.key.master = q)).all (cellOk unknown q (cs q))) := by
  have hlen : ∀ i, i < n → ∀ j, (cellInts (cs i) j).length ≤
      (cap + 4) * ((cs i).filter fun e => decide (e.key.master = j)).length := by
    intro i hi j
    refine flat_length ?_
    intro e he
    have := hsmall i hi e (List.mem_filter.1 he).1
    simp only [List.length_cons, List.length_append, List.length_nil]
    omega
  refine ⟨?_, hf, fun _ _ _ => rfl, ?_⟩
  · intro i hi hne max hmax
    have h1 := hlen q hq i
    have h2 : ((cs q).filter fun e => decide (e.key.master = i)).length ≤ max :=
      Nat.le_trans (List.length_filter_le _ _) hmax
    have h3 := Nat.mul_le_mul_left (cap + 4) h2
    exact decide_eq_false (by omega)
  · intro i hi hne _ v
    have h1 := hlen i hi q
    have h3 := Nat.mul_le_mul_left (cap + 4) (hfit i hi hne)
    show (if _ then _ else _) = _
    rw [if_neg (by omega)]
    refine checkCells_all unknown q _ _ v _ ?_ ?_
    · refine Nat.lt_succ_of_le (le_flat ?_)
      intro e _
      simp
    · intro e he
      obtain ⟨h4, h5⟩ := List.mem_filter.1 he
      obtain ⟨o, h6, h7, h8⟩ := hfound i hi hne e h4 (of_decide_eq_true h5)
      rw [← h8, findGid_found hd h6 h7]
      rfl

theorem checkGhost_iff {p : Nat} {m : CMesh} : checkGhost p m = true ↔ Marked p m := by
  have one : ∀ k : CKey, markedRight p k = true ↔ (k.ptype = pGhost ↔ k.master ≠ p) := by
    intro k
    unfold markedRight
    by_cases h : k.ptype = pGhost
    · rw [if_pos h]; simp [h]
    · rw [if_neg h]; simp [h]
  have hreg : (if m.regions.length = 0 then true else m.regions.all fun e => markedRight p e.key) =
      m.regions.all fun e => markedRight p e.key := by
    split
    · rename_i h0
      rw [List.length_eq_zero_iff.1 h0]; rfl
    · rfl
  unfold checkGhost
  rw [hreg]
  simp only [Bool.and_eq_true, List.all_eq_true, one]
  constructor
  · rintro ⟨⟨⟨h0, h1⟩, h2⟩, h3⟩ t ht k hk
    match t, ht with
    | 0, _ => obtain ⟨e, he, rfl⟩ := List.mem_map.1 hk; exact h0 e he
    | 1, _ => obtain ⟨e, he, rfl⟩ := List.mem_map.1 hk; exact h1 e he
    | 2, _ => obtain ⟨e, he, rfl⟩ := List.mem_map.1 hk; exact h2 e he
    | 3, _ => obtain ⟨e, he, rfl⟩ := List.mem_map.1 hk; exact h3 e he
  · intro h
    exact ⟨⟨⟨fun e he => h 0 (by omega) _ (List.mem_map_of_mem (f := CVert.key) he),
      fun e he => h 1 (by omega) _ (List.mem_map_of_mem (f := CEdge.key) he)⟩,
      fun e he => h 2 (by omega) _ (List.mem_map_of_mem (f := CCell.key) he)⟩,
      fun e he => h 3 (by omega) _ (List.mem_map_of_mem (f := CCell.key) he)⟩

/-! ### the property -/

/-- **C93 (ghosts and owners).**  A partition whose ghosts are not marked as they should be answers 0. -/
theorem C93_marks {n p : Nat} (hn : n ≠ 1) {m : CMesh} (h : ¬ Marked p m) : parallelCheck n p m = .ret (.ok false) := by
  unfold parallelCheck
  rw [if_neg hn, if_neg (fun hc => h (checkGhost_iff.1 hc))]

/-- **C93.**  Partial: for partitions that are marked as they should be, all with or all without regions,
with originals of all ghost faces and regions (else see the negations); edges of faces and faces of regions
are not compared.  The check ends for every schedule, and a partition answers 1 exactly if the ghosts of its
entities agree with them. -/
theorem C93_check_partial {n : Nat} {m : Nat → CMesh} (h : Spread n m) (hm : ∀ p, p < n → Marked p (m p)) :
    ∃ bound, ∀ steps net, PExec steps (checkStart n m) net →
      steps ≤ bound ∧
      (¬ net.done → ∃ net', PMust net net') ∧
      (net.done → ∀ p, p < n → ∃ b, net.run p = .ret (.ok b) ∧ (b = true ↔ Backed n m p)) := by
  by_cases hn : n = 1
  · subst hn
    have hscript : Script 1 fun p => if p < 1 then phasesTrace (M := CMsg) 1 0 [] p else [] := many_phases 1 []
    have hf : ∀ p, Follows ((checkStart 1 m).run p) (if p < 1 then phasesTrace (M := CMsg) 1 0 [] p else []) (.ok true) := by
      intro p
      have e1 : (checkStart 1 m).run p = .ret (.ok true) := by
        unfold checkStart parallelCheck
        simp
      have e2 : (if p < 1 then phasesTrace (M := CMsg) 1 0 [] p else []) = [] := by
        split <;> rfl
      rw [e1, e2]
      exact Follows.ret _
    refine ⟨left (M := CMsg) 1 fun p => if p < 1 then phasesTrace 1 0 [] p else [], fun steps net hx => ?_⟩
    obtain ⟨r1, r2, r3⟩ := script_runs hscript hf hx
    refine ⟨r1, r2, fun hd p hp => ⟨true, r3 hd p, fun _ => ?_, fun _ => rfl⟩⟩
    constructor <;> intro p' hp' hne <;> omega
  · have hdist : ∀ p, p < n → Distinct CVert.key (m p).verts ∧ Distinct CEdge.key (m p).edges ∧
        Distinct CCell.key (m p).faces ∧ Distinct CCell.key (m p).regions := fun p hp =>
      ⟨distinct_of (h.ids p hp 0 (by omega)) (h.gids p hp 0 (by omega)),
        distinct_of (h.ids p hp 1 (by omega)) (h.gids p hp 1 (by omega)),
        distinct_of (h.ids p hp 2 (by omega)) (h.gids p hp 2 (by omega)),
        distinct_of (h.ids p hp 3 (by omega)) (h.gids p hp 3 (by omega))⟩
    -- the answers of the four checks
    let bV : Nat → Nat → Bool := fun q i => ((m i).verts.filter fun e => decide (e.key.master = q)).all (vertOk q (m q).verts)
    let bE : Nat → Nat → Bool := fun q i => ((m i).edges.filter fun e => decide (e.key.master = q)).all (edgeOk q (m q).edges)
    let bF : Nat → Nat → Bool := fun q i =>
      ((m i).faces.filter fun e => decide (e.key.master = q)).all (cellOk true q (m q).faces)
    let bR : Nat → Nat → Bool := fun q i =>
      ((m i).regions.filter fun e => decide (e.key.master = q)).all (cellOk false q (m q).regions)
    let sV : Nat → Stage := fun p => vertStage p (m p)
    let sE : Nat → Stage := fun p => edgeStage p (m p)
    let sF : Nat → Stage := fun p => cellStage true maxPV3 p (m p).faces ((m p).ghosts 2) ((m p).overlaps 2)
    let sR : Nat → Stage := fun p => cellStage false maxPF3 p (m p).regions ((m p).ghosts 3) ((m p).overlaps 3)
    let A : Nat → Bool := fun q => verdict n q (sV q) (bV q) && verdict n q (sE q) (bE q) && verdict n q (sF q) (bF q)
    have fitc : ∀ (t : Nat) (ht : t < 4) (cs : CMesh → List CCell) (hk : ∀ M : CMesh, M.keys t = (cs M).map (·.key))
        (q : Nat) (_ : q < n) (i : Nat), i < n → i ≠ q →
        ((cs (m i)).filter fun e => decide (e.key.master = q)).length ≤ (cs (m q)).length := by
      intro t ht cs hk q hq i hi hne
      have := h.fit i hi q hq hne t ht
      rw [hk, hk, filter_keys (key := CCell.key), List.length_map] at this
      exact this
    have foundc : ∀ (t : Nat) (ht : t = 2 ∨ t = 3) (cs : CMesh → List CCell)
        (hk : ∀ M : CMesh, M.keys t = (cs M).map (·.key)) (q : Nat) (_ : q < n) (i : Nat), i < n → i ≠ q →
        ∀ e ∈ cs (m i), e.key.master = q → ∃ o ∈ cs (m q), Original o.key e.key := by
      intro t ht cs hk q hq i hi hne e he hmas
      obtain ⟨o, h1, h2⟩ := h.found i hi q hq hne t ht e.key (by rw [hk]; exact List.mem_map_of_mem (f := CCell.key) he) hmas
      rw [hk] at h1
      obtain ⟨o', h3, rfl⟩ := List.mem_map.1 h1
      exact ⟨o', h3, h2⟩
    have wF : ∀ q, q < n → Works n q sF (bF q) := fun q hq =>
      cell_works (gh := fun p => (m p).ghosts 2) (ov := fun p => (m p).overlaps 2) (cs := fun p => (m p).faces) hq
        (fun i hi hne => h.flags i hi q hq hne 2 (by omega)) (fun i hi => (h.small i hi).1)
        (fitc 2 (by omega) CMesh.faces (fun _ => rfl) q hq) (hdist q hq).2.2.1
        (foundc 2 (Or.inl rfl) CMesh.faces (fun _ => rfl) q hq)
    have wR : ∀ q, q < n → Works n q sR (bR q) := fun q hq =>
      cell_works (gh := fun p => (m p).ghosts 3) (ov := fun p => (m p).overlaps 3) (cs := fun p => (m p).regions) hq
        (fun i hi hne => h.flags i hi q hq hne 3 (by omega)) (fun i hi => (h.small i hi).2)
        (fitc 3 (by omega) CMesh.regions (fun _ => rfl) q hq) (hdist q hq).2.2.2
        (foundc 3 (Or.inr rfl) CMesh.regions (fun _ => rfl) q hq)
    -- what the answers say
    have told : ∀ (t : Nat) (ht : t < 4) (q : Nat) (_ : q < n) (i : Nat), i < n → i ≠ q → ∀ k ∈ (m i).keys t,
        k.master = q → (m q).overlaps t i = true := by
      intro t ht q hq i hi hne k hk hmas
      rw [← h.flags i hi q hq hne t ht]
      exact h.told i hi q hq hne t ht k hk hmas
    have ghost : ∀ (t : Nat) (ht : t < 4) (q i : Nat), i < n → i ≠ q → ∀ k ∈ (m i).keys t, k.master = q →
        InRange k ∧ k.ptype = pGhost := by
      intro t ht q i hi hne k hk hmas
      refine ⟨h.ranges i hi t ht k hk, (hm i hi t ht k hk).2 ?_⟩
      rw [hmas]
      exact fun hc => hne hc.symm
    have mV : ∀ i e, e ∈ (m i).verts → e.key ∈ (m i).keys 0 := fun i e he => List.mem_map_of_mem (f := CVert.key) he
    have mE : ∀ i e, e ∈ (m i).edges → e.key ∈ (m i).keys 1 := fun i e he => List.mem_map_of_mem (f := CEdge.key) he
    have mF : ∀ i e, e ∈ (m i).faces → e.key ∈ (m i).keys 2 := fun i e he => List.mem_map_of_mem (f := CCell.key) he
    have mR : ∀ i e, e ∈ (m i).regions → e.key ∈ (m i).keys 3 := fun i e he => List.mem_map_of_mem (f := CCell.key) he
    have vV : ∀ q, q < n → (verdict n q (sV q) (bV q) = true ↔ ∀ p, p < n → p ≠ q → ∀ e ∈ (m p).verts, e.key.master = q →
        ∃ o ∈ (m q).verts, Original o.key e.key ∧ SameClass o.key e.key ∧ Near o.coor e.coor) := by
      intro q hq
      rw [verdict_iff (key := CVert.key) (es := fun i => (m i).verts)
        (fun i hi hne e he hmas => told 0 (by omega) q hq i hi hne _ (mV i e he) hmas)]
      constructor <;> intro H i hi hne e he hmas
      · obtain ⟨g1, g2⟩ := ghost 0 (by omega) q i hi hne _ (mV i e he) hmas
        exact (vertOk_iff (hdist q hq).1 g1 g2 hmas).1 (H i hi hne e he hmas)
      · obtain ⟨g1, g2⟩ := ghost 0 (by omega) q i hi hne _ (mV i e he) hmas
        exact (vertOk_iff (hdist q hq).1 g1 g2 hmas).2 (H i hi hne e he hmas)
    have vE : ∀ q, q < n → (verdict n q (sE q) (bE q) = true ↔ ∀ p, p < n → p ≠ q → ∀ e ∈ (m p).edges, e.key.master = q →
        ∃ o ∈ (m q).edges, Original o.key e.key ∧ SameClass o.key e.key ∧ SameEnds o.ends e.ends) := by
      intro q hq
      rw [verdict_iff (key := CEdge.key) (es := fun i => (m i).edges)
        (fun i hi hne e he hmas => told 1 (by omega) q hq i hi hne _ (mE i e he) hmas)]
      constructor <;> intro H i hi hne e he hmas
      · obtain ⟨g1, g2⟩ := ghost 1 (by omega) q i hi hne _ (mE i e he) hmas
        exact (edgeOk_iff (hdist q hq).2.1 g1 g2 hmas).1 (H i hi hne e he hmas)
      · obtain ⟨g1, g2⟩ := ghost 1 (by omega) q i hi hne _ (mE i e he) hmas
        exact (edgeOk_iff (hdist q hq).2.1 g1 g2 hmas).2 (H i hi hne e he hmas)
    have vF : ∀ q, q < n → (verdict n q (sF q) (bF q) = true ↔ ∀ p, p < n → p ≠ q → ∀ e ∈ (m p).faces, e.key.master = q →
        ∃ o ∈ (m q).faces, Original o.key e.key ∧ SameClass o.key e.key) := by
      intro q hq
      rw [verdict_iff (key := CCell.key) (es := fun i => (m i).faces)
        (fun i hi hne e he hmas => told 2 (by omega) q hq i hi hne _ (mF i e he) hmas)]
      constructor <;> intro H i hi hne e he hmas
      · obtain ⟨g1, g2⟩ := ghost 2 (by omega) q i hi hne _ (mF i e he) hmas
        obtain ⟨o, h1, h2, h3, h4⟩ := (cellOk_iff (hdist q hq).2.2.1 g1 g2 hmas).1 (H i hi hne e he hmas)
        exact ⟨o, h1, h2, h3, h4.imp id (fun h => h.2)⟩
      · obtain ⟨g1, g2⟩ := ghost 2 (by omega) q i hi hne _ (mF i e he) hmas
        obtain ⟨o, h1, h2, h3, h4⟩ := H i hi hne e he hmas
        exact (cellOk_iff (hdist q hq).2.2.1 g1 g2 hmas).2 ⟨o, h1, h2, h3, h4.imp id (fun h => ⟨rfl, h⟩)⟩
    have vR : ∀ q, q < n → (verdict n q (sR q) (bR q) = true ↔ ∀ p, p < n → p ≠ q → ∀ e ∈ (m p).regions, e.key.master = q →
        ∃ o ∈ (m q).regions, Original o.key e.key ∧ o.key.gent = e.key.gent ∧ o.key.gdim = e.key.gdim) := by
      intro q hq
      rw [verdict_iff (key := CCell.key) (es := fun i => (m i).regions)
        (fun i hi hne e he hmas => told 3 (by omega) q hq i hi hne _ (mR i e he) hmas)]
      constructor <;> intro H i hi hne e he hmas
      · obtain ⟨g1, g2⟩ := ghost 3 (by omega) q i hi hne _ (mR i e he) hmas
        obtain ⟨o, h1, h2, h3, h4⟩ := (cellOk_iff (hdist q hq).2.2.2 g1 g2 hmas).1 (H i hi hne e he hmas)
        exact ⟨o, h1, h2, h3, h4.resolve_right (fun h => Bool.false_ne_true h.1)⟩
      · obtain ⟨g1, g2⟩ := ghost 3 (by omega) q i hi hne _ (mR i e he) hmas
        obtain ⟨o, h1, h2, h3, h4⟩ := H i hi hne e he hmas
        exact (cellOk_iff (hdist q hq).2.2.2 g1 g2 hmas).2 ⟨o, h1, h2, h3, Or.inl h4⟩
    -- the run
    have main : ∃ (ps : List (Nat → Nat → List CMsg)) (a : Nat → Bool),
        (∀ p, p < n → Follows (checkGlobal n p (m p)) (phasesTrace n 0 ps p) (.ok (a p))) ∧
        ∀ p, p < n → (a p = true ↔ Backed n m p) := by
      by_cases hr : ∀ p, p < n → (m p).regions = []
      · refine ⟨[fun p _ => [.count (sV p).num], sentIn sV, fun p _ => [.count (sE p).num], sentIn sE,
          fun p _ => [.count (sF p).num], sentIn sF], A, ?_, ?_⟩
        · intro p hp
          unfold checkGlobal phasesTrace phasesTrace
          refine follows_runStage (vert_works h hp) ?_
          unfold phasesTrace phasesTrace
          refine follows_runStage (edge_works h hp) ?_
          unfold phasesTrace phasesTrace
          refine follows_runStage (S := sF) (wF p hp) ?_
          unfold phasesTrace
          rw [hr p hp, if_neg (fun h => h List.length_nil)]
          exact Follows.ret _
        · intro p hp
          show (_ && _ && _) = true ↔ _
          rw [Bool.and_eq_true, Bool.and_eq_true, vV p hp, vE p hp, vF p hp]
          constructor
          · rintro ⟨⟨h1, h2⟩, h3⟩
            exact ⟨h1, h2, h3, fun i hi _ e he => by rw [hr i hi] at he; cases he⟩
          · intro H
            exact ⟨⟨H.verts, H.edges⟩, H.faces⟩
      · have hr' : ∀ p, p < n → (m p).regions.length ≠ 0 := by
          intro p hp hc
          exact hr fun q hq => h.solid p hp q hq (List.length_eq_zero_iff.1 hc)
        refine ⟨[fun p _ => [.count (sV p).num], sentIn sV, fun p _ => [.count (sE p).num], sentIn sE,
          fun p _ => [.count (sF p).num], sentIn sF, fun p _ => [.count (sR p).num], sentIn sR],
          fun p => A p && verdict n p (sR p) (bR p), ?_, ?_⟩
        · intro p hp
          unfold checkGlobal phasesTrace phasesTrace
          refine follows_runStage (vert_works h hp) ?_
          unfold phasesTrace phasesTrace
          refine follows_runStage (edge_works h hp) ?_
          unfold phasesTrace phasesTrace
          refine follows_runStage (S := sF) (wF p hp) ?_
          unfold phasesTrace phasesTrace
          rw [if_pos (hr' p hp)]
          refine follows_runStage (S := sR) (wR p hp) ?_
          unfold phasesTrace
          exact Follows.ret _
        · intro p hp
          show (_ && _ && _ && _) = true ↔ _
          rw [Bool.and_eq_true, Bool.and_eq_true, Bool.and_eq_true, vV p hp, vE p hp, vF p hp, vR p hp]
          constructor
          · rintro ⟨⟨⟨h1, h2⟩, h3⟩, h4⟩
            exact ⟨h1, h2, h3, h4⟩
          · intro H
            exact ⟨⟨⟨H.verts, H.edges⟩, H.faces⟩, H.regions⟩
    obtain ⟨ps, a, hfol, hans⟩ := main
    have hf : ∀ p, Follows ((checkStart n m).run p) (if p < n then phasesTrace n 0 ps p else [])
        (if p < n then .ok (a p) else .ok true) := by
      intro p
      unfold checkStart
      dsimp only
      by_cases hp : p < n
      · rw [if_pos hp, if_pos hp, if_pos hp]
        unfold parallelCheck
        rw [if_neg hn, if_pos (checkGhost_iff.2 (hm p hp))]
        exact hfol p hp
      · rw [if_neg hp, if_neg hp, if_neg hp]
        exact Follows.ret _
    refine ⟨left n fun p => if p < n then phasesTrace n 0 ps p else [], fun steps net hx => ?_⟩
    obtain ⟨r1, r2, r3⟩ := script_runs (many_phases n ps) hf hx
    refine ⟨r1, r2, fun hd p hp => ⟨a p, ?_, hans p hp⟩⟩
    rw [r3 hd p, if_pos hp]

/-! ### what the check does not do -/

/-- the program needs a message from `p` before it can return -/
inductive Waits {M A : Type} (p : Nat) : Proc M A → Prop
  | here (k : M → Proc M A) : Waits p (.recv p k)
  | send {q : Nat} {m : M} {k : Proc M A} : Waits p k → Waits p (.send q m k)
  | recv {q : Nat} {k : M → Proc M A} : (∀ m, Waits p (k m)) → Waits p (.recv q k)

theorem waits_sendAll {M A : Type} {p i : Nat} {k : Proc M A} (h : Waits p k) : ∀ l : List M, Waits p (sendAll i l k)
  | [] => h
  | _ :: l => Waits.send (waits_sendAll h l)

theorem waits_recvN {M A : Type} {p i : Nat} : ∀ (n : Nat) {k : List M → Proc M A}, (∀ l, Waits p (k l)) →
    Waits p (recvN i n k)
  | 0, _, h => h []
  | n+1, _, h => Waits.recv fun m => waits_recvN n fun l => h (m :: l)

theorem waits_rounds {M A : Type} {p me : Nat} (hne : p ≠ me) {out : Nat → List M} {inn : Nat → Nat} (hin : inn p ≠ 0)
    {k : (Nat → List M) → Proc M A} : ∀ (is : List Nat) (got : Nat → List M), p ∈ is → Waits p (rounds me out inn is got k) := by
  intro is
  induction is with
  | nil => intro got h; cases h
  | cons i r ih =>
    intro got h
    unfold rounds
    by_cases hi : i = me
    · rw [if_pos hi]
      exact ih got ((List.mem_cons.1 h).resolve_left (fun e => hne (e.trans hi)))
    · rw [if_neg hi]
      unfold swap
      by_cases hp : i = p
      · subst hp
        obtain ⟨c, hc⟩ := Nat.exists_eq_succ_of_ne_zero hin
        rw [hc]
        split
        · exact waits_sendAll (Waits.here _) _
        · exact Waits.here _
      · have ih := fun got => ih got ((List.mem_cons.1 h).resolve_left (fun e => hp e.symm))
        split
        · exact waits_sendAll (waits_recvN _ fun l => ih _) _
        · exact waits_recvN _ fun l => waits_sendAll (ih _) _

/-- A partition that waits for one that has returned does so for ever. -/
theorem never_done {M A : Type} {p q : Nat} {s : PNet M A} {a : A} (hp : s.run p = .ret a)
    (hc : s.chan p q = []) (hw : Waits p (s.run q)) {k : Nat} {s' : PNet M A} (hx : PExec k s s') : ¬ s'.done := by
  have inv : (∃ a, s'.run p = .ret a) ∧ s'.chan p q = [] ∧ Waits p (s'.run q) := by
    induction hx with
    | refl => exact ⟨⟨a, hp⟩, hc, hw⟩
    | @step k s1 s2 s3 _ hm ih =>
      obtain ⟨⟨a, i1⟩, i2, i3⟩ := ih hp hc hw
      have notp : ∀ {x : Nat} {P : Proc M A}, s2.run x = P → (∀ b, P ≠ .ret b) → p ≠ x := by
        intro x P hx hP hc
        subst hc
        exact hP a (hx.symm.trans i1)
      cases hm with
      | must hm =>
        cases hm with
        | @take p' q' m k ms h1 h2 =>
          have hq' := notp h1 (fun _ h => nomatch h)
          refine ⟨⟨a, ?_⟩, ?_, ?_⟩
          · show put _ _ _ p = _
            rw [put_ne _ _ hq']; exact i1
          · show put2 _ _ _ _ p q = _
            unfold put2
            by_cases hcc : p = p' ∧ q = q'
            · obtain ⟨rfl, rfl⟩ := hcc
              rw [i2] at h2
              cases h2
            · rw [if_neg hcc]; exact i2
          · show Waits p (put _ _ _ q)
            by_cases hq : q = q'
            · subst hq
              rw [put_same]
              rw [h1] at i3
              cases i3 with
              | here => rw [i2] at h2; cases h2
              | recv h => exact h m
            · rw [put_ne _ _ hq]; exact i3
        | @meet p' q' m k k' h1 h2 h3 =>
          have hp' := notp h1 (fun _ h => nomatch h)
          have hq' := notp h2 (fun _ h => nomatch h)
          refine ⟨⟨a, ?_⟩, i2, ?_⟩
          · show put (put _ _ _) _ _ p = _
            rw [put_ne _ _ hq', put_ne _ _ hp']; exact i1
          · show Waits p (put (put _ _ _) _ _ q)
            by_cases hq : q = q'
            · subst hq
              rw [put_same]
              rw [h2] at i3
              cases i3 with
              | here => exact absurd rfl hp'
              | recv h => exact h m
            · rw [put_ne _ _ hq]
              by_cases hqp : q = p'
              · subst hqp
                rw [put_same]
                rw [h1] at i3
                cases i3 with
                | send h => exact h
              · rw [put_ne _ _ hqp]; exact i3
      | @buffer p' q' m k h1 =>
        have hp' := notp h1 (fun _ h => nomatch h)
        refine ⟨⟨a, ?_⟩, ?_, ?_⟩
        · show put _ _ _ p = _
          rw [put_ne _ _ hp']; exact i1
        · show put2 _ _ _ _ p q = _
          unfold put2
          rw [if_neg (fun h => hp' h.1)]; exact i2
        · show Waits p (put _ _ _ q)
          by_cases hq : q = p'
          · subst hq
            rw [put_same]
            rw [h1] at i3
            cases i3 with
            | send h => exact h
          · rw [put_ne _ _ hq]; exact i3
  intro hd
  obtain ⟨b, hb⟩ := hd q
  have := inv.2.2
  rw [hb] at this
  cases this

/-- **C93, negation (a partition on its own).**  When one partition is not marked as it should be and another
one is, the other one never returns from the check. -/
theorem C93_negation_alone {n : Nat} {m : Nat → CMesh} {p q : Nat} (hp : p < n) (hq : q < n)
    (hwrong : ¬ Marked p (m p)) (hright : Marked q (m q)) {k : Nat} {net : PNet CMsg (Res Bool)}
    (hx : PExec k (checkStart n m) net) : ¬ net.done := by
  have hne : p ≠ q := by
    rintro rfl
    exact hwrong hright
  refine never_done (p := p) (q := q) (a := .ok false) ?_ rfl ?_ hx
  · show (if p < n then _ else _) = _
    rw [if_pos hp, C93_marks (by omega) hwrong]
  · show Waits p (if q < n then _ else _)
    rw [if_pos hq]
    unfold parallelCheck
    rw [if_neg (by omega), if_pos (checkGhost_iff.2 hright)]
    unfold checkGlobal runStage
    exact waits_rounds hne (by decide) _ _ (List.mem_range.2 hp)

/-- two partitions run, and messages are taken when they are sent -/
def auto2 {M A : Type} : Nat → PNet M A → PNet M A
  | 0, s => s
  | fuel+1, s =>
    match s.run 0, s.run 1, s.chan 0 1, s.chan 1 0 with
    | .send 1 m k, .recv 0 k', [], _ => auto2 fuel ⟨put (put s.run 0 k) 1 (k' m), s.chan⟩
    | .recv 1 k', .send 0 m k, _, [] => auto2 fuel ⟨put (put s.run 1 k) 0 (k' m), s.chan⟩
    | _, _, _, _ => s

theorem auto2_exec {M A : Type} {s0 : PNet M A} : ∀ (fuel : Nat) (s : PNet M A), (∃ k, PExec k s0 s) →
    ∃ k, PExec k s0 (auto2 fuel s) := by
  intro fuel
  induction fuel with
  | zero => intro s h; exact h
  | succ fuel ih =>
    intro s ⟨k, h⟩
    unfold auto2
    split
    · rename_i h1 h2 h3
      exact ih _ ⟨k + 1, h.step (.must (.meet h1 h2 h3))⟩
    · rename_i h1 h2 h3
      exact ih _ ⟨k + 1, h.step (.must (.meet h2 h1 h3))⟩
    · exact ⟨k, h⟩

/-- what a partition has answered -/
def answered {M A : Type} : Proc M A → Option A
  | .ret a => some a
  | _ => none

theorem answered_some {M A : Type} {P : Proc M A} {a : A} (h : answered P = some a) : P = .ret a := by
  cases P with
  | ret b => injection h with h; rw [h]
  | send => cases h
  | recv => cases h

/-- a partition waits for another one -/
def waitsFor {M A : Type} (p : Nat) : Proc M A → Bool
  | .recv q _ => decide (q = p)
  | _ => false

theorem waitsFor_waits {M A : Type} {p : Nat} {P : Proc M A} (h : waitsFor p P = true) : Waits p P := by
  cases P with
  | ret b => cases h
  | send => cases h
  | recv q k =>
    obtain rfl : q = p := of_decide_eq_true h
    exact Waits.here k

instance (o e : CKey) : Decidable (Original o e) := inferInstanceAs (Decidable (_ ∧ _))
instance (o e : CKey) : Decidable (SameClass o e) := inferInstanceAs (Decidable (_ ∧ _))
instance (a b : Int × Int) : Decidable (SameEnds a b) := inferInstanceAs (Decidable (_ ∨ _))
instance (a b : Rat × Rat × Rat) : Decidable (Near a b) := inferInstanceAs (Decidable ((_ ∧ _) ∧ (_ ∧ _) ∧ (_ ∧ _)))

/-- two partitions with a vertex each, an edge between the vertices, a face and a region, which belong to
partition 0 and are ghosts on partition 1 -/
def shared2 : Nat → CMesh
  | 0 => ⟨[⟨⟨1, 1, 1, 0, 0, 1⟩, (0, 0, 0)⟩, ⟨⟨2, 2, 3, 1, 0, 2⟩, (1, 0, 0)⟩], [⟨⟨1, 1, 1, 0, 1, 1⟩, (1, 2)⟩],
      [⟨⟨1, 1, 1, 0, 2, 1⟩, [1, 2, 3]⟩], [⟨⟨1, 1, 1, 0, 3, 1⟩, [1]⟩], fun _ _ => true, fun _ _ => true⟩
  | _ => ⟨[⟨⟨1, 2, 1, 1, 0, 2⟩, (1, 0, 0)⟩, ⟨⟨2, 1, 3, 0, 4, 1⟩, (0, 0, 0)⟩], [⟨⟨1, 1, 3, 0, 1, 1⟩, (2, 1)⟩],
      [⟨⟨1, 1, 3, 0, 2, 1⟩, [1, -5]⟩], [⟨⟨1, 1, 3, 0, 3, 1⟩, [1]⟩], fun _ _ => true, fun _ _ => true⟩

theorem shared2_spread : Spread 2 shared2 where
  flags := fun p hp q hq _ t _ => by
    match p, q, hp, hq with
    | 0, 0, _, _ => rfl
    | 0, 1, _, _ => rfl
    | 1, 0, _, _ => rfl
    | 1, 1, _, _ => rfl
  told := fun p hp q _ _ t _ k _ _ => by
    match p, hp with
    | 0, _ => rfl
    | 1, _ => rfl
  ranges := by decide +kernel
  ids := by decide +kernel
  gids := by decide +kernel
  solid := fun p hp q _ h => by
    match p, hp with
    | 0, _ => cases h
    | 1, _ => cases h
  fit := by decide +kernel
  small := by decide +kernel
  found := by
    intro p hp q hq hne t ht
    rcases ht with rfl | rfl <;> match p, q, hp, hq with
    | 0, 0, _, _ => exact absurd rfl hne
    | 1, 1, _, _ => exact absurd rfl hne
    | 0, 1, _, _ => decide +kernel
    | 1, 0, _, _ => decide +kernel

theorem shared2_marked : ∀ p, p < 2 → Marked p (shared2 p) := by
  unfold Marked
  decide +kernel

/-- The hypotheses of `C93_check_partial` can hold, with ghosts that agree with their originals. -/
example : Spread 2 shared2 ∧ (∀ p, p < 2 → Marked p (shared2 p)) ∧
    ((auto2 100 (checkStart 2 shared2)).run 0 = .ret (.ok true)) :=
  ⟨shared2_spread, shared2_marked, answered_some (by decide +kernel)⟩

/-- **C93, negation (faces).**  The edges of the ghost face are others than those of the original, and all
partitions answer 1. -/
theorem C93_negation_faces : ∃ (m : Nat → CMesh), Spread 2 m ∧ (∀ p, p < 2 → Marked p (m p)) ∧
    (∃ e ∈ (m 1).faces, e.key.master = 0 ∧ ∀ o ∈ (m 0).faces, o.key.gid = e.key.gid → o.parts ≠ e.parts ∧
      o.parts.length ≠ e.parts.length) ∧
    ∃ k net, PExec k (checkStart 2 m) net ∧ net.run 0 = .ret (.ok true) ∧ net.run 1 = .ret (.ok true) := by
  obtain ⟨k, hk⟩ := auto2_exec (s0 := checkStart 2 shared2) 100 _ ⟨0, PExec.refl _⟩
  exact ⟨shared2, shared2_spread, shared2_marked, by decide +kernel, k, _, hk,
    answered_some (by decide +kernel), answered_some (by decide +kernel)⟩

/-- the first partition without the face -/
def lostFace : Nat → CMesh
  | 0 => { shared2 0 with faces := [⟨⟨1, 8, 1, 0, 2, 1⟩, [1, 2, 3]⟩] }
  | _ => shared2 1

/-- **C93, negation (missing faces).**  A ghost face has no original, and the owner does not answer 0: it
stays in its loop for ever. -/
theorem C93_negation_missing : ∃ (m : Nat → CMesh), (∀ p, p < 2 → Marked p (m p)) ∧
    (∃ e ∈ (m 1).faces, e.key.master = 0 ∧ ∀ o ∈ (m 0).faces, ¬ Original o.key e.key) ∧
    ∃ k net, PExec k (checkStart 2 m) net ∧ net.run 0 = .ret .hang ∧
      ∀ k' net', PExec k' net net' → ¬ net'.done := by
  obtain ⟨k, hk⟩ := auto2_exec (s0 := checkStart 2 lostFace) 100 _ ⟨0, PExec.refl _⟩
  have h0 : (auto2 100 (checkStart 2 lostFace)).run 0 = .ret .hang := answered_some (by decide +kernel)
  refine ⟨lostFace, ?_, ?_, k, _, hk, h0, ?_⟩
  · unfold Marked; decide +kernel
  · decide +kernel
  · intro k' net' hx
    exact never_done (p := 0) (q := 1) h0 (List.isEmpty_iff.1 (by decide +kernel))
      (waitsFor_waits (by decide +kernel)) hx

/-- the first partition without regions -/
def someSolid : Nat → CMesh
  | 0 => { shared2 0 with regions := [] }
  | _ => { shared2 1 with regions := [⟨⟨1, 1, 0, 1, 3, 1⟩, [1]⟩] }

/-- **C93, negation (regions).**  One partition has no regions; it answers 1, and the other one, whose region
is its own, waits for it for ever. -/
theorem C93_negation_regions : ∃ (m : Nat → CMesh), (∀ p, p < 2 → Marked p (m p)) ∧ Backed 2 m 0 ∧ Backed 2 m 1 ∧
    ∃ k net, PExec k (checkStart 2 m) net ∧ net.run 0 = .ret (.ok true) ∧
      ∀ k' net', PExec k' net net' → ¬ net'.done := by
  obtain ⟨k, hk⟩ := auto2_exec (s0 := checkStart 2 someSolid) 100 _ ⟨0, PExec.refl _⟩
  have h0 : (auto2 100 (checkStart 2 someSolid)).run 0 = .ret (.ok true) := answered_some (by decide +kernel)
  refine ⟨someSolid, ?_, ?_, ?_, k, _, hk, h0, ?_⟩
  · unfold Marked; decide +kernel
  · constructor <;> decide +kernel
  · constructor <;> decide +kernel
  · intro k' net' hx
    exact never_done (p := 0) (q := 1) h0 (List.isEmpty_iff.1 (by decide +kernel))
      (waitsFor_waits (by decide +kernel)) hx

/-- the hypotheses of `C93_negation_alone` (and of `C93_marks`) can hold -/
example : ∃ m : Nat → CMesh, ¬ Marked 0 (m 0) ∧ Marked 1 (m 1) := by
  refine ⟨fun _ => shared2 1, ?_, shared2_marked 1 (by decide)⟩
  unfold Marked
  decide +kernel

/-- two different vertices of the first partition have the same global ID -/
def twiceGid : Nat → CMesh
  | 0 => { shared2 0 with verts := [⟨⟨3, 1, 1, 0, 0, 1⟩, (5, 5, 5)⟩] ++ (shared2 0).verts }
  | _ => shared2 1

/-- **C93, negation (global IDs twice).**  Two overlap vertices at different places have the same global ID,
and all partitions answer 1. -/
theorem C93_negation_twice : ∃ (m : Nat → CMesh), (∃ a ∈ (m 0).verts, ∃ b ∈ (m 0).verts, a.key.ptype = pOverlap ∧
      b.key.ptype = pOverlap ∧ a.key.gid = b.key.gid ∧ a.coor ≠ b.coor) ∧
    ∃ k net, PExec k (checkStart 2 m) net ∧ net.run 0 = .ret (.ok true) ∧ net.run 1 = .ret (.ok true) := by
  obtain ⟨k, hk⟩ := auto2_exec (s0 := checkStart 2 twiceGid) 100 _ ⟨0, PExec.refl _⟩
  exact ⟨twiceGid, by decide +kernel, k, _, hk, answered_some (by decide +kernel), answered_some (by decide +kernel)⟩

/-- a ghost of a partition that does not exist -/
def strayGhost : Nat → CMesh
  | 0 => { shared2 0 with verts := (shared2 0).verts ++ [⟨⟨3, 9, 3, 7, 0, 1⟩, (5, 5, 5)⟩] }
  | _ => shared2 1

/-- **C93, negation (owners).**  A ghost belongs to a partition that does not exist, and all partitions
answer 1. -/
theorem C93_negation_stray : ∃ (m : Nat → CMesh), (∃ e ∈ (m 0).verts, e.key.ptype = pGhost ∧ 2 ≤ e.key.master) ∧
    ∃ k net, PExec k (checkStart 2 m) net ∧ net.run 0 = .ret (.ok true) ∧ net.run 1 = .ret (.ok true) := by
  obtain ⟨k, hk⟩ := auto2_exec (s0 := checkStart 2 strayGhost) 100 _ ⟨0, PExec.refl _⟩
  exact ⟨strayGhost, by decide +kernel, k, _, hk, answered_some (by decide +kernel), answered_some (by decide +kernel)⟩

/-- more ghosts of the first partition than it has vertices -/
def manyGhosts : Nat → CMesh
  | 0 => shared2 0
  | _ => { shared2 1 with verts := (shared2 1).verts ++ [⟨⟨3, 8, 3, 0, 0, 1⟩, (5, 5, 5)⟩, ⟨⟨4, 9, 3, 0, 0, 1⟩, (6, 5, 5)⟩] }

/-- **C93, negation (too many ghosts).**  A partition has more ghosts of another one than that has vertices:
two of them have no original, but the owner does not answer 0: the message is longer than what it asked for,
and MPI ends the program. -/
theorem C93_negation_many : ∃ (m : Nat → CMesh), (∀ p, p < 2 → Marked p (m p)) ∧ ¬ Backed 2 m 0 ∧
    ∃ k net, PExec k (checkStart 2 m) net ∧ net.run 0 = .ret .fatal := by
  obtain ⟨k, hk⟩ := auto2_exec (s0 := checkStart 2 manyGhosts) 100 _ ⟨0, PExec.refl _⟩
  refine ⟨manyGhosts, ?_, ?_, k, _, hk, answered_some (by decide +kernel)⟩
  · unfold Marked; decide +kernel
  · intro h
    have := h.verts 1 (by decide) (by decide) ⟨⟨3, 8, 3, 0, 0, 1⟩, (5, 5, 5)⟩ (by
      show _ ∈ [_, _, _, _]
      simp) rfl
    obtain ⟨o, h1, ⟨-, h3⟩, -⟩ := this
    have h1 : o ∈ [(⟨⟨1, 1, 1, 0, 0, 1⟩, (0, 0, 0)⟩ : CVert), ⟨⟨2, 2, 3, 1, 0, 2⟩, (1, 0, 0)⟩] := h1
    simp only [List.mem_cons, List.not_mem_nil, or_false] at h1
    rcases h1 with rfl | rfl
    · exact absurd h3 (by decide)
    · exact absurd h3 (by decide)

end MSTK.Par
