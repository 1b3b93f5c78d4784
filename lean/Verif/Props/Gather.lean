import Verif.GatherModel
import Verif.ProcPhase
import Verif.Props.Update
import Mathlib.Data.Int.Order.Basic

/-!
C82: the values on an entity and on its ghosts are combined as asked for.
-/
namespace MSTK.Par

variable {D : Type}

/-! ### specification -/

/-- the number on the ghost of the entity, if there is one among these -/
def copyOn (gh : List (Gh D)) (owner : Nat) (gid : Int) : Option D :=
  match gh.find? fun g => decide (g.master = owner ∧ g.gid = gid) with
  | some ⟨_, _, .num x⟩ => some x
  | _ => none

/-- the numbers on the ghosts of an entity, by the rank of the partition they are on -/
def copies (n : Nat) (side : Nat → Side D) (owner : Nat) (gid : Int) : List D :=
  (List.range n).filterMap fun i => if i = owner then none else copyOn (side i).gh owner gid

/-- added one after the other -/
def added (N : Nums D) : D → List D → Option D
  | y, [] => some y
  | y, x :: xs => (N.add y x).bind fun z => added N z xs

/-- what the result of an operation is -/
def Combined [LinearOrder D] (N : Nums D) (op : AttOp) (own : D) (xs : List D) (r : D) : Prop :=
  match op with
  | .max => r ∈ own :: xs ∧ ∀ x ∈ own :: xs, x ≤ r
  | .min => r ∈ own :: xs ∧ ∀ x ∈ own :: xs, r ≤ x
  | .sum => added N own xs = some r
  | .avg => ∃ s, added N own xs = some s ∧ r = N.div s (xs.length + 1)
  | .undef => (own :: xs).getLast? = some r

/-- what a partition has when the function starts -/
def partOf (s : Info) (k : Nat) (sd : Side D) : GPart D :=
  ⟨fun i => decide (hasGhosts s i (k : Nat) = .ok 1), fun i => decide (hasOverlaps s i (k : Nat) = .ok 1), sd.ov, sd.gh⟩

/-- all partitions about to call the function -/
def gatherStart (N : Nums D) (op : AttOp) (ncomp : Nat) (out : List Info) (k : Nat) (side : Nat → Side D) :
    PNet (Pack D) (Res (List (Ov D))) :=
  ⟨fun p => match out[p]? with
    | some s => gather N op ncomp out.length p (partOf s k (side p))
    | none => .ret (.ok []), fun _ _ => []⟩

/-- The values on the overlap entities of partition `p` afterwards: the combined number, unless that is
zero; then the number that was there. -/
def Gathered [LinearOrder D] (N : Nums D) (op : AttOp) (n : Nat) (side : Nat → Side D) (p : Nat) (ov' : List (Ov D)) :
    Prop :=
  ov'.length = (side p).ov.length ∧
  ∀ (j : Nat) (gid : Int) (y : D), (side p).ov[j]? = some ⟨gid, .num y⟩ →
    ∃ r, Combined N op y (copies n side p gid) r ∧ ov'[j]? = some ⟨gid, .num (if N.isZero r then y else r)⟩

/-! ### combining -/

/-- the numbers combined one after the other -/
def mixAll (N : Nums D) (op : AttOp) : D → List D → Res D
  | y, [] => .ok y
  | y, x :: xs => do
    let z ← mixNum N op y x
    mixAll N op z xs

theorem mixAll_ok [LinearOrder D] {N : Nums D} (hN : ∀ a b, N.lt a b = decide (a < b)) {op : AttOp} :
    ∀ (xs : List D) (y : D), (op = .sum ∨ op = .avg → (added N y xs).isSome) →
    ∃ z, mixAll N op y xs = .ok z ∧
      Combined N op y xs (if op = .avg then N.div z (xs.length + 1) else z) := by
  intro xs y hs
  cases op with
  | max =>
    have : ∃ z, mixAll N .max y xs = .ok z ∧ z ∈ y :: xs ∧ ∀ x ∈ y :: xs, x ≤ z := by
      clear hs
      induction xs generalizing y with
      | nil => exact ⟨y, rfl, by simp, by simp⟩
      | cons x xs ih =>
        obtain ⟨z, h1, h2, h3⟩ := ih (if N.lt y x then x else y)
        refine ⟨z, h1, ?_, ?_⟩
        · rw [hN] at h2
          by_cases hlt : y < x
          · rw [if_pos (decide_eq_true hlt)] at h2
            rcases List.mem_cons.1 h2 with h | h
            · rw [h]; simp
            · simp [h]
          · rw [if_neg (by simpa using hlt)] at h2
            rcases List.mem_cons.1 h2 with h | h
            · rw [h]; simp
            · simp [h]
        · have h4 := h3 _ List.mem_cons_self
          rw [hN] at h4
          have h5 : y ≤ z ∧ x ≤ z := by
            by_cases hlt : y < x
            · rw [if_pos (decide_eq_true hlt)] at h4
              exact ⟨le_trans (le_of_lt hlt) h4, h4⟩
            · rw [if_neg (by simpa using hlt)] at h4
              exact ⟨h4, le_trans (not_lt.1 hlt) h4⟩
          intro w hw
          rcases List.mem_cons.1 hw with rfl | hw
          · exact h5.1
          · rcases List.mem_cons.1 hw with rfl | hw
            · exact h5.2
            · exact h3 w (List.mem_cons_of_mem _ hw)
    obtain ⟨z, h1, h2⟩ := this
    exact ⟨z, h1, h2⟩
  | min =>
    have : ∃ z, mixAll N .min y xs = .ok z ∧ z ∈ y :: xs ∧ ∀ x ∈ y :: xs, z ≤ x := by
      clear hs
      induction xs generalizing y with
      | nil => exact ⟨y, rfl, by simp, by simp⟩
      | cons x xs ih =>
        obtain ⟨z, h1, h2, h3⟩ := ih (if N.lt x y then x else y)
        refine ⟨z, h1, ?_, ?_⟩
        · rw [hN] at h2
          by_cases hlt : x < y
          · rw [if_pos (decide_eq_true hlt)] at h2
            rcases List.mem_cons.1 h2 with h | h
            · rw [h]; simp
            · simp [h]
          · rw [if_neg (by simpa using hlt)] at h2
            rcases List.mem_cons.1 h2 with h | h
            · rw [h]; simp
            · simp [h]
        · have h4 := h3 _ List.mem_cons_self
          rw [hN] at h4
          have h5 : z ≤ y ∧ z ≤ x := by
            by_cases hlt : x < y
            · rw [if_pos (decide_eq_true hlt)] at h4
              exact ⟨le_trans h4 (le_of_lt hlt), h4⟩
            · rw [if_neg (by simpa using hlt)] at h4
              exact ⟨h4, le_trans h4 (not_lt.1 hlt)⟩
          intro w hw
          rcases List.mem_cons.1 hw with rfl | hw
          · exact h5.1
          · rcases List.mem_cons.1 hw with rfl | hw
            · exact h5.2
            · exact h3 w (List.mem_cons_of_mem _ hw)
    obtain ⟨z, h1, h2⟩ := this
    exact ⟨z, h1, h2⟩
  | undef =>
    have : ∃ z, mixAll N .undef y xs = .ok z ∧ (y :: xs).getLast? = some z := by
      clear hs
      induction xs generalizing y with
      | nil => exact ⟨y, rfl, rfl⟩
      | cons x xs ih =>
        obtain ⟨z, h1, h2⟩ := ih x
        exact ⟨z, h1, by rw [List.getLast?_cons_cons]; exact h2⟩
    obtain ⟨z, h1, h2⟩ := this
    exact ⟨z, h1, h2⟩
  | sum =>
    have : ∃ z, mixAll N .sum y xs = .ok z ∧ added N y xs = some z := by
      have hs := hs (Or.inl rfl)
      induction xs generalizing y with
      | nil => exact ⟨y, rfl, rfl⟩
      | cons x xs ih =>
        unfold added at hs
        cases ha : N.add y x with
        | none => rw [ha] at hs; cases hs
        | some w =>
          rw [ha] at hs
          obtain ⟨z, h1, h2⟩ := ih w (fun _ => hs) hs
          refine ⟨z, ?_, ?_⟩
          · unfold mixAll mixNum
            dsimp only
            rw [ha]
            exact h1
          · unfold added
            rw [ha]
            exact h2
    obtain ⟨z, h1, h2⟩ := this
    exact ⟨z, h1, h2⟩
  | avg =>
    have : ∃ z, mixAll N .avg y xs = .ok z ∧ added N y xs = some z := by
      have hs := hs (Or.inr rfl)
      induction xs generalizing y with
      | nil => exact ⟨y, rfl, rfl⟩
      | cons x xs ih =>
        unfold added at hs
        cases ha : N.add y x with
        | none => rw [ha] at hs; cases hs
        | some w =>
          rw [ha] at hs
          obtain ⟨z, h1, h2⟩ := ih w (fun _ => hs) hs
          refine ⟨z, ?_, ?_⟩
          · unfold mixAll mixNum
            dsimp only
            rw [ha]
            exact h1
          · unfold added
            rw [ha]
            exact h2
    obtain ⟨z, h1, h2⟩ := this
    exact ⟨z, h1, z, h2, rfl⟩

/-! ### looking up -/

theorem bsearchAt_none {a : List (Option Int)} {base : Nat} {L : List Int}
    (ha : ∀ j, j < L.length → a[base + j]? = (L[j]?).map some) {key : Int} (hk : key ∉ L) :
    ∀ d l u, u - l = d → base ≤ l → u ≤ base + L.length → bsearchAt a key l u = .ok none := by
  intro d
  induction d using Nat.strongRecOn with
  | _ d ih =>
    intro l u hd hl hu
    unfold bsearchAt
    by_cases hlu : l < u
    · rw [dif_pos hlu]
      obtain ⟨m, hm⟩ : ∃ m, (l + u) / 2 = base + m := ⟨(l + u) / 2 - base, by omega⟩
      rw [hm]
      have hml : m < L.length := by omega
      rw [ha m hml, List.getElem?_eq_getElem hml]
      dsimp only [Option.map_some]
      by_cases h1 : key < L[m]
      · rw [if_pos h1]
        exact ih _ (by omega) l (base + m) rfl hl (by omega)
      · rw [if_neg h1]
        by_cases h2 : L[m] < key
        · rw [if_pos h2]
          exact ih _ (by omega) (base + m + 1) u rfl (by omega) hu
        · exfalso
          apply hk
          have : key = L[m] := by omega
          rw [this]
          exact List.getElem_mem hml
    · rw [dif_neg hlu]

theorem toOwner_sorted {gh : List (Gh D)} {p : Nat} (h : (gh.map (·.gid)).Pairwise (· < ·)) :
    ((toOwner gh p).map (·.gid)).Pairwise (· < ·) := by
  unfold toOwner
  rw [List.map_map, List.pairwise_map]
  rw [List.pairwise_map] at h
  exact h.sublist List.filter_sublist

theorem toOwner_mem {gh : List (Gh D)} {p : Nat} {o : Ov D} (h : o ∈ toOwner gh p) :
    (⟨o.gid, p, o.val⟩ : Gh D) ∈ gh := by
  unfold toOwner at h
  obtain ⟨g, hg, rfl⟩ := List.mem_map.1 h
  obtain ⟨h1, h2⟩ := List.mem_filter.1 hg
  have h2 := of_decide_eq_true h2
  rw [← h2]
  exact h1

/-- an entity listed for the owner is the copy -/
theorem copyOn_listed {gh : List (Gh D)} {p : Nat} {gid : Int} {x : D} (h : (gh.map (·.gid)).Pairwise (· < ·))
    (hm : (⟨gid, .num x⟩ : Ov D) ∈ toOwner gh p) : copyOn gh p gid = some x := by
  have hg := toOwner_mem hm
  unfold copyOn
  cases hf : gh.find? fun g => decide (g.master = p ∧ g.gid = gid) with
  | none =>
    have := List.find?_eq_none.1 hf _ hg
    simp at this
  | some g =>
    have h1 := List.mem_of_find?_eq_some hf
    have h2 : g.master = p ∧ g.gid = gid := by simpa using List.find?_some hf
    have : g = ⟨gid, p, .num x⟩ := by
      obtain ⟨i, hi, ei⟩ := List.mem_iff_getElem.1 h1
      obtain ⟨j, hj, ej⟩ := List.mem_iff_getElem.1 hg
      rw [List.pairwise_map, List.pairwise_iff_getElem] at h
      have hij : i = j := by
        rcases Nat.lt_trichotomy i j with hc | hc | hc
        · have := h i j hi hj hc
          rw [ei, ej] at this
          dsimp only at this
          rw [h2.2] at this
          omega
        · exact hc
        · have := h j i hj hi hc
          rw [ei, ej] at this
          dsimp only at this
          rw [h2.2] at this
          omega
      subst hij
      rw [← ei, ej]
    subst this
    rfl

/-- an entity not listed for the owner has no copy -/
theorem copyOn_not_listed {gh : List (Gh D)} {p : Nat} {gid : Int}
    (hm : gid ∉ (toOwner gh p).map (·.gid)) : copyOn gh p gid = none := by
  unfold copyOn
  cases hf : gh.find? fun g => decide (g.master = p ∧ g.gid = gid) with
  | none => rfl
  | some g =>
    exfalso
    have h1 := List.mem_of_find?_eq_some hf
    have h2 : g.master = p ∧ g.gid = gid := by simpa using List.find?_some hf
    apply hm
    unfold toOwner
    rw [List.map_map]
    exact List.mem_map.2 ⟨g, List.mem_filter.2 ⟨h1, decide_eq_true h2.1⟩, h2.2⟩

theorem combine_ok {N : Nums D} {op : AttOp} {size : Nat → Nat} {procs : List Nat} {b : Bufs D} {side : Nat → Side D}
    {me : Nat} {V : Nat → List D} {gid : Int}
    (hsz : ∀ i ∈ procs, size i = (toOwner (side i).gh me).length)
    (hsort : ∀ i ∈ procs, ((side i).gh.map (·.gid)).Pairwise (· < ·))
    (hkind : ∀ i ∈ procs, ∀ g ∈ (side i).gh, g.val.isArr = false)
    (hV : ∀ i ∈ procs, ∀ (t : Nat) (o : Ov D) (x : D), (toOwner (side i).gh me)[t]? = some o → o.val = .num x →
      (V i)[t]? = some x)
    (hb : ∀ i ∈ procs, size i ≠ 0 →
      Holds 1 size procs (fun i => (toOwner (side i).gh me).map (·.gid)) V b i) :
    ∀ (is : List Nat), (∀ i ∈ is, i ∈ procs) → ∀ (y z : D) (c : Nat),
      mixAll N op y (is.filterMap fun i => copyOn (side i).gh me gid) = .ok z →
      combine N op 1 size procs b gid is (.num y, c) =
        .ok (.num z, c + (is.filterMap fun i => copyOn (side i).gh me gid).length) := by
  intro is
  induction is with
  | nil =>
    intro _ y z c h
    injection h with h
    subst h
    rfl
  | cons i r ih =>
    intro hin y z c h
    have hi := hin i List.mem_cons_self
    obtain ⟨pos, hp, -, -⟩ := posOf_some (size := size) (acc := 0) hi
    unfold combine
    rw [hp]
    dsimp only
    have ha : ∀ j, j < ((toOwner (side i).gh me).map (·.gid)).length →
        b.ids[pos + j]? = (((toOwner (side i).gh me).map (·.gid))[j]?).map some := by
      intro j hj
      rw [List.length_map, ← hsz i hi] at hj
      exact (hb i hi (by omega)).ids pos hp j hj
    by_cases hm : gid ∈ (toOwner (side i).gh me).map (·.gid)
    · obtain ⟨o, ho, hog⟩ := List.mem_map.1 hm
      obtain ⟨t, ht, hto⟩ := List.mem_iff_getElem.1 ho
      have hto' : (toOwner (side i).gh me)[t]? = some o := by rw [List.getElem?_eq_getElem ht, hto]
      have hnum : ∃ x, o.val = .num x := by
        have := hkind i hi _ (toOwner_mem ho)
        cases hv : o.val with
        | num x => exact ⟨x, rfl⟩
        | arr p => dsimp only at this; rw [hv] at this; cases this
      obtain ⟨x, hx⟩ := hnum
      have hcopy : copyOn (side i).gh me gid = some x := by
        refine copyOn_listed (hsort i hi) ?_
        rw [← hx, ← hog]
        exact ho
      rw [bsearchAt_ok (base := pos) (t := t) (toOwner_sorted (hsort i hi)) ha (by
          rw [List.getElem?_map, hto', ← hog]; rfl) _ _ _ rfl (by omega) (by omega) (by rw [hsz i hi]; omega)
          (by rw [hsz i hi, List.length_map]; exact Nat.le_refl _), Res.bind_ok]
      dsimp only
      have hread : readAt b.vals ((pos + t) * 1) 1 = .ok [x] := by
        refine readAt_ok rfl ?_
        intro j hj
        obtain rfl : j = 0 := by omega
        have := (hb i hi (by rw [hsz i hi]; omega)).vals pos hp t (by rw [hsz i hi]; omega)
        rw [show (pos + t) * 1 + 0 = pos * 1 + t by omega, this, hV i hi t o x hto' hx]
        rfl
      rw [hread, Res.bind_ok]
      rw [List.filterMap_cons, hcopy] at h ⊢
      unfold mixAll at h
      obtain ⟨w, h1, h2⟩ := Res.bind_eq_ok.1 h
      unfold mix
      dsimp only
      rw [h1, Res.bind_ok]
      show combine N op 1 size procs b gid r (.num w, c + 1) = _
      rw [ih (fun j hj => hin j (List.mem_cons_of_mem _ hj)) w z (c+1) h2]
      rw [List.length_cons]
      congr 2
      omega
    · rw [bsearchAt_none ha hm _ _ _ rfl (Nat.le_refl _) (by rw [List.length_map, hsz i hi]; exact Nat.le_refl _),
        Res.bind_ok]
      dsimp only
      rw [List.filterMap_cons, copyOn_not_listed hm] at h ⊢
      exact ih (fun j hj => hin j (List.mem_cons_of_mem _ hj)) y z c h

/-! ### one partition -/

/-- flags that agree, ghosts of others that are sorted, and values that can be sent -/
structure Ready (n : Nat) (gf ovf : Nat → Nat → Bool) (gh : Nat → List (Gh D)) (arr : Bool) (ncomp : Nat) : Prop where
  flags : ∀ p q, p < n → q < n → p ≠ q → (ovf p q = true ↔ gf q p = true)
  owner : ∀ q, q < n → ∀ g ∈ gh q, g.master ≠ q ∧ gf q g.master = true
  sorted : ∀ q, q < n → ((gh q).map (·.gid)).Pairwise (· < ·)
  fits : ∀ q, q < n → ∀ g ∈ gh q, Fits arr ncomp g.val

/-- the numbers of entities that are sent -/
def sizesOut (gf : Nat → Nat → Bool) (gh : Nat → List (Gh D)) (p q : Nat) : List (Pack D) :=
  if gf p q then [.count (toOwner (gh p) q).length] else []

/-- the values for a partition -/
def valsFor (N : Nums D) (ncomp : Nat) (gh : List (Gh D)) (q : Nat) : List D :=
  match collectAll N.zero ncomp (toOwner gh q) with
  | .ok vals => vals
  | _ => []

/-- the lists that are sent -/
def listsOut (N : Nums D) (ncomp : Nat) (gf : Nat → Nat → Bool) (gh : Nat → List (Gh D)) (p q : Nat) : List (Pack D) :=
  if gf p q && decide ((toOwner (gh p) q).length ≠ 0)
    then [.list (.ids ((toOwner (gh p) q).map (·.gid))), .list (.vals (valsFor N ncomp (gh p) q))] else []

/-- what is sent in both phases -/
def fetchTrace (N : Nums D) (ncomp n : Nat) (gf : Nat → Nat → Bool) (gh : Nat → List (Gh D)) (p : Nat) :
    List (Ev (Pack D)) :=
  phaseTrace n 0 (sizesOut gf gh) p ++ phaseTrace n 1 (listsOut N ncomp gf gh) p

theorem collects {N : Nums D} {arr : Bool} {ncomp : Nat} {gh : List (Gh D)} (h : ∀ g ∈ gh, Fits arr ncomp g.val)
    (q : Nat) : collectAll N.zero ncomp (toOwner gh q) = .ok (valsFor N ncomp gh q) ∧
      (valsFor N ncomp gh q).length = (toOwner gh q).length * ncomp := by
  obtain ⟨V, h1, h2, -⟩ := collectAll_fits (zero := N.zero) (arr := arr) (ncomp := ncomp) (l := toOwner gh q)
    (fun o ho => h _ (toOwner_mem ho))
  unfold valsFor
  rw [h1]
  exact ⟨rfl, h2⟩

/-- What a partition has received, and that its program follows the exchanges whatever is done then. -/
theorem fetch_follows {n : Nat} {gf ovf : Nat → Nat → Bool} {gh : Nat → List (Gh D)} {arr : Bool} {ncomp : Nat}
    (h : Ready n gf ovf gh arr ncomp) (N : Nums D) {p : Nat} (hp : p < n) :
    (∀ i, i ∈ recvProcs p (ovf p) n ↔ i < n ∧ i ≠ p ∧ ovf p i = true) ∧
    (∀ i, i < n → i ≠ p → ovf p i = false → toOwner (gh i) p = []) ∧
    ∃ (size : Nat → Nat) (b : Bufs D),
      (∀ i, i < n → i ≠ p → size i = (toOwner (gh i) p).length) ∧
      (∀ i ∈ recvProcs p (ovf p) n, size i ≠ 0 → Holds ncomp size (recvProcs p (ovf p) n)
        (fun i => (toOwner (gh i) p).map (·.gid)) (fun i => valsFor N ncomp (gh i) p) b i) ∧
      ∀ (A : Type) (ov : List (Ov D)) (fin : (Nat → Nat) → List Nat → Bufs D → Res A),
        Follows (fetch N ncomp n p ⟨gf p, ovf p, ov, gh p⟩ fin) (fetchTrace N ncomp n gf gh p)
          (fin size (recvProcs p (ovf p) n) b) := by
  -- what arrives in the first phase
  have hgot : ∀ i, i < n → fill p (sizesOut gf gh) (List.range n) (fun _ => []) i =
      if i ≠ p then sizesOut gf gh i p else [] := by
    intro i hi
    rw [fill_at]
    simp [hi]
  generalize hsz : (fun i => sizeIn (fill p (sizesOut gf gh) (List.range n) (fun _ => []) i)) = size
  have hflag : ∀ i, i < n → (toOwner (gh i) p).length ≠ 0 → i ≠ p ∧ gf i p = true := by
    intro i hi hl
    obtain ⟨o, ho⟩ := List.exists_mem_of_ne_nil (toOwner (gh i) p) (fun hc => hl (by rw [hc]; rfl))
    have hg := toOwner_mem ho
    have := h.owner i hi _ hg
    exact ⟨fun hc => this.1 hc.symm, this.2⟩
  have hsize : ∀ i, i < n → i ≠ p → size i = (toOwner (gh i) p).length := by
    intro i hi hne
    rw [← hsz]
    dsimp only
    rw [hgot i hi, if_pos hne]
    unfold sizesOut
    by_cases hf : gf i p = true
    · rw [if_pos hf]; rfl
    · rw [if_neg hf]
      by_contra hc
      exact hf (hflag i hi (fun h0 => hc (by rw [h0]; rfl))).2
  have hprocs : ∀ i, i ∈ recvProcs p (ovf p) n ↔ i < n ∧ i ≠ p ∧ ovf p i = true := by
    intro i
    unfold recvProcs
    simp
  refine ⟨hprocs, ?_, ?_⟩
  · intro i hi hne hov
    by_contra hc
    have := (hflag i hi (fun h0 => hc (List.length_eq_zero_iff.1 h0))).2
    rw [(h.flags p i hp hi (Ne.symm hne)).2 this] at hov
    cases hov
  -- what arrives in the second
  have hgot2 : ∀ i, i < n → i ≠ p → fill p (listsOut N ncomp gf gh) (List.range n) (fun _ => []) i =
      listsOut N ncomp gf gh i p := by
    intro i hi hne
    rw [fill_at, if_pos ⟨List.mem_range.2 hi, hne⟩]
  have hcond : ∀ i, i < n → i ≠ p ∧ ovf p i = true ∧ size i ≠ 0 →
      i ∈ recvProcs p (ovf p) n ∧
      lists (fill p (listsOut N ncomp gf gh) (List.range n) (fun _ => []) i) =
        [.ids ((toOwner (gh i) p).map (·.gid)), .vals (valsFor N ncomp (gh i) p)] ∧
      ((toOwner (gh i) p).map (·.gid)).length = size i ∧
      (valsFor N ncomp (gh i) p).length = size i * ncomp := by
    rintro i hi ⟨hne, hov, hs⟩
    have hg := (h.flags p i hp hi (Ne.symm hne)).1 hov
    have hl : (toOwner (gh i) p).length ≠ 0 := by rw [← hsize i hi hne]; exact hs
    refine ⟨(hprocs i).2 ⟨hi, hne, hov⟩, ?_, by rw [List.length_map, hsize i hi hne], ?_⟩
    · rw [hgot2 i hi hne]
      unfold listsOut
      rw [if_pos (by rw [hg, decide_eq_true hl]; rfl)]
      rfl
    · rw [(collects (N := N) (h.fits i hi) p).2, hsize i hi hne]
  obtain ⟨b, hb1, -, hb3⟩ := recvAll_ok (n := n) (ncomp := ncomp) (me := p)
    (plan := (⟨ovf p, gf p, 0, size, .ids [], .vals []⟩ : Plan (Msg D))) (procs := recvProcs p (ovf p) n)
    (got := fun i => lists (fill p (listsOut N ncomp gf gh) (List.range n) (fun _ => []) i))
    (L := fun i => (toOwner (gh i) p).map (·.gid)) (V := fun i => valsFor N ncomp (gh i) p)
    hcond (List.range n)
    ⟨List.replicate (((recvProcs p (ovf p) n).map size).sum) none,
     List.replicate (((recvProcs p (ovf p) n).map size).sum * ncomp) none⟩ List.nodup_range
    (fun i hi => List.mem_range.1 hi) (by simp) (by simp)
  refine ⟨size, b, hsize, fun i hi hs => hb3 i (List.mem_range.2 ((hprocs i).1 hi).1)
    ⟨((hprocs i).1 hi).2.1, ((hprocs i).1 hi).2.2, hs⟩, ?_⟩
  intro A ov fin
  -- collecting
  obtain ⟨vals, h1, h2, h3⟩ := mapR_ok (g := fun i => if gf p i && decide ((toOwner (gh p) i).length ≠ 0)
    then collectAll N.zero ncomp (toOwner (gh p) i) else .ok []) (as := List.range n) (fun i _ => by
      split
      · exact ⟨_, (collects (N := N) (h.fits p hp) i).1⟩
      · exact ⟨_, rfl⟩)
  have hval : ∀ q, q < n → (gf p q && decide ((toOwner (gh p) q).length ≠ 0)) = true →
      vals.getD q [] = valsFor N ncomp (gh p) q := by
    intro q hq hc
    obtain ⟨v, e1, e2⟩ := h3 q q (by rw [List.getElem?_range hq])
    rw [if_pos hc, (collects (N := N) (h.fits p hp) q).1] at e2
    injection e2 with e2
    rw [List.getD_eq_getElem?_getD, e1, e2]
    rfl
  have hvals : collectFor N ncomp (⟨gf p, ovf p, ov, gh p⟩ : GPart D) n = .ok vals := h1
  unfold fetch fetchTrace
  refine follows_rounds (out := sizesOut gf gh) (List.range n) (fun _ => []) ?_ ?_
  · intro i hi hne
    have hi := List.mem_range.1 hi
    show (if ovf p i then 1 else 0) = _
    unfold sizesOut
    by_cases hov : ovf p i = true
    · rw [if_pos hov, if_pos ((h.flags p i hp hi (Ne.symm hne)).1 hov)]; rfl
    · rw [if_neg hov, if_neg (fun hc => hov ((h.flags p i hp hi (Ne.symm hne)).2 hc))]; rfl
  · rw [if_pos (by
      rw [List.all_eq_true]
      intro i hi
      rw [hgot i (List.mem_range.1 hi)]
      unfold sizesOut
      split
      · split <;> rfl
      · rfl), hvals]
    dsimp only
    unfold fetchLists
    rw [hsz, show phaseTrace n 1 (listsOut N ncomp gf gh) p =
      (List.range n).flatMap (roundTrace n 1 (listsOut N ncomp gf gh) p) ++ [] from (List.append_nil _).symm]
    refine follows_rounds' (out := listsOut N ncomp gf gh) (List.range n) (fun _ => []) ?_ ?_ ?_
    · intro i hi
      have hi := List.mem_range.1 hi
      unfold listsOut
      dsimp only
      by_cases hc : (gf p i && decide ((toOwner (gh p) i).length ≠ 0)) = true
      · rw [if_pos hc, if_pos hc, hval i hi hc]
      · rw [if_neg hc, if_neg hc]
    · intro i hi hne
      have hi := List.mem_range.1 hi
      show (if ovf p i && decide (size i ≠ 0) then 2 else 0) = _
      unfold listsOut
      rw [hsize i hi hne]
      by_cases hov : ovf p i = true
      · rw [hov, (h.flags p i hp hi (Ne.symm hne)).1 hov]
        by_cases hl : (toOwner (gh i) p).length ≠ 0
        · rw [decide_eq_true hl]; rfl
        · rw [decide_eq_false hl]; rfl
      · have : gf i p = false := by
          rw [Bool.eq_false_iff]
          exact fun hc => hov ((h.flags p i hp hi (Ne.symm hne)).2 hc)
        rw [this, Bool.eq_false_iff.2 hov]; rfl
    · have hfin : (recvAll ncomp (⟨ovf p, gf p, 0, size, .ids [], .vals []⟩ : Plan (Msg D)) p (recvProcs p (ovf p) n)
          (fun i => lists (fill p (listsOut N ncomp gf gh) (List.range n) (fun _ => []) i)) (List.range n)
          ⟨List.replicate (((recvProcs p (ovf p) n).map size).sum) none,
           List.replicate (((recvProcs p (ovf p) n).map size).sum * ncomp) none⟩ >>= fun b =>
          fin size (recvProcs p (ovf p) n) b) = fin size (recvProcs p (ovf p) n) b := by
        rw [hb1, Res.bind_ok]
      rw [← hfin]
      exact Follows.ret _

theorem fits_num {v : Value D} (h : Fits false 1 v) : ∃ x, v = .num x := by
  match v, h with
  | .num x, _ => exact ⟨x, rfl⟩
  | .arr (some l), h => cases h.1
  | .arr none, h => cases h

theorem gather_follows [LinearOrder D] {n : Nat} {gf ovf : Nat → Nat → Bool} {side : Nat → Side D}
    (h : Ready n gf ovf (fun p => (side p).gh) false 1) {N : Nums D} (hN : ∀ a b, N.lt a b = decide (a < b))
    {op : AttOp} {p : Nat} (hp : p < n) (hform : ∀ o ∈ (side p).ov, ∃ y, o.val = .num y)
    (hsum : op = .sum ∨ op = .avg → ∀ gid y, (⟨gid, .num y⟩ : Ov D) ∈ (side p).ov →
      (added N y (copies n side p gid)).isSome) :
    ∃ ov', Gathered N op n side p ov' ∧ Follows (gather N op 1 n p ⟨gf p, ovf p, (side p).ov, (side p).gh⟩)
      (fetchTrace N 1 n gf (fun p => (side p).gh) p) (.ok ov') := by
  obtain ⟨hprocs, hnone, size, b, hsize, hholds, hfol⟩ := fetch_follows h N hp
  have hcop : ∀ gid, (recvProcs p (ovf p) n).filterMap (fun i => copyOn (side i).gh p gid) = copies n side p gid := by
    intro gid
    unfold recvProcs copies
    rw [List.filterMap_filter]
    refine List.filterMap_congr ?_
    intro i hi
    have hi := List.mem_range.1 hi
    by_cases hne : i = p
    · simp [hne]
    · rw [if_neg hne]
      by_cases hov : ovf p i = true
      · simp [hne, hov]
      · rw [if_neg (by simp [hov])]
        symm
        refine copyOn_not_listed ?_
        rw [hnone i hi hne (by simpa using hov)]
        simp
  -- one entity
  have hone : ∀ gid y, (⟨gid, .num y⟩ : Ov D) ∈ (side p).ov → ∃ r, Combined N op y (copies n side p gid) r ∧
      gatherOne N op 1 size (recvProcs p (ovf p) n) b ⟨gid, .num y⟩ = .ok ⟨gid, .num (if N.isZero r then y else r)⟩ := by
    intro gid y ho
    obtain ⟨z, h1, h2⟩ := mixAll_ok hN (op := op) (copies n side p gid) y (fun ho' => hsum ho' gid y ho)
    refine ⟨_, h2, ?_⟩
    rw [← hcop gid] at h1
    have hc := combine_ok (N := N) (op := op) (size := size) (procs := recvProcs p (ovf p) n) (b := b) (side := side)
      (me := p) (V := fun i => valsFor N 1 (side i).gh p) (gid := gid)
      (fun i hi => hsize i ((hprocs i).1 hi).1 ((hprocs i).1 hi).2.1)
      (fun i hi => h.sorted i ((hprocs i).1 hi).1) (fun i hi g hg => by
        obtain ⟨x, hx⟩ := fits_num (h.fits i ((hprocs i).1 hi).1 g hg)
        rw [hx]
        rfl)
      (fun i hi t o x ht hx => by
        obtain ⟨V, k1, k2, k3⟩ := collectAll_fits (zero := N.zero) (arr := false) (ncomp := 1)
          (l := toOwner (side i).gh p) (fun o ho => h.fits i ((hprocs i).1 hi).1 _ (toOwner_mem ho))
        have hv : valsFor N 1 (side i).gh p = V := by
          unfold valsFor
          rw [k1]
        obtain ⟨y, m1, m2, m3⟩ := k3 t o ht
        rw [hx] at m1
        injection m1 with m1
        have := m3 0 (by omega)
        rw [Nat.mul_one, Nat.add_zero] at this
        rw [hv, this, ← m1]
        rfl)
      (fun i hi hs => hholds i hi hs)
      (recvProcs p (ovf p) n) (fun i hi => hi) y z 0 h1
    unfold gatherOne
    dsimp only
    rw [hc, Res.bind_ok]
    dsimp only
    rw [hcop gid, Nat.zero_add]
    show Res.ok _ = _
    by_cases hz : N.isZero (if op = .avg then N.div z ((copies n side p gid).length + 1) else z) = true
    · rw [if_pos hz, if_pos hz]
    · rw [if_neg hz, if_neg hz]
  have hform : ∀ o ∈ (side p).ov, ∃ gid y, o = ⟨gid, .num y⟩ := by
    intro o ho
    obtain ⟨y, hy⟩ := hform o ho
    exact ⟨o.gid, y, by rw [← hy]⟩
  obtain ⟨ov', m1, m2, m3⟩ := mapR_ok (g := gatherOne N op 1 size (recvProcs p (ovf p) n) b) (as := (side p).ov)
    (fun o ho => by
      obtain ⟨gid, y, rfl⟩ := hform o ho
      obtain ⟨r, -, hr⟩ := hone gid y ho
      exact ⟨_, hr⟩)
  refine ⟨ov', ⟨m2, ?_⟩, ?_⟩
  · intro j gid y hj
    obtain ⟨r, hr1, hr2⟩ := hone gid y (List.mem_of_getElem? hj)
    obtain ⟨o', e1, e2⟩ := m3 j _ hj
    rw [hr2] at e2
    injection e2 with e2
    exact ⟨r, hr1, by rw [e1, e2]⟩
  · have := hfol _ (side p).ov fun size procs b => mapR (gatherOne N op 1 size procs b) (side p).ov
    rw [m1] at this
    exact this

/-- the flags of all partitions -/
def flagsG (out : List Info) (k p : Nat) : Nat → Bool :=
  match out[p]? with
  | some s => fun i => decide (hasGhosts s i (k : Nat) = .ok 1)
  | none => fun _ => false

/-- the flags of all partitions -/
def flagsO (out : List Info) (k p : Nat) : Nat → Bool :=
  match out[p]? with
  | some s => fun i => decide (hasOverlaps s i (k : Nat) = .ok 1)
  | none => fun _ => false

/-- the flags agree; `gh` are some of the ghosts -/
theorem flags_ready {rs : List Rank} (h : Partitions rs) {out : List Info} (ho : updateParAdj rs = .ok out)
    {k : Nat} (hk : k < 4) {gh : Nat → List (Gh D)} {arr : Bool} {ncomp : Nat}
    (hown : ∀ q, q < rs.length → ∀ g ∈ gh q, g.master ≠ q ∧ g.master < rs.length)
    (hsort : ∀ q, q < rs.length → ((gh q).map (·.gid)).Pairwise (· < ·))
    (hfits : ∀ q, q < rs.length → ∀ g ∈ gh q, Fits arr ncomp g.val)
    (hside : ∀ (p : Nat) (r : Rank), rs[p]? = some r → ∀ g ∈ gh p, g.master ∈ r.masters k) :
    out.length = rs.length ∧ Ready rs.length (flagsG out k) (flagsO out k) gh arr ncomp := by
  obtain ⟨out', ho', hlen, -, hall⟩ := C32_partitions_agree h
  have : out' = out := by
    have := ho'.symm.trans ho
    injection this
  subst this
  refine ⟨hlen, ?_⟩
  have hgf' : ∀ p s, out'[p]? = some s → flagsG out' k p = fun i => decide (hasGhosts s i (k : Nat) = .ok 1) := by
    intro p s hs
    unfold flagsG
    rw [hs]
  have hvf' : ∀ p s, out'[p]? = some s → flagsO out' k p = fun i => decide (hasOverlaps s i (k : Nat) = .ok 1) := by
    intro p s hs
    unfold flagsO
    rw [hs]
  refine ⟨?_, ?_, hsort, hfits⟩
  · intro p q hp hq _
    have hp' : p < out'.length := by omega
    have hq' : q < out'.length := by omega
    have hag := (hall p q _ _ _ _ (List.getElem?_eq_getElem hp) (List.getElem?_eq_getElem hq)
      (List.getElem?_eq_getElem hp') (List.getElem?_eq_getElem hq') k hk).1
    rw [hvf' p _ (List.getElem?_eq_getElem hp'), hgf' q _ (List.getElem?_eq_getElem hq'), decide_eq_true_iff,
      decide_eq_true_iff]
    exact hag
  · intro q hq g hg
    obtain ⟨h1, h2⟩ := hown q hq g hg
    refine ⟨h1, ?_⟩
    have hq' : q < out'.length := by omega
    have hag := (hall g.master q _ _ _ _ (List.getElem?_eq_getElem h2) (List.getElem?_eq_getElem hq)
      (List.getElem?_eq_getElem (by omega)) (List.getElem?_eq_getElem hq') k hk).2.1
    rw [hgf' q _ (List.getElem?_eq_getElem hq'), decide_eq_true_iff]
    exact hag.2 (Or.inr ⟨h1, hside q _ (List.getElem?_eq_getElem hq) g hg⟩)

/-- all partitions together -/
theorem fetch_runs {A : Type} {n : Nat} {N : Nums D} {ncomp : Nat} {gf : Nat → Nat → Bool} {gh : Nat → List (Gh D)}
    {run : Nat → Proc (Pack D) A} {a : Nat → A}
    (hin : ∀ p, p < n → Follows (run p) (fetchTrace N ncomp n gf gh p) (a p))
    (hout : ∀ p, ¬ p < n → Follows (run p) [] (a p)) :
    ∃ bound, ∀ steps net, PExec steps ⟨run, fun _ _ => []⟩ net → steps ≤ bound ∧
      (¬ net.done → ∃ net', PMust net net') ∧ (net.done → ∀ p, net.run p = .ret (a p)) := by
  refine ⟨left n fun p => if p < n then phaseTrace n 0 (sizesOut gf gh) p ++
    phaseTrace n 1 (listsOut N ncomp gf gh) p else [], fun steps net hx => ?_⟩
  refine script_runs (two_phases n _ _) (fun p => ?_) hx
  by_cases hp : p < n
  · rw [if_pos hp]
    exact hin p hp
  · rw [if_neg hp]
    exact hout p hp

/-! ### the property -/

/-- **C82 (gathering).**  Partial: the value is stored only if it is not zero. -/
theorem C82_gather_partial [LinearOrder D] {rs : List Rank} (h : Partitions rs) {out : List Info}
    (ho : updateParAdj rs = .ok out) {k : Nat} (hk : k < 4) {side : Nat → Side D}
    (hlay : Layout rs.length side false 1)
    (hsort : ∀ q, q < rs.length → ((side q).gh.map (·.gid)).Pairwise (· < ·))
    -- `side` describes the entities of type `k` of the partitions `rs`
    (hside : ∀ (p : Nat) (r : Rank), rs[p]? = some r →
      r.masters k = (side p).gh.map (·.master) ∧ r.ovNum k = (side p).ov.length)
    {N : Nums D} (hN : ∀ a b, N.lt a b = decide (a < b)) {op : AttOp}
    -- the sums are numbers
    (hsum : op = .sum ∨ op = .avg → ∀ p, p < rs.length → ∀ gid y, (⟨gid, .num y⟩ : Ov D) ∈ (side p).ov →
      (added N y (copies rs.length side p gid)).isSome) :
    ∃ bound, ∀ steps net, PExec steps (gatherStart N op 1 out k side) net →
      -- no execution is longer than this
      steps ≤ bound ∧
      -- no deadlock
      (¬ net.done → ∃ net', PMust net net') ∧
      -- and whatever the schedule, the values are combined
      (net.done → ∀ p, p < rs.length → ∃ ov', net.run p = .ret (.ok ov') ∧
        Gathered N op rs.length side p ov') := by
  obtain ⟨hlen, hready⟩ := flags_ready h ho hk (gh := fun p => (side p).gh) (arr := false) (ncomp := 1)
    (fun q hq g hg => ⟨(hlay.owner q hq g hg).1, (hlay.owner q hq g hg).2.1⟩) hsort
    (fun q hq g hg => by
      have := hlay.kind q hq g hg
      cases hv : g.val with
      | num x => exact ⟨rfl, rfl⟩
      | arr l => rw [hv] at this; cases this)
    (fun p r hr g hg => by rw [(hside p r hr).1]; exact List.mem_map_of_mem hg)
  have hp : ∀ p : Fin rs.length, ∃ ov', Gathered N op rs.length side p ov' ∧
      Follows (gather N op 1 rs.length p ⟨flagsG out k p, flagsO out k p, (side p).ov, (side p).gh⟩)
      (fetchTrace N 1 rs.length (flagsG out k) (fun p => (side p).gh) p) (.ok ov') :=
    fun p => gather_follows hready hN p.isLt (fun o ho => fits_num (hlay.fits p p.isLt o ho))
      (fun ho => hsum ho p p.isLt)
  choose ov' g1 g2 using hp
  obtain ⟨bound, hb⟩ := fetch_runs (n := rs.length) (N := N) (ncomp := 1) (gf := flagsG out k)
    (gh := fun p => (side p).gh) (run := (gatherStart N op 1 out k side).run)
    (a := fun p => if hp : p < rs.length then .ok (ov' ⟨p, hp⟩) else .ok [])
    (fun p hp => by
      rw [dif_pos hp]
      obtain ⟨sp, hp'⟩ : ∃ sp, out[p]? = some sp := ⟨_, List.getElem?_eq_getElem (by omega)⟩
      have : (gatherStart N op 1 out k side).run p =
          gather N op 1 rs.length p ⟨flagsG out k p, flagsO out k p, (side p).ov, (side p).gh⟩ := by
        unfold gatherStart flagsG flagsO
        dsimp only
        rw [hp', hlen]
        rfl
      rw [this]
      exact g2 ⟨p, hp⟩)
    (fun p hp => by
      rw [dif_neg hp]
      have hp' : out[p]? = none := List.getElem?_eq_none (by omega)
      have : (gatherStart N op 1 out k side).run p = .ret (.ok []) := by
        unfold gatherStart
        dsimp only
        rw [hp']
      rw [this]
      exact Follows.ret _)
  refine ⟨bound, fun steps net hx => ?_⟩
  obtain ⟨r1, r2, r3⟩ := hb steps net hx
  refine ⟨r1, r2, ?_⟩
  intro hd p hp
  refine ⟨ov' ⟨p, hp⟩, ?_, g1 ⟨p, hp⟩⟩
  rw [r3 hd p, dif_pos hp]

/-- **C82 (scattering).**  After the update that follows, each ghost has the combined number, too, unless it
is zero; then the number of its owner, unless that is zero. -/
theorem C82_scatter_partial [LinearOrder D] {rs : List Rank} (h : Partitions rs) {out : List Info}
    (ho : updateParAdj rs = .ok out) {k : Nat} (hk : k < 4) {side : Nat → Side D}
    (hlay : Layout rs.length side false 1)
    (hside : ∀ (p : Nat) (r : Rank), rs[p]? = some r →
      r.masters k = (side p).gh.map (·.master) ∧ r.ovNum k = (side p).ov.length)
    {N : Nums D} {op : AttOp} {ov' : Nat → List (Ov D)}
    (hg : ∀ p, p < rs.length → Gathered N op rs.length side p (ov' p)) :
    ∃ V : Nat → List D, (∀ p, p < rs.length → collectAll N.zero 1 (ov' p) = .ok (V p)) ∧
    ∀ plan : Nat → Plan (Msg D),
      (∀ (p : Nat) (s : Info), out[p]? = some s →
        plan p = planOf s k (ov' p).length (.ids ((ov' p).map (·.gid))) (.vals (V p))) →
    ∀ (steps : Nat) (net : Net (Msg D)), Exec steps (Net.start rs.length plan) net → net.done →
    ∀ (q : Nat) (s : Info), out[q]? = some s → ∃ procs, ghostPrtns s = .ok procs ∧
    ∃ gh', finish N.isZero 1 (plan q) rs.length q procs (net.got q) (side q).gh = .ok gh' ∧
      gh'.length = (side q).gh.length ∧
      ∀ (j : Nat) (g : Gh D), (side q).gh[j]? = some g →
        ∃ y r, (⟨g.gid, .num y⟩ : Ov D) ∈ (side g.master).ov ∧
          Combined N op y (copies rs.length side g.master g.gid) r ∧
          gh'[j]? = some ⟨g.gid, g.master,
            if N.isZero r then (if N.isZero y then g.val else .num y) else .num r⟩ := by
  have hnum : ∀ p, p < rs.length → ∀ o ∈ (side p).ov, ∃ y, o.val = .num y := by
    intro p hp o hov
    exact fits_num (hlay.fits p hp o hov)
  have hat : ∀ p, p < rs.length → ∀ (j : Nat) (o' : Ov D), (ov' p)[j]? = some o' → ∃ y r, (side p).ov[j]? = some ⟨o'.gid, .num y⟩ ∧
      Combined N op y (copies rs.length side p o'.gid) r ∧ o'.val = .num (if N.isZero r then y else r) := by
    intro p hp j o' hj
    have hlt := (List.getElem?_eq_some_iff.1 hj).1
    rw [(hg p hp).1] at hlt
    have hj2 := List.getElem?_eq_getElem hlt
    obtain ⟨y, hy⟩ := hnum p hp _ (List.mem_of_getElem? hj2)
    have hj3 : (side p).ov[j]? = some ⟨((side p).ov[j]).gid, .num y⟩ := by rw [hj2, ← hy]
    obtain ⟨r, hr1, hr2⟩ := (hg p hp).2 j _ y hj3
    rw [hj] at hr2
    injection hr2 with hr2
    subst hr2
    exact ⟨y, r, hj3, hr1, rfl⟩
  have hgid : ∀ p, p < rs.length → (ov' p).map (·.gid) = (side p).ov.map (·.gid) := by
    intro p hp
    refine List.ext_getElem? fun j => ?_
    rw [List.getElem?_map, List.getElem?_map]
    cases hj : (ov' p)[j]? with
    | none =>
      have := List.getElem?_eq_none_iff.1 hj
      rw [(hg p hp).1] at this
      rw [List.getElem?_eq_none this]
    | some o' =>
      obtain ⟨y, r, h1, -⟩ := hat p hp j o' hj
      rw [h1]
      rfl
  have hlay' : Layout rs.length (fun p => (⟨ov' p, (side p).gh⟩ : Side D)) false 1 := by
    refine ⟨?_, ?_, ?_, hlay.kind⟩
    · intro p hp
      dsimp only
      rw [hgid p hp]
      exact hlay.sorted p hp
    · intro q hq g hgm
      obtain ⟨h1, h2, o, h3, h4⟩ := hlay.owner q hq g hgm
      refine ⟨h1, h2, ?_⟩
      have : g.gid ∈ (ov' g.master).map (·.gid) := by
        rw [hgid _ h2, ← h4]
        exact List.mem_map_of_mem h3
      exact List.mem_map.1 this
    · intro p hp o' ho'
      obtain ⟨j, hj, e⟩ := List.mem_iff_getElem.1 ho'
      obtain ⟨y, r, -, -, hv⟩ := hat p hp j o' (by rw [List.getElem?_eq_getElem hj, e])
      rw [hv]
      exact ⟨rfl, rfl⟩
  obtain ⟨V, h1, h2⟩ := C34_update_partial h ho hk N.zero N.isZero hlay' (by
    intro p r hr
    have hp := (List.getElem?_eq_some_iff.1 hr).1
    refine ⟨(hside p r hr).1, ?_⟩
    dsimp only
    rw [(hside p r hr).2, (hg p hp).1])
  refine ⟨V, h1, ?_⟩
  intro plan hplan steps net hx hd q s hs
  obtain ⟨procs, h3, gh', h4, h5, h6⟩ := h2 plan hplan steps net hx hd q s hs
  refine ⟨procs, h3, gh', h4, h5, ?_⟩
  intro j g hj
  obtain ⟨o', ho1, ho2, ho3⟩ := h6 j g hj
  have hq : q < rs.length := by
    obtain ⟨out', hh, hlen, -⟩ := C32_partitions_agree h
    have : out' = out := by
      have := hh.symm.trans ho
      injection this
    subst this
    have := (List.getElem?_eq_some_iff.1 hs).1
    omega
  have hm := (hlay.owner q hq g (List.mem_of_getElem? hj)).2.1
  obtain ⟨t, ht, e⟩ := List.mem_iff_getElem.1 ho1
  obtain ⟨y, r, k1, k2, k3⟩ := hat g.master hm t o' (by rw [List.getElem?_eq_getElem ht, e])
  rw [ho2] at k1 k2
  refine ⟨y, r, List.mem_of_getElem? k1, k2, ?_⟩
  rw [ho3, k3]
  unfold Value.zero
  by_cases hz : N.isZero r = true
  · rw [if_pos hz, if_pos hz]
  · rw [if_neg hz, if_neg hz, if_neg hz]

/-! ### concrete cases, and where the property fails -/

/-- integers (without overflow) -/
def ints : Nums Int := ⟨0, fun x => x == 0, fun a b => decide (a < b), fun a b => some (a + b), fun a m => a.tdiv m⟩

/-- the theorem applies to two partitions with a vertex and its ghost, with the values `v` and `w` -/
theorem two_gather (op : AttOp) (v w : Int) : ∃ out, updateParAdj twoRanks = .ok out ∧
    ∃ bound, ∀ steps net, PExec steps (gatherStart ints op 1 out 0 (twoSides v w)) net → steps ≤ bound ∧
      (¬ net.done → ∃ net', PMust net net') ∧
      (net.done → ∃ r, Combined ints op v [w] r ∧
        net.run 0 = .ret (.ok [⟨7, .num (if ints.isZero r then v else r)⟩])) := by
  obtain ⟨out, h1, -⟩ := C32_partitions_agree twoRanks_partitions
  refine ⟨out, h1, ?_⟩
  obtain ⟨bound, hb⟩ := C82_gather_partial twoRanks_partitions h1 (k := 0) (by omega) (twoSides_layout v w)
    (fun q hq => by
      have : q < 2 := hq
      match q, this with
      | 0, _ => exact List.Pairwise.nil
      | 1, _ => exact List.pairwise_singleton _ _)
    (twoSides_side v w) (N := ints) (fun _ _ => rfl) (op := op) (fun _ p hp gid y _ => by
      have : ∀ (l : List Int) (y : Int), (added ints y l).isSome := by
        intro l
        induction l with
        | nil => intro _; rfl
        | cons x l ih => intro y; exact ih (y + x)
      exact this _ y)
  refine ⟨bound, fun steps net hx => ?_⟩
  obtain ⟨r1, r2, r3⟩ := hb steps net hx
  refine ⟨r1, r2, fun hd => ?_⟩
  obtain ⟨ov', e1, e2, e3⟩ := r3 hd 0 (show 0 < 2 by omega)
  obtain ⟨r, f1, f2⟩ := e3 0 7 v rfl
  refine ⟨r, f1, ?_⟩
  rw [e1]
  match ov', e2, f2 with
  | [o], _, f2 =>
    injection f2 with f2
    rw [f2]

/-- The maximum of 3 and 5 is 5, that of the ghost. -/
example : ∃ out, updateParAdj twoRanks = .ok out ∧
    ∀ steps net, PExec steps (gatherStart ints .max 1 out 0 (twoSides 3 5)) net → net.done →
      net.run 0 = .ret (.ok [⟨7, .num 5⟩]) := by
  obtain ⟨out, h1, b, h2⟩ := two_gather .max 3 5
  refine ⟨out, h1, fun steps net hx hd => ?_⟩
  obtain ⟨r, ⟨hm, hr⟩, e⟩ := (h2 steps net hx).2.2 hd
  have := hr 5 (by simp)
  have : r = 5 := by
    simp at hm
    omega
  subst this
  exact e

/-- The property fails for a sum that is zero: with 1 on the vertex and -1 on its ghost, the vertex keeps 1
in every execution (and with 5 and 0, the minimum is not stored either). -/
theorem C82_negation_zero : ∃ out, updateParAdj twoRanks = .ok out ∧
    (∀ steps net, PExec steps (gatherStart ints .sum 1 out 0 (twoSides 1 (-1))) net → net.done →
      net.run 0 = .ret (.ok [⟨7, .num 1⟩])) ∧
    (∀ steps net, PExec steps (gatherStart ints .min 1 out 0 (twoSides 5 0)) net → net.done →
      net.run 0 = .ret (.ok [⟨7, .num 5⟩])) := by
  obtain ⟨out, h1, b, h2⟩ := two_gather .sum 1 (-1)
  obtain ⟨out', h1', b', h2'⟩ := two_gather .min 5 0
  have : out' = out := by
    have := h1'.symm.trans h1
    injection this
  subst this
  refine ⟨out', h1, fun steps net hx hd => ?_, fun steps net hx hd => ?_⟩
  · obtain ⟨r, hr, e⟩ := (h2 steps net hx).2.2 hd
    injection hr with hr
    subst hr
    exact e
  · obtain ⟨r, ⟨hm, hr⟩, e⟩ := (h2' steps net hx).2.2 hd
    have := hr 0 (by simp)
    have : r = 0 := by
      simp at hm
      omega
    subst this
    exact e

/-! ### arrays -/

/-- all that a program may return -/
inductive Ends {M A : Type} (P : A → Prop) : Proc M A → Prop
  | ret {a : A} : P a → Ends P (.ret a)
  | send {i : Nat} {m : M} {k : Proc M A} : Ends P k → Ends P (.send i m k)
  | recv {i : Nat} {k : M → Proc M A} : (∀ m, Ends P (k m)) → Ends P (.recv i k)

theorem ends_sendAll {M A : Type} {P : A → Prop} {i : Nat} {k : Proc M A} (h : Ends P k) :
    ∀ l : List M, Ends P (sendAll i l k)
  | [] => h
  | _ :: l => .send (ends_sendAll h l)

theorem ends_recvN {M A : Type} {P : A → Prop} {i : Nat} : ∀ (n : Nat) {k : List M → Proc M A},
    (∀ l, Ends P (k l)) → Ends P (recvN i n k)
  | 0, _, h => h []
  | n + 1, _, h => .recv fun m => ends_recvN n fun l => h (m :: l)

theorem ends_rounds {M A : Type} {P : A → Prop} {me : Nat} {out : Nat → List M} {inn : Nat → Nat}
    {k : (Nat → List M) → Proc M A} (h : ∀ g, Ends P (k g)) : ∀ (is : List Nat) (got : Nat → List M),
    Ends P (rounds me out inn is got k)
  | [], got => h got
  | i :: r, got => by
    unfold rounds
    split
    · exact ends_rounds h r got
    · unfold swap
      split
      · exact ends_sendAll (ends_recvN _ fun l => ends_rounds h r _) _
      · exact ends_recvN _ fun l => ends_sendAll (ends_rounds h r _) _

theorem ends_exec {M A : Type} {P : Nat → A → Prop} {s s' : PNet M A} {n : Nat} (hx : PExec n s s')
    (h : ∀ p, Ends (P p) (s.run p)) : ∀ p, Ends (P p) (s'.run p) := by
  have hput : ∀ {f : Nat → Proc M A} {i : Nat} {a : Proc M A}, (∀ p, Ends (P p) (f p)) → Ends (P i) a →
      ∀ p, Ends (P p) (put f i a p) := by
    intro f i a hf ha p
    by_cases hp : p = i
    · subst hp; rw [put_same]; exact ha
    · unfold put; rw [if_neg hp]; exact hf p
  induction hx with
  | refl => exact h
  | step _ hm ih =>
    have ih := ih h
    cases hm with
    | must hm =>
      cases hm with
      | @take p q m k ms h1 h2 =>
        refine hput ih ?_
        have := ih q
        rw [h1] at this
        cases this with
        | recv hr => exact hr m
      | @meet p q m k k' h1 h2 h3 =>
        refine hput (hput ih ?_) ?_
        · have := ih p
          rw [h1] at this
          cases this with
          | send hr => exact hr
        · have := ih q
          rw [h2] at this
          cases this with
          | recv hr => exact hr m
    | @buffer p q m k h1 =>
      refine hput ih ?_
      have := ih p
      rw [h1] at this
      cases this with
      | send hr => exact hr

theorem combine_arr {N : Nums D} {op : AttOp} (hop : op ≠ .undef) {ncomp : Nat} {size : Nat → Nat} {procs : List Nat}
    {b : Bufs D} {gid : Int} : ∀ (is : List Nat) (c : Nat) (w : Work D × Nat),
    combine N op ncomp size procs b gid is (.arr none, c) = .ok w → w.1 = .arr none := by
  intro is
  induction is with
  | nil =>
    intro c w h
    injection h with h
    rw [← h]
  | cons i r ih =>
    intro c w h
    unfold combine at h
    cases hp : posOf size i procs 0 with
    | none => rw [hp] at h; cases h
    | some pos =>
      rw [hp] at h
      dsimp only at h
      obtain ⟨loc, h1, h2⟩ := Res.bind_eq_ok.1 h
      cases loc with
      | none => exact ih c w h2
      | some ind =>
        dsimp only at h2
        obtain ⟨x, h3, h4⟩ := Res.bind_eq_ok.1 h2
        obtain ⟨z, h5, h6⟩ := Res.bind_eq_ok.1 h4
        unfold mix at h5
        dsimp only at h5
        split at h5
        · injection h5 with h5
          rw [← h5] at h6
          exact ih _ w h6
        · cases h5

/-- **C82, VECTOR and TENSOR attributes.**  The property fails: with an operation, a partition with an
overlap entity never returns without having used an indeterminate value, in any execution, whatever the
flags and lists are. -/
theorem C82_negation_arrays {N : Nums D} {op : AttOp} (hop : op ≠ .undef) {ncomp n : Nat} {g : Nat → GPart D}
    {p : Nat} {o : Ov D} {l : Option (List D)} (ho : o ∈ (g p).ov) (hl : o.val = .arr l)
    {steps : Nat} {net : PNet (Pack D) (Res (List (Ov D)))}
    (hx : PExec steps ⟨fun q => gather N op ncomp n q (g q), fun _ _ => []⟩ net) (ov' : List (Ov D)) :
    net.run p ≠ .ret (.ok ov') := by
  have hone : ∀ size procs b o', gatherOne N op ncomp size procs b o ≠ .ok o' := by
    intro size procs b o' hc
    unfold gatherOne at hc
    rw [hl] at hc
    dsimp only at hc
    obtain ⟨w, h1, h2⟩ := Res.bind_eq_ok.1 hc
    rw [combine_arr hop _ _ _ h1] at h2
    cases h2
  have hmap : ∀ size procs b, ∀ (os : List (Ov D)), o ∈ os → ∀ r, mapR (gatherOne N op ncomp size procs b) os ≠ .ok r := by
    intro size procs b os
    induction os with
    | nil => intro h; cases h
    | cons a os ih =>
      intro h r hc
      unfold mapR at hc
      obtain ⟨x, h1, h2⟩ := Res.bind_eq_ok.1 hc
      obtain ⟨y, h3, -⟩ := Res.bind_eq_ok.1 h2
      rcases List.mem_cons.1 h with rfl | h
      · exact hone _ _ _ _ h1
      · exact ih h _ h3
  have hends : ∀ q, Ends (fun a => q = p → ∀ ov', a ≠ .ok ov') (gather N op ncomp n q (g q)) := by
    intro q
    unfold gather fetch
    refine ends_rounds (fun got => ?_) _ _
    split
    · split
      · unfold fetchLists
        refine ends_rounds (fun got => .ret ?_) _ _
        rintro rfl ov' hc
        obtain ⟨b, h1, h2⟩ := Res.bind_eq_ok.1 hc
        exact hmap _ _ _ _ ho _ h2
      · exact .ret fun _ _ h => nomatch h
      · exact .ret fun _ _ h => nomatch h
      · exact .ret fun _ _ h => nomatch h
    · exact .ret fun _ _ h => nomatch h
  intro hc
  have := ends_exec hx hends p
  rw [hc] at this
  cases this with
  | ret h => exact h rfl ov' rfl

/-- a partition with a VECTOR on an overlap vertex, and one with the ghost -/
example {steps : Nat} {net : PNet (Pack Int) (Res (List (Ov Int)))}
    (hx : PExec steps ⟨fun q => gather ints .max 2 2 q (if q = 0 then ⟨fun _ => false, fun i => i == 1,
      [⟨7, .arr (some [1, 2])⟩], []⟩ else ⟨fun i => i == 0, fun _ => false, [], [⟨7, 0, .arr (some [3, 4])⟩]⟩),
      fun _ _ => []⟩ net) (ov' : List (Ov Int)) : net.run 0 ≠ .ret (.ok ov') :=
  C82_negation_arrays (by decide) (o := ⟨7, .arr (some [1, 2])⟩) List.mem_cons_self rfl hx ov'

end MSTK.Par
