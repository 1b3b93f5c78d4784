import Verif.NumberLemmas3

/-!
C64: renumbering to reduce the bandwidth (`Graph_Renumber_GPS`, `MESH_Renumber(mesh, 1, MVERTEX)`).

`rows` lists the neighbours of each node.  Specification: `Nbr`, `Walk`, `Dist`, `Ecc`, `Between`,
`WalkIn` (NumberLemmas), `IsGraph`, `IsNumbering`, `Shares`, `IsAround` below.
-/
namespace MSTK
namespace Num

/-! ### specification -/

/-- The neighbours are nodes, they are mutual, none is listed twice; the number of nodes is below the bound
for widths in the code. -/
structure IsGraph (rows : List (List Nat)) : Prop where
  range : InRange rows
  both : Mutual rows
  once : Once rows
  small : rows.length < 1000000000

/-- `m` gives the nodes of `ord` the numbers 0, 1, … in this order and all other nodes −1 -/
def IsNumbering (n : Nat) (m : List Int) (ord : List Nat) : Prop :=
  m.length = n ∧ ord.Nodup ∧ (∀ x ∈ ord, x < n) ∧ (∀ (k : Nat) x, ord[k]? = some x → m[x]? = some (k : Int)) ∧
    ∀ x, x < n → x ∉ ord → m[x]? = some (-1)

/-- the call of `Graph_Renumber_GPS` for this graph -/
def gps (rows : List (List Nat)) (start : Nat) : Res (List Int × Int) :=
  renumberGPS rows.length start (rows.map List.length) rows.flatten

/-! ### helpers -/

theorem gps_eq {rows : List (List Nat)} (h : rows.length ≠ 0) (st : Nat) :
    gps rows st = (extremal (ofRows rows) (rows.length + 1) st none (List.replicate rows.length none) >>= fun p =>
      assignLevels (ofRows rows) p.1 p.2 >>= fun q => assignNumbers (ofRows rows) p.1 p.2 q.1 >>= fun m => pure (m, q.2)) := by
  rw [gps, renumberGPS, if_neg h]; rfl

theorem buildLevels_ub {rows : List (List Nat)} (hr : InRange rows) {st : Nat} (hst : st < rows.length)
    (hc : ¬ Reached rows st) : buildLevels (ofRows rows) st (List.replicate rows.length none) = .ub := by
  rw [show buildLevels (ofRows rows) st (List.replicate rows.length none) =
    (wr (List.replicate rows.length none) 0 (some st) >>= fun map => wr (List.replicate rows.length 0) st 1 >>= fun level =>
      bfsLoop (ofRows rows) rows.length 0 ⟨level, map, 1⟩ >>= fun s => _) from rfl,
    wr_ok _ (by rw [List.length_replicate]; omega), Res.bind_ok, wr_ok _ (by rw [List.length_replicate]; exact hst), Res.bind_ok,
    bfsLoop_ub hr hc rows.length 0 (bfs_start (by simp) hst) (by omega), Res.bind_ub]

theorem numbering_of {n : Nat} {m : List Int} {ord : List Nat} (h1 : m.length = n) (h2 : ord.Nodup) (h3 : ∀ x ∈ ord, x < n)
    (h4 : ∀ x, x < n → m.getD x (-1) = if x ∈ ord then (ord.idxOf x : Int) else -1) : IsNumbering n m ord := by
  have hg : ∀ x, x < n → m[x]? = some (m.getD x (-1)) := by
    intro x hx
    rw [List.getD_eq_getElem?_getD, List.getElem?_eq_getElem (by omega), Option.getD_some]
  refine ⟨h1, h2, h3, ?_, ?_⟩
  · intro k x hk
    have hm := List.mem_of_getElem? hk
    obtain ⟨hk1, hk2⟩ := List.getElem?_eq_some_iff.1 hk
    rw [hg x (h3 x hm), h4 x (h3 x hm), if_pos hm, ← hk2, h2.idxOf_getElem]
  · intro x hx hm
    rw [hg x hx, h4 x hx, if_neg hm]

theorem maxWidth_spec (level : List Int) : ∀ d : Nat,
    (∀ l : Int, 1 ≤ l → l ≤ d → level.countP (fun x => decide (x = l)) ≤ maxWidth level d) ∧
    (0 < d → ∃ l : Int, 1 ≤ l ∧ l ≤ d ∧ level.countP (fun x => decide (x = l)) = maxWidth level d) := by
  intro d
  induction d with
  | zero => exact ⟨fun l h1 h2 => by omega, fun h => by omega⟩
  | succ d ih =>
    obtain ⟨h1, h2⟩ := ih
    rw [show maxWidth level (d+1) = max (maxWidth level d) (width level ((d:Int)+1)) from rfl]
    constructor
    · intro l hl hld
      by_cases he : l = (d:Int) + 1
      · subst he; exact Nat.le_max_right _ _
      · exact Nat.le_trans (h1 l hl (by push_cast at hld; omega)) (Nat.le_max_left _ _)
    · intro _
      by_cases hle : maxWidth level d ≤ width level ((d:Int)+1)
      · exact ⟨(d:Int)+1, by omega, by push_cast; omega, by rw [Nat.max_eq_right hle]; rfl⟩
      · have hd : 0 < d := by
          rcases Nat.eq_zero_or_pos d with rfl | h
          · exact absurd (Nat.zero_le _) hle
          · exact h
        obtain ⟨l, a, b, c⟩ := h2 hd
        exact ⟨l, a, by push_cast; omega, by rw [c, Nat.max_eq_left (by omega)]⟩

/-- what holds of a connected graph -/
theorem gps_connected {rows : List (List Nat)} (hg : IsGraph rows) (hc : Connected rows) {st : Nat} (hst : st < rows.length) :
    ∃ a b D, a < rows.length ∧ b < rows.length ∧ Dist rows a b D ∧ Ecc rows a D ∧ Ecc rows b D ∧
      extremal (ofRows rows) (rows.length + 1) st none (List.replicate rows.length none) = .ok (a, b) ∧
      (gps rows st = .ub ∨ ∃ m w ord, gps rows st = .ok (m, w) ∧ IsNumbering rows.length m ord) ∧
      ((∀ x, x < rows.length → Between rows a b D x) →
        ∃ m w ord, gps rows st = .ok (m, w) ∧ IsNumbering rows.length m ord ∧ ord.length = rows.length) ∧
      ((Between rows a b D 0) → (∃ x y, x ≠ y ∧ x < rows.length ∧ y < rows.length ∧ ¬ Between rows a b D x ∧ ¬ Between rows a b D y) →
        (∀ x y, x < rows.length → y < rows.length → ¬ Between rows a b D x → ¬ Between rows a b D y →
          WalkIn rows (fun z => z < rows.length ∧ ¬ Between rows a b D z) x y) → gps rows st = .ub) := by
  have hr := hg.range
  obtain ⟨D0, hD0⟩ : ∃ D, Ecc rows st D := by
    obtain ⟨L, q, -, h⟩ := buildLevels_ok hr hst (hc st hst) (m0 := List.replicate rows.length none) (by simp)
    obtain ⟨D, -, h⟩ := h.ecc
    exact ⟨D, h⟩
  obtain ⟨a, b, D, re, ha, hb, hd, hea, heb⟩ := extremal_ok hr hg.both hc hg.small rows.length st D0
    (List.replicate rows.length none) hst (by simp) hD0 (by omega)
  obtain ⟨p0, p1, s, q1, q2, q3, q4, q5, q6, q7⟩ := assignLevels_eq hr hc ha hb hea heb
  have hgps : gps rows st = (spread (ofRows rows) p0 p1 s.unmarked.length (D+1) (rows.length+1) s >>= fun s =>
      assignNumbers (ofRows rows) a b s.level >>= fun m => pure (m, maxOf s.base)) := by
    rw [gps_eq (by omega), re, Res.bind_ok, q7]
    cases spread (ofRows rows) p0 p1 s.unmarked.length (D+1) (rows.length+1) s <;> rfl
  have hul : s.unmarked.length ≤ rows.length := length_le_of_nodup q4 (fun x hx => ((q5 x).1 hx).1)
  have hst' : Stops (spread (ofRows rows) p0 p1 s.unmarked.length (D+1) (rows.length+1) s) :=
    spread_stops _ _ _ _ _ _ _ (Nat.le_refl _) (by omega)
  refine ⟨a, b, D, ha, hb, hd, hea, heb, re, ?_, ?_, ?_⟩
  · cases hs : spread (ofRows rows) p0 p1 s.unmarked.length (D+1) (rows.length+1) s with
    | ub => left; rw [hgps, hs]; rfl
    | hang => exact absurd hs hst'.1
    | fatal => exact absurd hs hst'.2
    | ok s' =>
      right
      obtain ⟨m, ord, rm, m1, m2, m3, m4, -⟩ := assignNumbers_ok hr hg.once (level := s'.level)
        ((spread_len hs).trans q2) ha hb
      exact ⟨m, maxOf s'.base, ord, by rw [hgps, hs, Res.bind_ok, rm]; rfl, numbering_of m1 m2 m3 m4⟩
  · intro hall
    have hu : s.unmarked = [] := List.eq_nil_iff_forall_not_mem.2 fun x hx => ((q5 x).1 hx).2 (hall x ((q5 x).1 hx).1)
    have hs : spread (ofRows rows) p0 p1 s.unmarked.length (D+1) (rows.length+1) s = .ok s := by
      rw [show spread (ofRows rows) p0 p1 s.unmarked.length (D+1) (rows.length+1) s =
        (largest (ofRows rows) s.level s.unmarked.length s.unmarked 0 [] >>= fun c => if c = [] then pure s else _) from rfl, hu]
      rfl
    obtain ⟨m, ord, rm, m1, m2, m3, m4, m5⟩ := assignNumbers_ok hr hg.once q2 ha hb
    have hlev : ∀ x, x < rows.length → ∃ d e, Dist rows a x d ∧ Dist rows b x e ∧ d + e = D ∧ s.level.getD x 0 = d + 1 := by
      intro x hx
      obtain ⟨d, e, h1, h2, h3⟩ := hall x hx
      refine ⟨d, e, h1, h2, h3, ?_⟩
      rw [q6 x hx, if_neg (by rw [hu]; simp), q1 x d hx h1]
    have hmax : maxOf s.level = D + 1 := by
      obtain ⟨z1, z2, z3⟩ := maxOf_spec s.level 0
      refine Int.le_antisymm ?_ ?_
      · rcases z3 with z3 | z3
        · rw [maxOf, z3]; omega
        · obtain ⟨x, hx⟩ := List.mem_iff_getElem?.1 z3
          have hxl := (List.getElem?_eq_some_iff.1 hx).1
          obtain ⟨d, e, -, -, h3, h4⟩ := hlev x (by omega)
          rw [List.getD_eq_getElem?_getD, hx, Option.getD_some] at h4
          rw [maxOf, h4]; omega
      · obtain ⟨d, e, h1, h2, h3, h4⟩ := hlev b hb
        have := hd.unique h1
        have hm := z2 (s.level.getD b 0) (by
          rw [List.getD_eq_getElem?_getD, List.getElem?_eq_getElem (by omega), Option.getD_some]
          exact List.getElem_mem _)
        rw [maxOf]
        omega
    have hflip : ∀ x, x < rows.length → (flipLevel s.level).getD x 0 = D + 2 - s.level.getD x 0 := by
      intro x hx
      rw [List.getD_eq_getElem?_getD, List.getD_eq_getElem?_getD, flipLevel, List.getElem?_map,
        List.getElem?_eq_getElem (by omega), Option.map_some, Option.getD_some, Option.getD_some, hmax]
      omega
    have hord := m5 (by
      intro x hx
      obtain ⟨d, e, -, -, -, h4⟩ := hlev x hx
      omega) (by
      intro x hx h1
      obtain ⟨d, e, g1, -, -, h4⟩ := hlev x hx
      obtain ⟨k, rfl⟩ : ∃ k, d = k + 1 := ⟨d - 1, by omega⟩
      obtain ⟨y, hy, hn⟩ := g1.pred
      have hyr := (hn.range hr).1
      obtain ⟨d', e', g1', -, -, h4'⟩ := hlev y hyr
      rw [hy.unique g1'] at h4
      exact ⟨y, hyr, hn, by rw [h4, h4']; push_cast; omega⟩) (by
      intro x hx h1
      obtain ⟨d, e, -, g2, g3, h4⟩ := hlev x hx
      rw [hflip x hx] at h1 ⊢
      obtain ⟨k, rfl⟩ : ∃ k, e = k + 1 := ⟨e - 1, by omega⟩
      obtain ⟨y, hy, hn⟩ := g2.pred
      have hyr := (hn.range hr).1
      obtain ⟨d', e', -, g2', g3', h4'⟩ := hlev y hyr
      have := hy.unique g2'
      refine ⟨y, hyr, hn, ?_⟩
      rw [hflip y hyr]
      omega) (by
      intro x hx h1
      obtain ⟨d, e, g1, -, -, h4⟩ := hlev x hx
      have : d = 0 := by omega
      subst this
      cases g1.1; rfl) (by
      intro x hx h1
      obtain ⟨d, e, -, g2, g3, h4⟩ := hlev x hx
      rw [hmax] at h1
      have : e = 0 := by omega
      subst this
      cases g2.1; rfl)
    refine ⟨m, maxOf s.base, ord, by rw [hgps, hs, Res.bind_ok, rm]; rfl, numbering_of m1 m2 m3 m4, ?_⟩
    have hp := perm_range (n := rows.length) m2 (fun x => ⟨m3 x, hord x⟩)
    rw [hp.length_eq, List.length_range]
  · intro h0 h2 hw
    have hU : ∀ x, x ∈ s.unmarked ↔ x < rows.length ∧ s.level.getD x 0 = 0 := by
      intro x
      constructor
      · intro hx
        have hxr := ((q5 x).1 hx).1
        exact ⟨hxr, by rw [q6 x hxr, if_pos hx]⟩
      · rintro ⟨hx, hl⟩
        rw [q6 x hx] at hl
        refine Classical.byContradiction fun hn => ?_
        rw [if_neg hn] at hl
        obtain ⟨d, hdd⟩ := hc a ha x hx
        have hB : Between rows a b D x := Classical.byContradiction fun hb => hn ((q5 x).2 ⟨hx, hb⟩)
        obtain ⟨d, e, g1, -, -⟩ := hB
        rw [q1 x d hx g1] at hl
        omega
    have hmem : ∀ x, x ∈ s.unmarked ↔ x < rows.length ∧ ¬ Between rows a b D x := q5
    have h00 : s.level.getD 0 0 ≠ 0 := fun e => ((q5 0).1 ((hU 0).2 ⟨by omega, e⟩)).2 h0
    have hlen : 2 ≤ s.unmarked.length := by
      obtain ⟨x, y, hxy, hx, hy, hbx, hby⟩ := h2
      have hs := (List.nodup_cons.2 ⟨by simpa using hxy, by simp⟩ : [x, y].Nodup).subperm (l₂ := s.unmarked) (by
        intro z hz
        rcases List.mem_cons.1 hz with rfl | hz
        · exact (q5 _).2 ⟨hx, hbx⟩
        · rw [List.mem_singleton.1 hz]; exact (q5 _).2 ⟨hy, hby⟩)
      exact hs.length_le
    have := spread_ub hr (p0 := p0) (p1 := p1) (depth := D+1) (fuel := rows.length) q2 hU q4 hlen h00 (by
      intro x hx y hy
      have hx' := (q5 x).1 hx
      have hy' := (q5 y).1 hy
      have hwk := hw x y hx'.1 hy'.1 hx'.2 hy'.2
      have hcongr : (fun z => z < rows.length ∧ ¬ Between rows a b D z) = (· ∈ s.unmarked) := by
        funext z; exact propext (q5 z).symm
      rw [hcongr] at hwk
      exact hwk)
    rw [hgps, this]; rfl

/-! ### theorems about the graph -/

/-- The level structure from a node has each node at the level of its distance; the nodes are listed in the
order of their distance; the depth is the largest level and the width the largest number of nodes of a level. -/
theorem C64_levels {rows : List (List Nat)} (hg : IsGraph rows) (hc : Connected rows) {st : Nat} (hst : st < rows.length) :
    ∃ (L : Levels) (q : List Nat), buildLevels (ofRows rows) st (List.replicate rows.length none) = .ok L ∧ L.map = q.map some ∧
      q.Perm (List.range rows.length) ∧ (∀ x, x < rows.length → ∃ d, Dist rows st x d ∧ L.level[x]? = some ((d : Int) + 1)) ∧
      q.Pairwise (fun x y => L.level.getD x 0 ≤ L.level.getD y 0) ∧
      (∃ D : Nat, L.depth = D + 1 ∧ Ecc rows st D) ∧
      (∀ l, 1 ≤ l → l ≤ L.depth → L.level.countP (fun x => decide (x = l)) ≤ L.maxwidth) ∧
      (∃ l, 1 ≤ l ∧ l ≤ L.depth ∧ L.level.countP (fun x => decide (x = l)) = L.maxwidth) := by
  obtain ⟨L, q, r, h⟩ := buildLevels_ok hg.range hst (hc st hst) (m0 := List.replicate rows.length none) (by simp)
  obtain ⟨D, hD, hE⟩ := h.ecc
  obtain ⟨w1, w2⟩ := maxWidth_spec L.level (D+1)
  have hw : L.maxwidth = maxWidth L.level (D+1) := by rw [h.maxwidth, hD]; rfl
  refine ⟨L, q, r, h.map, h.perm, ?_, h.sorted, ⟨D, hD, hE⟩, ?_, ?_⟩
  · intro x hx
    obtain ⟨d, h1, h2⟩ := h.dist x hx
    refine ⟨d, h1, ?_⟩
    rw [← h2, List.getD_eq_getElem?_getD, List.getElem?_eq_getElem (by rw [h.levlen]; exact hx), Option.getD_some]
  · intro l h1 h2
    rw [hw]
    exact w1 l h1 (by rw [hD] at h2; exact_mod_cast h2)
  · obtain ⟨l, h1, h2, h3⟩ := w2 (Nat.succ_pos D)
    exact ⟨l, h1, by rw [hD]; exact_mod_cast h2, by rw [hw]; exact h3⟩

/-- The two ends found are as far apart as any node is from either of them. -/
theorem C64_ends {rows : List (List Nat)} (hg : IsGraph rows) (hc : Connected rows) {st : Nat} (hst : st < rows.length) :
    ∃ a b D, extremal (ofRows rows) (rows.length + 1) st none (List.replicate rows.length none) = .ok (a, b) ∧
      a < rows.length ∧ b < rows.length ∧ Dist rows a b D ∧ Ecc rows a D ∧ Ecc rows b D := by
  obtain ⟨a, b, D, h1, h2, h3, h4, h5, h6, -⟩ := gps_connected hg hc hst
  exact ⟨a, b, D, h6, h1, h2, h3, h4, h5⟩

/-- A graph in more than one piece: an uninitialised node number is used as an index. -/
theorem C64_disconnected {rows : List (List Nat)} (hg : IsGraph rows) (hc : ¬ Connected rows) {st : Nat} (hst : st < rows.length) :
    gps rows st = .ub := by
  have hn : ¬ Reached rows st := by
    intro h
    refine hc fun x hx y hy => ?_
    obtain ⟨d, hd⟩ := h x hx
    obtain ⟨e, he⟩ := h y hy
    exact ⟨d + e, (hd.symm hg.both).trans he⟩
  rw [gps_eq (by omega), show extremal (ofRows rows) (rows.length + 1) st none (List.replicate rows.length none) =
    (buildLevels (ofRows rows) st (List.replicate rows.length none) >>= fun L => _) from rfl, buildLevels_ub hg.range hst hn]
  rfl

/-- Renumbering ends; when it returns, the numbers given are 0, 1, …, k−1, each once.  Missing for the full
statement (k is the number of nodes): see `C64_permutation_partial`, `C64_numbers_not`. -/
theorem C64_numbers_partial {rows : List (List Nat)} (hg : IsGraph rows) {st : Nat} (hst : st < rows.length) :
    gps rows st = .ub ∨ ∃ m w ord, gps rows st = .ok (m, w) ∧ IsNumbering rows.length m ord := by
  by_cases hc : Connected rows
  · obtain ⟨a, b, D, h1, h2, h3, h4, h5, h6, h7, -⟩ := gps_connected hg hc hst
    exact h7
  · exact Or.inl (C64_disconnected hg hc hst)

/-- All nodes get a number when every node is on a shortest walk between the two ends found. -/
theorem C64_permutation_partial {rows : List (List Nat)} (hg : IsGraph rows) (hc : Connected rows) {st : Nat} (hst : st < rows.length)
    {a b D : Nat} (he : extremal (ofRows rows) (rows.length + 1) st none (List.replicate rows.length none) = .ok (a, b))
    (hd : Dist rows a b D) (hall : ∀ x, x < rows.length → Between rows a b D x) :
    ∃ m w ord, gps rows st = .ok (m, w) ∧ IsNumbering rows.length m ord ∧ ord.Perm (List.range rows.length) := by
  obtain ⟨a', b', D', h1, h2, h3, h4, h5, h6, -, h8, -⟩ := gps_connected hg hc hst
  rw [he] at h6
  cases h6
  have := hd.unique h3
  subst this
  obtain ⟨m, w, ord, r, hn, hl⟩ := h8 hall
  exact ⟨m, w, ord, r, hn, perm_range hn.2.1 fun x => ⟨hn.2.2.1 x, mem_of_length hn.2.1 hn.2.2.1 hl⟩⟩

/-- An array overflows whenever the nodes that are on no shortest walk between the ends are two or more, hang
together, and node 0 is not one of them. -/
theorem C64_overflow {rows : List (List Nat)} (hg : IsGraph rows) (hc : Connected rows) {st : Nat} (hst : st < rows.length)
    {a b D : Nat} (he : extremal (ofRows rows) (rows.length + 1) st none (List.replicate rows.length none) = .ok (a, b))
    (hd : Dist rows a b D) (h0 : Between rows a b D 0)
    (h2 : ∃ x y, x ≠ y ∧ x < rows.length ∧ y < rows.length ∧ ¬ Between rows a b D x ∧ ¬ Between rows a b D y)
    (hw : ∀ x y, x < rows.length → y < rows.length → ¬ Between rows a b D x → ¬ Between rows a b D y →
      WalkIn rows (fun z => z < rows.length ∧ ¬ Between rows a b D z) x y) : gps rows st = .ub := by
  obtain ⟨a', b', D', h1, h2', h3, h4, h5, h6, -, -, h9⟩ := gps_connected hg hc hst
  rw [he] at h6
  cases h6
  have := hd.unique h3
  subst this
  exact h9 h0 h2 hw

/-! ### the hypotheses are met: a path of five nodes, and a single quadrilateral -/

theorem mutual_of {rows : List (List Nat)} (h : ∀ x ∈ List.range rows.length, ∀ y ∈ rows.getD x [], x ∈ rows.getD y []) :
    Mutual rows := by
  rintro x y ⟨l, h1, h2⟩
  have hx := (List.getElem?_eq_some_iff.1 h1).1
  have := h x (List.mem_range.2 hx) y (by rw [List.getD_eq_getElem?_getD, h1]; exact h2)
  rw [List.getD_eq_getElem?_getD] at this
  cases hy : rows[y]? with
  | none => rw [hy] at this; simp at this
  | some m => exact ⟨m, hy, by rw [hy] at this; exact this⟩

/-- a run of the traversal shows that the graph is connected and gives the distances -/
theorem connected_of_levels {rows : List (List Nat)} (hg : IsGraph rows) {st : Nat} (hst : st < rows.length)
    (h : (buildLevels (ofRows rows) st (List.replicate rows.length none)) ≠ .ub) : Connected rows := by
  have hr : Reached rows st := Classical.byContradiction fun hn => h (buildLevels_ub hg.range hst hn)
  intro x hx y hy
  obtain ⟨d, hd⟩ := hr x hx
  obtain ⟨e, he⟩ := hr y hy
  exact ⟨d + e, (hd.symm hg.both).trans he⟩

/-- the levels a run gives -/
def levelsOf (rows : List (List Nat)) (st : Nat) : Option (List Int) :=
  match buildLevels (ofRows rows) st (List.replicate rows.length none) with
  | .ok L => some L.level
  | _ => none

theorem dist_of_levels {rows : List (List Nat)} (hg : IsGraph rows) {st : Nat} (hst : st < rows.length) {lv : List Int}
    (h : levelsOf rows st = some lv) : Connected rows ∧ ∀ x d, x < rows.length → lv[x]? = some ((d:Nat) + 1 : Int) → Dist rows st x d := by
  have hc : Connected rows := connected_of_levels hg hst (by
    intro e
    rw [levelsOf, e] at h
    cases h)
  refine ⟨hc, ?_⟩
  obtain ⟨L, q, r, -, -, h1, -⟩ := C64_levels hg hc hst
  rw [levelsOf, r] at h
  cases h
  intro x d hx hl
  obtain ⟨d', hd', hl'⟩ := h1 x hx
  rw [hl'] at hl
  have : (d':Int) + 1 = d + 1 := Option.some.inj hl
  have : d' = d := by omega
  subst this
  exact hd'

/-- a path 0 – 1 – 2 – 3 – 4 -/
def path5 : List (List Nat) := [[1], [0, 2], [1, 3], [2, 4], [3]]

theorem path5_graph : IsGraph path5 where
  range := by unfold InRange; decide
  both := mutual_of (by decide)
  once := by unfold Once; decide
  small := by decide

/-- starting in the middle of the path: the ends are found, all nodes are between them, and get the numbers
4, 3, 2, 1, 0 -/
example : Connected path5 ∧ ∃ a b D, extremal (ofRows path5) 6 2 none (List.replicate 5 none) = .ok (a, b) ∧ Dist path5 a b D ∧
    (∀ x, x < path5.length → Between path5 a b D x) ∧ gps path5 2 = .ok ([4, 3, 2, 1, 0], 1) := by
  obtain ⟨hc, h4⟩ := dist_of_levels path5_graph (st := 4) (by decide) (lv := [5, 4, 3, 2, 1]) (by decide +kernel)
  obtain ⟨-, h0⟩ := dist_of_levels path5_graph (st := 0) (by decide) (lv := [1, 2, 3, 4, 5]) (by decide +kernel)
  refine ⟨hc, 4, 0, 4, by decide +kernel, h4 0 4 (by decide) rfl, ?_, by decide +kernel⟩
  intro x hx
  have hx5 : x < 5 := hx
  refine ⟨4 - x, x, ?_, ?_, by omega⟩
  · refine h4 x _ hx ?_
    rcases (by omega : x = 0 ∨ x = 1 ∨ x = 2 ∨ x = 3 ∨ x = 4) with rfl | rfl | rfl | rfl | rfl <;> rfl
  · refine h0 x _ hx ?_
    rcases (by omega : x = 0 ∨ x = 1 ∨ x = 2 ∨ x = 3 ∨ x = 4) with rfl | rfl | rfl | rfl | rfl <;> rfl

/-- the four vertices of a quadrilateral -/
def quad1 : List (List Nat) := [[1, 2, 3], [0, 2, 3], [0, 1, 3], [0, 1, 2]]

theorem quad1_graph : IsGraph quad1 where
  range := by unfold InRange; decide
  both := mutual_of (by decide)
  once := by unfold Once; decide
  small := by decide

/-- a single quadrilateral meets the hypotheses of `C64_overflow`: the ends are 0 and 2, the other two vertices
are on no shortest walk -/
theorem C64_quad_not : gps quad1 0 = .ub := by
  obtain ⟨hc, h0⟩ := dist_of_levels quad1_graph (st := 0) (by decide) (lv := [1, 2, 2, 2]) (by decide +kernel)
  obtain ⟨-, h2⟩ := dist_of_levels quad1_graph (st := 2) (by decide) (lv := [2, 2, 1, 2]) (by decide +kernel)
  have hn : ∀ x, x = 1 ∨ x = 3 → ¬ Between quad1 0 2 1 x := by
    rintro x hx ⟨d, e, hd, he, hde⟩
    have h1 : Dist quad1 0 x 1 := h0 x 1 (by rcases hx with rfl | rfl <;> decide) (by rcases hx with rfl | rfl <;> rfl)
    have h2 : Dist quad1 2 x 1 := h2 x 1 (by rcases hx with rfl | rfl <;> decide) (by rcases hx with rfl | rfl <;> rfl)
    have := hd.unique h1
    have := he.unique h2
    omega
  have hin : ∀ x, x < quad1.length → ¬ Between quad1 0 2 1 x → x = 1 ∨ x = 3 := by
    intro x hx hb
    have hx4 : x < 4 := hx
    rcases (by omega : x = 0 ∨ x = 1 ∨ x = 2 ∨ x = 3) with rfl | rfl | rfl | rfl
    · exact absurd ⟨0, 1, h0 0 0 (by decide) rfl, h2 0 1 (by decide) rfl, rfl⟩ hb
    · exact Or.inl rfl
    · exact absurd ⟨1, 0, h0 2 1 (by decide) rfl, h2 2 0 (by decide) rfl, rfl⟩ hb
    · exact Or.inr rfl
  refine C64_overflow quad1_graph hc (by decide) (a := 0) (b := 2) (D := 1) (by decide +kernel) (h0 2 1 (by decide) rfl)
    ⟨0, 1, h0 0 0 (by decide) rfl, h2 0 1 (by decide) rfl, rfl⟩
    ⟨1, 3, by decide, by decide, by decide, hn 1 (Or.inl rfl), hn 3 (Or.inr rfl)⟩ ?_
  intro x y hx hy hbx hby
  rcases hin x hx hbx with rfl | rfl <;> rcases hin y hy hby with rfl | rfl
  · exact .here _
  · exact .step (.here _) ⟨[0, 2, 3], rfl, by decide⟩ ⟨hy, hby⟩
  · exact .step (.here _) ⟨[0, 1, 2], rfl, by decide⟩ ⟨hy, hby⟩
  · exact .here _

/-- a node without neighbours: the graph is not connected -/
theorem not_connected_of_alone {rows : List (List Nat)} {x y : Nat} (hx : rows[x]? = some []) (hy : y < rows.length) (hxy : y ≠ x) :
    ¬ Connected rows := by
  intro h
  obtain ⟨d, hd⟩ := h x (List.getElem?_eq_some_iff.1 hx).1 y hy
  have : ∀ d y, Walk rows d x y → y = x := by
    intro d y hw
    generalize hx' : x = x' at hw
    induction hw with
    | here x => rfl
    | step _ hn ih =>
      obtain ⟨l, h1, h2⟩ := hn
      rw [ih hx', ← hx', hx] at h1
      cases h1
      simp at h2
  exact hxy (this d y hd)

example : IsGraph [[1], [0], []] ∧ ¬ Connected [[1], [0], []] :=
  ⟨⟨by unfold InRange; decide, mutual_of (by decide), by unfold Once; decide, by decide⟩,
    not_connected_of_alone (x := 2) (y := 0) rfl (by decide) (by decide)⟩

/-! ### the graph of a mesh -/

/-- `i` and `j` are different vertices of an element -/
def Shares (elems : List (List Nat)) (i j : Nat) : Prop := i ≠ j ∧ ∃ e ∈ elems, i ∈ e ∧ j ∈ e

/-- `around` lists for each of `n` vertices the elements around it, in any order -/
def IsAround (n : Nat) (elems : List (List Nat)) (around : List (List (List Nat))) : Prop :=
  around.length = n ∧ (∀ e ∈ elems, ∀ v ∈ e, v < n) ∧
    ∀ (i : Nat) l, around[i]? = some l → l.Perm (elems.filter fun e => decide (i ∈ e))

theorem gather_spec (v : Nat) : ∀ (as row marked : List Nat), ∃ new, (gather v as row marked).1 = row ++ new ∧ new.Nodup ∧
    (∀ x, x ∈ new ↔ x ∈ as ∧ x ≠ v ∧ x ∉ marked) ∧ ∀ x, x ∈ (gather v as row marked).2 ↔ x ∈ marked ∨ x ∈ new := by
  intro as
  induction as with
  | nil => intro row marked; exact ⟨[], by simp [gather], by simp, by simp, by simp [gather]⟩
  | cons a as ih =>
    intro row marked
    unfold gather
    by_cases hc : a ≠ v ∧ a ∉ marked
    · rw [if_pos hc]
      obtain ⟨new, h1, h2, h3, h4⟩ := ih (row ++ [a]) (a :: marked)
      refine ⟨a :: new, by rw [h1]; simp, ?_, ?_, ?_⟩
      · refine List.nodup_cons.2 ⟨fun h => ?_, h2⟩
        exact ((h3 a).1 h).2.2 (by simp)
      · intro x
        rw [List.mem_cons, h3, List.mem_cons, List.mem_cons]
        by_cases hx : x = a
        · subst hx; simp [hc.1, hc.2]
        · simp [hx]
      · intro x
        rw [h4, List.mem_cons, List.mem_cons]
        constructor
        · rintro ((h | h) | h)
          · exact Or.inr (Or.inl h)
          · exact Or.inl h
          · exact Or.inr (Or.inr h)
        · rintro (h | h | h)
          · exact Or.inl (Or.inr h)
          · exact Or.inl (Or.inl h)
          · exact Or.inr h
    · rw [if_neg hc]
      obtain ⟨new, h1, h2, h3, h4⟩ := ih row marked
      refine ⟨new, h1, h2, ?_, h4⟩
      intro x
      rw [h3, List.mem_cons]
      by_cases hx : x = a
      · subst hx
        constructor
        · rintro ⟨-, h⟩; exact absurd h hc
        · rintro ⟨-, h⟩; exact absurd h hc
      · simp [hx]

theorem gatherAll_marked : ∀ (around : List (List (List Nat))) (v : Nat), (gatherAll true around v []).length = around.length ∧
    ∀ (i : Nat) r, (gatherAll true around v [])[i]? = some r → ∃ l, around[i]? = some l ∧ r.Nodup ∧
      ∀ x, x ∈ r ↔ x ∈ l.flatten ∧ x ≠ v + i := by
  intro around
  induction around with
  | nil => intro v; exact ⟨rfl, by intro i r h; simp [gatherAll] at h⟩
  | cons l around ih =>
    intro v
    obtain ⟨h1, h2⟩ := ih (v+1)
    rw [show gatherAll true (l :: around) v [] = (gather v l.flatten [] []).1 :: gatherAll true around (v+1) [] from rfl]
    refine ⟨by rw [List.length_cons, h1, List.length_cons], ?_⟩
    intro i r hi
    cases i with
    | zero =>
      rw [List.getElem?_cons_zero] at hi
      cases hi
      obtain ⟨new, e, g1, g2, -⟩ := gather_spec v l.flatten [] []
      refine ⟨l, rfl, by rw [e]; simpa using g1, ?_⟩
      intro x
      rw [e, List.nil_append, g2, Nat.add_zero]
      simp
    | succ i =>
      rw [List.getElem?_cons_succ] at hi ⊢
      obtain ⟨l', a1, a2, a3⟩ := h2 i r hi
      exact ⟨l', a1, a2, fun x => by rw [a3, show v + 1 + i = v + (i + 1) by omega]⟩

theorem gatherAll_rows {n : Nat} {elems : List (List Nat)} {around : List (List (List Nat))} (h : IsAround n elems around) :
    (gatherAll true around 0 []).length = n ∧ Once (gatherAll true around 0 []) ∧
      ∀ i j, Nbr (gatherAll true around 0 []) i j ↔ Shares elems i j := by
  obtain ⟨h1, h2⟩ := gatherAll_marked around 0
  refine ⟨h1.trans h.1, ?_, ?_⟩
  · intro r hr
    obtain ⟨i, hi⟩ := List.mem_iff_getElem?.1 hr
    obtain ⟨l, -, h3, -⟩ := h2 i r hi
    exact h3
  · intro i j
    have key : ∀ l, around[i]? = some l → (j ∈ l.flatten ↔ ∃ e ∈ elems, i ∈ e ∧ j ∈ e) := by
      intro l hl
      rw [List.mem_flatten]
      constructor
      · rintro ⟨e, he, hj⟩
        have := (h.2.2 i l hl).mem_iff.1 he
        rw [List.mem_filter] at this
        exact ⟨e, this.1, of_decide_eq_true this.2, hj⟩
      · rintro ⟨e, he, hi, hj⟩
        exact ⟨e, (h.2.2 i l hl).mem_iff.2 (List.mem_filter.2 ⟨he, decide_eq_true hi⟩), hj⟩
    constructor
    · rintro ⟨r, hr, hj⟩
      obtain ⟨l, hl, -, h4⟩ := h2 i r hr
      have := (h4 j).1 hj
      rw [Nat.zero_add] at this
      exact ⟨fun e => this.2 e.symm, (key l hl).1 this.1⟩
    · rintro ⟨hne, e, he, hie, hje⟩
      have hin : i < (gatherAll true around 0 []).length := by rw [h1, h.1]; exact h.2.1 e he i hie
      obtain ⟨l, hl, -, h4⟩ := h2 i _ (List.getElem?_eq_getElem hin)
      refine ⟨_, List.getElem?_eq_getElem hin, (h4 j).2 ⟨(key l hl).2 ⟨e, he, hie, hje⟩, by rw [Nat.zero_add]; exact fun e => hne e.symm⟩⟩

/-- Built with markers, the graph given to the renumbering lists as neighbours of a vertex the other vertices
of the elements around it, each once. -/
theorem C64_graph {n : Nat} {elems : List (List Nat)} {around : List (List (List Nat))} (h : IsAround n elems around)
    (hn : n < 1000000000) : IsGraph (gatherAll true around 0 []) ∧ (gatherAll true around 0 []).length = n ∧
      ∀ i j, Nbr (gatherAll true around 0 []) i j ↔ Shares elems i j := by
  obtain ⟨h1, h2, h3⟩ := gatherAll_rows h
  refine ⟨⟨?_, ?_, h2, by rw [h1]; exact hn⟩, h1, h3⟩
  · intro r hr y hy
    obtain ⟨i, hi⟩ := List.mem_iff_getElem?.1 hr
    obtain ⟨-, e, he, -, hye⟩ := (h3 i y).1 ⟨r, hi, hy⟩
    rw [h1]; exact h.2.1 e he y hye
  · intro x y hxy
    obtain ⟨hne, e, he, a, b⟩ := (h3 x y).1 hxy
    exact (h3 y x).2 ⟨fun e => hne e.symm, e, he, b, a⟩

theorem gatherAll_once : ∀ (around : List (List (List Nat))) (v : Nat) (marked : List Nat),
    (gatherAll false around v marked).flatten.Nodup ∧ ∀ x ∈ (gatherAll false around v marked).flatten, x ∉ marked := by
  intro around
  induction around with
  | nil => intro v marked; exact ⟨by simp [gatherAll], by simp [gatherAll]⟩
  | cons l around ih =>
    intro v marked
    obtain ⟨new, e, g1, g2, g3⟩ := gather_spec v l.flatten [] marked
    obtain ⟨h1, h2⟩ := ih (v+1) (gather v l.flatten [] marked).2
    rw [show gatherAll false (l :: around) v marked =
      (gather v l.flatten [] marked).1 :: gatherAll false around (v+1) (gather v l.flatten [] marked).2 from rfl,
      List.flatten_cons, e, List.nil_append]
    constructor
    · rw [List.nodup_append]
      refine ⟨g1, h1, ?_⟩
      rintro x hx y hy rfl
      exact h2 x hy ((g3 x).2 (Or.inr hx))
    · intro x hx
      rcases List.mem_append.1 hx with hx | hx
      · exact ((g2 x).1 hx).2.2
      · exact fun hm => h2 x hx ((g3 x).2 (Or.inl hm))

/-- Built without markers (the default) the attribute that marks a vertex is never reset: each vertex is listed
as a neighbour at most once in all.  So whenever an element has three vertices, two vertices that share an
element are not neighbours in the graph. -/
theorem C64_graph_default_not {elems : List (List Nat)} {around : List (List (List Nat))} {e : List Nat} (he : e ∈ elems)
    {i j k : Nat} (hi : i ∈ e) (hj : j ∈ e) (hk : k ∈ e) (hij : i ≠ j) (hik : i ≠ k) (hjk : j ≠ k) :
    ∃ x y, Shares elems x y ∧ ¬ Nbr (gatherAll false around 0 []) x y := by
  refine Classical.byContradiction fun hn => ?_
  have hall : ∀ x y, Shares elems x y → Nbr (gatherAll false around 0 []) x y := fun x y h =>
    Classical.byContradiction fun h' => hn ⟨x, y, h, h'⟩
  obtain ⟨li, h1, h2⟩ := hall i k ⟨hik, e, he, hi, hk⟩
  obtain ⟨lj, h3, h4⟩ := hall j k ⟨hjk, e, he, hj, hk⟩
  have hnd := (gatherAll_once around 0 []).1
  rw [List.nodup_flatten] at hnd
  have hp := hnd.2
  rw [List.pairwise_iff_getElem] at hp
  obtain ⟨a1, a2⟩ := List.getElem?_eq_some_iff.1 h1
  obtain ⟨b1, b2⟩ := List.getElem?_eq_some_iff.1 h3
  rcases Nat.lt_or_gt_of_ne hij with h | h
  · have := hp i j a1 b1 h
    rw [a2, b2] at this
    exact this h2 h4
  · have := hp j i b1 a1 h
    rw [a2, b2] at this
    exact this h4 h2

/-! ### the IDs of the vertices -/

theorem corner_lt : ∀ (cs : List (Int × Int × Int)) (i : Nat) (m : Int × Int × Int) (v : Option Nat) {w : Nat},
    corner cs i m v = some w → v = some w ∨ w < i + cs.length := by
  intro cs
  induction cs with
  | nil => intro i m v w h; exact Or.inl h
  | cons c cs ih =>
    intro i m v w h
    unfold corner at h
    split at h
    · rcases ih _ _ _ h with h | h
      · cases h; right; rw [List.length_cons]; omega
      · right; rw [List.length_cons]; omega
    · rcases ih _ _ _ h with h | h
      · exact Or.inl h
      · right; rw [List.length_cons]; omega

theorem bwRow_spec {num : List Int} {cur : Int} : ∀ {as : List Nat} {p p' : Nat × Nat}, bwRow num cur as p = .ok p' →
    p.1 ≤ p'.1 ∧ (∀ y ∈ as, (num.getD y 0 - cur).natAbs ≤ p'.1) ∧ (p'.1 = p.1 ∨ ∃ y ∈ as, (num.getD y 0 - cur).natAbs = p'.1) := by
  intro as
  induction as with
  | nil => intro p p' h; cases h; exact ⟨Nat.le_refl _, by simp, Or.inl rfl⟩
  | cons a as ih =>
    intro p p' h
    obtain ⟨x, hx, h⟩ := Res.bind_eq_ok.1 h
    have hxa : num.getD a 0 = x := by
      unfold rd at hx
      cases ha : num[a]? with
      | none => rw [ha] at hx; cases hx
      | some v => rw [ha] at hx; cases hx; rw [List.getD_eq_getElem?_getD, ha]; rfl
    obtain ⟨h1, h2, h3⟩ := ih h
    dsimp only at h1 h3
    refine ⟨by omega, ?_, ?_⟩
    · intro y hy
      rcases List.mem_cons.1 hy with rfl | hy
      · rw [hxa]; exact Nat.le_trans (Nat.le_max_right _ _) h1
      · exact h2 y hy
    · rcases h3 with h3 | ⟨y, hy, h3⟩
      · by_cases hle : (x - cur).natAbs ≤ p.1
        · left; rw [h3]; omega
        · right; exact ⟨a, by simp, by rw [hxa, h3]; omega⟩
      · right; exact ⟨y, by simp [hy], h3⟩

theorem bwRow_ok {num : List Int} {cur : Int} : ∀ {as : List Nat} (p : Nat × Nat), (∀ y ∈ as, y < num.length) →
    ∃ p', bwRow num cur as p = .ok p' := by
  intro as
  induction as with
  | nil => intro p _; exact ⟨p, rfl⟩
  | cons a as ih =>
    intro p h
    obtain ⟨p', r⟩ := ih (max p.1 (num.getD a 0 - cur).natAbs, p.2 + (num.getD a 0 - cur).natAbs) (fun y hy => h y (by simp [hy]))
    exact ⟨p', by rw [show bwRow num cur (a :: as) p = (rd num a >>= fun x => bwRow num cur as (max p.1 (x - cur).natAbs, p.2 + (x - cur).natAbs)) from rfl,
      rd_getD 0 (h a (by simp)), Res.bind_ok, r]⟩

theorem bandwidth_ok {num : List Int} : ∀ (rows : List (List Nat)) (i : Nat) (p : Nat × Nat), i + rows.length ≤ num.length →
    (∀ l ∈ rows, ∀ y ∈ l, y < num.length) → ∃ p', bandwidth num rows i p = .ok p' := by
  intro rows
  induction rows with
  | nil => intro i p _ _; exact ⟨p, rfl⟩
  | cons r rs ih =>
    intro i p hi h
    rw [List.length_cons] at hi
    obtain ⟨p1, r1⟩ := bwRow_ok (num := num) (cur := num.getD i 0) p (h r (by simp))
    obtain ⟨p2, r2⟩ := ih (i+1) p1 (by omega) (fun l hl => h l (by simp [hl]))
    exact ⟨p2, by rw [show bandwidth num (r :: rs) i p = (rd num i >>= fun c => bwRow num c r p >>= fun p => bandwidth num rs (i+1) p) from rfl,
      rd_getD 0 (by omega), Res.bind_ok, r1, Res.bind_ok, r2]⟩

theorem bandwidth_spec {num : List Int} : ∀ {rows : List (List Nat)} {i : Nat} {p p' : Nat × Nat}, bandwidth num rows i p = .ok p' →
    p.1 ≤ p'.1 ∧ (∀ (k : Nat) l y, rows[k]? = some l → y ∈ l → (num.getD y 0 - num.getD (i+k) 0).natAbs ≤ p'.1) ∧
    (p'.1 = p.1 ∨ ∃ (k : Nat) (l : List Nat) (y : Nat), rows[k]? = some l ∧ y ∈ l ∧ (num.getD y 0 - num.getD (i+k) 0).natAbs = p'.1) := by
  intro rows
  induction rows with
  | nil => intro i p p' h; cases h; exact ⟨Nat.le_refl _, by simp, Or.inl rfl⟩
  | cons r rs ih =>
    intro i p p' h
    obtain ⟨c, hc, h⟩ := Res.bind_eq_ok.1 h
    obtain ⟨p1, hp, h⟩ := Res.bind_eq_ok.1 h
    have hci : num.getD i 0 = c := by
      unfold rd at hc
      cases ha : num[i]? with
      | none => rw [ha] at hc; cases hc
      | some v => rw [ha] at hc; cases hc; rw [List.getD_eq_getElem?_getD, ha]; rfl
    obtain ⟨a1, a2, a3⟩ := bwRow_spec hp
    obtain ⟨b1, b2, b3⟩ := ih h
    refine ⟨by omega, ?_, ?_⟩
    · intro k l y hk hy
      cases k with
      | zero =>
        rw [List.getElem?_cons_zero] at hk
        cases hk
        have := a2 y hy
        rw [Nat.add_zero, hci]; omega
      | succ k =>
        rw [List.getElem?_cons_succ] at hk
        have := b2 k l y hk hy
        rw [show i + 1 + k = i + (k + 1) by omega] at this
        exact this
    · rcases b3 with b3 | ⟨k, l, y, h1, h2, h3⟩
      · rcases a3 with a3 | ⟨y, hy, a3⟩
        · left; omega
        · right
          exact ⟨0, r, y, rfl, hy, by rw [Nat.add_zero, hci, b3]; exact a3⟩
      · right
        exact ⟨k+1, l, y, by rw [List.getElem?_cons_succ]; exact h1, h2, by rw [← h3, show i + 1 + k = i + (k + 1) by omega]⟩

theorem getD_seq {n x : Nat} (hx : x < n) (d : Int) : (((List.range n).map fun (i : Nat) => (i : Int))).getD x d = x := by
  rw [List.getD_eq_getElem?_getD, List.getElem?_map, List.getElem?_range hx]; rfl

/-- `MESH_Renumber(mesh, 1, MVERTEX)` of a mesh whose vertices do not hang together: undefined behaviour. -/
theorem C64_pieces {n : Nat} {elems : List (List Nat)} {around : List (List (List Nat))} (h : IsAround n elems around)
    (hn : n < 1000000000) {coords : List (Int × Int × Int)} (hco : coords.length = n)
    (hc : ¬ Connected (gatherAll true around 0 [])) : renumberVerts true coords around = .ub := by
  obtain ⟨hg, hl, -⟩ := C64_graph h hn
  obtain ⟨b1, r1⟩ := bandwidth_ok (num := (List.range (gatherAll true around 0 []).length).map fun (i : Nat) => (i : Int))
    (gatherAll true around 0 []) 0 (0, 0) (by simp) (by
      intro l hl y hy
      rw [List.length_map, List.length_range]
      exact hg.range l hl y hy)
  rw [show renumberVerts true coords around = (bandwidth ((List.range (gatherAll true around 0 []).length).map fun (i : Nat) => (i : Int))
    (gatherAll true around 0 []) 0 (0, 0) >>= fun b1 => Res.ofOption (corner coords 0 (1000000000000, 1000000000000, 1000000000000) none) >>= fun v0 =>
    gps (gatherAll true around 0 []) v0 >>= fun p => _) from rfl, r1, Res.bind_ok]
  cases hv : corner coords 0 (1000000000000, 1000000000000, 1000000000000) none with
  | none => rfl
  | some v =>
    have hvn : v < n := by
      rcases corner_lt _ _ _ _ hv with h | h
      · cases h
      · omega
    rw [Res.ofOption_some, Res.bind_ok, C64_disconnected hg hc (by omega), Res.bind_ub]

/-- When `MESH_Renumber(mesh, 1, MVERTEX)` returns, the IDs are 1, 2, … in the order of the vertices, or they
make the largest difference of IDs in an element smaller; an ID other than 0 is not given twice.  Missing for
the full statement: the ID 0 may be given, and more than once (`C64_ids_not`). -/
theorem C64_ids_partial {n : Nat} {elems : List (List Nat)} {around : List (List (List Nat))} (h : IsAround n elems around)
    (hn : n < 1000000000) {coords : List (Int × Int × Int)} (hco : coords.length = n) {ids : List Int}
    (hr : renumberVerts true coords around = .ok ids) :
    ids.length = n ∧ (∀ x, x < n → 0 ≤ ids.getD x 0 ∧ ids.getD x 0 ≤ n) ∧
      (∀ x y, x < n → y < n → ids.getD x 0 = ids.getD y 0 → ids.getD x 0 ≠ 0 → x = y) ∧
      (ids = (List.range n).map (fun (i : Nat) => (i : Int) + 1) ∨
        ∃ B, (∀ i j, Shares elems i j → (ids.getD i 0 - ids.getD j 0).natAbs ≤ B) ∧
          ∃ i j, Shares elems i j ∧ B < ((i : Int) - j).natAbs) := by
  obtain ⟨hg, hl, hs⟩ := C64_graph h hn
  rw [show renumberVerts true coords around = (bandwidth ((List.range (gatherAll true around 0 []).length).map fun (i : Nat) => (i : Int))
    (gatherAll true around 0 []) 0 (0, 0) >>= fun b1 => Res.ofOption (corner coords 0 (1000000000000, 1000000000000, 1000000000000) none) >>= fun v0 =>
    gps (gatherAll true around 0 []) v0 >>= fun p => bandwidth p.1 (gatherAll true around 0 []) 0 (0, 0) >>= fun b2 =>
    if b2.1 < b1.1 ∧ b2.2 < b1.2 then pure (p.1.map (· + 1)) else
      pure ((List.range (gatherAll true around 0 []).length).map fun (i : Nat) => (i : Int) + 1)) from rfl] at hr
  generalize gatherAll true around 0 [] = rows at hg hl hs hr
  subst hl
  obtain ⟨b1, r1, hr⟩ := Res.bind_eq_ok.1 hr
  obtain ⟨v0, r2, hr⟩ := Res.bind_eq_ok.1 hr
  obtain ⟨p, r3, hr⟩ := Res.bind_eq_ok.1 hr
  obtain ⟨b2, r4, hr⟩ := Res.bind_eq_ok.1 hr
  have hv0 : v0 < rows.length := by
    cases hv : corner coords 0 (1000000000000, 1000000000000, 1000000000000) none with
    | none => rw [hv] at r2; cases r2
    | some v =>
      rw [hv] at r2
      cases r2
      rcases corner_lt _ _ _ _ hv with h | h
      · cases h
      · omega
  split at hr
  · rename_i hb
    cases hr
    rcases C64_numbers_partial hg hv0 with e | ⟨m, w, ord, e, hm⟩
    · rw [e] at r3; cases r3
    · rw [e] at r3
      cases r3
      dsimp only at r4 ⊢
      obtain ⟨m1, m2, m3, m4, m5⟩ := hm
      have hget : ∀ x, x < rows.length → (m.map (· + 1)).getD x 0 = m.getD x 0 + 1 := by
        intro x hx
        rw [List.getD_eq_getElem?_getD, List.getElem?_map, List.getD_eq_getElem?_getD, List.getElem?_eq_getElem (by omega)]; rfl
      have hval : ∀ x, x < rows.length → (x ∉ ord ∧ m.getD x 0 = -1) ∨ ∃ k : Nat, ord[k]? = some x ∧ m.getD x 0 = k ∧ k < rows.length := by
        intro x hx
        by_cases hxo : x ∈ ord
        · obtain ⟨k, hk⟩ := List.mem_iff_getElem?.1 hxo
          refine Or.inr ⟨k, hk, by rw [List.getD_eq_getElem?_getD, m4 k x hk]; rfl, ?_⟩
          have h1 := (List.getElem?_eq_some_iff.1 hk).1
          have h2 := length_le_of_nodup m2 m3
          omega
        · exact Or.inl ⟨hxo, by rw [List.getD_eq_getElem?_getD, m5 x hx hxo]; rfl⟩
      refine ⟨by simp [m1], ?_, ?_, Or.inr ⟨b2.1, ?_, ?_⟩⟩
      · intro x hx
        rw [hget x hx]
        rcases hval x hx with ⟨-, h⟩ | ⟨k, -, h, hk⟩ <;> rw [h] <;> omega
      · intro x y hx hy hxy hx0
        rw [hget x hx] at hxy hx0
        rw [hget y hy] at hxy
        rcases hval x hx with ⟨-, h⟩ | ⟨k, hk, h, -⟩
        · omega
        · rcases hval y hy with ⟨-, h'⟩ | ⟨k', hk', h', -⟩
          · omega
          · have : k = k' := by omega
            subst this
            rw [hk] at hk'
            cases hk'; rfl
      · intro i j hij
        obtain ⟨l, hli, hjl⟩ := (hs i j).2 hij
        have hi := (List.getElem?_eq_some_iff.1 hli).1
        have hj := hg.range l (List.mem_of_getElem? hli) j hjl
        have := (bandwidth_spec r4).2.1 i l j hli hjl
        rw [Nat.zero_add] at this
        rw [hget i hi, hget j hj]
        omega
      · rcases (bandwidth_spec r1).2.2 with e1 | ⟨k, l, y, h1, h2, h3⟩
        · rw [e1] at hb; omega
        · have hk := (List.getElem?_eq_some_iff.1 h1).1
          have hy := hg.range l (List.mem_of_getElem? h1) y h2
          rw [Nat.zero_add, getD_seq hy, getD_seq hk] at h3
          exact ⟨k, y, (hs k y).1 ⟨l, h1, h2⟩, by omega⟩
  · cases hr
    have hget : ∀ x, x < rows.length → ((List.range rows.length).map fun (i : Nat) => (i : Int) + 1).getD x 0 = x + 1 := by
      intro x hx
      rw [List.getD_eq_getElem?_getD, List.getElem?_map, List.getElem?_range hx]; rfl
    refine ⟨by simp, ?_, ?_, Or.inl rfl⟩
    · intro x hx; rw [hget x hx]; omega
    · intro x y hx hy hxy _
      rw [hget x hx, hget y hy] at hxy
      omega

/-- `MESH_Renumber(mesh, 1, MVERTEX)` gives the vertices the IDs 1, …, n, each once, when the vertices hang
together and all are on shortest walks between the two ends found. -/
theorem C64_ids_permutation_partial {n : Nat} {elems : List (List Nat)} {around : List (List (List Nat))} (h : IsAround n elems around)
    (hn : n < 1000000000) {coords : List (Int × Int × Int)} (hco : coords.length = n) {v0 : Nat}
    (hv0 : corner coords 0 (1000000000000, 1000000000000, 1000000000000) none = some v0)
    (hc : Connected (gatherAll true around 0 []))
    {a b D : Nat} (he : extremal (ofRows (gatherAll true around 0 [])) (n + 1) v0 none (List.replicate n none) = .ok (a, b))
    (hd : Dist (gatherAll true around 0 []) a b D) (hall : ∀ x, x < n → Between (gatherAll true around 0 []) a b D x) :
    ∃ ids, renumberVerts true coords around = .ok ids ∧ ids.Perm ((List.range n).map fun (i : Nat) => (i : Int) + 1) := by
  obtain ⟨hg, hl, -⟩ := C64_graph h hn
  have hv : v0 < n := by
    rcases corner_lt _ _ _ _ hv0 with h | h
    · cases h
    · omega
  rw [show renumberVerts true coords around = (bandwidth ((List.range (gatherAll true around 0 []).length).map fun (i : Nat) => (i : Int))
    (gatherAll true around 0 []) 0 (0, 0) >>= fun b1 => Res.ofOption (corner coords 0 (1000000000000, 1000000000000, 1000000000000) none) >>= fun v0 =>
    gps (gatherAll true around 0 []) v0 >>= fun p => bandwidth p.1 (gatherAll true around 0 []) 0 (0, 0) >>= fun b2 =>
    if b2.1 < b1.1 ∧ b2.2 < b1.2 then pure (p.1.map (· + 1)) else
      pure ((List.range (gatherAll true around 0 []).length).map fun (i : Nat) => (i : Int) + 1)) from rfl, hv0]
  generalize gatherAll true around 0 [] = rows at hg hl hc he hd hall
  subst hl
  obtain ⟨m, w, ord, r, hm, hpm⟩ := C64_permutation_partial hg hc hv he hd hall
  have hlen : ord.length = rows.length := by rw [hpm.length_eq, List.length_range]
  obtain ⟨b1, r1⟩ := bandwidth_ok (num := (List.range rows.length).map fun (i : Nat) => (i : Int)) rows 0 (0, 0) (by simp) (by
      intro l hl y hy
      rw [List.length_map, List.length_range]
      exact hg.range l hl y hy)
  obtain ⟨b2, r2⟩ := bandwidth_ok (num := m) rows 0 (0, 0) (by rw [hm.1]; omega) (by rw [hm.1]; exact hg.range)
  rw [r1, Res.bind_ok, Res.ofOption_some, Res.bind_ok, r, Res.bind_ok, r2, Res.bind_ok]
  split
  · refine ⟨_, rfl, ?_⟩
    obtain ⟨m1, m2, m3, m4, -⟩ := hm
    have hmm : m = (List.range rows.length).map fun x => ((ord.idxOf x : Nat) : Int) := by
      refine List.ext_getElem? fun x => ?_
      by_cases hx : x < rows.length
      · obtain ⟨k, hk⟩ := List.mem_iff_getElem?.1 (mem_of_length m2 m3 hlen hx)
        obtain ⟨k1, k2⟩ := List.getElem?_eq_some_iff.1 hk
        rw [m4 k x hk, List.getElem?_map, List.getElem?_range hx, Option.map_some, ← k2, m2.idxOf_getElem]
      · rw [List.getElem?_eq_none (by omega), List.getElem?_eq_none (by simp; omega)]
    have hp : ord.Perm (List.range rows.length) := perm_range m2 fun x => ⟨m3 x, mem_of_length m2 m3 hlen⟩
    have h1 : (m.map (· + 1)).Perm ((ord.map fun x => ((ord.idxOf x : Nat) : Int)).map (· + 1)) := by
      rw [hmm]
      exact (hp.symm.map _).map _
    have h2 : ord.map (fun x => ((ord.idxOf x : Nat) : Int)) = (List.range rows.length).map fun (i : Nat) => (i : Int) := by
      refine List.ext_getElem? fun k => ?_
      rw [List.getElem?_map, List.getElem?_map]
      by_cases hk : k < rows.length
      · rw [List.getElem?_range hk, List.getElem?_eq_getElem (by omega), Option.map_some, Option.map_some, m2.idxOf_getElem]
      · rw [List.getElem?_eq_none (by omega), List.getElem?_eq_none (by simp; omega)]; rfl
    rw [h2, List.map_map] at h1
    exact h1
  · exact ⟨_, rfl, List.Perm.refl _⟩

/-- the elements around each vertex, in the order of `elems` -/
def aroundOf (n : Nat) (elems : List (List Nat)) : List (List (List Nat)) :=
  (List.range n).map fun i => elems.filter fun e => decide (i ∈ e)

theorem isAround_of {n : Nat} {elems : List (List Nat)} (h : ∀ e ∈ elems, ∀ v ∈ e, v < n) : IsAround n elems (aroundOf n elems) := by
  refine ⟨by simp [aroundOf], h, ?_⟩
  intro i l hl
  have hi : i < n := by
    have := (List.getElem?_eq_some_iff.1 hl).1
    rw [aroundOf, List.length_map, List.length_range] at this
    exact this
  rw [aroundOf, List.getElem?_map, List.getElem?_range hi] at hl
  cases hl
  exact List.Perm.refl _

/-- a triangle and a vertex on no element meet the hypotheses of `C64_pieces` -/
example : IsAround 4 [[0, 1, 2]] (aroundOf 4 [[0, 1, 2]]) ∧ ¬ Connected (gatherAll true (aroundOf 4 [[0, 1, 2]]) 0 []) :=
  ⟨isAround_of (by decide), not_connected_of_alone (x := 3) (y := 0) (by decide) (by decide) (by decide)⟩

/-- two triangles with a common edge meet the hypotheses of `C64_ids_permutation_partial` -/
def twoTri : List (List Nat) := [[0, 3, 2], [2, 3, 1]]

example : ∃ ids, renumberVerts true [(0, 0, 0), (1, 1, 0), (0, 1, 0), (1, 0, 0)] (aroundOf 4 twoTri) = .ok ids ∧
    ids.Perm [1, 2, 3, 4] := by
  have ha : IsAround 4 twoTri (aroundOf 4 twoTri) := isAround_of (by decide)
  have hg := (C64_graph ha (by decide)).1
  have hrows : gatherAll true (aroundOf 4 twoTri) 0 [] = [[3, 2], [2, 3], [0, 3, 1], [0, 2, 1]] := by decide
  have hd0 := dist_of_levels hg (st := 0) (by rw [hrows]; decide) (lv := [1, 3, 2, 2]) (by rw [hrows]; decide +kernel)
  have hd1 := dist_of_levels hg (st := 1) (by rw [hrows]; decide) (lv := [3, 1, 2, 2]) (by rw [hrows]; decide +kernel)
  have hlen : (gatherAll true (aroundOf 4 twoTri) 0 []).length = 4 := by rw [hrows]; rfl
  refine C64_ids_permutation_partial ha (by decide) rfl (v0 := 0) (by decide) hd0.1 (a := 0) (b := 1) (D := 2)
    (by rw [hrows]; decide +kernel) (hd0.2 1 2 (by omega) rfl) ?_
  intro x hx
  rcases (by omega : x = 0 ∨ x = 1 ∨ x = 2 ∨ x = 3) with rfl | rfl | rfl | rfl
  · exact ⟨0, 2, hd0.2 0 0 (by omega) rfl, hd1.2 0 2 (by omega) rfl, rfl⟩
  · exact ⟨2, 0, hd0.2 1 2 (by omega) rfl, hd1.2 1 0 (by omega) rfl, rfl⟩
  · exact ⟨1, 1, hd0.2 2 1 (by omega) rfl, hd1.2 2 1 (by omega) rfl, rfl⟩
  · exact ⟨1, 1, hd0.2 3 1 (by omega) rfl, hd1.2 3 1 (by omega) rfl, rfl⟩

/-- an L of three quadrilaterals; the corner vertex is 4 -/
def lShape : List (List Nat) := [[4, 2, 0, 3], [3, 0, 1, 7], [0, 5, 6, 1]]

def lCoords : List (Int × Int × Int) := [(1, 1, 0), (1, 2, 0), (1, 0, 0), (0, 1, 0), (0, 0, 0), (2, 1, 0), (2, 2, 0), (0, 2, 0)]

/-- Two vertices of an L of three quadrilaterals get the ID 0. -/
theorem C64_ids_not : IsAround 8 lShape (aroundOf 8 lShape) ∧
    renumberVerts true lCoords (aroundOf 8 lShape) = .ok [4, 5, 2, 3, 1, 0, 0, 6] :=
  ⟨isAround_of (by decide), by decide +kernel⟩

/-- A mesh of one quadrilateral: an array overflows. -/
theorem C64_ids_quad_not : IsAround 4 [[0, 1, 2, 3]] (aroundOf 4 [[0, 1, 2, 3]]) ∧
    renumberVerts true [(0, 0, 0), (1, 0, 0), (1, 1, 0), (0, 1, 0)] (aroundOf 4 [[0, 1, 2, 3]]) = .ub :=
  ⟨isAround_of (by decide), by decide +kernel⟩

/-- Built without markers, the call ends the program for a mesh of one triangle. -/
theorem C64_ids_default_not : IsAround 3 [[0, 1, 2]] (aroundOf 3 [[0, 1, 2]]) ∧
    renumberVerts false [(0, 0, 0), (1, 0, 0), (0, 1, 0)] (aroundOf 3 [[0, 1, 2]]) = .fatal :=
  ⟨isAround_of (by decide), by decide +kernel⟩

end Num
end MSTK
