import Verif.SurfModel
import Verif.FileLemmas
import Mathlib.Algebra.Field.Basic
import Mathlib.Tactic.FieldSimp
import Mathlib.Tactic.Ring
import Mathlib.Algebra.Field.Rat
/-!
C90: the export of surface meshes to the formats OFF and STL.
-/
namespace MSTK.File

/-! ### Specification: readers of the two formats -/

/-- the words of a text, separated by blanks -/
def words : Text → List (List Char)
  | [] => []
  | c :: s =>
    if blank c then words s
    else match s with
      | [] => [[c]]
      | d :: t =>
        if blank d then [c] :: words (d :: t)
        else match words (d :: t) with
          | [] => [[c]]
          | w :: ws => (c :: w) :: ws

/-- a word of digits is a number -/
def numOf (w : List Char) : Option Nat := if w ≠ [] ∧ w.all isDig then some (readNat w) else none

/-- the coordinates of `n` points, three words each -/
def pointsOf (dbl : Dbl D) : Nat → List (List Char) → Option (List (D × D × D) × List (List Char))
  | 0, ws => some ([], ws)
  | n+1, x :: y :: z :: ws => do
    let a ← dbl.scan x
    let b ← dbl.scan y
    let c ← dbl.scan z
    let (ps, ws) ← pointsOf dbl n ws
    pure ((a, b, c) :: ps, ws)
  | _+1, _ => none

/-- `k` references to `n` points, which are numbered from `base` on: the positions of the points -/
def indicesOf (base n : Nat) : Nat → List (List Char) → Option (List Nat × List (List Char))
  | 0, ws => some ([], ws)
  | k+1, w :: ws => do
    let i ← numOf w
    if base ≤ i ∧ i < base + n then
      let (is, ws) ← indicesOf base n k ws
      pure ((i - base) :: is, ws)
    else none
  | _+1, [] => none

/-- `m` polygons -/
def polysOf (base n : Nat) : Nat → List (List Char) → Option (List (List Nat) × List (List Char))
  | 0, ws => some ([], ws)
  | m+1, w :: ws => do
    let k ← numOf w
    let (p, ws) ← indicesOf base n k ws
    let (ps, ws) ← polysOf base n m ws
    pure (p :: ps, ws)
  | _+1, [] => none

/-- The surface an OFF file describes: points, and polygons given by the positions of their corners.  In
the OFF format points are numbered from 0 on, `base = 0`. -/
def offOf (dbl : Dbl D) (base : Nat) (t : Text) : Option (List (D × D × D) × List (List Nat)) :=
  match words t with
  | w :: a :: b :: c :: ws => do
    if w = ['O','F','F'] then
      let n ← numOf a
      let m ← numOf b
      let _ ← numOf c
      let (ps, ws) ← pointsOf dbl n ws
      let (fs, ws) ← polysOf base n m ws
      if ws = [] then some (ps, fs) else none
    else none
  | _ => none

/-- The next word is a keyword.  A reader of the format wants the word itself; with `glued` the keyword
may run into what follows. -/
def expect (glued : Bool) (key : List Char) : List (List Char) → Option (List (List Char))
  | [] => none
  | w :: ws => if w = key then some ws
    else if glued ∧ key.isPrefixOf w then some (w.drop key.length :: ws) else none

/-- the three numbers of a vector -/
def vectorOf (dbl : Dbl D) (ws : List (List Char)) : Option ((D × D × D) × List (List Char)) :=
  match pointsOf dbl 1 ws with
  | some ([p], ws) => some (p, ws)
  | _ => none

/-- one facet of an STL file: normal and corners -/
def facetOf (dbl : Dbl D) (glued : Bool) (ws : List (List Char)) :
    Option (((D × D × D) × (D × D × D) × (D × D × D) × (D × D × D)) × List (List Char)) := do
  let ws ← expect false ['f','a','c','e','t'] ws
  let ws ← expect false ['n','o','r','m','a','l'] ws
  let (n, ws) ← vectorOf dbl ws
  let ws ← expect false ['o','u','t','e','r'] ws
  let ws ← expect false ['l','o','o','p'] ws
  let ws ← expect false ['v','e','r','t','e','x'] ws
  let (p, ws) ← vectorOf dbl ws
  let ws ← expect false ['v','e','r','t','e','x'] ws
  let (q, ws) ← vectorOf dbl ws
  let ws ← expect false ['v','e','r','t','e','x'] ws
  let (r, ws) ← vectorOf dbl ws
  let ws ← expect glued ['e','n','d','l','o','o','p'] ws
  let ws ← expect glued ['e','n','d','f','a','c','e','t'] ws
  pure ((n, p, q, r), ws)

/-- facets up to the word `endsolid`; the first argument bounds their number -/
def facetsOf (dbl : Dbl D) (glued : Bool) : Nat → List (List Char) →
    Option (List ((D × D × D) × (D × D × D) × (D × D × D) × (D × D × D)))
  | 0, _ => none
  | m+1, ws =>
    if ws = [['e','n','d','s','o','l','i','d']] then some []
    else do
      let (f, ws) ← facetOf dbl glued ws
      let fs ← facetsOf dbl glued m ws
      pure (f :: fs)

/-- The facets an STL file describes (without a name of the solid). -/
def stlOf (dbl : Dbl D) (glued : Bool) (t : Text) :
    Option (List ((D × D × D) × (D × D × D) × (D × D × D) × (D × D × D))) := do
  let ws ← expect false ['s','o','l','i','d'] (words t)
  facetsOf dbl glued (t.length + 1) ws

/-- a point as it is read back when it was printed with `k` decimals -/
def backXYZ (dbl : Dbl D) (k : Nat) (p : D × D × D) : D × D × D :=
  (dbl.back k p.1, dbl.back k p.2.1, dbl.back k p.2.2)

/-- The vertices are different, have the IDs 1, 2, … in the order of the mesh, and the corners of faces
are vertices of the mesh. -/
structure Surf.Good (S : Surf D) : Prop where
  nodup : S.verts.Nodup
  ids : ∀ v ∈ S.verts, S.id v = S.verts.idxOf v + 1
  corners : ∀ f ∈ S.faces, ∀ v ∈ f, v ∈ S.verts

/-- the faces by positions of their corners -/
def Surf.polys (S : Surf D) : List (List Nat) := S.faces.map fun f => f.map fun v => S.verts.idxOf v

/-- what an STL file should say of a triangle -/
def facetSpec (dbl : Dbl D) (a : Arith D) (S : Surf D) : List Nat →
    (D × D × D) × (D × D × D) × (D × D × D) × (D × D × D)
  | [i, j, k] => (backXYZ dbl 8 (unitNormal a (S.xyz i) (S.xyz j) (S.xyz k)),
      backXYZ dbl 10 (S.xyz i), backXYZ dbl 10 (S.xyz j), backXYZ dbl 10 (S.xyz k))
  | _ => ((dbl.zero, dbl.zero, dbl.zero), (dbl.zero, dbl.zero, dbl.zero), (dbl.zero, dbl.zero, dbl.zero),
      (dbl.zero, dbl.zero, dbl.zero))

/-! ### helpers: words -/

theorem words_blank {c : Char} (h : blank c = true) (s : Text) : words (c :: s) = words s := by
  rw [words.eq_def]
  dsimp only
  rw [if_pos h]

theorem words_word : ∀ (w : List Char) {s : Text}, Word w → Sep s → words (w ++ s) = w :: words s := by
  intro w
  induction w with
  | nil => intro s hw _; exact absurd rfl hw.1
  | cons c w ih =>
    intro s hw hs
    have hc : blank c = false := hw.2 c (List.mem_cons_self ..)
    cases w with
    | nil =>
      cases s with
      | nil =>
        show words [c] = _
        rw [words.eq_def]
        dsimp only
        rw [if_neg (by rw [hc]; decide)]
        rfl
      | cons d t =>
        have hd := hs d t rfl
        show words (c :: d :: t) = _
        rw [words.eq_def]
        dsimp only
        rw [if_neg (by rw [hc]; decide), if_pos hd]
    | cons d w =>
      have hw' : Word (d :: w) := ⟨by simp, fun x hx => hw.2 x (List.mem_cons_of_mem _ hx)⟩
      have hd : blank d = false := hw'.2 d (List.mem_cons_self ..)
      have := ih hw' hs
      rw [List.cons_append] at this
      show words (c :: d :: (w ++ s)) = _
      rw [words.eq_def]
      dsimp only
      rw [if_neg (by rw [hc]; decide), if_neg (by rw [hd]; decide), this]

theorem words_space (s : Text) : words (' ' :: s) = words s := words_blank blank_space s
theorem words_nl (s : Text) : words ('\n' :: s) = words s := words_blank blank_nl s

theorem words_spaces (n : Nat) (s : Text) : words (List.replicate n ' ' ++ s) = words s := by
  induction n with
  | zero => rfl
  | succ n ih => rw [List.replicate_succ, List.cons_append, words_space, ih]

theorem words_pad (n : Nat) {w : List Char} {s : Text} (hw : Word w) (hs : Sep s) :
    words (pad n w ++ s) = w :: words s := by
  unfold pad
  rw [List.append_assoc, words_spaces, words_word w hw hs]

theorem words_XYZ {dbl : Dbl D} (hd : dbl.Sane) (w k : Nat) (p : D × D × D) (s : Text) :
    words (showXYZ dbl w k p ++ s) = dbl.fmt k p.1 :: dbl.fmt k p.2.1 :: dbl.fmt k p.2.2 :: words s := by
  unfold showXYZ
  rw [List.append_assoc, List.cons_append, List.append_assoc, List.cons_append, List.append_assoc,
    List.cons_append, List.nil_append, words_pad w (hd.word _ _) (sep_space _), words_space,
    words_pad w (hd.word _ _) (sep_space _), words_space, words_pad w (hd.word _ _) (sep_nl _), words_nl]

theorem showInt_nat (n : Nat) : showInt (n : Int) = showNat n := by
  unfold showInt
  rw [if_neg (by omega)]
  rfl

theorem word_nat (n : Nat) : Word (showNat n) :=
  ⟨showNat_ne n, fun c hc => (dig_ink (showNat_dig n c hc)).1⟩

theorem numOf_show (n : Nat) : numOf (showNat n) = some n := by
  unfold numOf
  rw [if_pos ⟨showNat_ne n, List.all_eq_true.2 (showNat_dig n)⟩, showNat_read]

theorem points_show {dbl : Dbl D} (hd : dbl.Sane) (xyz : Nat → D × D × D) (w k : Nat) :
    ∀ (vs : List Nat) (s : Text), pointsOf dbl vs.length (words (vs.flatMap (fun v => showXYZ dbl w k (xyz v)) ++ s)) =
      some (vs.map fun v => backXYZ dbl k (xyz v), words s) := by
  intro vs
  induction vs with
  | nil => intro s; rfl
  | cons v vs ih =>
    intro s
    rw [List.flatMap_cons, List.append_assoc, words_XYZ hd]
    show (do
      let a ← dbl.scan _
      let b ← dbl.scan _
      let c ← dbl.scan _
      let (ps, ws) ← pointsOf dbl vs.length _
      pure ((a, b, c) :: ps, ws)) = _
    rw [hd.read, hd.read, hd.read, ih s]
    rfl

/-- the words of the corners of a face -/
theorem words_IDs {S : Surf D} : ∀ (f : List Nat), (∀ v ∈ f, ∃ n : Nat, S.id v = n) → ∀ s : Text,
    words (showIDs S.id f ++ s) = f.map (fun v => showInt (S.id v)) ++ words s := by
  intro f
  induction f with
  | nil => intro _ s; exact words_nl s
  | cons v f ih =>
    intro h s
    obtain ⟨n, hn⟩ := h v (List.mem_cons_self ..)
    show words (' ' :: (showInt (S.id v) ++ showIDs S.id f) ++ s) = _
    have hsep : Sep (showIDs S.id f ++ s) := by
      cases f with
      | nil => exact sep_nl _
      | cons => exact sep_space _
    rw [List.cons_append, words_space, List.append_assoc, hn, showInt_nat,
      words_word _ (word_nat n) hsep, ih (fun x hx => h x (List.mem_cons_of_mem _ hx))]
    simp only [List.map_cons, hn, showInt_nat, List.cons_append]

theorem indices_show {S : Surf D} (hS : S.Good) {n : Nat} (hn : n = S.verts.length) : ∀ (f : List Nat),
    (∀ v ∈ f, v ∈ S.verts) → ∀ ws : List (List Char),
    indicesOf 1 n f.length (f.map (fun v => showInt (S.id v)) ++ ws) =
      some (f.map fun v => S.verts.idxOf v, ws) := by
  intro f
  induction f with
  | nil => intro _ ws; rfl
  | cons v f ih =>
    intro h ws
    have hv := h v (List.mem_cons_self ..)
    have hlt := List.idxOf_lt_length_iff.2 hv
    have hid : S.id v = ((S.verts.idxOf v + 1 : Nat) : Int) := by rw [hS.ids v hv]; rfl
    show (do
      let i ← numOf (showInt (S.id v))
      if 1 ≤ i ∧ i < 1 + n then
        let (is, ws) ← indicesOf 1 n f.length _
        pure ((i - 1) :: is, ws)
      else none) = _
    rw [hid, showInt_nat, numOf_show]
    show (if 1 ≤ S.verts.idxOf v + 1 ∧ S.verts.idxOf v + 1 < 1 + n then _ else none) = _
    have ih' : indicesOf 1 n f.length ((f.map (fun v => showInt (S.id v))).append ws) = _ :=
      ih (fun x hx => h x (List.mem_cons_of_mem _ hx)) ws
    rw [if_pos ⟨by omega, by omega⟩, ih']
    rfl

theorem words_poly {S : Surf D} (hS : S.Good) {f : List Nat} (hf : ∀ v ∈ f, v ∈ S.verts) (s : Text) :
    words (showPoly S.id f ++ s) = showNat f.length :: (f.map (fun v => showInt (S.id v)) ++ words s) := by
  unfold showPoly
  rw [List.append_assoc, List.cons_append, showInt_nat, words_word _ (word_nat _) (sep_space _), words_space,
    words_IDs f (fun v hv => ⟨S.verts.idxOf v + 1, by rw [hS.ids v (hf v hv)]; rfl⟩)]

theorem polys_show {S : Surf D} (hS : S.Good) {n : Nat} (hn : n = S.verts.length) : ∀ (fs : List (List Nat)),
    (∀ f ∈ fs, ∀ v ∈ f, v ∈ S.verts) → ∀ s : Text,
    polysOf 1 n fs.length (words (fs.flatMap (showPoly S.id) ++ s)) =
      some (fs.map fun f => f.map fun v => S.verts.idxOf v, words s) := by
  intro fs
  induction fs with
  | nil => intro _ s; rfl
  | cons f fs ih =>
    intro h s
    have hf := h f (List.mem_cons_self ..)
    rw [List.flatMap_cons, List.append_assoc, words_poly hS hf]
    show (do
      let k ← numOf (showNat f.length)
      let (p, ws) ← indicesOf 1 n k _
      let (ps, ws) ← polysOf 1 n fs.length ws
      pure (p :: ps, ws)) = _
    rw [numOf_show]
    show (do
      let (p, ws) ← indicesOf 1 n f.length _
      let (ps, ws) ← polysOf 1 n fs.length ws
      pure (p :: ps, ws)) = _
    rw [indices_show hS hn f hf]
    show (do
      let (ps, ws) ← polysOf 1 n fs.length _
      pure (_ :: ps, ws)) = _
    rw [ih (fun g hg => h g (List.mem_cons_of_mem _ hg)) s]
    rfl

/-- the text of an OFF file -/
def offText (dbl : Dbl D) (S : Surf D) : Text :=
  ['O','F','F'] ++ ('\n' :: (showInt S.verts.length ++ (' ' :: (showInt S.faces.length ++
    (' ' :: (showInt S.edges ++ ('\n' :: (S.verts.flatMap (fun v => showXYZ dbl 20 12 (S.xyz v)) ++
      S.faces.flatMap (showPoly S.id)))))))))

theorem words_off {dbl : Dbl D} (S : Surf D) : words (offText dbl S) =
    ['O','F','F'] :: showNat S.verts.length :: showNat S.faces.length :: showNat S.edges ::
      words (S.verts.flatMap (fun v => showXYZ dbl 20 12 (S.xyz v)) ++ S.faces.flatMap (showPoly S.id)) := by
  unfold offText
  rw [words_word _ ⟨by simp, by decide⟩ (sep_nl _), words_nl, showInt_nat, words_word _ (word_nat _) (sep_space _),
    words_space, showInt_nat, words_word _ (word_nat _) (sep_space _), words_space, showInt_nat,
    words_word _ (word_nat _) (sep_nl _), words_nl]

theorem offOf_text {dbl : Dbl D} (hd : dbl.Sane) (S : Surf D) (base : Nat) : offOf dbl base (offText dbl S) =
    (do
      let (fs, ws) ← polysOf base S.verts.length S.faces.length (words (S.faces.flatMap (showPoly S.id)))
      if ws = [] then some (S.verts.map fun v => backXYZ dbl 12 (S.xyz v), fs) else none) := by
  unfold offOf
  rw [words_off]
  dsimp only
  rw [if_pos rfl, numOf_show, numOf_show, numOf_show]
  show (do
      let (ps, ws) ← pointsOf dbl S.verts.length _
      let (fs, ws) ← polysOf base S.verts.length S.faces.length ws
      if ws = [] then some (ps, fs) else none) = _
  rw [points_show hd]
  rfl

theorem offOf_one {dbl : Dbl D} (hd : dbl.Sane) {S : Surf D} (hS : S.Good) : offOf dbl 1 (offText dbl S) =
    some (S.verts.map fun v => backXYZ dbl 12 (S.xyz v), S.polys) := by
  rw [offOf_text hd]
  have := polys_show hS rfl S.faces hS.corners []
  rw [List.append_nil] at this
  rw [this]
  rfl

/-! ### counting from 0 -/

/-- read from 0 the corners are one position further on -/
theorem indices_zero {n : Nat} : ∀ (k : Nat) {ws ws' : List (List Char)} {is js : List Nat} {ws'' : List (List Char)},
    indicesOf 1 n k ws = some (is, ws') → indicesOf 0 n k ws = some (js, ws'') →
      js = is.map (· + 1) ∧ ws'' = ws' := by
  intro k
  induction k with
  | zero =>
    intro ws ws' is js ws'' h1 h2
    cases h1; cases h2
    exact ⟨rfl, rfl⟩
  | succ k ih =>
    intro ws ws' is js ws'' h1 h2
    cases ws with
    | nil => cases h1
    | cons w ws =>
      unfold indicesOf at h1 h2
      obtain ⟨i, hi, h1⟩ := Option.bind_eq_some_iff.1 h1
      obtain ⟨i', hi', h2⟩ := Option.bind_eq_some_iff.1 h2
      rw [hi] at hi'; cases hi'
      split at h1
      case isFalse => cases h1
      rename_i hr1
      split at h2
      case isFalse => cases h2
      obtain ⟨⟨is', v'⟩, e1, h1⟩ := Option.bind_eq_some_iff.1 h1
      obtain ⟨⟨js', v''⟩, e2, h2⟩ := Option.bind_eq_some_iff.1 h2
      cases h1; cases h2
      obtain ⟨a, b⟩ := ih e1 e2
      subst a
      refine ⟨?_, b⟩
      simp only [List.map_cons, Nat.sub_zero, List.cons.injEq, and_true]
      omega

theorem polys_zero {n : Nat} : ∀ (m : Nat) {ws ws' : List (List Char)} {ps qs : List (List Nat)} {ws'' : List (List Char)},
    polysOf 1 n m ws = some (ps, ws') → polysOf 0 n m ws = some (qs, ws'') →
      qs = ps.map (fun p => p.map (· + 1)) ∧ ws'' = ws' := by
  intro m
  induction m with
  | zero =>
    intro ws ws' is js ws'' h1 h2
    cases h1; cases h2
    exact ⟨rfl, rfl⟩
  | succ m ih =>
    intro ws ws' ps qs ws'' h1 h2
    cases ws with
    | nil => cases h1
    | cons w ws =>
      unfold polysOf at h1 h2
      obtain ⟨i, hi, h1⟩ := Option.bind_eq_some_iff.1 h1
      obtain ⟨i', hi', h2⟩ := Option.bind_eq_some_iff.1 h2
      rw [hi] at hi'; cases hi'
      obtain ⟨⟨p1, v1⟩, a1, h1⟩ := Option.bind_eq_some_iff.1 h1
      obtain ⟨⟨p2, v2⟩, a2, h2⟩ := Option.bind_eq_some_iff.1 h2
      obtain ⟨⟨q1, u1⟩, b1, h1⟩ := Option.bind_eq_some_iff.1 h1
      obtain ⟨⟨q2, u2⟩, b2, h2⟩ := Option.bind_eq_some_iff.1 h2
      cases h1; cases h2
      obtain ⟨rfl, rfl⟩ := indices_zero _ a1 a2
      obtain ⟨rfl, rfl⟩ := ih b1 b2
      exact ⟨rfl, rfl⟩

theorem indices_below {b n : Nat} : ∀ (k : Nat) {ws ws' : List (List Char)} {is : List Nat},
    indicesOf b n k ws = some (is, ws') → ∀ i ∈ is, i < n := by
  intro k
  induction k with
  | zero =>
    intro ws ws' is h
    cases h; intro i hi; cases hi
  | succ k ih =>
    intro ws ws' is h
    cases ws with
    | nil => cases h
    | cons w ws =>
      unfold indicesOf at h
      obtain ⟨i, hi, h⟩ := Option.bind_eq_some_iff.1 h
      split at h
      case isFalse => cases h
      obtain ⟨⟨is', v'⟩, e1, h⟩ := Option.bind_eq_some_iff.1 h
      cases h
      intro j hj
      rcases List.mem_cons.1 hj with rfl | hj
      · omega
      · exact ih e1 j hj

theorem polys_below {b n : Nat} : ∀ (m : Nat) {ws ws' : List (List Char)} {ps : List (List Nat)},
    polysOf b n m ws = some (ps, ws') → ∀ p ∈ ps, ∀ i ∈ p, i < n := by
  intro m
  induction m with
  | zero =>
    intro ws ws' is h
    cases h; intro i hi; cases hi
  | succ m ih =>
    intro ws ws' ps h
    cases ws with
    | nil => cases h
    | cons w ws =>
      unfold polysOf at h
      obtain ⟨i, hi, h⟩ := Option.bind_eq_some_iff.1 h
      obtain ⟨⟨p1, v1⟩, a1, h⟩ := Option.bind_eq_some_iff.1 h
      obtain ⟨⟨q1, u1⟩, b1, h⟩ := Option.bind_eq_some_iff.1 h
      cases h
      intro p hp
      rcases List.mem_cons.1 hp with rfl | hp
      · exact indices_below _ a1
      · exact ih b1 p hp

theorem offOf_zero {dbl : Dbl D} (hd : dbl.Sane) {S : Surf D} (hS : S.Good)
    {x : List (D × D × D) × List (List Nat)} (h : offOf dbl 0 (offText dbl S) = some x) :
    x.2 = S.polys.map (fun p => p.map (· + 1)) ∧ ∀ p ∈ x.2, ∀ i ∈ p, i < S.verts.length := by
  rw [offOf_text hd] at h
  obtain ⟨⟨qs, ws⟩, h1, h2⟩ := Option.bind_eq_some_iff.1 h
  dsimp only at h2
  have := polys_show hS rfl S.faces hS.corners []
  rw [List.append_nil] at this
  obtain ⟨a, _⟩ := polys_zero _ this h1
  split at h2
  · cases h2
    exact ⟨a, polys_below _ h1⟩
  · cases h2

/-! ### helpers: STL -/

/-- the words of a facet up to the last number -/
def facetWords (dbl : Dbl D) (a : Arith D) (xyz : Nat → D × D × D) (i j k : Nat) : List (List Char) :=
  let n := unitNormal a (xyz i) (xyz j) (xyz k)
  let pt := fun p : D × D × D => [dbl.fmt 10 p.1, dbl.fmt 10 p.2.1, dbl.fmt 10 p.2.2]
  [['f','a','c','e','t'], ['n','o','r','m','a','l'], dbl.fmt 8 n.1, dbl.fmt 8 n.2.1, dbl.fmt 8 n.2.2,
    ['o','u','t','e','r'], ['l','o','o','p']] ++ (['v','e','r','t','e','x'] :: pt (xyz i)) ++
    (['v','e','r','t','e','x'] :: pt (xyz j)) ++ (['v','e','r','t','e','x'] :: pt (xyz k))

theorem words_corner {dbl : Dbl D} (hd : dbl.Sane) (p : D × D × D) (s : Text) :
    words (showCorner dbl p ++ s) = ['v','e','r','t','e','x'] :: dbl.fmt 10 p.1 :: dbl.fmt 10 p.2.1 ::
      dbl.fmt 10 p.2.2 :: words s := by
  unfold showCorner
  rw [List.append_assoc, List.append_assoc]
  show words (List.replicate 4 ' ' ++ _) = _
  rw [words_spaces]
  show words (['v','e','r','t','e','x'] ++ (' ' :: (showXYZ dbl 20 10 p ++ s))) = _
  rw [words_word _ ⟨by simp, by decide⟩ (sep_space _), words_space, words_XYZ hd]

/-- what the file says behind the last corner of a facet, from there on -/
def closing (s : Text) : Text := ['e','n','d','l','o','o','p'] ++ (['e','n','d','f','a','c','e','t'] ++ s)

theorem words_facet {dbl : Dbl D} (hd : dbl.Sane) {a : Arith D} {xyz : Nat → D × D × D} {i j k : Nat} {t : Text}
    (ht : showFacet dbl a xyz [i, j, k] = .ok t) (s : Text) :
    words (t ++ s) = facetWords dbl a xyz i j k ++ words (closing s) := by
  cases ht
  simp only [List.append_assoc, List.cons_append, List.nil_append]
  show words (['f','a','c','e','t'] ++ (' ' :: (['n','o','r','m','a','l'] ++ (' ' :: (showXYZ dbl 12 8 _ ++
    (' ' :: ' ' :: (['o','u','t','e','r'] ++ (' ' :: (['l','o','o','p'] ++ ('\n' :: (showCorner dbl (xyz i) ++
    (showCorner dbl (xyz j) ++ (showCorner dbl (xyz k) ++ closing s))))))))))))) = _
  rw [words_word _ ⟨by simp, by decide⟩ (sep_space _), words_space, words_word _ ⟨by simp, by decide⟩ (sep_space _),
    words_space, words_XYZ hd, words_space, words_space, words_word _ ⟨by simp, by decide⟩ (sep_space _), words_space,
    words_word _ ⟨by simp, by decide⟩ (sep_nl _), words_nl, words_corner hd, words_corner hd, words_corner hd]
  rfl

theorem expect_key (g : Bool) (key : List Char) (ws : List (List Char)) : expect g key (key :: ws) = some ws := by
  unfold expect
  dsimp only
  rw [if_pos rfl]

theorem vector_fmt {dbl : Dbl D} (hd : dbl.Sane) (k : Nat) (p : D × D × D) (ws : List (List Char)) :
    vectorOf dbl (dbl.fmt k p.1 :: dbl.fmt k p.2.1 :: dbl.fmt k p.2.2 :: ws) = some (backXYZ dbl k p, ws) := by
  have : pointsOf dbl 1 (dbl.fmt k p.1 :: dbl.fmt k p.2.1 :: dbl.fmt k p.2.2 :: ws) = some ([backXYZ dbl k p], ws) := by
    show (do
      let a ← dbl.scan _
      let b ← dbl.scan _
      let c ← dbl.scan _
      let (ps, ws) ← pointsOf dbl 0 _
      pure ((a, b, c) :: ps, ws)) = _
    rw [hd.read, hd.read, hd.read]
    rfl
  unfold vectorOf
  rw [this]

theorem facetOf_words {dbl : Dbl D} (hd : dbl.Sane) (a : Arith D) (S : Surf D) (i j k : Nat) (g : Bool)
    (ws : List (List Char)) : facetOf dbl g (facetWords dbl a S.xyz i j k ++ ws) = (do
      let ws ← expect g ['e','n','d','l','o','o','p'] ws
      let ws ← expect g ['e','n','d','f','a','c','e','t'] ws
      pure (facetSpec dbl a S [i, j, k], ws)) := by
  unfold facetOf facetWords
  simp only [List.cons_append, List.nil_append]
  simp only [expect_key, Option.bind_eq_bind, Option.bind_some, vector_fmt hd]
  rfl

theorem words_glue (w : List Char) (hw : Word w) (s : Text) (v : List Char) (vs : List (List Char))
    (hs : ∀ c t, s = c :: t → blank c = false) (hv : words s = v :: vs) :
    words (w ++ s) = (w ++ v) :: vs := by
  induction w with
  | nil => exact absurd rfl hw.1
  | cons c w ih =>
    have hc : blank c = false := hw.2 c (List.mem_cons_self ..)
    cases w with
    | nil =>
      cases s with
      | nil => cases hv
      | cons d t =>
        have hd := hs d t rfl
        show words (c :: d :: t) = _
        rw [words.eq_def]
        dsimp only
        rw [if_neg (by rw [hc]; decide), if_neg (by rw [hd]; decide), hv]
        rfl
    | cons d w =>
      have hw' : Word (d :: w) := ⟨by simp, fun x hx => hw.2 x (List.mem_cons_of_mem _ hx)⟩
      have hd : blank d = false := hw'.2 d (List.mem_cons_self ..)
      have := ih hw'
      rw [List.cons_append] at this
      show words (c :: d :: (w ++ s)) = _
      rw [words.eq_def]
      dsimp only
      rw [if_neg (by rw [hc]; decide), if_neg (by rw [hd]; decide), this]
      rfl

/-- the text after a facet starts with a keyword -/
theorem tail_start {dbl : Dbl D} (hd : dbl.Sane) {a : Arith D} {xyz : Nat → D × D × D} {fs : List (List Nat)} {t : Text}
    (hf : ∀ f ∈ fs, f.length = 3) (ht : showFacets dbl a xyz fs = .ok t) :
    ∃ v vs, words (t ++ ['e','n','d','s','o','l','i','d']) = v :: vs ∧ v ≠ [] ∧
      ∀ c u, t ++ ['e','n','d','s','o','l','i','d'] = c :: u → blank c = false := by
  cases fs with
  | nil =>
    cases ht
    refine ⟨['e','n','d','s','o','l','i','d'], [], by decide, by simp, ?_⟩
    intro c u h
    cases h
    decide
  | cons f fs =>
    match f, hf f (List.mem_cons_self ..) with
    | [i, j, k], _ =>
      unfold showFacets at ht
      obtain ⟨t1, e1, ht⟩ := Res.bind_eq_ok.1 ht
      obtain ⟨t2, e2, ht⟩ := Res.bind_eq_ok.1 ht
      cases ht
      rw [List.append_assoc, words_facet hd e1]
      refine ⟨_, _, rfl, by simp, ?_⟩
      intro c u h
      cases e1
      cases h
      decide

theorem closing_words {s : Text} {v : List Char} {vs : List (List Char)} (hv : words s = v :: vs)
    (hs : ∀ c t, s = c :: t → blank c = false) :
    words (closing s) = (['e','n','d','l','o','o','p'] ++ (['e','n','d','f','a','c','e','t'] ++ v)) :: vs := by
  unfold closing
  refine words_glue _ ⟨by simp, by decide⟩ _ _ _ ?_ (words_glue _ ⟨by simp, by decide⟩ _ _ _ hs hv)
  intro c t h
  cases h
  decide

theorem facetsOf_glued {dbl : Dbl D} (hd : dbl.Sane) {a : Arith D} (S : Surf D) : ∀ (fs : List (List Nat)) (m : Nat)
    (t : Text), fs.length < m → (∀ f ∈ fs, f.length = 3) → showFacets dbl a S.xyz fs = .ok t →
    facetsOf dbl true m (words (t ++ ['e','n','d','s','o','l','i','d'])) = some (fs.map (facetSpec dbl a S)) := by
  intro fs
  induction fs with
  | nil =>
    intro m t hm _ ht
    cases ht
    cases m with
    | zero => omega
    | succ m =>
      have : words ([] ++ ['e','n','d','s','o','l','i','d']) = [['e','n','d','s','o','l','i','d']] := by decide
      rw [this]
      unfold facetsOf
      rw [if_pos rfl]
      rfl
  | cons f fs ih =>
    intro m t hm hf ht
    cases m with
    | zero => simp at hm
    | succ m =>
      match f, hf f (List.mem_cons_self ..) with
      | [i, j, k], _ =>
        unfold showFacets at ht
        obtain ⟨t1, e1, ht⟩ := Res.bind_eq_ok.1 ht
        obtain ⟨t2, e2, ht⟩ := Res.bind_eq_ok.1 ht
        cases ht
        have hf' : ∀ f ∈ fs, f.length = 3 := fun g hg => hf g (List.mem_cons_of_mem _ hg)
        obtain ⟨v, vs, h1, h2, h3⟩ := tail_start hd hf' e2
        rw [List.append_assoc, words_facet hd e1, closing_words h1 h3]
        unfold facetsOf
        rw [if_neg (by unfold facetWords; simp), facetOf_words hd]
        have x1 : expect true ['e','n','d','l','o','o','p']
            ((['e','n','d','l','o','o','p'] ++ (['e','n','d','f','a','c','e','t'] ++ v)) :: vs) =
            some ((['e','n','d','f','a','c','e','t'] ++ v) :: vs) := by
          unfold expect
          dsimp only
          rw [if_neg (by simp), if_pos ⟨rfl, by simp⟩]
          rfl
        have x2 : expect true ['e','n','d','f','a','c','e','t'] ((['e','n','d','f','a','c','e','t'] ++ v) :: vs) =
            some (v :: vs) := by
          unfold expect
          dsimp only
          rw [if_neg (by simpa using h2), if_pos ⟨rfl, by simp⟩]
          rfl
        rw [x1]
        simp only [Option.bind_eq_bind, Option.bind_some]
        rw [x2, Option.bind_some]
        show (facetsOf dbl true m (v :: vs)).bind _ = _
        rw [← h1, ih m t2 (by simp only [List.length_cons] at hm; omega) hf' e2]
        rfl

theorem showFacets_ok {dbl : Dbl D} {a : Arith D} {xyz : Nat → D × D × D} : ∀ (fs : List (List Nat)),
    (∀ f ∈ fs, f.length = 3) → ∃ t, showFacets dbl a xyz fs = .ok t ∧ fs.length ≤ t.length := by
  intro fs
  induction fs with
  | nil => intro _; exact ⟨[], rfl, Nat.le_refl _⟩
  | cons f fs ih =>
    intro hf
    match f, hf f (List.mem_cons_self ..) with
    | [i, j, k], _ =>
      obtain ⟨t, h1, h2⟩ := ih fun g hg => hf g (List.mem_cons_of_mem _ hg)
      refine ⟨_, by unfold showFacets; rw [show showFacet dbl a xyz [i, j, k] = .ok _ from rfl, Res.bind_ok, h1]; rfl, ?_⟩
      simp only [List.length_cons, List.length_append]
      omega

theorem stl_text {dbl : Dbl D} {a : Arith D} {S : Surf D} (hr : S.regions = 0) (hf : ∀ f ∈ S.faces, f.length = 3) :
    ∃ t, showFacets dbl a S.xyz S.faces = .ok t ∧ S.faces.length ≤ t.length ∧ exportSTL dbl a S =
      .ok ⟨true, some (['s','o','l','i','d'] ++ ('\n' :: (t ++ ['e','n','d','s','o','l','i','d'])))⟩ := by
  obtain ⟨t, h1, h2⟩ := showFacets_ok (dbl := dbl) (a := a) (xyz := S.xyz) S.faces hf
  refine ⟨t, h1, h2, ?_⟩
  unfold exportSTL
  rw [if_neg (by omega), if_neg, h1]
  · rfl
  · rw [List.any_eq_true]
    rintro ⟨f, hf', h⟩
    rw [hf f hf'] at h
    cases h

theorem stlOf_text {dbl : Dbl D} (g : Bool) (t : Text) :
    stlOf dbl g (['s','o','l','i','d'] ++ ('\n' :: (t ++ ['e','n','d','s','o','l','i','d']))) =
      facetsOf dbl g (t.length + 15) (words (t ++ ['e','n','d','s','o','l','i','d'])) := by
  unfold stlOf
  rw [words_word _ ⟨by simp, by decide⟩ (sep_nl _), words_nl, expect_key]
  simp only [Option.bind_eq_bind, Option.bind_some, List.length_append, List.length_cons, List.length_nil]
  congr 1
  omega

/-! ### The properties -/

/-- **C90 (partial), OFF.** A mesh with regions or without faces is refused and no file is touched. Any
other mesh whose vertices are numbered in order gives a file that describes exactly its points and
faces, for a reader that counts points from 1. -/
theorem C90_off_partial {dbl : Dbl D} (hd : dbl.Sane) (S : Surf D) :
    ((S.regions ≠ 0 ∨ S.faces = []) → exportOFF dbl S = ⟨false, none⟩) ∧
    (S.regions = 0 → S.faces ≠ [] → S.Good → ∃ t, exportOFF dbl S = ⟨true, some t⟩ ∧
      offOf dbl 1 t = some (S.verts.map fun v => backXYZ dbl 12 (S.xyz v), S.polys)) := by
  constructor
  · intro h
    unfold exportOFF
    rw [if_pos h]
  · intro h1 h2 h3
    refine ⟨offText dbl S, ?_, offOf_one hd h3⟩
    unfold exportOFF
    rw [if_neg (by rintro (h | h); exact h h1; exact h2 h)]
    rfl

/-- **C90, negation for OFF.** The format counts points from 0. Read so, every exported file in which a face
uses the last vertex is malformed, and every other exported file describes different faces: those of
the mesh with each corner replaced by the next vertex. -/
theorem C90_negation_off {dbl : Dbl D} (hd : dbl.Sane) (S : Surf D) (h1 : S.regions = 0) (h2 : S.faces ≠ [])
    (h3 : S.Good) : ∃ t, exportOFF dbl S = ⟨true, some t⟩ ∧
      ((∃ f ∈ S.faces, ∃ v ∈ f, S.verts.idxOf v + 1 = S.verts.length) → offOf dbl 0 t = none) ∧
      ∀ ps fs, offOf dbl 0 t = some (ps, fs) → fs = S.polys.map fun p => p.map (· + 1) := by
  refine ⟨offText dbl S, ?_, ?_, ?_⟩
  · unfold exportOFF
    rw [if_neg (by rintro (h | h); exact h h1; exact h2 h)]
    rfl
  · rintro ⟨f, hf, v, hv, hlast⟩
    cases hx : offOf dbl 0 (offText dbl S) with
    | none => rfl
    | some x =>
      obtain ⟨a, b⟩ := offOf_zero hd h3 hx
      have := b ((f.map fun v => S.verts.idxOf v).map (· + 1)) (by
        rw [a]
        exact List.mem_map_of_mem (List.mem_map_of_mem hf)) (S.verts.idxOf v + 1)
        (List.mem_map_of_mem (f := (· + 1)) (List.mem_map_of_mem (f := fun v => S.verts.idxOf v) hv))
      omega
  · intro ps fs hx
    exact (offOf_zero hd h3 hx).1

/-- **C90 (partial), STL.** A mesh with a region or a face that is not a triangle is refused. Any other mesh
gives a file with, for each face in order, the normal and the three corners, for a reader that
accepts the keywords at the end of a facet without a blank behind them. -/
theorem C90_stl_partial {dbl : Dbl D} (hd : dbl.Sane) (a : Arith D) (S : Surf D) :
    ((S.regions ≠ 0 ∨ ∃ f ∈ S.faces, f.length ≠ 3) → ∃ x, exportSTL dbl a S = .ok x ∧ x.ret = false) ∧
    (S.regions = 0 → (∀ f ∈ S.faces, f.length = 3) → ∃ t, exportSTL dbl a S = .ok ⟨true, some t⟩ ∧
      stlOf dbl true t = some (S.faces.map (facetSpec dbl a S))) := by
  constructor
  · intro h
    unfold exportSTL
    by_cases hr : S.regions ≠ 0
    · rw [if_pos hr]; exact ⟨_, rfl, rfl⟩
    · rw [if_neg hr]
      have h : ∃ f ∈ S.faces, f.length ≠ 3 := h.resolve_left hr
      rw [if_pos]
      · exact ⟨_, rfl, rfl⟩
      · rw [List.any_eq_true]
        obtain ⟨f, hf, hl⟩ := h
        exact ⟨f, hf, by simpa using hl⟩
  · intro hr hf
    obtain ⟨t, h1, h2, h3⟩ := stl_text (dbl := dbl) (a := a) hr hf
    refine ⟨_, h3, ?_⟩
    rw [stlOf_text]
    exact facetsOf_glued hd S S.faces _ t (by omega) hf h1

/-- **C90, negation for STL.** Every file exported from a mesh with at least one triangle is malformed: the
keywords `endloop` and `endfacet` run into each other. -/
theorem C90_negation_stl {dbl : Dbl D} (hd : dbl.Sane) (a : Arith D) (S : Surf D) (hr : S.regions = 0)
    (hne : S.faces ≠ []) (hf : ∀ f ∈ S.faces, f.length = 3) :
    ∃ t, exportSTL dbl a S = .ok ⟨true, some t⟩ ∧ stlOf dbl false t = none := by
  obtain ⟨t, h1, h2, h3⟩ := stl_text (dbl := dbl) (a := a) hr hf
  refine ⟨_, h3, ?_⟩
  rw [stlOf_text]
  cases hfs : S.faces with
  | nil => exact absurd hfs hne
  | cons f fs =>
    rw [hfs] at h1 hf
    match f, hf f (List.mem_cons_self ..) with
    | [i, j, k], _ =>
      unfold showFacets at h1
      obtain ⟨t1, e1, h1⟩ := Res.bind_eq_ok.1 h1
      obtain ⟨t2, e2, h1⟩ := Res.bind_eq_ok.1 h1
      cases h1
      obtain ⟨v, vs, a1, a2, a3⟩ := tail_start hd (fun g hg => hf g (List.mem_cons_of_mem _ hg)) e2
      rw [List.append_assoc, words_facet hd e1, closing_words a1 a3]
      unfold facetsOf
      rw [if_neg (by unfold facetWords; simp), facetOf_words hd]
      have x1 : expect false ['e','n','d','l','o','o','p']
          ((['e','n','d','l','o','o','p'] ++ (['e','n','d','f','a','c','e','t'] ++ v)) :: vs) = none := by
        unfold expect
        dsimp only
        rw [if_neg (by simp), if_neg (by simp)]
      rw [x1]
      rfl

/-- **C90, negation.** A refused export to STL has emptied the file all the same. -/
theorem C90_negation_emptied (dbl : Dbl D) (a : Arith D) (S : Surf D)
    (h : S.regions ≠ 0 ∨ ∃ f ∈ S.faces, f.length ≠ 3) : exportSTL dbl a S = .ok ⟨false, some []⟩ := by
  unfold exportSTL
  by_cases hr : S.regions ≠ 0
  · rw [if_pos hr]
  · rw [if_neg hr, if_pos]
    rw [List.any_eq_true]
    obtain ⟨f, hf, hl⟩ := h.resolve_left hr
    exact ⟨f, hf, by simpa using hl⟩

/-- exact arithmetic in a field -/
def Arith.exact {F : Type} [Field F] (sqrt : F → F) : Arith F :=
  ⟨fun x y => x + y, fun x y => x - y, fun x y => x * y, fun x y => x / y, sqrt⟩

def dot {F : Type} [Field F] (p q : F × F × F) : F := p.1 * q.1 + p.2.1 * q.2.1 + p.2.2 * q.2.2
def vec {F : Type} [Field F] (p q : F × F × F) : F × F × F := (q.1 - p.1, q.2.1 - p.2.1, q.2.2 - p.2.2)
/-- the volume spanned by three vectors -/
def volume {F : Type} [Field F] (u v w : F × F × F) : F :=
  u.1 * (v.2.1 * w.2.2 - v.2.2 * w.2.1) + u.2.1 * (v.2.2 * w.1 - v.1 * w.2.2) + u.2.2 * (v.1 * w.2.1 - v.2.1 * w.1)

/-- **C90, normal.** In exact arithmetic the normal printed with a triangle is perpendicular to its sides, of
length 1 and on the side from which the corners are seen counterclockwise (normal and sides span
the volume `len`, the square root of a sum of squares), unless the triangle is degenerate. -/
theorem C90_normal {F : Type} [Field F] (sqrt : F → F) (p q r : F × F × F) (l : F) (hl : l ≠ 0)
    (hs : sqrt (l * l) = l)
    (hlen : l * l = ((vec p q).2.1 * (vec p r).2.2 - (vec p q).2.2 * (vec p r).2.1) ^ 2 +
      ((vec p q).2.2 * (vec p r).1 - (vec p q).1 * (vec p r).2.2) ^ 2 +
      ((vec p q).1 * (vec p r).2.1 - (vec p q).2.1 * (vec p r).1) ^ 2) :
    dot (unitNormal (Arith.exact sqrt) p q r) (vec p q) = 0 ∧ dot (unitNormal (Arith.exact sqrt) p q r) (vec p r) = 0 ∧
      dot (unitNormal (Arith.exact sqrt) p q r) (unitNormal (Arith.exact sqrt) p q r) = 1 ∧
      volume (unitNormal (Arith.exact sqrt) p q r) (vec p q) (vec p r) = l := by
  obtain ⟨p1, p2, p3⟩ := p
  obtain ⟨q1, q2, q3⟩ := q
  obtain ⟨r1, r2, r3⟩ := r
  simp only [vec] at hlen
  have hx : sqrt (((q2 - p2) * (r3 - p3) - (q3 - p3) * (r2 - p2)) * ((q2 - p2) * (r3 - p3) - (q3 - p3) * (r2 - p2)) +
      ((q3 - p3) * (r1 - p1) - (q1 - p1) * (r3 - p3)) * ((q3 - p3) * (r1 - p1) - (q1 - p1) * (r3 - p3)) +
      ((q1 - p1) * (r2 - p2) - (q2 - p2) * (r1 - p1)) * ((q1 - p1) * (r2 - p2) - (q2 - p2) * (r1 - p1))) = l :=
    (congrArg sqrt (by rw [hlen]; ring)).trans hs
  simp only [unitNormal, Arith.exact, dot, vec, volume, hx]
  refine ⟨by field_simp; ring, by field_simp; ring, ?_, ?_⟩
  · field_simp
    rw [show l ^ 2 = l * l by ring, hlen]
    ring
  · field_simp
    rw [show l ^ 2 = l * l by ring, hlen]
    ring

/-- a right triangle with sides 3 and 4: the length is 12 -/
example (sqrt : ℚ → ℚ) (h : sqrt 144 = 12) :
    dot (unitNormal (Arith.exact sqrt) (0, 0, 0) (3, 0, 0) (0, 4, 0)) (vec (0, 0, 0) (3, 0, 0)) = 0 ∧
    volume (unitNormal (Arith.exact sqrt) (0, 0, 0) (3, 0, 0) (0, 4, 0)) (vec (0, 0, 0) (3, 0, 0))
      (vec (0, 0, 0) (0, 4, 0)) = 12 := by
  have := C90_normal sqrt (0, 0, 0) (3, 0, 0) (0, 4, 0) 12 (by decide +kernel)
    (by rw [show (12 : ℚ) * 12 = 144 by decide +kernel]; exact h) (by decide +kernel)
  exact ⟨this.1, this.2.2.2⟩

/-! ### A case: two triangles -/

/-- whole numbers as coordinates -/
def digitsDbl : Dbl Nat := ⟨fun _ n => showNat n, fun w => if w = ['1','.','0'] then some 1 else numOf w, 0⟩

theorem digits_sane : digitsDbl.Sane := by
  refine ⟨fun _ n => word_nat n, ?_, by decide⟩
  intro k n
  show (if showNat n = ['1','.','0'] then some 1 else numOf (showNat n)).isSome = true
  split
  · rfl
  · rw [numOf_show]; rfl

/-- a square of two triangles -/
def square : Surf Nat where
  regions := 0
  edges := 5
  verts := [10, 11, 12, 13]
  xyz := fun v => if v = 10 then (0, 0, 0) else if v = 11 then (1, 0, 0) else if v = 12 then (1, 1, 0) else (0, 1, 0)
  id := fun v => (v : Int) - 9
  faces := [[10, 11, 12], [10, 12, 13]]

theorem square_good : square.Good := ⟨by decide, by decide, by decide⟩

/-- the last vertex is used, so the file is malformed -/
example : ∃ t, exportOFF digitsDbl square = ⟨true, some t⟩ ∧ offOf digitsDbl 0 t = none ∧
    offOf digitsDbl 1 t = some ([(0, 0, 0), (1, 0, 0), (1, 1, 0), (0, 1, 0)], [[0, 1, 2], [0, 2, 3]]) := by
  obtain ⟨t, h1, h2, _⟩ := C90_negation_off digits_sane square rfl (by decide) square_good
  obtain ⟨t', h3, h4⟩ := (C90_off_partial digits_sane square).2 rfl (by decide) square_good
  rw [h1] at h3
  cases h3
  exact ⟨t, h1, h2 ⟨[10, 12, 13], by decide, 13, by decide, by decide⟩, h4⟩

/-- the same square to STL, with some arithmetic on whole numbers -/
example (a : Arith Nat) : ∃ t, exportSTL digitsDbl a square = .ok ⟨true, some t⟩ ∧ stlOf digitsDbl false t = none ∧
    stlOf digitsDbl true t = some (square.faces.map (facetSpec digitsDbl a square)) := by
  obtain ⟨t, h1, h2⟩ := C90_negation_stl digits_sane a square rfl (by decide) (by decide)
  obtain ⟨t', h3, h4⟩ := (C90_stl_partial digits_sane a square).2 rfl (by decide)
  rw [h1] at h3
  cases h3
  exact ⟨t, h1, h2, h4⟩

end MSTK.File
