import Verif.FileModel

/-!
Scanning what was printed (FileModel.lean).
-/
namespace MSTK
namespace File

/-! ### blanks -/

@[simp] theorem blank_space : blank ' ' = true := by decide
@[simp] theorem blank_nl : blank '\n' = true := by decide
@[simp] theorem blank_tab : blank '\t' = true := by decide

theorem skip_blank {c : Char} (h : blank c = true) (s : Text) : skip (c :: s) = skip s := by
  unfold skip; rw [List.dropWhile_cons, if_pos h]

theorem skip_ink {c : Char} (h : blank c = false) (s : Text) : skip (c :: s) = c :: s := by
  unfold skip; rw [List.dropWhile_cons, if_neg (by simp [h])]

theorem skip_spaces (n : Nat) (s : Text) : skip (List.replicate n ' ' ++ s) = skip s := by
  induction n with
  | zero => rfl
  | succ n ih => rw [List.replicate_succ, List.cons_append, skip_blank blank_space, ih]

theorem scanInt_congr {s t : Text} (h : skip s = skip t) : scanInt s = scanInt t := by
  unfold scanInt; rw [h]
theorem scanDbl_congr {dbl : Dbl D} {s t : Text} (h : skip s = skip t) :
    scanDbl dbl s = scanDbl dbl t := by unfold scanDbl; rw [h]
theorem scanWord_congr {k : Nat} {s t : Text} (h : skip s = skip t) :
    scanWord k s = scanWord k t := by unfold scanWord; rw [h]

/-- the text ends or goes on with a blank -/
def Sep (s : Text) : Prop := ∀ c t, s = c :: t → blank c = true

theorem sep_nil : Sep [] := fun _ _ h => by cases h
theorem sep_cons {c : Char} (h : blank c = true) (s : Text) : Sep (c :: s) := by
  intro d t e; cases e; exact h
theorem sep_space (s : Text) : Sep (' ' :: s) := sep_cons blank_space s
theorem sep_nl (s : Text) : Sep ('\n' :: s) := sep_cons blank_nl s

theorem takeWhile_append_sep {p : Char → Bool} {w s : List Char} (hw : ∀ c ∈ w, p c = true)
    (hs : ∀ c t, s = c :: t → p c = false) : (w ++ s).takeWhile p = w := by
  induction w with
  | nil =>
    cases s with
    | nil => rfl
    | cons c t => rw [List.nil_append, List.takeWhile_cons, if_neg (by simp [hs c t rfl])]
  | cons c w ih =>
    rw [List.cons_append, List.takeWhile_cons, if_pos (hw c (by simp)),
      ih fun d hd => hw d (List.mem_cons_of_mem _ hd)]

theorem dropWhile_append_sep {p : Char → Bool} {w s : List Char} (hw : ∀ c ∈ w, p c = true)
    (hs : ∀ c t, s = c :: t → p c = false) : (w ++ s).dropWhile p = s := by
  induction w with
  | nil =>
    cases s with
    | nil => rfl
    | cons c t => rw [List.nil_append, List.dropWhile_cons, if_neg (by simp [hs c t rfl])]
  | cons c w ih =>
    rw [List.cons_append, List.dropWhile_cons, if_pos (hw c (by simp)),
      ih fun d hd => hw d (List.mem_cons_of_mem _ hd)]

/-! ### digits -/

theorem digit_val {n : Nat} (h : n < 10) : (digit n).toNat - 48 = n := by
  revert h; revert n; decide
theorem digit_dig {n : Nat} (h : n < 10) : isDig (digit n) = true := by
  revert h; revert n; decide

/-- a digit is not a blank and not a sign -/
theorem dig_ink {c : Char} (h : isDig c = true) : blank c = false ∧ c ≠ '-' ∧ c ≠ '+' := by
  refine ⟨?_, ?_, ?_⟩
  · cases hb : blank c with
    | false => rfl
    | true =>
      unfold blank at hb
      simp only [Bool.or_eq_true, decide_eq_true_eq] at hb
      rcases hb with ((((rfl | rfl) | rfl) | rfl) | rfl) | rfl <;> revert h <;> decide
  · rintro rfl; revert h; decide
  · rintro rfl; revert h; decide

theorem blank_not_dig {c : Char} (h : blank c = true) : isDig c = false := by
  cases hd : isDig c with
  | false => rfl
  | true => rw [(dig_ink hd).1] at h; cases h

theorem digs_dig : ∀ (k n : Nat) (acc : List Char), (∀ c ∈ acc, isDig c = true) →
    ∀ c ∈ digs k n acc, isDig c = true
  | 0, _, _, h => h
  | k+1, n, acc, h => by
    unfold digs
    split
    · intro c hc
      rcases List.mem_cons.1 hc with rfl | hc
      · exact digit_dig (by omega)
      · exact h c hc
    · apply digs_dig k
      intro c hc
      rcases List.mem_cons.1 hc with rfl | hc
      · exact digit_dig (by omega)
      · exact h c hc

theorem digs_read : ∀ (k n : Nat) (acc : List Char), n < k →
    readNat (digs k n acc) = acc.foldl (fun a c => 10 * a + (c.toNat - 48)) n
  | 0, _, _, h => by omega
  | k+1, n, acc, h => by
    unfold digs
    split
    · next hn =>
      unfold readNat
      rw [List.foldl_cons, digit_val hn]
      congr 1
      omega
    · rw [digs_read k (n/10) _ (by omega), List.foldl_cons, digit_val (by omega)]
      congr 1
      omega

theorem digs_ne : ∀ (k n : Nat) (acc : List Char), 0 < k ∨ acc ≠ [] → digs k n acc ≠ []
  | 0, _, _, h => by
    rcases h with h | h
    · omega
    · exact h
  | k+1, n, acc, _ => by
    unfold digs
    split
    · simp
    · exact digs_ne k _ _ (Or.inr (by simp))

theorem showNat_dig (n : Nat) : ∀ c ∈ showNat n, isDig c = true :=
  digs_dig _ _ _ (by simp)
theorem showNat_read (n : Nat) : readNat (showNat n) = n := digs_read _ _ _ (by omega)
theorem showNat_ne (n : Nat) : showNat n ≠ [] := digs_ne _ _ _ (Or.inl (by omega))

/-- an integer of type `int` -/
def Fits (n : Int) : Prop := -2147483648 ≤ n ∧ n ≤ 2147483647

instance (n : Int) : Decidable (Fits n) := by unfold Fits; infer_instance

theorem sep_dig {s : Text} (hs : Sep s) : ∀ c t, s = c :: t → isDig c = false :=
  fun c t h => blank_not_dig (hs c t h)

theorem scanDigits_show {n : Int} (hn : Fits n) {s : Text} (hs : Sep s) :
    scanDigits (decide (n < 0)) (showNat n.natAbs ++ s) = .ok n s := by
  unfold scanDigits
  simp only
  rw [takeWhile_append_sep (showNat_dig _) (sep_dig hs),
    dropWhile_append_sep (showNat_dig _) (sep_dig hs), if_neg (showNat_ne _), showNat_read]
  have : (if decide (n < 0) = true then -((n.natAbs : Nat) : Int) else (n.natAbs : Int)) = n := by
    split
    · next h => have := of_decide_eq_true h; omega
    · next h => rw [decide_eq_true_eq] at h; omega
  rw [this, if_pos (by exact hn)]

/-- What `"%d"` printed is scanned by `"%d"`. -/
theorem scanInt_show {n : Int} (hn : Fits n) {s : Text} (hs : Sep s) :
    scanInt (showInt n ++ s) = .ok n s := by
  have key := scanDigits_show hn hs
  unfold showInt scanInt
  by_cases h : n < 0
  · rw [if_pos h, List.cons_append, skip_ink (by decide)]
    show scanDigits true _ = _
    simpa [h] using key
  · rw [if_neg h]
    cases hd : showNat n.natAbs with
    | nil => exact absurd hd (showNat_ne _)
    | cons c t =>
      have hc := dig_ink (showNat_dig n.natAbs c (by rw [hd]; simp))
      rw [List.cons_append, skip_ink hc.1]
      simp only
      rw [if_neg hc.2.1, if_neg hc.2.2]
      rw [hd] at key
      simpa [h] using key

/-! ### words and floating point numbers -/

/-- a non-empty text without blanks -/
def Word (w : List Char) : Prop := w ≠ [] ∧ ∀ c ∈ w, blank c = false

theorem sep_ink {s : Text} (hs : Sep s) : ∀ c t, s = c :: t → (!blank c) = false :=
  fun c t h => by rw [hs c t h]; rfl

theorem scanWord_word {k : Nat} {w : List Char} (hw : Word w) (hk : w.length < k) {s : Text}
    (hs : Sep s) : scanWord k (w ++ s) = .ok (some (w, s)) := by
  have hi : ∀ c ∈ w, (!blank c) = true := fun c hc => by rw [hw.2 c hc]; rfl
  cases w with
  | nil => exact absurd rfl hw.1
  | cons c w =>
    unfold scanWord
    rw [List.cons_append, skip_ink (hw.2 c (by simp))]
    simp only
    rw [← List.cons_append, takeWhile_append_sep hi (sep_ink hs), dropWhile_append_sep hi (sep_ink hs),
      if_neg (by omega)]

theorem scanDbl_word {dbl : Dbl D} {w : List Char} {x : D} (hw : Word w) (hx : dbl.scan w = some x)
    {s : Text} (hs : Sep s) : scanDbl dbl (w ++ s) = .ok x s := by
  have hi : ∀ c ∈ w, (!blank c) = true := fun c hc => by rw [hw.2 c hc]; rfl
  cases w with
  | nil => exact absurd rfl hw.1
  | cons c w =>
    unfold scanDbl
    rw [List.cons_append, skip_ink (hw.2 c (by simp))]
    simp only
    rw [← List.cons_append, takeWhile_append_sep hi (sep_ink hs), hx,
      dropWhile_append_sep hi (sep_ink hs)]

theorem scanWord_end {k : Nat} {s : Text} (h : skip s = []) : scanWord k s = .ok none := by
  unfold scanWord; rw [h]

/-! ### calls of `fscanf` -/

@[simp] theorem skip_space (s : Text) : skip (' ' :: s) = skip s := skip_blank blank_space s
@[simp] theorem skip_nl (s : Text) : skip ('\n' :: s) = skip s := skip_blank blank_nl s
@[simp] theorem skip_tab (s : Text) : skip ('\t' :: s) = skip s := skip_blank blank_tab s

theorem skip_pad (k : Nat) (l : List Char) (s : Text) : skip (' ' :: (pad k l ++ s)) = skip (l ++ s) := by
  rw [skip_space]; unfold pad; rw [List.append_assoc, skip_spaces]

theorem getInt_show {n : Int} (hn : Fits n) {s u : Text} (hs : Sep s)
    (h : skip u = skip (showInt n ++ s)) : getInt u = .ok (n, s) := by
  unfold getInt; rw [scanInt_congr h, scanInt_show hn hs]
theorem nextInt_show {n : Int} (hn : Fits n) {s u : Text} (hs : Sep s)
    (h : skip u = skip (showInt n ++ s)) : nextInt u = .ok (n, s) := by
  unfold nextInt; rw [scanInt_congr h, scanInt_show hn hs]
theorem getDbl_word {dbl : Dbl D} {w : List Char} {x : D} (hw : Word w) (hx : dbl.scan w = some x)
    {s u : Text} (hs : Sep s) (h : skip u = skip (w ++ s)) : getDbl dbl u = .ok (x, s) := by
  unfold getDbl; rw [scanDbl_congr h, scanDbl_word hw hx hs]
theorem nextDbl_word {dbl : Dbl D} {w : List Char} {x : D} (hw : Word w) (hx : dbl.scan w = some x)
    {s u : Text} (hs : Sep s) (h : skip u = skip (w ++ s)) : nextDbl dbl u = .ok (x, s) := by
  unfold nextDbl; rw [scanDbl_congr h, scanDbl_word hw hx hs]
theorem getWord_word {k : Nat} {w : List Char} (hw : Word w) (hk : w.length < k) {s u : Text}
    (hs : Sep s) (h : skip u = skip (w ++ s)) : getWord k u = .ok (w, s) := by
  unfold getWord; rw [scanWord_congr h, scanWord_word hw hk hs]; rfl
theorem get2_show {a b : Int} (ha : Fits a) (hb : Fits b) {s u : Text} (hs : Sep s)
    (h : skip u = skip (showInt a ++ ' ' :: (showInt b ++ s))) : get2 u = .ok (a, b, s) := by
  unfold get2
  rw [getInt_show ha (sep_space _) h, Res.bind_ok]
  simp only
  rw [nextInt_show hb hs (skip_space _), Res.bind_ok]
  rfl

/-- What the proofs need to know about floating point numbers: they are printed as words, and what
is printed can be scanned. -/
structure Dbl.Sane (dbl : Dbl D) : Prop where
  word : ∀ k x, Word (dbl.fmt k x)
  back : ∀ k x, (dbl.scan (dbl.fmt k x)).isSome
  one : (dbl.scan ['1','.','0']).isSome

/-- the number that is read where `x` was printed with `k` decimals -/
def Dbl.back (dbl : Dbl D) (k : Nat) (x : D) : D := (dbl.scan (dbl.fmt k x)).getD dbl.zero

theorem Dbl.Sane.read {dbl : Dbl D} (h : dbl.Sane) (k : Nat) (x : D) :
    dbl.scan (dbl.fmt k x) = some (dbl.back k x) := by
  unfold Dbl.back
  have := h.back k x
  cases hx : dbl.scan (dbl.fmt k x) with
  | none => rw [hx] at this; cases this
  | some y => rfl

/-! ### vertices -/

/-- the mesh after the vertices of the lines were added -/
def buildVs (dbl : Dbl D) : Nat → List (VLine D) → FMesh D → FMesh D
  | _, [], M => M
  | i, l :: ls, M => buildVs dbl (i+1) ls
      (addV i (dbl.back 16 l.x) (dbl.back 16 l.y) (dbl.back 16 l.z) l.gdim l.gid M)

theorem readVerts_show {dbl : Dbl D} (hd : dbl.Sane) : ∀ (ls : List (VLine D)) (i : Nat) (s : Text)
    (M : FMesh D) (rest : Text), (∀ l ∈ ls, Fits l.gdim ∧ Fits l.gid) →
    skip s = skip (ls.flatMap (showV dbl) ++ rest) →
    ∃ s', readVerts dbl ls.length i s M = .ok (buildVs dbl i ls M, s') ∧ skip s' = skip rest
  | [], i, s, M, rest, _, h => ⟨s, rfl, by simpa using h⟩
  | l :: ls, i, s, M, rest, hf, h => by
    obtain ⟨h1, h2⟩ := hf l (by simp)
    have hs : skip s = skip (dbl.fmt 16 l.x ++ (' ' :: (pad 24 (dbl.fmt 16 l.y) ++ (' ' ::
        (pad 24 (dbl.fmt 16 l.z) ++ (' ' :: ' ' :: ' ' :: (showInt l.gdim ++ (' ' ::
        (showInt l.gid ++ ('\n' :: (ls.flatMap (showV dbl) ++ rest))))))))))) := by
      rw [h, List.flatMap_cons, List.append_assoc]
      rw [showV, pad]
      simp only [List.append_assoc, skip_spaces, List.cons_append, List.nil_append]
    obtain ⟨s', h3, h4⟩ := readVerts_show hd ls (i+1) ('\n' :: (ls.flatMap (showV dbl) ++ rest))
      (addV i (dbl.back 16 l.x) (dbl.back 16 l.y) (dbl.back 16 l.z) l.gdim l.gid M) rest
      (fun l hl => hf l (List.mem_cons_of_mem _ hl)) (by simp)
    refine ⟨s', ?_, h4⟩
    rw [List.length_cons]
    rw [show readVerts dbl (ls.length+1) i s M = _ from rfl]
    unfold readVerts
    rw [getDbl_word (hd.word _ _) (hd.read _ _) (sep_space _) hs, Res.bind_ok]
    simp only
    rw [nextDbl_word (hd.word _ _) (hd.read _ _) (sep_space _)
      (skip_pad _ _ _), Res.bind_ok]
    simp only
    rw [nextDbl_word (hd.word _ _) (hd.read _ _) (sep_space _)
      (skip_pad _ _ _), Res.bind_ok]
    simp only
    rw [nextInt_show h1 (sep_space _) ((skip_space _).trans ((skip_space _).trans (skip_space _))),
      Res.bind_ok]
    simp only
    rw [nextInt_show h2 (sep_nl _) (skip_space _), Res.bind_ok]
    exact h3

/-! ### edges -/

/-- the mesh after the edges of the lines were added -/
def buildEs : Nat → List ELine → FMesh D → Res (FMesh D)
  | _, [], M => .ok M
  | i, l :: ls, M => do
    let M ← addE i l.a l.b l.gdim l.gid M
    buildEs (i+1) ls M

theorem readEdges_show : ∀ (ls : List ELine) (i : Nat) (s : Text)
    (M : FMesh D) (rest : Text),
    (∀ l ∈ ls, Fits l.a ∧ Fits l.b ∧ Fits l.gdim ∧ Fits l.gid) →
    skip s = skip (ls.flatMap showE ++ rest) →
    ∃ s', readEdges ls.length i s M = (buildEs i ls M >>= fun N => .ok (N, s')) ∧ skip s' = skip rest
  | [], i, s, M, rest, _, h => ⟨s, rfl, by simpa using h⟩
  | l :: ls, i, s, M, rest, hf, h => by
    obtain ⟨h1, h2, h3, h4⟩ := hf l (by simp)
    have hs : skip s = skip (showInt l.a ++ (' ' :: (showInt l.b ++ (' ' :: '\t' ::
        (showInt l.gdim ++ (' ' :: (showInt l.gid ++ ('\n' :: (ls.flatMap showE ++ rest))))))))) := by
      rw [h, List.flatMap_cons, List.append_assoc]
      rw [showE]
      simp only [List.append_assoc, List.cons_append, List.nil_append]
    have hg : get4 s = .ok (l.a, l.b, l.gdim, l.gid, '\n' :: (ls.flatMap showE ++ rest)) := by
      unfold get4
      rw [getInt_show h1 (sep_space _) hs, Res.bind_ok]
      simp only
      rw [nextInt_show h2 (sep_space _) (skip_space _), Res.bind_ok]
      simp only
      rw [nextInt_show h3 (sep_space _) ((skip_space _).trans (skip_tab _)), Res.bind_ok]
      simp only
      rw [nextInt_show h4 (sep_nl _) (skip_space _), Res.bind_ok]
      rfl
    have hfit : ∀ l ∈ ls, Fits l.a ∧ Fits l.b ∧ Fits l.gdim ∧ Fits l.gid :=
      fun l hl => hf l (List.mem_cons_of_mem _ hl)
    rw [List.length_cons]
    unfold readEdges buildEs
    rw [hg, Res.bind_ok]
    simp only
    cases addE i l.a l.b l.gdim l.gid M with
    | ok N => exact readEdges_show ls (i+1) _ N rest hfit (by simp)
    | ub => exact ⟨rest, rfl, rfl⟩
    | fatal => exact ⟨rest, rfl, rfl⟩
    | hang => exact ⟨rest, rfl, rfl⟩

/-! ### faces and regions -/

/-- the entities with directions the numbers stand for -/
def refsOf (l : List Nat) : List Int → Res (List (Nat × Bool))
  | [] => .ok []
  | id :: ids => do
    let x ← entry l (id.natAbs : Int)
    let r ← refsOf l ids
    pure ((x, decide (0 < id)) :: r)

theorem readRefs_show (l : List Nat) : ∀ (ids : List Int) (s rest : Text),
    (∀ i ∈ ids, Fits i) → skip s = skip (showRefs ids ++ rest) → 
    ∃ s', readRefs l ids.length s = (refsOf l ids >>= fun r => .ok (r, s')) ∧ skip s' = skip rest
  | [], s, rest, _, h => ⟨s, rfl, by simpa [showRefs] using h⟩
  | id :: ids, s, rest, hf, h => by
    have hs : skip s = skip (showInt id ++ (' ' :: (showRefs ids ++ rest))) := by
      rw [h]; unfold showRefs; rw [List.flatMap_cons]; simp
    obtain ⟨s', h1, h2⟩ := readRefs_show l ids (' ' :: (showRefs ids ++ rest)) rest
      (fun i hi => hf i (List.mem_cons_of_mem _ hi)) (by simp)
    refine ⟨s', ?_, h2⟩
    rw [List.length_cons]
    unfold readRefs refsOf
    rw [getInt_show (hf id (by simp)) (sep_space _) hs, Res.bind_ok]
    simp only
    rw [h1]
    cases entry l (id.natAbs : Int) with
    | ok x => cases refsOf l ids <;> rfl
    | ub => rfl
    | fatal => rfl
    | hang => rfl

/-- MESH_InitFromFile.c:421-487 without the scanning -/
def addF (i : Nat) (l : FLine) (M : FMesh D) : Res (FMesh D) := do
  let p := M.T.mfNew
  let es ← refsOf M.el l.refs
  let T ← p.1.mfSetEdges p.2 es
  pure { M with T := T, fl := M.fl ++ [p.2], fc := upd M.fc p.2 (field l.gdim l.gid),
                fid := upd M.fid p.2 (i+1) }

/-- MESH_InitFromFile.c:621-688 without the scanning -/
def addR (i : Nat) (l : FLine) (M : FMesh D) : Res (FMesh D) := do
  let p := M.T.mrNew
  let fs ← refsOf M.fl l.refs
  let T ← p.1.mrSetFaces p.2 fs
  pure { M with T := T, rl := M.rl ++ [p.2], rc := upd M.rc p.2 (field l.gdim l.gid),
                rid := upd M.rid p.2 (i+1) }

/-- the mesh after the faces or the regions of the lines were added -/
def buildFs (add : Nat → FLine → FMesh D → Res (FMesh D)) : Nat → List FLine → FMesh D → Res (FMesh D)
  | _, [], M => .ok M
  | i, l :: ls, M => do
    let M ← add i l M
    buildFs add (i+1) ls M

/-- the numbers of a line are of type `int` -/
def FLine.Fit (l : FLine) : Prop :=
  Fits l.refs.length ∧ (∀ i ∈ l.refs, Fits i) ∧ Fits l.gdim ∧ Fits l.gid

theorem readFaces_show : ∀ (ls : List FLine) (i : Nat) (s : Text) (M : FMesh D) (rest : Text),
    (∀ l ∈ ls, l.Fit) → skip s = skip (ls.flatMap showF ++ rest) →
    ∃ s', readFaces ls.length i s M = (buildFs addF i ls M >>= fun N => .ok (N, s')) ∧
      skip s' = skip rest
  | [], i, s, M, rest, _, h => ⟨s, rfl, by simpa using h⟩
  | l :: ls, i, s, M, rest, hf, h => by
    obtain ⟨h1, h2, h3, h4⟩ := hf l (by simp)
    have hs : skip s = skip (showInt l.refs.length ++ (' ' :: (showRefs l.refs ++ ('\t' ::
        (showInt l.gdim ++ (' ' :: (showInt l.gid ++ ('\n' :: (ls.flatMap showF ++ rest))))))))) := by
      rw [h, List.flatMap_cons, List.append_assoc]
      rw [showF]
      simp only [List.append_assoc, List.cons_append, List.nil_append]
    have hfit : ∀ l ∈ ls, l.Fit := fun l hl => hf l (List.mem_cons_of_mem _ hl)
    obtain ⟨t, h5, h6⟩ := readRefs_show M.el l.refs (' ' :: (showRefs l.refs ++ ('\t' ::
        (showInt l.gdim ++ (' ' :: (showInt l.gid ++ ('\n' :: (ls.flatMap showF ++ rest)))))))) _ h2
        (skip_space _)
    have hg := get2_show h3 h4 (sep_nl _) (h6.trans (skip_tab _))
    rw [List.length_cons]
    unfold readFaces buildFs addF
    rw [getInt_show h1 (sep_space _) hs]
    simp only [Res.bind_ok]
    rw [Int.toNat_natCast, h5]
    cases refsOf M.el l.refs with
    | ok es =>
      simp only [Res.bind_ok]
      cases M.T.mfNew.1.mfSetEdges M.T.mfNew.2 es with
      | ok T =>
        simp only [Res.bind_ok]
        rw [hg]
        exact readFaces_show ls (i+1) _ _ rest hfit (by simp)
      | ub => exact ⟨rest, rfl, rfl⟩
      | fatal => exact ⟨rest, rfl, rfl⟩
      | hang => exact ⟨rest, rfl, rfl⟩
    | ub => exact ⟨rest, rfl, rfl⟩
    | fatal => exact ⟨rest, rfl, rfl⟩
    | hang => exact ⟨rest, rfl, rfl⟩

theorem readRegions_show : ∀ (ls : List FLine) (i : Nat) (s : Text) (M : FMesh D) (rest : Text),
    (∀ l ∈ ls, l.Fit) → skip s = skip (ls.flatMap showF ++ rest) →
    ∃ s', readRegions ls.length i s M = (buildFs addR i ls M >>= fun N => .ok (N, s')) ∧
      skip s' = skip rest
  | [], i, s, M, rest, _, h => ⟨s, rfl, by simpa using h⟩
  | l :: ls, i, s, M, rest, hf, h => by
    obtain ⟨h1, h2, h3, h4⟩ := hf l (by simp)
    have hs : skip s = skip (showInt l.refs.length ++ (' ' :: (showRefs l.refs ++ ('\t' ::
        (showInt l.gdim ++ (' ' :: (showInt l.gid ++ ('\n' :: (ls.flatMap showF ++ rest))))))))) := by
      rw [h, List.flatMap_cons, List.append_assoc]
      rw [showF]
      simp only [List.append_assoc, List.cons_append, List.nil_append]
    have hfit : ∀ l ∈ ls, l.Fit := fun l hl => hf l (List.mem_cons_of_mem _ hl)
    obtain ⟨t, h5, h6⟩ := readRefs_show M.fl l.refs (' ' :: (showRefs l.refs ++ ('\t' ::
        (showInt l.gdim ++ (' ' :: (showInt l.gid ++ ('\n' :: (ls.flatMap showF ++ rest)))))))) _ h2
        (skip_space _)
    have hg := get2_show h3 h4 (sep_nl _) (h6.trans (skip_tab _))
    rw [List.length_cons]
    unfold readRegions buildFs addR
    rw [getInt_show h1 (sep_space _) hs]
    simp only [Res.bind_ok]
    rw [Int.toNat_natCast, h5]
    cases refsOf M.fl l.refs with
    | ok es =>
      simp only [Res.bind_ok]
      cases M.T.mrNew.1.mrSetFaces M.T.mrNew.2 es with
      | ok T =>
        simp only [Res.bind_ok]
        rw [hg]
        exact readRegions_show ls (i+1) _ _ rest hfit (by simp)
      | ub => exact ⟨rest, rfl, rfl⟩
      | fatal => exact ⟨rest, rfl, rfl⟩
      | hang => exact ⟨rest, rfl, rfl⟩
    | ub => exact ⟨rest, rfl, rfl⟩
    | fatal => exact ⟨rest, rfl, rfl⟩
    | hang => exact ⟨rest, rfl, rfl⟩

/-! ### attributes -/

/-- the value that is read where `v` was printed -/
def backVal (dbl : Dbl D) : AVal D → AVal D
  | .int i => .int i
  | .dbl x => .dbl (dbl.back 6 x)
  | .arr xs => .arr (xs.map (dbl.back 6))

/-- a value of the right kind -/
def ValFit (ty : ATy) (ncomp : Int) : AVal D → Prop
  | .int i => ty = .int ∧ Fits i
  | .dbl _ => ty = .dbl
  | .arr xs => (ty = .vec ∨ ty = .tns) ∧ xs.length = ncomp.toNat

theorem readArr_show {dbl : Dbl D} (hd : dbl.Sane) : ∀ (xs : List D) (s rest : Text),
    skip s = skip (xs.flatMap (fun x => ' ' :: (dbl.fmt 6 x ++ [' '])) ++ rest) →
    ∃ s', readArr dbl xs.length s = .ok (xs.map (dbl.back 6), s') ∧ skip s' = skip rest
  | [], s, rest, h => ⟨s, rfl, by simpa using h⟩
  | x :: xs, s, rest, h => by
    have hs : skip s = skip (dbl.fmt 6 x ++ (' ' ::
        (xs.flatMap (fun x => ' ' :: (dbl.fmt 6 x ++ [' '])) ++ rest))) := by
      rw [h, List.flatMap_cons]
      simp only [List.append_assoc, List.cons_append, List.nil_append, skip_space]
    obtain ⟨s', h1, h2⟩ := readArr_show hd xs (' ' ::
        (xs.flatMap (fun x => ' ' :: (dbl.fmt 6 x ++ [' '])) ++ rest)) rest (skip_space _)
    refine ⟨s', ?_, h2⟩
    rw [List.length_cons]
    unfold readArr
    rw [nextDbl_word (hd.word _ _) (hd.read _ _) (sep_space _) hs, Res.bind_ok]
    simp only
    rw [h1]
    rfl

theorem readVal_show {dbl : Dbl D} (hd : dbl.Sane) {ty : ATy} {ncomp : Int} {v : AVal D}
    (hv : ValFit ty ncomp v) {s rest : Text} (h : skip s = skip (showVal dbl v ++ ('\n' :: rest))) :
    ∃ s', readVal dbl ty ncomp s = .ok (backVal dbl v, s') ∧ skip s' = skip rest := by
  cases v with
  | int i =>
    obtain ⟨rfl, hi⟩ := hv
    refine ⟨'\n' :: rest, ?_, skip_nl _⟩
    unfold readVal
    simp only
    rw [nextInt_show hi (sep_nl _) (h.trans (skip_space _))]
    rfl
  | dbl x =>
    obtain rfl : ty = .dbl := hv
    refine ⟨' ' :: '\n' :: rest, ?_, (skip_space _).trans (skip_nl _)⟩
    unfold readVal
    simp only
    rw [nextDbl_word (hd.word _ _) (hd.read 6 x) (sep_space _) (h.trans (by
      unfold showVal
      rw [List.cons_append, skip_space, List.append_assoc]; rfl))]
    rfl
  | arr xs =>
    obtain ⟨hty, hl⟩ := hv
    obtain ⟨s', h1, h2⟩ := readArr_show hd xs s ('\n' :: rest) h
    refine ⟨s', ?_, h2.trans (skip_nl _)⟩
    unfold readVal
    rcases hty with rfl | rfl <;> (simp only; rw [← hl, h1]; rfl)

/-- the attribute after the values of the lines were given -/
def buildVals (dbl : Dbl D) (M : FMesh D) : List (ALine D) → Attr D → Res (Attr D)
  | [], a => .ok a
  | l :: ls, a => do
    let x ← entityOf M l.dim l.id
    buildVals dbl M ls (a.put l.dim.toNat x (backVal dbl l.val))

/-- a line of an attribute -/
def ALine.Fit (ty : ATy) (ncomp : Int) (ent : Nat) (l : ALine D) : Prop :=
  Fits l.dim ∧ Fits l.id ∧ ValFit ty ncomp l.val ∧ (l.dim = ent ∨ ent = 5)

theorem readVals_show {dbl : Dbl D} (hd : dbl.Sane) (M : FMesh D) : ∀ (ls : List (ALine D))
    (s rest : Text) (a : Attr D), (∀ l ∈ ls, l.Fit a.ty a.ncomp a.ent) →
    skip s = skip (ls.flatMap (showA dbl) ++ rest) →
    ∃ s', readVals dbl M ls.length s a = (buildVals dbl M ls a >>= fun b => .ok (b, s')) ∧
      skip s' = skip rest
  | [], s, rest, a, _, h => ⟨s, rfl, by simpa using h⟩
  | l :: ls, s, rest, a, hf, h => by
    obtain ⟨h1, h2, h3, h4⟩ := hf l (by simp)
    have hs : skip s = skip (showInt l.dim ++ (' ' :: (showInt l.id ++ (' ' :: (showVal dbl l.val ++
        ('\n' :: (ls.flatMap (showA dbl) ++ rest))))))) := by
      rw [h, List.flatMap_cons, List.append_assoc]
      rw [showA]
      simp only [List.append_assoc, List.cons_append, List.nil_append]
    obtain ⟨t, h5, h6⟩ := readVal_show hd h3 (s := ' ' :: (showVal dbl l.val ++
        ('\n' :: (ls.flatMap (showA dbl) ++ rest)))) (skip_space _)
    rw [List.length_cons]
    unfold readVals buildVals
    rw [get2_show h1 h2 (sep_space _) hs, Res.bind_ok]
    simp only
    rw [if_neg (by
      rintro ⟨p, q⟩
      rcases h4 with h4 | h4
      · exact p h4.symm
      · exact q h4), h5, Res.bind_ok]
    simp only
    cases entityOf M l.dim l.id with
    | ok x =>
      exact readVals_show hd M ls t rest (a.put l.dim.toNat x (backVal dbl l.val))
        (fun l hl => hf l (List.mem_cons_of_mem _ hl)) h6
    | ub => exact ⟨rest, rfl, rfl⟩
    | fatal => exact ⟨rest, rfl, rfl⟩
    | hang => exact ⟨rest, rfl, rfl⟩

/-- what is written for an attribute and can be read -/
structure ABlock.Fit (b : ABlock D) : Prop where
  name : Word b.name
  short : b.name.length < 256
  ty : b.ty ≠ .ptr
  comps : Fits b.ncomp
  some_comps : b.ty = .vec ∨ b.ty = .tns → b.ncomp ≠ 0
  ent : b.ent ∈ [0, 1, 2, 3, 5]
  nonempty : b.lines ≠ []
  few : Fits b.lines.length
  lines : ∀ l ∈ b.lines, l.Fit b.ty b.ncomp b.ent

theorem tyOf_name {ty : ATy} (h : ty ≠ .ptr) : tyOf (tyName ty) = some ty := by
  cases ty <;> first | decide | exact absurd rfl h
theorem tyName_word {ty : ATy} (h : ty ≠ .ptr) : Word (tyName ty) ∧ (tyName ty).length < 256 := by
  unfold Word
  cases ty <;> first | decide | exact absurd rfl h
theorem entOf_name {k : Nat} (h : k ∈ [0, 1, 2, 3, 5]) : entOf (entName k) = some k := by
  revert h; revert k; decide
theorem entName_word {k : Nat} (h : k ∈ [0, 1, 2, 3, 5]) : Word (entName k) ∧ (entName k).length < 256 := by
  unfold Word
  revert h; revert k; decide

/-- MESH_InitFromFile.c:824-951 without the scanning -/
def addBlock (dbl : Dbl D) (b : ABlock D) (M : FMesh D) : Res (FMesh D) := do
  let a ← buildVals dbl M b.lines ⟨b.name, b.ty, b.ncomp, b.ent, fun _ _ => none⟩
  pure { M with atts := M.atts ++ [{ a with ncomp := compsOf b.ty b.ncomp }] }

theorem readBlock_show {dbl : Dbl D} (hd : dbl.Sane) (M : FMesh D) {b : ABlock D} (hb : b.Fit)
    {s rest : Text}
    (h : skip s = skip (tyName b.ty ++ ('\n' :: (showInt b.ncomp ++ ('\n' :: (entName b.ent ++ ('\n' ::
      (showInt b.lines.length ++ ('\n' :: (b.lines.flatMap (showA dbl) ++ rest)))))))))) :
    ∃ s', readBlock dbl M b.name s = (addBlock dbl b M >>= fun N => .ok (N, s')) ∧
      skip s' = skip rest := by
  obtain ⟨s', h1, h2⟩ := readVals_show hd M b.lines ('\n' :: (b.lines.flatMap (showA dbl) ++ rest)) rest
    ⟨b.name, b.ty, b.ncomp, b.ent, fun _ _ => none⟩ hb.lines (skip_nl _)
  refine ⟨s', ?_, h2⟩
  have hpos : 0 < b.lines.length := List.length_pos_iff.2 hb.nonempty
  unfold readBlock addBlock
  rw [getWord_word (tyName_word hb.ty).1 (tyName_word hb.ty).2 (sep_nl _) h, Res.bind_ok]
  simp only
  rw [tyOf_name hb.ty]
  simp only [orFatal, Res.bind_ok]
  rw [getInt_show hb.comps (sep_nl _) (skip_nl _), Res.bind_ok]
  simp only
  rw [if_neg (fun hc => hb.some_comps hc.1 hc.2), getWord_word (entName_word hb.ent).1
    (entName_word hb.ent).2 (sep_nl _) (skip_nl _), Res.bind_ok]
  simp only
  rw [entOf_name hb.ent]
  simp only [Res.bind_ok]
  rw [getInt_show hb.few (sep_nl _) (skip_nl _), Res.bind_ok]
  simp only
  rw [if_neg (by omega), Int.toNat_natCast, h1]
  cases buildVals dbl M b.lines ⟨b.name, b.ty, b.ncomp, b.ent, fun _ _ => none⟩ <;> rfl

/-- the mesh after the attributes were added -/
def buildAs (dbl : Dbl D) : List (ABlock D) → FMesh D → Res (FMesh D)
  | [], M => .ok M
  | b :: bs, M => do
    let M ← addBlock dbl b M
    buildAs dbl bs M

theorem readAtts_show {dbl : Dbl D} (hd : dbl.Sane) : ∀ (bs : List (ABlock D)) (k : Nat) (s : Text)
    (M : FMesh D), bs.length < k → (∀ b ∈ bs, b.Fit) →
    skip s = skip (bs.flatMap (showBlock dbl)) → readAtts dbl k s M = buildAs dbl bs M
  | [], k, s, M, hk, _, h => by
    obtain ⟨k, rfl⟩ : ∃ j, k = j + 1 := ⟨k - 1, by simp at hk; omega⟩
    unfold readAtts buildAs
    rw [scanWord_end (by simpa [skip] using h)]
    rfl
  | b :: bs, k, s, M, hk, hf, h => by
    obtain ⟨k, rfl⟩ : ∃ j, k = j + 1 := ⟨k - 1, by simp at hk; omega⟩
    have hb := hf b (by simp)
    have hs : skip s = skip (b.name ++ ('\n' :: (tyName b.ty ++ ('\n' :: (showInt b.ncomp ++ ('\n' ::
        (entName b.ent ++ ('\n' :: (showInt b.lines.length ++ ('\n' ::
        (b.lines.flatMap (showA dbl) ++ bs.flatMap (showBlock dbl)))))))))))) := by
      rw [h, List.flatMap_cons]
      rw [showBlock]
      simp only [List.append_assoc, List.cons_append]
    obtain ⟨t, h1, h2⟩ := readBlock_show hd M hb (skip_nl _)
    unfold readAtts buildAs
    rw [scanWord_congr hs, scanWord_word hb.name hb.short (sep_nl _), Res.bind_ok]
    simp only
    rw [h1]
    cases addBlock dbl b M with
    | ok N =>
      exact readAtts_show hd bs k t N (by simp at hk; omega)
        (fun b hb => hf b (List.mem_cons_of_mem _ hb)) h2
    | ub => rfl
    | fatal => rfl
    | hang => rfl

/-! ### the whole file -/

theorem word_word {w : List Char} (hw : Word w) (hk : w.length < 256) {s u : Text} (hs : Sep s)
    (h : skip u = skip (w ++ s)) (e : Res (Ans D)) (k : List Char → Text → Res (Ans D)) :
    word u e k = k w s := by
  unfold word; rw [scanWord_congr h, scanWord_word hw hk hs]; rfl

theorem word_end {u : Text} (h : skip u = []) (e : Res (Ans D)) (k : List Char → Text → Res (Ans D)) :
    word u e k = e := by
  unfold word; rw [scanWord_end h]; rfl

/-- the numbers of the file are of type `int`, the attributes can be read -/
structure Contents.Fit (c : Contents D) : Prop where
  nv : Fits c.vs.length
  ne : Fits c.es.length
  nf : Fits c.fs.length
  nr : Fits c.rs.length
  vs : ∀ l ∈ c.vs, Fits l.gdim ∧ Fits l.gid
  es : ∀ l ∈ c.es, Fits l.a ∧ Fits l.b ∧ Fits l.gdim ∧ Fits l.gid
  fs : ∀ l ∈ c.fs, l.Fit
  rs : ∀ l ∈ c.rs, l.Fit
  as : ∀ bs, c.as = some bs → ∀ b ∈ bs, b.Fit

theorem length_flatMap_ge {α : Type} {g : α → List Char} (hg : ∀ x, g x ≠ []) (l : List α) :
    l.length ≤ (l.flatMap g).length := by
  induction l with
  | nil => simp
  | cons x l ih =>
    rw [List.flatMap_cons, List.length_append, List.length_cons]
    have : 0 < (g x).length := List.length_pos_iff.2 (hg x)
    omega

theorem attSection_show {dbl : Dbl D} (hd : dbl.Sane) {bs : List (ABlock D)} (hf : ∀ b ∈ bs, b.Fit)
    {M N : FMesh D} (hb : buildAs dbl bs M = .ok N) :
    attSection dbl M ['a','t','t','r','i','b','u','t','e','s'] ('\n' :: bs.flatMap (showBlock dbl)) =
      .ok (some (true, N)) := by
  unfold attSection
  rw [if_pos (by decide), readAtts_show hd bs _ _ M ?_ hf (skip_nl _), hb]
  · rfl
  · have := length_flatMap_ge (g := showBlock dbl) (fun b => by unfold showBlock; simp) bs
    rw [List.length_cons]
    omega

/-- the attributes of the file -/
def buildOpt (dbl : Dbl D) (as : Option (List (ABlock D))) (M : FMesh D) : Res (FMesh D) :=
  match as with
  | none => .ok M
  | some bs => buildAs dbl bs M

/-- what comes after the faces -/
theorem tail_show {dbl : Dbl D} (hd : dbl.Sane) {c : Contents D} (hc : c.Fit) {M N O : FMesh D}
    (hR : buildFs addR 0 c.rs M = .ok N) (hA : buildOpt dbl c.as N = .ok O) {s : Text}
    (hs : skip s = skip (showRegions c.rs ++ showAtts dbl c.as)) :
    word s (ending ((c.rs.length : Int) ≠ 0) true M) (fun w s =>
      regionSection (c.rs.length : Int) M w s fun k M w s =>
        adjRSection k M w s fun M w s => attSection dbl M w s) = .ok (some (true, O)) := by
  by_cases hrs : c.rs = []
  · rw [hrs] at hR hs ⊢
    cases hR
    rw [show showRegions [] = [] from rfl, List.nil_append] at hs
    cases has : c.as with
    | none =>
      rw [has] at hs hA
      cases hA
      rw [word_end hs]
      rfl
    | some bs =>
      rw [has] at hs hA
      rw [word_word (w := ['a','t','t','r','i','b','u','t','e','s']) (by unfold Word; decide) (by decide)
        (sep_nl _) hs]
      exact attSection_show hd (hc.as bs has) hA
  · have hs' : skip s = skip (['r','e','g','i','o','n','s'] ++ (' ' :: (['f','a','c','e'] ++ ('\n' ::
        (c.rs.flatMap showF ++ showAtts dbl c.as))))) := by
      rw [hs, showRegions, if_neg hrs]
      simp only [List.cons_append, List.nil_append]
    obtain ⟨t, h1, h2⟩ := readRegions_show c.rs 0 ('\n' :: (c.rs.flatMap showF ++ showAtts dbl c.as)) M
      (showAtts dbl c.as) hc.rs (skip_nl _)
    rw [word_word (w := ['r','e','g','i','o','n','s']) (by unfold Word; decide) (by decide)
        (sep_space _) hs']
    unfold regionSection
    rw [if_pos (by decide), getWord_word (w := ['f','a','c','e']) (by unfold Word; decide) (by decide)
      (sep_nl _) (skip_space _), Res.bind_ok]
    simp only
    rw [if_pos (by decide), Int.toNat_natCast, h1, hR]
    simp only [Res.bind_ok]
    cases has : c.as with
    | none =>
      rw [has] at h2 hA
      cases hA
      rw [word_end h2]
      rfl
    | some bs =>
      rw [has] at h2 hA
      rw [word_word (w := ['a','t','t','r','i','b','u','t','e','s']) (by unfold Word; decide) (by decide)
        (sep_nl _) h2]
      exact attSection_show hd (hc.as bs has) hA

theorem readFile_head {dbl : Dbl D} (hd : dbl.Sane) {c : Contents D} (hc : c.Fit) :
    ∃ s, readFile dbl (render dbl c) = body dbl c.vs.length c.es.length c.fs.length c.rs.length s ∧
      skip s = skip (showVerts dbl c.vs ++ (showEdges c.es ++ (showFaces c.fs ++ (showRegions c.rs ++
        showAtts dbl c.as)))) := by
  refine ⟨'\n' :: (showVerts dbl c.vs ++ (showEdges c.es ++ (showFaces c.fs ++ (showRegions c.rs ++
    showAtts dbl c.as)))), ?_, skip_nl _⟩
  unfold readFile render
  rw [scanWord_word (w := ['M','S','T','K']) (by unfold Word; decide) (by decide) (sep_space _),
    Res.bind_ok]
  simp only
  rw [if_neg (by simp)]
  obtain ⟨x, hx⟩ := Option.isSome_iff_exists.1 hd.one
  rw [scanDbl_congr (skip_space _), scanDbl_word (w := ['1','.','0']) (by unfold Word; decide) hx
    (sep_nl _)]
  simp only
  unfold head showHead
  have h2 : ∀ {u : Text}, u = (showInt c.vs.length ++ (' ' :: (showInt c.es.length ++ (' ' ::
      (showInt c.fs.length ++ (' ' :: (showInt c.rs.length ++ ('\n' :: (showVerts dbl c.vs ++
        (showEdges c.es ++ (showFaces c.fs ++ (showRegions c.rs ++ showAtts dbl c.as)))))))))))) →
      counts 4 (' ' :: u) = .ok ([(c.vs.length : Int), c.es.length, c.fs.length, c.rs.length],
        '\n' :: (showVerts dbl c.vs ++ (showEdges c.es ++ (showFaces c.fs ++ (showRegions c.rs ++
          showAtts dbl c.as))))) := by
    intro u hu
    subst hu
    unfold counts
    rw [scanInt_congr (skip_space _), scanInt_show hc.nv (sep_space _)]
    simp only
    unfold counts
    rw [scanInt_congr (skip_space _), scanInt_show hc.ne (sep_space _)]
    simp only
    unfold counts
    rw [scanInt_congr (skip_space _), scanInt_show hc.nf (sep_space _)]
    simp only
    unfold counts
    rw [scanInt_congr (skip_space _), scanInt_show hc.nr (sep_nl _)]
    rfl
  cases hf4 : c.f4 with
  | false =>
    rw [if_neg (by simp), getWord_word (w := ['F','1']) (by unfold Word; decide) (by decide) (sep_space _)
      (by rw [skip_nl]; simp only [List.append_assoc, List.cons_append, List.nil_append]; rfl),
      Res.bind_ok]
    simp only
    rw [h2 rfl]
    rfl
  | true =>
    rw [if_pos rfl, getWord_word (w := ['F','4']) (by unfold Word; decide) (by decide) (sep_space _)
      (by rw [skip_nl]; simp only [List.append_assoc, List.cons_append, List.nil_append]; rfl),
      Res.bind_ok]
    simp only
    rw [h2 rfl]
    rfl

/-- Reading a printed file that has edges. -/
theorem readFile_show {dbl : Dbl D} (hd : dbl.Sane) {c : Contents D} (hc : c.Fit) (hne : c.es ≠ [])
    {M1 M2 M3 M4 : FMesh D}
    (hE : buildEs 0 c.es (buildVs dbl 0 c.vs (FMesh.new dbl)) = .ok M1)
    (hF : buildFs addF 0 c.fs M1 = .ok M2) (hR : buildFs addR 0 c.rs M2 = .ok M3)
    (hA : buildOpt dbl c.as M3 = .ok M4) :
    readFile dbl (render dbl c) = .ok (some (true, M4)) := by
  obtain ⟨s, h1, h2⟩ := readFile_head hd hc
  rw [h1]
  unfold showVerts at h2
  simp only [List.append_assoc, List.cons_append] at h2
  unfold body
  simp only
  rw [getWord_word (w := ['v','e','r','t','i','c','e','s']) (by unfold Word; decide) (by decide)
    (sep_nl _) (by rw [h2]; rfl), Res.bind_ok]
  simp only
  rw [if_pos (by decide)]
  obtain ⟨t, h3, h4⟩ := readVerts_show hd c.vs 0 ('\n' :: (c.vs.flatMap (showV dbl) ++ (showEdges c.es ++
    (showFaces c.fs ++ (showRegions c.rs ++ showAtts dbl c.as))))) (FMesh.new dbl) _ hc.vs (skip_nl _)
  rw [Int.toNat_natCast, h3, Res.bind_ok]
  simp only
  have h5 : skip t = skip (['e','d','g','e','s'] ++ ('\n' :: (c.es.flatMap showE ++ (showFaces c.fs ++
      (showRegions c.rs ++ showAtts dbl c.as))))) := by
    rw [h4, showEdges, if_neg hne]
    simp only [List.cons_append, List.nil_append]
  rw [word_word (w := ['e','d','g','e','s']) (by unfold Word; decide) (by decide) (sep_nl _) h5]
  unfold adjVSection
  rw [if_neg (by decide)]
  unfold edgeSection
  dsimp only
  rw [if_pos (by decide)]
  obtain ⟨t2, h6, h7⟩ := readEdges_show c.es 0 ('\n' :: (c.es.flatMap showE ++ (showFaces c.fs ++
      (showRegions c.rs ++ showAtts dbl c.as)))) (buildVs dbl 0 c.vs (FMesh.new dbl)) _ hc.es (skip_nl _)
  rw [Int.toNat_natCast, h6, hE]
  simp only [Res.bind_ok]
  have h8 : skip t2 = skip (['f','a','c','e','s'] ++ (' ' :: (['e','d','g','e'] ++ ('\n' ::
      (c.fs.flatMap showF ++ (showRegions c.rs ++ showAtts dbl c.as)))))) := by
    rw [h7, showFaces]
    simp only [List.cons_append, List.nil_append]
  rw [word_word (w := ['f','a','c','e','s']) (by unfold Word; decide) (by decide) (sep_space _) h8]
  unfold faceSection
  dsimp only
  rw [if_pos (by decide), getWord_word (w := ['e','d','g','e']) (by unfold Word; decide) (by decide)
    (sep_nl _) (skip_space _), Res.bind_ok]
  simp only
  rw [if_pos (by decide)]
  obtain ⟨t3, h9, h10⟩ := readFaces_show c.fs 0 ('\n' :: (c.fs.flatMap showF ++
      (showRegions c.rs ++ showAtts dbl c.as))) M1 _ hc.fs (skip_nl _)
  rw [Int.toNat_natCast, h9, hF]
  simp only [Res.bind_ok]
  exact tail_show hd hc hR hA h10

/-- Reading a printed file without edges fails after the vertices. -/
theorem readFile_no_edges {dbl : Dbl D} (hd : dbl.Sane) {c : Contents D} (hc : c.Fit) (hne : c.es = []) :
    readFile dbl (render dbl c) = .ok (some (false, buildVs dbl 0 c.vs (FMesh.new dbl))) := by
  obtain ⟨s, h1, h2⟩ := readFile_head hd hc
  rw [h1]
  unfold showVerts at h2
  simp only [List.append_assoc, List.cons_append] at h2
  unfold body
  simp only
  rw [getWord_word (w := ['v','e','r','t','i','c','e','s']) (by unfold Word; decide) (by decide)
    (sep_nl _) (by rw [h2]; rfl), Res.bind_ok]
  simp only
  rw [if_pos (by decide)]
  obtain ⟨t, h3, h4⟩ := readVerts_show hd c.vs 0 ('\n' :: (c.vs.flatMap (showV dbl) ++ (showEdges c.es ++
    (showFaces c.fs ++ (showRegions c.rs ++ showAtts dbl c.as))))) (FMesh.new dbl) _ hc.vs (skip_nl _)
  rw [Int.toNat_natCast, h3, Res.bind_ok]
  simp only
  have h8 : skip t = skip (['f','a','c','e','s'] ++ (' ' :: (['e','d','g','e'] ++ ('\n' ::
      (c.fs.flatMap showF ++ (showRegions c.rs ++ showAtts dbl c.as)))))) := by
    rw [h4, hne, showEdges, if_pos rfl, List.nil_append, showFaces]
    simp only [List.cons_append, List.nil_append]
  rw [word_word (w := ['f','a','c','e','s']) (by unfold Word; decide) (by decide) (sep_space _) h8]
  unfold adjVSection
  rw [if_neg (by decide)]
  unfold edgeSection
  dsimp only
  rw [if_neg (by decide)]

end File
end MSTK
