import Verif.MiscModel
import Verif.BitField
/-! C39 error reports, C44 packed counters, C46 set names. -/
namespace MSTK

/-- runs a history of reports until the process exits: the messages given and whether the process still runs -/
def reports : List Char → List (List Char × ErrType) → Res (List Char × ReportOutcome)
  | last, [] => .ok (last, .returned)
  | last, (m, t) :: rest => do
    let r ← report last m t
    match r.2 with
    | .exited => pure r
    | .returned => reports r.1 rest

/-- **C39 (negation)** A fatal report returns to its caller whenever its text equals the previous report's text,
whatever that report's severity: for every history and every message of fewer than 1024 characters, reporting it
as a warning and then as fatal leaves the process running.  The same holds for an empty message reported first. -/
theorem C39_fatal_negation (last m : List Char) (hm : m.length < 1024) :
    reports last [(m, .warn), (m, .fatal)] = .ok (m, .returned) ∧
    reports [] [([], .fatal)] = .ok ([], .returned) := by
  constructor
  · unfold reports report
    by_cases h : last = m
    · simp [h, reports, report]
    · simp [h, hm, reports, report]
  · rfl

/-- **C39 (partial)** If the text differs from the previous report's and has fewer than 1024 characters, a fatal
report always ends the process, whatever follows. -/
theorem C39_fatal_partial (last m : List Char) (hne : last ≠ m) (hm : m.length < 1024)
    (rest : List (List Char × ErrType)) :
    reports last ((m, .fatal) :: rest) = .ok (m, .exited) := by
  simp [reports, report, hne, hm]

/-- and a report that is not fatal never ends it -/
theorem C39_nonfatal_returns (last m : List Char) (t : ErrType) (ht : t ≠ .fatal) (hm : m.length < 1024) :
    report last m t = .ok (m, .returned) := by
  unfold report
  by_cases h : last = m
  · simp [h]
  · rw [if_neg h, if_pos hm]; cases t <;> simp_all

/-- non-vacuity -/
example : reports [] [("a".toList, .warn), ("b".toList, .fatal), ("c".toList, .warn)] = .ok ("b".toList, .exited) := by
  decide +kernel

/-- **C39 (messages too long)** reports of 1024 or more characters overrun the static buffer (unless repeated). -/
theorem C39_long_message_ub (last m : List Char) (hne : last ≠ m) (hm : 1024 ≤ m.length) (t : ErrType) :
    report last m t = .ub := by
  unfold report
  rw [if_neg hne, if_neg (by omega)]

/-- **C46 (negation)** Renaming a set to any name longer than its first name overruns the name buffer. -/
theorem C46_rename_negation (n0 n : List Char) (h : n0.length < n.length) : setRename (setNameNew n0) n = .ub := by
  unfold setRename setNameNew
  rw [if_neg (by simp; omega)]

/-- **C46 (partial)** Any sequence of renamings to names no longer than the first is safe and the last one is
the name reported. -/
theorem C46_rename_partial (n0 n : List Char) (ns : List (List Char)) (h : ∀ x ∈ ns ++ [n], x.length ≤ n0.length) :
    (ns ++ [n]).foldlM (fun b x => setRename b x) (setNameNew n0) = .ok (n0.length + 1, n) := by
  have gen : ∀ (ns : List (List Char)) (b : Nat × List Char), b.1 = n0.length + 1 →
      (∀ x ∈ ns ++ [n], x.length ≤ n0.length) →
      (ns ++ [n]).foldlM (fun b x => setRename b x) b = .ok (n0.length + 1, n) := by
    intro ns
    induction ns with
    | nil =>
      intro b hb h
      have := h n (by simp)
      simp [List.foldlM, setRename, hb, this]
    | cons x xs ih =>
      intro b hb h
      have h1 := h x (by simp)
      have hs : setRename b x = .ok (n0.length + 1, x) := by simp [setRename, hb, h1]
      rw [List.cons_append, List.foldlM_cons, hs, Res.bind_ok]
      exact ih _ rfl (fun y hy => h y (by
        rw [List.cons_append]; exact List.mem_cons_of_mem _ hy))
  exact gen ns _ rfl h

example : (["ab".toList] ++ ["z".toList]).foldlM (fun b x => setRename b x) (setNameNew "abc".toList)
    = .ok (4, "z".toList) := by decide +kernel

/-- **C44 (lists)** Both numbers stored in a list's header word read back, for every entry count below 2^26 (at
which `nent<<5` would overflow an int) and every size exponent below 32; neither disturbs the other. -/
theorem C44_list_header (nent p : BitVec 32) (hn : nent.toNat < 2 ^ 26) (hp : p.toNat < 32) :
    listNent (listPack nent p) = nent ∧ listP (listPack nent p) = p := by
  have h1 : ∀ i, 26 ≤ i → nent.getLsbD i = false := fun i hi => by
    rw [BitVec.getLsbD]; exact Nat.testBit_lt_two_pow (Nat.lt_of_lt_of_le hn (Nat.pow_le_pow_right (by omega) hi))
  have h2 : ∀ i, 5 ≤ i → p.getLsbD i = false := fun i hi => by
    rw [BitVec.getLsbD]; exact Nat.testBit_lt_two_pow (Nat.lt_of_lt_of_le (m := 2 ^ 5) hp (Nat.pow_le_pow_right (by omega) hi))
  have h31 : (31#32 : BitVec 32) = maskW 5 := by decide
  constructor <;> apply BitVec.eq_of_getLsbD_eq <;> intro i hi
  · unfold listNent listPack
    simp only [BitVec.getLsbD_or, BitVec.getLsbD_ushiftRight, BitVec.getLsbD_shiftLeft]
    rw [h2 (5 + i) (by omega)]
    by_cases hi2 : 5 + i < 32
    · simp [hi2, show ¬ 5 + i < 5 by omega]
    · simp [hi2, h1 i (by omega)]
  · unfold listP listPack
    rw [h31]
    simp only [BitVec.getLsbD_or, BitVec.getLsbD_and, BitVec.getLsbD_shiftLeft, getLsbD_maskW]
    by_cases h5 : i < 5
    · simp [h5, hi]
    · simp [h5, h2 i (by omega)]

example : listNent (listPack 67108863#32 27#32) = 67108863#32 ∧ listP (listPack 67108863#32 27#32) = 27#32 := by
  decide

/-- **C44 (hash tables, partial)** Count, size exponent and automatic-removal flag of a hash table's header word
read back for every count below 2^25. -/
theorem C44_hash_header_partial (nent p : BitVec 32) (t : Bool) (hn : nent.toNat < 2 ^ 25) (hp : p.toNat < 32) :
    hashNentPars (hashPack nent p t) = nent ∧ hashNent (hashPack nent p t) = nent ∧
    hashP (hashPack nent p t) = p ∧ hashT (hashPack nent p t) = t := by
  have h1 : ∀ i, 25 ≤ i → nent.getLsbD i = false := fun i hi => by
    rw [BitVec.getLsbD]; exact Nat.testBit_lt_two_pow (Nat.lt_of_lt_of_le hn (Nat.pow_le_pow_right (by omega) hi))
  have h2 : ∀ i, 5 ≤ i → p.getLsbD i = false := fun i hi => by
    rw [BitVec.getLsbD]; exact Nat.testBit_lt_two_pow (Nat.lt_of_lt_of_le (m := 2 ^ 5) hp (Nat.pow_le_pow_right (by omega) hi))
  have h31 : (31#32 : BitVec 32) = maskW 5 := by decide
  have ht : ∀ i, (if t then (1#32 : BitVec 32) else 0#32).getLsbD i = (t && decide (i = 0)) := by
    intro i
    cases t
    · simp
    · simp only [if_true, Bool.true_and]
      rw [BitVec.getLsbD_one]; simp
  have hw : ∀ i, i < 32 → (hashPack nent p t).getLsbD i =
      if i < 5 then p.getLsbD i else if i = 5 then t else nent.getLsbD (i - 6) := by
    intro i hi
    unfold hashPack
    simp only [BitVec.getLsbD_or, BitVec.getLsbD_shiftLeft, ht]
    by_cases a : i < 5
    · simp [a, show i < 6 by omega]
    · by_cases b : i = 5
      · subst b; rw [h2 5 (by omega)]; simp
      · rw [h2 i (by omega)]; simp [a, b, hi, show ¬ i < 6 by omega, show ¬ i - 5 = 0 by omega]
  have hmsb : (hashPack nent p t).msb = false := by
    rw [BitVec.msb_eq_getLsbD_last, hw _ (by omega), if_neg (by omega), if_neg (by omega)]
    exact h1 25 (by omega)
  refine ⟨?_, ?_, ?_, ?_⟩
  · unfold hashNentPars
    rw [BitVec.sshiftRight_eq_of_msb_false hmsb, BitVec.sshiftRight_eq_of_msb_false (by
      rw [BitVec.msb_eq_getLsbD_last]; simp)]
    apply BitVec.eq_of_getLsbD_eq
    intro i hi
    simp only [BitVec.getLsbD_ushiftRight]
    by_cases a : i < 26
    · rw [hw _ (by omega), if_neg (by omega), if_neg (by omega), show 5 + (1 + i) - 6 = i by omega]
    · rw [h1 i (by omega)]; exact BitVec.getLsbD_of_ge _ _ (by omega)
  · unfold hashNent
    apply BitVec.eq_of_getLsbD_eq
    intro i hi
    simp only [BitVec.getLsbD_ushiftRight]
    by_cases a : i < 26
    · rw [hw _ (by omega), if_neg (by omega), if_neg (by omega), show 6 + i - 6 = i by omega]
    · rw [h1 i (by omega)]; exact BitVec.getLsbD_of_ge _ _ (by omega)
  · unfold hashP
    rw [h31]
    apply BitVec.eq_of_getLsbD_eq
    intro i hi
    simp only [BitVec.getLsbD_and, getLsbD_maskW]
    by_cases a : i < 5
    · rw [hw _ (by omega)]; simp [a, hi]
    · simp [a, h2 i (by omega)]
  · unfold hashT
    rw [BitVec.sshiftRight_eq_of_msb_false hmsb]
    have : ((hashPack nent p t) >>> 5 &&& 1#32) = if t then 1#32 else 0#32 := by
      apply BitVec.eq_of_getLsbD_eq
      intro i hi
      rw [ht]
      simp only [BitVec.getLsbD_and, BitVec.getLsbD_ushiftRight, BitVec.getLsbD_one]
      by_cases a : i = 0
      · subst a; simp only [Nat.add_zero]; rw [hw 5 (by omega)]; simp
      · simp [a]
    rw [this]; cases t <;> rfl

/-- **C44 (hash tables, negation)** For every count from 2^25 up to the documented maximum of 2^26-1 the count read by
`pvtHash_Get_Pars` (used by every insertion) differs from the one stored: the word is read through a signed
variable and sign-extended. -/
theorem C44_hash_header_negation (nent p : BitVec 32) (t : Bool) (hn : 2 ^ 25 ≤ nent.toNat) (hn' : nent.toNat < 2 ^ 26) :
    hashNentPars (hashPack nent p t) ≠ nent := by
  have hb : nent.getLsbD 25 = true := by
    rw [BitVec.getLsbD, Nat.testBit_eq_decide_div_mod_eq]
    have : nent.toNat / 2 ^ 25 = 1 := by omega
    simp [this]
  have h31 : nent.getLsbD 31 = false := by
    rw [BitVec.getLsbD]; exact Nat.testBit_lt_two_pow (by omega)
  have hmsb : (hashPack nent p t).msb = true := by
    rw [BitVec.msb_eq_getLsbD_last]
    unfold hashPack
    simp [hb]
  intro h
  have : (hashNentPars (hashPack nent p t)).msb = true := by
    unfold hashNentPars
    rw [BitVec.msb_sshiftRight, BitVec.msb_sshiftRight, hmsb]
  rw [h, BitVec.msb_eq_getLsbD_last] at this
  exact absurd (h31.symm.trans this) (by decide)

example : hashNentPars (hashPack 33554432#32 26#32 true) = 4261412864#32 := by decide

end MSTK
