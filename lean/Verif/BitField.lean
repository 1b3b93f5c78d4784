/-!
Bit fields of 32-bit words: the code the compiler generates for reading and writing an
`unsigned int name:len` member at bit offset `off` (layout assumption: members of a storage unit are
packed from the least significant bit, as described by the comment in MEntity.h:26-34).
-/
namespace MSTK

def maskW (len : Nat) : BitVec 32 := BitVec.ofNat 32 (2 ^ len - 1)

/-- read member -/
def getField (w : BitVec 32) (off len : Nat) : BitVec 32 := (w >>> off) &&& maskW len

/-- write member (value truncated to its width) -/
def setField (w : BitVec 32) (off len : Nat) (v : BitVec 32) : BitVec 32 :=
  (w &&& ~~~(maskW len <<< off)) ||| ((v &&& maskW len) <<< off)

theorem getLsbD_maskW (len i : Nat) : (maskW len).getLsbD i = (decide (i < 32) && decide (i < len)) := by
  unfold maskW
  rw [BitVec.getLsbD_ofNat, Nat.testBit_two_pow_sub_one]

theorem getField_setField_same (w v : BitVec 32) (off len : Nat) (h : off + len ≤ 32) :
    getField (setField w off len v) off len = v &&& maskW len := by
  apply BitVec.eq_of_getLsbD_eq
  intro i hi
  unfold getField setField
  simp only [BitVec.getLsbD_and, BitVec.getLsbD_or, BitVec.getLsbD_not, BitVec.getLsbD_ushiftRight,
    BitVec.getLsbD_shiftLeft, getLsbD_maskW]
  by_cases h1 : i < len
  · simp [h1, show ¬ off + i < off by omega, show off + i < 32 by omega, show off + i - off = i by omega, hi]
  · simp [h1]

theorem getField_setField_other (w v : BitVec 32) (off len off' len' : Nat)
    (h' : off' + len' ≤ 32) (hd : off + len ≤ off' ∨ off' + len' ≤ off) :
    getField (setField w off len v) off' len' = getField w off' len' := by
  apply BitVec.eq_of_getLsbD_eq
  intro i hi
  unfold getField setField
  simp only [BitVec.getLsbD_and, BitVec.getLsbD_or, BitVec.getLsbD_not, BitVec.getLsbD_ushiftRight,
    BitVec.getLsbD_shiftLeft, getLsbD_maskW]
  by_cases h1 : i < len'
  · have h2 : off' + i < 32 := by omega
    by_cases h3 : off' + i < off
    · simp [h1, h2, h3]
    · have h4 : ¬ off' + i - off < len := by omega
      simp [h1, h2, h3, h4]
  · simp [h1]

theorem toNat_and_maskW (v : BitVec 32) (len : Nat) (h : len ≤ 32) : (v &&& maskW len).toNat = v.toNat % 2 ^ len := by
  unfold maskW
  rw [BitVec.toNat_and, BitVec.toNat_ofNat]
  have : (2 ^ len - 1) % 2 ^ 32 = 2 ^ len - 1 := by
    apply Nat.mod_eq_of_lt
    have := Nat.pow_le_pow_right (show 0 < 2 by omega) h
    have := Nat.pow_pos (n := len) (show 0 < 2 by omega)
    omega
  rw [this, Nat.and_two_pow_sub_one_eq_mod]

end MSTK
