import Verif.Wire.Model

/-! # Facts about the transport header word -/

namespace Verif.Wire

theorem and_type (x : BitVec 32) (i : Nat) :
    (x &&& 0xF0000000#32).getLsbD i = (x.getLsbD i && decide (28 ≤ i)) := by
  by_cases hi : i < 32
  · have : ∀ i < 32, (0xF0000000#32).getLsbD i = decide (28 ≤ i) := by decide
    rw [BitVec.getLsbD_and, this i hi]
  · rw [BitVec.getLsbD_of_ge _ _ (by omega), BitVec.getLsbD_of_ge _ _ (by omega)]; rfl

theorem and_size (x : BitVec 32) (i : Nat) :
    (x &&& 0x0FFFFFFF#32).getLsbD i = (x.getLsbD i && decide (i < 28)) := by
  by_cases hi : i < 32
  · have : ∀ i < 32, (0x0FFFFFFF#32).getLsbD i = decide (i < 28) := by decide
    rw [BitVec.getLsbD_and, this i hi]
  · rw [BitVec.getLsbD_of_ge _ _ (by omega), BitVec.getLsbD_of_ge _ _ (by omega)]; rfl

theorem and_size64 (x : BitVec 64) (i : Nat) :
    (x &&& 0x0FFFFFFF#64).getLsbD i = (x.getLsbD i && decide (i < 28)) := by
  by_cases hi : i < 64
  · have : ∀ i < 64, (0x0FFFFFFF#64).getLsbD i = decide (i < 28) := by decide
    rw [BitVec.getLsbD_and, this i hi]
  · rw [BitVec.getLsbD_of_ge _ _ (by omega), BitVec.getLsbD_of_ge _ _ (by omega)]; rfl

theorem pack_getLsbD (ty : BitVec 32) (size : BitVec 64) (i : Nat) (hi : i < 32) :
    (packHeader ty size).getLsbD i = if i < 28 then size.getLsbD i else ty.getLsbD (i - 28) := by
  unfold packHeader
  rw [BitVec.getLsbD_setWidth, BitVec.getLsbD_or, and_size64, BitVec.getLsbD_setWidth, and_type,
    BitVec.getLsbD_shiftLeft, BitVec.getLsbD_shiftLeft]
  have h64 : i < 64 := by omega
  by_cases h : i < 28
  · have h' : ¬ 28 ≤ i := by omega
    simp only [h, h', h64, hi, decide_true, decide_false, Nat.not_lt_zero, Bool.not_false, Bool.true_and,
      Nat.sub_zero, Bool.and_true, Bool.and_false, Bool.or_false, if_true]
  · have h' : 28 ≤ i := by omega
    simp only [h, h', h64, hi, decide_true, decide_false, Nat.not_lt_zero, Bool.not_false, Bool.true_and,
      Nat.sub_zero, Bool.and_true, Bool.and_false, Bool.false_or, if_false]

theorem unpackType_getLsbD (h : BitVec 32) (i : Nat) : (unpackType h).getLsbD i = h.getLsbD (28 + i) := by
  unfold unpackType
  rw [BitVec.getLsbD_ushiftRight, and_type]
  simp only [Nat.le_add_right, decide_true, Bool.and_true]

theorem unpackSize_getLsbD (h : BitVec 32) (i : Nat) :
    (unpackSize h).getLsbD i = (h.getLsbD i && decide (i < 28)) := by
  unfold unpackSize
  rw [BitVec.getLsbD_setWidth, BitVec.getLsbD_ushiftRight, Nat.zero_add, and_size]
  by_cases h1 : i < 28
  · have : i < 64 := by omega
    simp only [h1, this, decide_true, Bool.and_true, Bool.true_and]
  · simp only [h1, decide_false, Bool.and_false]

theorem getLsbD_high {w : Nat} (x : BitVec w) (k i : Nat) (hx : x.toNat < 2 ^ k) (h : k ≤ i) :
    x.getLsbD i = false := by
  rw [BitVec.getLsbD]
  exact Nat.testBit_lt_two_pow (Nat.lt_of_lt_of_le hx (Nat.pow_le_pow_right (by omega) h))

theorem unpack_type_pack (ty : BitVec 32) (size : BitVec 64) (ht : ty.toNat < 16) :
    unpackType (packHeader ty size) = ty := by
  apply BitVec.eq_of_getLsbD_eq
  intro i hi
  rw [unpackType_getLsbD]
  by_cases h : i < 4
  · rw [pack_getLsbD _ _ _ (by omega), if_neg (by omega), Nat.add_sub_cancel_left]
  · rw [getLsbD_high ty 4 i (by omega) (by omega), BitVec.getLsbD_of_ge _ _ (by omega)]

theorem unpack_size_pack (ty : BitVec 32) (size : BitVec 64) (hs : size.toNat < 2 ^ 28) :
    unpackSize (packHeader ty size) = size := by
  apply BitVec.eq_of_getLsbD_eq
  intro i hi
  rw [unpackSize_getLsbD]
  by_cases h : i < 28
  · rw [pack_getLsbD _ _ _ (by omega), if_pos h]
    simp only [h, decide_true, Bool.and_true]
  · rw [getLsbD_high size 28 i hs (by omega)]
    simp only [h, decide_false, Bool.and_false]

theorem pack_unpack (h : BitVec 32) : packHeader (unpackType h) (unpackSize h) = h := by
  apply BitVec.eq_of_getLsbD_eq
  intro i hi
  rw [pack_getLsbD _ _ _ hi]
  split
  · rename_i h28
    rw [unpackSize_getLsbD]
    simp only [h28, decide_true, Bool.and_true]
  · rw [unpackType_getLsbD]
    congr 1; omega

theorem unpackType_lt (h : BitVec 32) : (unpackType h).toNat < 16 := by
  have := h.isLt
  unfold unpackType
  rw [BitVec.toNat_ushiftRight, Nat.shiftRight_eq_div_pow]
  have h2 : (h &&& 0xF0000000#32).toNat < 2 ^ 32 := (h &&& 0xF0000000#32).isLt
  omega

theorem unpackSize_le (h : BitVec 32) : (unpackSize h).toNat ≤ maxSize := by
  have h1 : (h &&& 0x0FFFFFFF#32).toNat ≤ 0x0FFFFFFF := by
    rw [BitVec.toNat_and]
    exact Nat.and_le_right
  unfold unpackSize maxSize
  rw [BitVec.toNat_setWidth, BitVec.toNat_ushiftRight, Nat.shiftRight_zero]
  exact Nat.le_trans (Nat.mod_le _ _) h1

theorem headerBytes_length (ty size : Nat) : (headerBytes ty size).length = 4 := by simp [headerBytes]

/-- What the receiver gets from a header written for `ty` and `size`. -/
theorem header_read (ty size : Nat) (ht : ty < 16) (hs : size ≤ maxSize) (rest : Bytes) :
    let h := BitVec.ofNat 32 (leVal ((headerBytes ty size ++ rest).take 4))
    (unpackType h).toNat = ty ∧ (unpackSize h).toNat = size := by
  have hm : maxSize = 0x0FFFFFFF := rfl
  have h1 : (headerBytes ty size ++ rest).take 4 = headerBytes ty size := by
    rw [List.take_append_of_le_length (by simp [headerBytes_length])]
    exact List.take_of_length_le (by simp [headerBytes_length])
  have h2 : BitVec.ofNat 32 (leVal (headerBytes ty size)) =
      packHeader (BitVec.ofNat 32 ty) (BitVec.ofNat 64 size) := by
    apply BitVec.eq_of_toNat_eq
    have := (packHeader (BitVec.ofNat 32 ty) (BitVec.ofNat 64 size)).isLt
    rw [headerBytes, leVal_leBytes, BitVec.toNat_ofNat]
    omega
  have e1 : (BitVec.ofNat 32 ty).toNat = ty := by simp; omega
  have e2 : (BitVec.ofNat 64 size).toNat = size := by simp; omega
  intro h
  have hh : h = packHeader (BitVec.ofNat 32 ty) (BitVec.ofNat 64 size) := by
    show BitVec.ofNat 32 (leVal ((headerBytes ty size ++ rest).take 4)) = _
    rw [h1, h2]
  rw [hh, unpack_type_pack _ _ (by omega), unpack_size_pack _ _ (by omega)]
  exact ⟨e1, e2⟩

end Verif.Wire
