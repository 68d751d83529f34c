import Verif.Model.Bitmap
namespace RedFs.Bitmap

theorem mask_get : ∀ (r : Fin 8) (b : Fin 256),
    ((BitVec.ofFin b : BitVec 8) &&& (0x80#8 >>> r.1) != 0#8) = (BitVec.ofFin b : BitVec 8).getLsbD (7 - r.1) := by
  decide +kernel
theorem mask_bit : ∀ (r s : Fin 8), (0x80#8 >>> r.1).getLsbD (7 - s.1) = (r.1 == s.1) := by
  decide +kernel
theorem mask_get' (r : Nat) (hr : r < 8) (b : BitVec 8) :
    (b &&& (0x80#8 >>> r) != 0#8) = b.getLsbD (7 - r) := mask_get ⟨r, hr⟩ b.toFin
theorem mask_set (r s : Fin 8) (b : BitVec 8) :
    ((b ||| (0x80#8 >>> r.1)) &&& (0x80#8 >>> s.1) != 0#8) =
      (r.1 == s.1 || (b &&& (0x80#8 >>> s.1) != 0#8)) := by
  rw [mask_get' _ s.2, mask_get' _ s.2, BitVec.getLsbD_or, mask_bit, Bool.or_comm]
theorem mask_clear (r s : Fin 8) (b : BitVec 8) :
    ((b &&& ~~~(0x80#8 >>> r.1)) &&& (0x80#8 >>> s.1) != 0#8) =
      (r.1 != s.1 && (b &&& (0x80#8 >>> s.1) != 0#8)) := by
  rw [mask_get' _ s.2, mask_get' _ s.2, BitVec.getLsbD_and, BitVec.getLsbD_not, mask_bit, Bool.and_comm]
  have : 7 - s.1 < 8 := by omega
  simp [this, bne]

theorem and7 (n : Nat) : n &&& 7 = n % 8 := Nat.and_two_pow_sub_one_eq_mod n 3
theorem shr3 (n : Nat) : n >>> 3 = n / 8 := by rw [Nat.shiftRight_eq_div_pow]
theorem and7_lt (n : Nat) : n &&& 7 < 8 := by rw [and7]; omega

theorem bitGet_set (bm : Mem8) (i j : Nat) :
    bitGet (bitSet bm i) j = (decide (i = j) || bitGet bm j) := by
  unfold bitGet bitSet store
  by_cases h : j >>> 3 = i >>> 3
  · simp only [h, if_true]
    have := mask_set ⟨i &&& 7, and7_lt i⟩ ⟨j &&& 7, and7_lt j⟩ (bm (i >>> 3))
    simp only at this
    refine Eq.trans this ?_
    congr 1
    rw [shr3, shr3] at h; rw [and7, and7]
    by_cases e : i = j
    · simp [e]
    · have : ¬ i % 8 = j % 8 := by omega
      simp [e, this]
  · have : i ≠ j := by rintro rfl; exact h rfl
    simp [h, this]

theorem bitGet_clear (bm : Mem8) (i j : Nat) :
    bitGet (bitClear bm i) j = (!decide (i = j) && bitGet bm j) := by
  unfold bitGet bitClear store
  by_cases h : j >>> 3 = i >>> 3
  · simp only [h, if_true]
    have := mask_clear ⟨i &&& 7, and7_lt i⟩ ⟨j &&& 7, and7_lt j⟩ (bm (i >>> 3))
    simp only at this
    refine Eq.trans this ?_
    congr 1
    rw [shr3, shr3] at h; rw [and7, and7]
    by_cases e : i = j
    · simp [e]
    · have : ¬ i % 8 = j % 8 := by omega
      simp [e, this]
  · have : i ≠ j := by rintro rfl; exact h rfl
    simp [h, this]

theorem bitGet_bit (bm : Mem8) (i : Nat) : bitGet bm i = (bm (i / 8)).getLsbD (7 - i % 8) := by
  have := mask_get ⟨i &&& 7, and7_lt i⟩ (bm (i >>> 3)).toFin
  simp only at this
  unfold bitGet
  refine Eq.trans this ?_
  rw [and7, shr3]

end RedFs.Bitmap
