import Verif.Model.Endian
namespace RedFs.Endian

theorem rev16_bit (x : BitVec 16) (i j : Nat) (hi : i < 2) (hj : j < 8) :
    (rev16 x).getLsbD (8*i+j) = x.getLsbD (8*(1-i)+j) := by
  unfold rev16
  match i, hi, j, hj with
  | 0, _, 0, _ | 0, _, 1, _ | 0, _, 2, _ | 0, _, 3, _ | 0, _, 4, _ | 0, _, 5, _ | 0, _, 6, _ | 0, _, 7, _
  | 1, _, 0, _ | 1, _, 1, _ | 1, _, 2, _ | 1, _, 3, _ | 1, _, 4, _ | 1, _, 5, _ | 1, _, 6, _ | 1, _, 7, _ => simp

/-- Bits of a mask made of whole bytes, by evaluation. -/
theorem m32 : ∀ i : Fin 32, (0x000000FF#32).getLsbD i.1 = decide (i.1/8=0) ∧ (0x0000FF00#32).getLsbD i.1 = decide (i.1/8=1)
   ∧ (0x00FF0000#32).getLsbD i.1 = decide (i.1/8=2) ∧ (0xFF000000#32).getLsbD i.1 = decide (i.1/8=3) := by decide

theorem rev32_bit (x : BitVec 32) (i j : Nat) (hi : i < 4) (hj : j < 8) :
    (rev32 x).getLsbD (8*i+j) = x.getLsbD (8*(3-i)+j) := by
  unfold rev32
  match i, hi, j, hj with
  | 0, _, 0, _ | 0, _, 1, _ | 0, _, 2, _ | 0, _, 3, _ | 0, _, 4, _ | 0, _, 5, _ | 0, _, 6, _ | 0, _, 7, _
  | 1, _, 0, _ | 1, _, 1, _ | 1, _, 2, _ | 1, _, 3, _ | 1, _, 4, _ | 1, _, 5, _ | 1, _, 6, _ | 1, _, 7, _
  | 2, _, 0, _ | 2, _, 1, _ | 2, _, 2, _ | 2, _, 3, _ | 2, _, 4, _ | 2, _, 5, _ | 2, _, 6, _ | 2, _, 7, _
  | 3, _, 0, _ | 3, _, 1, _ | 3, _, 2, _ | 3, _, 3, _ | 3, _, 4, _ | 3, _, 5, _ | 3, _, 6, _ | 3, _, 7, _ => simp

theorem _root_.Nat.sub_self_div' (a b : Nat) : (a - b) / b = a / b - 1 := by
  have := Nat.sub_mul_div a b 1
  simpa using this

theorem stage (x m1 m2 : BitVec 64) (k : Nat) (hk : 0 < k) (_h64 : 64 % (2*k) = 0)
    (h1 : ∀ i < 64, m1.getLsbD i = decide (i / k % 2 = 0))
    (h2 : ∀ i < 64, m2.getLsbD i = decide (i / k % 2 = 1)) (i : Nat) (hi : i < 64) :
    (((x &&& m1) <<< k) ||| ((x &&& m2) >>> k)).getLsbD i =
      if i / k % 2 = 1 then x.getLsbD (i - k) else x.getLsbD (i + k) := by
  simp only [BitVec.getLsbD_or, BitVec.getLsbD_shiftLeft, BitVec.getLsbD_ushiftRight, BitVec.getLsbD_and]
  have hd : i / k * k ≤ i := Nat.div_mul_le_self i k
  by_cases h : i / k % 2 = 1
  · have hk' : k ≤ i := by
      have : 1 ≤ i / k := by
        rcases Nat.eq_zero_or_pos (i / k) with h0 | h0
        · rw [h0] at h; omega
        · exact h0
      calc k = 1 * k := by omega
        _ ≤ i / k * k := Nat.mul_le_mul_right k this
        _ ≤ i := hd
    have e : (i - k) / k = i / k - 1 := Nat.sub_self_div' i k
    have e2 : (k + i) / k = i / k + 1 := by rw [Nat.add_comm, Nat.add_div_right _ hk]
    rw [h1 (i - k) (by omega), e]
    have : (i / k - 1) % 2 = 0 := by omega
    by_cases hlt : k + i < 64
    · rw [h2 (k+i) hlt, e2]
      have : ¬ (i / k + 1) % 2 = 1 := by omega
      simp [*]
    · have : x.getLsbD (k + i) = false := BitVec.getLsbD_of_ge _ _ (by omega)
      simp [*]
  · have e2 : (k + i) / k = i / k + 1 := by rw [Nat.add_comm, Nat.add_div_right _ hk]
    have h3 : (if i / k % 2 = 1 then x.getLsbD (i - k) else x.getLsbD (i + k)) = x.getLsbD (k + i) := by
      simp [h, Nat.add_comm]
    rw [h3]
    have hl : (decide (i < 64) && !decide (i < k) && (x.getLsbD (i - k) && m1.getLsbD (i - k))) = false := by
      by_cases hk' : i < k
      · simp [hk']
      · have e : (i - k) / k = i / k - 1 := Nat.sub_self_div' i k
        have e1 : 1 ≤ i / k := by rw [Nat.le_div_iff_mul_le hk]; omega
        rw [h1 (i - k) (by omega), e]
        have : ¬ (i / k - 1) % 2 = 0 := by omega
        simp [this]
    rw [hl]
    by_cases hlt : k + i < 64
    · rw [h2 (k+i) hlt, e2]
      have : (i / k + 1) % 2 = 1 := by omega
      simp [this]
    · have : x.getLsbD (k + i) = false := BitVec.getLsbD_of_ge _ _ (by omega)
      simp [this]

theorem m64_32 : ∀ i : Fin 64, (0x00000000FFFFFFFF#64).getLsbD i.1 = decide (i.1/32%2=0)
   ∧ (0xFFFFFFFF00000000#64).getLsbD i.1 = decide (i.1/32%2=1) := by decide +kernel
theorem m64_16 : ∀ i : Fin 64, (0x0000FFFF0000FFFF#64).getLsbD i.1 = decide (i.1/16%2=0)
   ∧ (0xFFFF0000FFFF0000#64).getLsbD i.1 = decide (i.1/16%2=1) := by decide +kernel
theorem m64_8 : ∀ i : Fin 64, (0x00FF00FF00FF00FF#64).getLsbD i.1 = decide (i.1/8%2=0)
   ∧ (0xFF00FF00FF00FF00#64).getLsbD i.1 = decide (i.1/8%2=1) := by decide +kernel

theorem rev64_bit (x : BitVec 64) (i j : Nat) (hi : i < 8) (hj : j < 8) :
    (rev64 x).getLsbD (8*i+j) = x.getLsbD (8*(7-i)+j) := by
  unfold rev64
  simp only
  have s8 := fun y n hn => stage y _ _ 8 (by omega) (by omega) (fun i h => (m64_8 ⟨i,h⟩).1) (fun i h => (m64_8 ⟨i,h⟩).2) n hn
  have s16 := fun y n hn => stage y _ _ 16 (by omega) (by omega) (fun i h => (m64_16 ⟨i,h⟩).1) (fun i h => (m64_16 ⟨i,h⟩).2) n hn
  have s32 := fun y n hn => stage y _ _ 32 (by omega) (by omega) (fun i h => (m64_32 ⟨i,h⟩).1) (fun i h => (m64_32 ⟨i,h⟩).2) n hn
  rw [s8 _ _ (by omega)]
  by_cases h8 : (8*i+j)/8 % 2 = 1
  · rw [if_pos h8, s16 _ _ (by omega)]
    by_cases h16 : (8*i+j-8)/16 % 2 = 1
    · rw [if_pos h16, s32 _ _ (by omega)]
      by_cases h32 : (8*i+j-8-16)/32 % 2 = 1
      · rw [if_pos h32]; congr 1; omega
      · rw [if_neg h32]; congr 1; omega
    · rw [if_neg h16, s32 _ _ (by omega)]
      by_cases h32 : (8*i+j-8+16)/32 % 2 = 1
      · rw [if_pos h32]; congr 1; omega
      · rw [if_neg h32]; congr 1; omega
  · rw [if_neg h8, s16 _ _ (by omega)]
    by_cases h16 : (8*i+j+8)/16 % 2 = 1
    · rw [if_pos h16, s32 _ _ (by omega)]
      by_cases h32 : (8*i+j+8-16)/32 % 2 = 1
      · rw [if_pos h32]; congr 1; omega
      · rw [if_neg h32]; congr 1; omega
    · rw [if_neg h16, s32 _ _ (by omega)]
      by_cases h32 : (8*i+j+8+16)/32 % 2 = 1
      · rw [if_pos h32]; congr 1; omega
      · rw [if_neg h32]; congr 1; omega

end RedFs.Endian
