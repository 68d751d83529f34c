import Verif.Model.Words
import Verif.Lemmas.Seek
set_option linter.unusedSimpArgs false
set_option linter.unusedVariables false
/-! Machine words against natural numbers. -/
namespace RedFs.Words
open M

variable {c : Conf}

/-! ### Bits -/

theorem wide_toNat (x : U32) : (wide x).toNat = x.toNat := by
  unfold wide; rw [BitVec.toNat_setWidth]; have := x.isLt; omega
theorem up_toNat (x : U16) : (up x).toNat = x.toNat := by
  unfold up; rw [BitVec.toNat_setWidth]; have := x.isLt; omega
theorem lo32_toNat {x : U64} (h : x.toNat < 4294967296) : (lo32 x).toNat = x.toNat := by
  unfold lo32; rw [BitVec.toNat_setWidth]; omega
theorem lo16_toNat {x : U32} (h : x.toNat < 65536) : (lo16 x).toNat = x.toNat := by
  unfold lo16; rw [BitVec.toNat_setWidth]; omega
theorem redmin_toNat (a b : U32) : (redmin a b).toNat = min a.toNat b.toNat := by
  unfold redmin; split <;> rename_i h <;> rw [BitVec.lt_def] at h <;> omega
theorem ofNat32 {n : Nat} (h : n < 4294967296) : (BitVec.ofNat 32 n).toNat = n := by
  rw [BitVec.toNat_ofNat]; omega
theorem ofNat64 {n : Nat} (h : n < 18446744073709551616) : (BitVec.ofNat 64 n).toNat = n := by
  rw [BitVec.toNat_ofNat]; omega
theorem add32 {a b : U32} (h : a.toNat + b.toNat < 4294967296) : (a + b).toNat = a.toNat + b.toNat := by
  rw [BitVec.toNat_add]; omega
theorem add64 {a b : U64} (h : a.toNat + b.toNat < 18446744073709551616) : (a + b).toNat = a.toNat + b.toNat := by
  rw [BitVec.toNat_add]; omega
theorem sub32 {a b : U32} (h : b.toNat ≤ a.toNat) : (a - b).toNat = a.toNat - b.toNat := BitVec.toNat_sub_of_le (BitVec.le_def.2 h)
theorem sub64 {a b : U64} (h : b.toNat ≤ a.toNat) : (a - b).toNat = a.toNat - b.toNat := BitVec.toNat_sub_of_le (BitVec.le_def.2 h)
theorem mul32 {a b : U32} (h : a.toNat * b.toNat < 4294967296) : (a * b).toNat = a.toNat * b.toNat := by
  rw [BitVec.toNat_mul]; exact Nat.mod_eq_of_lt h
theorem mul64 {a b : U64} (h : a.toNat * b.toNat < 18446744073709551616) : (a * b).toNat = a.toNat * b.toNat := by
  rw [BitVec.toNat_mul]; exact Nat.mod_eq_of_lt h
theorem div32 (a b : U32) : (a / b).toNat = a.toNat / b.toNat := BitVec.toNat_udiv
theorem mod32 (a b : U32) : (a % b).toNat = a.toNat % b.toNat := BitVec.toNat_umod
theorem eq_toNat {w : Nat} (a b : BitVec w) : a = b ↔ a.toNat = b.toNat := BitVec.toNat_inj.symm
theorem lt_toNat {w : Nat} (a b : BitVec w) : a < b ↔ a.toNat < b.toNat := BitVec.lt_def
theorem le_toNat {w : Nat} (a b : BitVec w) : a ≤ b ↔ a.toNat ≤ b.toNat := BitVec.le_def

/-! ### Block size -/

theorem p2_eq (hc : c.Ok) : c.blockSize = 2 ^ p2 c ∧ 7 ≤ p2 c ∧ p2 c ≤ 16 := by
  obtain ⟨k, h1, h2, h3⟩ := hc.bs_pow
  have : k = 7 ∨ k = 8 ∨ k = 9 ∨ k = 10 ∨ k = 11 ∨ k = 12 ∨ k = 13 ∨ k = 14 ∨ k = 15 ∨ k = 16 := by omega
  have hp : p2 c = k := by
    unfold p2; rw [h3]
    rcases this with h | h | h | h | h | h | h | h | h | h <;> subst h <;> rfl
  rw [hp]; exact ⟨h3, h1, h2⟩

theorem bs_bounds (hc : c.Ok) : 128 ≤ c.blockSize ∧ c.blockSize ≤ 65536 := by
  obtain ⟨k, h1, h2, h3⟩ := hc.bs_pow
  have a : 2 ^ 7 ≤ 2 ^ k := Nat.pow_le_pow_right (by omega) h1
  have b : 2 ^ k ≤ 2 ^ 16 := Nat.pow_le_pow_right (by omega) h2
  rw [h3]; omega

theorem bs_toNat (hc : c.Ok) : (bs c).toNat = c.blockSize := ofNat32 (by have := bs_bounds hc; omega)

theorem shr64 (hc : c.Ok) (x : U64) : (x >>> p2 c).toNat = x.toNat / c.blockSize := by
  rw [BitVec.toNat_ushiftRight, Nat.shiftRight_eq_div_pow, (p2_eq hc).1]
theorem shr32 (hc : c.Ok) (x : U32) : (x >>> p2 c).toNat = x.toNat / c.blockSize := by
  rw [BitVec.toNat_ushiftRight, Nat.shiftRight_eq_div_pow, (p2_eq hc).1]
theorem shl32 (hc : c.Ok) {x : U32} (h : x.toNat * c.blockSize < 4294967296) : (x <<< p2 c).toNat = x.toNat * c.blockSize := by
  rw [BitVec.toNat_shiftLeft, Nat.shiftLeft_eq, ← (p2_eq hc).1]; exact Nat.mod_eq_of_lt h
theorem shl64 (hc : c.Ok) {x : U64} (h : x.toNat * c.blockSize < 18446744073709551616) : (x <<< p2 c).toNat = x.toNat * c.blockSize := by
  rw [BitVec.toNat_shiftLeft, Nat.shiftLeft_eq, ← (p2_eq hc).1]; exact Nat.mod_eq_of_lt h

theorem one32 : (1 : U32).toNat = 1 := rfl
theorem zero32 : (0 : U32).toNat = 0 := rfl
theorem zero64 : (0 : U64).toNat = 0 := rfl
theorem one64 : (1 : U64).toNat = 1 := rfl

theorem inBlock_toNat (hc : c.Ok) (x : U64) : (inBlock c x).toNat = x.toNat % c.blockSize := by
  have h := bs_bounds hc
  have e : (wide (bs c - 1)).toNat = 2 ^ p2 c - 1 := by
    rw [wide_toNat, sub32 (by rw [bs_toNat hc, one32]; omega), bs_toNat hc, one32, ← (p2_eq hc).1]
  unfold inBlock
  rw [BitVec.toNat_and, e, Nat.and_two_pow_sub_one_eq_mod, ← (p2_eq hc).1]

/-! ### Constants -/

theorem inodeEntries_le (hc : c.Ok) : c.inodeEntries ≤ 16384 := by
  have := bs_bounds hc
  unfold Conf.inodeEntries; omega
theorem inodeHeader_le : c.inodeHeader ≤ 48 := by
  unfold Conf.inodeHeader; split <;> split <;> split <;> omega
theorem indirEntries_bounds (hc : c.Ok) : 27 ≤ c.indirEntries ∧ c.indirEntries ≤ 16379 := by
  have := bs_bounds hc
  unfold Conf.indirEntries; omega

theorem direct_toNat (hc : c.Ok) : (direct c).toNat = c.direct :=
  ofNat32 (by have := hc.ptrs; have := inodeEntries_le hc; omega)
theorem indirect_toNat (hc : c.Ok) : (indirect c).toNat = c.indirect :=
  ofNat32 (by have := hc.ptrs; have := inodeEntries_le hc; omega)
theorem inodeEntries_toNat (hc : c.Ok) : (inodeEntries c).toNat = c.inodeEntries := by
  have h := bs_bounds hc
  have h2 := inodeHeader_le (c := c)
  have e : (BitVec.ofNat 32 c.inodeHeader).toNat = c.inodeHeader := ofNat32 (by omega)
  unfold inodeEntries Conf.inodeEntries
  rw [div32, sub32 (by rw [bs_toNat hc, e]; omega), bs_toNat hc, e]; rfl
theorem indirEntries_toNat (hc : c.Ok) : (indirEntries c).toNat = c.indirEntries := by
  have h := bs_bounds hc
  have e : (20 : U32).toNat = 20 := rfl
  unfold indirEntries Conf.indirEntries
  rw [div32, sub32 (by rw [bs_toNat hc, e]; omega), bs_toNat hc, e]; rfl
theorem imapEntries_toNat (hc : c.Ok) : (imapEntries c).toNat = c.imapEntries := by
  have h := bs_bounds hc
  have e : (16 : U32).toNat = 16 := rfl
  have e8 : (8 : U32).toNat = 8 := rfl
  unfold imapEntries Conf.imapEntries
  have s : (bs c - 16).toNat = c.blockSize - 16 := by rw [sub32 (by rw [bs_toNat hc, e]; omega), bs_toNat hc, e]
  rw [mul32 (by rw [s, e8]; omega), s, e8]
theorem dindirPtrs_toNat (hc : c.Ok) : (dindirPtrs c).toNat = c.dindirPtrs := by
  have := hc.ptrs
  have a := direct_toNat hc
  have b := indirect_toNat hc
  have e := inodeEntries_toNat hc
  unfold dindirPtrs Conf.dindirPtrs
  have s : (inodeEntries c - direct c).toNat = c.inodeEntries - c.direct := by rw [sub32 (by omega), e, a]
  rw [sub32 (by omega), s, b]
theorem sq_le (hc : c.Ok) : c.indirEntries * c.indirEntries ≤ 268271641 := by
  have h := (indirEntries_bounds hc).2
  have := Nat.mul_le_mul h h
  omega
theorem dindirData_toNat (hc : c.Ok) : (dindirData c).toNat = c.dindirData := by
  have h := sq_le hc
  unfold dindirData Conf.dindirData
  rw [mul32 (by rw [indirEntries_toNat hc]; omega), indirEntries_toNat hc]
theorem dindirData_pos (hc : c.Ok) : 0 < c.dindirData :=
  Nat.mul_pos (by have := indirEntries_bounds hc; omega) (by have := indirEntries_bounds hc; omega)
theorem indirBlocks_le (hc : c.Ok) : c.indirBlocks ≤ 268353536 := by
  have h := (indirEntries_bounds hc).2
  have h2 : c.indirect ≤ 16384 := by have := hc.ptrs; have := inodeEntries_le hc; omega
  have := Nat.mul_le_mul h2 h
  unfold Conf.indirBlocks; omega
theorem indirBlocks_toNat (hc : c.Ok) : (indirBlocks c).toNat = c.indirBlocks := by
  have h := indirBlocks_le hc
  unfold Conf.indirBlocks at h
  unfold indirBlocks Conf.indirBlocks
  rw [mul32 (by rw [indirEntries_toNat hc, indirect_toNat hc]; omega), indirEntries_toNat hc, indirect_toNat hc]
theorem direct_le (hc : c.Ok) : c.direct ≤ 16384 := by have := hc.ptrs; have := inodeEntries_le hc; omega
theorem dindirBlocksMax_toNat (hc : c.Ok) : (dindirBlocksMax c).toNat = c.dindirBlocksMax := by
  have h := indirBlocks_le hc
  have h2 := direct_le hc
  have a := direct_toNat hc
  have b := indirBlocks_toNat hc
  have m : (0xFFFFFFFF#32).toNat = 4294967295 := rfl
  have s : (direct c + indirBlocks c).toNat = c.direct + c.indirBlocks := by rw [add32 (by omega), a, b]
  unfold dindirBlocksMax Conf.dindirBlocksMax
  rw [sub32 (by rw [s, m]; omega), s, m]
theorem dindirPtrsMax_toNat (hc : c.Ok) : (dindirPtrsMax c).toNat = c.dindirPtrsMax := by
  have a := dindirBlocksMax_toNat hc
  have b := dindirData_toNat hc
  have le : c.dindirBlocksMax / c.dindirData ≤ 4294967295 / 1 := by
    apply Nat.div_le_div _ _ (by omega)
    · unfold Conf.dindirBlocksMax; omega
    · exact dindirData_pos hc
  have lt : c.dindirBlocksMax / c.dindirData ≤ 2147483648 := by
    have p : 2 ≤ c.dindirData := by
      have h := (indirEntries_bounds hc).1
      have := Nat.mul_le_mul h h
      unfold Conf.dindirData; omega
    have : c.dindirBlocksMax / c.dindirData ≤ 4294967295 / 2 := Nat.div_le_div (by unfold Conf.dindirBlocksMax; omega) p (by omega)
    omega
  unfold dindirPtrsMax Conf.dindirPtrsMax
  have e : (dindirBlocksMax c % dindirData c = 0) ↔ c.dindirBlocksMax % c.dindirData = 0 := by
    rw [eq_toNat, mod32, a, b]; rfl
  have t : (if dindirBlocksMax c % dindirData c = 0 then (0 : U32) else 1).toNat = if c.dindirBlocksMax % c.dindirData = 0 then 0 else 1 := by
    simp only [e]; split <;> rfl
  have t1 : (if c.dindirBlocksMax % c.dindirData = 0 then 0 else 1) ≤ 1 := by split <;> omega
  rw [add32 (by rw [div32, a, b, t]; omega), div32, a, b, t]
theorem dindirBlocks_toNat (hc : c.Ok) : (dindirBlocks c).toNat = c.dindirBlocks ∧ c.dindirBlocks ≤ c.dindirBlocksMax := by
  have a := dindirBlocksMax_toNat hc
  have b := dindirPtrsMax_toNat hc
  have d := dindirPtrs_toNat hc
  have e := dindirData_toNat hc
  have hl : c.dindirBlocksMax ≤ 4294967295 := by unfold Conf.dindirBlocksMax; omega
  have key : c.dindirPtrs < c.dindirPtrsMax → c.dindirPtrs * c.dindirData ≤ c.dindirBlocksMax := by
    intro h
    unfold Conf.dindirPtrsMax at h
    have : c.dindirPtrs ≤ c.dindirBlocksMax / c.dindirData := by
      split at h <;> omega
    calc c.dindirPtrs * c.dindirData ≤ c.dindirBlocksMax / c.dindirData * c.dindirData := Nat.mul_le_mul_right _ this
      _ ≤ c.dindirBlocksMax := Nat.div_mul_le_self ..
  unfold dindirBlocks Conf.dindirBlocks
  simp only [le_toNat, b, d]
  split
  · exact ⟨a, Nat.le_refl _⟩
  · rename_i h
    have k := key (by omega)
    refine ⟨?_, k⟩
    rw [mul32 (by rw [d, e]; omega), d, e]
theorem dataBlocks_le (hc : c.Ok) : c.dataBlocks ≤ 4294967295 := by
  have h := (dindirBlocks_toNat hc).2
  have := indirBlocks_le hc
  have := direct_le hc
  unfold Conf.dindirBlocksMax at h
  unfold Conf.dataBlocks; omega
theorem dataBlocks_toNat (hc : c.Ok) : (dataBlocks c).toNat = c.dataBlocks := by
  have h := dataBlocks_le hc
  unfold Conf.dataBlocks at h
  have a := direct_toNat hc
  have b := indirBlocks_toNat hc
  have d := (dindirBlocks_toNat hc).1
  have s : (direct c + indirBlocks c).toNat = c.direct + c.indirBlocks := by rw [add32 (by omega), a, b]
  unfold dataBlocks Conf.dataBlocks
  rw [add32 (by rw [s, d]; omega), s, d]
theorem sizeMax_lt (hc : c.Ok) : c.sizeMax ≤ 281474976645120 := by
  have h := dataBlocks_le hc
  have h2 := (bs_bounds hc).2
  have := Nat.mul_le_mul h2 h
  unfold Conf.sizeMax; omega
theorem sizeMax_toNat (hc : c.Ok) : (sizeMax c).toNat = c.sizeMax := by
  have h := sizeMax_lt hc
  unfold Conf.sizeMax at h
  have a : (wide (bs c)).toNat = c.blockSize := by rw [wide_toNat, bs_toNat hc]
  have b : (wide (dataBlocks c)).toNat = c.dataBlocks := by rw [wide_toNat, dataBlocks_toNat hc]
  have s : (1 * wide (bs c)).toNat = c.blockSize := by
    rw [mul64 (by rw [one64, a]; have := bs_bounds hc; omega), one64, a]; omega
  unfold sizeMax Conf.sizeMax
  rw [mul64 (by rw [s, b]; omega), s, b]

theorem blockOf_toNat (hc : c.Ok) {x : U64} (h : x.toNat ≤ c.sizeMax) : (blockOf c x).toNat = x.toNat / c.blockSize := by
  have hb := bs_bounds hc
  have : x.toNat / c.blockSize ≤ c.dataBlocks := by
    have h1 : x.toNat / c.blockSize ≤ c.sizeMax / c.blockSize := Nat.div_le_div_right h
    unfold Conf.sizeMax at h1
    rwa [Nat.mul_div_cancel_left _ (by omega)] at h1
  have := dataBlocks_le hc
  unfold blockOf
  rw [lo32_toNat (by rw [shr64 hc]; omega), shr64 hc]

/-! ### Directories -/

theorem ds_bounds (hp : c.PosixOk) (hc : c.Ok) : 5 ≤ c.ds ∧ c.ds < c.blockSize := ⟨by
  have := hp.name
  unfold Conf.ds; omega, hp.fits⟩
theorem ds_toNat (hc : c.Ok) (hp : c.PosixOk) : (ds c).toNat = c.ds := by
  have h := hp.fits
  have hb := bs_bounds hc
  unfold Conf.ds at h
  have a : (BitVec.ofNat 32 c.nameMax).toNat = c.nameMax := ofNat32 (by omega)
  have b : (BitVec.ofNat 32 c.direntPad).toNat = c.direntPad := ofNat32 (by omega)
  have f : (4 : U32).toNat = 4 := rfl
  unfold ds Conf.ds
  have s : (4 + BitVec.ofNat 32 c.nameMax).toNat = 4 + c.nameMax := by rw [add32 (by rw [a, f]; omega), a, f]
  rw [add32 (by rw [s, b]; omega), s, b]
theorem dpb_toNat (hc : c.Ok) (hp : c.PosixOk) : (dpb c).toNat = c.dpb := by
  unfold dpb Conf.dpb; rw [div32, bs_toNat hc, ds_toNat hc hp]
theorem dpb_bounds (hc : c.Ok) (hp : c.PosixOk) : 1 ≤ c.dpb ∧ c.dpb * c.ds ≤ c.blockSize ∧ c.dpb ≤ 13107 := by
  have h := ds_bounds hp hc
  have hb := bs_bounds hc
  refine ⟨?_, Nat.div_mul_le_self .., ?_⟩
  · unfold Conf.dpb; exact Nat.div_pos (by omega) (by omega)
  · unfold Conf.dpb
    have : c.blockSize / c.ds ≤ 65536 / 5 := Nat.div_le_div hb.2 h.1 (by omega)
    omega
theorem direntsMax_toNat (hc : c.Ok) (hp : c.PosixOk) : (direntsMax c).toNat = c.direntsMax := by
  have h := dataBlocks_le hc
  have h2 := (dpb_bounds hc hp).2.2
  have hm := Nat.mul_le_mul h h2
  have a : (wide (dataBlocks c)).toNat = c.dataBlocks := by rw [wide_toNat, dataBlocks_toNat hc]
  have b : (wide (dpb c)).toNat = c.dpb := by rw [wide_toNat, dpb_toNat hc hp]
  have s : (1 * wide (dataBlocks c)).toNat = c.dataBlocks := by
    rw [mul64 (by rw [one64, a]; omega), one64, a]; omega
  have m : (wide 0xFFFFFFFF#32).toNat = 4294967295 := rfl
  have p : (1 * wide (dataBlocks c) * wide (dpb c)).toNat = c.dataBlocks * c.dpb := by
    rw [mul64 (by rw [s, b]; omega), s, b]
  unfold direntsMax Conf.direntsMax
  simp only [lt_toNat, m, p]
  split
  · rw [lo32_toNat (by rw [m]; omega), m]; omega
  · rw [lo32_toNat (by rw [p]; omega), p]; omega
theorem dirUnused_toNat (hc : c.Ok) (hp : c.PosixOk) : (dirUnused c).toNat = c.dirUnused := by
  have h := (dpb_bounds hc hp).2.1
  have hb := bs_bounds hc
  rw [Nat.mul_comm] at h
  unfold dirUnused Conf.dirUnused
  have s : (ds c * dpb c).toNat = c.ds * c.dpb := by
    rw [mul32 (by rw [ds_toNat hc hp, dpb_toNat hc hp]; omega), ds_toNat hc hp, dpb_toNat hc hp]
  rw [sub32 (by rw [s, bs_toNat hc]; omega), s, bs_toNat hc]

theorem idxOff_le (hc : c.Ok) (hp : c.PosixOk) {k : Nat} (h : k < c.direntsMax) :
    k / c.dpb < c.dataBlocks ∧ k % c.dpb * c.ds + c.ds ≤ c.blockSize ∧ c.idxOff k + c.ds ≤ c.sizeMax := by
  have hd := dpb_bounds hc hp
  have h1 : k / c.dpb < c.dataBlocks := by
    apply Nat.div_lt_of_lt_mul
    unfold Conf.direntsMax at h
    rw [Nat.mul_comm]; omega
  have h2 : (k % c.dpb + 1) * c.ds ≤ c.dpb * c.ds := Nat.mul_le_mul_right _ (Nat.mod_lt _ (by omega))
  have h3 : (k / c.dpb + 1) * c.blockSize ≤ c.dataBlocks * c.blockSize := Nat.mul_le_mul_right _ h1
  rw [Nat.add_mul] at h2 h3
  refine ⟨h1, by omega, ?_⟩
  unfold Conf.idxOff Conf.sizeMax
  rw [Nat.mul_comm c.blockSize]; omega
theorem idxOff_toNat (hc : c.Ok) (hp : c.PosixOk) {k : U32} (h : k.toNat ≤ c.direntsMax) : (idxOff c k).toNat = c.idxOff k.toNat := by
  have hd := dpb_bounds hc hp
  have hb := bs_bounds hc
  have hD := dataBlocks_le hc
  have e1 : k.toNat / c.dpb ≤ c.dataBlocks := by
    have : k.toNat / c.dpb ≤ c.dataBlocks * c.dpb / c.dpb := Nat.div_le_div_right (by unfold Conf.direntsMax at h; omega)
    rwa [Nat.mul_div_cancel _ (by omega)] at this
  have e2 : k.toNat % c.dpb * c.ds ≤ c.dpb * c.ds := Nat.mul_le_mul_right _ (Nat.le_of_lt (Nat.mod_lt _ (by omega)))
  have a : (wide (k / dpb c)).toNat = k.toNat / c.dpb := by rw [wide_toNat, div32, dpb_toNat hc hp]
  have b : (wide (k % dpb c)).toNat = k.toNat % c.dpb := by rw [wide_toNat, mod32, dpb_toNat hc hp]
  have d : (wide (ds c)).toNat = c.ds := by rw [wide_toNat, ds_toNat hc hp]
  have bound : k.toNat / c.dpb * c.blockSize ≤ 4294967295 * 65536 := Nat.mul_le_mul (by omega) hb.2
  have s1 : (wide (k / dpb c) <<< p2 c).toNat = k.toNat / c.dpb * c.blockSize := by
    rw [shl64 hc (by rw [a]; omega), a]
  have s2 : (wide (k % dpb c) * wide (ds c)).toNat = k.toNat % c.dpb * c.ds := by
    rw [mul64 (by rw [b, d]; omega), b, d]
  unfold idxOff Conf.idxOff
  simp only []
  rw [add64 (by rw [s1, s2]; omega), s1, s2]

end RedFs.Words
