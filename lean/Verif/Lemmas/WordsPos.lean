import Verif.Lemmas.WordsIo
import Verif.Lemmas.DirOps
set_option linter.unusedSimpArgs false
set_option linter.unusedVariables false
/-! Coordinates, truncation, directories and places on the volume in machine words. -/
namespace RedFs.Words
open M

variable {c : Conf}

/-! ### Coordinates -/

/-- The value of an entry coordinate. -/
def entryOf (x : U16) : Option Nat := if x = coordInvalid then none else some x.toNat

theorem entryOf_some {x : U16} {n : Nat} (h : x.toNat = n) (hl : n < 65535) : entryOf x = some n := by
  have : x ≠ coordInvalid := by
    rw [ne_eq, eq_toNat]; show x.toNat ≠ 65535; omega
  unfold entryOf; rw [if_neg this, h]

theorem dindirBlocks_le_ptrs (hc : c.Ok) : c.dindirBlocks ≤ c.dindirPtrs * c.dindirData := by
  unfold Conf.dindirBlocks
  split
  · rename_i h
    have hp := dindirData_pos hc
    have h2 : c.dindirPtrsMax * c.dindirData ≤ c.dindirPtrs * c.dindirData := Nat.mul_le_mul_right _ h
    have h3 : c.dindirBlocksMax ≤ c.dindirPtrsMax * c.dindirData := by
      have e := Nat.div_add_mod c.dindirBlocksMax c.dindirData
      have l := Nat.mod_lt c.dindirBlocksMax hp
      rw [Nat.mul_comm] at e
      unfold Conf.dindirPtrsMax
      rw [Nat.add_mul]
      split <;> omega
    omega
  · exact Nat.le_refl _

/-- Numbers of the coordinates of block `b`. -/
theorem dindir_coord (hc : c.Ok) {b : Nat} (h1 : c.direct + c.indirBlocks ≤ b) (h2 : b < c.dataBlocks) :
    (b - c.direct - c.indirBlocks) / c.dindirData + c.direct + c.indirect < c.inodeEntries ∧
    (b - c.direct - c.indirBlocks) % c.dindirData / c.indirEntries < c.indirEntries ∧
    (b - c.direct - c.indirBlocks) % c.dindirData % c.indirEntries < c.indirEntries := by
  have hp := dindirData_pos hc
  have hi := (indirEntries_bounds hc).1
  refine ⟨?_, ?_, Nat.mod_lt _ (by omega)⟩
  · have h3 := dindirBlocks_le_ptrs hc
    have : (b - c.direct - c.indirBlocks) / c.dindirData < c.dindirPtrs := by
      apply Nat.div_lt_of_lt_mul
      rw [Nat.mul_comm]
      unfold Conf.dataBlocks at h2; omega
    generalize (b - c.direct - c.indirBlocks) / c.dindirData = Q at this ⊢
    unfold Conf.dindirPtrs at this; omega
  · apply Nat.div_lt_of_lt_mul
    exact Nat.mod_lt _ hp

theorem indir_coord (hc : c.Ok) {b : Nat} (h1 : c.direct ≤ b) (h2 : b < c.direct + c.indirBlocks) :
    (b - c.direct) / c.indirEntries < c.indirect ∧ (b - c.direct) % c.indirEntries < c.indirEntries := by
  have hi := (indirEntries_bounds hc).1
  refine ⟨?_, Nat.mod_lt _ (by omega)⟩
  apply Nat.div_lt_of_lt_mul
  rw [Nat.mul_comm]; unfold Conf.indirBlocks at h2; omega

/-- The coordinates of block `b` as numbers. -/
theorem seekCoord_direct (hc : c.Ok) {b : U32} (h : b.toNat < c.direct) :
    (seekCoord c b).inodeEntry.toNat = b.toNat ∧ (seekCoord c b).dindirEntry = coordInvalid ∧ (seekCoord c b).indirEntry = coordInvalid := by
  have hd := direct_le hc
  unfold seekCoord
  rw [if_pos (by rw [lt_toNat, direct_toNat hc]; exact h)]
  exact ⟨lo16_toNat (by omega), rfl, rfl⟩

theorem seekCoord_indir (hc : c.Ok) {b : U32} (h1 : c.direct ≤ b.toNat) (h : b.toNat < c.direct + c.indirBlocks) :
    (seekCoord c b).inodeEntry.toNat = (b.toNat - c.direct) / c.indirEntries + c.direct ∧
    (seekCoord c b).dindirEntry = coordInvalid ∧ (seekCoord c b).indirEntry.toNat = (b.toNat - c.direct) % c.indirEntries := by
  have hd := direct_le hc
  have hI := indirBlocks_le hc
  have hi := indirEntries_bounds hc
  have hE := inodeEntries_le hc
  have hP := hc.ptrs
  have hco := indir_coord hc h1 h
  have hs : (indirBlocks c + direct c).toNat = c.indirBlocks + c.direct := by
    rw [add32 (by rw [indirBlocks_toNat hc, direct_toNat hc]; omega), indirBlocks_toNat hc, direct_toNat hc]
  have ho : (b - direct c).toNat = b.toNat - c.direct := by rw [sub32 (by rw [direct_toNat hc]; exact h1), direct_toNat hc]
  have he : ((b - direct c) / indirEntries c + direct c).toNat = (b.toNat - c.direct) / c.indirEntries + c.direct := by
    rw [add32 (by rw [div32, ho, indirEntries_toNat hc, direct_toNat hc]; omega), div32, ho, indirEntries_toNat hc, direct_toNat hc]
  have hk : ((b - direct c) % indirEntries c).toNat = (b.toNat - c.direct) % c.indirEntries := by
    rw [mod32, ho, indirEntries_toNat hc]
  unfold seekCoord
  rw [if_neg (by rw [lt_toNat, direct_toNat hc]; omega), if_pos (by rw [lt_toNat, hs]; omega)]
  exact ⟨by show (lo16 _).toNat = _; rw [lo16_toNat (by rw [he]; omega), he], rfl,
    by show (lo16 _).toNat = _; rw [lo16_toNat (by rw [hk]; omega), hk]⟩

theorem seekCoord_dindir (hc : c.Ok) {b : U32} (h1 : c.direct + c.indirBlocks ≤ b.toNat) (h : b.toNat < c.dataBlocks) :
    (seekCoord c b).inodeEntry.toNat = (b.toNat - c.direct - c.indirBlocks) / c.dindirData + c.direct + c.indirect ∧
    (seekCoord c b).dindirEntry.toNat = (b.toNat - c.direct - c.indirBlocks) % c.dindirData / c.indirEntries ∧
    (seekCoord c b).indirEntry.toNat = (b.toNat - c.direct - c.indirBlocks) % c.dindirData % c.indirEntries := by
  have hd := direct_le hc
  have hI := indirBlocks_le hc
  have hi := indirEntries_bounds hc
  have hE := inodeEntries_le hc
  have hP := hc.ptrs
  have hco := dindir_coord hc h1 h
  have a := direct_toNat hc
  have a2 := indirBlocks_toNat hc
  have a3 := indirect_toNat hc
  have hs : (indirBlocks c + direct c).toNat = c.indirBlocks + c.direct := by
    rw [add32 (by omega), a2, a]
  have ho1 : (b - direct c).toNat = b.toNat - c.direct := by rw [sub32 (by omega), a]
  have ho : (b - direct c - indirBlocks c).toNat = b.toNat - c.direct - c.indirBlocks := by
    rw [sub32 (by omega), ho1, a2]
  have hq : ((b - direct c - indirBlocks c) / dindirData c).toNat = (b.toNat - c.direct - c.indirBlocks) / c.dindirData := by
    rw [div32, ho, dindirData_toNat hc]
  have hn : ((b - direct c - indirBlocks c) % dindirData c).toNat = (b.toNat - c.direct - c.indirBlocks) % c.dindirData := by
    rw [mod32, ho, dindirData_toNat hc]
  have he1 : ((b - direct c - indirBlocks c) / dindirData c + direct c).toNat =
      (b.toNat - c.direct - c.indirBlocks) / c.dindirData + c.direct := by
    rw [add32 (by omega), hq, a]
  have he : ((b - direct c - indirBlocks c) / dindirData c + direct c + indirect c).toNat =
      (b.toNat - c.direct - c.indirBlocks) / c.dindirData + c.direct + c.indirect := by
    rw [add32 (by omega), he1, a3]
  unfold seekCoord
  rw [if_neg (by rw [lt_toNat, a]; omega), if_neg (by rw [lt_toNat, hs]; omega)]
  refine ⟨?_, ?_, ?_⟩
  · show (lo16 _).toNat = _; rw [lo16_toNat (by omega), he]
  · show (lo16 _).toNat = _; rw [lo16_toNat (by rw [div32, hn, indirEntries_toNat hc]; omega), div32, hn, indirEntries_toNat hc]
  · show (lo16 _).toNat = _; rw [lo16_toNat (by rw [mod32, hn, indirEntries_toNat hc]; omega), mod32, hn, indirEntries_toNat hc]

theorem entryOf_invalid : entryOf coordInvalid = none := rfl

/-- `SeekCoord` in words sets the coordinates of the model. -/
theorem seekCoord_eq (hc : c.Ok) (ci : Cinode) {b : U32} (h : b.toNat < c.dataBlocks) :
    (seekCi c ci b.toNat).inodeEntry = (seekCoord c b).inodeEntry.toNat ∧
    (seekCi c ci b.toNat).dindirEntry = entryOf (seekCoord c b).dindirEntry ∧
    (seekCi c ci b.toNat).indirEntry = entryOf (seekCoord c b).indirEntry := by
  have hi := indirEntries_bounds hc
  unfold seekCi
  by_cases h1 : b.toNat < c.direct
  · obtain ⟨e1, e2, e3⟩ := seekCoord_direct hc h1
    rw [if_pos h1, e1, e2, e3]
    exact ⟨rfl, rfl, rfl⟩
  rw [if_neg h1]
  by_cases h2 : b.toNat < c.indirBlocks + c.direct
  · obtain ⟨e1, e2, e3⟩ := seekCoord_indir hc (b := b) (by omega) (by omega)
    have hco := indir_coord hc (b := b.toNat) (by omega) (by omega)
    rw [if_pos h2, e1, e2, entryOf_some e3 (by omega)]
    refine ⟨?_, rfl, rfl⟩
    dsimp only
    split
    · rfl
    · rename_i hh
      have : ci.inodeEntry = (b.toNat - c.direct) / c.indirEntries + c.direct := by
        by_cases x : ci.inodeEntry = (b.toNat - c.direct) / c.indirEntries + c.direct
        · exact x
        · exact (hh (Or.inl x)).elim
      exact this
  · rw [if_neg h2]
    obtain ⟨e1, e2, e3⟩ := seekCoord_dindir hc (b := b) (by omega) h
    have hco := dindir_coord hc (b := b.toNat) (by omega) h
    rw [e1, entryOf_some e2 (by omega), entryOf_some e3 (by omega)]
    refine ⟨?_, rfl, rfl⟩
    dsimp only
    split
    · rfl
    · rename_i hh
      have : ci.inodeEntry = (b.toNat - c.direct - c.indirBlocks) / c.dindirData + c.direct + c.indirect := by
        by_cases x : ci.inodeEntry = (b.toNat - c.direct - c.indirBlocks) / c.dindirData + c.direct + c.indirect
        · exact x
        · exact (hh (Or.inl x)).elim
      split <;> exact this

/-! ### Truncating -/

theorem truncBlock_eq (hc : c.Ok) {size : U64} (h : size.toNat ≤ c.sizeMax) :
    (truncBlock c size).toNat = (size.toNat + c.blockSize - 1) / c.blockSize ∧
      (size.toNat + c.blockSize - 1) / c.blockSize ≤ c.dataBlocks := by
  have hm := sizeMax_lt hc
  have hb := bs_bounds hc
  have hD := dataBlocks_le hc
  have w : (wide (bs c)).toNat = c.blockSize := by rw [wide_toNat, bs_toNat hc]
  have s1 : (size + wide (bs c)).toNat = size.toNat + c.blockSize := by rw [add64 (by omega), w]
  have s2 : (size + wide (bs c) - 1).toNat = size.toNat + c.blockSize - 1 := by rw [sub64 (by rw [one64]; omega), s1, one64]
  have le : (size.toNat + c.blockSize - 1) / c.blockSize ≤ c.dataBlocks := by
    have : (size.toNat + c.blockSize - 1) / c.blockSize < c.dataBlocks + 1 := by
      apply Nat.div_lt_of_lt_mul
      rw [Nat.mul_add]
      unfold Conf.sizeMax at h; omega
    omega
  refine ⟨?_, le⟩
  unfold truncBlock
  rw [lo32_toNat (by rw [shr64 hc, s2]; omega), shr64 hc, s2]

theorem truncNextIndir_eq (hc : c.Ok) {t : U32} (h1 : c.direct ≤ t.toNat) (h2 : t.toNat < c.direct + c.indirBlocks) :
    (truncNextIndir c t (seekCoord c t).indirEntry).toNat = t.toNat + (c.indirEntries - (seekCoord c t).indirEntry.toNat) ∧
    t.toNat + (c.indirEntries - (seekCoord c t).indirEntry.toNat) ≤ c.direct + c.indirBlocks := by
  have hI := indirBlocks_le hc
  have hd := direct_le hc
  have hi := indirEntries_bounds hc
  obtain ⟨e1, e2, e3⟩ := seekCoord_indir hc h1 h2
  have hco := indir_coord hc h1 h2
  rw [e3]
  have le : t.toNat + (c.indirEntries - (t.toNat - c.direct) % c.indirEntries) ≤ c.direct + c.indirBlocks := by
    have e := Nat.div_add_mod (t.toNat - c.direct) c.indirEntries
    have m : ((t.toNat - c.direct) / c.indirEntries + 1) * c.indirEntries ≤ c.indirect * c.indirEntries := Nat.mul_le_mul_right _ hco.1
    rw [Nat.add_mul, Nat.mul_comm _ c.indirEntries] at m
    unfold Conf.indirBlocks; omega
  refine ⟨?_, le⟩
  have s : (indirEntries c - up (seekCoord c t).indirEntry).toNat = c.indirEntries - (t.toNat - c.direct) % c.indirEntries := by
    rw [sub32 (by rw [up_toNat, e3, indirEntries_toNat hc]; omega), up_toNat, e3, indirEntries_toNat hc]
  unfold truncNextIndir
  rw [add32 (by rw [s]; omega), s]

theorem off_toNat (hc : c.Ok) {t : U32} (h1 : c.direct + c.indirBlocks ≤ t.toNat) (h2 : t.toNat < c.dataBlocks) :
    (seekCoord c t).dindirEntry.toNat * c.indirEntries + (seekCoord c t).indirEntry.toNat =
      (t.toNat - c.direct - c.indirBlocks) % c.dindirData := by
  obtain ⟨e1, e2, e3⟩ := seekCoord_dindir hc h1 h2
  rw [e2, e3, Nat.mul_comm]
  exact Nat.div_add_mod _ _

theorem truncNextDindir_eq (hc : c.Ok) {t : U32} (h1 : c.direct + c.indirBlocks ≤ t.toNat) (h2 : t.toNat < c.dataBlocks) :
    (truncNextDindir c t (seekCoord c t).dindirEntry (seekCoord c t).indirEntry).toNat =
      t.toNat + min (c.dindirData - (seekCoord c t).dindirEntry.toNat * c.indirEntries - (seekCoord c t).indirEntry.toNat) (c.dataBlocks - t.toNat) ∧
    t.toNat + min (c.dindirData - (seekCoord c t).dindirEntry.toNat * c.indirEntries - (seekCoord c t).indirEntry.toNat) (c.dataBlocks - t.toNat) ≤ c.dataBlocks := by
  have ho := off_toNat hc h1 h2
  have hl := Nat.mod_lt (t.toNat - c.direct - c.indirBlocks) (dindirData_pos hc)
  have hD := dataBlocks_le hc
  have hq := sq_le hc
  generalize (seekCoord c t).dindirEntry = d at ho ⊢
  generalize (seekCoord c t).indirEntry = k at ho ⊢
  have m : (up d * indirEntries c).toNat = d.toNat * c.indirEntries := by
    unfold Conf.dindirData at hl ho
    rw [mul32 (by rw [up_toNat, indirEntries_toNat hc]; omega), up_toNat, indirEntries_toNat hc]
  have s1 : (dindirData c - up d * indirEntries c).toNat = c.dindirData - d.toNat * c.indirEntries := by
    rw [sub32 (by rw [m, dindirData_toNat hc]; omega), m, dindirData_toNat hc]
  have s2 : (dindirData c - up d * indirEntries c - up k).toNat = c.dindirData - d.toNat * c.indirEntries - k.toNat := by
    rw [sub32 (by rw [s1, up_toNat]; omega), s1, up_toNat]
  have s3 : (dataBlocks c - t).toNat = c.dataBlocks - t.toNat := by
    rw [sub32 (by rw [dataBlocks_toNat hc]; omega), dataBlocks_toNat hc]
  refine ⟨?_, by omega⟩
  unfold truncNextDindir
  simp only []
  rw [add32 (by rw [redmin_toNat, s2, s3]; omega), redmin_toNat, s2, s3]

theorem indirEntry_le (hc : c.Ok) {t : U32} (h1 : c.direct ≤ t.toNat) (h2 : t.toNat < c.dataBlocks) :
    (seekCoord c t).indirEntry.toNat ≤ t.toNat ∧ (seekCoord c t).indirEntry.toNat < c.indirEntries := by
  by_cases h : t.toNat < c.direct + c.indirBlocks
  · obtain ⟨e1, e2, e3⟩ := seekCoord_indir hc h1 h
    have := Nat.mod_le (t.toNat - c.direct) c.indirEntries
    have := (indir_coord hc h1 h).2
    omega
  · obtain ⟨e1, e2, e3⟩ := seekCoord_dindir hc (by omega) h2
    have a := Nat.mod_le (t.toNat - c.direct - c.indirBlocks) c.dindirData
    have b := Nat.mod_le ((t.toNat - c.direct - c.indirBlocks) % c.dindirData) c.indirEntries
    have := (dindir_coord hc (b := t.toNat) (by omega) h2).2.2
    omega

theorem truncIndirMax_eq (hc : c.Ok) {t : U32} (h1 : c.direct ≤ t.toNat) (h2 : t.toNat < c.dataBlocks) :
    (truncIndirMax c t (seekCoord c t).indirEntry).toNat = min c.indirEntries (c.dataBlocks - (t.toNat - (seekCoord c t).indirEntry.toNat)) := by
  have hk := indirEntry_le hc h1 h2
  have hi := indirEntries_bounds hc
  generalize (seekCoord c t).indirEntry = k at hk ⊢
  have s1 : (t - up k).toNat = t.toNat - k.toNat := by rw [sub32 (by rw [up_toNat]; omega), up_toNat]
  have s2 : (dataBlocks c - (t - up k)).toNat = c.dataBlocks - (t.toNat - k.toNat) := by
    rw [sub32 (by rw [s1, dataBlocks_toNat hc]; omega), s1, dataBlocks_toNat hc]
  unfold truncIndirMax
  rw [lo16_toNat (by rw [redmin_toNat, indirEntries_toNat hc]; omega), redmin_toNat, indirEntries_toNat hc, s2]

theorem truncDindirMax_eq (hc : c.Ok) {t : U32} (h1 : c.direct + c.indirBlocks ≤ t.toNat) (h2 : t.toNat < c.dataBlocks) :
    (truncDindirMax c t (seekCoord c t).dindirEntry (seekCoord c t).indirEntry).toNat =
      (let till := c.dataBlocks - (t.toNat - ((seekCoord c t).indirEntry.toNat + (seekCoord c t).dindirEntry.toNat * c.indirEntries))
       min c.indirEntries (till / c.indirEntries + (if till % c.indirEntries ≠ 0 then 1 else 0))) := by
  have ho := off_toNat hc h1 h2
  have hl := Nat.mod_lt (t.toNat - c.direct - c.indirBlocks) (dindirData_pos hc)
  have hml := Nat.mod_le (t.toNat - c.direct - c.indirBlocks) c.dindirData
  have hD := dataBlocks_le hc
  have hq := sq_le hc
  have hi := indirEntries_bounds hc
  generalize (seekCoord c t).dindirEntry = d at ho ⊢
  generalize (seekCoord c t).indirEntry = k at ho ⊢
  have m : (up d * indirEntries c).toNat = d.toNat * c.indirEntries := by
    unfold Conf.dindirData at hl ho
    rw [mul32 (by rw [up_toNat, indirEntries_toNat hc]; omega), up_toNat, indirEntries_toNat hc]
  have s0 : (up k + up d * indirEntries c).toNat = k.toNat + d.toNat * c.indirEntries := by
    rw [add32 (by rw [m, up_toNat]; unfold Conf.dindirData at hl ho; omega), m, up_toNat]
  have s1 : (t - (up k + up d * indirEntries c)).toNat = t.toNat - (k.toNat + d.toNat * c.indirEntries) := by
    rw [sub32 (by rw [s0]; omega), s0]
  have s2 : (dataBlocks c - (t - (up k + up d * indirEntries c))).toNat = c.dataBlocks - (t.toNat - (k.toNat + d.toNat * c.indirEntries)) := by
    rw [sub32 (by rw [s1, dataBlocks_toNat hc]; omega), s1, dataBlocks_toNat hc]
  unfold truncDindirMax
  simp only []
  generalize dataBlocks c - (t - (up k + up d * indirEntries c)) = T at s2 ⊢
  generalize c.dataBlocks - (t.toNat - (k.toNat + d.toNat * c.indirEntries)) = TN at s2 ⊢
  have hT := T.isLt
  have e : (T % indirEntries c ≠ 0) ↔ TN % c.indirEntries ≠ 0 := by
    rw [ne_eq, eq_toNat, mod32, indirEntries_toNat hc, s2]; rfl
  have t1 : (if T % indirEntries c ≠ 0 then (1 : U32) else 0).toNat = if TN % c.indirEntries ≠ 0 then 1 else 0 := by
    simp only [e]; split <;> rfl
  have t2 : (if TN % c.indirEntries ≠ 0 then 1 else 0) ≤ 1 := by split <;> omega
  have dv : TN / c.indirEntries ≤ 4294967295 / 27 := Nat.div_le_div (by omega) hi.1 (by omega)
  have q : (T / indirEntries c + (if T % indirEntries c ≠ 0 then (1 : U32) else 0)).toNat =
      TN / c.indirEntries + (if TN % c.indirEntries ≠ 0 then 1 else 0) := by
    rw [add32 (by rw [div32, indirEntries_toNat hc, s2, t1]; omega), div32, indirEntries_toNat hc, s2, t1]
  rw [lo16_toNat (by rw [redmin_toNat, indirEntries_toNat hc]; omega), redmin_toNat, indirEntries_toNat hc, q]

/-! ### Directories -/

theorem offIdx_eq (hc : c.Ok) (hp : c.PosixOk) {off : U64} (h : off.toNat ≤ c.sizeMax) (h2 : c.offIdx off.toNat < 4294967296) :
    (offIdx c off).toNat = c.offIdx off.toNat := by
  have hb := bs_bounds hc
  have hmod : off.toNat % c.blockSize < c.blockSize := Nat.mod_lt _ (by omega)
  have a : (lo32 (off >>> p2 c)).toNat = off.toNat / c.blockSize := blockOf_toNat hc h
  have b : (lo32 (inBlock c off)).toNat = off.toNat % c.blockSize := by
    rw [lo32_toNat (by rw [inBlock_toNat hc]; omega), inBlock_toNat hc]
  unfold Conf.offIdx at h2 ⊢
  unfold offIdx
  have m : (lo32 (off >>> p2 c) * dpb c).toNat = off.toNat / c.blockSize * c.dpb := by
    rw [mul32 (by
      rw [a, dpb_toNat hc hp]
      generalize off.toNat % c.blockSize / c.ds = Q at h2
      omega), a, dpb_toNat hc hp]
  rw [add32 (by rw [m, div32, b, ds_toNat hc hp]; omega), m, div32, b, ds_toNat hc hp]

theorem trimSize_eq (hc : c.Ok) (hp : c.PosixOk) {k : U32} (h : k.toNat ≤ c.direntsMax) : (trimSize c k).toNat = RedFs.trimSize c k.toNat := by
  have hb := bs_bounds hc
  have i := idxOff_toNat hc hp h
  have u : dirUnused c > 0 ↔ 0 < c.dirUnused := by rw [gt_iff_lt, lt_toNat, dirUnused_toNat hc hp]; rfl
  have w : (wide (bs c)).toNat = c.blockSize := by rw [wide_toNat, bs_toNat hc]
  have z : inBlock c (idxOff c k) = 0 ↔ c.idxOff k.toNat % c.blockSize = 0 := by rw [eq_toNat, inBlock_toNat hc, i]; rfl
  unfold trimSize RedFs.trimSize
  simp only [u, le_toNat, w, i, z]
  split
  · rename_i hh
    have hle : c.dirUnused ≤ c.blockSize := by unfold Conf.dirUnused; omega
    have wu : (wide (dirUnused c)).toNat = c.dirUnused := by rw [wide_toNat, dirUnused_toNat hc hp]
    rw [sub64 (by rw [i, wu]; omega), i, wu]
  · exact i

/-! ### Places on the volume -/

theorem inodeBlock_eq (hc : c.Ok) {ino : U32} {w : Bool} (h : c.inodeValid ino.toNat = true) :
    (inodeBlock (BitVec.ofNat 32 c.tableStart) ino w).toNat = slotBlk c ino.toNat w ∧ slotBlk c ino.toNat w < c.blockCount := by
  have hf := hc.fits
  have hm := hc.blocks_max
  unfold Conf.firstAlloc at hf
  unfold Conf.inodeValid at h
  simp only [Bool.and_eq_true, decide_eq_true_eq] at h
  have t : (BitVec.ofNat 32 c.tableStart).toNat = c.tableStart := ofNat32 (by omega)
  have two : (2 : U32).toNat = 2 := rfl
  have s1 : (ino - 2).toNat = ino.toNat - 2 := by rw [sub32 (by rw [two]; omega), two]
  have s2 : ((ino - 2) * 2).toNat = (ino.toNat - 2) * 2 := by rw [mul32 (by rw [s1, two]; omega), s1, two]
  have s3 : (BitVec.ofNat 32 c.tableStart + (ino - 2) * 2).toNat = c.tableStart + (ino.toNat - 2) * 2 := by
    rw [add32 (by rw [t, s2]; omega), t, s2]
  have s4 : (if w = true then (1 : U32) else 0).toNat = if w = true then 1 else 0 := by split <;> rfl
  have s5 : (if w = true then 1 else 0) ≤ 1 := by split <;> omega
  unfold inodeBlock slotBlk
  refine ⟨?_, by omega⟩
  rw [add32 (by rw [s3, s4]; omega), s3, s4]

theorem imapNodeBlock_eq (hc : c.Ok) (m : Metaroot) {k : U32} (hi : c.inline = false) (h : k.toNat < c.nodeCount) :
    (imapNodeBlock (BitVec.ofNat 32 c.imapStart) k (Bitmap.bitGet m.entries k.toNat)).toNat = nodeBlk c m k.toNat ∧
    nodeBlk c m k.toNat < c.tableStart := by
  have hf := hc.fits
  have hm := hc.blocks_max
  have ht : c.tableStart = c.imapStart + c.nodeCount * 2 := by unfold Conf.tableStart; rw [hi]; rfl
  unfold Conf.firstAlloc at hf
  have t : (BitVec.ofNat 32 c.imapStart).toNat = c.imapStart := ofNat32 (by omega)
  have two : (2 : U32).toNat = 2 := rfl
  have s2 : (k * 2).toNat = k.toNat * 2 := by rw [mul32 (by rw [two]; omega), two]
  have s3 : (BitVec.ofNat 32 c.imapStart + k * 2).toNat = c.imapStart + k.toNat * 2 := by
    rw [add32 (by rw [t, s2]; omega), t, s2]
  unfold imapNodeBlock nodeBlk
  simp only []
  cases Bitmap.bitGet m.entries k.toNat
  · exact ⟨by simp only [Bool.false_eq_true, if_false]; rw [s3]; rfl, by simp; omega⟩
  · exact ⟨by simp only [if_true]; rw [add32 (by rw [s3, one32]; omega), s3, one32], by simp; omega⟩

theorem imapPlace_eq (hc : c.Ok) {b : U32} (h : c.tableStart ≤ b.toNat) (h2 : b.toNat < c.blockCount) :
    (imapPlace c (BitVec.ofNat 32 c.tableStart) b).1.toNat = (b.toNat - c.tableStart) / c.imapEntries ∧
    (imapPlace c (BitVec.ofNat 32 c.tableStart) b).2.toNat = (b.toNat - c.tableStart) % c.imapEntries := by
  have t : (BitVec.ofNat 32 c.tableStart).toNat = c.tableStart := ofNat32 (by have := b.isLt; omega)
  have s : (b - BitVec.ofNat 32 c.tableStart).toNat = b.toNat - c.tableStart := by rw [sub32 (by omega), t]
  unfold imapPlace
  simp only []
  rw [div32, mod32, s, imapEntries_toNat hc]
  exact ⟨rfl, rfl⟩

end RedFs.Words
