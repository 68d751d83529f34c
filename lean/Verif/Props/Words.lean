import Verif.Lemmas.WordsPos
import Verif.Lemmas.Demo
set_option linter.unusedSimpArgs false
set_option linter.unusedVariables false
/-!
C61: no computation of an offset, a block number, an entry number or a place on the volume wraps
around, whatever the configuration and the arguments.

`Words.f` computes as the C code does, with 16, 32 and 64 bits; the functions without prefix and
the formulas on the right-hand sides compute with unbounded numbers.
-/
namespace RedFs
open M Words

variable {c : Conf}

/-- The constants of the headers, computed with the widths of the code, have the values they have in unbounded
arithmetic.  In particular the largest file size is (block size) * (data blocks per inode), and a file
never has more blocks than a `uint32_t` can count. -/
theorem C61_constants (hc : c.Ok) :
    (Words.inodeEntries c).toNat = c.inodeEntries ∧ (Words.indirEntries c).toNat = c.indirEntries ∧
    (Words.imapEntries c).toNat = c.imapEntries ∧
    (Words.dindirPtrs c).toNat = c.inodeEntries - c.direct - c.indirect ∧
    (Words.dataBlocks c).toNat = c.dataBlocks ∧
    (Words.sizeMax c).toNat = c.blockSize * c.dataBlocks ∧ c.blockSize * c.dataBlocks < 2 ^ 48 ∧
    c.direct + c.indirect * c.indirEntries < 2 ^ 32 ∧
    c.dataBlocks = min 4294967295 (c.direct + c.indirect * c.indirEntries + (c.inodeEntries - c.direct - c.indirect) * (c.indirEntries * c.indirEntries)) := by
  have h1 := sizeMax_lt hc
  have h2 := direct_le hc
  have h3 := indirBlocks_le hc
  refine ⟨inodeEntries_toNat hc, indirEntries_toNat hc, imapEntries_toNat hc, dindirPtrs_toNat hc, dataBlocks_toNat hc, sizeMax_toNat hc,
    by unfold Conf.sizeMax at h1; omega, by unfold Conf.indirBlocks at h3; omega, ?_⟩
  have le := dindirBlocks_le_ptrs hc
  have e := (dindirBlocks_toNat hc).2
  unfold Conf.dindirPtrs Conf.dindirData at le
  have f : c.dindirBlocks = c.dindirBlocksMax ∨ c.dindirBlocks = (c.inodeEntries - c.direct - c.indirect) * (c.indirEntries * c.indirEntries) := by
    unfold Conf.dindirBlocks; split
    · exact Or.inl rfl
    · exact Or.inr rfl
  unfold Conf.dataBlocks
  unfold Conf.dindirBlocksMax at e f
  unfold Conf.indirBlocks at *
  omega

/-- The constants of a directory. -/
theorem C61_directory_constants (hc : c.Ok) (hp : c.PosixOk) :
    (Words.ds c).toNat = c.ds ∧ (Words.dpb c).toNat = c.blockSize / c.ds ∧
    (Words.direntsMax c).toNat = min 4294967295 (c.dataBlocks * (c.blockSize / c.ds)) ∧
    (Words.dirUnused c).toNat = c.blockSize % c.ds := by
  refine ⟨ds_toNat hc hp, dpb_toNat hc hp, direntsMax_toNat hc hp, ?_⟩
  rw [dirUnused_toNat hc hp]
  unfold Conf.dirUnused Conf.dpb
  have := Nat.div_add_mod c.blockSize c.ds
  omega

/-- Reading: for every offset that fits in 64 bits and every length that fits in 32 bits the code with machine words
behaves as the one with unbounded numbers, of which C10 says what it reads. -/
theorem C61_read (hc : c.Ok) (start : U64) (len : U32) (s : DS) (hs : s.ci.node.size ≤ c.sizeMax) :
    Words.dataRead c start len s = dataRead c start.toNat len.toNat s := dataRead_eq hc start len s hs

/-- Writing: the same; the number of bytes written fits in 32 bits. -/
theorem C61_write (hc : c.Ok) (start : U64) (len : U32) (f : Nat → Byte) (s : DS) (hs : s.ci.node.size ≤ c.sizeMax) :
    (Words.dataWrite c start len f s).2 = (dataWrite c start.toNat len.toNat f s).2 ∧
    (match (Words.dataWrite c start len f s).1 with
      | .ok n => Except.ok n.toNat
      | .error e => .error e) = (dataWrite c start.toNat len.toNat f s).1 := by
  have h := dataWrite_sim hc start len f s hs
  unfold SimAt at h
  rcases h1 : Words.dataWrite c start len f s with ⟨r1, s1⟩
  rcases h2 : dataWrite c start.toNat len.toNat f s with ⟨r2, s2⟩
  rw [h1, h2] at h
  cases r1 <;> cases r2
  · obtain ⟨rfl, rfl⟩ := h; exact ⟨rfl, rfl⟩
  · exact h.elim
  · exact h.elim
  · obtain ⟨h, rfl⟩ := h
    unfold Num at h
    subst h; exact ⟨rfl, rfl⟩

/-- The block numbers of a run of whole blocks inside the largest file: the first is exact, and
the number after the last one still fits in 32 bits. -/
theorem C61_whole_blocks (hc : c.Ok) {start : U64} {len : U32} (h : start.toNat + len.toNat ≤ c.blockSize * c.dataBlocks)
    (ha : start.toNat % c.blockSize = 0) :
    (Words.blockOf c start).toNat * c.blockSize = start.toNat ∧
    (Words.blockOf c start).toNat + (len >>> Words.p2 c).toNat ≤ c.dataBlocks ∧ c.dataBlocks ≤ 4294967295 := by
  have hb := bs_bounds hc
  refine ⟨?_, ?_, dataBlocks_le hc⟩
  · rw [blockOf_toNat hc (by unfold Conf.sizeMax; omega)]
    have := Nat.div_add_mod start.toNat c.blockSize
    rw [Nat.mul_comm]; omega
  · rw [blockOf_toNat hc (by unfold Conf.sizeMax; omega), shr32 hc]
    have e := Nat.div_add_mod start.toNat c.blockSize
    have e2 := Nat.div_add_mod len.toNat c.blockSize
    have : c.blockSize * (start.toNat / c.blockSize + len.toNat / c.blockSize) ≤ c.blockSize * c.dataBlocks := by
      rw [Nat.mul_add]; omega
    exact Nat.le_of_mul_le_mul_left this (by omega)

/-- Seeking: the entry numbers, kept in 16 bits, are the exact ones; none is mistaken for "no entry" (65535). -/
theorem C61_seek (hc : c.Ok) (ci : Cinode) {b : U32} (h : b.toNat < c.dataBlocks) :
    (seekCi c ci b.toNat).inodeEntry = (Words.seekCoord c b).inodeEntry.toNat ∧
    (seekCi c ci b.toNat).dindirEntry = Words.entryOf (Words.seekCoord c b).dindirEntry ∧
    (seekCi c ci b.toNat).indirEntry = Words.entryOf (Words.seekCoord c b).indirEntry := seekCoord_eq hc ci h

/-- Two blocks of a file have different coordinates: what is stored at one is not found at the other. -/
theorem C61_coordinates_differ (hc : c.Ok) {b b' : U32} (h : b.toNat < c.dataBlocks) (h' : b'.toNat < c.dataBlocks)
    (e : Words.seekCoord c b = Words.seekCoord c b') : b = b' := by
  have hi := indirEntries_bounds hc
  have key : ∀ x y : U32, x.toNat < c.dataBlocks → y.toNat < c.dataBlocks → x.toNat < y.toNat → Words.seekCoord c x ≠ Words.seekCoord c y := by
    intro x y hx hy hlt e
    have inv : coordInvalid.toNat = 65535 := rfl
    by_cases y1 : y.toNat < c.direct
    · obtain ⟨a1, _, _⟩ := seekCoord_direct hc y1
      obtain ⟨b1, _, _⟩ := seekCoord_direct hc (b := x) (by omega)
      rw [← e] at a1; omega
    by_cases y2 : y.toNat < c.direct + c.indirBlocks
    · obtain ⟨a1, a2, a3⟩ := seekCoord_indir hc (by omega) y2
      have ya := indir_coord hc (b := y.toNat) (by omega) y2
      rw [← e] at a1 a2 a3
      by_cases x1 : x.toNat < c.direct
      · obtain ⟨_, _, b3⟩ := seekCoord_direct hc x1
        rw [b3, inv] at a3; omega
      obtain ⟨b1, b2, b3⟩ := seekCoord_indir hc (b := x) (by omega) (by omega)
      have q : (x.toNat - c.direct) / c.indirEntries = (y.toNat - c.direct) / c.indirEntries := by omega
      have r : (x.toNat - c.direct) % c.indirEntries = (y.toNat - c.direct) % c.indirEntries := by omega
      have d1 := Nat.div_add_mod (x.toNat - c.direct) c.indirEntries
      have d2 := Nat.div_add_mod (y.toNat - c.direct) c.indirEntries
      rw [q, r] at d1; omega
    · obtain ⟨a1, a2, a3⟩ := seekCoord_dindir hc (by omega) hy
      have ya := dindir_coord hc (b := y.toNat) (by omega) hy
      rw [← e] at a1 a2 a3
      by_cases x1 : x.toNat < c.direct
      · obtain ⟨_, _, b3⟩ := seekCoord_direct hc x1
        rw [b3, inv] at a3; omega
      by_cases x2 : x.toNat < c.direct + c.indirBlocks
      · obtain ⟨_, b2, _⟩ := seekCoord_indir hc (b := x) (by omega) x2
        rw [b2, inv] at a2; omega
      obtain ⟨b1, b2, b3⟩ := seekCoord_dindir hc (b := x) (by omega) hx
      have q : (x.toNat - c.direct - c.indirBlocks) / c.dindirData = (y.toNat - c.direct - c.indirBlocks) / c.dindirData := by omega
      have r1 : (x.toNat - c.direct - c.indirBlocks) % c.dindirData / c.indirEntries =
          (y.toNat - c.direct - c.indirBlocks) % c.dindirData / c.indirEntries := by omega
      have r2 : (x.toNat - c.direct - c.indirBlocks) % c.dindirData % c.indirEntries =
          (y.toNat - c.direct - c.indirBlocks) % c.dindirData % c.indirEntries := by omega
      have m1 := Nat.div_add_mod ((x.toNat - c.direct - c.indirBlocks) % c.dindirData) c.indirEntries
      have m2 := Nat.div_add_mod ((y.toNat - c.direct - c.indirBlocks) % c.dindirData) c.indirEntries
      rw [r1, r2] at m1
      have d1 := Nat.div_add_mod (x.toNat - c.direct - c.indirBlocks) c.dindirData
      have d2 := Nat.div_add_mod (y.toNat - c.direct - c.indirBlocks) c.dindirData
      rw [q] at d1
      omega
  rcases Nat.lt_trichotomy b.toNat b'.toNat with hlt | heq | hlt
  · exact absurd e (key b b' h h' hlt)
  · exact BitVec.eq_of_toNat_eq heq
  · exact absurd e.symm (key b' b h' h hlt)

/-- Truncating: the first block to be freed is the first one that lies entirely beyond the new size. -/
theorem C61_truncate_first (hc : c.Ok) {size : U64} (h : size.toNat ≤ c.blockSize * c.dataBlocks) :
    size.toNat ≤ (Words.truncBlock c size).toNat * c.blockSize ∧
    (Words.truncBlock c size).toNat * c.blockSize < size.toNat + c.blockSize ∧
    (Words.truncBlock c size).toNat ≤ c.dataBlocks := by
  have hb := bs_bounds hc
  obtain ⟨e, le⟩ := truncBlock_eq hc (size := size) (by unfold Conf.sizeMax; exact h)
  have d := Nat.div_add_mod (size.toNat + c.blockSize - 1) c.blockSize
  have m := Nat.mod_lt (size.toNat + c.blockSize - 1) (show 0 < c.blockSize by omega)
  rw [e, Nat.mul_comm]
  exact ⟨by omega, by omega, le⟩

/-- Truncating, one indirect node at a time: the next block is the first one after those of the node, and it does not
pass the end of the indirect range. -/
theorem C61_truncate_indirect (hc : c.Ok) {t : U32} (h1 : c.direct ≤ t.toNat) (h2 : t.toNat < c.direct + c.indirBlocks) :
    (Words.truncNextIndir c t (Words.seekCoord c t).indirEntry).toNat =
      c.direct + ((t.toNat - c.direct) / c.indirEntries + 1) * c.indirEntries ∧
    (Words.truncNextIndir c t (Words.seekCoord c t).indirEntry).toNat ≤ c.direct + c.indirBlocks := by
  obtain ⟨e, le⟩ := truncNextIndir_eq hc h1 h2
  have e3 := (seekCoord_indir hc h1 h2).2.2
  have hco := indir_coord hc h1 h2
  have d := Nat.div_add_mod (t.toNat - c.direct) c.indirEntries
  rw [e]
  refine ⟨?_, le⟩
  rw [e3, Nat.add_mul, Nat.mul_comm _ c.indirEntries]; omega

/-- Truncating, one double indirect node at a time: the next block is the first one after those of the
node, or the end of the largest file. -/
theorem C61_truncate_double (hc : c.Ok) {t : U32} (h1 : c.direct + c.indirBlocks ≤ t.toNat) (h2 : t.toNat < c.dataBlocks) :
    (Words.truncNextDindir c t (Words.seekCoord c t).dindirEntry (Words.seekCoord c t).indirEntry).toNat =
      min c.dataBlocks (c.direct + c.indirBlocks + ((t.toNat - c.direct - c.indirBlocks) / c.dindirData + 1) * c.dindirData) := by
  have e := (truncNextDindir_eq hc h1 h2).1
  have o := off_toNat hc h1 h2
  have hl := Nat.mod_lt (t.toNat - c.direct - c.indirBlocks) (dindirData_pos hc)
  have d := Nat.div_add_mod (t.toNat - c.direct - c.indirBlocks) c.dindirData
  rw [e, Nat.add_mul, Nat.mul_comm _ c.dindirData]
  omega

/-- Truncating: the entries of an indirect or double indirect node that are looked at are all those that stand for blocks
inside the largest file; the limits, kept in 16 bits, are the exact ones. -/
theorem C61_truncate_limits (hc : c.Ok) {t : U32} (h1 : c.direct ≤ t.toNat) (h2 : t.toNat < c.dataBlocks) :
    (Words.truncIndirMax c t (Words.seekCoord c t).indirEntry).toNat =
      min c.indirEntries (c.dataBlocks - (t.toNat - (Words.seekCoord c t).indirEntry.toNat)) ∧
    (c.direct + c.indirBlocks ≤ t.toNat →
      (Words.truncDindirMax c t (Words.seekCoord c t).dindirEntry (Words.seekCoord c t).indirEntry).toNat =
        min c.indirEntries ((c.dataBlocks - (t.toNat - (t.toNat - c.direct - c.indirBlocks) % c.dindirData) + c.indirEntries - 1) / c.indirEntries)) := by
  refine ⟨truncIndirMax_eq hc h1 h2, fun h3 => ?_⟩
  have e := truncDindirMax_eq hc h3 h2
  have o := off_toNat hc h3 h2
  have hi := indirEntries_bounds hc
  rw [e]
  simp only []
  rw [Nat.add_comm (Words.seekCoord c t).indirEntry.toNat, o]
  refine congrArg (min c.indirEntries) ?_
  generalize c.dataBlocks - (t.toNat - (t.toNat - c.direct - c.indirBlocks) % c.dindirData) = T
  have d := Nat.div_add_mod T c.indirEntries
  have m := Nat.mod_lt T (show 0 < c.indirEntries by omega)
  by_cases hz : T % c.indirEntries = 0
  · rw [if_neg (by omega), Nat.add_zero]
    symm
    apply Nat.div_eq_of_lt_le
    · rw [Nat.mul_comm]; omega
    · rw [Nat.add_mul, Nat.mul_comm]; omega
  · rw [if_pos hz]
    symm
    apply Nat.div_eq_of_lt_le
    · rw [Nat.add_mul, Nat.mul_comm]; omega
    · rw [Nat.add_mul, Nat.add_mul, Nat.mul_comm]; omega

/-- Directories: the offset of every entry is exact, entries do not overlap, none crosses a block boundary and
all lie inside the largest file. -/
theorem C61_entry_offset (hc : c.Ok) (hp : c.PosixOk) {k : U32} (h : k < Words.direntsMax c) :
    (Words.idxOff c k).toNat = k.toNat / (c.blockSize / c.ds) * c.blockSize + k.toNat % (c.blockSize / c.ds) * c.ds ∧
    (Words.idxOff c k).toNat + c.ds ≤ c.blockSize * c.dataBlocks ∧
    (Words.idxOff c k).toNat / c.blockSize = ((Words.idxOff c k).toNat + c.ds - 1) / c.blockSize ∧
    ∀ j, k < j → j < Words.direntsMax c → (Words.idxOff c k).toNat + c.ds ≤ (Words.idxOff c j).toNat := by
  have hb := bs_bounds hc
  have hd := ds_bounds hp hc
  rw [lt_toNat, direntsMax_toNat hc hp] at h
  have e := idxOff_toNat hc hp (k := k) (by omega)
  have hl := idxOff_le hc hp h
  refine ⟨e, by rw [e]; exact hl.2.2, ?_, fun j hkj hj => ?_⟩
  · rw [e]
    have u : c.idxOff k.toNat = c.blockSize * (k.toNat / c.dpb) + k.toNat % c.dpb * c.ds := by
      unfold Conf.idxOff; rw [Nat.mul_comm (k.toNat / c.dpb)]
    have q1 : c.idxOff k.toNat / c.blockSize = k.toNat / c.dpb := by
      rw [u, Nat.mul_add_div (by omega), Nat.div_eq_of_lt (show k.toNat % c.dpb * c.ds < c.blockSize by omega), Nat.add_zero]
    have q2 : (c.idxOff k.toNat + c.ds - 1) / c.blockSize = k.toNat / c.dpb := by
      have : c.idxOff k.toNat + c.ds - 1 = c.blockSize * (k.toNat / c.dpb) + (k.toNat % c.dpb * c.ds + c.ds - 1) := by
        rw [u]; omega
      rw [this, Nat.mul_add_div (by omega), Nat.div_eq_of_lt (show k.toNat % c.dpb * c.ds + c.ds - 1 < c.blockSize by omega), Nat.add_zero]
    rw [q1, q2]
  · rw [lt_toNat] at hkj hj
    rw [direntsMax_toNat hc hp] at hj
    rw [e, idxOff_toNat hc hp (by omega)]
    exact idxOff_lt hp hkj

/-- Directories: the number of entries computed from the size of a directory is exact, up to the fullest directory. -/
theorem C61_entry_count (hc : c.Ok) (hp : c.PosixOk) {k : U32} (h : k < Words.direntsMax c) :
    Words.offIdx c (Words.idxOff c k + Words.wide (Words.ds c)) = k + 1 ∧ Words.offIdx c 0 = 0 := by
  rw [lt_toNat, direntsMax_toNat hc hp] at h
  have hl := (idxOff_le hc hp h).2.2
  have hm := sizeMax_lt hc
  have e := idxOff_toNat hc hp (k := k) (by omega)
  have hmax : c.direntsMax ≤ 4294967295 := by unfold Conf.direntsMax; omega
  have s : (Words.idxOff c k + Words.wide (Words.ds c)).toNat = dirSize c (k.toNat + 1) := by
    rw [add64 (by rw [e, wide_toNat, ds_toNat hc hp]; omega), e, wide_toNat, ds_toNat hc hp, dirSize_succ hp]
  constructor
  · rw [eq_toNat, offIdx_eq hc hp (by rw [s, dirSize_succ hp]; exact hl) (by rw [s, offIdx_dirSize hp]; omega), s, offIdx_dirSize hp,
      add32 (by rw [one32]; omega), one32]
  · rw [eq_toNat, offIdx_eq hc hp (by rw [zero64]; omega) (by rw [zero64]; simp [Conf.offIdx]), zero64]; simp [Conf.offIdx]

/-- Directories: removing the last entries leaves a size from which the number of entries can be computed again. -/
theorem C61_entry_trim (hc : c.Ok) (hp : c.PosixOk) {k : U32} (h : k < Words.direntsMax c) :
    Words.trimSize c 0 = 0 ∧ Words.trimSize c (k + 1) = Words.idxOff c k + Words.wide (Words.ds c) := by
  have hmax : (Words.direntsMax c).toNat ≤ 4294967295 := by have := (Words.direntsMax c).isLt; omega
  rw [lt_toNat] at h
  have e := direntsMax_toNat hc hp
  have k1 : (k + 1).toNat = k.toNat + 1 := by rw [add32 (by rw [one32]; omega), one32]
  have hl := (idxOff_le hc hp (k := k.toNat) (by omega)).2.2
  have hm := sizeMax_lt hc
  constructor
  · rw [eq_toNat, Words.trimSize_eq hc hp (by rw [zero32]; omega), zero32, RedFs.trimSize_eq hp]; rfl
  · rw [eq_toNat, Words.trimSize_eq hc hp (by omega), k1, RedFs.trimSize_eq hp, dirSize_succ hp,
      add64 (by rw [idxOff_toNat hc hp (by omega), wide_toNat, ds_toNat hc hp]; omega),
      idxOff_toNat hc hp (by omega), wide_toNat, ds_toNat hc hp]

/-- Inodes: the two slots of every inode lie inside the inode table, and no two inodes share a slot. -/
theorem C61_inode_place (hc : c.Ok) {ino : U32} {w : Bool} (h : 2 ≤ ino.toNat) (h2 : ino.toNat < 2 + c.inodeCount) :
    (Words.inodeBlock (BitVec.ofNat 32 c.tableStart) ino w).toNat = c.tableStart + (ino.toNat - 2) * 2 + (if w then 1 else 0) ∧
    c.tableStart ≤ (Words.inodeBlock (BitVec.ofNat 32 c.tableStart) ino w).toNat ∧
    (Words.inodeBlock (BitVec.ofNat 32 c.tableStart) ino w).toNat < c.firstAlloc ∧
    ∀ ino' : U32, ∀ w' : Bool, 2 ≤ ino'.toNat → ino'.toNat < 2 + c.inodeCount →
      Words.inodeBlock (BitVec.ofNat 32 c.tableStart) ino w = Words.inodeBlock (BitVec.ofNat 32 c.tableStart) ino' w' → ino = ino' ∧ w = w' := by
  have v : ∀ {i : U32}, 2 ≤ i.toNat → i.toNat < 2 + c.inodeCount → c.inodeValid i.toNat = true := by
    intro i a b; unfold Conf.inodeValid; simp [a, b]
  have e := (inodeBlock_eq hc (w := w) (v h h2)).1
  unfold slotBlk at e
  have t : (if w then 1 else 0) ≤ 1 := by split <;> omega
  refine ⟨e, by omega, by unfold Conf.firstAlloc; omega, fun ino' w' a b hh => ?_⟩
  have e' := (inodeBlock_eq hc (w := w') (v a b)).1
  unfold slotBlk at e'
  rw [hh, e'] at e
  have t' : (if w' then 1 else 0) ≤ 1 := by split <;> omega
  constructor
  · rw [eq_toNat]; omega
  · cases w <;> cases w' <;> simp at e ⊢ <;> omega

/-- Block map: the two places of every map node lie before the inode table, and every block of the volume has its own
bit in a node that exists. -/
theorem C61_imap_place (hc : c.Ok) (hi : c.inline = false) {b : U32} (h : c.tableStart ≤ b.toNat) (h2 : b.toNat < c.blockCount) :
    let p := Words.imapPlace c (BitVec.ofNat 32 c.tableStart) b
    p.1.toNat * c.imapEntries + p.2.toNat + c.tableStart = b.toNat ∧ p.2.toNat < c.imapEntries ∧ p.1.toNat < c.nodeCount ∧
    ∀ second, (Words.imapNodeBlock (BitVec.ofNat 32 c.imapStart) p.1 second).toNat = 3 + p.1.toNat * 2 + (if second then 1 else 0) ∧
      (Words.imapNodeBlock (BitVec.ofNat 32 c.imapStart) p.1 second).toNat < c.tableStart := by
  obtain ⟨e1, e2⟩ := imapPlace_eq hc h h2
  have hb := bs_bounds hc
  have hE : 896 ≤ c.imapEntries := by unfold Conf.imapEntries; omega
  have d := Nat.div_add_mod (b.toNat - c.tableStart) c.imapEntries
  have hts : c.tableStart = 3 + c.nodeCount * 2 := by unfold Conf.tableStart; rw [hi]; rfl
  have hn : (b.toNat - c.tableStart) / c.imapEntries < c.nodeCount := by
    apply Nat.div_lt_of_lt_mul
    have hd2 := Nat.div_add_mod ((c.blockCount - 3) + ((c.imapEntries + 2) - 1)) (c.imapEntries + 2)
    have hm2 := Nat.mod_lt ((c.blockCount - 3) + ((c.imapEntries + 2) - 1)) (show 0 < c.imapEntries + 2 by omega)
    have hnc : ((c.blockCount - 3) + ((c.imapEntries + 2) - 1)) / (c.imapEntries + 2) = c.nodeCount := rfl
    rw [hnc, Nat.add_mul] at hd2
    omega
  refine ⟨?_, ?_, ?_, fun second => ?_⟩
  · rw [e1, e2, Nat.mul_comm]; omega
  · rw [e2]; exact Nat.mod_lt _ (by omega)
  · rw [e1]; exact hn
  · rw [← e1] at hn
    generalize Words.imapPlace c (BitVec.ofNat 32 c.tableStart) b = p at hn ⊢
    have hm := hc.blocks_max
    have hf := hc.fits
    unfold Conf.firstAlloc at hf
    have t : (BitVec.ofNat 32 c.imapStart).toNat = 3 := ofNat32 (by show 3 < _; omega)
    have two : (2 : U32).toNat = 2 := rfl
    have s2 : (p.1 * 2).toNat = p.1.toNat * 2 := by rw [mul32 (by rw [two]; omega), two]
    have s3 : (BitVec.ofNat 32 c.imapStart + p.1 * 2).toNat = 3 + p.1.toNat * 2 := by
      rw [add32 (by rw [t, s2]; omega), t, s2]
    unfold Words.imapNodeBlock
    cases second
    · simp only [Bool.false_eq_true, if_false]; rw [s3]; exact ⟨rfl, by omega⟩
    · simp only [if_true]; rw [add32 (by rw [s3, one32]; omega), s3, one32]; exact ⟨rfl, by omega⟩

/-! ### The hypotheses can be met -/

/-- A configuration with the largest blocks and the largest volume: the number of data blocks per inode is limited to
`UINT32_MAX`, the external block map is used. -/
def hugeConf : Conf := ⟨65536, 4, 32, true, true, true, true, true, 28, 1000, 4294967295, false, false, true, 47⟩

theorem hugeConf_ok : hugeConf.Ok where
  bs_pow := ⟨16, by decide, by decide, by decide⟩
  ptrs := by decide +kernel
  inodes := by decide +kernel
  blocks_min := by decide +kernel
  blocks_max := by decide +kernel
  fits := by decide +kernel
  nodes := by decide +kernel
theorem hugeConf_posix : hugeConf.PosixOk where
  posix := rfl
  name := by decide +kernel
  fits := by decide +kernel
  sep := by decide +kernel

/-- The limits are reached: a file of `hugeConf` may have 2^32 - 1 blocks, and its last byte has the
number 2^48 - 2^16 - 1. -/
example : (Words.dataBlocks hugeConf).toNat = 4294967295 ∧ (Words.sizeMax hugeConf).toNat = 281474976645120 ∧
    (Words.direntsMax hugeConf).toNat = 4294967295 ∧ hugeConf.inline = false := by decide +kernel
/-- The last block of the largest file: the double indirect node is not full, the number of blocks to its end is cut. -/
example : Words.seekCoord hugeConf 4294967294#32 = ⟨52#16, 128#16, 394#16⟩ := by decide +kernel
example : (Words.truncNextDindir hugeConf 4294967294#32 (Words.seekCoord hugeConf 4294967294#32).dindirEntry
    (Words.seekCoord hugeConf 4294967294#32).indirEntry) = 4294967295#32 := by decide +kernel
/-- Entry 2^32 - 2, the last possible one. -/
example : Words.offIdx hugeConf (Words.idxOff hugeConf 4294967294#32 + Words.wide (Words.ds hugeConf)) = 4294967295#32 := by decide +kernel
/-- A file of 300 bytes: the hypothesis of `C61_read` and `C61_write` on the size. -/
example : ({ ci := { Cinode.init 3 with node := { InodeNode.zero with size := 300 } }, v := demoVol } : DS).ci.node.size ≤ demoConf.sizeMax := by
  decide +kernel
/-- The configuration of the demonstration volume. -/
example : demoConf.Ok ∧ demoConf.PosixOk := ⟨demo_ok, rfl, by decide, by decide, by decide⟩

/-- Without the suffix that makes the product 64 bits wide, the largest file size would be wrong. -/
example : (Words.bs hugeConf * Words.dataBlocks hugeConf).toNat ≠ (Words.sizeMax hugeConf).toNat := by decide +kernel

end RedFs
