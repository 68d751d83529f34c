import Verif.Model.Imap
/-!
Mount, commit and rollback of a volume: core/driver/volume.c and the volume
functions of core/driver/core.c.

Simplifications: the device never reports an I/O error; 64-bit sequence numbers are
natural numbers, so the branch `ullSequence == UINT64_MAX` of `RedVolSeqNumIncrement`
(volume.c:730-740) is not modelled here; whether a metaroot block is valid is part of
the block contents (`Blk.metaroot` / anything else), the checksum computation behind it
is in `Model/Crc.lean`.
-/
namespace RedFs
open M Bitmap

variable (c : Conf)

/-- `RedIoFlush` (core/driver/blockio.c): everything written so far is on the disk. -/
def Vol.flush (v : Vol) (next : Option Metaroot) : Vol :=
  let fin := fun b => if v.dirty b then v.blk b else v.base b
  { v with hist := ⟨v.base, v.dirty, fin, v.comm, next⟩ :: v.hist
           base := fin
           dirty := fun _ => false }

/-- Block number of metaroot `i`: `BLOCK_NUM_FIRST_METAROOT + i`. -/
def mrBlk (i : Bool) : Nat := if i then 2 else 1

/-- `MetarootIsValid`, volume.c:447-504, first result. -/
def mrValid : Blk → Option Metaroot
  | .metaroot m => some m
  | _ => none

/-- `MetarootIsValid`, volume.c:447-504, `*pfSectorCRCIsValid`. -/
def mrSectorOk : Blk → Bool
  | .metaroot _ => true
  | .badMetaroot s => s
  | _ => false

/-- The metaroot selection of `RedVolMountMetaroot`, volume.c:331-393: index and contents
of the metaroot chosen from the two blocks read, `none` for `-RED_EIO`. -/
def mrSelect (b0 b1 : Blk) : Option (Bool × Metaroot) :=
  match mrValid b0, mrValid b1 with
  | some m0, some m1 => if m0.seq < m1.seq then some (true, m1) else some (false, m0)
  | some m0, none => if c.atomicSector ∧ mrSectorOk b1 = false then none else some (false, m0)
  | none, some m1 => if c.atomicSector ∧ mrSectorOk b0 = false then none else some (true, m1)
  | none, none => none

/-- The checks of `RedVolMountMaster`, volume.c:260-283 (version and link flag left out). -/
def masterMatches (m : Master) : Bool :=
  decide (m.inodeCount = c.inodeCount) && decide (m.blockCount = c.blockCount) &&
  decide (m.nameMax = c.nameMax) && decide (m.direct = c.direct) &&
  decide (m.indirect = c.indirect) && decide (m.blockSize = c.blockSize) &&
  (m.posix == c.posix) && (m.timestamps == c.timestamps) && (m.inodeBlocks == c.inodeBlocks)

/-- `RedVolMountMaster`, volume.c:243-299. -/
def mountMaster : VM Unit := do
  let v ← get
  match v.blk 0 with
  | .master m =>
    if masterMatches c m then modify fun v => { v with seq := m.seq } else fail .eio
  | _ => fail .eio

/-- `RedVolMountMetaroot`, volume.c:316-433.  The metaroots are read from the device
directly.  If no metaroot is usable the contents of `aMR` are left unspecified by the C
code; here they are left unchanged. -/
def mountMetaroot (ro : Bool) : VM Unit := do
  let v ← get
  match mrSelect c (v.onDisk 1) (v.onDisk 2) with
  | none => fail .eio
  | some (i, m) =>
    modify fun v =>
      { v with seq := (if v.seq < m.seq then m.seq else v.seq) + 1
               mounted := true, readOnly := ro, useReserved := false, almostFree := 0
               mr := fun _ => m, cur := !i }

/-- Dropping every buffer, `RedBufferDiscardRange(0, ulBlockCount)`. -/
def Vol.discardAll (v : Vol) : Vol := { v with blk := v.onDisk }

/-- `RedVolMount`, volume.c:181-229. -/
def volMount (ro : Bool) : VM Unit := do
  match ← attempt (do mountMaster c; mountMetaroot c ro) with
  | .ok () => pure ()
  | .error e => do modify Vol.discardAll; fail e

/-- `RedVolTransact`, volume.c:515-611. -/
def volTransact : VM Unit := do
  let v ← get
  if v.branched then do
    modify fun v => { v.setWork { v.work with freeBlocks := v.work.freeBlocks + v.almostFree } with
                      almostFree := 0 }
    -- RedBufferFlushRange: metadata written back takes sequence numbers
    modify fun v => { v with seq := v.seq + v.nodeWrites v.hist.length }
    modify fun v => v.setWork { v.work with seq := v.seq }
    modify fun v => { v with seq := v.seq + 1 }
    modify (·.flush none)
    modify fun v => v.write (mrBlk v.cur) (.metaroot v.work)
    modify fun v => v.flush (some v.work)
    modify fun v => { v with mr := fun i => if i = !v.cur then v.work else v.mr i
                             cur := !v.cur, branched := false }
  else pure ()

/-- `RedVolRollback`, volume.c:621-653. -/
def volRollback : VM Unit := do
  let v ← get
  if v.branched then criticalAssert do
    modify Vol.discardAll
    mountMaster c
    mountMetaroot c false
    modify fun v => { v with branched := false }
  else pure ()

/-- `RedCoreVolUnmount`, core.c:323-350.  `RED_TRANSACT_UMOUNT` is bit 0 of the mask. -/
def coreUnmount : VM Unit := do
  let v ← get
  if !v.readOnly && v.transMask.testBit 0 then volTransact else pure ()
  modify Vol.discardAll
  modify fun v => { v with mounted := false }

/-- `RedCoreVolTransact`, core.c:371-389. -/
def coreTransact : VM Unit := do
  let v ← get
  if !v.mounted then fail .einval
  else if v.readOnly then fail .erofs
  else volTransact

/-- `RedCoreVolRollback`, core.c:405-423. -/
def coreRollback : VM Unit := do
  let v ← get
  if !v.mounted then fail .einval
  else if v.readOnly then fail .erofs
  else volRollback c

end RedFs
