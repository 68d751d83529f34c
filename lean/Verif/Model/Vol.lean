import Verif.Model.Monad
import Verif.Model.Conf
import Verif.Model.Bitmap
/-!
State of one mounted volume: on-disk structures, block contents as seen through
the buffer cache, device contents, and the run-time variables of `VOLUME`
(include/redvolume.h:86-130) and `COREVOLUME` (core/include/redcorevol.h:33-81).

Simplifications (see DESIGN.md section 5): node headers (signature, CRC, sequence
number) and time stamps are not part of a node's contents here - the signature is
represented by the constructor of `Blk`, CRC and sequence numbers are modelled in
`Model/Crc.lean` and `Model/Buffer.lean`; device I/O errors do not occur.
-/
namespace RedFs
open Bitmap

abbrev Byte := BitVec 8

/-- `METAROOT`, core/include/rednodes.h:88-105. -/
structure Metaroot where
  seq : Nat
  freeBlocks : Nat
  freeInodes : Nat
  allocNext : Nat
  entries : Mem8

/-- `INODE`, rednodes.h:140-171. -/
structure InodeNode where
  size : Nat
  blocks : Nat
  mode : Nat
  nlink : Nat
  pinode : Nat
  entries : Nat → Nat

/-- The fields of `MASTERBLOCK`, rednodes.h:61-75, which are checked at mount (volume.c:260-283). -/
structure Master where
  seq : Nat
  inodeCount : Nat
  blockCount : Nat
  nameMax : Nat
  direct : Nat
  indirect : Nat
  blockSize : Nat
  posix : Bool
  timestamps : Bool
  inodeBlocks : Bool
deriving DecidableEq

/-- Contents of one block.  A metadata block is valid (right signature, CRC and
sequence number) and decoded; every other block, in particular file data, is raw bytes. -/
inductive Blk
  | data (f : Nat → Byte)
  | inode (n : InodeNode)
  | indir (owner : Nat) (es : Nat → Nat)
  | dindir (owner : Nat) (es : Nat → Nat)
  | imap (bits : Mem8)
  | metaroot (m : Metaroot)
  /-- a metaroot block that fails validation; the flag says whether its first sector is intact -/
  | badMetaroot (sectorOk : Bool)
  | master (m : Master)

/-- Raw bytes of a block read as file data.  Reading a metadata block as file data is
given arbitrary (zero) contents; the proofs show that it does not happen. -/
def Blk.bytes : Blk → Nat → Byte
  | .data f => f
  | _ => fun _ => 0

/-- Pointer array of an indirect or double indirect node. -/
def Blk.ptrs : Blk → Nat → Nat
  | .indir _ es => es
  | .dindir _ es => es
  | _ => fun _ => 0

/-- Ghost record of one device epoch, i.e. of the time between two device flushes. -/
structure Epoch where
  /-- the contents of the disk at the last device flush -/
  base : Nat → Blk
  /-- the blocks which may have been written since -/
  dirty : Nat → Bool
  /-- the contents of the disk when all writes of the epoch have reached it -/
  fin : Nat → Blk
  /-- the metaroot which is committed when the epoch begins -/
  comm : Metaroot
  /-- the metaroot written during the epoch, if any -/
  next : Option Metaroot

structure Vol where
  /-- block contents as seen by the file system (through the buffer cache) -/
  blk : Nat → Blk
  /-- disk contents at the last device flush -/
  base : Nat → Blk
  /-- blocks handed to the cache or the device for writing since the last device flush -/
  dirty : Nat → Bool
  /-- what a block that was written since the last flush and then dropped from the
  cache reads as; arbitrary -/
  stale : Nat → Blk
  /-- `aMR[0]`, `aMR[1]` -/
  mr : Bool → Metaroot
  /-- `bCurMR` -/
  cur : Bool
  /-- `fBranched` -/
  branched : Bool
  /-- `ulAlmostFreeBlocks` -/
  almostFree : Nat
  /-- `fUseReservedBlocks` -/
  useReserved : Bool
  /-- `fMounted` -/
  mounted : Bool
  /-- `fReadOnly` -/
  readOnly : Bool
  /-- `ulTransMask` -/
  transMask : Nat
  /-- `ullSequence` -/
  seq : Nat
  /-- number of sequence numbers used by metadata writes between the commits; arbitrary,
  because it depends on the eviction order of the buffer cache (buffer.c, `BufferFinalize`) -/
  nodeWrites : Nat → Nat
  /-- ghost: finished device epochs, newest first -/
  hist : List Epoch

abbrev VM := M Vol

namespace Vol
/-- `gpRedMR` -/
def work (v : Vol) : Metaroot := v.mr v.cur
/-- the committed metaroot, `aMR[1 - bCurMR]` -/
def comm (v : Vol) : Metaroot := v.mr (!v.cur)
/-- Store through `gpRedMR`. -/
def setWork (v : Vol) (m : Metaroot) : Vol :=
  { v with mr := fun i => if i = v.cur then m else v.mr i }
/-- Change the contents of a dirty buffer (or write a block to the device). -/
def write (v : Vol) (b : Nat) (x : Blk) : Vol :=
  { v with blk := fun i => if i = b then x else v.blk i
           dirty := fun i => if i = b then true else v.dirty i }
/-- Change the contents of a buffer without marking it dirty. -/
def poke (v : Vol) (b : Nat) (x : Blk) : Vol :=
  { v with blk := fun i => if i = b then x else v.blk i }
/-- `RedBufferDirty`, core/driver/buffer.c: the current contents will be written back. -/
def markDirty (v : Vol) (b : Nat) : Vol := v.write b (v.blk b)
/-- What a block reads as when it is not in the cache. -/
def onDisk (v : Vol) (b : Nat) : Blk := if v.dirty b then v.stale b else v.base b
/-- `RedBufferDiscardRange(b, 1)`: drop the buffer, so that the block reads as the disk.
Not modelled: the error when the buffer is referenced (see DESIGN.md, finding 1). -/
def discard (v : Vol) (b : Nat) : Vol := v.poke b (v.onDisk b)
/-- `RedBufferBranch`, core/driver/buffer.c: the buffer holding block `src` now holds
block `dst`, which is dirty; `src` is no longer cached and reads as the disk. -/
def branchBuf (v : Vol) (src dst : Nat) : Vol := (v.write dst (v.blk src)).discard src
end Vol

open M

/-- `CRITICAL_ERROR()` followed by `ret = e` : `RedVolCriticalError`, volume.c:686-706. -/
def critical {α : Type} (e : Err) : VM α := do
  modify fun v => { v with readOnly := true }
  fail e

/-- `CRITICAL_ASSERT(ret == 0)` after a call. -/
def criticalAssert {α : Type} (m : VM α) : VM α := do
  match ← attempt m with
  | .ok a => pure a
  | .error e => critical e

end RedFs
