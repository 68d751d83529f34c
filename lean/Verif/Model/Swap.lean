import Verif.Model.Buffer
import Verif.Model.Endian
/-!
Byte order of metadata on the device: the nodes of core/include/rednodes.h as bytes in memory, on processors of either byte order, with and without
`REDCONF_ENDIAN_SWAP`: core/driver/buffer.c (BufferEndianSwap and friends, BufferFinalize, BufferIsValid) and the metaroot code of core/driver/volume.c.

Not modelled here: the cache (Model/Buffer), and structure padding (all members are naturally aligned; redcore.h checks the sizes with compile-time assertions).
-/
namespace RedFs.Swap
open RedFs Buffer Endian

/-- The processor: `REDCONF_ENDIAN_BIG`; and whether `REDCONF_ENDIAN_SWAP` is defined. -/
structure Build where
  big : Bool
  swap : Bool

/-- Compile-time settings which determine the layout of nodes. -/
structure Layout where
  /-- `REDCONF_BLOCK_SIZE` -/
  bs : Nat
  /-- sector size of the device -/
  ss : Nat
  posix : Bool
  /-- `REDCONF_API_POSIX_LINK` -/
  link : Bool
  inodeBlocks : Bool
  timestamps : Bool
  /-- `REDCONF_DIRECT_POINTERS < INODE_ENTRIES`: there are indirect nodes -/
  indirs : Bool
  /-- `DINDIR_POINTERS > 0U` -/
  dindirs : Bool

/-- A member of a structure of `w` bytes, at address `a` of memory `f`, as an integer. -/
def ld16 (big : Bool) (f : Bytes) (a : Nat) : BitVec 16 :=
  if big then ((f a).setWidth 16 <<< 8) ||| (f (a + 1)).setWidth 16
  else (f a).setWidth 16 ||| ((f (a + 1)).setWidth 16 <<< 8)
def ld32 (big : Bool) (f : Bytes) (a : Nat) : BitVec 32 :=
  if big then ((f a).setWidth 32 <<< 24) ||| ((f (a + 1)).setWidth 32 <<< 16) ||| ((f (a + 2)).setWidth 32 <<< 8) ||| (f (a + 3)).setWidth 32
  else (f a).setWidth 32 ||| ((f (a + 1)).setWidth 32 <<< 8) ||| ((f (a + 2)).setWidth 32 <<< 16) ||| ((f (a + 3)).setWidth 32 <<< 24)
def ld64 (big : Bool) (f : Bytes) (a : Nat) : BitVec 64 :=
  if big then ((f a).setWidth 64 <<< 56) ||| ((f (a + 1)).setWidth 64 <<< 48) ||| ((f (a + 2)).setWidth 64 <<< 40) ||| ((f (a + 3)).setWidth 64 <<< 32) ||| ((f (a + 4)).setWidth 64 <<< 24) ||| ((f (a + 5)).setWidth 64 <<< 16) ||| ((f (a + 6)).setWidth 64 <<< 8) ||| (f (a + 7)).setWidth 64
  else (f a).setWidth 64 ||| ((f (a + 1)).setWidth 64 <<< 8) ||| ((f (a + 2)).setWidth 64 <<< 16) ||| ((f (a + 3)).setWidth 64 <<< 24) ||| ((f (a + 4)).setWidth 64 <<< 32) ||| ((f (a + 5)).setWidth 64 <<< 40) ||| ((f (a + 6)).setWidth 64 <<< 48) ||| ((f (a + 7)).setWidth 64 <<< 56)

/-- Byte `k` in memory of an integer of `w` bytes. -/
def byteOf {n : Nat} (big : Bool) (w : Nat) (x : BitVec n) (k : Nat) : Byte :=
  x.extractLsb' (8 * (if big then w - 1 - k else k)) 8

/-- Assignment to a member of `w` bytes. -/
def st {n : Nat} (w : Nat) (big : Bool) (f : Bytes) (a : Nat) (x : BitVec n) : Bytes := fun i =>
  if a ≤ i ∧ i < a + w then byteOf big w x (i - a) else f i

/-- `x = RedRev16(x)`, `x = RedRev32(x)`, `x = RedRev64(x)` for the member at address `a`. -/
def sw16 (big : Bool) (a : Nat) (f : Bytes) : Bytes := st 2 big f a (rev16 (ld16 big f a))
def sw32 (big : Bool) (a : Nat) (f : Bytes) : Bytes := st 4 big f a (rev32 (ld32 big f a))
def sw64 (big : Bool) (a : Nat) (f : Bytes) : Bytes := st 8 big f a (rev64 (ld64 big f a))

def sw32s (big : Bool) (a : Nat) : Nat → Bytes → Bytes
  | 0, f => f
  | n + 1, f => sw32 big (a + 4 * n) (sw32s big a n f)

/-- Offsets of the members of `INODE`, rednodes.h:142-176. -/
def Layout.oTimes (l : Layout) : Nat := 24 + if l.inodeBlocks then 4 else 0
def Layout.oMode (l : Layout) : Nat := l.oTimes + if l.timestamps then 12 else 0
def Layout.oPInode (l : Layout) : Nat := l.oMode + 4
/-- `INODE_HEADER_SIZE`, rednodes.h:128-129. -/
def Layout.oEntries (l : Layout) : Nat := l.oPInode + if l.posix then 4 else 0
/-- `INODE_ENTRIES`, `INDIR_ENTRIES`, rednodes.h:130, 180. -/
def Layout.inodeEntries (l : Layout) : Nat := (l.bs - l.oEntries) / 4
def Layout.indirEntries (l : Layout) : Nat := (l.bs - 20) / 4

variable (l : Layout)

/-- `BufferEndianSwapHeader`, buffer.c:955-968. -/
def swapHeader (big : Bool) (f : Bytes) : Bytes := sw64 big 8 (sw32 big 4 (sw32 big 0 f))

/-- `BufferEndianSwapMaster`, buffer.c:975-993; members of `MASTERBLOCK` at the offsets given by rednodes.h:66-81. -/
def swapMaster (big : Bool) (f : Bytes) : Bytes :=
  let f := sw32 big 16 f
  let f := sw32 big 28 f
  let f := sw32 big 32 f
  let f := sw32 big 36 f
  let f := sw16 big 40 f
  let f := sw16 big 42 f
  sw16 big 44 f

/-- `BufferEndianSwapInode`, buffer.c:1000-1040. -/
def swapInode (big : Bool) (f : Bytes) : Bytes :=
  let f := sw64 big 16 f
  let f := if l.inodeBlocks then sw32 big 24 f else f
  let f := if l.timestamps then sw32 big (l.oTimes + 8) (sw32 big (l.oTimes + 4) (sw32 big l.oTimes f)) else f
  let f := sw16 big l.oMode f
  let f := if l.posix && l.link then sw16 big (l.oMode + 2) f else f
  let f := if l.posix then sw32 big l.oPInode f else f
  sw32s big l.oEntries l.inodeEntries f

/-- `BufferEndianSwapIndir`, buffer.c:1048-1066. -/
def swapIndir (big : Bool) (f : Bytes) : Bytes := sw32s big 20 l.indirEntries (sw32 big 16 f)

/-- `BufferEndianSwap`, buffer.c:907-947. -/
def swapNode (big : Bool) (k : Kind) (f : Bytes) : Bytes :=
  match k with
  | .data => f
  | .master => swapMaster big (swapHeader big f)
  | .inode => swapInode l big (swapHeader big f)
  | .dindir => if l.dindirs then swapIndir l big (swapHeader big f) else swapHeader big f
  | .indir => if l.indirs then swapIndir l big (swapHeader big f) else swapHeader big f
  | .imap => swapHeader big f

/-- `BufferEndianSwap` if it is compiled in. -/
def swapIf (b : Build) (k : Kind) (f : Bytes) : Bytes := if b.swap then swapNode l b.big k f else f

/-- `RedRev32` if byte swapping is compiled in. -/
def rev32If (b : Build) (x : BitVec 32) : BitVec 32 := if b.swap then rev32 x else x
def rev64If (b : Build) (x : BitVec 64) : BitVec 64 := if b.swap then rev64 x else x

/-- `BufferFinalize`, buffer.c:869-889, for the node `f` of the kind with signature `sg`: the buffer as it is handed to `RedIoWrite`. -/
def finalize (b : Build) (k : Kind) (sg : BitVec 32) (seq : BitVec 64) (f : Bytes) : Bytes :=
  let f := st 4 b.big f 0 sg
  let f := st 8 b.big f 8 seq
  let f := swapIf l b k f
  st 4 b.big f 4 (rev32If b (nodeCrc l.bs f))

/-- The buffer after `BufferWrite`, buffer.c:786-790. -/
def written (b : Build) (k : Kind) (f : Bytes) : Bytes := swapIf l b k f

/-- `BufferIsValid`, buffer.c:640-709.  `mounted` and `seq` are those of the volume. -/
def isValid (b : Build) (mounted : Bool) (seq : Nat) (k : Kind) (f : Bytes) : Bool :=
  match k.sig with
  | none => false
  | some sg =>
    decide (rev32If b (ld32 b.big f 0) = sg) && decide (rev32If b (ld32 b.big f 4) = nodeCrc l.bs f) &&
      !(mounted && decide (seq ≤ (rev64If b (ld64 b.big f 8)).toNat))

/-- What `RedBufferGet` makes of a block read from the device, buffer.c:303-328. -/
def load (b : Build) (mounted : Bool) (seq : Nat) (k : Kind) (f : Bytes) : Option Bytes :=
  if k ≠ .data ∧ isValid l b mounted seq k f = false then none else some (swapIf l b k f)

/-! ### Metaroots -/

/-- `META_SIG_METAROOT`, redcore.h:39. -/
def sigMetaroot : BitVec 32 := 0x4154454D#32
/-- Offset of `ulAllocNextBlock` in `METAROOT`, rednodes.h:92-109. -/
def Layout.oNext (l : Layout) : Nat := 24 + if l.posix then 4 else 0

/-- `MetaRootEndianSwap`, volume.c:657-677. -/
def swapMetaroot (big : Bool) (f : Bytes) : Bytes :=
  let f := sw32 big 0 f
  let f := sw64 big 8 f
  let f := sw32 big 16 f
  let f := sw32 big 20 f
  let f := if l.posix then sw32 big 24 f else f
  sw32 big l.oNext f

def swapMetarootIf (b : Build) (f : Bytes) : Bytes := if b.swap then swapMetaroot l b.big f else f

/-- The bytes from `a` up to `z`. -/
def range (f : Bytes) (a z : Nat) : List Byte := (List.range' a (z - a)).map f

/-- `RedVolTransact`, volume.c:527-565: the metaroot `f` in memory made ready for the device. -/
def finalizeMetaroot (b : Build) (seq : BitVec 64) (f : Bytes) : Bytes :=
  let f := st 4 b.big f 0 sigMetaroot
  let f := st 8 b.big f 8 seq
  let f := swapMetarootIf l b f
  let f := st 4 b.big f 16 (0#32)
  let c := Crc.crcBitwise 0#32 (range f 8 l.ss)
  let d := if l.ss < l.bs then Crc.crcBitwise c (range f l.ss l.bs) else c
  let f := st 4 b.big f 4 d
  let f := st 4 b.big f 16 c
  let f := st 4 b.big f 4 (rev32If b (ld32 b.big f 4))
  st 4 b.big f 16 (rev32If b (ld32 b.big f 16))

/-- The metaroot in memory after `RedVolTransact`, volume.c:563-580.  `flushed` is the outcome of the first `RedIoFlush`: if it fails, the metaroot is not swapped back. -/
def transactMemory (b : Build) (seq : BitVec 64) (flushed : Bool) (f : Bytes) : Bytes :=
  if flushed then swapMetarootIf l b (finalizeMetaroot l b seq f) else finalizeMetaroot l b seq f

/-- `MetarootIsValid`, volume.c:449-513: validity of the node, validity of the CRC of the first sector, the node with that CRC cleared. -/
def metarootIsValid (b : Build) (f : Bytes) : Bool × Bool × Bytes :=
  if rev32If b (ld32 b.big f 0) ≠ sigMetaroot then (false, false, f)
  else
    let sc := rev32If b (ld32 b.big f 16)
    let f := st 4 b.big f 16 (0#32)
    let c := Crc.crcBitwise 0#32 (range f 8 l.ss)
    if c = sc then
      let c := Crc.crcBitwise c (range f l.ss l.bs)
      (decide (rev32If b c = ld32 b.big f 4), true, f)
    else (false, false, f)

/-- A metaroot read by `RedVolMountMetaroot`, volume.c:336-343, 357-361. -/
def loadMetaroot (b : Build) (f : Bytes) : Option Bytes :=
  if (metarootIsValid l b f).1 = true then some (swapMetarootIf l b (metarootIsValid l b f).2.2) else none

/-! ### Directory entries -/

/-- The inode number in a directory entry: dir.c:937-942 and 398-403, 557-561. -/
def direntPut (b : Build) (ino : BitVec 32) (f : Bytes) : Bytes := st 4 b.big f 0 (rev32If b ino)
def direntGet (b : Build) (f : Bytes) : BitVec 32 := rev32If b (ld32 b.big f 0)

end RedFs.Swap
