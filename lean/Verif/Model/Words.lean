import Verif.Model.Dir
/-!
The arithmetic of core/driver/{inodedata.c,dir.c,inode.c,imapextern.c} in machine words.

The other files of the core layer compute with natural numbers.  Here the same computations are
written with the widths of the C code: `uint16_t`, `uint32_t` and `uint64_t` values are bit vectors,
all operations wrap around, a cast to a narrower type drops bits, shifts and masks are those of the
code.  `Props/Words.lean` shows that they agree.

Compile-time constants are words, too (`UINT32_MAX`, suffix `U`).  An `#if` is evaluated by the
preprocessor in `uintmax_t`; the model uses 32 bits for it, which is the same because nothing wraps
(`C61_constants`).
-/
namespace RedFs.Words
open M

abbrev U16 := BitVec 16
abbrev U32 := BitVec 32
abbrev U64 := BitVec 64

/-- The usual arithmetic conversion of a `uint32_t` to `uint64_t`. -/
def wide (x : U32) : U64 := x.setWidth 64
/-- The usual arithmetic conversion of a `uint16_t` to `uint32_t` (the other operand is `uint32_t`). -/
def up (x : U16) : U32 := x.setWidth 32
/-- The cast `(uint32_t)x`. -/
def lo32 (x : U64) : U32 := x.setWidth 32
/-- The cast `(uint16_t)x`. -/
def lo16 (x : U32) : U16 := x.setWidth 16
/-- `REDMIN`, include/redmacs.h:121. -/
def redmin (a b : U32) : U32 := if a < b then a else b

/-- `BLOCK_SIZE_P2`, include/redmacs.h:77-99. -/
def p2Of : Nat → Nat
  | 128 => 7 | 256 => 8 | 512 => 9 | 1024 => 10 | 2048 => 11 | 4096 => 12 | 8192 => 13 | 16384 => 14
  | 32768 => 15 | 65536 => 16 | _ => 0

variable (c : Conf)

/-! ### Constants -/

/-- `REDCONF_BLOCK_SIZE`. -/
def bs : U32 := BitVec.ofNat 32 c.blockSize
/-- `BLOCK_SIZE_P2`. -/
def p2 : Nat := p2Of c.blockSize
/-- `REDCONF_DIRECT_POINTERS`. -/
def direct : U32 := BitVec.ofNat 32 c.direct
/-- `REDCONF_INDIRECT_POINTERS`. -/
def indirect : U32 := BitVec.ofNat 32 c.indirect
/-- `INODE_ENTRIES`, core/include/rednodes.h:127-129 (the header size is a sum of small literals). -/
def inodeEntries : U32 := (bs c - BitVec.ofNat 32 c.inodeHeader) / 4
/-- `INDIR_ENTRIES`, rednodes.h:174-175. -/
def indirEntries : U32 := (bs c - 20) / 4
/-- `IMAPNODE_ENTRIES`, rednodes.h:108-111. -/
def imapEntries : U32 := (bs c - 16) * 8
/-- `DINDIR_POINTERS`, core/include/redcoremacs.h:36. -/
def dindirPtrs : U32 := inodeEntries c - direct c - indirect c
/-- `DINDIR_DATA_BLOCKS`, redcoremacs.h:37. -/
def dindirData : U32 := indirEntries c * indirEntries c
/-- `INODE_INDIR_BLOCKS`, redcoremacs.h:39. -/
def indirBlocks : U32 := indirect c * indirEntries c
/-- `INODE_DINDIR_BLOCKS_MAX`, redcoremacs.h:48. -/
def dindirBlocksMax : U32 := 0xFFFFFFFF#32 - (direct c + indirBlocks c)
/-- `DINDIR_POINTERS_MAX`, redcoremacs.h:49-51. -/
def dindirPtrsMax : U32 :=
  dindirBlocksMax c / dindirData c + (if dindirBlocksMax c % dindirData c = 0 then 0 else 1)
/-- `INODE_DINDIR_BLOCKS`, redcoremacs.h:52-56. -/
def dindirBlocks : U32 :=
  if dindirPtrsMax c ≤ dindirPtrs c then dindirBlocksMax c else dindirPtrs c * dindirData c
/-- `INODE_DATA_BLOCKS`, redcoremacs.h:58. -/
def dataBlocks : U32 := direct c + indirBlocks c + dindirBlocks c
/-- `INODE_SIZE_MAX`, redcoremacs.h:59: `UINT64_SUFFIX(1)` makes the product 64 bits wide. -/
def sizeMax : U64 := 1 * wide (bs c) * wide (dataBlocks c)

/-- `DIRENT_SIZE`, dir.c:37-42. -/
def ds : U32 := 4 + BitVec.ofNat 32 c.nameMax + BitVec.ofNat 32 c.direntPad
/-- `DIRENTS_PER_BLOCK`, dir.c:43. -/
def dpb : U32 := bs c / ds c
/-- `DIRENTS_MAX`, dir.c:44: the minimum is taken of 64-bit values, then cast. -/
def direntsMax : U32 :=
  let prod : U64 := 1 * wide (dataBlocks c) * wide (dpb c)
  lo32 (if wide 0xFFFFFFFF#32 < prod then wide 0xFFFFFFFF#32 else prod)
/-- `DIR_BLOCK_UNUSED_SPACE`, dir.c:46-47. -/
def dirUnused : U32 := bs c - ds c * dpb c

/-! ### Reading and writing -/

/-- `x & (REDCONF_BLOCK_SIZE - 1U)` for a 64-bit `x`. -/
def inBlock (x : U64) : U64 := x &&& wide (bs c - 1)
/-- `(uint32_t)(x >> BLOCK_SIZE_P2)` for a 64-bit `x`. -/
def blockOf (x : U64) : U32 := lo32 (x >>> p2 c)

/-- `ReadUnaligned`, inodedata.c:1169-1208. -/
def readUnaligned (start : U64) (len : U32) : DM (List Byte) := do
  if start >>> p2 c ≠ (start + wide len - 1) >>> p2 c then fail .einval
  else do
    if ← seekAndRead c (blockOf c start).toNat then do
      let s ← get
      pure ((List.range len.toNat).map fun k => (s.v.blk (s.ci.pData.getD 0)).bytes ((inBlock c start).toNat + k))
    else pure (List.replicate len.toNat 0)

/-- `RedInodeDataRead`, inodedata.c:103-193.  `ReadAligned` is called with the words; its loop is
that of the model with natural numbers (every sum it computes is at most `ulBlockStart +
ulBlockCount`, which `C61_whole_blocks` bounds). -/
def dataRead (start : U64) (len : U32) : DM (List Byte) := do
  let s ← get
  let size : U64 := BitVec.ofNat 64 s.ci.node.size
  if s.ci.nodeBuf = none then fail .einval
  else if size ≤ start then pure []
  else if len = 0 then pure []
  else do
    let len := if size - start < wide len then lo32 (size - start) else len
    let idx : U32 := 0
    let rem := len
    let unaligned := inBlock c start ≠ 0
    let this := if unaligned then redmin rem (bs c - lo32 (inBlock c start)) else 0
    let l1 ← onlyIf unaligned (readUnaligned c start this) []
    let idx := idx + this
    let rem := rem - this
    let whole := bs c ≤ rem
    let count := if whole then rem >>> p2 c else 0
    let l2 ← onlyIf whole (readAligned c (blockOf c (start + wide idx)).toNat count.toNat count.toNat 0) []
    let idx := idx + (count <<< p2 c)
    let rem := rem - (count <<< p2 c)
    let l3 ← onlyIf (rem > 0) (readUnaligned c (start + wide idx) rem) []
    pure (l1 ++ l2 ++ l3)

/-- `ExpandPrepare`, inodedata.c:835-874. -/
def expandPrepare : DM Unit := do
  let s ← get
  if s.ci.nodeBuf = none ∨ s.ci.dirty = false then fail .einval
  else do
    let size : U64 := BitVec.ofNat 64 s.ci.node.size
    let pos := lo32 (inBlock c size)
    if pos ≠ 0 then do
      if ← seekData c (blockOf c size).toNat then do
        branchBlock c 2 true
        pokeData pos.toNat (bs c - pos).toNat fun _ => 0
      else pure ()
    else pure ()

/-- `WriteUnaligned`, inodedata.c:1305-1337. -/
def writeUnaligned (start : U64) (len : U32) (f : Nat → Byte) : DM Unit := do
  if start >>> p2 c ≠ (start + wide len - 1) >>> p2 c then fail .einval
  else do
    let _ ← seekData c (blockOf c start).toNat
    branchBlock c 2 true
    pokeData (inBlock c start).toNat len.toNat f

/-- Whole blocks, inodedata.c:281-307.  `WriteAligned` returns a number of blocks, `uint32_t`. -/
def writeMiddle (start : U64) (idx rem : U32) (f : Nat → Byte) : DM (U32 × U32) := do
  let count := rem >>> p2 c
  match ← attempt (writeAligned c (blockOf c (start + wide idx)).toNat count.toNat fun k => f (idx.toNat + k)) with
  | .ok w =>
    let written : U32 := BitVec.ofNat 32 w
    let rem := rem - (written <<< p2 c)
    pure (idx + (written <<< p2 c), if written < count then 0 else rem)
  | .error .enospc => if idx > 0 then pure (idx, 0) else fail .enospc
  | .error e => fail e

/-- Partial block at the end, inodedata.c:311-334. -/
def writeTail (start : U64) (idx rem : U32) (f : Nat → Byte) : DM U32 := do
  match ← attempt (writeUnaligned c (start + wide idx) rem fun k => f (idx.toNat + k)) with
  | .ok () => pure (idx + rem)
  | .error .enospc => pure idx
  | .error e => fail e

/-- `RedInodeDataWrite`, inodedata.c:219-348. -/
def dataWrite (start : U64) (len : U32) (f : Nat → Byte) : DM U32 := do
  let s ← get
  if s.ci.nodeBuf = none ∨ s.ci.dirty = false then fail .einval
  else if sizeMax c < start ∨ (start = sizeMax c ∧ len > 0) then fail .efbig
  else if len = 0 then pure 0
  else do
    let len := if sizeMax c - start < wide len then lo32 (sizeMax c - start) else len
    let idx : U32 := 0
    let rem := len
    onlyIf (BitVec.ofNat 64 s.ci.node.size < start) (expandPrepare c) ()
    let partialBlk := inBlock c start ≠ 0 ∨ rem < bs c
    let this := if partialBlk then redmin rem (bs c - lo32 (inBlock c start)) else 0
    onlyIf partialBlk (writeUnaligned c start this f) ()
    let idx := idx + this
    let rem := rem - this
    let r ← onlyIf (bs c ≤ rem) (writeMiddle c start idx rem f) (idx, rem)
    let done ← onlyIf (r.2 > 0) (writeTail c start r.1 r.2 f) r.1
    let s ← get
    onlyIf (BitVec.ofNat 64 s.ci.node.size < start + wide done)
      (setNode fun n => { n with size := (start + wide done).toNat }) ()
    pure done

/-! ### Coordinates -/

/-- Coordinates computed by `SeekCoord`: `uInodeEntry`, `uDindirEntry`, `uIndirEntry`; `none` stands for
`COORD_ENTRY_INVALID`, which is `UINT16_MAX` (inodedata.c:38, 1036-1041, 1074-1077, 1126-1127). -/
structure Coord where
  inodeEntry : U16
  dindirEntry : U16
  indirEntry : U16
deriving DecidableEq

/-- `COORD_ENTRY_INVALID`, inodedata.c:38. -/
def coordInvalid : U16 := 0xFFFF#16

/-- The arithmetic of `SeekCoord`, inodedata.c:1020-1127. -/
def seekCoord (b : U32) : Coord :=
  if b < direct c then ⟨lo16 b, coordInvalid, coordInvalid⟩
  else if b < indirBlocks c + direct c then
    let off := b - direct c
    ⟨lo16 (off / indirEntries c + direct c), coordInvalid, lo16 (off % indirEntries c)⟩
  else
    let off := b - direct c - indirBlocks c
    let nodeOff := off % dindirData c
    ⟨lo16 (off / dindirData c + direct c + indirect c), lo16 (nodeOff / indirEntries c), lo16 (nodeOff % indirEntries c)⟩

/-! ### Truncating -/

/-- `ulTruncBlock` at the beginning of `Shrink`, inodedata.c:437. -/
def truncBlock (size : U64) : U32 := lo32 ((size + wide (bs c) - 1) >>> p2 c)
/-- `ulTruncBlock` after an indirect node, inodedata.c:476. -/
def truncNextIndir (t : U32) (indirEntry : U16) : U32 := t + (indirEntries c - up indirEntry)
/-- `ulTruncBlock` after a double indirect node, inodedata.c:513-523. -/
def truncNextDindir (t : U32) (dindirEntry indirEntry : U16) : U32 :=
  let n := dindirData c - up dindirEntry * indirEntries c - up indirEntry
  t + redmin n (dataBlocks c - t)
/-- `uIndirEntries` of `TruncIndir`, inodedata.c:725-726. -/
def truncIndirMax (logical : U32) (indirEntry : U16) : U16 :=
  lo16 (redmin (indirEntries c) (dataBlocks c - (logical - up indirEntry)))
/-- `uDindirEntries` of `TruncDindir`, inodedata.c:599-607. -/
def truncDindirMax (logical : U32) (dindirEntry indirEntry : U16) : U16 :=
  let off := up indirEntry + up dindirEntry * indirEntries c
  let till := dataBlocks c - (logical - off)
  lo16 (redmin (indirEntries c) (till / indirEntries c + (if till % indirEntries c ≠ 0 then 1 else 0)))

/-! ### Directories -/

/-- `DirEntryIndexToOffset`, dir.c:959-972. -/
def idxOff (k : U32) : U64 :=
  let block := k / dpb c
  let inBlk := k % dpb c
  (wide block <<< p2 c) + wide inBlk * wide (ds c)
/-- `DirOffsetToEntryIndex`, dir.c:982-996. -/
def offIdx (off : U64) : U32 :=
  lo32 (off >>> p2 c) * dpb c + lo32 (inBlock c off) / ds c
/-- The new size in `RedDirEntryDelete`, dir.c:271-284. -/
def trimSize (k : U32) : U64 :=
  let n := idxOff c k
  if dirUnused c > 0 ∧ wide (bs c) ≤ n ∧ inBlock c n = 0 then n - wide (dirUnused c) else n

/-! ### Places on the volume -/

/-- `InodeBlock`, inode.c:1136-1144. -/
def inodeBlock (tableStart ino : U32) (w : Bool) : U32 := tableStart + (ino - 2) * 2 + (if w then 1 else 0)
/-- `RedImapNodeBlock`, imapextern.c:427-454. -/
def imapNodeBlock (imapStart node : U32) (second : Bool) : U32 :=
  let b := imapStart + node * 2
  if second then b + 1 else b
/-- Imap node and bit of a block, imapextern.c:77-79 and 143-146. -/
def imapPlace (tableStart b : U32) : U32 × U32 :=
  let off := b - tableStart
  (off / imapEntries c, off % imapEntries c)

end RedFs.Words
