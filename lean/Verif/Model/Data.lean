import Verif.Model.Inode
/-!
File data: core/driver/inodedata.c.

The functions work on a `CINODE` and the volume, `DS`.  A buffer pointer held in the
`CINODE` is the number of the block that the buffer holds.  Contents are reached through
the volume: `pInode->pIndir->aulEntries[k]` is `(v.blk x).ptrs k` for `pIndir = some x`.

`#if` sections: the model is written for all values of `REDCONF_DIRECT_POINTERS`,
`REDCONF_INDIRECT_POINTERS` and `DINDIR_POINTERS`; an `if` whose condition is statically
false stands for a section that is compiled out.

Not modelled: NULL checks, `REDASSERT`s, the conversions to `uint16_t` and `uint32_t`
(entry numbers are below `2^14`, block numbers and byte counts below `2^32`; see DESIGN.md),
device errors.  The number of block of a multi-block transfer is unbounded.
-/
namespace RedFs
open M Bitmap

structure DS where
  ci : Cinode
  v : Vol

abbrev DM := M DS

/-- Run an operation on the volume. -/
def liftV {α : Type} (m : VM α) : DM α := fun s =>
  match m s.v with
  | (r, v') => (r, { s with v := v' })

/-- Change the `CINODE`. -/
def setCi (f : Cinode → Cinode) : DM Unit := modify fun s => { s with ci := f s.ci }

/-- Store to `*pInode->pInodeBuf`. -/
def DS.setNode (s : DS) (n : InodeNode) : DS :=
  { ci := { s.ci with node := n }
    v := match s.ci.nodeBuf with
      | some nb => if s.ci.dirty then s.v.write nb (.inode n) else s.v
      | none => s.v }
def setNode (f : InodeNode → InodeNode) : DM Unit := modify fun s => s.setNode (f s.ci.node)

/-- Update of one entry of a pointer array. -/
def upd (es : Nat → Nat) (k q : Nat) : Nat → Nat := fun i => if i = k then q else es i
def Blk.setPtr : Blk → Nat → Nat → Blk
  | .indir o es, k, q => .indir o (upd es k q)
  | .dindir o es, k, q => .dindir o (upd es k q)
  | x, _, _ => x
def Blk.setOwner : Blk → Nat → Blk
  | .indir _ es, o => .indir o es
  | .dindir _ es, o => .dindir o es
  | x, _ => x
def InodeNode.setEntry (n : InodeNode) (k q : Nat) : InodeNode := { n with entries := upd n.entries k q }

/-- Store to a pointer array or owner field through a buffer that is dirty. -/
def setPtr (x k q : Nat) : VM Unit := modify fun v => v.write x ((v.blk x).setPtr k q)
def setOwner (x o : Nat) : VM Unit := modify fun v => v.write x ((v.blk x).setOwner o)

/-- The kinds of block reachable from an inode, with the flag passed to `RedBufferGet`. -/
inductive NKind | data | indir | dindir
deriving DecidableEq
/-- A zeroed buffer (`BFLAG_NEW`). -/
def NKind.blank : NKind → Blk
  | .data => .data fun _ => 0
  | .indir => .indir 0 fun _ => 0
  | .dindir => .dindir 0 fun _ => 0
/-- Does a block pass validation as this kind?  File data is not validated. -/
def NKind.valid : NKind → Blk → Bool
  | .data, _ => true
  | .indir, .indir _ _ => true
  | .dindir, .dindir _ _ => true
  | _, _ => false

/-- `RedBufferGet(b, flag, ...)`. -/
def getBuf (k : NKind) (b : Nat) : VM Unit := fun v =>
  if k.valid (v.blk b) then (.ok (), v) else (.error .eio, v)

variable (c : Conf)

/-- The body of `SeekCoord`, inodedata.c:1020-1146. -/
def seekCi (ci : Cinode) (b : Nat) : Cinode :=
  if b < c.direct then
    { ci with pData := none, pIndir := none, pDindir := none, logical := b, inodeEntry := b,
              dataBlk := ci.node.entries b, dindirEntry := none, indirEntry := none, inited := true }
  else if b < c.indirBlocks + c.direct then
    let off := b - c.direct
    let e := off / c.indirEntries + c.direct
    let ci1 := { ci with pData := none, logical := b, pDindir := none }
    let ci2 := if ci.inodeEntry ≠ e ∨ ci.inited = false then
        { ci1 with pIndir := none, inodeEntry := e, indirBlk := ci.node.entries e }
      else ci1
    { ci2 with dindirEntry := none, indirEntry := some (off % c.indirEntries), inited := true }
  else
    let off := b - c.direct - c.indirBlocks
    let e := off / c.dindirData + c.direct + c.indirect
    let d := off % c.dindirData / c.indirEntries
    let ci1 := { ci with pData := none, logical := b }
    let ci2 := if ci.inodeEntry ≠ e ∨ ci.inited = false then
        { ci1 with pIndir := none, pDindir := none, inodeEntry := e, dindirBlk := ci.node.entries e }
      else if ci.dindirEntry ≠ some d then { ci1 with pIndir := none }
      else ci1
    { ci2 with dindirEntry := some d, indirEntry := some (off % c.dindirData % c.indirEntries), inited := true }

/-- `SeekCoord`, inodedata.c:1010-1153. -/
def seekCoord (b : Nat) : DM Unit := do
  let s ← get
  if s.ci.nodeBuf = none ∨ c.dataBlocks ≤ b then pure ()
  else if s.ci.logical ≠ b ∨ s.ci.inited = false then setCi (seekCi c · b)
  else pure ()

/-- inodedata.c:944-966. -/
def seekDindir : DM Unit := do
  let s ← get
  match s.ci.dindirEntry with
  | none => pure ()
  | some d =>
    if s.ci.dindirBlk = 0 then setCi fun ci => { ci with indirBlk := 0 }
    else
      match s.ci.pDindir with
      | some x => setCi fun ci => { ci with indirBlk := (s.v.blk x).ptrs d }
      | none => do
        liftV (getBuf .dindir s.ci.dindirBlk)
        setCi fun ci => { ci with pDindir := some s.ci.dindirBlk, indirBlk := (s.v.blk s.ci.dindirBlk).ptrs d }

/-- inodedata.c:968-990. -/
def seekIndir : DM Unit := do
  let s ← get
  match s.ci.indirEntry with
  | none => pure ()
  | some k =>
    if s.ci.indirBlk = 0 then setCi fun ci => { ci with dataBlk := 0 }
    else
      match s.ci.pIndir with
      | some x => setCi fun ci => { ci with dataBlk := (s.v.blk x).ptrs k }
      | none => do
        liftV (getBuf .indir s.ci.indirBlk)
        setCi fun ci => { ci with pIndir := some s.ci.indirBlk, dataBlk := (s.v.blk s.ci.indirBlk).ptrs k }

/-- `SeekInode`, inodedata.c:930-999.  Fails with ENODATA for a sparse block; the coordinates are
set then, too. -/
def seekInode (b : Nat) : DM Unit := do
  let s ← get
  if s.ci.nodeBuf = none ∨ c.dataBlocks ≤ b then fail .einval
  else do
    seekCoord c b
    seekDindir
    seekIndir
    let s ← get
    if s.ci.dataBlk = 0 then fail .enodata else pure ()

/-- `if((ret == 0) || (ret == -RED_ENODATA))` after `SeekInode`; returns whether there is data. -/
def seekData (b : Nat) : DM Bool := do
  match ← attempt (seekInode c b) with
  | .ok () => pure true
  | .error .enodata => pure false
  | .error e => fail e

/-- `RedInodeDataSeekAndRead`, inodedata.c:893-909.  Returns whether there is data (`false` is
ENODATA). -/
def seekAndRead (b : Nat) : DM Bool := do
  if ← seekData c b then do
    setCi fun ci => { ci with pData := some (ci.pData.getD ci.dataBlk) }
    pure true
  else pure false

/-! ### Branching -/

/-- `FreeBlockCount`, inodedata.c:1958-1977. -/
def freeBlockCount (v : Vol) : Nat :=
  if v.useReserved then v.work.freeBlocks else v.work.freeBlocks - c.reserved

/-- Part of the cost of a block: 0 if it is sparse-free of charge (`NEW`), 1 otherwise. -/
def isNew (b : Nat) : VM Bool := do
  if b = 0 then pure false else pure (decide ((← imapBlockState c b) = .new))

/-- `BranchBlockCost`, inodedata.c:1834-1948.  `depth` is 0 for `BRANCHDEPTH_DINDIR`, 1 for
`BRANCHDEPTH_INDIR`, 2 for `BRANCHDEPTH_FILE_DATA`. -/
def branchCost (ci : Cinode) (depth : Nat) : VM Nat := do
  if ci.nodeBuf = none ∨ ci.inited = false then fail .einval
  else do
    let cost := if c.dindirPtrs > 0 then 3 else if c.direct < c.inodeEntries then 2 else 1
    let cost ← if c.dindirPtrs > 0 then
        match ci.dindirEntry with
        | some _ => do if ← isNew c ci.dindirBlk then pure (cost - 1) else pure cost
        | none => pure (cost - 1)
      else pure cost
    let cost ← if c.direct < c.inodeEntries then
        if ci.indirEntry ≠ none ∧ 1 ≤ depth then do
          if ← isNew c ci.indirBlk then pure (cost - 1) else pure cost
        else pure (cost - 1)
      else pure cost
    if depth = 2 then do
      if ← isNew c ci.dataBlk then pure (cost - 1) else pure cost
    else pure (cost - 1)

/-- `BranchOneBlock`, inodedata.c:1711-1813.  `prev` is `*pulBlock`; `buf` is `none` if
`ppBuffer` is NULL and `some *ppBuffer` otherwise.  Returns the new `*pulBlock` and
`*ppBuffer`. -/
def branchOne (prev : Nat) (buf : Option (Option Nat)) (kind : NKind) : VM (Nat × Option Nat) := do
  let state ← if prev = 0 then pure AllocState.free else imapBlockState c prev
  if state = .new then
    match buf with
    | none => pure (prev, none)
    | some (some x) => do
      modify (·.markDirty x)
      pure (prev, some x)
    | some none => do
      getBuf kind prev
      modify (·.markDirty prev)
      pure (prev, some prev)
  else do
    let b ← imapAllocBlock c
    if prev = 0 then
      match buf with
      | none => pure (b, none)
      | some (some _) => fail .einval
      | some none => do
        modify (·.write b kind.blank)
        pure (b, some b)
    else do
      let buf' ← match buf with
        | none => pure none
        | some (some x) => do
          modify (·.branchBuf x b)
          pure (some b)
        | some none => do
          getBuf kind prev
          modify (·.branchBuf prev b)
          pure (some b)
      imapBlockSet c prev false
      pure (b, buf')

/-- inodedata.c:1591-1604. -/
def branchDindir : DM Unit := do
  let s ← get
  match s.ci.dindirEntry with
  | none => pure ()
  | some _ => do
    let (b, p) ← liftV (branchOne c s.ci.dindirBlk (some s.ci.pDindir) .dindir)
    setCi fun ci => { ci with dindirBlk := b, pDindir := p }
    liftV (setOwner b s.ci.ino)
    setNode (·.setEntry s.ci.inodeEntry b)

/-- inodedata.c:1606-1632. -/
def branchIndir (depth : Nat) : DM Unit := do
  let s ← get
  if s.ci.indirEntry ≠ none ∧ 1 ≤ depth then do
    let (b, p) ← liftV (branchOne c s.ci.indirBlk (some s.ci.pIndir) .indir)
    setCi fun ci => { ci with indirBlk := b, pIndir := p }
    liftV (setOwner b s.ci.ino)
    match s.ci.dindirEntry with
    | some d => liftV (setPtr s.ci.dindirBlk d b)
    | none => setNode (·.setEntry s.ci.inodeEntry b)
  else pure ()

/-- inodedata.c:1634-1675. -/
def branchData (depth : Nat) (fBuffer : Bool) : DM Unit := do
  let s ← get
  if depth = 2 then do
    let (b, p) ← liftV (branchOne c s.ci.dataBlk
      (if fBuffer || s.ci.pData.isSome then some s.ci.pData else none) .data)
    setCi fun ci => { ci with dataBlk := b, pData := p }
    match s.ci.indirEntry with
    | some k => liftV (setPtr s.ci.indirBlk k b)
    | none => setNode (·.setEntry s.ci.inodeEntry b)
    if c.inodeBlocks ∧ s.ci.dataBlk = 0 then do
      let s ← get
      if s.ci.node.blocks < c.dataBlocks then setNode fun n => { n with blocks := n.blocks + 1 }
      else liftV (critical .efubar)
    else pure ()
  else pure ()

/-- `CRITICAL_ASSERT(ret == 0)`. -/
def criticalAssertD {α : Type} (m : DM α) : DM α := do
  match ← attempt m with
  | .ok a => pure a
  | .error e => liftV (critical e)

/-- `BranchBlock`, inodedata.c:1574-1681. -/
def branchBlock (depth : Nat) (fBuffer : Bool) : DM Unit := do
  let s ← get
  let cost ← liftV (branchCost c s.ci depth)
  let s ← get
  if freeBlockCount c s.v < cost then fail .enospc
  else criticalAssertD do
    branchDindir c
    branchIndir c depth
    branchData c depth fBuffer

/-! ### Reading -/

/-- `ReadUnaligned`, inodedata.c:1169-1208. -/
def readUnaligned (start len : Nat) : DM (List Byte) := do
  if start / c.blockSize ≠ (start + len - 1) / c.blockSize then fail .einval
  else do
    if ← seekAndRead c (start / c.blockSize) then do
      let s ← get
      pure ((List.range len).map fun k => (s.v.blk (s.ci.pData.getD 0)).bytes (start % c.blockSize + k))
    else pure (List.replicate len 0)

/-- The loop of `GetExtent`, inodedata.c:1530-1544: `n` is the number of blocks still allowed. -/
def extentLoop (start first : Nat) : Nat → Nat → DM Nat
  | 0, run => pure run
  | n + 1, run => do
    if ← seekData c (start + run) then do
      let s ← get
      if s.ci.dataBlk ≠ first + run then pure run
      else extentLoop start first n (run + 1)
    else pure run

/-- `GetExtent`, inodedata.c:1507-1555.  Returns start and length of the extent, `none` for
ENODATA. -/
def getExtent (start len : Nat) : DM (Option (Nat × Nat)) := do
  if ← seekData c start then do
    let s ← get
    let run ← extentLoop c start s.ci.dataBlk (len - 1) 1
    pure (some (s.ci.dataBlk, run))
  else pure none

/-- `RedIoRead` of `n` blocks from `b`, after `RedBufferFlushRange` has brought the device up to date. -/
def readBlocks (v : Vol) (b n : Nat) : List Byte :=
  (List.range (n * c.blockSize)).map fun k => (v.blk (b + k / c.blockSize)).bytes (k % c.blockSize)

/-- `ReadAligned`, inodedata.c:1224-1286: `idx` blocks done so far out of `count`.  `fuel` bounds the
number of iterations; running out of it stands for an endless loop. -/
def readAligned (start count : Nat) : Nat → Nat → DM (List Byte)
  | 0, idx => if idx < count then fail .hang else pure []
  | fuel + 1, idx =>
    if idx < count then do
      match ← getExtent c (start + idx) (count - idx) with
      | some (b, n) => do
        let s ← get
        let l := readBlocks c s.v b n
        let rest ← readAligned start count fuel (idx + n)
        pure (l ++ rest)
      | none => do
        let rest ← readAligned start count fuel (idx + 1)
        pure (List.replicate c.blockSize 0 ++ rest)
    else pure []

/-- The three parts of a read: `first` unaligned leading bytes, `n` whole blocks, `rem` unaligned
trailing bytes; inodedata.c:139-182. -/
def readParts (start first n rem : Nat) : DM (List Byte) := do
  let l1 ← onlyIf (first ≠ 0) (readUnaligned c start first) []
  let l2 ← onlyIf (n ≠ 0) (readAligned c ((start + first) / c.blockSize) n n 0) []
  let l3 ← onlyIf (rem > 0) (readUnaligned c (start + first + n * c.blockSize) rem) []
  pure (l1 ++ l2 ++ l3)

/-- Number of unaligned leading bytes of a read, inodedata.c:139-148. -/
def readFirst (start len : Nat) : Nat :=
  if start % c.blockSize ≠ 0 then min len (c.blockSize - start % c.blockSize) else 0

/-- Number of whole blocks in `rem` bytes, inodedata.c:153-160. -/
def wholeBlocks (rem : Nat) : Nat := if c.blockSize ≤ rem then rem / c.blockSize else 0

/-- `RedInodeDataRead`, inodedata.c:103-193.  Returns the `*pulLen` bytes stored in the buffer. -/
def dataRead (start len : Nat) : DM (List Byte) := do
  let s ← get
  if s.ci.nodeBuf = none then fail .einval
  else if s.ci.node.size ≤ start then pure []
  else if len = 0 then pure []
  else
    let len := if s.ci.node.size - start < len then s.ci.node.size - start else len
    let first := readFirst c start len
    let n := wholeBlocks c (len - first)
    readParts c start first n (len - first - n * c.blockSize)

/-! ### Writing -/

/-- Overwrite `len` bytes at `pos` with those of `f`. -/
def patch (old : Nat → Byte) (pos len : Nat) (f : Nat → Byte) : Nat → Byte := fun i =>
  if pos ≤ i ∧ i < pos + len then f (i - pos) else old i

/-- Store `len` bytes at offset `pos` of the (dirty) data buffer. -/
def pokeData (pos len : Nat) (f : Nat → Byte) : DM Unit := do
  let s ← get
  match s.ci.pData with
  | none => fail .einval
  | some x => liftV (modify fun v => v.write x (.data (patch (v.blk x).bytes pos len f)))

/-- `ExpandPrepare`, inodedata.c:835-874. -/
def expandPrepare : DM Unit := do
  let s ← get
  if s.ci.nodeBuf = none ∨ s.ci.dirty = false then fail .einval
  else do
    let pos := s.ci.node.size % c.blockSize
    if pos ≠ 0 then do
      if ← seekData c (s.ci.node.size / c.blockSize) then do
        branchBlock c 2 true
        pokeData pos (c.blockSize - pos) fun _ => 0
      else pure ()
    else pure ()

/-- `WriteUnaligned`, inodedata.c:1305-1337. -/
def writeUnaligned (start len : Nat) (f : Nat → Byte) : DM Unit := do
  if start / c.blockSize ≠ (start + len - 1) / c.blockSize then fail .einval
  else do
    let _ ← seekData c (start / c.blockSize)
    branchBlock c 2 true
    pokeData (start % c.blockSize) len f

/-- The inner `for` loop of `WriteAligned`, inodedata.c:1385-1435: collect an extent.  `n` is the
number of iterations left, `i` the loop variable, `next` is `ulNextDataBlock`, `es`, `el` the
extent.  Returns whether the loop was left with ENOSPC and the new `next`, `es`, `el`. -/
def collect (start : Nat) : Nat → (i next es el : Nat) → DM (Bool × Nat × Nat × Nat)
  | 0, _, next, es, el => pure (false, next, es, el)
  | n + 1, i, next, es, el => do
    let r ← onlyIf (next = 0) (do
      let _ ← seekData c (start + i)
      attempt (branchBlock c 2 false)) (.ok ())
    match r with
    | .ok () => do
      let s ← get
      if el = 0 then collect start n (i + 1) 0 s.ci.dataBlk 1
      else if s.ci.dataBlk = es + el then collect start n (i + 1) 0 es (el + 1)
      else pure (false, s.ci.dataBlk, es, el)
    | .error .enospc => pure (true, 0, es, el)
    | .error e => fail e

/-- `RedIoWrite` of `n` blocks from `b` with the bytes of `f`. -/
def writeBlocks (f : Nat → Byte) (b : Nat) : Nat → Vol → Vol
  | 0, v => v
  | n + 1, v => (writeBlocks f b n v).write (b + n) (.data fun k => f (n * c.blockSize + k))

/-- `RedIoWrite` and `RedBufferDiscardRange`, inodedata.c:1449-1457.  Discarding fails with a
critical error if the data buffer of the inode is in the range (finding 1); the contents of the
volume are then left as they were before the write. -/
def writeExtent (f : Nat → Byte) (b n : Nat) : DM Unit := do
  let s ← get
  match s.ci.pData with
  | some x =>
    if b ≤ x ∧ x < b + n then liftV (critical .ebusy)
    else liftV (modify (writeBlocks c f b n))
  | none => liftV (modify (writeBlocks c f b n))

/-- The outer loop of `WriteAligned`, inodedata.c:1376-1471: `idx` is `ulBlockIndex`, `next` is
`ulNextDataBlock`.  Returns the final `ulBlockIndex` and whether the loop ended with ENOSPC.
`fuel` bounds the number of iterations. -/
def writeLoop (start count : Nat) (f : Nat → Byte) : Nat → (idx next : Nat) → DM (Nat × Bool)
  | 0, idx, _ => if idx < count then fail .hang else pure (idx, false)
  | fuel + 1, idx, next =>
    if idx < count then do
      let (full, next', es, el) ← collect c start (count - idx) idx next 0 0
      if full ∧ el = 0 then pure (idx, true)
      else do
        writeExtent c (fun k => f (idx * c.blockSize + k)) es el
        if full then pure (idx + el, true)
        else writeLoop start count f fuel (idx + el) next'
    else pure (idx, false)

/-- `WriteAligned`, inodedata.c:1357-1485.  Returns the number of blocks written. -/
def writeAligned (start count : Nat) (f : Nat → Byte) : DM Nat := do
  let (idx, full) ← writeLoop c start count f count 0 0
  if full ∧ idx = 0 then fail .enospc else pure idx

/-- Whole blocks of `RedInodeDataWrite`, inodedata.c:281-307: `first` bytes done, `rem` to go.  Returns
the bytes done and to go afterwards. -/
def writeMiddle (start first rem : Nat) (f : Nat → Byte) : DM (Nat × Nat) := do
  match ← attempt (writeAligned c ((start + first) / c.blockSize) (rem / c.blockSize) fun k => f (first + k)) with
  | .ok w => pure (first + w * c.blockSize, if w < rem / c.blockSize then 0 else rem - w * c.blockSize)
  | .error .enospc => if 0 < first then pure (first, 0) else fail .enospc
  | .error e => fail e

/-- Partial block at the end of `RedInodeDataWrite`, inodedata.c:311-334. -/
def writeTail (start done rem : Nat) (f : Nat → Byte) : DM Nat := do
  match ← attempt (writeUnaligned c (start + done) rem fun k => f (done + k)) with
  | .ok () => pure (done + rem)
  | .error .enospc => pure done
  | .error e => fail e

/-- Number of bytes in the partial block at the beginning of a write, inodedata.c:265-269. -/
def writeFirst (start len : Nat) : Nat :=
  if start % c.blockSize ≠ 0 ∨ len < c.blockSize then min len (c.blockSize - start % c.blockSize) else 0

/-- The parts of a write of `first + rem` bytes, inodedata.c:260-343.  Returns the number of bytes
written. -/
def writeParts (start first rem : Nat) (f : Nat → Byte) : DM Nat := do
  let s ← get
  onlyIf (s.ci.node.size < start) (expandPrepare c) ()
  onlyIf (first ≠ 0) (writeUnaligned c start first f) ()
  let r ← onlyIf (c.blockSize ≤ rem) (writeMiddle c start first rem f) (first, rem)
  let done ← onlyIf (0 < r.2) (writeTail c start r.1 r.2 f) r.1
  let s ← get
  onlyIf (s.ci.node.size < start + done) (setNode fun n => { n with size := start + done }) ()
  pure done

/-- `RedInodeDataWrite`, inodedata.c:219-348.  Returns the number of bytes written. -/
def dataWrite (start len : Nat) (f : Nat → Byte) : DM Nat := do
  let s ← get
  if s.ci.nodeBuf = none ∨ s.ci.dirty = false then fail .einval
  else if c.sizeMax < start ∨ (start = c.sizeMax ∧ 0 < len) then fail .efbig
  else if len = 0 then pure 0
  else
    let len := if c.sizeMax - start < len then c.sizeMax - start else len
    writeParts c start (writeFirst c start len) (len - writeFirst c start len) f

/-! ### Truncating -/

/-- `TruncDataBlock`, inodedata.c:771-814, without the store of `BLOCK_SPARSE`, which the callers
do when `fPropagate` is set and the block is not sparse. -/
def truncData (q : Nat) : DM Unit := do
  if q = 0 then pure ()
  else do
    liftV (imapBlockSet c q false)
    if c.inodeBlocks then do
      let s ← get
      if s.ci.node.blocks = 0 then liftV (critical .efubar)
      else setNode fun n => { n with blocks := n.blocks - 1 }
    else pure ()

/-- The loop of `TruncIndir`, inodedata.c:728-736: `n` entries from `k` on of the indirect node held
in `x`. -/
def truncIndirLoop (x : Nat) (fBranch : Bool) : Nat → Nat → DM Unit
  | 0, _ => pure ()
  | n + 1, k => do
    let s ← get
    let q := (s.v.blk x).ptrs k
    truncData c q
    onlyIf (fBranch ∧ q ≠ 0) (liftV (setPtr x k 0)) ()
    truncIndirLoop x fBranch n (k + 1)

/-- Scan `for(uEntry = 0; !fBranch && (uEntry < n); uEntry++) fBranch = es[uEntry] != BLOCK_SPARSE`. -/
def anyEntry (es : Nat → Nat) (n : Nat) : Bool := (List.range n).any fun k => decide (es k ≠ 0)

/-- `TruncIndir`, inodedata.c:689-753.  Returns `*pfFreed`. -/
def truncIndir : DM Bool := do
  let s ← get
  match s.ci.pIndir, s.ci.indirEntry with
  | some x, some k => do
    let fBranch := anyEntry (s.v.blk x).ptrs k
    onlyIf fBranch (branchBlock c 1 false) ()
    let s ← get
    let n := min c.indirEntries (c.dataBlocks - (s.ci.logical - k))
    truncIndirLoop c (s.ci.pIndir.getD 0) fBranch (n - k) k
    if fBranch then pure false
    else do
      setCi fun ci => { ci with pIndir := none }
      let s ← get
      liftV (imapBlockSet c s.ci.indirBlk false)
      pure true
  | _, _ => pure false

/-- The loop of `TruncDindir`, inodedata.c:609-653: `n` entries from `d` on, `b` is `ulBlock`. -/
def truncDindirLoop (fBranch : Bool) : Nat → (d b : Nat) → DM Unit
  | 0, _, _ => pure ()
  | n + 1, d, b => do
    let _ ← seekData c b
    let s ← get
    onlyIf (s.ci.indirBlk ≠ 0) (do
      let freed ← truncIndir c
      onlyIf (fBranch ∧ freed) (do
        let s ← get
        liftV (setPtr (s.ci.pDindir.getD 0) d 0)) ()) ()
    let s ← get
    truncDindirLoop fBranch n (d + 1) (b + (c.indirEntries - s.ci.indirEntry.getD 0))

/-- `TruncDindir`, inodedata.c:549-670.  Returns `*pfFreed`. -/
def truncDindir : DM Bool := do
  let s ← get
  match s.ci.pDindir, s.ci.dindirEntry, s.ci.indirEntry with
  | some x, some d, some k => do
    let es := (s.v.blk x).ptrs
    let fBranch := anyEntry es d || (decide (es d ≠ 0) && anyEntry (s.v.blk (s.ci.pIndir.getD 0)).ptrs k)
    onlyIf fBranch (branchBlock c 0 false) ()
    let s ← get
    let b := s.ci.logical
    let till := c.dataBlocks - (b - (k + d * c.indirEntries))
    let max := till / c.indirEntries + (if till % c.indirEntries ≠ 0 then 1 else 0)
    truncDindirLoop c fBranch (min c.indirEntries max - d) d b
    if fBranch then pure false
    else do
      setCi fun ci => { ci with pDindir := none }
      let s ← get
      liftV (imapBlockSet c s.ci.dindirBlk false)
      pure true
  | _, _, _ => pure false

/-- `Shrink`, direct pointers, inodedata.c:441-453: `n` pointers from `t` on. -/
def shrinkDirect : Nat → Nat → DM Unit
  | 0, _ => pure ()
  | n + 1, t => do
    let s ← get
    let q := s.ci.node.entries t
    truncData c q
    onlyIf (q ≠ 0) (setNode (·.setEntry t 0)) ()
    shrinkDirect n (t + 1)

/-- `Shrink`, indirect pointers, inodedata.c:455-480.  Returns `ulTruncBlock`. -/
def shrinkIndir : Nat → Nat → DM Nat
  | 0, t => if t < c.direct + c.indirBlocks then fail .hang else pure t
  | fuel + 1, t =>
    if t < c.direct + c.indirBlocks then do
      let _ ← seekData c t
      let freed ← truncIndir c
      let s ← get
      onlyIf freed (setNode (·.setEntry s.ci.inodeEntry 0)) ()
      shrinkIndir fuel (t + (c.indirEntries - s.ci.indirEntry.getD 0))
    else pure t

/-- `Shrink`, double indirect pointers, inodedata.c:482-527. -/
def shrinkDindir : Nat → Nat → DM Unit
  | 0, t => if t < c.dataBlocks then fail .hang else pure ()
  | fuel + 1, t =>
    if t < c.dataBlocks then do
      let _ ← seekData c t
      let s ← get
      let freed ← truncDindir c
      onlyIf freed (setNode (·.setEntry s.ci.inodeEntry 0)) ()
      let n := c.dindirData - s.ci.dindirEntry.getD 0 * c.indirEntries - s.ci.indirEntry.getD 0
      shrinkDindir fuel (t + min n (c.dataBlocks - t))
    else pure ()

/-- `Shrink`, inodedata.c:421-531. -/
def shrink (size : Nat) : DM Unit := do
  let s ← get
  if s.ci.nodeBuf = none ∨ (0 < size ∧ s.ci.dirty = false) then fail .einval
  else do
    let t := (size + c.blockSize - 1) / c.blockSize
    setCi fun ci => { ci with pData := none }
    shrinkDirect c (c.direct - t) t
    let t ← shrinkIndir c c.dataBlocks (max t c.direct)
    if c.dindirPtrs > 0 then shrinkDindir c c.dataBlocks t else pure ()

/-- `RedInodeDataTruncate`, inodedata.c:365-406. -/
def dataTruncate (size : Nat) : DM Unit := do
  let s ← get
  if s.ci.nodeBuf = none then fail .einval
  else if c.sizeMax < size then fail .efbig
  else do
    onlyIf (s.ci.node.size < size) (expandPrepare c) ()
    onlyIf (size < s.ci.node.size) (shrink c size) ()
    setNode fun n => { n with size := size }

end RedFs
