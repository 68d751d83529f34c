import Verif.Model.Volume
/-!
Inodes: core/driver/inode.c.

`Cinode` models `CINODE` (core/include/redcore.h:142-182).  A buffer pointer is modelled
by the number of the block that the buffer holds (`none` for NULL).  `node` is the
contents of the inode buffer.  The buffer of an inode that is not dirty may be changed
only by `InodeDelete` (which discards it afterwards); such changes are kept in `node`
and not in the block.

Not modelled: time stamps, NULL checks, the `REDCONF_API_FSE` check of `RedInodeMount`.
-/
namespace RedFs
open M Bitmap

structure Cinode where
  ino : Nat
  /-- `fDirectory` -/
  dir : Bool
  /-- `fBranched` -/
  branched : Bool
  /-- `fDirty` -/
  dirty : Bool
  /-- `fCoordInited` -/
  inited : Bool
  /-- `pInodeBuf` -/
  nodeBuf : Option Nat
  /-- `*pInodeBuf` -/
  node : InodeNode
  pDindir : Option Nat
  pIndir : Option Nat
  pData : Option Nat
  /-- `ulLogicalBlock` -/
  logical : Nat
  dindirBlk : Nat
  indirBlk : Nat
  dataBlk : Nat
  inodeEntry : Nat
  /-- `none` is `COORD_ENTRY_INVALID` -/
  dindirEntry : Option Nat
  indirEntry : Option Nat

/-- A zeroed inode node. -/
def InodeNode.zero : InodeNode := ⟨0, 0, 0, 0, 0, fun _ => 0⟩

/-- `RedMemSet(pInode, 0, sizeof(*pInode)); pInode->ulInode = ino;` -/
def Cinode.init (ino : Nat) : Cinode :=
  ⟨ino, false, false, false, false, none, .zero, none, none, none, 0, 0, 0, 0, 0, some 0, some 0⟩

/-- `FTYPE`, redcore.h. -/
inductive FType | file | dir | either
deriving DecidableEq

/-- `RED_S_ISDIR`, `RED_S_ISREG`: include/redstat.h. -/
def isDirMode (m : Nat) : Bool := decide (m / 0x4000 % 2 = 1)
def isRegMode (m : Nat) : Bool := decide (m / 0x8000 % 2 = 1)
def modeDir : Nat := 0x4000
def modeReg : Nat := 0x8000

variable (c : Conf)

/-- `InodeBlock`, inode.c:1129-1137. -/
def slotBlk (ino : Nat) (w : Bool) : Nat := c.tableStart + (ino - 2) * 2 + (if w then 1 else 0)

/-- `RedInodeBitGet`, inode.c:1063-1082. -/
def inodeBitGet (bMR : Bool) (ino : Nat) (w : Bool) : VM Bool :=
  if c.inodeValid ino then imapBlockGet c bMR (slotBlk c ino w) else fail .einval

/-- `InodeBitSet`, inode.c:1100-1118. -/
def inodeBitSet (ino : Nat) (w : Bool) (alloc : Bool) : VM Unit :=
  if c.inodeValid ino then imapBlockSet c (slotBlk c ino w) alloc else fail .einval

/-- `InodeGetCurrentCopy`, inode.c:992-1041. -/
def inodeCurrentCopy (ino : Nat) : VM Bool := do
  let v ← get
  if ← inodeBitGet c v.cur ino false then pure false
  else if ← inodeBitGet c v.cur ino true then pure true
  else fail .ebadf

/-- `InodeGetWriteableCopy`, inode.c:922-974. -/
def inodeWriteableCopy (ino : Nat) : VM Bool := do
  let v ← get
  if !(← inodeBitGet c (!v.cur) ino false) then pure false
  else if !(← inodeBitGet c (!v.cur) ino true) then pure true
  else critical .efubar

/-- `RedInodeIsFree`, inode.c:873-904. -/
def inodeIsFree (ino : Nat) : VM Bool := do
  let v ← get
  if ← inodeBitGet c v.cur ino false then pure false
  else pure (!(← inodeBitGet c v.cur ino true))

/-- The search loop of `InodeFindFree`, inode.c:823-833: `n` inodes left, from `ino` on. -/
def inodeFindLoop : Nat → Nat → VM (Option Nat)
  | 0, _ => pure none
  | n + 1, ino => do
    if ← inodeIsFree c ino then pure (some ino) else inodeFindLoop n (ino + 1)

/-- `InodeFindFree`, inode.c:803-852. -/
def inodeFindFree : VM Nat := do
  let v ← get
  if v.work.freeInodes = 0 then fail .enfile
  else
    match ← inodeFindLoop c (2 + c.inodeCount - c.firstFreeInode) c.firstFreeInode with
    | some i => pure i
    | none => critical .enfile

/-- `InodeIsBranched`, inode.c:679-722. -/
def inodeIsBranched (ino : Nat) : VM Bool := do
  if c.inodeValid ino then do
    let s0 ← imapBlockState c (slotBlk c ino false)
    if s0 = .new then pure true
    else do
      let s1 ← imapBlockState c (slotBlk c ino true)
      pure (decide (s1 = .new))
  else fail .einval

/-- `RedBufferGet(block, BFLAG_META_INODE, ...)`. -/
def getInodeBuf (b : Nat) : VM InodeNode := fun v =>
  match v.blk b with
  | .inode n => (.ok n, v)
  | _ => (.error .eio, v)

/-- `RedInodeBranch`, inode.c:740-787 (the inode is mounted). -/
def inodeBranch (ci : Cinode) : VM Cinode := do
  match ci.nodeBuf with
  | none => fail .einval
  | some nb =>
    if !c.inodeValid ci.ino then fail .einval
    else if ci.branched then do
      modify (·.write nb (.inode ci.node))
      pure { ci with dirty := true }
    else criticalAssert do
      let w ← inodeWriteableCopy c ci.ino
      let dst := slotBlk c ci.ino w
      modify (·.branchBuf nb dst)
      inodeBitSet c ci.ino (!w) false
      inodeBitSet c ci.ino w true
      pure { ci with branched := true, dirty := true, nodeBuf := some dst }

/-- `RedInodeMount`, inode.c:79-177. -/
def inodeMount (ino : Nat) (type : FType) (branch : Bool) : VM Cinode := do
  if !c.inodeValid ino then fail .ebadf
  else do
    let w ← inodeCurrentCopy c ino
    let b := slotBlk c ino w
    let n ← getInodeBuf b
    let br ← inodeIsBranched c ino
    let ci := { Cinode.init ino with nodeBuf := some b, node := n, branched := br }
    let ci ←
      if isRegMode n.mode then
        if type = .dir then fail .enotdir else pure ci
      else if isDirMode n.mode then
        if type = .file then fail .eisdir else pure { ci with dir := true }
      else critical .efubar
    if branch then inodeBranch c ci else pure ci

/-- `RedInodeCreate`, inode.c:201-323 (`ino = 0` is `INODE_INVALID`: find a free one). -/
def inodeCreate (ino0 pino mode : Nat) : VM Cinode := do
  if c.posix && !(c.inodeValid pino || (decide (pino = 0) && decide (ino0 = 2))) then fail .einval
  else do
    let ino ←
      if c.posix && decide (ino0 = 0) then inodeFindFree c
      else if c.inodeValid ino0 then do
        if ← inodeIsFree c ino0 then pure ino0 else fail .eexist
      else fail .ebadf
    let w ← inodeWriteableCopy c ino
    let b := slotBlk c ino w
    -- RedBufferGet(b, BFLAG_META_INODE | BFLAG_DIRTY | BFLAG_NEW): a zeroed dirty buffer
    modify (·.write b (.inode .zero))
    inodeBitSet c ino w true
    let n : InodeNode := { InodeNode.zero with mode := mode, nlink := 1, pinode := pino }
    modify (·.write b (.inode n))
    modify fun v => v.setWork { v.work with freeInodes := v.work.freeInodes - 1 }
    pure { Cinode.init ino with nodeBuf := some b, node := n, dir := isDirMode mode,
                                branched := true, dirty := true }

/-- `RedInodeFree`, inode.c:419-498. -/
def inodeFree (ci : Cinode) : VM Unit := do
  match ci.nodeBuf with
  | none => fail .einval
  | some nb =>
    if !c.inodeValid ci.ino then fail .einval
    else do
      modify (·.discard nb)
      let v ← get
      let s0 ← inodeBitGet c v.cur ci.ino false
      let s1 ← inodeBitGet c v.cur ci.ino true
      if s0 then
        if s1 then critical .efubar else inodeBitSet c ci.ino false false
      else
        if !s1 then critical .ebadf else inodeBitSet c ci.ino true false
      let v ← get
      if c.inodeCount ≤ v.work.freeInodes then critical .efubar
      else modify fun v => v.setWork { v.work with freeInodes := v.work.freeInodes + 1 }

end RedFs
