import Verif.Model.Fault
/-!
The file system on a block device whose operations may fail: allocation and inodes.

`Model/Imap.lean`, `Inode.lean`, `Data.lean`, `Dir.lean`, `Link.lean`, `CoreFile.lean` and `CoreDir.lean`
model the code on a device that works.  The functions of this file, `Model/IoData.lean` and
`Model/IoDir.lean` have the same names (in the namespace `Io`) and are the same functions of the code, with
every operation in which the device is involved - `RedBufferGet` (which reads the block, and may have to
write back another buffer first), `RedBufferFlushRange`, `RedIoRead`, `RedIoWrite` - written as one that may
fail.  Which of them fail is arbitrary (`Dev`).  Whether a `RedBufferGet` accesses the device at all depends
on the buffer cache; here any of them may fail.

Functions that do not access the device are those of the other files, used through `liftI`.
-/
namespace RedFs.Io
open RedFs M Bitmap

/-- What the device will do. -/
structure Dev where
  /-- does the `n`-th operation fail? -/
  fails : Nat → Bool
  /-- what block `b` holds after the `n`-th operation, if that was a write of it that failed -/
  junk : Nat → Nat → Blk
  /-- what is in `aMR` after the `n`-th operation, if that was a read of a metaroot that failed -/
  junkMr : Nat → Bool → Metaroot
  /-- the outcome of the commit made to free space, and of the commit after the operation (`Model/Fault.lean`) -/
  full : Option Fault
  event : Option Fault

/-- The state `σ` of the driver, together with the device: the number of device operations done so far.  `bad` is a
ghost variable: has one of them failed? -/
structure IS (σ : Type) where
  st : σ
  dev : Dev
  n : Nat
  bad : Bool

abbrev IVM := M (IS Vol)
abbrev IDM := M (IS DS)

/-- Code that does not access the device. -/
def liftI {σ α : Type} (m : M σ α) : M (IS σ) α := fun s =>
  match m s.st with
  | (r, t) => (r, { s with st := t })

def get {σ : Type} : M (IS σ) σ := liftI M.get
def modify {σ : Type} (f : σ → σ) : M (IS σ) Unit := liftI (M.modify f)
def setCi (f : Cinode → Cinode) : IDM Unit := liftI (RedFs.setCi f)
def setNode (f : InodeNode → InodeNode) : IDM Unit := liftI (RedFs.setNode f)

/-- A device operation, after which the volume is `g n v` if it was the `n`-th and fails.  If it fails, `CRITICAL_ASSERT(ret == 0)` in
`RedIoRead`, `RedIoWrite` (core/driver/blockio.c:94 and 152) has made the volume read-only, and the error
is returned. -/
def ioOr (g : Dev → Nat → Vol → Vol) : IVM Unit := fun s =>
  if s.dev.fails s.n then (.error .eio, { s with st := { g s.dev s.n s.st with readOnly := true }, n := s.n + 1, bad := true })
  else (.ok (), { s with n := s.n + 1 })

/-- A read of the device (or a write of a buffer that is dirty anyway). -/
def io : IVM Unit := ioOr fun _ _ v => v

/-- Run an operation on the volume. -/
def liftV {α : Type} (m : IVM α) : IDM α := fun s =>
  match m ⟨s.st.v, s.dev, s.n, s.bad⟩ with
  | (r, t) => (r, ⟨{ s.st with v := t.st }, t.dev, t.n, t.bad⟩)

/-- `CRITICAL_ERROR()`. -/
def critical {α : Type} (e : Err) : IVM α := liftI (RedFs.critical e)

/-- `CRITICAL_ASSERT(ret == 0)`. -/
def criticalAssert {α : Type} (m : IVM α) : IVM α := do
  match ← attempt m with
  | .ok a => pure a
  | .error e => critical e

def criticalAssertD {α : Type} (m : IDM α) : IDM α := do
  match ← attempt m with
  | .ok a => pure a
  | .error e => liftV (critical e)

variable (c : Conf)

/-! ### imap.c, imapextern.c -/

/-- `RedBufferGet(block, BFLAG_META_IMAP, ...)`. -/
def getImap (b : Nat) : IVM Mem8 := do
  io
  liftI (RedFs.getImap b)

/-- `RedImapEBlockGet`, imapextern.c:61-109. -/
def imapEGet (bMR : Bool) (b : Nat) : IVM Bool := do
  let v ← get
  let off := b - c.tableStart
  let k := off / c.imapEntries
  let toRead := if bMR = !v.cur ∧ nodeIsBranched v k = false then !bMR else bMR
  let bits ← getImap (nodeBlk c (v.mr toRead) k)
  pure (bitGet bits (off % c.imapEntries))

/-- `RedImapBlockGet`, imap.c:53-87. -/
def imapBlockGet (bMR : Bool) (b : Nat) : IVM Bool :=
  if b < c.tableStart ∨ c.blockCount ≤ b then fail .einval
  else if c.inline then liftI (imapIGet c bMR b) else imapEGet c bMR b

/-- `ImapNodeBranch`, imapextern.c:335-389. -/
def imapNodeBranch (k : Nat) : IVM Nat := do
  let v ← get
  if c.nodeCount ≤ k then fail .einval
  else if nodeIsBranched v k then do
    let b := nodeBlk c v.work k
    let _ ← getImap b
    modify (·.markDirty b)
    pure b
  else do
    let e := v.work.entries
    modify fun v => v.setWork { v.work with entries := if bitGet e k then bitClear e k else bitSet e k }
    let v ← get
    let cur := nodeBlk c v.work k
    let old := nodeBlk c v.comm k
    modify (·.discard cur)
    let _ ← getImap old
    modify (·.branchBuf old cur)
    pure cur

/-- `RedImapEBlockSet`, imapextern.c:124-173. -/
def imapESet (b : Nat) (alloc : Bool) : IVM Unit := do
  let off := b - c.tableStart
  let nb ← imapNodeBranch c (off / c.imapEntries)
  let bits ← liftI (RedFs.getImap nb)
  let i := off % c.imapEntries
  if bitGet bits i = alloc then critical .efubar
  else if alloc then modify (·.write nb (.imap (bitSet bits i)))
  else modify (·.write nb (.imap (bitClear bits i)))

/-- `RedImapBlockSet`, imap.c:106-195. -/
def imapBlockSet (b : Nat) (alloc : Bool) : IVM Unit := do
  let v ← get
  if b < c.tableStart ∨ c.blockCount ≤ b then fail .einval
  else if c.firstAlloc ≤ b ∧ ((alloc = true ∧ v.work.freeBlocks = 0) ∨
      (alloc = false ∧ c.allocable ≤ v.work.freeBlocks)) then critical .efubar
  else do
    let r ← attempt (if c.inline then liftI (imapISet c b alloc) else imapESet c b alloc)
    modify fun v => { v with branched := true }
    ofExcept r
    if alloc = false then modify (·.discard b) else pure ()
    if c.firstAlloc ≤ b then
      if alloc then
        modify fun v => v.setWork { v.work with freeBlocks := v.work.freeBlocks - 1 }
      else do
        let v ← get
        let was ← criticalAssert (imapBlockGet c (!v.cur) b)
        if was then modify fun v => { v with almostFree := v.almostFree + 1 }
        else modify fun v => v.setWork { v.work with freeBlocks := v.work.freeBlocks + 1 }
    else pure ()

/-- The search loop of `RedImapEBlockFindFree`, imapextern.c:210-297.  (The buffer of an imap node is kept across iterations;
here each iteration may fail.) -/
def findFreeE (start : Nat) : Nat → Nat → IVM Nat
  | 0, _ => fail .hang
  | n + 1, s => do
    let v ← get
    let bidx := s - c.tableStart
    let k := bidx / c.imapEntries
    let idx := bidx % c.imapEntries
    io
    match v.blk (nodeBlk c v.work k) with
    | .imap cur =>
      if idx % 8 = 0 ∧ cur (idx / 8) = 0xFF#8 then
        let s' := searchWrap c (s + min 8 (c.blockCount - s))
        if s' = start then fail .enospc else findFreeE start n s'
      else if bitGet cur idx = false then do
        io
        match v.blk (nodeBlk c v.comm k) with
        | .imap cmt =>
          if bitGet cmt idx = false then pure s
          else
            let s' := searchWrap c (s + 1)
            if s' = start then fail .enospc else findFreeE start n s'
        | _ => fail .eio
      else
        let s' := searchWrap c (s + 1)
        if s' = start then fail .enospc else findFreeE start n s'
    | _ => fail .eio

/-- `RedImapIBlockFindFree` / `RedImapEBlockFindFree` including the range check
(imapinline.c:150-157, imapextern.c:195-202). -/
def imapFindFree (start : Nat) : IVM Nat := do
  let v ← get
  if start < c.firstAlloc ∨ c.blockCount ≤ start then fail .einval
  else if c.inline then liftI (ofExcept (findFreeI c v start (c.blockCount + 1) start))
  else findFreeE c start (c.blockCount + 1) start

/-- `RedImapAllocBlock`, imap.c:210-273. -/
def imapAllocBlock : IVM Nat := do
  let v ← get
  if v.work.freeBlocks = 0 then fail .enospc
  else
    match ← attempt (imapFindFree c v.work.allocNext) with
    | .ok b => do
      let next := if b + 1 = c.blockCount then c.firstAlloc else b + 1
      modify fun v => v.setWork { v.work with allocNext := next }
      criticalAssert (imapBlockSet c b true)
      pure b
    | .error .enospc => critical .eio
    | .error e => fail e

/-- `RedImapBlockState`, imap.c:296-350. -/
def imapBlockState (b : Nat) : IVM AllocState := do
  if b < c.tableStart ∨ c.blockCount ≤ b then fail .einval
  else do
    let v ← get
    let cur ← imapBlockGet c v.cur b
    let old ← imapBlockGet c (!v.cur) b
    pure (if cur then (if old then .used else .new) else (if old then .afree else .free))

/-! ### inode.c -/

/-- `RedInodeBitGet`, inode.c:1063-1082. -/
def inodeBitGet (bMR : Bool) (ino : Nat) (w : Bool) : IVM Bool :=
  if c.inodeValid ino then imapBlockGet c bMR (slotBlk c ino w) else fail .einval

/-- `InodeBitSet`, inode.c:1100-1118. -/
def inodeBitSet (ino : Nat) (w : Bool) (alloc : Bool) : IVM Unit :=
  if c.inodeValid ino then imapBlockSet c (slotBlk c ino w) alloc else fail .einval

/-- `InodeGetCurrentCopy`, inode.c:992-1041. -/
def inodeCurrentCopy (ino : Nat) : IVM Bool := do
  let v ← get
  if ← inodeBitGet c v.cur ino false then pure false
  else if ← inodeBitGet c v.cur ino true then pure true
  else fail .ebadf

/-- `InodeGetWriteableCopy`, inode.c:922-974. -/
def inodeWriteableCopy (ino : Nat) : IVM Bool := do
  let v ← get
  if !(← inodeBitGet c (!v.cur) ino false) then pure false
  else if !(← inodeBitGet c (!v.cur) ino true) then pure true
  else critical .efubar

/-- `RedInodeIsFree`, inode.c:873-904. -/
def inodeIsFree (ino : Nat) : IVM Bool := do
  let v ← get
  if ← inodeBitGet c v.cur ino false then pure false
  else pure (!(← inodeBitGet c v.cur ino true))

/-- The search loop of `InodeFindFree`, inode.c:823-833. -/
def inodeFindLoop : Nat → Nat → IVM (Option Nat)
  | 0, _ => pure none
  | n + 1, ino => do
    if ← inodeIsFree c ino then pure (some ino) else inodeFindLoop n (ino + 1)

/-- `InodeFindFree`, inode.c:803-852. -/
def inodeFindFree : IVM Nat := do
  let v ← get
  if v.work.freeInodes = 0 then fail .enfile
  else
    match ← inodeFindLoop c (2 + c.inodeCount - c.firstFreeInode) c.firstFreeInode with
    | some i => pure i
    | none => critical .enfile

/-- `InodeIsBranched`, inode.c:679-722. -/
def inodeIsBranched (ino : Nat) : IVM Bool := do
  if c.inodeValid ino then do
    let s0 ← imapBlockState c (slotBlk c ino false)
    if s0 = .new then pure true
    else do
      let s1 ← imapBlockState c (slotBlk c ino true)
      pure (decide (s1 = .new))
  else fail .einval

/-- `RedBufferGet(block, BFLAG_META_INODE, ...)`. -/
def getInodeBuf (b : Nat) : IVM InodeNode := do
  io
  liftI (RedFs.getInodeBuf b)

/-- `RedInodeBranch`, inode.c:740-787. -/
def inodeBranch (ci : Cinode) : IVM Cinode := do
  match ci.nodeBuf with
  | none => fail .einval
  | some nb =>
    if !c.inodeValid ci.ino then fail .einval
    else if ci.branched then do
      modify (·.write nb (.inode ci.node))
      pure { ci with dirty := true }
    else criticalAssert do
      let w ← inodeWriteableCopy c ci.ino
      let dst := slotBlk c ci.ino w
      modify (·.branchBuf nb dst)
      inodeBitSet c ci.ino (!w) false
      inodeBitSet c ci.ino w true
      pure { ci with branched := true, dirty := true, nodeBuf := some dst }

/-- `RedInodeMount`, inode.c:79-177. -/
def inodeMount (ino : Nat) (type : FType) (branch : Bool) : IVM Cinode := do
  if !c.inodeValid ino then fail .ebadf
  else do
    let w ← inodeCurrentCopy c ino
    let b := slotBlk c ino w
    let n ← getInodeBuf b
    let br ← inodeIsBranched c ino
    let ci := { Cinode.init ino with nodeBuf := some b, node := n, branched := br }
    let ci ←
      if isRegMode n.mode then
        if type = .dir then fail .enotdir else pure ci
      else if isDirMode n.mode then
        if type = .file then fail .eisdir else pure { ci with dir := true }
      else critical .efubar
    if branch then inodeBranch c ci else pure ci

/-- `RedInodeCreate`, inode.c:201-323. -/
def inodeCreate (ino0 pino mode : Nat) : IVM Cinode := do
  if c.posix && !(c.inodeValid pino || (decide (pino = 0) && decide (ino0 = 2))) then fail .einval
  else do
    let ino ←
      if c.posix && decide (ino0 = 0) then inodeFindFree c
      else if c.inodeValid ino0 then do
        if ← inodeIsFree c ino0 then pure ino0 else fail .eexist
      else fail .ebadf
    let w ← inodeWriteableCopy c ino
    let b := slotBlk c ino w
    -- RedBufferGet(b, BFLAG_META_INODE | BFLAG_DIRTY | BFLAG_NEW)
    io
    modify (·.write b (.inode .zero))
    inodeBitSet c ino w true
    let n : InodeNode := { InodeNode.zero with mode := mode, nlink := 1, pinode := pino }
    modify (·.write b (.inode n))
    modify fun v => v.setWork { v.work with freeInodes := v.work.freeInodes - 1 }
    pure { Cinode.init ino with nodeBuf := some b, node := n, dir := isDirMode mode,
                                branched := true, dirty := true }

/-- `RedInodeFree`, inode.c:419-498. -/
def inodeFree (ci : Cinode) : IVM Unit := do
  match ci.nodeBuf with
  | none => fail .einval
  | some nb =>
    if !c.inodeValid ci.ino then fail .einval
    else do
      modify (·.discard nb)
      let v ← get
      let s0 ← inodeBitGet c v.cur ci.ino false
      let s1 ← inodeBitGet c v.cur ci.ino true
      if s0 then
        if s1 then critical .efubar else inodeBitSet c ci.ino false false
      else
        if !s1 then critical .ebadf else inodeBitSet c ci.ino true false
      let v ← get
      if c.inodeCount ≤ v.work.freeInodes then critical .efubar
      else modify fun v => v.setWork { v.work with freeInodes := v.work.freeInodes + 1 }

end RedFs.Io
