import Verif.Model.Monad
/-!
Who holds which block buffer: the buffer references taken and given back by every function of
the driver that calls `RedBufferGet`, `RedBufferPut` or `RedBufferDiscard`.

The model keeps the control flow of each function and the buffer pointers (the four pointers of
every `CINODE` variable, and the pointers to an imap node or to the master block), and forgets
the contents of blocks: every decision that depends on stored data, on arguments or on a device
is taken by `choose`, which reads the next number of an arbitrary list.  A statement for all
lists is a statement about every execution, with every pattern of errors, and about executions
no real volume has.

`CINODE` variables on the stack start out uninitialised: `none`.  The loops take as many rounds
as the list says.  Not modelled: the checker build (`REDCONF_CHECKER`).
-/
namespace RedFs.Refs
open RedFs M

/-- The configuration as far as it decides about buffers. -/
structure Cfg where
  /-- `REDCONF_BUFFER_COUNT` -/
  bufs : Nat
  /-- `INODE_ENTRIES` -/
  entries : Nat
  /-- `REDCONF_DIRECT_POINTERS` -/
  direct : Nat
  /-- `REDCONF_INDIRECT_POINTERS` -/
  indirect : Nat
  /-- `REDCONF_IMAP_INLINE`, `REDCONF_IMAP_EXTERNAL` -/
  imapInline : Bool
  imapExternal : Bool
  /-- `REDCONF_READ_ONLY` -/
  readOnly : Bool
  /-- `REDCONF_API_FSE`; the other API is `REDCONF_API_POSIX` -/
  fse : Bool
  /-- `REDCONF_API_POSIX_RENAME`, `REDCONF_RENAME_ATOMIC` -/
  rename : Bool
  renameAtomic : Bool

/-- `DINDIR_POINTERS > 0`, core/include/rednodes.h: the entries that are neither direct nor indirect. -/
def Cfg.hasDindir (c : Cfg) : Bool := decide (0 < c.entries - c.indirect - c.direct)
/-- `REDCONF_DIRECT_POINTERS < INODE_ENTRIES` -/
def Cfg.hasIndir (c : Cfg) : Bool := decide (c.direct < c.entries)

/-- `INODE_META_BUFFERS`, buffer.c:40-46. -/
def Cfg.inodeMeta (c : Cfg) : Nat := if c.hasDindir then 3 else if 0 < c.indirect then 2 else 1
/-- `INODE_BUFFERS`, buffer.c:48. -/
def Cfg.inodeBuffers (c : Cfg) : Nat := c.inodeMeta + 1
/-- `IMAP_BUFFERS`, buffer.c:50-54. -/
def Cfg.imapBuffers (c : Cfg) : Nat := if c.imapExternal then 1 else 0
/-- `MINIMUM_BUFFER_COUNT`, buffer.c:56-88. -/
def Cfg.minimum (c : Cfg) : Nat :=
  if c.readOnly || c.fse then c.inodeBuffers + c.imapBuffers
  else if c.rename then
    if c.renameAtomic then c.inodeBuffers + c.inodeBuffers + 3 + c.imapBuffers
    else c.inodeBuffers + c.inodeBuffers + 2 + c.imapBuffers
  else c.inodeBuffers + 1 + c.imapBuffers

/-- The `CINODE` variables: `pino`/`SrcPInode`, `DstPInode`, `ino`/`SrcInode`, `DstInode`, `NextParent`. -/
inductive Slot
  | srcP | dstP | src | dst | next
deriving DecidableEq, Repr
/-- The buffer pointers of a `CINODE`, core/include/redcore.h: `pInodeBuf`, `pDindir`, `pIndir`, `pbData`. -/
inductive Fld
  | node | dindir | indir | data
deriving DecidableEq, Repr
/-- A buffer pointer: NULL, a reference, or a pointer to a buffer already given back. -/
inductive Ref
  | null | held | stale
deriving DecidableEq, Repr
abbrev Ptrs := Fld → Ref

structure St where
  /-- `none`: uninitialised memory -/
  ci : Slot → Option Ptrs
  /-- references held by other local variables: `pImap`, `pMB` -/
  tmp : Nat
  /-- `RedBufferGet` was called although as many references were held as there are buffers -/
  short : Bool
  /-- a pointer that is not a reference was given back or read, or a reference was overwritten -/
  bad : Bool
  /-- the largest number of references held so far -/
  peak : Nat
  /-- the decisions to come -/
  orc : List Nat

def Ref.cnt : Ref → Nat
  | .held => 1
  | _ => 0
def cntP (p : Ptrs) : Nat := (p .node).cnt + (p .dindir).cnt + (p .indir).cnt + (p .data).cnt
def cnt : Option Ptrs → Nat
  | none => 0
  | some p => cntP p
/-- Number of references held. -/
def St.held (s : St) : Nat :=
  s.tmp + (cnt (s.ci .srcP) + cnt (s.ci .dstP) + cnt (s.ci .src) + cnt (s.ci .dst) + cnt (s.ci .next))

/-- Nothing held, with the decisions `o` to come. -/
def St.idle (o : List Nat) : St := { ci := fun _ => none, tmp := 0, short := false, bad := false, peak := 0, orc := o }

def St.setP (s : St) (k : Slot) (x : Option Ptrs) : St := { s with ci := fun j => if j = k then x else s.ci j }
def Ptrs.set (p : Ptrs) (f : Fld) (r : Ref) : Ptrs := fun g => if g = f then r else p g
def St.setF (s : St) (k : Slot) (f : Fld) (r : Ref) : St :=
  match s.ci k with
  | none => { s with bad := true }
  | some p => s.setP k (some (p.set f r))

/-! Decisions. -/

/-- The next decision; `0` when the list is used up. -/
def choose : M St Nat := fun s => match s.orc with
  | [] => (.ok 0, s)
  | x :: r => (.ok x, { s with orc := r })
/-- A condition on data that is not modelled. -/
def flip : M St Bool := do
  let x ← choose
  pure (decide (x ≠ 0))
/-- A check, a device transfer or a cache operation with any outcome. -/
def status : M St Unit := do
  let x ← choose
  match x with
  | 0 => pure ()
  | 1 => fail .einval
  | 2 => fail .enospc
  | 3 => fail .enodata
  | 4 => fail .enoent
  | 5 => fail .eio
  | 6 => fail .efubar
  | _ => fail .enotdir
/-- `if(cond) { m }` with a condition that is not modelled. -/
def maybe (m : M St Unit) : M St Unit := do
  if (← flip) then m else pure ()
/-- `#if`, `if(flag) { m }` -/
def whenB (b : Bool) (m : M St Unit) : M St Unit := if b then m else pure ()
/-- `if(ret == -RED_E..) { ret = 0; }` for the errors `p` -/
def allow (p : Err → Bool) (m : M St Unit) : M St Unit := do
  let r ← attempt m
  match r with
  | .ok _ => pure ()
  | .error e => if p e then pure () else fail e
/-- `if((ret == 0) || (ret == -RED_ENODATA))` -/
def noData (m : M St Unit) : M St Unit := allow (fun e => decide (e = .enodata)) m
/-- `if((ret == -RED_ENOSPC) && cond) { ret = 0; }` with a condition that is not modelled -/
def noSpace (m : M St Unit) : M St Unit := do
  let b ← flip
  allow (fun e => decide (e = .enospc) && b) m
/-- `r = m(); fin(); return r;` -/
def andThen (m fin : M St Unit) : M St Unit := do
  let r ← attempt m
  fin
  ofExcept r
/-- A loop; `body` returns `true` for `break`. -/
def loopN (body : M St Bool) : Nat → M St Unit
  | 0 => pure ()
  | n + 1 => do
    if (← flip) then
      if (← body) then pure () else loopN body n
    else pure ()
/-- As many rounds as the decisions say. -/
def loop (body : M St Bool) : M St Unit := fun s => loopN body s.orc.length s

/-! References. -/

def markBad : M St Unit := modify fun s => { s with bad := true }
/-- `RedBufferGet`, buffer.c:209-374: `EBUSY` if all buffers are referenced (lines 241-250), and any
other error.  Simplification: it counts references, not distinct referenced buffers, so it reports a
shortage at least as often as the code. -/
def bufGet (c : Cfg) : M St Unit := do
  let s ← get
  if c.bufs ≤ s.held then
    modify fun s => { s with short := true }
    fail .ebusy
  else
    if (← flip) then fail .eio
    else modify fun s => { s with peak := max s.peak (s.held + 1) }
/-- `RedBufferGet(.., &pInode->f)` -/
def acquire (c : Cfg) (k : Slot) (f : Fld) : M St Unit := do
  let s ← get
  (match s.ci k with
   | none => markBad
   | some p => if p f = .null then pure () else markBad)
  bufGet c
  modify fun s => s.setF k f .held
/-- `if(pInode->f != NULL) { RedBufferPut(pInode->f); pInode->f = NULL; }` -/
def release (k : Slot) (f : Fld) : M St Unit := do
  let s ← get
  match s.ci k with
  | none => markBad
  | some p =>
    match p f with
    | .null => pure ()
    | .held => modify fun s => s.setF k f .null
    | .stale => markBad
/-- `RedBufferPut(pInode->f)` without setting the pointer to NULL. -/
def putOnly (k : Slot) (f : Fld) : M St Unit := do
  let s ← get
  match s.ci k with
  | none => markBad
  | some p => if p f = .held then modify fun s => s.setF k f .stale else markBad
/-- `RedBufferDiscard(pInode->f); pInode->f = NULL;` -/
def discard (k : Slot) (f : Fld) : M St Unit := do
  let s ← get
  match s.ci k with
  | none => markBad
  | some p => if p f = .held then modify fun s => s.setF k f .null else markBad
/-- `RedBufferGet(.., &pImap)` and the same for the master block. -/
def tmpGet (c : Cfg) : M St Unit := do
  bufGet c
  modify fun s => { s with tmp := s.tmp + 1 }
/-- `RedBufferPut(pImap)`, `RedBufferDiscard(pMB)` -/
def tmpPut : M St Unit := modify fun s =>
  if s.tmp = 0 then { s with bad := true } else { s with tmp := s.tmp - 1 }
/-- `pInode->f == NULL` -/
def isNull (k : Slot) (f : Fld) : M St Bool := do
  let s ← get
  match s.ci k with
  | none => do markBad; pure true
  | some p => pure (decide (p f = .null))
/-- `if(pInode->f == NULL) { m }` -/
def ifNull (k : Slot) (f : Fld) (m : M St Unit) : M St Unit := do
  let b ← isNull k f
  whenB b m
/-- `CINODE_IS_MOUNTED`, core/include/redcore.h; other parts of the check are `status`. -/
def mounted (k : Slot) : M St Unit := do
  let s ← get
  match s.ci k with
  | none => do markBad; fail .einval
  | some p => if p .node = .null then fail .einval else status
/-- `CINODE ino;`: a reference kept in an earlier variable of this name is lost. -/
def declare (k : Slot) : M St Unit := do
  let s ← get
  whenB (decide (cnt (s.ci k) ≠ 0)) markBad
  modify fun s => s.setP k none
/-- `RedMemSet(pInode, 0U, sizeof(*pInode))`, `CINODE ino = {0U};` -/
def zero (k : Slot) : M St Unit := do
  let s ← get
  whenB (decide (cnt (s.ci k) ≠ 0)) markBad
  modify fun s => s.setP k (some fun _ => .null)

/-! imap.c, imapextern.c.  The inline imap (imapinline.c) uses no buffers. -/

/-- `gpRedCoreVol->fImapInline`, imap.c:70-83. -/
def external (c : Cfg) : M St Bool :=
  if c.imapExternal then (if c.imapInline then flip else pure true) else pure false
/-- `RedImapEBlockGet`, imapextern.c:61-109. -/
def eBlockGet (c : Cfg) : M St Unit := do
  status
  tmpGet c
  tmpPut
/-- `RedImapBlockGet`, imap.c:53-87. -/
def blockGet (c : Cfg) : M St Unit := do
  status
  let ext ← external c
  if ext then eBlockGet c else status
/-- `ImapNodeBranch`, imapextern.c:335-389. -/
def imapNodeBranch (c : Cfg) : M St Unit := do
  status
  if (← flip) then tmpGet c
  else
    status
    tmpGet c
/-- `RedImapEBlockSet`, imapextern.c:124-173. -/
def eBlockSet (c : Cfg) : M St Unit := do
  status
  imapNodeBranch c
  let wrong ← flip
  tmpPut
  whenB wrong (fail .efubar)
/-- `RedImapBlockSet`, imap.c:106-195. -/
def blockSet (c : Cfg) : M St Unit := do
  status
  let ext ← external c
  (if ext then eBlockSet c else status)
  maybe status
  maybe (maybe (blockGet c))
/-- One round of the loop of `RedImapEBlockFindFree`, imapextern.c:212-297; `has` is `pImap != NULL`.
Returns the new `has`, and the status if the loop ends. -/
def findFreeRound (c : Cfg) (has : Bool) : M St (Bool × Option (Except Err Unit)) := do
  let other ← flip
  whenB (has && other) tmpPut
  let r ← attempt (whenB (!(has && !other)) (tmpGet c))
  match r with
  | .error e => pure (false, some (.error e))
  | .ok _ =>
    if (← flip) then pure (true, none)
    else if (← flip) then
      tmpPut
      let r ← attempt (tmpGet c)
      match r with
      | .error e => pure (false, some (.error e))
      | .ok _ =>
        if (← flip) then pure (true, some (.ok ()))
        else
          tmpPut
          pure (false, none)
    else pure (true, none)
/-- The loop of `RedImapEBlockFindFree`, imapextern.c:210-297. -/
def findFreeLoop (c : Cfg) : Nat → Bool → M St (Bool × Except Err Unit)
  | 0, has => pure (has, .error .enospc)
  | n + 1, has => do
    let (has, r) ← findFreeRound c has
    match r with
    | some r => pure (has, r)
    | none => if (← flip) then findFreeLoop c n has else pure (has, .error .enospc)
/-- `RedImapEBlockFindFree`, imapextern.c:189-314. -/
def findFreeE (c : Cfg) : M St Unit := do
  status
  let s ← get
  let (has, r) ← findFreeLoop c (s.orc.length + 1) false
  whenB has tmpPut
  ofExcept r
/-- `RedImapAllocBlock`, imap.c:210-273. -/
def allocBlock (c : Cfg) : M St Unit := do
  status
  let ext ← external c
  (if ext then findFreeE c else status)
  blockSet c
/-- `RedImapBlockState`, imap.c:296-350. -/
def blockState (c : Cfg) : M St Unit := do
  status
  blockGet c
  blockGet c

/-! inode.c -/

/-- `RedInodeBitGet`, inode.c:1063-1082. -/
def bitGet (c : Cfg) : M St Unit := do
  status
  blockGet c
/-- `InodeBitSet`, inode.c:1100-1118. -/
def bitSet (c : Cfg) : M St Unit := do
  status
  blockSet c
/-- `InodeIsBranched`, inode.c:679-722. -/
def isBranched (c : Cfg) : M St Unit := do
  status
  blockState c
  maybe (blockState c)
/-- `InodeGetWriteableCopy`, inode.c:922-974. -/
def writeableCopy (c : Cfg) : M St Unit := do
  bitGet c
  maybe (do bitGet c; status)
/-- `InodeGetCurrentCopy`, inode.c:992-1041. -/
def currentCopy (c : Cfg) : M St Unit := do
  bitGet c
  maybe (do bitGet c; status)
/-- `RedInodeIsFree`, inode.c:873-904. -/
def isFree (c : Cfg) : M St Unit := do
  bitGet c
  maybe (bitGet c)
/-- `InodeFindFree`, inode.c:803-852. -/
def findFreeInode (c : Cfg) : M St Unit := do
  status
  loop (do isFree c; flip)
  status
/-- `RedInodePutData`, `RedInodePutIndir`, `RedInodePutDindir`, inode.c:594-662. -/
def putData (k : Slot) : M St Unit := release k .data
def putIndir (k : Slot) : M St Unit := release k .indir
def putDindir (k : Slot) : M St Unit := release k .dindir
/-- `RedInodePutCoord`, inode.c:569-586. -/
def putCoord (c : Cfg) (k : Slot) : M St Unit := do
  putData k
  whenB c.hasIndir (putIndir k)
  whenB c.hasDindir (putDindir k)
/-- `RedInodePut`, inode.c:510-561. -/
def inodePut (c : Cfg) (k : Slot) : M St Unit := do
  putCoord c k
  release k .node
/-- `RedInodeBranch`, inode.c:740-787. -/
def inodeBranch (c : Cfg) (k : Slot) : M St Unit := do
  mounted k
  maybe (do
    writeableCopy c
    bitSet c
    bitSet c)
/-- `RedInodeMount`, inode.c:79-177; `valid` is `INODE_IS_VALID(pInode->ulInode)`. -/
def inodeMount (c : Cfg) (k : Slot) (valid branch : Bool) : M St Unit := do
  if !valid then fail .ebadf
  else
    zero k
    let r ← attempt (do
      currentCopy c
      acquire c k .node
      whenB (!c.readOnly) (isBranched c)
      status
      whenB branch (inodeBranch c k))
    match r with
    | .ok _ => pure ()
    | .error e => do
      inodePut c k
      fail e
/-- `RedInodeMount` of an inode number that may be invalid. -/
def inodeMountAny (c : Cfg) (k : Slot) (branch : Bool) : M St Unit := do
  let bad ← flip
  inodeMount c k (!bad) branch
/-- `RedInodeCreate`, inode.c:201-323; the error path at line 284 gives the buffer back and keeps the pointer. -/
def inodeCreate (c : Cfg) (k : Slot) : M St Unit := do
  status
  zero k
  let anyFree ← flip
  (if anyFree then findFreeInode c
   else do
    status
    isFree c
    status)
  writeableCopy c
  acquire c k .node
  let r ← attempt (bitSet c)
  match r with
  | .ok _ => pure ()
  | .error e => do
    putOnly k .node
    fail e
/-- `RedInodeFree`, inode.c:419-498. -/
def inodeFree (c : Cfg) (k : Slot) : M St Unit := do
  mounted k
  discard k .node
  bitGet c
  bitGet c
  status
  bitSet c
  status

/-! inodedata.c -/

/-- `BRANCHDEPTH`, inodedata.c:47-53. -/
inductive Depth
  | dindir | indir | data
deriving DecidableEq
/-- `depth >= BRANCHDEPTH_INDIR` -/
def Depth.geIndir : Depth → Bool
  | .dindir => false
  | _ => true

/-- `SeekCoord`, inodedata.c:1010-1155. -/
def seekCoord (c : Cfg) (k : Slot) : M St Unit :=
  maybe (do
    putData k
    let x ← choose
    if x = 0 then
      whenB c.hasIndir (putCoord c k)
    else if x = 1 ∧ 0 < c.indirect then
      whenB c.hasDindir (putDindir k)
      maybe (putIndir k)
    else if c.hasDindir then
      if (← flip) then
        putIndir k
        putDindir k
      else maybe (putIndir k)
    else pure ())
/-- `SeekInode`, inodedata.c:930-999; the last `status` includes `ENODATA`. -/
def seekInode (c : Cfg) (k : Slot) : M St Unit := do
  mounted k
  seekCoord c k
  whenB c.hasDindir (maybe (maybe (ifNull k .dindir (acquire c k .dindir))))
  whenB c.hasIndir (maybe (maybe (ifNull k .indir (acquire c k .indir))))
  status
/-- `RedInodeDataSeekAndRead`, inodedata.c:893-909. -/
def seekAndRead (c : Cfg) (k : Slot) : M St Unit := do
  seekInode c k
  ifNull k .data (acquire c k .data)
/-- `BranchOneBlock`, inodedata.c:1711-1813; `f = none` is `ppBuffer == NULL`. -/
def branchOne (c : Cfg) (k : Slot) (f : Option Fld) : M St Unit := do
  maybe (blockState c)
  if (← flip) then
    match f with
    | none => pure ()
    | some f => ifNull k f (acquire c k f)
  else
    allocBlock c
    if (← flip) then
      match f with
      | none => pure ()
      | some f => if (← isNull k f) then acquire c k f else fail .einval
    else
      (match f with
       | none => pure ()
       | some f => ifNull k f (acquire c k f))
      blockSet c
/-- `BranchBlockCost`, inodedata.c:1834-1948. -/
def branchBlockCost (c : Cfg) (k : Slot) (depth : Depth) : M St Unit := do
  mounted k
  whenB c.hasDindir (maybe (maybe (blockState c)))
  whenB (c.hasIndir && depth.geIndir) (maybe (maybe (blockState c)))
  whenB (decide (depth = .data)) (maybe (blockState c))
/-- `BranchBlock`, inodedata.c:1574-1681. -/
def branchBlock (c : Cfg) (k : Slot) (depth : Depth) (fBuffer : Bool) : M St Unit := do
  branchBlockCost c k depth
  status
  whenB c.hasDindir (maybe (branchOne c k (some .dindir)))
  whenB (c.hasIndir && depth.geIndir) (maybe (branchOne c k (some .indir)))
  whenB (decide (depth = .data)) (do
    let nodata ← isNull k .data
    branchOne c k (if fBuffer || !nodata then some .data else none)
    status)
/-- `ExpandPrepare`, inodedata.c:835-874. -/
def expandPrepare (c : Cfg) (k : Slot) : M St Unit := do
  mounted k
  maybe (do
    let r ← attempt (seekInode c k)
    match r with
    | .ok _ => branchBlock c k .data true
    | .error .enodata => pure ()
    | .error e => fail e)
/-- `ReadUnaligned`, inodedata.c:1169-1208. -/
def readUnaligned (c : Cfg) (k : Slot) : M St Unit := do
  status
  noData (seekAndRead c k)
/-- `GetExtent`, inodedata.c:1507-1555. -/
def getExtent (c : Cfg) (k : Slot) : M St Unit := do
  status
  seekInode c k
  loop (do
    let r ← attempt (seekInode c k)
    match r with
    | .ok _ => flip
    | .error .enodata => pure true
    | .error e => fail e)
/-- `ReadAligned`, inodedata.c:1224-1286; `RedBufferFlushRange` and `RedIoRead` are `status`. -/
def readAligned (c : Cfg) (k : Slot) : M St Unit := do
  status
  loop (do
    let r ← attempt (getExtent c k)
    match r with
    | .ok _ => do
      whenB (!c.readOnly) status
      status
      pure false
    | .error .enodata => pure false
    | .error e => fail e)
/-- `RedInodeDataRead`, inodedata.c:103-193. -/
def dataRead (c : Cfg) (k : Slot) : M St Unit := do
  mounted k
  maybe (do
    maybe (readUnaligned c k)
    maybe (readAligned c k)
    maybe (readUnaligned c k))
/-- `WriteUnaligned`, inodedata.c:1305-1337. -/
def writeUnaligned (c : Cfg) (k : Slot) : M St Unit := do
  status
  noData (seekInode c k)
  branchBlock c k .data true
/-- The body of the inner loop of `WriteAligned`, inodedata.c:1385-1439. -/
def alignedBlock (c : Cfg) (k : Slot) : M St Bool := do
  maybe (do
    noData (seekInode c k)
    branchBlock c k .data false)
  flip
/-- The body of the outer loop of `WriteAligned`, inodedata.c:1376-1471. -/
def alignedExtent (c : Cfg) (k : Slot) : M St Bool := do
  let r ← attempt (loop (alignedBlock c k))
  let some ← flip
  match r with
  | .error e =>
    if e = .enospc ∧ some = true then
      status
      status
      fail .enospc
    else fail e
  | .ok _ =>
    status
    status
    pure false
/-- `WriteAligned`, inodedata.c:1357-1485. -/
def writeAligned (c : Cfg) (k : Slot) : M St Unit := do
  status
  noSpace (loop (alignedExtent c k))
/-- `RedInodeDataWrite`, inodedata.c:219-348. -/
def dataWrite (c : Cfg) (k : Slot) : M St Unit := do
  mounted k
  maybe (do
    maybe (expandPrepare c k)
    maybe (writeUnaligned c k)
    maybe (noSpace (writeAligned c k))
    maybe (allow (fun e => decide (e = .enospc)) (writeUnaligned c k)))
/-- `TruncDataBlock`, inodedata.c:771-814. -/
def truncDataBlock (c : Cfg) (k : Slot) : M St Unit := do
  mounted k
  maybe (do
    blockSet c
    status)
/-- `TruncIndir`, inodedata.c:689-753. -/
def truncIndir (c : Cfg) (k : Slot) : M St Unit := do
  mounted k
  if (← isNull k .indir) then pure ()
  else
    let branch ← flip
    whenB branch (branchBlock c k .indir false)
    loop (do truncDataBlock c k; pure false)
    if branch then pure ()
    else
      putIndir k
      blockSet c
/-- `TruncDindir`, inodedata.c:549-670. -/
def truncDindir (c : Cfg) (k : Slot) : M St Unit := do
  mounted k
  if (← isNull k .dindir) then pure ()
  else
    let branch ← flip
    whenB branch (branchBlock c k .dindir false)
    loop (do
      noData (seekInode c k)
      maybe (truncIndir c k)
      pure false)
    if branch then pure ()
    else
      putDindir k
      blockSet c
/-- `Shrink`, inodedata.c:421-531. -/
def shrink (c : Cfg) (k : Slot) : M St Unit := do
  mounted k
  putData k
  whenB (decide (0 < c.direct)) (loop (do truncDataBlock c k; pure false))
  whenB (decide (0 < c.indirect)) (loop (do
    noData (seekInode c k)
    truncIndir c k
    pure false))
  whenB c.hasDindir (loop (do
    noData (seekInode c k)
    truncDindir c k
    pure false))
/-- `RedInodeDataTruncate`, inodedata.c:365-406. -/
def dataTruncate (c : Cfg) (k : Slot) : M St Unit := do
  mounted k
  status
  if (← flip) then expandPrepare c k else maybe (shrink c k)

/-- `InodeDelete`, inode.c:379-402. -/
def inodeDelete (c : Cfg) (k : Slot) : M St Unit := do
  mounted k
  maybe (dataTruncate c k)
  inodeFree c k
/-- `RedInodeLinkDec`, inode.c:339-365. -/
def linkDec (c : Cfg) (k : Slot) : M St Unit := do
  mounted k
  if (← flip) then inodeBranch c k else inodeDelete c k

/-! dir.c -/

/-- The loops over directory blocks in dir.c:224-256, 370-446, 537-586. -/
def dirScan (c : Cfg) (k : Slot) : M St Unit := loop (do
  let r ← attempt (seekAndRead c k)
  match r with
  | .ok _ => flip
  | .error .enodata => pure false
  | .error e => fail e)
/-- `RedDirEntryLookup`, dir.c:333-482; the last `status` includes `ENOENT`. -/
def dirLookup (c : Cfg) (k : Slot) : M St Unit := do
  mounted k
  status
  dirScan c k
  status
/-- `RedDirEntryRead`, dir.c:512-596. -/
def dirRead (c : Cfg) (k : Slot) : M St Unit := do
  mounted k
  status
  dirScan c k
  status
/-- `DirEntryWrite`, dir.c:907-950. -/
def dirWrite (c : Cfg) (k : Slot) : M St Unit := do
  mounted k
  status
  dataWrite c k
/-- `RedDirEntryCreate`, dir.c:106-177. -/
def dirCreate (c : Cfg) (k : Slot) : M St Unit := do
  mounted k
  status
  let r ← attempt (dirLookup c k)
  match r with
  | .ok _ => fail .eexist
  | .error .enoent => do
    status
    dirWrite c k
  | .error e => fail e
/-- `RedDirEntryDelete`, dir.c:199-298. -/
def dirDelete (c : Cfg) (k : Slot) : M St Unit := do
  mounted k
  status
  if (← flip) then
    dirScan c k
    dataTruncate c k
  else dirWrite c k
/-- `DirCyclicRenameCheck`, dir.c:824-884; `kd` is `pDstPInode`. -/
def cyclicCheck (c : Cfg) (kd : Slot) : M St Unit := do
  mounted kd
  status
  declare .next
  loop (do
    inodeMountAny c .next false
    inodePut c .next
    pure false)
  status
/-- `RedDirEntryRename`, dir.c:647-804; `kd` is `pDstPInode`. -/
def dirRename (c : Cfg) (kd : Slot) : M St Unit := do
  mounted .srcP
  mounted kd
  status
  dirLookup c .srcP
  let r ← attempt (dirLookup c kd)
  (match r with
   | .ok _ => whenB (!c.renameAtomic) (fail .eexist)
   | .error e => if e = .enoent then status else fail e)
  let same ← flip
  if c.renameAtomic && same then pure ()
  else
    inodeMountAny c .src true
    whenB c.renameAtomic (maybe (do
      inodeMountAny c .dst true
      status))
    maybe (cyclicCheck c kd)
    dirWrite c kd
    let r ← attempt (dirDelete c .srcP)
    match r with
    | .ok _ => pure ()
    | .error .enospc => do
      let existed ← flip
      (if c.renameAtomic && existed then dirWrite c kd else dirDelete c kd)
      fail .enospc
    | .error e => fail e

/-! core.c -/

/-- The first attempt, a transaction point, the second attempt (core.c:629-641 and the same in the
other modifying calls), and the automatic transaction.  `RedVolTransact` holds no references. -/
def withRetry (m : M St Unit) : M St Unit := do
  let r ← attempt m
  let full ← flip
  (match r with
   | .ok _ => pure ()
   | .error e =>
     if e = .enospc ∧ full = true then do
       status
       m
     else fail e)
  maybe status
/-- `CoreCreate`, core.c:687-746. -/
def coreCreate (c : Cfg) : M St Unit := do
  status
  declare .srcP
  inodeMountAny c .srcP false
  declare .src
  andThen (do
    inodeCreate c .src
    andThen (do
      let r ← attempt (do
        inodeBranch c .srcP
        dirCreate c .srcP)
      match r with
      | .ok _ => pure ()
      | .error e => do
        let _ ← attempt (inodeFree c .src)
        fail e)
      (inodePut c .src))
    (inodePut c .srcP)
/-- `CoreLink`, core.c:851-919. -/
def coreLink (c : Cfg) : M St Unit := do
  status
  declare .srcP
  inodeMountAny c .srcP false
  declare .src
  andThen (do
    inodeMountAny c .src false
    andThen (do
      status
      inodeBranch c .srcP
      inodeBranch c .src
      dirCreate c .srcP)
      (inodePut c .src))
    (inodePut c .srcP)
/-- `CoreUnlink`, core.c:1028-1107. -/
def coreUnlink (c : Cfg) : M St Unit := do
  status
  declare .srcP
  inodeMountAny c .srcP false
  andThen (do
    dirLookup c .srcP
    inodeBranch c .srcP
    declare .src
    inodeMountAny c .src false
    andThen (do
      status
      dirDelete c .srcP
      putCoord c .srcP
      linkDec c .src)
      (inodePut c .src))
    (inodePut c .srcP)
/-- `pDstPInode`, core.c:1321-1328. -/
def dstSlot (same : Bool) : Slot := if same then .srcP else .dstP
/-- `CoreRename`, core.c:1296-1383; `valid` is `INODE_IS_VALID(ulSrcPInode)`, `same` is
`ulSrcPInode == ulDstPInode`. -/
def coreRename (c : Cfg) (valid same : Bool) : M St Unit := do
  status
  declare .srcP
  andThen (do
    inodeMount c .srcP valid true
    declare .dstP
    whenB (!same) (inodeMountAny c .dstP true)
    zero .src
    zero .dst
    andThen (do
      dirRename c (dstSlot same)
      whenB c.renameAtomic (maybe (do
        putCoord c .srcP
        putCoord c (dstSlot same)
        linkDec c .dst)))
      (do
        whenB c.renameAtomic (inodePut c .dst)
        inodePut c .src
        inodePut c (dstSlot same)))
    (inodePut c .srcP)
/-- `RedCoreLookup`, core.c:1130-1157; `RedCoreDirRead` without access times is the same with another scan. -/
def coreLookup (c : Cfg) : M St Unit := do
  status
  declare .src
  inodeMountAny c .src false
  andThen (dirLookup c .src) (inodePut c .src)
/-- `RedCoreStat`, `RedCoreFileSizeGet`, `RedCoreDirParent`, core.c:1403-1446, 1464-1489, 1889-1920. -/
def coreStat (c : Cfg) : M St Unit := do
  status
  declare .src
  inodeMountAny c .src false
  inodePut c .src
/-- `RedCoreFileRead`, core.c:1520-1556; `fUpdateAtime` is false in a read-only build. -/
def coreFileRead (c : Cfg) : M St Unit := do
  status
  declare .src
  let atime ← flip
  inodeMountAny c .src (!c.readOnly && atime)
  andThen (dataRead c .src) (inodePut c .src)
/-- `CoreFileWrite`, core.c:1660-1687. -/
def coreFileWrite (c : Cfg) : M St Unit := do
  status
  declare .src
  inodeMountAny c .src true
  andThen (dataWrite c .src) (inodePut c .src)
/-- `CoreFileTruncate`, core.c:1769-1802. -/
def coreFileTruncate (c : Cfg) : M St Unit := do
  status
  declare .src
  inodeMountAny c .src true
  andThen (dataTruncate c .src) (inodePut c .src)
/-- `RedCoreDirRead`, core.c:1833-1870. -/
def coreDirRead (c : Cfg) : M St Unit := do
  status
  declare .src
  inodeMountAny c .src false
  andThen (do
    dirRead c .src
    whenB (!c.readOnly) (maybe (inodeBranch c .src)))
    (inodePut c .src)

/-! volume.c, format.c -/

/-- `RedVolMountMaster`, volume.c:239-299, the only user of buffers in `RedVolMount` (volume.c:180-229). -/
def volMount (c : Cfg) : M St Unit := do
  status
  tmpGet c
  andThen status tmpPut
  status
/-- The creation of one inode by format, format.c:146-157 and 170-179. -/
def formatInode (c : Cfg) : M St Unit := do
  declare .src
  inodeCreate c .src
  inodePut c .src
/-- `RedVolFormat`, format.c:38-256. -/
def volFormat (c : Cfg) : M St Unit := do
  status
  tmpGet c
  andThen status tmpPut
  status
  let ext ← external c
  whenB ext (loop (do
    tmpGet c
    tmpPut
    pure false))
  status
  (if c.fse then loop (do
    let _ ← attempt (formatInode c)
    pure false)
   else formatInode c)
  status
  tmpGet c
  andThen status tmpPut
  status

/-- The calls into the driver. -/
inductive Op
  | mount | format | transact
  | create | link | unlink | lookup
  | rename (validSrcParent sameParent : Bool)
  | stat | read | write | truncate | readdir
deriving DecidableEq, Repr

/-- What exists in which build: redconf.h, redconfigchk.h and the `#if` around the functions of core.c. -/
def Op.exists_ (c : Cfg) : Op → Bool
  | .mount | .stat | .read => true
  | .format | .transact | .write | .truncate => !c.readOnly
  | .create | .link | .unlink => !c.readOnly && !c.fse
  | .lookup | .readdir => !c.fse
  | .rename _ _ => !c.readOnly && !c.fse && c.rename

/-- The call, core.c. -/
def Op.run (c : Cfg) : Op → M St Unit
  | .mount => volMount c
  | .format => volFormat c
  | .transact => status
  | .create => withRetry (coreCreate c)
  | .link => withRetry (coreLink c)
  | .unlink => withRetry (coreUnlink c)
  | .lookup => coreLookup c
  | .rename v same => withRetry (coreRename c v same)
  | .stat => coreStat c
  | .read => coreFileRead c
  | .write => withRetry (coreFileWrite c)
  | .truncate => withRetry (coreFileTruncate c)
  | .readdir => coreDirRead c

/-- A history of calls. -/
def runOps (c : Cfg) : List Op → M St Unit
  | [] => pure ()
  | o :: os => do
    let _ ← attempt (o.run c)
    runOps c os

end RedFs.Refs
