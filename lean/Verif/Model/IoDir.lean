import Verif.Model.IoData
/-!
The file system on a block device whose operations may fail (see `Model/Io.lean`): deleting inodes (core/driver/inode.c),
directories (core/driver/dir.c), and the operations of core/driver/core.c.
-/
namespace RedFs.Io
open RedFs M Bitmap Str

/-- Run an operation on a `CINODE` held in a local variable; its status is returned. -/
def onCi {α : Type} (ci : Cinode) (m : IDM α) : IVM (Except Err α × Cinode) := fun s =>
  match m ⟨⟨ci, s.st⟩, s.dev, s.n, s.bad⟩ with
  | (r, t) => (.ok (r, t.st.ci), ⟨t.st.v, t.dev, t.n, t.bad⟩)

/-- The same, returning from the caller if the operation fails. -/
def runCi {α : Type} (ci : Cinode) (m : IDM α) : IVM (α × Cinode) := fun s =>
  match m ⟨⟨ci, s.st⟩, s.dev, s.n, s.bad⟩ with
  | (.ok a, t) => (.ok (a, t.st.ci), ⟨t.st.v, t.dev, t.n, t.bad⟩)
  | (.error e, t) => (.error e, ⟨t.st.v, t.dev, t.n, t.bad⟩)

def dataBuf : IDM Blk := liftI RedFs.dataBuf

variable (c : Conf)

def setUseReserved (b : Bool) : IVM Unit := liftI (RedFs.setUseReserved c b)
def renameTarget (r : Except Err LookupRes) : IVM (Nat × Nat) := liftI (RedFs.renameTarget c r)

/-- `InodeDelete`, inode.c:379-402. -/
def inodeDelete (ci : Cinode) : IVM Unit := do
  if ci.nodeBuf = none then fail .einval
  else if ci.node.size ≠ 0 then do
    let (_, ci') ← runCi ci (dataTruncate c 0)
    inodeFree c ci'
  else inodeFree c ci

/-- `RedInodeLinkDec`, inode.c:339-365. -/
def inodeLinkDec (ci : Cinode) : IVM Unit := do
  if ci.nodeBuf = none then fail .einval
  else if 1 < ci.node.nlink then do
    let ci' ← inodeBranch c ci
    let _ ← runCi ci' (setNode fun n => { n with nlink := n.nlink - 1 })
    pure ()
  else inodeDelete c ci

/-- The loop over the blocks, dir.c:370-448: final `ulIdx`, the inode number stored to `*pulInode`
and `ulFreeIdx` (`none` is `DIR_INDEX_INVALID`). -/
def lookupLoop (name : List Ch) (len count : Nat) : Nat → Nat → Option Nat → IDM (Nat × Option Nat × Option Nat)
  | fuel, idx, free =>
    if count ≤ idx then pure (idx, none, free)
    else match fuel with
      | 0 => fail .hang
      | fuel + 1 => do
        if ← seekAndRead c (idx / c.dpb) then do
          let x ← dataBuf
          let last := min c.dpb (count - idx)
          match lookupBlock c x name len idx last 0 free with
          | (some (k, ino), free) => pure (k, some ino, free)
          | (none, free) => lookupLoop name len count fuel (idx + last) free
        else lookupLoop name len count fuel (idx + c.dpb) (if free = none then some idx else free)

/-- `RedDirEntryLookup`, dir.c:333-482.  (If the loop ran past the end, `*pulInode` would not be
set; the model then has 0.) -/
def dirLookup (name : List Ch) : IDM LookupRes := do
  let s ← get
  if s.ci.nodeBuf = none then fail .einval
  else if s.ci.dir = false then fail .enotdir
  else
    let len := nameLen c.sep name
    if len = 0 then fail .einval
    else if c.nameMax < len then fail .enametoolong
    else do
      let count := c.offIdx s.ci.node.size
      let (idx, ino, free) ← lookupLoop c name len count count 0 none
      if idx = count then
        pure (.missing (if free = none ∧ count < c.direntsMax then some count else free))
      else pure (.found idx (ino.getD 0))

/-- `DirEntryWrite`, dir.c:907-950. -/
def dirEntryWrite (idx ino : Nat) (name : List Ch) (len : Nat) : IDM Unit := do
  let s ← get
  if s.ci.dirty = false ∨ c.direntsMax ≤ idx ∨ (c.inodeValid ino = false ∧ ino ≠ 0) ∨ c.nameMax < len
      ∨ decide (len = 0) ≠ decide (ino = 0) then fail .einval
  else if s.ci.dir = false then fail .enotdir
  else do
    let _ ← dataWrite c (c.idxOff idx) c.ds (direntBytes ino name len)
    pure ()

/-- `RedDirEntryCreate`, dir.c:106-177. -/
def dirCreate (name : List Ch) (ino : Nat) : IDM Unit := do
  let s ← get
  if s.ci.dirty = false ∨ c.inodeValid ino = false then fail .einval
  else if s.ci.dir = false then fail .enotdir
  else
    let len := nameLen c.sep name
    if len = 0 then fail .einval
    else if c.nameMax < len then fail .enametoolong
    else if isDots name len then fail .einval
    else do
      match ← dirLookup c name with
      | .found _ _ => fail .eexist
      | .missing none => fail .enospc
      | .missing (some idx) => dirEntryWrite c idx ino name len

/-- The loop over the blocks, dir.c:224-258; `n` is `ulTruncIdx + 1`. -/
def trimLoop : Nat → Nat → IDM Nat
  | fuel, n =>
    if n = 0 then pure 0
    else match fuel with
      | 0 => fail .hang
      | fuel + 1 => do
        if ← seekAndRead c ((n - 1) / c.dpb) then do
          let x ← dataBuf
          let k := (n - 1) % c.dpb + 1
          let t := trimBlock c x k
          if t < k then pure (n - t) else trimLoop fuel (n - k)
        else trimLoop fuel (n - c.dpb)

/-- `RedDirEntryDelete`, dir.c:199-298. -/
def dirDelete (idx : Nat) : IDM Unit := do
  let s ← get
  if s.ci.dirty = false ∨ c.direntsMax ≤ idx then fail .einval
  else if s.ci.dir = false then fail .enotdir
  else if c.idxOff idx + c.ds = s.ci.node.size then do
    let n ← trimLoop c idx idx
    dataTruncate c (trimSize c n)
  else dirEntryWrite c idx 0 [] 0

/-- The loop of `RedDirEntryRead`, dir.c:537-586: the next entry in use, with its name and inode. -/
def readLoop (count : Nat) : Nat → Nat → IDM (Option (Nat × List Ch × Nat))
  | fuel, idx =>
    if count ≤ idx then pure none
    else match fuel with
      | 0 => fail .hang
      | fuel + 1 => do
        let b := idx / c.dpb
        if ← seekAndRead c b then do
          let x ← dataBuf
          let last := min c.dpb (count - b * c.dpb)
          match readBlock c x (last - idx % c.dpb) (idx % c.dpb) with
          | some k => pure (some (b * c.dpb + k, strNCpy (direntName c x k) c.nameMax, direntIno c x k))
          | none => readLoop count fuel (b * c.dpb + last)
        else readLoop count fuel (idx + (c.dpb - idx % c.dpb))

/-- `RedDirEntryRead`, dir.c:512-596.  Returns the new `*pulIdx`, the name (up to its terminator)
and the inode; `none` is ENOENT, with `*pulIdx` the number of entries. -/
def dirRead (idx : Nat) : IDM (Nat × Option (List Ch × Nat)) := do
  let s ← get
  if s.ci.nodeBuf = none then fail .einval
  else if s.ci.dir = false then fail .enotdir
  else do
    let count := c.offIdx s.ci.node.size
    match ← readLoop c count count idx with
    | some (k, name, ino) => pure (k + 1, some (name.takeWhile (· ≠ 0#8), ino))
    | none => pure (count, none)

/-- The loop of `DirCyclicRenameCheck`, dir.c:853-869; the fuel is what is left of the limit on
iterations.  Returns the last `NextParent.ulInode`, or `none` if the limit was reached. -/
def cyclicLoop (src : Nat) : Nat → Nat → IVM (Option Nat)
  | 0, _ => pure none
  | fuel + 1, next =>
    if next = src ∨ next = 2 ∨ next = 0 then pure (some next)
    else do
      let ci ← inodeMount c next .dir false
      cyclicLoop src fuel ci.node.pinode

/-- `DirCyclicRenameCheck`, dir.c:824-884. -/
def cyclicCheck (src : Nat) (dstP : Cinode) : IVM Unit := do
  if c.inodeValid src = false ∨ dstP.nodeBuf = none then fail .einval
  else if src = dstP.ino then fail .einval
  else if dstP.dir = false then fail .enotdir
  else do
    match ← cyclicLoop c src c.inodeCount dstP.node.pinode with
    | none => critical .efubar
    | some next => if src = next then fail .einval else pure ()

/-- Run an operation on `*pSrcPInode` / `*pDstPInode`; its status is returned. -/
def onSrcP {α : Type} (p : Parents) (m : IDM α) : IVM (Except Err α × Parents) := do
  let (r, ci) ← onCi p.src m
  pure (r, { p with src := ci })
def onDstP {α : Type} (p : Parents) (m : IDM α) : IVM (Except Err α × Parents) := do
  let (r, ci) ← onCi p.getDst m
  pure (r, match p.dst with
    | some _ => { p with dst := some ci }
    | none => { p with src := ci })

/-- Mounting the inode that is replaced, dir.c:736-748. -/
def renameReplaced (src : Cinode) (dstIno : Nat) : IVM (Option Cinode) :=
  if c.renameAtomic = true ∧ dstIno ≠ 0 then do
    let dst ← inodeMount c dstIno (if src.dir then .dir else .file) true
    if dst.dir = true ∧ 0 < dst.node.size then fail .enotempty else pure (some dst)
  else pure none

/-- Undoing the new entry when the old one could not be removed, dir.c:768-793. -/
def renameRevert {α : Type} (p : Parents) (dstIdx dstIno : Nat) (name : List Ch) (len : Nat) : IVM α := do
  let (r, _) ← onDstP p (if c.renameAtomic = true ∧ dstIno ≠ 0 then dirEntryWrite c dstIdx dstIno name len else dirDelete c dstIdx)
  match r with
  | .error e => critical e
  | .ok () => fail .enospc

/-- Writing the new entry and removing the old one, dir.c:758-794. -/
def renameEntries (p : Parents) (srcIno srcIdx dstIdx dstIno : Nat) (name : List Ch) (len : Nat) : IVM Parents := do
  let (r, p) ← onDstP p (dirEntryWrite c dstIdx srcIno name len)
  ofExcept r
  let (r, p) ← onSrcP p (dirDelete c srcIdx)
  match r with
  | .error e => if e = .enospc then renameRevert c p dstIdx dstIno name len else fail e
  | .ok () => pure p

/-- The rename proper, dir.c:734-799: the names have been looked up and refer to different inodes. -/
def renameMove (p : Parents) (srcIdx srcIno dstIdx dstIno : Nat) (name : List Ch) (len : Nat) : IVM (Option Cinode) := do
  let src ← inodeMount c srcIno .either true
  let dst ← renameReplaced c src dstIno
  if src.dir then cyclicCheck c src.ino p.getDst
  let p ← renameEntries c p src.ino srcIdx dstIdx dstIno name len
  let _ ← runCi src (setNode fun n => { n with pinode := p.getDst.ino })
  pure dst

/-- `RedDirEntryRename`, dir.c:647-804.  Returns the inode that was replaced. -/
def dirRename (p : Parents) (srcName dstName : List Ch) : IVM (Option Cinode) := do
  if p.src.dirty = false ∨ p.getDst.dirty = false then fail .einval
  else if p.src.dir = false ∨ p.getDst.dir = false then fail .enotdir
  else
    let len := nameLen c.sep dstName
    if isDots dstName len then fail .einval
    else do
      let (r, p) ← onSrcP p (dirLookup c srcName)
      match ← ofExcept r with
      | .missing _ => fail .enoent
      | .found srcIdx srcIno => do
        let (r, p) ← onDstP p (dirLookup c dstName)
        let (dstIdx, dstIno) ← renameTarget c r
        if c.renameAtomic = true ∧ srcIno = dstIno then pure none
        else renameMove c p srcIdx srcIno dstIdx dstIno dstName len

/-! ### core.c -/

/-- The checks in front of every modifying operation (e.g. core.c:1602-1609). -/
def whenRw {α : Type} (m : IVM α) : IVM α := do
  let v ← get
  if !v.mounted then fail .einval
  else if v.readOnly then fail .erofs
  else m

/-- The check in front of every query (e.g. core.c:1528-1531). -/
def whenMounted {α : Type} (m : IVM α) : IVM α := do
  let v ← get
  if !v.mounted then fail .einval else m

/-- The second check of the read-only flag (e.g. core.c:1668-1671). -/
def rwOp {α : Type} (m : IVM α) : IVM α := do
  let v ← get
  if v.readOnly then fail .erofs else m

/-- `CoreFileWrite`, core.c:1660-1687. -/
def coreFileWriteSub (ino start len : Nat) (buf : Nat → Byte) : IVM Nat := rwOp do
  let ci ← inodeMount c ino .file true
  let (n, _) ← runCi ci (dataWrite c start len buf)
  pure n

/-- `CoreFileTruncate`, core.c:1769-1802. -/
def coreFileTruncateSub (ino size : Nat) : IVM Unit := rwOp do
  let ci ← inodeMount c ino .file true
  setUseReserved c (decide (size < ci.node.size))
  let (r, _) ← onCi ci (dataTruncate c size)
  setUseReserved c false
  ofExcept r

/-- `RedCoreFileRead`, core.c:1520-1556. -/
def coreFileRead (ino start len : Nat) : IVM (List Byte) := whenMounted do
  let v ← get
  let ci ← inodeMount c ino .file (c.atime && decide (0 < len) && !v.readOnly)
  let (bs, _) ← runCi ci (dataRead c start len)
  pure bs

/-- `RedCoreStat`, core.c:1403-1446. -/
def coreStat (ino : Nat) : IVM Stat := whenMounted do
  let ci ← inodeMount c ino .either false
  pure ⟨ino, ci.node.mode, ci.node.nlink, ci.node.size, if c.inodeBlocks then ci.node.blocks else 0⟩

/-- `RedCoreFileSizeGet`, core.c:1464-1491. -/
def coreFileSizeGet (ino : Nat) : IVM Nat := whenMounted do
  let ci ← inodeMount c ino .file false
  pure ci.node.size

/-- `CoreCreate`, core.c:687-746: the new inode number. -/
def coreCreateSub (pino : Nat) (name : List Ch) (isDir : Bool) : IVM Nat := rwOp do
  let p ← inodeMount c pino .dir false
  let ci ← inodeCreate c 0 pino (if isDir then modeDir else modeReg)
  match ← attempt (do let p ← inodeBranch c p; runCi p (dirCreate c name ci.ino)) with
  | .ok _ => pure ci.ino
  | .error e => do
    -- ret2 = RedInodeFree(&ino); CRITICAL_ASSERT(ret2 == 0)
    match ← attempt (inodeFree c ci) with
    | .ok _ => fail e
    | .error _ => critical e

/-- `CoreLink`, core.c:851-919. -/
def coreLinkSub (pino : Nat) (name : List Ch) (ino : Nat) : IVM Unit := rwOp do
  let p ← inodeMount c pino .dir false
  match ← attempt (inodeMount c ino .file false) with
  | .error e => fail (if e = .eisdir then .eperm else e)
  | .ok ci =>
    if ci.node.nlink = 65535 then fail .emlink
    else do
      let p ← inodeBranch c p
      let ci ← inodeBranch c ci
      let _ ← runCi p (dirCreate c name ci.ino)
      let _ ← runCi ci (setNode fun n => { n with nlink := n.nlink + 1 })
      pure ()

/-- `CoreUnlink`, core.c:1028-1107. -/
def coreUnlinkSub (pino : Nat) (name : List Ch) : IVM Unit := rwOp do
  let p ← inodeMount c pino .dir false
  let (r, p) ← runCi p (dirLookup c name)
  match r with
  | .missing _ => fail .enoent
  | .found idx ino => do
    let p ← inodeBranch c p
    let ci ← inodeMount c ino .either false
    if ci.dir = true ∧ 0 < ci.node.size then fail .enotempty
    else do
      setUseReserved c true
      let (r, _) ← onCi p (dirDelete c idx)
      setUseReserved c false
      ofExcept r
      criticalAssert (inodeLinkDec c ci)

/-- `RedCoreLookup`, core.c:1130-1157. -/
def coreLookup (pino : Nat) (name : List Ch) : IVM Nat := whenMounted do
  let p ← inodeMount c pino .dir false
  let (r, _) ← runCi p (dirLookup c name)
  match r with
  | .missing _ => fail .enoent
  | .found _ ino => pure ino

/-- `CoreRename`, core.c:1296-1383. -/
def coreRenameSub (srcP : Nat) (srcName : List Ch) (dstP : Nat) (dstName : List Ch) : IVM Unit := rwOp do
  let sp ← inodeMount c srcP .dir true
  let dp ← if srcP = dstP then pure none else do
    let dp ← inodeMount c dstP .dir true
    pure (some dp)
  match ← dirRename c ⟨sp, dp⟩ srcName dstName with
  | none => pure ()
  | some dst => criticalAssert (inodeLinkDec c dst)

/-- `RedCoreDirRead`, core.c:1833-1870: the new position, and the name and inode of the entry
(`none` is ENOENT). -/
def coreDirRead (ino pos : Nat) : IVM (Nat × Option (List Ch × Nat)) := whenMounted do
  let v ← get
  let ci ← inodeMount c ino .dir false
  let (r, ci) ← runCi ci (dirRead c pos)
  if c.atime = true ∧ v.readOnly = false ∧ r.2.isSome = true then do
    let _ ← inodeBranch c ci
    pure r
  else pure r

/-- `RedCoreDirParent`, core.c:1889-1920. -/
def coreDirParent (ino : Nat) : IVM Nat := whenMounted do
  if ino = 2 then pure 0
  else do
    let ci ← inodeMount c ino .dir false
    pure ci.node.pinode

/-- `volFullRetry` (e.g. core.c:1612-1623). -/
def volFullRetry {α : Type} (m : IVM α) : IVM α := fun s => (do
  match ← attempt m with
  | .ok a => pure a
  | .error e => do
    let v ← get
    if e = .enospc ∧ v.on .volfull = true ∧ 0 < v.almostFree then do
      liftI (volTransactF s.dev.full)
      m
    else fail e : IVM α) s

/-- `eventTransact` (e.g. core.c:1625-1628). -/
def eventTransact (e : Event) : IVM Unit := fun s => (do
  let v ← get
  if v.on e then liftI (volTransactF s.dev.event) else pure () : IVM Unit) s

/-- The shape of every modifying operation of core.c. -/
def modifyingOp {α : Type} (ev : Event) (m : IVM α) : IVM α := whenRw do
  let a ← volFullRetry m
  eventTransact ev
  pure a

/-- `RedVolMountMaster`, volume.c:243-299. -/
def mountMaster : IVM Unit := do
  io
  liftI (RedFs.mountMaster c)

/-- `RedVolMountMetaroot`, volume.c:316-433.  The metaroots are read directly into `aMR`; if a read fails, what is there then is
arbitrary. -/
def mountMetaroot (ro : Bool) : IVM Unit := do
  ioOr fun d n v => { v with mr := d.junkMr n }
  ioOr fun d n v => { v with mr := d.junkMr n }
  liftI (RedFs.mountMetaroot c ro)

/-- `RedVolMount`, volume.c:181-229. -/
def volMount (ro : Bool) : IVM Unit := do
  match ← attempt (do mountMaster c; mountMetaroot c ro) with
  | .ok () => pure ()
  | .error e => do modify Vol.discardAll; fail e

/-- `RedVolRollback`, volume.c:621-653. -/
def volRollback : IVM Unit := do
  let v ← get
  if v.branched then criticalAssert do
    modify Vol.discardAll
    mountMaster c
    mountMetaroot c false
    modify fun v => { v with branched := false }
  else pure ()

/-- Mounting through the API. -/
def apiMount (ro : Bool) : IVM Unit := do
  let v ← get
  if v.mounted then (if c.posix then fail .ebusy else pure ()) else volMount c ro

/-- Turn the result of a call into a `Reply`. -/
def reply {α : Type} (f : α → Reply) (m : IVM α) : IVM Reply := do
  let a ← m
  pure (f a)

/-- The core API, core.c. -/
def execM : Call → IVM Reply
  | .create p name isDir => reply .num (modifyingOp (if isDir then .mkdir else .creat) (coreCreateSub c p name isDir))
  | .link p name ino => reply (fun _ => .unit) (modifyingOp .link (coreLinkSub c p name ino))
  | .unlink p name => reply (fun _ => .unit) (modifyingOp .unlink (coreUnlinkSub c p name))
  | .rename p name p' name' => reply (fun _ => .unit) (modifyingOp .rename (coreRenameSub c p name p' name'))
  | .lookup p name => reply .num (coreLookup c p name)
  | .dirRead p pos => reply (fun x => .entry x.1 x.2) (coreDirRead c p pos)
  | .dirParent p => reply .num (coreDirParent c p)
  | .write ino start len buf => reply .num (modifyingOp .write (coreFileWriteSub c ino start len buf))
  | .truncate ino size => reply (fun _ => .unit) (modifyingOp .truncate (coreFileTruncateSub c ino size))
  | .read ino start len => reply .bytes (coreFileRead c ino start len)
  | .stat ino => reply .stat (coreStat c ino)
  | .fileSize ino => reply .num (coreFileSizeGet c ino)
  | .rollback => reply (fun _ => .unit) (whenRw (volRollback c))
  | .mount ro => reply (fun _ => .unit) (apiMount c ro)
  | .transact => fun s => liftI (execF c s.dev.full s.dev.event .transact) s
  | .unmount => fun s => liftI (execF c s.dev.full s.dev.event .unmount) s
  | .statfs => liftI (exec c .statfs)
  | .maskSet mask => liftI (exec c (.maskSet mask))
  | .maskGet => liftI (exec c .maskGet)

/-- A call of the core API on the volume `v`, when the device will behave like `d`. -/
def execIo (d : Dev) (k : Call) (v : Vol) : Except Err Reply × Vol :=
  match execM c k ⟨v, d, 0, false⟩ with
  | (r, s) => (r, s.st)

end RedFs.Io
