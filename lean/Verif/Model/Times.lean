import Verif.Model.Exec
/-!
Time stamps: the calls of core.c with what `RedInodePut` (inode.c:510-561) and `RedInodeCreate`
(inode.c:290-297) store in the fields `ulATime`, `ulMTime` and `ulCTime` of the inodes, and what
`RedCoreStat` returns of them.

The functions are those of `Model/CoreFile.lean` and `Model/CoreDir.lean` with the calls of
`RedInodePut` written out, on a state that has, besides the volume, the stamps of all inodes.

Simplifications: the stamps are kept beside the inode nodes, one set of them for the working state and
one for the committed state; a commit, a rollback and a mount copy one to the other.  A call of
`RedInodePut` without fields to update is left out: it only releases buffers.  The clock is a list of
readings, one for every call of `RedOsClockGetTime`.  Power loss and device errors are not
part of this model.
-/
namespace RedFs.Times
open RedFs M Bitmap Str

/-- `ulATime`, `ulMTime`, `ulCTime` of an inode, rednodes.h:148-152. -/
structure Stamp where
  a : Nat
  m : Nat
  c : Nat
deriving DecidableEq, Repr

structure Clk where
  /-- the stamps of the inodes in the working state -/
  work : Nat → Stamp
  /-- the stamps of the inodes in the committed state -/
  comm : Nat → Stamp
  /-- how often the clock has been read -/
  reads : Nat
  /-- `RedInodePut` was asked to update an inode that is not branched or not dirty: `REDERROR`, inode.c:527-530 -/
  red : Bool

/-- A volume and the stamps of its inodes. -/
structure St where
  v : Vol
  t : Clk

abbrev TM := M St

/-- Run an operation on the volume. -/
def lift {α : Type} (m : VM α) : TM α := fun s =>
  match m s.v with
  | (r, v) => (r, { s with v := v })
def vol : TM Vol := lift get
def setClk (f : Clk → Clk) : TM Unit := modify fun s => { s with t := f s.t }

/-- Store to the stamps of inode `i`. -/
def Clk.set (t : Clk) (i : Nat) (f : Stamp → Stamp) : Clk := { t with work := fun j => if j = i then f (t.work j) else t.work j }

/-- The fields of inode.c:534-551: `x` if the field is to be updated. -/
def Stamp.mark (s : Stamp) (a m ch : Bool) (x : Nat) : Stamp :=
  { a := if a then x else s.a, m := if m then x else s.m, c := if ch then x else s.c }

variable (c : Conf) (clk : Nat → Nat)

/-- `RedInodePut`, inode.c:510-561, with `IPUT_UPDATE_ATIME`, `IPUT_UPDATE_MTIME`, `IPUT_UPDATE_CTIME`. -/
def put (ci : Cinode) (a m ch : Bool) : TM Unit := do
  if ci.nodeBuf = none then pure ()
  else if c.timestamps = true ∧ (a || m || ch) = true then
    if ci.branched = false ∨ ci.dirty = false then setClk fun t => { t with red := true }
    else setClk fun t => { t.set ci.ino (fun s => s.mark (a && c.atime) m ch (clk t.reads)) with reads := t.reads + 1 }
  else pure ()

/-- `RedInodeCreate`, inode.c:201-323. -/
def create (ino0 pino mode : Nat) : TM Cinode := do
  let ci ← lift (inodeCreate c ino0 pino mode)
  (if c.timestamps = true then
    setClk fun t => { t.set ci.ino (fun s => s.mark true true true (clk t.reads)) with reads := t.reads + 1 }
   else pure ())
  pure ci

/-! ### volume.c -/

/-- `RedVolTransact`, volume.c:515-611: what is committed has the stamps of the working state. -/
def transact : TM Unit := do
  let v ← vol
  lift volTransact
  if v.branched then setClk fun t => { t with comm := t.work } else pure ()
/-- `RedVolRollback`, volume.c:621-653: the inode buffers are discarded. -/
def rollback : TM Unit := do
  let v ← vol
  lift (volRollback c)
  if v.branched then setClk fun t => { t with work := t.comm } else pure ()

/-! ### core.c: the shape of the calls (see Model/CoreFile.lean) -/

def whenRw {α : Type} (m : TM α) : TM α := do
  let v ← vol
  if !v.mounted then fail .einval
  else if v.readOnly then fail .erofs
  else m
def whenMounted {α : Type} (m : TM α) : TM α := do
  let v ← vol
  if !v.mounted then fail .einval else m
def rwOp {α : Type} (m : TM α) : TM α := do
  let v ← vol
  if v.readOnly then fail .erofs else m
/-- The retry after a commit, e.g. core.c:1612-1623. -/
def volFullRetry {α : Type} (m : TM α) : TM α := do
  match ← attempt m with
  | .ok a => pure a
  | .error e => do
    let v ← vol
    if e = .enospc ∧ v.on .volfull = true ∧ 0 < v.almostFree then do
      transact
      m
    else fail e
/-- The automatic transaction, e.g. core.c:1625-1628. -/
def eventTransact (e : Event) : TM Unit := do
  let v ← vol
  if v.on e then transact else pure ()
def modifyingOp {α : Type} (ev : Event) (m : TM α) : TM α := whenRw do
  let a ← volFullRetry m
  eventTransact ev
  pure a

/-! ### core.c: files -/

/-- `CoreFileWrite`, core.c:1660-1687. -/
def fileWriteSub (ino start len : Nat) (buf : Nat → Byte) : TM Nat := rwOp do
  let ci ← lift (inodeMount c ino .file true)
  let (n, ci) ← lift (runCi ci (dataWrite c start len buf))
  put c clk ci false true true
  pure n
/-- `CoreFileTruncate`, core.c:1769-1802. -/
def fileTruncateSub (ino size : Nat) : TM Unit := rwOp do
  let ci ← lift (inodeMount c ino .file true)
  lift (setUseReserved c (decide (size < ci.node.size)))
  let (r, ci) ← lift (onCi ci (dataTruncate c size))
  lift (setUseReserved c false)
  lift (ofExcept r)
  put c clk ci false true true
/-- `RedCoreFileRead`, core.c:1520-1556. -/
def fileRead (ino start len : Nat) : TM (List Byte) := whenMounted do
  let v ← vol
  let ci ← lift (inodeMount c ino .file (c.atime && decide (0 < len) && !v.readOnly))
  let (bs, ci) ← lift (runCi ci (dataRead c start len))
  put c clk ci (c.atime && decide (0 < len) && !v.readOnly) false false
  pure bs

/-! ### core.c: names -/

/-- `CoreCreate`, core.c:687-746. -/
def createSub (pino : Nat) (name : List Ch) (isDir : Bool) : TM Nat := rwOp do
  let p ← lift (inodeMount c pino .dir false)
  let ci ← create c clk 0 pino (if isDir then modeDir else modeReg)
  match ← attempt (do
      let p ← lift (inodeBranch c p)
      lift (runCi p (dirCreate c name ci.ino)) : TM (Unit × Cinode)) with
  | .ok (_, p) => do
    put c clk p false true true
    pure ci.ino
  | .error e => do
    match ← attempt (lift (inodeFree c ci)) with
    | .ok _ => fail e
    | .error _ => lift (critical e)
/-- `CoreLink`, core.c:851-919. -/
def linkSub (pino : Nat) (name : List Ch) (ino : Nat) : TM Unit := rwOp do
  let p ← lift (inodeMount c pino .dir false)
  match ← attempt (lift (inodeMount c ino .file false)) with
  | .error e => fail (if e = .eisdir then .eperm else e)
  | .ok ci =>
    if ci.node.nlink = 65535 then fail .emlink
    else do
      let p ← lift (inodeBranch c p)
      let ci ← lift (inodeBranch c ci)
      let (_, p) ← lift (runCi p (dirCreate c name ci.ino))
      let (_, ci) ← lift (runCi ci (setNode fun n => { n with nlink := n.nlink + 1 }))
      put c clk ci false false true
      put c clk p false true true
/-- `RedInodeLinkDec`, inode.c:339-365: the `CINODE` afterwards; `InodeDelete` leaves it without a buffer. -/
def linkDec (ci : Cinode) : VM Cinode := do
  if ci.nodeBuf = none then fail .einval
  else if 1 < ci.node.nlink then do
    let ci' ← inodeBranch c ci
    let (_, ci') ← runCi ci' (setNode fun n => { n with nlink := n.nlink - 1 })
    pure ci'
  else do
    inodeDelete c ci
    pure { ci with nodeBuf := none }
/-- `CoreUnlink`, core.c:1028-1107. -/
def unlinkSub (pino : Nat) (name : List Ch) : TM Unit := rwOp do
  let p ← lift (inodeMount c pino .dir false)
  let (r, p) ← lift (runCi p (dirLookup c name))
  match r with
  | .missing _ => fail .enoent
  | .found idx ino => do
    let p ← lift (inodeBranch c p)
    let ci ← lift (inodeMount c ino .either false)
    if ci.dir = true ∧ 0 < ci.node.size then fail .enotempty
    else do
      lift (setUseReserved c true)
      let (r, p) ← lift (onCi p (dirDelete c idx))
      lift (setUseReserved c false)
      lift (ofExcept r)
      let ci ← lift (criticalAssert (linkDec c ci))
      put c clk ci false false true
      put c clk p false true true
/-- `RedDirEntryRename`, dir.c:734-799 (`renameMove`), with the `CINODE` variables afterwards: the parents,
`SrcInode` and `DstInode`. -/
def renameMove (p : Parents) (srcIdx srcIno dstIdx dstIno : Nat) (name : List Ch) (len : Nat) : VM (Parents × Cinode × Option Cinode) := do
  let src ← inodeMount c srcIno .either true
  let dst ← renameReplaced c src dstIno
  if src.dir then cyclicCheck c src.ino p.getDst
  let p ← renameEntries c p src.ino srcIdx dstIdx dstIno name len
  let (_, src) ← runCi src (setNode fun n => { n with pinode := p.getDst.ino })
  pure (p, src, dst)
/-- `RedDirEntryRename`, dir.c:647-804; `none`: both names are names of the same inode. -/
def dirRename (p : Parents) (srcName dstName : List Ch) : VM (Option (Parents × Cinode × Option Cinode)) := do
  if p.src.dirty = false ∨ p.getDst.dirty = false then fail .einval
  else if p.src.dir = false ∨ p.getDst.dir = false then fail .enotdir
  else
    let len := nameLen c.sep dstName
    if isDots dstName len then fail .einval
    else do
      let (r, p) ← onSrcP p (dirLookup c srcName)
      match ← ofExcept r with
      | .missing _ => fail .enoent
      | .found srcIdx srcIno => do
        let (r, p) ← onDstP p (dirLookup c dstName)
        let (dstIdx, dstIno) ← renameTarget c r
        if c.renameAtomic = true ∧ srcIno = dstIno then pure none
        else do
          let x ← renameMove c p srcIdx srcIno dstIdx dstIno dstName len
          pure (some x)
/-- `CoreRename`, core.c:1296-1383.  If both parents are the same object its second `RedInodePut` finds no buffer. -/
def renameSub (srcP : Nat) (srcName : List Ch) (dstP : Nat) (dstName : List Ch) : TM Unit := rwOp do
  let sp ← lift (inodeMount c srcP .dir true)
  let dp ← if srcP = dstP then pure none else do
    let dp ← lift (inodeMount c dstP .dir true)
    pure (some dp)
  match ← lift (dirRename c ⟨sp, dp⟩ srcName dstName) with
  | none => pure ()
  | some (p, src, dst) => do
    (match dst with
     | none => pure ()
     | some dst => lift (criticalAssert (inodeLinkDec c dst)))
    put c clk src false false true
    put c clk p.getDst false true true
    put c clk (if p.dst.isSome then p.src else { p.src with nodeBuf := none }) false true true
/-- `RedCoreDirRead`, core.c:1833-1870. -/
def dirReadCall (ino pos : Nat) : TM (Nat × Option (List Ch × Nat)) := whenMounted do
  let v ← vol
  let ci ← lift (inodeMount c ino .dir false)
  let (r, ci) ← lift (runCi ci (dirRead c pos))
  if c.atime = true ∧ v.readOnly = false ∧ r.2.isSome = true then do
    let ci ← lift (inodeBranch c ci)
    put c clk ci true false false
    pure r
  else pure r
/-- `RedCoreStat`, core.c:1403-1446: the stamps are returned if the volume has them. -/
def stat (ino : Nat) : TM (RedFs.Stat × Option Stamp) := do
  let st ← lift (coreStat c ino)
  let s ← get
  pure (st, if c.timestamps then some (s.t.work ino) else none)

/-! ### The calls -/

/-- Mounting, Model/Exec.lean: the inodes are read from the disk. -/
def mountCall (ro : Bool) : TM Unit := do
  let v ← vol
  lift (apiMount c ro)
  if v.mounted then pure () else setClk fun t => { t with work := t.comm }
/-- `RedCoreVolUnmount`, core.c:323-350: buffers are discarded. -/
def unmountCall : TM Unit := do
  let v ← vol
  if v.mounted then do
    (if !v.readOnly && v.transMask.testBit 0 then transact else pure ())
    lift (modify Vol.discardAll)
    lift (modify fun v => { v with mounted := false })
  else lift (apiUnmount c)

/-- The core API, core.c. -/
def exec : Call → TM Reply
  | .create p name isDir => do
    let i ← modifyingOp (if isDir then .mkdir else .creat) (createSub c clk p name isDir)
    pure (.num i)
  | .link p name ino => do
    modifyingOp .link (linkSub c clk p name ino)
    pure .unit
  | .unlink p name => do
    modifyingOp .unlink (unlinkSub c clk p name)
    pure .unit
  | .rename p name p' name' => do
    modifyingOp .rename (renameSub c clk p name p' name')
    pure .unit
  | .write ino start len buf => do
    let n ← modifyingOp .write (fileWriteSub c clk ino start len buf)
    pure (.num n)
  | .truncate ino size => do
    modifyingOp .truncate (fileTruncateSub c clk ino size)
    pure .unit
  | .read ino start len => do
    let bs ← fileRead c clk ino start len
    pure (.bytes bs)
  | .dirRead p pos => do
    let x ← dirReadCall c clk p pos
    pure (.entry x.1 x.2)
  | .transact => do
    whenRw transact
    pure .unit
  | .rollback => do
    whenRw (rollback c)
    pure .unit
  | .mount ro => do
    mountCall c ro
    pure .unit
  | .unmount => do
    unmountCall c
    pure .unit
  | k => lift (RedFs.exec c k)

end RedFs.Times
