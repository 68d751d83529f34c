import Verif.Model.Exec
/-!
Commits that fail: `RedVolTransact` (core/driver/volume.c:515-611) and the calls of core.c which commit,
on a block device that reports an error.

`Fault` says which of the device operations of a commit reports the error.  Nothing is assumed about
what such an operation has done to the blocks it was to write.

Simplifications, besides those of `Model/Volume.lean`: errors reported by other device operations
(reads, the write of an evicted buffer outside a commit, open and close of the device) are not modelled;
nor is what `REDCONF_ENDIAN_SWAP` builds leave in `gpRedMR` (DESIGN.md, finding 25).
-/
namespace RedFs
open M Bitmap Str

/-- The device operation of a commit that fails. -/
inductive Fault
  /-- a write of `RedBufferFlushRange` (volume.c:526), after `n` sequence numbers have been used -/
  | data (n : Nat)
  /-- the device flush before the metaroot is written (volume.c:572) -/
  | flush
  /-- the write of the metaroot (volume.c:577); the block reads as `x` now -/
  | metaroot (x : Blk)
  /-- the device flush after it (volume.c:589); the block of the metaroot reads as `x` now -/
  | flushAfter (x : Blk)

/-- Block `b`, not cached, reads as `x`. -/
def Vol.reads (v : Vol) (b : Nat) (x : Blk) : Vol := { v with stale := fun i => if i = b then x else v.stale i }

/-- `RedVolTransact`, volume.c:515-611, with the outcome `fl` of its device operations (`none`: all of
them succeed).  The steps are those of `volTransact`. -/
def volTransactF (fl : Option Fault) : VM Unit := do
  let v ← get
  if v.branched then criticalAssert do
    -- volume.c:523-524
    modify fun v => { v.setWork { v.work with freeBlocks := v.work.freeBlocks + v.almostFree } with
                      almostFree := 0 }
    match fl with
    | some (.data n) => do
      modify fun v => { v with seq := v.seq + n }
      fail .eio
    | _ => do
      modify fun v => { v with seq := v.seq + v.nodeWrites v.hist.length }
      modify fun v => v.setWork { v.work with seq := v.seq }
      modify fun v => { v with seq := v.seq + 1 }
      match fl with
      | some .flush => fail .eio
      | _ => do
        modify (·.flush none)
        modify fun v => v.write (mrBlk v.cur) (.metaroot v.work)
        match fl with
        | some (.metaroot x) => do
          modify fun v => v.reads (mrBlk v.cur) x
          fail .eio
        | some (.flushAfter x) => do
          modify fun v => v.reads (mrBlk v.cur) x
          fail .eio
        | _ => do
          modify fun v => v.flush (some v.work)
          modify fun v => { v with mr := fun i => if i = !v.cur then v.work else v.mr i
                                   cur := !v.cur, branched := false }
  else pure ()

/-- `volFullRetry` (e.g. core.c:1612-1623): if the commit fails, its error is returned. -/
def volFullRetryF {α : Type} (fl : Option Fault) (m : VM α) : VM α := do
  match ← attempt m with
  | .ok a => pure a
  | .error e => do
    let v ← get
    if e = .enospc ∧ v.on .volfull = true ∧ 0 < v.almostFree then do
      volTransactF fl
      m
    else fail e

/-- `eventTransact` (e.g. core.c:1625-1628). -/
def eventTransactF (fl : Option Fault) (e : Event) : VM Unit := do
  let v ← get
  if v.on e then volTransactF fl else pure ()

/-- The shape of every modifying operation of core.c; `f1` is the outcome of the commit that is made to
free space, `f2` that of the commit after the operation. -/
def modifyingOpF {α : Type} (f1 f2 : Option Fault) (ev : Event) (m : VM α) : VM α := whenRw do
  let a ← volFullRetryF f1 m
  eventTransactF f2 ev
  pure a

/-- `RedCoreVolUnmount`, core.c:323-350: if the commit fails the volume stays mounted. -/
def coreUnmountF (fl : Option Fault) : VM Unit := do
  let v ← get
  if !v.readOnly && v.transMask.testBit 0 then volTransactF fl else pure ()
  modify Vol.discardAll
  modify fun v => { v with mounted := false }

variable (c : Conf)

/-- `apiUnmount`. -/
def apiUnmountF (fl : Option Fault) : VM Unit := do
  let v ← get
  if v.mounted then coreUnmountF fl else (if c.posix then fail .einval else pure ())

/-- The core API, core.c, on a device that may report errors during commits.  Calls that do not commit
are as in `exec`. -/
def execF (f1 f2 : Option Fault) : Call → VM Reply
  | .create p name isDir => reply .num (modifyingOpF f1 f2 (if isDir then .mkdir else .creat) (coreCreateSub c p name isDir))
  | .link p name ino => reply (fun _ => .unit) (modifyingOpF f1 f2 .link (coreLinkSub c p name ino))
  | .unlink p name => reply (fun _ => .unit) (modifyingOpF f1 f2 .unlink (coreUnlinkSub c p name))
  | .rename p name p' name' => reply (fun _ => .unit) (modifyingOpF f1 f2 .rename (coreRenameSub c p name p' name'))
  | .write ino start len buf => reply .num (modifyingOpF f1 f2 .write (coreFileWriteSub c ino start len buf))
  | .truncate ino size => reply (fun _ => .unit) (modifyingOpF f1 f2 .truncate (coreFileTruncateSub c ino size))
  | .transact => reply (fun _ => .unit) (whenRw (volTransactF f2))
  | .unmount => reply (fun _ => .unit) (apiUnmountF c f2)
  | k => exec c k

end RedFs
