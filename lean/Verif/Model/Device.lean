import Verif.Model.BlockIo
/-!
The block device below the driver: bdev/bdev.c, and when volume.c, core.c and format.c open and close it.

The operating system's driver (`RedOsBDevOpen` etc., os/*/services/osbdev.c) is unknown: `Os` says what it
answers to each call.  All calls of it are recorded in a log, with the information whether they succeeded.
-/
namespace RedFs.Device
open RedFs BlockIo M

/-- The members of `VOLCONF` (include/redvolume.h:43-85) which concern the device.  0 is `SECTOR_SIZE_AUTO`
and `SECTOR_COUNT_AUTO` (include/redmacs.h:72-73). -/
structure VConf where
  secSize : Nat
  secCount : Nat
  offset : Nat
  retries : Nat

/-- `BDEVINFO`, include/redvolume.h. -/
structure Info where
  size : Nat
  count : Nat

/-- Calls of the operating system's driver. -/
inductive OsOp
  | opened (rw : Bool)
  | closed
  | geometry
  | read (r : Req)
  | write (r : Req)
  | flush
deriving DecidableEq

/-- What `RedOsBDevGetGeometry` answers. -/
inductive Geo
  | is (i : Info)
  /-- `-RED_ENOTSUPP` -/
  | notsupp
  | failed (e : Err)

/-- The operating system's driver: the status of its `n`-th call, and the geometry it reports. -/
structure Os where
  status : Nat → OsOp → Except Err Unit
  geo : Geo

/-- The state of one volume as far as the device is concerned. -/
structure St where
  /-- `gaRedBdevInfo[]` -/
  info : Info
  /-- `gaRedVolume[].ulBlockCount` -/
  blockCount : Nat
  /-- `gaRedVolume[].bBlockSectorShift` -/
  shift : Nat
  /-- `gaRedVolume[].fMounted` -/
  mounted : Bool
  /-- `gaRedVolume[].fReadOnly` -/
  readOnly : Bool
  /-- the calls of the operating system's driver, the oldest first, and whether they succeeded -/
  log : List (OsOp × Bool)

/-- After `RedCoreInit`: everything zero. -/
def St.init : St := ⟨⟨0, 0⟩, 0, 0, false, false, []⟩

abbrev DM := M St

variable (c : Conf) (inl ext : Bool) (vc : VConf) (os : Os)

/-- A call of the operating system's driver. -/
def osCall (op : OsOp) : DM Unit := fun s =>
  (os.status s.log.length op, { s with log := s.log ++ [(op, (os.status s.log.length op).toBool)] })

/-- `RedOsBDevGetGeometry`. -/
def osGeometry : DM Geo := fun s =>
  (.ok os.geo, { s with log := s.log ++ [(.geometry, match os.geo with | .is _ => true | _ => false)] })

/-- `VOLUME_SECTOR_LIMIT`, include/redmacs.h:174. -/
def limit (s : St) : Nat := u64 (vc.offset + s.info.count)

/-- bdev.c:74-147: find the geometry, or compare it with the one configured. -/
def bdevGeometry : DM Unit := do
  if vc.secCount = 0 ∨ vc.secSize = 0 then
    match ← osGeometry os with
    | .is i =>
      if vc.secCount ≠ 0 ∧ vc.secCount ≠ i.count then fail .einval
      else if vc.secSize ≠ 0 ∧ vc.secSize ≠ i.size then fail .einval
      else if vc.offset ≥ i.count then fail .einval
      else modify fun s => { s with info := ⟨i.size, i.count - vc.offset⟩ }
    | .notsupp => fail .enosys
    | .failed e => fail e
  else do
    modify fun s => { s with info := ⟨vc.secSize, vc.secCount⟩ }
    match ← osGeometry os with
    | .is i => do
      let s ← get
      if i.size = s.info.size ∧ limit vc s ≤ i.count then pure () else fail .einval
    | .notsupp => pure ()
    | .failed e => fail e

/-- `RedBDevOpen`, bdev.c:57-156.  (`-RED_ENOTSUPP`, which is returned to the caller if the geometry is to be
found but is not known, is written `enosys`.) -/
def bdevOpen (rw : Bool) : DM Unit := do
  osCall os (.opened rw)
  match ← attempt (bdevGeometry vc os) with
  | .ok () => pure ()
  | .error e => do
    let _ ← attempt (osCall os .closed)
    fail e

/-- `RedBDevClose`, bdev.c:179-194. -/
def bdevClose : DM Unit := osCall os .closed

/-- What blockio.c and `VOLUME_SECTOR_RANGE_IS_VALID` use. -/
def ioVol (s : St) : IoVol := ⟨s.blockCount, s.shift, vc.offset, s.info.count, vc.retries⟩

/-- `RedBDevRead`, bdev.c:216-236, and `RedBDevWrite`, bdev.c:259-279. -/
def bdevXfer (w : Bool) (r : Req) : DM Unit := do
  let s ← get
  if rangeValid (ioVol vc s) r then osCall os (if w then .write r else .read r) else fail .einval

/-- The retry loop of blockio.c (see `BlockIo.retryLoop`; for 255 retries the loop of the C code does not
end, `C37_retries_255_hangs`). -/
def retry (m : DM Unit) : Nat → DM Unit
  | 0 => m
  | n + 1 => do
    match ← attempt m with
    | .ok () => pure ()
    | .error _ => retry m n

/-- `RedIoRead`, blockio.c:56-97, and `RedIoWrite`, blockio.c:114-155. -/
def ioXfer (w : Bool) (start count : Nat) : DM Unit := do
  let s ← get
  if start ≥ s.blockCount ∨ s.blockCount - start < count ∨ count = 0 then fail .einval
  else retry (bdevXfer vc os w ⟨u64 (u64 (start <<< s.shift) + vc.offset), u32 (count <<< s.shift)⟩) vc.retries

/-- `RedIoFlush`, blockio.c:169-197. -/
def ioFlush : DM Unit := retry (osCall os .flush) vc.retries

/-- What the driver asks for: blocks from `start` on. -/
inductive Act
  | read (start count : Nat)
  | write (start count : Nat)
  | flush

/-- One of them. -/
def act : Act → DM Unit
  | .read start count => ioXfer vc os false start count
  | .write start count => ioXfer vc os true start count
  | .flush => ioFlush vc os

/-- Several of them, whatever their outcome.  (The driver stops after some errors; the list is arbitrary.) -/
def acts : List Act → DM Unit
  | [] => pure ()
  | a :: l => do
    let _ ← attempt (act vc os a)
    acts l

/-- `RedVolInitGeometry`, volume.c:65-168.  Simplified: when it fails the C code may already have changed the
block count and the shift; they are not used before it is called again. -/
def volGeometry : DM Unit := do
  let s ← get
  match initGeometry c inl ext ⟨s.info.size, s.info.count, vc.offset⟩ with
  | .ok g => modify fun s => { s with blockCount := g.blockCount, shift := g.shift }
  | .error e => fail e

/-- What happens to a volume: `l` is what the driver reads, writes and flushes, and `ok` whether the rest of
the call succeeds. -/
inductive Ev
  /-- mounting, not when mounted (posix.c:464-467, fse.c:174-181) -/
  | mount (ro : Bool) (l : List Act) (ok : Bool)
  /-- any call on a mounted volume -/
  | use (l : List Act)
  /-- `RedVolCriticalError`, volume.c:614-640 -/
  | critical
  /-- `ok`: the commit succeeds -/
  | unmount (l : List Act) (ok : Bool)
  | format (l : List Act)
  /-- `RedCoreInit`, core.c:80-189 (not when mounted) -/
  | init

/-- `RedVolMount`, volume.c:181-229. -/
def mount (ro : Bool) (l : List Act) (ok : Bool) : DM Unit := do
  let s ← get
  if s.mounted then fail .ebusy
  else do
    bdevOpen vc os (!ro)
    let r ← attempt (do
      volGeometry c inl ext vc
      acts vc os l
      if ok then pure () else fail .eio)
    match r with
    | .ok () => modify fun s => { s with mounted := true, readOnly := ro }
    | .error e => do
      let _ ← attempt (bdevClose os)
      fail e

/-- `RedCoreVolUnmount`, core.c:323-350. -/
def unmount (l : List Act) (ok : Bool) : DM Unit := do
  let s ← get
  if s.mounted then do
    acts vc os l
    if ok then do
      bdevClose os
      modify fun s => { s with mounted := false }
    else fail .eio
  else fail .einval

/-- `RedVolFormat`, format.c:44-255. -/
def format (l : List Act) : DM Unit := do
  let s ← get
  if s.mounted then fail .ebusy
  else do
    bdevOpen vc os true
    modify fun s => { s with readOnly := false }
    let r ← attempt (do
      volGeometry c inl ext vc
      acts vc os l)
    let r2 ← attempt (bdevClose os)
    match r with
    | .ok () => ofExcept r2
    | .error e => fail e

/-- One event. -/
def step : Ev → DM Unit
  | .mount ro l ok => mount c inl ext vc os ro l ok
  | .use l => do
    let s ← get
    if s.mounted then acts vc os l else fail .einval
  | .critical => modify fun s => { s with readOnly := true }
  | .unmount l ok => unmount vc os l ok
  | .format l => format c inl ext vc os l
  | .init => fun s => (.ok (), { St.init with log := s.log })

end RedFs.Device
