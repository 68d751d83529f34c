import Verif.Model.Link
/-!
The file operations of core/driver/core.c, as called by both APIs.

Simplifications: NULL checks and time stamps are left out.
-/
namespace RedFs
open M Bitmap

/-- The transaction events, include/redapimacs.h. -/
inductive Event | umount | creat | unlink | mkdir | rename | link | close | write | fsync | truncate | volfull | sync
deriving DecidableEq
/-- Bit number of the event in the mask (`RED_TRANSACT_*`, include/redapimacs.h). -/
def Event.bit : Event → Nat
  | .umount => 0 | .creat => 1 | .unlink => 2 | .mkdir => 3 | .rename => 4 | .link => 5
  | .close => 6 | .write => 7 | .fsync => 8 | .truncate => 9 | .volfull => 10 | .sync => 11
/-- `(gpRedVolume->ulTransMask & RED_TRANSACT_xxx) != 0`. -/
def Vol.on (v : Vol) (e : Event) : Bool := v.transMask.testBit e.bit

/-- The retry common to all modifying operations (e.g. core.c:1612-1623): out of space, but
committing would free something. -/
def volFullRetry {α : Type} (m : VM α) : VM α := do
  match ← attempt m with
  | .ok a => pure a
  | .error e => do
    let v ← get
    if e = .enospc ∧ v.on .volfull = true ∧ 0 < v.almostFree then do
      volTransact
      m
    else fail e

/-- The automatic transaction after a successful operation (e.g. core.c:1625-1628). -/
def eventTransact (e : Event) : VM Unit := do
  let v ← get
  if v.on e then volTransact else pure ()

/-- The checks in front of every modifying operation (e.g. core.c:1602-1609). -/
def whenRw {α : Type} (m : VM α) : VM α := do
  let v ← get
  if !v.mounted then fail .einval
  else if v.readOnly then fail .erofs
  else m

/-- The check in front of every query (e.g. core.c:1528-1531). -/
def whenMounted {α : Type} (m : VM α) : VM α := do
  let v ← get
  if !v.mounted then fail .einval else m

/-- The shape of every modifying operation of core.c. -/
def modifyingOp {α : Type} (ev : Event) (m : VM α) : VM α := whenRw do
  let a ← volFullRetry m
  eventTransact ev
  pure a

/-- The second check of the read-only flag (e.g. core.c:1668-1671). -/
def rwOp {α : Type} (m : VM α) : VM α := do
  let v ← get
  if v.readOnly then fail .erofs else m

variable (c : Conf)

/-- `CoreFileWrite`, core.c:1660-1687. -/
def coreFileWriteSub (ino start len : Nat) (buf : Nat → Byte) : VM Nat := rwOp do
  let ci ← inodeMount c ino .file true
  let (n, _) ← runCi ci (dataWrite c start len buf)
  pure n

/-- `RedCoreFileWrite`, core.c:1596-1635: the number of bytes written. -/
def coreFileWrite (ino start len : Nat) (buf : Nat → Byte) : VM Nat :=
  modifyingOp .write (coreFileWriteSub c ino start len buf)

/-- `gpRedCoreVol->fUseReservedBlocks = b` (only if `RESERVED_BLOCKS > 0`). -/
def setUseReserved (b : Bool) : VM Unit :=
  if 0 < c.reserved then modify fun v => { v with useReserved := b } else pure ()

/-- `CoreFileTruncate`, core.c:1769-1802. -/
def coreFileTruncateSub (ino size : Nat) : VM Unit := rwOp do
  let ci ← inodeMount c ino .file true
  setUseReserved c (decide (size < ci.node.size))
  let (r, _) ← onCi ci (dataTruncate c size)
  setUseReserved c false
  ofExcept r

/-- `RedCoreFileTruncate`, core.c:1714-1751. -/
def coreFileTruncate (ino size : Nat) : VM Unit := modifyingOp .truncate (coreFileTruncateSub c ino size)

/-- `RedCoreFileRead`, core.c:1520-1556. -/
def coreFileRead (ino start len : Nat) : VM (List Byte) := whenMounted do
  let v ← get
  let ci ← inodeMount c ino .file (c.atime && decide (0 < len) && !v.readOnly)
  let (bs, _) ← runCi ci (dataRead c start len)
  pure bs

/-- The fields of `REDSTAT` which are modelled. -/
structure Stat where
  ino : Nat
  mode : Nat
  nlink : Nat
  size : Nat
  blocks : Nat
deriving DecidableEq

/-- `RedCoreStat`, core.c:1403-1446. -/
def coreStat (ino : Nat) : VM Stat := whenMounted do
  let ci ← inodeMount c ino .either false
  pure ⟨ino, ci.node.mode, ci.node.nlink, ci.node.size, if c.inodeBlocks then ci.node.blocks else 0⟩

/-- `RedCoreFileSizeGet`, core.c:1464-1491. -/
def coreFileSizeGet (ino : Nat) : VM Nat := whenMounted do
  let ci ← inodeMount c ino .file false
  pure ci.node.size

/-- The fields of `REDSTATFS` which are modelled. -/
structure StatFs where
  blocks : Nat
  bfree : Nat
  files : Nat
  ffree : Nat
  readOnly : Bool
deriving DecidableEq

/-- `RedCoreVolStat`, core.c:436-478. -/
def coreVolStat : VM StatFs := whenMounted do
  let v ← get
  pure ⟨c.blockCount, v.work.freeBlocks - c.reserved, c.inodeCount, v.work.freeInodes, v.readOnly⟩

/-- `RedCoreTransMaskSet`, core.c:524-544; `valid` is `RED_TRANSACT_MASK`. -/
def coreTransMaskSet (valid mask : Nat) : VM Unit := do
  let v ← get
  if !v.mounted || decide (mask &&& valid ≠ mask) then fail .einval
  else if v.readOnly then fail .erofs
  else modify fun v => { v with transMask := mask }

/-- `RedCoreTransMaskGet`, core.c:562-582. -/
def coreTransMaskGet : VM Nat := whenMounted do
  let v ← get
  pure v.transMask

end RedFs
