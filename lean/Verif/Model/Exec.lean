import Verif.Model.CoreDir
import Verif.Model.Format
/-!
The calls of the core API (core/include/redcoreapi.h) on one volume, as one function.

The APIs above it (posix/posix.c, fse/fse.c) call the core once per operation on an object; what they
add to a call - paths, file descriptors, current volume - is not part of this file.
-/
namespace RedFs
open M Bitmap Str

/-- One call on a volume. -/
inductive Call
  | create (p : Nat) (name : List Ch) (isDir : Bool)
  | link (p : Nat) (name : List Ch) (ino : Nat)
  | unlink (p : Nat) (name : List Ch)
  | rename (p : Nat) (name : List Ch) (p' : Nat) (name' : List Ch)
  | lookup (p : Nat) (name : List Ch)
  | dirRead (p pos : Nat)
  | dirParent (p : Nat)
  | write (ino start len : Nat) (buf : Nat → Byte)
  | truncate (ino size : Nat)
  | read (ino start len : Nat)
  | stat (ino : Nat)
  | fileSize (ino : Nat)
  | statfs
  | maskSet (mask : Nat)
  | maskGet
  | transact
  | rollback
  | mount (ro : Bool)
  | unmount

/-- What a call returns. -/
inductive Reply
  | unit
  | num (n : Nat)
  | bytes (bs : List Byte)
  | entry (pos : Nat) (e : Option (List Ch × Nat))
  | stat (st : Stat)
  | statfs (st : StatFs)

variable (c : Conf)

/-- `RED_TRANSACT_MASK`, include/redapimacs.h:110-140, in a POSIX build with all optional calls
compiled in, or in an FSE build. -/
def Conf.transactMask : Nat := if c.posix then 4095 else 1 + 128 + (if c.canTruncate then 512 else 0) + 1024

/-- Mounting through the API: a mounted volume gives EBUSY in `red_mount2` (posix.c:464-467), and is
left as it is by `RedFseMount` (fse.c:174-181). -/
def apiMount (ro : Bool) : VM Unit := do
  let v ← get
  if v.mounted then (if c.posix then fail .ebusy else pure ()) else volMount c ro

/-- Unmounting through the API: a volume that is not mounted gives EINVAL in `red_umount2`
(posix.c:594-597), and is left as it is by `RedFseUnmount` (fse.c:215-222). -/
def apiUnmount : VM Unit := do
  let v ← get
  if v.mounted then coreUnmount else (if c.posix then fail .einval else pure ())

/-- `RedCoreInit`, core.c:80-189, for one volume: all buffers are dropped, all run-time variables zeroed, and the transaction
mask set to `REDCONF_TRANSACT_DEFAULT`.  (`dirty`, `base` and `hist` describe the device, not the driver.) -/
def coreInit (mask : Nat) (v : Vol) : Vol :=
  { v.discardAll with mr := fun _ => ⟨0, 0, 0, 0, fun _ => 0⟩, cur := false, branched := false, almostFree := 0, useReserved := false
                      mounted := false, readOnly := false, seq := 0, transMask := mask }

/-- Turn the result of a call into a `Reply`. -/
def reply {α : Type} (f : α → Reply) (m : VM α) : VM Reply := do
  let a ← m
  pure (f a)

/-- The core API: core.c. -/
def exec : Call → VM Reply
  | .create p name isDir => reply .num (coreCreate c p name isDir)
  | .link p name ino => reply (fun _ => .unit) (coreLink c p name ino)
  | .unlink p name => reply (fun _ => .unit) (coreUnlink c p name)
  | .rename p name p' name' => reply (fun _ => .unit) (coreRename c p name p' name')
  | .lookup p name => reply .num (coreLookup c p name)
  | .dirRead p pos => reply (fun x => .entry x.1 x.2) (coreDirRead c p pos)
  | .dirParent p => reply .num (coreDirParent c p)
  | .write ino start len buf => reply .num (coreFileWrite c ino start len buf)
  | .truncate ino size => reply (fun _ => .unit) (coreFileTruncate c ino size)
  | .read ino start len => reply .bytes (coreFileRead c ino start len)
  | .stat ino => reply .stat (coreStat c ino)
  | .fileSize ino => reply .num (coreFileSizeGet c ino)
  | .statfs => reply .statfs (coreVolStat c)
  | .maskSet mask => reply (fun _ => .unit) (coreTransMaskSet c.transactMask mask)
  | .maskGet => reply .num coreTransMaskGet
  | .transact => reply (fun _ => .unit) coreVolTransact
  | .rollback => reply (fun _ => .unit) (coreVolRollback c)
  | .mount ro => reply (fun _ => .unit) (apiMount c ro)
  | .unmount => reply (fun _ => .unit) (apiUnmount c)

end RedFs
