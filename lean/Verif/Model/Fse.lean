import Verif.Model.Exec
/-!
Model of fse/fse.c, the File System Essentials API, and of `RedCoreVolSetCurrent` (core.c:236-259).

The functions are those of a build with `REDCONF_READ_ONLY == 0` and all optional calls compiled in.

Simplifications: pointers are never NULL, and the bytes read are returned rather than stored;
`RedCoreInit` and `RedCoreUninit` succeed (there are no errors of the operating system services);
the mutex is not modelled, each call is one step.
-/
namespace RedFs.Fse
open M

/-- The configuration. -/
structure FConf where
  /-- `REDCONF_VOLUME_COUNT` -/
  n : Nat
  /-- the rest of the configuration, with the parameters of volume `i` -/
  conf : Nat → Conf
  /-- `REDCONF_TRANSACT_DEFAULT` -/
  transDefault : Nat

/-- `gfFseInited` (fse.c:43), the current volume (`gbRedVolNum`) and the volumes. -/
structure FSt where
  inited : Bool
  cur : Nat
  vols : Nat → Vol

abbrev FM := M FSt

/-- A call of the API.  Volumes and files are given by their numbers. -/
inductive FCall
  | init
  | uninit
  | mount (vol : Nat)
  | unmount (vol : Nat)
  | format (vol : Nat)
  | read (vol file off len : Nat)
  | write (vol file off len : Nat) (buf : Nat → Byte)
  | truncate (vol file size : Nat)
  | sizeGet (vol file : Nat)
  | maskSet (vol mask : Nat)
  | maskGet (vol : Nat)
  | transact (vol : Nat)
  | rollback (vol : Nat)

variable (fc : FConf)

/-- `INT32_MAX` -/
def int32Max : Nat := 2147483647

/-- Run an operation of the core on the current volume. -/
def onCur {α : Type} (m : Conf → VM α) : FM α := fun s =>
  ((m (fc.conf s.cur) (s.vols s.cur)).1, { s with vols := fun j => if j = s.cur then (m (fc.conf s.cur) (s.vols s.cur)).2 else s.vols j })

/-- `RedCoreVolSetCurrent`, core.c:236-259. -/
def volSetCurrent (vol : Nat) : FM Unit := do
  if fc.n ≤ vol then fail .einval
  else M.modify fun s => { s with cur := vol }

/-- `FseEnter`, fse.c:683-712. -/
def fseEnter (vol : Nat) : FM Unit := do
  let s ← get
  if s.inited then volSetCurrent fc vol
  else fail .einval

/-- `RedFseInit`, fse.c:64-83, and `RedCoreInit`, which initializes every volume. -/
def fseInit : FM Unit := do
  let s ← get
  if s.inited then pure ()
  else M.modify fun s => { s with inited := true, vols := fun i => if i < fc.n then coreInit fc.transDefault (s.vols i) else s.vols i }

/-- `RedFseUninit`, fse.c:103-144. -/
def fseUninit : FM Unit := do
  let s ← get
  if s.inited then
    if (List.range fc.n).any (fun i => (s.vols i).mounted) then fail .ebusy
    else M.modify fun s => { s with inited := false }
  else pure ()

/-- `RedFseMount`, fse.c:165-183. -/
def fseMount (vol : Nat) : FM Unit := do
  fseEnter fc vol
  let s ← get
  if (s.vols s.cur).mounted then pure ()
  else onCur fc fun c => volMount c false

/-- `RedFseUnmount`, fse.c:215-233. -/
def fseUnmount (vol : Nat) : FM Unit := do
  fseEnter fc vol
  let s ← get
  if (s.vols s.cur).mounted then onCur fc fun _ => coreUnmount
  else pure ()

/-- `RedFseFormat`, fse.c:254-269. -/
def fseFormat (vol : Nat) : FM Unit := do
  fseEnter fc vol
  onCur fc fun c => volFormat c

/-- `RedFseRead`, fse.c:301-334.  The result is the number of bytes read; here these bytes. -/
def fseRead (vol file off len : Nat) : FM (List Byte) := do
  if int32Max < len then fail .einval
  else
    fseEnter fc vol
    onCur fc fun c => coreFileRead c file off len

/-- `RedFseWrite`, fse.c:376-409. -/
def fseWrite (vol file off len : Nat) (buf : Nat → Byte) : FM Nat := do
  if int32Max < len then fail .einval
  else
    fseEnter fc vol
    onCur fc fun c => coreFileWrite c file off len buf

/-- `RedFseTruncate`, fse.c:443-460. -/
def fseTruncate (vol file size : Nat) : FM Unit := do
  fseEnter fc vol
  onCur fc fun c => coreFileTruncate c file size

/-- `RedFseSizeGet`, fse.c:477-506. -/
def fseSizeGet (vol file : Nat) : FM Nat := do
  fseEnter fc vol
  onCur fc fun c => coreFileSizeGet c file

/-- `RedFseTransMaskSet`, fse.c:538-554. -/
def fseTransMaskSet (vol mask : Nat) : FM Unit := do
  fseEnter fc vol
  onCur fc fun c => coreTransMaskSet c.transactMask mask

/-- `RedFseTransMaskGet`, fse.c:575-591. -/
def fseTransMaskGet (vol : Nat) : FM Nat := do
  fseEnter fc vol
  onCur fc fun _ => coreTransMaskGet

/-- `RedFseTransact`, fse.c:615-630. -/
def fseTransact (vol : Nat) : FM Unit := do
  fseEnter fc vol
  onCur fc fun _ => coreVolTransact

/-- `RedFseRollback`, fse.c:652-667. -/
def fseRollback (vol : Nat) : FM Unit := do
  fseEnter fc vol
  onCur fc fun c => coreVolRollback c

/-- What a call returns. -/
inductive FReply
  | unit
  | num (n : Nat)
  | bytes (bs : List Byte)

/-- The result as an `FReply`. -/
def ret {α : Type} (f : α → FReply) (m : FM α) : FM FReply := do
  let a ← m
  pure (f a)

/-- The API: fse.c. -/
def fexec : FCall → FM FReply
  | .init => ret (fun _ => .unit) (fseInit fc)
  | .uninit => ret (fun _ => .unit) (fseUninit fc)
  | .mount vol => ret (fun _ => .unit) (fseMount fc vol)
  | .unmount vol => ret (fun _ => .unit) (fseUnmount fc vol)
  | .format vol => ret (fun _ => .unit) (fseFormat fc vol)
  | .read vol file off len => ret .bytes (fseRead fc vol file off len)
  | .write vol file off len buf => ret .num (fseWrite fc vol file off len buf)
  | .truncate vol file size => ret (fun _ => .unit) (fseTruncate fc vol file size)
  | .sizeGet vol file => ret .num (fseSizeGet fc vol file)
  | .maskSet vol mask => ret (fun _ => .unit) (fseTransMaskSet fc vol mask)
  | .maskGet vol => ret .num (fseTransMaskGet fc vol)
  | .transact vol => ret (fun _ => .unit) (fseTransact fc vol)
  | .rollback vol => ret (fun _ => .unit) (fseRollback fc vol)

end RedFs.Fse
