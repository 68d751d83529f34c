import Verif.Model.Path
/-!
Model of posix/posix.c, and of the volume prefixes of posix/path.c.

The functions are those of a build with `REDCONF_READ_ONLY == 0` and all optional calls compiled in;
`REDCONF_API_POSIX_CWD`, `REDCONF_RENAME_ATOMIC`, the numbers of volumes, handles and tasks are parameters.

Simplifications: arguments that are pointers are never NULL; `red_getcwd` returns the path rather than storing it, the
intermediate contents of its buffer are not modelled; `REDDIR *` is the index of the handle (an index outside the array stands for
any pointer that does not point to an element of it); the `dirent` of a handle is returned only; a call returns
`.error e` where the C function returns -1 or NULL and sets `red_errno` to `e`.
-/
namespace RedFs.Posix
open M Str Path

/-- The configuration. -/
structure PConf where
  /-- `REDCONF_VOLUME_COUNT` -/
  n : Nat
  /-- `gaRedVolConf[i].pszPathPrefix` -/
  pre : Nat → List Ch
  /-- the rest of the configuration, with the parameters of volume `i` -/
  conf : Nat → Conf
  /-- `REDCONF_PATH_SEPARATOR` -/
  sep : Ch
  /-- `REDCONF_API_POSIX_CWD == 1` -/
  cwd : Bool
  /-- `REDCONF_RENAME_ATOMIC == 1` -/
  atomic : Bool
  /-- `REDCONF_HANDLE_COUNT` -/
  handles : Nat
  /-- `REDCONF_TASK_COUNT` -/
  tasks : Nat
  /-- `REDCONF_TRANSACT_DEFAULT` -/
  transDefault : Nat

/-- `REDHANDLE`, posix.c:91-106; `bFlags` is split into its bits (posix.c:83-86). -/
structure Handle where
  ino : Nat
  vol : Nat
  dir : Bool
  readable : Bool
  writeable : Bool
  appending : Bool
  /-- `o.ullFileOffset` or `o.ulDirPosition` -/
  off : Nat

/-- `TASKSLOT`, posix.c:125-132. -/
structure Slot where
  task : Nat
  errno : Option Err
  cwdVol : Nat
  cwdIno : Nat

/-- The static variables of posix.c (lines 171-186), the current volume (`gbRedVolNum`) and the volumes. -/
structure PSt where
  inited : Bool
  handle : Nat → Handle
  slot : Nat → Slot
  gen : Nat → Nat
  /-- `iGlobalErrno`, posix.c:2676 -/
  gerrno : Option Err
  cur : Nat
  vols : Nat → Vol

abbrev PM := M PSt

/-- An array with one element replaced. -/
def upd {α : Type} (f : Nat → α) (i : Nat) (x : α) : Nat → α := fun j => if j = i then x else f j

variable (pc : PConf)

def PSt.setHandle (s : PSt) (i : Nat) (h : Handle) : PSt := { s with handle := upd s.handle i h }
def PSt.setSlot (s : PSt) (i : Nat) (x : Slot) : PSt := { s with slot := upd s.slot i x }

/-- Run an operation of the core on the current volume. -/
def onCur {α : Type} (m : Conf → VM α) : PM α := fun s =>
  ((m (pc.conf s.cur) (s.vols s.cur)).1, { s with vols := upd s.vols s.cur (m (pc.conf s.cur) (s.vols s.cur)).2 })

/-- `*gpRedVolume` -/
def curVol : PM Vol := fun s => (.ok (s.vols s.cur), s)

/-- `RedCoreVolSetCurrent`, core.c:229-252. -/
def setCur (i : Nat) : PM Unit := do
  if pc.n ≤ i then fail .einval else modify fun s => { s with cur := i }

/-! ### path.c: volumes -/

/-- The condition path.c:105-106. -/
def prefixMatches (path : List Ch) (i : Nat) : Bool :=
  decide (strNCmp path (pc.pre i) (strLen (pc.pre i)) = 0) &&
    (decide (cget path (strLen (pc.pre i)) = 0#8) || decide (cget path (strLen (pc.pre i)) = pc.sep))

/-- One iteration of the loop path.c:82-130.  The variables are `bMatchVol`, `ulMatchLen` and `bDefaultVolNum`. -/
def prefixStep (path : List Ch) (x : Option Nat × Nat × Option Nat) (i : Nat) : Option Nat × Nat × Option Nat :=
  let len := strLen (pc.pre i)
  if len = 0 then (x.1, x.2.1, some i)
  else if prefixMatches pc path i then (if x.2.1 < len then (some i, len, x.2.2) else x)
  else x

/-- The volume chosen by `RedPathVolumePrefixLookup`, path.c:65-168. -/
def prefixVol (path : List Ch) : Option Nat :=
  let x := (List.range pc.n).foldl (prefixStep pc path) (none, 0, none)
  match x.1 with
  | some i => some i
  | none => x.2.2

/-- `RedPathVolumePrefixLookup`, path.c:65-168. -/
def prefixLookup (path : List Ch) : PM Nat := do
  match prefixVol pc path with
  | none => fail .enoent
  | some i => do
    setCur pc i
    pure i

/-- `RedPathVolumeLookup`, path.c:190-222. -/
def volumeLookup (path : List Ch) : PM Nat := do
  let i ← prefixLookup pc path
  let s ← get
  let extra := path.drop (strLen (pc.pre s.cur))
  if extra ≠ [] ∧ isRootDir pc.sep extra = false then fail .enoent else pure i

/-! ### posix.c: tasks -/

/-- The search of `TaskRegister`, `CwdGet` and `red_errnoptr` (posix.c:3624-3629, 3691-3698, 2698-2704). -/
def taskIdx (t : Nat) (s : PSt) : Option Nat := (List.range pc.tasks).find? fun i => (s.slot i).task == t

/-- `TaskRegister`, posix.c:3611-3669; with one task there is nothing to register. -/
def taskRegister (t : Nat) : PM Nat := fun s =>
  if pc.tasks = 1 then (.ok 0, s)
  else match taskIdx pc t s with
    | some i => (.ok i, s)
    | none => match (List.range pc.tasks).find? fun i => (s.slot i).task == 0 with
      | none => (.error .eusers, s)
      | some i => (.ok i, s.setSlot i { s.slot i with task := t })

/-- `PosixEnter`, posix.c:3428-3452. -/
def posixEnter (t : Nat) : PM Unit := do
  let s ← get
  if s.inited then do
    let _ ← taskRegister pc t
    pure ()
  else fail .einval

/-- `red_errno = e`: `red_errnoptr`, posix.c:2670-2754. -/
def setErrno (t : Nat) (e : Err) (s : PSt) : PSt :=
  if pc.tasks = 1 then { s with gerrno := some e }
  else if s.inited then
    match taskRegister pc t s with
    | (.ok i, s) => s.setSlot i { s.slot i with errno := some e }
    | (.error _, s) => { s with gerrno := some e }
  else { s with gerrno := some e }

/-- `CwdGet`, posix.c:3678-3707: the index of the slot. -/
def cwdSlot (t : Nat) : PM Nat := do
  if pc.tasks = 1 then pure 0
  else do
    let s ← get
    match taskIdx pc t s with
    | some i => pure i
    | none => fail .efubar

/-- `CwdResetVol`, posix.c:3715-3738. -/
def cwdResetVol (vol : Nat) (s : PSt) : PSt :=
  if pc.cwd then
    { s with slot := fun i => if i < pc.tasks ∧ (s.slot i).cwdVol = vol then { s.slot i with cwdIno := 2 } else s.slot i }
  else s

/-- `CwdResetAll`, posix.c:3743-3759. -/
def cwdResetAll (s : PSt) : PSt :=
  if pc.cwd then
    { s with slot := fun i => if i < pc.tasks then { s.slot i with cwdVol := 0, cwdIno := 2 } else s.slot i }
  else s

/-! ### posix.c: paths and handles -/

/-- `PathStartingPoint`, posix.c:2875-2943: the volume, the directory to start from and the local path. -/
def startingPoint (t : Nat) (path : List Ch) : PM (Nat × Nat × List Ch) := do
  let r ← attempt (prefixLookup pc path)
  let s ← get
  let relative := match r with
    | .error e => decide (e = .enoent)
    | .ok _ => decide (cget (pc.pre s.cur) 0 = 0#8)
  if pc.cwd && relative && decide (cget path 0 ≠ pc.sep) && decide (cget path 0 ≠ 0#8) then do
    let i ← cwdSlot pc t
    setCur pc (s.slot i).cwdVol
    pure ((s.slot i).cwdVol, (s.slot i).cwdIno, path)
  else match r with
    | .error e => fail e
    | .ok i => pure (i, 2, path.drop (strLen (pc.pre s.cur)))

/-- `ModeTypeCheck`, posix.c:3483-3509. -/
def modeTypeCheck {σ : Type} (mode : Nat) (type : FType) : M σ Unit :=
  if type = .file ∧ mode = modeDir then fail .eisdir
  else if type = .dir ∧ mode = modeReg then fail .enotdir
  else pure ()

/-- `FD_MIN`, `FD_GEN_MAX`, `FD_VOL_MAX`, `FD_IDX_MAX`, posix.c:46-73. -/
def fdMin : Int := 3
def fdGenMax : Nat := 2047
def fdVolMax : Nat := 255
def fdIdxMax : Nat := 4095

/-- `FildesPack`, posix.c:3302-3336 (`none` is -1). -/
def fildesPack (idx vol : Nat) (s : PSt) : Option Int :=
  if pc.handles ≤ idx ∨ pc.n ≤ vol then none
  else
    let fd : Int := ((((s.gen vol) <<< 8 ||| vol) <<< 12 ||| idx : Nat) : Int)
    if fd < fdMin then none else some fd

/-- `FildesUnpack`, posix.c:3349-3377: handle index, volume and generation. -/
def fildesUnpack (fd : Int) : Nat × Nat × Nat :=
  let b := fd.toNat
  (b &&& fdIdxMax, (b >>> 12) &&& fdVolMax, (b >>> 12 >>> 8) &&& fdGenMax)

/-- `FildesToHandle`, posix.c:3242-3290: the index of the handle. -/
def fildesToHandle (fd : Int) (type : FType) : PM Nat := fun s =>
  if fd < fdMin then (.error .ebadf, s)
  else
    let x := fildesUnpack fd
    if pc.handles ≤ x.1 ∨ pc.n ≤ x.2.1 ∨ (s.handle x.1).ino = 0 ∨ (s.handle x.1).vol ≠ x.2.1 ∨ s.gen x.2.1 ≠ x.2.2 then
      (.error .ebadf, s)
    else if type = .file ∧ (s.handle x.1).dir = true then (.error .eisdir, s)
    else if type = .dir ∧ (s.handle x.1).dir = false then (.error .enotdir, s)
    else (.ok x.1, s)

/-- `InodeUnlinkCheck`, posix.c:3533-3591 (with `REDCONF_API_POSIX_LINK == 1`). -/
def inodeUnlinkCheck (ino : Nat) : PM Unit := do
  let st ← onCur pc fun c => coreStat c ino
  let s ← get
  if st.nlink = 1 then
    if (List.range pc.handles).any fun i => (s.handle i).ino == ino && (s.handle i).vol == s.cur then fail .ebusy
    else if pc.cwd && (List.range pc.tasks).any fun i => (s.slot i).cwdIno == ino && (s.slot i).cwdVol == s.cur then fail .ebusy
    else pure ()
  else pure ()

/-- `UnlinkSub`, posix.c:2798-2846. -/
def unlinkSub (t : Nat) (path : List Ch) (type : FType) : PM Unit := do
  let (_, start, localPath) ← startingPoint pc t path
  let (pino, name) ← onCur pc fun c => pathToName c pc.cwd start localPath .ebusy
  let ino ← onCur pc fun c => coreLookup c pino name
  if type ≠ .either then do
    let st ← onCur pc fun c => coreStat c ino
    modeTypeCheck st.mode type
  else pure ()
  inodeUnlinkCheck pc ino
  onCur pc fun c => coreUnlink c pino name

/-- The bits of `ulOpenMode`, include/redposix.h:56-74. -/
def oRdonly : Nat := 1
def oWronly : Nat := 2
def oRdwr : Nat := 4
def oAppend : Nat := 8
def oCreat : Nat := 16
def oExcl : Nat := 32
def oTrunc : Nat := 64
/-- `(ulOpenMode & bits) != 0` -/
def has (mode bits : Nat) : Bool := decide (mode &&& bits ≠ 0)

/-- `FildesOpen`, posix.c:2985-3163. -/
def fildesOpen (t : Nat) (path : List Ch) (mode : Nat) (type : FType) : PM Int := do
  let (vol, start, localPath) ← startingPoint pc t path
  let v ← curVol
  if v.readOnly = true ∧ mode ≠ oRdonly then fail .erofs
  else do
    let s ← get
    match (List.range pc.handles).find? fun i => (s.handle i).ino == 0 with
    | none => fail .emfile
    | some idx => do
      -- the inode, and whether it has been created
      let (ino, created) ← (
        if has mode oCreat then do
          let (pino, name) ← onCur pc fun c => pathToName c pc.cwd start localPath .eisdir
          match ← attempt (onCur pc fun c => coreCreate c pino name false) with
          | .ok i => pure (i, true)
          | .error e =>
            if e = .eexist ∧ has mode oExcl = false then do
              let i ← onCur pc fun c => coreLookup c pino name
              pure (i, false)
            else fail e
        else do
          let i ← onCur pc fun c => pathLookup c pc.cwd start localPath
          pure (i, false))
      let m ← (
        if created then pure 0
        else do
          let st ← onCur pc fun c => coreStat c ino
          modeTypeCheck st.mode type
          if st.mode = modeDir ∧ has mode oRdonly = false then fail .eisdir
          else do
            if has mode oTrunc then onCur pc fun c => coreFileTruncate c ino 0 else pure ()
            pure st.mode)
      modify fun s => s.setHandle idx
        { ino := ino, vol := vol, dir := decide (m = modeDir), readable := has mode oRdonly || has mode oRdwr
          writeable := has mode oWronly || has mode oRdwr, appending := has mode oAppend, off := 0 }
      let s ← get
      match fildesPack pc idx vol s with
      | none => fail .efubar
      | some fd => pure fd

/-- Commit the current volume if event `ev` is enabled: posix.c:363-370, 1819-1826, 3200-3207. -/
def transactIf (ev : Event) : PM Unit := do
  let mask ← onCur pc fun _ => coreTransMaskGet
  if mask.testBit ev.bit then onCur pc fun _ => coreVolTransact else pure ()

/-- `FildesClose`, posix.c:3176-3219. -/
def fildesClose (fd : Int) : PM Unit := do
  let idx ← fildesToHandle pc fd .either
  let s ← get
  setCur pc (s.handle idx).vol
  let v ← curVol
  if v.readOnly then pure () else transactIf pc .close
  modify fun s => s.setHandle idx { s.handle idx with ino := 0 }

/-- `DirStreamIsValid`, posix.c:3390-3416. -/
def dirStreamIsValid (idx : Nat) (s : PSt) : Bool :=
  decide (idx < pc.handles) && decide ((s.handle idx).ino ≠ 0) && decide ((s.handle idx).vol < pc.n) && (s.handle idx).dir

/-- `RedVolFormat`; the ghost `hist` is cleared. -/
def apiFormat (c : Conf) : VM Unit := fun v =>
  ((volFormat c v).1, if v.mounted then (volFormat c v).2 else { (volFormat c v).2 with hist := [] })

/-! ### The API -/

/-- A call of the API. -/
inductive PCall
  | init
  | uninit
  | sync
  | mount (vol : List Ch) (flags : Nat)
  | umount (vol : List Ch) (flags : Nat)
  | format (vol : List Ch)
  | transact (vol : List Ch)
  | rollback (vol : List Ch)
  | setMask (vol : List Ch) (mask : Nat)
  | getMask (vol : List Ch)
  | statvfs (vol : List Ch)
  | open (path : List Ch) (mode : Nat)
  | unlink (path : List Ch)
  | mkdir (path : List Ch)
  | rmdir (path : List Ch)
  | rename (old new : List Ch)
  | link (path hardLink : List Ch)
  | close (fd : Int)
  | read (fd : Int) (len : Nat)
  | write (fd : Int) (len : Nat) (buf : Nat → Byte)
  | fsync (fd : Int)
  | lseek (fd : Int) (off : Int) (whence : Nat)
  | ftruncate (fd : Int) (size : Nat)
  | fstat (fd : Int)
  | opendir (path : List Ch)
  | readdir (dir : Nat)
  | rewinddir (dir : Nat)
  | closedir (dir : Nat)
  | chdir (path : List Ch)
  | getcwd (size : Nat)

/-- What a call returns. -/
inductive PReply
  | unit
  | num (n : Nat)
  | fd (n : Int)
  | dir (idx : Nat)
  | bytes (bs : List Byte)
  | stat (st : Stat)
  | statfs (st : StatFs)
  | mask (m : Nat)
  /-- `none`: the end of the directory -/
  | dirent (e : Option (List Ch × Stat))
  | path (p : List Ch)

/-- `return PosixReturn(ret)` of a function without other result. -/
def unit (m : PM Unit) : PM PReply := do m; pure .unit

/-- The handles which refer to volume `vol`: posix.c:607-623, 775-784. -/
def busy (vol : Nat) (s : PSt) : Bool := (List.range pc.handles).any fun i => (s.handle i).ino != 0 && (s.handle i).vol == vol

/-- `red_sync`, posix.c:342-384, after `PosixEnter`: every volume is committed; an error does not stop the loop, the last
one is returned. -/
def syncLoop : Nat → PM Unit
  | 0 => pure ()
  | i + 1 => do
    let r1 ← attempt (syncLoop i)
    let s ← get
    if (s.vols i).mounted && !(s.vols i).readOnly then do
      match ← attempt (do setCur pc i; transactIf pc .sync) with
      | .ok _ => ofExcept r1
      | .error e => fail e
    else ofExcept r1

/-- `red_mount2`, posix.c:449-500.  (`RED_MOUNT_MASK` is `RED_MOUNT_READONLY`; it is checked by `RedVolMount`, volume.c:186-189.) -/
def pMount (path : List Ch) (flags : Nat) : PM Unit := do
  let _ ← volumeLookup pc path
  let v ← curVol
  if v.mounted then fail .ebusy
  else do
    onCur pc fun c => if flags &&& 1 ≠ flags then fail .einval else volMount c (decide (flags = 1))
    modify fun s =>
      { s with gen := upd s.gen s.cur (if fdGenMax < s.gen s.cur + 1 then 1 else s.gen s.cur + 1) }

/-- `red_umount2`, posix.c:573-644. -/
def pUmount (path : List Ch) (flags : Nat) : PM Unit := do
  if flags &&& 1 ≠ flags then fail .einval
  else do
    let _ ← volumeLookup pc path
    let v ← curVol
    if !v.mounted then fail .einval
    else do
      let s ← get
      if flags &&& 1 = 0 ∧ busy pc s.cur s = true then fail .ebusy
      else do
        modify fun s => { s with handle := fun i =>
          if i < pc.handles ∧ (s.handle i).ino ≠ 0 ∧ (s.handle i).vol = s.cur then { s.handle i with ino := 0 } else s.handle i }
        onCur pc fun _ => coreUnmount
        modify fun s => cwdResetVol pc s.cur s

/-- `red_rollback`, posix.c:757-808. -/
def pRollback (path : List Ch) : PM Unit := do
  let i ← volumeLookup pc path
  let s ← get
  if busy pc i s then fail .ebusy
  else do
    onCur pc fun c => coreVolRollback c
    modify (cwdResetVol pc i)

/-- The check of `ulOpenMode` in `red_open`, posix.c:1043-1049: is it refused? -/
def badMode (m : Nat) : Bool :=
  decide (m ≠ m &&& (oRdonly ||| oWronly ||| oRdwr ||| oAppend ||| oCreat ||| oExcl ||| oTrunc))
  || !has m (oRdonly ||| oWronly ||| oRdwr)
  || (has m oRdonly && has m (oWronly ||| oRdwr))
  || (has m oWronly && has m (oRdonly ||| oRdwr))
  || (has m oRdwr && has m (oRdonly ||| oWronly))
  || (has m (oTrunc ||| oCreat ||| oExcl) && has m oRdonly)
  || (has m oExcl && !has m oCreat)

/-- `red_open`, posix.c:1027-1074. -/
def pOpen (t : Nat) (path : List Ch) (mode : Nat) : PM Int :=
  if badMode mode then fail .einval else fildesOpen pc t path mode .either

/-- `red_mkdir`, posix.c:1169-1199. -/
def pMkdir (t : Nat) (path : List Ch) : PM Unit := do
  let (_, start, localPath) ← startingPoint pc t path
  let (pino, name) ← onCur pc fun c => pathToName c pc.cwd start localPath .eexist
  let _ ← onCur pc fun c => coreCreate c pino name true
  pure ()

/-- `red_rename`, posix.c:1338-1412. -/
def pRename (t : Nat) (old new : List Ch) : PM Unit := do
  let (vol, start, localPath) ← startingPoint pc t old
  let (vol', start', localPath') ← startingPoint pc t new
  if vol ≠ vol' then fail .exdev
  else do
    let (pino, name) ← onCur pc fun c => pathToName c pc.cwd start localPath .ebusy
    let (pino', name') ← onCur pc fun c => pathToName c pc.cwd start' localPath' .ebusy
    if pc.atomic then do
      match ← attempt (onCur pc fun c => coreLookup c pino' name') with
      | .ok dest => inodeUnlinkCheck pc dest
      | .error e => if e = .enoent then pure () else fail e
    else pure ()
    onCur pc fun c => coreRename c pino name pino' name'

/-- `red_link`, posix.c:1458-1508. -/
def pLink (t : Nat) (path hardLink : List Ch) : PM Unit := do
  let (vol, start, localPath) ← startingPoint pc t path
  let (vol', start', localPath') ← startingPoint pc t hardLink
  if vol ≠ vol' then fail .exdev
  else do
    let ino ← onCur pc fun c => pathLookup c pc.cwd start localPath
    let (pino, name) ← onCur pc fun c => pathToName c pc.cwd start' localPath' .eexist
    onCur pc fun c => coreLink c pino name ino

/-- `red_read`, posix.c:1587-1619. -/
def pRead (fd : Int) (len : Nat) : PM (List Byte) := do
  let idx ← fildesToHandle pc fd .file
  let s ← get
  if (s.handle idx).readable = false then fail .ebadf
  else do
    setCur pc (s.handle idx).vol
    let bs ← onCur pc fun c => coreFileRead c (s.handle idx).ino (s.handle idx).off len
    modify fun s => s.setHandle idx { s.handle idx with off := (s.handle idx).off + bs.length }
    pure bs

/-- `red_write`, posix.c:1693-1746. -/
def pWrite (fd : Int) (len : Nat) (buf : Nat → Byte) : PM Nat := do
  match ← attempt (fildesToHandle pc fd .file) with
  | .error e => fail (if e = .eisdir then .ebadf else e)
  | .ok idx => do
    let s ← get
    if (s.handle idx).writeable = false then fail .ebadf
    else do
      setCur pc (s.handle idx).vol
      if (s.handle idx).appending then do
        let st ← onCur pc fun c => coreStat c (s.handle idx).ino
        modify fun s => s.setHandle idx { s.handle idx with off := st.size }
      else pure ()
      let s ← get
      let n ← onCur pc fun c => coreFileWrite c (s.handle idx).ino (s.handle idx).off len buf
      modify fun s => s.setHandle idx { s.handle idx with off := (s.handle idx).off + n }
      pure n

/-- `red_fsync`, posix.c:1795-1833. -/
def pFsync (fd : Int) : PM Unit := do
  let idx ← fildesToHandle pc fd .either
  let s ← get
  setCur pc (s.handle idx).vol
  transactIf pc .fsync

/-- `INT64_MAX` -/
def int64Max : Nat := 9223372036854775807

/-- `red_lseek`, posix.c:1874-1977; `off` is a 64-bit signed number.  (Offsets and sizes are at most `INODE_SIZE_MAX`, so that the
conversions to `int64_t` do not change them; the test `llOffset > 0 && llFrom + llOffset > INT64_MAX` is made with unsigned
numbers.) -/
def pLseek (fd : Int) (off : Int) (whence : Nat) : PM Nat := do
  let idx ← fildesToHandle pc fd .file
  let s ← get
  setCur pc (s.handle idx).vol
  let origin ← (
    if whence = 0 then pure 0
    else if whence = 1 then pure (s.handle idx).off
    else if whence = 2 then do
      let st ← onCur pc fun c => coreStat c (s.handle idx).ino
      pure st.size
    else fail .einval)
  if 0 < off ∧ int64Max < (origin + off.toNat) % 18446744073709551616 then fail .einval
  else
    let new : Int := (origin : Int) + off
    if new < 0 ∨ (pc.conf (s.handle idx).vol).sizeMax < new.toNat then fail .einval
    else do
      modify fun s => s.setHandle idx { s.handle idx with off := new.toNat }
      pure new.toNat

/-- `red_ftruncate`, posix.c:2013-2054. -/
def pFtruncate (fd : Int) (size : Nat) : PM Unit := do
  match ← attempt (fildesToHandle pc fd .file) with
  | .error e => fail (if e = .eisdir then .ebadf else e)
  | .ok idx => do
    let s ← get
    if (s.handle idx).writeable = false then fail .ebadf
    else do
      setCur pc (s.handle idx).vol
      onCur pc fun c => coreFileTruncate c (s.handle idx).ino size

/-- `red_fstat`, posix.c:2075-2104. -/
def pFstat (fd : Int) : PM Stat := do
  let idx ← fildesToHandle pc fd .either
  let s ← get
  setCur pc (s.handle idx).vol
  onCur pc fun c => coreStat c (s.handle idx).ino

/-- `red_opendir`, posix.c:2127-2157: the index of the handle. -/
def pOpendir (t : Nat) (path : List Ch) : PM Nat := do
  let fd ← fildesOpen pc t path oRdonly .dir
  pure (fildesUnpack fd).1

/-- `red_readdir`, posix.c:2190-2248. -/
def pReaddir (idx : Nat) : PM (Option (List Ch × Stat)) := do
  let s ← get
  if dirStreamIsValid pc idx s = false then fail .ebadf
  else do
    setCur pc (s.handle idx).vol
    let (pos, e) ← onCur pc fun c => coreDirRead c (s.handle idx).ino (s.handle idx).off
    modify fun s => s.setHandle idx { s.handle idx with off := pos }
    match e with
    | none => pure none
    | some (name, ino) => do
      let st ← onCur pc fun c => coreStat c ino
      pure (some (name, st))

/-- `red_rewinddir`, posix.c:2262-2274. -/
def pRewinddir (idx : Nat) : PM Unit := do
  let s ← get
  if dirStreamIsValid pc idx s then modify fun s => s.setHandle idx { s.handle idx with off := 0 } else pure ()

/-- `red_closedir`, posix.c:2290-2313. -/
def pClosedir (idx : Nat) : PM Unit := do
  let s ← get
  if dirStreamIsValid pc idx s then modify fun s => s.setHandle idx { s.handle idx with ino := 0 } else fail .ebadf

/-- `red_chdir`, posix.c:2343-2406. -/
def pChdir (t : Nat) (path : List Ch) : PM Unit := do
  let (vol, start, localPath) ← startingPoint pc t path
  let ino ← onCur pc fun c => do
    let ino ← pathLookup c pc.cwd start localPath
    inodeMustBeDir c ino
    pure ino
  let i ← cwdSlot pc t
  modify fun s => s.setSlot i { s.slot i with cwdVol := vol, cwdIno := ino }

/-- The inner loop of `red_getcwd`, posix.c:2528-2550: the name of `ino` in directory `p`.  The first argument bounds the number of
iterations. -/
def cwdName (c : Conf) (p ino : Nat) : Nat → Nat → VM (List Ch)
  | 0, _ => fail .hang
  | fuel + 1, pos => do
    let (pos, e) ← coreDirRead c p pos
    match e with
    | none => fail .efubar
    | some (name, i) => if i = ino then pure name else cwdName c p ino fuel pos

/-- The outer loop of `red_getcwd`, posix.c:2510-2597.  `first` is the directory it starts from, `buf` the path found so far
(without the terminating NUL), `size` is `ulBufferSize`. -/
def cwdLoop (c : Conf) (size first : Nat) : Nat → Nat → List Ch → VM (List Ch)
  | 0, _, _ => fail .hang
  | fuel + 1, ino, buf =>
    if ino = 2 then pure buf
    else do
      let p ← coreDirParent c ino
      let name ← cwdName c p ino (c.direntsMax + 1) 0
      let name := name.take (nameLen c.sep name)
      let new := if ino ≠ first then name ++ [c.sep] else name
      if size < buf.length + 1 + new.length then fail .erange
      else cwdLoop c size first fuel p (new ++ buf)

/-- `red_getcwd`, posix.c:2453-2621. -/
def pGetcwd (t size : Nat) : PM (List Ch) := do
  let i ← cwdSlot pc t
  let s ← get
  setCur pc (s.slot i).cwdVol
  let buf ← onCur pc fun c => cwdLoop c size (s.slot i).cwdIno (c.inodeCount + 1) (s.slot i).cwdIno []
  let pre := pc.pre (s.slot i).cwdVol
  if size < buf.length + 1 + strLen pre + 1 then fail .erange
  else pure (pre.take (strLen pre) ++ pc.sep :: buf)

/-- The bodies of the functions of the API, between `PosixEnter` and `PosixLeave`. -/
def body (t : Nat) : PCall → PM PReply
  | .init => pure .unit
  | .uninit => do
    let s ← get
    if (List.range pc.n).any fun i => (s.vols i).mounted then fail .ebusy
    else do
      modify fun s => { s with inited := false }
      pure .unit
  | .sync => unit (syncLoop pc pc.n)
  | .mount vol flags => unit (pMount pc vol flags)
  | .umount vol flags => unit (pUmount pc vol flags)
  | .format vol => unit do
      let _ ← volumeLookup pc vol
      onCur pc fun c => apiFormat c
  | .transact vol => unit do
      let _ ← volumeLookup pc vol
      onCur pc fun _ => coreVolTransact
  | .rollback vol => unit (pRollback pc vol)
  | .setMask vol mask => unit do
      let _ ← volumeLookup pc vol
      onCur pc fun c => coreTransMaskSet c.transactMask mask
  | .getMask vol => do
      let _ ← volumeLookup pc vol
      let m ← onCur pc fun _ => coreTransMaskGet
      pure (.mask m)
  | .statvfs vol => do
      let _ ← volumeLookup pc vol
      let st ← onCur pc fun c => coreVolStat c
      pure (.statfs st)
  | .open path mode => do let fd ← pOpen pc t path mode; pure (.fd fd)
  | .unlink path => unit (unlinkSub pc t path .either)
  | .mkdir path => unit (pMkdir pc t path)
  | .rmdir path => unit (unlinkSub pc t path .dir)
  | .rename old new => unit (pRename pc t old new)
  | .link path hardLink => unit (pLink pc t path hardLink)
  | .close fd => unit (fildesClose pc fd)
  | .read fd len => do let bs ← pRead pc fd len; pure (.bytes bs)
  | .write fd len buf => do let n ← pWrite pc fd len buf; pure (.num n)
  | .fsync fd => unit (pFsync pc fd)
  | .lseek fd off whence => do let n ← pLseek pc fd off whence; pure (.num n)
  | .ftruncate fd size => unit (pFtruncate pc fd size)
  | .fstat fd => do let st ← pFstat pc fd; pure (.stat st)
  | .opendir path => do let i ← pOpendir pc t path; pure (.dir i)
  | .readdir dir => do let e ← pReaddir pc dir; pure (.dirent e)
  | .rewinddir dir => unit (pRewinddir pc dir)
  | .closedir dir => unit (pClosedir pc dir)
  | .chdir path => unit (pChdir pc t path)
  | .getcwd size => do let p ← pGetcwd pc t size; pure (.path p)

/-- What is checked before `PosixEnter`: posix.c:1578-1581, 1684-1687, 2444-2447. -/
def early : PCall → Bool
  | .read _ len => decide (2147483647 < len)
  | .write _ len _ => decide (2147483647 < len)
  | .getcwd size => decide (size = 0)
  | _ => false

/-- `red_init`, posix.c:211-239 (`RedCoreInit` succeeds if the configuration is right). -/
def redInit (s : PSt) : PSt :=
  if s.inited then s
  else
    { cwdResetAll pc { s with
        handle := fun i => if i < pc.handles then ⟨0, 0, false, false, false, false, 0⟩ else s.handle i
        slot := fun i => if i < pc.tasks then ⟨0, none, 0, 0⟩ else s.slot i
        vols := fun i => if i < pc.n then coreInit pc.transDefault (s.vols i) else s.vols i } with inited := true }

/-- Does the function set `red_errno`?  (`red_rewinddir` returns nothing.) -/
def setsErrno : PCall → Bool
  | .rewinddir _ => false
  | _ => true

/-- Is the call `red_uninit`? -/
def PCall.isUninit : PCall → Bool
  | .uninit => true
  | _ => false

/-- A call of the API by task `t`. -/
def pexec (t : Nat) (k : PCall) (s : PSt) : Except Err PReply × PSt :=
  match k with
  | .init => (.ok .unit, redInit pc s)
  | k =>
    if k.isUninit = true ∧ s.inited = false then (.ok .unit, s)
    else
      let x := (if early k then fail .einval else do posixEnter pc t; body pc t k : PM PReply) s
      match x.1 with
      | .ok a => (.ok a, x.2)
      | .error e => (.error e, if setsErrno k then setErrno pc t e x.2 else x.2)

end RedFs.Posix
