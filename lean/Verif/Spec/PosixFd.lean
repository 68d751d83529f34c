import Verif.Spec.Posix
/-!
The POSIX API: file descriptors, directory streams and volumes.
-/
namespace RedFs.Posix
open Str Spec

variable (pc : PConf)

/-- The descriptor of handle `k` on volume `vol`. -/
def PSt.fd (s : PSt) (vol k : Nat) : Int := ((s.gen vol * 1048576 + vol * 4096 + k : Nat) : Int)

/-- The handle `k` is in use, and `fd` is its descriptor. -/
def IsFd (s : PSt) (fd : Int) (k : Nat) : Prop := k < pc.handles ∧ (s.handle k).ino ≠ 0 ∧ fd = s.fd (s.handle k).vol k

/-- Why `fd` cannot be used as the descriptor of a file. -/
def BadFile (s : PSt) (fd : Int) (e : Err) : Prop :=
  (e = .ebadf ∧ ∀ k, ¬ IsFd pc s fd k) ∨ (e = .eisdir ∧ ∃ k, IsFd pc s fd k ∧ (s.handle k).dir = true)

/-- The descriptor of a file. -/
def FileFd (s : PSt) (fd : Int) (k : Nat) : Prop := IsFd pc s fd k ∧ (s.handle k).dir = false

/-- A file has been opened: the first free handle is in use, and its descriptor is the result. -/
def Opened (s : PSt) (vol ino mode : Nat) (dir : Bool) (r : Except Err Int) (s' : PSt) : Prop :=
  ∃ k, k < pc.handles ∧ (s.handle k).ino = 0 ∧ (∀ j, j < k → (s.handle j).ino ≠ 0) ∧ r = .ok (s.fd vol k) ∧
    s'.handle = upd s.handle k
      { ino := ino, vol := vol, dir := dir, readable := has mode oRdonly || has mode oRdwr, writeable := has mode oWronly || has mode oRdwr
        appending := has mode oAppend, off := 0 }

/-- `FildesOpen` of an inode that exists; `type`: what it must be. -/
def OpenExisting (vol i mode : Nat) (type : FType) (s : PSt) (r : Except Err Int) (s' : PSt) : Prop :=
  -- it is not a directory, or is one
  (type = .dir ∧ (∃ f, IsReg (s.files pc vol) i f) ∧ r = .error .enotdir ∧ OnVol pc vol s s' (fun F F' => F' = F) ∧ s'.handle = s.handle) ∨
  (has mode oRdonly = false ∧ (∃ f, IsDir (s.files pc vol) i f) ∧ r = .error .eisdir ∧ OnVol pc vol s s' (fun F F' => F' = F) ∧ s'.handle = s.handle) ∨
  -- it is opened
  (∃ f, s.files pc vol i = some f ∧ (f.mode = modeDir → has mode oRdonly = true) ∧ (type = .dir → f.mode = modeDir) ∧ has mode oTrunc = false ∧
    OnVol pc vol s s' (fun F F' => F' = F) ∧ Opened pc s vol i mode (decide (f.mode = modeDir)) r s') ∨
  -- it is truncated and opened
  (∃ f r0, s.files pc vol i = some f ∧ (f.mode = modeDir → has mode oRdonly = true) ∧ (type = .dir → f.mode = modeDir) ∧ has mode oTrunc = true ∧
    OnVol pc vol s s' (Rw s vol (Truncate (pc.conf vol) i 0) r0) ∧
    ((∃ e, r0 = .error e ∧ r = .error e ∧ s'.handle = s.handle) ∨ (r0 = .ok () ∧ Opened pc s vol i mode (decide (f.mode = modeDir)) r s')))

/-- `FildesOpen`: what `red_open` and `red_opendir` do. -/
def FildesOpenDoes (t : Nat) (path : List Byte) (mode : Nat) (type : FType) (s : PSt) (r : Except Err Int) (s' : PSt) : Prop :=
  (∃ e, StartAt pc s t path (.error e) ∧ Fails pc s r s' e) ∨
  ∃ vol start l, StartAt pc s t path (.ok (vol, start, l)) ∧
    -- a volume that is mounted read-only
    if_ ((s.vols vol).readOnly = true ∧ mode ≠ oRdonly) (Fails pc s r s' .erofs)
    -- all handles are in use
   (if_ (∀ k, k < pc.handles → (s.handle k).ino ≠ 0) (Fails pc s r s' .emfile)
   (if_ (has mode oCreat = true)
     ((∃ e, Names pc s t path .eisdir (.error e) ∧ Fails pc s r s' e) ∨
      ∃ p nm, Names pc s t path .eisdir (.ok (vol, p, nm)) ∧
       ((∃ i, OnVol pc vol s s' (fun F F' => Create (pc.conf vol) p nm false F (.ok i) F') ∧ Opened pc s vol i mode false r s') ∨
        (∃ e, r = .error e ∧ (e = .eexist → has mode oExcl = true) ∧
          OnVol pc vol s s' (fun F F' => Create (pc.conf vol) p nm false F (.error e) F') ∧ s'.handle = s.handle) ∨
        (∃ i, has mode oExcl = false ∧ Has (pc.conf vol) (s.files pc vol) p nm i ∧ OpenExisting pc vol i mode type s r s')))
     ((∃ e, Finds pc s t path (.error e) ∧ Fails pc s r s' e) ∨
      ∃ i, Finds pc s t path (.ok (vol, i)) ∧ OpenExisting pc vol i mode type s r s')))

/-- The open modes of the documentation of `red_open` (posix.c:942-1000): exactly one of `RED_O_RDONLY`, `RED_O_WRONLY` and `RED_O_RDWR`; `RED_O_CREAT`,
`RED_O_EXCL` and `RED_O_TRUNC` only if the file is opened for writing; `RED_O_EXCL` only with `RED_O_CREAT`; no other bits. -/
structure ModeOk (m : Nat) : Prop where
  bits : ∀ i, 7 ≤ i → m.testBit i = false
  one : (m.testBit 0 = true ∧ m.testBit 1 = false ∧ m.testBit 2 = false) ∨ (m.testBit 0 = false ∧ m.testBit 1 = true ∧ m.testBit 2 = false) ∨
    (m.testBit 0 = false ∧ m.testBit 1 = false ∧ m.testBit 2 = true)
  ro : m.testBit 0 = true → m.testBit 4 = false ∧ m.testBit 5 = false ∧ m.testBit 6 = false
  excl : m.testBit 5 = true → m.testBit 4 = true

/-- `red_open` -/
def OpenDoes (t : Nat) (path : List Byte) (mode : Nat) (s : PSt) (r : Except Err Int) (s' : PSt) : Prop :=
  if_ (ModeOk mode) (FildesOpenDoes pc t path mode .either s r s') (Fails pc s r s' .einval)

/-- `red_opendir`: the result is the handle. -/
def OpendirDoes (t : Nat) (path : List Byte) (s : PSt) (r : Except Err Nat) (s' : PSt) : Prop :=
  ∃ r0, FildesOpenDoes pc t path oRdonly .dir s r0 s' ∧
    ((∃ e, r0 = .error e ∧ r = .error e) ∨ ∃ k, IsFd pc s' (s'.fd (s'.handle k).vol k) k ∧ r0 = .ok (s'.fd (s'.handle k).vol k) ∧ r = .ok k)

/-- The files of volume `vol` are committed. -/
def Committed (s : PSt) (vol : Nat) : Prop := committedFiles (pc.conf vol) (s.vols vol) = s.files pc vol

/-- A transaction on volume `vol`, which is mounted and not read-only, if `on` is true. -/
def Flush (vol : Nat) (on : Bool) (s s' : PSt) : Prop :=
  OnVol pc vol s s' (fun F F' => F' = F) ∧
  if on then Committed pc s' vol else committedFiles (pc.conf vol) (s'.vols vol) = committedFiles (pc.conf vol) (s.vols vol)

/-- `red_close` -/
def CloseDoes (fd : Int) (s : PSt) (r : Except Err Unit) (s' : PSt) : Prop :=
  ((∀ k, ¬ IsFd pc s fd k) ∧ Fails pc s r s' .ebadf) ∨
  ∃ k, IsFd pc s fd k ∧ r = .ok () ∧ s'.handle = upd s.handle k { s.handle k with ino := 0 } ∧
    Flush pc (s.handle k).vol (!(s.vols (s.handle k).vol).readOnly && (s.vols (s.handle k).vol).transMask.testBit Event.close.bit) s s'

/-- `red_fsync` -/
def FsyncDoes (fd : Int) (s : PSt) (r : Except Err Unit) (s' : PSt) : Prop :=
  ((∀ k, ¬ IsFd pc s fd k) ∧ Fails pc s r s' .ebadf) ∨
  ∃ k, IsFd pc s fd k ∧
    (((s.vols (s.handle k).vol).transMask.testBit Event.fsync.bit = true ∧ (s.vols (s.handle k).vol).readOnly = true ∧ Fails pc s r s' .erofs) ∨
     (r = .ok () ∧ s'.handle = s.handle ∧ Flush pc (s.handle k).vol ((s.vols (s.handle k).vol).transMask.testBit Event.fsync.bit) s s'))

/-- `red_read` -/
def ReadDoes (fd : Int) (len : Nat) (s : PSt) (r : Except Err (List Byte)) (s' : PSt) : Prop :=
  (∃ e, BadFile pc s fd e ∧ Fails pc s r s' e) ∨
  ∃ k, FileFd pc s fd k ∧
    (((s.handle k).readable = false ∧ Fails pc s r s' .ebadf) ∨
     ∃ f, (s.handle k).readable = true ∧ IsReg (s.files pc (s.handle k).vol) (s.handle k).ino f ∧
       r = .ok (f.read (s.handle k).off len) ∧
       Quiet pc (s.setHandle k { s.handle k with off := (s.handle k).off + (f.read (s.handle k).off len).length }) s')

/-- `red_write` -/
def WriteDoes (fd : Int) (len : Nat) (buf : Nat → Byte) (s : PSt) (r : Except Err Nat) (s' : PSt) : Prop :=
  ((∀ k, ¬ FileFd pc s fd k) ∧ Fails pc s r s' .ebadf) ∨
  ∃ k, FileFd pc s fd k ∧
    (((s.handle k).writeable = false ∧ Fails pc s r s' .ebadf) ∨
     ∃ f pos, (s.handle k).writeable = true ∧ IsReg (s.files pc (s.handle k).vol) (s.handle k).ino f ∧
       -- where it is written to
       pos = (if (s.handle k).appending then f.size else (s.handle k).off) ∧
       OnVol pc (s.handle k).vol s s' (Rw s (s.handle k).vol (Write (pc.conf (s.handle k).vol) (s.handle k).ino pos len buf) r) ∧
       s'.handle = upd s.handle k { s.handle k with off := match r with | .ok n => pos + n | .error _ => pos })

/-- `red_lseek`; `whence` is 0 for `RED_SEEK_SET`, 1 for `RED_SEEK_CUR`, 2 for `RED_SEEK_END`. -/
def LseekDoes (fd : Int) (off : Int) (whence : Nat) (s : PSt) (r : Except Err Nat) (s' : PSt) : Prop :=
  (∃ e, BadFile pc s fd e ∧ Fails pc s r s' e) ∨
  ∃ k f, FileFd pc s fd k ∧ IsReg (s.files pc (s.handle k).vol) (s.handle k).ino f ∧
    ((3 ≤ whence ∧ Fails pc s r s' .einval) ∨
     ∃ origin : Nat, (whence = 0 ∧ origin = 0 ∨ whence = 1 ∧ origin = (s.handle k).off ∨ whence = 2 ∧ origin = f.size) ∧
      if_ (0 ≤ origin + off ∧ origin + off ≤ (pc.conf (s.handle k).vol).sizeMax)
        (∃ n : Nat, (n : Int) = origin + off ∧ r = .ok n ∧ Quiet pc (s.setHandle k { s.handle k with off := n }) s')
        (Fails pc s r s' .einval))

/-- `red_ftruncate` -/
def FtruncateDoes (fd : Int) (size : Nat) (s : PSt) (r : Except Err Unit) (s' : PSt) : Prop :=
  ((∀ k, ¬ FileFd pc s fd k) ∧ Fails pc s r s' .ebadf) ∨
  ∃ k, FileFd pc s fd k ∧
    (((s.handle k).writeable = false ∧ Fails pc s r s' .ebadf) ∨
     ((s.handle k).writeable = true ∧
       OnVol pc (s.handle k).vol s s' (Rw s (s.handle k).vol (Truncate (pc.conf (s.handle k).vol) (s.handle k).ino size) r) ∧ s'.handle = s.handle))

/-- `red_fstat` -/
def FstatDoes (fd : Int) (s : PSt) (r : Except Err Stat) (s' : PSt) : Prop :=
  ((∀ k, ¬ IsFd pc s fd k) ∧ Fails pc s r s' .ebadf) ∨
  ∃ k st, IsFd pc s fd k ∧ r = .ok st ∧ Spec.Stat (s.handle k).ino (s.files pc (s.handle k).vol) (.ok st) ∧ Quiet pc s s'

/-- A directory stream. -/
def IsDirStream (s : PSt) (k : Nat) : Prop := k < pc.handles ∧ (s.handle k).ino ≠ 0 ∧ (s.handle k).dir = true

/-- `red_readdir` -/
def ReaddirDoes (k : Nat) (s : PSt) (r : Except Err (Option (List Byte × Stat))) (s' : PSt) : Prop :=
  (¬ IsDirStream pc s k ∧ Fails pc s r s' .ebadf) ∨
  (IsDirStream pc s k ∧ ∃ pos e, DirRead (pc.conf (s.handle k).vol) (s.handle k).ino (s.handle k).off (s.files pc (s.handle k).vol) (.ok (pos, e)) ∧
    Quiet pc (s.setHandle k { s.handle k with off := pos }) s' ∧
    ((e = none ∧ r = .ok none) ∨
     ∃ name i st, e = some (name, i) ∧ r = .ok (some (name, st)) ∧ Spec.Stat i (s.files pc (s.handle k).vol) (.ok st)))

/-- `red_rewinddir` -/
def RewinddirDoes (k : Nat) (s : PSt) (r : Except Err Unit) (s' : PSt) : Prop :=
  r = .ok () ∧ if_ (IsDirStream pc s k) (s' = s.setHandle k { s.handle k with off := 0 }) (s' = s)

/-- `red_closedir` -/
def ClosedirDoes (k : Nat) (s : PSt) (r : Except Err Unit) (s' : PSt) : Prop :=
  if_ (IsDirStream pc s k) (r = .ok () ∧ s' = s.setHandle k { s.handle k with ino := 0 }) (r = .error .ebadf ∧ s' = s)

/-- `red_chdir` -/
def ChdirDoes (t : Nat) (path : List Byte) (s : PSt) (r : Except Err Unit) (s' : PSt) : Prop :=
  (∃ e, Finds pc s t path (.error e) ∧ Fails pc s r s' e) ∨
  ∃ vol i, Finds pc s t path (.ok (vol, i)) ∧
    (((∃ f, IsReg (s.files pc vol) i f) ∧ Fails pc s r s' .enotdir) ∨
     ((∃ f, IsDir (s.files pc vol) i f) ∧ r = .ok () ∧ ∃ j, SlotOf pc t s j ∧
       Quiet pc (s.setSlot j { s.slot j with cwdVol := vol, cwdIno := i }) s'))

/-! ### Calls on volumes -/

/-- The call `k` of the core is made on volume `i`, with the result `r`; the other volumes are not touched. -/
def CoreCall (i : Nat) (k : Call) (s : PSt) (r : Except Err Reply) (s' : PSt) : Prop :=
  (r, s'.vols i) = exec (pc.conf i) k (s.vols i) ∧ ∀ j, j ≠ i → s'.vols j = s.vols j

/-- Except for the volumes (and for which is the current one) the state is as it was. -/
structure SameRest (s s' : PSt) : Prop where
  inited : s'.inited = s.inited
  handle : s'.handle = s.handle
  slot : s'.slot = s.slot
  gen : s'.gen = s.gen

/-- A call of the core on the volume named `path`. -/
def VolDoes {α : Type} (path : List Byte) (k : Call) (f : α → Reply) (s : PSt) (r : Except Err α) (s' : PSt) : Prop :=
  ((∀ i, ¬ VolName pc path i) ∧ Fails pc s r s' .enoent) ∨
  ∃ i, VolName pc path i ∧ CoreCall pc i k s (r.map f) s' ∧ SameRest s s'

/-- A handle on volume `i` is in use. -/
def VolInUse (s : PSt) (i : Nat) : Prop := ∃ k, k < pc.handles ∧ (s.handle k).ino ≠ 0 ∧ (s.handle k).vol = i

/-- The handles on volume `i` are closed. -/
def closeAll (s : PSt) (i : Nat) : Nat → Handle := fun k =>
  if k < pc.handles ∧ (s.handle k).ino ≠ 0 ∧ (s.handle k).vol = i then { s.handle k with ino := 0 } else s.handle k

/-- The current directories on volume `i` become its root. -/
def cwdsReset (s : PSt) (i : Nat) : Nat → Slot := fun k =>
  if pc.cwd = true ∧ k < pc.tasks ∧ (s.slot k).cwdVol = i then { s.slot k with cwdIno := 2 } else s.slot k

/-- The next generation. -/
def nextGen (g : Nat) : Nat := if g = 2047 then 1 else g + 1

/-- `red_mount2` -/
def MountDoes (path : List Byte) (flags : Nat) (s : PSt) (r : Except Err Unit) (s' : PSt) : Prop :=
  ((∀ i, ¬ VolName pc path i) ∧ Fails pc s r s' .enoent) ∨
  ∃ i, VolName pc path i ∧
    (((s.vols i).mounted = true ∧ Fails pc s r s' .ebusy) ∨
     ((s.vols i).mounted = false ∧ 2 ≤ flags ∧ Fails pc s r s' .einval) ∨
     ((s.vols i).mounted = false ∧ flags ≤ 1 ∧ CoreCall pc i (.mount (decide (flags = 1))) s (r.map fun _ => .unit) s' ∧
       s'.inited = s.inited ∧ s'.handle = s.handle ∧ s'.slot = s.slot ∧
       s'.gen = if r.toBool then upd s.gen i (nextGen (s.gen i)) else s.gen))

/-- `red_umount2`; flag 1 is `RED_UMOUNT_FORCE`. -/
def UmountDoes (path : List Byte) (flags : Nat) (s : PSt) (r : Except Err Unit) (s' : PSt) : Prop :=
  (2 ≤ flags ∧ Fails pc s r s' .einval) ∨
  (flags ≤ 1 ∧ (∀ i, ¬ VolName pc path i) ∧ Fails pc s r s' .enoent) ∨
  ∃ i, VolName pc path i ∧ flags ≤ 1 ∧
    (((s.vols i).mounted = false ∧ Fails pc s r s' .einval) ∨
     ((s.vols i).mounted = true ∧ flags = 0 ∧ VolInUse pc s i ∧ Fails pc s r s' .ebusy) ∨
     ((s.vols i).mounted = true ∧ (flags = 0 → ¬ VolInUse pc s i) ∧ r = .ok () ∧ CoreCall pc i .unmount s (.ok .unit) s' ∧
       s'.inited = s.inited ∧ s'.handle = closeAll pc s i ∧ s'.slot = cwdsReset pc s i ∧ s'.gen = s.gen))

/-- `red_rollback` -/
def RollbackDoes (path : List Byte) (s : PSt) (r : Except Err Unit) (s' : PSt) : Prop :=
  ((∀ i, ¬ VolName pc path i) ∧ Fails pc s r s' .enoent) ∨
  ∃ i, VolName pc path i ∧
    ((VolInUse pc s i ∧ Fails pc s r s' .ebusy) ∨
     (¬ VolInUse pc s i ∧ CoreCall pc i .rollback s (r.map fun _ => .unit) s' ∧
       s'.inited = s.inited ∧ s'.handle = s.handle ∧ s'.gen = s.gen ∧ s'.slot = if r.toBool then cwdsReset pc s i else s.slot))

/-- `red_format`; for what is on the disk afterwards see C05. -/
def FormatDoes (path : List Byte) (s : PSt) (r : Except Err Unit) (s' : PSt) : Prop :=
  ((∀ i, ¬ VolName pc path i) ∧ Fails pc s r s' .enoent) ∨
  ∃ i, VolName pc path i ∧
    (((s.vols i).mounted = true ∧ Fails pc s r s' .ebusy) ∨
     ((s.vols i).mounted = false ∧ r = .ok () ∧ (∀ j, j ≠ i → s'.vols j = s.vols j) ∧ SameRest s s' ∧
       (s'.vols i).mounted = false ∧ Found (pc.conf i) (s'.vols i) (formatted (pc.conf i))))

/-- `red_sync`: the volumes for which its event is enabled are committed. -/
def SyncDoes (s : PSt) (r : Except Err Unit) (s' : PSt) : Prop :=
  r = .ok () ∧ SameRest s s' ∧ ∀ i, i < pc.n →
    if (s.vols i).mounted = true ∧ (s.vols i).readOnly = false ∧ (s.vols i).transMask.testBit Event.sync.bit = true then
      (s'.vols i).mounted = true ∧ (s'.vols i).readOnly = false ∧ (s'.vols i).transMask = (s.vols i).transMask ∧
      s'.files pc i = s.files pc i ∧ Committed pc s' i
    else Same (pc.conf i) (s.vols i) (s'.vols i)

/-- `red_uninit`, when the driver is initialized -/
def UninitDoes (s : PSt) (r : Except Err Unit) (s' : PSt) : Prop :=
  if_ (∃ i, i < pc.n ∧ (s.vols i).mounted = true) (r = .error .ebusy ∧ s' = s) (r = .ok () ∧ s' = { s with inited := false })

/-- The path from the root of a file system to a directory. -/
inductive PathOf (c : Conf) (F : Files) : Nat → List (List Byte) → Prop
  | root : PathOf c F 2 []
  | step {i p : Nat} {nm : List Byte} {cs : List (List Byte)} {f : AFile} : i ≠ 2 → IsDir F i f → Has c F p nm i → PathOf c F p cs → PathOf c F i (cs ++ [nm])

/-- Names with separators between them. -/
def joinPath (sep : Byte) : List (List Byte) → List Byte
  | [] => []
  | [x] => x
  | x :: y :: l => x ++ sep :: joinPath sep (y :: l)

/-- `red_getcwd` -/
def GetcwdDoes (t size : Nat) (s : PSt) (r : Except Err (List Byte)) (s' : PSt) : Prop :=
  Quiet pc s s' ∧ ∃ j, SlotOf pc t s j ∧
    if (s.vols (s.slot j).cwdVol).mounted = true then
      ∃ cs, PathOf (pc.conf (s.slot j).cwdVol) (s.files pc (s.slot j).cwdVol) (s.slot j).cwdIno cs ∧
        let path := pc.pre (s.slot j).cwdVol ++ pc.sep :: joinPath pc.sep cs
        if path.length + 1 ≤ size then r = .ok path else r = .error .erange
    else if (pc.pre (s.slot j).cwdVol).length + 2 ≤ size then r = .ok (pc.pre (s.slot j).cwdVol ++ [pc.sep]) else r = .error .erange

end RedFs.Posix
