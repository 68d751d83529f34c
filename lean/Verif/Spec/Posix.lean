import Verif.Spec.System
import Verif.Spec.Path
import Verif.Model.Posix
/-!
The POSIX API: configurations, the volume a path is on, and executions.
-/
namespace RedFs

/-- A user sees no difference between `v` and `v'`; if it is not mounted there is none. -/
structure Same (c : Conf) (v v' : Vol) : Prop where
  reach : Reach c v → Reach c v'
  mounted : v'.mounted = v.mounted
  ro : v'.readOnly = v.readOnly
  mask : v'.transMask = v.transMask
  files : v.mounted = true → files c v' = files c v
  disk : v.mounted = true → committedFiles c v' = committedFiles c v
  off : v.mounted = false → v' = v

end RedFs
namespace RedFs.Posix
open Str Spec

/-- A legal configuration: redconfigchk.h:266, 288, 345; `RedCoreInit` checks the prefixes, core.c:113-138. -/
structure PConf.Ok (pc : PConf) : Prop where
  n : 1 ≤ pc.n ∧ pc.n ≤ 255
  handles : 1 ≤ pc.handles ∧ pc.handles ≤ 4096
  tasks : 1 ≤ pc.tasks
  sys : ∀ i, i < pc.n → (pc.conf i).SysOk
  posix : ∀ i, i < pc.n → (pc.conf i).posix = true
  sep : ∀ i, i < pc.n → (pc.conf i).sep = pc.sep
  atomic : ∀ i, i < pc.n → (pc.conf i).renameAtomic = pc.atomic
  pre : ∀ i, i < pc.n → CStr.Ok (pc.pre i)
  distinct : ∀ i j, i < pc.n → j < pc.n → pc.pre i = pc.pre j → i = j

/-- The volume prefix `p` matches whole elements of the path `s`: it is empty; or it is the beginning of `s`, and is followed by a separator or by the
end of `s`. -/
def Matches (sep : Byte) (p s : List Byte) : Prop := p = [] ∨ s = p ∨ ∃ r, s = p ++ sep :: r

/-- Volume `i` is the one with the longest prefix that matches `s`. -/
def Selected (pc : PConf) (s : List Byte) (i : Nat) : Prop :=
  i < pc.n ∧ Matches pc.sep (pc.pre i) s ∧ ∀ j, j < pc.n → Matches pc.sep (pc.pre j) s → (pc.pre j).length ≤ (pc.pre i).length

/-- The values of `int32_t` and `int64_t`. -/
def Int32 (x : Int) : Prop := -2147483648 ≤ x ∧ x < 2147483648
def Int64 (x : Int) : Prop := -9223372036854775808 ≤ x ∧ x < 9223372036854775808

/-- The arguments have the types that the C functions have; strings are C strings. -/
def PCall.Ok : PCall → Prop
  | .mount vol _ => CStr.Ok vol
  | .umount vol _ => CStr.Ok vol
  | .format vol => CStr.Ok vol
  | .transact vol => CStr.Ok vol
  | .rollback vol => CStr.Ok vol
  | .setMask vol _ => CStr.Ok vol
  | .getMask vol => CStr.Ok vol
  | .statvfs vol => CStr.Ok vol
  | .open path _ => CStr.Ok path
  | .unlink path => CStr.Ok path
  | .mkdir path => CStr.Ok path
  | .rmdir path => CStr.Ok path
  | .rename old new => CStr.Ok old ∧ CStr.Ok new
  | .link path hardLink => CStr.Ok path ∧ CStr.Ok hardLink
  | .opendir path => CStr.Ok path
  | .chdir path => CStr.Ok path
  | .close fd => Int32 fd
  | .read fd _ => Int32 fd
  | .write fd _ _ => Int32 fd
  | .fsync fd => Int32 fd
  | .lseek fd off _ => Int32 fd ∧ Int64 off
  | .ftruncate fd _ => Int32 fd
  | .fstat fd => Int32 fd
  | _ => True

/-- The calls which exist only if `REDCONF_API_POSIX_CWD == 1`. -/
def PCall.usesCwd : PCall → Prop
  | .chdir _ => True
  | .getcwd _ => True
  | _ => False

/-- The system has been started: the driver is not initialized, and the volumes are what was left on the disks by any history
of calls and power losses. -/
structure PStart (pc : PConf) (s : PSt) : Prop where
  inited : s.inited = false
  gen : ∀ i, s.gen i = 0
  cur : s.cur = 0
  reach : ∀ i, i < pc.n → Reach (pc.conf i) (s.vols i)
  mounted : ∀ i, i < pc.n → (s.vols i).mounted = false

/-- The call may be made.  A task identifier is not 0 (osservices RedOsTaskId).  (Formatting is excluded where it fails, see DESIGN.md, finding 10.) -/
def Permitted (pc : PConf) (t : Nat) (k : PCall) (s : PSt) : Prop :=
  t ≠ 0 ∧ k.Ok ∧ (k.usesCwd → pc.cwd = true) ∧ ∀ vol, k = .format vol → ∀ i, Selected pc vol i → (s.vols i).almostFree = 0 ∨ (s.vols i).mounted = true

/-- A call of the API: who makes it, and its result. -/
structure PEv where
  task : Nat
  call : PCall
  res : Except Err PReply

/-- Sequences of calls. -/
inductive PRun (pc : PConf) (s0 : PSt) : List PEv → PSt → Prop
  | nil : PRun pc s0 [] s0
  | call {tr : List PEv} {s : PSt} {t : Nat} {k : PCall} : PRun pc s0 tr s → Permitted pc t k s →
      PRun pc s0 (tr ++ [⟨t, k, (pexec pc t k s).1⟩]) (pexec pc t k s).2

/-- What can be reached by calls since the last start. -/
def PReach (pc : PConf) (s : PSt) : Prop := ∃ s0 tr, PStart pc s0 ∧ PRun pc s0 tr s

/-! ### What the calls do -/

/-- Nothing but caches and the current volume is different. -/
structure Quiet (pc : PConf) (s s' : PSt) : Prop where
  inited : s'.inited = s.inited
  handle : s'.handle = s.handle
  slot : s'.slot = s.slot
  gen : s'.gen = s.gen
  gerrno : s'.gerrno = s.gerrno
  cur : s.cur < pc.n → s'.cur < pc.n
  vols : ∀ i, i < pc.n → Same (pc.conf i) (s.vols i) (s'.vols i)

/-- A task that is registered: its slot. -/
def SlotOf (pc : PConf) (t : Nat) (s : PSt) (i : Nat) : Prop := i < pc.tasks ∧ (pc.tasks = 1 ∨ (s.slot i).task = t)

/-- The volume, the directory and the elements of a path. -/
inductive StartAt (pc : PConf) (s : PSt) (t : Nat) (path : List Byte) : Except Err (Nat × Nat × List Byte) → Prop
  /-- a relative path -/
  | cwd {j : Nat} : pc.cwd = true → (∀ i, i < pc.n → pc.pre i ≠ [] → ¬ Matches pc.sep (pc.pre i) path) → path ≠ [] → path.head? ≠ some pc.sep → SlotOf pc t s j →
      StartAt pc s t path (.ok ((s.slot j).cwdVol, (s.slot j).cwdIno, path))
  /-- an absolute path -/
  | abs {i : Nat} : (pc.cwd = true → (∀ i, i < pc.n → pc.pre i ≠ [] → ¬ Matches pc.sep (pc.pre i) path) → path = [] ∨ path.head? = some pc.sep) →
      Selected pc path i → StartAt pc s t path (.ok (i, 2, path.drop (pc.pre i).length))
  | none_ : (∀ i, i < pc.n → ¬ Matches pc.sep (pc.pre i) path) → (pc.cwd = true → path = [] ∨ path.head? = some pc.sep) → StartAt pc s t path (.error .enoent)


variable (pc : PConf)

/-- The files of a volume. -/
abbrev PSt.files (s : PSt) (i : Nat) : Files := RedFs.files (pc.conf i) (s.vols i)

/-- What a path that is to be created or removed means: the volume, the directory, and the name in it. -/
inductive Names (s : PSt) (t : Nat) (path : List Byte) (re : Err) : Except Err (Nat × Nat × List Byte) → Prop
  | start {e : Err} : StartAt pc s t path (.error e) → Names s t path re (.error e)
  | off {vol start : Nat} {l : List Byte} {e : Err} : StartAt pc s t path (.ok (vol, start, l)) → (s.vols vol).mounted = false → e = .einval ∨ e = re →
      Names s t path re (.error e)
  | error {vol start : Nat} {l : List Byte} {e : Err} : StartAt pc s t path (.ok (vol, start, l)) → (s.vols vol).mounted = true →
      ToName (pc.conf vol) (s.files pc vol) (pc.cwd = true) start re (comps pc.sep l) (.error e) → Names s t path re (.error e)
  | ok {vol start p : Nat} {l nm : List Byte} : StartAt pc s t path (.ok (vol, start, l)) → (s.vols vol).mounted = true →
      ToName (pc.conf vol) (s.files pc vol) (pc.cwd = true) start re (comps pc.sep l) (.ok (p, nm)) → Names s t path re (.ok (vol, p, nm))

/-- What a path that exists means: the volume and the inode. -/
inductive Finds (s : PSt) (t : Nat) (path : List Byte) : Except Err (Nat × Nat) → Prop
  | start {e : Err} : StartAt pc s t path (.error e) → Finds s t path (.error e)
  | off {vol start : Nat} {l : List Byte} : StartAt pc s t path (.ok (vol, start, l)) → (s.vols vol).mounted = false → Finds s t path (.error .einval)
  | error {vol start : Nat} {l : List Byte} {e : Err} : StartAt pc s t path (.ok (vol, start, l)) → (s.vols vol).mounted = true →
      Walk (pc.conf vol) (s.files pc vol) (pc.cwd = true) start (comps pc.sep l) (.error e) → Finds s t path (.error e)
  | ok {vol start i : Nat} {l : List Byte} : StartAt pc s t path (.ok (vol, start, l)) → (s.vols vol).mounted = true →
      Walk (pc.conf vol) (s.files pc vol) (pc.cwd = true) start (comps pc.sep l) (.ok i) → Finds s t path (.ok (vol, i))

/-- The name of a volume: its prefix, and perhaps separators after it. -/
def VolName (path : List Byte) (i : Nat) : Prop := Selected pc path i ∧ comps pc.sep (path.drop (pc.pre i).length) = []

/-- The call fails and changes nothing. -/
def Fails {α : Type} (s : PSt) (r : Except Err α) (s' : PSt) (e : Err) : Prop := r = .error e ∧ Quiet pc s s'

/-- Of the volumes only `vol` is changed. -/
structure OnVol (vol : Nat) (s s' : PSt) (R : Files → Files → Prop) : Prop where
  lt : vol < pc.n
  inited : s'.inited = s.inited
  slot : s'.slot = s.slot
  gen : s'.gen = s.gen
  others : ∀ i, i < pc.n → i ≠ vol → Same (pc.conf i) (s.vols i) (s'.vols i)
  up : (s.vols vol).mounted = true
  up' : (s'.vols vol).mounted = true
  ro : (s'.vols vol).readOnly = (s.vols vol).readOnly
  mask : (s'.vols vol).transMask = (s.vols vol).transMask
  rel : R (s.files pc vol) (s'.files pc vol)

/-- Nothing is changed on a volume which is mounted read-only. -/
def Rw {α : Type} (s : PSt) (vol : Nat) (R : Files → Except Err α → Files → Prop) (r : Except Err α) (F F' : Files) : Prop :=
  if (s.vols vol).readOnly then r = .error .erofs ∧ F' = F else R F r F'

/-- The inode is open, or is a current working directory. -/
def InUse (s : PSt) (vol i : Nat) : Prop :=
  (∃ k, k < pc.handles ∧ (s.handle k).ino = i ∧ (s.handle k).vol = vol) ∨
  (pc.cwd = true ∧ ∃ k, k < pc.tasks ∧ (s.slot k).cwdIno = i ∧ (s.slot k).cwdVol = vol)

/-- Inode `i` is in use, and has only one name. -/
def Held (s : PSt) (vol i : Nat) : Prop := InUse pc s vol i ∧ ∃ f, s.files pc vol i = some f ∧ f.nlink = 1

/-- `if P then A else B` -/
def if_ (P A B : Prop) : Prop := (P → A) ∧ (¬ P → B)

/-- Removing the name `nm` of directory `p`; `dir`: the name of a directory. -/
def Remove (c : Conf) (held : Nat → Prop) (dir : Prop) (ro : Bool) (p : Nat) (nm : List Byte) (F : Files) (r : Except Err Unit) (F' : Files) : Prop :=
  -- there is no such name
  (∃ e, Lookup c p nm F (.error e) ∧ r = .error e ∧ F' = F) ∨
  ∃ i, Has c F p nm i ∧
    ((dir ∧ (∃ f, IsReg F i f) ∧ r = .error .enotdir ∧ F' = F) ∨
     ((dir → ∃ f, IsDir F i f) ∧ if_ (held i) (r = .error .ebusy ∧ F' = F) (if ro then r = .error .erofs ∧ F' = F else Unlink c p nm F r F')))

/-- `red_mkdir` -/
def MkdirDoes (t : Nat) (path : List Byte) (s : PSt) (r : Except Err Unit) (s' : PSt) : Prop :=
  (∃ e, Names pc s t path .eexist (.error e) ∧ Fails pc s r s' e) ∨
  ∃ vol p nm r0, Names pc s t path .eexist (.ok (vol, p, nm)) ∧ r = r0.map (fun _ : Nat => ()) ∧
    OnVol pc vol s s' (Rw s vol (Create (pc.conf vol) p nm true) r0) ∧ s'.handle = s.handle

/-- `red_unlink`, `red_rmdir` -/
def UnlinkDoes (t : Nat) (path : List Byte) (dir : Prop) (s : PSt) (r : Except Err Unit) (s' : PSt) : Prop :=
  (∃ e, Names pc s t path .ebusy (.error e) ∧ Fails pc s r s' e) ∨
  ∃ vol p nm, Names pc s t path .ebusy (.ok (vol, p, nm)) ∧
    OnVol pc vol s s' (fun F F' => Remove (pc.conf vol) (Held pc s vol) dir (s.vols vol).readOnly p nm F r F') ∧ s'.handle = s.handle

/-- `red_rename` -/
def RenameDoes (t : Nat) (old new : List Byte) (s : PSt) (r : Except Err Unit) (s' : PSt) : Prop :=
  (∃ e, StartAt pc s t old (.error e) ∧ Fails pc s r s' e) ∨
  (∃ e x, StartAt pc s t old (.ok x) ∧ StartAt pc s t new (.error e) ∧ Fails pc s r s' e) ∨
  (∃ x y, StartAt pc s t old (.ok x) ∧ StartAt pc s t new (.ok y) ∧ x.1 ≠ y.1 ∧ Fails pc s r s' .exdev) ∨
  (∃ e x y, StartAt pc s t old (.ok x) ∧ StartAt pc s t new (.ok y) ∧ x.1 = y.1 ∧ Names pc s t old .ebusy (.error e) ∧ Fails pc s r s' e) ∨
  (∃ e x y, StartAt pc s t old (.ok x) ∧ StartAt pc s t new (.ok y) ∧ x.1 = y.1 ∧ ((∃ z, Names pc s t old .ebusy (.ok z)) ∨ (s.vols x.1).mounted = false) ∧
    Names pc s t new .ebusy (.error e) ∧ Fails pc s r s' e) ∨
  ∃ vol p nm p' nm', Names pc s t old .ebusy (.ok (vol, p, nm)) ∧ Names pc s t new .ebusy (.ok (vol, p', nm')) ∧
    ((∃ e, pc.atomic = true ∧ Lookup (pc.conf vol) p' nm' (s.files pc vol) (.error e) ∧ e ≠ .enoent ∧ Fails pc s r s' e) ∨
     -- the file that would be replaced is in use
     (∃ i, pc.atomic = true ∧ Has (pc.conf vol) (s.files pc vol) p' nm' i ∧ Held pc s vol i ∧ Fails pc s r s' .ebusy) ∨
     ((pc.atomic = true → ∀ i, Has (pc.conf vol) (s.files pc vol) p' nm' i → ¬ Held pc s vol i) ∧
      OnVol pc vol s s' (Rw s vol (Rename (pc.conf vol) p nm p' nm') r) ∧ s'.handle = s.handle))

/-- `red_link` -/
def LinkDoes (t : Nat) (path new : List Byte) (s : PSt) (r : Except Err Unit) (s' : PSt) : Prop :=
  (∃ e, StartAt pc s t path (.error e) ∧ Fails pc s r s' e) ∨
  (∃ e x, StartAt pc s t path (.ok x) ∧ StartAt pc s t new (.error e) ∧ Fails pc s r s' e) ∨
  (∃ x y, StartAt pc s t path (.ok x) ∧ StartAt pc s t new (.ok y) ∧ x.1 ≠ y.1 ∧ Fails pc s r s' .exdev) ∨
  (∃ e x y, StartAt pc s t path (.ok x) ∧ StartAt pc s t new (.ok y) ∧ x.1 = y.1 ∧ Finds pc s t path (.error e) ∧ Fails pc s r s' e) ∨
  (∃ e x y, StartAt pc s t path (.ok x) ∧ StartAt pc s t new (.ok y) ∧ x.1 = y.1 ∧ ((∃ z, Finds pc s t path (.ok z)) ∨ (s.vols x.1).mounted = false) ∧
    Names pc s t new .eexist (.error e) ∧ Fails pc s r s' e) ∨
  ∃ vol i p nm, Finds pc s t path (.ok (vol, i)) ∧ Names pc s t new .eexist (.ok (vol, p, nm)) ∧
    OnVol pc vol s s' (Rw s vol (Link (pc.conf vol) p nm i) r) ∧ s'.handle = s.handle

end RedFs.Posix
