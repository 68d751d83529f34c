import Verif.Spec.PosixFd
/-!
The POSIX API as a whole: what each call does.
-/
namespace RedFs.Posix
open Str Spec

variable (pc : PConf)

/-- The result is `r0`, wrapped by `f`. -/
def Ret {α : Type} (f : α → PReply) (D : PSt → Except Err α → PSt → Prop) (s : PSt) (r : Except Err PReply) (s' : PSt) : Prop :=
  ∃ r0, r = r0.map f ∧ D s r0 s'

/-- What a call does, once the driver is initialized and the task is registered. -/
def BodyDoes (t : Nat) : PCall → PSt → Except Err PReply → PSt → Prop
  | .init => fun _ _ _ => False
  | .uninit => Ret (fun _ => .unit) (UninitDoes pc)
  | .sync => Ret (fun _ => .unit) (SyncDoes pc)
  | .mount vol flags => Ret (fun _ => .unit) (MountDoes pc vol flags)
  | .umount vol flags => Ret (fun _ => .unit) (UmountDoes pc vol flags)
  | .format vol => Ret (fun _ => .unit) (FormatDoes pc vol)
  | .transact vol => Ret (fun _ => .unit) (VolDoes (α := Unit) pc vol .transact fun _ => .unit)
  | .rollback vol => Ret (fun _ => .unit) (RollbackDoes pc vol)
  | .setMask vol mask => Ret (fun _ => .unit) (VolDoes (α := Unit) pc vol (.maskSet mask) fun _ => .unit)
  | .getMask vol => Ret .mask (VolDoes pc vol .maskGet .num)
  | .statvfs vol => Ret .statfs (VolDoes pc vol .statfs .statfs)
  | .open path mode => Ret .fd (OpenDoes pc t path mode)
  | .unlink path => Ret (fun _ => .unit) (UnlinkDoes pc t path False)
  | .mkdir path => Ret (fun _ => .unit) (MkdirDoes pc t path)
  | .rmdir path => Ret (fun _ => .unit) (UnlinkDoes pc t path True)
  | .rename old new => Ret (fun _ => .unit) (RenameDoes pc t old new)
  | .link path hardLink => Ret (fun _ => .unit) (LinkDoes pc t path hardLink)
  | .close fd => Ret (fun _ => .unit) (CloseDoes pc fd)
  | .read fd len => Ret .bytes (ReadDoes pc fd len)
  | .write fd len buf => Ret .num (WriteDoes pc fd len buf)
  | .fsync fd => Ret (fun _ => .unit) (FsyncDoes pc fd)
  | .lseek fd off whence => Ret .num (LseekDoes pc fd off whence)
  | .ftruncate fd size => Ret (fun _ => .unit) (FtruncateDoes pc fd size)
  | .fstat fd => Ret .stat (FstatDoes pc fd)
  | .opendir path => Ret .dir (OpendirDoes pc t path)
  | .readdir dir => Ret .dirent (ReaddirDoes pc dir)
  | .rewinddir dir => Ret (fun _ => .unit) (RewinddirDoes pc dir)
  | .closedir dir => Ret (fun _ => .unit) (ClosedirDoes pc dir)
  | .chdir path => Ret (fun _ => .unit) (ChdirDoes pc t path)
  | .getcwd size => Ret .path (GetcwdDoes pc t size)

/-- Arguments that are rejected at once: a length that is not a positive `int32_t`; a buffer of no bytes. -/
def PCall.Bad : PCall → Prop
  | .read _ len => 2147483647 < len
  | .write _ len _ => 2147483647 < len
  | .getcwd size => size = 0
  | _ => False

/-- The task `t` gets a slot, if there are several and it has none yet: the first that is free. -/
inductive Registers (t : Nat) (s : PSt) : PSt → Prop
  | single : pc.tasks = 1 → Registers t s s
  | old {i : Nat} : pc.tasks ≠ 1 → i < pc.tasks → (s.slot i).task = t → Registers t s s
  | new {i : Nat} : pc.tasks ≠ 1 → (∀ j, j < pc.tasks → (s.slot j).task ≠ t) → i < pc.tasks → (s.slot i).task = 0 → (∀ j, j < i → (s.slot j).task ≠ 0) →
      Registers t s (s.setSlot i { s.slot i with task := t })

/-- All slots are used by other tasks. -/
def NoSlot (t : Nat) (s : PSt) : Prop := pc.tasks ≠ 1 ∧ ∀ i, i < pc.tasks → (s.slot i).task ≠ t ∧ (s.slot i).task ≠ 0

/-- The error code `e` is stored for task `t`: in its slot, or in a global variable if it has none. -/
def SetsErrno (t : Nat) (e : Err) (s s' : PSt) : Prop :=
  if pc.tasks = 1 ∨ s.inited = false then s' = { s with gerrno := some e }
  else (∃ s1 i, Registers pc t s s1 ∧ i < pc.tasks ∧ (s1.slot i).task = t ∧ s' = s1.setSlot i { s1.slot i with errno := some e }) ∨
    (NoSlot pc t s ∧ s' = { s with gerrno := some e })

/-- The state after `red_init`. -/
structure Initialized (s s' : PSt) : Prop where
  inited : s'.inited = true
  handle : ∀ k, k < pc.handles → (s'.handle k).ino = 0
  task : ∀ i, i < pc.tasks → (s'.slot i).task = 0 ∧ (s'.slot i).errno = none
  cwd : pc.cwd = true → ∀ i, i < pc.tasks → (s'.slot i).cwdVol = 0 ∧ (s'.slot i).cwdIno = 2
  gen : s'.gen = s.gen
  vols : ∀ i, i < pc.n → s'.vols i = coreInit pc.transDefault (s.vols i)

/-- What a call by task `t` does before the error code is stored. -/
def EnterDoes (t : Nat) (k : PCall) (s : PSt) (r : Except Err PReply) (s' : PSt) : Prop :=
  (k.Bad ∧ r = .error .einval ∧ s' = s) ∨
  (¬ k.Bad ∧ s.inited = false ∧ r = .error .einval ∧ s' = s) ∨
  (¬ k.Bad ∧ s.inited = true ∧ NoSlot pc t s ∧ r = .error .eusers ∧ s' = s) ∨
  (¬ k.Bad ∧ s.inited = true ∧ ∃ s1, Registers pc t s s1 ∧ BodyDoes pc t k s1 r s')

/-- What a call by task `t` does. -/
def PDoes (t : Nat) (k : PCall) (s : PSt) (r : Except Err PReply) (s' : PSt) : Prop :=
  match k with
  | .init => r = .ok .unit ∧ if s.inited then s' = s else Initialized pc s s'
  | k =>
    if k.isUninit = true ∧ s.inited = false then r = .ok .unit ∧ s' = s
    else ∃ s2, EnterDoes pc t k s r s2 ∧
      match r with
      | .ok _ => s' = s2
      | .error e => if setsErrno k then SetsErrno pc t e s2 s' else s' = s2

end RedFs.Posix
