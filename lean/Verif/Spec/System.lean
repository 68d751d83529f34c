import Verif.Model.Exec
import Verif.Spec.NsApi
import Verif.Spec.Crash
/-!
The abstract file system: what a user who knows only the API may assume.

A volume is its working state `now` (the files as the calls see them) and its committed state `disk`
(the files that are found after a power loss).  A call answers according to the working state, may
change it, and may commit it; a power loss or a rollback returns to the committed state.
-/
namespace RedFs
open Str

/-- The state of a volume as far as a user knows it. -/
structure Sys where
  /-- is it mounted? read-only? -/
  mounted : Bool
  ro : Bool
  /-- the events that cause automatic transactions -/
  mask : Nat
  /-- the files; meaningful while mounted -/
  now : Files
  /-- the files at the last transaction point; `none` if there is no file system on the disk -/
  disk : Option Files

/-- Is event `e` enabled? -/
def Sys.on (s : Sys) (e : Event) : Bool := s.mask.testBit e.bit
/-- The states `tr` have been committed one after the other. -/
def Sys.commit (s : Sys) (tr : List Files) : Sys := { s with disk := match tr.getLast? with | some F => some F | none => s.disk }

namespace Spec
variable (c : Conf)

/-- The specification `R` of an operation, with the result given as a `Reply`. -/
def Via {α : Type} (f : α → Reply) (R : Files → Except Err α → Files → Prop) (F : Files) (r : Except Err Reply) (F' : Files) : Prop :=
  ∃ r0 : Except Err α, r = r0.map f ∧ R F r0 F'
def ViaQ {α : Type} (f : α → Reply) (Q : Files → Except Err α → Prop) (F : Files) (r : Except Err Reply) : Prop :=
  ∃ r0 : Except Err α, r = r0.map f ∧ Q F r0

/-- A call that modifies files.  If it succeeds and its event `ev` is enabled, its result is committed.
If there is no space and "volume full" is enabled, the state before the call may be committed first;
the call then is as if made after that. -/
def Modify (ev : Event) (R : Files → Except Err Reply → Files → Prop) (s : Sys) (r : Except Err Reply) (s' : Sys) (tr : List Files) : Prop :=
  if s.mounted = false then r = .error .einval ∧ s' = s ∧ tr = []
  else if s.ro = true then r = .error .erofs ∧ s' = s ∧ tr = []
  else ∃ pre F,
    (pre = [] ∨ pre = [s.now] ∧ s.on .volfull = true ∧ R s.now (.error .enospc) s.now) ∧
    R s.now r F ∧
    tr = pre ++ (if r.toBool = true ∧ s.on ev = true then [F] else []) ∧
    s' = { s.commit tr with now := F }

/-- A call that only asks. -/
def Ask (Q : Files → Except Err Reply → Prop) (s : Sys) (r : Except Err Reply) (s' : Sys) (tr : List Files) : Prop :=
  s' = s ∧ tr = [] ∧ if s.mounted = false then r = .error .einval else Q s.now r

/-- `red_stat`. -/
def Stat (ino : Nat) (F : Files) : Except Err Stat → Prop
  | .error e => e = .ebadf ∧ F ino = none
  | .ok st => ∃ f, F ino = some f ∧ st.ino = ino ∧ st.mode = f.mode ∧ st.nlink = f.nlink ∧ st.size = f.size
/-- The size of a file. -/
def FileSize (ino : Nat) (F : Files) : Except Err Nat → Prop
  | .error e => NotReg F ino e
  | .ok n => ∃ f, IsReg F ino f ∧ n = f.size
/-- The directory in which a directory is. -/
def DirParent (p : Nat) (F : Files) : Except Err Nat → Prop
  | .error e => NotDir F p e
  | .ok n => ∃ f, IsDir F p f ∧ n = f.parent
/-- `red_statvfs`.  (For the number of free blocks see C14.) -/
def StatFs (ro : Bool) (F : Files) : Except Err StatFs → Prop
  | .error _ => False
  | .ok st => st.blocks = c.blockCount ∧ st.bfree ≤ c.allocable ∧ st.files = c.inodeCount ∧
      st.ffree = countIn (fun i => (F i).isNone) 2 (2 + c.inodeCount) ∧ st.readOnly = ro

/-- What a call does: `s` is the state before it, `r` the result, `s'` the state after it, and `tr` the
states committed meanwhile. -/
def Does (k : Call) (s : Sys) (r : Except Err Reply) (s' : Sys) (tr : List Files) : Prop :=
  match k with
  | .create p name isDir => Modify (if isDir then .mkdir else .creat) (Via .num (Create c p (nameOf c name) isDir)) s r s' tr
  | .link p name ino => Modify .link (Via (fun _ => .unit) (Link c p (nameOf c name) ino)) s r s' tr
  | .unlink p name => Modify .unlink (Via (fun _ => .unit) (Unlink c p (nameOf c name))) s r s' tr
  | .rename p name p' name' => Modify .rename (Via (fun _ => .unit) (Rename c p (nameOf c name) p' (nameOf c name'))) s r s' tr
  | .write ino start len buf => Modify .write (Via .num (Write c ino start len buf)) s r s' tr
  | .truncate ino size => Modify .truncate (Via (fun _ => .unit) (Truncate c ino size)) s r s' tr
  | .lookup p name => Ask (ViaQ .num (Lookup c p (nameOf c name))) s r s' tr
  | .dirRead p pos => Ask (ViaQ (fun x => .entry x.1 x.2) (DirRead c p pos)) s r s' tr
  | .dirParent p => Ask (ViaQ .num (DirParent p)) s r s' tr
  | .read ino start len => Ask (ViaQ .bytes (Read ino start len)) s r s' tr
  | .stat ino => Ask (ViaQ .stat (Stat ino)) s r s' tr
  | .fileSize ino => Ask (ViaQ .num (FileSize ino)) s r s' tr
  | .statfs => Ask (ViaQ .statfs (StatFs c s.ro)) s r s' tr
  | .maskGet => Ask (fun _ r => r = .ok (.num s.mask)) s r s' tr
  | .maskSet mask => tr = [] ∧
      if s.mounted = false ∨ mask &&& c.transactMask ≠ mask then r = .error .einval ∧ s' = s
      else if s.ro = true then r = .error .erofs ∧ s' = s
      else r = .ok .unit ∧ s' = { s with mask := mask }
  | .transact =>
      if s.mounted = false then r = .error .einval ∧ s' = s ∧ tr = []
      else if s.ro = true then r = .error .erofs ∧ s' = s ∧ tr = []
      else r = .ok .unit ∧ tr = [s.now] ∧ s' = { s with disk := some s.now }
  | .rollback => tr = [] ∧
      if s.mounted = false then r = .error .einval ∧ s' = s
      else if s.ro = true then r = .error .erofs ∧ s' = s
      else r = .ok .unit ∧ ∃ F, s.disk = some F ∧ s' = { s with now := F }
  | .mount ro => tr = [] ∧
      if s.mounted = true then s' = s ∧ r = if c.posix then .error .ebusy else .ok .unit
      else match s.disk with
        | none => r = .error .eio ∧ s' = s
        | some F => r = .ok .unit ∧ s' = { s with mounted := true, ro := ro, now := F }
  | .unmount =>
      if s.mounted = false then s' = s ∧ tr = [] ∧ r = if c.posix then .error .einval else .ok .unit
      else r = .ok .unit ∧ tr = (if s.ro = false ∧ s.on .umount = true then [s.now] else []) ∧
        s' = { s.commit tr with mounted := false }

/-- What is left by a power loss during a call: one of the states that were committed - the one
committed before the call, or one that the call committed. -/
def Lost (k : Call) (s s' : Sys) : Prop :=
  s'.mounted = false ∧ ∃ r s1 tr, Does c k s r s1 tr ∧ s'.disk ∈ s.disk :: tr.map some

end Spec

/-! ### Executions -/

/-- The strings passed are C strings (no zero byte before the end), and names are used in POSIX builds only. -/
def Call.Ok (c : Conf) : Call → Prop
  | .create _ name _ => c.posix = true ∧ CStr.Ok name
  | .link _ name _ => c.posix = true ∧ CStr.Ok name
  | .unlink _ name => c.posix = true ∧ CStr.Ok name
  | .rename _ name _ name' => c.posix = true ∧ CStr.Ok name ∧ CStr.Ok name'
  | .lookup _ name => c.posix = true ∧ CStr.Ok name
  | .dirRead _ _ => c.posix = true
  | .dirParent _ => c.posix = true
  | .statfs => c.posix = true
  | _ => True

/-- The event that makes a successful call commit. -/
def Call.event : Call → Option Event
  | .create _ _ isDir => some (if isDir then .mkdir else .creat)
  | .link .. => some .link
  | .unlink .. => some .unlink
  | .rename .. => some .rename
  | .write .. => some .write
  | .truncate .. => some .truncate
  | .unmount => some .umount
  | _ => none

/-- What happens to a volume. -/
inductive Ev
  | call (k : Call) (r : Except Err Reply)
  /-- power is lost during a call, or when none is going on -/
  | crash (k : Call)
  | idleCrash
  | format (r : Except Err Unit)
  | formatCrash
  /-- the driver is initialized again, without a power loss; `mask` is its default transaction mask -/
  | init (mask : Nat)

/-- The abstract file system. -/
inductive SRun (c : Conf) (s0 : Sys) : List Ev → Sys → Prop
  | nil : SRun c s0 [] s0
  | call {t : List Ev} {s s' : Sys} {k : Call} {r : Except Err Reply} {tr : List Files} :
      SRun c s0 t s → Spec.Does c k s r s' tr → SRun c s0 (t ++ [.call k r]) s'
  | crash {t : List Ev} {s s' : Sys} {k : Call} : SRun c s0 t s → Spec.Lost c k s s' → SRun c s0 (t ++ [.crash k]) s'
  | idleCrash {t : List Ev} {s s' : Sys} : SRun c s0 t s → s'.mounted = false → s'.disk = s.disk → SRun c s0 (t ++ [.idleCrash]) s'
  | format {t : List Ev} {s s' : Sys} : SRun c s0 t s → s.mounted = false → s' = { s with disk := some (formatted c) } → SRun c s0 (t ++ [.format (.ok ())]) s'
  | busy {t : List Ev} {s : Sys} : SRun c s0 t s → s.mounted = true → SRun c s0 (t ++ [.format (.error .ebusy)]) s
  | init {t : List Ev} {s s' : Sys} {mask : Nat} : SRun c s0 t s → s.mounted = false → s' = { s with mask := mask } → SRun c s0 (t ++ [.init mask]) s'
  /-- a format that is interrupted: the old volume, no volume, or a completely formatted one -/
  | formatCrash {t : List Ev} {s s' : Sys} : SRun c s0 t s → s.mounted = false → s'.mounted = false →
      (s'.disk = s.disk ∨ s'.disk = none ∨ s'.disk = some (formatted c)) → SRun c s0 (t ++ [.formatCrash]) s'

/-- The system has been started with the disk `D`. -/
structure Boot (v : Vol) (D : Nat → Blk) : Prop where
  conn : Connected v D
  hist : v.hist = []
  mounted : v.mounted = false
  almost : v.almostFree = 0

/-- Mounting the volume of the system `w` succeeds, and shows the files `F`. -/
def Found (c : Conf) (w : Vol) (F : Files) : Prop :=
  ∀ ro, ∃ w', volMount c ro w = (.ok (), w') ∧ w'.mounted = true ∧ w'.readOnly = ro ∧ files c w' = F ∧ committedFiles c w' = F

/-- What can be left by a power loss during a format: as `CrashImage`; and a master block that was
being written is the old one, the new one, or not a valid one. -/
structure FormatImage (c : Conf) (e : Epoch) (D : Nat → Blk) : Prop where
  image : CrashImage c e D
  master : e.dirty 0 = true → D 0 = e.base 0 ∨ D 0 = e.fin 0 ∨ ∀ m, D 0 ≠ .master m

/-- The model of the code.  (`hist` is a ghost; it is cleared after a format.) -/
inductive Run (c : Conf) (v0 : Vol) : List Ev → Vol → Prop
  | nil : Run c v0 [] v0
  | call {t : List Ev} {v v' : Vol} {k : Call} {r : Except Err Reply} : Run c v0 t v → k.Ok c → exec c k v = (r, v') → Run c v0 (t ++ [.call k r]) v'
  | crash {t : List Ev} {v v' w : Vol} {k : Call} {r : Except Err Reply} {new : List Epoch} {e : Epoch} {D : Nat → Blk} :
      Run c v0 t v → k.Ok c → exec c k v = (r, v') →
      -- the epochs which went on during the call
      v'.hist = new ++ v.hist → e ∈ v'.epoch :: new → CrashImage c e D → Boot w D → Run c v0 (t ++ [.crash k]) w
  | idleCrash {t : List Ev} {v w : Vol} {D : Nat → Blk} : Run c v0 t v → CrashImage c v.epoch D → Boot w D → Run c v0 (t ++ [.idleCrash]) w
  /-- formatting is correct only if nothing is left of `ulAlmostFreeBlocks` from the last mount, see DESIGN.md, finding 10 -/
  | format {t : List Ev} {v v' : Vol} {r : Except Err Unit} : Run c v0 t v → v.almostFree = 0 ∨ v.mounted = true →
      volFormat c v = (r, v') → Run c v0 (t ++ [.format r]) (if v.mounted then v' else { v' with hist := [] })
  | formatCrash {t : List Ev} {v v' w : Vol} {r : Except Err Unit} {new : List Epoch} {e : Epoch} {D : Nat → Blk} :
      Run c v0 t v → v.almostFree = 0 → v.mounted = false → volFormat c v = (r, v') → v'.hist = new ++ v.hist → e ∈ new → FormatImage c e D → Boot w D →
      Run c v0 (t ++ [.formatCrash]) w
  | init {t : List Ev} {v : Vol} {mask : Nat} : Run c v0 t v → v.mounted = false → Run c v0 (t ++ [.init mask]) (coreInit mask v)

/-- A system started with a disk on which there is no volume. -/
def Blank (c : Conf) (v : Vol) : Prop := ∃ D, Boot v D ∧ ∀ mm, D 0 = .master mm → masterMatches c mm = false

/-- What can be reached by any sequence of formats, calls and power losses. -/
def Reach (c : Conf) (v : Vol) : Prop := ∃ v0 t, Blank c v0 ∧ Run c v0 t v

/-- From `v0` on, by calls and power losses only, `v` has been reached; `L` are the states visited: `v0`,
and the states after each call (also after the calls which power losses interrupted, as if they had
been finished). -/
inductive Visited (c : Conf) (v0 : Vol) : List Vol → Vol → Prop
  | nil : Visited c v0 [v0] v0
  | call {L : List Vol} {v v' : Vol} {k : Call} {r : Except Err Reply} : Visited c v0 L v → k.Ok c → exec c k v = (r, v') → Visited c v0 (v' :: L) v'
  | crash {L : List Vol} {v v' w : Vol} {k : Call} {r : Except Err Reply} {new : List Epoch} {e : Epoch} {D : Nat → Blk} :
      Visited c v0 L v → k.Ok c → exec c k v = (r, v') → v'.hist = new ++ v.hist → e ∈ v'.epoch :: new → CrashImage c e D → Boot w D →
      Visited c v0 (v' :: L) w
  | idleCrash {L : List Vol} {v w : Vol} {D : Nat → Blk} : Visited c v0 L v → CrashImage c v.epoch D → Boot w D → Visited c v0 L w

/-- A sequence of calls, with their results. -/
def runCalls (c : Conf) : List Call → Vol → List (Except Err Reply) × Vol
  | [], v => ([], v)
  | k :: ks, v => ((exec c k v).1 :: (runCalls c ks (exec c k v).2).1, (runCalls c ks (exec c k v).2).2)

/-- The configurations considered. -/
structure Conf.SysOk (c : Conf) : Prop where
  ok : c.Ok
  posixOk : c.posix = true → c.PosixOk

end RedFs
