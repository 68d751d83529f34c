import Verif.Model.IoDir
import Verif.Spec.System
/-!
Specification of the file system on a device whose operations fail now and then.

As long as nothing fails a call does what `Spec.Does` says.  If the device fails in the middle of a call, the call returns an error
and the volume is *broken*: from then on it refuses all changes, and what it answers is not specified, until it is unmounted.
What is on the disk is not affected.
-/
namespace RedFs.Spec
open RedFs

/-- The calls that change files, or what is on the disk, of a mounted volume. -/
def Alters : Call → Prop
  | .create .. | .link .. | .unlink .. | .rename .. | .write .. | .truncate .. | .transact | .rollback => True
  | _ => False

/-- The calls that look at files. -/
def Inquires : Call → Prop
  | .lookup .. | .dirRead .. | .dirParent .. | .read .. | .stat .. | .fileSize .. | .statfs => True
  | _ => False

/-- The calls that concern the volume as a whole. -/
def Handles : Call → Prop
  | .mount .. | .maskSet .. | .maskGet => True
  | _ => False

/-- The state of the volume with respect to errors. -/
inductive Mode
  | fine
  /-- the device has failed in the middle of a call -/
  | broken
  /-- The device has failed during a commit.  If power is lost now, one of the states `L` may be found instead of the last committed one. -/
  | torn (L : List Files)

/-- The system, and the state of the volume with respect to errors. -/
structure SysIo where
  sys : Sys
  mode : Mode

/-- What may be found after a power loss. -/
def SysIo.cands (s : SysIo) : List (Option Files) := s.sys.disk :: match s.mode with
  | .torn L => L.map some
  | _ => []

/-- A call on a device that may fail.  `tr` are the states committed in the call. -/
inductive DoesIo (c : Conf) (k : Call) : SysIo → Except Err Reply → SysIo → List Files → Prop
  /-- nothing fails -/
  | works {s s' : Sys} {r : Except Err Reply} {tr : List Files} : Does c k s r s' tr → DoesIo c k ⟨s, .fine⟩ r ⟨s', .fine⟩ tr
  /-- The device fails.  The call returns `EIO`, or an error that it would have returned anyway.  Nothing is committed, unless the
  volume was full and so a transaction point has been made during the call, of the files as they were before it. -/
  | fails {s : Sys} {e : Err} {tr : List Files} {now : Files} : s.mounted = true → (e = .eio ∨ ∃ s' tr', Does c k s (.error e) s' tr') →
      (tr = [] ∨ tr = [s.now] ∧ s.on .volfull = true ∧ s.ro = false ∧ ∃ ev, k.event = some ev) →
      DoesIo c k ⟨s, .fine⟩ (.error e) ⟨{ s.commit tr with ro := true, now := now }, .broken⟩ tr
  /-- The device fails while a commit is being made (`C53`): of the files as they were before the call; or, after the operation has been
  done, of the new files (and then possibly, since the volume was full, a commit has been made before). -/
  | tears {s : Sys} {now : Files} {L : List Files} : s.mounted = true → s.ro = false →
      ((now = s.now ∧ (k = .transact ∨ (k = .unmount ∧ s.on .umount = true) ∨ s.on .volfull = true) ∧ L = [s.now]) ∨
       ((∃ ev, k.event = some ev ∧ s.on ev = true) ∧ (∃ a s' tr', Does c k s (.ok a) s' tr' ∧ now = s'.now) ∧
        (L = [now] ∨ s.on .volfull = true ∧ L = [s.now, now]))) →
      DoesIo c k ⟨s, .fine⟩ (.error .eio) ⟨{ s with ro := true, now := now }, .torn L⟩ L
  /-- the device fails while the volume is being mounted -/
  | mountFails {s : Sys} {ro : Bool} : s.mounted = false → k = .mount ro → DoesIo c k ⟨s, .fine⟩ (.error .eio) ⟨s, .fine⟩ []
  /-- a volume on which the device has failed does not accept changes -/
  | refuses {s : Sys} {m : Mode} : m ≠ .fine → Alters k → DoesIo c k ⟨s, m⟩ (.error .erofs) ⟨s, m⟩ []
  /-- what a broken volume answers is not specified -/
  | answers {s : Sys} {r : Except Err Reply} : Inquires k → DoesIo c k ⟨s, .broken⟩ r ⟨s, .broken⟩ []
  /-- after a failed commit the files can still be read (if the device works again) -/
  | reads {s : Sys} {L : List Files} {r : Except Err Reply} : Inquires k → (r = .error .eio ∨ Does c k s r s []) → DoesIo c k ⟨s, .torn L⟩ r ⟨s, .torn L⟩ []
  | handles {s s' : Sys} {m : Mode} {r : Except Err Reply} {tr : List Files} : Handles k → Does c k s r s' tr → DoesIo c k ⟨s, m⟩ r ⟨s', m⟩ tr
  /-- after unmounting it a broken volume is as good as before -/
  | unmounts {s : Sys} : k = .unmount → DoesIo c k ⟨s, .broken⟩ (.ok .unit) ⟨{ s with mounted := false }, .fine⟩ []

/-- What is left by a power loss during a call. -/
def LostIo (c : Conf) (k : Call) (s s' : SysIo) : Prop :=
  s'.mode = .fine ∧ s'.sys.mounted = false ∧ ∃ r s1 tr, DoesIo c k s r s1 tr ∧ s'.sys.disk ∈ s.cands ++ tr.map some

/-- The abstract file system (compare `SRun`). -/
inductive SRunIo (c : Conf) (s0 : SysIo) : List Ev → SysIo → Prop
  | nil : SRunIo c s0 [] s0
  | call {t : List Ev} {s s' : SysIo} {k : Call} {r : Except Err Reply} {tr : List Files} :
      SRunIo c s0 t s → DoesIo c k s r s' tr → SRunIo c s0 (t ++ [.call k r]) s'
  | crash {t : List Ev} {s s' : SysIo} {k : Call} : SRunIo c s0 t s → LostIo c k s s' → SRunIo c s0 (t ++ [.crash k]) s'
  | idleCrash {t : List Ev} {s : SysIo} {s' : Sys} : SRunIo c s0 t s → s'.mounted = false → s'.disk ∈ s.cands → SRunIo c s0 (t ++ [.idleCrash]) ⟨s', .fine⟩
  | format {t : List Ev} {s s' : Sys} : SRunIo c s0 t ⟨s, .fine⟩ → s.mounted = false → s' = { s with disk := some (formatted c) } →
      SRunIo c s0 (t ++ [.format (.ok ())]) ⟨s', .fine⟩
  | busy {t : List Ev} {s : SysIo} : SRunIo c s0 t s → s.sys.mounted = true → SRunIo c s0 (t ++ [.format (.error .ebusy)]) s
  | init {t : List Ev} {s s' : Sys} {mask : Nat} : SRunIo c s0 t ⟨s, .fine⟩ → s.mounted = false → s' = { s with mask := mask } →
      SRunIo c s0 (t ++ [.init mask]) ⟨s', .fine⟩
  | formatCrash {t : List Ev} {s s' : Sys} : SRunIo c s0 t ⟨s, .fine⟩ → s.mounted = false → s'.mounted = false →
      (s'.disk = s.disk ∨ s'.disk = none ∨ s'.disk = some (formatted c)) → SRunIo c s0 (t ++ [.formatCrash]) ⟨s', .fine⟩

end RedFs.Spec

namespace RedFs.Io
open RedFs

/-- The attempt to create a file or directory, if it is one, does not fail for lack of space (if it does, and volume-full transactions are
enabled, then a device failure at that moment can have further effects: see `C59_orphan`). -/
def Roomy (c : Conf) (k : Call) (v : Vol) : Prop :=
  match k with
  | .create p name isDir => v.mounted = true → v.readOnly = false → v.on .volfull = true → (RedFs.coreCreateSub c p name isDir v).1 ≠ .error .enospc
  | _ => True

/-- Nothing fails during the commits. -/
def Dev.Commits (d : Dev) : Prop := d.full = none ∧ d.event = none

/-- Nothing fails at all. -/
def Dev.Works (d : Dev) : Prop := (∀ n, d.fails n = false) ∧ d.Commits

/-- The model of the code (compare `Run`), on a device whose operations may fail at any time.  `f`: something may have failed in a
commit; then the volume must not be unmounted, but the system started again (DESIGN.md, finding 25). -/
inductive RunIo (c : Conf) (v0 : Vol) : List Ev → Vol → Bool → Prop
  | nil : RunIo c v0 [] v0 false
  | call {t : List Ev} {v v' : Vol} {f : Bool} {k : Call} {r : Except Err Reply} {d : Dev} : RunIo c v0 t v f → k.Ok c → Roomy c k v →
      (f = true → k ≠ .unmount) → d.Commits → execIo c d k v = (r, v') → RunIo c v0 (t ++ [.call k r]) v' f
  | callF {t : List Ev} {v v' : Vol} {f : Bool} {k : Call} {r : Except Err Reply} {d : Dev} : RunIo c v0 t v f → k.Ok c → Roomy c k v →
      (f = true → k ≠ .unmount) → execIo c d k v = (r, v') → RunIo c v0 (t ++ [.call k r]) v' true
  | crash {t : List Ev} {v v' w : Vol} {f : Bool} {k : Call} {r : Except Err Reply} {d : Dev} {new : List Epoch} {e : Epoch} {D : Nat → Blk} :
      RunIo c v0 t v f → k.Ok c → Roomy c k v → (f = true → k ≠ .unmount) → execIo c d k v = (r, v') →
      v'.hist = new ++ v.hist → e ∈ v'.epoch :: new → CrashImage c e D → Boot w D → RunIo c v0 (t ++ [.crash k]) w false
  | idleCrash {t : List Ev} {v w : Vol} {f : Bool} {D : Nat → Blk} : RunIo c v0 t v f → CrashImage c v.epoch D → Boot w D → RunIo c v0 (t ++ [.idleCrash]) w false
  /-- formatting, on a device that works -/
  | format {t : List Ev} {v v' : Vol} {f : Bool} {r : Except Err Unit} : RunIo c v0 t v f → v.almostFree = 0 ∨ v.mounted = true →
      volFormat c v = (r, v') → RunIo c v0 (t ++ [.format r]) (if v.mounted then v' else { v' with hist := [] }) f
  | formatCrash {t : List Ev} {v v' w : Vol} {f : Bool} {r : Except Err Unit} {new : List Epoch} {e : Epoch} {D : Nat → Blk} :
      RunIo c v0 t v f → v.almostFree = 0 → v.mounted = false → volFormat c v = (r, v') → v'.hist = new ++ v.hist → e ∈ new → FormatImage c e D → Boot w D →
      RunIo c v0 (t ++ [.formatCrash]) w false
  | init {t : List Ev} {v : Vol} {f : Bool} {mask : Nat} : RunIo c v0 t v f → v.mounted = false → RunIo c v0 (t ++ [.init mask]) (coreInit mask v) f

end RedFs.Io
