import Verif.Spec.PosixCrash
import Verif.Spec.PosixDoes
/-!
What is on the disks, across calls of the POSIX API and power losses.
-/
namespace RedFs.Posix
open Str Spec

/-- `F` is the committed state of the volume: what a rollback would restore if it is mounted, and what mounting it would show if it is not. -/
def OnDisk (c : Conf) (v : Vol) (F : Files) : Prop := (v.mounted = true → committedFiles c v = F) ∧ (v.mounted = false → Found c v F)

/-- By calls of any tasks, and by power losses during calls or between them (each followed by a restart), `s` has been reached from `s0`; volume `i` has not
been formatted.  `L` are the states visited: `s0`, and the states after each call (also after the calls which power losses interrupted, as if they had been
finished).  Power losses while another volume is formatted are left out. -/
inductive PVisited (pc : PConf) (i : Nat) (s0 : PSt) : List PSt → PSt → Prop
  | nil : PVisited pc i s0 [s0] s0
  | call {L : List PSt} {s s' : PSt} {t : Nat} {k : PCall} {r : Except Err PReply} : PVisited pc i s0 L s → Permitted pc t k s → (∀ vol, k = .format vol → ¬ VolName pc vol i) →
      pexec pc t k s = (r, s') → PVisited pc i s0 (s' :: L) s'
  | crash {L : List PSt} {s s' w : PSt} {t : Nat} {k : PCall} {r : Except Err PReply} : PVisited pc i s0 L s → Permitted pc t k s → (∀ vol, k ≠ .format vol) →
      pexec pc t k s = (r, s') → Restarted pc s s' w → PVisited pc i s0 (s' :: L) w
  | idleCrash {L : List PSt} {s w : PSt} : PVisited pc i s0 L s → Restarted pc s s w → PVisited pc i s0 L w

/-- The call promises that volume `i` is committed when it succeeds: `red_transact` of the volume; `red_sync`; `red_fsync` and `red_close` of a file of the
volume; the last three if their event is enabled, and not if the volume is read-only. -/
def PCall.Flushes (pc : PConf) (s : PSt) (i : Nat) : PCall → Prop
  | .transact vol => VolName pc vol i
  | .sync => i < pc.n ∧ (s.vols i).mounted = true ∧ (s.vols i).readOnly = false ∧ (s.vols i).on .sync = true
  | .fsync fd => ∃ h, IsFd pc s fd h ∧ (s.handle h).vol = i ∧ (s.vols i).on .fsync = true
  | .close fd => ∃ h, IsFd pc s fd h ∧ (s.handle h).vol = i ∧ (s.vols i).readOnly = false ∧ (s.vols i).on .close = true
  | _ => False

end RedFs.Posix
