import Verif.Spec.Posix
/-!
Power losses during a call of the POSIX API.
-/
namespace RedFs.Posix
open Str Spec

/-- The events of the transaction mask that let a call commit. -/
def PCall.events : PCall → List Event
  | .sync => [.sync]
  | .umount _ _ => [.umount]
  | .open _ mode => (if has mode oCreat then [.creat, .volfull] else []) ++ (if has mode oTrunc then [.truncate, .volfull] else [])
  | .unlink _ => [.unlink, .volfull]
  | .mkdir _ => [.mkdir, .volfull]
  | .rmdir _ => [.unlink, .volfull]
  | .rename _ _ => [.rename, .volfull]
  | .link _ _ => [.link, .volfull]
  | .close _ => [.close]
  | .write _ _ _ => [.write, .volfull]
  | .fsync _ => [.fsync]
  | .ftruncate _ _ => [.truncate, .volfull]
  | _ => []

/-- What is found on a volume after a power loss during the call `k`.  `v` is the volume before the call, `v'` what it would be after it, `w` the volume
after the restart.
A volume that was mounted shows one of: the files at the last transaction point before the call; or, only if the call is `red_transact` or one of its events
is enabled, the files before the call or those after it.
A volume that was not mounted is as before. -/
def Survives (c : Conf) (k : PCall) (v v' w : Vol) : Prop :=
  (v.mounted = true → Found c w (committedFiles c v) ∨
    (((∃ vol, k = .transact vol) ∨ ∃ ev ∈ k.events, v.on ev = true) ∧ (Found c w (files c v) ∨ v'.mounted = true ∧ Found c w (files c v')))) ∧
  (v.mounted = false → ∀ F, Found c w F ↔ Found c v F)

/-- The system `s0` has been started after a power loss.  It happened on the way from `s` to `s'`, on every volume in any epoch (interval between flushes of the
device) begun since then, or in the one going on at the end; and any of the blocks written in that epoch may be missing, or torn. -/
structure Restarted (pc : PConf) (s s' s0 : PSt) : Prop where
  inited : s0.inited = false
  gen : ∀ i, s0.gen i = 0
  cur : s0.cur = 0
  vol : ∀ i, i < pc.n → ∃ new e D, (s'.vols i).hist = new ++ (s.vols i).hist ∧ e ∈ (s'.vols i).epoch :: new ∧ CrashImage (pc.conf i) e D ∧ Boot (s0.vols i) D

end RedFs.Posix
