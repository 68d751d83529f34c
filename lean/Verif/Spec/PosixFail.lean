import Verif.Spec.PosixDurable
/-!
What a call of the POSIX API that fails leaves behind.
-/
namespace RedFs.Posix
open Str Spec

/-- Volume `i` is as it was: the files, what is on the disk, and how it is mounted.  Only: if there was no space, and the event "volume full" (or another
event of the call) is enabled, then what had been changed before the call may have been committed. -/
structure VolSame (pc : PConf) (k : PCall) (i : Nat) (s s' : PSt) : Prop where
  mounted : (s'.vols i).mounted = (s.vols i).mounted
  mask : (s'.vols i).transMask = (s.vols i).transMask
  ro : (s.vols i).mounted = true → (s'.vols i).readOnly = (s.vols i).readOnly
  files : (s.vols i).mounted = true → s'.files pc i = s.files pc i
  disk : (∀ F, OnDisk (pc.conf i) (s'.vols i) F ↔ OnDisk (pc.conf i) (s.vols i) F) ∨
    ((s.vols i).mounted = true ∧ (∃ ev ∈ k.events, (s.vols i).on ev = true) ∧ OnDisk (pc.conf i) (s'.vols i) (s.files pc i))

/-- Nothing is changed by the call: neither a volume, nor a descriptor or directory stream, nor a current directory.  Only: `red_write` with a descriptor
opened with `RED_O_APPEND` sets the offset to the end of the file before it fails. -/
structure Unaltered (pc : PConf) (k : PCall) (s s' : PSt) : Prop where
  inited : s'.inited = s.inited
  gen : s'.gen = s.gen
  cwdVol : ∀ j, (s'.slot j).cwdVol = (s.slot j).cwdVol
  cwdIno : ∀ j, (s'.slot j).cwdIno = (s.slot j).cwdIno
  handle : ∀ j, s'.handle j = s.handle j ∨
    ∃ fd len buf f, k = .write fd len buf ∧ IsFd pc s fd j ∧ (s.handle j).appending = true ∧ s.files pc (s.handle j).vol (s.handle j).ino = some f ∧
      s'.handle j = { s.handle j with off := f.size }
  vol : ∀ i, i < pc.n → VolSame pc k i s s'

end RedFs.Posix
