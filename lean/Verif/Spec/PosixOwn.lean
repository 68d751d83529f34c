import Verif.Spec.PosixDoes
/-!
Which volumes a call of the POSIX API depends on.
-/
namespace RedFs.Posix
open RedFs

variable (pc : PConf)

/-- The path of task `t` leads to volume `i`: by its prefix, or by the working directory of the task. -/
def PathOn (t : Nat) (s : PSt) (path : List Byte) (i : Nat) : Prop :=
  ∃ s1 start l, Registers pc t s s1 ∧ StartAt pc s1 t path (.ok (i, start, l))

/-- The descriptor is that of a file or directory of volume `i`. -/
def FdOn (s : PSt) (fd : Int) (i : Nat) : Prop := ∃ k, IsFd pc s fd k ∧ (s.handle k).vol = i

/-- The call `k` of task `t` is about volume `i`. -/
def About (t : Nat) (s : PSt) : PCall → Nat → Prop
  | .init, _ | .uninit, _ | .sync, _ => True
  | .mount vol _, i | .umount vol _, i | .format vol, i | .transact vol, i | .rollback vol, i | .setMask vol _, i | .getMask vol, i | .statvfs vol, i => VolName pc vol i
  | .open path _, i | .unlink path, i | .mkdir path, i | .rmdir path, i | .opendir path, i | .chdir path, i => PathOn pc t s path i
  | .rename old new, i => PathOn pc t s old i ∧ PathOn pc t s new i
  | .link path hardLink, i => PathOn pc t s path i ∧ PathOn pc t s hardLink i
  | .close fd, i | .read fd _, i | .write fd _ _, i | .fsync fd, i | .lseek fd _ _, i | .ftruncate fd _, i | .fstat fd, i => FdOn pc s fd i
  | .readdir dir, i => dir < pc.handles ∧ (s.handle dir).ino ≠ 0 ∧ (s.handle dir).dir = true ∧ (s.handle dir).vol = i
  | .rewinddir _, _ | .closedir _, _ => False
  | .getcwd _, i => ∃ s1 j, Registers pc t s s1 ∧ SlotOf pc t s1 j ∧ (s1.slot j).cwdVol = i

/-- The system with the volume `i` replaced. -/
def PSt.withVol (i : Nat) (w : Vol) (s : PSt) : PSt := { s with vols := fun j => if j = i then w else s.vols j }

end RedFs.Posix
