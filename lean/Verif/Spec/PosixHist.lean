import Verif.Spec.PosixDoes
/-!
Histories of calls of the POSIX API: descriptors and mounts.
-/
namespace RedFs.Posix

/-- The descriptor `fd` is open, as handle `k`. -/
def Open (pc : PConf) (s : PSt) (fd : Int) (k : Nat) : Prop := s.inited = true ∧ IsFd pc s fd k

/-- The descriptor that is passed to the call. -/
def PCall.fd? : PCall → Option Int
  | .close fd => some fd
  | .read fd _ => some fd
  | .write fd _ _ => some fd
  | .fsync fd => some fd
  | .lseek fd _ _ => some fd
  | .ftruncate fd _ => some fd
  | .fstat fd => some fd
  | _ => none

/-- Volume `i` has been mounted. -/
def IsMount (pc : PConf) (i : Nat) (e : PEv) : Prop := (∃ path flags, e.call = .mount path flags ∧ VolName pc path i) ∧ e.res = .ok .unit

/-- Volume `i` has been unmounted. -/
def IsUmount (pc : PConf) (i : Nat) (e : PEv) : Prop := (∃ path flags, e.call = .umount path flags ∧ VolName pc path i) ∧ e.res = .ok .unit

open Classical in
/-- How often volume `i` has been mounted. -/
noncomputable def mounts (pc : PConf) (i : Nat) (tr : List PEv) : Nat := (tr.filter fun e => decide (IsMount pc i e)).length

/-- The handle in the descriptor: its 12 lower bits. -/
def fdIdx (fd : Int) : Nat := fd.toNat % 4096

end RedFs.Posix
