import Verif.Model.Dir
import Verif.Spec.Api
/-!
What a directory is: a finite sequence of numbered entries, each free or a pair of inode number
and name.  `dirOf` reads this off the bytes of a file.
-/
namespace RedFs
open Str

/-- The entries of a directory; `n` of them, numbered from 0. -/
structure ADir where
  n : Nat
  slot : Nat → Option (Nat × List Byte)

variable (c : Conf)

/-- A name that may be given to a file. -/
structure NameOk (s : List Byte) : Prop where
  pos : 1 ≤ s.length
  max : s.length ≤ c.nameMax
  nul : ∀ b ∈ s, b ≠ 0#8
  sep : ∀ b ∈ s, b ≠ c.sep
  dot : s ≠ [46#8]
  dotdot : s ≠ [46#8, 46#8]

/-- Why a new entry cannot be made. -/
def BadName (s : List Byte) (e : Err) : Prop :=
  (s.length = 0 ∧ e = .einval) ∨ (c.nameMax < s.length ∧ e = .enametoolong) ∨
  (1 ≤ s.length ∧ s.length ≤ c.nameMax ∧ (s = [46#8] ∨ s = [46#8, 46#8]) ∧ e = .einval)

/-- The name at the front of a path: everything before the first separator. -/
def nameOf (s : List Byte) : List Byte := s.takeWhile (· ≠ c.sep)

/-- Entry `k` of the directory whose contents are `f`. -/
def entAt (f : AFile) (k : Nat) : Option (Nat × List Byte) :=
  let i := le32 fun j => f.bytes (c.idxOff k + j)
  if k < c.offIdx f.size ∧ i ≠ 0 then
    some (i, ((List.range c.nameMax).map fun j => f.bytes (c.idxOff k + 4 + j)).takeWhile (· ≠ 0#8))
  else none

/-- The directory whose contents are `f`. -/
def dirOf (f : AFile) : ADir := ⟨c.offIdx f.size, entAt c f⟩

/-- The directory has an entry for name `s`, referring to inode `i`. -/
def ADir.has (d : ADir) (s : List Byte) (i : Nat) : Prop := ∃ k, d.slot k = some (i, s)

/-- The bytes of one entry. -/
def encEnt : Option (Nat × List Byte) → Nat → Byte
  | none, _ => 0
  | some (i, s), j => if j < 4 then leByte i j else cget s (j - 4)

/-- The bytes of a directory. -/
def dirByte (d : ADir) (off : Nat) : Byte :=
  if off % c.blockSize / c.ds < c.dpb then
    encEnt (d.slot (off / c.blockSize * c.dpb + off % c.blockSize / c.ds)) (off % c.blockSize % c.ds)
  else 0

/-- The size of a directory with `n` entries. -/
def dirSize (n : Nat) : Nat := if n = 0 then 0 else c.idxOff (n - 1) + c.ds

/-- `f` is the file that holds the directory `d`. -/
structure DirFile (f : AFile) (d : ADir) : Prop where
  mode : f.mode = modeDir
  size : f.size = dirSize c d.n
  bytes : ∀ off, f.bytes off = dirByte c d off

/-- The directory is well formed: the last entry is in use, names are legal and unique. -/
structure DirOk (d : ADir) : Prop where
  max : d.n ≤ c.direntsMax
  out : ∀ k, d.n ≤ k → d.slot k = none
  last : 0 < d.n → d.slot (d.n - 1) ≠ none
  ino : ∀ k i s, d.slot k = some (i, s) → c.inodeValid i = true
  name : ∀ k i s, d.slot k = some (i, s) → NameOk c s
  uniq : ∀ k k' i i' s, d.slot k = some (i, s) → d.slot k' = some (i', s) → k = k'

/-- The directory with entry `k` set. -/
def ADir.set (d : ADir) (k : Nat) (e : Nat × List Byte) : ADir :=
  ⟨max d.n (k + 1), fun j => if j = k then some e else d.slot j⟩
/-- The number of entries up to the last one in use among the first `n`. -/
def lastUsed (slot : Nat → Option (Nat × List Byte)) : Nat → Nat
  | 0 => 0
  | n + 1 => if slot n = none then lastUsed slot n else n + 1
/-- The directory with entry `k` freed; free entries at the end are dropped. -/
def ADir.del (d : ADir) (k : Nat) : ADir :=
  ⟨if k + 1 = d.n then lastUsed d.slot k else d.n, fun j => if j = k then none else d.slot j⟩

end RedFs
