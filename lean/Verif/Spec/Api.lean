import Verif.Spec.Fs
/-!
What the operations on files do, in terms of the table of files (inode number to file) a user
sees.  `F` is the table before the call, `r` the result, `F'` the table after it.
-/
namespace RedFs

/-- A table of files. -/
abbrev Files := Nat → Option AFile

/-- The table with entry `i` replaced. -/
def Files.set (F : Files) (i : Nat) (f : Option AFile) : Files := fun j => if j = i then f else F j

@[simp] theorem Files.set_same (F : Files) (i : Nat) (f : Option AFile) : F.set i f i = f := if_pos rfl
theorem Files.set_other (F : Files) {i j : Nat} (f : Option AFile) (h : j ≠ i) : F.set i f j = F j := if_neg h
theorem Files.set_eq {F F' : Files} {i : Nat} {f : Option AFile} (h1 : F' i = f) (h2 : ∀ j, j ≠ i → F' j = F j) : F' = F.set i f := by
  funext j; unfold Files.set; split
  · next e => rw [e, h1]
  · next e => exact h2 j e
theorem Files.set_self (F : Files) (i : Nat) : F.set i (F i) = F := by
  funext j; unfold Files.set; split
  · next e => rw [e]
  · rfl

/-- The file after `n` bytes of `b` have been written at `start`; writing nothing changes nothing. -/
def AFile.put (f : AFile) (start n : Nat) (b : Nat → Byte) : AFile := if n = 0 then f else f.write start n b

/-- The files of a freshly formatted volume: in a POSIX build an empty root directory, in an FSE build
all files, each of them empty. -/
def formatted (c : Conf) : Files := fun i =>
  if c.posix then (if i = 2 then some (AFile.new modeDir 0) else none)
  else if c.inodeValid i then some (AFile.new modeReg 0) else none

namespace Spec
variable (c : Conf)

/-- `F i` is a regular file / a directory. -/
def IsReg (F : Files) (i : Nat) (f : AFile) : Prop := F i = some f ∧ f.mode = modeReg
def IsDir (F : Files) (i : Nat) (f : AFile) : Prop := F i = some f ∧ f.mode = modeDir

/-- The error for using `ino` as a regular file: no such inode, or a directory. -/
def NotReg (F : Files) (ino : Nat) (e : Err) : Prop :=
  (e = .ebadf ∧ F ino = none) ∨ (e = .eisdir ∧ ∃ f, IsDir F ino f)
/-- The error for using `ino` as a directory. -/
def NotDir (F : Files) (ino : Nat) (e : Err) : Prop :=
  (e = .ebadf ∧ F ino = none) ∨ (e = .enotdir ∧ ∃ f, IsReg F ino f)

/-- Writing `len` bytes of `b` at offset `start` of file `ino`: the result is the number of bytes written. -/
def Write (ino start len : Nat) (b : Nat → Byte) (F : Files) : Except Err Nat → Files → Prop
  | .error e, F' => F' = F ∧ (NotReg F ino e ∨ ∃ f, IsReg F ino f ∧
      if c.sizeMax < start ∨ (start = c.sizeMax ∧ 0 < len) then e = .efbig else e = .enospc ∧ 0 < len)
  | .ok n, F' => ∃ f, IsReg F ino f ∧ n ≤ len ∧ (0 < len → 0 < n) ∧ start + n ≤ c.sizeMax ∧ F' = F.set ino (some (f.put start n b))

/-- Setting the size of file `ino`. -/
def Truncate (ino size : Nat) (F : Files) : Except Err Unit → Files → Prop
  | .error e, F' => F' = F ∧ (NotReg F ino e ∨ ∃ f, IsReg F ino f ∧ if c.sizeMax < size then e = .efbig else e = .enospc)
  | .ok (), F' => ∃ f, IsReg F ino f ∧ size ≤ c.sizeMax ∧ F' = F.set ino (some (f.truncate size))

/-- The result of reading `len` bytes at `start`. -/
def Read (ino start len : Nat) (F : Files) : Except Err (List Byte) → Prop
  | .error e => NotReg F ino e
  | .ok bs => ∃ f, IsReg F ino f ∧ bs = f.read start len

end Spec
end RedFs
