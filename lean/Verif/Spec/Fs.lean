import Verif.Spec.File
/-!
Specification vocabulary for a whole file system: the inodes and their contents, as a user
sees them, and what it means for the blocks of a state to be a well-formed file system.
Both depend only on the contents `D` of the blocks and the allocation map `B`.
-/
namespace RedFs
open Bitmap

/-- What a user sees of an inode.  `bytes` is zero from `size` on. -/
@[ext] structure AFile where
  mode : Nat
  nlink : Nat
  parent : Nat
  size : Nat
  bytes : Nat → Byte

/-- The bytes of a read: the requested length clipped at end of file. -/
def AFile.read (f : AFile) (start len : Nat) : List Byte :=
  (List.range (min len (f.size - start))).map fun k => f.bytes (start + k)
/-- The file after the first `n` bytes of `b` have been written at `start`. -/
def AFile.write (f : AFile) (start n : Nat) (b : Nat → Byte) : AFile :=
  { f with size := max f.size (start + n)
           bytes := fun off => if start ≤ off ∧ off < start + n then b (off - start) else f.bytes off }
/-- The file with its size set to `sz`. -/
def AFile.truncate (f : AFile) (sz : Nat) : AFile :=
  { f with size := sz, bytes := fun off => if off < sz then f.bytes off else 0 }
/-- A new, empty file. -/
def AFile.new (mode parent : Nat) : AFile := ⟨mode, 1, parent, 0, fun _ => 0⟩

variable (c : Conf)

/-- Inode `i` of the state with block contents `D` and allocation map `B`. -/
def fileOf (D : Nat → Blk) (B : Nat → Bool) (i : Nat) : Option AFile :=
  (inodeAt c D B i).map fun n =>
    ⟨n.mode, n.nlink, n.pinode, n.size, fun off => if off < n.size then fileByte c (inodeAt c D B) D i off else 0⟩

/-- The files in the working state. -/
def files (v : Vol) (i : Nat) : Option AFile := fileOf c v.blk (curBit c v) i
/-- The files in the last committed state. -/
def committedFiles (v : Vol) (i : Nat) : Option AFile := fileOf c v.blk (cmtBit c v) i

/-- Is the inode in use? -/
def liveIn (B : Nat → Bool) (i : Nat) : Bool := B (slotBlk c i false) || B (slotBlk c i true)

/-- The tree of inode `i`. -/
def treeOf (D : Nat → Blk) (B : Nat → Bool) (i : Nat) : Pos → Nat := ptr (inodeAt c D B) D i

end RedFs
