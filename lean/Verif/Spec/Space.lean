import Verif.Model.Conf
/-!
How many blocks a write can take.  A data block that is written, and every pointer node above it, is
stored in a new block unless it is already new since the last transaction (the writable copy of a block
that belongs to the committed state, or the first block for a hole).
-/
namespace RedFs.Spec

/-- The number of different values of `x / n` for `lo ≤ x ≤ hi`. -/
def spanned (lo hi n : Nat) : Nat := hi / n - lo / n + 1

/-- The most blocks that writing logical blocks `b0` to `b1` of a file can take: the data blocks, the
indirect nodes above them (each for `indirEntries` data blocks), and the double indirect nodes above
these (each for `indirEntries²` data blocks).  The first `direct` blocks have no node above them, the
next `indirect * indirEntries` have one, the others two. -/
def blocksNeed (c : Conf) (b0 b1 : Nat) : Nat :=
  (b1 - b0 + 1)
  + (if c.direct ≤ b1 then spanned (b0 - c.direct) (b1 - c.direct) c.indirEntries else 0)
  + (if c.direct + c.indirect * c.indirEntries ≤ b1 then
      spanned (b0 - (c.direct + c.indirect * c.indirEntries)) (b1 - (c.direct + c.indirect * c.indirEntries)) (c.indirEntries * c.indirEntries)
     else 0)

/-- The most blocks that writing `len` bytes at `start` of a file of `size` bytes can take.  If the write
begins beyond the end then the last block of the file is written too. -/
def writeNeed (c : Conf) (size start len : Nat) : Nat :=
  if len = 0 then 0
  else blocksNeed c (start / c.blockSize) ((start + len - 1) / c.blockSize) + (if size < start then 3 else 0)

end RedFs.Spec
