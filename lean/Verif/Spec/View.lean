import Verif.Model.Imap
/-!
Specification vocabulary: what the two allocation maps say, independent of how
the imap functions compute it.

`imapBit c D m b` is the "block `b` is in use" bit of the allocation map rooted at
metaroot `m` on a disk with contents `D`.
-/
namespace RedFs
open Bitmap

/-- The bit for block `b` in the map rooted at `m`: inside the metaroot (inline imap)
or in the imap node the metaroot selects (external imap). -/
def imapBit (c : Conf) (D : Nat → Blk) (m : Metaroot) (b : Nat) : Bool :=
  if c.inline then bitGet m.entries (b - c.tableStart)
  else match D (nodeBlk c m ((b - c.tableStart) / c.imapEntries)) with
    | .imap bits => bitGet bits ((b - c.tableStart) % c.imapEntries)
    | _ => false

/-- In use in the working state. -/
def curBit (c : Conf) (v : Vol) (b : Nat) : Bool := imapBit c v.blk v.work b
/-- In use in the last committed state. -/
def cmtBit (c : Conf) (v : Vol) (b : Nat) : Bool := imapBit c v.blk v.comm b

/-- Number of `x` with `lo ≤ x < hi` satisfying `p`. -/
def countIn (p : Nat → Bool) (lo hi : Nat) : Nat := (List.range' lo (hi - lo)).countP p

/-- Number of allocable blocks free in both states. -/
def freeCount (c : Conf) (v : Vol) : Nat :=
  countIn (fun b => !curBit c v b && !cmtBit c v b) c.firstAlloc c.blockCount
/-- Number of allocable blocks free in the working state but used by the committed one. -/
def afreeCount (c : Conf) (v : Vol) : Nat :=
  countIn (fun b => !curBit c v b && cmtBit c v b) c.firstAlloc c.blockCount

/-- The block lies in the part of the volume covered by the allocation map. -/
def InMap (c : Conf) (b : Nat) : Prop := c.tableStart ≤ b ∧ b < c.blockCount

end RedFs
