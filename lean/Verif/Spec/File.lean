import Verif.Model.Data
import Verif.Spec.View
/-!
Specification vocabulary for files: where the tree of blocks of an inode keeps the data of
a given logical block, and what the file therefore contains.  Independent of the
coordinates kept in a `CINODE`.
-/
namespace RedFs
open Bitmap

/-- A position in the tree of an inode: an entry of the inode, or an entry of the node at
another position. -/
inductive Pos
  | ent (e : Nat)
  | sub (p : Pos) (k : Nat)
deriving DecidableEq

variable (c : Conf)

/-- Height of the tree below entry `e` of an inode: 0 for a direct pointer, 1 for an indirect,
2 for a double indirect pointer. -/
def Conf.height (e : Nat) : Nat := if e < c.direct then 0 else if e < c.direct + c.indirect then 1 else 2

/-- Height above the data: 0 for a data block, 1 for an indirect node, 2 for a double indirect node. -/
def Pos.lvl : Pos → Nat
  | .ent e => c.height e
  | .sub p _ => p.lvl - 1

/-- The position exists. -/
def PosOk : Pos → Prop
  | .ent e => e < c.inodeEntries
  | .sub p k => PosOk p ∧ 0 < p.lvl c ∧ k < c.indirEntries

/-- The first logical block of the file that is reached through the position. -/
def Pos.first : Pos → Nat
  | .ent e =>
    if e < c.direct then e
    else if e < c.direct + c.indirect then c.direct + (e - c.direct) * c.indirEntries
    else c.direct + c.indirBlocks + (e - c.direct - c.indirect) * c.dindirData
  | .sub p k => p.first + k * (if p.lvl c = 1 then 1 else c.indirEntries)

/-- Where logical block `b` is. -/
def posOf (b : Nat) : Pos :=
  if b < c.direct then .ent b
  else if b < c.direct + c.indirBlocks then
    .sub (.ent (c.direct + (b - c.direct) / c.indirEntries)) ((b - c.direct) % c.indirEntries)
  else
    let o := b - (c.direct + c.indirBlocks)
    .sub (.sub (.ent (c.direct + c.indirect + o / c.dindirData)) (o % c.dindirData / c.indirEntries))
      (o % c.dindirData % c.indirEntries)

/-- Entry `e` of inode `i` in the inode table `N`. -/
def entryOf (N : Nat → Option InodeNode) (i e : Nat) : Nat :=
  match N i with
  | some n => n.entries e
  | none => 0

/-- The block at a position of the tree of inode `i`, 0 if there is none. -/
def ptr (N : Nat → Option InodeNode) (D : Nat → Blk) (i : Nat) : Pos → Nat
  | .ent e => entryOf N i e
  | .sub p k => let q := ptr N D i p; if q = 0 then 0 else (D q).ptrs k

/-- The contents of logical block `b` of file `i`; `none` if the file has a hole there. -/
def fileBlk (N : Nat → Option InodeNode) (D : Nat → Blk) (i b : Nat) : Option Blk :=
  let q := ptr N D i (posOf c b)
  if q = 0 then none else some (D q)

/-- The byte at offset `off`. -/
def fileByte (N : Nat → Option InodeNode) (D : Nat → Blk) (i off : Nat) : Byte :=
  match fileBlk c N D i (off / c.blockSize) with
  | some x => x.bytes (off % c.blockSize)
  | none => 0

/-- The live copy of an inode: the one of its two blocks which the allocation map `B` marks. -/
def slotOf (B : Nat → Bool) (i : Nat) : Option Nat :=
  if B (slotBlk c i false) then some (slotBlk c i false)
  else if B (slotBlk c i true) then some (slotBlk c i true)
  else none

/-- The inode table of the state with block contents `D` and allocation map `B`. -/
def inodeAt (D : Nat → Blk) (B : Nat → Bool) (i : Nat) : Option InodeNode :=
  if c.inodeValid i then
    match slotOf c B i with
    | some b => (match D b with | .inode n => some n | _ => none)
    | none => none
  else none

/-- The block is file data. -/
def Blk.isData : Blk → Bool
  | .data _ => true
  | _ => false

end RedFs
