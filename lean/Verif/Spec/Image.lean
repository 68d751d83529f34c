import Verif.Spec.Swap
import Verif.Spec.Ns
import Verif.Model.Volume
import Verif.Spec.Crash
/-!
The bytes of a volume on its device, and how to get the files from them with no more than the format (core/include/rednodes.h): C58.

The first part says which bytes the driver writes for a block.  Assigning a number to a member of a structure keeps only as much of it as fits.
The second part is a reader.  It knows the configuration, and nothing of the driver's state.
-/
namespace RedFs.Image
open RedFs Buffer Swap Bitmap

/-- The layout of nodes in a configuration with sectors of `ss` bytes. -/
def layout (c : Conf) (ss : Nat) : Layout where
  bs := c.blockSize
  ss := ss
  posix := c.posix
  link := true
  inodeBlocks := c.inodeBlocks
  timestamps := c.timestamps
  indirs := decide (c.direct < c.inodeEntries)
  dindirs := decide (0 < c.dindirPtrs)

/-! ### The writer -/

section
variable (l : Layout) (b : Build)

/-- The number `x` has been assigned to the member of `w` bytes at offset `a`. -/
def Stored (f : Bytes) (a w x : Nat) : Prop := number b.big f a w = x % 256 ^ w

/-- `INODE`, rednodes.h:140-171, in memory. -/
structure HoldsInode (f : Bytes) (n : InodeNode) : Prop where
  size : Stored b f 16 8 n.size
  blocks : l.inodeBlocks = true → Stored b f 24 4 n.blocks
  mode : Stored b f l.oMode 2 n.mode
  nlink : l.posix = true → Stored b f (l.oMode + 2) 2 n.nlink
  pinode : l.posix = true → Stored b f l.oPInode 4 n.pinode
  entries : ∀ e, e < l.inodeEntries → Stored b f (l.oEntries + 4 * e) 4 (n.entries e)

/-- `INDIR` and `DINDIR`, rednodes.h:178-193, in memory. -/
def HoldsPtrs (f : Bytes) (es : Nat → Nat) : Prop := ∀ k, k < l.indirEntries → Stored b f (20 + 4 * k) 4 (es k)

/-- `METAROOT`, rednodes.h:88-105, in memory. -/
structure HoldsMetaroot (f : Bytes) (m : Metaroot) : Prop where
  freeBlocks : Stored b f 20 4 m.freeBlocks
  freeInodes : l.posix = true → Stored b f 24 4 m.freeInodes
  allocNext : Stored b f l.oNext 4 m.allocNext
  entries : ∀ k, l.oNext + 4 + k < l.bs → f (l.oNext + 4 + k) = m.entries k

/-- `D` are the bytes that are written for a block other than a metaroot or the master block; its sequence number is less than `top`. -/
def Written (top : Nat) : Blk → Bytes → Prop
  | .data d, D => ∀ i, i < l.bs → D i = d i
  | .inode n, D => ∃ f seq, HoldsInode l b f n ∧ seq.toNat < top ∧ D = finalize l b .inode 0x444F4E49#32 seq f
  | .indir _ es, D => ∃ f seq, HoldsPtrs l b f es ∧ seq.toNat < top ∧ D = finalize l b .indir 0x49444E49#32 seq f
  | .dindir _ es, D => ∃ f seq, HoldsPtrs l b f es ∧ seq.toNat < top ∧ D = finalize l b .dindir 0x494C4244#32 seq f
  | .imap bits, D => ∃ f seq, (∀ k, 16 + k < l.bs → f (16 + k) = bits k) ∧ seq.toNat < top ∧ D = finalize l b .imap 0x50414D49#32 seq f
  | _, _ => True

/-- `D` are the bytes of a metaroot block. -/
def WrittenRoot : Blk → Bytes → Prop
  | .metaroot m, D => ∃ f, HoldsMetaroot l b f m ∧ D = finalizeMetaroot l b (BitVec.ofNat 64 m.seq) f
  | x, D => (metarootIsValid l b D).1 = false ∧ (metarootIsValid l b D).2.1 = mrSectorOk x

/-- `img` are the bytes on a device with the contents `D`, written by a computer `b`, and `m` is the metaroot in force.
A metaroot gets the highest sequence number of its state (`RedVolTransact`, volume.c:515-590).  Of blocks that do not belong to the state of `m` nothing is said. -/
structure IsImage (c : Conf) (D : Nat → Blk) (m : Metaroot) (img : Nat → Bytes) : Prop where
  blocks : ∀ x, InState c D m x → Written l b (m.seq + 1) (D x) (img x)
  roots : ∀ x, x = 1 ∨ x = 2 → WrittenRoot l b (D x) (img x)
end

/-! ### The reader -/

section
variable (c : Conf) (l : Layout) (b : Build) (img : Nat → Bytes)

/-- Block `x` as a metaroot. -/
def rootAt (x : Nat) : Blk :=
  match loadMetaroot l b (img x) with
  | some g => .metaroot
      { seq := number b.big g 8 8, freeBlocks := number b.big g 20 4, freeInodes := if l.posix then number b.big g 24 4 else 0
        allocNext := number b.big g l.oNext 4, entries := fun k => if l.oNext + 4 + k < l.bs then g (l.oNext + 4 + k) else 0 }
  | none => .badMetaroot (metarootIsValid l b (img x)).2.1

/-- The metaroot in force: as in `RedVolMountMetaroot`. -/
def root : Option (Bool × Metaroot) := mrSelect c (rootAt l b img 1) (rootAt l b img 2)

variable (m : Metaroot)

/-- A node other than a metaroot, checked as `BufferIsValid` does when the volume has been mounted with metaroot `m`. -/
def node (k : Kind) (x : Nat) : Option Bytes := load l b true (m.seq + 1) k (img x)

/-- Is block `x` in use? -/
def used (x : Nat) : Bool :=
  if c.inline then bitGet m.entries (x - c.tableStart)
  else match node l b img m .imap (nodeBlk c m ((x - c.tableStart) / c.imapEntries)) with
    | some g => bitGet (fun k => if 16 + k < l.bs then g (16 + k) else 0) ((x - c.tableStart) % c.imapEntries)
    | none => false

/-- Inode `i`. -/
def inode (i : Nat) : Option InodeNode :=
  if c.inodeValid i then
    match slotOf c (used c l b img m) i with
    | none => none
    | some x =>
      match node l b img m .inode x with
      | none => none
      | some g => some
          { size := number b.big g 16 8, blocks := if l.inodeBlocks then number b.big g 24 4 else 0, mode := number b.big g l.oMode 2
            nlink := if l.posix then number b.big g (l.oMode + 2) 2 else 0, pinode := if l.posix then number b.big g l.oPInode 4 else 0
            entries := fun e => number b.big g (l.oEntries + 4 * e) 4 }
  else none

/-- The block at a position of the tree of inode `i`. -/
def tree (i : Nat) : Pos → Nat
  | .ent e => entryOf (inode c l b img m) i e
  | .sub p k =>
    if tree i p = 0 then 0
    else match node l b img m (if p.lvl c = 2 then .dindir else .indir) (tree i p) with
      | some g => number b.big g (20 + 4 * k) 4
      | none => 0

/-- The byte of inode `i` at offset `off`. -/
def byte (i off : Nat) : Byte :=
  if tree c l b img m i (posOf c (off / c.blockSize)) = 0 then 0
  else img (tree c l b img m i (posOf c (off / c.blockSize))) (off % c.blockSize)

/-- File `i`. -/
def file (i : Nat) : Option AFile :=
  (inode c l b img m i).map fun n => ⟨n.mode, n.nlink, n.pinode, n.size, fun off => if off < n.size then byte c l b img m i off else 0⟩

/-- The same file, as far as it can be seen: FSE volumes have no link counts, and only the parent of a directory can be asked for. -/
def Same (f g : AFile) : Prop :=
  f.mode = g.mode ∧ f.size = g.size ∧ f.bytes = g.bytes ∧ (c.posix = true → f.nlink = g.nlink ∧ (g.mode = modeDir → f.parent = g.parent))

/-- Both or neither exist, and are the same. -/
def SameOpt : Option AFile → Option AFile → Prop
  | some f, some g => Same c f g
  | none, none => True
  | _, _ => False
end
end RedFs.Image
