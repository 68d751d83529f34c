import Verif.Model.Swap
/-!
What it means for two computers of different byte order to share a volume.
-/
namespace RedFs.Swap
open RedFs Buffer

/-- The number stored in the `w` bytes from `a` on: most significant byte first if `big`, least significant byte first otherwise. -/
def number (big : Bool) (f : Bytes) (a : Nat) : Nat → Nat
  | 0 => 0
  | w + 1 => if big then number big f a w * 256 + (f (a + w)).toNat else number big f a w + (f (a + w)).toNat * 256 ^ w

/-- The numbers of more than one byte in a node: offset and width (core/include/rednodes.h). -/
def header : List (Nat × Nat) := [(0, 4), (4, 4), (8, 8)]
def entries (a n : Nat) : List (Nat × Nat) := (List.range n).map fun i => (a + 4 * i, 4)

/-- ... after the header.  All other bytes are single bytes: names, bitmaps, flags and the build number. -/
def fields (l : Layout) : Kind → List (Nat × Nat)
  | .data => []
  | .imap => []
  | .master => [(16, 4), (28, 4), (32, 4), (36, 4), (40, 2), (42, 2), (44, 2)]
  | .indir => (16, 4) :: entries 20 ((l.bs - 20) / 4)
  | .dindir => (16, 4) :: entries 20 ((l.bs - 20) / 4)
  | .inode =>
    let a := 24 + if l.inodeBlocks then 4 else 0
    let b := a + if l.timestamps then 12 else 0
    let c := b + if l.posix then 8 else 4
    [(16, 8)] ++ (if l.inodeBlocks then [(24, 4)] else []) ++ (if l.timestamps then [(a, 4), (a + 4, 4), (a + 8, 4)] else []) ++
      [(b, 2)] ++ (if l.posix && l.link then [(b + 2, 2)] else []) ++ (if l.posix then [(b + 4, 4)] else []) ++ entries c ((l.bs - c) / 4)

/-- Metaroots: free blocks, free inodes, next block to allocate; all after the header and the CRC of the first sector. -/
def metarootFields (l : Layout) : List (Nat × Nat) := if l.posix then [(20, 4), (24, 4), (28, 4)] else [(20, 4), (24, 4)]

def InField (L : List (Nat × Nat)) (i : Nat) : Prop := ∃ x ∈ L, x.1 ≤ i ∧ i < x.1 + x.2

/-- The node `f` of a computer of byte order `big` and the node `g` of one of byte order `big'` say the same from byte `from` on: all numbers are the same, and all single
bytes are the same. -/
def SameNode (l : Layout) (L : List (Nat × Nat)) (start : Nat) (big : Bool) (f : Bytes) (big' : Bool) (g : Bytes) : Prop :=
  (∀ x ∈ L, number big f x.1 x.2 = number big' g x.1 x.2) ∧ ∀ i, start ≤ i → i < l.bs → ¬ InField L i → f i = g i

/-- The byte order of the device. -/
def Build.order (b : Build) : Bool := b.big != b.swap

/-- The checks of redconfigchk.h and redcore.h on the layout. -/
structure Layout.Ok (l : Layout) : Prop where
  bs : 128 ≤ l.bs
  /-- sectors of at least 128 bytes, not more than a block -/
  ss : 128 ≤ l.ss
  le : l.ss ≤ l.bs
  /-- the block size is a power of two -/
  four : l.bs % 4 = 0

/-- Nodes of the kind exist in the build. -/
def Has (l : Layout) : Kind → Prop
  | .data => False
  | .indir => l.indirs = true
  | .dindir => l.dindirs = true
  | _ => True

end RedFs.Swap
