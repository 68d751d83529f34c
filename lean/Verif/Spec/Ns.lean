import Verif.Spec.Dir
/-!
The tree of directories: which directory entries refer to which inodes, and what it means for
this to be a tree with exact link counts.
-/
namespace RedFs
open Str

variable (c : Conf)

/-- Entry `k` of directory `p`: the inode it refers to and its name. -/
def entOf (F : Files) (p k : Nat) : Option (Nat × List Byte) :=
  match F p with
  | some f => if f.mode = modeDir then entAt c f k else none
  | none => none

/-- In directory `p` the name `s` refers to inode `i`. -/
def Has (F : Files) (p : Nat) (s : List Byte) (i : Nat) : Prop := ∃ k, entOf c F p k = some (i, s)

/-- What the tree of directories knows of an inode. -/
structure Node where
  dir : Bool
  nlink : Nat
  parent : Nat
deriving DecidableEq

/-- A collection of inodes and of directory entries that refer to them. -/
structure Graph where
  node : Nat → Option Node
  slot : Nat → Nat → Option Nat

/-- The inodes and directory entries of a table of files. -/
def graphOf (F : Files) : Graph where
  node i := (F i).map fun f => ⟨decide (f.mode = modeDir), f.nlink, f.parent⟩
  slot p k := (entOf c F p k).map (·.1)

/-- Exactly `n` things satisfy `P`. -/
def HasCard {α : Type} (P : α → Prop) (n : Nat) : Prop := ∃ l : List α, l.Nodup ∧ (∀ x, x ∈ l ↔ P x) ∧ l.length = n

/-- The directory entries that refer to inode `i`. -/
def Graph.Ref (G : Graph) (i : Nat) (x : Nat × Nat) : Prop := G.slot x.1 x.2 = some i

/-- Directory `x` is connected to the root (inode 2): going from parent to parent, starting at `x`,
leads to the root after `n` steps. -/
inductive Graph.Depth (G : Graph) : Nat → Nat → Prop
  | root : Depth G 2 0
  | step {x n : Nat} {nd : Node} : x ≠ 2 → G.node x = some nd → nd.dir = true → Depth G nd.parent n → Depth G x (n + 1)

/-- `x` is directory `i` or below it. -/
inductive Graph.Below (G : Graph) (i : Nat) : Nat → Prop
  | refl : Below G i i
  | step {x : Nat} {nd : Node} : G.node x = some nd → nd.dir = true → Below G i nd.parent → Below G i x

/-- The tree of directories is sound. -/
structure GraphOk (G : Graph) : Prop where
  /-- the root is a directory -/
  root : G.node 2 = some ⟨true, 1, 0⟩
  /-- only directories have entries -/
  from_ : ∀ p k i, G.slot p k = some i → ∃ nd, G.node p = some nd ∧ nd.dir = true
  /-- every entry refers to an inode in use, never to the root -/
  live : ∀ p k i, G.slot p k = some i → i ≠ 2 ∧ (G.node i).isSome = true
  /-- the link count of every inode but the root is the number of entries that refer to it, and is not 0 -/
  nlink : ∀ i nd, G.node i = some nd → i ≠ 2 → HasCard (G.Ref i) nd.nlink ∧ 1 ≤ nd.nlink ∧ nd.nlink ≤ 65535
  /-- a directory has only one name -/
  one : ∀ i nd, G.node i = some nd → nd.dir = true → nd.nlink = 1
  /-- a directory knows the directory it is in -/
  parent : ∀ p k i nd, G.slot p k = some i → G.node i = some nd → nd.dir = true → nd.parent = p
  /-- every directory is connected to the root -/
  tree : ∀ i nd, G.node i = some nd → nd.dir = true → ∃ n, G.Depth i n

/-- The names of a table of files form a sound tree, and each directory is a well-formed list of
entries with legal and distinct names. -/
structure NsOk (F : Files) : Prop where
  dirs : ∀ p f, Spec.IsDir F p f → DirFile c f (dirOf c f) ∧ DirOk c (dirOf c f)
  graph : GraphOk (graphOf c F)

/-- The names `ch` are changed, to refer to the given inode or to nothing; every other entry of
every directory keeps its place. -/
structure Bound (F F' : Files) (ch : List (Nat × List Byte × Option Nat)) : Prop where
  touched : ∀ x ∈ ch, ∀ j, Has c F' x.1 x.2.1 j ↔ x.2.2 = some j
  other : ∀ p s, (∀ x ∈ ch, ¬ (x.1 = p ∧ x.2.1 = s)) → ∀ k j, entOf c F' p k = some (j, s) ↔ entOf c F p k = some (j, s)

end RedFs
