import Verif.Spec.Ns
/-!
What the operations on names do, in terms of the table of files.  `nm` is the name meant by the
path passed to the call.
-/
namespace RedFs
namespace Spec
open Str

variable (c : Conf)

/-- Directory `p` exists before and after; its entries aside it is unchanged. -/
def DirKept (F F' : Files) (p : Nat) : Prop :=
  ∃ f f', IsDir F p f ∧ IsDir F' p f' ∧ f'.nlink = f.nlink ∧ f'.parent = f.parent

/-- The error for looking up a name that is empty or too long. -/
def BadLen (nm : List Byte) (e : Err) : Prop :=
  (nm.length = 0 ∧ e = .einval) ∨ (c.nameMax < nm.length ∧ e = .enametoolong)

/-- The error for adding a name to directory `p`. -/
def NoEntry (F : Files) (p : Nat) (nm : List Byte) (e : Err) : Prop :=
  BadName c nm e ∨ (NameOk c nm ∧ ((e = .eexist ∧ ∃ j, Has c F p nm j) ∨ (e = .enospc ∧ ∀ j, ¬ Has c F p nm j)))

/-- Creating a file or directory `nm` in directory `p`; the result is the new inode. -/
def Create (p : Nat) (nm : List Byte) (isDir : Bool) (F : Files) : Except Err Nat → Files → Prop
  | .error e, F' => F' = F ∧ (NotDir F p e ∨ (∃ f, IsDir F p f) ∧
      ((e = .enfile ∧ ∀ i, c.inodeValid i = true → (F i).isSome = true) ∨
       ((∃ i, c.inodeValid i = true ∧ F i = none) ∧ NoEntry c F p nm e)))
  | .ok i, F' => NameOk c nm ∧ (∀ j, ¬ Has c F p nm j) ∧
      -- `i` is the first unused inode
      c.inodeValid i = true ∧ F i = none ∧ (∀ k, c.inodeValid k = true → k < i → (F k).isSome = true) ∧
      F' i = some (AFile.new (if isDir then modeDir else modeReg) p) ∧
      DirKept F F' p ∧ (∀ j, j ≠ i → j ≠ p → F' j = F j) ∧ Bound c F F' [(p, nm, some i)]

/-- Giving the file `i` the additional name `nm` in directory `p`. -/
def Link (p : Nat) (nm : List Byte) (i : Nat) (F : Files) : Except Err Unit → Files → Prop
  | .error e, F' => F' = F ∧ (NotDir F p e ∨ (∃ f, IsDir F p f) ∧
      ((e = .ebadf ∧ F i = none) ∨ (e = .eperm ∧ ∃ f, IsDir F i f) ∨
       ∃ f, IsReg F i f ∧ ((e = .emlink ∧ f.nlink = 65535) ∨ (f.nlink < 65535 ∧ NoEntry c F p nm e))))
  | .ok (), F' => NameOk c nm ∧ (∀ j, ¬ Has c F p nm j) ∧
      ∃ f, IsReg F i f ∧ f.nlink < 65535 ∧ F' i = some { f with nlink := f.nlink + 1 } ∧
        DirKept F F' p ∧ (∀ j, j ≠ i → j ≠ p → F' j = F j) ∧ Bound c F F' [(p, nm, some i)]

/-- Looking up the name `nm` in directory `p`. -/
def Lookup (p : Nat) (nm : List Byte) (F : Files) : Except Err Nat → Prop
  | .error e => NotDir F p e ∨ (∃ f, IsDir F p f) ∧
      (BadLen c nm e ∨ (1 ≤ nm.length ∧ nm.length ≤ c.nameMax ∧ e = .enoent ∧ ∀ j, ¬ Has c F p nm j))
  | .ok i => Has c F p nm i

/-- Directory `i` (if it is one) has no entries. -/
def Empty (F : Files) (i : Nat) : Prop := ∀ k, entOf c F i k = none

/-- What is left of a file when it loses one of its names. -/
def unlinked (f : AFile) : Option AFile := if 1 < f.nlink then some { f with nlink := f.nlink - 1 } else none

/-- Removing the name `nm` from directory `p`. -/
def Unlink (p : Nat) (nm : List Byte) (F : Files) : Except Err Unit → Files → Prop
  | .error e, F' => F' = F ∧ (NotDir F p e ∨ (∃ f, IsDir F p f) ∧
      (BadLen c nm e ∨ (e = .enoent ∧ ∀ j, ¬ Has c F p nm j) ∨
       ∃ i f, Has c F p nm i ∧ F i = some f ∧
         ((e = .enotempty ∧ f.mode = modeDir ∧ ¬ Empty c F i) ∨ (e = .enospc ∧ Empty c F i))))
  | .ok (), F' => ∃ i f, Has c F p nm i ∧ F i = some f ∧ Empty c F i ∧ F' i = unlinked f ∧
      DirKept F F' p ∧ (∀ j, j ≠ i → j ≠ p → F' j = F j) ∧ Bound c F F' [(p, nm, none)]

/-- Why `nm` in directory `p` cannot become `nm'` in directory `p'`. -/
inductive NoRename (p : Nat) (nm : List Byte) (p' : Nat) (nm' : List Byte) (F : Files) : Err → Prop
  /-- one of the directories is none -/
  | srcDir {e : Err} : NotDir F p e → NoRename p nm p' nm' F e
  | dstDir {e : Err} : NotDir F p' e → NoRename p nm p' nm' F e
  /-- the new name is not a legal one, or the old one cannot be one -/
  | dots : nm' = [46#8] ∨ nm' = [46#8, 46#8] → NoRename p nm p' nm' F .einval
  | dstName {e : Err} : BadLen c nm' e → NoRename p nm p' nm' F e
  | srcName {e : Err} : BadLen c nm e → NoRename p nm p' nm' F e
  /-- there is no file with the old name -/
  | enoent : (∀ j, ¬ Has c F p nm j) → NoRename p nm p' nm' F .enoent
  /-- there is one with the new name, and it is not to be replaced -/
  | eexist {j : Nat} : c.renameAtomic = false → Has c F p' nm' j → NoRename p nm p' nm' F .eexist
  /-- a file cannot replace a directory or a directory a file, nor can a directory that has entries be replaced -/
  | enotdir {i j : Nat} {f g : AFile} : Has c F p nm i → Has c F p' nm' j → IsDir F i f → IsReg F j g → NoRename p nm p' nm' F .enotdir
  | eisdir {i j : Nat} {f g : AFile} : Has c F p nm i → Has c F p' nm' j → IsReg F i f → IsDir F j g → NoRename p nm p' nm' F .eisdir
  | enotempty {i j : Nat} {f g : AFile} : Has c F p nm i → Has c F p' nm' j → IsDir F i f → IsDir F j g → ¬ Empty c F j → NoRename p nm p' nm' F .enotempty
  /-- a directory cannot be moved below itself -/
  | cyclic {i : Nat} {f : AFile} : Has c F p nm i → IsDir F i f → (graphOf c F).Below i p' → NoRename p nm p' nm' F .einval
  /-- no space: in the directory, which cannot have more entries; or, if nothing else is wrong, on the volume -/
  | full {i : Nat} : Has c F p nm i → NameOk c nm' → (∀ j, ¬ Has c F p' nm' j) → (∀ k, k < c.direntsMax → entOf c F p' k ≠ none) →
      NoRename p nm p' nm' F .enospc
  | enospc {i : Nat} {f : AFile} : Has c F p nm i → F i = some f → NameOk c nm' → (f.mode = modeDir → ¬ (graphOf c F).Below i p') →
      ((∀ j, ¬ Has c F p' nm' j) ∨ ∃ j g, c.renameAtomic = true ∧ Has c F p' nm' j ∧ F j = some g ∧ f.mode = g.mode ∧ Empty c F j) →
      NoRename p nm p' nm' F .enospc

/-- Renaming `nm` in directory `p` to `nm'` in directory `p'`. -/
def Rename (p : Nat) (nm : List Byte) (p' : Nat) (nm' : List Byte) (F : Files) : Except Err Unit → Files → Prop
  | .error e, F' => F' = F ∧ NoRename c p nm p' nm' F e
  | .ok (), F' =>
      -- both names are names of the same file: nothing happens
      (F' = F ∧ c.renameAtomic = true ∧ ∃ i, Has c F p nm i ∧ Has c F p' nm' i) ∨
      ∃ i f, Has c F p nm i ∧ F i = some f ∧ NameOk c nm' ∧ i ≠ p ∧ i ≠ p' ∧ F' i = some { f with parent := p' } ∧
        (f.mode = modeDir → ¬ (graphOf c F).Below i p') ∧
        DirKept F F' p ∧ DirKept F F' p' ∧ Bound c F F' [(p, nm, none), (p', nm', some i)] ∧
        -- nothing is replaced
        (((∀ j, ¬ Has c F p' nm' j) ∧ ∀ q, q ≠ i → q ≠ p → q ≠ p' → F' q = F q) ∨
        -- `j` is replaced
         ∃ j g, c.renameAtomic = true ∧ Has c F p' nm' j ∧ F j = some g ∧ j ≠ i ∧ j ≠ p ∧ j ≠ p' ∧ f.mode = g.mode ∧ Empty c F j ∧ F' j = unlinked g ∧
           ∀ q, q ≠ i → q ≠ j → q ≠ p → q ≠ p' → F' q = F q)

/-- Reading directory `p` from position `pos`: the next entry in use, if any, and where to go on. -/
def DirRead (p pos : Nat) (F : Files) : Except Err (Nat × Option (List Byte × Nat)) → Prop
  | .error e => NotDir F p e
  | .ok (pos', none) => (∃ f, IsDir F p f) ∧ (∀ k, pos ≤ k → entOf c F p k = none) ∧ (∀ k, pos' ≤ k → entOf c F p k = none)
  | .ok (pos', some (s, i)) => ∃ k, pos ≤ k ∧ entOf c F p k = some (i, s) ∧ (∀ j, pos ≤ j → j < k → entOf c F p j = none) ∧ pos' = k + 1

end Spec
end RedFs
