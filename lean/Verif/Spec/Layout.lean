import Verif.Model.Conf
/-!
What a block of a volume is for.  `Role` lists the uses; `Role.block` is the position
documented in the on-disk layout (core/driver/volume.c:100-115); `Role.Valid` says which
roles exist on a volume with the given configuration.
-/
namespace RedFs

inductive Role
  | master
  /-- the two metaroots -/
  | metaroot (second : Bool)
  /-- the two blocks of imap node `k` (external imap only) -/
  | imapNode (k : Nat) (second : Bool)
  /-- the two blocks of inode `ino` -/
  | inode (ino : Nat) (second : Bool)
  /-- the `k`-th allocable block -/
  | allocable (k : Nat)
deriving DecidableEq

def sel (b : Bool) : Nat := if b then 1 else 0

def Role.Valid (c : Conf) : Role → Prop
  | .master => True
  | .metaroot _ => True
  | .imapNode k _ => c.inline = false ∧ k < c.nodeCount
  | .inode ino _ => 2 ≤ ino ∧ ino < 2 + c.inodeCount
  | .allocable k => k < c.allocable

def Role.block (c : Conf) : Role → Nat
  | .master => 0
  | .metaroot b => 1 + sel b
  | .imapNode k b => 3 + 2 * k + sel b
  | .inode ino b => c.tableStart + 2 * (ino - 2) + sel b
  | .allocable k => c.firstAlloc + k

end RedFs
