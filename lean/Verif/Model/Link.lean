import Verif.Model.Data
/-!
Deleting inodes: `RedInodeLinkDec` and `InodeDelete` of core/driver/inode.c.

Simplifications: the model is that of a build with `REDCONF_API_POSIX_LINK == 1` (without it
there is no link count; every file then has one link).
-/
namespace RedFs
open M Bitmap

/-- Run an operation on a `CINODE` held in a local variable; its status is returned. -/
def onCi {α : Type} (ci : Cinode) (m : DM α) : VM (Except Err α × Cinode) := fun v =>
  match m ⟨ci, v⟩ with
  | (r, s) => (.ok (r, s.ci), s.v)

/-- The same, returning from the caller if the operation fails. -/
def runCi {α : Type} (ci : Cinode) (m : DM α) : VM (α × Cinode) := fun v =>
  match m ⟨ci, v⟩ with
  | (.ok a, s) => (.ok (a, s.ci), s.v)
  | (.error e, s) => (.error e, s.v)

/-- `RedInodePutCoord`, inode.c:568-585: the buffers are released, the coordinates stay. -/
def Cinode.putCoord (ci : Cinode) : Cinode :=
  { ci with pDindir := none, pIndir := none, pData := none }

variable (c : Conf)

/-- `InodeDelete`, inode.c:379-402. -/
def inodeDelete (ci : Cinode) : VM Unit := do
  if ci.nodeBuf = none then fail .einval
  else if ci.node.size ≠ 0 then do
    let (_, ci') ← runCi ci (dataTruncate c 0)
    inodeFree c ci'
  else inodeFree c ci

/-- `RedInodeLinkDec`, inode.c:339-365. -/
def inodeLinkDec (ci : Cinode) : VM Unit := do
  if ci.nodeBuf = none then fail .einval
  else if 1 < ci.node.nlink then do
    let ci' ← inodeBranch c ci
    let _ ← runCi ci' (setNode fun n => { n with nlink := n.nlink - 1 })
    pure ()
  else inodeDelete c ci

end RedFs
