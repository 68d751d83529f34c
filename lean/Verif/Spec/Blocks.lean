import Verif.Spec.Api
import Verif.Model.Exec
/-!
What a history of calls says about which blocks of a file have space of their own (`st_blocks`).
-/
namespace RedFs.Spec
open RedFs

/-- The blocks of file `ino` (numbered from its beginning, each of `bs` bytes) that have been written and not
cut off, after a call with its result, if before it they were those of `A`: a write adds the blocks it has stored a byte in,
a truncation drops the blocks at and behind the new end of file - it never adds any -, and the creation of the
file starts with none.  No other call, and no call that fails, changes them. -/
def blocksAfter (bs ino : Nat) (A : Nat → Prop) : Call × Except Err Reply → Nat → Prop
  | (.write i start _ _, .ok (.num n)) => fun b => A b ∨ (i = ino ∧ ∃ off, start ≤ off ∧ off < start + n ∧ b = off / bs)
  | (.truncate i size, .ok _) => fun b => A b ∧ (i = ino → b * bs < size)
  | (.create _ _ _, .ok (.num i)) => fun b => A b ∧ i ≠ ino
  | _ => A

/-- The same after a history of calls, oldest first. -/
def blocksHist (bs ino : Nat) (A : Nat → Prop) (h : List (Call × Except Err Reply)) : Nat → Prop := h.foldl (blocksAfter bs ino) A

end RedFs.Spec
