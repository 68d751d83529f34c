import Verif.Spec.PosixDoes
/-!
The current directory and the path `red_getcwd` returns.
-/
namespace RedFs.Posix
open Str Spec

/-- The current directory of task `t` (which is registered) is the inode `ino` of volume `vol`. -/
def CwdOf (pc : PConf) (s : PSt) (t vol ino : Nat) : Prop := ∃ j, SlotOf pc t s j ∧ (s.slot j).cwdVol = vol ∧ (s.slot j).cwdIno = ino

/-- The path `p` begins with the prefix of volume `vol`, and no volume has a longer prefix that matches it (as would be the case if a directory had the name
of another volume). -/
def Clear (pc : PConf) (p : List Byte) (vol : Nat) : Prop := ∀ i, i < pc.n → Matches pc.sep (pc.pre i) p → (pc.pre i).length ≤ (pc.pre vol).length

/-- The path of volume `vol` with the elements `cs`. -/
def pathTo (pc : PConf) (vol : Nat) (cs : List (List Byte)) : List Byte := pc.pre vol ++ pc.sep :: joinPath pc.sep cs

end RedFs.Posix
