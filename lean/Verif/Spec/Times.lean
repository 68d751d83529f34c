import Verif.Spec.System
import Verif.Model.Times
/-!
Which time stamps a call updates, in terms of the files before it.
-/
namespace RedFs.Times
open RedFs

variable (c : Conf)

/-- The two names are names of one file: such a rename does nothing. -/
def SameFile (F : Files) (p : Nat) (nm : List Byte) (p' : Nat) (nm' : List Byte) : Prop :=
  ∃ j, Has c F p nm j ∧ Has c F p' nm' j

/-- The successful call `k`, which returned `r`, has used the contents of file or directory `i`; `ro`: the
volume is mounted read-only, `F`: the files before the call. -/
def Accessed (ro : Bool) (i : Nat) : Call → Reply → Prop
  | .create .., .num j => i = j
  | .read ino _ len, _ => c.atime = true ∧ ro = false ∧ i = ino ∧ 0 < len
  | .dirRead p _, .entry _ (some _) => c.atime = true ∧ ro = false ∧ i = p
  | _, _ => False

/-- ... has changed the contents of `i`. -/
def Modified (F : Files) (i : Nat) : Call → Reply → Prop
  | .create p _ _, .num j => i = p ∨ i = j
  | .link p _ _, _ => i = p
  | .unlink p _, _ => i = p
  | .rename p nm p' nm', _ => ¬ SameFile c F p (nameOf c nm) p' (nameOf c nm') ∧ (i = p ∨ i = p')
  | .write ino _ _ _, _ => i = ino
  | .truncate ino _, _ => i = ino
  | _, _ => False

/-- ... has changed the contents of `i`, or the names it has. -/
def Changed (F : Files) (i : Nat) (k : Call) (r : Reply) : Prop :=
  Modified c F i k r ∨ match k with
    | .link _ _ ino => i = ino
    | .unlink p nm => Has c F p (nameOf c nm) i
    | .rename p nm p' nm' => ¬ SameFile c F p (nameOf c nm) p' (nameOf c nm') ∧ Has c F p (nameOf c nm) i
    | _ => False

/-- `x'` is the stamp `x`, or one taken from the clock during the call if `P`; `n` and `n'` count the readings
of the clock before and after the call. -/
def Taken (clk : Nat → Nat) (n n' : Nat) (P : Prop) (x x' : Nat) : Prop :=
  (P → ∃ j, n ≤ j ∧ j < n' ∧ x' = clk j) ∧ (¬ P → x' = x)

/-- The stamps of inode `i` after the successful call. -/
structure Stamped (clk : Nat → Nat) (ro : Bool) (F : Files) (k : Call) (r : Reply) (t t' : Clk) (i : Nat) : Prop where
  a : Taken clk t.reads t'.reads (Accessed c ro i k r) (t.work i).a (t'.work i).a
  m : Taken clk t.reads t'.reads (Modified c F i k r) (t.work i).m (t'.work i).m
  c : Taken clk t.reads t'.reads (Changed c F i k r) (t.work i).c (t'.work i).c

/-- The event of the transaction mask that belongs to a call. -/
def EventOf : Call → Option Event
  | .create _ _ isDir => some (if isDir then .mkdir else .creat)
  | .link .. => some .link
  | .unlink .. => some .unlink
  | .rename .. => some .rename
  | .write .. => some .write
  | .truncate .. => some .truncate
  | _ => none

/-- The clock never runs backwards, and every file was last changed at or after the time it was last modified, and
not in the future. -/
structure Ordered (clk : Nat → Nat) (t : Clk) : Prop where
  clock : ∀ m n, m ≤ n → clk m ≤ clk n
  work : ∀ i, (t.work i).m ≤ (t.work i).c ∧ (t.work i).c ≤ clk t.reads
  comm : ∀ i, (t.comm i).m ≤ (t.comm i).c ∧ (t.comm i).c ≤ clk t.reads

/-- What can be reached from an unmounted volume whose inodes have any stamps. -/
inductive Reach (c : Conf) (clk : Nat → Nat) : St → Prop
  | start {v : Vol} (s : Nat → Stamp) (n : Nat) : RedFs.Reach c v → v.mounted = false → Reach c clk ⟨v, ⟨s, s, n, false⟩⟩
  | call {s s' : St} {k : Call} {r : Except Err Reply} : Reach c clk s → k.Ok c → exec c clk k s = (r, s') → Reach c clk s'

end RedFs.Times
