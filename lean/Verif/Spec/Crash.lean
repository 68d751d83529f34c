import Verif.Model.Volume
import Verif.Spec.View
/-!
Specification vocabulary for power loss.
-/
namespace RedFs
open Bitmap

/-- Block `b` belongs to the state rooted at metaroot `m` on disk `D`: it is one of the
imap nodes selected by `m`, or marked "in use" by the map rooted at `m`. -/
def InState (c : Conf) (D : Nat → Blk) (m : Metaroot) (b : Nat) : Prop :=
  (c.inline = false ∧ ∃ k, k < c.nodeCount ∧ b = nodeBlk c m k) ∨
  (InMap c b ∧ imapBit c D m b = true)

/-- The state rooted at `m'` on disk `D'` is that rooted at `m` on `D`: the same metaroot,
and every block of the state has the same contents. -/
def SameState (c : Conf) (D : Nat → Blk) (m : Metaroot) (D' : Nat → Blk) (m' : Metaroot) : Prop :=
  m' = m ∧ ∀ b, InState c D m b → D' b = D b

/-- The disk `D` can be left by a power loss during the epoch `e`: blocks not written in
the epoch are as they were; a block written in the epoch holds **anything**, except that a
metaroot block holds its old contents, its new contents, or contents that fail validation
(and, if the device is declared to write sectors atomically, with an intact first sector). -/
structure CrashImage (c : Conf) (e : Epoch) (D : Nat → Blk) : Prop where
  kept : ∀ b, e.dirty b = false → D b = e.base b
  metaroot : ∀ b, b = 1 ∨ b = 2 → e.dirty b = true →
    D b = e.base b ∨ D b = e.fin b ∨
      (mrValid (D b) = none ∧ (c.atomicSector = true → mrSectorOk (D b) = true))

/-- A volume just connected to a disk with contents `D`: nothing cached, nothing pending.
All run-time variables are arbitrary. -/
def Connected (v : Vol) (D : Nat → Blk) : Prop :=
  v.blk = D ∧ v.base = D ∧ v.dirty = fun _ => false

/-- The epoch that is going on. -/
def Vol.epoch (v : Vol) : Epoch :=
  ⟨v.base, v.dirty, fun b => if v.dirty b then v.blk b else v.base b, v.comm, none⟩

/-- All epochs of the history, the current one included. -/
def Vol.epochs (v : Vol) : List Epoch := v.epoch :: v.hist

/-- After a power loss at any time in the epoch the volume mounts, and the state found is
the one committed when the epoch began, or the one whose metaroot was written in it. -/
def EpochSafe (c : Conf) (e : Epoch) : Prop :=
  ∀ D, CrashImage c e D → ∀ v, Connected v D → ∀ ro, ∃ v', volMount c ro v = (.ok (), v') ∧
    v'.blk = D ∧ v'.mounted = true ∧ v'.readOnly = ro ∧ v'.work = v'.comm ∧
    (SameState c e.base e.comm D v'.comm ∨
     ∃ m, e.next = some m ∧ SameState c e.base m D v'.comm)

end RedFs
