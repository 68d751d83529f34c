import Verif.Spec.Buffer
/-!
Which blocks of the device a use of the block cache may change.

The model of the volume layer (Model/Vol) keeps, for every epoch - the time between two flushes of the device - the contents at its beginning and the set of
blocks changed in it; a power loss leaves the blocks outside that set as they were.  Here the same is said of the cache, which writes back when it likes.
-/
namespace RedFs.Buffer

/-- The operation asks for block `b` of volume `vol` to be changed: by getting it dirty, marking its buffer dirty, branching a buffer to it, or writing
it directly. -/
def Marks (s : Ctx) (vol b : Nat) : Op → Prop
  | .get v x _ _ d => d = true ∧ v = vol ∧ x = b
  | .dirty v i => v = vol ∧ (s.head i).blk = some b
  | .branch v _ x => v = vol ∧ x = b
  | .direct v x _ => v = vol ∧ x = b
  | _ => False

/-- A sequence of legal operations, in which the blocks of `W` are asked to be changed. -/
inductive Steps (e : Env) (W : Nat → Nat → Prop) : Ctx → Expect → Ctx → Expect → Prop
  | nil (s : Ctx) (E : Expect) : Steps e W s E s E
  | cons {s s' : Ctx} {E E' : Expect} (op : Op) (hl : Legal e s E op) (hw : ∀ vol b, Marks s vol b op → W vol b)
      (h : Steps e W (step e s op) (expect e s E op) s' E') : Steps e W s E s' E'

/-- Nothing that has to be written to block `b` is waiting in the cache. -/
def Clean (e : Env) (s : Ctx) (vol b : Nat) : Prop := ∀ i, Holds e s i vol b → (s.head i).dirty = false

end RedFs.Buffer
