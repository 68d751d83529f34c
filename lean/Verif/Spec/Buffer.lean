import Verif.Model.Buffer
/-!
Specification of the buffer cache.

`Op` lists what a user of the cache can do, `step` runs one operation of the model,
`Legal` is the discipline the users of the cache follow (it corresponds to the `REDASSERT`s
of buffer.c), and `expect` says, without referring to buffers' write-back or eviction, which
contents a user expects each block to have: the contents last given to it.
-/
namespace RedFs.Buffer
open RedFs

inductive Op
  /-- `RedBufferGet` -/
  | get (vol b : Nat) (kind : Kind) (new dirty : Bool)
  /-- `RedBufferPut` -/
  | put (vol i : Nat)
  /-- `RedBufferFlushRange` -/
  | flush (vol start count : Nat)
  /-- `RedBufferDirty` -/
  | dirty (vol i : Nat)
  /-- store new contents through the buffer pointer -/
  | poke (i : Nat) (f : Bytes)
  /-- `RedBufferBranch` -/
  | branch (vol i b : Nat)
  /-- `RedBufferDiscard` -/
  | discard (vol i : Nat)
  /-- `RedBufferDiscardRange` -/
  | discardRange (vol start count : Nat)
  /-- write file data to the device directly, bypassing the cache (`RedIoWrite`) -/
  | direct (vol b : Nat) (f : Bytes)
  /-- mount, unmount or roll back a volume: set `ullSequence` and `fMounted` -/
  | setVol (vol seq : Nat) (mounted : Bool)

/-- Run one operation. -/
def step (e : Env) (s : Ctx) : Op → Ctx
  | .get vol b k new d => (bget e s vol b k new d).2
  | .put vol i => bput e s vol i
  | .flush vol st ct => (bflush e s vol st ct).2
  | .dirty vol i => bdirty e s vol i
  | .poke i f => bpoke s i f
  | .branch vol i b => bbranch e s vol i b
  | .discard vol i => bdiscard e s vol i
  | .discardRange vol st ct => (bdiscardRange e s vol st ct).2
  | .direct vol b f => (devWrite e s vol b f).2
  | .setVol vol q m => { s with seq := fun v => if v = vol then q else s.seq v
                                mounted := fun v => if v = vol then m else s.mounted v }

/-- Buffer `i` holds block `b` of volume `vol`. -/
def Holds (e : Env) (s : Ctx) (i vol b : Nat) : Prop :=
  i < e.n ∧ (s.head i).vol = vol ∧ (s.head i).blk = some b

/-- Block `b` is in the cache. -/
def Cached (e : Env) (s : Ctx) (vol b : Nat) : Prop := ∃ i, Holds e s i vol b

/-- Expected contents of every block: volume, block number to kind and bytes; `none` if the user
has given no contents, or has abandoned them. -/
abbrev Expect := Nat → Nat → Option (Kind × Bytes)

/-- The rules the callers keep.  A block is asked for with the kind it was given; a buffer may be used only while it is referenced; only a clean
buffer is branched, to a block which is not in the cache; direct transfers are for blocks which
are not in the cache. -/
def Legal (e : Env) (s : Ctx) (E : Expect) : Op → Prop
  | .get vol b k new _ => new = true ∨ ∀ k' f, E vol b = some (k', f) → k = k'
  | .put vol i | .dirty vol i => isBuf e s vol i = true ∧ 0 < (s.head i).ref
  | .poke i _ => i < e.n ∧ 0 < (s.head i).ref
  | .branch vol i b => isBuf e s vol i = true ∧ 0 < (s.head i).ref ∧ (s.head i).dirty = false ∧
      b < e.blockCount vol ∧ ¬ Cached e s vol b
  | .discard vol i => isBuf e s vol i = true ∧ (s.head i).ref = 1
  | .direct vol b _ => ¬ Cached e s vol b
  | .setVol _ q _ => q < 18446744073709551616
  | _ => True

def Expect.set (E : Expect) (vol b : Nat) (x : Option (Kind × Bytes)) : Expect :=
  fun v y => if v = vol ∧ y = b then x else E v y

open Classical in
/-- How an operation changes what is expected. -/
noncomputable def expect (e : Env) (s : Ctx) (E : Expect) : Op → Expect
  -- a new buffer is zeroed; if it is not marked dirty nothing is promised
  | .get vol b k new d =>
    match (bget e s vol b k new d).1 with
    | .ok _ => if new then E.set vol b (if d then some (k, fun _ => 0) else none)
               else E
    | .error _ => E
  | .put _ _ | .flush _ _ _ => E
  -- from now on the block has the contents of the buffer
  | .dirty vol i =>
    match (s.head i).blk with
    | some b => E.set vol b (some ((s.head i).kind, s.data i))
    | none => E
  -- storing into a buffer which is not dirty promises nothing
  | .poke i f =>
    match (s.head i).blk with
    | some b => E.set (s.head i).vol b (if (s.head i).dirty then some ((s.head i).kind, f) else none)
    | none => E
  -- the new block gets the contents; the old block keeps its own
  | .branch vol i b => E.set vol b (some ((s.head i).kind, s.data i))
  -- discarding abandons modifications which have not been written
  | .discard vol i =>
    match (s.head i).blk with
    | some b => if (s.head i).dirty then E.set vol b none else E
    | none => E
  | .discardRange vol st ct => fun v b =>
    if v = vol ∧ st ≤ b ∧ b < st + ct ∧ (∃ i, Holds e s i v b ∧ (s.head i).dirty = true) then none else E v b
  | .direct vol b f =>
    E.set vol b (if (devWrite e s vol b f).1 = .ok () then some (.data, f) else none)
  | .setVol vol _ _ => fun v b => if v = vol then none else E v b

/-- Two blocks have the same contents: all bytes of file data, everything after the 16-byte node
header (signature, CRC, sequence number, which the cache itself maintains) of metadata. -/
def Same (e : Env) (k : Kind) (f g : Bytes) : Prop :=
  ∀ i, i < e.bs → (k = .data ∨ 16 ≤ i) → f i = g i

/-- States reachable by legal operations, with the expected contents. -/
inductive Reach (e : Env) : Ctx → Expect → Prop
  | init (disk : Nat → Nat → Bytes) (seq : Nat → Nat) (h : ∀ v, seq v < 18446744073709551616) :
      Reach e (binit e disk seq) (fun _ _ => none)
  | step {s : Ctx} {E : Expect} (op : Op) (h : Reach e s E) (hl : Legal e s E op) :
      Reach e (step e s op) (expect e s E op)

end RedFs.Buffer
