import Verif.Model.Monad
import Verif.Model.Crc
/-!
The buffer cache: core/driver/buffer.c, on raw bytes, with device errors.

Modelled: buffer heads, reference counts, the MRU list, eviction, write-back with
`BufferFinalize`, validation of metadata read from the device, several volumes sharing the
cache.  The device is arbitrary: the outcome of the `n`-th transfer is given by `ioW n` and
`ioR n`, which range over all behaviours; a failed write leaves arbitrary bytes.

Simplifications: the build without `REDCONF_ENDIAN_SWAP` on a little-endian host (byte
swapping is C35); reference counts do not wrap at 256; buffer pointers are buffer indices;
retries are below this level (`Model/BlockIo.lean`); flag combinations are a record.
-/
namespace RedFs.Buffer
open RedFs

abbrev Byte := BitVec 8
/-- Contents of a block buffer. -/
abbrev Bytes := Nat → Byte

/-- `BFLAG_META_*`, core/include/redcore.h:65-88. -/
inductive Kind
  | data | master | imap | inode | indir | dindir
deriving DecidableEq

/-- `META_SIG_*`, redcore.h:38-43; `none` for file data. -/
def Kind.sig : Kind → Option (BitVec 32)
  | .data => none
  | .master => some 0x5453414D#32
  | .imap => some 0x50414D49#32
  | .inode => some 0x444F4E49#32
  | .dindir => some 0x494C4244#32
  | .indir => some 0x49444E49#32

/-- `BUFFERHEAD`, buffer.c:112-118; `blk = none` is `BBLK_INVALID`. -/
structure Head where
  blk : Option Nat
  vol : Nat
  ref : Nat
  dirty : Bool
  kind : Kind

/-- `BUFFERCTX` (buffer.c:123-152), the devices, and the volume variables the cache uses. -/
structure Ctx where
  head : Nat → Head
  data : Nat → Bytes
  /-- `abMRU`, most recently used first -/
  mru : List Nat
  /-- `uNumUsed` -/
  used : Nat
  /-- device contents: volume, block -/
  disk : Nat → Nat → Bytes
  /-- `gaRedVolume[].ullSequence` -/
  seq : Nat → Nat
  /-- `gaRedVolume[].fMounted` -/
  mounted : Nat → Bool
  /-- `gaRedVolume[].fReadOnly`, set by critical errors -/
  crit : Nat → Bool
  /-- number of device transfers so far -/
  tick : Nat

/-- Static parameters and the behaviour of the environment. -/
structure Env where
  /-- `REDCONF_BUFFER_COUNT` -/
  n : Nat
  /-- `REDCONF_BLOCK_SIZE` -/
  bs : Nat
  /-- `gaRedVolume[].ulBlockCount` -/
  blockCount : Nat → Nat
  /-- outcome of a write: `none` is success, `some g` is failure leaving the bytes `g` -/
  ioW : Nat → Option Bytes
  /-- outcome of a read: `true` is success -/
  ioR : Nat → Bool

/-- `RedMemCpy(&pbBuffer[a], &ul, 4)` and `(.., 8)` on a little-endian host. -/
def put32 (f : Bytes) (a : Nat) (w : BitVec 32) : Bytes := fun i =>
  if a ≤ i ∧ i < a + 4 then (w >>> (8 * (i - a))).setWidth 8 else f i
def put64 (f : Bytes) (a : Nat) (w : BitVec 64) : Bytes := fun i =>
  if a ≤ i ∧ i < a + 8 then (w >>> (8 * (i - a))).setWidth 8 else f i
/-- Loads of a 32-bit and a 64-bit field on a little-endian host. -/
def get32 (f : Bytes) (a : Nat) : BitVec 32 := Crc.leWord (f a) (f (a + 1)) (f (a + 2)) (f (a + 3))
def get64 (f : Bytes) (a : Nat) : BitVec 64 :=
  (get32 f a).setWidth 64 ||| ((get32 f (a + 4)).setWidth 64 <<< 32)

/-- `RedCrcNode` of a buffer, util/crc.c:581-603. -/
def nodeCrc (bs : Nat) (f : Bytes) : BitVec 32 := Crc.crcNode ((List.range bs).map f)

variable (e : Env)

/-- `BufferIsValid`, buffer.c:628-714. -/
def isValid (mounted : Bool) (seq : Nat) (kind : Kind) (f : Bytes) : Bool :=
  match kind.sig with
  | none => false
  | some s =>
    decide (get32 f 0 = s) && decide (get32 f 4 = nodeCrc e.bs f) &&
      !(mounted && decide (seq ≤ (get64 f 8).toNat))

/-- `CRITICAL_ERROR()`, which makes the current volume read-only. -/
def Ctx.critical (s : Ctx) (vol : Nat) : Ctx := { s with crit := fun v => if v = vol then true else s.crit v }

def Ctx.setHead (s : Ctx) (i : Nat) (h : Head) : Ctx :=
  { s with head := fun j => if j = i then h else s.head j }
def Ctx.setData (s : Ctx) (i : Nat) (f : Bytes) : Ctx :=
  { s with data := fun j => if j = i then f else s.data j }

/-- `BufferFinalize`, buffer.c:818-893, with `RedVolSeqNumIncrement`, volume.c:720-748. -/
def finalize (s : Ctx) (i : Nat) : Except Err Unit × Ctx :=
  match (s.head i).kind.sig with
  | none => (.error .einval, s)
  | some sg =>
    let vol := (s.head i).vol
    let q := s.seq vol
    if q = 18446744073709551615 then (.error .efubar, s.critical vol)
    else
      let f := put64 (put32 (s.data i) 0 sg) 8 (BitVec.ofNat 64 q)
      let f := put32 f 4 (nodeCrc e.bs f)
      (.ok (), { s.setData i f with seq := fun v => if v = vol then q + 1 else s.seq v })

/-- `RedIoWrite(vol, b, 1, buffer)`. -/
def devWrite (s : Ctx) (vol b : Nat) (f : Bytes) : Except Err Unit × Ctx :=
  let s' := { s with tick := s.tick + 1 }
  match e.ioW s.tick with
  | none => (.ok (), { s' with disk := fun v x => if v = vol ∧ x = b then f else s.disk v x })
  | some g => (.error .eio,
      { (s'.critical vol) with disk := fun v x => if v = vol ∧ x = b then g else s.disk v x })

/-- `BufferWrite`, buffer.c:768-800. -/
def bufWrite (s : Ctx) (i : Nat) : Except Err Unit × Ctx :=
  match (s.head i).blk with
  | none => (.ok (), s)
  | some b =>
    if (s.head i).kind = .data then devWrite e s (s.head i).vol b (s.data i)
    else
      match finalize e s i with
      | (.error x, s') => (.error x, s')
      | (.ok (), s') => devWrite e s' (s'.head i).vol b (s'.data i)

/-- `BufferFind`, buffer.c:1178-1206. -/
def find (s : Ctx) (vol b : Nat) : Option Nat :=
  (List.range e.n).find? fun i => decide ((s.head i).vol = vol ∧ (s.head i).blk = some b)

/-- `BufferMakeLRU`, buffer.c:1074-1115: move the index to the end of the MRU array. -/
def makeLRU (mru : List Nat) (i : Nat) : List Nat := if i ∈ mru then mru.erase i ++ [i] else mru
/-- `BufferMakeMRU`, buffer.c:1122-1163: move the index to the front of the MRU array. -/
def makeMRU (mru : List Nat) (i : Nat) : List Nat := if i ∈ mru then i :: mru.erase i else mru

/-- buffer.c:349-369: take a reference. -/
def addRef (s : Ctx) (i : Nat) (dirty : Bool) (kind : Kind) : Ctx :=
  let h := s.head i
  let s' := s.setHead i { h with ref := h.ref + 1, dirty := h.dirty || dirty,
                                 kind := if kind = .data then h.kind else kind }
  { s' with used := if h.ref + 1 = 1 then s.used + 1 else s.used, mru := makeMRU s.mru i }

/-- The victim search, buffer.c:256-289: the least recently used unreferenced buffer. -/
def victim (s : Ctx) : Option Nat := s.mru.reverse.find? fun i => decide ((s.head i).ref = 0)

/-- Filling a free buffer, buffer.c:291-341. -/
def fill (s : Ctx) (vol b i : Nat) (kind : Kind) (new : Bool) : Except Err Unit × Ctx :=
  if new then
    let s := s.setData i (fun _ => 0)
    (.ok (), s.setHead i ⟨some b, vol, (s.head i).ref, false, .data⟩)
  else
    let s := s.setHead i { s.head i with blk := none }
    let s' := { s with tick := s.tick + 1 }
    if e.ioR s.tick = false then (.error .eio, s'.critical vol)
    else
      let s' := s'.setData i (s.disk vol b)
      if kind ≠ .data ∧ isValid e (s.mounted vol) (s.seq vol) kind (s.disk vol b) = false then
        (.error .eio, if kind = .master then s' else s'.critical vol)
      else (.ok (), s'.setHead i ⟨some b, vol, (s.head i).ref, false, .data⟩)

/-- `RedBufferGet`, buffer.c:209-373.  Returns the index of the buffer. -/
def bget (s : Ctx) (vol b : Nat) (kind : Kind) (new dirty : Bool) : Except Err Nat × Ctx :=
  if e.blockCount vol ≤ b then (.error .einval, s)
  else
    match find e s vol b with
    | some i =>
      if new ∨ kind ≠ (s.head i).kind then (.error .efubar, s.critical vol)
      else (.ok i, addRef s i dirty kind)
    | none =>
      if s.used = e.n then (.error .ebusy, s.critical vol)
      else
        match victim s with
        | none => (.error .ebusy, s.critical vol)
        | some i =>
          match (if (s.head i).dirty ∧ (s.head i).blk ≠ none then bufWrite e s i else (.ok (), s)) with
          | (.error x, s) => (.error x, s)
          | (.ok (), s) =>
            match fill e s vol b i kind new with
            | (.error x, s) => (.error x, s)
            | (.ok (), s) => (.ok i, addRef s i dirty kind)

/-- `BufferToIdx`, buffer.c:727-754: is the buffer in use by the current volume? -/
def isBuf (s : Ctx) (vol i : Nat) : Bool :=
  decide (i < e.n) && (s.head i).blk.isSome && decide ((s.head i).vol = vol)

/-- `RedBufferPut`, buffer.c:380-400. -/
def bput (s : Ctx) (vol i : Nat) : Ctx :=
  if isBuf e s vol i then
    let h := s.head i
    let s' := s.setHead i { h with ref := h.ref - 1 }
    { s' with used := if h.ref - 1 = 0 then s.used - 1 else s.used }
  else s

/-- The loop of `RedBufferFlushRange`, buffer.c:433-454, over the given buffers. -/
def flushLoop (vol start count : Nat) : List Nat → Ctx → Except Err Unit × Ctx
  | [], s => (.ok (), s)
  | i :: rest, s =>
    let h := s.head i
    if h.vol = vol ∧ h.dirty = true ∧ (∃ b ∈ h.blk, start ≤ b ∧ b < start + count) then
      match bufWrite e s i with
      | (.error x, s) => (.error x, s)
      | (.ok (), s) => flushLoop vol start count rest (s.setHead i { s.head i with dirty := false })
    else flushLoop vol start count rest s

/-- `RedBufferFlushRange`, buffer.c:416-458. -/
def bflush (s : Ctx) (vol start count : Nat) : Except Err Unit × Ctx :=
  if e.blockCount vol ≤ start ∨ e.blockCount vol - start < count ∨ count = 0 then (.error .einval, s)
  else flushLoop e vol start count (List.range e.n) s

/-- `RedBufferDirty`, buffer.c:465-480. -/
def bdirty (s : Ctx) (vol i : Nat) : Ctx :=
  if isBuf e s vol i then s.setHead i { s.head i with dirty := true } else s

/-- `RedBufferBranch`, buffer.c:488-509. -/
def bbranch (s : Ctx) (vol i b : Nat) : Ctx :=
  if isBuf e s vol i && decide (b < e.blockCount vol) then
    s.setHead i { s.head i with dirty := true, blk := some b }
  else s

/-- `RedBufferDiscard`, buffer.c:517-538. -/
def bdiscard (s : Ctx) (vol i : Nat) : Ctx :=
  if isBuf e s vol i then
    let s' := s.setHead i { s.head i with ref := 0, blk := none }
    { s' with used := s.used - 1, mru := makeLRU s.mru i }
  else s

/-- The loop of `RedBufferDiscardRange`, buffer.c:572-608. -/
def discardLoop (vol start count : Nat) : List Nat → Ctx → Except Err Unit × Ctx
  | [], s => (.ok (), s)
  | i :: rest, s =>
    let h := s.head i
    if h.vol = vol ∧ (∃ b ∈ h.blk, start ≤ b ∧ b < start + count) then
      if h.ref = 0 then
        let s' := s.setHead i { h with blk := none }
        discardLoop vol start count rest { s' with mru := makeLRU s.mru i }
      else (.error .ebusy, s.critical vol)
    else discardLoop vol start count rest s

/-- `RedBufferDiscardRange`, buffer.c:555-612. -/
def bdiscardRange (s : Ctx) (vol start count : Nat) : Except Err Unit × Ctx :=
  if e.blockCount vol ≤ start ∨ e.blockCount vol - start < count ∨ count = 0 then (.error .einval, s)
  else discardLoop vol start count (List.range e.n) s

/-- `RedBufferInit`, buffer.c:179-193. -/
def binit (disk : Nat → Nat → Bytes) (seq : Nat → Nat) : Ctx :=
  { head := fun _ => ⟨none, 0, 0, false, .data⟩
    data := fun _ _ => 0
    mru := (List.range e.n).reverse
    used := 0
    disk := disk
    seq := seq
    mounted := fun _ => false
    crit := fun _ => false
    tick := 0 }

/-- The user of the cache stores new bytes through the buffer pointer. -/
def bpoke (s : Ctx) (i : Nat) (f : Bytes) : Ctx := s.setData i f

end RedFs.Buffer
