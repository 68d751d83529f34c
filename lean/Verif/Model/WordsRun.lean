import Verif.Model.Words
/-!
The loops over whole blocks in core/driver/inodedata.c with 32-bit block counts (`Model/Data.lean`
has them with unbounded numbers).  Physical block numbers, which are copied and compared, stay
numbers.  Every loop takes a bound on its rounds and is declared to hang beyond it.
-/
namespace RedFs.Words
open M

variable (c : Conf)

/-- The loop of `GetExtent`, inodedata.c:1530-1544: `run` is `ulRunLen`, `len` is `ulExtentLen`. -/
def extentLoop (start : U32) (first : Nat) (len : U32) : Nat → U32 → DM U32
  | 0, run => if run < len then fail .hang else pure run
  | fuel + 1, run =>
    if run < len then do
      if ← seekData c (start + run).toNat then do
        let s ← get
        if s.ci.dataBlk ≠ first + run.toNat then pure run
        else extentLoop start first len fuel (run + 1)
      else pure run
    else pure run

/-- `GetExtent`, inodedata.c:1507-1555. -/
def getExtent (start len : U32) : DM (Option (Nat × U32)) := do
  if ← seekData c start.toNat then do
    let s ← get
    let run ← extentLoop c start s.ci.dataBlk len len.toNat 1
    pure (some (s.ci.dataBlk, run))
  else pure none

/-- `ReadAligned`, inodedata.c:1224-1286: `idx` is `ulBlockIndex`.  The bytes read are appended
instead of stored at `ulBlockIndex << BLOCK_SIZE_P2`. -/
def readAligned (start count : U32) : Nat → U32 → DM (List Byte)
  | 0, idx => if idx < count then fail .hang else pure []
  | fuel + 1, idx =>
    if idx < count then do
      match ← getExtent c (start + idx) (count - idx) with
      | some (b, n) => do
        let s ← get
        let l := readBlocks c s.v b n.toNat
        let rest ← readAligned start count fuel (idx + n)
        pure (l ++ rest)
      | none => do
        let rest ← readAligned start count fuel (idx + 1)
        pure (List.replicate c.blockSize 0 ++ rest)
    else pure []

/-- The inner loop of `WriteAligned`, inodedata.c:1385-1435: `i`, `ulBlockCount`, `ulExtentLen` are words. -/
def collect (start count : U32) : Nat → (i : U32) → (next es : Nat) → (el : U32) → DM (Bool × Nat × Nat × U32)
  | 0, i, next, es, el => if i < count then fail .hang else pure (false, next, es, el)
  | fuel + 1, i, next, es, el =>
    if i < count then do
      let r ← onlyIf (next = 0) (do
        let _ ← seekData c (start + i).toNat
        attempt (branchBlock c 2 false)) (.ok ())
      match r with
      | .ok () => do
        let s ← get
        if el = 0 then collect start count fuel (i + 1) 0 s.ci.dataBlk 1
        else if s.ci.dataBlk = es + el.toNat then collect start count fuel (i + 1) 0 es (el + 1)
        else pure (false, s.ci.dataBlk, es, el)
      | .error .enospc => pure (true, 0, es, el)
      | .error e => fail e
    else pure (false, next, es, el)

/-- The outer loop of `WriteAligned`, inodedata.c:1376-1471; `ulBlockIndex << BLOCK_SIZE_P2` is computed in 32 bits. -/
def writeLoop (start count : U32) (f : Nat → Byte) : Nat → (idx : U32) → (next : Nat) → DM (U32 × Bool)
  | 0, idx, _ => if idx < count then fail .hang else pure (idx, false)
  | fuel + 1, idx, next =>
    if idx < count then do
      let (full, next', es, el) ← collect c start count count.toNat idx next 0 0
      if full ∧ el = 0 then pure (idx, true)
      else do
        writeExtent c (fun k => f ((idx <<< p2 c).toNat + k)) es el.toNat
        if full then pure (idx + el, true)
        else writeLoop start count f fuel (idx + el) next'
    else pure (idx, false)

/-- `WriteAligned`, inodedata.c:1357-1485. -/
def writeAligned (start count : U32) (f : Nat → Byte) : DM U32 := do
  let (idx, full) ← writeLoop c start count f count.toNat 0 0
  if full ∧ idx = 0 then fail .enospc else pure idx

end RedFs.Words
