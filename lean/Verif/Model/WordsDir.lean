import Verif.Model.Words
/-!
The loops of core/driver/dir.c over the entries of a directory, with their counters in 32 bits
(`Model/Dir.lean` has the same loops with unbounded numbers).  The values that index within one
block (`ulBlockIdx`, below `DIRENTS_PER_BLOCK`) are compared with 32-bit bounds only and are
natural numbers here.
-/
namespace RedFs.Words
open M Str

variable (c : Conf)

/-- `DIR_INDEX_INVALID`, dir.c:49. -/
def noIndex : U32 := 0xFFFFFFFF#32

/-- The loop over one block, dir.c:380-420: `k` is `ulBlockIdx`, `n` the number of entries left.
Returns the entry found (`ulIdx + ulBlockIdx` and its inode) and `ulFreeIdx`. -/
def lookupBlock (x : Blk) (name : List Ch) (len : Nat) (idx : U32) : Nat → Nat → U32 → Option (U32 × Nat) × U32
  | 0, _, free => (none, free)
  | n + 1, k, free =>
    if direntIno c x k ≠ 0 then
      if nameMatch c (direntName c x k) name len then (some (idx + BitVec.ofNat 32 k, direntIno c x k), free)
      else lookupBlock x name len idx n (k + 1) free
    else lookupBlock x name len idx n (k + 1) (if free = noIndex then idx + BitVec.ofNat 32 k else free)

/-- The loop over the blocks, dir.c:370-448: final `ulIdx`, the inode number stored to `*pulInode`
and `ulFreeIdx`.  `hang` is returned after as many blocks as the first argument says. -/
def lookupLoop (name : List Ch) (len : Nat) (count : U32) : Nat → U32 → U32 → DM (U32 × Option Nat × U32)
  | fuel, idx, free =>
    if count ≤ idx then pure (idx, none, free)
    else match fuel with
      | 0 => fail .hang
      | fuel + 1 => do
        if ← seekAndRead c (idx / dpb c).toNat then do
          let x ← dataBuf
          let last := redmin (dpb c) (count - idx)
          match lookupBlock c x name len idx last.toNat 0 free with
          | (some (k, ino), free) => pure (k, some ino, free)
          | (none, free) => lookupLoop name len count fuel (idx + last) free
        else lookupLoop name len count fuel (idx + dpb c) (if free = noIndex then idx else free)

/-- `RedDirEntryLookup`, dir.c:333-482, with at most `fuel` blocks looked at. -/
def dirLookup (fuel : Nat) (name : List Ch) : DM LookupRes := do
  let s ← get
  if s.ci.nodeBuf = none then fail .einval
  else if s.ci.dir = false then fail .enotdir
  else
    let len := nameLen c.sep name
    if len = 0 then fail .einval
    else if c.nameMax < len then fail .enametoolong
    else do
      let count := offIdx c (BitVec.ofNat 64 s.ci.node.size)
      let (idx, ino, free) ← lookupLoop c name len count fuel 0 noIndex
      if idx = count then
        let free := if free = noIndex ∧ count < direntsMax c then count else free
        pure (.missing (if free = noIndex then none else some free.toNat))
      else pure (.found idx.toNat (ino.getD 0))

/-- The loop of `RedDirEntryRead`, dir.c:537-586: the next entry in use (final `ulIdx`), with its
name and inode.  `ulIdx` counts the iterations of the inner loop. -/
def readLoop (count : U32) : Nat → U32 → DM (Option (U32 × List Ch × Nat))
  | fuel, idx =>
    if count ≤ idx then pure none
    else match fuel with
      | 0 => fail .hang
      | fuel + 1 => do
        let b := idx / dpb c
        if ← seekAndRead c b.toNat then do
          let x ← dataBuf
          let last := redmin (dpb c) (count - b * dpb c)
          let k0 := (idx % dpb c).toNat
          match readBlock c x (last.toNat - k0) k0 with
          | some k => pure (some (idx + BitVec.ofNat 32 (k - k0), strNCpy (direntName c x k) c.nameMax, direntIno c x k))
          | none => readLoop count fuel (idx + BitVec.ofNat 32 (last.toNat - k0))
        else readLoop count fuel (idx + (dpb c - idx % dpb c))

/-- `RedDirEntryRead`, dir.c:512-596, with at most `fuel` blocks looked at: the new `*pulIdx`, and the name and inode. -/
def dirRead (fuel : Nat) (idx : U32) : DM (U32 × Option (List Ch × Nat)) := do
  let s ← get
  if s.ci.nodeBuf = none then fail .einval
  else if s.ci.dir = false then fail .enotdir
  else do
    let count := offIdx c (BitVec.ofNat 64 s.ci.node.size)
    match ← readLoop c count fuel idx with
    | some (k, name, ino) => pure (k + 1, some (name.takeWhile (· ≠ 0#8), ino))
    | none => pure (count, none)

/-- The search for the last entry in use, dir.c:224-258: `t` is `ulTruncIdx`, which is `UINT32_MAX` when the
search has passed the first entry.  Returns the final `ulTruncIdx`. -/
def trimLoop : Nat → U32 → DM U32
  | fuel, t =>
    if t = 0xFFFFFFFF#32 then pure t
    else match fuel with
      | 0 => fail .hang
      | fuel + 1 => do
        if ← seekAndRead c (t / dpb c).toNat then do
          let x ← dataBuf
          let k := (t % dpb c).toNat + 1
          let n := trimBlock c x k
          if n < k then pure (t - BitVec.ofNat 32 n) else trimLoop fuel (t - BitVec.ofNat 32 n)
        else trimLoop fuel (t - dpb c)

/-- `RedDirEntryDelete`, dir.c:199-298, with at most `fuel` blocks looked at. -/
def dirDelete (fuel : Nat) (idx : U32) : DM Unit := do
  let s ← get
  if s.ci.dirty = false ∨ direntsMax c ≤ idx then fail .einval
  else if s.ci.dir = false then fail .enotdir
  else if idxOff c idx + wide (ds c) = BitVec.ofNat 64 s.ci.node.size then do
    let t ← trimLoop c fuel (idx - 1)
    dataTruncate c (trimSize c (t + 1)).toNat
  else dirEntryWrite c idx.toNat 0 [] 0

end RedFs.Words
