import Verif.Model.Link
import Verif.Model.Str
/-!
Directories: core/driver/dir.c.

A directory is a file made of entries of `DIRENT_SIZE` bytes, a whole number of them in each
block.  The inode number in an entry is little-endian on disk (on a big-endian host the code swaps
it, `REDCONF_ENDIAN_SWAP`).

Not modelled: NULL checks, `REDASSERT`s, time stamps, 32-bit wrap-around of entry numbers (they
are at most `DIRENTS_MAX`, which fits).  The model is that of a build with
`REDCONF_READ_ONLY == 0`.
-/
namespace RedFs
open M Bitmap Str

namespace Conf
variable (c : Conf)
/-- `DIRENT_PADDING`, dir.c:37-41. -/
def direntPad : Nat := if c.nameMax % 4 = 0 then 0 else 4 - c.nameMax % 4
/-- `DIRENT_SIZE`, dir.c:42. -/
def ds : Nat := 4 + c.nameMax + c.direntPad
/-- `DIRENTS_PER_BLOCK`, dir.c:43. -/
def dpb : Nat := c.blockSize / c.ds
/-- `DIRENTS_MAX`, dir.c:44. -/
def direntsMax : Nat := min 4294967295 (c.dataBlocks * c.dpb)
/-- `DIR_BLOCK_UNUSED_SPACE`, dir.c:46-47. -/
def dirUnused : Nat := c.blockSize - c.ds * c.dpb
/-- `DirEntryIndexToOffset`, dir.c:959-972. -/
def idxOff (k : Nat) : Nat := k / c.dpb * c.blockSize + k % c.dpb * c.ds
/-- `DirOffsetToEntryIndex`, dir.c:982-996. -/
def offIdx (off : Nat) : Nat := off / c.blockSize * c.dpb + off % c.blockSize / c.ds

/-- What a build with directories needs on top of `Conf.Ok`.  redconfigchk.h:251-259 allows
`REDCONF_NAME_MAX` up to `REDCONF_BLOCK_SIZE - 4`; `ds < blockSize` leaves out the case in which
an entry is exactly one block (see DESIGN.md, findings). -/
structure PosixOk : Prop where
  posix : c.posix = true
  name : 1 ≤ c.nameMax
  fits : c.ds < c.blockSize
  sep : c.sep ≠ 0
end Conf

/-- Little-endian 32-bit number. -/
def le32 (f : Nat → Byte) : Nat := (f 0).toNat + (f 1).toNat * 256 + (f 2).toNat * 65536 + (f 3).toNat * 16777216
/-- Byte `j` of a little-endian number. -/
def leByte (n j : Nat) : Byte := BitVec.ofNat 8 (n / 256 ^ j)

variable (c : Conf)

/-- `pDirents[k].ulInode`. -/
def direntIno (x : Blk) (k : Nat) : Nat := le32 fun j => x.bytes (k * c.ds + j)
/-- `pDirents[k].acName`. -/
def direntName (x : Blk) (k : Nat) : List Ch := (List.range c.nameMax).map fun j => x.bytes (k * c.ds + 4 + j)

/-- The block in `pInode->pbData`. -/
def dataBuf : DM Blk := do
  let s ← get
  pure (s.v.blk (s.ci.pData.getD 0))

/-- The test of dir.c:391-392. -/
def nameMatch (acName name : List Ch) (len : Nat) : Bool :=
  decide (strNCmp acName name len = 0) && (decide (len = c.nameMax) || decide (cget acName len = 0#8))

/-- The loop over one block, dir.c:380-420: `k` is `ulBlockIdx`, `n` the number of entries left.
Returns the entry found and the first free entry. -/
def lookupBlock (x : Blk) (name : List Ch) (len idx : Nat) : Nat → Nat → Option Nat → Option (Nat × Nat) × Option Nat
  | 0, _, free => (none, free)
  | n + 1, k, free =>
    if direntIno c x k ≠ 0 then
      if nameMatch c (direntName c x k) name len then (some (idx + k, direntIno c x k), free)
      else lookupBlock x name len idx n (k + 1) free
    else lookupBlock x name len idx n (k + 1) (if free = none then some (idx + k) else free)

/-- The loop over the blocks, dir.c:370-448: final `ulIdx`, the inode number stored to `*pulInode`
and `ulFreeIdx` (`none` is `DIR_INDEX_INVALID`). -/
def lookupLoop (name : List Ch) (len count : Nat) : Nat → Nat → Option Nat → DM (Nat × Option Nat × Option Nat)
  | fuel, idx, free =>
    if count ≤ idx then pure (idx, none, free)
    else match fuel with
      | 0 => fail .hang
      | fuel + 1 => do
        if ← seekAndRead c (idx / c.dpb) then do
          let x ← dataBuf
          let last := min c.dpb (count - idx)
          match lookupBlock c x name len idx last 0 free with
          | (some (k, ino), free) => pure (k, some ino, free)
          | (none, free) => lookupLoop name len count fuel (idx + last) free
        else lookupLoop name len count fuel (idx + c.dpb) (if free = none then some idx else free)

/-- The outcome of a lookup: entry number and inode, or the entry to use for a new name
(`none` is `DIR_INDEX_INVALID`: the directory is full). -/
inductive LookupRes
  | found (idx ino : Nat)
  | missing (free : Option Nat)
deriving DecidableEq

/-- `RedDirEntryLookup`, dir.c:333-482.  (If the loop ran past the end, `*pulInode` would not be
set; the model then has 0.) -/
def dirLookup (name : List Ch) : DM LookupRes := do
  let s ← get
  if s.ci.nodeBuf = none then fail .einval
  else if s.ci.dir = false then fail .enotdir
  else
    let len := nameLen c.sep name
    if len = 0 then fail .einval
    else if c.nameMax < len then fail .enametoolong
    else do
      let count := c.offIdx s.ci.node.size
      let (idx, ino, free) ← lookupLoop c name len count count 0 none
      if idx = count then
        pure (.missing (if free = none ∧ count < c.direntsMax then some count else free))
      else pure (.found idx (ino.getD 0))

/-- The `DIRENT` written by `DirEntryWrite`, dir.c:934-944. -/
def direntBytes (ino : Nat) (name : List Ch) (len : Nat) : Nat → Byte := fun j =>
  if j < 4 then leByte ino j else cget (strNCpy name len) (j - 4)

/-- `DirEntryWrite`, dir.c:907-950. -/
def dirEntryWrite (idx ino : Nat) (name : List Ch) (len : Nat) : DM Unit := do
  let s ← get
  if s.ci.dirty = false ∨ c.direntsMax ≤ idx ∨ (c.inodeValid ino = false ∧ ino ≠ 0) ∨ c.nameMax < len
      ∨ decide (len = 0) ≠ decide (ino = 0) then fail .einval
  else if s.ci.dir = false then fail .enotdir
  else do
    let _ ← dataWrite c (c.idxOff idx) c.ds (direntBytes ino name len)
    pure ()

/-- The names "." and "..". -/
def isDots (name : List Ch) (len : Nat) : Bool :=
  (decide (len = 1) && decide (cget name 0 = 46#8)) ||
  (decide (len = 2) && decide (cget name 0 = 46#8) && decide (cget name 1 = 46#8))

/-- `RedDirEntryCreate`, dir.c:106-177. -/
def dirCreate (name : List Ch) (ino : Nat) : DM Unit := do
  let s ← get
  if s.ci.dirty = false ∨ c.inodeValid ino = false then fail .einval
  else if s.ci.dir = false then fail .enotdir
  else
    let len := nameLen c.sep name
    if len = 0 then fail .einval
    else if c.nameMax < len then fail .enametoolong
    else if isDots name len then fail .einval
    else do
      match ← dirLookup c name with
      | .found _ _ => fail .eexist
      | .missing none => fail .enospc
      | .missing (some idx) => dirEntryWrite c idx ino name len

/-- The loop over one block, dir.c:233-243, from entry `k - 1` downwards; returns how many entries
at the end of the first `k` are free. -/
def trimBlock (x : Blk) : Nat → Nat
  | 0 => 0
  | k + 1 => if direntIno c x k ≠ 0 then 0 else trimBlock x k + 1

/-- The loop over the blocks, dir.c:224-258; `n` is `ulTruncIdx + 1`. -/
def trimLoop : Nat → Nat → DM Nat
  | fuel, n =>
    if n = 0 then pure 0
    else match fuel with
      | 0 => fail .hang
      | fuel + 1 => do
        if ← seekAndRead c ((n - 1) / c.dpb) then do
          let x ← dataBuf
          let k := (n - 1) % c.dpb + 1
          let t := trimBlock c x k
          if t < k then pure (n - t) else trimLoop fuel (n - k)
        else trimLoop fuel (n - c.dpb)

/-- The new size, dir.c:271-284. -/
def trimSize (n : Nat) : Nat :=
  if 0 < c.dirUnused ∧ c.blockSize ≤ c.idxOff n ∧ c.idxOff n % c.blockSize = 0 then c.idxOff n - c.dirUnused else c.idxOff n

/-- `RedDirEntryDelete`, dir.c:199-298. -/
def dirDelete (idx : Nat) : DM Unit := do
  let s ← get
  if s.ci.dirty = false ∨ c.direntsMax ≤ idx then fail .einval
  else if s.ci.dir = false then fail .enotdir
  else if c.idxOff idx + c.ds = s.ci.node.size then do
    let n ← trimLoop c idx idx
    dataTruncate c (trimSize c n)
  else dirEntryWrite c idx 0 [] 0

/-- The loop over one block, dir.c:549-566: `k` is `ulBlockIdx`, `n` the number of entries left. -/
def readBlock (x : Blk) : Nat → Nat → Option Nat
  | 0, _ => none
  | n + 1, k => if direntIno c x k ≠ 0 then some k else readBlock x n (k + 1)

/-- The loop of `RedDirEntryRead`, dir.c:537-586: the next entry in use, with its name and inode. -/
def readLoop (count : Nat) : Nat → Nat → DM (Option (Nat × List Ch × Nat))
  | fuel, idx =>
    if count ≤ idx then pure none
    else match fuel with
      | 0 => fail .hang
      | fuel + 1 => do
        let b := idx / c.dpb
        if ← seekAndRead c b then do
          let x ← dataBuf
          let last := min c.dpb (count - b * c.dpb)
          match readBlock c x (last - idx % c.dpb) (idx % c.dpb) with
          | some k => pure (some (b * c.dpb + k, strNCpy (direntName c x k) c.nameMax, direntIno c x k))
          | none => readLoop count fuel (b * c.dpb + last)
        else readLoop count fuel (idx + (c.dpb - idx % c.dpb))

/-- `RedDirEntryRead`, dir.c:512-596.  Returns the new `*pulIdx`, the name (up to its terminator)
and the inode; `none` is ENOENT, with `*pulIdx` the number of entries. -/
def dirRead (idx : Nat) : DM (Nat × Option (List Ch × Nat)) := do
  let s ← get
  if s.ci.nodeBuf = none then fail .einval
  else if s.ci.dir = false then fail .enotdir
  else do
    let count := c.offIdx s.ci.node.size
    match ← readLoop c count count idx with
    | some (k, name, ino) => pure (k + 1, some (name.takeWhile (· ≠ 0#8), ino))
    | none => pure (count, none)

/-- The loop of `DirCyclicRenameCheck`, dir.c:853-869; the fuel is what is left of the limit on
iterations.  Returns the last `NextParent.ulInode`, or `none` if the limit was reached. -/
def cyclicLoop (src : Nat) : Nat → Nat → VM (Option Nat)
  | 0, _ => pure none
  | fuel + 1, next =>
    if next = src ∨ next = 2 ∨ next = 0 then pure (some next)
    else do
      let ci ← inodeMount c next .dir false
      cyclicLoop src fuel ci.node.pinode

/-- `DirCyclicRenameCheck`, dir.c:824-884. -/
def cyclicCheck (src : Nat) (dstP : Cinode) : VM Unit := do
  if c.inodeValid src = false ∨ dstP.nodeBuf = none then fail .einval
  else if src = dstP.ino then fail .einval
  else if dstP.dir = false then fail .enotdir
  else do
    match ← cyclicLoop c src c.inodeCount dstP.node.pinode with
    | none => critical .efubar
    | some next => if src = next then fail .einval else pure ()

/-- The two parent directories of a rename.  `pDstPInode` may be the same object as `pSrcPInode`
(core.c:1321-1324): then `dst` is `none`. -/
structure Parents where
  src : Cinode
  dst : Option Cinode
/-- `*pDstPInode`. -/
def Parents.getDst (p : Parents) : Cinode := p.dst.getD p.src
/-- Run an operation on `*pSrcPInode` / `*pDstPInode`; its status is returned. -/
def onSrcP {α : Type} (p : Parents) (m : DM α) : VM (Except Err α × Parents) := do
  let (r, ci) ← onCi p.src m
  pure (r, { p with src := ci })
def onDstP {α : Type} (p : Parents) (m : DM α) : VM (Except Err α × Parents) := do
  let (r, ci) ← onCi p.getDst m
  pure (r, match p.dst with
    | some _ => { p with dst := some ci }
    | none => { p with src := ci })

/-- The lookup of the destination, dir.c:695-722: entry number and inode (0 if the name is free). -/
def renameTarget (r : Except Err LookupRes) : VM (Nat × Nat) :=
  match r with
  | .error e => fail e
  | .ok (.missing none) => fail .enospc
  | .ok (.missing (some k)) => pure (k, 0)
  | .ok (.found k i) => if c.renameAtomic then pure (k, i) else fail .eexist

/-- Mounting the inode that is replaced, dir.c:736-748. -/
def renameReplaced (src : Cinode) (dstIno : Nat) : VM (Option Cinode) :=
  if c.renameAtomic = true ∧ dstIno ≠ 0 then do
    let dst ← inodeMount c dstIno (if src.dir then .dir else .file) true
    if dst.dir = true ∧ 0 < dst.node.size then fail .enotempty else pure (some dst)
  else pure none

/-- Undoing the new entry when the old one could not be removed, dir.c:768-793. -/
def renameRevert {α : Type} (p : Parents) (dstIdx dstIno : Nat) (name : List Ch) (len : Nat) : VM α := do
  let (r, _) ← onDstP p (if c.renameAtomic = true ∧ dstIno ≠ 0 then dirEntryWrite c dstIdx dstIno name len else dirDelete c dstIdx)
  match r with
  | .error e => critical e
  | .ok () => fail .enospc

/-- Writing the new entry and removing the old one, dir.c:758-794. -/
def renameEntries (p : Parents) (srcIno srcIdx dstIdx dstIno : Nat) (name : List Ch) (len : Nat) : VM Parents := do
  let (r, p) ← onDstP p (dirEntryWrite c dstIdx srcIno name len)
  ofExcept r
  let (r, p) ← onSrcP p (dirDelete c srcIdx)
  match r with
  | .error e => if e = .enospc then renameRevert c p dstIdx dstIno name len else fail e
  | .ok () => pure p

/-- The rename proper, dir.c:734-799: the names have been looked up and refer to different inodes. -/
def renameMove (p : Parents) (srcIdx srcIno dstIdx dstIno : Nat) (name : List Ch) (len : Nat) : VM (Option Cinode) := do
  let src ← inodeMount c srcIno .either true
  let dst ← renameReplaced c src dstIno
  if src.dir then cyclicCheck c src.ino p.getDst
  let p ← renameEntries c p src.ino srcIdx dstIdx dstIno name len
  let _ ← runCi src (setNode fun n => { n with pinode := p.getDst.ino })
  pure dst

/-- `RedDirEntryRename`, dir.c:647-804.  Returns the inode that was replaced. -/
def dirRename (p : Parents) (srcName dstName : List Ch) : VM (Option Cinode) := do
  if p.src.dirty = false ∨ p.getDst.dirty = false then fail .einval
  else if p.src.dir = false ∨ p.getDst.dir = false then fail .enotdir
  else
    let len := nameLen c.sep dstName
    if isDots dstName len then fail .einval
    else do
      let (r, p) ← onSrcP p (dirLookup c srcName)
      match ← ofExcept r with
      | .missing _ => fail .enoent
      | .found srcIdx srcIno => do
        let (r, p) ← onDstP p (dirLookup c dstName)
        let (dstIdx, dstIno) ← renameTarget c r
        if c.renameAtomic = true ∧ srcIno = dstIno then pure none
        else renameMove c p srcIdx srcIno dstIdx dstIno dstName len

end RedFs
