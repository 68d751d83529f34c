import Verif.Model.Vol
/-!
Block allocation: core/driver/imap.c, imapinline.c, imapextern.c.

Not modelled: NULL checks; re-validation of the ranges already checked by the
caller (imapinline.c:59-67 etc.); the buffer of an imap node kept across
iterations of the external search loop (reading it again gives the same contents).
-/
namespace RedFs
open M Bitmap

/-- `ALLOCSTATE`, core/include/redcore.h:107-113. -/
inductive AllocState | free | used | new | afree
deriving DecidableEq, Repr

variable (c : Conf)

/-- `RedImapNodeBlock`, imapextern.c:427-454. -/
def nodeBlk (m : Metaroot) (k : Nat) : Nat :=
  c.imapStart + k * 2 + (if bitGet m.entries k then 1 else 0)

/-- `RedBufferGet(block, BFLAG_META_IMAP, ...)`: a block that is not an imap node fails validation. -/
def getImap (b : Nat) : VM Mem8 := fun v =>
  match v.blk b with
  | .imap bits => (.ok bits, v)
  | _ => (.error .eio, v)

/-- `ImapNodeIsBranched`, imapextern.c:400-410. -/
def nodeIsBranched (v : Vol) (k : Nat) : Bool :=
  bitGet (v.mr false).entries k != bitGet (v.mr true).entries k

/-- `RedImapIBlockGet`, imapinline.c:52-75. -/
def imapIGet (bMR : Bool) (b : Nat) : VM Bool := do
  let v ← get
  pure (bitGet (v.mr bMR).entries (b - c.tableStart))

/-- `RedImapEBlockGet`, imapextern.c:61-109. -/
def imapEGet (bMR : Bool) (b : Nat) : VM Bool := do
  let v ← get
  let off := b - c.tableStart
  let k := off / c.imapEntries
  let toRead := if bMR = !v.cur ∧ nodeIsBranched v k = false then !bMR else bMR
  let bits ← getImap (nodeBlk c (v.mr toRead) k)
  pure (bitGet bits (off % c.imapEntries))

/-- `RedImapBlockGet`, imap.c:53-87. -/
def imapBlockGet (bMR : Bool) (b : Nat) : VM Bool :=
  if b < c.tableStart ∨ c.blockCount ≤ b then fail .einval
  else if c.inline then imapIGet c bMR b else imapEGet c bMR b

/-- `RedImapIBlockSet`, imapinline.c:90-129. -/
def imapISet (b : Nat) (alloc : Bool) : VM Unit := do
  let v ← get
  let off := b - c.tableStart
  if bitGet v.work.entries off = alloc then critical .efubar
  else if alloc then
    modify fun v => v.setWork { v.work with entries := bitSet v.work.entries off }
  else
    modify fun v => v.setWork { v.work with entries := bitClear v.work.entries off }

/-- `ImapNodeBranch`, imapextern.c:335-389.  Returns the block number of the node. -/
def imapNodeBranch (k : Nat) : VM Nat := do
  let v ← get
  if c.nodeCount ≤ k then fail .einval
  else if nodeIsBranched v k then do
    let b := nodeBlk c v.work k
    let _ ← getImap b
    modify (·.markDirty b)
    pure b
  else do
    let e := v.work.entries
    modify fun v => v.setWork { v.work with entries := if bitGet e k then bitClear e k else bitSet e k }
    let v ← get
    let cur := nodeBlk c v.work k
    let old := nodeBlk c v.comm k
    modify (·.discard cur)
    let _ ← getImap old
    modify (·.branchBuf old cur)
    pure cur

/-- `RedImapEBlockSet`, imapextern.c:124-173. -/
def imapESet (b : Nat) (alloc : Bool) : VM Unit := do
  let off := b - c.tableStart
  let nb ← imapNodeBranch c (off / c.imapEntries)
  let bits ← getImap nb
  let i := off % c.imapEntries
  if bitGet bits i = alloc then critical .efubar
  else if alloc then modify (·.write nb (.imap (bitSet bits i)))
  else modify (·.write nb (.imap (bitClear bits i)))

/-- `RedImapBlockSet`, imap.c:106-195. -/
def imapBlockSet (b : Nat) (alloc : Bool) : VM Unit := do
  let v ← get
  if b < c.tableStart ∨ c.blockCount ≤ b then fail .einval
  else if c.firstAlloc ≤ b ∧ ((alloc = true ∧ v.work.freeBlocks = 0) ∨
      (alloc = false ∧ c.allocable ≤ v.work.freeBlocks)) then critical .efubar
  else do
    let r ← attempt (if c.inline then imapISet c b alloc else imapESet c b alloc)
    modify fun v => { v with branched := true }
    ofExcept r
    if alloc = false then modify (·.discard b) else pure ()
    if c.firstAlloc ≤ b then
      if alloc then
        modify fun v => v.setWork { v.work with freeBlocks := v.work.freeBlocks - 1 }
      else do
        let v ← get
        let was ← criticalAssert (imapBlockGet c (!v.cur) b)
        if was then modify fun v => { v with almostFree := v.almostFree + 1 }
        else modify fun v => v.setWork { v.work with freeBlocks := v.work.freeBlocks + 1 }
    else pure ()

/-- `REDMIN(8U, blockCount - search)` skip, then the wrap at the end of the volume:
imapinline.c:181 and 204-207, imapextern.c:248 and 292-295. -/
def searchWrap (s : Nat) : Nat := if s = c.blockCount then c.firstAlloc else s

/-- The search loop of `RedImapIBlockFindFree`, imapinline.c:169-208.  `fuel` bounds the
number of iterations; running out of it stands for an endless loop. -/
def findFreeI (v : Vol) (start : Nat) : Nat → Nat → Except Err Nat
  | 0, _ => .error .hang
  | n + 1, s =>
    let cur := v.work.entries
    let cmt := v.comm.entries
    let idx := s - c.tableStart
    if idx % 8 = 0 ∧ cur (idx / 8) = 0xFF#8 then
      let s' := searchWrap c (s + min 8 (c.blockCount - s))
      if s' = start then .error .enospc else findFreeI v start n s'
    else if bitGet cur idx = false ∧ bitGet cmt idx = false then .ok s
    else
      let s' := searchWrap c (s + 1)
      if s' = start then .error .enospc else findFreeI v start n s'

/-- The search loop of `RedImapEBlockFindFree`, imapextern.c:210-297. -/
def findFreeE (v : Vol) (start : Nat) : Nat → Nat → Except Err Nat
  | 0, _ => .error .hang
  | n + 1, s =>
    let bidx := s - c.tableStart
    let k := bidx / c.imapEntries
    let idx := bidx % c.imapEntries
    match v.blk (nodeBlk c v.work k) with
    | .imap cur =>
      if idx % 8 = 0 ∧ cur (idx / 8) = 0xFF#8 then
        let s' := searchWrap c (s + min 8 (c.blockCount - s))
        if s' = start then .error .enospc else findFreeE v start n s'
      else if bitGet cur idx = false then
        match v.blk (nodeBlk c v.comm k) with
        | .imap cmt =>
          if bitGet cmt idx = false then .ok s
          else
            let s' := searchWrap c (s + 1)
            if s' = start then .error .enospc else findFreeE v start n s'
        | _ => .error .eio
      else
        let s' := searchWrap c (s + 1)
        if s' = start then .error .enospc else findFreeE v start n s'
    | _ => .error .eio

/-- `RedImapIBlockFindFree` / `RedImapEBlockFindFree` including the range check
(imapinline.c:150-157, imapextern.c:195-202).  A deterministic search over fewer than
`blockCount + 1` positions which takes more steps than that never ends. -/
def imapFindFree (start : Nat) : VM Nat := do
  let v ← get
  if start < c.firstAlloc ∨ c.blockCount ≤ start then fail .einval
  else ofExcept (if c.inline then findFreeI c v start (c.blockCount + 1) start
                 else findFreeE c v start (c.blockCount + 1) start)

/-- `RedImapAllocBlock`, imap.c:210-273. -/
def imapAllocBlock : VM Nat := do
  let v ← get
  if v.work.freeBlocks = 0 then fail .enospc
  else
    match ← attempt (imapFindFree c v.work.allocNext) with
    | .ok b => do
      let next := if b + 1 = c.blockCount then c.firstAlloc else b + 1
      modify fun v => v.setWork { v.work with allocNext := next }
      criticalAssert (imapBlockSet c b true)
      pure b
    | .error .enospc => critical .eio
    | .error e => fail e

/-- `RedImapBlockState`, imap.c:296-350. -/
def imapBlockState (b : Nat) : VM AllocState := do
  if b < c.tableStart ∨ c.blockCount ≤ b then fail .einval
  else do
    let v ← get
    let cur ← imapBlockGet c v.cur b
    let old ← imapBlockGet c (!v.cur) b
    pure (if cur then (if old then .used else .new) else (if old then .afree else .free))

end RedFs
