import Verif.Model.Words
/-!
The truncating half of core/driver/inodedata.c with its block numbers, entry numbers and loop
counters in 16 and 32 bits (`Model/Data.lean` has the same functions with unbounded numbers).
The coordinates kept in the cached inode are numbers in the model; `entry16` is the word that the
code keeps.  Physical block numbers, which are only compared and copied, stay numbers.
-/
namespace RedFs.Words
open M

variable (c : Conf)

/-- `uDindirEntry`, `uIndirEntry` of the cached inode, core/include/redcore.h:166-180: 16 bits. -/
def entry16 : Option Nat → U16
  | none => coordInvalid
  | some k => BitVec.ofNat 16 k

/-- The loop of `TruncIndir`, inodedata.c:728-736; `k` is `uEntry`, `n` is `uIndirEntries`.  At most
`fuel` entries are looked at. -/
def truncIndirLoop (x : Nat) (fBranch : Bool) (n : U16) : Nat → U16 → DM Unit
  | fuel, k =>
    if n ≤ k then pure ()
    else match fuel with
      | 0 => fail .hang
      | fuel + 1 => do
        let s ← get
        let q := (s.v.blk x).ptrs k.toNat
        truncData c q
        onlyIf (fBranch ∧ q ≠ 0) (liftV (setPtr x k.toNat 0)) ()
        truncIndirLoop x fBranch n fuel (k + 1)

/-- `TruncIndir`, inodedata.c:689-753. -/
def truncIndir : DM Bool := do
  let s ← get
  match s.ci.pIndir with
  | some x => do
    let fBranch := anyEntry (s.v.blk x).ptrs (entry16 s.ci.indirEntry).toNat
    onlyIf fBranch (branchBlock c 1 false) ()
    let s ← get
    let n := truncIndirMax c (BitVec.ofNat 32 s.ci.logical) (entry16 s.ci.indirEntry)
    truncIndirLoop c (s.ci.pIndir.getD 0) fBranch n 65536 (entry16 s.ci.indirEntry)
    if fBranch then pure false
    else do
      setCi fun ci => { ci with pIndir := none }
      let s ← get
      liftV (imapBlockSet c s.ci.indirBlk false)
      pure true
  | none => pure false

/-- The loop of `TruncDindir`, inodedata.c:609-653: `d` is `uEntry`, `n` is `uDindirEntries`, `b` is
`ulBlock`. -/
def truncDindirLoop (fBranch : Bool) (n : U16) : Nat → U16 → U32 → DM Unit
  | fuel, d, b =>
    if n ≤ d then pure ()
    else match fuel with
      | 0 => fail .hang
      | fuel + 1 => do
        let _ ← seekData c b.toNat
        let s ← get
        onlyIf (s.ci.indirBlk ≠ 0) (do
          let freed ← truncIndir c
          onlyIf (fBranch ∧ freed) (do
            let s ← get
            liftV (setPtr (s.ci.pDindir.getD 0) d.toNat 0)) ()) ()
        let s ← get
        truncDindirLoop fBranch n fuel (d + 1) (b + (indirEntries c - up (entry16 s.ci.indirEntry)))

/-- `TruncDindir`, inodedata.c:549-670. -/
def truncDindir : DM Bool := do
  let s ← get
  match s.ci.pDindir with
  | some x => do
    let d := entry16 s.ci.dindirEntry
    let k := entry16 s.ci.indirEntry
    let es := (s.v.blk x).ptrs
    let fBranch := anyEntry es d.toNat || (decide (es d.toNat ≠ 0) && anyEntry (s.v.blk (s.ci.pIndir.getD 0)).ptrs k.toNat)
    onlyIf fBranch (branchBlock c 0 false) ()
    let s ← get
    let b : U32 := BitVec.ofNat 32 s.ci.logical
    let n := truncDindirMax c b (entry16 s.ci.dindirEntry) (entry16 s.ci.indirEntry)
    truncDindirLoop c fBranch n 65536 (entry16 s.ci.dindirEntry) b
    if fBranch then pure false
    else do
      setCi fun ci => { ci with pDindir := none }
      let s ← get
      liftV (imapBlockSet c s.ci.dindirBlk false)
      pure true
  | none => pure false

/-- `Shrink`, direct pointers, inodedata.c:441-453.  Returns `ulTruncBlock`. -/
def shrinkDirect : Nat → U32 → DM U32
  | fuel, t =>
    if direct c ≤ t then pure t
    else match fuel with
      | 0 => fail .hang
      | fuel + 1 => do
        let s ← get
        let q := s.ci.node.entries t.toNat
        truncData c q
        onlyIf (q ≠ 0) (setNode (·.setEntry t.toNat 0)) ()
        shrinkDirect fuel (t + 1)

/-- `Shrink`, indirect pointers, inodedata.c:455-480.  Returns `ulTruncBlock`. -/
def shrinkIndir : Nat → U32 → DM U32
  | fuel, t =>
    if direct c + indirBlocks c ≤ t then pure t
    else match fuel with
      | 0 => fail .hang
      | fuel + 1 => do
        let _ ← seekData c t.toNat
        let freed ← truncIndir c
        let s ← get
        onlyIf freed (setNode (·.setEntry s.ci.inodeEntry 0)) ()
        shrinkIndir fuel (truncNextIndir c t (entry16 s.ci.indirEntry))

/-- `Shrink`, double indirect pointers, inodedata.c:482-527; `uOrigInodeEntry` and so on are those of `s`. -/
def shrinkDindir : Nat → U32 → DM Unit
  | 0, t => if dataBlocks c ≤ t then pure () else fail .hang
  | fuel + 1, t =>
    if dataBlocks c ≤ t then pure ()
    else do
      let _ ← seekData c t.toNat
      let s ← get
      let freed ← truncDindir c
      onlyIf freed (setNode (·.setEntry s.ci.inodeEntry 0)) ()
      shrinkDindir fuel (truncNextDindir c t (entry16 s.ci.dindirEntry) (entry16 s.ci.indirEntry))

/-- `Shrink`, inodedata.c:421-531, each loop with at most `fuel` rounds. -/
def shrink (fuel : Nat) (size : U64) : DM Unit := do
  let s ← get
  if s.ci.nodeBuf = none ∨ (0 < size ∧ s.ci.dirty = false) then fail .einval
  else do
    setCi fun ci => { ci with pData := none }
    let t ← shrinkDirect c fuel (truncBlock c size)
    let t ← shrinkIndir c fuel t
    if dindirPtrs c > 0 then shrinkDindir c fuel t else pure ()

/-- `RedInodeDataTruncate`, inodedata.c:365-406. -/
def dataTruncate (fuel : Nat) (size : U64) : DM Unit := do
  let s ← get
  if s.ci.nodeBuf = none then fail .einval
  else if sizeMax c < size then fail .efbig
  else do
    onlyIf (BitVec.ofNat 64 s.ci.node.size < size) (expandPrepare c) ()
    onlyIf (size < BitVec.ofNat 64 s.ci.node.size) (shrink c fuel size) ()
    setNode fun n => { n with size := size.toNat }

end RedFs.Words
