/-!
Compile-time configuration and derived constants.

`Conf` holds the `REDCONF_*` values which influence the on-disk layout, together
with the per-volume inode count and the block count computed at mount.  All
quantities are natural numbers; in C they are `uint32_t`/`uint64_t`.  The places
where 32-bit wrap-around matters are modelled separately in `Model/Geometry.lean`.
-/
namespace RedFs

structure Conf where
  /-- `REDCONF_BLOCK_SIZE` -/
  blockSize : Nat
  /-- `REDCONF_DIRECT_POINTERS` -/
  direct : Nat
  /-- `REDCONF_INDIRECT_POINTERS` -/
  indirect : Nat
  /-- `REDCONF_INODE_BLOCKS == 1` -/
  inodeBlocks : Bool
  /-- `REDCONF_INODE_TIMESTAMPS == 1` (only the header size depends on it here) -/
  timestamps : Bool
  /-- `REDCONF_API_POSIX == 1` -/
  posix : Bool
  /-- `REDCONF_API_POSIX_UNLINK == 1 || REDCONF_API_POSIX_RMDIR == 1` -/
  canDelete : Bool
  /-- `REDCONF_API_POSIX_FTRUNCATE == 1` / `REDCONF_API_FSE_TRUNCATE == 1` -/
  canTruncate : Bool
  /-- `REDCONF_NAME_MAX` -/
  nameMax : Nat
  /-- `gpRedVolConf->ulInodeCount` -/
  inodeCount : Nat
  /-- `gpRedVolume->ulBlockCount` -/
  blockCount : Nat
  /-- `gpRedVolConf->fAtomicSectorWrite` -/
  atomicSector : Bool
  /-- `REDCONF_ATIME == 1` -/
  atime : Bool
  /-- `REDCONF_RENAME_ATOMIC == 1` -/
  renameAtomic : Bool
  /-- `REDCONF_PATH_SEPARATOR` -/
  sep : BitVec 8

namespace Conf
variable (c : Conf)

/-- `METAROOT_ENTRIES`, core/include/rednodes.h:78-84. -/
def mrEntries : Nat := (c.blockSize - (16 + if c.posix then 16 else 12)) * 8
/-- `IMAPNODE_ENTRIES`, rednodes.h:108-111. -/
def imapEntries : Nat := (c.blockSize - 16) * 8
/-- `INODE_HEADER_SIZE`, rednodes.h:127-128. -/
def inodeHeader : Nat :=
  16 + 8 + (if c.inodeBlocks then 4 else 0) + (if c.timestamps then 12 else 0) + 4 + (if c.posix then 4 else 0)
/-- `INODE_ENTRIES`, rednodes.h:129. -/
def inodeEntries : Nat := (c.blockSize - c.inodeHeader) / 4
/-- `INDIR_ENTRIES`, rednodes.h:174-175. -/
def indirEntries : Nat := (c.blockSize - 20) / 4
/-- `DINDIR_POINTERS`, core/include/redcoremacs.h:36. -/
def dindirPtrs : Nat := c.inodeEntries - c.direct - c.indirect
/-- `DINDIR_DATA_BLOCKS`, redcoremacs.h:37. -/
def dindirData : Nat := c.indirEntries * c.indirEntries
/-- `INODE_INDIR_BLOCKS`, redcoremacs.h:39. -/
def indirBlocks : Nat := c.indirect * c.indirEntries
/-- `INODE_DINDIR_BLOCKS_MAX`, redcoremacs.h:48. -/
def dindirBlocksMax : Nat := 4294967295 - (c.direct + c.indirBlocks)
/-- `DINDIR_POINTERS_MAX`, redcoremacs.h:49-51. -/
def dindirPtrsMax : Nat :=
  c.dindirBlocksMax / c.dindirData + (if c.dindirBlocksMax % c.dindirData = 0 then 0 else 1)
/-- `INODE_DINDIR_BLOCKS`, redcoremacs.h:52-56. -/
def dindirBlocks : Nat :=
  if c.dindirPtrsMax ≤ c.dindirPtrs then c.dindirBlocksMax else c.dindirPtrs * c.dindirData
/-- `INODE_DATA_BLOCKS`, redcoremacs.h:58. -/
def dataBlocks : Nat := c.direct + c.indirBlocks + c.dindirBlocks
/-- `INODE_SIZE_MAX`, redcoremacs.h:59. -/
def sizeMax : Nat := c.blockSize * c.dataBlocks
/-- `RESERVED_BLOCKS`, redcoremacs.h:81-101. -/
def reserved : Nat :=
  if c.posix && c.canDelete then
    if c.dindirPtrs > 0 then 3 else if c.indirect > 0 then 2 else 1
  else if c.canTruncate then
    if c.dindirPtrs > 0 then 2 else if c.indirect > 0 then 1 else 0
  else 0

/-- `fImapInline`, core/driver/volume.c:116. -/
def inline : Bool := decide (c.blockCount - 3 ≤ c.mrEntries)
/-- `ulImapNodeCount`, volume.c:138-139. -/
def nodeCount : Nat := ((c.blockCount - 3) + ((c.imapEntries + 2) - 1)) / (c.imapEntries + 2)
/-- `ulImapStartBN`, volume.c:130. -/
def imapStart (_ : Conf) : Nat := 3
/-- `ulInodeTableStartBN`, volume.c:121 and 141. -/
def tableStart : Nat := if c.inline then 3 else c.imapStart + c.nodeCount * 2
/-- `ulFirstAllocableBN`, volume.c:152. -/
def firstAlloc : Nat := c.tableStart + c.inodeCount * 2
/-- `ulBlocksAllocable`, volume.c:163. -/
def allocable : Nat := c.blockCount - c.firstAlloc

/-- `INODE_IS_VALID`, redcoremacs.h:72 (`INODE_FIRST_VALID` is 2). -/
def inodeValid (ino : Nat) : Bool := decide (2 ≤ ino) && decide (ino < 2 + c.inodeCount)
/-- `INODE_FIRST_FREE`, redcoremacs.h:64-68. -/
def firstFreeInode : Nat := if c.posix then 3 else 2

/-- What the configuration checks (`core/include/redconfigchk.h`, rednodes.h:131-136) and
`RedVolInitGeometry` (volume.c:65-168) establish before a volume is used.  The bound
`nodeCount ≤ mrEntries` is *not* checked by the code (see DESIGN.md, findings). -/
structure Ok : Prop where
  bs_pow : ∃ k, 7 ≤ k ∧ k ≤ 16 ∧ c.blockSize = 2 ^ k
  ptrs : c.direct + c.indirect ≤ c.inodeEntries
  inodes : 1 ≤ c.inodeCount
  blocks_min : 5 ≤ c.blockCount
  blocks_max : c.blockCount < 4294967296
  fits : c.firstAlloc ≤ c.blockCount
  nodes : c.inline = false → c.nodeCount ≤ c.mrEntries

end Conf
end RedFs
