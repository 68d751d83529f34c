import Verif.Model.Conf
import Verif.Model.Monad
/-!
Volume geometry, `RedVolInitGeometry` (core/driver/volume.c:65-168), with the 32-bit
arithmetic of the C code: `uint32_t` operations are reduced modulo `2 ^ 32`.
-/
namespace RedFs

/-- `uint32_t` wrap-around. -/
def u32 (n : Nat) : Nat := n % 4294967296
/-- `a - b` in `uint32_t`. -/
def sub32 (a b : Nat) : Nat := u32 (a + (4294967296 - b))

/-- `BDEVINFO` (include/redvolume.h) and the members of `VOLCONF` used for the geometry. -/
structure Dev where
  /-- `gaRedBdevInfo[].ulSectorSize` -/
  sectorSize : Nat
  /-- `gaRedBdevInfo[].ullSectorCount` -/
  sectorCount : Nat
  /-- `gpRedVolConf->ullSectorOffset` -/
  sectorOffset : Nat

/-- The members of `VOLUME` and `COREVOLUME` computed by `RedVolInitGeometry`. -/
structure Geom where
  shift : Nat
  blockCount : Nat
  inline : Bool
  /-- 0 for an inline imap -/
  nodeCount : Nat
  tableStart : Nat
  firstAlloc : Nat
  allocable : Nat

/-- The `while` loop of volume.c:80-84: the smallest shift not below `s` with
`sectorSize << shift >= blockSize`.  `fuel` bounds the number of iterations. -/
def shiftLoop (ss bs : Nat) : Nat → Nat → Nat
  | 0, s => s
  | fuel + 1, s => if ss <<< s < bs then shiftLoop ss bs fuel (s + 1) else s

/-- `RedVolInitGeometry`, core/driver/volume.c:65-168.  `imapInline`/`imapExternal` are
`REDCONF_IMAP_INLINE` and `REDCONF_IMAP_EXTERNAL`; `c.blockCount` is not used. -/
def initGeometry (c : Conf) (imapInline imapExternal : Bool) (d : Dev) : Except Err Geom :=
  -- volume.c:70-76 (SECTOR_SIZE_MIN is 128)
  if d.sectorSize < 128 ∨ c.blockSize % d.sectorSize ≠ 0 ∨
      18446744073709551615 - d.sectorOffset < d.sectorCount then .error .einval
  else
    -- volume.c:80-92
    let shift := shiftLoop d.sectorSize c.blockSize 16 0
    let bc := u32 (d.sectorCount >>> shift)
    -- volume.c:94 (MINIMUM_METADATA_BLOCKS)
    if bc < 5 then .error .einval
    else
      -- volume.c:116
      let inl := decide (sub32 bc 3 ≤ c.mrEntries)
      -- volume.c:118-146
      if inl = true ∧ imapInline = false then .error .einval
      else if inl = false ∧ imapExternal = false then .error .einval
      else
        let nodes := if inl then 0
          else u32 (sub32 bc 3 + u32 ((c.imapEntries + 2) - 1)) / (c.imapEntries + 2)
        let table := if inl then 3 else u32 (3 + u32 (nodes * 2))
        -- volume.c:152-164
        let first := u32 (table + u32 (c.inodeCount * 2))
        if first > bc then .error .einval
        else .ok { shift := shift, blockCount := bc, inline := inl, nodeCount := nodes,
                   tableStart := table, firstAlloc := first, allocable := sub32 bc first }

/-- The configuration seen by the rest of the model once the geometry is known. -/
def Conf.withGeom (c : Conf) (g : Geom) : Conf := { c with blockCount := g.blockCount }

end RedFs
