import Verif.Model.CrcTables
/-
Model of `util/crc.c`.  All three values of `REDCONF_CRC_ALGORITHM` are modelled.
`uint32_t` is `BitVec 32`, bytes are `BitVec 8`, a buffer is the list of the
`ulLength` bytes it holds.  Not modelled: the NULL buffer check.
-/
namespace RedFs.Crc

abbrev Byte := BitVec 8
abbrev Word := BitVec 32

/-- `CCITT_32_POLYNOMIAL`, util/crc.c:54. -/
def poly : Word := 0xEDB88320#32

/-- Inner loop body of the bitwise build, util/crc.c:93-96. -/
def bitStep (c : Word) : Word := ((c &&& 1#32) * poly) ^^^ (c >>> 1)

/-- `n`-fold iteration of a loop body. -/
def iter {α : Type} : Nat → (α → α) → α → α
  | 0, _, c => c
  | n+1, f, c => iter n f (f c)

/-- The inner loop `for(ulBit = 0U; ulBit < 8U; ulBit++)`, util/crc.c:93-96. -/
def bitSteps (n : Nat) (c : Word) : Word := iter n bitStep c

/-- Outer loop body of the bitwise build, util/crc.c:85-97. -/
def byteStepBitwise (c : Word) (b : Byte) : Word := bitSteps 8 (c ^^^ b.setWidth 32)

/-- `RedCrc32Update`, `CRC_BITWISE` build, util/crc.c:68-105. -/
def crcBitwise (init : Word) (buf : List Byte) : Word :=
  ~~~ (buf.foldl byteStepBitwise (~~~ init))

/-- Loop body of the Sarwate build, util/crc.c:176. -/
def byteStepSarwate (c : Word) (b : Byte) : Word :=
  (c >>> 8) ^^^ tableSarwate[((c ^^^ b.setWidth 32) &&& 0xFF#32).toNat]!

/-- `RedCrc32Update`, `CRC_SARWATE` build, util/crc.c:120-184. -/
def crcSarwate (init : Word) (buf : List Byte) : Word :=
  ~~~ (buf.foldl byteStepSarwate (~~~ init))

/-- Byte-at-a-time loop body of the slice-by-8 build, util/crc.c:511 and 556. -/
def byteStepSlice (c : Word) (b : Byte) : Word :=
  (c >>> 8) ^^^ tableSlice8[(((c ^^^ b.setWidth 32) &&& 0xFF#32).toNat <<< 3)]!

/-- `pul...[x << 3U]` where the pointer is `&aulCrc32Table[k]`, util/crc.c:493-500. -/
def sliceTab (k : Nat) (x : Nat) : Word := tableSlice8[(x <<< 3) + k]!

/-- The 32-bit word formed by four bytes, least significant first.  This is the
`REDCONF_ENDIAN_BIG == 1` expression, util/crc.c:527-528; on a little-endian host
the aligned load of util/crc.c:536 yields the same word. -/
def leWord (b0 b1 b2 b3 : Byte) : Word :=
  b0.setWidth 32 ||| (b1.setWidth 32 <<< 8) ||| (b2.setWidth 32 <<< 16) ||| (b3.setWidth 32 <<< 24)

/-- One eight byte slice, util/crc.c:526-547. -/
def slice8 (c0 : Word) (b0 b1 b2 b3 b4 b5 b6 b7 : Byte) : Word :=
  let c := c0 ^^^ leWord b0 b1 b2 b3
  sliceTab 4 ((c >>> 24) &&& 0xFF#32).toNat ^^^
  sliceTab 5 ((c >>> 16) &&& 0xFF#32).toNat ^^^
  sliceTab 6 ((c >>> 8) &&& 0xFF#32).toNat ^^^
  sliceTab 7 (c &&& 0xFF#32).toNat ^^^
  sliceTab 0 b7.toNat ^^^
  sliceTab 1 b6.toNat ^^^
  sliceTab 2 b5.toNat ^^^
  sliceTab 3 b4.toNat

/-- The slice loop and the tail loop, util/crc.c:524-559: whole groups of eight
bytes are consumed by `slice8`, the remaining (fewer than eight) one by one. -/
def sliceLoop (c : Word) : List Byte → Word
  | b0 :: b1 :: b2 :: b3 :: b4 :: b5 :: b6 :: b7 :: rest =>
      sliceLoop (slice8 c b0 b1 b2 b3 b4 b5 b6 b7) rest
  | rest => rest.foldl byteStepSlice c

/-- `RedCrc32Update`, `CRC_SLICEBY8` build, util/crc.c:200-565.  `misalign` is the
number of bytes before the first address aligned to `REDCONF_ALIGNMENT_SIZE`
(it depends on the pointer, so it is an arbitrary parameter here). -/
def crcSlice8 (misalign : Nat) (init : Word) (buf : List Byte) : Word :=
  ~~~ (sliceLoop ((buf.take misalign).foldl byteStepSlice (~~~ init)) (buf.drop misalign))

/-- `RedCrcNode`, util/crc.c:581-603: the CRC of a node block without its first
eight bytes (signature and CRC). -/
def crcNode (block : List Byte) : Word := crcBitwise 0#32 (block.drop 8)

end RedFs.Crc
