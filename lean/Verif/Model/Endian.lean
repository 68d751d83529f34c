/-
Model of `util/endian.c`.
-/
namespace RedFs.Endian

/-- `RedRev64`, util/endian.c:39-49. -/
def rev64 (x : BitVec 64) : BitVec 64 :=
  let r := x
  let r := ((r &&& 0x00000000FFFFFFFF#64) <<< 32) ||| ((r &&& 0xFFFFFFFF00000000#64) >>> 32)
  let r := ((r &&& 0x0000FFFF0000FFFF#64) <<< 16) ||| ((r &&& 0xFFFF0000FFFF0000#64) >>> 16)
  let r := ((r &&& 0x00FF00FF00FF00FF#64) <<< 8) ||| ((r &&& 0xFF00FF00FF00FF00#64) >>> 8)
  r

/-- `RedRev32`, util/endian.c:58-65. -/
def rev32 (x : BitVec 32) : BitVec 32 :=
  ((x &&& 0x000000FF#32) <<< 24) ||| ((x &&& 0x0000FF00#32) <<< 8) |||
  ((x &&& 0x00FF0000#32) >>> 8) ||| ((x &&& 0xFF000000#32) >>> 24)

/-- `RedRev16`, util/endian.c:74-79. -/
def rev16 (x : BitVec 16) : BitVec 16 :=
  ((x &&& 0xFF00#16) >>> 8) ||| ((x &&& 0x00FF#16) <<< 8)

end RedFs.Endian
