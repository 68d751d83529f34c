/-
Model of `util/bitmap.c`.  A bitmap is byte-addressed memory `Nat → BitVec 8`
starting at `pbBitmap`; bit numbers are `Nat` (in C `uint32_t`).  Not modelled:
the NULL pointer check.
-/
namespace RedFs.Bitmap

abbrev Mem8 := Nat → BitVec 8

/-- `RedBitGet`, util/bitmap.c:41-58. -/
def bitGet (bm : Mem8) (bit : Nat) : Bool :=
  (bm (bit >>> 3) &&& (0x80#8 >>> (bit &&& 7))) != 0#8

/-- Store one byte. -/
def store (bm : Mem8) (a : Nat) (v : BitVec 8) : Mem8 := fun i => if i = a then v else bm i

/-- `RedBitSet`, util/bitmap.c:69-79. -/
def bitSet (bm : Mem8) (bit : Nat) : Mem8 :=
  store bm (bit >>> 3) (bm (bit >>> 3) ||| (0x80#8 >>> (bit &&& 7)))

/-- `RedBitClear`, util/bitmap.c:90-100. -/
def bitClear (bm : Mem8) (bit : Nat) : Mem8 :=
  store bm (bit >>> 3) (bm (bit >>> 3) &&& ~~~(0x80#8 >>> (bit &&& 7)))

end RedFs.Bitmap
