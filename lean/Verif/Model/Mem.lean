/-
Model of `util/memory.c` (the built-in C versions, used when `REDCONF_MEM*` are
not configured).  Memory is one flat byte-addressed address space, so that source
and destination may overlap.  Not modelled: NULL checks, address wrap-around.
-/
namespace RedFs.Mem

abbrev Memory := Nat → BitVec 8

def write (m : Memory) (a : Nat) (v : BitVec 8) : Memory := fun i => if i = a then v else m i

/-- Ascending copy loop `for(ulIdx = 0; ulIdx < ulLen; ulIdx++) pbDest[ulIdx] = pbSrc[ulIdx]`
starting at index `i`, with `n` iterations left; util/memory.c:98-101, 177-180. -/
def copyUp (m : Memory) (dst src : Nat) (i : Nat) : Nat → Memory
  | 0 => m
  | n+1 => copyUp (write m (dst + i) (m (src + i))) dst src (i+1) n

/-- Descending copy loop `while(ulIdx > 0) { ulIdx--; pbDest[ulIdx] = pbSrc[ulIdx]; }`,
util/memory.c:184-190. -/
def copyDown (m : Memory) (dst src : Nat) : Nat → Memory
  | 0 => m
  | n+1 => copyDown (write m (dst + n) (m (src + n))) dst src n

/-- `RedMemCpyUnchecked`, util/memory.c:89-102. -/
def memCpy (m : Memory) (dst src len : Nat) : Memory := copyUp m dst src 0 len

/-- `RedMemMoveUnchecked`, util/memory.c:140-192. -/
def memMove (m : Memory) (dst src len : Nat) : Memory :=
  if dst < src then copyUp m dst src 0 len else copyDown m dst src len

/-- `RedMemSetUnchecked` loop, util/memory.c:227-239. -/
def setUp (m : Memory) (dst : Nat) (v : BitVec 8) (i : Nat) : Nat → Memory
  | 0 => m
  | n+1 => setUp (write m (dst + i) v) dst v (i+1) n

def memSet (m : Memory) (dst : Nat) (v : BitVec 8) (len : Nat) : Memory := setUp m dst v 0 len

/-- The scan `while((ulIdx < ulLen) && (pbMem1[ulIdx] == pbMem2[ulIdx])) ulIdx++`,
util/memory.c:297-300; `n` = remaining length. -/
def cmpScan (m : Memory) (a b : Nat) (i : Nat) : Nat → Nat
  | 0 => i
  | n+1 => if m (a + i) = m (b + i) then cmpScan m a b (i+1) n else i

/-- `RedMemCmpUnchecked`, util/memory.c:287-316. -/
def memCmp (m : Memory) (a b len : Nat) : Int :=
  let i := cmpScan m a b 0 len
  if i = len then 0
  else if (m (a + i)).toNat > (m (b + i)).toNat then 1
  else -1

end RedFs.Mem
