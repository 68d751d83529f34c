/-
Model of `util/string.c` (built-in C versions) and `util/namelen.c`.  A C string
is the list of its characters before the terminating NUL; characters are bytes
`1..255` (`Char8 = BitVec 8`, nonzero).  Reading index `i` of the string is
`cget s i`, which is 0 at the terminator.  A fixed-size `char` array which need
not be terminated (a directory entry name) is a list of exactly that many bytes.
-/
namespace RedFs.Str

abbrev Ch := BitVec 8
abbrev CStr := List Ch

/-- No embedded NUL: the list really is the content of a C string. -/
def CStr.Ok (s : CStr) : Prop := ∀ c ∈ s, c ≠ 0#8

instance (s : CStr) : Decidable (CStr.Ok s) := by unfold CStr.Ok; infer_instance

/-- `pszStr[i]` for `i` up to and including the terminator. -/
def cget (s : List Ch) (i : Nat) : Ch := s.getD i 0#8

/-- `RedStrLenUnchecked`, util/string.c:92-103: the loop
`while(pszStr[ulLen] != '\0') ulLen++`. -/
def strLen : List Ch → Nat
  | [] => 0
  | c :: s => if c = 0#8 then 0 else strLen s + 1

/-- `RedStrCmpUnchecked`, util/string.c:148-180. -/
def strCmp : List Ch → List Ch → Int
  | s1, s2 =>
    let c1 := cget s1 0
    let c2 := cget s2 0
    if c1 = c2 ∧ c1 ≠ 0#8 then
      match s1, s2 with
      | _ :: t1, _ :: t2 => strCmp t1 t2
      | _, _ => 0      -- unreachable: both characters are nonzero
    else if c1.toNat > c2.toNat then 1
    else if c1.toNat < c2.toNat then -1
    else 0

/-- `RedStrNCmpUnchecked`, util/string.c:232-268. -/
def strNCmp : List Ch → List Ch → Nat → Int
  | _, _, 0 => 0
  | s1, s2, n+1 =>
    let c1 := cget s1 0
    let c2 := cget s2 0
    if c1 ≠ c2 then (if c1.toNat > c2.toNat then 1 else -1)
    else if c1 = 0#8 then 0
    else strNCmp (s1.drop 1) (s2.drop 1) n

/-- `RedStrNCpyUnchecked`, util/string.c:310-328: the resulting `ulLen` bytes. -/
def strNCpy : List Ch → Nat → List Ch
  | _, 0 => []
  | [], n+1 => 0#8 :: strNCpy [] n
  | c :: s, n+1 => if c = 0#8 then 0#8 :: strNCpy [] n else c :: strNCpy s n

/-- `RedNameLen`, util/namelen.c:40-58.  `sep` is `REDCONF_PATH_SEPARATOR`. -/
def nameLen (sep : Ch) : List Ch → Nat
  | [] => 0
  | c :: s => if c = 0#8 ∨ c = sep then 0 else nameLen sep s + 1

end RedFs.Str
