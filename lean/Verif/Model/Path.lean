import Verif.Model.Exec
/-!
Model of posix/path.c, the part that works on one volume.  (The volume prefix is in `Model/Posix.lean`.)

A C string is the list of its characters (`Model/Str.lean`); a pointer into it is a suffix of that list.
`cwd` is `REDCONF_API_POSIX_CWD == 1`.  NULL checks are left out.
-/
namespace RedFs.Path
open M Str

/-- The loop `while(psz[ulIdx] == REDCONF_PATH_SEPARATOR) ulIdx++`, path.c:437-440, 588-591, 637-640. -/
def skipSep (sep : Ch) : List Ch → List Ch
  | [] => []
  | x :: s => if x = sep then skipSep sep s else x :: s

/-- `IsRootDir`, path.c:569-597. -/
def isRootDir (sep : Ch) (s : List Ch) : Bool := decide ((skipSep sep s).length < s.length) && decide (skipSep sep s = [])

/-- `PathHasMoreComponents`, path.c:623-646. -/
def hasMore (sep : Ch) (s : List Ch) : Bool := decide (skipSep sep s ≠ [])

/-- The character '.'. -/
def dotCh : Ch := 46#8

/-- `IsDot`, path.c:659-667. -/
def isDot (sep : Ch) (s : List Ch) : Bool :=
  decide (cget s 0 = dotCh) && (decide (cget s 1 = 0#8) || decide (cget s 1 = sep))

/-- `IsDotDot`, path.c:679-688. -/
def isDotDot (sep : Ch) (s : List Ch) : Bool :=
  decide (cget s 0 = dotCh) && decide (cget s 1 = dotCh) && (decide (cget s 2 = 0#8) || decide (cget s 2 = sep))

variable (c : Conf)

/-- `InodeMustBeDir`, path.c:726-745. -/
def inodeMustBeDir (ino : Nat) : VM Unit :=
  if ino ≠ 2 then do
    let sb ← coreStat c ino
    if sb.mode ≠ modeDir then fail .enotdir else pure ()
  else pure ()

/-- The loop of `PathWalk`, path.c:432-524.  `want` is `pulInode != NULL`.  The variables are `&pszLocalPath[ulPathIdx]`,
`ulInode`, `ulPInode` and `&pszLocalPath[ulLastNameIdx]`; the result is the last three.  The first argument bounds the number of
iterations. -/
def walkLoop (cwd want : Bool) : Nat → List Ch → Nat → Nat → List Ch → VM (Nat × Nat × List Ch)
  | 0, _, _, _, _ => fail .hang
  | fuel + 1, s, ino, pino, last =>
    let s := skipSep c.sep s
    if s = [] then pure (ino, pino, last)
    else if cwd && isDot c.sep s then do
      inodeMustBeDir c ino
      walkLoop cwd want fuel (s.drop 1) ino pino s
    else if cwd && isDotDot c.sep s then do
      inodeMustBeDir c ino
      let ino := if ino ≠ 2 then pino else ino
      let pino ← coreDirParent c ino
      walkLoop cwd want fuel (s.drop 2) ino pino s
    else do
      let n := nameLen c.sep s
      let ino' ← if hasMore c.sep (s.drop n) || want then coreLookup c ino s else pure ino
      walkLoop cwd want fuel (s.drop n) ino' ino s

/-- `PathWalk`, path.c:397-556: `ulInode`, `ulPInode` and the last name.  `rootErr` is `rootDirError` if `pulPInode != NULL`. -/
def pathWalk (cwd : Bool) (start : Nat) (s : List Ch) (rootErr : Option Err) (want : Bool) : VM (Nat × Nat × List Ch) :=
  if (if cwd then start = 0 else start ≠ 2) then fail .einval
  else do
    let pino ← if cwd then coreDirParent c start else pure 0
    let (ino, pino, last) ← walkLoop c cwd want (s.length + 1) s start pino s
    match rootErr with
    | some e => if pino = 0 then fail e else pure (ino, pino, last)
    | none => pure (ino, pino, last)

/-- `RedPathLookup`, path.c:249-267. -/
def pathLookup (cwd : Bool) (start : Nat) (s : List Ch) : VM Nat := do
  let (ino, _, _) ← pathWalk c cwd start s none true
  pure ino

/-- `RedPathToName`, path.c:308-349: the parent directory, and the last name (with whatever follows it). -/
def pathToName (cwd : Bool) (start : Nat) (s : List Ch) (rootErr : Err) : VM (Nat × List Ch) := do
  let (_, pino, name) ← pathWalk c cwd start s (some rootErr) false
  if cwd && (isDot c.sep name || isDotDot c.sep name) then fail .einval
  else pure (pino, name)

end RedFs.Path
