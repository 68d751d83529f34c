import Verif.Model.CoreFile
import Verif.Model.Dir
/-!
The operations on names of core/driver/core.c.

Simplifications: NULL checks and time stamps are left out; the functions are those of a build with
`REDCONF_API_POSIX == 1` and all optional calls compiled in.  `RedInodePut` only releases buffers
(and stores time stamps), which has no effect at this level.
-/
namespace RedFs
open M Bitmap Str

variable (c : Conf)

/-- `CoreCreate`, core.c:687-746: the new inode number. -/
def coreCreateSub (pino : Nat) (name : List Ch) (isDir : Bool) : VM Nat := rwOp do
  let p ← inodeMount c pino .dir false
  let ci ← inodeCreate c 0 pino (if isDir then modeDir else modeReg)
  match ← attempt (do let p ← inodeBranch c p; runCi p (dirCreate c name ci.ino)) with
  | .ok _ => pure ci.ino
  | .error e => do
    -- ret2 = RedInodeFree(&ino); CRITICAL_ASSERT(ret2 == 0)
    match ← attempt (inodeFree c ci) with
    | .ok _ => fail e
    | .error _ => critical e

/-- `RedCoreCreate`, core.c:611-662. -/
def coreCreate (pino : Nat) (name : List Ch) (isDir : Bool) : VM Nat :=
  modifyingOp (if isDir then .mkdir else .creat) (coreCreateSub c pino name isDir)

/-- `CoreLink`, core.c:851-919. -/
def coreLinkSub (pino : Nat) (name : List Ch) (ino : Nat) : VM Unit := rwOp do
  let p ← inodeMount c pino .dir false
  match ← attempt (inodeMount c ino .file false) with
  | .error e => fail (if e = .eisdir then .eperm else e)
  | .ok ci =>
    if ci.node.nlink = 65535 then fail .emlink
    else do
      let p ← inodeBranch c p
      let ci ← inodeBranch c ci
      let _ ← runCi p (dirCreate c name ci.ino)
      let _ ← runCi ci (setNode fun n => { n with nlink := n.nlink + 1 })
      pure ()

/-- `RedCoreLink`, core.c:786-824. -/
def coreLink (pino : Nat) (name : List Ch) (ino : Nat) : VM Unit := modifyingOp .link (coreLinkSub c pino name ino)

/-- `CoreUnlink`, core.c:1028-1107. -/
def coreUnlinkSub (pino : Nat) (name : List Ch) : VM Unit := rwOp do
  let p ← inodeMount c pino .dir false
  let (r, p) ← runCi p (dirLookup c name)
  match r with
  | .missing _ => fail .enoent
  | .found idx ino => do
    let p ← inodeBranch c p
    let ci ← inodeMount c ino .either false
    if ci.dir = true ∧ 0 < ci.node.size then fail .enotempty
    else do
      setUseReserved c true
      let (r, _) ← onCi p (dirDelete c idx)
      setUseReserved c false
      ofExcept r
      criticalAssert (inodeLinkDec c ci)

/-- `RedCoreUnlink`, core.c:965-1002. -/
def coreUnlink (pino : Nat) (name : List Ch) : VM Unit := modifyingOp .unlink (coreUnlinkSub c pino name)

/-- `RedCoreLookup`, core.c:1130-1157. -/
def coreLookup (pino : Nat) (name : List Ch) : VM Nat := whenMounted do
  let p ← inodeMount c pino .dir false
  let (r, _) ← runCi p (dirLookup c name)
  match r with
  | .missing _ => fail .enoent
  | .found _ ino => pure ino

/-- `CoreRename`, core.c:1296-1383. -/
def coreRenameSub (srcP : Nat) (srcName : List Ch) (dstP : Nat) (dstName : List Ch) : VM Unit := rwOp do
  let sp ← inodeMount c srcP .dir true
  let dp ← if srcP = dstP then pure none else do
    let dp ← inodeMount c dstP .dir true
    pure (some dp)
  match ← dirRename c ⟨sp, dp⟩ srcName dstName with
  | none => pure ()
  | some dst => criticalAssert (inodeLinkDec c dst)

/-- `RedCoreRename`, core.c:1218-1257. -/
def coreRename (srcP : Nat) (srcName : List Ch) (dstP : Nat) (dstName : List Ch) : VM Unit :=
  modifyingOp .rename (coreRenameSub c srcP srcName dstP dstName)

/-- `RedCoreDirRead`, core.c:1833-1870: the new position, and the name and inode of the entry
(`none` is ENOENT). -/
def coreDirRead (ino pos : Nat) : VM (Nat × Option (List Ch × Nat)) := whenMounted do
  let v ← get
  let ci ← inodeMount c ino .dir false
  let (r, ci) ← runCi ci (dirRead c pos)
  if c.atime = true ∧ v.readOnly = false ∧ r.2.isSome = true then do
    let _ ← inodeBranch c ci
    pure r
  else pure r

/-- `RedCoreDirParent`, core.c:1889-1920. -/
def coreDirParent (ino : Nat) : VM Nat := whenMounted do
  if ino = 2 then pure 0
  else do
    let ci ← inodeMount c ino .dir false
    pure ci.node.pinode

/-- `RedCoreVolTransact`, core.c:371-389. -/
def coreVolTransact : VM Unit := whenRw volTransact

/-- `RedCoreVolRollback`, core.c:405-423. -/
def coreVolRollback : VM Unit := whenRw (volRollback c)

end RedFs
