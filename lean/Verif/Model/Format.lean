import Verif.Model.Inode
/-!
Formatting a volume: core/driver/format.c.

Simplifications: opening and closing the device and computing the geometry (modelled in
`Model/Geometry.lean`) are left out; the device never reports an I/O error.
-/
namespace RedFs
open M Bitmap

variable (c : Conf)

/-- The loop of format.c:107-118: a zeroed, dirty map node in each of the `n` blocks from `b` on. -/
def formatMap : Nat → Nat → VM Unit
  | 0, _ => pure ()
  | n + 1, b => do
    modify (·.write b (.imap fun _ => 0))
    formatMap n (b + 1)

/-- The loop of format.c:168-179: `n` empty files from inode `i` on.  In C the loop goes on after an
error, which is then lost (see DESIGN.md, findings); without I/O errors there is none. -/
def formatFiles : Nat → Nat → VM Unit
  | 0, _ => pure ()
  | n + 1, i => do
    let _ ← inodeCreate c i 0 modeReg
    formatFiles n (i + 1)

/-- The contents of the new metaroot, format.c:126-132. -/
def formatMr : Metaroot := ⟨0, c.allocable, c.inodeCount, c.firstAlloc, fun _ => 0⟩

/-- The contents of the master block, format.c:199-220, written with sequence number `s`. -/
def formatMaster (s : Nat) : Master :=
  ⟨s, c.inodeCount, c.blockCount, c.nameMax, c.direct, c.indirect, c.blockSize, c.posix, c.timestamps, c.inodeBlocks⟩

/-- The map nodes, format.c:95-120. -/
def formatMaps : VM Unit := if c.inline then pure () else formatMap (c.nodeCount * 2) c.imapStart

/-- `RedVolFormat`, format.c:61-141: the master block is wiped and the empty map is committed.
`RedBufferDiscard` at line 86 drops a buffer that has been written out already, and has no effect at
this level.  In an FSE build the metaroot has no count of free inodes; the model keeps one in both
builds. -/
def formatStart : VM Unit := do
  modify fun v => { v with readOnly := false }
  modify (·.write 0 (.data fun _ => 0))
  modify (·.flush none)
  formatMaps c
  modify fun v => { v.setWork (formatMr c) with branched := true }
  volTransact

/-- The first files, format.c:143-181. -/
def formatTree : VM Unit :=
  if c.posix then do
    let _ ← inodeCreate c 2 0 modeDir
    pure ()
  else formatFiles c c.inodeCount c.firstFreeInode

/-- The new master block, format.c:192-252; it takes a sequence number when it is written out. -/
def formatEnd : VM Unit := do
  modify fun v => { v.write 0 (.master (formatMaster c v.seq)) with seq := v.seq + 1 }
  modify (·.flush none)
  modify Vol.discardAll

/-- `RedVolFormat`, format.c:44-255. -/
def volFormat : VM Unit := do
  let v ← get
  if v.mounted then fail .ebusy
  else do
    formatStart c
    formatTree c
    volTransact
    formatEnd c

end RedFs
