# Formal model of Reliance Edge in Lean 4 - design

Source modelled: `/repo` (datalightinc/reliance-edge, GPL kit).  The model lives
in `lean/Verif/`; the property list is `properties.jsonl`; the map from
properties to theorems is `MANIFEST.json`; the seeded-bug log is
`seeded/LOG.jsonl`.

## 1. Approach

The C code is transcribed function by function into total, computable Lean
functions.  A C function returning `REDSTATUS` and mutating globals becomes a
function in a state+error monad whose state survives an error (as C globals do).
Configuration macros (`REDCONF_*`, block size, pointer counts, ...) become fields
of a configuration structure, so every theorem holds for every configuration
that satisfies the checks of `redconfigchk.h` quoted in its hypotheses.

Layers (each layer is proved to implement the interface the next one uses):

| layer | files modelled | Lean modules | result |
|---|---|---|---|
| U utilities | util/bitmap.c, endian.c, crc.c, memory.c, string.c, namelen.c | `Bitmap`, `Endian`, `Crc`, `Mem`, `Str` | refinement of mathematical functions |
| B block cache | core/driver/buffer.c | `Buffer*` | the cache refines a plain block map; dirty data is never lost, referenced buffers never recycled |
| I/O | core/driver/blockio.c, bdev/bdev.c | `BlockIo`, `Device` | sector arithmetic, retries |
| G geometry | volume.c:RedVolInitGeometry, imapextern.c, inode.c block arithmetic | `Geometry` | regions disjoint and covering |
| A allocator | imap.c, imapinline.c, imapextern.c | `Imap*` | the two on-disk imap forms refine two bit functions (working / committed) |
| V volume | volume.c, format.c | `Volume*` | transact, mount, rollback, format, crash model |
| D inode data | inode.c, inodedata.c | `Inode*`, `Data*` | a file refines a byte array; copy-on-write; ownership of blocks |
| N namespace | dir.c, core.c | `Dir*`, `Core*` | a directory refines a map; link counts; tree |
| S system | core.c entry points, format.c, power losses | `Exec`, `Spec/System`, `Refine` | every history of calls and crashes refines an abstract file system with a committed copy |
| P API | posix/posix.c, posix/path.c, fse/fse.c | `Path`, `Posix*`, `Fse` | descriptors, offsets, paths, volume prefix, tasks, crash atomicity |
| T tasks | PosixEnter/PosixLeave/TaskRegister/errno with the mutex | `Concurrent`, `Linear*` | linearizability for every schedule |

### Crash model

The volume state carries `blk` (contents of every block as seen through the
cache) and `dirty` (blocks written since the last device flush).  A *crash image*
of a state is any disk that agrees with `blk` on every block that is not dirty;
dirty blocks hold **arbitrary** contents.  This covers loss, reordering and
tearing of every unflushed write.  The only exception is the metaroot block
being written by the commit itself: a torn metaroot is assumed to be the old
contents, the new contents, or contents rejected by the validity check (this is
the assumption the CRC design rests on; it is an explicit hypothesis of the
theorems which need it and is not hidden in the model).

### Specification style

Specifications are small, separate definitions (byte arrays as functions, name
maps as functions, sets of blocks), which do not call model helpers.  Property theorems live in `Verif/Props/*.lean`, helper lemmas elsewhere.
Each property theorem has `example`s beside it showing that its hypotheses are met by a concrete state.

## 2. Plan per property

| id | modelled | proof |
|---|---|---|
| C01 | volume + allocator + inode layers with crash images | invariant: dirty blocks are disjoint from committed blocks; then mount of any crash image computes the committed state |
| C02 | same | invariant over all operations |
| C03 | RedVolTransact step by step | corollary of C01 after the flush/commit steps |
| C04 | RedVolRollback | rollback is a mount of an image agreeing outside dirty |
| C05 | RedVolFormat as a list of writes and flushes over arbitrary old contents | induction over the write prefix |
| C06 | RedVolMountMetaroot, MetarootIsValid | case analysis over arbitrary block pairs |
| C07 | BufferIsValid, RedCrcNode | linearity and injectivity of the CRC step |
| C08 | all three CRC builds, tables included | induction over bytes; table lemma for all 256 bytes by kernel evaluation |
| C09 | same | induction |
| C10-C13 | inodedata.c | refinement to byte arrays, induction over blocks |
| C14-C16 | imap.c, imapinline.c, imapextern.c | invariant + search completeness by induction |
| C17 | reserve computations | invariant free+almost-free >= reserve |
| C18, C42 | core.c wrappers | case analysis for all outcomes |
| C19-C24 | dir.c, core.c | refinement to maps, induction over entries / ancestors |
| C25, C26 | core.c wrappers | case analysis over every entry point |
| C27, C28 | buffer.c | invariant + refinement |
| C29-C32 | posix.c handles | bit arithmetic for all descriptors, invariant over histories |
| C33, C34 | path.c | induction over strings |
| C35 | endian.c | bit-vector identities for all values |
| C36 | geometry | arithmetic for all parameters |
| C37 | blockio.c | arithmetic; induction over retries |
| C38, C39 | util | induction |
| C40, C41 | inode.c | search lemma; invariant |
| C43 | posix.c task slots and mutex | interleaving semantics, invariant |
| C44 | SeekCoord, size macros | arithmetic for all configurations |
| C45 | fse.c on top of the core model | trace refinement to an array of byte lists with a committed copy (Spec/Fse) |
| C47 | buffer.c with failing devices | a block with nothing waiting and not marked stays as it is: invariant over all cache operations |
| C48 | nodes as bytes, loads and stores of either byte order, BufferEndianSwap*, BufferFinalize, BufferIsValid, metaroots | swapping mirrors disjoint members; numbers in the device's order determine the bytes |
| C49 | C46 layer; sequences of calls and power losses with the states visited | what is on the disk is always a state the volume was in since the commit: induction over the sequence; what each event commits: a clause added to the C46 layer |
| C46 | posix.c on top of the core model | per call: how the history of device writes grows (`Evo`), then C01's recovery lemma per volume |
| C50 | posix.c on the core model; `documented`: the list of errors in the comment of each function | case analysis of the specification of each call; the error lists of path walking, core calls |
| C51 | C46 layer; `Unaltered` compares the states | case analysis of the specification of each call that returns an error; what is on the disk: the events of the call (C46 layer) |
| C52 | posix.c red_getcwd, red_chdir; `PathOf`: the names from the root | a directory has one name and one parent (C20), so the path is unique; following it: induction on the path |
| C53 | `Model/Fault.lean`: the commit with an error at any of its device operations, and all calls that commit. Proof: the epochs of the failed commit are epochs of the successful one (C01), or the epoch before it. |
| C54 | `Model/Device.lean`: bdev.c, blockio.c and when volume.c, core.c, format.c open and close the device, over an arbitrary operating system driver. Proof: invariant over all histories; the geometry found on mounting bounds all requests. |
| C55 | Which blocks of a file have space (`Spec/Blocks.lean`), from the calls alone. Proof: every operation keeps the block pointers of files it does not write (field `reg` of the effect of an operation), write and truncate change exactly those the specification says, a commit changes none; induction over the history. |
| C56 | Upper bound of the blocks a write takes (`Spec/Space.lean`). Proof: cost accounting through the write loop (`Lemmas/Cost.lean`, `WriteLoop`): when it stops for lack of space, fewer blocks are free than the distinct positions on the paths to the blocks to be written; counting these positions gives the formula. |
| C57 | The cost of writing one entry (`write_one`: at most six blocks) is carried through `dirEntryWrite`, `dirCreate`, `renameMove` and the core operations as a second result of their specifications (`OpSpecN`), and a lack of space is traced back to a full directory or to the free block count. |
| C58 | A specification of the bytes written for each typed block and a reader on bytes that uses only the format (Spec/Image); the reader is shown to follow the same metaroot, imap bits, inodes, pointers and data blocks by induction over tree positions, from C48 and from the invariant, which gains "leaf blocks hold data" (through write, truncate and directory operations). |
| C59 | A second model of imap, inode, data, directory and core code on a device whose n-th operation fails or not, arbitrarily (Model/Io, IoData, IoDir). Every function is related to the one on a working device: it does the same, or it fails with the volume read-only, an error that the caller passes on, and only blocks changed that are not part of the committed state (Lemmas/Io*); so the committed state is still found by the recovery theorem. A simulation gives the histories (Spec/Io, Lemmas/IoRun). |
| C60 | A model of who holds which buffer (Model/Refs): every function of imap, inode, inodedata, dir, core, format and mount with its control flow, its buffer pointers and its local CINODE variables (uninitialised ones included); decisions on data come from an arbitrary list. An invariant bounds how many buffers each CINODE holds (a capacity per variable, Lemmas/Refs*); each function is shown to keep or change the capacities, and their sum plus one imap buffer stays within MINIMUM_BUFFER_COUNT. That EBUSY arises only from a shortage is a second pass over all functions (Lemmas/RefsBusy). |
| C61 | inodedata.c, dir.c, inode.c, imapextern.c and header constants with 16/32/64-bit words | exact values of all words, from the limits of Conf.Ok; simulation for the whole read and write functions |
| C62 | all calls of core.c with RedInodePut, its update flags and the clock, on the volume model | marks of each call up to the attempts that failed; invariant (unbranched: working = committed stamps) over all histories |
| C63 | posix.c on any number of volumes (existing model) | noninterference: every call commutes with replacing a volume it is not about; combinators for each primitive that reads or sets the current volume |
| C64 | dir.c: RedDirEntryLookup, RedDirEntryRead, RedDirEntryDelete with uint32_t counters (Model/WordsDir) | simulation of the unbounded loops, and for arbitrary disks a bound on the blocks visited; the wrap of the counter for the negative part |
| C65 | inodedata.c: RedInodeDataTruncate and the functions below it with 16/32/64-bit words (Model/WordsTrunc) | simulation; an invariant of the loop of TruncDindir (round d is at indirect node Q0 + d) shows which sums can wrap |
| C66 | Errors of the calls of the core, with the lists copied from the comments of core.c (Spec/CoreErrors) | from the specification that C01 and C59 show the calls to refine, by cases |

## 3. Trusted base

* Lean 4.33.0 kernel; axioms allowed: `propext`, `Classical.choice`,
  `Quot.sound` (checked with `#print axioms`).  No other axioms, no compiled
  evaluation.
* The transcription from C to Lean (citations at each definition).
* The crash model above.

Details of what is modelled and what is not are in section 5, findings about the
code in section 4.  Both are kept current as the model grows.

## 4. Findings (places where the code and the English claim, or the documentation, disagree)

Each is a result of the proofs: the theorem would not go through without the
side condition named here.  "Witness" means a Lean theorem exhibiting it.

1. `REDCONF_NAME_MAX` may be as large as block size - 4; then one directory entry
   fills a whole block, `DirEntryWrite` becomes an aligned whole-block write whose
   source is the referenced buffer of that block, `RedBufferDiscardRange` returns
   `EBUSY`, which is a critical error: the volume turns read-only.
   Theorems on directories assume the entry is smaller than a block (`Conf.Ok`).
2. `RedCoreRename` calls `RedInodePut(&SrcPInode)` on an uninitialised structure
   when mounting the source parent fails.
3. The sparse-block branch of `RedDirEntryDelete`/`RedDirEntryLookup` overshoots the
   end of the directory; unreachable, because directories are never sparse
   (part of the directory invariant).
4. `fBranched` is not reset by an unmount without transaction followed by a mount:
   the next transaction may be redundant (harmless; theorems allow it).
5. `RedVolRollback` lowers the sequence number; the proof of C06 needs, and shows,
   that the other metaroot is still older.
6. POSIX layer: `red_umount2` with FORCE closes the handles even if the unmount
   then fails; `DirStreamIsValid` has no generation check, so a stale `REDDIR *` is
   accepted once its slot is reused; the generation in a descriptor wraps after
   2047 mounts (C29 carries this as a hypothesis); `red_open` on a read-only volume
   rejects RDONLY|APPEND with EROFS; renaming an open file onto itself gives EBUSY;
   `FildesOpen` tests the read-only flag before the mounted flag.
7. Nothing checks that the number of imap nodes fits in the metaroot
   (witness `C36_imap_nodes_exceed_metaroot`).
8. `ulInodeCount * 2U` wraps in `RedVolInitGeometry` for huge inode counts
   (witness `C36_inode_count_wraps`).
9. The free-block searches never terminate when no block is free; only the
   counter `ulFreeBlocks` guards them (hence C14 and C16 are one invariant).
10. `RedVolFormat` does not reset `ulAlmostFreeBlocks`: after formatting a volume
    that was unmounted with almost-free blocks, the free count is too large, which
    breaks C14 until the next mount (witness `RedFs.Props.Format.C05_format_overcounts`).
11. The FSE inode-creation loop of `RedVolFormat` goes on after an error.
12. `bBlockIoRetries = 255` makes the retry loop infinite on a persistent
    failure (witness `C37_retries_255_hangs`).
13. `VOLUME_SECTOR_RANGE_IS_VALID` accepts a start beyond the limit (unsigned
    wrap); unreachable from block-aligned requests (C37).
14. The assertion `ullOffset < INODE_SIZE_MAX` in `DirOffsetToEntryIndex` is off by
    one for a full directory (assertion builds only).
15. `RedDirEntryRename` checks "." and ".." before the name length (matters only
    for NAME_MAX == 1).
16. The comment of `RedCoreTransMaskGet` says the mask is zero if the volume is
    read-only; that holds only in REDCONF_READ_ONLY builds.
17. Renaming a directory below itself into a full directory gives ENOSPC instead
    of EINVAL.
18. Trailing separators after the name of a regular file are accepted.
19. `red_open` with CREAT of an existing file fails with ENFILE when all inodes are
    in use, because the inode is allocated before the name is looked up.
20. A failing append-mode write still moves the offset to the end of the file (witness `C51_append_moves`).
21. `gfPosixInited` (and `gfFseInited`) is read outside the mutex; the concurrency theorems exclude
    a concurrent `red_uninit`.  Unregistered tasks (EUSERS) share one errno.
22. In a build with REDCONF_ENDIAN_SWAP, if the flush before the metaroot is written
    fails, `RedVolTransact` leaves the metaroot in memory in the byte order of the
    device: statvfs then reports swapped numbers
    (witness `RedFs.Props.Swap.C48_failed_flush_leaves_swapped`).
23. Errors returned that the comments of posix.c do not list: EROFS from `red_unlink`, `red_fsync` and
    `red_settransmask` on a read-only volume, ENFILE from `red_mkdir`, ENAMETOOLONG from `red_opendir`,
    EUSERS from `red_uninit`, and EINVAL from calls made before `red_init` (`C50_undocumented` shows each occurs).
24. `red_getcwd` returns a path that leads to another volume if a directory has the name of a volume: with
    volumes "" and "/m", a task in directory "m" of the first one (reached by a relative path) gets "/m"
    (witness `C52_shadowed`).
25. **A failed commit.** (a) If the device flush *after* the metaroot write fails, the volume becomes read-only, but it can be unmounted and mounted again at once. `RedVolMount` does not flush the device, so the metaroot whose flush failed may still be lost in a power failure, while the blocks of the old state are already being reused; `C53_used_again` is a history that ends with a corrupt volume. After an `EIO` of a commit the system must be restarted (or the device flushed) before the volume is written again. (b) By reading: in a build with `REDCONF_ENDIAN_SWAP`, if the *first* flush fails (volume.c:572) `gpRedMR` is left byte-swapped (the swap back is at volume.c:580, inside the `if` of the metaroot write), so that `red_statvfs` on the volume, now read-only, reports byte-swapped numbers of free blocks and inodes. (c) If the automatic commit after an operation fails, the call returns `EIO` although the operation has been done and is seen by later calls.
26. **Sector count given, sector size automatic.** include/redvolume.h:54 calls `ullSectorCount` "the number of sectors in this file system volume", and include/redmacs.h:183 says that a larger device is not an error. Both are so only if `ulSectorSize` is given too. If it is automatic, a device with another number of sectors is refused (`EINVAL`, bdev.c:80) even if the volume fits, and on a device with exactly that number the volume gets `ullSectorCount - ullSectorOffset` sectors (bdev.c:109): `C54_partly_auto`. (By reading: format.c:168-179, the loop that creates the FSE inodes, goes on after an error, so that a later success hides it.)
27. **Short write although a transaction would make room.** With `RED_TRANSACT_VOLFULL` enabled, `RedCoreFileWrite` (core.c:1614-1626) commits and tries again only if the first attempt returned `-RED_ENOSPC`. If the first attempt stored some bytes before it ran out of free blocks, the short count is returned, and almost free blocks are not reclaimed: `C56_short_count_with_volfull`. The caller's next write gets the space.
28. **A commit on a read-only volume after a device error.** If `CoreCreate` (core.c:687-746) cannot create the directory entry for lack of space and then `RedInodeFree` fails with a device error, it makes the volume read-only (`CRITICAL_ASSERT(ret2 == 0)`) but returns `-RED_ENOSPC`. With `RED_TRANSACT_VOLFULL` enabled and almost-free blocks, `RedCoreCreate` takes this as a full volume and calls `RedVolTransact`, whose precondition `REDASSERT(!gpRedVolume->fReadOnly)` (volume.c:626) is violated: with assertions this stops, without them the half-done state is committed - an allocated inode without a directory entry, whose block was never written - and the call returns `-RED_EROFS`. The inode slot is lost for good: `C59_orphan`. The fix is to return the error of `RedInodeFree`, or to test `fReadOnly` before committing.
29. **Rename releases an uninitialised inode if the source parent's number is invalid.** `CoreRename` (core.c:1296-1383) calls `RedInodePut(&SrcPInode, ..)` also when `RedInodeMount(&SrcPInode, ..)` failed. That is harmless for most failures, but for an inode number outside the valid range `RedInodeMount` returns `-RED_EBADF` before it has cleared the structure, so `RedInodePut` looks at uninitialised pointers on the stack and gives them to `RedBufferPut`: `C60_rename_bad_parent`. It is reachable from the POSIX API on a damaged medium: directory blocks have no checksum, and for `red_rename("/d/x", "/y")` `RedPathToName` (path.c:397-520) returns the inode number stored in the entry of `d` without mounting it, which `red_rename` (posix.c:1370-1402) hands to `RedCoreRename`; so a directory entry with a number out of range leads to wild pointers instead of `-RED_EBADF`. The fix is to move the last `RedInodePut` into the branch where the mount succeeded.
30. **A rename that replaces one name of a file with several does not update the change time of that file.** `CoreUnlink` passes `IPUT_UPDATE_CTIME` for the inode that loses a name (core.c:1098), but `CoreRename` releases the inode it replaces with `RedInodePut(&DstInode, 0U)` (core.c:1367) although `RedInodeLinkDec` has lowered its link count: `C62_replaced`. POSIX asks for the change time to be marked when a link count changes. Also `red_write` of zero bytes succeeds and updates the modification and change times (core.c:1680-1682; `C62_stamps` has no condition on the length), where POSIX says it shall have no other results. Neither loses data; backup programs that go by the times would see one file too few and some too many.
31. **A directory read from a damaged or hostile image can make a lookup never return** (dir.c:421-431, 571-575). Over a hole the loops add `DIRENTS_PER_BLOCK` to a `uint32_t`. With the Linux, Win32 and U-Boot project configurations (4096-byte blocks, 12-byte names, 256 entries per block) an inode size of 2^36 - 16 gives 2^32 - 1 entries, and the counter goes from 2^32 - 256 to 0. Inode sizes are not checked at mount and the directory functions do not compare the size with `DIRENTS_MAX`. `C64_hangs_witness`. In the same family, extending finding 3: a directory without blocks whose last block is incomplete makes every lookup succeed with `*pulInode` never assigned, since dir.c:450 compares `ulIdx == ulDirentCount` (`C64_lookup_unset`).
32. **The comments of core.c do not list all errors.** `RedCoreLookup` (core.c:1123-1128) does not list `ENAMETOOLONG`, which dir.c:359 returns: `C66_undocumented`. `RedCoreRename` (core.c:1204-1206) says that an empty name gives `ENOENT`; it gives `EINVAL` (dir.c:355): `C66_empty_name`. All other lists are complete: `C66_documented`.

## 5. Coverage

### Modelled

| file | functions | Lean |
|---|---|---|
| util/bitmap.c, endian.c, memory.c, string.c, namelen.c | all | Model/Bitmap, Endian, Mem, Str |
| util/crc.c | the bitwise, byte-table and slicing-by-8 builds, tables included; RedCrcNode | Model/Crc, CrcTables |
| core/driver/blockio.c | RedIoRead, RedIoWrite, RedIoFlush | Model/BlockIo |
| core/driver/buffer.c | BufferFind, RedBufferGet, Put, Flush, Dirty, Branch, Discard, DiscardRange, BufferMakeLRU/MRU, BufferIsValid, BufferFinalize | Model/Buffer |
| core/driver/buffer.c, volume.c, dir.c with REDCONF_ENDIAN_SWAP | BufferEndianSwap*, MetaRootEndianSwap, BufferFinalize, BufferIsValid, MetarootIsValid, the metaroot part of RedVolTransact | Model/Swap |
| core/driver/volume.c | RedVolInitGeometry, RedVolMount, MountMaster, MountMetaroot, RedVolTransact, RedVolRollback, RedVolCriticalError, RedVolSeqNumIncrement | Model/Geometry, Volume |
| core/driver/imap*.c | all | Model/Imap |
| core/driver/inode.c | mount, branch, create, delete, link-count, free, data seek, free-slot search, bit get/set | Model/Inode, Link |
| core/driver/inodedata.c | all: read, write, truncate, seek, branch, expand | Model/Data |
| core/driver/dir.c | all | Model/Dir; the loops with 32-bit counters in Model/WordsDir, truncation and whole-block loops of inodedata.c with words in Model/WordsTrunc, WordsRun |
| core/driver/core.c | all entry points | Model/CoreFile, CoreDir, Exec |
| core/driver/format.c | RedVolFormat | Model/Format |
| posix/path.c, posix/posix.c | all red_* calls and helpers | Model/Path, Posix; tasks and mutex again in Model/Concurrent |
| fse/fse.c | all | Model/Fse |
| core/driver/imap*.c, inode.c, inodedata.c, dir.c, core.c again, with a device operation that may fail wherever the code touches the device | all of the core layer | Model/Io, IoData, IoDir (C59); commits: Model/Fault (C53) |
| core/driver/blockio.c, volume.c (sector range, open and close of the device) | every device call of a session | Model/Device (C54) |
| core/driver/inodedata.c, dir.c, inode.c, core.c: RedBufferGet/Put/Discard calls | all calls, each decision free | Model/Refs (C60) |
| core/driver/inodedata.c, dir.c, inode.c, imapextern.c, redcoremacs.h, redmacs.h: arithmetic in 16, 32 and 64 bits | read, write, seek, truncate steps, directory offsets, places | Model/Words (C61) |
| core/driver/core.c, inode.c (RedInodePut, RedInodeCreate): time stamps | all calls, RedCoreStat | Model/Times (C62) |

### Simplifications

Core layer
* Blocks are typed values (master, metaroot, imap node, inode, indirect, double
  indirect, data); signature, CRC and byte order of a node are the subject of
  C07-C09 and C35, not of the core model.  Reading a block whose type or validity
  check fails gives the error of BufferIsValid.  The byte representation is in Model/Swap
  (C48); C58 connects the two: the bytes written for the typed blocks of a state give
  its files back.
* No device I/O errors in Model/Imap..CoreDir; the same functions with device errors at
  every operation are in Model/Io, IoData, IoDir (C59), errors of commits in Model/Fault
  (C53), of the buffer cache and the device layer in Model/Buffer, BlockIo and Device.
* Natural numbers instead of 16/32/64-bit integers in the core layer; C61 (Model/Words) shows that the
  computations of offsets, block numbers, entries and places do not wrap.  The sequence number does
  not wrap (it is a 64-bit counter of transactions).
* No timestamps in the core model; Model/Times (C62) is the core model with them, without power loss and device errors. st_blocks is not part of the abstract file (it is counted in C14).
* Reference counts of buffers are not in the core layer, except for the EBUSY case
  of finding 1; they are in Model/Refs (C60), for all calls.  Buffer model: native byte order, counts
  do not wrap at 256 (by C60 a call holds at most the minimum number of buffers).
* In-memory leftovers that the code never reads (metaroot copies after a failed mount,
  pointers after a failed branch) are left unspecified or unchanged.
* The contents of a block that was never written (`stale`) are arbitrary but fixed.
* Builds: REDCONF_READ_ONLY == 0; all optional POSIX calls compiled in;
  RED_MOUNT_DISCARD not available (commercial kit only).
* Format: device open/close/geometry left out; `hist` (ghost) restarts; format needs
  almostFree = 0 (finding 10) where the free count matters.
* After a power loss all run-time variables are arbitrary except those that the C
  start-up zeroes.  A torn master block or metaroot is old, new or invalid.
* A transaction with nothing changed is invisible in `commits`.

POSIX and FSE
* NULL pointers are not modelled; the buffer contents of getcwd are the
  returned string; `REDDIR *` is the index of its handle; the dirent is returned, not stored.
* RedCoreInit succeeds (the configuration satisfies the checks it makes).
* C46 leaves out red_format (crash during format: C05, at the level of the core).
* FSE volumes are always mounted with RED_MOUNT_DEFAULT; each call is one step.

Tasks
* The mutex works; red_init/red_uninit do not run concurrently with other calls;
  steps inside the mutex do not touch the errno fields, `gfPosixInited` or take away
  slots (hypotheses `Impl`), and the model of each call satisfies them (`Neutral`).

### Not modelled

os/ (board support; for C54 an arbitrary driver), tools/ and tests/, output and assertion
handling (a failed assertion is shown unreachable where it guards memory), volume
statistics other than blocks and inodes, RedSignOn, discard.
