import json
P=[]
def p(title,statement,quant,why,anchors):
    P.append(dict(id="C%02d"%(len(P)+1),title=title,statement=statement,quantifier=quant,why_tests_cant=why,anchors=anchors))
p("Power loss never loses the last transaction point",
 "If power fails at any moment after a volume was mounted, the next mount sees exactly the file system state of the last completed transaction, or, only if power failed while a transaction was being committed, the state that transaction was committing. It never sees a mixture.",
 "every history of file system operations, every crash point in it, and every way the unflushed block writes can be lost, reordered or torn",
 "The number of crash images is exponential in the number of outstanding writes and the histories are unbounded; a test only ever samples a few crash points.",
 ["core/driver/volume.c:RedVolTransact","core/driver/volume.c:RedVolMountMetaroot","core/driver/imap.c:RedImapBlockSet","core/driver/buffer.c:RedBufferBranch"])
p("Nothing in use by the committed state is overwritten before the next commit",
 "Between two transaction points no operation writes to a disk block that belongs to the last committed state (its data blocks, metadata blocks, inode blocks, imap blocks and its metaroot).",
 "every reachable volume state, every operation and every block number",
 "A violation is invisible unless power fails in the right window; a test must hit both the block and the crash.",
 ["core/driver/imap.c:RedImapAllocBlock","core/driver/inode.c:InodeBranch","core/driver/inodedata.c:BranchOneBlock","core/driver/imapextern.c:ImapNodeBranch"])
p("red_transact makes everything durable",
 "When red_transact (or an automatic transaction) reports success, every change made before the call survives every later power loss.",
 "every state before the transaction, every later history without a further commit, every crash image",
 "Durability is a statement about all futures and all crash images.",
 ["core/driver/volume.c:RedVolTransact","core/driver/core.c:RedCoreVolTransact"])
p("Rollback restores the last transaction point exactly",
 "After a successful red_rollback the contents of the volume (files, directories, free space) are those of the last transaction point, whatever was done since.",
 "every reachable state and every sequence of uncommitted operations",
 "The discarded work is an arbitrary unbounded sequence of operations.",
 ["core/driver/volume.c:RedVolRollback","core/driver/core.c:RedCoreVolRollback","core/driver/buffer.c:RedBufferDiscardRange"])
p("An interrupted format never leaves a mountable half-formatted volume",
 "If formatting is interrupted at any point, mounting the volume either fails, sees a completely formatted volume, or (only if power failed before the format's first flush completed) sees the old volume untouched; it never mounts the old contents under the new structures or a partly formatted volume.",
 "every prior disk contents, every crash point of the format, every subset of unflushed writes",
 "Prior disk contents are arbitrary and the crash points times write subsets are exponential.",
 ["core/driver/format.c:RedVolFormat","core/driver/volume.c:RedVolMountMaster"])
p("Mount selects the newest valid metaroot",
 "Mount uses the valid metaroot with the greater sequence number; if one of the two is damaged (for example by a torn write) it uses the other one, and if neither is valid mount fails with EIO without modifying the disk.",
 "every pair of metaroot block contents",
 "The pair of block contents ranges over all byte strings of block size; damaged blocks are arbitrary.",
 ["core/driver/volume.c:RedVolMountMetaroot","core/driver/volume.c:MetarootIsValid"])
p("Damaged metadata is reported, not used",
 "A metadata block whose signature is wrong, whose CRC does not match or whose sequence number is from the future is never handed to the file system: the operation fails with EIO. Any change to a valid node that is confined to 32 consecutive bits of the checksummed part (everything after the 8-byte signature and CRC fields), or to those 8 bytes, is detected.",
 "every block content, every position and every pattern of the damaged 32-bit window",
 "The damage patterns times block contents are far beyond enumeration (2^32 patterns times all block contents).",
 ["core/driver/buffer.c:BufferIsValid","core/driver/volume.c:MetarootIsValid","util/crc.c:RedCrcNode"])
p("The three CRC implementations are interchangeable",
 "The bitwise, Sarwate and slice-by-8 CRC builds compute the same CRC for every buffer and every starting value, so a volume written by one build is accepted by any other.",
 "every byte string of every length and every 32-bit initial value",
 "Infinitely many inputs; table entries can be wrong for a single byte value.",
 ["util/crc.c:RedCrc32Update","include/redconfigchk.h"])
p("The CRC of a buffer may be computed piecewise",
 "Updating the CRC over one buffer and then over a second gives the CRC of the concatenation, for every split point; the metaroot sector CRC and the full CRC are consistent with this.",
 "every pair of byte strings and every initial value",
 "Infinitely many inputs and split points.",
 ["util/crc.c:RedCrc32Update","core/driver/volume.c:MetarootIsValid"])
p("Reads return what was last written",
 "Reading a file returns, for every byte below the end of file, the byte most recently written at that offset, or zero if none was written there since the file last had that offset; the number of bytes returned is exactly the requested length clipped at end of file.",
 "every sequence of writes and truncates with any offsets and lengths, then every read offset and length",
 "Offsets and lengths range over 64-bit/32-bit values and sequences are unbounded; the direct, indirect and double indirect cases only meet at rare boundaries.",
 ["core/driver/inodedata.c:RedInodeDataRead","core/driver/inodedata.c:RedInodeDataWrite","core/driver/inodedata.c:RedInodeDataSeek"])
p("Writing one file never changes another",
 "A write or truncate on one file leaves the contents, size and attributes of every other file and directory unchanged.",
 "every reachable volume state, every pair of distinct inodes, every write or truncate",
 "Needs every state in which two files could share a block.",
 ["core/driver/inodedata.c:RedInodeDataWrite","core/driver/imap.c:RedImapAllocBlock"])
p("Truncated data never reappears",
 "After a file is shrunk and then extended (by truncate or by writing past end of file), every byte between the old and the new end reads as zero; stale disk contents are never visible.",
 "every file state, every shrink size, every later extension",
 "The stale bytes depend on arbitrary previous block contents and on offsets inside blocks.",
 ["core/driver/inodedata.c:ExpandPrepare","core/driver/inodedata.c:Shrink","core/driver/inodedata.c:RedInodeDataTruncate"])
p("A short write is a clean prefix",
 "When the volume fills up during a write, the call reports the number of bytes written; exactly that prefix of the buffer is in the file and every other byte of the file is unchanged.",
 "every volume state, every write offset and length, every point at which space runs out",
 "The point at which space runs out depends on the whole allocation history.",
 ["core/driver/inodedata.c:RedInodeDataWrite","core/driver/inodedata.c:WriteAligned"])
p("Free space is accounted exactly",
 "The free block count reported by red_statvfs is derived from a counter that always equals the number of blocks which are free both in the working and in the committed state; no block is leaked and none is counted twice, across allocations, frees, transactions, rollbacks and remounts.",
 "every history of operations",
 "Counter drift shows up only after long specific histories.",
 ["core/driver/imap.c:RedImapBlockSet","core/driver/volume.c:RedVolTransact","core/driver/core.c:RedCoreVolStat"])
p("The allocator only hands out free blocks",
 "A newly allocated block is inside the allocable range, was free in the working state and is not part of the last committed state.",
 "every bitmap content, every allocation cursor and every volume geometry",
 "2^blocks bitmap states.",
 ["core/driver/imap.c:RedImapAllocBlock","core/driver/imapinline.c:RedImapIBlockFindFree","core/driver/imapextern.c:RedImapEBlockFindFree"])
p("The allocator finds a block whenever one exists",
 "Allocation succeeds whenever at least one block is free; ENOSPC is returned only if none is.",
 "every bitmap content, cursor and geometry",
 "The search wraps around and skips whole bytes; the failing patterns are isolated.",
 ["core/driver/imap.c:RedImapAllocBlock","core/driver/imapinline.c:RedImapIBlockFindFree"])
p("Files can always be deleted on a full volume",
 "Blocks are held in reserve so that deleting or shrinking a file never fails with ENOSPC right after a transaction point, however full the volume is.",
 "every reachable full volume and every file",
 "Needs every full-volume configuration of file shapes.",
 ["core/include/redcoremacs.h:RESERVED_BLOCKS","core/driver/core.c:CoreUnlink","core/driver/inodedata.c:FreeBlockCount"])
p("Disk-full retry policy",
 "With RED_TRANSACT_VOLFULL enabled, an operation that runs out of space is retried after exactly one transaction, and only if that transaction can free space; without it no hidden transaction occurs.",
 "every operation outcome, mask value and counter value",
 "Combination of mask bits, counters and inner results.",
 ["core/driver/core.c:RedCoreFileWrite","core/driver/core.c:RedCoreCreate","core/driver/core.c:RedCoreLink"])
p("A directory is a map from names to inodes",
 "Lookup after any sequence of create, link, unlink and rename returns the inode most recently bound to that name in that directory, or ENOENT; other names are unaffected.",
 "every sequence of directory operations and every name",
 "Unbounded sequences; slot reuse and truncation of the directory interact.",
 ["core/driver/dir.c:RedDirEntryLookup","core/driver/dir.c:RedDirEntryCreate","core/driver/dir.c:RedDirEntryDelete"])
p("readdir returns every entry exactly once",
 "Iterating a directory that is not modified returns each of its entries exactly once and then ends.",
 "every directory content",
 "Any pattern of holes left by deletions.",
 ["core/driver/dir.c:RedDirEntryRead","posix/posix.c:red_readdir"])
p("Names in a directory are unique and legal",
 "No sequence of operations creates an entry whose name is empty, longer than REDCONF_NAME_MAX, contains a path separator (when called through paths), is '.' or '..', or duplicates an existing entry of the directory.",
 "every sequence of operations with arbitrary names",
 "Arbitrary byte strings as names.",
 ["core/driver/dir.c:RedDirEntryCreate","util/namelen.c:RedNameLen","core/driver/core.c:CoreCreate"])
p("The directory tree stays a tree",
 "No sequence of operations makes a directory its own ancestor or detaches it from the root; renaming a directory below itself fails with EINVAL.",
 "every directory tree and every pair of rename arguments, any depth",
 "Unbounded depth.",
 ["core/driver/dir.c:DirCyclicRenameCheck","core/driver/core.c:CoreRename"])
p("Link counts equal the number of names",
 "The link count of every file equals the number of directory entries that refer to it, an inode is freed exactly when its last name is removed, and hard links cannot exceed the maximum (EMLINK).",
 "every history of create, link, unlink and rename",
 "Unbounded histories; an error in one path only shows after further unlinks.",
 ["core/driver/inode.c:RedInodeLinkDec","core/driver/core.c:CoreLink","core/driver/core.c:CoreUnlink"])
p("Rename is all or nothing",
 "A rename either makes the new name refer to the file and removes the old name (replacing an existing destination when atomic rename is enabled), or fails and leaves both names as they were, including when it fails with ENOSPC half way.",
 "every directory state and every pair of names",
 "The half-way failure depends on free space at one point.",
 ["core/driver/core.c:CoreRename","core/driver/dir.c:RedDirEntryDelete"])
p("A read-only volume is never modified",
 "On a volume mounted read-only (or made read-only by a critical error) every modifying call fails with EROFS and no call writes to the disk.",
 "every call with every argument and every state",
 "All calls times all states.",
 ["core/driver/core.c","core/driver/volume.c:RedVolCriticalError","core/driver/blockio.c:RedIoWrite"])
p("Calls on an unmounted volume fail cleanly",
 "Every file operation on a volume that is not mounted fails with EINVAL and changes nothing.",
 "every call with every argument",
 "All calls times all states.",
 ["core/driver/core.c"])
p("The block cache is invisible",
 "Whatever blocks are evicted or written back in whatever order, reading a block through the cache returns the last contents given to it; no modification is lost and no block is cached twice.",
 "every sequence of cache operations, every number of buffers and every victim choice",
 "Cache states are permutations times contents; eviction interleavings are unbounded.",
 ["core/driver/buffer.c:RedBufferGet","core/driver/buffer.c:BufferFind","core/driver/buffer.c:RedBufferFlushRange"])
p("A buffer in use is never recycled",
 "A buffer that is referenced is never evicted, reassigned or discarded until released; when every buffer is referenced the request fails with EBUSY.",
 "every sequence of get and put operations",
 "All interleavings of references.",
 ["core/driver/buffer.c:RedBufferGet","core/driver/buffer.c:RedBufferPut"])
p("File descriptors are unique, valid and die with the mount",
 "red_open returns descriptors that are at least 3 and distinct from every other open descriptor; a closed descriptor and a descriptor from an earlier mount are rejected with EBADF, for the next FD_GEN_MAX-1 mounts of that volume.",
 "every descriptor value, every history of open, close, mount and unmount",
 "2^31 descriptor values times unbounded histories.",
 ["posix/posix.c:FildesPack","posix/posix.c:FildesUnpack","posix/posix.c:FildesToHandle","posix/posix.c:red_mount2"])
p("An open file is never freed",
 "While a file or directory is open (or is a current working directory) it cannot be deleted by unlink, rmdir or a replacing rename: the call fails with EBUSY if it would remove the last link; so a handle always refers to an existing object on a mounted volume.",
 "every history of API calls",
 "Unbounded histories over many handles.",
 ["posix/posix.c:InodeUnlinkCheck","posix/posix.c:UnlinkSub","posix/posix.c:red_umount2","posix/posix.c:red_rollback"])
p("File offsets move as POSIX says",
 "red_read and red_write advance the offset by exactly the number of bytes returned; append mode writes at end of file; red_lseek yields the requested offset or EINVAL, without arithmetic overflow, never leaving an offset outside [0, maximum file size].",
 "every offset, length, whence and 64-bit seek displacement",
 "64-bit argument space including overflow boundaries.",
 ["posix/posix.c:red_lseek","posix/posix.c:red_read","posix/posix.c:red_write"])
p("Open modes are validated exactly as documented",
 "red_open accepts exactly the documented combinations of open mode bits and rejects all others with EINVAL; the handle permits reading and writing exactly as requested.",
 "every 32-bit mode value",
 "2^32 values.",
 ["posix/posix.c:red_open","posix/posix.c:FildesOpen"])
p("Paths resolve component by component",
 "A path is split at separators; leading, repeated and trailing separators do not matter. Resolving it equals looking up its components one after another from the starting directory (with current directories enabled, . and .. are the directory itself and its parent), and the first error is the result. After a successful mkdir, link or open-with-create the path resolves to the new object; after a successful unlink or rmdir it resolves to nothing.",
 "every path string and every directory tree",
 "Arbitrary strings.",
 ["posix/path.c:RedPathToName","posix/path.c:PathWalk","posix/path.c:RedPathLookup"])
p("Volume prefixes match unambiguously",
 "The volume selected for a path is the one with the longest prefix that matches whole path elements; if there is none the call fails with ENOENT.",
 "every configured set of prefixes and every path",
 "Arbitrary strings.",
 ["posix/path.c:RedPathVolumePrefixLookup"])
p("On-disk structures are independent of host byte order",
 "Byte swapping is an involution at every width, swapping a structure twice restores it, and the bytes written for a field are those of the on-disk byte order whatever the host order.",
 "every 16, 32 and 64-bit value",
 "2^64 values.",
 ["util/endian.c","core/driver/buffer.c:BufferEndianSwap","core/include/redcoremacs.h"])
p("The volume layout is sound",
 "For every geometry mount accepts (inode and block counts for which the 32-bit computations do not wrap and the imap nodes fit the metaroot's bitmap; the code does not check these two conditions) the master block, metaroots, imap nodes, inode blocks and allocable area are pairwise disjoint, ordered, cover the volume and lie inside it; each inode and each imap node has its own two blocks; the bitmaps are large enough for all their bits.",
 "every volume size, inode count and block size accepted by the initialization",
 "Unbounded parameter space, off-by-one at region borders.",
 ["core/driver/volume.c:RedVolInitGeometry","core/driver/imapextern.c:RedImapNodeBlock","core/driver/inode.c:InodeBlock"])
p("Block numbers map to the right sectors",
 "Reading or writing a run of blocks accesses exactly the corresponding run of sectors inside the volume's partition, never a sector outside it; failed transfers are retried at most the configured number of times (for a configured number below 255) and a reported success means the last attempt succeeded.",
 "every block number, count, sector size, sector offset and failure pattern",
 "64-bit sector arithmetic and arbitrary failure sequences.",
 ["core/driver/blockio.c:RedIoRead","core/driver/blockio.c:RedIoWrite","bdev/bdev.c"])
p("Bitmap primitives affect exactly one bit",
 "Setting or clearing bit i of a bitmap changes bit i and no other bit, reading returns the last value set, with the documented most-significant-first bit order.",
 "every bitmap and every pair of bit indices",
 "All bitmap contents and indices.",
 ["util/bitmap.c:RedBitSet","util/bitmap.c:RedBitClear","util/bitmap.c:RedBitGet"])
p("Memory and string primitives meet the C standard",
 "RedMemCpy, RedMemMove (including overlapping regions), RedMemSet, RedMemCmp, RedStrLen, RedStrCmp, RedStrNCmp and RedStrNCpy behave as their C standard counterparts.",
 "every length, alignment, overlap and content",
 "The word-at-a-time paths depend on alignment and length; overlaps are unbounded.",
 ["util/memory.c","util/string.c"])
p("Inode numbers are allocated uniquely",
 "A newly created file gets the lowest free inode number, in range, not used by any existing file; creation fails with ENFILE exactly when no inode is free; the free inode count reported equals the number of free inodes.",
 "every set of allocated inodes",
 "2^inodes states.",
 ["core/driver/inode.c:RedInodeCreate","core/driver/inode.c:RedInodeFindFree","core/driver/inode.c:InodeBitGet"])
p("Each inode has one live copy per state and branching preserves the other",
 "An inode lives in one of its two blocks; modifying it for the first time after a transaction point moves the working copy to the other block and leaves the committed copy untouched; further modifications stay in place.",
 "every sequence of modifications and transactions",
 "Unbounded alternations of modification and commit.",
 ["core/driver/inode.c:InodeBranch","core/driver/inode.c:InodeGetCurrentCopy","core/driver/inode.c:InodeBitSet"])
p("Automatic transactions happen exactly when enabled",
 "A successful operation commits a transaction if and only if the corresponding bit of the transaction mask is set; a failed operation never triggers its own event transaction; unsupported mask bits are rejected.",
 "every operation, result and 32-bit mask",
 "All combinations of masks and outcomes.",
 ["core/driver/core.c","include/redapimacs.h:RED_TRANSACT_MASK"])
p("API calls are serialized and errno is per task",
 "Calls from different tasks execute one at a time under the mutex, so every concurrent execution is equivalent to some sequential order; each task up to REDCONF_TASK_COUNT gets its own slot, no two tasks share one, and further tasks get EUSERS.",
 "every number of tasks and every schedule",
 "Schedules are unbounded.",
 ["posix/posix.c:PosixEnter","posix/posix.c:PosixLeave","posix/posix.c:TaskRegister"])
p("File size limits are enforced",
 "No write or truncate creates a file larger than the maximum addressable size; requests starting at or beyond it fail with EFBIG, requests crossing it are clipped; every offset below it is addressable through the block tree and distinct offsets use distinct tree positions.",
 "every offset, length and pointer configuration",
 "64-bit boundaries for every configuration.",
 ["core/driver/inodedata.c:RedInodeDataWrite","core/driver/inodedata.c:SeekCoord","core/include/redcoremacs.h:INODE_SIZE_MAX"])
p("The FSE API is an array of byte files with a transacted copy",
 "Through the File System Essentials API, a volume is a fixed set of files numbered from 2, each a list of bytes: read, write, truncate and size behave as list operations (reads clipped at end of file, gaps zero, EBADF for any other file number, EINVAL for an uninitialized driver, a bad volume number, an unmounted volume or more than 2^31-1 bytes); a call touches only the volume it names; transact, rollback, mount, unmount, format and the event mask act on the committed copy as documented, and a power loss at any instant leaves, for each volume, its last transaction point (or one made by the interrupted call, or no volume during a format).",
 "every configuration, number of volumes, sequence of calls and arguments, and every crash point",
 "Histories, sizes and crash points are unbounded.",
 ["fse/fse.c","core/driver/core.c:RedCoreVolSetCurrent","include/redfse.h"])
p("Power loss during any POSIX call leaves each volume at a transaction point",
 "If power fails at any instant during a POSIX call (other than a format) or between calls, then after a restart each volume shows all its files as at one moment: as at the last transaction point before the call; or, only if the call is one that commits (it is red_transact, or one of the events of the call is enabled in the mask), as before or after the call. Volumes which were not mounted keep what they had, and the system is again in a proper initial state.",
 "every configuration, number of volumes, history, task, call and crash point",
 "Histories and crash points are unbounded, and torn or reordered device writes cannot be enumerated.",
 ["posix/posix.c","core/driver/core.c","core/driver/volume.c:RedVolTransact","include/redapimacs.h"])
p("The block cache changes only blocks which were asked to be changed since the last flush",
 "After a successful flush of a volume, every block is on the device with the contents last given to it; from then on, whatever is read, written, branched, discarded or evicted, and whichever transfers fail, a block which nobody has marked dirty, branched to or written directly since the flush keeps its contents on the device. So a power loss can only affect blocks written in the current epoch.",
 "every number of buffers and volumes, every history of cache operations, eviction order, device failure and crash point",
 "Histories and eviction orders are unbounded.",
 ["core/driver/buffer.c:RedBufferGet","core/driver/buffer.c:RedBufferFlushRange","core/driver/buffer.c:BufferWrite","core/driver/buffer.c:RedBufferBranch"])
p("Volumes can be moved between computers of different byte order",
 "Builds whose on-disk byte order is the same (that of the processor, or the opposite one with REDCONF_ENDIAN_SWAP) write every kind of metadata node and the metaroot in exactly the same bytes, accept exactly the same blocks, and read back the same signature, sequence number, numbers, bitmaps and names, whatever their processors; writing leaves the node in memory as it was; a build with the other on-disk byte order rejects every node instead of misreading it.",
 "every node kind, node contents, layout configuration, sequence number and pair of processors",
 "The contents of a node are unbounded, and no test machine has both byte orders.",
 ["core/driver/buffer.c:BufferEndianSwap","core/driver/buffer.c:BufferFinalize","core/driver/buffer.c:BufferIsValid","core/driver/volume.c:MetaRootEndianSwap","core/driver/volume.c:MetarootIsValid","core/include/rednodes.h","core/driver/dir.c:DirEntryWrite"])
p("What has been committed through the POSIX API is never lost",
 "When red_transact, red_sync, red_fsync or red_close (the last three if their event is enabled) has succeeded, the files of the volume are committed as they were at the call; so are they when red_umount succeeds with its event enabled; and when all events of a call are enabled, whatever the call changes is committed when it returns. From then on, after any number of calls of any tasks and any power losses, at any instants, what a rollback or a mount shows is that state or one complete state the volume was in later; it changes otherwise only when the volume is formatted.",
 "every configuration, number of volumes, history before and after, task, call and sequence of crash points",
 "Histories before and after the commit, and sequences of crashes, are unbounded.",
 ["posix/posix.c:red_transact","posix/posix.c:red_sync","posix/posix.c:red_fsync","posix/posix.c:red_close","posix/posix.c:red_umount2","core/driver/core.c","include/redapimacs.h"])
p("Only documented errors are returned",
 "A call of the POSIX API that fails returns (and stores in the task's errno) one of the errors its documentation lists; the exceptions are exactly known: EINVAL before red_init, EUSERS from red_uninit, EROFS from red_unlink, red_fsync and red_settransmask on a read-only volume, ENFILE from red_mkdir, ENAMETOOLONG from red_opendir, and each of them occurs only in that situation. No call ever returns an error that is neither listed nor one of these.",
 "every configuration, history, task, call and arguments",
 "The errors of all paths through all states cannot be enumerated by tests.",
 ["posix/posix.c","include/redposix.h","include/rederrno.h"])
p("A POSIX call that fails changes nothing",
 "A call of the POSIX API that returns an error leaves every volume as it was (its files, names, sizes and contents, whether and how it is mounted, its transaction mask, what is on the disk), every descriptor, offset and directory stream, and every current directory. Two exceptions: when the call found no space and the event 'volume full' is enabled, changes made before the call may have been committed; and a write with a descriptor opened for appending moves its offset to the end of the file before it fails.",
 "every configuration, history, task, call, arguments and error",
 "Every path on which a call can fail, in every state, would have to be tried, and everything else compared.",
 ["posix/posix.c","core/driver/core.c","core/driver/dir.c:RedDirEntryRename","core/driver/volume.c"])
p("red_getcwd returns the path of the current directory",
 "red_getcwd returns the prefix of the volume and the names that lead from its root to the task's current directory, or ERANGE exactly when the buffer is too small for them and the terminating null (if the volume is not mounted: the root of the volume). Changing to the returned path succeeds and leads to the same directory, for every task; and a task that has changed to an absolute path without '.' and '..' gets that path back. (Provided no directory has the name of another volume; otherwise the path leads to that volume.)",
 "every configuration, history, task, directory depth and buffer size",
 "Directory trees, depths and histories of renames are unbounded.",
 ["posix/posix.c:red_getcwd", "posix/posix.c:red_chdir", "posix/path.c:RedPathToInode", "posix/path.c:RedPathVolumePrefixLookup"])
p("A commit that fails leaves a read-only volume and a sound disk",
 "If the block device reports an error during a commit (red_transact, red_umount, an automatic commit, or the commit made to free space), whichever of its operations fails - writing back a buffer, the flush before the metaroot, writing the metaroot, the flush after it - and whatever that operation has left on the disk: the call returns EIO, the volume stays mounted but becomes read-only, the files as later calls see them are those before the call (or after it, if the automatic commit after the operation failed), every call that would change something returns EROFS and changes nothing, every call that only asks (read, stat, lookup, readdir, statvfs, ...) is still answered from these files, and a power loss at any time during or after the call leaves exactly the last transaction point before the call or a state the call tried to commit. Unmounting then succeeds, and mounting again (without power loss) shows one of these states.",
 "every configuration, every reachable mounted volume, every call, every failing device operation of a commit, every subset and tearing of the writes that have reached the disk, every later call",
 "Which writes have reached the disk after a reported error is up to the device; a test injects a few errors on one device and sees one outcome of each.",
 ["core/driver/volume.c:RedVolTransact", "core/driver/volume.c:RedVolCriticalError", "core/driver/core.c:RedCoreVolTransact", "core/driver/core.c:RedCoreVolUnmount", "core/driver/core.c:RedCoreFileWrite"])
p("A volume uses only its own part of the device, while it is open",
 "Whatever is done with a volume (formatting, mounting, any calls, unmounting, in any order and with any of them failing) and whatever the block device answers: the device is opened before it is used, not opened again before it has been closed, closed when mounting or formatting fails, and nothing is written to or flushed on a device opened for reading only; all sectors read or written lie on the device and between the configured offset and the end of the volume. So two volumes on one device whose parts do not overlap never touch each other's sectors. Opening succeeds exactly if the driver opens the device and its geometry, as far as it is known, is compatible with the configured one.",
 "every configuration (sector size, count, offset, given or automatic), every device geometry and driver status at every call, every history of events, every list of block ranges asked for",
 "The sector arithmetic wraps around at 64 bits and depends on configuration, device geometry and offset at once; tests run on a few disks that work, and cannot see accesses outside the volume.",
 ["bdev/bdev.c:RedBDevOpen", "bdev/bdev.c:RedBDevClose", "bdev/bdev.c:RedBDevRead", "bdev/bdev.c:RedBDevWrite", "core/driver/blockio.c:RedIoRead", "core/driver/blockio.c:RedIoWrite", "core/driver/volume.c:RedVolMount", "core/driver/volume.c:RedVolInitGeometry", "include/redmacs.h:VOLUME_SECTOR_RANGE_IS_VALID"])
p("st_blocks counts the blocks that were written and not cut off",
 "After any sequence of calls on a mounted volume, successful or not, the block count that red_stat reports for a regular file is the number of blocks in which the history of calls stored a byte and which no later truncation cut off (starting with none when the file is created, and otherwise with a set of as many blocks as the file had). Extending a file by truncation or by writing behind its end takes no block for the hole; a call that fails changes no count; and in every reachable state the count is at least the number of blocks with a byte that is not zero and at most the number of blocks the size covers.",
 "every configuration with inode block counts, every reachable mounted state, every sequence of core calls (not unmount or rollback), every file",
 "The count is updated incrementally wherever a block is allocated, branched or released, including the paths that fail half way for lack of space; tests check a few sequential writes.",
 ["core/driver/inodedata.c:BranchOneBlock", "core/driver/inodedata.c:BranchBlock", "core/driver/inodedata.c:TruncDataBlock", "core/driver/inodedata.c:Shrink", "core/driver/inodedata.c:ExpandPrepare", "core/driver/core.c:RedCoreStat", "core/driver/core.c:RedCoreFileWrite", "core/driver/core.c:RedCoreFileTruncate"])
p("A write completes if there is space for it",
 "If statvfs reports at least as many free blocks as the write can take (its data blocks, the pointer nodes above them, and the last block of the file if the write begins behind it), the write is completed: it returns the full count and all bytes are in the file. With three free blocks a file can be extended. If automatic transactions on a full volume are enabled, a write that fits after a transaction writes at least one byte; but it may return a short count although a transaction would have made room for all of it.",
 "every configuration, every reachable mounted writable state, every regular file, every offset, length and contents within the maximum size",
 "The number of blocks that are taken depends on which of the blocks and nodes are already new since the last transaction, and on all block sharing between nodes; tests fill a volume in one or two ways.",
 ["core/driver/inodedata.c:RedInodeDataWrite", "core/driver/inodedata.c:BranchBlock", "core/driver/inodedata.c:BranchBlockCost", "core/driver/inodedata.c:FreeBlockCount", "core/driver/inodedata.c:ExpandPrepare", "core/driver/core.c:RedCoreFileWrite", "core/driver/core.c:RedCoreFileTruncate", "core/driver/core.c:RedCoreVolStat"])
p("Create, link and rename complete if there are a few free blocks",
 "red_open with RED_O_CREAT, red_mkdir, red_link and red_rename fail with RED_ENOSPC only if the directory that gets the entry has the maximum number of entries or statvfs reports fewer than six free blocks (nine for a rename); if neither is so and no other documented error applies (parent is a directory, legal unused name, a free inode, a link count below the maximum, the file exists and is no directory at or above the new parent) the call is completed. With the volume-full event enabled, creating and linking fail with RED_ENOSPC only if the directory is full or fewer than six blocks would be free after a transaction.",
 "every configuration with the POSIX-like API, every reachable mounted read/write state, every directory, every name and inode",
 "How many blocks an entry takes depends on the shape of the directory's tree, on which of its blocks are already branched and on whether the entry is the first in a block; the failure paths roll back work already done. Tests fill a volume in one order.",
 ["core/driver/dir.c:RedDirEntryCreate", "core/driver/dir.c:RedDirEntryRename", "core/driver/dir.c:DirEntryWrite", "core/driver/inodedata.c:RedInodeDataWrite", "core/driver/core.c:RedCoreCreate", "core/driver/core.c:RedCoreLink", "core/driver/core.c:RedCoreRename", "core/driver/volume.c:RedVolFreeBlockCount"])
p("The bytes on the device determine the files",
 "At any time - the volume mounted, unmounted, or after a loss of power at any moment - the bytes on the block device, read by anyone who knows only the documented on-disk format (and on a computer of either byte order), give exactly the files the driver would show after mounting: the same inodes, types, link counts, sizes and contents, and the same numbers of free blocks and free inodes. While a volume is mounted these are the files of the last transaction, whatever of the later writes has reached the device. No number is too large for its field on the disk, and the blocks from which file data are read never hold metadata.",
 "every configuration and sector size, every history of formats, calls and power losses, every image of what is on the device, computers of either byte order for writing and reading",
 "Numbers are stored in fields of 16, 32 and 64 bits in nodes whose layout depends on five configuration options, are swapped in the buffer cache on some computers, and are found through the metaroot, the imap, inodes and indirect nodes; that none is truncated and no block is read as one of another kind depends on the whole history.",
 ["core/include/rednodes.h", "core/driver/buffer.c:BufferIsValid", "core/driver/buffer.c:BufferFinalize", "core/driver/buffer.c:BufferEndianSwap", "core/driver/volume.c:RedVolMountMetaroot", "core/driver/volume.c:MetarootIsValid", "core/driver/volume.c:RedVolTransact", "core/driver/imap.c:RedImapBlockGet", "core/driver/inode.c:RedInodeMount", "core/driver/inodedata.c:RedInodeDataRead"])
p("A device error at any point of any call",
 "If reads or writes of the block device fail at any point of any call, then the call either does all of what it does on a device that works, or it returns an error - EIO, or the error it would have returned anyway - and the volume becomes read-only: from then on every call that would change something returns EROFS and changes nothing, queries change nothing and return EIO or an answer, and unmounting succeeds. What is on the device is not harmed: a power loss during or after the failed call, or unmounting and mounting again on a device that works, shows all files exactly as at the last transaction point. The same holds along every history of calls, device errors, power losses, mounts and formats. If a device error during mounting lets the mount fail, the volume stays unmounted and can be mounted later.",
 "every configuration, every call and its arguments, every set of failing device operations in every call of a history (with arbitrary data left in the blocks that were being written), every power loss during or after these calls",
 "Which operations fail, what the failing writes leave behind and at which of the many steps of a call the error arises is arbitrary, and the error paths run cleanup code that itself uses the device; the state of the cache after a half-done operation must not reach the disk, whatever happens later.",
 ["core/driver/blockio.c:RedIoRead", "core/driver/blockio.c:RedIoWrite", "core/driver/volume.c:RedVolCriticalError", "core/driver/core.c:CoreCreate", "core/driver/core.c:CoreFileWrite", "core/driver/core.c:CoreRename", "core/driver/core.c:RedCoreVolMount", "core/driver/core.c:RedCoreVolUnmount", "core/driver/core.c:RedCoreVolRollback", "core/driver/inode.c:RedInodeMount", "core/driver/inode.c:RedInodeFree", "core/driver/inodedata.c:RedInodeDataWrite", "core/driver/inodedata.c:BranchBlock", "core/driver/imap.c:RedImapAllocBlock", "core/driver/imapextern.c:ImapNodeBranch", "core/driver/dir.c:RedDirEntryRename"])
p("No call runs out of buffers, and every call gives back what it took",
 "With any buffer count the build accepts (at least MINIMUM_BUFFER_COUNT), no call ever asks the cache for a buffer while all buffers are in use: whatever is stored on the volume, whichever blocks are found or missing, whichever checks, allocations or device transfers fail, no call fails with EBUSY, and at no moment does a call hold more than the minimum number of buffers. After every call, successful or not, no buffer is in use; no buffer is given back twice or through an unset pointer, and no pointer to a buffer in use is overwritten. The minimum is exact: there is a rename that needs all of it.",
 "every configuration the preprocessor accepts (POSIX or FSE, read-only or not, with or without rename and atomic rename, any numbers of direct and indirect pointers, inline or external imap), every history of calls, every outcome of every decision and every number of loop rounds within the calls",
 "How many buffers a call holds depends on where in the file or directory tree each of up to five inodes is positioned, on which error path is taken and on what is found on the way; the worst case needs two directories behind double indirect nodes, a replaced file and a cycle check at the same time. A test with more buffers than the minimum never sees a shortage, and one leaked reference shows only after as many calls as there are buffers.",
 ["core/driver/buffer.c:MINIMUM_BUFFER_COUNT", "core/driver/buffer.c:RedBufferGet", "core/driver/inode.c:RedInodeMount", "core/driver/inode.c:RedInodePut", "core/driver/inode.c:RedInodePutCoord", "core/driver/inode.c:RedInodeCreate", "core/driver/inode.c:RedInodeFree", "core/driver/inodedata.c:SeekInode", "core/driver/inodedata.c:BranchOneBlock", "core/driver/inodedata.c:Shrink", "core/driver/imapextern.c:RedImapEBlockFindFree", "core/driver/dir.c:RedDirEntryRename", "core/driver/dir.c:DirCyclicRenameCheck", "core/driver/core.c:CoreRename", "core/driver/core.c:CoreUnlink", "core/driver/format.c:RedVolFormat", "core/driver/volume.c:RedVolMountMaster"])
p("No arithmetic on offsets, block numbers or entry numbers wraps around",
 "Every file offset up to the largest file size, every length a call can pass, every block of a file, every directory entry, every inode and every block of the volume is handled with its exact value: the 16-, 32- and 64-bit computations of reading, writing, seeking, truncating, of directory offsets and counts, and of the places of inodes and map nodes give the same results as unbounded arithmetic. The largest file has min(2^32 - 1, what the pointers can address) blocks; two blocks of a file never have the same coordinates, two directory entries never overlap or cross a block, two inodes never share a place.",
 "every configuration that passes the checks (block sizes 128 to 65536, any split of the pointers, any name length below one block, volumes up to 2^32 - 1 blocks), every offset, length, block number and entry number within the limits",
 "The results differ from exact arithmetic only near 2^16, 2^32 or at the largest file size of particular configurations, such as the last block of a file whose last double indirect node is only partly usable; a test would need terabytes or a configuration nobody has run.",
 ["core/driver/inodedata.c: RedInodeDataRead, RedInodeDataWrite, SeekCoord, Shrink, TruncDindir, TruncIndir, ExpandPrepare, ReadUnaligned, WriteUnaligned", "core/driver/dir.c: DirEntryIndexToOffset, DirOffsetToEntryIndex, DIRENTS_MAX, RedDirEntryDelete", "core/driver/inode.c: InodeBlock", "core/driver/imapextern.c: RedImapNodeBlock", "core/include/redcoremacs.h: INODE_DATA_BLOCKS, INODE_SIZE_MAX", "include/redmacs.h: BLOCK_SIZE_P2"])
p("Time stamps",
 "With time stamps compiled in, after every successful call each file has the access, modification and change times it had, except those the call has to update, and those are readings of the clock taken during the call: creating sets all times of the new file and the modification and change times of its directory; linking, unlinking and renaming set the modification and change times of the directories and the change time of the file that gets, loses or changes a name; writing and truncating set the modification and change times of the file; reading sets the access time if access times are compiled in and the volume is writable. A call that fails changes no stamp of a file. Transactions and automatic transactions commit the stamps with the rest, rollback and remounting restore the committed ones. The stamps do not change what calls do. If the clock never runs backwards, no file is modified after its change time.",
 "every history of core calls on a volume that starts with any stamps, every sequence of clock readings, every transaction mask, every argument, full volumes with the retry after a commit included",
 "A stamp may be set on the wrong inode, twice, on a failing path, before an automatic retry or on an inode that is not branched only in particular histories; a test looks at one call and one clock.",
 ["core/driver/inode.c: RedInodePut, RedInodeCreate, RedInodeLinkDec", "core/driver/core.c: CoreCreate, CoreLink, CoreUnlink, CoreRename, RedCoreFileRead, CoreFileWrite, CoreFileTruncate, RedCoreDirRead, RedCoreStat", "core/driver/volume.c: RedVolTransact, RedVolRollback", "core/include/rednodes.h: INODE"])
p("Volumes are independent",
 "A call of the POSIX API that is not about a volume - no path it is given leads there, its descriptor, directory stream or working directory is not there - returns the same and does the same to everything else whatever state that volume is in (mounted or not, full, damaged, never formatted), and leaves the volume bit for bit as it is: files, disk, allocations, modes. The same for any number of such calls by any tasks. A call is about at most one volume, except initialising, uninitialising and red_sync.",
 "every reachable state of a system with any number of volumes, every call, task, argument and state of the other volume, reachable or not; every history of calls",
 "The core works on a global current volume; a call that fails to set it, or sets it on the way to an error, acts on the volume of the call before, which only particular histories on several volumes show.",
 ["posix/posix.c: all functions of the API, PathStartingPoint, FildesToHandle, CwdGet, CwdResetVol", "core/driver/core.c: RedCoreVolSetCurrent", "core/include/redcorevol.h"])
p("The entries of a directory are counted in 32 bits without wrapping",
 "Looking up a name, reading the next entry and deleting an entry, done with the 32-bit counters of the code, give the result and the effects which the same operations give when they count with unbounded numbers, in every directory of a well-formed volume and in every directory whose entries, rounded up by one block, number at most 2^32. If the largest directory the configuration allows has fewer than 2^32 entries, a lookup and a read end after looking at each block at most once, whatever is on the disk. Otherwise they need not end: with the block size and name length of the Linux project a directory found on the disk with a suitable size and no block makes both run forever.",
 "every legal configuration; every volume, well formed or not, every directory inode and size, every name, index and contents of the blocks; the negative part: every volume and a concrete directory",
 "A counter that wraps does so only in a directory of 64 gigabytes or on an image made by hand: no test directory is large enough.",
 ["core/driver/dir.c: RedDirEntryLookup, RedDirEntryRead, RedDirEntryDelete", "projects/linux/redconf.h"])
p("Changing the size of a file in machine words",
 "Changing the size of a file or directory, computed with the 32-bit block numbers and 16-bit entry numbers and loop counters of the code, gives what unbounded numbers give: the same result, the same blocks freed, kept and changed, the same size. No loop over the blocks of the file takes more rounds than a file can have blocks. One sum does wrap around, in the last round of a loop when a file can have 2^32 - 1 blocks, and is not used any more then.",
 "every legal configuration, every file on every disk, well formed or not, with a size within the limit; every new size, valid or not; every sound position of the inode before",
 "The words matter only for files near the largest size of configurations with large blocks; nobody tests terabyte files.",
 ["core/driver/inodedata.c: RedInodeDataTruncate, Shrink, TruncDindir, TruncIndir, ExpandPrepare"])
p("The errors of the functions of the core",
 "A function of the core that fails on a device that works returns an error that the comment of that function in core.c lists, with one exception (RedCoreLookup also returns ENAMETOOLONG); EIO is returned only for mounting a volume. If operations of the device fail, in whichever places and also within commits, the error is EIO or one of those. No call reports that the driver is broken (EFUBAR) or that something is not supported, and none goes on forever.",
 "every legal configuration, every state that can be reached by calls, formats and power losses, every call, every choice of failing device operations; and every call in every history with device failures, except those that look at the files of a volume on which the device has failed",
 "Tests check the error that they provoke; that no other error is possible is a statement about all states and all failures of the device.",
 ["core/driver/core.c: RedCoreCreate, RedCoreLink, RedCoreUnlink, RedCoreLookup, RedCoreRename, RedCoreStat, RedCoreFileSizeGet, RedCoreFileRead, RedCoreFileWrite, RedCoreFileTruncate, RedCoreDirRead, RedCoreDirParent, RedCoreVolMount, RedCoreVolUnmount, RedCoreVolTransact, RedCoreVolRollback, RedCoreVolStat, RedCoreTransMaskSet, RedCoreTransMaskGet"])
with open('/verif/properties.jsonl','w') as f:
    for x in P: f.write(json.dumps(x)+"\n")
print(len(P))
