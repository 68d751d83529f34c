{"id": "C01", "title": "Power loss never loses the last transaction point", "statement": "If power fails at any moment after a volume was mounted, the next mount sees exactly the file system state of the last completed transaction, or, only if power failed while a transaction was being committed, the state that transaction was committing. It never sees a mixture.", "quantifier": "every history of file system operations, every crash point in it, and every way the unflushed block writes can be lost, reordered or torn", "why_tests_cant": "The number of crash images is exponential in the number of outstanding writes and the histories are unbounded; a test only ever samples a few crash points.", "anchors": ["core/driver/volume.c:RedVolTransact", "core/driver/volume.c:RedVolMountMetaroot", "core/driver/imap.c:RedImapBlockSet", "core/driver/buffer.c:RedBufferBranch"]}
{"id": "C02", "title": "Nothing in use by the committed state is overwritten before the next commit", "statement": "Between two transaction points no operation writes to a disk block that belongs to the last committed state (its data blocks, metadata blocks, inode blocks, imap blocks and its metaroot).", "quantifier": "every reachable volume state, every operation and every block number", "why_tests_cant": "A violation is invisible unless power fails in the right window; a test must hit both the block and the crash.", "anchors": ["core/driver/imap.c:RedImapAllocBlock", "core/driver/inode.c:InodeBranch", "core/driver/inodedata.c:BranchOneBlock", "core/driver/imapextern.c:ImapNodeBranch"]}
{"id": "C03", "title": "red_transact makes everything durable", "statement": "When red_transact (or an automatic transaction) reports success, every change made before the call survives every later power loss.", "quantifier": "every state before the transaction, every later history without a further commit, every crash image", "why_tests_cant": "Durability is a statement about all futures and all crash images.", "anchors": ["core/driver/volume.c:RedVolTransact", "core/driver/core.c:RedCoreVolTransact"]}
{"id": "C04", "title": "Rollback restores the last transaction point exactly", "statement": "After a successful red_rollback the contents of the volume (files, directories, free space) are those of the last transaction point, whatever was done since.", "quantifier": "every reachable state and every sequence of uncommitted operations", "why_tests_cant": "The discarded work is an arbitrary unbounded sequence of operations.", "anchors": ["core/driver/volume.c:RedVolRollback", "core/driver/core.c:RedCoreVolRollback", "core/driver/buffer.c:RedBufferDiscardRange"]}
{"id": "C05", "title": "An interrupted format never leaves a mountable half-formatted volume", "statement": "If formatting is interrupted at any point, mounting the volume either fails, sees a completely formatted volume, or (only if power failed before the format's first flush completed) sees the old volume untouched; it never mounts the old contents under the new structures or a partly formatted volume.", "quantifier": "every prior disk contents, every crash point of the format, every subset of unflushed writes", "why_tests_cant": "Prior disk contents are arbitrary and the crash points times write subsets are exponential.", "anchors": ["core/driver/format.c:RedVolFormat", "core/driver/volume.c:RedVolMountMaster"]}
{"id": "C06", "title": "Mount selects the newest valid metaroot", "statement": "Mount uses the valid metaroot with the greater sequence number; if one of the two is damaged (for example by a torn write) it uses the other one, and if neither is valid mount fails with EIO without modifying the disk.", "quantifier": "every pair of metaroot block contents", "why_tests_cant": "The pair of block contents ranges over all byte strings of block size; damaged blocks are arbitrary.", "anchors": ["core/driver/volume.c:RedVolMountMetaroot", "core/driver/volume.c:MetarootIsValid"]}
{"id": "C07", "title": "Damaged metadata is reported, not used", "statement": "A metadata block whose signature is wrong, whose CRC does not match or whose sequence number is from the future is never handed to the file system: the operation fails with EIO. Any change to a valid node that is confined to 32 consecutive bits of the checksummed part (everything after the 8-byte signature and CRC fields), or to those 8 bytes, is detected.", "quantifier": "every block content, every position and every pattern of the damaged 32-bit window", "why_tests_cant": "The damage patterns times block contents are far beyond enumeration (2^32 patterns times all block contents).", "anchors": ["core/driver/buffer.c:BufferIsValid", "core/driver/volume.c:MetarootIsValid", "util/crc.c:RedCrcNode"]}
{"id": "C08", "title": "The three CRC implementations are interchangeable", "statement": "The bitwise, Sarwate and slice-by-8 CRC builds compute the same CRC for every buffer and every starting value, so a volume written by one build is accepted by any other.", "quantifier": "every byte string of every length and every 32-bit initial value", "why_tests_cant": "Infinitely many inputs; table entries can be wrong for a single byte value.", "anchors": ["util/crc.c:RedCrc32Update", "include/redconfigchk.h"]}
{"id": "C09", "title": "The CRC of a buffer may be computed piecewise", "statement": "Updating the CRC over one buffer and then over a second gives the CRC of the concatenation, for every split point; the metaroot sector CRC and the full CRC are consistent with this.", "quantifier": "every pair of byte strings and every initial value", "why_tests_cant": "Infinitely many inputs and split points.", "anchors": ["util/crc.c:RedCrc32Update", "core/driver/volume.c:MetarootIsValid"]}
{"id": "C10", "title": "Reads return what was last written", "statement": "Reading a file returns, for every byte below the end of file, the byte most recently written at that offset, or zero if none was written there since the file last had that offset; the number of bytes returned is exactly the requested length clipped at end of file.", "quantifier": "every sequence of writes and truncates with any offsets and lengths, then every read offset and length", "why_tests_cant": "Offsets and lengths range over 64-bit/32-bit values and sequences are unbounded; the direct, indirect and double indirect cases only meet at rare boundaries.", "anchors": ["core/driver/inodedata.c:RedInodeDataRead", "core/driver/inodedata.c:RedInodeDataWrite", "core/driver/inodedata.c:RedInodeDataSeek"]}
{"id": "C11", "title": "Writing one file never changes another", "statement": "A write or truncate on one file leaves the contents, size and attributes of every other file and directory unchanged.", "quantifier": "every reachable volume state, every pair of distinct inodes, every write or truncate", "why_tests_cant": "Needs every state in which two files could share a block.", "anchors": ["core/driver/inodedata.c:RedInodeDataWrite", "core/driver/imap.c:RedImapAllocBlock"]}
{"id": "C12", "title": "Truncated data never reappears", "statement": "After a file is shrunk and then extended (by truncate or by writing past end of file), every byte between the old and the new end reads as zero; stale disk contents are never visible.", "quantifier": "every file state, every shrink size, every later extension", "why_tests_cant": "The stale bytes depend on arbitrary previous block contents and on offsets inside blocks.", "anchors": ["core/driver/inodedata.c:ExpandPrepare", "core/driver/inodedata.c:Shrink", "core/driver/inodedata.c:RedInodeDataTruncate"]}
{"id": "C13", "title": "A short write is a clean prefix", "statement": "When the volume fills up during a write, the call reports the number of bytes written; exactly that prefix of the buffer is in the file and every other byte of the file is unchanged.", "quantifier": "every volume state, every write offset and length, every point at which space runs out", "why_tests_cant": "The point at which space runs out depends on the whole allocation history.", "anchors": ["core/driver/inodedata.c:RedInodeDataWrite", "core/driver/inodedata.c:WriteAligned"]}
{"id": "C14", "title": "Free space is accounted exactly", "statement": "The free block count reported by red_statvfs is derived from a counter that always equals the number of blocks which are free both in the working and in the committed state; no block is leaked and none is counted twice, across allocations, frees, transactions, rollbacks and remounts.", "quantifier": "every history of operations", "why_tests_cant": "Counter drift shows up only after long specific histories.", "anchors": ["core/driver/imap.c:RedImapBlockSet", "core/driver/volume.c:RedVolTransact", "core/driver/core.c:RedCoreVolStat"]}
{"id": "C15", "title": "The allocator only hands out free blocks", "statement": "A newly allocated block is inside the allocable range, was free in the working state and is not part of the last committed state.", "quantifier": "every bitmap content, every allocation cursor and every volume geometry", "why_tests_cant": "2^blocks bitmap states.", "anchors": ["core/driver/imap.c:RedImapAllocBlock", "core/driver/imapinline.c:RedImapIBlockFindFree", "core/driver/imapextern.c:RedImapEBlockFindFree"]}
{"id": "C16", "title": "The allocator finds a block whenever one exists", "statement": "Allocation succeeds whenever at least one block is free; ENOSPC is returned only if none is.", "quantifier": "every bitmap content, cursor and geometry", "why_tests_cant": "The search wraps around and skips whole bytes; the failing patterns are isolated.", "anchors": ["core/driver/imap.c:RedImapAllocBlock", "core/driver/imapinline.c:RedImapIBlockFindFree"]}
{"id": "C17", "title": "Files can always be deleted on a full volume", "statement": "Blocks are held in reserve so that deleting or shrinking a file never fails with ENOSPC right after a transaction point, however full the volume is.", "quantifier": "every reachable full volume and every file", "why_tests_cant": "Needs every full-volume configuration of file shapes.", "anchors": ["core/include/redcoremacs.h:RESERVED_BLOCKS", "core/driver/core.c:CoreUnlink", "core/driver/inodedata.c:FreeBlockCount"]}
{"id": "C18", "title": "Disk-full retry policy", "statement": "With RED_TRANSACT_VOLFULL enabled, an operation that runs out of space is retried after exactly one transaction, and only if that transaction can free space; without it no hidden transaction occurs.", "quantifier": "every operation outcome, mask value and counter value", "why_tests_cant": "Combination of mask bits, counters and inner results.", "anchors": ["core/driver/core.c:RedCoreFileWrite", "core/driver/core.c:RedCoreCreate", "core/driver/core.c:RedCoreLink"]}
{"id": "C19", "title": "A directory is a map from names to inodes", "statement": "Lookup after any sequence of create, link, unlink and rename returns the inode most recently bound to that name in that directory, or ENOENT; other names are unaffected.", "quantifier": "every sequence of directory operations and every name", "why_tests_cant": "Unbounded sequences; slot reuse and truncation of the directory interact.", "anchors": ["core/driver/dir.c:RedDirEntryLookup", "core/driver/dir.c:RedDirEntryCreate", "core/driver/dir.c:RedDirEntryDelete"]}
{"id": "C20", "title": "readdir returns every entry exactly once", "statement": "Iterating a directory that is not modified returns each of its entries exactly once and then ends.", "quantifier": "every directory content", "why_tests_cant": "Any pattern of holes left by deletions.", "anchors": ["core/driver/dir.c:RedDirEntryRead", "posix/posix.c:red_readdir"]}
{"id": "C21", "title": "Names in a directory are unique and legal", "statement": "No sequence of operations creates an entry whose name is empty, longer than REDCONF_NAME_MAX, contains a path separator (when called through paths), is '.' or '..', or duplicates an existing entry of the directory.", "quantifier": "every sequence of operations with arbitrary names", "why_tests_cant": "Arbitrary byte strings as names.", "anchors": ["core/driver/dir.c:RedDirEntryCreate", "util/namelen.c:RedNameLen", "core/driver/core.c:CoreCreate"]}
{"id": "C22", "title": "The directory tree stays a tree", "statement": "No sequence of operations makes a directory its own ancestor or detaches it from the root; renaming a directory below itself fails with EINVAL.", "quantifier": "every directory tree and every pair of rename arguments, any depth", "why_tests_cant": "Unbounded depth.", "anchors": ["core/driver/dir.c:DirCyclicRenameCheck", "core/driver/core.c:CoreRename"]}
{"id": "C23", "title": "Link counts equal the number of names", "statement": "The link count of every file equals the number of directory entries that refer to it, an inode is freed exactly when its last name is removed, and hard links cannot exceed the maximum (EMLINK).", "quantifier": "every history of create, link, unlink and rename", "why_tests_cant": "Unbounded histories; an error in one path only shows after further unlinks.", "anchors": ["core/driver/inode.c:RedInodeLinkDec", "core/driver/core.c:CoreLink", "core/driver/core.c:CoreUnlink"]}
{"id": "C24", "title": "Rename is all or nothing", "statement": "A rename either makes the new name refer to the file and removes the old name (replacing an existing destination when atomic rename is enabled), or fails and leaves both names as they were, including when it fails with ENOSPC half way.", "quantifier": "every directory state and every pair of names", "why_tests_cant": "The half-way failure depends on free space at one point.", "anchors": ["core/driver/core.c:CoreRename", "core/driver/dir.c:RedDirEntryDelete"]}
{"id": "C25", "title": "A read-only volume is never modified", "statement": "On a volume mounted read-only (or made read-only by a critical error) every modifying call fails with EROFS and no call writes to the disk.", "quantifier": "every call with every argument and every state", "why_tests_cant": "All calls times all states.", "anchors": ["core/driver/core.c", "core/driver/volume.c:RedVolCriticalError", "core/driver/blockio.c:RedIoWrite"]}
{"id": "C26", "title": "Calls on an unmounted volume fail cleanly", "statement": "Every file operation on a volume that is not mounted fails with EINVAL and changes nothing.", "quantifier": "every call with every argument", "why_tests_cant": "All calls times all states.", "anchors": ["core/driver/core.c"]}
{"id": "C27", "title": "The block cache is invisible", "statement": "Whatever blocks are evicted or written back in whatever order, reading a block through the cache returns the last contents given to it; no modification is lost and no block is cached twice.", "quantifier": "every sequence of cache operations, every number of buffers and every victim choice", "why_tests_cant": "Cache states are permutations times contents; eviction interleavings are unbounded.", "anchors": ["core/driver/buffer.c:RedBufferGet", "core/driver/buffer.c:BufferFind", "core/driver/buffer.c:RedBufferFlushRange"]}
{"id": "C28", "title": "A buffer in use is never recycled", "statement": "A buffer that is referenced is never evicted, reassigned or discarded until released; when every buffer is referenced the request fails with EBUSY.", "quantifier": "every sequence of get and put operations", "why_tests_cant": "All interleavings of references.", "anchors": ["core/driver/buffer.c:RedBufferGet", "core/driver/buffer.c:RedBufferPut"]}
{"id": "C29", "title": "File descriptors are unique, valid and die with the mount", "statement": "red_open returns descriptors that are at least 3 and distinct from every other open descriptor; a closed descriptor and a descriptor from an earlier mount are rejected with EBADF, for the next FD_GEN_MAX-1 mounts of that volume.", "quantifier": "every descriptor value, every history of open, close, mount and unmount", "why_tests_cant": "2^31 descriptor values times unbounded histories.", "anchors": ["posix/posix.c:FildesPack", "posix/posix.c:FildesUnpack", "posix/posix.c:FildesToHandle", "posix/posix.c:red_mount2"]}
{"id": "C30", "title": "An open file is never freed", "statement": "While a file or directory is open (or is a current working directory) it cannot be deleted by unlink, rmdir or a replacing rename: the call fails with EBUSY if it would remove the last link; so a handle always refers to an existing object on a mounted volume.", "quantifier": "every history of API calls", "why_tests_cant": "Unbounded histories over many handles.", "anchors": ["posix/posix.c:InodeUnlinkCheck", "posix/posix.c:UnlinkSub", "posix/posix.c:red_umount2", "posix/posix.c:red_rollback"]}
{"id": "C31", "title": "File offsets move as POSIX says", "statement": "red_read and red_write advance the offset by exactly the number of bytes returned; append mode writes at end of file; red_lseek yields the requested offset or EINVAL, without arithmetic overflow, never leaving an offset outside [0, maximum file size].", "quantifier": "every offset, length, whence and 64-bit seek displacement", "why_tests_cant": "64-bit argument space including overflow boundaries.", "anchors": ["posix/posix.c:red_lseek", "posix/posix.c:red_read", "posix/posix.c:red_write"]}
{"id": "C32", "title": "Open modes are validated exactly as documented", "statement": "red_open accepts exactly the documented combinations of open mode bits and rejects all others with EINVAL; the handle permits reading and writing exactly as requested.", "quantifier": "every 32-bit mode value", "why_tests_cant": "2^32 values.", "anchors": ["posix/posix.c:red_open", "posix/posix.c:FildesOpen"]}
{"id": "C33", "title": "Paths resolve component by component", "statement": "A path is split at separators; leading, repeated and trailing separators do not matter. Resolving it equals looking up its components one after another from the starting directory (with current directories enabled, . and .. are the directory itself and its parent), and the first error is the result. After a successful mkdir, link or open-with-create the path resolves to the new object; after a successful unlink or rmdir it resolves to nothing.", "quantifier": "every path string and every directory tree", "why_tests_cant": "Arbitrary strings.", "anchors": ["posix/path.c:RedPathToName", "posix/path.c:PathWalk", "posix/path.c:RedPathLookup"]}
{"id": "C34", "title": "Volume prefixes match unambiguously", "statement": "The volume selected for a path is the one with the longest prefix that matches whole path elements; if there is none the call fails with ENOENT.", "quantifier": "every configured set of prefixes and every path", "why_tests_cant": "Arbitrary strings.", "anchors": ["posix/path.c:RedPathVolumePrefixLookup"]}
{"id": "C35", "title": "On-disk structures are independent of host byte order", "statement": "Byte swapping is an involution at every width, swapping a structure twice restores it, and the bytes written for a field are those of the on-disk byte order whatever the host order.", "quantifier": "every 16, 32 and 64-bit value", "why_tests_cant": "2^64 values.", "anchors": ["util/endian.c", "core/driver/buffer.c:BufferEndianSwap", "core/include/redcoremacs.h"]}
{"id": "C36", "title": "The volume layout is sound", "statement": "For every geometry mount accepts (inode and block counts for which the 32-bit computations do not wrap and the imap nodes fit the metaroot's bitmap; the code does not check these two conditions) the master block, metaroots, imap nodes, inode blocks and allocable area are pairwise disjoint, ordered, cover the volume and lie inside it; each inode and each imap node has its own two blocks; the bitmaps are large enough for all their bits.", "quantifier": "every volume size, inode count and block size accepted by the initialization", "why_tests_cant": "Unbounded parameter space, off-by-one at region borders.", "anchors": ["core/driver/volume.c:RedVolInitGeometry", "core/driver/imapextern.c:RedImapNodeBlock", "core/driver/inode.c:InodeBlock"]}
{"id": "C37", "title": "Block numbers map to the right sectors", "statement": "Reading or writing a run of blocks accesses exactly the corresponding run of sectors inside the volume's partition, never a sector outside it; failed transfers are retried at most the configured number of times (for a configured number below 255) and a reported success means the last attempt succeeded.", "quantifier": "every block number, count, sector size, sector offset and failure pattern", "why_tests_cant": "64-bit sector arithmetic and arbitrary failure sequences.", "anchors": ["core/driver/blockio.c:RedIoRead", "core/driver/blockio.c:RedIoWrite", "bdev/bdev.c"]}
{"id": "C38", "title": "Bitmap primitives affect exactly one bit", "statement": "Setting or clearing bit i of a bitmap changes bit i and no other bit, reading returns the last value set, with the documented most-significant-first bit order.", "quantifier": "every bitmap and every pair of bit indices", "why_tests_cant": "All bitmap contents and indices.", "anchors": ["util/bitmap.c:RedBitSet", "util/bitmap.c:RedBitClear", "util/bitmap.c:RedBitGet"]}
{"id": "C39", "title": "Memory and string primitives meet the C standard", "statement": "RedMemCpy, RedMemMove (including overlapping regions), RedMemSet, RedMemCmp, RedStrLen, RedStrCmp, RedStrNCmp and RedStrNCpy behave as their C standard counterparts.", "quantifier": "every length, alignment, overlap and content", "why_tests_cant": "The word-at-a-time paths depend on alignment and length; overlaps are unbounded.", "anchors": ["util/memory.c", "util/string.c"]}
{"id": "C40", "title": "Inode numbers are allocated uniquely", "statement": "A newly created file gets the lowest free inode number, in range, not used by any existing file; creation fails with ENFILE exactly when no inode is free; the free inode count reported equals the number of free inodes.", "quantifier": "every set of allocated inodes", "why_tests_cant": "2^inodes states.", "anchors": ["core/driver/inode.c:RedInodeCreate", "core/driver/inode.c:RedInodeFindFree", "core/driver/inode.c:InodeBitGet"]}
{"id": "C41", "title": "Each inode has one live copy per state and branching preserves the other", "statement": "An inode lives in one of its two blocks; modifying it for the first time after a transaction point moves the working copy to the other block and leaves the committed copy untouched; further modifications stay in place.", "quantifier": "every sequence of modifications and transactions", "why_tests_cant": "Unbounded alternations of modification and commit.", "anchors": ["core/driver/inode.c:InodeBranch", "core/driver/inode.c:InodeGetCurrentCopy", "core/driver/inode.c:InodeBitSet"]}
{"id": "C42", "title": "Automatic transactions happen exactly when enabled", "statement": "A successful operation commits a transaction if and only if the corresponding bit of the transaction mask is set; a failed operation never triggers its own event transaction; unsupported mask bits are rejected.", "quantifier": "every operation, result and 32-bit mask", "why_tests_cant": "All combinations of masks and outcomes.", "anchors": ["core/driver/core.c", "include/redapimacs.h:RED_TRANSACT_MASK"]}
{"id": "C43", "title": "API calls are serialized and errno is per task", "statement": "Calls from different tasks execute one at a time under the mutex, so every concurrent execution is equivalent to some sequential order; each task up to REDCONF_TASK_COUNT gets its own slot, no two tasks share one, and further tasks get EUSERS.", "quantifier": "every number of tasks and every schedule", "why_tests_cant": "Schedules are unbounded.", "anchors": ["posix/posix.c:PosixEnter", "posix/posix.c:PosixLeave", "posix/posix.c:TaskRegister"]}
{"id": "C44", "title": "File size limits are enforced", "statement": "No write or truncate creates a file larger than the maximum addressable size; requests starting at or beyond it fail with EFBIG, requests crossing it are clipped; every offset below it is addressable through the block tree and distinct offsets use distinct tree positions.", "quantifier": "every offset, length and pointer configuration", "why_tests_cant": "64-bit boundaries for every configuration.", "anchors": ["core/driver/inodedata.c:RedInodeDataWrite", "core/driver/inodedata.c:SeekCoord", "core/include/redcoremacs.h:INODE_SIZE_MAX"]}
{"id": "C45", "title": "The FSE API is an array of byte files with a transacted copy", "statement": "Through the File System Essentials API, a volume is a fixed set of files numbered from 2, each a list of bytes: read, write, truncate and size behave as list operations (reads clipped at end of file, gaps zero, EBADF for any other file number, EINVAL for an uninitialized driver, a bad volume number, an unmounted volume or more than 2^31-1 bytes); a call touches only the volume it names; transact, rollback, mount, unmount, format and the event mask act on the committed copy as documented, and a power loss at any instant leaves, for each volume, its last transaction point (or one made by the interrupted call, or no volume during a format).", "quantifier": "every configuration, number of volumes, sequence of calls and arguments, and every crash point", "why_tests_cant": "Histories, sizes and crash points are unbounded.", "anchors": ["fse/fse.c", "core/driver/core.c:RedCoreVolSetCurrent", "include/redfse.h"]}
{"id": "C46", "title": "Power loss during any POSIX call leaves each volume at a transaction point", "statement": "If power fails at any instant during a POSIX call (other than a format) or between calls, then after a restart each volume shows all its files as at one moment: as at the last transaction point before the call; or, only if the call is one that commits (it is red_transact, or one of the events of the call is enabled in the mask), as before or after the call. Volumes which were not mounted keep what they had, and the system is again in a proper initial state.", "quantifier": "every configuration, number of volumes, history, task, call and crash point", "why_tests_cant": "Histories and crash points are unbounded, and torn or reordered device writes cannot be enumerated.", "anchors": ["posix/posix.c", "core/driver/core.c", "core/driver/volume.c:RedVolTransact", "include/redapimacs.h"]}
{"id": "C47", "title": "The block cache changes only blocks which were asked to be changed since the last flush", "statement": "After a successful flush of a volume, every block is on the device with the contents last given to it; from then on, whatever is read, written, branched, discarded or evicted, and whichever transfers fail, a block which nobody has marked dirty, branched to or written directly since the flush keeps its contents on the device. So a power loss can only affect blocks written in the current epoch.", "quantifier": "every number of buffers and volumes, every history of cache operations, eviction order, device failure and crash point", "why_tests_cant": "Histories and eviction orders are unbounded.", "anchors": ["core/driver/buffer.c:RedBufferGet", "core/driver/buffer.c:RedBufferFlushRange", "core/driver/buffer.c:BufferWrite", "core/driver/buffer.c:RedBufferBranch"]}
{"id": "C48", "title": "Volumes can be moved between computers of different byte order", "statement": "Builds whose on-disk byte order is the same (that of the processor, or the opposite one with REDCONF_ENDIAN_SWAP) write every kind of metadata node and the metaroot in exactly the same bytes, accept exactly the same blocks, and read back the same signature, sequence number, numbers, bitmaps and names, whatever their processors; writing leaves the node in memory as it was; a build with the other on-disk byte order rejects every node instead of misreading it.", "quantifier": "every node kind, node contents, layout configuration, sequence number and pair of processors", "why_tests_cant": "The contents of a node are unbounded, and no test machine has both byte orders.", "anchors": ["core/driver/buffer.c:BufferEndianSwap", "core/driver/buffer.c:BufferFinalize", "core/driver/buffer.c:BufferIsValid", "core/driver/volume.c:MetaRootEndianSwap", "core/driver/volume.c:MetarootIsValid", "core/include/rednodes.h", "core/driver/dir.c:DirEntryWrite"]}
{"id": "C49", "title": "What has been committed through the POSIX API is never lost", "statement": "When red_transact, red_sync, red_fsync or red_close (the last three if their event is enabled) has succeeded, the files of the volume are committed as they were at the call; so are they when red_umount succeeds with its event enabled; and when all events of a call are enabled, whatever the call changes is committed when it returns. From then on, after any number of calls of any tasks and any power losses, at any instants, what a rollback or a mount shows is that state or one complete state the volume was in later; it changes otherwise only when the volume is formatted.", "quantifier": "every configuration, number of volumes, history before and after, task, call and sequence of crash points", "why_tests_cant": "Histories before and after the commit, and sequences of crashes, are unbounded.", "anchors": ["posix/posix.c:red_transact", "posix/posix.c:red_sync", "posix/posix.c:red_fsync", "posix/posix.c:red_close", "posix/posix.c:red_umount2", "core/driver/core.c", "include/redapimacs.h"]}
{"id": "C50", "title": "Only documented errors are returned", "statement": "A call of the POSIX API that fails returns (and stores in the task's errno) one of the errors its documentation lists; the exceptions are exactly known: EINVAL before red_init, EUSERS from red_uninit, EROFS from red_unlink, red_fsync and red_settransmask on a read-only volume, ENFILE from red_mkdir, ENAMETOOLONG from red_opendir, and each of them occurs only in that situation. No call ever returns an error that is neither listed nor one of these.", "quantifier": "every configuration, history, task, call and arguments", "why_tests_cant": "The errors of all paths through all states cannot be enumerated by tests.", "anchors": ["posix/posix.c", "include/redposix.h", "include/rederrno.h"]}
{"id": "C51", "title": "A POSIX call that fails changes nothing", "statement": "A call of the POSIX API that returns an error leaves every volume as it was (its files, names, sizes and contents, whether and how it is mounted, its transaction mask, what is on the disk), every descriptor, offset and directory stream, and every current directory. Two exceptions: when the call found no space and the event 'volume full' is enabled, changes made before the call may have been committed; and a write with a descriptor opened for appending moves its offset to the end of the file before it fails.", "quantifier": "every configuration, history, task, call, arguments and error", "why_tests_cant": "Every path on which a call can fail, in every state, would have to be tried, and everything else compared.", "anchors": ["posix/posix.c", "core/driver/core.c", "core/driver/dir.c:RedDirEntryRename", "core/driver/volume.c"]}
{"id": "C52", "title": "red_getcwd returns the path of the current directory", "statement": "red_getcwd returns the prefix of the volume and the names that lead from its root to the task's current directory, or ERANGE exactly when the buffer is too small for them and the terminating null (if the volume is not mounted: the root of the volume). Changing to the returned path succeeds and leads to the same directory, for every task; and a task that has changed to an absolute path without '.' and '..' gets that path back. (Provided no directory has the name of another volume; otherwise the path leads to that volume.)", "quantifier": "every configuration, history, task, directory depth and buffer size", "why_tests_cant": "Directory trees, depths and histories of renames are unbounded.", "anchors": ["posix/posix.c:red_getcwd", "posix/posix.c:red_chdir", "posix/path.c:RedPathToInode", "posix/path.c:RedPathVolumePrefixLookup"]}
{"id": "C53", "title": "A commit that fails leaves a read-only volume and a sound disk", "statement": "If the block device reports an error during a commit (red_transact, red_umount, an automatic commit, or the commit made to free space), whichever of its operations fails - writing back a buffer, the flush before the metaroot, writing the metaroot, the flush after it - and whatever that operation has left on the disk: the call returns EIO, the volume stays mounted but becomes read-only, the files as later calls see them are those before the call (or after it, if the automatic commit after the operation failed), every call that would change something returns EROFS and changes nothing, every call that only asks (read, stat, lookup, readdir, statvfs, ...) is still answered from these files, and a power loss at any time during or after the call leaves exactly the last transaction point before the call or a state the call tried to commit. Unmounting then succeeds, and mounting again (without power loss) shows one of these states.", "quantifier": "every configuration, every reachable mounted volume, every call, every failing device operation of a commit, every subset and tearing of the writes that have reached the disk, every later call", "why_tests_cant": "Which writes have reached the disk after a reported error is up to the device; a test injects a few errors on one device and sees one outcome of each.", "anchors": ["core/driver/volume.c:RedVolTransact", "core/driver/volume.c:RedVolCriticalError", "core/driver/core.c:RedCoreVolTransact", "core/driver/core.c:RedCoreVolUnmount", "core/driver/core.c:RedCoreFileWrite"]}
{"id": "C54", "title": "A volume uses only its own part of the device, while it is open", "statement": "Whatever is done with a volume (formatting, mounting, any calls, unmounting, in any order and with any of them failing) and whatever the block device answers: the device is opened before it is used, not opened again before it has been closed, closed when mounting or formatting fails, and nothing is written to or flushed on a device opened for reading only; all sectors read or written lie on the device and between the configured offset and the end of the volume. So two volumes on one device whose parts do not overlap never touch each other's sectors. Opening succeeds exactly if the driver opens the device and its geometry, as far as it is known, is compatible with the configured one.", "quantifier": "every configuration (sector size, count, offset, given or automatic), every device geometry and driver status at every call, every history of events, every list of block ranges asked for", "why_tests_cant": "The sector arithmetic wraps around at 64 bits and depends on configuration, device geometry and offset at once; tests run on a few disks that work, and cannot see accesses outside the volume.", "anchors": ["bdev/bdev.c:RedBDevOpen", "bdev/bdev.c:RedBDevClose", "bdev/bdev.c:RedBDevRead", "bdev/bdev.c:RedBDevWrite", "core/driver/blockio.c:RedIoRead", "core/driver/blockio.c:RedIoWrite", "core/driver/volume.c:RedVolMount", "core/driver/volume.c:RedVolInitGeometry", "include/redmacs.h:VOLUME_SECTOR_RANGE_IS_VALID"]}
{"id": "C55", "title": "st_blocks counts the blocks that were written and not cut off", "statement": "After any sequence of calls on a mounted volume, successful or not, the block count that red_stat reports for a regular file is the number of blocks in which the history of calls stored a byte and which no later truncation cut off (starting with none when the file is created, and otherwise with a set of as many blocks as the file had). Extending a file by truncation or by writing behind its end takes no block for the hole; a call that fails changes no count; and in every reachable state the count is at least the number of blocks with a byte that is not zero and at most the number of blocks the size covers.", "quantifier": "every configuration with inode block counts, every reachable mounted state, every sequence of core calls (not unmount or rollback), every file", "why_tests_cant": "The count is updated incrementally wherever a block is allocated, branched or released, including the paths that fail half way for lack of space; tests check a few sequential writes.", "anchors": ["core/driver/inodedata.c:BranchOneBlock", "core/driver/inodedata.c:BranchBlock", "core/driver/inodedata.c:TruncDataBlock", "core/driver/inodedata.c:Shrink", "core/driver/inodedata.c:ExpandPrepare", "core/driver/core.c:RedCoreStat", "core/driver/core.c:RedCoreFileWrite", "core/driver/core.c:RedCoreFileTruncate"]}
{"id": "C56", "title": "A write completes if there is space for it", "statement": "If statvfs reports at least as many free blocks as the write can take (its data blocks, the pointer nodes above them, and the last block of the file if the write begins behind it), the write is completed: it returns the full count and all bytes are in the file. With three free blocks a file can be extended. If automatic transactions on a full volume are enabled, a write that fits after a transaction writes at least one byte; but it may return a short count although a transaction would have made room for all of it.", "quantifier": "every configuration, every reachable mounted writable state, every regular file, every offset, length and contents within the maximum size", "why_tests_cant": "The number of blocks that are taken depends on which of the blocks and nodes are already new since the last transaction, and on all block sharing between nodes; tests fill a volume in one or two ways.", "anchors": ["core/driver/inodedata.c:RedInodeDataWrite", "core/driver/inodedata.c:BranchBlock", "core/driver/inodedata.c:BranchBlockCost", "core/driver/inodedata.c:FreeBlockCount", "core/driver/inodedata.c:ExpandPrepare", "core/driver/core.c:RedCoreFileWrite", "core/driver/core.c:RedCoreFileTruncate", "core/driver/core.c:RedCoreVolStat"]}
{"id": "C57", "title": "Create, link and rename complete if there are a few free blocks", "statement": "red_open with RED_O_CREAT, red_mkdir, red_link and red_rename fail with RED_ENOSPC only if the directory that gets the entry has the maximum number of entries or statvfs reports fewer than six free blocks (nine for a rename); if neither is so and no other documented error applies (parent is a directory, legal unused name, a free inode, a link count below the maximum, the file exists and is no directory at or above the new parent) the call is completed. With the volume-full event enabled, creating and linking fail with RED_ENOSPC only if the directory is full or fewer than six blocks would be free after a transaction.", "quantifier": "every configuration with the POSIX-like API, every reachable mounted read/write state, every directory, every name and inode", "why_tests_cant": "How many blocks an entry takes depends on the shape of the directory's tree, on which of its blocks are already branched and on whether the entry is the first in a block; the failure paths roll back work already done. Tests fill a volume in one order.", "anchors": ["core/driver/dir.c:RedDirEntryCreate", "core/driver/dir.c:RedDirEntryRename", "core/driver/dir.c:DirEntryWrite", "core/driver/inodedata.c:RedInodeDataWrite", "core/driver/core.c:RedCoreCreate", "core/driver/core.c:RedCoreLink", "core/driver/core.c:RedCoreRename", "core/driver/volume.c:RedVolFreeBlockCount"]}
{"id": "C58", "title": "The bytes on the device determine the files", "statement": "At any time - the volume mounted, unmounted, or after a loss of power at any moment - the bytes on the block device, read by anyone who knows only the documented on-disk format (and on a computer of either byte order), give exactly the files the driver would show after mounting: the same inodes, types, link counts, sizes and contents, and the same numbers of free blocks and free inodes. While a volume is mounted these are the files of the last transaction, whatever of the later writes has reached the device. No number is too large for its field on the disk, and the blocks from which file data are read never hold metadata.", "quantifier": "every configuration and sector size, every history of formats, calls and power losses, every image of what is on the device, computers of either byte order for writing and reading", "why_tests_cant": "Numbers are stored in fields of 16, 32 and 64 bits in nodes whose layout depends on five configuration options, are swapped in the buffer cache on some computers, and are found through the metaroot, the imap, inodes and indirect nodes; that none is truncated and no block is read as one of another kind depends on the whole history.", "anchors": ["core/include/rednodes.h", "core/driver/buffer.c:BufferIsValid", "core/driver/buffer.c:BufferFinalize", "core/driver/buffer.c:BufferEndianSwap", "core/driver/volume.c:RedVolMountMetaroot", "core/driver/volume.c:MetarootIsValid", "core/driver/volume.c:RedVolTransact", "core/driver/imap.c:RedImapBlockGet", "core/driver/inode.c:RedInodeMount", "core/driver/inodedata.c:RedInodeDataRead"]}
{"id": "C59", "title": "A device error at any point of any call", "statement": "If reads or writes of the block device fail at any point of any call, then the call either does all of what it does on a device that works, or it returns an error - EIO, or the error it would have returned anyway - and the volume becomes read-only: from then on every call that would change something returns EROFS and changes nothing, queries change nothing and return EIO or an answer, and unmounting succeeds. What is on the device is not harmed: a power loss during or after the failed call, or unmounting and mounting again on a device that works, shows all files exactly as at the last transaction point. The same holds along every history of calls, device errors, power losses, mounts and formats. If a device error during mounting lets the mount fail, the volume stays unmounted and can be mounted later.", "quantifier": "every configuration, every call and its arguments, every set of failing device operations in every call of a history (with arbitrary data left in the blocks that were being written), every power loss during or after these calls", "why_tests_cant": "Which operations fail, what the failing writes leave behind and at which of the many steps of a call the error arises is arbitrary, and the error paths run cleanup code that itself uses the device; the state of the cache after a half-done operation must not reach the disk, whatever happens later.", "anchors": ["core/driver/blockio.c:RedIoRead", "core/driver/blockio.c:RedIoWrite", "core/driver/volume.c:RedVolCriticalError", "core/driver/core.c:CoreCreate", "core/driver/core.c:CoreFileWrite", "core/driver/core.c:CoreRename", "core/driver/core.c:RedCoreVolMount", "core/driver/core.c:RedCoreVolUnmount", "core/driver/core.c:RedCoreVolRollback", "core/driver/inode.c:RedInodeMount", "core/driver/inode.c:RedInodeFree", "core/driver/inodedata.c:RedInodeDataWrite", "core/driver/inodedata.c:BranchBlock", "core/driver/imap.c:RedImapAllocBlock", "core/driver/imapextern.c:ImapNodeBranch", "core/driver/dir.c:RedDirEntryRename"]}
{"id": "C60", "title": "No call runs out of buffers, and every call gives back what it took", "statement": "With any buffer count the build accepts (at least MINIMUM_BUFFER_COUNT), no call ever asks the cache for a buffer while all buffers are in use: whatever is stored on the volume, whichever blocks are found or missing, whichever checks, allocations or device transfers fail, no call fails with EBUSY, and at no moment does a call hold more than the minimum number of buffers. After every call, successful or not, no buffer is in use; no buffer is given back twice or through an unset pointer, and no pointer to a buffer in use is overwritten. The minimum is exact: there is a rename that needs all of it.", "quantifier": "every configuration the preprocessor accepts (POSIX or FSE, read-only or not, with or without rename and atomic rename, any numbers of direct and indirect pointers, inline or external imap), every history of calls, every outcome of every decision and every number of loop rounds within the calls", "why_tests_cant": "How many buffers a call holds depends on where in the file or directory tree each of up to five inodes is positioned, on which error path is taken and on what is found on the way; the worst case needs two directories behind double indirect nodes, a replaced file and a cycle check at the same time. A test with more buffers than the minimum never sees a shortage, and one leaked reference shows only after as many calls as there are buffers.", "anchors": ["core/driver/buffer.c:MINIMUM_BUFFER_COUNT", "core/driver/buffer.c:RedBufferGet", "core/driver/inode.c:RedInodeMount", "core/driver/inode.c:RedInodePut", "core/driver/inode.c:RedInodePutCoord", "core/driver/inode.c:RedInodeCreate", "core/driver/inode.c:RedInodeFree", "core/driver/inodedata.c:SeekInode", "core/driver/inodedata.c:BranchOneBlock", "core/driver/inodedata.c:Shrink", "core/driver/imapextern.c:RedImapEBlockFindFree", "core/driver/dir.c:RedDirEntryRename", "core/driver/dir.c:DirCyclicRenameCheck", "core/driver/core.c:CoreRename", "core/driver/core.c:CoreUnlink", "core/driver/format.c:RedVolFormat", "core/driver/volume.c:RedVolMountMaster"]}
{"id": "C61", "title": "No arithmetic on offsets, block numbers or entry numbers wraps around", "statement": "Every file offset up to the largest file size, every length a call can pass, every block of a file, every directory entry, every inode and every block of the volume is handled with its exact value: the 16-, 32- and 64-bit computations of reading, writing, seeking, truncating, of directory offsets and counts, and of the places of inodes and map nodes give the same results as unbounded arithmetic. The largest file has min(2^32 - 1, what the pointers can address) blocks; two blocks of a file never have the same coordinates, two directory entries never overlap or cross a block, two inodes never share a place.", "quantifier": "every configuration that passes the checks (block sizes 128 to 65536, any split of the pointers, any name length below one block, volumes up to 2^32 - 1 blocks), every offset, length, block number and entry number within the limits", "why_tests_cant": "The results differ from exact arithmetic only near 2^16, 2^32 or at the largest file size of particular configurations, such as the last block of a file whose last double indirect node is only partly usable; a test would need terabytes or a configuration nobody has run.", "anchors": ["core/driver/inodedata.c: RedInodeDataRead, RedInodeDataWrite, SeekCoord, Shrink, TruncDindir, TruncIndir, ExpandPrepare, ReadUnaligned, WriteUnaligned", "core/driver/dir.c: DirEntryIndexToOffset, DirOffsetToEntryIndex, DIRENTS_MAX, RedDirEntryDelete", "core/driver/inode.c: InodeBlock", "core/driver/imapextern.c: RedImapNodeBlock", "core/include/redcoremacs.h: INODE_DATA_BLOCKS, INODE_SIZE_MAX", "include/redmacs.h: BLOCK_SIZE_P2"]}
{"id": "C62", "title": "Time stamps", "statement": "With time stamps compiled in, after every successful call each file has the access, modification and change times it had, except those the call has to update, and those are readings of the clock taken during the call: creating sets all times of the new file and the modification and change times of its directory; linking, unlinking and renaming set the modification and change times of the directories and the change time of the file that gets, loses or changes a name; writing and truncating set the modification and change times of the file; reading sets the access time if access times are compiled in and the volume is writable. A call that fails changes no stamp of a file. Transactions and automatic transactions commit the stamps with the rest, rollback and remounting restore the committed ones. The stamps do not change what calls do. If the clock never runs backwards, no file is modified after its change time.", "quantifier": "every history of core calls on a volume that starts with any stamps, every sequence of clock readings, every transaction mask, every argument, full volumes with the retry after a commit included", "why_tests_cant": "A stamp may be set on the wrong inode, twice, on a failing path, before an automatic retry or on an inode that is not branched only in particular histories; a test looks at one call and one clock.", "anchors": ["core/driver/inode.c: RedInodePut, RedInodeCreate, RedInodeLinkDec", "core/driver/core.c: CoreCreate, CoreLink, CoreUnlink, CoreRename, RedCoreFileRead, CoreFileWrite, CoreFileTruncate, RedCoreDirRead, RedCoreStat", "core/driver/volume.c: RedVolTransact, RedVolRollback", "core/include/rednodes.h: INODE"]}
{"id": "C63", "title": "Volumes are independent", "statement": "A call of the POSIX API that is not about a volume - no path it is given leads there, its descriptor, directory stream or working directory is not there - returns the same and does the same to everything else whatever state that volume is in (mounted or not, full, damaged, never formatted), and leaves the volume bit for bit as it is: files, disk, allocations, modes. The same for any number of such calls by any tasks. A call is about at most one volume, except initialising, uninitialising and red_sync.", "quantifier": "every reachable state of a system with any number of volumes, every call, task, argument and state of the other volume, reachable or not; every history of calls", "why_tests_cant": "The core works on a global current volume; a call that fails to set it, or sets it on the way to an error, acts on the volume of the call before, which only particular histories on several volumes show.", "anchors": ["posix/posix.c: all functions of the API, PathStartingPoint, FildesToHandle, CwdGet, CwdResetVol", "core/driver/core.c: RedCoreVolSetCurrent", "core/include/redcorevol.h"]}
{"id": "C64", "title": "The entries of a directory are counted in 32 bits without wrapping", "statement": "Looking up a name, reading the next entry and deleting an entry, done with the 32-bit counters of the code, give the result and the effects which the same operations give when they count with unbounded numbers, in every directory of a well-formed volume and in every directory whose entries, rounded up by one block, number at most 2^32. If the largest directory the configuration allows has fewer than 2^32 entries, a lookup and a read end after looking at each block at most once, whatever is on the disk. Otherwise they need not end: with the block size and name length of the Linux project a directory found on the disk with a suitable size and no block makes both run forever.", "quantifier": "every legal configuration; every volume, well formed or not, every directory inode and size, every name, index and contents of the blocks; the negative part: every volume and a concrete directory", "why_tests_cant": "A counter that wraps does so only in a directory of 64 gigabytes or on an image made by hand: no test directory is large enough.", "anchors": ["core/driver/dir.c: RedDirEntryLookup, RedDirEntryRead, RedDirEntryDelete", "projects/linux/redconf.h"]}
{"id": "C65", "title": "Changing the size of a file in machine words", "statement": "Changing the size of a file or directory, computed with the 32-bit block numbers and 16-bit entry numbers and loop counters of the code, gives what unbounded numbers give: the same result, the same blocks freed, kept and changed, the same size. No loop over the blocks of the file takes more rounds than a file can have blocks. One sum does wrap around, in the last round of a loop when a file can have 2^32 - 1 blocks, and is not used any more then.", "quantifier": "every legal configuration, every file on every disk, well formed or not, with a size within the limit; every new size, valid or not; every sound position of the inode before", "why_tests_cant": "The words matter only for files near the largest size of configurations with large blocks; nobody tests terabyte files.", "anchors": ["core/driver/inodedata.c: RedInodeDataTruncate, Shrink, TruncDindir, TruncIndir, ExpandPrepare"]}
{"id": "C66", "title": "The errors of the functions of the core", "statement": "A function of the core that fails on a device that works returns an error that the comment of that function in core.c lists, with one exception (RedCoreLookup also returns ENAMETOOLONG); EIO is returned only for mounting a volume. If operations of the device fail, in whichever places and also within commits, the error is EIO or one of those. No call reports that the driver is broken (EFUBAR) or that something is not supported, and none goes on forever.", "quantifier": "every legal configuration, every state that can be reached by calls, formats and power losses, every call, every choice of failing device operations; and every call in every history with device failures, except those that look at the files of a volume on which the device has failed", "why_tests_cant": "Tests check the error that they provoke; that no other error is possible is a statement about all states and all failures of the device.", "anchors": ["core/driver/core.c: RedCoreCreate, RedCoreLink, RedCoreUnlink, RedCoreLookup, RedCoreRename, RedCoreStat, RedCoreFileSizeGet, RedCoreFileRead, RedCoreFileWrite, RedCoreFileTruncate, RedCoreDirRead, RedCoreDirParent, RedCoreVolMount, RedCoreVolUnmount, RedCoreVolTransact, RedCoreVolRollback, RedCoreVolStat, RedCoreTransMaskSet, RedCoreTransMaskGet"]}
