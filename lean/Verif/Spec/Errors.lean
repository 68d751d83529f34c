import Verif.Spec.PosixDoes
/-!
The error codes of the POSIX API.
-/
namespace RedFs.Posix
open Str Spec

/-- The error codes listed for each call in its documentation, posix.c; the lines are those of the lists. -/
def documented : PCall → List Err
  | .init => [.einval]  -- 209
  | .uninit => [.ebusy]  -- 258
  | .sync => [.eio, .eusers]  -- 339-340
  | .mount _ _ => [.ebusy, .einval, .eio, .enoent, .erofs, .eusers]  -- 402-406, 442-447
  | .umount _ _ => [.ebusy, .einval, .eio, .enoent, .eusers]  -- 529-534, 564-571
  | .format _ => [.ebusy, .einval, .eio, .enoent, .eusers]  -- 661-665
  | .transact _ => [.einval, .eio, .enoent, .erofs, .eusers]  -- 707-711
  | .rollback _ => [.ebusy, .einval, .enoent, .erofs, .eusers]  -- 751-755
  | .setMask _ _ => [.einval, .enoent, .eusers]  -- 847-850
  | .getMask _ => [.einval, .enoent, .eusers]  -- 890-893
  | .statvfs _ => [.einval, .enoent, .eusers]  -- 931-934
  | .open _ _ => [.eexist, .einval, .eio, .eisdir, .emfile, .enametoolong, .enfile, .enoent, .enospc, .enotdir, .erofs, .eusers]  -- 1001-1025
  | .unlink _ => [.ebusy, .einval, .eio, .enametoolong, .enoent, .enotdir, .enotempty, .enospc, .eusers]  -- 1106-1122
  | .mkdir _ => [.eexist, .einval, .eio, .enametoolong, .enoent, .enospc, .enotdir, .erofs, .eusers]  -- 1154-1167
  | .rmdir _ => [.ebusy, .einval, .eio, .enametoolong, .enoent, .enotdir, .enotempty, .enospc, .erofs, .eusers]  -- 1234-1252
  | .rename _ _ => [.ebusy, .eexist, .einval, .eio, .eisdir, .enametoolong, .enoent, .enotdir, .enotempty, .enospc, .erofs, .eusers, .exdev]  -- 1307-1335
  | .link _ _ => [.eexist, .einval, .eio, .emlink, .enametoolong, .enoent, .enospc, .enotdir, .eperm, .erofs, .eusers, .exdev]  -- 1435-1455
  | .close _ => [.ebadf, .eio, .eusers]  -- 1520-1522
  | .read _ _ => [.ebadf, .einval, .eio, .eisdir, .eusers]  -- 1561-1567
  | .write _ _ _ => [.ebadf, .efbig, .einval, .eio, .enospc, .eusers]  -- 1663-1673
  | .fsync _ => [.ebadf, .eio, .eusers]  -- 1791-1793
  | .lseek _ _ _ => [.ebadf, .einval, .eio, .eisdir, .eusers]  -- 1867-1872
  | .ftruncate _ _ => [.ebadf, .efbig, .eio, .enospc, .eusers]  -- 2005-2011
  | .fstat _ => [.ebadf, .einval, .eio, .eusers]  -- 2070-2073
  | .opendir _ => [.einval, .eio, .enoent, .enotdir, .emfile, .eusers]  -- 2117-2125
  | .readdir _ => [.ebadf, .eio, .eusers]  -- 2186-2188
  | .rewinddir _ => []  -- 2262: no result
  | .closedir _ => [.ebadf, .eusers]  -- 2287-2288
  | .chdir _ => [.einval, .eio, .enametoolong, .enoent, .enotdir, .eusers]  -- 2331-2341
  | .getcwd _ => [.einval, .eio, .erange, .eusers]  -- 2431-2435

/-- The errors that are returned although the documentation of the call does not list them. -/
inductive Undocumented (pc : PConf) (t : Nat) (s : PSt) : PCall → Err → Prop
  /-- the driver is not initialized -/
  | down {k : PCall} : s.inited = false → Undocumented pc t s k .einval
  /-- all slots for tasks are in use: `red_uninit`, `red_rewinddir` (which returns nothing) -/
  | users {k : PCall} : s.inited = true → NoSlot pc t s → k = .uninit ∨ (∃ d, k = .rewinddir d) → Undocumented pc t s k .eusers
  /-- `red_unlink` on a read-only volume -/
  | unlink {s1 : PSt} {path : List Byte} {vol start : Nat} {l : List Byte} : Registers pc t s s1 → StartAt pc s1 t path (.ok (vol, start, l)) → (s.vols vol).readOnly = true →
      Undocumented pc t s (.unlink path) .erofs
  /-- `red_mkdir` when all inodes are in use -/
  | mkdir {s1 : PSt} {path : List Byte} {vol start : Nat} {l : List Byte} : Registers pc t s s1 → StartAt pc s1 t path (.ok (vol, start, l)) →
      (∀ i, (pc.conf vol).inodeValid i = true → (s.files pc vol i).isSome = true) → Undocumented pc t s (.mkdir path) .enfile
  /-- `red_opendir` with a name that is too long -/
  | opendir {s1 : PSt} {path : List Byte} {vol start : Nat} {l n : List Byte} : Registers pc t s s1 → StartAt pc s1 t path (.ok (vol, start, l)) → n ∈ comps pc.sep l →
      (pc.conf vol).nameMax < n.length → Undocumented pc t s (.opendir path) .enametoolong
  /-- `red_fsync` on a read-only volume -/
  | fsync {fd : Int} {k : Nat} : IsFd pc s fd k → (s.vols (s.handle k).vol).readOnly = true → (s.vols (s.handle k).vol).transMask.testBit Event.fsync.bit = true →
      Undocumented pc t s (.fsync fd) .erofs
  /-- `red_settransmask` on a read-only volume -/
  | setMask {vol : List Byte} {mask i : Nat} : VolName pc vol i → (s.vols i).mounted = true → (s.vols i).readOnly = true → Undocumented pc t s (.setMask vol mask) .erofs

end RedFs.Posix
