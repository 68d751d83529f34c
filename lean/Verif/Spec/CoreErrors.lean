import Verif.Spec.Io
/-!
The errors that are listed in the documentation of the functions of core.c.
-/
namespace RedFs.Spec
open RedFs

/-- The errors listed for each call in its documentation, core.c; the lines are those of the lists.  That a volume is mounted already, or is not mounted,
is found out by `red_mount` and `red_umount` in POSIX builds: posix.c, 402-406 and 529-534. -/
def coreDocumented (c : Conf) : Call → List Err
  | .create .. => [.einval, .eio, .erofs, .enotdir, .ebadf, .enospc, .enfile, .enametoolong, .eexist]  -- 598-609
  | .link .. => [.ebadf, .eexist, .einval, .eio, .emlink, .enametoolong, .enospc, .enotdir, .eperm, .erofs]  -- 769-784
  | .unlink .. => [.ebadf, .einval, .eio, .enametoolong, .enoent, .enotdir, .enospc, .enotempty, .erofs]  -- 949-963
  | .lookup .. => [.ebadf, .einval, .eio, .enoent, .enotdir]  -- 1123-1128
  | .rename .. => [.ebadf, .eexist, .einval, .eio, .eisdir, .enametoolong, .enoent, .enotdir, .enotempty, .enospc, .erofs]  -- 1192-1216
  | .stat .. => [.ebadf, .einval, .eio]  -- 1399-1401
  | .fileSize .. => [.ebadf, .einval, .eio, .eisdir]  -- 1459-1462
  | .read .. => [.ebadf, .einval, .eio, .eisdir]  -- 1515-1518
  | .write .. => [.ebadf, .efbig, .einval, .eio, .eisdir, .enospc, .erofs]  -- 1585-1594
  | .truncate .. => [.ebadf, .efbig, .einval, .eio, .eisdir, .enospc, .erofs]  -- 1706-1712
  | .dirRead .. => [.ebadf, .einval, .eio, .enoent, .enotdir]  -- 1827-1831
  | .dirParent .. => [.ebadf, .einval, .eio, .enotdir]  -- 1884-1887
  | .statfs => [.einval]  -- 434
  | .maskSet .. => [.einval, .erofs]  -- 520-522
  | .maskGet => [.einval]  -- 560
  | .transact => [.einval, .eio, .erofs]  -- 367-369
  | .rollback => [.einval, .eio, .erofs]  -- 401-403
  | .mount .. => .eio :: if c.posix then [.ebusy] else []  -- 296
  | .unmount => .eio :: if c.posix then [.einval] else []  -- 321

end RedFs.Spec
