import Verif.Model.Geometry
/-!
Block I/O: core/driver/blockio.c and the range checks of bdev/bdev.c.

The operating system's block device driver is an arbitrary function telling whether the
`n`-th request issued during the call succeeds.  A call returns its status and the list
of sector requests it passed to the driver, in order.
-/
namespace RedFs.BlockIo
open RedFs

/-- What blockio.c knows about the volume. -/
structure IoVol where
  /-- `gaRedVolume[].ulBlockCount` -/
  blockCount : Nat
  /-- `gaRedVolume[].bBlockSectorShift` -/
  shift : Nat
  /-- `gaRedVolConf[].ullSectorOffset` -/
  offset : Nat
  /-- `gaRedBdevInfo[].ullSectorCount` -/
  sectorCount : Nat
  /-- `gaRedVolConf[].bBlockIoRetries`, a `uint8_t` -/
  retries : Nat

/-- A request to the driver: first sector and number of sectors. -/
structure Req where
  start : Nat
  count : Nat
deriving DecidableEq

/-- `uint64_t` wrap-around. -/
def u64 (n : Nat) : Nat := n % 18446744073709551616

/-- `VOLUME_SECTOR_RANGE_IS_VALID`, include/redmacs.h:200-202 (the subtraction is `uint64_t`). -/
def rangeValid (io : IoVol) (r : Req) : Bool :=
  decide (io.offset ≤ r.start) &&
  decide (r.count ≤ u64 (io.offset + io.sectorCount + (18446744073709551616 - r.start)))

/-- `RedBDevRead`, bdev/bdev.c:216-236, and `RedBDevWrite`, bdev.c:259-279; `os n` is the
status of the `n`-th call of `RedOsBDevRead`/`RedOsBDevWrite`.  Returns the status and the
requests passed on. -/
def bdevXfer (io : IoVol) (os : Nat → Except Err Unit) (log : List Req) (r : Req) :
    Except Err Unit × List Req :=
  if rangeValid io r then (os log.length, log ++ [r]) else (.error .einval, log)

/-- The retry loop `for(bRetryIdx = 0U; bRetryIdx <= bBlockIoRetries; bRetryIdx++)`,
blockio.c:83-91, 141-149 and 183-191.  `idx` is a `uint8_t`.  `fuel` bounds the number of
iterations which are looked at; running out of it is `hang`. -/
def retryLoop (xfer : List Req → Except Err Unit × List Req) (retries : Nat) :
    Nat → Nat → Except Err Unit → List Req → Except Err Unit × List Req
  | 0, _, _, log => (.error .hang, log)
  | fuel + 1, idx, ret, log =>
    if idx ≤ retries then
      match xfer log with
      | (.ok (), log') => (.ok (), log')
      | (.error e, log') => retryLoop xfer retries fuel ((idx + 1) % 256) (.error e) log'
    else (ret, log)

/-- `RedIoRead`, blockio.c:56-97, and `RedIoWrite`, blockio.c:114-155 (without the
`CRITICAL_ASSERT` and the NULL check). -/
def ioXfer (io : IoVol) (os : Nat → Except Err Unit) (fuel : Nat) (start count : Nat) :
    Except Err Unit × List Req :=
  if start ≥ io.blockCount ∨ io.blockCount - start < count ∨ count = 0 then (.error .einval, [])
  else
    let r : Req := ⟨u64 (u64 (start <<< io.shift) + io.offset), u32 (count <<< io.shift)⟩
    retryLoop (fun log => bdevXfer io os log r) io.retries fuel 0 (.ok ()) []

/-- `RedIoFlush`, blockio.c:169-197: the retry loop around `RedBDevFlush`. The flush requests
are logged as empty requests. -/
def ioFlush (io : IoVol) (os : Nat → Except Err Unit) (fuel : Nat) : Except Err Unit × List Req :=
  retryLoop (fun log => (os log.length, log ++ [⟨0, 0⟩])) io.retries fuel 0 (.ok ()) []

/-- What the geometry code establishes about `IoVol` (see `C36_accepted_geometry`). -/
structure IoVol.Ok (io : IoVol) : Prop where
  inside : io.blockCount * 2 ^ io.shift ≤ io.sectorCount
  nowrap : io.offset + io.sectorCount ≤ 18446744073709551615

end RedFs.BlockIo
