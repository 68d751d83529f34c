import Verif.Model.Device
/-!
What a volume may do with the block device it is on.
-/
namespace RedFs.Device
open RedFs BlockIo

/-- The first sector after the volume: as configured; or the end of the device, if the size or the number of the
sectors are not configured. -/
def endOf (vc : VConf) (os : Os) : Nat :=
  if vc.secSize ≠ 0 ∧ vc.secCount ≠ 0 then vc.offset + vc.secCount
  else match os.geo with
    | .is i => i.count
    | _ => 0

/-- All sectors of the request are on the device, and belong to the volume. -/
def Inside (vc : VConf) (os : Os) (r : Req) : Prop :=
  vc.offset ≤ r.start ∧ r.start + r.count ≤ endOf vc os ∧ ∀ i, os.geo = .is i → r.start + r.count ≤ i.count

/-- A device is open for reading (`some false`), for reading and writing (`some true`), or not open (`none`):
what may be asked of it, and what that makes of it.  The flag tells whether the driver has reported success.  If closing fails it
is not known whether the device is still open. -/
inductive Next (vc : VConf) (os : Os) : Option Bool → OsOp × Bool → Option Bool → Prop
  | opened (rw : Bool) : Next vc os none (.opened rw, true) (some rw)
  | openFails (rw : Bool) : Next vc os none (.opened rw, false) none
  | closed (rw : Bool) (ok : Bool) : Next vc os (some rw) (.closed, ok) none
  | closeFails (rw : Bool) : Next vc os (some rw) (.closed, false) (some rw)
  | geometry (rw ok : Bool) : Next vc os (some rw) (.geometry, ok) (some rw)
  | read (rw ok : Bool) (r : Req) : Inside vc os r → Next vc os (some rw) (.read r, ok) (some rw)
  | write (ok : Bool) (r : Req) : Inside vc os r → Next vc os (some true) (.write r, ok) (some true)
  | flush (ok : Bool) : Next vc os (some true) (.flush, ok) (some true)

/-- The calls of the operating system's driver are in order, and leave the device open or closed as `x` says. -/
inductive Orderly (vc : VConf) (os : Os) : List (OsOp × Bool) → Option Bool → Prop
  | nil : Orderly vc os [] none
  | snoc {l x e y} : Orderly vc os l x → Next vc os x e y → Orderly vc os (l ++ [e]) y

/-- Only reading. -/
def Act.Reads : Act → Prop
  | .read .. => True
  | _ => False

/-- The driver writes only to a volume that is not read-only; mounting writes nothing. -/
def Ev.Allowed (s : St) : Ev → Prop
  | .mount _ l _ => ∀ a ∈ l, a.Reads
  | .use l | .unmount l _ => s.readOnly = true → ∀ a ∈ l, a.Reads
  | .init => s.mounted = false
  | _ => True

/-- The state `s` is reached by some history, from the start. -/
inductive Reached (c : Conf) (inl ext : Bool) (vc : VConf) (os : Os) : St → Prop
  | init : Reached c inl ext vc os St.init
  | step {s : St} {e : Ev} : Reached c inl ext vc os s → e.Allowed s → Reached c inl ext vc os (Device.step c inl ext vc os e s).2

/-- Sector `n` has been asked to be written. -/
def Written (s : St) (n : Nat) : Prop := ∃ r ok, (OsOp.write r, ok) ∈ s.log ∧ r.start ≤ n ∧ n < r.start + r.count
/-- Sector `n` has been asked to be read. -/
def WasRead (s : St) (n : Nat) : Prop := ∃ r ok, (OsOp.read r, ok) ∈ s.log ∧ r.start ≤ n ∧ n < r.start + r.count

end RedFs.Device
