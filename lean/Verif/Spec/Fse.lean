import Verif.Model.Fse
import Verif.Spec.System
/-!
What a user of the File System Essentials API may assume, in full: a volume is a fixed number of files, a
file is a list of bytes, and there is a second copy of the files - those of the last transaction point -
which is found after a power loss.
-/
namespace RedFs.Fse

/-- The contents of the files, by file number. -/
abbrev Contents := Nat → List Byte

/-- A volume. -/
structure FVol where
  mounted : Bool
  /-- the events that cause automatic transactions -/
  mask : Nat
  /-- the files; meaningful while mounted -/
  now : Contents
  /-- the files at the last transaction point; `none` if the disk is not formatted -/
  disk : Option Contents

/-- All volumes, and whether the driver is initialized. -/
structure FSys where
  inited : Bool
  vol : Nat → FVol

namespace Spec
variable (c : Conf) (fc : FConf)

/-- `xs`, extended with zeros to at least `n` bytes. -/
def pad (xs : List Byte) (n : Nat) : List Byte := xs ++ List.replicate (n - xs.length) 0
/-- `xs` after `bs` has been written at `off`: bytes between the old end and `off` are zero; writing nothing changes nothing. -/
def put (xs : List Byte) (off : Nat) (bs : List Byte) : List Byte :=
  if bs = [] then xs else (pad xs off).take off ++ bs ++ xs.drop (off + bs.length)
/-- `xs` cut or extended with zeros to `n` bytes. -/
def resize (xs : List Byte) (n : Nat) : List Byte := (pad xs n).take n
/-- The contents with file `file` replaced. -/
def set (G : Contents) (file : Nat) (xs : List Byte) : Contents := fun i => if i = file then xs else G i
/-- All files are empty. -/
def empty : Contents := fun _ => []

/-- The file numbers start at 2. -/
def IsFile (file : Nat) : Prop := 2 ≤ file ∧ file < 2 + c.inodeCount
instance (file : Nat) : Decidable (IsFile c file) := inferInstanceAs (Decidable (_ ∧ _))

/-- Writing: all of the `len` bytes of `buf`, or (if space is short, or the file gets as long as it can) the
first `n` of them are written. -/
def Write (file off len : Nat) (buf : Nat → Byte) (G : Contents) (r : Except Err FReply) (G' : Contents) : Prop :=
  if ¬ IsFile c file then r = .error .ebadf ∧ G' = G
  else if c.sizeMax < off ∨ (off = c.sizeMax ∧ 0 < len) then r = .error .efbig ∧ G' = G
  else (r = .error .enospc ∧ 0 < len ∧ G' = G) ∨
    ∃ n, r = .ok (.num n) ∧ n ≤ len ∧ (0 < len → 0 < n) ∧ off + n ≤ c.sizeMax ∧
      G' = set G file (put (G file) off ((List.range n).map buf))

/-- Setting the size. -/
def Truncate (file size : Nat) (G : Contents) (r : Except Err FReply) (G' : Contents) : Prop :=
  if ¬ IsFile c file then r = .error .ebadf ∧ G' = G
  else if c.sizeMax < size then r = .error .efbig ∧ G' = G
  else (r = .error .enospc ∧ G' = G) ∨ (r = .ok .unit ∧ G' = set G file (resize (G file) size))

/-- A call that modifies files.  If it succeeds and its event is enabled, its result is committed.  If there is no
space and "volume full" is enabled, the state before the call may be committed first. -/
def Modify (ev : Event) (R : Contents → Except Err FReply → Contents → Prop) (v : FVol) (r : Except Err FReply) (v' : FVol) (tr : List (Option Contents)) : Prop :=
  if v.mounted = false then r = .error .einval ∧ v' = v ∧ tr = []
  else ∃ pre G,
    (pre = [] ∨ pre = [some v.now] ∧ v.mask.testBit Event.volfull.bit = true ∧ R v.now (.error .enospc) v.now) ∧
    R v.now r G ∧
    tr = pre ++ (if r.toBool = true ∧ v.mask.testBit ev.bit = true then [some G] else []) ∧
    v' = { v with now := G, disk := tr.getLast?.getD v.disk }

/-- A call that only asks. -/
def Ask (Q : Except Err FReply → Prop) (v : FVol) (r : Except Err FReply) (v' : FVol) (tr : List (Option Contents)) : Prop :=
  v' = v ∧ tr = [] ∧ if v.mounted = false then r = .error .einval else Q r

/-- What a call does to the volume it names: `v` is the volume before, `r` the result, `v'` the volume after, and
`tr` is what was, one after the other, on the disk meanwhile. -/
def VolDoes (k : FCall) (v : FVol) (r : Except Err FReply) (v' : FVol) (tr : List (Option Contents)) : Prop :=
  match k with
  | .init => False
  | .uninit => False
  | .mount _ => tr = [] ∧
      if v.mounted = true then r = .ok .unit ∧ v' = v
      else match v.disk with
        | none => r = .error .eio ∧ v' = v
        | some G => r = .ok .unit ∧ v' = { v with mounted := true, now := G }
  | .unmount _ =>
      if v.mounted = false then r = .ok .unit ∧ v' = v ∧ tr = []
      else r = .ok .unit ∧ tr = (if v.mask.testBit Event.umount.bit = true then [some v.now] else []) ∧
        v' = { v with mounted := false, disk := tr.getLast?.getD v.disk }
  | .format _ =>
      if v.mounted = true then r = .error .ebusy ∧ v' = v ∧ tr = []
      else r = .ok .unit ∧ tr = [none, some empty] ∧ v' = { v with disk := some empty }
  | .read _ file off len => Ask (fun r =>
      if ¬ IsFile c file then r = .error .ebadf else r = .ok (.bytes (((v.now file).drop off).take len))) v r v' tr
  | .write _ file off len buf => Modify .write (Write c file off len buf) v r v' tr
  | .truncate _ file size => Modify .truncate (Truncate c file size) v r v' tr
  | .sizeGet _ file => Ask (fun r =>
      if ¬ IsFile c file then r = .error .ebadf else r = .ok (.num (v.now file).length)) v r v' tr
  | .maskSet _ mask => tr = [] ∧
      if v.mounted = false ∨ mask &&& c.transactMask ≠ mask then r = .error .einval ∧ v' = v
      else r = .ok .unit ∧ v' = { v with mask := mask }
  | .maskGet _ => Ask (fun r => r = .ok (.num v.mask)) v r v' tr
  | .transact _ =>
      if v.mounted = false then r = .error .einval ∧ v' = v ∧ tr = []
      else r = .ok .unit ∧ tr = [some v.now] ∧ v' = { v with disk := some v.now }
  | .rollback _ => tr = [] ∧
      if v.mounted = false then r = .error .einval ∧ v' = v
      else r = .ok .unit ∧ ∃ G, v.disk = some G ∧ v' = { v with now := G }

/-- The volume a call names. -/
def vol? : FCall → Option Nat
  | .init => none
  | .uninit => none
  | .mount vol => some vol
  | .unmount vol => some vol
  | .format vol => some vol
  | .read vol .. => some vol
  | .write vol .. => some vol
  | .truncate vol .. => some vol
  | .sizeGet vol _ => some vol
  | .maskSet vol _ => some vol
  | .maskGet vol => some vol
  | .transact vol => some vol
  | .rollback vol => some vol

/-- Requests that are refused whatever the state of the volume: more than 2^31 - 1 bytes. -/
def tooLong : FCall → Bool
  | .read _ _ _ len => decide (2147483647 < len)
  | .write _ _ _ len _ => decide (2147483647 < len)
  | _ => false

/-- What a call does.  `tr` is what was on the disk of the volume that the call names. -/
def Does (k : FCall) (s : FSys) (r : Except Err FReply) (s' : FSys) (tr : List (Option Contents)) : Prop :=
  match vol? k with
  | none => tr = [] ∧
      match k with
      | .init => r = .ok .unit ∧ if s.inited = true then s' = s
          else s' = ⟨true, fun j => if j < fc.n then { s.vol j with mask := fc.transDefault } else s.vol j⟩
      | _ => if s.inited = false then r = .ok .unit ∧ s' = s
          else if ∃ j, j < fc.n ∧ (s.vol j).mounted = true then r = .error .ebusy ∧ s' = s
          else r = .ok .unit ∧ s' = { s with inited := false }
  | some i =>
      if s.inited = false ∨ fc.n ≤ i ∨ tooLong k = true then r = .error .einval ∧ s' = s ∧ tr = []
      else s'.inited = true ∧ (∀ j, j ≠ i → s'.vol j = s.vol j) ∧ VolDoes (fc.conf i) k (s.vol i) r (s'.vol i) tr

/-- What is left by a power loss during a call: on the disk of the volume that the call names, what was there
before the call or at some time during the call; on the other disks, what was there before the call. -/
def Lost (k : FCall) (s s' : FSys) : Prop :=
  s'.inited = false ∧ (∀ j, j < fc.n → (s'.vol j).mounted = false) ∧
  ∃ r s1 tr, Does fc k s r s1 tr ∧ ∀ j, j < fc.n → (s'.vol j).disk = (s.vol j).disk ∨ (vol? k = some j ∧ (s'.vol j).disk ∈ tr)

end Spec

/-! ### Executions -/

/-- What happens. -/
inductive FEv
  | call (k : FCall) (r : Except Err FReply)
  /-- power is lost during a call, or when none is going on -/
  | crash (k : FCall)
  | idleCrash

/-- The histories that a user may expect. -/
inductive FSRun (fc : FConf) (s0 : FSys) : List FEv → FSys → Prop
  | nil : FSRun fc s0 [] s0
  | call {t : List FEv} {s s' : FSys} {k : FCall} {r : Except Err FReply} {tr : List (Option Contents)} :
      FSRun fc s0 t s → Spec.Does fc k s r s' tr → FSRun fc s0 (t ++ [.call k r]) s'
  | crash {t : List FEv} {s s' : FSys} {k : FCall} : FSRun fc s0 t s → Spec.Lost fc k s s' → FSRun fc s0 (t ++ [.crash k]) s'
  | idleCrash {t : List FEv} {s s' : FSys} : FSRun fc s0 t s → s'.inited = false →
      (∀ j, j < fc.n → (s'.vol j).mounted = false ∧ (s'.vol j).disk = (s.vol j).disk) → FSRun fc s0 (t ++ [.idleCrash]) s'

/-- Formatting is correct only if nothing is left of `ulAlmostFreeBlocks` from the last mount, see DESIGN.md, finding 10. -/
def Permitted (fc : FConf) (k : FCall) (s : FSt) : Prop :=
  ∀ i, k = .format i → i < fc.n → (s.vols i).almostFree = 0 ∨ (s.vols i).mounted = true

/-- The ghost `hist` of a volume is cleared when it has been formatted. -/
def forget (k : FCall) (r : Except Err FReply) (s : FSt) : FSt :=
  match k, r with
  | .format i, .ok _ => { s with vols := fun j => if j = i then { s.vols i with hist := [] } else s.vols j }
  | _, _ => s

/-- What a power loss can leave on the disk (see `CrashImage`, `FormatImage`). -/
def Image (c : Conf) (k : FCall) (e : Epoch) (D : Nat → Blk) : Prop :=
  match k with
  | .format _ => FormatImage c e D
  | _ => CrashImage c e D

/-- The histories of the model. -/
inductive FRun (fc : FConf) (s0 : FSt) : List FEv → FSt → Prop
  | nil : FRun fc s0 [] s0
  | call {t : List FEv} {s s' : FSt} {k : FCall} {r : Except Err FReply} :
      FRun fc s0 t s → Permitted fc k s → fexec fc k s = (r, s') → FRun fc s0 (t ++ [.call k r]) (forget k r s')
  | crash {t : List FEv} {s s' w : FSt} {k : FCall} {r : Except Err FReply} :
      FRun fc s0 t s → Permitted fc k s → fexec fc k s = (r, s') → w.inited = false →
      (∀ j, j < fc.n → ∃ new e D, (s'.vols j).hist = new ++ (s.vols j).hist ∧ e ∈ (s'.vols j).epoch :: new ∧
        Image (fc.conf j) k e D ∧ Boot (w.vols j) D) →
      FRun fc s0 (t ++ [.crash k]) w
  | idleCrash {t : List FEv} {s w : FSt} : FRun fc s0 t s → w.inited = false →
      (∀ j, j < fc.n → ∃ D, CrashImage (fc.conf j) (s.vols j).epoch D ∧ Boot (w.vols j) D) →
      FRun fc s0 (t ++ [.idleCrash]) w

/-- A configuration for the FSE API. -/
structure FConf.Ok (fc : FConf) : Prop where
  conf : ∀ i, i < fc.n → (fc.conf i).SysOk
  fse : ∀ i, i < fc.n → (fc.conf i).posix = false

/-- The system has been started with disks that have never been formatted. -/
structure FStart (fc : FConf) (s : FSt) : Prop where
  inited : s.inited = false
  blank : ∀ i, i < fc.n → Blank (fc.conf i) (s.vols i)

/-- That state as the user knows it. -/
def unformatted : FSys := ⟨false, fun _ => ⟨false, 0, Spec.empty, none⟩⟩

end RedFs.Fse
