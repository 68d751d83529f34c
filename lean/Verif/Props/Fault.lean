import Verif.Lemmas.Fault
import Verif.Props.System
set_option linter.unusedSimpArgs false
set_option linter.unusedVariables false
/-!
C53: commits that fail, because the block device reports an error.

`execF c f1 f2 k` is the call `k` on a device which may report errors during the commits the call makes
(`Model/Fault.lean`); `exec c k` is the call on a device that works.
-/
namespace RedFs.Props.Fault
open RedFs RedFs.Props.System
open M Vol

variable {c : Conf} {v v' w : Vol} {f1 f2 : Option Fault}

/-- The calls that change files, or what is on the disk, of a mounted volume. -/
def Changes : Call → Prop
  | .create .. | .link .. | .unlink .. | .rename .. | .write .. | .truncate .. | .transact | .rollback => True
  | _ => False

/-- **C53** On a device that works nothing is different. -/
theorem C53_no_fault (k : Call) : execF c none none k = exec c k := execF_none k

/-- **C53** A call during which a commit fails - whichever device operation it was - returns `EIO`, and
leaves the volume mounted and read-only.  The files as later calls see them are those before the call,
or, if it was the automatic commit *after* the operation that failed, those after it: the operation has
been done, although `EIO` is returned. -/
theorem C53_fails (hc : c.SysOk) (h : Reach c v) (hm : v.mounted = true) {k : Call} (hk : k.Ok c) {r : Except Err Reply}
    (he : execF c f1 f2 k v = (r, v')) :
    (r, v') = exec c k v ∨
    (r = .error .eio ∧ v'.mounted = true ∧ v'.readOnly = true ∧ v'.transMask = v.transMask ∧
      ((files c v' = files c v ∧ (k = .transact ∨ (k = .unmount ∧ v.on .umount = true) ∨ v.on .volfull = true)) ∨
       (∃ a u, exec c k v = (.ok a, u) ∧ files c v' = files c u) ∧ ∃ ev, k.event = some ev ∧ v.on ev = true)) := by
  rcases exec_fault hc (Reach.up hc h hm) hk f1 f2 with g | ⟨v1, S, g1, g2, _, g3⟩
  · left; rw [← he, g]
  · right
    rw [he] at g1; obtain ⟨rfl, rfl⟩ := Prod.mk.inj g1
    refine ⟨rfl, g2.mounted, g2.readOnly, g2.mask, ?_⟩
    rcases g3 with ⟨a1, a2, _⟩ | ⟨a1, a2, _⟩
    · exact Or.inl ⟨a1, a2⟩
    · exact Or.inr ⟨a2, a1.2⟩

/-- **C53** Power fails during a call whose commit fails, or at any time after it (while the volume is
mounted): whatever subset of the writes has reached the disk, and however those that failed are torn,
the next mount shows all files exactly as they were at the last transaction point before the call, or
one of the states which the call tried to commit. -/
theorem C53_power_loss (hc : c.SysOk) (h : Reach c v) (hm : v.mounted = true) {k : Call} (hk : k.Ok c) {r : Except Err Reply}
    (he : execF c f1 f2 k v = (r, v')) (hf : (r, v') ≠ exec c k v) {new : List Epoch} (hn : v'.hist = new ++ v.hist)
    {e : Epoch} (hin : e ∈ v'.epoch :: new) {D : Nat → Blk} (hD : CrashImage c e D) (hw : Boot w D) :
    ∃ F, Found c w F ∧
      (F = committedFiles c v ∨
       (F = files c v ∧ (k = .transact ∨ (k = .unmount ∧ v.on .umount = true) ∨ v.on .volfull = true)) ∨
       (F = files c v' ∧ ∃ ev, k.event = some ev ∧ v.on ev = true)) := by
  rcases exec_fault hc (Reach.up hc h hm) hk f1 f2 with g | ⟨v1, S, g1, g2, _, g3⟩
  · exact absurd (by rw [← he, g]) hf
  · rw [he] at g1; obtain ⟨rfl, rfl⟩ := Prod.mk.inj g1
    obtain ⟨new', hn', hr⟩ := g2.recov
    have hnn : new = new' := by rw [hn'] at hn; exact (List.append_cancel_right hn).symm
    subst hnn
    obtain ⟨s, b1, b2, b3⟩ := hr e hin D hD w hw
    rcases g3 with ⟨a1, a2, rfl⟩ | ⟨a1, a2, rfl | ⟨a3, rfl⟩⟩
    · simp only [List.mem_cons, List.mem_nil_iff, or_false] at b3
      rcases b3 with b3 | b3
      · exact ⟨_, Abs.found hc b1 b2 b3, Or.inl rfl⟩
      · exact ⟨_, Abs.found hc b1 b2 b3, Or.inr (Or.inl ⟨rfl, a2⟩)⟩
    · simp only [List.mem_cons, List.mem_nil_iff, or_false] at b3
      rcases b3 with b3 | b3
      · exact ⟨_, Abs.found hc b1 b2 b3, Or.inl rfl⟩
      · exact ⟨_, Abs.found hc b1 b2 b3, Or.inr (Or.inr ⟨rfl, a1.2⟩)⟩
    · simp only [List.mem_cons, List.mem_nil_iff, or_false] at b3
      rcases b3 with b3 | b3 | b3
      · exact ⟨_, Abs.found hc b1 b2 b3, Or.inl rfl⟩
      · exact ⟨_, Abs.found hc b1 b2 b3, Or.inr (Or.inl ⟨rfl, Or.inr (Or.inr a3)⟩)⟩
      · exact ⟨_, Abs.found hc b1 b2 b3, Or.inr (Or.inr ⟨rfl, a1.2⟩)⟩

/-- **C53** From then on, whatever the device does, no call changes anything: every call that would
returns `EROFS`, and the volume stays exactly as it is (until it is unmounted). -/
theorem C53_read_only (hm : v.mounted = true) (hro : v.readOnly = true) {k : Call} (hk : Changes k) :
    execF c f1 f2 k v = (.error .erofs, v) := by
  have md : ∀ {α : Type} (f : α → Reply) (m : VM α), reply f (whenRw m) v = (.error .erofs, v) :=
    fun f m => reply_run (r := .error .erofs) (whenRw_ro hm hro)
  cases k <;> first | exact md _ _ | exact hk.elim

/-- **C53** And every call that only asks is answered from the files as `C53_fails` says they are - in
particular from those which could not be committed - exactly as the specification demands of a volume
mounted read-only with these files; it changes nothing. -/
theorem C53_readable (hc : c.SysOk) (h : Reach c v) (hm : v.mounted = true) {k : Call} (hk : k.Ok c) {r : Except Err Reply}
    (he : execF c f1 f2 k v = (r, v')) (hf : (r, v') ≠ exec c k v) {q : Call} (hq : q.Ok c) (ha : Asks q) (d : Option Files) :
    ∃ r', (∀ g1 g2, execF c g1 g2 q v' = (r', v')) ∧
      Spec.Does c q ⟨true, true, v'.transMask, files c v', d⟩ r' ⟨true, true, v'.transMask, files c v', d⟩ [] := by
  rcases exec_fault hc (Reach.up hc h hm) hk f1 f2 with g | ⟨v1, S, g1, g2, _⟩
  · exact absurd (by rw [← he, g]) hf
  · rw [he] at g1; obtain ⟨rfl, rfl⟩ := Prod.mk.inj g1
    obtain ⟨r', e1, e2⟩ := g2.reads q hq ha d
    refine ⟨r', fun a b => ?_, e2⟩
    rw [← e1]
    cases q <;> first | rfl | exact ha.elim

theorem mount_like {u w : Vol} (hb : u.blk = w.blk) (ho : u.onDisk = w.onDisk) {F : Files} (h : Found c w F) : Found c u F := by
  intro ro
  obtain ⟨w', h1, h2, h3, h4, h5⟩ := h ro
  have ho' : ∀ x : Nat, ({ u with seq := x } : Vol).onDisk = w.onDisk := fun _ => ho
  have ho2 : ∀ x : Nat, ({ w with seq := x } : Vol).onDisk = w.onDisk := fun _ => rfl
  unfold volMount at h1 ⊢
  simp only [run_bind, run_attempt, mountMaster, mountMetaroot, run_get] at h1 ⊢
  rw [hb]
  cases h0 : w.blk 0 with
  | master m =>
    rw [h0] at h1
    dsimp only at h1 ⊢
    by_cases hmm : masterMatches c m = true
    · rw [if_pos hmm] at h1 ⊢
      simp only [run_modify] at h1 ⊢
      rw [ho2] at h1
      rw [ho']
      cases hs : mrSelect c (w.onDisk 1) (w.onDisk 2) with
      | none =>
        rw [hs] at h1; dsimp only [M.fail] at h1
        simp only [run_fail, run_bind, run_modify] at h1
        exact absurd (Prod.mk.inj h1).1 (by simp)
      | some x =>
        obtain ⟨i, mr⟩ := x
        rw [hs] at h1; dsimp only at h1 ⊢
        simp only [run_modify] at h1 ⊢
        obtain ⟨_, rfl⟩ := Prod.mk.inj h1
        refine ⟨_, rfl, rfl, h3, ?_, ?_⟩
        · rw [← h4]; unfold files curBit Vol.work; dsimp only; rw [hb]
        · rw [← h5]; unfold committedFiles cmtBit Vol.comm; dsimp only; rw [hb]
    · rw [if_neg hmm] at h1
      simp only [run_fail, run_bind, run_modify] at h1
      exact absurd (Prod.mk.inj h1).1 (by simp)
  | _ =>
    rw [h0] at h1
    simp only [run_fail, run_bind, run_modify] at h1
    exact absurd (Prod.mk.inj h1).1 (by simp)

/-- **C53** A volume whose commit has failed can be unmounted, without committing; and if it is mounted
again (without a power loss) it shows all files as they were at the last transaction point, or a state
which the failed call tried to commit.  The hypothesis `hD` is about the device: the metaroot block
which it has failed to write reads as before, as it should have been written, or as garbage. -/
theorem C53_remount (hc : c.SysOk) (h : Reach c v) (hm : v.mounted = true) {k : Call} (hk : k.Ok c) {r : Except Err Reply}
    (he : execF c f1 f2 k v = (r, v')) (hf : (r, v') ≠ exec c k v) (hD : CrashImage c v'.epoch v'.onDisk) :
    ∃ u, (∀ g1 g2, execF c g1 g2 .unmount v' = (.ok .unit, u)) ∧ u.mounted = false ∧ ∃ F, Found c u F ∧
      (F = committedFiles c v ∨
       (F = files c v ∧ (k = .transact ∨ (k = .unmount ∧ v.on .umount = true) ∨ v.on .volfull = true)) ∨
       (F = files c v' ∧ ∃ ev, k.event = some ev ∧ v.on ev = true)) := by
  rcases C53_fails hc h hm hk he with g | ⟨_, g1, g2, _⟩
  · exact absurd g hf
  · obtain ⟨new, hn⟩ : ∃ new, v'.hist = new ++ v.hist := by
      rcases exec_fault hc (Reach.up hc h hm) hk f1 f2 with g | ⟨v1, S, g1, g2, _⟩
      · exact absurd (by rw [← he, g]) hf
      · rw [he] at g1; obtain ⟨rfl, rfl⟩ := Prod.mk.inj g1
        obtain ⟨new, hn, _⟩ := g2.recov
        exact ⟨new, hn⟩
    obtain ⟨F, hF, hh⟩ := C53_power_loss hc h hm hk he hf hn (List.mem_cons_self ..) hD (boot_boot c v'.onDisk)
    refine ⟨{ v'.discardAll with mounted := false }, ?_, rfl, F, mount_like (u := { v'.discardAll with mounted := false }) (w := bootVol c v'.onDisk) rfl ?_ hF, hh⟩
    · intro g3 g4
      refine reply_run (r := .ok ()) ?_
      unfold apiUnmountF coreUnmountF
      simp only [run_bind, run_get, g1, if_true, g2]; rfl
    · rfl

/-! ### an example -/

/-- Did the call fail with `EIO`? -/
def isEio : Except Err Reply → Bool
  | .error .eio => true
  | _ => false

/-- `red_transact` on the demo volume; the device flush after writing the metaroot fails, and the metaroot block reads as it was written. -/
def failF : Option Fault := some (.flushAfter (.metaroot (nextMr demoVol)))
def failVol : Vol := (execF demoConf none failF .transact demoVol).2

theorem execF_eta (c : Conf) (f1 f2 : Option Fault) (k : Call) (v : Vol) : execF c f1 f2 k v = ((execF c f1 f2 k v).1, (execF c f1 f2 k v).2) := (Prod.mk.eta ..).symm
theorem fail_eio : isEio (execF demoConf none failF .transact demoVol).1 = true := by decide +kernel
theorem fail_mounted : failVol.mounted = true := by decide +kernel
theorem fail_ro : failVol.readOnly = true := by decide +kernel
theorem ok_eio : isEio (exec demoConf .transact demoVol).1 = false := by decide +kernel

theorem eio_ne {x y : Except Err Reply × Vol} (h1 : isEio x.1 = true) (h2 : isEio y.1 = false) : (x.1, x.2) ≠ y := by
  intro e; rw [← e] at h2; rw [h1] at h2; cases h2

example : Reach demoConf demoVol ∧ demoVol.mounted = true ∧
    ((execF demoConf none failF .transact demoVol).1, failVol) ≠ exec demoConf .transact demoVol ∧
    Changes (.write 4 0 1 (fun _ => 0)) ∧ failVol.mounted = true ∧ failVol.readOnly = true :=
  ⟨demo_reach, demo_mounted, eio_ne fail_eio ok_eio, trivial, fail_mounted, fail_ro⟩

/-- After the failed commit the contents of file 4, which it could not commit, are still read. -/
example : Call.Ok demoConf (.read 4 0 300) ∧ Asks (.read 4 0 300) ∧ (exec demoConf (.read 4 0 300) failVol).1.toBool = true :=
  ⟨trivial, trivial, by decide +kernel⟩

/-- The device has done nothing unusual: the blocks read as they do after some power loss. -/
theorem image_new {v : Vol} (hbr : v.branched = true) (hdev : ∀ x, v.dirty x = false → v.blk x = v.base x) {u : Vol}
    (hu : u = (volTransactF (some (.flushAfter (.metaroot (nextMr v)))) v).2) : CrashImage c u.epoch u.onDisk := by
  have e := fail_run hbr hdev (.metaroot (nextMr v))
  have e : volTransactF (some (.flushAfter (.metaroot (nextMr v)))) v = _ := e
  rw [e] at hu; subst hu
  refine ⟨fun b hb => ?_, fun b _ hb => Or.inr (Or.inl ?_)⟩
  · exact if_neg (fun h => by exact Bool.false_ne_true (hb.symm.trans h))
  · have hb : b = mrBlk v.cur := by
      have : (if b = mrBlk v.cur then true else false) = true := hb
      by_contra hn; rw [if_neg hn] at this; cases this
    subst hb
    show (if (if mrBlk v.cur = mrBlk v.cur then true else false) = true then (if mrBlk v.cur = mrBlk v.cur then Blk.metaroot (nextMr v) else _) else _) =
      (if (if mrBlk v.cur = mrBlk v.cur then true else false) = true then (if mrBlk v.cur = mrBlk v.cur then Blk.metaroot (nextMr v) else _) else _)
    simp

theorem transactF_snd {v : Vol} (hm : v.mounted = true) (hro : v.readOnly = false) (c : Conf) (f1 f2 : Option Fault) :
    (execF c f1 f2 .transact v).2 = (volTransactF f2 v).2 := by
  show (reply _ (whenRw (volTransactF f2)) v).2 = _
  unfold reply; rw [run_bind, whenRw_run hm hro]
  rcases volTransactF f2 v with ⟨_ | _, _⟩ <;> rfl

theorem demo_branched : demoVol.branched = true := by decide +kernel
theorem demo_rw : demoVol.readOnly = false := by decide +kernel

/-- The hypothesis of `C53_remount` is met. -/
example : CrashImage demoConf failVol.epoch failVol.onDisk :=
  image_new demo_branched (Reach.up demo_sys demo_reach demo_mounted).wf.vol.dev (transactF_snd demo_mounted demo_rw _ _ _)

/-! ### a volume must not be used again after a failed commit without starting the system anew (DESIGN.md, finding 25) -/

/-- The volume of the example is unmounted, mounted again (it shows the new state), and a file is written. -/
def offVol : Vol := (exec demoConf .unmount failVol).2
def againVol : Vol := (exec demoConf (.mount false) offVol).2
def usedVol : Vol := (exec demoConf (.write 4 400 5 (fun _ => 9)) againVol).2
/-- Now power fails; of all that has been written since the last successful device flush only the metaroot has not reached the disk. -/
def lostDisk : Nat → Blk := fun b => if b = 1 then usedVol.base b else usedVol.epoch.fin b
def lostVol : Vol := (volMount demoConf false (bootVol demoConf lostDisk)).2

theorem image_but (c : Conf) (v : Vol) (b0 : Nat) : CrashImage c v.epoch (fun b => if b = b0 then v.base b else v.epoch.fin b) := by
  refine ⟨fun b hb => ?_, fun b _ hb => ?_⟩
  · show (if b = b0 then v.base b else (if v.dirty b = true then _ else v.base b)) = v.base b
    rw [if_neg (c := v.dirty b = true) (by rw [show v.dirty b = false from hb]; simp)]
    exact ite_self _
  · by_cases h : b = b0
    · left; rw [if_pos h]; rfl
    · right; left; rw [if_neg h]

/-- Size and number of links. -/
def brief (F : Files) (i : Nat) : Option (Nat × Nat) := (F i).map fun f => (f.size, f.nlink)

/-- **C53** `C53_remount` does not extend to what happens later: mounting does not flush the device, so
that the metaroot whose flush has failed may still be lost when the blocks of the old state are already
being used again.  All calls succeed here but for the one whose commit fails; yet after the power loss
the files are neither those of the old transaction point, nor those of the one that was found when the
volume was mounted again, nor those at the time of the power loss: file 4 has two links, but there is
only one name for it. -/
theorem C53_used_again :
    CrashImage demoConf usedVol.epoch lostDisk ∧ Boot (bootVol demoConf lostDisk) lostDisk ∧
    (volMount demoConf false (bootVol demoConf lostDisk)).1.toBool = true ∧
    (exec demoConf .unmount failVol).1.toBool = true ∧ (exec demoConf (.mount false) offVol).1.toBool = true ∧
    (exec demoConf (.write 4 400 5 (fun _ => 9)) againVol).1.toBool = true ∧
    [brief (files demoConf lostVol) 3, brief (files demoConf lostVol) 4] = [some (0, 1), some (405, 2)] ∧
    [brief (committedFiles demoConf demoVol) 3, brief (committedFiles demoConf demoVol) 4] = [some (0, 1), some (300, 1)] ∧
    [brief (files demoConf againVol) 3, brief (files demoConf againVol) 4] = [some (16, 1), some (300, 2)] ∧
    [brief (files demoConf usedVol) 3, brief (files demoConf usedVol) 4] = [some (16, 1), some (405, 2)] :=
  ⟨image_but _ _ _, boot_boot _ _, by decide +kernel, by decide +kernel, by decide +kernel, by decide +kernel, by decide +kernel,
    by decide +kernel, by decide +kernel, by decide +kernel⟩

end RedFs.Props.Fault
