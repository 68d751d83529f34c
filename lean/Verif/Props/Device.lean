import Verif.Lemmas.Device
set_option linter.unusedSimpArgs false
set_option linter.unusedVariables false
/-!
C54: a volume uses only its own part of the device, and only while the device is open.

`Reached c inl ext vc os s`: the state `s` is reached by any history of mounting, using, unmounting and
formatting a volume with configuration `vc`, on a device whose driver answers as `os` says (`Spec/Device.lean`).
-/
namespace RedFs.Props.Device
open RedFs RedFs.Device BlockIo M

variable {c : Conf} {inl ext : Bool} {vc : VConf} {os : Os} {s : St}

/-- **C54** The device is opened before it is used, not opened again before it is closed, and closed when mounting or formatting fails; all sectors that are
read or written are on the device and belong to the volume; nothing is written if the device was opened
for reading only.  It is open exactly while the volume is mounted (unless closing fails). -/
theorem C54_orderly (h : Reached c inl ext vc os s) :
    (s.mounted = false → Orderly vc os s.log none) ∧
    (s.mounted = true → ∃ rw, Orderly vc os s.log (some rw) ∧ (rw = false → s.readOnly = true)) :=
  ⟨(reached_inv h).down, fun hm => ((reached_inv h).up hm).2⟩

/-- **C54** Whatever happens, and whatever the device answers: only sectors of the volume are read or written. -/
theorem C54_only_its_sectors (h : Reached c inl ext vc os s) {n : Nat} (hn : Written s n ∨ WasRead s n) :
    vc.offset ≤ n ∧ n < endOf vc os ∧ ∀ i, os.geo = .is i → n < i.count := by
  obtain ⟨x, hx⟩ : ∃ x, Orderly vc os s.log x := by
    cases hm : s.mounted
    · exact ⟨_, (reached_inv h).down hm⟩
    · obtain ⟨_, rw, ho, _⟩ := (reached_inv h).up hm; exact ⟨_, ho⟩
  rcases hn with ⟨r, ok, h1, h2, h3⟩ | ⟨r, ok, h1, h2, h3⟩
  · obtain ⟨g1, g2, g3⟩ := hx.inside (Or.inl h1)
    exact ⟨by omega, by omega, fun i hi => by have := g3 i hi; omega⟩
  · obtain ⟨g1, g2, g3⟩ := hx.inside (Or.inr h1)
    exact ⟨by omega, by omega, fun i hi => by have := g3 i hi; omega⟩

/-- **C54** Two volumes on one device whose parts do not overlap: no sector that one of them writes is ever
read or written by the other. -/
theorem C54_volumes_apart {c' : Conf} {inl' ext' : Bool} {vc' : VConf} {os' : Os} {s' : St}
    (h : Reached c inl ext vc os s) (h' : Reached c' inl' ext' vc' os' s')
    (hd : endOf vc os ≤ vc'.offset ∨ endOf vc' os' ≤ vc.offset) {n : Nat} (hn : Written s n) : ¬ (Written s' n ∨ WasRead s' n) := by
  intro hn'
  have := C54_only_its_sectors h (Or.inl hn)
  have := C54_only_its_sectors h' hn'
  omega

/-- **C54** And blocks of the volume can be read and written: on a mounted volume, asking for blocks `start … start + count - 1`
becomes one request for all the sectors of these blocks, from the offset of the volume on (if the driver does not fail). -/
theorem C54_access (h : Reached c inl ext vc os s) (hm : s.mounted = true) {start count : Nat} {w : Bool}
    (h1 : 0 < count) (h2 : start + count ≤ s.blockCount) (h3 : count * 2 ^ s.shift < 4294967296)
    (hok : ∀ op, os.status s.log.length op = .ok ()) :
    let r : Req := ⟨vc.offset + start * 2 ^ s.shift, count * 2 ^ s.shift⟩
    act vc os (if w then .write start count else .read start count) s =
      (.ok (), { s with log := s.log ++ [(if w then .write r else .read r, true)] }) := by
  have hg := ((reached_inv h).up hm).1
  have hb := hg.blocks
  have hn := hg.nowrap
  have hx : start * 2 ^ s.shift + count * 2 ^ s.shift ≤ s.info.count := by
    rw [← Nat.add_mul]; exact Nat.le_trans (Nat.mul_le_mul_right _ h2) hb
  have e1 : u64 (start <<< s.shift) = start * 2 ^ s.shift := by
    rw [Nat.shiftLeft_eq]; exact Nat.mod_eq_of_lt (by omega)
  have e2 : u64 (start * 2 ^ s.shift + vc.offset) = vc.offset + start * 2 ^ s.shift := by
    rw [Nat.add_comm]; exact Nat.mod_eq_of_lt (by omega)
  have e3 : u32 (count <<< s.shift) = count * 2 ^ s.shift := by
    rw [Nat.shiftLeft_eq]; exact Nat.mod_eq_of_lt h3
  have hpos : 0 < count * 2 ^ s.shift := Nat.mul_pos h1 (Nat.pow_pos (by decide))
  have e4 : u64 (vc.offset + s.info.count + (18446744073709551616 - (vc.offset + start * 2 ^ s.shift))) = s.info.count - start * 2 ^ s.shift := by
    have : vc.offset + s.info.count + (18446744073709551616 - (vc.offset + start * 2 ^ s.shift)) =
        (s.info.count - start * 2 ^ s.shift) + 18446744073709551616 := by omega
    rw [u64, this, Nat.add_mod_right]; exact Nat.mod_eq_of_lt (by omega)
  have hv : rangeValid (ioVol vc s) ⟨vc.offset + start * 2 ^ s.shift, count * 2 ^ s.shift⟩ = true := by
    simp only [rangeValid, Device.ioVol, e4, Bool.and_eq_true]
    exact ⟨decide_eq_true (Nat.le_add_right _ _), decide_eq_true (by omega)⟩
  have one : ∀ w, bdevXfer vc os w ⟨vc.offset + start * 2 ^ s.shift, count * 2 ^ s.shift⟩ s =
      (.ok (), { s with log := s.log ++ [(if w then OsOp.write ⟨vc.offset + start * 2 ^ s.shift, count * 2 ^ s.shift⟩ else OsOp.read ⟨vc.offset + start * 2 ^ s.shift, count * 2 ^ s.shift⟩, true)] }) := by
    intro w
    unfold Device.bdevXfer
    simp only [run_bind, run_get, hv, if_true, osCall, hok]
    rfl
  have rt : ∀ w n, retry (bdevXfer vc os w ⟨vc.offset + start * 2 ^ s.shift, count * 2 ^ s.shift⟩) n s =
      (.ok (), { s with log := s.log ++ [(if w then OsOp.write ⟨vc.offset + start * 2 ^ s.shift, count * 2 ^ s.shift⟩ else OsOp.read ⟨vc.offset + start * 2 ^ s.shift, count * 2 ^ s.shift⟩, true)] }) := by
    intro w n
    cases n with
    | zero => exact one w
    | succ n => unfold retry; simp only [run_bind, run_attempt, one, run_pure]
  have io : ∀ w, ioXfer vc os w start count s =
      (.ok (), { s with log := s.log ++ [(if w then OsOp.write ⟨vc.offset + start * 2 ^ s.shift, count * 2 ^ s.shift⟩ else OsOp.read ⟨vc.offset + start * 2 ^ s.shift, count * 2 ^ s.shift⟩, true)] }) := by
    intro w
    unfold Device.ioXfer
    simp only [run_bind, run_get]
    rw [if_neg (by omega), e1, e2, e3]
    exact rt w _
  cases w
  · exact io false
  · exact io true

/-- **C54** When opening succeeds: the operating system's driver has opened the device; and if the size and the number
of sectors are configured, the geometry of the device is not known, or its sectors have that size and the volume fits; then the volume has
the configured number of sectors.  Otherwise the geometry is known, agrees with what is configured, and the volume is the
rest of the device from the offset on. -/
theorem C54_open (hw : vc.offset + vc.secCount ≤ 18446744073709551615) (rw : Bool) :
    (bdevOpen vc os rw s).1 = .ok () ↔
      os.status s.log.length (.opened rw) = .ok () ∧
      if vc.secSize ≠ 0 ∧ vc.secCount ≠ 0 then
        os.geo = .notsupp ∨ ∃ i, os.geo = .is i ∧ i.size = vc.secSize ∧ vc.offset + vc.secCount ≤ i.count
      else ∃ i, os.geo = .is i ∧ (vc.secSize ≠ 0 → i.size = vc.secSize) ∧ (vc.secCount ≠ 0 → i.count = vc.secCount) ∧ vc.offset < i.count := by
  unfold bdevOpen
  simp only [run_bind, osCall]
  cases h0 : os.status s.log.length (.opened rw) with
  | error e => simp
  | ok u =>
    simp only [run_attempt, true_and]
    have key : ∀ q : Except Err Unit × St, ((match q.1 with
        | .ok () => (pure () : DM Unit)
        | .error e => do let _ ← attempt (fun s => (os.status s.log.length .closed, { s with log := s.log ++ [(OsOp.closed, (os.status s.log.length .closed).toBool)] })); fail e) q.2).1 = .ok () ↔ q.1 = .ok () := by
      rintro ⟨e | u, t⟩
      · simp only [run_bind, attempt]
        cases os.status t.log.length .closed <;> simp
      · simp
    refine (key (bdevGeometry vc os _)).trans ?_
    unfold bdevGeometry
    by_cases hf : vc.secSize ≠ 0 ∧ vc.secCount ≠ 0
    · rw [if_pos hf, if_neg (by omega)]
      simp only [run_bind, run_modify, osGeometry]
      cases hgeo : os.geo with
      | is i =>
        simp only [run_bind, run_get]
        have hu : u64 (vc.offset + vc.secCount) = vc.offset + vc.secCount := Nat.mod_eq_of_lt (by omega)
        split
        · next hh =>
          have hh : i.size = vc.secSize ∧ u64 (vc.offset + vc.secCount) ≤ i.count := hh
          rw [hu] at hh; simp [hh]
        · next hh =>
          have hh : ¬ (i.size = vc.secSize ∧ u64 (vc.offset + vc.secCount) ≤ i.count) := hh
          rw [hu] at hh
          simp only [run_fail, reduceCtorEq, false_iff, Geo.is.injEq, false_or, exists_eq_left', not_and]
          intro g1 g2; exact hh ⟨g1, g2⟩
      | notsupp => simp
      | failed e => simp
    · rw [if_neg hf, if_pos (by omega)]
      simp only [run_bind, osGeometry]
      cases hgeo : os.geo with
      | is i =>
        simp only [Geo.is.injEq, exists_eq_left']
        split
        · next h1 => simp only [run_fail, reduceCtorEq, false_iff]; intro hh; exact h1.2 (hh.2.1 h1.1).symm
        next h1 =>
        split
        · next h2 => simp only [run_fail, reduceCtorEq, false_iff]; intro hh; exact h2.2 (hh.1 h2.1).symm
        next h2 =>
        split
        · next h3 => simp only [run_fail, reduceCtorEq, false_iff]; omega
        · next h3 => simp only [run_modify, true_iff]; omega
      | notsupp => simp
      | failed e => simp

/-- **C54** The volume then has the configured sectors if both are configured, and otherwise those of the device
from the offset on. -/
theorem C54_size {rw : Bool} (h : (bdevOpen vc os rw s).1 = .ok ()) :
    if vc.secSize ≠ 0 ∧ vc.secCount ≠ 0 then (bdevOpen vc os rw s).2.info = ⟨vc.secSize, vc.secCount⟩
    else ∃ i, os.geo = .is i ∧ (bdevOpen vc os rw s).2.info = ⟨i.size, i.count - vc.offset⟩ := by
  revert h
  unfold bdevOpen
  simp only [run_bind, osCall]
  cases h0 : os.status s.log.length (.opened rw) with
  | error e => simp
  | ok u =>
    simp only [run_attempt]
    have key : ∀ {P : St → Prop} (q : Except Err Unit × St), (q.1 = .ok () → P q.2) → ((match q.1 with
        | .ok () => (pure () : DM Unit)
        | .error e => do let _ ← attempt (fun s => (os.status s.log.length .closed, { s with log := s.log ++ [(OsOp.closed, (os.status s.log.length .closed).toBool)] })); fail e) q.2).1 = .ok () →
        P ((match q.1 with
        | .ok () => (pure () : DM Unit)
        | .error e => do let _ ← attempt (fun s => (os.status s.log.length .closed, { s with log := s.log ++ [(OsOp.closed, (os.status s.log.length .closed).toBool)] })); fail e) q.2).2 := by
      rintro P ⟨e | u, t⟩
      · simp only [run_bind, attempt]
        cases os.status t.log.length .closed <;> simp
      · intro h _; exact h rfl
    refine key (P := fun t => if vc.secSize ≠ 0 ∧ vc.secCount ≠ 0 then t.info = ⟨vc.secSize, vc.secCount⟩
      else ∃ i, os.geo = .is i ∧ t.info = ⟨i.size, i.count - vc.offset⟩) (bdevGeometry vc os _) ?_
    unfold bdevGeometry
    by_cases hf : vc.secSize ≠ 0 ∧ vc.secCount ≠ 0
    · rw [if_pos hf, if_neg (by omega)]
      simp only [run_bind, run_modify, osGeometry]
      cases hgeo : os.geo with
      | is i =>
        simp only [run_bind, run_get]
        split
        · intro _; rfl
        · simp
      | notsupp => intro _; rfl
      | failed e => simp
    · rw [if_neg hf, if_pos (by omega)]
      simp only [run_bind, osGeometry]
      cases hgeo : os.geo with
      | is i =>
        simp only [Geo.is.injEq, exists_eq_left']
        split
        · simp
        split
        · simp
        split
        · simp
        · intro _; rfl
      | notsupp => simp
      | failed e => simp

/-! ### an example -/

/-- A device of 4000 sectors of 512 bytes on which everything works. -/
def goodOs : Os := ⟨fun _ _ => .ok (), .is ⟨512, 4000⟩⟩
/-- 2000 sectors from sector 100 on. -/
def partConf : VConf := ⟨512, 2000, 100, 2⟩
/-- The rest of the device from sector 3000 on. -/
def restConf : VConf := ⟨0, 0, 3000, 0⟩
/-- Blocks of 1024 bytes, 20 files and directories. -/
def conf : Conf := ⟨1024, 4, 2, true, false, true, true, true, 12, 20, 0, false, false, true, 47⟩

/-- The first volume is formatted, mounted and written to. -/
def partS : St := (step conf true true partConf goodOs (.use [.write 7 3, .flush])
  (step conf true true partConf goodOs (.mount false [.read 0 1, .read 1 1] true)
    (step conf true true partConf goodOs (.format [.write 0 10, .flush]) St.init).2).2).2
/-- The second one too. -/
def restS : St := (step conf true true restConf goodOs (.use [.write 0 3, .read 499 1, .read 500 1, .flush])
  (step conf true true restConf goodOs (.mount false [.read 0 1, .read 1 1] true) St.init).2).2

theorem partS_reached : Reached conf true true partConf goodOs partS :=
  .step (.step (.step .init trivial) (by intro a ha; simp at ha; rcases ha with rfl | rfl <;> trivial))
    (fun h => absurd h (by decide +kernel))
theorem restS_reached : Reached conf true true restConf goodOs restS :=
  .step (.step .init (by intro a ha; simp at ha; rcases ha with rfl | rfl <;> trivial))
    (fun h => absurd h (by decide +kernel))

/-- The first volume is mounted, and the first sector of its block 7 has been written. -/
example : partS.mounted = true ∧ Written partS 114 :=
  ⟨by decide +kernel, ⟨114, 6⟩, true, by decide +kernel, by decide, by decide⟩
example : restS.mounted = true ∧ Written restS 3005 ∧ WasRead restS 3999 :=
  ⟨by decide +kernel, ⟨⟨3000, 6⟩, true, by decide +kernel, by decide, by decide⟩, ⟨3998, 2⟩, true, by decide +kernel, by decide, by decide⟩
/-- What is asked of the device for the last three blocks of the first volume. -/
theorem partS_act : 997 + 3 ≤ partS.blockCount ∧ 3 * 2 ^ partS.shift < 4294967296 ∧ partS.mounted = true ∧
    partConf.offset + 997 * 2 ^ partS.shift = 2094 := by decide +kernel
example : (act partConf goodOs (.write 997 3) partS).1 = .ok () := by
  have h := C54_access (w := true) partS_reached partS_act.2.2.1 (by decide) partS_act.1 partS_act.2.1 (fun _ => rfl)
  exact congrArg Prod.fst h
/-- Their parts do not overlap. -/
example : endOf partConf goodOs ≤ restConf.offset := by decide
example {n : Nat} (hn : Written partS n) : ¬ (Written restS n ∨ WasRead restS n) :=
  C54_volumes_apart partS_reached restS_reached (Or.inl (by decide)) hn
/-- Opening succeeds for both of them. -/
example : (bdevOpen partConf goodOs true St.init).1 = .ok () := (C54_open (by decide) true).2 ⟨rfl, by rw [if_pos (by decide)]; exact Or.inr ⟨⟨512, 4000⟩, rfl, by decide, by decide⟩⟩
example : (bdevOpen restConf goodOs true St.init).1 = .ok () :=
  (C54_open (by decide) true).2 ⟨rfl, ⟨512, 4000⟩, rfl, by decide, by decide, by decide⟩

/-- **C54**, as it is not: include/redvolume.h calls the configured number of sectors "the number of sectors in this file system volume",
and include/redmacs.h says that a larger device is not an error.  That is so only if the sector size is
configured too.  If it is to be found (or the number, but not the size is configured) a device of another number of sectors is refused, even if the
volume fits, and if it has exactly that number, the volume has fewer: the offset is subtracted. -/
theorem C54_partly_auto (hs : vc.secSize = 0) (hc : vc.secCount ≠ 0) {rw : Bool} (h : (bdevOpen vc os rw s).1 = .ok ()) :
    ∃ i, os.geo = .is i ∧ i.count = vc.secCount ∧ (bdevOpen vc os rw s).2.info = ⟨i.size, vc.secCount - vc.offset⟩ := by
  have h1 := C54_size h
  rw [if_neg (by simp [hs])] at h1
  obtain ⟨i, hi, h2⟩ := h1
  have hq : i.count = vc.secCount := by
    refine Decidable.byContradiction fun hne => ?_
    revert h
    unfold bdevOpen
    simp only [run_bind, osCall]
    cases h0 : os.status s.log.length (.opened rw) with
    | error e => simp
    | ok u =>
      simp only [run_attempt, bdevGeometry]
      rw [if_pos (by simp [hs])]
      simp only [run_bind, osGeometry, hi]
      rw [if_pos ⟨hc, fun h => hne h.symm⟩]
      simp only [run_fail, run_bind, attempt]
      simp
  exact ⟨i, hi, hq, by rw [h2, hq]⟩

/-- 1000 sectors from sector 100 on: refused on a device of 2000 sectors, and 900 sectors on a device of 1000. -/
example : (bdevOpen ⟨0, 1000, 100, 0⟩ ⟨fun _ _ => .ok (), .is ⟨512, 2000⟩⟩ true St.init).1 = .error .einval ∧
    (bdevOpen ⟨512, 1000, 100, 0⟩ ⟨fun _ _ => .ok (), .is ⟨512, 2000⟩⟩ true St.init).1 = .ok () ∧
    (bdevOpen ⟨0, 1000, 100, 0⟩ ⟨fun _ _ => .ok (), .is ⟨512, 1000⟩⟩ true St.init).1 = .ok () ∧
    (bdevOpen ⟨0, 1000, 100, 0⟩ ⟨fun _ _ => .ok (), .is ⟨512, 1000⟩⟩ true St.init).2.info = ⟨512, 900⟩ :=
  ⟨rfl, rfl, rfl, rfl⟩

end RedFs.Props.Device
