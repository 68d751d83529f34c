import Verif.Lemmas.TimesMore
import Verif.Lemmas.Demo
set_option linter.unusedVariables false
/-!
C62: time stamps (`REDCONF_INODE_TIMESTAMPS`, `REDCONF_ATIME`).  `Times.exec` is the core API on a volume and the
stamps of its inodes; `Times.Reach` are the states histories of calls lead to, from any stamps and for any clock.
The specification is `Spec/Times.lean`.
-/
namespace RedFs.Times
open RedFs M Str

variable {c : Conf} {clk : Nat → Nat}

/-- The stamps do not change what the calls do: the results and the volumes are those of the model without them. -/
theorem C62_same_calls (k : Call) (s : St) : RedFs.exec c k s.v = ((exec c clk k s).1, (exec c clk k s).2.v) :=
  exec_erase (Prod.mk.eta ..).symm

/-- No history makes `RedInodePut` update an inode that cannot be updated. -/
theorem C62_no_complaint (hc : c.SysOk) {s : St} (h : Reach c clk s) : s.t.red = false := (h.good hc).red

/-- After each successful call each file has the stamps it had, except those the call had to update, which are taken
from the clock during the call. -/
theorem C62_stamps (hc : c.SysOk) (hts : c.timestamps = true) {s s' : St} {k : Call} {r : Reply} (h : Reach c clk s) (hm : s.v.mounted = true) (hk : k.Ok c)
    (hr : k ≠ .rollback) (hu : k ≠ .unmount) (he : exec c clk k s = (.ok r, s')) :
    ∀ i, files c s'.v i ≠ none → Stamped c clk s.v.readOnly (files c s.v) k r s.t s'.t i := by
  intro i hi
  rcases plain_or k with hp | rfl | rfl | ⟨ro, rfl⟩
  · exact stamped hc hts (h.good hc) hm hk hp he hi
  · exact absurd rfl hr
  · exact absurd rfl hu
  · have ht := (mount_inv he).2.2.1 hm
    rw [ht]
    have no : ∀ {n x : Nat} {P : Prop}, (P → False) → Taken clk n n P x x := fun h => ⟨fun p => (h p).elim, fun _ => rfl⟩
    exact ⟨no fun h => h, no fun h => h, no fun h => h.elim (fun h => h) fun h => h⟩

/-- The time of change is the same reading as the time of modification, if that is updated. -/
theorem C62_same_reading (hc : c.SysOk) (hts : c.timestamps = true) {s s' : St} {k : Call} {r : Reply} (h : Reach c clk s) (hm : s.v.mounted = true) (hk : k.Ok c)
    (he : exec c clk k s = (.ok r, s')) : ∀ i, Modified c (files c s.v) i k r → (s'.t.work i).m = (s'.t.work i).c := by
  intro i hi
  rcases plain_or k with hp | rfl | rfl | ⟨ro, rfl⟩
  · exact same_reading hc hts (h.good hc) hm hk hp he hi
  all_goals exact hi.elim

/-- A call that fails leaves the stamps of all files as they were. -/
theorem C62_failed (hc : c.SysOk) {s s' : St} {k : Call} {e : Err} (h : Reach c clk s) (hm : s.v.mounted = true) (hk : k.Ok c) (hu : k ≠ .unmount)
    (he : exec c clk k s = (.error e, s')) : ∀ i, files c s.v i ≠ none → s'.t.work i = s.t.work i :=
  fun _ hi => failed hc (h.good hc) hm hk hu he hi

/-- A transaction commits the stamps. -/
theorem C62_commit (hc : c.SysOk) {s s' : St} {r : Reply} (h : Reach c clk s) (hm : s.v.mounted = true) (he : exec c clk .transact s = (.ok r, s')) :
    s'.t.work = s.t.work ∧ s'.t.comm = s.t.work := by
  have hg := h.good hc
  rcases bind_inv he with ⟨e, _, hh⟩ | ⟨u, s1, h1, h2⟩
  · cases hh
  obtain ⟨_, rfl⟩ := pure_inv h2
  unfold whenRw at h1
  rw [vol_bind] at h1
  split at h1
  · cases (fail_inv h1).1
  split at h1
  · cases (fail_inv h1).1
  obtain ⟨_, _, _, hS, _, hcm⟩ := transact_inv hc.ok (up hc hg.vol hm) (hg.keep hm) h1
  exact ⟨hS.1, hcm⟩

/-- So does a call whose event is in the transaction mask. -/
theorem C62_auto (hc : c.SysOk) {s s' : St} {k : Call} {r : Reply} {e : Event} (h : Reach c clk s) (hm : s.v.mounted = true) (hk : k.Ok c) (hev : EventOf k = some e)
    (ho : s.v.on e = true) (he : exec c clk k s = (.ok r, s')) : s'.t.comm = s'.t.work := auto hc (h.good hc) hm hk hev he ho

/-- A rollback restores the committed stamps. -/
theorem C62_rollback (hc : c.SysOk) {s s' : St} {r : Reply} (h : Reach c clk s) (hm : s.v.mounted = true) (he : exec c clk .rollback s = (.ok r, s')) :
    s'.t.work = s.t.comm ∧ s'.t.comm = s.t.comm := by
  have hg := h.good hc
  obtain ⟨_, h2, _, _, h5⟩ := rollback_inv hc (up hc hg.vol hm) (hg.keep hm) he
  exact ⟨h5 r rfl, h2⟩

/-- After unmounting and mounting there are the stamps of the last commit: those at the unmounting if it commits. -/
theorem C62_remount (hc : c.SysOk) {s s1 s2 : St} {ro : Bool} {r1 : Except Err Reply} {r : Reply} (h : Reach c clk s) (hm : s.v.mounted = true) (h1 : exec c clk .unmount s = (r1, s1))
    (h2 : exec c clk (.mount ro) s1 = (.ok r, s2)) :
    s2.t.work = if s.v.readOnly = false ∧ s.v.on .umount = true then s.t.work else s.t.comm := by
  have hg := h.good hc
  obtain ⟨_, hcm⟩ := unmount_inv hc (up hc hg.vol hm) (hg.keep hm) h1
  have hoff : s1.v.mounted = false := by
    have he := exec_erase h1
    unfold RedFs.exec at he
    obtain ⟨a, ha⟩ := hg.vol.abs hc
    obtain ⟨r', v1, a', tr, e', hd, ha', _⟩ := exec_sim hc ha (k := .unmount) trivial
    have he := exec_erase h1
    rw [he] at e'
    simp only [Prod.mk.injEq] at e'
    obtain ⟨_, rfl⟩ := e'
    by_cases hx : s1.v.mounted = true
    · exact absurd (ha'.mounted_iff.trans hx) (by
        have hd : Spec.Does c .unmount a r' a' tr := hd
        have hma : a.mounted = true := ha.mounted_iff.trans hm
        unfold Spec.Does at hd
        simp [hma] at hd
        rcases hd with hd | hd <;> simp_all)
    · simpa using hx
  obtain ⟨_, _, _, _, h5⟩ := mount_inv h2
  rw [h5 hoff r rfl, hcm]

/-- The calls return the stamps if the volume has them. -/
theorem C62_stat {s s' : St} {ino : Nat} {x : RedFs.Stat × Option Stamp} (he : stat c ino s = (.ok x, s')) :
    coreStat c ino s.v = (.ok x.1, s'.v) ∧ s'.t = s.t ∧ x.2 = if c.timestamps then some (s.t.work ino) else none := by
  unfold stat at he
  rcases bind_inv he with ⟨e, _, hh⟩ | ⟨st, s1, h1, h2⟩
  · cases hh
  obtain ⟨h3, h4⟩ := lift_inv h1
  have h2 : (Except.ok (st, if c.timestamps then some (s1.t.work ino) else none), s1) = (Except.ok x, s') := h2
  simp only [Prod.mk.injEq, Except.ok.injEq] at h2
  obtain ⟨rfl, rfl⟩ := h2
  exact ⟨h3, h4, by rw [h4]⟩

/-- If the clock never runs backwards then no file is ever modified after it is changed, or changed in the future. -/
theorem C62_order {k : Call} {s s' : St} {r : Except Err Reply} (ho : Ordered clk s.t) (he : exec c clk k s = (r, s')) : Ordered clk s'.t := by
  have := ko_exec (c := c) (clk := clk) k s ho
  rw [he] at this
  exact this

/-- A rename that replaces a file with other names leaves all the stamps of that file as they were, although it has
a name less: unlike `C62_stamps` for unlinking.  See DESIGN.md, finding 30. -/
theorem C62_replaced (hc : c.SysOk) (hts : c.timestamps = true) {s s' : St} {p p' j : Nat} {nm nm' : List Byte} {r : Reply} (h : Reach c clk s) (hm : s.v.mounted = true)
    (hk : (Call.rename p nm p' nm').Ok c) (he : exec c clk (.rename p nm p' nm') s = (.ok r, s')) (hj : Has c (files c s.v) p' (nameOf c nm') j)
    (hs : ¬ Has c (files c s.v) p (nameOf c nm) j) (hp : j ≠ p ∧ j ≠ p') (ha : files c s'.v j ≠ none) : s'.t.work j = s.t.work j := by
  have S := C62_stamps hc hts h hm hk (by simp) (by simp) he j ha
  have hx : ¬ Modified c (files c s.v) j (.rename p nm p' nm') r := fun ⟨_, hh⟩ => hh.elim hp.1 hp.2
  have h1 := S.a.2 (fun hh => hh)
  have h2 := S.m.2 hx
  have h3 := S.c.2 (fun hh => hh.elim hx fun hh => hs hh.2)
  cases hA : s'.t.work j
  cases hB : s.t.work j
  rw [hA, hB] at h1 h2 h3
  dsimp only at h1 h2 h3
  subst h1 h2 h3
  rfl

/-! ### A history -/

def demoConfT : Conf := { demoConf with timestamps := true, atime := true }
theorem demoT_ok : demoConfT.Ok where
  bs_pow := ⟨7, by decide, by decide, rfl⟩
  ptrs := by decide
  inodes := by decide
  blocks_min := by decide
  blocks_max := by decide
  fits := by decide
  nodes := by decide
theorem demoT_sys : demoConfT.SysOk := ⟨demoT_ok, fun _ => ⟨rfl, by decide, by decide, by decide⟩⟩

def demoClk : Nat → Nat := fun n => 100 + 10 * n
def demoSt0 : St := ⟨freshVol demoConfT, ⟨fun _ => ⟨0, 0, 0⟩, fun _ => ⟨0, 0, 0⟩, 0, false⟩⟩
def nmC : List Byte := [99#8]
/-- The calls, each on the state the one before leaves. -/
def runT (c : Conf) (clk : Nat → Nat) : List Call → St → List (Except Err Reply) × St
  | [], s => ([], s)
  | k :: ks, s => let x := exec c clk k s; let y := runT c clk ks x.2; (x.1 :: y.1, y.2)
theorem Reach.calls {ks : List Call} (hk : ∀ k ∈ ks, k.Ok c) : ∀ {s : St}, Reach c clk s → Reach c clk (runT c clk ks s).2 := by
  induction ks with
  | nil => intro s h; exact h
  | cons k ks ih =>
    intro s h
    exact ih (fun k' hk' => hk k' (List.mem_cons_of_mem _ hk')) (h.call (hk k List.mem_cons_self) rfl)

/-- "a" is inode 3, "b" and "c" are names of inode 4. -/
def demoCallsT : List Call := [.mount false, .create 2 nmA false, .create 2 nmB false, .link 2 nmC 4]
def demoStT : St := (runT demoConfT demoClk demoCallsT demoSt0).2
theorem demoT_reach : Reach demoConfT demoClk demoStT :=
  (Reach.start (fun _ => ⟨0, 0, 0⟩) 0 (fresh_reach _) (by decide +kernel)).calls (by
    intro k hk
    simp only [demoCallsT, List.mem_cons, List.mem_nil_iff, or_false] at hk
    rcases hk with rfl | rfl | rfl | rfl <;> trivial)
theorem demoT_mounted : demoStT.v.mounted = true := by decide +kernel

/-- The stamps of inodes 2, 3 and 4 after the calls. -/
def after (ks : List Call) : List Bool × List Stamp :=
  let x := runT demoConfT demoClk ks demoStT
  (x.1.map (·.toBool), [2, 3, 4].map x.2.t.work)

/-- Each with the stamps of the directory, "a" and "b"; the hypotheses of `C62_stamps` are met and the calls succeed. -/
example : demoConfT.SysOk ∧ demoConfT.timestamps = true ∧ Reach demoConfT demoClk demoStT ∧ demoStT.v.mounted = true ∧
    after [] = ([], [⟨0, 150, 150⟩, ⟨100, 100, 100⟩, ⟨120, 120, 140⟩]) ∧
    after [.write 4 0 20 fun _ => 7] = ([true], [⟨0, 150, 150⟩, ⟨100, 100, 100⟩, ⟨120, 160, 160⟩]) ∧
    after [.read 3 0 1] = ([true], [⟨0, 150, 150⟩, ⟨160, 100, 100⟩, ⟨120, 120, 140⟩]) ∧
    after [.unlink 2 nmC] = ([true], [⟨0, 170, 170⟩, ⟨100, 100, 100⟩, ⟨120, 120, 160⟩]) ∧
    after [.create 2 nmA false] = ([false], [⟨0, 150, 150⟩, ⟨100, 100, 100⟩, ⟨120, 120, 140⟩]) ∧
    after [.transact, .write 4 0 20 fun _ => 7, .rollback] = ([true, true, true], [⟨0, 150, 150⟩, ⟨100, 100, 100⟩, ⟨120, 120, 140⟩]) ∧
    after [.transact, .write 4 0 20 fun _ => 7, .unmount, .mount false] = ([true, true, true, true], [⟨0, 150, 150⟩, ⟨100, 100, 100⟩, ⟨120, 120, 140⟩]) ∧
    after [.maskSet 1, .write 4 0 20 fun _ => 7, .unmount, .mount false] = ([true, true, true, true], [⟨0, 150, 150⟩, ⟨100, 100, 100⟩, ⟨120, 160, 160⟩]) :=
  ⟨demoT_sys, rfl, demoT_reach, demoT_mounted, by decide +kernel, by decide +kernel, by decide +kernel, by decide +kernel, by decide +kernel, by decide +kernel, by decide +kernel, by decide +kernel⟩

/-- For `C62_replaced`: "a" replaces "b", and "c" remains as the only name of inode 4. -/
example : after [.rename 2 nmA 2 nmB] = ([true], [⟨0, 170, 170⟩, ⟨100, 100, 160⟩, ⟨120, 120, 140⟩]) ∧
    (files demoConfT demoStT.v 4).map (·.nlink) = some 2 ∧
    (files demoConfT (runT demoConfT demoClk [.rename 2 nmA 2 nmB] demoStT).2.v 4).map (·.nlink) = some 1 :=
  ⟨by decide +kernel, by decide +kernel, by decide +kernel⟩

/-- For `C62_order`. -/
example : Ordered demoClk demoSt0.t := ⟨fun m n h => by unfold demoClk; omega, fun i => ⟨Nat.le_refl _, Nat.zero_le _⟩, fun i => ⟨Nat.le_refl _, Nat.zero_le _⟩⟩

end RedFs.Times
