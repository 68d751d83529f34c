import Verif.Lemmas.Space
import Verif.Props.Files
import Verif.Props.Account
set_option linter.unusedSimpArgs false
set_option linter.unusedVariables false
/-!
The space that `statvfs` reports can be used (C56): a write or an extension for which enough blocks are
reported free is completed.  `Spec.writeNeed` is the bound.
-/
namespace RedFs.Props.SpaceUse
open RedFs RedFs.Props.System RedFs.Props.Policy RedFs.Props.Account
open M Vol Spec

variable {c : Conf} {v v' w u u' : Vol} {r : Except Err Reply} {ino : Nat} {f : AFile} {st : StatFs}

/-- What `statvfs` reports as free is what a call can allocate. -/
theorem bfree_eq (hc : c.SysOk) (h : Inv c (Sound c) v) (hs : exec c .statfs v = (.ok (.statfs st), w)) :
    st.bfree = freeBlockCount c v := by
  obtain ⟨st', e, h1, _⟩ := C14_statvfs (c := c) h.mounted
  rw [hs] at e
  injection e with e1 e2
  injection e1 with e1; injection e1 with e1
  unfold freeBlockCount
  rw [e1, h1, h.idle]; rfl

/-- One attempt at the write. -/
theorem write_try (hc : c.SysOk) (h : Inv c (Sound c) v) (hro : v.readOnly = false) (hf : IsReg (files c v) ino f) (hsz : f.size ≤ c.sizeMax)
    {start len : Nat} (hin : start + len ≤ c.sizeMax) (hroom : writeNeed c f.size start len ≤ freeBlockCount c v) (buf : Nat → Byte) :
    ∃ v', coreFileWriteSub c ino start len buf v = (.ok len, v') := by
  obtain ⟨r, v', e, _, R⟩ := coreFileWriteSub_spec hc.ok (sound_data (c := c)) ino start len buf v h hro
  have M := (coreFileWriteSub_more hc.ok h hro hf start len buf e).1
  have hmin : min len (c.sizeMax - start) = len := by omega
  rw [hmin] at M
  have key : 0 < len → ¬ (r = .error .enospc ∨ ∃ n, r = .ok n ∧ n < len) := by
    intro h0 hh
    obtain ⟨L, g1, g2, g3, g4⟩ := write_cover hc.ok (size := f.size) h0 hin hsz
    have := M hh L g1 g2 g3
    omega
  cases r with
  | error e =>
    exfalso
    obtain ⟨_, R | ⟨f', hf', R⟩⟩ := R
    · rcases R with ⟨_, R⟩ | ⟨_, f', h1, h2⟩
      · rw [hf.1] at R; cases R
      · rw [hf.1] at h1; injection h1 with h1; subst h1
        rw [hf.2] at h2; revert h2; decide
    · split at R
      · rename_i hh; omega
      · exact key R.2 (Or.inl (by rw [R.1]))
  | ok n =>
    obtain ⟨_, _, h1, h2, _⟩ := R
    by_cases h0 : 0 < len
    · have := key h0
      by_cases hn : n < len
      · exact absurd (Or.inr ⟨n, rfl, hn⟩) this
      · exact ⟨v', by rw [e, show n = len by omega]⟩
    · exact ⟨v', by rw [e, show n = len by omega]⟩

/-- One attempt at an extension. -/
theorem extend_try (hc : c.SysOk) (h : Inv c (Sound c) v) (hro : v.readOnly = false) (hf : IsReg (files c v) ino f)
    {size : Nat} (hlt : f.size < size) (hin : size ≤ c.sizeMax) (hroom : 3 ≤ freeBlockCount c v) :
    ∃ v', coreFileTruncateSub c ino size v = (.ok (), v') := by
  obtain ⟨r, v', e, _, R⟩ := coreFileTruncateSub_spec hc.ok (sound_data (c := c)) ino size v h hro
  have M := (coreFileTruncateSub_more hc.ok h hro hf size e).1
  cases r with
  | error e =>
    exfalso
    obtain ⟨_, R | ⟨f', hf', R⟩⟩ := R
    · rcases R with ⟨_, R⟩ | ⟨_, f', h1, h2⟩
      · rw [hf.1] at R; cases R
      · rw [hf.1] at h1; injection h1 with h1; subst h1
        rw [hf.2] at h2; revert h2; decide
    · rw [if_neg (by omega)] at R
      have := M (by rw [R]) hlt
      omega
  | ok n => exact ⟨v', e⟩

/-- A call that succeeds at the first attempt. -/
theorem once_ok (hc : c.SysOk) (h : Inv c (Sound c) v) (hro : v.readOnly = false) {k : Call} {ev : Event} (hk : k.Ok c) (hm : Modifies k ev) {a : Reply} {v1 : Vol}
    (e0 : tryOnce c k v = (.ok a, v1)) : ∃ v', exec c k v = (.ok a, v') := by
  rcases he : exec c k v with ⟨r, v'⟩
  obtain ⟨r1, v1', e, _, _, how⟩ := modify_how hc h hro hk hm he
  rw [e0] at e
  obtain ⟨rfl, rfl⟩ := Prod.mk.inj e
  rcases how with ⟨hh, _⟩ | ⟨_, hh, _⟩
  · cases hh
  · exact ⟨v', by rw [hh]⟩

/-- **C56** If `statvfs` reports at least as many free blocks as the write can take, then the write is
completed: it returns the full count, and all bytes are in the file. -/
theorem C56_write_completes (hc : c.SysOk) (h : Reach c v) (hm : v.mounted = true) (hro : v.readOnly = false)
    (hs : exec c .statfs v = (.ok (.statfs st), w)) (hf : IsReg (files c v) ino f)
    {start len : Nat} (hin : start + len ≤ c.sizeMax) (hroom : writeNeed c f.size start len ≤ st.bfree) (buf : Nat → Byte) :
    ∃ v', exec c (.write ino start len buf) v = (.ok (.num len), v') ∧ files c v' = Files.set (files c v) ino (some (f.put start len buf)) := by
  have hi := Reach.up hc h hm
  obtain ⟨v1, e1⟩ := write_try hc hi hro hf (Files.C44_size_le hc h hm hf.1) hin (by rw [← bfree_eq hc hi hs]; exact hroom) buf
  obtain ⟨v', he⟩ := once_ok hc hi hro (k := .write ino start len buf) trivial ⟨rfl, fun hh => by cases hh⟩
    (show tryOnce c (.write ino start len buf) v = (.ok (.num len), v1) from reply_run (r := .ok len) e1)
  refine ⟨v', he, ?_⟩
  obtain ⟨r0, g1, g2⟩ := Files.data_rel hc h hm hro he
  cases r0 with
  | error e => cases g1
  | ok n =>
    injection g1 with g1; injection g1 with g1; subst g1
    obtain ⟨f', k1, _, _, _, k2⟩ := g2
    have := k1.1; rw [hf.1] at this; injection this with this; subst this
    exact k2

/-- **C56** If `statvfs` reports three free blocks then a file can be made larger (the last block of
the file and the nodes above it are rewritten; the new space is a hole). -/
theorem C56_extend_completes (hc : c.SysOk) (h : Reach c v) (hm : v.mounted = true) (hro : v.readOnly = false)
    (hs : exec c .statfs v = (.ok (.statfs st), w)) (hf : IsReg (files c v) ino f)
    {size : Nat} (hlt : f.size < size) (hin : size ≤ c.sizeMax) (hroom : 3 ≤ st.bfree) :
    ∃ v', exec c (.truncate ino size) v = (.ok .unit, v') ∧ files c v' = Files.set (files c v) ino (some (f.truncate size)) := by
  have hi := Reach.up hc h hm
  obtain ⟨v1, e1⟩ := extend_try hc hi hro hf hlt hin (by rw [← bfree_eq hc hi hs]; exact hroom)
  obtain ⟨v', he⟩ := once_ok hc hi hro (k := .truncate ino size) trivial ⟨rfl, fun hh => by cases hh⟩
    (show tryOnce c (.truncate ino size) v = (.ok .unit, v1) from reply_run (r := .ok ()) e1)
  refine ⟨v', he, ?_⟩
  obtain ⟨r0, g1, g2⟩ := Files.trunc_rel hc h hm hro he
  cases r0 with
  | error e => cases g1
  | ok n =>
    obtain ⟨f', k1, _, k2⟩ := g2
    have := k1.1; rw [hf.1] at this; injection this with this; subst this
    exact k2

/-- What a transaction makes free. -/
theorem transact_free (hc : c.SysOk) (h : Inv c (Sound c) v) (hro : v.readOnly = false) {a : Reply} (ht : exec c .transact v = (.ok a, u))
    (hs : exec c .statfs u = (.ok (.statfs st), w)) : st.bfree = tot v - c.reserved := by
  obtain ⟨v1, e, i', C⟩ := h.transact hc.ok
  have : exec c .transact v = (.ok .unit, v1) := reply_run (r := .ok ()) (by unfold coreVolTransact; rw [whenRw_run h.mounted hro]; exact e)
  rw [ht] at this
  obtain ⟨_, rfl⟩ := Prod.mk.inj this
  rw [bfree_eq hc i' hs]
  unfold freeBlockCount
  rw [i'.idle, C.free]; rfl

/-- **C56** With the "volume full" event enabled, a write of at least one byte fails for lack of space only
if a transaction would not make enough free for it: if after a transaction `statvfs` would report as many
free blocks as the write can take, then the write (done instead of that transaction) writes at least one byte. -/
theorem C56_volfull (hc : c.SysOk) (h : Reach c v) (hm : v.mounted = true) (hro : v.readOnly = false) (hon : v.on .volfull = true)
    {a : Reply} (ht : exec c .transact v = (.ok a, u)) (hs : exec c .statfs u = (.ok (.statfs st), w)) (hf : IsReg (files c v) ino f)
    {start len : Nat} (h0 : 0 < len) (hin : start + len ≤ c.sizeMax) (hroom : writeNeed c f.size start len ≤ st.bfree) (buf : Nat → Byte) :
    ∃ n v', exec c (.write ino start len buf) v = (.ok (.num n), v') ∧ 0 < n ∧ n ≤ len := by
  have hi := Reach.up hc h hm
  have hfree := transact_free hc hi hro ht hs
  have hsz := Files.C44_size_le hc h hm hf.1
  rcases he : exec c (.write ino start len buf) v with ⟨r, v'⟩
  obtain ⟨r0, g1, g2⟩ := Files.data_rel hc h hm hro he
  cases r0 with
  | ok n =>
    obtain ⟨_, _, k1, k2, _⟩ := g2
    exact ⟨n, v', by rw [g1]; rfl, k2 h0, k1⟩
  | error e =>
    exfalso
    have g1 : r = .error e := g1
    have hen : e = .enospc := by
      obtain ⟨_, R | ⟨f', hf', R⟩⟩ := g2
      · rcases R with ⟨_, R⟩ | ⟨_, f', h1, h2⟩
        · rw [hf.1] at R; cases R
        · rw [hf.1] at h1; injection h1 with h1; subst h1
          rw [hf.2] at h2; exact absurd h2 (by decide)
      · rw [if_neg (by omega)] at R; exact R.1
    subst hen; subst g1
    obtain ⟨r1, v1, e1, E1, cl, how⟩ := modify_how hc hi hro (k := .write ino start len buf) trivial ⟨rfl, fun hh => by cases hh⟩ he
    rcases hsub : coreFileWriteSub c ino start len buf v with ⟨rs, vs⟩
    have hfr : ∀ e, r1 = .error e → rs = .error e ∧ vs = v1 := by
      intro e her
      have : tryOnce c (.write ino start len buf) v = (rs.map .num, vs) := reply_run hsub
      rw [e1] at this
      obtain ⟨k1, k2⟩ := Prod.mk.inj this
      rw [her] at k1
      cases rs with
      | error e' => injection k1 with k1; exact ⟨by rw [k1], k2.symm⟩
      | ok _ => cases k1
    rcases how with ⟨h1, _, _, v2, v3, t1, C, I2, e2, _⟩ | ⟨h1, h2, _⟩
    · obtain ⟨rfl, rfl⟩ := hfr _ h1
      have htot := (coreFileWriteSub_more hc.ok hi hro hf start len buf hsub).2.2 rfl
      have hf2 : IsReg (files c v2) ino f := by rw [C.files, cl _ h1]; exact hf
      have hro2 : v2.readOnly = false := by rw [C.com.readOnly, E1.readOnly]; exact hro
      obtain ⟨v3', k⟩ := write_try hc I2 hro2 hf2 hsz hin (by unfold freeBlockCount; rw [I2.idle, C.free, htot]; simp only [Bool.false_eq_true, if_false]; omega) buf
      have : tryOnce c (.write ino start len buf) v2 = (.ok (.num len), v3') := reply_run (r := .ok len) k
      rw [e2] at this
      cases (Prod.mk.inj this).1
    · rw [← h2] at hfr h1
      obtain ⟨rfl, rfl⟩ := hfr _ rfl
      have haf : vs.almostFree = 0 := by
        by_cases hz : 0 < vs.almostFree
        · exact absurd ⟨rfl, hon, hz⟩ h1
        · omega
      have haf0 := E1.step.afree
      obtain ⟨v3', k⟩ := write_try hc hi hro hf hsz hin (by unfold freeBlockCount; rw [hi.idle]; unfold tot at hfree; simp only [Bool.false_eq_true, if_false]; omega) buf
      rw [hsub] at k
      cases (Prod.mk.inj k).1

/-! ### Cases -/

/-- What `statvfs` reports. -/
def freeOn (c : Conf) (v : Vol) : Nat := match (exec c .statfs v).1 with
  | .ok (.statfs st) => st.bfree
  | _ => 0
theorem freeOn_eq (e : exec c .statfs v = (.ok (.statfs st), w)) : st.bfree = freeOn c v := by unfold freeOn; rw [e]
/-- The file has 310 bytes; 43 blocks are free, and 10 suffice for 1000 bytes at 250. -/
theorem file_free : freeOn demoConf Files.fileVol = 43 := by decide +kernel
theorem file_size : ∃ f, IsReg (files demoConf Files.fileVol) 4 f ∧ f.size = 310 := by
  obtain ⟨f, hf⟩ := Files.file_reg
  have h : (match files demoConf Files.fileVol 4 with | some f => f.size | none => 0) = 310 := by decide +kernel
  rw [hf.1] at h
  exact ⟨f, hf, h⟩
theorem file_stat : ∃ st w, exec demoConf .statfs Files.fileVol = (.ok (.statfs st), w) ∧ st.bfree = 43 := by
  obtain ⟨st, e, _⟩ := C14_statvfs (c := demoConf) Files.file_mounted
  exact ⟨st, _, e, (freeOn_eq e).trans file_free⟩
example : writeNeed demoConf 310 250 1000 = 10 := by decide +kernel
example : ∃ v', exec demoConf (.write 4 250 1000 (fun _ => 7)) Files.fileVol = (.ok (.num 1000), v') := by
  obtain ⟨f, hf, hs⟩ := file_size
  obtain ⟨st, w, e, hb⟩ := file_stat
  obtain ⟨v', h, _⟩ := C56_write_completes demo_sys Files.file_reach Files.file_mounted Files.file_rw e hf (start := 250) (len := 1000)
    (by decide +kernel) (by rw [hs, hb]; decide +kernel) (fun _ => 7)
  exact ⟨v', h⟩
example : ∃ v', exec demoConf (.truncate 4 100000) Files.fileVol = (.ok .unit, v') := by
  obtain ⟨f, hf, hs⟩ := file_size
  obtain ⟨st, w, e, hb⟩ := file_stat
  obtain ⟨v', h, _⟩ := C56_extend_completes demo_sys Files.file_reach Files.file_mounted Files.file_rw e hf (size := 100000)
    (by omega) (by decide +kernel) (by omega)
  exact ⟨v', h⟩

/-- A volume on which one block is free, and a second one after a transaction. -/
def tightCalls : List Call := [.truncate 3 128, .transact, .write 3 0 1 (fun _ => 2)]
def tightVol : Vol := (runCalls fullConf tightCalls fullVol).2
theorem tight_reach : Reach fullConf tightVol := by
  refine full_reach.calls ?_
  intro k hk
  simp only [tightCalls, List.mem_cons, List.mem_nil_iff, or_false] at hk
  rcases hk with rfl | rfl | rfl <;> trivial
theorem tight_up : tightVol.mounted = true ∧ tightVol.readOnly = false ∧ tightVol.on .volfull = true := by decide +kernel
/-- The count that a write returns. -/
def count : Except Err Reply → Nat
  | .ok (.num n) => n
  | _ => 0

/-- **C56** What is not so: with "volume full" enabled, a write for which a transaction would make enough
blocks free is not always completed.  A file of 128 bytes, 256 bytes are written behind them, two blocks are needed.
One block is free, and two would be after a transaction: the write returns 128, and there is no transaction
(the retry of `RedCoreFileWrite`, core.c:1614-1626, is made only if the first attempt has written nothing). -/
theorem C56_short_count_with_volfull :
    ∃ v : Vol, Reach fullConf v ∧ v.mounted = true ∧ v.readOnly = false ∧ v.on .volfull = true ∧
      (match files fullConf v 3 with | some f => f.mode = modeReg ∧ f.size = 128 | none => False) ∧
      writeNeed fullConf 128 128 256 = 2 ∧ freeOn fullConf (exec fullConf .transact v).2 = 2 ∧
      count (exec fullConf (.write 3 128 256 fun _ => 2) v).1 = 128 := by
  have h : (match files fullConf tightVol 3 with | some f => decide (f.mode = modeReg) && decide (f.size = 128) | none => false) = true := by decide +kernel
  refine ⟨tightVol, tight_reach, tight_up.1, tight_up.2.1, tight_up.2.2, ?_, by decide +kernel, by decide +kernel, by decide +kernel⟩
  cases hf : files fullConf tightVol 3 with
  | none => rw [hf] at h; cases h
  | some f =>
    rw [hf] at h
    simp only [Bool.and_eq_true, decide_eq_true_eq] at h
    exact h

/-- Nothing is free on `fullVol2`, and two blocks are after a transaction: a write into the file writes something. -/
theorem full2_up : fullVol2.mounted = true ∧ fullVol2.readOnly = false ∧ fullVol2.on .volfull = true ∧ freeOn fullConf fullVol2 = 0 ∧
    freeOn fullConf (exec fullConf .transact fullVol2).2 = 2 := by decide +kernel
theorem full2_reg : ∃ f, IsReg (files fullConf fullVol2) 3 f ∧ f.size = 100 := by
  obtain ⟨f, hf⟩ := Files.isReg_of (F := files fullConf fullVol2) (i := 3) (by decide +kernel)
  have h : (match files fullConf fullVol2 3 with | some f => f.size | none => 0) = 100 := by decide +kernel
  rw [hf.1] at h
  exact ⟨f, hf, h⟩
theorem full2_reach : Reach fullConf fullVol2 := full_reach.call (k := .truncate 3 100) trivial (exec_eta ..)
example : ∃ n v', exec fullConf (.write 3 50 10 (fun _ => 7)) fullVol2 = (.ok (.num n), v') ∧ 0 < n ∧ n ≤ 10 := by
  obtain ⟨f, hf, hs⟩ := full2_reg
  obtain ⟨v1, e, i', _⟩ := (Reach.up full_sys full2_reach full2_up.1).transact full_sys.ok
  have e' : exec fullConf .transact fullVol2 = (.ok .unit, v1) := reply_run (r := .ok ()) (by unfold coreVolTransact; rw [whenRw_run full2_up.1 full2_up.2.1]; exact e)
  obtain ⟨st, e2, _⟩ := C14_statvfs (c := fullConf) i'.mounted
  have hv1 : (exec fullConf .transact fullVol2).2 = v1 := congrArg Prod.snd e'
  have hb : st.bfree = 2 := (freeOn_eq e2).trans (hv1 ▸ full2_up.2.2.2.2)
  exact C56_volfull full_sys full2_reach full2_up.1 full2_up.2.1 full2_up.2.2.1 e' e2 hf (by decide) (by decide +kernel)
    (by rw [hs, hb]; decide +kernel) _

end RedFs.Props.SpaceUse
