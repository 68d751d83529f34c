import Verif.Lemmas.PosixPath
import Verif.Spec.PosixFd
import Mathlib.Tactic.Tauto
set_option linter.unusedSimpArgs false
set_option linter.unusedVariables false
set_option linter.unusedSectionVars false
/-!
The calls that work on file descriptors.
-/
namespace RedFs.Posix
open M Str Path Spec

variable {pc : PConf} {s s' s'' : PSt}

/-! ### Descriptors -/

theorem pack_eq {g vol k : Nat} (hv : vol < 256) (hk : k < 4096) : ((g <<< 8 ||| vol) <<< 12 ||| k) = g * 1048576 + vol * 4096 + k := by
  rw [← Nat.shiftLeft_add_eq_or_of_lt (show vol < 2 ^ 8 from hv), ← Nat.shiftLeft_add_eq_or_of_lt (show k < 2 ^ 12 from hk), Nat.shiftLeft_eq, Nat.shiftLeft_eq]
  omega

theorem unpack_eq (fd : Int) : fildesUnpack fd = (fd.toNat % 4096, fd.toNat / 4096 % 256, fd.toNat / 1048576 % 2048) := by
  unfold fildesUnpack fdIdxMax fdVolMax fdGenMax
  dsimp only
  rw [show (4095 : Nat) = 2 ^ 12 - 1 from rfl, show (255 : Nat) = 2 ^ 8 - 1 from rfl, show (2047 : Nat) = 2 ^ 11 - 1 from rfl,
    Nat.and_two_pow_sub_one_eq_mod, Nat.and_two_pow_sub_one_eq_mod, Nat.and_two_pow_sub_one_eq_mod]
  simp only [Nat.shiftRight_eq_div_pow]
  rw [Nat.div_div_eq_div_mul]

theorem fd_parts {g vol k : Nat} (hv : vol < 256) (hk : k < 4096) (hg : g ≤ 2047) :
    (g * 1048576 + vol * 4096 + k) % 4096 = k ∧ (g * 1048576 + vol * 4096 + k) / 4096 % 256 = vol ∧ (g * 1048576 + vol * 4096 + k) / 1048576 % 2048 = g := by
  omega

theorem isFd_unique (hc : pc.Ok) (hi : PInv pc s) (hin : s.inited = true) {fd : Int} {k k' : Nat} (h : IsFd pc s fd k) (h' : IsFd pc s fd k') : k = k' := by
  obtain ⟨h1, h2, h3⟩ := h
  obtain ⟨h4, h5, h6⟩ := h'
  have hv := (hi.handle hin k h1 h2).vol
  have hv' := (hi.handle hin k' h4 h5).vol
  have := hc.n; have := hc.handles
  rw [h3] at h6
  have h6 := Int.ofNat.inj h6
  have a := fd_parts (g := s.gen (s.handle k).vol) (vol := (s.handle k).vol) (k := k) (by omega) (by omega) (hi.gen _ hv).1
  have b := fd_parts (g := s.gen (s.handle k').vol) (vol := (s.handle k').vol) (k := k') (by omega) (by omega) (hi.gen _ hv').1
  rw [← a.1, ← b.1, h6]

/-- `FildesToHandle` -/
theorem toHandle_spec (hc : pc.Ok) (hi : PInv pc s) (hin : s.inited = true) {fd : Int} (hfd : Int32 fd) (type : FType) :
    ((∀ k, ¬ IsFd pc s fd k) ∧ fildesToHandle pc fd type s = (.error .ebadf, s)) ∨
    ∃ k, IsFd pc s fd k ∧ HandleOk pc s (s.handle k) ∧
      fildesToHandle pc fd type s = (if type = .file ∧ (s.handle k).dir = true then .error .eisdir else if type = .dir ∧ (s.handle k).dir = false then .error .enotdir else .ok k, s) := by
  have hn := hc.n; have hh := hc.handles
  unfold fildesToHandle
  by_cases h3 : fd < fdMin
  · rw [if_pos h3]
    left
    refine ⟨fun k hk => ?_, rfl⟩
    have H := hi.handle hin k hk.1 hk.2.1
    have := (hi.gen _ H.vol).2 H.mounted
    have e := hk.2.2
    unfold PSt.fd at e; unfold fdMin at h3
    omega
  rw [if_neg h3, unpack_eq]
  dsimp only
  have h0 : 0 ≤ fd := by unfold fdMin at h3; omega
  obtain ⟨b, rfl⟩ := Int.eq_ofNat_of_zero_le h0
  have hb : b < 2147483648 := by have := hfd.2; omega
  simp only [Int.toNat_natCast]
  have hx : ∀ k, IsFd pc s (b : Int) k → k = b % 4096 ∧ (s.handle k).vol = b / 4096 % 256 ∧ s.gen (s.handle k).vol = b / 1048576 % 2048 := by
    intro k hk
    have H := hi.handle hin k hk.1 hk.2.1
    have := hk.1; have := H.vol
    have e := Int.ofNat.inj hk.2.2
    have := fd_parts (g := s.gen (s.handle k).vol) (vol := (s.handle k).vol) (k := k) (by omega) (by omega) (hi.gen _ H.vol).1
    rw [← e] at this
    exact ⟨this.1.symm, this.2.1.symm, this.2.2.symm⟩
  by_cases hbad : pc.handles ≤ b % 4096 ∨ pc.n ≤ b / 4096 % 256 ∨ (s.handle (b % 4096)).ino = 0 ∨ (s.handle (b % 4096)).vol ≠ b / 4096 % 256 ∨ s.gen (b / 4096 % 256) ≠ b / 1048576 % 2048
  · rw [if_pos hbad]
    left
    refine ⟨fun k hk => ?_, rfl⟩
    obtain ⟨e1, e2, e3⟩ := hx k hk
    have H := hi.handle hin k hk.1 hk.2.1
    rw [e1] at e2
    rcases hbad with h | h | h | h | h
    · have := hk.1; omega
    · have := H.vol; rw [e1, e2] at this; omega
    · have := hk.2.1; rw [e1] at this; exact this h
    · exact h e2
    · apply h; rw [← e2, ← e1]; exact e3
  · rw [if_neg hbad]
    have q1 : b % 4096 < pc.handles := by by_contra h; exact hbad (Or.inl (by omega))
    have q2 : (s.handle (b % 4096)).ino ≠ 0 := by intro h; exact hbad (Or.inr (Or.inr (Or.inl h)))
    have q3 : (s.handle (b % 4096)).vol = b / 4096 % 256 := by by_contra h; exact hbad (Or.inr (Or.inr (Or.inr (Or.inl h))))
    have q4 : s.gen (b / 4096 % 256) = b / 1048576 % 2048 := by by_contra h; exact hbad (Or.inr (Or.inr (Or.inr (Or.inr h))))
    right
    refine ⟨b % 4096, ⟨q1, q2, ?_⟩, hi.handle hin _ q1 q2, ?_⟩
    · unfold PSt.fd; rw [q3, q4]; omega
    · split
      · rfl
      · split <;> rfl

theorem isReg_of (hc : pc.Ok) (hi : PInv pc s) {h : Handle} (H : HandleOk pc s h) (hd : h.dir = false) : ∃ f, IsReg (s.files pc h.vol) h.ino f := by
  obtain ⟨f, h1, h2⟩ := H.file
  obtain ⟨g, hg | hg⟩ := file_kind (hc.sys _ H.vol) (hc.posix _ H.vol) (hi.reach _ H.vol) H.mounted (i := h.ino) (by rw [h1]; simp)
  · exact ⟨g, hg⟩
  · exfalso
    have : g = f := by have e := hg.1; rw [h1] at e; exact (Option.some.inj e).symm
    subst this
    have := h2.2 hg.2; rw [hd] at this; cases this

theorem isDir_of {h : Handle} (H : HandleOk pc s h) (hd : h.dir = true) : ∃ f, IsDir (s.files pc h.vol) h.ino f := by
  obtain ⟨f, h1, h2⟩ := H.file
  exact ⟨f, h1, h2.1 hd⟩

theorem sizeMax_lt {c : Conf} (h : c.Ok) : c.sizeMax ≤ 65536 * 4294967295 := by
  obtain ⟨k, h1, h2, h3⟩ := h.bs_pow
  have hb : c.blockSize ≤ 65536 := by rw [h3]; exact Nat.pow_le_pow_right (by norm_num) h2
  have hie : c.inodeEntries ≤ 16384 := by unfold Conf.inodeEntries; omega
  have hp := h.ptrs
  have hde : c.indirEntries ≤ 16384 := by unfold Conf.indirEntries; omega
  have hib : c.indirBlocks ≤ 16384 * 16384 := Nat.mul_le_mul (by omega) hde
  have hdb : c.direct + c.indirBlocks ≤ 4294967295 := by omega
  unfold Conf.sizeMax
  refine Nat.mul_le_mul hb ?_
  unfold Conf.dataBlocks Conf.dindirBlocks
  split
  · unfold Conf.dindirBlocksMax; omega
  · rename_i hlt
    have : c.dindirPtrs * c.dindirData ≤ c.dindirBlocksMax := by
      have hq : c.dindirPtrs ≤ c.dindirBlocksMax / c.dindirData := by unfold Conf.dindirPtrsMax at hlt; split at hlt <;> omega
      exact (Nat.mul_le_mul_right _ hq).trans (Nat.div_mul_le_self _ _)
    unfold Conf.dindirBlocksMax at this
    omega

theorem size_le (hc : pc.Ok) (hi : PInv pc s) {vol i : Nat} {f : AFile} (hv : vol < pc.n) (hm : (s.vols vol).mounted = true) (hf : s.files pc vol i = some f) : f.size ≤ (pc.conf vol).sizeMax := by
  have w := reach_inv (hc.sys _ hv) (hc.posix _ hv) (hi.reach _ hv) hm
  obtain ⟨_, n, _, _, _, _, h5, _, _, _, h6⟩ := w.slot hf
  have := (w.fs.node i n h5).2.1
  omega

/-! ### Handles -/

theorem HandleOk.same {h : Handle} (H : HandleOk pc s h) (hv : s'.vols = s.vols) : HandleOk pc s' h :=
  ⟨H.vol, by rw [hv]; exact H.mounted, by rw [hv]; exact H.file, H.off, H.ro⟩
theorem SlotOk.same {x : Slot} (H : SlotOk pc s x) (hv : s'.vols = s.vols) : SlotOk pc s' x :=
  ⟨H.vol, by rw [hv]; exact H.mounted, by rw [hv]; exact H.off⟩

theorem PInv.setHandle (h : PInv pc s) (k : Nat) {x : Handle} (hx : x.ino ≠ 0 → HandleOk pc s x) : PInv pc (s.setHandle k x) := by
  refine ⟨h.reach, h.cur, h.down, fun hi i hn => ?_, fun hi hc i hn => (h.slot hi hc i hn).same rfl, h.task, h.gen⟩
  show (upd s.handle k x i).ino ≠ 0 → HandleOk pc _ (upd s.handle k x i)
  by_cases e : i = k
  · subst e; rw [upd_same]; exact fun h0 => (hx h0).same rfl
  · rw [upd_other _ _ e]; exact fun h0 => (h.handle hi i hn h0).same rfl

theorem Quiet.setHandle (q : Quiet pc s s') (k : Nat) (x : Handle) : Quiet pc (s.setHandle k x) (s'.setHandle k x) :=
  ⟨q.inited, by show upd s'.handle k x = upd s.handle k x; rw [q.handle], q.slot, q.gen, q.gerrno, q.cur, q.vols⟩

theorem Quiet.handleOk {h : Handle} (q : Quiet pc s s') (H : HandleOk pc s h) : HandleOk pc s' h :=
  H.congr (q.vols _ H.vol).mounted fun f hf => ⟨f, by rw [(q.vols _ H.vol).files H.mounted]; exact hf, rfl⟩

theorem setHandle_onVol {vol k : Nat} {x : Handle} {R : Files → Files → Prop} (o : OnVol pc vol s s' R) : OnVol pc vol s (s'.setHandle k x) R :=
  ⟨o.lt, o.inited, o.slot, o.gen, o.others, o.up, o.up', o.ro, o.mask, o.rel⟩

/-- The volume of a handle becomes the current one. -/
theorem handle_cur {h : Handle} (H : HandleOk pc s h) : setCur pc h.vol s = (.ok (), { s with cur := h.vol }) ∧ Quiet pc s { s with cur := h.vol } ∧
    ({ s with cur := h.vol } : PSt).v.mounted = true :=
  ⟨setCur_ok H.vol s, quiet_cur H.vol s, H.mounted⟩

section
variable (hc : pc.Ok) (hi : PInv pc s) (hin : s.inited = true)
include hc hi hin

theorem file_fd {fd : Int} (hfd : Int32 fd) :
    (∃ e, BadFile pc s fd e ∧ fildesToHandle pc fd .file s = (.error e, s)) ∨
    ∃ k f, FileFd pc s fd k ∧ HandleOk pc s (s.handle k) ∧ IsReg (s.files pc (s.handle k).vol) (s.handle k).ino f ∧ fildesToHandle pc fd .file s = (.ok k, s) := by
  rcases toHandle_spec hc hi hin hfd .file with ⟨h1, h2⟩ | ⟨k, h1, h2, h3⟩
  · exact Or.inl ⟨_, Or.inl ⟨rfl, h1⟩, h2⟩
  · cases hd : (s.handle k).dir with
    | true => rw [if_pos ⟨rfl, hd⟩] at h3; exact Or.inl ⟨_, Or.inr ⟨rfl, k, h1, hd⟩, h3⟩
    | false =>
      rw [if_neg (by simp [hd]), if_neg (by simp)] at h3
      obtain ⟨f, hf⟩ := isReg_of hc hi h2 hd
      exact Or.inr ⟨k, f, ⟨h1, hd⟩, h2, hf, h3⟩

theorem badFile_none {fd : Int} {e : Err} (h : BadFile pc s fd e) : (∀ k, ¬ FileFd pc s fd k) ∧ (if e = .eisdir then Err.ebadf else e) = .ebadf := by
  rcases h with ⟨rfl, h⟩ | ⟨rfl, k, h1, h2⟩
  · exact ⟨fun k hk => h k hk.1, rfl⟩
  · refine ⟨fun k' hk => ?_, rfl⟩
    have := isFd_unique hc hi hin h1 hk.1
    subst this
    have := hk.2; rw [h2] at this; cases this

theorem either_fd {fd : Int} (hfd : Int32 fd) :
    ((∀ k, ¬ IsFd pc s fd k) ∧ fildesToHandle pc fd .either s = (.error .ebadf, s)) ∨
    ∃ k, IsFd pc s fd k ∧ HandleOk pc s (s.handle k) ∧ fildesToHandle pc fd .either s = (.ok k, s) := by
  rcases toHandle_spec hc hi hin hfd .either with ⟨h1, h2⟩ | ⟨k, h1, h2, h3⟩
  · exact Or.inl ⟨h1, h2⟩
  · rw [if_neg (by simp), if_neg (by simp)] at h3; exact Or.inr ⟨k, h1, h2, h3⟩

/-- `red_read` -/
theorem pRead_spec {fd : Int} (hfd : Int32 fd) (len : Nat) :
    ∃ r s', pRead pc fd len s = (r, s') ∧ PInv pc s' ∧ ReadDoes pc fd len s r s' := by
  unfold pRead
  rcases file_fd hc hi hin hfd with ⟨e, h1, h2⟩ | ⟨k, f, h1, H, hf, h2⟩
  · rw [run_bind, h2]; exact ⟨_, _, rfl, hi, Or.inl ⟨e, h1, rfl, Quiet.refl _ _⟩⟩
  rw [run_bind, h2]; dsimp only
  rw [run_bind, run_get]; dsimp only
  cases hr : (s.handle k).readable with
  | false => rw [if_pos rfl]; exact ⟨_, _, rfl, hi, Or.inr ⟨k, h1, Or.inl ⟨hr, rfl, Quiet.refl _ _⟩⟩⟩
  | true =>
    rw [if_neg (by simp)]
    obtain ⟨e1, q1, hm⟩ := handle_cur H
    rw [run_bind, e1]; dsimp only
    obtain ⟨r, s2, e2, a2, R⟩ := onRead hc (hi.quiet q1) hm (s.handle k).ino (s.handle k).off len
    rw [run_bind, e2]
    have q2 := q1.trans a2.quiet
    replace R : Spec.Read (s.handle k).ino (s.handle k).off len (s.files pc (s.handle k).vol) r := R
    rcases r with e | bs
    · exfalso
      rcases R with ⟨_, R⟩ | ⟨_, g, R⟩
      · rw [hf.1] at R; cases R
      · have e := R.1; rw [hf.1] at e
        injection e with e; subst e; exact modes_ne (R.2.symm.trans hf.2)
    · obtain ⟨g, R1, R2⟩ := R
      have : g = f := by have e := R1.1; rw [hf.1] at e; injection e with e; exact e.symm
      subst this
      subst R2
      dsimp only
      rw [run_bind, run_modify]; dsimp only
      have qf := q2.setHandle k { s.handle k with off := (s.handle k).off + (g.read (s.handle k).off len).length }
      have hle : (s.handle k).off + (g.read (s.handle k).off len).length ≤ (pc.conf (s.handle k).vol).sizeMax := by
        have h3 := H.off h1.2
        have h4 := size_le hc hi H.vol H.mounted hf.1
        have h5 : (s.handle k).off + (g.read (s.handle k).off len).length ≤ max (s.handle k).off g.size := by
          unfold AFile.read; simp; omega
        omega
      refine ⟨_, _, rfl, ?_, Or.inr ⟨k, h1, Or.inr ⟨g, hr, hf, rfl, ?_⟩⟩⟩
      · rw [q2.handle]
        refine (hi.quiet q2).setHandle k fun _ => q2.handleOk ⟨H.vol, H.mounted, H.file, fun _ => hle, H.ro⟩
      · rw [q2.handle]; exact qf

/-- `red_write` -/
theorem pWrite_spec {fd : Int} (hfd : Int32 fd) (len : Nat) (buf : Nat → Byte) :
    ∃ r s', pWrite pc fd len buf s = (r, s') ∧ PInv pc s' ∧ WriteDoes pc fd len buf s r s' := by
  unfold pWrite
  rw [run_bind, run_attempt]
  rcases file_fd hc hi hin hfd with ⟨e, h1, h2⟩ | ⟨k, f, h1, H, hf, h2⟩
  · rw [h2]; dsimp only
    obtain ⟨h3, h4⟩ := badFile_none hc hi hin h1
    rw [h4]; exact ⟨_, _, rfl, hi, Or.inl ⟨h3, rfl, Quiet.refl _ _⟩⟩
  rw [h2]; dsimp only
  rw [run_bind, run_get]; dsimp only
  cases hr : (s.handle k).writeable with
  | false => rw [if_pos rfl]; exact ⟨_, _, rfl, hi, Or.inr ⟨k, h1, Or.inl ⟨hr, rfl, Quiet.refl _ _⟩⟩⟩
  | true =>
    rw [if_neg (by simp)]
    obtain ⟨e1, q1, hm⟩ := handle_cur H
    rw [run_bind, e1]; dsimp only
    generalize hs1 : ({ s with cur := (s.handle k).vol } : PSt) = s1 at *
    have hcur1 : s1.cur = (s.handle k).vol := by rw [← hs1]
    have hi1 := hi.quiet q1
    have hsz := size_le hc hi H.vol H.mounted hf.1
    -- the write itself, at `pos`
    have fin : ∀ (pos : Nat) (s2 : PSt), pos = (if (s.handle k).appending then f.size else (s.handle k).off) →
        Quiet pc (s.setHandle k { s.handle k with off := pos }) s2 → s2.cur = (s.handle k).vol →
        ∃ r s', (do
          let s ← get
          let n ← onCur pc fun c => coreFileWrite c (s.handle k).ino (s.handle k).off len buf
          modify fun s => s.setHandle k { s.handle k with off := (s.handle k).off + n }
          pure n : PM Nat) s2 = (r, s') ∧ PInv pc s' ∧ WriteDoes pc fd len buf s r s' := by
      intro pos s2 hpos q2 hcur2
      rw [run_bind, run_get]; dsimp only
      have hh : s2.handle k = { s.handle k with off := pos } := by rw [q2.handle]; exact upd_same ..
      rw [hh]; dsimp only
      have hple : pos ≤ (pc.conf (s.handle k).vol).sizeMax := by
        rw [hpos]; split
        · exact hsz
        · exact H.off h1.2
      have his : PInv pc (s.setHandle k { s.handle k with off := pos }) := hi.setHandle k fun _ => ⟨H.vol, H.mounted, H.file, fun _ => hple, H.ro⟩
      have hi2 := his.quiet q2
      have hm2 : s2.v.mounted = true := by
        show (s2.vols s2.cur).mounted = true
        rw [hcur2, (q2.vols _ H.vol).mounted]; exact H.mounted
      obtain ⟨r, s3, e3, hi3, o, ho, hcur3⟩ := effect_step hc his (m := fun c => coreFileWrite c (s.handle k).ino pos len buf)
        (R := Write (pc.conf (s.handle k).vol) (s.handle k).ino pos len buf) q2 hcur2 hm2
        (by rw [← hcur2]; exact write_typed (hc.sys _ hi2.cur) (hc.posix _ hi2.cur) (hi2.reach _ hi2.cur) hm2 (s.handle k).ino pos len buf)
        (fun r F' R i _ => write_keeps R i)
      have o' : OnVol pc (s.handle k).vol s s3 (Rw s (s.handle k).vol (Write (pc.conf (s.handle k).vol) (s.handle k).ino pos len buf) r) :=
        ⟨o.lt, o.inited, o.slot, o.gen, o.others, o.up, o.up', o.ro, o.mask, o.rel⟩
      have hh3 : s3.handle = upd s.handle k { s.handle k with off := pos } := ho
      rw [run_bind, e3]
      rcases r with e | n
      · exact ⟨_, _, rfl, hi3, Or.inr ⟨k, h1, Or.inr ⟨f, pos, hr, hf, hpos, o', hh3⟩⟩⟩
      · dsimp only
        rw [run_bind, run_modify]; dsimp only
        have hle : pos + n ≤ (pc.conf (s.handle k).vol).sizeMax := by
          have := o'.rel; unfold Rw at this
          split at this
          · cases this.1
          · obtain ⟨_, _, _, _, h, _⟩ := this; exact h
        have hk3 : s3.handle k = { s.handle k with off := pos } := by rw [hh3]; exact upd_same ..
        have H3 := hi3.handle (o.inited.trans hin) k h1.1.1 (by rw [hk3]; exact h1.1.2.1)
        rw [hk3] at H3
        refine ⟨_, _, rfl, ?_, Or.inr ⟨k, h1, Or.inr ⟨f, pos, hr, hf, hpos, setHandle_onVol o', ?_⟩⟩⟩
        · rw [hk3]; exact hi3.setHandle k fun _ => ⟨H3.vol, H3.mounted, H3.file, fun _ => hle, H3.ro⟩
        · rw [hk3]
          show upd s3.handle k _ = _
          rw [hh3]; funext j; unfold upd; split <;> rfl
    cases ha : (s.handle k).appending with
    | false =>
      rw [if_neg (by simp)]
      refine fin (s.handle k).off s1 (by rw [ha]; rfl) ?_ hcur1
      have : s.setHandle k { s.handle k with off := (s.handle k).off } = s := by
        show { s with handle := upd s.handle k (s.handle k) } = s
        rw [upd_id]
      rw [this]; exact q1
    | true =>
      rw [if_pos rfl]
      obtain ⟨r, s2, e2, a2, S⟩ := onStat hc hi1 hm (s.handle k).ino
      rw [run_bind, e2]
      have hF1 : s1.F pc = s.files pc (s.handle k).vol := by rw [← hs1]
      rw [hF1] at S
      rcases r with e | st
      · exfalso; have := S.2; rw [hf.1] at this; cases this
      obtain ⟨g, S1, _, _, _, S2⟩ := S
      have : g = f := by rw [hf.1] at S1; injection S1 with S1; exact S1.symm
      subst this
      dsimp only
      rw [run_bind, run_modify]; dsimp only
      have q2 := q1.trans a2.quiet
      refine fin st.size _ (by rw [ha, S2]; rfl) ?_ (a2.cur.trans hcur1)
      rw [q2.handle]; exact q2.setHandle k _

/-- `red_lseek` -/
theorem pLseek_spec {fd : Int} (hfd : Int32 fd) {off : Int} (hoff : Int64 off) (whence : Nat) :
    ∃ r s', pLseek pc fd off whence s = (r, s') ∧ PInv pc s' ∧ LseekDoes pc fd off whence s r s' := by
  unfold pLseek
  rcases file_fd hc hi hin hfd with ⟨e, h1, h2⟩ | ⟨k, f, h1, H, hf, h2⟩
  · rw [run_bind, h2]; exact ⟨_, _, rfl, hi, Or.inl ⟨e, h1, rfl, Quiet.refl _ _⟩⟩
  rw [run_bind, h2]; dsimp only
  rw [run_bind, run_get]; dsimp only
  obtain ⟨e1, q1, hm⟩ := handle_cur H
  rw [run_bind, e1]; dsimp only
  generalize hs1 : ({ s with cur := (s.handle k).vol } : PSt) = s1 at *
  have hi1 := hi.quiet q1
  have hsz := size_le hc hi H.vol H.mounted hf.1
  have hmax := sizeMax_lt (hc.sys _ H.vol).ok
  -- the new offset
  have fin : ∀ (origin : Nat) (s2 : PSt), Quiet pc s s2 → origin ≤ (pc.conf (s.handle k).vol).sizeMax →
      (whence = 0 ∧ origin = 0 ∨ whence = 1 ∧ origin = (s.handle k).off ∨ whence = 2 ∧ origin = f.size) →
      ∃ r s', (if 0 < off ∧ int64Max < (origin + off.toNat) % 18446744073709551616 then fail .einval
        else if (origin : Int) + off < 0 ∨ (pc.conf (s.handle k).vol).sizeMax < ((origin : Int) + off).toNat then fail .einval
        else do
          modify fun s => s.setHandle k { s.handle k with off := ((origin : Int) + off).toNat }
          pure ((origin : Int) + off).toNat : PM Nat) s2 = (r, s') ∧ PInv pc s' ∧ LseekDoes pc fd off whence s r s' := by
    intro origin s2 q2 hor hwh
    have hmod : 0 < off → (origin + off.toNat) % 18446744073709551616 = origin + off.toNat := by
      intro h; exact Nat.mod_eq_of_lt (by have := hoff.2; omega)
    by_cases hA : 0 < off ∧ int64Max < (origin + off.toNat) % 18446744073709551616
    · rw [if_pos hA]
      refine ⟨_, _, rfl, hi.quiet q2, Or.inr ⟨k, f, h1, hf, Or.inr ⟨origin, hwh, fun h => ?_, fun _ => ⟨rfl, q2⟩⟩⟩⟩
      exfalso
      have := hA.2; rw [hmod hA.1] at this; unfold int64Max at this; omega
    · rw [if_neg hA]
      by_cases hB : (origin : Int) + off < 0 ∨ (pc.conf (s.handle k).vol).sizeMax < ((origin : Int) + off).toNat
      · rw [if_pos hB]
        refine ⟨_, _, rfl, hi.quiet q2, Or.inr ⟨k, f, h1, hf, Or.inr ⟨origin, hwh, fun h => ?_, fun _ => ⟨rfl, q2⟩⟩⟩⟩
        exfalso; omega
      · rw [if_neg hB, run_bind, run_modify]; dsimp only
        have hn : 0 ≤ (origin : Int) + off := by omega
        have hle : ((origin : Int) + off).toNat ≤ (pc.conf (s.handle k).vol).sizeMax := by omega
        refine ⟨_, _, rfl, ?_, Or.inr ⟨k, f, h1, hf, Or.inr ⟨origin, hwh, fun _ => ⟨((origin : Int) + off).toNat, by omega, rfl, ?_⟩, fun h => ?_⟩⟩⟩
        · rw [q2.handle]
          exact (hi.quiet q2).setHandle k fun _ => q2.handleOk ⟨H.vol, H.mounted, H.file, fun _ => hle, H.ro⟩
        · rw [q2.handle]; exact q2.setHandle k _
        · exfalso; omega
  by_cases h0 : whence = 0
  · rw [if_pos h0]; exact fin 0 s1 q1 (Nat.zero_le _) (Or.inl ⟨h0, rfl⟩)
  rw [if_neg h0]
  by_cases hw1 : whence = 1
  · rw [if_pos hw1]; exact fin _ s1 q1 (H.off h1.2) (Or.inr (Or.inl ⟨hw1, rfl⟩))
  rw [if_neg hw1]
  by_cases hw2 : whence = 2
  · rw [if_pos hw2]
    obtain ⟨r, s2, e2, a2, S⟩ := onStat hc hi1 hm (s.handle k).ino
    rw [run_bind, run_bind, e2]
    have hF1 : s1.F pc = s.files pc (s.handle k).vol := by rw [← hs1]
    rw [hF1] at S
    rcases r with e | st
    · exfalso; have := S.2; rw [hf.1] at this; cases this
    obtain ⟨g, S1, _, _, _, S2⟩ := S
    have : g = f := by rw [hf.1] at S1; injection S1 with S1; exact S1.symm
    subst this
    dsimp only
    rw [S2]
    exact fin _ s2 (q1.trans a2.quiet) hsz (Or.inr (Or.inr ⟨hw2, rfl⟩))
  · rw [if_neg hw2]
    exact ⟨_, _, rfl, hi1, Or.inr ⟨k, f, h1, hf, Or.inl ⟨by omega, rfl, q1⟩⟩⟩

/-- `red_ftruncate` -/
theorem pFtruncate_spec {fd : Int} (hfd : Int32 fd) (size : Nat) :
    ∃ r s', pFtruncate pc fd size s = (r, s') ∧ PInv pc s' ∧ FtruncateDoes pc fd size s r s' := by
  unfold pFtruncate
  rw [run_bind, run_attempt]
  rcases file_fd hc hi hin hfd with ⟨e, h1, h2⟩ | ⟨k, f, h1, H, hf, h2⟩
  · rw [h2]; dsimp only
    obtain ⟨h3, h4⟩ := badFile_none hc hi hin h1
    rw [h4]; exact ⟨_, _, rfl, hi, Or.inl ⟨h3, rfl, Quiet.refl _ _⟩⟩
  rw [h2]; dsimp only
  rw [run_bind, run_get]; dsimp only
  cases hr : (s.handle k).writeable with
  | false => rw [if_pos rfl]; exact ⟨_, _, rfl, hi, Or.inr ⟨k, h1, Or.inl ⟨hr, rfl, Quiet.refl _ _⟩⟩⟩
  | true =>
    rw [if_neg (by simp)]
    obtain ⟨e1, q1, hm⟩ := handle_cur H
    rw [run_bind, e1]; dsimp only
    have hi1 := hi.quiet q1
    obtain ⟨r, s3, e3, hi3, o, ho, _⟩ := effect_step hc hi (m := fun c => coreFileTruncate c (s.handle k).ino size)
        (R := Truncate (pc.conf (s.handle k).vol) (s.handle k).ino size) (vol := (s.handle k).vol) q1 rfl hm
        (truncate_typed (hc.sys _ H.vol) (hc.posix _ H.vol) (hi1.reach _ H.vol) hm (s.handle k).ino size)
        (fun r F' R i _ => truncate_keeps R i)
    exact ⟨r, s3, e3, hi3, Or.inr ⟨k, h1, Or.inr ⟨hr, o, ho⟩⟩⟩

/-- `red_fstat` -/
theorem pFstat_spec {fd : Int} (hfd : Int32 fd) :
    ∃ r s', pFstat pc fd s = (r, s') ∧ PInv pc s' ∧ FstatDoes pc fd s r s' := by
  unfold pFstat
  rcases either_fd hc hi hin hfd with ⟨h1, h2⟩ | ⟨k, h1, H, h2⟩
  · rw [run_bind, h2]; exact ⟨_, _, rfl, hi, Or.inl ⟨h1, rfl, Quiet.refl _ _⟩⟩
  rw [run_bind, h2]; dsimp only
  rw [run_bind, run_get]; dsimp only
  obtain ⟨e1, q1, hm⟩ := handle_cur H
  rw [run_bind, e1]; dsimp only
  obtain ⟨r, s2, e2, a2, S⟩ := onStat hc (hi.quiet q1) hm (s.handle k).ino
  have q2 := q1.trans a2.quiet
  refine ⟨r, s2, e2, hi.quiet q2, ?_⟩
  rcases r with e | st
  · exfalso
    obtain ⟨f, hf, _⟩ := H.file
    have := S.2
    rw [show PSt.F pc ({ s with cur := (s.handle k).vol } : PSt) (s.handle k).ino = some f from hf] at this; cases this
  · exact Or.inr ⟨k, st, h1, rfl, S, q2⟩

end

end RedFs.Posix
