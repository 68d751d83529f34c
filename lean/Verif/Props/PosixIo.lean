import Verif.Props.PosixUse
set_option linter.unusedSimpArgs false
set_option linter.unusedVariables false
set_option linter.unusedSectionVars false
/-!
C31: file offsets.  C32: open modes.
-/
namespace RedFs.Props.PosixIo
open RedFs.Posix M Str Path Spec
open RedFs.Props.PosixUse (Unchanged unchanged_of Closes)

variable {pc : PConf} {s s' s1 : PSt} {t : Nat} {k : PCall} {r : Except Err PReply} {fd : Int} {j : Nat}

/-- The descriptor `fd` of a regular file is open, as handle `j`. -/
def OpenFile (pc : PConf) (s : PSt) (fd : Int) (j : Nat) : Prop := Open pc s fd j ∧ (s.handle j).dir = false

/-- Only the offset of handle `j` has changed; it is `x`. -/
def OnlyOffset (s s' : PSt) (j x : Nat) : Prop := s'.handle = fun i => if i = j then { s.handle j with off := x } else s.handle i

/-- What is seen of the volumes is the same. -/
def VolsSame (pc : PConf) (s s' : PSt) : Prop :=
  ∀ i, i < pc.n → (s'.vols i).mounted = (s.vols i).mounted ∧ ((s.vols i).mounted = true → s'.files pc i = s.files pc i)

theorem vols_same (a1 : Alike s s1) {s2 : PSt} (hv : ∀ i, i < pc.n → Same (pc.conf i) (s1.vols i) (s2.vols i)) (a2 : Alike s2 s') : VolsSame pc s s' := by
  intro i hi
  have := hv i hi
  unfold PSt.files
  rw [a2.vols]
  rw [a1.vols] at this
  exact ⟨this.mounted, this.files⟩

theorem not_badName {c : Conf} {nm : List Byte} {e : Err} (h : NameOk c nm) : ¬ BadName c nm e := by
  have := h.pos; have := h.max
  rintro (⟨h1, _⟩ | ⟨h1, _⟩ | ⟨_, _, h1 | h1, _⟩)
  · omega
  · omega
  · exact h.dot h1
  · exact h.dotdot h1

section
variable (hc : pc.Ok) (h : PReach pc s)
include hc h

theorem file_is (ho : OpenFile pc s fd j) : ∃ f, IsReg (s.files pc (s.handle j).vol) (s.handle j).ino f := by
  have H := PosixFd.open_handle hc h ho.1
  obtain ⟨f, hf, hd⟩ := H.file
  obtain ⟨g, hg⟩ := file_kind (hc.sys _ H.vol) (hc.posix _ H.vol) ((h.inv hc).reach _ H.vol) H.mounted (i := (s.handle j).ino) (by rw [hf]; simp)
  rcases hg with hg | hg
  · exact ⟨g, hg⟩
  · have := hg.1; rw [hf] at this; injection this with this; subst this
    rw [ho.2] at hd; exact absurd (hd.2 hg.2) (by simp)

theorem file_uniq (ho : OpenFile pc s fd j) {i : Nat} (hi : FileFd pc s fd i) : i = j := isFd_unique hc (h.inv hc) ho.1.1 hi.1 ho.1.2

/-- **C31** The offset of every open file is between 0 and the maximum file size. -/
theorem C31_offset_range (ho : OpenFile pc s fd j) : (s.handle j).off ≤ (pc.conf (s.handle j).vol).sizeMax := (PosixFd.open_handle hc h ho.1).off ho.2

/-- **C31** Nothing but `red_read`, `red_write` and `red_lseek` on the descriptor (for directories `red_readdir` and `red_rewinddir`) changes the offset; nothing at all
changes what the descriptor may be used for. -/
theorem C31_only_own_calls (hp : Permitted pc t k s) (ho : Open pc s fd j) (ho' : Open pc (pexec pc t k s).2 fd j) :
    ((pexec pc t k s).2.handle j = s.handle j ∨ (((∃ len, k = .read fd len) ∨ (∃ len buf, k = .write fd len buf) ∨ (∃ off whence, k = .lseek fd off whence) ∨ k = .readdir j ∨ k = .rewinddir j) ∧
      ∃ x, (pexec pc t k s).2.handle j = { s.handle j with off := x })) := by
  generalize he : pexec pc t k s = x at *
  obtain ⟨r, s'⟩ := x
  dsimp only at *
  rcases step_cases hc (h.inv hc) hp he with ⟨_, hz, i, _⟩ | ⟨a, _⟩ | ⟨hin, s1, s2, R, hi1, a1, d, a2⟩
  · rw [ho.1] at hz; cases hz
  · exact Or.inl (by rw [a.handle])
  · have h1 : s.handle j = s1.handle j := by rw [a1.handle]
    rw [a2.handle, h1]
    rw [← a1.open_ (pc := pc)] at ho
    rw [a2.open_] at ho'
    rcases body_handles hc hi1 ho.1 d with ⟨_, hg, _, _, hh⟩ | ⟨hj, hz, h0, hv, hh, hg, hk, hr⟩ | ⟨hj, hz, h0, hv, hh, hg, hk, hr⟩ | ⟨hf, hh, hg, hk, hr⟩ | ⟨hm, hv, hh, hg, hk, hr⟩ |
      ⟨hv, hh, hg, hk, hr⟩
    · rcases hh j with hh | ⟨hk, hx⟩
      · exact Or.inl hh
      · refine Or.inr ⟨?_, hx⟩
        rcases hk with ⟨fd', hf, hk⟩ | hk | hk
        · have : fd' = fd := by rw [hf.2.2, ho.2.2.2]
          subst this
          rcases hk with hk | hk | hk
          · exact Or.inl hk
          · exact Or.inr (Or.inl hk)
          · exact Or.inr (Or.inr (Or.inl hk))
        · exact Or.inr (Or.inr (Or.inr (Or.inl hk)))
        · exact Or.inr (Or.inr (Or.inr (Or.inr hk)))
    · rename_i m hd
      have e : j ≠ m := fun e => ho.2.2.1 (by rw [e]; exact hz)
      exact Or.inl (by rw [hh, upd_other _ _ e])
    · rename_i m hd
      have e : j ≠ m := fun e => ho.2.2.1 (by rw [e]; exact hz)
      exact Or.inl (by rw [hh, upd_other _ _ e])
    · rename_i m fd'
      by_cases e : j = m
      · subst e; exact absurd (by rw [hh, upd_same]) ho'.2.2.1
      · exact Or.inl (by rw [hh, upd_other _ _ e])
    · exact Or.inl (by rw [hh])
    · have h0 := ho'.2.2.1
      rw [hh] at h0 ⊢
      unfold closeAll at h0 ⊢
      split at h0
      · exact absurd rfl h0
      · rename_i e; rw [if_neg e]; exact Or.inl rfl

variable (hs : ¬ NoSlot pc t s)
include hs

/-- **C31** `red_read` returns the bytes at the offset, and moves the offset by exactly as many bytes as it returns. -/
theorem C31_read {len : Nat} {f : AFile} (hp : Permitted pc t (.read fd len) s) (hl : len ≤ 2147483647) (ho : OpenFile pc s fd j) (hr : (s.handle j).readable = true)
    (hf : IsReg (s.files pc (s.handle j).vol) (s.handle j).ino f) :
    (pexec pc t (.read fd len) s).1 = .ok (.bytes (f.read (s.handle j).off len)) ∧
    OnlyOffset s (pexec pc t (.read fd len) s).2 j ((s.handle j).off + (f.read (s.handle j).off len).length) ∧ VolsSame pc s (pexec pc t (.read fd len) s).2 := by
  obtain ⟨s1, s2, R, hi1, a1, d, a2⟩ := call_ctx hc h hp (by simp) ho.1.1 (by simpa [PCall.Bad] using hl) hs
  generalize (pexec pc t (.read fd len) s).1 = r at *
  generalize (pexec pc t (.read fd len) s).2 = s' at *
  have hu : ∀ {i}, FileFd pc s1 fd i → i = j := fun hx => isFd_unique hc hi1 (a1.inited.trans ho.1.1) hx.1 (a1.open_.2 ho.1).2
  obtain ⟨r0, rfl, d⟩ := d
  rcases d with ⟨e, hb, _⟩ | ⟨i, hi, d⟩
  · rcases hb with ⟨_, hb⟩ | ⟨_, i, hi, hd⟩
    · exact absurd (a1.open_.2 ho.1).2 (hb j)
    · have := isFd_unique hc hi1 (a1.inited.trans ho.1.1) hi (a1.open_.2 ho.1).2
      subst this
      rw [a1.handle, ho.2] at hd; cases hd
  · have := hu hi; subst this
    rw [a1.handle] at d
    rcases d with ⟨hb, _⟩ | ⟨g, _, hg, hr0, q⟩
    · rw [hr] at hb; cases hb
    · have : g = f := by
        have h1 := hg.1; unfold PSt.files at h1; rw [a1.vols] at h1
        have := h1.symm.trans hf.1; injection this
      subst this
      refine ⟨by rw [hr0]; rfl, ?_, ?_⟩
      · unfold OnlyOffset
        rw [a2.handle, q.handle]
        funext x
        show Posix.upd s1.handle i _ x = _
        unfold Posix.upd; rw [a1.handle]
      · exact vols_same a1 q.vols a2

/-- **C31** `red_write` writes at the offset, or at the end of the file if it was opened with `RED_O_APPEND`, and moves the offset behind the last byte written; nothing else is
changed.  (If it fails nothing is written; in append mode the offset moves to the end of the file nevertheless.) -/
theorem C31_write {len : Nat} {buf : Nat → Byte} {f : AFile} (hp : Permitted pc t (.write fd len buf) s) (hl : len ≤ 2147483647) (ho : OpenFile pc s fd j) (hw : (s.handle j).writeable = true)
    (hf : IsReg (s.files pc (s.handle j).vol) (s.handle j).ino f) :
    ∃ pos, pos = (if (s.handle j).appending then f.size else (s.handle j).off) ∧
    ((∃ n, (pexec pc t (.write fd len buf) s).1 = .ok (.num n) ∧ n ≤ len ∧ (0 < len → 0 < n) ∧ pos + n ≤ (pc.conf (s.handle j).vol).sizeMax ∧
        (pexec pc t (.write fd len buf) s).2.files pc (s.handle j).vol = (s.files pc (s.handle j).vol).set (s.handle j).ino (some (f.put pos n buf)) ∧
        OnlyOffset s (pexec pc t (.write fd len buf) s).2 j (pos + n)) ∨
     (∃ e, (pexec pc t (.write fd len buf) s).1 = .error e ∧
        (pexec pc t (.write fd len buf) s).2.files pc (s.handle j).vol = s.files pc (s.handle j).vol ∧ OnlyOffset s (pexec pc t (.write fd len buf) s).2 j pos)) ∧
    ∀ i, i < pc.n → i ≠ (s.handle j).vol → ((pexec pc t (.write fd len buf) s).2.vols i).mounted = (s.vols i).mounted ∧
      ((s.vols i).mounted = true → (pexec pc t (.write fd len buf) s).2.files pc i = s.files pc i) := by
  obtain ⟨s1, s2, R, hi1, a1, d, a2⟩ := call_ctx hc h hp (by simp) ho.1.1 (by simpa [PCall.Bad] using hl) hs
  generalize (pexec pc t (.write fd len buf) s).1 = r at *
  generalize (pexec pc t (.write fd len buf) s).2 = s' at *
  have hu : ∀ {i}, FileFd pc s1 fd i → i = j := fun hx => isFd_unique hc hi1 (a1.inited.trans ho.1.1) hx.1 (a1.open_.2 ho.1).2
  obtain ⟨r0, rfl, d⟩ := d
  rcases d with ⟨hb, _⟩ | ⟨i, hi, d⟩
  · exact absurd ⟨(a1.open_.2 ho.1).2, by rw [a1.handle]; exact ho.2⟩ (hb j)
  · have := hu hi; subst this
    rw [a1.handle] at d
    rcases d with ⟨hb, _⟩ | ⟨g, pos, _, hg, hpos, o, hh⟩
    · rw [hw] at hb; cases hb
    · have hF : ∀ x, s1.files pc x = s.files pc x := fun x => by unfold PSt.files; rw [a1.vols]
      have hF2 : ∀ x, s'.files pc x = s2.files pc x := fun x => by unfold PSt.files; rw [a2.vols]
      rw [hF] at hg
      have : g = f := by have := hg.1.symm.trans hf.1; injection this
      subst this
      refine ⟨pos, hpos, ?_, fun x hx hne => ?_⟩
      · have off : ∀ y, s2.handle = Posix.upd s.handle i { s.handle i with off := y } → OnlyOffset s s' i y := fun y hy => by
          unfold OnlyOffset; rw [a2.handle, hy]; rfl
        have hrel := o.rel
        rw [hF] at hrel
        unfold Rw at hrel
        split at hrel
        · obtain ⟨h1, h2⟩ := hrel
          subst h1
          exact Or.inr ⟨_, rfl, by rw [hF2]; exact h2, off _ hh⟩
        · cases r0 with
          | error e => exact Or.inr ⟨_, rfl, by rw [hF2]; exact hrel.1, off _ hh⟩
          | ok n =>
            obtain ⟨g', hg', h1, h2, h3, h4⟩ := hrel
            have : g' = g := by have := hg'.1.symm.trans hg.1; injection this
            subst this
            exact Or.inl ⟨n, rfl, h1, h2, h3, by rw [hF2]; exact h4, off _ hh⟩
      · have := o.others x hx hne
        unfold PSt.files
        rw [a2.vols]
        rw [a1.vols] at this
        exact ⟨this.mounted, this.files⟩

/-- **C31** `red_lseek` sets the offset to what is asked for, and returns it, if that is between 0 and the maximum file size; otherwise it fails with `EINVAL` and the offset
stays: the sum is that of the integers, without overflow. -/
theorem C31_lseek {off : Int} {whence origin : Nat} {f : AFile} (hp : Permitted pc t (.lseek fd off whence) s) (ho : OpenFile pc s fd j)
    (hf : IsReg (s.files pc (s.handle j).vol) (s.handle j).ino f) (hw : whence = 0 ∧ origin = 0 ∨ whence = 1 ∧ origin = (s.handle j).off ∨ whence = 2 ∧ origin = f.size) :
    (0 ≤ (origin : Int) + off ∧ (origin : Int) + off ≤ (pc.conf (s.handle j).vol).sizeMax →
      ∃ n : Nat, (n : Int) = origin + off ∧ (pexec pc t (.lseek fd off whence) s).1 = .ok (.num n) ∧ OnlyOffset s (pexec pc t (.lseek fd off whence) s).2 j n ∧
        VolsSame pc s (pexec pc t (.lseek fd off whence) s).2) ∧
    (¬ (0 ≤ (origin : Int) + off ∧ (origin : Int) + off ≤ (pc.conf (s.handle j).vol).sizeMax) →
      (pexec pc t (.lseek fd off whence) s).1 = .error .einval ∧ Unchanged pc s (pexec pc t (.lseek fd off whence) s).2) := by
  obtain ⟨s1, s2, R, hi1, a1, d, a2⟩ := call_ctx hc h hp (by simp) ho.1.1 id hs
  generalize (pexec pc t (.lseek fd off whence) s).1 = r at *
  generalize (pexec pc t (.lseek fd off whence) s).2 = s' at *
  have hu : ∀ {i}, FileFd pc s1 fd i → i = j := fun hx => isFd_unique hc hi1 (a1.inited.trans ho.1.1) hx.1 (a1.open_.2 ho.1).2
  obtain ⟨r0, rfl, d⟩ := d
  rcases d with ⟨e, hb, _⟩ | ⟨i, g, hi, hg, d⟩
  · exfalso
    rcases hb with ⟨_, hb⟩ | ⟨_, i, hi, hd⟩
    · exact absurd (a1.open_.2 ho.1).2 (hb j)
    · have := isFd_unique hc hi1 (a1.inited.trans ho.1.1) hi (a1.open_.2 ho.1).2
      subst this
      rw [a1.handle, ho.2] at hd; cases hd
  · have := hu hi; subst this
    rw [a1.handle] at d hg
    have : g = f := by
      have h1 := hg.1; unfold PSt.files at h1; rw [a1.vols] at h1
      have := h1.symm.trans hf.1; injection this
    subst this
    rcases d with ⟨h3, _⟩ | ⟨o, hor, d⟩
    · omega
    · have : o = origin := by omega
      subst this
      refine ⟨fun hx => ?_, fun hx => ?_⟩
      · obtain ⟨n, hn, hr, q⟩ := d.1 hx
        refine ⟨n, hn, by rw [hr]; rfl, ?_, vols_same a1 q.vols a2⟩
        unfold OnlyOffset
        rw [a2.handle, q.handle]
        funext x
        show Posix.upd s1.handle i _ x = _
        unfold Posix.upd; rw [a1.handle]
      · have d := d.2 hx
        exact ⟨by rw [d.1]; rfl, unchanged_of a1 d.2 a2⟩

/-- **C31** Other values of `whence` are rejected. -/
theorem C31_whence {off : Int} {whence : Nat} (hp : Permitted pc t (.lseek fd off whence) s) (ho : OpenFile pc s fd j) (hw : 3 ≤ whence) :
    (pexec pc t (.lseek fd off whence) s).1 = .error .einval ∧ Unchanged pc s (pexec pc t (.lseek fd off whence) s).2 := by
  obtain ⟨s1, s2, R, hi1, a1, d, a2⟩ := call_ctx hc h hp (by simp) ho.1.1 id hs
  generalize (pexec pc t (.lseek fd off whence) s).1 = r at *
  generalize (pexec pc t (.lseek fd off whence) s).2 = s' at *
  obtain ⟨r0, rfl, d⟩ := d
  rcases d with ⟨e, hb, _⟩ | ⟨i, g, hi, hg, d⟩
  · exfalso
    rcases hb with ⟨_, hb⟩ | ⟨_, i, hi, hd⟩
    · exact absurd (a1.open_.2 ho.1).2 (hb j)
    · have := isFd_unique hc hi1 (a1.inited.trans ho.1.1) hi (a1.open_.2 ho.1).2
      subst this
      rw [a1.handle, ho.2] at hd; cases hd
  · rcases d with ⟨_, d⟩ | ⟨o, hor, d⟩
    · exact ⟨by rw [d.1]; rfl, unchanged_of a1 d.2 a2⟩
    · omega

/-! ### Open modes -/

/-- **C32** A mode that is not one of the documented combinations is rejected with `EINVAL`, and nothing is changed. -/
theorem C32_rejected {path : List Byte} {mode : Nat} (hp : Permitted pc t (.open path mode) s) (hin : s.inited = true) (hm : ¬ ModeOk mode) :
    (pexec pc t (.open path mode) s).1 = .error .einval ∧ Unchanged pc s (pexec pc t (.open path mode) s).2 := by
  obtain ⟨s1, s2, R, hi1, a1, d, a2⟩ := call_ctx hc h hp (by simp) hin id hs
  generalize (pexec pc t (.open path mode) s).1 = r at *
  generalize (pexec pc t (.open path mode) s).2 = s' at *
  obtain ⟨r0, rfl, d⟩ := d
  have d := d.2 hm
  exact ⟨by rw [d.1]; rfl, unchanged_of a1 d.2 a2⟩

/-- **C32** A descriptor that was not opened for reading cannot be read. -/
theorem C32_read_refused {len : Nat} (hp : Permitted pc t (.read fd len) s) (hl : len ≤ 2147483647) (ho : OpenFile pc s fd j) (hr : (s.handle j).readable = false) :
    (pexec pc t (.read fd len) s).1 = .error .ebadf ∧ Unchanged pc s (pexec pc t (.read fd len) s).2 := by
  obtain ⟨s1, s2, R, hi1, a1, d, a2⟩ := call_ctx hc h hp (by simp) ho.1.1 (by simpa [PCall.Bad] using hl) hs
  generalize (pexec pc t (.read fd len) s).1 = r at *
  generalize (pexec pc t (.read fd len) s).2 = s' at *
  have hu : ∀ {i}, FileFd pc s1 fd i → i = j := fun hx => isFd_unique hc hi1 (a1.inited.trans ho.1.1) hx.1 (a1.open_.2 ho.1).2
  obtain ⟨r0, rfl, d⟩ := d
  rcases d with ⟨e, hb, _⟩ | ⟨i, hi, d⟩
  · rcases hb with ⟨_, hb⟩ | ⟨_, i, hi, hd⟩
    · exact absurd (a1.open_.2 ho.1).2 (hb j)
    · have := isFd_unique hc hi1 (a1.inited.trans ho.1.1) hi (a1.open_.2 ho.1).2
      subst this
      rw [a1.handle, ho.2] at hd; cases hd
  · have := hu hi; subst this
    rw [a1.handle] at d
    rcases d with ⟨hb, d⟩ | ⟨g, hb, _⟩
    · exact ⟨by rw [d.1]; rfl, unchanged_of a1 d.2 a2⟩
    · rw [hr] at hb; cases hb

/-- **C32** A descriptor that was not opened for writing can be used neither for `red_write` nor for `red_ftruncate`. -/
theorem C32_write_refused {len size : Nat} {buf : Nat → Byte} (hk : k = .write fd len buf ∨ k = .ftruncate fd size) (hp : Permitted pc t k s) (hl : len ≤ 2147483647) (ho : Open pc s fd j)
    (hw : (s.handle j).writeable = false) : (pexec pc t k s).1 = .error .ebadf ∧ Unchanged pc s (pexec pc t k s).2 := by
  have hni : k ≠ .init := by rintro rfl; rcases hk with h | h <;> cases h
  have hb : ¬ k.Bad := by
    rcases hk with rfl | rfl
    · simpa [PCall.Bad] using hl
    · exact id
  obtain ⟨s1, s2, R, hi1, a1, d, a2⟩ := call_ctx hc h hp hni ho.1 hb hs
  generalize (pexec pc t k s).1 = r at *
  generalize (pexec pc t k s).2 = s' at *
  have hu : ∀ {i}, FileFd pc s1 fd i → i = j := fun hx => isFd_unique hc hi1 (a1.inited.trans ho.1) hx.1 (a1.open_.2 ho).2
  rcases hk with rfl | rfl
  · obtain ⟨r0, rfl, d⟩ := d
    rcases d with ⟨_, d⟩ | ⟨i, hi, d⟩
    · exact ⟨by rw [d.1]; rfl, unchanged_of a1 d.2 a2⟩
    · have := hu hi; subst this
      rw [a1.handle] at d
      rcases d with ⟨hb, d⟩ | ⟨g, pos, hb, _⟩
      · exact ⟨by rw [d.1]; rfl, unchanged_of a1 d.2 a2⟩
      · rw [hw] at hb; cases hb
  · obtain ⟨r0, rfl, d⟩ := d
    rcases d with ⟨_, d⟩ | ⟨i, hi, d⟩
    · exact ⟨by rw [d.1]; rfl, unchanged_of a1 d.2 a2⟩
    · have := hu hi; subst this
      rw [a1.handle] at d
      rcases d with ⟨hb, d⟩ | ⟨hb, _⟩
      · exact ⟨by rw [d.1]; rfl, unchanged_of a1 d.2 a2⟩
      · rw [hw] at hb; cases hb

omit hs in
/-- **C32** A successful `red_open`: the mode is one of the documented combinations; the descriptor is open, for reading and writing exactly as the mode says, and its offset is 0. -/
theorem C32_opened {path : List Byte} {mode : Nat} (hp : Permitted pc t (.open path mode) s) (he : pexec pc t (.open path mode) s = (.ok (.fd fd), s')) :
    ModeOk mode ∧ ∃ j, Open pc s' fd j ∧ (s'.handle j).readable = (mode.testBit 0 || mode.testBit 2) ∧ (s'.handle j).writeable = (mode.testBit 1 || mode.testBit 2) ∧
      (s'.handle j).appending = mode.testBit 3 ∧ (s'.handle j).off = 0 := by
  have hin : s.inited = true := by
    rcases step_cases hc (h.inv hc) hp he with ⟨hk, _⟩ | ⟨a, hr⟩ | ⟨hin, _⟩
    · cases hk
    · rcases hr with hr | ⟨e, hr⟩ <;> cases hr
    · exact hin
  obtain ⟨s1, R, _, r0, hr0, d⟩ := call_ok hc h hp (by simp) hin he
  have hi1 := R.inv (h.inv hc) hp.1
  by_cases hm : ModeOk mode
  · refine ⟨hm, ?_⟩
    have d1 := d.1 hm
    have hin' := fildesOpen_inited d1
    obtain ⟨b0, b1, b2, b3, _⟩ := has_bits mode
    obtain ⟨hg, ⟨e, hr, _⟩ | ⟨vol, i, dir, f, hv, _, _, h0, _, _, j, hj, hz, _, hr, hh⟩⟩ := fildesOpen_handles hc hi1 d1
    · subst hr; cases hr0
    · subst hr
      injection hr0 with hr0; injection hr0 with hr0
      have e : s'.handle j = _ := (congrFun hh j).trans (upd_same _ _ _)
      refine ⟨j, ⟨hin'.trans (R.alike.inited.trans hin), hj, by rw [e]; exact h0, ?_⟩, ?_⟩
      · rw [hr0, e]; unfold PSt.fd; rw [hg]
      · rw [e]; exact ⟨by dsimp only; rw [b0, b2], by dsimp only; rw [b1, b2], b3, rfl⟩
  · have d := d.2 hm
    rw [d.1] at hr0; cases hr0

/-- **C32** As long as a descriptor is not closed, what it may be used for does not change. -/
theorem C32_kept {tr : List PEv} (ho : Open pc s fd j) (hr : PRun pc s tr s') (hn : ∀ e ∈ tr, ¬ Closes pc fd j (s.handle j).vol e) :
    (s'.handle j).readable = (s.handle j).readable ∧ (s'.handle j).writeable = (s.handle j).writeable ∧ (s'.handle j).appending = (s.handle j).appending ∧
    (s'.handle j).dir = (s.handle j).dir := by
  induction hr with
  | nil => exact ⟨rfl, rfl, rfl, rfl⟩
  | call hr hp ih =>
    rename_i tr1 s1 t1 k1
    have hn1 : ∀ e ∈ tr1, ¬ Closes pc fd j (s.handle j).vol e := fun e he => hn e (List.mem_append_left _ he)
    have o1 := (PosixUse.C30_same_file hc h ho hr hn1).1
    have o2 := (PosixUse.C30_same_file hc h ho (.call hr hp) hn).1
    obtain ⟨a, b, c, d⟩ := ih hn1
    rcases C31_only_own_calls hc (h.run hr) hp o1 o2 with e | ⟨_, x, e⟩
    · rw [e]; exact ⟨a, b, c, d⟩
    · rw [e]; exact ⟨a, b, c, d⟩

variable (hin : s.inited = true) (R : Registers pc t s s1)
include hin R

/-- **C32** Every mode of the documentation without `RED_O_CREAT` is accepted for a regular file that exists, on a volume that is not read-only, if a handle is free; with
`RED_O_TRUNC` the only other result is `ENOSPC`. -/
theorem C32_accepted {path : List Byte} {mode vol i : Nat} {f : AFile} (hp : Permitted pc t (.open path mode) s) (hm : ModeOk mode) (hcr : mode.testBit 4 = false)
    (hF : Finds pc s1 t path (.ok (vol, i))) (hf : IsReg (s.files pc vol) i f) (hro : (s.vols vol).readOnly = false) (hfree : ∃ k, k < pc.handles ∧ (s.handle k).ino = 0) :
    (∃ fd, (pexec pc t (.open path mode) s).1 = .ok (.fd fd)) ∨ (mode.testBit 6 = true ∧ (pexec pc t (.open path mode) s).1 = .error .enospc) := by
  obtain ⟨s2, d, a2⟩ := call_body hc h hp (by simp) hin id R
  have hi1 := R.inv (h.inv hc) hp.1
  have a1 := R.alike
  have hin1 := a1.inited.trans hin
  obtain ⟨b0, b1, b2, b3, b4, b5, b6⟩ := has_bits mode
  generalize (pexec pc t (.open path mode) s).1 = r at *
  obtain ⟨r0, rfl, d⟩ := d
  have hfF : IsReg (s1.files pc vol) i f := by unfold PSt.files; rw [a1.vols]; exact hf
  rcases d.1 hm with ⟨e, hx, _⟩ | ⟨vol', start, l, hst, d⟩
  · cases hF with | ok hF => have := hF.det hc hi1 hin1 hp.1 hx; cases this
  have hvol : vol' = vol := by cases hF with | ok hF => have := hF.det hc hi1 hin1 hp.1 hst; cases this; rfl
  subst hvol
  have d := d.2 (by rw [a1.vols, hro]; simp)
  have d := d.2 (by obtain ⟨k, hk, h0⟩ := hfree; rw [a1.handle]; exact fun hx => hx k hk h0)
  rcases d.2 (by rw [b4, hcr]; simp) with ⟨e, hx, _⟩ | ⟨i', hF', d⟩
  · have := Finds.det hc hi1 hin1 hp.1 hF hx; cases this
  have := Finds.det hc hi1 hin1 hp.1 hF hF'; cases this
  obtain ⟨hv, hmt⟩ := Finds.at hc hi1 hin1 hp.1 hF
  have nd : ∀ {g}, IsDir (s1.files pc vol') i g → False := fun hg => reg_not_dir (hc.sys _ hv) (hc.posix _ hv) hfF hg
  rcases d with ⟨hd, _⟩ | ⟨_, ⟨g, hg⟩, _⟩ | ⟨g, _, _, _, _, _, k, _, _, _, hr, _⟩ | ⟨g, r1, _, _, _, htr, o, ⟨e, he, hr, _⟩ | ⟨_, k, _, _, _, hr, _⟩⟩
  · cases hd
  · exact (nd hg).elim
  · exact Or.inl ⟨_, by rw [hr]; rfl⟩
  · right
    refine ⟨b6 ▸ htr, ?_⟩
    have hrel := o.rel
    unfold Rw at hrel
    rw [a1.vols, hro] at hrel
    rw [he] at hrel
    simp only [Bool.false_eq_true, if_false] at hrel
    obtain ⟨_, hrel⟩ := hrel
    have : e = .enospc := by
      rcases hrel with (⟨_, hn⟩ | ⟨_, g, hg⟩) | ⟨g, _, hx⟩
      · rw [hfF.1] at hn; cases hn
      · exact (nd hg).elim
      · rw [if_neg (by omega)] at hx; exact hx
    rw [hr, this]; rfl
  · exact Or.inl ⟨_, by rw [hr]; rfl⟩

/-- **C32** Every mode of the documentation with `RED_O_CREAT` is accepted for a legal name that does not exist yet; the only other result is `ENOSPC`. -/
theorem C32_accepted_creat {path nm : List Byte} {mode vol p : Nat} {f : AFile} (hp : Permitted pc t (.open path mode) s) (hm : ModeOk mode) (hcr : mode.testBit 4 = true)
    (hN : Names pc s1 t path .eisdir (.ok (vol, p, nm))) (hf : IsDir (s.files pc vol) p f) (hn : NameOk (pc.conf vol) nm) (hx : ∀ i, ¬ Has (pc.conf vol) (s.files pc vol) p nm i)
    (hfi : ∃ i, (pc.conf vol).inodeValid i = true ∧ s.files pc vol i = none) (hro : (s.vols vol).readOnly = false) (hfree : ∃ k, k < pc.handles ∧ (s.handle k).ino = 0) :
    (∃ fd, (pexec pc t (.open path mode) s).1 = .ok (.fd fd)) ∨ (pexec pc t (.open path mode) s).1 = .error .enospc := by
  obtain ⟨s2, d, a2⟩ := call_body hc h hp (by simp) hin id R
  have hi1 := R.inv (h.inv hc) hp.1
  have a1 := R.alike
  have hin1 := a1.inited.trans hin
  obtain ⟨b0, b1, b2, b3, b4, b5, b6⟩ := has_bits mode
  generalize (pexec pc t (.open path mode) s).1 = r at *
  obtain ⟨r0, rfl, d⟩ := d
  have hF : s1.files pc vol = s.files pc vol := by unfold PSt.files; rw [a1.vols]
  rcases d.1 hm with ⟨e, hx, _⟩ | ⟨vol', start, l, hst, d⟩
  · cases hN with | ok hF => have := hF.det hc hi1 hin1 hp.1 hx; cases this
  have hvol : vol' = vol := by cases hN with | ok hF => have := hF.det hc hi1 hin1 hp.1 hst; cases this; rfl
  subst hvol
  have d := d.2 (by rw [a1.vols, hro]; simp)
  have d := d.2 (by obtain ⟨k, hk, h0⟩ := hfree; rw [a1.handle]; exact fun hx => hx k hk h0)
  rcases d.1 (by rw [b4, hcr]) with ⟨e, hx, _⟩ | ⟨p', nm', hN', d⟩
  · have := Names.det hc hi1 hin1 hp.1 hN hx; cases this
  have := Names.det hc hi1 hin1 hp.1 hN hN'; cases this
  rw [hF] at d
  rcases d with ⟨i, _, k, _, _, _, hr, _⟩ | ⟨e, hr, _, o, _⟩ | ⟨i, _, hi, _⟩
  · exact Or.inl ⟨_, by rw [hr]; rfl⟩
  · right
    have hrel := o.rel
    rw [hF] at hrel
    obtain ⟨_, hrel⟩ := hrel
    have : e = .enospc := by
      rcases hrel with h1 | ⟨_, ⟨_, h1⟩ | ⟨_, h1 | ⟨_, ⟨_, j, h1⟩ | ⟨h1, _⟩⟩⟩⟩
      · exact absurd h1 (Names.not_notDir hf)
      · obtain ⟨i, hi, h0⟩ := hfi
        have := h1 i hi
        rw [h0] at this; cases this
      · exact absurd h1 (not_badName hn)
      · exact absurd h1 (hx j)
      · exact h1
    rw [hr, this]; rfl
  · exact absurd hi (hx i)

end

section
open RedFs.Posix RedFs.Props.PosixUse

-- "/a" is open for reading and writing, with 10 bytes, at offset 10; "/m/b" is open for writing only
theorem demo_file0 : OpenFile demoPC demoS 1048576 0 := ⟨demo_fd0, by decide +kernel⟩
theorem demo_file1 : OpenFile demoPC demoS 1052673 1 := ⟨demo_fd1, by decide +kernel⟩
theorem demo_rw : (demoS.handle 0).readable = true ∧ (demoS.handle 0).writeable = true ∧ (demoS.handle 0).appending = false ∧ (demoS.handle 0).off = 10 := ⟨by decide +kernel, by decide +kernel, by decide +kernel, by decide +kernel⟩
theorem demo_wr : (demoS.handle 1).readable = false := by decide +kernel

example : (demoS.handle 0).off ≤ (demoPC.conf (demoS.handle 0).vol).sizeMax := C31_offset_range demoPC_ok demoS_reach demo_file0
example : ∃ f : AFile, (pexec demoPC 5 (.read 1048576 4) demoS).1 = .ok (.bytes (f.read 10 4)) := by
  obtain ⟨f, hf⟩ := file_is demoPC_ok demoS_reach demo_file0
  have := (C31_read demoPC_ok demoS_reach demo_slot (demoP (t := 5) (k := .read 1048576 4) (by decide) rfl _) (by decide) demo_file0 demo_rw.1 hf).1
  rw [demo_rw.2.2.2] at this
  exact ⟨f, this⟩
example : (∃ n, (pexec demoPC 5 (.write 1048576 4 fun _ => 7#8) demoS).1 = .ok (.num n) ∧ OnlyOffset demoS (pexec demoPC 5 (.write 1048576 4 fun _ => 7#8) demoS).2 0 (10 + n)) ∨
    ∃ e, (pexec demoPC 5 (.write 1048576 4 fun _ => 7#8) demoS).1 = .error e := by
  obtain ⟨f, hf⟩ := file_is demoPC_ok demoS_reach demo_file0
  obtain ⟨pos, hpos, d, _⟩ := C31_write demoPC_ok demoS_reach demo_slot (demoP (t := 5) (k := .write 1048576 4 fun _ => 7#8) (by decide) rfl _) (by decide) demo_file0 demo_rw.2.1 hf
  rw [demo_rw.2.2.1, demo_rw.2.2.2] at hpos
  have hpos : pos = 10 := hpos
  subst hpos
  rcases d with ⟨n, h1, _, _, _, _, h2⟩ | ⟨e, h1, _⟩
  · exact Or.inl ⟨n, h1, h2⟩
  · exact Or.inr ⟨e, h1⟩
-- seeking to 9 behind the offset before the start of the file, and to before the file
example : (pexec demoPC 5 (.lseek 1048576 (-9) 1) demoS).1 = .ok (.num 1) := by
  obtain ⟨f, hf⟩ := file_is demoPC_ok demoS_reach demo_file0
  have hmax : 1 ≤ (demoPC.conf (demoS.handle 0).vol).sizeMax := by show 1 ≤ demoConf.sizeMax; decide +kernel
  obtain ⟨n, h1, h2, _⟩ := (C31_lseek demoPC_ok demoS_reach demo_slot (demoP (t := 5) (k := .lseek 1048576 (-9) 1) (by decide) rfl _) demo_file0 hf (origin := 10) (Or.inr (Or.inl ⟨rfl, demo_rw.2.2.2.symm⟩))).1
    (by omega)
  have : n = 1 := by omega
  subst this; exact h2
example : (pexec demoPC 5 (.lseek 1048576 (-11) 1) demoS).1 = .error .einval := by
  obtain ⟨f, hf⟩ := file_is demoPC_ok demoS_reach demo_file0
  exact ((C31_lseek demoPC_ok demoS_reach demo_slot (demoP (t := 5) (k := .lseek 1048576 (-11) 1) (by decide) rfl _) demo_file0 hf (origin := 10) (Or.inr (Or.inl ⟨rfl, demo_rw.2.2.2.symm⟩))).2
    (by omega)).1
example : (pexec demoPC 5 (.lseek 1048576 0 3) demoS).1 = .error .einval :=
  (C31_whence demoPC_ok demoS_reach demo_slot (demoP (t := 5) (k := .lseek 1048576 0 3) (by decide) rfl _) demo_file0 (by decide)).1

-- RDONLY together with WRONLY
example : (pexec demoPC 5 (.open [47#8, 97#8] 3) demoS).1 = .error .einval := (C32_rejected demoPC_ok demoS_reach demo_slot (demoP (by decide) rfl _) demo_inited
  (fun h => by rcases h.one with ⟨_, h, _⟩ | ⟨h, _⟩ | ⟨h, _⟩ <;> exact absurd h (by decide))).1
example : (pexec demoPC 5 (.read 1052673 4) demoS).1 = .error .ebadf := (C32_read_refused demoPC_ok demoS_reach demo_slot (demoP (by decide) rfl _) (by decide) demo_file1 demo_wr).1

theorem demo_mode {m : Nat} (h : m = 1 ∨ m = 18) : ModeOk m := by
  have hb : ∀ i, 7 ≤ i → m.testBit i = false := fun i hi => Nat.testBit_lt_two_pow (Nat.lt_of_lt_of_le (show m < 2 ^ 7 by omega) (Nat.pow_le_pow_right (by decide) hi))
  rcases h with rfl | rfl
  · exact ⟨hb, Or.inl (by decide), by decide, by decide⟩
  · exact ⟨hb, Or.inr (Or.inl (by decide)), by decide, by decide⟩

theorem demo_find_a : Finds demoPC demoS 5 [47#8, 97#8] (.ok (0, 3)) :=
  .ok (start := 2) (l := [47#8, 97#8]) (.abs (fun _ _ => Or.inr rfl) (demo_vol0' (by rintro ⟨r, hr⟩; injection hr with _ hr; injection hr with hr; exact absurd hr (by decide)))) demo_up
    (by rw [show comps demoPC.sep [47#8, 97#8] = [[97#8]] by decide]; exact .name (fun hx => absurd hx.2 (by unfold Dotty; decide)) demo_has_a .done)
theorem demo_mode_a : (RedFs.files demoConf (demoS.vols 0) 3).map (fun f => f.mode) = some modeReg := by decide +kernel
theorem demo_ro : (demoS.vols 0).readOnly = false := by decide +kernel
theorem demo_free : ∃ k, k < demoPC.handles ∧ (demoS.handle k).ino = 0 := ⟨2, by decide, by decide +kernel⟩

example : ∃ fd, (pexec demoPC 5 (.open [47#8, 97#8] 1) demoS).1 = .ok (.fd fd) := by
  obtain ⟨f, hf⟩ := map_some' demo_mode_a
  rcases C32_accepted demoPC_ok demoS_reach demo_slot demo_inited demo_reg (demoP (by decide) rfl _) (demo_mode (Or.inl rfl)) (by decide) demo_find_a hf demo_ro demo_free with h | ⟨h, _⟩
  · exact h
  · exact absurd h (by decide)
theorem demo_opens : isFd 1048578 (pexec demoPC 6 (.open [47#8, 97#8] 1) demoS).1 = true := by decide +kernel
example : ModeOk 1 := (C32_opened (s := demoS) demoPC_ok demoS_reach (demoP (by decide) rfl _) (pexec_eta (t := 6) (k := .open [47#8, 97#8] 1) (isFd_eq demo_opens))).1
theorem demo_free_ino : ∃ i, demoConf.inodeValid i = true ∧ RedFs.files demoConf (demoS.vols 0) i = none := ⟨5, by decide +kernel, by decide +kernel⟩
def isEnoent : Except Err Nat → Bool
  | .error .enoent => true
  | _ => false
theorem demo_lookup : isEnoent (coreLookup demoConf 2 [99#8] (demoS.vols 0)).1 = true := by decide +kernel
theorem no_name {v : Vol} (h : Reach demoConf v) (hm : v.mounted = true) (hl : isEnoent (coreLookup demoConf 2 [99#8] v).1 = true) : ∀ i, ¬ Has demoConf (RedFs.files demoConf v) 2 [99#8] i := by
  have := (lookup_typed demo_sys rfl h hm 2 (name := [99#8]) (by intro x hx; rw [List.mem_singleton.1 hx]; decide)).2
  generalize (coreLookup demoConf 2 [99#8] v).1 = r at *
  rcases r with e | a
  · intro i hi
    exact PosixUse.lookup_has demo_sys rfl h hm hi this
  · cases hl
theorem demo_dir_2 : (RedFs.files demoConf (demoS.vols 0) 2).map (fun f => f.mode) = some modeDir := by decide +kernel
theorem demo_names_c : Names demoPC demoS 5 [47#8, 99#8] .eisdir (.ok (0, 2, [99#8])) :=
  .ok (start := 2) (l := [47#8, 99#8]) (.abs (fun _ _ => Or.inr rfl) (demo_vol0' (by rintro ⟨r, hr⟩; injection hr with _ hr; injection hr with hr; exact absurd hr (by decide)))) demo_up
    (by rw [show comps demoPC.sep [47#8, 99#8] = [[99#8]] by decide]; exact .name (cs := []) (fun hx => absurd hx.2 (by unfold Dotty; decide)) .done)
-- O_CREAT and O_WRONLY, of the new name "/c"
example : (∃ fd, (pexec demoPC 5 (.open [47#8, 99#8] 18) demoS).1 = .ok (.fd fd)) ∨ (pexec demoPC 5 (.open [47#8, 99#8] 18) demoS).1 = .error .enospc := by
  obtain ⟨f, hf⟩ := map_some' demo_dir_2
  exact C32_accepted_creat demoPC_ok demoS_reach demo_slot demo_inited demo_reg (demoP (by decide) rfl _) (demo_mode (Or.inr rfl)) (by decide) demo_names_c hf
    ⟨by decide, by decide +kernel, by decide, by decide +kernel, by decide, by decide⟩
    (no_name ((demoS_reach.inv demoPC_ok).reach 0 (by decide)) demo_up demo_lookup) demo_free_ino demo_ro demo_free
end

end RedFs.Props.PosixIo
