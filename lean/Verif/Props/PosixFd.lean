import Verif.Lemmas.PosixHist
import Verif.Lemmas.PosixDemo
set_option linter.unusedSimpArgs false
set_option linter.unusedVariables false
set_option linter.unusedSectionVars false
/-!
C29: file descriptors.
-/
namespace RedFs.Props.PosixFd
open RedFs.Posix M Str Path Spec

variable {pc : PConf} {s s' : PSt} {t : Nat} {k : PCall} {r : Except Err PReply} {fd : Int} {j : Nat}

section
variable (hc : pc.Ok) (h : PReach pc s)
include hc h

/-- An open handle is on a volume which is mounted. -/
theorem open_handle (ho : Open pc s fd j) : HandleOk pc s (s.handle j) := (h.inv hc).handle ho.1 j ho.2.1 ho.2.2.1

/-- The parts of a descriptor. -/
theorem open_parts (ho : Open pc s fd j) : fd = ((s.gen (s.handle j).vol * 1048576 + (s.handle j).vol * 4096 + j : Nat) : Int) ∧ (s.handle j).vol < 256 ∧ j < 4096 ∧
    1 ≤ s.gen (s.handle j).vol ∧ s.gen (s.handle j).vol ≤ 2047 := by
  have H := open_handle hc h ho
  have := hc.n; have := hc.handles
  have hv := H.vol
  have h1 := ho.2.1
  obtain ⟨g1, g2⟩ := (h.inv hc).gen _ H.vol
  exact ⟨ho.2.2.2, by omega, by omega, g2 H.mounted, g1⟩

/-- Descriptors are at least 3 (0, 1 and 2 are left to stdin, stdout and stderr), are positive values of `int32_t`, and end with the number of the handle. -/
theorem C29_range (ho : Open pc s fd j) : 3 ≤ fd ∧ fd < 2147483648 ∧ fdIdx fd = j := by
  obtain ⟨h1, h2, h3, h4, h5⟩ := open_parts hc h ho
  subst h1
  unfold fdIdx
  refine ⟨?_, ?_, ?_⟩ <;> omega

/-- Two open handles have different descriptors, and a descriptor is that of one handle. -/
theorem C29_distinct {fd' : Int} {j' : Nat} (ho : Open pc s fd j) (ho' : Open pc s fd' j') : fd = fd' ↔ j = j' := by
  constructor
  · intro e; subst e; exact isFd_unique hc (h.inv hc) ho.1 ho.2 ho'.2
  · intro e; subst e; rw [ho.2.2.2, ho'.2.2.2]

/-- Whatever is open after a call was open before, or has been opened by it. -/
theorem open_after (hp : Permitted pc t k s) (he : pexec pc t k s = (r, s')) (ho : Open pc s' fd j) :
    Open pc s fd j ∨ (∃ path mode, k = .open path mode ∧ r = .ok (.fd fd)) ∨ (∃ path, k = .opendir path ∧ r = .ok (.dir j)) := by
  rcases step_cases hc (h.inv hc) hp he with ⟨_, _, i, _⟩ | ⟨a, _⟩ | ⟨hin, s1, s2, R, hi1, a1, d, a2⟩
  · exact absurd (i.handle j ho.2.1) ho.2.2.1
  · exact Or.inl (a.open_.1 ho)
  · rw [a2.open_] at ho
    rw [← a1.open_]
    have hin1 : s1.inited = true := a1.inited.trans hin
    rcases body_handles hc hi1 hin1 d with ⟨hh, hg, _, _⟩ | ⟨hj, hz, h0, hv, hh, hg, hk, hr⟩ | ⟨hj, hz, h0, hv, hh, hg, hk, hr⟩ | ⟨hf, hh, hg, hk, hr⟩ | ⟨hm, hv, hh, hg, hk, hr⟩ |
      ⟨hv, hh, hg, hk, hr⟩
    · exact Or.inl ⟨hin1, (isFd_congr ⟨(hh j).1, (hh j).2.1⟩ (by rw [hg])).1 ho.2⟩
    · rename_i m hd
      by_cases e : j = m
      · subst e
        obtain ⟨path, mode, hk⟩ := hk
        refine Or.inr (Or.inl ⟨path, mode, hk, ?_⟩)
        rw [hr, ho.2.2.2, hh, upd_same]; unfold PSt.fd; rw [hg]
      · exact Or.inl ⟨hin1, (isFd_congr (by rw [hh, upd_other _ _ e]; exact ⟨rfl, rfl⟩) (by rw [hg])).1 ho.2⟩
    · rename_i m hd
      by_cases e : j = m
      · subst e
        obtain ⟨path, hk⟩ := hk
        exact Or.inr (Or.inr ⟨path, hk, hr⟩)
      · exact Or.inl ⟨hin1, (isFd_congr (by rw [hh, upd_other _ _ e]; exact ⟨rfl, rfl⟩) (by rw [hg])).1 ho.2⟩
    · rename_i m fd'
      by_cases e : j = m
      · subst e; exact absurd (by rw [hh, upd_same]) ho.2.2.1
      · exact Or.inl ⟨hin1, (isFd_congr (by rw [hh, upd_other _ _ e]; exact ⟨rfl, rfl⟩) (by rw [hg])).1 ho.2⟩
    · rename_i i
      have h0 : (s1.handle j).ino ≠ 0 := by rw [← hh]; exact ho.2.2.1
      have H := hi1.handle hin1 j ho.2.1 h0
      have e : (s1.handle j).vol ≠ i := fun e => by rw [← e, H.mounted] at hm; cases hm
      exact Or.inl ⟨hin1, (isFd_congr (by rw [hh]; exact ⟨rfl, rfl⟩) (by rw [hg, upd_other _ _ e])).1 ho.2⟩
    · rename_i i
      have h0 := ho.2.2.1
      rw [hh] at h0
      unfold closeAll at h0
      split at h0
      · exact absurd rfl h0
      · rename_i e
        refine Or.inl ⟨hin1, (isFd_congr ?_ (by rw [hg])).1 ho.2⟩
        rw [hh]; unfold closeAll; rw [if_neg e]; exact ⟨rfl, rfl⟩

/-- An open descriptor stays open until it is closed or its volume is unmounted, whatever else is called, by whatever task. -/
theorem C29_stays_open (hp : Permitted pc t k s) (he : pexec pc t k s = (r, s')) (ho : Open pc s fd j) :
    Open pc s' fd j ∨ (r = .ok .unit ∧ (k = .close fd ∨ k = .closedir j ∨ ∃ path flags, k = .umount path flags ∧ VolName pc path (s.handle j).vol)) := by
  rcases step_cases hc (h.inv hc) hp he with ⟨_, hz, i, _⟩ | ⟨a, _⟩ | ⟨hin, s1, s2, R, hi1, a1, d, a2⟩
  · rw [ho.1] at hz; cases hz
  · exact Or.inl (a.open_.2 ho)
  · have hvol : (s.handle j).vol = (s1.handle j).vol := by rw [a1.handle]
    rw [hvol]
    rw [← a1.open_ (pc := pc)] at ho
    rw [a2.open_]
    have H := hi1.handle ho.1 j ho.2.1 ho.2.2.1
    have hin2 : s2.inited = true := by
      rcases body_inited d with e | ⟨_, e, _⟩
      · rw [e]; exact ho.1
      · exact absurd ⟨_, H.vol, H.mounted⟩ e
    rcases body_handles hc hi1 ho.1 d with ⟨hh, hg, _, _⟩ | ⟨hj, hz, h0, hv, hh, hg, hk, hr⟩ | ⟨hj, hz, h0, hv, hh, hg, hk, hr⟩ | ⟨hf, hh, hg, hk, hr⟩ | ⟨hm, hv, hh, hg, hk, hr⟩ |
      ⟨hv, hh, hg, hk, hr⟩
    · exact Or.inl ⟨hin2, (isFd_congr ⟨(hh j).1, (hh j).2.1⟩ (by rw [hg])).2 ho.2⟩
    · rename_i m hd
      have e : j ≠ m := fun e => ho.2.2.1 (by rw [e]; exact hz)
      exact Or.inl ⟨hin2, (isFd_congr (by rw [hh, upd_other _ _ e]; exact ⟨rfl, rfl⟩) (by rw [hg])).2 ho.2⟩
    · rename_i m hd
      have e : j ≠ m := fun e => ho.2.2.1 (by rw [e]; exact hz)
      exact Or.inl ⟨hin2, (isFd_congr (by rw [hh, upd_other _ _ e]; exact ⟨rfl, rfl⟩) (by rw [hg])).2 ho.2⟩
    · rename_i m fd'
      by_cases e : j = m
      · subst e
        right
        refine ⟨hr, ?_⟩
        rcases hk with hk | hk
        · left; rw [hk]
          have : fd' = fd := by rw [ho.2.2.2, hf.2.2]
          rw [this]
        · exact Or.inr (Or.inl hk)
      · exact Or.inl ⟨hin2, (isFd_congr (by rw [hh, upd_other _ _ e]; exact ⟨rfl, rfl⟩) (by rw [hg])).2 ho.2⟩
    · rename_i i
      have e : (s1.handle j).vol ≠ i := fun e => by rw [← e, H.mounted] at hm; cases hm
      exact Or.inl ⟨hin2, (isFd_congr (by rw [hh]; exact ⟨rfl, rfl⟩) (by rw [hg, upd_other _ _ e])).2 ho.2⟩
    · rename_i i
      by_cases e : (s1.handle j).vol = i
      · right
        refine ⟨hr, Or.inr (Or.inr ?_)⟩
        rw [e]; exact hk
      · refine Or.inl ⟨hin2, (isFd_congr ?_ (by rw [hg])).2 ho.2⟩
        rw [hh]; unfold closeAll; rw [if_neg (fun x => e x.2.2)]; exact ⟨rfl, rfl⟩

/-- `red_open` returns a descriptor that was not open, and now is. -/
theorem C29_open {path : List Byte} {mode : Nat} (hp : Permitted pc t (.open path mode) s) (he : pexec pc t (.open path mode) s = (.ok (.fd fd), s')) :
    3 ≤ fd ∧ fd < 2147483648 ∧ (∀ j, ¬ Open pc s fd j) ∧ ∃ j, Open pc s' fd j := by
  have key : (∀ j, ¬ Open pc s fd j) ∧ ∃ j, Open pc s' fd j := by
    rcases step_cases hc (h.inv hc) hp he with ⟨hk, _⟩ | ⟨a, hr⟩ | ⟨hin, s1, s2, R, hi1, a1, d, a2⟩
    · cases hk
    · rcases hr with hr | ⟨e, hr⟩ <;> cases hr
    · have hin1 : s1.inited = true := a1.inited.trans hin
      have hin2 : s2.inited = true := by
        rcases body_inited d with e | ⟨e, _⟩
        · rw [e]; exact hin1
        · cases e
      rcases body_handles hc hi1 hin1 d with ⟨_, _, hn, _⟩ | ⟨hj, hz, h0, hv, hh, hg, hk, hr⟩ | ⟨hj, hz, h0, hv, hh, hg, hk, hr⟩ | ⟨hf, hh, hg, hk, hr⟩ | ⟨hm, hv, hh, hg, hk, hr⟩ |
        ⟨hv, hh, hg, hk, hr⟩
      · exact absurd ⟨rfl, rfl⟩ (hn path mode fd)
      · rename_i m hd
        injection hr with hr; injection hr with hr
        refine ⟨fun j ho => ?_, m, ?_⟩
        · rw [← a1.open_ (pc := pc)] at ho
          have H := hi1.handle ho.1 j ho.2.1 ho.2.2.1
          have := hc.n; have := hc.handles
          have hv' := H.vol; have hj' := ho.2.1
          have e := ho.2.2.2
          rw [hr] at e
          have e := Int.ofNat.inj e
          have b := fd_parts (g := s1.gen hd.vol) (vol := hd.vol) (k := m) (by omega) (by omega) (hi1.gen _ hv).1
          have b' := fd_parts (g := s1.gen (s1.handle j).vol) (vol := (s1.handle j).vol) (k := j) (by omega) (by omega) (hi1.gen _ hv').1
          rw [e] at b
          have : m = j := b.1.symm.trans b'.1
          rw [this] at hz
          exact ho.2.2.1 hz
        · rw [a2.open_]
          refine ⟨hin2, hj, ?_, ?_⟩
          · rw [hh, upd_same]; exact h0
          · rw [hh, upd_same, hr]; unfold PSt.fd; rw [hg]
      · obtain ⟨_, hk⟩ := hk; cases hk
      · rcases hk with hk | hk <;> cases hk
      · obtain ⟨_, _, hk, _⟩ := hk; cases hk
      · obtain ⟨_, _, hk, _⟩ := hk; cases hk
  have h' : PReach pc s' := by
    have := h.call hp
    rw [he] at this; exact this
  obtain ⟨j, ho⟩ := key.2
  have := C29_range hc h' ho
  exact ⟨this.1, this.2.1, key⟩

/-- A call on a descriptor that is not open fails with `EBADF` and changes nothing. -/
theorem C29_ebadf (hp : Permitted pc t k s) (hin : s.inited = true) (hb : ¬ k.Bad) (hs : ¬ NoSlot pc t s) (hk : k.fd? = some fd) (ho : ∀ j, ¬ Open pc s fd j) :
    (pexec pc t k s).1 = .error .ebadf ∧ (pexec pc t k s).2.handle = s.handle ∧ ∀ i, i < pc.n → Same (pc.conf i) (s.vols i) ((pexec pc t k s).2.vols i) := by
  have hni : k ≠ .init := fun e => by subst e; cases hk
  obtain ⟨s1, R⟩ : ∃ s1, Registers pc t s s1 := by
    rcases taskRegister_spec pc t s hc.tasks with ⟨h, _⟩ | ⟨_, s1, _, R, _⟩
    · exact absurd h hs
    · exact ⟨s1, R⟩
  obtain ⟨s2, d, a2⟩ := call_body hc h hp hni hin hb R
  have a1 := R.alike
  have hn : ∀ j, ¬ IsFd pc s1 fd j := fun j hj => ho j (a1.open_.1 ⟨a1.inited.trans hin, hj⟩)
  have hn' : ∀ j, ¬ FileFd pc s1 fd j := fun j hj => hn j hj.1
  generalize (pexec pc t k s).1 = r at *
  generalize (pexec pc t k s).2 = s' at *
  have fin : ∀ {α : Type} {r0 : Except Err α} {f : α → PReply}, Fails pc s1 r0 s2 .ebadf → r = r0.map f → r = .error .ebadf ∧ s'.handle = s.handle ∧
      ∀ i, i < pc.n → Same (pc.conf i) (s.vols i) (s'.vols i) := by
    intro α r0 f hf hr
    refine ⟨?_, ?_, fun i hi => ?_⟩
    · rw [hr, hf.1]; rfl
    · rw [a2.handle, hf.2.handle, a1.handle]
    · rw [a2.vols]; have := hf.2.vols i hi; rw [a1.vols] at this; exact this
  cases k with
  | close x =>
    injection hk with e; subst e; obtain ⟨r0, hr, d⟩ := d
    rcases d with ⟨_, d⟩ | ⟨j, hj, _⟩
    · exact fin d hr
    · exact absurd hj (hn j)
  | read x len =>
    injection hk with e; subst e; obtain ⟨r0, hr, d⟩ := d
    rcases d with ⟨e, hb, d⟩ | ⟨j, hj, _⟩
    · rcases hb with ⟨e, _⟩ | ⟨_, j, hj, _⟩
      · subst e; exact fin d hr
      · exact absurd hj (hn j)
    · exact absurd hj (hn' j)
  | write x len buf =>
    injection hk with e; subst e; obtain ⟨r0, hr, d⟩ := d
    rcases d with ⟨_, d⟩ | ⟨j, hj, _⟩
    · exact fin d hr
    · exact absurd hj (hn' j)
  | fsync x =>
    injection hk with e; subst e; obtain ⟨r0, hr, d⟩ := d
    rcases d with ⟨_, d⟩ | ⟨j, hj, _⟩
    · exact fin d hr
    · exact absurd hj (hn j)
  | lseek x off whence =>
    injection hk with e; subst e; obtain ⟨r0, hr, d⟩ := d
    rcases d with ⟨e, hb, d⟩ | ⟨j, _, hj, _⟩
    · rcases hb with ⟨e, _⟩ | ⟨_, j, hj, _⟩
      · subst e; exact fin d hr
      · exact absurd hj (hn j)
    · exact absurd hj (hn' j)
  | ftruncate x size =>
    injection hk with e; subst e; obtain ⟨r0, hr, d⟩ := d
    rcases d with ⟨_, d⟩ | ⟨j, hj, _⟩
    · exact fin d hr
    · exact absurd hj (hn' j)
  | fstat x =>
    injection hk with e; subst e; obtain ⟨r0, hr, d⟩ := d
    rcases d with ⟨_, d⟩ | ⟨j, _, hj, _⟩
    · exact fin d hr
    · exact absurd hj (hn j)
  | _ => cases hk

/-- Closing an open descriptor succeeds, and then it is not open any more. -/
theorem C29_close (hp : Permitted pc t (.close fd) s) (hs : ¬ NoSlot pc t s) (ho : Open pc s fd j) :
    (pexec pc t (.close fd) s).1 = .ok .unit ∧ ∀ j, ¬ Open pc (pexec pc t (.close fd) s).2 fd j := by
  obtain ⟨s1, R⟩ : ∃ s1, Registers pc t s s1 := by
    rcases taskRegister_spec pc t s hc.tasks with ⟨h, _⟩ | ⟨_, s1, _, R, _⟩
    · exact absurd h hs
    · exact ⟨s1, R⟩
  obtain ⟨s2, d, a2⟩ := call_body hc h hp (by simp) ho.1 (by simp [PCall.Bad]) R
  have h' := h.call hp
  have oa := fun m => open_after hc h hp (Prod.mk.eta (p := pexec pc t (.close fd) s)).symm (fd := fd) (j := m)
  have a1 := R.alike
  generalize (pexec pc t (.close fd) s).1 = r at *
  generalize (pexec pc t (.close fd) s).2 = s' at *
  rw [← a1.open_ (pc := pc)] at ho
  obtain ⟨r0, hr, ⟨d, _⟩ | ⟨m, hm, hr0, hh, _⟩⟩ := d
  · exact absurd ho.2 (d j)
  · subst hr0
    refine ⟨hr, fun i hi => ?_⟩
    have hi0 := hi
    rw [a2.open_] at hi
    have hd := C29_range hc h' hi0
    have : i = m := by
      have hm' : Open pc s fd m := a1.open_.1 ⟨ho.1, hm⟩
      exact hd.2.2.symm.trans (C29_range hc h hm').2.2
    subst this
    exact hi.2.2.1 (by rw [hh, upd_same])

end

/-! ### Mounts -/

/-- The generation after `n` mounts. -/
def gens : Nat → Nat → Nat
  | 0, g => g
  | n + 1, g => nextGen (gens n g)

theorem gens_eq {g : Nat} (h1 : 1 ≤ g) (h2 : g ≤ 2047) (n : Nat) : gens n g = (g - 1 + n) % 2047 + 1 := by
  induction n with
  | zero => simp only [gens]; omega
  | succ n ih => simp only [gens, ih, nextGen]; split <;> omega

theorem mounts_pos {i : Nat} {e : PEv} {tr : List PEv} (h : IsMount pc i e) : mounts pc i (e :: tr) = mounts pc i tr + 1 := by
  unfold mounts; rw [List.filter_cons, if_pos (by simpa using h)]; rfl
theorem mounts_neg {i : Nat} {e : PEv} {tr : List PEv} (h : ¬ IsMount pc i e) : mounts pc i (e :: tr) = mounts pc i tr := by
  unfold mounts; rw [List.filter_cons, if_neg (by simpa using h)]

section
variable (hc : pc.Ok)
include hc

/-- The generation of a volume counts its mounts. -/
theorem gen_mounts (h : PReach pc s) {tr : List PEv} (hr : PRun pc s tr s') {i : Nat} (hi : i < pc.n) : s'.gen i = gens (mounts pc i tr) (s.gen i) := by
  induction hr with
  | nil => rfl
  | @call tr s2 t k hr hp ih =>
    have h2 : PReach pc s2 := h.run hr
    have hm : mounts pc i (tr ++ [⟨t, k, (pexec pc t k s2).1⟩]) = mounts pc i tr + mounts pc i [⟨t, k, (pexec pc t k s2).1⟩] := by
      unfold mounts; rw [List.filter_append, List.length_append]
    have h1 : ∀ {e : PEv}, IsMount pc i e → mounts pc i [e] = 1 := by
      intro e h; unfold mounts; rw [List.filter_cons, if_pos (by simpa using h)]; rfl
    have h0 : ∀ {e : PEv}, ¬ IsMount pc i e → mounts pc i [e] = 0 := by
      intro e h; unfold mounts; rw [List.filter_cons, if_neg (by simpa using h)]; rfl
    rw [hm]
    rcases step_cases hc (h2.inv hc) hp (Prod.mk.eta (p := pexec pc t k s2)).symm with ⟨hk, _, ini, _⟩ | ⟨a, hres⟩ | ⟨hin, s3, s4, R, hi1, a1, d, a2⟩
    · rw [h0 (by rintro ⟨⟨_, _, e, _⟩, _⟩; rw [hk] at e; cases e), ini.gen]; exact ih
    · rw [a.gen]
      -- a call that does nothing is not a mount
      by_cases hmt : IsMount pc i ⟨t, k, (pexec pc t k s2).1⟩
      · exfalso
        obtain ⟨⟨path, flags, e, hv⟩, hr0⟩ := hmt
        simp only at e hr0
        subst e
        have d := (pexec_spec hc (h2.inv hc) hp).2
        rw [hr0] at d
        simp only [PDoes] at d
        rw [if_neg (by simp [PCall.isUninit])] at d
        obtain ⟨s5, d, e5⟩ := d
        rcases d with ⟨_, e, _⟩ | ⟨_, _, e, _⟩ | ⟨_, _, _, e, _⟩ | ⟨hb, _, s1', R', d⟩
        · cases e
        · cases e
        · cases e
        · obtain ⟨r0, er, d⟩ := d
          rcases d with ⟨_, d⟩ | ⟨i', hv', ⟨_, d⟩ | ⟨_, _, d⟩ | ⟨_, _, _, _, _, _, hg⟩⟩
          · rw [d.1] at er; cases er
          · rw [d.1] at er; cases er
          · rw [d.1] at er; cases er
          · have : i' = i := volName_unique hc hv' hv
            subst this
            cases r0 with
            | error e => cases er
            | ok u =>
              have g1 : s5.gen i' = nextGen (s1'.gen i') := by
                rw [hg]; exact upd_same _ _ _
              have g2 := congrFun a.gen i'
              rw [e5, g1, R'.alike.gen] at g2
              unfold nextGen at g2; split at g2 <;> omega
      · rw [h0 hmt]; exact ih
    · rw [a2.gen]
      have ih' : s3.gen i = gens (mounts pc i tr) (s.gen i) := by rw [a1.gen]; exact ih
      have hnm : ∀ {P : Prop}, (∀ path flags, k ≠ .mount path flags) → s4.gen = s3.gen → s4.gen i = gens (mounts pc i tr + mounts pc i [⟨t, k, (pexec pc t k s2).1⟩]) (s.gen i) := by
        intro P hk hg
        rw [h0 (by rintro ⟨⟨path, flags, e, _⟩, _⟩; exact hk path flags e), hg]; exact ih'
      rcases body_handles hc hi1 (a1.inited.trans hin) d with ⟨hh, hg, _, _⟩ | ⟨hj, hz, hh0, hv, hh, hg, hk, hr⟩ | ⟨hj, hz, hh0, hv, hh, hg, hk, hr⟩ | ⟨hf, hh, hg, hk, hr⟩ |
        ⟨hmo, hv, hh, hg, hk, hr⟩ | ⟨hv, hh, hg, hk, hr⟩
      · by_cases hmt : IsMount pc i ⟨t, k, (pexec pc t k s2).1⟩
        · exfalso
          obtain ⟨⟨path, flags, e, hv⟩, hr0⟩ := hmt
          simp only at e hr0
          subst e
          rw [hr0] at d
          obtain ⟨r0, er, d⟩ := d
          rcases d with ⟨_, d⟩ | ⟨i', hv', ⟨_, d⟩ | ⟨_, _, d⟩ | ⟨_, _, _, _, _, _, hg'⟩⟩
          · rw [d.1] at er; cases er
          · rw [d.1] at er; cases er
          · rw [d.1] at er; cases er
          · have : i' = i := volName_unique hc hv' hv
            subst this
            cases r0 with
            | error e => cases er
            | ok u =>
              have g1 : s4.gen i' = nextGen (s3.gen i') := by rw [hg']; exact upd_same _ _ _
              rw [hg] at g1
              unfold nextGen at g1; split at g1 <;> omega
        · rw [h0 hmt, hg]; exact ih'
      · obtain ⟨_, _, hk⟩ := hk; exact hnm (P := True) (fun _ _ e => by rw [hk] at e; cases e) hg
      · obtain ⟨_, hk⟩ := hk; exact hnm (P := True) (fun _ _ e => by rw [hk] at e; cases e) hg
      · rcases hk with hk | hk <;> exact hnm (P := True) (fun _ _ e => by rw [hk] at e; cases e) hg
      · rename_i i'
        by_cases e : i' = i
        · subst e
          rw [h1 ⟨hk, hr⟩, hg, upd_same, ih']; rfl
        · rw [h0, hg, upd_other _ _ (Ne.symm e)]
          · exact ih'
          · rintro ⟨⟨path, flags, e', hv'⟩, _⟩
            obtain ⟨path', flags', e'', hv''⟩ := hk
            rw [e''] at e'; injection e' with e1 e2
            subst e1
            exact e (volName_unique hc hv'' hv')
      · obtain ⟨_, _, hk, _⟩ := hk; exact hnm (P := True) (fun _ _ e => by rw [hk] at e; cases e) hg

/-- A descriptor from an earlier mount of the volume is not open, during the next 2046 mounts, whatever has been called meanwhile.  (By `C29_ebadf` it is then
rejected with `EBADF`.) -/
theorem C29_earlier_mount (h : PReach pc s) (ho : Open pc s fd j) {tr : List PEv} (hr : PRun pc s tr s') (h1 : 1 ≤ mounts pc (s.handle j).vol tr)
    (h2 : mounts pc (s.handle j).vol tr ≤ 2046) : ∀ i, ¬ Open pc s' fd i := by
  intro i hi
  obtain ⟨a1, a2, a3, a4, a5⟩ := open_parts hc h ho
  obtain ⟨b1, b2, b3, b4, b5⟩ := open_parts hc (h.run hr) hi
  rw [a1] at b1
  have b1 := Int.ofNat.inj b1
  have p := fd_parts (k := j) a2 a3 a5
  have p' := fd_parts (k := i) b2 b3 b5
  rw [b1] at p
  have ev : (s'.handle i).vol = (s.handle j).vol := p'.2.1.symm.trans p.2.1
  have eg : s'.gen (s'.handle i).vol = s.gen (s.handle j).vol := p'.2.2.symm.trans p.2.2
  rw [ev] at eg
  have := gen_mounts hc h hr (open_handle hc h ho).vol
  rw [eg, gens_eq a4 a5] at this
  omega

/-- A descriptor that is not open stays so until it is returned by `red_open` (or belongs to a stream returned by `red_opendir`). -/
theorem C29_stays_closed (h : PReach pc s) (ho : ∀ i, ¬ Open pc s fd i) {tr : List PEv} (hr : PRun pc s tr s') (h1 : ∀ e ∈ tr, e.res ≠ .ok (.fd fd))
    (h2 : ∀ e ∈ tr, e.res ≠ .ok (.dir (fdIdx fd))) : ∀ i, ¬ Open pc s' fd i := by
  induction hr with
  | nil => exact ho
  | @call tr s2 t k hr hp ih =>
    intro i hi
    have h2' : PReach pc s2 := h.run hr
    have ih := ih (fun e he => h1 e (List.mem_append_left _ he)) (fun e he => h2 e (List.mem_append_left _ he))
    rcases open_after hc h2' hp (Prod.mk.eta (p := pexec pc t k s2)).symm hi with o | ⟨path, mode, _, e⟩ | ⟨path, _, e⟩
    · exact ih i o
    · exact h1 _ (List.mem_append_right _ (List.mem_singleton.2 rfl)) e
    · refine h2 _ (List.mem_append_right _ (List.mem_singleton.2 rfl)) ?_
      rw [(C29_range hc (h2'.call hp) hi).2.2]; exact e

end

/-! ### The hypotheses can be met -/

section
open RedFs.Posix

-- two files are open; the third one gets a new descriptor, which is of the volume "", handle 2
example : Open demoPC demoS 1048576 0 ∧ Open demoPC demoS 1052673 1 := ⟨demo_fd0, demo_fd1⟩
example : pexec demoPC 6 (.open [47#8, 97#8] 1) demoS = (.ok (.fd 1048578), (pexec demoPC 6 (.open [47#8, 97#8] 1) demoS).2) := pexec_eta (isFd_eq (by decide +kernel))
example : 3 ≤ (1048578 : Int) := (C29_open (s := demoS) demoPC_ok demoS_reach (demoP (by decide) rfl _) (pexec_eta (t := 6) (k := .open [47#8, 97#8] 1) (isFd_eq (by decide +kernel)))).1

-- a descriptor that is not open
theorem demo_bad : ∀ j, ¬ Open demoPC demoS 7 j := by
  intro j h
  have := (C29_range demoPC_ok demoS_reach h).2.2
  have h1 : j < 3 := h.2.1
  rw [← this] at h1
  exact absurd h1 (by decide)
example : (pexec demoPC 5 (.fstat 7) demoS).1 = .error .ebadf := (C29_ebadf demoPC_ok demoS_reach (demoP (by decide) rfl _) demo_inited id demo_slot rfl demo_bad).1

-- closing: the other descriptor stays open
example : (pexec demoPC 5 (.close 1048576) demoS).1 = .ok .unit := (C29_close demoPC_ok demoS_reach (demoP (by decide) rfl _) demo_slot demo_fd0).1
example : Open demoPC (pexec demoPC 5 (.close 1048576) demoS).2 1052673 1 := by
  rcases C29_stays_open demoPC_ok demoS_reach (demoP (t := 5) (k := .close 1048576) (by decide) rfl _) (pexec_eta rfl) demo_fd1 with h | ⟨_, h | h | ⟨_, _, h, _⟩⟩
  · exact h
  · cases h
  · cases h
  · cases h

/-- The volume "" is unmounted, with its file open, and mounted again. -/
def demoU : PSt := (pexec demoPC 5 (.umount [] 1) demoS).2
def demoM : PSt := (pexec demoPC 5 (.mount [] 0) demoU).2

theorem demoM_ok : isUnit (pexec demoPC 5 (.mount [] 0) demoU).1 = true := by decide +kernel

theorem remount_run {s : PSt} (h : (pexec demoPC 5 (.mount [] 0) (pexec demoPC 5 (.umount [] 1) s).2).1 = .ok .unit) : ∃ tr, PRun demoPC s tr (pexec demoPC 5 (.mount [] 0) (pexec demoPC 5 (.umount [] 1) s).2).2 ∧ mounts demoPC 0 tr = 1 := by
  refine ⟨_, .call (.call .nil (demoP (t := 5) (k := .umount [] 1) (by decide) rfl _)) (demoP (t := 5) (k := .mount [] 0) (by decide) rfl _), ?_⟩
  rw [List.nil_append, List.singleton_append, mounts_neg (by rintro ⟨⟨_, _, e, _⟩, _⟩; cases e), mounts_pos]
  · rfl
  · exact ⟨⟨_, _, rfl, demo_vol0⟩, h⟩

theorem demo_remount : ∃ tr, PRun demoPC demoS tr demoM ∧ mounts demoPC 0 tr = 1 := remount_run (s := demoS) (isUnit_eq demoM_ok)

-- the descriptor of the earlier mount is not open
example : ∀ i, ¬ Open demoPC demoM 1048576 i := by
  obtain ⟨tr, hr, hm⟩ := demo_remount
  have e : (demoS.handle 0).vol = 0 := by decide +kernel
  exact C29_earlier_mount demoPC_ok demoS_reach demo_fd0 hr (by rw [e, hm]) (by rw [e, hm]; decide)
end

end RedFs.Props.PosixFd
