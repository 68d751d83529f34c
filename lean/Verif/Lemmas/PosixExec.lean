import Verif.Lemmas.Getcwd
import Verif.Spec.PosixDoes
set_option linter.unusedSimpArgs false
set_option linter.unusedVariables false
set_option linter.unusedSectionVars false
/-!
The POSIX API as a whole: every call does what it should, and reachable states are sound.
-/
namespace RedFs.Posix
open M Str Path Spec

variable {pc : PConf} {s s' s1 : PSt}

theorem ret_of {α : Type} {m : PM α} {f : α → PReply} {P : PSt → Prop} {D : PSt → Except Err α → PSt → Prop} (h : ∃ r s', m s = (r, s') ∧ P s' ∧ D s r s') :
    ∃ r s', (do let a ← m; pure (f a) : PM PReply) s = (r, s') ∧ P s' ∧ Ret f D s r s' := by
  obtain ⟨r, s', e, i, d⟩ := h
  refine ⟨r.map f, s', ?_, i, r, rfl, d⟩
  rw [run_bind, e]
  cases r <;> rfl

theorem ret_unit {m : PM Unit} {P : PSt → Prop} {D : PSt → Except Err Unit → PSt → Prop} (h : ∃ r s', m s = (r, s') ∧ P s' ∧ D s r s') :
    ∃ r s', unit m s = (r, s') ∧ P s' ∧ Ret (fun _ => .unit) D s r s' := ret_of (f := fun _ => .unit) h

/-- The same for an operation given as the last step of a sequence. -/
theorem ret_bind {α β : Type} {l : PM β} {m : PM α} {f : α → PReply} {P : PSt → Prop} {D : PSt → Except Err α → PSt → Prop}
    (h : ∃ r s', (do let _ ← l; m : PM α) s = (r, s') ∧ P s' ∧ D s r s') :
    ∃ r s', (do let _ ← l; let a ← m; pure (f a) : PM PReply) s = (r, s') ∧ P s' ∧ Ret f D s r s' := by
  obtain ⟨r, s', e, i, d⟩ := h
  refine ⟨r.map f, s', ?_, i, r, rfl, d⟩
  rw [run_bind] at e ⊢
  rcases hl : l s with ⟨r1 | a, s1⟩
  · rw [hl] at e; dsimp only at e ⊢; injection e with e1 e2; subst e1; subst e2; rfl
  · rw [hl] at e; dsimp only at e ⊢
    rw [run_bind, e]
    cases r <;> rfl

section
variable (hc : pc.Ok) (hi : PInv pc s) (hin : s.inited = true)
include hc hi hin

theorem body_spec {t k : Nat} (ht : SlotOf pc t s k) {c : PCall} (hok : c.Ok) (hcw : c.usesCwd → pc.cwd = true)
    (h0 : ∀ vol, c = .format vol → ∀ i, Selected pc vol i → (s.vols i).almostFree = 0 ∨ (s.vols i).mounted = true) (hni : c ≠ .init) :
    ∃ r s', body pc t c s = (r, s') ∧ PInv pc s' ∧ BodyDoes pc t c s r s' := by
  cases c with
  | init => exact absurd rfl hni
  | uninit =>
    obtain ⟨r, s', e, i, d⟩ := pUninit_spec hi hin t
    exact ⟨_, s', e, i, r, rfl, d⟩
  | sync => exact ret_unit (pSync_spec hc hi)
  | mount vol flags => exact ret_unit (pMount_spec hc hi hin hok flags)
  | umount vol flags => exact ret_unit (pUmount_spec hc hi hin hok flags)
  | format vol => exact ret_unit (pFormat_spec hc hi hin hok (h0 vol rfl))
  | transact vol => exact ret_unit (volDoes_spec hc hi hin hok (k := .transact) (fun _ _ => trivial) trivial (fun _ => rfl))
  | rollback vol => exact ret_unit (pRollback_spec hc hi hin hok)
  | setMask vol mask => exact ret_unit (volDoes_spec hc hi hin hok (k := (.maskSet mask)) (fun _ _ => trivial) trivial (fun _ => rfl))
  | getMask vol => exact ret_bind (volDoes_spec hc hi hin hok (k := .maskGet) (fun _ _ => trivial) trivial (fun _ => rfl))
  | statvfs vol => exact ret_bind (volDoes_spec hc hi hin hok (k := .statfs) (fun i h => hc.posix i h) trivial (fun _ => rfl))
  | «open» path mode => exact ret_of (pOpen_spec hc hi hin ht hok mode)
  | unlink path =>
    obtain ⟨r, s', e, i, d⟩ := unlinkSub_spec hc hi hin ht hok .either (by simp)
    rw [show (FType.either = .dir) = False from by simp] at d
    exact ret_unit ⟨r, s', e, i, d⟩
  | mkdir path => exact ret_unit (pMkdir_spec hc hi hin ht hok)
  | rmdir path =>
    obtain ⟨r, s', e, i, d⟩ := unlinkSub_spec hc hi hin ht hok .dir (by simp)
    rw [show (FType.dir = .dir) = True from by simp] at d
    exact ret_unit ⟨r, s', e, i, d⟩
  | rename old new => exact ret_unit (pRename_spec hc hi hin ht hok.1 hok.2)
  | link path new => exact ret_unit (pLink_spec hc hi hin ht hok.1 hok.2)
  | close fd => exact ret_unit (pClose_spec hc hi hin hok)
  | read fd len => exact ret_of (pRead_spec hc hi hin hok len)
  | write fd len buf => exact ret_of (pWrite_spec hc hi hin hok len buf)
  | fsync fd => exact ret_unit (pFsync_spec hc hi hin hok)
  | lseek fd off whence => exact ret_of (pLseek_spec hc hi hin hok.1 hok.2 whence)
  | ftruncate fd size => exact ret_unit (pFtruncate_spec hc hi hin hok size)
  | fstat fd => exact ret_of (pFstat_spec hc hi hin hok)
  | opendir path => exact ret_of (pOpendir_spec hc hi hin ht hok)
  | readdir dir => exact ret_of (pReaddir_spec hc hi hin dir)
  | rewinddir dir => exact ret_unit (pRewinddir_spec hc hi hin dir)
  | closedir dir => exact ret_unit (pClosedir_spec hc hi hin dir)
  | chdir path => exact ret_unit (pChdir_spec hc hi hin (hcw trivial) ht hok)
  | getcwd size => exact ret_of (pGetcwd_spec hc hi hin (hcw trivial) ht size)

end

/-! ### Tasks -/

theorem find_first {n : Nat} {p : Nat → Bool} {i : Nat} (h : (List.range n).find? p = some i) : i < n ∧ p i = true ∧ ∀ j, j < i → p j = false := by
  rw [List.find?_range_eq_some] at h
  refine ⟨by simpa using h.2.1, h.1, fun j hj => by simpa using h.2.2 j hj⟩

theorem taskRegister_spec (pc : PConf) (t : Nat) (s : PSt) (ht : 1 ≤ pc.tasks) :
    (NoSlot pc t s ∧ taskRegister pc t s = (.error .eusers, s)) ∨
    ∃ i s1, taskRegister pc t s = (.ok i, s1) ∧ Registers pc t s s1 ∧ SlotOf pc t s1 i := by
  unfold taskRegister
  by_cases h1 : pc.tasks = 1
  · rw [if_pos h1]; exact Or.inr ⟨0, s, rfl, .single h1, by omega, Or.inl h1⟩
  rw [if_neg h1]
  unfold taskIdx
  cases hf : (List.range pc.tasks).find? (fun i => (s.slot i).task == t) with
  | some i =>
    obtain ⟨a, b, _⟩ := find_first hf
    have b : (s.slot i).task = t := by simpa using b
    exact Or.inr ⟨i, s, rfl, .old h1 a b, a, Or.inr b⟩
  | none =>
    dsimp only
    have hn : ∀ j, j < pc.tasks → (s.slot j).task ≠ t := by
      intro j hj
      have := List.find?_eq_none.1 hf j (by simpa using hj)
      simpa using this
    cases hz : (List.range pc.tasks).find? (fun i => (s.slot i).task == 0) with
    | none =>
      refine Or.inl ⟨⟨h1, fun j hj => ⟨hn j hj, ?_⟩⟩, rfl⟩
      have := List.find?_eq_none.1 hz j (by simpa using hj)
      simpa using this
    | some i =>
      obtain ⟨a, b, d⟩ := find_first hz
      refine Or.inr ⟨i, _, rfl, .new h1 hn a (by simpa using b) (fun j hj => by simpa using d j hj), a, Or.inr ?_⟩
      simp [PSt.setSlot, upd]

theorem Registers.inv {t : Nat} (h : Registers pc t s s1) (hi : PInv pc s) (ht : t ≠ 0) : PInv pc s1 := by
  cases h with
  | single => exact hi
  | old => exact hi
  | new h1 hn hl h0 hf =>
    rename_i i
    refine ⟨hi.reach, hi.cur, hi.down, (fun h k a b => have H := hi.handle h k a b; ⟨H.vol, H.mounted, H.file, H.off, H.ro⟩), fun hin hcw k hk => ?_, fun hin a b ha hb he hne => ?_, hi.gen⟩
    · have := hi.slot hin hcw k hk
      show SlotOk pc _ (upd s.slot i _ k)
      unfold upd; split
      · rename_i e; subst e; exact ⟨this.vol, this.mounted, this.off⟩
      · exact ⟨this.vol, this.mounted, this.off⟩
    · simp only [PSt.setSlot, upd] at he hne
      by_cases ea : a = i <;> by_cases eb : b = i
      · rw [ea, eb]
      · rw [if_pos ea, if_neg eb] at he; exact absurd he.symm (hn b hb)
      · rw [if_neg ea, if_pos eb] at he; exact absurd he (hn a ha)
      · rw [if_neg ea, if_neg eb] at he; rw [if_neg ea] at hne; exact hi.task hin a b ha hb he hne

theorem Registers.same {t : Nat} (h : Registers pc t s s1) : s1.inited = s.inited ∧ s1.vols = s.vols ∧ s1.handle = s.handle ∧ s1.gen = s.gen ∧ s1.cur = s.cur ∧ s1.gerrno = s.gerrno := by
  cases h <;> exact ⟨rfl, rfl, rfl, rfl, rfl, rfl⟩

theorem PInv.errno (hi : PInv pc s) (i : Nat) (e : Option Err) : PInv pc (s.setSlot i { s.slot i with errno := e }) := by
  have hs : ∀ k, ((s.setSlot i { s.slot i with errno := e }).slot k).task = (s.slot k).task ∧ ((s.setSlot i { s.slot i with errno := e }).slot k).cwdVol = (s.slot k).cwdVol ∧
      ((s.setSlot i { s.slot i with errno := e }).slot k).cwdIno = (s.slot k).cwdIno := by
    intro k
    simp only [PSt.setSlot, upd]; split
    · rename_i e; subst e; exact ⟨rfl, rfl, rfl⟩
    · exact ⟨rfl, rfl, rfl⟩
  refine ⟨hi.reach, hi.cur, hi.down, (fun h k a b => have H := hi.handle h k a b; ⟨H.vol, H.mounted, H.file, H.off, H.ro⟩), fun hin hcw k hk => ?_, fun hin a b ha hb he hne => ?_, hi.gen⟩
  · have := hi.slot hin hcw k hk
    obtain ⟨_, e2, e3⟩ := hs k
    refine ⟨by rw [e2]; exact this.vol, fun h => ?_, fun h => ?_⟩
    · rw [e2] at h ⊢; rw [e3]; exact this.mounted h
    · rw [e2] at h; rw [e3]; exact this.off h
  · rw [(hs a).1, (hs b).1] at he; rw [(hs a).1] at hne
    exact hi.task hin a b ha hb he hne

theorem PInv.gerr (hi : PInv pc s) (e : Option Err) : PInv pc { s with gerrno := e } := ⟨hi.reach, hi.cur, hi.down, (fun h k a b => have H := hi.handle h k a b; ⟨H.vol, H.mounted, H.file, H.off, H.ro⟩),
  (fun h w k a => have H := hi.slot h w k a; ⟨H.vol, H.mounted, H.off⟩), hi.task, hi.gen⟩

theorem setErrno_spec {t : Nat} (hc : pc.Ok) (hi : PInv pc s) (ht : t ≠ 0) (e : Err) : PInv pc (setErrno pc t e s) ∧ SetsErrno pc t e s (setErrno pc t e s) := by
  unfold setErrno SetsErrno
  by_cases h1 : pc.tasks = 1
  · rw [if_pos h1, if_pos (Or.inl h1)]; exact ⟨hi.gerr _, rfl⟩
  rw [if_neg h1]
  by_cases hin : s.inited = true
  swap
  · rw [if_neg hin, if_pos (Or.inr (by simpa using hin))]; exact ⟨hi.gerr _, rfl⟩
  · rw [if_pos hin, if_neg (by simp [h1, hin])]
    rcases taskRegister_spec pc t s hc.tasks with ⟨h, e1⟩ | ⟨i, s1, e1, R, S⟩
    · rw [e1]; exact ⟨hi.gerr _, Or.inr ⟨h, rfl⟩⟩
    · rw [e1]; exact ⟨(R.inv hi ht).errno _ _, Or.inl ⟨s1, i, R, S.1, S.2.resolve_left h1, rfl⟩⟩

theorem early_iff (k : PCall) : early k = true ↔ k.Bad := by cases k <;> simp [early, PCall.Bad]

theorem initialized (hc : pc.Ok) (hin : s.inited = false) : Initialized pc s (redInit pc s) := by
  unfold redInit
  rw [if_neg (by rw [hin]; simp)]
  unfold cwdResetAll
  cases hcw : pc.cwd with
  | false =>
    rw [if_neg (by simp)]
    refine ⟨rfl, fun k hk => ?_, fun i h => ?_, (fun h => by rw [hcw] at h; cases h), rfl, fun i h => ?_⟩
    · dsimp only; rw [if_pos hk]
    · dsimp only; rw [if_pos h]; exact ⟨rfl, rfl⟩
    · dsimp only; rw [if_pos h]
  | true =>
    rw [if_pos rfl]
    refine ⟨rfl, fun k hk => ?_, fun i h => ?_, fun _ i h => ?_, rfl, fun i h => ?_⟩
    · dsimp only; rw [if_pos hk]
    · dsimp only; rw [if_pos h, if_pos h]; exact ⟨rfl, rfl⟩
    · dsimp only; rw [if_pos h]; exact ⟨rfl, rfl⟩
    · dsimp only; rw [if_pos h]

theorem enter_spec (hc : pc.Ok) (hi : PInv pc s) {t : Nat} {k : PCall} (hp : Permitted pc t k s) (hni : k ≠ .init) :
    ∃ r s', (if early k then fail .einval else do posixEnter pc t; body pc t k : PM PReply) s = (r, s') ∧ PInv pc s' ∧ EnterDoes pc t k s r s' := by
  cases he : early k with
  | true => rw [if_pos rfl]; exact ⟨_, _, rfl, hi, Or.inl ⟨(early_iff k).1 he, rfl, rfl⟩⟩
  | false =>
    have hb : ¬ k.Bad := fun h => by rw [(early_iff k).2 h] at he; cases he
    rw [if_neg (by simp), run_bind]
    unfold posixEnter
    rw [run_bind, run_get]; dsimp only
    cases hin : s.inited with
    | false => rw [if_neg (by simp)]; exact ⟨_, _, rfl, hi, Or.inr (Or.inl ⟨hb, hin, rfl, rfl⟩)⟩
    | true =>
      rw [if_pos rfl, run_bind]
      rcases taskRegister_spec pc t s hc.tasks with ⟨h, e1⟩ | ⟨i, s1, e1, R, S⟩
      · rw [e1]; exact ⟨_, _, rfl, hi, Or.inr (Or.inr (Or.inl ⟨hb, hin, h, rfl, rfl⟩))⟩
      · rw [e1]
        obtain ⟨a, b, _⟩ := R.same
        obtain ⟨r, s', e, i', d⟩ := body_spec hc (R.inv hi hp.1) (a.trans hin) S hp.2.1 hp.2.2.1 (by rw [b]; exact hp.2.2.2) hni
        exact ⟨r, s', e, i', Or.inr (Or.inr (Or.inr ⟨hb, hin, s1, R, d⟩))⟩

/-- Every call does what it should. -/
theorem pexec_spec (hc : pc.Ok) (hi : PInv pc s) {t : Nat} {k : PCall} (hp : Permitted pc t k s) :
    PInv pc (pexec pc t k s).2 ∧ PDoes pc t k s (pexec pc t k s).1 (pexec pc t k s).2 := by
  by_cases hk : k = .init
  · subst hk
    refine ⟨redInit_spec hc hi, rfl, ?_⟩
    cases hin : s.inited with
    | true =>
      rw [if_pos rfl]
      show redInit pc s = s
      unfold redInit; rw [if_pos hin]
    | false => rw [if_neg (by simp)]; exact initialized hc hin
  have e : pexec pc t k s = if k.isUninit = true ∧ s.inited = false then (.ok .unit, s)
    else
      let x := (if early k then fail .einval else do posixEnter pc t; body pc t k : PM PReply) s
      match x.1 with
      | .ok a => (.ok a, x.2)
      | .error e => (.error e, if setsErrno k then setErrno pc t e x.2 else x.2) := by
    cases k <;> first | rfl | exact absurd rfl hk
  have e' : ∀ r s', PDoes pc t k s r s' = (if k.isUninit = true ∧ s.inited = false then r = .ok .unit ∧ s' = s
    else ∃ s2, EnterDoes pc t k s r s2 ∧
      match r with
      | .ok _ => s' = s2
      | .error e => if setsErrno k then SetsErrno pc t e s2 s' else s' = s2) := by
    intro r s'
    cases k <;> first | rfl | exact absurd rfl hk
  rw [e', e]
  by_cases hu : k.isUninit = true ∧ s.inited = false
  · rw [if_pos hu, if_pos hu]; exact ⟨hi, rfl, rfl⟩
  rw [if_neg hu, if_neg hu]
  obtain ⟨r, s', ex, i', d⟩ := enter_spec hc hi hp hk
  rw [ex]
  dsimp only
  cases r with
  | ok a => exact ⟨i', s', d, rfl⟩
  | error e =>
    dsimp only
    cases hs : setsErrno k with
    | false =>
      rw [if_neg (by simp)]; exact ⟨i', s', d, by rw [if_neg (by simp)]⟩
    | true =>
      rw [if_pos rfl]
      obtain ⟨a, b⟩ := setErrno_spec hc i' hp.1 e
      exact ⟨a, s', d, by rw [if_pos rfl]; exact b⟩

theorem PStart.inv (hc : pc.Ok) (h : PStart pc s) : PInv pc s := by
  have : ∀ {P : Prop}, s.inited = true → P := fun hin => by rw [h.inited] at hin; cases hin
  exact ⟨h.reach, by rw [h.cur]; exact hc.n.1, fun _ => h.mounted, fun hin => this hin, fun hin => this hin, fun hin => this hin,
    fun i hi => ⟨by rw [h.gen]; omega, fun hm => by rw [h.mounted i hi] at hm; cases hm⟩⟩

theorem PRun.inv {s0 : PSt} {tr : List PEv} (hc : pc.Ok) (h0 : PInv pc s0) (h : PRun pc s0 tr s) : PInv pc s := by
  induction h with
  | nil => exact h0
  | call _ hp ih => exact (pexec_spec hc ih hp).1

theorem PReach.inv (hc : pc.Ok) (h : PReach pc s) : PInv pc s := by
  obtain ⟨s0, tr, h0, hr⟩ := h
  exact hr.inv hc (h0.inv hc)

theorem PRun.trans {s0 s1 s2 : PSt} {tr tr' : List PEv} (h : PRun pc s0 tr s1) (h' : PRun pc s1 tr' s2) : PRun pc s0 (tr ++ tr') s2 := by
  induction h' with
  | nil => simpa using h
  | call h' hp ih => rw [← List.append_assoc]; exact .call ih hp

theorem PReach.run {tr : List PEv} (h : PReach pc s) (h' : PRun pc s tr s') : PReach pc s' := by
  obtain ⟨s0, tr0, h0, hr⟩ := h
  exact ⟨s0, _, h0, hr.trans h'⟩

theorem PReach.call (h : PReach pc s) {t : Nat} {k : PCall} (hp : Permitted pc t k s) : PReach pc (pexec pc t k s).2 := h.run (.call .nil hp)

end RedFs.Posix
