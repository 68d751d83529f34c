import Verif.Lemmas.PosixFd
set_option linter.unusedSimpArgs false
set_option linter.unusedVariables false
set_option linter.unusedSectionVars false
/-!
Directory streams, the current directory, and the calls that only commit.
-/
namespace RedFs
open Spec M Props.System
/-- `RedCoreVolTransact` of a mounted volume. -/
theorem transact_typed {c : Conf} {v : Vol} (hc : c.SysOk) (h : Reach c v) (hm : v.mounted = true) (hro : v.readOnly = false) :
    ∃ v', coreVolTransact v = (.ok (), v') ∧ Reach c v' ∧ v'.mounted = true ∧ v'.readOnly = v.readOnly ∧ v'.transMask = v.transMask ∧
      files c v' = files c v ∧ committedFiles c v' = files c v := by
  have e0 : exec c .transact v = ((coreVolTransact v).1.map (fun _ => .unit), (coreVolTransact v).2) := reply_run (Prod.mk.eta ..).symm
  obtain ⟨r', v'', s', tr, e', d, a, _⟩ := exec_sim hc (Reach.sysOf hc h hm) (k := .transact) trivial
  have hr := h.call (k := .transact) trivial e0
  rw [e0] at e'; obtain ⟨rfl, rfl⟩ := Prod.mk.inj e'
  simp only [Spec.Does] at d
  rw [if_neg (show ¬ (sysOf c v).mounted = false from fun h => by cases h), if_neg (show ¬ (sysOf c v).ro = true by show ¬ v.readOnly = true; rw [hro]; simp)] at d
  obtain ⟨d1, _, rfl⟩ := d
  obtain ⟨a1, a2, a3, a4, a5⟩ := a.inv rfl
  refine ⟨(coreVolTransact v).2, ?_, hr, a1.mounted, a4.symm, a5.symm, a2.symm, (Option.some.inj a3).symm⟩
  rcases hx : coreVolTransact v with ⟨r | ⟨⟩, v'⟩
  · rw [hx] at d1; cases d1
  · rfl

theorem transact_ro {v : Vol} (hm : v.mounted = true) (hro : v.readOnly = true) : coreVolTransact v = (.error .erofs, v) := by
  unfold coreVolTransact whenRw; rw [run_bind, run_get]; dsimp only; rw [if_neg (by rw [hm]; simp), if_pos hro]; rfl
theorem maskGet_typed {v : Vol} (hm : v.mounted = true) : coreTransMaskGet v = (.ok v.transMask, v) := by
  unfold coreTransMaskGet whenMounted; rw [run_bind, run_get]; dsimp only; rw [if_neg (by rw [hm]; simp)]; rfl
end RedFs

namespace RedFs.Posix
open M Str Path Spec

variable {pc : PConf} {s s' s'' : PSt}

theorem onCur_bind {α β : Type} (m : Conf → VM α) (f : Conf → α → VM β) (s : PSt) :
    onCur pc (fun c => m c >>= f c) s = (onCur pc m >>= fun a => onCur pc fun c => f c a) s := by
  show ((M.bind (m (pc.conf s.cur)) (f (pc.conf s.cur)) (s.vols s.cur)).1, s.put (M.bind (m (pc.conf s.cur)) (f (pc.conf s.cur)) (s.vols s.cur)).2) =
    M.bind (onCur pc m) (fun a => onCur pc fun c => f c a) s
  unfold M.bind
  rw [onCur_eta]
  rcases m (pc.conf s.cur) (s.vols s.cur) with ⟨e | a, v⟩
  · rfl
  · dsimp only
    rw [onCur_eta]
    have hv : (s.put v).vols (s.put v).cur = v := by rw [put_vols]; exact if_pos rfl
    have hpp : ∀ w, (s.put v).put w = s.put w := by
      intro w; unfold PSt.put; dsimp only; congr 1; funext j; unfold upd; split <;> rfl
    rw [hv, hpp]; rfl

theorem bind_congr_run {σ α β : Type} {m : M σ α} {f g : α → M σ β} {s : σ} (h : ∀ a s', f a s' = g a s') : (m >>= f) s = (m >>= g) s := by
  have : f = g := funext fun a => funext fun s' => h a s'
  rw [this]

section
variable (hc : pc.Ok) (hi : PInv pc s) (hin : s.inited = true)
include hc hi hin

omit hc in
theorem dirStream_iff {k : Nat} : dirStreamIsValid pc k s = true ↔ IsDirStream pc s k := by
  unfold dirStreamIsValid IsDirStream
  simp only [Bool.and_eq_true, decide_eq_true_eq]
  constructor
  · rintro ⟨⟨⟨h1, h2⟩, _⟩, h3⟩; exact ⟨h1, h2, h3⟩
  · rintro ⟨h1, h2, h3⟩; exact ⟨⟨⟨h1, h2⟩, (hi.handle hin k h1 h2).vol⟩, h3⟩

/-- `red_rewinddir` -/
theorem pRewinddir_spec (k : Nat) : ∃ r s', pRewinddir pc k s = (r, s') ∧ PInv pc s' ∧ RewinddirDoes pc k s r s' := by
  unfold pRewinddir
  rw [run_bind, run_get]; dsimp only
  by_cases h : dirStreamIsValid pc k s = true
  · rw [if_pos h]
    have hd := (dirStream_iff hi hin).1 h
    have H := hi.handle hin k hd.1 hd.2.1
    refine ⟨_, _, rfl, hi.setHandle k fun _ => ⟨H.vol, H.mounted, H.file, fun _ => Nat.zero_le _, H.ro⟩, rfl, fun _ => rfl, fun h' => absurd hd h'⟩
  · rw [if_neg h]
    exact ⟨_, _, rfl, hi, rfl, fun h' => absurd ((dirStream_iff hi hin).2 h') h, fun _ => rfl⟩

/-- `red_closedir` -/
theorem pClosedir_spec (k : Nat) : ∃ r s', pClosedir pc k s = (r, s') ∧ PInv pc s' ∧ ClosedirDoes pc k s r s' := by
  unfold pClosedir
  rw [run_bind, run_get]; dsimp only
  by_cases h : dirStreamIsValid pc k s = true
  · rw [if_pos h]
    exact ⟨_, _, rfl, hi.setHandle k fun h0 => absurd rfl h0, fun _ => ⟨rfl, rfl⟩, fun h' => absurd ((dirStream_iff hi hin).1 h) h'⟩
  · rw [if_neg h]
    exact ⟨_, _, rfl, hi, fun h' => absurd ((dirStream_iff hi hin).2 h') h, fun _ => ⟨rfl, rfl⟩⟩

/-- `red_readdir` -/
theorem pReaddir_spec (k : Nat) : ∃ r s', pReaddir pc k s = (r, s') ∧ PInv pc s' ∧ ReaddirDoes pc k s r s' := by
  unfold pReaddir
  rw [run_bind, run_get]; dsimp only
  by_cases h : dirStreamIsValid pc k s = true
  swap
  · rw [if_pos (by simpa using h)]
    exact ⟨_, _, rfl, hi, Or.inl ⟨fun h' => h ((dirStream_iff hi hin).2 h'), rfl, Quiet.refl _ _⟩⟩
  rw [if_neg (by rw [h]; simp)]
  have hd := (dirStream_iff hi hin).1 h
  have H := hi.handle hin k hd.1 hd.2.1
  obtain ⟨e1, q1, hm⟩ := handle_cur H
  obtain ⟨f, hf⟩ := isDir_of H hd.2.2
  rw [run_bind, e1]; dsimp only
  obtain ⟨r, s2, e2, a2, R⟩ := onDirRead hc (hi.quiet q1) hm (s.handle k).ino (s.handle k).off
  have q2 := q1.trans a2.quiet
  replace R : DirRead (pc.conf (s.handle k).vol) (s.handle k).ino (s.handle k).off (s.files pc (s.handle k).vol) r := R
  rw [run_bind, e2]
  rcases r with e | ⟨pos, e⟩
  · exfalso
    rcases R with ⟨_, R⟩ | ⟨_, g, R⟩
    · rw [hf.1] at R; cases R
    · have e := R.1; rw [hf.1] at e; injection e with e; subst e; exact modes_ne (hf.2.symm.trans R.2)
  dsimp only
  rw [run_bind, run_modify]; dsimp only
  rw [q2.handle]
  have q3 := q2.setHandle k { s.handle k with off := pos }
  have his : PInv pc (s.setHandle k { s.handle k with off := pos }) := hi.setHandle k fun _ => ⟨H.vol, H.mounted, H.file, fun h => absurd (show (s.handle k).dir = false from h) (by rw [hd.2.2]; simp), H.ro⟩
  have hi3 := his.quiet q3
  rcases e with _ | ⟨name, i⟩
  · exact ⟨_, _, rfl, hi3, Or.inr ⟨hd, pos, none, R, q3, Or.inl ⟨rfl, rfl⟩⟩⟩
  dsimp only
  have hcur3 : (s2.setHandle k { s.handle k with off := pos }).cur = (s.handle k).vol := a2.cur
  have hm3 : (s2.setHandle k { s.handle k with off := pos }).v.mounted = true := (a2.mounted H.vol).trans hm
  obtain ⟨r, s4, e4, a4, S⟩ := onStat hc hi3 hm3 i
  have hF : (s2.setHandle k { s.handle k with off := pos }).F pc = s.files pc (s.handle k).vol := a2.files H.vol hm
  rw [hF] at S
  rw [run_bind, e4]
  rcases r with e | st
  · exfalso
    obtain ⟨j, _, hj, _⟩ := R
    exact (has_live (hc.sys _ H.vol) (hc.posix _ H.vol) (hi.reach _ H.vol) H.mounted ⟨j, hj⟩).2.2.1 S.2
  · exact ⟨_, _, rfl, hi3.quiet a4.quiet, Or.inr ⟨hd, pos, _, R, q3.trans a4.quiet, Or.inr ⟨name, i, st, rfl, rfl, S⟩⟩⟩

/-- `red_chdir` -/
theorem pChdir_spec (hcw : pc.cwd = true) {t k : Nat} (ht : SlotOf pc t s k) {path : List Byte} (hs : CStr.Ok path) :
    ∃ r s', pChdir pc t path s = (r, s') ∧ PInv pc s' ∧ ChdirDoes pc t path s r s' := by
  unfold pChdir
  rw [run_bind]
  rcases start_step hc hi hin ht hs (Quiet.refl pc s) with ⟨e, s1, e1, q, h⟩ | ⟨vol, start, l, s1, e1, hcur, ha⟩
  · rw [e1]; exact ⟨_, _, rfl, hi.quiet q, Or.inl ⟨e, .start h, rfl, q⟩⟩
  rw [e1]; dsimp only
  have hi1 := hi.quiet ha.quiet
  -- the two steps on the current volume, one after the other
  have split : onCur pc (fun c => do let ino ← pathLookup c pc.cwd start l; inodeMustBeDir c ino; pure ino) s1 =
      (do let ino ← onCur pc (fun c => pathLookup c pc.cwd start l); onCur pc (fun c => inodeMustBeDir c ino); pure ino : PM Nat) s1 := by
    rw [onCur_bind]
    refine bind_congr_run fun i s2 => ?_
    rw [onCur_bind]
    exact bind_congr_run fun _ s3 => onCur_off rfl
  rw [run_bind, split, run_bind]
  rcases find_step hc hi ha hcur with ⟨e, s2, e2, a, h⟩ | ⟨i, s2, e2, a, h⟩
  · rw [e2]; exact ⟨_, _, rfl, hi.quiet (ha.quiet.trans a.quiet), Or.inl ⟨e, h, rfl, ha.quiet.trans a.quiet⟩⟩
  rw [e2]; dsimp only
  rcases h with ⟨hm, h, hlv⟩ | ⟨_, h, _⟩
  swap
  · rw [hcw] at h; cases h
  have q2 := ha.quiet.trans a.quiet
  have hi2 := hi.quiet q2
  have hcur2 : s2.cur = vol := a.cur.trans hcur
  have hm2 : s2.v.mounted = true := (a.mounted hi1.cur).trans hm
  obtain ⟨hv, hF2, hms⟩ := fileFns hc hi q2 hcur2 hm2
  obtain ⟨r, v3, e3, sm, R⟩ := mustBeDir_spec (hc.sys _ hi2.cur) (hc.posix _ hi2.cur) (hi2.reach _ hi2.cur) hm2 (i := i) (by rw [show RedFs.files (pc.conf s2.cur) (s2.vols s2.cur) = s.files pc vol from hF2]; exact hlv)
  rw [run_bind, onCur_run e3]
  have q3 := q2.trans (asked_put sm).quiet
  have R' : (r = .ok () ∧ ∃ f, IsDir (s.files pc vol) i f) ∨ (r = .error .enotdir ∧ ∃ f, IsReg (s.files pc vol) i f) := by
    rw [← hF2]; exact R
  rcases R' with ⟨rfl, f, hf⟩ | ⟨rfl, R'⟩
  swap
  · exact ⟨_, _, rfl, hi.quiet q3, Or.inr ⟨vol, i, h, Or.inl ⟨R', rfl, q3⟩⟩⟩
  dsimp only
  rw [run_pure]; dsimp only
  have ht3 : SlotOf pc t (s2.put v3) k := by unfold SlotOf; rw [q3.slot]; exact ht
  obtain ⟨j, e4, hj⟩ := cwdSlot_spec ht3
  rw [run_bind, e4]; dsimp only
  rw [run_modify, q3.slot]
  have hj' : SlotOf pc t s j := by unfold SlotOf at hj ⊢; rw [q3.slot] at hj; exact hj
  have q4 : Quiet pc (s.setSlot j { s.slot j with cwdVol := vol, cwdIno := i }) ((s2.put v3).setSlot j { s.slot j with cwdVol := vol, cwdIno := i }) :=
    ⟨q3.inited, q3.handle, by show upd (s2.put v3).slot j _ = upd s.slot j _; rw [q3.slot], q3.gen, q3.gerrno, q3.cur, q3.vols⟩
  refine ⟨_, _, rfl, ?_, Or.inr ⟨vol, i, h, Or.inr ⟨⟨f, hf⟩, rfl, j, hj', q4⟩⟩⟩
  refine PInv.quiet ?_ q4
  refine ⟨hi.reach, hi.cur, hi.down, fun hx n hn h0 => (hi.handle hx n hn h0).same rfl, fun hx hy n hn => ?_, fun hx a b ha hb => ?_, hi.gen⟩
  · show SlotOk pc _ (upd s.slot j _ n)
    by_cases e : n = j
    · subst e; rw [upd_same]
      exact ⟨hv, fun _ => ⟨f, hf⟩, fun h => absurd (show (s.vols vol).mounted = false from h) (by rw [hms]; simp)⟩
    · rw [upd_other _ _ e]; exact (hi.slot hx hy n hn).same rfl
  · have hup : ∀ n, ((s.setSlot j { s.slot j with cwdVol := vol, cwdIno := i }).slot n).task = (s.slot n).task := by
      intro n; show (upd s.slot j _ n).task = _; unfold upd; split
      · rename_i e; rw [e]
      · rfl
    rw [hup, hup]; exact hi.task hx a b ha hb

/-! ### Commits -/

omit hc hin in
theorem flush_off {vol : Nat} (q : Quiet pc s s') (hv : vol < pc.n) (hm : (s.vols vol).mounted = true) : Flush pc vol false s s' := by
  refine ⟨onVol_quiet hi q hv hm rfl, ?_⟩
  rw [if_neg (by simp)]; exact (q.vols vol hv).disk hm

omit hin in
/-- `transactIf` on the current volume -/
theorem transactIf_spec {s1 : PSt} {vol : Nat} (q : Quiet pc s s1) (hcur : s1.cur = vol) (hm : (s.vols vol).mounted = true) (ev : Event) :
    ∃ r s', transactIf pc ev s1 = (r, s') ∧ PInv pc s' ∧ s'.handle = s.handle ∧ s'.cur = vol ∧
      (((s.vols vol).transMask.testBit ev.bit = true ∧ (s.vols vol).readOnly = true ∧ Fails pc s r s' .erofs) ∨
       (((s.vols vol).readOnly = true → (s.vols vol).transMask.testBit ev.bit = false) ∧ r = .ok () ∧ Flush pc vol ((s.vols vol).transMask.testBit ev.bit) s s' ∧
         ∀ i, i ≠ vol → s'.vols i = s1.vols i)) := by
  have hi1 := hi.quiet q
  have hv : vol < pc.n := hcur ▸ hi1.cur
  have hsm := q.vols vol hv
  have hm1 : (s1.vols s1.cur).mounted = true := by rw [hcur, hsm.mounted]; exact hm
  have hro1 : (s1.vols s1.cur).readOnly = (s.vols vol).readOnly := by rw [hcur]; exact hsm.ro
  have hmk1 : (s1.vols s1.cur).transMask = (s.vols vol).transMask := by rw [hcur]; exact hsm.mask
  unfold transactIf
  rw [run_bind, onCur_off (r := .ok (s1.vols s1.cur).transMask) (maskGet_typed hm1)]
  dsimp only
  rw [hmk1]
  cases hb : (s.vols vol).transMask.testBit ev.bit with
  | false =>
    rw [if_neg (by simp)]
    refine ⟨_, _, rfl, hi1, q.handle, hcur, Or.inr ⟨fun _ => rfl, rfl, ?_, fun _ _ => rfl⟩⟩
    exact flush_off hi q hv hm
  | true =>
    rw [if_pos rfl]
    cases hro : (s.vols vol).readOnly with
    | true =>
      rw [onCur_off (r := .error .erofs) (transact_ro hm1 (hro1.trans hro))]
      exact ⟨_, _, rfl, hi1, q.handle, hcur, Or.inl ⟨rfl, rfl, rfl, q⟩⟩
    | false =>
      obtain ⟨v', e, t1, t2, t3, t4, t5, t6⟩ := transact_typed (hc.sys _ hi1.cur) (hi1.reach _ hi1.cur) hm1 (hro1.trans hro)
      rw [onCur_run e]
      have hput : (s1.put v').vols vol = v' := by rw [put_vols, if_pos hcur.symm]
      have hF : RedFs.files (pc.conf vol) v' = s.files pc vol := by
        rw [hcur] at t5; rw [t5]; exact hsm.files hm
      refine ⟨_, _, rfl, hi1.put t1 hm1 t2 (fun i _ => by rw [t5]; exact Keeps.refl _ _), q.handle, hcur, Or.inr ⟨(fun h => by cases h), rfl, ⟨⟨hv, q.inited, q.slot, q.gen, fun i hn hne => ?_, hm, ?_, ?_, ?_, ?_⟩, ?_⟩, fun i hne => ?_⟩⟩
      · rw [put_vols, if_neg (by rw [hcur]; exact hne)]; exact q.vols i hn
      · rw [hput]; exact t2
      · rw [hput, t3, hro1]
      · rw [hput, t4, hmk1]
      · show RedFs.files (pc.conf vol) ((s1.put v').vols vol) = _; rw [hput]; exact hF
      · rw [if_pos rfl]; unfold Committed PSt.files; rw [hput]
        rw [hcur] at t5 t6; rw [t6, t5]
      · rw [put_vols, if_neg (by rw [hcur]; exact hne)]

/-- `red_fsync` -/
theorem pFsync_spec {fd : Int} (hfd : Int32 fd) : ∃ r s', pFsync pc fd s = (r, s') ∧ PInv pc s' ∧ FsyncDoes pc fd s r s' := by
  unfold pFsync
  rcases either_fd hc hi hin hfd with ⟨h1, h2⟩ | ⟨k, h1, H, h2⟩
  · rw [run_bind, h2]; exact ⟨_, _, rfl, hi, Or.inl ⟨h1, rfl, Quiet.refl _ _⟩⟩
  rw [run_bind, h2]; dsimp only
  rw [run_bind, run_get]; dsimp only
  obtain ⟨e1, q1, hm⟩ := handle_cur H
  rw [run_bind, e1]; dsimp only
  obtain ⟨r, s2, e2, hi2, hh, _, h⟩ := transactIf_spec hc hi q1 rfl H.mounted .fsync
  refine ⟨r, s2, e2, hi2, Or.inr ⟨k, h1, ?_⟩⟩
  rcases h with h | ⟨_, h3, h4, _⟩
  · exact Or.inl h
  · exact Or.inr ⟨h3, hh, h4⟩

/-- `red_close` -/
theorem pClose_spec {fd : Int} (hfd : Int32 fd) : ∃ r s', fildesClose pc fd s = (r, s') ∧ PInv pc s' ∧ CloseDoes pc fd s r s' := by
  unfold fildesClose
  rcases either_fd hc hi hin hfd with ⟨h1, h2⟩ | ⟨k, h1, H, h2⟩
  · rw [run_bind, h2]; exact ⟨_, _, rfl, hi, Or.inl ⟨h1, rfl, Quiet.refl _ _⟩⟩
  rw [run_bind, h2]; dsimp only
  rw [run_bind, run_get]; dsimp only
  obtain ⟨e1, q1, hm⟩ := handle_cur H
  rw [run_bind, e1]; dsimp only
  rw [run_bind]; unfold curVol; dsimp only
  have fl : ∀ {on : Bool} {s2 : PSt}, s2.handle = s.handle → Flush pc (s.handle k).vol on s s2 →
      (s2.setHandle k { s2.handle k with ino := 0 }).handle = upd s.handle k { s.handle k with ino := 0 } ∧
      Flush pc (s.handle k).vol on s (s2.setHandle k { s2.handle k with ino := 0 }) := by
    intro on s2 hh h
    refine ⟨?_, setHandle_onVol h.1, h.2⟩
    show upd s2.handle k _ = _; rw [hh]
  cases hro : (s.vols (s.handle k).vol).readOnly with
  | true =>
    rw [if_pos rfl, run_modify]
    obtain ⟨f1, f2⟩ := fl (on := false) (s2 := { s with cur := (s.handle k).vol }) rfl (flush_off hi q1 H.vol H.mounted)
    exact ⟨_, _, rfl, (hi.quiet q1).setHandle k (fun h => absurd rfl h), Or.inr ⟨k, h1, rfl, f1, by rw [hro]; exact f2⟩⟩
  | false =>
    rw [if_neg (by simp), run_bind]
    obtain ⟨r, s2, e2, hi2, hh, _, h⟩ := transactIf_spec hc hi q1 rfl H.mounted .close
    rw [e2]
    rcases h with ⟨_, h, _⟩ | ⟨_, rfl, h4, _⟩
    · rw [hro] at h; cases h
    dsimp only
    rw [run_modify]
    obtain ⟨f1, f2⟩ := fl hh h4
    exact ⟨_, _, rfl, hi2.setHandle k (fun h => absurd rfl h), Or.inr ⟨k, h1, rfl, f1, by rw [hro]; exact f2⟩⟩

end

end RedFs.Posix
