import Verif.Spec.Io
import Verif.Lemmas.IoDir
import Verif.Lemmas.Fault
set_option linter.unusedSimpArgs false
set_option linter.unusedVariables false
/-!
Calls of the API on a device that may fail.
-/
namespace RedFs.Io
open RedFs M HasVol Bitmap

variable {c : Conf} {α β : Type} {u v v' w t : Vol}

/-! ### broken volumes -/

/-- The volume `v` is broken, and its files on the disk are `F`. -/
structure Broken (c : Conf) (v : Vol) (F : Files) : Prop where
  mounted : v.mounted = true
  ro : v.readOnly = true
  off : ∃ m, Off c (Sound c) { v.discardAll with mounted := false } m ∧ stFiles c v.base m = F

theorem Broken.recov (hc : c.Ok) {F : Files} (h : Broken c v F) : Recov c v.epoch [some F] := by
  obtain ⟨m, ho, hf⟩ := h.off
  obtain ⟨i, hd⟩ := ho.disk
  intro D hD x hx
  have a : Abs c { v.discardAll with mounted := false } ⟨false, true, v.transMask, F, some F⟩ := .off rfl ho (by rw [← hf]; rfl) rfl
  refine a.idle hc D ⟨hD.kept, fun b hb hdb => ?_⟩ x hx
  have : v.dirty b = false := hd.low b (by omega)
  rw [show v.dirty b = true from hdb] at this; cases this

theorem spare_ge {b : Nat} (h : Spare c v b) : 3 ≤ b := by
  obtain ⟨_, k, _, _, m, rfl⟩ := h
  exact nodeBlk_ge c m k

theorem spare_not_in (hc : c.Ok) {D : Nat → Blk} {b : Nat} (h : Spare c v b) : ¬ InState c D (v.mr (!v.cur)) b := by
  obtain ⟨hi, k, hk, hne, m, rfl⟩ := h
  rintro (⟨_, j, hj, e⟩ | ⟨hb, _⟩)
  · have : j = k := by
      unfold nodeBlk at e
      split at e <;> split at e <;> omega
    subst this; exact hne e
  · have h1 := nodeBlk_lt m hi hk
    have := hb.1
    omega

/-- A volume that lies before `t`. -/
theorem Le.broken (hc : c.Ok) (h : Le c v t) (ht : Inv c (Sound c) t) (hro : v.readOnly = true) : Broken c v (committedFiles c t) := by
  have hcm : v.comm = t.comm := by
    unfold Vol.comm; rw [h.cur]; exact h.comm.symm
  have d := ht.wf.vol.disk hc ht.mounted
  refine ⟨h.mounted.symm.trans ht.mounted, hro, t.comm, ⟨⟨!t.cur, ?_⟩, ?_, ?_, rfl⟩, ?_⟩
  · refine { master := ?_, low := ?_, sel := ?_, mrOk := ?_, clean := ?_, cached := rfl, epochs := ?_ }
    · show ∃ mm, v.base 0 = _ ∧ _; rw [← h.base]; exact d.master
    · intro x hx
      show v.dirty x = false
      cases hv : v.dirty x
      · rfl
      · rcases h.dirty x hv with g | g
        · exact absurd ((d.low x hx).symm.trans g) (by simp)
        · have := spare_ge g; omega
    · show mrSelect c (v.base 1) (v.base 2) = _; rw [← h.base]; exact d.sel
    · show MrOk c v.base _; rw [← h.base]; exact d.mrOk
    · intro b hb
      show v.dirty b = false
      cases hv : v.dirty b
      · rfl
      · have hb : InState c v.base t.comm b := hb
        rcases h.dirty b hv with g | g
        · rw [← h.base] at hb
          exact absurd ((d.clean b hb).symm.trans g) (by simp)
        · exact absurd (by rw [← hcm] at hb; exact hb) (spare_not_in hc g)
    · show ∀ e ∈ v.hist, _; rw [← h.hist]; exact d.epochs
  · show Good c _ v.base _; rw [← h.base]; exact ht.comm_good hc
  · show ∀ e ∈ v.hist, _; rw [← h.hist]; exact ht.hist
  · rw [← h.base]; exact ht.comm_files hc

/-- Nothing on the disk, and nothing that is to be written, has changed. -/
structure Same (v w : Vol) : Prop where
  base : w.base = v.base
  hist : w.hist = v.hist
  dirty : w.dirty = v.dirty
  mounted : v.mounted = true → w.mounted = true
  mask : w.transMask = v.transMask
  almost : v.mounted = false → v.almostFree = 0 → w.mounted = false → w.almostFree = 0

theorem Same.refl (v : Vol) : Same v v := ⟨rfl, rfl, rfl, id, rfl, fun _ h _ => h⟩
theorem same_keeps : Keeps Same :=
  ⟨fun v => Same.refl v, fun {u v w} h1 h2 => ⟨h2.1.trans h1.1, h2.2.trans h1.2, h2.3.trans h1.3, fun h => h2.4 (h1.4 h), h2.5.trans h1.5, fun a b x => by
      cases hv : v.mounted
      · exact h2.6 hv (h1.6 a b hv) x
      · rw [h2.4 hv] at x; cases x⟩,
    fun _ _ => ⟨rfl, rfl, rfl, id, rfl, fun _ h _ => h⟩, fun _ _ => ⟨rfl, rfl, rfl, id, rfl, fun _ h _ => h⟩⟩

theorem Same.off {m : Metaroot} {P : Files → Prop} (hb : w.base = u.base) (hh : w.hist = u.hist) (hd : w.dirty = u.dirty)
    (hm : w.mounted = false) (hbl : w.blk = w.onDisk) (ho : Off c P u m) : Off c P w m := by
  obtain ⟨i, d⟩ := ho.disk
  refine ⟨⟨i, ?_⟩, ?_, ?_, hm⟩
  · refine { master := ?_, low := ?_, sel := ?_, mrOk := ?_, clean := ?_, cached := hbl, epochs := ?_ }
    · rw [hb]; exact d.master
    · rw [hd]; exact d.low
    · rw [hb]; exact d.sel
    · rw [hb]; exact d.mrOk
    · rw [hb, hd]; exact d.clean
    · rw [hh]; exact d.epochs
  · rw [hb]; exact ho.good
  · rw [hh]; exact ho.hist

theorem Same.broken (hc : c.Ok) (h : Same v w) (hi : Inv c (Sound c) v) (hro : w.readOnly = true) : Broken c w (committedFiles c v) :=
  ⟨h.mounted hi.mounted, hro, v.comm, Same.off (u := { v.discardAll with mounted := false }) h.base h.hist h.dirty rfl rfl (hi.off hc),
    by rw [h.base]; exact hi.comm_files hc⟩

/-! ### the abstraction -/

inductive AbsIo (c : Conf) (v : Vol) : Spec.SysIo → Prop
  | fine {s : Sys} : Abs c v s → AbsIo c v ⟨s, .fine⟩
  | broken {s : Sys} {F : Files} : s.mounted = true → s.ro = true → s.mask = v.transMask → s.disk = some F → Broken c v F → AbsIo c v ⟨s, .broken⟩
  | torn {s : Sys} {L : List Files} : s.mounted = true → s.ro = true → s.mask = v.transMask → s.now = files c v → v.mounted = true → v.readOnly = true →
      Readable c v → Recov c v.epoch (s.disk :: L.map some) → AbsIo c v ⟨s, .torn L⟩

/-- A power loss while no call is going on. -/
theorem AbsIo.idle (hc : c.Ok) {s : Spec.SysIo} (h : AbsIo c v s) : Recov c v.epoch s.cands := by
  cases h with
  | fine h => exact h.idle hc
  | broken _ _ _ h1 h2 => show Recov c v.epoch [Sys.disk _]; rw [h1]; exact h2.recov hc
  | torn _ _ _ _ _ _ _ h => exact h

theorem AbsIo.mounted_iff {s : Spec.SysIo} (h : AbsIo c v s) : s.sys.mounted = v.mounted := by
  cases h with
  | fine h => exact h.mounted_iff
  | broken h _ _ _ h2 => exact h.trans h2.mounted.symm
  | torn h _ _ _ h2 => exact h.trans h2.symm

/-- What has to be shown for a call. -/
def SimIo (c : Conf) (d : Dev) (k : Call) (v : Vol) (s : Spec.SysIo) : Prop :=
  ∃ r v' s' tr, execIo c d k v = (r, v') ∧ Spec.DoesIo c k s r s' tr ∧ AbsIo c v' s' ∧ s'.sys.disk ∈ s.cands ++ tr.map some ∧
    (∀ L, s'.mode = .torn L → s.mode = .torn L ∨ ¬ d.Commits ∧ L = tr) ∧
    ∃ new, v'.hist = new ++ v.hist ∧ ∀ e ∈ new, Recov c e (s.cands ++ tr.map some)

theorem SimIo.works {d : Dev} {k : Call} {s : Sys} (hc : c.SysOk) (ha : Abs c v s) (hk : k.Ok c) (he : execIo c d k v = exec c k v) : SimIo c d k v ⟨s, .fine⟩ := by
  obtain ⟨r, v', s', tr, h1, h2, h3, h4⟩ := exec_sim hc ha hk
  exact ⟨r, v', ⟨s', .fine⟩, tr, he.trans h1, .works h2, .fine h3, h2.last, fun L h => (by cases h), h4⟩

/-! ### modifying operations -/

theorem execIo_of {d : Dev} {k : Call} {r : Except Err Reply} {s : IS Vol} (h : execM c k ⟨v, d, 0, false⟩ = (r, s)) : execIo c d k v = (r, s.st) := by
  unfold execIo; rw [h]

theorem reply_runI {f : α → Reply} {m : IVM α} {s s' : IS Vol} {r : Except Err α} (h : m s = (r, s')) : reply f m s = (r.map f, s') := by
  unfold reply; rw [run_bind, h]; cases r <;> rfl

theorem whenRw_runI {s : IS Vol} (hm : s.st.mounted = true) (hro : s.st.readOnly = false) (m : IVM α) : whenRw m s = m s := by
  unfold whenRw; show (if (!s.st.mounted) = true then _ else if s.st.readOnly = true then _ else m : IVM α) s = _
  rw [hm, hro]; rfl
theorem whenRw_roI {s : IS Vol} (hm : s.st.mounted = true) (hro : s.st.readOnly = true) (m : IVM α) : whenRw m s = (.error .erofs, s) := by
  unfold whenRw; show (if (!s.st.mounted) = true then _ else if s.st.readOnly = true then _ else m : IVM α) s = _
  rw [hm, hro]; rfl
theorem whenRw_offI {s : IS Vol} (hm : s.st.mounted = false) (m : IVM α) : whenRw m s = (.error .einval, s) := by
  unfold whenRw; show (if (!s.st.mounted) = true then _ else if s.st.readOnly = true then _ else m : IVM α) s = _
  rw [hm]; rfl

/-- The outcome of a modifying operation. -/
theorem modify_io (hc : c.SysOk) {ev : Event} {mI : IVM α} {m : VM α} {R : Files → Except Err α → Files → Prop} {W : Nat → Prop}
    (hm : OpSpec c (Sound c) m R W) (hR : Clean R) (hT : TameE (Le c) mI m) {v : Vol} (h : Inv c (Sound c) v) (hro : v.readOnly = false)
    {d : Dev} (hx : Tame (Le c) mI m ∨ (v.on .volfull = true → (m v).1 ≠ .error .enospc)) :
    (∃ n b, modifyingOp ev mI ⟨v, d, 0, false⟩ = ((modifyingOpF d.full d.event ev m v).1, ⟨(modifyingOpF d.full d.event ev m v).2, d, n, b⟩)) ∨
    ∃ e s', modifyingOp ev mI ⟨v, d, 0, false⟩ = (.error e, s') ∧ (e = .eio ∨ (RedFs.modifyingOp ev m v).1 = .error e) ∧ s'.st.transMask = v.transMask ∧
      ((Broken c s'.st (committedFiles c v) ∧ s'.st.hist = v.hist) ∨
       (v.on .volfull = true ∧ Broken c s'.st (files c v) ∧ ∃ new, s'.st.hist = new ++ v.hist ∧ ∀ e ∈ new, Recov c e [some (committedFiles c v), some (files c v)])) := by
  obtain ⟨r, u, e, O⟩ := modifyingOp_spec hc.ok (ev := ev) hm hR h hro
  obtain ⟨r1, v1, e1, E1, how⟩ := O.how
  have hrunI : modifyingOp ev mI ⟨v, d, 0, false⟩ = (do let a ← volFullRetry mI; eventTransact ev; pure a : IVM α) ⟨v, d, 0, false⟩ :=
    whenRw_runI h.mounted hro _
  have hrun : RedFs.modifyingOp ev m v = (do let a ← RedFs.volFullRetry m; RedFs.eventTransact ev; pure a : VM α) v := whenRw_run h.mounted hro _
  have hrunF : modifyingOpF d.full d.event ev m v = (do let a ← volFullRetryF d.full m; eventTransactF d.event ev; pure a : VM α) v :=
    whenRw_run h.mounted hro _
  have hcf1 := E1.cfiles hc.ok h
  have last : ∀ (w : Vol) (a : α) n b, (do eventTransact ev; pure a : IVM α) ⟨w, d, n, b⟩ =
      (((do eventTransactF d.event ev; pure a : VM α) w).1, ⟨((do eventTransactF d.event ev; pure a : VM α) w).2, d, n, b⟩) := by
    intro w a n b
    have h1 : eventTransact ev ⟨w, d, n, b⟩ = ((eventTransactF d.event ev w).1, ⟨(eventTransactF d.event ev w).2, d, n, b⟩) := by
      show (if w.on ev = true then liftI (volTransactF d.event) else Pure.pure () : IVM Unit) ⟨w, d, n, b⟩ = _
      unfold eventTransactF
      simp only [run_bind, run_get]
      cases w.on ev
      · rfl
      · rfl
    rw [run_bind, h1, run_bind]
    rcases eventTransactF d.event ev w with ⟨_ | _, _⟩ <;> rfl
  -- the attempt, once it has been made
  have fin : ∀ (r' : Except Err α) (w : Vol) n b, volFullRetry mI ⟨v, d, 0, false⟩ = (r', ⟨w, d, n, b⟩) → volFullRetryF d.full m v = (r', w) →
      ∃ n b, modifyingOp ev mI ⟨v, d, 0, false⟩ = ((modifyingOpF d.full d.event ev m v).1, ⟨(modifyingOpF d.full d.event ev m v).2, d, n, b⟩) := by
    intro r' w n b h1 h2
    refine ⟨n, b, ?_⟩
    rw [hrunI, hrunF, run_bind, h1, run_bind, h2]
    rcases r' with er | a
    · rfl
    · exact last w a n b
  have retryI : volFullRetry mI ⟨v, d, 0, false⟩ = (match mI ⟨v, d, 0, false⟩ with
      | (.ok a, s) => (.ok a, s)
      | (.error e, s) => if e = .enospc ∧ s.st.on .volfull = true ∧ 0 < s.st.almostFree then (do liftI (volTransactF d.full); mI : IVM α) s else (.error e, s)) := by
    unfold volFullRetry
    simp only [run_bind, run_attempt]
    rcases mI ⟨v, d, 0, false⟩ with ⟨er | a, s⟩
    · simp only [run_bind]
      show (if er = .enospc ∧ s.st.on .volfull = true ∧ 0 < s.st.almostFree then _ else _ : IVM α) s = _
      split <;> rfl
    · rfl
  rcases hT.run ⟨v, d, 0, false⟩ rfl with ⟨s', g1, n, rfl⟩ | ⟨s', er, g1, ger, H⟩
  · -- the first attempt meets no failure
    dsimp only at g1
    rw [e1] at g1
    dsimp only at g1
    rcases how with ⟨a1, a2, a3, a4, v2, v3, a5, C, i2, a6, E3, R3, hlast⟩ | ⟨a1, a2, a3, hlast⟩
    · have on_full : v.on .volfull = true := by unfold Vol.on; rw [← E1.step.transMask]; exact a2
      subst a1
      have hI0 : volFullRetry mI ⟨v, d, 0, false⟩ = (do liftI (volTransactF d.full); mI : IVM α) ⟨v1, d, n, false⟩ := by
        rw [retryI, g1]
        show (if _ then _ else _) = _
        rw [if_pos ⟨rfl, a2, a3⟩]
      have hF0 : volFullRetryF d.full m v = (do volTransactF d.full; m : VM α) v1 := by
        unfold volFullRetryF
        simp only [run_bind, run_attempt, e1, run_get]
        rw [if_pos ⟨trivial, a2, a3⟩]; rfl
      rcases failed_commit hc E1.inv d.full with hok | ⟨w, hbad, _⟩
      swap
      · left
        refine fin (.error .eio) w n false ?_ ?_
        · rw [hI0, run_bind]; unfold liftI; dsimp only; rw [hbad]
        · rw [hF0, run_bind, hbad]
      have hI : volFullRetry mI ⟨v, d, 0, false⟩ = mI ⟨v2, d, n, false⟩ := by
        rw [hI0, run_bind]; unfold liftI; dsimp only; rw [hok, a5]
      have hF : volFullRetryF d.full m v = (r, v3) := by
        rw [hF0, run_bind, hok, a5]; exact a6
      have hV : RedFs.volFullRetry m v = (r, v3) := by
        unfold RedFs.volFullRetry
        simp only [run_bind, run_attempt, e1, run_get]
        rw [if_pos ⟨trivial, a2, a3⟩, run_bind, a5]; exact a6
      rcases hT.run ⟨v2, d, n, false⟩ rfl with ⟨s', g2, n', rfl⟩ | ⟨s', er, g2, ger, H⟩
      · left
        dsimp only at g2
        rw [a6] at g2
        exact fin r v3 n' false (hI.trans g2) hF
      · right
        dsimp only at ger
        have Hb := H.bwd
        dsimp only at Hb
        rw [a6] at Hb ger
        have hcf3 : committedFiles c v3 = files c v := by rw [E3.cfiles hc.ok i2, C.cfiles, a4]
        obtain ⟨new1, hn1, hr1'⟩ := E1.inv.commit_recov hc.ok i2 C
        refine ⟨er, s', ?_, ?_, ?_, Or.inr ⟨on_full, ?_, new1, ?_, ?_⟩⟩
        · rw [hrunI, run_bind, hI, g2]
        · refine ger.imp_right fun hh => ?_
          rw [hrun, run_bind, hV]
          dsimp only at hh; subst hh; rfl
        · exact (show s'.st.transMask = v2.transMask from H.fwd.mask).trans (C.mask.trans E1.step.transMask)
        · rw [← hcf3]; exact Le.broken hc.ok Hb E3.inv H.ro
        · rw [← E1.step.hist, ← hn1]; exact H.fwd.hist
        · intro x hx; have := hr1' x hx; rw [hcf1, a4] at this; exact this
    · left
      have hV : volFullRetryF d.full m v = (r1, v1) := by
        unfold volFullRetryF
        simp only [run_bind, run_attempt, e1]
        rcases r1 with er | a
        · simp only [run_bind, run_get]
          rw [if_neg (fun hh => a1 ⟨by rw [hh.1], hh.2.1, hh.2.2⟩)]
          rfl
        · rfl
      refine fin r1 v1 n false ?_ hV
      rw [retryI, g1]
      rcases r1 with er | a
      · show (if _ then _ else _) = _
        rw [if_neg (fun hh => a1 ⟨by rw [hh.1], hh.2.1, hh.2.2⟩)]
      · rfl
  · -- the first attempt meets a failure
    right
    dsimp only at ger
    have Hb := H.bwd
    dsimp only at Hb
    have hno : ¬ (er = .enospc ∧ s'.st.on .volfull = true ∧ 0 < s'.st.almostFree) := by
      rintro ⟨h1, h2, _⟩
      have hon : v.on .volfull = true := by
        have := H.fwd.mask
        unfold Vol.on at h2 ⊢
        rw [show s'.st.transMask = v.transMask from this] at h2; exact h2
      subst h1
      rcases hx with hx | hx
      · rcases hx.run ⟨v, d, 0, false⟩ rfl with ⟨s2, g2, n, rfl⟩ | ⟨s2, g2, _⟩
        · rw [g1] at g2
          have := congrArg IS.bad (Prod.mk.inj g2).2
          rw [H.bad] at this; cases this
        · rw [g1] at g2; cases (Prod.mk.inj g2).1
      · rcases ger with g | g
        · cases g
        · exact hx hon g
    have hI : volFullRetry mI ⟨v, d, 0, false⟩ = (.error er, s') := by
      rw [retryI, g1]
      show (if _ then _ else _) = _
      rw [if_neg hno]
    refine ⟨er, s', ?_, ?_, H.fwd.mask, Or.inl ⟨?_, H.fwd.hist⟩⟩
    · rw [hrunI, run_bind, hI]
    · refine ger.imp_right fun hh => ?_
      rw [e1] at hh
      dsimp only at hh
      subst hh
      have hV : RedFs.volFullRetry m v = (.error er, v1) := by
        unfold RedFs.volFullRetry
        simp only [run_bind, run_attempt, e1, run_get]
        rw [if_neg]; · rfl
        rintro ⟨h1, h2, _⟩
        subst h1
        have hon : v.on .volfull = true := by
          unfold Vol.on at h2 ⊢; rw [← E1.step.transMask]; exact h2
        rcases hx with hx | hx
        · rcases hx.run ⟨v, d, 0, false⟩ rfl with ⟨s2, g2, n, rfl⟩ | ⟨s2, g2, _⟩
          · rw [g1] at g2
            have := congrArg IS.bad (Prod.mk.inj g2).2
            rw [H.bad] at this; cases this
          · rw [g1] at g2; cases (Prod.mk.inj g2).1
        · exact hx hon (by rw [e1])
      rw [hrun, run_bind, hV]
    · rw [← hcf1]
      refine Le.broken hc.ok ?_ E1.inv H.ro
      rw [e1] at Hb; exact Hb

/-! ### all calls, on a mounted volume -/

/-- What a call does to a mounted volume if the device fails in it (other than in a commit). -/
structure Hits (c : Conf) (k : Call) (v : Vol) (e : Err) (v' : Vol) : Prop where
  err : e = .eio ∨ (exec c k v).1 = .error e
  mask : v'.transMask = v.transMask
  broken : (Broken c v' (committedFiles c v) ∧ v'.hist = v.hist) ∨
    (v.on .volfull = true ∧ v.readOnly = false ∧ (∃ ev, k.event = some ev) ∧ Broken c v' (files c v) ∧
      ∃ new, v'.hist = new ++ v.hist ∧ ∀ e ∈ new, Recov c e [some (committedFiles c v), some (files c v)])

def Outcome (c : Conf) (d : Dev) (k : Call) (v : Vol) : Prop :=
  execIo c d k v = execF c d.full d.event k v ∨ ∃ e v', execIo c d k v = (.error e, v') ∧ Hits c k v e v'

theorem look_io (hc : c.SysOk) (h : Inv c (Sound c) v) {k : Call} (hk : k.Ok c) {d : Dev} (hl : Looks k)
    (hT : Tame (Le c) (execM c k) (exec c k)) : Outcome c d k v := by
  have hF : execF c d.full d.event k = exec c k := by cases k <;> first | rfl | exact hl.elim
  obtain ⟨r, t, s', tr, e, D, A, _⟩ := exec_sim hc (show Abs c v ⟨true, v.readOnly, v.transMask, files c v, some (committedFiles c v)⟩ from .up rfl h rfl rfl rfl rfl) hk
  have hs : s' = ⟨true, v.readOnly, v.transMask, files c v, some (committedFiles c v)⟩ := by
    cases k <;> first | exact D.1 | exact hl.elim
  subst hs
  obtain ⟨hi, _, hcm, _⟩ := A.inv rfl
  rcases hT.run ⟨v, d, 0, false⟩ rfl with ⟨s', g, n, rfl⟩ | ⟨s', g, H⟩
  · left; rw [hF, execIo_of g]
  · right
    refine ⟨_, _, execIo_of g, Or.inl rfl, H.fwd.mask, Or.inl ⟨?_, H.fwd.hist⟩⟩
    have Hb := H.bwd
    dsimp only at Hb
    rw [e] at Hb
    have : committedFiles c v = committedFiles c t := Option.some.inj hcm
    rw [this]
    exact Le.broken hc.ok Hb hi H.ro

theorem looks_tame {k : Call} (hl : Looks k) : Tame (Le c) (execM c k) (exec c k) := by
  have hR := le_keeps c
  cases k with
  | lookup p name => exact reply_tame hR _ (coreLookup_tame hR p name)
  | dirRead p pos => exact reply_tame hR _ (coreDirRead_tame p pos)
  | dirParent p => exact reply_tame hR _ (coreDirParent_tame hR p)
  | read i st len => exact reply_tame hR _ (coreFileRead_tame i st len)
  | stat i => exact reply_tame hR _ (coreStat_tame hR i)
  | fileSize i => exact reply_tame hR _ (coreFileSizeGet_tame hR i)
  | _ => exact hl.elim

theorem discardAll_same (v : Vol) : Same v v.discardAll := ⟨rfl, rfl, rfl, id, rfl, fun _ h _ => h⟩

theorem mountMaster_tame : Tame Same (mountMaster c) (RedFs.mountMaster c) := by
  refine Tame.ioNone same_keeps (.lift fun v => ?_)
  show Same v _
  unfold RedFs.mountMaster
  simp only [run_bind, run_get]
  cases v.blk 0 with
  | master m =>
    dsimp only
    split
    · exact ⟨rfl, rfl, rfl, id, rfl, fun _ h _ => h⟩
    · exact Same.refl _
  | _ => exact Same.refl _

theorem mountMetaroot_same (ro : Bool) (v : Vol) : Same v (RedFs.mountMetaroot c ro v).2 := by
  unfold RedFs.mountMetaroot
  simp only [run_bind, run_get]
  cases mrSelect c (v.onDisk 1) (v.onDisk 2) with
  | none => exact Same.refl _
  | some x => exact ⟨rfl, rfl, rfl, fun _ => rfl, rfl, fun _ _ h => by cases h⟩

theorem mountMetaroot_junk (ro : Bool) (v : Vol) (x : Bool → Metaroot) : Same { v with mr := x } (RedFs.mountMetaroot c ro v).2 := by
  unfold RedFs.mountMetaroot
  simp only [run_bind, run_get]
  cases mrSelect c (v.onDisk 1) (v.onDisk 2) with
  | none => exact ⟨rfl, rfl, rfl, id, rfl, fun _ h _ => h⟩
  | some x => exact ⟨rfl, rfl, rfl, fun _ => rfl, rfl, fun _ _ h => by cases h⟩

theorem mountMetaroot_tame (ro : Bool) : Tame Same (mountMetaroot c ro) (RedFs.mountMetaroot c ro) := by
  have g : ∀ (d : Dev) (n : Nat) (v : Vol), Same v { v with mr := d.junkMr n } := fun _ _ _ => ⟨rfl, rfl, rfl, id, rfl, fun _ h _ => h⟩
  refine Tame.io same_keeps g (Tame.io same_keeps g (.lift fun v => mountMetaroot_same ro v) fun d n v => mountMetaroot_junk ro v _) fun d n v => mountMetaroot_junk ro v _

theorem volRollback_tame : Tame Same (volRollback c) (RedFs.volRollback c) := by
  have hR := same_keeps
  refine Tame.bind hR (.get hR) fun v => Tame.ite (fun _ => ?_) fun _ => .pure hR _
  exact Tame.criticalAssert hR (Tame.bind hR (.modify fun v => discardAll_same v) fun _ => Tame.bind hR mountMaster_tame fun _ =>
    Tame.bind hR (mountMetaroot_tame _) fun _ => .modify fun v => ⟨rfl, rfl, rfl, id, rfl, fun _ h _ => h⟩)

theorem rollback_tame : Tame Same (execM c .rollback) (exec c .rollback) :=
  reply_tame same_keeps _ (whenRw_tame same_keeps volRollback_tame)

theorem mod_io (hc : c.SysOk) {k : Call} {f : α → Reply} {ev : Event} {mI : IVM α} {m : VM α} {R : Files → Except Err α → Files → Prop} {W : Nat → Prop}
    (hm : OpSpec c (Sound c) m R W) (hR : Clean R) (hT : TameE (Le c) mI m) {v : Vol} (h : Inv c (Sound c) v)
    {d : Dev} (hx : Tame (Le c) mI m ∨ (v.mounted = true → v.readOnly = false → v.on .volfull = true → (m v).1 ≠ .error .enospc))
    (h1 : execM c k = reply f (modifyingOp ev mI)) (h2 : ∀ f1 f2, execF c f1 f2 k = RedFs.reply f (modifyingOpF f1 f2 ev m)) (hev : k.event = some ev) :
    Outcome c d k v := by
  have h3 : exec c k = RedFs.reply f (RedFs.modifyingOp ev m) := by rw [← execF_none, h2, modifyingOpF_none]
  cases hro : v.readOnly
  swap
  · left
    rw [execIo_of (s := ⟨v, d, 0, false⟩) (r := .error .erofs) (by rw [h1]; exact reply_runI (r := .error .erofs) (whenRw_roI h.mounted hro _)), h2]
    exact (reply_run (r := .error .erofs) (whenRw_ro h.mounted hro)).symm
  · rcases modify_io hc hm hR hT h hro (d := d) (ev := ev) (hx.imp_right fun g => g h.mounted hro) with ⟨n, b, g⟩ | ⟨e, s', g, g1, g2, g3⟩
    · left
      have g' := reply_runI (f := f) g
      rw [← h1] at g'
      replace g' := execIo_of g'
      rw [g', h2]
      exact (reply_run (f := f) (m := modifyingOpF d.full d.event ev m) (v := v) rfl).symm
    · right
      refine ⟨e, s'.st, execIo_of (by rw [h1]; exact reply_runI g), ?_, g2, ?_⟩
      · refine g1.imp_right fun hh => ?_
        rw [h3]
        rcases hx : RedFs.modifyingOp ev m v with ⟨r, w⟩
        rw [hx] at hh
        dsimp only at hh; subst hh
        rw [reply_run hx]; rfl
      · rcases g3 with g3 | ⟨a, b, d⟩
        · exact Or.inl g3
        · exact Or.inr ⟨a, hro, ⟨ev, hev⟩, b, d⟩

theorem mount_mounted {d : Dev} {ro : Bool} (h : v.mounted = true) : execIo c d (.mount ro) v = (if c.posix then .error .ebusy else .ok .unit, v) := by
  have g1 : apiMount c ro ⟨v, d, 0, false⟩ = (if c.posix then .error .ebusy else .ok (), ⟨v, d, 0, false⟩) := by
    have g2 : apiMount c ro ⟨v, d, 0, false⟩ = (if v.mounted then (if c.posix then M.fail .ebusy else Pure.pure ()) else volMount c ro : IVM Unit) ⟨v, d, 0, false⟩ := rfl
    rw [g2, h, if_pos rfl]
    cases c.posix <;> rfl
  rw [execIo_of (k := .mount ro) (show execM c (.mount ro) _ = _ from reply_runI (f := fun _ => Reply.unit) g1)]
  cases c.posix <;> rfl

theorem exec_io (hc : c.SysOk) (h : Inv c (Sound c) v) {k : Call} (hk : k.Ok c) {d : Dev} (hr : Roomy c k v) : Outcome c d k v := by
  have ok := hc.ok
  cases k with
  | create p name isDir =>
    have hs := coreCreateSub_spec ok (hc.posixOk hk.1) p hk.2 isDir
    rw [← Sound.posix hk.1] at hs
    exact mod_io hc hs (create_clean _ _ _) (coreCreateSub_tameE p name isDir) h (Or.inr hr) rfl (fun _ _ => rfl) rfl
  | link p name ino =>
    have hs := coreLinkSub_spec ok (hc.posixOk hk.1) p hk.2 ino
    rw [← Sound.posix hk.1] at hs
    exact mod_io hc hs (link_clean _ _ _) (coreLinkSub_tame p name ino).toE h (Or.inl (coreLinkSub_tame p name ino)) rfl (fun _ _ => rfl) rfl
  | unlink p name =>
    have hs := coreUnlinkSub_spec ok (hc.posixOk hk.1) p hk.2
    rw [← Sound.posix hk.1] at hs
    exact mod_io hc hs (unlink_clean _ _) (coreUnlinkSub_tame p name).toE h (Or.inl (coreUnlinkSub_tame p name)) rfl (fun _ _ => rfl) rfl
  | rename p name p' name' =>
    have hs := coreRenameSub_spec ok (hc.posixOk hk.1) hk.2.1 hk.2.2 (ps := p) (pd := p')
    rw [← Sound.posix hk.1] at hs
    exact mod_io hc hs (rename_clean _ _ _ _) (coreRenameSub_tame p name p' name').toE h (Or.inl (coreRenameSub_tame p name p' name')) rfl (fun _ _ => rfl) rfl
  | write ino start len buf =>
    exact mod_io hc (coreFileWriteSub_spec ok sound_data ino start len buf) (write_clean _ _ _ _) (coreFileWriteSub_tame ino start len buf).toE h
      (Or.inl (coreFileWriteSub_tame ino start len buf)) rfl (fun _ _ => rfl) rfl
  | truncate ino size =>
    exact mod_io hc (coreFileTruncateSub_spec ok sound_data ino size) (truncate_clean _ _) (coreFileTruncateSub_tame ino size).toE h
      (Or.inl (coreFileTruncateSub_tame ino size)) rfl (fun _ _ => rfl) rfl
  | rollback =>
    rcases (rollback_tame (c := c)).run ⟨v, d, 0, false⟩ rfl with ⟨s', g, n, rfl⟩ | ⟨s', g, H⟩
    · left; rw [execIo_of g]; rfl
    · exact Or.inr ⟨_, _, execIo_of g, Or.inl rfl, H.fwd.mask, Or.inl ⟨Same.broken ok H.fwd h H.ro, H.fwd.hist⟩⟩
  | mount ro =>
    left
    rw [mount_mounted h.mounted]
    show _ = RedFs.reply _ (RedFs.apiMount c ro) v
    unfold RedFs.reply RedFs.apiMount; simp only [run_bind, run_get, h.mounted]
    cases c.posix <;> rfl
  | transact => exact Or.inl rfl
  | unmount => exact Or.inl rfl
  | statfs => exact Or.inl rfl
  | maskSet => exact Or.inl rfl
  | maskGet => exact Or.inl rfl
  | lookup => exact look_io hc h hk trivial (looks_tame trivial)
  | dirRead => exact look_io hc h hk trivial (looks_tame trivial)
  | dirParent => exact look_io hc h hk trivial (looks_tame trivial)
  | read => exact look_io hc h hk trivial (looks_tame trivial)
  | stat => exact look_io hc h hk trivial (looks_tame trivial)
  | fileSize => exact look_io hc h hk trivial (looks_tame trivial)

/-! ### unmounted volumes -/

theorem whenMounted_offI {s : IS Vol} (hm : s.st.mounted = false) (m : IVM α) : whenMounted m s = (.error .einval, s) := by
  unfold whenMounted; show (if (!s.st.mounted) = true then _ else m : IVM α) s = _
  rw [hm]; rfl

theorem off_io {k : Call} {d : Dev} (hm : v.mounted = false) (hk : ∀ ro, k ≠ .mount ro) : execIo c d k v = exec c k v := by
  have a : ∀ {α : Type} {f : α → Reply} {mI : IVM α} {m : VM α}, execM c k = reply f (whenRw mI) → exec c k = RedFs.reply f (RedFs.whenRw m) →
      execIo c d k v = exec c k v := by
    intro α f mI m h1 h2
    have g := reply_runI (f := f) (whenRw_offI (s := ⟨v, d, 0, false⟩) hm mI)
    rw [← h1] at g
    rw [execIo_of g, h2, reply_run (whenRw_off hm)]
  have b : ∀ {α : Type} {f : α → Reply} {mI : IVM α} {m : VM α}, execM c k = reply f (whenMounted mI) → exec c k = RedFs.reply f (RedFs.whenMounted m) →
      execIo c d k v = exec c k v := by
    intro α f mI m h1 h2
    have g := reply_runI (f := f) (whenMounted_offI (s := ⟨v, d, 0, false⟩) hm mI)
    rw [← h1] at g
    rw [execIo_of g, h2, reply_run (whenMounted_off hm)]
  cases k with
  | create => exact a rfl rfl
  | link => exact a rfl rfl
  | unlink => exact a rfl rfl
  | rename => exact a rfl rfl
  | write => exact a rfl rfl
  | truncate => exact a rfl rfl
  | rollback => exact a rfl rfl
  | lookup => exact b rfl rfl
  | dirRead => exact b rfl rfl
  | dirParent => exact b rfl rfl
  | read => exact b rfl rfl
  | stat => exact b rfl rfl
  | fileSize => exact b rfl rfl
  | mount ro => exact absurd rfl (hk ro)
  | transact =>
    show execF c d.full d.event .transact v = _
    exact (reply_run (r := .error .einval) (whenRw_off hm)).trans (reply_run (r := .error .einval) (whenRw_off hm)).symm
  | unmount =>
    show RedFs.reply _ (apiUnmountF c d.event) v = RedFs.reply _ (apiUnmount c) v
    have h1 : apiUnmountF c d.event v = (if c.posix then M.fail .einval else Pure.pure () : VM Unit) v := by
      show (if v.mounted = true then coreUnmountF d.event else _ : VM Unit) v = _
      rw [hm]; rfl
    have h2 : apiUnmount c v = (if c.posix then M.fail .einval else Pure.pure () : VM Unit) v := by
      show (if v.mounted = true then coreUnmount else _ : VM Unit) v = _
      rw [hm]; rfl
    unfold RedFs.reply; rw [run_bind, run_bind, h1, h2]
  | statfs => rfl
  | maskSet => rfl
  | maskGet => rfl

/-- Nothing has happened to an unmounted volume. -/
structure Still (v w : Vol) : Prop where
  base : w.base = v.base
  hist : w.hist = v.hist
  dirty : w.dirty = v.dirty
  mounted : w.mounted = v.mounted
  mask : w.transMask = v.transMask
  almost : w.almostFree = v.almostFree

theorem still_keeps : Keeps Still :=
  ⟨fun v => ⟨rfl, rfl, rfl, rfl, rfl, rfl⟩,
    fun h1 h2 => ⟨h2.1.trans h1.1, h2.2.trans h1.2, h2.3.trans h1.3, h2.4.trans h1.4, h2.5.trans h1.5, h2.6.trans h1.6⟩,
    fun _ _ => ⟨rfl, rfl, rfl, rfl, rfl, rfl⟩, fun _ _ => ⟨rfl, rfl, rfl, rfl, rfl, rfl⟩⟩

theorem mountMaster_still : Tame Still (mountMaster c) (RedFs.mountMaster c) := by
  refine Tame.ioNone still_keeps (.lift fun v => ?_)
  show Still v _
  unfold RedFs.mountMaster
  simp only [run_bind, run_get]
  cases v.blk 0 with
  | master m =>
    dsimp only
    split <;> exact ⟨rfl, rfl, rfl, rfl, rfl, rfl⟩
  | _ => exact ⟨rfl, rfl, rfl, rfl, rfl, rfl⟩

theorem ioOr_ok {g : Dev → Nat → Vol → Vol} {s : IS Vol} (h : s.dev.fails s.n = false) : ioOr g s = (.ok (), { s with n := s.n + 1 }) := by
  unfold ioOr; rw [if_neg (by simp [h])]
theorem ioOr_bad {g : Dev → Nat → Vol → Vol} {s : IS Vol} (h : s.dev.fails s.n = true) :
    ioOr g s = (.error .eio, { s with st := { g s.dev s.n s.st with readOnly := true }, n := s.n + 1, bad := true }) := by
  unfold ioOr; rw [if_pos h]

theorem mount_io (ro : Bool) (d : Dev) (hm : v.mounted = false) : execIo c d (.mount ro) v = exec c (.mount ro) v ∨
    ∃ w, execIo c d (.mount ro) v = (.error .eio, w) ∧ Still v w ∧ w.blk = w.onDisk := by
  have e1 : apiMount c ro ⟨v, d, 0, false⟩ = volMount c ro ⟨v, d, 0, false⟩ := by
    have g2 : apiMount c ro ⟨v, d, 0, false⟩ = (if v.mounted then (if c.posix then M.fail .ebusy else Pure.pure ()) else volMount c ro : IVM Unit) ⟨v, d, 0, false⟩ := rfl
    rw [g2, hm]; rfl
  have e2 : RedFs.apiMount c ro v = RedFs.volMount c ro v := by
    unfold RedFs.apiMount; simp only [run_bind, run_get, hm]; rfl
  have fin : ∀ (r : Except Err Unit) (s : IS Vol), volMount c ro ⟨v, d, 0, false⟩ = (r, s) → execIo c d (.mount ro) v = (r.map fun _ => .unit, s.st) := by
    intro r s h
    exact execIo_of (reply_runI (f := fun _ => .unit) (e1.trans h))
  have fin2 : exec c (.mount ro) v = (((RedFs.volMount c ro v).1).map fun _ => .unit, (RedFs.volMount c ro v).2) :=
    reply_run (f := fun _ => .unit) (e2.trans rfl)
  have vI : volMount c ro ⟨v, d, 0, false⟩ = (match (do mountMaster c; mountMetaroot c ro : IVM Unit) ⟨v, d, 0, false⟩ with
      | (.ok (), s) => (.ok (), s)
      | (.error e, s) => (.error e, { s with st := s.st.discardAll })) := by
    unfold volMount
    rw [run_bind, run_attempt]
    generalize (do mountMaster c; mountMetaroot c ro : IVM Unit) ⟨v, d, 0, false⟩ = x
    rcases x with ⟨_ | _, _⟩ <;> rfl
  have vS : RedFs.volMount c ro v = (match (do RedFs.mountMaster c; RedFs.mountMetaroot c ro : VM Unit) v with
      | (.ok (), s) => (.ok (), s)
      | (.error e, s) => (.error e, s.discardAll)) := by
    unfold RedFs.volMount
    rw [run_bind, run_attempt]
    generalize (do RedFs.mountMaster c; RedFs.mountMetaroot c ro : VM Unit) v = x
    rcases x with ⟨_ | _, _⟩ <;> rfl
  have bad : ∀ s : IS Vol, (do mountMaster c; mountMetaroot c ro : IVM Unit) ⟨v, d, 0, false⟩ = (.error .eio, s) → Still v s.st →
      ∃ w, execIo c d (.mount ro) v = (.error .eio, w) ∧ Still v w ∧ w.blk = w.onDisk := by
    intro s h hs
    refine ⟨s.st.discardAll, fin (.error .eio) { s with st := s.st.discardAll } (by rw [vI, h]), ⟨hs.1, hs.2, hs.3, hs.4, hs.5, hs.6⟩, rfl⟩
  rcases (mountMaster_still (c := c)).run ⟨v, d, 0, false⟩ rfl with ⟨s', g, n, rfl⟩ | ⟨s', g, H⟩
  · have st := (mountMaster_still (c := c)).mono v
    change Still v _ at st
    rcases hmm : RedFs.mountMaster c v with ⟨e | a, v1⟩
    · left
      dsimp only at g
      rw [hmm] at g
      rw [fin (.error e) ⟨v1.discardAll, d, n, false⟩ (by rw [vI, run_bind, g]), fin2, vS, run_bind, hmm]
    · dsimp only at g
      rw [hmm] at g st
      dsimp only at g st
      cases h1 : d.fails n
      · cases h2 : d.fails (n + 1)
        · left
          have gm : mountMetaroot c ro ⟨v1, d, n, false⟩ = ((RedFs.mountMetaroot c ro v1).1, ⟨(RedFs.mountMetaroot c ro v1).2, d, n + 2, false⟩) := by
            unfold mountMetaroot
            rw [run_bind, ioOr_ok h1]
            dsimp only
            rw [run_bind, ioOr_ok h2]
            rfl
          rcases hmr : RedFs.mountMetaroot c ro v1 with ⟨e | a, v2⟩
          · rw [hmr] at gm
            rw [fin (.error e) ⟨v2.discardAll, d, n + 2, false⟩ (by rw [vI, run_bind, g]; dsimp only; rw [gm]), fin2, vS, run_bind, hmm]
            dsimp only; rw [hmr]
          · rw [hmr] at gm
            rw [fin (.ok ()) ⟨v2, d, n + 2, false⟩ (by rw [vI, run_bind, g]; dsimp only; rw [gm]), fin2, vS, run_bind, hmm]
            dsimp only; rw [hmr]
        · right
          refine bad ⟨{ v1 with mr := d.junkMr (n + 1), readOnly := true }, d, n + 2, true⟩ ?_ ⟨st.1, st.2, st.3, st.4, st.5, st.6⟩
          rw [run_bind, g]; dsimp only
          unfold mountMetaroot
          rw [run_bind, ioOr_ok h1]
          dsimp only
          rw [run_bind, ioOr_bad h2]
      · right
        refine bad ⟨{ v1 with mr := d.junkMr n, readOnly := true }, d, n + 1, true⟩ ?_ ⟨st.1, st.2, st.3, st.4, st.5, st.6⟩
        rw [run_bind, g]; dsimp only
        unfold mountMetaroot
        rw [run_bind, ioOr_bad h1]
  · exact Or.inr (bad s' (by rw [run_bind, g]) H.fwd)

/-! ### broken volumes -/

/-- Only whether the volume is read-only has changed. -/
def Only (v w : Vol) : Prop := ∃ b, w = { v with readOnly := b }

theorem only_keeps : Keeps Only :=
  ⟨fun v => ⟨v.readOnly, rfl⟩, fun {u v w} ⟨a, ha⟩ ⟨b, hb⟩ => ⟨b, by rw [hb, ha]⟩, fun v b => ⟨b, rfl⟩, fun v b => ⟨v.readOnly, rfl⟩⟩

theorem coreFileRead_roI {s : IS Vol} (hr : s.st.readOnly = true) (i p l : Nat) : coreFileRead c i p l s = (whenMounted do
      let ci ← inodeMount c i .file false
      let (bs, _) ← runCi ci (dataRead c p l)
      Pure.pure bs : IVM _) s := by
  unfold coreFileRead whenMounted
  show (if (!s.st.mounted) = true then _ else _ : IVM _) s = (if (!s.st.mounted) = true then _ else _ : IVM _) s
  cases s.st.mounted
  · rfl
  · show (inodeMount c i .file (c.atime && decide (0 < l) && !s.st.readOnly) >>= _) s = _
    rw [hr, Bool.not_true, Bool.and_false]; rfl

theorem coreDirRead_roI {s : IS Vol} (hr : s.st.readOnly = true) (i p : Nat) : coreDirRead c i p s = (whenMounted do
      let ci ← inodeMount c i .dir false
      let (r, _) ← runCi ci (dirRead c p)
      Pure.pure r : IVM _) s := by
  unfold coreDirRead whenMounted
  show (if (!s.st.mounted) = true then _ else _ : IVM _) s = (if (!s.st.mounted) = true then _ else _ : IVM _) s
  cases s.st.mounted
  · rfl
  · show (inodeMount c i .dir false >>= _) s = (inodeMount c i .dir false >>= _) s
    rw [run_bind, run_bind]
    rcases inodeMount c i .dir false s with ⟨_ | ci, s1⟩
    · rfl
    · dsimp only
      rw [run_bind, run_bind]
      rcases runCi ci (dirRead c p) s1 with ⟨_ | ⟨r, ci⟩, s2⟩
      · rfl
      · dsimp only
        rw [if_neg (by rw [hr]; simp)]

theorem coreDirRead_ro {u : Vol} (hu : u.readOnly = true) (p pos : Nat) : RedFs.coreDirRead c p pos u = (RedFs.whenMounted do
        let ci ← RedFs.inodeMount c p .dir false
        let (r, _) ← RedFs.runCi ci (RedFs.dirRead c pos)
        Pure.pure r : VM _) u := by
  unfold RedFs.coreDirRead RedFs.whenMounted
  simp only [run_bind, run_get]
  cases u.mounted
  · rfl
  · simp only [Bool.not_true, Bool.false_eq_true, if_false, run_bind, run_get, hu]
    rcases RedFs.inodeMount c p .dir false u with ⟨_ | a, u'⟩
    · rfl
    · dsimp only
      rcases RedFs.runCi a (RedFs.dirRead c pos) u' with ⟨_ | b, u''⟩
      · rfl
      · dsimp only; rw [if_neg (by simp)]

theorem coreFileRead_ro {u : Vol} (hu : u.readOnly = true) (i p l : Nat) : RedFs.coreFileRead c i p l u = (RedFs.whenMounted do
      let ci ← RedFs.inodeMount c i .file false
      let (bs, _) ← RedFs.runCi ci (RedFs.dataRead c p l)
      Pure.pure bs : VM _) u := by
  unfold RedFs.coreFileRead RedFs.whenMounted
  simp only [run_bind, run_get]
  cases u.mounted
  · rfl
  · simp only [Bool.not_true, Bool.false_eq_true, if_false, run_bind, run_get, hu, Bool.and_false]

/-- On a read-only volume queries change nothing. -/
theorem look_ro {k : Call} {d : Dev} (hl : Looks k) (hr : v.readOnly = true) : ∃ r, execIo c d k v = (r, v) ∧ (r = .error .eio ∨ r = (exec c k v).1) := by
  have hR := only_keeps
  have key : ∀ {α : Type} {f : α → Reply} {mI : IVM α} {m : VM α}, Tame Only mI m → execM c k ⟨v, d, 0, false⟩ = reply f mI ⟨v, d, 0, false⟩ →
      exec c k v = RedFs.reply f m v → ∃ r, execIo c d k v = (r, v) ∧ (r = .error .eio ∨ r = (exec c k v).1) := by
    intro α f mI m hT h1 h2
    rcases (reply_tame hR f hT).run ⟨v, d, 0, false⟩ rfl with ⟨s', g, n, rfl⟩ | ⟨s', g, H⟩
    · obtain ⟨b, hb⟩ := (reply_tame hR f hT).mono v
      rw [← h1] at g
      dsimp only at g
      rw [← h2] at g
      refine ⟨_, ?_, Or.inr rfl⟩
      rw [execIo_of g]
      obtain ⟨r, e, _⟩ := rd_exec (c := c) hl v v ⟨fun _ => Or.inl rfl, rfl, fun _ => rfl, rfl, hr, hr⟩
      rw [e]
    · rw [← h1] at g
      refine ⟨.error .eio, ?_, Or.inl rfl⟩
      rw [execIo_of g]
      obtain ⟨b, hb⟩ := H.fwd
      have hb : s'.st = { v with readOnly := b } := hb
      have h3 : s'.st.readOnly = true := H.ro
      rw [hb] at h3 ⊢
      have h3 : b = true := h3
      rw [h3, ← hr]
  cases k with
  | lookup p name => exact key (coreLookup_tame hR p name) rfl rfl
  | dirParent p => exact key (coreDirParent_tame hR p) rfl rfl
  | stat i => exact key (coreStat_tame hR i) rfl rfl
  | fileSize i => exact key (coreFileSizeGet_tame hR i) rfl rfl
  | dirRead p pos =>
    have t1 := inodeMount_tame0 (c := c) hR p .dir
    have t2 := dirRead_tame (c := c) hR pos
    refine key (f := fun x => .entry x.1 x.2) (mI := (whenMounted do
      let ci ← inodeMount c p .dir false
      let (r, _) ← runCi ci (dirRead c pos)
      Pure.pure r : IVM _)) (m := (RedFs.whenMounted do
      let ci ← RedFs.inodeMount c p .dir false
      let (r, _) ← RedFs.runCi ci (RedFs.dirRead c pos)
      Pure.pure r : VM _)) (whenMounted_tame hR (by tm)) ?_ ?_
    · show reply _ (coreDirRead c p pos) _ = _
      unfold reply; rw [run_bind, run_bind, coreDirRead_roI hr]
    · show RedFs.reply _ (RedFs.coreDirRead c p pos) _ = _
      unfold RedFs.reply; rw [run_bind, run_bind, coreDirRead_ro hr]
  | read i st len =>
    have t1 := inodeMount_tame0 (c := c) hR i .file
    have t2 := dataRead_tame (c := c) hR st len
    refine key (f := .bytes) (mI := (whenMounted do
      let ci ← inodeMount c i .file false
      let (bs, _) ← runCi ci (dataRead c st len)
      Pure.pure bs : IVM _)) (m := (RedFs.whenMounted do
      let ci ← RedFs.inodeMount c i .file false
      let (bs, _) ← RedFs.runCi ci (RedFs.dataRead c st len)
      Pure.pure bs : VM _)) (whenMounted_tame hR (by tm)) ?_ ?_
    · show reply _ (coreFileRead c i st len) _ = _
      unfold reply; rw [run_bind, run_bind, coreFileRead_roI hr]
    · show RedFs.reply _ (RedFs.coreFileRead c i st len) _ = _
      unfold RedFs.reply; rw [run_bind, run_bind, coreFileRead_ro hr]
  | _ => exact hl.elim


/-! ### the refinement -/

theorem Still.blank (h : Still v w) (hb : w.blk = w.onDisk) (hv : Blank c v) : Blank c w := by
  obtain ⟨D, hB, hno⟩ := hv
  obtain ⟨b1, b2, b3⟩ := hB.conn
  refine ⟨D, ⟨⟨?_, h.base.trans b2, h.dirty.trans b3⟩, h.hist.trans hB.hist, h.mounted.trans hB.mounted, h.almost.trans hB.almost⟩, hno⟩
  rw [hb]; funext x; unfold Vol.onDisk; rw [h.dirty, b3, h.base, b2]; rfl

theorem Still.abs {s : Sys} (h : Still v w) (hb : w.blk = w.onDisk) (hm : v.mounted = false) (ha : Abs c v s) : Abs c w s := by
  cases ha with
  | up _ hi => rw [hi.mounted] at hm; cases hm
  | off h1 h2 h3 h4 => exact .off h1 (Same.off h.base h.hist h.dirty (h.mounted.trans hm) hb h2) (by rw [h.base]; exact h3) (by rw [h.mask]; exact h4)
  | none h1 h2 h3 h4 => exact .none h1 (h.blank hb h2) h3 (by rw [h.mask]; exact h4)

theorem refines (hc : c.SysOk) {s : Spec.SysIo} (ha : AbsIo c v s) {k : Call} (hk : k.Ok c) {d : Dev} (hr : Roomy c k v)
    (hu : ∀ L, s.mode = .torn L → k ≠ .unmount) : SimIo c d k v s := by
  have nop : ∀ r, execIo c d k v = (r, v) → Spec.DoesIo c k s r s [] → SimIo c d k v s :=
    fun r h1 h2 => ⟨r, v, s, [], h1, h2, ha, List.mem_append_left _ (List.mem_cons_self ..), fun L h => Or.inl h, [], rfl, fun e he => by cases he⟩
  -- calls on a read-only volume which do not look at files
  have quiet : v.mounted = true → v.readOnly = true → s.sys.mounted = true → s.sys.ro = true → s.sys.mask = v.transMask → s.mode ≠ .fine →
      Spec.Alters k ∨ Spec.Handles k → SimIo c d k v s := by
    intro hvm hvr hm hro hmk hmode hkk
    obtain ⟨s, md⟩ := s
    have a : ∀ {α : Type} {f : α → Reply} {mI : IVM α}, Spec.Alters k → execM c k = reply f (whenRw mI) → SimIo c d k v ⟨s, md⟩ := by
      intro α f mI h0 h1
      have g := reply_runI (f := f) (whenRw_roI (s := ⟨v, d, 0, false⟩) hvm hvr mI)
      rw [← h1] at g
      exact nop _ (execIo_of g) (.refuses hmode h0)
    cases k with
    | create => exact a trivial rfl
    | link => exact a trivial rfl
    | unlink => exact a trivial rfl
    | rename => exact a trivial rfl
    | write => exact a trivial rfl
    | truncate => exact a trivial rfl
    | rollback => exact a trivial rfl
    | transact =>
      refine nop (.error .erofs) ?_ (.refuses hmode trivial)
      show execF c d.full d.event .transact v = _
      exact reply_run (r := .error .erofs) (whenRw_ro hvm hvr)
    | maskGet =>
      refine nop (.ok (.num v.transMask)) ?_ (.handles trivial ⟨rfl, rfl, ?_⟩)
      · show exec c .maskGet v = _
        refine reply_run (f := .num) (r := .ok v.transMask) ?_
        unfold coreTransMaskGet; rw [RedFs.whenMounted_run hvm]; rfl
      · rw [if_neg (by rw [hm]; simp)]; show Except.ok (Reply.num v.transMask) = _; rw [← hmk]
    | maskSet mask =>
      by_cases hmask : mask &&& c.transactMask = mask
      · refine nop (.error .erofs) ?_ (.handles trivial ⟨rfl, ?_⟩)
        · show exec c (.maskSet mask) v = _
          refine reply_run (r := .error .erofs) ?_
          unfold coreTransMaskSet; simp only [run_bind, run_get, hvm, hmask, hvr]; simp
        · rw [if_neg (by rw [hm]; simp [hmask]), if_pos hro]; exact ⟨rfl, rfl⟩
      · refine nop (.error .einval) ?_ (.handles trivial ⟨rfl, ?_⟩)
        · show exec c (.maskSet mask) v = _
          refine reply_run (r := .error .einval) ?_
          unfold coreTransMaskSet; simp only [run_bind, run_get, hvm]; simp [hmask]
        · rw [if_pos (Or.inr hmask)]; exact ⟨rfl, rfl⟩
    | mount ro =>
      refine nop (if c.posix then .error .ebusy else .ok .unit) ?_ (.handles trivial ⟨rfl, ?_⟩)
      · rw [mount_mounted hvm]
      · rw [if_pos hm]; exact ⟨rfl, rfl⟩
    | _ => exact (hkk.elim id id).elim
  cases ha with
  | @fine s ha =>
    cases hm : v.mounted
    · by_cases hmt : ∃ ro, k = .mount ro
      · obtain ⟨ro, rfl⟩ := hmt
        rcases mount_io (c := c) ro d hm with h | ⟨w, h, hs, hb⟩
        · exact .works hc ha hk h
        · exact ⟨_, w, ⟨s, .fine⟩, [], h, .mountFails (by rw [ha.mounted_iff]; exact hm) rfl, .fine (hs.abs hb hm ha), List.mem_append_left _ (List.mem_cons_self ..),
            fun L h => (by cases h), [], hs.hist, fun e he => by cases he⟩
      · exact .works hc ha hk (off_io hm fun ro h => hmt ⟨ro, h⟩)
    · obtain ⟨hi, h1, h2, h3, h4⟩ := ha.inv (ha.mounted_iff.trans hm)
      have hmt : s.mounted = true := ha.mounted_iff.trans hm
      have hon : ∀ {ev : Event}, v.on ev = true → s.on ev = true := by
        intro ev b0; unfold Sys.on; unfold Vol.on at b0; rw [h4]; exact b0
      obtain ⟨r, u, s', tr', q1, q2, q3, _⟩ := exec_sim hc ha hk
      rcases exec_io hc hi hk (d := d) hr with h | ⟨e, v', h, H⟩
      · rcases exec_fault hc hi hk d.full d.event with g | ⟨v', S, g, C, hrw, G⟩
        · exact .works hc ha hk (h.trans g)
        · by_cases hnc : d.Commits
          · refine .works hc ha hk (h.trans ?_)
            rw [hnc.1, hnc.2, execF_none]
          obtain ⟨new, hn, hrec⟩ := C.recov
          have key : ∀ (L : List Files), S = s.disk :: L.map some → Spec.DoesIo c k ⟨s, .fine⟩ (.error .eio) ⟨{ s with ro := true, now := files c v' }, .torn L⟩ L →
              SimIo c d k v ⟨s, .fine⟩ := by
            intro L hS hdo
            refine ⟨_, v', _, L, h.trans g, hdo, .torn hmt rfl (h4.trans C.mask.symm) rfl C.mounted C.readOnly C.reads ?_, List.mem_append_left _ (List.mem_cons_self ..),
              fun L' h => Or.inr ⟨hnc, ?_⟩, new, hn, fun e he => ?_⟩
            · have := hrec _ (List.mem_cons_self ..); rw [hS] at this; exact this
            · cases h; rfl
            · have := hrec _ (List.mem_cons_of_mem _ he); rw [hS] at this; exact this
          rcases G with ⟨g1, g2, g3⟩ | ⟨⟨gu, ev, g1, g1'⟩, ⟨a, u', g2, g2'⟩, g3⟩
          · refine key [s.now] (by rw [g3, h1, h2]; rfl) (.tears hmt (h3.trans hrw) (Or.inl ⟨g1.trans h1.symm, ?_, rfl⟩))
            exact g2.imp_right (Or.imp (fun x => ⟨x.1, hon x.2⟩) hon)
          · rw [g2] at q1
            obtain ⟨rfl, rfl⟩ := Prod.mk.inj q1
            have hnow : files c v' = s'.now := by
              rw [g2']
              exact ((q3.inv ((q2.mounted gu (Or.inl hmt)).trans hmt)).2.1).symm
            rcases g3 with g3 | ⟨g3, g4⟩
            · exact key [files c v'] (by rw [g3, h2]; rfl) (.tears hmt (h3.trans hrw) (Or.inr ⟨⟨ev, g1, hon g1'⟩, ⟨a, s', tr', q2, hnow⟩, Or.inl rfl⟩))
            · exact key [s.now, files c v'] (by rw [g4, h2, h1]; rfl) (.tears hmt (h3.trans hrw) (Or.inr ⟨⟨ev, g1, hon g1'⟩, ⟨a, s', tr', q2, hnow⟩, Or.inr ⟨hon g3, rfl⟩⟩))
      · have herr : e = .eio ∨ ∃ s' tr', Spec.Does c k s (.error e) s' tr' := by
          refine H.err.imp_right fun g => ?_
          rw [q1] at g
          dsimp only at g; subst g
          exact ⟨s', tr', q2⟩
        rcases H.broken with ⟨b1, b2⟩ | ⟨b0, bro, bev, b1, new, b2, b3⟩
        · refine ⟨_, v', _, [], h, .fails (now := s.now) hmt herr (Or.inl rfl), ?_, List.mem_append_left _ (List.mem_cons_self ..), fun L h => (by cases h), [], b2,
            fun e he => by cases he⟩
          exact .broken hmt rfl (h4.trans H.mask.symm) h2 b1
        · refine ⟨_, v', _, [s.now], h, .fails (now := s.now) hmt herr (Or.inr ⟨rfl, hon b0, h3.trans bro, bev⟩), ?_,
            List.mem_append_right _ (List.mem_cons_self ..), fun L h => (by cases h), new, b2, fun e he => ?_⟩
          · exact .broken hmt rfl (h4.trans H.mask.symm) (congrArg some h1) b1
          · show Recov c e (s.disk :: [some s.now]); rw [h1, h2]; exact b3 e he
  | @broken s F hm hro hmk hdk hB =>
    have b : Looks k → Spec.Inquires k → SimIo c d k v ⟨s, .broken⟩ := by
      intro h0 h1
      obtain ⟨r, g, _⟩ := look_ro (c := c) (d := d) h0 hB.ro
      exact nop _ g (.answers h1)
    have q := quiet hB.mounted hB.ro hm hro hmk (by simp)
    cases k with
    | lookup => exact b trivial trivial
    | dirRead => exact b trivial trivial
    | dirParent => exact b trivial trivial
    | read => exact b trivial trivial
    | stat => exact b trivial trivial
    | fileSize => exact b trivial trivial
    | statfs =>
      refine nop (.ok (.statfs ⟨c.blockCount, v.work.freeBlocks - c.reserved, c.inodeCount, v.work.freeInodes, v.readOnly⟩)) ?_ (.answers trivial)
      · show exec c .statfs v = _
        refine reply_run (f := .statfs) (r := .ok ⟨c.blockCount, v.work.freeBlocks - c.reserved, c.inodeCount, v.work.freeInodes, v.readOnly⟩) ?_
        unfold coreVolStat; rw [RedFs.whenMounted_run hB.mounted]; rfl
    | unmount =>
      obtain ⟨m, ho, hf⟩ := hB.off
      refine ⟨.ok .unit, { v.discardAll with mounted := false }, ⟨{ s with mounted := false }, .fine⟩, [], ?_, .unmounts rfl, .fine (.off rfl ho ?_ hmk),
        List.mem_append_left _ (List.mem_cons_self ..), fun L h => (by cases h), [], rfl, fun e he => by cases he⟩
      · show execF c d.full d.event .unmount v = _
        refine reply_run (r := .ok ()) ?_
        unfold apiUnmountF
        rw [run_bind]
        show (if v.mounted = true then coreUnmountF d.event else _ : VM Unit) v = _
        rw [if_pos hB.mounted]
        unfold coreUnmountF
        rw [run_bind]
        show (if (!v.readOnly && v.transMask.testBit 0) = true then _ else _ : VM Unit) v = _
        rw [hB.ro]; rfl
      · show s.disk = _; rw [hdk, ← hf]; rfl
    | _ => exact q (by first | exact Or.inl trivial | exact Or.inr trivial)
  | @torn s L hm hro hmk hnow hvm hvr hR hrec =>
    have hs : s = ⟨true, true, v.transMask, files c v, s.disk⟩ := by
      obtain ⟨a1, a2, a3, a4, a5⟩ := s
      dsimp only at hm hro hmk hnow
      subst hm hro hmk hnow; rfl
    have b : Looks k → Asks k → Spec.Inquires k → SimIo c d k v ⟨s, .torn L⟩ := by
      intro h0 hA h1
      obtain ⟨r, g, hg⟩ := look_ro (c := c) (d := d) h0 hvr
      refine nop _ g (.reads h1 (hg.imp_right fun hg => ?_))
      obtain ⟨r', e1, e2⟩ := hR k hk hA s.disk
      rw [e1] at hg
      rw [← hs] at e2
      rw [hg]; exact e2
    have q := quiet hvm hvr hm hro hmk (by simp)
    cases k with
    | lookup => exact b trivial trivial trivial
    | dirRead => exact b trivial trivial trivial
    | dirParent => exact b trivial trivial trivial
    | read => exact b trivial trivial trivial
    | stat => exact b trivial trivial trivial
    | fileSize => exact b trivial trivial trivial
    | statfs =>
      obtain ⟨r', e1, e2⟩ := hR .statfs hk trivial s.disk
      rw [← hs] at e2
      exact nop _ (show exec c .statfs v = _ from e1) (.reads trivial (Or.inr e2))
    | unmount => exact absurd rfl (hu L rfl)
    | _ => exact q (by first | exact Or.inl trivial | exact Or.inr trivial)

end RedFs.Io
