import Verif.Lemmas.IoCall
set_option linter.unusedSimpArgs false
set_option linter.unusedVariables false
/-!
Histories on a device that may fail, and a device that does not.
-/
namespace RedFs.Io
open RedFs M HasVol Bitmap Spec

variable {c : Conf} {α β : Type} {u v v' w t : Vol}

theorem AbsIo.off {s : SysIo} (h : AbsIo c v s) (hm : v.mounted = false) : s.mode = .fine ∧ Abs c v s.sys := by
  cases h with
  | fine h => exact ⟨rfl, h⟩
  | broken _ _ _ _ h => rw [h.mounted] at hm; cases hm
  | torn _ _ _ _ h => rw [h] at hm; cases hm

theorem recov_cands {e : Epoch} {s : SysIo} {D : Nat → Blk} (h : Recov c e s.cands) (hD : CrashImage c e D) (hw : Boot w D) :
    ∃ s', Abs c w s' ∧ s'.mounted = false ∧ s'.disk ∈ s.cands := h D hD w hw

theorem cands_sub {k : Call} {d : Dev} {s s' : SysIo} {tr : List Files} (h1 : s'.sys.disk ∈ s.cands ++ tr.map some)
    (h2 : ∀ L, s'.mode = .torn L → s.mode = .torn L ∨ ¬ d.Commits ∧ L = tr) : ∀ x ∈ s'.cands, x ∈ s.cands ++ tr.map some := by
  intro x hx
  obtain ⟨s', m⟩ := s'
  rcases List.mem_cons.1 hx with rfl | hx
  · exact h1
  · cases m with
    | fine => cases hx
    | broken => cases hx
    | torn L =>
      rcases h2 L rfl with h | ⟨_, rfl⟩
      · refine List.mem_append_left _ (List.mem_cons_of_mem _ ?_)
        rw [h]; exact hx
      · exact List.mem_append_right _ hx

theorem RunIo.refines (hc : c.SysOk) {v0 v : Vol} {f : Bool} {s0 : Sys} {t : List Ev} (h0 : Abs c v0 s0) (h : RunIo c v0 t v f) :
    ∃ s, SRunIo c ⟨s0, .fine⟩ t s ∧ AbsIo c v s ∧ (f = false → ∀ L, s.mode ≠ .torn L) := by
  induction h with
  | nil => exact ⟨⟨s0, .fine⟩, .nil, .fine h0, fun _ L h => by cases h⟩
  | @call t v v' f k r d hr hk hroom hu hd he ih =>
    obtain ⟨s, h1, h2, h3⟩ := ih
    obtain ⟨r', v'', s', tr, e, d', a, b, m, _⟩ := Io.refines hc h2 hk (d := d) hroom (fun L hL => by
      cases f with
      | false => exact absurd hL (h3 rfl L)
      | true => exact hu rfl)
    rw [he] at e; obtain ⟨rfl, rfl⟩ := Prod.mk.inj e
    refine ⟨s', .call h1 d', a, fun hf L hL => ?_⟩
    rcases m L hL with h | ⟨h, _⟩
    · exact h3 hf L h
    · exact h hd
  | @callF t v v' f k r d hr hk hroom hu he ih =>
    obtain ⟨s, h1, h2, h3⟩ := ih
    obtain ⟨r', v'', s', tr, e, d', a, b, m, _⟩ := Io.refines hc h2 hk (d := d) hroom (fun L hL => by
      cases f with
      | false => exact absurd hL (h3 rfl L)
      | true => exact hu rfl)
    rw [he] at e; obtain ⟨rfl, rfl⟩ := Prod.mk.inj e
    exact ⟨s', .call h1 d', a, fun hf => by cases hf⟩
  | @crash t v v' w f k r d new e D hr hk hroom hu he hn hin hD hw ih =>
    obtain ⟨s, h1, h2, h3⟩ := ih
    obtain ⟨r', v'', s', tr, e', d', a, b, m, new', hn', hrec⟩ := Io.refines hc h2 hk (d := d) hroom (fun L hL => by
      cases f with
      | false => exact absurd hL (h3 rfl L)
      | true => exact hu rfl)
    rw [he] at e'; obtain ⟨rfl, rfl⟩ := Prod.mk.inj e'
    have hnn : new = new' := by rw [hn'] at hn; exact (List.append_cancel_right hn).symm
    subst hnn
    rcases List.mem_cons.1 hin with rfl | hin
    · obtain ⟨s1, g1, g2, g3⟩ := a.idle hc.ok D hD w hw
      exact ⟨⟨s1, .fine⟩, .crash h1 ⟨rfl, g2, r, s', tr, d', cands_sub (k := k) b m _ g3⟩, .fine g1, fun _ L h => by cases h⟩
    · obtain ⟨s1, g1, g2, g3⟩ := hrec e hin D hD w hw
      exact ⟨⟨s1, .fine⟩, .crash h1 ⟨rfl, g2, r, s', tr, d', g3⟩, .fine g1, fun _ L h => by cases h⟩
  | idleCrash hr hD hw ih =>
    obtain ⟨s, h1, h2, h3⟩ := ih
    obtain ⟨s1, g1, g2, g3⟩ := h2.idle hc.ok _ hD _ hw
    exact ⟨⟨s1, .fine⟩, .idleCrash h1 g2 g3, .fine g1, fun _ L h => by cases h⟩
  | @format t v v' f r hr ha hf ih =>
    obtain ⟨s, h1, h2, h3⟩ := ih
    cases hm : v.mounted
    · obtain ⟨hmode, h2'⟩ := h2.off hm
      obtain ⟨s, md⟩ := s
      dsimp only at hmode h2'; subst hmode; clear h2; rename' h2' => h2
      have hmi := h2.mounted_iff
      rw [hm] at hmi ha
      obtain ⟨v'', e, a, _⟩ := format_sim hc h2 hmi (by simpa using ha)
      rw [hf] at e; obtain ⟨rfl, rfl⟩ := Prod.mk.inj e
      exact ⟨_, .format h1 hmi rfl, .fine a, fun _ L h => by cases h⟩
    · have : volFormat c v = (.error .ebusy, v) := by unfold volFormat; simp only [run_bind, run_get, hm]; rfl
      rw [hf] at this; obtain ⟨rfl, rfl⟩ := Prod.mk.inj this
      exact ⟨s, .busy h1 (h2.mounted_iff.trans hm), h2, h3⟩
  | formatCrash hr ha hm hf hn hin hD hw ih =>
    obtain ⟨s, h1, h2, h3⟩ := ih
    obtain ⟨hmode, h2'⟩ := h2.off hm
    obtain ⟨s, md⟩ := s
    dsimp only at hmode h2'; subst hmode; clear h2; rename' h2' => h2
    have hmi := h2.mounted_iff; rw [hm] at hmi
    obtain ⟨v'', e, a, hc'⟩ := format_sim hc h2 hmi ha
    rw [hf] at e; obtain ⟨rfl, rfl⟩ := Prod.mk.inj e
    obtain ⟨s', g1, g2, g3⟩ := hc' _ hn _ hin _ hD _ hw
    exact ⟨_, .formatCrash h1 hmi g2 g3, .fine g1, fun _ L h => by cases h⟩
  | init hr hm ih =>
    obtain ⟨s, h1, h2, h3⟩ := ih
    obtain ⟨hmode, h2'⟩ := h2.off hm
    obtain ⟨s, md⟩ := s
    dsimp only at hmode h2'; subst hmode; clear h2; rename' h2' => h2
    have hmi := h2.mounted_iff; rw [hm] at hmi
    exact ⟨_, .init h1 hmi rfl, .fine (init_sim h2 hmi _), fun _ L h => by cases h⟩

/-! ### a device that works -/

theorem Tame.works {σ : Type} [HasVol σ] {R : Vol → Vol → Prop} {fI : M (IS σ) α} {f : M σ α} (h : Tame R fI f) {d : Dev} (hd : d.Works) (x : σ) (n : Nat) :
    ∃ m, fI ⟨x, d, n, false⟩ = ((f x).1, ⟨(f x).2, d, m, false⟩) := by
  rcases h.run ⟨x, d, n, false⟩ rfl with ⟨s', g, m, rfl⟩ | ⟨s', g, H⟩
  · exact ⟨m, g⟩
  · obtain ⟨i, hi⟩ := H.some
    rw [show Dev.fails _ i = false from hd.1 i] at hi; cases hi

theorem TameE.works {R : Vol → Vol → Prop} {fI : IVM α} {f : VM α} (h : TameE R fI f) {d : Dev} (hd : d.Works) (x : Vol) (n : Nat) :
    ∃ m, fI ⟨x, d, n, false⟩ = ((f x).1, ⟨(f x).2, d, m, false⟩) := by
  rcases h.run ⟨x, d, n, false⟩ rfl with ⟨s', g, m, rfl⟩ | ⟨s', e, g, _, H⟩
  · exact ⟨m, g⟩
  · obtain ⟨i, hi⟩ := H.some
    rw [show Dev.fails _ i = false from hd.1 i] at hi; cases hi

theorem mod_works {R : Vol → Vol → Prop} {k : Call} {fr : α → Reply} {ev : Event} {mI : IVM α} {m : VM α} (h : TameE R mI m) {d : Dev} (hd : d.Works)
    (h1 : execM c k = reply fr (modifyingOp ev mI)) (h2 : exec c k = RedFs.reply fr (RedFs.modifyingOp ev m)) : execIo c d k v = exec c k v := by
  have hF : d.full = none := hd.2.1
  have hE : d.event = none := hd.2.2
  have retry : ∃ n, volFullRetry mI ⟨v, d, 0, false⟩ = ((RedFs.volFullRetry m v).1, ⟨(RedFs.volFullRetry m v).2, d, n, false⟩) := by
    obtain ⟨n, g⟩ := h.works hd v 0
    unfold volFullRetry RedFs.volFullRetry
    simp only [run_bind, run_attempt, g]
    rcases hm : m v with ⟨er | a, v1⟩
    · simp only [run_bind]
      show ∃ n', (if er = .enospc ∧ v1.on .volfull = true ∧ 0 < v1.almostFree then (do liftI (volTransactF d.full); mI) else _ : IVM α) ⟨v1, d, n, false⟩ = _
      simp only [run_get]
      split
      · rw [run_bind, run_bind, hF, volTransactF_none]
        unfold liftI
        dsimp only
        rcases volTransact v1 with ⟨e | a, v2⟩
        · exact ⟨n, rfl⟩
        · obtain ⟨n', g'⟩ := h.works hd v2 n
          exact ⟨n', g'⟩
      · exact ⟨n, rfl⟩
    · exact ⟨n, rfl⟩
  have evt : ∀ (w : Vol) n, eventTransact ev ⟨w, d, n, false⟩ = ((RedFs.eventTransact ev w).1, ⟨(RedFs.eventTransact ev w).2, d, n, false⟩) := by
    intro w n
    show (if w.on ev = true then liftI (volTransactF d.event) else Pure.pure () : IVM Unit) ⟨w, d, n, false⟩ = _
    rw [hE, volTransactF_none]
    unfold RedFs.eventTransact
    simp only [run_bind, run_get]
    cases w.on ev <;> rfl
  have all : ∃ n, modifyingOp ev mI ⟨v, d, 0, false⟩ = ((RedFs.modifyingOp ev m v).1, ⟨(RedFs.modifyingOp ev m v).2, d, n, false⟩) := by
    cases hmt : v.mounted
    · exact ⟨0, (whenRw_offI (s := ⟨v, d, 0, false⟩) hmt _).trans (by unfold RedFs.modifyingOp; rw [whenRw_off hmt])⟩
    · cases hro : v.readOnly
      swap
      · exact ⟨0, (whenRw_roI (s := ⟨v, d, 0, false⟩) hmt hro _).trans (by unfold RedFs.modifyingOp; rw [whenRw_ro hmt hro])⟩
      · unfold modifyingOp RedFs.modifyingOp
        rw [whenRw_runI hmt hro, RedFs.whenRw_run hmt hro]
        obtain ⟨n, g⟩ := retry
        rw [run_bind, run_bind, g]
        rcases RedFs.volFullRetry m v with ⟨e | a, v1⟩
        · exact ⟨n, rfl⟩
        · refine ⟨n, ?_⟩
          dsimp only
          rw [run_bind, run_bind, evt]
          rcases RedFs.eventTransact ev v1 with ⟨e | a, v2⟩ <;> rfl
  obtain ⟨n, g⟩ := all
  have g' := reply_runI (f := fr) g
  rw [← h1] at g'
  rw [execIo_of g', h2]
  exact (reply_run (f := fr) (m := RedFs.modifyingOp ev m) (v := v) rfl).symm

theorem mount_works {ro : Bool} {d : Dev} (hd : d.Works) : execIo c d (.mount ro) v = exec c (.mount ro) v := by
  cases hm : v.mounted
  swap
  · rw [mount_mounted hm]
    show _ = RedFs.reply _ (RedFs.apiMount c ro) v
    unfold RedFs.reply RedFs.apiMount; simp only [run_bind, run_get, hm]
    cases c.posix <;> rfl
  · have hT : Tame Same (do mountMaster c; mountMetaroot c ro : IVM Unit) (do RedFs.mountMaster c; RedFs.mountMetaroot c ro : VM Unit) :=
      Tame.bind same_keeps mountMaster_tame fun _ => mountMetaroot_tame ro
    obtain ⟨n, g⟩ := hT.works hd v 0
    have e1 : apiMount c ro ⟨v, d, 0, false⟩ = volMount c ro ⟨v, d, 0, false⟩ := by
      have g2 : apiMount c ro ⟨v, d, 0, false⟩ = (if v.mounted then (if c.posix then M.fail .ebusy else Pure.pure ()) else volMount c ro : IVM Unit) ⟨v, d, 0, false⟩ := rfl
      rw [g2, hm]; rfl
    have e2 : RedFs.apiMount c ro v = RedFs.volMount c ro v := by
      unfold RedFs.apiMount; simp only [run_bind, run_get, hm]; rfl
    have vI : volMount c ro ⟨v, d, 0, false⟩ = ((RedFs.volMount c ro v).1, ⟨(RedFs.volMount c ro v).2, d, n, false⟩) := by
      unfold volMount RedFs.volMount
      have hS : ∀ f : Except Err Unit → VM Unit, (M.attempt (do RedFs.mountMaster c; RedFs.mountMetaroot c ro : VM Unit) >>= f) v =
          f ((do RedFs.mountMaster c; RedFs.mountMetaroot c ro : VM Unit) v).1 ((do RedFs.mountMaster c; RedFs.mountMetaroot c ro : VM Unit) v).2 := fun f => by
        rw [run_bind, run_attempt]
      rw [hS]
      rw [run_bind, run_attempt, g]
      generalize (do RedFs.mountMaster c; RedFs.mountMetaroot c ro : VM Unit) v = x
      rcases x with ⟨_ | _, _⟩ <;> rfl
    have := execIo_of (k := .mount ro) (show execM c (.mount ro) ⟨v, d, 0, false⟩ = _ from reply_runI (f := fun _ => Reply.unit) (e1.trans vI))
    rw [this]
    exact (reply_run (f := fun _ => Reply.unit) (m := RedFs.apiMount c ro) (v := v) (by rw [e2])).symm

/-- On a device that works the calls are those of `Model/Exec.lean`. -/
theorem exec_works {d : Dev} (hd : d.Works) (k : Call) : execIo c d k v = exec c k v := by
  have look : ∀ {R : Vol → Vol → Prop}, Tame R (execM c k) (exec c k) → execIo c d k v = exec c k v := by
    intro R hT
    obtain ⟨n, g⟩ := hT.works hd v 0
    rw [execIo_of g]
  cases k with
  | create p name isDir => exact mod_works (coreCreateSub_tameE p name isDir) hd rfl rfl
  | link p name ino => exact mod_works (coreLinkSub_tame p name ino).toE hd rfl rfl
  | unlink p name => exact mod_works (coreUnlinkSub_tame p name).toE hd rfl rfl
  | rename p name p' name' => exact mod_works (coreRenameSub_tame p name p' name').toE hd rfl rfl
  | write ino start len buf => exact mod_works (coreFileWriteSub_tame ino start len buf).toE hd rfl rfl
  | truncate ino size => exact mod_works (coreFileTruncateSub_tame ino size).toE hd rfl rfl
  | rollback => exact look rollback_tame
  | mount ro => exact mount_works hd
  | transact => show execF c d.full d.event .transact v = _; rw [hd.2.1, hd.2.2, execF_none]
  | unmount => show execF c d.full d.event .unmount v = _; rw [hd.2.1, hd.2.2, execF_none]
  | statfs => rfl
  | maskSet => rfl
  | maskGet => rfl
  | lookup => exact look (looks_tame trivial)
  | dirRead => exact look (looks_tame trivial)
  | dirParent => exact look (looks_tame trivial)
  | read => exact look (looks_tame trivial)
  | stat => exact look (looks_tame trivial)
  | fileSize => exact look (looks_tame trivial)

end RedFs.Io
