import Verif.Lemmas.Demo
set_option linter.unusedSimpArgs false
set_option linter.unusedVariables false
/-!
The file system as a whole: transactions, power loss, rollback and format (C01-C05).

`Reach c v`: the volume `v` can be reached from a system with an arbitrary disk by any sequence of
formats, calls and power losses.  `files c v` are the files as all calls see them, `committedFiles c v`
those of the last transaction point.  `SRun` is the abstract file system of `Spec/System.lean`.
-/
namespace RedFs.Props.System
open RedFs
open M Vol

variable {c : Conf} {v v' w : Vol} {s : Sys}

/-! ### C01 -/

/-- **C01, C03, C04, C10, C19** Every history of a volume - whatever calls are made, wherever power
fails, whatever was on the disk at first - gives results that the abstract file system could give. -/
theorem C01_every_history_refines (hc : c.SysOk) {v0 : Vol} {t : List Ev} (hb : Blank c v0) (h : Run c v0 t v) :
    ∃ s, SRun c ⟨false, false, v0.transMask, fun _ => none, none⟩ t s := by
  obtain ⟨s, h1, _⟩ := h.refines hc hb.abs
  exact ⟨s, h1⟩

/-- There are such histories; in this one all calls succeed. -/
example : Blank demoConf (bareVol demoConf) ∧ (∃ t, Run demoConf (bareVol demoConf) t (freshVol demoConf)) ∧ allOk (runCalls demoConf demoCalls (freshVol demoConf)).1 = true :=
  ⟨bare_blank _, ⟨_, .format (r := (volFormat demoConf (bareVol demoConf)).1) (v' := (volFormat demoConf (bareVol demoConf)).2) .nil (Or.inl rfl) rfl⟩, demo_allOk⟩

/-- The files a system finds. -/
theorem Abs.found (hc : c.SysOk) {F : Files} (h : Abs c w s) (hm : s.mounted = false) (hd : s.disk = some F) : Found c w F := by
  cases h with
  | up h1 => rw [h1] at hm; cases hm
  | none _ _ h3 => rw [h3] at hd; cases hd
  | off h1 h2 h3 h4 =>
    intro ro
    obtain ⟨w', e, i, f1, f2, f3, _⟩ := h2.mount hc.ok ro
    rw [h3] at hd; injection hd with hd
    exact ⟨w', e, i.mounted, f3, f1.trans hd, f2.trans hd⟩

theorem Reach.up (hc : c.SysOk) (h : Reach c v) (hm : v.mounted = true) : Inv c (Sound c) v := by
  obtain ⟨s, ha⟩ := h.abs hc
  exact (ha.inv (ha.mounted_iff.trans hm)).1

/-- The abstract state of a mounted volume. -/
def sysOf (c : Conf) (v : Vol) : Sys := ⟨true, v.readOnly, v.transMask, files c v, some (committedFiles c v)⟩

theorem Reach.sysOf (hc : c.SysOk) (h : Reach c v) (hm : v.mounted = true) : Abs c v (sysOf c v) :=
  .up rfl (Reach.up hc h hm) rfl rfl rfl rfl

/-- When a call commits, and what. -/
theorem Does.commits {k : Call} {s s' : Sys} {r : Except Err Reply} {tr : List Files} (h : Spec.Does c k s r s' tr) :
    ∀ F ∈ tr, s.mounted = true ∧ s.ro = false ∧
      ((F = s.now ∧ (k = .transact ∨ (k = .unmount ∧ s.on .umount = true) ∨ s.on .volfull = true)) ∨
       (F = s'.now ∧ r.toBool = true ∧ ∃ ev, k.event = some ev ∧ s.on ev = true)) := by
  intro F hF
  have nil : tr = [] → False := fun h => by rw [h] at hF; cases hF
  have mod : ∀ {ev : Event} {R : Files → Except Err Reply → Files → Prop}, k.event = some ev → Spec.Modify ev R s r s' tr →
      s.mounted = true ∧ s.ro = false ∧ ((F = s.now ∧ (k = .transact ∨ (k = .unmount ∧ s.on .umount = true) ∨ s.on .volfull = true)) ∨
       (F = s'.now ∧ r.toBool = true ∧ ∃ ev, k.event = some ev ∧ s.on ev = true)) := by
    intro ev R hev h
    unfold Spec.Modify at h
    split at h
    · exact absurd h.2.2 (fun x => nil x)
    · next hm =>
      split at h
      · exact absurd h.2.2 (fun x => nil x)
      · next hr =>
        obtain ⟨pre, G, hpre, _, htr, hs⟩ := h
        refine ⟨by simpa using hm, by simpa using hr, ?_⟩
        rw [htr] at hF
        rcases List.mem_append.1 hF with hF | hF
        · rcases hpre with rfl | ⟨rfl, hv, _⟩
          · cases hF
          · exact Or.inl ⟨List.mem_singleton.1 hF, Or.inr (Or.inr hv)⟩
        · split at hF
          · next hcond => exact Or.inr ⟨by rw [List.mem_singleton.1 hF, hs], hcond.1, ev, hev, hcond.2⟩
          · cases hF
  cases k with
  | create => exact mod rfl h
  | link => exact mod rfl h
  | unlink => exact mod rfl h
  | rename => exact mod rfl h
  | write => exact mod rfl h
  | truncate => exact mod rfl h
  | lookup => exact absurd h.2.1 nil
  | dirRead => exact absurd h.2.1 nil
  | dirParent => exact absurd h.2.1 nil
  | read => exact absurd h.2.1 nil
  | stat => exact absurd h.2.1 nil
  | fileSize => exact absurd h.2.1 nil
  | statfs => exact absurd h.2.1 nil
  | maskGet => exact absurd (show tr = [] from h.2.1) nil
  | maskSet mask => exact absurd (show tr = [] from h.1) nil
  | rollback => exact absurd (show tr = [] from h.1) nil
  | mount ro => exact absurd (show tr = [] from h.1) nil
  | transact =>
    have h : if _ then _ else _ := h
    split at h
    · exact absurd h.2.2 nil
    · next hm =>
      split at h
      · exact absurd h.2.2 nil
      · next hr =>
        rw [h.2.1] at hF
        exact ⟨by simpa using hm, by simpa using hr, Or.inl ⟨List.mem_singleton.1 hF, Or.inl rfl⟩⟩
  | unmount =>
    have h : if _ then _ else _ := h
    split at h
    · exact absurd h.2.1 nil
    · next hm =>
      rw [h.2.1] at hF
      split at hF
      · next hcond => exact ⟨by simpa using hm, hcond.1, Or.inl ⟨List.mem_singleton.1 hF, Or.inr (Or.inl ⟨rfl, hcond.2⟩)⟩⟩
      · cases hF

/-- **C01** Power fails while call `k` is being executed, in any of the epochs (intervals between
device flushes) `e` finished by the call, with any subset of the blocks written in that epoch on the
disk, and torn as may be.  The next mount shows *all files* exactly as they were at the last transaction
point before the call; or, only if the call itself commits, the state it commits: the state before the
call (`red_transact`, `red_umount` with its event enabled, or an automatic transaction to make space)
or the state after it (success of a call whose event is enabled). -/
theorem C01_power_loss (hc : c.SysOk) (h : Reach c v) (hm : v.mounted = true) {k : Call} (hk : k.Ok c) {r : Except Err Reply}
    (he : exec c k v = (r, v')) {new : List Epoch} (hn : v'.hist = new ++ v.hist) {e : Epoch} (hin : e ∈ new)
    {D : Nat → Blk} (hD : CrashImage c e D) (hw : Boot w D) :
    ∃ F, Found c w F ∧
      (F = committedFiles c v ∨
       (F = files c v ∧ v.readOnly = false ∧ (k = .transact ∨ (k = .unmount ∧ v.on .umount = true) ∨ v.on .volfull = true)) ∨
       (F = files c v' ∧ v.readOnly = false ∧ r.toBool = true ∧ ∃ ev, k.event = some ev ∧ v.on ev = true)) := by
  obtain ⟨r', v'', s', tr, e', d, a, new', hn', hrec⟩ := exec_sim hc (Reach.sysOf hc h hm) hk
  rw [he] at e'; obtain ⟨rfl, rfl⟩ := Prod.mk.inj e'
  have hnn : new = new' := by rw [hn'] at hn; exact (List.append_cancel_right hn).symm
  subst hnn
  obtain ⟨s1, g1, g2, g3⟩ := hrec e hin D hD w hw
  rcases List.mem_cons.1 g3 with g3 | g3
  · exact ⟨_, Abs.found hc g1 g2 g3, Or.inl rfl⟩
  · obtain ⟨F, hF, hFs⟩ := List.mem_map.1 g3
    refine ⟨F, Abs.found hc g1 g2 hFs.symm, Or.inr ?_⟩
    obtain ⟨_, hro, hh⟩ := Does.commits d F hF
    rcases hh with ⟨h1, h2⟩ | ⟨h1, h2, ev, h3, h4⟩
    · exact Or.inl ⟨h1, hro, h2⟩
    · have hFF : F = files c v' ∨ k = .unmount := by
        by_cases hku : k = .unmount
        · exact Or.inr hku
        · left
          cases a with
          | up _ _ h2 => rw [h1, h2]
          | off hm' h2 =>
            exfalso
            rw [d.mounted hku (by left; rfl)] at hm'; cases hm'
          | none hm' h2 =>
            exfalso
            rw [d.mounted hku (by left; rfl)] at hm'; cases hm'
      rcases hFF with hFF | rfl
      · exact Or.inr ⟨hFF, hro, h2, ev, h3, h4⟩
      · left
        injection h3 with h3; subst h3
        simp only [Spec.Does] at d
        rw [if_neg (show ¬ (sysOf c v).mounted = false from fun h => by cases h)] at d
        refine ⟨?_, hro, Or.inr (Or.inl ⟨rfl, h4⟩)⟩
        rw [h1, d.2.2]; rfl

/-- Power can fail in the last of the epochs of `red_transact`, the one in which the new metaroot is written. -/
example : ∃ r v' new e D w, Reach demoConf demoVol ∧ demoVol.mounted = true ∧ exec demoConf .transact demoVol = (r, v') ∧ v'.hist = new ++ demoVol.hist ∧
    e ∈ new ∧ CrashImage demoConf e D ∧ Boot w D ∧ (e.dirty 1 = true ∨ e.dirty 2 = true) := by
  obtain ⟨e, new, hn, hd⟩ := demo2_hist
  exact ⟨_, _, e :: new, e, e.base, bootVol demoConf _, demo_reach, demo_mounted, demo2_run, hn, List.mem_cons_self .., .old _ _, boot_boot _ _, hd⟩

/-- **C01** Power fails while no call is being executed: the next mount shows exactly the state of the
last transaction point. -/
theorem C01_power_loss_idle (hc : c.SysOk) (h : Reach c v) (hm : v.mounted = true) {D : Nat → Blk} (hD : CrashImage c v.epoch D) (hw : Boot w D) :
    Found c w (committedFiles c v) := by
  obtain ⟨s1, g1, g2, g3⟩ := (Reach.sysOf hc h hm).idle hc.ok D hD w hw
  exact Abs.found hc g1 g2 (List.mem_singleton.1 g3)

/-- The demo volume has changes that are not committed; a power loss may leave none or all of its writes. -/
example : Reach demoConf demoVol ∧ demoVol.mounted = true ∧ (∃ b, demoVol.dirty b = true) ∧
    (files demoConf demoVol 4).map (·.nlink) = some 2 ∧ (committedFiles demoConf demoVol 4).map (·.nlink) = some 1 ∧
    CrashImage demoConf demoVol.epoch demoVol.epoch.base ∧ CrashImage demoConf demoVol.epoch demoVol.epoch.fin ∧ Boot (bootVol demoConf demoVol.epoch.fin) demoVol.epoch.fin :=
  ⟨demo_reach, demo_mounted, ⟨((List.range 60).find? (fun b => demoVol.dirty b)).getD 0, by decide +kernel⟩, by decide +kernel, by decide +kernel, .old _ _, .done _ _, boot_boot _ _⟩

/-- After any call the state found is the one committed then (in particular: no call leaves the disk in
an inconsistent state). -/
theorem C01_power_loss_after_call (hc : c.SysOk) (h : Reach c v) {k : Call} (hk : k.Ok c) {r : Except Err Reply} (he : exec c k v = (r, v'))
    (hm : v'.mounted = true) {D : Nat → Blk} (hD : CrashImage c v'.epoch D) (hw : Boot w D) : Found c w (committedFiles c v') :=
  C01_power_loss_idle hc (h.call hk he) hm hD hw

/-- The committed state changes only when a call commits: to the state before the call or to the state
after it. -/
theorem C01_committed_state (hc : c.SysOk) (h : Reach c v) (hm : v.mounted = true) {k : Call} (hk : k.Ok c) (hu : k ≠ .unmount) {r : Except Err Reply}
    (he : exec c k v = (r, v')) :
    committedFiles c v' = committedFiles c v ∨
    (committedFiles c v' = files c v ∧ v.readOnly = false ∧ (k = .transact ∨ v.on .volfull = true)) ∨
    (committedFiles c v' = files c v' ∧ v.readOnly = false ∧ r.toBool = true ∧ ∃ ev, k.event = some ev ∧ v.on ev = true) := by
  obtain ⟨r', v'', s', tr, e', d, a, _⟩ := exec_sim hc (Reach.sysOf hc h hm) hk
  rw [he] at e'; obtain ⟨rfl, rfl⟩ := Prod.mk.inj e'
  have hsm : s'.mounted = true := d.mounted hu (Or.inl rfl)
  obtain ⟨_, h2, h3, _, _⟩ := a.inv hsm
  have hl := d.last
  rw [h3] at hl
  rcases List.mem_cons.1 hl with hl | hl
  · left; injection hl
  · obtain ⟨F, hF, hFs⟩ := List.mem_map.1 hl
    injection hFs with hFs; subst hFs
    right
    obtain ⟨_, hro, hh⟩ := Does.commits d _ hF
    rcases hh with ⟨h5, h6⟩ | ⟨h5, h6⟩
    · refine Or.inl ⟨h5, hro, ?_⟩
      rcases h6 with h6 | ⟨h6, _⟩ | h6
      · exact Or.inl h6
      · exact absurd h6 hu
      · exact Or.inr h6
    · exact Or.inr ⟨by rw [← h2, ← h5], hro, h6⟩

/-! ### C02 -/

/-- **C02** On no reachable volume has a block of the committed state - a block of one of its files, an
inode block, a map node, its metaroot or the master block - been written since the commit: in every
epoch since the volume was formatted or the system was started. -/
theorem C02_committed_blocks_kept (hc : c.SysOk) (h : Reach c v) (hm : v.mounted = true) {e : Epoch} (he : e ∈ v.epochs) :
    (∀ b, InState c e.base e.comm b → e.dirty b = false) ∧
    (∃ b, (b = 1 ∨ b = 2) ∧ e.base b = .metaroot e.comm ∧ e.dirty b = false) ∧ e.dirty 0 = false := by
  have hi := Reach.up hc h hm
  have hok : EpochOk c e := by
    rcases List.mem_cons.1 he with rfl | he
    · exact hi.wf.vol.epoch_ok hc.ok hm
    · exact hi.wf.vol.epochs hm e he
  refine ⟨hok.clean, ?_, hok.master_clean⟩
  obtain ⟨i, _, h1, h2, _⟩ := hok.sel
  exact ⟨mrBlk i, by cases i <;> simp [mrBlk], h2, h1⟩

/-- **C02** Every block of every file of the committed state - data, indirect and double indirect blocks,
and the inode itself - is a block of that state in the sense of the previous theorem. -/
theorem C02_committed_blocks (hc : c.SysOk) (h : Reach c v) (hm : v.mounted = true) :
    (∀ i p, PosOk c p → treeOf c v.blk (cmtBit c v) i p ≠ 0 → InState c v.base v.comm (treeOf c v.blk (cmtBit c v) i p)) ∧
    (∀ i w, c.inodeValid i = true → cmtBit c v (slotBlk c i w) = true → InState c v.base v.comm (slotBlk c i w)) := by
  have hi := Reach.up hc h hm
  have hb : ∀ b, InMap c b → cmtBit c v b = true → InState c v.base v.comm b := by
    intro b hb h1
    exact (InState_congr hc.ok (fun hi' k hk => ((hi.wf.vol.ok.clean hi' k hk).2).symm)).2 (Or.inr ⟨hb, h1⟩)
  have := Conf.Ok.first_ge c
  refine ⟨fun i p hp h0 => ?_, fun i w hiv h1 => hb _ (slot_inMap hc.ok hiv w) h1⟩
  obtain ⟨r1, r2, r3⟩ := hi.wf.cfs.range i p hp h0
  exact hb _ ⟨by omega, r2⟩ r3

/-- The committed state has blocks, and there are epochs with other blocks written. -/
example : treeOf demoConf demoVol.blk (cmtBit demoConf demoVol) 4 (.ent 1) ≠ 0 ∧ demoVol.epoch ∈ demoVol.epochs ∧ demoVol.hist ≠ [] :=
  ⟨by decide +kernel, List.mem_cons_self .., fun h => absurd (congrArg List.isEmpty h) (by decide +kernel)⟩

/-! ### C03 -/

/-- **C03** When `red_transact` reports success, the files are committed: a power loss right after it finds them. -/
theorem C03_transact_durable (hc : c.SysOk) (h : Reach c v) (hm : v.mounted = true) {r : Reply} (ht : exec c .transact v = (.ok r, v')) {D : Nat → Blk} :
    committedFiles c v' = files c v ∧ files c v' = files c v ∧
    (CrashImage c v'.epoch D → Boot w D → Found c w (files c v)) := by
  obtain ⟨r', v'', s', tr, e', d, a, _⟩ := exec_sim hc (Reach.sysOf hc h hm) (k := .transact) trivial
  rw [ht] at e'; obtain ⟨rfl, rfl⟩ := Prod.mk.inj e'
  simp only [Spec.Does] at d
  rw [if_neg (show ¬ (sysOf c v).mounted = false from fun h => by cases h)] at d
  split at d
  · exact absurd d.1 (fun h => by cases h)
  obtain ⟨_, _, d⟩ := d
  have hm' : v'.mounted = true := by rw [← a.mounted_iff, d]; rfl
  obtain ⟨hi, h2, h3, _, _⟩ := a.inv (by rw [d]; rfl)
  rw [d] at h2 h3
  injection h3 with h3
  refine ⟨h3.symm, h2.symm, fun hD hw => ?_⟩
  rw [show files c v = committedFiles c v' from h3]
  exact C01_power_loss_idle hc (h.call (k := .transact) trivial ht) hm' hD hw

/-- What is on the disk was there when the calls began, or is one of the states visited since. -/
theorem Visited.disk (hc : c.SysOk) {v0 : Vol} {s0 : Sys} {L : List Vol} (h0 : Abs c v0 s0) (hd : s0.disk = some (files c v0)) (h : Visited c v0 L v) :
    ∃ s, Abs c v s ∧ ∃ x ∈ L, s.disk = some (files c x) := by
  have step : ∀ {L : List Vol} {u u' : Vol} {s s' : Sys} {k : Call} {r : Except Err Reply} {tr : List Files} {G : Files}, Abs c u s → Abs c u' s' →
      (s.mounted = true → u ∈ L) → Spec.Does c k s r s' tr → (∃ x ∈ L, s.disk = some (files c x)) → some G ∈ s.disk :: tr.map some →
      ∃ x ∈ u' :: L, some G = some (files c x) := by
    intro L u u' s s' k r tr G ha ha' hin d ⟨x, hx, hxd⟩ hG
    rcases List.mem_cons.1 hG with hG | hG
    · exact ⟨x, List.mem_cons_of_mem _ hx, by rw [hG, hxd]⟩
    · obtain ⟨F, hF, hFs⟩ := List.mem_map.1 hG
      injection hFs with hFs; subst hFs
      obtain ⟨hsm, hro, hh⟩ := Does.commits d _ hF
      have hnow : ∀ G, G = s.now → ∃ x ∈ u' :: L, some G = some (files c x) := by
        intro G hG
        obtain ⟨_, h2, _⟩ := ha.inv hsm
        exact ⟨u, List.mem_cons_of_mem _ (hin hsm), by rw [hG, h2]⟩
      rcases hh with ⟨h5, _⟩ | ⟨h5, _, ev, h6, _⟩
      · exact hnow _ h5
      · by_cases hku : k = .unmount
        · subst hku
          simp only [Spec.Does] at d
          rw [if_neg (by rw [hsm]; simp)] at d
          exact hnow _ (by rw [h5, d.2.2]; rfl)
        · obtain ⟨_, h2, _⟩ := ha'.inv ((d.mounted hku (Or.inl hsm)).trans hsm)
          exact ⟨u', List.mem_cons_self .., by rw [h5, h2]⟩
  have key : ∃ s, Abs c v s ∧ (s.mounted = true → v ∈ L) ∧ ∃ x ∈ L, s.disk = some (files c x) := by
    induction h with
    | nil => exact ⟨s0, h0, fun _ => List.mem_singleton.2 rfl, v0, List.mem_singleton.2 rfl, hd⟩
    | call hr hk he ih =>
      obtain ⟨s, ha, hin, hx⟩ := ih
      obtain ⟨r, v', s', tr, e, d, a, _⟩ := exec_sim hc ha hk
      rw [he] at e; obtain ⟨rfl, rfl⟩ := Prod.mk.inj e
      have hl := d.last
      obtain ⟨G, hG⟩ : ∃ G, s'.disk = some G := by
        rcases List.mem_cons.1 hl with hl | hl
        · obtain ⟨x, _, hxd⟩ := hx; exact ⟨_, hl.trans hxd⟩
        · obtain ⟨F, _, hF⟩ := List.mem_map.1 hl; exact ⟨F, hF.symm⟩
      refine ⟨s', a, fun _ => List.mem_cons_self .., ?_⟩
      rw [hG] at hl ⊢
      exact step ha a hin d hx hl
    | @crash L v v' w k r new e D hr hk he hn hin' hD hw ih =>
      obtain ⟨s, ha, hin, hx⟩ := ih
      obtain ⟨r, v'', s', tr, e', d, a, new', hn', hrec⟩ := exec_sim hc ha hk
      rw [he] at e'; obtain ⟨rfl, rfl⟩ := Prod.mk.inj e'
      have hnn : new = new' := by rw [hn'] at hn; exact (List.append_cancel_right hn).symm
      subst hnn
      have : ∃ s1, Abs c w s1 ∧ s1.mounted = false ∧ s1.disk ∈ s.disk :: tr.map some := by
        rcases List.mem_cons.1 hin' with rfl | hin'
        · obtain ⟨s1, g1, g2, g3⟩ := a.idle hc.ok D hD w hw
          exact ⟨s1, g1, g2, by rw [List.mem_singleton.1 g3]; exact d.last⟩
        · exact hrec e hin' D hD w hw
      obtain ⟨s1, g1, g2, hl⟩ := this
      obtain ⟨G, hG⟩ : ∃ G, s1.disk = some G := by
        rcases List.mem_cons.1 hl with hl | hl
        · obtain ⟨x, _, hxd⟩ := hx; exact ⟨_, hl.trans hxd⟩
        · obtain ⟨F, _, hF⟩ := List.mem_map.1 hl; exact ⟨F, hF.symm⟩
      refine ⟨s1, g1, (fun h => by rw [g2] at h; cases h), ?_⟩
      rw [hG] at hl ⊢
      exact step ha a hin d hx hl
    | idleCrash hr hD hw ih =>
      obtain ⟨s, ha, hin, hx⟩ := ih
      obtain ⟨s1, g1, g2, g3⟩ := ha.idle hc.ok _ hD _ hw
      exact ⟨s1, g1, (fun h => by rw [g2] at h; cases h), by rw [List.mem_singleton.1 g3]; exact hx⟩
  obtain ⟨s, h1, _, h2⟩ := key
  exact ⟨s, h1, h2⟩

/-- **C03** Once `red_transact` has reported success, its effect is never lost: after any number of
further calls and power losses, at whatever moments, the volume mounts and shows the state at the
commit or a state that was visited after it. -/
theorem C03_durable_forever (hc : c.SysOk) (h : Reach c v) (hm : v.mounted = true) {r : Reply} (ht : exec c .transact v = (.ok r, v'))
    {L : List Vol} (hL : Visited c v' L w) (hw : w.mounted = false) : ∃ x ∈ L, Found c w (files c x) := by
  obtain ⟨h1, h2, _⟩ := C03_transact_durable (D := fun _ => .data fun _ => 0) (w := v) hc h hm ht
  have hr' := h.call (k := .transact) trivial ht
  obtain ⟨s, ha⟩ := hr'.abs hc
  have hm' : v'.mounted = true := by
    obtain ⟨r', v'', s', tr, e', d, a, _⟩ := exec_sim hc (Reach.sysOf hc h hm) (k := .transact) trivial
    rw [ht] at e'; obtain ⟨rfl, rfl⟩ := Prod.mk.inj e'
    rw [← a.mounted_iff, d.mounted (by simp) (Or.inl rfl)]; rfl
  obtain ⟨s', a', x, hx, hxd⟩ := Visited.disk hc (Reach.sysOf hc hr' hm') (by show some (committedFiles c v') = _; rw [h1, h2]) hL
  exact ⟨x, hx, Abs.found hc a' (a'.mounted_iff.trans hw) hxd⟩

/-- A transaction, and a power loss after it. -/
example : ∃ r L w, exec demoConf .transact demoVol = (.ok r, demoVol2) ∧ Visited demoConf demoVol2 L w ∧ w.mounted = false :=
  ⟨_, _, bootVol demoConf demoVol2.epoch.base, demo2_run, .idleCrash .nil (.old _ _) (boot_boot _ _), rfl⟩

/-! ### C04 -/

/-- **C04** A successful rollback restores the last transaction point: all files, and the free space. -/
theorem C04_rollback (hc : c.SysOk) (h : Reach c v) (hm : v.mounted = true) {r : Reply} (hr : exec c .rollback v = (.ok r, v')) :
    files c v' = committedFiles c v ∧ committedFiles c v' = committedFiles c v ∧
    v'.work.freeBlocks = countIn (fun b => !cmtBit c v b) c.firstAlloc c.blockCount ∧
    v'.work.freeInodes = countIn (fun i => (committedFiles c v i).isNone) 2 (2 + c.inodeCount) := by
  have hi := Reach.up hc h hm
  cases hro : v.readOnly
  · obtain ⟨v1, e, i', f1, f2, f3, f4, f5, f6, f7⟩ := hi.rollback hc.ok hro
    have : exec c .rollback v = (.ok .unit, v1) := by
      refine reply_run (r := .ok ()) ?_
      unfold coreVolRollback; rw [whenRw_run hi.mounted hro]; exact e
    rw [hr] at this; obtain ⟨_, rfl⟩ := Prod.mk.inj this
    refine ⟨f1, f2, ?_, ?_⟩
    · rw [f6, hi.wf.vol.commFree]
    · rw [freeInodes_eq i'.wf, f1]
  · have : exec c .rollback v = (.error .erofs, v) := reply_run (whenRw_ro hi.mounted hro)
    rw [hr] at this; cases this

example : (exec demoConf .rollback demoVol).1.toBool = true := by decide +kernel

/-- A call that does not commit, if the events in `mask` are enabled. -/
def Quiet (mask : Nat) (k : Call) : Prop :=
  k ≠ .transact ∧ k ≠ .unmount ∧ (∀ m, k ≠ .maskSet m) ∧ (∀ ev, k.event = some ev → mask.testBit ev.bit = false)

/-- **C04** Whatever has been done since the last transaction point - any sequence of calls that do not
commit - a rollback undoes it, and so does a power loss. -/
theorem C04_rollback_after_anything (hc : c.SysOk) {ks : List Call} (hok : ∀ k ∈ ks, k.Ok c) : ∀ {v : Vol}, Reach c v → v.mounted = true →
    v.on .volfull = false → (∀ k ∈ ks, Quiet v.transMask k) →
    (∀ r v', exec c .rollback (runCalls c ks v).2 = (.ok r, v') → files c v' = committedFiles c v) ∧
    (∀ D w, CrashImage c (runCalls c ks v).2.epoch D → Boot w D → Found c w (committedFiles c v)) := by
  induction ks with
  | nil =>
    intro v h hm hvf _
    exact ⟨fun r v' hr => (C04_rollback hc h hm hr).1, fun D w hD hw => C01_power_loss_idle hc h hm hD hw⟩
  | cons k ks ih =>
    intro v h hm hvf hq
    obtain ⟨q1, q2, q3, q4⟩ := hq k (List.mem_cons_self ..)
    have hk := hok k (List.mem_cons_self ..)
    rcases he : exec c k v with ⟨r, v1⟩
    obtain ⟨r', v'', s', tr, e', d, a, _⟩ := exec_sim hc (Reach.sysOf hc h hm) hk
    rw [he] at e'; obtain ⟨rfl, rfl⟩ := Prod.mk.inj e'
    have hm1 : v1.mounted = true := by rw [← a.mounted_iff, d.mounted q2 (Or.inl rfl)]; rfl
    have hmk : v1.transMask = v.transMask := by
      obtain ⟨_, _, _, _, h5⟩ := a.inv (a.mounted_iff.trans hm1)
      rw [← h5, d.mask q3]; rfl
    have hcf : committedFiles c v1 = committedFiles c v := by
      rcases C01_committed_state hc h hm hk q2 he with h1 | ⟨_, _, h1 | h1⟩ | ⟨_, _, _, ev, h1, h2⟩
      · exact h1
      · exact absurd h1 q1
      · rw [hvf] at h1; cases h1
      · have := q4 ev h1; unfold Vol.on at h2; rw [this] at h2; cases h2
    have := ih (fun k' hk' => hok k' (List.mem_cons_of_mem _ hk')) (h.call hk he) hm1 (by unfold Vol.on; rw [hmk]; exact hvf)
      (fun k' hk' => by rw [hmk]; exact hq k' (List.mem_cons_of_mem _ hk'))
    have hrc : (runCalls c (k :: ks) v).2 = (runCalls c ks v1).2 := by
      show (runCalls c ks (exec c k v).2).2 = _; rw [he]
    rw [hrc, ← hcf]; exact this

/-- With no event enabled, changes are made and undone. -/
example : let ks : List Call := [.unlink 2 nmA, .create 2 nmB false, .write 4 0 10 (fun _ => 1), .truncate 4 3]
    let v := (exec demoConf (.maskSet 0) demoVol).2
    v.on .volfull = false ∧ (∀ k ∈ ks, Quiet v.transMask k ∧ k.Ok demoConf) ∧ allOk (runCalls demoConf ks v).1 = true := by
  intro ks v
  have hm : v.transMask = 0 := by decide +kernel
  refine ⟨by unfold Vol.on; rw [hm]; exact Nat.zero_testBit _, ?_, by decide +kernel⟩
  intro k hk
  simp only [ks, List.mem_cons, List.mem_nil_iff, or_false] at hk
  rw [hm]
  rcases hk with rfl | rfl | rfl | rfl <;>
    exact ⟨⟨(fun h => by cases h), (fun h => by cases h), (fun m h => by cases h), (fun ev _ => Nat.zero_testBit _)⟩, by trivial⟩

end RedFs.Props.System
