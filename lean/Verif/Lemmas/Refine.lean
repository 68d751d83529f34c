import Verif.Lemmas.System
set_option linter.unusedSimpArgs false
set_option linter.unusedVariables false
namespace RedFs
open M Bitmap Vol

variable {c : Conf} {v : Vol} {s : Sys}

theorem Abs.mounted_iff (h : Abs c v s) : s.mounted = v.mounted := by
  cases h with
  | up h1 h2 => rw [h1, h2.mounted]
  | off h1 h2 => rw [h1, h2.mounted]
  | none h1 h2 => obtain ⟨D, h2, _⟩ := h2; rw [h1, h2.mounted]

theorem Abs.inv (h : Abs c v s) (hm : s.mounted = true) :
    Inv c (Sound c) v ∧ s.now = files c v ∧ s.disk = some (committedFiles c v) ∧ s.ro = v.readOnly ∧ s.mask = v.transMask := by
  cases h with
  | up h1 h2 h3 h4 h5 h6 => exact ⟨h2, h3, h4, h5, h6⟩
  | off h1 h2 => rw [h1] at hm; cases hm
  | none h1 h2 => rw [h1] at hm; cases hm

/-- Nothing happens. -/
theorem sim_nop {k : Call} {r : Except Err Reply} (ha : Abs c v s) (he : exec c k v = (r, v)) (hd : Spec.Does c k s r s []) : Sim c k v s :=
  ⟨r, v, s, [], he, hd, ha, [], rfl, fun e he => by cases he⟩

theorem apiMount_blank {ro : Bool} (h : Blank c v) : ∃ v', volMount c ro v = (.error .eio, v') ∧ Blank c v' ∧ v'.transMask = v.transMask ∧ v'.hist = v.hist := by
  obtain ⟨D, hb, hno⟩ := h
  obtain ⟨b1, b2, b3⟩ := hb.conn
  have hmm : mountMaster c v = (.error .eio, v) := by
    unfold mountMaster; simp only [run_bind, run_get, b1]
    cases e : D 0 with
    | master m => simp [hno m e]
    | _ => rfl
  refine ⟨v.discardAll, ?_, ⟨D, ⟨⟨?_, b2, b3⟩, hb.hist, hb.mounted, hb.almost⟩, hno⟩, rfl, rfl⟩
  · unfold volMount; simp only [run_bind, run_attempt, hmm, run_modify, run_fail]
  · funext x; show v.onDisk x = D x; unfold Vol.onDisk; rw [b3, b2]; rfl

theorem exec_sim (hc : c.SysOk) (ha : Abs c v s) {k : Call} (hk : k.Ok c) : Sim c k v s := by
  have ok := hc.ok
  cases k with
  | create p name isDir =>
    have h := coreCreateSub_spec ok (hc.posixOk hk.1) p hk.2 isDir
    rw [← Sound.posix hk.1] at h
    exact sim_modify ok h (create_clean _ _ _) ha
  | link p name ino =>
    have h := coreLinkSub_spec ok (hc.posixOk hk.1) p hk.2 ino
    rw [← Sound.posix hk.1] at h
    exact sim_modify ok h (link_clean _ _ _) ha
  | unlink p name =>
    have h := coreUnlinkSub_spec ok (hc.posixOk hk.1) p hk.2
    rw [← Sound.posix hk.1] at h
    exact sim_modify ok h (unlink_clean _ _) ha
  | rename p name p' name' =>
    have h := coreRenameSub_spec ok (hc.posixOk hk.1) hk.2.1 hk.2.2 (ps := p) (pd := p')
    rw [← Sound.posix hk.1] at h
    exact sim_modify ok h (rename_clean _ _ _ _) ha
  | write ino start len buf => exact sim_modify ok (coreFileWriteSub_spec ok sound_data ino start len buf) (write_clean _ _ _ _) ha
  | truncate ino size => exact sim_modify ok (coreFileTruncateSub_spec ok sound_data ino size) (truncate_clean _ _) ha
  | lookup p name =>
    refine sim_ask ok ha (fun h => ?_) (fun h => whenMounted_off h)
    have h' := h
    rw [Sound.posix hk.1] at h'
    obtain ⟨r, e, q⟩ := coreLookup_spec ok (hc.posixOk hk.1) h' p hk.2
    exact ⟨r, v, e, Eff.refl h, rfl, q⟩
  | dirRead p pos =>
    refine sim_ask ok ha (fun h => ?_) (fun h => whenMounted_off h)
    have h' := h
    rw [Sound.posix hk] at h'
    obtain ⟨r, v', e, E, q1, q2, _⟩ := coreDirRead_spec ok (hc.posixOk hk) h' p pos
    rw [← Sound.posix hk] at E
    exact ⟨r, v', e, E, q1, q2⟩
  | dirParent p =>
    refine sim_ask ok ha (fun h => ?_) (fun h => whenMounted_off h)
    have h' := h
    rw [Sound.posix hk] at h'
    rcases coreDirParent_spec ok (hc.posixOk hk) h' p with ⟨e, q1, q2⟩ | ⟨f, q1, q2⟩
    · exact ⟨_, v, q2, Eff.refl h, rfl, q1⟩
    · exact ⟨_, v, q2, Eff.refl h, rfl, f, q1, rfl⟩
  | read ino start len =>
    refine sim_ask ok ha (fun h => ?_) (fun h => whenMounted_off h)
    obtain ⟨r, v', e, E, q1, q2, _⟩ := coreFileRead_spec ok h ino start len
    exact ⟨r, v', e, E, q1, q2⟩
  | stat ino =>
    refine sim_ask ok ha (fun h => ?_) (fun h => whenMounted_off h)
    rcases coreStat_spec ok h ino with ⟨q1, q2⟩ | ⟨f, st, q1, q2, q3, q4, q5, q6, _⟩
    · exact ⟨_, v, q2, Eff.refl h, rfl, rfl, q1⟩
    · exact ⟨_, v, q2, Eff.refl h, rfl, f, q1, q3, q4, q5, q6⟩
  | fileSize ino =>
    refine sim_ask ok ha (fun h => ?_) (fun h => whenMounted_off h)
    show ∃ r v', coreFileSizeGet c ino v = _ ∧ _
    unfold coreFileSizeGet
    rw [whenMounted_run h.mounted, run_bind]
    rcases mountFile ok h.wf ino false with ⟨e, h1, h2⟩ | ⟨f, ci, v1, hr, h2, fr, hd, hnb⟩
    · exact ⟨.error e, v, by rw [h2], Eff.refl h, rfl, h1⟩
    · obtain ⟨rfl, _⟩ := hnb rfl
      exact ⟨.ok ci.node.size, v1, by rw [h2]; rfl, Eff.refl h, rfl, f, hr, fr.size⟩
  | statfs =>
    cases hm : s.mounted
    · have hm' := ha.mounted_iff; rw [hm] at hm'
      refine sim_nop ha (r := .error .einval) (reply_run (whenMounted_off hm'.symm)) ⟨rfl, rfl, ?_⟩
      rw [if_pos hm]
    · obtain ⟨hi, h2, h3, h4, h5⟩ := ha.inv hm
      refine sim_nop ha (reply_run (r := .ok ⟨c.blockCount, v.work.freeBlocks - c.reserved, c.inodeCount, v.work.freeInodes, v.readOnly⟩) ?_) ⟨rfl, rfl, ?_⟩
      · unfold coreVolStat; rw [whenMounted_run hi.mounted]; rfl
      · rw [if_neg (by rw [hm]; simp)]
        refine ⟨_, rfl, rfl, ?_, rfl, ?_, h4.symm⟩
        · have := space_sum hi.wf.vol.space
          have h7 := countIn_le (p := fun b => !curBit c v b) (lo := c.firstAlloc) (hi := c.blockCount)
          show v.work.freeBlocks - c.reserved ≤ c.allocable
          unfold Conf.allocable; omega
        · rw [h2]; exact freeInodes_eq hi.wf
  | maskSet mask =>
    cases hm : s.mounted
    · have hm' := ha.mounted_iff; rw [hm] at hm'
      refine sim_nop ha (r := .error .einval) (reply_run (r := .error .einval) ?_) ⟨rfl, ?_⟩
      · unfold coreTransMaskSet; simp only [run_bind, run_get, ← hm']; rfl
      · rw [if_pos (Or.inl hm)]; exact ⟨rfl, rfl⟩
    · obtain ⟨hi, h2, h3, h4, h5⟩ := ha.inv hm
      by_cases hmask : mask &&& c.transactMask = mask
      · cases hr : v.readOnly
        · refine ⟨.ok .unit, { v with transMask := mask }, { s with mask := mask }, [], reply_run (r := .ok ()) ?_, ⟨rfl, ?_⟩, ?_, [], rfl, fun e he => by cases he⟩
          · unfold coreTransMaskSet; rw [run_bind]; dsimp only [run_get]
            rw [if_neg (by rw [hi.mounted]; simp [hmask]), if_neg (by rw [hr]; simp)]; rfl
          · rw [if_neg (by rw [hm]; simp [hmask]), if_neg (by rw [h4, hr]; simp)]; exact ⟨rfl, rfl⟩
          · refine .up hm ?_ h2 h3 h4 rfl
            exact ⟨⟨hi.wf.vol.congr rfl rfl rfl rfl rfl rfl rfl rfl (fun hh => hi.wf.vol.idle hh) id, hi.wf.fs, hi.wf.cfs⟩, hi.now, hi.was, hi.hist, hi.rsv, hi.crsv, hi.idle, hi.mounted⟩
        · refine sim_nop ha (r := .error .erofs) (reply_run (r := .error .erofs) ?_) ⟨rfl, ?_⟩
          · unfold coreTransMaskSet; simp only [run_bind, run_get, hi.mounted, hmask, hr]; simp
          · rw [if_neg (by rw [hm]; simp [hmask]), if_pos (by rw [h4, hr])]; exact ⟨rfl, rfl⟩
      · refine sim_nop ha (r := .error .einval) (reply_run (r := .error .einval) ?_) ⟨rfl, ?_⟩
        · unfold coreTransMaskSet; simp only [run_bind, run_get, hi.mounted]; simp [hmask]
        · rw [if_pos (Or.inr hmask)]; exact ⟨rfl, rfl⟩
  | maskGet =>
    cases hm : s.mounted
    · have hm' := ha.mounted_iff; rw [hm] at hm'
      refine sim_nop ha (r := .error .einval) (reply_run (whenMounted_off hm'.symm)) ⟨rfl, rfl, ?_⟩
      rw [if_pos hm]
    · obtain ⟨hi, h2, h3, h4, h5⟩ := ha.inv hm
      refine sim_nop ha (reply_run (r := .ok v.transMask) ?_) ⟨rfl, rfl, ?_⟩
      · unfold coreTransMaskGet; rw [whenMounted_run hi.mounted]; rfl
      · rw [if_neg (by rw [hm]; simp)]; show Except.ok (Reply.num v.transMask) = _; rw [h5]
  | transact =>
    cases hm : s.mounted
    · have hm' := ha.mounted_iff; rw [hm] at hm'
      refine sim_nop ha (r := .error .einval) (reply_run (whenRw_off hm'.symm)) ?_
      show if _ then _ else _
      rw [if_pos hm]; exact ⟨rfl, rfl, rfl⟩
    · obtain ⟨hi, h2, h3, h4, h5⟩ := ha.inv hm
      cases hr : v.readOnly
      · obtain ⟨v', e, i', C⟩ := hi.transact ok
        obtain ⟨new, hn, hrec⟩ := hi.commit_recov ok i' C
        refine ⟨.ok .unit, v', { s with disk := some s.now }, [s.now], reply_run (r := .ok ()) ?_, ?_, ?_, new, hn, fun e he => (hrec e he).mono ?_⟩
        · unfold coreVolTransact; rw [whenRw_run hi.mounted hr]; exact e
        · show if _ then _ else _
          rw [if_neg (by rw [hm]; simp), if_neg (by rw [h4, hr]; simp)]; exact ⟨rfl, rfl, rfl⟩
        · exact .up hm i' (by rw [C.files]; exact h2) (by rw [C.cfiles, ← h2]) (by rw [C.com.readOnly]; exact h4) (by rw [C.mask]; exact h5)
        · intro x hx
          rw [← h3, ← h2] at hx; simpa using hx
      · refine sim_nop ha (r := .error .erofs) (reply_run (whenRw_ro hi.mounted hr)) ?_
        show if _ then _ else _
        rw [if_neg (by rw [hm]; simp), if_pos (by rw [h4, hr])]; exact ⟨rfl, rfl, rfl⟩
  | rollback =>
    cases hm : s.mounted
    · have hm' := ha.mounted_iff; rw [hm] at hm'
      refine sim_nop ha (r := .error .einval) (reply_run (whenRw_off hm'.symm)) ⟨rfl, ?_⟩
      rw [if_pos hm]; exact ⟨rfl, rfl⟩
    · obtain ⟨hi, h2, h3, h4, h5⟩ := ha.inv hm
      cases hr : v.readOnly
      · obtain ⟨v', e, i', f1, f2, f3, f4, f5, _⟩ := hi.rollback ok hr
        refine ⟨.ok .unit, v', { s with now := committedFiles c v }, [], reply_run (r := .ok ()) ?_, ⟨rfl, ?_⟩, ?_, [], f5, fun e he => by cases he⟩
        · unfold coreVolRollback; rw [whenRw_run hi.mounted hr]; exact e
        · rw [if_neg (by rw [hm]; simp), if_neg (by rw [h4, hr]; simp)]; exact ⟨rfl, _, h3, rfl⟩
        · exact .up hm i' f1.symm (by rw [f2]; exact h3) (by rw [f4, ← hr]; exact h4) (by rw [f3]; exact h5)
      · refine sim_nop ha (r := .error .erofs) (reply_run (whenRw_ro hi.mounted hr)) ⟨rfl, ?_⟩
        rw [if_neg (by rw [hm]; simp), if_pos (by rw [h4, hr])]; exact ⟨rfl, rfl⟩
  | mount ro =>
    have off : v.mounted = false → exec c (.mount ro) v = reply (fun _ => .unit) (volMount c ro) v := by
      intro h; show reply _ (apiMount c ro) v = _
      unfold reply apiMount; simp only [run_bind, run_get, h]; rfl
    cases ha with
    | up h1 hi hn hd hro hmk =>
      refine sim_nop (.up h1 hi hn hd hro hmk) (r := if c.posix then .error .ebusy else .ok .unit) ?_ ⟨rfl, ?_⟩
      · show reply _ (apiMount c ro) v = _
        unfold reply apiMount; simp only [run_bind, run_get, hi.mounted]
        cases c.posix <;> rfl
      · rw [if_pos h1]; exact ⟨rfl, rfl⟩
    | off h1 ho hd hmk =>
      obtain ⟨v', e, i', f1, f2, f3, f4, f5, f6⟩ := ho.mount ok ro
      refine ⟨.ok .unit, v', { s with mounted := true, ro := ro, now := files c v' }, [], (off ho.mounted).trans (reply_run e), ⟨rfl, ?_⟩, ?_, [], f5, fun e he => by cases he⟩
      · rw [if_neg (by rw [h1]; simp), hd, f1]; exact ⟨rfl, rfl⟩
      · exact .up rfl i' rfl (by rw [f2]; exact hd) f3.symm (by rw [f6]; exact hmk)
    | none h1 hb hd hmk =>
      obtain ⟨v', e, b', t', hh⟩ := apiMount_blank (ro := ro) hb
      have hm : v.mounted = false := by obtain ⟨D, h2, _⟩ := hb; exact h2.mounted
      refine ⟨.error .eio, v', s, [], (off hm).trans (reply_run e), ⟨rfl, ?_⟩, .none h1 b' hd (by rw [t']; exact hmk), [], hh, fun e he => by cases he⟩
      rw [if_neg (by rw [h1]; simp), hd]; exact ⟨rfl, rfl⟩
  | unmount =>
    cases hm : s.mounted
    · have hm' := ha.mounted_iff; rw [hm] at hm'
      refine sim_nop ha (r := if c.posix then .error .einval else .ok .unit) ?_ ?_
      · show reply _ (apiUnmount c) v = _
        unfold reply apiUnmount; simp only [run_bind, run_get, ← hm']
        cases c.posix <;> rfl
      · show if _ then _ else _
        rw [if_pos hm]; exact ⟨rfl, rfl, rfl⟩
    · obtain ⟨hi, h2, h3, h4, h5⟩ := ha.inv hm
      have hrun : exec c .unmount v = reply (fun _ => .unit) coreUnmount v := by
        show reply _ (apiUnmount c) v = _
        unfold reply apiUnmount; simp only [run_bind, run_get, hi.mounted, if_true]
      have hon : s.on .umount = v.transMask.testBit 0 := by unfold Sys.on; rw [h5]; rfl
      by_cases ht : v.readOnly = false ∧ v.transMask.testBit 0 = true
      · obtain ⟨v', e, i', C⟩ := hi.transact ok
        obtain ⟨new, hn, hrec⟩ := hi.commit_recov ok i' C
        have hof := i'.off ok
        refine ⟨.ok .unit, { v'.discardAll with mounted := false }, { s.commit [s.now] with mounted := false }, [s.now],
          hrun.trans (reply_run (r := .ok ()) ?_), ?_, .off rfl hof ?_ ?_, new, hn, fun e he => (hrec e he).mono ?_⟩
        · unfold coreUnmount; simp only [run_bind, run_get, ht.1, ht.2, Bool.not_false, Bool.and_self, if_true, e, run_modify]
        · show if _ then _ else _
          rw [if_neg (by rw [hm]; simp), if_pos ⟨by rw [h4]; exact ht.1, by rw [hon]; exact ht.2⟩]
          exact ⟨rfl, rfl, rfl⟩
        · show (s.commit [s.now]).disk = some (stFiles c v'.base v'.comm)
          rw [i'.comm_files ok, C.cfiles]; unfold Sys.commit; simp [h2]
        · show s.mask = v'.transMask; rw [C.mask]; exact h5
        · intro x hx
          rw [← h3, ← h2] at hx; simpa using hx
      · have hof := hi.off ok
        refine ⟨.ok .unit, { v.discardAll with mounted := false }, { s.commit [] with mounted := false }, [],
          hrun.trans (reply_run (r := .ok ()) ?_), ?_, .off rfl hof ?_ h5, [], rfl, fun e he => by cases he⟩
        · unfold coreUnmount; simp only [run_bind, run_get]
          rw [if_neg (by intro hh; rw [Bool.and_eq_true] at hh; exact ht ⟨by simpa using hh.1, hh.2⟩)]; rfl
        · show if _ then _ else _
          rw [if_neg (by rw [hm]; simp), if_neg (by rw [h4, hon]; exact ht)]
          exact ⟨rfl, rfl, rfl⟩
        · show (s.commit []).disk = some (stFiles c v.base v.comm)
          rw [hi.comm_files ok]; exact h3

/-- What is committed after a call was committed before it or by it. -/
theorem Spec.Does.last {k : Call} {s s' : Sys} {r : Except Err Reply} {tr : List Files} (h : Spec.Does c k s r s' tr) :
    s'.disk ∈ s.disk :: tr.map some := by
  have cm : ∀ (s : Sys) (tr : List Files), (s.commit tr).disk ∈ s.disk :: tr.map some := by
    intro s tr
    unfold Sys.commit
    cases hl : tr.getLast? with
    | none => exact List.mem_cons.2 (Or.inl rfl)
    | some F => exact List.mem_cons.2 (Or.inr (List.mem_map.2 ⟨F, List.mem_of_getLast? hl, rfl⟩))
  have mod : ∀ {ev : Event} {R : Files → Except Err Reply → Files → Prop}, Spec.Modify ev R s r s' tr → s'.disk ∈ s.disk :: tr.map some := by
    intro ev R h
    unfold Spec.Modify at h
    split at h
    · rw [h.2.1]; exact List.mem_cons.2 (Or.inl rfl)
    · split at h
      · rw [h.2.1]; exact List.mem_cons.2 (Or.inl rfl)
      · obtain ⟨pre, F, _, _, _, h⟩ := h
        rw [h]; exact cm s tr
  have ask : ∀ {Q : Files → Except Err Reply → Prop}, Spec.Ask Q s r s' tr → s'.disk ∈ s.disk :: tr.map some := by
    intro Q h; rw [h.1]; exact List.mem_cons.2 (Or.inl rfl)
  have same : ∀ {s' : Sys}, s'.disk = s.disk → s'.disk ∈ s.disk :: tr.map some := fun h => by rw [h]; exact List.mem_cons.2 (Or.inl rfl)
  cases k with
  | create => exact mod h
  | link => exact mod h
  | unlink => exact mod h
  | rename => exact mod h
  | write => exact mod h
  | truncate => exact mod h
  | lookup => exact ask h
  | dirRead => exact ask h
  | dirParent => exact ask h
  | read => exact ask h
  | stat => exact ask h
  | fileSize => exact ask h
  | statfs => exact ask h
  | maskGet => exact ask (Q := fun _ r => r = .ok (.num s.mask)) h
  | maskSet mask =>
    obtain ⟨_, h⟩ := h
    split at h
    · rw [h.2]; exact same rfl
    · split at h <;> (rw [h.2]; exact same rfl)
  | transact =>
    have h : if _ then _ else _ := h
    split at h
    · rw [h.2.1]; exact same rfl
    · split at h
      · rw [h.2.1]; exact same rfl
      · rw [h.2.2, h.2.1]; simp
  | rollback =>
    obtain ⟨_, h⟩ := h
    split at h
    · rw [h.2]; exact same rfl
    · split at h
      · rw [h.2]; exact same rfl
      · obtain ⟨_, F, _, h⟩ := h; rw [h]; exact same rfl
  | mount ro =>
    obtain ⟨_, h⟩ := h
    split at h
    · rw [h.1]; exact same rfl
    · split at h
      · rw [h.2]; exact same rfl
      · rw [h.2]; exact same rfl
  | unmount =>
    have h : if _ then _ else _ := h
    split at h
    · rw [h.1]; exact same rfl
    · rw [h.2.2]; exact cm s tr

/-- Only mounting and unmounting change whether a volume is mounted. -/
theorem Spec.Does.mounted {k : Call} {s s' : Sys} {r : Except Err Reply} {tr : List Files} (h : Spec.Does c k s r s' tr)
    (hu : k ≠ .unmount) (hm : s.mounted = true ∨ ∀ ro, k ≠ .mount ro) : s'.mounted = s.mounted := by
  have mod : ∀ {ev : Event} {R : Files → Except Err Reply → Files → Prop}, Spec.Modify ev R s r s' tr → s'.mounted = s.mounted := by
    intro ev R h
    unfold Spec.Modify at h
    split at h
    · rw [h.2.1]
    · split at h
      · rw [h.2.1]
      · obtain ⟨pre, F, _, _, _, h⟩ := h
        rw [h]; rfl
  have ask : ∀ {Q : Files → Except Err Reply → Prop}, Spec.Ask Q s r s' tr → s'.mounted = s.mounted := fun h => by rw [h.1]
  cases k with
  | create => exact mod h
  | link => exact mod h
  | unlink => exact mod h
  | rename => exact mod h
  | write => exact mod h
  | truncate => exact mod h
  | lookup => exact ask h
  | dirRead => exact ask h
  | dirParent => exact ask h
  | read => exact ask h
  | stat => exact ask h
  | fileSize => exact ask h
  | statfs => exact ask h
  | maskGet => exact ask (Q := fun _ r => r = .ok (.num s.mask)) h
  | maskSet mask =>
    obtain ⟨_, h⟩ := h
    split at h
    · rw [h.2]
    · split at h <;> rw [h.2]
  | transact =>
    have h : if _ then _ else _ := h
    split at h
    · rw [h.2.1]
    · split at h
      · rw [h.2.1]
      · rw [h.2.2]
  | rollback =>
    obtain ⟨_, h⟩ := h
    split at h
    · rw [h.2]
    · split at h
      · rw [h.2]
      · obtain ⟨_, F, _, h⟩ := h; rw [h]
  | mount ro =>
    obtain ⟨_, h⟩ := h
    rcases hm with hm | hm
    · rw [if_pos hm] at h; rw [h.1]
    · exact absurd rfl (hm ro)
  | unmount => exact absurd rfl hu

/-- Only one call changes the mask. -/
theorem Spec.Does.mask {k : Call} {s s' : Sys} {r : Except Err Reply} {tr : List Files} (h : Spec.Does c k s r s' tr)
    (hu : ∀ m, k ≠ .maskSet m) : s'.mask = s.mask := by
  have mod : ∀ {ev : Event} {R : Files → Except Err Reply → Files → Prop}, Spec.Modify ev R s r s' tr → s'.mask = s.mask := by
    intro ev R h
    unfold Spec.Modify at h
    split at h
    · rw [h.2.1]
    · split at h
      · rw [h.2.1]
      · obtain ⟨pre, F, _, _, _, h⟩ := h
        rw [h]; rfl
  have ask : ∀ {Q : Files → Except Err Reply → Prop}, Spec.Ask Q s r s' tr → s'.mask = s.mask := fun h => by rw [h.1]
  cases k with
  | create => exact mod h
  | link => exact mod h
  | unlink => exact mod h
  | rename => exact mod h
  | write => exact mod h
  | truncate => exact mod h
  | lookup => exact ask h
  | dirRead => exact ask h
  | dirParent => exact ask h
  | read => exact ask h
  | stat => exact ask h
  | fileSize => exact ask h
  | statfs => exact ask h
  | maskGet => exact ask (Q := fun _ r => r = .ok (.num s.mask)) h
  | maskSet mask => exact absurd rfl (hu mask)
  | transact =>
    have h : if _ then _ else _ := h
    split at h
    · rw [h.2.1]
    · split at h
      · rw [h.2.1]
      · rw [h.2.2]
  | rollback =>
    obtain ⟨_, h⟩ := h
    split at h
    · rw [h.2]
    · split at h
      · rw [h.2]
      · obtain ⟨_, F, _, h⟩ := h; rw [h]
  | mount ro =>
    obtain ⟨_, h⟩ := h
    split at h
    · rw [h.1]
    · split at h
      · rw [h.2]
      · rw [h.2]
  | unmount =>
    have h : if _ then _ else _ := h
    split at h
    · rw [h.1]
    · rw [h.2.2]; rfl

/-! ### format -/

theorem Abs.unmounted (ha : Abs c v s) (hm : s.mounted = false) (h0 : v.almostFree = 0) : Unmounted v := by
  cases ha with
  | up h1 => rw [h1] at hm; cases hm
  | off h1 ho hd hmk =>
    obtain ⟨i, d⟩ := ho.disk
    refine ⟨ho.mounted, fun x hx => ?_, h0⟩
    rw [d.cached]; exact onDisk_clean v x hx
  | none h1 hb hd hmk =>
    obtain ⟨D, b, _⟩ := hb
    obtain ⟨b1, b2, b3⟩ := b.conn
    exact ⟨b.mounted, fun x _ => by rw [b1, b2], h0⟩

theorem format_sim (hc : c.SysOk) (ha : Abs c v s) (hm : s.mounted = false) (h0 : v.almostFree = 0) :
    ∃ v', volFormat c v = (.ok (), v') ∧ Abs c { v' with hist := [] } { s with disk := some (formatted c) } ∧
      ∀ new, v'.hist = new ++ v.hist → ∀ e ∈ new, ∀ D, FormatImage c e D → ∀ w, Boot w D →
        ∃ s', Abs c w s' ∧ s'.mounted = false ∧ (s'.disk = s.disk ∨ s'.disk = none ∨ s'.disk = some (formatted c)) := by
  have hu := ha.unmounted hm h0
  obtain ⟨v', m, e, F⟩ := volFormat_spec hc.ok hu
  have hof := F.off (Sound c) (sound_formatted hc)
  have hmk : s.mask = v.transMask := by cases ha <;> assumption
  refine ⟨v', e, .off hm hof ?_ ?_, ?_⟩
  · show some (formatted c) = some (stFiles c v'.base m); rw [F.files]
  · show s.mask = v'.transMask; rw [F.transMask]; exact hmk
  intro new hn ep hep D hD w hw
  obtain ⟨el, es, hh, L, hdead⟩ := F.hist
  have hnew : new = el :: es ++ [wipeEpoch v] := by
    rw [hh] at hn
    have : (el :: es ++ [wipeEpoch v]) ++ v.hist = new ++ v.hist := by rw [← hn]; simp
    exact (List.append_cancel_right this).symm
  have blank : (∀ mm, D 0 ≠ .master mm) → ∃ s', Abs c w s' ∧ s'.mounted = false ∧ (s'.disk = s.disk ∨ s'.disk = none ∨ s'.disk = some (formatted c)) := by
    intro h
    exact ⟨⟨false, false, w.transMask, fun _ => .none, .none⟩, .none rfl ⟨D, hw, fun mm h' => absurd h' (h mm)⟩ rfl rfl, rfl, Or.inr (Or.inl rfl)⟩
  rw [hnew] at hep
  have hep : ep = el ∨ ep ∈ es ∨ ep = wipeEpoch v := by simpa using hep
  rcases hep with rfl | hep | rfl
  · -- the new master block
    by_cases hdz : ep.dirty 0 = true
    · rcases hD.master hdz with h | h | h
      · exact blank (fun mm h' => by rw [h, L.zero] at h'; cases h')
      · -- everything is there
        have hDD : D = v'.base := by
          funext x
          by_cases hx : x = 0
          · subst hx; rw [h, L.fin]
          · rw [hD.image.kept x (L.other x hx).1, (L.other x hx).2]
        subst hDD
        -- the disk of the formatted volume
        have hcl : CrashImage c ({ v' with hist := [] } : Vol).epoch v'.base :=
          ⟨fun x _ => rfl, fun x _ hd => by rw [show ({ v' with hist := [] } : Vol).epoch.dirty x = v'.dirty x from rfl, F.clean] at hd; cases hd⟩
        obtain ⟨s', h1, h2, h3⟩ := (Abs.off (s := { s with disk := some (formatted c) }) hm hof (by show some (formatted c) = some (stFiles c v'.base m); rw [F.files])
          (by show s.mask = v'.transMask; rw [F.transMask]; exact hmk)).idle hc.ok v'.base hcl w hw
        exact ⟨s', h1, h2, Or.inr (Or.inr (List.mem_singleton.1 h3))⟩
      · exact blank h
    · exact blank (fun mm h' => by
        rw [hD.image.kept 0 (by simpa using hdz), L.zero] at h'; cases h')
  · obtain ⟨d1, d2⟩ := hdead ep hep
    exact blank (fun mm h' => by rw [hD.image.kept 0 d2, d1] at h'; cases h')
  · rcases hD.master rfl with h | h | h
    · -- the old volume
      have hci : CrashImage c v.epoch D := by
        refine ⟨fun x hx => ?_, fun x hx hd => ?_⟩
        · by_cases h0 : x = 0
          · subst h0; exact h
          · exact hD.image.kept x (by show (if x = 0 then true else v.dirty x) = false; rw [if_neg h0]; exact hx)
        · have hx0 : x ≠ 0 := by omega
          have := hD.image.metaroot x hx (by show (if x = 0 then true else v.dirty x) = true; rw [if_neg hx0]; exact hd)
          rcases this with t | t | t
          · exact Or.inl t
          · refine Or.inr (Or.inl ?_)
            rw [t]; show (if x = 0 then _ else v.blk x) = if v.dirty x then v.blk x else v.base x
            rw [if_neg hx0, if_pos (show v.dirty x = true from hd)]
          · exact Or.inr (Or.inr t)
      obtain ⟨s', h1, h2, h3⟩ := ha.idle hc.ok D hci w hw
      exact ⟨s', h1, h2, Or.inl (List.mem_singleton.1 h3)⟩
    · exact blank (fun mm h' => by
        rw [h] at h'; cases h')
    · exact blank h

/-! ### initializing the driver again -/

theorem init_sim (ha : Abs c v s) (hm : s.mounted = false) (mask : Nat) : Abs c (coreInit mask v) { s with mask := mask } := by
  cases ha with
  | up h1 => rw [h1] at hm; cases hm
  | off h1 ho hd hmk =>
    obtain ⟨i, d⟩ := ho.disk
    exact .off h1 ⟨⟨i, d.master, d.low, d.sel, d.mrOk, d.clean, rfl, d.epochs⟩, ho.good, ho.hist, rfl⟩ hd rfl
  | none h1 hb hd hmk =>
    obtain ⟨D, b, hno⟩ := hb
    obtain ⟨b1, b2, b3⟩ := b.conn
    refine .none h1 ⟨D, ⟨⟨?_, b2, b3⟩, b.hist, rfl, rfl⟩, hno⟩ hd rfl
    funext x; show v.onDisk x = D x; unfold Vol.onDisk; rw [b3, b2]; rfl

/-! ### refinement -/

theorem Run.refines (hc : c.SysOk) {v0 v : Vol} {s0 : Sys} {t : List Ev} (h0 : Abs c v0 s0) (h : Run c v0 t v) : ∃ s, SRun c s0 t s ∧ Abs c v s := by
  induction h with
  | nil => exact ⟨s0, .nil, h0⟩
  | call hr hk he ih =>
    obtain ⟨s, h1, h2⟩ := ih
    obtain ⟨r, v', s', tr, e, d, a, _⟩ := exec_sim hc h2 hk
    rw [he] at e; obtain ⟨rfl, rfl⟩ := Prod.mk.inj e
    exact ⟨s', .call h1 d, a⟩
  | @crash t v v' w k r new e D hr hk he hn hin hD hw ih =>
    obtain ⟨s, h1, h2⟩ := ih
    obtain ⟨r, v'', s', tr, e', d, a, new', hn', hrec⟩ := exec_sim hc h2 hk
    rw [he] at e'; obtain ⟨rfl, rfl⟩ := Prod.mk.inj e'
    have hnn : new = new' := by rw [hn'] at hn; exact (List.append_cancel_right hn).symm
    subst hnn
    rcases List.mem_cons.1 hin with rfl | hin
    · obtain ⟨s1, g1, g2, g3⟩ := a.idle hc.ok D hD w hw
      refine ⟨s1, .crash h1 ⟨g2, r, s', tr, d, ?_⟩, g1⟩
      rw [List.mem_singleton.1 g3]
      exact d.last
    · obtain ⟨s1, g1, g2, g3⟩ := hrec e hin D hD w hw
      exact ⟨s1, .crash h1 ⟨g2, r, s', tr, d, g3⟩, g1⟩
  | idleCrash hr hD hw ih =>
    obtain ⟨s, h1, h2⟩ := ih
    obtain ⟨s1, g1, g2, g3⟩ := h2.idle hc.ok _ hD _ hw
    exact ⟨s1, .idleCrash h1 g2 (List.mem_singleton.1 g3), g1⟩
  | @format t v v' r hr ha hf ih =>
    obtain ⟨s, h1, h2⟩ := ih
    have hmi := h2.mounted_iff
    cases hm : v.mounted
    · rw [hm] at hmi ha
      obtain ⟨v'', e, a, _⟩ := format_sim hc h2 hmi (by simpa using ha)
      rw [hf] at e; obtain ⟨rfl, rfl⟩ := Prod.mk.inj e
      exact ⟨_, .format h1 hmi rfl, a⟩
    · rw [hm] at hmi
      have : volFormat c v = (.error .ebusy, v) := by unfold volFormat; simp only [run_bind, run_get, hm]; rfl
      rw [hf] at this; obtain ⟨rfl, rfl⟩ := Prod.mk.inj this
      exact ⟨s, .busy h1 hmi, h2⟩
  | formatCrash hr ha hm hf hn hin hD hw ih =>
    obtain ⟨s, h1, h2⟩ := ih
    have hmi := h2.mounted_iff; rw [hm] at hmi
    obtain ⟨v'', e, a, hc'⟩ := format_sim hc h2 hmi ha
    rw [hf] at e; obtain ⟨rfl, rfl⟩ := Prod.mk.inj e
    obtain ⟨s', g1, g2, g3⟩ := hc' _ hn _ hin _ hD _ hw
    exact ⟨s', .formatCrash h1 hmi g2 g3, g1⟩
  | init hr hm ih =>
    obtain ⟨s, h1, h2⟩ := ih
    have hmi := h2.mounted_iff; rw [hm] at hmi
    exact ⟨_, .init h1 hmi rfl, init_sim h2 hmi _⟩

/-- The state of a system without a volume. -/
theorem Blank.abs (h : Blank c v) : Abs c v ⟨false, false, v.transMask, fun _ => none, none⟩ := .none rfl h rfl rfl

theorem Reach.abs (hc : c.SysOk) (h : Reach c v) : ∃ s, Abs c v s := by
  obtain ⟨v0, t, hb, hr⟩ := h
  obtain ⟨s, _, ha⟩ := hr.refines hc hb.abs
  exact ⟨s, ha⟩

end RedFs
