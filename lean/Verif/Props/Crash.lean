import Verif.Lemmas.Blank
set_option linter.unusedVariables false
set_option linter.unusedSimpArgs false
/-!
Commit, power loss, mount and rollback at block level: C01-C04, C06.

`VolInv` is the invariant of a mounted volume.  That every file system operation keeps it
(relation `Step`) is proved with the operations; see `Props/Reach.lean`.
-/
namespace RedFs.Props.Crash
open RedFs
open M

variable {c : Conf} {v v' : Vol} {b : Nat}

/-- **C01** Power loss never loses the last transaction point.  At whatever moment power
fails in the history of a volume, i.e. during whatever epoch, and whatever subset of the
unflushed writes reached the disk (torn and reordered as may be), the volume mounts and
shows the state committed when the epoch began or - only in the epoch in which a metaroot
was written - the state that metaroot commits, complete. -/
theorem C01_crash_recovers_committed (hc : c.Ok) (h : VolInv c v) (hmt : v.mounted = true) : ∀ e ∈ v.epochs, EpochSafe c e := by
  intro e he
  rcases List.mem_cons.1 he with rfl | he
  · exact (h.epoch_ok hc hmt).safe
  · exact (h.epochs hmt e he).safe

/-- **C01** (corollary) Between transactions a power loss always restores exactly the last
committed state: the state found has the metaroot of the last commit, and each block of it
has the contents it had at that commit. -/
theorem C01_crash_between_transactions (hc : c.Ok) (h : VolInv c v) (hmt : v.mounted = true) {D : Nat → Blk} (hD : CrashImage c v.epoch D)
    {v0 : Vol} (h0 : Connected v0 D) (ro : Bool) :
    ∃ v1, volMount c ro v0 = (.ok (), v1) ∧ v1.comm = v.comm ∧ v1.work = v.comm ∧
      ∀ b, InState c v.blk v.comm b → v1.blk b = v.blk b := by
  obtain ⟨v1, h1, h2, _, _, hw, h3 | ⟨m, h3, _⟩⟩ := (h.epoch_ok hc hmt).safe D hD v0 h0 ro
  · refine ⟨v1, h1, h3.1, hw.trans h3.1, ?_⟩
    intro b hb
    have hb' : InState c v.base v.comm b :=
      (InState_congr hc (fun hi k hk => ((h.ok.clean hi k hk).2).symm)).2 hb
    rw [h2, h3.2 b hb', (h.comm_clean hc hb').2]
    rfl
  · cases h3

/-- **C02** Nothing in use by the committed state is overwritten before the next commit:
in every epoch, no block of the state that is committed when the epoch begins has been
written, nor the metaroot of that state, nor the master block. -/
theorem C02_committed_never_overwritten (hc : c.Ok) (h : VolInv c v) (hmt : v.mounted = true) {e : Epoch} (he : e ∈ v.epochs) :
    (∀ b, InState c e.base e.comm b → e.dirty b = false) ∧
    (∃ b, (b = 1 ∨ b = 2) ∧ e.base b = .metaroot e.comm ∧ e.dirty b = false) ∧ e.dirty 0 = false := by
  have hok : EpochOk c e := by
    rcases List.mem_cons.1 he with rfl | he
    · exact h.epoch_ok hc hmt
    · exact h.epochs hmt e he
  refine ⟨hok.clean, ?_, hok.master_clean⟩
  obtain ⟨i, _, h1, h2, _⟩ := hok.sel
  exact ⟨mrBlk i, by cases i <;> simp [mrBlk], h2, h1⟩

/-- **C03** A successful commit makes everything durable: after it, any power loss before
the next metaroot write restores the state that was the working state when the commit was
requested - its allocation map, its free inode count, and the contents of all its blocks. -/
theorem C03_transact_durable (hc : c.Ok) (h : VolInv c v) (hmt : v.mounted = true) {v2 : Vol}
    (hr : volTransact v = (.ok (), v')) (hs : Step c v' v2) {D : Nat → Blk} (hD : CrashImage c v2.epoch D)
    {v0 : Vol} (h0 : Connected v0 D) (ro : Bool) :
    ∃ v1, volMount c ro v0 = (.ok (), v1) ∧ v1.work.entries = v.work.entries ∧
      v1.work.freeInodes = v.work.freeInodes ∧ v1.work.freeBlocks = v.work.freeBlocks + v.almostFree ∧
      ∀ b, InState c v.blk v.work b → v1.blk b = v.blk b := by
  obtain ⟨vx, h1, h2, _⟩ := volTransact_spec hc h
  rw [h1] at hr; cases hr
  have hi2 := hs.inv hc h2.inv
  obtain ⟨v1, r1, r2, r3, r4⟩ := C01_crash_between_transactions hc hi2 (hs.mounted.trans (h2.mounted.trans hmt)) hD h0 ro
  refine ⟨v1, r1, ?_, ?_, ?_, ?_⟩
  · rw [r3, hs.comm, h2.entries]
  · rw [r3, hs.comm, h2.freeInodes]
  · rw [r3, hs.comm, h2.freeBlocks]
  · intro b hb
    have hge := hb.ge
    -- the same blocks form the new committed state
    have key : InState c v'.blk v'.comm b := by
      rcases hb with ⟨hi, k, hk, rfl⟩ | ⟨hb, hbit⟩
      · exact Or.inl ⟨hi, k, hk, (nodeBlk_eq_of_bit (by rw [h2.entries]))⟩
      · exact Or.inr ⟨hb, by rw [imapBit_low h2.entries h2.blk]; exact hbit⟩
    have key2 : InState c v2.blk v2.comm b := by
      rw [hs.comm]; exact (InState_congr hc (fun hi k hk => hs.cmtNode hi k hk)).2 key
    rw [r4 b key2, ← h2.blk b hge]
    rcases key with ⟨hi, k, hk, rfl⟩ | ⟨hb, hbit⟩
    · exact hs.cmtNode hi k hk
    · exact (hs.keep b hb hbit).1

/-- **C04** Rollback restores the last transaction point exactly: afterwards the working
state is the committed one - metaroot (free space, maps) and contents of every block. -/
theorem C04_rollback_exact (hc : c.Ok) (h : VolInv c v) (hmt : v.mounted = true) (hro : v.readOnly = false) :
    ∃ v', volRollback c v = (.ok (), v') ∧ VolInv c v' ∧ v'.work = v.comm ∧ v'.comm = v.comm ∧
      (∀ b, InState c v.blk v.comm b → v'.blk b = v.blk b) := by
  obtain ⟨v1, h1, h2, h3, h4, h5, _⟩ := volRollback_spec hc h hmt hro
  refine ⟨v1, h1, h2, h4, h3, ?_⟩
  intro b hb
  exact h5 b ((InState_congr hc (fun hi k hk => ((h.ok.clean hi k hk).2).symm)).2 hb)

/-- A rollback after a commit and any further operations returns to the state at the commit. -/
theorem C04_rollback_after_transact (hc : c.Ok) (h : VolInv c v) (hmt : v.mounted = true) {v2 : Vol} (hr : volTransact v = (.ok (), v'))
    (hs : Step c v' v2) (hro : v2.readOnly = false) :
    ∃ v3, volRollback c v2 = (.ok (), v3) ∧ v3.work.entries = v.work.entries ∧
      v3.work.freeInodes = v.work.freeInodes ∧
      ∀ b, InState c v.blk v.work b → v3.blk b = v.blk b := by
  obtain ⟨vx, h1, h2, _⟩ := volTransact_spec hc h
  rw [h1] at hr; cases hr
  obtain ⟨v3, r1, r2, r3, r4, r5⟩ := C04_rollback_exact hc (hs.inv hc h2.inv) (hs.mounted.trans (h2.mounted.trans hmt)) hro
  refine ⟨v3, r1, by rw [r3, hs.comm, h2.entries], by rw [r3, hs.comm, h2.freeInodes], ?_⟩
  intro b hb
  have hge := hb.ge
  have key : InState c v'.blk v'.comm b := by
    rcases hb with ⟨hi, k, hk, rfl⟩ | ⟨hb, hbit⟩
    · exact Or.inl ⟨hi, k, hk, (nodeBlk_eq_of_bit (by rw [h2.entries]))⟩
    · exact Or.inr ⟨hb, by rw [imapBit_low h2.entries h2.blk]; exact hbit⟩
  have key2 : InState c v2.blk v2.comm b := by
    rw [hs.comm]; exact (InState_congr hc (fun hi k hk => hs.cmtNode hi k hk)).2 key
  rw [r5 b key2, ← h2.blk b hge]
  rcases key with ⟨hi, k, hk, rfl⟩ | ⟨hb, hbit⟩
  · exact hs.cmtNode hi k hk
  · exact (hs.keep b hb hbit).1

/-! ### C06 -/

/-- **C06** Mount uses the valid metaroot with the greater sequence number; if one of the
two is damaged it uses the other one - provided that, on a device declared to write sectors
atomically, the damaged one has an intact first sector. -/
theorem C06_mount_selects_newest {D : Nat → Blk} {mm : Master} (h0 : Connected v D) (hm : D 0 = .master mm)
    (hmm : masterMatches c mm = true) (ro : Bool) :
    (∀ m0 m1, D 1 = .metaroot m0 → D 2 = .metaroot m1 →
      ∃ v', volMount c ro v = (.ok (), v') ∧ v'.comm = (if m0.seq < m1.seq then m1 else m0) ∧ v'.work = v'.comm ∧
        v'.cur = decide (¬ m0.seq < m1.seq)) ∧
    (∀ m0, D 1 = .metaroot m0 → mrValid (D 2) = none → (c.atomicSector = true → mrSectorOk (D 2) = true) →
      ∃ v', volMount c ro v = (.ok (), v') ∧ v'.comm = m0 ∧ v'.work = m0 ∧ v'.cur = true) ∧
    (∀ m1, D 2 = .metaroot m1 → mrValid (D 1) = none → (c.atomicSector = true → mrSectorOk (D 1) = true) →
      ∃ v', volMount c ro v = (.ok (), v') ∧ v'.comm = m1 ∧ v'.work = m1 ∧ v'.cur = false) := by
  refine ⟨?_, ?_, ?_⟩
  · intro m0 m1 e0 e1
    by_cases hlt : m0.seq < m1.seq
    · have hs : mrSelect c (D 1) (D 2) = some (true, m1) := by
        rw [e0, e1]; simp [mrSelect, mrValid, hlt]
      exact ⟨_, volMount_ok h0 hm hmm hs ro, by rw [if_pos hlt]; rfl, rfl, by simp [hlt]⟩
    · have hs : mrSelect c (D 1) (D 2) = some (false, m0) := by
        rw [e0, e1]; simp [mrSelect, mrValid, hlt]
      exact ⟨_, volMount_ok h0 hm hmm hs ro, by rw [if_neg hlt]; rfl, rfl, by simp [hlt]⟩
  · intro m0 e0 e1 ha
    have hs : mrSelect c (D 1) (D 2) = some (false, m0) := by
      rw [e0]; unfold mrSelect; rw [e1]; simp only [mrValid]
      rw [if_neg]; rintro ⟨a, b⟩; rw [ha a] at b; cases b
    exact ⟨_, volMount_ok h0 hm hmm hs ro, rfl, rfl, rfl⟩
  · intro m1 e1 e0 ha
    have hs : mrSelect c (D 1) (D 2) = some (true, m1) := by
      rw [e1]; unfold mrSelect; rw [e0]; simp only [mrValid]
      rw [if_neg]; rintro ⟨a, b⟩; rw [ha a] at b; cases b
    exact ⟨_, volMount_ok h0 hm hmm hs ro, rfl, rfl, rfl⟩

/-- **C06** If neither metaroot is valid, or the master block is missing or does not match
the configuration, mount fails with EIO; neither the disk nor the cache is modified and the
volume does not become mounted. -/
theorem C06_mount_fails_clean {D : Nat → Blk} (h0 : Connected v D) (ro : Bool)
    (h : (mrValid (D 1) = none ∧ mrValid (D 2) = none) ∨ (∀ mm, D 0 = .master mm → masterMatches c mm = false)) :
    ∃ v', volMount c ro v = (.error .eio, v') ∧ v'.blk = D ∧ v'.base = D ∧ v'.dirty = (fun _ => false) ∧
      v'.mounted = v.mounted ∧ v'.hist = v.hist ∧ v'.mr = v.mr := by
  obtain ⟨hb, hba, hd⟩ := h0
  have hD : ∀ x, v.onDisk x = D x := by intro x; unfold Vol.onDisk; rw [hd, hba]; rfl
  have hdis : ∀ s, ({ v with seq := s } : Vol).discardAll.blk = D := by
    intro s; funext x; exact hD x
  have hsel : (mrValid (D 1) = none ∧ mrValid (D 2) = none) → mrSelect c (D 1) (D 2) = none := by
    rintro ⟨a, b⟩; unfold mrSelect; rw [a, b]
  unfold volMount
  simp only [run_bind, run_attempt]
  by_cases hmast : ∃ mm, D 0 = .master mm ∧ masterMatches c mm = true
  · obtain ⟨mm, e0, e1⟩ := hmast
    have hno : mrValid (D 1) = none ∧ mrValid (D 2) = none := by
      rcases h with h | h
      · exact h
      · rw [h mm e0] at e1; cases e1
    have hmm : mountMaster c v = (.ok (), { v with seq := mm.seq }) := by
      unfold mountMaster; simp only [run_bind, run_get, hb, e0, e1, if_true, run_modify]
    have hs2 : mrSelect c (({ v with seq := mm.seq } : Vol).onDisk 1) (({ v with seq := mm.seq } : Vol).onDisk 2) = none := by
      rw [← hsel hno, ← hD 1, ← hD 2]; rfl
    have hmr : mountMetaroot c ro { v with seq := mm.seq } = (.error .eio, { v with seq := mm.seq }) := by
      unfold mountMetaroot; simp only [run_bind, run_get]; rw [hs2]; rfl
    simp only [hmm, hmr, run_modify, run_fail]
    exact ⟨_, rfl, hdis _, hba, hd, rfl, rfl, rfl⟩
  · have hmm : mountMaster c v = (.error .eio, v) := by
      unfold mountMaster; simp only [run_bind, run_get, hb]
      cases e : D 0 with
      | master m =>
        have : masterMatches c m = false := by
          cases hq : masterMatches c m
          · rfl
          · exact absurd ⟨m, e, hq⟩ hmast
        simp [this]
      | _ => rfl
    simp only [hmm, run_modify, run_fail]
    exact ⟨_, rfl, hdis v.seq, hba, hd, rfl, rfl, rfl⟩

/-! ### the hypotheses are met -/

/-- A volume with one allocated, written, committed block and a second, uncommitted one:
its history has finished epochs, one of them a metaroot write. -/
theorem demo_history : ∃ v1 : Vol, ∃ b1 b2, VolInv demoConf v1 ∧ v1.mounted = true ∧ v1.hist.length = 2 ∧ (∃ e ∈ v1.hist, e.next ≠ none) ∧
    cmtBit demoConf v1 b1 = true ∧ v1.blk b1 = .data (fun _ => 7) ∧ curBit demoConf v1 b2 = true ∧
    cmtBit demoConf v1 b2 = false ∧ v1.dirty b2 = true ∧ v1.readOnly = false ∧ v1.branched = true := by
  have hc := demo_ok
  have h0 := blank_inv hc
  have hf := Conf.Ok.first_ge demoConf
  have a0 := imapAlloc_spec hc h0.ok h0.space (by decide)
  rcases hr0 : imapAllocBlock demoConf (blankVol demoConf) with ⟨r, w1⟩
  obtain ⟨b1, rfl, a1⟩ := wp_run a0 hr0
  have i1 := a1.step.inv hc h0
  have m1 : InMap demoConf b1 := ⟨by have := a1.lo; omega, a1.hi⟩
  have n1 : cmtBit demoConf w1 b1 = false := by rw [a1.cbits b1 m1, a1.wasCmt]
  have s1 := Step.write hc i1.ok i1.space (.data (fun _ => 7)) m1 n1 a1.branched
  have i2 := s1.inv hc i1
  obtain ⟨w3, hr3, c3, _⟩ := volTransact_spec hc i2
  have hrun := transact_run (v := w1.write b1 (.data (fun _ => 7))) a1.branched i2.dev
  rw [hr3] at hrun
  have hw3 := (Prod.mk.inj hrun).2
  have fb3 : w3.work.freeBlocks = 48 := by
    rw [c3.work, c3.freeBlocks]
    show w1.work.freeBlocks + w1.almostFree = 48
    have := a1.freeBlocks; have := a1.almost
    have e1 : (blankVol demoConf).work.freeBlocks = 49 := by decide
    have e2 : (blankVol demoConf).almostFree = 0 := rfl
    omega
  have a4 := imapAlloc_spec hc c3.inv.ok c3.inv.space (by omega)
  rcases hr4 : imapAllocBlock demoConf w3 with ⟨r, w4⟩
  obtain ⟨b2, rfl, a5⟩ := wp_run a4 hr4
  have i4 := a5.step.inv hc c3.inv
  have m2 : InMap demoConf b2 := ⟨by have := a5.lo; omega, a5.hi⟩
  have n2 : cmtBit demoConf w4 b2 = false := by rw [a5.cbits b2 m2, a5.wasCmt]
  have s5 := Step.write hc i4.ok i4.space (.data (fun _ => 9)) m2 n2 a5.branched
  have cb1 : cmtBit demoConf w3 b1 = true := by
    have : cmtBit demoConf w3 b1 = curBit demoConf (w1.write b1 (.data (fun _ => 7))) b1 := imapBit_low c3.entries c3.blk b1
    rw [this]
    show imapBit demoConf (w1.write b1 _).blk w1.work b1 = true
    rw [imapBit_congr hc (fun hi k hk => by exact absurd hi (by decide)) m1]
    have := a1.bits b1 m1; rw [if_pos rfl] at this; exact this
  have hne : b1 ≠ b2 := by
    rintro rfl; rw [a5.wasCmt] at cb1; cases cb1
  refine ⟨w4.write b2 (.data (fun _ => 9)), b1, b2, s5.inv hc i4, (by rw [s5.mounted, a5.step.mounted, c3.mounted, s1.mounted, a1.step.mounted]; rfl), ?_, ?_, ?_, ?_, ?_, ?_, ?_, ?_, ?_⟩
  · show w4.hist.length = 2
    rw [a5.hist, hw3]
    show w1.hist.length + 2 = 2
    rw [a1.hist]; rfl
  · show ∃ e ∈ w4.hist, _
    rw [a5.hist, hw3]
    exact ⟨_, List.mem_cons_self, by simp⟩
  · rw [s5.cbits hc m1, a5.cbits b1 m1]; exact cb1
  · rw [Vol.write_blk, if_neg hne, a5.blkHi b1 m1.1, c3.blk b1 (by have := m1.1; have := Conf.Ok.table_ge demoConf; omega),
      Vol.write_blk, if_pos rfl]
  · show imapBit demoConf (w4.write b2 _).blk w4.work b2 = true
    rw [imapBit_congr hc (fun hi k hk => by exact absurd hi (by decide)) m2]
    have := a5.bits b2 m2; rw [if_pos rfl] at this; exact this
  · rw [s5.cbits hc m2]; exact n2
  · simp
  · show w4.readOnly = false
    rw [a5.readOnly, c3.readOnly]; show w1.readOnly = false; rw [a1.readOnly]; rfl
  · exact a5.branched

/-- crash images exist, also ones in which a block written in the epoch holds garbage -/
example (v : Vol) (hd : v.dirty 1 = false ∧ v.dirty 2 = false) (g : Nat → Blk) :
    CrashImage c v.epoch (fun b => if v.dirty b then g b else v.base b) where
  kept := fun b hb => by
    have : v.dirty b = false := hb
    simp [this]; rfl
  metaroot := by
    rintro b (rfl | rfl) hb
    · have : v.dirty 1 = true := hb
      rw [hd.1] at this; cases this
    · have : v.dirty 2 = true := hb
      rw [hd.2] at this; cases this

end RedFs.Props.Crash
