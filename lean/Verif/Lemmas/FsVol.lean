import Verif.Lemmas.FsLink
set_option linter.unusedSimpArgs false
set_option linter.unusedVariables false
namespace RedFs
open M Bitmap Vol

variable {c : Conf} {v v' : Vol}

/-- The files of the state rooted at metaroot `m` on disk `D`. -/
def stFiles (c : Conf) (D : Nat → Blk) (m : Metaroot) (i : Nat) : Option AFile := fileOf c D (imapBit c D m) i

/-- A well-formed file system whose files satisfy `P`, on disk. -/
structure Good (c : Conf) (P : (Nat → Option AFile) → Prop) (D : Nat → Blk) (m : Metaroot) : Prop where
  fs : FsOk c D (imapBit c D m) m.freeInodes
  ns : P (stFiles c D m)
  rsv : min c.reserved c.allocable ≤ m.freeBlocks

section
variable {P : (Nat → Option AFile) → Prop} {D D' : Nat → Blk} {m m' : Metaroot}

theorem SameState.node (h : SameState c D m D' m') (hi : c.inline = false) {k : Nat} (hk : k < c.nodeCount) :
    D' (nodeBlk c m k) = D (nodeBlk c m k) := h.2 _ (Or.inl ⟨hi, k, hk, rfl⟩)

theorem SameState.bits (hc : c.Ok) (h : SameState c D m D' m') {x : Nat} (hx : InMap c x) : imapBit c D' m' x = imapBit c D m x := by
  rw [h.1]; exact imapBit_congr hc (fun hi k hk => h.node hi hk) hx

theorem SameState.blk (hc : c.Ok) (h : SameState c D m D' m') {x : Nat} (hx : InMap c x) (hb : imapBit c D m x = true) : D' x = D x :=
  h.2 x (Or.inr ⟨hx, hb⟩)

theorem Good.files_congr (hc : c.Ok) (g : Good c P D m) (h : SameState c D m D' m') : stFiles c D' m' = stFiles c D m := by
  funext i; exact g.fs.fileOf_eq hc (fun x hx => h.bits hc hx) (fun x hx hb => h.blk hc hx hb) i

theorem Good.congr (hc : c.Ok) (g : Good c P D m) (h : SameState c D m D' m') : Good c P D' m' where
  fs := by rw [h.1]; have := g.fs.congr hc (fun x hx => h.bits hc hx) (fun x hx hb => h.blk hc hx hb); rw [h.1] at this; exact this
  ns := by rw [g.files_congr hc h]; exact g.ns
  rsv := by rw [h.1]; exact g.rsv
end

/-- Both states of an epoch are good. -/
structure EGood (c : Conf) (P : (Nat → Option AFile) → Prop) (e : Epoch) : Prop where
  comm : Good c P e.base e.comm
  next : ∀ m, e.next = some m → Good c P e.base m

/-- The invariant of a mounted volume. -/
structure Inv (c : Conf) (P : (Nat → Option AFile) → Prop) (v : Vol) : Prop where
  wf : Wf c v
  now : P (files c v)
  was : P (committedFiles c v)
  hist : ∀ e ∈ v.hist, EGood c P e
  rsv : min c.reserved c.allocable ≤ tot v
  crsv : min c.reserved c.allocable ≤ v.comm.freeBlocks
  idle : v.useReserved = false
  mounted : v.mounted = true

/-- The invariant of an unmounted volume: `m` is the metaroot in force. -/
structure Off (c : Conf) (P : (Nat → Option AFile) → Prop) (v : Vol) (m : Metaroot) : Prop where
  disk : ∃ i, DiskInv c v i m
  good : Good c P v.base m
  hist : ∀ e ∈ v.hist, EGood c P e
  mounted : v.mounted = false

section
variable {P : (Nat → Option AFile) → Prop}

/-- The committed state is on disk. -/
theorem Wf.comm_same (hc : c.Ok) (h : VolInv c v) : SameState c v.base v.comm v.blk v.comm :=
  ⟨rfl, fun b hb => (h.comm_clean hc hb).2⟩

theorem Wf.comm_same' (hc : c.Ok) (h : VolInv c v) : SameState c v.blk v.comm v.base v.comm :=
  ⟨rfl, fun b hb => by
    have := (InState_congr hc (fun hi k hk => ((h.ok.clean hi k hk).2).symm)).2 hb
    exact (h.comm_clean hc this).2.symm⟩

theorem Inv.comm_good (hc : c.Ok) (h : Inv c P v) : Good c P v.base v.comm :=
  Good.congr hc (D := v.blk) (m := v.comm) ⟨h.wf.cfs, h.was, h.crsv⟩ (Wf.comm_same' hc h.wf.vol)

theorem Inv.comm_files (hc : c.Ok) (h : Inv c P v) : stFiles c v.base v.comm = committedFiles c v :=
  Good.files_congr hc (P := P) (D := v.blk) (m := v.comm) ⟨h.wf.cfs, h.was, h.crsv⟩ (Wf.comm_same' hc h.wf.vol)

theorem Inv.epoch_good (hc : c.Ok) (h : Inv c P v) : EGood c P v.epoch :=
  ⟨h.comm_good hc, fun m hm => by cases hm⟩

theorem Inv.epochs_good (hc : c.Ok) (h : Inv c P v) : ∀ e ∈ v.epochs, EGood c P e := by
  intro e he
  rcases List.mem_cons.1 he with rfl | he
  · exact h.epoch_good hc
  · exact h.hist e he

/-- Ordinary operations. -/
theorem Inv.step (hc : c.Ok) (h : Inv c P v) {I : Nat → Prop} (ch : Ch c v v' I) (hn : P (files c v'))
    (ht : min c.reserved c.allocable ≤ tot v') : Inv c P v' where
  wf := ch.wf
  now := hn
  was := by rw [show committedFiles c v' = committedFiles c v from funext fun i => h.wf.step_committed hc ch.step i]; exact h.was
  hist := by rw [ch.step.hist]; exact h.hist
  rsv := ht
  crsv := by rw [ch.step.comm]; exact h.crsv
  idle := by rw [ch.useReserved]; exact h.idle
  mounted := by rw [ch.step.mounted]; exact h.mounted

/-- A commit. -/
structure Cmtd (c : Conf) (v v' : Vol) : Prop where
  com : Committed c v v'
  files : files c v' = files c v
  cfiles : committedFiles c v' = RedFs.files c v
  free : v'.work.freeBlocks = tot v
  freeInodes : v'.work.freeInodes = v.work.freeInodes
  /-- the epochs of the commit: before it none of them has a new metaroot, in the last the metaroot is that of the new state -/
  epochs : v' = v ∨ ∃ e2 e1, v'.hist = e2 :: e1 :: v.hist ∧ e1 = v.epoch ∧
    (stFiles c e2.base e2.comm = committedFiles c v) ∧ ∃ m, e2.next = some m ∧ stFiles c e2.base m = RedFs.files c v

theorem files_low (hc : c.Ok) {D D' : Nat → Blk} {m m' : Metaroot} {k k' : Nat} (hb : ∀ x, 3 ≤ x → D' x = D x) (he : m'.entries = m.entries)
    (hk : k' = k) (h : FsOk c D (imapBit c D m) k) : FsOk c D' (imapBit c D' m') k' ∧ ∀ i, fileOf c D' (imapBit c D' m') i = fileOf c D (imapBit c D m) i := by
  have h1 : ∀ x, InMap c x → imapBit c D' m' x = imapBit c D m x := fun x _ => imapBit_low he hb x
  have h2 : ∀ x, InMap c x → imapBit c D m x = true → D' x = D x := fun x hx _ => hb x (by have := Conf.Ok.table_ge c; have := hx.1; omega)
  subst hk
  exact ⟨h.congr hc h1 h2, fun i => h.fileOf_eq hc h1 h2 i⟩

theorem Inv.transact (hc : c.Ok) (h : Inv c P v) : ∃ v', volTransact v = (.ok (), v') ∧ Inv c P v' ∧ Cmtd c v v' := by
  obtain ⟨v', e, C, hid⟩ := volTransact_spec hc h.wf.vol
  obtain ⟨f1, f2⟩ := files_low hc (D := v.blk) (D' := v'.blk) (m := v.work) (m' := v'.comm) C.blk C.entries C.freeInodes h.wf.fs
  have hcf : committedFiles c v' = files c v := funext f2
  have hwf : files c v' = files c v := by
    rw [← hcf]; funext i; unfold files committedFiles curBit cmtBit; rw [C.work]
  have hwf' : Wf c v' := ⟨C.inv, by unfold curBit; rw [C.work]; exact f1, f1⟩
  have hfree : v'.work.freeBlocks = tot v := by rw [C.work, C.freeBlocks]; rfl
  have hep : v' = v ∨ ∃ e2 e1, v'.hist = e2 :: e1 :: v.hist ∧ e1 = v.epoch ∧
    (stFiles c e2.base e2.comm = committedFiles c v ∧ EGood c P e2) ∧ ∃ m, e2.next = some m ∧ stFiles c e2.base m = files c v := by
    cases hbr : v.branched
    · left; exact hid hbr
    · right
      have hrun := transact_run hbr h.wf.vol.dev
      rw [e] at hrun
      have hv' := (Prod.mk.inj hrun).2
      have hh : v'.hist = ⟨v.blk, fun i => if i = mrBlk v.cur then true else false,
          fun i => if i = mrBlk v.cur then .metaroot (nextMr v) else v.blk i, v.comm, some (nextMr v)⟩ ::
          v.epoch :: v.hist := by rw [hv']
      have hen : (nextMr v).entries = v.work.entries := rfl
      have hbit : imapBit c v.blk (nextMr v) = curBit c v := by funext x; exact imapBit_low hen (fun _ _ => rfl) x
      have hst : stFiles c v.blk (nextMr v) = files c v := by funext i; unfold stFiles files; rw [hbit]
      refine ⟨_, _, hh, rfl, ⟨rfl, ⟨⟨h.wf.cfs, h.was, h.crsv⟩, ?_⟩⟩, nextMr v, rfl, hst⟩
      intro m hm
      have hm' : some (nextMr v) = some m := hm
      injection hm' with hm'
      rw [← hm']
      exact ⟨by rw [hbit]; exact h.wf.fs, by rw [hst]; exact h.now, h.rsv⟩
  refine ⟨v', e, ⟨hwf', by rw [hwf]; exact h.now, by rw [hcf]; exact h.now, ?_, ?_, ?_, by rw [C.useReserved]; exact h.idle, by rw [C.mounted]; exact h.mounted⟩,
    ⟨C, hwf, hcf, hfree, by rw [C.work, C.freeInodes], ?_⟩⟩
  · rcases hep with rfl | ⟨e2, e1, hh, h1, h2, h3⟩
    · exact h.hist
    · rw [hh]; intro x hx
      rcases List.mem_cons.1 hx with rfl | hx
      · exact h2.2
      · rcases List.mem_cons.1 hx with rfl | hx
        · rw [h1]; exact h.epoch_good hc
        · exact h.hist x hx
  · unfold tot; rw [hfree, C.almost]; have := h.rsv; omega
  · rw [C.freeBlocks]; exact h.rsv
  · rcases hep with rfl | ⟨e2, e1, hh, h1, h2, h3⟩
    · exact Or.inl rfl
    · exact Or.inr ⟨e2, e1, hh, h1, h2.1, h3⟩

/-- A rollback. -/
theorem Inv.rollback (hc : c.Ok) (h : Inv c P v) (hro : v.readOnly = false) :
    ∃ v', volRollback c v = (.ok (), v') ∧ Inv c P v' ∧ files c v' = committedFiles c v ∧ committedFiles c v' = committedFiles c v ∧
      v'.transMask = v.transMask ∧ v'.readOnly = false ∧ v'.hist = v.hist ∧ v'.work = v.comm ∧ v'.almostFree = 0 := by
  obtain ⟨v', e, i1, hcm, hwk, hb, hbr, hh, _, _, htm, hm, hid, hro'⟩ := volRollback_spec hc h.wf.vol h.mounted hro
  have hb' : ∀ b, InState c v.blk v.comm b → v'.blk b = v.blk b := fun b hbb =>
    hb b ((InState_congr hc (fun hi k hk => ((h.wf.vol.ok.clean hi k hk).2).symm)).2 hbb)
  have ss : SameState c v.blk v.comm v'.blk v.comm := ⟨rfl, hb'⟩
  have g : Good c P v.blk v.comm := ⟨h.wf.cfs, h.was, h.crsv⟩
  have g' := g.congr hc ss
  have hf := g.files_congr hc ss
  have hcf : committedFiles c v' = committedFiles c v := by
    rw [show committedFiles c v' = stFiles c v'.blk v'.comm from rfl, hcm]; exact hf
  have hwf : files c v' = committedFiles c v := by
    rw [show files c v' = stFiles c v'.blk v'.work from rfl, hwk]; exact hf
  have hal : v'.almostFree = 0 := by
    have := space_sum i1.space
    have h2 := i1.commFree
    rw [hwk, ← hcm] at this
    have : countIn (fun b => !cmtBit c v' b) c.firstAlloc c.blockCount = countIn (fun b => !curBit c v' b) c.firstAlloc c.blockCount := by
      apply countIn_congr; intro x _ _; unfold curBit cmtBit; rw [hwk, hcm]
    omega
  refine ⟨v', e, ⟨⟨i1, ?_, ?_⟩, ?_, ?_, ?_, ?_, ?_, ?_, ?_⟩, hwf, hcf, htm, hro', hh, hwk, hal⟩
  · unfold curBit; rw [hwk]; exact g'.fs
  · unfold cmtBit; rw [hcm]; exact g'.fs
  · rw [hwf]; exact h.was
  · rw [hcf]; exact h.was
  · rw [hh]; exact h.hist
  · unfold tot; rw [hwk, hal]; exact h.crsv
  · rw [hcm]; exact h.crsv
  · cases hx : v.branched
    · rw [hid hx]; exact h.idle
    · exact (hm hx).2
  · cases hx : v.branched
    · rw [hid hx]; exact h.mounted
    · exact (hm hx).1

/-- Mounting. -/
theorem Off.mount (hc : c.Ok) {m : Metaroot} (h : Off c P v m) (ro : Bool) :
    ∃ v', volMount c ro v = (.ok (), v') ∧ Inv c P v' ∧ files c v' = stFiles c v.base m ∧ committedFiles c v' = stFiles c v.base m ∧
      v'.readOnly = ro ∧ v'.work = m ∧ v'.hist = v.hist ∧ v'.transMask = v.transMask := by
  obtain ⟨i, hd⟩ := h.disk
  obtain ⟨v', e, M⟩ := volMount_spec hc hd ro
  have ss : SameState c v.base m v'.blk m := ⟨rfl, fun b hb => by
    rw [M.blk, hd.cached]; exact onDisk_clean v b (hd.clean b hb)⟩
  have g' := h.good.congr hc ss
  have hf := h.good.files_congr hc ss
  have hw : files c v' = stFiles c v.base m := by rw [show files c v' = stFiles c v'.blk v'.work from rfl, M.work]; exact hf
  have hcm : committedFiles c v' = stFiles c v.base m := by rw [show committedFiles c v' = stFiles c v'.blk v'.comm from rfl, M.comm]; exact hf
  refine ⟨v', e, ⟨⟨M.inv, ?_, ?_⟩, ?_, ?_, ?_, ?_, ?_, M.useReserved, M.mounted⟩, hw, hcm, M.readOnly, M.work, M.hist, M.transMask⟩
  · unfold curBit; rw [M.work]; exact g'.fs
  · unfold cmtBit; rw [M.comm]; exact g'.fs
  · rw [hw]; exact h.good.ns
  · rw [hcm]; exact h.good.ns
  · rw [M.hist]; exact h.hist
  · unfold tot; rw [M.work, M.almost]; exact h.good.rsv
  · rw [M.comm]; exact h.good.rsv

/-- Unmounting: what is on the disk is the committed state. -/
theorem Inv.off (hc : c.Ok) (h : Inv c P v) : Off c P { v.discardAll with mounted := false } v.comm where
  disk := ⟨!v.cur, by
    have := h.wf.vol.disk hc h.mounted
    exact { master := this.master, low := this.low, sel := this.sel, mrOk := this.mrOk, clean := this.clean, cached := this.cached, epochs := this.epochs }⟩
  good := by have := h.comm_good hc; exact this
  hist := h.hist
  mounted := rfl

/-- Power loss. -/
theorem EGood.off (hc : c.Ok) {e : Epoch} (he : EpochOk c e) (hg : EGood c P e) {D : Nat → Blk} (hD : CrashImage c e D)
    {v0 : Vol} (h0 : Connected v0 D) (hh : v0.hist = []) (hm : v0.mounted = false) :
    ∃ m, Off c P v0 m ∧ (stFiles c v0.base m = stFiles c e.base e.comm ∨ ∃ m', e.next = some m' ∧ stFiles c v0.base m = stFiles c e.base m') := by
  obtain ⟨hb, hba, hd⟩ := h0
  obtain ⟨v1, _, _, _, _, _, hs⟩ := he.safe D hD v0 ⟨hb, hba, hd⟩ false
  obtain ⟨i, m, hsel, hss⟩ : ∃ i m, mrSelect c (D 1) (D 2) = some (i, m) ∧
      ((SameState c e.base e.comm D m ∧ MrOk c e.base e.comm) ∨ ∃ m', e.next = some m' ∧ SameState c e.base m' D m ∧ MrOk c e.base m') := by
    exact he.select hD
  obtain ⟨mm, hm1, hm2⟩ := he.master
  have key : ∀ m0, SameState c e.base m0 D m → MrOk c e.base m0 → Good c P e.base m0 → Off c P v0 m ∧ stFiles c v0.base m = stFiles c e.base m0 := by
    intro m0 hs hmr hg
    have hnil : ∀ Q : Epoch → Prop, ∀ e ∈ v0.hist, Q e := by
      intro Q e he; rw [hh] at he; cases he
    refine ⟨⟨⟨i, ⟨⟨mm, ?_, hm2⟩, fun x _ => by rw [hd], ?_, ?_, fun b _ => by rw [hd], ?_, hnil _⟩⟩, ?_, hnil _, hm⟩, ?_⟩
    · rw [hba, hD.kept 0 he.master_clean, hm1]
    · rw [hba]; exact hsel
    · rw [hba, hs.1]; exact hmr.congr hc hs.2
    · rw [hb]; funext x; unfold Vol.onDisk; rw [hd, hba]; rfl
    · rw [hba]; exact hg.congr hc hs
    · rw [hba]; exact hg.files_congr hc hs
  rcases hss with ⟨hs, hmr⟩ | ⟨m', hn, hs, hmr⟩
  · obtain ⟨h1, h2⟩ := key _ hs hmr hg.comm
    exact ⟨m, h1, Or.inl h2⟩
  · obtain ⟨h1, h2⟩ := key _ hs hmr (hg.next m' hn)
    exact ⟨m, h1, Or.inr ⟨m', hn, h2⟩⟩
end

end RedFs

namespace RedFs
open M Bitmap Vol
variable {c : Conf} {v v' : Vol} {P : (Nat → Option AFile) → Prop}

/-- The epoch going on when the volume is not mounted. -/
def Vol.offEpoch (v : Vol) (m : Metaroot) : Epoch := { v.epoch with comm := m }

theorem Off.epoch_ok {m : Metaroot} (h : Off c P v m) : EpochOk c (v.offEpoch m) := by
  obtain ⟨i, d⟩ := h.disk
  exact
    { master := d.master, master_clean := d.low 0 (by omega),
      sel := ⟨i, d.sel, d.low _ (mrBlk_lt i), (by
        have := mrSelect_block d.sel
        show v.base (mrBlk i) = .metaroot m
        cases i <;> simpa [mrBlk] using this), (fun _ => d.low _ (mrBlk_lt _)), (fun m hm => by cases hm)⟩,
      mrOk := d.mrOk, clean := d.clean }

theorem Off.epoch_good {m : Metaroot} (h : Off c P v m) : EGood c P (v.offEpoch m) :=
  ⟨h.good, fun m hm => by cases hm⟩

/-- A power loss in the middle of an operation: the writes made so far are among those of the whole operation. -/
theorem CrashImage.mono {e e' : Epoch} {D : Nat → Blk} (hb : e'.base = e.base) (hd : ∀ x, e.dirty x = true → e'.dirty x = true)
    (hm : ∀ x, x = 1 ∨ x = 2 → e'.dirty x = false) (h : CrashImage c e D) : CrashImage c e' D where
  kept := fun x hx => by
    rw [hb]; apply h.kept
    cases hxx : e.dirty x
    · rfl
    · rw [hd x hxx] at hx; cases hx
  metaroot := fun x hx hdx => by rw [hm x hx] at hdx; cases hdx
end RedFs
