import Verif.Model.Format
import Verif.Lemmas.FsVol
import Verif.Lemmas.Blank
import Verif.Spec.Api
set_option linter.unusedSimpArgs false
set_option linter.unusedVariables false
namespace RedFs
open M Bitmap Vol

variable {c : Conf}

/-- A volume that may be formatted: whatever is on the disk, nothing is cached. -/
structure Unmounted (v : Vol) : Prop where
  mounted : v.mounted = false
  dev : ∀ x, v.dirty x = false → v.blk x = v.base x
  almost : v.almostFree = 0

theorem formatMap_run (n b : Nat) (v : Vol) : ∃ v', formatMap n b v = (.ok (), v') ∧
    v' = { v with blk := fun x => if b ≤ x ∧ x < b + n then .imap (fun _ => 0) else v.blk x,
                  dirty := fun x => if b ≤ x ∧ x < b + n then true else v.dirty x } := by
  induction n generalizing b v with
  | zero =>
    refine ⟨v, rfl, ?_⟩
    have h1 : (fun x => if b ≤ x ∧ x < b + 0 then Blk.imap (fun _ => 0) else v.blk x) = v.blk := by
      funext x; rw [if_neg (by omega)]
    have h2 : (fun x => if b ≤ x ∧ x < b + 0 then true else v.dirty x) = v.dirty := by
      funext x; rw [if_neg (by omega)]
    rw [h1, h2]
  | succ n ih =>
    obtain ⟨v', h1, h2⟩ := ih (b + 1) (v.write b (.imap fun _ => 0))
    refine ⟨v', ?_, ?_⟩
    · unfold formatMap; simp only [run_bind, run_modify]; exact h1
    · rw [h2]; unfold Vol.write
      congr 1 <;>
      · funext x; dsimp only
        by_cases h : b ≤ x ∧ x < b + (n + 1)
        · rw [if_pos h]
          by_cases h' : x = b
          · rw [if_neg (by omega), if_pos h']
          · rw [if_pos (by omega)]
        · rw [if_neg h, if_neg (by omega), if_neg (by omega)]

/-- A state without anything in it. -/
structure Void (c : Conf) (D : Nat → Blk) (m : Metaroot) : Prop where
  bit : ∀ x, InMap c x → imapBit c D m x = false
  nodes : c.inline = false → ∀ k, k < c.nodeCount → ∃ bits, D (nodeBlk c m k) = .imap bits

theorem Void.at (hc : c.Ok) {D : Nat → Blk} {m : Metaroot} (h : Void c D m) (i : Nat) : inodeAt c D (imapBit c D m) i = none := by
  by_cases hv : c.inodeValid i = true
  · exact inodeAt_none (by unfold liveIn; rw [h.bit _ (slot_inMap hc hv _), h.bit _ (slot_inMap hc hv _)]; rfl)
  · unfold inodeAt; rw [if_neg hv]

theorem Void.fs (hc : c.Ok) {D : Nat → Blk} {m : Metaroot} (h : Void c D m) : FsOk c D (imapBit c D m) c.inodeCount := by
  have ha := h.at hc
  have hf := Conf.Ok.first_ge c
  have ht : ∀ i p, treeOf c D (imapBit c D m) i p = 0 := fun i p => ptr_none (ha i) p
  refine { one := ?_, live := ?_, free := ?_, range := ?_, inj := ?_, kind := ?_, full := ?_, inside := ?_, node := ?_ }
  · intro i hv hh; rw [h.bit _ (slot_inMap hc hv _)] at hh; cases hh.1
  · intro i w hv hh; rw [h.bit _ (slot_inMap hc hv _)] at hh; cases hh
  · have : countIn (fun i => !liveIn c (imapBit c D m) i) 2 (2 + c.inodeCount) = countIn (fun _ => true) 2 (2 + c.inodeCount) := by
      apply countIn_congr; intro i h1 h2
      have hv : c.inodeValid i = true := by unfold Conf.inodeValid; simp; omega
      unfold liveIn; rw [h.bit _ (slot_inMap hc hv _), h.bit _ (slot_inMap hc hv _)]; rfl
    rw [this, countIn_true]; omega
  · intro i p _ hh; exact absurd (ht i p) hh
  · intro i j p q _ _ hh; exact absurd (ht i p) hh
  · intro i p _ hh; exact absurd (ht i p) hh
  · intro x h1 h2 hh; rw [h.bit x ⟨by omega, h2⟩] at hh; cases hh
  · intro i p _ hh; exact absurd (ht i p) hh
  · intro i n hh; rw [ha] at hh; cases hh

theorem Void.files (hc : c.Ok) {D : Nat → Blk} {m : Metaroot} (h : Void c D m) (i : Nat) : stFiles c D m i = none := by
  unfold stFiles fileOf
  rw [h.at hc]; rfl

/-- An epoch during which there is no master block. -/
def Dead (e : Epoch) : Prop := e.base 0 = .data (fun _ => 0) ∧ e.dirty 0 = false

/-- The volume after the first commit of a format. -/
structure Fmt (c : Conf) (h0 : List Epoch) (v : Vol) : Prop where
  wf : Wf c v
  mounted : v.mounted = false
  almost : v.almostFree = 0
  free : v.work.freeBlocks = c.allocable
  other : ∃ m, v.blk (mrBlk (!v.cur)) = .metaroot m ∧ m.seq < v.seq
  zero : v.base 0 = .data fun _ => 0
  cfiles : ∀ i, committedFiles c v i = none
  hist : ∃ es, v.hist = es ++ h0 ∧ ∀ e ∈ es, Dead e

theorem Fmt.ch (hc : c.Ok) {h0 : List Epoch} {v v' : Vol} (h : Fmt c h0 v) {I : Nat → Prop} (ch : Ch c v v' I)
    (h1 : v'.work.freeBlocks = v.work.freeBlocks) (h2 : v'.almostFree = v.almostFree) : Fmt c h0 v' where
  wf := ch.wf
  mounted := by rw [ch.step.mounted]; exact h.mounted
  almost := h2.trans h.almost
  free := h1.trans h.free
  other := by
    rw [(ch.step.low _ (by rw [ch.step.cur]; exact mrBlk_lt _)).1, ch.step.cur, ch.step.seq]; exact h.other
  zero := by rw [ch.step.base]; exact h.zero
  cfiles := fun i => by rw [h.wf.step_committed hc ch.step]; exact h.cfiles i
  hist := by rw [ch.step.hist]; exact h.hist


theorem formatMaps_run {v : Vol} (hd : ∀ x, v.dirty x = false) (hb : v.blk = v.base) (hz : v.base 0 = .data fun _ => 0) :
    ∃ v', formatMaps c v = (.ok (), v') ∧ v'.base = v.base ∧ (∀ x, x < 3 → v'.dirty x = false ∧ v'.blk x = v.blk x) ∧
      (∀ x, v'.dirty x = false → v'.blk x = v'.base x) ∧
      (c.inline = false → ∀ x, 3 ≤ x → x < c.tableStart → v'.blk x = .imap fun _ => 0) ∧
      v' = { v with blk := v'.blk, dirty := v'.dirty } := by
  unfold formatMaps
  cases hi : c.inline
  · obtain ⟨v', h1, h2⟩ := formatMap_run (c.nodeCount * 2) c.imapStart v
    have ht : c.tableStart = 3 + c.nodeCount * 2 := by unfold Conf.tableStart Conf.imapStart; rw [hi]; rfl
    have h3 : c.imapStart = 3 := rfl
    refine ⟨v', by simpa using h1, ?_, ?_, ?_, ?_, ?_⟩
    · rw [h2]
    · intro x hx; rw [h2]; dsimp only; rw [if_neg (by omega), if_neg (by omega)]; exact ⟨hd x, rfl⟩
    · intro x; rw [h2]; dsimp only
      by_cases h : c.imapStart ≤ x ∧ x < c.imapStart + c.nodeCount * 2
      · rw [if_pos h]; intro e; cases e
      · rw [if_neg h, if_neg h, hb]; intro _; trivial
    · intro _ x h4 h5; rw [h2]; dsimp only; rw [if_pos (by omega)]
    · rw [h2]
  · refine ⟨v, rfl, rfl, (fun x _ => ⟨hd x, rfl⟩), (fun x _ => by rw [hb]), (fun e => by cases e), rfl⟩


/-- The epoch in which the old master block is wiped. -/
def wipeEpoch (v : Vol) : Epoch :=
  ⟨v.base, fun x => if x = 0 then true else v.dirty x, fun x => if x = 0 then .data (fun _ => 0) else v.blk x, v.comm, none⟩

theorem formatStart_spec (hc : c.Ok) {v : Vol} (h : Unmounted v) : ∃ v', formatStart c v = (.ok (), v') ∧
    Fmt c (wipeEpoch v :: v.hist) v' ∧ (∀ i, files c v' i = none) ∧ v'.transMask = v.transMask ∧ v'.readOnly = false := by
  unfold formatStart
  simp only [run_bind, run_modify]
  let w : Vol := (({ v with readOnly := false } : Vol).write 0 (.data fun _ => 0)).flush none
  have wb : w.blk = w.base := by
    funext x
    show (if x = 0 then _ else v.blk x) = if (if x = 0 then true else v.dirty x) = true then (if x = 0 then _ else v.blk x) else v.base x
    by_cases hx : x = 0
    · simp [hx]
    · rw [if_neg hx, if_neg hx]
      cases hd : v.dirty x
      · simp; exact h.dev x hd
      · simp
  have wh : w.hist = wipeEpoch v :: v.hist := by
    show (_ :: _ : List Epoch) = _
    congr 1
    unfold wipeEpoch
    congr 1
    funext x
    show (if (if x = 0 then true else v.dirty x) = true then (if x = 0 then _ else v.blk x) else v.base x) = _
    by_cases hx : x = 0
    · simp [hx]
    · rw [if_neg hx, if_neg hx]
      cases hd : v.dirty x
      · simp; exact (h.dev x hd).symm
      · simp
  obtain ⟨u, e1, ub, ul, ud, um, uu⟩ := formatMaps_run (c := c) (v := w) (fun _ => rfl) wb rfl
  have e1' : formatMaps c ((({ v with readOnly := false } : Vol).write 0 (.data fun _ => 0)).flush none) = (.ok (), u) := e1
  rw [e1']
  dsimp only
  generalize hxd : ({ u.setWork (formatMr c) with branched := true } : Vol) = x
  have xbr : x.branched = true := by rw [← hxd]
  have xdev : ∀ y, x.dirty y = false → x.blk y = x.base y := by rw [← hxd]; exact ud
  have xalm : x.almostFree = 0 := by rw [← hxd]; show u.almostFree = 0; rw [uu]; exact h.almost
  have xwork : x.work = formatMr c := by rw [← hxd]; show (if u.cur = u.cur then _ else _) = _; rw [if_pos rfl]
  have xmt : x.mounted = false := by rw [← hxd]; show u.mounted = false; rw [uu]; exact h.mounted
  have xro : x.readOnly = false := by rw [← hxd]; show u.readOnly = false; rw [uu]; rfl
  have xtm : x.transMask = v.transMask := by rw [← hxd]; show u.transMask = _; rw [uu]; rfl
  have xh : x.hist = wipeEpoch v :: v.hist := by rw [← hxd]; show u.hist = _; rw [uu]; exact wh
  have xblk : x.blk = u.blk := by rw [← hxd]; rfl
  have xbase : x.base = u.base := by rw [← hxd]; rfl
  have xdirty : x.dirty = u.dirty := by rw [← hxd]; rfl
  have hrun := transact_run xbr xdev
  have hm : nextMr x = { formatMr c with seq := x.seq + x.nodeWrites x.hist.length } := by
    unfold nextMr; rw [xwork, xalm]; rfl
  generalize hm' : nextMr x = m at *
  rcases hv' : volTransact x with ⟨r, v'⟩
  rw [hv'] at hrun
  obtain ⟨hr, hv⟩ := Prod.mk.inj hrun
  subst hr
  have vb : v'.blk = fun i => if i = mrBlk x.cur then .metaroot m else x.blk i := by rw [hv]
  have vba : v'.base = v'.blk := by rw [hv]
  have vd : ∀ y, v'.dirty y = false := by intro y; rw [hv]
  have vw : v'.work = m := by rw [hv]; rfl
  have vc : v'.comm = m := by rw [hv]; rfl
  have vhi : ∀ y, 3 ≤ y → v'.blk y = x.blk y := by
    intro y hy; rw [vb]; dsimp only; rw [if_neg]; have := mrBlk_lt x.cur; omega
  have ment : m.entries = fun _ => 0 := by rw [hm]; rfl
  have hnode : c.inline = false → ∀ k, k < c.nodeCount → v'.blk (nodeBlk c m k) = .imap (fun _ => 0) := by
    intro hi k hk
    have h1 := nodeBlk_ge c m k
    rw [vhi _ h1, xblk]
    exact um hi _ h1 (nodeBlk_lt m hi hk)
  have hvoid : Void c v'.blk m := by
    refine ⟨?_, fun hi k hk => ⟨_, hnode hi k hk⟩⟩
    intro y hy
    unfold imapBit
    cases hi : c.inline
    · simp only [Bool.false_eq_true, if_false]
      rw [hnode hi _ (hc.node_lt hi hy.1 hy.2)]
      exact bitGet_zero _
    · simp only [if_true]; rw [ment]; exact bitGet_zero _
  have hcb : ∀ y, InMap c y → cmtBit c v' y = false := by intro y hy; unfold cmtBit; rw [vc]; exact hvoid.bit y hy
  have hfree : v'.comm.freeBlocks = countIn (fun b => !cmtBit c v' b) c.firstAlloc c.blockCount := by
    have hf := Conf.Ok.first_ge c
    have : countIn (fun b => !cmtBit c v' b) c.firstAlloc c.blockCount = countIn (fun _ => true) c.firstAlloc c.blockCount := by
      apply countIn_congr; intro y h1 h2; rw [hcb y ⟨by omega, h2⟩]; rfl
    rw [this, countIn_true, vc, hm]; rfl
  have hnext : c.firstAlloc < c.blockCount → c.firstAlloc ≤ v'.comm.allocNext ∧ v'.comm.allocNext < c.blockCount := by
    intro hh; rw [vc, hm]; exact ⟨Nat.le_refl _, hh⟩
  have vmt : v'.mounted = false := by rw [hv]; exact xmt
  have valm : v'.almostFree = 0 := by rw [hv]
  have hvol : VolInv c v' := by
    refine { ok := ⟨?_, ?_, ?_⟩, space := SpaceOk.fresh (by rw [vw, vc]) valm hfree hnext, commFree := hfree, commNext := hnext,
             clean := fun y _ _ => vd y, sel := (fun e => by rw [vmt] at e; cases e), master := (fun e => by rw [vmt] at e; cases e),
             low := fun y _ => vd y, seq := ?_, idle := (fun _ => by rw [vw, vc]), dev := (fun y _ => by rw [vba]),
             epochs := fun e => by rw [vmt] at e; cases e }
    · intro hi k hk; rw [vw]; exact ⟨_, hnode hi k hk⟩
    · intro hi k hk; rw [vc]; exact ⟨_, hnode hi k hk⟩
    · intro hi k hk; exact ⟨vd _, by rw [vba]⟩
    · rw [vc, hv, hm]; show _ < _ + 1; exact Nat.lt_succ_self _
  have mi : m.freeInodes = c.inodeCount := by rw [hm]; rfl
  have hfs : FsOk c v'.blk (curBit c v') v'.work.freeInodes := by
    have := hvoid.fs hc; unfold curBit; rw [vw, mi]; exact this
  have hcfs : FsOk c v'.blk (cmtBit c v') v'.comm.freeInodes := by
    have := hvoid.fs hc; unfold cmtBit; rw [vc, mi]; exact this
  have xz : x.base 0 = .data (fun _ => 0) := by rw [xbase, ub]; rfl
  have xz' : x.blk 0 = .data (fun _ => 0) := by
    rw [xdev 0 (by rw [xdirty]; exact (ul 0 (by omega)).1), xz]
  have n0 : (0 : Nat) ≠ mrBlk x.cur := by unfold mrBlk; split <;> omega
  refine ⟨v', rfl, ⟨⟨hvol, hfs, hcfs⟩, vmt, valm, by rw [vw, hm]; rfl, ⟨m, ?_, ?_⟩, ?_, ?_, ?_⟩, ?_, ?_, ?_⟩
  · rw [vb, hv]; dsimp only; rw [Bool.not_not, if_pos rfl]
  · rw [hv, hm]; exact Nat.lt_succ_self _
  · rw [vba, vb]; dsimp only; rw [if_neg n0]; exact xz'
  · intro i; have := hvoid.files hc i; rw [← vc] at this; exact this
  · refine ⟨[_, _], by rw [hv, xh]; rfl, ?_⟩
    intro e he
    rcases List.mem_cons.1 he with rfl | he
    · exact ⟨xz', if_neg n0⟩
    · rw [List.mem_singleton] at he; rw [he]
      exact ⟨xz, by show x.dirty 0 = false; rw [xdirty]; exact (ul 0 (by omega)).1⟩
  · intro i; have := hvoid.files hc i; rw [← vw] at this; exact this
  · rw [hv]; exact xtm
  · rw [hv]; exact xro

theorem formatFiles_spec (hc : c.Ok) (hp : c.posix = false) {h0 : List Epoch} : ∀ n i, 2 ≤ i → i + n = 2 + c.inodeCount → ∀ v, Fmt c h0 v →
    (∀ j, files c v j = if 2 ≤ j ∧ j < i then some (AFile.new modeReg 0) else none) →
    ∃ v', formatFiles c n i v = (.ok (), v') ∧ Fmt c h0 v' ∧ (∀ j, files c v' j = if 2 ≤ j ∧ j < 2 + c.inodeCount then some (AFile.new modeReg 0) else none) ∧
      v'.transMask = v.transMask ∧ v'.readOnly = v.readOnly := by
  intro n
  induction n with
  | zero =>
    intro i _ hn v h hf
    refine ⟨v, rfl, h, ?_, rfl, rfl⟩
    rw [show 2 + c.inodeCount = i by omega]; exact hf
  | succ n ih =>
    intro i hi hn v h hf
    have hv : c.inodeValid i = true := by unfold Conf.inodeValid; simp; omega
    rcases inodeCreateAt_spec hc h.wf (Or.inl rfl) (pino := 0) hv (fun e => by rw [hp] at e; cases e) with ⟨h1, _⟩ | ⟨_, ci, w, e, C⟩
    · rw [hf, if_neg (by omega)] at h1; cases h1
    · have hw := h.ch hc C.ch C.free C.almost
      obtain ⟨v', r1, r2, r3, r4, r5⟩ := ih (i + 1) (by omega) (by omega) w hw (fun j => by
        by_cases hj : j = i
        · rw [hj, C.file, if_pos (by omega)]
        · rw [C.ch.files j hj, hf]
          by_cases hx : 2 ≤ j ∧ j < i
          · rw [if_pos hx, if_pos (by omega)]
          · rw [if_neg hx, if_neg (by omega)])
      refine ⟨v', ?_, r2, r3, r4.trans C.ch.step.transMask, r5.trans C.ch.readOnly⟩
      unfold formatFiles
      simp only [run_bind, e]
      exact r1

theorem formatTree_spec (hc : c.Ok) {h0 : List Epoch} {v : Vol} (h : Fmt c h0 v) (hf : ∀ i, files c v i = none) :
    ∃ v', formatTree c v = (.ok (), v') ∧ Fmt c h0 v' ∧ files c v' = formatted c ∧ v'.transMask = v.transMask ∧ v'.readOnly = v.readOnly := by
  unfold formatTree
  cases hp : c.posix
  · have hff : c.firstFreeInode = 2 := by unfold Conf.firstFreeInode; rw [hp]; rfl
    obtain ⟨v', r1, r2, r3, r4, r5⟩ := formatFiles_spec hc hp c.inodeCount 2 (Nat.le_refl _) (by omega) v h (fun j => by
      rw [hf, if_neg (by omega)])
    refine ⟨v', by rw [hff]; exact r1, r2, ?_, r4, r5⟩
    funext j; rw [r3]; unfold formatted Conf.inodeValid; rw [hp]; simp
  · have hv : c.inodeValid 2 = true := by have := hc.inodes; unfold Conf.inodeValid; simp; omega
    rcases inodeCreateAt_spec hc h.wf (Or.inr rfl) (pino := 0) hv (fun _ => Or.inr ⟨rfl, rfl⟩) with ⟨h1, _⟩ | ⟨_, ci, w, e, C⟩
    · rw [hf] at h1; cases h1
    · refine ⟨w, ?_, h.ch hc C.ch C.free C.almost, ?_, C.ch.step.transMask, C.ch.readOnly⟩
      · simp only [if_true, run_bind, e, run_pure]
      · funext j; unfold formatted; rw [hp]; simp only [if_true]
        by_cases hj : j = 2
        · rw [if_pos hj, hj, C.file]
        · rw [if_neg hj, C.ch.files j hj, hf]

/-- The epoch in which the new master block is written; `D` is the disk of the finished volume. -/
structure Last (c : Conf) (e : Epoch) (D : Nat → Blk) : Prop where
  zero : e.base 0 = .data fun _ => 0
  fin : e.fin 0 = D 0
  other : ∀ x, x ≠ 0 → e.dirty x = false ∧ e.base x = D x

/-- The result of a format. -/
structure Formatted (c : Conf) (v v' : Vol) (m : Metaroot) : Prop where
  off : ∀ P : Files → Prop, P (formatted c) → Off c P { v' with hist := [] } m
  files : stFiles c v'.base m = formatted c
  free : m.freeBlocks = c.allocable
  clean : ∀ x, v'.dirty x = false
  almost : v'.almostFree = 0
  transMask : v'.transMask = v.transMask
  /-- the epochs of the format -/
  hist : ∃ el es, v'.hist = el :: es ++ wipeEpoch v :: v.hist ∧ Last c el v'.base ∧ ∀ e ∈ es, Dead e

theorem volFormat_spec (hc : c.Ok) {v : Vol} (h : Unmounted v) : ∃ v' m, volFormat c v = (.ok (), v') ∧ Formatted c v v' m := by
  unfold volFormat
  simp only [run_bind, run_get]
  rw [h.mounted]
  simp only [Bool.false_eq_true, if_false, run_bind]
  obtain ⟨v1, e1, F1, f1, t1, o1⟩ := formatStart_spec hc h
  obtain ⟨v2, e2, F2, f2, t2, o2⟩ := formatTree_spec hc F1 f1
  rw [e1]; dsimp only; rw [e2]; dsimp only
  -- something has changed
  have hbr : v2.branched = true := by
    cases hb : v2.branched
    · have hw := F2.wf.vol.idle hb
      have : files c v2 2 = committedFiles c v2 2 := by unfold files committedFiles curBit cmtBit; rw [hw]
      rw [F2.cfiles, f2] at this
      have hv : c.inodeValid 2 = true := by have := hc.inodes; unfold Conf.inodeValid; simp; omega
      unfold formatted at this
      rw [hv] at this
      cases hpx : c.posix <;> simp [hpx] at this
    · rfl
  obtain ⟨v3, e3, C3, _⟩ := volTransact_spec hc F2.wf.vol
  have hrun := transact_run hbr F2.wf.vol.dev
  have hrun' := hrun
  rw [e3] at hrun'
  have hv3 := (Prod.mk.inj hrun').2
  rw [e3]; dsimp only
  clear hrun hrun'
  unfold formatEnd
  simp only [run_bind, run_modify]
  generalize hm : nextMr v2 = m at *
  have v3b : v3.blk = fun i => if i = mrBlk v2.cur then .metaroot m else v2.blk i := by rw [hv3]
  have v3ba : v3.base = v3.blk := by rw [hv3]
  have v3d : ∀ y, v3.dirty y = false := by intro y; rw [hv3]
  have v3c : v3.comm = m := by rw [hv3]; rfl
  generalize hv4 : (((({ v3.write 0 (.master (formatMaster c v3.seq)) with seq := v3.seq + 1 } : Vol)).flush none).discardAll) = v4
  have v4b : v4.base = fun i => if i = 0 then .master (formatMaster c v3.seq) else v3.base i := by
    rw [← hv4]
    show (fun b => if (if b = 0 then true else v3.dirty b) = true then (if b = 0 then _ else v3.blk b) else v3.base b) = _
    funext b
    by_cases hb : b = 0
    · simp [hb]
    · rw [if_neg hb, if_neg hb, if_neg hb, v3d b]; simp
  have v4d : ∀ x, v4.dirty x = false := by intro x; rw [← hv4]; rfl
  have v4k : v4.blk = v4.onDisk := by
    rw [← hv4]; rfl
  have v4mt : v4.mounted = false := by rw [← hv4]; show v3.mounted = false; rw [C3.mounted]; exact F2.mounted
  have low : ∀ x, 3 ≤ x → v4.base x = v2.blk x := by
    intro x hx; rw [v4b]; dsimp only; rw [if_neg (by omega), v3ba, v3b]; dsimp only
    rw [if_neg]; have := mrBlk_lt v2.cur; omega
  have v4low : ∀ x, 3 ≤ x → v4.base x = v3.base x := by
    intro x hx; rw [v4b]; dsimp only; rw [if_neg (by omega)]
  have hment : m.entries = v2.work.entries := by rw [← hm]; rfl
  have hmfi : m.freeInodes = v2.work.freeInodes := by rw [← hm]; rfl
  have hmfb : m.freeBlocks = c.allocable := by rw [← hm]; show v2.work.freeBlocks + v2.almostFree = _; rw [F2.free, F2.almost]; rfl
  obtain ⟨g1, g2⟩ := files_low hc (D := v2.blk) (D' := v4.base) (m := v2.work) (m' := m) low hment hmfi F2.wf.fs
  have hst : stFiles c v4.base m = formatted c := by rw [← f2]; funext i; exact g2 i
  obtain ⟨mo, ho1, ho2⟩ := F2.other
  have hsq : mo.seq < m.seq := by
    have : m.seq = v2.seq + v2.nodeWrites v2.hist.length := by rw [← hm]; rfl
    omega
  have hmr1 : v4.base (mrBlk v2.cur) = .metaroot m := by
    rw [v4b]; dsimp only; rw [if_neg (by unfold mrBlk; split <;> omega), v3ba, v3b]; dsimp only; rw [if_pos rfl]
  have hmr2 : v4.base (mrBlk (!v2.cur)) = .metaroot mo := by
    rw [v4b]; dsimp only; rw [if_neg (by unfold mrBlk; split <;> omega), v3ba, v3b]; dsimp only
    rw [if_neg (fun e => mrBlk_ne v2.cur e.symm)]; exact ho1
  have hsel : mrSelect c (v4.base 1) (v4.base 2) = some (v2.cur, m) := by
    cases hcur : v2.cur <;> simp only [hcur, mrBlk, Bool.not_false, Bool.not_true, if_true, Bool.false_eq_true, if_false] at hmr1 hmr2
    · rw [hmr1, hmr2]; simp only [mrSelect, mrValid]; rw [if_neg (by omega)]
    · rw [hmr1, hmr2]; simp only [mrSelect, mrValid]; rw [if_pos hsq]
  have hmok : MrOk c v4.base m := by
    have h3 : MrOk c v3.base m := by rw [← v3c]; exact C3.inv.mrOk hc
    exact h3.congr hc (fun b hb => v4low b hb.ge)
  refine ⟨v4, m, rfl, ⟨?_, hst, hmfb, v4d, ?_, ?_, ?_⟩⟩
  · intro P hP
    refine ⟨⟨v2.cur, ⟨⟨formatMaster c v3.seq, ?_, ?_⟩, fun x _ => v4d x, hsel, hmok, fun b _ => v4d b, v4k, (fun e he => by cases he)⟩⟩,
      ⟨g1, by rw [hst]; exact hP, ?_⟩, (fun e he => by cases he), v4mt⟩
    · show v4.base 0 = _; rw [v4b]; rfl
    · unfold masterMatches formatMaster; simp
    · rw [hmfb]; exact Nat.min_le_right _ _
  · rw [← hv4]; show v3.almostFree = 0; exact C3.almost
  · rw [← hv4]; show v3.transMask = _; rw [C3.transMask, t2, t1]
  · have hh4 : v4.hist = ⟨v3.base, fun x => if x = 0 then true else v3.dirty x, v4.base, v3.comm, none⟩ :: v3.hist := by
      rw [← hv4]; rfl
    obtain ⟨es, hes, hdead⟩ := F2.hist
    have z2 : v2.blk 0 = .data (fun _ => 0) := by rw [F2.wf.vol.dev 0 (F2.wf.vol.low 0 (by omega))]; exact F2.zero
    have n0 : (0 : Nat) ≠ mrBlk v2.cur := by unfold mrBlk; split <;> omega
    have hh3 : v3.hist = ⟨v2.blk, fun i => if i = mrBlk v2.cur then true else false, fun i => if i = mrBlk v2.cur then .metaroot m else v2.blk i, v2.comm, some m⟩ :: v2.epoch :: v2.hist := by
      rw [hv3]
    refine ⟨_, ⟨v2.blk, fun i => if i = mrBlk v2.cur then true else false, fun i => if i = mrBlk v2.cur then .metaroot m else v2.blk i, v2.comm, some m⟩ :: v2.epoch :: es,
      by rw [hh4, hh3, hes]; rfl, ⟨?_, rfl, ?_⟩, ?_⟩
    · show v3.base 0 = _; rw [v3ba, v3b]; dsimp only; rw [if_neg n0]; exact z2
    · intro x hx
      refine ⟨?_, ?_⟩
      · show (if x = 0 then true else v3.dirty x) = false
        rw [if_neg hx]; exact v3d x
      · show v3.base x = v4.base x
        rw [v4b]; dsimp only; rw [if_neg hx]
    · intro e he
      rcases List.mem_cons.1 he with rfl | he
      · exact ⟨z2, if_neg n0⟩
      · rcases List.mem_cons.1 he with rfl | he
        · exact ⟨F2.zero, F2.wf.vol.low 0 (by omega)⟩
        · exact hdead e he

end RedFs
