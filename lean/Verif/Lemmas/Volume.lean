import Verif.Lemmas.Crash
set_option linter.unusedSimpArgs false
set_option linter.unusedVariables false
namespace RedFs
open M Bitmap Vol

variable {c : Conf}

/-- Effect of a (successful) commit. -/
structure Committed (c : Conf) (v v' : Vol) : Prop where
  inv : VolInv c v'
  work : v'.work = v'.comm
  entries : v'.comm.entries = v.work.entries
  freeInodes : v'.comm.freeInodes = v.work.freeInodes
  freeBlocks : v'.comm.freeBlocks = v.work.freeBlocks + v.almostFree
  blk : ∀ x, 3 ≤ x → v'.blk x = v.blk x
  almost : v'.almostFree = 0
  branched : v'.branched = false
  mounted : v'.mounted = v.mounted
  readOnly : v'.readOnly = v.readOnly
  useReserved : v'.useReserved = v.useReserved
  transMask : v'.transMask = v.transMask
  stale : v'.stale = v.stale
  allocNext : v'.comm.allocNext = v.work.allocNext

theorem InState.ge {D : Nat → Blk} {m : Metaroot} {b : Nat} (h : InState c D m b) : 3 ≤ b := by
  rcases h with ⟨_, k, _, rfl⟩ | ⟨h, _⟩
  · exact nodeBlk_ge c m k
  · have := Conf.Ok.table_ge c; have := h.1; omega

theorem imapBit_low {D D' : Nat → Blk} {m m' : Metaroot} (he : m'.entries = m.entries)
    (h : ∀ x, 3 ≤ x → D' x = D x) (b : Nat) : imapBit c D' m' b = imapBit c D m b := by
  rw [imapBit_congr_entries he]
  unfold imapBit
  rw [h _ (nodeBlk_ge c m _)]

/-- free plus almost free is everything not used in the working state -/
theorem space_sum {v : Vol} (h : SpaceOk c v) :
    v.work.freeBlocks + v.almostFree = countIn (fun b => !curBit c v b) c.firstAlloc c.blockCount := by
  rw [h.free, h.afree]
  unfold freeCount afreeCount
  rw [countIn_add (by intro x _ _; cases curBit c v x <;> cases cmtBit c v x <;> simp)]
  apply countIn_congr; intro x _ _
  cases curBit c v x <;> cases cmtBit c v x <;> rfl

/-- the state rooted in a metaroot that is idle: space counters after a fresh mount or commit -/
theorem SpaceOk.fresh {v : Vol} (hw : v.work = v.comm) (ha : v.almostFree = 0)
    (hf : v.comm.freeBlocks = countIn (fun b => !cmtBit c v b) c.firstAlloc c.blockCount)
    (hn : c.firstAlloc < c.blockCount → c.firstAlloc ≤ v.comm.allocNext ∧ v.comm.allocNext < c.blockCount) :
    SpaceOk c v := by
  have e : ∀ x, curBit c v x = cmtBit c v x := by intro x; unfold curBit cmtBit; rw [hw]
  constructor
  · rw [hw, hf]; apply countIn_congr; intro x _ _; rw [e]; cases cmtBit c v x <;> rfl
  · rw [ha]; symm
    have : afreeCount c v = countIn (fun _ => false) c.firstAlloc c.blockCount := by
      apply countIn_congr; intro x _ _; rw [e]; cases cmtBit c v x <;> rfl
    rw [this]; unfold countIn; simp
  · rw [hw]; exact hn

theorem mrBlk_lt (i : Bool) : mrBlk i < 3 := by unfold mrBlk; split <;> omega
theorem mrBlk_ne (i : Bool) : mrBlk i ≠ mrBlk (!i) := by cases i <;> simp [mrBlk]

/-- the metaroot that a commit writes -/
def nextMr (v : Vol) : Metaroot :=
  { v.work with freeBlocks := v.work.freeBlocks + v.almostFree, seq := v.seq + v.nodeWrites v.hist.length }

theorem transact_run {v : Vol} (hbr : v.branched = true) (hdev : ∀ x, v.dirty x = false → v.blk x = v.base x) :
    volTransact v = (.ok (), { v with
      blk := fun i => if i = mrBlk v.cur then .metaroot (nextMr v) else v.blk i
      base := fun i => if i = mrBlk v.cur then .metaroot (nextMr v) else v.blk i
      dirty := fun _ => false
      mr := fun _ => nextMr v
      cur := !v.cur
      branched := false
      almostFree := 0
      seq := v.seq + v.nodeWrites v.hist.length + 1
      hist := ⟨v.blk, fun i => if i = mrBlk v.cur then true else false,
          fun i => if i = mrBlk v.cur then .metaroot (nextMr v) else v.blk i, v.comm, some (nextMr v)⟩ ::
          v.epoch :: v.hist }) := by
  have hbase : (fun b => if v.dirty b = true then v.blk b else v.base b) = v.blk := by
    funext b; cases hd : v.dirty b
    · simp [hdev b hd]
    · simp
  unfold volTransact
  simp only [run_bind, run_get, hbr, if_true, run_modify]
  obtain ⟨blk, base, dirty, stale, mr, cur, branched, af, ur, mt, ro, tm, seq, nw, hist⟩ := v
  simp only at hbase hbr
  simp only [Vol.flush, Vol.write, Vol.setWork, Vol.work, Vol.comm, Vol.epoch, nextMr, hbase]
  cases cur <;>
    simp only [Bool.not_false, Bool.not_true, if_true, Bool.false_eq_true, if_false, mrBlk, reduceCtorEq] <;>
    congr 2 <;> first
      | (funext i; cases i <;> rfl)
      | (funext b; by_cases hb : b = 1 <;> simp [hb]; done)
      | (funext b; by_cases hb : b = 2 <;> simp [hb]; done)
      | (congr 2; funext b; by_cases hb : b = 1 <;> simp [hb]; done)
      | (congr 2; funext b; by_cases hb : b = 2 <;> simp [hb]; done)

theorem volTransact_spec {v : Vol} (hc : c.Ok) (h : VolInv c v) :
    ∃ v', volTransact v = (.ok (), v') ∧ Committed c v v' ∧ (v.branched = false → v' = v) := by
  cases hbr : v.branched
  · refine ⟨v, ?_, ?_, fun _ => rfl⟩
    · unfold volTransact; simp [hbr]
    · have hw := h.idle hbr
      have ha : v.almostFree = 0 := by
        have := space_sum h.space
        have h2 := h.commFree
        rw [← hw] at h2
        have : countIn (fun b => !cmtBit c v b) c.firstAlloc c.blockCount =
          countIn (fun b => !curBit c v b) c.firstAlloc c.blockCount := by
          apply countIn_congr; intro x _ _; unfold curBit cmtBit; rw [hw]
        omega
      exact { inv := h, work := hw, entries := by rw [hw], freeInodes := by rw [hw], freeBlocks := by rw [hw, ha]; rfl,
              blk := fun _ _ => rfl, almost := ha, branched := hbr, mounted := rfl, readOnly := rfl,
              useReserved := rfl, transMask := rfl, stale := rfl, allocNext := by rw [hw] }
  · -- the metaroot being committed
    let sq := v.seq + v.nodeWrites v.hist.length
    let m' : Metaroot := { v.work with freeBlocks := v.work.freeBlocks + v.almostFree, seq := sq }
    have hbase : (fun b => if v.dirty b = true then v.blk b else v.base b) = v.blk := by
      funext b; cases hd : v.dirty b
      · simp [h.dev b hd]
      · simp
    let e2 : Epoch := ⟨v.blk, fun i => if i = mrBlk v.cur then true else false,
      fun i => if i = mrBlk v.cur then .metaroot m' else v.blk i, v.comm, some m'⟩
    let v' : Vol := { v with
      blk := fun i => if i = mrBlk v.cur then .metaroot m' else v.blk i
      base := fun i => if i = mrBlk v.cur then .metaroot m' else v.blk i
      dirty := fun _ => false
      mr := fun _ => m'
      cur := !v.cur
      branched := false
      almostFree := 0
      seq := sq + 1
      hist := e2 :: v.epoch :: v.hist }
    have hrun : volTransact v = (.ok (), v') := transact_run hbr h.dev
    have hb' : ∀ x, 3 ≤ x → v'.blk x = v.blk x := by
      intro x hx; show (if x = mrBlk v.cur then _ else _) = _
      rw [if_neg]; have := mrBlk_lt v.cur; omega
    have hcb : ∀ x, cmtBit c v' x = curBit c v x := fun x => imapBit_low (m := v.work) (m' := m') rfl hb' x
    have hcomm : v'.comm = m' := rfl
    have hwork : v'.work = m' := rfl
    have hnode : ∀ k, nodeBlk c m' k = nodeBlk c v.work k := fun k => rfl
    have hlow : ∀ x, x < 3 → v.blk x = v.base x := fun x hx => h.dev x (h.low x hx)
    have hsel : v.mounted = true → mrSelect c (v.blk 1) (v.blk 2) = some (!v.cur, v.comm) := by
      intro hmt; rw [hlow 1 (by omega), hlow 2 (by omega)]; exact h.sel hmt
    have hsq : v.comm.seq < m'.seq := by
      have := h.seq; show v.comm.seq < v.seq + _; omega
    have hmrOk' : MrOk c v.blk m' := by
      refine ⟨fun hi k hk => h.ok.cur hi k hk, ?_, h.space.next⟩
      show v.work.freeBlocks + v.almostFree = _
      rw [space_sum h.space]; rfl
    have he2 : v.mounted = true → EpochOk c e2 := by
      intro hmt
      refine { master := ?_, master_clean := ?_, sel := ⟨!v.cur, hsel hmt, ?_, ?_, ?_, ?_⟩, mrOk := ?_, clean := ?_ }
      · show ∃ m, v.blk 0 = _ ∧ _; rw [hlow 0 (by omega)]; exact h.master hmt
      · show (if 0 = mrBlk v.cur then true else false) = false
        rw [if_neg]; unfold mrBlk; split <;> omega
      · show (if mrBlk (!v.cur) = mrBlk v.cur then true else false) = false
        rw [if_neg]; exact fun e => mrBlk_ne v.cur e.symm
      · show v.blk _ = _
        have := mrSelect_block (hsel hmt)
        cases hcur : v.cur <;> simp [hcur, mrBlk, e2] at this ⊢ <;> exact this
      · intro hn; cases hn
      · intro m hm
        cases hm
        refine ⟨?_, hsq, hmrOk', ?_⟩
        · show (if _ then _ else _) = _; rw [Bool.not_not, if_pos rfl]
        · intro b hb
          show (if b = mrBlk v.cur then true else false) = false
          rw [if_neg]; have := hb.ge; have := mrBlk_lt v.cur; omega
      · exact (h.mrOk hc).congr hc (fun b hb => (h.comm_clean hc hb).2)
      · intro b hb
        show (if b = mrBlk v.cur then true else false) = false
        rw [if_neg]; have := hb.ge; have := mrBlk_lt v.cur; omega
    have hcf : v'.comm.freeBlocks = countIn (fun b => !cmtBit c v' b) c.firstAlloc c.blockCount := by
      show v.work.freeBlocks + v.almostFree = _
      rw [space_sum h.space]; apply countIn_congr; intro x _ _; rw [hcb]
    refine ⟨v', hrun, ?_, by intro e; cases e⟩
    have hinv : VolInv c v' := by
      refine { ok := ⟨?_, ?_, ?_⟩, space := SpaceOk.fresh rfl rfl hcf h.space.next, commFree := hcf, commNext := h.space.next,
               clean := fun _ _ _ => rfl, sel := ?_, master := ?_, low := fun _ _ => rfl, seq := ?_,
               idle := fun _ => rfl, dev := fun _ _ => rfl, epochs := ?_ }
      · intro hi k hk; rw [hb' _ (nodeBlk_ge c _ k)]; exact h.ok.cur hi k hk
      · intro hi k hk; rw [hb' _ (nodeBlk_ge c _ k)]; exact h.ok.cur hi k hk
      · intro hi k hk; exact ⟨rfl, rfl⟩
      · intro hmt; have := mrSelect_newer (hsel hmt) hsq
        show mrSelect c (if 1 = mrBlk v.cur then _ else _) (if 2 = mrBlk v.cur then _ else _) = some (!!v.cur, m')
        rw [← this]; cases v.cur <;> simp [mrBlk]
      · intro hmt; show ∃ m, (if 0 = mrBlk v.cur then _ else v.blk 0) = _ ∧ _
        rw [if_neg (by unfold mrBlk; split <;> omega), hlow 0 (by omega)]; exact h.master hmt
      · show sq < sq + 1; omega
      · intro hmt e he
        rcases List.mem_cons.1 he with rfl | he
        · exact he2 hmt
        · rcases List.mem_cons.1 he with rfl | he
          · exact h.epoch_ok hc hmt
          · exact h.epochs hmt e he
    exact { inv := hinv, work := rfl, entries := rfl, freeInodes := rfl, freeBlocks := rfl, blk := hb', almost := rfl,
            branched := rfl, mounted := rfl, readOnly := rfl, useReserved := rfl, transMask := rfl, stale := rfl, allocNext := rfl }

/-- What holds of a disk (and the run-time state) whenever it can be mounted. -/
structure DiskInv (c : Conf) (v : Vol) (i : Bool) (m : Metaroot) : Prop where
  master : ∃ mm, v.base 0 = .master mm ∧ masterMatches c mm = true
  low : ∀ x, x < 3 → v.dirty x = false
  sel : mrSelect c (v.base 1) (v.base 2) = some (i, m)
  mrOk : MrOk c v.base m
  clean : ∀ b, InState c v.base m b → v.dirty b = false
  cached : v.blk = v.onDisk
  epochs : ∀ e ∈ v.hist, EpochOk c e

/-- The state after mounting. -/
structure Mounted (c : Conf) (v v' : Vol) (m : Metaroot) (ro : Bool) : Prop where
  inv : VolInv c v'
  comm : v'.comm = m
  work : v'.work = m
  blk : v'.blk = v.blk
  base : v'.base = v.base
  dirty : v'.dirty = v.dirty
  hist : v'.hist = v.hist
  mounted : v'.mounted = true
  readOnly : v'.readOnly = ro
  useReserved : v'.useReserved = false
  branched : v'.branched = v.branched
  transMask : v'.transMask = v.transMask
  almost : v'.almostFree = 0

theorem mount_run {v : Vol} {i : Bool} {m : Metaroot} (hc : c.Ok) (h : DiskInv c v i m) (ro : Bool) :
    ∃ v', (do mountMaster c; mountMetaroot c ro : VM Unit) v = (.ok (), v') ∧ Mounted c v v' m ro := by
  have hd : ∀ x, v.dirty x = false → v.onDisk x = v.base x := fun x hx => onDisk_clean v x hx
  obtain ⟨mm, h0, hm⟩ := h.master
  have hb0 : v.blk 0 = .master mm := by rw [h.cached, hd 0 (h.low 0 (by omega)), h0]
  have hclean : ∀ b, InState c v.base m b → v.blk b = v.base b := fun b hb => by
    rw [h.cached, hd b (h.clean b hb)]
  let v' : Vol := { v with seq := (if mm.seq < m.seq then m.seq else mm.seq) + 1
                           mounted := true, readOnly := ro, useReserved := false, almostFree := 0
                           mr := fun _ => m, cur := !i }
  refine ⟨v', ?_, ?_⟩
  · unfold mountMaster mountMetaroot
    simp only [run_bind, run_get]
    rw [hb0]
    simp only [hm, if_true, run_modify, run_bind, run_get]
    have hs2 : mrSelect c (({ v with seq := mm.seq } : Vol).onDisk 1) (({ v with seq := mm.seq } : Vol).onDisk 2) = some (i, m) := by
      rw [← h.sel, ← hd 1 (h.low 1 (by omega)), ← hd 2 (h.low 2 (by omega))]; rfl
    rw [hs2]
    rfl
  · have hmo : MrOk c v.blk m := h.mrOk.congr hc hclean
    have hcf : v'.comm.freeBlocks = countIn (fun b => !cmtBit c v' b) c.firstAlloc c.blockCount := hmo.free
    refine { inv := ?_, comm := rfl, work := rfl, blk := rfl, base := rfl, dirty := rfl, hist := rfl, mounted := rfl,
             readOnly := rfl, useReserved := rfl, branched := rfl, transMask := rfl, almost := rfl }
    refine { ok := ⟨hmo.nodes, hmo.nodes, ?_⟩, space := SpaceOk.fresh rfl rfl hcf hmo.next, commFree := hcf, commNext := hmo.next,
             clean := ?_, sel := fun _ => ?_, master := fun _ => h.master, low := h.low, seq := ?_, idle := fun _ => rfl,
             dev := ?_, epochs := fun _ => h.epochs }
    · intro hi k hk
      have : InState c v.base m (nodeBlk c m k) := Or.inl ⟨hi, k, hk, rfl⟩
      exact ⟨h.clean _ this, hclean _ this⟩
    · intro x hx hb
      apply h.clean
      refine Or.inr ⟨hx, ?_⟩
      rw [← imapBit_congr (D' := v.blk) hc (fun hi k hk => hclean _ (Or.inl ⟨hi, k, hk, rfl⟩)) hx]; exact hb
    · show mrSelect c (v.base 1) (v.base 2) = some (!!i, m); rw [Bool.not_not]; exact h.sel
    · show m.seq < (if mm.seq < m.seq then m.seq else mm.seq) + 1; split <;> omega
    · intro x hx; show v.blk x = v.base x; rw [h.cached, hd x hx]

theorem VolInv.disk {v : Vol} (hc : c.Ok) (h : VolInv c v) (hmt : v.mounted = true) : DiskInv c v.discardAll (!v.cur) v.comm where
  master := h.master hmt
  low := h.low
  sel := h.sel hmt
  mrOk := show MrOk c v.base v.comm from h.mrOk hc
  clean := fun b hb => (h.comm_clean hc hb).1
  cached := rfl
  epochs := h.epochs hmt

theorem VolInv.congr {v v' : Vol} (h : VolInv c v) (h1 : v'.blk = v.blk) (h2 : v'.base = v.base) (h3 : v'.dirty = v.dirty)
    (h4 : v'.mr = v.mr) (h5 : v'.cur = v.cur) (h6 : v'.almostFree = v.almostFree) (h7 : v'.seq = v.seq)
    (h8 : v'.hist = v.hist) (h9 : v'.branched = false → v.work = v.comm) (h10 : v'.mounted = true → v.mounted = true) : VolInv c v' := by
  obtain ⟨blk, base, dirty, stale, mr, cur, branched, af, ur, mt, ro, tm, seq, nw, hist⟩ := v
  obtain ⟨blk', base', dirty', stale', mr', cur', branched', af', ur', mt', ro', tm', seq', nw', hist'⟩ := v'
  simp only at h1 h2 h3 h4 h5 h6 h7 h8
  subst h1 h2 h3 h4 h5 h6 h7 h8
  exact { ok := ⟨h.ok.cur, h.ok.cmt, h.ok.clean⟩, space := ⟨h.space.free, h.space.afree, h.space.next⟩,
          commFree := h.commFree, commNext := h.commNext, clean := h.clean,
          sel := fun e => h.sel (h10 e), master := fun e => h.master (h10 e), low := h.low, seq := h.seq,
          idle := h9, dev := h.dev, epochs := fun e => h.epochs (h10 e) }

/-- Rollback: the working state becomes the committed one, whose blocks are as they were. -/
theorem volRollback_spec {v : Vol} (hc : c.Ok) (h : VolInv c v) (hmt : v.mounted = true) (hro : v.readOnly = false) :
    ∃ v', volRollback c v = (.ok (), v') ∧ VolInv c v' ∧ v'.comm = v.comm ∧ v'.work = v.comm ∧
      (∀ b, InState c v.base v.comm b → v'.blk b = v.blk b) ∧ v'.branched = false ∧
      v'.hist = v.hist ∧ v'.base = v.base ∧ v'.dirty = v.dirty ∧ v'.transMask = v.transMask ∧
      (v.branched = true → v'.mounted = true ∧ v'.useReserved = false) ∧ (v.branched = false → v' = v) ∧
      v'.readOnly = false := by
  cases hb : v.branched
  · refine ⟨v, ?_, h, rfl, h.idle hb, fun _ _ => rfl, hb, rfl, rfl, rfl, rfl, ?_, fun _ => rfl, hro⟩
    · unfold volRollback; simp [hb]
    · intro e; cases e
  · obtain ⟨v1, hr, hm⟩ := mount_run hc (h.disk hc hmt) false
    have hid : VolInv c { v1 with branched := false } := by
      exact hm.inv.congr rfl rfl rfl rfl rfl rfl rfl rfl (fun _ => hm.work.trans hm.comm.symm) (fun _ => hm.mounted)
    refine ⟨{ v1 with branched := false }, ?_, hid, hm.comm, hm.work, ?_, rfl, hm.hist, hm.base, hm.dirty, hm.transMask,
      fun _ => ⟨hm.mounted, hm.useReserved⟩, (by intro e; cases e), hm.readOnly⟩
    · unfold volRollback criticalAssert
      simp only [run_bind, run_get, hb, if_true, run_attempt, run_modify] at hr ⊢
      rcases hx : mountMaster c v.discardAll with ⟨r | a, s'⟩
      · simp [hx] at hr
      · simp only [hx] at hr
        simp only [hr]
        rfl
    · intro b hb
      have h2 := h.comm_clean hc hb
      show v1.blk b = _
      rw [hm.blk]
      show v.onDisk b = _
      rw [onDisk_clean v b h2.1, h2.2]

theorem volMount_spec {v : Vol} {i : Bool} {m : Metaroot} (hc : c.Ok) (h : DiskInv c v i m) (ro : Bool) :
    ∃ v', volMount c ro v = (.ok (), v') ∧ Mounted c v v' m ro := by
  obtain ⟨v', hr, hm⟩ := mount_run hc h ro
  refine ⟨v', ?_, hm⟩
  unfold volMount
  simp only [run_bind, run_attempt] at hr ⊢
  rw [hr]; rfl

end RedFs
