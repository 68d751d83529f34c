import Verif.Lemmas.Imap
set_option linter.unusedSimpArgs false
set_option linter.unusedVariables false
namespace RedFs
open M Bitmap Vol

variable {c : Conf}

/-- The space counters are exact. -/
structure SpaceOk (c : Conf) (v : Vol) : Prop where
  free : v.work.freeBlocks = freeCount c v
  afree : v.almostFree = afreeCount c v
  next : c.firstAlloc < c.blockCount → c.firstAlloc ≤ v.work.allocNext ∧ v.work.allocNext < c.blockCount

theorem imapBit_congr_entries {D : Nat → Blk} {m m' : Metaroot} (h : m'.entries = m.entries) (b : Nat) :
    imapBit c D m' b = imapBit c D m b := by
  unfold imapBit nodeBlk; rw [h]

theorem ImapOk.congr {v v' : Vol} (h : ImapOk c v) (hb : v'.blk = v.blk) (hd : v'.dirty = v.dirty)
    (hbase : v'.base = v.base) (hw : v'.work.entries = v.work.entries) (hc : v'.comm.entries = v.comm.entries) :
    ImapOk c v' := by
  have e1 : ∀ k, nodeBlk c v'.work k = nodeBlk c v.work k := fun k => nodeBlk_eq_of_bit (by rw [hw])
  have e2 : ∀ k, nodeBlk c v'.comm k = nodeBlk c v.comm k := fun k => nodeBlk_eq_of_bit (by rw [hc])
  constructor
  · intro hi k hk; rw [e1, hb]; exact h.cur hi k hk
  · intro hi k hk; rw [e2, hb]; exact h.cmt hi k hk
  · intro hi k hk; rw [e2, hb, hd, hbase]; exact h.clean hi k hk

theorem ImapFrame.trans {v v1 v2 : Vol} (a : ImapFrame c v v1) (b : ImapFrame c v1 v2) : ImapFrame c v v2 where
  base := b.base.trans a.base
  stale := b.stale.trans a.stale
  cur := b.cur.trans a.cur
  comm := b.comm.trans a.comm
  useReserved := b.useReserved.trans a.useReserved
  mounted := b.mounted.trans a.mounted
  readOnly := b.readOnly.trans a.readOnly
  transMask := b.transMask.trans a.transMask
  seq := b.seq.trans a.seq
  hist := b.hist.trans a.hist
  wseq := b.wseq.trans a.wseq
  freeInodes := b.freeInodes.trans a.freeInodes
  dirtyHi := fun x hx => (b.dirtyHi x hx).trans (a.dirtyHi x hx)
  dirtyMono := fun x hx => b.dirtyMono x (a.dirtyMono x hx)
  low := fun x hx => (b.low x hx).trans (a.low x hx)
  cmtNode := fun hi k hk => by
    have := b.cmtNode hi k hk; rw [a.comm] at this; rw [this]; exact a.cmtNode hi k hk
  ok := b.ok
  diskEq := fun x hx hd => b.diskEq x (fun hd1 => a.diskEq x hx hd1) hd

theorem ImapFrame.refl {v : Vol} (h : ImapOk c v) : ImapFrame c v v where
  base := rfl
  stale := rfl
  cur := rfl
  comm := rfl
  useReserved := rfl
  mounted := rfl
  readOnly := rfl
  transMask := rfl
  seq := rfl
  hist := rfl
  wseq := rfl
  freeInodes := rfl
  dirtyHi := fun _ _ => rfl
  dirtyMono := fun _ h => h
  low := fun _ _ => rfl
  cmtNode := fun _ _ _ => rfl
  ok := h
  diskEq := fun x hx hd => hx hd

/-- Result of a successful `RedImapBlockSet`. -/
structure BlkSet (c : Conf) (v v' : Vol) (b : Nat) (alloc : Bool) : Prop extends ImapFrame c v v' where
  bits : ∀ x, InMap c x → curBit c v' x = if x = b then alloc else curBit c v x
  cbits : ∀ x, InMap c x → cmtBit c v' x = cmtBit c v x
  blkHi : ∀ x, c.tableStart ≤ x → (x ≠ b ∨ alloc = true) → v'.blk x = v.blk x
  blkB : alloc = false → v'.blk b = v.onDisk b
  space : SpaceOk c v'
  branched : v'.branched = true
  allocNext : v'.work.allocNext = v.work.allocNext
  wasCmt : alloc = true → c.firstAlloc ≤ b → cmtBit c v b = false

theorem freeCount_congr {v v' : Vol} (h1 : ∀ x, InMap c x → curBit c v' x = curBit c v x)
    (h2 : ∀ x, InMap c x → cmtBit c v' x = cmtBit c v x) :
    freeCount c v' = freeCount c v ∧ afreeCount c v' = afreeCount c v := by
  have hf := Conf.Ok.first_ge c
  constructor
  · apply countIn_congr; intro x a b; rw [h1 x ⟨by omega, b⟩, h2 x ⟨by omega, b⟩]
  · apply countIn_congr; intro x a b; rw [h1 x ⟨by omega, b⟩, h2 x ⟨by omega, b⟩]

theorem imapBlockSet_spec {v : Vol} {b : Nat} {alloc : Bool} (hc : c.Ok) (h : ImapOk c v)
    (hs : SpaceOk c v) (hb : InMap c b) (hne : curBit c v b ≠ alloc)
    (hcm : alloc = true → c.firstAlloc ≤ b → cmtBit c v b = false) :
    wp (imapBlockSet c b alloc) (fun r v' => r = .ok () ∧ BlkSet c v v' b alloc) v := by
  have hf := Conf.Ok.first_ge c
  have hraw : wp (if c.inline = true then imapISet c b alloc else imapESet c b alloc)
      (fun r v' => r = .ok () ∧ RawSet c v v' b alloc) v := by
    cases hi : c.inline
    · exact imapESet_spec hc hi h hb hne
    · exact imapISet_spec hc hi h hb hne
  unfold imapBlockSet
  simp only [wp_bind, wp_get]
  have hr1 : ¬ (b < c.tableStart ∨ c.blockCount ≤ b) := by have := hb.1; have := hb.2; omega
  rw [if_neg hr1]
  have hr2 : ¬ (c.firstAlloc ≤ b ∧ ((alloc = true ∧ v.work.freeBlocks = 0) ∨
      (alloc = false ∧ c.allocable ≤ v.work.freeBlocks))) := by
    rintro ⟨hfa, h1 | h1⟩
    · obtain ⟨rfl, h0⟩ := h1
      rw [hs.free] at h0
      have : 0 < freeCount c v := by
        apply countIn_pos.2
        refine ⟨b, hfa, hb.2, ?_⟩
        have := hcm rfl hfa
        simp [this] at *
        simpa using hne
      omega
    · obtain ⟨rfl, h0⟩ := h1
      rw [hs.free] at h0
      have hcur : curBit c v b = true := by simpa using hne
      have hu := countIn_update (p := fun x => !curBit c v x && !cmtBit c v x)
        (q := fun x => if x = b then true else (!curBit c v x && !cmtBit c v x)) (lo := c.firstAlloc) (hi := c.blockCount)
        hfa hb.2 (by intro x _ _ hx; simp [hx])
      have hl := countIn_le (fun x => if x = b then true else (!curBit c v x && !cmtBit c v x)) c.firstAlloc c.blockCount
      simp only [hcur, if_true, Bool.not_true, Bool.false_and, Bool.false_eq_true, if_false] at hu
      unfold freeCount at h0
      unfold Conf.allocable at h0
      omega
  rw [if_neg hr2]
  simp only [wp_bind, wp_attempt, wp_modify, wp_ofExcept]
  refine wp_mono hraw ?_
  rintro r v1 ⟨rfl, hw⟩
  simp only []
  -- state after the optional discard
  have step : ∀ v2 : Vol, v2 = (if alloc = false then ({ v1 with branched := true } : Vol).discard b else { v1 with branched := true }) →
      ImapFrame c v v2 ∧ (∀ x, InMap c x → curBit c v2 x = if x = b then alloc else curBit c v x) ∧
      (∀ x, InMap c x → cmtBit c v2 x = cmtBit c v x) ∧
      (∀ x, c.tableStart ≤ x → (x ≠ b ∨ alloc = true) → v2.blk x = v.blk x) ∧
      (alloc = false → v2.blk b = v.onDisk b) ∧ v2.branched = true ∧ v2.almostFree = v.almostFree ∧
      v2.work = v1.work ∧ v2.cur = v1.cur := by
    intro v2 hv2
    have hbt := hb.1
    have e2 : ∀ x, v2.blk x = if x = b ∧ alloc = false then v1.onDisk b else v1.blk x := by
      intro x; rw [hv2]; cases alloc <;> simp
      rfl
    have hlow : ∀ x, x < c.tableStart → v2.blk x = v1.blk x := by
      intro x hx; rw [e2, if_neg (by omega)]
    have ew : v2.work = v1.work := by rw [hv2]; cases alloc <;> rfl
    have ecm : v2.comm = v1.comm := by rw [hv2]; cases alloc <;> rfl
    have ed : v2.dirty = v1.dirty := by rw [hv2]; cases alloc <;> rfl
    have eb : v2.base = v1.base := by rw [hv2]; cases alloc <;> rfl
    have hbit : ∀ (m : Metaroot) (x : Nat), InMap c x → imapBit c v2.blk m x = imapBit c v1.blk m x := by
      intro m x hx
      unfold imapBit
      cases hi : c.inline
      · simp only [Bool.false_eq_true, ↓reduceIte]
        rw [hlow _ (nodeBlk_lt m hi (hc.node_lt hi hx.1 hx.2))]
      · rfl
    have hok : ImapOk c v2 := by
      constructor
      · intro hi k hk; rw [ew, hlow _ (nodeBlk_lt _ hi hk)]; exact hw.ok.cur hi k hk
      · intro hi k hk; rw [ecm, hlow _ (nodeBlk_lt _ hi hk)]; exact hw.ok.cmt hi k hk
      · intro hi k hk; rw [ecm, ed, eb, hlow _ (nodeBlk_lt _ hi hk)]; exact hw.ok.clean hi k hk
    refine ⟨?_, ?_, ?_, ?_, ?_, ?_, ?_, ew, ?_⟩
    · refine ImapFrame.trans hw.toImapFrame ?_
      refine { base := eb, stale := ?_, cur := ?_, comm := ecm, useReserved := ?_, mounted := ?_,
               readOnly := ?_, transMask := ?_, seq := ?_, hist := ?_, wseq := (by rw [ew]), freeInodes := (by rw [ew]),
               dirtyHi := fun x _ => (by rw [ed]), dirtyMono := fun x hx => (by rw [ed]; exact hx), low := ?_,
               cmtNode := ?_, ok := hok, diskEq := ?_ }
      all_goals try (rw [hv2]; cases alloc <;> rfl)
      · intro x hx; exact hlow x (by have := Conf.Ok.table_ge c; omega)
      · intro hi k hk; exact hlow _ (nodeBlk_lt _ hi hk)
      · intro x hx hd
        rw [ed] at hd
        rw [e2, eb]
        split
        · rename_i e; rw [e.1] at hd ⊢; exact onDisk_clean _ _ hd
        · exact hx hd
    · intro x hx
      show imapBit c v2.blk v2.work x = _
      rw [hbit _ x hx, ew]; exact hw.bits x hx
    · intro x hx
      show imapBit c v2.blk v2.comm x = _
      rw [hbit _ x hx, ecm]; exact hw.cbits x hx
    · intro x hx ho
      rw [e2, if_neg, hw.blkHi x hx]
      rintro ⟨rfl, rfl⟩; simp at ho
    · intro ha; subst ha
      rw [e2, if_pos ⟨rfl, rfl⟩]
      unfold Vol.onDisk
      rw [hw.dirtyHi b (Or.inr hbt), hw.stale, hw.base]
    · rw [hv2]; cases alloc <;> rfl
    · rw [hv2]; cases alloc <;> exact hw.almost
    · rw [hv2]; cases alloc <;> rfl
  have fin : ∀ (v2 : Vol), v2 = (if alloc = false then ({ v1 with branched := true } : Vol).discard b else { v1 with branched := true }) →
      wp (if c.firstAlloc ≤ b then
          if alloc = true then
            modify fun v => v.setWork { v.work with freeBlocks := v.work.freeBlocks - 1 }
          else do
            let v ← M.get
            let was ← criticalAssert (imapBlockGet c (!v.cur) b)
            if was then modify fun v => { v with almostFree := v.almostFree + 1 }
            else modify fun v => v.setWork { v.work with freeBlocks := v.work.freeBlocks + 1 }
        else pure ()) (fun r v' => r = .ok () ∧ BlkSet c v v' b alloc) v2 := by
    intro v2 hv2
    obtain ⟨hfr, hbits, hcbits, hhi, hB, hbr, hal, hwk, hcr⟩ := step v2 hv2
    have hfb : v2.work.freeBlocks = v.work.freeBlocks := by rw [hwk]; exact hw.freeBlocks
    have han : v2.work.allocNext = v.work.allocNext := by rw [hwk]; exact hw.allocNext
    -- a counter update keeps everything else
    have mk : ∀ (v3 : Vol), v3.blk = v2.blk → v3.dirty = v2.dirty → v3.base = v2.base → v3.stale = v2.stale →
        v3.cur = v2.cur → v3.comm = v2.comm → v3.useReserved = v2.useReserved → v3.mounted = v2.mounted →
        v3.readOnly = v2.readOnly → v3.transMask = v2.transMask → v3.seq = v2.seq → v3.hist = v2.hist →
        v3.branched = v2.branched →
        v3.work.entries = v2.work.entries → v3.work.seq = v2.work.seq → v3.work.freeInodes = v2.work.freeInodes →
        v3.work.allocNext = v2.work.allocNext →
        v3.work.freeBlocks = freeCount c v3 → v3.almostFree = afreeCount c v3 → BlkSet c v v3 b alloc := by
      intro v3 a1 a2 a3 a4 a5 a6 a7 a8 a9 a10 a11 a12 a12b a13 a14 a15 a16 a17 a18
      have hfr3 : ImapFrame c v2 v3 := by
        refine { base := a3, stale := a4, cur := a5, comm := a6, useReserved := a7, mounted := a8,
                 readOnly := a9, transMask := a10, seq := a11, hist := a12, wseq := a14, freeInodes := a15,
                 dirtyHi := fun x _ => (by rw [a2]), dirtyMono := fun x hx => (by rw [a2]; exact hx),
                 low := fun x _ => (by rw [a1]), cmtNode := fun _ _ _ => (by rw [a1]),
                 ok := hfr.ok.congr a1 a2 a3 a13 (by rw [a6]), diskEq := ?_ }
        intro x hx hd; rw [a1, a3]; rw [a2] at hd; exact hx hd
      refine { toImapFrame := hfr.trans hfr3, bits := ?_, cbits := ?_, blkHi := ?_, blkB := ?_,
               space := ⟨a17, a18, ?_⟩, branched := (by rw [a12b]; exact hbr), allocNext := (by rw [a16, han]), wasCmt := hcm }
      · intro x hx
        show imapBit c v3.blk v3.work x = _
        rw [a1, imapBit_congr_entries a13]; exact hbits x hx
      · intro x hx
        show imapBit c v3.blk v3.comm x = _
        rw [a1, a6]; exact hcbits x hx
      · intro x hx ho; rw [a1]; exact hhi x hx ho
      · intro ha; rw [a1]; exact hB ha
      · intro hlt; rw [a16, han]; exact hs.next hlt
    have hcount : c.firstAlloc ≤ b → ∀ (v3 : Vol), v3.blk = v2.blk → v3.work.entries = v2.work.entries → v3.comm = v2.comm →
        freeCount c v3 + (if curBit c v b = false ∧ cmtBit c v b = false then 1 else 0) =
          freeCount c v + (if alloc = false ∧ cmtBit c v b = false then 1 else 0) ∧
        afreeCount c v3 + (if curBit c v b = false ∧ cmtBit c v b = true then 1 else 0) =
          afreeCount c v + (if alloc = false ∧ cmtBit c v b = true then 1 else 0) := by
      intro hfa v3 a1 a2 a3
      have cb : ∀ x, InMap c x → curBit c v3 x = if x = b then alloc else curBit c v x := by
        intro x hx
        show imapBit c v3.blk v3.work x = _
        rw [a1, imapBit_congr_entries a2]; exact hbits x hx
      have cc : ∀ x, InMap c x → cmtBit c v3 x = cmtBit c v x := by
        intro x hx
        show imapBit c v3.blk v3.comm x = _
        rw [a1, a3]; exact hcbits x hx
      constructor
      · have := countIn_update (p := fun x => !curBit c v3 x && !cmtBit c v3 x)
          (q := fun x => !curBit c v x && !cmtBit c v x) (lo := c.firstAlloc) (hi := c.blockCount)
          hfa hb.2 (by intro x h1 h2 hx; show (_ && _) = (_ && _); rw [cb x ⟨by omega, h2⟩, cc x ⟨by omega, h2⟩, if_neg hx])
        rw [cb b hb, cc b hb, if_pos rfl] at this
        unfold freeCount
        revert this
        cases curBit c v b <;> cases cmtBit c v b <;> cases alloc <;> simp
      · have := countIn_update (p := fun x => !curBit c v3 x && cmtBit c v3 x)
          (q := fun x => !curBit c v x && cmtBit c v x) (lo := c.firstAlloc) (hi := c.blockCount)
          hfa hb.2 (by intro x h1 h2 hx; show (_ && _) = (_ && _); rw [cb x ⟨by omega, h2⟩, cc x ⟨by omega, h2⟩, if_neg hx])
        rw [cb b hb, cc b hb, if_pos rfl] at this
        unfold afreeCount
        revert this
        cases curBit c v b <;> cases cmtBit c v b <;> cases alloc <;> simp
    by_cases hfa : c.firstAlloc ≤ b
    · rw [if_pos hfa]
      cases alloc
      · have hcur : curBit c v b = true := by simpa using hne
        have hget : imapBlockGet c (!v2.cur) b v2 = (.ok (cmtBit c v b), v2) := by
          rw [imapBlockGet_cmt hc hfr.ok hb, hcbits b hb]
        simp only [Bool.false_eq_true, ↓reduceIte, wp_bind, wp_get, criticalAssert, wp_attempt]
        unfold wp
        rw [hget]
        simp only [run_pure]
        cases hcb : cmtBit c v b
        · simp only [Bool.false_eq_true, ↓reduceIte, run_modify, true_and]
          have hcc := hcount hfa (v2.setWork { v2.work with freeBlocks := v2.work.freeBlocks + 1 }) rfl (by simp) (by simp)
          simp only [hcur, hcb, Bool.true_eq_false, false_and, ↓reduceIte, and_self, Bool.false_eq_true, and_false] at hcc
          apply mk <;> try first | rfl | (simp; done)
          · rw [setWork_work]; show v2.work.freeBlocks + 1 = _
            have := hs.free; omega
          · show v2.almostFree = _
            rw [hal, hs.afree]; omega
        · simp only [↓reduceIte, run_modify, true_and]
          have hcc := hcount hfa { v2 with almostFree := v2.almostFree + 1 } rfl rfl rfl
          simp only [hcur, hcb, Bool.true_eq_false, false_and, ↓reduceIte, and_self, Bool.false_eq_true, and_false] at hcc
          apply mk <;> try first | rfl | (simp; done)
          · show v2.work.freeBlocks = _
            rw [hfb, hs.free]; omega
          · show v2.almostFree + 1 = _
            have := hs.afree; omega
      · have hcur : curBit c v b = false := by simpa using hne
        have hcb := hcm rfl hfa
        simp only [↓reduceIte, wp_modify, true_and]
        have hcc := hcount hfa (v2.setWork { v2.work with freeBlocks := v2.work.freeBlocks - 1 }) rfl (by simp) (by simp)
        simp only [hcur, hcb, Bool.true_eq_false, false_and, ↓reduceIte, and_self, Bool.false_eq_true, and_false] at hcc
        apply mk <;> try first | rfl | (simp; done)
        · rw [setWork_work]; show v2.work.freeBlocks - 1 = _
          have := hs.free; omega
        · show v2.almostFree = _
          rw [hal, hs.afree]; omega
    · rw [if_neg hfa]
      simp only [wp_pure, true_and]
      have hcong := freeCount_congr (c := c) (v := v) (v' := v2)
      have hco : freeCount c v2 = freeCount c v ∧ afreeCount c v2 = afreeCount c v := by
        have aux : ∀ x, c.firstAlloc ≤ x → x < c.blockCount → curBit c v2 x = curBit c v x ∧ cmtBit c v2 x = cmtBit c v x := by
          intro x h1 h2
          rw [hbits x ⟨by omega, h2⟩, hcbits x ⟨by omega, h2⟩, if_neg (by omega)]
          exact ⟨rfl, rfl⟩
        constructor
        · apply countIn_congr; intro x a b; rw [(aux x a b).1, (aux x a b).2]
        · apply countIn_congr; intro x a b; rw [(aux x a b).1, (aux x a b).2]
      apply mk <;> try first | rfl | (simp; done)
      · rw [hfb, hs.free, hco.1]
      · rw [hal, hs.afree, hco.2]
  cases alloc
  · simp only [↓reduceIte, wp_modify]
    exact fin _ rfl
  · simp only [Bool.true_eq_false, ↓reduceIte, wp_pure]
    exact fin _ rfl

end RedFs
