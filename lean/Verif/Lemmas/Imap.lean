import Verif.Lemmas.Count
import Verif.Lemmas.Bitmap
import Verif.Lemmas.Vol
set_option linter.unusedSimpArgs false
set_option linter.unusedVariables false
namespace RedFs
open M Bitmap Vol

variable {c : Conf}

namespace Conf.Ok
theorem bs_ge (h : c.Ok) : 128 ≤ c.blockSize := by
  obtain ⟨k, h7, _, e⟩ := h.bs_pow
  have := Nat.pow_le_pow_right (n := 2) (by omega) h7; omega
theorem imapE_pos (h : c.Ok) : 8 ≤ c.imapEntries := by
  have := h.bs_ge; unfold Conf.imapEntries; omega
theorem table_ge (c : Conf) : 3 ≤ c.tableStart := by
  unfold Conf.tableStart Conf.imapStart; split <;> omega
theorem first_ge (c : Conf) : c.tableStart ≤ c.firstAlloc := by
  unfold Conf.firstAlloc; omega
/-- every block of the map has an imap node -/
theorem node_lt (h : c.Ok) (hx : c.inline = false) {b : Nat} (h1 : c.tableStart ≤ b) (h2 : b < c.blockCount) :
    (b - c.tableStart) / c.imapEntries < c.nodeCount := by
  have hE := h.imapE_pos
  have hb := h.blocks_min
  rw [Nat.div_lt_iff_lt_mul (by omega)]
  have ht : c.tableStart = 3 + c.nodeCount * 2 := by
    unfold Conf.tableStart Conf.imapStart; simp [hx]
  have hn : c.blockCount - 3 ≤ c.nodeCount * (c.imapEntries + 2) := by
    unfold Conf.nodeCount
    have := Nat.div_add_mod (c.blockCount - 3 + (c.imapEntries + 2 - 1)) (c.imapEntries + 2)
    have := Nat.mod_lt (c.blockCount - 3 + (c.imapEntries + 2 - 1)) (show 0 < c.imapEntries + 2 by omega)
    rw [Nat.mul_comm]
    omega
  rw [Nat.mul_add] at hn
  omega
end Conf.Ok

theorem nodeBlk_ge (c : Conf) (m : Metaroot) (k : Nat) : 3 ≤ nodeBlk c m k := by
  unfold nodeBlk Conf.imapStart; omega
theorem nodeBlk_lt {k : Nat} (m : Metaroot) (hx : c.inline = false) (hk : k < c.nodeCount) :
    nodeBlk c m k < c.tableStart := by
  unfold nodeBlk Conf.tableStart
  simp only [hx, Bool.false_eq_true, ↓reduceIte]
  split <;> omega
theorem nodeBlk_inj {m m' : Metaroot} {k k' : Nat} (h : nodeBlk c m k = nodeBlk c m' k') : k = k' := by
  unfold nodeBlk at h
  split at h <;> split at h <;> omega

/-- The imap nodes of both states are where the metaroots say, and those of the committed
state are on disk. -/
structure ImapOk (c : Conf) (v : Vol) : Prop where
  cur : c.inline = false → ∀ k, k < c.nodeCount → ∃ bits, v.blk (nodeBlk c v.work k) = .imap bits
  cmt : c.inline = false → ∀ k, k < c.nodeCount → ∃ bits, v.blk (nodeBlk c v.comm k) = .imap bits
  clean : c.inline = false → ∀ k, k < c.nodeCount → 
    v.dirty (nodeBlk c v.comm k) = false ∧ v.blk (nodeBlk c v.comm k) = v.base (nodeBlk c v.comm k)

theorem nodeIsBranched_iff (v : Vol) (k : Nat) :
    nodeIsBranched v k = (bitGet v.work.entries k != bitGet v.comm.entries k) := by
  unfold nodeIsBranched Vol.work Vol.comm
  cases v.cur <;> simp [bne, Bool.beq_comm]

theorem getImap_eq {v : Vol} {b : Nat} {bits : Mem8} (h : v.blk b = .imap bits) :
    getImap b v = (.ok bits, v) := by
  unfold getImap; rw [h]

@[simp] theorem wp_getImap {v : Vol} {b : Nat} (Q) :
    wp (getImap b) Q v ↔ match v.blk b with | .imap bits => Q (.ok bits) v | _ => Q (.error .eio) v := by
  unfold wp getImap
  cases v.blk b <;> exact Iff.rfl

theorem imapBlockGet_cur {v : Vol} {b : Nat} (hc : c.Ok) (h : ImapOk c v) (hb : InMap c b) :
    imapBlockGet c v.cur b v = (.ok (curBit c v b), v) := by
  unfold imapBlockGet curBit imapBit
  have : ¬ (b < c.tableStart ∨ c.blockCount ≤ b) := by have := hb.1; have := hb.2; omega
  rw [if_neg this]
  cases hi : c.inline
  · simp only [Bool.false_eq_true, ↓reduceIte]
    obtain ⟨bits, e⟩ := h.cur hi _ (hc.node_lt hi hb.1 hb.2)
    have hne : ¬ (v.cur = !v.cur ∧ nodeIsBranched v ((b - c.tableStart) / c.imapEntries) = false) := by
      cases v.cur <;> simp
    have e' : v.blk (nodeBlk c (v.mr v.cur) ((b - c.tableStart) / c.imapEntries)) = Blk.imap bits := e
    simp only [imapEGet, run_bind, run_get, if_neg hne, getImap_eq e', e, run_pure]
  · rfl

theorem imapBlockGet_cmt {v : Vol} {b : Nat} (hc : c.Ok) (h : ImapOk c v) (hb : InMap c b) :
    imapBlockGet c (!v.cur) b v = (.ok (cmtBit c v b), v) := by
  unfold imapBlockGet cmtBit imapBit
  have : ¬ (b < c.tableStart ∨ c.blockCount ≤ b) := by have := hb.1; have := hb.2; omega
  rw [if_neg this]
  cases hi : c.inline
  · simp only [Bool.false_eq_true, ↓reduceIte]
    have hk := hc.node_lt hi hb.1 hb.2
    obtain ⟨bits, e⟩ := h.cmt hi _ hk
    have e' : nodeBlk c (v.mr (if (!v.cur) = !v.cur ∧ nodeIsBranched v ((b - c.tableStart) / c.imapEntries) = false
        then !!v.cur else !v.cur)) ((b - c.tableStart) / c.imapEntries) =
        nodeBlk c v.comm ((b - c.tableStart) / c.imapEntries) := by
      by_cases hn : nodeIsBranched v ((b - c.tableStart) / c.imapEntries) = false
      · have hbit := hn
        rw [nodeIsBranched_iff] at hbit
        simp only [true_and, hn, if_true, Bool.not_not]
        unfold nodeBlk
        have : bitGet (v.mr v.cur).entries ((b - c.tableStart) / c.imapEntries) =
            bitGet v.comm.entries ((b - c.tableStart) / c.imapEntries) := by
          simpa [Vol.work] using hbit
        rw [this]
      · simp only [hn, and_false, if_false]; rfl
    simp only [true_and] at e'
    simp only [imapEGet, run_bind, run_get, true_and, e', getImap_eq e, e, run_pure]
  · rfl

/-- Everything except allocation maps, space counters and `fBranched` is unchanged; the
committed map is untouched. -/
structure ImapFrame (c : Conf) (v v' : Vol) : Prop where
  base : v'.base = v.base
  stale : v'.stale = v.stale
  cur : v'.cur = v.cur
  comm : v'.comm = v.comm
  useReserved : v'.useReserved = v.useReserved
  mounted : v'.mounted = v.mounted
  readOnly : v'.readOnly = v.readOnly
  transMask : v'.transMask = v.transMask
  seq : v'.seq = v.seq
  hist : v'.hist = v.hist
  wseq : v'.work.seq = v.work.seq
  freeInodes : v'.work.freeInodes = v.work.freeInodes
  /-- outside the imap nodes nothing becomes dirty -/
  dirtyHi : ∀ x, (x < 3 ∨ c.tableStart ≤ x) → v'.dirty x = v.dirty x
  dirtyMono : ∀ x, v.dirty x = true → v'.dirty x = true
  low : ∀ x, x < 3 → v'.blk x = v.blk x
  cmtNode : c.inline = false → ∀ k, k < c.nodeCount →
    v'.blk (nodeBlk c v.comm k) = v.blk (nodeBlk c v.comm k)
  ok : ImapOk c v'
  /-- blocks equal to the disk stay so -/
  diskEq : ∀ x, (v.dirty x = false → v.blk x = v.base x) → v'.dirty x = false → v'.blk x = v'.base x

/-- Result of `RedImapIBlockSet` / `RedImapEBlockSet`. -/
structure RawSet (c : Conf) (v v' : Vol) (b : Nat) (alloc : Bool) : Prop extends ImapFrame c v v' where
  bits : ∀ x, InMap c x → curBit c v' x = if x = b then alloc else curBit c v x
  cbits : ∀ x, InMap c x → cmtBit c v' x = cmtBit c v x
  blkHi : ∀ x, c.tableStart ≤ x → v'.blk x = v.blk x
  almost : v'.almostFree = v.almostFree
  freeBlocks : v'.work.freeBlocks = v.work.freeBlocks
  allocNext : v'.work.allocNext = v.work.allocNext


theorem nodeBlk_eq_of_bit {m m' : Metaroot} {k : Nat} (h : bitGet m.entries k = bitGet m'.entries k) :
    nodeBlk c m k = nodeBlk c m' k := by unfold nodeBlk; rw [h]
theorem nodeBlk_ne_of_bit {m m' : Metaroot} {k : Nat} (h : bitGet m.entries k ≠ bitGet m'.entries k) :
    nodeBlk c m k ≠ nodeBlk c m' k := by
  unfold nodeBlk
  cases h1 : bitGet m.entries k <;> cases h2 : bitGet m'.entries k <;> simp_all

theorem imapISet_spec {v : Vol} {b : Nat} {alloc : Bool} (hc : c.Ok) (hi : c.inline = true)
    (h : ImapOk c v) (hb : InMap c b) (hne : curBit c v b ≠ alloc) :
    wp (imapISet c b alloc) (fun r v' => r = .ok () ∧ RawSet c v v' b alloc) v := by
  have hbit : ¬ bitGet v.work.entries (b - c.tableStart) = alloc := by
    intro e; apply hne; unfold curBit imapBit; simp [hi, e]
  have key : ∀ e' : Mem8, (∀ x, bitGet e' x = if x = b - c.tableStart then alloc else bitGet v.work.entries x) →
      RawSet c v (v.setWork { v.work with entries := e' }) b alloc := by
    intro e' he
    refine { base := rfl, stale := rfl, cur := rfl, comm := by simp, useReserved := rfl, mounted := rfl,
             readOnly := rfl, transMask := rfl, seq := rfl, hist := rfl, wseq := by simp, freeInodes := by simp,
             dirtyHi := fun _ _ => rfl, dirtyMono := fun _ h => h, low := fun _ _ => rfl,
             cmtNode := fun _ _ _ => rfl, ok := ?_, diskEq := fun x hx hd => hx hd, bits := ?_, cbits := ?_,
             blkHi := fun _ _ => rfl, almost := rfl, freeBlocks := by simp, allocNext := by simp }
    · constructor <;> simp [hi]
    · intro x hx
      unfold curBit imapBit
      simp only [hi, if_true, setWork_work, setWork_blk]
      rw [he]
      have := hx.1; have := hb.1
      by_cases e : x = b
      · simp [e]
      · rw [if_neg e, if_neg (by omega)]
    · intro x hx
      unfold cmtBit imapBit; simp [hi]
  unfold imapISet
  simp only [wp_bind, wp_get]
  rw [if_neg hbit]
  cases alloc
  · simp only [Bool.false_eq_true, ↓reduceIte, wp_modify, true_and]
    apply key
    intro x
    rw [bitGet_clear]
    by_cases e : x = b - c.tableStart
    · simp [e]
    · have : ¬ b - c.tableStart = x := fun h => e h.symm
      simp [e, this]
  · simp only [↓reduceIte, wp_modify, true_and]
    apply key
    intro x
    rw [bitGet_set]
    by_cases e : x = b - c.tableStart
    · simp [e]
    · have : ¬ b - c.tableStart = x := fun h => e h.symm
      simp [e, this]


structure NodeBr (c : Conf) (v v' : Vol) (k nb : Nat) : Prop extends ImapFrame c v v' where
  nb_eq : nb = nodeBlk c v'.work k
  branched : bitGet v'.work.entries k ≠ bitGet v'.comm.entries k
  content : v'.blk nb = v.blk (nodeBlk c v.work k)
  dirtyNb : v'.dirty nb = true
  others : ∀ k', k' ≠ k → k' < c.nodeCount → v'.blk (nodeBlk c v'.work k') = v.blk (nodeBlk c v.work k')
  blkHi : ∀ x, c.tableStart ≤ x → v'.blk x = v.blk x
  almost : v'.almostFree = v.almostFree
  freeBlocks : v'.work.freeBlocks = v.work.freeBlocks
  allocNext : v'.work.allocNext = v.work.allocNext

theorem imapNodeBranch_spec {v : Vol} {k : Nat} (hc : c.Ok) (hi : c.inline = false)
    (h : ImapOk c v) (hk : k < c.nodeCount) :
    wp (imapNodeBranch c k) (fun r v' => ∃ nb, r = .ok nb ∧ NodeBr c v v' k nb) v := by
  unfold imapNodeBranch
  simp only [wp_bind, wp_get]
  rw [if_neg (by omega)]
  obtain ⟨bits, eb⟩ := h.cur hi k hk
  by_cases hbr : nodeIsBranched v k = true
  · rw [if_pos hbr]
    simp only [wp_bind, wp_getImap, eb, wp_modify, wp_pure]
    refine ⟨_, rfl, ?_⟩
    rw [nodeIsBranched_iff] at hbr
    have hbr' : bitGet v.work.entries k ≠ bitGet v.comm.entries k := by simpa using hbr
    have hmd : ∀ x, (v.markDirty (nodeBlk c v.work k)).blk x = v.blk x := by
      intro x; simp only [Vol.markDirty, Vol.write]; split <;> simp_all
    have hlt := nodeBlk_lt v.work hi hk
    have hge := nodeBlk_ge c v.work k
    have hnc : ∀ k', k' < c.nodeCount → nodeBlk c v.comm k' ≠ nodeBlk c v.work k := by
      intro k' _ e
      have := nodeBlk_inj e; subst this
      exact nodeBlk_ne_of_bit hbr' e.symm
    refine { base := rfl, stale := rfl, cur := rfl, comm := rfl, useReserved := rfl, mounted := rfl,
             readOnly := rfl, transMask := rfl, seq := rfl, hist := rfl, wseq := rfl, freeInodes := rfl,
             dirtyHi := ?_, dirtyMono := ?_, low := fun x _ => hmd x,
             cmtNode := fun _ _ _ => hmd _, ok := ?_, diskEq := ?_, nb_eq := rfl, branched := hbr',
             content := hmd _, dirtyNb := by simp [Vol.markDirty, Vol.write], others := fun _ _ _ => hmd _,
             blkHi := fun x _ => hmd x, almost := rfl, freeBlocks := rfl, allocNext := rfl }
    · intro x hx
      simp only [Vol.markDirty, Vol.write]
      rw [if_neg (by omega)]
    · intro x hx; simp only [Vol.markDirty, Vol.write]; split <;> simp_all
    · constructor
      · intro _ k' hk'; rw [hmd]; exact h.cur hi k' hk'
      · intro _ k' hk'; rw [hmd]; exact h.cmt hi k' hk'
      · intro _ k' hk'; rw [hmd]
        refine ⟨?_, (h.clean hi k' hk').2⟩
        simp only [Vol.markDirty, Vol.write]
        rw [if_neg]
        · exact (h.clean hi k' hk').1
        · exact hnc k' hk'
    · intro x hx hd
      rw [hmd]
      apply hx
      simp only [Vol.markDirty, Vol.write] at hd
      split at hd <;> simp_all
  · rw [if_neg hbr]
    simp only [wp_bind, wp_modify, wp_get]
    have hbr' : bitGet v.work.entries k = bitGet v.comm.entries k := by
      rw [nodeIsBranched_iff] at hbr; simpa using hbr
    generalize he' : (if bitGet v.work.entries k = true then bitClear v.work.entries k else bitSet v.work.entries k) = e'
    have hbit : ∀ j, bitGet e' j = if j = k then !bitGet v.work.entries k else bitGet v.work.entries j := by
      intro j; rw [← he']
      cases hb : bitGet v.work.entries k
      · simp only [Bool.false_eq_true, ↓reduceIte, bitGet_set, Bool.not_false]
        by_cases e : j = k
        · simp [e]
        · have : ¬ k = j := fun h => e h.symm
          simp [e, this]
      · simp only [↓reduceIte, bitGet_clear, Bool.not_true]
        by_cases e : j = k
        · simp [e]
        · have : ¬ k = j := fun h => e h.symm
          simp [e, this]
    let m' : Metaroot := { v.work with entries := e' }
    have hold : nodeBlk c v.work k = nodeBlk c v.comm k := nodeBlk_eq_of_bit hbr'
    have hnew : nodeBlk c m' k ≠ nodeBlk c v.comm k := by
      apply nodeBlk_ne_of_bit
      show bitGet e' k ≠ _
      rw [hbit, if_pos rfl, hbr']; cases bitGet v.comm.entries k <;> simp
    have hother : ∀ j, j ≠ k → nodeBlk c m' j = nodeBlk c v.work j := by
      intro j hj; apply nodeBlk_eq_of_bit
      show bitGet e' j = _
      rw [hbit, if_neg hj]
    have hblkOld : (v.setWork m').blk (nodeBlk c v.comm k) = .imap bits := by
      rw [setWork_blk, ← hold]; exact eb
    simp only [setWork_work, setWork_comm, wp_getImap]
    have h1 : ((v.setWork m').discard (nodeBlk c m' k)).blk (nodeBlk c v.comm k) = .imap bits := by
      simp only [Vol.discard, Vol.poke]; rw [if_neg (Ne.symm hnew)]; exact hblkOld
    have h1' : ((v.setWork { v.work with entries := e' }).discard (nodeBlk c { v.work with entries := e' } k)).blk (nodeBlk c v.comm k) = .imap bits := h1
    simp only [h1', wp_pure]
    have hcl := h.clean hi k hk
    generalize hv' : ((v.setWork m').discard (nodeBlk c m' k)).branchBuf (nodeBlk c v.comm k) (nodeBlk c m' k) = v'
    have hblk : ∀ x, v'.blk x = if x = nodeBlk c m' k then .imap bits else v.blk x := by
      intro x; rw [← hv']
      rw [branchBuf_blk _ _ _ _ (Ne.symm hnew)]
      by_cases e : x = nodeBlk c v.comm k
      · subst e
        rw [if_pos rfl, if_neg (Ne.symm hnew), discard_onDisk, setWork_onDisk, onDisk_clean _ _ hcl.1, hcl.2]
      · rw [if_neg e]
        by_cases e2 : x = nodeBlk c m' k
        · rw [if_pos e2, if_pos e2]; exact h1
        · simp [e2]
    have hdirty : ∀ x, v'.dirty x = if x = nodeBlk c m' k then true else v.dirty x := by
      intro x; rw [← hv']; rfl
    have hwork : v'.work = m' := by rw [← hv']; exact setWork_work v m'
    have hcomm : v'.comm = v.comm := by rw [← hv']; exact setWork_comm v m'
    have hlt := nodeBlk_lt m' hi hk
    have hge := nodeBlk_ge c m' k
    have hnc : ∀ k', nodeBlk c v.comm k' ≠ nodeBlk c m' k := by
      intro k' e
      have := nodeBlk_inj e; subst this
      exact hnew e.symm
    have hbase : v'.base = v.base := (by rw [← hv']; rfl)
    refine ⟨_, rfl, ?_⟩
    refine { base := hbase, stale := (by rw [← hv']; rfl), cur := (by rw [← hv']; rfl),
             comm := hcomm, useReserved := (by rw [← hv']; rfl), mounted := (by rw [← hv']; rfl),
             readOnly := (by rw [← hv']; rfl), transMask := (by rw [← hv']; rfl), seq := (by rw [← hv']; rfl),
             hist := (by rw [← hv']; rfl), wseq := (by rw [hwork]), freeInodes := (by rw [hwork]),
             dirtyHi := ?_, dirtyMono := ?_, low := ?_,
             cmtNode := ?_, ok := ?_, diskEq := ?_, nb_eq := (by rw [hwork]), branched := ?_,
             content := ?_, dirtyNb := ?_, others := ?_,
             blkHi := ?_, almost := (by rw [← hv']; rfl), freeBlocks := (by rw [hwork]), allocNext := (by rw [hwork]) }
    · intro x hx; rw [hdirty, if_neg (by omega)]
    · intro x hx; rw [hdirty]; split <;> simp_all
    · intro x hx; rw [hblk, if_neg (by omega)]
    · intro _ k' hk'; rw [hblk, if_neg (hnc k')]
    · constructor
      · intro _ k' hk'
        rw [hwork, hblk]
        by_cases e : k' = k
        · subst e; exact ⟨bits, by simp⟩
        · rw [if_neg, hother k' e]
          · exact h.cur hi k' hk'
          · intro e2; exact e (nodeBlk_inj e2)
      · intro _ k' hk'; rw [hcomm, hblk, if_neg (hnc k')]; exact h.cmt hi k' hk'
      · intro _ k' hk'; rw [hcomm, hblk, hdirty, if_neg (hnc k'), if_neg (hnc k'), hbase]; exact h.clean hi k' hk'
    · intro x hx hd
      rw [hdirty] at hd
      split at hd
      · cases hd
      · rename_i hne; rw [hblk, if_neg hne, hbase]; exact hx hd
    · rw [hwork, hcomm]
      show bitGet e' k ≠ _
      rw [hbit, if_pos rfl, hbr']; cases bitGet v.comm.entries k <;> simp
    · rw [hblk, if_pos rfl, eb]
    · rw [hdirty, if_pos rfl]
    · intro k' hne hk'
      rw [hwork, hblk, if_neg, hother k' hne]
      intro e2; exact hne (nodeBlk_inj e2)
    · intro x hx; rw [hblk, if_neg (by omega)]

theorem imapESet_spec {v : Vol} {b : Nat} {alloc : Bool} (hc : c.Ok) (hi : c.inline = false)
    (h : ImapOk c v) (hb : InMap c b) (hne : curBit c v b ≠ alloc) :
    wp (imapESet c b alloc) (fun r v' => r = .ok () ∧ RawSet c v v' b alloc) v := by
  unfold imapESet
  have hk := hc.node_lt hi hb.1 hb.2
  simp only [wp_bind]
  refine wp_mono (imapNodeBranch_spec hc hi h hk) ?_
  rintro r v1 ⟨nb, rfl, hn⟩
  obtain ⟨bits, eb⟩ := h.cur hi _ hk
  have eb1 := hn.content
  rw [eb] at eb1
  simp only [wp_getImap, eb1]
  have hcb : curBit c v b = bitGet bits ((b - c.tableStart) % c.imapEntries) := by
    unfold curBit imapBit; simp [hi, eb]
  rw [hcb] at hne
  rw [if_neg hne]
  have hE := hc.imapE_pos
  have hlt : nb < c.tableStart := hn.nb_eq ▸ nodeBlk_lt v1.work hi hk
  have hge : 3 ≤ nb := hn.nb_eq ▸ nodeBlk_ge c v1.work _
  have hnc : ∀ k', nodeBlk c v1.comm k' ≠ nb := by
    intro k' e
    have e2 := e; rw [hn.nb_eq] at e2
    have := nodeBlk_inj e2; subst this
    exact nodeBlk_ne_of_bit hn.branched e2.symm
  have key : ∀ bits' : Mem8, (∀ x, bitGet bits' x = if x = (b - c.tableStart) % c.imapEntries then alloc else bitGet bits x) →
      RawSet c v (v1.write nb (.imap bits')) b alloc := by
    intro bits' hbits
    have hblk : ∀ x, (v1.write nb (.imap bits')).blk x = if x = nb then .imap bits' else v1.blk x := fun _ => rfl
    have hdirty : ∀ x, (v1.write nb (.imap bits')).dirty x = if x = nb then true else v1.dirty x := fun _ => rfl
    have hd' : ∀ x, (v1.write nb (.imap bits')).dirty x = v1.dirty x := by
      intro x; rw [hdirty]; split
      · rename_i e; rw [e, hn.dirtyNb]
      · rfl
    refine { base := hn.base, stale := hn.stale, cur := hn.cur, comm := hn.comm, useReserved := hn.useReserved,
             mounted := hn.mounted, readOnly := hn.readOnly, transMask := hn.transMask, seq := hn.seq,
             hist := hn.hist, wseq := hn.wseq, freeInodes := hn.freeInodes,
             dirtyHi := ?_, dirtyMono := ?_, low := ?_, cmtNode := ?_, ok := ?_, diskEq := ?_,
             bits := ?_, cbits := ?_, blkHi := ?_, almost := hn.almost, freeBlocks := hn.freeBlocks,
             allocNext := hn.allocNext }
    · intro x hx; rw [hd']; exact hn.dirtyHi x hx
    · intro x hx; rw [hd']; exact hn.dirtyMono x hx
    · intro x hx; rw [hblk, if_neg (by omega)]; exact hn.low x hx
    · intro _ k' hk'; rw [hblk, if_neg]
      · exact hn.cmtNode hi k' hk'
      · rw [← hn.comm]; exact hnc k'
    · constructor
      · intro _ k' hk'
        rw [hblk]
        split
        · exact ⟨_, rfl⟩
        · exact hn.ok.cur hi k' hk'
      · intro _ k' hk'
        show ∃ bits, (v1.write nb (.imap bits')).blk (nodeBlk c v1.comm k') = _
        rw [hblk, if_neg (hnc k')]; exact hn.ok.cmt hi k' hk'
      · intro _ k' hk'
        show (v1.write nb (.imap bits')).dirty (nodeBlk c v1.comm k') = false ∧ (v1.write nb (.imap bits')).blk (nodeBlk c v1.comm k') = v1.base _
        rw [hd', hblk, if_neg (hnc k')]; exact hn.ok.clean hi k' hk'
    · intro x hx hd
      rw [hd'] at hd
      rw [hblk, if_neg]
      · exact hn.diskEq x hx hd
      · rintro rfl; rw [hn.dirtyNb] at hd; cases hd
    · intro x hx
      have hxk := hc.node_lt hi hx.1 hx.2
      show imapBit c (v1.write nb (.imap bits')).blk v1.work x = _
      unfold curBit imapBit
      simp only [hi, Bool.false_eq_true, ↓reduceIte, hblk]
      by_cases e : (x - c.tableStart) / c.imapEntries = (b - c.tableStart) / c.imapEntries
      · rw [e, ← hn.nb_eq, if_pos rfl, eb]
        simp only [hbits]
        have := hx.1; have := hb.1
        by_cases exb : x = b
        · simp [exb]
        · rw [if_neg exb, if_neg]
          intro e3
          have a1 := Nat.div_add_mod (x - c.tableStart) c.imapEntries
          have a2 := Nat.div_add_mod (b - c.tableStart) c.imapEntries
          rw [e, e3] at a1
          omega
      · rw [if_neg, hn.others _ e hxk, if_neg]
        · intro exb; exact e (by rw [exb])
        · rw [hn.nb_eq]; intro e2; exact e (nodeBlk_inj e2)
    · intro x hx
      have hxk := hc.node_lt hi hx.1 hx.2
      show imapBit c (v1.write nb (.imap bits')).blk v1.comm x = _
      unfold cmtBit imapBit
      simp only [hi, Bool.false_eq_true, ↓reduceIte, hblk]
      rw [if_neg (hnc _), hn.comm, hn.cmtNode hi _ hxk]
    · intro x hx; rw [hblk, if_neg (by omega)]; exact hn.blkHi x hx
  cases alloc
  · simp only [Bool.false_eq_true, ↓reduceIte, wp_modify, true_and]
    apply key
    intro x
    rw [bitGet_clear]
    by_cases e : x = (b - c.tableStart) % c.imapEntries
    · simp [e]
    · have : ¬ (b - c.tableStart) % c.imapEntries = x := fun h => e h.symm
      simp [e, this]
  · simp only [↓reduceIte, wp_modify, true_and]
    apply key
    intro x
    rw [bitGet_set]
    by_cases e : x = (b - c.tableStart) % c.imapEntries
    · simp [e]
    · have : ¬ (b - c.tableStart) % c.imapEntries = x := fun h => e h.symm
      simp [e, this]

end RedFs
