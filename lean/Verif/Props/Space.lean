import Verif.Lemmas.Blank
set_option linter.unusedVariables false
/-!
Free space: C14, C15, C16.
-/
namespace RedFs.Props.Space
open RedFs
open M

variable {c : Conf} {v v' : Vol} {b : Nat}

/-- **C15** The allocator only hands out free blocks.  A block returned by
`RedImapAllocBlock` lies in the allocable range, was used neither by the working nor by
the committed state, and is the only block whose working state changes; the committed
state does not change. -/
theorem C15_alloc_only_free (hc : c.Ok) (h : VolInv c v) (hr : imapAllocBlock c v = (.ok b, v')) :
    (c.firstAlloc ≤ b ∧ b < c.blockCount) ∧ curBit c v b = false ∧ cmtBit c v b = false ∧
    (∀ x, InMap c x → curBit c v' x = (curBit c v x || decide (x = b))) ∧
    (∀ x, InMap c x → cmtBit c v' x = cmtBit c v x) := by
  by_cases hp : 0 < v.work.freeBlocks
  · obtain ⟨b', e, ha⟩ := wp_run (imapAlloc_spec hc h.ok h.space hp) hr
    cases e
    refine ⟨⟨ha.lo, ha.hi⟩, ha.wasCur, ha.wasCmt, fun x hx => ?_, ha.cbits⟩
    rw [ha.bits x hx]
    split <;> simp_all
  · rw [imapAlloc_full (by omega)] at hr; cases hr

/-- **C16** The allocator finds a block whenever one exists, wherever the search starts:
allocation succeeds if some block is free in both states; otherwise it reports ENOSPC and
changes nothing. In particular the search terminates. -/
theorem C16_alloc_complete (hc : c.Ok) (h : VolInv c v) :
    ((∃ t, c.firstAlloc ≤ t ∧ t < c.blockCount ∧ curBit c v t = false ∧ cmtBit c v t = false) →
      ∃ b v', imapAllocBlock c v = (.ok b, v')) ∧
    ((¬ ∃ t, c.firstAlloc ≤ t ∧ t < c.blockCount ∧ curBit c v t = false ∧ cmtBit c v t = false) →
      imapAllocBlock c v = (.error .enospc, v)) := by
  have hiff : 0 < v.work.freeBlocks ↔
      ∃ t, c.firstAlloc ≤ t ∧ t < c.blockCount ∧ curBit c v t = false ∧ cmtBit c v t = false := by
    rw [h.space.free]; unfold freeCount; rw [countIn_pos]
    simp
  constructor
  · intro hex
    have := imapAlloc_spec hc h.ok h.space (hiff.2 hex)
    rcases hres : imapAllocBlock c v with ⟨r, v'⟩
    obtain ⟨b, rfl, _⟩ := wp_run this hres
    exact ⟨b, v', rfl⟩
  · intro hno
    exact imapAlloc_full (by have := mt hiff.1 hno; omega)

/-- Spec: number of allocable blocks that neither state uses, and of those only the
committed state uses. -/
def SpaceExact (c : Conf) (v : Vol) : Prop :=
  v.work.freeBlocks = countIn (fun b => !curBit c v b && !cmtBit c v b) c.firstAlloc c.blockCount ∧
  v.almostFree = countIn (fun b => !curBit c v b && cmtBit c v b) c.firstAlloc c.blockCount

/-- **C14** (allocation) -/
theorem C14_alloc (hc : c.Ok) (h : VolInv c v) (hr : imapAllocBlock c v = (.ok b, v')) :
    VolInv c v' ∧ SpaceExact c v' ∧ v'.work.freeBlocks + 1 = v.work.freeBlocks := by
  by_cases hp : 0 < v.work.freeBlocks
  · obtain ⟨b', e, ha⟩ := wp_run (imapAlloc_spec hc h.ok h.space hp) hr
    cases e
    exact ⟨ha.step.inv hc h, ⟨ha.space.free, ha.space.afree⟩, ha.freeBlocks⟩
  · rw [imapAlloc_full (by omega)] at hr; cases hr

/-- **C14** (release) Releasing a block in use succeeds and keeps the counters exact: the
block becomes free at once if the committed state does not use it, and almost free otherwise. -/
theorem C14_free (hc : c.Ok) (h : VolInv c v) (hlo : c.firstAlloc ≤ b) (hhi : b < c.blockCount)
    (hu : curBit c v b = true) :
    ∃ v', imapBlockSet c b false v = (.ok (), v') ∧ VolInv c v' ∧ SpaceExact c v' ∧
      (∀ x, InMap c x → curBit c v' x = (curBit c v x && !decide (x = b))) ∧
      (∀ x, InMap c x → cmtBit c v' x = cmtBit c v x) := by
  have hf := Conf.Ok.first_ge c
  have hb : InMap c b := ⟨by omega, hhi⟩
  have := imapBlockSet_spec (alloc := false) hc h.ok h.space hb (by rw [hu]; simp) (by intro e; cases e)
  rcases hres : imapBlockSet c b false v with ⟨r, v'⟩
  obtain ⟨rfl, hs⟩ := wp_run this hres
  refine ⟨v', rfl, (hs.step hc h hb).inv hc h, ⟨hs.space.free, hs.space.afree⟩, fun x hx => ?_, hs.cbits⟩
  rw [hs.bits x hx]; split <;> simp_all

/-- **C14** (commit) After a commit the counter is the number of blocks the new committed
state leaves free; nothing is almost free any more. -/
theorem C14_transact (hc : c.Ok) (h : VolInv c v) (hr : volTransact v = (.ok (), v')) :
    VolInv c v' ∧ SpaceExact c v' ∧ v'.almostFree = 0 ∧
    v'.work.freeBlocks = countIn (fun b => !curBit c v b) c.firstAlloc c.blockCount := by
  obtain ⟨v1, h1, h2, _⟩ := volTransact_spec hc h
  rw [h1] at hr; cases hr
  refine ⟨h2.inv, ⟨h2.inv.space.free, h2.inv.space.afree⟩, h2.almost, ?_⟩
  rw [h2.work, h2.freeBlocks, space_sum h.space]

/-- **C14** (rollback) -/
theorem C14_rollback (hc : c.Ok) (h : VolInv c v) (hmt : v.mounted = true) (hro : v.readOnly = false)
    (hr : volRollback c v = (.ok (), v')) : VolInv c v' ∧ SpaceExact c v' ∧
    v'.work.freeBlocks = countIn (fun b => !cmtBit c v b) c.firstAlloc c.blockCount := by
  obtain ⟨v1, h1, h2, h3, h4, _⟩ := volRollback_spec hc h hmt hro
  rw [h1] at hr; cases hr
  refine ⟨h2, ⟨h2.space.free, h2.space.afree⟩, ?_⟩
  rw [h4, h.commFree]

/-- **C14** (no leak) Free, almost free and used blocks add up to the size of the allocable area. -/
theorem C14_no_leak (h : VolInv c v) :
    v.work.freeBlocks + v.almostFree + countIn (curBit c v) c.firstAlloc c.blockCount = c.allocable := by
  rw [space_sum h.space, countIn_add (by intro x _ _; cases curBit c v x <;> simp)]
  have : ∀ x, (!curBit c v x || curBit c v x) = true := by intro x; cases curBit c v x <;> rfl
  simp only [this, countIn_true]; rfl

/-- the hypotheses are met by a concrete volume, in both map forms -/
example : VolInv demoConf (blankVol demoConf) ∧ demoConf.inline = true ∧ (blankVol demoConf).work.freeBlocks = 49 :=
  ⟨blank_inv demo_ok, by decide, by decide⟩
example : VolInv demoConfX (blankVol demoConfX) ∧ demoConfX.inline = false ∧ demoConfX.nodeCount = 3 :=
  ⟨blank_inv demoX_ok, by decide, by decide⟩
/-- allocating, then releasing, then committing on that volume -/
example : ∃ b v1 v2, imapAllocBlock demoConfX (blankVol demoConfX) = (.ok b, v1) ∧ curBit demoConfX v1 b = true ∧
    imapBlockSet demoConfX b false v1 = (.ok (), v2) ∧ VolInv demoConfX v2 := by
  have h0 := blank_inv demoX_ok
  obtain ⟨b, v1, h1⟩ := (C16_alloc_complete demoX_ok h0).1 ⟨demoConfX.firstAlloc, by decide, by decide, blank_bit _ _ _, blank_bit _ _ _⟩
  obtain ⟨⟨l, r⟩, _, _, hb, _⟩ := C15_alloc_only_free demoX_ok h0 h1
  have hf := Conf.Ok.first_ge demoConfX
  have hu : curBit demoConfX v1 b = true := by rw [hb b ⟨by omega, r⟩]; simp
  obtain ⟨v2, h2, h3, _⟩ := C14_free demoX_ok (C14_alloc demoX_ok h0 h1).1 l r hu
  exact ⟨b, v1, v2, h1, hu, h2, h3⟩

end RedFs.Props.Space
