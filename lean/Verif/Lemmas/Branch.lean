import Verif.Lemmas.Step
import Verif.Model.Data
set_option linter.unusedSimpArgs false
set_option linter.unusedVariables false
namespace RedFs
open M Bitmap Vol

variable {c : Conf}

/-- A step that also leaves the run-time flags alone. -/
structure Qt (c : Conf) (v v' : Vol) : Prop where
  step : Step c v v'
  useReserved : v'.useReserved = v.useReserved
  readOnly : v'.readOnly = v.readOnly
  freeInodes : v'.work.freeInodes = v.work.freeInodes

namespace Qt
theorem refl {v : Vol} (h : VolInv c v) : Qt c v v := ⟨Step.refl h.ok h.space, rfl, rfl, rfl⟩
theorem trans {v v1 v2 : Vol} (hc : c.Ok) (a : Qt c v v1) (b : Qt c v1 v2) : Qt c v v2 :=
  ⟨a.step.trans hc b.step, b.useReserved.trans a.useReserved, b.readOnly.trans a.readOnly,
   b.freeInodes.trans a.freeInodes⟩
theorem write {v : Vol} (hc : c.Ok) (h : VolInv c v) {b : Nat} (x : Blk) (hb : InMap c b)
    (hn : cmtBit c v b = false) (hbr : v.branched = true) : Qt c v (v.write b x) :=
  ⟨Step.write hc h.ok h.space x hb hn hbr, rfl, rfl, rfl⟩
end Qt

theorem BlkSet.qt {v v' : Vol} {b : Nat} {alloc : Bool} (hc : c.Ok) (hv : VolInv c v) (h : BlkSet c v v' b alloc) (hb : InMap c b) :
    Qt c v v' := ⟨h.step hc hv hb, h.useReserved, h.readOnly, h.freeInodes⟩
theorem Alloced.qt {v v' : Vol} {b : Nat} (h : Alloced c v v' b) : Qt c v v' :=
  ⟨h.step, h.useReserved, h.readOnly, h.freeInodes⟩

/-- A block that is in use and not committed shows that the volume is branched. -/
theorem VolInv.branched_of {v : Vol} (h : VolInv c v) {x : Nat} (h1 : curBit c v x = true) (h2 : cmtBit c v x = false) :
    v.branched = true := by
  cases hb : v.branched
  · have := h.idle hb
    unfold curBit at h1; unfold cmtBit at h2; rw [this, h2] at h1; cases h1
  · rfl

/-- Bits of a block do not depend on the contents of blocks outside the imap. -/
theorem curBit_write {v : Vol} (hc : c.Ok) {b : Nat} {x : Blk} (hb : c.tableStart ≤ b) {y : Nat} (hy : InMap c y) :
    curBit c (v.write b x) y = curBit c v y := by
  unfold curBit
  exact imapBit_congr hc (fun hi k hk => by
    rw [write_blk, if_neg]; intro e; rw [write_work] at e; have := nodeBlk_lt v.work hi hk; omega) hy
theorem cmtBit_write {v : Vol} (hc : c.Ok) {b : Nat} {x : Blk} (hb : c.tableStart ≤ b) {y : Nat} (hy : InMap c y) :
    cmtBit c (v.write b x) y = cmtBit c v y := by
  unfold cmtBit
  exact imapBit_congr hc (fun hi k hk => by
    rw [write_blk, if_neg]; intro e; rw [write_comm] at e; have := nodeBlk_lt v.comm hi hk; omega) hy
theorem curBit_poke {v : Vol} (hc : c.Ok) {b : Nat} {x : Blk} (hb : c.tableStart ≤ b) {y : Nat} (hy : InMap c y) :
    curBit c (v.poke b x) y = curBit c v y := curBit_write (x := x) hc hb hy
theorem cmtBit_poke {v : Vol} (hc : c.Ok) {b : Nat} {x : Blk} (hb : c.tableStart ≤ b) {y : Nat} (hy : InMap c y) :
    cmtBit c (v.poke b x) y = cmtBit c v y := cmtBit_write (x := x) hc hb hy

/-- Blocks that are not in use in the working state. -/
theorem SpaceOk.tot {v : Vol} (h : SpaceOk c v) :
    v.work.freeBlocks + v.almostFree = countIn (fun b => !curBit c v b) c.firstAlloc c.blockCount := by
  rw [h.free, h.afree, freeCount, afreeCount, countIn_add]
  · apply countIn_congr; intro x _ _
    cases curBit c v x <;> cases cmtBit c v x <;> rfl
  · intro x _ _; cases curBit c v x <;> cases cmtBit c v x <;> simp

/-- Freeing a block. -/
theorem BlkSet.counts {v v' : Vol} {b : Nat} (hs : SpaceOk c v) (h : BlkSet c v v' b false) (hlo : c.firstAlloc ≤ b)
    (hhi : b < c.blockCount) (hcur : curBit c v b = true) :
    v'.work.freeBlocks + v'.almostFree = v.work.freeBlocks + v.almostFree + 1 ∧
    v'.work.freeBlocks = v.work.freeBlocks + (if cmtBit c v b then 0 else 1) := by
  have hf := Conf.Ok.first_ge c
  have hb' : curBit c v' b = false := by rw [h.bits b ⟨by omega, hhi⟩]; simp
  have hcb' : cmtBit c v' b = cmtBit c v b := h.cbits b ⟨by omega, hhi⟩
  constructor
  · rw [hs.tot, h.space.tot]
    have := countIn_update (p := fun b => !curBit c v' b) (q := fun b => !curBit c v b) hlo hhi (by
      intro x h1 h2 h3; rw [h.bits x ⟨by omega, h2⟩, if_neg h3])
    simp only [hb', hcur] at this
    simpa using this
  · rw [hs.free, h.space.free]
    have := countIn_update (p := fun b => !curBit c v' b && !cmtBit c v' b) (q := fun b => !curBit c v b && !cmtBit c v b) hlo hhi (by
      intro x h1 h2 h3; rw [h.bits x ⟨by omega, h2⟩, if_neg h3, h.cbits x ⟨by omega, h2⟩])
    simp only [hb', hcur, hcb'] at this
    unfold freeCount
    cases hcm : cmtBit c v b <;> simp [hcm] at this ⊢ <;> omega

/-- `x` is in use and not part of the committed state (`ALLOCSTATE_NEW`). -/
def NewB (c : Conf) (v : Vol) (x : Nat) : Prop := curBit c v x = true ∧ cmtBit c v x = false
instance {c : Conf} {v : Vol} {x : Nat} : Decidable (NewB c v x) := by unfold NewB; infer_instance

/-- Result of `BranchOneBlock`. -/
structure Br (c : Conf) (v v' : Vol) (prev b : Nat) (kind : NKind) (buf : Bool) : Prop extends Qt c v v' where
  lo : c.firstAlloc ≤ b
  hi : b < c.blockCount
  fresh : b = prev ∨ curBit c v b = false
  new : cmtBit c v b = false
  bits : ∀ x, InMap c x → curBit c v' x = (decide (x = b) || (curBit c v x && decide (x ≠ prev)))
  blk : ∀ x, c.tableStart ≤ x → x ≠ b → x ≠ prev → v'.blk x = v.blk x
  blkB : buf = true → v'.blk b = if prev = 0 then kind.blank else v.blk prev
  branched : v'.branched = true
  free : v'.work.freeBlocks + (if prev ≠ 0 ∧ NewB c v prev then 0 else 1) = v.work.freeBlocks
  tot : v'.work.freeBlocks + v'.almostFree + (if prev = 0 then 1 else 0) = v.work.freeBlocks + v.almostFree

def bufOf (buf : Option (Option Nat)) (b : Nat) : Option Nat := if buf.isSome then some b else none

theorem branchOne_spec (hc : c.Ok) {v : Vol} (hv : VolInv c v) {prev : Nat} {buf : Option (Option Nat)} {kind : NKind}
    (hprev : prev ≠ 0 → c.firstAlloc ≤ prev ∧ prev < c.blockCount ∧ curBit c v prev = true ∧ kind.valid (v.blk prev) = true)
    (hbuf : ∀ x, buf = some (some x) → x = prev ∧ prev ≠ 0)
    (hfree : ¬ (prev ≠ 0 ∧ NewB c v prev) → 0 < v.work.freeBlocks) :
    ∃ b v', branchOne c prev buf kind v = (.ok (b, bufOf buf b), v') ∧ Br c v v' prev b kind buf.isSome := by
  have hf := Conf.Ok.first_ge c
  have hz : 0 < c.firstAlloc := by have := Conf.Ok.table_ge c; omega
  by_cases hnew : prev ≠ 0 ∧ NewB c v prev
  · obtain ⟨hp, hn⟩ := hnew
    obtain ⟨h1, h2, h3, h4⟩ := hprev hp
    have hm : InMap c prev := ⟨by omega, h2⟩
    have hbr := hv.branched_of hn.1 hn.2
    have hst : imapBlockState c prev v = (.ok .new, v) := by
      rw [imapBlockState_eq hc hv.ok hm, hn.1, hn.2]; rfl
    have key : ∀ v', (v' = v ∨ v' = v.markDirty prev) → Br c v v' prev prev kind buf.isSome := by
      intro v' hv'
      have hq : Qt c v v' := by
        rcases hv' with rfl | rfl
        · exact Qt.refl hv
        · exact Qt.write hc hv _ hm hn.2 hbr
      have hblk : ∀ x, v'.blk x = v.blk x := by
        rcases hv' with rfl | rfl <;> simp
      have hbits : ∀ x, InMap c x → curBit c v' x = curBit c v x := by
        intro x hx
        rcases hv' with rfl | rfl
        · rfl
        · exact curBit_write hc (by omega) hx
      refine { toQt := hq, lo := h1, hi := h2, fresh := Or.inl rfl, new := hn.2, bits := ?_, blk := fun x _ _ _ => hblk x,
               blkB := ?_, branched := ?_, free := ?_, tot := ?_ }
      · intro x hx; rw [hbits x hx]
        by_cases e : x = prev
        · subst e; simp [hn.1]
        · simp [e]
      · intro _; rw [if_neg hp, hblk]
      · rcases hv' with rfl | rfl
        · exact hbr
        · exact hbr
      · rw [if_pos ⟨hp, hn⟩]; rcases hv' with rfl | rfl <;> rfl
      · rw [if_neg hp]; rcases hv' with rfl | rfl <;> rfl
    unfold branchOne
    simp only [hp, if_false, run_bind, hst, if_true]
    match buf, hbuf, key with
    | none, _, key => exact ⟨prev, v, rfl, key v (Or.inl rfl)⟩
    | some (some x), hbuf, key =>
      obtain ⟨rfl, _⟩ := hbuf x rfl
      exact ⟨x, _, rfl, key _ (Or.inr rfl)⟩
    | some none, _, key =>
      refine ⟨prev, v.markDirty prev, ?_, key _ (Or.inr rfl)⟩
      simp [getBuf, h4, bufOf]
  · have hpos := hfree hnew
    have hal := imapAlloc_spec hc hv.ok hv.space hpos
    rcases hx : imapAllocBlock c v with ⟨r, v1⟩
    obtain ⟨b, rfl, ha⟩ := wp_run hal hx
    have hv1 : VolInv c v1 := ha.step.inv hc hv
    have hbm : InMap c b := ⟨by have := ha.lo; omega, ha.hi⟩
    have hne : b ≠ prev := by
      intro e; by_cases hp : prev = 0
      · have := ha.lo; omega
      · have := (hprev hp).2.2.1; rw [← e, ha.wasCur] at this; cases this
    have hnew1 : cmtBit c v1 b = false := by rw [ha.cbits b hbm]; exact ha.wasCmt
    unfold branchOne
    by_cases hp : prev = 0
    · subst hp
      simp only [if_true, run_bind, run_pure, reduceCtorEq, if_false, hx]
      have key : ∀ v', (v' = v1 ∧ buf.isSome = false ∨ v' = v1.write b kind.blank) → Br c v v' 0 b kind buf.isSome := by
        intro v' hv'
        have hq : Qt c v1 v' := by
          rcases hv' with ⟨rfl, _⟩ | rfl
          · exact Qt.refl hv1
          · exact Qt.write hc hv1 _ hbm hnew1 ha.branched
        have e1 : v'.work = v1.work := by rcases hv' with ⟨rfl, _⟩ | rfl <;> rfl
        have e2 : v'.almostFree = v1.almostFree := by rcases hv' with ⟨rfl, _⟩ | rfl <;> rfl
        refine { toQt := ha.qt.trans hc hq, lo := ha.lo, hi := ha.hi, fresh := Or.inr ha.wasCur, new := ha.wasCmt, bits := ?_,
                 blk := ?_, blkB := ?_, branched := ?_, free := ?_, tot := ?_ }
        · intro x hx
          have : curBit c v' x = curBit c v1 x := by
            rcases hv' with ⟨rfl, _⟩ | rfl
            · rfl
            · exact curBit_write hc hbm.1 hx
          rw [this, ha.bits x hx]
          by_cases e : x = b
          · simp [e]
          · have : x ≠ 0 := by have := hx.1; have := Conf.Ok.table_ge c; omega
            simp [e, this]
        · intro x h1 h2 h3
          have : v'.blk x = v1.blk x := by rcases hv' with ⟨rfl, _⟩ | rfl <;> simp [h2]
          rw [this, ha.blkHi x h1]
        · intro hb; rcases hv' with ⟨_, h⟩ | rfl
          · rw [h] at hb; cases hb
          · simp
        · rcases hv' with ⟨rfl, _⟩ | rfl <;> exact ha.branched
        · rw [e1, if_neg hnew]; exact ha.freeBlocks
        · rw [e1, e2, if_pos rfl]; have := ha.freeBlocks; have := ha.almost; omega
      match buf, hbuf, key with
      | none, _, key => exact ⟨b, v1, rfl, key v1 (Or.inl ⟨rfl, rfl⟩)⟩
      | some (some x), hbuf, _ => exact absurd rfl (hbuf x rfl).2
      | some none, _, key => exact ⟨b, v1.write b kind.blank, rfl, key _ (Or.inr rfl)⟩
    · obtain ⟨h1, h2, h3, h4⟩ := hprev hp
      have hm : InMap c prev := ⟨by omega, h2⟩
      have hcm : cmtBit c v prev = true := by
        cases hcm : cmtBit c v prev
        · exact absurd ⟨hp, h3, hcm⟩ hnew
        · rfl
      have hst : imapBlockState c prev v = (.ok .used, v) := by
        rw [imapBlockState_eq hc hv.ok hm, h3, hcm]; rfl
      have hcl := hv.clean prev hm hcm
      have hd1 : v1.dirty prev = false := by rw [ha.dirtyHi prev (Or.inr hm.1)]; exact hcl
      have hb1 : v1.blk prev = v.blk prev := ha.blkHi prev hm.1
      have hod : v1.onDisk prev = v1.blk prev := by
        rw [onDisk_clean v1 prev hd1]; exact (hv1.dev prev hd1).symm
      simp only [hp, if_false, run_bind, hst, reduceCtorEq, hx]
      -- the tail: free the old block
      have tail : ∀ v2, (v2 = v1 ∧ buf.isSome = false ∨ v2 = v1.branchBuf prev b) →
          ∃ v3, imapBlockSet c prev false v2 = (.ok (), v3) ∧ Br c v v3 prev b kind buf.isSome := by
        intro v2 hv2
        have heq : v2 = v1 ∧ buf.isSome = false ∨ (v2 = v1.write b (v1.blk prev)) := by
          rcases hv2 with h | rfl
          · exact Or.inl h
          · right
            unfold Vol.branchBuf Vol.discard
            have : (v1.write b (v1.blk prev)).onDisk prev = v1.blk prev := by
              rw [← hod]; unfold Vol.onDisk; rw [write_dirty, if_neg (Ne.symm hne)]; rfl
            rw [this]
            unfold Vol.poke
            congr 1
            funext i
            by_cases e : i = prev
            · subst e; simp [Ne.symm hne]
            · simp [e]
        have hq : Qt c v1 v2 := by
          rcases heq with ⟨rfl, _⟩ | rfl
          · exact Qt.refl hv1
          · exact Qt.write hc hv1 _ hbm hnew1 ha.branched
        have hv2i : VolInv c v2 := hq.step.inv hc hv1
        have hcur2 : ∀ x, InMap c x → curBit c v2 x = curBit c v1 x := by
          intro x hx
          rcases heq with ⟨rfl, _⟩ | rfl
          · rfl
          · exact curBit_write hc hbm.1 hx
        have hcm2 : ∀ x, InMap c x → cmtBit c v2 x = cmtBit c v1 x := by
          intro x hx
          rcases heq with ⟨rfl, _⟩ | rfl
          · rfl
          · exact cmtBit_write hc hbm.1 hx
        have hcp : curBit c v2 prev = true := by
          rw [hcur2 prev hm, ha.bits prev hm, if_neg (Ne.symm hne)]; exact h3
        have hset := imapBlockSet_spec hc hv2i.ok hv2i.space hm (alloc := false) (by rw [hcp]; simp) (by simp)
        rcases hy : imapBlockSet c prev false v2 with ⟨r, v3⟩
        obtain ⟨rfl, hs⟩ := wp_run hset hy
        refine ⟨v3, rfl, ?_⟩
        have hcnt := hs.counts hv2i.space h1 h2 hcp
        rw [hcm2 prev hm, ha.cbits prev hm, hcm] at hcnt
        have e1 : v2.work = v1.work := by rcases heq with ⟨rfl, _⟩ | rfl <;> rfl
        have e2 : v2.almostFree = v1.almostFree := by rcases heq with ⟨rfl, _⟩ | rfl <;> rfl
        rw [e1, e2] at hcnt
        refine { toQt := (ha.qt.trans hc hq).trans hc (hs.qt hc hv2i hm), lo := ha.lo, hi := ha.hi, fresh := Or.inr ha.wasCur,
                 new := ha.wasCmt, bits := ?_, blk := ?_, blkB := ?_, branched := hs.branched, free := ?_, tot := ?_ }
        · intro x hx
          rw [hs.bits x hx, hcur2 x hx, ha.bits x hx]
          by_cases e : x = prev
          · subst e; simp [Ne.symm hne]
          · by_cases e2 : x = b <;> simp [e, e2, hne]
        · intro x g1 g2 g3
          rw [hs.blkHi x g1 (Or.inl g3)]
          have : v2.blk x = v1.blk x := by rcases heq with ⟨rfl, _⟩ | rfl <;> simp [g2]
          rw [this, ha.blkHi x g1]
        · intro hb
          rw [hs.blkHi b hbm.1 (Or.inl hne), if_neg hp]
          rcases heq with ⟨_, h⟩ | rfl
          · rw [h] at hb; cases hb
          · simp [hb1]
        · rw [if_neg hnew, hcnt.2]; have := ha.freeBlocks; simp; omega
        · rw [if_neg hp]; have := hcnt.1; have := ha.freeBlocks; have := ha.almost; omega
      match buf, hbuf, tail with
      | none, _, tail =>
        obtain ⟨v3, e3, hbr⟩ := tail v1 (Or.inl ⟨rfl, rfl⟩)
        exact ⟨b, v3, by simp [e3, bufOf], hbr⟩
      | some (some x), hbuf, tail =>
        obtain ⟨rfl, _⟩ := hbuf x rfl
        obtain ⟨v3, e3, hbr⟩ := tail (v1.branchBuf x b) (Or.inr rfl)
        exact ⟨b, v3, by simp [e3, bufOf], hbr⟩
      | some none, _, tail =>
        obtain ⟨v3, e3, hbr⟩ := tail (v1.branchBuf prev b) (Or.inr rfl)
        refine ⟨b, v3, ?_, hbr⟩
        have : kind.valid (v1.blk prev) = true := by rw [hb1]; exact h4
        simp [e3, getBuf, this, bufOf]

end RedFs
