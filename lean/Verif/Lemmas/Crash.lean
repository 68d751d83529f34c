import Verif.Spec.Crash
import Verif.Lemmas.ImapAlloc
set_option linter.unusedSimpArgs false
set_option linter.unusedVariables false
namespace RedFs
open M Bitmap Vol

variable {c : Conf}

/-- A metaroot on disk `D` describes a usable allocation map with an exact free count. -/
structure MrOk (c : Conf) (D : Nat → Blk) (m : Metaroot) : Prop where
  nodes : c.inline = false → ∀ k, k < c.nodeCount → ∃ bits, D (nodeBlk c m k) = .imap bits
  free : m.freeBlocks = countIn (fun b => !imapBit c D m b) c.firstAlloc c.blockCount
  next : c.firstAlloc < c.blockCount → c.firstAlloc ≤ m.allocNext ∧ m.allocNext < c.blockCount

/-- Facts about an epoch from which crash safety follows. -/
structure EpochOk (c : Conf) (e : Epoch) : Prop where
  master : ∃ m, e.base 0 = .master m ∧ masterMatches c m = true
  master_clean : e.dirty 0 = false
  sel : ∃ i, mrSelect c (e.base 1) (e.base 2) = some (i, e.comm) ∧ e.dirty (mrBlk i) = false ∧
    e.base (mrBlk i) = .metaroot e.comm ∧
    (e.next = none → e.dirty (mrBlk !i) = false) ∧
    (∀ m, e.next = some m → e.fin (mrBlk !i) = .metaroot m ∧ e.comm.seq < m.seq ∧
      MrOk c e.base m ∧ ∀ b, InState c e.base m b → e.dirty b = false)
  mrOk : MrOk c e.base e.comm
  clean : ∀ b, InState c e.base e.comm b → e.dirty b = false

theorem mrSelect_block {b0 b1 : Blk} {i : Bool} {m : Metaroot} (h : mrSelect c b0 b1 = some (i, m)) :
    (if i then b1 else b0) = .metaroot m := by
  unfold mrSelect at h
  cases h0 : b0 <;> cases h1 : b1 <;> simp only [h0, h1, mrValid] at h <;>
    (try split at h) <;> simp_all

/-- Replacing the metaroot that was not selected by an invalid block does not change the selection. -/
theorem mrSelect_invalid {b0 b1 : Blk} {i : Bool} {m : Metaroot} (h : mrSelect c b0 b1 = some (i, m))
    {x : Blk} (hx : mrValid x = none) (hs : c.atomicSector = true → mrSectorOk x = true) :
    mrSelect c (if i then x else b0) (if i then b1 else x) = some (i, m) := by
  have hb := mrSelect_block h
  cases i <;> simp only [Bool.false_eq_true, if_false, if_true] at hb ⊢ <;> subst hb <;>
    unfold mrSelect <;> simp only [mrValid] at * <;> rw [hx] <;> simp only [] <;>
    rw [if_neg] <;> rintro ⟨ha, hb⟩ <;> rw [hs ha] at hb <;> cases hb

/-- Replacing it by a newer metaroot selects that one. -/
theorem mrSelect_newer {b0 b1 : Blk} {i : Bool} {m m' : Metaroot} (h : mrSelect c b0 b1 = some (i, m))
    (hs : m.seq < m'.seq) :
    mrSelect c (if i then .metaroot m' else b0) (if i then b1 else .metaroot m') = some (!i, m') := by
  have hb := mrSelect_block h
  cases i <;> simp only [Bool.false_eq_true, if_false, if_true] at hb ⊢ <;> subst hb <;>
    unfold mrSelect <;> simp only [mrValid]
  · rw [if_pos hs]; rfl
  · rw [if_neg (by omega)]; rfl

theorem volMount_ok {v : Vol} {D : Nat → Blk} (hv : Connected v D) {mm : Master} (h0 : D 0 = .master mm)
    (hm : masterMatches c mm = true) {i : Bool} {m : Metaroot} (hsel : mrSelect c (D 1) (D 2) = some (i, m)) (ro : Bool) :
    volMount c ro v = (.ok (), { v with seq := (if mm.seq < m.seq then m.seq else mm.seq) + 1
                                        mounted := true, readOnly := ro, useReserved := false, almostFree := 0
                                        mr := fun _ => m, cur := !i }) := by
  obtain ⟨hb, hba, hd⟩ := hv
  have hD : ∀ x, v.onDisk x = D x := by intro x; unfold Vol.onDisk; rw [hd, hba]; rfl
  unfold volMount mountMaster mountMetaroot
  simp only [run_bind, run_attempt, run_get]
  rw [hb, h0]
  simp only [hm, if_true, run_modify, run_bind, run_get]
  have hs2 : mrSelect c (({ v with seq := mm.seq } : Vol).onDisk 1) (({ v with seq := mm.seq } : Vol).onDisk 2) = some (i, m) := by
    rw [← hsel, ← hD 1, ← hD 2]; rfl
  rw [hs2]
  simp only [run_modify, run_pure, hb]

/-- The metaroot found after a power loss in the epoch. -/
theorem EpochOk.select {e : Epoch} (h : EpochOk c e) {D : Nat → Blk} (hD : CrashImage c e D) :
    ∃ i m, mrSelect c (D 1) (D 2) = some (i, m) ∧
      ((SameState c e.base e.comm D m ∧ MrOk c e.base e.comm) ∨
       ∃ m', e.next = some m' ∧ SameState c e.base m' D m ∧ MrOk c e.base m') := by
  obtain ⟨i, hsel, hdi, hbi, hnone, hsome⟩ := h.sel
  have hDi : D (mrBlk i) = e.base (mrBlk i) := hD.kept _ hdi
  have old : D (mrBlk !i) = e.base (mrBlk !i) → mrSelect c (D 1) (D 2) = some (i, e.comm) := by
    intro ho; rw [← hsel]
    cases i <;> simp only [mrBlk, Bool.not_false, Bool.not_true, if_true, Bool.false_eq_true, if_false] at hDi ho <;> rw [hDi, ho]
  have fin_old : mrSelect c (D 1) (D 2) = some (i, e.comm) → ∃ i m, mrSelect c (D 1) (D 2) = some (i, m) ∧
      ((SameState c e.base e.comm D m ∧ MrOk c e.base e.comm) ∨
       ∃ m', e.next = some m' ∧ SameState c e.base m' D m ∧ MrOk c e.base m') := by
    intro hs
    exact ⟨i, e.comm, hs, Or.inl ⟨⟨rfl, fun b hb => hD.kept b (h.clean b hb)⟩, h.mrOk⟩⟩
  cases hdo : e.dirty (mrBlk !i)
  · exact fin_old (old (hD.kept _ hdo))
  · rcases hnx : e.next with _ | m
    · rw [hnone hnx] at hdo; cases hdo
    · rw [hnx] at fin_old
      obtain ⟨hf, hsq, hmr, hcl⟩ := hsome m hnx
      have hb12 : mrBlk (!i) = 1 ∨ mrBlk (!i) = 2 := by cases i <;> simp [mrBlk]
      rcases hD.metaroot _ hb12 hdo with ho | hn | ⟨hi1, hi2⟩
      · exact fin_old (old ho)
      · rw [hf] at hn
        have := mrSelect_newer hsel hsq
        have hs : mrSelect c (D 1) (D 2) = some (!i, m) := by
          rw [← this]
          cases i <;> simp only [mrBlk, Bool.not_false, Bool.not_true, if_true, Bool.false_eq_true, if_false] at hDi hn ⊢ <;> rw [hDi, hn]
        exact ⟨!i, m, hs, Or.inr ⟨m, rfl, ⟨rfl, fun b hb => hD.kept b (hcl b hb)⟩, hmr⟩⟩
      · have := mrSelect_invalid hsel hi1 hi2
        apply fin_old
        rw [← this]
        cases i <;> simp only [mrBlk, Bool.not_false, Bool.not_true, if_true, Bool.false_eq_true, if_false] at hDi ⊢ <;> rw [hDi]

theorem EpochOk.safe {e : Epoch} (h : EpochOk c e) : EpochSafe c e := by
  intro D hD v hv ro
  obtain ⟨mm, hm1, hm2⟩ := h.master
  have h0 : D 0 = .master mm := by rw [hD.kept 0 h.master_clean, hm1]
  obtain ⟨i, m, hs, hm⟩ := h.select hD
  refine ⟨_, volMount_ok hv h0 hm2 hs ro, hv.1, rfl, rfl, rfl, ?_⟩
  rcases hm with ⟨h1, _⟩ | ⟨m', h1, h2, _⟩
  · exact Or.inl h1
  · exact Or.inr ⟨m', h1, h2⟩

/-- The invariant of a mounted volume between operations, as far as crash safety and
space accounting are concerned. -/
structure VolInv (c : Conf) (v : Vol) : Prop where
  ok : ImapOk c v
  space : SpaceOk c v
  /-- the free block count in the committed metaroot is that of the committed map -/
  commFree : v.comm.freeBlocks = countIn (fun b => !cmtBit c v b) c.firstAlloc c.blockCount
  commNext : c.firstAlloc < c.blockCount → c.firstAlloc ≤ v.comm.allocNext ∧ v.comm.allocNext < c.blockCount
  /-- no block used by the committed state has been written since the last flush -/
  clean : ∀ x, InMap c x → cmtBit c v x = true → v.dirty x = false
  /-- `sel`, `master` and `epochs` do not hold while the volume is being formatted -/
  sel : v.mounted = true → mrSelect c (v.base 1) (v.base 2) = some (!v.cur, v.comm)
  master : v.mounted = true → ∃ m, v.base 0 = .master m ∧ masterMatches c m = true
  low : ∀ x, x < 3 → v.dirty x = false
  seq : v.comm.seq < v.seq
  idle : v.branched = false → v.work = v.comm
  dev : ∀ x, v.dirty x = false → v.blk x = v.base x
  epochs : v.mounted = true → ∀ e ∈ v.hist, EpochOk c e

theorem imapBit_congr {D D' : Nat → Blk} {m : Metaroot} (hc : c.Ok)
    (h : c.inline = false → ∀ k, k < c.nodeCount → D' (nodeBlk c m k) = D (nodeBlk c m k)) {b : Nat} (hb : InMap c b) :
    imapBit c D' m b = imapBit c D m b := by
  unfold imapBit
  cases hi : c.inline
  · simp only [Bool.false_eq_true, if_false]
    rw [h hi _ (hc.node_lt hi hb.1 hb.2)]
  · rfl

theorem InState_congr {D D' : Nat → Blk} {m : Metaroot} (hc : c.Ok)
    (h : c.inline = false → ∀ k, k < c.nodeCount → D' (nodeBlk c m k) = D (nodeBlk c m k)) {b : Nat} :
    InState c D' m b ↔ InState c D m b := by
  unfold InState
  constructor <;> rintro (h1 | ⟨h1, h2⟩)
  · exact Or.inl h1
  · exact Or.inr ⟨h1, by rw [← imapBit_congr hc h h1]; exact h2⟩
  · exact Or.inl h1
  · exact Or.inr ⟨h1, by rw [imapBit_congr hc h h1]; exact h2⟩

/-- The committed state of a volume satisfying the invariant is on the disk, untouched. -/
theorem VolInv.comm_clean {v : Vol} (hc : c.Ok) (h : VolInv c v) {b : Nat} (hb : InState c v.base v.comm b) :
    v.dirty b = false ∧ v.blk b = v.base b := by
  rcases hb with ⟨hi, k, hk, rfl⟩ | ⟨hb, hbit⟩
  · exact h.ok.clean hi k hk
  · have : cmtBit c v b = true := by
      unfold cmtBit
      rw [imapBit_congr hc (fun hi k hk => (h.ok.clean hi k hk).2) hb]; exact hbit
    exact ⟨h.clean b hb this, h.dev b (h.clean b hb this)⟩

theorem MrOk.congr {D D' : Nat → Blk} {m : Metaroot} (hc : c.Ok) (h : MrOk c D m)
    (hD : ∀ b, InState c D m b → D' b = D b) : MrOk c D' m where
  nodes := fun hi k hk => by
    rw [hD _ (Or.inl ⟨hi, k, hk, rfl⟩)]; exact h.nodes hi k hk
  free := by
    rw [h.free]; apply countIn_congr; intro x h1 h2
    have := Conf.Ok.first_ge c
    rw [imapBit_congr (D := D) (D' := D') hc (fun hi k hk => hD _ (Or.inl ⟨hi, k, hk, rfl⟩)) (b := x) ⟨by omega, h2⟩]
  next := h.next

theorem VolInv.mrOk {v : Vol} (hc : c.Ok) (h : VolInv c v) : MrOk c v.base v.comm where
  nodes := fun hi k hk => by rw [← (h.ok.clean hi k hk).2]; exact h.ok.cmt hi k hk
  free := by
    rw [h.commFree]; apply countIn_congr; intro x h1 h2
    have := Conf.Ok.first_ge c
    unfold cmtBit
    rw [imapBit_congr (D := v.base) (D' := v.blk) hc (fun hi k hk => (h.ok.clean hi k hk).2) (b := x) ⟨by omega, h2⟩]
  next := h.commNext

theorem VolInv.epoch_ok {v : Vol} (hc : c.Ok) (h : VolInv c v) (hmt : v.mounted = true) : EpochOk c v.epoch where
  master := h.master hmt
  master_clean := h.low 0 (by omega)
  sel := by
    refine ⟨!v.cur, h.sel hmt, ?_, ?_, ?_, ?_⟩
    · exact h.low _ (by unfold mrBlk; split <;> omega)
    · have := mrSelect_block (h.sel hmt)
      cases hcur : v.cur <;> simp [hcur, mrBlk] at this ⊢ <;> exact this
    · intro _; exact h.low _ (by unfold mrBlk; split <;> omega)
    · intro m hm; cases hm
  mrOk := h.mrOk hc
  clean := fun b hb => (h.comm_clean hc hb).1

end RedFs
