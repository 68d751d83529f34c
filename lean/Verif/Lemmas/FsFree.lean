import Verif.Lemmas.FsCreate
set_option linter.unusedSimpArgs false
set_option linter.unusedVariables false
namespace RedFs
open M Bitmap Vol

variable {c : Conf} {v v' v0 v1 v2 : Vol} {ci ci' : Cinode}

/-- `v` is `v0` except that inode `i` has no data blocks any more; the contents of its inode block do not matter. -/
structure Gone (c : Conf) (v0 v : Vol) (i : Nat) : Prop where
  step : Step c v0 v
  useReserved : v.useReserved = v0.useReserved
  readOnly : v.readOnly = v0.readOnly
  freeInodes : v.work.freeInodes = v0.work.freeInodes
  sb : ∀ j, c.inodeValid j = true → ∀ w, curBit c v (slotBlk c j w) = curBit c v0 (slotBlk c j w)
  sd : ∀ j, j ≠ i → c.inodeValid j = true → ∀ w, v.blk (slotBlk c j w) = v0.blk (slotBlk c j w)
  oth : ∀ x, Others c v0 i x → v.blk x = v0.blk x ∧ curBit c v x = true
  full : ∀ x, c.firstAlloc ≤ x → x < c.blockCount → curBit c v x = true → Others c v0 i x

theorem Gone.empty (hc : c.Ok) (h : Wf c v) {i : Nat} (hT : ∀ p, PosOk c p → tree c v i p = 0) : Gone c v v i where
  step := .refl h.vol.ok h.vol.space
  useReserved := rfl
  readOnly := rfl
  freeInodes := rfl
  sb := fun _ _ _ => rfl
  sd := fun _ _ _ _ => rfl
  oth := by rintro x ⟨j, p, hj, hp, rfl, hn⟩; exact ⟨rfl, (h.fs.range j p hp hn).2.2⟩
  full := by
    intro x h1 h2 h3
    obtain ⟨j, p, hp, e⟩ := h.fs.full x h1 h2 h3
    have hx : x ≠ 0 := by have := Conf.Ok.table_ge c; have := Conf.Ok.first_ge c; omega
    refine ⟨j, p, fun ej => ?_, hp, e, hx⟩
    subst ej; exact hx (e.symm.trans (hT p hp))

/-- An inode of size zero has no blocks. -/
theorem Wf.tree_zero (h : Wf c v) {i : Nat} {f : AFile} (hf : files c v i = some f) (hz : f.size = 0) {p : Pos} (hp : PosOk c p) : tree c v i p = 0 := by
  unfold files at hf
  rw [fileOf_eq] at hf
  cases hn : inodeAt c v.blk (curBit c v) i with
  | none => rw [hn] at hf; simp at hf
  | some n =>
    rw [hn] at hf
    simp only [Option.map_some, Option.some.injEq] at hf
    have hs : n.size = 0 := by rw [← hf] at hz; exact hz
    have := (h.fs.node i n hn).2.2.1
    apply Decidable.byContradiction; intro hx
    have := this p hp hx
    omega

/-- `RedInodeFree` of an inode without blocks. -/
theorem inodeFree_spec (hc : c.Ok) (h : Wf c v0) {i : Nat} (hi : c.inodeValid i = true) (hf : (files c v0 i).isSome = true)
    (g : Gone c v0 v i) (hino : ci.ino = i) (hnb : ∃ w, ci.nodeBuf = some (slotBlk c i w)) :
    ∃ v', inodeFree c ci v = (.ok (), v') ∧ Ch c v0 v' (· = i) ∧ files c v' i = none ∧
      v'.work.freeInodes = v0.work.freeInodes + 1 ∧ v'.work.freeBlocks = v.work.freeBlocks ∧ v'.almostFree = v.almostFree := by
  subst hino
  have hval : 2 ≤ ci.ino ∧ ci.ino < 2 + c.inodeCount := by unfold Conf.inodeValid at hi; simpa using hi
  obtain ⟨w0, hnb⟩ := hnb
  obtain ⟨f, hf⟩ := Option.isSome_iff_exists.1 hf
  obtain ⟨w, n, _, h1, h2, h3, hat, _⟩ := h.slot hf
  have hv := g.step.inv hc h.vol
  have t1 := Tbl.discard hc hv hi w0
  have hv1 := t1.step.inv hc hv
  have hb1 : ∀ x, InMap c x → curBit c (v.discard (slotBlk c ci.ino w0)) x = curBit c v x :=
    fun x hx => curBit_poke hc (slot_range hc hi w0).1 hx
  have hm := fun w => slot_inMap hc hi w
  have hcw : curBit c (v.discard (slotBlk c ci.ino w0)) (slotBlk c ci.ino w) = true := by rw [hb1 _ (hm w), g.sb _ hi, h1]
  have hcw' : curBit c (v.discard (slotBlk c ci.ino w0)) (slotBlk c ci.ino (!w)) = false := by rw [hb1 _ (hm _), g.sb _ hi, h2]
  have hfi1 : (v.discard (slotBlk c ci.ino w0)).work.freeInodes = v0.work.freeInodes := by rw [discard_work]; exact g.freeInodes
  have hrun : ∀ v2, inodeBitSet c ci.ino w false (v.discard (slotBlk c ci.ino w0)) = (.ok (), v2) → v2.work.freeInodes < c.inodeCount →
      inodeFree c ci v = (.ok (), v2.setWork { v2.work with freeInodes := v2.work.freeInodes + 1 }) := by
    intro v2 e2 hlt
    unfold inodeFree
    simp only [hnb, hi, Bool.not_true, Bool.false_eq_true, if_false, run_bind, run_modify, run_get, bitGet_cur hc hv1 hi]
    have hlt' : ¬ c.inodeCount ≤ v2.work.freeInodes := by omega
    cases w
    · simp only [Bool.not_false] at hcw'
      rw [hcw, hcw']
      simp only [if_true, Bool.false_eq_true, if_false, run_bind, e2, run_get, hlt', run_modify]
    · simp only [Bool.not_true] at hcw'
      rw [hcw, hcw']
      simp only [if_true, Bool.false_eq_true, if_false, run_bind, e2, Bool.not_true, run_get, hlt', run_modify]
  generalize v.discard (slotBlk c ci.ino w0) = v1 at *
  obtain ⟨v2, e2, s2, hv2⟩ := slotSet hc hv1 hi w false (by rw [hcw]; simp)
  have hpos : v2.work.freeInodes < c.inodeCount := by
    rw [s2.freeInodes, hfi1, freeInodes_eq h]
    have hcount := countIn_add (p := fun i => (files c v0 i).isNone) (q := fun i => !(files c v0 i).isNone) (lo := 2) (hi := 2 + c.inodeCount)
      (fun x _ _ => by cases (files c v0 x).isNone <;> simp)
    have hle := countIn_le (fun x => (files c v0 x).isNone || !(files c v0 x).isNone) 2 (2 + c.inodeCount)
    have : 0 < countIn (fun i => !(files c v0 i).isNone) 2 (2 + c.inodeCount) := countIn_pos.2 ⟨ci.ino, hval.1, hval.2, by simp [hf]⟩
    omega
  rw [hrun v2 e2 hpos]
  have t2 := Tbl.set hc hv1 hi s2
  have t3 := Tbl.inodes (i := ci.ino) hc hv2 s2.branched (v2.work.freeInodes + 1)
  generalize hv3d : v2.setWork { v2.work with freeInodes := v2.work.freeInodes + 1 } = v3 at *
  have hv3b : ∀ x, InMap c x → curBit c v3 x = curBit c v2 x := by
    intro x hx; rw [← hv3d]; unfold curBit
    exact imapBit_congr_entries (by rw [setWork_work]) x
  have hv3i : v3.work.freeInodes = v2.work.freeInodes + 1 := by rw [← hv3d, setWork_work]
  have t := (t1.trans hc t2).trans hc t3
  have hsp := t.space hc hi hv
  have hbits : ∀ w', curBit c v3 (slotBlk c ci.ino w') = false := by
    intro w'
    rw [hv3b _ (hm w'), s2.bits _ (hm w')]
    by_cases e : w' = w
    · subst e; simp
    · rw [if_neg (fun e2 => e (slot_inj hc hi hi e2).2)]
      have : w' = !w := by cases w <;> cases w' <;> simp_all
      rw [this]; exact hcw'
  have hlive : liveIn c (curBit c v3) ci.ino = false := by unfold liveIn; rw [hbits, hbits]; rfl
  have hat3 : inodeAt c v3.blk (curBit c v3) ci.ino = none := inodeAt_none hlive
  have hT3 : ∀ p, treeOf c v3.blk (curBit c v3) ci.ino p = 0 := fun p => ptr_none hat3 p
  have hstep := g.step.trans hc t.step
  have hsb : ∀ j, j ≠ ci.ino → c.inodeValid j = true → ∀ w, curBit c v3 (slotBlk c j w) = curBit c v0 (slotBlk c j w) := by
    intro j hj hjv w; rw [(t.slots hc hi hj hjv w).1]; exact g.sb j hjv w
  have hsd : ∀ j, j ≠ ci.ino → c.inodeValid j = true → ∀ w, v3.blk (slotBlk c j w) = v0.blk (slotBlk c j w) := by
    intro j hj hjv w; rw [(t.slots hc hi hj hjv w).2]; exact g.sd j hj hjv w
  have hoth : ∀ j p, j ≠ ci.ino → PosOk c p → tree c v0 j p ≠ 0 → v3.blk (tree c v0 j p) = v0.blk (tree c v0 j p) ∧ curBit c v3 (tree c v0 j p) = true := by
    intro j p hj hp hn
    obtain ⟨r1, r2, r3⟩ := h.fs.range j p hp hn
    obtain ⟨a1, a2⟩ := t.alloc hc hi r1 r2
    obtain ⟨o1, o2⟩ := g.oth _ ⟨j, p, hj, hp, rfl, hn⟩
    exact ⟨a2.trans o1, a1.trans o2⟩
  have hfr : ∀ j, j ≠ ci.ino → _ := fun j hj =>
    h.frame hc hstep (j := j) (fun hv w => hsb j hj hv w) (fun hv w _ => hsd j hj hv w) (fun p hp hn => (hoth j p hj hp hn).1)
  have hwf : Wf c v3 := by
    refine ⟨hstep.inv hc h.vol, ?_, h.step_cfs hc hstep⟩
    refine h.fs.update hc (i := ci.ino) (fun j hj => (hfr j hj).1) (fun j hj => (hfr j hj).2.1) hsb
      (fun j hj hv w _ => hsd j hj hv w) (fun _ => by rw [hbits]; simp) (fun w _ hw => by rw [hbits] at hw; cases hw) ?_
      (fun j p hj hp hn => ⟨(hoth j p hj hp hn).2, (hoth j p hj hp hn).1⟩) (fun p _ hn => absurd (hT3 p) hn) (fun p _ _ _ hn => absurd (hT3 p) hn)
      (fun p _ hn => absurd (hT3 p) hn) (fun p _ hn => absurd (hT3 p) hn) ?_ (fun n hn => by rw [hat3] at hn; cases hn)
    · have hu := countIn_update (p := fun j => !liveIn c (curBit c v3) j) (q := fun j => !liveIn c (curBit c v0) j) hval.1 hval.2 (by
        intro j g1 g2 g3
        have hj : c.inodeValid j = true := by unfold Conf.inodeValid; simp; omega
        unfold liveIn
        rw [hsb j g3 hj _, hsb j g3 hj _])
      have hf0 := h.fs.free
      rw [← hf0] at hu
      have hl0 : liveIn c (curBit c v0) ci.ino = true := by
        have := live_iff h ci.ino; rw [hf, hi] at this; simpa using this.symm
      rw [hlive, hl0] at hu
      simp at hu
      rw [hv3i, s2.freeInodes, hfi1]; omega
    · intro x g1 g2 g3
      rw [(t.alloc hc hi g1 g2).1] at g3
      obtain ⟨j, p, hj, hp, e, _⟩ := g.full x g1 g2 g3
      exact Or.inl ⟨j, p, hj, hp, e⟩
  refine ⟨v3, rfl, ⟨hwf, hstep, t.useReserved.trans g.useReserved, t.readOnly.trans g.readOnly, fun j hj => (hfr j hj).2.2.1,
    fun ci hi' => (hfr ci.ino hi').2.2.2 ci rfl, fun j hj => (hfr j hj).2.1⟩, ?_, by rw [hv3i, s2.freeInodes, hfi1], hsp.1, hsp.2⟩
  unfold files; rw [fileOf_eq, hat3]; rfl

end RedFs
