import Verif.Lemmas.FsTable
set_option linter.unusedSimpArgs false
set_option linter.unusedVariables false
namespace RedFs
open M Bitmap Vol

variable {c : Conf} {v v' v1 v2 : Vol} {ci ci' : Cinode}

theorem bitGet_cur (hc : c.Ok) (hv : VolInv c v) {i : Nat} (hi : c.inodeValid i = true) (w : Bool) :
    inodeBitGet c v.cur i w v = (.ok (curBit c v (slotBlk c i w)), v) := by
  unfold inodeBitGet; rw [if_pos hi, imapBlockGet_cur hc hv.ok (slot_inMap hc hi w)]
theorem bitGet_cmt (hc : c.Ok) (hv : VolInv c v) {i : Nat} (hi : c.inodeValid i = true) (w : Bool) :
    inodeBitGet c (!v.cur) i w v = (.ok (cmtBit c v (slotBlk c i w)), v) := by
  unfold inodeBitGet; rw [if_pos hi, imapBlockGet_cmt hc hv.ok (slot_inMap hc hi w)]

theorem isFree_eq (hc : c.Ok) (hv : VolInv c v) {i : Nat} (hi : c.inodeValid i = true) :
    inodeIsFree c i v = (.ok (!liveIn c (curBit c v) i), v) := by
  unfold inodeIsFree liveIn
  simp only [run_bind, run_get, bitGet_cur hc hv hi]
  cases h0 : curBit c v (slotBlk c i false)
  · simp [bitGet_cur hc hv hi]
  · simp

theorem live_iff (h : Wf c v) (i : Nat) : (files c v i).isSome = (c.inodeValid i && liveIn c (curBit c v) i) := by
  unfold files fileOf
  rw [Option.isSome_map]
  by_cases hi : c.inodeValid i = true
  · rw [hi, Bool.true_and]
    cases hl : liveIn c (curBit c v) i
    · rw [inodeAt_none hl]; rfl
    · unfold liveIn at hl
      rw [Bool.or_eq_true] at hl
      rcases hl with hl | hl
      · obtain ⟨n, hn⟩ := h.fs.live i _ hi hl
        rw [inodeAt_of hi (h.fs.one i hi) hl hn]; rfl
      · obtain ⟨n, hn⟩ := h.fs.live i _ hi hl
        rw [inodeAt_of hi (h.fs.one i hi) hl hn]; rfl
  · simp only [Bool.not_eq_true] at hi
    rw [hi]; unfold inodeAt; rw [hi]; rfl

/-- The live slot of an inode that exists. -/
theorem Wf.slot (h : Wf c v) {i : Nat} {f : AFile} (hf : files c v i = some f) :
    ∃ w n, c.inodeValid i = true ∧ curBit c v (slotBlk c i w) = true ∧ curBit c v (slotBlk c i (!w)) = false ∧
      v.blk (slotBlk c i w) = .inode n ∧ inodeAt c v.blk (curBit c v) i = some n ∧ n.mode = f.mode ∧ n.nlink = f.nlink ∧
      n.pinode = f.parent ∧ n.size = f.size := by
  unfold files at hf
  rw [fileOf_eq] at hf
  cases hn : inodeAt c v.blk (curBit c v) i with
  | none => rw [hn] at hf; cases hf
  | some n =>
    rw [hn] at hf
    simp only [Option.map_some, Option.some.injEq] at hf
    obtain ⟨w, h1, h2⟩ := inodeAt_some hn
    have hv := inodeAt_valid hn
    refine ⟨w, n, hv, h1, ?_, h2, rfl, by rw [← hf], by rw [← hf], by rw [← hf], by rw [← hf]⟩
    have := h.fs.one i hv
    cases w
    · cases h3 : curBit c v (slotBlk c i !false)
      · rfl
      · exact absurd ⟨h1, h3⟩ this
    · cases h3 : curBit c v (slotBlk c i !true)
      · rfl
      · exact absurd ⟨h3, h1⟩ this

theorem SeekAll.flags {V : Pos → Nat} (h : SeekAll c ci V) (b d : Bool) (nb : Option Nat) (n : InodeNode) :
    SeekAll c { ci with branched := b, dirty := d, nodeBuf := nb, node := n } V := by
  intro x hx hi
  obtain ⟨h1, h2⟩ := h x hx hi
  refine ⟨fun hl => ⟨(h1 hl).inited, (h1 hl).logical, ?_, (h1 hl).pData⟩, fun hl => ?_⟩
  · have := (h1 hl).pos
    generalize posOf c x = p at *
    rcases p with x | ⟨x | ⟨x | ⟨x, y⟩, d'⟩, k'⟩ <;> exact this
  · have := h2 hl
    generalize posOf c x = p at *
    rcases p with x | ⟨x | ⟨x | ⟨x, y⟩, d'⟩, k'⟩ <;> exact this

/-! ### `RedInodeBranch` -/

/-- The inode is now dirty; nothing visible has changed. -/
structure Branched (c : Conf) (v v' : Vol) (ci ci' : Cinode) : Prop where
  ch : Ch c v v' (· = ci.ino)
  same : ∀ j, files c v' j = files c v j
  mnt : Mnt c v' ci'
  dirty : ci'.dirty = true
  ino : ci'.ino = ci.ino
  node : ci'.node = ci.node
  pData : ci'.pData = ci.pData
  dir : ci'.dir = ci.dir
  free : v'.work.freeBlocks = v.work.freeBlocks
  almost : v'.almostFree = v.almostFree
  tree : ∀ p, PosOk c p → tree c v' ci.ino p = tree c v ci.ino p

theorem Branched.kp {D : Nat → Prop} (h : Branched c v v' ci ci') : Kp c v v' D :=
  h.ch.kpAll (fun hh => by rw [← h.same]; exact hh) (fun hh => by rw [h.same]; exact hh) h.tree

theorem all_files {I : Nat → Prop} {i : Nat} (h : Ch c v v' (· = i)) (hi : files c v' i = files c v i) (j : Nat) :
    files c v' j = files c v j := by
  by_cases e : j = i
  · rw [e]; exact hi
  · exact h.files j e

theorem inodeBranch_spec (hc : c.Ok) (h : Wf c v) (m : Mnt c v ci) :
    ∃ ci' v', inodeBranch c ci v = (.ok ci', v') ∧ Branched c v v' ci ci' := by
  obtain ⟨w, h1, h2, h3, h4⟩ := m.nb
  have hi := m.ino
  have hone := h.fs.one _ hi
  have hat := h.at_mnt m
  unfold inodeBranch
  rw [h1]
  simp only [hi, Bool.not_true, Bool.false_eq_true, if_false]
  cases hbr : ci.branched
  · -- move to the other slot
    simp only [Bool.false_eq_true, if_false]
    have hcm : cmtBit c v (slotBlk c ci.ino w) = true := by
      cases hx : cmtBit c v (slotBlk c ci.ino w)
      · rw [h4.2 hx] at hbr; cases hbr
      · rfl
    have hcone := h.cfs.one _ hi
    have hcm' : cmtBit c v (slotBlk c ci.ino !w) = false := by
      cases hx : cmtBit c v (slotBlk c ci.ino !w)
      · rfl
      · cases w
        · exact absurd ⟨hcm, hx⟩ hcone
        · exact absurd ⟨hx, hcm⟩ hcone
    have hcur' : curBit c v (slotBlk c ci.ino !w) = false := by
      cases hx : curBit c v (slotBlk c ci.ino !w)
      · rfl
      · cases w
        · exact absurd ⟨h2, hx⟩ hone
        · exact absurd ⟨hx, h2⟩ hone
    have hwc : inodeWriteableCopy c ci.ino v = (.ok (!w), v) := by
      unfold inodeWriteableCopy
      simp only [run_bind, run_get, bitGet_cmt hc h.vol hi]
      cases w
      · simp only [hcm, Bool.not_true, Bool.false_eq_true, if_false, run_bind, bitGet_cmt hc h.vol hi]
        simp only [Bool.not_false] at hcm'
        simp only [hcm', Bool.not_false, if_true, run_pure]
      · simp only [Bool.not_true] at hcm'
        simp only [hcm', Bool.not_false, Bool.not_true, if_true, run_pure]
    have hm1 := slot_inMap hc hi w
    have hne : slotBlk c ci.ino w ≠ slotBlk c ci.ino (!w) := by
      intro e; have := (slot_inj hc hi hi e).2; cases w <;> cases this
    have hcl := h.vol.clean _ hm1 hcm
    have hbb := branchBuf_clean (v := v) hcl (h.vol.dev _ hcl) hne
    have t1 := Tbl.write hc h.vol hi (!w) (v.blk (slotBlk c ci.ino w)) hcm'
    have hv1 := t1.step.inv hc h.vol
    have hb1 : ∀ x, InMap c x → curBit c (v.write (slotBlk c ci.ino !w) (v.blk (slotBlk c ci.ino w))) x = curBit c v x :=
      fun x hx => curBit_write hc (slot_range hc hi (!w)).1 hx
    generalize hV1 : v.write (slotBlk c ci.ino !w) (v.blk (slotBlk c ci.ino w)) = v1 at *
    obtain ⟨v2, e2, s2, hv2⟩ := slotSet hc hv1 hi w false (by rw [hb1 _ hm1, h2]; simp)
    have hm2 := slot_inMap hc hi (!w)
    obtain ⟨v3, e3, s3, hv3⟩ := slotSet hc hv2 hi (!w) true (by
      rw [s2.bits _ hm2, if_neg (Ne.symm hne), hb1 _ hm2, hcur']; simp)
    have t2 := Tbl.set hc hv1 hi s2
    have t3 := Tbl.set hc hv2 hi s3
    have t := (t1.trans hc t2).trans hc t3
    have hbits3 : ∀ w', curBit c v3 (slotBlk c ci.ino w') = decide (w' = !w) := by
      intro w'
      rw [s3.bits _ (slot_inMap hc hi w')]
      by_cases e : w' = !w
      · subst e; simp
      · have : w' = w := by cases w <;> cases w' <;> simp_all
        subst this
        rw [if_neg hne, s2.bits _ hm1, if_pos rfl]; cases w' <;> rfl
    have hblk3 : v3.blk (slotBlk c ci.ino !w) = .inode ci.node := by
      rw [s3.blkHi _ hm2.1 (Or.inr rfl), s2.blkHi _ hm2.1 (Or.inl (Ne.symm hne)), ← hV1, write_blk, if_pos rfl, h3]
    have hone3 : ¬ (curBit c v3 (slotBlk c ci.ino false) = true ∧ curBit c v3 (slotBlk c ci.ino true) = true) := by
      rw [hbits3, hbits3]; cases w <;> simp
    have hat3 : inodeAt c v3.blk (curBit c v3) ci.ino = some ci.node :=
      inodeAt_of hi hone3 (w := !w) (by rw [hbits3]; simp) hblk3
    have hT : ∀ p, PosOk c p → tree c v3 ci.ino p = tree c v ci.ino p := by
      refine ptr_congr (c := c) (by rw [hat3, hat]) ?_
      intro p hp hn
      obtain ⟨r1, r2, _⟩ := h.fs.range _ p hp hn
      exact (t.alloc hc hi r1 r2).2
    have hch : Ch c v v3 (· = ci.ino) := by
      refine t.wf hc hi h hT hone3 ?_ ?_ ?_
      · intro w' hw'
        rw [hbits3] at hw'
        have : w' = !w := by simpa using hw'
        subst this; exact ⟨_, hblk3⟩
      · have l1 : liveIn c (curBit c v3) ci.ino = true := by
          unfold liveIn; rw [hbits3, hbits3]; cases w <;> simp
        have l2 : liveIn c (curBit c v) ci.ino = true := by
          unfold liveIn; cases w <;> simp [h2]
        rw [l1, l2, s3.freeInodes, s2.freeInodes, ← hV1]; rfl
      · intro n hn
        rw [hat3] at hn; injection hn with hn; subst hn
        exact h.fs.node _ _ hat
    refine ⟨{ ci with branched := true, dirty := true, nodeBuf := some (slotBlk c ci.ino !w) }, v3, ?_, ?_⟩
    · unfold criticalAssert
      simp only [run_bind, run_attempt, hwc, run_modify, hbb, Bool.not_not, e2, e3, run_pure]
    · have hsame : files c v3 ci.ino = files c v ci.ino := by
        refine fileOf_congr hc h.fs (by rw [hat3, hat]) hT ?_
        intro p hp hn
        obtain ⟨r1, r2, _⟩ := h.fs.range _ p hp hn
        exact (t.alloc hc hi r1 r2).2
      have hsp := t.space hc hi h.vol
      refine ⟨hch, all_files (I := fun _ => True) hch hsame, ?_, rfl, rfl, rfl, rfl, rfl, hsp.1, hsp.2, hT⟩
      refine ⟨hi, ⟨!w, rfl, by rw [hbits3]; simp, hblk3, ?_⟩, fun _ => rfl, m.dir, ?_⟩
      · rw [t.step.cbits hc hm2, hcm']; simp
      · exact SeekAll.congr hc (V := tree c v ci.ino) (m.seek.flags true true (some (slotBlk c ci.ino !w)) ci.node) hT
  · -- already branched
    have hcm := h4.1 hbr
    simp only [if_true, run_bind, run_modify, run_pure]
    have t := Tbl.write hc h.vol hi w (.inode ci.node) hcm
    have hblk : (v.write (slotBlk c ci.ino w) (.inode ci.node)).blk = v.blk := by
      funext x; rw [write_blk]; split
      · next e => subst e; exact h3.symm
      · rfl
    have hbits : ∀ w', curBit c (v.write (slotBlk c ci.ino w) (.inode ci.node)) (slotBlk c ci.ino w') = curBit c v (slotBlk c ci.ino w') :=
      fun w' => curBit_write hc (slot_range hc hi w).1 (slot_inMap hc hi w')
    have hat3 : inodeAt c (v.write (slotBlk c ci.ino w) (.inode ci.node)).blk (curBit c (v.write (slotBlk c ci.ino w) (.inode ci.node))) ci.ino = some ci.node := by
      rw [← hat]
      exact inodeAt_congr hc (fun _ w' => hbits w') (fun _ w' _ => by rw [hblk])
    have hT : ∀ p, PosOk c p → tree c (v.write (slotBlk c ci.ino w) (.inode ci.node)) ci.ino p = tree c v ci.ino p := by
      refine ptr_congr (c := c) (by rw [hat3, hat]) ?_
      intro p _ _; rw [hblk]
    have hch : Ch c v (v.write (slotBlk c ci.ino w) (.inode ci.node)) (· = ci.ino) := by
      refine t.wf hc hi h hT (by rw [hbits, hbits]; exact hone) ?_ ?_ ?_
      · intro w' hw'; rw [hbits] at hw'; rw [hblk]; exact h.fs.live _ w' hi hw'
      · unfold liveIn; rw [hbits, hbits]; rfl
      · intro n hn
        rw [hat3] at hn; injection hn with hn; subst hn
        exact h.fs.node _ _ hat
    refine ⟨{ ci with dirty := true }, _, by rw [hbr, h1], ?_⟩
    have hsame : files c (v.write (slotBlk c ci.ino w) (.inode ci.node)) ci.ino = files c v ci.ino :=
      fileOf_congr hc h.fs (by rw [hat3, hat]) hT (fun p hp hn => by rw [hblk])
    refine ⟨hch, all_files (I := fun _ => True) hch hsame, ?_, rfl, rfl, rfl, rfl, rfl, rfl, rfl, hT⟩
    refine ⟨hi, ⟨w, h1, by rw [hbits]; exact h2, by rw [hblk]; exact h3, ?_⟩, fun _ => hbr, m.dir, ?_⟩
    · rw [t.step.cbits hc (slot_inMap hc hi w)]; exact h4
    · exact SeekAll.congr hc (V := tree c v ci.ino) (m.seek.flags ci.branched true ci.nodeBuf ci.node) hT

/-! ### `RedInodeMount` -/

/-- Does the requested type rule out the mode? -/
def typeErr : FType → Nat → Option Err
  | .dir, m => if m = modeDir then none else some .enotdir
  | .file, m => if m = modeReg then none else some .eisdir
  | .either, _ => none

theorem inodeIsBranched_eq (hc : c.Ok) (h : Wf c v) {i : Nat} (hi : c.inodeValid i = true) {w : Bool}
    (h1 : curBit c v (slotBlk c i w) = true) (h2 : curBit c v (slotBlk c i (!w)) = false) :
    inodeIsBranched c i v = (.ok (!cmtBit c v (slotBlk c i w)), v) := by
  unfold inodeIsBranched
  simp only [hi, if_true, run_bind, imapBlockState_eq hc h.vol.ok (slot_inMap hc hi _)]
  cases w
  · simp only [Bool.not_false] at h2
    rw [h1]
    cases hcm : cmtBit c v (slotBlk c i false) <;> simp [stateOf, imapBlockState_eq hc h.vol.ok (slot_inMap hc hi _), h2]
    cases cmtBit c v (slotBlk c i true) <;> simp
  · simp only [Bool.not_true] at h2
    rw [h2]
    cases cmtBit c v (slotBlk c i false) <;> simp [stateOf, imapBlockState_eq hc h.vol.ok (slot_inMap hc hi _), h1] <;>
      cases cmtBit c v (slotBlk c i true) <;> simp

/-- A freshly mounted inode. -/
structure Fresh (c : Conf) (v v' : Vol) (ci : Cinode) (ino : Nat) (f : AFile) : Prop where
  ch : Ch c v v' (· = ino)
  same : ∀ j, files c v' j = files c v j
  mnt : Mnt c v' ci
  ino : ci.ino = ino
  pData : ci.pData = none
  dir : ci.dir = decide (f.mode = modeDir)
  mode : ci.node.mode = f.mode
  nlink : ci.node.nlink = f.nlink
  parent : ci.node.pinode = f.parent
  size : ci.node.size = f.size
  free : v'.work.freeBlocks = v.work.freeBlocks
  almost : v'.almostFree = v.almostFree
  tree : ∀ p, PosOk c p → tree c v' ci.ino p = tree c v ci.ino p

theorem Fresh.kp {ino : Nat} {f : AFile} {D : Nat → Prop} (h : Fresh c v v' ci ino f) : Kp c v v' D :=
  h.ch.kpAll (fun hh => by rw [← h.same]; exact hh) (fun hh => by rw [h.same]; exact hh) (by have := h.tree; rw [h.ino] at this; exact this)

theorem inodeMount_spec (hc : c.Ok) (h : Wf c v) (ino : Nat) (ty : FType) (br : Bool) :
    (files c v ino = none ∧ inodeMount c ino ty br v = (.error .ebadf, v)) ∨
    ∃ f, files c v ino = some f ∧
      ((∃ e, typeErr ty f.mode = some e ∧ inodeMount c ino ty br v = (.error e, v)) ∨
       (typeErr ty f.mode = none ∧ ∃ ci v', inodeMount c ino ty br v = (.ok ci, v') ∧ Fresh c v v' ci ino f ∧
         (br = true → ci.dirty = true) ∧ (br = false → v' = v ∧ ci.dirty = false))) := by
  cases hf : files c v ino with
  | none =>
    left; refine ⟨rfl, ?_⟩
    have hl := live_iff h ino
    rw [hf] at hl
    unfold inodeMount
    by_cases hi : c.inodeValid ino = true
    · rw [hi] at hl
      simp only [Option.isSome_none, Bool.true_and] at hl
      unfold liveIn at hl
      have hl := Bool.or_eq_false_iff.1 hl.symm
      simp only [hi, Bool.not_true, Bool.false_eq_true, if_false, run_bind]
      unfold inodeCurrentCopy
      simp only [run_bind, run_get, bitGet_cur hc h.vol hi, hl.1, hl.2, Bool.false_eq_true, if_false, run_fail]
    · simp [hi]
  | some f =>
    right; refine ⟨f, rfl, ?_⟩
    obtain ⟨w, n, hi, h1, h2, h3, hat, m1, m2, m3, m4⟩ := h.slot hf
    have hcc : inodeCurrentCopy c ino v = (.ok w, v) := by
      unfold inodeCurrentCopy
      simp only [run_bind, run_get, bitGet_cur hc h.vol hi]
      cases w
      · simp only [h1, if_true, run_pure]
      · simp only [Bool.not_true] at h2
        simp only [h2, Bool.false_eq_true, if_false, run_bind, bitGet_cur hc h.vol hi, h1, if_true, run_pure]
    have hg : getInodeBuf (slotBlk c ino w) v = (.ok n, v) := by unfold getInodeBuf; rw [h3]
    have hbr := inodeIsBranched_eq hc h hi h1 h2
    have hmode := (h.fs.node _ _ hat).1
    unfold inodeMount
    simp only [hi, Bool.not_true, Bool.false_eq_true, if_false, run_bind, hcc, hg, hbr]
    rw [← m1]
    -- the mounted inode
    generalize hci : ({ Cinode.init ino with nodeBuf := some (slotBlk c ino w), node := n, branched := !cmtBit c v (slotBlk c ino w), dir := decide (n.mode = modeDir) } : Cinode) = ci0
    have m : Mnt c v ci0 := by
      subst hci
      refine ⟨hi, ⟨w, rfl, h1, h3, (by simp [Cinode.init])⟩, (fun h => by cases h), rfl, SeekAll.uninit rfl⟩
    have fin : ∃ ci v', (if br = true then inodeBranch c ci0 else pure ci0) v = (.ok ci, v') ∧ Fresh c v v' ci ino f ∧
         (br = true → ci.dirty = true) ∧ (br = false → v' = v ∧ ci.dirty = false) := by
      have g : ci0.ino = ino ∧ ci0.pData = none ∧ ci0.node = n ∧ ci0.dirty = false ∧ ci0.dir = decide (f.mode = modeDir) := by
        subst hci; exact ⟨rfl, rfl, rfl, rfl, by rw [← m1]⟩
      obtain ⟨g1, g2, g3, g4, g5⟩ := g
      cases br
      · refine ⟨ci0, v, by simp, ⟨.refl h, fun _ => rfl, m, g1, g2, g5, by rw [g3]; exact m1, by rw [g3]; exact m2, by rw [g3]; exact m3,
          by rw [g3]; exact m4, rfl, rfl, fun _ _ => rfl⟩, fun e => (by cases e), fun _ => ⟨rfl, g4⟩⟩
      · obtain ⟨ci', v', e, B⟩ := inodeBranch_spec hc h m
        refine ⟨ci', v', by simp [e], ⟨by rw [← g1]; exact B.ch, B.same, B.mnt, B.ino.trans g1, B.pData.trans g2, B.dir.trans g5,
          by rw [B.node, g3]; exact m1, by rw [B.node, g3]; exact m2, by rw [B.node, g3]; exact m3, by rw [B.node, g3]; exact m4, B.free, B.almost, fun p hp => by rw [B.ino]; exact B.tree p hp⟩,
          fun _ => B.dirty, fun e => (by cases e)⟩
    rcases hmode with hm | hm
    · have hr : isRegMode n.mode = true := by rw [hm]; decide
      have hne : n.mode ≠ modeDir := by rw [hm]; decide
      have hci0 : ({ Cinode.init ino with nodeBuf := some (slotBlk c ino w), node := n, branched := !cmtBit c v (slotBlk c ino w) } : Cinode) = ci0 := by
        rw [← hci, decide_eq_false hne]; rfl
      simp only [hr, if_true]
      cases ty
      · right; refine ⟨by simp [typeErr, hm], ?_⟩
        simp only [reduceCtorEq, if_false, run_pure, hci0]; exact fin
      · left; exact ⟨.enotdir, by simp [typeErr, hne], by simp⟩
      · right; refine ⟨by simp [typeErr, hm], ?_⟩
        simp only [reduceCtorEq, if_false, run_pure, hci0]; exact fin
    · have hr : isRegMode n.mode = false := by rw [hm]; decide
      have hd : isDirMode n.mode = true := by rw [hm]; decide
      have hne : n.mode ≠ modeReg := by rw [hm]; decide
      have hci0 : ({ Cinode.init ino with nodeBuf := some (slotBlk c ino w), node := n, branched := !cmtBit c v (slotBlk c ino w), dir := true } : Cinode) = ci0 := by
        rw [← hci, decide_eq_true hm]
      simp only [hr, Bool.false_eq_true, if_false, hd, if_true]
      cases ty
      · left; exact ⟨.eisdir, by simp [typeErr, hne], by simp⟩
      · right; refine ⟨by simp [typeErr, hm], ?_⟩
        simp only [reduceCtorEq, if_false, run_pure, hci0]; exact fin
      · right; refine ⟨by simp [typeErr, hm], ?_⟩
        simp only [reduceCtorEq, if_false, run_pure, hci0]; exact fin

end RedFs
