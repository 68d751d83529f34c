import Verif.Props.Policy
set_option linter.unusedSimpArgs false
set_option linter.unusedVariables false
/-!
Blocks and inodes are accounted exactly, on every reachable volume (C14, C40, C41).
-/
namespace RedFs.Props.Account
open RedFs RedFs.Props.System
open M Vol Spec

variable {c : Conf} {v v' w : Vol} {r : Except Err Reply}

/-- A modifying call on a volume mounted read-write does what its specification says. -/
theorem modify_rel {ev : Event} {R : Files → Except Err Reply → Files → Prop} {s' : Sys} {tr : List Files}
    (h : Modify ev R (sysOf c v) r s' tr) (hro : v.readOnly = false) : R (files c v) r s'.now := by
  unfold Modify at h
  rw [if_neg (show ¬ (sysOf c v).mounted = false from fun h => by cases h),
    if_neg (show ¬ (sysOf c v).ro = true by show ¬ v.readOnly = true; rw [hro]; simp)] at h
  obtain ⟨pre, F, _, h2, _, h4⟩ := h
  rw [h4]; exact h2

theorem via {α : Type} {f : α → Reply} {R : Files → Except Err α → Files → Prop} {F F' : Files} (h : Via f R F r F') :
    ∃ r0 : Except Err α, r = r0.map f ∧ R F r0 F' := h

theorem create_rel (hc : c.SysOk) (h : Reach c v) (hm : v.mounted = true) (hro : v.readOnly = false) {p : Nat} {name : List Byte} {isDir : Bool}
    (hk : (Call.create p name isDir).Ok c) (he : exec c (.create p name isDir) v = (r, v')) :
    Via .num (Create c p (nameOf c name) isDir) (files c v) r (files c v') := by
  obtain ⟨r', v'', s', tr, e', d, a, _⟩ := exec_sim hc (Reach.sysOf hc h hm) hk
  rw [he] at e'; obtain ⟨rfl, rfl⟩ := Prod.mk.inj e'
  obtain ⟨_, h2, _⟩ := a.inv ((d.mounted (fun hh => by cases hh) (Or.inl rfl)).trans rfl)
  rw [← h2]; exact modify_rel d hro

/-! ### C14 -/

/-- Block `b` belongs to a file of the state with block contents `D` and allocation map `B`: it is a data,
indirect or double indirect block of inode `i`. -/
def Owned (c : Conf) (D : Nat → Blk) (B : Nat → Bool) (b : Nat) : Prop := b ≠ 0 ∧ ∃ i p, PosOk c p ∧ treeOf c D B i p = b

theorem hasCard_countIn {p : Nat → Bool} {lo hi : Nat} : HasCard (fun b => lo ≤ b ∧ b < hi ∧ p b = true) (countIn p lo hi) := by
  refine ⟨(List.range' lo (hi - lo)).filter p, List.Nodup.filter _ List.nodup_range', ?_, ?_⟩
  · intro x
    rw [List.mem_filter, List.mem_range'_1]
    constructor
    · rintro ⟨⟨h1, h2⟩, h3⟩; exact ⟨h1, by omega, h3⟩
    · rintro ⟨h1, h2, h3⟩; exact ⟨⟨h1, by omega⟩, h3⟩
  · unfold countIn; rw [List.countP_eq_length_filter]

theorem HasCard.congr {α : Type} {P Q : α → Prop} {n : Nat} (h : HasCard P n) (hq : ∀ x, Q x ↔ P x) : HasCard Q n := by
  obtain ⟨l, h1, h2, h3⟩ := h
  exact ⟨l, h1, fun x => by rw [h2, hq], h3⟩

theorem owned_iff {D : Nat → Blk} {B : Nat → Bool} {n : Nat} (h : FsOk c D B n) {b : Nat} (h1 : c.firstAlloc ≤ b) (h2 : b < c.blockCount) : Owned c D B b ↔ B b = true := by
  constructor
  · rintro ⟨h0, i, p, hp, rfl⟩
    exact (h.range i p hp h0).2.2
  · intro hb
    have := Conf.Ok.first_ge c
    have := Conf.Ok.table_ge c
    exact ⟨by omega, h.full b h1 h2 hb⟩

/-- **C14** On every reachable volume the free block counter is exactly the number of blocks of the
allocable area which belong neither to a file of the working state nor to one of the committed state. -/
theorem C14_free_blocks_exact (hc : c.SysOk) (h : Reach c v) (hm : v.mounted = true) :
    HasCard (fun b => c.firstAlloc ≤ b ∧ b < c.blockCount ∧ ¬ Owned c v.blk (curBit c v) b ∧ ¬ Owned c v.blk (cmtBit c v) b) v.work.freeBlocks := by
  have hi := Reach.up hc h hm
  rw [hi.wf.vol.space.free]
  refine HasCard.congr hasCard_countIn (fun x => ?_)
  constructor
  · rintro ⟨h1, h2, h3, h4⟩
    rw [owned_iff hi.wf.fs h1 h2] at h3
    rw [owned_iff hi.wf.cfs h1 h2] at h4
    refine ⟨h1, h2, ?_⟩
    rw [Bool.eq_false_iff.2 h3, Bool.eq_false_iff.2 h4]; rfl
  · rintro ⟨h1, h2, h3⟩
    rw [owned_iff hi.wf.fs h1 h2, owned_iff hi.wf.cfs h1 h2]
    rw [Bool.and_eq_true, Bool.not_eq_true', Bool.not_eq_true'] at h3
    exact ⟨h1, h2, by rw [h3.1]; simp, by rw [h3.2]; simp⟩

/-- **C14** It is reported by `red_statvfs`, less the blocks held in reserve. -/
theorem C14_statvfs (hm : v.mounted = true) :
    ∃ st, exec c .statfs v = (.ok (.statfs st), v) ∧ st.bfree = v.work.freeBlocks - c.reserved ∧ st.blocks = c.blockCount ∧ st.ffree = v.work.freeInodes := by
  refine ⟨⟨c.blockCount, v.work.freeBlocks - c.reserved, c.inodeCount, v.work.freeInodes, v.readOnly⟩, reply_run (r := .ok _) ?_, rfl, rfl, rfl⟩
  unfold coreVolStat; rw [whenMounted_run hm]; rfl

/-- **C14** No block is used twice: in the working state, and in the committed state, a block belongs to
at most one place of at most one file; and these blocks lie in the allocable area. -/
theorem C14_no_block_twice (hc : c.SysOk) (h : Reach c v) (hm : v.mounted = true) {B : Nat → Bool} (hB : B = curBit c v ∨ B = cmtBit c v)
    {i j : Nat} {p q : Pos} (hp : PosOk c p) (hq : PosOk c q) (h0 : treeOf c v.blk B i p ≠ 0) (he : treeOf c v.blk B i p = treeOf c v.blk B j q) :
    i = j ∧ p = q ∧ c.firstAlloc ≤ treeOf c v.blk B i p ∧ treeOf c v.blk B i p < c.blockCount := by
  have hi := Reach.up hc h hm
  obtain ⟨n, hf⟩ : ∃ n, FsOk c v.blk B n := by
    rcases hB with rfl | rfl
    · exact ⟨_, hi.wf.fs⟩
    · exact ⟨_, hi.wf.cfs⟩
  obtain ⟨h1, h2⟩ := hf.inj i j p q hp hq h0 he
  obtain ⟨h3, h4, _⟩ := hf.range i p hp h0
  exact ⟨h1, h2, h3, h4⟩

/-- **C14** After a transaction every block that no file owns is free: nothing is leaked. -/
theorem C14_transaction_frees_all (hc : c.SysOk) (h : Reach c v) (hm : v.mounted = true) {a : Reply} (he : exec c .transact v = (.ok a, v')) :
    HasCard (fun b => c.firstAlloc ≤ b ∧ b < c.blockCount ∧ ¬ Owned c v.blk (curBit c v) b) v'.work.freeBlocks := by
  have hi := Reach.up hc h hm
  cases hro : v.readOnly
  · obtain ⟨v1, e, i', C⟩ := hi.transact hc.ok
    have : exec c .transact v = (.ok .unit, v1) := reply_run (r := .ok ()) (by unfold coreVolTransact; rw [whenRw_run hm hro]; exact e)
    rw [he] at this; rw [(Prod.mk.inj this).2, C.free]
    unfold tot
    rw [space_sum hi.wf.vol.space]
    refine HasCard.congr hasCard_countIn (fun x => ?_)
    constructor
    · rintro ⟨h1, h2, h3⟩
      rw [owned_iff hi.wf.fs h1 h2] at h3
      exact ⟨h1, h2, by rw [Bool.eq_false_iff.2 h3]; rfl⟩
    · rintro ⟨h1, h2, h3⟩
      rw [owned_iff hi.wf.fs h1 h2]
      exact ⟨h1, h2, by rw [Bool.not_eq_true'] at h3; rw [h3]; simp⟩
  · have : exec c .transact v = (.error .erofs, v) := reply_run (whenRw_ro hm hro)
    rw [he] at this; cases (Prod.mk.inj this).1

/-- The blocks of the demo volume: some are used, some are used by the committed state only, most are free. -/
example : demoVol.work.freeBlocks = 43 ∧ demoVol.almostFree = 1 ∧ treeOf demoConf demoVol.blk (curBit demoConf demoVol) 4 (.ent 1) ≠ 0 ∧
    treeOf demoConf demoVol.blk (curBit demoConf demoVol) 4 (.ent 1) ≠ treeOf demoConf demoVol.blk (cmtBit demoConf demoVol) 4 (.ent 1) := by decide +kernel

/-! ### C40 -/

/-- **C40** A new file or directory gets the lowest inode number that is not in use. -/
theorem C40_lowest_free_inode (hc : c.SysOk) (h : Reach c v) (hm : v.mounted = true) {p : Nat} {name : List Byte} {isDir : Bool}
    (hk : (Call.create p name isDir).Ok c) {i : Nat} (he : exec c (.create p name isDir) v = (.ok (.num i), v')) :
    2 ≤ i ∧ i < 2 + c.inodeCount ∧ files c v i = none ∧ (∀ j, 2 ≤ j → j < i → files c v j ≠ none) ∧
    files c v' i = some (AFile.new (if isDir then modeDir else modeReg) p) := by
  cases hro : v.readOnly
  · obtain ⟨r0, h1, h2⟩ := create_rel hc h hm hro hk he
    rcases r0 with e | i'
    · cases h1
    · injection h1 with h1; injection h1 with h1; subst h1
      obtain ⟨_, _, h3, h4, h5, h6, _⟩ := h2
      unfold Conf.inodeValid at h3 h5
      simp only [Bool.and_eq_true, decide_eq_true_eq] at h3 h5
      refine ⟨h3.1, h3.2, h4, fun j hj1 hj2 => ?_, h6⟩
      intro hn
      have := h5 j ⟨hj1, by omega⟩ hj2
      rw [hn] at this; cases this
  · have : exec c (.create p name isDir) v = (.error .erofs, v) := reply_run (whenRw_ro hm hro)
    rw [he] at this; cases (Prod.mk.inj this).1

/-- **C40** Creating a file in an existing directory fails with ENFILE if and only if every inode is in use. -/
theorem C40_enfile (hc : c.SysOk) (h : Reach c v) (hm : v.mounted = true) (hro : v.readOnly = false) {p : Nat} {name : List Byte} {isDir : Bool}
    (hk : (Call.create p name isDir).Ok c) (hp : ∃ f, IsDir (files c v) p f) (he : exec c (.create p name isDir) v = (r, v')) :
    r = .error .enfile ↔ ∀ i, 2 ≤ i → i < 2 + c.inodeCount → files c v i ≠ none := by
  obtain ⟨r0, rfl, h2⟩ := create_rel hc h hm hro hk he
  have hval : ∀ i, c.inodeValid i = true ↔ 2 ≤ i ∧ i < 2 + c.inodeCount := by
    intro i; unfold Conf.inodeValid; simp only [Bool.and_eq_true, decide_eq_true_eq]
  have hfree : ∀ i, c.inodeValid i = true → files c v i = none → (∀ i, 2 ≤ i → i < 2 + c.inodeCount → files c v i ≠ none) → False :=
    fun i h1 h2 h3 => h3 i ((hval i).1 h1).1 ((hval i).1 h1).2 h2
  rcases r0 with e | i
  · obtain ⟨_, h3 | ⟨_, ⟨rfl, h3⟩ | ⟨⟨i, h4, h5⟩, h6⟩⟩⟩ := h2
    · obtain ⟨f, hf⟩ := hp
      rcases h3 with ⟨_, h3⟩ | ⟨_, g, h3⟩
      · rw [hf.1] at h3; cases h3
      · have hgf := h3.1
        rw [hf.1] at hgf; injection hgf with hgf; subst hgf
        have := h3.2; rw [hf.2] at this; cases this
    · refine ⟨fun _ i h1 h2 hn => ?_, fun _ => rfl⟩
      have := h3 i ((hval i).2 ⟨h1, h2⟩)
      rw [hn] at this; cases this
    · constructor
      · intro hr
        have : e = .enfile := by injection hr
        subst this
        exfalso
        rcases h6 with h6 | ⟨_, ⟨h6, _⟩ | ⟨h6, _⟩⟩
        · unfold BadName at h6
          (repeat' (first | rcases h6 with h6 | h6)) <;> simp_all
        · cases h6
        · cases h6
      · intro hh; exact absurd (hfree i h4 h5 hh) id
  · constructor
    · intro hr; cases hr
    · intro hh; exact absurd (hfree i h2.2.2.1 h2.2.2.2.1 hh) id

/-- **C40** The number of free inodes reported by `red_statvfs` is the number of inodes not in use. -/
theorem C40_free_inodes (hc : c.SysOk) (h : Reach c v) (hm : v.mounted = true) {st : RedFs.StatFs} (he : exec c .statfs v = (.ok (.statfs st), v')) :
    HasCard (fun i => 2 ≤ i ∧ i < 2 + c.inodeCount ∧ files c v i = none) st.ffree := by
  have hi := Reach.up hc h hm
  obtain ⟨st', e, _, _, h3⟩ := C14_statvfs (c := c) hm
  rw [he] at e
  have := (Prod.mk.inj e).1
  injection this with this; injection this with this
  rw [this, h3, freeInodes_eq hi.wf]
  exact HasCard.congr hasCard_countIn (fun x => by simp)

/-- Creating a file on the demo volume; the third of its four inodes is used for it; after the fourth, there are no more. -/
example : (exec demoConf (.create 2 nmB false) demoVol).1.toBool = true := by decide +kernel
example : demoVol.work.freeInodes = 1 ∧ (files demoConf demoVol 2).map (·.mode) = some modeDir := by decide +kernel

/-! ### C41 -/

/-- **C41** Every file has exactly one copy of its inode in the working state, in one of its two blocks;
likewise in the committed state. -/
theorem C41_one_copy (hc : c.SysOk) (h : Reach c v) (hm : v.mounted = true) {B : Nat → Bool} (hB : B = curBit c v ∨ B = cmtBit c v) {i : Nat}
    (hf : fileOf c v.blk B i ≠ none) : ∃ s, B (slotBlk c i s) = true ∧ B (slotBlk c i (!s)) = false ∧ ∃ n, v.blk (slotBlk c i s) = .inode n := by
  have hi := Reach.up hc h hm
  obtain ⟨n, hfs⟩ : ∃ n, FsOk c v.blk B n := by
    rcases hB with rfl | rfl
    · exact ⟨_, hi.wf.fs⟩
    · exact ⟨_, hi.wf.cfs⟩
  rw [fileOf_eq] at hf
  rcases hx : inodeAt c v.blk B i with _ | nd
  · rw [hx] at hf; exact absurd rfl hf
  · have hv := inodeAt_valid hx
    have hone := hfs.one i hv
    obtain ⟨s, h1, h2⟩ := inodeAt_some hx
    refine ⟨s, h1, ?_, nd, h2⟩
    cases hb : B (slotBlk c i (!s))
    · rfl
    · cases s
      · exact absurd ⟨h1, hb⟩ hone
      · exact absurd ⟨hb, h1⟩ hone

/-- **C41** If the inode of a file differs from its committed version, it is in the other block. -/
theorem C41_changed_copy_elsewhere (hc : c.SysOk) (h : Reach c v) (hm : v.mounted = true) {i : Nat} {s : Bool}
    (hs : cmtBit c v (slotBlk c i s) = true) (hv : c.inodeValid i = true) (hne : inodeAt c v.blk (curBit c v) i ≠ inodeAt c v.blk (cmtBit c v) i) :
    curBit c v (slotBlk c i s) = false := by
  have hi := Reach.up hc h hm
  cases hb : curBit c v (slotBlk c i s)
  · rfl
  · exfalso
    obtain ⟨n, hn⟩ := hi.wf.fs.live i s hv hb
    exact hne ((inodeAt_of hv (hi.wf.fs.one i hv) hb hn).trans (inodeAt_of hv (hi.wf.cfs.one i hv) hs hn).symm)

/-- **C41** No call changes the committed copy of an inode, unless it commits. -/
theorem C41_committed_copy_untouched (hc : c.SysOk) (h : Reach c v) (hm : v.mounted = true) {k : Call} {ev : Event} (hk : k.Ok c) (hmod : Policy.Modifies k ev)
    (hvf : v.on .volfull = false) (hno : r.toBool = false ∨ v.on ev = false) (he : exec c k v = (r, v')) {i : Nat} {s : Bool} (hv : c.inodeValid i = true)
    (hs : cmtBit c v (slotBlk c i s) = true) : v'.blk (slotBlk c i s) = v.blk (slotBlk c i s) ∧ cmtBit c v' (slotBlk c i s) = true := by
  have hi := Reach.up hc h hm
  have hin := slot_inMap hc.ok hv s
  cases hro : v.readOnly
  · obtain ⟨r1, v1, e1, E1, F1, how⟩ := Policy.modify_how hc hi hro hk hmod he
    rcases how with ⟨g1, g2, _⟩ | ⟨g1, g2, ⟨g3, _⟩ | ⟨_, g3⟩⟩
    · rw [hvf] at g2; cases g2
    · rcases hno with hno | hno
      · rw [hno] at g3; cases g3.1
      · rw [hno] at g3; cases g3.2
    · rw [g3]; exact ⟨(E1.step.keep _ hin hs).1, by rw [E1.step.cbits hc.ok hin]; exact hs⟩
  · obtain ⟨α, f, m, R, h1, _⟩ := Policy.exec_modify hc hk hmod
    have : exec c k v = (.error .erofs, v) := by rw [h1]; exact reply_run (whenRw_ro hm hro)
    rw [he] at this; rw [(Prod.mk.inj this).2]; exact ⟨rfl, hs⟩

/-- **C41** When a file is opened for modification (every modifying call does it first) whose inode is in
the same block as its committed copy, it is moved to the other block; if it already is in the other
block, it stays there.  The file is the same. -/
theorem C41_branch (hc : c.SysOk) (h : Reach c v) (hm : v.mounted = true) {i : Nat} {s : Bool} {ty : FType} {ci : Cinode}
    (hs : cmtBit c v (slotBlk c i s) = true) (he : inodeMount c i ty true v = (.ok ci, v')) :
    curBit c v' (slotBlk c i s) = false ∧ curBit c v' (slotBlk c i (!s)) = true ∧ ci.nodeBuf = some (slotBlk c i (!s)) ∧
    v'.blk (slotBlk c i s) = v.blk (slotBlk c i s) ∧ (∀ j, files c v' j = files c v j) := by
  have hi := Reach.up hc h hm
  rcases inodeMount_spec hc.ok hi.wf i ty true with ⟨h1, h2⟩ | ⟨f, h1, ⟨e, h2, h3⟩ | ⟨_, ci', v1, h3, fr, hd, _⟩⟩
  · rw [he] at h2; cases (Prod.mk.inj h2).1
  · rw [he] at h3; cases (Prod.mk.inj h3).1
  rw [he] at h3; obtain ⟨h4, rfl⟩ := Prod.mk.inj h3
  injection h4 with h4; subst h4
  have hd := hd rfl
  have mnt := fr.mnt
  have hino := fr.ino
  have hv := mnt.ino
  rw [hino] at hv
  obtain ⟨w, n1, n2, n3, n4⟩ := mnt.nb
  have hb := mnt.dirty hd
  have hcm := n4.1 hb
  rw [hino] at n1 n2 hcm
  have hin := slot_inMap hc.ok hv
  rw [fr.ch.step.cbits hc.ok (hin w)] at hcm
  have hw : w = !s := by
    cases w <;> cases s <;> first | rfl | (rw [hs] at hcm; cases hcm)
  subst hw
  refine ⟨?_, n2, n1, (fr.ch.step.keep _ (hin s) hs).1, fr.same⟩
  have hone := fr.ch.wf.fs.one i hv
  cases hb' : curBit c v' (slotBlk c i s)
  · rfl
  · cases s
    · exact absurd ⟨hb', n2⟩ hone
    · exact absurd ⟨n2, hb'⟩ hone

/-- On the demo volume the inode of file 4 has been modified since the transaction, that of inode 2 has not. -/
example : cmtBit demoConf demoVol (slotBlk demoConf 4 false) = true ∧ curBit demoConf demoVol (slotBlk demoConf 4 true) = true ∧
    cmtBit demoConf demoVol (slotBlk demoConf 2 true) = true ∧ curBit demoConf demoVol (slotBlk demoConf 2 true) = true := by decide +kernel

end RedFs.Props.Account
