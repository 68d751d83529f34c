import Verif.Lemmas.Seek
set_option linter.unusedSimpArgs false
set_option linter.unusedVariables false
namespace RedFs
open M Bitmap Vol

variable {c : Conf} {O : Nat → Prop} {s s' : DS} {V : Pos → Nat} {Z : Pos → Prop}

/-- Result of giving position `p` a writable block `q`. -/
structure Rel (c : Conf) (O : Nat → Prop) (s s' : DS) (V : Pos → Nat) (p : Pos) (q : Nat) : Prop where
  inv : FInv c O s' (upV V p q) noZ
  fr : Fr c O s s'
  q0 : q ≠ 0
  new : NewB c s'.v q
  free : s'.v.work.freeBlocks + (if V p ≠ 0 ∧ NewB c s.v (V p) then 0 else 1) = s.v.work.freeBlocks
  tot : s'.v.work.freeBlocks + s'.v.almostFree + (if V p = 0 then 1 else 0) = s.v.work.freeBlocks + s.v.almostFree
  bits : ∀ x, InMap c x → curBit c s'.v x = (decide (x = q) || (curBit c s.v x && decide (x ≠ V p)))
  blk : ∀ x, c.firstAlloc ≤ x → x ≠ q → x ≠ V p → (∀ a k, p = .sub a k → x ≠ V a) → s'.v.blk x = s.v.blk x
  fresh : q = V p ∨ curBit c s.v q = false

/-- Blocks of other positions keep their state. -/
theorem Rel.newB {p : Pos} {q : Nat} (hc : c.Ok) (h : Rel c O s s' V p q) (hi : FInv c O s V noZ) (hp : PosOk c p) {p' : Pos}
    (hp' : PosOk c p') (hne : p' ≠ p) (hn : V p' ≠ 0) : NewB c s'.v (V p') ↔ NewB c s.v (V p') := by
  have hm := hi.inMap hp' hn
  have e1 : V p' ≠ V p := fun e => hne (hi.inj _ _ hp' hp hn e)
  have e2 : V p' ≠ q := by
    intro e
    have := h.inv.inj p' p hp' hp (by rw [upV_ne V q hne]; exact hn) (by rw [upV_ne V q hne, upV_self]; exact e)
    exact hne this
  unfold NewB
  rw [h.bits _ hm, h.fr.qt.step.cbits hc hm]
  simp [e1, e2]

/-- The data of other positions is untouched. -/
theorem Rel.leaf {p : Pos} {q : Nat} (hc : c.Ok) (h : Rel c O s s' V p q) (hi : FInv c O s V noZ) (hp : PosOk c p) {p' : Pos}
    (hp' : PosOk c p') (hl : p'.lvl c = 0) (hne : p' ≠ p) (hn : V p' ≠ 0) : s'.v.blk (V p') = s.v.blk (V p') := by
  have e1 : V p' ≠ V p := fun e => hne (hi.inj _ _ hp' hp hn e)
  have e2 : V p' ≠ q := by
    intro e
    have := h.inv.inj p' p hp' hp (by rw [upV_ne V q hne]; exact hn) (by rw [upV_ne V q hne, upV_self]; exact e)
    exact hne this
  apply h.blk _ (hi.range p' hp' hn).1 e2 e1
  rintro a k rfl e
  have := hi.inj _ _ hp' hp.parent hn e
  subst this
  have := hp.2.1; omega

theorem setOwner_ok {x : Blk} {l o : Nat} (h : lvlOk l x) (hl : l = 1 ∨ l = 2) :
    (x.setOwner o).ptrs = x.ptrs ∧ lvlOk l (x.setOwner o) := by
  rcases hl with rfl | rfl
  · have := h.1 rfl
    cases x <;> simp_all [NKind.valid, Blk.setOwner, Blk.ptrs, lvlOk]
  · have := h.2 rfl
    cases x <;> simp_all [NKind.valid, Blk.setOwner, Blk.ptrs, lvlOk]

/-- The kind of node at a level. -/
def kindOf (l : Nat) : NKind := if l = 1 then .indir else if l = 2 then .dindir else .data

theorem blank_ok (l : Nat) (hl : l = 1 ∨ l = 2) : lvlOk l (kindOf l).blank ∧ (kindOf l).blank.ptrs = fun _ => 0 := by
  rcases hl with rfl | rfl <;> simp [kindOf, NKind.blank, Blk.ptrs, lvlOk, NKind.valid]

/-- From `BranchOneBlock` and the store of the new block number to the tree. -/
theorem rel_of_br (hc : c.Ok) (h : FInv c O s V noZ) (hd : s.ci.dirty = true) {p : Pos} {q : Nat} {v1 v2 : Vol} {ci1 : Cinode}
    {buf : Bool} (hp : PosOk c p) (hin : p.first c < c.dataBlocks)
    (hbr : Br c s.v v1 (V p) q (kindOf (p.lvl c)) buf) (hbuf : 0 < p.lvl c → buf = true)
    (hv2 : v2 = v1 ∨ 0 < p.lvl c ∧ ∃ o, v2 = v1.write q ((v1.blk q).setOwner o))
    (hci : CiSame s.ci ci1)
    (hs' : (∃ e, p = .ent e ∧ s' = DS.setNode ⟨ci1, v2⟩ (ci1.node.setEntry e q)) ∨
           (∃ a k, p = .sub a k ∧ V a ≠ 0 ∧ NewB c s.v (V a) ∧ s' = ⟨ci1, v2.write (V a) ((v2.blk (V a)).setPtr k q)⟩)) :
    Rel c O s s' V p q := by
  have hf := Conf.Ok.first_ge c
  have ht := Conf.Ok.table_ge c
  have hq0 : q ≠ 0 := by have := hbr.lo; omega
  have hqm : InMap c q := ⟨by have := hbr.lo; omega, hbr.hi⟩
  obtain ⟨nb, hnb⟩ := h.nb_isSome
  have hnbr := h.nb_range hc hnb
  obtain ⟨hd1, hd2, hd3⟩ := h.dirty hd nb hnb
  have hnbm : InMap c nb := ⟨hnbr.1, by have := hc.fits; omega⟩
  have hnbq : nb ≠ q := by have := hbr.lo; omega
  have hnbp : nb ≠ V p := by
    intro e
    by_cases h0 : V p = 0
    · omega
    · have := (h.range p hp h0).1; omega
  have hv1 : VolInv c v1 := hbr.step.inv hc h.vol
  have hcq1 : cmtBit c v1 q = false := by rw [hbr.step.cbits hc hqm]; exact hbr.new
  have hqt2 : Qt c v1 v2 := by
    rcases hv2 with rfl | ⟨_, o, rfl⟩
    · exact .refl hv1
    · exact .write hc hv1 _ hqm hcq1 hbr.branched
  have hvi2 : VolInv c v2 := hqt2.step.inv hc hv1
  have hqt12 : Qt c s.v v2 := hbr.toQt.trans hc hqt2
  have hbits2 : ∀ x, InMap c x → curBit c v2 x = (decide (x = q) || (curBit c s.v x && decide (x ≠ V p))) := by
    intro x hx
    rw [← hbr.bits x hx]
    rcases hv2 with rfl | ⟨_, o, rfl⟩
    · rfl
    · exact curBit_write hc hqm.1 hx
  have hbr2 : v2.branched = true := by
    rcases hv2 with rfl | ⟨_, o, rfl⟩ <;> exact hbr.branched
  have hw2 : v2.work = v1.work ∧ v2.almostFree = v1.almostFree := by
    rcases hv2 with rfl | ⟨_, o, rfl⟩ <;> exact ⟨rfl, rfl⟩
  have hblk2 : ∀ x, c.tableStart ≤ x → x ≠ q → x ≠ V p → v2.blk x = s.v.blk x := by
    intro x h1 h2 h3
    rw [← hbr.blk x h1 h2 h3]
    rcases hv2 with rfl | ⟨_, o, rfl⟩
    · rfl
    · simp [h2]
  have hnode2 : 0 < p.lvl c → lvlOk (p.lvl c) (v2.blk q) ∧
      (v2.blk q).ptrs = if V p = 0 then (fun _ => 0) else (s.v.blk (V p)).ptrs := by
    intro hl
    have hl' := FInv.lvl_pos hl
    have hb := hbr.blkB (hbuf hl)
    have h1 : lvlOk (p.lvl c) (v1.blk q) ∧ (v1.blk q).ptrs = if V p = 0 then (fun _ => 0) else (s.v.blk (V p)).ptrs := by
      rw [hb]
      by_cases h0 : V p = 0
      · rw [if_pos h0, if_pos h0]; exact blank_ok _ hl'
      · rw [if_neg h0, if_neg h0]; exact ⟨h.kind p hp h0, rfl⟩
    rcases hv2 with rfl | ⟨_, o, rfl⟩
    · exact h1
    · have := setOwner_ok (o := o) h1.1 hl'
      rw [write_blk, if_pos rfl, this.1]
      exact ⟨this.2, h1.2⟩
  -- the final store
  have hy : ∃ y X, s'.v = v2.write y X ∧ InMap c y ∧ cmtBit c v2 y = false ∧ y ≠ q ∧ y ≠ V p ∧
      (∀ e, p = .ent e → y = nb) ∧ (∀ a k, p = .sub a k → y = V a) := by
    rcases hs' with ⟨e, rfl, rfl⟩ | ⟨a, k, rfl, ha, hna, rfl⟩
    · refine ⟨nb, .inode (ci1.node.setEntry e q), ?_, hnbm, ?_, hnbq, hnbp, fun _ _ => rfl, fun _ _ h => (by cases h)⟩
      · unfold DS.setNode
        simp only [hci.nodeBuf, hnb, hci.dirty, hd, if_true]
      · rw [hqt12.step.cbits hc hnbm]; exact hd2
    · have ham := h.inMap hp.parent ha
      refine ⟨V a, _, rfl, ham, ?_, ?_, ?_, fun _ h => (by cases h), fun _ _ h => (by injection h with h _; rw [h])⟩
      · rw [hqt12.step.cbits hc ham]; exact hna.2
      · intro e
        rcases hbr.fresh with h1 | h1
        · have := h.inj _ _ hp.parent hp ha (e.trans h1)
          exact sub_ne a k this.symm
        · have := hna.1; rw [e, h1] at this; cases this
      · intro e
        exact sub_ne a k (h.inj _ _ hp.parent hp ha e).symm
  obtain ⟨y, X, hyv, hym, hyc, hyq, hyp, hye, hys⟩ := hy
  have hqt : Qt c s.v s'.v := by
    rw [hyv]; exact hqt12.trans hc (.write hc hvi2 _ hym hyc hbr2)
  have hvol : VolInv c s'.v := hqt.step.inv hc h.vol
  have hbits : ∀ x, InMap c x → curBit c s'.v x = (decide (x = q) || (curBit c s.v x && decide (x ≠ V p))) := by
    intro x hx; rw [hyv, curBit_write hc hym.1 hx]; exact hbits2 x hx
  have hblk : ∀ x, c.tableStart ≤ x → x ≠ q → x ≠ V p → x ≠ y → s'.v.blk x = s.v.blk x := by
    intro x h1 h2 h3 h4; rw [hyv, write_blk, if_neg h4]; exact hblk2 x h1 h2 h3
  have hq' : s'.v.blk q = v2.blk q := by rw [hyv, write_blk, if_neg (Ne.symm hyq)]
  have hcis : s'.ci.ino = s.ci.ino ∧ s'.ci.nodeBuf = s.ci.nodeBuf ∧ s'.ci.dirty = s.ci.dirty ∧ s'.ci.dir = s.ci.dir ∧
      s'.ci.branched = s.ci.branched ∧ s'.ci.node.size = s.ci.node.size ∧ s'.ci.node.mode = s.ci.node.mode ∧
      s'.ci.node.nlink = s.ci.node.nlink ∧ s'.ci.node.pinode = s.ci.node.pinode := by
    rcases hs' with ⟨e, rfl, rfl⟩ | ⟨a, k, rfl, ha, hna, rfl⟩
    · simp [DS.setNode, InodeNode.setEntry, hci.ino, hci.nodeBuf, hci.dirty, hci.dir, hci.branched, hci.node]
    · simp [hci.ino, hci.nodeBuf, hci.dirty, hci.dir, hci.branched, hci.node]
  obtain ⟨c1, c2, c3, c4, c5, c6, c7, c8, c9⟩ := hcis
  have hcur_nb : curBit c s'.v nb = true := by
    rw [hbits nb hnbm, hd3]; simp [hnbp]
  have hpa : ∀ a k, p = .sub a k → V a ≠ 0 := by
    rintro a k rfl
    rcases hs' with ⟨e, h1, _⟩ | ⟨a', k', h1, h2, _⟩
    · cases h1
    · injection h1 with h1 _; rw [h1]; exact h2
  have hw : s'.v.work = v1.work ∧ s'.v.almostFree = v1.almostFree := by
    rw [hyv]; exact ⟨hw2.1, hw2.2⟩
  refine { inv := ?_, fr := ?_, q0 := hq0, new := ?_, free := ?_, tot := ?_, bits := hbits, blk := ?_, fresh := hbr.fresh }
  · refine h.relink hp hin ⟨hbr.lo, hbr.hi⟩ hbr.fresh hvol c1 c2 ?_ (fun x h1 h2 => hbits x ⟨by omega, h2⟩) ?_ ?_ ?_ ?_ ?_
    · intro _ x hx
      rw [c2, hnb] at hx; injection hx with hx; subst hx
      refine ⟨?_, ?_, hcur_nb⟩
      · rcases hs' with ⟨e, rfl, rfl⟩ | ⟨a, k, rfl, ha, hna, rfl⟩
        · simp only [DS.setNode, hci.nodeBuf, hnb, hci.dirty, hd, if_true, write_blk]
        · have : nb ≠ y := by
            rw [hys a k rfl]; have := (h.range a hp.parent ha).1; omega
          rw [hblk nb hnbm.1 hnbq hnbp this, hd1]; simp [hci.node]
      · rw [hqt.step.cbits hc hnbm]; exact hd2
    · intro x h1 h2 h3 h4
      apply hblk x (by omega) h2 h3
      intro e
      match p, hye, hys, h4 with
      | .ent e', hye, _, _ => have := hye e' rfl; omega
      | .sub a k, _, hys, h4 => exact h4 a k rfl (e.trans (hys a k rfl))
    · intro hl; rw [hq']; exact hnode2 hl
    · rintro e rfl
      rcases hs' with ⟨e', h1, rfl⟩ | ⟨a, k, h1, _⟩
      · injection h1 with h1; subst h1
        simp [DS.setNode, InodeNode.setEntry, hci.node]
      · cases h1
    · intro hne
      rcases hs' with ⟨e', h1, _⟩ | ⟨a, k, _, _, _, rfl⟩
      · exact absurd h1 (hne e')
      · simp [hci.node]
    · rintro a k rfl
      refine ⟨hpa a k rfl, ?_⟩
      rcases hs' with ⟨e', h1, _⟩ | ⟨a', k', h1, ha, hna, rfl⟩
      · cases h1
      · injection h1 with h1 h2; subst h1 h2
        simp only [write_blk, if_true]
        rw [hblk2 (V a) (h.inMap hp.parent ha).1 (by rw [← hys a k rfl]; exact hyq) (by rw [← hys a k rfl]; exact hyp)]
  · refine { qt := hqt, ino := c1, nodeBuf := c2, dirty := c3, dir := c4, branched := c5, size := c6, mode := c7, nlink := c8,
             pinode := c9, oth := ?_, tbits := ?_, tblk := ?_ }
    · intro x hx
      obtain ⟨h1, h2, h3⟩ := h.oth x hx
      have hxp : ∀ p', PosOk c p' → x ≠ V p' := by
        intro p' hp' e
        have : V p' ≠ 0 := by omega
        exact (h.range p' hp' this).2.2.2 (e ▸ hx)
      apply hblk x (by omega)
      · intro e
        rcases hbr.fresh with h4 | h4
        · exact hxp p hp (e.trans h4)
        · rw [e, h4] at h3; cases h3
      · exact hxp p hp
      · intro e
        match p, hye, hys, hp with
        | .ent e', hye, _, _ => have := hye e' rfl; omega
        | .sub a k, _, hys, hp => exact hxp a hp.parent (e.trans (hys a k rfl))
    · intro x h1 h2
      have hx : InMap c x := ⟨h1, by have := hc.fits; omega⟩
      rw [hbits x hx]
      have e1 : x ≠ q := by have := hbr.lo; omega
      have e2 : x ≠ V p := by
        intro e
        have : V p ≠ 0 := by omega
        have := (h.range p hp this).1; omega
      simp [e1, e2]
    · intro x h1 h2 h3
      apply hblk x h1
      · have := hbr.lo; omega
      · intro e
        have : V p ≠ 0 := by omega
        have := (h.range p hp this).1; omega
      · intro e
        match p, hye, hys, hp, hpa with
        | .ent e', hye, _, _, _ => have := hye e' rfl; rw [hnb] at h3; exact h3 (by rw [e, this])
        | .sub a k, _, hys, hp, hpa =>
          have := (h.range a hp.parent (hpa a k rfl)).1
          rw [hys a k rfl] at e; omega
  · refine ⟨by rw [hbits q hqm]; simp, ?_⟩
    rw [hqt.step.cbits hc hqm]; exact hbr.new
  · rw [hw.1]; exact hbr.free
  · rw [hw.1, hw.2]; exact hbr.tot
  · intro x h1 h2 h3 h4
    apply hblk x (by omega) h2 h3
    intro e
    match p, hye, hys, h4 with
    | .ent e', hye, _, _ => have := hye e' rfl; omega
    | .sub a k, _, hys, h4 => exact h4 a k rfl (e.trans (hys a k rfl))

end RedFs
