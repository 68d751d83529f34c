import Verif.Lemmas.Fs
set_option linter.unusedSimpArgs false
set_option linter.unusedVariables false
namespace RedFs
open M Bitmap Vol

variable {c : Conf}

/-- Only inodes in `I` have changed. -/
structure Ch (c : Conf) (v v' : Vol) (I : Nat → Prop) : Prop where
  wf : Wf c v'
  step : Step c v v'
  useReserved : v'.useReserved = v.useReserved
  readOnly : v'.readOnly = v.readOnly
  files : ∀ j, ¬ I j → files c v' j = files c v j
  mnt : ∀ ci, ¬ I ci.ino → Mnt c v ci → Mnt c v' ci
  tree : ∀ j, ¬ I j → ∀ p, PosOk c p → RedFs.tree c v' j p = RedFs.tree c v j p

namespace Ch
variable {v v1 v2 : Vol} {I J : Nat → Prop}
theorem refl (h : Wf c v) : Ch c v v I := ⟨h, .refl h.vol.ok h.vol.space, rfl, rfl, fun _ _ => rfl, fun _ _ h => h, fun _ _ _ _ => rfl⟩
theorem trans (hc : c.Ok) (a : Ch c v v1 I) (b : Ch c v1 v2 I) : Ch c v v2 I :=
  ⟨b.wf, a.step.trans hc b.step, b.useReserved.trans a.useReserved, b.readOnly.trans a.readOnly,
   fun j hj => (b.files j hj).trans (a.files j hj), fun ci hi h => b.mnt ci hi (a.mnt ci hi h),
   fun j hj p hp => (b.tree j hj p hp).trans (a.tree j hj p hp)⟩
theorem mono (a : Ch c v v1 I) (h : ∀ j, I j → J j) : Ch c v v1 J :=
  ⟨a.wf, a.step, a.useReserved, a.readOnly, fun j hj => a.files j (fun hi => hj (h j hi)), fun ci hi => a.mnt ci (fun h' => hi (h _ h')),
   fun j hj => a.tree j (fun hi => hj (h j hi))⟩
end Ch

/-- Outside of `D`, an inode that is in use was in use before, with the same blocks. -/
def Kp (c : Conf) (v v' : Vol) (D : Nat → Prop) : Prop :=
  ∀ j, ¬ D j → files c v' j ≠ none → files c v j ≠ none ∧ ∀ p, PosOk c p → tree c v' j p = tree c v j p

namespace Kp
variable {v v1 v2 : Vol} {D E : Nat → Prop}
theorem refl : Kp c v v D := fun _ _ h => ⟨h, fun _ _ => rfl⟩
theorem trans (a : Kp c v v1 D) (b : Kp c v1 v2 D) : Kp c v v2 D := fun j hj h =>
  have hb := b j hj h
  have ha := a j hj hb.1
  ⟨ha.1, fun p hp => (hb.2 p hp).trans (ha.2 p hp)⟩
theorem mono (a : Kp c v v1 D) (h : ∀ j, D j → E j) : Kp c v v1 E := fun j hj => a j (fun hd => hj (h j hd))
theorem use (a : Kp c v v1 D) (b : Bool) : Kp c v { v1 with useReserved := b } D := a
end Kp

theorem Ch.kp {v v' : Vol} {I : Nat → Prop} (h : Ch c v v' I) : Kp c v v' I :=
  fun j hj hn => ⟨by rw [← h.files j hj]; exact hn, h.tree j hj⟩

/-- Only the inode itself has been rewritten. -/
theorem Ch.kpAll {v v' : Vol} {i : Nat} {D : Nat → Prop} (h : Ch c v v' (· = i)) (hs : RedFs.files c v' i = none → RedFs.files c v i = none) (hn : RedFs.files c v i = none → RedFs.files c v' i = none)
    (ht : ∀ p, PosOk c p → RedFs.tree c v' i p = RedFs.tree c v i p) : Kp c v v' D := by
  intro j _ hj
  by_cases e : j = i
  · subst e; exact ⟨fun hh => hj (hn hh), ht⟩
  · exact h.kp j e hj

/-- An inode whose blocks are untouched. -/
theorem Wf.frame (hc : c.Ok) {v v' : Vol} (h : Wf c v) (hs : Step c v v') {j : Nat}
    (hb : c.inodeValid j = true → ∀ w, curBit c v' (slotBlk c j w) = curBit c v (slotBlk c j w))
    (hd : c.inodeValid j = true → ∀ w, curBit c v (slotBlk c j w) = true → v'.blk (slotBlk c j w) = v.blk (slotBlk c j w))
    (ht : ∀ p, PosOk c p → tree c v j p ≠ 0 → v'.blk (tree c v j p) = v.blk (tree c v j p)) :
    inodeAt c v'.blk (curBit c v') j = inodeAt c v.blk (curBit c v) j ∧
    (∀ p, PosOk c p → tree c v' j p = tree c v j p) ∧ RedFs.files c v' j = RedFs.files c v j ∧
    (∀ ci, ci.ino = j → Mnt c v ci → Mnt c v' ci) := by
  have hN := inodeAt_congr hc hb hd
  have hT : ∀ p, PosOk c p → tree c v' j p = tree c v j p := ptr_congr (c := c) hN ht
  refine ⟨hN, hT, fileOf_congr hc h.fs hN hT ht, ?_⟩
  rintro ci rfl m
  obtain ⟨w, h1, h2, h3, h4⟩ := m.nb
  refine ⟨m.ino, ⟨w, h1, ?_, ?_, ?_⟩, m.dirty, m.dir, m.seek.congr hc hT⟩
  · rw [hb m.ino]; exact h2
  · rw [hd m.ino w h2]; exact h3
  · rw [hs.cbits hc (slot_inMap hc m.ino w)]; exact h4

/-- Replacing one inode. -/
theorem FsOk.update (hc : c.Ok) {D D' : Nat → Blk} {B B' : Nat → Bool} {k k' : Nat} (h : FsOk c D B k) {i : Nat}
    (hN : ∀ j, j ≠ i → inodeAt c D' B' j = inodeAt c D B j)
    (hT : ∀ j, j ≠ i → ∀ p, PosOk c p → treeOf c D' B' j p = treeOf c D B j p)
    (hb : ∀ j, j ≠ i → c.inodeValid j = true → ∀ w, B' (slotBlk c j w) = B (slotBlk c j w))
    (hd : ∀ j, j ≠ i → c.inodeValid j = true → ∀ w, B (slotBlk c j w) = true → D' (slotBlk c j w) = D (slotBlk c j w))
    (hone : c.inodeValid i = true → ¬ (B' (slotBlk c i false) = true ∧ B' (slotBlk c i true) = true))
    (hlive : ∀ w, c.inodeValid i = true → B' (slotBlk c i w) = true → ∃ n, D' (slotBlk c i w) = .inode n)
    (hfree : k' = countIn (fun i => !liveIn c B' i) 2 (2 + c.inodeCount))
    (hoth : ∀ j p, j ≠ i → PosOk c p → treeOf c D B j p ≠ 0 →
      B' (treeOf c D B j p) = true ∧ D' (treeOf c D B j p) = D (treeOf c D B j p))
    (hrange : ∀ p, PosOk c p → treeOf c D' B' i p ≠ 0 →
      c.firstAlloc ≤ treeOf c D' B' i p ∧ treeOf c D' B' i p < c.blockCount ∧ B' (treeOf c D' B' i p) = true ∧
      ∀ j q, j ≠ i → PosOk c q → treeOf c D B j q ≠ treeOf c D' B' i p)
    (hinj : ∀ p q, PosOk c p → PosOk c q → treeOf c D' B' i p ≠ 0 → treeOf c D' B' i p = treeOf c D' B' i q → p = q)
    (hkind : ∀ p, PosOk c p → treeOf c D' B' i p ≠ 0 → TreeBlk (p.lvl c) (D' (treeOf c D' B' i p)))
    (hinside : ∀ p, PosOk c p → treeOf c D' B' i p ≠ 0 → p.first c < c.dataBlocks)
    (hfull : ∀ x, c.firstAlloc ≤ x → x < c.blockCount → B' x = true →
      (∃ j p, j ≠ i ∧ PosOk c p ∧ treeOf c D B j p = x) ∨ ∃ p, PosOk c p ∧ treeOf c D' B' i p = x)
    (hnode : ∀ n, inodeAt c D' B' i = some n → (n.mode = modeReg ∨ n.mode = modeDir) ∧ n.size ≤ c.sizeMax ∧
      Bnd c (treeOf c D' B' i) n.size ∧
      (c.inodeBlocks = true → n.blocks = countIn (fun b => decide (treeOf c D' B' i (posOf c b) ≠ 0)) 0 c.dataBlocks)) :
    FsOk c D' B' k' := by
  refine { one := ?_, live := ?_, free := hfree, range := ?_, inj := ?_, kind := ?_, full := ?_, inside := ?_, node := ?_ }
  · intro j hj
    by_cases e : j = i
    · subst e; exact hone hj
    · rw [hb j e hj, hb j e hj]; exact h.one j hj
  · intro j w hj hw
    by_cases e : j = i
    · subst e; exact hlive w hj hw
    · rw [hb j e hj] at hw; rw [hd j e hj w hw]; exact h.live j w hj hw
  · intro j p hp hn
    by_cases e : j = i
    · subst e; obtain ⟨r1, r2, r3, _⟩ := hrange p hp hn; exact ⟨r1, r2, r3⟩
    · rw [hT j e p hp] at hn ⊢
      obtain ⟨r1, r2, _⟩ := h.range j p hp hn
      exact ⟨r1, r2, (hoth j p e hp hn).1⟩
  · intro j1 j2 p q hp hq hn he
    by_cases e1 : j1 = i <;> by_cases e2 : j2 = i
    · subst e1; subst e2; exact ⟨rfl, hinj p q hp hq hn he⟩
    · subst e1; rw [hT j2 e2 q hq] at he
      exact absurd he.symm ((hrange p hp hn).2.2.2 j2 q e2 hq)
    · subst e2; rw [hT j1 e1 p hp] at he hn
      have hn2 : treeOf c D' B' j2 q ≠ 0 := by rw [← he]; exact hn
      exact absurd he ((hrange q hq hn2).2.2.2 j1 p e1 hp)
    · rw [hT j1 e1 p hp] at hn he; rw [hT j2 e2 q hq] at he
      exact h.inj j1 j2 p q hp hq hn he
  · intro j p hp hn
    by_cases e : j = i
    · subst e; exact hkind p hp hn
    · rw [hT j e p hp] at hn ⊢
      rw [(hoth j p e hp hn).2]; exact h.kind j p hp hn
  · intro x h1 h2 h3
    rcases hfull x h1 h2 h3 with ⟨j, p, hj, hp, e⟩ | ⟨p, hp, e⟩
    · exact ⟨j, p, hp, by rw [hT j hj p hp]; exact e⟩
    · exact ⟨i, p, hp, e⟩
  · intro j p hp hn
    by_cases e : j = i
    · subst e; exact hinside p hp hn
    · rw [hT j e p hp] at hn; exact h.inside j p hp hn
  · intro j n hn
    by_cases e : j = i
    · subst e; exact hnode n hn
    · rw [hN j e] at hn
      obtain ⟨g1, g2, g3, g4⟩ := h.node j n hn
      refine ⟨g1, g2, g3.congr (hT j e), fun hib => ?_⟩
      rw [g4 hib]
      apply countIn_congr; intro b _ hb'
      rw [hT j e _ (posOf_ok hc hb').1]

/-- The effect on the volume of an operation on a file. -/
structure Done (c : Conf) (s s' : DS) (V' : Pos → Nat) : Prop where
  ch : Ch c s.v s'.v (· = s.ci.ino)
  tree : ∀ p, PosOk c p → tree c s'.v s.ci.ino p = V' p
  oth : ∀ j, j ≠ s.ci.ino → ∀ p, PosOk c p → RedFs.tree c s'.v j p = RedFs.tree c s.v j p
  at' : inodeAt c s'.v.blk (curBit c s'.v) s.ci.ino = some s'.ci.node
  mnt : SeekAll c s'.ci V' → Mnt c s'.v s'.ci

theorem Wf.done (hc : c.Ok) {s s' : DS} {V' : Pos → Nat} (h : Wf c s.v) (m : Mnt c s.v s.ci) (hd : s.ci.dirty = true)
    (ok : FOk c (Others c s.v s.ci.ino) s' V') (fr : FrN c (Others c s.v s.ci.ino) s s')
    (hmode : s'.ci.node.mode = s.ci.node.mode) : Done c s s' V' := by
  have hf := Conf.Ok.first_ge c
  have hz := Conf.Ok.table_ge c
  obtain ⟨w, h1, h2, h3, h4⟩ := m.nb
  have hwr := slot_range hc m.ino w
  have hd' : s'.ci.dirty = true := by rw [fr.dirty]; exact hd
  have hnb' : s'.ci.nodeBuf = some (slotBlk c s.ci.ino w) := by rw [fr.nodeBuf]; exact h1
  obtain ⟨d1, d2, d3⟩ := ok.inv.dirty hd' _ hnb'
  have hstep := fr.qt.step
  -- slots
  have hsb : ∀ j, c.inodeValid j = true → ∀ w, curBit c s'.v (slotBlk c j w) = curBit c s.v (slotBlk c j w) := by
    intro j hj w; exact fr.tbits _ (slot_range hc hj w).1 (slot_range hc hj w).2
  have hone := h.fs.one _ m.ino
  have hsd : ∀ j, j ≠ s.ci.ino → c.inodeValid j = true → ∀ w, s'.v.blk (slotBlk c j w) = s.v.blk (slotBlk c j w) := by
    intro j hj hjv w'
    refine fr.tblk _ (slot_range hc hjv w').1 (slot_range hc hjv w').2 ?_
    rw [h1]; intro e; injection e with e
    exact hj (slot_inj hc m.ino hjv e).1.symm
  have hoth : ∀ j p, j ≠ s.ci.ino → PosOk c p → RedFs.tree c s.v j p ≠ 0 → Others c s.v s.ci.ino (RedFs.tree c s.v j p) :=
    fun j p hj hp hn => ⟨j, p, hj, hp, rfl, hn⟩
  have hfr : ∀ j, j ≠ s.ci.ino → _ := fun j hj =>
    h.frame hc hstep (j := j) (fun hv w => hsb j hv w) (fun hv w _ => hsd j hj hv w)
      (fun p hp hn => fr.oth _ (hoth j p hj hp hn))
  have hat : inodeAt c s'.v.blk (curBit c s'.v) s.ci.ino = some s'.ci.node := by
    refine inodeAt_of m.ino ?_ d3 d1
    rw [hsb _ m.ino, hsb _ m.ino]; exact hone
  have hT : ∀ p, PosOk c p → RedFs.tree c s'.v s.ci.ino p = V' p := by
    intro p
    induction p with
    | ent e =>
      intro he
      show ptr (inodeAt c s'.v.blk (curBit c s'.v)) s'.v.blk s.ci.ino (.ent e) = _
      simp only [ptr, entryOf, hat]
      exact (ok.inv.ent e he (fun h => h)).symm
    | sub p k ih =>
      intro hp
      rw [ok.inv.sub p k hp (fun h => h), ← ih hp.1]; rfl
  have hwf : Wf c s'.v := by
    refine ⟨ok.inv.vol, ?_, h.step_cfs hc hstep⟩
    refine h.fs.update hc (i := s.ci.ino) (fun j hj => (hfr j hj).1) (fun j hj => (hfr j hj).2.1) (fun j hj hv w => hsb j hv w)
      (fun j hj hv w _ => hsd j hj hv w) (fun hv => by rw [hsb _ hv, hsb _ hv]; exact hone) ?_ ?_ ?_ ?_ ?_ ?_ ?_ ?_ ?_
    · intro w' hv hw'
      rw [hsb _ hv] at hw'
      have : w' = w := by
        cases w <;> cases w'
        · rfl
        · exact absurd ⟨h2, hw'⟩ hone
        · exact absurd ⟨hw', h2⟩ hone
        · rfl
      subst this; exact ⟨_, d1⟩
    · rw [fr.qt.freeInodes, h.fs.free]
      apply countIn_congr; intro j g1 g2
      have hj : c.inodeValid j = true := by unfold Conf.inodeValid; simp; omega
      unfold liveIn; rw [hsb _ hj, hsb _ hj]
    · intro j p hj hp hn
      exact ⟨(ok.inv.oth _ (hoth j p hj hp hn)).2.2, fr.oth _ (hoth j p hj hp hn)⟩
    · intro p hp hn
      have e : treeOf c s'.v.blk (curBit c s'.v) s.ci.ino p = V' p := hT p hp
      rw [e] at hn ⊢
      obtain ⟨r1, r2, r3, r4⟩ := ok.inv.range p hp hn
      refine ⟨r1, r2, r3, fun j q hj hq he => r4 ⟨j, q, hj, hq, he, hn⟩⟩
    · intro p q hp hq hn he
      rw [show treeOf c s'.v.blk (curBit c s'.v) s.ci.ino p = V' p from hT p hp] at hn he
      rw [show treeOf c s'.v.blk (curBit c s'.v) s.ci.ino q = V' q from hT q hq] at he
      exact ok.inv.inj p q hp hq hn he
    · intro p hp hn
      rw [show treeOf c s'.v.blk (curBit c s'.v) s.ci.ino p = V' p from hT p hp] at hn ⊢
      refine ⟨ok.inv.kind p hp hn, fun hl => ?_⟩
      have he := leaf_eq hc hp hl
      have := ok.dat (p.first c) (ok.inv.inside p hp hn)
      unfold Dat at this
      rw [← he] at this
      exact this hn
    · intro p hp hn
      rw [show treeOf c s'.v.blk (curBit c s'.v) s.ci.ino p = V' p from hT p hp] at hn
      exact ok.inv.inside p hp hn
    · intro x g1 g2 g3
      rcases ok.inv.full x g1 g2 g3 with ⟨j, p, hj, hp, e, _⟩ | ⟨p, hp, e⟩
      · exact Or.inl ⟨j, p, hj, hp, e⟩
      · exact Or.inr ⟨p, hp, (hT p hp).trans e⟩
    · intro n hn
      rw [hat] at hn; injection hn with hn; subst hn
      refine ⟨?_, ok.size, ok.bnd.congr hT, fun hib => ?_⟩
      · rw [hmode]; exact (h.fs.node _ _ (h.at_mnt m)).1
      · rw [ok.cnt hib]
        apply countIn_congr; intro b _ hb'
        rw [show treeOf c s'.v.blk (curBit c s'.v) s.ci.ino (posOf c b) = V' (posOf c b) from hT _ (posOf_ok hc hb').1]
  refine ⟨⟨hwf, hstep, fr.qt.useReserved, fr.qt.readOnly, fun j hj => (hfr j hj).2.2.1, fun ci hi => (hfr ci.ino hi).2.2.2 ci rfl,
    fun j hj => (hfr j hj).2.1⟩, hT, fun j hj => (hfr j hj).2.1, hat, ?_⟩
  intro hs
  refine ⟨by rw [fr.ino]; exact m.ino, ⟨w, ?_, ?_, ?_, ?_⟩, ?_, ?_, ?_⟩
  · rw [fr.ino]; exact hnb'
  · rw [fr.ino]; exact d3
  · rw [fr.ino]; exact d1
  · rw [fr.ino, fr.branched, hstep.cbits hc (slot_inMap hc m.ino w)]; exact h4
  · rw [fr.branched, fr.dirty]; exact m.dirty
  · rw [fr.dir, hmode]; exact m.dir
  · rw [fr.ino]; exact hs.congr hc hT

end RedFs
