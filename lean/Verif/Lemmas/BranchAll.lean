import Verif.Lemmas.BranchBlock
set_option linter.unusedSimpArgs false
set_option linter.unusedVariables false
namespace RedFs
open M Bitmap Vol

variable {c : Conf} {O : Nat → Prop} {s s1 s2 : DS} {V V1 V2 : Pos → Nat} {L L1 L2 : Pos → Prop}

/-- The positions of `L` have been given writable blocks. -/
structure BB (c : Conf) (O : Nat → Prop) (s s' : DS) (V V' : Pos → Nat) (L : Pos → Prop) : Prop where
  inv : FInv c O s' V' noZ
  fr : Fr c O s s'
  same : ∀ p, ¬ L p → V' p = V p
  ok : ∀ p, L p → PosOk c p
  new : ∀ p, L p → V' p ≠ 0 ∧ NewB c s'.v (V' p)
  keep : ∀ p, PosOk c p → ¬ L p → V p ≠ 0 → (NewB c s'.v (V p) ↔ NewB c s.v (V p))
  leaf : ∀ p, PosOk c p → p.lvl c = 0 → ¬ L p → V p ≠ 0 → s'.v.blk (V p) = s.v.blk (V p)
  totLe : s'.v.work.freeBlocks + s'.v.almostFree ≤ s.v.work.freeBlocks + s.v.almostFree
  totEq : (∀ p, L p → V p ≠ 0) → s'.v.work.freeBlocks + s'.v.almostFree = s.v.work.freeBlocks + s.v.almostFree

namespace BB

theorem refl (h : FInv c O s V noZ) : BB c O s s V V (fun _ => False) where
  inv := h
  fr := .refl h.vol
  same := fun _ _ => rfl
  ok := fun _ h => h.elim
  new := fun _ h => h.elim
  keep := fun _ _ _ _ => Iff.rfl
  leaf := fun _ _ _ _ _ => rfl
  totLe := Nat.le_refl _
  totEq := fun _ => rfl

theorem weaken (h : BB c O s s1 V V1 L) (e : ∀ p, L p ↔ L1 p) : BB c O s s1 V V1 L1 := by
  have : L = L1 := funext fun p => propext (e p)
  subst this; exact h

theorem trans (hc : c.Ok) (a : BB c O s s1 V V1 L1) (b : BB c O s1 s2 V1 V2 L2) : BB c O s s2 V V2 (fun p => L1 p ∨ L2 p) where
  inv := b.inv
  fr := a.fr.trans hc b.fr
  same := fun p hp => by
    rw [not_or] at hp
    rw [b.same p hp.2, a.same p hp.1]
  ok := fun p hp => hp.elim (a.ok p) (b.ok p)
  new := fun p hL => by
    by_cases h2 : L2 p
    · exact b.new p h2
    · have h1 : L1 p := hL.resolve_right h2
      obtain ⟨n1, n2⟩ := a.new p h1
      rw [b.same p h2]
      exact ⟨n1, (b.keep p (a.ok p h1) h2 n1).2 n2⟩
  keep := fun p hp hL hn => by
    rw [not_or] at hL
    have e := a.same p hL.1
    have := b.keep p hp hL.2 (by rw [e]; exact hn)
    rw [e] at this
    exact this.trans (a.keep p hp hL.1 hn)
  leaf := fun p hp hl hL hn => by
    rw [not_or] at hL
    have e := a.same p hL.1
    have := b.leaf p hp hl hL.2 (by rw [e]; exact hn)
    rw [e] at this
    exact this.trans (a.leaf p hp hl hL.1 hn)
  totLe := Nat.le_trans b.totLe a.totLe
  totEq := fun h => by
    rw [b.totEq, a.totEq (fun p hp => h p (Or.inl hp))]
    intro p hp
    by_cases h1 : L1 p
    · exact (a.new p h1).1
    · rw [a.same p h1]; exact h p (Or.inr hp)

theorem of_rel (hc : c.Ok) (h : FInv c O s V noZ) {p : Pos} {q : Nat} (hp : PosOk c p) (r : Rel c O s s1 V p q) :
    BB c O s s1 V (upV V p q) (fun x => x = p) where
  inv := r.inv
  fr := r.fr
  same := fun x hx => upV_ne V q hx
  ok := fun x hx => hx ▸ hp
  new := fun x hx => by subst hx; rw [upV_self]; exact ⟨r.q0, r.new⟩
  keep := fun x hx hne hn => r.newB hc h hp hx hne hn
  leaf := fun x hx hl hne hn => r.leaf hc h hp hx hl hne hn
  totLe := by have := r.tot; omega
  totEq := fun hL => by have := r.tot; have := hL p rfl; simp [this] at *; omega

end BB

/-- Changes of the inode other than its pointers. -/
theorem BB.setNode (hc : c.Ok) (h : FInv c O s V noZ) (n : InodeNode) (he : n.entries = s.ci.node.entries)
    (h1 : n.size = s.ci.node.size) (h2 : n.mode = s.ci.node.mode) (h3 : n.nlink = s.ci.node.nlink) (h4 : n.pinode = s.ci.node.pinode)
    (hd : s.ci.dirty = true) :
    BB c O s (s.setNode n) V V (fun _ => False) := by
  obtain ⟨nb, hnb⟩ := h.nb_isSome
  have hnbr := h.nb_range hc hnb
  obtain ⟨hd1, hd2, hd3⟩ := h.dirty hd nb hnb
  have hf := Conf.Ok.first_ge c
  have hnbm : InMap c nb := ⟨hnbr.1, by have := hc.fits; omega⟩
  have hv : (s.setNode n).v = s.v.write nb (.inode n) := by simp [DS.setNode, hnb, hd]
  have hqt : Qt c s.v (s.setNode n).v := by
    rw [hv]; exact .write hc h.vol _ hnbm hd2 (h.vol.branched_of hd3 hd2)
  have hbits : ∀ x, InMap c x → curBit c (s.setNode n).v x = curBit c s.v x := by
    intro x hx; rw [hv]; exact curBit_write hc hnbm.1 hx
  have hblk : ∀ x, x ≠ nb → (s.setNode n).v.blk x = s.v.blk x := by
    intro x hx; rw [hv, write_blk, if_neg hx]
  have hne : ∀ p, PosOk c p → V p ≠ 0 → V p ≠ nb := by
    intro p hp hn; have := (h.range p hp hn).1; omega
  refine { inv := ?_, fr := ?_, same := fun _ _ => rfl, ok := fun _ h => h.elim, new := fun _ h => h.elim, keep := ?_, leaf := ?_,
           totLe := by rw [hv]; exact Nat.le_refl _, totEq := fun _ => by rw [hv]; rfl }
  · refine h.content (hqt.step.inv hc h.vol) rfl rfl ?_ (fun x h1 h2 => hbits x ⟨by omega, h2⟩)
      (fun p hp _ hn => hblk _ (hne p hp hn)) he
    intro _ x hx
    have : x = nb := by
      have : s.ci.nodeBuf = some x := hx
      rw [hnb] at this; injection this with this; exact this.symm
    subst this
    refine ⟨by rw [hv, write_blk, if_pos rfl]; rfl, ?_, ?_⟩
    · rw [hqt.step.cbits hc hnbm]; exact hd2
    · rw [hbits x hnbm]; exact hd3
  · refine { qt := hqt, ino := rfl, nodeBuf := rfl, dirty := rfl, dir := rfl, branched := rfl, size := h1, mode := h2, nlink := h3,
             pinode := h4, oth := ?_, tbits := ?_, tblk := ?_ }
    · intro x hx
      have := (h.oth x hx).1
      exact hblk x (by omega)
    · intro x h1 h2; exact hbits x ⟨h1, by have := hc.fits; omega⟩
    · intro x h1 h2 h3; apply hblk; rintro rfl; exact h3 hnb
  · intro p hp _ hn
    have hm := h.inMap hp hn
    unfold NewB
    rw [hbits _ hm, hqt.step.cbits hc hm]
  · intro p hp _ _ hn; exact hblk _ (hne p hp hn)

/-- Cost of making position `p` writable. -/
def costAt (c : Conf) (s : DS) (V : Pos → Nat) (p : Pos) : Nat := if V p ≠ 0 ∧ NewB c s.v (V p) then 0 else 1

/-- The position above. -/
def anc : Pos → Option Pos
  | .sub a _ => some a
  | .ent _ => none
def costOf (c : Conf) (s : DS) (V : Pos → Nat) : Option Pos → Nat
  | none => 0
  | some p => costAt c s V p

theorem BB.cost (h : BB c O s s1 V V1 L) {o : Option Pos} (ho : ∀ p, o = some p → PosOk c p ∧ ¬ L p) :
    costOf c s1 V1 o = costOf c s V o := by
  cases o with
  | none => rfl
  | some p =>
    obtain ⟨h1, h2⟩ := ho p rfl
    have e := h.same p h2
    simp only [costOf, costAt, e]
    by_cases h0 : V p = 0
    · simp [h0]
    · have := h.keep p h1 h2 h0
      simp [h0, this]

/-- The parts of the coordinates which branching the nodes leaves alone. -/
structure CoSame (a b : Cinode) : Prop where
  inited : b.inited = a.inited
  logical : b.logical = a.logical
  pData : b.pData = a.pData
  blocks : b.node.blocks = a.node.blocks
theorem CoSame.refl (a : Cinode) : CoSame a a := ⟨rfl, rfl, rfl, rfl⟩
theorem CoSame.trans {a b d : Cinode} (h : CoSame a b) (g : CoSame b d) : CoSame a d :=
  ⟨g.inited.trans h.inited, g.logical.trans h.logical, g.pData.trans h.pData, g.blocks.trans h.blocks⟩

/-- `BranchOneBlock` at a position of the tree. -/
theorem stage (hc : c.Ok) (h : FInv c O s V noZ) {p : Pos} (hp : PosOk c p) {buf : Option (Option Nat)}
    (hbuf : ∀ x, buf = some (some x) → x = V p ∧ V p ≠ 0) (hfree : costAt c s V p ≤ s.v.work.freeBlocks) :
    ∃ q v1, branchOne c (V p) buf (kindOf (p.lvl c)) s.v = (.ok (q, bufOf buf q), v1) ∧
      Br c s.v v1 (V p) q (kindOf (p.lvl c)) buf.isSome := by
  apply branchOne_spec hc h.vol
  · intro hn
    obtain ⟨h1, h2, h3, _⟩ := h.range p hp hn
    refine ⟨h1, h2, h3, ?_⟩
    have := h.kind p hp hn
    have hl := FInv.lvl_le (c := c) p
    unfold kindOf
    split
    · next e => exact this.1 e
    · split
      · next e => exact this.2 e
      · rfl
  · exact hbuf
  · intro hn
    unfold costAt at hfree; rw [if_neg hn] at hfree; omega

theorem nz_buf {q x : Nat} (h : some (nz q) = some (some x)) : x = q ∧ q ≠ 0 := by
  injection h with h; unfold nz at h; split at h
  · cases h
  · injection h with h; exact ⟨h.symm, by assumption⟩

theorem nz_pos {q : Nat} (h : q ≠ 0) : nz q = some q := by unfold nz; rw [if_neg h]

theorem lvl_indir {e : Nat} (h1 : c.direct ≤ e) (h2 : e < c.direct + c.indirect) : (Pos.ent e).lvl c = 1 := by
  simp only [Pos.lvl]; unfold Conf.height; rw [if_neg (by omega), if_pos h2]
theorem lvl_dindir {e : Nat} (h1 : c.direct + c.indirect ≤ e) : (Pos.ent e).lvl c = 2 := by
  simp only [Pos.lvl]; unfold Conf.height; rw [if_neg (by omega), if_neg (by omega)]

theorem mul_add_lt_of {a x E : Nat} : a ≤ a + x * E := Nat.le_add_right _ _

/-- Ancestors start no later. -/
theorem first_parent (a : Pos) (k : Nat) : a.first c ≤ (Pos.sub a k).first c := by
  simp only [Pos.first]; omega

theorem stageD (hc : c.Ok) (h : FInv c O s V noZ) (hd : s.ci.dirty = true) {b : Nat} {p : Pos} (hb : b < c.dataBlocks)
    (hp : Coord c b p) (hco : CohAt s.ci V p) (hfree : costOf c s V (anc p >>= anc) ≤ s.v.work.freeBlocks) :
    ∃ V1 s1, branchDindir c s = (.ok (), s1) ∧ BB c O s s1 V V1 (fun x => (anc p >>= anc) = some x) ∧ CohAt s1.ci V1 p ∧
      CoSame s.ci s1.ci ∧ s1.v.work.freeBlocks + costOf c s V (anc p >>= anc) = s.v.work.freeBlocks := by
  have hok := hp.posOk hc
  cases hp with
  | direct hb =>
    refine ⟨V, s, ?_, (BB.refl h).weaken (by simp [anc]), hco, .refl _, rfl⟩
    simp [branchDindir, hco.2.1]
  | indir e k h1 h2 h3 hb =>
    refine ⟨V, s, ?_, (BB.refl h).weaken (by simp [anc]), hco, .refl _, rfl⟩
    simp [branchDindir, hco.2.1]
  | dindir e d k h1 h2 h3 h4 hb' =>
    obtain ⟨k1, k2, k3, k4, k5, k6, k7, k8⟩ := hco
    have hpe : PosOk c (.ent e) := h2
    have hl := lvl_dindir h1
    have hin : (Pos.ent e).first c < c.dataBlocks := by
      have e1 := first_parent (c := c) (.ent e) d
      have e2 := first_parent (c := c) (.sub (.ent e) d) k
      have := hok.2.2; omega
    obtain ⟨q, v1, e1, hbr⟩ := stage hc h hpe (buf := some s.ci.pDindir) (by
      intro x hx; rw [k5, k4] at hx; exact nz_buf hx) hfree
    rw [hl] at e1 hbr
    have ek : kindOf 2 = .dindir := rfl
    rw [ek] at e1
    have e2 : branchDindir c s = (.ok (), DS.setNode ⟨{ s.ci with dindirBlk := q, pDindir := some q },
        v1.write q ((v1.blk q).setOwner s.ci.ino)⟩ (s.ci.node.setEntry e q)) := by
      unfold branchDindir
      simp only [run_bind, run_get, k2, k4, liftV, e1, setCi, run_modify, setOwner, setNode, bufOf, Option.isSome_some, if_true, k1]
    have hr := rel_of_br (s' := DS.setNode ⟨{ s.ci with dindirBlk := q, pDindir := some q },
        v1.write q ((v1.blk q).setOwner s.ci.ino)⟩ (s.ci.node.setEntry e q)) hc h hd hpe hin (by rw [hl]; exact hbr)
      (fun _ => rfl) (Or.inr ⟨by rw [hl]; omega, _, rfl⟩) (ci1 := { s.ci with dindirBlk := q, pDindir := some q })
      ⟨rfl, rfl, rfl, rfl, rfl, rfl⟩ (Or.inl ⟨e, rfl, rfl⟩)
    refine ⟨_, _, e2, (BB.of_rel hc h hpe hr).weaken (fun x => ?_), ?_, ⟨rfl, rfl, rfl, rfl⟩, hr.free⟩
    · simp [anc]; exact eq_comm
    · refine ⟨k1, k2, k3, (upV_self _ _ _).symm, ?_, ?_, k7, ?_⟩
      · exact (nz_pos hr.q0).symm
      · show s.ci.indirBlk = _; rw [k6, upV_ne]; intro h; cases h
      · show s.ci.dataBlk = _; rw [k8, upV_ne]; intro h; cases h

/-- The position of the indirect node if it is to be branched. -/
def ancI (depth : Nat) (p : Pos) : Option Pos := if 1 ≤ depth then anc p else none

theorem stageI (hc : c.Ok) (h : FInv c O s V noZ) (hd : s.ci.dirty = true) {b : Nat} {p : Pos} (hb : b < c.dataBlocks)
    (hp : Coord c b p) (hco : CohAt s.ci V p) (depth : Nat)
    (hup : ∀ x, (anc p >>= anc) = some x → V x ≠ 0 ∧ NewB c s.v (V x))
    (hfree : costOf c s V (ancI depth p) ≤ s.v.work.freeBlocks) :
    ∃ V1 s1, branchIndir c depth s = (.ok (), s1) ∧ BB c O s s1 V V1 (fun x => ancI depth p = some x) ∧ CohAt s1.ci V1 p ∧
      CoSame s.ci s1.ci ∧ s1.v.work.freeBlocks + costOf c s V (ancI depth p) = s.v.work.freeBlocks := by
  have hok := hp.posOk hc
  by_cases hdep : 1 ≤ depth
  · have eA : ancI depth p = anc p := by simp [ancI, hdep]
    rw [eA] at hfree ⊢
    cases hp with
    | direct hb =>
      refine ⟨V, s, ?_, (BB.refl h).weaken (by simp [anc]), hco, .refl _, rfl⟩
      simp [branchIndir, hco.2.2.1]
    | indir e k h1 h2 h3 hb' =>
      obtain ⟨k1, k2, k3, k4, k5, k6, k7⟩ := hco
      have hpe : PosOk c (.ent e) := hok.1.1
      have hl := lvl_indir h1 h2
      have hin : (Pos.ent e).first c < c.dataBlocks := by
        have e1 := first_parent (c := c) (.ent e) k
        have := hok.2.2; omega
      obtain ⟨q, v1, e1, hbr⟩ := stage hc h hpe (buf := some s.ci.pIndir) (by
        intro x hx; rw [k6, k5] at hx; exact nz_buf hx) hfree
      rw [hl] at e1 hbr
      have ek : kindOf 1 = .indir := rfl
      rw [ek] at e1
      have e2 : branchIndir c depth s = (.ok (), DS.setNode ⟨{ s.ci with indirBlk := q, pIndir := some q },
          v1.write q ((v1.blk q).setOwner s.ci.ino)⟩ (s.ci.node.setEntry e q)) := by
        unfold branchIndir
        simp only [run_bind, run_get, k3, k5, hdep, ne_eq, reduceCtorEq, not_false_eq_true, and_self, if_true, liftV, e1, setCi,
          run_modify, setOwner, setNode, bufOf, Option.isSome_some, k1, k2]
      have hr := rel_of_br (s' := DS.setNode ⟨{ s.ci with indirBlk := q, pIndir := some q },
          v1.write q ((v1.blk q).setOwner s.ci.ino)⟩ (s.ci.node.setEntry e q)) hc h hd hpe hin (by rw [hl]; exact hbr)
        (fun _ => rfl) (Or.inr ⟨by rw [hl]; omega, _, rfl⟩) (ci1 := { s.ci with indirBlk := q, pIndir := some q })
        ⟨rfl, rfl, rfl, rfl, rfl, rfl⟩ (Or.inl ⟨e, rfl, rfl⟩)
      refine ⟨_, _, e2, (BB.of_rel hc h hpe hr).weaken (fun x => ?_), ?_, ⟨rfl, rfl, rfl, rfl⟩, hr.free⟩
      · simp [anc]; exact eq_comm
      · refine ⟨k1, k2, k3, k4, (upV_self _ _ _).symm, ?_, ?_⟩
        · exact (nz_pos hr.q0).symm
        · show s.ci.dataBlk = _; rw [k7, upV_ne]; intro h; cases h
    | dindir e d k h1 h2 h3 h4 hb' =>
      obtain ⟨k1, k2, k3, k4, k5, k6, k7, k8⟩ := hco
      have hpe : PosOk c (.sub (.ent e) d) := hok.1.1
      have hl : (Pos.sub (.ent e) d).lvl c = 1 := by
        have := lvl_dindir h1; rw [Pos.lvl, this]
      have hin : (Pos.sub (.ent e) d).first c < c.dataBlocks := by
        have e2 := first_parent (c := c) (.sub (.ent e) d) k
        have := hok.2.2; omega
      obtain ⟨hu1, hu2⟩ := hup (.ent e) rfl
      obtain ⟨q, v1, e1, hbr⟩ := stage hc h hpe (buf := some s.ci.pIndir) (by
        intro x hx; rw [k7, k6] at hx; exact nz_buf hx) hfree
      rw [hl] at e1 hbr
      have ek : kindOf 1 = .indir := rfl
      rw [ek] at e1
      let v2 := v1.write q ((v1.blk q).setOwner s.ci.ino)
      let s' : DS := ⟨{ s.ci with indirBlk := q, pIndir := some q }, v2.write (V (.ent e)) ((v2.blk (V (.ent e))).setPtr d q)⟩
      have e2 : branchIndir c depth s = (.ok (), s') := by
        unfold branchIndir
        simp only [run_bind, run_get, k3, k6, hdep, ne_eq, reduceCtorEq, not_false_eq_true, and_self, if_true, liftV, e1, setCi,
          run_modify, setOwner, setNode, bufOf, Option.isSome_some, k1, k2, setPtr, k4]
        simp only [s', v2, k1, k2, k3, k4]
      have hr := rel_of_br (s' := s') hc h hd hpe hin (by rw [hl]; exact hbr)
        (fun _ => rfl) (Or.inr ⟨by rw [hl]; omega, _, rfl⟩) (ci1 := { s.ci with indirBlk := q, pIndir := some q })
        ⟨rfl, rfl, rfl, rfl, rfl, rfl⟩ (Or.inr ⟨.ent e, d, rfl, hu1, hu2, rfl⟩)
      refine ⟨_, _, e2, (BB.of_rel hc h hpe hr).weaken (fun x => ?_), ?_, ⟨rfl, rfl, rfl, rfl⟩, hr.free⟩
      · simp [anc]; exact eq_comm
      · refine ⟨k1, k2, k3, ?_, k5, (upV_self _ _ _).symm, ?_, ?_⟩
        · show s.ci.dindirBlk = _; rw [k4, upV_ne]; intro h; cases h
        · exact (nz_pos hr.q0).symm
        · show s.ci.dataBlk = _; rw [k8, upV_ne]; intro h; injection h with h _; cases h
  · have eA : ancI depth p = none := by simp [ancI, hdep]
    rw [eA]
    refine ⟨V, s, ?_, (BB.refl h).weaken (by simp), hco, .refl _, rfl⟩
    simp [branchIndir, hdep]

/-- Counting the data blocks after one position has changed. -/
theorem count_upV (hc : c.Ok) {b : Nat} (hb : b < c.dataBlocks) (V : Pos → Nat) (q : Nat) :
    countIn (fun x => decide (upV V (posOf c b) q (posOf c x) ≠ 0)) 0 c.dataBlocks + (if V (posOf c b) ≠ 0 then 1 else 0) =
    countIn (fun x => decide (V (posOf c x) ≠ 0)) 0 c.dataBlocks + (if q ≠ 0 then 1 else 0) := by
  have := countIn_update (p := fun x => decide (upV V (posOf c b) q (posOf c x) ≠ 0)) (q := fun x => decide (V (posOf c x) ≠ 0))
    (Nat.zero_le b) hb (by
      intro x _ h2 h3
      have : posOf c x ≠ posOf c b := fun e => h3 (posOf_inj hc h2 hb e)
      simp only [upV_ne V q this])
  simp only [upV_self] at this
  simpa using this

theorem count_lt {b : Nat} (hb : b < c.dataBlocks) {V : Pos → Nat} (h0 : V (posOf c b) = 0) :
    countIn (fun x => decide (V (posOf c x) ≠ 0)) 0 c.dataBlocks < c.dataBlocks := by
  rw [countIn_split _ (Nat.zero_le b) (Nat.le_of_lt hb), countIn_split _ (Nat.le_succ b) hb, countIn_one]
  have h1 := countIn_le (fun x => decide (V (posOf c x) ≠ 0)) 0 b
  have h2 := countIn_le (fun x => decide (V (posOf c x) ≠ 0)) b.succ c.dataBlocks
  rw [if_neg (by simp [h0])]
  omega

theorem count_pos {b : Nat} (hb : b < c.dataBlocks) {V : Pos → Nat} (h0 : V (posOf c b) ≠ 0) :
    0 < countIn (fun x => decide (V (posOf c x) ≠ 0)) 0 c.dataBlocks := by
  rw [countIn_pos]; exact ⟨b, Nat.zero_le _, hb, by simp [h0]⟩

theorem Cnt.congr {s s' : DS} {V V' : Pos → Nat} (h : Cnt c s V) (e : s'.ci.node.blocks = s.ci.node.blocks)
    (hV : ∀ b, b < c.dataBlocks → V' (posOf c b) = V (posOf c b)) : Cnt c s' V' := by
  intro hi
  rw [e, h hi]
  apply countIn_congr
  intro x _ hx; rw [hV x hx]

/-- What the data stage of `BranchBlock` gives. -/
structure XRes (c : Conf) (s s1 : DS) (V V1 : Pos → Nat) (b : Nat) (buf : Bool) : Prop where
  pData : s1.ci.pData = if buf then some (V1 (posOf c b)) else none
  blk : buf = true → s1.v.blk (V1 (posOf c b)) = if V (posOf c b) = 0 then .data (fun _ => 0) else s.v.blk (V (posOf c b))

theorem stageX (hc : c.Ok) (h : FInv c O s V noZ) (hd : s.ci.dirty = true) {b : Nat} {p : Pos} (hb : b < c.dataBlocks)
    (hp : Coord c b p) (hco : CohAt s.ci V p) (hpd : ∀ x, s.ci.pData = some x → x = s.ci.dataBlk ∧ x ≠ 0) (fBuffer : Bool)
    (hup : ∀ x, anc p = some x → V x ≠ 0 ∧ NewB c s.v (V x)) (hcnt : Cnt c s V)
    (hfree : costAt c s V p ≤ s.v.work.freeBlocks) :
    ∃ V1 s1, branchData c 2 fBuffer s = (.ok (), s1) ∧ BB c O s s1 V V1 (fun x => x = p) ∧ CohAt s1.ci V1 p ∧
      s1.ci.inited = s.ci.inited ∧ s1.ci.logical = s.ci.logical ∧ Cnt c s1 V1 ∧
      s1.v.work.freeBlocks + costAt c s V p = s.v.work.freeBlocks ∧ XRes c s s1 V V1 b (fBuffer || s.ci.pData.isSome) := by
  have hok := hp.posOk hc
  have hpe := hp.eq hc
  have hl := hok.2.1
  have hin : p.first c < c.dataBlocks := by rw [hok.2.2]; exact hb
  have hdb : s.ci.dataBlk = V p := by
    cases hp with
    | direct => exact hco.2.2.2.2.2
    | indir => exact hco.2.2.2.2.2.2
    | dindir => exact hco.2.2.2.2.2.2.2
  let buf : Option (Option Nat) := if fBuffer || s.ci.pData.isSome then some s.ci.pData else none
  have hbufs : buf.isSome = (fBuffer || s.ci.pData.isSome) := by
    simp only [buf]; cases (fBuffer || s.ci.pData.isSome) <;> rfl
  obtain ⟨q, v1, e1, hbr⟩ := stage hc h hok.1 (buf := buf) (by
    intro x hx
    have : s.ci.pData = some x := by
      simp only [buf] at hx
      split at hx
      · injection hx
      · cases hx
    obtain ⟨g1, g2⟩ := hpd x this
    rw [hdb] at g1; subst g1; exact ⟨rfl, g2⟩) hfree
  rw [hl] at e1
  have ek : kindOf 0 = .data := rfl
  rw [ek] at e1
  let ci1 : Cinode := { s.ci with dataBlk := q, pData := bufOf buf q }
  have hci1 : CiSame s.ci ci1 := ⟨rfl, rfl, rfl, rfl, rfl, rfl⟩
  -- the store of the pointer
  have hst : ∃ s', (match s.ci.indirEntry with
        | some k => liftV (setPtr s.ci.indirBlk k q)
        | none => setNode (·.setEntry s.ci.inodeEntry q) : DM Unit) ⟨ci1, v1⟩ = (.ok (), s') ∧ Rel c O s s' V p q ∧
        s'.ci = { ci1 with node := s'.ci.node } ∧ s'.ci.node.blocks = s.ci.node.blocks ∧ CohAt s'.ci (upV V p q) p ∧
        (s'.v.blk q = v1.blk q) := by
    have hbrn : buf.isSome = true ∨ ¬ 0 < p.lvl c := Or.inr (by omega)
    cases hp with
    | direct hb =>
      obtain ⟨k1, k2, k3, k4, k5, k6⟩ := hco
      refine ⟨_, ?_, rel_of_br (ci1 := ci1) hc h hd hok.1 hin hbr (fun h => absurd h (by omega)) (Or.inl rfl) hci1
        (Or.inl ⟨b, rfl, rfl⟩), rfl, rfl, ?_, ?_⟩
      · simp only [k3, setNode, run_modify, k1]
      · exact ⟨k1, k2, k3, k4, k5, (upV_self _ _ _).symm⟩
      · obtain ⟨nb, hnb⟩ := h.nb_isSome
        have hnbr := h.nb_range hc hnb
        have := hbr.lo
        simp only [DS.setNode, ci1, hnb, hd, if_true, write_blk]
        rw [if_neg (by omega)]
    | indir e k h1 h2 h3 hb' =>
      obtain ⟨k1, k2, k3, k4, k5, k6, k7⟩ := hco
      obtain ⟨hu1, hu2⟩ := hup (.ent e) rfl
      have hr := rel_of_br (s' := ⟨ci1, v1.write (V (.ent e)) ((v1.blk (V (.ent e))).setPtr k q)⟩) (ci1 := ci1) hc h hd hok.1 hin hbr
        (fun h => absurd h (by omega)) (Or.inl rfl) hci1 (Or.inr ⟨.ent e, k, rfl, hu1, hu2, rfl⟩)
      refine ⟨_, ?_, hr, rfl, rfl, ?_, ?_⟩
      · simp only [k3, liftV, setPtr, run_modify, k5]
      · refine ⟨k1, k2, k3, k4, ?_, k6, (upV_self _ _ _).symm⟩
        show s.ci.indirBlk = _; rw [k5, upV_ne]; intro h; cases h
      · show (v1.write (V (.ent e)) _).blk q = _
        rw [write_blk, if_neg]
        intro e0
        have := hr.inv.inj (.sub (.ent e) k) (.ent e) hok.1 hok.1.parent (by rw [upV_self]; exact hr.q0)
          (by rw [upV_self, upV_ne _ _ (by intro h; cases h)]; exact e0)
        cases this
    | dindir e d k h1 h2 h3 h4 hb' =>
      obtain ⟨k1, k2, k3, k4, k5, k6, k7, k8⟩ := hco
      obtain ⟨hu1, hu2⟩ := hup (.sub (.ent e) d) rfl
      have hr := rel_of_br (s' := ⟨ci1, v1.write (V (.sub (.ent e) d)) ((v1.blk (V (.sub (.ent e) d))).setPtr k q)⟩) (ci1 := ci1)
        hc h hd hok.1 hin hbr (fun h => absurd h (by omega)) (Or.inl rfl) hci1 (Or.inr ⟨.sub (.ent e) d, k, rfl, hu1, hu2, rfl⟩)
      refine ⟨_, ?_, hr, rfl, rfl, ?_, ?_⟩
      · simp only [k3, liftV, setPtr, run_modify, k6]
      · refine ⟨k1, k2, k3, ?_, k5, ?_, k7, (upV_self _ _ _).symm⟩
        · show s.ci.dindirBlk = _; rw [k4, upV_ne]; intro h; cases h
        · show s.ci.indirBlk = _; rw [k6, upV_ne]; intro h; injection h with h _; cases h
      · show (v1.write (V (.sub (.ent e) d)) _).blk q = _
        rw [write_blk, if_neg]
        intro e0
        have hne : Pos.sub (.ent e) d ≠ .sub (.sub (.ent e) d) k := (sub_ne _ _).symm
        have := hr.inv.inj (.sub (.sub (.ent e) d) k) (.sub (.ent e) d) hok.1 hok.1.parent (by rw [upV_self]; exact hr.q0)
          (by rw [upV_self, upV_ne _ _ hne]; exact e0)
        exact hne this.symm
  obtain ⟨s', e2, hr, hci', hbl, hco', hbq⟩ := hst
  have hbb := BB.of_rel hc h hok.1 hr
  have hd' : s'.ci.dirty = true := by rw [hr.fr.dirty]; exact hd
  have hx : XRes c s s' V (upV V p q) b (fBuffer || s.ci.pData.isSome) := by
    refine ⟨?_, ?_⟩
    · rw [hci', ← hbufs, ← hpe, upV_self]; rfl
    · intro hbf
      rw [← hpe, upV_self, hbq, hbr.blkB (by rw [hbufs]; exact hbf), hl]; rfl
  have hcount := count_upV hc hb V q
  rw [← hpe] at hcount
  have hrun : branchData c 2 fBuffer s = (if c.inodeBlocks ∧ V p = 0 then do
      let s ← get
      if s.ci.node.blocks < c.dataBlocks then setNode fun n => { n with blocks := n.blocks + 1 }
      else liftV (critical .efubar)
    else pure () : DM Unit) s' := by
    have e3 : liftV (branchOne c s.ci.dataBlk (if fBuffer || s.ci.pData.isSome then some s.ci.pData else none) .data) s =
        (.ok (q, bufOf buf q), ⟨s.ci, v1⟩) := by
      show liftV (branchOne c s.ci.dataBlk buf .data) s = _
      simp only [liftV, hdb, e1]
    unfold branchData
    simp only [run_bind, run_get, if_true, e3, setCi, run_modify]
    simp only [ci1] at e2
    cases hie : s.ci.indirEntry with
    | none =>
      simp only [hie] at e2
      simp only [hie, run_bind, e2, hdb]
    | some k =>
      simp only [hie] at e2
      simp only [hie, run_bind, e2, hdb]
  rw [hrun]
  by_cases hinc : c.inodeBlocks ∧ V p = 0
  · simp only [if_pos hinc, run_bind, run_get]
    have hlt : s'.ci.node.blocks < c.dataBlocks := by
      rw [hbl, hcnt hinc.1]; rw [hpe] at hinc; exact count_lt hb hinc.2
    simp only [if_pos hlt, setNode, run_modify]
    refine ⟨upV V p q, _, rfl, (hbb.trans hc (BB.setNode hc hr.inv { s'.ci.node with blocks := s'.ci.node.blocks + 1 } rfl rfl rfl rfl rfl hd')).weaken (by simp), ?_, ?_, ?_, ?_, ?_, ?_⟩
    · have : ∀ n, CohAt { s'.ci with node := n } (upV V p q) p := by
        intro n
        cases hp with
        | direct => exact hco'
        | indir => exact hco'
        | dindir => exact hco'
      exact this _
    · show s'.ci.inited = _; rw [hci']
    · show s'.ci.logical = _; rw [hci']
    · intro hi
      show s'.ci.node.blocks + 1 = _
      rw [hbl, hcnt hi]
      rw [if_neg (by simp [hinc.2]), if_pos hr.q0] at hcount
      omega
    · have : (s'.setNode { s'.ci.node with blocks := s'.ci.node.blocks + 1 }).v.work = s'.v.work := by
        unfold DS.setNode
        cases s'.ci.nodeBuf with
        | none => rfl
        | some x => simp only [hd', if_true]; rfl
      rw [this]; exact hr.free
    · refine ⟨hx.pData, fun hbf => ?_⟩
      rw [← hx.blk hbf]
      have hnn : upV V p q (posOf c b) ≠ 0 := by rw [← hpe, upV_self]; exact hr.q0
      have hokb : PosOk c (posOf c b) := (posOf_ok hc hb).1
      exact (BB.setNode hc hr.inv { s'.ci.node with blocks := s'.ci.node.blocks + 1 } rfl rfl rfl rfl rfl hd').leaf _ hokb
        (by rw [← hpe]; exact hl) (fun h => h) hnn
  · rw [if_neg hinc]
    refine ⟨upV V p q, s', rfl, hbb, hco', ?_, ?_, ?_, hr.free, hx⟩
    · rw [hci']
    · rw [hci']
    · intro hi
      rw [hbl, hcnt hi]
      have : V p ≠ 0 := fun e => hinc ⟨hi, e⟩
      rw [if_pos this, if_pos hr.q0] at hcount
      omega

theorem isNew_eq (hc : c.Ok) {v : Vol} (hv : VolInv c v) {q : Nat} (h : q ≠ 0 → InMap c q) :
    isNew c q v = (.ok (decide (q ≠ 0 ∧ NewB c v q)), v) := by
  unfold isNew
  by_cases h0 : q = 0
  · simp [h0]
  · simp only [h0, if_false, run_bind, imapBlockState_eq hc hv.ok (h h0), run_pure]
    congr 2
    unfold NewB stateOf
    rw [decide_eq_decide]
    cases h1 : curBit c v q <;> cases h2 : cmtBit c v q <;> simp [h0]

/-- The position of the data block if it is to be branched. -/
def ancX (depth : Nat) (p : Pos) : Option Pos := if depth = 2 then some p else none

theorem branchCost_eq (hc : c.Ok) (h : FInv c O s V noZ) {b : Nat} {p : Pos} (hb : b < c.dataBlocks)
    (hp : Coord c b p) (hini : s.ci.inited = true) (hco : CohAt s.ci V p) (depth : Nat) (hdep : depth ≤ 2) :
    branchCost c s.ci depth s.v =
      (.ok (costOf c s V (anc p >>= anc) + costOf c s V (ancI depth p) + costOf c s V (ancX depth p)), s.v) := by
  have hok := hp.posOk hc
  obtain ⟨nb, hnb⟩ := h.nb_isSome
  have hnew : ∀ x, PosOk c x → isNew c (V x) s.v = (.ok (decide (costAt c s V x = 0)), s.v) := by
    intro x hx
    rw [isNew_eq hc h.vol (fun hn => h.inMap hx hn)]
    unfold costAt
    by_cases hh : V x ≠ 0 ∧ NewB c s.v (V x)
    · simp [hh]
    · rw [if_neg hh]; simp [hh]
  have hle : ∀ x, costAt c s V x ≤ 1 := by intro x; unfold costAt; split <;> omega
  unfold branchCost
  rw [if_neg (by simp [hnb, hini])]
  cases hp with
  | direct hb =>
    obtain ⟨k1, k2, k3, k4, k5, k6⟩ := hco
    have h0 := hnew (.ent b) hok.1
    have h0' := hle (.ent b)
    have e1 : (anc (.ent b) >>= anc) = none := rfl
    have e2 : ancI depth (.ent b) = none := by unfold ancI; split <;> rfl
    rw [e1, e2]
    simp only [k2, k3, k6, ne_eq, not_true_eq_false, false_and, if_false, run_bind, run_pure]
    have hdi : c.dindirPtrs > 0 → c.direct < c.inodeEntries := by unfold Conf.dindirPtrs; omega
    by_cases g1 : c.dindirPtrs > 0 <;> by_cases g2 : c.direct < c.inodeEntries <;> by_cases g3 : depth = 2 <;>
      first
        | exact absurd (hdi g1) g2
        | (simp only [g1, g2, g3, if_true, if_false, run_bind, run_pure, h0, ancX, costOf]
           by_cases g4 : costAt c s V (.ent b) = 0
           · simp [g4]
           · have g5 : costAt c s V (.ent b) = 1 := by omega
             simp [g5])
        | simp [g1, g2, g3, ancX, costOf]
  | indir e k h1 h2 h3 hb' =>
    obtain ⟨k1, k2, k3, k4, k5, k6, k7⟩ := hco
    have h0 := hnew _ hok.1
    have h0' := hle (.sub (.ent e) k)
    have hI := hnew (.ent e) hok.1.1
    have hI' := hle (.ent e)
    have e1 : (anc (.sub (.ent e) k) >>= anc) = none := rfl
    have g2 : c.direct < c.inodeEntries := by have := hc.ptrs; omega
    rw [e1]
    simp only [k2, k3, k5, k7, ne_eq, reduceCtorEq, not_false_eq_true, true_and, run_bind, run_pure, g2, if_true]
    have c3 : ∀ (P : Prop) [Decidable P] (a b : Nat), (if P then (pure (a-1) : VM Nat) else pure b) = if P then pure (a-1) else pure b := fun _ _ _ _ => rfl
    by_cases g1 : c.dindirPtrs > 0 <;> by_cases gd : 1 ≤ depth <;> by_cases g3 : depth = 2 <;>
      by_cases g4 : costAt c s V (.ent e) = 0 <;> by_cases g6 : costAt c s V (.sub (.ent e) k) = 0 <;>
      first
        | omega
        | (have g4' : costAt c s V (.ent e) = 0 ∨ costAt c s V (.ent e) = 1 := by omega
           have g6' : costAt c s V (.sub (.ent e) k) = 0 ∨ costAt c s V (.sub (.ent e) k) = 1 := by omega
           rcases g4' with g4' | g4' <;> rcases g6' with g6' | g6' <;>
             first
               | omega
               | simp [g1, gd, g3, hI, h0, ancX, ancI, anc, costOf, g4', g6'])
  | dindir e d k h1 h2 h3 h4 hb' =>
    obtain ⟨k1, k2, k3, k4, k5, k6, k7, k8⟩ := hco
    have h0 := hnew _ hok.1
    have h0' := hle (.sub (.sub (.ent e) d) k)
    have hI := hnew _ hok.1.1
    have hI' := hle (.sub (.ent e) d)
    have hD := hnew _ hok.1.1.1
    have hD' := hle (.ent e)
    have e1 : (anc (.sub (.sub (.ent e) d) k) >>= anc) = some (.ent e) := rfl
    have g2 : c.direct < c.inodeEntries := by omega
    have g1 : c.dindirPtrs > 0 := by unfold Conf.dindirPtrs; omega
    rw [e1]
    simp only [k2, k3, k4, k6, k8, ne_eq, reduceCtorEq, not_false_eq_true, true_and, run_bind, run_pure, g1, g2, if_true, hD]
    have gD' : costAt c s V (.ent e) = 0 ∨ costAt c s V (.ent e) = 1 := by omega
    have g4' : costAt c s V (.sub (.ent e) d) = 0 ∨ costAt c s V (.sub (.ent e) d) = 1 := by omega
    have g6' : costAt c s V (.sub (.sub (.ent e) d) k) = 0 ∨ costAt c s V (.sub (.sub (.ent e) d) k) = 1 := by omega
    by_cases gd : 1 ≤ depth <;> by_cases g3 : depth = 2 <;>
      rcases gD' with gD' | gD' <;> rcases g4' with g4' | g4' <;> rcases g6' with g6' | g6' <;>
      first
        | omega
        | simp [gd, g3, hI, h0, ancX, ancI, anc, costOf, g4', g6', gD']

/-- The positions which `BranchBlock` makes writable. -/
def brSet (depth : Nat) (p : Pos) : Pos → Prop := fun x =>
  ((anc p >>= anc) = some x ∨ ancI depth p = some x) ∨ (depth = 2 ∧ x = p)

/-- Space taken by `BranchBlock`. -/
def brCost (c : Conf) (s : DS) (V : Pos → Nat) (depth : Nat) (p : Pos) : Nat :=
  costOf c s V (anc p >>= anc) + costOf c s V (ancI depth p) + costOf c s V (ancX depth p)

/-- Result of a successful `BranchBlock`. -/
structure BRes (c : Conf) (O : Nat → Prop) (s s' : DS) (V V' : Pos → Nat) (b depth : Nat) (fBuffer : Bool) : Prop
    extends BB c O s s' V V' (brSet depth (posOf c b)) where
  coh : Coh c s'.ci V' b
  cnt : Cnt c s' V'
  cost : brCost c s V depth (posOf c b) ≤ freeBlockCount c s.v
  free : s'.v.work.freeBlocks + brCost c s V depth (posOf c b) = s.v.work.freeBlocks
  data : depth = 2 → XRes c s s' V V' b (fBuffer || s.ci.pData.isSome)
  noData : depth ≠ 2 → s'.ci.pData = s.ci.pData

theorem freeBlockCount_le {v : Vol} : freeBlockCount c v ≤ v.work.freeBlocks := by
  unfold freeBlockCount; split <;> omega

theorem branchBlock_spec (hc : c.Ok) (h : FInv c O s V noZ) (hd : s.ci.dirty = true) (hcnt : Cnt c s V) {b : Nat} (hb : b < c.dataBlocks)
    (hco : Coh c s.ci V b) (depth : Nat) (hdep : depth ≤ 2) (fBuffer : Bool) :
    (branchBlock c depth fBuffer s = (.error .enospc, s) ∧ freeBlockCount c s.v < brCost c s V depth (posOf c b)) ∨
    ∃ V' s', branchBlock c depth fBuffer s = (.ok (), s') ∧ BRes c O s s' V V' b depth fBuffer := by
  have hp := coord_posOf hc hb
  have hok := posOf_ok hc hb
  obtain ⟨hini, hlog, hpos, hpd⟩ := hco
  have hcost := branchCost_eq hc h hb hp hini hpos depth hdep
  have hcost' : branchCost c s.ci depth s.v = (.ok (brCost c s V depth (posOf c b)), s.v) := hcost
  unfold branchBlock
  simp only [run_bind, run_get, liftV, hcost']
  by_cases hlt : freeBlockCount c s.v < brCost c s V depth (posOf c b)
  · left
    rw [if_pos hlt]; exact ⟨rfl, hlt⟩
  right
  rw [if_neg hlt]
  have hle : brCost c s V depth (posOf c b) ≤ s.v.work.freeBlocks := by have := freeBlockCount_le (c := c) (v := s.v); omega
  have hbc : brCost c s V depth (posOf c b) =
    costOf c s V (anc (posOf c b) >>= anc) + costOf c s V (ancI depth (posOf c b)) + costOf c s V (ancX depth (posOf c b)) := rfl
  -- the positions are different and exist
  have hdist : (∀ x, (anc (posOf c b) >>= anc) = some x → PosOk c x ∧ anc (posOf c b) ≠ some x ∧ x ≠ posOf c b) ∧
      (∀ x, anc (posOf c b) = some x → PosOk c x ∧ x ≠ posOf c b) := by
    have hok1 := hok.1
    generalize posOf c b = p at hp hok1
    cases hp with
    | direct => exact ⟨fun x hx => by simp [anc] at hx, fun x hx => by simp [anc] at hx⟩
    | indir e k _ _ _ _ =>
      refine ⟨fun x hx => by simp [anc] at hx, fun x hx => ?_⟩
      simp only [anc, Option.some.injEq] at hx; subst hx; exact ⟨hok1.1, by intro h; cases h⟩
    | dindir e d k _ _ _ _ _ =>
      refine ⟨fun x hx => ?_, fun x hx => ?_⟩
      · simp [anc] at hx; subst hx
        exact ⟨hok1.1.1, (fun h => by injection h with h; cases h), (fun h => by cases h)⟩
      · simp only [anc, Option.some.injEq] at hx; subst hx; exact ⟨hok1.1, (sub_ne _ _).symm⟩
  have hancI : ∀ x, ancI depth (posOf c b) = some x → anc (posOf c b) = some x := by
    intro x hx; unfold ancI at hx; split at hx
    · exact hx
    · cases hx
  -- stage 1
  obtain ⟨V1, s1, e1, b1, co1, cs1, f1⟩ := stageD hc h hd hb hp hpos (by omega)
  have hd1 : s1.ci.dirty = true := by rw [b1.fr.dirty]; exact hd
  -- stage 2
  have c2 := b1.cost (o := ancI depth (posOf c b)) (fun x hx => ⟨(hdist.2 x (hancI x hx)).1,
    fun h2 => (hdist.1 x h2).2.1 (hancI x hx)⟩)
  obtain ⟨V2, s2, e2, b2, co2, cs2, f2⟩ := stageI hc b1.inv hd1 hb hp co1 depth
    (fun x hx => b1.new x hx) (by rw [c2]; omega)
  have hd2 : s2.ci.dirty = true := by rw [b2.fr.dirty]; exact hd1
  have b12 := b1.trans hc b2
  have hcnt2 : Cnt c s2 V2 := by
    refine hcnt.congr (by rw [cs2.blocks, cs1.blocks]) (fun b' hb' => ?_)
    apply b12.same
    have hl := (posOf_ok hc hb').2.1
    have hnl : ∀ x, anc (posOf c b) = some x → 0 < x.lvl c := by
      intro x hx
      have hok1 := hok.1
      cases hpo : posOf c b with
      | ent e => rw [hpo] at hx; cases hx
      | sub a k => rw [hpo] at hx hok1; injection hx with hx; subst hx; exact hok1.2.1
    have hnl2 : ∀ x, (anc (posOf c b) >>= anc) = some x → 0 < x.lvl c := by
      intro x hx
      have hok1 := hok.1
      cases hpo : posOf c b with
      | ent e => rw [hpo] at hx; cases hx
      | sub a k =>
        rw [hpo] at hx hok1
        cases a with
        | ent e => cases hx
        | sub a k' => injection hx with hx; subst hx; exact hok1.1.2.1
    rintro (h1 | h1)
    · have := hnl2 _ h1; omega
    · have := hnl _ (hancI _ h1); omega
  have c3 := b12.cost (o := ancX depth (posOf c b)) (fun x hx => by
    unfold ancX at hx; split at hx
    · injection hx with hx; subst hx
      refine ⟨hok.1, ?_⟩
      rintro (h1 | h1)
      · exact (hdist.1 _ h1).2.2 rfl
      · exact (hdist.2 _ (hancI _ h1)).2 rfl
    · cases hx)
  -- stage 3
  by_cases hd3 : depth = 2
  · subst hd3
    have eI : ancI 2 (posOf c b) = anc (posOf c b) := rfl
    obtain ⟨V3, s3, e3, b3, co3, i3, l3, cnt3, f3, x3⟩ := stageX hc b2.inv hd2 hb hp co2 (by
        intro x hx
        rw [cs2.pData, cs1.pData] at hx
        obtain ⟨g1, g2⟩ := hpd x hx
        refine ⟨?_, g2⟩
        have k1 : s.ci.dataBlk = V (posOf c b) := Coh.dataBlk hc hb ⟨hini, hlog, hpos, hpd⟩
        have k2 : s2.ci.dataBlk = V2 (posOf c b) := by
          have hco2 : Coh c { s2.ci with inited := true, logical := b, pData := none } V2 b :=
            ⟨rfl, rfl, by
              have hc2 := co2
              generalize posOf c b = p at hp hc2 ⊢
              cases hp <;> exact hc2, by intro x hx; cases hx⟩
          exact Coh.dataBlk (ci := { s2.ci with inited := true, logical := b, pData := none }) hc hb hco2
        have k3 : V2 (posOf c b) = V (posOf c b) := by
          apply b12.same
          rintro (h1 | h1)
          · exact (hdist.1 _ h1).2.2 rfl
          · exact (hdist.2 _ (hancI _ h1)).2 rfl
        rw [k2, k3, ← k1]; exact g1) fBuffer (fun x hx => b2.new x (by rw [eI]; exact hx)) hcnt2 (by
        have : costOf c s2 V2 (ancX 2 (posOf c b)) = costAt c s2 V2 (posOf c b) := rfl
        omega)
    refine ⟨V3, s3, ?_, { toBB := (b12.trans hc b3).weaken ?_, coh := ⟨?_, ?_, co3, ?_⟩, cnt := cnt3, cost := by omega, free := ?_, data := ?_,
                          noData := fun h => absurd rfl h }⟩
    · simp only [criticalAssertD, run_bind, run_attempt, e1, e2, e3, run_pure]
    · intro x; simp [brSet]
    · rw [i3, cs2.inited, cs1.inited]; exact hini
    · rw [l3, cs2.logical, cs1.logical]; exact hlog
    · intro x hx
      rw [x3.pData] at hx
      have k2 : s3.ci.dataBlk = V3 (posOf c b) := by
        have hco2 : Coh c { s3.ci with inited := true, logical := b, pData := none } V3 b :=
          ⟨rfl, rfl, by
            have hc2 := co3
            generalize posOf c b = p at hp hc2 ⊢
            cases hp <;> exact hc2, by intro x hx; cases hx⟩
        exact Coh.dataBlk (ci := { s3.ci with inited := true, logical := b, pData := none }) hc hb hco2
      split at hx
      · injection hx with hx; subst hx
        exact ⟨k2.symm, (b3.new _ rfl).1⟩
      · cases hx
    · have : costOf c s2 V2 (ancX 2 (posOf c b)) = costAt c s2 V2 (posOf c b) := rfl
      omega
    · intro _
      have hpdE : s2.ci.pData = s.ci.pData := by rw [cs2.pData, cs1.pData]
      rw [hpdE] at x3
      have hnL : ¬ ((fun p => (anc (posOf c b) >>= anc) = some p) (posOf c b) ∨ (fun p => ancI 2 (posOf c b) = some p) (posOf c b)) := by
        rintro (h1 | h1)
        · exact (hdist.1 _ h1).2.2 rfl
        · exact (hdist.2 _ (hancI _ h1)).2 rfl
      have k3 : V2 (posOf c b) = V (posOf c b) := b12.same _ hnL
      refine ⟨x3.pData, fun hbf => ?_⟩
      rw [x3.blk hbf, k3]
      by_cases h0 : V (posOf c b) = 0
      · rw [if_pos h0, if_pos h0]
      · rw [if_neg h0, if_neg h0]
        exact b12.leaf _ hok.1 hok.2.1 hnL h0
  · have e3 : branchData c depth fBuffer s2 = (.ok (), s2) := by unfold branchData; simp [hd3]
    have cX : costOf c s V (ancX depth (posOf c b)) = 0 := by unfold ancX; rw [if_neg hd3]; rfl
    refine ⟨V2, s2, ?_, { toBB := b12.weaken ?_, coh := ⟨?_, ?_, co2, ?_⟩, cnt := hcnt2, cost := by omega, free := by omega, data := fun h => absurd h hd3,
                          noData := fun _ => by rw [cs2.pData, cs1.pData] }⟩
    · simp only [criticalAssertD, run_bind, run_attempt, e1, e2, e3, run_pure]
    · intro x; simp [brSet, hd3]
    · rw [cs2.inited, cs1.inited]; exact hini
    · rw [cs2.logical, cs1.logical]; exact hlog
    · intro x hx
      rw [cs2.pData, cs1.pData] at hx
      obtain ⟨g1, g2⟩ := hpd x hx
      refine ⟨?_, g2⟩
      have k1 : s.ci.dataBlk = V (posOf c b) := Coh.dataBlk hc hb ⟨hini, hlog, hpos, hpd⟩
      have k2 : s2.ci.dataBlk = V2 (posOf c b) := by
        have hco2 : Coh c { s2.ci with inited := true, logical := b, pData := none } V2 b :=
          ⟨rfl, rfl, by
            have hc2 := co2
            generalize posOf c b = p at hp hc2 ⊢
            cases hp <;> exact hc2, by intro x hx; cases hx⟩
        exact Coh.dataBlk (ci := { s2.ci with inited := true, logical := b, pData := none }) hc hb hco2
      have k3 : V2 (posOf c b) = V (posOf c b) := by
        apply b12.same
        rintro (h1 | h1)
        · exact (hdist.1 _ h1).2.2 rfl
        · exact (hdist.2 _ (hancI _ h1)).2 rfl
      rw [k2, k3, ← k1]; exact g1

end RedFs
