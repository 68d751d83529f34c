import Verif.Lemmas.ShrinkAll
set_option linter.unusedSimpArgs false
set_option linter.unusedVariables false
namespace RedFs
open M Bitmap Vol

variable {c : Conf} {O : Nat → Prop} {s s' s1 s2 : DS} {V V' V1 V2 : Pos → Nat} {Z Z' Z1 Z2 G G1 G2 : Pos → Prop}

/-- Free blocks that guarantee that shrinking succeeds. -/
def Conf.shrinkNeed (c : Conf) : Nat := if c.dindirPtrs > 0 then 2 else if c.indirect > 0 then 1 else 0

theorem SeekAll.noData {ci : Cinode} (hc : c.Ok) (h : SeekAll c ci V) : SeekAll c { ci with pData := none } V := by
  intro b hb hi
  obtain ⟨h1, h2⟩ := h b hb hi
  refine ⟨fun hl => (h1 hl).setData hc hb (fun x hx => by cases hx), fun hl => ?_⟩
  have := h2 hl
  generalize posOf c b = p at *
  rcases p with x | ⟨x | ⟨x | ⟨x, y⟩, d'⟩, k'⟩ <;> exact this

theorem shrink_spec (hc : c.Ok) (h : FInv c O s V noZ) (hcnt : Cnt c s V) (hs : SeekAll c s.ci V) (size : Nat)
    (hd : s.ci.dirty = true ∨ size = 0) (hsz : size ≤ c.sizeMax) :
    (∃ s1 V1, shrink c size s = (.error .enospc, s1) ∧ ShFail c O s s1 V V1 ∧ freeBlockCount c s.v < c.shrinkNeed ∧ 0 < size ∧
      OldAbove c s.v V ((size + c.blockSize - 1) / c.blockSize)) ∨
    ∃ s' V', shrink c size s = (.ok (), s') ∧ Cut c O s s' V V' ((size + c.blockSize - 1) / c.blockSize) c.dataBlocks := by
  have hB := bs_pos hc
  generalize ht : (size + c.blockSize - 1) / c.blockSize = t
  have hle : t ≤ c.dataBlocks := by
    rw [← ht]
    have : size + c.blockSize - 1 < (c.dataBlocks + 1) * c.blockSize := by
      unfold Conf.sizeMax at hsz; rw [Nat.mul_comm] at hsz; rw [Nat.add_mul]; omega
    have := (Nat.div_lt_iff_lt_mul hB).2 this
    omega
  have ht0 : size = 0 → t = 0 := by
    rintro rfl; rw [← ht]; exact Nat.div_eq_of_lt (by omega)
  obtain ⟨nb, hnb⟩ := h.nb_isSome
  unfold shrink
  simp only [run_bind, run_get]
  rw [if_neg (by
    rw [hnb]; rintro (h1 | ⟨h1, h2⟩)
    · cases h1
    · rcases hd with hd | hd
      · rw [hd] at h2; cases h2
      · omega)]
  simp only [ht, run_bind, setCi, run_modify]
  have sh0 := Sh.of_ci (ci' := { s.ci with pData := none }) ⟨rfl, rfl, rfl, rfl, rfl, rfl⟩ h hcnt
  have hs0 := hs.noData hc
  have hdle : c.direct ≤ c.dataBlocks := by rw [Conf.Ok.dataBlocks_eq]; omega
  have hile : c.direct + c.indirBlocks ≤ c.dataBlocks := by rw [Conf.Ok.dataBlocks_eq]; omega
  -- the direct part
  have hdirect : ∃ s1 V1, shrinkDirect c (c.direct - t) t { s with ci := { s.ci with pData := none } } = (.ok (), s1) ∧
      Cut c O s s1 V V1 t (max t c.direct) ∧ CoEq { s.ci with pData := none } s1.ci ∧ (∀ p, c.direct ≤ p.root → V1 p = V p) ∧
      (c.direct ≤ t → s1 = { s with ci := { s.ci with pData := none } } ∧ V1 = V) := by
    have cut0 : Cut c O s { s with ci := { s.ci with pData := none } } V V t t := .of_sh sh0 (fun p _ _ => by omega) (fun _ _ h => h.elim)
    by_cases hdt : c.direct ≤ t
    · refine ⟨{ s with ci := { s.ci with pData := none } }, V, ?_, ?_, .refl _, fun _ _ => rfl, fun _ => ⟨rfl, rfl⟩⟩
      · rw [show c.direct - t = 0 by omega]; rfl
      · rw [Nat.max_eq_left hdt]; exact cut0
    · obtain ⟨s1, V1, e1, hco1, hd1, cut1⟩ := shrinkDirect_spec hc (c.direct - t) t _ V sh0.inv sh0.cnt (by omega)
      refine ⟨s1, V1, e1, ?_, hco1, hd1, fun hx => absurd hx hdt⟩
      have := cut0.trans hc cut1 (Nat.le_refl _)
      rw [show t + (c.direct - t) = max t c.direct by omega] at this; exact this
  obtain ⟨s1, V1, e1, cut1, hco1, hd1, hsame1⟩ := hdirect
  rw [e1]
  simp only
  have hroot : ∀ b, b < c.dataBlocks → c.direct ≤ b → c.direct ≤ (posOf c b).root := by
    intro b hb hdb
    apply Decidable.byContradiction; intro hx
    have h1 := (posOf_bound hc hb).2
    have h2 := firstE_mono hc (show (posOf c b).root + 1 ≤ c.direct by omega)
    have h3 : (Pos.ent c.direct).first c = c.direct := by
      simp only [Pos.first]; rw [if_neg (by omega)]
      split
      · rw [Nat.sub_self]; omega
      · rw [show c.indirBlocks = 0 by unfold Conf.indirBlocks; rw [show c.indirect = 0 by omega]; omega, show c.direct - c.direct - c.indirect = 0 by omega]; omega
    omega
  have hsp1 : ∀ b, b < c.dataBlocks → c.direct ≤ b → SeekPre c s1.ci V1 b := by
    intro b hb hdb
    refine (hs0 b hb).congr hco1 (fun p hp => hd1 p ?_)
    rw [hp]; exact hroot b hb hdb
  have hdir : (Pos.ent c.direct).first c = c.direct := by
    simp only [Pos.first]; rw [if_neg (by omega)]
    split
    · rw [Nat.sub_self]; omega
    · rw [show c.indirBlocks = 0 by unfold Conf.indirBlocks; rw [show c.indirect = 0 by omega]; omega, show c.direct - c.direct - c.indirect = 0 by omega]; omega
  have hind : (Pos.ent (c.direct + c.indirect)).first c = c.direct + c.indirBlocks := by
    simp only [Pos.first]; rw [if_neg (by omega), if_neg (by omega), show c.direct + c.indirect - c.direct - c.indirect = 0 by omega]; omega
  have hd1' : s1.ci.dirty = s.ci.dirty := cut1.fr.dirty
  have hneed : ∀ {n : Nat}, n < 1 → 0 < c.indirect → n < c.shrinkNeed := by
    intro n h1 h2; unfold Conf.shrinkNeed; (repeat' split) <;> omega
  rcases shrinkIndir_spec hc c.dataBlocks (max t c.direct) s1 V1 cut1.inv cut1.cnt (by omega) (by omega)
      (fun hx => hsp1 _ hx (by omega)) (by
        rcases hd with hd | hd
        · left; rw [hd1']; exact hd
        · right; refine ⟨c.direct, ?_⟩; rw [hdir, ht0 hd]; omega) with
    ⟨s2, V2, e2, f2, g2, i2, j2, O2⟩ | ⟨s2, V2, e2, cut2, sp2, same2⟩
  · left
    rw [e2]
    have hdt : c.direct ≤ t := by
      apply Decidable.byContradiction; intro hx
      exact j2 ⟨c.direct, by rw [hdir]; omega⟩
    obtain ⟨rfl, rfl⟩ := hsame1 hdt
    refine ⟨s2, V2, rfl, ⟨?_, f2.seek, f2.tot⟩, hneed g2 i2, Nat.pos_of_ne_zero (fun h0 => j2 ⟨c.direct, by rw [hdir, ht0 h0]; omega⟩), by rw [Nat.max_eq_left hdt] at O2; exact O2⟩
    exact (sh0.trans hc f2.sh).more (fun p _ h => by rcases h with h | h <;> exact h) (fun _ _ h => h.elim)
  · rw [e2]
    simp only
    have cut12 := cut1.trans hc cut2 (by omega)
    have hm : max (max t c.direct) (c.direct + c.indirBlocks) = max t (c.direct + c.indirBlocks) := by omega
    rw [hm] at cut12 sp2
    rw [hm]
    by_cases hdp : c.dindirPtrs > 0
    · rw [if_pos hdp]
      rcases shrinkDindir_spec hc c.dataBlocks (max t (c.direct + c.indirBlocks)) s2 V2 cut12.inv cut12.cnt (by omega) (by omega) sp2 (by
          rcases hd with hd | hd
          · left; rw [cut12.fr.dirty]; exact hd
          · right; refine ⟨c.direct + c.indirect, ?_⟩; rw [hind, ht0 hd]; omega) with
        ⟨s3, V3, e3, f3, g3, j3, O3⟩ | ⟨s3, V3, e3, cut3⟩
      · left
        rw [e3]
        have hdt : c.direct + c.indirBlocks ≤ t := by
          apply Decidable.byContradiction; intro hx
          exact j3 ⟨c.direct + c.indirect, by rw [hind]; omega⟩
        obtain ⟨rfl, rfl⟩ := hsame1 (by omega)
        obtain ⟨rfl, rfl⟩ := same2 (by omega)
        refine ⟨s3, V3, rfl, ⟨?_, f3.seek, f3.tot⟩, by unfold Conf.shrinkNeed; rw [if_pos hdp]; exact g3, Nat.pos_of_ne_zero (fun h0 => j3 ⟨c.direct + c.indirect, by rw [hind, ht0 h0]; omega⟩), by rw [Nat.max_eq_left hdt] at O3; exact O3⟩
        exact (sh0.trans hc f3.sh).more (fun p _ h => by rcases h with h | h <;> exact h) (fun _ _ h => h.elim)
      · right
        refine ⟨s3, V3, e3, ?_⟩
        have := cut12.trans hc cut3 (by omega)
        exact this
    · rw [if_neg hdp]
      right
      refine ⟨s2, V2, rfl, { cut12 with gone := fun p hp hn => ?_ }⟩
      rcases cut12.gone p hp hn with g | g
      · exact Or.inl g
      · right
        have : c.dindirBlocks = 0 := by
          have := hc.dindirBlocks_le
          rw [show c.dindirPtrs = 0 by omega] at this; omega
        rw [Conf.Ok.dataBlocks_eq]; omega

/-- The file has been cut or extended to `size` bytes. -/
structure Trunced (c : Conf) (O : Nat → Prop) (s s' : DS) (V V' : Pos → Nat) (sz : Nat) : Prop where
  ok : FOk c O s' V'
  frn : FrN c O s s'
  size : s'.ci.node.size = sz
  mode : s'.ci.node.mode = s.ci.node.mode
  nlink : s'.ci.node.nlink = s.ci.node.nlink
  pinode : s'.ci.node.pinode = s.ci.node.pinode
  bytes : ∀ off, off < sz → byteAt c s'.v.blk V' off = if off < s.ci.node.size then byteAt c s.v.blk V off else 0
  tot : tot s.v ≤ tot s'.v
  alloc : ∀ b, b < c.dataBlocks → (V' (posOf c b) ≠ 0 ↔ V (posOf c b) ≠ 0 ∧ b * c.blockSize < sz)

theorem byteAt_congr (hc : c.Ok) {D D' : Nat → Blk} {off : Nat}
    (h : V' (posOf c (off / c.blockSize)) = V (posOf c (off / c.blockSize)))
    (hb : V (posOf c (off / c.blockSize)) ≠ 0 → D' (V (posOf c (off / c.blockSize))) = D (V (posOf c (off / c.blockSize)))) :
    byteAt c D' V' off = byteAt c D V off := by
  unfold byteAt cont
  rw [h]
  by_cases h0 : V (posOf c (off / c.blockSize)) = 0
  · rw [if_pos h0, if_pos h0]
  · rw [if_neg h0, if_neg h0, hb h0]

theorem Dat.congr {D D' : Nat → Blk} {b : Nat} (h : V' (posOf c b) = V (posOf c b))
    (hb : V (posOf c b) ≠ 0 → D' (V (posOf c b)) = D (V (posOf c b))) (hd : Dat c D V b) : Dat c D' V' b := by
  intro h0
  rw [h] at h0 ⊢
  rw [hb h0]; exact hd h0

theorem trunced_of (hc : c.Ok) {n : InodeNode} (h : FInv c O s1 V' noZ) (hcnt : Cnt c s1 V') (fr : Fr c O s s1) {size : Nat}
    (hsz : size ≤ c.sizeMax) (hb : Bnd c V' size) (hdat : ∀ b, b < c.dataBlocks → Dat c s1.v.blk V' b)
    (hbytes : ∀ off, off < size → byteAt c s1.v.blk V' off = if off < s.ci.node.size then byteAt c s.v.blk V off else 0)
    (htot : tot s.v ≤ tot s1.v) (hal : ∀ b, b < c.dataBlocks → (V' (posOf c b) ≠ 0 ↔ V (posOf c b) ≠ 0 ∧ b * c.blockSize < size)) :
    Trunced c O s (s1.setNode { s1.ci.node with size := size }) V V' size := by
  have ns := h.setNode' hc { s1.ci.node with size := size } rfl
  have hf := fr.toN.trans hc ns.frn
  refine { ok := ⟨ns.inv, hcnt.congr rfl (fun _ _ => rfl), hb, hsz, ns.dat hc hdat⟩, frn := hf, size := rfl, mode := fr.mode, nlink := fr.nlink, pinode := fr.pinode, bytes := ?_, tot := by rw [ns.tot]; exact htot, alloc := hal }
  intro off ho
  rw [← hbytes off ho]
  exact ns.byteAt hc (by omega)

theorem dataTruncate_spec (hc : c.Ok) (h : FOk c O s V) (hs : SeekAll c s.ci V) (size : Nat) (hd : s.ci.dirty = true ∨ size = 0) :
    (c.sizeMax < size ∧ dataTruncate c size s = (.error .efbig, s)) ∨
    (size ≤ c.sizeMax ∧ ∃ s1 V1, dataTruncate c size s = (.error .enospc, s1) ∧ Fail c O s s1 V V1 ∧
      (size ≤ s.ci.node.size → freeBlockCount c s.v < c.shrinkNeed ∧ 0 < size ∧ OldAbove c s.v V ((size + c.blockSize - 1) / c.blockSize)) ∧
      (s.ci.node.size < size → Short c s V (s.ci.node.size / c.blockSize))) ∨
    (size ≤ c.sizeMax ∧ ∃ s' V', dataTruncate c size s = (.ok (), s') ∧ Trunced c O s s' V V' size) := by
  obtain ⟨nb, hnb⟩ := h.inv.nb_isSome
  have hB := bs_pos hc
  unfold dataTruncate
  simp only [run_bind, run_get]
  rw [if_neg (by rw [hnb]; simp)]
  by_cases hbig : c.sizeMax < size
  · left; rw [if_pos hbig]; exact ⟨hbig, rfl⟩
  right
  rw [if_neg hbig]
  simp only [run_bind]
  by_cases hgrow : s.ci.node.size < size
  · have hd' : s.ci.dirty = true := by
      rcases hd with hd | hd
      · exact hd
      · omega
    rw [onlyIf_pos hgrow]
    rcases expandPrepare_spec hc h.inv hd' (by rw [hnb]; simp) h.cnt hs (by omega) h.bnd with ⟨s1, e1, r1, hsh⟩ | ⟨s1, V1, hi, e1, w1, b1, b2, b3, b4, _, b5⟩
    · left
      refine ⟨by omega, s1, V, by rw [e1], ⟨⟨r1.inv h.inv, r1.cnt h.cnt, ?_, ?_, fun b hb => by rw [r1.v]; exact h.dat b hb⟩, r1.fr h.inv, r1.seek, fun off _ => by rw [r1.v], by rw [r1.v], fun _ _ => Iff.rfl, fun _ _ h => by rw [r1.v]; exact h⟩, fun hx => by omega,
        fun _ => by unfold Short at hsh; rw [r1.v, brCost_v r1.v] at hsh; exact hsh⟩
      · rw [r1.ci.node]; exact h.bnd
      · rw [r1.ci.node]; exact h.size
    · right
      rw [e1]
      simp only
      rw [onlyIf_neg (by omega)]
      simp only [setNode, run_modify]
      refine ⟨by omega, _, V1, rfl, ?_⟩
      refine trunced_of (n := s.ci.node) hc w1.inv w1.cnt w1.fr (by omega) ?_ (w1.datAll h.dat) ?_ (by rw [b3]; exact Nat.le_refl _) ?_
      · intro p hp hn; exact Nat.lt_trans (b2 p hp hn) hgrow
      · intro off ho
        by_cases hx : off < s.ci.node.size
        · rw [if_pos hx, w1.bytes off (by omega), if_neg (by omega)]
        · rw [if_neg hx]; exact b4 off (by omega) (by omega)
      · intro b hb
        rw [w1.ws.alloc hb]
        have hok := posOf_ok hc hb
        constructor
        · intro hx
          have hV : V (posOf c b) ≠ 0 := hx.elim id (fun h => (b5 b h).2)
          have := h.bnd _ hok.1 hV
          rw [hok.2.2] at this
          exact ⟨hV, by omega⟩
        · exact fun hx => Or.inl hx.1
  · rw [onlyIf_neg hgrow]
    simp only
    by_cases hsh : size < s.ci.node.size
    · rw [onlyIf_pos hsh]
      rcases shrink_spec hc h.inv h.cnt hs size hd (by omega) with ⟨s1, V1, e1, f1, g1⟩ | ⟨s1, V1, e1, cut⟩
      · left
        refine ⟨by omega, s1, V1, by rw [e1], ⟨⟨f1.sh.inv, f1.sh.cnt, ?_, ?_, fun b hb => by
            obtain ⟨p1, p2, _⟩ := posOf_ok hc hb
            obtain ⟨l1, l2⟩ := f1.sh.leaf _ p1 p2 (fun h => h)
            exact (h.dat b hb).congr l1 l2⟩, f1.sh.fr, f1.seek, ?_, f1.tot, fun b hb => ?_, fun b hb hn => ?_⟩, fun _ => g1, fun hx => by omega⟩
        · intro p hp hn; rw [f1.sh.fr.size]; exact h.bnd p hp (f1.sh.sub p hp hn)
        · rw [f1.sh.fr.size]; exact h.size
        · intro off ho
          have hsm : off < c.sizeMax := Nat.lt_of_lt_of_le ho h.size
          obtain ⟨p1, p2, p3⟩ := posOf_ok hc (div_lt_data hc hsm)
          obtain ⟨l1, l2⟩ := f1.sh.leaf _ p1 p2 (fun h => h)
          exact byteAt_congr hc l1 l2
        · obtain ⟨p1, p2, p3⟩ := posOf_ok hc hb
          rw [(f1.sh.leaf _ p1 p2 (fun h => h)).1]
        · intro p hp
          have hk := f1.sh.keep p (brSet_ok hc hb hp) (fun h => h) (hn p hp).1
          exact ⟨hk, f1.sh.new p (brSet_ok hc hb hp) hk (hn p hp).2⟩
      · right
        rw [e1]
        simp only [setNode, run_modify]
        refine ⟨by omega, _, V1, rfl, ?_⟩
        refine trunced_of (n := s.ci.node) hc cut.inv cut.cnt cut.fr (by omega) ?_ ?_ ?_ cut.tot ?_
        · intro p hp hn
          rcases cut.gone p hp hn with g | g
          · apply Decidable.byContradiction; intro hx
            have h2 : (size + c.blockSize - 1) / c.blockSize < p.first c + 1 := by
              rw [Nat.div_lt_iff_lt_mul hB, Nat.add_mul]; omega
            omega
          · have := cut.inv.inside p hp hn; omega
        · intro b hb h0
          obtain ⟨p1, p2, p3⟩ := posOf_ok hc hb
          rcases cut.gone _ p1 h0 with g | g
          · obtain ⟨l1, l2⟩ := cut.leaf _ p1 p2 g
            exact (h.dat b hb).congr l1 l2 h0
          · rw [p3] at g; omega
        · intro off ho
          rw [if_pos (by omega)]
          have hsm : off < c.sizeMax := by omega
          obtain ⟨p1, p2, p3⟩ := posOf_ok hc (div_lt_data hc hsm)
          obtain ⟨l1, l2⟩ := cut.leaf _ p1 p2 (by
            rw [p3]
            show off / c.blockSize + 1 ≤ _
            rw [Nat.le_div_iff_mul_le hB, Nat.add_mul]
            have := Nat.div_mul_le_self off c.blockSize
            omega)
          exact byteAt_congr hc l1 l2
        · intro b hb
          obtain ⟨p1, p2, p3⟩ := posOf_ok hc hb
          have hlt : b < (size + c.blockSize - 1) / c.blockSize ↔ b * c.blockSize < size := by
            rw [Nat.lt_iff_add_one_le, Nat.le_div_iff_mul_le hB, Nat.add_mul]; omega
          constructor
          · intro hn
            refine ⟨cut.sub _ p1 hn, ?_⟩
            rcases cut.gone _ p1 hn with g | g
            · rw [p3] at g; exact hlt.1 g
            · rw [p3] at g; omega
          · rintro ⟨g1, g2⟩
            rw [(cut.leaf _ p1 p2 (by rw [p3]; exact hlt.2 g2)).1]; exact g1
    · rw [onlyIf_neg hsh]
      simp only [setNode, run_modify]
      right
      have heq : s.ci.node.size = size := by omega
      refine ⟨by omega, _, V, rfl, ?_⟩
      refine trunced_of (n := s.ci.node) hc h.inv h.cnt (.refl h.inv.vol) (by omega) ?_ h.dat ?_ (Nat.le_refl _) ?_
      · rw [← heq]; exact h.bnd
      · intro off ho; rw [if_pos (by omega)]
      · intro b hb
        have hok := posOf_ok hc hb
        refine ⟨fun hn => ⟨hn, ?_⟩, fun hn => hn.1⟩
        have := h.bnd _ hok.1 hn
        rw [hok.2.2] at this; omega

end RedFs
