import Verif.Lemmas.WriteData
set_option linter.unusedSimpArgs false
set_option linter.unusedVariables false
namespace RedFs
open M Bitmap Vol

variable {c : Conf} {O : Nat → Prop} {s s' s1 s2 : DS} {V V' V1 V2 : Pos → Nat} {Z Z' Z1 Z2 G G1 G2 : Pos → Prop}

/-- Change of inode fields other than the pointers, whether or not the inode is dirty. -/
theorem FInv.setNode' (hc : c.Ok) (h : FInv c O s V Z) (n : InodeNode) (he : n.entries = s.ci.node.entries) :
    NodeSet c O s (s.setNode n) V Z := by
  by_cases hd : s.ci.dirty = true
  · exact h.setNode hc hd n he
  · have hd' : s.ci.dirty = false := by simpa using hd
    obtain ⟨nb, hnb⟩ := h.nb_isSome
    have hv : (s.setNode n).v = s.v := by simp [DS.setNode, hnb, hd']
    have e : s.setNode n = { s with ci := { s.ci with node := n } } := by
      unfold DS.setNode at hv ⊢; simp [hnb, hd']
    rw [e]
    refine { inv := ?_, frn := ⟨.refl h.vol, rfl, rfl, rfl, rfl, rfl, fun _ _ => rfl, fun _ _ _ => rfl, fun _ _ _ _ => rfl⟩,
             new := fun _ _ _ => Iff.rfl, blk := fun _ _ _ => rfl, tot := rfl, free := rfl }
    refine h.content h.vol rfl rfl ?_ (fun _ _ _ => rfl) (fun _ _ _ _ => rfl) he
    intro h1; exact absurd h1 (by simpa using hd')

/-- A freed block. -/
structure Freed (c : Conf) (O : Nat → Prop) (s s' : DS) (V : Pos → Nat) (Z : Pos → Prop) (p : Pos) : Prop where
  inv : FInv c O s' (upV V p 0) (fun x => Z x ∨ x = p)
  fr : Fr c O s s'
  blk : ∀ x, c.tableStart ≤ x → x ≠ V p → s'.v.blk x = s.v.blk x
  new : ∀ p', PosOk c p' → p' ≠ p → V p' ≠ 0 → (NewB c s'.v (V p') ↔ NewB c s.v (V p'))
  tot : tot s'.v = tot s.v + 1

theorem FInv.freeStep (hc : c.Ok) (h : FInv c O s V Z) {p : Pos} (hp : PosOk c p) (hn : V p ≠ 0)
    (hch : ∀ k, PosOk c (.sub p k) → V (.sub p k) = 0) :
    ∃ v', imapBlockSet c (V p) false s.v = (.ok (), v') ∧ Freed c O s { s with v := v' } V Z p := by
  obtain ⟨r1, r2, r3, r4⟩ := h.range p hp hn
  have hm := h.inMap hp hn
  have hf := Conf.Ok.first_ge c
  have hspec := imapBlockSet_spec (alloc := false) hc h.vol.ok h.vol.space hm (by rw [r3]; simp) (fun h => by cases h)
  unfold wp at hspec
  rcases hx : imapBlockSet c (V p) false s.v with ⟨r, v'⟩
  rw [hx] at hspec
  obtain ⟨hr, hb⟩ := hspec
  simp only at hr; subst hr
  have hqt := hb.qt hc h.vol hm
  have hne : ∀ x, c.tableStart ≤ x → x ≠ V p → v'.blk x = s.v.blk x := fun x h1 h2 => hb.blkHi x h1 (Or.inl h2)
  refine ⟨v', rfl, ?_, ?_, hne, ?_, ?_⟩
  · refine h.free hp hn hch (hqt.step.inv hc h.vol) rfl rfl ?_ (fun x h1 h2 => hb.bits x ⟨by omega, h2⟩) (fun x h1 h2 => hne x (by omega) h2) rfl
    intro hd x hx
    obtain ⟨d1, d2, d3⟩ := h.dirty hd x hx
    have hxr := h.nb_range hc hx
    have hxm : InMap c x := ⟨hxr.1, by have := hc.fits; omega⟩
    refine ⟨?_, ?_, ?_⟩
    · rw [hne x hxr.1 (by omega)]; exact d1
    · rw [hb.cbits x hxm]; exact d2
    · rw [hb.bits x hxm, if_neg (by omega)]; exact d3
  · refine { qt := hqt, ino := rfl, nodeBuf := rfl, dirty := rfl, dir := rfl, branched := rfl, size := rfl, mode := rfl, nlink := rfl,
             pinode := rfl, oth := ?_, tbits := ?_, tblk := ?_ }
    · intro x hx
      have := h.oth x hx
      exact hne x (by omega) (fun e => r4 (e ▸ hx))
    · intro x h1 h2
      show curBit c v' x = _
      rw [hb.bits x ⟨h1, by have := hc.fits; omega⟩, if_neg (by omega)]
    · intro x h1 h2 _; exact hne x h1 (by omega)
  · intro p' hp' hpp hn'
    have hm' := h.inMap hp' hn'
    have hvne : V p' ≠ V p := fun e => hpp (h.inj _ _ hp' hp hn' e)
    unfold NewB
    show curBit c v' _ = true ∧ cmtBit c v' _ = false ↔ _
    rw [hb.bits _ hm', if_neg hvne, hb.cbits _ hm']
  · exact (hb.counts h.vol.space r1 r2 r3).1

/-- Blocks have been removed from the tree: those at positions in `G`. -/
structure Sh (c : Conf) (O : Nat → Prop) (s s' : DS) (V V' : Pos → Nat) (Z' G : Pos → Prop) : Prop where
  inv : FInv c O s' V' Z'
  cnt : Cnt c s' V'
  fr : Fr c O s s'
  gone : ∀ p, PosOk c p → G p → V' p = 0
  sub : ∀ p, PosOk c p → V' p ≠ 0 → V p ≠ 0
  keep : ∀ p, PosOk c p → ¬ G p → V p ≠ 0 → V' p ≠ 0
  leaf : ∀ p, PosOk c p → p.lvl c = 0 → ¬ G p → V' p = V p ∧ (V p ≠ 0 → s'.v.blk (V p) = s.v.blk (V p))
  new : ∀ p, PosOk c p → V' p ≠ 0 → NewB c s.v (V p) → NewB c s'.v (V' p)
  tot : tot s.v ≤ tot s'.v

namespace Sh

theorem refl (h : FInv c O s V Z) (hcnt : Cnt c s V) : Sh c O s s V V Z (fun _ => False) where
  inv := h
  cnt := hcnt
  fr := .refl h.vol
  gone := fun _ _ h => h.elim
  sub := fun _ _ h => h
  keep := fun _ _ _ h => h
  leaf := fun _ _ _ _ => ⟨rfl, fun _ => rfl⟩
  new := fun _ _ _ h => h
  tot := Nat.le_refl _

theorem of_ro (r : Ro c V s s') (h : FInv c O s V Z) (hcnt : Cnt c s V) : Sh c O s s' V V Z (fun _ => False) where
  inv := r.inv h
  cnt := r.cnt hcnt
  fr := r.fr h
  gone := fun _ _ h => h.elim
  sub := fun _ _ h => h
  keep := fun _ _ _ h => h
  leaf := fun _ _ _ _ => ⟨rfl, fun _ => by rw [r.v]⟩
  new := fun _ _ _ h => by rw [r.v]; exact h
  tot := by rw [r.v]; exact Nat.le_refl _

theorem of_ci {ci' : Cinode} (e : CiSame s.ci ci') (h : FInv c O s V Z) (hcnt : Cnt c s V) : Sh c O s { s with ci := ci' } V V Z (fun _ => False) where
  inv := h.ci e
  cnt := hcnt.congr (by show ci'.node.blocks = _; rw [e.node]) (fun _ _ => rfl)
  fr := Fr.ci h.vol e
  gone := fun _ _ h => h.elim
  sub := fun _ _ h => h
  keep := fun _ _ _ h => h
  leaf := fun _ _ _ _ => ⟨rfl, fun _ => rfl⟩
  new := fun _ _ _ h => h
  tot := Nat.le_refl _

theorem trans (hc : c.Ok) (a : Sh c O s s1 V V1 Z1 G1) (b : Sh c O s1 s2 V1 V2 Z2 G2) : Sh c O s s2 V V2 Z2 (fun p => G1 p ∨ G2 p) where
  inv := b.inv
  cnt := b.cnt
  fr := a.fr.trans hc b.fr
  gone := fun p hp hG => by
    rcases hG with h | h
    · apply Decidable.byContradiction; intro hn
      exact b.sub p hp hn (a.gone p hp h)
    · exact b.gone p hp h
  sub := fun p hp hn => a.sub p hp (b.sub p hp hn)
  keep := fun p hp hG hn => by
    rw [not_or] at hG
    exact b.keep p hp hG.2 (a.keep p hp hG.1 hn)
  leaf := fun p hp hl hG => by
    rw [not_or] at hG
    obtain ⟨a1, a2⟩ := a.leaf p hp hl hG.1
    obtain ⟨b1, b2⟩ := b.leaf p hp hl hG.2
    refine ⟨b1.trans a1, fun hn => ?_⟩
    rw [a1] at b2
    exact (b2 hn).trans (a2 hn)
  new := fun p hp hn hN => b.new p hp hn (a.new p hp (b.sub p hp hn) hN)
  tot := Nat.le_trans a.tot b.tot

/-- More positions may be named if there is nothing there. -/
theorem more (a : Sh c O s s1 V V1 Z1 G1) (h1 : ∀ p, PosOk c p → G1 p → G p) (h2 : ∀ p, PosOk c p → G p → G1 p ∨ V1 p = 0) :
    Sh c O s s1 V V1 Z1 G where
  inv := a.inv
  cnt := a.cnt
  fr := a.fr
  gone := fun p hp hG => by rcases h2 p hp hG with h | h; exact a.gone p hp h; exact h
  sub := a.sub
  keep := fun p hp hG hn => a.keep p hp (fun h => hG (h1 p hp h)) hn
  leaf := fun p hp hl hG => a.leaf p hp hl (fun h => hG (h1 p hp h))
  new := a.new
  tot := a.tot

theorem reZ (a : Sh c O s s1 V V1 Z1 G) (h1 : ∀ p, PosOk c p → Z2 p → V1 p = 0)
    (h2 : ∀ p, PosOk c p → Z1 p → ¬ Z2 p → ∃ a k, p = .sub a k ∧ V1 a = 0) : Sh c O s s1 V V1 Z2 G :=
  { a with inv := a.inv.reZ h1 h2 }

end Sh

/-- All fields other than the inode buffer contents agree. -/
def CoEq (a b : Cinode) : Prop := b = { a with node := b.node }
theorem CoEq.refl (a : Cinode) : CoEq a a := rfl
theorem CoEq.trans {a b d : Cinode} (h : CoEq a b) (g : CoEq b d) : CoEq a d := by
  unfold CoEq at *; rw [g, h]

/-- `TruncDataBlock` at a leaf. -/
theorem truncData_spec (hc : c.Ok) (h : FInv c O s V Z) (hcnt : Cnt c s V) {b : Nat} (hb : b < c.dataBlocks) :
    ∃ s', truncData c (V (posOf c b)) s = (.ok (), s') ∧ CoEq s.ci s'.ci ∧ s'.ci.node.entries = s.ci.node.entries ∧
      (∀ x, c.firstAlloc ≤ x → x ≠ V (posOf c b) → s'.v.blk x = s.v.blk x) ∧
      Sh c O s s' V (upV V (posOf c b) 0) (fun x => Z x ∨ (V (posOf c b) ≠ 0 ∧ x = posOf c b)) (fun x => x = posOf c b) := by
  have hok := posOf_ok hc hb
  generalize hp : posOf c b = p at hok
  unfold truncData
  by_cases h0 : V p = 0
  · refine ⟨s, by rw [if_pos h0]; rfl, .refl _, rfl, fun _ _ _ => rfl, ?_⟩
    have e : upV V p 0 = V := by
      funext x; by_cases hx : x = p
      · subst hx; rw [upV_self, h0]
      · rw [upV_ne _ _ hx]
    rw [e]
    have : (fun x => Z x ∨ (V p ≠ 0 ∧ x = p)) = Z := by funext x; simp [h0]
    rw [this]
    exact (Sh.refl h hcnt).more (fun _ _ h => h.elim) (fun x _ hx => Or.inr (hx ▸ h0))
  rw [if_neg h0]
  have hch : ∀ k, PosOk c (.sub p k) → V (.sub p k) = 0 := by
    intro k hk; have := hk.2.1; omega
  obtain ⟨v', e, hF⟩ := h.freeStep hc hok.1 h0 hch
  simp only [run_bind, liftV, e, run_get]
  have hlt : countIn (fun x => decide (upV V p 0 (posOf c x) ≠ 0)) 0 c.dataBlocks + 1 = countIn (fun x => decide (V (posOf c x) ≠ 0)) 0 c.dataBlocks := by
    have := count_upV hc hb V 0
    rw [hp, if_pos h0, if_neg (by simp)] at this
    omega
  have hZ : ∀ x, (Z x ∨ (V p ≠ 0 ∧ x = p)) ↔ (Z x ∨ x = p) := by intro x; simp [h0]
  have hZ' : (fun x => Z x ∨ (V p ≠ 0 ∧ x = p)) = (fun x => Z x ∨ x = p) := funext fun x => propext (hZ x)
  rw [hZ']
  have hf := Conf.Ok.first_ge c
  have hnew : ∀ p', PosOk c p' → upV V p 0 p' ≠ 0 → NewB c s.v (V p') → NewB c v' (upV V p 0 p') := by
    intro p' hp' hn hN
    have hne : p' ≠ p := by rintro rfl; exact hn (upV_self _ _ _)
    rw [upV_ne _ _ hne] at hn ⊢
    exact (hF.new p' hp' hne hn).2 hN
  have hsub : ∀ p', PosOk c p' → upV V p 0 p' ≠ 0 → V p' ≠ 0 := by
    intro p' hp' hn
    have hne : p' ≠ p := by rintro rfl; exact hn (upV_self _ _ _)
    rwa [upV_ne _ _ hne] at hn
  have hkeep : ∀ p', PosOk c p' → ¬ p' = p → V p' ≠ 0 → upV V p 0 p' ≠ 0 := by
    intro p' hp' hne hn
    rwa [upV_ne _ _ hne]
  have hleafb : ∀ p', PosOk c p' → p' ≠ p → V p' ≠ 0 → v'.blk (V p') = s.v.blk (V p') := by
    intro p' hp' hne hn
    have := h.range p' hp' hn
    exact hF.blk _ (by omega) (fun e => hne (h.inj _ _ hp' hok.1 hn e))
  by_cases hib : c.inodeBlocks = true
  · rw [if_pos hib]
    have hcn := hcnt hib
    simp only [run_bind, run_get]
    rw [if_neg (by have := count_pos hb (V := V) (by rw [hp]; exact h0); omega)]
    simp only [setNode, run_modify]
    have ns := hF.inv.setNode' hc { s.ci.node with blocks := s.ci.node.blocks - 1 } rfl
    refine ⟨_, rfl, ?_, rfl, ?_, ?_⟩
    · unfold CoEq DS.setNode; rfl
    · intro x h1 h2
      rw [← hF.blk x (by omega) h2]
      -- the inode buffer is below the allocable area
      obtain ⟨nb, hnb⟩ := hF.inv.nb_isSome
      have := hF.inv.nb_range hc hnb
      show (DS.setNode _ _).v.blk x = _
      unfold DS.setNode
      simp only at hnb
      simp only [hnb]
      split
      · rw [write_blk, if_neg (by omega)]
      · rfl
    · refine { inv := ns.inv, cnt := ?_, fr := ?_, gone := fun x _ hx => hx ▸ upV_self _ _ _, sub := hsub, keep := hkeep, leaf := ?_, new := ?_, tot := ?_ }
      · intro _
        show s.ci.node.blocks - 1 = _
        omega
      · have f1 := hF.fr
        have f2 := ns.frn
        exact { qt := f1.qt.trans hc f2.qt, ino := rfl, nodeBuf := rfl, dirty := rfl, dir := rfl, branched := rfl, size := rfl, mode := rfl,
                nlink := rfl, pinode := rfl, oth := fun x hx => (f2.oth x hx).trans (f1.oth x hx),
                tbits := fun x h1 h2 => (f2.tbits x h1 h2).trans (f1.tbits x h1 h2),
                tblk := fun x h1 h2 h3 => (f2.tblk x h1 h2 h3).trans (f1.tblk x h1 h2 h3) }
      · intro p' hp' hl hne
        refine ⟨upV_ne _ _ hne, fun hn => ?_⟩
        have := ns.blk p' hp' (by rw [upV_ne _ _ hne]; exact hn)
        rw [upV_ne _ _ hne] at this
        rw [this]; exact hleafb p' hp' hne hn
      · intro p' hp' hn hN
        exact (ns.new p' hp' hn).2 (hnew p' hp' hn hN)
      · rw [ns.tot, hF.tot]; omega
  · rw [if_neg hib]
    refine ⟨{ s with v := v' }, rfl, .refl _, rfl, fun x h1 h2 => hF.blk x (by omega) h2, ?_⟩
    refine { inv := hF.inv, cnt := fun h => absurd h hib, fr := hF.fr, gone := fun x _ hx => hx ▸ upV_self _ _ _, sub := hsub, keep := hkeep,
             leaf := ?_, new := hnew, tot := ?_ }
    · intro p' hp' hl hne
      exact ⟨upV_ne _ _ hne, hleafb p' hp' hne⟩
    · rw [hF.tot]; omega

/-- Zero an entry of the inode. -/
theorem clearEnt_spec (hc : c.Ok) (h : FInv c O s V Z) (hcnt : Cnt c s V) {e : Nat} (he : e < c.inodeEntries) (hz : V (.ent e) = 0) :
    ∃ s', setNode (·.setEntry e 0) s = (.ok (), s') ∧ CoEq s.ci s'.ci ∧
      Sh c O s s' V V (fun x => Z x ∧ x ≠ .ent e) (fun _ => False) := by
  obtain ⟨nb, hnb⟩ := h.nb_isSome
  have hnbr := h.nb_range hc hnb
  have hf := Conf.Ok.first_ge c
  have hnbm : InMap c nb := ⟨hnbr.1, by have := hc.fits; omega⟩
  refine ⟨s.setNode (s.ci.node.setEntry e 0), rfl, by unfold CoEq DS.setNode; rfl, ?_⟩
  have hne : ∀ p, PosOk c p → V p ≠ 0 → V p ≠ nb := by
    intro p hp hn; have := (h.range p hp hn).1; omega
  have hblk : ∀ x, x ≠ nb → (s.setNode (s.ci.node.setEntry e 0)).v.blk x = s.v.blk x := by
    intro x hx
    simp only [DS.setNode, hnb]
    split
    · rw [write_blk, if_neg hx]
    · rfl
  have hqt : Qt c s.v (s.setNode (s.ci.node.setEntry e 0)).v := by
    simp only [DS.setNode, hnb]
    split
    · next hd =>
      obtain ⟨d1, d2, d3⟩ := h.dirty hd nb hnb
      exact .write hc h.vol _ hnbm d2 (h.vol.branched_of d3 d2)
    · exact .refl h.vol
  have hbits : ∀ x, InMap c x → curBit c (s.setNode (s.ci.node.setEntry e 0)).v x = curBit c s.v x := by
    intro x hx
    simp only [DS.setNode, hnb]
    split
    · exact curBit_write hc hnbm.1 hx
    · rfl
  have htot : tot (s.setNode (s.ci.node.setEntry e 0)).v = tot s.v := by
    simp only [DS.setNode, hnb]
    split <;> rfl
  refine { inv := ?_, cnt := hcnt.congr rfl (fun _ _ => rfl), fr := ?_, gone := fun _ _ h => h.elim, sub := fun _ _ h => h, keep := fun _ _ _ h => h, leaf := ?_, new := ?_,
           tot := by rw [htot]; exact Nat.le_refl _ }
  · refine h.clear he hz (hqt.step.inv hc h.vol) rfl rfl ?_ (fun x h1 h2 => hbits x ⟨by omega, h2⟩) ?_ ?_ ?_ ?_
    · intro hd x hx
      have hd0 : s.ci.dirty = true := hd
      have : x = nb := by
        have : s.ci.nodeBuf = some x := hx
        rw [hnb] at this; injection this with this; exact this.symm
      subst this
      obtain ⟨d1, d2, d3⟩ := h.dirty hd0 x hx
      refine ⟨?_, ?_, ?_⟩
      · simp only [DS.setNode, hnb, hd0, if_true, write_blk]
      · rw [hqt.step.cbits hc hnbm]; exact d2
      · rw [hbits x hnbm]; exact d3
    · intro x h1 _; exact hblk x (by omega)
    · intro e' he'; injection he' with he'; subst he'; rfl
    · intro hn; exact absurd rfl (hn e)
    · intro a k h1; cases h1
  · refine { qt := hqt, ino := rfl, nodeBuf := rfl, dirty := rfl, dir := rfl, branched := rfl, size := rfl, mode := rfl, nlink := rfl,
             pinode := rfl, oth := ?_, tbits := ?_, tblk := ?_ }
    · intro x hx; have := (h.oth x hx).1; exact hblk x (by omega)
    · intro x h1 h2; exact hbits x ⟨h1, by have := hc.fits; omega⟩
    · intro x h1 h2 h3; apply hblk; rintro rfl; exact h3 hnb
  · intro p hp _ _; exact ⟨rfl, fun hn => hblk _ (hne p hp hn)⟩
  · intro p hp hn hN
    have hm := h.inMap hp hn
    unfold NewB at *
    rw [hbits _ hm, hqt.step.cbits hc hm]; exact hN

/-- Zero an entry of a writable node. -/
theorem clearPtr_spec (hc : c.Ok) (h : FInv c O s V Z) (hcnt : Cnt c s V) {a : Pos} {k : Nat} (hp : PosOk c (.sub a k)) (ha : V a ≠ 0)
    (hN : NewB c s.v (V a)) (hz : V (.sub a k) = 0) :
    ∃ s', liftV (setPtr (V a) k 0) s = (.ok (), s') ∧ s'.ci = s.ci ∧ (s'.v.blk (V a)).ptrs = upd (s.v.blk (V a)).ptrs k 0 ∧
      Sh c O s s' V V (fun x => Z x ∧ x ≠ .sub a k) (fun _ => False) := by
  have hm := h.inMap hp.parent ha
  have hf := Conf.Ok.first_ge c
  have hr := h.range a hp.parent ha
  let v' := s.v.write (V a) ((s.v.blk (V a)).setPtr k 0)
  refine ⟨{ s with v := v' }, rfl, rfl, ?_, ?_⟩
  · show ((s.v.write (V a) _).blk (V a)).ptrs = _
    rw [write_blk, if_pos rfl]
    exact (FInv.setPtr_ptrs (h.kind a hp.parent ha) (FInv.lvl_pos hp.2.1) k 0).1
  have hqt : Qt c s.v v' := .write hc h.vol _ hm hN.2 (h.vol.branched_of hN.1 hN.2)
  have hbits : ∀ x, InMap c x → curBit c v' x = curBit c s.v x := fun x hx => curBit_write hc hm.1 hx
  have hblk : ∀ x, x ≠ V a → v'.blk x = s.v.blk x := by
    intro x hx; show (s.v.write _ _).blk x = _; rw [write_blk, if_neg hx]
  refine { inv := ?_, cnt := hcnt, fr := ?_, gone := fun _ _ h => h.elim, sub := fun _ _ h => h, keep := fun _ _ _ h => h, leaf := ?_, new := ?_, tot := Nat.le_refl _ }
  · refine h.clear hp hz (hqt.step.inv hc h.vol) rfl rfl ?_ (fun x h1 h2 => hbits x ⟨by omega, h2⟩) ?_ ?_ ?_ ?_
    · intro hd x hx
      obtain ⟨d1, d2, d3⟩ := h.dirty hd x hx
      have hxr := h.nb_range hc hx
      have hxm : InMap c x := ⟨hxr.1, by have := hc.fits; omega⟩
      refine ⟨?_, ?_, ?_⟩
      · show v'.blk x = _
        rw [hblk x (by omega)]; exact d1
      · show cmtBit c v' x = _
        rw [hqt.step.cbits hc hxm]; exact d2
      · show curBit c v' x = _
        rw [hbits x hxm]; exact d3
    · intro x h1 h2; exact hblk x (h2 a k rfl)
    · intro e he; cases he
    · intro _; rfl
    · intro a' k' e hn
      injection e with e1 e2; subst e1; subst e2
      show (s.v.write (V a) _).blk (V a) = _
      rw [write_blk, if_pos rfl]
  · refine { qt := hqt, ino := rfl, nodeBuf := rfl, dirty := rfl, dir := rfl, branched := rfl, size := rfl, mode := rfl, nlink := rfl,
             pinode := rfl, oth := ?_, tbits := ?_, tblk := ?_ }
    · intro x hx; exact hblk x (fun e => hr.2.2.2 (e ▸ hx))
    · intro x h1 h2; exact hbits x ⟨h1, by have := hc.fits; omega⟩
    · intro x h1 h2 h3; exact hblk x (by omega)
  · intro p hp' hl _
    refine ⟨rfl, fun hn => hblk _ (fun e => ?_)⟩
    have := h.inj _ _ hp' hp.parent hn e
    subst this; have := hp.2.1; omega
  · intro p hp' hn hN'
    have hm' := h.inMap hp' hn
    unfold NewB at *
    show curBit c v' _ = true ∧ cmtBit c v' _ = false
    rw [hbits _ hm', hqt.step.cbits hc hm']; exact hN'

/-- Entries `k`, ..., `k + n - 1` of the node at `a`. -/
def kids (a : Pos) (k n : Nat) : Pos → Prop := fun p => ∃ k', k ≤ k' ∧ k' < k + n ∧ p = .sub a k'

theorem truncIndirLoop_spec (hc : c.Ok) {a : Pos} (ha : PosOk c a) (hl : a.lvl c = 1) (fB : Bool) : ∀ (n k : Nat) (s : DS) (V : Pos → Nat) (Z : Pos → Prop),
    FInv c O s V Z → Cnt c s V → V a ≠ 0 → (∀ k', k ≤ k' → ¬ Z (.sub a k')) → (fB = true → NewB c s.v (V a)) →
    k + n ≤ c.indirEntries → a.first c + k + n ≤ c.dataBlocks →
    ∃ s' V', truncIndirLoop c (V a) fB n k s = (.ok (), s') ∧ CoEq s.ci s'.ci ∧ (∀ p, ¬ kids a k n p → V' p = V p) ∧
      Sh c O s s' V V' (fun p => Z p ∨ (fB = false ∧ kids a k n p)) (kids a k n) := by
  intro n
  induction n with
  | zero =>
    intro k s V Z h hcnt hn hz hN h1 h2
    have hk : ∀ p, ¬ kids a k 0 p := by rintro p ⟨k', h3, h4, _⟩; omega
    refine ⟨s, V, rfl, .refl _, fun _ _ => rfl, ?_⟩
    have e : (fun p => Z p ∨ (fB = false ∧ kids a k 0 p)) = Z := by
      funext p; simp [hk p]
    rw [e]
    exact (Sh.refl h hcnt).more (fun _ _ h => h.elim) (fun p _ hp => absurd hp (hk p))
  | succ n ih =>
    intro k s V Z h hcnt hn hz hN h1 h2
    have hpk : PosOk c (.sub a k) := ⟨ha, by omega, by omega⟩
    have hlk : (Pos.sub a k).lvl c = 0 := by simp only [Pos.lvl]; omega
    have hfk : (Pos.sub a k).first c = a.first c + k := by simp only [Pos.first]; rw [if_pos hl]; omega
    have hpe := leaf_eq hc hpk hlk
    rw [hfk] at hpe
    have hbk : a.first c + k < c.dataBlocks := by omega
    have hq : (s.v.blk (V a)).ptrs k = V (.sub a k) := by
      rw [h.sub a k hpk (hz k (Nat.le_refl _)), if_neg hn]
    unfold truncIndirLoop
    simp only [run_bind, run_get, hq]
    obtain ⟨s1, e1, hco1, hen1, hbl1, sh1⟩ := truncData_spec hc h hcnt hbk
    rw [← hpe] at e1 hbl1 sh1
    rw [e1]
    simp only
    have hane : a ≠ .sub a k := (sub_ne a k).symm
    have hVa : upV V (.sub a k) 0 a = V a := upV_ne _ _ hane
    have hN1 : fB = true → NewB c s1.v (V a) := by
      intro hb
      have := sh1.new a ha (by rw [hVa]; exact hn) (hN hb)
      rwa [hVa] at this
    -- the pointer
    have hclr : ∃ s2 Z2, onlyIf (fB = true ∧ V (.sub a k) ≠ 0) (liftV (setPtr (V a) k 0)) () s1 = (.ok (), s2) ∧ s2.ci = s1.ci ∧
        (fB = true → Z2 = Z) ∧ (fB = false → Z2 = fun x => Z x ∨ x = .sub a k) ∧ (fB = true → NewB c s2.v (V a)) ∧
        Sh c O s s2 V (upV V (.sub a k) 0) Z2 (fun x => x = .sub a k) := by
      by_cases hb : fB = true ∧ V (.sub a k) ≠ 0
      · rw [onlyIf_pos hb]
        obtain ⟨s2, e2, c2, _, sh2⟩ := clearPtr_spec hc sh1.inv sh1.cnt hpk (by rw [hVa]; exact hn) (by rw [hVa]; exact hN1 hb.1) (upV_self _ _ _)
        rw [hVa] at e2
        refine ⟨s2, Z, e2, c2, fun _ => rfl, (fun h => by rw [hb.1] at h; cases h), fun _ => ?_, ?_⟩
        · have := sh2.new a ha (by rw [hVa]; exact hn) (by rw [hVa]; exact hN1 hb.1)
          rwa [hVa] at this
        · refine ((sh1.trans hc sh2).reZ (fun p hp hZp => ?_) ?_).more (fun p _ hp => by simpa using hp) (fun p _ hp => Or.inl (Or.inl hp))
          · have : p ≠ .sub a k := by rintro rfl; exact hz k (Nat.le_refl _) hZp
            rw [upV_ne _ _ this]; exact h.zero p hp hZp
          · rintro p hp ⟨h3, h4⟩ h5
            rcases h3 with h3 | ⟨_, h3⟩
            · exact absurd h3 h5
            · exact absurd h3 h4
      · refine ⟨s1, if fB = true then Z else (fun x => Z x ∨ x = .sub a k), onlyIf_neg hb _ _ _, rfl, fun h => if_pos h,
          (fun h => if_neg (by rw [h]; simp)), hN1, ?_⟩
        refine sh1.reZ ?_ ?_
        · intro p hp hZp
          by_cases hpk' : p = .sub a k
          · subst hpk'; exact upV_self _ _ _
          · rw [upV_ne _ _ hpk']
            apply h.zero p hp
            cases hfb : fB
            · rw [hfb] at hZp; simp [hpk'] at hZp; exact hZp
            · rw [hfb] at hZp; simpa using hZp
        · intro p hp hZp hn2
          exfalso; apply hn2
          cases hfb : fB
          · simp only [Bool.false_eq_true, if_false]
            rcases hZp with h3 | ⟨_, h3⟩
            · exact Or.inl h3
            · exact Or.inr h3
          · simp only [if_true]
            rcases hZp with h3 | ⟨h3, _⟩
            · exact h3
            · exact absurd ⟨hfb, h3⟩ hb
    obtain ⟨s2, Z2, e2, c2, z1, z2, hN2, sh2⟩ := hclr
    rw [e2]
    simp only
    obtain ⟨s3, V3, e3, c3, v3, sh3⟩ := ih (k + 1) s2 (upV V (.sub a k) 0) Z2 sh2.inv sh2.cnt (by rw [hVa]; exact hn) (by
        intro k' hk' hZ
        have hne : (Pos.sub a k') ≠ .sub a k := by intro h; injection h with _ h; omega
        cases hfb : fB
        · rw [z2 hfb] at hZ
          rcases hZ with h3 | h3
          · exact hz k' (by omega) h3
          · exact hne h3
        · rw [z1 hfb] at hZ; exact hz k' (by omega) hZ) (by rw [hVa]; exact hN2) (by omega) (by omega)
    rw [hVa] at e3
    have hkid : ∀ p, kids a k (n + 1) p ↔ (p = .sub a k ∨ kids a (k + 1) n p) := by
      intro p; unfold kids
      constructor
      · rintro ⟨k', g1, g2, rfl⟩
        by_cases hk : k' = k
        · left; rw [hk]
        · right; exact ⟨k', by omega, by omega, rfl⟩
      · rintro (rfl | ⟨k', g1, g2, rfl⟩)
        · exact ⟨k, Nat.le_refl _, by omega, rfl⟩
        · exact ⟨k', by omega, by omega, rfl⟩
    refine ⟨s3, V3, e3, ?_, ?_, ?_⟩
    · have : CoEq s.ci s2.ci := by rw [c2]; exact hco1
      exact this.trans c3
    · intro p hp
      rw [hkid, not_or] at hp
      rw [v3 p hp.2, upV_ne _ _ hp.1]
    · have hg : (fun p => p = Pos.sub a k ∨ kids a (k + 1) n p) = kids a k (n + 1) := funext fun p => propext (hkid p).symm
      have := sh2.trans hc sh3
      rw [hg] at this
      have hZe : (fun p => Z p ∨ (fB = false ∧ kids a k (n + 1) p)) = (fun p => Z2 p ∨ (fB = false ∧ kids a (k + 1) n p)) := by
        funext p
        apply propext
        rw [hkid]
        cases hfb : fB
        · rw [z2 hfb]; simp [or_assoc]
        · rw [z1 hfb]; simp
      rw [hZe]; exact this

end RedFs
