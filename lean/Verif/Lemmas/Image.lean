import Verif.Spec.Image
import Verif.Props.Swap
import Verif.Lemmas.FsVol
import Verif.Lemmas.Read
set_option linter.unusedSimpArgs false
set_option linter.unusedVariables false
/-!
Reading back the bytes of a volume.
-/
namespace RedFs.Image
open RedFs Buffer Swap Bitmap

variable {c : Conf} {l : Layout} {b b' : Build} {ss : Nat}

theorem layout_ok (hc : c.Ok) (h1 : 128 ≤ ss) (h2 : ss ≤ c.blockSize) : (layout c ss).Ok := by
  obtain ⟨k, hk, _, e⟩ := hc.bs_pow
  refine ⟨?_, h1, h2, ?_⟩ <;> show _
  · show 128 ≤ c.blockSize; omega
  · show c.blockSize % 4 = 0
    rw [e, show k = 2 + (k - 2) by omega, Nat.pow_add]; simp

theorem layout_inodeEntries (c : Conf) (ss : Nat) : (layout c ss).inodeEntries = c.inodeEntries := by
  unfold Layout.inodeEntries Layout.oEntries Layout.oPInode Layout.oMode Layout.oTimes Conf.inodeEntries Conf.inodeHeader layout
  cases c.inodeBlocks <;> cases c.timestamps <;> cases c.posix <;> rfl

theorem layout_indirEntries (c : Conf) (ss : Nat) : (layout c ss).indirEntries = c.indirEntries := rfl

theorem entries_mem {a n e : Nat} (h : e < n) : (a + 4 * e, 4) ∈ entries a n := List.mem_map.2 ⟨e, List.mem_range.2 h, rfl⟩

/-- The members of an inode are numbers of the node. -/
theorem inode_fields (l : Layout) (hlink : l.link = true) :
    (16, 8) ∈ fields l .inode ∧ (l.inodeBlocks = true → (24, 4) ∈ fields l .inode) ∧ (l.oMode, 2) ∈ fields l .inode ∧
    (l.posix = true → (l.oMode + 2, 2) ∈ fields l .inode ∧ (l.oPInode, 4) ∈ fields l .inode) ∧
    ∀ e, e < l.inodeEntries → (l.oEntries + 4 * e, 4) ∈ fields l .inode := by
  refine ⟨by simp [fields], fun h => by simp [fields, h], ?_, fun h => ⟨?_, ?_⟩, fun e he => ?_⟩
  · simp [fields, Layout.oMode, Layout.oTimes]
  · simp [fields, Layout.oMode, Layout.oTimes, h, hlink]
  · simp [fields, Layout.oMode, Layout.oTimes, Layout.oPInode, h, hlink]
  · have hoff : l.oEntries = 24 + (if l.inodeBlocks then 4 else 0) + (if l.timestamps then 12 else 0) + (if l.posix then 8 else 4) := by
      unfold Layout.oEntries Layout.oPInode Layout.oMode Layout.oTimes
      cases l.posix <;> simp
    have := entries_mem (a := l.oEntries) he
    unfold Layout.inodeEntries at this
    rw [hoff] at this ⊢
    simp only [fields, List.mem_append]
    exact Or.inr this

/-- What the reader makes of an inode. -/
structure ReadsInode (l : Layout) (big : Bool) (g : Bytes) (n : InodeNode) : Prop where
  size : number big g 16 8 = n.size % 256 ^ 8
  blocks : l.inodeBlocks = true → number big g 24 4 = n.blocks % 256 ^ 4
  mode : number big g l.oMode 2 = n.mode % 256 ^ 2
  nlink : l.posix = true → number big g (l.oMode + 2) 2 = n.nlink % 256 ^ 2
  pinode : l.posix = true → number big g l.oPInode 4 = n.pinode % 256 ^ 4
  entries : ∀ e, e < l.inodeEntries → number big g (l.oEntries + 4 * e) 4 = n.entries e % 256 ^ 4

theorem read_inode (hl : l.Ok) (hlink : l.link = true) (ho : b.order = b'.order) {top : Nat} {n : InodeNode} {D : Bytes} (h : Written l b top (.inode n) D) :
    ∃ g, load l b' true top .inode D = some g ∧ ReadsInode l b'.big g n := by
  obtain ⟨f, seq, hf, hs, rfl⟩ := h
  obtain ⟨g, h1, ⟨h2, _⟩, _⟩ := Props.Swap.C48_read_back hl (k := .inode) trivial rfl b b' ho f seq true top (fun _ => hs)
  obtain ⟨m1, m2, m3, m4, m5⟩ := inode_fields l hlink
  exact ⟨g, h1, (h2 _ m1).symm.trans hf.size, fun h => (h2 _ (m2 h)).symm.trans (hf.blocks h), (h2 _ m3).symm.trans hf.mode,
    fun h => (h2 _ (m4 h).1).symm.trans (hf.nlink h), fun h => (h2 _ (m4 h).2).symm.trans (hf.pinode h), fun e he => (h2 _ (m5 e he)).symm.trans (hf.entries e he)⟩

theorem read_indir (hl : l.Ok) (ho : b.order = b'.order) {top o : Nat} {es : Nat → Nat} {D : Bytes} (h : Written l b top (.indir o es) D) (hh : l.indirs = true) :
    ∃ g, load l b' true top .indir D = some g ∧ ∀ k, k < l.indirEntries → number b'.big g (20 + 4 * k) 4 = es k % 256 ^ 4 := by
  obtain ⟨f, seq, hf, hs, rfl⟩ := h
  obtain ⟨g, h1, ⟨h2, _⟩, _⟩ := Props.Swap.C48_read_back hl (k := .indir) hh rfl b b' ho f seq true top (fun _ => hs)
  exact ⟨g, h1, fun k hk => (h2 (20 + 4 * k, 4) (List.mem_cons_of_mem _ (entries_mem hk))).symm.trans (hf k hk)⟩

theorem read_dindir (hl : l.Ok) (ho : b.order = b'.order) {top o : Nat} {es : Nat → Nat} {D : Bytes} (h : Written l b top (.dindir o es) D) (hh : l.dindirs = true) :
    ∃ g, load l b' true top .dindir D = some g ∧ ∀ k, k < l.indirEntries → number b'.big g (20 + 4 * k) 4 = es k % 256 ^ 4 := by
  obtain ⟨f, seq, hf, hs, rfl⟩ := h
  obtain ⟨g, h1, ⟨h2, _⟩, _⟩ := Props.Swap.C48_read_back hl (k := .dindir) hh rfl b b' ho f seq true top (fun _ => hs)
  exact ⟨g, h1, fun k hk => (h2 (20 + 4 * k, 4) (List.mem_cons_of_mem _ (entries_mem hk))).symm.trans (hf k hk)⟩

theorem read_imap (hl : l.Ok) (ho : b.order = b'.order) {top : Nat} {bits : Mem8} {D : Bytes} (h : Written l b top (.imap bits) D) :
    ∃ g, load l b' true top .imap D = some g ∧ ∀ k, 16 + k < l.bs → g (16 + k) = bits k := by
  obtain ⟨f, seq, hf, hs, rfl⟩ := h
  obtain ⟨g, h1, ⟨_, h2⟩, _⟩ := Props.Swap.C48_read_back hl (k := .imap) trivial rfl b b' ho f seq true top (fun _ => hs)
  exact ⟨g, h1, fun k hk => (h2 _ (by omega) hk (by rintro ⟨x, hx, _⟩; cases hx)).symm.trans (hf k hk)⟩

/-- What the reader makes of a metaroot. -/
structure ReadsRoot (l : Layout) (m m' : Metaroot) : Prop where
  seq : m'.seq = m.seq % 2 ^ 64
  freeBlocks : m'.freeBlocks = m.freeBlocks % 256 ^ 4
  freeInodes : l.posix = true → m'.freeInodes = m.freeInodes % 256 ^ 4
  allocNext : m'.allocNext = m.allocNext % 256 ^ 4
  entries : ∀ k, l.oNext + 4 + k < l.bs → m'.entries k = m.entries k

theorem root_metaroot (hl : l.Ok) (ho : b.order = b'.order) {img : Nat → Bytes} {x : Nat} {m : Metaroot} (h : WrittenRoot l b (.metaroot m) (img x)) :
    ∃ m', rootAt l b' img x = .metaroot m' ∧ ReadsRoot l m m' := by
  obtain ⟨f, hf, e⟩ := h
  obtain ⟨g, h1, ⟨h2, h3⟩, h4⟩ := Props.Swap.C48_metaroot_read_back hl b b' ho f (BitVec.ofNat 64 m.seq)
  unfold rootAt
  rw [e, h1]
  refine ⟨_, rfl, ?_, ?_, fun hp => ?_, ?_, fun k hk => ?_⟩
  · show number b'.big g 8 8 = _
    rw [h4, BitVec.toNat_ofNat]
  · exact (h2 (20, 4) (by unfold metarootFields; split <;> simp)).symm.trans hf.freeBlocks
  · show (if l.posix = true then _ else _) = _
    rw [if_pos hp]
    exact (h2 (24, 4) (by unfold metarootFields; rw [if_pos hp]; simp)).symm.trans (hf.freeInodes hp)
  · refine (h2 (l.oNext, 4) ?_).symm.trans hf.allocNext
    unfold metarootFields Layout.oNext
    cases l.posix <;> simp
  · show (if _ then _ else _) = _
    rw [if_pos hk]
    refine (h3 _ (by unfold Layout.oNext; omega) hk ?_).symm.trans (hf.entries k hk)
    rintro ⟨x, hx, h5, h6⟩
    unfold metarootFields at hx
    unfold Layout.oNext at h5 h6
    cases hp : l.posix
    all_goals
      simp only [hp, if_true, if_false, Bool.false_eq_true, List.mem_cons, List.mem_nil_iff, List.not_mem_nil, or_false] at hx h5 h6
    · rcases hx with rfl | rfl <;> simp only at h6 <;> omega
    · rcases hx with rfl | rfl | rfl <;> simp only at h6 <;> omega

theorem valid_order (hl : l.Ok) (ho : b.order = b'.order) (D : Bytes) : (metarootIsValid l b' D).1 = (metarootIsValid l b D).1 ∧ (metarootIsValid l b' D).2.1 = (metarootIsValid l b D).2.1 := by
  have hst : ∀ big : Bool, st 4 big D 16 (0#32) = fun i => if 16 ≤ i ∧ i < 20 then 0 else D i := by
    intro big; funext i
    unfold st
    by_cases hi : 16 ≤ i ∧ i < 16 + 4
    · rw [if_pos hi, if_pos (by omega)]
      unfold byteOf; simp
    · rw [if_neg hi, if_neg (by omega)]
  have h0 : ∀ a, rev32If b' (ld32 b'.big D a) = rev32If b (ld32 b.big D a) := by
    intro a
    apply BitVec.eq_of_toNat_eq
    rw [rev32If_ld, rev32If_ld, ho]
  have h4 : ∀ c : BitVec 32, ∀ g : Bytes, decide (rev32If b' c = ld32 b'.big g 4) = decide (rev32If b c = ld32 b.big g 4) := by
    intro c g
    have key : ∀ b : Build, (rev32If b c = ld32 b.big g 4) ↔ c.toNat = number b.order g 4 4 := by
      intro b
      rw [← rev32If_ld b g 4]
      unfold rev32If
      cases b.swap
      · simp [BitVec.toNat_inj]
      · simp only [if_true, BitVec.toNat_inj]
        constructor
        · intro h; rw [← h, Props.Util.C35_rev32_invol]
        · intro h; rw [h, Props.Util.C35_rev32_invol]
    exact decide_eq_decide.2 ((key b').trans ((by rw [ho] : _ ↔ _).trans (key b).symm))
  unfold metarootIsValid
  simp only [h0, hst, h4]
  exact ⟨trivial, trivial⟩

theorem rootAt_other (hl : l.Ok) (ho : b.order = b'.order) {img : Nat → Bytes} {x : Nat} {y : Blk} (h : WrittenRoot l b y (img x)) (hy : mrValid y = none) :
    mrValid (rootAt l b' img x) = none ∧ mrSectorOk (rootAt l b' img x) = mrSectorOk y := by
  have key : (metarootIsValid l b (img x)).1 = false ∧ (metarootIsValid l b (img x)).2.1 = mrSectorOk y := by
    cases y <;> first | exact h | cases hy
  obtain ⟨h1, h2⟩ := valid_order hl ho (img x)
  have : loadMetaroot l b' (img x) = none := by unfold loadMetaroot; rw [h1, key.1]; rfl
  unfold rootAt; rw [this]
  exact ⟨rfl, h2.trans key.2⟩

theorem rootAt_valid (hl : l.Ok) (ho : b.order = b'.order) {img : Nat → Bytes} {x : Nat} {y : Blk} (h : WrittenRoot l b y (img x)) {m : Metaroot} (hy : mrValid y = some m) :
    ∃ m', mrValid (rootAt l b' img x) = some m' ∧ ReadsRoot l m m' := by
  cases y with
  | metaroot m0 =>
    injection hy with hy; subst hy
    obtain ⟨m', h1, h2⟩ := root_metaroot hl ho h
    exact ⟨m', by rw [h1]; rfl, h2⟩
  | _ => cases hy

/-- The reader finds the metaroot in force. -/
theorem root_eq (hl : l.Ok) (ho : b.order = b'.order) {D : Nat → Blk} {m0 : Metaroot} {img : Nat → Bytes} (h : IsImage l b c D m0 img)
    (hseq : ∀ x m, x = 1 ∨ x = 2 → D x = .metaroot m → m.seq < 2 ^ 64) {k : Bool} {m : Metaroot} (hs : mrSelect c (D 1) (D 2) = some (k, m)) :
    ∃ m', root c l b' img = some (k, m') ∧ ReadsRoot l m m' ∧ m'.seq = m.seq := by
  have h1 := h.roots 1 (Or.inl rfl)
  have h2 := h.roots 2 (Or.inr rfl)
  have q : ∀ x y, x = 1 ∨ x = 2 → mrValid (D x) = some y → y.seq < 2 ^ 64 := by
    intro x y hx hy
    refine hseq x y hx ?_
    cases hd : D x <;> rw [hd] at hy <;> first | (cases hy; rfl) | cases hy
  unfold root mrSelect
  unfold mrSelect at hs
  cases e1 : mrValid (D 1) with
  | none =>
    obtain ⟨a1, a2⟩ := rootAt_other hl ho h1 e1
    rw [a1, a2]
    rw [e1] at hs
    cases e2 : mrValid (D 2) with
    | none => rw [e2] at hs; cases hs
    | some y2 =>
      obtain ⟨m2, b1, b2⟩ := rootAt_valid hl ho h2 e2
      rw [b1]; rw [e2] at hs
      simp only at hs ⊢
      split at hs
      · cases hs
      · rename_i hn
        rw [if_neg hn]
        injection hs with hs
        obtain ⟨rfl, rfl⟩ := Prod.mk.inj hs
        have := q 2 _ (Or.inr rfl) e2
        exact ⟨m2, rfl, b2, by rw [b2.seq, Nat.mod_eq_of_lt this]⟩
  | some y1 =>
    obtain ⟨m1, a1, a2⟩ := rootAt_valid hl ho h1 e1
    have l1 := q 1 _ (Or.inl rfl) e1
    rw [a1]; rw [e1] at hs
    cases e2 : mrValid (D 2) with
    | none =>
      obtain ⟨b1, b2⟩ := rootAt_other hl ho h2 e2
      rw [b1, b2]; rw [e2] at hs
      simp only at hs ⊢
      split at hs
      · cases hs
      · rename_i hn
        rw [if_neg hn]
        injection hs with hs
        obtain ⟨rfl, rfl⟩ := Prod.mk.inj hs
        exact ⟨m1, rfl, a2, by rw [a2.seq, Nat.mod_eq_of_lt l1]⟩
    | some y2 =>
      obtain ⟨m2, b1, b2⟩ := rootAt_valid hl ho h2 e2
      have l2 := q 2 _ (Or.inr rfl) e2
      rw [b1]; rw [e2] at hs
      have s1 : m1.seq = y1.seq := by rw [a2.seq, Nat.mod_eq_of_lt l1]
      have s2 : m2.seq = y2.seq := by rw [b2.seq, Nat.mod_eq_of_lt l2]
      simp only [s1, s2] at hs ⊢
      by_cases hlt : y1.seq < y2.seq
      · rw [if_pos hlt] at hs ⊢
        injection hs with hs
        obtain ⟨rfl, rfl⟩ := Prod.mk.inj hs
        exact ⟨m2, rfl, b2, s2⟩
      · rw [if_neg hlt] at hs ⊢
        injection hs with hs
        obtain ⟨rfl, rfl⟩ := Prod.mk.inj hs
        exact ⟨m1, rfl, a2, s1⟩

theorem bitGet_congr {f g : Mem8} {k : Nat} (h : f (k / 8) = g (k / 8)) : bitGet f k = bitGet g k := by
  unfold bitGet; rw [Nat.shiftRight_eq_div_pow]; rw [show 2 ^ 3 = 8 from rfl, h]

/-- A good state, and its bytes. -/
structure Setting (c : Conf) (ss : Nat) (b b' : Build) (D : Nat → Blk) (m m' : Metaroot) (img : Nat → Bytes) : Prop where
  ok : c.Ok
  lok : (layout c ss).Ok
  order : b.order = b'.order
  mr : MrOk c D m
  fs : FsOk c D (imapBit c D m) m.freeInodes
  img : IsImage (layout c ss) b c D m img
  root : ReadsRoot (layout c ss) m m'
  seq : m'.seq = m.seq

variable {D : Nat → Blk} {m m' : Metaroot} {img : Nat → Bytes}

theorem oNext_eq (c : Conf) (ss : Nat) : (layout c ss).oNext + 4 = 16 + if c.posix then 16 else 12 := by
  unfold Layout.oNext layout; cases c.posix <;> rfl

theorem Setting.nodeBlk (S : Setting c ss b b' D m m' img) {k : Nat} (hi : c.inline = false) (hk : k < c.nodeCount) : nodeBlk c m' k = nodeBlk c m k := by
  unfold RedFs.nodeBlk
  rw [bitGet_congr (g := m.entries)]
  apply S.root.entries
  have := S.ok.nodes hi
  have h2 := oNext_eq c ss
  unfold Conf.mrEntries at this
  show (layout c ss).oNext + 4 + k / 8 < c.blockSize
  omega

theorem Setting.used (S : Setting c ss b b' D m m' img) {x : Nat} (hx : InMap c x) : used c (layout c ss) b' img m' x = imapBit c D m x := by
  have hc := S.ok
  unfold Image.used imapBit
  cases hi : c.inline
  · simp only [Bool.false_eq_true, if_false]
    have hk := hc.node_lt hi hx.1 hx.2
    obtain ⟨bits, hb⟩ := S.mr.nodes hi _ hk
    rw [S.nodeBlk hi hk, hb]
    have hw := S.img.blocks (RedFs.nodeBlk c m ((x - c.tableStart) / c.imapEntries)) (Or.inl ⟨hi, _, hk, rfl⟩)
    rw [hb] at hw
    obtain ⟨g, h1, h2⟩ := read_imap S.lok S.order hw
    unfold node
    rw [S.seq, h1]
    have hlt := Nat.mod_lt (x - c.tableStart) (y := c.imapEntries) (by have := hc.imapE_pos; omega)
    refine bitGet_congr ?_
    have : 16 + (x - c.tableStart) % c.imapEntries / 8 < (layout c ss).bs := by
      show _ < c.blockSize
      unfold Conf.imapEntries at hlt
      unfold Conf.imapEntries
      omega
    rw [if_pos this, h2 _ this]
  · simp only [if_true]
    refine bitGet_congr ?_
    apply S.root.entries
    have h2 := oNext_eq c ss
    have hin : c.blockCount - 3 ≤ c.mrEntries := by unfold Conf.inline at hi; exact of_decide_eq_true hi
    have ht : c.tableStart = 3 := by unfold Conf.tableStart; rw [hi]; rfl
    unfold Conf.mrEntries at hin
    show (layout c ss).oNext + 4 + _ / 8 < c.blockSize
    have := hx.2
    have := hx.1
    have := hc.bs_ge
    cases hp : c.posix <;> rw [hp] at h2 hin <;> simp only [if_true, if_false, Bool.false_eq_true] at h2 hin <;> omega

theorem Setting.slot (S : Setting c ss b b' D m m' img) {i : Nat} (hi : c.inodeValid i = true) : slotOf c (Image.used c (layout c ss) b' img m') i = slotOf c (imapBit c D m) i := by
  have r := fun w => S.used (slot_inMap S.ok hi w)
  unfold slotOf
  rw [r, r]

/-- The inode that the reader sees. -/
structure SameInode (c : Conf) (n n' : InodeNode) : Prop where
  size : n'.size = n.size
  blocks : c.inodeBlocks = true → n'.blocks = n.blocks
  mode : n'.mode = n.mode
  nlink : c.posix = true → n'.nlink = n.nlink % 65536
  pinode : c.posix = true → n'.pinode = n.pinode % 4294967296
  entries : ∀ e, e < c.inodeEntries → n'.entries e = n.entries e

theorem data_lt (hc : c.Ok) : c.dataBlocks < 4294967296 ∧ c.sizeMax < 2 ^ 64 := by
  obtain ⟨k, k1, k2, e⟩ := hc.bs_pow
  have hb : c.blockSize ≤ 65536 := by rw [e]; exact Nat.pow_le_pow_right (by decide) k2
  have h1 : c.inodeEntries ≤ 16384 := by unfold Conf.inodeEntries; omega
  have h2 : c.indirEntries ≤ 16384 := by unfold Conf.indirEntries; omega
  have h3 := hc.ptrs
  have h4 : c.indirBlocks ≤ 16384 * 16384 := by
    unfold Conf.indirBlocks
    exact Nat.mul_le_mul (by omega) h2
  have h5 : c.dindirBlocks ≤ c.dindirBlocksMax := by
    unfold Conf.dindirBlocks
    split
    · exact Nat.le_refl _
    · rename_i hn
      unfold Conf.dindirPtrsMax at hn
      have : c.dindirPtrs ≤ c.dindirBlocksMax / c.dindirData := by split at hn <;> omega
      exact Nat.le_trans (Nat.mul_le_mul_right _ this) (Nat.div_mul_le_self _ _)
  have h6 : c.dataBlocks < 4294967296 := by
    unfold Conf.dataBlocks; unfold Conf.dindirBlocksMax at h5; omega
  refine ⟨h6, ?_⟩
  have : c.sizeMax ≤ 65536 * 4294967295 := by
    unfold Conf.sizeMax
    exact Nat.mul_le_mul hb (by omega)
  omega

theorem Setting.ptr_lt (S : Setting c ss b b' D m m' img) (i : Nat) {p : Pos} (hp : PosOk c p) : treeOf c D (imapBit c D m) i p < 256 ^ 4 := by
  have := S.ok.blocks_max
  by_cases h0 : treeOf c D (imapBit c D m) i p = 0
  · rw [h0]; decide
  · have := (S.fs.range i p hp h0).2.1
    show _ < 4294967296
    omega

theorem Setting.inode_none (S : Setting c ss b b' D m m' img) {i : Nat} (h : inodeAt c D (imapBit c D m) i = none) :
    Image.inode c (layout c ss) b' img m' i = none := by
  unfold Image.inode
  unfold inodeAt at h
  by_cases hv : c.inodeValid i = true
  · rw [if_pos hv] at h ⊢
    rw [S.slot hv]
    cases hs : slotOf c (imapBit c D m) i with
    | none => rfl
    | some x =>
      rw [hs] at h
      exfalso
      have : ∃ w, imapBit c D m (slotBlk c i w) = true ∧ x = slotBlk c i w := by
        unfold slotOf at hs
        split at hs
        · rename_i h1; injection hs with hs; exact ⟨false, h1, hs.symm⟩
        · split at hs
          · rename_i h1; injection hs with hs; exact ⟨true, h1, hs.symm⟩
          · cases hs
      obtain ⟨w, h1, rfl⟩ := this
      obtain ⟨n, hn⟩ := S.fs.live i w hv h1
      simp only [hn] at h
      cases h
  · rw [if_neg hv]

theorem Setting.inode (S : Setting c ss b b' D m m' img) {i : Nat} {n : InodeNode} (h : inodeAt c D (imapBit c D m) i = some n) :
    ∃ n', Image.inode c (layout c ss) b' img m' i = some n' ∧ SameInode c n n' := by
  have hv := inodeAt_valid h
  obtain ⟨q1, q2, q3, q4⟩ := S.fs.node i n h
  obtain ⟨d1, d2⟩ := data_lt S.ok
  have hent : ∀ e, e < c.inodeEntries → n.entries e < 256 ^ 4 := by
    intro e he
    have := S.ptr_lt i (p := .ent e) he
    unfold treeOf ptr entryOf at this
    rw [h] at this
    exact this
  unfold Image.inode
  rw [if_pos hv, S.slot hv]
  unfold inodeAt at h
  rw [if_pos hv] at h
  cases hs : slotOf c (imapBit c D m) i with
  | none => rw [hs] at h; cases h
  | some x =>
    rw [hs] at h
    simp only at h ⊢
    have hD : D x = .inode n := by
      split at h
      · rename_i e; rw [e]; injection h with h; rw [h]
      · cases h
    have hx : InState c D m x := by
      unfold slotOf at hs
      split at hs
      · rename_i hb; injection hs with hs; subst hs; exact Or.inr ⟨slot_inMap S.ok hv false, hb⟩
      · split at hs
        · rename_i hb; injection hs with hs; subst hs; exact Or.inr ⟨slot_inMap S.ok hv true, hb⟩
        · cases hs
    have hw := S.img.blocks x hx
    rw [hD] at hw
    obtain ⟨g, h1, r⟩ := read_inode S.lok rfl S.order hw
    unfold node
    rw [S.seq, h1]
    refine ⟨_, rfl, ?_, fun hib => ?_, ?_, fun hp => ?_, fun hp => ?_, fun e he => ?_⟩
    · show number b'.big g 16 8 = n.size
      rw [r.size]; exact Nat.mod_eq_of_lt (show n.size < 2 ^ 64 by omega)
    · show (if (layout c ss).inodeBlocks = true then _ else _) = _
      rw [if_pos (show (layout c ss).inodeBlocks = true from hib), r.blocks hib]
      refine Nat.mod_eq_of_lt (show n.blocks < 4294967296 from ?_)
      rw [q4 hib]
      have := countIn_le (fun b => decide (treeOf c D (imapBit c D m) i (posOf c b) ≠ 0)) 0 c.dataBlocks
      omega
    · show number b'.big g _ 2 = n.mode
      rw [r.mode]
      refine Nat.mod_eq_of_lt (show n.mode < 65536 from ?_)
      rcases q1 with q | q <;> rw [q] <;> decide
    · show (if (layout c ss).posix = true then _ else _) = _
      rw [if_pos (show (layout c ss).posix = true from hp)]; exact r.nlink hp
    · show (if (layout c ss).posix = true then _ else _) = _
      rw [if_pos (show (layout c ss).posix = true from hp)]; exact r.pinode hp
    · show number b'.big g _ 4 = n.entries e
      rw [r.entries e (by rw [layout_inodeEntries]; exact he), Nat.mod_eq_of_lt (hent e he)]

theorem direct_lt {p : Pos} (hp : PosOk c p) (hl : 0 < p.lvl c) : c.direct < c.inodeEntries := by
  induction p with
  | ent e =>
    have he : e < c.inodeEntries := hp
    simp only [Pos.lvl, Conf.height] at hl
    split at hl <;> omega
  | sub p k ih => exact ih hp.1 hp.2.1

theorem dindir_pos {p : Pos} (hp : PosOk c p) (hl : p.lvl c = 2) : 0 < c.dindirPtrs := by
  cases p with
  | ent e =>
    have he : e < c.inodeEntries := hp
    simp only [Pos.lvl, Conf.height] at hl
    unfold Conf.dindirPtrs
    split at hl
    · omega
    · split at hl <;> omega
  | sub p k => simp only [Pos.lvl] at hl; have := FInv.lvl_le (c := c) p; omega

theorem Setting.tree (S : Setting c ss b b' D m m' img) (i : Nat) : ∀ p, PosOk c p →
    Image.tree c (layout c ss) b' img m' i p = treeOf c D (imapBit c D m) i p := by
  intro p
  induction p with
  | ent e =>
    intro he
    show entryOf (Image.inode c (layout c ss) b' img m') i e = entryOf (inodeAt c D (imapBit c D m)) i e
    unfold entryOf
    cases hn : inodeAt c D (imapBit c D m) i with
    | none => rw [S.inode_none hn]
    | some n =>
      obtain ⟨n', h1, h2⟩ := S.inode hn
      rw [h1]; exact h2.entries e he
  | sub p k ih =>
    intro hp
    have hlt := S.ptr_lt i hp
    have e0 : treeOf c D (imapBit c D m) i (.sub p k) = if treeOf c D (imapBit c D m) i p = 0 then 0 else (D (treeOf c D (imapBit c D m) i p)).ptrs k := rfl
    rw [Image.tree, ih hp.1, e0]
    rw [e0] at hlt
    by_cases h0 : treeOf c D (imapBit c D m) i p = 0
    · rw [if_pos h0, if_pos h0]
    · rw [if_neg h0] at hlt
      rw [if_neg h0, if_neg h0]
      have hk := (S.fs.kind i p hp.1 h0).1
      have hx : InState c D m (treeOf c D (imapBit c D m) i p) := by
        obtain ⟨r1, r2, r3⟩ := S.fs.range i _ hp.1 h0
        have := Conf.Ok.first_ge c
        exact Or.inr ⟨⟨by omega, r2⟩, r3⟩
      have hw := S.img.blocks _ hx
      have hkk : k < (layout c ss).indirEntries := hp.2.2
      rcases FInv.lvl_pos hp.2.1 with hl | hl
      · have hv := hk.1 hl
        rw [if_neg (by omega)]
        cases hd : D (treeOf c D (imapBit c D m) i p) <;> rw [hd] at hv <;> try cases hv
        rw [hd] at hw hlt
        obtain ⟨g, h1, r⟩ := read_indir S.lok S.order hw (decide_eq_true (direct_lt hp.1 hp.2.1))
        unfold node
        rw [S.seq, h1]
        exact (r k hkk).trans (Nat.mod_eq_of_lt hlt)
      · have hv := hk.2 hl
        rw [if_pos hl]
        cases hd : D (treeOf c D (imapBit c D m) i p) <;> rw [hd] at hv <;> try cases hv
        rw [hd] at hw hlt
        obtain ⟨g, h1, r⟩ := read_dindir S.lok S.order hw (decide_eq_true (dindir_pos hp.1 hl))
        unfold node
        rw [S.seq, h1]
        exact (r k hkk).trans (Nat.mod_eq_of_lt hlt)

theorem Setting.byte (S : Setting c ss b b' D m m' img) (i : Nat) {off : Nat} (ho : off < c.sizeMax) :
    Image.byte c (layout c ss) b' img m' i off = byteAt c D (treeOf c D (imapBit c D m) i) off := by
  obtain ⟨p1, p2, _⟩ := posOf_ok S.ok (div_lt_data S.ok ho)
  unfold Image.byte byteAt cont
  rw [S.tree i _ p1]
  by_cases h0 : treeOf c D (imapBit c D m) i (posOf c (off / c.blockSize)) = 0
  · rw [if_pos h0, if_pos h0]
  · rw [if_neg h0, if_neg h0]
    have hk := (S.fs.kind i _ p1 h0).2 p2
    have hx : InState c D m (treeOf c D (imapBit c D m) i (posOf c (off / c.blockSize))) := by
      obtain ⟨r1, r2, r3⟩ := S.fs.range i _ p1 h0
      have := Conf.Ok.first_ge c
      exact Or.inr ⟨⟨by omega, r2⟩, r3⟩
    have hw := S.img.blocks _ hx
    cases hd : D (treeOf c D (imapBit c D m) i (posOf c (off / c.blockSize))) <;> rw [hd] at hk <;> try cases hk
    rw [hd] at hw
    exact hw _ (Nat.mod_lt _ (bs_pos S.ok))

/-- Link counts and the parents of directories fit their members. -/
theorem links_fit (hc : c.Ok) {F : Files} (hv : ∀ i f, F i = some f → c.inodeValid i = true) (h : NsOk c F) {i : Nat} {f : AFile} (hf : F i = some f) :
    f.nlink < 65536 ∧ (f.mode = modeDir → f.parent < 4294967296) := by
  have hn : (graphOf c F).node i = some ⟨decide (f.mode = modeDir), f.nlink, f.parent⟩ := by
    show (F i).map _ = _; rw [hf]; rfl
  by_cases hi : i = 2
  · subst hi
    have := h.graph.root
    rw [hn] at this
    injection this with this
    injection this with _ e1 e2
    rw [e1, e2]; exact ⟨by decide, fun _ => by decide⟩
  · obtain ⟨h1, _, h3⟩ := h.graph.nlink i _ hn hi
    refine ⟨by show f.nlink < 65536; exact Nat.lt_succ_of_le h3, fun hd => ?_⟩
    have h4 := h.graph.one i _ hn (decide_eq_true hd)
    obtain ⟨L, _, hm, hl⟩ := h1
    have h4' : f.nlink = 1 := h4
    have hl' : L.length = 1 := hl.trans h4'
    cases L with
    | nil => cases hl'
    | cons x L =>
      have hr : (graphOf c F).Ref i x := (hm x).1 (List.mem_cons_self ..)
      have hp := h.graph.parent x.1 x.2 i _ hr hn (decide_eq_true hd)
      have hp' : f.parent = x.1 := hp
      obtain ⟨nd, hnd, _⟩ := h.graph.from_ x.1 x.2 i hr
      have : ∃ g, F x.1 = some g := by
        have hnd' : (F x.1).map _ = some nd := hnd
        cases hg : F x.1 with
        | none => rw [hg] at hnd'; cases hnd'
        | some g => exact ⟨g, rfl⟩
      obtain ⟨g, hg⟩ := this
      have hval := hv _ _ hg
      unfold Conf.inodeValid at hval
      simp only [Bool.and_eq_true, decide_eq_true_eq] at hval
      have := hc.fits; have := hc.blocks_max
      unfold Conf.firstAlloc at *
      omega

theorem Setting.file (S : Setting c ss b b' D m m' img) (hns : c.posix = true → NsOk c (stFiles c D m)) (i : Nat) :
    SameOpt c (Image.file c (layout c ss) b' img m' i) (stFiles c D m i) := by
  unfold Image.file stFiles
  rw [fileOf_eq]
  cases hn : inodeAt c D (imapBit c D m) i with
  | none => rw [S.inode_none hn]; trivial
  | some n =>
    obtain ⟨n', h1, h2⟩ := S.inode hn
    rw [h1]
    have hsz := (S.fs.node i n hn).2.1
    refine ⟨h2.mode, h2.size, ?_, fun hp => ?_⟩
    · funext off
      show (if off < n'.size then _ else _) = if off < n.size then _ else _
      rw [h2.size]
      by_cases ho : off < n.size
      · rw [if_pos ho, if_pos ho]; exact S.byte i (by omega)
      · rw [if_neg ho, if_neg ho]
    · have hf : stFiles c D m i = some ⟨n.mode, n.nlink, n.pinode, n.size, fun off => if off < n.size then byteAt c D (treeOf c D (imapBit c D m) i) off else 0⟩ := by
        unfold stFiles; rw [fileOf_eq, hn]; rfl
      have hv : ∀ j f, stFiles c D m j = some f → c.inodeValid j = true := by
        intro j f hj
        unfold stFiles fileOf at hj
        cases hx : inodeAt c D (imapBit c D m) j with
        | none => rw [hx] at hj; cases hj
        | some x => exact inodeAt_valid hx
      obtain ⟨l1, l2⟩ := links_fit S.ok hv (hns hp) hf
      refine ⟨?_, fun hd => ?_⟩
      · show n'.nlink = n.nlink
        rw [h2.nlink hp]; exact Nat.mod_eq_of_lt l1
      · show n'.pinode = n.pinode
        rw [h2.pinode hp]; exact Nat.mod_eq_of_lt (l2 hd)

end RedFs.Image
