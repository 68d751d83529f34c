import Verif.Lemmas.Swap
/-!
C48: a volume can be moved between computers of different byte order.  `Build.order` is the byte order on the device: that of the processor, or the opposite one if
`REDCONF_ENDIAN_SWAP` is defined.  Two builds with the same order on the device write the same bytes and read the same values, whatever their processors; a build with the
other order does not accept the nodes at all.
-/
set_option linter.unusedVariables false
set_option linter.unusedSimpArgs false
namespace RedFs.Props.Swap
open RedFs RedFs.Buffer RedFs.Swap

variable {l : Layout} {k : Kind} {sg : BitVec 32}

theorem all_sorted (hl : l.Ok) (k : Kind) : Sorted 0 (header ++ fields l k) l.bs := by
  refine Sorted.append (b := 16) ?_ (fields_sorted l hl k)
  simp only [header, Sorted]; omega

theorem not_field (hl : l.Ok) {i : Nat} (hi : i < 16) : ¬ InField (fields l k) i := by
  rintro ⟨x, hx, h1, h2⟩
  have := (fields_sorted l hl k).le x hx; omega

theorem not_all {i : Nat} (hi : 16 ≤ i) (h : ¬ InField (fields l k) i) : ¬ InField (header ++ fields l k) i := by
  rintro ⟨x, hx, h1, h2⟩
  rcases List.mem_append.1 hx with hx | hx
  · simp only [header, List.mem_cons, List.not_mem_nil, or_false] at hx
    rcases hx with rfl | rfl | rfl <;> simp only at h1 h2 <;> omega
  · exact h ⟨x, hx, h1, h2⟩

/-- What a node on a device of byte order `o` is: the header, and the numbers and single bytes of the node `f` of a computer of byte order `big`. -/
structure DiskNode (l : Layout) (k : Kind) (sg : BitVec 32) (seq : BitVec 64) (o big : Bool) (f D : Bytes) : Prop where
  sig : number o D 0 4 = sg.toNat
  crc : number o D 4 4 = (nodeCrc l.bs D).toNat
  seq : number o D 8 8 = seq.toNat
  fld : ∀ x ∈ fields l k, number o D x.1 x.2 = number big f x.1 x.2
  oth : ∀ i, 16 ≤ i → i < l.bs → ¬ InField (fields l k) i → D i = f i

theorem swapIf_eq (b : Build) (hk : Has l k) (f : Bytes) : swapIf l b k f = if b.swap then flips (header ++ fields l k) f else f := by
  unfold swapIf
  split
  · exact swapNode_eq l b.big k hk f
  · rfl

theorem finalize_disk (hl : l.Ok) (hk : Has l k) (b : Build) (seq : BitVec 64) (f : Bytes) : DiskNode l k sg seq b.order b.big f (finalize l b k sg seq f) := by
  have hs := all_sorted hl k
  have F : ∀ x ∈ header ++ fields l k, ∀ g, number b.order (swapIf l b k g) x.1 x.2 = number b.big g x.1 x.2 := by
    intro x hx g
    rw [swapIf_eq b hk]; exact (number_flips b hs g hx).1
  have far : ∀ x ∈ fields l k, 16 ≤ x.1 := fun x hx => ((fields_sorted l hl k).le x hx).1
  refine ⟨?_, ?_, ?_, ?_, ?_⟩
  · unfold Swap.finalize
    simp only
    rw [number_st_other _ _ _ _ _ _ _ _ (by omega), F (0, 4) (by simp [header]), number_st_other _ _ _ _ _ _ _ _ (by omega), number_st _ _ _ _ _ (by omega)]
  · unfold Swap.finalize
    simp only
    rw [number_st_rev32If]
    congr 1
    exact nodeCrc_congr fun i h1 h2 => (st_other _ _ _ _ _ _ (by omega)).symm
  · unfold Swap.finalize
    simp only
    rw [number_st_other _ _ _ _ _ _ _ _ (by omega), F (8, 8) (by simp [header]), number_st _ _ _ _ _ (by omega)]
  · intro x hx
    have := far x hx
    unfold Swap.finalize
    simp only
    rw [number_st_other _ _ _ _ _ _ _ _ (by omega), F x (List.mem_append_right _ hx), number_st_other _ _ _ _ _ _ _ _ (by omega),
      number_st_other _ _ _ _ _ _ _ _ (by omega)]
  · intro i h1 h2 h3
    unfold Swap.finalize
    rw [st_other _ _ _ _ _ _ (by omega), swapIf_eq b hk, other_flips b hs _ (not_all h1 h3), st_other _ _ _ _ _ _ (by omega), st_other _ _ _ _ _ _ (by omega)]

/-- The header and the contents determine all bytes. -/
theorem DiskNode.unique {seq : BitVec 64} {o big big' : Bool} {f f' D D' : Bytes} (h : DiskNode l k sg seq o big f D) (h' : DiskNode l k sg seq o big' f' D')
    (hf : SameNode l (fields l k) 16 big f big' f') : ∀ i, i < l.bs → D i = D' i := by
  have body : ∀ i, 8 ≤ i → i < l.bs → D i = D' i := by
    intro i h1 h2
    by_cases h16 : i < 16
    · have := number_inj o (h.seq.trans h'.seq.symm) (i - 8) (by omega)
      rwa [show 8 + (i - 8) = i by omega] at this
    · by_cases hi : InField (fields l k) i
      · obtain ⟨x, hx, g1, g2⟩ := hi
        have := number_inj o ((h.fld x hx).trans ((hf.1 x hx).trans (h'.fld x hx).symm)) (i - x.1) (by omega)
        rwa [show x.1 + (i - x.1) = i by omega] at this
      · rw [h.oth i (by omega) h2 hi, h'.oth i (by omega) h2 hi]
        exact hf.2 i (by omega) h2 hi
  intro i hi
  by_cases h4 : i < 4
  · have := number_inj o (h.sig.trans h'.sig.symm) i h4
    rwa [Nat.zero_add] at this
  · by_cases h8 : i < 8
    · have hc : nodeCrc l.bs D = nodeCrc l.bs D' := nodeCrc_congr body
      have := number_inj o (h.crc.trans ((congrArg _ hc).trans h'.crc.symm)) (i - 4) (by omega)
      rwa [show 4 + (i - 4) = i by omega] at this
    · exact body i (by omega) hi

theorem isValid_iff (b : Build) (m : Bool) (q : Nat) (hk : k.sig = some sg) (D : Bytes) :
    Swap.isValid l b m q k D = true ↔ number b.order D 0 4 = sg.toNat ∧ number b.order D 4 4 = (nodeCrc l.bs D).toNat ∧ (m = true → number b.order D 8 8 < q) := by
  unfold Swap.isValid
  rw [hk]
  simp only [Bool.and_eq_true, decide_eq_true_eq, Bool.not_eq_true', Bool.and_eq_false_iff, decide_eq_false_iff_not, ← rev32If_ld, ← rev64If_ld, BitVec.toNat_inj, Nat.not_le]
  cases m <;> simp [and_assoc]

/-- **C48** Whatever the processors are: if the byte order on the device is the same, then two computers write the same node in the same bytes. -/
theorem C48_same_bytes (hl : l.Ok) (hk : Has l k) (hs : k.sig = some sg) (b b' : Build) (ho : b.order = b'.order) (f f' : Bytes)
    (hf : SameNode l (fields l k) 16 b.big f b'.big f') (seq : BitVec 64) (i : Nat) (hi : i < l.bs) :
    finalize l b k sg seq f i = finalize l b' k sg seq f' i :=
  (finalize_disk hl hk b seq f).unique (ho ▸ finalize_disk hl hk b' seq f') hf i hi

/-- **C48** Every computer with the same byte order on the device reads what was written: the same signature, sequence number, numbers and bytes. -/
theorem C48_read_back (hl : l.Ok) (hk : Has l k) (hs : k.sig = some sg) (b b' : Build) (ho : b.order = b'.order) (f : Bytes) (seq : BitVec 64) (mounted : Bool) (q : Nat)
    (hq : mounted = true → seq.toNat < q) :
    ∃ g, load l b' mounted q k (finalize l b k sg seq f) = some g ∧ SameNode l (fields l k) 16 b.big f b'.big g ∧
      number b'.big g 0 4 = sg.toNat ∧ number b'.big g 8 8 = seq.toNat := by
  have hd := finalize_disk (sg := sg) hl hk b seq f
  rw [ho] at hd
  have hv : Swap.isValid l b' mounted q k (finalize l b k sg seq f) = true := (isValid_iff b' _ _ hs _).2 ⟨hd.sig, hd.crc, fun hm => by rw [hd.seq]; exact hq hm⟩
  have F : ∀ x ∈ header ++ fields l k, number b'.big (swapIf l b' k (finalize l b k sg seq f)) x.1 x.2 = number b'.order (finalize l b k sg seq f) x.1 x.2 := by
    intro x hx
    rw [swapIf_eq b' hk]; exact (number_flips b' (all_sorted hl k) _ hx).2
  refine ⟨swapIf l b' k (finalize l b k sg seq f), ?_, ⟨?_, ?_⟩, ?_, ?_⟩
  · unfold load; rw [hv]; simp
  · intro x hx
    rw [F x (List.mem_append_right _ hx), hd.fld x hx]
  · intro i h1 h2 h3
    rw [swapIf_eq b' hk, other_flips b' (all_sorted hl k) _ (not_all h1 h3), hd.oth i h1 h2 h3]
  · rw [F (0, 4) (by simp [header]), hd.sig]
  · rw [F (8, 8) (by simp [header]), hd.seq]

/-- **C48** Writing a buffer does not change the node in it: it is swapped for the device and swapped back. -/
theorem C48_buffer_kept (hl : l.Ok) (hk : Has l k) (b : Build) (f : Bytes) (seq : BitVec 64) (i : Nat) (h1 : 16 ≤ i) (h2 : i < l.bs) :
    written l b k (finalize l b k sg seq f) i = f i := by
  have hd := finalize_disk (sg := sg) hl hk b seq f
  unfold written
  by_cases hi : InField (fields l k) i
  · obtain ⟨x, hx, g1, g2⟩ := hi
    have : number b.big (swapIf l b k (finalize l b k sg seq f)) x.1 x.2 = number b.big f x.1 x.2 := by
      rw [swapIf_eq b hk, (number_flips b (all_sorted hl k) _ (List.mem_append_right _ hx)).2, hd.fld x hx]
    have := number_inj _ this (i - x.1) (by omega)
    rwa [show x.1 + (i - x.1) = i by omega] at this
  · rw [swapIf_eq b hk, other_flips b (all_sorted hl k) _ (not_all h1 hi), hd.oth i h1 h2 hi]

/-- **C48** Computers with the same byte order on the device accept the same blocks. -/
theorem C48_same_verdict (b b' : Build) (ho : b.order = b'.order) (mounted : Bool) (q : Nat) (k : Kind) (D : Bytes) :
    Swap.isValid l b mounted q k D = Swap.isValid l b' mounted q k D := by
  cases hs : k.sig with
  | none => unfold Swap.isValid; rw [hs]
  | some sg =>
    rw [Bool.eq_iff_iff, isValid_iff b _ _ hs, isValid_iff b' _ _ hs, ho]

/-- The number with the bytes of a 32-bit number in the other order. -/
theorem number_other (o : Bool) (D : Bytes) (a : Nat) (x : BitVec 32) (h : number o D a 4 = x.toNat) : number (!o) D a 4 = (Endian.rev32 x).toNat := by
  have hb : ∀ j, j < 4 → D (a + j) = byteOf o 4 x j := by
    intro j hj
    have hx := number_st o 4 x (fun _ => 0) a (by omega)
    have := number_inj o (h.trans hx.symm) j hj
    rw [this]; unfold st; rw [if_pos (by omega), Nat.add_sub_cancel_left]
  refine number_bytes _ 4 _ (by omega) fun j hj => ?_
  rw [hb j hj, byteOf_rev32 _ _ _ hj, Bool.not_not]

/-- **C48** A computer with the other byte order on the device does not take the node for a node of any kind: no number is misread. -/
theorem C48_other_order (hl : l.Ok) (hk : Has l k) (hs : k.sig = some sg) (b b' : Build) (ho : b.order ≠ b'.order) (f : Bytes) (seq : BitVec 64) (mounted : Bool) (q : Nat)
    (k' : Kind) (hk' : k' ≠ .data) : load l b' mounted q k' (finalize l b k sg seq f) = none := by
  have hd := finalize_disk (sg := sg) hl hk b seq f
  obtain ⟨sg', hs'⟩ : ∃ sg', k'.sig = some sg' := by cases k' <;> simp [Kind.sig] at hk' ⊢
  have hv : Swap.isValid l b' mounted q k' (finalize l b k sg seq f) = false := by
    rw [← Bool.not_eq_true, isValid_iff b' _ _ hs']
    rintro ⟨h1, _⟩
    have h2 := number_other b.order _ 0 _ hd.sig
    have hb : (!b.order) = b'.order := by
      revert ho; cases b.order <;> cases b'.order <;> simp
    rw [hb, h1] at h2
    have h3 : sg' = Endian.rev32 sg := BitVec.eq_of_toNat_eq h2
    revert h3
    cases k <;> simp only [Kind.sig, Option.some.injEq, reduceCtorEq] at hs <;> subst hs <;>
      cases k' <;> simp only [Kind.sig, Option.some.injEq, reduceCtorEq] at hs' <;> subst hs' <;> decide
  unfold load
  rw [if_pos ⟨hk', hv⟩]

/-! ### Metaroots -/

def mrAll (l : Layout) : List (Nat × Nat) := [(0, 4), (8, 8), (16, 4)] ++ metarootFields l

theorem mr_sorted (hl : l.Ok) : Sorted 0 (mrAll l) l.bs := by
  refine Sorted.append (b := 20) ?_ (metarootFields_sorted l hl)
  simp only [Sorted]; omega

theorem mr_not_all {i : Nat} (hi : 20 ≤ i) (h : ¬ InField (metarootFields l) i) : ¬ InField (mrAll l) i := by
  rintro ⟨x, hx, h1, h2⟩
  rcases List.mem_append.1 hx with hx | hx
  · simp only [List.mem_cons, List.not_mem_nil, or_false] at hx
    rcases hx with rfl | rfl | rfl <;> simp only at h1 h2 <;> omega
  · exact h ⟨x, hx, h1, h2⟩

theorem swapMetarootIf_eq (b : Build) (f : Bytes) : swapMetarootIf l b f = if b.swap then flips (mrAll l) f else f := by
  unfold swapMetarootIf
  split
  · exact swapMetaroot_eq l b.big f
  · rfl

/-- The bytes over which the CRC of the first sector is computed: those after the CRC of the node, with the CRC of the sector cleared. -/
def sectorBytes (l : Layout) (D : Bytes) : List Byte := range (fun i => if 16 ≤ i ∧ i < 20 then 0 else D i) 8 l.ss
def restBytes (l : Layout) (D : Bytes) : List Byte := range D l.ss l.bs
def sectorCrc (l : Layout) (D : Bytes) : BitVec 32 := Crc.crcBitwise 0#32 (sectorBytes l D)
def metaCrc (l : Layout) (D : Bytes) : BitVec 32 := Crc.crcBitwise (sectorCrc l D) (restBytes l D)

theorem range_congr {f g : Bytes} {a z : Nat} (h : ∀ i, a ≤ i → i < z → f i = g i) : range f a z = range g a z := by
  unfold range
  apply List.map_congr_left
  intro i hi
  rw [List.mem_range'_1] at hi
  exact h i hi.1 (by omega)

theorem range_nil (f : Bytes) (a : Nat) : range f a a = [] := by unfold range; rw [Nat.sub_self]; rfl

theorem crc_nil (c : BitVec 32) : Crc.crcBitwise c [] = c := by unfold Crc.crcBitwise; simp

/-- What a metaroot on a device of byte order `o` is. -/
structure DiskMeta (l : Layout) (seq : BitVec 64) (o big : Bool) (f D : Bytes) : Prop where
  sig : number o D 0 4 = sigMetaroot.toNat
  crc : number o D 4 4 = (metaCrc l D).toNat
  seq : number o D 8 8 = seq.toNat
  sector : number o D 16 4 = (sectorCrc l D).toNat
  fld : ∀ x ∈ metarootFields l, number o D x.1 x.2 = number big f x.1 x.2
  oth : ∀ i, 20 ≤ i → i < l.bs → ¬ InField (metarootFields l) i → D i = f i

theorem st_zero (big : Bool) (f : Bytes) (a i : Nat) (h : a ≤ i ∧ i < a + 4) : st 4 big f a (0#32) i = 0 := by
  unfold st byteOf; rw [if_pos h]; simp

theorem finalize_meta (hl : l.Ok) (b : Build) (seq : BitVec 64) (f : Bytes) : DiskMeta l seq b.order b.big f (finalizeMetaroot l b seq f) := by
  have hs := mr_sorted hl
  have hss := hl.ss
  have hbs := hl.bs
  have hle := hl.le
  have F : ∀ x ∈ mrAll l, ∀ g, number b.order (swapMetarootIf l b g) x.1 x.2 = number b.big g x.1 x.2 := by
    intro x hx g
    rw [swapMetarootIf_eq]; exact (number_flips b hs g hx).1
  have far : ∀ x ∈ metarootFields l, 20 ≤ x.1 := fun x hx => ((metarootFields_sorted l hl).le x hx).1
  unfold finalizeMetaroot
  simp only
  generalize hG : swapMetarootIf l b (st 8 b.big (st 4 b.big f 0 sigMetaroot) 8 seq) = G
  have hG1 : ∀ x ∈ mrAll l, number b.order G x.1 x.2 = number b.big (st 8 b.big (st 4 b.big f 0 sigMetaroot) 8 seq) x.1 x.2 := fun x hx => by rw [← hG]; exact F x hx _
  generalize hc : Crc.crcBitwise 0#32 (range (st 4 b.big G 16 (0#32)) 8 l.ss) = c
  have hd : (if l.ss < l.bs then Crc.crcBitwise c (range (st 4 b.big G 16 (0#32)) l.ss l.bs) else c) = Crc.crcBitwise c (range (st 4 b.big G 16 (0#32)) l.ss l.bs) := by
    by_cases h : l.ss < l.bs
    · rw [if_pos h]
    · rw [if_neg h, show l.ss = l.bs by omega, range_nil, crc_nil]
  rw [hd]
  generalize hd' : Crc.crcBitwise c (range (st 4 b.big G 16 (0#32)) l.ss l.bs) = d
  -- the two stores of the swapped CRCs
  have hld : ∀ (H : Bytes) (a : Nat) (x : BitVec 32), ld32 b.big (st 4 b.big H a x) a = x := by
    intro H a x
    apply BitVec.eq_of_toNat_eq
    rw [← number_bytes b.big 4 (ld32 b.big (st 4 b.big H a x) a) (by omega) (fun j hj => (byteOf_ld32 b.big (st 4 b.big H a x) a j hj).symm), number_st _ _ _ _ _ (by omega)]
  have hld' : ∀ (H : Bytes) (x y : BitVec 32), ld32 b.big (st 4 b.big (st 4 b.big H 4 x) 16 y) 4 = x := by
    intro H x y
    have := hld H 4 x
    unfold ld32 at this ⊢
    rw [st_other _ _ _ _ 16 4 (by omega), st_other _ _ _ _ 16 (4 + 1) (by omega), st_other _ _ _ _ 16 (4 + 2) (by omega), st_other _ _ _ _ 16 (4 + 3) (by omega)]
    exact this
  have hld16 : ∀ (H : Bytes) (x y z : BitVec 32), ld32 b.big (st 4 b.big (st 4 b.big (st 4 b.big H 4 x) 16 y) 4 z) 16 = y := by
    intro H x y z
    have := hld (st 4 b.big H 4 x) 16 y
    unfold ld32 at this ⊢
    rw [st_other _ _ _ _ 4 16 (by omega), st_other _ _ _ _ 4 (16 + 1) (by omega), st_other _ _ _ _ 4 (16 + 2) (by omega), st_other _ _ _ _ 4 (16 + 3) (by omega)]
    exact this
  rw [hld', hld16]
  generalize hD : st 4 b.big (st 4 b.big (st 4 b.big (st 4 b.big (st 4 b.big G 16 0#32) 4 d) 16 c) 4 (rev32If b d)) 16 (rev32If b c) = D
  have hDo : ∀ i, ¬ (4 ≤ i ∧ i < 8) → ¬ (16 ≤ i ∧ i < 20) → D i = G i := by
    intro i h1 h2
    rw [← hD, st_other _ _ _ _ _ _ (by omega), st_other _ _ _ _ _ _ (by omega), st_other _ _ _ _ _ _ (by omega), st_other _ _ _ _ _ _ (by omega), st_other _ _ _ _ _ _ (by omega)]
  have hsec : sectorCrc l D = c := by
    rw [← hc]; unfold sectorCrc sectorBytes
    congr 1
    apply range_congr
    intro i h1 h2
    by_cases h : 16 ≤ i ∧ i < 20
    · rw [if_pos h, st_zero _ _ _ _ (by omega)]
    · rw [if_neg h, st_other _ _ _ _ _ _ (by omega), hDo i (by omega) h]
  have hmeta : metaCrc l D = d := by
    rw [← hd']; unfold metaCrc restBytes
    rw [hsec]
    congr 1
    apply range_congr
    intro i h1 h2
    rw [st_other _ _ _ _ _ _ (by omega), hDo i (by omega) (by omega)]
  have hnum : ∀ a w, (a + w ≤ 4 ∨ 8 ≤ a ∧ a + w ≤ 16 ∨ 20 ≤ a) → number b.order D a w = number b.order G a w := by
    intro a w h
    exact number_congr _ fun j hj => hDo _ (by omega) (by omega)
  refine ⟨?_, ?_, ?_, ?_, ?_, ?_⟩
  · rw [hnum 0 4 (by omega), hG1 (0, 4) (by simp [mrAll]), number_st_other _ _ _ _ _ _ _ _ (by omega), number_st _ _ _ _ _ (by omega)]
  · rw [hmeta, ← hD, number_st_other _ _ _ _ _ _ _ _ (by omega), number_st_rev32If]
  · rw [hnum 8 8 (by omega), hG1 (8, 8) (by simp [mrAll]), number_st _ _ _ _ _ (by omega)]
  · rw [hsec, ← hD, number_st_rev32If]
  · intro x hx
    have := far x hx
    rw [hnum _ _ (by omega), hG1 x (List.mem_append_right _ hx), number_st_other _ _ _ _ _ _ _ _ (by omega), number_st_other _ _ _ _ _ _ _ _ (by omega)]
  · intro i h1 h2 h3
    rw [hDo i (by omega) (by omega), ← hG, swapMetarootIf_eq, other_flips b hs _ (mr_not_all h1 h3), st_other _ _ _ _ _ _ (by omega), st_other _ _ _ _ _ _ (by omega)]

theorem DiskMeta.unique (hl : l.Ok) {seq : BitVec 64} {o big big' : Bool} {f f' D D' : Bytes} (h : DiskMeta l seq o big f D) (h' : DiskMeta l seq o big' f' D')
    (hf : SameNode l (metarootFields l) 20 big f big' f') : ∀ i, i < l.bs → D i = D' i := by
  have hss := hl.ss
  have hle := hl.le
  have seg : ∀ a w, number o D a w = number o D' a w → ∀ i, a ≤ i → i < a + w → D i = D' i := by
    intro a w h i h1 h2
    have := number_inj o h (i - a) (by omega)
    rwa [show a + (i - a) = i by omega] at this
  have body : ∀ i, 20 ≤ i → i < l.bs → D i = D' i := by
    intro i h1 h2
    by_cases hi : InField (metarootFields l) i
    · obtain ⟨x, hx, g1, g2⟩ := hi
      exact seg _ _ ((h.fld x hx).trans ((hf.1 x hx).trans (h'.fld x hx).symm)) i g1 g2
    · rw [h.oth i h1 h2 hi, h'.oth i h1 h2 hi]
      exact hf.2 i h1 h2 hi
  have hseq := seg 8 8 (h.seq.trans h'.seq.symm)
  have hsec : sectorCrc l D = sectorCrc l D' := by
    unfold sectorCrc sectorBytes
    congr 1
    apply range_congr
    intro i h1 h2
    split
    · rfl
    · by_cases h16 : i < 16
      · exact hseq i h1 h16
      · exact body i (by omega) (by omega)
  have hmeta : metaCrc l D = metaCrc l D' := by
    unfold metaCrc restBytes
    rw [hsec]
    congr 1
    apply range_congr
    intro i h1 h2
    exact body i (by omega) h2
  intro i hi
  by_cases h4 : i < 4
  · exact seg 0 4 (h.sig.trans h'.sig.symm) i (by omega) (by omega)
  · by_cases h8 : i < 8
    · exact seg 4 4 (by rw [h.crc, h'.crc, hmeta]) i (by omega) (by omega)
    · by_cases h16 : i < 16
      · exact hseq i (by omega) h16
      · by_cases h20 : i < 20
        · exact seg 16 4 (by rw [h.sector, h'.sector, hsec]) i (by omega) (by omega)
        · exact body i (by omega) hi

theorem metaroot_valid_iff (hl : l.Ok) (b : Build) (D : Bytes) :
    (metarootIsValid l b D).1 = true ↔ number b.order D 0 4 = sigMetaroot.toNat ∧ number b.order D 16 4 = (sectorCrc l D).toNat ∧ number b.order D 4 4 = (metaCrc l D).toNat := by
  have hss := hl.ss
  have e1 : range (st 4 b.big D 16 (0#32)) 8 l.ss = sectorBytes l D := by
    unfold sectorBytes
    apply range_congr
    intro i h1 h2
    by_cases h : 16 ≤ i ∧ i < 20
    · rw [if_pos h, st_zero _ _ _ _ (by omega)]
    · rw [if_neg h, st_other _ _ _ _ _ _ (by omega)]
  have e2 : range (st 4 b.big D 16 (0#32)) l.ss l.bs = restBytes l D := by
    unfold restBytes
    apply range_congr
    intro i h1 h2
    rw [st_other _ _ _ _ _ _ (by omega)]
  have e3 : ld32 b.big (st 4 b.big D 16 (0#32)) 4 = ld32 b.big D 4 := by
    unfold ld32
    rw [st_other _ _ _ _ 16 4 (by omega), st_other _ _ _ _ 16 (4 + 1) (by omega), st_other _ _ _ _ 16 (4 + 2) (by omega), st_other _ _ _ _ 16 (4 + 3) (by omega)]
  have rr : ∀ x y : BitVec 32, rev32If b x = y ↔ rev32If b y = x := by
    intro x y
    unfold rev32If
    split
    · constructor
      · rintro rfl; exact Props.Util.C35_rev32_invol x
      · rintro rfl; exact Props.Util.C35_rev32_invol y
    · exact eq_comm
  rw [← rev32If_ld, ← rev32If_ld, ← rev32If_ld, BitVec.toNat_inj, BitVec.toNat_inj, BitVec.toNat_inj]
  unfold metarootIsValid
  simp only [ne_eq]
  by_cases h1 : rev32If b (ld32 b.big D 0) = sigMetaroot
  · rw [if_neg (by simpa using h1)]
    simp only [e1, e2, e3]
    rw [show Crc.crcBitwise (0#32) (sectorBytes l D) = sectorCrc l D from rfl, show Crc.crcBitwise (sectorCrc l D) (restBytes l D) = metaCrc l D from rfl]
    by_cases h2 : rev32If b (ld32 b.big D 16) = sectorCrc l D
    · rw [if_pos h2.symm]
      simp only [decide_eq_true_eq, h1, h2, true_and]
      rw [rr]
    · rw [if_neg (fun h => h2 h.symm)]
      simp [h2]
  · rw [if_pos (by simpa using h1)]
    simp [h1]

theorem metaroot_image (b : Build) (D : Bytes) (h : (metarootIsValid l b D).1 = true) : (metarootIsValid l b D).2.2 = st 4 b.big D 16 (0#32) := by
  unfold metarootIsValid at h ⊢
  simp only at h ⊢
  split at h
  · cases h
  · next hc =>
    rw [if_neg hc]
    split at h
    · next hc2 => rw [if_pos hc2]
    · cases h

/-- **C48** Metaroots: the same bytes from every processor, if the byte order on the device is the same. -/
theorem C48_metaroot_same_bytes (hl : l.Ok) (b b' : Build) (ho : b.order = b'.order) (f f' : Bytes) (hf : SameNode l (metarootFields l) 20 b.big f b'.big f')
    (seq : BitVec 64) (i : Nat) (hi : i < l.bs) : finalizeMetaroot l b seq f i = finalizeMetaroot l b' seq f' i :=
  (finalize_meta hl b seq f).unique hl (ho ▸ finalize_meta hl b' seq f') hf i hi

/-- **C48** ... and every such computer reads the same numbers and bitmap. -/
theorem C48_metaroot_read_back (hl : l.Ok) (b b' : Build) (ho : b.order = b'.order) (f : Bytes) (seq : BitVec 64) :
    ∃ g, loadMetaroot l b' (finalizeMetaroot l b seq f) = some g ∧ SameNode l (metarootFields l) 20 b.big f b'.big g ∧ number b'.big g 8 8 = seq.toNat := by
  have hd := finalize_meta hl b seq f
  rw [ho] at hd
  have hv : (metarootIsValid l b' (finalizeMetaroot l b seq f)).1 = true := (metaroot_valid_iff hl b' _).2 ⟨hd.sig, hd.sector, hd.crc⟩
  have far : ∀ x ∈ metarootFields l, 20 ≤ x.1 := fun x hx => ((metarootFields_sorted l hl).le x hx).1
  refine ⟨swapMetarootIf l b' (st 4 b'.big (finalizeMetaroot l b seq f) 16 (0#32)), ?_, ⟨?_, ?_⟩, ?_⟩
  · unfold loadMetaroot; rw [if_pos hv, metaroot_image b' _ hv]
  · intro x hx
    have := far x hx
    rw [swapMetarootIf_eq, (number_flips b' (mr_sorted hl) _ (List.mem_append_right _ hx)).2, number_st_other _ _ _ _ _ _ _ _ (by omega), hd.fld x hx]
  · intro i h1 h2 h3
    rw [swapMetarootIf_eq, other_flips b' (mr_sorted hl) _ (mr_not_all h1 h3), st_other _ _ _ _ _ _ (by omega), hd.oth i h1 h2 h3]
  · rw [swapMetarootIf_eq, (number_flips b' (mr_sorted hl) _ (x := (8, 8)) (by simp [mrAll])).2, number_st_other _ _ _ _ _ _ _ _ (by omega), hd.seq]

/-- **C48** A computer with the other byte order on the device does not accept the metaroot. -/
theorem C48_metaroot_other_order (hl : l.Ok) (b b' : Build) (ho : b.order ≠ b'.order) (f : Bytes) (seq : BitVec 64) : loadMetaroot l b' (finalizeMetaroot l b seq f) = none := by
  have hd := finalize_meta hl b seq f
  have hv : ¬ (metarootIsValid l b' (finalizeMetaroot l b seq f)).1 = true := by
    rw [metaroot_valid_iff hl b']
    rintro ⟨h1, _⟩
    have h2 := number_other b.order _ 0 _ hd.sig
    have hb : (!b.order) = b'.order := by
      revert ho; cases b.order <;> cases b'.order <;> simp
    rw [hb, h1] at h2
    have h3 : sigMetaroot = Endian.rev32 sigMetaroot := BitVec.eq_of_toNat_eq h2
    revert h3; decide
  unfold loadMetaroot
  rw [if_neg hv]

/-- **C48** The inode number in a directory entry is the same for all computers with the same byte order on the device. -/
theorem C48_dirent (b b' : Build) (ho : b.order = b'.order) (ino : BitVec 32) (f : Bytes) :
    direntGet b' (direntPut b ino f) = ino ∧ ∀ i, i < 4 → direntPut b ino f i = direntPut b' ino f i := by
  have h := number_st_rev32If b ino f 0
  have h' := number_st_rev32If b' ino f 0
  refine ⟨BitVec.eq_of_toNat_eq ?_, fun i hi => ?_⟩
  · unfold direntGet direntPut
    rw [rev32If_ld, ← ho, h]
  · have := number_inj b.order (h.trans ((ho ▸ h').symm)) i hi
    rwa [Nat.zero_add] at this

/-- **C48** If the flush before the metaroot is written succeeds, then the metaroot in memory says afterwards what it said before. -/
theorem C48_metaroot_kept (hl : l.Ok) (b : Build) (f : Bytes) (seq : BitVec 64) : SameNode l (metarootFields l) 20 b.big f b.big (transactMemory l b seq true f) := by
  have hd := finalize_meta hl b seq f
  unfold transactMemory
  refine ⟨fun x hx => ?_, fun i h1 h2 h3 => ?_⟩
  · rw [if_pos rfl, swapMetarootIf_eq, (number_flips b (mr_sorted hl) _ (List.mem_append_right _ hx)).2, hd.fld x hx]
  · rw [if_pos rfl, swapMetarootIf_eq, other_flips b (mr_sorted hl) _ (mr_not_all h1 h3), hd.oth i h1 h2 h3]

/-! ### A case -/

/-- 512-byte blocks, everything compiled in, with indirect and double indirect nodes. -/
def demoL : Layout := ⟨512, 256, true, true, true, true, true, true⟩
theorem demoL_ok : demoL.Ok := ⟨by decide, by decide, by decide, by decide⟩

/-- A little-endian computer, and a big-endian one which swaps. -/
def le : Build := ⟨false, false⟩
def be : Build := ⟨true, true⟩

example : demoL.Ok ∧ Has demoL .inode ∧ Kind.sig .inode = some 0x444F4E49#32 ∧ le.order = be.order ∧ le.big ≠ be.big ∧ le.order ≠ Build.order ⟨true, false⟩ :=
  ⟨demoL_ok, trivial, rfl, rfl, by decide, by decide⟩

/-- An inode whose size is 258: byte 16 is 2 and byte 17 is 1 on the first computer; bytes 23 and 22 on the second; and the device has the former. -/
def inodeL : Bytes := fun i => if i = 16 then 2 else if i = 17 then 1 else 0
def inodeB : Bytes := fun i => if i = 23 then 2 else if i = 22 then 1 else 0

theorem zero_num (big : Bool) (f : Bytes) (a : Nat) : ∀ w, (∀ j, j < w → f (a + j) = 0) → number big f a w = 0
  | 0, _ => rfl
  | w + 1, h => by
    unfold number
    rw [zero_num big f a w (fun j hj => h j (by omega)), h w (by omega)]
    cases big <;> simp

theorem demo_same : SameNode demoL (fields demoL .inode) 16 le.big inodeL be.big inodeB := by
  have hs := fields_sorted demoL demoL_ok .inode
  have hc : fields demoL .inode = (16, 8) :: (fields demoL .inode).tail := by rfl
  refine ⟨fun x hx => ?_, fun i h1 h2 h3 => ?_⟩
  · rw [hc] at hx hs
    rcases List.mem_cons.1 hx with rfl | hx
    · decide
    · have := hs.2.le x hx
      simp only at this
      rw [zero_num _ _ _ _ fun j hj => ?_, zero_num _ _ _ _ fun j hj => ?_]
      · unfold inodeB; rw [if_neg (by omega), if_neg (by omega)]
      · unfold inodeL; rw [if_neg (by omega), if_neg (by omega)]
  · have h24 : 24 ≤ i := by
      apply Nat.le_of_not_lt
      intro h
      exact h3 ⟨(16, 8), by rw [hc]; exact List.mem_cons_self .., h1, h⟩
    unfold inodeL inodeB
    rw [if_neg (by omega), if_neg (by omega), if_neg (by omega), if_neg (by omega)]

example (i : Nat) (hi : i < 512) : finalize demoL le .inode 0x444F4E49#32 9#64 inodeL i = finalize demoL be .inode 0x444F4E49#32 9#64 inodeB i :=
  C48_same_bytes (k := .inode) demoL_ok trivial rfl le be rfl _ _ demo_same _ i hi

/-- A finding: if the flush fails, a build with byte swapping keeps the metaroot in memory in the byte order of the device.  One free block becomes 16777216: that is what
`red_statvfs` reports from then on. -/
def oneFree : Bytes := fun i => if i = 20 then 1 else 0
theorem C48_failed_flush_leaves_swapped : number false oneFree 20 4 = 1 ∧ number false (transactMemory demoL ⟨false, true⟩ 5#64 false oneFree) 20 4 = 16777216 := by
  refine ⟨by decide, ?_⟩
  have hd := finalize_meta demoL_ok ⟨false, true⟩ 5#64 oneFree
  have h1 := hd.fld (20, 4) (by simp [metarootFields, demoL])
  have h2 : number (Build.order ⟨false, true⟩) (finalizeMetaroot demoL ⟨false, true⟩ 5#64 oneFree) 20 4 = (1#32).toNat := h1.trans (by decide)
  have := number_other _ _ _ _ h2
  rw [show (!Build.order ⟨false, true⟩) = false by rfl] at this
  exact this.trans (by decide)

end RedFs.Props.Swap
