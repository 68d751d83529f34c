import Verif.Lemmas.BranchAll
set_option linter.unusedSimpArgs false
set_option linter.unusedVariables false
namespace RedFs
open M Bitmap Vol

variable {c : Conf} {O : Nat → Prop} {s s' s1 s2 : DS} {V : Pos → Nat} {Z : Pos → Prop}

/-- Contents of logical block `b`. -/
def cont (c : Conf) (D : Nat → Blk) (V : Pos → Nat) (b : Nat) : Nat → Byte :=
  if V (posOf c b) = 0 then fun _ => 0 else (D (V (posOf c b))).bytes
/-- The byte at an offset. -/
def byteAt (c : Conf) (D : Nat → Blk) (V : Pos → Nat) (off : Nat) : Byte := cont c D V (off / c.blockSize) (off % c.blockSize)

/-- The coordinates may be used for any seek. -/
def SeekAll (c : Conf) (ci : Cinode) (V : Pos → Nat) : Prop := ∀ b, b < c.dataBlocks → SeekPre c ci V b

theorem Coh.seekAll {ci : Cinode} {b : Nat} (hc : c.Ok) (hb : b < c.dataBlocks) (h : Coh c ci V b) : SeekAll c ci V :=
  fun _ hb' => h.seekPre hc hb hb'
theorem SeekAll.uninit {ci : Cinode} (h : ci.inited = false) : SeekAll c ci V := by
  intro b _ h'; rw [h] at h'; cases h'

/-- Only coordinates have changed. -/
structure Ro (c : Conf) (V : Pos → Nat) (s s' : DS) : Prop where
  v : s'.v = s.v
  ci : CiSame s.ci s'.ci
  seek : SeekAll c s'.ci V

theorem Ro.refl (h : SeekAll c s.ci V) : Ro c V s s := ⟨rfl, .refl _, h⟩
theorem Ro.trans (a : Ro c V s s1) (b : Ro c V s1 s2) : Ro c V s s2 :=
  ⟨b.v.trans a.v, a.ci.trans b.ci, b.seek⟩
theorem Ro.inv (a : Ro c V s s1) (h : FInv c O s V Z) : FInv c O s1 V Z := by
  have := h.ci a.ci
  have e : s1 = { s with ci := s1.ci } := by cases s1; have := a.v; simp at this; simp [this]
  rw [e]; exact this
theorem Ro.fr (a : Ro c V s s1) (h : FInv c O s V Z) : Fr c O s s1 := by
  have := Fr.ci (O := O) h.vol a.ci
  have e : s1 = { s with ci := s1.ci } := by cases s1; have := a.v; simp at this; simp [this]
  rw [e]; exact this
theorem Ro.cnt (a : Ro c V s s1) (h : Cnt c s V) : Cnt c s1 V := h.congr (by rw [a.ci.node]) (fun _ _ => rfl)

theorem seekData_ro (hc : c.Ok) (h : FInv c O s V noZ) {b : Nat} (hb : b < c.dataBlocks) (hs : SeekAll c s.ci V) :
    ∃ s1, seekData c b s = (.ok (decide (V (posOf c b) ≠ 0)), s1) ∧ Ro c V s s1 ∧ Coh c s1.ci V b ∧
      (s1.ci.pData = none ∨ s1 = s ∧ s.ci.inited = true ∧ s.ci.logical = b) := by
  obtain ⟨ci', e, h1, h2, h3⟩ := seekData_spec hc h hb (NoZPath.noZ _) (hs b hb)
  refine ⟨_, e, ⟨rfl, h2, h1.seekAll hc hb⟩, h1, ?_⟩
  rcases h3 with ⟨g1, g2, g3⟩ | g
  · right; subst g3; exact ⟨rfl, g1, g2⟩
  · left; exact g

theorem Coh.setData {ci : Cinode} {b : Nat} (hc : c.Ok) (hb : b < c.dataBlocks) (h : Coh c ci V b) {o : Option Nat}
    (ho : ∀ x, o = some x → x = ci.dataBlk ∧ x ≠ 0) : Coh c { ci with pData := o } V b := by
  refine ⟨h.inited, h.logical, ?_, ho⟩
  have hp := coord_posOf hc hb
  have h3 := h.pos
  generalize posOf c b = p at *
  cases hp <;> exact h3

theorem seekAndRead_ro (hc : c.Ok) (h : FInv c O s V noZ) {b : Nat} (hb : b < c.dataBlocks) (hs : SeekAll c s.ci V) :
    ∃ s1, seekAndRead c b s = (.ok (decide (V (posOf c b) ≠ 0)), s1) ∧ Ro c V s s1 ∧ Coh c s1.ci V b ∧
      (V (posOf c b) ≠ 0 → s1.ci.pData = some (V (posOf c b))) := by
  obtain ⟨s1, e, hr, hco, _⟩ := seekData_ro hc h hb hs
  have hdb := hco.dataBlk hc hb
  by_cases h0 : V (posOf c b) = 0
  · refine ⟨s1, ?_, hr, hco, fun h => absurd h0 h⟩
    unfold seekAndRead
    simp [e, h0]
  · have hx : s1.ci.pData.getD s1.ci.dataBlk = V (posOf c b) := by
      cases hp : s1.ci.pData with
      | none => simpa using hdb
      | some x => simp; rw [(hco.pData x hp).1]; exact hdb
    have hco2 := hco.setData hc hb (o := some (V (posOf c b))) (by
      intro x hx; injection hx with hx; subst hx; exact ⟨hdb.symm, h0⟩)
    refine ⟨{ s1 with ci := { s1.ci with pData := some (V (posOf c b)) } }, ?_, ?_, hco2, fun _ => rfl⟩
    · unfold seekAndRead
      simp only [run_bind, e]
      simp [h0, setCi, hx]
    · exact ⟨hr.v, hr.ci.trans ⟨rfl, rfl, rfl, rfl, rfl, rfl⟩, hco2.seekAll hc hb⟩

theorem bs_pos (hc : c.Ok) : 0 < c.blockSize := by
  obtain ⟨k, _, _, e⟩ := hc.bs_pow; rw [e]; exact Nat.two_pow_pos k

/-- Offsets in the block of `start`. -/
theorem off_same {B start k : Nat} (hB : 0 < B) (h : start % B + k < B) : (start + k) / B = start / B ∧ (start + k) % B = start % B + k := by
  have hd := Nat.div_add_mod start B
  have e : start + k = (start % B + k) + B * (start / B) := by omega
  constructor
  · rw [e, Nat.add_mul_div_left _ _ hB, Nat.div_eq_of_lt h]; omega
  · rw [e, Nat.add_mul_mod_self_left, Nat.mod_eq_of_lt h]

theorem span_of {B start len : Nat} (hB : 0 < B) (hl : 0 < len) (h : start % B + len ≤ B) : start / B = (start + len - 1) / B := by
  have := (off_same (start := start) (k := len - 1) hB (by omega)).1
  rw [show start + len - 1 = start + (len - 1) by omega, this]

theorem div_lt_data (hc : c.Ok) {off : Nat} (h : off < c.sizeMax) : off / c.blockSize < c.dataBlocks := by
  unfold Conf.sizeMax at h
  exact (Nat.div_lt_iff_lt_mul (bs_pos hc)).2 (by rw [Nat.mul_comm]; exact h)

theorem readUnaligned_ro (hc : c.Ok) (h : FInv c O s V noZ) (hs : SeekAll c s.ci V) {start len : Nat} (hl : 0 < len)
    (hsp : start % c.blockSize + len ≤ c.blockSize) (hin : start < c.sizeMax) :
    ∃ s1, readUnaligned c start len s = (.ok ((List.range len).map fun k => byteAt c s.v.blk V (start + k)), s1) ∧ Ro c V s s1 := by
  have hB := bs_pos hc
  have hsame := span_of hB hl hsp
  have hlt := div_lt_data hc hin
  obtain ⟨s1, e, hr, hco, hd⟩ := seekAndRead_ro hc h hlt hs
  refine ⟨s1, ?_, hr⟩
  unfold readUnaligned
  rw [if_neg (by simp [hsame.symm])]
  simp only [run_bind, e]
  by_cases h0 : V (posOf c (start / c.blockSize)) = 0
  · simp only [h0, ne_eq, not_true_eq_false, decide_false, Bool.false_eq_true, if_false, run_pure]
    congr 2
    apply List.ext_getElem
    · simp
    · intro i h1 h2
      simp at h1
      simp only [List.getElem_replicate, List.getElem_map, List.getElem_range]
      unfold byteAt cont
      rw [(off_same (k := i) hB (by omega)).1, if_pos h0]
  · simp only [h0, ne_eq, not_false_eq_true, decide_true, if_true, run_get, run_pure, run_bind]
    rw [hd h0, hr.v]
    congr 2
    apply List.map_congr_left
    intro i hi
    rw [List.mem_range] at hi
    obtain ⟨g1, g2⟩ := off_same (start := start) (k := i) hB (by omega)
    unfold byteAt cont
    rw [g1, g2, if_neg h0]; rfl

theorem extentLoop_ro (hc : c.Ok) (start first : Nat) : ∀ (n run : Nat) (s : DS), FInv c O s V noZ → SeekAll c s.ci V →
    start + run + n ≤ c.dataBlocks → (∀ i, i < run → V (posOf c (start + i)) = first + i) →
    ∃ s1 r, extentLoop c start first n run s = (.ok r, s1) ∧ Ro c V s s1 ∧ run ≤ r ∧ r ≤ run + n ∧
      ∀ i, i < r → V (posOf c (start + i)) = first + i := by
  intro n
  induction n with
  | zero => intro run s h hs hb hi; exact ⟨s, run, rfl, .refl hs, Nat.le_refl _, Nat.le_refl _, hi⟩
  | succ n ih =>
    intro run s h hs hb hi
    obtain ⟨s1, e, hr, hco, _⟩ := seekData_ro hc h (b := start + run) (by omega) hs
    have hdb := hco.dataBlk hc (by omega)
    unfold extentLoop
    simp only [run_bind, e]
    by_cases h0 : V (posOf c (start + run)) = 0
    · exact ⟨s1, run, by simp [h0], hr, by omega, by omega, hi⟩
    · simp only [h0, ne_eq, not_false_eq_true, decide_true, if_true, run_get, hdb]
      by_cases h1 : V (posOf c (start + run)) = first + run
      · simp only [h1, not_true_eq_false, if_false, run_bind, run_get, hdb]
        obtain ⟨s2, r, e2, hr2, g1, g2, g3⟩ := ih (run + 1) s1 (hr.inv h) hr.seek (by omega) (by
          intro i hi'
          by_cases e : i = run
          · subst e; exact h1
          · exact hi i (by omega))
        exact ⟨s2, r, e2, hr.trans hr2, by omega, by omega, g3⟩
      · refine ⟨s1, run, ?_, hr, by omega, by omega, hi⟩
        simp [h1, run_bind, run_get, hdb]

theorem getExtent_ro (hc : c.Ok) (h : FInv c O s V noZ) (hs : SeekAll c s.ci V) {start len : Nat} (hl : 0 < len)
    (hb : start + len ≤ c.dataBlocks) :
    ∃ s1 o, getExtent c start len s = (.ok o, s1) ∧ Ro c V s s1 ∧
      (o = none ∧ V (posOf c start) = 0 ∨ ∃ q r, o = some (q, r) ∧ 0 < r ∧ r ≤ len ∧ q ≠ 0 ∧ ∀ i, i < r → V (posOf c (start + i)) = q + i) := by
  obtain ⟨s1, e, hr, hco, _⟩ := seekData_ro hc h (b := start) (by omega) hs
  have hdb := hco.dataBlk hc (by omega)
  unfold getExtent
  simp only [run_bind, e]
  by_cases h0 : V (posOf c start) = 0
  · exact ⟨s1, none, by simp [h0], hr, Or.inl ⟨rfl, h0⟩⟩
  · simp only [h0, ne_eq, not_false_eq_true, decide_true, if_true, run_get, hdb, run_bind]
    obtain ⟨s2, r, e2, hr2, g1, g2, g3⟩ := extentLoop_ro hc start (V (posOf c start)) (len - 1) 1 s1 (hr.inv h) hr.seek (by omega) (by
      intro i hi; have : i = 0 := by omega
      subst this; rfl)
    refine ⟨s2, some (V (posOf c start), r), ?_, hr.trans hr2, Or.inr ⟨_, r, rfl, by omega, by omega, h0, g3⟩⟩
    simp [e2]

theorem map_range_add {α : Type} (f : Nat → α) (n m : Nat) :
    (List.range (n + m)).map f = (List.range n).map f ++ (List.range m).map fun k => f (n + k) := by
  rw [List.range_add, List.map_append, List.map_map]; rfl

theorem readAligned_ro (hc : c.Ok) (start count : Nat) : ∀ (fuel idx : Nat) (s : DS), FInv c O s V noZ → SeekAll c s.ci V →
    start + count ≤ c.dataBlocks → idx ≤ count → count - idx ≤ fuel →
    ∃ s1, readAligned c start count fuel idx s =
      (.ok ((List.range ((count - idx) * c.blockSize)).map fun k => byteAt c s.v.blk V ((start + idx) * c.blockSize + k)), s1) ∧ Ro c V s s1 := by
  have hB := bs_pos hc
  -- one run of blocks
  have key : ∀ (D : Nat → Blk) (a n : Nat) (g : Nat → Byte), (∀ k, k < n * c.blockSize → g k = cont c D V (a + k / c.blockSize) (k % c.blockSize)) →
      (List.range (n * c.blockSize)).map g = (List.range (n * c.blockSize)).map fun k => byteAt c D V (a * c.blockSize + k) := by
    intro D a n g hg
    apply List.map_congr_left
    intro k hk
    rw [List.mem_range] at hk
    rw [hg k hk]
    unfold byteAt
    rw [Nat.mul_comm a, Nat.mul_add_div hB, Nat.mul_add_mod]
  intro fuel
  induction fuel with
  | zero =>
    intro idx s h hs hb h1 h2
    have : count = idx := by omega
    subst this
    refine ⟨s, ?_, .refl hs⟩
    simp [readAligned]
  | succ fuel ih =>
    intro idx s h hs hb h1 h2
    unfold readAligned
    by_cases hlt : idx < count
    · rw [if_pos hlt]
      simp only [run_bind]
      obtain ⟨s1, o, e, hr, ho⟩ := getExtent_ro hc h hs (start := start + idx) (len := count - idx) (by omega) (by omega)
      rw [e]
      rcases ho with ⟨rfl, h0⟩ | ⟨q, r, rfl, g1, g2, g3, g4⟩
      · obtain ⟨s2, e2, hr2⟩ := ih (idx + 1) s1 (hr.inv h) hr.seek hb (by omega) (by omega)
        refine ⟨s2, ?_, hr.trans hr2⟩
        simp only [run_bind, e2, run_pure]
        congr 2
        rw [show (count - idx) * c.blockSize = 1 * c.blockSize + (count - (idx + 1)) * c.blockSize by
          rw [← Nat.add_mul]; congr 1; omega]
        rw [map_range_add, ← key s.v.blk (start + idx) 1 (fun _ => 0), hr.v]
        · congr 1
          · rw [List.map_const']; simp
          · apply List.map_congr_left; intro k _; congr 1
            rw [show start + (idx + 1) = start + idx + 1 by omega, Nat.add_mul]; omega
        · intro k hk
          rw [Nat.one_mul] at hk
          rw [Nat.div_eq_of_lt hk]; unfold cont
          rw [Nat.add_zero, if_pos h0]
      · simp only [run_bind, run_get]
        obtain ⟨s2, e2, hr2⟩ := ih (idx + r) s1 (hr.inv h) hr.seek hb (by omega) (by omega)
        refine ⟨s2, ?_, hr.trans hr2⟩
        simp only [run_bind, e2, run_pure]
        congr 2
        rw [show (count - idx) * c.blockSize = r * c.blockSize + (count - (idx + r)) * c.blockSize by
          rw [← Nat.add_mul]; congr 1; omega]
        rw [map_range_add, hr.v]
        congr 1
        · unfold readBlocks
          apply key
          intro k hk
          have hk' : k / c.blockSize < r := (Nat.div_lt_iff_lt_mul hB).2 hk
          unfold cont
          rw [show start + idx + k / c.blockSize = (start + idx) + k / c.blockSize from rfl, g4 _ hk', if_neg (fun e => g3 (Nat.eq_zero_of_add_eq_zero e).1)]
        · apply List.map_congr_left; intro k _; congr 1
          rw [show start + (idx + r) = start + idx + r by omega, Nat.add_mul]; omega
    · rw [if_neg hlt]
      have : count - idx = 0 := by omega
      refine ⟨s, ?_, .refl hs⟩
      simp [this]

/-- `RedInodeDataRead`. -/
theorem dataRead_ro (hc : c.Ok) (h : FInv c O s V noZ) (hs : SeekAll c s.ci V) (hsz : s.ci.node.size ≤ c.sizeMax) (start len : Nat) :
    ∃ s1, dataRead c start len s =
      (.ok ((List.range (min len (s.ci.node.size - start))).map fun k => byteAt c s.v.blk V (start + k)), s1) ∧ Ro c V s s1 := by
  have hB := bs_pos hc
  obtain ⟨nb, hnb⟩ := h.nb_isSome
  unfold dataRead
  simp only [run_bind, run_get, hnb, reduceCtorEq, if_false]
  by_cases h1 : s.ci.node.size ≤ start
  · refine ⟨s, ?_, .refl hs⟩
    simp [if_pos h1, show s.ci.node.size - start = 0 by omega]
  by_cases h2 : len = 0
  · refine ⟨s, ?_, .refl hs⟩
    simp [if_neg h1, h2]
  rw [if_neg h1, if_neg h2]
  have hlen : (if s.ci.node.size - start < len then s.ci.node.size - start else len) = min len (s.ci.node.size - start) := by
    split <;> omega
  simp only [hlen]
  generalize hL : min len (s.ci.node.size - start) = L
  have hL0 : 0 < L := by omega
  have hLs : start + L ≤ c.sizeMax := by omega
  have hmod := Nat.mod_lt start hB
  -- leading bytes
  generalize hF : readFirst c start L = F
  unfold readFirst at hF
  have hFL : F ≤ L := by rw [← hF]; split <;> omega
  have hst1 : ∃ s1, (onlyIf (F ≠ 0) (readUnaligned c start F) [] : DM _) s =
      (.ok ((List.range F).map fun k => byteAt c s.v.blk V (start + k)), s1) ∧ Ro c V s s1 := by
    by_cases hF0 : F = 0
    · exact ⟨s, by rw [onlyIf_neg (by simp [hF0])]; simp [hF0], .refl hs⟩
    · rw [onlyIf_pos hF0]
      apply readUnaligned_ro hc h hs (by omega) _ (by omega)
      rw [← hF] at hF0 ⊢; split at hF0 <;> simp_all <;> omega
  obtain ⟨s1, e1, hr1⟩ := hst1
  unfold readParts
  simp only [run_bind, e1]
  -- whole blocks
  generalize hN : wholeBlocks c (L - F) = N
  unfold wholeBlocks at hN
  have hNle : N * c.blockSize ≤ L - F := by
    rw [← hN]; split
    · exact Nat.div_mul_le_self _ _
    · omega
  have halign : N ≠ 0 → (start + F) % c.blockSize = 0 := by
    intro hN0
    have hge : c.blockSize ≤ L - F := by
      by_cases hq : c.blockSize ≤ L - F
      · exact hq
      · rw [← hN, if_neg hq] at hN0; exact absurd rfl hN0
    by_cases hm : start % c.blockSize = 0
    · rw [← hF, if_neg (by simp [hm])]; exact hm
    · rw [if_pos hm] at hF
      have : F = c.blockSize - start % c.blockSize := by omega
      rw [this, Nat.add_mod, Nat.mod_eq_of_lt (show c.blockSize - start % c.blockSize < c.blockSize by omega)]
      rw [show start % c.blockSize + (c.blockSize - start % c.blockSize) = c.blockSize by omega, Nat.mod_self]
  have hst2 : ∃ s2, (onlyIf (N ≠ 0) (readAligned c ((start + F) / c.blockSize) N N 0) [] : DM _) s1 =
      (.ok ((List.range (N * c.blockSize)).map fun k => byteAt c s.v.blk V (start + F + k)), s2) ∧ Ro c V s1 s2 := by
    by_cases hN0 : N = 0
    · exact ⟨s1, by rw [onlyIf_neg (by simp [hN0])]; simp [hN0], .refl hr1.seek⟩
    · rw [onlyIf_pos hN0]
      have hal := halign hN0
      have hdm := Nat.div_add_mod (start + F) c.blockSize
      have : (start + F) / c.blockSize + N ≤ c.dataBlocks := by
        have h3 : c.blockSize * ((start + F) / c.blockSize + N) ≤ c.blockSize * c.dataBlocks := by
          have : c.sizeMax = c.blockSize * c.dataBlocks := rfl
          rw [Nat.mul_add, Nat.mul_comm _ N]; omega
        exact Nat.le_of_mul_le_mul_left h3 hB
      obtain ⟨s2, e2, hr2⟩ := readAligned_ro hc ((start + F) / c.blockSize) N N 0 s1 (hr1.inv h) hr1.seek this (by omega) (by omega)
      refine ⟨s2, ?_, hr2⟩
      rw [e2, hr1.v]
      congr 3
      funext k
      rw [Nat.add_zero, Nat.mul_comm]
      congr 2; omega
  obtain ⟨s2, e2, hr2⟩ := hst2
  rw [e2]
  simp only
  -- trailing bytes
  generalize hR : L - F - N * c.blockSize = R
  have hst3 : ∃ s3, (onlyIf (R > 0) (readUnaligned c (start + F + N * c.blockSize) R) [] : DM _) s2 =
      (.ok ((List.range R).map fun k => byteAt c s.v.blk V (start + F + N * c.blockSize + k)), s3) ∧ Ro c V s2 s3 := by
    by_cases hR0 : R = 0
    · exact ⟨s2, by rw [onlyIf_neg (by simp [hR0])]; simp [hR0], .refl hr2.seek⟩
    · rw [onlyIf_pos (by omega)]
      have hlt : R < c.blockSize := by
        rw [← hR, ← hN]
        split
        · have := Nat.div_add_mod (L - F) c.blockSize
          have := Nat.mod_lt (L - F) hB
          rw [Nat.mul_comm]; omega
        · omega
      have hal : (start + F + N * c.blockSize) % c.blockSize = 0 := by
        rw [Nat.add_mul_mod_self_right]
        by_cases hm : start % c.blockSize = 0
        · rw [← hF, if_neg (by simp [hm])]; exact hm
        · rw [if_pos hm] at hF
          by_cases hFF : F = c.blockSize - start % c.blockSize
          · rw [hFF, Nat.add_mod, Nat.mod_eq_of_lt (show c.blockSize - start % c.blockSize < c.blockSize by omega)]
            rw [show start % c.blockSize + (c.blockSize - start % c.blockSize) = c.blockSize by omega, Nat.mod_self]
          · omega
      have := readUnaligned_ro hc (hr2.inv (hr1.inv h)) hr2.seek (start := start + F + N * c.blockSize) (len := R) (by omega)
        (by rw [hal]; omega) (by omega)
      rw [hr2.v, hr1.v] at this; exact this
  obtain ⟨s3, e3, hr3⟩ := hst3
  rw [e3]
  refine ⟨s3, ?_, (hr1.trans hr2).trans hr3⟩
  simp only [run_pure]
  congr 2
  have : L = F + N * c.blockSize + R := by omega
  rw [this, map_range_add, map_range_add]
  simp only [Nat.add_assoc, List.append_assoc]

end RedFs
