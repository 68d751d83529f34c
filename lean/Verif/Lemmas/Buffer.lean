import Verif.Spec.Buffer
/-!
Lemmas about the buffer cache.
-/
set_option linter.unusedVariables false
set_option linter.unusedSimpArgs false
namespace RedFs.Buffer
open RedFs

/-! ### header fields -/

theorem leWord_bytes (w : BitVec 32) :
    Crc.leWord ((w >>> 0).setWidth 8) ((w >>> 8).setWidth 8) ((w >>> 16).setWidth 8) ((w >>> 24).setWidth 8) = w := by
  apply BitVec.eq_of_getLsbD_eq
  intro i hi
  simp only [Crc.leWord, BitVec.getLsbD_or, BitVec.getLsbD_shiftLeft, BitVec.getLsbD_setWidth,
    BitVec.getLsbD_ushiftRight, hi, decide_true, Bool.true_and]
  by_cases h1 : i < 8
  · have : i < 16 := by omega
    have : i < 24 := by omega
    simp [*]
  · by_cases h2 : i < 16
    · have e1 : i - 8 < 8 := by omega
      have e3 : i < 24 := by omega
      have e4 : 8 + (i - 8) = i := by omega
      have e5 : i - 8 < 32 := by omega
      simp [*]
    · by_cases h3 : i < 24
      · have e1 : i - 16 < 8 := by omega
        have e0 : ¬ i - 8 < 8 := by omega
        have e4 : 16 + (i - 16) = i := by omega
        have e5 : i - 16 < 32 := by omega
        simp [*]
      · have e1 : i - 24 < 8 := by omega
        have e0 : ¬ i - 8 < 8 := by omega
        have e2 : ¬ i - 16 < 8 := by omega
        have e4 : 24 + (i - 24) = i := by omega
        have e5 : i - 24 < 32 := by omega
        simp [*]

theorem get32_put32 (f : Bytes) (a : Nat) (w : BitVec 32) : get32 (put32 f a w) a = w := by
  unfold get32
  have h : ∀ k, k < 4 → put32 f a w (a + k) = (w >>> (8 * k)).setWidth 8 := by
    intro k hk
    unfold put32
    rw [if_pos (by omega)]
    congr 3; omega
  have h0 := h 0 (by omega)
  simp only [Nat.add_zero] at h0
  rw [h0, h 1 (by omega), h 2 (by omega), h 3 (by omega)]
  exact leWord_bytes w

theorem get32_congr {f g : Bytes} {a : Nat} (h : ∀ i, a ≤ i → i < a + 4 → f i = g i) :
    get32 f a = get32 g a := by
  unfold get32
  rw [h a (by omega) (by omega), h (a+1) (by omega) (by omega), h (a+2) (by omega) (by omega),
    h (a+3) (by omega) (by omega)]

theorem get64_congr {f g : Bytes} {a : Nat} (h : ∀ i, a ≤ i → i < a + 8 → f i = g i) :
    get64 f a = get64 g a := by
  unfold get64
  rw [get32_congr (fun i h1 h2 => h i h1 (by omega)), get32_congr (fun i h1 h2 => h i (by omega) (by omega))]

theorem get64_put64 (f : Bytes) (a : Nat) (w : BitVec 64) : get64 (put64 f a w) a = w := by
  have h1 : get32 (put64 f a w) a = w.setWidth 32 := by
    have : get32 (put64 f a w) a = get32 (put32 f a (w.setWidth 32)) a := by
      apply get32_congr
      intro i hi1 hi2
      unfold put64 put32
      rw [if_pos (by omega), if_pos (by omega)]
      apply BitVec.eq_of_getLsbD_eq
      intro j hj
      have : 8 * (i - a) + j < 32 := by omega
      simp [BitVec.getLsbD_setWidth, hj, this]
    rw [this, get32_put32]
  have h2 : get32 (put64 f a w) (a + 4) = (w >>> 32).setWidth 32 := by
    have : get32 (put64 f a w) (a + 4) = get32 (put32 f (a + 4) ((w >>> 32).setWidth 32)) (a + 4) := by
      apply get32_congr
      intro i hi1 hi2
      unfold put64 put32
      rw [if_pos (by omega), if_pos (by omega)]
      apply BitVec.eq_of_getLsbD_eq
      intro j hj
      have : 8 * (i - (a + 4)) + j < 32 := by omega
      have e : 32 + (8 * (i - (a + 4)) + j) = 8 * (i - a) + j := by omega
      simp [BitVec.getLsbD_setWidth, hj, this, e]
    rw [this, get32_put32]
  unfold get64
  rw [h1, h2]
  apply BitVec.eq_of_getLsbD_eq
  intro i hi
  simp only [BitVec.getLsbD_or, BitVec.getLsbD_setWidth, BitVec.getLsbD_shiftLeft, BitVec.getLsbD_ushiftRight, hi,
    decide_true, Bool.true_and]
  by_cases h : i < 32
  · simp [h]
  · have e1 : i - 32 < 32 := by omega
    have e2 : 32 + (i - 32) = i := by omega
    have e3 : i - 32 < 64 := by omega
    simp [h, e1, e2, e3]

theorem nodeCrc_congr {bs : Nat} {f g : Bytes} (h : ∀ i, 8 ≤ i → i < bs → f i = g i) :
    nodeCrc bs f = nodeCrc bs g := by
  unfold nodeCrc Crc.crcNode
  congr 1
  apply List.ext_getElem
  · simp
  · intro i h1 h2
    simp only [List.getElem_drop, List.getElem_map, List.getElem_range]
    simp at h1
    exact h _ (by omega) (by omega)

/-- The bytes written back for a node. -/
def stamp (bs : Nat) (f : Bytes) (sg : BitVec 32) (q : Nat) : Bytes :=
  put32 (put64 (put32 f 0 sg) 8 (BitVec.ofNat 64 q)) 4 (nodeCrc bs (put64 (put32 f 0 sg) 8 (BitVec.ofNat 64 q)))

theorem stamp_body (bs : Nat) (f : Bytes) (sg : BitVec 32) (q : Nat) (i : Nat) (h : 16 ≤ i) :
    stamp bs f sg q i = f i := by
  unfold stamp
  rw [put32, if_neg (by omega), put64, if_neg (by omega), put32, if_neg (by omega)]

/-- What is written back is accepted when it is read again. -/
theorem stamp_valid (e : Env) (m : Bool) (seq : Nat) (k : Kind) (f : Bytes) (sg : BitVec 32) (q : Nat)
    (hk : k.sig = some sg) (hq : q < seq) (hs : q < 18446744073709551616) :
    isValid e m seq k (stamp e.bs f sg q) = true := by
  have h1 : get32 (stamp e.bs f sg q) 0 = sg := by
    have : get32 (stamp e.bs f sg q) 0 = get32 (put32 f 0 sg) 0 := by
      apply get32_congr
      intro i h1 h2
      unfold stamp
      rw [put32, if_neg (by omega), put64, if_neg (by omega)]
    rw [this, get32_put32]
  have h2 : get32 (stamp e.bs f sg q) 4 = nodeCrc e.bs (stamp e.bs f sg q) := by
    unfold stamp
    rw [get32_put32]
    apply nodeCrc_congr
    intro i h1 h2
    symm
    generalize put64 (put32 f 0 sg) 8 (BitVec.ofNat 64 q) = x
    rw [put32, if_neg (by omega)]
  have h3 : get64 (stamp e.bs f sg q) 8 = BitVec.ofNat 64 q := by
    have : get64 (stamp e.bs f sg q) 8 = get64 (put64 (put32 f 0 sg) 8 (BitVec.ofNat 64 q)) 8 := by
      apply get64_congr
      intro i h1 h2
      unfold stamp
      rw [put32, if_neg (by omega)]
    rw [this, get64_put64]
  unfold isValid
  rw [hk]
  simp only [h1, ← h2, h3, decide_true, Bool.and_self, Bool.true_and]
  have : (BitVec.ofNat 64 q).toNat = q := by
    rw [BitVec.toNat_ofNat]; exact Nat.mod_eq_of_lt hs
  rw [this]
  have : ¬ seq ≤ q := by omega
  simp [this]

/-! ### the invariant -/

/-- The expected contents are safely on the device. -/
def OnDisk (e : Env) (s : Ctx) (vol b : Nat) (k : Kind) (f : Bytes) : Prop :=
  Same e k (s.disk vol b) f ∧ (k ≠ .data → isValid e true (s.seq vol) k (s.disk vol b) = true)

def refd (s : Ctx) (i : Nat) : Bool := decide (0 < (s.head i).ref)

structure Inv (e : Env) (s : Ctx) (E : Expect) : Prop where
  mru : s.mru.Perm (List.range e.n)
  used : s.used = ((List.range e.n).filter (refd s)).length
  uniq : ∀ i j vol b, Holds e s i vol b → Holds e s j vol b → i = j
  valid : ∀ i, i < e.n → 0 < (s.head i).ref → (s.head i).blk ≠ none
  seq : ∀ v, s.seq v < 18446744073709551616
  cached : ∀ vol b k f, E vol b = some (k, f) → ∀ i, Holds e s i vol b →
    (s.head i).kind = k ∧ Same e k (s.data i) f ∧ ((s.head i).dirty = true ∨ OnDisk e s vol b k f)
  disk : ∀ vol b k f, E vol b = some (k, f) → ¬ Cached e s vol b → OnDisk e s vol b k f

theorem Same.refl (e : Env) (k : Kind) (f : Bytes) : Same e k f f := fun _ _ _ => rfl
theorem Same.symm {e : Env} {k : Kind} {f g : Bytes} (h : Same e k f g) : Same e k g f :=
  fun i h1 h2 => (h i h1 h2).symm
theorem Same.trans {e : Env} {k : Kind} {f g h : Bytes} (h1 : Same e k f g) (h2 : Same e k g h) : Same e k f h :=
  fun i a b => (h1 i a b).trans (h2 i a b)

theorem isValid_mono {e : Env} {m m' : Bool} {q q' : Nat} {k : Kind} {f : Bytes} (hm : m' = true → m = true)
    (hq : q ≤ q') (h : isValid e m q k f = true) : isValid e m' q' k f = true := by
  unfold isValid at h ⊢
  split at h
  · cases h
  · simp only [Bool.and_eq_true, Bool.not_eq_true', Bool.and_eq_false_iff, decide_eq_true_eq, decide_eq_false_iff_not] at h ⊢
    refine ⟨h.1, ?_⟩
    rcases h.2 with h2 | h2
    · left; cases hb : m' with
      | false => rfl
      | true => rw [hm hb] at h2; cases h2
    · right; omega

/-- Nothing but the MRU order, critical flags, the transfer counter and the mount flags changed. -/
theorem Inv.congr {e : Env} {s s' : Ctx} {E : Expect} (h : Inv e s E) (h1 : s'.head = s.head)
    (h2 : s'.data = s.data) (h3 : s'.used = s.used) (h4 : s'.disk = s.disk) (h5 : s'.seq = s.seq)
    (h6 : s'.mru.Perm (List.range e.n)) : Inv e s' E := by
  have hh : ∀ i vol b, Holds e s' i vol b ↔ Holds e s i vol b := by intro i vol b; unfold Holds; rw [h1]
  have hc : ∀ vol b, Cached e s' vol b ↔ Cached e s vol b := by
    intro vol b; unfold Cached; simp only [hh]
  have ho : ∀ vol b k f, OnDisk e s' vol b k f ↔ OnDisk e s vol b k f := by
    intro vol b k f; unfold OnDisk; rw [h4, h5]
  have hr : refd s' = refd s := by funext i; unfold refd; rw [h1]
  constructor
  · exact h6
  · rw [h3, hr]; exact h.used
  · intro i j vol b; rw [hh, hh]; exact h.uniq i j vol b
  · rw [h1]; exact h.valid
  · rw [h5]; exact h.seq
  · intro vol b k f hE i hi
    rw [h1, h2, ho]
    exact h.cached vol b k f hE i ((hh _ _ _).1 hi)
  · intro vol b k f hE hi
    rw [ho]
    exact h.disk vol b k f hE (fun hx => hi ((hc _ _).2 hx))

theorem find_some {e : Env} {s : Ctx} {vol b i : Nat} (h : find e s vol b = some i) : Holds e s i vol b := by
  unfold find at h
  have h1 := List.find?_some h
  have h2 := List.mem_of_find?_eq_some h
  simp only [decide_eq_true_eq] at h1
  exact ⟨List.mem_range.1 h2, h1.1, h1.2⟩

theorem find_none {e : Env} {s : Ctx} {vol b : Nat} (h : find e s vol b = none) : ¬ Cached e s vol b := by
  rintro ⟨i, h1, h2, h3⟩
  unfold find at h
  rw [List.find?_eq_none] at h
  have := h i (List.mem_range.2 h1)
  simp [h2, h3] at this

theorem Inv.find_eq {e : Env} {s : Ctx} {E : Expect} (h : Inv e s E) {vol b i : Nat} (hi : Holds e s i vol b) :
    find e s vol b = some i := by
  rcases hf : find e s vol b with _ | j
  · exact absurd ⟨i, hi⟩ (find_none hf)
  · rw [h.uniq j i vol b (find_some hf) hi]

theorem makeMRU_perm {e : Env} {l : List Nat} {i : Nat} (h : l.Perm (List.range e.n)) :
    (makeMRU l i).Perm (List.range e.n) := by
  unfold makeMRU
  split
  · next hi => exact (List.perm_cons_erase hi).symm.trans h
  · exact h

theorem makeLRU_perm {e : Env} {l : List Nat} {i : Nat} (h : l.Perm (List.range e.n)) :
    (makeLRU l i).Perm (List.range e.n) := by
  unfold makeLRU
  split
  · next hi =>
    exact (List.perm_append_comm.trans (List.perm_cons_erase hi).symm).trans h
  · exact h

theorem victim_some {s : Ctx} {i : Nat} (h : victim s = some i) : i ∈ s.mru ∧ (s.head i).ref = 0 := by
  unfold victim at h
  have h1 := List.find?_some h
  have h2 := List.mem_of_find?_eq_some h
  simp only [decide_eq_true_eq] at h1
  exact ⟨List.mem_reverse.1 h2, h1⟩

theorem victim_none {s : Ctx} (h : victim s = none) : ∀ i ∈ s.mru, (s.head i).ref ≠ 0 := by
  unfold victim at h
  rw [List.find?_eq_none] at h
  intro i hi
  have := h i (List.mem_reverse.2 hi)
  simpa using this

theorem Inv.mem_mru {e : Env} {s : Ctx} {E : Expect} (h : Inv e s E) {i : Nat} : i ∈ s.mru ↔ i < e.n := by
  rw [h.mru.mem_iff, List.mem_range]

/-- A list of numbers below `n`: how the number of referenced buffers changes with one head. -/
theorem filter_len_same {n : Nat} {p q : Nat → Bool} (h : ∀ i, i < n → p i = q i) :
    ((List.range n).filter p).length = ((List.range n).filter q).length := by
  congr 1
  apply List.filter_congr
  intro i hi
  exact h i (List.mem_range.1 hi)

theorem filter_len_add {n : Nat} {p q : Nat → Bool} {i : Nat} (hi : i < n) (hp : p i = false) (hq : q i = true)
    (h : ∀ j, j ≠ i → p j = q j) :
    ((List.range n).filter q).length = ((List.range n).filter p).length + 1 := by
  induction n with
  | zero => omega
  | succ n ih =>
    rw [List.range_succ, List.filter_append, List.filter_append, List.length_append, List.length_append]
    by_cases hin : i = n
    · subst hin
      have : ((List.range i).filter q).length = ((List.range i).filter p).length :=
        filter_len_same (fun j hj => (h j (by omega)).symm)
      simp [this, hp, hq]
    · rw [ih (by omega)]
      have := h n (fun h => hin h.symm)
      rw [show List.filter p [n] = List.filter q [n] by simp [List.filter, this]]; omega


/-- One buffer changed. -/
theorem Inv.update {e : Env} {s s' : Ctx} {E E' : Expect} (h : Inv e s E) (i : Nat) (hi : i < e.n)
    (hh : ∀ j, j ≠ i → s'.head j = s.head j) (hd : ∀ j, j ≠ i → s'.data j = s.data j)
    (hmru : s'.mru.Perm (List.range e.n))
    (hused : s'.used = ((List.range e.n).filter (refd s')).length)
    (huniq : ∀ vol b, Holds e s' i vol b → ∀ j, j ≠ i → ¬ Holds e s j vol b)
    (hvalid : 0 < (s'.head i).ref → (s'.head i).blk ≠ none)
    (hseq : ∀ v, s'.seq v < 18446744073709551616)
    (hE : ∀ vol b k f, E' vol b = some (k, f) → ¬ Holds e s' i vol b →
      E vol b = some (k, f) ∧ (OnDisk e s vol b k f → OnDisk e s' vol b k f) ∧
      (Holds e s i vol b → OnDisk e s' vol b k f))
    (hnew : ∀ vol b k f, E' vol b = some (k, f) → Holds e s' i vol b →
      (s'.head i).kind = k ∧ Same e k (s'.data i) f ∧ ((s'.head i).dirty = true ∨ OnDisk e s' vol b k f)) :
    Inv e s' E' := by
  have hhold : ∀ j vol b, j ≠ i → (Holds e s' j vol b ↔ Holds e s j vol b) := by
    intro j vol b hj; unfold Holds; rw [hh j hj]
  constructor
  · exact hmru
  · exact hused
  · intro j k vol b h1 h2
    by_cases hj : j = i
    · by_cases hk : k = i
      · rw [hj, hk]
      · subst hj
        exact absurd ((hhold k vol b hk).1 h2) (huniq vol b h1 k hk)
    · by_cases hk : k = i
      · subst hk
        exact absurd ((hhold j vol b hj).1 h1) (huniq vol b h2 j hj)
      · exact h.uniq j k vol b ((hhold j vol b hj).1 h1) ((hhold k vol b hk).1 h2)
  · intro j hj hr
    by_cases hji : j = i
    · subst hji; exact hvalid hr
    · rw [hh j hji] at hr ⊢; exact h.valid j hj hr
  · exact hseq
  · intro vol b k f hEb j hj
    by_cases hji : j = i
    · subst hji; exact hnew vol b k f hEb hj
    · have hj' := (hhold j vol b hji).1 hj
      have hni : ¬ Holds e s' i vol b := fun hx => huniq vol b hx j hji hj'
      obtain ⟨h1, h2, h3⟩ := hE vol b k f hEb hni
      obtain ⟨c1, c2, c3⟩ := h.cached vol b k f h1 j hj'
      rw [hh j hji, hd j hji]
      exact ⟨c1, c2, c3.imp id h2⟩
  · intro vol b k f hEb hnc
    have hni : ¬ Holds e s' i vol b := fun hx => hnc ⟨i, hx⟩
    obtain ⟨h1, h2, h3⟩ := hE vol b k f hEb hni
    by_cases hc : Cached e s vol b
    · obtain ⟨j, hj⟩ := hc
      by_cases hji : j = i
      · subst hji; exact h3 hj
      · exact absurd ⟨j, (hhold j vol b hji).2 hj⟩ hnc
    · exact h2 (h.disk vol b k f h1 hc)

theorem OnDisk.mono {e : Env} {s s' : Ctx} {vol b : Nat} {k : Kind} {f : Bytes} (h : OnDisk e s vol b k f)
    (hd : s'.disk vol b = s.disk vol b) (hs : s.seq vol ≤ s'.seq vol) : OnDisk e s' vol b k f := by
  refine ⟨by rw [hd]; exact h.1, fun hk => ?_⟩
  rw [hd]
  exact isValid_mono id hs (h.2 hk)

theorem Kind.sig_none {k : Kind} : k.sig = none ↔ k = .data := by cases k <;> simp [Kind.sig]

/-- Everything `BufferWrite` does. -/
theorem bufWrite_spec {e : Env} {s s' : Ctx} {i b : Nat} {r : Except Err Unit} (hb : (s.head i).blk = some b)
    (hs : ∀ v, s.seq v < 18446744073709551616) (h : bufWrite e s i = (r, s')) :
    s'.head = s.head ∧ s'.used = s.used ∧ s'.mru = s.mru ∧ s'.mounted = s.mounted ∧
    (∀ j, j ≠ i → s'.data j = s.data j) ∧ Same e (s.head i).kind (s'.data i) (s.data i) ∧
    (∀ v, s.seq v ≤ s'.seq v ∧ s'.seq v < 18446744073709551616) ∧
    (∀ v x, ¬ (v = (s.head i).vol ∧ x = b) → s'.disk v x = s.disk v x) ∧
    (r = .ok () → OnDisk e s' (s.head i).vol b (s.head i).kind (s'.data i)) := by
  unfold bufWrite at h
  rw [hb] at h
  simp only at h
  by_cases hk : (s.head i).kind = .data
  · rw [if_pos hk] at h
    unfold devWrite at h
    simp only at h
    split at h
    · injection h with h1 h2
      subst h2
      refine ⟨rfl, rfl, rfl, rfl, fun _ _ => rfl, Same.refl _ _ _, fun v => ⟨Nat.le_refl _, hs v⟩, ?_, ?_⟩
      · intro v x hx; simp only [if_neg hx]
      · intro _
        refine ⟨?_, fun hk' => absurd hk hk'⟩
        show Same e _ (if _ then _ else _) _
        rw [if_pos ⟨rfl, rfl⟩]
        exact Same.refl _ _ _
    · injection h with h1 h2
      subst h2
      refine ⟨rfl, rfl, rfl, rfl, fun _ _ => rfl, Same.refl _ _ _, fun v => ⟨Nat.le_refl _, hs v⟩, ?_, ?_⟩
      · intro v x hx; simp only [if_neg hx]
      · intro hr; rw [← h1] at hr; cases hr
  · rw [if_neg hk] at h
    unfold finalize at h
    rcases hsg : (s.head i).kind.sig with _ | sg
    · exact absurd (Kind.sig_none.1 hsg) hk
    · simp only [hsg] at h
      split at h
      · next hx =>
        split at hx
        · injection hx with h1 h2; injection h1 with h1
          injection h with h3 h4
          subst h4; subst h2
          refine ⟨rfl, rfl, rfl, rfl, fun _ _ => rfl, Same.refl _ _ _, fun v => ⟨Nat.le_refl _, hs v⟩, fun _ _ _ => rfl, ?_⟩
          intro hr; rw [← h3] at hr; cases hr
        · injection hx with h1 h2; cases h1
      · next hx =>
        split at hx
        · injection hx with h1 h2; cases h1
        · next hq =>
          injection hx with h1 h2
          subst h2
          have hq' := hs (s.head i).vol
          have hseq : ∀ v, s.seq v ≤ (if v = (s.head i).vol then s.seq (s.head i).vol + 1 else s.seq v) ∧
              (if v = (s.head i).vol then s.seq (s.head i).vol + 1 else s.seq v) < 18446744073709551616 := by
            intro v
            split
            · next hv => subst hv; omega
            · exact ⟨Nat.le_refl _, hs v⟩
          have hsame : Same e (s.head i).kind (stamp e.bs (s.data i) sg (s.seq (s.head i).vol)) (s.data i) := by
            intro x hx1 hx2
            rcases hx2 with hx2 | hx2
            · exact absurd hx2 hk
            · exact stamp_body _ _ _ _ _ hx2
          unfold devWrite at h
          simp only [Ctx.setData, if_true] at h
          split at h
          · injection h with h1 h2
            subst h2
            refine ⟨rfl, rfl, rfl, rfl, ?_, ?_, hseq, ?_, ?_⟩
            · intro j hj; simp only [if_neg hj]
            · simp only [if_true]; exact hsame
            · intro v x hx; simp only [if_neg hx]
            · intro _
              refine ⟨?_, fun _ => ?_⟩
              · simp only [if_true, and_self]; exact Same.refl _ _ _
              · simp only [if_true, and_self]
                exact stamp_valid e true _ _ _ sg _ hsg (by omega) hq'
          · injection h with h1 h2
            subst h2
            refine ⟨rfl, rfl, rfl, rfl, ?_, ?_, hseq, ?_, ?_⟩
            · intro j hj; simp only [Ctx.critical, if_neg hj]
            · simp only [Ctx.critical, if_true]; exact hsame
            · intro v x hx; exact if_neg hx
            · intro hr; rw [← h1] at hr; cases hr

/-- Writing back a dirty buffer keeps the invariant, and its block is on the device if it succeeds. -/
theorem bufWrite_inv {e : Env} {s s' : Ctx} {E : Expect} {i b : Nat} {r : Except Err Unit} (h : Inv e s E)
    (hi : i < e.n) (hb : (s.head i).blk = some b) (hd : (s.head i).dirty = true) (hw : bufWrite e s i = (r, s')) :
    Inv e s' E ∧ (r = .ok () → ∀ k f, E (s.head i).vol b = some (k, f) → OnDisk e s' (s.head i).vol b k f) := by
  obtain ⟨h1, h2, h3, h4, h5, h6, h7, h8, h9⟩ := bufWrite_spec hb h.seq hw
  have hholds : ∀ j vol x, Holds e s' j vol x ↔ Holds e s j vol x := by intro j vol x; unfold Holds; rw [h1]
  have hself : Holds e s i (s.head i).vol b := ⟨hi, rfl, hb⟩
  constructor
  · apply h.update i hi
    · intro j _; rw [h1]
    · exact h5
    · rw [h3]; exact h.mru
    · rw [h2, h.used]; apply filter_len_same; intro j _; unfold refd; rw [h1]
    · intro vol x hx j hj hj'
      exact hj (h.uniq j i vol x hj' ((hholds _ _ _).1 hx))
    · rw [h1]; exact h.valid i hi
    · exact fun v => (h7 v).2
    · intro vol x k f hE hn
      have hn' : ¬ (vol = (s.head i).vol ∧ x = b) := by
        rintro ⟨rfl, rfl⟩; exact hn ((hholds _ _ _).2 hself)
      refine ⟨hE, fun ho => ho.mono (h8 vol x hn') (h7 vol).1, fun hx => absurd ((hholds _ _ _).2 hx) hn⟩
    · intro vol x k f hE hx
      rw [h1]
      obtain ⟨c1, c2, c3⟩ := h.cached vol x k f hE i ((hholds _ _ _).1 hx)
      exact ⟨c1, Same.trans (c1 ▸ h6) c2, Or.inl hd⟩
  · intro hr k f hE
    obtain ⟨c1, c2, c3⟩ := h.cached _ b k f hE i hself
    obtain ⟨o1, o2⟩ := h9 hr
    rw [c1] at o1 o2 h6
    exact ⟨o1.trans (h6.trans c2), o2⟩


theorem refd_setHead (s : Ctx) (i : Nat) (h : Head) (j : Nat) :
    refd (s.setHead i h) j = if j = i then decide (0 < h.ref) else refd s j := by
  unfold refd Ctx.setHead; simp only; split <;> rfl

/-- Marking a buffer clean whose block is on the device. -/
theorem Inv.clean {e : Env} {s : Ctx} {E : Expect} (h : Inv e s E) {i b : Nat} (hi : i < e.n)
    (hb : (s.head i).blk = some b)
    (ho : ∀ k f, E (s.head i).vol b = some (k, f) → OnDisk e s (s.head i).vol b k f) :
    Inv e (s.setHead i { s.head i with dirty := false }) E := by
  have hH : ∀ j vol x, Holds e (s.setHead i { s.head i with dirty := false }) j vol x ↔ Holds e s j vol x := by
    intro j vol x
    unfold Holds Ctx.setHead
    by_cases hj : j = i
    · subst hj; simp
    · simp [hj]
  apply h.update i hi
  · intro j hj; simp [Ctx.setHead, hj]
  · intro j _; rfl
  · exact h.mru
  · show s.used = _
    rw [h.used]; apply filter_len_same; intro j _
    rw [refd_setHead]; split
    · next hj => subst hj; rfl
    · rfl
  · intro vol x hx j hj hj'
    exact hj (h.uniq j i vol x hj' ((hH _ _ _).1 hx))
  · simpa [Ctx.setHead] using h.valid i hi
  · exact h.seq
  · intro vol x k f hE hn
    exact ⟨hE, id, fun hx => absurd ((hH _ _ _).2 hx) hn⟩
  · intro vol x k f hE hx
    have hx' := (hH _ _ _).1 hx
    obtain ⟨c1, c2, _⟩ := h.cached vol x k f hE i hx'
    simp only [Ctx.setHead, if_true]
    refine ⟨c1, c2, Or.inr ?_⟩
    obtain ⟨_, hv, hbx⟩ := hx'
    have : x = b := by rw [hb] at hbx; injection hbx with hbx; exact hbx.symm
    subst this; subst hv
    exact ho k f hE

/-- Invalidating an unreferenced buffer. -/
theorem Inv.drop {e : Env} {s : Ctx} {E E' : Expect} (h : Inv e s E) {i : Nat} (hi : i < e.n)
    (hr : (s.head i).ref = 0) {mru : List Nat} (hm : mru.Perm (List.range e.n))
    (hE : ∀ vol b k f, E' vol b = some (k, f) → E vol b = some (k, f) ∧
      (Holds e s i vol b → OnDisk e s vol b k f)) :
    Inv e { (s.setHead i { s.head i with blk := none }) with mru := mru } E' := by
  have hno : ∀ vol x, ¬ Holds e { (s.setHead i { s.head i with blk := none }) with mru := mru } i vol x := by
    intro vol x hx; have := hx.2.2; simp [Ctx.setHead] at this
  apply h.update i hi
  · intro j hj; simp [Ctx.setHead, hj]
  · intro j _; rfl
  · exact hm
  · show s.used = _
    rw [h.used]; apply filter_len_same; intro j _
    show refd s j = refd (s.setHead i _) j
    rw [refd_setHead]; split
    · next hj => subst hj; simp [refd, hr]
    · rfl
  · intro vol x hx; exact absurd hx (hno vol x)
  · intro h0; simp [Ctx.setHead, hr] at h0
  · exact h.seq
  · intro vol x k f hE' _
    obtain ⟨e1, e2⟩ := hE vol x k f hE'
    exact ⟨e1, id, e2⟩
  · intro vol x k f _ hx; exact absurd hx (hno vol x)

/-- Flushing. -/
theorem flushLoop_inv {e : Env} (vol st ct : Nat) : ∀ (l : List Nat) (s s' : Ctx) (E : Expect) (r : Except Err Unit),
    Inv e s E → (∀ i ∈ l, i < e.n) → flushLoop e vol st ct l s = (r, s') →
    Inv e s' E ∧ (∀ j, (s'.head j).ref = (s.head j).ref ∧ (s'.head j).blk = (s.head j).blk ∧
      (s'.head j).vol = (s.head j).vol ∧ (s'.head j).kind = (s.head j).kind ∧
      Same e (s.head j).kind (s'.data j) (s.data j)) := by
  intro l
  induction l with
  | nil =>
    intro s s' E r h _ hr
    unfold flushLoop at hr
    injection hr with h1 h2
    subst h2
    exact ⟨h, fun j => ⟨rfl, rfl, rfl, rfl, Same.refl _ _ _⟩⟩
  | cons i rest ih =>
    intro s s' E r h hl hr
    unfold flushLoop at hr
    simp only at hr
    split at hr
    · next hc =>
      obtain ⟨c1, c2, b, hb, c3⟩ := hc
      have hb' : (s.head i).blk = some b := hb
      have hi := hl i (List.mem_cons_self)
      rcases hw : bufWrite e s i with ⟨r1, s1⟩
      obtain ⟨g1, g2⟩ := bufWrite_inv h hi hb' c2 hw
      obtain ⟨w1, w2, w3, w4, w5, w6, w7, w8, w9⟩ := bufWrite_spec hb' h.seq hw
      have hbase : ∀ j, Same e (s.head j).kind (s1.data j) (s.data j) := by
        intro j
        by_cases hj : j = i
        · subst hj; exact w6
        · rw [w5 j hj]; exact Same.refl _ _ _
      rw [hw] at hr
      rcases r1 with x | ⟨⟩
      · simp only at hr
        injection hr with h1 h2
        subst h2
        exact ⟨g1, fun j => ⟨by rw [w1], by rw [w1], by rw [w1], by rw [w1], hbase j⟩⟩
      · simp only at hr
        have hcl : Inv e (s1.setHead i { s1.head i with dirty := false }) E := by
          apply g1.clean hi (b := b)
          · rw [w1]; exact hb'
          · rw [w1]; exact g2 rfl
        obtain ⟨f1, f2⟩ := ih _ s' E r hcl (fun j hj => hl j (List.mem_cons_of_mem _ hj)) hr
        refine ⟨f1, fun j => ?_⟩
        obtain ⟨q1, q2, q3, q4, q5⟩ := f2 j
        have hx : ∀ j, ((s1.setHead i { s1.head i with dirty := false }).head j).ref = (s.head j).ref ∧
            ((s1.setHead i { s1.head i with dirty := false }).head j).blk = (s.head j).blk ∧
            ((s1.setHead i { s1.head i with dirty := false }).head j).vol = (s.head j).vol ∧
            ((s1.setHead i { s1.head i with dirty := false }).head j).kind = (s.head j).kind := by
          intro j
          unfold Ctx.setHead
          simp only
          split
          · next hj => subst hj; rw [w1]; exact ⟨rfl, rfl, rfl, rfl⟩
          · rw [w1]; exact ⟨rfl, rfl, rfl, rfl⟩
        obtain ⟨y1, y2, y3, y4⟩ := hx j
        rw [y1] at q1; rw [y2] at q2; rw [y3] at q3; rw [y4] at q4 q5
        exact ⟨q1, q2, q3, q4, q5.trans (hbase j)⟩
    · exact ih s s' E r h (fun j hj => hl j (List.mem_cons_of_mem _ hj)) hr

/-- Taking a reference on a buffer which holds a block. -/
theorem Inv.addRef {e : Env} {s : Ctx} {E : Expect} (h : Inv e s E) {i vol b : Nat} (hold : Holds e s i vol b)
    (dirty : Bool) (kind : Kind) (hk : kind = (s.head i).kind) : Inv e (addRef s i dirty kind) E := by
  have hi := hold.1
  have hhead : ∀ j, ((Buffer.addRef s i dirty kind).head j) = if j = i then
      { s.head i with ref := (s.head i).ref + 1, dirty := (s.head i).dirty || dirty,
                      kind := if kind = .data then (s.head i).kind else kind } else s.head j := by
    intro j; rfl
  have hkk : (if kind = .data then (s.head i).kind else kind) = (s.head i).kind := by split <;> simp [hk]
  have hH : ∀ j v x, Holds e (Buffer.addRef s i dirty kind) j v x ↔ Holds e s j v x := by
    intro j v x
    unfold Holds; rw [hhead]
    by_cases hj : j = i
    · subst hj; simp
    · simp [hj]
  apply h.update i hi
  · intro j hj; rw [hhead, if_neg hj]
  · intro j _; rfl
  · exact makeMRU_perm h.mru
  · show (if (s.head i).ref + 1 = 1 then s.used + 1 else s.used) = _
    have hr : ∀ j, refd (Buffer.addRef s i dirty kind) j = if j = i then true else refd s j := by
      intro j; unfold refd; rw [hhead]
      by_cases hj : j = i
      · simp [hj]
      · simp [hj]
    by_cases h0 : (s.head i).ref = 0
    · rw [if_pos (by omega), h.used]
      symm
      apply filter_len_add hi (p := refd s)
      · simp [refd, h0]
      · rw [hr, if_pos rfl]
      · intro j hj; rw [hr, if_neg hj]
    · rw [if_neg (by omega), h.used]
      apply filter_len_same
      intro j _
      rw [hr]
      split
      · next hj => subst hj; simp [refd]; omega
      · rfl
  · intro v x hx j hj hj'
    exact hj (h.uniq j i v x hj' ((hH _ _ _).1 hx))
  · intro _; rw [hhead, if_pos rfl]; simp [hold.2.2]
  · exact h.seq
  · intro v x k f hE hn
    exact ⟨hE, id, fun hx => absurd ((hH _ _ _).2 hx) hn⟩
  · intro v x k f hE hx
    obtain ⟨c1, c2, c3⟩ := h.cached v x k f hE i ((hH _ _ _).1 hx)
    rw [hhead, if_pos rfl]
    simp only [hkk]
    refine ⟨c1, c2, ?_⟩
    rcases c3 with c3 | c3
    · left; simp [c3]
    · right; exact c3

/-- Filling an invalid, unreferenced buffer and taking the first reference. -/
theorem Inv.place {e : Env} {s s' : Ctx} {E E' : Expect} (h : Inv e s E) {i vol b : Nat} (hi : i < e.n)
    (hr : (s.head i).ref = 0) (hfree : (s.head i).blk = none) (hnc : ¬ Cached e s vol b) (d : Bool) (kind : Kind)
    (g : Bytes)
    (hh : s'.head i = ⟨some b, vol, 1, d, kind⟩) (hh' : ∀ j, j ≠ i → s'.head j = s.head j)
    (hd : s'.data i = g) (hd' : ∀ j, j ≠ i → s'.data j = s.data j) (hu : s'.used = s.used + 1)
    (hm : s'.mru.Perm (List.range e.n)) (hdisk : s'.disk = s.disk) (hseq : s'.seq = s.seq)
    (hE : ∀ v x, ¬ (v = vol ∧ x = b) → E' v x = E v x)
    (hE' : ∀ k f, E' vol b = some (k, f) → kind = k ∧ Same e k g f ∧ (d = true ∨ OnDisk e s vol b k f)) :
    Inv e s' E' := by
  have ho : ∀ v x k f, OnDisk e s' v x k f ↔ OnDisk e s v x k f := by
    intro v x k f; unfold OnDisk; rw [hdisk, hseq]
  apply h.update i hi hh' hd' hm
  · rw [hu, h.used]
    symm
    apply filter_len_add hi (p := refd s)
    · simp [refd, hr]
    · simp [refd, hh]
    · intro j hj; unfold refd; rw [hh' j hj]
  · intro v x hx j hj hj'
    obtain ⟨_, h2, h3⟩ := hx
    rw [hh] at h2 h3
    simp only at h2 h3
    injection h3 with h3
    subst h2; subst h3
    exact hnc ⟨j, hj'⟩
  · rw [hh]; simp
  · rw [hseq]; exact h.seq
  · intro v x k f hEx hn
    have hne : ¬ (v = vol ∧ x = b) := by
      rintro ⟨rfl, rfl⟩; exact hn ⟨hi, by rw [hh], by rw [hh]⟩
    rw [hE v x hne] at hEx
    refine ⟨hEx, (ho _ _ _ _).2, fun hx => ?_⟩
    have := hx.2.2; rw [hfree] at this; cases this
  · intro v x k f hEx hx
    obtain ⟨_, h2, h3⟩ := hx
    rw [hh] at h2 h3
    simp only at h2 h3
    injection h3 with h3
    subst h2; subst h3
    obtain ⟨e1, e2, e3⟩ := hE' k f hEx
    rw [hh, hd, ho]
    exact ⟨e1, e2, e3⟩


theorem Inv.all_refd {e : Env} {s : Ctx} {E : Expect} (h : Inv e s E) :
    s.used = e.n ↔ ∀ i, i < e.n → 0 < (s.head i).ref := by
  rw [h.used]
  constructor
  · intro hl i hi
    have h1 : (List.range e.n).filter (refd s) = List.range e.n := by
      apply List.Sublist.eq_of_length (List.filter_sublist)
      rw [hl, List.length_range]
    have : i ∈ (List.range e.n).filter (refd s) := by rw [h1]; exact List.mem_range.2 hi
    have := (List.mem_filter.1 this).2
    simpa [refd] using this
  · intro ha
    have h1 : (List.range e.n).filter (refd s) = List.range e.n := by
      rw [List.filter_eq_self]
      intro i hi
      simpa [refd] using ha i (List.mem_range.1 hi)
    rw [h1, List.length_range]

theorem Inv.critical {e : Env} {s : Ctx} {E : Expect} (h : Inv e s E) (vol : Nat) : Inv e (s.critical vol) E :=
  h.congr rfl rfl rfl rfl rfl h.mru

/-- The contents a `get` which succeeds hands out, and its effect. -/
structure GetOk (e : Env) (s s' : Ctx) (E : Expect) (vol b : Nat) (kind : Kind) (new d : Bool) (i : Nat) : Prop where
  lt : i < e.n
  holds : Holds e s' i vol b
  kind : (s'.head i).kind = kind
  ref : 0 < (s'.head i).ref
  dirty : d = true → (s'.head i).dirty = true
  zero : new = true → s'.data i = fun _ => 0
  same : new = false → ∀ k f, E vol b = some (k, f) → Same e k (s'.data i) f

/-- The expectation after a `get` with the given result. -/
def getExpect (E : Expect) (vol b : Nat) (kind : Kind) (new d : Bool) : Except Err Nat → Expect
  | .ok _ => if new then E.set vol b (if d then some (kind, fun _ => 0) else none) else E
  | .error _ => E

theorem bget_spec {e : Env} {s s' : Ctx} {E : Expect} {vol b : Nat} {kind : Kind} {new d : Bool}
    {r : Except Err Nat} (h : Inv e s E) (hl : new = true ∨ ∀ k f, E vol b = some (k, f) → kind = k)
    (hr : bget e s vol b kind new d = (r, s')) :
    Inv e s' (getExpect E vol b kind new d r) ∧
    (∀ j, j < e.n → 0 < (s.head j).ref → (s'.head j).blk = (s.head j).blk ∧ (s'.head j).vol = (s.head j).vol ∧
      (s'.head j).kind = (s.head j).kind ∧ (s.head j).ref ≤ (s'.head j).ref ∧ s'.data j = s.data j) ∧
    (∀ i, r = .ok i → GetOk e s s' E vol b kind new d i ∧
      (new = false → find e s vol b = none → kind ≠ .data →
        isValid e (s'.mounted vol) (s'.seq vol) kind (s'.disk vol b) = true ∧ s'.data i = s'.disk vol b)) ∧
    (r = .error .ebusy ↔ b < e.blockCount vol ∧ ¬ Cached e s vol b ∧ ∀ i, i < e.n → 0 < (s.head i).ref) := by
  unfold bget at hr
  by_cases hb : e.blockCount vol ≤ b
  · rw [if_pos hb] at hr
    injection hr with h1 h2
    subst h1; subst h2
    refine ⟨h, fun j _ _ => ⟨rfl, rfl, rfl, Nat.le_refl _, rfl⟩, fun i hi => (by cases hi), ?_⟩
    constructor
    · intro hx; cases hx
    · intro hx; omega
  rw [if_neg hb] at hr
  rcases hf : find e s vol b with _ | i
  · -- miss
    simp only [hf] at hr
    have hnc := find_none hf
    by_cases hu : s.used = e.n
    · rw [if_pos hu] at hr
      injection hr with h1 h2
      subst h1; subst h2
      refine ⟨h.critical vol, fun j _ _ => ⟨rfl, rfl, rfl, Nat.le_refl _, rfl⟩, fun i hi => (by cases hi), ?_⟩
      exact ⟨fun _ => ⟨by omega, hnc, h.all_refd.1 hu⟩, fun _ => rfl⟩
    rw [if_neg hu] at hr
    have hnotall : ¬ ∀ i, i < e.n → 0 < (s.head i).ref := fun hx => hu (h.all_refd.2 hx)
    have hbusy : ∀ {r : Except Err Nat}, r ≠ .error .ebusy →
        (r = .error .ebusy ↔ b < e.blockCount vol ∧ ¬ Cached e s vol b ∧ ∀ i, i < e.n → 0 < (s.head i).ref) :=
      fun hr => ⟨fun hx => absurd hx hr, fun hx => absurd hx.2.2 hnotall⟩
    rcases hv : victim s with _ | i
    · exact absurd (fun i hi => Nat.pos_of_ne_zero (victim_none hv i (h.mem_mru.2 hi))) hnotall
    obtain ⟨hi, href⟩ := victim_some hv
    have hi : i < e.n := h.mem_mru.1 hi
    simp only [hv] at hr
    -- write back the victim
    rcases hw : (if (s.head i).dirty = true ∧ (s.head i).blk ≠ none then bufWrite e s i else (.ok (), s)) with ⟨r1, s1⟩
    rw [hw] at hr
    have key : Inv e s1 E ∧ s1.head = s.head ∧ s1.used = s.used ∧ s1.mru = s.mru ∧
        (∀ j, j ≠ i → s1.data j = s.data j) ∧
        (r1 = .ok () → ∀ v x k f, E v x = some (k, f) → Holds e s1 i v x → OnDisk e s1 v x k f) ∧
        (r1 ≠ .error .ebusy) := by
      split at hw
      · next hc =>
        obtain ⟨hd, hbn⟩ := hc
        obtain ⟨x, hx⟩ := Option.ne_none_iff_exists'.1 hbn
        obtain ⟨g1, g2⟩ := bufWrite_inv h hi hx hd hw
        obtain ⟨w1, w2, w3, w4, w5, w6, w7, w8, w9⟩ := bufWrite_spec hx h.seq hw
        refine ⟨g1, w1, w2, w3, w5, ?_, ?_⟩
        · intro hr1 v y k f hE hy
          obtain ⟨_, y2, y3⟩ := hy
          rw [w1] at y2 y3
          rw [hx] at y3; injection y3 with y3
          subst y2; subst y3
          exact g2 hr1 k f hE
        · intro hr1
          rw [hr1] at hw
          unfold bufWrite at hw
          rw [hx] at hw
          simp only at hw
          split at hw
          · unfold devWrite at hw; simp only at hw; split at hw <;> cases hw
          · unfold finalize devWrite at hw
            simp only at hw
            split at hw
            · next hq =>
              split at hq
              · cases hq; cases hw
              · skip
                split at hq
                · cases hq; cases hw
                · cases hq
            · split at hw <;> cases hw
      · next hc =>
        injection hw with hw1 hw2
        subst hw2
        refine ⟨h, rfl, rfl, rfl, fun _ _ => rfl, ?_, ?_⟩
        · intro _ v x k f hE hx
          obtain ⟨_, _, c3⟩ := h.cached v x k f hE i hx
          rcases c3 with c3 | c3
          · exact absurd ⟨c3, by rw [hx.2.2]; simp⟩ hc
          · exact c3
        · rw [← hw1]; intro hx; cases hx
    obtain ⟨k1, k2, k3, k4, k5, k6, k7⟩ := key
    have hkeep : ∀ j, j < e.n → 0 < (s.head j).ref → j ≠ i := by
      intro j _ hj hx; subst hx; omega
    rcases r1 with x | ⟨⟩
    · simp only at hr
      injection hr with h1 h2
      subst h1; subst h2
      refine ⟨k1, ?_, fun i hi => (by cases hi), hbusy (by intro hx; injection hx with hx; subst hx; exact k7 rfl)⟩
      intro j hj1 hj2
      rw [k2, k5 j (hkeep j hj1 hj2)]
      exact ⟨rfl, rfl, rfl, Nat.le_refl _, rfl⟩
    simp only at hr
    have hnc1 : ¬ Cached e s1 vol b := by
      rintro ⟨j, hj⟩; exact hnc ⟨j, by unfold Holds at hj ⊢; rw [k2] at hj; exact hj⟩
    have href1 : (s1.head i).ref = 0 := by rw [k2]; exact href
    -- the victim becomes invalid
    have hdrop : Inv e (s1.setHead i { s1.head i with blk := none }) E := by
      have := k1.drop (E' := E) hi href1 k1.mru (fun v x k f hE => ⟨hE, fun hx => k6 rfl v x k f hE hx⟩)
      exact this.congr rfl rfl rfl rfl rfl k1.mru
    have hnc2 : ¬ Cached e (s1.setHead i { s1.head i with blk := none }) vol b := by
      rintro ⟨j, hj⟩
      by_cases hji : j = i
      · subst hji; have := hj.2.2; simp [Ctx.setHead] at this
      · apply hnc1
        refine ⟨j, ?_⟩
        unfold Holds at hj ⊢
        simpa [Ctx.setHead, hji] using hj
    cases new with
    | true =>
      unfold fill at hr
      simp only [if_true] at hr
      injection hr with h1 h2
      subst h1
      refine ⟨?_, ?_, ?_, hbusy (by intro hx; cases hx)⟩
      · apply hdrop.place hi (by simp [Ctx.setHead, href1]) (by simp [Ctx.setHead]) hnc2 d kind (fun _ => 0)
        · rw [← h2]; simp [Buffer.addRef, Ctx.setHead, Ctx.setData, href1]; intro hk; exact hk.symm
        · intro j hj; rw [← h2]; simp [Buffer.addRef, Ctx.setHead, Ctx.setData, hj]
        · rw [← h2]; simp [Buffer.addRef, Ctx.setHead, Ctx.setData]
        · intro j hj; rw [← h2]; simp [Buffer.addRef, Ctx.setHead, Ctx.setData, hj]
        · rw [← h2]; simp [Buffer.addRef, Ctx.setHead, Ctx.setData, href1]
        · rw [← h2]; exact makeMRU_perm k1.mru
        · rw [← h2]; rfl
        · rw [← h2]; rfl
        · intro v x hvx; simp only [getExpect, if_true]; unfold Expect.set; rw [if_neg hvx]
        · intro k f hE
          simp only [getExpect, if_true, Expect.set, and_self] at hE
          split at hE
          · next hd => injection hE with hE; injection hE with e1 e2; subst e1; subst e2
                       exact ⟨rfl, Same.refl _ _ _, Or.inl hd⟩
          · cases hE
      · intro j hj1 hj2
        have hne := hkeep j hj1 hj2
        rw [← h2]
        simp [Buffer.addRef, Ctx.setHead, Ctx.setData, hne, k2, k5 j hne]
      · intro i' hi'
        injection hi' with hi'
        subst hi'
        refine ⟨⟨hi, ⟨hi, ?_, ?_⟩, ?_, ?_, ?_, ?_, fun hx => by cases hx⟩, fun hx => by cases hx⟩
        · rw [← h2]; simp [Buffer.addRef, Ctx.setHead, Ctx.setData]
        · rw [← h2]; simp [Buffer.addRef, Ctx.setHead, Ctx.setData]
        · rw [← h2]; simp [Buffer.addRef, Ctx.setHead, Ctx.setData]; intro hk; exact hk.symm
        · rw [← h2]; simp [Buffer.addRef, Ctx.setHead, Ctx.setData]
        · intro hd; rw [← h2]; simp [Buffer.addRef, Ctx.setHead, Ctx.setData, hd]
        · intro _; rw [← h2]; simp [Buffer.addRef, Ctx.setHead, Ctx.setData]
    | false =>
      have hl : ∀ k f, E vol b = some (k, f) → kind = k := by simpa using hl
      unfold fill at hr
      simp only [Bool.false_eq_true, if_false] at hr
      split at hr
      · next x s2 hx =>
        injection hr with h1 h2
        subst h1; subst h2
        have hx' : Inv e s2 E ∧ (∀ j, j ≠ i → s2.head j = s1.head j ∧ s2.data j = s1.data j) ∧ x = .eio := by
          split at hx
          · injection hx with a1 a2
            injection a1 with a1
            subst a2
            exact ⟨(hdrop.congr (s' := { (s1.setHead i { s1.head i with blk := none }) with tick := s1.tick + 1 })
              rfl rfl rfl rfl rfl k1.mru).critical vol,
              fun j hj => by simp [Ctx.critical, Ctx.setHead, hj], a1.symm⟩
          · split at hx
            · injection hx with a1 a2
              injection a1 with a1
              have hbase : Inv e (({ (s1.setHead i { s1.head i with blk := none }) with tick := s1.tick + 1 } : Ctx).setData i
                  ((s1.setHead i { s1.head i with blk := none }).disk vol b)) E := by
                apply hdrop.update i hi
                · intro j hj; rfl
                · intro j hj; simp [Ctx.setData, hj]
                · exact k1.mru
                · exact hdrop.used
                · intro v y hy; have := hy.2.2; simp [Ctx.setHead, Ctx.setData] at this
                · intro h0; simp [Ctx.setHead, Ctx.setData, href1] at h0
                · exact hdrop.seq
                · intro v y k f hE hn
                  refine ⟨hE, id, fun hy => ?_⟩
                  have := hy.2.2; simp [Ctx.setHead] at this
                · intro v y k f hE hy; have := hy.2.2; simp [Ctx.setHead, Ctx.setData] at this
              refine ⟨?_, fun j hj => ?_, a1.symm⟩
              · subst a2
                split
                · exact hbase
                · exact hbase.critical vol
              · subst a2
                split <;> simp [Ctx.critical, Ctx.setHead, Ctx.setData, hj]
            · cases hx
        obtain ⟨y1, y2, y3⟩ := hx'
        refine ⟨y1, ?_, fun i hi => (by cases hi), hbusy (by rw [y3]; intro hx; cases hx)⟩
        intro j hj1 hj2
        have hne := hkeep j hj1 hj2
        rw [(y2 j hne).1, (y2 j hne).2, k2, k5 j hne]
        exact ⟨rfl, rfl, rfl, Nat.le_refl _, rfl⟩
      · next s2 hx =>
        injection hr with h1 h2
        subst h1
        split at hx
        · cases hx
        split at hx
        · cases hx
        next hval =>
        injection hx with a1 a2
        have hsome : ∀ k f, E vol b = some (k, f) → Same e k (s1.disk vol b) f ∧ OnDisk e s1 vol b k f := by
          intro k f hE
          have := k1.disk vol b k f hE hnc1
          exact ⟨this.1, this⟩
        refine ⟨?_, ?_, ?_, hbusy (by intro hx; cases hx)⟩
        · apply hdrop.place hi (by simp [Ctx.setHead, href1]) (by simp [Ctx.setHead]) hnc2 d kind (s1.disk vol b)
          · rw [← h2, ← a2]; simp [Buffer.addRef, Ctx.setHead, Ctx.setData, href1]; intro hk; exact hk.symm
          · intro j hj; rw [← h2, ← a2]; simp [Buffer.addRef, Ctx.setHead, Ctx.setData, hj]
          · rw [← h2, ← a2]; simp [Buffer.addRef, Ctx.setHead, Ctx.setData]
          · intro j hj; rw [← h2, ← a2]; simp [Buffer.addRef, Ctx.setHead, Ctx.setData, hj]
          · rw [← h2, ← a2]; simp [Buffer.addRef, Ctx.setHead, Ctx.setData, href1]
          · rw [← h2, ← a2]; exact makeMRU_perm k1.mru
          · rw [← h2, ← a2]; rfl
          · rw [← h2, ← a2]; rfl
          · intro v x hvx; rfl
          · intro k f hE
            exact ⟨hl k f hE, (hsome k f hE).1, Or.inr (hsome k f hE).2⟩
        · intro j hj1 hj2
          have hne := hkeep j hj1 hj2
          rw [← h2, ← a2]
          simp [Buffer.addRef, Ctx.setHead, Ctx.setData, hne, k2, k5 j hne]
        · intro i' hi'
          injection hi' with hi'
          subst hi'
          refine ⟨⟨hi, ⟨hi, ?_, ?_⟩, ?_, ?_, ?_, fun hx => (by cases hx), ?_⟩, ?_⟩
          · rw [← h2, ← a2]; simp [Buffer.addRef, Ctx.setHead, Ctx.setData]
          · rw [← h2, ← a2]; simp [Buffer.addRef, Ctx.setHead, Ctx.setData]
          · rw [← h2, ← a2]; simp [Buffer.addRef, Ctx.setHead, Ctx.setData]; intro hk; exact hk.symm
          · rw [← h2, ← a2]; simp [Buffer.addRef, Ctx.setHead, Ctx.setData]
          · intro hd; rw [← h2, ← a2]; simp [Buffer.addRef, Ctx.setHead, Ctx.setData, hd]
          · intro _ k f hE
            rw [← h2, ← a2]
            simpa [Buffer.addRef, Ctx.setHead, Ctx.setData] using (hsome k f hE).1
          · intro _ _ hk
            have hv : isValid e (s1.mounted vol) (s1.seq vol) kind (s1.disk vol b) = true := by
              cases hc : isValid e (s1.mounted vol) (s1.seq vol) kind (s1.disk vol b) with
              | true => rfl
              | false => exact absurd ⟨hk, hc⟩ hval
            rw [← h2, ← a2]
            refine ⟨hv, ?_⟩
            simp [Buffer.addRef, Ctx.setHead, Ctx.setData]
  · -- hit
    simp only [hf] at hr
    have hold := find_some hf
    have hnb : ∀ {r : Except Err Nat}, r ≠ .error .ebusy →
        (r = .error .ebusy ↔ b < e.blockCount vol ∧ ¬ Cached e s vol b ∧ ∀ i, i < e.n → 0 < (s.head i).ref) :=
      fun hr => ⟨fun hx => absurd hx hr, fun hx => absurd ⟨i, hold⟩ hx.2.1⟩
    split at hr
    · injection hr with h1 h2
      subst h1; subst h2
      exact ⟨h.critical vol, fun j _ _ => ⟨rfl, rfl, rfl, Nat.le_refl _, rfl⟩, fun i hi => (by cases hi),
        hnb (by intro hx; cases hx)⟩
    · next hc =>
      injection hr with h1 h2
      subst h1
      have hnew : new = false := by cases new <;> simp_all
      have hk : kind = (s.head i).kind := by
        by_cases hk : kind = (s.head i).kind
        · exact hk
        · exact absurd (Or.inr hk) hc
      subst hnew
      subst h2
      have hadd := h.addRef hold d kind hk
      have hkk : (if kind = .data then (s.head i).kind else kind) = kind := by split <;> simp_all
      refine ⟨hadd, ?_, ?_, hnb (by intro hx; cases hx)⟩
      · intro j hj1 hj2
        by_cases hji : j = i
        · subst hji
          simp only [Buffer.addRef, Ctx.setHead, if_true, hkk]
          exact ⟨trivial, trivial, hk, Nat.le_succ _, trivial⟩
        · simp [Buffer.addRef, Ctx.setHead, hji]
      · intro i' hi'
        injection hi' with hi'
        subst hi'
        refine ⟨⟨hold.1, ⟨hold.1, ?_, ?_⟩, ?_, ?_, ?_, fun hx => (by cases hx), ?_⟩, ?_⟩
        · simpa [Buffer.addRef, Ctx.setHead] using hold.2.1
        · simpa [Buffer.addRef, Ctx.setHead] using hold.2.2
        · simp only [Buffer.addRef, Ctx.setHead, if_true, hkk]
        · simp [Buffer.addRef, Ctx.setHead]
        · intro hd; simp [Buffer.addRef, Ctx.setHead, hd]
        · intro _ k f hE
          exact (h.cached vol b k f hE i hold).2.1
        · intro _ hx; cases hx


/-- Discarding a range. -/
theorem discardLoop_inv {e : Env} (vol st ct : Nat) : ∀ (l : List Nat) (s s' : Ctx) (E : Expect) (r : Except Err Unit),
    Inv e s E → (∀ i ∈ l, i < e.n) → discardLoop vol st ct l s = (r, s') →
    (∀ i b, i ∈ l → Holds e s i vol b → st ≤ b → b < st + ct → (s.head i).dirty = true → E vol b = none) →
    Inv e s' E ∧
    (∀ j, 0 < (s.head j).ref → s'.head j = s.head j) ∧ s'.data = s.data ∧ s'.disk = s.disk ∧
    (r = .ok () ∨ r = .error .ebusy) ∧
    (r = .error .ebusy → ∃ i ∈ l, 0 < (s.head i).ref ∧ (s.head i).vol = vol ∧
      ∃ b, (s.head i).blk = some b ∧ st ≤ b ∧ b < st + ct) ∧
    (r = .ok () → ∀ i ∈ l, ¬ ((s'.head i).vol = vol ∧ ∃ b, (s'.head i).blk = some b ∧ st ≤ b ∧ b < st + ct)) ∧
    (∀ j, s'.head j = s.head j ∨ s'.head j = { s.head j with blk := none }) := by
  intro l
  induction l with
  | nil =>
    intro s s' E r h _ hr _
    unfold discardLoop at hr
    injection hr with h1 h2
    subst h2; subst h1
    exact ⟨h, fun _ _ => rfl, rfl, rfl, Or.inl rfl, (by intro hx; cases hx), (by intro _ i hi; cases hi), fun _ => Or.inl rfl⟩
  | cons i rest ih =>
    intro s s' E r h hl hr hE
    have hi := hl i List.mem_cons_self
    unfold discardLoop at hr
    simp only at hr
    split at hr
    · next hc =>
      obtain ⟨c1, b, hb, c3⟩ := hc
      have hb' : (s.head i).blk = some b := hb
      split at hr
      · next href =>
        have hdrop : Inv e { (s.setHead i { s.head i with blk := none }) with mru := makeLRU s.mru i } E := by
          apply h.drop hi href (makeLRU_perm h.mru)
          intro v x k f hEx
          refine ⟨hEx, fun hx => ?_⟩
          obtain ⟨q1, q2, q3⟩ := h.cached v x k f hEx i hx
          rcases q3 with q3 | q3
          · obtain ⟨_, x2, x3⟩ := hx
            rw [hb'] at x3; injection x3 with x3
            subst x3
            have hv : v = vol := by rw [← x2, c1]
            subst hv
            have := hE i b List.mem_cons_self ⟨hi, x2, hb'⟩ c3.1 c3.2 q3
            rw [this] at hEx; cases hEx
          · exact q3
        have hsub : ∀ j v x, Holds e { (s.setHead i { s.head i with blk := none }) with mru := makeLRU s.mru i } j v x →
            Holds e s j v x ∧ j ≠ i := by
          intro j v x hx
          by_cases hji : j = i
          · subst hji; have := hx.2.2; simp [Ctx.setHead] at this
          · refine ⟨?_, hji⟩
            unfold Holds at hx ⊢
            simpa [Ctx.setHead, hji] using hx
        obtain ⟨f1, f2, f3, f4, f5, f6, f7, f8⟩ := ih _ s' E r hdrop (fun j hj => hl j (List.mem_cons_of_mem _ hj)) hr
          (by
            intro j x hj hx h1 h2 hd
            obtain ⟨hx', hji⟩ := hsub j _ _ hx
            apply hE j x (List.mem_cons_of_mem _ hj) hx' h1 h2
            simpa [Ctx.setHead, hji] using hd)
        have hstep : ∀ j, ({ (s.setHead i { s.head i with blk := none }) with mru := makeLRU s.mru i } : Ctx).head j = s.head j ∨
            ({ (s.setHead i { s.head i with blk := none }) with mru := makeLRU s.mru i } : Ctx).head j = { s.head j with blk := none } := by
          intro j
          by_cases hji : j = i
          · subst hji; right; simp [Ctx.setHead]
          · left; simp [Ctx.setHead, hji]
        have hlast : ∀ j, s'.head j = s.head j ∨ s'.head j = { s.head j with blk := none } := by
          intro j
          rcases f8 j with q | q <;> rcases hstep j with w | w <;> rw [q, w] <;> simp
        refine ⟨f1, ?_, f3, f4, f5, ?_, ?_, hlast⟩
        · intro j hj
          have hji : j ≠ i := by intro hx; subst hx; omega
          have := f2 j (by simpa [Ctx.setHead, hji] using hj)
          rw [this]; simp [Ctx.setHead, hji]
        · intro hb
          obtain ⟨j, j1, j2, j3, x, j4, j5⟩ := f6 hb
          refine ⟨j, List.mem_cons_of_mem _ j1, ?_⟩
          by_cases hji : j = i
          · subst hji; simp [Ctx.setHead] at j4
          · simp only [Ctx.setHead, hji, if_false] at j2 j3 j4
            exact ⟨j2, j3, x, j4, j5⟩
        · intro hok j hj
          rcases List.mem_cons.1 hj with hj | hj
          · subst hj
            rintro ⟨_, x, hx, _⟩
            rcases f8 j with q | q <;> rw [q] at hx <;> simp [Ctx.setHead] at hx
          · exact f7 hok j hj
      · next href =>
        injection hr with h1 h2
        subst h1; subst h2
        exact ⟨h.critical vol, fun _ _ => rfl, rfl, rfl, Or.inr rfl,
          fun _ => ⟨i, List.mem_cons_self, by omega, c1, b, hb', c3⟩, (by intro hx; cases hx), fun _ => Or.inl rfl⟩
    · next hc =>
      obtain ⟨f1, f2, f3, f4, f5, f6, f7, f8⟩ := ih s s' E r h (fun j hj => hl j (List.mem_cons_of_mem _ hj)) hr
        (fun j x hj => hE j x (List.mem_cons_of_mem _ hj))
      refine ⟨f1, f2, f3, f4, f5, ?_, ?_, f8⟩
      · intro hb
        obtain ⟨j, j1, j2⟩ := f6 hb
        exact ⟨j, List.mem_cons_of_mem _ j1, j2⟩
      · intro hok j hj
        rcases List.mem_cons.1 hj with hj | hj
        · subst hj
          rintro ⟨x1, x, hx, x2⟩
          rcases f8 j with q | q
          · rw [q] at x1 hx; exact hc ⟨x1, x, hx, x2⟩
          · rw [q] at hx; cases hx
        · exact f7 hok j hj

/-- Expecting less. -/
theorem Inv.weaken {e : Env} {s : Ctx} {E E' : Expect} (h : Inv e s E)
    (hE : ∀ v b k f, E' v b = some (k, f) → E v b = some (k, f)) : Inv e s E' :=
  ⟨h.mru, h.used, h.uniq, h.valid, h.seq, fun v b k f hx => h.cached v b k f (hE v b k f hx),
    fun v b k f hx => h.disk v b k f (hE v b k f hx)⟩

theorem isBuf_spec {e : Env} {s : Ctx} {vol i : Nat} (h : isBuf e s vol i = true) :
    i < e.n ∧ ∃ b, (s.head i).blk = some b ∧ (s.head i).vol = vol := by
  unfold isBuf at h
  simp only [Bool.and_eq_true, decide_eq_true_eq] at h
  obtain ⟨⟨h1, h2⟩, h3⟩ := h
  obtain ⟨b, hb⟩ := Option.isSome_iff_exists.1 h2
  exact ⟨h1, b, hb, h3⟩

/-- The invariant holds in every reachable state. -/
theorem Inv.init (e : Env) (disk : Nat → Nat → Bytes) (seq : Nat → Nat) (h : ∀ v, seq v < 18446744073709551616) :
    Inv e (binit e disk seq) (fun _ _ => none) where
  mru := List.reverse_perm _
  used := by
    show 0 = _
    have : (List.range e.n).filter (refd (binit e disk seq)) = [] := by
      rw [List.filter_eq_nil_iff]; intro i _; simp [refd, binit]
    rw [this]; rfl
  uniq := by intro i j vol b h; have := h.2.2; simp [binit] at this
  valid := by intro i _ h; simp [binit] at h
  seq := h
  cached := by intro vol b k f h; cases h
  disk := by intro vol b k f h; cases h

open Classical in
theorem Inv.step {e : Env} {s : Ctx} {E : Expect} (h : Inv e s E) (op : Op) (hl : Legal e s E op) :
    Inv e (step e s op) (expect e s E op) := by
  cases op with
  | get vol b k new d =>
    rcases hr : bget e s vol b k new d with ⟨r, s'⟩
    have := (bget_spec h hl hr).1
    simp only [Buffer.step, expect, hr]
    cases r <;> exact this
  | put vol i =>
    obtain ⟨hb, href⟩ := hl
    obtain ⟨hi, b, hb1, hv⟩ := isBuf_spec hb
    simp only [Buffer.step, expect]
    unfold bput
    rw [if_pos hb]
    have hold : ∀ v x, Holds e ({ (s.setHead i { s.head i with ref := (s.head i).ref - 1 }) with
        used := if (s.head i).ref - 1 = 0 then s.used - 1 else s.used } : Ctx) i v x ↔ Holds e s i v x := by
      intro v x; unfold Holds; simp [Ctx.setHead]
    apply h.update i hi
    · intro j hj; simp [Ctx.setHead, hj]
    · intro j hj; rfl
    · exact h.mru
    · show (if (s.head i).ref - 1 = 0 then s.used - 1 else s.used) = _
      have hr : ∀ j, refd ({ (s.setHead i { s.head i with ref := (s.head i).ref - 1 }) with
        used := if (s.head i).ref - 1 = 0 then s.used - 1 else s.used } : Ctx) j
          = if j = i then decide (0 < (s.head i).ref - 1) else refd s j := by
        intro j
        exact refd_setHead s i _ j
      by_cases h1 : (s.head i).ref - 1 = 0
      · rw [if_pos h1]
        have := filter_len_add hi (p := refd ({ (s.setHead i { s.head i with ref := (s.head i).ref - 1 }) with
          used := if (s.head i).ref - 1 = 0 then s.used - 1 else s.used } : Ctx)) (q := refd s)
          (by rw [hr, if_pos rfl, h1]; rfl) (by simp [refd, href]) (fun j hj => by rw [hr, if_neg hj])
        have h2 := h.used.trans this
        rw [h2]; rfl
      · rw [if_neg h1]
        refine h.used.trans (filter_len_same ?_)
        intro j _
        refine Eq.trans ?_ (hr j).symm
        split
        · next hj => subst hj; simp [refd, href]; omega
        · rfl
    · intro v x hx j hj hj'
      exact hj (h.uniq j i v x hj' ((hold _ _).1 hx))
    · intro _; simp [Ctx.setHead, hb1]
    · exact h.seq
    · intro v x k f hE hn
      exact ⟨hE, id, fun hx => absurd ((hold _ _).2 hx) hn⟩
    · intro v x k f hE hx
      obtain ⟨c1, c2, c3⟩ := h.cached v x k f hE i ((hold _ _).1 hx)
      simp only [Ctx.setHead, if_true]
      exact ⟨c1, c2, c3⟩
  | flush vol st ct =>
    simp only [Buffer.step, expect]
    unfold bflush
    split
    · exact h
    · rcases hr : flushLoop e vol st ct (List.range e.n) s with ⟨r, s'⟩
      exact (flushLoop_inv vol st ct _ s s' E r h (fun i hi => List.mem_range.1 hi) hr).1
  | dirty vol i =>
    obtain ⟨hb, href⟩ := hl
    obtain ⟨hi, b, hb1, hv⟩ := isBuf_spec hb
    simp only [Buffer.step, expect, hb1]
    unfold bdirty
    rw [if_pos hb]
    have hold : ∀ v x, Holds e (s.setHead i { s.head i with dirty := true }) i v x ↔ Holds e s i v x := by
      intro v x; unfold Holds; simp [Ctx.setHead]
    apply h.update i hi
    · intro j hj; simp [Ctx.setHead, hj]
    · intro j hj; rfl
    · exact h.mru
    · show s.used = _
      rw [h.used]; apply filter_len_same; intro j _; rw [refd_setHead]; split
      · next hj => subst hj; rfl
      · rfl
    · intro v x hx j hj hj'
      exact hj (h.uniq j i v x hj' ((hold _ _).1 hx))
    · intro _; simp [Ctx.setHead, hb1]
    · exact h.seq
    · intro v x k f hE hn
      have : ¬ (v = vol ∧ x = b) := by
        rintro ⟨rfl, rfl⟩; exact hn ((hold _ _).2 ⟨hi, hv, hb1⟩)
      unfold Expect.set at hE
      rw [if_neg this] at hE
      exact ⟨hE, id, fun hx => absurd ((hold _ _).2 hx) hn⟩
    · intro v x k f hE hx
      have hx' := (hold _ _).1 hx
      have : v = vol ∧ x = b := by
        obtain ⟨_, x2, x3⟩ := hx'; rw [hb1] at x3; injection x3 with x3; exact ⟨by rw [← x2, hv], x3.symm⟩
      unfold Expect.set at hE
      rw [if_pos this] at hE
      injection hE with hE; injection hE with e1 e2
      subst e1; subst e2
      simp only [Ctx.setHead, if_true]
      exact ⟨trivial, Same.refl _ _ _, Or.inl trivial⟩
  | poke i f =>
    obtain ⟨hi, href⟩ := hl
    obtain ⟨b, hb1⟩ := Option.ne_none_iff_exists'.1 (h.valid i hi href)
    simp only [Buffer.step, expect, hb1]
    unfold bpoke
    have hold : ∀ j v x, Holds e (s.setData i f) j v x ↔ Holds e s j v x := fun _ _ _ => Iff.rfl
    apply h.update i hi
    · intro j hj; rfl
    · intro j hj; simp [Ctx.setData, hj]
    · exact h.mru
    · exact h.used
    · intro v x hx j hj hj'
      exact hj (h.uniq j i v x hj' hx)
    · exact h.valid i hi
    · exact h.seq
    · intro v x k g hE hn
      have : ¬ (v = (s.head i).vol ∧ x = b) := by
        rintro ⟨rfl, rfl⟩; exact hn ⟨hi, rfl, hb1⟩
      unfold Expect.set at hE
      rw [if_neg this] at hE
      exact ⟨hE, id, fun hx => absurd hx hn⟩
    · intro v x k g hE hx
      have : v = (s.head i).vol ∧ x = b := by
        obtain ⟨_, x2, x3⟩ := hx
        have x3' : (s.head i).blk = some x := x3
        rw [hb1] at x3'; injection x3' with x3'; exact ⟨x2.symm, x3'.symm⟩
      unfold Expect.set at hE
      rw [if_pos this] at hE
      split at hE
      · next hd =>
        injection hE with hE; injection hE with e1 e2
        subst e1; subst e2
        refine ⟨rfl, ?_, Or.inl hd⟩
        simp [Ctx.setData]; exact Same.refl _ _ _
      · cases hE
  | branch vol i b =>
    obtain ⟨hb, href, hd, hlt, hnc⟩ := hl
    obtain ⟨hi, b0, hb1, hv⟩ := isBuf_spec hb
    simp only [Buffer.step, expect]
    unfold bbranch
    rw [if_pos (by simp [hb, hlt])]
    have hself : ∀ v x, Holds e (s.setHead i { s.head i with dirty := true, blk := some b }) i v x ↔ v = vol ∧ x = b := by
      intro v x; unfold Holds; simp [Ctx.setHead, hi, hv]; constructor
      · rintro ⟨rfl, rfl⟩; exact ⟨rfl, rfl⟩
      · rintro ⟨rfl, rfl⟩; exact ⟨rfl, rfl⟩
    apply h.update i hi
    · intro j hj; simp [Ctx.setHead, hj]
    · intro j hj; rfl
    · exact h.mru
    · show s.used = _
      rw [h.used]; apply filter_len_same; intro j _; rw [refd_setHead]; split
      · next hj => subst hj; rfl
      · rfl
    · intro v x hx j hj hj'
      obtain ⟨rfl, rfl⟩ := (hself _ _).1 hx
      exact hnc ⟨j, hj'⟩
    · intro _; simp [Ctx.setHead]
    · exact h.seq
    · intro v x k f hE hn
      have hne : ¬ (v = vol ∧ x = b) := fun hx => hn ((hself _ _).2 hx)
      unfold Expect.set at hE
      rw [if_neg hne] at hE
      refine ⟨hE, id, fun hx => ?_⟩
      obtain ⟨_, _, c3⟩ := h.cached v x k f hE i hx
      rcases c3 with c3 | c3
      · rw [hd] at c3; cases c3
      · exact c3
    · intro v x k f hE hx
      unfold Expect.set at hE
      rw [if_pos ((hself _ _).1 hx)] at hE
      injection hE with hE; injection hE with e1 e2
      subst e1; subst e2
      simp only [Ctx.setHead, if_true]
      exact ⟨trivial, Same.refl _ _ _, Or.inl trivial⟩
  | discard vol i =>
    obtain ⟨hb, href⟩ := hl
    obtain ⟨hi, b, hb1, hv⟩ := isBuf_spec hb
    simp only [Buffer.step, expect, hb1]
    unfold bdiscard
    rw [if_pos hb]
    have hno : ∀ v x, ¬ Holds e ({ (s.setHead i { s.head i with ref := 0, blk := none }) with
        used := s.used - 1, mru := makeLRU s.mru i } : Ctx) i v x := by
      intro v x hx; have := hx.2.2; simp [Ctx.setHead] at this
    apply h.update i hi
    · intro j hj; simp [Ctx.setHead, hj]
    · intro j hj; rfl
    · exact makeLRU_perm h.mru
    · show s.used - 1 = _
      have := filter_len_add hi (p := refd ({ (s.setHead i { s.head i with ref := 0, blk := none }) with
        used := s.used - 1, mru := makeLRU s.mru i } : Ctx)) (q := refd s)
        (by
          show refd (s.setHead i _) i = false
          rw [refd_setHead, if_pos rfl]; rfl) (by simp [refd, href])
        (fun j hj => by
          show refd (s.setHead i _) j = _
          rw [refd_setHead, if_neg hj])
      rw [h.used, this]; rfl
    · intro v x hx; exact absurd hx (hno v x)
    · intro h0; simp [Ctx.setHead] at h0
    · exact h.seq
    · intro v x k f hE hn
      have hE' : E v x = some (k, f) ∧ (Holds e s i v x → (s.head i).dirty = false) := by
        split at hE
        · next hd =>
          unfold Expect.set at hE
          split at hE
          · cases hE
          · next hne =>
            refine ⟨hE, fun hx => ?_⟩
            obtain ⟨_, x2, x3⟩ := hx
            rw [hb1] at x3; injection x3 with x3
            exact absurd ⟨by rw [← x2, hv], x3.symm⟩ hne
        · next hd => exact ⟨hE, fun _ => by simpa using hd⟩
      refine ⟨hE'.1, id, fun hx => ?_⟩
      obtain ⟨_, _, c3⟩ := h.cached v x k f hE'.1 i hx
      rcases c3 with c3 | c3
      · rw [hE'.2 hx] at c3; cases c3
      · exact c3
    · intro v x k f hE hx; exact absurd hx (hno v x)
  | discardRange vol st ct =>
    simp only [Buffer.step, expect]
    have hw : Inv e s (fun v b => if v = vol ∧ st ≤ b ∧ b < st + ct ∧ (∃ i, Holds e s i v b ∧ (s.head i).dirty = true)
        then none else E v b) := by
      apply h.weaken
      intro v b k f hx
      split at hx
      · cases hx
      · exact hx
    unfold bdiscardRange
    split
    · exact hw
    · rcases hr : discardLoop vol st ct (List.range e.n) s with ⟨r, s'⟩
      refine (discardLoop_inv vol st ct _ s s' _ r hw (fun i hi => List.mem_range.1 hi) hr ?_).1
      intro i b _ hx h1 h2 hd
      exact if_pos ⟨rfl, h1, h2, i, hx, hd⟩
  | direct vol b f =>
    have hnc : ¬ Cached e s vol b := hl
    simp only [Buffer.step, expect]
    unfold devWrite
    simp only
    split
    · simp only [if_true]
      refine ⟨h.mru, h.used, h.uniq, h.valid, h.seq, ?_, ?_⟩
      · intro v x k g hE i hx
        have hne : ¬ (v = vol ∧ x = b) := by rintro ⟨rfl, rfl⟩; exact hnc ⟨i, hx⟩
        unfold Expect.set at hE
        rw [if_neg hne] at hE
        obtain ⟨c1, c2, c3⟩ := h.cached v x k g hE i hx
        exact ⟨c1, c2, c3.imp id fun o => o.mono (if_neg hne) (Nat.le_refl _)⟩
      · intro v x k g hE hx
        unfold Expect.set at hE
        split at hE
        · next hvx =>
          injection hE with hE; injection hE with e1 e2
          subst e1; subst e2
          refine ⟨?_, fun hk => absurd rfl hk⟩
          show Same e _ (if _ then _ else _) _
          rw [if_pos hvx]; exact Same.refl _ _ _
        · next hvx => exact (h.disk v x k g hE hx).mono (if_neg hvx) (Nat.le_refl _)
    · next g _ =>
      have he : ¬ ((Except.error Err.eio : Except Err Unit) = .ok ()) := by intro hx; cases hx
      simp only [he, if_false]
      refine ⟨h.mru, h.used, h.uniq, h.valid, h.seq, ?_, ?_⟩
      · intro v x k g hE i hx
        unfold Expect.set at hE
        split at hE
        · cases hE
        · next hne =>
          obtain ⟨c1, c2, c3⟩ := h.cached v x k g hE i hx
          exact ⟨c1, c2, c3.imp id fun o => o.mono (if_neg hne) (Nat.le_refl _)⟩
      · intro v x k g hE hx
        unfold Expect.set at hE
        split at hE
        · cases hE
        · next hvx => exact (h.disk v x k g hE hx).mono (if_neg hvx) (Nat.le_refl _)
  | setVol vol q m =>
    have hq : q < 18446744073709551616 := hl
    simp only [Buffer.step, expect]
    refine ⟨h.mru, h.used, h.uniq, h.valid, ?_, ?_, ?_⟩
    · intro v; simp only; split
      · exact hq
      · exact h.seq v
    · intro v x k f hE i hx
      split at hE
      · cases hE
      · next hne =>
        obtain ⟨c1, c2, c3⟩ := h.cached v x k f hE i hx
        exact ⟨c1, c2, c3.imp id fun o => o.mono rfl (by simp [hne])⟩
    · intro v x k f hE hx
      split at hE
      · cases hE
      · next hne => exact (h.disk v x k f hE hx).mono rfl (by simp [hne])

theorem Reach.inv {e : Env} {s : Ctx} {E : Expect} (h : Reach e s E) : Inv e s E := by
  induction h with
  | init disk seq h => exact Inv.init e disk seq h
  | step op _ hl ih => exact ih.step op hl

end RedFs.Buffer
