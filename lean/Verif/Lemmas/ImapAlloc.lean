import Verif.Lemmas.ImapSet
set_option linter.unusedSimpArgs false
set_option linter.unusedVariables false
namespace RedFs
open M Bitmap Vol

variable {c : Conf}

/-- The search loop with the map reads abstracted: `skip s` says that the whole byte at
`s` is in use, `free s` that block `s` is free. -/
def ffG (c : Conf) (skip free : Nat → Bool) (start : Nat) : Nat → Nat → Except Err Nat
  | 0, _ => .error .hang
  | n + 1, s =>
    if skip s then
      let s' := searchWrap c (s + min 8 (c.blockCount - s))
      if s' = start then .error .enospc else ffG c skip free start n s'
    else if free s then .ok s
    else
      let s' := searchWrap c (s + 1)
      if s' = start then .error .enospc else ffG c skip free start n s'

theorem ffG_sound {skip free : Nat → Bool} {start : Nat} (n s : Nat) {r : Nat}
    (hs : c.firstAlloc ≤ s ∧ s < c.blockCount) (h : ffG c skip free start n s = .ok r) :
    free r = true ∧ c.firstAlloc ≤ r ∧ r < c.blockCount := by
  induction n generalizing s with
  | zero => simp [ffG] at h
  | succ n ih =>
    unfold ffG at h
    have wrap : ∀ j, 1 ≤ j → s + j ≤ c.blockCount → c.firstAlloc ≤ searchWrap c (s + j) ∧ searchWrap c (s + j) < c.blockCount := by
      intro j h1 h2; unfold searchWrap; split <;> omega
    split at h
    · simp only [] at h
      split at h
      · cases h
      · exact ih _ (wrap _ (by omega) (by omega)) h
    · split at h
      · rename_i hf; cases h; exact ⟨hf, hs⟩
      · simp only [] at h
        split at h
        · cases h
        · exact ih _ (wrap 1 (by omega) (by omega)) h

/-- Cyclic distance from `s` forward to `t`. -/
def cdist (c : Conf) (t s : Nat) : Nat := if s ≤ t then t - s else t + (c.blockCount - c.firstAlloc) - s

theorem ffG_complete {skip free : Nat → Bool} {start t : Nat}
    (ht : c.firstAlloc ≤ t ∧ t < c.blockCount) (hft : free t = true)
    (hskip : ∀ s x, c.firstAlloc ≤ s → s < c.blockCount → skip s = true → s ≤ x → x < s + 8 → x < c.blockCount → free x = false)
    (n s : Nat) (hs : c.firstAlloc ≤ s ∧ s < c.blockCount) (hst : c.firstAlloc ≤ start ∧ start < c.blockCount)
    (hd : cdist c t s ≤ cdist c t start) (hn : cdist c t s < n) :
    ∃ r, ffG c skip free start n s = .ok r := by
  induction n generalizing s with
  | zero => omega
  | succ n ih =>
    unfold ffG
    -- stepping over `j` blocks none of which is free brings us closer
    have adv : ∀ j, 1 ≤ j → s + j ≤ c.blockCount → (∀ x, s ≤ x → x < s + j → free x = false) →
        (c.firstAlloc ≤ searchWrap c (s + j) ∧ searchWrap c (s + j) < c.blockCount) ∧
        cdist c t (searchWrap c (s + j)) < cdist c t s := by
      intro j h1 h2 h3
      have hnt : ¬ (s ≤ t ∧ t < s + j) := by
        rintro ⟨a, b⟩; rw [h3 t a b] at hft; cases hft
      constructor
      · unfold searchWrap; split <;> omega
      · unfold searchWrap cdist
        split <;> split <;> split <;> omega
    split
    · rename_i hsk
      have := adv (min 8 (c.blockCount - s)) (by omega) (by omega)
        (fun x h1 h2 => hskip s x hs.1 hs.2 hsk h1 (by omega) (by omega))
      simp only []
      split
      · rename_i e; rw [e] at this; omega
      · exact ih _ this.1 (by omega) (by omega)
    · split
      · exact ⟨s, rfl⟩
      · rename_i hf
        have := adv 1 (by omega) (by omega) (fun x h1 h2 => by
          have : x = s := by omega
          subst this; simpa using hf)
        simp only []
        split
        · rename_i e; rw [e] at this; omega
        · exact ih _ this.1 (by omega) (by omega)

theorem byteFF_bits {bm : Mem8} {i j : Nat} (h : bm (i / 8) = 0xFF#8) (h8 : i % 8 = 0) (h1 : i ≤ j) (h2 : j < i + 8) :
    bitGet bm j = true := by
  rw [bitGet_bit]
  have : j / 8 = i / 8 := by omega
  rw [this, h]
  have : j % 8 < 8 := by omega
  have key : ∀ r : Fin 8, (0xFF#8).getLsbD (7 - r.1) = true := by decide
  exact key ⟨j % 8, this⟩

/-- Free in both states. -/
def isFree (c : Conf) (v : Vol) (b : Nat) : Bool := !curBit c v b && !cmtBit c v b

/-- The byte of the working map starting at block `s` is all ones. -/
def skipByte (c : Conf) (v : Vol) (s : Nat) : Bool :=
  if c.inline then decide ((s - c.tableStart) % 8 = 0 ∧ v.work.entries ((s - c.tableStart) / 8) = 0xFF#8)
  else match v.blk (nodeBlk c v.work ((s - c.tableStart) / c.imapEntries)) with
    | .imap bits => decide (((s - c.tableStart) % c.imapEntries) % 8 = 0 ∧
        bits (((s - c.tableStart) % c.imapEntries) / 8) = 0xFF#8)
    | _ => false

theorem findFreeI_eq {v : Vol} (hi : c.inline = true) (start n s : Nat) :
    findFreeI c v start n s = ffG c (skipByte c v) (isFree c v) start n s := by
  induction n generalizing s with
  | zero => rfl
  | succ n ih =>
    unfold findFreeI ffG
    simp only [ih, skipByte, hi, if_true, isFree, curBit, cmtBit, imapBit, decide_eq_true_eq,
      Bool.and_eq_true, Bool.not_eq_true']

theorem findFreeE_eq {v : Vol} (hc : c.Ok) (h : ImapOk c v) (hi : c.inline = false) (start n s : Nat)
    (hs : c.firstAlloc ≤ s ∧ s < c.blockCount) :
    findFreeE c v start n s = ffG c (skipByte c v) (isFree c v) start n s := by
  have hf := Conf.Ok.first_ge c
  induction n generalizing s with
  | zero => rfl
  | succ n ih =>
    have hk := hc.node_lt hi (b := s) (by omega) hs.2
    obtain ⟨b1, e1⟩ := h.cur hi _ hk
    obtain ⟨b2, e2⟩ := h.cmt hi _ hk
    have wrap : ∀ j, 1 ≤ j → s + j ≤ c.blockCount → c.firstAlloc ≤ searchWrap c (s + j) ∧ searchWrap c (s + j) < c.blockCount := by
      intro j h1 h2; unfold searchWrap; split <;> omega
    have i1 := ih _ (wrap 1 (by omega) (by omega))
    have i2 := ih _ (wrap (min 8 (c.blockCount - s)) (by omega) (by omega))
    unfold findFreeE ffG
    simp only [i1, i2, skipByte, hi, isFree, curBit, cmtBit, imapBit, e1, e2, Bool.false_eq_true, if_false,
      decide_eq_true_eq, Bool.and_eq_true, Bool.not_eq_true']
    split
    · rfl
    · by_cases hb : bitGet b1 ((s - c.tableStart) % c.imapEntries) = false
      · simp [hb]
      · simp [hb]

theorem divOf {a E q r : Nat} (hr : r < E) (h : a = E * q + r) : a / E = q := by
  subst h; rw [Nat.mul_add_div (by omega), Nat.div_eq_of_lt hr]; rfl
theorem modOf {a E q r : Nat} (hr : r < E) (h : a = E * q + r) : a % E = r := by
  subst h; rw [Nat.mul_add_mod, Nat.mod_eq_of_lt hr]

theorem skip_sound {v : Vol} (hc : c.Ok) {s x : Nat} (hs : c.firstAlloc ≤ s) (hsk : skipByte c v s = true)
    (h1 : s ≤ x) (h2 : x < s + 8) : isFree c v x = false := by
  have hf := Conf.Ok.first_ge c
  have hcur : curBit c v x = true := by
    unfold skipByte at hsk
    unfold curBit imapBit
    cases hi : c.inline
    · simp only [hi, Bool.false_eq_true, ↓reduceIte] at hsk ⊢
      revert hsk
      cases hb : v.blk (nodeBlk c v.work ((s - c.tableStart) / c.imapEntries)) <;> simp only [Bool.false_eq_true, false_implies]
      rename_i bits
      intro hsk
      simp only [decide_eq_true_eq] at hsk
      -- x is in the same node: entries per node is a multiple of 8
      have hE := hc.imapE_pos
      have hE8 : c.imapEntries % 8 = 0 := by unfold Conf.imapEntries; omega
      have a1 := Nat.div_add_mod (s - c.tableStart) c.imapEntries
      have hml := Nat.mod_lt (s - c.tableStart) (show 0 < c.imapEntries by omega)
      have hroom : (s - c.tableStart) % c.imapEntries + 8 ≤ c.imapEntries := by omega
      have hx : x - c.tableStart = c.imapEntries * ((s - c.tableStart) / c.imapEntries) +
          ((s - c.tableStart) % c.imapEntries + (x - s)) := by omega
      have hdiv : (x - c.tableStart) / c.imapEntries = (s - c.tableStart) / c.imapEntries := by
        exact divOf (by omega) hx
      have hmod : (x - c.tableStart) % c.imapEntries = (s - c.tableStart) % c.imapEntries + (x - s) := by
        exact modOf (by omega) hx
      rw [hdiv, hb, hmod]
      exact byteFF_bits hsk.2 hsk.1 (by omega) (by omega)
    · simp only [hi, ↓reduceIte, decide_eq_true_eq] at hsk ⊢
      exact byteFF_bits hsk.2 hsk.1 (by omega) (by omega)
  simp [isFree, hcur]

/-- `RedImapIBlockFindFree`/`RedImapEBlockFindFree`: sound, and complete if there is a free block. -/
theorem imapFindFree_spec {v : Vol} (hc : c.Ok) (h : ImapOk c v) {start : Nat}
    (hst : c.firstAlloc ≤ start ∧ start < c.blockCount)
    (hex : ∃ t, c.firstAlloc ≤ t ∧ t < c.blockCount ∧ isFree c v t = true) :
    ∃ r, imapFindFree c start v = (.ok r, v) ∧ isFree c v r = true ∧ c.firstAlloc ≤ r ∧ r < c.blockCount := by
  obtain ⟨t, t1, t2, t3⟩ := hex
  have hcomp := ffG_complete (c := c) (skip := skipByte c v) (free := isFree c v) (start := start) (t := t)
    ⟨t1, t2⟩ t3 (fun s x a _ d e f _ => skip_sound hc a d e f) (c.blockCount + 1) start hst hst (Nat.le_refl _)
    (by unfold cdist; split <;> omega)
  obtain ⟨r, hr⟩ := hcomp
  have hsd := ffG_sound _ _ hst hr
  refine ⟨r, ?_, hsd⟩
  unfold imapFindFree
  simp only [run_bind, run_get]
  rw [if_neg (by omega)]
  simp only [run_ofExcept]
  cases hi : c.inline
  · simp only [Bool.false_eq_true, ↓reduceIte]
    rw [findFreeE_eq hc h hi _ _ _ hst, hr]
  · simp only [↓reduceIte]
    rw [findFreeI_eq hi, hr]

/-- Result of a successful `RedImapAllocBlock`. -/
structure Alloced (c : Conf) (v v' : Vol) (b : Nat) : Prop extends ImapFrame c v v' where
  lo : c.firstAlloc ≤ b
  hi : b < c.blockCount
  wasCur : curBit c v b = false
  wasCmt : cmtBit c v b = false
  bits : ∀ x, InMap c x → curBit c v' x = if x = b then true else curBit c v x
  cbits : ∀ x, InMap c x → cmtBit c v' x = cmtBit c v x
  blkHi : ∀ x, c.tableStart ≤ x → v'.blk x = v.blk x
  space : SpaceOk c v'
  branched : v'.branched = true
  freeBlocks : v'.work.freeBlocks + 1 = v.work.freeBlocks
  almost : v'.almostFree = v.almostFree

theorem imapAlloc_spec {v : Vol} (hc : c.Ok) (h : ImapOk c v) (hs : SpaceOk c v)
    (hpos : 0 < v.work.freeBlocks) :
    wp (imapAllocBlock c) (fun r v' => ∃ b, r = .ok b ∧ Alloced c v v' b) v := by
  have hf := Conf.Ok.first_ge c
  have hex : ∃ t, c.firstAlloc ≤ t ∧ t < c.blockCount ∧ isFree c v t = true := by
    rw [hs.free] at hpos
    exact countIn_pos.1 hpos
  obtain ⟨t, t1, t2, _⟩ := id hex
  obtain ⟨r, hr, hfr, r1, r2⟩ := imapFindFree_spec hc h (hs.next (by omega)) hex
  unfold imapAllocBlock
  simp only [wp_bind, wp_get]
  rw [if_neg (by omega)]
  simp only [wp_bind, wp_attempt]
  unfold wp
  rw [hr]
  simp only [run_bind, run_modify]
  -- state with the next pointer moved
  let m1 : Metaroot := { v.work with allocNext := if r + 1 = c.blockCount then c.firstAlloc else r + 1 }
  let v1 := v.setWork m1
  have hok1 : ImapOk c v1 := h.congr rfl rfl rfl (by simp [v1, m1]) (by simp [v1])
  have hcb : ∀ x, curBit c v1 x = curBit c v x := by
    intro x; show imapBit c v.blk (v.setWork m1).work x = _
    rw [setWork_work]; exact imapBit_congr_entries rfl x
  have hcc : ∀ x, cmtBit c v1 x = cmtBit c v x := by
    intro x; show imapBit c v.blk (v.setWork m1).comm x = _
    rw [setWork_comm]; rfl
  have hcnt := freeCount_congr (c := c) (v := v) (v' := v1) (fun x _ => hcb x) (fun x _ => hcc x)
  have hs1 : SpaceOk c v1 := by
    constructor
    · rw [hcnt.1, ← hs.free]; simp [v1, m1]
    · rw [hcnt.2]; exact hs.afree
    · intro hl; simp only [v1, setWork_work, m1]; split <;> omega
  simp only [isFree, Bool.and_eq_true, Bool.not_eq_true'] at hfr
  have hset := imapBlockSet_spec (b := r) (alloc := true) hc hok1 hs1 ⟨by omega, r2⟩
    (by rw [hcb, hfr.1]; simp) (fun _ _ => by rw [hcc]; exact hfr.2)
  generalize hres : imapBlockSet c r true v1 = res at hset
  obtain ⟨res1, v2⟩ := res
  have hset' := wp_run hset hres
  obtain ⟨rfl, hb⟩ := hset'
  have hfr1 : ImapFrame c v v1 := by
    refine { base := rfl, stale := rfl, cur := rfl, comm := (by simp [v1]), useReserved := rfl, mounted := rfl,
             readOnly := rfl, transMask := rfl, seq := rfl, hist := rfl, wseq := (by simp [v1, m1]),
             freeInodes := (by simp [v1, m1]), dirtyHi := fun _ _ => rfl, dirtyMono := fun _ h => h,
             low := fun _ _ => rfl, cmtNode := fun _ _ _ => rfl, ok := hok1, diskEq := fun x hx hd => hx hd }
  have hcrit : criticalAssert (imapBlockSet c r true) v1 = (.ok (), v2) := by
    simp [criticalAssert, hres]
  have hcrit' : criticalAssert (imapBlockSet c r true)
      (v.setWork { v.work with allocNext := if r + 1 = c.blockCount then c.firstAlloc else r + 1 }) = (.ok (), v2) := hcrit
  simp only [hcrit', run_pure]
  refine ⟨r, rfl, { toImapFrame := hfr1.trans hb.toImapFrame, lo := r1, hi := r2, wasCur := hfr.1, wasCmt := hfr.2,
                    bits := ?_, cbits := ?_, blkHi := ?_, space := hb.space, branched := hb.branched,
                    freeBlocks := ?_, almost := ?_ }⟩
  · intro x hx; rw [hb.bits x hx, hcb]
  · intro x hx; rw [hb.cbits x hx, hcc]
  · intro x hx; rw [hb.blkHi x hx (Or.inr rfl)]; rfl
  · rw [hb.space.free, hs.free, ← hcnt.1]
    have := countIn_update (p := fun x => !curBit c v2 x && !cmtBit c v2 x)
      (q := fun x => !curBit c v1 x && !cmtBit c v1 x) (lo := c.firstAlloc) (hi := c.blockCount) r1 r2
      (by intro x h1 h2 hx; show (_ && _) = (_ && _); rw [hb.bits x ⟨by omega, h2⟩, hb.cbits x ⟨by omega, h2⟩, if_neg hx])
    rw [hb.bits r ⟨by omega, r2⟩, if_pos rfl, hcb, hcc, hfr.1, hfr.2] at this
    unfold freeCount
    simpa using this
  · rw [hb.space.afree, hs.afree, ← hcnt.2]
    have := countIn_update (p := fun x => !curBit c v2 x && cmtBit c v2 x)
      (q := fun x => !curBit c v1 x && cmtBit c v1 x) (lo := c.firstAlloc) (hi := c.blockCount) r1 r2
      (by intro x h1 h2 hx; show (_ && _) = (_ && _); rw [hb.bits x ⟨by omega, h2⟩, hb.cbits x ⟨by omega, h2⟩, if_neg hx])
    rw [hb.bits r ⟨by omega, r2⟩, if_pos rfl, hcb, hcc, hfr.1, hfr.2] at this
    unfold afreeCount
    simpa using this

/-- With no free block `RedImapAllocBlock` fails and changes nothing. -/
theorem imapAlloc_full {v : Vol} (h : v.work.freeBlocks = 0) : imapAllocBlock c v = (.error .enospc, v) := by
  unfold imapAllocBlock; simp [h]

def stateOf (cur cmt : Bool) : AllocState :=
  if cur then (if cmt then .used else .new) else (if cmt then .afree else .free)

theorem imapBlockState_eq {v : Vol} {b : Nat} (hc : c.Ok) (h : ImapOk c v) (hb : InMap c b) :
    imapBlockState c b v = (.ok (stateOf (curBit c v b) (cmtBit c v b)), v) := by
  unfold imapBlockState
  have : ¬ (b < c.tableStart ∨ c.blockCount ≤ b) := by have := hb.1; have := hb.2; omega
  rw [if_neg this]
  simp only [run_bind, run_get, imapBlockGet_cur hc h hb, imapBlockGet_cmt hc h hb, run_pure]
  rfl

end RedFs
