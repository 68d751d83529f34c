import Verif.Model.Refs
/-! References: a call that reports EBUSY has run out of buffers. -/
set_option linter.unusedSimpArgs false
set_option linter.unusedVariables false
namespace RedFs.Refs
open RedFs M

variable {α β : Type}

/-- A shortage is never forgotten. -/
def Sticky (m : M St α) : Prop := ∀ s, s.short = true → (m s).2.short = true
/-- EBUSY is reported only after a shortage. -/
structure Loud (m : M St α) : Prop where
  sticky : Sticky m
  busy : ∀ s, (m s).1 = .error .ebusy → (m s).2.short = true

theorem Sticky.pure (a : α) : Sticky (Pure.pure a : M St α) := fun _ h => h
theorem Sticky.fail (e : Err) : Sticky (M.fail e : M St α) := fun _ h => h
theorem Sticky.ofExcept (r : Except Err α) : Sticky (M.ofExcept r : M St α) := fun _ h => h
theorem Sticky.attempt {m : M St α} (h : Sticky m) : Sticky (M.attempt m) := fun s hs => h s hs
theorem Sticky.bind {m : M St α} {f : α → M St β} (hm : Sticky m) (hf : ∀ a, Sticky (f a)) : Sticky (m >>= f) := by
  intro s h
  have h1 := hm s h
  rw [M.run_bind]
  rcases hms : m s with ⟨r | a, s'⟩
  · simpa [hms] using h1
  · have : s'.short = true := by simpa [hms] using h1
    exact hf a s' this
theorem Sticky.ite {p : Prop} [Decidable p] {a b : M St α} (ha : Sticky a) (hb : Sticky b) : Sticky (if p then a else b) := by
  split <;> assumption

theorem Loud.pure (a : α) : Loud (Pure.pure a : M St α) := ⟨Sticky.pure a, fun _ h => by cases h⟩
theorem Loud.get : Loud (M.get : M St St) := ⟨fun _ h => h, fun _ h => by cases h⟩
theorem Loud.fail {e : Err} (h : e ≠ .ebusy) : Loud (M.fail e : M St α) :=
  ⟨Sticky.fail e, fun s h' => absurd (by cases h'; rfl) h⟩
theorem Loud.failE {e : Err} (h : (Except.error e : Except Err β) ≠ .error .ebusy) : Loud (M.fail e : M St α) :=
  Loud.fail fun he => h (by rw [he])
theorem Loud.ofExcept {r : Except Err α} (h : r ≠ .error .ebusy) : Loud (M.ofExcept r : M St α) :=
  ⟨Sticky.ofExcept r, fun s h' => absurd h' h⟩
theorem Loud.bind {m : M St α} {f : α → M St β} (hm : Loud m) (hf : ∀ a, Loud (f a)) : Loud (m >>= f) := by
  refine ⟨Sticky.bind hm.sticky fun a => (hf a).sticky, fun s h => ?_⟩
  have h1 := hm.busy s
  rw [M.run_bind] at h ⊢
  rcases hms : m s with ⟨r | a, s'⟩
  · simp only [hms] at h h1 ⊢
    refine h1 ?_
    cases h; rfl
  · simp only [hms] at h ⊢
    exact (hf a).busy s' h
theorem Loud.attemptBind {m : M St α} {f : Except Err α → M St β} (hm : Loud m) (hs : ∀ r, Sticky (f r))
    (hf : ∀ r, r ≠ .error .ebusy → Loud (f r)) : Loud (M.attempt m >>= f) := by
  refine ⟨Sticky.bind (Sticky.attempt hm.sticky) hs, fun s h => ?_⟩
  have e : (M.attempt m >>= f) s = f (m s).1 (m s).2 := rfl
  rw [e] at h ⊢
  by_cases hb : (m s).1 = .error .ebusy
  · exact hs _ _ (hm.busy s hb)
  · exact (hf _ hb).busy _ h
theorem Loud.ite {p : Prop} [Decidable p] {a b : M St α} (ha : Loud a) (hb : Loud b) : Loud (if p then a else b) := by
  split <;> assumption
theorem Loud.choose : Loud choose := by
  refine ⟨fun s h => ?_, fun s h => ?_⟩
  · unfold Refs.choose; split <;> exact h
  · unfold Refs.choose at h; split at h <;> cases h
theorem Loud.flip : Loud flip := Loud.bind Loud.choose fun _ => Loud.pure _
theorem Loud.status : Loud status := by
  refine Loud.bind Loud.choose fun x => ?_
  split <;> first | exact Loud.pure _ | exact Loud.fail (by decide)
theorem Loud.maybe {m : M St Unit} (h : Loud m) : Loud (maybe m) := Loud.bind Loud.flip fun _ => Loud.ite h (Loud.pure _)
theorem Loud.whenB {b : Bool} {m : M St Unit} (h : Loud m) : Loud (whenB b m) := Loud.ite h (Loud.pure _)
theorem Loud.allow {p : Err → Bool} {m : M St Unit} (h : Loud m) : Loud (allow p m) := by
  refine Loud.attemptBind h (fun r => ?_) fun r hr => ?_
  · split
    · exact Sticky.pure _
    · exact Sticky.ite (Sticky.pure _) (Sticky.fail _)
  · split
    · exact Loud.pure _
    · exact Loud.ite (Loud.pure _) (Loud.fail fun he => hr (by rw [he]))
theorem Loud.noData {m : M St Unit} (h : Loud m) : Loud (noData m) := Loud.allow h
theorem Loud.noSpace {m : M St Unit} (h : Loud m) : Loud (noSpace m) := Loud.bind Loud.flip fun _ => Loud.allow h
theorem Loud.andThen {m fin : M St Unit} (h : Loud m) (hf : Loud fin) : Loud (andThen m fin) :=
  Loud.attemptBind h (fun r => Sticky.bind hf.sticky fun _ => Sticky.ofExcept r) fun r hr =>
    Loud.bind hf fun _ => Loud.ofExcept hr
theorem Loud.loop {body : M St Bool} (h : Loud body) : Loud (loop body) := by
  have hN : ∀ n, Loud (loopN body n) := by
    intro n
    induction n with
    | zero => exact Loud.pure _
    | succ n ih => exact Loud.bind Loud.flip fun _ => Loud.ite (Loud.bind h fun _ => Loud.ite (Loud.pure _) ih) (Loud.pure _)
  exact ⟨fun s hs => (hN _).sticky s hs, fun s hs => (hN _).busy s hs⟩

theorem Loud.modify {f : St → St} (h : ∀ s, s.short = true → (f s).short = true) : Loud (M.modify f) :=
  ⟨h, fun s h' => by cases h'⟩
theorem setF_short (s : St) (k : Slot) (f : Fld) (r : Ref) : (s.setF k f r).short = s.short := by
  unfold St.setF; split <;> rfl
theorem Loud.markBad : Loud markBad := Loud.modify fun _ h => h

theorem bufGet_loud (c : Cfg) : Loud (bufGet c) := by
  refine ⟨fun s h => ?_, fun s h => ?_⟩
  · unfold bufGet
    simp only [M.run_bind, M.run_get]
    split
    · rfl
    · exact (Loud.bind (m := Refs.flip) (f := fun b => if b = true then M.fail .eio else
        M.modify fun s => { s with peak := max s.peak (s.held + 1) }) Loud.flip fun b =>
          Loud.ite (Loud.fail (by decide)) (Loud.modify fun _ h => h)).sticky s h
  · unfold bufGet at h ⊢
    simp only [M.run_bind, M.run_get] at h ⊢
    by_cases hb : c.bufs ≤ s.held
    · simp only [hb, if_true]; rfl
    · simp only [hb, if_false] at h ⊢
      exact (Loud.bind (m := Refs.flip) (f := fun b => if b = true then M.fail .eio else
        M.modify fun s => { s with peak := max s.peak (s.held + 1) }) Loud.flip fun b =>
          Loud.ite (Loud.fail (by decide)) (Loud.modify fun _ h => h)).busy s h
theorem acquire_loud (c : Cfg) (k : Slot) (f : Fld) : Loud (acquire c k f) := by
  refine Loud.bind Loud.get fun s => Loud.bind ?_ fun _ => Loud.bind (bufGet_loud c) fun _ =>
    Loud.modify fun s h => by rw [setF_short]; exact h
  split
  · exact Loud.markBad
  · exact Loud.ite (Loud.pure _) Loud.markBad
theorem release_loud (k : Slot) (f : Fld) : Loud (release k f) := by
  refine Loud.bind Loud.get fun s => ?_
  split
  · exact Loud.markBad
  · split
    · exact Loud.pure _
    · exact Loud.modify fun s h => by rw [setF_short]; exact h
    · exact Loud.markBad
theorem putOnly_loud (k : Slot) (f : Fld) : Loud (putOnly k f) := by
  refine Loud.bind Loud.get fun s => ?_
  split
  · exact Loud.markBad
  · exact Loud.ite (Loud.modify fun s h => by rw [setF_short]; exact h) Loud.markBad
theorem discard_loud (k : Slot) (f : Fld) : Loud (discard k f) := by
  refine Loud.bind Loud.get fun s => ?_
  split
  · exact Loud.markBad
  · exact Loud.ite (Loud.modify fun s h => by rw [setF_short]; exact h) Loud.markBad
theorem tmpGet_loud (c : Cfg) : Loud (tmpGet c) := Loud.bind (bufGet_loud c) fun _ => Loud.modify fun _ h => h
theorem tmpPut_loud : Loud tmpPut := Loud.modify fun s h => by split <;> exact h
theorem isNull_loud (k : Slot) (f : Fld) : Loud (isNull k f) := by
  refine Loud.bind Loud.get fun s => ?_
  split
  · exact Loud.bind Loud.markBad fun _ => Loud.pure _
  · exact Loud.pure _
theorem ifNull_loud (k : Slot) (f : Fld) {m : M St Unit} (h : Loud m) : Loud (ifNull k f m) :=
  Loud.bind (isNull_loud k f) fun _ => Loud.whenB h
theorem mounted_loud (k : Slot) : Loud (mounted k) := by
  refine Loud.bind Loud.get fun s => ?_
  split
  · exact Loud.bind Loud.markBad fun _ => Loud.fail (by decide)
  · exact Loud.ite (Loud.fail (by decide)) Loud.status
theorem declare_loud (k : Slot) : Loud (declare k) :=
  Loud.bind Loud.get fun _ => Loud.bind (Loud.whenB Loud.markBad) fun _ => Loud.modify fun _ h => h
theorem zero_loud (k : Slot) : Loud (zero k) :=
  Loud.bind Loud.get fun _ => Loud.bind (Loud.whenB Loud.markBad) fun _ => Loud.modify fun _ h => h

/-- Closes `Loud` and `Sticky` goals by following the code. -/
syntax "loud" : tactic
macro_rules
  | `(tactic| loud) => `(tactic| repeat' first
      | with_reducible assumption
      | with_reducible exact Loud.pure _
      | with_reducible exact Loud.fail (by decide)
      | with_reducible exact Loud.failE (by assumption)
      | with_reducible exact Loud.ofExcept ‹_›
      | with_reducible exact Loud.get
      | with_reducible exact Loud.flip
      | with_reducible exact Loud.choose
      | with_reducible exact Loud.status
      | with_reducible exact Loud.markBad
      | with_reducible exact release_loud _ _
      | with_reducible exact acquire_loud _ _ _
      | with_reducible exact putOnly_loud _ _
      | with_reducible exact discard_loud _ _
      | with_reducible exact tmpGet_loud _
      | with_reducible exact tmpPut_loud
      | with_reducible exact isNull_loud _ _
      | with_reducible exact mounted_loud _
      | with_reducible exact declare_loud _
      | with_reducible exact zero_loud _
      | with_reducible refine ifNull_loud _ _ ?_
      | with_reducible refine Loud.maybe ?_
      | with_reducible refine Loud.noSpace ?_
      | with_reducible refine Loud.loop ?_
      | with_reducible refine Loud.noData ?_
      | with_reducible refine Loud.allow ?_
      | with_reducible refine Loud.andThen ?_ ?_
      | with_reducible refine Loud.attemptBind ?_ (fun _ => ?_) (fun _ _ => ?_)
      | with_reducible refine Loud.whenB ?_
      | with_reducible refine Loud.bind ?_ fun _ => ?_
      | with_reducible refine Loud.ite ?_ ?_
      | with_reducible exact Sticky.pure _
      | with_reducible exact Sticky.fail _
      | with_reducible exact Sticky.ofExcept _
      | with_reducible refine Sticky.attempt ?_
      | with_reducible refine Sticky.bind ?_ fun _ => ?_
      | with_reducible refine Sticky.ite ?_ ?_
      | split
      | with_reducible refine Loud.sticky ?_)

variable (c : Cfg) (k : Slot)

theorem external_loud : Loud (external c) := by unfold external; loud
theorem eBlockGet_loud : Loud (eBlockGet c) := by unfold eBlockGet; loud
theorem blockGet_loud : Loud (blockGet c) := by
  have h1 := external_loud c; have h2 := eBlockGet_loud c
  unfold blockGet; loud
theorem imapNodeBranch_loud : Loud (imapNodeBranch c) := by unfold imapNodeBranch; loud
theorem eBlockSet_loud : Loud (eBlockSet c) := by
  have h1 := imapNodeBranch_loud c
  unfold eBlockSet; loud
theorem blockSet_loud : Loud (blockSet c) := by
  have h1 := external_loud c; have h2 := eBlockSet_loud c; have h3 := blockGet_loud c
  unfold blockSet; loud

/-- A failure recorded by the loop of `RedImapEBlockFindFree`. -/
def Rec (r : Except Err Unit) (s : St) : Prop := r = .error .ebusy → s.short = true

theorem findFreeRound_sticky (has : Bool) : Sticky (findFreeRound c has) := by unfold findFreeRound; loud
/-- A result in `R` is returned only after a shortage. -/
def Recs (R : α → Prop) (m : M St α) : Prop := ∀ s a s', m s = (.ok a, s') → R a → s'.short = true
theorem Recs.pure {R : α → Prop} {a : α} (h : ¬ R a) : Recs R (Pure.pure a : M St α) := by
  intro s a' s' e hr
  cases e
  exact absurd hr h
theorem Recs.bind {R : β → Prop} {m : M St α} {f : α → M St β} (h : ∀ a, Recs R (f a)) : Recs R (m >>= f) := by
  intro s b s' e hr
  rw [M.run_bind] at e
  rcases hms : m s with ⟨r | a, s1⟩
  · rw [hms] at e; cases e
  · rw [hms] at e
    exact h a s1 b s' e hr
theorem Recs.attemptBind {R : β → Prop} {m : M St α} {f : Except Err α → M St β} (hm : Loud m) (hs : ∀ r, Sticky (f r))
    (h : ∀ r, r ≠ .error .ebusy → Recs R (f r)) : Recs R (M.attempt m >>= f) := by
  intro s b s' e hr
  have e' : (M.attempt m >>= f) s = f (m s).1 (m s).2 := rfl
  rw [e'] at e
  by_cases hb : (m s).1 = .error .ebusy
  · have := hs (m s).1 (m s).2 (hm.busy s hb)
    rw [e] at this
    exact this
  · exact h _ hb _ b s' e hr

theorem findFreeRound_rec (has : Bool) (s : St) : ∀ b r s', findFreeRound c has s = (.ok (b, some r), s') → Rec r s' := by
  have hR : Recs (fun x : Bool × Option (Except Err Unit) => x.2 = some (.error .ebusy)) (findFreeRound c has) := by
    unfold findFreeRound
    refine Recs.bind fun other => Recs.bind fun _ => Recs.attemptBind (Loud.whenB (tmpGet_loud c)) (fun _ => by loud) fun r hr => ?_
    cases r with
    | error e => exact Recs.pure fun h => hr (by simpa using h)
    | ok _ =>
      refine Recs.bind fun b => ?_
      split
      · exact Recs.pure (by simp)
      refine Recs.bind fun b => ?_
      split
      · refine Recs.bind fun _ => Recs.attemptBind (tmpGet_loud c) (fun _ => by loud) fun r hr => ?_
        cases r with
        | error e => exact Recs.pure fun h => hr (by simpa using h)
        | ok _ =>
          refine Recs.bind fun b => ?_
          split
          · exact Recs.pure (by simp)
          · exact Recs.bind fun _ => Recs.pure (by simp)
      · exact Recs.pure (by simp)
  intro b r s' h hr
  exact hR s _ s' h (by rw [hr])
theorem findFreeRound_loud (has : Bool) : Loud (findFreeRound c has) := by
  refine ⟨findFreeRound_sticky c has, ?_⟩
  have : Loud (findFreeRound c has) := by
    unfold findFreeRound
    refine Loud.bind Loud.flip fun other => Loud.bind (Loud.whenB tmpPut_loud) fun _ => ?_
    refine Loud.attemptBind (Loud.whenB (tmpGet_loud c)) (fun _ => by loud) fun r hr => ?_
    loud
  exact this.busy

theorem findFreeLoop_rec : ∀ n has, Loud (findFreeLoop c n has) ∧
    ∀ s b r s', findFreeLoop c n has s = (.ok (b, r), s') → Rec r s' := by
  intro n
  induction n with
  | zero =>
    intro has
    refine ⟨Loud.pure _, fun s b r s' h hr => ?_⟩
    cases h; cases hr
  | succ n ih =>
    intro has
    have hloud : Loud (findFreeLoop c (n + 1) has) := by
      refine Loud.bind (findFreeRound_loud c has) fun x => ?_
      obtain ⟨has', r⟩ := x
      cases r with
      | some r => exact Loud.pure _
      | none => exact Loud.bind Loud.flip fun _ => Loud.ite (ih has').1 (Loud.pure _)
    refine ⟨hloud, fun s b r s' h hr => ?_⟩
    unfold findFreeLoop at h
    rw [M.run_bind] at h
    rcases hx : findFreeRound c has s with ⟨e | ⟨has', ro⟩, s1⟩
    · rw [hx] at h; cases h
    · rw [hx] at h
      cases ro with
      | some r' =>
        simp only [M.run_pure] at h
        cases h
        exact findFreeRound_rec c has s _ _ _ hx hr
      | none =>
        simp only [M.run_bind] at h
        rcases hfl : flip s1 with ⟨e | bb, s2⟩
        · rw [hfl] at h; cases h
        · rw [hfl] at h
          cases bb
          · simp only [Bool.false_eq_true, if_false, M.run_pure] at h
            cases h; cases hr
          · simp only [if_true] at h
            exact (ih has').2 s2 b r s' h hr
theorem findFreeE_loud : Loud (findFreeE c) := by
  refine Loud.bind Loud.status fun _ => Loud.bind Loud.get fun s0 => ?_
  have hl := findFreeLoop_rec c (s0.orc.length + 1) false
  refine ⟨Sticky.bind hl.1.sticky fun x => ?_, fun s h => ?_⟩
  · exact Sticky.bind (Loud.whenB tmpPut_loud).sticky fun _ => Sticky.ofExcept _
  · rw [M.run_bind] at h ⊢
    rcases hx : findFreeLoop c (s0.orc.length + 1) false s with ⟨e | ⟨has, r⟩, s1⟩
    · rw [hx] at h
      have := hl.1.busy s
      rw [hx] at this
      exact this (by cases h; rfl)
    · rw [hx] at h
      simp only [M.run_bind] at h ⊢
      have hw := (Loud.whenB (b := has) tmpPut_loud)
      have hwb := hw.busy s1
      have hws := hw.sticky s1
      rcases hy : whenB has tmpPut s1 with ⟨e | _, s2⟩
      · simp only [hy] at h hwb ⊢; exact hwb (by cases h; rfl)
      · simp only [hy] at h hws ⊢
        exact hws (hl.2 s has r s1 hx h)
theorem allocBlock_loud : Loud (allocBlock c) := by
  have h1 := external_loud c; have h2 := findFreeE_loud c; have h3 := blockSet_loud c
  unfold allocBlock; loud
theorem blockState_loud : Loud (blockState c) := by
  have := blockGet_loud c
  unfold blockState; loud

theorem bitGet_loud : Loud (bitGet c) := by have := blockGet_loud c; unfold bitGet; loud
theorem bitSet_loud : Loud (bitSet c) := by have := blockSet_loud c; unfold bitSet; loud
theorem isBranched_loud : Loud (isBranched c) := by have := blockState_loud c; unfold isBranched; loud
theorem writeableCopy_loud : Loud (writeableCopy c) := by have := bitGet_loud c; unfold writeableCopy; loud
theorem currentCopy_loud : Loud (currentCopy c) := by have := bitGet_loud c; unfold currentCopy; loud
theorem isFree_loud : Loud (isFree c) := by have := bitGet_loud c; unfold isFree; loud
theorem findFreeInode_loud : Loud (findFreeInode c) := by have := isFree_loud c; unfold findFreeInode; loud
theorem putCoord_loud : Loud (putCoord c k) := by unfold putCoord putData putIndir putDindir; loud
theorem inodePut_loud : Loud (inodePut c k) := by have := putCoord_loud c k; unfold inodePut; loud
theorem inodeBranch_loud : Loud (inodeBranch c k) := by
  have := writeableCopy_loud c; have := bitSet_loud c
  unfold inodeBranch; loud
theorem inodeMount_loud (v b : Bool) : Loud (inodeMount c k v b) := by
  have := currentCopy_loud c; have := isBranched_loud c; have := inodeBranch_loud c k; have := inodePut_loud c k
  unfold inodeMount; loud
theorem inodeMountAny_loud (b : Bool) : Loud (inodeMountAny c k b) :=
  Loud.bind Loud.flip fun _ => inodeMount_loud c k _ b
theorem inodeCreate_loud : Loud (inodeCreate c k) := by
  have := findFreeInode_loud c; have := isFree_loud c; have := writeableCopy_loud c; have := bitSet_loud c
  unfold inodeCreate; loud
theorem inodeFree_loud : Loud (inodeFree c k) := by
  have := bitGet_loud c; have := bitSet_loud c
  unfold inodeFree; loud

theorem seekCoord_loud : Loud (seekCoord c k) := by
  have := putCoord_loud c k
  unfold seekCoord putData putIndir putDindir; loud
theorem seekInode_loud : Loud (seekInode c k) := by
  have := seekCoord_loud c k
  unfold seekInode; loud
theorem seekAndRead_loud : Loud (seekAndRead c k) := by
  have := seekInode_loud c k
  unfold seekAndRead; loud
theorem branchOne_loud (f : Option Fld) : Loud (branchOne c k f) := by
  have := blockState_loud c; have := allocBlock_loud c; have := blockSet_loud c
  unfold branchOne; loud
theorem branchBlockCost_loud (d : Depth) : Loud (branchBlockCost c k d) := by
  have := blockState_loud c
  unfold branchBlockCost; loud
theorem branchBlock_loud (d : Depth) (b : Bool) : Loud (branchBlock c k d b) := by
  have := branchBlockCost_loud c k d
  have h := branchOne_loud c k
  have := h (some .dindir); have := h (some .indir); have := h (some .data); have := h none
  unfold branchBlock; loud
theorem expandPrepare_loud : Loud (expandPrepare c k) := by
  have := seekInode_loud c k; have := branchBlock_loud c k .data true
  unfold expandPrepare; loud
theorem readUnaligned_loud : Loud (readUnaligned c k) := by have := seekAndRead_loud c k; unfold readUnaligned; loud
theorem getExtent_loud : Loud (getExtent c k) := by have := seekInode_loud c k; unfold getExtent; loud
theorem readAligned_loud : Loud (readAligned c k) := by have := getExtent_loud c k; unfold readAligned; loud
theorem dataRead_loud : Loud (dataRead c k) := by
  have := readUnaligned_loud c k; have := readAligned_loud c k
  unfold dataRead; loud
theorem writeUnaligned_loud : Loud (writeUnaligned c k) := by
  have := seekInode_loud c k; have := branchBlock_loud c k .data true
  unfold writeUnaligned; loud
theorem alignedBlock_loud : Loud (alignedBlock c k) := by
  have := seekInode_loud c k; have := branchBlock_loud c k .data false
  unfold alignedBlock; loud
theorem alignedExtent_loud : Loud (alignedExtent c k) := by
  have := alignedBlock_loud c k
  unfold alignedExtent; loud
theorem writeAligned_loud : Loud (writeAligned c k) := by have := alignedExtent_loud c k; unfold writeAligned; loud
theorem dataWrite_loud : Loud (dataWrite c k) := by
  have := expandPrepare_loud c k; have := writeUnaligned_loud c k; have := writeAligned_loud c k
  unfold dataWrite; loud
theorem truncDataBlock_loud : Loud (truncDataBlock c k) := by have := blockSet_loud c; unfold truncDataBlock; loud
theorem truncIndir_loud : Loud (truncIndir c k) := by
  have := blockSet_loud c; have := truncDataBlock_loud c k; have := branchBlock_loud c k .indir false
  unfold truncIndir putIndir; loud
theorem truncDindir_loud : Loud (truncDindir c k) := by
  have := blockSet_loud c; have := truncIndir_loud c k; have := branchBlock_loud c k .dindir false; have := seekInode_loud c k
  unfold truncDindir putDindir; loud
theorem shrink_loud : Loud (shrink c k) := by
  have := truncDataBlock_loud c k; have := truncIndir_loud c k; have := truncDindir_loud c k; have := seekInode_loud c k
  unfold shrink putData; loud
theorem dataTruncate_loud : Loud (dataTruncate c k) := by
  have := expandPrepare_loud c k; have := shrink_loud c k
  unfold dataTruncate; loud
theorem inodeDelete_loud : Loud (inodeDelete c k) := by
  have := dataTruncate_loud c k; have := inodeFree_loud c k
  unfold inodeDelete; loud
theorem linkDec_loud : Loud (linkDec c k) := by
  have := inodeBranch_loud c k; have := inodeDelete_loud c k
  unfold linkDec; loud

theorem dirScan_loud : Loud (dirScan c k) := by have := seekAndRead_loud c k; unfold dirScan; loud
theorem dirLookup_loud : Loud (dirLookup c k) := by have := dirScan_loud c k; unfold dirLookup; loud
theorem dirRead_loud : Loud (dirRead c k) := by have := dirScan_loud c k; unfold dirRead; loud
theorem dirWrite_loud : Loud (dirWrite c k) := by have := dataWrite_loud c k; unfold dirWrite; loud
theorem dirCreate_loud : Loud (dirCreate c k) := by
  have := dirLookup_loud c k; have := dirWrite_loud c k
  unfold dirCreate; loud
theorem dirDelete_loud : Loud (dirDelete c k) := by
  have := dirScan_loud c k; have := dirWrite_loud c k; have := dataTruncate_loud c k
  unfold dirDelete; loud
theorem cyclicCheck_loud : Loud (cyclicCheck c k) := by
  have := inodeMountAny_loud c .next false; have := inodePut_loud c .next
  unfold cyclicCheck; loud
theorem dirRename_loud : Loud (dirRename c k) := by
  have := dirLookup_loud c .srcP; have := dirLookup_loud c k
  have := inodeMountAny_loud c .src true; have := inodeMountAny_loud c .dst true; have := cyclicCheck_loud c k
  have := dirWrite_loud c k; have := dirDelete_loud c .srcP; have := dirDelete_loud c k
  unfold dirRename; loud

theorem Loud.withRetry {m : M St Unit} (h : Loud m) : Loud (withRetry m) := by
  unfold Refs.withRetry; loud
theorem coreCreate_loud : Loud (coreCreate c) := by
  have := inodeMountAny_loud c .srcP false; have := inodeCreate_loud c .src; have := inodeBranch_loud c .srcP
  have := dirCreate_loud c .srcP; have := inodeFree_loud c .src; have := inodePut_loud c .src; have := inodePut_loud c .srcP
  unfold coreCreate; loud
theorem coreLink_loud : Loud (coreLink c) := by
  have := inodeMountAny_loud c .srcP false; have := inodeMountAny_loud c .src false; have := inodeBranch_loud c .srcP
  have := dirCreate_loud c .srcP; have := inodeBranch_loud c .src; have := inodePut_loud c .src; have := inodePut_loud c .srcP
  unfold coreLink; loud
theorem coreUnlink_loud : Loud (coreUnlink c) := by
  have := inodeMountAny_loud c .srcP false; have := inodeMountAny_loud c .src false; have := inodeBranch_loud c .srcP
  have := dirLookup_loud c .srcP; have := dirDelete_loud c .srcP; have := putCoord_loud c .srcP; have := linkDec_loud c .src
  have := inodePut_loud c .src; have := inodePut_loud c .srcP
  unfold coreUnlink; loud
theorem coreRename_loud (v same : Bool) : Loud (coreRename c v same) := by
  have := inodeMount_loud c .srcP v true; have := inodeMountAny_loud c .dstP true; have := dirRename_loud c (dstSlot same)
  have := putCoord_loud c .srcP; have := putCoord_loud c (dstSlot same); have := linkDec_loud c .dst
  have := inodePut_loud c .dst; have := inodePut_loud c .src; have := inodePut_loud c (dstSlot same); have := inodePut_loud c .srcP
  unfold coreRename; loud
theorem coreLookup_loud : Loud (coreLookup c) := by
  have := inodeMountAny_loud c .src false; have := dirLookup_loud c .src; have := inodePut_loud c .src
  unfold coreLookup; loud
theorem coreStat_loud : Loud (coreStat c) := by
  have := inodeMountAny_loud c .src false; have := inodePut_loud c .src
  unfold coreStat; loud
theorem coreFileRead_loud : Loud (coreFileRead c) := by
  have h := inodeMountAny_loud c .src; have := dataRead_loud c .src; have := inodePut_loud c .src
  unfold coreFileRead; loud
  exact h _
theorem coreFileWrite_loud : Loud (coreFileWrite c) := by
  have := inodeMountAny_loud c .src true; have := dataWrite_loud c .src; have := inodePut_loud c .src
  unfold coreFileWrite; loud
theorem coreFileTruncate_loud : Loud (coreFileTruncate c) := by
  have := inodeMountAny_loud c .src true; have := dataTruncate_loud c .src; have := inodePut_loud c .src
  unfold coreFileTruncate; loud
theorem coreDirRead_loud : Loud (coreDirRead c) := by
  have := inodeMountAny_loud c .src false; have := dirRead_loud c .src; have := inodePut_loud c .src; have := inodeBranch_loud c .src
  unfold coreDirRead; loud
theorem volMount_loud : Loud (volMount c) := by unfold volMount; loud
theorem formatInode_loud : Loud (formatInode c) := by
  have := inodeCreate_loud c .src; have := inodePut_loud c .src
  unfold formatInode; loud
theorem volFormat_loud : Loud (volFormat c) := by
  have := formatInode_loud c; have := external_loud c
  unfold volFormat; loud

theorem run_loud (o : Op) : Loud (o.run c) := by
  cases o with
  | mount => exact volMount_loud c
  | format => exact volFormat_loud c
  | transact => exact Loud.status
  | create => exact Loud.withRetry (coreCreate_loud c)
  | link => exact Loud.withRetry (coreLink_loud c)
  | unlink => exact Loud.withRetry (coreUnlink_loud c)
  | lookup => exact coreLookup_loud c
  | rename v same => exact Loud.withRetry (coreRename_loud c v same)
  | stat => exact coreStat_loud c
  | read => exact coreFileRead_loud c
  | write => exact Loud.withRetry (coreFileWrite_loud c)
  | truncate => exact Loud.withRetry (coreFileTruncate_loud c)
  | readdir => exact coreDirRead_loud c

end RedFs.Refs
