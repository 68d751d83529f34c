import Verif.Lemmas.IoData
set_option linter.unusedSimpArgs false
set_option linter.unusedVariables false
/-!
Directories and the operations of core.c, on a device that may fail (see `Lemmas/Io.lean`).
-/
namespace RedFs.Io
open RedFs M HasVol Bitmap

variable {c : Conf} {α β : Type}

theorem dirEntryWrite_tame (i n : Nat) (name : List Str.Ch) (l : Nat) : Tame (Le c) (dirEntryWrite c i n name l) (RedFs.dirEntryWrite c i n name l) := by
  have hR := le_keeps c
  unfold dirEntryWrite RedFs.dirEntryWrite
  tm
set_option hygiene false in
macro_rules | `(tactic| tm_leaf) => `(tactic| exact dirEntryWrite_tame _ _ _ _)
theorem dirCreate_tame (name : List Str.Ch) (i : Nat) : Tame (Le c) (dirCreate c name i) (RedFs.dirCreate c name i) := by
  have hR := le_keeps c
  unfold dirCreate RedFs.dirCreate
  refine Tame.bind hR (by tm) fun s => Tame.ite (fun _ => by tm) fun _ => Tame.ite (fun _ => by tm) fun _ => ?_
  dsimp only
  refine Tame.ite (fun _ => by tm) fun _ => Tame.ite (fun _ => by tm) fun _ => Tame.ite (fun _ => by tm) fun _ => Tame.bind hR (by tm) fun x => ?_
  rcases x with _ | _ | _
  · tm
  · tm
  · tm
theorem dirDelete_tame (i : Nat) : Tame (Le c) (dirDelete c i) (RedFs.dirDelete c i) := by
  have hR := le_keeps c
  unfold dirDelete RedFs.dirDelete
  tm
set_option hygiene false in
macro_rules | `(tactic| tm_leaf) => `(tactic| first
  | exact dirCreate_tame _ _
  | exact dirDelete_tame _)

theorem inodeDelete_tame (ci : Cinode) : Tame (Le c) (inodeDelete c ci) (RedFs.inodeDelete c ci) := by
  have hR := le_keeps c
  unfold inodeDelete RedFs.inodeDelete
  tm
set_option hygiene false in
macro_rules | `(tactic| tm_leaf) => `(tactic| exact inodeDelete_tame _)
theorem inodeLinkDec_tame (ci : Cinode) : Tame (Le c) (inodeLinkDec c ci) (RedFs.inodeLinkDec c ci) := by
  have hR := le_keeps c
  unfold inodeLinkDec RedFs.inodeLinkDec
  tm
set_option hygiene false in
macro_rules | `(tactic| tm_leaf) => `(tactic| exact inodeLinkDec_tame _)

theorem onSrcP_tame (p : Parents) {mI : IDM α} {m : DM α} (h : Tame (Le c) mI m) : TameS (Le c) Prod.fst (onSrcP p mI) (RedFs.onSrcP p m) :=
  (h.onCi (ci := p.src)).bindS (le_keeps c) (k := fun x => (x.1, { p with src := x.2 })) rfl fun x hx => hx
theorem onDstP_tame (p : Parents) {mI : IDM α} {m : DM α} (h : Tame (Le c) mI m) : TameS (Le c) Prod.fst (onDstP p mI) (RedFs.onDstP p m) :=
  (h.onCi (ci := p.getDst)).bindS (le_keeps c) (k := fun x => (x.1, match p.dst with
    | some _ => { p with dst := some x.2 }
    | none => { p with src := x.2 })) rfl fun x hx => hx

theorem renameTarget_tame (r : Except Err LookupRes) : Tame (Le c) (renameTarget c r) (RedFs.renameTarget c r) := by
  refine .lift fun v => ?_
  unfold RedFs.renameTarget
  rcases r with e | _ | _ | _
  · exact Le.refl _
  · show Le c v ((if _ then _ else _ : VM _) v).2
    split <;> exact Le.refl _
  · exact Le.refl _
  · exact Le.refl _
theorem renameReplaced_tame (ci : Cinode) (i : Nat) : Tame (Le c) (renameReplaced c ci i) (RedFs.renameReplaced c ci i) := by
  have hR := le_keeps c
  unfold renameReplaced RedFs.renameReplaced
  tm
set_option hygiene false in
macro_rules | `(tactic| tm_leaf) => `(tactic| first
  | exact renameTarget_tame _
  | exact renameReplaced_tame _ _)

theorem renameRevert_tame (p : Parents) (i n : Nat) (name : List Str.Ch) (l : Nat) :
    Tame (Le c) (renameRevert (α := α) c p i n name l) (RedFs.renameRevert c p i n name l) := by
  have hR := le_keeps c
  unfold renameRevert RedFs.renameRevert
  refine (onDstP_tame p (by tm)).bind hR (fun x => ?_) (fun x hx => ?_)
  · rcases x with ⟨_ | _, _⟩
    · tm
    · tm
  · obtain ⟨r, p'⟩ := x
    have hx : r = .error .eio := hx
    subst hx; exact After.critical hR
set_option hygiene false in
macro_rules | `(tactic| tm_leaf) => `(tactic| exact renameRevert_tame _ _ _ _ _)

theorem renameEntries_tame (p : Parents) (i j k n : Nat) (name : List Str.Ch) (l : Nat) :
    Tame (Le c) (renameEntries c p i j k n name l) (RedFs.renameEntries c p i j k n name l) := by
  have hR := le_keeps c
  unfold renameEntries RedFs.renameEntries
  refine (onDstP_tame p (by tm)).bind hR (fun x => ?_) (fun x hx => ?_)
  · obtain ⟨r, p⟩ := x
    refine Tame.bind hR (by tm) fun _ => (onSrcP_tame p (by tm)).bind hR (fun x => ?_) (fun x hx => ?_)
    · rcases x with ⟨_ | _, _⟩
      · tm
      · tm
    · obtain ⟨r, p'⟩ := x
      have hx : r = .error .eio := hx
      subst hx; exact After.fail hR
  · obtain ⟨r, p'⟩ := x
    have hx : r = .error .eio := hx
    subst hx; exact After.bind hR (After.ofExcept hR rfl)
set_option hygiene false in
macro_rules | `(tactic| tm_leaf) => `(tactic| exact renameEntries_tame _ _ _ _ _ _ _)

theorem renameMove_tame (p : Parents) (i j k n : Nat) (name : List Str.Ch) (l : Nat) :
    Tame (Le c) (renameMove c p i j k n name l) (RedFs.renameMove c p i j k n name l) := by
  have hR := le_keeps c
  unfold renameMove RedFs.renameMove
  tm
set_option hygiene false in
macro_rules | `(tactic| tm_leaf) => `(tactic| exact renameMove_tame _ _ _ _ _ _ _)

theorem dirRename_tame (p : Parents) (a b : List Str.Ch) : Tame (Le c) (dirRename c p a b) (RedFs.dirRename c p a b) := by
  have hR := le_keeps c
  unfold dirRename RedFs.dirRename
  refine Tame.ite (fun _ => by tm) fun _ => Tame.ite (fun _ => by tm) fun _ => ?_
  dsimp only
  refine Tame.ite (fun _ => by tm) fun _ => (onSrcP_tame p (by tm)).bind hR (fun x => ?_) (fun x hx => ?_)
  · obtain ⟨r, p⟩ := x
    refine Tame.bind hR (by tm) fun y => ?_
    rcases y with ⟨i, n⟩ | _
    · refine (onDstP_tame p (by tm)).bind hR (fun x => ?_) (fun x hx => ?_)
      · obtain ⟨r, p⟩ := x
        refine Tame.bind hR (by tm) fun y => ?_
        obtain ⟨a, b⟩ := y
        tm
      · obtain ⟨r, p'⟩ := x
        have hx : r = .error .eio := hx
        subst hx
        exact After.bind hR (fun s h1 h2 => ⟨s, rfl, h1, rfl, h2, hR.refl _, hR.refl _⟩)
    · tm
  · obtain ⟨r, p'⟩ := x
    have hx : r = .error .eio := hx
    subst hx; exact After.bind hR (After.ofExcept hR rfl)
set_option hygiene false in
macro_rules | `(tactic| tm_leaf) => `(tactic| exact dirRename_tame _ _ _)

/-! ### core.c -/

theorem setUseReserved_tame (b : Bool) : Tame (Le c) (setUseReserved c b) (RedFs.setUseReserved c b) := by
  refine .lift fun v => ?_
  unfold RedFs.setUseReserved
  split
  · exact Le.reserved _ _
  · exact Le.refl _
set_option hygiene false in
macro_rules | `(tactic| tm_leaf) => `(tactic| exact setUseReserved_tame _)

/-- Resetting `fUseReservedBlocks` after a failure. -/
theorem after_reserved (b : Bool) {k : Unit → IVM β} (h : After (Le c) (k ())) : After (Le c) (setUseReserved c b >>= k) := by
  have hR := le_keeps c
  by_cases hr : 0 < c.reserved
  · have e : setUseReserved c b = modify fun v => { v with useReserved := b } := by
      unfold setUseReserved RedFs.setUseReserved; rw [if_pos hr]; rfl
    rw [e]
    exact After.lift hR (fun v => Le.reserved v b) (fun v => Le.reservedBack v b) (fun _ => rfl) h
  · have e : setUseReserved c b = modify fun v => v := by
      unfold setUseReserved RedFs.setUseReserved; rw [if_neg hr]; rfl
    rw [e]
    exact After.lift hR (fun v => Le.refl v) (fun v => Le.refl v) (fun _ => rfl) h

theorem coreFileWriteSub_tame (i s l : Nat) (f : Nat → Byte) : Tame (Le c) (coreFileWriteSub c i s l f) (RedFs.coreFileWriteSub c i s l f) := by
  have hR := le_keeps c
  exact rwOp_tame hR (by tm)

theorem coreFileTruncateSub_tame (i n : Nat) : Tame (Le c) (coreFileTruncateSub c i n) (RedFs.coreFileTruncateSub c i n) := by
  have hR := le_keeps c
  refine rwOp_tame hR (Tame.bind hR (by tm) fun ci => Tame.bind hR (by tm) fun _ => ?_)
  refine (dataTruncate_tame n).onCi.bind hR (fun x => ?_) (fun x hx => ?_)
  · obtain ⟨r, p⟩ := x
    tm
  · obtain ⟨r, p'⟩ := x
    have hx : r = .error .eio := hx
    subst hx
    exact after_reserved _ (After.ofExcept hR rfl)

/-! ### freeing the new inode after a failure -/

/-- Run after a failure: no further harm is done. -/
def Stays (c : Conf) (g : IVM α) : Prop := ∀ s : IS Vol, s.bad = true → s.st.readOnly = true →
  ∃ r s', g s = (r, s') ∧ s'.bad = true ∧ s'.dev = s.dev ∧ s'.st.readOnly = true ∧ Le c s.st s'.st ∧ Le c s'.st s.st

theorem Stays.bind {m : IVM α} {k : α → IVM β} (h : Stays c m) (hk : ∀ a, Stays c (k a)) : Stays c (m >>= k) := by
  intro s h1 h2
  obtain ⟨r, s', e, a1, a2, a3, a4, a5⟩ := h s h1 h2
  rw [run_bind, e]
  rcases r with er | x
  · exact ⟨_, _, rfl, a1, a2, a3, a4, a5⟩
  · obtain ⟨r', s2, e2, b1, b2, b3, b4, b5⟩ := hk x s' a1 a3
    exact ⟨r', s2, e2, b1, b2.trans a2, b3, a4.trans b4, b5.trans a5⟩
theorem Stays.lift {f : VM α} (h : ∀ v, v.readOnly = true → (f v).2.readOnly = true ∧ Le c v (f v).2 ∧ Le c (f v).2 v) : Stays c (liftI f) := by
  intro s h1 h2
  exact ⟨_, _, rfl, h1, rfl, (h s.st h2).1, (h s.st h2).2.1, (h s.st h2).2.2⟩
theorem Stays.modify {f : Vol → Vol} (hr : ∀ v, (f v).readOnly = v.readOnly) (h1 : ∀ v, Le c v (f v)) (h2 : ∀ v, Le c (f v) v) : Stays c (Io.modify f) :=
  .lift fun v h => ⟨(hr v).trans h, h1 v, h2 v⟩
theorem Stays.same {f : VM α} (h : ∀ v, (f v).2 = v) : Stays c (liftI f) :=
  .lift fun v hv => by rw [h]; exact ⟨hv, Le.refl _, Le.refl _⟩
theorem Stays.get : Stays c (Io.get : IVM Vol) := .same fun _ => rfl
theorem Stays.pure (a : α) : Stays c (Pure.pure a : IVM α) := fun s h1 h2 => ⟨_, _, rfl, h1, rfl, h2, Le.refl _, Le.refl _⟩
theorem Stays.fail (e : Err) : Stays c (M.fail e : IVM α) := fun s h1 h2 => ⟨_, _, rfl, h1, rfl, h2, Le.refl _, Le.refl _⟩
theorem Stays.ofExcept (r : Except Err α) : Stays c (M.ofExcept r : IVM α) := fun s h1 h2 => ⟨_, _, rfl, h1, rfl, h2, Le.refl _, Le.refl _⟩
theorem Stays.ite {p : Prop} [Decidable p] {a b : IVM α} (h1 : p → Stays c a) (h2 : ¬ p → Stays c b) : Stays c (if p then a else b) := by
  split
  · exact h1 ‹_›
  · exact h2 ‹_›
theorem Stays.attempt {m : IVM α} (h : Stays c m) : Stays c (attempt m) := by
  intro s h1 h2
  obtain ⟨r, s', e, a⟩ := h s h1 h2
  exact ⟨_, s', by rw [run_attempt, e], a⟩
theorem Stays.io : Stays c (Io.io : IVM Unit) := by
  intro s h1 h2
  unfold Io.io ioOr
  cases s.dev.fails s.n
  · exact ⟨_, _, rfl, h1, rfl, h2, Le.refl _, Le.refl _⟩
  · exact ⟨_, _, rfl, rfl, rfl, rfl, (le_keeps c).ro _ _, (le_keeps c).back _ _⟩
theorem Stays.critical (e : Err) : Stays c (Io.critical e : IVM α) :=
  .lift fun v hv => ⟨rfl, (le_keeps c).ro _ _, (le_keeps c).back _ _⟩
theorem Stays.criticalAssert {m : IVM α} (h : Stays c m) : Stays c (Io.criticalAssert m) := by
  refine h.attempt.bind fun r => ?_
  cases r
  · exact .critical _
  · exact .pure _

theorem getImap_same (b : Nat) (v : Vol) : (RedFs.getImap b v).2 = v := by
  unfold RedFs.getImap
  cases v.blk b <;> rfl
theorem getImap_stays (b : Nat) : Stays c (getImap b) := Stays.io.bind fun _ => .same (getImap_same b)
theorem imapBlockGet_stays (i : Bool) (b : Nat) : Stays c (imapBlockGet c i b) := by
  unfold imapBlockGet imapEGet
  exact .ite (fun _ => .fail _) fun _ => .ite (fun _ => .same fun _ => rfl) fun _ => Stays.get.bind fun _ => (getImap_stays _).bind fun _ => .pure _
theorem inodeBitGet_stays (i : Bool) (b : Nat) (w : Bool) : Stays c (inodeBitGet c i b w) :=
  .ite (fun _ => imapBlockGet_stays _ _) fun _ => .fail _

theorem spare_work {v : Vol} {k : Nat} (hi : c.inline = false) (hk : k < c.nodeCount) (hb : nodeIsBranched v k = true) : Spare c v (nodeBlk c v.work k) := by
  refine ⟨hi, k, hk, fun e => ?_, _, rfl⟩
  rw [branched_iff] at hb
  unfold nodeBlk Vol.work at e
  revert e hb
  cases bitGet (v.mr v.cur).entries k <;> cases bitGet (v.mr (!v.cur)).entries k <;> simp

theorem Le.writeBack {v : Vol} {b : Nat} (hs : Spare c v b) (x : Blk) : Le c (v.write b x) v :=
  ⟨rfl, rfl, rfl, rfl, rfl, rfl, fun i h => by
    by_cases hi : i = b
    · subst hi; exact Or.inr hs
    · have h : (if i = b then true else v.dirty i) = true := h
      rw [if_neg hi] at h; exact Or.inl h⟩

theorem Le.discardBack (v : Vol) (b : Nat) : Le c (v.discard b) v := ⟨rfl, rfl, rfl, rfl, rfl, rfl, fun _ h => Or.inl h⟩

theorem stays_discard (b : Nat) : Stays c (Io.modify (·.discard b)) :=
  Stays.modify (f := fun v => v.discard b) (fun _ => rfl) (fun v => Le.discard v b) (fun v => Le.discardBack v b)
theorem stays_branched (b : Bool) : Stays c (Io.modify fun v => { v with branched := b }) :=
  Stays.modify (f := fun v => { v with branched := b }) (fun _ => rfl) (fun v => Le.branchedTrue v b) (fun v => Le.branchedBack v b)
theorem stays_setWork (f : Vol → Metaroot) : Stays c (Io.modify fun v => v.setWork (f v)) :=
  Stays.modify (f := fun v => v.setWork (f v)) (fun _ => rfl) (fun v => Le.setWork v _) (fun v => Le.setWorkBack v _)
theorem stays_almost : Stays c (Io.modify fun v => { v with almostFree := v.almostFree + 1 }) :=
  Stays.modify (f := fun v => { v with almostFree := v.almostFree + 1 }) (fun _ => rfl) (fun v => Le.almost v _)
    fun v => ⟨rfl, rfl, rfl, rfl, rfl, rfl, fun _ h => Or.inl h⟩

/-- The same as `Stays`, with a property of the result. -/
def StaysQ (c : Conf) (Q : Vol → α → Prop) (s : IS Vol) (x : Except Err α × IS Vol) : Prop :=
  x.2.bad = true ∧ x.2.dev = s.dev ∧ x.2.st.readOnly = true ∧ Le c s.st x.2.st ∧ Le c x.2.st s.st ∧ ∀ a, x.1 = .ok a → Q x.2.st a

theorem Stays.q {g : IVM α} (h : Stays c g) {s : IS Vol} (h1 : s.bad = true) (h2 : s.st.readOnly = true) : StaysQ c (fun _ _ => True) s (g s) := by
  obtain ⟨r, s', e, a1, a2, a3, a4, a5⟩ := h s h1 h2
  rw [e]; exact ⟨a1, a2, a3, a4, a5, fun _ _ => trivial⟩
theorem StaysQ.trans {Q : Vol → β → Prop} {s t : IS Vol} {y : Except Err β × IS Vol}
    (hd : t.dev = s.dev) (h1 : Le c s.st t.st) (h2 : Le c t.st s.st) (hk : StaysQ c Q t y) : StaysQ c Q s y := by
  obtain ⟨b1, b2, b3, b4, b5, b6⟩ := hk
  exact ⟨b1, b2.trans hd, b3, h1.trans b4, b5.trans h2, b6⟩
theorem StaysQ.bind {Q : Vol → α → Prop} {Q' : Vol → β → Prop} {m : IVM α} {k : α → IVM β} {s : IS Vol} (h : StaysQ c Q s (m s))
    (hk : ∀ a t, t.bad = true → t.st.readOnly = true → Le c s.st t.st → Q t.st a → StaysQ c Q' t (k a t)) : StaysQ c Q' s ((m >>= k) s) := by
  rw [run_bind]
  rcases hx : m s with ⟨er | x, t⟩
  · rw [hx] at h
    obtain ⟨a1, a2, a3, a4, a5, a6⟩ := h
    exact ⟨a1, a2, a3, a4, a5, fun a h => by cases h⟩
  · rw [hx] at h
    obtain ⟨a1, a2, a3, a4, a5, a6⟩ := h
    exact (hk x t a1 a3 a4 (a6 x rfl)).trans a2 a4 a5
theorem StaysQ.stays {Q : Vol → α → Prop} {g : IVM α} (h : ∀ s, s.bad = true → s.st.readOnly = true → StaysQ c Q s (g s)) : Stays c g := by
  intro s h1 h2
  obtain ⟨a1, a2, a3, a4, a5, _⟩ := h s h1 h2
  exact ⟨_, _, rfl, a1, a2, a3, a4, a5⟩

theorem imapNodeBranch_stays (hi : c.inline = false) (k : Nat) (s : IS Vol) (h1 : s.bad = true) (h2 : s.st.readOnly = true) :
    StaysQ c (fun v b => Spare c v b) s (imapNodeBranch c k s) := by
  unfold imapNodeBranch
  show StaysQ c _ s ((if c.nodeCount ≤ k then _ else if nodeIsBranched s.st k = true then _ else _ : IVM Nat) s)
  by_cases hk : c.nodeCount ≤ k
  · rw [if_pos hk]
    exact ⟨h1, rfl, h2, Le.refl _, Le.refl _, fun a h => by cases h⟩
  · rw [if_neg hk]
    cases hb : nodeIsBranched s.st k
    · rw [if_neg (by simp)]
      have e1 : ∀ v, bitGet ((v : Vol).setWork { v.work with entries := if bitGet s.st.work.entries k then bitClear s.st.work.entries k else bitSet s.st.work.entries k }).work.entries k =
          !bitGet s.st.work.entries k := by
        intro v
        show bitGet (if v.cur = v.cur then _ else v.mr v.cur).entries k = _
        rw [if_pos rfl]
        show bitGet (if _ then _ else _) k = _
        cases h : bitGet s.st.work.entries k
        · simp [bitGet_set]
        · simp [bitGet_clear]
      refine StaysQ.bind (Q := fun v _ => nodeIsBranched v k = true) ?_ fun _ t t1 t2 t3 t4 => ?_
      · refine ⟨h1, rfl, h2, Le.setWork _ _, Le.setWorkBack _ _, fun _ _ => ?_⟩
        have hb' := hb
        rw [branched_iff] at hb'
        show nodeIsBranched (s.st.setWork _) k = true
        have e2 := (Le.setWork (c := c) s.st { s.st.work with entries := if bitGet s.st.work.entries k then bitClear s.st.work.entries k else bitSet s.st.work.entries k }).comm
        rw [branched_iff]
        show (bitGet ((s.st.setWork _).mr s.st.cur).entries k != bitGet ((s.st.setWork _).mr (!s.st.cur)).entries k) = true
        rw [e2, show bitGet ((s.st.setWork _).mr s.st.cur).entries k = _ from e1 s.st]
        show ((!bitGet (s.st.mr s.st.cur).entries k) != _) = true
        revert hb'
        cases bitGet (s.st.mr s.st.cur).entries k <;> cases bitGet (s.st.mr (!s.st.cur)).entries k <;> simp
      · have hs := spare_work hi (by omega) t4
        show StaysQ c _ t (((do modify (·.discard (nodeBlk c t.st.work k)); let _ ← getImap (nodeBlk c t.st.comm k); modify (·.branchBuf (nodeBlk c t.st.comm k) (nodeBlk c t.st.work k)); pure (nodeBlk c t.st.work k)) : IVM Nat) t)
        refine StaysQ.bind ((stays_discard _).q t1 t2) fun _ u u1 u2 u3 _ => ?_
        refine StaysQ.bind ((getImap_stays _).q u1 u2) fun _ w w1 w2 w3 _ => ?_
        have hs' : Spare c w.st (nodeBlk c t.st.work k) := (u3.trans w3).spare.2 hs
        have hl : Le c (w.st.branchBuf (nodeBlk c t.st.comm k) (nodeBlk c t.st.work k)) w.st := (Le.discardBack _ _).trans (Le.writeBack hs' _)
        refine ⟨w1, rfl, w2, Le.branchBuf _ _ _, hl, fun a ha => ?_⟩
        obtain rfl : nodeBlk c t.st.work k = a := Except.ok.inj ha
        exact (Le.branchBuf (c := c) w.st _ _).spare.2 hs'
    · rw [if_pos rfl]
      have hs := spare_work hi (by omega) hb
      refine StaysQ.bind ((getImap_stays _).q h1 h2) fun _ w w1 w2 w3 _ => ?_
      have hs' : Spare c w.st (nodeBlk c s.st.work k) := w3.spare.2 hs
      refine ⟨w1, rfl, w2, Le.markDirty _ _, Le.writeBack hs' _, fun a ha => ?_⟩
      obtain rfl : nodeBlk c s.st.work k = a := Except.ok.inj ha
      exact (Le.markDirty (c := c) w.st _).spare.2 hs'

theorem imapESet_stays (hi : c.inline = false) (b : Nat) (a : Bool) : Stays c (imapESet c b a) := by
  refine StaysQ.stays (Q := fun _ _ => True) fun s h1 h2 => ?_
  unfold imapESet
  refine StaysQ.bind (imapNodeBranch_stays hi _ s h1 h2) fun nb t t1 t2 t3 ht => ?_
  refine StaysQ.bind ((Stays.same (getImap_same nb)).q t1 t2) fun bits u u1 u2 u3 _ => ?_
  have hs := u3.spare.2 ht
  show StaysQ c _ u ((if bitGet bits ((b - c.tableStart) % c.imapEntries) = a then critical .efubar
    else if a = true then modify (·.write nb (.imap (bitSet bits ((b - c.tableStart) % c.imapEntries))))
    else modify (·.write nb (.imap (bitClear bits ((b - c.tableStart) % c.imapEntries)))) : IVM Unit) u)
  by_cases hx : bitGet bits ((b - c.tableStart) % c.imapEntries) = a
  · rw [if_pos hx]; exact (Stays.critical _).q u1 u2
  · rw [if_neg hx]
    cases a
    · exact ⟨u1, rfl, u2, Le.write _ _ _, Le.writeBack hs _, fun _ _ => trivial⟩
    · exact ⟨u1, rfl, u2, Le.write _ _ _, Le.writeBack hs _, fun _ _ => trivial⟩

theorem imapBlockSet_stays (b : Nat) (a : Bool) : Stays c (imapBlockSet c b a) := by
  unfold imapBlockSet
  refine Stays.get.bind fun v => .ite (fun _ => .fail _) fun _ => .ite (fun _ => .critical _) fun _ => ?_
  refine Stays.bind (Stays.attempt (.ite (fun hi => ?_) fun hi => imapESet_stays (by simpa using hi) b a)) fun r => ?_
  · refine .lift fun v hv => ?_
    show _ ∧ Le c v ((if bitGet v.work.entries (b - c.tableStart) = a then RedFs.critical .efubar else if a = true then _ else _ : VM Unit) v).2 ∧ _
    unfold imapISet
    simp only [run_bind, run_get]
    split
    · exact ⟨rfl, (le_keeps c).ro v _, (le_keeps c).back v _⟩
    · split
      · exact ⟨hv, Le.setWork v _, Le.setWorkBack v _⟩
      · exact ⟨hv, Le.setWork v _, Le.setWorkBack v _⟩
  · refine (stays_branched _).bind fun _ => (Stays.ofExcept _).bind fun _ => ?_
    have last : Stays c (if c.firstAlloc ≤ b then
      if a then
        modify fun v => v.setWork { v.work with freeBlocks := v.work.freeBlocks - 1 }
      else do
        let v ← get
        let was ← criticalAssert (imapBlockGet c (!v.cur) b)
        if was then modify fun v => { v with almostFree := v.almostFree + 1 }
        else modify fun v => v.setWork { v.work with freeBlocks := v.work.freeBlocks + 1 }
      else pure ()) := by
      refine .ite (fun _ => .ite (fun _ => stays_setWork _) fun _ => ?_) fun _ => .pure _
      refine Stays.get.bind fun v => (Stays.criticalAssert (imapBlockGet_stays _ _)).bind fun w => .ite (fun _ => ?_) fun _ => stays_setWork _
      exact stays_almost
    refine .ite (fun _ => ?_) fun _ => ?_
    · exact (stays_discard _).bind fun _ => last
    · exact (Stays.pure ()).bind fun _ => last

theorem inodeFree_stays (ci : Cinode) : Stays c (inodeFree c ci) := by
  have bs : ∀ w a, Stays c (inodeBitSet c ci.ino w a) := fun w a => .ite (fun _ => imapBlockSet_stays _ _) fun _ => .fail _
  have last : Stays c (do
      let v ← get
      if c.inodeCount ≤ v.work.freeInodes then critical .efubar
      else modify fun v => v.setWork { v.work with freeInodes := v.work.freeInodes + 1 }) :=
    Stays.get.bind fun v => .ite (fun _ => .critical _) fun _ => stays_setWork _
  unfold inodeFree
  cases ci.nodeBuf
  · exact .fail _
  · refine .ite (fun _ => .fail _) fun _ => ?_
    refine (stays_discard _).bind fun _ => Stays.get.bind fun v =>
      (inodeBitGet_stays _ _ _).bind fun s0 => (inodeBitGet_stays _ _ _).bind fun s1 => .ite (fun _ => .ite (fun _ => ?_) fun _ => ?_) fun _ => .ite (fun _ => ?_) fun _ => ?_
    · exact (Stays.critical _).bind fun _ => last
    · exact (bs _ _).bind fun _ => last
    · exact (Stays.critical _).bind fun _ => last
    · exact (bs _ _).bind fun _ => last

theorem Stays.after {g : IVM α} (h : Stays c g) {k : Except Err α → IVM β} (hk : ∀ r, After (Le c) (k r)) : After (Le c) (M.attempt g >>= k) := by
  intro s h1 h2
  obtain ⟨r, s', e, a1, a2, a3, a4, a5⟩ := h s h1 h2
  obtain ⟨s2, e2, b1, b2, b3, b4, b5⟩ := hk r s' a1 a3
  exact ⟨s2, by rw [run_bind, run_attempt, e]; exact e2, b1, b2.trans a2, b3, a4.trans b4, b5.trans a5⟩

/-- The same as `Tame`, but the error returned may be the one that is returned without the failure. -/
structure TameE (R : Vol → Vol → Prop) (fI : IVM α) (f : VM α) : Prop where
  mono : ∀ s, R s (f s).2
  run : ∀ s, s.bad = false →
    (∃ s', fI s = ((f s.st).1, s') ∧ Fine s (f s.st).2 s') ∨
    (∃ s' e, fI s = (.error e, s') ∧ (e = .eio ∨ (f s.st).1 = .error e) ∧ Hit R s (f s.st).2 s')

theorem Tame.toE {R : Vol → Vol → Prop} {fI : IVM α} {f : VM α} (h : Tame R fI f) : TameE R fI f :=
  ⟨h.mono, fun s hs => (h.run s hs).imp_right fun ⟨s', e, H⟩ => ⟨s', _, e, Or.inl rfl, H⟩⟩
theorem Tame.bindE {R : Vol → Vol → Prop} (hR : Keeps R) {mI : IVM α} {m : VM α} {kI : α → IVM β} {k : α → VM β}
    (h : Tame R mI m) (hk : ∀ a, TameE R (kI a) (k a)) : TameE R (mI >>= kI) (m >>= k) := by
  have mono : ∀ s, R (m s).2 ((m >>= k) s).2 := by
    intro s
    rw [run_bind]
    rcases m s with ⟨e | a, t⟩
    · exact hR.refl _
    · exact (hk a).mono t
  refine ⟨fun s => hR.trans (h.mono s) (mono s), fun s hs => ?_⟩
  rcases h.run s hs with ⟨s', e, m', rfl⟩ | ⟨s', e, H⟩
  · rw [run_bind, run_bind, e]
    rcases hm : m s.st with ⟨er | a, t⟩
    · exact Or.inl ⟨_, rfl, m', rfl⟩
    · rcases (hk a).run ⟨t, s.dev, m', false⟩ rfl with ⟨s2, e2, m2, rfl⟩ | ⟨s2, er, e2, he, H2⟩
      · exact Or.inl ⟨_, e2, m2, rfl⟩
      · have := h.mono s.st; rw [hm] at this
        exact Or.inr ⟨_, er, e2, he, H2.bad, H2.dev, H2.ro, hR.trans this H2.fwd, H2.bwd, H2.some⟩
  · rw [run_bind, e]
    exact Or.inr ⟨s', _, rfl, Or.inl rfl, H.bad, H.dev, H.ro, H.fwd, hR.trans H.bwd (mono _), H.some⟩

/-- `CoreCreate`: if freeing the new inode fails, the error that made this necessary is returned. -/
theorem createUndo_tameE (ci : Cinode) (e : Err) : TameE (Le c)
    (do match ← attempt (inodeFree c ci) with
      | .ok _ => M.fail e
      | .error _ => critical e : IVM Nat)
    (do match ← attempt (RedFs.inodeFree c ci) with
      | .ok _ => M.fail e
      | .error _ => RedFs.critical e : VM Nat) := by
  have hR := le_keeps c
  have h := inodeFree_tame (c := c) ci
  have r1 : ∀ v, ((do match ← attempt (RedFs.inodeFree c ci) with
      | .ok _ => M.fail e
      | .error _ => RedFs.critical e : VM Nat) v).1 = .error e ∧
      Le c (RedFs.inodeFree c ci v).2 ((do match ← attempt (RedFs.inodeFree c ci) with
      | .ok _ => M.fail e
      | .error _ => RedFs.critical e : VM Nat) v).2 := by
    intro v
    rw [run_bind, run_attempt]
    rcases RedFs.inodeFree c ci v with ⟨_ | _, t⟩
    · exact ⟨rfl, hR.ro _ _⟩
    · exact ⟨rfl, hR.refl _⟩
  refine ⟨fun v => hR.trans (h.mono v) (r1 v).2, fun s hs => ?_⟩
  rcases h.run s hs with ⟨s', e1, m', rfl⟩ | ⟨s', e1, H⟩
  · left
    rw [run_bind, run_bind, run_attempt, run_attempt, e1]
    rcases hm : RedFs.inodeFree c ci s.st with ⟨er | a, t⟩
    · exact ⟨_, rfl, m', rfl⟩
    · exact ⟨_, rfl, m', rfl⟩
  · right
    refine ⟨{ s' with st := { s'.st with readOnly := true } }, e, ?_, Or.inr (r1 _).1, H.bad, H.dev, rfl, hR.trans H.fwd (hR.ro _ _), hR.trans (hR.back _ _) (hR.trans H.bwd (r1 _).2), H.some⟩
    rw [run_bind, run_attempt, e1]; rfl

theorem attempt_tameE {mI : IVM α} {m : VM α} {kI : Except Err α → IVM β} {k : Except Err α → VM β}
    (h : Tame (Le c) mI m) (hk : ∀ a, TameE (Le c) (kI (.ok a)) (k (.ok a))) (hke : ∀ e, TameE (Le c) (kI (.error e)) (k (.error e)))
    (ha : After (Le c) (kI (.error .eio))) : TameE (Le c) (attempt mI >>= kI) (attempt m >>= k) := by
  have hR := le_keeps c
  have hk' : ∀ r, TameE (Le c) (kI r) (k r) := fun r => by
    cases r
    · exact hke _
    · exact hk _
  have mono : ∀ s, Le c (m s).2 ((attempt m >>= k) s).2 := fun s => (hk' _).mono _
  refine ⟨fun s => hR.trans (h.mono s) (mono s), fun s hs => ?_⟩
  rcases h.run s hs with ⟨s', e, m', rfl⟩ | ⟨s', e, H⟩
  · rw [run_bind, run_bind, run_attempt, run_attempt, e]
    rcases (hk' (m s.st).1).run ⟨(m s.st).2, s.dev, m', false⟩ rfl with ⟨s2, e2, m2, rfl⟩ | ⟨s2, er, e2, he, H2⟩
    · exact Or.inl ⟨_, e2, m2, rfl⟩
    · exact Or.inr ⟨_, er, e2, he, H2.bad, H2.dev, H2.ro, hR.trans (h.mono s.st) H2.fwd, H2.bwd, H2.some⟩
  · obtain ⟨s2, e2, b1, b2, b3, b4, b5⟩ := ha s' H.bad H.ro
    refine Or.inr ⟨s2, .eio, ?_, Or.inl rfl, b1, b2.trans H.dev, b3, hR.trans H.fwd b4, hR.trans b5 (hR.trans H.bwd (mono _)), H.some⟩
    rw [run_bind, run_attempt, e]; exact e2

theorem coreCreateSub_tameE (p : Nat) (name : List Str.Ch) (d : Bool) : TameE (Le c) (coreCreateSub c p name d) (RedFs.coreCreateSub c p name d) := by
  have hR := le_keeps c
  unfold coreCreateSub RedFs.coreCreateSub rwOp RedFs.rwOp
  refine Tame.bindE hR (by tm) fun v => ?_
  by_cases hv : v.readOnly = true
  · rw [if_pos hv, if_pos hv]; exact (Tame.fail hR _).toE
  rw [if_neg hv, if_neg hv]
  refine Tame.bindE hR (by tm) fun p => Tame.bindE hR (by tm) fun ci => ?_
  exact attempt_tameE (Tame.bind hR (inodeBranch_tame _) fun p => (dirCreate_tame name ci.ino).runCi)
    (fun _ => (Tame.pure hR _).toE) (fun e => createUndo_tameE ci e) ((inodeFree_stays ci).after fun r => by
      cases r
      · exact After.critical hR
      · exact After.fail hR)

theorem coreLinkSub_tame (p : Nat) (name : List Str.Ch) (i : Nat) : Tame (Le c) (coreLinkSub c p name i) (RedFs.coreLinkSub c p name i) := by
  have hR := le_keeps c
  refine rwOp_tame hR (Tame.bind hR (by tm) fun ci => ?_)
  refine (inodeMount_tame i .file false).attempt.bind hR (fun r => ?_) (fun x hx => ?_)
  · rcases r with e | b
    · tm
    · tm
  · have hx : x = .error .eio := hx
    subst hx; exact After.fail hR

theorem coreUnlinkSub_tame (p : Nat) (name : List Str.Ch) : Tame (Le c) (coreUnlinkSub c p name) (RedFs.coreUnlinkSub c p name) := by
  have hR := le_keeps c
  refine rwOp_tame hR (Tame.bind hR (by tm) fun ci => Tame.bind hR (by tm) fun x => ?_)
  rcases x with ⟨⟨idx, ino⟩ | _, ci⟩
  · refine Tame.bind hR (by tm) fun p => Tame.bind hR (by tm) fun ci => Tame.ite (fun _ => by tm) fun _ => Tame.bind hR (by tm) fun _ => ?_
    refine (dirDelete_tame idx).onCi.bind hR (fun x => ?_) (fun x hx => ?_)
    · obtain ⟨r, p⟩ := x
      tm
    · obtain ⟨r, p'⟩ := x
      have hx : r = .error .eio := hx
      subst hx
      exact after_reserved _ (After.bind hR (After.ofExcept hR rfl))
  · tm

theorem coreRenameSub_tame (p : Nat) (a : List Str.Ch) (q : Nat) (b : List Str.Ch) : Tame (Le c) (coreRenameSub c p a q b) (RedFs.coreRenameSub c p a q b) := by
  have hR := le_keeps c
  refine rwOp_tame hR (Tame.bind hR (by tm) fun sp => ?_)
  have tail : ∀ dp, Tame (Le c) (do
      match ← dirRename c ⟨sp, dp⟩ a b with
      | none => pure ()
      | some dst => criticalAssert (inodeLinkDec c dst))
    (do
      match ← RedFs.dirRename c ⟨sp, dp⟩ a b with
      | none => pure ()
      | some dst => RedFs.criticalAssert (RedFs.inodeLinkDec c dst)) := by
    intro dp
    refine Tame.bind hR (by tm) fun x => ?_
    cases x
    · tm
    · tm
  refine Tame.ite (fun _ => ?_) fun _ => ?_
  · exact Tame.bind hR (by tm) fun dp => tail dp
  · exact Tame.bind hR (by tm) fun dp => Tame.bind hR (by tm) fun dp => tail dp

theorem coreFileRead_tame (i s l : Nat) : Tame (Le c) (coreFileRead c i s l) (RedFs.coreFileRead c i s l) := by
  have hR := le_keeps c
  have h := dataRead_tame (c := c) hR s l
  exact whenMounted_tame hR (by tm)
theorem coreDirRead_tame (i p : Nat) : Tame (Le c) (coreDirRead c i p) (RedFs.coreDirRead c i p) := by
  have hR := le_keeps c
  refine whenMounted_tame hR (Tame.bind hR (by tm) fun v => Tame.bind hR (by tm) fun ci => Tame.bind hR (by tm) fun x => ?_)
  obtain ⟨r, ci⟩ := x
  tm

end RedFs.Io
