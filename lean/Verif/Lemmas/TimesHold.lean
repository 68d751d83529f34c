import Verif.Lemmas.TimesKeep
import Verif.Lemmas.TimesErase
set_option linter.unusedSimpArgs false
set_option linter.unusedVariables false
/-!
Mounted and branched inodes: what `RedInodePut` asks of them.
-/
namespace RedFs.Times
open RedFs M Str

variable {c : Conf} {clk : Nat → Nat} {α β : Type}

/-- Nothing has changed since the last commit, or the volume is marked as changed. -/
def Idle (v : Vol) : Prop := v.branched = false → v.work = v.comm
/-- Inode `ino` may be stamped. -/
structure Ready (v : Vol) (ci : Cinode) (ino : Nat) : Prop where
  ino : ci.ino = ino
  branched : ci.branched = true
  dirty : ci.dirty = true
  buf : ci.nodeBuf ≠ none
  vol : v.branched = true
theorem Ready.idle {v : Vol} {ci : Cinode} {ino : Nat} (h : Ready v ci ino) : Idle v := fun hh => by rw [h.vol] at hh; cases hh
theorem Ready.tag {v v' : Vol} {ci ci' : Cinode} {ino : Nat} (h : Ready v ci ino) (ht : Cinode.tag ci' = Cinode.tag ci) (hv : v'.branched = true) : Ready v' ci' ino := by
  unfold Cinode.tag at ht
  simp only [Prod.mk.injEq] at ht
  obtain ⟨h1, h2, h3, h4⟩ := ht
  exact ⟨h1.trans h.ino, h2.trans h.branched, h3.trans h.dirty, by rw [h4]; exact h.buf, hv⟩
theorem Ready.vol' {v v' : Vol} {ci : Cinode} {ino : Nat} (h : Ready v ci ino) (hv : v'.branched = true) : Ready v' ci ino := h.tag rfl hv

theorem imapBlockSet_ok {b : Nat} {a : Bool} {v v' : Vol} (h : imapBlockSet c b a v = (.ok (), v')) : v'.branched = true := by
  unfold imapBlockSet at h
  simp only [run_bind, run_get] at h
  split at h
  · cases h
  split at h
  · unfold critical at h; simp only [run_bind] at h; cases h
  · rw [run_bind, run_attempt] at h
    dsimp only at h
    generalize ((if c.inline = true then imapISet c b a else imapESet c b a) v) = x at h
    have key : KB (do
        ofExcept x.1
        if a = false then modify (·.discard b) else pure ()
        if c.firstAlloc ≤ b then
          if a then
            modify fun v => v.setWork { v.work with freeBlocks := v.work.freeBlocks - 1 }
          else do
            let v ← (get : VM Vol)
            let was ← criticalAssert (imapBlockGet c (!v.cur) b)
            if was then modify fun v => { v with almostFree := v.almostFree + 1 }
            else modify fun v => v.setWork { v.work with freeBlocks := v.work.freeBlocks + 1 }
        else pure () : VM Unit) := by kb
    have := key { x.2 with branched := true } rfl
    rw [run_bind] at h
    have hx : (modify (fun v => { v with branched := true }) : VM Unit) x.2 = (.ok (), { x.2 with branched := true }) := rfl
    rw [hx] at h
    dsimp only at h
    rw [h] at this
    exact this

theorem criticalAssert_ok {m : VM α} {v v' : Vol} {a : α} (h : criticalAssert m v = (.ok a, v')) : m v = (.ok a, v') := by
  unfold criticalAssert at h
  rw [run_bind, run_attempt] at h
  rcases hm : m v with ⟨e | b, w⟩
  · rw [hm] at h; unfold critical at h; simp only [run_bind] at h; cases h
  · rw [hm] at h; exact h

theorem inodeBranch_ready {ci ci' : Cinode} {v v' : Vol} (hb : ci.branched = true → v.branched = true) (h : inodeBranch c ci v = (.ok ci', v')) : Ready v' ci' ci.ino := by
  unfold inodeBranch at h
  cases hnb : ci.nodeBuf with
  | none => simp only [hnb] at h; cases h
  | some nb =>
    simp only [hnb] at h
    split at h
    · cases h
    split at h
    · next hbr =>
      rw [run_bind] at h
      have h : ((Except.ok { ci with dirty := true, nodeBuf := some nb } : Except Err Cinode), v.write nb (.inode ci.node)) = (.ok ci', v') := h
      simp only [Prod.mk.injEq, Except.ok.injEq] at h
      obtain ⟨h1, h2⟩ := h
      subst h1; subst h2
      exact ⟨rfl, hbr, rfl, by simp, hb hbr⟩
    · have h := criticalAssert_ok h
      rw [run_bind] at h
      rcases h1 : inodeWriteableCopy c ci.ino v with ⟨e | w, v1⟩
      · rw [h1] at h; cases h
      rw [h1] at h
      dsimp only at h
      rw [run_bind] at h
      have h2 : (modify (·.branchBuf nb (slotBlk c ci.ino w)) : VM Unit) v1 = (.ok (), v1.branchBuf nb (slotBlk c ci.ino w)) := rfl
      rw [h2] at h
      dsimp only at h
      rw [run_bind] at h
      rcases h3 : inodeBitSet c ci.ino (!w) false (v1.branchBuf nb (slotBlk c ci.ino w)) with ⟨e | u, v2⟩
      · rw [h3] at h; cases h
      rw [h3] at h
      dsimp only at h
      rw [run_bind] at h
      rcases h4 : inodeBitSet c ci.ino w true v2 with ⟨e | u', v3⟩
      · rw [h4] at h; cases h
      rw [h4] at h
      have h : ((Except.ok { ci with branched := true, dirty := true, nodeBuf := some (slotBlk c ci.ino w) } : Except Err Cinode), v3) = (.ok ci', v') := h
      simp only [Prod.mk.injEq, Except.ok.injEq] at h
      obtain ⟨g1, g2⟩ := h
      subst g1; subst g2
      refine ⟨rfl, rfl, rfl, by simp, ?_⟩
      unfold inodeBitSet at h4
      split at h4
      · exact imapBlockSet_ok h4
      · cases h4

/-- An operation that only reads. -/
def RO (m : VM α) : Prop := ∀ v a v', m v = (.ok a, v') → v' = v
theorem ro_pure (a : α) : RO (pure a) := fun v b v' h => by have h : (Except.ok a, v) = (_, _) := h; simp only [Prod.mk.injEq] at h; exact h.2.symm
theorem ro_get : RO (get : VM Vol) := fun v b v' h => by have h : (Except.ok v, v) = (_, _) := h; simp only [Prod.mk.injEq] at h; exact h.2.symm
theorem ro_fail (e : Err) : RO (fail e : VM α) := fun v b v' h => by cases h
theorem ro_critical (e : Err) : RO (critical e : VM α) := fun v b v' h => by unfold critical at h; simp only [run_bind] at h; cases h
theorem ro_bind {m : VM α} {f : α → VM β} (h : RO m) (hf : ∀ a, RO (f a)) : RO (m >>= f) := fun v b v' hh => by
  rw [run_bind] at hh
  rcases hm : m v with ⟨e | a, w⟩
  · rw [hm] at hh; cases hh
  · rw [hm] at hh
    have := h v a w hm
    subst this
    exact hf a w b v' hh
theorem ro_ite {p : Prop} [Decidable p] {a b : VM α} (ha : RO a) (hb : RO b) : RO (if p then a else b) := by
  split
  · exact ha
  · exact hb
theorem ro_getImap (b : Nat) : RO (getImap b) := fun v a v' h => by
  unfold getImap at h; split at h
  · simp only [Prod.mk.injEq] at h; exact h.2.symm
  · cases h
theorem ro_getInodeBuf (b : Nat) : RO (getInodeBuf b) := fun v a v' h => by
  unfold getInodeBuf at h; split at h
  · simp only [Prod.mk.injEq] at h; exact h.2.symm
  · cases h
macro "ro" : tactic => `(tactic| with_reducible repeat' first
  | assumption | exact ro_pure _ | exact ro_get | exact ro_fail _ | exact ro_critical _ | exact ro_getImap _ | exact ro_getInodeBuf _
  | apply ro_bind | apply ro_ite | intro _ | split)
theorem ro_blockGet (m : Bool) (b : Nat) : RO (imapBlockGet c m b) := by
  unfold imapBlockGet imapIGet imapEGet; ro
theorem ro_bitGet (m : Bool) (i : Nat) (w : Bool) : RO (inodeBitGet c m i w) := by
  have := ro_blockGet (c := c) m (slotBlk c i w)
  unfold inodeBitGet; ro
theorem ro_current (i : Nat) : RO (inodeCurrentCopy c i) := by
  unfold inodeCurrentCopy
  refine ro_bind ro_get fun v => ro_bind (ro_bitGet _ _ _) fun a => ro_ite (ro_pure _) (ro_bind (ro_bitGet _ _ _) fun b => ?_)
  ro
theorem ro_blockState (b : Nat) : RO (imapBlockState c b) := by
  unfold imapBlockState
  refine ro_ite (ro_fail _) (ro_bind ro_get fun v => ro_bind (ro_blockGet _ _) fun a => ro_bind (ro_blockGet _ _) fun b => ?_)
  ro
theorem ro_isBranched (i : Nat) : RO (inodeIsBranched c i) := by
  unfold inodeIsBranched
  refine ro_ite (ro_bind (ro_blockState _) fun s => ro_ite (ro_pure _) (ro_bind (ro_blockState _) fun s => ro_pure _)) (ro_fail _)

theorem blockGet_same {v : Vol} (h : v.work = v.comm) (b : Nat) : imapBlockGet c v.cur b v = imapBlockGet c (!v.cur) b v := by
  have h : v.mr v.cur = v.mr (!v.cur) := h
  have h1 : v.mr false = v.mr true := by
    cases hc : v.cur
    · rw [hc] at h; exact h
    · rw [hc] at h; exact h.symm
  have hb : ∀ x, v.mr x = v.mr true := fun x => by cases x; exact h1; rfl
  unfold imapBlockGet
  split
  · rfl
  split
  · unfold imapIGet; simp only [run_bind, run_get]; rw [h]
  · unfold imapEGet
    simp only [run_bind, run_get]
    obtain ⟨m, hm⟩ : ∃ m, ∀ x, v.mr x = m := ⟨_, hb⟩
    simp only [hm]
theorem blockState_same {v v' : Vol} {b : Nat} {s : AllocState} (h : v.work = v.comm) (hs : imapBlockState c b v = (.ok s, v')) : s ≠ .new := by
  unfold imapBlockState at hs
  split at hs
  · cases hs
  · simp only [run_bind, run_get] at hs
    rcases h1 : imapBlockGet c v.cur b v with ⟨e | a, w⟩
    · rw [h1] at hs; cases hs
    have := ro_blockGet _ _ v a w h1
    subst this
    rw [h1] at hs
    dsimp only at hs
    rw [← blockGet_same h, h1] at hs
    have hs : (Except.ok (if a then (if a then AllocState.used else .new) else (if a then .afree else .free)), w) = (Except.ok s, v') := hs
    simp only [Prod.mk.injEq, Except.ok.injEq] at hs
    rw [← hs.1]
    cases a <;> simp
theorem isBranched_idle {v v' : Vol} {i : Nat} {b : Bool} (hi : Idle v) (h : inodeIsBranched c i v = (.ok b, v')) : b = true → v.branched = true := by
  intro hb
  subst hb
  cases hv : v.branched
  · exfalso
    have hi := hi hv
    unfold inodeIsBranched at h
    split at h
    · rw [run_bind] at h
      rcases h1 : imapBlockState c (slotBlk c i false) v with ⟨e | s, w⟩
      · rw [h1] at h; cases h
      have := ro_blockState _ v s w h1
      subst this
      rw [h1] at h
      dsimp only at h
      rw [if_neg (blockState_same hi h1), run_bind] at h
      rcases h2 : imapBlockState c (slotBlk c i true) w with ⟨e | s', w'⟩
      · rw [h2] at h; cases h
      rw [h2] at h
      have h : (Except.ok (decide (s' = .new)), w') = (Except.ok true, v') := h
      simp only [Prod.mk.injEq, Except.ok.injEq, decide_eq_true_eq] at h
      exact blockState_same hi h2 h.1
    · cases h
  · rfl

/-- A mounted inode. -/
structure Held (v : Vol) (ci : Cinode) (ino : Nat) : Prop where
  ino : ci.ino = ino
  buf : ci.nodeBuf ≠ none
  vol : ci.branched = true → v.branched = true
theorem Held.tag {v v' : Vol} {ci ci' : Cinode} {ino : Nat} (h : Held v ci ino) (ht : Cinode.tag ci' = Cinode.tag ci) (hv : v.branched = true → v'.branched = true) : Held v' ci' ino := by
  unfold Cinode.tag at ht
  simp only [Prod.mk.injEq] at ht
  obtain ⟨h1, h2, h3, h4⟩ := ht
  exact ⟨h1.trans h.ino, by rw [h4]; exact h.buf, fun hh => hv (h.vol (h2 ▸ hh))⟩
theorem Held.branch {ci ci' : Cinode} {v v' : Vol} {ino : Nat} (h : Held v ci ino) (hh : inodeBranch c ci v = (.ok ci', v')) : Ready v' ci' ino :=
  h.ino ▸ inodeBranch_ready h.vol hh

theorem mount_split {ino : Nat} {ty : FType} {br : Bool} {v v' : Vol} {ci : Cinode} (hi : Idle v) (h : inodeMount c ino ty br v = (.ok ci, v')) :
    ∃ ci0, Held v ci0 ino ∧ ci0.dirty = false ∧ (if br then inodeBranch c ci0 else pure ci0) v = (.ok ci, v') := by
  unfold inodeMount at h
  split at h
  · cases h
  rw [run_bind] at h
  rcases h1 : inodeCurrentCopy c ino v with ⟨e | w, v1⟩
  · rw [h1] at h; cases h
  have := ro_current _ v w v1 h1
  subst this
  rw [h1] at h
  dsimp only at h
  rw [run_bind] at h
  rcases h2 : getInodeBuf (slotBlk c ino w) v1 with ⟨e | n, v2⟩
  · rw [h2] at h; cases h
  have := ro_getInodeBuf _ v1 n v2 h2
  subst this
  rw [h2] at h
  dsimp only at h
  rw [run_bind] at h
  rcases h3 : inodeIsBranched c ino v2 with ⟨e | b, v3⟩
  · rw [h3] at h; cases h
  have := ro_isBranched _ v2 b v3 h3
  subst this
  rw [h3] at h
  dsimp only at h
  have hb := isBranched_idle hi h3
  split at h
  · split at h
    · cases h
    · exact ⟨_, ⟨rfl, by simp, hb⟩, rfl, h⟩
  · split at h
    · split at h
      · cases h
      · exact ⟨_, ⟨rfl, by simp, hb⟩, rfl, h⟩
    · unfold critical at h; simp only [run_bind] at h; cases h
theorem mount_held {ino : Nat} {ty : FType} {v v' : Vol} {ci : Cinode} (hi : Idle v) (h : inodeMount c ino ty false v = (.ok ci, v')) :
    v' = v ∧ Held v ci ino := by
  obtain ⟨ci0, h1, h2, h3⟩ := mount_split hi h
  have h3 : (Except.ok ci0, v) = (Except.ok ci, v') := h3
  simp only [Prod.mk.injEq, Except.ok.injEq] at h3
  obtain ⟨rfl, rfl⟩ := h3
  exact ⟨rfl, h1⟩
theorem mount_ready {ino : Nat} {ty : FType} {v v' : Vol} {ci : Cinode} (hi : Idle v) (h : inodeMount c ino ty true v = (.ok ci, v')) :
    Ready v' ci ino := by
  obtain ⟨ci0, h1, h2, h3⟩ := mount_split hi h
  exact h1.branch h3

theorem runCi_tag {ci ci' : Cinode} {m : DM α} (hm : KD m) {v v' : Vol} {a : α} (h : runCi ci m v = (.ok (a, ci'), v')) :
    Cinode.tag ci' = Cinode.tag ci ∧ (v.branched = true → v'.branched = true) := by
  have := hm ⟨ci, v⟩
  unfold runCi at h
  rcases hx : m ⟨ci, v⟩ with ⟨e | b, s⟩
  · rw [hx] at h; cases h
  · rw [hx] at h this
    simp only [Prod.mk.injEq, Except.ok.injEq] at h
    obtain ⟨⟨rfl, rfl⟩, rfl⟩ := h
    exact this
theorem onCi_tag {ci ci' : Cinode} {m : DM α} (hm : KD m) {v v' : Vol} {r : Except Err α} (h : onCi ci m v = (.ok (r, ci'), v')) :
    Cinode.tag ci' = Cinode.tag ci ∧ (v.branched = true → v'.branched = true) := by
  have := hm ⟨ci, v⟩
  unfold onCi at h
  rcases hx : m ⟨ci, v⟩ with ⟨b, s⟩
  rw [hx] at h this
  simp only [Prod.mk.injEq, Except.ok.injEq] at h
  obtain ⟨⟨rfl, rfl⟩, rfl⟩ := h
  exact this

end RedFs.Times
