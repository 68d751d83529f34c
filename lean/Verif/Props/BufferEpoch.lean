import Verif.Spec.BufferEpoch
import Verif.Props.Buffer
/-!
C47: the cache changes only those blocks of the device which its users asked to be changed since the last flush.  This is what the crash model of the volume
layer takes for granted.
-/
set_option linter.unusedVariables false
set_option linter.unusedSimpArgs false
namespace RedFs.Props.Buffer
open RedFs RedFs.Buffer

variable {e : Env} {s s' : Ctx} {E E' : Expect} {vol b : Nat}

/-- Block `b` has the contents `f` on the device, and nothing is waiting for it. -/
def Still (e : Env) (vol b : Nat) (f : Bytes) (s : Ctx) : Prop := s.disk vol b = f ∧ Clean e s vol b

theorem Still.of_disk {f : Bytes} (h : Still e vol b f s) (h1 : s'.disk vol b = s.disk vol b) (h2 : s'.head = s.head) : Still e vol b f s' := by
  refine ⟨h1.trans h.1, fun i hi => ?_⟩
  unfold Holds at hi
  rw [h2] at hi ⊢
  exact h.2 i hi

theorem still_write {f : Bytes} (h : Still e vol b f s) (hs : ∀ v, s.seq v < 18446744073709551616) {i : Nat} (hi : i < e.n) (hd : (s.head i).dirty = true)
    {x : Nat} (hb : (s.head i).blk = some x) {r : Except Err Unit} (hw : bufWrite e s i = (r, s')) : Still e vol b f s' ∧ s'.head = s.head := by
  obtain ⟨h1, _, _, _, _, _, _, h8, _⟩ := bufWrite_spec hb hs hw
  refine ⟨h.of_disk (h8 _ _ ?_) h1, h1⟩
  rintro ⟨rfl, rfl⟩
  rw [h.2 i ⟨hi, rfl, hb⟩] at hd
  cases hd

/-- Replacing the head of one buffer. -/
theorem still_head {f : Bytes} (h : Still e vol b f s) (h1 : s'.disk vol b = s.disk vol b) (i : Nat) (h2 : ∀ j, j ≠ i → s'.head j = s.head j)
    (h3 : Holds e s' i vol b → (s'.head i).dirty = false) : Still e vol b f s' := by
  refine ⟨h1.trans h.1, fun j hj => ?_⟩
  by_cases hji : j = i
  · subst hji; exact h3 hj
  · unfold Holds at hj
    rw [h2 j hji] at hj ⊢
    exact h.2 j hj

theorem still_flush {f : Bytes} (v st ct : Nat) : ∀ (l : List Nat) (s s' : Ctx) (E : Expect) (r : Except Err Unit), Inv e s E → (∀ i ∈ l, i < e.n) → Still e vol b f s →
    flushLoop e v st ct l s = (r, s') → Still e vol b f s'
  | [], s, s', E, r, hi, hl, h, hr => by
    unfold flushLoop at hr
    injection hr with _ h2; subst h2; exact h
  | i :: l, s, s', E, r, hi, hl, h, hr => by
    unfold flushLoop at hr
    simp only at hr
    split at hr
    · next hc =>
      obtain ⟨hv, hd, x, hx, _⟩ := hc
      rcases hw : bufWrite e s i with ⟨q, s1⟩
      rw [hw] at hr
      have hin := hl i (List.mem_cons_self ..)
      obtain ⟨g1, g2⟩ := still_write h hi.seq hin hd hx hw
      obtain ⟨g3, g4⟩ := bufWrite_inv hi hin hx hd hw
      cases q with
      | error y => simp only at hr; injection hr with _ h2; subst h2; exact g1
      | ok u =>
        simp only at hr
        have hx1 : (s1.head i).blk = some x := by rw [g2]; exact hx
        refine still_flush v st ct l _ s' E r (g3.clean hin hx1 ?_) (fun j hj => hl j (List.mem_cons_of_mem _ hj)) ?_ hr
        · intro k f' hE
          rw [g2] at hE ⊢
          exact g4 rfl k f' hE
        · exact still_head g1 rfl i (fun j hj => by simp [Ctx.setHead, hj]) (fun _ => by simp [Ctx.setHead])
    · exact still_flush v st ct l s s' E r hi (fun j hj => hl j (List.mem_cons_of_mem _ hj)) h hr

theorem still_discard {f : Bytes} (v st ct : Nat) : ∀ (l : List Nat) (s s' : Ctx) (r : Except Err Unit), Still e vol b f s →
    discardLoop v st ct l s = (r, s') → Still e vol b f s'
  | [], s, s', r, h, hr => by
    unfold discardLoop at hr
    injection hr with _ h2; subst h2; exact h
  | i :: l, s, s', r, h, hr => by
    unfold discardLoop at hr
    simp only at hr
    split at hr
    · split at hr
      · refine still_discard v st ct l _ s' r ?_ hr
        refine still_head h rfl i (fun j hj => by simp [Ctx.setHead, hj]) ?_
        rintro ⟨_, _, h3⟩
        simp [Ctx.setHead] at h3
      · injection hr with _ h2; subst h2
        exact h.of_disk rfl rfl
    · exact still_discard v st ct l s s' r h hr

theorem still_addRef {f : Bytes} (h : Still e vol b f s) {i : Nat} {d : Bool} {k : Kind} (hd : Holds e s i vol b → d = false) : Still e vol b f (addRef s i d k) := by
  refine still_head h rfl i (fun j hj => by simp [addRef, Ctx.setHead, hj]) ?_
  intro hj
  have hj' : Holds e s i vol b := by
    obtain ⟨a, b', c⟩ := hj
    simp only [addRef, Ctx.setHead, if_true] at b' c
    exact ⟨a, b', c⟩
  simp only [addRef, Ctx.setHead, if_true, hd hj', h.2 i hj', Bool.or_false]

theorem still_fill {f : Bytes} (h : Still e vol b f s) {v x i : Nat} {k : Kind} {new : Bool} {r : Except Err Unit} (hr : fill e s v x i k new = (r, s')) :
    Still e vol b f s' ∧ (r = .ok () → Holds e s' i vol b → v = vol ∧ x = b) := by
  unfold fill at hr
  split at hr
  · simp only at hr
    injection hr with h1 h2; subst h2
    refine ⟨still_head h rfl i (fun j hj => by simp [Ctx.setHead, Ctx.setData, hj]) (fun _ => by simp [Ctx.setHead]), ?_⟩
    rintro _ ⟨_, h2, h3⟩
    simp only [Ctx.setHead, Ctx.setData, if_true] at h2 h3
    exact ⟨h2, Option.some.inj h3⟩
  · simp only at hr
    have key : ∀ t : Ctx, t.disk = s.disk → (∀ j, j ≠ i → t.head j = s.head j) → (t.head i).blk = none → Still e vol b f t := by
      intro t h1 h2 h3
      refine still_head h (by rw [h1]) i h2 ?_
      rintro ⟨_, _, h4⟩
      rw [h3] at h4; cases h4
    split at hr
    · injection hr with h1 h2; subst h2 h1
      refine ⟨key _ rfl (fun j hj => by simp [Ctx.setHead, Ctx.critical, hj]) (by simp [Ctx.setHead, Ctx.critical]), fun h => by cases h⟩
    · split at hr
      · injection hr with h1 h2; subst h2 h1
        refine ⟨?_, fun h => by cases h⟩
        split
        · exact key _ rfl (fun j hj => by simp [Ctx.setHead, Ctx.setData, Ctx.critical, hj]) (by simp [Ctx.setHead, Ctx.setData, Ctx.critical])
        · exact key _ rfl (fun j hj => by simp [Ctx.setHead, Ctx.setData, Ctx.critical, hj]) (by simp [Ctx.setHead, Ctx.setData, Ctx.critical])
      · injection hr with h1 h2; subst h2
        refine ⟨still_head h rfl i (fun j hj => by simp [Ctx.setHead, Ctx.setData, hj]) (fun _ => by simp [Ctx.setHead]), ?_⟩
        rintro _ ⟨_, h2, h3⟩
        simp only [Ctx.setHead, Ctx.setData, if_true] at h2 h3
        exact ⟨h2, Option.some.inj h3⟩

theorem still_get {f : Bytes} (hi : Inv e s E) (h : Still e vol b f s) {v x : Nat} {k : Kind} {new d : Bool} (hm : ¬ (d = true ∧ v = vol ∧ x = b))
    {r : Except Err Nat} (hr : bget e s v x k new d = (r, s')) : Still e vol b f s' := by
  unfold bget at hr
  split at hr
  · injection hr with _ h2; subst h2; exact h
  · split at hr
    · next i hf =>
      split at hr
      · injection hr with _ h2; subst h2; exact h.of_disk rfl rfl
      · injection hr with _ h2; subst h2
        refine still_addRef h fun hh => ?_
        obtain ⟨_, h2, h3⟩ := find_some hf
        obtain ⟨_, h4, h5⟩ := hh
        cases d
        · rfl
        · exact absurd ⟨rfl, h2.symm.trans h4, Option.some.inj (h3.symm.trans h5)⟩ hm
    · split at hr
      · injection hr with _ h2; subst h2; exact h.of_disk rfl rfl
      · split at hr
        · injection hr with _ h2; subst h2; exact h.of_disk rfl rfl
        · next i hv =>
          have hin := hi.mem_mru.1 (victim_some hv).1
          rcases hw : (if (s.head i).dirty ∧ (s.head i).blk ≠ none then bufWrite e s i else (.ok (), s)) with ⟨q, s1⟩
          have g1 : Still e vol b f s1 := by
            split at hw
            · next hc =>
              obtain ⟨y, hy⟩ := Option.ne_none_iff_exists'.1 hc.2
              exact (still_write h hi.seq hin hc.1 hy hw).1
            · injection hw with _ h2; subst h2; exact h
          rw [hw] at hr
          cases q with
          | error y => simp only at hr; injection hr with _ h2; subst h2; exact g1
          | ok u =>
            simp only at hr
            rcases hg : fill e s1 v x i k new with ⟨q, s2⟩
            rw [hg] at hr
            obtain ⟨g2, g3⟩ := still_fill g1 hg
            cases q with
            | error y => simp only at hr; injection hr with _ h2; subst h2; exact g2
            | ok u =>
              simp only at hr; injection hr with _ h2; subst h2
              refine still_addRef g2 fun hh => ?_
              obtain ⟨h2, h3⟩ := g3 rfl hh
              cases d
              · rfl
              · exact absurd ⟨rfl, h2, h3⟩ hm

theorem still_step {f : Bytes} (hi : Inv e s E) (op : Op) (hm : ¬ Marks s vol b op) (h : Still e vol b f s) : Still e vol b f (step e s op) := by
  cases op with
  | get v x k new d => exact still_get hi h hm rfl
  | put v i =>
    simp only [step, bput]
    split
    · refine still_head h rfl i (fun j hj => by simp [Ctx.setHead, hj]) ?_
      rintro ⟨h1, h2, h3⟩
      simp only [Ctx.setHead, if_true] at h2 h3 ⊢
      exact h.2 i ⟨h1, h2, h3⟩
    · exact h
  | flush v st ct =>
    simp only [step, bflush]
    split
    · exact h
    · exact still_flush v st ct _ s _ E _ hi (fun i hi => List.mem_range.1 hi) h rfl
  | dirty v i =>
    simp only [step, bdirty]
    split
    · next hb =>
      refine still_head h rfl i (fun j hj => by simp [Ctx.setHead, hj]) ?_
      rintro ⟨h1, h2, h3⟩
      simp only [Ctx.setHead, if_true] at h2 h3
      simp only [isBuf, Bool.and_eq_true, decide_eq_true_eq] at hb
      exact absurd ⟨hb.2.symm.trans h2, h3⟩ hm
    · exact h
  | poke i g => exact h.of_disk rfl rfl
  | branch v i x =>
    simp only [step, bbranch]
    split
    · next hb =>
      refine still_head h rfl i (fun j hj => by simp [Ctx.setHead, hj]) ?_
      rintro ⟨h1, h2, h3⟩
      simp only [Ctx.setHead, if_true] at h2 h3
      simp only [isBuf, Bool.and_eq_true, decide_eq_true_eq] at hb
      exact absurd ⟨hb.1.2.symm.trans h2, Option.some.inj h3⟩ hm
    · exact h
  | discard v i =>
    simp only [step, bdiscard]
    split
    · refine still_head h rfl i (fun j hj => by simp [Ctx.setHead, hj]) ?_
      rintro ⟨h1, h2, h3⟩
      simp [Ctx.setHead] at h3
    · exact h
  | discardRange v st ct =>
    simp only [step, bdiscardRange]
    split
    · exact h
    · exact still_discard v st ct _ s _ _ h rfl
  | direct v x g =>
    simp only [step, devWrite]
    have hne : ¬ (vol = v ∧ b = x) := fun hh => hm ⟨hh.1.symm, hh.2.symm⟩
    split
    · exact h.of_disk (by simp only [if_neg hne]) rfl
    · exact h.of_disk (by simp only [if_neg hne]) rfl
  | setVol v q m => exact h.of_disk rfl rfl

/-- **C47** Whatever is done with the cache, and whenever it writes back or evicts: a block which had nothing waiting in the cache, and which nobody has asked to
be changed since, is on the device as it was. -/
theorem C47_only_marked_blocks_change (e : Env) (s s' : Ctx) (E E' : Expect) (h : Reach e s E) (W : Nat → Nat → Prop) (hs : Steps e W s E s' E') (vol b : Nat)
    (hc : Clean e s vol b) (hw : ¬ W vol b) : s'.disk vol b = s.disk vol b ∧ Clean e s' vol b := by
  have key : ∀ {s s' : Ctx} {E E' : Expect}, Steps e W s E s' E' → Reach e s E → ∀ f, Still e vol b f s → Still e vol b f s' := by
    intro s s' E E' hs
    induction hs with
    | nil => exact fun _ _ h => h
    | cons op hl hm _ ih => exact fun hr f h => ih (.step op hr hl) f (still_step hr.inv op (fun hh => hw (hm _ _ hh)) h)
  exact key hs h _ ⟨rfl, hc⟩

/-- **C47** After a successful flush of a range nothing of it is waiting in the cache: a new epoch begins, with every block on the device as its users last left it. -/
theorem C47_flush_begins_epoch (e : Env) (s s' : Ctx) (E : Expect) (h : Reach e s E) (vol st ct : Nat) (hr : bflush e s vol st ct = (.ok (), s')) (b : Nat)
    (hb : st ≤ b ∧ b < st + ct) : Clean e s' vol b ∧ ∀ k f, E vol b = some (k, f) → Same e k (s'.disk vol b) f := by
  refine ⟨?_, fun k f hE => C27_flush_writes_everything e s s' E h vol st ct hr b hb k f hE⟩
  unfold bflush at hr
  split at hr
  · cases hr
  · have key : ∀ (l : List Nat) (s s' : Ctx) (E : Expect), Inv e s E → (∀ i ∈ l, i < e.n) → flushLoop e vol st ct l s = (.ok (), s') →
        (∀ j, Holds e s j vol b → (s.head j).dirty = true → j ∈ l) → Clean e s' vol b := by
      intro l
      induction l with
      | nil =>
        intro s s' E _ _ hr ha
        unfold flushLoop at hr
        injection hr with _ h2; subst h2
        intro j hj
        cases hd : (s.head j).dirty
        · rfl
        · cases ha j hj hd
      | cons i l ih =>
        intro s s' E hi hl hr ha
        unfold flushLoop at hr
        simp only at hr
        split at hr
        · next hc =>
          obtain ⟨hv, hd, x, hx, _⟩ := hc
          rcases hw : bufWrite e s i with ⟨q, s1⟩
          rw [hw] at hr
          cases q with
          | error y => simp only at hr; cases hr
          | ok u =>
            simp only at hr
            have hin := hl i (List.mem_cons_self ..)
            obtain ⟨g2, _⟩ := bufWrite_spec hx hi.seq hw
            obtain ⟨g3, g4⟩ := bufWrite_inv hi hin hx hd hw
            have hx1 : (s1.head i).blk = some x := by rw [g2]; exact hx
            refine ih _ s' E (g3.clean hin hx1 ?_) (fun j hj => hl j (List.mem_cons_of_mem _ hj)) hr ?_
            · intro k f' hE
              rw [g2] at hE ⊢
              exact g4 rfl k f' hE
            · rintro j ⟨h1, h2, h3⟩ h4
              by_cases hji : j = i
              · subst hji; simp [Ctx.setHead] at h4
              · simp only [Ctx.setHead, if_neg hji, g2] at h2 h3 h4
                rcases List.mem_cons.1 (ha j ⟨h1, h2, h3⟩ h4) with hh | hh
                · exact absurd hh hji
                · exact hh
        · next hc =>
          refine ih s s' E hi (fun j hj => hl j (List.mem_cons_of_mem _ hj)) hr fun j hj hd => ?_
          rcases List.mem_cons.1 (ha j hj hd) with hh | hh
          · subst hh
            exact absurd ⟨hj.2.1, hd, b, hj.2.2, hb⟩ hc
          · exact hh
    exact key _ s s' E h.inv (fun i hi => List.mem_range.1 hi) hr (fun j hj _ => List.mem_range.2 hj.1)

/-- **C47** Both together, as the volume layer uses it: flush the volume, do anything, lose power.  A block which nobody asked to be changed since the flush is on the
device with the contents its users gave it before the flush. -/
theorem C47_power_loss (e : Env) (s0 s s' : Ctx) (E E' : Expect) (h : Reach e s0 E) (vol : Nat) (hr : bflush e s0 vol 0 (e.blockCount vol) = (.ok (), s))
    (W : Nat → Nat → Prop) (hs : Steps e W s E s' E') (b : Nat) (hb : b < e.blockCount vol) (hw : ¬ W vol b) (k : Kind) (f : Bytes) (hE : E vol b = some (k, f)) :
    Same e k (s'.disk vol b) f := by
  have hR : Reach e s E := by
    have := Reach.step (.flush vol 0 (e.blockCount vol)) h trivial
    simp only [step, expect, hr] at this
    exact this
  obtain ⟨h1, h2⟩ := C47_flush_begins_epoch e s0 s E h vol 0 _ hr b ⟨Nat.zero_le _, by omega⟩
  rw [(C47_only_marked_blocks_change e s s' E E' hR W hs vol b h1 hw).1]
  exact h2 k f hE

/-! ### A case -/

/-- Block 5 is written, the volume flushed; then block 6 is written through the only buffer, and evicted by asking for block 7.  Block 6 has changed on the device;
block 5 has not. -/
def demoF : Ctx := (bflush demoEnv demo3 0 0 10).2
def demoG (op : Op) (s : Ctx) : Ctx := step demoEnv s op
def demoE : Ctx := demoG (.get 0 7 .data false false) (demoG (.put 0 0) (demoG (.poke 0 (fun _ => 9)) (demoG (.get 0 6 .data true true) demoF)))

example : ∃ E, Reach demoEnv demo3 E ∧ bflush demoEnv demo3 0 0 (demoEnv.blockCount 0) = (.ok (), demoF) ∧ E 0 5 = some (.data, fun _ => 7) ∧
    (∃ E', Steps demoEnv (fun vol b => vol = 0 ∧ b = 6) demoF E demoE E') ∧ demoE.disk 0 6 0 = 9 ∧ demoE.disk 0 5 0 = 7 := by
  have r0 : Reach demoEnv demo0 (fun _ _ => none) := .init _ _ (fun _ => by decide)
  have r1 := Reach.step (.get 0 5 .data true true) r0 (Or.inl rfl)
  have r2 := Reach.step (s := demo1) (.poke 0 (fun _ => 7)) r1 ⟨by decide, by decide⟩
  have r3 := Reach.step (s := demo2) (.put 0 0) r2 ⟨by decide, by decide⟩
  refine ⟨_, r3, rfl, ?_, ?_, rfl, rfl⟩
  · have h1 : (demo1.head 0).blk = some 5 := by rfl
    have h1v : (demo1.head 0).vol = 0 := by rfl
    have h1d : (demo1.head 0).dirty = true := by rfl
    have h1k : (demo1.head 0).kind = .data := by rfl
    simp only [expect, h1, h1v, h1d, h1k]
    simp [Expect.set]
  · refine ⟨_, .cons (.get 0 6 .data true true) (Or.inl rfl) (fun v x h => ⟨h.2.1.symm, h.2.2.symm⟩)
      (.cons (.poke 0 (fun _ => 9)) ⟨by decide, by decide⟩ (fun v x h => h.elim)
      (.cons (.put 0 0) ⟨by decide, by decide⟩ (fun v x h => h.elim)
      (.cons (.get 0 7 .data false false) (Or.inr ?_) (fun v x h => by cases h.1) (.nil _ _))))⟩
    intro k f hE
    have g : (bget demoEnv demoF 0 6 .data true true).1 = .ok 0 := by rfl
    have h1 : ((step demoEnv demoF (.get 0 6 .data true true)).head 0).blk = some 6 := by rfl
    have h1v : ((step demoEnv demoF (.get 0 6 .data true true)).head 0).vol = 0 := by rfl
    have h2 : (demo1.head 0).blk = some 5 := by rfl
    have h2v : (demo1.head 0).vol = 0 := by rfl
    have g0 : (bget demoEnv demo0 0 5 .data true true).1 = .ok 0 := by rfl
    simp only [expect, h1, h1v, h2, h2v, g, g0] at hE
    simp [Expect.set] at hE

end RedFs.Props.Buffer
