import Verif.Lemmas.Buffer
import Verif.Props.Crc
import Mathlib.Tactic.Tauto
import Mathlib.Tactic.ByContra
/-!
C27 (the block cache is invisible), C28 (a buffer in use is never recycled) and the block
level part of C07 (damaged metadata is reported, not used).
-/
set_option linter.unusedVariables false
set_option linter.unusedSimpArgs false
namespace RedFs.Props.Buffer
open RedFs RedFs.Buffer

/-! ### C27 -/

/-- For every history of cache operations on any number of volumes, every device behaviour
(including failing transfers) and every eviction order: when a block which has expected contents
is asked for and the call succeeds, the buffer handed out holds the expected contents. -/
theorem C27_get_returns_last_contents (e : Env) (s : Ctx) (E : Expect) (h : Reach e s E)
    (vol b : Nat) (k : Kind) (f : Bytes) (hE : E vol b = some (k, f)) (dirty : Bool) (i : Nat)
    (hr : (bget e s vol b k false dirty).1 = .ok i) :
    Same e k ((bget e s vol b k false dirty).2.data i) f := by
  rcases hg : bget e s vol b k false dirty with ⟨r, s'⟩
  rw [hg] at hr
  have hl : (false = true ∨ ∀ k' f', E vol b = some (k', f') → k = k') := by
    right; intro k' f' h'; rw [hE] at h'; injection h' with h'; injection h'
  exact ((bget_spec h.inv hl hg).2.2.1 i hr).1.same rfl k f hE

/-- ... and it succeeds, unless the device fails, all buffers are in use or (metadata only) the
sequence numbers are exhausted: contents which were given to the cache are never
rejected as damaged, wherever they were kept in between. -/
theorem C27_get_succeeds (e : Env) (s : Ctx) (E : Expect) (h : Reach e s E)
    (vol b : Nat) (k : Kind) (f : Bytes) (hE : E vol b = some (k, f)) (dirty : Bool)
    (hb : b < e.blockCount vol) (hfree : ∃ i, i < e.n ∧ (s.head i).ref = 0)
    (hw : ∀ n, e.ioW n = none) (hR : ∀ n, e.ioR n = true) (hseq : ∀ v, s.seq v ≠ 18446744073709551615) :
    ∃ i, (bget e s vol b k false dirty).1 = .ok i := by
  have hinv := h.inv
  unfold bget
  rw [if_neg (by omega)]
  rcases hf : find e s vol b with _ | i
  · simp only
    have hu : ¬ s.used = e.n := by
      intro hu
      obtain ⟨i, hi, h0⟩ := hfree
      have := hinv.all_refd.1 hu i hi
      omega
    rw [if_neg hu]
    rcases hv : victim s with _ | i
    · obtain ⟨i, hi, h0⟩ := hfree
      exact absurd h0 (victim_none hv i (hinv.mem_mru.2 hi))
    simp only
    obtain ⟨hi, href⟩ := victim_some hv
    have hi : i < e.n := hinv.mem_mru.1 hi
    rcases hwr : (if (s.head i).dirty = true ∧ (s.head i).blk ≠ none then bufWrite e s i else (.ok (), s)) with ⟨r1, s1⟩
    have hr1 : r1 = .ok () ∧ OnDisk e s1 vol b k f := by
      split at hwr
      · next hc =>
        obtain ⟨x, hx⟩ := Option.ne_none_iff_exists'.1 hc.2
        have hinv1 := (bufWrite_inv hinv hi hx hc.1 hwr).1
        have hspec := bufWrite_spec hx hinv.seq hwr
        refine ⟨?_, hinv1.disk vol b k f hE ?_⟩
        · unfold bufWrite at hwr
          rw [hx] at hwr
          simp only at hwr
          split at hwr
          · unfold devWrite at hwr; simp only [hw] at hwr; injection hwr with h1 h2; exact h1.symm
          · next hk =>
            unfold finalize at hwr
            rcases hsg : (s.head i).kind.sig with _ | sg
            · exact absurd (Kind.sig_none.1 hsg) hk
            · simp only [hsg, if_neg (hseq _)] at hwr
              unfold devWrite at hwr
              simp only [hw] at hwr
              injection hwr with h1 h2; exact h1.symm
        · rintro ⟨j, hj⟩
          refine find_none hf ⟨j, ?_⟩
          unfold Holds at hj ⊢
          rw [hspec.1] at hj; exact hj
      · injection hwr with h1 h2
        subst h2
        exact ⟨h1.symm, hinv.disk vol b k f hE (find_none hf)⟩
    obtain ⟨hr1, ho⟩ := hr1
    subst hr1
    simp only [fill, Bool.false_eq_true, if_false, hR]
    have hval : ¬ (k ≠ .data ∧ isValid e (s1.mounted vol) (s1.seq vol) k (s1.disk vol b) = false) := by
      rintro ⟨h1, h2⟩
      have := isValid_mono (m' := s1.mounted vol) (fun _ => rfl) (Nat.le_refl _) (ho.2 h1)
      rw [h2] at this; cases this
    have hval' : ¬ (k ≠ .data ∧ isValid e ((s1.setHead i { s1.head i with blk := none }).mounted vol)
        ((s1.setHead i { s1.head i with blk := none }).seq vol) k
        ((s1.setHead i { s1.head i with blk := none }).disk vol b) = false) := hval
    simp only [if_neg hval']
    exact ⟨i, by simp⟩
  · simp only
    have := (hinv.cached vol b k f hE i (find_some hf)).1
    rw [if_neg (by simp [this])]
    exact ⟨i, rfl⟩

/-- No block is cached twice. -/
theorem C27_no_duplicates (e : Env) (s : Ctx) (E : Expect) (h : Reach e s E) (i j vol b : Nat)
    (hi : Holds e s i vol b) (hj : Holds e s j vol b) : i = j :=
  h.inv.uniq i j vol b hi hj

/-- No modification is lost: contents which the cache does not hold, or holds unmodified, are on
the device; for metadata in a form which passes validation. -/
theorem C27_not_lost (e : Env) (s : Ctx) (E : Expect) (h : Reach e s E) (vol b : Nat) (k : Kind) (f : Bytes)
    (hE : E vol b = some (k, f)) (hc : ∀ i, Holds e s i vol b → (s.head i).dirty = false) :
    Same e k (s.disk vol b) f ∧ (k ≠ .data → isValid e (s.mounted vol) (s.seq vol) k (s.disk vol b) = true) := by
  have hinv := h.inv
  have ho : OnDisk e s vol b k f := by
    by_cases hx : Cached e s vol b
    · obtain ⟨i, hi⟩ := hx
      rcases (hinv.cached vol b k f hE i hi).2.2 with hd | hd
      · rw [hc i hi] at hd; cases hd
      · exact hd
    · exact hinv.disk vol b k f hE hx
  exact ⟨ho.1, fun hk => isValid_mono (fun _ => rfl) (Nat.le_refl _) (ho.2 hk)⟩

/-- After a successful flush of the whole range of blocks, everything expected on that volume is on
the device. -/
theorem C27_flush_writes_everything (e : Env) (s s' : Ctx) (E : Expect) (h : Reach e s E) (vol st ct : Nat)
    (hr : bflush e s vol st ct = (.ok (), s')) (b : Nat) (hb : st ≤ b ∧ b < st + ct) (k : Kind) (f : Bytes)
    (hE : E vol b = some (k, f)) : Same e k (s'.disk vol b) f := by
  have hinv' : Inv e s' E := by
    have := h.inv.step (.flush vol st ct) trivial
    simp only [Buffer.step, expect, hr] at this
    exact this
  -- after the loop no buffer of the range is dirty
  have key : ∀ (l : List Nat) (s s' : Ctx), flushLoop e vol st ct l s = (.ok (), s') →
      (∀ i ∈ l, ∀ b, (s.head i).vol = vol → (s.head i).blk = some b → st ≤ b ∧ b < st + ct → (s'.head i).dirty = false) ∧
      (∀ i, (s.head i).dirty = false → (s'.head i).dirty = false) ∧
      (∀ i, (s'.head i).vol = (s.head i).vol ∧ (s'.head i).blk = (s.head i).blk) := by
    intro l
    induction l with
    | nil =>
      intro s s' hr
      unfold flushLoop at hr
      injection hr with h1 h2
      subst h2
      exact ⟨fun i hi => (by cases hi), fun i hi => hi, fun i => ⟨rfl, rfl⟩⟩
    | cons i rest ih =>
      intro s s' hr
      unfold flushLoop at hr
      simp only at hr
      split at hr
      · next hc =>
        obtain ⟨c1, c2, x, hx, c3⟩ := hc
        rcases hw : bufWrite e s i with ⟨r1, s1⟩
        rw [hw] at hr
        rcases r1 with y | ⟨⟩
        · simp only at hr; injection hr with h1 h2; cases h1
        simp only at hr
        have hheads : s1.head = s.head := by
          unfold bufWrite finalize devWrite at hw
          have hx' : (s.head i).blk = some x := hx
          simp only [hx'] at hw
          split at hw
          · split at hw <;> injection hw with h1 h2 <;> subst h2 <;> rfl
          · split at hw
            · cases hw
            · next hq =>
              split at hq
              · cases hq
              · split at hq
                · cases hq
                · injection hq with q1 q2
                  subst q2
                  split at hw <;> injection hw with h1 h2 <;> subst h2 <;> rfl
        obtain ⟨a1, a2, a3⟩ := ih _ s' hr
        refine ⟨?_, ?_, ?_⟩
        · intro j hj b' hv hb' hbr
          by_cases hji : j = i
          · subst hji
            exact a2 j (by simp [Ctx.setHead])
          · rcases List.mem_cons.1 hj with hj | hj
            · exact absurd hj hji
            · exact a1 j hj b' (by simpa [Ctx.setHead, hji, hheads] using hv)
                (by simpa [Ctx.setHead, hji, hheads] using hb') hbr
        · intro j hj
          apply a2
          by_cases hji : j = i
          · subst hji; simp [Ctx.setHead]
          · simpa [Ctx.setHead, hji, hheads] using hj
        · intro j
          obtain ⟨b1, b2⟩ := a3 j
          rw [b1, b2]
          by_cases hji : j = i
          · subst hji; simp [Ctx.setHead, hheads]
          · simp [Ctx.setHead, hji, hheads]
      · next hc =>
        obtain ⟨a1, a2, a3⟩ := ih s s' hr
        refine ⟨?_, a2, a3⟩
        intro j hj b' hv hb' hbr
        rcases List.mem_cons.1 hj with hj | hj
        · subst hj
          apply a2
          by_contra hd
          exact hc ⟨hv, by simpa using hd, b', hb', hbr⟩
        · exact a1 j hj b' hv hb' hbr
  unfold bflush at hr
  split at hr
  · injection hr with h1; cases h1
  · obtain ⟨a1, a2, a3⟩ := key _ s s' hr
    have ho : OnDisk e s' vol b k f := by
      by_cases hx : Cached e s' vol b
      · obtain ⟨i, hi⟩ := hx
        rcases (hinv'.cached vol b k f hE i hi).2.2 with hd | hd
        · obtain ⟨h1, h2, h3⟩ := hi
          rw [(a3 i).1] at h2; rw [(a3 i).2] at h3
          rw [a1 i (List.mem_range.2 h1) b h2 h3 hb] at hd; cases hd
        · exact hd
      · exact hinv'.disk vol b k f hE hx
    exact ho.1

/-! ### C28 -/

/-- A referenced buffer keeps its block, its kind and its bytes, and stays referenced, whatever
blocks other code asks for, flushes or discards, on whatever volume. -/
theorem C28_referenced_buffer_is_stable (e : Env) (s : Ctx) (E : Expect) (h : Reach e s E) (j : Nat) (hj : j < e.n)
    (href : 0 < (s.head j).ref) (op : Op) (hl : Legal e s E op)
    (hop : match op with | .get .. => True | .flush .. => True | .discardRange .. => True | _ => False) :
    ((step e s op).head j).blk = (s.head j).blk ∧ ((step e s op).head j).vol = (s.head j).vol ∧
    ((step e s op).head j).kind = (s.head j).kind ∧ (s.head j).ref ≤ ((step e s op).head j).ref ∧
    Same e (s.head j).kind ((step e s op).data j) (s.data j) := by
  cases op <;> simp only at hop
  case get vol b k new d =>
    rcases hr : bget e s vol b k new d with ⟨r, s'⟩
    obtain ⟨h1, h2, h3, h4, h5⟩ := (bget_spec h.inv hl hr).2.1 j hj href
    simp only [Buffer.step, hr]
    exact ⟨h1, h2, h3, h4, h5 ▸ Same.refl _ _ _⟩
  case flush vol st ct =>
    simp only [Buffer.step]
    unfold bflush
    split
    · exact ⟨rfl, rfl, rfl, Nat.le_refl _, Same.refl _ _ _⟩
    · rcases hr : flushLoop e vol st ct (List.range e.n) s with ⟨r, s'⟩
      obtain ⟨h1, h2, h3, h4, h5⟩ := (flushLoop_inv vol st ct _ s s' E r h.inv (fun i hi => List.mem_range.1 hi) hr).2 j
      exact ⟨h2, h3, h4, Nat.le_of_eq h1.symm, h5⟩
  case discardRange vol st ct =>
    simp only [Buffer.step]
    unfold bdiscardRange
    split
    · exact ⟨rfl, rfl, rfl, Nat.le_refl _, Same.refl _ _ _⟩
    · rcases hr : discardLoop vol st ct (List.range e.n) s with ⟨r, s'⟩
      have hw : Inv e s (fun _ _ => none) := h.inv.weaken (fun _ _ _ _ hx => by cases hx)
      have hd := discardLoop_inv vol st ct _ s s' _ r hw (fun i hi => List.mem_range.1 hi) hr (fun _ _ _ _ _ _ _ => rfl)
      show (s'.head j).blk = _ ∧ (s'.head j).vol = _ ∧ (s'.head j).kind = _ ∧ _ ≤ (s'.head j).ref ∧ Same e _ (s'.data j) _
      rw [hd.2.1 j href, hd.2.2.1]
      exact ⟨rfl, rfl, rfl, Nat.le_refl _, Same.refl _ _ _⟩

/-- Asking for a block which is not cached fails with EBUSY exactly when every buffer is
referenced; a cached block is never refused for this reason. -/
theorem C28_busy_iff_all_referenced (e : Env) (s : Ctx) (E : Expect) (h : Reach e s E) (vol b : Nat)
    (k : Kind) (new d : Bool) (hl : Legal e s E (.get vol b k new d)) :
    (bget e s vol b k new d).1 = .error .ebusy ↔
      b < e.blockCount vol ∧ ¬ Cached e s vol b ∧ ∀ i, i < e.n → 0 < (s.head i).ref :=
  (bget_spec h.inv hl rfl).2.2.2

/-- The buffer handed out is one which nobody else references unless it holds the very block. -/
theorem C28_get_takes_free_buffer (e : Env) (s : Ctx) (E : Expect) (h : Reach e s E) (vol b : Nat)
    (k : Kind) (new d : Bool) (hl : Legal e s E (.get vol b k new d)) (i : Nat)
    (hr : (bget e s vol b k new d).1 = .ok i) (href : 0 < (s.head i).ref) : Holds e s i vol b := by
  rcases hg : bget e s vol b k new d with ⟨r, s'⟩
  rw [hg] at hr
  obtain ⟨_, hk, hok, _⟩ := bget_spec h.inv hl hg
  have hi := (hok i hr).1
  obtain ⟨h1, h2, _⟩ := hk i hi.lt href
  obtain ⟨q1, q2, q3⟩ := hi.holds
  exact ⟨q1, by rw [← h2]; exact q2, by rw [← h1]; exact q3⟩

/-- Discarding a range which contains a referenced buffer fails with EBUSY. -/
theorem C28_discard_refuses_referenced (e : Env) (s : Ctx) (E : Expect) (h : Reach e s E) (vol st ct : Nat)
    (hrange : st + ct ≤ e.blockCount vol ∧ 0 < ct) (i b : Nat) (hi : Holds e s i vol b)
    (hb : st ≤ b ∧ b < st + ct) (href : 0 < (s.head i).ref) :
    (bdiscardRange e s vol st ct).1 = .error .ebusy := by
  unfold bdiscardRange
  rw [if_neg (by omega)]
  rcases hr : discardLoop vol st ct (List.range e.n) s with ⟨r, s'⟩
  have hw : Inv e s (fun _ _ => none) := h.inv.weaken (fun _ _ _ _ hx => by cases hx)
  obtain ⟨_, h2, _, _, h5, _, h7, _⟩ :=
    discardLoop_inv vol st ct _ s s' _ r hw (fun i hi => List.mem_range.1 hi) hr (fun _ _ _ _ _ _ _ => rfl)
  rcases h5 with h5 | h5
  · exfalso
    refine h7 h5 i (List.mem_range.2 hi.1) ?_
    rw [h2 i href]
    exact ⟨hi.2.1, b, hi.2.2, hb⟩
  · exact h5

/-! ### C07 -/

/-- The check the statement speaks about: right signature for the expected kind of node, stored
CRC equal to the CRC of everything after it, sequence number in the past. -/
def NodeOk (e : Env) (mounted : Bool) (seq : Nat) (k : Kind) (f : Bytes) : Prop :=
  some (get32 f 0) = k.sig ∧ get32 f 4 = nodeCrc e.bs f ∧ (mounted = true → (get64 f 8).toNat < seq)

theorem isValid_iff (e : Env) (m : Bool) (q : Nat) (k : Kind) (f : Bytes) :
    isValid e m q k f = true ↔ NodeOk e m q k f := by
  unfold isValid NodeOk
  cases hk : k.sig with
  | none => simp
  | some sg =>
    simp only [Bool.and_eq_true, decide_eq_true_eq, Bool.not_eq_true', Bool.and_eq_false_iff, decide_eq_false_iff_not,
      Option.some.injEq]
    cases m <;> simp [Nat.not_le] <;> tauto

/-- A metadata block which fails the check is never handed to the file system: the request fails with
an error, EIO if the victim could be written back and the block could be read; except when
the block is the master block, the volume becomes read-only (critical error). -/
theorem C07_damaged_node_rejected (e : Env) (s : Ctx) (E : Expect) (h : Reach e s E) (vol b : Nat) (k : Kind) (d : Bool)
    (hk : k ≠ .data) (hnc : ¬ Cached e s vol b) (hl : Legal e s E (.get vol b k false d))
    (hbad : ∀ q, s.seq vol ≤ q → q ≤ s.seq vol + 1 → ¬ NodeOk e (s.mounted vol) q k (s.disk vol b)) :
    (∀ i, (bget e s vol b k false d).1 ≠ .ok i) ∧
    ((∀ n, e.ioW n = none) → (∀ v, s.seq v ≠ 18446744073709551615) → b < e.blockCount vol →
      (∃ i, i < e.n ∧ (s.head i).ref = 0) → (bget e s vol b k false d).1 = .error .eio) := by
  have hfn : find e s vol b = none := by
    rcases hf : find e s vol b with _ | i
    · rfl
    · exact absurd ⟨i, find_some hf⟩ hnc
  have hinv := h.inv
  -- the disk block and the mount flag do not change, the sequence number grows by at most one
  have hwr : ∀ i s1 r1, i < e.n →
      (if (s.head i).dirty = true ∧ (s.head i).blk ≠ none then bufWrite e s i else (.ok (), s)) = (r1, s1) →
      s1.mounted = s.mounted ∧ s1.disk vol b = s.disk vol b ∧ s.seq vol ≤ s1.seq vol ∧ s1.seq vol ≤ s.seq vol + 1 := by
    intro i s1 r1 hi hw
    split at hw
    · next hc =>
      obtain ⟨x, hx⟩ := Option.ne_none_iff_exists'.1 hc.2
      obtain ⟨w1, w2, w3, w4, w5, w6, w7, w8, w9⟩ := bufWrite_spec hx hinv.seq hw
      refine ⟨w4, w8 vol b ?_, (w7 vol).1, ?_⟩
      · rintro ⟨h1, h2⟩
        exact hnc ⟨i, hi, h1.symm, by rw [hx, h2]⟩
      · unfold bufWrite finalize devWrite at hw
        simp only [hx] at hw
        split at hw
        · split at hw <;> injection hw with h1 h2 <;> subst h2 <;> exact Nat.le_succ _
        · split at hw
          · next hq =>
            split at hq
            · injection hq with q1 q2; injection hw with h1 h2; subst h2; subst q2; exact Nat.le_succ _
            · split at hq
              · injection hq with q1 q2; injection hw with h1 h2; subst h2; subst q2; exact Nat.le_succ _
              · cases hq
          · next hq =>
            split at hq
            · cases hq
            · split at hq
              · cases hq
              · injection hq with q1 q2
                subst q2
                split at hw <;> injection hw with h1 h2 <;> subst h2 <;>
                  · simp only [Ctx.setData, Ctx.critical]
                    split
                    · next hv => rw [hv]; exact Nat.le_refl _
                    · exact Nat.le_succ _
    · injection hw with h1 h2; subst h2; exact ⟨rfl, rfl, Nat.le_refl _, Nat.le_succ _⟩
  have hfill : ∀ i s1, s1.mounted = s.mounted → s1.disk vol b = s.disk vol b → s.seq vol ≤ s1.seq vol →
      s1.seq vol ≤ s.seq vol + 1 → (fill e s1 vol b i k false).1 = .error .eio := by
    intro i s1 h1 h2 h3 h4
    unfold fill
    simp only [Bool.false_eq_true, if_false]
    split
    · rfl
    · have hv : isValid e (s1.mounted vol) (s1.seq vol) k (s1.disk vol b) = false := by
        cases hc : isValid e (s1.mounted vol) (s1.seq vol) k (s1.disk vol b) with
        | false => rfl
        | true =>
          rw [h1, h2] at hc
          exact absurd ((isValid_iff _ _ _ _ _).1 hc) (hbad _ h3 h4)
      rw [if_pos ⟨hk, hv⟩]
  constructor
  · intro i hr
    unfold bget at hr
    split at hr
    · cases hr
    · simp only [hfn] at hr
      split at hr
      · cases hr
      · rcases hv : victim s with _ | j
        · simp only [hv] at hr; cases hr
        · simp only [hv] at hr
          have hj : j < e.n := hinv.mem_mru.1 (victim_some hv).1
          rcases hw : (if (s.head j).dirty = true ∧ (s.head j).blk ≠ none then bufWrite e s j else (.ok (), s)) with ⟨r1, s1⟩
          obtain ⟨a1, a2, a3, a4⟩ := hwr j s1 r1 hj hw
          rw [hw] at hr
          rcases r1 with y | ⟨⟩
          · cases hr
          · simp only at hr
            have := hfill j s1 a1 a2 a3 a4
            rcases hf : fill e s1 vol b j k false with ⟨rf, sf⟩
            rw [hf] at this hr
            simp only at this
            subst this
            cases hr
  · intro hio hseq hb hfree
    unfold bget
    rw [if_neg (by omega)]
    simp only [hfn]
    have hu : ¬ s.used = e.n := by
      intro hu
      obtain ⟨i, hi, h0⟩ := hfree
      have := hinv.all_refd.1 hu i hi
      omega
    rw [if_neg hu]
    rcases hv : victim s with _ | j
    · obtain ⟨i, hi, h0⟩ := hfree
      exact absurd h0 (victim_none hv i (hinv.mem_mru.2 hi))
    simp only
    have hj : j < e.n := hinv.mem_mru.1 (victim_some hv).1
    rcases hw : (if (s.head j).dirty = true ∧ (s.head j).blk ≠ none then bufWrite e s j else (.ok (), s)) with ⟨r1, s1⟩
    obtain ⟨a1, a2, a3, a4⟩ := hwr j s1 r1 hj hw
    have hok : r1 = .ok () := by
      split at hw
      · next hc =>
        obtain ⟨x, hx⟩ := Option.ne_none_iff_exists'.1 hc.2
        unfold bufWrite at hw
        rw [hx] at hw
        simp only at hw
        split at hw
        · unfold devWrite at hw; simp only [hio] at hw; injection hw with h1 h2; exact h1.symm
        · next hk' =>
          unfold finalize at hw
          rcases hsg : (s.head j).kind.sig with _ | sg
          · exact absurd (Kind.sig_none.1 hsg) hk'
          · simp only [hsg, if_neg (hseq _)] at hw
            unfold devWrite at hw
            simp only [hio] at hw
            injection hw with h1 h2; exact h1.symm
      · injection hw with h1 h2; exact h1.symm
    subst hok
    simp only
    have := hfill j s1 a1 a2 a3 a4
    rcases hf : fill e s1 vol b j k false with ⟨rf, sf⟩
    rw [hf] at this
    simp only at this
    subst this
    rfl

/-- A metadata buffer obtained from the device holds bytes which passed the check. -/
theorem C07_accepted_node_is_valid (e : Env) (s : Ctx) (E : Expect) (h : Reach e s E) (vol b : Nat) (k : Kind) (d : Bool)
    (hk : k ≠ .data) (hnc : ¬ Cached e s vol b) (hl : Legal e s E (.get vol b k false d)) (i : Nat)
    (hr : (bget e s vol b k false d).1 = .ok i) :
    let s' := (bget e s vol b k false d).2
    NodeOk e (s'.mounted vol) (s'.seq vol) k (s'.data i) := by
  have hfn : find e s vol b = none := by
    rcases hf : find e s vol b with _ | i
    · rfl
    · exact absurd ⟨i, find_some hf⟩ hnc
  rcases hg : bget e s vol b k false d with ⟨r, s'⟩
  rw [hg] at hr
  obtain ⟨h1, h2⟩ := ((bget_spec h.inv hl hg).2.2.1 i hr).2 rfl hfn hk
  simp only
  rw [h2]
  exact (isValid_iff _ _ _ _ _).1 h1

/-- Changes to a valid block which the check detects: (1) any change confined to the first eight
bytes (signature and CRC); (2) any change confined to 32 consecutive bits of the rest of the
block.  `bits` lists the bits of the checksummed bytes. -/
theorem C07_damage_detected (e : Env) (m m' : Bool) (q q' : Nat) (k : Kind) (f g : Bytes)
    (hf : NodeOk e m q k f) (hbs : 8 ≤ e.bs)
    (hchange :
      ((∃ i, i < 8 ∧ f i ≠ g i) ∧ ∀ i, 8 ≤ i → i < e.bs → f i = g i) ∨
      ((∀ i, i < 8 → f i = g i) ∧ ∃ pre w1 w2 suf : List Bool,
        Crc.bits (((List.range e.bs).map f).drop 8) = pre ++ w1 ++ suf ∧
        Crc.bits (((List.range e.bs).map g).drop 8) = pre ++ w2 ++ suf ∧
        w1.length = w2.length ∧ w1.length ≤ 32 ∧ w1 ≠ w2)) :
    ¬ NodeOk e m' q' k g := by
  rintro ⟨g1, g2, _⟩
  obtain ⟨f1, f2, _⟩ := hf
  rcases hchange with ⟨⟨i, hi, hne⟩, hrest⟩ | ⟨hhead, pre, w1, w2, suf, h1, h2, h3, h4, h5⟩
  · have hs : get32 f 0 = get32 g 0 := by
      have : some (get32 f 0) = some (get32 g 0) := f1.trans g1.symm
      injection this
    have hc : get32 f 4 = get32 g 4 := by
      rw [f2, g2]; exact nodeCrc_congr hrest
    have inj : ∀ a, get32 f a = get32 g a → ∀ j, j < 4 → f (a + j) = g (a + j) := by
      intro a ha j hj
      have hb : ∀ (x : Bytes) j, j < 4 → x (a + j) = ((get32 x a) >>> (8 * j)).setWidth 8 := by
        intro x j hj
        apply BitVec.eq_of_getLsbD_eq
        intro t ht
        simp only [get32, Crc.leWord, BitVec.getLsbD_setWidth, BitVec.getLsbD_ushiftRight, BitVec.getLsbD_or,
          BitVec.getLsbD_shiftLeft, ht, decide_true, Bool.true_and]
        have ht' : ∀ (y : BitVec 8) n, 8 ≤ n → y.getLsbD n = false := fun y n hn => BitVec.getLsbD_of_ge y n hn
        have : j = 0 ∨ j = 1 ∨ j = 2 ∨ j = 3 := by omega
        rcases this with rfl | rfl | rfl | rfl
        all_goals
          rcases (show t = 0 ∨ t = 1 ∨ t = 2 ∨ t = 3 ∨ t = 4 ∨ t = 5 ∨ t = 6 ∨ t = 7 by omega) with
            rfl | rfl | rfl | rfl | rfl | rfl | rfl | rfl <;> simp [ht']
      rw [hb f j hj, hb g j hj, ha]
    apply hne
    by_cases h4 : i < 4
    · simpa using inj 0 hs i h4
    · have := inj 4 hc (i - 4) (by omega)
      rwa [show 4 + (i - 4) = i by omega] at this
  · have hc : get32 f 4 = get32 g 4 := get32_congr (fun i h1 h2 => hhead i (by omega))
    rw [f2, g2] at hc
    exact Crc.C07_burst_detected 0#32 _ _ pre w1 w2 suf h1 h2 h3 h4 h5 hc

/-! ### The hypotheses can be met -/

/-- One buffer, 32-byte blocks, a device of ten blocks without errors. -/
def demoEnv : Env := { n := 1, bs := 32, blockCount := fun _ => 10, ioW := fun _ => none, ioR := fun _ => true }
def demo0 : Ctx := binit demoEnv (fun _ _ _ => 0) (fun _ => 1)
/-- Block 5 is given the contents `7,7,...`, released, and evicted by block 6, which stays
referenced. -/
def demo1 : Ctx := step demoEnv demo0 (.get 0 5 .data true true)
def demo2 : Ctx := step demoEnv demo1 (.poke 0 (fun _ => 7))
def demo3 : Ctx := step demoEnv demo2 (.put 0 0)
def demo4 : Ctx := step demoEnv demo3 (.get 0 6 .data true true)
def demo5 : Ctx := step demoEnv demo4 (.put 0 0)

theorem demo_reach : ∃ E, Reach demoEnv demo5 E ∧ E 0 5 = some (.data, fun _ => 7) := by
  have r0 : Reach demoEnv demo0 (fun _ _ => none) := .init _ _ (fun _ => by decide)
  have r1 := Reach.step (.get 0 5 .data true true) r0 (Or.inl rfl)
  have r2 := Reach.step (s := demo1) (.poke 0 (fun _ => 7)) r1 ⟨by decide, by decide⟩
  have r3 := Reach.step (s := demo2) (.put 0 0) r2 ⟨by decide, by decide⟩
  have r4 := Reach.step (s := demo3) (.get 0 6 .data true true) r3 (Or.inl rfl)
  have r5 := Reach.step (s := demo4) (.put 0 0) r4 ⟨by decide, by decide⟩
  refine ⟨_, r5, ?_⟩
  have h4 : (bget demoEnv demo3 0 6 .data true true).1 = .ok 0 := by rfl
  have h1 : (demo1.head 0).blk = some 5 := by rfl
  have h1v : (demo1.head 0).vol = 0 := by rfl
  have h1d : (demo1.head 0).dirty = true := by rfl
  have h1k : (demo1.head 0).kind = .data := by rfl
  simp only [expect, h4, h1, h1v, h1d, h1k]
  simp [Expect.set]

/-- C27: the block is no longer cached, and asking for it returns the sevens. -/
example : ¬ Cached demoEnv demo5 0 5 ∧ ∃ i, (bget demoEnv demo5 0 5 .data false false).1 = .ok i ∧
    Same demoEnv .data ((bget demoEnv demo5 0 5 .data false false).2.data i) (fun _ => 7) := by
  obtain ⟨E, hr, hE⟩ := demo_reach
  obtain ⟨i, hi⟩ := C27_get_succeeds demoEnv demo5 E hr 0 5 .data _ hE false (by decide) ⟨0, by decide, by decide⟩
    (fun _ => rfl) (fun _ => rfl) (fun v => by
      have : demo5.seq v = 1 := by rfl
      rw [this]; decide)
  refine ⟨?_, i, hi, C27_get_returns_last_contents demoEnv demo5 E hr 0 5 .data _ hE false i hi⟩
  rintro ⟨i, h1, h2, h3⟩
  have h0 : i = 0 := by have : i < 1 := h1; omega
  subst h0
  have : (demo5.head 0).blk = some 6 := by rfl
  rw [this] at h3; cases h3

/-- C28: in `demo4` the only buffer is referenced, and asking for another block fails with EBUSY. -/
example : (bget demoEnv demo4 0 5 .data false false).1 = .error .ebusy := by rfl

/-- C07: a block of zeros is not a valid inode, and asking for it as one fails with EIO. -/
example : (bget demoEnv demo0 0 5 .inode false false).1 = .error .eio := by
  have r0 : Reach demoEnv demo0 (fun _ _ => none) := .init _ _ (fun _ => by decide)
  refine (C07_damaged_node_rejected demoEnv demo0 _ r0 0 5 .inode false (by decide) ?_ (Or.inr (fun _ _ h => by cases h))
    ?_).2 (fun _ => rfl) (fun v => ?_) (by decide) ⟨0, by decide, by decide⟩
  · rintro ⟨i, h1, h2, h3⟩
    have h0 : i = 0 := by have : i < 1 := h1; omega
    subst h0
    have : (demo0.head 0).blk = none := by rfl
    rw [this] at h3; cases h3
  · rintro q _ _ ⟨h, _⟩
    have : get32 (demo0.disk 0 5) 0 = 0#32 := by rfl
    rw [this] at h; simp [Kind.sig] at h
  · have : demo0.seq v = 1 := by rfl
    rw [this]; decide

end RedFs.Props.Buffer
