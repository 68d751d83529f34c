import Verif.Lemmas.TimesStamps
set_option linter.unusedSimpArgs false
set_option linter.unusedVariables false
/-!
The order of the stamps of an inode, if the clock never runs backwards.
-/
namespace RedFs.Times
open RedFs M Str

variable {c : Conf} {clk : Nat → Nat} {α β : Type}

/-- A property of the stamps that the calls keep. -/
def KO (c : Conf) (clk : Nat → Nat) (m : TM α) : Prop := ∀ s, Ordered clk s.t → Ordered clk (m s).2.t

theorem ko_pure (a : α) : KO c clk (pure a) := fun _ h => h
theorem ko_fail (e : Err) : KO c clk (fail e : TM α) := fun _ h => h
theorem ko_lift (m : VM α) : KO c clk (lift m) := fun s h => by
  unfold lift
  rcases m s.v with ⟨r, v⟩
  exact h
theorem ko_vol : KO c clk vol := ko_lift _
theorem ko_bind {m : TM α} {f : α → TM β} (h : KO c clk m) (hf : ∀ a, KO c clk (f a)) : KO c clk (m >>= f) := fun s hs => by
  rw [run_bind]
  have := h s hs
  rcases hm : m s with ⟨e | a, s1⟩
  · rw [hm] at this; exact this
  · rw [hm] at this; exact hf a s1 this
theorem ko_attempt {m : TM α} (h : KO c clk m) : KO c clk (attempt m) := fun s hs => by
  rw [run_attempt]
  have := h s hs
  rcases hm : m s with ⟨x, s1⟩
  rw [hm] at this; exact this
theorem ko_ite {p : Prop} [Decidable p] {a b : TM α} (h1 : KO c clk a) (h2 : KO c clk b) : KO c clk (if p then a else b) := by split <;> assumption
theorem ko_commit : KO c clk (setClk fun t => { t with comm := t.work }) := fun s h => ⟨h.clock, h.work, h.work⟩
theorem ko_discard : KO c clk (setClk fun t => { t with work := t.comm }) := fun s h => ⟨h.clock, h.comm, h.comm⟩
theorem ko_red : KO c clk (setClk fun t => { t with red := true }) := fun s h => ⟨h.clock, h.work, h.comm⟩
theorem ko_stamp (i : Nat) (a m ch : Bool) (hm : m = true → ch = true) :
    KO c clk (setClk fun t => { t.set i (fun s => s.mark a m ch (clk t.reads)) with reads := t.reads + 1 }) := fun s h => by
  have hup : clk s.t.reads ≤ clk (s.t.reads + 1) := h.clock _ _ (Nat.le_succ _)
  refine ⟨h.clock, fun j => ?_, fun j => ⟨(h.comm j).1, Nat.le_trans (h.comm j).2 hup⟩⟩
  have hj := h.work j
  show (if j = i then (s.t.work j).mark a m ch (clk s.t.reads) else s.t.work j).m ≤ (if j = i then (s.t.work j).mark a m ch (clk s.t.reads) else s.t.work j).c ∧
    (if j = i then (s.t.work j).mark a m ch (clk s.t.reads) else s.t.work j).c ≤ clk (s.t.reads + 1)
  split
  · unfold Stamp.mark
    dsimp only
    cases m
    · cases ch
      · exact ⟨hj.1, Nat.le_trans hj.2 hup⟩
      · exact ⟨Nat.le_trans hj.1 hj.2, hup⟩
    · rw [hm rfl]; exact ⟨Nat.le_refl _, hup⟩
  · exact ⟨hj.1, Nat.le_trans hj.2 hup⟩
theorem ko_put (ci : Cinode) (a m ch : Bool) (hm : m = true → ch = true) : KO c clk (put c clk ci a m ch) := by
  unfold put
  exact ko_ite (ko_pure _) (ko_ite (ko_ite ko_red (ko_stamp _ _ _ _ hm)) (ko_pure _))
theorem ko_create (i p m : Nat) : KO c clk (create c clk i p m) := by
  unfold create
  exact ko_bind (ko_lift _) fun ci => ko_bind (ko_ite (ko_stamp _ _ _ _ fun _ => rfl) (ko_pure _)) fun _ => ko_pure _
theorem ko_transact : KO c clk transact := by
  unfold transact
  exact ko_bind ko_vol fun v => ko_bind (ko_lift _) fun _ => ko_ite ko_commit (ko_pure _)
theorem ko_rollback : KO c clk (rollback c) := by
  unfold rollback
  exact ko_bind ko_vol fun v => ko_bind (ko_lift _) fun _ => ko_ite ko_discard (ko_pure _)

syntax "ko1" : tactic
macro_rules | `(tactic| ko1) => `(tactic| with_reducible exact ko_pure _)
macro_rules | `(tactic| ko1) => `(tactic| with_reducible exact ko_fail _)
macro_rules | `(tactic| ko1) => `(tactic| with_reducible exact ko_lift _)
macro_rules | `(tactic| ko1) => `(tactic| with_reducible exact ko_vol)
macro_rules | `(tactic| ko1) => `(tactic| with_reducible exact ko_put _ _ _ _ (by simp))
macro_rules | `(tactic| ko1) => `(tactic| with_reducible exact ko_create _ _ _)
macro_rules | `(tactic| ko1) => `(tactic| with_reducible exact ko_transact)
macro_rules | `(tactic| ko1) => `(tactic| with_reducible exact ko_rollback)
macro_rules | `(tactic| ko1) => `(tactic| with_reducible exact ko_discard)
macro "ko" : tactic => `(tactic| repeat' (first | ko1 | (with_reducible refine ko_bind ?_ fun _ => ?_) | (with_reducible refine ko_attempt ?_) | (with_reducible refine ko_ite ?_ ?_) | split))

theorem ko_rwOp {m : TM α} (h : KO c clk m) : KO c clk (rwOp m) := by unfold rwOp; ko; exact h
theorem ko_whenMounted {m : TM α} (h : KO c clk m) : KO c clk (whenMounted m) := by unfold whenMounted; ko; exact h
theorem ko_whenRw {m : TM α} (h : KO c clk m) : KO c clk (whenRw m) := by unfold whenRw; ko; exact h
theorem ko_modify {ev : Event} {m : TM α} (h : KO c clk m) : KO c clk (modifyingOp ev m) := by
  unfold modifyingOp volFullRetry eventTransact
  refine ko_whenRw ?_
  ko <;> exact h

theorem ko_write (ino start len : Nat) (buf : Nat → Byte) : KO c clk (fileWriteSub c clk ino start len buf) := by unfold fileWriteSub; refine ko_rwOp ?_; ko
theorem ko_truncate (ino size : Nat) : KO c clk (fileTruncateSub c clk ino size) := by unfold fileTruncateSub; refine ko_rwOp ?_; ko
theorem ko_read (ino start len : Nat) : KO c clk (fileRead c clk ino start len) := by unfold fileRead; refine ko_whenMounted ?_; ko
theorem ko_createSub (p : Nat) (nm : List Byte) (d : Bool) : KO c clk (createSub c clk p nm d) := by unfold createSub; refine ko_rwOp ?_; ko
theorem ko_link (p : Nat) (nm : List Byte) (i : Nat) : KO c clk (linkSub c clk p nm i) := by unfold linkSub; refine ko_rwOp ?_; ko
theorem ko_unlink (p : Nat) (nm : List Byte) : KO c clk (unlinkSub c clk p nm) := by unfold unlinkSub; refine ko_rwOp ?_; ko
theorem ko_rename (p : Nat) (nm : List Byte) (p' : Nat) (nm' : List Byte) : KO c clk (renameSub c clk p nm p' nm') := by unfold renameSub; refine ko_rwOp ?_; ko
theorem ko_dirRead (p k : Nat) : KO c clk (dirReadCall c clk p k) := by unfold dirReadCall; refine ko_whenMounted ?_; ko
theorem ko_mount (ro : Bool) : KO c clk (mountCall c ro) := by unfold mountCall; ko
theorem ko_unmount : KO c clk (unmountCall c) := by unfold unmountCall; ko

theorem ko_exec (k : Call) : KO c clk (exec c clk k) := by
  cases k <;> dsimp only [exec]
  case create => exact ko_bind (ko_modify (ko_createSub _ _ _)) fun _ => ko_pure _
  case link => exact ko_bind (ko_modify (ko_link _ _ _)) fun _ => ko_pure _
  case unlink => exact ko_bind (ko_modify (ko_unlink _ _)) fun _ => ko_pure _
  case rename => exact ko_bind (ko_modify (ko_rename _ _ _ _)) fun _ => ko_pure _
  case write => exact ko_bind (ko_modify (ko_write _ _ _ _)) fun _ => ko_pure _
  case truncate => exact ko_bind (ko_modify (ko_truncate _ _)) fun _ => ko_pure _
  case read => exact ko_bind (ko_read _ _ _) fun _ => ko_pure _
  case dirRead => exact ko_bind (ko_dirRead _ _) fun _ => ko_pure _
  case transact => exact ko_bind (ko_whenRw ko_transact) fun _ => ko_pure _
  case rollback => exact ko_bind (ko_whenRw ko_rollback) fun _ => ko_pure _
  case mount => exact ko_bind (ko_mount _) fun _ => ko_pure _
  case unmount => exact ko_bind ko_unmount fun _ => ko_pure _
  all_goals exact ko_lift _

end RedFs.Times
