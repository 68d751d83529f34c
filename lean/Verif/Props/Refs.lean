import Verif.Lemmas.RefsCalls
import Verif.Lemmas.RefsBusy
import Verif.Props.Buffer
/-!
C60: no call runs out of buffers, and every call gives back all buffers it took.

`REDCONF_BUFFER_COUNT` may be chosen as low as `MINIMUM_BUFFER_COUNT` (buffer.c:56-92).  The
theorems are about every list of decisions: every outcome of every check, every block found or
not found, every device error, any number of rounds of any loop.
-/
set_option linter.unusedVariables false
set_option linter.unusedSimpArgs false
namespace RedFs.Props.Refs
open RedFs RedFs.Refs

/-- The calls of a history: calls of this build; the parent directory a rename starts from has an
inode number in the valid range. -/
def Calls (c : Cfg) (os : List Op) : Prop := ∀ o ∈ os, o.exists_ c = true ∧ ∀ same, o ≠ .rename false same

theorem valid_of {o : Op} (h : ∀ same, o ≠ .rename false same) : o.valid = true := by
  cases o with
  | rename v same =>
    cases v
    · exact absurd rfl (h same)
    · rfl
  | _ => rfl

theorem after_calls {c : Cfg} (hc : c.Ok) (os : List Op) (h : Calls c os) (o : List Nat) :
    Inv c none5 (runOps c os (St.idle o)).2 :=
  runOps_keep hc os (fun x hx => ⟨(h x hx).1, valid_of (h x hx).2⟩) _ (idle_inv c o)

/-- At no moment of any history of calls is a buffer asked for while all are referenced, and at no
moment are more than `MINIMUM_BUFFER_COUNT` references held. -/
theorem C60_never_short (c : Cfg) (hc : c.Ok) (os : List Op) (h : Calls c os) (o : List Nat) :
    (runOps c os (St.idle o)).2.short = false ∧ (runOps c os (St.idle o)).2.peak ≤ c.minimum :=
  ⟨(after_calls hc os h o).short, (after_calls hc os h o).peak⟩

/-- No call in any history reports EBUSY. -/
theorem C60_no_call_is_busy (c : Cfg) (hc : c.Ok) (os : List Op) (h : Calls c os) (o : List Nat) (x : Op)
    (hx : Calls c [x]) : (x.run c (runOps c os (St.idle o)).2).1 ≠ .error .ebusy := by
  intro hb
  have h1 := (run_loud c x).busy _ hb
  have hx' := hx x (List.mem_singleton.2 rfl)
  have h2 := run_keep hc x hx'.1 (valid_of hx'.2) _ (after_calls hc os h o)
  have h3 := h2.short
  rw [h1] at h3
  cases h3

/-- Between calls no reference is held: whatever happened, each call gave back every buffer it took. -/
theorem C60_all_given_back (c : Cfg) (hc : c.Ok) (os : List Op) (h : Calls c os) (o : List Nat) :
    (runOps c os (St.idle o)).2.held = 0 := by
  have hi := after_calls hc os h o
  have := held_le hi
  simp [caps_total] at this
  exact this

/-- No buffer is given back twice, or through a pointer that was never set, and no pointer that
holds a reference is overwritten. -/
theorem C60_no_dangling (c : Cfg) (hc : c.Ok) (os : List Op) (h : Calls c os) (o : List Nat) :
    (runOps c os (St.idle o)).2.bad = false := (after_calls hc os h o).bad

/-- What this says about the cache itself: with fewer references than buffers the cache never
refuses a block for want of a buffer.  (`Reach`, `bget`: the model of buffer.c of C27 and C28.) -/
theorem C60_free_buffer (e : Buffer.Env) (s : Buffer.Ctx) (E : Buffer.Expect) (h : Buffer.Reach e s E) (vol b : Nat)
    (k : Buffer.Kind) (new d : Bool) (hl : Buffer.Legal e s E (.get vol b k new d))
    (href : ((List.range e.n).map fun i => (s.head i).ref).sum < e.n) :
    (Buffer.bget e s vol b k new d).1 ≠ .error .ebusy := by
  intro hb
  obtain ⟨-, -, hall⟩ := (Buffer.C28_busy_iff_all_referenced e s E h vol b k new d hl).1 hb
  have : ∀ n, n ≤ e.n → n ≤ ((List.range n).map fun i => (s.head i).ref).sum := by
    intro n
    induction n with
    | zero => intro _; exact Nat.zero_le _
    | succ n ih =>
      intro hn
      have h1 := ih (by omega)
      have h2 := hall n (by omega)
      rw [List.range_succ, List.map_append, List.sum_append]
      simp
      omega
  have := this e.n (Nat.le_refl _)
  omega

/-- The cache after power-on: one buffer, no references. -/
example : ∃ E, Buffer.Reach Buffer.demoEnv Buffer.demo0 E ∧
    ((List.range Buffer.demoEnv.n).map fun i => (Buffer.demo0.head i).ref).sum < Buffer.demoEnv.n :=
  ⟨_, .init _ _ (fun _ => by decide), by decide⟩

/-! ### The bound is exact, and the hypothesis about rename is needed -/

/-- A POSIX build with double indirect blocks, external imap and atomic rename; `n` buffers. -/
def demoCfg (n : Nat) : Cfg := ⟨n, 32, 4, 2, false, true, false, false, true, true⟩

/-- A rename between two directories, each seeked to a block behind a double indirect node, replacing
a file, that reaches the check for cycles. -/
def demoRename : List Nat :=
  List.replicate 43 0 ++ [1, 0, 0, 1, 1, 0, 1, 1] ++ List.replicate 8 0 ++ [1, 0, 0, 1, 1, 0, 1, 1, 0, 0, 0, 1] ++
    List.replicate 17 0 ++ [1] ++ List.replicate 10 0 ++ [1] ++ List.replicate 20 0 ++ [1, 0, 0, 1] ++ List.replicate 30 0

example : (demoCfg 12).minimum = 12 := by decide
theorem demo_ok : (demoCfg 12).Ok := ⟨by decide, by decide⟩
/-- The hypotheses are met, and all twelve buffers are used. -/
example : Calls (demoCfg 12) [.rename true false] := by
  intro o ho
  rw [List.mem_singleton] at ho
  subst ho
  exact ⟨by decide, fun same h => by cases h⟩
theorem C60_bound_is_reached : (runOps (demoCfg 12) [.rename true false] (St.idle demoRename)).2.peak = (demoCfg 12).minimum := by
  decide +kernel
/-- With one buffer less the same call runs out of buffers, so the compile-time check is needed. -/
theorem C60_one_less_is_short : (runOps (demoCfg 11) [.rename true false] (St.idle demoRename)).2.short = true := by
  decide +kernel

/-- Finding 29: with an invalid inode number for the source parent, rename gives back buffers through
an uninitialised variable. -/
theorem C60_rename_bad_parent (c : Cfg) (same : Bool) (o : List Nat) :
    (coreRename c false same (St.idle (0 :: o))).2.bad = true := by
  have h1 : ∀ m : Unit → M St Unit, (declare .srcP >>= fun _ => andThen (inodeMount c .srcP false true >>= m) (inodePut c .srcP))
      (St.idle o) = (.error .ebadf, { St.idle o with bad := true }) := by
    intro m
    have hd : declare .srcP (St.idle o) = (.ok (), St.idle o) := by
      unfold declare
      simp only [M.run_bind, M.run_get]
      have : (St.idle o).ci .srcP = none := rfl
      simp only [this, cnt, ne_eq, not_true_eq_false, decide_false, whenB, Bool.false_eq_true, if_false, M.run_pure, M.run_modify]
      have e : (St.idle o).setP .srcP none = St.idle o := by
        unfold St.setP St.idle
        congr 1
        funext j
        split <;> rfl
      rw [e]
    have hr : ∀ (f : Fld) (s : St), s.ci .srcP = none → release .srcP f s = (.ok (), { s with bad := true }) := by
      intro f s hs
      unfold release markBad
      simp only [M.run_bind, M.run_get, hs, M.run_modify]
    have hw : ∀ (b : Bool) (f : Fld) (s : St), s.ci .srcP = none → s.bad = true → whenB b (release .srcP f) s = (.ok (), s) := by
      intro b f s hs hb
      cases b
      · rfl
      · show release .srcP f s = _
        rw [hr f s hs]
        cases s; cases hb; rfl
    have hp : inodePut c .srcP (St.idle o) = (.ok (), { St.idle o with bad := true }) := by
      unfold inodePut putCoord putData putIndir putDindir
      simp only [M.run_bind, hr .data (St.idle o) rfl]
      rw [hw c.hasIndir .indir { St.idle o with bad := true } rfl rfl]
      simp only
      rw [hw c.hasDindir .dindir { St.idle o with bad := true } rfl rfl]
      simp only
      rw [hr .node { St.idle o with bad := true } rfl]
    rw [M.run_bind, hd]
    simp only
    unfold andThen
    simp only [M.run_bind, M.run_attempt]
    have hm : inodeMount c .srcP false true (St.idle o) = (.error .ebadf, St.idle o) := rfl
    simp only [hm, hp, M.run_ofExcept]
  have h2 : coreRename c false same (St.idle (0 :: o)) = (.error .ebadf, { St.idle o with bad := true }) := by
    unfold coreRename
    rw [M.run_bind]
    have hs : status (St.idle (0 :: o)) = (.ok (), St.idle o) := rfl
    rw [hs]
    exact h1 _
  rw [h2]

end RedFs.Props.Refs
