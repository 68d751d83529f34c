import Verif.Lemmas.LinearInv
import Verif.Lemmas.PosixHist
import Verif.Lemmas.PosixDemo
set_option linter.unusedSimpArgs false
set_option linter.unusedVariables false
set_option linter.unusedSectionVars false
set_option linter.unnecessarySeqFocus false
set_option linter.unusedTactic false
set_option linter.unreachableTactic false
/-!
C43: tasks.  Concurrent calls are serialized; every task has its own error code.
-/
namespace RedFs.Props.PosixTask
open RedFs.Posix M Str Path Spec

variable {pc : PConf} {I : Impl} {s s' s0 : PSt} {t : Nat} {k : PCall} {r : Except Err PReply} {tr : List Label} {c : CSt I.μ}

/-! ### A way to perform critical sections

It shows that the assumptions can be met: the task is registered in one step, and the body of the function is the next one. -/

/-- Two steps: `TaskRegister` (posix.c:3437) and the body of the function. -/
def twoSteps (pc : PConf) : Impl where
  μ := Nat × Section × Bool
  start t x := (t, x, false)
  step m s :=
    match m with
    | (t, .main k, false) =>
      match taskRegister pc t s with
      | (.ok _, s) => (.inl (t, .main k, true), s)
      | (.error e, s) => (.inr (.reply (.error e)), s)
    | (_, .main .uninit, true) => (.inr (.reply (.error .einval)), s)
    | (t, .main k, true) => (.inr (.reply (body pc t k s).1), (body pc t k s).2)
    | (t, x, _) => (.inr (sec pc t x s).1, (sec pc t x s).2)

theorem twoSteps_body (t : Nat) (k : PCall) (hk : k ≠ .uninit) (s : PSt) :
    (twoSteps pc).step (t, .main k, true) s = (.inr (.reply (body pc t k s).1), (body pc t k s).2) := by
  cases k <;> first | exact absurd rfl hk | rfl

theorem reg_keeps (t : Nat) (s : PSt) (i : Nat) (h0 : (s.slot i).task ≠ 0) : ((taskRegister pc t s).2.slot i).task = (s.slot i).task := by
  by_cases hm : pc.tasks = 1
  · unfold taskRegister; rw [if_pos hm]
  · rcases reg_cases hm t s with ⟨_, _, e⟩ | ⟨j, _, _, _, e⟩ | ⟨j, _, _, a, _, e⟩
    · rw [e]
    · rw [e]
    · rw [e]; dsimp only
      rw [setSlot_slot, if_neg]
      rintro rfl; exact h0 a

theorem reg_inited (t : Nat) (s : PSt) : (taskRegister pc t s).2.inited = s.inited := by
  by_cases hm : pc.tasks = 1
  · unfold taskRegister; rw [if_pos hm]
  · rcases reg_cases hm t s with ⟨_, _, e⟩ | ⟨j, _, _, _, e⟩ | ⟨j, _, _, a, _, e⟩ <;> rw [e] <;> rfl

theorem twoSteps_ok : (twoSteps pc).Ok pc := by
  refine ⟨fun t x s _ _ hx => ?_, fun m e x s => ?_, fun m s => ?_, fun m s i hi h0 => ?_⟩
  · cases x with
    | main k =>
      obtain ⟨_, _, hk⟩ := hx k rfl
      rcases hr : taskRegister pc t s with ⟨er | j, s1⟩
      · refine ⟨(t, .main k, false), s, .refl, ?_⟩
        simp only [twoSteps, sec, run_bind, hr]
      · refine ⟨(t, .main k, true), s1, .next .refl ?_, ?_⟩
        · simp only [twoSteps, hr]
        · rw [twoSteps_body t k hk]; simp only [sec, run_bind, hr]
    | find k e => exact ⟨(t, .find k e, false), s, .refl, rfl⟩
    | reg k e => exact ⟨(t, .reg k e, false), s, .refl, rfl⟩
  · obtain ⟨t, y, b⟩ := m
    cases y with
    | main k =>
      cases b with
      | false =>
        simp only [twoSteps]
        rw [reg_blind]
        rcases taskRegister pc t s with ⟨er | j, s1⟩ <;> rfl
      | true =>
        by_cases hk : k = .uninit
        · subst hk; rfl
        · rw [twoSteps_body t k hk, twoSteps_body t k hk, (neu_body (pc := pc) (t := t) hk).ins]
    | find => rfl
    | reg k e =>
      simp only [twoSteps, sec]
      rw [reg_blind]
      rcases taskRegister pc t s with ⟨er | j, s1⟩ <;> rfl
  · obtain ⟨t, y, b⟩ := m
    cases y with
    | main k =>
      cases b with
      | false =>
        have := reg_inited (pc := pc) t s
        simp only [twoSteps]
        rcases hr : taskRegister pc t s with ⟨er | j, s1⟩ <;> (rw [hr] at this; exact this)
      | true =>
        by_cases hk : k = .uninit
        · subst hk; rfl
        · rw [twoSteps_body t k hk]; exact (neu_body (pc := pc) (t := t) hk).inited s
    | find => rfl
    | reg k e =>
      have := reg_inited (pc := pc) t s
      simp only [twoSteps, sec]
      rcases hr : taskRegister pc t s with ⟨er | j, s1⟩ <;> (rw [hr] at this; exact this)
  · obtain ⟨t, y, b⟩ := m
    cases y with
    | main k =>
      cases b with
      | false =>
        have := reg_keeps (pc := pc) t s i h0
        simp only [twoSteps]
        rcases hr : taskRegister pc t s with ⟨er | j, s1⟩ <;> (rw [hr] at this; exact this)
      | true =>
        by_cases hk : k = .uninit
        · subst hk; rfl
        · rw [twoSteps_body t k hk]; exact (neu_body (pc := pc) (t := t) hk).task s i
    | find => rfl
    | reg k e =>
      have := reg_keeps (pc := pc) t s i h0
      simp only [twoSteps, sec]
      rcases hr : taskRegister pc t s with ⟨er | j, s1⟩ <;> (rw [hr] at this; exact this)

/-! ### The theorems -/

section
variable (hc : pc.Ok) (hm : pc.tasks ≠ 1) (hI : I.Ok pc) (h0 : PReach pc s0) (hin : s0.inited = true) (run : CRun pc I (CSt.rest I.μ s0) tr c)
include hc hm hI h0 hin run

/-- Every concurrent execution is equivalent to a sequential one.  For any number of tasks, any schedule, and any way in which critical sections are divided
into steps, there is a sequence of calls, made one after the other, in which every call has the result that it has in the concurrent execution, and which
takes place between the invocation and the return of the call; when no task is in the API, the state is the one which the sequence leads to (but for the
error code that is shared by the tasks that have no slot); the error code of a task which is not in the API is right at any time. -/
theorem C43_linearizable : ∃ L q, observed L = tr ∧ (∀ t, ∃ st, Marked t L st) ∧ PRun pc s0 (effects L) q ∧
    (∀ t, c.loc t = .idle → Marked t L .none ∧ ∀ i, i < pc.tasks → (q.slot i).task = t → t ≠ 0 → (c.s.slot i).task = t ∧ (c.s.slot i).errno = (q.slot i).errno) ∧
    ((∀ t, c.loc t = .idle) → c.s = { q with gerrno := c.s.gerrno }) := by
  obtain ⟨L, sts, q, ho, H⟩ := CRun.inv hc hm hI h0 hin run
  have idle : ∀ {t}, c.loc t = .idle → sts t = .none := fun {t} h => by
    have := H.loc t; rw [h] at this; exact this
  have np : ∀ {t}, c.loc t = .idle → ¬ Pend (sts t) := by
    intro t h; rw [idle h]; rintro ⟨_, _, a, _⟩; cases a
  refine ⟨L, q, ho, fun t => ⟨_, H.marked t⟩, H.run, fun t ht => ⟨idle ht ▸ H.marked t, fun i hi hq ht0 => ⟨?_, ?_⟩⟩, fun hall => ?_⟩
  · rw [H.keeps hI i hi (by rw [hq]; exact ht0)]; exact hq
  · rcases H.errno i with e | ⟨_, p⟩
    · exact e
    · rw [hq] at p; exact absurd p (np ht)
  · have hb := H.base fun t x m e => by rw [hall t] at e; cases e
    have he : errOf c.s = errOf q := by
      funext i
      rcases H.errno i with e | ⟨_, p⟩
      · exact e
      · exact absurd p (np (hall _))
    rw [he] at hb
    exact hb

/-- At any time at most one task is between the acquisition and the release of the mutex. -/
theorem C43_exclusive {u : Nat} (ht : (∃ x m, c.loc t = .crit x m) ∨ ∃ x o, c.loc t = .leave x o) (hu : (∃ x m, c.loc u = .crit x m) ∨ ∃ x o, c.loc u = .leave x o) : t = u := by
  obtain ⟨L, sts, q, ho, H⟩ := CRun.inv hc hm hI h0 hin run
  have := H.owner t ht
  rw [H.owner u hu] at this
  exact (Option.some.inj this).symm

/-- When the last thing that a task has done was a call which failed, `red_errno` of this task is the error code of this call, whatever other tasks do
meanwhile; unless there are too many tasks. -/
theorem C43_errno {tr1 tr2 : List Label} {e : Err} (htr : tr = tr1 ++ .res t k (.error e) :: tr2) (hs : setsErrno k = true) (hno : ∀ l ∈ tr2, l.task ≠ t) :
    (∃ i, i < pc.tasks ∧ (c.s.slot i).task = t ∧ (c.s.slot i).errno = some e) ∨ NoSlot pc t c.s := by
  obtain ⟨L, sts, q, ho, H⟩ := CRun.inv hc hm hI h0 hin run
  obtain ⟨hmk, x, y, hx, hy⟩ := last_effect (fun u => ⟨_, H.marked u⟩) (ho.trans htr) hno
  have hni : ∀ {tr c}, CRun pc I (CSt.rest I.μ s0) tr c → (∀ t k, Label.inv t k ∈ tr → k ≠ .init ∧ k ≠ .uninit) := by
    intro tr c h
    induction h with
    | nil => exact nofun
    | step h hst ih =>
      intro t k hk
      rcases List.mem_append.1 hk with hk | hk
      · exact ih t k hk
      · cases hst <;> simp at hk
        rename_i h3 h4 h5
        obtain ⟨rfl, rfl⟩ := hk
        first | exact ⟨h3, h4⟩ | exact ⟨h4, h3⟩ | exact ⟨h4, h5⟩
  -- the calls which take effect have been made
  have hmade : ∀ {L : List Mark}, (∀ t, ∃ st, Marked t L st) → (∀ t st, Marked t L st → match st with
      | .none => True
      | .before k => Label.inv t k ∈ observed L
      | .after k _ => Label.inv t k ∈ observed L) ∧ ∀ ev ∈ effects L, Label.inv ev.task ev.call ∈ observed L := by
    intro L
    induction L using List.reverseRecOn with
    | nil =>
      intro _
      refine ⟨fun t st h => ?_, nofun⟩
      generalize hx : ([] : List Mark) = x at h
      cases h with
      | nil => trivial
      | _ => simp at hx
    | append_singleton L m ih =>
      intro hall
      obtain ⟨i1, i2⟩ := ih fun t => (hall t).elim fun st h => h.prefix
      have mono : ∀ {x}, x ∈ observed L → x ∈ observed (L ++ [m]) := fun h => by rw [observed_append]; exact List.mem_append_left _ h
      refine ⟨fun t st h => ?_, fun ev hev => ?_⟩
      · rcases h.snoc with ⟨_, h⟩ | ⟨k, rfl, rfl, h⟩ | ⟨k, r, rfl, rfl, g⟩ | ⟨k, r, rfl, rfl, g⟩
        · have := i1 t st h
          cases st with
          | none => trivial
          | before => exact mono this
          | after => exact mono this
        · rw [observed_append]; exact List.mem_append_right _ (by simp [observed])
        · exact mono (i1 t _ g)
        · trivial
      · rw [effects_append] at hev
        rcases List.mem_append.1 hev with hev | hev
        · exact mono (i2 ev hev)
        · cases m with
          | inv => cases hev
          | res => cases hev
          | lin u k r =>
            have hev : ev = ⟨u, k, r⟩ := by simpa [effects] using hev
            subst hev
            obtain ⟨st, h⟩ := hall u
            rcases h.snoc with ⟨h, _⟩ | ⟨k, a, _, h⟩ | ⟨k', r', a, _, h⟩ | ⟨k, r, a, _, h⟩
            · exact absurd rfl h
            · cases a
            · cases a; exact mono (i1 u _ h)
            · cases a
  have hcalls : ∀ ev ∈ effects L, ev.call ≠ .init ∧ ev.call ≠ .uninit := fun ev hev => by
    have := (hmade fun t => ⟨_, H.marked t⟩).2 ev hev
    rw [ho] at this
    exact hni run _ _ this
  obtain ⟨_, ht0, hst⟩ := PRun.stored hc hm h0 hin H.run hcalls hx hs (fun ev hev => Or.inl (hy ev hev))
  rcases hst with ⟨i, a, b, d⟩ | hn
  · refine Or.inl ⟨i, a, ?_, ?_⟩
    · rw [H.keeps hI i a (by rw [b]; exact ht0)]; exact b
    · rcases H.errno i with e' | ⟨_, p⟩
      · rw [e']; exact d
      · rw [b, Marked.fun (H.marked t) hmk] at p
        obtain ⟨_, _, p, _⟩ := p; cases p
  · exact Or.inr ⟨hn.1, fun i hi => by rw [H.keeps hI i hi (hn.2 i hi).2]; exact hn.2 i hi⟩

end

section
variable (hc : pc.Ok) (h : PReach pc s)
include hc h

/-- No two tasks share a slot, and no task has two. -/
theorem C43_slots_distinct (hin : s.inited = true) {i j : Nat} (hi : i < pc.tasks) (hj : j < pc.tasks) (he : (s.slot i).task = (s.slot j).task) (h0 : (s.slot i).task ≠ 0) : i = j :=
  (h.inv hc).task hin i j hi hj he h0

/-- A task that has no slot gets one when it makes a call, if there is one that is free; if there is none, the call fails with `EUSERS`, and nothing happens
but that the error code is stored in the global variable. -/
theorem C43_too_many (hp : Permitted pc t k s) (hin : s.inited = true) (hb : ¬ k.Bad) (hni : k ≠ .init) (hn : NoSlot pc t s) (he : pexec pc t k s = (r, s')) :
    r = .error .eusers ∧ (s' = s ∨ s' = { s with gerrno := some .eusers }) := by
  have hu : k.isUninit = true ∧ s.inited = false → False := fun h => by rw [hin] at h; cases h.2
  have D := (pexec_spec hc (h.inv hc) hp).2
  rw [he] at D
  have D' : ∃ s2, EnterDoes pc t k s r s2 ∧ (match (generalizing := false) r with | .ok _ => s' = s2 | .error e => if setsErrno k then SetsErrno pc t e s2 s' else s' = s2) := by
    unfold PDoes at D
    cases k <;> first | exact absurd rfl hni | (dsimp only at D; rw [if_neg hu] at D; exact D)
  obtain ⟨s2, E, F⟩ := D'
  rcases E with ⟨b, _⟩ | ⟨_, b, _⟩ | ⟨_, _, _, rfl, rfl⟩ | ⟨_, _, s1, R, _⟩
  · exact absurd b hb
  · rw [hin] at b; cases b
  · refine ⟨rfl, ?_⟩
    dsimp only at F
    split at F
    · unfold SetsErrno at F
      rw [if_neg (by rintro (a | a); exacts [hn.1 a, by rw [hin] at a; cases a])] at F
      rcases F with ⟨s1, i, R, _⟩ | ⟨_, F⟩
      · exact absurd hn (not_noSlot R)
      · exact Or.inr F
    · exact Or.inl F
  · exact absurd hn (not_noSlot R)

/-- After a call, a task has a slot, unless there are too many tasks. -/
theorem C43_gets_slot (hp : Permitted pc t k s) (hm : pc.tasks ≠ 1) (hin : s.inited = true) (hb : ¬ k.Bad) (hni : k ≠ .init) (hnu : k ≠ .uninit) (hn : ¬ NoSlot pc t s)
    (he : pexec pc t k s = (r, s')) : ∃ i, i < pc.tasks ∧ (s'.slot i).task = t := by
  have h1 : Posix.early k = false := by
    cases hx : Posix.early k with
    | false => rfl
    | true => exact absurd ((early_iff k).1 hx) hb
  rcases hx : (do let _ ← taskRegister pc t; body pc t k : Posix.PM PReply) s with ⟨r1, q1⟩
  obtain ⟨_, _, E, d⟩ := main_cases hm hnu s hx
  obtain ⟨z, x1, x2, x3, _, _⟩ := lin_main hm hin hni hnu h1 hx
  rw [he] at x1
  obtain ⟨rfl, rfl⟩ := Prod.mk.inj x1
  have ht : ∀ i, (s'.slot i).task = (q1.slot i).task := fun i => by
    have := congrArg (fun s : PSt => (s.slot i).task) (x3 (fun _ => none) none)
    exact this
  rcases d with ⟨a, b⟩ | ⟨i, hi⟩
  · -- all slots are used by others: then they were before
    exfalso
    rw [run_bind] at hx
    rcases reg_cases hm t s with ⟨a', _, _⟩ | ⟨i, a1, a2, a3, e⟩ | ⟨i, a1, a2, a3, a4, e⟩
    · exact hn a'
    · exact (a.2 i a1).1 ((E.keep i a1 (by rw [a2]; exact hp.1)).trans a2)
    · rw [e] at hx
      replace hx : body pc t k (s.setSlot i { s.slot i with task := t }) = (r, q1) := hx
      have := (neu_body (pc := pc) (t := t) hnu).task (s.setSlot i { s.slot i with task := t }) i
      rw [hx] at this
      exact (a.2 i a2).1 (this.trans (by simp [setSlot_slot]))
  · obtain ⟨a, b⟩ := taskIdx_some hi
    exact ⟨i, a, (ht i).trans b⟩

/-- Calls of other tasks change neither the slot of a task nor its error code. -/
theorem C43_errno_own {u i : Nat} (hp : Permitted pc u k s) (hm : pc.tasks ≠ 1) (hin : s.inited = true) (hni : k ≠ .init) (hnu : k ≠ .uninit) (he : pexec pc u k s = (r, s'))
    (hu : u ≠ t) (ht : t ≠ 0) (hi : i < pc.tasks) (hs : (s.slot i).task = t) : (s'.slot i).task = t ∧ (s'.slot i).errno = (s.slot i).errno := by
  have E := (pexec_eff hm hp.1 hin hni hnu he).1
  have h1 := (E.keep i hi (by rw [hs]; exact ht)).trans hs
  exact ⟨h1, E.errno i (Or.inr (by rw [h1]; exact fun h => hu h.symm))⟩

/-- The error code of a call that fails is stored for the task which has made it. -/
theorem C43_errno_stored {e : Err} (hp : Permitted pc t k s) (hm : pc.tasks ≠ 1) (hin : s.inited = true) (hni : k ≠ .init) (hnu : k ≠ .uninit)
    (he : pexec pc t k s = (.error e, s')) (hs : setsErrno k = true) :
    (∃ i, i < pc.tasks ∧ (s'.slot i).task = t ∧ (s'.slot i).errno = some e) ∨ NoSlot pc t s' :=
  (pexec_eff hm hp.1 hin hni hnu he).2.1 e rfl hs

end

/-- The slots are enough: when a task gets none since the driver has been initialized, `REDCONF_TASK_COUNT` other tasks have made calls. -/
theorem C43_enough_slots (hm : pc.tasks ≠ 1) (h0 : PReach pc s0) (hc : pc.Ok) (hin : s0.inited = true) (hfree : ∀ i, i < pc.tasks → (s0.slot i).task = 0) {l : List PEv} (run : PRun pc s0 l s)
    (hni : ∀ ev ∈ l, ev.call ≠ .init ∧ ev.call ≠ .uninit) (hn : NoSlot pc t s) :
    ∃ us : List Nat, us.Nodup ∧ us.length = pc.tasks ∧ t ∉ us ∧ ∀ u ∈ us, ∃ ev ∈ l, ev.task = u := by
  have key : ∀ {l s}, PRun pc s0 l s → (∀ ev ∈ l, ev.call ≠ .init ∧ ev.call ≠ .uninit) → s.inited = true ∧ ∀ i, i < pc.tasks → (s.slot i).task = 0 ∨ ∃ ev ∈ l, ev.task = (s.slot i).task := by
    intro l s h hni
    induction h with
    | nil => exact ⟨hin, fun i hi => Or.inl (hfree i hi)⟩
    | @call l s u k h hp ih =>
      obtain ⟨i1, i2⟩ := ih fun ev hev => hni ev (List.mem_append_left _ hev)
      have hk := hni _ (List.mem_append_right _ (List.mem_singleton_self _))
      have E := (pexec_eff (r := (pexec pc u k s).1) (q' := (pexec pc u k s).2) hm hp.1 i1 hk.1 hk.2 rfl).1
      refine ⟨E.inited.trans i1, fun i hi => ?_⟩
      by_cases hz : (s.slot i).task = 0
      · rcases E.fresh i hi hz with e | e
        · exact Or.inl e
        · exact Or.inr ⟨_, List.mem_append_right _ (List.mem_singleton_self _), e.symm⟩
      · rw [E.keep i hi hz]
        rcases i2 i hi with e | ⟨ev, a, b⟩
        · exact absurd e hz
        · exact Or.inr ⟨ev, List.mem_append_left _ a, b⟩
  obtain ⟨hs, hk⟩ := key run hni
  have hu := ((h0.run run).inv hc).task hs
  refine ⟨(List.range pc.tasks).map fun i => (s.slot i).task, ?_, by simp, ?_, ?_⟩
  · refine List.Nodup.map_on ?_ List.nodup_range
    intro i hi j hj e
    exact hu i j (by simpa using hi) (by simpa using hj) e (hn.2 i (by simpa using hi)).2
  · intro hmem
    obtain ⟨i, hi, e⟩ := List.mem_map.1 hmem
    exact (hn.2 i (by simpa using hi)).1 e
  · intro u hu
    obtain ⟨i, hi, rfl⟩ := List.mem_map.1 hu
    rcases hk i (by simpa using hi) with e | e
    · exact absurd e (hn.2 i (by simpa using hi)).2
    · exact e

/-! ### An execution in which two calls overlap

Task 6 makes a call; while it is in the critical section, a call of task 5 is rejected, and waits for the mutex to store the error code. -/

theorem demo_run (hin : s0.inited = true) (h5 : taskIdx pc 5 s0 = some 0) (h6 : taskIdx pc 6 s0 = some 1) (hm : pc.tasks ≠ 1) {k : PCall} {a : PReply} {s1 : PSt} (hcw : pc.cwd = true)
    (hk : Permitted pc 6 k s0) (he : Posix.early k = false) (hni : k ≠ .init) (hnu : k ≠ .uninit) (hb : body pc 6 k s0 = (.ok a, s1)) (h5' : taskIdx pc 5 s1 = some 0) :
    ∃ c, CRun pc (twoSteps pc) (CSt.rest _ s0) [.inv 5 (.getcwd 0), .inv 6 k, .res 6 k (.ok a), .res 5 (.getcwd 0) (.error .einval)] c ∧ ∀ t, c.loc t = .idle := by
  have hr : taskRegister pc 6 s0 = (.ok 1, s0) := by unfold taskRegister; rw [if_neg hm, h6]
  have hin1 : s1.inited = true := by
    have := (neu_body (pc := pc) (t := 6) hnu).inited s0; rw [hb] at this; exact this.trans hin
  have R := CRun.nil (pc := pc) (I := twoSteps pc) (c0 := CSt.rest _ s0)
  have R := R.step (.call (t := 5) (k := .getcwd 0) rfl (by decide) trivial (fun _ => hcw) nofun nofun)
  have R := R.step (.call (t := 6) (k := k) (by simp [CSt.go, CSt.rest]) (by decide) hk.2.1 hk.2.2.1 hni hnu)
  have R := R.step (.enter (t := 6) (k := k) (by simp [CSt.go]) he hin)
  have R := R.step (.acquire (t := 6) (x := .main k) (by simp [CSt.go]) rfl (fun _ e => by cases e; exact hk))
  have R := R.step (.early (t := 5) (k := .getcwd 0) (by simp [CSt.go, CSt.rest]) rfl)
  have R := R.step (.micro (t := 6) (x := .main k) (m := (6, .main k, false)) (m' := (6, .main k, true)) (s' := s0) (by simp [CSt.go, twoSteps]) (by
      show (twoSteps pc).step (6, .main k, false) s0 = _
      simp only [twoSteps, hr]))
  have R := R.step (.retErr (t := 5) (k := .getcwd 0) (e := .einval) (by simp [CSt.go, CSt.rest]) rfl)
  have R := R.step (.eread (t := 5) (k := .getcwd 0) (e := .einval) (by simp [CSt.go]) hin)
  have R := R.step (.finish (t := 6) (x := .main k) (m := (6, .main k, true)) (o := .reply (.ok a)) (s' := s1) (by simp [CSt.go]) (by
      show (twoSteps pc).step (6, .main k, true) s0 = _
      rw [twoSteps_body 6 k hnu, hb]))
  have R := R.step (.release (t := 6) (x := .main k) (o := .reply (.ok a)) (by simp [CSt.go]))
  have R := R.step (.acquire (t := 5) (x := .find (.getcwd 0) .einval) (by simp [CSt.go]) rfl (fun _ e => by cases e))
  have R := R.step (.retOk (t := 6) (k := k) (a := a) (by simp [CSt.go, afterSec]))
  have R := R.step (.finish (t := 5) (x := .find (.getcwd 0) .einval) (m := (5, .find (.getcwd 0) .einval, false)) (o := .idx (some 0)) (s' := s1) (by simp [CSt.go, twoSteps]) (by
      show ((Sum.inr (Out.idx (taskIdx pc 5 s1)) : (twoSteps pc).μ ⊕ Out), s1) = _
      rw [h5']))
  have R := R.step (.release (t := 5) (x := .find (.getcwd 0) .einval) (o := .idx (some 0)) (by simp [CSt.go]))
  have R := R.step (.putSlot (t := 5) (k := .getcwd 0) (e := .einval) (i := 0) (by simp [CSt.go, afterSec]))
  refine ⟨_, R, fun t => ?_⟩
  simp only [CSt.go, CSt.rest]
  by_cases h5 : t = 5 <;> by_cases h6 : t = 6 <;> simp [h5, h6]

theorem demo_idx5 : taskIdx demoPC 5 demoS = some 0 := by decide +kernel
theorem demo_idx6 : taskIdx demoPC 6 demoS = some 1 := by decide +kernel
def isOk : Except Err PReply → Bool
  | .ok _ => true
  | _ => false
theorem isOk_eq {r : Except Err PReply} (h : isOk r = true) : ∃ a, r = .ok a := by
  cases r with
  | error => cases h
  | ok a => exact ⟨a, rfl⟩
theorem demo_fstat : isOk (body demoPC 6 (.fstat 1052673) demoS).1 = true := by decide +kernel

/-- Two calls that overlap in the demo system. -/
theorem demo_overlap : ∃ a c, CRun demoPC (twoSteps demoPC) (CSt.rest _ demoS)
    [.inv 5 (.getcwd 0), .inv 6 (.fstat 1052673), .res 6 (.fstat 1052673) (.ok a), .res 5 (.getcwd 0) (.error .einval)] c ∧ ∀ t, c.loc t = .idle := by
  have i5 := demo_idx5
  have i6 := demo_idx6
  have hf := demo_fstat
  have hin := demo_inited
  generalize demoS = s at i5 i6 hf hin
  obtain ⟨a, ha⟩ := isOk_eq hf
  have hb : body demoPC 6 (.fstat 1052673) s = (.ok a, (body demoPC 6 (.fstat 1052673) s).2) := by rw [← ha]
  refine ⟨a, demo_run hin i5 i6 (by decide) rfl ⟨by decide, ⟨by decide, by decide⟩, nofun, nofun⟩ rfl nofun nofun hb ?_⟩
  rw [← i5]; unfold taskIdx
  have : (fun i => ((body demoPC 6 (.fstat 1052673) s).2.slot i).task == 5) = fun i => (s.slot i).task == 5 := by
    funext i; rw [(neu_body (pc := demoPC) (t := 6) (k := .fstat 1052673) nofun).task s i]
  rw [this]

/-- It is equivalent to a sequential one, and the error of task 5 is stored in its slot. -/
example : ∃ L q, (∀ t, ∃ st, Marked t L st) ∧ PRun demoPC demoS (effects L) q := by
  obtain ⟨a, c, R, _⟩ := demo_overlap
  obtain ⟨L, q, _, h2, h3, _⟩ := C43_linearizable demoPC_ok (by decide) twoSteps_ok demoS_reach demo_inited R
  exact ⟨L, q, h2, h3⟩
example : ∃ (a : PReply) (c : CSt (twoSteps demoPC).μ), (∃ i, i < demoPC.tasks ∧ (c.s.slot i).task = 5 ∧ (c.s.slot i).errno = some .einval) ∨ NoSlot demoPC 5 c.s := by
  obtain ⟨a, c, R, _⟩ := demo_overlap
  exact ⟨a, c, C43_errno (t := 5) (k := .getcwd 0) (tr1 := [.inv 5 (.getcwd 0), .inv 6 (.fstat 1052673), .res 6 (.fstat 1052673) (.ok a)]) (tr2 := [])
    demoPC_ok (by decide) twoSteps_ok demoS_reach demo_inited R rfl rfl nofun⟩

/-- A third task is one too many. -/
theorem demo_full : NoSlot demoPC 7 demoS := by
  refine ⟨by decide, fun i hi => ?_⟩
  have hi : i < 2 := hi
  rcases Nat.lt_or_ge i 1 with h | h
  · rw [show i = 0 by omega]; exact ⟨by decide +kernel, by decide +kernel⟩
  · rw [show i = 1 by omega]; exact ⟨by decide +kernel, by decide +kernel⟩
example : (pexec demoPC 7 .sync demoS).1 = .error .eusers :=
  (C43_too_many demoPC_ok demoS_reach (demoP (t := 7) (k := .sync) (by decide) rfl demoS) demo_inited id nofun demo_full (Prod.mk.eta).symm).1

theorem runs_of {pc : PConf} (hcw : pc.cwd = true) (l : List (Nat × PCall)) : ∀ {s : PSt}, (l.all fun x => x.1 != 0 && x.2.okB) = true →
    ∃ tr, PRun pc s tr (pruns pc l s) ∧ tr.map (fun ev => (ev.task, ev.call)) = l := by
  induction l with
  | nil => intro s _; exact ⟨[], .nil, rfl⟩
  | cons x l ih =>
    intro s hl
    obtain ⟨t, k⟩ := x
    simp only [List.all_cons, Bool.and_eq_true, bne_iff_ne, ne_eq] at hl
    obtain ⟨tr, R, e⟩ := ih (s := (pexec pc t k s).2) (by simpa using hl.2)
    have := PRun.trans (PRun.call (PRun.nil (pc := pc) (s0 := s)) (permitted_of hcw hl.1.1 hl.1.2 s)) R
    exact ⟨_, this, by simp [e]⟩

theorem demo_init_inited : (pexec demoPC 5 .init demoS0).2.inited = true := by decide +kernel
theorem demo_init_free : ∀ i, i < demoPC.tasks → ((pexec demoPC 5 .init demoS0).2.slot i).task = 0 := by
  intro i hi
  have hi : i < 2 := hi
  rcases Nat.lt_or_ge i 1 with h | h
  · rw [show i = 0 by omega]; decide +kernel
  · rw [show i = 1 by omega]; decide +kernel

/-- When task 7 gets no slot, two other tasks have made calls since `red_init`. -/
example : ∃ us : List Nat, us.Nodup ∧ us.length = 2 ∧ 7 ∉ us := by
  obtain ⟨tr, R, e⟩ := runs_of (pc := demoPC) rfl demoL.tail (s := (pexec demoPC 5 .init demoS0).2) (by decide)
  have h0 : PReach demoPC (pexec demoPC 5 .init demoS0).2 := PReach.call ⟨demoS0, [], demoS0_start, .nil⟩ (demoP (t := 5) (k := .init) (by decide) rfl demoS0)
  have hn : NoSlot demoPC 7 (pruns demoPC demoL.tail (pexec demoPC 5 .init demoS0).2) := demo_full
  have hni : ∀ ev ∈ tr, ev.call ≠ .init ∧ ev.call ≠ .uninit := by
    intro ev hev
    have : (ev.task, ev.call) ∈ demoL.tail := by rw [← e]; exact List.mem_map_of_mem hev
    simp only [demoL, List.tail_cons, List.mem_cons, Prod.mk.injEq, List.not_mem_nil, or_false] at this
    rcases this with h | h | h | h | h | h | h <;> rw [h.2] <;> exact ⟨nofun, nofun⟩
  obtain ⟨us, a, b, d, _⟩ := C43_enough_slots (by decide) h0 demoPC_ok demo_init_inited demo_init_free R hni hn
  exact ⟨us, a, b, d⟩

/-- Both slots belong to tasks which have made calls since the driver was initialized. -/
example : (demoS.slot 0).task ≠ 0 ∧ (demoS.slot 0).task ≠ (demoS.slot 1).task := ⟨by decide +kernel, by decide +kernel⟩

end RedFs.Props.PosixTask
