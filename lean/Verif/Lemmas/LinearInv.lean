import Verif.Lemmas.Linear
set_option linter.unusedSimpArgs false
set_option linter.unusedVariables false
set_option linter.unusedSectionVars false
/-!
The invariant of concurrent executions.
-/
namespace RedFs.Posix
open M Str Path

section
variable {pc : PConf} {I : Impl} {t : Nat} {s0 q q' : PSt}

/-- What is known of a call when it is made. -/
structure CallOk (pc : PConf) (t : Nat) (k : PCall) : Prop where
  task : t ≠ 0
  ok : k.Ok
  cwd : k.usesCwd → pc.cwd = true
  init : k ≠ .init
  uninit : k ≠ .uninit

/-- The call has taken effect. -/
def Done (pc : PConf) (t : Nat) (q : PSt) (st : Stage) (k : PCall) (r : Except Err PReply) : Prop :=
  st = .after k r ∧ t ≠ 0 ∧ ∀ e, r = .error e → setsErrno k = true → Stored pc t e q
/-- The call has been rejected at once. -/
def Rejected (pc : PConf) (t : Nat) (st : Stage) (k : PCall) (r : Except Err PReply) : Prop :=
  st = .before k ∧ CallOk pc t k ∧ early k = true ∧ r = .error .einval
/-- The error code is to be written. -/
def WriteTo (pc : PConf) (t : Nat) (q : PSt) (st : Stage) (k : PCall) (e : Err) (io : Option Nat) : Prop :=
  st = .after k (.error e) ∧ t ≠ 0 ∧ setsErrno k = true ∧
    match io with
    | some i => i < pc.tasks ∧ (q.slot i).task = t ∧ (q.slot i).errno = some e
    | none => NoSlot pc t q
/-- The task has not been found. -/
def NotFound (pc : PConf) (t : Nat) (q : PSt) (st : Stage) (k : PCall) (e : Err) : Prop :=
  setsErrno k = true ∧ ((st = .after k (.error e) ∧ t ≠ 0 ∧ NoSlot pc t q) ∨ Rejected pc t st k (.error e))

/-- What holds before and in a section. -/
def SecInv (pc : PConf) (t : Nat) (q : PSt) (st : Stage) : Section → Prop
  | .main k => st = .before k ∧ CallOk pc t k ∧ early k = false
  | .find k e => setsErrno k = true ∧ (Done pc t q st k (.error e) ∨ Rejected pc t st k (.error e))
  | .reg k e => NotFound pc t q st k e

/-- What holds after a section. -/
def LeaveInv (pc : PConf) (t : Nat) (q : PSt) (st : Stage) : Section → Out → Prop
  | .main k, o => ∃ r, o = .reply r ∧ Done pc t q st k r
  | .find k e, o => ∃ io, o = .idx io ∧
    match io with
    | some i => WriteTo pc t q st k e (some i)
    | none => NotFound pc t q st k e
  | .reg k e, o => ∃ io, o = .idx io ∧ WriteTo pc t q st k e io

def LocInv (pc : PConf) {μ : Type} (t : Nat) (q : PSt) (st : Stage) : Loc μ → Prop
  | .idle => st = .none
  | .called k => st = .before k ∧ CallOk pc t k
  | .want x => SecInv pc t q st x
  | .crit x _ => SecInv pc t q st x
  | .leave x o => LeaveInv pc t q st x o
  | .ret k r => Done pc t q st k r ∨ Rejected pc t st k r
  | .eread k e => setsErrno k = true ∧ (Done pc t q st k (.error e) ∨ Rejected pc t st k (.error e))
  | .put k e io => WriteTo pc t q st k e io

/-- Not in a critical section. -/
def Loc.Out {μ : Type} : Loc μ → Prop
  | .crit _ _ => False
  | .leave _ _ => False
  | _ => True
theorem Loc.Out.crit {μ : Type} {l : Loc μ} (h : l.Out) (x : Section) (m : μ) : l ≠ .crit x m := by rintro rfl; exact h
theorem Loc.Out.leave {μ : Type} {l : Loc μ} (h : l.Out) (x : Section) (o : Posix.Out) : l ≠ .leave x o := by rintro rfl; exact h

/-- Is an error code still to be written? -/
def Pend (st : Stage) : Prop := ∃ k e, st = .after k (.error e) ∧ setsErrno k = true

/-! ### Other tasks' calls -/

variable {st : Stage} {u : Nat}

theorem Done.other {k : PCall} {r : Except Err PReply} (h : Done pc t q st k r) (E : SlotEff pc u q q') (hu : t ≠ u) : Done pc t q' st k r :=
  ⟨h.1, h.2.1, fun e a b => E.stored hu h.2.1 (h.2.2 e a b)⟩
theorem WriteTo.other {k : PCall} {e : Err} {io : Option Nat} (h : WriteTo pc t q st k e io) (E : SlotEff pc u q q') (hu : t ≠ u) : WriteTo pc t q' st k e io := by
  obtain ⟨a, b, c, d⟩ := h
  refine ⟨a, b, c, ?_⟩
  cases io with
  | none => exact E.noSlot d
  | some i => exact ⟨d.1, E.slot hu b d.1 d.2.1 d.2.2⟩
theorem NotFound.other {k : PCall} {e : Err} (h : NotFound pc t q st k e) (E : SlotEff pc u q q') : NotFound pc t q' st k e := by
  rcases h with ⟨h, ⟨a, b, c⟩ | a⟩
  · exact ⟨h, Or.inl ⟨a, b, E.noSlot c⟩⟩
  · exact ⟨h, Or.inr a⟩
theorem SecInv.other {x : Section} (h : SecInv pc t q st x) (E : SlotEff pc u q q') (hu : t ≠ u) : SecInv pc t q' st x := by
  cases x with
  | main => exact h
  | find => exact ⟨h.1, h.2.imp (·.other E hu) id⟩
  | reg => exact NotFound.other h E
theorem LeaveInv.other {x : Section} {o : Out} (h : LeaveInv pc t q st x o) (E : SlotEff pc u q q') (hu : t ≠ u) : LeaveInv pc t q' st x o := by
  cases x with
  | main => obtain ⟨r, a, b⟩ := h; exact ⟨r, a, b.other E hu⟩
  | find =>
    obtain ⟨io, a, b⟩ := h
    refine ⟨io, a, ?_⟩
    cases io with
    | none => exact NotFound.other b E
    | some i => exact WriteTo.other b E hu
  | reg => obtain ⟨r, a, b⟩ := h; exact ⟨r, a, b.other E hu⟩
theorem LocInv.other {μ : Type} {l : Loc μ} (h : LocInv pc t q st l) (E : SlotEff pc u q q') (hu : t ≠ u) : LocInv pc t q' st l := by
  cases l with
  | idle => exact h
  | called => exact h
  | want => exact SecInv.other h E hu
  | crit => exact SecInv.other h E hu
  | leave => exact LeaveInv.other h E hu
  | ret => exact Or.imp (Done.other · E hu) id h
  | eread => exact ⟨h.1, h.2.imp (·.other E hu) id⟩
  | put => exact WriteTo.other h E hu

/-! ### The invariant -/

structure CInv (pc : PConf) (I : Impl) (s0 : PSt) (c : CSt I.μ) (L : List Mark) (st : Nat → Stage) (q : PSt) : Prop where
  marked : ∀ t, Marked t L (st t)
  run : PRun pc s0 (effects L) q
  reach : PReach pc q
  inited : q.inited = true
  base : (∀ t x m, c.loc t ≠ .crit x m) → c.s = withErr (errOf c.s) c.s.gerrno q
  crit : ∀ t x m, c.loc t = .crit x m → (∀ k, x = .main k → Permitted pc t k q) ∧ ∃ q1, Steps I (I.start t x) q m q1 ∧ c.s = withErr (errOf c.s) c.s.gerrno q1
  owner : ∀ t, ((∃ x m, c.loc t = .crit x m) ∨ ∃ x o, c.loc t = .leave x o) → c.owner = some t
  loc : ∀ t, LocInv pc t q (st t) (c.loc t)
  errno : ∀ i, (c.s.slot i).errno = (q.slot i).errno ∨ (i < pc.tasks ∧ Pend (st (q.slot i).task))

variable {c c' : CSt I.μ} {L : List Mark} {sts : Nat → Stage}

/-- The steps keep `gfPosixInited`. -/
theorem Steps.inited (hI : I.Ok pc) {m m1 : I.μ} {s s1 : PSt} (h : Steps I m s m1 s1) : s1.inited = s.inited := by
  induction h with
  | refl => rfl
  | next _ e ih =>
    have := congrArg (fun x : (I.μ ⊕ Out) × PSt => x.2.inited) e
    dsimp only at this
    rw [hI.inited] at this
    exact this.symm.trans ih

theorem CInv.up (hI : I.Ok pc) (h : CInv pc I s0 c L sts q) : c.s.inited = true := by
  by_cases hx : ∃ t x m, c.loc t = .crit x m
  · obtain ⟨t, x, m, hx⟩ := hx
    obtain ⟨_, q1, a, b⟩ := h.crit t x m hx
    rw [b]
    exact (Steps.inited hI a).trans h.inited
  · rw [h.base (fun t x m e => hx ⟨t, x, m, e⟩)]
    exact h.inited

theorem go_same (c : CSt I.μ) (t : Nat) (l : Loc I.μ) : (c.go t l).loc t = l := by simp [CSt.go]
theorem go_other (c : CSt I.μ) {t u : Nat} (l : Loc I.μ) (h : u ≠ t) : (c.go t l).loc u = c.loc u := by simp [CSt.go, h]

/-- Only one task is in a critical section. -/
theorem CInv.alone (h : CInv pc I s0 c L sts q) {t u : Nat} (ht : c.owner = some t) (hu : u ≠ t) : (∀ x m, c.loc u ≠ .crit x m) ∧ ∀ x o, c.loc u ≠ .leave x o := by
  constructor
  · intro x m e
    have := h.owner u (Or.inl ⟨x, m, e⟩)
    rw [ht] at this; exact hu (Option.some.inj this).symm
  · intro x m e
    have := h.owner u (Or.inr ⟨x, m, e⟩)
    rw [ht] at this; exact hu (Option.some.inj this).symm

def setStage (st : Nat → Stage) (t : Nat) (x : Stage) : Nat → Stage := fun u => if u = t then x else st u

/-- A step outside of critical sections which changes nothing but the location of the task, and possibly is a call or a return. -/
theorem CInv.move (h : CInv pc I s0 c L sts q) {l : Loc I.μ} {x : Stage} {ms : List Mark} {ow : Option Nat} (h1 : ∀ x m, c.loc t ≠ .crit x m)
    (h2 : ∀ x m, l ≠ .crit x m) (how : (ow = c.owner ∧ ∀ x o, l ≠ .leave x o) ∨ (c.owner = some t ∧ ∀ x o, l ≠ .leave x o))
    (hl : LocInv pc t q x l) (hms : Marked t (L ++ ms) x) (ho : ∀ u, u ≠ t → Marked u (L ++ ms) (sts u)) (hn : effects ms = [])
    (hp : sts t = x ∨ ¬ Pend (sts t)) : CInv pc I s0 { c.go t l with owner := ow } (L ++ ms) (setStage sts t x) q := by
  have hu : ∀ u, u ≠ t → (c.go t l).loc u = c.loc u := fun u hu => go_other c l hu
  refine ⟨fun u => ?_, ?_, h.reach, h.inited, fun hb => ?_, fun u x m e => ?_, fun u e => ?_, fun u => ?_, fun i => ?_⟩
  · unfold setStage
    by_cases e : u = t
    · subst e; rw [if_pos rfl]; exact hms
    · rw [if_neg e]; exact ho u e
  · rw [effects_append, hn, List.append_nil]; exact h.run
  · refine h.base fun u y m e => ?_
    by_cases hut : u = t
    · subst hut; exact h1 y m e
    · exact hb u y m ((hu u hut).trans e)
  · by_cases hut : u = t
    · subst hut; exact absurd ((go_same c u l).symm.trans e) (h2 x m)
    · exact h.crit u x m ((hu u hut).symm.trans e)
  · have e' : (∃ x m, c.loc u = .crit x m) ∨ ∃ x o, c.loc u = .leave x o := by
      by_cases hut : u = t
      · subst hut
        rcases e with ⟨x, m, e⟩ | ⟨x, o, e⟩
        · exact absurd ((go_same c u l).symm.trans e) (h2 x m)
        · rcases how with ⟨_, b⟩ | ⟨_, b⟩ <;> exact absurd ((go_same c u l).symm.trans e) (b x o)
      · rcases e with ⟨x, m, e⟩ | ⟨x, o, e⟩
        · exact Or.inl ⟨x, m, (hu u hut).symm.trans e⟩
        · exact Or.inr ⟨x, o, (hu u hut).symm.trans e⟩
    have o1 := h.owner u e'
    rcases how with ⟨a, b⟩ | ⟨a, b⟩
    · exact a.trans o1
    · rw [a] at o1
      have : t = u := Option.some.inj o1
      subst this
      rcases e with ⟨x, m, e⟩ | ⟨x, o, e⟩
      · exact absurd ((go_same c t l).symm.trans e) (h2 x m)
      · exact absurd ((go_same c t l).symm.trans e) (b x o)
  · unfold setStage
    by_cases hut : u = t
    · subst hut; rw [if_pos rfl]; show LocInv pc u q x ((c.go u l).loc u); rw [go_same]; exact hl
    · rw [if_neg hut]; show LocInv pc u q (sts u) ((c.go t l).loc u); rw [hu u hut]; exact h.loc u
  · rcases h.errno i with e | ⟨a, b⟩
    · exact Or.inl e
    · refine Or.inr ⟨a, ?_⟩
      unfold setStage
      split
      · rename_i e
        rw [e] at b
        rcases hp with hp | hp
        · rw [← hp]; exact b
        · exact absurd b hp
      · exact b

theorem setStage_self (st : Nat → Stage) (t : Nat) : setStage st t (st t) = st := by
  funext u; unfold setStage; split
  · rename_i h; rw [h]
  · rfl

/-- A silent step outside of critical sections. -/
theorem CInv.silent (h : CInv pc I s0 c L sts q) {l0 l : Loc I.μ} (e : c.loc t = l0) (h1 : l0.Out) (h2 : l.Out)
    (hl : LocInv pc t q (sts t) l) : CInv pc I s0 (c.go t l) L sts q := by
  have := h.move (t := t) (l := l) (x := sts t) (ms := []) (ow := c.owner) (fun x m => by rw [e]; exact h1.crit x m) h2.crit (Or.inl ⟨rfl, h2.leave⟩) hl (by rw [List.append_nil]; exact h.marked t)
    (fun u _ => by rw [List.append_nil]; exact h.marked u) rfl (Or.inl rfl)
  rw [List.append_nil, setStage_self] at this
  exact this

/-- A call or a return. -/
theorem CInv.event (h : CInv pc I s0 c L sts q) {l0 l : Loc I.μ} {x : Stage} {m : Mark} (e : c.loc t = l0) (h1 : l0.Out) (h2 : l.Out)
    (hl : LocInv pc t q x l) (hm : Marked t (L ++ [m]) x) (ht : m.task = t) (hn : effects [m] = []) (hp : ¬ Pend (sts t)) :
    CInv pc I s0 (c.go t l) (L ++ [m]) (setStage sts t x) q :=
  h.move (t := t) (l := l) (x := x) (ms := [m]) (ow := c.owner) (fun x m => by rw [e]; exact h1.crit x m) h2.crit (Or.inl ⟨rfl, h2.leave⟩) hl hm
    (fun u hu => .other (fun h => hu (h.symm.trans ht)) (h.marked u)) hn (Or.inr hp)

/-- The release of the mutex. -/
theorem CInv.unlock (h : CInv pc I s0 c L sts q) {l : Loc I.μ} {x : Section} {o : Out} (h0 : c.loc t = .leave x o) (h2 : l.Out)
    (hl : LocInv pc t q (sts t) l) : CInv pc I s0 { c.go t l with owner := none } L sts q := by
  have := h.move (t := t) (l := l) (x := sts t) (ms := []) (ow := none) (fun x m e => by rw [h0] at e; cases e) h2.crit (Or.inr ⟨h.owner t (Or.inr ⟨x, o, h0⟩), h2.leave⟩) hl (by rw [List.append_nil]; exact h.marked t)
    (fun u _ => by rw [List.append_nil]; exact h.marked u) rfl (Or.inl rfl)
  rw [List.append_nil, setStage_self] at this
  exact this

/-- The end of a critical section in which no call takes effect. -/
theorem CInv.quiet (h : CInv pc I s0 c L sts q) {x : Section} {m : I.μ} {o : Out} {s' : PSt} (h0 : c.loc t = .crit x m)
    (hs : s' = withErr (errOf c.s) c.s.gerrno q) (hl : LeaveInv pc t q (sts t) x o) : CInv pc I s0 { c.go t (.leave x o) with s := s' } L sts q := by
  have hw := h.owner t (Or.inl ⟨x, m, h0⟩)
  have hs1 : errOf s' = errOf c.s := by rw [hs]; rfl
  have hs2 : s'.gerrno = c.s.gerrno := by rw [hs]; rfl
  have hu : ∀ u, u ≠ t → (c.go t (.leave x o)).loc u = c.loc u := fun u hu => go_other c _ hu
  refine ⟨h.marked, h.run, h.reach, h.inited, fun _ => ?_, fun u y m' e => ?_, fun u e => ?_, fun u => ?_, fun i => ?_⟩
  · show s' = withErr (errOf s') s'.gerrno q
    rw [hs1, hs2]; exact hs
  · by_cases hut : u = t
    · subst hut; rw [show (c.go u (.leave x o)).loc u = _ from go_same c u _] at e; cases e
    · exact absurd ((hu u hut).symm.trans e) ((h.alone hw hut).1 y m')
  · by_cases hut : u = t
    · subst hut; exact hw
    · refine h.owner u ?_
      rcases e with ⟨y, m, e⟩ | ⟨y, o, e⟩
      · exact Or.inl ⟨y, m, (hu u hut).symm.trans e⟩
      · exact Or.inr ⟨y, o, (hu u hut).symm.trans e⟩
  · by_cases hut : u = t
    · subst hut; show LocInv pc u q (sts u) ((c.go u (.leave x o)).loc u); rw [go_same]; exact hl
    · show LocInv pc u q (sts u) ((c.go t (.leave x o)).loc u); rw [hu u hut]; exact h.loc u
  · show (s'.slot i).errno = _ ∨ _
    rw [show (s'.slot i).errno = (c.s.slot i).errno from congrFun hs1 i]; exact h.errno i

/-- Before its effect a call has no error code to be written; task 0 does not exist. -/
theorem CInv.zero (h : CInv pc I s0 c L sts q) : ¬ Pend (sts 0) := by
  have := h.loc 0
  rintro ⟨k, e, a, b⟩
  rw [a] at this
  generalize hl : c.loc 0 = l at this
  cases l with
  | idle => cases this
  | called => cases this.1
  | want x => cases x with
    | main => cases this.1
    | find => rcases this.2 with h | h; exacts [h.2.1 rfl, h.2.1.task rfl]
    | reg => rcases this.2 with h | h; exacts [h.2.1 rfl, h.2.1.task rfl]
  | crit x => cases x with
    | main => cases this.1
    | find => rcases this.2 with h | h; exacts [h.2.1 rfl, h.2.1.task rfl]
    | reg => rcases this.2 with h | h; exacts [h.2.1 rfl, h.2.1.task rfl]
  | leave x o => cases x with
    | main => obtain ⟨r, _, h⟩ := this; exact h.2.1 rfl
    | find =>
      obtain ⟨io, _, h⟩ := this
      cases io with
      | some i => exact h.2.1 rfl
      | none => rcases h.2 with h | h; exacts [h.2.1 rfl, h.2.1.task rfl]
    | reg => obtain ⟨r, _, h⟩ := this; exact h.2.1 rfl
  | ret => rcases this with h | h; exacts [h.2.1 rfl, h.2.1.task rfl]
  | eread => rcases this.2 with h | h; exacts [h.2.1 rfl, h.2.1.task rfl]
  | put => exact this.2.1 rfl

/-- The end of a critical section in which the call takes effect. -/
theorem CInv.lin (h : CInv pc I s0 c L sts q) {k : PCall} {x : Section} {m : I.μ} {o : Out} {s' : PSt} {r : Except Err PReply} (h0 : c.loc t = .crit x m)
    (hp : Permitted pc t k q) (hb : sts t = .before k) (he : pexec pc t k q = (r, q')) (hE : SlotEff pc t q q') (hin : q'.inited = true)
    (hr : (¬ ∃ e, r = .error e ∧ setsErrno k = true) → errOf q' = errOf q)
    (hs : s' = withErr (errOf c.s) c.s.gerrno q') (hl : LeaveInv pc t q' (.after k r) x o) :
    CInv pc I s0 { c.go t (.leave x o) with s := s' } (L ++ [.lin t k r]) (setStage sts t (.after k r)) q' := by
  have hw := h.owner t (Or.inl ⟨x, m, h0⟩)
  have hs1 : errOf s' = errOf c.s := by rw [hs]; rfl
  have hs2 : s'.gerrno = c.s.gerrno := by rw [hs]; rfl
  have hu : ∀ u, u ≠ t → (c.go t (.leave x o)).loc u = c.loc u := fun u hu => go_other c _ hu
  have R : PRun pc q [⟨t, k, r⟩] q' := by
    have := PRun.call (PRun.nil (pc := pc) (s0 := q)) hp
    rw [he] at this; exact this
  refine ⟨fun u => ?_, ?_, h.reach.run R, hin, fun _ => ?_, fun u y m' e => ?_, fun u e => ?_, fun u => ?_, fun i => ?_⟩
  · unfold setStage
    by_cases e : u = t
    · subst e; rw [if_pos rfl]
      have := h.marked u; rw [hb] at this
      exact .lin this
    · rw [if_neg e]; exact .other (fun h => e h.symm) (h.marked u)
  · rw [effects_append]; exact h.run.trans R
  · show s' = withErr (errOf s') s'.gerrno q'
    rw [hs1, hs2]; exact hs
  · by_cases hut : u = t
    · subst hut; rw [show (c.go u (.leave x o)).loc u = _ from go_same c u _] at e; cases e
    · exact absurd ((hu u hut).symm.trans e) ((h.alone hw hut).1 y m')
  · by_cases hut : u = t
    · subst hut; exact hw
    · refine h.owner u ?_
      rcases e with ⟨y, m, e⟩ | ⟨y, o, e⟩
      · exact Or.inl ⟨y, m, (hu u hut).symm.trans e⟩
      · exact Or.inr ⟨y, o, (hu u hut).symm.trans e⟩
  · unfold setStage
    by_cases hut : u = t
    · subst hut; rw [if_pos rfl]; show LocInv pc u q' _ ((c.go u (.leave x o)).loc u); rw [go_same]; exact hl
    · rw [if_neg hut]; show LocInv pc u q' (sts u) ((c.go t (.leave x o)).loc u); rw [hu u hut]; exact (h.loc u).other hE hut
  · show (s'.slot i).errno = _ ∨ _
    rw [show (s'.slot i).errno = (c.s.slot i).errno from congrFun hs1 i]
    have hnp : ¬ Pend (sts t) := by rw [hb]; rintro ⟨_, _, a, _⟩; cases a
    -- was it pending?
    by_cases hi : i < pc.tasks
    · by_cases htk : (q'.slot i).task = t
      · by_cases hx : ∃ e, r = .error e ∧ setsErrno k = true
        · refine Or.inr ⟨hi, ?_⟩
          obtain ⟨e, a, b⟩ := hx
          rw [htk]; unfold setStage; rw [if_pos rfl]
          exact ⟨k, e, by rw [a], b⟩
        · left
          rw [show (q'.slot i).errno = (q.slot i).errno from congrFun (hr hx) i]
          rcases h.errno i with e | ⟨_, b⟩
          · exact e
          · exfalso
            by_cases hz : (q.slot i).task = 0
            · rw [hz] at b; exact h.zero b
            · rw [← hE.keep i hi hz, htk] at b; exact hnp b
      · have hee := hE.errno i (Or.inr htk)
        rw [hee]
        rcases h.errno i with e | ⟨_, b⟩
        · exact Or.inl e
        · by_cases hz : (q.slot i).task = 0
          · rw [hz] at b; exact absurd b h.zero
          · refine Or.inr ⟨hi, ?_⟩
            rw [hE.keep i hi hz] at htk ⊢
            unfold setStage; rw [if_neg htk]; exact b
    · rw [hE.errno i (Or.inl (by omega))]
      rcases h.errno i with e | ⟨a, _⟩
      · exact Or.inl e
      · exact absurd a hi

/-- The assignment of an error code, and the return of the function. -/
theorem CInv.written (hc : pc.Ok) (h : CInv pc I s0 c L sts q) {k : PCall} {e : Err} {io : Option Nat} {s' : PSt} (h0 : c.loc t = .put k e io)
    (hs : ∀ z, c.s = withErr (errOf c.s) c.s.gerrno z → s' = withErr (errOf s') s'.gerrno z)
    (hio : ∀ j, (s'.slot j).errno = if io = some j then some e else (c.s.slot j).errno) :
    CInv pc I s0 { c.go t .idle with s := s' } (L ++ [.res t k (.error e)]) (setStage sts t .none) q := by
  have hl := h.loc t
  rw [h0] at hl
  obtain ⟨w1, w2, w3, w4⟩ := hl
  have hu : ∀ u, u ≠ t → (c.go t .idle).loc u = c.loc u := fun u hu => go_other c _ hu
  have hcr : ∀ u y m, (c.go t .idle).loc u = .crit y m → c.loc u = .crit y m := by
    intro u y m e
    by_cases hut : u = t
    · subst hut; rw [go_same] at e; cases e
    · exact (hu u hut).symm.trans e
  refine ⟨fun u => ?_, ?_, h.reach, h.inited, fun hb => ?_, fun u y m' e => ?_, fun u e => ?_, fun u => ?_, fun i => ?_⟩
  · unfold setStage
    by_cases e : u = t
    · subst e; rw [if_pos rfl]
      have := h.marked u; rw [w1] at this
      exact .res this
    · rw [if_neg e]; exact .other (fun h => e h.symm) (h.marked u)
  · rw [effects_append]
    have : effects [Mark.res t k (.error e)] = [] := rfl
    rw [this, List.append_nil]; exact h.run
  · refine hs q (h.base fun u y m e' => ?_)
    by_cases hut : u = t
    · subst hut; rw [h0] at e'; cases e'
    · exact hb u y m ((hu u hut).trans e')
  · obtain ⟨a, q1, b, d⟩ := h.crit u y m' (hcr u y m' e)
    exact ⟨a, q1, b, hs q1 d⟩
  · refine h.owner u ?_
    rcases e with ⟨y, m, e⟩ | ⟨y, o, e⟩
    · exact Or.inl ⟨y, m, hcr u y m e⟩
    · refine Or.inr ⟨y, o, ?_⟩
      by_cases hut : u = t
      · subst hut; rw [show (c.go u .idle).loc u = _ from go_same c u _] at e; cases e
      · exact (hu u hut).symm.trans e
  · unfold setStage
    by_cases hut : u = t
    · subst hut; rw [if_pos rfl]; show LocInv pc u q _ ((c.go u .idle).loc u); rw [go_same]; rfl
    · rw [if_neg hut]; show LocInv pc u q (sts u) ((c.go t .idle).loc u); rw [hu u hut]; exact h.loc u
  · show (s'.slot i).errno = _ ∨ _
    rw [hio i]
    split
    · rename_i e1
      subst e1
      exact Or.inl w4.2.2.symm
    · rename_i e1
      rcases h.errno i with e2 | ⟨a, b⟩
      · exact Or.inl e2
      · refine Or.inr ⟨a, ?_⟩
        unfold setStage
        rw [if_neg]; exact b
        intro hti
        cases io with
        | none => exact (w4.2 i a).1 hti
        | some j => exact e1 (by rw [((h.reach.inv hc).task h.inited j i w4.1 a (w4.2.1.trans hti.symm) (by rw [w4.2.1]; exact w2))])

set_option maxHeartbeats 400000 in
/-- Every step keeps the invariant. -/
theorem CInv.step (hc : pc.Ok) (hm : pc.tasks ≠ 1) (hI : I.Ok pc) (h : CInv pc I s0 c L sts q) {l : List Label} (hst : CStep pc I c l c') :
    ∃ ms sts' q', observed ms = l ∧ CInv pc I s0 c' (L ++ ms) sts' q' := by
  have stay : ∀ {c1 : CSt I.μ}, CInv pc I s0 c1 L sts q → ∃ ms sts' q', observed ms = [] ∧ CInv pc I s0 c1 (L ++ ms) sts' q' :=
    fun h => ⟨[], sts, q, rfl, by rw [List.append_nil]; exact h⟩
  cases hst with
  | @call t k e h0 h1 h2 h3 h4 =>
    have hl := h.loc t; rw [e] at hl
    have hl : sts t = .none := hl
    refine ⟨[.inv t k], setStage sts t (.before k), q, rfl, ?_⟩
    refine h.event (l := .called k) e trivial trivial ⟨rfl, h0, h1, h2, h3, h4⟩ ?_ rfl rfl ?_
    · have := h.marked t; rw [hl] at this; exact .inv this
    · rw [hl]; rintro ⟨_, _, a, _⟩; cases a
  | @early t k e h0 =>
    have hl := h.loc t; rw [e] at hl
    exact stay (h.silent (l := .ret k (.error .einval)) e trivial trivial (Or.inr ⟨hl.1, hl.2, h0, rfl⟩))
  | @enter t k e h0 h1 =>
    have hl := h.loc t; rw [e] at hl
    exact stay (h.silent (l := .want (.main k)) e trivial trivial ⟨hl.1, hl.2, h0⟩)
  | refuse e h0 h1 => rw [h.up hI] at h1; cases h1
  | @acquire t x e h0 h1 =>
    have hno : ∀ u x m, c.loc u ≠ .crit x m := fun u x m e => by
      have := h.owner u (Or.inl ⟨x, m, e⟩); rw [h0] at this; cases this
    have hb := h.base hno
    have hu : ∀ u, u ≠ t → (c.go t (.crit x (I.start t x))).loc u = c.loc u := fun u hu => go_other c _ hu
    have hl := h.loc t; rw [e] at hl
    refine stay ⟨h.marked, h.run, h.reach, h.inited, fun hb => ?_, fun u y m' e' => ?_, fun u e' => ?_, fun u => ?_, h.errno⟩
    · exact absurd (go_same c t _) (hb t x (I.start t x))
    · by_cases hut : u = t
      · subst hut
        have e' := (go_same c u _).symm.trans e'
        cases e'
        refine ⟨fun k hk => ?_, q, .refl, hb⟩
        have hp := h1 k hk
        refine ⟨hp.1, hp.2.1, hp.2.2.1, fun vol hv i hi => ?_⟩
        have := hp.2.2.2 vol hv i hi
        rw [hb] at this; exact this
      · exact absurd ((hu u hut).symm.trans e') (hno u y m')
    · by_cases hut : u = t
      · subst hut; rfl
      · exfalso
        rcases e' with ⟨y, m, e'⟩ | ⟨y, o, e'⟩
        · exact hno u y m ((hu u hut).symm.trans e')
        · have := h.owner u (Or.inr ⟨y, o, (hu u hut).symm.trans e'⟩); rw [h0] at this; cases this
    · by_cases hut : u = t
      · subst hut; show LocInv pc u q (sts u) ((c.go u (.crit x (I.start u x))).loc u); rw [go_same]; exact hl
      · show LocInv pc u q (sts u) ((c.go t (.crit x (I.start t x))).loc u); rw [hu u hut]; exact h.loc u
  | @micro t x m m' s' e h0 =>
    have hw := h.owner t (Or.inl ⟨x, m, e⟩)
    obtain ⟨p, q1, a, b⟩ := h.crit t x m e
    have hb := hI.blind m (errOf c.s) c.s.gerrno q1
    rw [← b, h0] at hb
    obtain ⟨b1, b2⟩ := Prod.mk.inj hb
    have e1 : I.step m q1 = (.inl m', (I.step m q1).2) := Prod.ext b1.symm rfl
    have hs1 : errOf s' = errOf c.s := by rw [b2]; rfl
    have hs2 : s'.gerrno = c.s.gerrno := by rw [b2]; rfl
    have hu : ∀ u, u ≠ t → (c.go t (.crit x m')).loc u = c.loc u := fun u hu => go_other c _ hu
    have hl := h.loc t; rw [e] at hl
    refine stay ⟨h.marked, h.run, h.reach, h.inited, fun hb => ?_, fun u y m' e' => ?_, fun u e' => ?_, fun u => ?_, fun i => ?_⟩
    · exact absurd (go_same c t _) (hb t x m')
    · by_cases hut : u = t
      · subst hut
        have e' := (go_same c u _).symm.trans e'
        cases e'
        refine ⟨p, _, .next a e1, ?_⟩
        show s' = withErr (errOf s') s'.gerrno _
        rw [hs1, hs2]; exact b2
      · exact absurd ((hu u hut).symm.trans e') ((h.alone hw hut).1 y m')
    · by_cases hut : u = t
      · subst hut; exact hw
      · refine h.owner u ?_
        rcases e' with ⟨y, m, e'⟩ | ⟨y, o, e'⟩
        · exact Or.inl ⟨y, m, (hu u hut).symm.trans e'⟩
        · exact Or.inr ⟨y, o, (hu u hut).symm.trans e'⟩
    · by_cases hut : u = t
      · subst hut; show LocInv pc u q (sts u) ((c.go u (.crit x m')).loc u); rw [go_same]; exact hl
      · show LocInv pc u q (sts u) ((c.go t (.crit x m')).loc u); rw [hu u hut]; exact h.loc u
    · show (s'.slot i).errno = _ ∨ _
      rw [show (s'.slot i).errno = (c.s.slot i).errno from congrFun hs1 i]; exact h.errno i
  | @finish t x m o s' e h0 =>
    obtain ⟨p, q1, a, b⟩ := h.crit t x m e
    have hb := hI.blind m (errOf c.s) c.s.gerrno q1
    rw [← b, h0] at hb
    obtain ⟨b1, b2⟩ := Prod.mk.inj hb
    have e1 : I.step m q1 = (.inr o, (I.step m q1).2) := Prod.ext b1.symm rfl
    have hl := h.loc t; rw [e] at hl
    have hl : SecInv pc t q (sts t) x := hl
    obtain ⟨m2, s2, r1, r2⟩ := hI.runs t x q h.reach h.inited (fun k hk => by
      subst hk; exact ⟨p k rfl, hl.2.1.init, hl.2.1.uninit⟩)
    obtain ⟨u1, u2⟩ := a.end_unique r1 e1 r2
    rw [u2] at b2
    clear b1 e1 r1 r2 u2 a b hb
    cases x with
    | main k =>
      obtain ⟨l1, l2, l3⟩ := hl
      rcases hx : (do let _ ← taskRegister pc t; body pc t k : PM PReply) q with ⟨r, q2⟩
      have h1 : sec pc t (.main k) q = (.reply r, q2) := by simp only [sec]; rw [hx]
      rw [h1] at u1 b2
      obtain ⟨q', x1, x2, x3, x4, x5⟩ := lin_main hm h.inited l2.init l2.uninit l3 hx
      refine ⟨[.lin t k r], _, q', rfl, h.lin e (p k rfl) l1 x1 x2 (x2.inited.trans h.inited) x5 (by rw [x3]; exact b2) ?_⟩
      exact ⟨r, u1, rfl, l2.task, x4⟩
    | find k er =>
      have h1 : sec pc t (.find k er) q = (.idx (taskIdx pc t q), q) := rfl
      rw [h1] at u1 b2
      obtain ⟨l1, l2⟩ := hl
      cases hx : taskIdx pc t q with
      | none =>
        rw [hx] at u1
        refine stay (h.quiet e b2 ⟨none, u1, l1, ?_⟩)
        rcases l2 with d | d
        · refine Or.inl ⟨d.1, d.2.1, ?_⟩
          rcases d.2.2 er rfl l1 with ⟨i, y1, y2, _⟩ | y
          · exact absurd y2 (taskIdx_none hx i y1)
          · exact y
        · exact Or.inr d
      | some i =>
        rw [hx] at u1
        rcases l2 with d | d
        · refine stay (h.quiet e b2 ⟨some i, u1, d.1, d.2.1, l1, ?_⟩)
          obtain ⟨y1, y2⟩ := taskIdx_some hx
          refine ⟨y1, y2, ?_⟩
          rcases d.2.2 er rfl l1 with ⟨j, z1, z2, z3⟩ | y
          · rw [(h.reach.inv hc).task h.inited i j y1 z1 (y2.trans z2.symm) (by rw [y2]; exact d.2.1)]; exact z3
          · exact absurd y2 (y.2 i y1).1
        · obtain ⟨d1, d2, d3, d4⟩ := d
          cases d4
          obtain ⟨q', x1, x2, x3, x4⟩ := lin_find (k := k) hm h.inited d3 hx
          refine ⟨[.lin t k (.error .einval)], _, q', rfl, h.lin e ⟨d2.task, d2.ok, d2.cwd, fun vol hv => ?_⟩ d1 x1 x2 (x2.inited.trans h.inited) (fun hn => absurd ⟨_, rfl, l1⟩ hn) (by rw [x3]; exact b2) ?_⟩
          · subst hv; cases d3
          · exact ⟨some i, u1, rfl, d2.task, l1, x4⟩
    | reg k er =>
      obtain ⟨l1, l2⟩ := hl
      rcases l2 with ⟨d1, d2, d3⟩ | ⟨d1, d2, d3, d4⟩
      · have h1 : sec pc t (.reg k er) q = (.idx none, q) := by
          simp only [sec]
          rcases reg_cases hm t q with ⟨_, _, r⟩ | ⟨i, a, b, _⟩ | ⟨i, _, a, b, _⟩
          · rw [r]
          · exact absurd b (d3.2 i a).1
          · exact absurd b (d3.2 i a).2
        rw [h1] at u1 b2
        exact stay (h.quiet e b2 ⟨none, u1, d1, d2, l1, d3⟩)
      · cases d4
        obtain ⟨q', x1, x2, x3, io, x4, x5⟩ := lin_reg (k := k) hm h.inited d3 d2.task
        refine ⟨[.lin t k (.error .einval)], _, q', rfl, h.lin e ⟨d2.task, d2.ok, d2.cwd, fun vol hv => ?_⟩ d1 x1 x2 (x2.inited.trans h.inited) (fun hn => absurd ⟨_, rfl, l1⟩ hn) (by rw [x3]; exact b2) ?_⟩
        · subst hv; cases d3
        · exact ⟨io, u1.trans x4, rfl, d2.task, l1, x5⟩
  | @release t x o e =>
    have hl := h.loc t; rw [e] at hl
    have hl : LeaveInv pc t q (sts t) x o := hl
    cases x with
    | main k => obtain ⟨r, rfl, d⟩ := hl; exact stay (h.unlock (l := .ret k r) e trivial (Or.inl d))
    | find k er =>
      obtain ⟨io, rfl, d⟩ := hl
      cases io with
      | none => exact stay (h.unlock (l := .want (.reg k er)) e trivial d)
      | some i => exact stay (h.unlock (l := .put k er (some i)) e trivial d)
    | reg k er => obtain ⟨io, rfl, d⟩ := hl; exact stay (h.unlock (l := .put k er io) e trivial d)
  | @retOk t k v e =>
    have hl := h.loc t; rw [e] at hl
    rcases hl with d | d
    · refine ⟨[.res t k (.ok v)], setStage sts t .none, q, rfl, ?_⟩
      refine h.event (l := .idle) e trivial trivial rfl ?_ rfl rfl ?_
      · have := h.marked t; rw [d.1] at this; exact .res this
      · rw [d.1]; rintro ⟨_, _, a, _⟩; cases a
    · cases d.2.2.2
  | @retVoid t k er e h0 =>
    have hl := h.loc t; rw [e] at hl
    rcases hl with d | d
    · refine ⟨[.res t k (.error er)], setStage sts t .none, q, rfl, ?_⟩
      refine h.event (l := .idle) e trivial trivial rfl ?_ rfl rfl ?_
      · have := h.marked t; rw [d.1] at this; exact .res this
      · rw [d.1]; rintro ⟨_, _, a, b⟩; cases a; rw [h0] at b; cases b
    · have := d.2.2.1
      cases k <;> first | cases this | cases h0
  | @retErr t k er e h0 =>
    have hl := h.loc t; rw [e] at hl
    exact stay (h.silent (l := .eread k er) e trivial trivial ⟨h0, hl⟩)
  | @eread t k er e h0 =>
    have hl := h.loc t; rw [e] at hl
    exact stay (h.silent (l := .want (.find k er)) e trivial trivial hl)
  | eglobal e h0 => rw [h.up hI] at h0; cases h0
  | @putSlot t k er i e =>
    refine ⟨[.res t k (.error er)], _, q, rfl, h.written hc e (fun z hz => ?_) (fun j => ?_)⟩
    · generalize he : c.s.setSlot i { c.s.slot i with errno := some er } = s'
      have h1 : ∀ a b, withErr a b s' = withErr a b c.s := fun a b => by rw [← he, withErr_setSlot]
      calc s' = withErr (errOf s') s'.gerrno s' := rfl
        _ = withErr (errOf s') s'.gerrno c.s := h1 _ _
        _ = _ := by rw [hz]; rfl
    · rw [setSlot_slot]
      by_cases hj : j = i
      · rw [if_pos hj, if_pos (by rw [hj])]
      · rw [if_neg hj, if_neg (by intro h; exact hj (Option.some.inj h).symm)]
  | @putGlobal t k er e =>
    refine ⟨[.res t k (.error er)], _, q, rfl, h.written hc e (fun z hz => ?_) (fun j => by rw [if_neg nofun])⟩
    calc { c.s with gerrno := some er } = withErr (errOf c.s) (some er) c.s := rfl
      _ = _ := by rw [hz]; rfl

theorem CInv.init (h0 : PReach pc s0) (hin : s0.inited = true) : CInv pc I s0 (CSt.rest I.μ s0) [] (fun _ => .none) s0 :=
  ⟨fun _ => .nil, .nil, h0, hin, fun _ => rfl, nofun, (fun t h => by rcases h with ⟨_, _, h⟩ | ⟨_, _, h⟩ <;> cases h), fun _ => rfl, fun _ => Or.inl rfl⟩

theorem CRun.inv (hc : pc.Ok) (hm : pc.tasks ≠ 1) (hI : I.Ok pc) (h0 : PReach pc s0) (hin : s0.inited = true) {tr : List Label} (h : CRun pc I (CSt.rest I.μ s0) tr c) :
    ∃ L sts q, observed L = tr ∧ CInv pc I s0 c L sts q := by
  induction h with
  | nil => exact ⟨[], _, s0, rfl, CInv.init h0 hin⟩
  | step _ hs ih =>
    obtain ⟨L, sts, q, a, b⟩ := ih
    obtain ⟨ms, sts', q', x, y⟩ := b.step hc hm hI hs
    exact ⟨L ++ ms, sts', q', by rw [observed_append, a, x], y⟩

/-! ### Error codes -/

/-- What any call does to the slots. -/
theorem pexec_eff (hm : pc.tasks ≠ 1) {k : PCall} (ht : t ≠ 0) (hin : q.inited = true) (hki : k ≠ .init) (hku : k ≠ .uninit) {r : Except Err PReply}
    (he : pexec pc t k q = (r, q')) : SlotEff pc t q q' ∧ (∀ e, r = .error e → setsErrno k = true → Stored pc t e q') ∧
      ((¬ ∃ e, r = .error e ∧ setsErrno k = true) → errOf q' = errOf q) := by
  by_cases hx : early k = true
  · obtain ⟨z, x1, x2, x3, io, x4, x5⟩ := lin_reg (k := k) hm hin hx ht
    rw [he] at x1
    obtain ⟨rfl, rfl⟩ := Prod.mk.inj x1
    have hs : setsErrno k = true := by cases k <;> first | rfl | cases hx
    refine ⟨x2, fun e h _ => ?_, fun h => absurd ⟨_, rfl, hs⟩ h⟩
    cases h
    cases io with
    | some i => exact Or.inl ⟨i, x5⟩
    | none => exact Or.inr x5
  · rcases h : (do let _ ← taskRegister pc t; body pc t k : PM PReply) q with ⟨r1, q1⟩
    obtain ⟨z, x1, x2, x3, x4, x5⟩ := lin_main hm hin hki hku (by simpa using hx) h
    rw [he] at x1
    obtain ⟨rfl, rfl⟩ := Prod.mk.inj x1
    exact ⟨x2, x4, x5⟩

/-- The error code of a call is stored until the next error of the task. -/
theorem PRun.stored (hc : pc.Ok) (hm : pc.tasks ≠ 1) (h0 : PReach pc s0) (hin : s0.inited = true) {tr : List PEv} (h : PRun pc s0 tr q)
    (hni : ∀ ev ∈ tr, ev.call ≠ .init ∧ ev.call ≠ .uninit) {a b : List PEv} {k : PCall} {e : Err} (htr : tr = a ++ ⟨t, k, .error e⟩ :: b) (hs : setsErrno k = true)
    (hb : ∀ ev ∈ b, ev.task ≠ t ∨ (∃ v, ev.res = .ok v) ∨ setsErrno ev.call = false) : q.inited = true ∧ t ≠ 0 ∧ Stored pc t e q := by
  have hall : ∀ {tr q}, PRun pc s0 tr q → (∀ ev ∈ tr, ev.call ≠ .init ∧ ev.call ≠ .uninit) → q.inited = true := by
    intro tr q h hni
    induction h with
    | nil => exact hin
    | @call tr s u k h hp ih =>
      have i1 := ih fun ev hev => hni ev (List.mem_append_left _ hev)
      have hk := hni _ (List.mem_append_right _ (List.mem_singleton_self _))
      exact (pexec_eff (r := (pexec pc u k s).1) (q' := (pexec pc u k s).2) hm hp.1 i1 hk.1 hk.2 rfl).1.inited.trans i1
  refine ⟨hall h hni, ?_⟩
  clear hall
  induction h generalizing b with
  | nil => simp at htr
  | @call tr s u k' h hp ih =>
    have i1 : s.inited = true := by
      have : ∀ {tr q}, PRun pc s0 tr q → (∀ ev ∈ tr, ev.call ≠ .init ∧ ev.call ≠ .uninit) → q.inited = true := by
        intro tr q h hni
        induction h with
        | nil => exact hin
        | @call tr s u k h hp ih =>
          have i1 := ih fun ev hev => hni ev (List.mem_append_left _ hev)
          have hk := hni _ (List.mem_append_right _ (List.mem_singleton_self _))
          exact (pexec_eff (r := (pexec pc u k s).1) (q' := (pexec pc u k s).2) hm hp.1 i1 hk.1 hk.2 rfl).1.inited.trans i1
      exact this h fun ev hev => hni ev (List.mem_append_left _ hev)
    have hk := hni _ (List.mem_append_right _ (List.mem_singleton_self _))
    obtain ⟨E, E1, E2⟩ := pexec_eff (k := k') (r := (pexec pc u k' s).1) (q' := (pexec pc u k' s).2) hm hp.1 i1 hk.1 hk.2 rfl
    rcases List.eq_nil_or_concat b with rfl | ⟨b', x, rfl⟩
    · have := List.append_inj' htr rfl
      have h2 := List.cons.inj this.2
      have h3 := h2.1
      rw [PEv.mk.injEq] at h3
      obtain ⟨rfl, rfl, h3⟩ := h3
      exact ⟨hp.1, E1 e h3 hs⟩
    · have h1 : tr ++ [⟨u, k', (pexec pc u k' s).1⟩] = (a ++ ⟨t, k, .error e⟩ :: b') ++ [x] := by rw [htr]; simp
      have h2 := List.append_inj' h1 rfl
      have hx := (List.cons.inj h2.2).1
      obtain ⟨h0, i2⟩ := ih (fun ev hev => hni ev (List.mem_append_left _ hev)) h2.1 (fun ev hev => hb ev (by simp [hev]))
      refine ⟨h0, ?_⟩
      have hb' := hb x (by simp)
      rw [← hx] at hb'
      dsimp only at hb'
      by_cases hut : u = t
      · subst hut
        have : errOf (pexec pc u k' s).2 = errOf s := E2 (by
          rintro ⟨e', a1, a2⟩
          rcases hb' with x | ⟨v, x⟩ | x
          · exact x rfl
          · rw [a1] at x; cases x
          · rw [a2] at x; cases x)
        rcases i2 with ⟨i, z1, z2, z3⟩ | z
        · refine Or.inl ⟨i, z1, (E.keep i z1 (by rw [z2]; exact h0)).trans z2, (congrFun this i).trans z3⟩
        · exact Or.inr (E.noSlot z)
      · exact E.stored (fun h => hut h.symm) h0 i2

theorem Marked.snoc {st : Stage} {l : List Mark} {m : Mark} (h : Marked t (l ++ [m]) st) :
    (m.task ≠ t ∧ Marked t l st) ∨ (∃ k, m = .inv t k ∧ st = .before k ∧ Marked t l .none) ∨ (∃ k r, m = .lin t k r ∧ st = .after k r ∧ Marked t l (.before k)) ∨
    ∃ k r, m = .res t k r ∧ st = .none ∧ Marked t l (.after k r) := by
  generalize hx : l ++ [m] = x at h
  cases h with
  | nil => simp at hx
  | inv h => have := List.append_inj' hx rfl; obtain ⟨rfl, h2⟩ := this; cases h2; exact Or.inr (Or.inl ⟨_, rfl, rfl, h⟩)
  | lin h => have := List.append_inj' hx rfl; obtain ⟨rfl, h2⟩ := this; cases h2; exact Or.inr (Or.inr (Or.inl ⟨_, _, rfl, rfl, h⟩))
  | res h => have := List.append_inj' hx rfl; obtain ⟨rfl, h2⟩ := this; cases h2; exact Or.inr (Or.inr (Or.inr ⟨_, _, rfl, rfl, h⟩))
  | other h0 h => have := List.append_inj' hx rfl; obtain ⟨rfl, h2⟩ := this; cases h2; exact Or.inl ⟨h0, h⟩

theorem Marked.last {l : List Mark} {k : PCall} {r : Except Err PReply} (h : Marked t l (.after k r)) : ∃ a b, l = a ++ .lin t k r :: b ∧ ∀ m ∈ b, m.task ≠ t := by
  generalize hx : Stage.after k r = x at h
  induction h with
  | nil => cases hx
  | inv => cases hx
  | lin h => cases hx; exact ⟨_, [], rfl, nofun⟩
  | res => cases hx
  | @other l m _ h0 h ih =>
    obtain ⟨a, b, rfl, hb⟩ := ih hx
    refine ⟨a, b ++ [m], by simp, fun x hx => ?_⟩
    rcases List.mem_append.1 hx with hx | hx
    · exact hb x hx
    · rw [List.mem_singleton] at hx; rw [hx]; exact h0

/-- A task that does not call anything does nothing. -/
theorem Marked.rest {l : List Mark} (h0 : ∀ s, Marked t l s → s = .none) : ∀ {b : List Mark} {st : Stage}, Marked t (l ++ b) st → (∀ x ∈ observed b, x.task ≠ t) →
    st = .none ∧ ∀ m ∈ b, m.task ≠ t := by
  intro b
  induction b using List.reverseRecOn with
  | nil => intro st h _; rw [List.append_nil] at h; exact ⟨h0 _ h, nofun⟩
  | append_singleton b m ih =>
    intro st h hb
    rw [observed_append] at hb
    rw [← List.append_assoc] at h
    have hb' : ∀ x ∈ observed b, x.task ≠ t := fun x hx => hb x (List.mem_append_left _ hx)
    have hm : ∀ x ∈ observed [m], x.task ≠ t := fun x hx => hb x (List.mem_append_right _ hx)
    rcases h.snoc with ⟨a, h⟩ | ⟨k, rfl, _, _⟩ | ⟨k, r, rfl, _, h⟩ | ⟨k, r, rfl, _, h⟩
    · obtain ⟨x, y⟩ := ih h hb'
      refine ⟨x, fun z hz => ?_⟩
      rcases List.mem_append.1 hz with hz | hz
      · exact y z hz
      · rw [List.mem_singleton] at hz; rw [hz]; exact a
    · exact absurd rfl (hm (.inv t k) (by simp [observed]))
    · cases (ih h hb').1
    · exact absurd rfl (hm (.res t k r) (by simp [observed]))

theorem observed_split {l : List Mark} {a b : List Label} {k : PCall} {r : Except Err PReply} (h : observed l = a ++ .res t k r :: b) :
    ∃ x y, l = x ++ .res t k r :: y ∧ observed y = b := by
  induction l generalizing a with
  | nil => simp [observed] at h
  | cons m l ih =>
    have skip : ∀ {a'}, observed l = a' ++ .res t k r :: b → ∃ x y, m :: l = x ++ .res t k r :: y ∧ observed y = b := by
      intro a' h
      obtain ⟨x, y, p, q⟩ := ih h
      exact ⟨m :: x, y, by rw [p]; rfl, q⟩
    cases m with
    | lin => exact skip h
    | inv u k' =>
      cases a with
      | nil => simp [observed] at h
      | cons z a => exact skip (List.cons.inj h).2
    | res u k' r' =>
      cases a with
      | nil =>
        obtain ⟨h1, h2⟩ := List.cons.inj h
        cases h1
        exact ⟨[], l, rfl, h2⟩
      | cons z a => exact skip (List.cons.inj h).2

theorem Marked.prefix : ∀ {b a : List Mark} {st : Stage}, Marked t (a ++ b) st → ∃ s, Marked t a s := by
  intro b
  induction b using List.reverseRecOn with
  | nil => intro a st h; rw [List.append_nil] at h; exact ⟨_, h⟩
  | append_singleton b m ih =>
    intro a st h
    rw [← List.append_assoc] at h
    rcases h.snoc with ⟨_, h⟩ | ⟨_, _, _, h⟩ | ⟨_, _, _, _, h⟩ | ⟨_, _, _, _, h⟩ <;> exact ih h

theorem effects_of_task {b : List Mark} (h : ∀ m ∈ b, m.task ≠ t) : ∀ ev ∈ effects b, ev.task ≠ t := by
  induction b with
  | nil => exact nofun
  | cons m b ih =>
    have i1 := ih fun x hx => h x (List.mem_cons_of_mem _ hx)
    have h0 := h m List.mem_cons_self
    cases m with
    | inv => exact i1
    | res => exact i1
    | lin u k r =>
      intro ev hev
      rcases List.mem_cons.1 hev with rfl | hev
      · exact h0
      · exact i1 ev hev

/-- The last effect of a task whose last event is a return. -/
theorem last_effect {L : List Mark} (hm : ∀ u, ∃ st, Marked u L st) {a b : List Label} {k : PCall} {r : Except Err PReply} (h : observed L = a ++ .res t k r :: b)
    (hb : ∀ x ∈ b, x.task ≠ t) : Marked t L .none ∧ ∃ x y, effects L = x ++ ⟨t, k, r⟩ :: y ∧ ∀ ev ∈ y, ev.task ≠ t := by
  obtain ⟨x, y, rfl, hy⟩ := observed_split h
  obtain ⟨st, hst⟩ := hm t
  have e1 : x ++ Mark.res t k r :: y = (x ++ [.res t k r]) ++ y := by simp
  rw [e1] at hst
  have key : ∀ s, Marked t (x ++ [.res t k r]) s → s = .none ∧ Marked t x (.after k r) := by
    intro s h
    rcases h.snoc with ⟨a, h⟩ | ⟨_, a, _, h⟩ | ⟨_, _, a, _, h⟩ | ⟨_, _, a, a', h⟩
    · exact absurd rfl a
    · cases a
    · cases a
    · cases a; exact ⟨a', h⟩
  obtain ⟨s1, h1⟩ := hst.prefix
  obtain ⟨_, h2⟩ := key s1 h1
  obtain ⟨rfl, h3⟩ := Marked.rest (fun s h => (key s h).1) hst (by rw [hy]; exact hb)
  obtain ⟨p, q, rfl, hq⟩ := h2.last
  rw [e1]
  refine ⟨hst, effects p, effects q ++ effects y, ?_, fun ev hev => ?_⟩
  · simp only [effects_append, effects, List.append_assoc, List.cons_append, List.append_nil, List.nil_append]
  · rcases List.mem_append.1 hev with hev | hev
    · exact effects_of_task hq ev hev
    · exact effects_of_task h3 ev hev

theorem Marked.fun {L : List Mark} : ∀ {st st' : Stage}, Marked t L st → Marked t L st' → st = st' := by
  induction L using List.reverseRecOn with
  | nil =>
    have : ∀ {st}, Marked t [] st → st = .none := by
      intro st h
      generalize hx : ([] : List Mark) = x at h
      cases h with
      | nil => rfl
      | _ => simp at hx
    intro st st' h h'; rw [this h, this h']
  | append_singleton L m ih =>
    intro st st' h h'
    rcases h.snoc with ⟨a, h⟩ | ⟨_, rfl, a, h⟩ | ⟨_, _, rfl, a, h⟩ | ⟨_, _, rfl, a, h⟩ <;>
    rcases h'.snoc with ⟨b, h'⟩ | ⟨_, b', b, h'⟩ | ⟨_, _, b', b, h'⟩ | ⟨_, _, b', b, h'⟩ <;>
    first
      | exact ih h h'
      | exact absurd rfl a
      | exact absurd rfl b
      | (subst b'; exact absurd rfl a)
      | (cases b'; rw [a, b])
      | cases b'

theorem Steps.keeps (hI : I.Ok pc) {m m1 : I.μ} {s s1 : PSt} (h : Steps I m s m1 s1) : ∀ i, i < pc.tasks → (s.slot i).task ≠ 0 → (s1.slot i).task = (s.slot i).task := by
  induction h with
  | refl => exact fun _ _ _ => rfl
  | next _ e ih =>
    intro i hi h0
    have h1 := ih i hi h0
    rename_i m3 _ _ s3 _ _
    have := congrArg (fun x : (I.μ ⊕ Out) × PSt => (x.2.slot i).task) e
    dsimp only at this
    rw [hI.keeps _ _ i hi (by rw [h1]; exact h0)] at this
    exact this.symm.trans h1

theorem CInv.keeps (hI : I.Ok pc) (h : CInv pc I s0 c L sts q) : ∀ i, i < pc.tasks → (q.slot i).task ≠ 0 → (c.s.slot i).task = (q.slot i).task := by
  by_cases hx : ∃ t x m, c.loc t = .crit x m
  · obtain ⟨t, x, m, hx⟩ := hx
    obtain ⟨_, q1, a, b⟩ := h.crit t x m hx
    intro i hi h0
    rw [b]
    exact Steps.keeps hI a i hi h0
  · rw [h.base (fun t x m e => hx ⟨t, x, m, e⟩)]
    exact fun _ _ _ => rfl

end
end RedFs.Posix
