import Verif.Model.IoDir
set_option linter.unusedSimpArgs false
set_option linter.unusedVariables false
/-!
Running the functions of `Model/Io*.lean` and those of the other model files side by side: as long as no
device operation fails they do the same, and a device operation that fails ends the operation with EIO in a
state between (in the sense of a relation `R`) the one before the operation and the one in which it would
have ended.
-/
namespace RedFs.Io
open RedFs M

/-- The volume of a state. -/
class HasVol (σ : Type) where
  vol : σ → Vol
open HasVol
instance : HasVol Vol := ⟨id⟩
instance : HasVol DS := ⟨DS.v⟩

/-- Relations considered. -/
structure Keeps (R : Vol → Vol → Prop) : Prop where
  refl : ∀ v, R v v
  trans : ∀ {u v w}, R u v → R v w → R u w
  ro : ∀ v b, R v { v with readOnly := b }
  back : ∀ v b, R { v with readOnly := b } v

variable {R : Vol → Vol → Prop} {σ α β γ : Type} [HasVol σ]

/-- A device operation has failed: `s` was the state before, `t` would have been the final state. -/
structure Hit (R : Vol → Vol → Prop) (s : IS σ) (t : σ) (s' : IS σ) : Prop where
  bad : s'.bad = true
  dev : s'.dev = s.dev
  ro : (vol s'.st).readOnly = true
  fwd : R (vol s.st) (vol s'.st)
  bwd : R (vol s'.st) (vol t)
  some : ∃ i, s.dev.fails i = true

/-- No device operation has failed. -/
def Fine (s : IS σ) (t : σ) (s' : IS σ) : Prop := ∃ m, s' = ⟨t, s.dev, m, false⟩

structure Tame (R : Vol → Vol → Prop) (fI : M (IS σ) α) (f : M σ α) : Prop where
  mono : ∀ s, R (vol s) (vol (f s).2)
  run : ∀ s, s.bad = false →
    (∃ s', fI s = ((f s.st).1, s') ∧ Fine s (f s.st).2 s') ∨ (∃ s', fI s = (.error .eio, s') ∧ Hit R s (f s.st).2 s')

/-- The same for a function that returns a status as a value. -/
structure TameS (R : Vol → Vol → Prop) (st : β → Except Err γ) (fI : M (IS σ) β) (f : M σ β) : Prop where
  mono : ∀ s, R (vol s) (vol (f s).2)
  run : ∀ s, s.bad = false →
    (∃ s', fI s = ((f s.st).1, s') ∧ Fine s (f s.st).2 s') ∨
    (∃ s' x, fI s = (.ok x, s') ∧ st x = .error .eio ∧ Hit R s (f s.st).2 s')

/-- What is done after the failure of a device operation has no effect, and the error is returned. -/
def After (R : Vol → Vol → Prop) (g : M (IS σ) α) : Prop := ∀ s : IS σ, s.bad = true → (vol s.st).readOnly = true →
  ∃ s', g s = (.error .eio, s') ∧ s'.bad = true ∧ s'.dev = s.dev ∧ (vol s'.st).readOnly = true ∧ R (vol s.st) (vol s'.st) ∧ R (vol s'.st) (vol s.st)

theorem Tame.bind (hR : Keeps R) {mI : M (IS σ) α} {m : M σ α} {kI : α → M (IS σ) β} {k : α → M σ β}
    (h : Tame R mI m) (hk : ∀ a, Tame R (kI a) (k a)) : Tame R (mI >>= kI) (m >>= k) := by
  have mono : ∀ s, R (vol (m s).2) (vol ((m >>= k) s).2) := by
    intro s
    rw [run_bind]
    rcases m s with ⟨e | a, t⟩
    · exact hR.refl _
    · exact (hk a).mono t
  refine ⟨fun s => hR.trans (h.mono s) (mono s), fun s hs => ?_⟩
  rcases h.run s hs with ⟨s', e, m', rfl⟩ | ⟨s', e, H⟩
  · rw [run_bind, run_bind, e]
    rcases hm : m s.st with ⟨er | a, t⟩
    · exact Or.inl ⟨_, rfl, m', rfl⟩
    · rcases (hk a).run ⟨t, s.dev, m', false⟩ rfl with ⟨s2, e2, m2, rfl⟩ | ⟨s2, e2, H2⟩
      · exact Or.inl ⟨_, e2, m2, rfl⟩
      · have := h.mono s.st; rw [hm] at this
        exact Or.inr ⟨_, e2, H2.bad, H2.dev, H2.ro, hR.trans this H2.fwd, H2.bwd, H2.some⟩
  · rw [run_bind, e]
    exact Or.inr ⟨s', rfl, H.bad, H.dev, H.ro, H.fwd, hR.trans H.bwd (mono _), H.some⟩

theorem TameS.bind (hR : Keeps R) {st : γ → Except Err δ} {mI : M (IS σ) γ} {m : M σ γ} {kI : γ → M (IS σ) β} {k : γ → M σ β}
    (h : TameS R st mI m) (hk : ∀ a, Tame R (kI a) (k a)) (ha : ∀ x, st x = .error .eio → After R (kI x)) : Tame R (mI >>= kI) (m >>= k) := by
  have mono : ∀ s, R (vol (m s).2) (vol ((m >>= k) s).2) := by
    intro s
    rw [run_bind]
    rcases m s with ⟨e | a, t⟩
    · exact hR.refl _
    · exact (hk a).mono t
  refine ⟨fun s => hR.trans (h.mono s) (mono s), fun s hs => ?_⟩
  rcases h.run s hs with ⟨s', e, m', rfl⟩ | ⟨s', x, e, hx, H⟩
  · rw [run_bind, run_bind, e]
    rcases hm : m s.st with ⟨er | a, t⟩
    · exact Or.inl ⟨_, rfl, m', rfl⟩
    · rcases (hk a).run ⟨t, s.dev, m', false⟩ rfl with ⟨s2, e2, m2, rfl⟩ | ⟨s2, e2, H2⟩
      · exact Or.inl ⟨_, e2, m2, rfl⟩
      · have := h.mono s.st; rw [hm] at this
        exact Or.inr ⟨_, e2, H2.bad, H2.dev, H2.ro, hR.trans this H2.fwd, H2.bwd, H2.some⟩
  · obtain ⟨s2, e2, b1, b2, b3, b4, b5⟩ := ha x hx s' H.bad H.ro
    rw [run_bind, e]
    exact Or.inr ⟨s2, e2, b1, b2.trans H.dev, b3, hR.trans H.fwd b4, hR.trans b5 (hR.trans H.bwd (mono _)), H.some⟩

theorem TameS.bindS (hR : Keeps R) {st : γ → Except Err δ} {st' : β → Except Err ε} {mI : M (IS σ) γ} {m : M σ γ} {kI : γ → β} {k : γ → β}
    (h : TameS R st mI m) (hk : kI = k) (hst : ∀ x, st x = .error .eio → st' (k x) = .error .eio) :
    TameS R st' (mI >>= fun x => pure (kI x)) (m >>= fun x => pure (k x)) := by
  subst hk
  have mono : ∀ s, ((m >>= fun x => pure (kI x)) s).2 = (m s).2 := by
    intro s
    rw [run_bind]
    rcases m s with ⟨e | a, t⟩ <;> rfl
  refine ⟨fun s => by rw [mono]; exact h.mono s, fun s hs => ?_⟩
  rcases h.run s hs with ⟨s', e, m', rfl⟩ | ⟨s', x, e, hx, H⟩
  · left
    rw [run_bind, run_bind, e]
    rcases hm : m s.st with ⟨er | a, t⟩
    · exact ⟨_, rfl, m', rfl⟩
    · exact ⟨_, rfl, m', rfl⟩
  · right
    rw [run_bind, e, mono]
    exact ⟨s', kI x, rfl, hst _ hx, H⟩

theorem Tame.attempt {mI : M (IS σ) α} {m : M σ α} (h : Tame R mI m) : TameS R id (attempt mI) (attempt m) := by
  refine ⟨fun s => h.mono s, fun s hs => ?_⟩
  rcases h.run s hs with ⟨s', e, m', rfl⟩ | ⟨s', e, H⟩
  · left; rw [run_attempt, e]; exact ⟨_, rfl, m', rfl⟩
  · right; rw [run_attempt, e]; exact ⟨s', _, rfl, rfl, H⟩

theorem Tame.lift {f : M σ α} (h : ∀ s, R (vol s) (vol (f s).2)) : Tame R (liftI f) f := by
  refine ⟨h, fun s hs => Or.inl ⟨_, rfl, s.n, ?_⟩⟩
  cases s; cases hs; rfl

theorem Tame.get (hR : Keeps R) : Tame R (Io.get : M (IS σ) σ) M.get := .lift fun s => hR.refl _
theorem Tame.modify {f : σ → σ} (h : ∀ s, R (vol s) (vol (f s))) : Tame R (Io.modify f) (M.modify f) := .lift h
theorem Tame.pure (hR : Keeps R) (a : α) : Tame R (pure a : M (IS σ) α) (pure a) := by
  refine ⟨fun s => hR.refl _, fun s hs => Or.inl ⟨s, rfl, s.n, ?_⟩⟩
  cases s; cases hs; rfl
theorem Tame.fail (hR : Keeps R) (e : Err) : Tame R (M.fail e : M (IS σ) α) (M.fail e) := by
  refine ⟨fun s => hR.refl _, fun s hs => Or.inl ⟨s, rfl, s.n, ?_⟩⟩
  cases s; cases hs; rfl
theorem Tame.ofExcept (hR : Keeps R) (r : Except Err α) : Tame R (M.ofExcept r : M (IS σ) α) (M.ofExcept r) := by
  refine ⟨fun s => hR.refl _, fun s hs => Or.inl ⟨s, rfl, s.n, ?_⟩⟩
  cases s; cases hs; rfl
theorem Tame.ite {p : Prop} [Decidable p] {aI bI : M (IS σ) α} {a b : M σ α} (h1 : p → Tame R aI a) (h2 : ¬ p → Tame R bI b) :
    Tame R (if p then aI else bI) (if p then a else b) := by
  split
  · exact h1 ‹_›
  · exact h2 ‹_›
theorem Tame.onlyIf (hR : Keeps R) {p : Prop} [Decidable p] {aI : M (IS σ) α} {a : M σ α} {d : α} (h1 : p → Tame R aI a) :
    Tame R (onlyIf p aI d) (onlyIf p a d) := Tame.ite h1 fun _ => Tame.pure hR _
theorem Tame.io (hR : Keeps R) {g : Dev → Nat → Vol → Vol} (h : ∀ d n v, R v (g d n v)) {k : IVM α} {f : VM α} (hk : Tame R k f)
    (hb : ∀ d n v, R (g d n v) (f v).2) : Tame R (ioOr g >>= fun _ => k) f := by
  refine ⟨hk.mono, fun s hs => ?_⟩
  rw [run_bind]
  unfold ioOr
  cases hf : s.dev.fails s.n
  · rcases hk.run ⟨s.st, s.dev, s.n + 1, s.bad⟩ hs with ⟨s', e, m', rfl⟩ | ⟨s', e, H⟩
    · exact Or.inl ⟨_, e, m', rfl⟩
    · exact Or.inr ⟨_, e, H.bad, H.dev, H.ro, H.fwd, H.bwd, H.some⟩
  · right
    refine ⟨_, rfl, rfl, rfl, rfl, hR.trans (h ..) (hR.ro _ _), hR.trans (hR.back _ _) (hb _ _ _), ⟨_, hf⟩⟩

theorem Tame.ioNone (hR : Keeps R) {k : IVM α} {f : VM α} (hk : Tame R k f) : Tame R (Io.io >>= fun _ => k) f :=
  Tame.io hR (fun _ _ _ => hR.refl _) hk (fun _ _ v => hk.mono v)

theorem Tame.io1 (hR : Keeps R) : Tame R Io.io (Pure.pure ()) := by
  have := Tame.ioNone hR (Tame.pure hR (σ := Vol) ())
  refine ⟨this.mono, fun s hs => ?_⟩
  have h := this.run s hs
  rw [run_bind] at h
  rcases hx : Io.io s with ⟨_ | _, _⟩
  · rw [hx] at h; exact h
  · rw [hx] at h; exact h

theorem Tame.liftV {mI : IVM α} {m : VM α} (h : Tame R mI m) : Tame R (Io.liftV mI) (RedFs.liftV m) := by
  refine ⟨fun s => h.mono s.v, fun s hs => ?_⟩
  unfold Io.liftV
  rcases h.run ⟨s.st.v, s.dev, s.n, s.bad⟩ hs with ⟨s', e, m', rfl⟩ | ⟨s', e, H⟩
  · rw [e]; exact Or.inl ⟨_, rfl, m', rfl⟩
  · rw [e]; exact Or.inr ⟨_, rfl, H.bad, H.dev, H.ro, H.fwd, H.bwd, H.some⟩

theorem Tame.onCi {ci : Cinode} {mI : IDM α} {m : DM α} (h : Tame R mI m) : TameS R Prod.fst (Io.onCi ci mI) (RedFs.onCi ci m) := by
  refine ⟨fun s => h.mono ⟨ci, s⟩, fun s hs => ?_⟩
  unfold Io.onCi
  rcases h.run ⟨⟨ci, s.st⟩, s.dev, s.n, s.bad⟩ hs with ⟨s', e, m', rfl⟩ | ⟨s', e, H⟩
  · rw [e]; exact Or.inl ⟨_, rfl, m', rfl⟩
  · rw [e]; exact Or.inr ⟨_, _, rfl, rfl, H.bad, H.dev, H.ro, H.fwd, H.bwd, H.some⟩

theorem Tame.runCi {ci : Cinode} {mI : IDM α} {m : DM α} (h : Tame R mI m) : Tame R (Io.runCi ci mI) (RedFs.runCi ci m) := by
  have e2 : ∀ v, (RedFs.runCi ci m v).2 = (m ⟨ci, v⟩).2.v := by
    intro v; unfold RedFs.runCi
    rcases m ⟨ci, v⟩ with ⟨_ | _, _⟩ <;> rfl
  refine ⟨fun s => by rw [e2]; exact h.mono ⟨ci, s⟩, fun s hs => ?_⟩
  rw [e2]
  unfold Io.runCi RedFs.runCi
  rcases h.run ⟨⟨ci, s.st⟩, s.dev, s.n, s.bad⟩ hs with ⟨s', e, m', rfl⟩ | ⟨s', e, H⟩
  · rw [e]; left
    rcases hm : m ⟨ci, s.st⟩ with ⟨_ | _, t⟩
    · exact ⟨_, rfl, m', rfl⟩
    · exact ⟨_, rfl, m', rfl⟩
  · rw [e]; exact Or.inr ⟨_, rfl, H.bad, H.dev, H.ro, H.fwd, H.bwd, H.some⟩

/-! ### after a failure -/

theorem After.fail (hR : Keeps R) : After R (M.fail .eio : M (IS σ) α) := fun s h1 h2 => ⟨s, rfl, h1, rfl, h2, hR.refl _, hR.refl _⟩
theorem After.ofExcept (hR : Keeps R) {r : Except Err α} (h : r = .error .eio) : After R (M.ofExcept r : M (IS σ) α) := by
  subst h; exact After.fail hR
theorem After.critical (hR : Keeps R) : After R (Io.critical .eio : IVM α) :=
  fun s h1 h2 => ⟨_, rfl, h1, rfl, rfl, hR.ro _ _, hR.back _ _⟩
theorem After.criticalD (hR : Keeps R) : After R (Io.liftV (Io.critical .eio) : IDM α) :=
  fun s h1 h2 => ⟨_, rfl, h1, rfl, rfl, hR.ro _ _, hR.back _ _⟩
theorem After.bind (hR : Keeps R) {m : M (IS σ) α} {k : α → M (IS σ) β} (h : After R m) : After R (m >>= k) := by
  intro s h1 h2
  obtain ⟨s', e, h⟩ := h s h1 h2
  exact ⟨s', by rw [run_bind, e], h⟩
theorem After.lift (hR : Keeps R) {f : σ → σ} {k : Unit → M (IS σ) β} (hf : ∀ s, R (vol s) (vol (f s))) (hb : ∀ s, R (vol (f s)) (vol s))
    (hr : ∀ s, (vol (f s)).readOnly = (vol s).readOnly) (h : After R (k ())) : After R (Io.modify f >>= k) := by
  intro s h1 h2
  obtain ⟨s', e, a, b, d, x, y⟩ := h { s with st := f s.st } h1 ((hr _).trans h2)
  exact ⟨s', by rw [run_bind]; exact e, a, b, d, hR.trans (hf _) x, hR.trans y (hb _)⟩
theorem After.get (hR : Keeps R) {k : σ → M (IS σ) β} (h : ∀ s, After R (k s)) : After R (Io.get >>= k) := by
  intro s h1 h2
  exact h s.st s h1 h2

theorem Tame.criticalAssert (hR : Keeps R) {mI : IVM α} {m : VM α} (h : Tame R mI m) : Tame R (Io.criticalAssert mI) (RedFs.criticalAssert m) := by
  refine h.attempt.bind hR (fun r => ?_) (fun x hx => ?_)
  · cases r
    · exact .lift fun s => hR.ro _ _
    · exact .pure hR _
  · have hx : x = .error .eio := hx
    subst hx; exact After.critical hR

theorem Tame.criticalAssertD (hR : Keeps R) {mI : IDM α} {m : DM α} (h : Tame R mI m) : Tame R (Io.criticalAssertD mI) (RedFs.criticalAssertD m) := by
  refine h.attempt.bind hR (fun r => ?_) (fun x hx => ?_)
  · cases r
    · exact .liftV (.lift fun s => hR.ro _ _)
    · exact .pure hR _
  · have hx : x = .error .eio := hx
    subst hx; exact After.criticalD hR

theorem Tame.critical (hR : Keeps R) (e : Err) : Tame R (Io.critical e : IVM α) (RedFs.critical e) := .lift fun s => hR.ro _ _

end RedFs.Io
