import Verif.Lemmas.TimesNames
import Verif.Lemmas.System
set_option linter.unusedSimpArgs false
set_option linter.unusedVariables false
/-!
The stamps after a call: retry after a commit, and automatic transactions.
-/
namespace RedFs.Times
open RedFs M Str

variable {c : Conf} {clk : Nat → Nat} {α β : Type} {P : Files → Prop}

/-- The stamps of the working state, and the reports. -/
def SameAs (t t' : Clk) : Prop := t.work = t'.work ∧ t.reads = t'.reads ∧ t.red = t'.red
theorem SameAs.refl (t : Clk) : SameAs t t := ⟨rfl, rfl, rfl⟩
theorem SameAs.trans {a b d : Clk} (h : SameAs a b) (h' : SameAs b d) : SameAs a d := ⟨h.1.trans h'.1, h.2.1.trans h'.2.1, h.2.2.trans h'.2.2⟩
theorem SameAs.stamp {t t' : Clk} (h : SameAs t t') (e : Mark) : SameAs (Times.stamp clk t e) (Times.stamp clk t' e) := by
  obtain ⟨h1, h2, h3⟩ := h
  refine ⟨?_, ?_, h3⟩
  · funext j
    simp only [Times.stamp, Clk.set, h1, h2]
  · simp only [Times.stamp, h2]
theorem SameAs.stamps {t t' : Clk} (h : SameAs t t') (L : List Mark) : SameAs (Times.stamps c clk L t) (Times.stamps c clk L t') := by
  unfold Times.stamps; split
  · induction L generalizing t t' with
    | nil => exact h
    | cons e L ih => exact ih (h.stamp e)
  · exact h

/-- Without changes since the last commit the stamps are those of the committed state. -/
def TI (s : St) : Prop := s.v.branched = false → s.t.work = s.t.comm

theorem transact_inv (hc : c.Ok) {s s' : St} {r : Except Err Unit} (hi : Inv c P s.v) (hT : TI s) (h : transact s = (r, s')) :
    r = .ok () ∧ Inv c P s'.v ∧ Cmtd c s.v s'.v ∧ SameAs s'.t s.t ∧ TI s' ∧ s'.t.comm = s.t.work := by
  obtain ⟨v', e, i', C⟩ := hi.transact hc
  unfold transact at h
  rw [vol_bind] at h
  rcases bind_inv h with ⟨e', h1, rfl⟩ | ⟨u, s1, h1, hh⟩
  · have := (lift_inv h1).1
    rw [e] at this
    cases this
  obtain ⟨h1, t1⟩ := lift_inv h1
  rw [e] at h1
  simp only [Prod.mk.injEq, true_and] at h1
  clear h
  split at hh
  · next hb =>
    have hh : (Except.ok (), (⟨s1.v, { s1.t with comm := s1.t.work }⟩ : St)) = (r, s') := hh
    simp only [Prod.mk.injEq] at hh
    obtain ⟨rfl, rfl⟩ := hh
    refine ⟨rfl, h1 ▸ i', h1 ▸ C, ⟨by rw [t1], by rw [t1], by rw [t1]⟩, fun _ => rfl, by rw [← t1]⟩
  · next hb =>
    obtain ⟨rfl, rfl⟩ := pure_inv hh
    have hb : s.v.branched = false := by simpa using hb
    refine ⟨rfl, h1 ▸ i', h1 ▸ C, by rw [t1]; exact .refl _, fun _ => by rw [t1]; exact hT hb, by rw [t1]; exact (hT hb).symm⟩

/-- The stamps after a call that has changed files: `F` is the table of files before it. -/
structure Done (c : Conf) (clk : Nat → Nat) (F : Files) (Q : α → List Mark → Prop) (s : St) (r : Except Err α) (s' : St) : Prop where
  err : ∀ e, r = .error e → ∃ L : List Mark, (∀ x ∈ L, F x.i = none) ∧ SameAs s'.t (stamps c clk L s.t)
  ok : ∀ a, r = .ok a → ∃ L0 L : List Mark, (∀ x ∈ L0, F x.i = none) ∧ Q a L ∧ SameAs s'.t (stamps c clk (L0 ++ L) s.t)
  keep : TI s'

theorem Done.fail {F : Files} {Q : α → List Mark → Prop} {s s' : St} {r : Except Err α} {e : Err} (h : r = .error e) (hs : s' = s) (hT : TI s) : Done c clk F Q s r s' := by
  subst hs
  exact ⟨fun _ _ => ⟨[], fun x hx => (by cases hx), by rw [stamps_nil]; exact .refl _⟩, fun a ha => (by rw [h] at ha; cases ha), hT⟩

theorem Marked.ti {Q : α → List Mark → Prop} {s s' : St} {r : Except Err α} (h : Marked c clk Q s r s') (hb : s.v.branched = true → s'.v.branched = true) (hT : TI s) : TI s' := by
  intro hn
  have hs : s.v.branched = false := by
    cases hx : s.v.branched
    · rfl
    · rw [hb hx] at hn; cases hn
  have key : ∀ L : List Mark, (L ≠ [] → s'.v.branched = true) → s'.t = stamps c clk L s.t → s'.t.work = s'.t.comm := by
    intro L h1 h2
    have : L = [] := by
      cases L with
      | nil => rfl
      | cons x L => rw [h1 (by simp)] at hn; cases hn
    subst this
    rw [h2, stamps_nil]
    exact hT hs
  rcases r with e | a
  · obtain ⟨L, _, h1, h2⟩ := h.err e rfl
    exact key L h1 h2
  · obtain ⟨L, _, h1, h2⟩ := h.ok a rfl
    exact key L h1 h2

theorem modify_done (hc : c.Ok) {ev : Event} {m : TM α} {m' : VM α} {R : Files → Except Err α → Files → Prop} {W : Nat → Prop} {Q : Files → α → List Mark → Prop}
    (her : Er id m m') (hm : OpSpec c P m' R W) (hR : Clean R) (hkb : KB m')
    (hQ : ∀ {s s' : St} {r : Except Err α}, Inv c P s.v → m s = (r, s') → Marked c clk (Q (files c s.v)) s r s')
    {s s' : St} {r : Except Err α} (hi : Inv c P s.v) (hT : TI s) (h : modifyingOp ev m s = (r, s')) : Done c clk (files c s.v) (Q (files c s.v)) s r s' := by
  -- one attempt
  have one : ∀ {s s' : St} {r : Except Err α}, Inv c P s.v → s.v.readOnly = false → TI s → m s = (r, s') →
      Marked c clk (Q (files c s.v)) s r s' ∧ TI s' ∧ Inv c P s'.v ∧ s'.v.readOnly = false ∧ (∀ e, r = .error e → files c s'.v = files c s.v) := by
    intro s s' r hi hro hT h
    have hM := hQ hi h
    obtain ⟨r', v', e1, E, hRel⟩ := hm s.v hi hro
    have he := her s
    rw [h, e1] at he
    simp only [Prod.mk.injEq] at he
    obtain ⟨rfl, rfl⟩ := he
    refine ⟨hM, hM.ti (fun hb => ?_) hT, E.inv, E.readOnly.trans hro, fun e he => ?_⟩
    · have := hkb s.v hb
      rw [e1] at this
      exact this
    · subst he
      exact hR _ _ _ hRel
  unfold modifyingOp whenRw at h
  rw [vol_bind] at h
  split at h
  · obtain ⟨h1, h2⟩ := fail_inv h
    exact .fail h1 h2 hT
  split at h
  · obtain ⟨h1, h2⟩ := fail_inv h
    exact .fail h1 h2 hT
  next hm hro =>
  have hro : s.v.readOnly = false := by simpa using hro
  -- the attempts
  have two : ∀ {r2 : Except Err α} {s2 : St}, volFullRetry m s = (r2, s2) → Done c clk (files c s.v) (Q (files c s.v)) s r2 s2 ∧ Inv c P s2.v := by
    intro r2 s2 h
    unfold volFullRetry at h
    rcases bind_inv h with ⟨e, h1, rfl⟩ | ⟨x, s1, h1, hh⟩
    · obtain ⟨x, hx, -⟩ := attempt_inv h1; cases hx
    obtain ⟨y, hy, h1⟩ := attempt_inv h1
    cases hy
    clear h
    obtain ⟨M1, T1, I1, ro1, F1⟩ := one hi hro hT h1
    rcases x with e | a
    · dsimp only at hh
      rw [vol_bind] at hh
      obtain ⟨L0, hL0, _, ht0⟩ := M1.err e rfl
      split at hh
      · rcases bind_inv hh with ⟨e', h2, rfl⟩ | ⟨u, s3, h2, h3⟩
        · exact absurd (transact_inv hc I1 T1 h2).1 (by simp)
        obtain ⟨-, I2, C2, S2, T2, -⟩ := transact_inv hc I1 T1 h2
        have hF : files c s3.v = files c s.v := C2.files.trans (F1 e rfl)
        obtain ⟨M3, T3, I3, ro3, F3⟩ := one I2 (by rw [C2.com.readOnly]; exact ro1) T2 h3
        refine ⟨⟨fun e' he => ?_, fun a ha => ?_, T3⟩, I3⟩
        · obtain ⟨L, hL, _, ht⟩ := M3.err e' he
          refine ⟨L0 ++ L, fun x hx => ?_, ?_⟩
          · rcases List.mem_append.1 hx with hx | hx
            · exact hL0 x hx
            · rw [← hF]; exact hL x hx
          · rw [ht, ← stamps_append, ← ht0]
            exact S2.stamps L
        · obtain ⟨L, hL, _, ht⟩ := M3.ok a ha
          refine ⟨L0, L, hL0, hF ▸ hL, ?_⟩
          rw [ht, ← stamps_append, ← ht0]
          exact S2.stamps L
      · obtain ⟨rfl, rfl⟩ := fail_inv hh
        exact ⟨⟨fun _ _ => ⟨L0, hL0, by rw [ht0]; exact .refl _⟩, fun a ha => (by cases ha), T1⟩, I1⟩
    · obtain ⟨rfl, rfl⟩ := pure_inv hh
      obtain ⟨L, hL, _, ht⟩ := M1.ok a rfl
      exact ⟨⟨fun e he => (by cases he), fun b hb => (by cases hb; exact ⟨[], L, fun x hx => (by cases hx), hL, by rw [ht]; exact .refl _⟩), T1⟩, I1⟩
  rcases bind_inv h with ⟨e, h1, rfl⟩ | ⟨a, s2, h1, hh⟩
  · exact (two h1).1
  obtain ⟨D2, I2⟩ := two h1
  rcases bind_inv hh with ⟨e, h2, rfl⟩ | ⟨u, s3, h2, h3⟩
  · unfold eventTransact at h2
    rw [vol_bind] at h2
    split at h2
    · exact absurd (transact_inv hc I2 D2.keep h2).1 (by simp)
    · cases (pure_inv h2).1
  obtain ⟨rfl, rfl⟩ := pure_inv h3
  have fin : SameAs s'.t s2.t ∧ TI s' := by
    unfold eventTransact at h2
    rw [vol_bind] at h2
    split at h2
    · obtain ⟨_, _, _, S, T, _⟩ := transact_inv hc I2 D2.keep h2
      exact ⟨S, T⟩
    · obtain ⟨-, rfl⟩ := pure_inv h2
      exact ⟨.refl _, D2.keep⟩
  refine ⟨fun e he => (by cases he), fun b hb => ?_, fin.2⟩
  obtain ⟨L0, L, h1, h2, h3⟩ := D2.ok b hb
  exact ⟨L0, L, h1, h2, fin.1.trans h3⟩

end RedFs.Times
