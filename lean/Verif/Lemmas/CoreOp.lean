import Verif.Lemmas.FsVol
import Verif.Model.CoreFile
import Verif.Spec.Api
set_option linter.unusedSimpArgs false
set_option linter.unusedVariables false
namespace RedFs
open M Bitmap Vol

variable {c : Conf} {P : (Nat → Option AFile) → Prop} {α : Type}

/-- A regular file outside of `W` that is there now has been created, and is empty, or its blocks are the same. -/
def RegK (c : Conf) (v v' : Vol) (W : Nat → Prop) : Prop :=
  ∀ j f', ¬ W j → Spec.IsReg (files c v') j f' →
    (files c v j = none ∧ f'.size = 0) ∨ (files c v j ≠ none ∧ ∀ p, PosOk c p → tree c v' j p = tree c v j p)

/-- What a modifying operation does before any automatic transaction: the invariant is
kept, nothing is committed, and the files are related by `R`. -/
structure Eff (c : Conf) (P : Files → Prop) (v v' : Vol) (W : Nat → Prop := fun _ => False) : Prop where
  inv : Inv c P v'
  step : Step c v v'
  readOnly : v'.readOnly = v.readOnly
  reg : RegK c v v' W

theorem Kp.reg {v v' : Vol} {D W : Nat → Prop} (k : Kp c v v' D)
    (hD : ∀ j, D j → W j ∨ (∃ f, Spec.IsDir (files c v') j f) ∨ (files c v j = none ∧ ∀ f', files c v' j = some f' → f'.size = 0)) : RegK c v v' W := by
  intro j f' hw hf
  by_cases hd : D j
  · rcases hD j hd with h | ⟨f, h⟩ | ⟨h1, h2⟩
    · exact absurd h hw
    · have := h.1; rw [hf.1] at this; injection this with this; subst this
      have := hf.2; rw [h.2] at this; exact absurd this (by decide)
    · exact Or.inl ⟨h1, h2 _ hf.1⟩
  · exact Or.inr (k j hd (by rw [hf.1]; simp))

theorem RegK.after {v v1 v' : Vol} {W : Nat → Prop} (hF : files c v1 = files c v) (k : Kp c v v1 (fun _ => False)) (h : RegK c v1 v' W) : RegK c v v' W := by
  intro j f' hw hf
  rcases h j f' hw hf with ⟨h1, h2⟩ | ⟨h1, h2⟩
  · exact Or.inl ⟨by rw [← hF]; exact h1, h2⟩
  · obtain ⟨h3, h4⟩ := k j (fun hh => hh) h1
    exact Or.inr ⟨h3, fun p hp => (h2 p hp).trans (h4 p hp)⟩

theorem Eff.refl {v : Vol} {W : Nat → Prop} (h : Inv c P v) : Eff c P v v W := ⟨h, .refl h.wf.vol.ok h.wf.vol.space, rfl, (Kp.refl (D := fun _ => False)).reg fun _ hh => hh.elim⟩

theorem Eff.cfiles (hc : c.Ok) {v v' : Vol} {W : Nat → Prop} (h : Inv c P v) (e : Eff c P v v' W) : committedFiles c v' = committedFiles c v :=
  funext fun i => h.wf.step_committed hc e.step i

/-- `m` does `R` to the files of any volume. -/
def OpSpec (c : Conf) (P : Files → Prop) (m : VM α) (R : Files → Except Err α → Files → Prop) (W : Nat → Prop := fun _ => False) : Prop :=
  ∀ v, Inv c P v → v.readOnly = false → ∃ r v', m v = (r, v') ∧ Eff c P v v' W ∧ R (files c v) r (files c v')

/-- A failed operation has changed nothing. -/
def Clean (R : Files → Except Err α → Files → Prop) : Prop := ∀ F e F', R F (.error e) F' → F' = F

/-- The outcome of a modifying call on a volume mounted read-write. -/
structure Outcome (c : Conf) (P : Files → Prop) (ev : Event) (m : VM α) (R : Files → Except Err α → Files → Prop)
    (v : Vol) (r : Except Err α) (v' : Vol) (W : Nat → Prop := fun _ => False) : Prop where
  inv : Inv c P v'
  rel : R (files c v) r (files c v')
  mask : v'.transMask = v.transMask
  readOnly : v'.readOnly = false
  /-- how the call went: first attempt `m v = (r1, v1)` -/
  how : ∃ r1 v1, m v = (r1, v1) ∧ Eff c P v v1 W ∧
    ((r1 = .error .enospc ∧ v1.on .volfull = true ∧ 0 < v1.almostFree ∧ files c v1 = files c v ∧
        -- commit and try again
        ∃ v2 v3, volTransact v1 = (.ok (), v2) ∧ Cmtd c v1 v2 ∧ Inv c P v2 ∧ m v2 = (r, v3) ∧ Eff c P v2 v3 W ∧ R (files c v2) r (files c v3) ∧
          ((∃ e, r = .error e ∧ v' = v3) ∨ ∃ a, r = .ok a ∧
            ((v.on ev = true ∧ volTransact v3 = (.ok (), v') ∧ Cmtd c v3 v') ∨ (v.on ev = false ∧ v' = v3)))) ∨
     (¬ (r1 = .error .enospc ∧ v1.on .volfull = true ∧ 0 < v1.almostFree) ∧ r = r1 ∧ R (files c v) r (files c v1) ∧
          ((∃ e, r = .error e ∧ v' = v1) ∨ ∃ a, r = .ok a ∧
            ((v.on ev = true ∧ volTransact v1 = (.ok (), v') ∧ Cmtd c v1 v') ∨ (v.on ev = false ∧ v' = v1)))))

theorem eventTransact_on {ev : Event} {v : Vol} (h : v.on ev = true) : eventTransact ev v = volTransact v := by
  unfold eventTransact; simp only [run_bind, run_get]; rw [if_pos h]
theorem eventTransact_off {ev : Event} {v : Vol} (h : v.on ev = false) : eventTransact ev v = (.ok (), v) := by
  unfold eventTransact; simp only [run_bind, run_get]; rw [if_neg (by rw [h]; simp)]; rfl

theorem Cmtd.mask {v v' : Vol} (h : Cmtd c v v') : v'.transMask = v.transMask := h.com.transMask

theorem whenRw_run {v : Vol} (hm : v.mounted = true) (hro : v.readOnly = false) (m : VM α) : whenRw m v = m v := by
  unfold whenRw; simp only [run_bind, run_get]; rw [hm, hro]; rfl
theorem rwOp_run {v : Vol} (hro : v.readOnly = false) (m : VM α) : rwOp m v = m v := by
  unfold rwOp; simp only [run_bind, run_get]; rw [hro]; rfl
theorem whenMounted_run {v : Vol} (hm : v.mounted = true) (m : VM α) : whenMounted m v = m v := by
  unfold whenMounted; simp only [run_bind, run_get]; rw [hm]; rfl

theorem modifyingOp_spec (hc : c.Ok) {ev : Event} {m : VM α} {R : Files → Except Err α → Files → Prop} {W : Nat → Prop} (hm : OpSpec c P m R W) (hR : Clean R)
    {v : Vol} (h : Inv c P v) (hro : v.readOnly = false) : ∃ r v', modifyingOp ev m v = (r, v') ∧ Outcome c P ev m R v r v' W := by
  obtain ⟨r1, v1, e1, E1, R1⟩ := hm v h hro
  have hro1 : v1.readOnly = false := by rw [E1.readOnly]; exact hro
  have hrun : modifyingOp ev m v = (do let a ← volFullRetry m; eventTransact ev; pure a : VM α) v := whenRw_run h.mounted hro _
  -- finishing after a successful last attempt ending in `w`
  have fin : ∀ (w : Vol), Inv c P w → w.transMask = v.transMask → w.readOnly = false → ∀ a : α,
      ∃ v', (do eventTransact ev; pure a : VM α) w = (.ok a, v') ∧ Inv c P v' ∧ files c v' = files c w ∧ v'.transMask = v.transMask ∧ v'.readOnly = false ∧
        ((v.on ev = true ∧ volTransact w = (.ok (), v') ∧ Cmtd c w v') ∨ (v.on ev = false ∧ v' = w)) := by
    intro w hw hmask hrow a
    have hon : w.on ev = v.on ev := by unfold Vol.on; rw [hmask]
    cases hx : v.on ev
    · refine ⟨w, ?_, hw, rfl, hmask, hrow, Or.inr ⟨rfl, rfl⟩⟩
      simp only [run_bind, eventTransact_off (hon.trans hx), run_pure]
    · obtain ⟨w', e, hi, C⟩ := hw.transact hc
      refine ⟨w', ?_, hi, C.files, C.mask.trans hmask, by rw [C.com.readOnly]; exact hrow, Or.inl ⟨rfl, e, C⟩⟩
      simp only [run_bind, eventTransact_on (hon.trans hx), e, run_pure]
  by_cases hre : r1 = .error .enospc ∧ v1.on .volfull = true ∧ 0 < v1.almostFree
  · have hF1 : files c v1 = files c v := by rw [hre.1] at R1; exact hR _ _ _ R1
    obtain ⟨v2, e2, i2, C2⟩ := E1.inv.transact hc
    have hro2 : v2.readOnly = false := by rw [C2.com.readOnly]; exact hro1
    obtain ⟨r, v3, e3, E3, R3⟩ := hm v2 i2 hro2
    have hm3 : v3.transMask = v.transMask := by rw [E3.step.transMask, C2.mask, E1.step.transMask]
    have hro3 : v3.readOnly = false := by rw [E3.readOnly]; exact hro2
    have hretry : volFullRetry m v = (r, v3) := by
      unfold volFullRetry
      simp only [run_bind, run_attempt, e1, hre.1, run_get]
      rw [if_pos ⟨trivial, hre.2.1, hre.2.2⟩]
      simp only [run_bind, e2, e3]
    have hF2 : files c v2 = files c v := C2.files.trans hF1
    rcases r with e | a
    · refine ⟨.error e, v3, ?_, E3.inv, hF2 ▸ R3, hm3, hro3, r1, v1, e1, E1, Or.inl ⟨hre.1, hre.2.1, hre.2.2, hF1, v2, v3, e2, C2, i2, e3, E3, R3, Or.inl ⟨e, rfl, rfl⟩⟩⟩
      rw [hrun]; simp only [run_bind, hretry]
    · obtain ⟨v', f1, f2, f3, f4, f5, f6⟩ := fin v3 E3.inv hm3 hro3 a
      refine ⟨.ok a, v', ?_, f2, by rw [f3, ← hF2]; exact R3, f4, f5, r1, v1, e1, E1, Or.inl ⟨hre.1, hre.2.1, hre.2.2, hF1, v2, v3, e2, C2, i2, e3, E3, R3, Or.inr ⟨a, rfl, f6⟩⟩⟩
      rw [hrun, run_bind, hretry]; exact f1
  · have hm1 : v1.transMask = v.transMask := E1.step.transMask
    have hretry : volFullRetry m v = (r1, v1) := by
      unfold volFullRetry
      simp only [run_bind, run_attempt, e1]
      rcases r1 with e | a
      · simp only [run_bind, run_get]
        rw [if_neg (fun hh => hre ⟨by rw [hh.1], hh.2.1, hh.2.2⟩)]
        rfl
      · rfl
    rcases r1 with e | a
    · refine ⟨.error e, v1, ?_, E1.inv, R1, hm1, hro1, _, v1, e1, E1, Or.inr ⟨hre, rfl, R1, Or.inl ⟨e, rfl, rfl⟩⟩⟩
      rw [hrun]; simp only [run_bind, hretry]
    · obtain ⟨v', f1, f2, f3, f4, f5, f6⟩ := fin v1 E1.inv hm1 hro1 a
      refine ⟨.ok a, v', ?_, f2, by rw [f3]; exact R1, f4, f5, _, v1, e1, E1, Or.inr ⟨hre, rfl, R1, Or.inr ⟨a, rfl, f6⟩⟩⟩
      rw [hrun, run_bind, hretry]; exact f1

end RedFs
