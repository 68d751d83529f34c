import Verif.Lemmas.PosixOwn
import Verif.Lemmas.PosixFd
import Verif.Props.PosixNames
set_option linter.unusedSimpArgs false
set_option linter.unusedVariables false
/-!
C63: volumes are independent: a call neither depends on a volume it is not about nor changes it.
-/
namespace RedFs.Props.PosixOwn
open RedFs RedFs.Posix

variable {pc : PConf} {s : PSt} {t : Nat} {k : PCall} {i : Nat}

/-- What is returned by several calls, one after the other. -/
def replies (pc : PConf) : List (Nat × PCall) → PSt → List (Except Err PReply)
  | [], _ => []
  | (t, k) :: l, s => (pexec pc t k s).1 :: replies pc l (pexec pc t k s).2

/-- The state after several calls, one after the other. -/
def after (pc : PConf) : List (Nat × PCall) → PSt → PSt
  | [], s => s
  | (t, k) :: l, s => after pc l (pexec pc t k s).2

/-- None of the calls is about volume `i` when it is made. -/
def Avoids (pc : PConf) (i : Nat) : List (Nat × PCall) → PSt → Prop
  | [], _ => True
  | (t, k) :: l, s => Permitted pc t k s ∧ ¬ About pc t s k i ∧ Avoids pc i l (pexec pc t k s).2

section
variable (hc : pc.Ok) (h : PReach pc s)
include hc h

/-- **C63** A call that is not about volume `i` returns the same, and does the same to everything else, whatever state volume `i` is in - mounted or not, full, damaged,
or never formatted -, and it leaves volume `i` exactly as it is. -/
theorem C63_independent (hp : Permitted pc t k s) (hU : ¬ About pc t s k i) (w : Vol) :
    pexec pc t k (s.withVol i w) = ((pexec pc t k s).1, (pexec pc t k s).2.withVol i w) :=
  pexec_blind hc (h.inv hc) hp hU w

/-- **C63** In particular nothing of the volume is changed: neither the files, nor what is on the disk, nor what has been allocated, nor whether it is mounted. -/
theorem C63_untouched (hp : Permitted pc t k s) (hU : ¬ About pc t s k i) : (pexec pc t k s).2.vols i = s.vols i := by
  have e := C63_independent hc h hp hU (s.vols i)
  rw [show s.withVol i (s.vols i) = s from by
    unfold PSt.withVol
    have : (fun j => if j = i then s.vols i else s.vols j) = s.vols := funext fun j => by split <;> simp_all
    rw [this]] at e
  have := congrArg (fun x => x.2.vols i) e
  simpa [PSt.withVol] using this
end

/-- **C63** The same for any number of calls of any tasks. -/
theorem C63_history (hc : pc.Ok) (w : Vol) (l : List (Nat × PCall)) : ∀ {s : PSt}, PReach pc s → Avoids pc i l s →
    replies pc l (s.withVol i w) = replies pc l s ∧ after pc l (s.withVol i w) = (after pc l s).withVol i w ∧ (after pc l s).vols i = s.vols i := by
  induction l with
  | nil => intro s _ _; exact ⟨rfl, rfl, rfl⟩
  | cons x l ih =>
    obtain ⟨t, k⟩ := x
    intro s h ⟨hp, hU, hl⟩
    have e := C63_independent hc h hp hU w
    obtain ⟨h1, h2, h3⟩ := ih (h.call hp) hl
    refine ⟨?_, ?_, h3.trans (C63_untouched hc h hp hU)⟩
    · show (pexec pc t k (s.withVol i w)).1 :: replies pc l (pexec pc t k (s.withVol i w)).2 = _
      rw [e]; exact congrArg _ h1
    · show after pc l (pexec pc t k (s.withVol i w)).2 = _
      rw [e]; exact h2

/-- **C63** A path is on one volume only, and so is a descriptor: what is about one volume is not about another. -/
theorem C63_one_volume (hc : pc.Ok) (h : PReach pc s) (hin : s.inited = true) (hp : Permitted pc t k s) {j : Nat}
    (hk : k.isUninit = false ∧ k ≠ .init ∧ k ≠ .sync) (hi : About pc t s k i) (hj : About pc t s k j) : i = j := by
  have inv := h.inv hc
  have reg : ∀ {s1 s2}, Registers pc t s s1 → Registers pc t s s2 → s1 = s2 := fun r1 r2 => r1.uniq r2
  have path : ∀ {p}, PathOn pc t s p i → PathOn pc t s p j → i = j := by
    rintro p ⟨s1, a, b, r1, h1⟩ ⟨s2, a', b', r2, h2⟩
    have := reg r1 r2; subst this
    have := h1.det hc (r1.inv inv hp.1) (r1.same.1.trans hin) hp.1 h2
    cases this; rfl
  have fd : ∀ {fd}, FdOn pc s fd i → FdOn pc s fd j → i = j := by
    rintro fd ⟨k, h1, h2⟩ ⟨k', h3, h4⟩
    have := isFd_unique hc inv hin h1 h3; subst this
    exact h2.symm.trans h4
  have name : ∀ {p}, VolName pc p i → VolName pc p j → i = j := fun h1 h2 => by
    exact Selected.uniq hc h1.1 h2.1
  cases k <;> simp only [About] at hi hj <;> first
    | exact path hi hj
    | exact fd hi hj
    | exact name hi hj
    | exact path hi.1 hj.1
    | exact hi.elim
    | exact absurd rfl hk.2.1
    | exact absurd rfl hk.2.2
    | exact Bool.noConfusion hk.1
    | exact hi.2.2.2.symm.trans hj.2.2.2
    | (obtain ⟨s1, a, r1, b, c⟩ := hi
       obtain ⟨s2, a', r2, b', c'⟩ := hj
       have := reg r1 r2; subst this
       have := b.uniq (r1.inv inv hp.1) (r1.same.1.trans hin) hp.1 b'
       rw [← c, ← c', this])

section
open PosixNames

theorem not_fd1 {s : PSt} (hi : PInv demoPC s) (hin : s.inited = true) {fd : Int} {k i : Nat} (h : IsFd demoPC s fd k) (hv : (s.handle k).vol ≠ i) : ¬ FdOn demoPC s fd i := by
  rintro ⟨k', h1, h2⟩
  have := isFd_unique demoPC_ok hi hin h h1; subst this
  exact hv h2

theorem demo_write_other : ¬ About demoPC 5 demoS (.write 1048576 10 fun k => BitVec.ofNat 8 k) 1 :=
  not_fd1 (demoS_reach.inv demoPC_ok) demo_inited demo_fd0.2 (by decide +kernel)

-- task 5 writes to "/a", whatever "/m" is
example (w : Vol) : (pexec demoPC 5 (.write 1048576 10 fun k => BitVec.ofNat 8 k) (demoS.withVol 1 w)).1 = (pexec demoPC 5 (.write 1048576 10 fun k => BitVec.ofNat 8 k) demoS).1 :=
  by rw [C63_independent demoPC_ok demoS_reach (demoP (by decide) rfl _) demo_write_other w]
theorem demo_write_ok : isNum 10 (pexec demoPC 5 (.write 1048576 10 fun k => BitVec.ofNat 8 k) demoS).1 = true := by decide +kernel
example : (pexec demoPC 5 (.write 1048576 10 fun k => BitVec.ofNat 8 k) demoS).2.vols 1 = demoS.vols 1 :=
  C63_untouched demoPC_ok demoS_reach (demoP (by decide) rfl _) demo_write_other

/-- Task 6 creates "/m/e" and a rename from "/a" to "/m/c" fails. -/
def demoOwnL : List (Nat × PCall) := [(6, .mkdir [47#8, 109#8, 47#8, 101#8]), (5, .rename [47#8, 97#8] [47#8, 109#8, 47#8, 99#8])]

theorem not_path0 {s : PSt} (hi : PInv demoPC s) (hin : s.inited = true) {l : List Byte} {t : Nat} (ht : t ≠ 0) : ¬ PathOn demoPC t s (47#8 :: 109#8 :: 47#8 :: l) 0 := by
  rintro ⟨s1, a, b, R, h1⟩
  have h2 : StartAt demoPC s1 t (47#8 :: 109#8 :: 47#8 :: l) (.ok (1, 2, 47#8 :: l)) :=
    .abs (i := 1) (fun _ _ => Or.inr rfl) ⟨by decide, Or.inr (Or.inr ⟨l, rfl⟩), fun j hj _ => by
      have hj : j < 2 := hj
      show (if j = 0 then ([] : List Byte) else [47#8, 109#8]).length ≤ 2
      split <;> decide⟩
  have := h1.det demoPC_ok (R.inv hi ht) (R.same.1.trans hin) ht h2
  cases this

theorem demo_own_ok : isUnit (pexec demoPC 6 (.mkdir [47#8, 109#8, 47#8, 101#8]) demoS).1 = true := by decide +kernel
theorem demo_own_inited : (pexec demoPC 6 (.mkdir [47#8, 109#8, 47#8, 101#8]) demoS).2.inited = true := by decide +kernel

theorem demo_avoids : Avoids demoPC 0 demoOwnL demoS := by
  refine ⟨demoP (by decide) rfl _, not_path0 (demoS_reach.inv demoPC_ok) demo_inited (by decide), demoP (by decide) rfl _, ?_, trivial⟩
  rintro ⟨_, h⟩
  exact not_path0 ((demoS_reach.call (demoP (by decide) rfl _)).inv demoPC_ok) demo_own_inited (by decide) h

example : (after demoPC demoOwnL demoS).vols 0 = demoS.vols 0 := (C63_history demoPC_ok (demoS.vols 0) demoOwnL demoS_reach demo_avoids).2.2
example (w : Vol) : replies demoPC demoOwnL (demoS.withVol 0 w) = replies demoPC demoOwnL demoS := (C63_history demoPC_ok w demoOwnL demoS_reach demo_avoids).1

theorem demo_about : About demoPC 5 demoS (.fstat 1048576) 0 := show FdOn demoPC demoS 1048576 0 from ⟨0, demo_fd0.2, by decide +kernel⟩
example (j : Nat) (h : About demoPC 5 demoS (.fstat 1048576) j) : 0 = j :=
  C63_one_volume demoPC_ok demoS_reach demo_inited (demoP (by decide) rfl _) ⟨rfl, (by intro h; cases h), (by intro h; cases h)⟩ demo_about h

end

end RedFs.Props.PosixOwn
