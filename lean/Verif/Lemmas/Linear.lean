import Verif.Lemmas.PosixNeutral
set_option linter.unusedSimpArgs false
set_option linter.unusedVariables false
set_option linter.unusedSectionVars false
/-!
Concurrent calls of the POSIX API are linearizable.
-/
namespace RedFs.Posix
open M Str Path

section
variable {pc : PConf} {t : Nat} {s q q' : PSt}

theorem taskIdx_some {i : Nat} (h : taskIdx pc t s = some i) : i < pc.tasks ∧ (s.slot i).task = t := by
  obtain ⟨a, b, _⟩ := find_first h
  exact ⟨a, by simpa using b⟩
theorem taskIdx_none (h : taskIdx pc t s = none) (i : Nat) (hi : i < pc.tasks) : (s.slot i).task ≠ t := by
  have := List.find?_eq_none.1 h i (by simpa using hi)
  simpa using this

/-- The cases of `TaskRegister`. -/
theorem reg_cases (hm : pc.tasks ≠ 1) (t : Nat) (s : PSt) :
    (NoSlot pc t s ∧ taskIdx pc t s = none ∧ taskRegister pc t s = (.error .eusers, s)) ∨
    (∃ i, i < pc.tasks ∧ (s.slot i).task = t ∧ taskIdx pc t s = some i ∧ taskRegister pc t s = (.ok i, s)) ∨
    (∃ i, (∀ j, j < pc.tasks → (s.slot j).task ≠ t) ∧ i < pc.tasks ∧ (s.slot i).task = 0 ∧ taskIdx pc t s = none ∧
      taskRegister pc t s = (.ok i, s.setSlot i { s.slot i with task := t })) := by
  unfold taskRegister
  rw [if_neg hm]
  cases hf : taskIdx pc t s with
  | some i =>
    obtain ⟨a, b⟩ := taskIdx_some hf
    exact Or.inr (Or.inl ⟨i, a, b, rfl, rfl⟩)
  | none =>
    dsimp only
    cases hz : (List.range pc.tasks).find? (fun i => (s.slot i).task == 0) with
    | none =>
      refine Or.inl ⟨⟨hm, fun j hj => ⟨taskIdx_none hf j hj, ?_⟩⟩, rfl, rfl⟩
      have := List.find?_eq_none.1 hz j (by simpa using hj)
      simpa using this
    | some i =>
      obtain ⟨a, b, d⟩ := find_first hz
      exact Or.inr (Or.inr ⟨i, taskIdx_none hf, a, by simpa using b, rfl, rfl⟩)

theorem setSlot_slot (s : PSt) (i j : Nat) (x : Slot) : (s.setSlot i x).slot j = if j = i then x else s.slot j := rfl

theorem setSlot_task (s : PSt) (i j n : Nat) : ((s.setSlot i { s.slot i with task := n }).slot j).errno = (s.slot j).errno := by
  rw [setSlot_slot]; split
  · rename_i h; rw [h]
  · rfl
theorem setSlot_errno_task (s : PSt) (i j : Nat) (e : Option Err) : ((s.setSlot i { s.slot i with errno := e }).slot j).task = (s.slot j).task := by
  rw [setSlot_slot]; split
  · rename_i h; rw [h]
  · rfl

theorem withErr_setSlot (e : Nat → Option Err) (x : Option Err) (s : PSt) (i : Nat) (o : Option Err) :
    withErr e x (s.setSlot i { s.slot i with errno := o }) = withErr e x s := by
  unfold withErr PSt.setSlot upd; dsimp only; congr 1; funext j
  by_cases h : j = i
  · simp [h]
  · simp [h]

theorem withErr_regSlot (e : Nat → Option Err) (x : Option Err) (s : PSt) (i n : Nat) :
    withErr e x (s.setSlot i { s.slot i with task := n }) = (withErr e x s).setSlot i { (withErr e x s).slot i with task := n } := by
  unfold withErr PSt.setSlot upd; dsimp only; congr 1; funext j
  by_cases h : j = i
  · simp [h]
  · simp [h]

theorem taskIdx_blind (e : Nat → Option Err) (x : Option Err) (s : PSt) : taskIdx pc t (withErr e x s) = taskIdx pc t s := rfl

theorem reg_blind (e : Nat → Option Err) (x : Option Err) (s : PSt) :
    taskRegister pc t (withErr e x s) = ((taskRegister pc t s).1, withErr e x (taskRegister pc t s).2) := by
  unfold taskRegister
  rw [taskIdx_blind]
  split
  · rfl
  · cases taskIdx pc t s with
    | some i => rfl
    | none =>
      dsimp only
      have : (List.range pc.tasks).find? (fun i => ((withErr e x s).slot i).task == 0) = (List.range pc.tasks).find? (fun i => (s.slot i).task == 0) := rfl
      rw [this]
      cases (List.range pc.tasks).find? (fun i => (s.slot i).task == 0) with
      | none => rfl
      | some i => dsimp only; rw [withErr_regSlot]

/-- `red_errno = e`, if the task is registered or cannot be. -/
theorem setErrno_reg (hm : pc.tasks ≠ 1) (hin : s.inited = true) (e : Err) {i : Nat} (h : taskIdx pc t s = some i) :
    setErrno pc t e s = s.setSlot i { s.slot i with errno := some e } := by
  unfold setErrno taskRegister
  rw [if_neg hm, if_pos hin, if_neg hm, h]
theorem setErrno_no (hm : pc.tasks ≠ 1) (hin : s.inited = true) (e : Err) (h : NoSlot pc t s) :
    setErrno pc t e s = { s with gerrno := some e } := by
  unfold setErrno
  rw [if_neg hm, if_pos hin]
  rcases reg_cases hm t s with ⟨_, _, r⟩ | ⟨i, a, b, _⟩ | ⟨i, _, a, b, _⟩
  · rw [r]
  · exact absurd b (h.2 i a).1
  · exact absurd b (h.2 i a).2

/-! ### The effect of a call on the slots -/

/-- The error code `e` is stored for task `t`, or there is no place for it. -/
def Stored (pc : PConf) (t : Nat) (e : Err) (q : PSt) : Prop := (∃ i, i < pc.tasks ∧ (q.slot i).task = t ∧ (q.slot i).errno = some e) ∨ NoSlot pc t q

/-- How the slots change in a call of task `t`. -/
structure SlotEff (pc : PConf) (t : Nat) (q q' : PSt) : Prop where
  inited : q'.inited = q.inited
  keep : ∀ i, i < pc.tasks → (q.slot i).task ≠ 0 → (q'.slot i).task = (q.slot i).task
  fresh : ∀ i, i < pc.tasks → (q.slot i).task = 0 → (q'.slot i).task = 0 ∨ (q'.slot i).task = t
  errno : ∀ i, pc.tasks ≤ i ∨ (q'.slot i).task ≠ t → (q'.slot i).errno = (q.slot i).errno

theorem SlotEff.noSlot {u : Nat} (h : SlotEff pc t q q') (hn : NoSlot pc u q) : NoSlot pc u q' :=
  ⟨hn.1, fun i hi => by rw [h.keep i hi (hn.2 i hi).2]; exact hn.2 i hi⟩
theorem SlotEff.slot {u i : Nat} {e : Err} (h : SlotEff pc t q q') (hu : u ≠ t) (h0 : u ≠ 0) (hi : i < pc.tasks) (ht : (q.slot i).task = u)
    (he : (q.slot i).errno = some e) : (q'.slot i).task = u ∧ (q'.slot i).errno = some e := by
  have := h.keep i hi (by rw [ht]; exact h0)
  have h2 : (q'.slot i).task = u := this.trans ht
  exact ⟨h2, (h.errno i (Or.inr (by rw [h2]; exact hu))).trans he⟩
theorem SlotEff.stored {u : Nat} {e : Err} (h : SlotEff pc t q q') (hu : u ≠ t) (h0 : u ≠ 0) (hs : Stored pc u e q) : Stored pc u e q' := by
  rcases hs with ⟨i, a, b, c⟩ | hn
  · exact Or.inl ⟨i, a, h.slot hu h0 a b c⟩
  · exact Or.inr (h.noSlot hn)

/-- The main section of a call. -/
theorem main_cases (hm : pc.tasks ≠ 1) {k : PCall} (hk : k ≠ .uninit) (q : PSt) {r : Except Err PReply} {q1 : PSt}
    (h : (do let _ ← taskRegister pc t; body pc t k : PM PReply) q = (r, q1)) :
    q1.inited = q.inited ∧ errOf q1 = errOf q ∧ SlotEff pc t q q1 ∧ ((NoSlot pc t q1 ∧ taskIdx pc t q1 = none) ∨ ∃ i, taskIdx pc t q1 = some i) := by
  rw [run_bind] at h
  rcases reg_cases hm t q with ⟨a, b, e⟩ | ⟨i, a, b, c, e⟩ | ⟨i, a, b, c, d, e⟩
  · rw [e] at h
    obtain ⟨-, rfl⟩ := Prod.mk.inj h
    exact ⟨rfl, rfl, ⟨rfl, fun _ _ _ => rfl, fun i _ h => Or.inl h, fun _ _ => rfl⟩, Or.inl ⟨a, b⟩⟩
  · rw [e] at h
    have N := neu_body (pc := pc) (t := t) hk
    replace h : body pc t k q = (r, q1) := h
    have n1 := N.inited q; have n2 := N.task q; have n3 := N.ins (errOf q) q.gerrno q
    rw [withErr_self, h] at n3; rw [h] at n1 n2
    have n3 := (Prod.mk.inj n3).2
    have n4 : errOf q1 = errOf q := by rw [n3]; rfl
    refine ⟨n1, n4, ⟨n1, fun i _ _ => n2 i, fun i _ h => Or.inl ((n2 i).trans h), fun i _ => congrFun n4 i⟩, Or.inr ⟨i, ?_⟩⟩
    rw [← c]; unfold taskIdx
    have : (fun i => (q1.slot i).task == t) = fun i => (q.slot i).task == t := by funext i; rw [show (q1.slot i).task = (q.slot i).task from n2 i]
    rw [this]
  · rw [e] at h
    have N := neu_body (pc := pc) (t := t) hk
    replace h : body pc t k (q.setSlot i { q.slot i with task := t }) = (r, q1) := h
    generalize hz : q.setSlot i { q.slot i with task := t } = z at h
    have n1 := N.inited z; have n2 := N.task z; have n3 := N.ins (errOf z) z.gerrno z
    rw [withErr_self, h] at n3; rw [h] at n1 n2
    have n3 := (Prod.mk.inj n3).2
    have n4 : errOf q1 = errOf z := by rw [n3]; rfl
    have n5 : errOf z = errOf q := by funext j; rw [← hz]; exact setSlot_task q i j t
    have ht : ∀ j, (z.slot j).task = if j = i then t else (q.slot j).task := by
      intro j; rw [← hz, setSlot_slot]; split <;> rfl
    have hin : z.inited = q.inited := by rw [← hz]; rfl
    refine ⟨n1.trans hin, n4.trans n5, ⟨n1.trans hin, fun j _ h0 => ?_, fun j _ h0 => ?_, fun j _ => congrFun (n4.trans n5) j⟩, Or.inr ?_⟩
    · rw [n2, ht, if_neg]; intro hj; rw [hj] at h0; exact h0 c
    · rw [n2, ht]; split
      · exact Or.inr rfl
      · exact Or.inl h0
    · cases hx : taskIdx pc t q1 with
      | some j => exact ⟨j, rfl⟩
      | none => exact absurd (by rw [n2, ht, if_pos rfl]) (taskIdx_none hx i b)

/-- A call: the main section; then, after an error, the assignment to `red_errno`. -/
theorem pexec_main {k : PCall} (hin : q.inited = true) (hki : k ≠ .init) (hku : k ≠ .uninit) (he : early k = false) :
    pexec pc t k q = match (do let _ ← taskRegister pc t; body pc t k : PM PReply) q with
      | (.ok a, q1) => (.ok a, q1)
      | (.error e, q1) => (.error e, if setsErrno k then setErrno pc t e q1 else q1) := by
  have h1 : k.isUninit = false := by cases k <;> first | rfl | exact absurd rfl hku
  have h2 : (do posixEnter pc t; body pc t k : PM PReply) q = (do let _ ← taskRegister pc t; body pc t k : PM PReply) q := by
    unfold posixEnter
    show ((get >>= fun s : PSt => if s.inited then (do let _ ← taskRegister pc t; pure ()) else fail .einval : PM Unit) >>= fun _ => body pc t k) q = _
    rw [run_bind, run_bind]
    simp only [M.get]
    rw [if_pos hin, run_bind, run_bind]
    rcases taskRegister pc t q with ⟨r | a, s⟩ <;> rfl
  have h3 : pexec pc t k q = (let x := (if early k then fail .einval else do posixEnter pc t; body pc t k : PM PReply) q
      match x.1 with
      | .ok a => (.ok a, x.2)
      | .error e => (.error e, if setsErrno k then setErrno pc t e x.2 else x.2)) := by
    unfold pexec
    cases k <;> first | exact absurd rfl hki | (dsimp only; rw [h1]; rfl)
  rw [h3, he]
  simp only [Bool.false_eq_true, if_false]
  rw [h2]
  rcases (do let _ ← taskRegister pc t; body pc t k : PM PReply) q with ⟨r | a, s⟩ <;> rfl

/-- A call that is rejected at once. -/
theorem pexec_early {k : PCall} (he : early k = true) : pexec pc t k q = (.error .einval, setErrno pc t .einval q) := by
  cases k <;> simp [early] at he <;> simp [pexec, early, he, PCall.isUninit, setsErrno, fail]

/-- What is stored after an error. -/
theorem setErrno_eff (hm : pc.tasks ≠ 1) (e : Err) (hin : q.inited = true) (hr : (NoSlot pc t q ∧ taskIdx pc t q = none) ∨ ∃ i, taskIdx pc t q = some i) :
    Stored pc t e (setErrno pc t e q) ∧ (∀ i, ((setErrno pc t e q).slot i).task = (q.slot i).task) ∧
      (∀ i, pc.tasks ≤ i ∨ (q.slot i).task ≠ t → ((setErrno pc t e q).slot i).errno = (q.slot i).errno) ∧ (setErrno pc t e q).inited = true ∧
      ∀ a b, withErr a b (setErrno pc t e q) = withErr a b q := by
  rcases hr with ⟨hn, _⟩ | ⟨i, hi⟩
  · rw [setErrno_no hm hin e hn]
    exact ⟨Or.inr hn, fun _ => rfl, fun _ _ => rfl, hin, fun _ _ => rfl⟩
  · rw [setErrno_reg hm hin e hi]
    obtain ⟨a, b⟩ := taskIdx_some hi
    refine ⟨Or.inl ⟨i, a, (setSlot_errno_task _ _ _ _).trans b, by simp [setSlot_slot]⟩, fun j => setSlot_errno_task _ _ _ _, fun j hj => ?_, hin, fun x y => withErr_setSlot _ _ _ _ _⟩
    rw [setSlot_slot, if_neg]
    rintro rfl
    rcases hj with hj | hj
    · omega
    · exact hj b

theorem SlotEff.then {q1 : PSt} (h : SlotEff pc t q q1) (hi : q'.inited = q1.inited) (ht : ∀ i, (q'.slot i).task = (q1.slot i).task)
    (he : ∀ i, pc.tasks ≤ i ∨ (q1.slot i).task ≠ t → (q'.slot i).errno = (q1.slot i).errno) : SlotEff pc t q q' :=
  ⟨hi.trans h.inited, fun i a b => (ht i).trans (h.keep i a b), fun i a b => by rw [ht]; exact h.fresh i a b,
    fun i a => by rw [ht] at a; exact (he i a).trans (h.errno i a)⟩

/-- The whole call, at the end of its main section. -/
theorem lin_main (hm : pc.tasks ≠ 1) {k : PCall} (hin : q.inited = true) (hki : k ≠ .init) (hku : k ≠ .uninit) (he : early k = false) {r : Except Err PReply} {q1 : PSt}
    (h : (do let _ ← taskRegister pc t; body pc t k : PM PReply) q = (r, q1)) :
    ∃ q', pexec pc t k q = (r, q') ∧ SlotEff pc t q q' ∧ (∀ a b, withErr a b q' = withErr a b q1) ∧
      (∀ e, r = .error e → setsErrno k = true → Stored pc t e q') ∧ ((¬ ∃ e, r = .error e ∧ setsErrno k = true) → errOf q' = errOf q) := by
  obtain ⟨a, b, c, d⟩ := main_cases hm hku q h
  rw [pexec_main hin hki hku he, h]
  rcases r with e | v
  · by_cases hs : setsErrno k = true
    · dsimp only; rw [if_pos hs]
      obtain ⟨e1, e2, e3, e4, e5⟩ := setErrno_eff hm e (a.trans hin) d
      refine ⟨_, rfl, c.then (e4.trans (a.trans hin).symm) e2 e3, e5, ?_, fun h => absurd ⟨e, rfl, hs⟩ h⟩
      rintro e' h' -
      rw [← Except.error.inj h']; exact e1
    · dsimp only; rw [if_neg hs]
      exact ⟨_, rfl, c, fun _ _ => rfl, fun _ _ h => absurd h hs, fun _ => b⟩
  · exact ⟨_, rfl, c, fun _ _ => rfl, (fun _ h => by cases h), fun _ => b⟩

/-- A call that is rejected at once, when the slot of the task is found. -/
theorem lin_find (hm : pc.tasks ≠ 1) {k : PCall} (hin : q.inited = true) (he : early k = true) {i : Nat} (h : taskIdx pc t q = some i) :
    ∃ q', pexec pc t k q = (.error .einval, q') ∧ SlotEff pc t q q' ∧ (∀ a b, withErr a b q' = withErr a b q) ∧
      i < pc.tasks ∧ (q'.slot i).task = t ∧ (q'.slot i).errno = some .einval := by
  obtain ⟨e1, e2, e3, e4, e5⟩ := setErrno_eff (t := t) (q := q) hm .einval hin (Or.inr ⟨i, h⟩)
  obtain ⟨a, b⟩ := taskIdx_some h
  have h0 : SlotEff pc t q q := ⟨rfl, fun _ _ _ => rfl, fun i _ h => Or.inl h, fun _ _ => rfl⟩
  refine ⟨_, pexec_early he, h0.then (e4.trans hin.symm) e2 e3, e5, a, (e2 i).trans b, ?_⟩
  rw [setErrno_reg hm hin .einval h]; simp [setSlot_slot]

/-- A call that is rejected at once, when the task is registered. -/
theorem lin_reg (hm : pc.tasks ≠ 1) {k : PCall} (hin : q.inited = true) (he : early k = true) (h0 : t ≠ 0) :
    ∃ q', pexec pc t k q = (.error .einval, q') ∧ SlotEff pc t q q' ∧ (∀ a b, withErr a b q' = withErr a b (sec pc t (.reg k .einval) q).2) ∧
      ∃ io, (sec pc t (.reg k .einval) q).1 = .idx io ∧
        match io with
        | some i => i < pc.tasks ∧ (q'.slot i).task = t ∧ (q'.slot i).errno = some .einval
        | none => NoSlot pc t q' := by
  have hr : ∀ q, SlotEff pc t q q := fun q => ⟨rfl, fun _ _ _ => rfl, fun i _ h => Or.inl h, fun _ _ => rfl⟩
  rw [pexec_early he]
  simp only [sec]
  rcases reg_cases hm t q with ⟨a, b, e⟩ | ⟨i, a, b, c, e⟩ | ⟨i, a, b, c, d, e⟩
  · rw [e, setErrno_no hm hin _ a]
    exact ⟨_, rfl, ⟨rfl, fun _ _ _ => rfl, fun i _ h => Or.inl h, fun _ _ => rfl⟩, fun _ _ => rfl, none, rfl, a⟩
  · rw [e]
    obtain ⟨q', x1, x2, x3, x4⟩ := lin_find (k := k) hm hin he c
    rw [pexec_early he] at x1
    exact ⟨q', x1, x2, x3, some i, rfl, x4⟩
  · rw [e]
    have hx : setErrno pc t .einval q = (q.setSlot i { q.slot i with task := t }).setSlot i { (q.setSlot i { q.slot i with task := t }).slot i with errno := some .einval } := by
      unfold setErrno; rw [if_neg hm, if_pos hin, e]
    rw [hx]
    refine ⟨_, rfl, ⟨rfl, fun j _ hj => ?_, fun j _ hj => ?_, fun j hj => ?_⟩, fun _ _ => withErr_setSlot _ _ _ _ _, some i, rfl, b, ?_, ?_⟩
    · rw [setSlot_errno_task, setSlot_slot, if_neg]; rintro rfl; exact hj c
    · rw [setSlot_errno_task, setSlot_slot]; split
      · exact Or.inr rfl
      · exact Or.inl hj
    · rw [setSlot_errno_task] at hj
      rw [setSlot_slot, if_neg, setSlot_task]
      rintro rfl
      rcases hj with hj | hj
      · omega
      · exact hj (by simp [setSlot_slot])
    · rw [setSlot_errno_task]; simp [setSlot_slot]
    · simp [setSlot_slot]

/-! ### Marked histories -/

theorem observed_append (l m : List Mark) : observed (l ++ m) = observed l ++ observed m := by
  induction l with
  | nil => rfl
  | cons a l ih => cases a <;> simp [observed, ih]
theorem effects_append (l m : List Mark) : effects (l ++ m) = effects l ++ effects m := by
  induction l with
  | nil => rfl
  | cons a l ih => cases a <;> simp [effects, ih]

/-! ### Steps of a section -/

variable {I : Impl}

theorem Steps.head {m m1 m2 : I.μ} {s s1 s2 : PSt} (e : I.step m s = (.inl m1, s1)) (h : Steps I m1 s1 m2 s2) : Steps I m s m2 s2 := by
  induction h with
  | refl => exact .next .refl e
  | next _ e' ih => exact .next (ih e) e'

theorem Steps.end_unique {m m1 m2 : I.μ} {s s1 s2 : PSt} {o1 o2 : Out} {z1 z2 : PSt} (h1 : Steps I m s m1 s1) (h2 : Steps I m s m2 s2)
    (e1 : I.step m1 s1 = (.inr o1, z1)) (e2 : I.step m2 s2 = (.inr o2, z2)) : o1 = o2 ∧ z1 = z2 := by
  -- one is a prefix of the other
  have key : ∀ {m2 s2}, Steps I m s m2 s2 → Steps I m2 s2 m1 s1 ∨ Steps I m1 s1 m2 s2 := by
    clear h2 e2
    intro m2 s2 h
    induction h with
    | refl => exact Or.inl h1
    | next h e ih =>
      rcases ih h1 with ih | ih
      · -- the next step of the first sequence is this one
        have hd : ∀ {m s m' s'}, Steps I m s m' s' → (m = m' ∧ s = s') ∨ ∃ m1 s1, I.step m s = (.inl m1, s1) ∧ Steps I m1 s1 m' s' := by
          intro m s m' s' h
          induction h with
          | refl => exact Or.inl ⟨rfl, rfl⟩
          | next h e ih =>
            rcases ih with ⟨rfl, rfl⟩ | ⟨m1, s1, x, y⟩
            · exact Or.inr ⟨_, _, e, .refl⟩
            · exact Or.inr ⟨m1, s1, x, .next y e⟩
        rcases hd ih with ⟨rfl, rfl⟩ | ⟨m3, s3, x, y⟩
        · exact Or.inr (.next .refl e)
        · rw [e] at x
          obtain ⟨x1, x2⟩ := Prod.mk.inj x
          cases x1; cases x2
          exact Or.inl y
      · exact Or.inr (.next ih e)
  have stop : ∀ {m m' s s' o z}, I.step m s = (.inr o, z) → Steps I m s m' s' → m = m' ∧ s = s' := by
    intro m m' s s' o z e h
    induction h with
    | refl => exact ⟨rfl, rfl⟩
    | next h e' ih =>
      obtain ⟨rfl, rfl⟩ := ih e
      rw [e] at e'
      cases (Prod.mk.inj e').1
  rcases key h2 with h | h
  · obtain ⟨rfl, rfl⟩ := stop e2 h
    rw [e1] at e2
    obtain ⟨x, y⟩ := Prod.mk.inj e2
    exact ⟨Sum.inr.inj x, y⟩
  · obtain ⟨rfl, rfl⟩ := stop e1 h
    rw [e1] at e2
    obtain ⟨x, y⟩ := Prod.mk.inj e2
    exact ⟨Sum.inr.inj x, y⟩

end
end RedFs.Posix
