import Verif.Model.Refs
/-! References: the invariant and its preservation by the functions on one inode. -/
set_option linter.unusedSimpArgs false
set_option linter.unusedVariables false
namespace RedFs.Refs
open RedFs M

/-- How many references each variable may hold; `none`: it may be uninitialised and holds none. -/
abbrev Caps := Slot → Option Nat
def Caps.set (A : Caps) (k : Slot) (x : Option Nat) : Caps := fun j => if j = k then x else A j
def Caps.total (A : Caps) : Nat :=
  (A .srcP).getD 0 + (A .dstP).getD 0 + (A .src).getD 0 + (A .dst).getD 0 + (A .next).getD 0

/-- An initialised variable without dangling pointers. -/
structure Good (c : Cfg) (p : Ptrs) : Prop where
  clean : ∀ f, p f ≠ .stale
  dind : c.hasDindir = false → p .dindir = .null
  ind : c.hasIndir = false → p .indir = .null

def Fits (c : Cfg) : Option Nat → Option Ptrs → Prop
  | none, x => cnt x = 0
  | some n, x => ∃ p, x = some p ∧ Good c p ∧ cntP p ≤ n

structure InvT (c : Cfg) (A : Caps) (t : Nat) (s : St) : Prop where
  short : s.short = false
  bad : s.bad = false
  tmp : s.tmp = t
  peak : s.peak ≤ c.minimum
  fits : ∀ j, Fits c (A j) (s.ci j)

abbrev Inv (c : Cfg) (A : Caps) (s : St) : Prop := InvT c A 0 s

/-- There is room for everything allowed and an imap node. -/
structure Room (c : Cfg) (A : Caps) : Prop where
  ptrs : c.direct + c.indirect ≤ c.entries
  min : c.minimum ≤ c.bufs
  room : A.total + c.imapBuffers ≤ c.minimum

/-- `m` preserves `I`, whatever it returns. -/
def Keep (I : St → Prop) (m : M St α) : Prop := ∀ s, I s → I (m s).2
/-- From `P`, `m` leads to `Q` if it succeeds and to `E` if it fails. -/
def Tri (P : St → Prop) (m : M St α) (Q E : St → Prop) : Prop :=
  ∀ s, P s → match (m s).1 with
    | .ok _ => Q (m s).2
    | .error _ => E (m s).2

variable {I P Q R E : St → Prop} {α β : Type}

/-- Invariants that do not look at the decisions to come. -/
def Blind (I : St → Prop) : Prop := ∀ s o, I s → I { s with orc := o }

theorem Keep.pure (a : α) : Keep I (Pure.pure a : M St α) := fun _ h => h
theorem Keep.fail (e : Err) : Keep I (M.fail e : M St α) := fun _ h => h
theorem Keep.ofExcept (r : Except Err α) : Keep I (M.ofExcept r : M St α) := fun _ h => h
theorem Keep.get : Keep I (M.get : M St St) := fun _ h => h
theorem Keep.bind {m : M St α} {f : α → M St β} (hm : Keep I m) (hf : ∀ a, Keep I (f a)) : Keep I (m >>= f) := by
  intro s h
  have h1 := hm s h
  rw [M.run_bind]
  rcases hms : m s with ⟨r | a, s'⟩
  · simpa [hms] using h1
  · have : I s' := by simpa [hms] using h1
    exact hf a s' this
theorem Keep.attempt {m : M St α} (hm : Keep I m) : Keep I (M.attempt m) := fun s h => hm s h
theorem Keep.ite {p : Prop} [Decidable p] {a b : M St α} (ha : p → Keep I a) (hb : ¬ p → Keep I b) :
    Keep I (if p then a else b) := by
  split
  · next h => exact ha h
  · next h => exact hb h
theorem Keep.choose (hI : Blind I) : Keep I choose := by
  intro s h
  unfold Refs.choose
  split
  · exact h
  · exact hI _ _ h

theorem Keep.tri {m : M St α} (h : Keep I m) : Tri I m I I := by
  intro s hs
  have := h s hs
  split <;> exact this
theorem Tri.keep {m : M St α} (h : Tri I m I I) : Keep I m := by
  intro s hs
  have := h s hs
  split at this <;> exact this
theorem Tri.bind {m : M St α} {f : α → M St β} (hm : Tri P m Q E) (hf : ∀ a, Tri Q (f a) R E) : Tri P (m >>= f) R E := by
  intro s h
  have h1 := hm s h
  rw [M.run_bind]
  rcases hms : m s with ⟨r | a, s'⟩
  · simpa [hms] using h1
  · have : Q s' := by simpa [hms] using h1
    exact hf a s' this
theorem Tri.mono {m : M St α} {P' Q' E' : St → Prop} (h : Tri P m Q E) (hP : ∀ s, P' s → P s) (hQ : ∀ s, Q s → Q' s)
    (hE : ∀ s, E s → E' s) : Tri P' m Q' E' := by
  intro s hs
  have := h s (hP s hs)
  rcases hms : m s with ⟨r | a, s'⟩
  · simp only [hms] at this ⊢; exact hE _ this
  · simp only [hms] at this ⊢; exact hQ _ this
/-- `andThen`: whatever `m` returns, `fin` runs. -/
theorem Tri.andThen {m fin : M St Unit} (hm : Tri P m Q Q) (hf : Tri Q fin R R) : Tri P (andThen m fin) R R := by
  intro s h
  have h1 := hm s h
  have h2 : Q (m s).2 := by split at h1 <;> exact h1
  have h3 := hf _ h2
  unfold Refs.andThen
  simp only [M.run_bind, M.run_attempt]
  rcases hf2 : fin (m s).2 with ⟨r | a, s'⟩
  · simp [hf2] at h3 ⊢; exact h3
  · simp [hf2] at h3 ⊢
    cases (m s).1 <;> exact h3

theorem flip_run (s : St) : ∃ b o, flip s = (.ok b, { s with orc := o }) := by
  rcases ho : s.orc with _ | ⟨x, r⟩
  · refine ⟨false, s.orc, ?_⟩
    show (Refs.choose >>= fun x => pure (decide (x ≠ 0))) s = _
    have : Refs.choose s = (.ok 0, s) := by unfold Refs.choose; rw [ho]
    rw [M.run_bind, this]; rfl
  · refine ⟨decide (x ≠ 0), r, ?_⟩
    show (Refs.choose >>= fun x => pure (decide (x ≠ 0))) s = _
    have : Refs.choose s = (.ok x, { s with orc := r }) := by unfold Refs.choose; rw [ho]
    rw [M.run_bind, this]; rfl

theorem InvT.blind (c : Cfg) (A : Caps) (t : Nat) : Blind (InvT c A t) :=
  fun s o h => ⟨h.short, h.bad, h.tmp, h.peak, h.fits⟩

theorem Keep.flip (hI : Blind I) : Keep I flip := Keep.bind (Keep.choose hI) fun _ => Keep.pure _
theorem Keep.status (hI : Blind I) : Keep I status := by
  refine Keep.bind (Keep.choose hI) fun x => ?_
  split <;> first | exact Keep.pure _ | exact Keep.fail _
theorem Keep.maybe (hI : Blind I) {m : M St Unit} (h : Keep I m) : Keep I (maybe m) :=
  Keep.bind (Keep.flip hI) fun _ => Keep.ite (fun _ => h) (fun _ => Keep.pure _)
theorem Keep.whenB {b : Bool} {m : M St Unit} (h : b = true → Keep I m) : Keep I (whenB b m) :=
  Keep.ite h (fun _ => Keep.pure _)
theorem Keep.allow {p : Err → Bool} {m : M St Unit} (h : Keep I m) : Keep I (allow p m) := by
  refine Keep.bind (Keep.attempt h) fun r => ?_
  split
  · exact Keep.pure _
  · exact Keep.ite (fun _ => Keep.pure _) (fun _ => Keep.fail _)
theorem Keep.noData {m : M St Unit} (h : Keep I m) : Keep I (noData m) := Keep.allow h
theorem Keep.noSpace (hI : Blind I) {m : M St Unit} (h : Keep I m) : Keep I (noSpace m) :=
  Keep.bind (Keep.flip hI) fun _ => Keep.allow h
theorem Keep.andThen {m fin : M St Unit} (h : Keep I m) (hf : Keep I fin) : Keep I (andThen m fin) :=
  Keep.bind (Keep.attempt h) fun _ => Keep.bind hf fun _ => Keep.ofExcept _
theorem Keep.loop (hI : Blind I) {body : M St Bool} (h : Keep I body) : Keep I (loop body) := by
  have hN : ∀ n, Keep I (loopN body n) := by
    intro n
    induction n with
    | zero => exact Keep.pure _
    | succ n ih =>
      refine Keep.bind (Keep.flip hI) fun _ => Keep.ite (fun _ => ?_) (fun _ => Keep.pure _)
      exact Keep.bind h fun _ => Keep.ite (fun _ => Keep.pure _) (fun _ => ih)
  exact fun s hs => hN _ s hs

/-! The basic operations. -/

theorem cnt_fits {c : Cfg} {x : Option Nat} {y : Option Ptrs} (h : Fits c x y) : cnt y ≤ x.getD 0 := by
  cases x with
  | none => have h : cnt y = 0 := h; rw [h]; exact Nat.zero_le _
  | some n => obtain ⟨p, rfl, _, hp⟩ := h; exact hp
theorem held_le {c : Cfg} {A : Caps} {t : Nat} {s : St} (h : InvT c A t s) : s.held ≤ t + A.total := by
  unfold St.held Caps.total
  have h1 := cnt_fits (h.fits .srcP); have h2 := cnt_fits (h.fits .dstP); have h3 := cnt_fits (h.fits .src)
  have h4 := cnt_fits (h.fits .dst); have h5 := cnt_fits (h.fits .next)
  have := h.tmp
  omega

/-- The four pointers fit into `INODE_BUFFERS`. -/
theorem good_cnt {c : Cfg} (hp : c.direct + c.indirect ≤ c.entries) {p : Ptrs} (h : Good c p) : cntP p ≤ c.inodeBuffers := by
  have hc : ∀ f, (p f).cnt ≤ 1 := by intro f; cases p f <;> decide
  have h1 := hc .node; have h2 := hc .dindir; have h3 := hc .indir; have h4 := hc .data
  unfold cntP Cfg.inodeBuffers Cfg.inodeMeta
  by_cases hd : c.hasDindir = true
  · simp only [hd, if_true]; omega
  · have hd' : c.hasDindir = false := by simpa using hd
    have h2' : (p .dindir).cnt = 0 := by rw [h.dind hd']; rfl
    by_cases hi : 0 < c.indirect
    · simp only [hd', hi, if_true]; simp; omega
    · have hi' : c.hasIndir = false := by
        unfold Cfg.hasDindir at hd'; unfold Cfg.hasIndir
        simp only [decide_eq_false_iff_not, Nat.not_lt] at hd' ⊢
        omega
      have h3' : (p .indir).cnt = 0 := by rw [h.ind hi']; rfl
      simp only [hd', hi, if_false]; simp; omega

theorem fits_held_lt {c : Cfg} (hp : c.direct + c.indirect ≤ c.entries) {p : Ptrs} (h : Good c p) {f : Fld}
    (hf : p f = .null) (hd : f = .dindir → c.hasDindir = true) (hi : f = .indir → c.hasIndir = true) :
    cntP p + 1 ≤ c.inodeBuffers ∧ Good c (p.set f .held) ∧ cntP (p.set f .held) = cntP p + 1 := by
  have hg : Good c (p.set f .held) := by
    refine ⟨fun g => ?_, fun hn => ?_, fun hn => ?_⟩
    · unfold Ptrs.set; split
      · decide
      · exact h.clean g
    · unfold Ptrs.set; split
      · next heq => have := hd heq.symm; simp [this] at hn
      · exact h.dind hn
    · unfold Ptrs.set; split
      · next heq => have := hi heq.symm; simp [this] at hn
      · exact h.ind hn
  have hcnt : cntP (p.set f .held) = cntP p + 1 := by
    unfold cntP Ptrs.set
    cases f <;> simp [hf, Ref.cnt] <;> omega
  exact ⟨hcnt ▸ good_cnt hp hg, hg, hcnt⟩

theorem total_ge (A : Caps) (k : Slot) {n : Nat} (h : A k = some n) : n ≤ A.total := by
  unfold Caps.total; cases k <;> simp [h] <;> omega

theorem held_other {c : Cfg} {A : Caps} {t : Nat} {s : St} (h : InvT c A t s) {k : Slot} {n : Nat} {p : Ptrs}
    (hk : A k = some n) (hp : s.ci k = some p) : s.held + n ≤ t + A.total + cntP p := by
  unfold St.held Caps.total
  have h1 := cnt_fits (h.fits .srcP); have h2 := cnt_fits (h.fits .dstP); have h3 := cnt_fits (h.fits .src)
  have h4 := cnt_fits (h.fits .dst); have h5 := cnt_fits (h.fits .next)
  have := h.tmp
  cases k <;> simp [hk, hp, cnt] at * <;> omega

theorem setP_inv {c : Cfg} {A : Caps} {t : Nat} {s : St} (h : InvT c A t s) (k : Slot) {x : Option Nat} {y : Option Ptrs}
    (hx : Fits c x y) : InvT c (A.set k x) t (s.setP k y) := by
  refine ⟨h.short, h.bad, h.tmp, h.peak, fun j => ?_⟩
  unfold Caps.set St.setP
  simp only
  split
  · exact hx
  · exact h.fits j
theorem set_self {A : Caps} {k : Slot} {x : Option Nat} (h : A k = x) : A.set k x = A := by
  funext j; unfold Caps.set; split
  · next hj => rw [hj, h]
  · rfl
theorem set_set (A : Caps) (k : Slot) (x y : Option Nat) : (A.set k x).set k y = A.set k y := by
  funext j; unfold Caps.set; split <;> rfl
theorem set_same (A : Caps) (k : Slot) (x : Option Nat) : (A.set k x) k = x := by simp [Caps.set]

/-- `RedBufferGet` with room for one more. -/
theorem bufGet_tri {c : Cfg} {A : Caps} {t : Nat} {s : St} (h : InvT c A t s) (hr : s.held + 1 ≤ c.minimum)
    (hm : c.minimum ≤ c.bufs) :
    match (bufGet c s).1 with
    | .ok _ => InvT c A t (bufGet c s).2 ∧ (bufGet c s).2.ci = s.ci ∧ (bufGet c s).2.tmp = s.tmp
    | .error _ => InvT c A t (bufGet c s).2 := by
  have hlt : ¬ c.bufs ≤ s.held := by omega
  obtain ⟨b, o, hfl⟩ := flip_run s
  unfold bufGet
  simp only [M.run_bind, M.run_get, hlt, if_false, hfl]
  cases b
  · simp only [Bool.false_eq_true, if_false, M.run_modify]
    exact ⟨⟨h.short, h.bad, h.tmp, Nat.max_le.2 ⟨h.peak, hr⟩, h.fits⟩, (by trivial), (by trivial)⟩
  · simp only [if_true, M.run_fail]
    exact ⟨h.short, h.bad, h.tmp, h.peak, h.fits⟩

/-- `RedBufferGet` into a pointer of an inode. -/
theorem acquire_tri {c : Cfg} {A : Caps} {s : St} {k : Slot} {f : Fld} {n m : Nat} (h : Inv c A s)
    (hk : A k = some n) (hp : c.direct + c.indirect ≤ c.entries) (hm : c.minimum ≤ c.bufs)
    (hroom : (A.set k (some m)).total ≤ c.minimum)
    (hfit : ∀ p, s.ci k = some p → p f = .null ∧ cntP p + 1 ≤ m)
    (hnm : n ≤ m)
    (hd : f = .dindir → c.hasDindir = true) (hi : f = .indir → c.hasIndir = true) :
    match (acquire c k f s).1 with
    | .ok _ => Inv c (A.set k (some m)) (acquire c k f s).2
    | .error _ => Inv c A (acquire c k f s).2 := by
  have hfk := h.fits k
  rw [hk] at hfk
  obtain ⟨p, hpk, hg, hcn⟩ := hfk
  obtain ⟨hnull, hle⟩ := hfit p hpk
  have hinc : InvT c (A.set k (some m)) 0 s := by
    have := setP_inv (c := c) h k (x := some m) (y := some p) ⟨p, rfl, hg, by omega⟩
    have hs : s.setP k (some p) = s := by
      unfold St.setP
      have : (fun j => if j = k then some p else s.ci j) = s.ci := by
        funext j; split
        · next hj => rw [hj, hpk]
        · rfl
      rw [this]
    rwa [hs] at this
  have hheld : s.held + 1 ≤ c.minimum := by
    have := held_other hinc (set_same A k (some m)) hpk
    omega
  have hb := bufGet_tri h hheld hm
  unfold acquire
  simp only [M.run_bind, M.run_get, hpk, hnull, if_true, M.run_pure]
  rcases hbg : bufGet c s with ⟨r | a, s'⟩
  · simp only [hbg] at hb ⊢; exact hb
  · simp only [hbg, M.run_modify] at hb ⊢
    obtain ⟨hb1, hb2, hb3⟩ := hb
    have : s'.setF k f .held = s'.setP k (some (p.set f .held)) := by unfold St.setF; rw [hb2, hpk]
    rw [this]
    obtain ⟨-, hg', hc'⟩ := fits_held_lt hp hg hnull hd hi
    exact setP_inv hb1 k ⟨_, rfl, hg', by omega⟩

/-- The variable `k` is initialised. -/
def Caps.Has (A : Caps) (k : Slot) : Prop := ∃ n, A k = some n

theorem set_null_good {c : Cfg} {p : Ptrs} (h : Good c p) (f : Fld) : Good c (p.set f .null) := by
  refine ⟨fun g => ?_, fun hn => ?_, fun hn => ?_⟩
  · unfold Ptrs.set; split
    · decide
    · exact h.clean g
  · unfold Ptrs.set; split
    · rfl
    · exact h.dind hn
  · unfold Ptrs.set; split
    · rfl
    · exact h.ind hn

/-- `release` sets the pointer to NULL and leaves the others. -/
theorem release_run {c : Cfg} {A : Caps} {t : Nat} {s : St} {k : Slot} {n : Nat} (f : Fld) (h : InvT c A t s)
    (hk : A k = some n) : ∃ p, s.ci k = some p ∧ Good c p ∧ cntP p ≤ n ∧
      release k f s = (.ok (), s.setP k (some (p.set f .null))) := by
  have hfk := h.fits k
  rw [hk] at hfk
  obtain ⟨p, hpk, hg, hcn⟩ := hfk
  refine ⟨p, hpk, hg, hcn, ?_⟩
  unfold release
  simp only [M.run_bind, M.run_get, hpk]
  have hcl := hg.clean f
  rcases hpf : p f with _ | _ | _
  · simp only [M.run_pure]
    have h1 : p.set f .null = p := by
      funext g; unfold Ptrs.set; split
      · next hgf => rw [hgf, hpf]
      · rfl
    have h2 : s.setP k (some p) = s := by
      unfold St.setP
      have : (fun j => if j = k then some p else s.ci j) = s.ci := by
        funext j; split
        · next hj => rw [hj, hpk]
        · rfl
      rw [this]
    rw [h1, h2]
  · simp only [M.run_modify, St.setF, hpk]
  · exact absurd hpf hcl

theorem set_null_cnt (p : Ptrs) (f : Fld) : cntP (p.set f .null) ≤ cntP p := by
  unfold cntP Ptrs.set
  cases f <;> simp [Ref.cnt]

theorem release_keep {c : Cfg} {A : Caps} {t : Nat} {k : Slot} (f : Fld) (hk : A.Has k) : Keep (InvT c A t) (release k f) := by
  intro s h
  obtain ⟨n, hk⟩ := hk
  obtain ⟨p, hp, hg, hc, hr⟩ := release_run f h hk
  rw [hr]
  have := setP_inv (c := c) h k (x := some n) (y := some (p.set f .null))
    ⟨_, rfl, set_null_good hg f, Nat.le_trans (set_null_cnt p f) hc⟩
  rwa [set_self hk] at this

theorem isNull_keep {c : Cfg} {A : Caps} {t : Nat} {k : Slot} (f : Fld) (hk : A.Has k) : Keep (InvT c A t) (isNull k f) := by
  intro s h
  obtain ⟨n, hk⟩ := hk
  have hfk := h.fits k
  rw [hk] at hfk
  obtain ⟨p, hpk, hg, hcn⟩ := hfk
  unfold isNull
  simp only [M.run_bind, M.run_get, hpk, M.run_pure]
  exact h
theorem mounted_keep {c : Cfg} {A : Caps} {t : Nat} {k : Slot} (hk : A.Has k) : Keep (InvT c A t) (mounted k) := by
  intro s h
  obtain ⟨n, hk⟩ := hk
  have hfk := h.fits k
  rw [hk] at hfk
  obtain ⟨p, hpk, hg, hcn⟩ := hfk
  unfold mounted
  simp only [M.run_bind, M.run_get, hpk]
  split
  · exact h
  · exact Keep.status (InvT.blind c A t) s h

/-- The variable `k` may hold everything an inode can hold. -/
structure Full (c : Cfg) (A : Caps) (k : Slot) : Prop extends Room c A where
  cap : A k = some c.inodeBuffers
theorem Full.has {c : Cfg} {A : Caps} {k : Slot} (h : Full c A k) : A.Has k := ⟨_, h.cap⟩

theorem ifNull_acquire_keep {c : Cfg} {A : Caps} {k : Slot} (f : Fld) (h : Full c A k)
    (hd : f = .dindir → c.hasDindir = true) (hi : f = .indir → c.hasIndir = true) :
    Keep (Inv c A) (ifNull k f (acquire c k f)) := by
  intro s hs
  have hfk := hs.fits k
  rw [h.cap] at hfk
  obtain ⟨p, hpk, hg, hcn⟩ := hfk
  unfold ifNull isNull
  simp only [M.run_bind, M.run_get, hpk, M.run_pure]
  unfold whenB
  by_cases hf : p f = .null
  · simp only [hf, decide_true, if_true]
    have ht : (A.set k (some c.inodeBuffers)) = A := set_self h.cap
    have hle : ∀ q, s.ci k = some q → q f = .null ∧ cntP q + 1 ≤ c.inodeBuffers := by
      intro q hq
      have : q = p := Option.some.inj (hq ▸ hpk)
      subst this
      exact ⟨hf, (fits_held_lt h.ptrs hg hf hd hi).1⟩
    have := acquire_tri (m := c.inodeBuffers) (f := f) hs h.cap h.ptrs h.min
      (by rw [ht]; have := h.room; omega) hle (Nat.le_refl _) hd hi
    rw [ht] at this
    split at this <;> exact this
  · simp only [hf, decide_false, Bool.false_eq_true, if_false, M.run_pure]
    exact hs

/-! References to imap nodes. -/

theorem tmpGet_tri {c : Cfg} {A : Caps} (hp : A.total + 1 ≤ c.minimum) (hm : c.minimum ≤ c.bufs) :
    Tri (Inv c A) (tmpGet c) (InvT c A 1) (Inv c A) := by
  intro s h
  have hh := held_le h
  have hb := bufGet_tri h (by omega) hm
  unfold tmpGet
  simp only [M.run_bind]
  rcases hbg : bufGet c s with ⟨r | a, s'⟩
  · simp only [hbg] at hb ⊢; exact hb
  · simp only [hbg, M.run_modify] at hb ⊢
    obtain ⟨hb1, hb2, hb3⟩ := hb
    exact ⟨hb1.short, hb1.bad, by rw [hb1.tmp], hb1.peak, hb1.fits⟩
theorem tmpPut_tri {c : Cfg} {A : Caps} : Tri (InvT c A 1) tmpPut (Inv c A) (Inv c A) := by
  intro s h
  unfold tmpPut
  simp only [M.run_modify]
  rw [if_neg (by rw [h.tmp]; decide)]
  exact ⟨h.short, h.bad, by rw [h.tmp], h.peak, h.fits⟩

theorem ext_room {c : Cfg} {A : Caps} (h : Room c A) (he : c.imapExternal = true) : A.total + 1 ≤ c.minimum := by
  have := h.room
  unfold Cfg.imapBuffers at this
  rw [he] at this
  simpa using this

theorem flipT {c : Cfg} {A : Caps} {t : Nat} {E : St → Prop} : Tri (InvT c A t) flip (InvT c A t) E := by
  intro s hs
  obtain ⟨b, o, hfl⟩ := flip_run s
  rw [hfl]
  exact InvT.blind c A t _ _ hs

/-- Running `m` where `external` was chosen. -/
theorem external_bind {c : Cfg} {A : Caps} {f : Bool → M St β} (h1 : c.imapExternal = true → Keep (Inv c A) (f true))
    (h0 : Keep (Inv c A) (f false)) : Keep (Inv c A) (external c >>= f) := by
  unfold external
  by_cases he : c.imapExternal = true
  · simp only [he, if_true]
    by_cases hi : c.imapInline = true
    · simp only [hi, if_true]
      refine Keep.bind (Keep.flip (InvT.blind c A 0)) fun b => ?_
      cases b
      · exact h0
      · exact h1 he
    · simp only [hi, if_false]
      intro s h
      exact h1 he s h
  · simp only [he, if_false]
    intro s h
    exact h0 s h

variable {c : Cfg} {A : Caps} {k : Slot}

theorem eBlockGet_keep (h : Room c A) (he : c.imapExternal = true) : Keep (Inv c A) (eBlockGet c) := by
  apply Tri.keep
  exact Tri.bind (Keep.tri (Keep.status (InvT.blind c A 0))) fun _ =>
    Tri.bind (tmpGet_tri (ext_room h he) h.min) fun _ => tmpPut_tri
theorem blockGet_keep (h : Room c A) : Keep (Inv c A) (blockGet c) := by
  refine Keep.bind (Keep.status (InvT.blind c A 0)) fun _ => external_bind (fun he => ?_) ?_
  · exact eBlockGet_keep h he
  · exact Keep.status (InvT.blind c A 0)
theorem imapNodeBranch_tri (h : Room c A) (he : c.imapExternal = true) :
    Tri (Inv c A) (imapNodeBranch c) (InvT c A 1) (Inv c A) := by
  have hb := InvT.blind c A 0
  refine Tri.bind (Keep.tri (Keep.status hb)) fun _ => Tri.bind (Keep.tri (Keep.flip hb)) fun b => ?_
  have ht := tmpGet_tri (ext_room h he) h.min
  cases b
  · exact Tri.bind (Keep.tri (Keep.status hb)) fun _ => ht
  · exact ht
theorem eBlockSet_keep (h : Room c A) (he : c.imapExternal = true) : Keep (Inv c A) (eBlockSet c) := by
  have hb := InvT.blind c A 0
  have hb1 := InvT.blind c A 1
  apply Tri.keep
  refine Tri.bind (Keep.tri (Keep.status hb)) fun _ => Tri.bind (imapNodeBranch_tri h he) fun _ => ?_
  have hfl : Tri (InvT c A 1) flip (InvT c A 1) (Inv c A) := flipT
  refine Tri.bind hfl fun w => Tri.bind tmpPut_tri fun _ => Keep.tri (Keep.whenB fun _ => Keep.fail _)
theorem blockSet_keep (h : Room c A) : Keep (Inv c A) (blockSet c) := by
  have hb := InvT.blind c A 0
  have hrest : Keep (Inv c A) (do maybe status; maybe (maybe (blockGet c))) :=
    Keep.bind (Keep.maybe hb (Keep.status hb)) fun _ => Keep.maybe hb (Keep.maybe hb (blockGet_keep h))
  refine Keep.bind (Keep.status hb) fun _ => external_bind (fun he => ?_) ?_
  · exact Keep.bind (eBlockSet_keep h he) fun _ => hrest
  · exact Keep.bind (Keep.status hb) fun _ => hrest

/-- The state in the search loop: a reference is held exactly if `has`. -/
def has1 (b : Bool) : Nat := if b then 1 else 0

/-- Like `Tri`, with the result. -/
def TriR (P : St → Prop) (m : M St α) (Q : α → St → Prop) (E : St → Prop) : Prop :=
  ∀ s, P s → match (m s).1 with
    | .ok a => Q a (m s).2
    | .error _ => E (m s).2
theorem TriR.bind {m : M St α} {f : α → M St β} {Q : α → St → Prop} {R : β → St → Prop} (hm : TriR P m Q E)
    (hf : ∀ a, TriR (Q a) (f a) R E) : TriR P (m >>= f) R E := by
  intro s h
  have h1 := hm s h
  rw [M.run_bind]
  rcases hms : m s with ⟨r | a, s'⟩
  · simpa [hms] using h1
  · have : Q a s' := by simpa [hms] using h1
    exact hf a s' this
theorem TriR.pure {Q : α → St → Prop} {a : α} (h : ∀ s, P s → Q a s) : TriR P (Pure.pure a : M St α) Q E := fun s hs => h s hs
theorem Tri.toR {m : M St α} (h : Tri P m Q E) : TriR P m (fun _ => Q) E := h
def after (Q E : St → Prop) : Except Err α → St → Prop
  | .ok _ => Q
  | .error _ => E
/-- `attempt`: the error state becomes the state of the result `error`. -/
theorem Tri.attemptR {m : M St α} (h : Tri P m Q E) {F : St → Prop} :
    TriR P (M.attempt m) (after Q E) F := by
  intro s hs
  have := h s hs
  show after Q E (m s).1 (m s).2
  rcases hms : m s with ⟨r | a, s'⟩
  · simpa [hms, after] using this
  · simpa [hms, after] using this
theorem TriR.flip {t : Nat} : TriR (InvT c A t) flip (fun _ => InvT c A t) E := flipT

theorem findFreeRound_tri (h : Room c A) (he : c.imapExternal = true) (has : Bool) :
    TriR (InvT c A (has1 has)) (findFreeRound c has) (fun x => InvT c A (has1 x.1)) (fun _ => False) := by
  have hg : Tri (Inv c A) (tmpGet c) (InvT c A 1) (Inv c A) := tmpGet_tri (ext_room h he) h.min
  have hput : Tri (InvT c A 1) tmpPut (Inv c A) (fun _ => False) := by
    intro s hs; exact tmpPut_tri s hs
  refine TriR.bind TriR.flip fun other => ?_
  have h1 : Tri (InvT c A (has1 has)) (whenB (has && other) tmpPut) (InvT c A (has1 (has && !other))) (fun _ => False) := by
    cases has <;> cases other
    · exact fun s hs => hs
    · exact fun s hs => hs
    · exact fun s hs => hs
    · exact hput
  have h2 : TriR (InvT c A (has1 (has && !other))) (M.attempt (whenB (!(has && !other)) (tmpGet c)))
      (after (InvT c A 1) (Inv c A)) (fun _ => False) := by
    cases hb : (has && !other)
    · have : TriR (Inv c A) (M.attempt (tmpGet c)) (after (InvT c A 1) (Inv c A))
          (fun _ => False) := Tri.attemptR hg
      exact this
    · exact fun s hs => hs
  refine TriR.bind h1.toR fun _ => TriR.bind h2 fun r => ?_
  cases r with
  | error e => exact TriR.pure fun s hs => hs
  | ok _ =>
    refine TriR.bind TriR.flip fun b => ?_
    cases b
    · refine TriR.bind TriR.flip fun b => ?_
      cases b
      · exact TriR.pure fun s hs => hs
      · refine TriR.bind hput.toR fun _ => TriR.bind (Tri.attemptR hg) fun r => ?_
        cases r with
        | error e => exact TriR.pure fun s hs => hs
        | ok _ =>
          refine TriR.bind TriR.flip fun b => ?_
          cases b
          · exact TriR.bind hput.toR fun _ => TriR.pure fun s hs => hs
          · exact TriR.pure fun s hs => hs
    · exact TriR.pure fun s hs => hs

theorem findFreeLoop_tri (h : Room c A) (he : c.imapExternal = true) : ∀ n has,
    TriR (InvT c A (has1 has)) (findFreeLoop c n has) (fun x => InvT c A (has1 x.1)) (fun _ => False) := by
  intro n
  induction n with
  | zero => intro has; exact TriR.pure fun s hs => hs
  | succ n ih =>
    intro has
    refine TriR.bind (findFreeRound_tri h he has) fun x => ?_
    obtain ⟨has', r⟩ := x
    cases r with
    | some r => exact TriR.pure fun s hs => hs
    | none =>
      refine TriR.bind TriR.flip fun b => ?_
      cases b
      · exact TriR.pure fun s hs => hs
      · exact ih has'

theorem findFreeE_keep (h : Room c A) (he : c.imapExternal = true) : Keep (Inv c A) (findFreeE c) := by
  refine Keep.bind (Keep.status (InvT.blind c A 0)) fun _ => Keep.bind Keep.get fun s0 => ?_
  apply Tri.keep
  show TriR _ _ (fun _ => Inv c A) (Inv c A)
  have hl : TriR (Inv c A) (findFreeLoop c (s0.orc.length + 1) false) (fun x => InvT c A (has1 x.1)) (Inv c A) := by
    intro s hs
    have := findFreeLoop_tri h he (s0.orc.length + 1) false s hs
    split at this
    · exact this
    · exact this.elim
  refine TriR.bind hl fun x => ?_
  obtain ⟨has, r⟩ := x
  have hp : TriR (InvT c A (has1 has)) (whenB has tmpPut) (fun _ => Inv c A) (Inv c A) := by
    cases has
    · exact fun s hs => hs
    · exact tmpPut_tri
  refine TriR.bind hp fun _ => ?_
  exact Keep.tri (Keep.ofExcept r)

theorem allocBlock_keep (h : Room c A) : Keep (Inv c A) (allocBlock c) := by
  have hb := InvT.blind c A 0
  refine Keep.bind (Keep.status hb) fun _ => external_bind (fun he => ?_) ?_
  · exact Keep.bind (findFreeE_keep h he) fun _ => blockSet_keep h
  · exact Keep.bind (Keep.status hb) fun _ => blockSet_keep h

/-- Closes `Keep` goals by following the code. -/
syntax "keep" : tactic
macro_rules
  | `(tactic| keep) => `(tactic| repeat' first
      | with_reducible assumption
      | with_reducible exact Keep.pure _
      | with_reducible exact Keep.fail _
      | with_reducible exact Keep.ofExcept _
      | with_reducible exact Keep.get
      | with_reducible exact Keep.flip (InvT.blind _ _ _)
      | with_reducible exact Keep.choose (InvT.blind _ _ _)
      | with_reducible exact Keep.status (InvT.blind _ _ _)
      | with_reducible refine Keep.maybe (InvT.blind _ _ _) ?_
      | with_reducible refine Keep.noSpace (InvT.blind _ _ _) ?_
      | with_reducible refine Keep.loop (InvT.blind _ _ _) ?_
      | with_reducible refine Keep.noData ?_
      | with_reducible refine Keep.allow ?_
      | with_reducible refine Keep.andThen ?_ ?_
      | with_reducible refine Keep.attempt ?_
      | with_reducible refine Keep.whenB fun _ => ?_
      | with_reducible refine Keep.bind ?_ fun _ => ?_
      | with_reducible refine Keep.ite (fun _ => ?_) (fun _ => ?_)
      | split)

theorem blockState_keep (h : Room c A) : Keep (Inv c A) (blockState c) := by
  have := blockGet_keep h
  unfold blockState; keep
theorem bitGet_keep (h : Room c A) : Keep (Inv c A) (bitGet c) := by
  have := blockGet_keep h
  unfold bitGet; keep
theorem bitSet_keep (h : Room c A) : Keep (Inv c A) (bitSet c) := by
  have := blockSet_keep h
  unfold bitSet; keep
theorem isBranched_keep (h : Room c A) : Keep (Inv c A) (isBranched c) := by
  have := blockState_keep h
  unfold isBranched; keep
theorem writeableCopy_keep (h : Room c A) : Keep (Inv c A) (writeableCopy c) := by
  have := bitGet_keep h
  unfold writeableCopy; keep
theorem currentCopy_keep (h : Room c A) : Keep (Inv c A) (currentCopy c) := by
  have := bitGet_keep h
  unfold currentCopy; keep
theorem isFree_keep (h : Room c A) : Keep (Inv c A) (isFree c) := by
  have := bitGet_keep h
  unfold isFree; keep
theorem findFreeInode_keep (h : Room c A) : Keep (Inv c A) (findFreeInode c) := by
  have := isFree_keep h
  unfold findFreeInode; keep

theorem putData_keep {t : Nat} (hk : A.Has k) : Keep (InvT c A t) (putData k) := release_keep _ hk
theorem putIndir_keep {t : Nat} (hk : A.Has k) : Keep (InvT c A t) (putIndir k) := release_keep _ hk
theorem putDindir_keep {t : Nat} (hk : A.Has k) : Keep (InvT c A t) (putDindir k) := release_keep _ hk
theorem putCoord_keep (hk : A.Has k) : Keep (Inv c A) (putCoord c k) := by
  have h1 := putData_keep (c := c) (t := 0) hk
  have h2 := putIndir_keep (c := c) (t := 0) hk
  have h3 := putDindir_keep (c := c) (t := 0) hk
  unfold putCoord; keep
theorem inodeBranch_keep (h : Room c A) (hk : A.Has k) : Keep (Inv c A) (inodeBranch c k) := by
  have h1 := writeableCopy_keep h
  have h2 := bitSet_keep h
  have h3 := mounted_keep (c := c) (t := 0) hk
  unfold inodeBranch; keep

/-! inodedata.c -/

theorem seekCoord_keep (hk : A.Has k) : Keep (Inv c A) (seekCoord c k) := by
  have h1 := putData_keep (c := c) (t := 0) hk
  have h2 := putIndir_keep (c := c) (t := 0) hk
  have h3 := putDindir_keep (c := c) (t := 0) hk
  have h4 := putCoord_keep (c := c) hk
  unfold seekCoord; keep
theorem seekInode_keep (h : Full c A k) : Keep (Inv c A) (seekInode c k) := by
  have h1 := seekCoord_keep (c := c) h.has
  have h2 := mounted_keep (c := c) (t := 0) h.has
  have h3 : c.hasDindir = true → Keep (Inv c A) (ifNull k .dindir (acquire c k .dindir)) := fun hd =>
    ifNull_acquire_keep .dindir h (fun _ => hd) (by intro h; cases h)
  have h4 : c.hasIndir = true → Keep (Inv c A) (ifNull k .indir (acquire c k .indir)) := fun hd =>
    ifNull_acquire_keep .indir h (by intro h; cases h) (fun _ => hd)
  have hb := InvT.blind c A 0
  exact Keep.bind h2 fun _ => Keep.bind h1 fun _ =>
    Keep.bind (Keep.whenB fun hd => Keep.maybe hb (Keep.maybe hb (h3 hd))) fun _ =>
    Keep.bind (Keep.whenB fun hd => Keep.maybe hb (Keep.maybe hb (h4 hd))) fun _ => Keep.status hb
theorem seekAndRead_keep (h : Full c A k) : Keep (Inv c A) (seekAndRead c k) := by
  have h1 := seekInode_keep h
  have h2 := ifNull_acquire_keep .data h (by intro h; cases h) (by intro h; cases h)
  unfold seekAndRead; keep
/-- The pointers `BranchOneBlock` is called with exist. -/
def FldOk (c : Cfg) (f : Option Fld) : Prop :=
  (f = some .dindir → c.hasDindir = true) ∧ (f = some .indir → c.hasIndir = true)
theorem isNull_acquire_else {f : Fld} (h : Full c A k) (hd : f = .dindir → c.hasDindir = true)
    (hi : f = .indir → c.hasIndir = true) (e : Err) :
    Keep (Inv c A) (do if (← isNull k f) then acquire c k f else M.fail e) := by
  intro s hs
  have h1 := ifNull_acquire_keep f h hd hi s hs
  have hfk := hs.fits k
  rw [h.cap] at hfk
  obtain ⟨p, hpk, hg, hcn⟩ := hfk
  unfold ifNull at h1
  have hn : isNull k f s = (.ok (decide (p f = .null)), s) := by
    unfold isNull; simp only [M.run_bind, M.run_get, hpk, M.run_pure]
  rw [M.run_bind, hn] at h1 ⊢
  by_cases hf : p f = .null
  · simp only [hf, decide_true] at h1 ⊢
    exact h1
  · simp only [hf, decide_false] at h1 ⊢
    exact hs
theorem branchOne_keep {f : Option Fld} (h : Full c A k) (hf : FldOk c f) : Keep (Inv c A) (branchOne c k f) := by
  have h1 := blockState_keep h.toRoom
  have h2 := allocBlock_keep h.toRoom
  have h3 := blockSet_keep h.toRoom
  have hb := InvT.blind c A 0
  cases f with
  | none => unfold branchOne; keep
  | some f =>
    have hd : f = .dindir → c.hasDindir = true := fun e => hf.1 (by rw [e])
    have hi : f = .indir → c.hasIndir = true := fun e => hf.2 (by rw [e])
    have h4 := ifNull_acquire_keep f h hd hi
    have h5 := isNull_acquire_else h hd hi .einval
    unfold branchOne; keep
theorem branchBlockCost_keep (h : Full c A k) (d : Depth) : Keep (Inv c A) (branchBlockCost c k d) := by
  have h1 := blockState_keep h.toRoom
  have h2 := mounted_keep (c := c) (t := 0) h.has
  unfold branchBlockCost; keep
theorem branchBlock_keep (h : Full c A k) (d : Depth) (b : Bool) : Keep (Inv c A) (branchBlock c k d b) := by
  have hb := InvT.blind c A 0
  have h1 := branchBlockCost_keep h d
  have h2 : c.hasDindir = true → Keep (Inv c A) (branchOne c k (some .dindir)) := fun hd =>
    branchOne_keep h ⟨fun _ => hd, (by intro h; cases h)⟩
  have h3 : c.hasIndir = true → Keep (Inv c A) (branchOne c k (some .indir)) := fun hd =>
    branchOne_keep h ⟨(by intro h; cases h), fun _ => hd⟩
  have h4 : Keep (Inv c A) (branchOne c k (some .data)) := branchOne_keep h ⟨(by intro h; cases h), (by intro h; cases h)⟩
  have h5 : Keep (Inv c A) (branchOne c k none) := branchOne_keep h ⟨(by intro h; cases h), (by intro h; cases h)⟩
  have h6 := isNull_keep (c := c) (t := 0) .data h.has
  unfold branchBlock
  refine Keep.bind h1 fun _ => Keep.bind (Keep.status hb) fun _ =>
    Keep.bind (Keep.whenB fun hd => Keep.maybe hb (h2 hd)) fun _ =>
    Keep.bind (Keep.whenB fun hd => Keep.maybe hb (h3 (by simp at hd; exact hd.1))) fun _ =>
    Keep.whenB fun _ => Keep.bind h6 fun n => Keep.bind ?_ fun _ => Keep.status hb
  split <;> assumption
theorem expandPrepare_keep (h : Full c A k) : Keep (Inv c A) (expandPrepare c k) := by
  have h1 := seekInode_keep h
  have h2 := branchBlock_keep h .data true
  have h3 := mounted_keep (c := c) (t := 0) h.has
  unfold expandPrepare; keep
theorem readUnaligned_keep (h : Full c A k) : Keep (Inv c A) (readUnaligned c k) := by
  have h1 := seekAndRead_keep h
  unfold readUnaligned; keep
theorem getExtent_keep (h : Full c A k) : Keep (Inv c A) (getExtent c k) := by
  have h1 := seekInode_keep h
  unfold getExtent; keep
theorem readAligned_keep (h : Full c A k) : Keep (Inv c A) (readAligned c k) := by
  have h1 := getExtent_keep h
  unfold readAligned; keep
theorem dataRead_keep (h : Full c A k) : Keep (Inv c A) (dataRead c k) := by
  have h1 := readUnaligned_keep h
  have h2 := readAligned_keep h
  have h3 := mounted_keep (c := c) (t := 0) h.has
  unfold dataRead; keep
theorem writeUnaligned_keep (h : Full c A k) : Keep (Inv c A) (writeUnaligned c k) := by
  have h1 := seekInode_keep h
  have h2 := branchBlock_keep h .data true
  unfold writeUnaligned; keep
theorem alignedBlock_keep (h : Full c A k) : Keep (Inv c A) (alignedBlock c k) := by
  have h1 := seekInode_keep h
  have h2 := branchBlock_keep h .data false
  unfold alignedBlock; keep
theorem alignedExtent_keep (h : Full c A k) : Keep (Inv c A) (alignedExtent c k) := by
  have h1 := alignedBlock_keep h
  unfold alignedExtent; keep
theorem writeAligned_keep (h : Full c A k) : Keep (Inv c A) (writeAligned c k) := by
  have h1 := alignedExtent_keep h
  unfold writeAligned; keep
theorem dataWrite_keep (h : Full c A k) : Keep (Inv c A) (dataWrite c k) := by
  have h1 := expandPrepare_keep h
  have h2 := writeUnaligned_keep h
  have h3 := writeAligned_keep h
  have h4 := mounted_keep (c := c) (t := 0) h.has
  unfold dataWrite; keep
theorem truncDataBlock_keep (h : Full c A k) : Keep (Inv c A) (truncDataBlock c k) := by
  have h1 := blockSet_keep h.toRoom
  have h4 := mounted_keep (c := c) (t := 0) h.has
  unfold truncDataBlock; keep
theorem truncIndir_keep (h : Full c A k) : Keep (Inv c A) (truncIndir c k) := by
  have h1 := blockSet_keep h.toRoom
  have h2 := truncDataBlock_keep h
  have h3 := branchBlock_keep h .indir false
  have h4 := mounted_keep (c := c) (t := 0) h.has
  have h5 := isNull_keep (c := c) (t := 0) .indir h.has
  have h6 := putIndir_keep (c := c) (t := 0) h.has
  unfold truncIndir; keep
theorem truncDindir_keep (h : Full c A k) : Keep (Inv c A) (truncDindir c k) := by
  have h1 := blockSet_keep h.toRoom
  have h2 := truncIndir_keep h
  have h3 := branchBlock_keep h .dindir false
  have h4 := mounted_keep (c := c) (t := 0) h.has
  have h5 := isNull_keep (c := c) (t := 0) .dindir h.has
  have h6 := putDindir_keep (c := c) (t := 0) h.has
  have h7 := seekInode_keep h
  unfold truncDindir; keep
theorem shrink_keep (h : Full c A k) : Keep (Inv c A) (shrink c k) := by
  have h1 := truncDataBlock_keep h
  have h2 := truncIndir_keep h
  have h3 := truncDindir_keep h
  have h4 := mounted_keep (c := c) (t := 0) h.has
  have h5 := putData_keep (c := c) (t := 0) h.has
  have h7 := seekInode_keep h
  unfold shrink; keep
theorem dataTruncate_keep (h : Full c A k) : Keep (Inv c A) (dataTruncate c k) := by
  have h1 := expandPrepare_keep h
  have h2 := shrink_keep h
  have h4 := mounted_keep (c := c) (t := 0) h.has
  unfold dataTruncate; keep

/-! dir.c -/

theorem dirScan_keep (h : Full c A k) : Keep (Inv c A) (dirScan c k) := by
  have h1 := seekAndRead_keep h
  unfold dirScan; keep
theorem dirLookup_keep (h : Full c A k) : Keep (Inv c A) (dirLookup c k) := by
  have h1 := dirScan_keep h
  have h4 := mounted_keep (c := c) (t := 0) h.has
  unfold dirLookup; keep
theorem dirRead_keep (h : Full c A k) : Keep (Inv c A) (dirRead c k) := by
  have h1 := dirScan_keep h
  have h4 := mounted_keep (c := c) (t := 0) h.has
  unfold dirRead; keep
theorem dirWrite_keep (h : Full c A k) : Keep (Inv c A) (dirWrite c k) := by
  have h1 := dataWrite_keep h
  have h4 := mounted_keep (c := c) (t := 0) h.has
  unfold dirWrite; keep
theorem dirCreate_keep (h : Full c A k) : Keep (Inv c A) (dirCreate c k) := by
  have h1 := dirLookup_keep h
  have h2 := dirWrite_keep h
  have h4 := mounted_keep (c := c) (t := 0) h.has
  unfold dirCreate; keep
theorem dirDelete_keep (h : Full c A k) : Keep (Inv c A) (dirDelete c k) := by
  have h1 := dirScan_keep h
  have h2 := dirWrite_keep h
  have h3 := dataTruncate_keep h
  have h4 := mounted_keep (c := c) (t := 0) h.has
  unfold dirDelete; keep

end RedFs.Refs
