import Verif.Lemmas.TimesExec
import Verif.Lemmas.Demo
set_option linter.unusedSimpArgs false
set_option linter.unusedVariables false
/-!
The stamps in all states that can be reached.
-/
namespace RedFs.Times
open RedFs M Str

variable {c : Conf} {clk : Nat → Nat} {α β : Type} {P : Files → Prop}

/-- A call on a volume that is not mounted. -/
theorem exec_off {k : Call} (hp : Plain k) {s s' : St} {r : Except Err Reply} (hm : s.v.mounted = false) (h : exec c clk k s = (r, s')) : s'.t = s.t := by
  have rw0 : ∀ {α : Type} (m : TM α), whenRw m s = (.error .einval, s) := by
    intro α m
    unfold whenRw
    rw [vol_bind, hm]; rfl
  have m0 : ∀ {α : Type} (m : TM α), whenMounted m s = (.error .einval, s) := by
    intro α m
    unfold whenMounted
    rw [vol_bind, hm]; rfl
  have fin : ∀ {α : Type} {f : α → Reply} {m : TM α}, (do let a ← m; pure (f a) : TM Reply) s = (r, s') → m s = (.error .einval, s) → s'.t = s.t := by
    intro α f m h h0
    rw [run_bind, h0] at h
    rw [← (Prod.mk.inj h).2]
  have l0 : ∀ {m : VM Reply}, lift m s = (r, s') → s'.t = s.t := fun h => (lift_inv h).2
  cases k with
  | create p name isDir => dsimp only [exec] at h; exact fin h (rw0 _)
  | link p name ino => dsimp only [exec] at h; exact fin (f := fun _ => .unit) h (rw0 _)
  | unlink p name => dsimp only [exec] at h; exact fin (f := fun _ => .unit) h (rw0 _)
  | rename p name p' name' => dsimp only [exec] at h; exact fin (f := fun _ => .unit) h (rw0 _)
  | write ino start len buf => dsimp only [exec] at h; exact fin h (rw0 _)
  | truncate ino size => dsimp only [exec] at h; exact fin (f := fun _ => .unit) h (rw0 _)
  | transact => dsimp only [exec] at h; exact fin (f := fun _ => .unit) h (rw0 _)
  | read ino start len => dsimp only [exec] at h; exact fin h (m0 _)
  | dirRead p pos => dsimp only [exec] at h; exact fin (f := fun x : Nat × Option (List Byte × Nat) => .entry x.1 x.2) h (m0 _)
  | rollback => exact hp.elim
  | mount ro => exact hp.elim
  | unmount => exact hp.elim
  | _ => dsimp only [exec] at h; exact l0 h

/-- Rolling back a mounted volume. -/
theorem rollback_inv (hc : c.SysOk) {s s' : St} {r : Except Err Reply} (hi : Inv c P s.v) (hT : TI s) (h : exec c clk .rollback s = (r, s')) :
    s'.t.red = s.t.red ∧ s'.t.comm = s.t.comm ∧ TI s' ∧ (∀ e, r = .error e → s' = s) ∧ (∀ a, r = .ok a → s'.t.work = s.t.comm) := by
  rcases bind_inv h with ⟨e, h1, rfl⟩ | ⟨a, s1, h1, h2⟩
  · unfold whenRw at h1
    rw [vol_bind] at h1
    split at h1
    · obtain ⟨_, rfl⟩ := fail_inv h1
      exact ⟨rfl, rfl, hT, fun _ _ => rfl, fun a ha => (by cases ha)⟩
    split at h1
    · obtain ⟨_, rfl⟩ := fail_inv h1
      exact ⟨rfl, rfl, hT, fun _ _ => rfl, fun a ha => (by cases ha)⟩
    next hro =>
    exfalso
    have hro : s.v.readOnly = false := by simpa using hro
    obtain ⟨v', e1, _⟩ := volRollback_spec hc.ok hi.wf.vol hi.mounted hro
    unfold rollback at h1
    rw [vol_bind] at h1
    rcases bind_inv h1 with ⟨e', g1, _⟩ | ⟨u, s2, g1, g2⟩
    · have := (lift_inv g1).1
      rw [e1] at this; cases this
    · split at g2
      · cases g2
      · cases g2
  obtain ⟨rfl, rfl⟩ := pure_inv h2
  unfold whenRw at h1
  rw [vol_bind] at h1
  split at h1
  · cases h1
  split at h1
  · cases h1
  unfold rollback at h1
  rw [vol_bind] at h1
  rcases bind_inv h1 with ⟨e', g1, hx⟩ | ⟨u, s2, g1, g2⟩
  · cases hx
  have t1 := (lift_inv g1).2
  split at g2
  · have g2 : (Except.ok (), (⟨s2.v, { s2.t with work := s2.t.comm }⟩ : St)) = (.ok a, s') := g2
    have g2 := (Prod.mk.inj g2).2
    subst g2
    refine ⟨by rw [← t1], by rw [← t1], fun _ => rfl, fun e he => (by cases he), fun _ _ => by rw [← t1]⟩
  · next hb =>
    have hb : s.v.branched = false := by simpa using hb
    obtain ⟨-, rfl⟩ := pure_inv g2
    exact ⟨by rw [t1], by rw [t1], fun _ => by rw [t1]; exact hT hb, fun e he => (by cases he), fun _ _ => by rw [t1]; exact hT hb⟩

/-- Mounting. -/
theorem mount_inv {ro : Bool} {s s' : St} {r : Except Err Reply} (h : exec c clk (.mount ro) s = (r, s')) :
    s'.t.red = s.t.red ∧ s'.t.comm = s.t.comm ∧ (s.v.mounted = true → s'.t = s.t) ∧ (∀ e, r = .error e → s'.t = s.t) ∧
      (s.v.mounted = false → ∀ a, r = .ok a → s'.t.work = s.t.comm) := by
  have key : ∀ {r' : Except Err Unit} {s1 : St}, mountCall c ro s = (r', s1) → s1.t.red = s.t.red ∧ s1.t.comm = s.t.comm ∧ (s.v.mounted = true → s1.t = s.t) ∧ (∀ e, r' = .error e → s1.t = s.t) ∧
      (s.v.mounted = false → ∀ a, r' = .ok a → s1.t.work = s.t.comm) := by
    intro r' s1 h
    unfold mountCall at h
    rw [vol_bind] at h
    rcases bind_inv h with ⟨e, g1, rfl⟩ | ⟨u, s2, g1, g2⟩
    · have t1 := (lift_inv g1).2
      rw [t1]
      exact ⟨rfl, rfl, fun _ => rfl, fun _ _ => rfl, fun _ a ha => (by cases ha)⟩
    have t1 := (lift_inv g1).2
    split at g2
    · next hm =>
      obtain ⟨rfl, rfl⟩ := pure_inv g2
      rw [t1]
      exact ⟨rfl, rfl, fun _ => rfl, fun _ _ => rfl, fun hh => by rw [hm] at hh; cases hh⟩
    · next hm =>
      have g2 : (Except.ok (), (⟨s2.v, { s2.t with work := s2.t.comm }⟩ : St)) = (r', s1) := g2
      simp only [Prod.mk.injEq] at g2
      obtain ⟨rfl, rfl⟩ := g2
      exact ⟨by rw [← t1], by rw [← t1], fun hh => absurd hh hm, fun e he => (by cases he), fun _ _ _ => by rw [← t1]⟩
  rcases bind_inv h with ⟨e, h1, rfl⟩ | ⟨a, s1, h1, h2⟩
  · obtain ⟨a1, a2, a3, a4, _⟩ := key h1
    exact ⟨a1, a2, a3, fun _ _ => a4 _ rfl, fun _ a ha => (by cases ha)⟩
  · obtain ⟨rfl, rfl⟩ := pure_inv h2
    obtain ⟨a1, a2, a3, _, a5⟩ := key h1
    exact ⟨a1, a2, a3, fun e he => (by cases he), fun hm _ _ => a5 hm _ rfl⟩

/-- Unmounting: what is on the disk then has the stamps of the files, if unmounting commits, and those last committed if not. -/
theorem unmount_inv (hc : c.SysOk) {s s' : St} {r : Except Err Reply} (hi : Inv c P s.v) (hT : TI s) (h : exec c clk .unmount s = (r, s')) :
    s'.t.red = s.t.red ∧ s'.t.comm = if s.v.readOnly = false ∧ s.v.on .umount = true then s.t.work else s.t.comm := by
  have key : ∀ {r' : Except Err Unit} {s1 : St}, unmountCall c s = (r', s1) → s1.t.red = s.t.red ∧ s1.t.comm = if s.v.readOnly = false ∧ s.v.on .umount = true then s.t.work else s.t.comm := by
    intro r' s1 h
    unfold unmountCall at h
    rw [vol_bind, if_pos hi.mounted] at h
    have key2 : ∀ (s2 : St), (do
        lift (modify Vol.discardAll)
        lift (modify fun v => { v with mounted := false }) : TM Unit) s2 = (r', s1) → s1.t = s2.t := by
      intro s2 h
      rcases bind_inv h with ⟨e, g1, _⟩ | ⟨_, s3, g1, g2⟩
      · exact (lift_inv g1).2
      · exact (lift_inv g2).2.trans (lift_inv g1).2
    have hon : s.v.transMask.testBit 0 = s.v.on .umount := rfl
    rw [hon] at h
    by_cases hx : s.v.readOnly = false ∧ s.v.on .umount = true
    · rw [if_pos hx]
      rw [if_pos (by rw [hx.1, hx.2]; rfl)] at h
      rcases bind_inv h with ⟨e, g1, _⟩ | ⟨_, s2, g1, g2⟩
      · exact absurd (transact_inv hc.ok hi hT g1).1 (by simp)
      · obtain ⟨_, _, _, S, _, hC⟩ := transact_inv hc.ok hi hT g1
        rw [key2 s2 g2]
        exact ⟨S.2.2, hC⟩
    · rw [if_neg hx]
      rw [if_neg (by intro hh; apply hx; simpa using hh)] at h
      rcases bind_inv h with ⟨e, g1, _⟩ | ⟨_, s2, g1, g2⟩
      · cases (pure_inv g1).1
      · obtain ⟨-, rfl⟩ := pure_inv g1
        rw [key2 _ g2]
        exact ⟨rfl, rfl⟩
  rcases bind_inv h with ⟨e, h1, rfl⟩ | ⟨a, s1, h1, h2⟩
  · exact key h1
  · obtain ⟨rfl, rfl⟩ := pure_inv h2
    exact key h1

theorem up (hc : c.SysOk) {v : Vol} (h : RedFs.Reach c v) (hm : v.mounted = true) : Inv c (Sound c) v := by
  obtain ⟨s, ha⟩ := h.abs hc
  exact (ha.inv (ha.mounted_iff.trans hm)).1

/-- What holds in all states that can be reached. -/
structure Good (c : Conf) (s : St) : Prop where
  vol : RedFs.Reach c s.v
  red : s.t.red = false
  keep : s.v.mounted = true → TI s

theorem Done.red {F : Files} {Q : α → List Mark → Prop} {s s' : St} {r : Except Err α} (h : Done c clk F Q s r s') : s'.t.red = s.t.red := by
  rcases r with e | a
  · obtain ⟨L, _, S⟩ := h.err e rfl
    rw [S.2.2, stamps_red]
  · obtain ⟨L0, L, _, _, S⟩ := h.ok a rfl
    rw [S.2.2, stamps_red]

theorem Good.call (hc : c.SysOk) {s s' : St} {k : Call} {r : Except Err Reply} (hg : Good c s) (hk : k.Ok c) (h : exec c clk k s = (r, s')) : Good c s' := by
  have he := exec_erase h
  have hv : RedFs.Reach c s'.v := hg.vol.call hk he
  -- whether it is mounted
  have hmt : k ≠ .unmount → (s.v.mounted = true ∨ ∀ ro, k ≠ .mount ro) → s'.v.mounted = s.v.mounted := by
    intro h1 h2
    obtain ⟨a, ha⟩ := hg.vol.abs hc
    obtain ⟨r', v', a', tr, e, hd, ha', _⟩ := exec_sim hc ha hk
    rw [he] at e
    have e := (Prod.mk.inj e).2
    rw [← ha.mounted_iff] at h2 ⊢
    rw [e, ← ha'.mounted_iff]
    exact hd.mounted h1 h2
  by_cases hp : Plain k
  · have hm' := hmt (fun h => by subst h; exact hp) (Or.inr fun ro h => by subst h; exact hp)
    by_cases hm : s.v.mounted = true
    · have D := exec_done hc hk hp (up hc hg.vol hm) (hg.keep hm) h
      exact ⟨hv, D.red.trans hg.red, fun _ => D.keep⟩
    · have hm : s.v.mounted = false := by simpa using hm
      refine ⟨hv, by rw [exec_off hp hm h]; exact hg.red, fun hh => ?_⟩
      rw [hm', hm] at hh; cases hh
  · cases k with
    | rollback =>
      have hm' := hmt (by simp) (Or.inr fun ro => by simp)
      by_cases hm : s.v.mounted = true
      · obtain ⟨h1, _, h3, _⟩ := rollback_inv hc (up hc hg.vol hm) (hg.keep hm) h
        exact ⟨hv, h1.trans hg.red, fun _ => h3⟩
      · have hm : s.v.mounted = false := by simpa using hm
        have : s' = s := by
          rcases bind_inv h with ⟨e, h1, _⟩ | ⟨a, s1, h1, _⟩
          · unfold whenRw at h1
            rw [vol_bind, hm] at h1
            exact (fail_inv h1).2
          · unfold whenRw at h1
            rw [vol_bind, hm] at h1
            cases h1
        subst this
        exact hg
    | mount ro =>
      obtain ⟨h1, _, h3, h4, h5⟩ := mount_inv h
      refine ⟨hv, h1.trans hg.red, fun hh => ?_⟩
      by_cases hm : s.v.mounted = true
      · -- nothing has happened
        have hx : s'.v = s.v := by
          have h6 : reply (fun _ => Reply.unit) (apiMount c ro) s.v = (r, s'.v) := he
          unfold reply apiMount at h6
          simp only [run_bind, run_get, hm] at h6
          cases hpx : c.posix
          · rw [hpx] at h6; exact (Prod.mk.inj h6).2.symm
          · rw [hpx] at h6; exact (Prod.mk.inj h6).2.symm
        intro hb
        rw [h3 hm]
        rw [hx] at hb
        exact hg.keep hm hb
      · have hm : s.v.mounted = false := by simpa using hm
        rcases r with e | a
        · -- failed
          exfalso
          obtain ⟨a, ha⟩ := hg.vol.abs hc
          obtain ⟨r', v', a', tr, e', hd, ha', _⟩ := exec_sim hc ha hk
          rw [he] at e'
          simp only [Prod.mk.injEq] at e'
          obtain ⟨rfl, rfl⟩ := e'
          rw [← ha'.mounted_iff] at hh
          obtain ⟨-, hd⟩ := hd
          rw [if_neg (by rw [ha.mounted_iff, hm]; simp)] at hd
          split at hd
          · rw [hd.2, ha.mounted_iff, hm] at hh; cases hh
          · cases hd.1
        · exact fun _ => by rw [h5 hm _ rfl]; exact (by rw [(mount_inv h).2.1] : s.t.comm = s'.t.comm)
    | unmount =>
      have hoff : s'.v.mounted = false := by
        obtain ⟨a, ha⟩ := hg.vol.abs hc
        obtain ⟨r', v', a', tr, e', hd, ha', _⟩ := exec_sim hc ha hk
        rw [he] at e'
        simp only [Prod.mk.injEq] at e'
        obtain ⟨rfl, rfl⟩ := e'
        rw [← ha'.mounted_iff]
        have hd : if a.mounted = false then _ else _ := hd
        split at hd
        · next hx => rw [hd.1]; exact hx
        · rw [hd.2.2]
      refine ⟨hv, ?_, fun hh => by rw [hoff] at hh; cases hh⟩
      by_cases hm : s.v.mounted = true
      · exact (unmount_inv hc (up hc hg.vol hm) (hg.keep hm) h).1.trans hg.red
      · have hm : s.v.mounted = false := by simpa using hm
        have hx : s'.t = s.t := by
          have key : ∀ {r' : Except Err Unit} {s1 : St}, unmountCall c s = (r', s1) → s1.t = s.t := by
            intro r' s1 h
            unfold unmountCall at h
            rw [vol_bind, hm] at h
            exact (lift_inv h).2
          rcases bind_inv h with ⟨e, h1, _⟩ | ⟨a, s1, h1, h2⟩
          · exact key h1
          · obtain ⟨-, rfl⟩ := pure_inv h2
            exact key h1
        rw [hx]; exact hg.red
    | _ => exact absurd trivial hp

theorem Reach.good (hc : c.SysOk) {s : St} (h : Reach c clk s) : Good c s := by
  induction h with
  | start st n hv hm => exact ⟨hv, rfl, fun hh => by rw [hm] at hh; cases hh⟩
  | call _ hk he ih => exact ih.call hc hk he

end RedFs.Times
