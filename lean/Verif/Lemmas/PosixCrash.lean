import Verif.Lemmas.PosixExec
import Verif.Props.System
set_option linter.unusedSimpArgs false
set_option linter.unusedVariables false
set_option linter.unusedSectionVars false
/-!
Power losses during a call of the POSIX API: which states a call can leave on the disks.
-/
namespace RedFs
open M Str

/-- Why the states `tr` have been committed: an event of `E` is enabled.  If all of them are, then what has been changed is committed.  (`none`: no restriction.) -/
def Pol : Option (Event → Prop) → Sys → Sys → List Files → Prop
  | none, _, _, _ => True
  | some E, s, s', tr => (∀ F ∈ tr, ∃ ev, E ev ∧ s.on ev = true) ∧ ((∃ ev, E ev) → s'.mask = s.mask) ∧
      ((∀ ev, E ev → ev ≠ .volfull → s.on ev = true) → s'.disk = some s'.now ∨ (s'.now = s.now ∧ s'.disk = s.disk))

/-- What the states `tr`, committed on the way from `s` to `s'`, are.  `b = false`: nothing changes, only the state `s.now` is committed. -/
def Kept : Bool → Sys → Sys → List Files → Prop
  | false, s, s', tr => s'.mounted = s.mounted ∧ s'.now = s.now ∧ ∀ F ∈ tr, s.mounted = true ∧ F = s.now
  | true, s, s', tr => (∀ F ∈ tr, (s.mounted = true ∧ F = s.now) ∨ (s'.mounted = true ∧ F = s'.now)) ∧
      (s.mounted = false → (∀ F ∈ tr, s.disk = some F) ∧ (s'.mounted = true → s.disk = some s'.now))

theorem Pol.trans {z : Option (Event → Prop)} {s s1 s2 : Sys} {t1 t2 : List Files} (h1 : Pol z s s1 t1) (h2 : Pol z s1 s2 t2) : Pol z s s2 (t1 ++ t2) := by
  cases z with
  | none => trivial
  | some E =>
    refine ⟨fun F hF => ?_, fun he => (h2.2.1 he).trans (h1.2.1 he), fun h => ?_⟩
    · rcases List.mem_append.1 hF with hF | hF
      · exact h1.1 F hF
      · obtain ⟨ev, a, b⟩ := h2.1 F hF
        refine ⟨ev, a, ?_⟩
        unfold Sys.on at b ⊢
        rw [← h1.2.1 ⟨ev, a⟩]; exact b
    · rcases h2.2.2 (fun ev a b => by unfold Sys.on; rw [h1.2.1 ⟨ev, a⟩]; exact h ev a b) with g | ⟨g1, g2⟩
      · exact Or.inl g
      · rcases h1.2.2 h with g | ⟨g3, g4⟩
        · exact Or.inl (by rw [g1, g2]; exact g)
        · exact Or.inr ⟨g1.trans g3, g2.trans g4⟩

theorem Pol.nil {z : Option (Event → Prop)} (s : Sys) : Pol z s s [] := by
  cases z with
  | none => trivial
  | some E => exact ⟨(fun F hF => by cases hF), fun _ => rfl, fun _ => Or.inr ⟨rfl, rfl⟩⟩
theorem Kept.nil {b : Bool} (s : Sys) : Kept b s s [] := by
  cases b
  · exact ⟨rfl, rfl, fun F hF => by cases hF⟩
  · exact ⟨(fun F hF => by cases hF), fun h => ⟨(fun F hF => by cases hF), fun h' => by rw [h] at h'; cases h'⟩⟩

theorem Kept.weak {b : Bool} {s s' : Sys} {tr : List Files} (h : Kept b s s' tr) : Kept true s s' tr := by
  cases b
  · refine ⟨fun F hF => Or.inl (h.2.2 F hF), fun hm => ⟨fun F hF => ?_, fun hm' => ?_⟩⟩
    · rw [(h.2.2 F hF).1] at hm; cases hm
    · rw [h.1, hm] at hm'; cases hm'
  · exact h

theorem Kept.trans {b1 b2 : Bool} {s s1 s2 : Sys} {t1 t2 : List Files} (h1 : Kept b1 s s1 t1) (h2 : Kept b2 s1 s2 t2) (hb : (b1 && b2) = false)
    (hd : s1.disk ∈ s.disk :: t1.map some) : Kept (b1 || b2) s s2 (t1 ++ t2) := by
  cases b1 <;> cases b2
  · refine ⟨h2.1.trans h1.1, h2.2.1.trans h1.2.1, fun F hF => ?_⟩
    rcases List.mem_append.1 hF with hF | hF
    · exact h1.2.2 F hF
    · obtain ⟨a, b⟩ := h2.2.2 F hF
      exact ⟨by rw [← h1.1]; exact a, by rw [b, h1.2.1]⟩
  · refine ⟨fun F hF => ?_, fun hm => ?_⟩
    · rcases List.mem_append.1 hF with hF | hF
      · exact Or.inl (h1.2.2 F hF)
      · rcases h2.1 F hF with ⟨a, b⟩ | h
        · exact Or.inl ⟨by rw [← h1.1]; exact a, by rw [b, h1.2.1]⟩
        · exact Or.inr h
    · have ht : t1 = [] := by
        cases t1 with
        | nil => rfl
        | cons F t => rw [(h1.2.2 F (List.mem_cons_self ..)).1] at hm; cases hm
      subst ht
      have hd : s1.disk = s.disk := List.mem_singleton.1 hd
      have := h2.2 (h1.1.trans hm)
      rw [hd] at this
      exact ⟨fun F hF => this.1 F hF, this.2⟩
  · refine ⟨fun F hF => ?_, fun hm => ?_⟩
    · rcases List.mem_append.1 hF with hF | hF
      · rcases h1.1 F hF with h | ⟨a, b⟩
        · exact Or.inl h
        · exact Or.inr ⟨h2.1.trans a, by rw [b, h2.2.1]⟩
      · obtain ⟨a, b⟩ := h2.2.2 F hF
        exact Or.inr ⟨h2.1.trans a, by rw [b, h2.2.1]⟩
    · obtain ⟨g1, g2⟩ := h1.2 hm
      refine ⟨fun F hF => ?_, fun hm' => ?_⟩
      · rcases List.mem_append.1 hF with hF | hF
        · exact g1 F hF
        · obtain ⟨a, b⟩ := h2.2.2 F hF
          rw [b]; exact g2 a
      · rw [h2.2.1]; exact g2 (h2.1.symm.trans hm')
  · cases hb

/-- How a volume evolves, and what power losses on the way leave. -/
structure Evo (z : Option (Event → Prop)) (c : Conf) (b : Bool) (v v' : Vol) : Prop where
  reach : Reach c v'
  sim : ∀ s, Abs c v s → ∃ s' tr new, Abs c v' s' ∧ s'.disk ∈ s.disk :: tr.map some ∧ Kept b s s' tr ∧ Pol z s s' tr ∧ v'.hist = new ++ v.hist ∧
    ∀ e ∈ new, Recov c e (s.disk :: tr.map some) ∧ ∀ D w, CrashImage c e D → Boot w D → Reach c w

variable {z : Option (Event → Prop)} {c : Conf} {b : Bool} {v v' v'' w : Vol}

theorem Evo.refl (h : Reach c v) : Evo z c b v v :=
  ⟨h, fun s ha => ⟨s, [], [], ha, List.mem_cons_self .., (Kept.nil s), (Pol.nil s), rfl, fun e he => by cases he⟩⟩

theorem Evo.weak (h : Evo z c b v v') : Evo z c true v v' :=
  ⟨h.reach, fun s ha => by obtain ⟨s', tr, new, h1, h2, h3, h4⟩ := h.sim s ha; exact ⟨s', tr, new, h1, h2, h3.weak, h4⟩⟩

theorem Evo.trans {b1 b2 : Bool} (h1 : Evo z c b1 v v') (h2 : Evo z c b2 v' v'') (hb : (b1 && b2) = false) : Evo z c (b1 || b2) v v'' := by
  refine ⟨h2.reach, fun s ha => ?_⟩
  obtain ⟨s1, t1, n1, a1, d1, k1, p1, e1, r1⟩ := h1.sim s ha
  obtain ⟨s2, t2, n2, a2, d2, k2, p2, e2, r2⟩ := h2.sim s1 a1
  have sub : ∀ x ∈ s1.disk :: t2.map some, x ∈ s.disk :: (t1 ++ t2).map some := by
    intro x hx
    rcases List.mem_cons.1 hx with rfl | hx
    · rcases List.mem_cons.1 d1 with h | h
      · rw [h]; exact List.mem_cons_self ..
      · exact List.mem_cons_of_mem _ (by rw [List.map_append]; exact List.mem_append_left _ h)
    · exact List.mem_cons_of_mem _ (by rw [List.map_append]; exact List.mem_append_right _ hx)
  have sub1 : ∀ x ∈ s.disk :: t1.map some, x ∈ s.disk :: (t1 ++ t2).map some := by
    intro x hx
    rcases List.mem_cons.1 hx with rfl | hx
    · exact List.mem_cons_self ..
    · exact List.mem_cons_of_mem _ (by rw [List.map_append]; exact List.mem_append_left _ hx)
  refine ⟨s2, t1 ++ t2, n2 ++ n1, a2, sub _ d2, k1.trans k2 hb d1, p1.trans p2, by rw [e2, e1, List.append_assoc], fun e he => ?_⟩
  rcases List.mem_append.1 he with he | he
  · exact ⟨(r2 e he).1.mono sub, (r2 e he).2⟩
  · exact ⟨(r1 e he).1.mono sub1, (r1 e he).2⟩

/-- Calls which only ask, or commit. -/
def Call.calm : Call → Bool
  | .lookup .. | .dirRead .. | .dirParent _ | .read .. | .stat _ | .fileSize _ | .statfs | .maskGet | .maskSet _ | .transact => true
  | _ => false

theorem Spec.Does.calm {k : Call} {s s' : Sys} {r : Except Err Reply} {tr : List Files} (hk : k.calm = true) (h : Spec.Does c k s r s' tr) :
    Kept false s s' tr := by
  have ask : ∀ {Q : Files → Except Err Reply → Prop}, Spec.Ask Q s r s' tr → Kept false s s' tr := by
    intro Q h; obtain ⟨rfl, rfl, _⟩ := h; exact ⟨rfl, rfl, fun F hF => by cases hF⟩
  cases k with
  | create => cases hk
  | link => cases hk
  | unlink => cases hk
  | rename => cases hk
  | write => cases hk
  | truncate => cases hk
  | rollback => cases hk
  | mount => cases hk
  | unmount => cases hk
  | lookup => exact ask h
  | dirRead => exact ask h
  | dirParent => exact ask h
  | read => exact ask h
  | stat => exact ask h
  | fileSize => exact ask h
  | statfs => exact ask h
  | maskGet => exact ask (Q := fun _ r => r = .ok (.num s.mask)) h
  | maskSet mask =>
    simp only [Spec.Does] at h
    obtain ⟨rfl, h⟩ := h
    split at h
    · rw [h.2]; exact ⟨rfl, rfl, fun F hF => by cases hF⟩
    · split at h
      · rw [h.2]; exact ⟨rfl, rfl, fun F hF => by cases hF⟩
      · rw [h.2]; exact ⟨rfl, rfl, fun F hF => by cases hF⟩
  | transact =>
    simp only [Spec.Does] at h
    split at h
    · obtain ⟨_, rfl, rfl⟩ := h; exact ⟨rfl, rfl, fun F hF => by cases hF⟩
    · next hm =>
      split at h
      · obtain ⟨_, rfl, rfl⟩ := h; exact ⟨rfl, rfl, fun F hF => by cases hF⟩
      · obtain ⟨_, rfl, rfl⟩ := h
        exact ⟨rfl, rfl, fun F hF => ⟨by simpa using hm, List.mem_singleton.1 hF⟩⟩

/-- A file is not created. -/
theorem Spec.Does.not_created {p : Nat} {nm : List Byte} {d : Bool} {s s' : Sys} {e : Err} {tr : List Files}
    (h : Spec.Does c (.create p nm d) s (.error e) s' tr) : Kept false s s' tr := by
  simp only [Spec.Does, Spec.Modify] at h
  split at h
  · obtain ⟨_, rfl, rfl⟩ := h; exact ⟨rfl, rfl, fun F hF => by cases hF⟩
  · next hm =>
    split at h
    · obtain ⟨_, rfl, rfl⟩ := h; exact ⟨rfl, rfl, fun F hF => by cases hF⟩
    · obtain ⟨pre, F, hpre, ⟨r0, hr, hR⟩, htr, rfl⟩ := h
      have hF : F = s.now := by
        cases r0 with
        | ok a => cases hr
        | error e' => exact create_clean _ _ _ _ _ _ hR
      refine ⟨rfl, hF, fun G hG => ⟨by simpa using hm, ?_⟩⟩
      rw [htr, if_neg (by intro h; cases h.1), List.append_nil] at hG
      rcases hpre with rfl | ⟨rfl, _⟩
      · cases hG
      · exact List.mem_singleton.1 hG

theorem Spec.Does.once {k : Call} {s s' : Sys} {r : Except Err Reply} {tr : List Files} (h : Spec.Does c k s r s' tr) : Kept true s s' tr := by
  refine ⟨fun F hF => ?_, fun hm => ⟨fun F hF => ?_, fun hm' => ?_⟩⟩
  · obtain ⟨hm, _, hh⟩ := Props.System.Does.commits h F hF
    rcases hh with ⟨h1, _⟩ | ⟨h1, _⟩
    · exact Or.inl ⟨hm, h1⟩
    · by_cases hu : k = .unmount
      · subst hu
        simp only [Spec.Does] at h
        rw [if_neg (by rw [hm]; decide)] at h
        exact Or.inl ⟨hm, by rw [h1, h.2.2]; rfl⟩
      · exact Or.inr ⟨by rw [h.mounted hu (by left; exact hm)]; exact hm, h1⟩
  · rw [(Props.System.Does.commits h F hF).1] at hm; cases hm
  · by_cases hu : k = .unmount
    · subst hu
      simp only [Spec.Does] at h
      rw [if_pos hm] at h
      rw [h.1, hm] at hm'; cases hm'
    · by_cases hk : ∃ ro, k = .mount ro
      · obtain ⟨ro, rfl⟩ := hk
        simp only [Spec.Does] at h
        rw [if_neg (by rw [hm]; decide)] at h
        split at h
        · rw [h.2.2, hm] at hm'; cases hm'
        · next F hd => rw [h.2.2]; exact hd
      · rw [h.mounted hu (Or.inr fun ro hh => hk ⟨ro, hh⟩), hm] at hm'; cases hm'

/-- The call is not an explicit transaction, and its event, if it has one, is one of those considered. -/
def Call.within (z : Option (Event → Prop)) (k : Call) : Prop :=
  match z with
  | none => True
  | some E => k ≠ .transact ∧ ((∃ ev, E ev) → ∀ m, k ≠ .maskSet m) ∧ ∀ ev, k.event = some ev → E ev ∧ (k ≠ .unmount → E .volfull)

theorem Call.within_ask {k : Call} (h1 : k.event = none) (h2 : k ≠ .transact) (h3 : ∀ m, k ≠ .maskSet m) : k.within z := by
  cases z with
  | none => trivial
  | some E => exact ⟨h2, fun _ => h3, fun ev h => by rw [h1] at h; cases h⟩
/-- Commits because of event `ev`, or to make space, are considered. -/
def Allow (z : Option (Event → Prop)) (ev : Event) : Prop := ∀ E, z = some E → E ev ∧ E .volfull
theorem Call.within_mod {k : Call} {ev : Event} (h1 : k.event = some ev) (h2 : Allow z ev) : k.within z := by
  cases z with
  | none => trivial
  | some E =>
    refine ⟨?_, ?_, ?_⟩
    · rintro rfl; cases h1
    · rintro _ m rfl; cases h1
    · intro ev' h; rw [h1] at h; cases h; exact ⟨(h2 E rfl).1, fun _ => (h2 E rfl).2⟩

/-- If the event of the call is enabled, what it changes is committed. -/
theorem Spec.Does.settled {k : Call} {s s' : Sys} {r : Except Err Reply} {tr : List Files} (h : Spec.Does c k s r s' tr) (hev : ∀ ev, k.event = some ev → s.on ev = true) :
    s'.disk = some s'.now ∨ (s'.now = s.now ∧ s'.disk = s.disk) := by
  have md : ∀ {α : Type} {ev : Event} {f : α → Reply} {R : Files → Except Err α → Files → Prop}, Clean R → k.event = some ev → Spec.Modify ev (Spec.Via f R) s r s' tr →
      s'.disk = some s'.now ∨ (s'.now = s.now ∧ s'.disk = s.disk) := by
    intro α ev f R hR hk h
    unfold Spec.Modify at h
    split at h
    · obtain ⟨_, rfl, _⟩ := h; exact Or.inr ⟨rfl, rfl⟩
    · split at h
      · obtain ⟨_, rfl, _⟩ := h; exact Or.inr ⟨rfl, rfl⟩
      · obtain ⟨pre, F, hpre, ⟨r0, hr, hF⟩, htr, rfl⟩ := h
        cases r0 with
        | ok a =>
          subst hr
          rw [if_pos ⟨rfl, hev _ hk⟩] at htr
          subst htr
          left; simp [Sys.commit]
        | error e =>
          subst hr
          obtain rfl : F = s.now := hR _ _ _ hF
          rw [if_neg (fun h => by cases h.1), List.append_nil] at htr
          subst htr
          rcases hpre with rfl | ⟨rfl, _⟩
          · exact Or.inr ⟨rfl, rfl⟩
          · exact Or.inl rfl
  have ask : ∀ {Q : Files → Except Err Reply → Prop}, Spec.Ask Q s r s' tr → s'.disk = some s'.now ∨ (s'.now = s.now ∧ s'.disk = s.disk) := fun h => by
    rw [h.1]; exact Or.inr ⟨rfl, rfl⟩
  cases k with
  | create p nm d => cases d <;> exact md (create_clean _ _ _) rfl h
  | link => exact md (link_clean _ _ _) rfl h
  | unlink => exact md (unlink_clean _ _) rfl h
  | rename => exact md (rename_clean _ _ _ _) rfl h
  | write => exact md (write_clean _ _ _ _) rfl h
  | truncate => exact md (truncate_clean _ _) rfl h
  | lookup => exact ask h
  | dirRead => exact ask h
  | dirParent => exact ask h
  | read => exact ask h
  | stat => exact ask h
  | fileSize => exact ask h
  | statfs => exact ask h
  | maskGet => exact ask (Q := fun _ r => r = .ok (.num s.mask)) h
  | maskSet mask =>
    obtain ⟨_, h⟩ := h
    split at h
    · rw [h.2]; exact Or.inr ⟨rfl, rfl⟩
    · split at h
      · rw [h.2]; exact Or.inr ⟨rfl, rfl⟩
      · rw [h.2]; exact Or.inr ⟨rfl, rfl⟩
  | transact =>
    simp only [Spec.Does] at h
    split at h
    · rw [h.2.1]; exact Or.inr ⟨rfl, rfl⟩
    · split at h
      · rw [h.2.1]; exact Or.inr ⟨rfl, rfl⟩
      · rw [h.2.2]; exact Or.inl rfl
  | rollback =>
    obtain ⟨_, h⟩ := h
    split at h
    · rw [h.2]; exact Or.inr ⟨rfl, rfl⟩
    · split at h
      · rw [h.2]; exact Or.inr ⟨rfl, rfl⟩
      · obtain ⟨_, F, hF, h⟩ := h; rw [h]; exact Or.inl hF
  | mount ro =>
    obtain ⟨_, h⟩ := h
    split at h
    · rw [h.1]; exact Or.inr ⟨rfl, rfl⟩
    · split at h
      · rw [h.2]; exact Or.inr ⟨rfl, rfl⟩
      · next hF => rw [h.2]; exact Or.inl hF
  | unmount =>
    simp only [Spec.Does] at h
    split at h
    · rw [h.1]; exact Or.inr ⟨rfl, rfl⟩
    · obtain ⟨_, rfl, rfl⟩ := h
      split
      · exact Or.inl rfl
      · exact Or.inr ⟨rfl, rfl⟩

theorem Spec.Does.pol {k : Call} {s s' : Sys} {r : Except Err Reply} {tr : List Files} (h : Spec.Does c k s r s' tr) (hz : k.within z) : Pol z s s' tr := by
  cases z with
  | none => trivial
  | some E =>
    refine ⟨fun F hF => ?_, fun he => h.mask (hz.2.1 he), fun he => h.settled fun ev hev => he ev (hz.2.2 ev hev).1 fun e => by cases k <;> cases hev <;> first | cases e | (split at e <;> cases e)⟩
    obtain ⟨hm, _, hh⟩ := Props.System.Does.commits h F hF
    rcases hh with ⟨h1, h2⟩ | ⟨h1, _, ev, h2, h3⟩
    · rcases h2 with h2 | ⟨h2, h3⟩ | h2
      · exact absurd h2 hz.1
      · exact ⟨_, (hz.2.2 .umount (by rw [h2]; rfl)).1, h3⟩
      · by_cases hu : k = .unmount
        · subst hu
          simp only [Spec.Does] at h
          rw [if_neg (by rw [hm]; decide)] at h
          rw [h.2.1] at hF
          split at hF
          · next hc => exact ⟨_, (hz.2.2 .umount rfl).1, hc.2⟩
          · cases hF
        · cases hev : k.event with
          | some ev => exact ⟨_, (hz.2.2 ev hev).2 hu, h2⟩
          | none =>
            exfalso
            have nil : tr = [] → False := fun h => by rw [h] at hF; cases hF
            cases k with
            | create => cases hev
            | link => cases hev
            | unlink => cases hev
            | rename => cases hev
            | write => cases hev
            | truncate => cases hev
            | unmount => cases hev
            | transact => exact hz.1 rfl
            | lookup => exact nil h.2.1
            | dirRead => exact nil h.2.1
            | dirParent => exact nil h.2.1
            | read => exact nil h.2.1
            | stat => exact nil h.2.1
            | fileSize => exact nil h.2.1
            | statfs => exact nil h.2.1
            | maskGet => exact nil (show tr = [] from h.2.1)
            | maskSet mask => exact nil (show tr = [] from h.1)
            | rollback => exact nil (show tr = [] from h.1)
            | mount ro => exact nil (show tr = [] from h.1)
    · exact ⟨ev, (hz.2.2 ev h2).1, h3⟩

theorem exec_evo' (hc : c.SysOk) (h : Reach c v) {k : Call} (hk : k.Ok c) {r : Except Err Reply} (he : exec c k v = (r, v'))
    (hb : ∀ s s' tr, Abs c v s → Spec.Does c k s r s' tr → Kept b s s' tr ∧ Pol z s s' tr) : Evo z c b v v' := by
  obtain ⟨v0, t, h0, hr⟩ := h
  refine ⟨⟨v0, _, h0, .call hr hk he⟩, fun s ha => ?_⟩
  obtain ⟨r', v2, s', tr, e', d, a, new, hn, hrec⟩ := exec_sim hc ha hk
  rw [he] at e'; obtain ⟨rfl, rfl⟩ := Prod.mk.inj e'
  exact ⟨s', tr, new, a, d.last, (hb _ _ _ ha d).1, (hb _ _ _ ha d).2, hn, fun e hin => ⟨hrec e hin, fun D w hD hw => ⟨v0, _, h0, .crash hr hk he hn (List.mem_cons_of_mem _ hin) hD hw⟩⟩⟩

theorem exec_evo (hc : c.SysOk) (h : Reach c v) {k : Call} (hk : k.Ok c) (hz : k.within z) {r : Except Err Reply} (he : exec c k v = (r, v'))
    (hb : ∀ s s' tr, Spec.Does c k s r s' tr → Kept b s s' tr) : Evo z c b v v' :=
  exec_evo' hc h hk he fun s s' tr _ d => ⟨hb s s' tr d, d.pol hz⟩

theorem init_evo (h : Reach c v) (hm : v.mounted = false) (mask : Nat) {E : Event → Prop} (hE : ∀ ev, ¬ E ev) : Evo (some E) c false v (coreInit mask v) := by
  obtain ⟨v0, t, h0, hr⟩ := h
  refine ⟨⟨v0, _, h0, .init hr hm⟩, fun s ha => ?_⟩
  exact ⟨_, [], [], init_sim ha (ha.mounted_iff.trans hm) mask, List.mem_cons_self .., ⟨rfl, rfl, fun F hF => by cases hF⟩,
    ⟨(fun F hF => by cases hF), (fun ⟨ev, h⟩ => (hE _ h).elim), fun _ => Or.inr ⟨rfl, rfl⟩⟩, rfl, fun e he => by cases he⟩

end RedFs

namespace RedFs.Posix
open M Str Path

/-! ### Operations on one volume -/

/-- The computation changes nothing that a user sees; if it succeeds, its result satisfies `P`. -/
def VCalm {α : Type} (z : Option (Event → Prop)) (c : Conf) (m : VM α) (P : α → Prop) : Prop :=
  ∀ v r v', Reach c v → m v = (r, v') → Evo z c false v v' ∧ ∀ a, r = .ok a → P a
/-- The computation changes the state once. -/
def VOnce {α : Type} (z : Option (Event → Prop)) (c : Conf) (m : VM α) : Prop := ∀ v r v', Reach c v → m v = (r, v') → Evo z c true v v'

section
variable {z : Option (Event → Prop)} {α β : Type} {c : Conf} {P : α → Prop} {Q : β → Prop}

theorem vcalm_of (hc : c.SysOk) {m : VM α} {f : α → Reply} {k : Call} (hk : k.Ok c) (hz : k.within z) (hx : exec c k = reply f m) (hcalm : k.calm = true) :
    VCalm z c m (fun _ => True) := by
  intro v r v' h e
  refine ⟨exec_evo hc h hk hz (show exec c k v = (r.map f, v') by rw [hx]; exact reply_run e) (fun s s' tr d => d.calm hcalm), fun _ _ => trivial⟩
theorem vonce_of (hc : c.SysOk) {m : VM α} {f : α → Reply} {k : Call} (hk : k.Ok c) (hz : k.within z) (hx : exec c k = reply f m) : VOnce z c m := by
  intro v r v' h e
  exact exec_evo hc h hk hz (show exec c k v = (r.map f, v') by rw [hx]; exact reply_run e) (fun s s' tr d => d.once)

theorem vcalm_pure (a : α) (h : P a) : VCalm z c (pure a : VM α) P := by
  intro v r v' hr e
  obtain ⟨rfl, rfl⟩ := Prod.mk.inj e
  exact ⟨.refl hr, fun b hb => by rw [← Except.ok.inj hb]; exact h⟩
theorem vcalm_fail (e : Err) : VCalm z c (fail e : VM α) P := by
  intro v r v' hr e
  obtain ⟨rfl, rfl⟩ := Prod.mk.inj e
  exact ⟨.refl hr, fun b hb => by cases hb⟩
theorem vcalm_bind {m : VM α} {f : α → VM β} (h : VCalm z c m P) (hf : ∀ a, P a → VCalm z c (f a) Q) : VCalm z c (m >>= f) Q := by
  intro v r v' hr e
  rw [run_bind] at e
  rcases hx : m v with ⟨x | a, s'⟩
  · rw [hx] at e; obtain ⟨rfl, rfl⟩ := Prod.mk.inj e
    exact ⟨(h _ _ _ hr hx).1, fun b hb => by cases hb⟩
  · rw [hx] at e
    obtain ⟨h1, h2⟩ := h _ _ _ hr hx
    obtain ⟨h3, h4⟩ := hf a (h2 a rfl) _ _ _ h1.reach e
    exact ⟨h1.trans h3 rfl, h4⟩
theorem VCalm.mono {m : VM α} {P' : α → Prop} (h : VCalm z c m P) (hp : ∀ a, P a → P' a) : VCalm z c m P' :=
  fun v r v' hr e => ⟨(h v r v' hr e).1, fun a ha => hp a ((h v r v' hr e).2 a ha)⟩
theorem VCalm.once {m : VM α} (h : VCalm z c m P) : VOnce z c m := fun v r v' hr e => (h v r v' hr e).1.weak

variable (hc : c.SysOk) (hp : c.posix = true)
include hc hp

theorem vcalm_lookup (p : Nat) (nm : List Byte) (hn : CStr.Ok nm) : VCalm z c (coreLookup c p nm) (fun _ => True) := vcalm_of hc (k := .lookup p nm) ⟨hp, hn⟩ (Call.within_ask rfl (fun h => by cases h) (fun m h => by cases h)) rfl rfl
theorem vcalm_dirParent (p : Nat) : VCalm z c (coreDirParent c p) (fun _ => True) := vcalm_of hc (k := .dirParent p) hp (Call.within_ask rfl (fun h => by cases h) (fun m h => by cases h)) rfl rfl
theorem vcalm_stat (p : Nat) : VCalm z c (coreStat c p) (fun _ => True) := vcalm_of hc (k := .stat p) trivial (Call.within_ask rfl (fun h => by cases h) (fun m h => by cases h)) rfl rfl
theorem vcalm_dirRead (p n : Nat) : VCalm z c (coreDirRead c p n) (fun _ => True) := vcalm_of hc (k := .dirRead p n) hp (Call.within_ask rfl (fun h => by cases h) (fun m h => by cases h)) rfl rfl
theorem vcalm_statfs : VCalm z c (coreVolStat c) (fun _ => True) := vcalm_of hc (k := .statfs) hp (Call.within_ask rfl (fun h => by cases h) (fun m h => by cases h)) rfl rfl
theorem vcalm_maskGet : VCalm z c coreTransMaskGet (fun _ => True) := vcalm_of hc (k := .maskGet) trivial (Call.within_ask rfl (fun h => by cases h) (fun m h => by cases h)) rfl rfl
theorem vcalm_maskSet (m : Nat) {E : Event → Prop} (hE : ∀ ev, ¬ E ev) : VCalm (some E) c (coreTransMaskSet c.transactMask m) (fun _ => True) := vcalm_of hc (k := .maskSet m) trivial ⟨(fun h => by cases h), (fun ⟨_, h⟩ => (hE _ h).elim), fun ev h => by cases h⟩ rfl rfl
theorem vcalm_transact : VCalm none c coreVolTransact (fun _ => True) := vcalm_of hc (k := .transact) trivial trivial rfl rfl
/-- A transaction if event `ev` is enabled. -/
theorem vcalm_transactOn (ev : Event) (hz : ∀ E, z = some E → E ev) :
    VCalm z c (do let mask ← coreTransMaskGet; if mask.testBit ev.bit then coreVolTransact else pure () : VM Unit) (fun _ => True) := by
  intro v r v' h e
  refine ⟨?_, fun _ _ => trivial⟩
  rw [run_bind] at e
  rcases hx : coreTransMaskGet v with ⟨x | m, v1⟩
  · rw [hx] at e; obtain ⟨rfl, rfl⟩ := Prod.mk.inj e
    exact (vcalm_maskGet hc hp _ _ _ h hx).1
  · rw [hx] at e; dsimp only at e
    have c1 := (vcalm_maskGet (z := z) hc hp _ _ _ h hx).1
    have hs : ∀ s, Abs c v s → s.mask = m := by
      intro s ha
      obtain ⟨r', v2, s', tr, e', d, _⟩ := exec_sim hc ha (k := .maskGet) trivial
      have e2 : exec c .maskGet v = (.ok (.num m), v1) := reply_run (f := Reply.num) hx
      rw [e2] at e'; obtain ⟨rfl, rfl⟩ := Prod.mk.inj e'
      have d : Spec.Ask (fun _ r => r = .ok (.num s.mask)) s _ s' tr := d
      obtain ⟨_, _, d⟩ := d
      split at d
      · cases d
      · have := Except.ok.inj d; injection this with this; exact this.symm
    have hv : v1 = v := by
      unfold coreTransMaskGet at hx
      by_cases hm : v.mounted = true
      · unfold whenMounted at hx; rw [run_bind, run_get] at hx; dsimp only at hx; rw [hm] at hx; exact (Prod.mk.inj hx).2.symm
      · rw [whenMounted_off (by simpa using hm)] at hx; exact (Prod.mk.inj hx).2.symm
    subst hv
    split at e
    · next hbit =>
      refine exec_evo' hc h (k := .transact) trivial (show exec c .transact v1 = (r.map (fun _ => .unit), v') from reply_run e) fun s s' tr ha d => ⟨d.calm rfl, ?_⟩
      cases z with
      | none => trivial
      | some E =>
        refine ⟨fun F hF => ⟨ev, hz E rfl, ?_⟩, (fun _ => d.mask (fun m h => by cases h)), fun _ => d.settled fun _ h => by cases h⟩
        unfold Sys.on; rw [hs s ha]; exact hbit
    · obtain ⟨_, rfl⟩ := Prod.mk.inj e; exact .refl h
theorem vcalm_read (i a n : Nat) : VCalm z c (coreFileRead c i a n) (fun _ => True) := vcalm_of hc (k := .read i a n) trivial (Call.within_ask rfl (fun h => by cases h) (fun m h => by cases h)) rfl rfl

theorem vonce_unlink (p : Nat) (nm : List Byte) (hn : CStr.Ok nm) (hz : Allow z .unlink) : VOnce z c (coreUnlink c p nm) := vonce_of hc (k := .unlink p nm) ⟨hp, hn⟩ (Call.within_mod rfl hz) rfl
theorem vonce_link (p : Nat) (nm : List Byte) (i : Nat) (hn : CStr.Ok nm) (hz : Allow z .link) : VOnce z c (coreLink c p nm i) := vonce_of hc (k := .link p nm i) ⟨hp, hn⟩ (Call.within_mod rfl hz) rfl
theorem vonce_rename (p : Nat) (nm : List Byte) (p' : Nat) (nm' : List Byte) (hn : CStr.Ok nm) (hn' : CStr.Ok nm') (hz : Allow z .rename) : VOnce z c (coreRename c p nm p' nm') :=
  vonce_of hc (k := .rename p nm p' nm') ⟨hp, hn, hn'⟩ (Call.within_mod rfl hz) rfl
theorem vonce_create (p : Nat) (nm : List Byte) (d : Bool) (hn : CStr.Ok nm) (hz : Allow z (if d then .mkdir else .creat)) : VOnce z c (coreCreate c p nm d) := vonce_of hc (k := .create p nm d) ⟨hp, hn⟩ (Call.within_mod rfl hz) rfl
theorem vonce_write (i a n : Nat) (bf : Nat → Byte) (hz : Allow z .write) : VOnce z c (coreFileWrite c i a n bf) := vonce_of hc (k := .write i a n bf) trivial (Call.within_mod rfl hz) rfl
theorem vonce_truncate (i n : Nat) (hz : Allow z .truncate) : VOnce z c (coreFileTruncate c i n) := vonce_of hc (k := .truncate i n) trivial (Call.within_mod rfl hz) rfl
theorem vonce_rollback : VOnce z c (coreVolRollback c) := vonce_of hc (k := .rollback) trivial (Call.within_ask rfl (fun h => by cases h) (fun m h => by cases h)) rfl

theorem not_created (p : Nat) (nm : List Byte) (d : Bool) (hn : CStr.Ok nm) (hz : Allow z (if d then .mkdir else .creat)) {v v' : Vol} {e : Err} (hr : Reach c v) (hx : coreCreate c p nm d v = (.error e, v')) :
    Evo z c false v v' :=
  exec_evo hc hr (k := .create p nm d) ⟨hp, hn⟩ (Call.within_mod rfl hz) (show exec c _ v = (.error e, v') from reply_run (f := .num) hx) (fun s s' tr h => h.not_created)

theorem vcalm_mustBeDir (i : Nat) : VCalm z c (inodeMustBeDir c i) (fun _ => True) := by
  unfold inodeMustBeDir
  split
  · refine vcalm_bind (vcalm_stat hc hp i) fun a _ => ?_
    split
    · exact vcalm_fail _
    · exact vcalm_pure _ trivial
  · exact vcalm_pure _ trivial

omit hc hp in
theorem skipSep_ok {sep : Byte} : ∀ {s : List Byte}, CStr.Ok s → CStr.Ok (skipSep sep s)
  | [], h => h
  | x :: s, h => by
    unfold skipSep
    split
    · exact skipSep_ok fun y hy => h y (List.mem_cons_of_mem _ hy)
    · exact h
omit hc hp in
theorem drop_ok {s : List Byte} (h : CStr.Ok s) (n : Nat) : CStr.Ok (s.drop n) := fun y hy => h y (List.mem_of_mem_drop hy)

theorem vcalm_walkLoop (cwd want : Bool) : ∀ (fuel : Nat) (s : List Byte) (ino pino : Nat) (last : List Byte), CStr.Ok s → CStr.Ok last →
    VCalm z c (walkLoop c cwd want fuel s ino pino last) (fun x => CStr.Ok x.2.2)
  | 0, s, ino, pino, last, _, _ => vcalm_fail _
  | fuel + 1, s, ino, pino, last, hs, hl => by
    have hs' := skipSep_ok (sep := c.sep) hs
    unfold walkLoop
    dsimp only
    split
    · exact vcalm_pure _ hl
    · split
      · exact vcalm_bind (vcalm_mustBeDir hc hp ino) fun _ _ => vcalm_walkLoop cwd want fuel _ _ _ _ (drop_ok hs' _) hs'
      · split
        · refine vcalm_bind (vcalm_mustBeDir hc hp ino) fun _ _ => ?_
          exact vcalm_bind (vcalm_dirParent hc hp _) fun _ _ => vcalm_walkLoop cwd want fuel _ _ _ _ (drop_ok hs' _) hs'
        · split
          · exact vcalm_bind (vcalm_lookup hc hp _ _ hs') fun _ _ => vcalm_walkLoop cwd want fuel _ _ _ _ (drop_ok hs' _) hs'
          · exact vcalm_bind (vcalm_pure (P := fun _ => True) _ trivial) fun _ _ => vcalm_walkLoop cwd want fuel _ _ _ _ (drop_ok hs' _) hs'

theorem vcalm_pathWalk (cwd : Bool) (start : Nat) (s : List Byte) (re : Option Err) (want : Bool) (hs : CStr.Ok s) :
    VCalm z c (pathWalk c cwd start s re want) (fun x => CStr.Ok x.2.2) := by
  unfold pathWalk
  have g : ∀ p, VCalm z c (do
    let (ino, pino, last) ← walkLoop c cwd want (s.length + 1) s start p s
    match re with
    | some e => if pino = 0 then fail e else pure (ino, pino, last)
    | none => pure (ino, pino, last)) (fun x => CStr.Ok x.2.2) := by
    intro p
    refine vcalm_bind (vcalm_walkLoop hc hp cwd want _ s start p s hs hs) fun x hx => ?_
    obtain ⟨i, pi, l⟩ := x
    dsimp only
    split
    · split
      · exact vcalm_fail _
      · exact vcalm_pure _ hx
    · exact vcalm_pure _ hx
  by_cases h : (if cwd then start = 0 else start ≠ 2)
  · rw [if_pos h]; exact vcalm_fail _
  · rw [if_neg h]
    dsimp only
    split
    · exact vcalm_bind (vcalm_dirParent hc hp _) fun p _ => g p
    · exact vcalm_bind (vcalm_pure (P := fun _ => True) _ trivial) fun p _ => g p

theorem vcalm_pathLookup (cwd : Bool) (start : Nat) (s : List Byte) (hs : CStr.Ok s) : VCalm z c (pathLookup c cwd start s) (fun _ => True) := by
  unfold pathLookup
  exact vcalm_bind (vcalm_pathWalk hc hp cwd start s none true hs) fun x _ => vcalm_pure _ trivial
theorem vcalm_pathToName (cwd : Bool) (start : Nat) (s : List Byte) (e : Err) (hs : CStr.Ok s) : VCalm z c (pathToName c cwd start s e) (fun x => CStr.Ok x.2) := by
  unfold pathToName
  refine vcalm_bind (vcalm_pathWalk hc hp cwd start s (some e) false hs) fun x hx => ?_
  dsimp only
  split
  · exact vcalm_fail _
  · exact vcalm_pure _ hx

theorem vcalm_cwdName (p i : Nat) : ∀ fuel pos, VCalm z c (cwdName c p i fuel pos) (fun _ => True)
  | 0, pos => vcalm_fail _
  | fuel + 1, pos => by
    unfold cwdName
    refine vcalm_bind (vcalm_dirRead hc hp p pos) fun x _ => ?_
    dsimp only
    split
    · exact vcalm_fail _
    · split
      · exact vcalm_pure _ trivial
      · exact vcalm_cwdName p i fuel _
theorem vcalm_cwdLoop (size first : Nat) : ∀ fuel ino buf, VCalm z c (cwdLoop c size first fuel ino buf) (fun _ => True)
  | 0, ino, buf => vcalm_fail _
  | fuel + 1, ino, buf => by
    unfold cwdLoop
    split
    · exact vcalm_pure _ trivial
    · refine vcalm_bind (vcalm_dirParent hc hp _) fun p _ => vcalm_bind (vcalm_cwdName hc hp _ _ _ _) fun x _ => ?_
      dsimp only
      split <;> split
      · exact vcalm_fail _
      · exact vcalm_cwdLoop size first fuel _ _
      · exact vcalm_fail _
      · exact vcalm_cwdLoop size first fuel _ _

end
end RedFs.Posix
