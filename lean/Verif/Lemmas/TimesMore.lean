import Verif.Lemmas.TimesOrder
set_option linter.unusedSimpArgs false
set_option linter.unusedVariables false
/-!
The stamps after calls that fail, after automatic transactions, and which stamps are equal.
-/
namespace RedFs.Times
open RedFs M Str

variable {c : Conf} {clk : Nat → Nat} {α β : Type}

theorem stamps_other (i : Nat) (L : List Mark) (hL : ∀ x ∈ L, x.i ≠ i) : ∀ t, (stamps c clk L t).work i = t.work i := by
  unfold stamps
  intro t
  split
  · induction L generalizing t with
    | nil => rfl
    | cons e L ih =>
      rw [List.foldl_cons, ih (fun x hx => hL x (List.mem_cons_of_mem _ hx))]
      show (if i = e.i then _ else t.work i) = t.work i
      rw [if_neg (fun h => hL e List.mem_cons_self h.symm)]
  · rfl

theorem plain_or (k : Call) : Plain k ∨ k = .rollback ∨ k = .unmount ∨ ∃ ro, k = .mount ro := by
  cases k <;> first | exact Or.inl trivial | exact Or.inr (Or.inl rfl) | exact Or.inr (Or.inr (Or.inl rfl)) | exact Or.inr (Or.inr (Or.inr ⟨_, rfl⟩))

theorem failed (hc : c.SysOk) {s s' : St} {k : Call} {e : Err} (hg : Good c s) (hm : s.v.mounted = true) (hk : k.Ok c) (hu : k ≠ .unmount)
    (h : exec c clk k s = (.error e, s')) {i : Nat} (hi : files c s.v i ≠ none) : s'.t.work i = s.t.work i := by
  rcases plain_or k with hp | rfl | rfl | ⟨ro, rfl⟩
  · obtain ⟨L, hL, hS⟩ := (exec_done hc hk hp (up hc hg.vol hm) (hg.keep hm) h).err e rfl
    rw [hS.1]
    exact stamps_other i L (fun x hx hxi => hi (hxi ▸ hL x hx)) _
  · rw [(rollback_inv hc (up hc hg.vol hm) (hg.keep hm) h).2.2.2.1 e rfl]
  · exact absurd rfl hu
  · rw [(mount_inv h).2.2.2.1 e rfl]

/-- Among stamps in which every mark of the time of modification is one of the time of change, the former last. -/
theorem stamps_eq (hts : c.timestamps = true) (i : Nat) {L : List Mark} {pre post : List Mark} {e : Mark} (hL : L = pre ++ e :: post) (he : e.i = i) (hm : e.m = true) (hch : e.ch = true)
    (hpost : ∀ x ∈ post, x.i ≠ i) (t : Clk) : ((stamps c clk L t).work i).m = ((stamps c clk L t).work i).c := by
  have : L = (pre ++ [e]) ++ post := by rw [hL]; simp
  rw [this, ← stamps_append, stamps_other i post hpost, ← stamps_append]
  unfold stamps
  rw [if_pos hts, if_pos hts]
  show ((if i = e.i then _ else _ : Stamp)).m = ((if i = e.i then _ else _ : Stamp)).c
  rw [if_pos he.symm]
  unfold Stamp.mark
  rw [hm, hch]
  rfl

theorem same_reading (hc : c.SysOk) (hts : c.timestamps = true) {s s' : St} {k : Call} {r : Reply} (hg : Good c s) (hm : s.v.mounted = true) (hk : k.Ok c) (hp : Plain k)
    (h : exec c clk k s = (.ok r, s')) {i : Nat} (hi : Modified c (files c s.v) i k r) : (s'.t.work i).m = (s'.t.work i).c := by
  obtain ⟨L0, L, hL0, hM, hS⟩ := (exec_done hc hk hp (up hc hg.vol hm) (hg.keep hm) h).ok r rfl
  rw [hS.1]
  have key : ∀ {pre post : List Mark} {e : Mark}, L = pre ++ e :: post → e.i = i → e.m = true → e.ch = true → (∀ x ∈ post, x.i ≠ i) →
      ((stamps c clk (L0 ++ L) s.t).work i).m = ((stamps c clk (L0 ++ L) s.t).work i).c := fun {pre post e} h1 h2 h3 h4 h5 =>
    stamps_eq hts i (pre := L0 ++ pre) (post := post) (e := e) (by rw [h1]; simp) h2 h3 h4 h5 _
  have none : ∀ x ∈ ([] : List Mark), x.i ≠ i := fun x hx => by cases hx
  cases k with
  | create p name isDir =>
    cases r with
    | num j =>
      have hM : L = [⟨j, true, true, true⟩, ⟨p, false, true, true⟩] := hM
      have hi : i = p ∨ i = j := hi
      by_cases hip : i = p
      · exact key (pre := [⟨j, true, true, true⟩]) (post := []) hM hip.symm rfl rfl none
      · have hij := hi.resolve_left hip
        exact key (pre := []) (post := [⟨p, false, true, true⟩]) hM hij.symm rfl rfl (fun x hx => by
          rw [List.mem_singleton] at hx; subst hx; exact fun h => hip h.symm)
    | _ => exact hM.elim
  | link p name ino =>
    have hM : L = [⟨ino, false, false, true⟩, ⟨p, false, true, true⟩] := hM
    have hi : i = p := hi
    exact key (pre := [⟨ino, false, false, true⟩]) (post := []) hM hi.symm rfl rfl none
  | unlink p name =>
    have hM : ∃ j g, Has c (files c s.v) p (nameOf c name) j ∧ files c s.v j = some g ∧ L = (if 1 < g.nlink then [⟨j, false, false, true⟩] else []) ++ [⟨p, false, true, true⟩] := hM
    have hi : i = p := hi
    obtain ⟨j, g, _, _, hL⟩ := hM
    exact key (post := []) hL hi.symm rfl rfl none
  | rename p name p' name' =>
    have hM : (L = [] ∧ SameFile c (files c s.v) p (nameOf c name) p' (nameOf c name')) ∨ ∃ i, Has c (files c s.v) p (nameOf c name) i ∧ ¬ SameFile c (files c s.v) p (nameOf c name) p' (nameOf c name') ∧
      L = [⟨i, false, false, true⟩, ⟨p', false, true, true⟩] ++ (if p = p' then [] else [⟨p, false, true, true⟩]) := hM
    have hi : ¬ SameFile c (files c s.v) p (nameOf c name) p' (nameOf c name') ∧ (i = p ∨ i = p') := hi
    rcases hM with ⟨_, h1⟩ | ⟨j, _, _, hL⟩
    · exact absurd h1 hi.1
    by_cases hpp : p = p'
    · rw [if_pos hpp, List.append_nil] at hL
      exact key (pre := [⟨j, false, false, true⟩]) (post := []) hL (by rcases hi.2 with h | h <;> simp [h, hpp]) rfl rfl none
    · rw [if_neg hpp] at hL
      by_cases hip : i = p
      · exact key (pre := [⟨j, false, false, true⟩, ⟨p', false, true, true⟩]) (post := []) hL hip.symm rfl rfl none
      · exact key (pre := [⟨j, false, false, true⟩]) (post := [⟨p, false, true, true⟩]) hL (hi.2.resolve_left hip).symm rfl rfl (fun x hx => by
          rw [List.mem_singleton] at hx; subst hx; exact fun h => hip h.symm)
  | write ino start len buf =>
    have hM : L = [⟨ino, false, true, true⟩] := hM
    have hi : i = ino := hi
    exact key (pre := []) (post := []) hM hi.symm rfl rfl none
  | truncate ino size =>
    have hM : L = [⟨ino, false, true, true⟩] := hM
    have hi : i = ino := hi
    exact key (pre := []) (post := []) hM hi.symm rfl rfl none
  | _ => exact hi.elim

theorem volTransact_off {v v' : Vol} (h : volTransact v = (.ok (), v')) : v'.branched = false := by
  unfold volTransact at h
  rcases bind_inv h with ⟨e, _, hh⟩ | ⟨w, v1, h1, h0⟩
  · cases hh
  have hw : w = v ∧ v1 = v := by
    have h1 : (Except.ok v, v) = (Except.ok w, v1) := h1
    simp only [Prod.mk.injEq, Except.ok.injEq] at h1
    exact ⟨h1.1.symm, h1.2.symm⟩
  obtain ⟨rfl, rfl⟩ := hw
  clear h
  rename' h0 => h
  split at h
  · rcases bind_inv h with ⟨e, _, hh⟩ | ⟨_, _, _, h⟩; · cases hh
    rcases bind_inv h with ⟨e, _, hh⟩ | ⟨_, _, _, h⟩; · cases hh
    rcases bind_inv h with ⟨e, _, hh⟩ | ⟨_, _, _, h⟩; · cases hh
    rcases bind_inv h with ⟨e, _, hh⟩ | ⟨_, _, _, h⟩; · cases hh
    rcases bind_inv h with ⟨e, _, hh⟩ | ⟨_, _, _, h⟩; · cases hh
    rcases bind_inv h with ⟨e, _, hh⟩ | ⟨_, _, _, h⟩; · cases hh
    rcases bind_inv h with ⟨e, _, hh⟩ | ⟨_, v2, _, h⟩; · cases hh
    have h := (Prod.mk.inj h).2
    rw [← h]
  · rename_i hb
    obtain ⟨_, rfl⟩ := pure_inv h
    simpa using hb

theorem transact_on {s s' : St} (h : transact s = (.ok (), s')) : s'.v.branched = false := by
  unfold transact at h
  rw [vol_bind] at h
  rcases bind_inv h with ⟨e, _, hh⟩ | ⟨u, s1, h1, h2⟩
  · cases hh
  have h3 := volTransact_off (lift_inv h1).1
  split at h2
  · have h2 := (Prod.mk.inj h2).2
    rw [← h2]; exact h3
  · obtain ⟨_, rfl⟩ := pure_inv h2; exact h3

theorem modifying_on {ev : Event} {m : TM α} {s s' : St} {a : α} (h : modifyingOp ev m s = (.ok a, s')) (ho : s'.v.on ev = true) : s'.v.branched = false := by
  unfold modifyingOp whenRw at h
  rw [vol_bind] at h
  split at h
  · cases (fail_inv h).1
  split at h
  · cases (fail_inv h).1
  rcases bind_inv h with ⟨e, _, hh⟩ | ⟨a1, s1, h1, h2⟩
  · cases hh
  rcases bind_inv h2 with ⟨e, _, hh⟩ | ⟨u, s2, h3, h4⟩
  · cases hh
  obtain ⟨_, rfl⟩ := pure_inv h4
  unfold eventTransact at h3
  rw [vol_bind] at h3
  split at h3
  · exact transact_on h3
  · rename_i hoff
    obtain ⟨_, rfl⟩ := pure_inv h3
    exact absurd ho hoff

theorem mask_kept (hc : c.SysOk) {v v' : Vol} {k : Call} {r : Except Err Reply} {e : Event} (hr : RedFs.Reach c v) (hk : k.Ok c) (hev : EventOf k = some e)
    (h : RedFs.exec c k v = (r, v')) : v'.transMask = v.transMask := by
  obtain ⟨s, ha⟩ := hr.abs hc
  obtain ⟨r', v1, s', tr, e', hd, ha', _⟩ := exec_sim hc ha hk
  rw [h] at e'
  simp only [Prod.mk.injEq] at e'
  obtain ⟨rfl, rfl⟩ := e'
  have mod : ∀ {ev : Event} {R : Files → Except Err Reply → Files → Prop}, Spec.Modify ev R s r s' tr → s'.mask = s.mask := by
    intro ev R h
    unfold Spec.Modify at h
    split at h
    · rw [h.2.1]
    split at h
    · rw [h.2.1]
    · obtain ⟨pre, F, _, _, _, h⟩ := h
      rw [h]; rfl
  have hm : s'.mask = s.mask := by
    cases k <;> first | exact mod hd | cases hev
  have am : ∀ {v : Vol} {s : Sys}, Abs c v s → s.mask = v.transMask := fun h => by cases h <;> assumption
  rw [← am ha, ← am ha', hm]

theorem auto (hc : c.SysOk) {s s' : St} {k : Call} {r : Reply} {e : Event} (hg : Good c s) (hm : s.v.mounted = true) (hk : k.Ok c) (hev : EventOf k = some e)
    (h : exec c clk k s = (.ok r, s')) (ho : s.v.on e = true) : s'.t.comm = s'.t.work := by
  have hmask := mask_kept hc hg.vol hk hev (exec_erase h)
  have ho' : s'.v.on e = true := by unfold Vol.on at ho ⊢; rw [hmask]; exact ho
  have hp : Plain k := by cases k <;> trivial
  have hT := (exec_done hc hk hp (up hc hg.vol hm) (hg.keep hm) h).keep
  refine (hT ?_).symm
  have fin : ∀ {α : Type} {ev : Event} {m : TM α} {f : α → Reply}, (do let a ← modifyingOp ev m; pure (f a) : TM Reply) s = (.ok r, s') → ev = e → s'.v.branched = false := by
    intro α ev m f h he
    subst he
    rcases bind_inv h with ⟨e, _, hh⟩ | ⟨a, s1, h1, h2⟩
    · cases hh
    obtain ⟨_, rfl⟩ := pure_inv h2
    exact modifying_on h1 ho'
  cases k <;> first
    | (cases hev; done)
    | exact fin h (Option.some.inj hev)

end RedFs.Times
