import Verif.Lemmas.TimesHold
set_option linter.unusedSimpArgs false
set_option linter.unusedVariables false
/-!
The stamps a call sets.
-/
namespace RedFs.Times
open RedFs M Str

variable {c : Conf} {clk : Nat → Nat} {α β : Type}

/-- One call of `RedInodePut`: the inode and the fields. -/
structure Mark where
  i : Nat
  a : Bool
  m : Bool
  ch : Bool
def stamp (clk : Nat → Nat) (t : Clk) (e : Mark) : Clk :=
  { t.set e.i (fun s => s.mark e.a e.m e.ch (clk t.reads)) with reads := t.reads + 1 }
def stamps (c : Conf) (clk : Nat → Nat) (L : List Mark) (t : Clk) : Clk := if c.timestamps then L.foldl (stamp clk) t else t

theorem stamps_nil (t : Clk) : stamps c clk [] t = t := by unfold stamps; split <;> rfl
theorem stamps_append (L L' : List Mark) (t : Clk) : stamps c clk L' (stamps c clk L t) = stamps c clk (L ++ L') t := by
  unfold stamps; split
  · rw [List.foldl_append]
  · rfl
theorem stamps_red (L : List Mark) (t : Clk) : (stamps c clk L t).red = t.red := by
  unfold stamps; split
  · induction L generalizing t with
    | nil => rfl
    | cons e L ih => exact ih _
  · rfl
theorem stamps_comm (L : List Mark) (t : Clk) : (stamps c clk L t).comm = t.comm := by
  unfold stamps; split
  · induction L generalizing t with
    | nil => rfl
    | cons e L ih => exact ih _
  · rfl
theorem putClk_ready {v : Vol} {ci : Cinode} {ino : Nat} (h : Ready v ci ino) {a m ch : Bool} (hb : (a || m || ch) = true) (t : Clk) :
    putClk c clk ci a m ch t = stamps c clk [⟨ino, a && c.atime, m, ch⟩] t := by
  unfold putClk stamps
  rw [if_neg h.buf]
  by_cases hc : c.timestamps = true
  · rw [if_pos ⟨hc, hb⟩, if_neg (by rw [h.branched, h.dirty]; simp), if_pos hc, h.ino]; rfl
  · rw [if_neg (fun hh => hc hh.1), if_neg hc]
theorem putClk_none {ci : Cinode} (h : ci.nodeBuf = none) {a m ch : Bool} (t : Clk) : putClk c clk ci a m ch t = t := by
  unfold putClk; rw [if_pos h]
theorem putClk_nothing {ci : Cinode} (t : Clk) : putClk c clk ci false false false t = t := by
  unfold putClk; split
  · rfl
  · rw [if_neg (by simp)]

theorem bind_inv {σ : Type} {m : M σ α} {f : α → M σ β} {s s' : σ} {r : Except Err β} (h : (m >>= f) s = (r, s')) :
    (∃ e, m s = (.error e, s') ∧ r = .error e) ∨ ∃ a s1, m s = (.ok a, s1) ∧ f a s1 = (r, s') := by
  rw [run_bind] at h
  rcases hm : m s with ⟨e | a, s1⟩
  · rw [hm] at h; simp only [Prod.mk.injEq] at h; exact Or.inl ⟨e, by rw [h.2], h.1.symm⟩
  · rw [hm] at h; exact Or.inr ⟨a, s1, rfl, h⟩
theorem lift_inv {m : VM α} {s s' : St} {r : Except Err α} (h : lift m s = (r, s')) : m s.v = (r, s'.v) ∧ s'.t = s.t := by
  unfold lift at h
  rcases hm : m s.v with ⟨x, v⟩
  rw [hm] at h
  simp only [Prod.mk.injEq] at h
  obtain ⟨rfl, rfl⟩ := h
  exact ⟨rfl, rfl⟩
theorem put_inv {ci : Cinode} {a m ch : Bool} {s s' : St} {r : Except Err Unit} (h : put c clk ci a m ch s = (r, s')) :
    r = .ok () ∧ s'.v = s.v ∧ s'.t = putClk c clk ci a m ch s.t := by
  rw [put_run] at h
  simp only [Prod.mk.injEq] at h
  obtain ⟨rfl, rfl⟩ := h
  exact ⟨rfl, rfl, rfl⟩
theorem pure_inv {σ : Type} {a : α} {s s' : σ} {r : Except Err α} (h : (pure a : M σ α) s = (r, s')) : r = .ok a ∧ s' = s := by
  have h : (Except.ok a, s) = (r, s') := h
  simp only [Prod.mk.injEq] at h
  exact ⟨h.1.symm, h.2.symm⟩
theorem fail_inv {σ : Type} {e : Err} {s s' : σ} {r : Except Err α} (h : (fail e : M σ α) s = (r, s')) : r = .error e ∧ s' = s := by
  have h : (Except.error e, s) = (r, s') := h
  simp only [Prod.mk.injEq] at h
  exact ⟨h.1.symm, h.2.symm⟩
theorem attempt_inv {σ : Type} {m : M σ α} {s s' : σ} {r : Except Err (Except Err α)} (h : attempt m s = (r, s')) : ∃ x, r = .ok x ∧ m s = (x, s') := by
  rw [run_attempt] at h
  rcases hm : m s with ⟨x, s1⟩
  rw [hm] at h
  simp only [Prod.mk.injEq] at h
  exact ⟨x, h.1.symm, by rw [h.2]⟩
theorem runCi_inv {ci : Cinode} {m : DM α} (hm : KD m) {s s1 : St} {a : α × Cinode} (h : lift (runCi ci m) s = (.ok a, s1)) :
    s1.t = s.t ∧ Cinode.tag a.2 = Cinode.tag ci ∧ (s.v.branched = true → s1.v.branched = true) := by
  obtain ⟨h1, h2⟩ := lift_inv h
  exact ⟨h2, runCi_tag hm h1⟩
theorem onCi_inv {ci : Cinode} {m : DM α} (hm : KD m) {s s1 : St} {a : Except Err α × Cinode} (h : lift (onCi ci m) s = (.ok a, s1)) :
    s1.t = s.t ∧ Cinode.tag a.2 = Cinode.tag ci ∧ (s.v.branched = true → s1.v.branched = true) := by
  obtain ⟨h1, h2⟩ := lift_inv h
  exact ⟨h2, onCi_tag hm h1⟩
theorem kb_inv {m : VM α} (hm : KB m) {s s1 : St} {r : Except Err α} (h : lift m s = (r, s1)) : s1.t = s.t ∧ (s.v.branched = true → s1.v.branched = true) := by
  obtain ⟨h1, h2⟩ := lift_inv h
  refine ⟨h2, fun hb => ?_⟩
  have := hm s.v hb
  rw [h1] at this
  exact this
theorem rwOp_inv {m : TM α} {s s' : St} {r : Except Err α} (h : rwOp m s = (r, s')) : (∃ e, r = .error e ∧ s' = s) ∨ m s = (r, s') := by
  unfold rwOp at h
  rw [vol_bind] at h
  split at h
  · obtain ⟨h1, h2⟩ := fail_inv h
    exact Or.inl ⟨_, h1, h2⟩
  · exact Or.inr h
theorem whenMounted_inv {m : TM α} {s s' : St} {r : Except Err α} (h : whenMounted m s = (r, s')) : (∃ e, r = .error e ∧ s' = s) ∨ m s = (r, s') := by
  unfold whenMounted at h
  rw [vol_bind] at h
  split at h
  · obtain ⟨h1, h2⟩ := fail_inv h
    exact Or.inl ⟨_, h1, h2⟩
  · exact Or.inr h

/-- The stamps after `m`: those of the failed call, and `L` those the successful one has set. -/
structure Marks (c : Conf) (clk : Nat → Nat) (L : α → List Mark) (s : St) (r : Except Err α) (s' : St) : Prop where
  err : ∀ e, r = .error e → s'.t = s.t
  ok : ∀ a, r = .ok a → (L a ≠ [] → s'.v.branched = true) ∧ s'.t = stamps c clk (L a) s.t

theorem Marks.fail {L : α → List Mark} {s s' : St} {r : Except Err α} {e : Err} (h : r = .error e) (ht : s'.t = s.t) : Marks c clk L s r s' :=
  ⟨fun _ _ => ht, fun a ha => by rw [h] at ha; cases ha⟩

theorem write_marks {ino start len : Nat} {buf : Nat → Byte} {s s' : St} {r : Except Err Nat} (hi : Idle s.v)
    (h : fileWriteSub c clk ino start len buf s = (r, s')) : Marks c clk (fun _ => [⟨ino, false, true, true⟩]) s r s' := by
  rcases rwOp_inv h with ⟨e, rfl, rfl⟩ | h
  · exact .fail rfl rfl
  rcases bind_inv h with ⟨e, h1, rfl⟩ | ⟨ci, s1, h1, h⟩
  · exact .fail rfl (lift_inv h1).2
  obtain ⟨h1, t1⟩ := lift_inv h1
  have R := mount_ready hi h1
  rcases bind_inv h with ⟨e, h2, rfl⟩ | ⟨⟨n, ci'⟩, s2, h2, h⟩
  · exact .fail rfl ((lift_inv h2).2.trans t1)
  obtain ⟨t2, g2, b2⟩ := runCi_inv (dataWrite_kd _ _ _) h2
  have R := R.tag g2 (b2 R.vol)
  dsimp only at h
  rcases bind_inv h with ⟨e, h3, rfl⟩ | ⟨u, s3, h3, h⟩
  · have := (put_inv h3).1; cases this
  obtain ⟨-, v3, t3⟩ := put_inv h3
  obtain ⟨rfl, rfl⟩ := pure_inv h
  refine ⟨fun e he => (by cases he), fun a ha => ⟨fun _ => by rw [v3]; exact R.vol, ?_⟩⟩
  rw [t3, putClk_ready R rfl, t2, t1]; rfl

theorem truncate_marks {ino size : Nat} {s s' : St} {r : Except Err Unit} (hi : Idle s.v)
    (h : fileTruncateSub c clk ino size s = (r, s')) : Marks c clk (fun _ => [⟨ino, false, true, true⟩]) s r s' := by
  rcases rwOp_inv h with ⟨e, rfl, rfl⟩ | h
  · exact .fail rfl rfl
  rcases bind_inv h with ⟨e, h1, rfl⟩ | ⟨ci, s1, h1, h⟩
  · exact .fail rfl (lift_inv h1).2
  obtain ⟨h1, t1⟩ := lift_inv h1
  have R := mount_ready hi h1
  rcases bind_inv h with ⟨e, h2, rfl⟩ | ⟨u, s2, h2, h⟩
  · exact .fail rfl ((lift_inv h2).2.trans t1)
  obtain ⟨t2, b2⟩ := kb_inv (setUseReserved_kb _) h2
  rcases bind_inv h with ⟨e, h3, rfl⟩ | ⟨⟨x, ci'⟩, s3, h3, h⟩
  · exact .fail rfl ((lift_inv h3).2.trans (t2.trans t1))
  obtain ⟨t3, g3, b3⟩ := onCi_inv (dataTruncate_kd _) h3
  dsimp only at h
  rcases bind_inv h with ⟨e, h4, rfl⟩ | ⟨u, s4, h4, h⟩
  · exact .fail rfl ((lift_inv h4).2.trans (t3.trans (t2.trans t1)))
  obtain ⟨t4, b4⟩ := kb_inv (setUseReserved_kb _) h4
  rcases bind_inv h with ⟨e, h5, rfl⟩ | ⟨u, s5, h5, h⟩
  · exact .fail rfl ((lift_inv h5).2.trans (t4.trans (t3.trans (t2.trans t1))))
  obtain ⟨t5, b5⟩ := kb_inv (kb_ofExcept _) h5
  have R := R.tag g3 (b5 (b4 (b3 (b2 R.vol))))
  obtain ⟨rfl, v6, t6⟩ := put_inv h
  refine ⟨fun e he => (by cases he), fun a ha => ⟨fun _ => by rw [v6]; exact R.vol, ?_⟩⟩
  rw [t6, putClk_ready R rfl, t5, t4, t3, t2, t1]; rfl

theorem read_marks {ino start len : Nat} {s s' : St} {r : Except Err (List Byte)} (hi : Idle s.v)
    (h : fileRead c clk ino start len s = (r, s')) :
    Marks c clk (fun _ => if c.atime = true ∧ 0 < len ∧ s.v.readOnly = false then [⟨ino, true, false, false⟩] else []) s r s' := by
  rcases whenMounted_inv h with ⟨e, rfl, rfl⟩ | h
  · exact .fail rfl rfl
  rw [vol_bind] at h
  rcases bind_inv h with ⟨e, h1, rfl⟩ | ⟨ci, s1, h1, h⟩
  · exact .fail rfl (lift_inv h1).2
  obtain ⟨h1, t1⟩ := lift_inv h1
  rcases bind_inv h with ⟨e, h2, rfl⟩ | ⟨⟨n, ci'⟩, s2, h2, h⟩
  · exact .fail rfl ((lift_inv h2).2.trans t1)
  obtain ⟨t2, g2, b2⟩ := runCi_inv (dataRead_kd _ _) h2
  dsimp only at h
  rcases bind_inv h with ⟨e, h3, rfl⟩ | ⟨u, s3, h3, h⟩
  · have := (put_inv h3).1; cases this
  obtain ⟨-, v3, t3⟩ := put_inv h3
  obtain ⟨rfl, rfl⟩ := pure_inv h
  refine ⟨fun e he => (by cases he), fun a ha => ?_⟩
  by_cases hx : c.atime = true ∧ 0 < len ∧ s.v.readOnly = false
  · have hb : (c.atime && decide (0 < len) && !s.v.readOnly) = true := by rw [hx.1, hx.2.2]; simp [hx.2.1]
    rw [hb] at h1 t3
    have R := mount_ready hi h1
    have R := R.tag g2 (b2 R.vol)
    refine ⟨fun _ => by rw [v3]; exact R.vol, ?_⟩
    rw [if_pos hx, t3, putClk_ready R rfl, hx.1, t2, t1]; rfl
  · have hb : (c.atime && decide (0 < len) && !s.v.readOnly) = false := by
      cases h1 : c.atime
      · simp
      · cases h2 : s.v.readOnly
        · simp only [Bool.and_true, Bool.true_and, Bool.not_false, decide_eq_false_iff_not]; exact fun hh => hx ⟨h1, hh, h2⟩
        · simp
    rw [hb] at t3
    rw [if_neg hx]
    exact ⟨fun hh => absurd rfl hh, by rw [t3, putClk_nothing, t2, t1, stamps_nil]⟩

theorem dirRead_marks {ino pos : Nat} {s s' : St} {r : Except Err (Nat × Option (List Ch × Nat))} (hi : Idle s.v)
    (h : dirReadCall c clk ino pos s = (r, s')) :
    Marks c clk (fun x => if c.atime = true ∧ s.v.readOnly = false ∧ x.2.isSome = true then [⟨ino, true, false, false⟩] else []) s r s' := by
  rcases whenMounted_inv h with ⟨e, rfl, rfl⟩ | h
  · exact .fail rfl rfl
  rw [vol_bind] at h
  rcases bind_inv h with ⟨e, h1, rfl⟩ | ⟨ci, s1, h1, h⟩
  · exact .fail rfl (lift_inv h1).2
  obtain ⟨h1, t1⟩ := lift_inv h1
  obtain ⟨v1, H⟩ := mount_held hi h1
  rcases bind_inv h with ⟨e, h2, rfl⟩ | ⟨⟨x, ci'⟩, s2, h2, h⟩
  · exact .fail rfl ((lift_inv h2).2.trans t1)
  obtain ⟨t2, g2, b2⟩ := runCi_inv (dirRead_kd _) h2
  have H := H.tag g2 (fun hb => b2 (by rw [v1]; exact hb))
  dsimp only at h
  by_cases hx : c.atime = true ∧ s.v.readOnly = false ∧ x.2.isSome = true
  · rw [if_pos hx] at h
    rcases bind_inv h with ⟨e, h3, rfl⟩ | ⟨ci2, s3, h3, h⟩
    · exact .fail rfl ((lift_inv h3).2.trans (t2.trans t1))
    obtain ⟨h3, t3⟩ := lift_inv h3
    have R := H.branch h3
    rcases bind_inv h with ⟨e, h4, rfl⟩ | ⟨u, s4, h4, h⟩
    · have := (put_inv h4).1; cases this
    obtain ⟨-, v4, t4⟩ := put_inv h4
    obtain ⟨rfl, rfl⟩ := pure_inv h
    refine ⟨fun e he => (by cases he), fun a ha => ?_⟩
    cases ha
    rw [if_pos hx]
    exact ⟨fun _ => by rw [v4]; exact R.vol, by rw [t4, putClk_ready R rfl, hx.1, t3, t2, t1]; rfl⟩
  · rw [if_neg hx] at h
    obtain ⟨rfl, rfl⟩ := pure_inv h
    refine ⟨fun e he => (by cases he), fun a ha => ?_⟩
    cases ha
    rw [if_neg hx]
    exact ⟨fun hh => absurd rfl hh, by rw [t2, t1, stamps_nil]⟩

theorem link_marks {p ino : Nat} {nm : List Ch} {s s' : St} {r : Except Err Unit} (hi : Idle s.v)
    (h : linkSub c clk p nm ino s = (r, s')) : Marks c clk (fun _ => [⟨ino, false, false, true⟩, ⟨p, false, true, true⟩]) s r s' := by
  rcases rwOp_inv h with ⟨e, rfl, rfl⟩ | h
  · exact .fail rfl rfl
  rcases bind_inv h with ⟨e, h1, rfl⟩ | ⟨pi, s1, h1, h⟩
  · exact .fail rfl (lift_inv h1).2
  obtain ⟨h1, t1⟩ := lift_inv h1
  obtain ⟨v1, H⟩ := mount_held hi h1
  rcases bind_inv h with ⟨e, h2, rfl⟩ | ⟨x, s2, h2, h⟩
  · obtain ⟨x, hx, -⟩ := attempt_inv h2; cases hx
  obtain ⟨x', hx', h2⟩ := attempt_inv h2
  cases hx'
  obtain ⟨h2, t2⟩ := lift_inv h2
  rcases x with e | ci
  · obtain ⟨rfl, rfl⟩ := fail_inv h
    exact .fail rfl (t2.trans t1)
  obtain ⟨v2, H2⟩ := mount_held (by rw [v1]; exact hi) h2
  dsimp only at h
  split at h
  · obtain ⟨rfl, rfl⟩ := fail_inv h
    exact .fail rfl (t2.trans t1)
  rcases bind_inv h with ⟨e, h3, rfl⟩ | ⟨pi', s3, h3, h⟩
  · exact .fail rfl ((lift_inv h3).2.trans (t2.trans t1))
  obtain ⟨h3, t3⟩ := lift_inv h3
  have R := (H.tag rfl (fun hb => by rw [v2, v1]; exact hb) : Held s2.v pi p).branch h3
  rcases bind_inv h with ⟨e, h4, rfl⟩ | ⟨ci', s4, h4, h⟩
  · exact .fail rfl ((lift_inv h4).2.trans (t3.trans (t2.trans t1)))
  obtain ⟨h4, t4⟩ := lift_inv h4
  have R2 := (H2.tag rfl (fun _ => R.vol) : Held s3.v ci ino).branch h4
  have R := R.vol' R2.vol
  rcases bind_inv h with ⟨e, h5, rfl⟩ | ⟨⟨_, pi2⟩, s5, h5, h⟩
  · exact .fail rfl ((lift_inv h5).2.trans (t4.trans (t3.trans (t2.trans t1))))
  obtain ⟨t5, g5, b5⟩ := runCi_inv (dirCreate_kd _ _) h5
  have R := R.tag g5 (b5 R.vol)
  dsimp only at h
  rcases bind_inv h with ⟨e, h6, rfl⟩ | ⟨⟨_, ci2⟩, s6, h6, h⟩
  · exact .fail rfl ((lift_inv h6).2.trans (t5.trans (t4.trans (t3.trans (t2.trans t1)))))
  obtain ⟨t6, g6, b6⟩ := runCi_inv (kd_setNode _) h6
  have R2 := R2.tag g6 (b6 R.vol)
  have R := R.vol' R2.vol
  dsimp only at h
  rcases bind_inv h with ⟨e, h7, rfl⟩ | ⟨u, s7, h7, h⟩
  · have := (put_inv h7).1; cases this
  obtain ⟨-, v7, t7⟩ := put_inv h7
  obtain ⟨rfl, v8, t8⟩ := put_inv h
  refine ⟨fun e he => (by cases he), fun a ha => ⟨fun _ => by rw [v8, v7]; exact R.vol, ?_⟩⟩
  rw [t8, putClk_ready R rfl, t7, putClk_ready R2 rfl, t6, t5, t4, t3, t2, t1, stamps_append]; rfl

end RedFs.Times
