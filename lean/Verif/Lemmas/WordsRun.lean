import Verif.Model.WordsRun
import Verif.Lemmas.WordsTrunc
set_option linter.unusedSimpArgs false
set_option linter.unusedVariables false
set_option linter.unnecessarySeqFocus false
/-!
The loops over whole blocks in words do the same as those of `Model/Data.lean`.
-/
namespace RedFs.Words
open M

variable {c : Conf}

theorem succ32 {k n : U32} (h : k.toNat < n.toNat) : (k + 1).toNat = k.toNat + 1 := by
  have := n.isLt
  rw [add32 (by rw [one32]; omega), one32]

theorem extentLoop_sim (start : U32) (first : Nat) {len : U32} (hb : start.toNat + len.toNat ≤ 4294967295) :
    ∀ fuel (run : U32) s, len.toNat - run.toNat ≤ fuel → run.toNat ≤ len.toNat →
    SimAt (fun a b => a.toNat = b ∧ run.toNat ≤ b ∧ b ≤ len.toNat) (extentLoop c start first len fuel run)
      (RedFs.extentLoop c start.toNat first (len.toNat - run.toNat) run.toNat) s := by
  intro fuel
  induction fuel with
  | zero =>
    intro run s h hr
    unfold extentLoop
    rw [if_neg (by rw [lt_toNat]; omega), show len.toNat - run.toNat = 0 by omega]
    exact SimAt.pure ⟨rfl, Nat.le_refl _, hr⟩
  | succ fuel ih =>
    intro run s h hr
    unfold extentLoop
    by_cases hlt : run.toNat < len.toNat
    · rw [if_pos ((lt_toNat _ _).2 hlt)]
      have hs := succ32 hlt
      rw [show len.toNat - run.toNat = (len.toNat - (run + 1).toNat) + 1 by omega]
      unfold RedFs.extentLoop
      rw [add32 (by omega)]
      refine SimAt.bind (SimAt.refl _ _) fun r r' s1 er _ => ?_
      subst er
      cases r with
      | false => exact SimAt.pure ⟨rfl, Nat.le_refl _, hr⟩
      | true =>
        refine SimAt.bind (simGet s1) fun x y s2 hab e2 => ?_
        obtain ⟨rfl, rfl⟩ := hab
        cases e2
        by_cases hd : x.ci.dataBlk ≠ first + run.toNat
        · rw [if_pos hd, if_pos hd]; exact SimAt.pure ⟨rfl, Nat.le_refl _, hr⟩
        · rw [if_neg hd, if_neg hd, ← hs]
          have := ih (run + 1) x (by omega) (by omega)
          unfold SimAt at this ⊢
          rcases h1 : extentLoop c start first len fuel (run + 1) x with ⟨r, s2⟩
          rcases h2 : RedFs.extentLoop c start.toNat first (len.toNat - (run + 1).toNat) (run + 1).toNat x with ⟨r', s3⟩
          rw [h1, h2] at this
          cases r <;> cases r' <;> first | exact this.elim | exact this | exact ⟨⟨this.1.1, by omega, this.1.2.2⟩, this.2⟩
    · rw [if_neg (by rw [lt_toNat]; exact hlt), show len.toNat - run.toNat = 0 by omega]
      exact SimAt.pure ⟨rfl, Nat.le_refl _, hr⟩

/-- Results of `GetExtent`: the same, and at most the length asked for. -/
def ExtRel (len : U32) : Option (Nat × U32) → Option (Nat × Nat) → Prop
  | none, none => True
  | some (b, n), some (b', n') => b = b' ∧ n.toNat = n' ∧ 1 ≤ n' ∧ n' ≤ len.toNat
  | _, _ => False

theorem getExtent_sim {start len : U32} (hb : start.toNat + len.toNat ≤ 4294967295) (hl : 1 ≤ len.toNat) (s : DS) :
    SimAt (ExtRel len) (getExtent c start len) (RedFs.getExtent c start.toNat len.toNat) s := by
  unfold getExtent RedFs.getExtent
  refine SimAt.bind (SimAt.refl _ _) fun r r' s1 er _ => ?_
  subst er
  cases r with
  | false => exact SimAt.pure trivial
  | true =>
    refine SimAt.bind (simGet s1) fun x y s2 hab e2 => ?_
    obtain ⟨rfl, rfl⟩ := hab
    cases e2
    have h := extentLoop_sim (c := c) start x.ci.dataBlk hb len.toNat 1 x (by rw [one32]; omega) (by rw [one32]; exact hl)
    rw [one32] at h
    refine SimAt.bind h fun a b s3 hab _ => SimAt.pure ⟨rfl, hab.1, hab.2.1, hab.2.2⟩

theorem readAligned_sim {start count : U32} (hb : start.toNat + count.toNat ≤ 4294967295) :
    ∀ fuel (idx : U32) s, SimAt (fun a b => a = b) (readAligned c start count fuel idx) (RedFs.readAligned c start.toNat count.toNat fuel idx.toNat) s := by
  intro fuel
  induction fuel with
  | zero =>
    intro idx s
    unfold readAligned RedFs.readAligned
    by_cases hlt : idx.toNat < count.toNat
    · rw [if_pos ((lt_toNat _ _).2 hlt), if_pos hlt]; exact SimAt.fail
    · rw [if_neg (by rw [lt_toNat]; exact hlt), if_neg hlt]; exact SimAt.pure rfl
  | succ fuel ih =>
    intro idx s
    unfold readAligned RedFs.readAligned
    by_cases hlt : idx.toNat < count.toNat
    · rw [if_pos ((lt_toNat _ _).2 hlt), if_pos hlt]
      have a1 : (start + idx).toNat = start.toNat + idx.toNat := add32 (by omega)
      have a2 : (count - idx).toNat = count.toNat - idx.toNat := sub32 (by omega)
      have h := getExtent_sim (c := c) (start := start + idx) (len := count - idx) (by omega) (by omega) s
      rw [a1, a2] at h
      refine SimAt.bind h fun x y s1 hxy _ => ?_
      cases x with
      | none =>
        cases y with
        | some q => exact hxy.elim
        | none =>
          have := ih (idx + 1) s1
          rw [succ32 hlt] at this
          exact SimAt.bind this fun l l' s2 e _ => by subst e; exact SimAt.pure rfl
      | some p =>
        cases y with
        | none => exact hxy.elim
        | some q =>
          obtain ⟨b, n⟩ := p
          obtain ⟨b', n'⟩ := q
          obtain ⟨rfl, rfl, h1, h2⟩ := hxy
          rw [a2] at h2
          refine SimAt.bind (simGet s1) fun x y s2 hab e2 => ?_
          obtain ⟨rfl, rfl⟩ := hab
          cases e2
          have := ih (idx + n) x
          rw [add32 (by omega)] at this
          exact SimAt.bind this fun l l' s2 e _ => by subst e; exact SimAt.pure rfl
    · rw [if_neg (by rw [lt_toNat]; exact hlt), if_neg hlt]
      exact SimAt.pure rfl

/-! ### Writing -/

/-- Results of the inner loop. -/
def ColRel (lim : Nat) (a : Bool × Nat × Nat × U32) (b : Bool × Nat × Nat × Nat) : Prop :=
  a.1 = b.1 ∧ a.2.1 = b.2.1 ∧ a.2.2.1 = b.2.2.1 ∧ a.2.2.2.toNat = b.2.2.2 ∧ b.2.2.2 ≤ lim

theorem collect_sim {start count : U32} (hb : start.toNat + count.toNat ≤ 4294967295) (i0 : Nat) :
    ∀ fuel (i : U32) next es (el : U32) s, count.toNat - i.toNat ≤ fuel → i.toNat ≤ count.toNat → i0 + el.toNat ≤ i.toNat →
    SimAt (ColRel (count.toNat - i0)) (collect c start count fuel i next es el)
      (RedFs.collect c start.toNat (count.toNat - i.toNat) i.toNat next es el.toNat) s := by
  intro fuel
  induction fuel with
  | zero =>
    intro i next es el s h hi he
    unfold collect
    rw [if_neg (by rw [lt_toNat]; omega), show count.toNat - i.toNat = 0 by omega]
    exact SimAt.pure ⟨rfl, rfl, rfl, rfl, by dsimp only; omega⟩
  | succ fuel ih =>
    intro i next es el s h hi he
    unfold collect
    by_cases hlt : i.toNat < count.toNat
    · rw [if_pos ((lt_toNat _ _).2 hlt)]
      have hs := succ32 hlt
      rw [show count.toNat - i.toNat = (count.toNat - (i + 1).toNat) + 1 by omega]
      unfold RedFs.collect
      rw [add32 (by omega)]
      refine SimAt.bind (SimAt.refl _ _) fun r r' s1 er _ => ?_
      subst er
      cases r with
      | error e =>
        cases e
        case enospc => exact SimAt.pure ⟨rfl, rfl, rfl, rfl, by dsimp only; omega⟩
        all_goals exact SimAt.fail
      | ok u =>
        refine SimAt.bind (simGet s1) fun x y s2 hab e2 => ?_
        obtain ⟨rfl, rfl⟩ := hab
        cases e2
        have he0 : el = 0 ↔ el.toNat = 0 := by rw [eq_toNat, zero32]
        rw [← hs]
        by_cases h0 : el.toNat = 0
        · rw [if_pos h0, if_pos (he0.2 h0)]
          have := ih (i + 1) 0 x.ci.dataBlk 1 x (by omega) (by omega) (by rw [one32]; omega)
          rw [one32] at this
          exact this
        · rw [if_neg h0, if_neg (fun hh => h0 (he0.1 hh))]
          by_cases hd : x.ci.dataBlk = es + el.toNat
          · rw [if_pos hd, if_pos hd]
            have e1 : (el + 1).toNat = el.toNat + 1 := by rw [add32 (by rw [one32]; omega), one32]
            have := ih (i + 1) 0 es (el + 1) x (by omega) (by omega) (by omega)
            rw [e1] at this
            exact this
          · rw [if_neg hd, if_neg hd]
            exact SimAt.pure ⟨rfl, rfl, rfl, rfl, by dsimp only; omega⟩
    · rw [if_neg (by rw [lt_toNat]; exact hlt), show count.toNat - i.toNat = 0 by omega]
      exact SimAt.pure ⟨rfl, rfl, rfl, rfl, by dsimp only; omega⟩

theorem writeLoop_sim (hc : c.Ok) {start count : U32} (hb : start.toNat + count.toNat ≤ 4294967295)
    (hz : count.toNat * c.blockSize < 4294967296) (f : Nat → Byte) :
    ∀ fuel (idx : U32) next s, SimAt (fun a b => a.1.toNat = b.1 ∧ a.2 = b.2) (writeLoop c start count f fuel idx next)
      (RedFs.writeLoop c start.toNat count.toNat f fuel idx.toNat next) s := by
  intro fuel
  induction fuel with
  | zero =>
    intro idx next s
    unfold writeLoop RedFs.writeLoop
    by_cases hlt : idx.toNat < count.toNat
    · rw [if_pos ((lt_toNat _ _).2 hlt), if_pos hlt]; exact SimAt.fail
    · rw [if_neg (by rw [lt_toNat]; exact hlt), if_neg hlt]; exact SimAt.pure ⟨rfl, rfl⟩
  | succ fuel ih =>
    intro idx next s
    unfold writeLoop RedFs.writeLoop
    by_cases hlt : idx.toNat < count.toNat
    · rw [if_pos ((lt_toNat _ _).2 hlt), if_pos hlt]
      have h := collect_sim (c := c) hb idx.toNat count.toNat idx next 0 0 s (by omega) (by omega) (by rw [zero32]; omega)
      rw [zero32] at h
      refine SimAt.bind h fun x y s1 hxy _ => ?_
      obtain ⟨fl, nx, es, el⟩ := x
      obtain ⟨fl', nx', es', el'⟩ := y
      obtain ⟨r1, r2, r3, r4, r5⟩ := hxy
      dsimp only at r1 r2 r3 r4 r5
      subst r1 r2 r3 r4
      dsimp only
      have he0 : el = 0 ↔ el.toNat = 0 := by rw [eq_toNat, zero32]
      by_cases h0 : fl = true ∧ el.toNat = 0
      · rw [if_pos h0, if_pos ⟨h0.1, he0.2 h0.2⟩]; exact SimAt.pure ⟨rfl, rfl⟩
      · rw [if_neg h0, if_neg (fun hh => h0 ⟨hh.1, he0.1 hh.2⟩)]
        have hsh : (idx <<< p2 c).toNat = idx.toNat * c.blockSize :=
          shl32 hc (Nat.lt_of_le_of_lt (Nat.mul_le_mul_right _ (Nat.le_of_lt hlt)) hz)
        have ha : (idx + el).toNat = idx.toNat + el.toNat := add32 (by omega)
        rw [hsh]
        refine SimAt.bind (SimAt.refl _ _) fun _ _ s2 _ _ => ?_
        cases fl with
        | true => exact SimAt.pure ⟨ha, rfl⟩
        | false => have := ih (idx + el) nx s2; rw [ha] at this; exact this
    · rw [if_neg (by rw [lt_toNat]; exact hlt), if_neg hlt]; exact SimAt.pure ⟨rfl, rfl⟩

end RedFs.Words
