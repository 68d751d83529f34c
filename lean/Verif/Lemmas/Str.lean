import Verif.Model.Str
namespace RedFs.Str

theorem lex_cons_iff {α : Type} (r : α → α → Prop) (a b : α) (s t : List α) :
    List.Lex r (a :: s) (b :: t) ↔ r a b ∨ (a = b ∧ List.Lex r s t) := by
  constructor
  · intro h
    cases h with
    | cons h => exact Or.inr ⟨rfl, h⟩
    | rel h => exact Or.inl h
  · rintro (h | ⟨rfl, h⟩)
    · exact List.Lex.rel h
    · exact List.Lex.cons h

theorem cget_zero_cons (c : Ch) (s : List Ch) : cget (c :: s) 0 = c := rfl
theorem cget_nil : cget [] 0 = 0#8 := rfl

theorem strLen_ok (s : CStr) (h : s.Ok) : strLen s = s.length := by
  induction s with
  | nil => rfl
  | cons c s ih =>
    have hc := h c (by simp)
    rw [strLen, if_neg hc, ih (fun x hx => h x (by simp [hx]))]; rfl

theorem strNCpy_nil (n : Nat) : strNCpy [] n = List.replicate n 0#8 := by
  induction n with
  | zero => rfl
  | succ n ih => rw [strNCpy, ih]; rfl

theorem strNCpy_ok (s : CStr) (h : s.Ok) (n : Nat) :
    strNCpy s n = s.take n ++ List.replicate (n - s.length) 0#8 := by
  induction s generalizing n with
  | nil => simp [strNCpy_nil]
  | cons c s ih =>
    cases n with
    | zero => simp [strNCpy]
    | succ n =>
      have hc := h c (by simp)
      rw [strNCpy, if_neg hc, ih (fun x hx => h x (by simp [hx]))]
      simp

theorem nameLen_ok (sep : Ch) (s : CStr) (h : s.Ok) :
    nameLen sep s = (s.takeWhile (fun c => c != sep)).length := by
  induction s with
  | nil => rfl
  | cons c s ih =>
    have hc := h c (by simp)
    rw [nameLen, List.takeWhile_cons]
    by_cases e : c = sep
    · simp [e]
    · simp [hc, e, ih (fun x hx => h x (by simp [hx]))]

theorem strNCmp_zero (s1 s2 : CStr) (h1 : s1.Ok) (h2 : s2.Ok) (n : Nat) :
    strNCmp s1 s2 n = 0 ↔ s1.take n = s2.take n := by
  induction n generalizing s1 s2 with
  | zero => simp [strNCmp]
  | succ n ih =>
    rw [strNCmp]
    cases s1 with
    | nil =>
      cases s2 with
      | nil => simp [cget]
      | cons b s2 =>
        have hb := h2 b (by simp)
        simp [cget, Ne.symm hb]
    | cons a s1 =>
      have ha := h1 a (by simp)
      cases s2 with
      | nil =>
        simp [cget, ha]
        split <;> omega
      | cons b s2 =>
        simp only [cget_zero_cons, List.drop_succ_cons, List.drop_zero, List.take_succ_cons]
        by_cases e : a = b
        · subst e
          simp [ha]
          exact ih s1 s2 (fun x hx => h1 x (by simp [hx])) (fun x hx => h2 x (by simp [hx]))
        · simp [e]
          split <;> omega

theorem strCmp_eq (s1 s2 : List Ch) :
    strCmp s1 s2 = match s1, s2 with
      | [], [] => 0
      | [], b :: _ => if b = 0#8 then 0 else -1
      | a :: _, [] => if a = 0#8 then 0 else 1
      | a :: t1, b :: t2 => if a = b ∧ a ≠ 0#8 then strCmp t1 t2
                            else if a.toNat > b.toNat then 1 else if a.toNat < b.toNat then -1 else 0 := by
  have pos : ∀ b : Ch, b ≠ 0#8 → 0 < b.toNat := by
    intro b hb
    rcases Nat.eq_zero_or_pos b.toNat with h | h
    · exact absurd (BitVec.eq_of_toNat_eq (by simpa using h)) hb
    · exact h
  cases s1 with
  | nil =>
    cases s2 with
    | nil => rw [strCmp.eq_def]; simp [cget]
    | cons b t2 =>
      rw [strCmp.eq_def]; simp only [cget_nil, cget_zero_cons]
      by_cases hb : b = 0#8
      · simp [hb]
      · have := pos b hb
        simp [hb]; omega
  | cons a t1 =>
    cases s2 with
    | nil =>
      rw [strCmp.eq_def]; simp only [cget_nil, cget_zero_cons]
      by_cases ha : a = 0#8
      · simp [ha]
      · have := pos a ha
        simp [ha]; omega
    | cons b t2 =>
      rw [strCmp.eq_def]; simp only [cget_zero_cons]; rfl

end RedFs.Str
