import Verif.Lemmas.PosixDet
set_option linter.unusedSimpArgs false
set_option linter.unusedVariables false
set_option linter.unusedSectionVars false
/-!
How names that are added or removed change what paths mean.
-/
namespace RedFs
open Str Spec

variable {c : Conf} {F F' : Files}

/-- Names are added: what could be found still is. -/
theorem Walk.mono (hh : ∀ p s j, Has c F p s j → Has c F' p s j) (hd : ∀ j f, IsDir F j f → ∃ f', IsDir F' j f' ∧ f'.parent = f.parent)
    {dots : Prop} {i : Nat} {cs : List (List Byte)} {r : Except Err Nat} (w : Walk c F dots i cs r) : ∀ {j}, r = .ok j → Walk c F' dots i cs (.ok j) := by
  induction w with
  | done => intro j e; cases e; exact .done
  | name hn h _ ih => intro j e; exact .name hn (hh _ _ _ h) (ih e)
  | dot h1 h2 _ ih => intro j e; obtain ⟨f', h', _⟩ := hd _ _ h2; exact .dot h1 h' (ih e)
  | up h1 h2 _ ih =>
    intro j e; obtain ⟨f', h', hp⟩ := hd _ _ h2
    have := ih e
    rw [← hp] at this
    exact .up h1 h' this
  | notDir | tooLong | missing => intro j e; cases e

/-- A name is removed: what could be found still is, or there is no such file any more. -/
theorem Walk.removed {v' : Vol} (hc : c.SysOk) (hp : c.posix = true) (h' : Reach c v') (hm' : v'.mounted = true) (hF : F' = files c v')
    (hlen : ∀ p s j, Has c F p s j → s.length ≤ c.nameMax)
    (hh : ∀ p s j, Has c F p s j → Has c F' p s j ∨ ∀ k, ¬ Has c F' p s k) (hd : ∀ j f, IsDir F j f → F' j ≠ none → ∃ f', IsDir F' j f' ∧ f'.parent = f.parent)
    {dots : Prop} {i : Nat} {cs : List (List Byte)} {r : Except Err Nat} (w : Walk c F dots i cs r) :
    ∀ {j}, r = .ok j → F' i ≠ none → Walk c F' dots i cs (.ok j) ∨ Walk c F' dots i cs (.error .enoent) := by
  subst hF
  induction w with
  | done => intro j e _; cases e; exact Or.inl .done
  | @name i j0 n cs r hn h _ ih =>
    intro j e hi
    rcases hh _ _ _ h with hx | hx
    · exact (ih e (has_live hc hp h' hm' hx).2.2.1).imp (.name hn hx) (.name hn hx)
    · obtain ⟨f, hf⟩ := has_dir hc hp h
      obtain ⟨f', hf', _⟩ := hd _ _ hf hi
      exact Or.inr (.missing hn hf' (hlen _ _ _ h) hx)
  | dot h1 h2 _ ih =>
    intro j e hi; obtain ⟨f', hf', _⟩ := hd _ _ h2 hi
    exact (ih e hi).imp (.dot h1 hf') (.dot h1 hf')
  | @up i f cs r h1 h2 _ ih =>
    intro j e hi; obtain ⟨f', hf', hpar⟩ := hd _ _ h2 hi
    have hn : files c v' (if i = 2 then 2 else f.parent) ≠ none := by
      split
      · obtain ⟨g, hg, _⟩ := root_dir hc hp h' hm'; rw [hg.1]; simp
      · rename_i ne
        obtain ⟨g, hg⟩ := parent_dir hc hp h' hm' hf' ne
        rw [← hpar, hg.1]; simp
    have := ih e hn
    rw [← hpar] at this
    exact this.imp (.up h1 hf') (.up h1 hf')
  | notDir | tooLong | missing => intro j e; cases e

/-- A path to a name leads to what the name refers to. -/
theorem Walk.snoc {dots : Prop} {i p j : Nat} {cs : List (List Byte)} {n : List Byte} {r : Except Err Nat} (w : Walk c F dots i cs r) (he : r = .ok p) (hn : ¬ (dots ∧ Dotty n)) (hh : Has c F p n j) :
    Walk c F dots i (cs ++ [n]) (.ok j) := by
  induction w with
  | done => cases he; exact .name hn hh .done
  | name h1 h2 _ ih => exact .name h1 h2 (ih he)
  | dot h1 h2 _ ih => exact .dot h1 h2 (ih he)
  | up h1 h2 _ ih => exact .up h1 h2 (ih he)
  | notDir | tooLong | missing => cases he

theorem Walk.snoc_missing {dots : Prop} {i p : Nat} {f : AFile} {cs : List (List Byte)} {n : List Byte} {r : Except Err Nat} (w : Walk c F dots i cs r) (he : r = .ok p)
    (hn : ¬ (dots ∧ Dotty n)) (hd : IsDir F p f) (hl : n.length ≤ c.nameMax) (hx : ∀ j, ¬ Has c F p n j) : Walk c F dots i (cs ++ [n]) (.error .enoent) := by
  induction w with
  | done => cases he; exact .missing hn hd hl hx
  | name h1 h2 _ ih => exact .name h1 h2 (ih he)
  | dot h1 h2 _ ih => exact .dot h1 h2 (ih he)
  | up h1 h2 _ ih => exact .up h1 h2 (ih he)
  | notDir | tooLong | missing => cases he

theorem Walk.error_append {dots : Prop} {i : Nat} {cs ds : List (List Byte)} {r : Except Err Nat} {e : Err} (w : Walk c F dots i cs r) (he : r = .error e) :
    Walk c F dots i (cs ++ ds) (.error e) := by
  induction w with
  | done => cases he
  | name h1 h2 _ ih => exact .name h1 h2 (ih he)
  | dot h1 h2 _ ih => exact .dot h1 h2 (ih he)
  | up h1 h2 _ ih => exact .up h1 h2 (ih he)
  | notDir h1 => cases he; exact .notDir h1
  | tooLong h1 h2 h3 => cases he; exact .tooLong h1 h2 h3
  | missing h1 h2 h3 h4 => cases he; exact .missing h1 h2 h3 h4

theorem bound_add {p i : Nat} {nm : List Byte} (b : Bound c F F' [(p, nm, some i)]) (hx : ∀ j, ¬ Has c F p nm j) : ∀ q s j, Has c F q s j → Has c F' q s j := by
  rintro q s j ⟨k, hk⟩
  by_cases e : p = q ∧ nm = s
  · obtain ⟨rfl, rfl⟩ := e; exact absurd ⟨k, hk⟩ (hx j)
  · exact ⟨k, (b.other q s (by intro x hx; rw [List.mem_singleton.1 hx]; exact e) k j).2 hk⟩

theorem bound_remove {p : Nat} {nm : List Byte} (b : Bound c F F' [(p, nm, none)]) : ∀ q s j, Has c F q s j → Has c F' q s j ∨ ∀ k, ¬ Has c F' q s k := by
  rintro q s j ⟨k, hk⟩
  by_cases e : p = q ∧ nm = s
  · obtain ⟨rfl, rfl⟩ := e
    refine Or.inr fun k hk => ?_
    have := (b.touched (p, nm, none) (by simp) k).1 hk
    cases this
  · exact Or.inl ⟨k, (b.other q s (by intro x hx; rw [List.mem_singleton.1 hx]; exact e) k j).2 hk⟩

theorem create_dirs {p i : Nat} {nm : List Byte} {d : Bool} (R : Create c p nm d F (.ok i) F') : ∀ j f, IsDir F j f → ∃ f', IsDir F' j f' ∧ f'.parent = f.parent := by
  obtain ⟨_, _, _, hn, _, _, ⟨f1, f2, h1, h2, _, h3⟩, ho, _⟩ := R
  intro j f hf
  by_cases e : j = p
  · subst e
    have := h1.1; rw [hf.1] at this; injection this with this; subst this
    exact ⟨f2, h2, h3⟩
  · by_cases e' : j = i
    · subst e'; rw [hf.1] at hn; cases hn
    · exact ⟨f, ⟨by rw [ho j e' e]; exact hf.1, hf.2⟩, rfl⟩

theorem link_dirs {p i : Nat} {nm : List Byte} (R : Link c p nm i F (.ok ()) F') : ∀ j f, IsDir F j f → ∃ f', IsDir F' j f' ∧ f'.parent = f.parent := by
  obtain ⟨_, _, g, hg, _, _, ⟨f1, f2, h1, h2, _, h3⟩, ho, _⟩ := R
  intro j f hf
  by_cases e : j = p
  · subst e
    have := h1.1; rw [hf.1] at this; injection this with this; subst this
    exact ⟨f2, h2, h3⟩
  · by_cases e' : j = i
    · subst e'
      have e1 := hg.1; rw [hf.1] at e1; injection e1 with e1; subst e1
      exact (modes_ne (hf.2.symm.trans hg.2)).elim
    · exact ⟨f, ⟨by rw [ho j e' e]; exact hf.1, hf.2⟩, rfl⟩

theorem unlink_dirs {p : Nat} {nm : List Byte} (R : Unlink c p nm F (.ok ()) F') : ∀ j f, IsDir F j f → F' j ≠ none → ∃ f', IsDir F' j f' ∧ f'.parent = f.parent := by
  obtain ⟨i, g, _, hg, _, hi, ⟨f1, f2, h1, h2, _, h3⟩, ho, _⟩ := R
  intro j f hf hn
  by_cases e : j = p
  · subst e
    have := h1.1; rw [hf.1] at this; injection this with this; subst this
    exact ⟨f2, h2, h3⟩
  · by_cases e' : j = i
    · subst e'
      rw [hf.1] at hg; injection hg with hg; subst hg
      rw [hi] at hn
      unfold unlinked at hi hn
      split at hi
      · exact ⟨_, ⟨hi, hf.2⟩, rfl⟩
      · rename_i h; rw [if_neg h] at hn; exact absurd rfl hn
    · exact ⟨f, ⟨by rw [ho j e' e]; exact hf.1, hf.2⟩, rfl⟩

namespace Posix
variable {pc : PConf} {s s' : PSt} {t : Nat}

/-- Where a path starts does not depend on the volumes. -/
theorem StartAt.congr {path : List Byte} {x : Except Err (Nat × Nat × List Byte)} (hs : s'.slot = s.slot) (h : StartAt pc s t path x) : StartAt pc s' t path x := by
  cases h with
  | cwd h1 h2 h3 h4 h5 =>
    rw [← hs]
    exact .cwd h1 h2 h3 h4 (by unfold SlotOf at *; rw [hs]; exact h5)
  | abs h1 h2 => exact .abs h1 h2
  | none_ h1 h2 => exact .none_ h1 h2

end Posix
end RedFs
