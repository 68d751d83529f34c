/-!
State + error monad used for the C functions.

A C function that returns `REDSTATUS` and works on global variables becomes a
value of `M σ α`: it always yields a new state, also when it fails, because C
globals keep whatever was written before the error return.
-/
namespace RedFs

/-- The error codes of `include/rederrno.h` used by the modelled code.  `hang`
is not a Reliance Edge error: it marks a C loop that would never terminate. -/
inductive Err
  | eperm | enoent | eio | ebadf | enomem | ebusy | eexist | exdev | enotdir | eisdir
  | einval | enfile | emfile | efbig | enospc | erofs | emlink | erange
  | enametoolong | enosys | enotempty | enodata | eusers | efubar
  | hang
deriving DecidableEq, Repr

/-- Computations over a state `σ`. -/
def M (σ α : Type) : Type := σ → Except Err α × σ

namespace M
variable {σ α β : Type}

@[inline] protected def pure (a : α) : M σ α := fun s => (.ok a, s)
@[inline] protected def bind (m : M σ α) (f : α → M σ β) : M σ β := fun s =>
  match m s with
  | (.ok a, s') => f a s'
  | (.error e, s') => (.error e, s')

instance : Monad (M σ) where
  pure := M.pure
  bind := M.bind

/-- `return -RED_Exxx;` -/
def fail (e : Err) : M σ α := fun s => (.error e, s)
def get : M σ σ := fun s => (.ok s, s)
def modify (f : σ → σ) : M σ Unit := fun s => (.ok (), f s)
/-- Run `m` and give its status to the continuation: `ret = m(); if(ret == ...)`. -/
def attempt (m : M σ α) : M σ (Except Err α) := fun s =>
  match m s with
  | (r, s') => (.ok r, s')
/-- `if(p) { ... }` around a statement; `d` is the value if the statement is skipped. -/
def onlyIf (p : Prop) [Decidable p] (m : M σ α) (d : α) : M σ α := if p then m else pure d
theorem onlyIf_pos {p : Prop} [Decidable p] (h : p) (m : M σ α) (d : α) : onlyIf p m d = m := if_pos h
theorem onlyIf_neg {p : Prop} [Decidable p] (h : ¬ p) (m : M σ α) (d : α) (s : σ) : onlyIf p m d s = (.ok d, s) := by
  unfold onlyIf; rw [if_neg h]; rfl
/-- Turn a status value back into a return. -/
def ofExcept (r : Except Err α) : M σ α := fun s => (r, s)

@[simp] theorem run_pure (a : α) (s : σ) : (pure a : M σ α) s = (.ok a, s) := rfl
@[simp] theorem run_fail (e : Err) (s : σ) : (fail e : M σ α) s = (.error e, s) := rfl
@[simp] theorem run_get (s : σ) : (get : M σ σ) s = (.ok s, s) := rfl
@[simp] theorem run_modify (f : σ → σ) (s : σ) : modify f s = (.ok (), f s) := rfl
@[simp] theorem run_ofExcept (r : Except Err α) (s : σ) : (ofExcept r : M σ α) s = (r, s) := rfl
@[simp] theorem run_attempt (m : M σ α) (s : σ) : attempt m s = (.ok (m s).1, (m s).2) := rfl
@[simp] theorem run_bind (m : M σ α) (f : α → M σ β) (s : σ) :
    (m >>= f) s = match m s with
      | (.ok a, s') => f a s'
      | (.error e, s') => (.error e, s') := rfl

/-- Weakest precondition: running `m` from `s` ends in a result and state with `Q`. -/
def wp (m : M σ α) (Q : Except Err α → σ → Prop) (s : σ) : Prop := Q (m s).1 (m s).2

theorem wp_mono {m : M σ α} {Q Q' : Except Err α → σ → Prop} {s : σ}
    (h : wp m Q s) (hQ : ∀ r s', Q r s' → Q' r s') : wp m Q' s := hQ _ _ h

@[simp] theorem wp_pure (a : α) (Q : Except Err α → σ → Prop) (s : σ) :
    wp (pure a : M σ α) Q s ↔ Q (.ok a) s := Iff.rfl
@[simp] theorem wp_fail (e : Err) (Q : Except Err α → σ → Prop) (s : σ) :
    wp (fail e : M σ α) Q s ↔ Q (.error e) s := Iff.rfl
@[simp] theorem wp_get (Q : Except Err σ → σ → Prop) (s : σ) :
    wp (get : M σ σ) Q s ↔ Q (.ok s) s := Iff.rfl
@[simp] theorem wp_modify (f : σ → σ) (Q : Except Err Unit → σ → Prop) (s : σ) :
    wp (modify f) Q s ↔ Q (.ok ()) (f s) := Iff.rfl
@[simp] theorem wp_ofExcept (r : Except Err α) (Q : Except Err α → σ → Prop) (s : σ) :
    wp (ofExcept r : M σ α) Q s ↔ Q r s := Iff.rfl
@[simp] theorem wp_attempt (m : M σ α) (Q : Except Err (Except Err α) → σ → Prop) (s : σ) :
    wp (attempt m) Q s ↔ wp m (fun r s' => Q (.ok r) s') s := Iff.rfl
/-- Sequencing. -/
@[simp] theorem wp_bind (m : M σ α) (f : α → M σ β) (Q : Except Err β → σ → Prop) (s : σ) :
    wp (m >>= f) Q s ↔
      wp m (fun r s' => match r with
        | .ok a => wp (f a) Q s'
        | .error e => Q (.error e) s') s := by
  show Q (M.bind m f s).1 (M.bind m f s).2 ↔ _
  unfold wp M.bind
  rcases m s with ⟨r | a, s'⟩ <;> exact Iff.rfl
theorem wp_ite (p : Prop) [Decidable p] (a b : M σ α) (Q : Except Err α → σ → Prop) (s : σ) :
    wp (if p then a else b) Q s ↔ (if p then wp a Q s else wp b Q s) := by
  split <;> exact Iff.rfl
/-- Reading the result off a `wp`. -/
theorem wp_run {m : M σ α} {Q : Except Err α → σ → Prop} {s : σ} {r : Except Err α} {s' : σ}
    (h : wp m Q s) (hr : m s = (r, s')) : Q r s' := by
  unfold wp at h; rw [hr] at h; exact h

end M
end RedFs
