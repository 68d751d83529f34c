import Verif.Model.Concurrent
/-!
Linearizability: what it means that calls which overlap have the effect of calls that are made one after the other.
-/
namespace RedFs.Posix
open M Str

/-- The state with other error codes. -/
def withErr (e : Nat → Option Err) (x : Option Err) (s : PSt) : PSt := { s with slot := fun i => { s.slot i with errno := e i }, gerrno := x }
/-- The error codes. -/
def errOf (s : PSt) : Nat → Option Err := fun i => (s.slot i).errno

/-- Uninterrupted steps of a critical section. -/
inductive Steps (I : Impl) : I.μ → PSt → I.μ → PSt → Prop
  | refl {m : I.μ} {s : PSt} : Steps I m s m s
  | next {m m1 m2 : I.μ} {s s1 s2 : PSt} : Steps I m s m1 s1 → I.step m1 s1 = (.inl m2, s2) → Steps I m s m2 s2

/-- What is assumed about the steps of critical sections: they compute what the section computes if they are not interrupted; they neither read nor
write the error codes of the tasks, do not change `gfPosixInited`, and do not take away the slots of tasks. -/
structure Impl.Ok (pc : PConf) (I : Impl) : Prop where
  runs : ∀ t x s, PReach pc s → s.inited = true → (∀ k, x = .main k → Permitted pc t k s ∧ k ≠ .init ∧ k ≠ .uninit) →
    ∃ m s1, Steps I (I.start t x) s m s1 ∧ I.step m s1 = (.inr (sec pc t x s).1, (sec pc t x s).2)
  blind : ∀ m e x s, I.step m (withErr e x s) = ((I.step m s).1, withErr e x (I.step m s).2)
  inited : ∀ m s, (I.step m s).2.inited = s.inited
  keeps : ∀ m s i, i < pc.tasks → (s.slot i).task ≠ 0 → ((I.step m s).2.slot i).task = (s.slot i).task

/-- Who makes the call, or gets the result. -/
def Label.task : Label → Nat
  | inv t _ => t
  | res t _ _ => t

/-- A history in which it is marked where calls take effect. -/
inductive Mark
  | inv (t : Nat) (k : PCall)
  | lin (t : Nat) (k : PCall) (r : Except Err PReply)
  | res (t : Nat) (k : PCall) (r : Except Err PReply)

def Mark.task : Mark → Nat
  | inv t _ => t
  | lin t _ _ => t
  | res t _ _ => t

/-- The calls and returns of a marked history. -/
def observed : List Mark → List Label
  | [] => []
  | .inv t k :: l => .inv t k :: observed l
  | .lin _ _ _ :: l => observed l
  | .res t k r :: l => .res t k r :: observed l

/-- The calls of a marked history in the order in which they take effect. -/
def effects : List Mark → List PEv
  | [] => []
  | .lin t k r :: l => ⟨t, k, r⟩ :: effects l
  | .inv _ _ :: l => effects l
  | .res _ _ _ :: l => effects l

/-- What a task is doing. -/
inductive Stage
  | none
  /-- its call has not taken effect -/
  | before (k : PCall)
  /-- its call has taken effect, and is going to return this -/
  | after (k : PCall) (r : Except Err PReply)

/-- In a marked history, every call of task `t` takes effect once, after it is made and before it returns, and returns the result which it had then. -/
inductive Marked (t : Nat) : List Mark → Stage → Prop
  | nil : Marked t [] .none
  | inv {l : List Mark} {k : PCall} : Marked t l .none → Marked t (l ++ [.inv t k]) (.before k)
  | lin {l : List Mark} {k : PCall} {r : Except Err PReply} : Marked t l (.before k) → Marked t (l ++ [.lin t k r]) (.after k r)
  | res {l : List Mark} {k : PCall} {r : Except Err PReply} : Marked t l (.after k r) → Marked t (l ++ [.res t k r]) .none
  | other {l : List Mark} {m : Mark} {st : Stage} : m.task ≠ t → Marked t l st → Marked t (l ++ [m]) st

end RedFs.Posix
