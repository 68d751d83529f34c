import Verif.Model.Posix
import Verif.Spec.Posix
/-!
Tasks that call the POSIX API concurrently (posix/posix.c, `REDCONF_TASK_COUNT > 1`).

A call runs unlocked, except for critical sections between `RedOsMutexAcquire` and `RedOsMutexRelease`.  A critical section is performed in any
number of steps (`Impl`), and the steps of other tasks happen in between.

Simplifications: the mutex works (osservices are not modelled beyond "at most one owner"); `red_init` and `red_uninit` are not called while other tasks
use the driver (they are not protected by the mutex; the caller has to see to that); a step is atomic; a task is preempted only between steps.
-/
namespace RedFs.Posix
open M Str

/-- The critical sections of the API. -/
inductive Section
  /-- between `PosixEnter` (posix.c:3432-3441) and `PosixLeave` (posix.c:3465) -/
  | main (k : PCall)
  /-- the search of `red_errnoptr`, posix.c:2696-2706 -/
  | find (k : PCall) (e : Err)
  /-- the registration in `red_errnoptr`, posix.c:2715-2719 -/
  | reg (k : PCall) (e : Err)

/-- What a critical section yields for the code after it: a result, or the index of a task slot. -/
inductive Out
  | reply (r : Except Err PReply)
  | idx (i : Option Nat)

/-- What a critical section computes: posix.c:3434-3438 (`TaskRegister` in `PosixEnter`) and the body of the function; 2698-2704; 2717. -/
def sec (pc : PConf) (t : Nat) : Section → PSt → Out × PSt
  | .main k, s =>
    let x := (do let _ ← taskRegister pc t; body pc t k : PM PReply) s
    (.reply x.1, x.2)
  | .find _ _, s => (.idx (taskIdx pc t s), s)
  | .reg _ _, s =>
    match taskRegister pc t s with
    | (.ok i, s) => (.idx (some i), s)
    | (.error _, s) => (.idx none, s)

/-- How critical sections are performed: a control state (program counter and local variables), the one at the beginning of the section, and the step
from a control state: to another one, or to the end of the section. -/
structure Impl where
  μ : Type
  start : Nat → Section → μ
  step : μ → PSt → (μ ⊕ Out) × PSt

/-- Where a task is. -/
inductive Loc (μ : Type)
  /-- outside of the API -/
  | idle
  /-- at the beginning of the function -/
  | called (k : PCall)
  /-- at `RedOsMutexAcquire` -/
  | want (c : Section)
  /-- in a critical section -/
  | crit (c : Section) (m : μ)
  /-- at `RedOsMutexRelease` -/
  | leave (c : Section) (o : Out)
  /-- at `PosixReturn` or `red_errno = -ret` -/
  | ret (k : PCall) (r : Except Err PReply)
  /-- at the beginning of `red_errnoptr` -/
  | eread (k : PCall) (e : Err)
  /-- at the assignment to what `red_errnoptr` has returned: the `errno` of a slot, or the global one -/
  | put (k : PCall) (e : Err) (i : Option Nat)

/-- The state of the driver, where the tasks are, and the owner of the mutex. -/
structure CSt (μ : Type) where
  s : PSt
  loc : Nat → Loc μ
  owner : Option Nat

/-- What is seen from outside of the API: calls and returns. -/
inductive Label
  | inv (t : Nat) (k : PCall)
  | res (t : Nat) (k : PCall) (r : Except Err PReply)

/-- The location of task `t` is set. -/
def CSt.go {μ : Type} (c : CSt μ) (t : Nat) (l : Loc μ) : CSt μ := { c with loc := fun u => if u = t then l else c.loc u }

/-- After a critical section: posix.c:3465 and on; 2708-2736. -/
def afterSec {μ : Type} : Section → Out → Loc μ
  | .main k, .reply r => .ret k r
  | .find k e, .idx (some i) => .put k e (some i)
  | .find k e, .idx none => .want (.reg k e)
  | .reg k e, .idx i => .put k e i
  | .main k, .idx _ => .called k
  | .find k e, .reply _ => .eread k e
  | .reg k e, .reply _ => .eread k e

/-- The steps of the tasks. -/
inductive CStep (pc : PConf) (I : Impl) (c : CSt I.μ) : List Label → CSt I.μ → Prop
  /-- Task `t` calls a function. -/
  | call {t : Nat} {k : PCall} : c.loc t = .idle → t ≠ 0 → k.Ok → (k.usesCwd → pc.cwd = true) → k ≠ .init → k ≠ .uninit →
      CStep pc I c [.inv t k] (c.go t (.called k))
  /-- The arguments are rejected before `PosixEnter`: posix.c:1578-1581, 1684-1687, 2444-2447. -/
  | early {t : Nat} {k : PCall} : c.loc t = .called k → early k = true → CStep pc I c [] (c.go t (.ret k (.error .einval)))
  /-- `PosixEnter`, posix.c:3432: `gfPosixInited` is read without the mutex. -/
  | enter {t : Nat} {k : PCall} : c.loc t = .called k → Posix.early k = false → c.s.inited = true → CStep pc I c [] (c.go t (.want (.main k)))
  /-- posix.c:3446-3449 -/
  | refuse {t : Nat} {k : PCall} : c.loc t = .called k → Posix.early k = false → c.s.inited = false → CStep pc I c [] (c.go t (.ret k (.error .einval)))
  /-- `RedOsMutexAcquire`, posix.c:3435, 2696, 2715.  (`Permitted`: formatting is excluded where it fails, see DESIGN.md, finding 10.) -/
  | acquire {t : Nat} {x : Section} : c.loc t = .want x → c.owner = none → (∀ k, x = .main k → Permitted pc t k c.s) →
      CStep pc I c [] { c.go t (.crit x (I.start t x)) with owner := some t }
  /-- A step in a critical section. -/
  | micro {t : Nat} {x : Section} {m m' : I.μ} {s' : PSt} : c.loc t = .crit x m → I.step m c.s = (.inl m', s') →
      CStep pc I c [] { c.go t (.crit x m') with s := s' }
  /-- The last step of a critical section. -/
  | finish {t : Nat} {x : Section} {m : I.μ} {o : Out} {s' : PSt} : c.loc t = .crit x m → I.step m c.s = (.inr o, s') →
      CStep pc I c [] { c.go t (.leave x o) with s := s' }
  /-- `RedOsMutexRelease`, posix.c:3440, 3466, 2706, 2719. -/
  | release {t : Nat} {x : Section} {o : Out} : c.loc t = .leave x o → CStep pc I c [] { c.go t (afterSec x o) with owner := none }
  /-- The function returns without an error: posix.c:3779-3782. -/
  | retOk {t : Nat} {k : PCall} {a : PReply} : c.loc t = .ret k (.ok a) → CStep pc I c [.res t k (.ok a)] (c.go t .idle)
  /-- `red_rewinddir` does not store an error. -/
  | retVoid {t : Nat} {k : PCall} {e : Err} : c.loc t = .ret k (.error e) → setsErrno k = false → CStep pc I c [.res t k (.error e)] (c.go t .idle)
  /-- `red_errno = …`, posix.c:3790. -/
  | retErr {t : Nat} {k : PCall} {e : Err} : c.loc t = .ret k (.error e) → setsErrno k = true → CStep pc I c [] (c.go t (.eread k e))
  /-- `red_errnoptr`, posix.c:2686: `gfPosixInited` is read without the mutex. -/
  | eread {t : Nat} {k : PCall} {e : Err} : c.loc t = .eread k e → c.s.inited = true → CStep pc I c [] (c.go t (.want (.find k e)))
  /-- posix.c:2738-2743 -/
  | eglobal {t : Nat} {k : PCall} {e : Err} : c.loc t = .eread k e → c.s.inited = false → CStep pc I c [] (c.go t (.put k e none))
  /-- The assignment to `*red_errnoptr()`, without the mutex, and the return of the function: posix.c:3790-3793. -/
  | putSlot {t : Nat} {k : PCall} {e : Err} {i : Nat} : c.loc t = .put k e (some i) →
      CStep pc I c [.res t k (.error e)] { c.go t .idle with s := c.s.setSlot i { c.s.slot i with errno := some e } }
  | putGlobal {t : Nat} {k : PCall} {e : Err} : c.loc t = .put k e none →
      CStep pc I c [.res t k (.error e)] { c.go t .idle with s := { c.s with gerrno := some e } }

/-- Schedules: any number of steps of any tasks, in any order. -/
inductive CRun (pc : PConf) (I : Impl) (c0 : CSt I.μ) : List Label → CSt I.μ → Prop
  | nil : CRun pc I c0 [] c0
  | step {tr l : List Label} {c c' : CSt I.μ} : CRun pc I c0 tr c → CStep pc I c l c' → CRun pc I c0 (tr ++ l) c'

/-- No task is in the API. -/
def CSt.rest (μ : Type) (s : PSt) : CSt μ := ⟨s, fun _ => .idle, none⟩

end RedFs.Posix
