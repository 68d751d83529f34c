import Verif.Lemmas.PosixExec
import Verif.Lemmas.Demo
import Verif.Spec.PosixHist
set_option linter.unusedSimpArgs false
set_option linter.unusedVariables false
/-!
A concrete history of the POSIX API, used to show that the hypotheses of the theorems can be met.
-/
namespace RedFs.Posix
open M Str Path Spec

/-- Several calls, one after the other. -/
def pruns (pc : PConf) : List (Nat × PCall) → PSt → PSt
  | [], s => s
  | (t, k) :: l, s => pruns pc l (pexec pc t k s).2

/-- Is every byte of the string not 0? -/
def strB (s : List Byte) : Bool := s.all fun c => c != 0#8

theorem strB_ok {s : List Byte} (h : strB s = true) : CStr.Ok s := by
  intro c hc
  have := List.all_eq_true.1 h c hc
  simpa using this

/-- `Permitted`, for the calls which are used here. -/
def PCall.okB : PCall → Bool
  | .init => true
  | .sync => true
  | .uninit => true
  | .mount vol _ => strB vol
  | .umount vol _ => strB vol
  | .transact vol => strB vol
  | .rollback vol => strB vol
  | .setMask vol _ => strB vol
  | .getMask vol => strB vol
  | .statvfs vol => strB vol
  | .open path _ => strB path
  | .unlink path => strB path
  | .mkdir path => strB path
  | .rmdir path => strB path
  | .rename old new => strB old && strB new
  | .link path hardLink => strB path && strB hardLink
  | .opendir path => strB path
  | .chdir path => strB path
  | .close fd => decide (-2147483648 ≤ fd ∧ fd < 2147483648)
  | .read fd _ => decide (-2147483648 ≤ fd ∧ fd < 2147483648)
  | .write fd _ _ => decide (-2147483648 ≤ fd ∧ fd < 2147483648)
  | .fsync fd => decide (-2147483648 ≤ fd ∧ fd < 2147483648)
  | .lseek fd off _ => decide (-2147483648 ≤ fd ∧ fd < 2147483648) && decide (-9223372036854775808 ≤ off ∧ off < 9223372036854775808)
  | .ftruncate fd _ => decide (-2147483648 ≤ fd ∧ fd < 2147483648)
  | .fstat fd => decide (-2147483648 ≤ fd ∧ fd < 2147483648)
  | .readdir _ => true
  | .rewinddir _ => true
  | .closedir _ => true
  | .getcwd _ => true
  | .format _ => false

theorem PCall.okB_ok {k : PCall} (h : k.okB = true) : k.Ok ∧ ∀ vol, k ≠ .format vol := by
  cases k <;> simp only [PCall.okB, Bool.and_eq_true, decide_eq_true_eq] at h <;>
    first
    | exact ⟨strB_ok h, fun _ e => by cases e⟩
    | exact ⟨⟨strB_ok h.1, strB_ok h.2⟩, fun _ e => by cases e⟩
    | exact ⟨trivial, fun _ e => by cases e⟩
    | exact ⟨h, fun _ e => by cases e⟩
    | cases h

theorem permitted_of {pc : PConf} (hcw : pc.cwd = true) {t : Nat} {k : PCall} (ht : t ≠ 0) (h : k.okB = true) (s : PSt) : Permitted pc t k s :=
  ⟨ht, (PCall.okB_ok h).1, fun _ => hcw, fun vol e => absurd e ((PCall.okB_ok h).2 vol)⟩

theorem PReach.steps {pc : PConf} (hcw : pc.cwd = true) (l : List (Nat × PCall)) : ∀ {s : PSt}, PReach pc s → (l.all fun x => x.1 != 0 && x.2.okB) = true → PReach pc (pruns pc l s) := by
  induction l with
  | nil => intro s h _; exact h
  | cons x l ih =>
    intro s h hl
    obtain ⟨t, k⟩ := x
    simp only [List.all_cons, Bool.and_eq_true, bne_iff_ne, ne_eq] at hl
    exact ih (h.call (permitted_of hcw hl.1.1 hl.1.2 s)) (by simpa using hl.2)

/-- Two volumes, "" and "/m". -/
def demoPC : PConf :=
  { n := 2, pre := fun i => if i = 0 then [] else [47#8, 109#8], conf := fun _ => demoConf, sep := 47#8, cwd := true, atomic := true, handles := 3, tasks := 2
    transDefault := 0 }

theorem demoPC_ok : demoPC.Ok := by
  refine ⟨by decide, by decide, by decide, fun _ _ => demo_sys, fun _ _ => rfl, fun _ _ => rfl, fun _ _ => rfl, fun i h => ?_, fun i j hi hj e => ?_⟩
  · apply strB_ok; show strB (if i = 0 then _ else _) = true; split <;> rfl
  · have hi : i < 2 := hi
    have hj : j < 2 := hj
    have e : (if i = 0 then ([] : List Byte) else [47#8, 109#8]) = if j = 0 then [] else [47#8, 109#8] := e
    by_cases h1 : i = 0 <;> by_cases h2 : j = 0
    · omega
    · rw [if_pos h1, if_neg h2] at e; cases e
    · rw [if_neg h1, if_pos h2] at e; cases e
    · omega

/-- The system is started with the volumes in state `v`. -/
def startS (v : Vol) : PSt :=
  { inited := false, handle := fun _ => ⟨0, 0, false, false, false, false, 0⟩, slot := fun _ => ⟨0, none, 0, 0⟩, gen := fun _ => 0, gerrno := none, cur := 0
    vols := fun _ => v }

theorem startS_start {v : Vol} (h : Reach demoConf v) (hm : v.mounted = false) : PStart demoPC (startS v) :=
  ⟨rfl, fun _ => rfl, rfl, fun _ _ => h, fun _ _ => hm⟩

theorem fresh_down : (freshVol demoConf).mounted = false := by decide +kernel

/-- Two volumes that have just been formatted. -/
def demoS0 : PSt := startS (freshVol demoConf)

theorem demoS0_start : PStart demoPC demoS0 := startS_start (fresh_reach demoConf) fresh_down

/-- Task 5 creates the file "/a" and the directory "/d" and makes it its current directory; task 6 creates the file "/m/b". -/
def demoL : List (Nat × PCall) :=
  [(5, .init), (5, .mount [] 0), (5, .mount [47#8, 109#8] 0), (5, .open [47#8, 97#8] 20), (5, .write 1048576 10 fun k => BitVec.ofNat 8 k), (5, .mkdir [47#8, 100#8]),
   (5, .chdir [100#8]), (6, .open [47#8, 109#8, 47#8, 98#8] 18)]

def demoS : PSt := pruns demoPC demoL demoS0

theorem demoS_reach : PReach demoPC demoS := PReach.steps rfl demoL ⟨demoS0, [], demoS0_start, .nil⟩ (by decide)

/-- Tests for results. -/
def isUnit : Except Err PReply → Bool
  | .ok .unit => true
  | _ => false
def isFd (n : Int) : Except Err PReply → Bool
  | .ok (.fd m) => m == n
  | _ => false
def isNum (n : Nat) : Except Err PReply → Bool
  | .ok (.num m) => m == n
  | _ => false
def isError (e : Err) : Except Err PReply → Bool
  | .error e' => e' == e
  | _ => false

theorem isUnit_eq {r : Except Err PReply} (h : isUnit r = true) : r = .ok .unit := by
  rcases r with e | a
  · cases h
  · cases a <;> first | rfl | cases h
theorem isFd_eq {n : Int} {r : Except Err PReply} (h : isFd n r = true) : r = .ok (.fd n) := by
  rcases r with e | a
  · cases h
  · cases a <;> first | (simp [isFd] at h; rw [h]) | cases h
theorem isNum_eq {n : Nat} {r : Except Err PReply} (h : isNum n r = true) : r = .ok (.num n) := by
  rcases r with e | a
  · cases h
  · cases a <;> first | (simp [isNum] at h; rw [h]) | cases h
theorem isError_eq {e : Err} {r : Except Err PReply} (h : isError e r = true) : r = .error e := by
  rcases r with e' | a
  · simp [isError] at h; rw [h]
  · cases h

theorem pexec_eta {pc : PConf} {t : Nat} {k : PCall} {s : PSt} {r : Except Err PReply} (h : (pexec pc t k s).1 = r) : pexec pc t k s = (r, (pexec pc t k s).2) := by
  rw [← h]

theorem demoP {t : Nat} {k : PCall} (ht : t ≠ 0) (h : k.okB = true) (s : PSt) : Permitted demoPC t k s := permitted_of rfl ht h s

/-- The two files are open. -/
theorem demo_fd0 : Open demoPC demoS 1048576 0 := ⟨by decide +kernel, by decide, by decide +kernel, by decide +kernel⟩
theorem demo_fd1 : Open demoPC demoS 1052673 1 := ⟨by decide +kernel, by decide, by decide +kernel, by decide +kernel⟩
theorem demo_inited : demoS.inited = true := by decide +kernel
theorem demo_slot : ¬ NoSlot demoPC 5 demoS := fun h => (h.2 0 (by decide)).1 (by decide +kernel)
theorem demo_slot6 : ¬ NoSlot demoPC 6 demoS := fun h => (h.2 1 (by decide)).1 (by decide +kernel)

/-- The names of the volumes. -/
theorem demo_vol0 : VolName demoPC [] 0 := by
  refine ⟨⟨by decide, Or.inl rfl, fun j hj hm => ?_⟩, rfl⟩
  have hj : j < 2 := hj
  rcases Nat.lt_or_ge j 1 with h | h
  · rw [show j = 0 by omega]
  · rw [show j = 1 by omega] at hm
    rcases hm with hm | hm | ⟨r, hm⟩ <;> cases hm

end RedFs.Posix
