import Verif.Lemmas.Refine
import Verif.Lemmas.Blank
set_option linter.unusedSimpArgs false
set_option linter.unusedVariables false
/-!
Concrete histories, used to show that the hypotheses of the theorems can be met.
-/
namespace RedFs
open M Bitmap Vol Str

/-- A system just started with a disk full of zeros. -/
def bareVol (c : Conf) : Vol :=
  { blankVol c with blk := fun _ => .data fun _ => 0, base := fun _ => .data fun _ => 0, mounted := false }

theorem bare_blank (c : Conf) : Blank c (bareVol c) :=
  ⟨fun _ => .data fun _ => 0, ⟨⟨rfl, rfl, rfl⟩, rfl, rfl, rfl⟩, fun mm h => by cases h⟩

/-- That system after the volume has been formatted. -/
def freshVol (c : Conf) : Vol := { (volFormat c (bareVol c)).2 with hist := [] }

theorem fresh_reach (c : Conf) : Reach c (freshVol c) :=
  ⟨bareVol c, [] ++ [.format (volFormat c (bareVol c)).1], bare_blank c,
    .format (r := (volFormat c (bareVol c)).1) (v' := (volFormat c (bareVol c)).2) .nil (Or.inl rfl) rfl⟩

theorem Reach.call {c : Conf} {v v' : Vol} {k : Call} {r : Except Err Reply} (h : Reach c v) (hk : k.Ok c) (he : exec c k v = (r, v')) : Reach c v' := by
  obtain ⟨v0, t, hb, hr⟩ := h
  exact ⟨v0, _, hb, hr.call hk he⟩

theorem Reach.calls {c : Conf} {ks : List Call} (hk : ∀ k ∈ ks, k.Ok c) : ∀ {v : Vol}, Reach c v → Reach c (runCalls c ks v).2 := by
  induction ks with
  | nil => intro v h; exact h
  | cons k ks ih =>
    intro v h
    exact ih (fun k' hk' => hk k' (List.mem_cons_of_mem _ hk')) (h.call (hk k (List.mem_cons_self ..)) rfl)

/-- A FSE configuration. -/
def demoConfF : Conf := { demoConf with posix := false, canDelete := false }

theorem demo_sys : demoConf.SysOk := ⟨demo_ok, fun _ => ⟨rfl, by decide, by decide, by decide⟩⟩
theorem demoX_sys : demoConfX.SysOk := ⟨demoX_ok, fun _ => ⟨rfl, by decide, by decide, by decide⟩⟩
theorem demoF_ok : demoConfF.Ok := by
  refine ⟨⟨7, by omega, by omega, by decide⟩, by decide, by decide, by decide, by decide, by decide, by decide⟩
theorem demoF_sys : demoConfF.SysOk := ⟨demoF_ok, fun h => by cases h⟩

/-- The name "a", "b", "d". -/
def nmA : List Byte := [97#8]
def nmB : List Byte := [98#8]
def nmD : List Byte := [100#8]

/-- Did all calls succeed? -/
def allOk (rs : List (Except Err Reply)) : Bool := rs.all fun r => r.toBool

/-- Directory "d" and file "a" are created and written, and committed; then "a" is written again and linked as "d/b". -/
def demoCalls : List Call :=
  [.mount false, .create 2 nmD true, .create 2 nmA false, .write 4 100 200 (fun k => BitVec.ofNat 8 k), .transact,
   .write 4 150 10 (fun _ => 7), .link 3 nmB 4]

def demoVol : Vol := (runCalls demoConf demoCalls (freshVol demoConf)).2

theorem demo_calls_ok : ∀ k ∈ demoCalls, k.Ok demoConf := by
  intro k hk
  simp only [demoCalls, List.mem_cons, List.mem_nil_iff, or_false] at hk
  rcases hk with rfl | rfl | rfl | rfl | rfl | rfl | rfl <;> trivial

theorem demo_reach : Reach demoConf demoVol := (fresh_reach _).calls demo_calls_ok

theorem demo_allOk : allOk (runCalls demoConf demoCalls (freshVol demoConf)).1 = true := by decide +kernel
theorem demo_mounted : demoVol.mounted = true := by decide +kernel

/-- The result of a call that is not evaluated. -/
theorem exec_eta (c : Conf) (k : Call) (v : Vol) : exec c k v = ((exec c k v).1, (exec c k v).2) := (Prod.mk.eta ..).symm

/-- The demo volume after a transaction. -/
def demoVol2 : Vol := (exec demoConf .transact demoVol).2
theorem demo2_run : exec demoConf .transact demoVol = (.ok .unit, demoVol2) := by
  have h : (match exec demoConf .transact demoVol with | (.ok .unit, _) => true | _ => false) = true := by decide +kernel
  unfold demoVol2
  generalize exec demoConf .transact demoVol = x at h ⊢
  rcases x with ⟨e | a, y⟩
  · cases h
  · cases a <;> first | rfl | cases h
theorem demo2_hist : ∃ e new, demoVol2.hist = e :: new ++ demoVol.hist ∧ (e.dirty 1 = true ∨ e.dirty 2 = true) := by
  obtain ⟨s, ha⟩ := demo_reach.abs demo_sys
  obtain ⟨r, v', s', tr, e, d, a, new, hn, _⟩ := exec_sim demo_sys ha (k := .transact) trivial
  rw [demo2_run] at e; obtain ⟨rfl, rfl⟩ := Prod.mk.inj e
  have hl : demoVol.hist.length < demoVol2.hist.length := by decide +kernel
  have hd : (match demoVol2.hist with | [] => false | e :: _ => e.dirty 1 || e.dirty 2) = true := by decide +kernel
  cases new with
  | nil => rw [hn, List.nil_append] at hl; exact absurd hl (Nat.lt_irrefl _)
  | cons e new =>
    rw [hn] at hd
    exact ⟨e, new, hn, by simpa using hd⟩

/-- A system started with the disk `D`. -/
def bootVol (c : Conf) (D : Nat → Blk) : Vol := { bareVol c with blk := D, base := D, dirty := fun _ => false }
theorem boot_boot (c : Conf) (D : Nat → Blk) : Boot (bootVol c D) D := ⟨⟨rfl, rfl, rfl⟩, rfl, rfl, rfl⟩

/-- What a power loss can leave: nothing of what was written in the epoch, or all of it. -/
theorem CrashImage.old (c : Conf) (e : Epoch) : CrashImage c e e.base := ⟨fun _ _ => rfl, fun _ _ _ => Or.inl rfl⟩
theorem CrashImage.done (c : Conf) (v : Vol) : CrashImage c v.epoch v.epoch.fin :=
  ⟨fun b h => by show (if v.dirty b then _ else _) = v.base b; rw [if_neg (by rw [show v.dirty b = false from h]; simp)], fun _ _ _ => Or.inr (Or.inl rfl)⟩

end RedFs
