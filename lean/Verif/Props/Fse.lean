import Verif.Lemmas.Fse
import Verif.Lemmas.Demo
set_option linter.unusedSimpArgs false
set_option linter.unusedVariables false
/-!
C45: the File System Essentials API does what its specification (Spec/Fse) says: a volume is a fixed set of
files, a file is a list of bytes, and a power loss at any time leaves the files of the last transaction point.
-/
namespace RedFs.Fse
open M

variable {fc : FConf}

/-- What can be reached, from disks that have never been formatted, by any sequence of calls and power losses. -/
def FReach (fc : FConf) (s : FSt) : Prop := ∃ s0 t, FStart fc s0 ∧ FRun fc s0 t s

/-- **C45.**  Every history of calls (on any number of volumes), their results, and power losses - during a call or
between calls - is a history that the specification allows. -/
theorem C45_fse_refines (hc : fc.Ok) {s0 s : FSt} {t : List FEv} (h0 : FStart fc s0) (h : FRun fc s0 t s) : ∃ a, FSRun fc unformatted t a := by
  obtain ⟨a, h1, _⟩ := h.refines hc h0.abs
  exact ⟨a, h1⟩

theorem FReach.abs (hc : fc.Ok) {s : FSt} (h : FReach fc s) : ∃ a, FAbs fc s a := by
  obtain ⟨s0, t, h0, h⟩ := h
  obtain ⟨a, _, ha⟩ := h.refines hc h0.abs
  exact ⟨a, ha⟩

theorem permitted_of {k : FCall} {s : FSt} (h : ∀ i, k ≠ .format i) : Permitted fc k s := fun i e => absurd e (h i)

theorem FReach.call {s s' : FSt} (h : FReach fc s) {k : FCall} {r : Except Err FReply} (hk : ∀ i, k ≠ .format i) (he : fexec fc k s = (r, s')) : FReach fc s' := by
  obtain ⟨s0, t, h0, h⟩ := h
  have := h.call (permitted_of hk) he
  rw [forget_of hk] at this
  exact ⟨s0, _, h0, this⟩

/-- A call on a volume, as the specification sees it. -/
theorem FReach.does (hc : fc.Ok) {s s' : FSt} {a : FSys} (h : FAbs fc s a) {k : FCall} {r : Except Err FReply} (hk : ∀ i, k ≠ .format i) (he : fexec fc k s = (r, s')) :
    ∃ a' tr, Spec.Does fc k a r a' tr ∧ FAbs fc s' a' := by
  obtain ⟨a', tr, h1, h2, _⟩ := fexec_sim hc h (permitted_of hk) he
  rw [forget_of hk] at h2
  exact ⟨a', tr, h1, h2⟩

/-- **C45.**  A call that names a volume leaves all other volumes exactly as they are (in any state). -/
theorem C45_isolated {s s' : FSt} {k : FCall} {i : Nat} {r : Except Err FReply} (hk : Spec.vol? k = some i) (he : fexec fc k s = (r, s')) :
    ∀ j, j ≠ i → s'.vols j = s.vols j := by
  intro j hj
  have on : ∀ {α : Type} (m : Conf → VM α) (s : FSt), s.cur = i → ∀ x s', onCur fc m s = (x, s') → s'.vols j = s.vols j := by
    intro α m s hc x s' h
    have := congrArg (fun q => q.2.vols j) h
    replace this : (if j = s.cur then (m (fc.conf s.cur) (s.vols s.cur)).2 else s.vols j) = s'.vols j := this
    rw [hc, if_neg hj] at this; exact this.symm
  by_cases hbad : s.inited = false ∨ fc.n ≤ i ∨ Spec.tooLong k = true
  · rw [fexec_bad hk hbad] at he; rw [← (Prod.mk.inj he).2]
  · have hi : s.inited = true := by simpa using fun h' => hbad (Or.inl h')
    have hn : i < fc.n := by by_contra h'; exact hbad (Or.inr (Or.inl (by omega)))
    have hl : Spec.tooLong k = false := by simpa using fun h' => hbad (Or.inr (Or.inr h'))
    have hent := enter_ok (fc := fc) hi hn
    have go : ∀ {α : Type} (f : α → FReply) (m : FM α), ret f m s = (r, s') → (∀ x s1, m s = (x, s1) → s1.vols j = s.vols j) → s'.vols j = s.vols j := by
      intro α f m h hm
      have hh := ret_run (f := f) (m := m) (s := s) (r := (m s).1) (s' := (m s).2) rfl
      rw [h] at hh
      rw [(Prod.mk.inj hh).2]; exact hm _ _ rfl
    cases k <;> simp only [Spec.vol?, Option.some.injEq, reduceCtorEq] at hk <;> subst hk
    case mount i =>
      refine go _ _ he ?_
      intro x s1 h
      unfold fseMount at h
      rw [run_bind, hent] at h; dsimp only at h
      rw [run_bind, run_get] at h; dsimp only at h
      split at h
      · rw [← (Prod.mk.inj h).2]
      · exact on (s := { s with cur := i }) _ rfl _ _ h
    case unmount i =>
      refine go _ _ he ?_
      intro x s1 h
      unfold fseUnmount at h
      rw [run_bind, hent] at h; dsimp only at h
      rw [run_bind, run_get] at h; dsimp only at h
      split at h
      · exact on (s := { s with cur := i }) _ rfl _ _ h
      · rw [← (Prod.mk.inj h).2]
    case read i file off len =>
      refine go _ _ he ?_
      intro x s1 h
      unfold fseRead int32Max at h
      rw [if_neg (of_decide_eq_false hl), run_bind, hent] at h
      exact on (s := { s with cur := i }) _ rfl _ _ h
    case write i file off len buf =>
      refine go _ _ he ?_
      intro x s1 h
      unfold fseWrite int32Max at h
      rw [if_neg (of_decide_eq_false hl), run_bind, hent] at h
      exact on (s := { s with cur := i }) _ rfl _ _ h
    all_goals
      refine go _ _ he ?_
      intro x s1 h
      simp only [fseFormat, fseTruncate, fseSizeGet, fseTransMaskSet, fseTransMaskGet, fseTransact, fseRollback] at h
      rw [run_bind, hent] at h
      exact on (s := { s with cur := _ }) _ rfl _ _ h

/-- **C45.**  What has been written is read back. -/
theorem C45_write_read (hc : fc.Ok) {s s' : FSt} (h : FReach fc s) {i file off len n : Nat} {buf : Nat → Byte}
    (he : fexec fc (.write i file off len buf) s = (.ok (.num n), s')) :
    n ≤ len ∧ (fexec fc (.read i file off n) s').1 = .ok (.bytes ((List.range n).map buf)) := by
  obtain ⟨a, ha⟩ := h.abs hc
  obtain ⟨a', tr, d, ha'⟩ := FReach.does hc ha (by intro i h; cases h) he
  obtain ⟨a2, tr2, d2, _⟩ := FReach.does hc ha' (k := .read i file off n) (by intro i h; cases h) (Prod.mk.eta ..).symm
  generalize (fexec fc (.read i file off n) s').1 = r at d2 ⊢
  simp only [Spec.Does, Spec.vol?] at d d2
  by_cases hb : a.inited = false ∨ fc.n ≤ i ∨ Spec.tooLong (.write i file off len buf) = true
  · rw [if_pos hb] at d; cases d.1
  · rw [if_neg hb] at d
    obtain ⟨d1, _, d⟩ := d
    simp only [Spec.VolDoes, Spec.Modify] at d
    have hl : ¬ 2147483647 < len := fun h' => hb (Or.inr (Or.inr (decide_eq_true h')))
    split at d
    · cases d.1
    · next hm =>
      obtain ⟨pre, G, _, hw, _, hv⟩ := d
      unfold Spec.Write at hw
      split at hw
      · cases hw.1
      · next hf =>
        split at hw
        · cases hw.1
        · rcases hw with ⟨hw, _⟩ | ⟨n', hn, h1, h2, h3, rfl⟩
          · cases hw
          · obtain rfl : n = n' := by injection Except.ok.inj hn
            refine ⟨h1, ?_⟩
            have hb2 : ¬ (a'.inited = false ∨ fc.n ≤ i ∨ Spec.tooLong (.read i file off n) = true) := by
              rintro (h' | h' | h')
              · rw [d1] at h'; cases h'
              · exact hb (Or.inr (Or.inl h'))
              · have := of_decide_eq_true h'; omega
            rw [if_neg hb2] at d2
            obtain ⟨_, _, _, _, d2⟩ := d2
            have hm2 : ¬ (a'.vol i).mounted = false := by rw [hv]; exact hm
            rw [if_neg hm2, if_neg hf, hv] at d2
            rw [d2]
            have e : ((Spec.set (a.vol i).now file (Spec.put ((a.vol i).now file) off ((List.range n).map buf)) file).drop off).take n = (List.range n).map buf := by
              rw [show Spec.set (a.vol i).now file (Spec.put ((a.vol i).now file) off ((List.range n).map buf)) file = _ from if_pos rfl]
              generalize (a.vol i).now file = xs
              unfold Spec.put
              by_cases h0 : (List.range n).map buf = []
              · rw [if_pos h0]
                have : n = 0 := by simpa using congrArg List.length h0
                rw [this]; rfl
              · have hlt : ((Spec.pad xs off).take off).length = off := by rw [List.length_take, pad_length]; omega
                rw [if_neg h0, List.append_assoc, List.drop_append_of_le_length (by omega), List.drop_of_length_le (by omega), List.nil_append,
                  List.take_append_of_le_length (by simp), List.take_of_length_le (by simp)]
            rw [e]

/-- **C45.**  The files of a mounted volume are those with the numbers 2, 3, ..., as many as have been configured; they cannot be created or deleted. -/
theorem C45_files (hc : fc.Ok) {s : FSt} (h : FReach fc s) {i : Nat} (hn : i < fc.n) (hi : s.inited = true) (hm : (s.vols i).mounted = true) (file : Nat) :
    if 2 ≤ file ∧ file < 2 + (fc.conf i).inodeCount then ∃ n, (fexec fc (.sizeGet i file) s).1 = .ok (.num n)
    else (fexec fc (.sizeGet i file) s).1 = .error .ebadf := by
  obtain ⟨a, ha⟩ := h.abs hc
  obtain ⟨a', tr, d, ha'⟩ := FReach.does hc ha (k := .sizeGet i file) (by intro i h; cases h) (Prod.mk.eta ..).symm
  generalize (fexec fc (.sizeGet i file) s).1 = r at d ⊢
  simp only [Spec.Does, Spec.vol?] at d
  obtain ⟨y, h1, h2, _⟩ := ha.vols i hn
  have hm' : (a.vol i).mounted = true := by rw [h2.mounted, h1.mounted_iff, hm]
  rw [if_neg (by rw [ha.inited, hi]; rintro (h | h | h); (· cases h); (· omega); (· cases h))] at d
  obtain ⟨_, _, _, _, d⟩ := d
  rw [hm', if_neg (by simp)] at d
  by_cases hf : Spec.IsFile (fc.conf i) file
  · rw [if_neg (not_not_intro hf)] at d
    rw [if_pos (show 2 ≤ file ∧ file < 2 + (fc.conf i).inodeCount from hf)]; exact ⟨_, d⟩
  · rw [if_pos hf] at d
    rw [if_neg (show ¬ (2 ≤ file ∧ file < 2 + (fc.conf i).inodeCount) from hf)]; exact d

/-- **C45.**  After a transaction point, a power loss changes nothing: when the volume has been mounted again, all files are
read as before. -/
theorem C45_power_loss (hc : fc.Ok) {s s1 w w1 w2 : FSt} (h : FReach fc s) {i : Nat} (ht : fexec fc (.transact i) s = (.ok .unit, s1))
    (hw : w.inited = false) (hx : ∀ j, j < fc.n → ∃ D, CrashImage (fc.conf j) (s1.vols j).epoch D ∧ Boot (w.vols j) D)
    {r1 r2 : Except Err FReply} (hi : fexec fc .init w = (r1, w1)) (hm : fexec fc (.mount i) w1 = (r2, w2)) :
    r1 = .ok .unit ∧ r2 = .ok .unit ∧ ∀ file off len, (fexec fc (.read i file off len) w2).1 = (fexec fc (.read i file off len) s1).1 := by
  obtain ⟨s0, t, h0, hr⟩ := h
  have hnf : ∀ {k : FCall}, (match k with | .format _ => false | _ => true) = true → ∀ i, k ≠ .format i := by
    intro k hk i e; subst e; cases hk
  -- up to the transaction
  obtain ⟨a, _, ha⟩ := hr.refines hc h0.abs
  obtain ⟨a1, tr, d1, ha1⟩ := FReach.does hc ha (hnf rfl) ht
  have hr1 : FRun fc s0 (t ++ [.call (.transact i) (.ok .unit)]) s1 := by
    have := hr.call (permitted_of (k := .transact i) (hnf rfl)) ht
    rwa [forget_of (hnf rfl)] at this
  -- the power loss
  have hab : ∃ aw, FAbs fc w aw ∧ aw.inited = false ∧ ∀ j, j < fc.n → (aw.vol j).mounted = false ∧ (aw.vol j).disk = (a1.vol j).disk := by
    refine ⟨⟨false, fun j => ⟨false, 0, Spec.empty, (a1.vol j).disk⟩⟩, ⟨hw.symm, fun _ j hj => rfl, fun j hj => ?_⟩, rfl, fun j hj => ⟨rfl, rfl⟩⟩
    obtain ⟨D, hD, hb⟩ := hx j hj
    obtain ⟨y, g1, g2, _⟩ := ha1.vols j hj
    obtain ⟨y1, q1, q2, q3⟩ := g1.idle (hc.conf j hj).ok D hD _ hb
    exact ⟨y1, q1, rep_down q2 ((List.mem_singleton.1 q3).trans g2.disk), fun h' => (by rw [hw] at h'; cases h')⟩
  obtain ⟨aw, hw0, hw1, hw2⟩ := hab
  obtain ⟨a2, tr2, d2, ha2⟩ := FReach.does hc hw0 (hnf rfl) hi
  obtain ⟨a3, tr3, d3, ha3⟩ := FReach.does hc ha2 (hnf rfl) hm
  simp only [Spec.Does, Spec.vol?] at d1 d2 d3
  -- the transaction
  by_cases hb : a.inited = false ∨ fc.n ≤ i ∨ Spec.tooLong (.transact i) = true
  · rw [if_pos hb] at d1; cases d1.1
  rw [if_neg hb] at d1
  obtain ⟨e1, _, d1⟩ := d1
  have hn : i < fc.n := by by_contra h'; exact hb (Or.inr (Or.inl (by omega)))
  simp only [Spec.VolDoes] at d1
  by_cases hmm : (a.vol i).mounted = false
  · rw [if_pos hmm] at d1; cases d1.1
  rw [if_neg hmm] at d1
  obtain ⟨_, _, d1⟩ := d1
  -- initialization
  obtain ⟨_, rfl, d2⟩ := d2
  rw [hw1, if_neg (by simp)] at d2
  have hv2 : a2.vol i = { aw.vol i with mask := fc.transDefault } := by rw [d2]; exact if_pos hn
  -- mount
  have hbad2 : ¬ (a2.inited = false ∨ fc.n ≤ i ∨ Spec.tooLong (.mount i) = true) := by
    rintro (h' | h' | h')
    · rw [d2] at h'; cases h'
    · omega
    · cases h'
  rw [if_neg hbad2] at d3
  obtain ⟨e3, _, d3⟩ := d3
  simp only [Spec.VolDoes] at d3
  obtain ⟨_, d3⟩ := d3
  have hdk : (a2.vol i).disk = some (a.vol i).now := by rw [hv2]; show (aw.vol i).disk = _; rw [(hw2 i hn).2, d1]
  have hnm : ¬ (a2.vol i).mounted = true := by rw [hv2]; show ¬ (aw.vol i).mounted = true; rw [(hw2 i hn).1]; simp
  rw [if_neg hnm, hdk] at d3
  obtain ⟨rfl, d3⟩ := d3
  refine ⟨rfl, rfl, fun file off len => ?_⟩
  obtain ⟨b, trb, db, _⟩ := FReach.does hc ha3 (k := .read i file off len) (hnf rfl) (Prod.mk.eta ..).symm
  obtain ⟨b', trb', db', _⟩ := FReach.does hc ha1 (k := .read i file off len) (hnf rfl) (Prod.mk.eta ..).symm
  generalize (fexec fc (.read i file off len) w2).1 = x at db ⊢
  generalize (fexec fc (.read i file off len) s1).1 = x' at db' ⊢
  simp only [Spec.Does, Spec.vol?] at db db'
  by_cases hl : 2147483647 < len
  · have hl' : Spec.tooLong (.read i file off len) = true := decide_eq_true hl
    rw [if_pos (Or.inr (Or.inr hl'))] at db db'
    rw [db.1, db'.1]
  · have hl' : ¬ Spec.tooLong (.read i file off len) = true := fun h' => hl (of_decide_eq_true h')
    rw [if_neg (by rintro (h' | h' | h'); (· rw [e3] at h'; cases h'); (· omega); (· exact hl' h'))] at db
    rw [if_neg (by rintro (h' | h' | h'); (· rw [e1] at h'; cases h'); (· omega); (· exact hl' h'))] at db'
    obtain ⟨_, _, _, _, db⟩ := db
    obtain ⟨_, _, _, _, db'⟩ := db'
    rw [d3, if_neg (by simp)] at db
    rw [d1, if_neg hmm] at db'
    dsimp only at db db'
    by_cases hf : Spec.IsFile (fc.conf i) file
    · rw [if_neg (not_not_intro hf)] at db db'; rw [db, db']
    · rw [if_pos hf] at db db'; rw [db, db']

/-! ### A concrete history -/

/-- Two volumes. -/
def demoFC : FConf := ⟨2, fun _ => demoConfF, 0⟩
theorem demoFC_ok : demoFC.Ok := ⟨fun _ _ => demoF_sys, fun _ _ => rfl⟩

def startF : FSt := ⟨false, 0, fun _ => bareVol demoConfF⟩
theorem startF_start : FStart demoFC startF := ⟨rfl, fun _ _ => bare_blank _⟩

/-- A sequence of calls. -/
def fruns (fc : FConf) : List FCall → FSt → FSt
  | [], s => s
  | k :: l, s => fruns fc l (forget k (fexec fc k s).1 (fexec fc k s).2)

theorem fruns_run {l : List FCall} (hl : ∀ k ∈ l, ∀ i, k ≠ .format i) : ∀ {s : FSt}, FReach fc s → FReach fc (fruns fc l s) := by
  induction l with
  | nil => intro s h; exact h
  | cons k l ih =>
    intro s h
    have hk := hl k (List.mem_cons_self ..)
    refine ih (fun k' hk' => hl k' (List.mem_cons_of_mem _ hk')) ?_
    rw [forget_of hk]
    exact h.call hk (Prod.mk.eta ..).symm

/-- Volume 1 is formatted, mounted, and its file 3 is written. -/
def demoF1 : FSt := fruns demoFC [.init, .format 1] startF
def demoF2 : FSt := fruns demoFC [.mount 1, .write 1 3 5 2 (fun k => BitVec.ofNat 8 (k + 7))] demoF1
def demoF3 : FSt := (fexec demoFC (.transact 1) demoF2).2

theorem demoF1_reach : FReach demoFC demoF1 := by
  refine ⟨startF, [] ++ [.call .init (fexec demoFC .init startF).1] ++ [.call (.format 1) (fexec demoFC (.format 1) (fexec demoFC .init startF).2).1], startF_start, ?_⟩
  refine FRun.call (s := (fexec demoFC .init startF).2) (s' := (fexec demoFC (.format 1) (fexec demoFC .init startF).2).2) ?_ ?_ (Prod.mk.eta ..).symm
  · exact FRun.call (s := startF) (s' := (fexec demoFC .init startF).2) .nil (permitted_of (by intro i h; cases h)) (Prod.mk.eta ..).symm
  · intro i _ _; exact Or.inl (by show (if i < 2 then coreInit 0 (bareVol demoConfF) else bareVol demoConfF).almostFree = 0; split <;> rfl)

theorem demoF2_reach : FReach demoFC demoF2 := fruns_run (by
  intro k hk i e; subst e
  simp only [List.mem_cons, List.mem_nil_iff, or_false, reduceCtorEq] at hk) demoF1_reach

def isUnitF : Except Err FReply → Bool
  | .ok .unit => true
  | _ => false
def isNumF (n : Nat) : Except Err FReply → Bool
  | .ok (.num m) => m == n
  | _ => false
theorem isUnitF_eq {r : Except Err FReply} (h : isUnitF r = true) : r = .ok .unit := by
  rcases r with _ | _ | _ | _ <;> first | rfl | cases h
theorem isNumF_eq {n : Nat} {r : Except Err FReply} (h : isNumF n r = true) : r = .ok (.num n) := by
  rcases r with _ | _ | m | _ <;> first | cases h | skip
  rw [eq_of_beq h]

theorem demoF_transact : fexec demoFC (.transact 1) demoF2 = (.ok .unit, demoF3) := by
  have h : isUnitF (fexec demoFC (.transact 1) demoF2).1 = true := by decide +kernel
  unfold demoF3
  generalize fexec demoFC (.transact 1) demoF2 = x at h ⊢
  rcases x with ⟨r, y⟩
  replace h : isUnitF r = true := h
  rw [isUnitF_eq h]

/-- The system that is started after a power loss which left nothing of what was written after the transaction point. -/
def demoFW : FSt := ⟨false, 0, fun j => bootVol demoConfF (demoF3.vols j).epoch.base⟩
theorem demoFW_crash (j : Nat) (hj : j < demoFC.n) : ∃ D, CrashImage (demoFC.conf j) (demoF3.vols j).epoch D ∧ Boot (demoFW.vols j) D :=
  ⟨_, CrashImage.old _ _, boot_boot _ _⟩

-- the hypotheses of `C45_power_loss` and `C45_files` are met, and the volume is found
example : ∀ file off len, (fexec demoFC (.read 1 file off len) (fexec demoFC (.mount 1) (fexec demoFC .init demoFW).2).2).1 =
    (fexec demoFC (.read 1 file off len) demoF3).1 :=
  (C45_power_loss demoFC_ok demoF2_reach demoF_transact rfl demoFW_crash (Prod.mk.eta ..).symm (Prod.mk.eta ..).symm).2.2

-- and what is found is what has been written
theorem demoF_size : isNumF 7 (fexec demoFC (.sizeGet 1 3) (fexec demoFC (.mount 1) (fexec demoFC .init demoFW).2).2).1 = true := by decide +kernel
theorem demoF_written : isNumF 2 (fexec demoFC (.write 1 3 5 2 (fun k => BitVec.ofNat 8 (k + 7))) (fexec demoFC (.mount 1) demoF1).2).1 = true := by decide +kernel
theorem demoF_up : ((fexec demoFC (.mount 1) demoF1).2.vols 1).mounted = true ∧ (fexec demoFC (.mount 1) demoF1).2.inited = true := by decide +kernel

example : (fexec demoFC (.sizeGet 1 6) (fexec demoFC (.mount 1) demoF1).2).1 = .error .ebadf := by
  have := C45_files demoFC_ok (demoF1_reach.call (k := .mount 1) (by intro i h; cases h) (Prod.mk.eta ..).symm) (i := 1) (by decide) demoF_up.2 demoF_up.1 6
  rwa [if_neg (by decide)] at this

-- `C45_write_read`
example : (fexec demoFC (.read 1 3 5 2) (fexec demoFC (.write 1 3 5 2 (fun k => BitVec.ofNat 8 (k + 7))) (fexec demoFC (.mount 1) demoF1).2).2).1 = .ok (.bytes [7#8, 8#8]) := by
  have hr : FReach demoFC (fexec demoFC (.mount 1) demoF1).2 := demoF1_reach.call (k := .mount 1) (by intro i h; cases h) (Prod.mk.eta ..).symm
  have hw := demoF_written
  generalize (fexec demoFC (.mount 1) demoF1).2 = s at hr hw ⊢
  rcases hx : fexec demoFC (.write 1 3 5 2 (fun k => BitVec.ofNat 8 (k + 7))) s with ⟨r, s'⟩
  rw [hx] at hw
  replace hw : isNumF 2 r = true := hw
  rw [isNumF_eq hw] at hx
  exact (C45_write_read demoFC_ok hr hx).2

-- power may be lost during any call
example {s : FSt} (h : FReach demoFC s) {k : FCall} (hp : Permitted demoFC k s) (hk : ∀ i, k ≠ .format i) (hh : ∀ j, ∃ new, ((fexec demoFC k s).2.vols j).hist = new ++ (s.vols j).hist) :
    FReach demoFC ⟨false, 0, fun j => bootVol demoConfF (((fexec demoFC k s).2.vols j).epoch.base)⟩ := by
  obtain ⟨s0, t, h0, hr⟩ := h
  refine ⟨s0, _, h0, hr.crash hp (Prod.mk.eta ..).symm rfl fun j hj => ?_⟩
  obtain ⟨new, hn⟩ := hh j
  refine ⟨new, _, _, hn, List.mem_cons_self .., ?_, boot_boot _ _⟩
  cases k <;> first | exact CrashImage.old _ _ | exact absurd rfl (hk _)

end RedFs.Fse
