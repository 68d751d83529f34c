import Verif.Lemmas.PosixCrashApi
import Verif.Lemmas.PosixDemo
set_option linter.unusedSimpArgs false
set_option linter.unusedVariables false
/-!
C46: a power loss during a call of the POSIX API leaves, on every volume, the state of one transaction point.
-/
namespace RedFs.Props.PosixCrash
open RedFs RedFs.Posix M Str

variable {pc : PConf} {s s' s0 : PSt} {c : Conf} {v v' w : Vol}

/-- The state on the disk of a volume that is not mounted is what mounting it shows. -/
theorem found_iff (hc : c.SysOk) {x : Sys} (ha : Abs c v x) (hm : x.mounted = false) (F : Files) : Found c v F ↔ x.disk = some F := by
  refine ⟨fun h => ?_, fun h => System.Abs.found hc ha hm h⟩
  obtain ⟨w', h1, h2, h3, h4, _⟩ := h false
  obtain ⟨r', v2, s', tr, e', d, a, _⟩ := exec_sim hc ha (k := .mount false) trivial
  have hm' : v.mounted = false := ha.mounted_iff.symm.trans hm
  have : apiMount c false v = (.ok (), w') := by
    unfold apiMount; rw [run_bind]; show (if v.mounted = true then _ else _ : VM Unit) v = _; rw [hm']; exact h1
  have e2 : exec c (.mount false) v = (.ok .unit, w') := reply_run (f := fun _ => Reply.unit) this
  rw [e2] at e'; obtain ⟨rfl, rfl⟩ := Prod.mk.inj e'
  simp only [Spec.Does] at d
  rw [if_neg (by rw [hm]; decide)] at d
  split at d
  · cases d.2.1
  · next G hG =>
    cases a with
    | up _ _ hn => rw [hG, ← h4, ← hn, d.2.2]
    | off hx => rw [d.2.2] at hx; cases hx
    | none hx => rw [d.2.2] at hx; cases hx

theorem survives (hc : c.SysOk) {k : PCall} (h : Reach c v) (he : Evo (zOf k) c true v v') {new : List Epoch} (hn : v'.hist = new ++ v.hist) {e : Epoch}
    (hin : e ∈ v'.epoch :: new) {D : Nat → Blk} (hD : CrashImage c e D) (hw : Boot w D) : Reach c w ∧ Survives c k v v' w := by
  obtain ⟨x, ha⟩ := h.abs hc
  obtain ⟨x', tr, new', ha', hd, hk, hp, hn', hr⟩ := he.sim x ha
  obtain rfl : new = new' := List.append_cancel_right (hn.symm.trans hn')
  -- what is found
  obtain ⟨hreach, y, hy, hym, hyd⟩ : Reach c w ∧ ∃ y, Abs c w y ∧ y.mounted = false ∧ y.disk ∈ x.disk :: tr.map some := by
    rcases List.mem_cons.1 hin with rfl | hin
    · obtain ⟨y, h1, h2, h3⟩ := Abs.idle hc.ok ha' D hD w hw
      refine ⟨?_, y, h1, h2, by rw [List.mem_singleton.1 h3]; exact hd⟩
      obtain ⟨v0, t, h0, hrun⟩ := he.reach
      exact ⟨v0, _, h0, .idleCrash hrun hD hw⟩
    · obtain ⟨y, h1, h2, h3⟩ := (hr e hin).1 D hD w hw
      exact ⟨(hr e hin).2 D w hD hw, y, h1, h2, h3⟩
  refine ⟨hreach, fun hm => ?_, fun hm F => ?_⟩
  · obtain ⟨hi, h1, h2, h3, h4⟩ := ha.inv (ha.mounted_iff.trans hm)
    rcases List.mem_cons.1 hyd with hyd | hyd
    · exact Or.inl ((found_iff hc hy hym _).2 (by rw [hyd, h2]))
    · obtain ⟨F, hF, hFy⟩ := List.mem_map.1 hyd
      refine Or.inr ⟨?_, ?_⟩
      · by_cases hkt : ∃ vol, k = .transact vol
        · exact Or.inl hkt
        · right
          have hz : zOf k = some fun ev => ev ∈ k.events := by
            unfold zOf; split
            · exact absurd ⟨_, rfl⟩ hkt
            · rfl
          rw [hz] at hp
          obtain ⟨ev, g1, g2⟩ := hp.1 F hF
          refine ⟨ev, g1, ?_⟩
          unfold Vol.on; unfold Sys.on at g2; rw [← h4]; exact g2
      · rcases hk.1 F hF with ⟨_, g⟩ | ⟨g1, g⟩
        · exact Or.inl ((found_iff hc hy hym _).2 (by rw [← hFy, g, h1]))
        · refine Or.inr ⟨ha'.mounted_iff.symm.trans g1, (found_iff hc hy hym _).2 ?_⟩
          rw [← hFy, g, (ha'.inv g1).2.1]
  · have hxm := ha.mounted_iff.trans hm
    rw [found_iff hc hy hym, found_iff hc ha hxm]
    rcases List.mem_cons.1 hyd with hyd | hyd
    · rw [hyd]
    · obtain ⟨G, hG, hGy⟩ := List.mem_map.1 hyd
      rw [← hGy, (hk.2 hxm).1 G hG]

/-- **C46** Power fails during the call `k` of any task, or after it before the next one; the system is started again.  Then every volume shows all its files as they
were at one moment: at the last transaction point before the call; or, only if the call commits - it is `red_transact`, or one of its events is enabled - as
they were before the call or as they are after it.  Volumes which were not mounted are unchanged.  And the system is in a proper initial state: whatever is
true of all histories of calls is true of what follows. -/
theorem C46_power_loss (hc : pc.Ok) (h : PReach pc s) {t : Nat} {k : PCall} (hp : Permitted pc t k s) (hf : ∀ vol, k ≠ .format vol)
    {r : Except Err PReply} (he : pexec pc t k s = (r, s')) (hs : Restarted pc s s' s0) :
    PStart pc s0 ∧ ∀ i, i < pc.n → Survives (pc.conf i) k (s.vols i) (s'.vols i) (s0.vols i) := by
  have hev := pexec_evo hc (h.inv hc) hp.2.1 hf he
  have all : ∀ i, i < pc.n → Reach (pc.conf i) (s0.vols i) ∧ (s0.vols i).mounted = false ∧ Survives (pc.conf i) k (s.vols i) (s'.vols i) (s0.vols i) := by
    intro i hi
    obtain ⟨new, e, D, h1, h2, h3, h4⟩ := hs.vol i hi
    obtain ⟨g1, g2⟩ := survives (hc.sys i hi) ((h.inv hc).reach i hi) (hev i hi) h1 h2 h3 h4
    exact ⟨g1, h4.mounted, g2⟩
  exact ⟨⟨hs.inited, hs.gen, hs.cur, fun i hi => (all i hi).1, fun i hi => (all i hi).2.1⟩, fun i hi => (all i hi).2.2⟩

/-- **C46** Power fails while no call is being executed: every mounted volume shows its files as they were at the last transaction point. -/
theorem C46_power_loss_idle (hc : pc.Ok) (h : PReach pc s) (hs : Restarted pc s s s0) :
    PStart pc s0 ∧ ∀ i, i < pc.n → (s.vols i).mounted = true → Found (pc.conf i) (s0.vols i) (committedFiles (pc.conf i) (s.vols i)) := by
  have all : ∀ i, i < pc.n → Reach (pc.conf i) (s0.vols i) ∧ (s0.vols i).mounted = false ∧
      ((s.vols i).mounted = true → Found (pc.conf i) (s0.vols i) (committedFiles (pc.conf i) (s.vols i))) := by
    intro i hi
    obtain ⟨new, e, D, h1, h2, h3, h4⟩ := hs.vol i hi
    have hn : new = [] := (List.append_cancel_right (h1.symm.trans (List.nil_append _).symm))
    subst hn
    have hr := (h.inv hc).reach i hi
    obtain ⟨g1, g2⟩ := survives (k := .init) (hc.sys i hi) hr (Evo.refl hr) h1 h2 h3 h4
    refine ⟨g1, h4.mounted, fun hm => ?_⟩
    rcases g2.1 hm with g | ⟨⟨vol, hv⟩ | ⟨ev, hv, _⟩, _⟩
    · exact g
    · cases hv
    · cases hv
  exact ⟨⟨hs.inited, hs.gen, hs.cur, fun i hi => (all i hi).1, fun i hi => (all i hi).2.1⟩, fun i hi => (all i hi).2.2⟩

/-! ### A case: power fails in `red_transact("")`, in the last epoch of the transaction -/

def demoT : Except Err PReply × PSt := pexec demoPC 5 (.transact []) demoS
theorem demoT_eq : pexec demoPC 5 (.transact []) demoS = (demoT.1, demoT.2) := (Prod.mk.eta ..).symm
theorem demo_up : (demoS.vols 0).mounted = true := by decide +kernel
theorem demoT_longer : (demoS.vols 0).hist.length < (demoT.2.vols 0).hist.length := by decide +kernel

/-- If a call adds to the history of device writes of volume 0, then power may fail in the middle of it: volume 0 then has the blocks as they were at the beginning
of the last epoch which has been finished. -/
theorem crash_case (hc : pc.Ok) (hr : PReach pc s) (h0 : 0 < pc.n) {t : Nat} {k : PCall} (hp : Permitted pc t k s) (hf : ∀ vol, k ≠ .format vol)
    {r : Except Err PReply} (he : pexec pc t k s = (r, s')) (hl : (s.vols 0).hist.length < (s'.vols 0).hist.length) :
    ∃ s0 new e D, Restarted pc s s' s0 ∧ (s'.vols 0).hist = new ++ (s.vols 0).hist ∧ e ∈ new ∧ CrashImage (pc.conf 0) e D ∧ Boot (s0.vols 0) D := by
  have hev := pexec_evo hc (hr.inv hc) hp.2.1 hf he
  have hist : ∀ i, i < pc.n → ∃ new, (s'.vols i).hist = new ++ (s.vols i).hist := by
    intro i hi
    obtain ⟨x, ha⟩ := ((hr.inv hc).reach i hi).abs (hc.sys i hi)
    obtain ⟨_, _, new, _, _, _, _, hn, _⟩ := (hev i hi).sim x ha
    exact ⟨new, hn⟩
  obtain ⟨new, hn⟩ := hist 0 h0
  cases new with
  | nil => rw [hn] at hl; exact absurd hl (Nat.lt_irrefl _)
  | cons e new =>
    refine ⟨⟨false, s.handle, s.slot, fun _ => 0, none, 0, fun i => bootVol (pc.conf i) (if i = 0 then e.base else (s'.vols i).epoch.base)⟩, e :: new, e, e.base,
      ⟨rfl, fun _ => rfl, rfl, fun i hi => ?_⟩, hn, List.mem_cons_self .., .old _ _, boot_boot _ _⟩
    by_cases h0 : i = 0
    · subst h0
      exact ⟨e :: new, e, e.base, hn, List.mem_cons_of_mem _ (List.mem_cons_self ..), .old _ _, boot_boot _ _⟩
    · obtain ⟨new', hn'⟩ := hist i hi
      refine ⟨new', (s'.vols i).epoch, (s'.vols i).epoch.base, hn', List.mem_cons_self .., .old _ _, ?_⟩
      show Boot (bootVol (pc.conf i) (if i = 0 then e.base else (s'.vols i).epoch.base)) _
      rw [if_neg h0]; exact boot_boot _ _

theorem demo_permitted : Permitted demoPC 5 (.transact []) demoS := demoP (by decide) rfl _

/-- The two volumes of the demonstration, with power failing in `red_transact("")`. -/
example : ∃ r s' s0 new e D, PReach demoPC demoS ∧ Permitted demoPC 5 (.transact []) demoS ∧ pexec demoPC 5 (.transact []) demoS = (r, s') ∧
    Restarted demoPC demoS s' s0 ∧ (demoS.vols 0).mounted = true ∧ (s'.vols 0).hist = new ++ (demoS.vols 0).hist ∧ e ∈ new ∧ CrashImage (demoPC.conf 0) e D ∧ Boot (s0.vols 0) D := by
  have hp := demo_permitted
  have hl := demoT_longer
  have hu := demo_up
  have he := demoT_eq
  have hr := demoS_reach
  have hc := demoPC_ok
  have hn : 0 < demoPC.n := by decide
  generalize demoT = T at hl he
  generalize demoS = S at *
  obtain ⟨r, s'⟩ := T
  obtain ⟨s0, new, e, D, g⟩ := crash_case hc hr hn hp (fun vol h => by cases h) he hl
  exact ⟨r, s', s0, new, e, D, hr, hp, he, g.1, hu, g.2⟩

end RedFs.Props.PosixCrash
