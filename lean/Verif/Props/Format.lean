import Verif.Props.System
import Verif.Props.Crash
set_option linter.unusedSimpArgs false
set_option linter.unusedVariables false
/-!
Formatting (C05).  `formatted c` (Spec/Api.lean) are the files of a new volume: an empty root directory,
or, in an FSE build, all the files, each of them empty.
-/
namespace RedFs.Props.Format
open RedFs
open M Vol

variable {c : Conf} {v v' w : Vol}

/-- **C05** Whatever is on the disk and in the caches: formatting an unmounted volume succeeds, and then
mounting it - at once, or after a power loss - shows a new volume, with all blocks free except those of
the root directory (or of the files of an FSE build).  (`hist` is a ghost.) -/
theorem C05_format_succeeds (hc : c.SysOk) (hu : Unmounted v) :
    ∃ v', volFormat c v = (.ok (), v') ∧ Found c { v' with hist := [] } (formatted c) ∧
      ∀ D w, CrashImage c v'.epoch D → Boot w D → Found c w (formatted c) := by
  obtain ⟨v', m, e, F⟩ := volFormat_spec hc.ok hu
  have hof := F.off (Sound c) (sound_formatted hc)
  have ha : Abs c { v' with hist := [] } ⟨false, false, v'.transMask, fun _ => none, some (formatted c)⟩ :=
    .off rfl hof (by show some (formatted c) = some (stFiles c v'.base m); rw [F.files]) rfl
  refine ⟨v', e, System.Abs.found hc ha rfl rfl, fun D w hD hw => ?_⟩
  obtain ⟨s', h1, h2, h3⟩ := ha.idle hc.ok D hD w hw
  exact System.Abs.found hc h1 h2 (List.mem_singleton.1 h3)

/-- **C05** A mounted volume is not formatted. -/
theorem C05_format_mounted (hm : v.mounted = true) : volFormat c v = (.error .ebusy, v) := by
  unfold volFormat; simp only [run_bind, run_get, hm]; rfl

/-- **C05** Power fails at any moment of a format of an unmounted volume with whatever is on the disk: in
any of the epochs `new` that go on during the format, with any part of what is written in that epoch
on the disk.  Then either mounting fails with EIO; or it shows a completely formatted volume; or power
failed in the first epoch (`new` has the newest first), and what is on the disk could have been left by
a power loss just before the format was begun. -/
theorem C05_interrupted_format (hc : c.SysOk) (hu : Unmounted v) {r : Except Err Unit} (hf : volFormat c v = (r, v'))
    {new : List Epoch} (hn : v'.hist = new ++ v.hist) {e : Epoch} (he : e ∈ new) {D : Nat → Blk} (hD : FormatImage c e D) (hw : Boot w D) :
    (∀ ro, ∃ w', volMount c ro w = (.error .eio, w') ∧ w'.mounted = false ∧ w'.blk = D ∧ w'.base = D ∧ w'.dirty = fun _ => false) ∨
    Found c w (formatted c) ∨
    (new.getLast? = some e ∧ CrashImage c v.epoch D) := by
  obtain ⟨v'', m, e', F⟩ := volFormat_spec hc.ok hu
  rw [hf] at e'; obtain ⟨rfl, rfl⟩ := Prod.mk.inj e'
  obtain ⟨el, es, hh, L, hdead⟩ := F.hist
  have hnew : new = el :: es ++ [wipeEpoch v] := by
    rw [hh] at hn
    have : (el :: es ++ [wipeEpoch v]) ++ v.hist = new ++ v.hist := by rw [← hn]; simp
    exact (List.append_cancel_right this).symm
  have blank : (∀ mm, D 0 ≠ .master mm) → ∀ ro, ∃ w', volMount c ro w = (.error .eio, w') ∧ w'.mounted = false ∧ w'.blk = D ∧ w'.base = D ∧ w'.dirty = fun _ => false := by
    intro h ro
    obtain ⟨w', e1, e2, e3, e4, e5, _⟩ := Crash.C06_mount_fails_clean (c := c) hw.conn ro (Or.inr (fun mm h' => absurd h' (h mm)))
    exact ⟨w', e1, e5.trans hw.mounted, e2, e3, e4⟩
  have hlast : new.getLast? = some (wipeEpoch v) := by rw [hnew]; exact List.getLast?_append
  rw [hnew] at he
  have he : e = el ∨ e ∈ es ∨ e = wipeEpoch v := by simpa using he
  rcases he with rfl | he | rfl
  · by_cases hdz : e.dirty 0 = true
    · rcases hD.master hdz with h | h | h
      · exact Or.inl (blank (fun mm h' => by rw [h, L.zero] at h'; cases h'))
      · right; left
        have hDD : D = v'.base := by
          funext x
          by_cases hx : x = 0
          · subst hx; rw [h, L.fin]
          · rw [hD.image.kept x (L.other x hx).1, (L.other x hx).2]
        subst hDD
        obtain ⟨v2, e2, _, h3⟩ := C05_format_succeeds hc hu
        rw [hf] at e2; obtain ⟨_, rfl⟩ := Prod.mk.inj e2
        exact h3 _ _ ⟨fun x _ => rfl, fun x _ hd => by
          rw [show v'.epoch.dirty x = v'.dirty x from rfl, F.clean] at hd; cases hd⟩ hw
      · exact Or.inl (blank h)
    · exact Or.inl (blank (fun mm h' => by
        rw [hD.image.kept 0 (by simpa using hdz), L.zero] at h'; cases h'))
  · obtain ⟨d1, d2⟩ := hdead e he
    exact Or.inl (blank (fun mm h' => by rw [hD.image.kept 0 d2, d1] at h'; cases h'))
  · rcases hD.master rfl with h | h | h
    · refine Or.inr (Or.inr ⟨hlast, fun x hx => ?_, fun x hx hd => ?_⟩)
      · by_cases h0 : x = 0
        · subst h0; exact h
        · exact hD.image.kept x (by show (if x = 0 then true else v.dirty x) = false; rw [if_neg h0]; exact hx)
      · have hx0 : x ≠ 0 := by omega
        have := hD.image.metaroot x hx (by show (if x = 0 then true else v.dirty x) = true; rw [if_neg hx0]; exact hd)
        rcases this with t | t | t
        · exact Or.inl t
        · refine Or.inr (Or.inl ?_)
          rw [t]; show (if x = 0 then _ else v.blk x) = if v.dirty x then v.blk x else v.base x
          rw [if_neg hx0, if_pos (show v.dirty x = true from hd)]
        · exact Or.inr (Or.inr t)
    · exact Or.inl (blank (fun mm h' => by rw [h] at h'; cases h'))
    · exact Or.inl (blank h)

/-- **C05** The same for a volume in use: after an interrupted format a volume that has been formatted
before, and used in whatever way, can only be found as it was (power failed in the first epoch), as a
new volume, or not at all. -/
theorem C05_interrupted_reformat (hc : c.SysOk) (h : Reach c v) (hm : v.mounted = false) (h0 : v.almostFree = 0) {F : Files} (hF : Found c v F)
    {r : Except Err Unit} (hf : volFormat c v = (r, v')) {new : List Epoch} (hn : v'.hist = new ++ v.hist) {e : Epoch} (he : e ∈ new)
    {D : Nat → Blk} (hD : FormatImage c e D) (hw : Boot w D) :
    (∀ ro, ∃ w', volMount c ro w = (.error .eio, w') ∧ w'.mounted = false) ∨ Found c w (formatted c) ∨ (new.getLast? = some e ∧ Found c w F) := by
  obtain ⟨s, ha⟩ := h.abs hc
  have hsm := ha.mounted_iff.trans hm
  rcases C05_interrupted_format hc (ha.unmounted hsm h0) hf hn he hD hw with h1 | h1 | ⟨h1, h2⟩
  · exact Or.inl (fun ro => by obtain ⟨w', a, b, _⟩ := h1 ro; exact ⟨w', a, b⟩)
  · exact Or.inr (Or.inl h1)
  · refine Or.inr (Or.inr ⟨h1, ?_⟩)
    obtain ⟨s', g1, g2, g3⟩ := ha.idle hc.ok D h2 w hw
    have hsd : s.disk = some F := by
      cases hd : s.disk with
      | none =>
        exfalso
        cases ha with
        | up _ _ _ h => rw [h] at hd; cases hd
        | off _ _ h => rw [h] at hd; cases hd
        | none _ h3 =>
          obtain ⟨v1, e1, _⟩ := apiMount_blank (ro := false) h3
          obtain ⟨v2, e2, _⟩ := hF false
          rw [e1] at e2; cases (Prod.mk.inj e2).1
      | some G =>
        obtain ⟨v1, e1, _, _, f1, _⟩ := System.Abs.found hc ha hsm hd false
        obtain ⟨v2, e2, _, _, f2, _⟩ := hF false
        rw [e1] at e2; obtain ⟨_, rfl⟩ := Prod.mk.inj e2
        rw [← f1, f2]
    exact System.Abs.found hc g1 g2 (by rw [List.mem_singleton.1 g3, hsd])

/-- A blank disk and a used volume can be formatted. -/
example : Unmounted (bareVol demoConf) ∧ Unmounted (bareVol demoConfX) ∧ Unmounted (bareVol demoConfF) :=
  ⟨⟨rfl, fun _ _ => rfl, rfl⟩, ⟨rfl, fun _ _ => rfl, rfl⟩, ⟨rfl, fun _ _ => rfl, rfl⟩⟩

/-- A volume that is mounted, filled, emptied and unmounted without a transaction. -/
def leftoverCalls : List Call :=
  [.mount false, .create 2 nmA false, .write 3 0 500 (fun k => BitVec.ofNat 8 k), .transact, .maskSet 0, .truncate 3 0, .unmount]
def leftoverVol : Vol := (runCalls demoConf leftoverCalls (freshVol demoConf)).2

theorem ok_eq {x : Except Err Unit × Vol} (h : x.1.toBool = true) : x = (.ok (), x.2) := by
  rcases x with ⟨e | u, y⟩
  · cases h
  · rfl

/-- Finding 10: `RedVolFormat` does not clear `ulAlmostFreeBlocks`.  A volume has been unmounted with
blocks freed and not committed, and is formatted then: the blocks are counted as free once more, and the
new volume has more free blocks than there are blocks. -/
theorem C05_format_overcounts :
    ∃ v v', Reach demoConf v ∧ v.mounted = false ∧ v.almostFree ≠ 0 ∧ volFormat demoConf v = (.ok (), v') ∧
      ∃ v'', volMount demoConf false v' = (.ok (), v'') ∧ demoConf.allocable < v''.work.freeBlocks :=
  ⟨leftoverVol, (volFormat demoConf leftoverVol).2,
   (fresh_reach _).calls (by
     intro k hk
     simp only [leftoverCalls, List.mem_cons, List.mem_nil_iff, or_false] at hk
     rcases hk with rfl | rfl | rfl | rfl | rfl | rfl | rfl <;> trivial),
   by decide +kernel, by decide +kernel, ok_eq (by decide +kernel),
   (volMount demoConf false (volFormat demoConf leftoverVol).2).2, ok_eq (by decide +kernel), by decide +kernel⟩

end RedFs.Props.Format
