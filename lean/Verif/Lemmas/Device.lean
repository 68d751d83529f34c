import Verif.Spec.Device
set_option linter.unusedSimpArgs false
set_option linter.unusedVariables false
namespace RedFs.Device
open RedFs BlockIo M

variable {c : Conf} {inl ext : Bool} {vc : VConf} {os : Os} {s s' : St}

/-- The geometry in use fits the device and the configuration. -/
structure GeoOk (vc : VConf) (os : Os) (s : St) : Prop where
  blocks : s.blockCount * 2 ^ s.shift ≤ s.info.count
  nowrap : vc.offset + s.info.count ≤ 18446744073709551615
  is : vc.offset + s.info.count = endOf vc os
  dev : ∀ i, os.geo = .is i → vc.offset + s.info.count ≤ i.count

theorem geometry_ok {d : Dev} {g : Geom} (h : initGeometry c inl ext d = .ok g) :
    g.blockCount * 2 ^ g.shift ≤ d.sectorCount ∧ d.sectorOffset + d.sectorCount ≤ 18446744073709551615 := by
  unfold initGeometry at h
  split at h
  · cases h
  next h1 =>
  dsimp only at h
  split at h
  · cases h
  next h2 =>
  have hg : g.blockCount = u32 (d.sectorCount >>> shiftLoop d.sectorSize c.blockSize 16 0) ∧ g.shift = shiftLoop d.sectorSize c.blockSize 16 0 := by
    split at h
    · cases h
    split at h
    · cases h
    generalize (if decide (sub32 (u32 (d.sectorCount >>> shiftLoop d.sectorSize c.blockSize 16 0)) 3 ≤ c.mrEntries) = true then 3 else _) = tb at h
    split at h
    · cases h
    injection h with h
    subst h; exact ⟨rfl, rfl⟩
  rw [hg.1, hg.2]
  generalize hk : shiftLoop d.sectorSize c.blockSize 16 0 = k at *
  have hle : u32 (d.sectorCount >>> k) ≤ d.sectorCount / 2 ^ k := by
    rw [Nat.shiftRight_eq_div_pow]; exact Nat.mod_le _ _
  have hm : u32 (d.sectorCount >>> k) * 2 ^ k ≤ d.sectorCount :=
    Nat.le_trans (Nat.mul_le_mul_right _ hle) (Nat.div_mul_le_self _ _)
  refine ⟨hm, ?_⟩
  by_cases hz : d.sectorCount = 0
  · exfalso; apply h2; rw [hz]; simp [u32]
  · omega

/-- Only the log has changed. -/
def OnlyLog (s s' : St) : Prop := s' = { s with log := s'.log }

theorem OnlyLog.refl : OnlyLog s s := rfl
theorem OnlyLog.trans {s1 s2 : St} (a : OnlyLog s s1) (b : OnlyLog s1 s2) : OnlyLog s s2 := by
  unfold OnlyLog at *; rw [b, a]
theorem OnlyLog.geo (a : OnlyLog s s') (h : GeoOk vc os s) : GeoOk vc os s' := by
  rw [a]; exact ⟨h.blocks, h.nowrap, h.is, h.dev⟩

theorem osCall_run (op : OsOp) (s : St) : (osCall os op s).1 = os.status s.log.length op ∧
    (osCall os op s).2 = { s with log := s.log ++ [(op, (os.status s.log.length op).toBool)] } := ⟨rfl, rfl⟩

/-- `m` keeps the device open as it is, and changes nothing but the log. -/
def Keeps (vc : VConf) (os : Os) (rw : Bool) (m : DM Unit) : Prop :=
  ∀ s, GeoOk vc os s → Orderly vc os s.log (some rw) → OnlyLog s (m s).2 ∧ Orderly vc os (m s).2.log (some rw)

theorem Keeps.pure {rw : Bool} : Keeps vc os rw (pure ()) := fun s _ h => ⟨rfl, h⟩

theorem retry_keeps {rw : Bool} {m : DM Unit} (h : Keeps vc os rw m) : ∀ n, Keeps vc os rw (retry m n)
  | 0 => h
  | n + 1 => by
    intro s hg ho
    obtain ⟨h1, h2⟩ := h s hg ho
    unfold retry
    simp only [run_bind, run_attempt]
    cases hr : (m s).1 with
    | ok u => exact ⟨h1, h2⟩
    | error e =>
      obtain ⟨h3, h4⟩ := retry_keeps h n (m s).2 (h1.geo hg) h2
      exact ⟨h1.trans h3, h4⟩

/-- A request for blocks of the volume is a request for sectors of the volume. -/
theorem xfer_inside (hg : GeoOk vc os s) {start count : Nat} (h1 : start < s.blockCount)
    (hv : rangeValid (ioVol vc s) ⟨u64 (u64 (start <<< s.shift) + vc.offset), u32 (count <<< s.shift)⟩ = true) :
    Inside vc os ⟨u64 (u64 (start <<< s.shift) + vc.offset), u32 (count <<< s.shift)⟩ := by
  have hlt : start * 2 ^ s.shift ≤ s.info.count :=
    Nat.le_trans (Nat.mul_le_mul_right _ (Nat.le_of_lt h1)) hg.blocks
  have hnw := hg.nowrap
  have e1 : u64 (start <<< s.shift) = start * 2 ^ s.shift := by
    rw [Nat.shiftLeft_eq]; exact Nat.mod_eq_of_lt (by omega)
  have e2 : u64 (start * 2 ^ s.shift + vc.offset) = start * 2 ^ s.shift + vc.offset := Nat.mod_eq_of_lt (by omega)
  rw [e1, e2] at hv ⊢
  simp only [rangeValid, ioVol, Bool.and_eq_true, decide_eq_true_eq] at hv
  obtain ⟨g1, g2⟩ := hv
  have g1 := of_decide_eq_true g1
  have g2 : u32 (count <<< s.shift) ≤ u64 (vc.offset + s.info.count + (18446744073709551616 - (start * 2 ^ s.shift + vc.offset))) := of_decide_eq_true g2
  have e3 : u64 (vc.offset + s.info.count + (18446744073709551616 - (start * 2 ^ s.shift + vc.offset))) = s.info.count - start * 2 ^ s.shift := by
    unfold u64
    have : vc.offset + s.info.count + (18446744073709551616 - (start * 2 ^ s.shift + vc.offset)) =
        (s.info.count - start * 2 ^ s.shift) + 18446744073709551616 := by omega
    rw [this, Nat.add_mod_right]; exact Nat.mod_eq_of_lt (by omega)
  rw [e3] at g2
  have := hg.is
  refine ⟨g1, by dsimp only; omega, fun i hi => ?_⟩
  have := hg.dev i hi
  dsimp only; omega

theorem act_keeps {rw : Bool} {a : Act} (ha : rw = false → a.Reads) : Keeps vc os rw (act vc os a) := by
  have xf : ∀ (w : Bool) (start count : Nat), (w = true → rw = true) → Keeps vc os rw (ioXfer vc os w start count) := by
    intro w start count hw s hg ho
    unfold ioXfer
    simp only [run_bind, run_get]
    split
    · exact ⟨rfl, ho⟩
    next hr =>
    have hst : start < s.blockCount := by omega
    -- the loop keeps the state but for the log
    have key : ∀ n, ∀ t, OnlyLog s t → Orderly vc os t.log (some rw) →
        let q := retry (bdevXfer vc os w ⟨u64 (u64 (start <<< s.shift) + vc.offset), u32 (count <<< s.shift)⟩) n t
        OnlyLog s q.2 ∧ Orderly vc os q.2.log (some rw) := by
      have one : ∀ t, OnlyLog s t → Orderly vc os t.log (some rw) →
          let q := bdevXfer vc os w ⟨u64 (u64 (start <<< s.shift) + vc.offset), u32 (count <<< s.shift)⟩ t
          OnlyLog s q.2 ∧ Orderly vc os q.2.log (some rw) := by
        intro t ht hto
        have hgt := ht.geo hg
        have hsh : t.shift = s.shift := by rw [ht]
        have hbc : t.blockCount = s.blockCount := by rw [ht]
        unfold bdevXfer
        simp only [run_bind, run_get]
        split
        · next hv =>
          rw [← hsh] at hv ⊢
          have hin := xfer_inside hgt (by omega) hv
          refine ⟨ht.trans (by exact rfl), ?_⟩
          cases w with
          | false => exact .snoc hto (.read _ _ _ hin)
          | true =>
            have hrw := hw rfl
            subst hrw
            exact .snoc hto (.write _ _ hin)
        · exact ⟨ht, hto⟩
      intro n
      induction n with
      | zero => intro t ht hto; exact one t ht hto
      | succ n ih =>
        intro t ht hto
        obtain ⟨h1, h2⟩ := one t ht hto
        unfold retry
        simp only [run_bind, run_attempt]
        generalize bdevXfer vc os w ⟨u64 (u64 (start <<< s.shift) + vc.offset), u32 (count <<< s.shift)⟩ t = q at h1 h2 ⊢
        obtain ⟨q1, q2⟩ := q
        cases q1 with
        | ok u => exact ⟨h1, h2⟩
        | error e => exact ih q2 h1 h2
    exact key _ s rfl ho
  cases a with
  | read start count => exact xf false start count (fun h => by cases h)
  | write start count => exact xf true start count (fun _ => by cases rw <;> first | rfl | exact (ha rfl).elim)
  | flush =>
    refine retry_keeps ?_ _
    intro s hg ho
    refine ⟨rfl, ?_⟩
    cases rw with
    | false => exact (ha rfl).elim
    | true => exact .snoc ho (.flush _)

theorem acts_keeps {rw : Bool} : ∀ {l : List Act}, (rw = false → ∀ a ∈ l, a.Reads) → Keeps vc os rw (acts vc os l)
  | [], _ => Keeps.pure
  | a :: l, h => by
    intro s hg ho
    obtain ⟨h1, h2⟩ := act_keeps (vc := vc) (os := os) (rw := rw) (a := a) (fun e => h e a (List.mem_cons_self ..)) s hg ho
    obtain ⟨h3, h4⟩ := acts_keeps (l := l) (fun e b hb => h e b (List.mem_cons_of_mem _ hb)) _ (h1.geo hg) h2
    unfold acts
    simp only [run_bind, run_attempt]
    exact ⟨h1.trans h3, h4⟩

theorem acts_ok : ∀ (l : List Act) (s : St), (acts vc os l s).1 = .ok ()
  | [], _ => rfl
  | a :: l, s => by unfold acts; simp only [run_bind, run_attempt]; exact acts_ok l _

/-- The geometry found by `RedBDevOpen`. -/
structure InfoOk (vc : VConf) (os : Os) (s : St) : Prop where
  is : vc.offset + s.info.count ≤ 18446744073709551615 → vc.offset + s.info.count = endOf vc os
  dev : vc.offset + s.info.count ≤ 18446744073709551615 → ∀ i, os.geo = .is i → vc.offset + s.info.count ≤ i.count

theorem bdevGeometry_spec {rw : Bool} (ho : Orderly vc os s.log (some rw)) :
    let q := bdevGeometry vc os s
    Orderly vc os q.2.log (some rw) ∧ q.2.mounted = s.mounted ∧ q.2.readOnly = s.readOnly ∧ (q.1 = .ok () → InfoOk vc os q.2) := by
  unfold bdevGeometry
  split
  · next ha =>
    simp only [run_bind, osGeometry]
    cases hgeo : os.geo with
    | is i =>
      simp only
      have ho' : Orderly vc os (s.log ++ [(.geometry, true)]) (some rw) := .snoc ho (.geometry _ _)
      split
      · exact ⟨ho', rfl, rfl, fun h => by cases h⟩
      next h1 =>
      split
      · exact ⟨ho', rfl, rfl, fun h => by cases h⟩
      next h2 =>
      split
      · exact ⟨ho', rfl, rfl, fun h => by cases h⟩
      next h3 =>
      refine ⟨ho', rfl, rfl, fun _ => ⟨fun _ => ?_, fun _ j hj => ?_⟩⟩
      · show vc.offset + (i.count - vc.offset) = _
        unfold endOf
        rw [if_neg (by omega), hgeo]; dsimp only; omega
      · show vc.offset + (i.count - vc.offset) ≤ _
        rw [hgeo] at hj; injection hj with hj; subst hj; omega
    | notsupp => exact ⟨.snoc ho (.geometry _ _), rfl, rfl, fun h => by cases h⟩
    | failed e => exact ⟨.snoc ho (.geometry _ _), rfl, rfl, fun h => by cases h⟩
  · next ha =>
    simp only [run_bind, run_modify, osGeometry]
    have hend : endOf vc os = vc.offset + vc.secCount := by unfold endOf; rw [if_pos (by omega)]
    cases hgeo : os.geo with
    | is i =>
      simp only [run_bind, run_get]
      have ho' : Orderly vc os (s.log ++ [(.geometry, true)]) (some rw) := .snoc ho (.geometry _ _)
      split
      · next h1 =>
        refine ⟨ho', rfl, rfl, fun _ => ⟨fun _ => hend.symm, fun hn j hj => ?_⟩⟩
        rw [hgeo] at hj; injection hj with hj; subst hj
        have h2 : u64 (vc.offset + vc.secCount) ≤ i.count := h1.2
        have hn : vc.offset + vc.secCount ≤ 18446744073709551615 := hn
        show vc.offset + vc.secCount ≤ i.count
        rw [u64, Nat.mod_eq_of_lt (by omega)] at h2; exact h2
      · exact ⟨ho', rfl, rfl, fun h => by cases h⟩
    | notsupp =>
      refine ⟨.snoc ho (.geometry _ _), rfl, rfl, fun _ => ⟨fun _ => hend.symm, fun hn j hj => ?_⟩⟩
      rw [hgeo] at hj; cases hj
    | failed e => exact ⟨.snoc ho (.geometry _ _), rfl, rfl, fun h => by cases h⟩

theorem bdevOpen_spec (rw : Bool) (ho : Orderly vc os s.log none) :
    let q := bdevOpen vc os rw s
    q.2.mounted = s.mounted ∧ q.2.readOnly = s.readOnly ∧
    ((q.1 = .ok () ∧ Orderly vc os q.2.log (some rw) ∧ InfoOk vc os q.2) ∨ (∃ e, q.1 = .error e) ∧ Orderly vc os q.2.log none) := by
  unfold bdevOpen
  simp only [run_bind, osCall]
  cases h0 : os.status s.log.length (.opened rw) with
  | error e =>
    exact ⟨rfl, rfl, Or.inr ⟨⟨_, rfl⟩, .snoc ho (.openFails _)⟩⟩
  | ok u =>
    simp only [run_attempt]
    have ho' : Orderly vc os (s.log ++ [(.opened rw, true)]) (some rw) := .snoc ho (.opened _)
    have sp := bdevGeometry_spec (vc := vc) (os := os) (s := { s with log := s.log ++ [(.opened rw, true)] }) ho'
    simp only [Except.toBool]
    generalize bdevGeometry vc os { s with log := s.log ++ [(.opened rw, true)] } = q at sp ⊢
    obtain ⟨q1, q2⟩ := q
    obtain ⟨s1, s2, s3, s4⟩ := sp
    cases q1 with
    | ok u => exact ⟨s2, s3, Or.inl ⟨rfl, s1, s4 rfl⟩⟩
    | error e =>
      refine ⟨s2, s3, Or.inr ⟨⟨e, rfl⟩, ?_⟩⟩
      exact .snoc s1 (.closed _ _)

theorem volGeometry_spec (hi : InfoOk vc os s) :
    let q := volGeometry c inl ext vc s
    q.2.log = s.log ∧ q.2.mounted = s.mounted ∧ q.2.readOnly = s.readOnly ∧ (q.1 = .ok () → GeoOk vc os q.2) := by
  unfold volGeometry
  simp only [run_bind, run_get]
  cases hg : initGeometry c inl ext ⟨s.info.size, s.info.count, vc.offset⟩ with
  | error e => exact ⟨rfl, rfl, rfl, fun h => by cases h⟩
  | ok g =>
    obtain ⟨h1, h2⟩ := geometry_ok hg
    exact ⟨rfl, rfl, rfl, fun _ => ⟨h1, h2, hi.is h2, hi.dev h2⟩⟩

/-- What holds between calls. -/
structure DInv (vc : VConf) (os : Os) (s : St) : Prop where
  up : s.mounted = true → GeoOk vc os s ∧ ∃ rw, Orderly vc os s.log (some rw) ∧ (rw = false → s.readOnly = true)
  down : s.mounted = false → Orderly vc os s.log none

theorem step_inv (h : DInv vc os s) {e : Ev} (ha : e.Allowed s) : DInv vc os (step c inl ext vc os e s).2 := by
  have use : ∀ l, (s.readOnly = true → ∀ a ∈ l, Act.Reads a) → s.mounted = true →
      ∃ rw, OnlyLog s (acts vc os l s).2 ∧ Orderly vc os (acts vc os l s).2.log (some rw) ∧ (rw = false → s.readOnly = true) ∧ (acts vc os l s).1 = .ok () := by
    intro l hl hm
    obtain ⟨hg, rw, ho, hrw⟩ := h.up hm
    obtain ⟨h1, h2⟩ := acts_keeps (rw := rw) (l := l) (fun e => hl (hrw e)) s hg ho
    refine ⟨rw, h1, h2, hrw, ?_⟩
    exact acts_ok l s
  cases e with
  | mount ro l ok =>
    unfold step mount
    simp only [run_bind, run_get]
    split
    · exact h
    next hm =>
    have hm : s.mounted = false := by simpa using hm
    obtain ⟨o1, o2, o3⟩ := bdevOpen_spec (vc := vc) (os := os) (!ro) (h.down hm)
    simp only [run_bind]
    generalize bdevOpen vc os (!ro) s = q at o1 o2 o3 ⊢
    obtain ⟨q1, t⟩ := q
    rcases o3 with ⟨rfl, o4, o5⟩ | ⟨⟨e, rfl⟩, o4⟩
    · simp only [run_attempt, run_bind]
      obtain ⟨g1, g2, g3, g4⟩ := volGeometry_spec (c := c) (inl := inl) (ext := ext) o5
      generalize volGeometry c inl ext vc t = p at g1 g2 g3 g4 ⊢
      obtain ⟨p1, u⟩ := p
      have hou : Orderly vc os u.log (some (!ro)) := by simp only at g1; rw [g1]; exact o4
      have hmu : u.mounted = false := by rw [g2, o1, hm]
      cases p1 with
      | error e =>
        simp only [bdevClose, osCall]
        exact ⟨fun h => (by have h : u.mounted = true := h; rw [hmu] at h; cases h), fun _ => .snoc hou (.closed _ _)⟩
      | ok _ =>
        have hgu := g4 rfl
        obtain ⟨a1, a2⟩ := acts_keeps (rw := !ro) (l := l) (fun _ => ha) u hgu hou
        have a3 : (acts vc os l u).1 = .ok () := by
          exact acts_ok l u
        simp only [run_bind]
        generalize acts vc os l u = w at a1 a2 a3 ⊢
        obtain ⟨w1, w2⟩ := w
        simp only at a1 a2 a3 ⊢
        subst a3
        have hgw := a1.geo hgu
        cases ok with
        | true =>
          simp only [if_true, run_pure, run_modify]
          refine ⟨fun _ => ⟨⟨hgw.blocks, hgw.nowrap, hgw.is, hgw.dev⟩, !ro, a2, fun hr => by simpa using hr⟩, fun h => by cases h⟩
        | false =>
          simp only [Bool.false_eq_true, if_false, run_fail, bdevClose, osCall]
          refine ⟨fun h => ?_, fun _ => .snoc a2 (.closed _ _)⟩
          have : w2.mounted = true := h
          rw [a1] at this
          rw [show ({ u with log := w2.log } : St).mounted = u.mounted from rfl, hmu] at this; cases this
    · simp only
      exact ⟨fun h => (by have h : t.mounted = true := h; rw [o1, hm] at h; cases h), fun _ => o4⟩
  | use l =>
    unfold step
    simp only [run_bind, run_get]
    split
    · next hm =>
      obtain ⟨rw, h1, h2, h3, _⟩ := use l ha hm
      refine ⟨fun _ => ⟨h1.geo (h.up hm).1, rw, h2, fun e => ?_⟩, fun hh => ?_⟩
      · rw [h1]; exact h3 e
      · rw [h1] at hh; rw [show ({ s with log := (acts vc os l s).2.log } : St).mounted = s.mounted from rfl, hm] at hh; cases hh
    · exact h
  | critical =>
    refine ⟨fun hm => ?_, fun hm => h.down hm⟩
    obtain ⟨hg, rw, ho, hrw⟩ := h.up hm
    exact ⟨⟨hg.blocks, hg.nowrap, hg.is, hg.dev⟩, rw, ho, fun _ => rfl⟩
  | unmount l ok =>
    unfold step unmount
    simp only [run_bind, run_get]
    split
    · next hm =>
      simp only [run_bind]
      obtain ⟨rw, h1, h2, h3, h4⟩ := use l ha hm
      have hg := h1.geo (h.up hm).1
      generalize acts vc os l s = w at h1 h2 h4 hg ⊢
      obtain ⟨w1, t⟩ := w
      simp only at h1 h2 h4 hg ⊢
      subst h4
      simp only
      have hmt : t.mounted = true := by rw [h1]; exact hm
      have hrt : rw = false → t.readOnly = true := by rw [h1]; exact h3
      cases ok with
      | false => exact ⟨fun _ => ⟨hg, rw, h2, hrt⟩, fun hh => by have hh : t.mounted = false := hh; rw [hmt] at hh; cases hh⟩
      | true =>
        simp only [if_true, run_bind, bdevClose, osCall]
        cases hcl : os.status t.log.length .closed with
        | ok u =>
          simp only [run_modify]
          exact ⟨fun hh => (by cases hh), fun _ => .snoc h2 (.closed _ _)⟩
        | error e =>
          simp only
          exact ⟨fun _ => ⟨⟨hg.blocks, hg.nowrap, hg.is, hg.dev⟩, rw, .snoc h2 (.closeFails _), hrt⟩,
            fun hh => by have hh : t.mounted = false := hh; rw [hmt] at hh; cases hh⟩
    · exact h
  | format l =>
    unfold step format
    simp only [run_bind, run_get]
    split
    · exact h
    next hm =>
    have hm : s.mounted = false := by simpa using hm
    obtain ⟨o1, o2, o3⟩ := bdevOpen_spec (vc := vc) (os := os) true (h.down hm)
    simp only [run_bind]
    generalize bdevOpen vc os true s = q at o1 o2 o3 ⊢
    obtain ⟨q1, t⟩ := q
    rcases o3 with ⟨rfl, o4, o5⟩ | ⟨⟨e, rfl⟩, o4⟩
    · simp only [run_attempt, run_bind, run_modify]
      have o5' : InfoOk vc os { t with readOnly := false } := ⟨o5.is, o5.dev⟩
      obtain ⟨g1, g2, g3, g4⟩ := volGeometry_spec (c := c) (inl := inl) (ext := ext) o5'
      generalize volGeometry c inl ext vc { t with readOnly := false } = p at g1 g2 g3 g4 ⊢
      obtain ⟨p1, u⟩ := p
      have hou : Orderly vc os u.log (some true) := by simp only at g1; rw [g1]; exact o4
      have hmu : u.mounted = false := by simp only at g2; rw [g2, o1, hm]
      cases p1 with
      | error e =>
        simp only [bdevClose, osCall]
        exact ⟨fun h => (by have h : u.mounted = true := h; rw [hmu] at h; cases h), fun _ => .snoc hou (.closed _ _)⟩
      | ok _ =>
        obtain ⟨a1, a2⟩ := acts_keeps (rw := true) (l := l) (fun h => by cases h) u (g4 rfl) hou
        simp only
        generalize acts vc os l u = w at a1 a2 ⊢
        obtain ⟨w1, w2⟩ := w
        simp only at a1 a2 ⊢
        have hmw : w2.mounted = false := by rw [a1]; exact hmu
        have fin : DInv vc os (osCall os .closed w2).2 :=
          ⟨fun h => (by have h : w2.mounted = true := h; rw [hmw] at h; cases h), fun _ => .snoc a2 (.closed _ _)⟩
        cases w1 with
        | ok u => exact fin
        | error e => exact fin
    · simp only
      exact ⟨fun h => (by have h : t.mounted = true := h; rw [o1, hm] at h; cases h), fun _ => o4⟩
  | init =>
    exact ⟨fun h => (by cases h), fun _ => h.down ha⟩

theorem reached_inv (h : Reached c inl ext vc os s) : DInv vc os s := by
  induction h with
  | init => exact ⟨fun h => (by cases h), fun _ => .nil⟩
  | step _ ha ih => exact step_inv ih ha

theorem Orderly.inside {l : List (OsOp × Bool)} {x : Option Bool} (h : Orderly vc os l x) {r : Req} {ok : Bool}
    (hm : (OsOp.write r, ok) ∈ l ∨ (OsOp.read r, ok) ∈ l) : Inside vc os r := by
  induction h with
  | nil => simp at hm
  | snoc h n ih =>
    simp only [List.mem_append, List.mem_singleton] at hm
    rcases hm with (hm | hm) | (hm | hm)
    · exact ih (Or.inl hm)
    · subst hm; cases n; assumption
    · exact ih (Or.inr hm)
    · subst hm; cases n; assumption

end RedFs.Device
