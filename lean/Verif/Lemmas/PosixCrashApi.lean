import Verif.Lemmas.PosixCrash
import Verif.Spec.PosixCrash
set_option linter.unusedSimpArgs false
set_option linter.unusedVariables false
set_option linter.unusedSectionVars false
/-!
Every call of the POSIX API changes the state of a volume at most once.
-/
namespace RedFs.Posix
open M Str Path

/-- Every volume is in a state that can be reached. -/
structure Good (pc : PConf) (s : PSt) : Prop where
  cur : s.cur < pc.n
  reach : ∀ i, i < pc.n → Reach (pc.conf i) (s.vols i)

/-- How the volumes evolve. -/
def PEvo (z : Option (Event → Prop)) (pc : PConf) (b : Bool) (s s' : PSt) : Prop := ∀ i, i < pc.n → Evo z (pc.conf i) b (s.vols i) (s'.vols i)

def PCalm {α : Type} (z : Option (Event → Prop)) (pc : PConf) (m : PM α) (P : α → Prop) : Prop :=
  ∀ s r s', Good pc s → m s = (r, s') → Good pc s' ∧ PEvo z pc false s s' ∧ ∀ a, r = .ok a → P a
def POnce {α : Type} (z : Option (Event → Prop)) (pc : PConf) (m : PM α) : Prop := ∀ s r s', Good pc s → m s = (r, s') → Good pc s' ∧ PEvo z pc true s s'

section
variable {z : Option (Event → Prop)} {α β : Type} {pc : PConf} {P : α → Prop} {Q : β → Prop} {s s' s'' : PSt} {b : Bool} {t : Nat}

theorem PEvo.refl (h : Good pc s) : PEvo z pc b s s := fun i hi => .refl (h.reach i hi)
theorem PEvo.weak (h : PEvo z pc b s s') : PEvo z pc true s s' := fun i hi => (h i hi).weak
theorem PEvo.trans {b1 b2 : Bool} (h1 : PEvo z pc b1 s s') (h2 : PEvo z pc b2 s' s'') (hb : (b1 && b2) = false) : PEvo z pc (b1 || b2) s s'' :=
  fun i hi => (h1 i hi).trans (h2 i hi) hb

theorem pcalm_pure (a : α) (h : P a) : PCalm z pc (pure a : PM α) P := by
  intro s r s' hr e
  obtain ⟨rfl, rfl⟩ := Prod.mk.inj e
  exact ⟨hr, .refl hr, fun b hb => by rw [← Except.ok.inj hb]; exact h⟩
theorem pcalm_fail (e : Err) : PCalm z pc (fail e : PM α) P := by
  intro s r s' hr e
  obtain ⟨rfl, rfl⟩ := Prod.mk.inj e
  exact ⟨hr, .refl hr, fun b hb => by cases hb⟩
theorem pcalm_ofExcept (r : Except Err α) : PCalm z pc (ofExcept r : PM α) (fun _ => True) := by
  intro s r s' hr e
  obtain ⟨rfl, rfl⟩ := Prod.mk.inj e
  exact ⟨hr, .refl hr, fun _ _ => trivial⟩
theorem pcalm_curVol : PCalm z pc curVol (fun _ => True) := by
  intro s r s' hr e
  obtain ⟨rfl, rfl⟩ := Prod.mk.inj e
  exact ⟨hr, .refl hr, fun _ _ => trivial⟩
theorem pcalm_get {f : PSt → PM β} (h : ∀ s, PCalm z pc (f s) Q) : PCalm z pc (get >>= f) Q := fun s r s' hr e => h s s r s' hr e
theorem ponce_get {f : PSt → PM β} (h : ∀ s, POnce z pc (f s)) : POnce z pc (get >>= f) := fun s r s' hr e => h s s r s' hr e
theorem pcalm_modify {f : PSt → PSt} (h : ∀ s, (f s).vols = s.vols) (h1 : ∀ s, (f s).cur = s.cur) : PCalm z pc (modify f) (fun _ => True) := by
  intro s r s' hr e
  obtain ⟨rfl, rfl⟩ := Prod.mk.inj e
  refine ⟨⟨by rw [h1]; exact hr.cur, fun i hi => by rw [h]; exact hr.reach i hi⟩, fun i hi => ?_, fun _ _ => trivial⟩
  rw [h]; exact .refl (hr.reach i hi)
theorem pcalm_setCur (i : Nat) : PCalm z pc (setCur pc i) (fun _ => True) := by
  unfold setCur
  split
  · exact pcalm_fail _
  · next h =>
    intro s r s' hr e
    obtain ⟨rfl, rfl⟩ := Prod.mk.inj e
    exact ⟨⟨by show i < pc.n; omega, hr.reach⟩, fun j hj => .refl (hr.reach j hj), fun _ _ => trivial⟩

theorem pcalm_bind {m : PM α} {f : α → PM β} (h : PCalm z pc m P) (hf : ∀ a, P a → PCalm z pc (f a) Q) : PCalm z pc (m >>= f) Q := by
  intro s r s' hr e
  rw [run_bind] at e
  rcases hx : m s with ⟨x | a, s1⟩
  · rw [hx] at e; obtain ⟨rfl, rfl⟩ := Prod.mk.inj e
    obtain ⟨h1, h2, _⟩ := h _ _ _ hr hx
    exact ⟨h1, h2, fun b hb => by cases hb⟩
  · rw [hx] at e
    obtain ⟨h1, h2, h3⟩ := h _ _ _ hr hx
    obtain ⟨h4, h5, h6⟩ := hf a (h3 a rfl) _ _ _ h1 e
    exact ⟨h4, h2.trans h5 rfl, h6⟩
theorem ponce_bind {m : PM α} {f : α → PM β} (h : PCalm z pc m P) (hf : ∀ a, P a → POnce z pc (f a)) : POnce z pc (m >>= f) := by
  intro s r s' hr e
  rw [run_bind] at e
  rcases hx : m s with ⟨x | a, s1⟩
  · rw [hx] at e; obtain ⟨rfl, rfl⟩ := Prod.mk.inj e
    obtain ⟨h1, h2, _⟩ := h _ _ _ hr hx
    exact ⟨h1, h2.weak⟩
  · rw [hx] at e
    obtain ⟨h1, h2, h3⟩ := h _ _ _ hr hx
    obtain ⟨h4, h5⟩ := hf a (h3 a rfl) _ _ _ h1 e
    exact ⟨h4, h2.trans h5 rfl⟩
theorem ponce_then {m : PM α} {f : α → PM β} (h : POnce z pc m) (hf : ∀ a, PCalm z pc (f a) Q) : POnce z pc (m >>= f) := by
  intro s r s' hr e
  rw [run_bind] at e
  rcases hx : m s with ⟨x | a, s1⟩
  · rw [hx] at e; obtain ⟨rfl, rfl⟩ := Prod.mk.inj e
    exact h _ _ _ hr hx
  · rw [hx] at e
    obtain ⟨h1, h2⟩ := h _ _ _ hr hx
    obtain ⟨h4, h5, _⟩ := hf a _ _ _ h1 e
    exact ⟨h4, h2.trans h5 rfl⟩
/-- Whether the first part has changed something is seen from its result. -/
theorem ponce_mix {m : PM α} {f : α → PM β} (h : ∀ s r s', Good pc s → m s = (r, s') → Good pc s' ∧ PEvo z pc true s s' ∧ ∀ a, r = .ok a → P a → PEvo z pc false s s')
    (h1 : ∀ a, P a → POnce z pc (f a)) (h2 : ∀ a, ¬ P a → PCalm z pc (f a) (fun _ => True)) : POnce z pc (m >>= f) := by
  intro s r s' hr e
  rw [run_bind] at e
  rcases hx : m s with ⟨x | a, s1⟩
  · rw [hx] at e; obtain ⟨rfl, rfl⟩ := Prod.mk.inj e
    exact ⟨(h _ _ _ hr hx).1, (h _ _ _ hr hx).2.1⟩
  · rw [hx] at e
    obtain ⟨h3, h4, h5⟩ := h _ _ _ hr hx
    by_cases hP : P a
    · obtain ⟨g1, g2⟩ := h1 a hP _ _ _ h3 e
      exact ⟨g1, (h5 a rfl hP).trans g2 rfl⟩
    · obtain ⟨g1, g2, _⟩ := h2 a hP _ _ _ h3 e
      exact ⟨g1, h4.trans g2 rfl⟩
theorem PCalm.once {m : PM α} (h : PCalm z pc m P) : POnce z pc m := fun s r s' hr e => ⟨(h s r s' hr e).1, (h s r s' hr e).2.1.weak⟩
theorem PCalm.mono {m : PM α} {P' : α → Prop} (h : PCalm z pc m P) (hp : ∀ a, P a → P' a) : PCalm z pc m P' :=
  fun s r s' hr e => ⟨(h s r s' hr e).1, (h s r s' hr e).2.1, fun a ha => hp a ((h s r s' hr e).2.2 a ha)⟩
theorem PCalm.any {m : PM α} (h : PCalm z pc m P) : PCalm z pc m (fun _ => True) := h.mono fun _ _ => trivial
theorem pcalm_attempt {m : PM α} (h : PCalm z pc m P) : PCalm z pc (attempt m) (fun r => ∀ a, r = .ok a → P a) := by
  intro s r s' hr e
  obtain ⟨rfl, rfl⟩ := Prod.mk.inj e
  obtain ⟨h1, h2, h3⟩ := h s _ _ hr rfl
  exact ⟨h1, h2, fun a ha b hb => h3 b (by rw [← Except.ok.inj ha] at hb; exact hb)⟩

theorem good_upd (h : Good pc s) {v' : Vol} (he : Reach (pc.conf s.cur) v') : Good pc { s with vols := upd s.vols s.cur v' } := by
  refine ⟨h.cur, fun i hi => ?_⟩
  show Reach _ (upd s.vols s.cur v' i)
  unfold upd; split
  · next h => rw [h]; exact he
  · exact h.reach i hi
theorem evo_upd (h : Good pc s) {v' : Vol} (he : Evo z (pc.conf s.cur) b (s.vols s.cur) v') : PEvo z pc b s { s with vols := upd s.vols s.cur v' } := by
  intro i hi
  show Evo z _ _ _ (upd s.vols s.cur v' i)
  unfold upd; split
  · next h => rw [h]; exact he
  · exact .refl (h.reach i hi)

theorem pcalm_onCur {m : Conf → VM α} (h : ∀ i, i < pc.n → VCalm z (pc.conf i) (m (pc.conf i)) P) : PCalm z pc (onCur pc m) P := by
  intro s r s' hr e
  obtain ⟨rfl, rfl⟩ := Prod.mk.inj e
  obtain ⟨h1, h2⟩ := h s.cur hr.cur _ _ _ (hr.reach _ hr.cur) rfl
  exact ⟨good_upd hr h1.reach, evo_upd hr h1, h2⟩
theorem ponce_onCur {m : Conf → VM α} (h : ∀ i, i < pc.n → VOnce z (pc.conf i) (m (pc.conf i))) : POnce z pc (onCur pc m) := by
  intro s r s' hr e
  obtain ⟨rfl, rfl⟩ := Prod.mk.inj e
  have h1 := h s.cur hr.cur _ _ _ (hr.reach _ hr.cur) rfl
  exact ⟨good_upd hr h1.reach, evo_upd hr h1⟩

theorem pcalm_modeTypeCheck (mode : Nat) (ty : FType) : PCalm z pc (modeTypeCheck mode ty : PM Unit) (fun _ => True) := by
  unfold modeTypeCheck
  split
  · exact pcalm_fail _
  · split
    · exact pcalm_fail _
    · exact pcalm_pure _ trivial
theorem pcalm_prefixLookup (path : List Byte) : PCalm z pc (prefixLookup pc path) (fun _ => True) := by
  unfold prefixLookup
  split
  · exact pcalm_fail _
  · exact pcalm_bind (pcalm_setCur _) fun _ _ => pcalm_pure _ trivial
theorem pcalm_volumeLookup (path : List Byte) : PCalm z pc (volumeLookup pc path) (fun _ => True) := by
  unfold volumeLookup
  refine pcalm_bind (pcalm_prefixLookup path) fun _ _ => pcalm_get fun s => ?_
  dsimp only
  split
  · exact pcalm_fail _
  · exact pcalm_pure _ trivial
theorem pcalm_cwdSlot : PCalm z pc (cwdSlot pc t) (fun _ => True) := by
  unfold cwdSlot
  split
  · exact pcalm_pure _ trivial
  · refine pcalm_get fun s => ?_
    split
    · exact pcalm_pure _ trivial
    · exact pcalm_fail _
theorem pcalm_startingPoint (path : List Byte) (hp : CStr.Ok path) : PCalm z pc (startingPoint pc t path) (fun x => CStr.Ok x.2.2) := by
  unfold startingPoint
  refine pcalm_bind (pcalm_attempt (pcalm_prefixLookup path)) fun r _ => pcalm_get fun s => ?_
  cases r with
  | error e =>
    dsimp only
    split
    · exact pcalm_bind pcalm_cwdSlot fun i _ => pcalm_bind (pcalm_setCur _) fun _ _ => pcalm_pure _ hp
    · exact pcalm_fail _
  | ok i =>
    dsimp only
    split
    · exact pcalm_bind pcalm_cwdSlot fun i _ => pcalm_bind (pcalm_setCur _) fun _ _ => pcalm_pure _ hp
    · exact pcalm_pure _ (drop_ok hp _)
theorem pcalm_fildesToHandle (fd : Int) (ty : FType) : PCalm z pc (fildesToHandle pc fd ty) (fun _ => True) := by
  intro s r s' hr e
  have : s' = s := by
    unfold fildesToHandle at e; dsimp only at e
    repeat' split at e
    all_goals exact (Prod.mk.inj e).2.symm
  subst this
  exact ⟨hr, .refl hr, fun _ _ => trivial⟩

variable (hc : pc.Ok)
include hc

theorem pcalm_inodeUnlinkCheck (ino : Nat) : PCalm z pc (inodeUnlinkCheck pc ino) (fun _ => True) := by
  unfold inodeUnlinkCheck
  refine pcalm_bind (pcalm_onCur fun i hi => vcalm_stat (hc.sys i hi) (hc.posix i hi) ino) fun st _ => pcalm_get fun s => ?_
  split
  · split
    · exact pcalm_fail _
    · split
      · exact pcalm_fail _
      · exact pcalm_pure _ trivial
  · exact pcalm_pure _ trivial

theorem pcalm_stat (ino : Nat) : PCalm z pc (onCur pc fun c => coreStat c ino) (fun _ => True) :=
  pcalm_onCur fun i hi => vcalm_stat (hc.sys i hi) (hc.posix i hi) ino
theorem pcalm_lookup (p : Nat) (nm : List Byte) (hn : CStr.Ok nm) : PCalm z pc (onCur pc fun c => coreLookup c p nm) (fun _ => True) :=
  pcalm_onCur fun i hi => vcalm_lookup (hc.sys i hi) (hc.posix i hi) p nm hn
theorem pcalm_toName (st : Nat) (lp : List Byte) (e : Err) (hn : CStr.Ok lp) : PCalm z pc (onCur pc fun c => pathToName c pc.cwd st lp e) (fun x => CStr.Ok x.2) :=
  pcalm_onCur fun i hi => vcalm_pathToName (hc.sys i hi) (hc.posix i hi) _ _ _ _ hn
theorem pcalm_pathLookup (st : Nat) (lp : List Byte) (hn : CStr.Ok lp) : PCalm z pc (onCur pc fun c => pathLookup c pc.cwd st lp) (fun _ => True) :=
  pcalm_onCur fun i hi => vcalm_pathLookup (hc.sys i hi) (hc.posix i hi) _ _ _ hn
theorem pcalm_transact : PCalm none pc (onCur pc fun _ => coreVolTransact) (fun _ => True) :=
  pcalm_onCur fun i hi => vcalm_transact (hc.sys i hi) (hc.posix i hi)

theorem ponce_unlinkSub (path : List Byte) (ty : FType) (hp : CStr.Ok path) (hz : Allow z .unlink) : POnce z pc (unlinkSub pc t path ty) := by
  unfold unlinkSub
  refine ponce_bind (pcalm_startingPoint path hp) fun x hx => ?_
  obtain ⟨vol, st, lp⟩ := x
  refine ponce_bind (pcalm_toName hc st lp _ hx) fun y hy => ?_
  obtain ⟨pino, name⟩ := y
  dsimp only
  refine ponce_bind (pcalm_lookup hc _ _ hy) fun ino _ => ?_
  have fin : POnce z pc (do inodeUnlinkCheck pc ino; onCur pc fun c => coreUnlink c pino name) :=
    ponce_bind (pcalm_inodeUnlinkCheck hc _) fun _ _ => ponce_onCur fun i hi => vonce_unlink (hc.sys i hi) (hc.posix i hi) _ _ hy hz
  split
  · exact ponce_bind (pcalm_stat hc _) fun st _ => ponce_bind (pcalm_modeTypeCheck _ _) fun _ _ => fin
  · exact fin

theorem ponce_create (pino : Nat) (name : List Byte) (d : Bool) (hn : CStr.Ok name) (hz : Allow z (if d then .mkdir else .creat)) : POnce z pc (onCur pc fun c => coreCreate c pino name d) :=
  ponce_onCur fun i hi => vonce_create (hc.sys i hi) (hc.posix i hi) _ _ _ hn hz

theorem open_find (st : Nat) (lp : List Byte) (mode : Nat) (hn : CStr.Ok lp) (hz : has mode oCreat = true → Allow z .creat) (s : PSt) (r : Except Err (Nat × Bool)) (s' : PSt) (hg : Good pc s)
    (e : (if has mode oCreat then do
          let (pino, name) ← onCur pc fun c => pathToName c pc.cwd st lp .eisdir
          match ← attempt (onCur pc fun c => coreCreate c pino name false) with
          | .ok i => pure (i, true)
          | .error e =>
            if e = .eexist ∧ has mode oExcl = false then do
              let i ← onCur pc fun c => coreLookup c pino name
              pure (i, false)
            else fail e
        else do
          let i ← onCur pc fun c => pathLookup c pc.cwd st lp
          pure (i, false) : PM (Nat × Bool)) s = (r, s')) :
    Good pc s' ∧ PEvo z pc true s s' ∧ ∀ a, r = .ok a → a.2 = false → PEvo z pc false s s' := by
  split at e
  · next hcre =>
    rw [run_bind] at e
    rcases hx : onCur pc (fun c => pathToName c pc.cwd st lp .eisdir) s with ⟨x | ⟨pino, name⟩, s1⟩
    · rw [hx] at e; obtain ⟨rfl, rfl⟩ := Prod.mk.inj e
      obtain ⟨h1, h2, _⟩ := pcalm_toName hc st lp .eisdir hn s _ _ hg hx
      exact ⟨h1, h2.weak, fun a ha => by cases ha⟩
    · obtain ⟨h1, h2, h3⟩ := pcalm_toName hc st lp .eisdir hn s _ _ hg hx
      have hname : CStr.Ok name := h3 _ rfl
      rw [hx] at e; dsimp only at e
      rw [run_bind] at e
      have ea : attempt (onCur pc fun c => coreCreate c pino name false) s1 =
        (.ok (onCur pc (fun c => coreCreate c pino name false) s1).1, (onCur pc (fun c => coreCreate c pino name false) s1).2) := rfl
      rw [ea] at e; dsimp only at e
      rcases hy : onCur pc (fun c => coreCreate c pino name false) s1 with ⟨x | a, s2⟩
      · rw [hy] at e; dsimp only at e
        have hcr : Good pc s2 ∧ PEvo z pc false s1 s2 := by
          obtain ⟨e1, e2⟩ := Prod.mk.inj hy
          have h1' := not_created (z := z) (hc.sys _ h1.cur) (hc.posix _ h1.cur) pino name false hname (hz hcre) (h1.reach _ h1.cur) (Prod.ext e1 rfl)
          rw [← e2]
          exact ⟨good_upd h1 h1'.reach, evo_upd h1 h1'⟩
        have hcl : PCalm z pc (if x = .eexist ∧ has mode oExcl = false then do
              let i ← onCur pc fun c => coreLookup c pino name
              pure (i, false)
            else fail x : PM (Nat × Bool)) (fun _ => True) := by
          split
          · exact pcalm_bind (pcalm_lookup hc _ _ hname) fun _ _ => pcalm_pure _ trivial
          · exact pcalm_fail _
        obtain ⟨g1, g2, _⟩ := hcl _ _ _ hcr.1 e
        have := (h2.trans hcr.2 rfl).trans g2 rfl
        exact ⟨g1, this.weak, fun a ha hb => this⟩
      · rw [hy] at e; dsimp only at e
        obtain ⟨rfl, rfl⟩ := Prod.mk.inj e
        obtain ⟨g1, g2⟩ := ponce_create hc pino name false hname (hz hcre) _ _ _ h1 hy
        exact ⟨g1, h2.trans g2 rfl, fun b hb hb' => by rw [← Except.ok.inj hb] at hb'; cases hb'⟩
  · have := pcalm_bind (z := z) (Q := fun _ => True) (pcalm_pathLookup hc st lp hn) (f := fun i => (pure (i, false) : PM (Nat × Bool))) fun _ _ => pcalm_pure _ trivial
    obtain ⟨g1, g2, _⟩ := this _ _ _ hg e
    exact ⟨g1, g2.weak, fun _ _ _ => g2⟩

theorem ponce_fildesOpen (path : List Byte) (mode : Nat) (ty : FType) (hp : CStr.Ok path) (hz : has mode oCreat = true → Allow z .creat) (hz' : has mode oTrunc = true → Allow z .truncate) : POnce z pc (fildesOpen pc t path mode ty) := by
  unfold fildesOpen
  refine ponce_bind (pcalm_startingPoint path hp) fun x hx => ?_
  obtain ⟨vol, st, lp⟩ := x
  refine ponce_bind pcalm_curVol fun v _ => ?_
  split
  · exact (pcalm_fail (P := fun _ => True) _).once
  · refine ponce_get fun s => ?_
    split
    · exact (pcalm_fail (P := fun _ => True) _).once
    · next idx _ =>
      have tail : ∀ (ino m : Nat), PCalm z pc (do
          modify fun s => s.setHandle idx
            { ino := ino, vol := vol, dir := decide (m = modeDir), readable := has mode oRdonly || has mode oRdwr
              writeable := has mode oWronly || has mode oRdwr, appending := has mode oAppend, off := 0 }
          let s ← get
          match fildesPack pc idx vol s with
          | none => fail .efubar
          | some fd => pure fd : PM Int) (fun _ => True) := by
        intro ino m
        refine pcalm_bind (pcalm_modify (fun _ => rfl) (fun _ => rfl)) fun _ _ => pcalm_get fun s => ?_
        split
        · exact pcalm_fail _
        · exact pcalm_pure _ trivial
      refine ponce_mix (P := fun a : Nat × Bool => a.2 = false) (open_find hc st lp mode hx hz) ?_ ?_
      · rintro ⟨ino, created⟩ hcr
        replace hcr : created = false := hcr
        subst hcr
        dsimp only
        refine ponce_then ?_ fun m => tail ino m
        rw [if_neg (by decide)]
        refine ponce_bind (pcalm_stat hc _) fun st _ => ponce_bind (pcalm_modeTypeCheck _ _) fun _ _ => ?_
        split
        · exact (pcalm_fail (P := fun _ => True) _).once
        · split
          · next htr => exact ponce_then (ponce_onCur fun i hi => vonce_truncate (hc.sys i hi) (hc.posix i hi) _ _ (hz' htr)) fun _ => pcalm_pure (P := fun _ => True) _ trivial
          · exact (pcalm_pure (P := fun _ => True) _ trivial).once
      · rintro ⟨ino, created⟩ hcr
        have hcr : created = true := by cases created <;> simp_all
        subst hcr
        dsimp only
        rw [if_pos rfl]
        exact pcalm_bind (pcalm_pure (P := fun _ => True) _ trivial) fun m _ => tail ino m

omit hc in
theorem upd_self (f : Nat → α) (i : Nat) : upd f i (f i) = f := by funext j; unfold upd; split <;> simp_all
omit hc in
theorem transactIf_eq (ev : Event) : transactIf pc ev = onCur pc fun _ => (do let mask ← coreTransMaskGet; if mask.testBit ev.bit then coreVolTransact else pure () : VM Unit) := by
  have h : transactIf pc ev = (onCur pc (fun _ => coreTransMaskGet) >>= fun m => onCur pc fun _ => if m.testBit ev.bit = true then coreVolTransact else pure ()) := by
    unfold transactIf
    congr 1
    funext m
    split
    · rfl
    · funext s
      show (Except.ok (), s) = (Except.ok (), ({ s with vols := upd s.vols s.cur (s.vols s.cur) } : PSt))
      rw [upd_self]
  rw [h]
  funext s0
  exact (onCur_bind (fun _ => coreTransMaskGet) (fun _ m => if m.testBit ev.bit = true then coreVolTransact else pure ()) s0).symm
theorem pcalm_transactIf (ev : Event) (hz : ∀ E, z = some E → E ev) : PCalm z pc (transactIf pc ev) (fun _ => True) := by
  rw [transactIf_eq]
  exact pcalm_onCur fun i hi => vcalm_transactOn (hc.sys i hi) (hc.posix i hi) ev hz
theorem pcalm_fildesClose (fd : Int) (hz : ∀ E, z = some E → E .close) : PCalm z pc (fildesClose pc fd) (fun _ => True) := by
  unfold fildesClose
  refine pcalm_bind (pcalm_fildesToHandle fd .either) fun idx _ => pcalm_get fun s => pcalm_bind (pcalm_setCur _) fun _ _ => pcalm_bind pcalm_curVol fun v _ => ?_
  have fin : PCalm z pc (modify fun s => s.setHandle idx { s.handle idx with ino := 0 }) (fun _ => True) := pcalm_modify (fun _ => rfl) (fun _ => rfl)
  dsimp only
  split
  · exact fin
  · exact pcalm_bind (pcalm_transactIf hc _ hz) fun _ _ => fin
theorem pcalm_syncLoop (hz : ∀ E, z = some E → E .sync) (n : Nat) : PCalm z pc (syncLoop pc n) (fun _ => True) := by
  induction n with
  | zero => exact pcalm_pure _ trivial
  | succ n ih =>
    unfold syncLoop
    refine pcalm_bind (pcalm_attempt ih) fun r1 _ => pcalm_get fun s => ?_
    split
    · refine pcalm_bind (pcalm_attempt (pcalm_bind (Q := fun _ => True) (pcalm_setCur _) fun _ _ => pcalm_transactIf hc _ hz)) fun r _ => ?_
      split
      · exact pcalm_ofExcept _
      · exact pcalm_fail _
    · exact pcalm_ofExcept _

theorem ponce_pMount (path : List Byte) (flags : Nat) : POnce z pc (pMount pc path flags) := by
  unfold pMount
  refine ponce_bind (pcalm_volumeLookup path) fun _ _ => ?_
  intro s r s' hr e
  rw [run_bind] at e
  have e1 : curVol s = (.ok (s.vols s.cur), s) := rfl
  rw [e1] at e; dsimp only at e
  split at e
  · obtain ⟨rfl, rfl⟩ := Prod.mk.inj e; exact ⟨hr, .refl hr⟩
  · next hm =>
    have hm : (s.vols s.cur).mounted = false := by simpa using hm
    have rest := pcalm_modify (z := z) (pc := pc) (f := fun s => { s with gen := upd s.gen s.cur (if fdGenMax < s.gen s.cur + 1 then 1 else s.gen s.cur + 1) }) (fun _ => rfl) (fun _ => rfl)
    rw [run_bind] at e
    have hh : Good pc (onCur pc (fun c => if flags &&& 1 ≠ flags then fail .einval else volMount c (decide (flags = 1))) s).2 ∧
        PEvo z pc true s (onCur pc (fun c => if flags &&& 1 ≠ flags then fail .einval else volMount c (decide (flags = 1))) s).2 := by
      have hv : Evo z (pc.conf s.cur) true (s.vols s.cur) ((if flags &&& 1 ≠ flags then fail .einval else volMount (pc.conf s.cur) (decide (flags = 1)) : VM Unit) (s.vols s.cur)).2 := by
        split
        · exact .refl (hr.reach _ hr.cur)
        · refine exec_evo (hc.sys _ hr.cur) (hr.reach _ hr.cur) (k := .mount (decide (flags = 1))) trivial (Call.within_ask rfl (fun h => by cases h) (fun m h => by cases h))
            (r := (exec (pc.conf s.cur) (.mount (decide (flags = 1))) (s.vols s.cur)).1) (Prod.ext rfl ?_) (fun s s' tr d => d.once)
          show (reply _ (apiMount (pc.conf s.cur) _) (s.vols s.cur)).2 = _
          have : apiMount (pc.conf s.cur) (decide (flags = 1)) (s.vols s.cur) = volMount (pc.conf s.cur) (decide (flags = 1)) (s.vols s.cur) := by
            unfold apiMount; rw [run_bind]; show (if (s.vols s.cur).mounted = true then _ else _ : VM Unit) (s.vols s.cur) = _; rw [hm]; rfl
          rw [reply_run (this.trans (Prod.mk.eta ..).symm)]
      exact ⟨good_upd hr hv.reach, evo_upd hr hv⟩
    generalize hx : onCur pc (fun c => if flags &&& 1 ≠ flags then fail .einval else volMount c (decide (flags = 1))) s = x at e hh
    obtain ⟨x | a, s1⟩ := x
    · obtain ⟨rfl, rfl⟩ := Prod.mk.inj e; exact hh
    · obtain ⟨g1, g2, _⟩ := rest _ _ _ hh.1 e
      exact ⟨g1, hh.2.trans g2 rfl⟩

omit hc in
theorem pcalm_cwdResetVol (f : PSt → Nat) : PCalm z pc (modify fun s => cwdResetVol pc (f s) s) (fun _ => True) := by
  refine pcalm_modify (fun s => ?_) (fun s => ?_)
  · unfold cwdResetVol; split <;> rfl
  · unfold cwdResetVol; split <;> rfl

theorem ponce_pUmount (path : List Byte) (flags : Nat) (hz : ∀ E, z = some E → E .umount) : POnce z pc (pUmount pc path flags) := by
  unfold pUmount
  split
  · exact (pcalm_fail (P := fun _ => True) _).once
  · refine ponce_bind (pcalm_volumeLookup path) fun _ _ => ?_
    intro s r s' hr e
    rw [run_bind] at e
    have e1 : curVol s = (.ok (s.vols s.cur), s) := rfl
    rw [e1] at e; dsimp only at e
    split at e
    · obtain ⟨rfl, rfl⟩ := Prod.mk.inj e; exact ⟨hr, .refl hr⟩
    · next hm =>
      have hm : (s.vols s.cur).mounted = true := by simpa using hm
      rw [run_bind, run_get] at e; dsimp only at e
      split at e
      · obtain ⟨rfl, rfl⟩ := Prod.mk.inj e; exact ⟨hr, .refl hr⟩
      · rw [run_bind] at e
        set_option hygiene false in
        generalize hs1 : ({ s with handle := fun i =>
          if i < pc.handles ∧ (s.handle i).ino ≠ 0 ∧ (s.handle i).vol = s.cur then { s.handle i with ino := 0 } else s.handle i } : PSt) = s1 at *
        have e2 : (modify (fun s : PSt => { s with handle := fun i =>
          if i < pc.handles ∧ (s.handle i).ino ≠ 0 ∧ (s.handle i).vol = s.cur then { s.handle i with ino := 0 } else s.handle i }) : PM Unit) s = (.ok (), s1) := by rw [← hs1]; rfl
        rw [e2] at e; dsimp only at e
        have g1 : Good pc s1 := by rw [← hs1]; exact ⟨hr.cur, hr.reach⟩
        have hw : Call.within z .unmount := by
          cases z with
          | none => trivial
          | some E => exact ⟨(fun h => by cases h), (fun _ m h => by cases h), fun ev h => by cases h; exact ⟨hz E rfl, fun h => absurd rfl h⟩⟩
        have hv : Evo z (pc.conf s1.cur) true (s1.vols s1.cur) (coreUnmount (s1.vols s1.cur)).2 := by
          refine exec_evo (hc.sys _ g1.cur) (g1.reach _ g1.cur) (k := .unmount) trivial hw
            (r := (exec (pc.conf s1.cur) .unmount (s1.vols s1.cur)).1) (Prod.ext rfl ?_) (fun s s' tr d => d.once)
          show (reply _ (apiUnmount (pc.conf s1.cur)) (s1.vols s1.cur)).2 = _
          have : apiUnmount (pc.conf s1.cur) (s1.vols s1.cur) = coreUnmount (s1.vols s1.cur) := by
            have hm1 : (s1.vols s1.cur).mounted = true := by rw [← hs1]; exact hm
            unfold apiUnmount; rw [run_bind]; show (if (s1.vols s1.cur).mounted = true then _ else _ : VM Unit) (s1.vols s1.cur) = _; rw [hm1]; rfl
          rw [reply_run (this.trans (Prod.mk.eta ..).symm)]
        have hh : Good pc (onCur pc (fun _ => coreUnmount) s1).2 ∧ PEvo z pc true s1 (onCur pc (fun _ => coreUnmount) s1).2 := ⟨good_upd g1 hv.reach, evo_upd g1 hv⟩
        have hpe : ∀ s2, PEvo z pc true s1 s2 → PEvo z pc true s s2 := by
          intro s2 h; rw [← hs1] at h; exact h
        rw [run_bind] at e
        generalize hx : onCur pc (fun _ => coreUnmount) s1 = x at e hh
        obtain ⟨x | a, s2⟩ := x
        · obtain ⟨rfl, rfl⟩ := Prod.mk.inj e; exact ⟨hh.1, hpe _ hh.2⟩
        · obtain ⟨k1, k2, _⟩ := pcalm_cwdResetVol (z := z) (pc := pc) (fun s => s.cur) _ _ _ hh.1 e
          exact ⟨k1, hpe _ (hh.2.trans k2 rfl)⟩

theorem ponce_pRollback (path : List Byte) : POnce z pc (pRollback pc path) := by
  unfold pRollback
  refine ponce_bind (pcalm_volumeLookup path) fun i _ => ponce_get fun s => ?_
  split
  · exact (pcalm_fail (P := fun _ => True) _).once
  · exact ponce_then (ponce_onCur fun i hi => vonce_rollback (hc.sys i hi) (hc.posix i hi)) fun _ => pcalm_cwdResetVol (fun _ => i)
theorem ponce_pOpen (path : List Byte) (mode : Nat) (hp : CStr.Ok path) (hz : has mode oCreat = true → Allow z .creat) (hz' : has mode oTrunc = true → Allow z .truncate) : POnce z pc (pOpen pc t path mode) := by
  unfold pOpen; split
  · exact (pcalm_fail (P := fun _ => True) _).once
  · exact ponce_fildesOpen hc _ _ _ hp hz hz'
theorem ponce_pMkdir (path : List Byte) (hp : CStr.Ok path) (hz : Allow z .mkdir) : POnce z pc (pMkdir pc t path) := by
  unfold pMkdir
  refine ponce_bind (pcalm_startingPoint path hp) fun x hx => ?_
  obtain ⟨vol, st, lp⟩ := x
  refine ponce_bind (pcalm_toName hc st lp _ hx) fun y hy => ?_
  obtain ⟨pino, name⟩ := y
  exact ponce_then (ponce_create hc _ _ true hy hz) fun _ => pcalm_pure (P := fun _ => True) _ trivial
theorem ponce_pRename (old new : List Byte) (ho : CStr.Ok old) (hn : CStr.Ok new) (hz : Allow z .rename) : POnce z pc (pRename pc t old new) := by
  unfold pRename
  refine ponce_bind (pcalm_startingPoint old ho) fun x hx => ?_
  obtain ⟨vol, st, lp⟩ := x
  refine ponce_bind (pcalm_startingPoint new hn) fun x' hx' => ?_
  obtain ⟨vol', st', lp'⟩ := x'
  dsimp only
  split
  · exact (pcalm_fail (P := fun _ => True) _).once
  · refine ponce_bind (pcalm_toName hc st lp _ hx) fun y hy => ?_
    obtain ⟨pino, name⟩ := y
    refine ponce_bind (pcalm_toName hc st' lp' _ hx') fun y' hy' => ?_
    obtain ⟨pino', name'⟩ := y'
    dsimp only
    have fin : POnce z pc (onCur pc fun c => coreRename c pino name pino' name') := ponce_onCur fun i hi => vonce_rename (hc.sys i hi) (hc.posix i hi) _ _ _ _ hy hy' hz
    split
    · refine ponce_bind (pcalm_attempt (pcalm_lookup hc _ _ hy')) fun r _ => ?_
      split
      · exact ponce_bind (pcalm_inodeUnlinkCheck hc _) fun _ _ => fin
      · split
        · exact fin
        · exact ponce_bind (pcalm_fail (P := fun _ => True) _) fun _ _ => fin
    · exact fin
theorem ponce_pLink (old new : List Byte) (ho : CStr.Ok old) (hn : CStr.Ok new) (hz : Allow z .link) : POnce z pc (pLink pc t old new) := by
  unfold pLink
  refine ponce_bind (pcalm_startingPoint old ho) fun x hx => ?_
  obtain ⟨vol, st, lp⟩ := x
  refine ponce_bind (pcalm_startingPoint new hn) fun x' hx' => ?_
  obtain ⟨vol', st', lp'⟩ := x'
  dsimp only
  split
  · exact (pcalm_fail (P := fun _ => True) _).once
  · refine ponce_bind (pcalm_pathLookup hc st lp hx) fun ino _ => ?_
    refine ponce_bind (pcalm_toName hc st' lp' _ hx') fun y' hy' => ?_
    obtain ⟨pino', name'⟩ := y'
    exact ponce_onCur fun i hi => vonce_link (hc.sys i hi) (hc.posix i hi) _ _ _ hy' hz
theorem pcalm_pRead (fd : Int) (len : Nat) : PCalm z pc (pRead pc fd len) (fun _ => True) := by
  unfold pRead
  refine pcalm_bind (pcalm_fildesToHandle fd .file) fun idx _ => pcalm_get fun s => ?_
  split
  · exact pcalm_fail _
  · exact pcalm_bind (pcalm_setCur _) fun _ _ => pcalm_bind (pcalm_onCur fun i hi => vcalm_read (hc.sys i hi) (hc.posix i hi) _ _ _) fun bs _ =>
      pcalm_bind (pcalm_modify (fun _ => rfl) (fun _ => rfl)) fun _ _ => pcalm_pure _ trivial
theorem ponce_pWrite (fd : Int) (len : Nat) (buf : Nat → Byte) (hz : Allow z .write) : POnce z pc (pWrite pc fd len buf) := by
  unfold pWrite
  refine ponce_bind (pcalm_attempt (pcalm_fildesToHandle fd .file)) fun r _ => ?_
  split
  · exact (pcalm_fail (P := fun _ => True) _).once
  · next idx _ =>
    refine ponce_get fun s => ?_
    split
    · exact (pcalm_fail (P := fun _ => True) _).once
    · refine ponce_bind (pcalm_setCur _) fun _ _ => ?_
      have fin : POnce z pc (do
        let s ← get
        let n ← onCur pc fun c => coreFileWrite c (s.handle idx).ino (s.handle idx).off len buf
        modify fun s => s.setHandle idx { s.handle idx with off := (s.handle idx).off + n }
        pure n : PM Nat) :=
        ponce_get fun s => ponce_then (ponce_onCur fun i hi => vonce_write (hc.sys i hi) (hc.posix i hi) _ _ _ _ hz) fun n =>
          pcalm_bind (pcalm_modify (fun _ => rfl) (fun _ => rfl)) fun _ _ => pcalm_pure (P := fun _ => True) _ trivial
      dsimp only
      split
      · exact ponce_bind (pcalm_stat hc _) fun st _ => ponce_bind (pcalm_modify (fun _ => rfl) (fun _ => rfl)) fun _ _ => fin
      · exact fin
theorem pcalm_pFsync (fd : Int) (hz : ∀ E, z = some E → E .fsync) : PCalm z pc (pFsync pc fd) (fun _ => True) := by
  unfold pFsync
  exact pcalm_bind (pcalm_fildesToHandle fd .either) fun idx _ => pcalm_get fun s => pcalm_bind (pcalm_setCur _) fun _ _ => pcalm_transactIf hc _ hz
theorem pcalm_pLseek (fd off : Int) (w : Nat) : PCalm z pc (pLseek pc fd off w) (fun _ => True) := by
  unfold pLseek
  refine pcalm_bind (pcalm_fildesToHandle fd .file) fun idx _ => pcalm_get fun s => pcalm_bind (pcalm_setCur _) fun _ _ => ?_
  refine pcalm_bind (P := fun _ => True) ?_ fun o _ => ?_
  · split
    · exact pcalm_pure _ trivial
    · split
      · exact pcalm_pure _ trivial
      · split
        · exact pcalm_bind (pcalm_stat hc _) fun st _ => pcalm_pure _ trivial
        · exact pcalm_fail _
  · dsimp only
    split
    · exact pcalm_fail _
    · split
      · exact pcalm_fail _
      · exact pcalm_bind (pcalm_modify (fun _ => rfl) (fun _ => rfl)) fun _ _ => pcalm_pure _ trivial
theorem ponce_pFtruncate (fd : Int) (size : Nat) (hz : Allow z .truncate) : POnce z pc (pFtruncate pc fd size) := by
  unfold pFtruncate
  refine ponce_bind (pcalm_attempt (pcalm_fildesToHandle fd .file)) fun r _ => ?_
  split
  · exact (pcalm_fail (P := fun _ => True) _).once
  · next idx _ =>
    refine ponce_get fun s => ?_
    split
    · exact (pcalm_fail (P := fun _ => True) _).once
    · exact ponce_bind (pcalm_setCur _) fun _ _ => ponce_onCur fun i hi => vonce_truncate (hc.sys i hi) (hc.posix i hi) _ _ hz
theorem pcalm_pFstat (fd : Int) : PCalm z pc (pFstat pc fd) (fun _ => True) := by
  unfold pFstat
  exact pcalm_bind (pcalm_fildesToHandle fd .either) fun idx _ => pcalm_get fun s => pcalm_bind (pcalm_setCur _) fun _ _ => pcalm_stat hc _
theorem ponce_pOpendir (path : List Byte) (hp : CStr.Ok path) : POnce z pc (pOpendir pc t path) := by
  unfold pOpendir
  exact ponce_then (ponce_fildesOpen hc _ _ _ hp (fun h => absurd h (by decide)) (fun h => absurd h (by decide))) fun _ => pcalm_pure (P := fun _ => True) _ trivial
theorem pcalm_pReaddir (i : Nat) : PCalm z pc (pReaddir pc i) (fun _ => True) := by
  unfold pReaddir
  refine pcalm_get fun s => ?_
  split
  · exact pcalm_fail _
  · refine pcalm_bind (pcalm_setCur _) fun _ _ => pcalm_bind (pcalm_onCur fun i hi => vcalm_dirRead (hc.sys i hi) (hc.posix i hi) _ _) fun x _ => ?_
    obtain ⟨pos, e⟩ := x
    dsimp only
    refine pcalm_bind (pcalm_modify (fun _ => rfl) (fun _ => rfl)) fun _ _ => ?_
    split
    · exact pcalm_pure _ trivial
    · exact pcalm_bind (pcalm_stat hc _) fun _ _ => pcalm_pure _ trivial
omit hc in
theorem pcalm_pRewinddir (i : Nat) : PCalm z pc (pRewinddir pc i) (fun _ => True) := by
  unfold pRewinddir
  refine pcalm_get fun s => ?_
  split
  · exact pcalm_modify (fun _ => rfl) (fun _ => rfl)
  · exact pcalm_pure _ trivial
omit hc in
theorem pcalm_pClosedir (i : Nat) : PCalm z pc (pClosedir pc i) (fun _ => True) := by
  unfold pClosedir
  refine pcalm_get fun s => ?_
  split
  · exact pcalm_modify (fun _ => rfl) (fun _ => rfl)
  · exact pcalm_fail _
theorem pcalm_pChdir (path : List Byte) (hp : CStr.Ok path) : PCalm z pc (pChdir pc t path) (fun _ => True) := by
  unfold pChdir
  refine pcalm_bind (pcalm_startingPoint path hp) fun x hx => ?_
  obtain ⟨vol, st, lp⟩ := x
  refine pcalm_bind (pcalm_onCur (P := fun _ => True) fun i hi => vcalm_bind (vcalm_pathLookup (hc.sys i hi) (hc.posix i hi) _ _ _ hx) fun ino _ =>
    vcalm_bind (vcalm_mustBeDir (hc.sys i hi) (hc.posix i hi) _) fun _ _ => vcalm_pure _ trivial) fun ino _ => ?_
  exact pcalm_bind pcalm_cwdSlot fun i _ => pcalm_modify (fun _ => rfl) (fun _ => rfl)
theorem pcalm_pGetcwd (size : Nat) : PCalm z pc (pGetcwd pc t size) (fun _ => True) := by
  unfold pGetcwd
  refine pcalm_bind pcalm_cwdSlot fun i _ => pcalm_get fun s => pcalm_bind (pcalm_setCur _) fun _ _ =>
    pcalm_bind (pcalm_onCur fun i hi => vcalm_cwdLoop (hc.sys i hi) (hc.posix i hi) _ _ _ _ _) fun buf _ => ?_
  dsimp only
  split
  · exact pcalm_fail _
  · exact pcalm_pure _ trivial

omit hc in
theorem ponce_unit {m : PM Unit} (h : POnce z pc m) : POnce z pc (unit m) := by
  unfold unit; exact ponce_then h fun _ => pcalm_pure (P := fun _ => True) _ trivial
omit hc in
theorem ponce_ret {m : PM α} {f : α → PReply} (h : POnce z pc m) : POnce z pc (do let a ← m; pure (f a)) := ponce_then h fun _ => pcalm_pure (P := fun _ => True) _ trivial

/-- The events considered: those of the call. -/
def zOf (k : PCall) : Option (Event → Prop) :=
  match k with
  | .transact _ => none
  | k => some fun ev => ev ∈ k.events

theorem ponce_body {k : PCall} (hok : k.Ok) (hf : ∀ vol, k ≠ .format vol) : POnce (zOf k) pc (body pc t k) := by
  cases k with
  | init => exact (pcalm_pure (P := fun _ => True) _ trivial).once
  | uninit =>
    unfold body
    refine ponce_get fun s => ?_
    split
    · exact (pcalm_fail (P := fun _ => True) _).once
    · exact (pcalm_bind (pcalm_modify (f := fun s => { s with inited := false }) (fun _ => rfl) (fun _ => rfl)) fun _ _ => pcalm_pure (P := fun _ => True) _ trivial).once
  | sync => exact ponce_unit (pcalm_syncLoop hc (fun E h => by cases h; simp [PCall.events]) _).once
  | mount vol flags => exact ponce_unit (ponce_pMount hc _ _)
  | umount vol flags => exact ponce_unit (ponce_pUmount hc _ _ (fun E h => by cases h; simp [PCall.events]))
  | format vol => exact absurd rfl (hf vol)
  | transact vol => exact ponce_unit (pcalm_bind (pcalm_volumeLookup _) fun _ _ => pcalm_transact hc).once
  | rollback => exact ponce_unit (ponce_pRollback hc _)
  | setMask vol mask => exact ponce_unit (pcalm_bind (pcalm_volumeLookup _) fun _ _ => pcalm_onCur fun i hi => vcalm_maskSet (hc.sys i hi) (hc.posix i hi) _ (fun ev h => by cases h)).once
  | getMask vol => exact (pcalm_bind (pcalm_volumeLookup _) fun _ _ => pcalm_bind (pcalm_onCur fun i hi => vcalm_maskGet (hc.sys i hi) (hc.posix i hi)) fun _ _ => pcalm_pure (P := fun _ => True) _ trivial).once
  | statvfs vol => exact (pcalm_bind (pcalm_volumeLookup _) fun _ _ => pcalm_bind (pcalm_onCur fun i hi => vcalm_statfs (hc.sys i hi) (hc.posix i hi)) fun _ _ => pcalm_pure (P := fun _ => True) _ trivial).once
  | «open» path mode => exact ponce_ret (ponce_pOpen hc _ _ hok (fun hm E h => by cases h; simp [PCall.events, hm]) (fun hm E h => by cases h; simp [PCall.events, hm]))
  | unlink path => exact ponce_unit (ponce_unlinkSub hc _ _ hok (fun E h => by cases h; simp [PCall.events]))
  | mkdir path => exact ponce_unit (ponce_pMkdir hc _ hok (fun E h => by cases h; simp [PCall.events]))
  | rmdir path => exact ponce_unit (ponce_unlinkSub hc _ _ hok (fun E h => by cases h; simp [PCall.events]))
  | rename old new => exact ponce_unit (ponce_pRename hc _ _ hok.1 hok.2 (fun E h => by cases h; simp [PCall.events]))
  | link old new => exact ponce_unit (ponce_pLink hc _ _ hok.1 hok.2 (fun E h => by cases h; simp [PCall.events]))
  | close fd => exact ponce_unit (pcalm_fildesClose hc _ (fun E h => by cases h; simp [PCall.events])).once
  | read fd len => exact ponce_ret (pcalm_pRead hc _ _).once
  | write fd len buf => exact ponce_ret (ponce_pWrite hc _ _ _ (fun E h => by cases h; simp [PCall.events]))
  | fsync fd => exact ponce_unit (pcalm_pFsync hc _ (fun E h => by cases h; simp [PCall.events])).once
  | lseek fd off w => exact ponce_ret (pcalm_pLseek hc _ _ _).once
  | ftruncate fd size => exact ponce_unit (ponce_pFtruncate hc _ _ (fun E h => by cases h; simp [PCall.events]))
  | fstat fd => exact ponce_ret (pcalm_pFstat hc _).once
  | opendir path => exact ponce_ret (ponce_pOpendir hc _ hok)
  | readdir i => exact ponce_ret (pcalm_pReaddir hc _).once
  | rewinddir i => exact ponce_unit (pcalm_pRewinddir _).once
  | closedir i => exact ponce_unit (pcalm_pClosedir _).once
  | chdir path => exact ponce_unit (pcalm_pChdir hc _ hok).once
  | getcwd size => exact ponce_ret (pcalm_pGetcwd hc _).once

omit hc in
theorem pcalm_taskRegister (t : Nat) : PCalm z pc (taskRegister pc t) (fun _ => True) := by
  intro s r s' hr e
  have : s'.vols = s.vols ∧ s'.cur = s.cur := by
    unfold taskRegister at e
    repeat' split at e
    all_goals (obtain ⟨_, rfl⟩ := Prod.mk.inj e; exact ⟨rfl, rfl⟩)
  refine ⟨⟨by rw [this.2]; exact hr.cur, by rw [this.1]; exact hr.reach⟩, fun i hi => ?_, fun _ _ => trivial⟩
  rw [this.1]; exact .refl (hr.reach i hi)
omit hc in
theorem pcalm_posixEnter (t : Nat) : PCalm z pc (posixEnter pc t) (fun _ => True) := by
  unfold posixEnter
  refine pcalm_get fun s => ?_
  split
  · exact pcalm_bind (pcalm_taskRegister t) fun _ _ => pcalm_pure _ trivial
  · exact pcalm_fail _
omit hc in
theorem setErrno_vols (t : Nat) (e : Err) (s : PSt) : (setErrno pc t e s).vols = s.vols ∧ (setErrno pc t e s).cur = s.cur := by
  unfold setErrno
  split
  · exact ⟨rfl, rfl⟩
  · split
    · have : ∀ r s', taskRegister pc t s = (r, s') → s'.vols = s.vols ∧ s'.cur = s.cur := by
        intro r s' e
        unfold taskRegister at e
        repeat' split at e
        all_goals (obtain ⟨_, rfl⟩ := Prod.mk.inj e; exact ⟨rfl, rfl⟩)
      split
      · next h => have := this _ _ h; exact ⟨this.1, this.2⟩
      · next h => have := this _ _ h; exact ⟨this.1, this.2⟩
    · exact ⟨rfl, rfl⟩

theorem pexec_evo {k : PCall} (hi : PInv pc s) (hok : k.Ok) (hf : ∀ vol, k ≠ .format vol) {r : Except Err PReply} (he : pexec pc t k s = (r, s')) : PEvo (zOf k) pc true s s' := by
  have hg : Good pc s := ⟨hi.cur, hi.reach⟩
  by_cases hki : k = .init
  · subst hki
    obtain ⟨_, rfl⟩ := Prod.mk.inj he
    show PEvo (zOf .init) pc true s (redInit pc s)
    unfold redInit
    split
    · exact .refl hg
    · next hin =>
      intro i hlt
      have hv : ({ cwdResetAll pc { s with
        handle := fun i => if i < pc.handles then ⟨0, 0, false, false, false, false, 0⟩ else s.handle i
        slot := fun i => if i < pc.tasks then ⟨0, none, 0, 0⟩ else s.slot i
        vols := fun i => if i < pc.n then coreInit pc.transDefault (s.vols i) else s.vols i } with inited := true } : PSt).vols i = coreInit pc.transDefault (s.vols i) := by
        unfold cwdResetAll
        split
        · exact if_pos hlt
        · exact if_pos hlt
      rw [hv]
      exact (init_evo (hi.reach i hlt) (hi.down (by simpa using hin) i hlt) _ (fun ev h => by cases h)).weak
  · have he' : (if k.isUninit = true ∧ s.inited = false then (.ok .unit, s)
      else
        let x := (if early k then fail .einval else do posixEnter pc t; body pc t k : PM PReply) s
        match x.1 with
        | .ok a => (.ok a, x.2)
        | .error e => (.error e, if setsErrno k then setErrno pc t e x.2 else x.2)) = (r, s') := by
      rw [← he]; cases k <;> first | rfl | exact absurd rfl hki
    split at he'
    · obtain ⟨_, rfl⟩ := Prod.mk.inj he'; exact .refl hg
    · dsimp only at he'
      have hm : POnce (zOf k) pc (if early k then fail .einval else do posixEnter pc t; body pc t k : PM PReply) := by
        split
        · exact (pcalm_fail (P := fun _ => True) _).once
        · exact ponce_bind (pcalm_posixEnter t) fun _ _ => ponce_body hc hok hf
      have hh : ∀ r1 s1, (if early k then fail .einval else do posixEnter pc t; body pc t k : PM PReply) s = (r1, s1) → PEvo (zOf k) pc true s s1 := fun r1 s1 e => (hm s _ _ hg e).2
      generalize (if early k then fail .einval else do posixEnter pc t; body pc t k : PM PReply) s = x at he' hh
      obtain ⟨x | a, s1⟩ := x
      · obtain ⟨_, rfl⟩ := Prod.mk.inj he'
        split
        · intro i hlt; rw [(setErrno_vols t x s1).1]; exact hh _ _ rfl i hlt
        · exact hh _ _ rfl
      · obtain ⟨_, rfl⟩ := Prod.mk.inj he'; exact hh _ _ rfl

end
end RedFs.Posix
