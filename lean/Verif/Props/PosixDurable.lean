import Verif.Props.PosixCrash
import Verif.Lemmas.PosixHist
import Verif.Spec.PosixDurable
set_option linter.unusedSimpArgs false
set_option linter.unusedVariables false
/-!
C49: what has been committed through the POSIX API is never lost.
-/
namespace RedFs.Props.PosixDurable
open RedFs RedFs.Posix M Str

variable {pc : PConf} {s s' s1 w : PSt} {c : Conf} {v v' : Vol} {i : Nat} {F : Files}

theorem onDisk_iff (hc : c.SysOk) {x : Sys} (ha : Abs c v x) (F : Files) : OnDisk c v F ↔ x.disk = some F := by
  unfold OnDisk
  cases hm : v.mounted with
  | true =>
    obtain ⟨_, _, h2, _⟩ := ha.inv (ha.mounted_iff.trans hm)
    rw [h2]
    exact ⟨(fun h => by rw [h.1 rfl]), fun h => ⟨fun _ => Option.some.inj h, fun h' => by cases h'⟩⟩
  | false =>
    rw [← PosixCrash.found_iff hc ha (ha.mounted_iff.trans hm)]
    exact ⟨fun h => h.2 rfl, fun h => ⟨(fun h' => by cases h'), fun _ => h⟩⟩

/-- A call that succeeds. -/
theorem call_ok' (hc : pc.Ok) (h : PReach pc s) {t : Nat} {k : PCall} {a : PReply} (hp : Permitted pc t k s) (hni : k ≠ .init) (hnu : k ≠ .uninit)
    (he : pexec pc t k s = (.ok a, s')) : s.inited = true ∧ ∃ s1, Registers pc t s s1 ∧ ¬ k.Bad ∧ BodyDoes pc t k s1 (.ok a) s' := by
  have hin : s.inited = true := by
    have d := (pexec_spec hc (h.inv hc) hp).2
    rw [he] at d
    have d' : ∃ s2, EnterDoes pc t k s (.ok a) s2 ∧ s' = s2 := by
      cases k <;> first | exact absurd rfl hni | exact absurd rfl hnu | (simp only [PDoes] at d; rw [if_neg (fun h => by cases h.1)] at d; exact d)
    obtain ⟨s2, e, _⟩ := d'
    rcases e with ⟨_, e, _⟩ | ⟨_, _, e, _⟩ | ⟨_, _, _, e, _⟩ | ⟨_, hin, _⟩
    · cases e
    · cases e
    · cases e
    · exact hin
  exact ⟨hin, call_ok hc h hp hni hin he⟩

/-- How a volume that is not formatted evolves. -/
theorem step_evo (hc : pc.Ok) (h : PReach pc s) (hi : i < pc.n) {t : Nat} {k : PCall} (hp : Permitted pc t k s) (hf : ∀ vol, k = .format vol → ¬ VolName pc vol i)
    {r : Except Err PReply} (he : pexec pc t k s = (r, s')) {x : Sys} (ha : Abs (pc.conf i) (s.vols i) x) :
    ∃ x' tr, Abs (pc.conf i) (s'.vols i) x' ∧ x'.disk ∈ x.disk :: tr.map some ∧ Kept true x x' tr := by
  by_cases hk : ∃ vol, k = .format vol
  · obtain ⟨vol, rfl⟩ := hk
    have hs : Same (pc.conf i) (s.vols i) (s'.vols i) := by
      have d := (pexec_spec hc (h.inv hc) hp).2
      rw [he] at d
      simp only [PDoes] at d
      rw [if_neg (fun h => by cases h.1)] at d
      obtain ⟨s2, e, x⟩ := d
      have hv : s'.vols = s2.vols := by
        cases r with
        | ok a => rw [show s' = s2 from x]
        | error e =>
          dsimp only at x
          split at x
          · exact x.alike.vols
          · rw [x]
      rw [hv]
      rcases e with ⟨_, _, rfl⟩ | ⟨_, _, _, rfl⟩ | ⟨_, _, _, _, rfl⟩ | ⟨_, _, s1, R, r0, _, e⟩
      · exact Same.refl ..
      · exact Same.refl ..
      · exact Same.refl ..
      · rw [← R.alike.vols]
        rcases e with ⟨_, _, q⟩ | ⟨j, hj, ⟨_, _, q⟩ | ⟨_, _, hv, _⟩⟩
        · exact q.vols i hi
        · exact q.vols i hi
        · rw [hv i (fun e => hf vol rfl (e ▸ hj))]; exact Same.refl ..
    cases hm : (s.vols i).mounted with
    | false =>
      rw [hs.off hm]
      exact ⟨x, [], ha, List.mem_cons_self .., Kept.nil _⟩
    | true =>
      have hr' := hs.reach ((h.inv hc).reach i hi)
      obtain ⟨x', ha'⟩ := hr'.abs (hc.sys i hi)
      obtain ⟨_, a1, a2, _⟩ := ha.inv (ha.mounted_iff.trans hm)
      obtain ⟨_, b1, b2, _⟩ := ha'.inv (ha'.mounted_iff.trans (hs.mounted.trans hm))
      refine ⟨x', [], ha', List.mem_singleton.2 (by rw [a2, b2, hs.disk hm]), (fun F hF => by cases hF), fun hx => ?_⟩
      rw [ha.mounted_iff.trans hm] at hx; cases hx
  · obtain ⟨x', tr, _, h1, h2, h3, _⟩ := (pexec_evo hc (h.inv hc) hp.2.1 (fun vol e => hk ⟨vol, e⟩) he i hi).sim x ha
    exact ⟨x', tr, h1, h2, h3⟩

theorem visited (hc : pc.Ok) (h : PReach pc s) (hi : i < pc.n) (hd : OnDisk (pc.conf i) (s.vols i) F) {L : List PSt} (hv : PVisited pc i s L w) :
    PReach pc w ∧ ((w.vols i).mounted = true → w ∈ L) ∧ ∃ x G, Abs (pc.conf i) (w.vols i) x ∧ x.disk = some G ∧ (G = F ∨ ∃ y ∈ L, (y.vols i).mounted = true ∧ G = y.files pc i) := by
  -- from `u` the call leads to `u'`; `G` is committed on the way
  have step : ∀ {L : List PSt} {u u' : PSt} {x x' : Sys} {tr : List Files} {H G : Files}, Abs (pc.conf i) (u.vols i) x → Abs (pc.conf i) (u'.vols i) x' → Kept true x x' tr →
      ((u.vols i).mounted = true → u ∈ L) → x.disk = some H → (H = F ∨ ∃ y ∈ L, (y.vols i).mounted = true ∧ H = y.files pc i) → some G ∈ x.disk :: tr.map some →
      (G = F ∨ ∃ y ∈ u' :: L, (y.vols i).mounted = true ∧ G = y.files pc i) := by
    intro L u u' x x' tr H G ha ha' hk hin hH hHL hG
    rcases List.mem_cons.1 hG with hG | hG
    · rw [hH] at hG; cases hG
      rcases hHL with rfl | ⟨y, hy, g⟩
      · exact Or.inl rfl
      · exact Or.inr ⟨y, List.mem_cons_of_mem _ hy, g⟩
    · obtain ⟨G', hG', e⟩ := List.mem_map.1 hG
      cases e
      right
      rcases hk.1 _ hG' with ⟨hm, e⟩ | ⟨hm, e⟩
      · exact ⟨u, List.mem_cons_of_mem _ (hin (ha.mounted_iff.symm.trans hm)), ha.mounted_iff.symm.trans hm, by rw [e, (ha.inv hm).2.1]⟩
      · exact ⟨u', List.mem_cons_self .., ha'.mounted_iff.symm.trans hm, by rw [e, (ha'.inv hm).2.1]⟩
  have dsk : ∀ {x y : Sys} {tr : List Files} {H : Files}, x.disk = some H → y.disk ∈ x.disk :: tr.map some → ∃ G, y.disk = some G := by
    intro x y tr H hH hy
    rcases List.mem_cons.1 hy with hy | hy
    · exact ⟨H, hy.trans hH⟩
    · obtain ⟨G, _, e⟩ := List.mem_map.1 hy; exact ⟨G, e.symm⟩
  induction hv with
  | nil =>
    obtain ⟨x, ha⟩ := ((h.inv hc).reach i hi).abs (hc.sys i hi)
    exact ⟨h, fun _ => List.mem_singleton.2 rfl, x, F, ha, (onDisk_iff (hc.sys i hi) ha F).1 hd, Or.inl rfl⟩
  | @call L u u' t k r _ hp hf he ih =>
    obtain ⟨hr, hin, x, H, ha, hH, hHL⟩ := ih
    obtain ⟨x', tr, ha', hd', hk⟩ := step_evo hc hr hi hp hf he ha
    have hr' : PReach pc u' := by have := hr.call hp; rw [he] at this; exact this
    obtain ⟨G, hG⟩ := dsk hH hd'
    exact ⟨hr', fun _ => List.mem_cons_self .., x', G, ha', hG, step ha ha' hk hin hH hHL (hG ▸ hd')⟩
  | @crash L u u' w t k r _ hp hf he hs ih =>
    obtain ⟨hr, hin, x, H, ha, hH, hHL⟩ := ih
    obtain ⟨x', tr, new', ha', hd', hk, _, hn', hrec⟩ := (pexec_evo hc (hr.inv hc) hp.2.1 hf he i hi).sim x ha
    have hr' : PReach pc w := ⟨w, [], (PosixCrash.C46_power_loss hc hr hp hf he hs).1, .nil⟩
    obtain ⟨new, e, D, hn, hin', hD, hw⟩ := hs.vol i hi
    obtain rfl : new = new' := List.append_cancel_right (hn.symm.trans hn')
    obtain ⟨y, hy, hym, hyd⟩ : ∃ y, Abs (pc.conf i) (w.vols i) y ∧ y.mounted = false ∧ y.disk ∈ x.disk :: tr.map some := by
      rcases List.mem_cons.1 hin' with rfl | hin'
      · obtain ⟨y, h1, h2, h3⟩ := Abs.idle (hc.sys i hi).ok ha' D hD _ hw
        exact ⟨y, h1, h2, by rw [List.mem_singleton.1 h3]; exact hd'⟩
      · exact (hrec e hin').1 D hD _ hw
    obtain ⟨G, hG⟩ := dsk hH hyd
    refine ⟨hr', fun hm => ?_, y, G, hy, hG, step ha ha' hk hin hH hHL (hG ▸ hyd)⟩
    rw [← hy.mounted_iff, hym] at hm; cases hm
  | @idleCrash L u w _ hs ih =>
    obtain ⟨hr, hin, x, H, ha, hH, hHL⟩ := ih
    have hr' : PReach pc w := ⟨w, [], (PosixCrash.C46_power_loss_idle hc hr hs).1, .nil⟩
    obtain ⟨new, e, D, hn, hin', hD, hw⟩ := hs.vol i hi
    obtain rfl : new = [] := (List.append_cancel_right (hn.symm.trans (List.nil_append _).symm))
    obtain rfl := List.mem_singleton.1 hin'
    obtain ⟨y, h1, h2, h3⟩ := Abs.idle (hc.sys i hi).ok ha D hD _ hw
    refine ⟨hr', fun hm => ?_, y, H, h1, by rw [List.mem_singleton.1 h3]; exact hH, hHL⟩
    rw [← h1.mounted_iff, h2] at hm; cases hm

/-- **C49** Nothing that is committed is lost, or becomes mixed with other states.  `F` is the committed state of volume `i`.  After any calls of any tasks and any power losses,
its committed state is `F` or one of the states that the volume, mounted, has been in since. -/
theorem C49_never_lost (hc : pc.Ok) (h : PReach pc s) (hi : i < pc.n) (hd : OnDisk (pc.conf i) (s.vols i) F) {L : List PSt} (hv : PVisited pc i s L w) :
    PReach pc w ∧ ∃ G, OnDisk (pc.conf i) (w.vols i) G ∧ (G = F ∨ ∃ x ∈ L, (x.vols i).mounted = true ∧ G = x.files pc i) := by
  obtain ⟨h1, _, x, G, ha, hG, g⟩ := visited hc h hi hd hv
  exact ⟨h1, G, (onDisk_iff (hc.sys i hi) ha G).2 hG, g⟩

/-- **C49** `red_transact`, `red_sync`, `red_fsync` and `red_close`: when the call has succeeded, the files of the volume, as they were when the call was made, are committed; and the
call has not changed them. -/
theorem C49_flush (hc : pc.Ok) (h : PReach pc s) {t : Nat} {k : PCall} (hp : Permitted pc t k s) {a : PReply} (he : pexec pc t k s = (.ok a, s'))
    (hk : k.Flushes pc s i) : (s'.vols i).mounted = true ∧ s'.files pc i = s.files pc i ∧ OnDisk (pc.conf i) (s'.vols i) (s.files pc i) := by
  have fin : (s'.vols i).mounted = true → s'.files pc i = s.files pc i → Posix.Committed pc s' i →
      (s'.vols i).mounted = true ∧ s'.files pc i = s.files pc i ∧ OnDisk (pc.conf i) (s'.vols i) (s.files pc i) := fun h1 h2 h3 =>
    ⟨h1, h2, fun _ => (show committedFiles _ _ = _ from h3).trans h2, fun h => by rw [h1] at h; cases h⟩
  cases k <;> try exact hk.elim
  case sync =>
    obtain ⟨hi, hm, hro, hon⟩ := hk
    obtain ⟨hin, s1, R, _, r0, _, _, _, d⟩ := call_ok' hc h hp (fun h => by cases h) (fun h => by cases h) he
    have hv := R.alike.vols
    have := d i hi
    rw [hv] at this
    rw [if_pos ⟨hm, hro, hon⟩] at this
    exact fin this.1 (by rw [this.2.2.2.1]; unfold PSt.files; rw [hv]) this.2.2.2.2
  case transact vol =>
    obtain ⟨hin, s1, R, _, r0, hr, d⟩ := call_ok' hc h hp (fun h => by cases h) (fun h => by cases h) he
    obtain ⟨u, rfl⟩ : ∃ u, r0 = .ok u := by cases r0 with | ok u => exact ⟨u, rfl⟩ | error e => cases hr
    rcases d with ⟨_, e, _⟩ | ⟨j, hj, ⟨hx, _⟩, _⟩
    · cases e
    · obtain rfl := selected_unique hc hk.1 hj.1
      have hi := hk.1.1
      rw [R.alike.vols] at hx
      obtain ⟨x, ha⟩ := ((h.inv hc).reach i hi).abs (hc.sys i hi)
      obtain ⟨r', v2, x', tr, e', d, a, _⟩ := exec_sim (hc.sys i hi) ha (k := .transact) trivial
      rw [← hx] at e'; obtain ⟨rfl, rfl⟩ := Prod.mk.inj e'
      simp only [Spec.Does] at d
      split at d
      · cases d.1
      · next hm =>
        split at d
        · cases d.1
        · obtain ⟨_, rfl, rfl⟩ := d
          have hm' : x.mounted = true := by simpa using hm
          obtain ⟨_, b1, b2, _⟩ := a.inv hm'
          obtain ⟨_, a1, a2, _⟩ := ha.inv hm'
          dsimp only at b1 b2
          refine fin (a.mounted_iff.symm.trans hm') (b1.symm.trans a1) ?_
          show committedFiles _ _ = files _ _
          rw [← b1]; exact (Option.some.inj b2).symm
  case fsync fd =>
    obtain ⟨hd, hfd, hvol, hon⟩ := hk
    obtain ⟨hin, s1, R, _, r0, hr, d⟩ := call_ok' hc h hp (fun h => by cases h) (fun h => by cases h) he
    have hv := R.alike.vols
    have hh := R.alike.handle
    have hg := R.alike.gen
    have fdeq : ∀ k, IsFd pc s1 fd k ↔ IsFd pc s fd k := fun k => isFd_congr ⟨by rw [hh], by rw [hh]⟩ (by rw [hg])
    obtain ⟨u, rfl⟩ : ∃ u, r0 = .ok u := by cases r0 with | ok u => exact ⟨u, rfl⟩ | error e => cases hr
    rcases d with ⟨_, e, _⟩ | ⟨k, hk, ⟨_, _, e, _⟩ | ⟨_, _, hfl⟩⟩
    · cases e
    · cases e
    · obtain rfl := isFd_unique hc (h.inv hc) hin hfd ((fdeq k).1 hk)
      rw [hh, hv, hvol] at hfl
      obtain ⟨f1, f2⟩ := hfl
      rw [show (s.vols i).transMask.testBit Event.fsync.bit = true from hon, if_pos rfl] at f2
      exact fin (f1.up') (f1.rel.trans (by unfold PSt.files; rw [hv])) f2
  case close fd =>
    obtain ⟨hd, hfd, hvol, hro, hon⟩ := hk
    obtain ⟨hin, s1, R, _, r0, hr, d⟩ := call_ok' hc h hp (fun h => by cases h) (fun h => by cases h) he
    have hv := R.alike.vols
    have hh := R.alike.handle
    have hg := R.alike.gen
    have fdeq : ∀ k, IsFd pc s1 fd k ↔ IsFd pc s fd k := fun k => isFd_congr ⟨by rw [hh], by rw [hh]⟩ (by rw [hg])
    obtain ⟨u, rfl⟩ : ∃ u, r0 = .ok u := by cases r0 with | ok u => exact ⟨u, rfl⟩ | error e => cases hr
    rcases d with ⟨_, e, _⟩ | ⟨k, hk, _, _, hfl⟩
    · cases e
    · obtain rfl := isFd_unique hc (h.inv hc) hin hfd ((fdeq k).1 hk)
      rw [hh, hv, hvol] at hfl
      obtain ⟨f1, f2⟩ := hfl
      rw [hro, show (s.vols i).transMask.testBit Event.close.bit = true from hon] at f2
      replace f2 : Posix.Committed pc s' i := f2
      exact fin (f1.up') (f1.rel.trans (by unfold PSt.files; rw [hv])) f2

/-- **C49** When `red_umount` has succeeded, on a volume that is not read-only and for which its event is enabled, then the files, as they were when the call was made, are what
the next mount shows. -/
theorem C49_umount (hc : pc.Ok) (h : PReach pc s) {t : Nat} {vol : List Byte} {flags : Nat} (hp : Permitted pc t (.umount vol flags) s) (hk : VolName pc vol i)
    {a : PReply} (he : pexec pc t (.umount vol flags) s = (.ok a, s')) (hro : (s.vols i).readOnly = false) (hon : (s.vols i).on .umount = true) :
    (s'.vols i).mounted = false ∧ OnDisk (pc.conf i) (s'.vols i) (s.files pc i) := by
  obtain ⟨hin, s1, R, _, r0, hr, d⟩ := call_ok' hc h hp (fun h => by cases h) (fun h => by cases h) he
  obtain ⟨u, rfl⟩ : ∃ u, r0 = .ok u := by cases r0 with | ok u => exact ⟨u, rfl⟩ | error e => cases hr
  have hv := R.alike.vols
  have hi := hk.1.1
  rcases d with ⟨_, e, _⟩ | ⟨_, _, e, _⟩ | ⟨j, hj, _, d⟩
  · cases e
  · cases e
  · obtain rfl := selected_unique hc hk.1 hj.1
    have hx : (s.vols i).mounted = true ∧ (Except.ok Reply.unit, s'.vols i) = exec (pc.conf i) .unmount (s.vols i) := by
      rw [← hv]
      rcases d with ⟨_, e, _⟩ | ⟨_, _, _, e, _⟩ | ⟨hm, _, _, ⟨hx, _⟩, _⟩
      · cases e
      · cases e
      · exact ⟨hm, hx⟩
    obtain ⟨hm, hx⟩ := hx
    obtain ⟨x, ha⟩ := ((h.inv hc).reach i hi).abs (hc.sys i hi)
    obtain ⟨r', v2, x', tr, e', d, a, _⟩ := exec_sim (hc.sys i hi) ha (k := .unmount) trivial
    rw [← hx] at e'; obtain ⟨rfl, rfl⟩ := Prod.mk.inj e'
    have hm' := ha.mounted_iff.trans hm
    obtain ⟨_, a1, a2, a3, a4⟩ := ha.inv hm'
    simp only [Spec.Does] at d
    rw [if_neg (by rw [hm']; decide), if_pos ⟨a3.trans hro, by unfold Sys.on; rw [a4]; exact hon⟩] at d
    obtain ⟨_, rfl, rfl⟩ := d
    refine ⟨a.mounted_iff.symm.trans rfl, (onDisk_iff (hc.sys i hi) a _).2 ?_⟩
    show some x.now = _
    rw [a1]

/-- **C49** When all events of a call are enabled for a volume ("volume full" does not matter), then whatever the call changes on it is committed when the call returns. -/
theorem C49_event (hc : pc.Ok) (h : PReach pc s) (hi : i < pc.n) {t : Nat} {k : PCall} (hp : Permitted pc t k s) (hf : ∀ vol, k ≠ .format vol) {r : Except Err PReply}
    (he : pexec pc t k s = (r, s')) (hm : (s.vols i).mounted = true) (hm' : (s'.vols i).mounted = true) (hev : ∀ ev ∈ k.events, ev ≠ .volfull → (s.vols i).on ev = true) :
    OnDisk (pc.conf i) (s'.vols i) (s'.files pc i) ∨
    (s'.files pc i = s.files pc i ∧ ∀ F, OnDisk (pc.conf i) (s'.vols i) F ↔ OnDisk (pc.conf i) (s.vols i) F) := by
  by_cases hkt : ∃ vol, k = .transact vol
  · obtain ⟨vol, rfl⟩ := hkt
    obtain ⟨x, ha⟩ := ((h.inv hc).reach i hi).abs (hc.sys i hi)
    have hr' := (((h.call hp).inv hc).reach i hi)
    rw [he] at hr'
    have d := (pexec_spec hc (h.inv hc) hp).2
    rw [he] at d
    simp only [PDoes] at d
    rw [if_neg (fun h => by cases h.1)] at d
    obtain ⟨s2, e, x⟩ := d
    have hv : s'.vols = s2.vols := by
      cases r with
      | ok a => rw [show s' = s2 from x]
      | error e =>
        dsimp only at x
        split at x
        · exact x.alike.vols
        · rw [x]
    have same : s2.vols = s.vols → s'.files pc i = s.files pc i ∧ ∀ F, OnDisk (pc.conf i) (s'.vols i) F ↔ OnDisk (pc.conf i) (s.vols i) F := fun e => by
      unfold PSt.files; rw [hv, e]; exact ⟨rfl, fun _ => Iff.rfl⟩
    rcases e with ⟨_, _, rfl⟩ | ⟨_, _, _, rfl⟩ | ⟨_, _, _, _, rfl⟩ | ⟨_, _, s1, R, r0, _, e⟩
    · exact Or.inr (same rfl)
    · exact Or.inr (same rfl)
    · exact Or.inr (same rfl)
    · have hs : s2.vols i = s1.vols i ∨ Same (pc.conf i) (s1.vols i) (s2.vols i) ∨ ∃ r0, (r0, s2.vols i) = exec (pc.conf i) .transact (s1.vols i) := by
        rcases e with ⟨_, _, q⟩ | ⟨j, hj, ⟨hx, ho⟩, _⟩
        · exact Or.inr (Or.inl (q.vols i hi))
        · by_cases hij : i = j
          · subst hij; exact Or.inr (Or.inr ⟨_, hx⟩)
          · exact Or.inl (ho i hij)
      rw [R.alike.vols, ← hv] at hs
      rcases hs with e | e | ⟨r0, e⟩
      · right; unfold PSt.files; rw [e]; exact ⟨rfl, fun _ => Iff.rfl⟩
      · right
        refine ⟨e.files hm, fun F => ?_⟩
        unfold OnDisk
        rw [hm, hm', e.disk hm]
        exact ⟨fun h => ⟨h.1, fun h => by cases h⟩, fun h => ⟨h.1, fun h => by cases h⟩⟩
      · obtain ⟨r', v2, x', tr, e', d, a, _⟩ := exec_sim (hc.sys i hi) ha (k := .transact) trivial
        rw [← e] at e'; obtain ⟨rfl, rfl⟩ := Prod.mk.inj e'
        obtain ⟨_, b1, b2, _⟩ := a.inv (a.mounted_iff.trans hm')
        obtain ⟨_, a1, a2, _⟩ := ha.inv (ha.mounted_iff.trans hm)
        rcases d.settled (fun _ h => by cases h) with g | ⟨g1, g2⟩
        · left; rw [onDisk_iff (hc.sys i hi) a, g, b1]
        · right
          refine ⟨by show files _ _ = files _ _; rw [← a1, ← b1, g1], fun F => ?_⟩
          rw [onDisk_iff (hc.sys i hi) a, onDisk_iff (hc.sys i hi) ha, g2]
  · obtain ⟨x, ha⟩ := ((h.inv hc).reach i hi).abs (hc.sys i hi)
    obtain ⟨x', tr, _, a, _, _, hpol, _⟩ := (pexec_evo hc (h.inv hc) hp.2.1 hf he i hi).sim x ha
    obtain ⟨_, b1, b2, _⟩ := a.inv (a.mounted_iff.trans hm')
    obtain ⟨_, a1, a2, _, a4⟩ := ha.inv (ha.mounted_iff.trans hm)
    have hz : zOf k = some fun ev => ev ∈ k.events := by
      unfold zOf; split
      · exact absurd ⟨_, rfl⟩ hkt
      · rfl
    rw [hz] at hpol
    rcases hpol.2.2 (fun ev h1 h2 => by unfold Sys.on; rw [a4]; exact hev ev h1 h2) with g | ⟨g1, g2⟩
    · left; rw [onDisk_iff (hc.sys i hi) a, g, b1]
    · right
      refine ⟨by show files _ _ = files _ _; rw [← a1, ← b1, g1], fun F => ?_⟩
      rw [onDisk_iff (hc.sys i hi) a, onDisk_iff (hc.sys i hi) ha, g2]

theorem visited_first {L : List PSt} (hv : PVisited pc i s L w) : s ∈ L := by
  induction hv with
  | nil => exact List.mem_cons_self ..
  | call _ _ _ _ ih => exact List.mem_cons_of_mem _ ih
  | crash _ _ _ _ _ ih => exact List.mem_cons_of_mem _ ih
  | idleCrash _ _ ih => exact ih

/-- **C49** Once the call has succeeded, its promise holds forever: after any calls of any tasks and any power losses, what is committed is the state of the volume at the call, or one
of the states it has been in since. -/
theorem C49_durable (hc : pc.Ok) (h : PReach pc s) (hi : i < pc.n) {t : Nat} {k : PCall} (hp : Permitted pc t k s) {a : PReply} (he : pexec pc t k s = (.ok a, s'))
    (hk : k.Flushes pc s i) {L : List PSt} (hv : PVisited pc i s' L w) : ∃ x ∈ L, (x.vols i).mounted = true ∧ OnDisk (pc.conf i) (w.vols i) (x.files pc i) := by
  obtain ⟨h1, h2, h3⟩ := C49_flush hc h hp he hk
  have hr' : PReach pc s' := by have := h.call hp; rw [he] at this; exact this
  obtain ⟨_, G, hG, rfl | ⟨x, hx, hxm, rfl⟩⟩ := C49_never_lost hc hr' hi h3 hv
  · exact ⟨s', visited_first hv, h1, h2 ▸ hG⟩
  · exact ⟨x, hx, hxm, hG⟩

/-! ### Cases -/

/-- All events are enabled for volume 0. -/
def demoM : PSt := pruns demoPC [(5, .setMask [] 4095)] demoS
theorem demoM_reach : PReach demoPC demoM := PReach.steps rfl _ demoS_reach (by decide)
theorem demoM_up : (demoM.vols 0).mounted = true := by decide +kernel
theorem demoM_rw : (demoM.vols 0).readOnly = false := by decide +kernel
theorem demoM_mask : (demoM.vols 0).transMask = 4095 := by decide +kernel
theorem demoM_fd : IsFd demoPC demoM 1048576 0 := ⟨by decide, by decide +kernel, by decide +kernel⟩
theorem demoM_vol : (demoM.handle 0).vol = 0 := by decide +kernel
theorem demoM_on (ev : Event) : (demoM.vols 0).on ev = true := by unfold Vol.on; rw [demoM_mask]; cases ev <;> decide
theorem demoM_fsync : (pexec demoPC 5 (.fsync 1048576) demoM).1 = .ok .unit := isUnit_eq (by decide +kernel)
theorem demoM_umount : (pexec demoPC 5 (.umount [] 1) demoM).1 = .ok .unit := isUnit_eq (by decide +kernel)
theorem demoM_write : (pexec demoPC 5 (.write 1048576 3 fun _ => 7#8) demoM).1 = .ok (.num 3) := isNum_eq (by decide +kernel)
theorem demoM_write_up : ((pexec demoPC 5 (.write 1048576 3 fun _ => 7#8) demoM).2.vols 0).mounted = true := by decide +kernel
/-- What the file "/a" contains is changed by the write. -/
theorem demoM_write_size : (files demoConf ((pexec demoPC 5 (.write 1048576 3 fun _ => 7#8) demoM).2.vols 0) 3).map (·.size) ≠ (files demoConf (demoM.vols 0) 3).map (·.size) := by
  decide +kernel

/-- After any state power may fail. -/
theorem restarted_idle (pc : PConf) (s : PSt) : ∃ w, Restarted pc s s w :=
  ⟨⟨false, s.handle, s.slot, fun _ => 0, none, 0, fun i => bootVol (pc.conf i) (s.vols i).epoch.base⟩, rfl, fun _ => rfl, rfl,
    fun i _ => ⟨[], _, _, rfl, List.mem_cons_self .., .old _ _, boot_boot _ _⟩⟩

/-- `red_fsync` of "/a", then a write, then a power loss. -/
example : ∃ s' L w, PReach demoPC demoM ∧ Permitted demoPC 5 (.fsync 1048576) demoM ∧ pexec demoPC 5 (.fsync 1048576) demoM = (.ok .unit, s') ∧
    PCall.Flushes demoPC demoM 0 (.fsync 1048576) ∧ PVisited demoPC 0 s' L w ∧ L.length = 2 := by
  have h1 := demoM_reach
  have h2 : Permitted demoPC 5 (.fsync 1048576) demoM := demoP (by decide) rfl _
  have h3 := pexec_eta demoM_fsync
  have h4 : PCall.Flushes demoPC demoM 0 (.fsync 1048576) := ⟨0, demoM_fd, demoM_vol, demoM_on _⟩
  generalize demoM = S at *
  generalize (pexec demoPC 5 (.fsync 1048576) S).2 = s' at h3
  obtain ⟨w, hw⟩ := restarted_idle demoPC (pexec demoPC 5 (.write 1048576 3 fun _ => 7#8) s').2
  exact ⟨s', _, w, h1, h2, h3, h4, .idleCrash (.call .nil (demoP (by decide) rfl _) (fun vol h => by cases h) (Prod.mk.eta ..).symm) hw, rfl⟩

/-- `red_umount2("", RED_UMOUNT_FORCE)` -/
example : ∃ s', PReach demoPC demoM ∧ Permitted demoPC 5 (.umount [] 1) demoM ∧ VolName demoPC [] 0 ∧ pexec demoPC 5 (.umount [] 1) demoM = (.ok .unit, s') ∧
    (demoM.vols 0).readOnly = false ∧ (demoM.vols 0).on .umount = true :=
  ⟨_, demoM_reach, demoP (by decide) rfl _, demo_vol0, pexec_eta demoM_umount, demoM_rw, demoM_on _⟩

/-- `red_write` to "/a": the file is changed, so it is committed. -/
example : ∃ s', PReach demoPC demoM ∧ Permitted demoPC 5 (.write 1048576 3 fun _ => 7#8) demoM ∧ pexec demoPC 5 (.write 1048576 3 fun _ => 7#8) demoM = (.ok (.num 3), s') ∧
    (demoM.vols 0).mounted = true ∧ (s'.vols 0).mounted = true ∧ (∀ ev, (demoM.vols 0).on ev = true) ∧ s'.files demoPC 0 ≠ demoM.files demoPC 0 ∧
    OnDisk (demoPC.conf 0) (s'.vols 0) (s'.files demoPC 0) := by
  have h1 := demoM_reach
  have h2 : Permitted demoPC 5 (.write 1048576 3 fun _ => 7#8) demoM := demoP (by decide) rfl _
  have h3 := pexec_eta demoM_write
  have h4 := demoM_up
  have h5 := demoM_write_up
  have h6 := demoM_on
  have h7 := demoM_write_size
  generalize demoM = S at *
  generalize (pexec demoPC 5 (.write 1048576 3 fun _ => 7#8) S).2 = s' at *
  have h8 : s'.files demoPC 0 ≠ S.files demoPC 0 := fun e => h7 (by
    show ((s'.files demoPC 0) 3).map (·.size) = ((S.files demoPC 0) 3).map (·.size)
    rw [e])
  refine ⟨s', h1, h2, h3, h4, h5, h6, h8, ?_⟩
  rcases C49_event demoPC_ok h1 (i := 0) (by decide) h2 (fun vol h => by cases h) h3 h4 h5 (fun ev _ _ => h6 ev) with g | ⟨g, _⟩
  · exact g
  · exact absurd g h8

end RedFs.Props.PosixDurable
