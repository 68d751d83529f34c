import Verif.Lemmas.PosixErr
import Verif.Lemmas.PosixDemo
set_option linter.unusedSimpArgs false
set_option linter.unusedVariables false
set_option linter.unusedSectionVars false
/-!
C50: the errors that are returned are the documented ones.
-/
namespace RedFs.Props.PosixErr
open RedFs Posix M Str Spec

variable {pc : PConf} {s0 s s' : PSt} {t : Nat}

local macro "mem" : tactic => `(tactic| first | (simp only [documented, List.mem_cons, List.mem_nil_iff, or_false] at *; grind) | (simp [documented]; done))

/-- The errors of a call when the driver is initialized and the task registered. -/
theorem body_errors (hc : pc.Ok) (hi : PInv pc s) (hin : s.inited = true) (hw : WriteOk pc s) (R : Registers pc t s0 s) {k : PCall} (hk : k.Ok) {e : Err}
    (h : BodyDoes pc t k s (.error e) s') : e ∈ documented k ∨ Undocumented pc t s0 k e := by
  have hvols : s.vols = s0.vols := R.same.2.1
  have hhandle : s.handle = s0.handle := R.same.2.2.1
  have hgen : s.gen = s0.gen := R.same.2.2.2.1
  have un : ∀ {α : Type} {f : α → PReply} {r0 : Except Err α}, Except.error e = r0.map f → r0 = .error e := by
    intro α f r0 h; cases r0 with
    | error x => injection h with h; rw [h]
    | ok a => cases h
  have vol : ∀ {α : Type} {path : List Byte} {k : Call} {f : α → Reply}, VolDoes pc path k f s (.error e) s' → (∀ i, i < pc.n → k.Ok (pc.conf i)) →
      e = .enoent ∨ ∃ i y y' tr, VolName pc path i ∧ Spec.Does (pc.conf i) k y (.error e) y' tr ∧ y.mounted = (s.vols i).mounted ∧ (y.mounted = true → y.ro = (s.vols i).readOnly) := by
    intro α path k f h hk
    rcases h with ⟨_, h⟩ | ⟨i, hv, h, _⟩
    · have := h.1; cases this; exact Or.inl rfl
    · obtain ⟨y, y', tr, d, h1, h2⟩ := core_err hc hi hv.1.1 h (hk i hv.1.1)
      exact Or.inr ⟨i, y, y', tr, hv, d, h1, h2⟩
  have fl : ∀ {α : Type} {e' : Err}, Fails (α := α) pc s (.error e) s' e' → e = e' := by intro α e' h; have := h.1; cases this; rfl
  have names : ∀ {path : List Byte} {re : Err} {e' : Err} {α : Type}, Names pc s t path re (.error e') → Fails (α := α) pc s (.error e) s' e' →
      e ∈ [Err.enoent, .einval, .enotdir, .enametoolong, re] := by
    intro path re e' α h f
    rw [fl f]; exact h.errors
  have finds : ∀ {path : List Byte} {e' : Err} {α : Type}, Finds pc s t path (.error e') → Fails (α := α) pc s (.error e) s' e' →
      e ∈ [Err.enoent, .einval, .enotdir, .enametoolong] := by
    intro path e' α h f
    rw [fl f]
    rcases h.errors with h | ⟨rfl, _⟩
    · mem
    · mem
  cases k with
  | init => exact absurd h id
  | uninit =>
    obtain ⟨r0, hr, h⟩ := h
    replace hr := un hr; subst hr
    by_cases x : ∃ i, i < pc.n ∧ (s.vols i).mounted = true
    · have := (h.1 x).1; cases this; exact Or.inl (by mem)
    · have := (h.2 x).1; cases this
  | sync => obtain ⟨r0, hr, h⟩ := h; replace hr := un hr; subst hr; cases h.1
  | mount v flags =>
    obtain ⟨r0, hr, h⟩ := h
    replace hr := un hr; subst hr
    left
    rcases h with ⟨_, h⟩ | ⟨i, hv, ⟨_, h⟩ | ⟨_, _, h⟩ | ⟨hm, _, h, _⟩⟩
    · rw [fl h]; mem
    · rw [fl h]; mem
    · rw [fl h]; mem
    · obtain ⟨y, y', tr, d, h1, h2⟩ := core_err hc hi hv.1.1 h trivial
      obtain ⟨_, d⟩ := d
      rw [if_neg (by rw [h1, hm]; simp)] at d
      split at d
      · cases d.1; mem
      · cases d.1
  | umount v flags =>
    obtain ⟨r0, hr, h⟩ := h
    replace hr := un hr; subst hr
    left
    rcases h with ⟨_, h⟩ | ⟨_, _, h⟩ | ⟨i, hv, _, ⟨_, h⟩ | ⟨_, _, _, h⟩ | ⟨_, _, hr, h, _⟩⟩
    · rw [fl h]; mem
    · rw [fl h]; mem
    · rw [fl h]; mem
    · rw [fl h]; mem
    · cases hr
  | format v =>
    obtain ⟨r0, hr, h⟩ := h
    replace hr := un hr; subst hr
    left
    rcases h with ⟨_, h⟩ | ⟨i, hv, ⟨_, h⟩ | ⟨_, hr, _⟩⟩
    · rw [fl h]; mem
    · rw [fl h]; mem
    · cases hr
  | transact v =>
    obtain ⟨r0, hr, h⟩ := h
    replace hr := un hr; subst hr
    left
    rcases vol h (fun _ _ => trivial) with rfl | ⟨i, y, y', tr, hv, d, h1, h2⟩
    · mem
    · have d : if _ then _ else _ := d
      split at d
      · cases d.1; mem
      · split at d
        · cases d.1; mem
        · cases d.1
  | rollback v =>
    obtain ⟨r0, hr, h⟩ := h
    replace hr := un hr; subst hr
    left
    rcases h with ⟨_, h⟩ | ⟨i, hv, ⟨_, h⟩ | ⟨_, h, _⟩⟩
    · rw [fl h]; mem
    · rw [fl h]; mem
    · obtain ⟨y, y', tr, d, h1, h2⟩ := core_err hc hi hv.1.1 h trivial
      obtain ⟨_, d⟩ := d
      split at d
      · cases d.1; mem
      · split at d
        · cases d.1; mem
        · cases d.1
  | setMask v mask =>
    obtain ⟨r0, hr, h⟩ := h
    replace hr := un hr; subst hr
    rcases vol h (fun _ _ => trivial) with rfl | ⟨i, y, y', tr, hv, d, h1, h2⟩
    · left; mem
    · obtain ⟨_, d⟩ := d
      split at d
      · cases d.1; left; mem
      · rename_i hx
        split at d
        · rename_i hr
          cases d.1
          have hm : y.mounted = true := by cases hy : y.mounted with | true => rfl | false => exact absurd (Or.inl hy) hx
          exact Or.inr (.setMask hv (by rw [← hvols, ← h1]; exact hm) (by rw [← hvols, ← h2 hm]; exact hr))
        · cases d.1
  | getMask v =>
    obtain ⟨r0, hr, h⟩ := h
    replace hr := un hr; subst hr
    left
    rcases vol h (fun _ _ => trivial) with rfl | ⟨i, y, y', tr, hv, d, h1, h2⟩
    · mem
    · obtain ⟨_, _, d⟩ := d
      split at d
      · cases d; mem
      · cases d
  | statvfs v =>
    obtain ⟨r0, hr, h⟩ := h
    replace hr := un hr; subst hr
    left
    rcases vol h (fun i hi => hc.posix i hi) with rfl | ⟨i, y, y', tr, hv, d, h1, h2⟩
    · mem
    · obtain ⟨_, _, d⟩ := d
      split at d
      · cases d; mem
      · obtain ⟨r0, hr, d⟩ := d
        cases r0 with
        | error x => exact absurd d id
        | ok a => cases hr
  | «open» path mode =>
    obtain ⟨r0, hr, h⟩ := h
    replace hr := un hr; subst hr
    left
    by_cases hm : ModeOk mode
    · rcases fildesOpen_err hc hi hin hk (h.1 hm) with h | ⟨_, h⟩ | ⟨h, _⟩ | ⟨_, h⟩ | ⟨_, h⟩ | ⟨h, _⟩ <;> mem
    · rw [fl (h.2 hm)]; mem
  | unlink path =>
    obtain ⟨r0, hr, h⟩ := h
    replace hr := un hr; subst hr
    rcases h with ⟨_, hn, h⟩ | ⟨v, p, nm, hn, o, h⟩
    · have := names hn h; left; mem
    · obtain ⟨start, l, hst, _, _, hp⟩ := hn.live hc hi hin hk
      rcases remove_err o.rel hp with h | ⟨rfl, hr⟩
      · left; mem
      · exact Or.inr (.unlink R hst (by rw [← hvols]; exact hr))
  | mkdir path =>
    obtain ⟨r0, hr, h⟩ := h
    replace hr := un hr; subst hr
    rcases h with ⟨_, hn, h⟩ | ⟨v, p, nm, r1, hn, hr, o, h⟩
    · have := names hn h; left; mem
    · obtain ⟨start, l, hst, _, _, hp⟩ := hn.live hc hi hin hk
      have hr : r1 = .error e := by cases r1 with | error x => injection hr with hr; rw [hr] | ok a => cases hr
      subst hr
      have hrel := o.rel
      unfold Rw at hrel
      split at hrel
      · cases hrel.1; left; mem
      · rcases create_err hrel hp with h | ⟨rfl, h⟩
        · left; mem
        · exact Or.inr (.mkdir R hst (by unfold PSt.files; rw [← hvols]; exact h))
  | rmdir path =>
    obtain ⟨r0, hr, h⟩ := h
    replace hr := un hr; subst hr
    left
    rcases h with ⟨_, hn, h⟩ | ⟨v, p, nm, hn, o, h⟩
    · have := names hn h; mem
    · obtain ⟨start, l, hst, _, _, hp⟩ := hn.live hc hi hin hk
      rcases remove_err o.rel hp with h | ⟨rfl, hr⟩
      · mem
      · mem
  | rename old new =>
    obtain ⟨r0, hr, h⟩ := h
    replace hr := un hr; subst hr
    left
    rcases h with ⟨_, hs, h⟩ | ⟨_, _, _, hs, h⟩ | ⟨_, _, _, _, _, h⟩ | ⟨_, _, _, _, _, _, hn, h⟩ | ⟨_, _, _, _, _, _, _, hn, h⟩ | ⟨v, p, nm, p', nm', hn, hn', h⟩
    · rw [fl h, hs.error]; mem
    · rw [fl h, hs.error]; mem
    · rw [fl h]; mem
    · have := names hn h; mem
    · have := names hn h; mem
    · obtain ⟨start, l, hst, _, _, hp⟩ := hn.live hc hi hin hk.1
      obtain ⟨start', l', hst', _, _, hp'⟩ := hn'.live hc hi hin hk.2
      rcases h with ⟨x, _, hl, _, h⟩ | ⟨_, _, _, _, h⟩ | ⟨_, o, _⟩
      · rw [fl h]; have := lookup_err hl hp'; mem
      · rw [fl h]; mem
      · have hrel := o.rel
        unfold Rw at hrel
        split at hrel
        · cases hrel.1; mem
        · have := rename_err hrel hp hp'; mem
  | link path new =>
    obtain ⟨r0, hr, h⟩ := h
    replace hr := un hr; subst hr
    left
    rcases h with ⟨_, hs, h⟩ | ⟨_, _, _, hs, h⟩ | ⟨_, _, _, _, _, h⟩ | ⟨_, _, _, _, _, _, hn, h⟩ | ⟨_, _, _, _, _, _, _, hn, h⟩ | ⟨v, i, p, nm, hf, hn, o, _⟩
    · rw [fl h, hs.error]; mem
    · rw [fl h, hs.error]; mem
    · rw [fl h]; mem
    · have := finds hn h; mem
    · have := names hn h; mem
    · obtain ⟨start, l, hst, _, _, hp⟩ := hn.live hc hi hin hk.2
      obtain ⟨_, _, hl⟩ := hf.live hc hi hin hk.1
      have hrel := o.rel
      unfold Rw at hrel
      split at hrel
      · cases hrel.1; mem
      · have := link_err hrel hp hl; mem
  | close fd =>
    obtain ⟨r0, hr, h⟩ := h
    replace hr := un hr; subst hr
    left
    rcases h with ⟨_, h⟩ | ⟨k, _, h, _, _⟩
    · rw [fl h]; mem
    · cases h
  | read fd len =>
    obtain ⟨r0, hr, h⟩ := h
    replace hr := un hr; subst hr
    left
    rcases h with ⟨_, hb, h⟩ | ⟨k, _, ⟨_, h⟩ | ⟨f, _, _, h, q⟩⟩
    · rw [fl h]; rcases hb with ⟨rfl, _⟩ | ⟨rfl, _⟩ <;> mem
    · rw [fl h]; mem
    · cases h
  | write fd len buf =>
    obtain ⟨r0, hr, h⟩ := h
    replace hr := un hr; subst hr
    left
    rcases h with ⟨_, h⟩ | ⟨k, hf, ⟨_, h⟩ | ⟨f, pos, hwr, hreg, _, o, _⟩⟩
    · rw [fl h]; mem
    · rw [fl h]; mem
    · have hro := hw hin k hf.1.1 hf.1.2.1 hwr
      have hrel := o.rel
      unfold Rw at hrel
      rw [hro, if_neg (by simp)] at hrel
      obtain ⟨_, h | ⟨_, _, h⟩⟩ := hrel
      · exact (notReg_err h hreg).elim
      · split at h
        · rw [h]; mem
        · rw [h.1]; mem
  | fsync fd =>
    obtain ⟨r0, hr, h⟩ := h
    replace hr := un hr; subst hr
    rcases h with ⟨_, h⟩ | ⟨k, hf, ⟨h1, h2, h⟩ | ⟨h, _⟩⟩
    · left; rw [fl h]; mem
    · rw [fl h]
      rw [hhandle, hvols] at h1 h2
      refine Or.inr (.fsync (k := k) ?_ h2 h1)
      unfold IsFd PSt.fd at hf ⊢
      rw [← hhandle, ← hgen]; exact hf
    · cases h
  | lseek fd off whence =>
    obtain ⟨r0, hr, h⟩ := h
    replace hr := un hr; subst hr
    left
    rcases h with ⟨_, hb, h⟩ | ⟨k, f, _, _, ⟨_, h⟩ | ⟨o, _, h⟩⟩
    · rw [fl h]; rcases hb with ⟨rfl, _⟩ | ⟨rfl, _⟩ <;> mem
    · rw [fl h]; mem
    · by_cases x : 0 ≤ (o : Int) + off ∧ (o : Int) + off ≤ (pc.conf (s.handle k).vol).sizeMax
      · obtain ⟨_, _, h, q⟩ := h.1 x; cases h
      · rw [fl (h.2 x)]; mem
  | ftruncate fd size =>
    obtain ⟨r0, hr, h⟩ := h
    replace hr := un hr; subst hr
    left
    rcases h with ⟨_, h⟩ | ⟨k, hf, ⟨_, h⟩ | ⟨hwr, o, _⟩⟩
    · rw [fl h]; mem
    · rw [fl h]; mem
    · have hro := hw hin k hf.1.1 hf.1.2.1 hwr
      have hrel := o.rel
      unfold Rw at hrel
      rw [hro, if_neg (by simp)] at hrel
      have H := hi.handle hin k hf.1.1 hf.1.2.1
      obtain ⟨f, hff, hd⟩ := H.file
      obtain ⟨_, h | ⟨_, _, h⟩⟩ := hrel
      · rcases h with ⟨_, h⟩ | ⟨_, g, h⟩
        · rw [show s.files pc _ _ = _ from hff] at h; cases h
        · have e := h.1; rw [show s.files pc _ _ = _ from hff] at e; injection e with e; subst e
          have := hd.2 h.2; rw [hf.2] at this; cases this
      · split at h
        · rw [h]; mem
        · rw [h]; mem
  | fstat fd =>
    obtain ⟨r0, hr, h⟩ := h
    replace hr := un hr; subst hr
    left
    rcases h with ⟨_, h⟩ | ⟨k, _, _, h, _, q⟩
    · rw [fl h]; mem
    · cases h
  | opendir path =>
    obtain ⟨r0, hr, r1, h, hr1⟩ := h
    replace hr := un hr; subst hr
    rcases hr1 with ⟨x, h1, h2⟩ | ⟨_, _, _, h2⟩
    · cases h2
      subst h1
      rcases fildesOpen_err hc hi hin hk h with h | ⟨h', h⟩ | ⟨_, h'⟩ | ⟨h', h⟩ | ⟨h', h⟩ | ⟨h, _, _, _, _, h1, h2, h3⟩
      · left; mem
      · exact absurd h' (by decide)
      · exact absurd h' (by decide)
      · exact absurd rfl h'
      · exact absurd h' (by decide)
      · rw [h]; exact Or.inr (.opendir R h1 h2 h3)
    · cases h2
  | readdir dir =>
    obtain ⟨r0, hr, h⟩ := h
    replace hr := un hr; subst hr
    left
    rcases h with ⟨_, h⟩ | ⟨_, _, _, _, q, ⟨_, h⟩ | ⟨_, _, _, _, h, _⟩⟩
    · rw [fl h]; mem
    · cases h
    · cases h
  | rewinddir dir => obtain ⟨r0, hr, h⟩ := h; replace hr := un hr; subst hr; cases h.1
  | closedir dir =>
    obtain ⟨r0, hr, h⟩ := h
    replace hr := un hr; subst hr
    left
    by_cases x : IsDirStream pc s dir
    · have := (h.1 x).1; cases this
    · have := (h.2 x).1; cases this; mem
  | chdir path =>
    obtain ⟨r0, hr, h⟩ := h
    replace hr := un hr; subst hr
    left
    rcases h with ⟨_, hf, h⟩ | ⟨_, _, _, ⟨_, h⟩ | ⟨_, h, _⟩⟩
    · have := finds hf h; mem
    · rw [fl h]; mem
    · cases h
  | getcwd size =>
    obtain ⟨r0, hr, q, j, _, h⟩ := h
    replace hr := un hr; subst hr
    left
    split at h
    · obtain ⟨cs, _, h⟩ := h
      dsimp only at h
      split at h
      · cases h
      · cases h; mem
    · split at h
      · cases h
      · cases h; mem

/-- **C50** In every state that can be reached, a call fails only with an error that is listed in its documentation, or for one of the reasons in `Undocumented`. -/
theorem C50_documented (hc : pc.Ok) (h : PReach pc s) {k : PCall} (hp : Permitted pc t k s) {e : Err} (he : pexec pc t k s = (.error e, s')) :
    e ∈ documented k ∨ Undocumented pc t s k e := by
  have d := (pexec_spec hc (h.inv hc) hp).2
  rw [he] at d
  dsimp only at d
  by_cases hk : k = .init
  · subst hk; cases d.1
  by_cases hu : k.isUninit = true ∧ s.inited = false
  · have d' : (Except.error e : Except Err PReply) = .ok .unit ∧ s' = s := by
      cases k <;> first | exact absurd rfl hk | (simp only [PDoes] at d; rw [if_pos hu] at d; exact d)
    cases d'.1
  have d' : ∃ s2, EnterDoes pc t k s (.error e) s2 := by
    cases k <;> first | exact absurd rfl hk | (simp only [PDoes] at d; rw [if_neg hu] at d; exact ⟨_, d.choose_spec.1⟩)
  obtain ⟨s2, d⟩ := d'
  rcases d with ⟨hb, hr, _⟩ | ⟨_, hin, hr, _⟩ | ⟨_, hin, hn, hr, _⟩ | ⟨_, hin, s1, R, b⟩
  · cases hr; left; cases k <;> first | exact absurd hb id | mem
  · cases hr; exact Or.inr (.down hin)
  · cases hr
    by_cases hx : k = .uninit ∨ ∃ d, k = .rewinddir d
    · exact Or.inr (.users hin hn hx)
    · left
      cases k <;> first | exact absurd rfl hk | exact absurd (Or.inl rfl) hx | exact absurd (Or.inr ⟨_, rfl⟩) hx | mem
  · exact body_errors hc (R.inv (h.inv hc) hp.1) (R.same.1.trans hin) ((h.writeOk hc).alike R.alike) R hp.2.1 b

/-- **C50** No call reports that the driver is broken, or that something is not supported. -/
theorem C50_never (hc : pc.Ok) (h : PReach pc s) {k : PCall} (hp : Permitted pc t k s) {e : Err} (he : pexec pc t k s = (.error e, s')) :
    e ≠ .efubar ∧ e ≠ .hang ∧ e ≠ .enomem ∧ e ≠ .enosys ∧ e ≠ .enodata := by
  rcases C50_documented hc h hp he with x | x
  · cases k <;> (simp only [documented, List.mem_cons, List.mem_nil_iff, or_false] at x <;> grind)
  · cases x <;> simp

/-- **C50** A volume that stays mounted does not become read-only, nor writeable. -/
theorem C50_read_only (hc : pc.Ok) (h : PReach pc s) {k : PCall} (hp : Permitted pc t k s) {i : Nat} (hi : i < pc.n) (hm : (s.vols i).mounted = true)
    (hm' : ((pexec pc t k s).2.vols i).mounted = true) : ((pexec pc t k s).2.vols i).readOnly = (s.vols i).readOnly := by
  rcases step_cases hc (h.inv hc) hp (Prod.mk.eta (p := pexec pc t k s)).symm with ⟨_, hin, _⟩ | ⟨h, _⟩ | ⟨hin, s1, s2, _, hi1, a1, b, a2⟩
  · rw [(h.inv hc).down hin i hi] at hm; cases hm
  · rw [h.vols]
  · generalize (pexec pc t k s).2 = q at *
    rw [a2.vols] at hm' ⊢
    rw [body_ro hc hi1 b i hi (by rw [a1.vols]; exact hm) hm', a1.vols]

/-! ### Examples -/

/-- The volume "/m" has been mounted read-only, and its file "/m/b" has been opened; on the other volume all inodes are in use. -/
def errL : List (Nat × PCall) :=
  [(6, .setMask [47#8, 109#8] 4095), (6, .open [47#8, 109#8, 47#8, 99#8] 18), (6, .transact [47#8, 109#8]), (6, .umount [47#8, 109#8] 1), (6, .mount [47#8, 109#8] 1), (6, .open [47#8, 109#8, 47#8, 98#8] 1),
   (5, .mkdir [47#8, 101#8])]
def errS : PSt := pruns demoPC errL demoS
theorem errS_reach : PReach demoPC errS := PReach.steps rfl errL demoS_reach (by decide)

/-- The calls, and what they return. -/
def errCalls : List (Nat × PCall × Err) :=
  [(5, .unlink [47#8, 109#8, 47#8, 99#8], .erofs), (6, .fsync 2101249, .erofs), (6, .setMask [47#8, 109#8] 0, .erofs), (5, .mkdir [47#8, 102#8], .enfile),
   (5, .opendir (47#8 :: List.replicate 20 98#8), .enametoolong), (7, .uninit, .eusers), (5, .rmdir [47#8, 109#8, 47#8, 98#8], .enotdir), (5, .open [47#8, 109#8, 47#8, 98#8] 2, .erofs),
   (5, .write 2101249 1 fun _ => 0#8, .ebadf)]

theorem err_calls : (errCalls.all fun x => x.2.1.okB && isError x.2.2 (pexec demoPC x.1 x.2.1 errS).1) = true := by decide +kernel

theorem undoc : ((errCalls.take 6).all fun x => decide (x.1 ≠ 0) && decide (x.2.2 ∉ documented x.2.1)) = true := by decide

/-- **C50** The documentation is not complete: these calls return errors it does not list. -/
theorem C50_undocumented : PReach demoPC errS ∧ ∀ x ∈ errCalls.take 6, Permitted demoPC x.1 x.2.1 errS ∧ (∃ s', pexec demoPC x.1 x.2.1 errS = (.error x.2.2, s')) ∧
    x.2.2 ∉ documented x.2.1 := by
  refine ⟨errS_reach, fun x hx => ?_⟩
  have h1 := List.all_eq_true.1 err_calls x (List.mem_of_mem_take hx)
  have h2 := List.all_eq_true.1 undoc x hx
  simp only [Bool.and_eq_true, decide_eq_true_eq] at h1 h2
  exact ⟨demoP h2.1 h1.1 _, ⟨_, pexec_eta (isError_eq h1.2)⟩, h2.2⟩

/-- `C50_documented`: the hypotheses hold, and the error is a documented one. -/
example : PReach demoPC errS ∧ Permitted demoPC 5 (.open [47#8, 109#8, 47#8, 98#8] 2) errS ∧ (∃ s', pexec demoPC 5 (.open [47#8, 109#8, 47#8, 98#8] 2) errS = (.error .erofs, s')) ∧
    Err.erofs ∈ documented (.open [47#8, 109#8, 47#8, 98#8] 2) := by
  have h1 := List.all_eq_true.1 err_calls (5, .open [47#8, 109#8, 47#8, 98#8] 2, .erofs) (by simp [errCalls])
  simp only [Bool.and_eq_true, decide_eq_true_eq] at h1
  exact ⟨errS_reach, demoP (by simp) h1.1 _, ⟨_, pexec_eta (isError_eq h1.2)⟩, by decide⟩

theorem err_ro : (errS.vols 1).mounted = true ∧ (errS.vols 1).readOnly = true ∧ ((pexec demoPC 6 (.close 2101249) errS).2.vols 1).mounted = true := by decide +kernel

/-- `C50_read_only`: a read-only volume that stays mounted. -/
example : PReach demoPC errS ∧ Permitted demoPC 6 (.close 2101249) errS ∧ (1 : Nat) < demoPC.n ∧ (errS.vols 1).mounted = true ∧ (errS.vols 1).readOnly = true ∧
    ((pexec demoPC 6 (.close 2101249) errS).2.vols 1).mounted = true :=
  ⟨errS_reach, demoP (by simp) (by decide) _, by decide, err_ro.1, err_ro.2.1, err_ro.2.2⟩

end RedFs.Props.PosixErr
