import Verif.Lemmas.TimesOp
import Verif.Lemmas.Refine
import Verif.Spec.Times
set_option linter.unusedSimpArgs false
set_option linter.unusedVariables false
/-!
The stamps after any call.
-/
namespace RedFs.Times
open RedFs M Str

variable {c : Conf} {clk : Nat → Nat} {α β : Type} {P : Files → Prop}

/-! ### The fields after a list of marks -/

theorem stamps_fld (hts : c.timestamps = true) {fld : Stamp → Nat} {bit : Mark → Bool} (hf : ∀ s (e : Mark) x, fld (s.mark e.a e.m e.ch x) = if bit e = true then x else fld s)
    (i : Nat) (L : List Mark) : ∀ t, t.reads ≤ (stamps c clk L t).reads ∧
      ((∃ x ∈ L, x.i = i ∧ bit x = true) → ∃ j, t.reads ≤ j ∧ j < (stamps c clk L t).reads ∧ fld ((stamps c clk L t).work i) = clk j) ∧
      ((¬ ∃ x ∈ L, x.i = i ∧ bit x = true) → fld ((stamps c clk L t).work i) = fld (t.work i)) := by
  induction L with
  | nil =>
    intro t
    rw [stamps_nil]
    exact ⟨Nat.le_refl _, fun ⟨x, hx, _⟩ => (by cases hx), fun _ => rfl⟩
  | cons e L ih =>
    intro t
    have hs : stamps c clk (e :: L) t = stamps c clk L (stamp clk t e) := by
      unfold stamps; rw [if_pos hts, if_pos hts]; rfl
    rw [hs]
    obtain ⟨h1, h2, h3⟩ := ih (stamp clk t e)
    have hr : (stamp clk t e).reads = t.reads + 1 := rfl
    rw [hr] at h1 h2
    refine ⟨by omega, fun hx => ?_, fun hx => ?_⟩
    · by_cases hL : ∃ x ∈ L, x.i = i ∧ bit x = true
      · obtain ⟨j, g1, g2, g3⟩ := h2 hL
        exact ⟨j, by omega, g2, g3⟩
      · have he : e.i = i ∧ bit e = true := by
          obtain ⟨x, hx, hb⟩ := hx
          rcases List.mem_cons.1 hx with rfl | hx
          · exact hb
          · exact absurd ⟨x, hx, hb⟩ hL
        refine ⟨t.reads, Nat.le_refl _, by omega, ?_⟩
        rw [h3 hL]
        unfold stamp Clk.set
        dsimp only
        rw [if_pos he.1.symm, hf, if_pos he.2]
    · rw [h3 (fun ⟨x, hx', hb⟩ => hx ⟨x, List.mem_cons_of_mem _ hx', hb⟩)]
      unfold stamp Clk.set
      dsimp only
      split
      · next he =>
        rw [hf, if_neg (fun hb => hx ⟨e, List.mem_cons_self, he.symm, hb⟩)]
      · rfl

theorem taken_of {fld : Stamp → Nat} {bit : Mark → Bool} (hts : c.timestamps = true) (hf : ∀ s (e : Mark) x, fld (s.mark e.a e.m e.ch x) = if bit e = true then x else fld s)
    {i : Nat} {L : List Mark} {t t' : Clk} (ht : SameAs t' (stamps c clk L t)) {Q : Prop} (hQ : Q ↔ ∃ x ∈ L, x.i = i ∧ bit x = true) :
    Taken clk t.reads t'.reads Q (fld (t.work i)) (fld (t'.work i)) := by
  obtain ⟨h1, h2, h3⟩ := stamps_fld (clk := clk) hts hf i L t
  refine ⟨fun h => ?_, fun h => ?_⟩
  · obtain ⟨j, g1, g2, g3⟩ := h2 (hQ.1 h)
    exact ⟨j, g1, by rw [ht.2.1]; exact g2, by rw [ht.1]; exact g3⟩
  · rw [ht.1]
    exact h3 (fun hh => h (hQ.2 hh))

/-! ### Each call -/

/-- The inodes `RedInodePut` and `RedInodeCreate` have stamped in the last, successful attempt. -/
def MarkOf (c : Conf) (ro : Bool) (F : Files) : Call → Reply → List Mark → Prop
  | .create p _ _, .num j, L => L = [⟨j, true, true, true⟩, ⟨p, false, true, true⟩]
  | .link p _ ino, _, L => L = [⟨ino, false, false, true⟩, ⟨p, false, true, true⟩]
  | .unlink p nm, _, L => ∃ j g, Has c F p (nameOf c nm) j ∧ F j = some g ∧ L = (if 1 < g.nlink then [⟨j, false, false, true⟩] else []) ++ [⟨p, false, true, true⟩]
  | .rename p nm p' nm', _, L => (L = [] ∧ SameFile c F p (nameOf c nm) p' (nameOf c nm')) ∨
      ∃ i, Has c F p (nameOf c nm) i ∧ ¬ SameFile c F p (nameOf c nm) p' (nameOf c nm') ∧
        L = [⟨i, false, false, true⟩, ⟨p', false, true, true⟩] ++ (if p = p' then [] else [⟨p, false, true, true⟩])
  | .write ino _ _ _, _, L => L = [⟨ino, false, true, true⟩]
  | .truncate ino _, _, L => L = [⟨ino, false, true, true⟩]
  | .read ino _ len, _, L => L = if c.atime = true ∧ 0 < len ∧ ro = false then [⟨ino, true, false, false⟩] else []
  | .dirRead p _, .entry _ x, L => L = if c.atime = true ∧ ro = false ∧ x.isSome = true then [⟨p, true, false, false⟩] else []
  | .create .., _, _ => False
  | .dirRead .., _, _ => False
  | _, _, L => L = []

theorem Done.map {F : Files} {Q : α → List Mark → Prop} {Q' : β → List Mark → Prop} {f : α → β} (hQ : ∀ a L, Q a L → Q' (f a) L) {m : TM α} {s s' : St} {r : Except Err β}
    (hm : ∀ {r' s1}, m s = (r', s1) → Done c clk F Q s r' s1) (h : (do let a ← m; pure (f a) : TM β) s = (r, s')) : Done c clk F Q' s r s' := by
  rcases bind_inv h with ⟨e, h1, rfl⟩ | ⟨a, s1, h1, hh⟩
  · have D := hm h1
    exact ⟨fun e' he => (by cases he; exact D.err _ rfl), fun a ha => (by cases ha), D.keep⟩
  · obtain ⟨rfl, rfl⟩ := pure_inv hh
    have D := hm h1
    refine ⟨fun e' he => (by cases he), fun b hb => ?_, D.keep⟩
    cases hb
    obtain ⟨L0, L, g1, g2, g3⟩ := D.ok a rfl
    exact ⟨L0, L, g1, hQ _ _ g2, g3⟩

theorem Marks.done {L : α → List Mark} {F : Files} {Q : α → List Mark → Prop} {m : TM α} {m' : VM α} (her : Er id m m') (hkb : KB m') {s s' : St} {r : Except Err α}
    (hT : TI s) (h : m s = (r, s')) (hM : Marks c clk L s r s') (hQ : ∀ a, Q a (L a)) : Done c clk F Q s r s' := by
  have hM' : Marked c clk Q s r s' := hM.marked hQ
  have he := her s
  rw [h] at he
  refine ⟨fun e he' => ⟨[], fun x hx => (by cases hx), by rw [stamps_nil, hM.err e he']; exact .refl _⟩, fun a ha => ?_, hM'.ti (fun hb => ?_) hT⟩
  · exact ⟨[], L a, fun x hx => (by cases hx), hQ a, by rw [(hM.ok a ha).2]; exact .refl _⟩
  · have := hkb s.v hb
    rw [he] at this
    exact this

/-- Nothing is stamped, and nothing changed. -/
theorem Done.nothing {F : Files} {Q : α → List Mark → Prop} {s s' : St} {r : Except Err α} (hb : s'.v.branched = s.v.branched) (ht : s'.t = s.t) (hT : TI s) (hQ : ∀ a, r = .ok a → Q a []) :
    Done c clk F Q s r s' :=
  ⟨fun _ _ => ⟨[], fun x hx => (by cases hx), by rw [stamps_nil, ht]; exact .refl _⟩,
   fun a ha => ⟨[], [], fun x hx => (by cases hx), hQ a ha, by rw [List.append_nil, stamps_nil, ht]; exact .refl _⟩, fun hh => by rw [ht]; exact hT (hb ▸ hh)⟩

/-- Calls which do not change what is mounted, and do not discard changes. -/
def Plain : Call → Prop
  | .rollback | .mount _ | .unmount => False
  | _ => True

/-- Calls that only answer. -/
def IsAsk : Call → Prop
  | .lookup .. | .dirParent _ | .stat _ | .fileSize _ | .statfs | .maskSet _ | .maskGet => True
  | _ => False

theorem ask_same (hc : c.SysOk) {k : Call} (hk : k.Ok c) {v v' : Vol} {r : Except Err Reply} (hi : Inv c (Sound c) v) (h : RedFs.exec c k v = (r, v'))
    (hq : IsAsk k) :
    v'.branched = v.branched ∧ v'.mounted = v.mounted := by
  have ok := hc.ok
  have same : ∀ {α : Type} {f : α → Reply} {m : VM α} {r0 : Except Err α}, m v = (r0, v) → reply f m v = (r, v') → v' = v := by
    intro α f m r0 hm hr
    unfold reply at hr
    rw [run_bind, hm] at hr
    cases r0 <;> exact (Prod.mk.inj hr).2.symm
  have eq : v' = v → v'.branched = v.branched ∧ v'.mounted = v.mounted := fun e => by rw [e]; exact ⟨rfl, rfl⟩
  cases k with
  | lookup p name =>
    have h' := hi
    rw [Sound.posix hk.1] at h'
    obtain ⟨r, e, q⟩ := coreLookup_spec ok (hc.posixOk hk.1) h' p hk.2
    exact eq (same e h)
  | dirParent p =>
    have h' := hi
    rw [Sound.posix hk] at h'
    rcases coreDirParent_spec ok (hc.posixOk hk) h' p with ⟨e, q1, q2⟩ | ⟨f, q1, q2⟩ <;> exact eq (same q2 h)
  | stat ino =>
    rcases coreStat_spec ok hi ino with ⟨q1, q2⟩ | ⟨f, st, q1, q2, _⟩ <;> exact eq (same q2 h)
  | fileSize ino =>
    have : ∃ r0, coreFileSizeGet c ino v = (r0, v) := by
      unfold coreFileSizeGet
      rw [whenMounted_run hi.mounted, run_bind]
      rcases mountFile ok hi.wf ino false with ⟨e, h1, h2⟩ | ⟨f, ci, v1, hr, h2, fr, hd, hnb⟩
      · exact ⟨.error e, by rw [h2]⟩
      · obtain ⟨rfl, _⟩ := hnb rfl
        exact ⟨.ok ci.node.size, by rw [h2]; rfl⟩
    obtain ⟨r0, e⟩ := this
    exact eq (same e h)
  | statfs =>
    refine eq (same (r0 := .ok ⟨c.blockCount, v.work.freeBlocks - c.reserved, c.inodeCount, v.work.freeInodes, v.readOnly⟩) ?_ h)
    unfold coreVolStat; rw [whenMounted_run hi.mounted]; rfl
  | maskGet =>
    refine eq (same (r0 := .ok v.transMask) ?_ h)
    unfold coreTransMaskGet; rw [whenMounted_run hi.mounted]; rfl
  | maskSet mask =>
    by_cases hmask : mask &&& c.transactMask = mask
    · cases hr : v.readOnly
      · have e : coreTransMaskSet c.transactMask mask v = (.ok (), { v with transMask := mask }) := by
          unfold coreTransMaskSet; rw [run_bind]; dsimp only [run_get]
          rw [if_neg (by rw [hi.mounted]; simp [hmask]), if_neg (by rw [hr]; simp)]; rfl
        have h : reply (fun _ => Reply.unit) (coreTransMaskSet c.transactMask mask) v = (r, v') := h
        unfold reply at h
        rw [run_bind, e] at h
        have h := (Prod.mk.inj h).2
        rw [← h]
        exact ⟨rfl, rfl⟩
      · refine eq (same (r0 := .error .erofs) ?_ h)
        unfold coreTransMaskSet; simp only [run_bind, run_get, hi.mounted, hmask, hr]; simp
    · refine eq (same (r0 := .error .einval) ?_ h)
      unfold coreTransMaskSet; simp only [run_bind, run_get, hi.mounted]; simp [hmask]
  | _ => exact hq.elim

/-- All calls but rolling back, mounting and unmounting, on a mounted volume. -/
theorem exec_done (hc : c.SysOk) {k : Call} (hk : k.Ok c) (hp : Plain k) {s s' : St} {r : Except Err Reply} (hi : Inv c (Sound c) s.v) (hT : TI s)
    (h : exec c clk k s = (r, s')) : Done c clk (files c s.v) (MarkOf c s.v.readOnly (files c s.v) k) s r s' := by
  have ok := hc.ok
  have ask : ∀ {k : Call}, k.Ok c → IsAsk k →
      lift (RedFs.exec c k) s = (r, s') → (∀ a, MarkOf c s.v.readOnly (files c s.v) k a []) → Done c clk (files c s.v) (MarkOf c s.v.readOnly (files c s.v) k) s r s' := by
    intro k hk hq h hM
    obtain ⟨h1, h2⟩ := lift_inv h
    exact .nothing (ask_same hc hk hi h1 hq).1 h2 hT fun a _ => hM a
  have idle : Idle s.v := hi.wf.vol.idle
  cases k with
  | create p name isDir =>
    have hpx := hc.posixOk hk.1
    have hsp := coreCreateSub_spec ok hpx p hk.2 isDir
    have hi' := hi
    rw [Sound.posix hk.1] at hi'
    refine Done.map (Q := fun j L => L = [⟨j, true, true, true⟩, ⟨p, false, true, true⟩]) (fun a L h => h) (fun h1 => ?_) h
    exact modify_done ok (Q := fun _ j L => L = [⟨j, true, true, true⟩, ⟨p, false, true, true⟩]) (createSub_er p name isDir) hsp (create_clean _ _ _) (createSub_kb p name isDir)
      (fun hi h => create_marks ok hpx hi h) hi' hT h1
  | link p name ino =>
    have hpx := hc.posixOk hk.1
    have hsp := coreLinkSub_spec ok hpx p hk.2 ino
    have hi' := hi
    rw [Sound.posix hk.1] at hi'
    refine Done.map (Q := fun _ L => L = [⟨ino, false, false, true⟩, ⟨p, false, true, true⟩]) (fun a L h => h) (fun h1 => ?_) h
    exact modify_done ok (Q := fun _ _ L => L = [⟨ino, false, false, true⟩, ⟨p, false, true, true⟩]) (linkSub_er p name ino) hsp (link_clean _ _ _) (linkSub_kb p name ino)
      (fun hi h => (link_marks (files_at hi) h).marked fun _ => rfl) hi' hT h1
  | unlink p name =>
    have hpx := hc.posixOk hk.1
    have hsp := coreUnlinkSub_spec ok hpx p hk.2
    have hi' := hi
    rw [Sound.posix hk.1] at hi'
    refine Done.map (Q := fun _ L => MarkOf c s.v.readOnly (files c s.v) (.unlink p name) .unit L) (fun a L h => h) (fun h1 => ?_) h
    exact modify_done ok (Q := fun F _ L => MarkOf c s.v.readOnly F (.unlink p name) .unit L) (unlinkSub_er p name) hsp (unlink_clean _ _) (unlinkSub_kb p name)
      (fun hi h => unlink_marks ok hpx hk.2 hi h) hi' hT h1
  | rename p name p' name' =>
    have hpx := hc.posixOk hk.1
    have hsp := coreRenameSub_spec ok hpx p hk.2.1 p' hk.2.2
    have hi' := hi
    rw [Sound.posix hk.1] at hi'
    refine Done.map (Q := fun _ L => MarkOf c s.v.readOnly (files c s.v) (.rename p name p' name') .unit L) (fun a L h => h) (fun h1 => ?_) h
    exact modify_done ok (Q := fun F _ L => MarkOf c s.v.readOnly F (.rename p name p' name') .unit L) (renameSub_er p name p' name') hsp (rename_clean _ _ _ _) (renameSub_kb p name p' name')
      (fun hi h => rename_marks ok hpx hk.2.1 hk.2.2 hi h) hi' hT h1
  | write ino start len buf =>
    refine Done.map (Q := fun _ L => L = [⟨ino, false, true, true⟩]) (fun a L h => h) (fun h1 => ?_) h
    exact modify_done ok (Q := fun _ _ L => L = [⟨ino, false, true, true⟩]) (fileWriteSub_er ino start len buf) (coreFileWriteSub_spec ok sound_data ino start len buf) (write_clean _ _ _ _)
      (writeSub_kb ino start len buf) (fun hi h => (write_marks hi.wf.vol.idle h).marked fun _ => rfl) hi hT h1
  | truncate ino size =>
    refine Done.map (Q := fun _ L => L = [⟨ino, false, true, true⟩]) (fun a L h => h) (fun h1 => ?_) h
    exact modify_done ok (Q := fun _ _ L => L = [⟨ino, false, true, true⟩]) (fileTruncateSub_er ino size) (coreFileTruncateSub_spec ok sound_data ino size) (truncate_clean _ _)
      (truncateSub_kb ino size) (fun hi h => (truncate_marks hi.wf.vol.idle h).marked fun _ => rfl) hi hT h1
  | read ino start len =>
    refine Done.map (Q := fun _ L => L = if c.atime = true ∧ 0 < len ∧ s.v.readOnly = false then [⟨ino, true, false, false⟩] else []) (fun a L h => h) (fun h1 => ?_) h
    exact (read_marks idle h1).done (fileRead_er ino start len) (read_kb ino start len) hT h1 fun _ => rfl
  | dirRead p pos =>
    refine Done.map (Q := fun x L => L = if c.atime = true ∧ s.v.readOnly = false ∧ x.2.isSome = true then [⟨p, true, false, false⟩] else []) (fun a L h => h) (fun h1 => ?_) h
    exact (dirRead_marks idle h1).done (dirReadCall_er p pos) (dirRead_core_kb p pos) hT h1 fun _ => rfl
  | transact =>
    refine Done.map (Q := fun _ L => L = []) (fun a L h => h) (fun h1 => ?_) h
    unfold whenRw at h1
    rw [vol_bind] at h1
    split at h1
    · obtain ⟨g1, g2⟩ := fail_inv h1; exact .fail g1 g2 hT
    split at h1
    · obtain ⟨g1, g2⟩ := fail_inv h1; exact .fail g1 g2 hT
    obtain ⟨rfl, _, _, S, T, _⟩ := transact_inv ok hi hT h1
    exact ⟨fun e he => (by cases he), fun a _ => ⟨[], [], fun x hx => (by cases hx), rfl, by rw [List.append_nil, stamps_nil]; exact S⟩, T⟩
  | lookup p name => exact ask (k := .lookup p name) hk trivial h fun _ => rfl
  | dirParent p => exact ask (k := .dirParent p) hk trivial h fun _ => rfl
  | stat ino => exact ask (k := .stat ino) hk trivial h fun _ => rfl
  | fileSize ino => exact ask (k := .fileSize ino) hk trivial h fun _ => rfl
  | statfs => exact ask (k := .statfs) hk trivial h fun _ => rfl
  | maskSet mask => exact ask (k := .maskSet mask) hk trivial h fun _ => rfl
  | maskGet => exact ask (k := .maskGet) hk trivial h fun _ => rfl
  | rollback => exact hp.elim
  | mount ro => exact hp.elim
  | unmount => exact hp.elim

end RedFs.Times
