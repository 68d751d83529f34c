import Verif.Model.Fault
import Verif.Lemmas.Refine
import Verif.Lemmas.Reading
set_option linter.unusedSimpArgs false
set_option linter.unusedVariables false
/-!
Commits that fail.
-/
namespace RedFs
open M Bitmap Vol

variable {c : Conf}

/-! ### without a fault nothing is different -/

theorem volTransactF_none : volTransactF none = volTransact := by
  funext v
  unfold volTransactF volTransact criticalAssert
  simp only [run_bind, run_get]
  cases hb : v.branched
  · rfl
  · simp only [if_true, run_bind, run_attempt, run_modify]; rfl

theorem modifyingOpF_none {α : Type} (ev : Event) (m : VM α) : modifyingOpF none none ev m = modifyingOp ev m := by
  unfold modifyingOpF modifyingOp volFullRetryF volFullRetry eventTransactF eventTransact
  rw [volTransactF_none]; rfl

theorem coreUnmountF_none : coreUnmountF none = coreUnmount := by
  unfold coreUnmountF coreUnmount; rw [volTransactF_none]

theorem execF_none (k : Call) : execF c none none k = exec c k := by
  cases k <;>
    simp only [execF, exec, modifyingOpF_none, volTransactF_none, coreCreate, coreLink, coreUnlink, coreRename, coreFileWrite,
      coreFileTruncate, coreVolTransact, apiUnmountF, apiUnmount, coreUnmountF_none]

/-! ### what can be read on a volume whose commit has failed -/

/-- The volume, read-only, with garbage in the block of the metaroot that is not in force. -/
def garbled (v : Vol) : Vol := { v with
  readOnly := true
  blk := fun i => if i = mrBlk v.cur then .badMetaroot true else v.blk i
  base := fun i => if i = mrBlk v.cur then .badMetaroot true else v.base i }

theorem Inv.garble (hc : c.Ok) {v : Vol} {P : Files → Prop} (h : Inv c P v) : Inv c P (garbled v) ∧ files c (garbled v) = files c v := by
  have hb : ∀ x, 3 ≤ x → (garbled v).blk x = v.blk x := fun x hx => if_neg (by have := mrBlk_lt v.cur; omega)
  have hbs : ∀ x, 3 ≤ x → (garbled v).base x = v.base x := fun x hx => if_neg (by have := mrBlk_lt v.cur; omega)
  obtain ⟨f1, f2⟩ := files_low hc (D := v.blk) (D' := (garbled v).blk) (m := v.work) (m' := v.work) hb rfl rfl h.wf.fs
  obtain ⟨g1, g2⟩ := files_low hc (D := v.blk) (D' := (garbled v).blk) (m := v.comm) (m' := v.comm) hb rfl rfl h.wf.cfs
  have hcu : ∀ x, curBit c (garbled v) x = curBit c v x := fun x => imapBit_low (m := v.work) (m' := v.work) rfl hb x
  have hcm : ∀ x, cmtBit c (garbled v) x = cmtBit c v x := fun x => imapBit_low (m := v.comm) (m' := v.comm) rfl hb x
  have hcu' : curBit c (garbled v) = curBit c v := funext hcu
  have hcm' : cmtBit c (garbled v) = cmtBit c v := funext hcm
  have hf : files c (garbled v) = files c v := funext f2
  have hg : committedFiles c (garbled v) = committedFiles c v := funext g2
  have V := h.wf.vol
  have hvol : VolInv c (garbled v) := by
    refine { ok := ⟨?_, ?_, ?_⟩, space := ⟨?_, ?_, V.space.next⟩, commFree := ?_, commNext := V.commNext, clean := ?_, sel := ?_,
             master := ?_, low := V.low, seq := V.seq, idle := V.idle, dev := ?_, epochs := V.epochs }
    · intro hi k hk; rw [hb _ (nodeBlk_ge c _ k)]; exact V.ok.cur hi k hk
    · intro hi k hk; rw [hb _ (nodeBlk_ge c _ k)]; exact V.ok.cmt hi k hk
    · intro hi k hk; rw [hb _ (nodeBlk_ge c _ k), hbs _ (nodeBlk_ge c _ k)]; exact V.ok.clean hi k hk
    · show v.work.freeBlocks = _; rw [V.space.free]; unfold freeCount; rw [hcu', hcm']
    · show v.almostFree = _; rw [V.space.afree]; unfold afreeCount; rw [hcu', hcm']
    · show v.comm.freeBlocks = _; rw [V.commFree, hcm']
    · intro x hx hb; rw [hcm] at hb; exact V.clean x hx hb
    · intro hmt
      have := mrSelect_invalid (V.sel hmt) (x := .badMetaroot true) rfl (fun _ => rfl)
      show mrSelect c (if 1 = mrBlk v.cur then _ else _) (if 2 = mrBlk v.cur then _ else _) = some (!v.cur, v.comm)
      cases hcur : v.cur <;> rw [hcur] at this <;> simpa [mrBlk] using this
    · intro hmt
      show ∃ m, (if 0 = mrBlk v.cur then _ else v.base 0) = _ ∧ _
      rw [if_neg (by unfold mrBlk; split <;> omega)]; exact V.master hmt
    · intro x hx
      show (if x = mrBlk v.cur then _ else v.blk x) = (if x = mrBlk v.cur then _ else v.base x)
      rw [V.dev x hx]
  refine ⟨⟨⟨hvol, ?_, ?_⟩, by rw [hf]; exact h.now, by rw [hg]; exact h.was, h.hist, h.rsv, h.crsv, h.idle, h.mounted⟩, hf⟩
  · rw [hcu']; have := f1; rw [show imapBit c (garbled v).blk v.work = curBit c v from hcu'] at this; exact this
  · rw [hcm']; have := g1; rw [show imapBit c (garbled v).blk v.comm = cmtBit c v from hcm'] at this; exact this

theorem Inv.setRo {v : Vol} {P : Files → Prop} (h : Inv c P v) : Inv c P { v with readOnly := true } :=
  ⟨⟨h.wf.vol.congr rfl rfl rfl rfl rfl rfl rfl rfl h.wf.vol.idle id, h.wf.fs, h.wf.cfs⟩, h.now, h.was, h.hist, h.rsv, h.crsv, h.idle, h.mounted⟩

/-- The calls that only ask. -/
def Asks : Call → Prop
  | .lookup .. | .dirRead .. | .dirParent .. | .read .. | .stat .. | .fileSize .. | .statfs | .maskGet => True
  | _ => False

/-- The volume `v` is read-only, and its files are `files c v` for every call that asks. -/
def Readable (c : Conf) (v : Vol) : Prop :=
  ∀ k, k.Ok c → Asks k → ∀ d, ∃ r, exec c k v = (r, v) ∧
    Spec.Does c k ⟨true, true, v.transMask, files c v, d⟩ r ⟨true, true, v.transMask, files c v, d⟩ []

theorem readable (hc : c.SysOk) {v' v u : Vol} (hm : v'.mounted = true) (hl : Like v' u) (hi : Inv c (Sound c) u) (hfu : files c u = files c v)
    (hv : Inv c (Sound c) v) (hfv : files c v' = files c v) (hb : v'.work.freeBlocks = v.work.freeBlocks + v.almostFree) (hfi : v'.work.freeInodes = v.work.freeInodes) :
    Readable c v' := by
  intro k hk ha d
  have hf : files c u = files c v' := hfu.trans hfv.symm
  have look : Looks k → ∃ r, exec c k v' = (r, v') ∧ Spec.Does c k ⟨true, true, v'.transMask, files c v', d⟩ r ⟨true, true, v'.transMask, files c v', d⟩ [] := by
    intro hk'
    obtain ⟨r, h1, h2⟩ := rd_exec (c := c) hk' v' u hl
    obtain ⟨r', u', s', tr, e, D, _⟩ := exec_sim hc (show Abs c u ⟨true, u.readOnly, u.transMask, files c u, some (committedFiles c u)⟩ from .up rfl hi rfl rfl rfl rfl) hk
    rw [h2] at e; obtain ⟨rfl, rfl⟩ := Prod.mk.inj e
    refine ⟨r, h1, ?_⟩
    rw [hf] at D
    cases k with
    | lookup => exact ⟨rfl, rfl, D.2.2⟩
    | dirRead => exact ⟨rfl, rfl, D.2.2⟩
    | dirParent => exact ⟨rfl, rfl, D.2.2⟩
    | read => exact ⟨rfl, rfl, D.2.2⟩
    | stat => exact ⟨rfl, rfl, D.2.2⟩
    | fileSize => exact ⟨rfl, rfl, D.2.2⟩
    | _ => exact hk'.elim
  cases k with
  | statfs =>
    refine ⟨.ok (.statfs ⟨c.blockCount, v'.work.freeBlocks - c.reserved, c.inodeCount, v'.work.freeInodes, v'.readOnly⟩), reply_run (r := .ok _) ?_, rfl, rfl, ?_⟩
    · unfold coreVolStat; rw [whenMounted_run hm]; rfl
    · rw [if_neg (by simp)]
      refine ⟨.ok _, rfl, rfl, ?_, rfl, ?_, hl.ro⟩
      · have := space_sum hv.wf.vol.space
        have h7 := countIn_le (p := fun b => !curBit c v b) (lo := c.firstAlloc) (hi := c.blockCount)
        show v'.work.freeBlocks - c.reserved ≤ c.allocable
        unfold Conf.allocable; omega
      · show v'.work.freeInodes = _
        rw [hfi, hfv]; exact freeInodes_eq hv.wf
  | maskGet =>
    refine ⟨.ok (.num v'.transMask), reply_run (r := .ok v'.transMask) ?_, rfl, rfl, rfl⟩
    unfold coreTransMaskGet; rw [whenMounted_run hm]; rfl
  | lookup => exact look trivial
  | dirRead => exact look trivial
  | dirParent => exact look trivial
  | read => exact look trivial
  | stat => exact look trivial
  | fileSize => exact look trivial
  | _ => exact ha.elim

/-! ### a failed commit -/

/-- What a failed commit leaves. -/
structure CFail (c : Conf) (v v' : Vol) : Prop where
  mounted : v'.mounted = true
  readOnly : v'.readOnly = true
  mask : v'.transMask = v.transMask
  now : files c v' = files c v
  comm : v'.comm = v.comm
  branched : v'.branched = true
  blk : ∀ b, 3 ≤ b → v'.blk b = v.blk b
  reads : Readable c v'
  recov : ∃ new, v'.hist = new ++ v.hist ∧ ∀ e ∈ v'.epoch :: new, Recov c e [some (committedFiles c v), some (files c v)]

theorem Recov.congr {e e' : Epoch} {S : List (Option Files)} (h : Recov c e S) (h1 : e'.base = e.base) (h2 : e'.dirty = e.dirty) (h3 : e'.fin = e.fin) :
    Recov c e' S := fun D hD => h D (hD.congr h1.symm h2.symm h3.symm)

theorem files_of {v v' : Vol} (hb : ∀ b, 3 ≤ b → v'.blk b = v.blk b) (hc : c.Ok) (he : v'.work.entries = v.work.entries) {P : Files → Prop} (h : Inv c P v) :
    files c v' = files c v :=
  funext (files_low hc (D := v.blk) (D' := v'.blk) (m := v.work) (m' := v'.work) hb he rfl h.wf.fs).2

theorem fail_run {v : Vol} (hbr : v.branched = true) (hdev : ∀ x, v.dirty x = false → v.blk x = v.base x) (x : Blk) :
    volTransactF (some (.metaroot x)) v = (.error .eio, { v with
      blk := fun i => if i = mrBlk v.cur then .metaroot (nextMr v) else v.blk i
      base := v.blk
      dirty := fun i => if i = mrBlk v.cur then true else false
      stale := fun i => if i = mrBlk v.cur then x else v.stale i
      mr := fun i => if i = v.cur then nextMr v else v.mr i
      almostFree := 0
      readOnly := true
      seq := v.seq + v.nodeWrites v.hist.length + 1
      hist := v.epoch :: v.hist }) := by
  have hbase : (fun b => if v.dirty b = true then v.blk b else v.base b) = v.blk := by
    funext b; cases hd : v.dirty b
    · simp [hdev b hd]
    · simp
  unfold volTransactF criticalAssert critical
  simp only [run_bind, run_get, hbr, if_true, run_modify, run_attempt, run_fail]
  obtain ⟨blk, base, dirty, stale, mr, cur, branched, af, ur, mt, ro, tm, seq, nw, hist⟩ := v
  simp only at hbase hbr
  simp only [Vol.flush, Vol.write, Vol.setWork, Vol.work, Vol.comm, Vol.epoch, nextMr, hbase, Vol.reads]
  cases cur <;>
    simp only [Bool.not_false, Bool.not_true, if_true, Bool.false_eq_true, if_false, mrBlk, reduceCtorEq] <;>
    congr 2 <;> first
      | (funext i; cases i <;> rfl)

theorem failed_commit (hc : c.SysOk) {v : Vol} (h : Inv c (Sound c) v) (fl : Option Fault) :
    volTransactF fl v = volTransact v ∨ ∃ v', volTransactF fl v = (.error .eio, v') ∧ CFail c v v' := by
  cases hbr : v.branched
  · left; unfold volTransactF volTransact; simp only [run_bind, run_get, hbr]; rfl
  · have hidle : Recov c v.epoch [some (committedFiles c v)] :=
      (show Abs c v ⟨true, v.readOnly, v.transMask, files c v, some (committedFiles c v)⟩ from .up rfl h rfl rfl rfl rfl).idle hc.ok
    have hidle' := hidle.mono (S' := [some (committedFiles c v), some (files c v)]) (fun x hx => by simp at hx ⊢; exact Or.inl hx)
    have hrun := transact_run hbr h.wf.vol.dev
    obtain ⟨w, hw, hwi, hcm⟩ := h.transact hc.ok
    obtain ⟨new, hn, hr⟩ := h.commit_recov hc.ok hwi hcm
    have hbase : (fun b => if v.dirty b = true then v.blk b else v.base b) = v.blk := by
      funext b; cases hd : v.dirty b
      · simp [h.wf.vol.dev b hd]
      · simp
    have hme := h.mounted
    -- the epoch in which the metaroot is written
    have he2 : Recov c ⟨v.blk, fun i => if i = mrBlk v.cur then true else false,
          fun i => if i = mrBlk v.cur then .metaroot (nextMr v) else v.blk i, v.comm, some (nextMr v)⟩ [some (committedFiles c v), some (files c v)] := by
      apply hr
      rw [hw] at hrun
      have hh := congrArg Vol.hist (Prod.mk.inj hrun).2
      rw [hn] at hh
      have hh : new ++ v.hist = [_, _] ++ v.hist := hh
      rw [List.append_cancel_right hh]; exact List.mem_cons_self ..
    cases fl with
    | none => left; rw [volTransactF_none]
    | some f =>
      right
      have low : ∀ b, 3 ≤ b → ∀ x y : Blk, (if b = mrBlk v.cur then x else y) = y := by
        intro b hb x y; rw [if_neg]; have := mrBlk_lt v.cur; omega
      have mrf : ∀ x, ∃ v', volTransactF (some (.metaroot x)) v = (.error .eio, v') ∧ CFail c v v' := by
        intro x
        refine ⟨_, fail_run hbr h.wf.vol.dev x, ?_⟩
        refine { mounted := hme, readOnly := rfl, mask := rfl, now := files_of ?_ hc.ok ?_ h, comm := ?_, branched := hbr, blk := ?_,
                 reads := readable hc hme (v := v) (u := garbled v) ⟨?_, rfl, ?_, rfl, rfl, rfl⟩ (h.garble hc.ok).1
                   (h.garble hc.ok).2 h (files_of ?_ hc.ok ?_ h) ?_ ?_,
                 recov := ⟨[v.epoch], rfl, ?_⟩ }
        · intro b hb; exact low b hb _ _
        · simp [Vol.work, nextMr]
        · simp [Vol.comm]
        · intro b hb; exact low b hb _ _
        · intro b
          show (if b = mrBlk v.cur then Blk.metaroot (nextMr v) else v.blk b) = (if b = mrBlk v.cur then Blk.badMetaroot true else v.blk b) ∨
            Opaque (if b = mrBlk v.cur then Blk.metaroot (nextMr v) else v.blk b) = true ∧ Opaque (if b = mrBlk v.cur then Blk.badMetaroot true else v.blk b) = true
          by_cases hb : b = mrBlk v.cur
          · rw [if_pos hb, if_pos hb]; exact Or.inr ⟨rfl, rfl⟩
          · rw [if_neg hb, if_neg hb]; exact Or.inl rfl
        · intro i
          show (if i = v.cur then nextMr v else v.mr i).entries = (v.mr i).entries
          by_cases hi : i = v.cur
          · rw [if_pos hi, hi]; rfl
          · rw [if_neg hi]
        · intro b hb; exact low b hb _ _
        · simp [Vol.work, nextMr]
        · simp [Vol.work, nextMr]
        · simp [Vol.work, nextMr]
        · intro e he
          rcases List.mem_cons.1 he with rfl | he
          · refine he2.congr rfl rfl ?_
            funext b
            show (if (if b = mrBlk v.cur then true else false) = true then _ else _) = _
            by_cases hb : b = mrBlk v.cur <;> simp [hb]
          · rw [List.mem_singleton.1 he]; exact hidle'
      cases f with
      | data n =>
        refine ⟨_, by
          unfold volTransactF criticalAssert critical
          simp only [run_bind, run_get, hbr, if_true, run_modify, run_attempt, run_fail]
          rfl, ?_⟩
        refine { mounted := hme, readOnly := rfl, mask := rfl, now := files_of (fun _ _ => rfl) hc.ok ?_ h, comm := ?_, branched := hbr, blk := fun _ _ => rfl,
                 reads := readable hc hme (v := v) (u := { v with readOnly := true }) ⟨fun _ => Or.inl rfl, rfl, ?_, rfl, rfl, rfl⟩ h.setRo
                   rfl h (files_of (fun _ _ => rfl) hc.ok ?_ h) ?_ ?_,
                 recov := ⟨[], rfl, ?_⟩ }
        · simp [Vol.work, Vol.setWork]
        · simp [Vol.comm, Vol.setWork]
        · intro i
          simp only [Vol.work, Vol.setWork]
          by_cases hi : i = v.cur <;> simp [hi]
        · simp [Vol.work, Vol.setWork]
        · simp [Vol.work, Vol.setWork]
        · simp [Vol.work, Vol.setWork]
        · intro e he
          rw [List.mem_singleton.1 he]
          exact hidle'.congr rfl rfl rfl
      | flush =>
        refine ⟨_, by
          unfold volTransactF criticalAssert critical
          simp only [run_bind, run_get, hbr, if_true, run_modify, run_attempt, run_fail]
          rfl, ?_⟩
        refine { mounted := hme, readOnly := rfl, mask := rfl, now := files_of (fun _ _ => rfl) hc.ok ?_ h, comm := ?_, branched := hbr, blk := fun _ _ => rfl,
                 reads := readable hc hme (v := v) (u := { v with readOnly := true }) ⟨fun _ => Or.inl rfl, rfl, ?_, rfl, rfl, rfl⟩ h.setRo
                   rfl h (files_of (fun _ _ => rfl) hc.ok ?_ h) ?_ ?_,
                 recov := ⟨[], rfl, ?_⟩ }
        · simp [Vol.work, Vol.setWork]
        · simp [Vol.comm, Vol.setWork]
        · intro i
          simp only [Vol.work, Vol.setWork]
          by_cases hi : i = v.cur <;> simp [hi]
        · simp [Vol.work, Vol.setWork]
        · simp [Vol.work, Vol.setWork]
        · simp [Vol.work, Vol.setWork]
        · intro e he
          rw [List.mem_singleton.1 he]
          exact hidle'.congr rfl rfl rfl
      | metaroot x => exact mrf x
      | flushAfter x => exact mrf x

/-- What a call leaves whose commit fails: `S` are the states that a power loss leaves. -/
structure CallFail (c : Conf) (v v' : Vol) (S : List (Option Files)) : Prop where
  mounted : v'.mounted = true
  readOnly : v'.readOnly = true
  mask : v'.transMask = v.transMask
  reads : Readable c v'
  recov : ∃ new, v'.hist = new ++ v.hist ∧ ∀ e ∈ v'.epoch :: new, Recov c e S

theorem modify_fault (hc : c.SysOk) {α : Type} {ev : Event} {m : VM α} {R : Files → Except Err α → Files → Prop} {W : Nat → Prop}
    (hm : OpSpec c (Sound c) m R W) (hR : Clean R) {v : Vol} (h : Inv c (Sound c) v) (hro : v.readOnly = false) (f1 f2 : Option Fault) :
    modifyingOpF f1 f2 ev m v = modifyingOp ev m v ∨
    ∃ v' S, modifyingOpF f1 f2 ev m v = (.error .eio, v') ∧ CallFail c v v' S ∧
      ((v.on .volfull = true ∧ (∃ w, m v = (.error .enospc, w)) ∧ files c v' = files c v ∧ S = [some (committedFiles c v), some (files c v)]) ∨
       (v.on ev = true ∧ (∃ a u, modifyingOp ev m v = (.ok a, u) ∧ files c v' = files c u) ∧
        (S = [some (committedFiles c v), some (files c v')] ∨
         v.on .volfull = true ∧ S = [some (committedFiles c v), some (files c v), some (files c v')]))) := by
  obtain ⟨r, u, e, O⟩ := modifyingOp_spec hc.ok (ev := ev) hm hR h hro
  obtain ⟨r1, v1, e1, E1, how⟩ := O.how
  have hrunF : ∀ f1 f2, modifyingOpF f1 f2 ev m v = (do let a ← volFullRetryF f1 m; eventTransactF f2 ev; pure a : VM α) v :=
    fun _ _ => whenRw_run h.mounted hro _
  have hcf1 := E1.cfiles hc.ok h
  have hon1 : ∀ x, v1.on x = v.on x := fun x => by unfold Vol.on; rw [E1.step.transMask]
  -- the commit after the operation, from `w`
  have last : ∀ (w : Vol) (a : α), Inv c (Sound c) w → w.transMask = v.transMask →
      (do eventTransactF f2 ev; pure a : VM α) w = (do eventTransactF none ev; pure a : VM α) w ∨
      v.on ev = true ∧ ∃ v', (do eventTransactF f2 ev; pure a : VM α) w = (.error .eio, v') ∧ CFail c w v' := by
    intro w a hw hmask
    have hon : w.on ev = v.on ev := by unfold Vol.on; rw [hmask]
    cases hx : v.on ev
    · left; unfold eventTransactF; simp only [run_bind, run_get, hon, hx]; rfl
    · rcases failed_commit hc hw f2 with h1 | ⟨v', h1, h2⟩
      · left; unfold eventTransactF; simp only [run_bind, run_get, hon, hx, if_true, h1, volTransactF_none]
      · right; refine ⟨rfl, v', ?_, h2⟩
        unfold eventTransactF; simp only [run_bind, run_get, hon, hx, if_true, h1]
  rcases how with ⟨g1, g2, g3, g4, v2, v3, g5, C, i2, g6, E3, R3, hlast⟩ | ⟨g1, g2, g3, hlast⟩
  · -- out of space: the first commit
    have on_full : v.on .volfull = true := by rw [← hon1]; exact g2
    have hretry : ∀ f, volFullRetryF f m v = (do volTransactF f; m : VM α) v1 := by
      intro f
      unfold volFullRetryF
      simp only [run_bind, run_attempt, e1, g1, run_get]
      rw [if_pos ⟨trivial, g2, g3⟩]; rfl
    rcases failed_commit hc E1.inv f1 with h1 | ⟨v', h1, h2⟩
    · have hr1 : ∀ f, volTransactF f v1 = volTransact v1 → volFullRetryF f m v = (r, v3) := by
        intro f hf; rw [hretry, run_bind, hf, g5]; exact g6
      have hm3 : v3.transMask = v.transMask := by rw [E3.step.transMask, C.mask, E1.step.transMask]
      rcases r with er | a
      · left
        rw [← modifyingOpF_none, hrunF, hrunF, run_bind, hr1 f1 h1, run_bind, hr1 none (by rw [volTransactF_none])]
      · rcases last v3 a E3.inv hm3 with h4 | ⟨h4, v', h5, h6⟩
        · left
          rw [← modifyingOpF_none, hrunF, hrunF, run_bind, hr1 f1 h1, run_bind, hr1 none (by rw [volTransactF_none])]
          exact h4
        · right
          obtain ⟨new, hn, hr⟩ := h6.recov
          obtain ⟨new1, hn1, hr1'⟩ := E1.inv.commit_recov hc.ok i2 C
          have hcf3 : committedFiles c v3 = files c v := by rw [E3.cfiles hc.ok i2, C.cfiles, g4]
          refine ⟨v', [some (committedFiles c v), some (files c v), some (files c v')], ?_, ⟨h6.mounted, h6.readOnly, h6.mask.trans hm3, h6.reads, new ++ new1, ?_, ?_⟩, Or.inr ⟨h4, ⟨a, u, e, ?_⟩, Or.inr ⟨on_full, rfl⟩⟩⟩
          · rw [hrunF, run_bind, hr1 f1 h1]; exact h5
          · rw [hn, E3.step.hist, hn1, E1.step.hist, List.append_assoc]
          · intro x hx
            rw [← List.cons_append] at hx
            rcases List.mem_append.1 hx with hx | hx
            · refine (hr x hx).mono ?_
              rw [hcf3, h6.now]; intro y hy; simp at hy ⊢; tauto
            · refine (hr1' x hx).mono ?_
              rw [hcf1, g4]; intro y hy; simp at hy ⊢; tauto
          · rw [h6.now]
            rcases hlast with ⟨er, hre, _⟩ | ⟨a', hra, ⟨hev, ht, C'⟩ | ⟨hev, hvw⟩⟩
            · cases hre
            · exact C'.files.symm
            · rw [hvw]
    · right
      obtain ⟨new, hn, hr⟩ := h2.recov
      refine ⟨v', [some (committedFiles c v), some (files c v)], ?_, ⟨h2.mounted, h2.readOnly, h2.mask.trans E1.step.transMask, h2.reads, new, ?_, ?_⟩, Or.inl ⟨on_full, ⟨v1, by rw [e1, g1]⟩, by rw [h2.now, g4], rfl⟩⟩
      · rw [hrunF, run_bind, hretry, run_bind, h1]
      · rw [hn, E1.step.hist]
      · intro x hx; rw [← hcf1, ← g4]; exact hr x hx
  · have hretry : ∀ f, volFullRetryF f m v = (r1, v1) := by
      intro f
      unfold volFullRetryF
      simp only [run_bind, run_attempt, e1]
      rcases r1 with e | a
      · simp only [run_bind, run_get]
        rw [if_neg (fun hh => g1 ⟨by rw [hh.1], hh.2.1, hh.2.2⟩)]
        rfl
      · rfl
    rw [g2] at e O hlast
    rcases r1 with er | a
    · left
      rw [← modifyingOpF_none, hrunF, hrunF, run_bind, hretry, run_bind, hretry]
    · rcases last v1 a E1.inv E1.step.transMask with h4 | ⟨h4, v', h5, h6⟩
      · left
        rw [← modifyingOpF_none, hrunF, hrunF, run_bind, hretry, run_bind, hretry]
        exact h4
      · right
        obtain ⟨new, hn, hr⟩ := h6.recov
        refine ⟨v', [some (committedFiles c v), some (files c v')], ?_, ⟨h6.mounted, h6.readOnly, h6.mask.trans E1.step.transMask, h6.reads, new, ?_, ?_⟩, Or.inr ⟨h4, ⟨a, u, e, ?_⟩, Or.inl rfl⟩⟩
        · rw [hrunF, run_bind, hretry]; exact h5
        · rw [hn, E1.step.hist]
        · intro x hx; rw [← hcf1, h6.now]; exact hr x hx
        · rw [h6.now]
          rcases hlast with ⟨er, hre, _⟩ | ⟨a', hra, ⟨hev, ht, C'⟩ | ⟨hev, hvw⟩⟩
          · cases hre
          · exact C'.files.symm
          · rw [hvw]

/-- A call on a device that reports errors during commits. -/
theorem exec_fault (hc : c.SysOk) {v : Vol} (h : Inv c (Sound c) v) {k : Call} (hk : k.Ok c) (f1 f2 : Option Fault) :
    execF c f1 f2 k v = exec c k v ∨
    ∃ v' S, execF c f1 f2 k v = (.error .eio, v') ∧ CallFail c v v' S ∧ v.readOnly = false ∧
      ((files c v' = files c v ∧ (k = .transact ∨ (k = .unmount ∧ v.on .umount = true) ∨ v.on .volfull = true) ∧
          S = [some (committedFiles c v), some (files c v)]) ∨
       ((k ≠ .unmount ∧ ∃ ev, k.event = some ev ∧ v.on ev = true) ∧ (∃ a u, exec c k v = (.ok a, u) ∧ files c v' = files c u) ∧
        (S = [some (committedFiles c v), some (files c v')] ∨
         v.on .volfull = true ∧ S = [some (committedFiles c v), some (files c v), some (files c v')]))) := by
  cases hro : v.readOnly
  swap
  · left
    have hoff : ∀ {α : Type} (m m' : VM α), whenRw m v = whenRw m' v := fun m m' => by rw [whenRw_ro h.mounted hro, whenRw_ro h.mounted hro]
    have md : ∀ {α : Type} (f : α → Reply) (ev : Event) (m : VM α), reply f (modifyingOpF f1 f2 ev m) v = reply f (modifyingOp ev m) v := by
      intro α f ev m; unfold reply; rw [run_bind, run_bind]; unfold modifyingOpF modifyingOp; rw [hoff _ (do let a ← volFullRetry m; eventTransact ev; pure a)]
    cases k with
    | create => exact md ..
    | link => exact md ..
    | unlink => exact md ..
    | rename => exact md ..
    | write => exact md ..
    | truncate => exact md ..
    | transact => show reply _ _ _ = reply _ _ _; unfold reply; rw [run_bind, run_bind]; unfold coreVolTransact; rw [hoff _ volTransact]
    | unmount =>
      show reply _ (apiUnmountF c f2) v = reply _ (apiUnmount c) v
      unfold reply apiUnmountF apiUnmount coreUnmountF coreUnmount
      simp only [run_bind, run_get, h.mounted, if_true, hro]; rfl
    | _ => rfl
  · have md : ∀ {α : Type} {f : α → Reply} {ev : Event} {m : VM α} {R : Files → Except Err α → Files → Prop} {W : Nat → Prop} (hm : OpSpec c (Sound c) m R W) (hR : Clean R),
        execF c f1 f2 k = reply f (modifyingOpF f1 f2 ev m) → exec c k = reply f (modifyingOp ev m) → k.event = some ev → k ≠ .unmount →
      execF c f1 f2 k v = exec c k v ∨
      ∃ v' S, execF c f1 f2 k v = (.error .eio, v') ∧ CallFail c v v' S ∧ false = false ∧
      ((files c v' = files c v ∧ (k = .transact ∨ (k = .unmount ∧ v.on .umount = true) ∨ v.on .volfull = true) ∧
          S = [some (committedFiles c v), some (files c v)]) ∨
       ((k ≠ .unmount ∧ ∃ ev, k.event = some ev ∧ v.on ev = true) ∧ (∃ a u, exec c k v = (.ok a, u) ∧ files c v' = files c u) ∧
        (S = [some (committedFiles c v), some (files c v')] ∨
         v.on .volfull = true ∧ S = [some (committedFiles c v), some (files c v), some (files c v')]))) := by
      intro α f ev m R W hm hR h1 h2 hev hu
      rw [h1, h2]
      rcases modify_fault hc (ev := ev) hm hR h hro f1 f2 with g | ⟨v', S, g1, g2, g3⟩
      · left; unfold reply; rw [run_bind, run_bind, g]
      · refine Or.inr ⟨v', S, reply_run g1, g2, rfl, ?_⟩
        rcases g3 with ⟨a1, _, a3, a4⟩ | ⟨a1, ⟨a, u, a2, a3⟩, a4⟩
        · exact Or.inl ⟨a3, Or.inr (Or.inr a1), a4⟩
        · exact Or.inr ⟨⟨hu, ev, hev, a1⟩, ⟨f a, u, reply_run a2, a3⟩, a4⟩
    have ok := hc.ok
    have fl : ∀ {v'}, CFail c v v' → CallFail c v v' [some (committedFiles c v), some (files c v)] :=
      fun h => ⟨h.mounted, h.readOnly, h.mask, h.reads, h.recov⟩
    cases k with
    | create p name isDir =>
      have h := coreCreateSub_spec ok (hc.posixOk hk.1) p hk.2 isDir
      rw [← Sound.posix hk.1] at h
      exact md h (create_clean _ _ _) rfl rfl rfl (by simp)
    | link p name ino =>
      have h := coreLinkSub_spec ok (hc.posixOk hk.1) p hk.2 ino
      rw [← Sound.posix hk.1] at h
      exact md h (link_clean _ _ _) rfl rfl rfl (by simp)
    | unlink p name =>
      have h := coreUnlinkSub_spec ok (hc.posixOk hk.1) p hk.2
      rw [← Sound.posix hk.1] at h
      exact md h (unlink_clean _ _) rfl rfl rfl (by simp)
    | rename p name p' name' =>
      have h := coreRenameSub_spec ok (hc.posixOk hk.1) hk.2.1 hk.2.2 (ps := p) (pd := p')
      rw [← Sound.posix hk.1] at h
      exact md h (rename_clean _ _ _ _) rfl rfl rfl (by simp)
    | write ino start len buf => exact md (coreFileWriteSub_spec ok sound_data ino start len buf) (write_clean _ _ _ _) rfl rfl rfl (by simp)
    | truncate ino size => exact md (coreFileTruncateSub_spec ok sound_data ino size) (truncate_clean _ _) rfl rfl rfl (by simp)
    | transact =>
      rcases failed_commit hc h f2 with g | ⟨v', g1, g2⟩
      · left; show reply _ _ _ = reply _ _ _; unfold reply coreVolTransact
        rw [run_bind, run_bind, whenRw_run h.mounted hro, whenRw_run h.mounted hro, g]
      · refine Or.inr ⟨v', _, reply_run (r := .error .eio) ?_, fl g2, rfl, Or.inl ⟨g2.now, Or.inl rfl, rfl⟩⟩
        rw [whenRw_run h.mounted hro]; exact g1
    | unmount =>
      cases hx : v.transMask.testBit 0
      · left
        show reply _ (apiUnmountF c f2) v = reply _ (apiUnmount c) v
        unfold reply apiUnmountF apiUnmount coreUnmountF coreUnmount
        simp only [run_bind, run_get, h.mounted, if_true, hro, hx]; rfl
      · rcases failed_commit hc h f2 with g | ⟨v', g1, g2⟩
        · left
          show reply _ (apiUnmountF c f2) v = reply _ (apiUnmount c) v
          unfold reply apiUnmountF apiUnmount coreUnmountF coreUnmount
          simp only [run_bind, run_get, h.mounted, if_true, hro, hx, Bool.not_false, Bool.and_self, g]
        · refine Or.inr ⟨v', _, reply_run (r := .error .eio) ?_, fl g2, rfl, Or.inl ⟨g2.now, Or.inr (Or.inl ⟨rfl, hx⟩), rfl⟩⟩
          unfold apiUnmountF coreUnmountF
          simp only [run_bind, run_get, h.mounted, if_true, hro, hx, Bool.not_false, Bool.and_self, g1]
    | _ => exact Or.inl rfl

end RedFs
