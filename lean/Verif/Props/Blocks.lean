import Verif.Props.Files
import Verif.Spec.Blocks
set_option linter.unusedSimpArgs false
set_option linter.unusedVariables false
/-!
The number of blocks of a file (`st_blocks`), over every history of calls (C55).
-/
namespace RedFs.Props.Blocks
open RedFs RedFs.Props.System RedFs.Props.Account RedFs.Props.Files RedFs.Props.Policy
open M Vol Spec

variable {c : Conf} {v v' w : Vol} {r : Except Err Reply} {k : Call} {ino : Nat}

/-- Block `b` of the file has space of its own. -/
def Has (c : Conf) (v : Vol) (ino b : Nat) : Prop := b < c.dataBlocks ∧ tree c v ino (posOf c b) ≠ 0

/-- A commit changes no block pointer. -/
theorem tree_low (hc : c.Ok) (h : Inv c (Sound c) v) (C : Cmtd c v v') {p : Pos} (hp : PosOk c p) : tree c v' ino p = tree c v ino p := by
  have h1 : ∀ x, InMap c x → curBit c v' x = curBit c v x := fun x _ => by
    have := imapBit_low (c := c) (m := v.work) (m' := v'.comm) C.com.entries C.com.blk x
    unfold curBit; rw [C.com.work]; exact this
  have h2 : ∀ x, InMap c x → curBit c v x = true → v'.blk x = v.blk x := fun x hx _ => C.com.blk x (by have := Conf.Ok.table_ge c; have := hx.1; omega)
  exact FsOk.tree_eq hc h.wf.fs h1 h2 ino hp

theorem Has.cmtd (hc : c.Ok) (h : Inv c (Sound c) v) (C : Cmtd c v v') (b : Nat) : Has c v' ino b ↔ Has c v ino b := by
  unfold Has
  constructor <;> rintro ⟨h1, h2⟩ <;> refine ⟨h1, ?_⟩
  · rw [tree_low hc h C (posOf_ok hc h1).1] at h2; exact h2
  · rw [tree_low hc h C (posOf_ok hc h1).1]; exact h2

/-- A regular file the call does not write. -/
theorem Has.keep (hc : c.Ok) {W : Nat → Prop} (h : RegK c v v' W) {f' : AFile} (hf : IsReg (files c v') ino f') (hw : ¬ W ino)
    (h0 : files c v ino ≠ none) (b : Nat) : Has c v' ino b ↔ Has c v ino b := by
  rcases h ino f' hw hf with ⟨h1, _⟩ | ⟨_, h1⟩
  · exact absurd h1 h0
  · unfold Has
    constructor <;> rintro ⟨h2, h3⟩ <;> refine ⟨h2, ?_⟩
    · rw [h1 _ (posOf_ok hc h2).1] at h3; exact h3
    · rw [h1 _ (posOf_ok hc h2).1]; exact h3

/-- A file of no bytes has no blocks. -/
theorem Has.empty (hc : c.Ok) (h : Inv c (Sound c) v) {f : AFile} (hf : files c v ino = some f) (h0 : f.size = 0) (b : Nat) : ¬ Has c v ino b := by
  rintro ⟨h1, h2⟩
  unfold files at hf
  rw [fileOf_eq] at hf
  cases hn : inodeAt c v.blk (curBit c v) ino with
  | none => rw [hn] at hf; cases hf
  | some n =>
    rw [hn] at hf
    injection hf with hf
    have hs : n.size = 0 := by rw [← h0, ← hf]
    have := (h.wf.fs.node ino n hn).2.2.1 _ (posOf_ok hc h1).1 h2
    omega

theorem Has.below (hc : c.Ok) (h : Inv c (Sound c) v) {f : AFile} (hf : files c v ino = some f) {b : Nat} (hb : Has c v ino b) : b * c.blockSize < f.size := by
  obtain ⟨h1, h2⟩ := hb
  unfold files at hf
  rw [fileOf_eq] at hf
  cases hn : inodeAt c v.blk (curBit c v) ino with
  | none => rw [hn] at hf; cases hf
  | some n =>
    rw [hn] at hf
    injection hf with hf
    have := (h.wf.fs.node ino n hn).2.2.1 _ (posOf_ok hc h1).1 h2
    rw [(posOf_ok hc h1).2.2] at this
    rw [← hf]; exact this

/-- A byte that is not zero is in a block that the file has. -/
theorem Has.of_byte (hc : c.Ok) (h : Inv c (Sound c) v) {f : AFile} (hf : files c v ino = some f) {off : Nat} (h0 : f.bytes off ≠ 0) : Has c v ino (off / c.blockSize) := by
  unfold files at hf
  rw [fileOf_eq] at hf
  cases hn : inodeAt c v.blk (curBit c v) ino with
  | none => rw [hn] at hf; cases hf
  | some n =>
    rw [hn] at hf
    injection hf with hf
    have h0 : (if off < n.size then RedFs.byteAt c v.blk (treeOf c v.blk (curBit c v) ino) off else 0) ≠ 0 := by rw [← hf] at h0; exact h0
    split at h0
    · next hlt =>
      have := (h.wf.fs.node ino n hn).2.1
      refine ⟨div_lt_data hc (by omega), fun hz => h0 ?_⟩
      unfold RedFs.byteAt cont; rw [if_pos (show treeOf c v.blk (curBit c v) ino _ = 0 from hz)]
    · exact absurd rfl h0

theorem nodup_sub {l m : List Nat} (hl : l.Nodup) (h : ∀ x ∈ l, x ∈ m) : l.length ≤ m.length := by
  exact (List.subperm_of_subset hl h).length_le

theorem nodup_below {l : List Nat} (hl : l.Nodup) {n : Nat} (h : ∀ x ∈ l, x < n) : l.length ≤ n := by
  have := nodup_sub (m := List.range n) hl fun x hx => List.mem_range.2 (h x hx)
  rwa [List.length_range] at this

theorem ok_of_map {α : Type} {g : α → Reply} {r0 : Except Err α} {e : Err} (h : r0.map g = .error e) : r0 = .error e := by
  cases r0 with
  | error e' => injection h with h; rw [h]
  | ok a => cases h

theorem reply_inv {α : Type} {g : α → Reply} {m : VM α} (h : reply g m v = (r, v')) : ∃ r0, m v = (r0, v') ∧ r = r0.map g := by
  have := reply_run (f := g) (m := m) (v := v) (r := (m v).1) (v' := (m v).2) rfl
  rw [h] at this
  obtain ⟨h1, h2⟩ := Prod.mk.inj this
  exact ⟨(m v).1, by rw [h2], h1⟩

/-- A single attempt. -/
theorem once_blocks (hc : c.SysOk) (h : Inv c (Sound c) v) (hro : v.readOnly = false) (hk : ∃ ev, Modifies k ev) (he : tryOnce c k v = (r, v'))
    (E : Eff c (Sound c) v v' (wr k)) {f f' : AFile} (hf : IsReg (files c v) ino f) (hf' : IsReg (files c v') ino f') 
    (hcr : ∀ p name d, k = .create p name d → ¬ r = .ok (.num ino)) {A : Nat → Prop}
    (hA : ∀ b, Has c v ino b ↔ A b) (b : Nat) : Has c v' ino b ↔ blocksAfter c.blockSize ino A (k, r) b := by
  have h0 : files c v ino ≠ none := by rw [hf.1]; simp
  have keep : ¬ wr k ino → (Has c v' ino b ↔ A b) := fun hw => (Has.keep hc.ok E.reg hf' hw h0 b).trans (hA b)
  cases k with
  | write i start len buf =>
    by_cases hi : i = ino
    · subst hi
      obtain ⟨r0, e0, rfl⟩ := reply_inv he
      have M := (coreFileWriteSub_more hc.ok h hro hf start len buf e0).2.1
      have hw : ∀ n, r0 = .ok n → ∀ x, Blks c start (start + n) x → x < c.dataBlocks := by
        rintro n rfl x ⟨off, g1, g2, rfl⟩
        obtain ⟨r1, v1, e1, _, R⟩ := coreFileWriteSub_spec hc.ok (sound_data (c := c)) i start len buf v h hro
        rw [e0] at e1; obtain ⟨rfl, rfl⟩ := Prod.mk.inj e1
        obtain ⟨_, _, _, _, h5, _⟩ := R
        exact div_lt_data hc.ok (by omega)
      cases r0 with
      | error e =>
        show _ ↔ A b
        rw [← hA]
        unfold Has
        constructor <;> rintro ⟨g1, g2⟩ <;> refine ⟨g1, ?_⟩
        · rcases (M b g1).1 g2 with g | ⟨n, g, _⟩
          · exact g
          · cases g
        · exact (M b g1).2 (Or.inl g2)
      | ok n =>
        show _ ↔ A b ∨ (i = i ∧ Blks c start (start + n) b)
        rw [← hA]
        unfold Has
        constructor
        · rintro ⟨g1, g2⟩
          rcases (M b g1).1 g2 with g | ⟨m, g, g'⟩
          · exact Or.inl ⟨g1, g⟩
          · injection g with g; subst g; exact Or.inr ⟨rfl, g'⟩
        · rintro (⟨g1, g2⟩ | ⟨_, g⟩)
          · exact ⟨g1, (M b g1).2 (Or.inl g2)⟩
          · have g1 := hw n rfl b g
            exact ⟨g1, (M b g1).2 (Or.inr ⟨n, rfl, g⟩)⟩
    · rw [keep (fun hh => hi hh.symm)]
      rcases r with e | a
      · exact Iff.rfl
      · cases a <;> first | exact Iff.rfl | exact ⟨Or.inl, fun hh => hh.elim id fun hh => absurd hh.1 hi⟩
  | truncate i size =>
    by_cases hi : i = ino
    · subst hi
      obtain ⟨r0, e0, rfl⟩ := reply_inv he
      have M := (coreFileTruncateSub_more hc.ok h hro hf size e0).2.1
      cases r0 with
      | error e =>
        show _ ↔ A b
        rw [← hA]
        unfold Has
        constructor <;> rintro ⟨g1, g2⟩ <;> refine ⟨g1, ?_⟩
        · exact ((M b g1).1 g2).1
        · exact (M b g1).2 ⟨g2, fun hh => by cases hh⟩
      | ok n =>
        show _ ↔ A b ∧ (i = i → b * c.blockSize < size)
        rw [← hA]
        unfold Has
        constructor
        · rintro ⟨g1, g2⟩
          exact ⟨⟨g1, ((M b g1).1 g2).1⟩, fun _ => ((M b g1).1 g2).2 rfl⟩
        · rintro ⟨⟨g1, g2⟩, g3⟩
          exact ⟨g1, (M b g1).2 ⟨g2, fun _ => g3 rfl⟩⟩
    · rw [keep (fun hh => hi hh.symm)]
      rcases r with e | a
      · exact Iff.rfl
      · exact ⟨fun g => ⟨g, fun hh => absurd hh hi⟩, fun g => g.1⟩
  | create p name d =>
    rw [keep (fun hh => hh)]
    rcases r with e | a
    · exact Iff.rfl
    · cases a with
      | num i =>
        refine ⟨fun g => ⟨g, ?_⟩, fun g => g.1⟩
        rintro rfl
        exact hcr p name d rfl rfl
      | _ => exact Iff.rfl
  | link p name i => exact keep (fun hh => hh)
  | unlink p name => exact keep (fun hh => hh)
  | rename p name p' name' => exact keep (fun hh => hh)
  | unmount => obtain ⟨ev, _, hh⟩ := hk; exact absurd rfl hh
  | _ => obtain ⟨ev, hh, _⟩ := hk; cases hh

theorem err_blocks {A : Nat → Prop} {e : Err} : blocksAfter c.blockSize ino A (k, .error e) = A := by
  cases k <;> rfl

/-- A call that does not modify files. -/
theorem ask_blocks (hc : c.SysOk) (h : Inv c (Sound c) v) (hk : k.Ok c) (hf : Forward k) (hno : ¬ ∃ ev, Modifies k ev) (he : exec c k v = (r, v'))
    {f' : AFile} (hf' : IsReg (files c v') ino f') (h0 : files c v ino ≠ none) (b : Nat) : Has c v' ino b ↔ Has c v ino b := by
  have eff : ∀ {w : Vol} {r' : Except Err Reply}, exec c k v = (r', w) → Eff c (Sound c) v w → (Has c v' ino b ↔ Has c v ino b) := by
    intro w r' e E
    rw [he] at e; obtain ⟨rfl, rfl⟩ := Prod.mk.inj e
    exact Has.keep hc.ok E.reg hf' (fun hh => hh) h0 b
  have same : ∀ {r' : Except Err Reply}, exec c k v = (r', v) → (Has c v' ino b ↔ Has c v ino b) := fun e => eff e (Eff.refl h)
  have hmnt := h.mounted
  cases k with
  | lookup p name =>
    have h' := h
    rw [Sound.posix hk.1] at h'
    obtain ⟨r, e, q⟩ := coreLookup_spec hc.ok (hc.posixOk hk.1) h' p hk.2
    exact same (reply_run e)
  | dirRead p pos =>
    have h' := h
    rw [Sound.posix hk] at h'
    obtain ⟨r, v', e, E, q1, q2, _⟩ := coreDirRead_spec hc.ok (hc.posixOk hk) h' p pos
    rw [← Sound.posix hk] at E
    exact eff (reply_run e) E
  | dirParent p =>
    have h' := h
    rw [Sound.posix hk] at h'
    rcases coreDirParent_spec hc.ok (hc.posixOk hk) h' p with ⟨e, q1, q2⟩ | ⟨f, q1, q2⟩
    · exact same (reply_run q2)
    · exact same (reply_run q2)
  | read i start len =>
    obtain ⟨r, v', e, E, q1, q2, _⟩ := coreFileRead_spec hc.ok h i start len
    exact eff (reply_run e) E
  | stat i =>
    rcases coreStat_spec hc.ok h i with ⟨q1, q2⟩ | ⟨f, st, q1, q2, _⟩
    · exact same (reply_run q2)
    · exact same (reply_run q2)
  | fileSize i =>
    have : ∃ r', coreFileSizeGet c i v = (r', v) := by
      unfold coreFileSizeGet
      rw [whenMounted_run h.mounted, run_bind]
      rcases mountFile hc.ok h.wf i false with ⟨e, h1, h2⟩ | ⟨f, ci, v1, hr, h2, fr, hd, hnb⟩
      · exact ⟨.error e, by rw [h2]⟩
      · obtain ⟨rfl, _⟩ := hnb rfl
        exact ⟨.ok ci.node.size, by rw [h2]; rfl⟩
    obtain ⟨r', e⟩ := this
    exact same (reply_run e)
  | statfs => exact same (reply_run (by unfold coreVolStat; rw [whenMounted_run h.mounted]; rfl))
  | maskGet => exact same (reply_run (by unfold coreTransMaskGet; rw [whenMounted_run h.mounted]; rfl))
  | maskSet mask =>
    have : ∃ r' mk, coreTransMaskSet c.transactMask mask v = (r', { v with transMask := mk }) := by
      unfold coreTransMaskSet; rw [run_bind]; dsimp only [run_get]
      split
      · exact ⟨_, v.transMask, rfl⟩
      · split
        · exact ⟨_, v.transMask, rfl⟩
        · exact ⟨_, mask, rfl⟩
    obtain ⟨r', mk, e⟩ := this
    have e' := reply_run (f := fun _ => Reply.unit) e
    have : exec c (.maskSet mask) v = _ := e'
    rw [he] at this
    rw [(Prod.mk.inj this).2]
    exact Iff.rfl
  | transact =>
    cases hro : v.readOnly
    · obtain ⟨v1, e, i', C⟩ := h.transact hc.ok
      have : exec c .transact v = (.ok .unit, v1) := reply_run (r := .ok ()) (by unfold coreVolTransact; rw [whenRw_run hmnt hro]; exact e)
      rw [he] at this; rw [(Prod.mk.inj this).2]
      exact Has.cmtd hc.ok h C b
    · exact same (reply_run (whenRw_ro hmnt hro))
  | mount ro =>
    have : ∃ r', apiMount c ro v = (r', v) := by
      unfold apiMount; rw [run_bind]; dsimp only [run_get]; rw [if_pos hmnt]
      split
      · exact ⟨_, rfl⟩
      · exact ⟨_, rfl⟩
    obtain ⟨r', e⟩ := this
    exact same (reply_run e)
  | rollback => exact absurd rfl hf.1
  | unmount => exact absurd rfl hf.2
  | _ => exact absurd ⟨_, rfl, fun hh => by cases hh⟩ hno

/-- One call. -/
theorem step_blocks (hc : c.SysOk) (h : Reach c v) (hm : v.mounted = true) (hk : k.Ok c) (hf : Forward k) (he : exec c k v = (r, v'))
    {f' : AFile} (hf' : IsReg (files c v') ino f') {A : Nat → Prop} (hA : ∀ f, IsReg (files c v) ino f → ∀ b, Has c v ino b ↔ A b) (b : Nat) :
    Has c v' ino b ↔ blocksAfter c.blockSize ino A (k, r) b := by
  have hi := Reach.up hc h hm
  obtain ⟨hm', hreg⟩ := step_reg hc h hm hk hf he
  have hi' := Reach.up hc (h.call hk he) hm'
  obtain ⟨f, hsz, _, hor⟩ := hreg ino f' hf'
  -- the file has just been created (or cut to nothing)
  by_cases hcr : ∃ p name d, k = .create p name d ∧ r = .ok (.num ino)
  · obtain ⟨p, name, d, rfl, rfl⟩ := hcr
    have h0 : f'.size = 0 := by rw [hsz]; show (if ino = ino then 0 else _) = 0; rw [if_pos rfl]
    refine ⟨fun g => absurd g (Has.empty hc.ok hi' hf'.1 h0 b), ?_⟩
    rintro ⟨_, g⟩; exact absurd rfl g
  have hcr' : ∀ p name d, k = .create p name d → ¬ r = .ok (.num ino) := fun p name d h1 h2 => hcr ⟨p, name, d, h1, h2⟩
  rcases hor with hreg0 | ⟨ht, hz⟩
  swap
  · -- cut to nothing
    have h0 : f'.size = 0 := by rw [hsz]; exact hz _
    have hn := Has.empty hc.ok hi' hf'.1 h0 b
    refine ⟨fun g => absurd g hn, fun g => ?_⟩
    exfalso
    rcases r with e | a
    · have := ht 0; cases k <;> cases this
    cases k with
    | write i start len buf =>
      cases a with
      | num n =>
        have := ht (start + n)
        have h1 : touches ino (start + n) (.write i start len buf, .ok (.num n)) = none := by
          show (if _ then _ else _) = _; rw [if_neg (by omega)]
        rw [h1] at this; cases this
      | _ => have := ht 0; cases this
    | truncate i size =>
      have h1 : (if i = ino ∧ size ≤ 0 then some (0 : Byte) else none) = some 0 := ht 0
      split at h1
      · next hh => have := g.2 hh.1; omega
      · cases h1
    | create p name d =>
      cases a with
      | num n =>
        have h1 : (if n = ino then some (0 : Byte) else none) = some 0 := ht 0
        split at h1
        · next hh => exact g.2 hh
        · cases h1
      | _ => have := ht 0; cases this
    | _ => have := ht 0; cases this
  have hA' := hA f hreg0
  have h00 : files c v ino ≠ none := by rw [hreg0.1]; simp
  by_cases hmod : ∃ ev, Modifies k ev
  swap
  · rw [ask_blocks hc hi hk hf hmod he hf' h00 b, hA']
    cases k with
    | write => exact absurd ⟨_, rfl, fun hh => by cases hh⟩ hmod
    | truncate => exact absurd ⟨_, rfl, fun hh => by cases hh⟩ hmod
    | create => exact absurd ⟨_, rfl, fun hh => by cases hh⟩ hmod
    | _ => exact Iff.rfl
  obtain ⟨ev, hmod⟩ := hmod
  cases hro : v.readOnly
  swap
  · obtain ⟨α, f, m, R, h1, _⟩ := exec_modify hc hk hmod
    have : exec c k v = (.error .erofs, v) := by rw [h1]; exact reply_run (whenRw_ro hm hro)
    rw [he] at this; obtain ⟨rfl, rfl⟩ := Prod.mk.inj this
    rw [hA', err_blocks]
  obtain ⟨r1, v1, e1, E1, F1, how⟩ := modify_how hc hi hro hk hmod he
  have last : ∀ w, Inv c (Sound c) w → ((r.toBool = true ∧ v.on ev = true) ∧ volTransact w = (.ok (), v') ∧ Cmtd c w v' ∨ ¬ (r.toBool = true ∧ v.on ev = true) ∧ v' = w) →
      IsReg (files c w) ino f' ∧ (Has c v' ino b ↔ Has c w ino b) := by
    rintro w hw (⟨_, _, C⟩ | ⟨_, rfl⟩)
    · exact ⟨by rw [← C.files]; exact hf', Has.cmtd hc.ok hw C b⟩
    · exact ⟨hf', Iff.rfl⟩
  rcases how with ⟨g1, g2, g3, v2, v3, g5, C, i2, g6, E3, F3, g7⟩ | ⟨g1, g2, g3⟩
  · have hreg1 : IsReg (files c v1) ino f := by rw [IsReg, F1 _ g1]; exact hreg0
    have hreg2 : IsReg (files c v2) ino f := by rw [IsReg, C.files]; exact hreg1
    have hro2 : v2.readOnly = false := by rw [C.com.readOnly, E1.readOnly]; exact hro
    obtain ⟨hreg3, h3⟩ := last v3 E3.inv g7
    rw [h3]
    refine once_blocks hc i2 hro2 ⟨ev, hmod⟩ g6 E3 hreg2 hreg3 hcr' (fun b => ?_) b
    rw [Has.cmtd hc.ok E1.inv C b, once_blocks hc hi hro ⟨ev, hmod⟩ e1 E1 hreg0 hreg1 (fun _ _ _ _ hh => by rw [g1] at hh; cases hh) hA' b, g1, err_blocks]
  · obtain ⟨hreg3, h3⟩ := last v1 E1.inv g3
    rw [h3, g2]
    exact once_blocks hc hi hro ⟨ev, hmod⟩ e1 E1 hreg0 hreg3 (fun p name d hh => by rw [← g2]; exact hcr' p name d hh) hA' b

/-! ### Histories -/

theorem blocksHist_append (bs ino : Nat) (A : Nat → Prop) (h : List Files.Done) (d : Files.Done) :
    blocksHist bs ino A (h ++ [d]) = blocksAfter bs ino (blocksHist bs ino A h) d := by
  unfold blocksHist; rw [List.foldl_append]; rfl

theorem hist_blocks (hc : c.SysOk) {ks : List Call} (hk : ∀ k ∈ ks, k.Ok c ∧ Forward k) (h : Reach c v) (hm : v.mounted = true) {A : Nat → Prop}
    (hA : ∀ f, IsReg (files c v) ino f → ∀ b, Has c v ino b ↔ A b) :
    (runCalls c ks v).2.mounted = true ∧ ∀ f, IsReg (files c (runCalls c ks v).2) ino f →
      ∀ b, Has c (runCalls c ks v).2 ino b ↔ blocksHist c.blockSize ino A (history c ks v) b := by
  rw [← List.reverse_reverse ks] at hk ⊢
  generalize ks.reverse = rs at hk ⊢
  induction rs with
  | nil => exact ⟨hm, fun f hf b => hA f hf b⟩
  | cons k rs ih =>
    rw [List.reverse_cons] at hk ⊢
    obtain ⟨hm1, ih⟩ := ih (fun k' hk' => hk k' (List.mem_append_left _ hk'))
    have hr1 := h.calls (fun k' hk' => (hk k' (List.mem_append_left _ hk')).1)
    obtain ⟨hk1, hk2⟩ := hk k (List.mem_append_right _ (List.mem_singleton.2 rfl))
    rw [history_append, runCalls_append]
    generalize history c rs.reverse v = hst at ih ⊢
    generalize (runCalls c rs.reverse v).2 = v1 at hm1 ih hr1 ⊢
    have e1 : history c [k] v1 = [(k, (exec c k v1).1)] := rfl
    rw [e1, blocksHist_append]
    refine ⟨(step_reg hc hr1 hm1 hk1 hk2 (exec_eta c k v1)).1, fun f' hf' b => ?_⟩
    exact step_blocks hc hr1 hm1 hk1 hk2 (exec_eta c k v1) hf' ih b

/-- `st_blocks` -/
theorem stat_blocks (hc : c.SysOk) (hb : c.inodeBlocks = true) (h : Inv c (Sound c) v) {st : RedFs.Stat} (he : exec c (.stat ino) v = (.ok (.stat st), v')) :
    (∃ f, files c v ino = some f ∧ st.mode = f.mode ∧ st.size = f.size) ∧ HasCard (Has c v ino) st.blocks := by
  obtain ⟨r0, e0, e1⟩ := reply_inv he
  rcases coreStat_spec hc.ok h ino with ⟨_, q2⟩ | ⟨f, st', q1, q2, _, q4, _, q6, q7⟩
  · rw [q2] at e0; obtain ⟨rfl, _⟩ := Prod.mk.inj e0; cases e1
  · rw [q2] at e0; obtain ⟨rfl, _⟩ := Prod.mk.inj e0
    injection e1 with e1; injection e1 with e1; subst e1
    refine ⟨⟨f, q1, q4, q6⟩, ?_⟩
    rw [q7, if_pos hb]
    refine HasCard.congr hasCard_countIn fun b => ?_
    unfold Has
    constructor
    · rintro ⟨h1, h2⟩; exact ⟨Nat.zero_le _, h1, decide_eq_true h2⟩
    · rintro ⟨_, h1, h2⟩; exact ⟨h1, of_decide_eq_true h2⟩

/-- **C55** (Configurations with block counts.)  For every mounted volume and every file there is a set of
blocks, as many as `st_blocks` says, such that after any sequence of calls - successful or
not - `st_blocks` of the file, if it is (still, or again) a regular file, is the number of blocks which the history says have
been written and not cut off. -/
theorem C55_blocks (hc : c.SysOk) (hb : c.inodeBlocks = true) (h : Reach c v) (hm : v.mounted = true) (ino : Nat) :
    ∃ A : Nat → Prop,
      (∀ st w, exec c (.stat ino) v = (.ok (.stat st), w) → HasCard A st.blocks) ∧
      ∀ ks : List Call, (∀ k ∈ ks, k.Ok c ∧ Forward k) → ∀ st w, exec c (.stat ino) (runCalls c ks v).2 = (.ok (.stat st), w) → st.mode = modeReg →
        HasCard (blocksHist c.blockSize ino A (history c ks v)) st.blocks := by
  refine ⟨Has c v ino, fun st w he => (stat_blocks hc hb (Reach.up hc h hm) he).2, fun ks hk st w he hr => ?_⟩
  obtain ⟨hm1, h1⟩ := hist_blocks hc hk h hm (A := Has c v ino) (fun _ _ _ => Iff.rfl)
  obtain ⟨⟨f, h2, h3, _⟩, h4⟩ := stat_blocks hc hb (Reach.up hc (h.calls fun k' hk' => (hk k' hk').1) hm1) he
  exact h4.congr fun b => (h1 f ⟨h2, h3 ▸ hr⟩ b).symm

/-- **C55** A file that does not exist yet when the calls begin: the history alone decides. -/
theorem C55_new_file (hc : c.SysOk) (hb : c.inodeBlocks = true) (h : Reach c v) (hm : v.mounted = true) (hno : (exec c (.stat ino) v).1 = .error .ebadf)
    {ks : List Call} (hk : ∀ k ∈ ks, k.Ok c ∧ Forward k) {st : RedFs.Stat} (he : exec c (.stat ino) (runCalls c ks v).2 = (.ok (.stat st), w)) (hr : st.mode = modeReg) :
    HasCard (blocksHist c.blockSize ino (fun _ => False) (history c ks v)) st.blocks := by
  have hi := Reach.up hc h hm
  have hn : files c v ino = none := by
    rcases coreStat_spec hc.ok hi ino with ⟨q1, _⟩ | ⟨f, st', _, q2, _⟩
    · exact q1
    · have : exec c (.stat ino) v = _ := reply_run q2
      rw [this] at hno; cases hno
  obtain ⟨hm1, h1⟩ := hist_blocks hc hk h hm (ino := ino) (A := fun _ => False) (fun f hf => by have := hf.1; rw [hn] at this; cases this)
  obtain ⟨⟨f, h2, h3, _⟩, h4⟩ := stat_blocks hc hb (Reach.up hc (h.calls fun k' hk' => (hk k' hk').1) hm1) he
  exact h4.congr fun b => (h1 f ⟨h2, h3 ▸ hr⟩ b).symm

/-- **C55** A call that fails leaves `st_blocks` of every regular file as it was. -/
theorem C55_failed_call (hc : c.SysOk) (hb : c.inodeBlocks = true) (h : Reach c v) (hm : v.mounted = true) (hk : k.Ok c) (hf : Forward k) {e : Err}
    (he : exec c k v = (.error e, v')) {st st' : RedFs.Stat} {w' : Vol} (h1 : exec c (.stat ino) v = (.ok (.stat st), w))
    (h2 : exec c (.stat ino) v' = (.ok (.stat st'), w')) (hr : st'.mode = modeReg) : st'.blocks = st.blocks := by
  obtain ⟨A, a1, a2⟩ := C55_blocks hc hb h hm ino
  have hrun : (runCalls c [k] v).2 = v' := by show (exec c k v).2 = v'; rw [he]
  have hh : history c [k] v = [(k, .error e)] := by show [(k, (exec c k v).1)] = _; rw [he]
  have := a2 [k] (fun k' hk' => by rw [List.mem_singleton.1 hk']; exact ⟨hk, hf⟩) st' w' (by rw [hrun]; exact h2) hr
  rw [hh] at this
  rw [show blocksHist c.blockSize ino A [(k, .error e)] = A from err_blocks] at this
  exact this.unique (a1 st w h1)

/-- **C55** Making a file longer takes no space: `st_blocks` stays the same. -/
theorem C55_extend (hc : c.SysOk) (hb : c.inodeBlocks = true) (h : Reach c v) (hm : v.mounted = true) {size : Nat}
    (he : exec c (.truncate ino size) v = (.ok .unit, v')) {st st' : RedFs.Stat} {w' : Vol} (h1 : exec c (.stat ino) v = (.ok (.stat st), w)) (hsz : st.size ≤ size)
    (h2 : exec c (.stat ino) v' = (.ok (.stat st'), w')) (hr : st'.mode = modeReg) : st'.blocks = st.blocks := by
  have hi := Reach.up hc h hm
  obtain ⟨⟨f, g1, _, g3⟩, g4⟩ := stat_blocks hc hb hi h1
  have hm' := (step_reg hc h hm (k := .truncate ino size) trivial ⟨(fun hh => by cases hh), fun hh => by cases hh⟩ he).1
  obtain ⟨⟨f', g1', g2', _⟩, g4'⟩ := stat_blocks hc hb (Reach.up hc (h.call (k := .truncate ino size) trivial he) hm') h2
  refine (HasCard.congr g4' fun b => ?_).unique g4
  rw [step_blocks hc h hm (k := .truncate ino size) trivial ⟨(fun hh => by cases hh), fun hh => by cases hh⟩ he ⟨g1', g2' ▸ hr⟩ (A := Has c v ino) (fun _ _ _ => Iff.rfl) b]
  refine ⟨fun g => ⟨g, fun _ => ?_⟩, fun g => g.1⟩
  have := Has.below hc.ok hi g1 g
  omega

/-- **C55** In every reachable state `st_blocks` is at least the number of blocks with a byte that is not zero in
them, and at most the number of blocks that the size covers. -/
theorem C55_bounds (hc : c.SysOk) (hb : c.inodeBlocks = true) (h : Reach c v) (hm : v.mounted = true) {st : RedFs.Stat} (he : exec c (.stat ino) v = (.ok (.stat st), w)) :
    st.blocks * c.blockSize < st.size + c.blockSize ∧
    ∀ f, files c v ino = some f → ∀ L : List Nat, L.Nodup → (∀ b ∈ L, ∃ off, off / c.blockSize = b ∧ f.bytes off ≠ 0) → L.length ≤ st.blocks := by
  have hi := Reach.up hc h hm
  obtain ⟨⟨f, g1, _, g3⟩, l, l1, l2, l3⟩ := stat_blocks hc hb hi he
  have hB : 0 < c.blockSize := RedFs.bs_pos hc.ok
  constructor
  · have : l.length ≤ (f.size + c.blockSize - 1) / c.blockSize := by
      refine nodup_below l1 fun b hb => ?_
      have := Has.below hc.ok hi g1 ((l2 b).1 hb)
      have h4 := Nat.div_add_mod (f.size + c.blockSize - 1) c.blockSize
      have h5 := Nat.mod_lt (f.size + c.blockSize - 1) hB
      apply Decidable.byContradiction; intro hn
      have h6 := Nat.mul_le_mul_left c.blockSize (Nat.le_of_not_lt hn)
      rw [Nat.mul_comm c.blockSize b] at h6
      omega
    rw [g3, ← l3]
    have h2 := Nat.div_mul_le_self (f.size + c.blockSize - 1) c.blockSize
    have h3 := Nat.mul_le_mul_right c.blockSize this
    omega
  · intro f' hf' L hL hall
    rw [g1] at hf'; injection hf' with hf'; subst hf'
    rw [← l3]
    refine nodup_sub hL fun b hb => ?_
    obtain ⟨off, h1, h2⟩ := hall b hb
    rw [l2, ← h1]
    exact Has.of_byte hc.ok hi g1 h2

/-! ### The hypotheses can be met -/

/-- What `red_stat` says about the blocks of a file. -/
def blocksOf (v : Vol) (ino : Nat) : Nat := match (exec demoConf (.stat ino) v).1 with | .ok (.stat st) => st.blocks | _ => 99
theorem blocksOf_eq {v : Vol} {ino n : Nat} (h : blocksOf v ino = n) (hn : n ≠ 99) : ∃ st w, exec demoConf (.stat ino) v = (.ok (.stat st), w) ∧ st.blocks = n := by
  unfold blocksOf at h
  split at h
  · next st hh => exact ⟨st, _, Prod.ext hh rfl, h⟩
  · exact absurd h.symm hn

theorem isErr_eq {e : Err} {r : Except Err Reply} (h : isErr e r = true) : r = .error e := by
  unfold isErr at h
  split at h
  · rw [beq_iff_eq] at h; rw [h]
  · cases h
def isUnit : Except Err Reply → Bool | .ok .unit => true | _ => false
theorem isOkUnit {r : Except Err Reply} (h : isUnit r = true) : r = .ok .unit := by
  unfold isUnit at h
  split at h
  · rfl
  · cases h

example : demoConf.inodeBlocks = true := rfl
theorem start_none : (exec demoConf (.stat 4) startVol).1 = .error .ebadf := isErr_eq (by decide +kernel)
theorem file_blocks : blocksOf fileVol 4 = 2 := by decide +kernel
/-- File 4 of 310 bytes in blocks of 128: the second block is a hole. -/
example : ∃ st w, exec demoConf (.stat 4) fileVol = (.ok (.stat st), w) ∧ HasCard (blocksHist 128 4 (fun _ => False) (history demoConf fileCalls startVol)) st.blocks ∧ st.blocks = 2 := by
  obtain ⟨st, w, h1, h2⟩ := blocksOf_eq file_blocks (by decide)
  obtain ⟨f, hf⟩ := file_reg
  obtain ⟨⟨f', h3, h4, _⟩, _⟩ := stat_blocks demo_sys rfl (Reach.up demo_sys file_reach file_mounted) h1
  rw [hf.1] at h3; injection h3 with h3; subst h3
  exact ⟨st, w, h1, C55_new_file demo_sys rfl start_reach start_mounted start_none fileCalls_ok h1 (h4.trans hf.2), h2⟩
/-- It is extended: no more blocks. -/
theorem file_ext : (exec demoConf (.truncate 4 900) fileVol).1 = .ok .unit := isOkUnit (by decide +kernel)
example : blocksOf (exec demoConf (.truncate 4 900) fileVol).2 4 = 2 := by decide +kernel
/-- A write that fails: the file would be too large. -/
theorem file_big : (exec demoConf (.write 4 99999999 5 (fun _ => 1)) fileVol).1 = .error .efbig := isErr_eq (by decide +kernel)
example : blocksOf (exec demoConf (.write 4 99999999 5 (fun _ => 1)) fileVol).2 4 = 2 := by decide +kernel

end RedFs.Props.Blocks
