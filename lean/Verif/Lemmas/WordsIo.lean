import Verif.Lemmas.Words
set_option linter.unusedSimpArgs false
set_option linter.unusedVariables false
/-! Reading and writing in machine words. -/
namespace RedFs.Words
open M

variable {c : Conf}

theorem onlyIf_congr {σ α : Type} {p q : Prop} [Decidable p] [Decidable q] {m m' : M σ α} {d : α} (h : p ↔ q) (e : p → m = m') :
    onlyIf p m d = onlyIf q m' d := by
  unfold onlyIf
  by_cases hp : p
  · rw [if_pos hp, if_pos (h.1 hp), e hp]
  · rw [if_neg hp, if_neg (fun x => hp (h.2 x))]

theorem readUnaligned_eq (hc : c.Ok) {start : U64} {len : U32} (h : start.toNat + len.toNat ≤ c.sizeMax) (hl : 0 < len.toNat) :
    readUnaligned c start len = RedFs.readUnaligned c start.toNat len.toNat := by
  have hm := sizeMax_lt hc
  have w := wide_toNat len
  have a : (start + wide len).toNat = start.toNat + len.toNat := by rw [add64 (by omega), w]
  have b : (start + wide len - 1).toNat = start.toNat + len.toNat - 1 := by rw [sub64 (by rw [one64, a]; omega), a, one64]
  unfold readUnaligned RedFs.readUnaligned
  simp only [ne_eq, eq_toNat, shr64 hc, b, blockOf_toNat hc (x := start) (by omega), inBlock_toNat hc]

theorem writeUnaligned_eq (hc : c.Ok) {start : U64} {len : U32} (f : Nat → Byte) (h : start.toNat + len.toNat ≤ c.sizeMax) (hl : 0 < len.toNat) :
    writeUnaligned c start len f = RedFs.writeUnaligned c start.toNat len.toNat f := by
  have hm := sizeMax_lt hc
  have w := wide_toNat len
  have a : (start + wide len).toNat = start.toNat + len.toNat := by rw [add64 (by omega), w]
  have b : (start + wide len - 1).toNat = start.toNat + len.toNat - 1 := by rw [sub64 (by rw [one64, a]; omega), a, one64]
  unfold writeUnaligned RedFs.writeUnaligned
  simp only [ne_eq, eq_toNat, shr64 hc, b, blockOf_toNat hc (x := start) (by omega), inBlock_toNat hc]

/-- The bytes in the first, partial block. -/
theorem this_toNat (hc : c.Ok) (start : U64) (len : U32) :
    (redmin len (bs c - lo32 (inBlock c start))).toNat = min len.toNat (c.blockSize - start.toNat % c.blockSize) := by
  have hb := bs_bounds hc
  have hm : start.toNat % c.blockSize < c.blockSize := Nat.mod_lt _ (by omega)
  have l : (lo32 (inBlock c start)).toNat = start.toNat % c.blockSize := by
    rw [lo32_toNat (by rw [inBlock_toNat hc]; omega), inBlock_toNat hc]
  rw [redmin_toNat, sub32 (by rw [l, bs_toNat hc]; omega), l, bs_toNat hc]

theorem unaligned_iff (hc : c.Ok) (start : U64) : inBlock c start ≠ 0 ↔ start.toNat % c.blockSize ≠ 0 := by
  rw [ne_eq, eq_toNat, inBlock_toNat hc]; rfl

/-- `ulLen` after it has been cut at a limit. -/
theorem clamp_toNat {lim start : U64} {len : U32} (h : start.toNat ≤ lim.toNat) :
    (if lim - start < wide len then lo32 (lim - start) else len).toNat =
      if lim.toNat - start.toNat < len.toNat then lim.toNat - start.toNat else len.toNat := by
  have s := sub64 h
  have w := wide_toNat len
  have := len.isLt
  simp only [lt_toNat, s, w]
  split
  · rw [lo32_toNat (by omega), s]
  · rfl

theorem dataRead_eq (hc : c.Ok) (start : U64) (len : U32) (s : DS) (hs : s.ci.node.size ≤ c.sizeMax) :
    dataRead c start len s = RedFs.dataRead c start.toNat len.toNat s := by
  have hm := sizeMax_lt hc
  have hb := bs_bounds hc
  have hsz : (BitVec.ofNat 64 s.ci.node.size).toNat = s.ci.node.size := ofNat64 (by omega)
  unfold dataRead RedFs.dataRead
  rw [run_bind, run_bind, run_get]
  simp only []
  by_cases h0 : s.ci.nodeBuf = none
  · rw [if_pos h0, if_pos h0]
  rw [if_neg h0, if_neg h0]
  by_cases h1 : s.ci.node.size ≤ start.toNat
  · rw [if_pos (by rw [le_toNat, hsz]; exact h1), if_pos h1]
  rw [if_neg (by rw [le_toNat, hsz]; exact h1), if_neg h1]
  by_cases h2 : len.toNat = 0
  · rw [if_pos (by rw [eq_toNat]; exact h2), if_pos h2]
  rw [if_neg (by rw [eq_toNat]; exact h2), if_neg h2]
  have hcl := clamp_toNat (lim := BitVec.ofNat 64 s.ci.node.size) (start := start) (len := len) (by rw [hsz]; omega)
  rw [hsz] at hcl
  generalize (if BitVec.ofNat 64 s.ci.node.size - start < wide len then lo32 (BitVec.ofNat 64 s.ci.node.size - start) else len) = L at hcl ⊢
  rw [← hcl]
  have hL0 : 0 < L.toNat := by rw [hcl]; split <;> omega
  have hLs : start.toNat + L.toNat ≤ c.sizeMax := by rw [hcl]; split <;> omega
  have hLlt := L.isLt
  -- the first part
  have hf : (if inBlock c start ≠ 0 then redmin L (bs c - lo32 (inBlock c start)) else 0).toNat = readFirst c start.toNat L.toNat := by
    unfold readFirst
    simp only [unaligned_iff hc]
    split
    · exact this_toNat hc start L
    · rfl
  generalize hF : (if inBlock c start ≠ 0 then redmin L (bs c - lo32 (inBlock c start)) else 0) = F at hf ⊢
  have hmod : start.toNat % c.blockSize < c.blockSize := Nat.mod_lt _ (by omega)
  have hun : inBlock c start ≠ 0 ↔ readFirst c start.toNat L.toNat ≠ 0 := by
    rw [unaligned_iff hc]; unfold readFirst
    by_cases hz : start.toNat % c.blockSize = 0
    · simp [hz]
    · rw [if_pos hz]; constructor <;> intro _ <;> omega
  have hFL : F.toNat ≤ L.toNat := by rw [hf]; unfold readFirst; split <;> omega
  have hrem : (L - F).toNat = L.toNat - F.toNat := sub32 hFL
  have hidx : (0 + F : U32).toNat = F.toNat := by rw [add32 (by rw [zero32]; omega), zero32]; omega
  have hn : (if bs c ≤ L - F then (L - F) >>> p2 c else 0).toNat = wholeBlocks c (L.toNat - F.toNat) := by
    unfold wholeBlocks
    simp only [le_toNat, bs_toNat hc, hrem]
    split
    · rw [shr32 hc, hrem]
    · rfl
  generalize (if bs c ≤ L - F then (L - F) >>> p2 c else 0) = N at hn ⊢
  have hwh : bs c ≤ L - F ↔ wholeBlocks c (L.toNat - F.toNat) ≠ 0 := by
    rw [le_toNat, bs_toNat hc, hrem]; unfold wholeBlocks
    by_cases hz : c.blockSize ≤ L.toNat - F.toNat
    · have : 0 < (L.toNat - F.toNat) / c.blockSize := Nat.div_pos hz (by omega)
      rw [if_pos hz]; constructor <;> intro _ <;> omega
    · simp [hz]
  have hnm : N.toNat * c.blockSize ≤ L.toNat - F.toNat := by
    rw [hn]; unfold wholeBlocks; split
    · exact Nat.div_mul_le_self ..
    · omega
  have hshl : (N <<< p2 c).toNat = N.toNat * c.blockSize := shl32 hc (by omega)
  have hr3 : (L - F - (N <<< p2 c)).toNat = L.toNat - F.toNat - N.toNat * c.blockSize := by
    rw [sub32 (by rw [hshl, hrem]; omega), hshl, hrem]
  have hi3 : (0 + F + (N <<< p2 c)).toNat = F.toNat + N.toNat * c.blockSize := by
    rw [add32 (by rw [hidx, hshl]; omega), hidx, hshl]
  have hst : (start + wide (0 + F)).toNat = start.toNat + F.toNat := by
    rw [add64 (by rw [wide_toNat, hidx]; omega), wide_toNat, hidx]
  have hst3 : (start + wide (0 + F + (N <<< p2 c))).toNat = start.toNat + F.toNat + N.toNat * c.blockSize := by
    rw [add64 (by rw [wide_toNat, hi3]; omega), wide_toNat, hi3]; omega
  unfold readParts
  rw [← hf, ← hn]
  have p1 : (onlyIf (inBlock c start ≠ 0) (readUnaligned c start F) [] : DM (List Byte)) =
      onlyIf (F.toNat ≠ 0) (RedFs.readUnaligned c start.toNat F.toNat) [] := by
    rw [← hf] at hun
    exact onlyIf_congr hun fun h => readUnaligned_eq hc (by omega) (by have := hun.1 h; omega)
  have p2' : (onlyIf (bs c ≤ L - F) (readAligned c (blockOf c (start + wide (0 + F))).toNat N.toNat N.toNat 0) [] : DM (List Byte)) =
      onlyIf (N.toNat ≠ 0) (readAligned c ((start.toNat + F.toNat) / c.blockSize) N.toNat N.toNat 0) [] := by
    rw [← hn] at hwh
    refine onlyIf_congr hwh fun h => ?_
    rw [blockOf_toNat hc (by rw [hst]; omega), hst]
  have p3 : (onlyIf (L - F - (N <<< p2 c) > 0) (readUnaligned c (start + wide (0 + F + (N <<< p2 c))) (L - F - (N <<< p2 c))) [] : DM (List Byte)) =
      onlyIf (L.toNat - F.toNat - N.toNat * c.blockSize > 0)
        (RedFs.readUnaligned c (start.toNat + F.toNat + N.toNat * c.blockSize) (L.toNat - F.toNat - N.toNat * c.blockSize)) [] := by
    refine onlyIf_congr ?_ fun h => ?_
    · rw [gt_iff_lt, lt_toNat, hr3, zero32]
    · rw [gt_iff_lt, lt_toNat, hr3, zero32] at h
      rw [readUnaligned_eq hc (by rw [hst3, hr3]; omega) (by rw [hr3]; omega), hst3, hr3]
  rw [p1, p2', p3]

/-! ### Writing -/

/-- The operation leaves the file size alone. -/
def KeepSize {α : Type} (m : DM α) : Prop := ∀ s, (m s).2.ci.node.size = s.ci.node.size

theorem keep_pure {α : Type} (a : α) : KeepSize (pure a : DM α) := fun _ => rfl
theorem keep_fail {α : Type} (e : Err) : KeepSize (fail e : DM α) := fun _ => rfl
theorem keep_get : KeepSize (get : DM DS) := fun _ => rfl
theorem keep_bind {α β : Type} {m : DM α} {f : α → DM β} (h : KeepSize m) (hf : ∀ a, KeepSize (f a)) : KeepSize (m >>= f) := by
  intro s
  rw [run_bind]
  have := h s
  rcases hm : m s with ⟨r, s'⟩
  rw [hm] at this
  cases r with
  | error e => exact this
  | ok a => exact (hf a s').trans this
theorem keep_attempt {α : Type} {m : DM α} (h : KeepSize m) : KeepSize (attempt m) := fun s => by
  rw [run_attempt]; exact h s
theorem keep_onlyIf {α : Type} {p : Prop} [Decidable p] {m : DM α} {d : α} (h : KeepSize m) : KeepSize (onlyIf p m d) := by
  unfold onlyIf; split
  · exact h
  · exact keep_pure d
theorem keep_liftV {α : Type} (m : VM α) : KeepSize (liftV m) := fun s => by
  unfold liftV
  rcases m s.v with ⟨r, v⟩; rfl
theorem keep_setCi {f : Cinode → Cinode} (h : ∀ ci, (f ci).node = ci.node) : KeepSize (setCi f) := fun s => by
  show (f s.ci).node.size = _; rw [h]
theorem keep_setNode {f : InodeNode → InodeNode} (h : ∀ n, (f n).size = n.size) : KeepSize (setNode f) := fun s => h _
theorem keep_ite {α : Type} {p : Prop} [Decidable p] {a b : DM α} (ha : KeepSize a) (hb : KeepSize b) : KeepSize (if p then a else b) := by
  split
  · exact ha
  · exact hb

theorem seekCi_node (ci : Cinode) (b : Nat) : (seekCi c ci b).node = ci.node := by
  unfold seekCi
  split
  · rfl
  split
  · dsimp only; split <;> rfl
  · dsimp only; split
    · rfl
    · split <;> rfl

macro "keep" : tactic => `(tactic| with_reducible repeat' first
  | exact keep_pure _ | exact keep_fail _ | exact keep_get | exact keep_liftV _
  | exact keep_setCi fun _ => rfl | exact keep_setNode fun _ => rfl
  | assumption
  | apply keep_onlyIf | apply keep_attempt | apply keep_bind | apply keep_ite | intro _ | split)

theorem seekCoord_keep (b : Nat) : KeepSize (RedFs.seekCoord c b) := by
  unfold RedFs.seekCoord
  have := keep_setCi (f := fun x => seekCi c x b) fun ci => seekCi_node ci b
  keep
theorem seekDindir_keep : KeepSize seekDindir := by unfold seekDindir; keep
theorem seekIndir_keep : KeepSize seekIndir := by unfold seekIndir; keep
theorem seekInode_keep (b : Nat) : KeepSize (seekInode c b) := by
  have := seekCoord_keep (c := c) b
  have := seekDindir_keep
  have := seekIndir_keep
  unfold seekInode; keep
theorem seekData_keep (b : Nat) : KeepSize (seekData c b) := by
  have := seekInode_keep (c := c) b
  unfold seekData; keep
theorem branchDindir_keep : KeepSize (branchDindir c) := by unfold branchDindir; keep
theorem branchIndir_keep (d : Nat) : KeepSize (branchIndir c d) := by unfold branchIndir; keep
theorem branchData_keep (d : Nat) (b : Bool) : KeepSize (branchData c d b) := by unfold branchData; keep
theorem branchBlock_keep (d : Nat) (b : Bool) : KeepSize (branchBlock c d b) := by
  have := branchDindir_keep (c := c)
  have := branchIndir_keep (c := c) d
  have := branchData_keep (c := c) d b
  unfold branchBlock criticalAssertD; keep
theorem pokeData_keep (a b : Nat) (f : Nat → Byte) : KeepSize (pokeData a b f) := by unfold pokeData; keep
theorem expandPrepare_keep : KeepSize (RedFs.expandPrepare c) := by
  have := fun b => seekData_keep (c := c) b
  have := fun d b => branchBlock_keep (c := c) d b
  have := fun a b f => pokeData_keep a b f
  unfold RedFs.expandPrepare
  with_reducible repeat' first
    | exact keep_pure _ | exact keep_fail _ | exact keep_get | exact seekData_keep _ | exact branchBlock_keep _ _ | exact pokeData_keep _ _ _
    | apply keep_bind | apply keep_ite | intro _
theorem writeUnaligned_keep (start len : Nat) (f : Nat → Byte) : KeepSize (RedFs.writeUnaligned c start len f) := by
  unfold RedFs.writeUnaligned
  with_reducible repeat' first
    | exact keep_pure _ | exact keep_fail _ | exact keep_get | exact seekData_keep _ | exact branchBlock_keep _ _ | exact pokeData_keep _ _ _
    | apply keep_bind | apply keep_ite | intro _
theorem collect_keep (start : Nat) : ∀ n i next es el, KeepSize (collect c start n i next es el) := by
  intro n
  induction n with
  | zero => intro i next es el; exact keep_pure _
  | succ n ih =>
    intro i next es el
    unfold collect
    with_reducible repeat' first
      | exact keep_pure _ | exact keep_fail _ | exact keep_get | exact seekData_keep _ | exact branchBlock_keep _ _ | exact ih _ _ _ _
      | apply keep_bind | apply keep_ite | apply keep_onlyIf | apply keep_attempt | intro _ | split
theorem writeExtent_keep (f : Nat → Byte) (b n : Nat) : KeepSize (writeExtent c f b n) := by unfold writeExtent; keep
theorem writeLoop_keep (start count : Nat) (f : Nat → Byte) : ∀ fuel idx next, KeepSize (writeLoop c start count f fuel idx next) := by
  intro fuel
  induction fuel with
  | zero => intro idx next; unfold writeLoop; keep
  | succ n ih =>
    intro idx next
    unfold writeLoop
    with_reducible repeat' first
      | exact keep_pure _ | exact keep_fail _ | exact keep_get | exact collect_keep _ _ _ _ _ _ | exact writeExtent_keep _ _ _ | exact ih _ _
      | apply keep_bind | apply keep_ite | intro _ | split
theorem writeAligned_keep (start count : Nat) (f : Nat → Byte) : KeepSize (writeAligned c start count f) := by
  have := fun a b d => writeLoop_keep (c := c) start count f a b d
  unfold writeAligned
  with_reducible repeat' first
      | exact keep_pure _ | exact keep_fail _ | exact this _ _ _
      | apply keep_bind | apply keep_ite | intro _ | split

/-- `collect` takes at most the blocks it is given. -/
theorem collect_el (start : Nat) : ∀ n i next es el s full next' es' el' s',
    collect c start n i next es el s = (.ok (full, next', es', el'), s') → el' ≤ el + n := by
  intro n
  induction n with
  | zero =>
    intro i next es el s full next' es' el' s' h
    unfold collect at h
    rw [run_pure] at h
    cases h; omega
  | succ n ih =>
    intro i next es el s full next' es' el' s' h
    unfold collect at h
    rw [run_bind] at h
    generalize (onlyIf (next = 0) (do let _ ← seekData c (start + i); attempt (branchBlock c 2 false)) (.ok ()) : DM (Except Err Unit)) s = R at h
    obtain ⟨r, t⟩ := R
    cases r with
    | error e => cases h
    | ok r =>
      cases r with
      | ok u =>
        simp only [run_bind, run_get] at h
        split at h
        · have := ih _ _ _ _ _ _ _ _ _ _ h; omega
        · split at h
          · have := ih _ _ _ _ _ _ _ _ _ _ h; omega
          · rw [run_pure] at h; cases h; omega
      | error e =>
        cases e
        case enospc => simp only [run_pure] at h; cases h; omega
        all_goals (simp only [run_fail] at h; cases h)

theorem writeLoop_le (start count : Nat) (f : Nat → Byte) : ∀ fuel idx next s idx' full s', idx ≤ count →
    writeLoop c start count f fuel idx next s = (.ok (idx', full), s') → idx' ≤ count := by
  intro fuel
  induction fuel with
  | zero =>
    intro idx next s idx' full s' hi h
    unfold writeLoop at h
    split at h
    · cases h
    · cases h; exact hi
  | succ n ih =>
    intro idx next s idx' full s' hi h
    unfold writeLoop at h
    split at h
    · rename_i hlt
      rw [run_bind] at h
      rcases hcol : collect c start (count - idx) idx next 0 0 s with ⟨r, t⟩
      rw [hcol] at h
      cases r with
      | error e => cases h
      | ok r =>
        obtain ⟨fl, nx, es, el⟩ := r
        have hel := collect_el _ _ _ _ _ _ _ _ _ _ _ _ hcol
        simp only at h
        split at h
        · rw [run_pure] at h; cases h; exact hi
        · rw [run_bind] at h
          generalize writeExtent c (fun k => f (idx * c.blockSize + k)) es el t = R at h
          obtain ⟨r, u⟩ := R
          cases r with
          | error e => cases h
          | ok _ =>
            simp only at h
            split at h
            · rw [run_pure] at h; cases h; omega
            · exact ih _ _ _ _ _ _ (by omega) h
    · rw [run_pure] at h; cases h; exact hi

/-- `WriteAligned` writes at most the blocks it is given. -/
theorem writeAligned_le (start count : Nat) (f : Nat → Byte) (s : DS) {w : Nat} {s' : DS}
    (h : writeAligned c start count f s = (.ok w, s')) : w ≤ count := by
  unfold writeAligned at h
  rw [run_bind] at h
  rcases hl : writeLoop c start count f count 0 0 s with ⟨r, t⟩
  rw [hl] at h
  cases r with
  | error e => cases h
  | ok r =>
    obtain ⟨i, fl⟩ := r
    simp only at h
    split at h
    · cases h
    · rw [run_pure] at h; cases h
      exact writeLoop_le _ _ _ _ _ _ _ _ _ _ (by omega) hl

/-- Two operations do the same from `s`, with results related by `R`. -/
def SimAt {α β : Type} (R : α → β → Prop) (m : DM α) (m' : DM β) (s : DS) : Prop :=
  match m s, m' s with
  | (.ok a, s1), (.ok b, s2) => R a b ∧ s1 = s2
  | (.error e, s1), (.error e', s2) => e = e' ∧ s1 = s2
  | _, _ => False

theorem SimAt.pure {α β : Type} {R : α → β → Prop} {a : α} {b : β} {s : DS} (h : R a b) :
    SimAt R (Pure.pure a : DM α) (Pure.pure b : DM β) s := ⟨h, rfl⟩
theorem SimAt.fail {α β : Type} {R : α → β → Prop} {e : Err} {s : DS} :
    SimAt R (fail e : DM α) (fail e : DM β) s := ⟨rfl, rfl⟩
theorem SimAt.same {α : Type} {R : α → α → Prop} {m : DM α} {s : DS} (h : ∀ a s', m s = (.ok a, s') → R a a) : SimAt R m m s := by
  unfold SimAt
  rcases hm : m s with ⟨r, s'⟩
  cases r with
  | ok a => exact ⟨h a s' hm, rfl⟩
  | error e => exact ⟨rfl, rfl⟩
theorem SimAt.bind {α β α' β' : Type} {R : α → β → Prop} {Q : α' → β' → Prop} {m : DM α} {m' : DM β} {f : α → DM α'} {g : β → DM β'} {s : DS}
    (h : SimAt R m m' s) (hf : ∀ a b s', R a b → m' s = (.ok b, s') → SimAt Q (f a) (g b) s') : SimAt Q (m >>= f) (m' >>= g) s := by
  unfold SimAt at h ⊢
  rw [run_bind, run_bind]
  rcases hm : m s with ⟨r, s1⟩
  rcases hm' : m' s with ⟨r', s2⟩
  rw [hm, hm'] at h
  cases r with
  | error e =>
    cases r' with
    | error e' => exact h
    | ok b => exact h.elim
  | ok a =>
    cases r' with
    | error e' => exact h.elim
    | ok b =>
      obtain ⟨h1, h2⟩ := h
      subst h2
      exact hf a b s1 h1 hm'
theorem SimAt.onlyIf {α β : Type} {R : α → β → Prop} {p q : Prop} [Decidable p] [Decidable q] {m : DM α} {m' : DM β} {d : α} {d' : β} {s : DS}
    (h : p ↔ q) (hm : p → SimAt R m m' s) (hd : ¬ p → R d d') : SimAt R (M.onlyIf p m d) (M.onlyIf q m' d') s := by
  unfold M.onlyIf
  by_cases hp : p
  · rw [if_pos hp, if_pos (h.1 hp)]; exact hm hp
  · rw [if_neg hp, if_neg (fun x => hp (h.2 x))]; exact SimAt.pure (hd hp)

/-- Results that are the same number. -/
def Num (a : U32) (b : Nat) : Prop := a.toNat = b

theorem expandPrepare_eq (hc : c.Ok) (s : DS) (hs : s.ci.node.size ≤ c.sizeMax) : expandPrepare c s = RedFs.expandPrepare c s := by
  have hm := sizeMax_lt hc
  have hb := bs_bounds hc
  have hsz : (BitVec.ofNat 64 s.ci.node.size).toNat = s.ci.node.size := ofNat64 (by omega)
  have hlt : s.ci.node.size % c.blockSize < c.blockSize := Nat.mod_lt _ (by omega)
  have l : (lo32 (inBlock c (BitVec.ofNat 64 s.ci.node.size))).toNat = s.ci.node.size % c.blockSize := by
    rw [lo32_toNat (by rw [inBlock_toNat hc, hsz]; omega), inBlock_toNat hc, hsz]
  have l2 : (bs c - lo32 (inBlock c (BitVec.ofNat 64 s.ci.node.size))).toNat = c.blockSize - s.ci.node.size % c.blockSize := by
    rw [sub32 (by rw [l, bs_toNat hc]; omega), l, bs_toNat hc]
  unfold expandPrepare RedFs.expandPrepare
  rw [run_bind, run_bind, run_get]
  simp only [ne_eq, eq_toNat, l, l2, zero32, blockOf_toNat hc (x := BitVec.ofNat 64 s.ci.node.size) (by omega), hsz]

theorem writeMiddle_sim (hc : c.Ok) {start : U64} {idx rem : U32} (f : Nat → Byte) (s : DS)
    (h : start.toNat + idx.toNat + rem.toNat ≤ c.sizeMax) (h32 : idx.toNat + rem.toNat < 4294967296) :
    SimAt (fun a b => a.1.toNat = b.1 ∧ a.2.toNat = b.2 ∧ b.1 + b.2 ≤ idx.toNat + rem.toNat)
      (writeMiddle c start idx rem f) (RedFs.writeMiddle c start.toNat idx.toNat rem.toNat f) s := by
  have hm := sizeMax_lt hc
  have hb := bs_bounds hc
  have hst : (start + wide idx).toNat = start.toNat + idx.toNat := by
    rw [add64 (by rw [wide_toNat]; omega), wide_toNat]
  have hcnt : (rem >>> p2 c).toNat = rem.toNat / c.blockSize := shr32 hc rem
  have hdm : rem.toNat / c.blockSize * c.blockSize ≤ rem.toNat := Nat.div_mul_le_self ..
  unfold writeMiddle RedFs.writeMiddle
  simp only []
  rw [blockOf_toNat hc (by rw [hst]; omega), hst, hcnt]
  refine SimAt.bind (R := fun a b => a = b ∧ ∀ w, b = .ok w → w ≤ rem.toNat / c.blockSize) ?_ ?_
  · refine SimAt.same fun a s' ha => ⟨rfl, fun w hw => ?_⟩
    rw [run_attempt] at ha
    subst hw
    exact writeAligned_le _ _ _ s (s' := (writeAligned c ((start.toNat + idx.toNat) / c.blockSize) (rem.toNat / c.blockSize) (fun k => f (idx.toNat + k)) s).2)
      (Prod.ext (by have := congrArg Prod.fst ha; exact Except.ok.inj this) rfl)
  · rintro a b s' ⟨rfl, hw⟩ hrun
    cases a with
    | error e =>
      cases e
      case enospc =>
        simp only []
        by_cases hi : 0 < idx.toNat
        · rw [if_pos (show idx > 0 by rw [gt_iff_lt, lt_toNat, zero32]; exact hi), if_pos hi]
          refine SimAt.pure ⟨rfl, rfl, ?_⟩
          simp only []; omega
        · rw [if_neg (show ¬ idx > 0 by rw [gt_iff_lt, lt_toNat, zero32]; exact hi), if_neg hi]
          exact SimAt.fail
      all_goals exact SimAt.fail
    | ok w =>
      have hw := hw w rfl
      have hwb : w * c.blockSize ≤ rem.toNat / c.blockSize * c.blockSize := Nat.mul_le_mul_right _ hw
      have hdl : rem.toNat / c.blockSize ≤ rem.toNat := Nat.div_le_self ..
      have hwn : (BitVec.ofNat 32 w).toNat = w := ofNat32 (by have := rem.isLt; omega)
      have hsh : (BitVec.ofNat 32 w <<< p2 c).toNat = w * c.blockSize := by rw [shl32 hc (by rw [hwn]; omega), hwn]
      simp only []
      refine SimAt.pure ⟨?_, ?_, ?_⟩
      · show (idx + (BitVec.ofNat 32 w <<< p2 c)).toNat = _
        rw [add32 (by rw [hsh]; omega), hsh]
      · simp only [lt_toNat, hwn, hcnt]
        split
        · rfl
        · rw [sub32 (by rw [hsh]; omega), hsh]
      · simp only []
        split <;> omega

theorem writeTail_sim (hc : c.Ok) {start : U64} {idx rem : U32} (f : Nat → Byte) (s : DS)
    (h : start.toNat + idx.toNat + rem.toNat ≤ c.sizeMax) (h32 : idx.toNat + rem.toNat < 4294967296) (h0 : 0 < rem.toNat) :
    SimAt (fun a b => a.toNat = b ∧ b ≤ idx.toNat + rem.toNat)
      (writeTail c start idx rem f) (RedFs.writeTail c start.toNat idx.toNat rem.toNat f) s := by
  have hm := sizeMax_lt hc
  have hst : (start + wide idx).toNat = start.toNat + idx.toNat := by
    rw [add64 (by rw [wide_toNat]; omega), wide_toNat]
  unfold writeTail RedFs.writeTail
  rw [writeUnaligned_eq hc _ (by rw [hst]; omega) h0, hst]
  refine SimAt.bind (R := fun a b => a = b) (SimAt.same fun a s' ha => rfl) ?_
  rintro a b s' rfl hrun
  cases a with
  | error e =>
    cases e
    case enospc => exact SimAt.pure ⟨rfl, by omega⟩
    all_goals exact SimAt.fail
  | ok u => exact SimAt.pure ⟨add32 h32, by omega⟩

theorem dataWrite_sim (hc : c.Ok) (start : U64) (len : U32) (f : Nat → Byte) (s : DS) (hs : s.ci.node.size ≤ c.sizeMax) :
    SimAt Num (dataWrite c start len f) (RedFs.dataWrite c start.toNat len.toNat f) s := by
  have hm := sizeMax_lt hc
  have hb := bs_bounds hc
  have hsm := sizeMax_toNat hc
  unfold dataWrite RedFs.dataWrite
  refine SimAt.bind (R := fun a b => a = b ∧ a = s) (SimAt.same fun a s' ha => ⟨rfl, by rw [run_get] at ha; cases ha; rfl⟩) ?_
  rintro a b s' ⟨rfl, rfl⟩ hrun
  have : s' = a := by rw [run_get] at hrun; cases hrun; rfl
  subst this
  have hsz : (BitVec.ofNat 64 s'.ci.node.size).toNat = s'.ci.node.size := ofNat64 (by omega)
  by_cases h0 : s'.ci.nodeBuf = none ∨ s'.ci.dirty = false
  · rw [if_pos h0, if_pos h0]; exact SimAt.fail
  rw [if_neg h0, if_neg h0]
  by_cases h1 : c.sizeMax < start.toNat ∨ (start.toNat = c.sizeMax ∧ 0 < len.toNat)
  · rw [if_pos (show sizeMax c < start ∨ (start = sizeMax c ∧ len > 0) by
      rw [lt_toNat, eq_toNat, gt_iff_lt, lt_toNat, hsm, zero32]; exact h1), if_pos h1]
    exact SimAt.fail
  rw [if_neg (show ¬ (sizeMax c < start ∨ (start = sizeMax c ∧ len > 0)) by
      rw [lt_toNat, eq_toNat, gt_iff_lt, lt_toNat, hsm, zero32]; exact h1), if_neg h1]
  by_cases h2 : len.toNat = 0
  · rw [if_pos (by rw [eq_toNat]; exact h2), if_pos h2]; exact SimAt.pure rfl
  rw [if_neg (by rw [eq_toNat]; exact h2), if_neg h2]
  have hcl := clamp_toNat (lim := sizeMax c) (start := start) (len := len) (by rw [hsm]; omega)
  rw [hsm] at hcl
  generalize (if sizeMax c - start < wide len then lo32 (sizeMax c - start) else len) = L at hcl ⊢
  simp only []
  rw [← hcl]
  have hL0 : 0 < L.toNat := by rw [hcl]; split <;> omega
  have hLs : start.toNat + L.toNat ≤ c.sizeMax := by rw [hcl]; split <;> omega
  have hLlt := L.isLt
  have hmod : start.toNat % c.blockSize < c.blockSize := Nat.mod_lt _ (by omega)
  have hpi : (inBlock c start ≠ 0 ∨ L < bs c) ↔ (start.toNat % c.blockSize ≠ 0 ∨ L.toNat < c.blockSize) := by
    rw [unaligned_iff hc, lt_toNat, bs_toNat hc]
  have hf : (if inBlock c start ≠ 0 ∨ L < bs c then redmin L (bs c - lo32 (inBlock c start)) else 0).toNat = writeFirst c start.toNat L.toNat := by
    unfold writeFirst
    simp only [hpi]
    split
    · exact this_toNat hc start L
    · rfl
  generalize (if inBlock c start ≠ 0 ∨ L < bs c then redmin L (bs c - lo32 (inBlock c start)) else 0) = F at hf ⊢
  have hun : (inBlock c start ≠ 0 ∨ L < bs c) ↔ F.toNat ≠ 0 := by
    rw [hpi, hf]; unfold writeFirst
    by_cases hz : start.toNat % c.blockSize ≠ 0 ∨ L.toNat < c.blockSize
    · rw [if_pos hz]; constructor <;> intro _ <;> first | omega | exact hz
    · simp [hz]
  have hFL : F.toNat ≤ L.toNat := by rw [hf]; unfold writeFirst; split <;> omega
  have hrem : (L - F).toNat = L.toNat - F.toNat := sub32 hFL
  have hidx : (0 + F : U32).toNat = F.toNat := by rw [add32 (by rw [zero32]; omega), zero32]; omega
  rw [← hf]
  unfold writeParts
  have hget : ∀ (m : DM U32) (g : DS → DM Nat), SimAt Num m (g s') s' → SimAt Num m (get >>= g) s' := fun m g h => h
  apply hget
  -- ExpandPrepare
  have e1 : SimAt (fun _ _ => True) (onlyIf (BitVec.ofNat 64 s'.ci.node.size < start) (expandPrepare c) ())
      (onlyIf (s'.ci.node.size < start.toNat) (RedFs.expandPrepare c) ()) s' := by
    refine SimAt.onlyIf (by rw [lt_toNat, hsz]) (fun _ => ?_) (fun _ => trivial)
    unfold SimAt
    rw [expandPrepare_eq hc s' hs]
    exact SimAt.same (R := fun _ _ => True) (m := RedFs.expandPrepare c) (s := s') fun _ _ _ => trivial
  refine SimAt.bind e1 ?_
  intro _ _ s1 _ hs1
  have z1 : s1.ci.node.size = s'.ci.node.size := by
    have := keep_onlyIf (p := s'.ci.node.size < start.toNat) (d := ()) (expandPrepare_keep (c := c)) s'
    rw [hs1] at this; exact this
  -- the first block
  have e2 : SimAt (fun _ _ => True) (onlyIf (inBlock c start ≠ 0 ∨ L < bs c) (writeUnaligned c start F f) ())
      (onlyIf (F.toNat ≠ 0) (RedFs.writeUnaligned c start.toNat F.toNat f) ()) s1 := by
    rw [onlyIf_congr hun fun h => writeUnaligned_eq hc f (by omega) (by have := hun.1 h; omega)]
    exact SimAt.same fun _ _ _ => trivial
  refine SimAt.bind e2 ?_
  intro _ _ s2 _ hs2
  have z2 : s2.ci.node.size = s'.ci.node.size := by
    have := keep_onlyIf (p := F.toNat ≠ 0) (d := ()) (writeUnaligned_keep (c := c) start.toNat F.toNat f) s1
    rw [hs2] at this; exact Eq.trans this z1
  -- whole blocks
  have e3 : SimAt (fun a b => a.1.toNat = b.1 ∧ a.2.toNat = b.2 ∧ b.1 + b.2 ≤ L.toNat)
      (onlyIf (bs c ≤ L - F) (writeMiddle c start (0 + F) (L - F) f) (0 + F, L - F))
      (onlyIf (c.blockSize ≤ L.toNat - F.toNat) (RedFs.writeMiddle c start.toNat F.toNat (L.toNat - F.toNat) f) (F.toNat, L.toNat - F.toNat)) s2 := by
    refine SimAt.onlyIf (by rw [le_toNat, hrem, bs_toNat hc]) (fun _ => ?_) (fun _ => ⟨hidx, hrem, by simp only []; omega⟩)
    have h := writeMiddle_sim hc (start := start) (idx := 0 + F) (rem := L - F) f s2 (by rw [hidx, hrem]; omega) (by rw [hidx, hrem]; omega)
    rw [hidx, hrem] at h
    rw [show F.toNat + (L.toNat - F.toNat) = L.toNat by omega] at h
    exact h
  refine SimAt.bind e3 ?_
  rintro ⟨a1, a2⟩ ⟨b1, b2⟩ s3 ⟨r1, r2, r3⟩ hs3
  simp only at r1 r2 r3
  subst r1; subst r2
  have z3 : s3.ci.node.size = s'.ci.node.size := by
    have hk : KeepSize (RedFs.writeMiddle c start.toNat F.toNat (L.toNat - F.toNat) f) := by
      unfold RedFs.writeMiddle
      with_reducible repeat' first
        | exact keep_pure _ | exact keep_fail _ | exact writeAligned_keep _ _ _
        | apply keep_bind | apply keep_ite | apply keep_attempt | intro _ | split
    have := keep_onlyIf (p := c.blockSize ≤ L.toNat - F.toNat) (d := (F.toNat, L.toNat - F.toNat)) hk s2
    rw [hs3] at this; exact Eq.trans this z2
  -- the tail
  have e4 : SimAt (fun a b => a.toNat = b ∧ b ≤ L.toNat)
      (onlyIf (a2 > 0) (writeTail c start a1 a2 f) a1)
      (onlyIf (0 < a2.toNat) (RedFs.writeTail c start.toNat a1.toNat a2.toNat f) a1.toNat) s3 := by
    refine SimAt.onlyIf (by rw [gt_iff_lt, lt_toNat, zero32]) (fun h => ?_) (fun _ => ⟨rfl, by omega⟩)
    rw [gt_iff_lt, lt_toNat, zero32] at h
    have q := writeTail_sim hc (start := start) (idx := a1) (rem := a2) f s3 (by omega) (by omega) h
    unfold SimAt at q ⊢
    split at q
    · exact ⟨⟨q.1.1, by have := q.1.2; omega⟩, q.2⟩
    · exact q
    · exact q.elim
  refine SimAt.bind e4 ?_
  rintro d b s4 ⟨r1, r2⟩ hs4
  subst r1
  have z4 : s4.ci.node.size = s'.ci.node.size := by
    have hk : KeepSize (RedFs.writeTail c start.toNat a1.toNat a2.toNat f) := by
      unfold RedFs.writeTail
      with_reducible repeat' first
        | exact keep_pure _ | exact keep_fail _ | exact writeUnaligned_keep _ _ _
        | apply keep_bind | apply keep_ite | apply keep_attempt | intro _ | split
    have := keep_onlyIf (p := 0 < a2.toNat) (d := a1.toNat) hk s3
    rw [hs4] at this; exact Eq.trans this z3
  -- the size
  have hsz4 : (BitVec.ofNat 64 s4.ci.node.size).toNat = s4.ci.node.size := ofNat64 (by omega)
  have hend : (start + wide d).toNat = start.toNat + d.toNat := by
    rw [add64 (by rw [wide_toNat]; omega), wide_toNat]
  have hget2 : ∀ (g : DS → DM U32) (g' : DS → DM Nat), SimAt Num (g s4) (g' s4) s4 → SimAt Num (get >>= g) (get >>= g') s4 := fun g g' h => h
  apply hget2
  rw [onlyIf_congr (p := BitVec.ofNat 64 s4.ci.node.size < start + wide d) (q := s4.ci.node.size < start.toNat + d.toNat)
    (m' := setNode fun n => { n with size := start.toNat + d.toNat }) (by rw [lt_toNat, hsz4, hend]) (fun _ => by rw [hend])]
  refine SimAt.bind (R := fun _ _ => True) (SimAt.same fun _ _ _ => trivial) ?_
  intro _ _ s5 _ _
  exact SimAt.pure rfl

end RedFs.Words
