import Verif.Lemmas.Write
set_option linter.unusedSimpArgs false
set_option linter.unusedVariables false
namespace RedFs
open M Bitmap Vol

variable {c : Conf} {O : Nat → Prop} {s s' s1 s2 : DS} {V V' V1 V2 : Pos → Nat} {T T1 T2 : Nat → Prop}

theorem WS.enlarge (h : WS c O s s1 V V1 T) (h1 : ∀ b, T b → T1 b)
    (h2 : ∀ b, T1 b → b < c.dataBlocks ∧ V1 (posOf c b) ≠ 0 ∧ NewB c s1.v (V1 (posOf c b))) : WS c O s s1 V V1 T1 where
  inv := h.inv
  cnt := h.cnt
  fr := h.fr
  dom := fun b hb => (h2 b hb).1
  keep := fun b hb hT => h.keep b hb (fun t => hT (h1 b t))
  dat := fun b hb hT => h.dat b hb (fun t => hT (h1 b t))
  mono := h.mono
  grow := fun p hp hn => by
    rcases h.grow p hp hn with g | ⟨b, g1, g2, g3⟩
    · exact Or.inl g
    · exact Or.inr ⟨b, h1 b g1, g2, g3⟩
  new := fun b hb => (h2 b hb).2
  keepN := h.keepN
  totLe := h.totLe
  totEq := fun hT => h.totEq (fun b hb => hT b (h1 b hb))
  rsv := h.rsv
  pay := fun L h1' h2' h3' => h.pay L h1' h2' (fun b hb => h3' b (h1 b hb))

theorem WS.cost_le (h : WS c O s s1 V V1 T) {L : List Pos} (hok : ∀ p ∈ L, PosOk c p) : costL c s1 V1 L ≤ costL c s V L := by
  apply sumL_le
  intro p hp
  unfold costAt
  by_cases h1 : V p ≠ 0 ∧ NewB c s.v (V p)
  · rw [if_pos h1, if_pos (h.keepN p (hok p hp) h1.1 h1.2)]; exact Nat.le_refl _
  · rw [if_neg h1]; split <;> omega

/-- If a block cannot be made writable after some steps, then the space before the steps did not
suffice for all of the blocks. -/
theorem WS.noRoom (h : WS c O s s1 V V1 T) {b : Nat} (hs : Short c s1 V1 b) {L : List Pos} (hl : L.Nodup) (hok : ∀ p ∈ L, PosOk c p)
    (hT : ∀ b, T b → ∀ p, brSet 2 (posOf c b) p → p ∈ L) (hb : ∀ p, brSet 2 (posOf c b) p → p ∈ L) :
    freeBlockCount c s.v < costL c s V L := by
  have h1 := hs.lt hl hb
  have h2 := h.pay L hl hok hT
  have h3 := h.cost_le hok
  have h4 := h.fr.qt.useReserved
  unfold freeBlockCount at h1 ⊢
  rw [h4] at h1
  split
  · rename_i hu; rw [if_pos hu] at h1; omega
  · rename_i hu; rw [if_neg hu] at h1; omega

/-- Every block that holds or needs a data block is allocated. -/
theorem WS.alloc (h : WS c O s s1 V V1 T) {b : Nat} (hb : b < c.dataBlocks) : V1 (posOf c b) ≠ 0 ↔ V (posOf c b) ≠ 0 ∨ T b := by
  by_cases hT : T b
  · exact ⟨fun _ => Or.inr hT, fun _ => (h.new b hT).1⟩
  · rw [(h.keep b hb hT).2.1]; simp [hT]

/-- Result of collecting an extent that starts at logical block `lo`. -/
structure CRes (c : Conf) (O : Nat → Prop) (s s' : DS) (V V' : Pos → Nat) (lo el n : Nat) (full : Bool) (next' es' el' : Nat) : Prop where
  ws : WS c O s s' V V' (fun x => lo ≤ x ∧ x < lo + el' + (if next' = 0 then 0 else 1))
  seek : SeekAll c s'.ci V'
  pData : 0 < n → s'.ci.pData = none
  elLe : el' ≤ el + n
  elGe : el ≤ el'
  ext : ∀ j, j < el' → V' (posOf c (lo + j)) = es' + j
  next : next' ≠ 0 → full = false ∧ el' < el + n ∧ V' (posOf c (lo + el')) = next' ∧ s'.ci.dataBlk = next'
  done : full = false → next' = 0 → el' = el + n
  some : full = false → 0 < el + n → 0 < el'
  low : full = true → el' < el + n ∧ Short c s' V' (lo + el')

theorem collect_spec (hc : c.Ok) (start : Nat) : ∀ (n i next es el : Nat) (s : DS) (V : Pos → Nat),
    FInv c O s V noZ → s.ci.dirty = true → Cnt c s V → SeekAll c s.ci V → start + i + n ≤ c.dataBlocks → el ≤ i →
    (∀ j, j < el → V (posOf c (start + (i - el) + j)) = es + j ∧ V (posOf c (start + (i - el) + j)) ≠ 0 ∧
      NewB c s.v (V (posOf c (start + (i - el) + j)))) →
    (next ≠ 0 → 0 < n ∧ el = 0 ∧ V (posOf c (start + i)) = next ∧ NewB c s.v next ∧ s.ci.dataBlk = next ∧ s.ci.pData = none) →
    (s.ci.pData = none ∨ s.ci.logical < start + i) →
    ∃ full next' es' el' s' V', collect c start n i next es el s = (.ok (full, next', es', el'), s') ∧
      CRes c O s s' V V' (start + (i - el)) el n full next' es' el' := by
  intro n
  induction n with
  | zero =>
    intro i next es el s V h hd hcnt hs hb hel hext hnext hpd
    have hn0 : next = 0 := by
      apply Decidable.byContradiction; intro hn; have := (hnext hn).1; omega
    subst hn0
    refine ⟨false, 0, es, el, s, V, rfl, ?_⟩
    refine { ws := ?_, seek := hs, pData := fun h => absurd h (by omega), elLe := Nat.le_refl _, elGe := Nat.le_refl _,
             ext := fun j hj => (hext j hj).1, next := fun h => absurd rfl h, done := fun _ _ => rfl, some := fun _ h => h, low := fun h => (by cases h) }
    refine (WS.refl h hcnt).enlarge (fun _ h => h.elim) ?_
    rintro x ⟨h1, h2⟩
    simp only [if_true] at h2
    have := hext (x - (start + (i - el))) (by omega)
    rw [show start + (i - el) + (x - (start + (i - el))) = x by omega] at this
    exact ⟨by omega, this.2⟩
  | succ n ih =>
    intro i next es el s V h hd hcnt hs hb hel hext hnext hpd
    -- the block of this iteration is made writable
    have hstep : (∃ s1, (onlyIf (next = 0) (do
          let _ ← seekData c (start + i)
          attempt (branchBlock c 2 false)) (.ok ()) : DM _) s = (.ok (.error .enospc), s1) ∧ Ro c V s s1 ∧ s1.ci.pData = none ∧ next = 0 ∧ Short c s1 V (start + i)) ∨
        (∃ s1 V1, (onlyIf (next = 0) (do
          let _ ← seekData c (start + i)
          attempt (branchBlock c 2 false)) (.ok ()) : DM _) s = (.ok (.ok ()), s1) ∧
          WS c O s s1 V V1 (fun x => x = start + i) ∧ SeekAll c s1.ci V1 ∧ s1.ci.pData = none ∧ s1.ci.dataBlk = V1 (posOf c (start + i)) ∧
          s1.ci.dirty = true) := by
      by_cases hn : next = 0
      · rw [onlyIf_pos hn]
        simp only [run_bind]
        obtain ⟨s1, e1, hr, hbr⟩ := seekBranch hc h hd hcnt hs (b := start + i) (by omega) false
        rw [e1]
        simp only [run_attempt]
        rcases hbr with ⟨e2, hsh⟩ | ⟨V', s2, e2, hws, hco, _, _, hpn⟩
        · left
          refine ⟨s1, by rw [e2], hr, ?_, hn, by unfold Short; rw [hr.v, brCost_v hr.v]; exact hsh⟩
          obtain ⟨s1', e1', _, _, hp1⟩ := seekData_ro hc h (b := start + i) (by omega) hs
          rw [e1] at e1'; injection e1' with _ e1'; subst e1'
          rcases hp1 with hp1 | ⟨g1, g2, g3⟩
          · exact hp1
          · rw [g1]; rcases hpd with h | h
            · exact h
            · omega
        · right
          refine ⟨s2, V', by rw [e2], hws, hco.seekAll hc (by omega), hpn rfl ?_, hco.dataBlk hc (by omega), by rw [hws.fr.dirty]; exact hd⟩
          intro _ hl
          rcases hpd with h | h
          · exact h
          · omega
      · right
        obtain ⟨g1, g2, g3, g4, g5, g6⟩ := hnext hn
        refine ⟨s, V, onlyIf_neg hn _ _ _, (WS.refl h hcnt).enlarge (fun _ h => h.elim) ?_, hs, g6, by rw [g5, g3], hd⟩
        rintro x rfl
        rw [g3]; exact ⟨by omega, hn, g4⟩
    unfold collect
    simp only [run_bind]
    rcases hstep with ⟨s1, e1, hr, hp1, hn0, hsh⟩ | ⟨s1, V1, e1, hws, hs1, hp1, hdb, hd1⟩
    · rw [e1]
      refine ⟨true, 0, es, el, s1, V, rfl, ?_⟩
      refine { ws := ?_, seek := hr.seek, pData := fun _ => hp1, elLe := by omega, elGe := Nat.le_refl _,
               ext := fun j hj => (hext j hj).1, next := fun h => absurd rfl h, done := fun h => (by cases h), some := fun h => (by cases h),
               low := fun _ => ⟨by omega, by rw [show start + (i - el) + el = start + i by omega]; exact hsh⟩ }
      refine (WS.of_ro hr h hcnt).enlarge (fun _ h => h.elim) ?_
      rintro x ⟨h1, h2⟩
      simp only [if_true] at h2
      have := hext (x - (start + (i - el))) (by omega)
      rw [show start + (i - el) + (x - (start + (i - el))) = x by omega, ← hr.v] at this
      exact ⟨by omega, this.2⟩
    · rw [e1]
      simp only [run_bind, run_get]
      obtain ⟨hn1, hn2⟩ := hws.new (start + i) rfl
      -- the earlier blocks are as before
      have hold : ∀ j, j < el → V1 (posOf c (start + (i - el) + j)) = es + j ∧ V1 (posOf c (start + (i - el) + j)) ≠ 0 ∧
          NewB c s1.v (V1 (posOf c (start + (i - el) + j))) := by
        intro j hj
        obtain ⟨g1, g2, g3⟩ := hext j hj
        obtain ⟨_, k2, k3⟩ := hws.keep (start + (i - el) + j) (by omega) (by omega)
        rw [k2]; exact ⟨g1, g2, (k3 g2).2 g3⟩
      -- continue with a longer extent
      have cont' : ∀ es2, (∀ j, j < el + 1 → V1 (posOf c (start + (i - el) + j)) = es2 + j) →
          ∃ full next' es' el' s' V', collect c start n (i + 1) 0 es2 (el + 1) s1 = (.ok (full, next', es', el'), s') ∧
            CRes c O s s' V V' (start + (i - el)) el (n + 1) full next' es' el' := by
        intro es2 hes
        obtain ⟨full, next', es', el', s2, V2, e2, r⟩ := ih (i + 1) 0 es2 (el + 1) s1 V1 hws.inv hd1 hws.cnt hs1 (by omega) (by omega) (by
            rw [show i + 1 - (el + 1) = i - el by omega]
            intro j hj
            by_cases hj' : j < el
            · exact ⟨hes j hj, (hold j hj').2⟩
            · have : start + (i - el) + j = start + i := by omega
              rw [this]
              have := hes j hj
              rw [show start + (i - el) + j = start + i by omega] at this
              exact ⟨this, hn1, hn2⟩) (fun h => absurd rfl h) (Or.inl hp1)
        rw [show i + 1 - (el + 1) = i - el by omega] at r
        refine ⟨full, next', es', el', s2, V2, e2, ?_⟩
        refine { ws := ?_, seek := r.seek, pData := fun _ => ?_, elLe := by have := r.elLe; omega, elGe := by have := r.elGe; omega,
                 ext := r.ext, next := ?_, done := ?_, some := ?_, low := fun h => ⟨by have := (r.low h).1; omega, (r.low h).2⟩ }
        · refine (hws.trans hc r.ws).weaken (fun x => ⟨?_, Or.inr⟩)
          rintro (h1 | h1)
          · subst h1
            have := r.elGe
            refine ⟨by omega, ?_⟩
            split <;> omega
          · exact h1
        · by_cases hn : 0 < n
          · exact r.pData hn
          · have : n = 0 := by omega
            subst this
            simp only [collect] at e2
            injection e2 with _ e2; subst e2; exact hp1
        · intro hn; obtain ⟨g1, g2, g3⟩ := r.next hn; exact ⟨g1, by omega, g3⟩
        · intro h1 h2; have := r.done h1 h2; omega
        · intro h1 h2; exact r.some h1 (by omega)
      by_cases hel0 : el = 0
      · rw [if_pos hel0, hdb]
        have := cont' (V1 (posOf c (start + i))) (by
          intro j hj
          have : j = 0 := by omega
          subst this
          rw [show start + (i - el) + 0 = start + i by omega]; rfl)
        rw [hel0] at this ⊢; simpa using this
      · rw [if_neg hel0]
        by_cases hcont : V1 (posOf c (start + i)) = es + el
        · rw [if_pos (by rw [hdb]; exact hcont)]
          apply cont'
          intro j hj
          by_cases hj' : j < el
          · exact (hold j hj').1
          · have : j = el := by omega
            subst this
            rw [show start + (i - j) + j = start + i by omega]; exact hcont
        · rw [if_neg (by rw [hdb]; exact hcont)]
          simp only [run_pure, hdb]
          refine ⟨false, _, es, el, s1, V1, rfl, ?_⟩
          refine { ws := ?_, seek := hs1, pData := fun _ => hp1, elLe := by omega, elGe := Nat.le_refl _,
                   ext := fun j hj => (hold j hj).1, next := fun _ => ⟨rfl, by omega, ?_, hdb⟩, done := fun _ h => absurd h hn1, some := fun _ _ => by omega,
                   low := fun h => (by cases h) }
          · refine hws.enlarge ?_ ?_
            · rintro x rfl
              rw [if_neg hn1]; omega
            · rintro x ⟨h1, h2⟩
              rw [if_neg hn1] at h2
              by_cases hx : x = start + i
              · subst hx; exact ⟨by omega, hn1, hn2⟩
              · have := hold (x - (start + (i - el))) (by omega)
                rw [show start + (i - el) + (x - (start + (i - el))) = x by omega] at this
                exact ⟨by omega, this.2⟩
          · rw [show start + (i - el) + el = start + i by omega]

/-- Writing the blocks of an extent. -/
theorem writeBlocks_spec (hc : c.Ok) (h : FInv c O s V noZ) (hcnt : Cnt c s V) (f : Nat → Byte) (lo es : Nat) : ∀ n,
    (∀ j, j < n → lo + j < c.dataBlocks ∧ V (posOf c (lo + j)) = es + j ∧ V (posOf c (lo + j)) ≠ 0 ∧ NewB c s.v (V (posOf c (lo + j)))) →
    WS c O s { s with v := writeBlocks c f es n s.v } V V (fun x => lo ≤ x ∧ x < lo + n) ∧
    (∀ j, j < n → cont c (writeBlocks c f es n s.v).blk V (lo + j) = fun k => f (j * c.blockSize + k)) ∧
    (∀ p, PosOk c p → V p ≠ 0 → (NewB c (writeBlocks c f es n s.v) (V p) ↔ NewB c s.v (V p))) ∧
    freeBlockCount c (writeBlocks c f es n s.v) = freeBlockCount c s.v ∧
    (∀ j, j < n → Dat c (writeBlocks c f es n s.v).blk V (lo + j)) := by
  intro n
  induction n with
  | zero =>
    intro _
    exact ⟨(WS.refl h hcnt).weaken (fun x => ⟨False.elim, fun h => by omega⟩), fun j hj => absurd hj (by omega), fun _ _ _ => Iff.rfl, rfl, fun j hj => absurd hj (by omega)⟩
  | succ n ih =>
    intro hext
    obtain ⟨hw, hct, hnw, hfb, hdt⟩ := ih (fun j hj => hext j (by omega))
    obtain ⟨g1, g2, g3, g4⟩ := hext n (by omega)
    obtain ⟨_, _, k3⟩ := hw.keep (lo + n) g1 (by omega)
    obtain ⟨p1, p2, p3⟩ := WS.poke hc hw.inv hw.cnt g1 g3 ((k3 g3).2 g4) (fun k => f (n * c.blockSize + k))
    have hpk := fun p hp h0 => poke_new hc hw.inv g1 g3 ((k3 g3).2 g4) (fun k => f (n * c.blockSize + k)) (p := p) hp h0
    rw [g2] at p1 p2 p3 hpk
    refine ⟨?_, ?_, fun p hp h0 => (hpk p hp h0).trans (hnw p hp h0), hfb, ?_⟩
    · refine (hw.trans hc p1).weaken (fun x => ?_)
      constructor
      · rintro (h | h) <;> omega
      · intro h
        by_cases hx : x = lo + n
        · exact Or.inr hx
        · exact Or.inl (by omega)
    · intro j hj
      by_cases hj' : j = n
      · subst hj'; exact p2
      · have := (p1.keep (lo + j) (by have := hext j (by omega); omega) (by omega)).1
        show cont c ((writeBlocks c f es n s.v).write (es + n) _).blk V (lo + j) = _
        rw [this]; exact hct j (by omega)
    · intro j hj
      by_cases hj' : j = n
      · subst hj'; exact p3
      · exact p1.dat (lo + j) (by have := hext j (by omega); omega) (by omega) (hdt j (by omega))

/-- The loop of `WriteAligned`. -/
theorem writeLoop_spec (hc : c.Ok) (start count : Nat) (f : Nat → Byte) : ∀ (fuel idx next : Nat) (s : DS) (V : Pos → Nat),
    FInv c O s V noZ → s.ci.dirty = true → Cnt c s V → SeekAll c s.ci V → start + count ≤ c.dataBlocks → idx ≤ count → count - idx ≤ fuel →
    (next ≠ 0 → idx < count ∧ V (posOf c (start + idx)) = next ∧ NewB c s.v next ∧ s.ci.dataBlk = next ∧ s.ci.pData = none) →
    (s.ci.pData = none ∨ s.ci.logical < start + idx) →
    ∃ idx' full s' V', writeLoop c start count f fuel idx next s = (.ok (idx', full), s') ∧
      idx ≤ idx' ∧ idx' ≤ count ∧ (full = false → idx' = count) ∧ (full = true → idx' < count ∧ Short c s' V' (start + idx')) ∧ (next ≠ 0 → idx < idx') ∧
      WS c O s s' V V' (fun x => start + idx ≤ x ∧ x < start + idx') ∧ SeekAll c s'.ci V' ∧
      (s'.ci.pData = none ∨ s'.ci = s.ci) ∧
      ∀ j, idx ≤ j → j < idx' → cont c s'.v.blk V' (start + j) = (fun k => f (j * c.blockSize + k)) ∧ Dat c s'.v.blk V' (start + j) := by
  intro fuel
  induction fuel with
  | zero =>
    intro idx next s V h hd hcnt hs hb h1 h2 hnext hpd
    have : idx = count := by omega
    subst this
    refine ⟨idx, false, s, V, by simp [writeLoop], Nat.le_refl _, Nat.le_refl _, fun _ => rfl, fun h => (by cases h), fun hn => absurd (hnext hn).1 (by omega), ?_, hs,
      Or.inr rfl, fun j h3 h4 => absurd h4 (by omega)⟩
    exact (WS.refl h hcnt).weaken (fun x => ⟨False.elim, fun h => by omega⟩)
  | succ fuel ih =>
    intro idx next s V h hd hcnt hs hb h1 h2 hnext hpd
    unfold writeLoop
    by_cases hlt : idx < count
    · rw [if_pos hlt]
      simp only [run_bind]
      obtain ⟨full, next', es, el, s1, V1, e1, r⟩ := collect_spec hc start (count - idx) idx next 0 0 s V h hd hcnt hs (by omega) (Nat.zero_le _)
        (fun j hj => absurd hj (by omega))
        (fun hn => by obtain ⟨_, g2, g3, g4, g5⟩ := hnext hn; exact ⟨by omega, rfl, g2, g3, g4, g5⟩) hpd
      rw [e1]
      simp only
      rw [Nat.sub_zero] at r
      have hpn := r.pData (by omega)
      have hd1 : s1.ci.dirty = true := by rw [r.ws.fr.dirty]; exact hd
      by_cases hfe : full = true ∧ el = 0
      · rw [if_pos hfe]
        obtain ⟨hf, he⟩ := hfe
        subst he
        have hn0 : next' = 0 := by
          apply Decidable.byContradiction; intro hn
          have := (r.next hn).1; rw [hf] at this; cases this
        have hnz : next = 0 := by
          -- with a pending block the first iteration cannot fail
          apply Decidable.byContradiction; intro hn
          obtain ⟨m, hm⟩ : ∃ m, count - idx = m + 1 := ⟨count - idx - 1, by omega⟩
          rw [hm] at e1
          unfold collect at e1
          simp only [run_bind, onlyIf_neg hn, run_get, if_true] at e1
          obtain ⟨_, g2, g3, g4, g5⟩ := hnext hn
          obtain ⟨f2, n2, es2, el2, s2, V2, e2, r2⟩ := collect_spec hc start m (idx + 1) 0 s.ci.dataBlk 1 s V h hd hcnt hs (by omega) (by omega)
            (fun j hj => by
              have : j = 0 := by omega
              subst this
              rw [show start + (idx + 1 - 1) + 0 = start + idx by omega, g2, g4]; exact ⟨rfl, hn, g3⟩)
            (fun h => absurd rfl h) (Or.inl g5)
          rw [e2] at e1
          injection e1 with e1 _
          injection e1 with e1
          injection e1 with _ e1; injection e1 with _ e1; injection e1 with _ e1
          have := r2.elGe; omega
        refine ⟨idx, true, s1, V1, rfl, Nat.le_refl _, by omega, fun h => (by cases h), fun _ => ⟨hlt, (r.low hf).2⟩, fun h => absurd hnz h, ?_, r.seek, Or.inl hpn,
          fun j h3 h4 => absurd h4 (by omega)⟩
        refine r.ws.weaken (fun x => ?_)
        simp [hn0]
      · rw [if_neg hfe]
        have hel : 0 < el := by
          cases hf : full with
          | false => exact r.some hf (by omega)
          | true => rw [hf] at hfe; simp at hfe; omega
        have hext : ∀ j, j < el → start + idx + j < c.dataBlocks ∧ V1 (posOf c (start + idx + j)) = es + j ∧
            V1 (posOf c (start + idx + j)) ≠ 0 ∧ NewB c s1.v (V1 (posOf c (start + idx + j))) := by
          intro j hj
          have hle := r.elLe
          have hT : start + idx ≤ start + idx + j ∧ start + idx + j < start + idx + el + (if next' = 0 then 0 else 1) := by
            split <;> omega
          exact ⟨r.ws.dom _ hT, r.ext j hj, r.ws.new _ hT⟩
        obtain ⟨hw, hct, hnw, hfb, hdt⟩ := writeBlocks_spec hc r.ws.inv r.ws.cnt (fun k => f (idx * c.blockSize + k)) (start + idx) es el hext
        have e2 : writeExtent c (fun k => f (idx * c.blockSize + k)) es el s1 =
            (.ok (), { s1 with v := writeBlocks c (fun k => f (idx * c.blockSize + k)) es el s1.v }) := by
          unfold writeExtent
          simp only [run_bind, run_get, hpn, liftV, run_modify]
        simp only [run_bind, e2]
        generalize hs2 : ({ s1 with v := writeBlocks c (fun k => f (idx * c.blockSize + k)) es el s1.v } : DS) = s2 at hw
        have hci2 : s2.ci = s1.ci := by rw [← hs2]
        have hv2 : s2.v = writeBlocks c (fun k => f (idx * c.blockSize + k)) es el s1.v := by rw [← hs2]
        rw [← hv2] at hct hdt
        have hcf : ∀ j, j < el → cont c s2.v.blk V1 (start + idx + j) = (fun k => f ((idx + j) * c.blockSize + k)) ∧ Dat c s2.v.blk V1 (start + idx + j) := by
          intro j hj; refine ⟨?_, hdt j hj⟩; rw [hct j hj]; funext k; congr 1; rw [Nat.add_mul]; omega
        have hw2 := r.ws.trans hc hw
        have hle := r.elLe
        by_cases hf : full = true
        · have hn0 : next' = 0 := by
            apply Decidable.byContradiction; intro hn
            have := (r.next hn).1; rw [hf] at this; cases this
          simp only [hf, if_true, run_pure]
          refine ⟨idx + el, true, s2, V1, rfl, by omega, by omega, fun h => (by cases h), fun _ => ?_, fun _ => by omega, ?_, by rw [hci2]; exact r.seek,
            Or.inl (by rw [hci2]; exact hpn), ?_⟩
          · obtain ⟨l1, l2⟩ := r.low hf
            refine ⟨by omega, ?_⟩
            rw [show start + (idx + el) = start + idx + el by omega]
            refine l2.congr (by rw [hv2]; exact hfb) (fun p hp => ⟨rfl, fun h0 => ?_⟩)
            rw [hv2]
            exact hnw p (brSet_ok hc (by omega) hp) h0
          · refine hw2.weaken (fun x => ?_)
            simp only [hn0, if_true]; omega
          · intro j h3 h4
            have := hcf (j - idx) (by omega)
            rw [show start + idx + (j - idx) = start + j by omega, show idx + (j - idx) = j by omega] at this
            exact this
        · have hf' : full = false := by cases full <;> simp_all
          simp only [hf', if_false, Bool.false_eq_true]
          obtain ⟨idx', full', s3, V3, e3, i1, i2, i3, i5, i4, w3, sk3, pd3, ct3⟩ := ih (idx + el) next' s2 V1 hw.inv (by rw [hci2]; exact hd1) hw.cnt
            (by rw [hci2]; exact r.seek) hb (by omega) (by omega) (by
              intro hn
              obtain ⟨g1, g2, g3, g4⟩ := r.next hn
              have hT : start + idx ≤ start + idx + el ∧ start + idx + el < start + idx + el + (if next' = 0 then 0 else 1) := by
                rw [if_neg hn]; omega
              obtain ⟨n1, n2⟩ := r.ws.new _ hT
              have hk := hw.keep (start + idx + el) (r.ws.dom _ hT) (by omega)
              rw [show start + (idx + el) = start + idx + el by omega]
              refine ⟨by omega, g3, ?_, by rw [hci2]; exact g4, by rw [hci2]; exact hpn⟩
              have := (hk.2.2 n1).2 n2
              rw [g3] at this; exact this)
            (Or.inl (by rw [hci2]; exact hpn))
          refine ⟨idx', full', s3, V3, e3, by omega, i2, i3, i5, fun _ => by omega, ?_, sk3, Or.inl ?_, ?_⟩
          · refine (hw2.trans hc w3).weaken (fun x => ?_)
            constructor
            · rintro ((⟨h3, h4⟩ | h3) | h3)
              · by_cases hn : next' = 0
                · rw [if_pos hn] at h4; omega
                · rw [if_neg hn] at h4; have := i4 hn; omega
              · omega
              · omega
            · intro h3
              by_cases hx : x < start + idx + el
              · exact Or.inl (Or.inr ⟨h3.1, hx⟩)
              · exact Or.inr (by omega)
          · rcases pd3 with h | h
            · exact h
            · rw [h, hci2]; exact hpn
          · intro j h3 h4
            by_cases hj : j < idx + el
            · have h5 := hcf (j - idx) (by omega)
              rw [show start + idx + (j - idx) = start + j by omega, show idx + (j - idx) = j by omega] at h5
              exact ⟨(w3.keep (start + j) (by omega) (by omega)).1.trans h5.1, w3.dat (start + j) (by omega) (by omega) h5.2⟩
            · exact ct3 j (by omega) h4
    · rw [if_neg hlt]
      have : idx = count := by omega
      subst this
      refine ⟨idx, false, s, V, rfl, Nat.le_refl _, Nat.le_refl _, fun _ => rfl, fun h => (by cases h), fun hn => absurd (hnext hn).1 hlt, ?_, hs,
        Or.inr rfl, fun j h3 h4 => absurd h4 (by omega)⟩
      exact (WS.refl h hcnt).weaken (fun x => ⟨False.elim, fun h => by omega⟩)

end RedFs
