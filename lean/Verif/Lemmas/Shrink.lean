import Verif.Lemmas.TruncTree
set_option linter.unusedSimpArgs false
set_option linter.unusedVariables false
namespace RedFs
open M Bitmap Vol

variable {c : Conf} {O : Nat → Prop} {s s' s1 s2 : DS} {V V' V1 V2 : Pos → Nat} {Z Z' Z1 Z2 G G1 G2 : Pos → Prop}

/-- Failure for lack of space: the file is as it was. -/
structure ShFail (c : Conf) (O : Nat → Prop) (s s1 : DS) (V V1 : Pos → Nat) : Prop where
  sh : Sh c O s s1 V V1 noZ (fun _ => False)
  seek : SeekAll c s1.ci V1
  tot : tot s1.v = tot s.v

theorem ShFail.of_ro (h : FInv c O s V noZ) (hcnt : Cnt c s V) (r : Ro c V s s1) : ShFail c O s s1 V V :=
  ⟨.of_ro r h hcnt, r.seek, by rw [r.v]⟩

theorem fbc_sub {v v' : Vol} {n : Nat} (h1 : v'.work.freeBlocks + n = v.work.freeBlocks) (h2 : v'.useReserved = v.useReserved)
    (h3 : n ≤ freeBlockCount c v) : freeBlockCount c v = freeBlockCount c v' + n := by
  unfold freeBlockCount at *
  rw [h2]
  split at h3 <;> simp_all <;> omega

theorem truncDindir_spec (hc : c.Ok) (h : FInv c O s V noZ) (hcnt : Cnt c s V) {e d k t : Nat} (ht : t < c.dataBlocks)
    (hpos : posOf c t = .sub (.sub (.ent e) d) k) (hco : Coh c s.ci V t) (hd : 0 < d ∨ 0 < k → s.ci.dirty = true) :
    (∃ s1 V1, truncDindir c s = (.error .enospc, s1) ∧ ShFail c O s s1 V V1 ∧ freeBlockCount c s.v < 2 ∧ (0 < d ∨ 0 < k) ∧ OldAbove c s.v V t) ∨
    ∃ freed s' V' G, truncDindir c s = (.ok freed, s') ∧
      Sh c O s s' V V' (fun p => freed = true ∧ p = .ent e) G ∧
      (∀ p, PosOk c p → p.root = e → V' p ≠ 0 → p.first c < t) ∧
      (∀ p, PosOk c p → G p → p.lvl c = 0 → t ≤ p.first c ∧ p.root = e) ∧
      (freed = true → V' (.ent e) = 0) ∧ AtEnt c s'.ci e := by
  have hie := hc.ie_pos
  have hcd := coord_posOf hc ht
  rw [hpos] at hcd
  cases hcd
  rename_i he1 he2 hdd hkk hb
  have hl2 : (Pos.ent e).lvl c = 2 := by simp only [Pos.lvl, Conf.height]; rw [if_neg (by omega), if_neg (by omega)]
  have hF : (Pos.ent e).first c = c.direct + c.indirBlocks + (e - c.direct - c.indirect) * c.dindirData := by
    simp only [Pos.first]; rw [if_neg (by omega), if_neg (by omega)]
  have htF : t = (Pos.ent e).first c + d * c.indirEntries + k := by rw [hF]; exact hb
  clear hb
  generalize hFx : (Pos.ent e).first c = F at htF hF
  have hco' := hco.pos
  rw [hpos] at hco'
  obtain ⟨k1, k2, k3, k4, k5, k6, k7, k8⟩ := hco'
  have hee : PosOk c (.ent e) := he2
  have hfd : ∀ d', (Pos.sub (.ent e) d').first c = F + d' * c.indirEntries := by
    intro d'
    show (Pos.ent e).first c + d' * (if (Pos.ent e).lvl c = 1 then 1 else c.indirEntries) = _
    rw [hFx, if_neg (by omega)]
  have hlv1 : ∀ d', (Pos.sub (.ent e) d').lvl c = 1 := by intro d'; show (Pos.ent e).lvl c - 1 = 1; omega
  have hfk : ∀ d' k', (Pos.sub (.sub (.ent e) d') k').first c = F + d' * c.indirEntries + k' := by
    intro d' k'
    show (Pos.sub (.ent e) d').first c + k' * (if (Pos.sub (.ent e) d').lvl c = 1 then 1 else c.indirEntries) = _
    rw [hfd, if_pos (hlv1 d')]; omega
  have hpk : ∀ d', d' < c.indirEntries → PosOk c (.sub (.ent e) d') := fun d' h => ⟨he2, by omega, h⟩
  -- positions below e
  have hcases : ∀ p, PosOk c p → p.root = e → p = .ent e ∨ (∃ d', d' < c.indirEntries ∧ p = .sub (.ent e) d') ∨
      ∃ d' k', d' < c.indirEntries ∧ k' < c.indirEntries ∧ p = .sub (.sub (.ent e) d') k' := by
    intro p hp hr
    rcases p with x | ⟨x | ⟨x | ⟨x, y⟩, d'⟩, k'⟩
    · left; rw [show x = e from hr]
    · right; left; rw [show x = e from hr]; exact ⟨k', hp.2.2, rfl⟩
    · right; right; rw [show x = e from hr]; exact ⟨d', k', hp.1.2.2, hp.2.2, rfl⟩
    · have h1 : 0 < x.lvl c - 1 - 1 := hp.2.1
      have := FInv.lvl_le (c := c) x; omega
  unfold truncDindir
  simp only [run_bind, run_get]
  by_cases h0 : V (.ent e) = 0
  · right
    have hpd : s.ci.pDindir = none := by rw [k5, k4]; simp [nz, h0]
    simp only [hpd, run_pure]
    have hz : ∀ p, PosOk c p → p.root = e → V p = 0 := by
      intro p hp hr
      rcases hcases p hp hr with rfl | ⟨d', hd', rfl⟩ | ⟨d', k', hd', hk', rfl⟩
      · exact h0
      · exact h.child0 hp h0
      · exact h.child0 hp (h.child0 hp.1 h0)
    refine ⟨false, s, V, fun _ => False, rfl, ?_, fun p hp hr hn => absurd (hz p hp hr) hn, fun p _ hf => hf.elim, (fun h => by cases h), ?_⟩
    · have e : (fun p => false = true ∧ p = Pos.ent e) = noZ := by funext p; simp [noZ]
      rw [e]; exact .refl h hcnt
    · have := hco.atEnt hc ht; rw [hpos] at this; exact this
  · have hpd : s.ci.pDindir = some (V (.ent e)) := by rw [k5, k4]; simp [nz, h0]
    simp only [hpd, k2, k3]
    have hptr : ∀ d', d' < c.indirEntries → (s.v.blk (V (.ent e))).ptrs d' = V (.sub (.ent e) d') := by
      intro d' hd'
      rw [h.child (hpk d' hd') h0]
    have hpi : V (.sub (.ent e) d) ≠ 0 → ∀ k', k' < c.indirEntries → (s.v.blk (s.ci.pIndir.getD 0)).ptrs k' = V (.sub (.sub (.ent e) d) k') := by
      intro hn k' hk'
      have : s.ci.pIndir.getD 0 = V (.sub (.ent e) d) := by rw [k7, k6]; simp [nz, hn]
      rw [this, h.child ⟨hpk d hdd, by rw [hlv1]; omega, hk'⟩ hn]
    generalize hfB : (anyEntry (s.v.blk (V (.ent e))).ptrs d || (decide ((s.v.blk (V (.ent e))).ptrs d ≠ 0) && anyEntry (s.v.blk (s.ci.pIndir.getD 0)).ptrs k)) = fB
    -- the number of entries
    have hmax : ∀ b, b = t → let till := c.dataBlocks - (b - (k + d * c.indirEntries))
        ∃ n, min c.indirEntries (till / c.indirEntries + (if till % c.indirEntries ≠ 0 then 1 else 0)) - d = n ∧ d + n ≤ c.indirEntries ∧ 0 < n ∧
          (∀ d', d' < d + n → F + d' * c.indirEntries < c.dataBlocks) ∧ (∀ d', d' < c.indirEntries → F + d' * c.indirEntries < c.dataBlocks → d' < d + n) := by
      intro b hb
      have ha : c.dataBlocks - (b - (k + d * c.indirEntries)) = c.dataBlocks - F := by rw [hb, htF]; omega
      simp only [ha]
      generalize hT : c.dataBlocks - F = T
      have hTp : d * c.indirEntries + k < T := by omega
      have hiff : ∀ d', d' < T / c.indirEntries + (if T % c.indirEntries ≠ 0 then 1 else 0) ↔ d' * c.indirEntries < T := by
        intro d'
        have hdm := Nat.div_add_mod T c.indirEntries
        have hm := Nat.mod_lt T (show 0 < c.indirEntries by omega)
        constructor
        · intro hlt
          split at hlt
          · have : d' * c.indirEntries ≤ T / c.indirEntries * c.indirEntries := Nat.mul_le_mul_right _ (by omega)
            rw [Nat.mul_comm (T / c.indirEntries)] at this; omega
          · have : (d' + 1) * c.indirEntries ≤ T / c.indirEntries * c.indirEntries := Nat.mul_le_mul_right _ (by omega)
            rw [Nat.mul_comm (T / c.indirEntries), Nat.add_mul] at this; omega
        · intro hlt
          apply Decidable.byContradiction; intro hn
          split at hn
          · have : (T / c.indirEntries + 1) * c.indirEntries ≤ d' * c.indirEntries := Nat.mul_le_mul_right _ (by omega)
            rw [Nat.add_mul, Nat.mul_comm (T / c.indirEntries)] at this; omega
          · have : T / c.indirEntries * c.indirEntries ≤ d' * c.indirEntries := Nat.mul_le_mul_right _ (by omega)
            rw [Nat.mul_comm (T / c.indirEntries)] at this; omega
      have hdl := (hiff d).2 (by omega)
      generalize T / c.indirEntries + (if T % c.indirEntries ≠ 0 then 1 else 0) = M at *
      refine ⟨_, rfl, by omega, by omega, ?_, ?_⟩
      · intro d' hd'
        have := (hiff d').1 (by omega); omega
      · intro d' h1 h2
        have := (hiff d').2 (by omega); omega
    cases hfBc : fB with
    | true =>
      simp only [if_true, run_bind, onlyIf_pos]
      have hdk : 0 < d ∨ 0 < k := by
        rw [hfBc, Bool.or_eq_true] at hfB
        rcases hfB with h1 | h1
        · obtain ⟨k', g, _⟩ := anyEntry_iff.1 h1; left; omega
        · rw [Bool.and_eq_true] at h1
          obtain ⟨k', g, _⟩ := anyEntry_iff.1 h1.2; right; omega
      rcases branchBlock_spec hc h (hd hdk) hcnt ht hco 0 (by omega) false with ⟨e1, hlt⟩ | ⟨V1, s1, e1, r⟩
      · left
        rw [hpos] at hlt
        have hb0 : brCost c s V 0 (.sub (.sub (.ent e) d) k) = costAt c s V (.ent e) := by
          simp [brCost, anc, ancI, ancX, costOf]
        rw [hb0] at hlt
        refine ⟨s, V, by rw [e1], ⟨.refl h hcnt, hco.seekAll hc ht, rfl⟩, ?_, hdk, ?_⟩
        · have h3 := costAt_le (c := c) s V (.ent e)
          omega
        · refine ⟨ht, .ent e, hee, h0, fun hN => ?_, ?_, Or.inr ⟨d, k, hpos⟩⟩
          · unfold costAt at hlt; rw [if_pos ⟨h0, hN⟩] at hlt; omega
          · rw [hFx]; rcases hdk with h1 | h1
            · have := Nat.mul_le_mul_right c.indirEntries h1; omega
            · omega
      · rw [e1]
        simp only [run_get]
        have hbs : ∀ x, brSet 0 (posOf c t) x ↔ x = .ent e := by
          intro x; rw [hpos]; simp [brSet, anc, ancI]; exact eq_comm
        obtain ⟨sh1, ht1⟩ := r.sh hc h ht (by omega) (fun x hx => by rw [(hbs x).1 hx]; exact h0)
        obtain ⟨hn1, hN1⟩ := r.new (.ent e) ((hbs _).2 rfl)
        obtain ⟨n, hn, m1, m2, m3, m4⟩ := hmax s1.ci.logical r.coh.logical
        rw [hn, r.coh.logical]
        rcases truncDindirLoop_spec hc he1 he2 true n d k s1 V1 noZ r.inv r.cnt hn1 hkk m1 (by rw [hFx]; exact m3) (fun _ => by rw [hFx, ← htF]; exact ht)
          (fun _ => by rw [hFx, ← htF]; exact r.coh.seekAll hc ht t ht) (fun _ h => h.elim) (fun _ => ⟨rfl, hN1⟩)
          (fun h => ⟨rfl, sh1.fr.dirty.trans (hd (Or.inr h))⟩) (fun h => by cases h) with
          ⟨g0, _, s2, g2, g3, g4, g5, g6⟩ | ⟨s2, V2, Z2, G2, g1, L⟩
        · left
          rw [hFx, ← htF] at g2
          refine ⟨s2, V1, by rw [g2], ?_, ?_, hdk, ?_⟩
          · have sh2 := Sh.of_ro g3 r.inv r.cnt
            refine ⟨(sh1.trans hc sh2).more (fun _ _ h => by rcases h with h | h <;> exact h) (fun _ _ h => h.elim), g3.seek, by rw [g3.v, ht1]⟩
          · have hcost := r.cost
            have hfree := r.free
            have : brCost c s V 0 (posOf c t) = costAt c s V (.ent e) := by
              rw [hpos]; simp [brCost, anc, ancI, ancX, costOf]
            rw [this] at hcost hfree
            have h3 := costAt_le (c := c) s V (.ent e)
            have := fbc_sub (c := c) hfree r.fr.qt.useReserved hcost
            omega
          · have hnb : ¬ brSet 0 (posOf c t) (.sub (.ent e) d) := fun hx => by have := (hbs _).1 hx; cases this
            have hsm := r.same _ hnb
            rw [hsm] at g5 g6
            exact ⟨ht, .sub (.ent e) d, hpk d hdd, g5, fun hN => g6 ((r.keep _ (hpk d hdd) hnb g5).2 hN), by rw [hfd]; omega, Or.inl ⟨k, hpos⟩⟩
        · right
          rw [hFx, ← htF] at g1
          simp only [g1, run_pure]
          have hZ2 := L.zb rfl
          subst hZ2
          have ez : (fun p => false = true ∧ p = Pos.ent e) = noZ := by funext p; simp [noZ]
          refine ⟨false, s2, V2, fun p => False ∨ G2 p, rfl, by rw [ez]; exact sh1.trans hc L.sh, ?_, ?_, (fun h => by cases h), (L.co m2).1⟩
          · intro p hp hr hnz
            apply Decidable.byContradiction; intro hge
            have hin := L.sh.inv.inside p hp hnz
            rcases hcases p hp hr with rfl | ⟨d', hd', rfl⟩ | ⟨d', k', hd', hk', rfl⟩
            · rw [hFx] at hge
              rcases hdk with h1 | h1
              · have := Nat.mul_le_mul_right c.indirEntries h1; omega
              · omega
            · rw [hfd] at hge hin
              have hlt := m4 d' hd' hin
              have hdd' : d ≤ d' := by
                apply Decidable.byContradiction; intro hx
                have := Nat.mul_le_mul_right c.indirEntries (show d' + 1 ≤ d by omega)
                rw [Nat.add_mul] at this; omega
              by_cases hde : d' = d
              · subst hde; exact hnz (L.here m2 (by omega) hp)
              · exact hnz (L.later d' (by omega) hlt hp)
            · rw [hfk] at hge hin
              have hlt := m4 d' hd' (by omega)
              have hdd' : d ≤ d' := by
                apply Decidable.byContradiction; intro hx
                have := Nat.mul_le_mul_right c.indirEntries (show d' + 1 ≤ d by omega)
                rw [Nat.add_mul] at this; omega
              by_cases hde : d' = d
              · subst hde; exact hnz (L.leaves m2 k' (by omega) hp)
              · exact L.sh.inv.up hp hnz (L.later d' (by omega) hlt hp.1)
          · rintro p hp (hg | hg) hl0
            · exact hg.elim
            · have := L.back p hp hg hl0
              rw [hFx] at this
              exact ⟨by omega, this.2⟩
    | false =>
      right
      simp only [Bool.false_eq_true, if_false, run_bind, onlyIf_neg, not_false_eq_true, run_get]
      rw [hfBc, Bool.or_eq_false_iff] at hfB
      obtain ⟨f1, f2⟩ := hfB
      have hz1 : ∀ d', d' < d → V (.sub (.ent e) d') = 0 := by
        intro d' hd'
        rw [← hptr d' (by omega)]; exact anyEntry_false f1 hd'
      have hz2 : ∀ k', k' < k → V (.sub (.sub (.ent e) d) k') = 0 := by
        intro k' hk'
        by_cases hn : V (.sub (.ent e) d) = 0
        · exact h.child0 ⟨hpk d hdd, by rw [hlv1]; omega, by omega⟩ hn
        · rw [← hpi hn k' (by omega)]
          rw [hptr d hdd] at f2
          simp only [hn, ne_eq, not_false_eq_true, decide_true, Bool.true_and] at f2
          exact anyEntry_false f2 hk'
      obtain ⟨n, hn, m1, m2, m3, m4⟩ := hmax s.ci.logical hco.logical
      rw [hn, hco.logical]
      rcases truncDindirLoop_spec hc he1 he2 false n d k s V noZ h hcnt h0 hkk m1 (by rw [hFx]; exact m3) (fun _ => by rw [hFx, ← htF]; exact ht)
          (fun _ => by rw [hFx, ← htF]; exact hco.seekAll hc ht t ht) (fun _ h => h.elim) (fun h => by cases h)
          (fun h => ⟨rfl, hd (Or.inr h)⟩) (fun _ => hz2) with
          ⟨g0, g1, _⟩ | ⟨s2, V2, Z2, G2, g1, L⟩
      · cases g1
      · rw [hFx, ← htF] at g1
        simp only [g1]
        have mono : ∀ p, PosOk c p → V p = 0 → V2 p = 0 := by
          intro p hp h0
          apply Decidable.byContradiction; intro hne
          exact L.sh.sub p hp hne h0
        have hch : ∀ d', PosOk c (.sub (.ent e) d') → V2 (.sub (.ent e) d') = 0 := by
          intro d' hp
          apply Decidable.byContradiction; intro hne
          have hin := L.sh.inv.inside _ hp hne
          rw [hfd] at hin
          by_cases hdd' : d ≤ d'
          · exact hne (L.all rfl d' hdd' (m4 d' hp.2.2 hin) hp)
          · exact hne (mono _ hp (hz1 d' (by omega)))
        have hVe : V2 (.ent e) ≠ 0 := L.sh.keep _ he2 L.top h0
        simp only [setCi, run_modify, run_get]
        let s3 : DS := { s2 with ci := { s2.ci with pDindir := none } }
        have sh3 : Sh c O s s3 V V2 _ _ := L.sh.trans hc (Sh.of_ci (ci' := { s2.ci with pDindir := none }) ⟨rfl, rfl, rfl, rfl, rfl, rfl⟩ L.sh.inv L.sh.cnt)
        have hblk2 := (L.co m2).2
        obtain ⟨v', e4, hFr⟩ := sh3.inv.freeStep hc hee hVe hch
        have e4' : imapBlockSet c s2.ci.dindirBlk false s2.v = (.ok (), v') := by rw [hblk2]; exact e4
        simp only [liftV, e4', run_pure]
        have hf := Conf.Ok.first_ge c
        refine ⟨true, ⟨{ s2.ci with pDindir := none }, v'⟩, upV V2 (.ent e) 0, fun p => (G2 p ∨ False) ∨ p = .ent e, rfl, ?_, ?_, ?_, fun _ => upV_self _ _ _, (L.co m2).1⟩
        · have sh4 : Sh c O s3 { s3 with v := v' } V2 (upV V2 (.ent e) 0) (fun x => Z2 x ∨ x = .ent e) (fun x => x = .ent e) := by
            refine { inv := hFr.inv, cnt := ?_, fr := hFr.fr, gone := fun p _ hp => hp ▸ upV_self _ _ _, sub := ?_, keep := fun p _ hne hn => by rwa [upV_ne _ _ hne],
                     leaf := ?_, new := ?_, tot := by rw [hFr.tot]; omega }
            · refine sh3.cnt.congr rfl (fun x hx => ?_)
              have hokx := posOf_ok hc hx
              apply upV_ne
              intro e; rw [e] at hokx; omega
            · intro p hp hn
              have : p ≠ .ent e := by rintro rfl; exact hn (upV_self _ _ _)
              rwa [upV_ne _ _ this] at hn
            · intro p hp hl hne
              refine ⟨upV_ne _ _ hne, fun hn => ?_⟩
              have := sh3.inv.range p hp hn
              exact hFr.blk _ (by omega) (fun e => hne (sh3.inv.inj _ _ hp hee hn e))
            · intro p hp hn hN
              have hpa : p ≠ .ent e := by rintro rfl; exact hn (upV_self _ _ _)
              rw [upV_ne _ _ hpa] at hn ⊢
              exact (hFr.new p hp hpa hn).2 hN
          refine (sh3.trans hc sh4).reZ ?_ ?_
          · rintro p hp ⟨_, rfl⟩; exact upV_self _ _ _
          · intro p hp hz hnz
            rcases hz with hz | hz
            · obtain ⟨d', rfl⟩ := L.zs p hz
              exact ⟨.ent e, d', rfl, upV_self _ _ _⟩
            · exact absurd ⟨rfl, hz⟩ hnz
        · intro p hp hr hnz
          exfalso
          have hpe : p ≠ .ent e := by rintro rfl; exact hnz (upV_self _ _ _)
          rw [upV_ne _ _ hpe] at hnz
          rcases hcases p hp hr with rfl | ⟨d', hd', rfl⟩ | ⟨d', k', hd', hk', rfl⟩
          · exact hpe rfl
          · exact hnz (hch d' hp)
          · exact L.sh.inv.up hp hnz (hch d' hp.1)
        · rintro p hp ((hg | hg) | hg) hl0
          · have := L.back p hp hg hl0
            rw [hFx] at this
            exact ⟨by omega, this.2⟩
          · exact hg.elim
          · subst hg; omega

end RedFs
