import Verif.Lemmas.WordsDirEnd
import Verif.Lemmas.Demo
set_option linter.unusedSimpArgs false
set_option linter.unusedVariables false
/-!
C64: the loops over the entries of a directory count in 32 bits.

`Words.dirLookup`, `Words.dirRead` and `Words.dirDelete` (`Model/WordsDir.lean`) are the functions of dir.c with
`uint32_t` counters; their first argument says at how many blocks they may look before they are
declared to hang.  The functions without prefix count with unbounded numbers.
-/
namespace RedFs
open M Words

variable {c : Conf}

/-- What makes the 32 bits sufficient for the directory `s` is at: the longest directory, or this
directory with one more block, has fewer than 2^32 entries, or the directory is one of a well-formed
volume. -/
def Words.Roomy (c : Conf) (s : DS) : Prop :=
  c.dataBlocks * c.dpb < 2 ^ 32 ∨ c.offIdx s.ci.node.size + c.dpb ≤ 2 ^ 32 ∨ ∃ d, Wf c s.v ∧ MDir c s.v s.ci d

theorem offIdx_le (hc : c.Ok) (hp : c.PosixOk) {size : Nat} (h : size ≤ c.sizeMax) : c.offIdx size ≤ c.dataBlocks * c.dpb := by
  have hd := dpb_bounds hc hp
  have hds := ds_bounds hp hc
  have hb := bs_bounds hc
  unfold Conf.sizeMax at h
  unfold Conf.offIdx
  have hdm := Nat.div_add_mod size c.blockSize
  rcases Nat.lt_or_ge (size / c.blockSize) c.dataBlocks with hlt | hge
  · have h1 : size % c.blockSize / c.ds ≤ c.dpb := Nat.div_le_div_right (Nat.le_of_lt (Nat.mod_lt _ (by omega)))
    have h2 := Nat.mul_le_mul_right c.dpb (show size / c.blockSize + 1 ≤ c.dataBlocks from hlt)
    rw [Nat.add_mul, Nat.one_mul] at h2
    omega
  · have h1 := Nat.mul_le_mul_left c.blockSize hge
    have hm : size % c.blockSize = 0 := by omega
    have he : c.blockSize * (size / c.blockSize) = c.blockSize * c.dataBlocks := by omega
    rw [hm, Nat.zero_div, Nat.eq_of_mul_eq_mul_left (by omega) he]
    omega

theorem roomy_step (hc : c.Ok) (hp : c.PosixOk) {s : DS} (hs : s.ci.node.size ≤ c.sizeMax) (h : Words.Roomy c s) :
    (Words.offIdx c (BitVec.ofNat 64 s.ci.node.size)).toNat = c.offIdx s.ci.node.size ∧ c.offIdx s.ci.node.size < 4294967296 ∧
    ∃ P, Words.Step c (c.offIdx s.ci.node.size) P ∧ P s := by
  have hm := sizeMax_lt hc
  have hd := dpb_bounds hc hp
  have hsz : (BitVec.ofNat 64 s.ci.node.size).toNat = s.ci.node.size := ofNat64 (by omega)
  have key : c.offIdx s.ci.node.size < 4294967296 → (Words.offIdx c (BitVec.ofNat 64 s.ci.node.size)).toNat = c.offIdx s.ci.node.size := by
    intro hlt
    rw [offIdx_eq hc hp (by rw [hsz]; exact hs) (by rw [hsz]; exact hlt), hsz]
  rcases h with h | h | ⟨d, hw, hd'⟩
  · have hlt : c.offIdx s.ci.node.size < 4294967296 := Nat.lt_of_le_of_lt (offIdx_le hc hp hs) h
    exact ⟨key hlt, hlt, _, step_small h, trivial⟩
  · have hlt : c.offIdx s.ci.node.size < 4294967296 := by omega
    exact ⟨key hlt, hlt, _, step_count h, trivial⟩
  · have hmax := hd'.ok.max
    have hdm : c.direntsMax ≤ 4294967295 := Nat.min_le_left _ _
    have hcn := hd'.count hp
    refine ⟨key (by omega), by omega, fun x => x.v = s.v ∧ MDir c s.v x.ci d, ?_, rfl, hd'⟩
    rw [hcn]
    exact step_dir hc hp hw

theorem sim_get (s : DS) : SimAt (fun a b => a = b ∧ b = s) (M.get : DM DS) M.get s := by unfold SimAt; simp

/-- Looking a name up with 32-bit counters gives the result of the lookup with unbounded numbers. -/
theorem C64_lookup (hc : c.Ok) (hp : c.PosixOk) (s : DS) (hs : s.ci.node.size ≤ c.sizeMax) (hr : Words.Roomy c s) (name : List Byte) :
    Words.dirLookup c (c.offIdx s.ci.node.size) name s = dirLookup c name s := by
  obtain ⟨hcount, hlt, P, hS, hP⟩ := roomy_step hc hp hs hr
  apply SimAt.eq
  unfold Words.dirLookup dirLookup
  refine SimAt.bind (sim_get s) fun a b s' e e' => ?_
  obtain ⟨rfl, rfl⟩ := e
  cases e'
  split
  · exact SimAt.fail
  split
  · exact SimAt.fail
  simp only
  split
  · exact SimAt.fail
  split
  · exact SimAt.fail
  have h := lookupLoop_sim hc hp name (Str.nameLen c.sep name) (hcount.symm ▸ hS) (c.offIdx a.ci.node.size) 0 noIndex a hP (Or.inl (Nat.zero_mod _))
  rw [hcount, zero32] at h
  refine SimAt.bind h fun x y s' e _ => ?_
  obtain ⟨i, ino, fr⟩ := x
  subst e
  simp only
  have hi : i = Words.offIdx c (BitVec.ofNat 64 a.ci.node.size) ↔ i.toNat = c.offIdx a.ci.node.size := by rw [eq_toNat, hcount]
  by_cases hie : i.toNat = c.offIdx a.ci.node.size
  · rw [if_pos hie, if_pos (hi.2 hie)]
    refine SimAt.pure ?_
    have hlt' : Words.offIdx c (BitVec.ofNat 64 a.ci.node.size) < Words.direntsMax c ↔ c.offIdx a.ci.node.size < c.direntsMax := by
      rw [lt_toNat, direntsMax_toNat hc hp, hcount]
    have hdm : c.direntsMax ≤ 4294967295 := Nat.min_le_left _ _
    show LookupRes.missing (opt _) = _
    by_cases hf : fr = noIndex ∧ Words.offIdx c (BitVec.ofNat 64 a.ci.node.size) < Words.direntsMax c
    · rw [if_pos hf, if_pos ⟨opt_none.2 hf.1, hlt'.1 hf.2⟩, opt_some (by rw [hcount]; have := hlt'.1 hf.2; omega), hcount]
    · rw [if_neg hf, if_neg (fun h => hf ⟨opt_none.1 h.1, hlt'.2 h.2⟩)]
  · rw [if_neg hie, if_neg (fun h => hie (hi.1 h))]
    exact SimAt.pure rfl

/-- Reading the next entry, too. -/
theorem C64_read (hc : c.Ok) (hp : c.PosixOk) (s : DS) (hs : s.ci.node.size ≤ c.sizeMax) (hr : Words.Roomy c s) (idx : U32) :
    dirRead c idx.toNat s = match Words.dirRead c (c.offIdx s.ci.node.size) idx s with
      | (.ok (n, r), s') => (.ok (n.toNat, r), s')
      | (.error e, s') => (.error e, s') := by
  obtain ⟨hcount, hlt, P, hS, hP⟩ := roomy_step hc hp hs hr
  have sim : SimAt (fun a b => b = (a.1.toNat, a.2)) (Words.dirRead c (c.offIdx s.ci.node.size) idx) (dirRead c idx.toNat) s := by
    unfold Words.dirRead dirRead
    refine SimAt.bind (sim_get s) fun a b s' e e' => ?_
    obtain ⟨rfl, rfl⟩ := e
    cases e'
    split
    · exact SimAt.fail
    split
    · exact SimAt.fail
    simp only
    have h := readLoop_sim hc hp (hcount.symm ▸ hS) (c.offIdx a.ci.node.size) idx a hP
    rw [hcount] at h
    refine SimAt.bind h fun x y s' e _ => ?_
    obtain ⟨rfl, hl⟩ := e
    cases x with
    | none => exact SimAt.pure (by simp [hcount])
    | some p =>
      obtain ⟨k, nm, ino⟩ := p
      have := hl _ rfl
      simp only at this
      refine SimAt.pure ?_
      simp only [Option.map_some]
      rw [add32 (by rw [one32]; omega), one32]
  unfold SimAt at sim
  rcases h1 : Words.dirRead c (c.offIdx s.ci.node.size) idx s with ⟨r, s1⟩
  rcases h2 : dirRead c idx.toNat s with ⟨r', s2⟩
  rw [h1, h2] at sim
  cases r <;> cases r' <;> simp_all

/-- Deleting an entry, too, if the block which holds the entry before it is there or the entry is the first one of
its block (the entry deleted is one that a lookup found, so this block is there). -/
theorem C64_delete (hc : c.Ok) (hp : c.PosixOk) (s : DS) (hs : s.ci.node.size ≤ c.sizeMax) (idx : U32)
    (hb : idx.toNat % c.dpb = 0 ∨ (seekAndRead c ((idx.toNat - 1) / c.dpb) s).1 ≠ .ok false) :
    Words.dirDelete c idx.toNat idx s = dirDelete c idx.toNat s := by
  have hm := sizeMax_lt hc
  have hdm : c.direntsMax ≤ 4294967295 := Nat.min_le_left _ _
  have hsz : (BitVec.ofNat 64 s.ci.node.size).toNat = s.ci.node.size := ofNat64 (by omega)
  have hdl : ¬ Words.direntsMax c ≤ idx ↔ idx.toNat < c.direntsMax := by
    rw [le_toNat, direntsMax_toNat hc hp]; omega
  apply SimAt.eq
  unfold Words.dirDelete dirDelete
  refine SimAt.bind (sim_get s) fun a b s' e e' => ?_
  obtain ⟨rfl, rfl⟩ := e
  cases e'
  by_cases h1 : a.ci.dirty = false ∨ Words.direntsMax c ≤ idx
  · have h2 : a.ci.dirty = false ∨ c.direntsMax ≤ idx.toNat := by
      rw [le_toNat, direntsMax_toNat hc hp] at h1; exact h1
    rw [if_pos h1, if_pos h2]
    exact SimAt.fail
  have hlt : idx.toNat < c.direntsMax := hdl.1 fun h => h1 (Or.inr h)
  have h2 : ¬ (a.ci.dirty = false ∨ c.direntsMax ≤ idx.toNat) := by
    rintro (h | h)
    · exact h1 (Or.inl h)
    · omega
  rw [if_neg h1, if_neg h2]
  split
  · exact SimAt.fail
  have hle := (idxOff_le hc hp hlt).2.2
  have hio := idxOff_toNat hc hp (k := idx) (by omega)
  have hcond : (Words.idxOff c idx + wide (Words.ds c) = BitVec.ofNat 64 a.ci.node.size) ↔ c.idxOff idx.toNat + c.ds = a.ci.node.size := by
    rw [eq_toNat, hsz, add64 (by rw [hio, wide_toNat, ds_toNat hc hp]; omega), hio, wide_toNat, ds_toNat hc hp]
  by_cases hl : c.idxOff idx.toNat + c.ds = a.ci.node.size
  · rw [if_pos (hcond.2 hl), if_pos hl]
    have hplus : idx - 1 + 1 = idx := BitVec.sub_add_cancel idx 1
    have hsim := trimLoop_sim hc hp idx.toNat (idx - 1) a (by
      rw [hplus]
      rcases Nat.eq_zero_or_pos idx.toNat with h0 | h0
      · left; rw [h0]; exact Nat.zero_mod _
      · rw [pred_toNat (t := idx - 1) (n := idx.toNat) h0 idx.isLt (by rw [hplus])]; exact hb)
    rw [hplus] at hsim
    refine SimAt.bind hsim fun t n s' e _ => ?_
    obtain ⟨rfl, hle⟩ := e
    rw [Words.trimSize_eq hc hp (by omega)]
    exact SimAt.same fun _ _ _ => rfl
  · rw [if_neg (fun h => hl (hcond.1 h)), if_neg hl]
    exact SimAt.same fun _ _ _ => rfl

/-- In a well-formed volume every entry in use satisfies the condition of `C64_delete`. -/
theorem C64_delete_wellformed (hc : c.Ok) (hp : c.PosixOk) (s : DS) (hw : Wf c s.v) {d : ADir} (hd : MDir c s.v s.ci d) (idx : U32)
    (hu : d.slot idx.toNat ≠ none) : Words.dirDelete c idx.toNat idx s = dirDelete c idx.toNat s := by
  have hdp := dpb_bounds hc hp
  have hlt : idx.toNat < d.n := by
    rcases Nat.lt_or_ge idx.toNat d.n with h | h
    · exact h
    · exact absurd (hd.ok.out _ h) hu
  have hmax := hd.ok.max
  refine C64_delete hc hp s (hw.fok hc hd.mnt).size idx ?_
  by_cases hm : idx.toNat % c.dpb = 0
  · exact Or.inl hm
  right
  have hs1 := dsum hc hp idx.toNat
  have he : (idx.toNat - 1) / c.dpb = idx.toNat / c.dpb := by
    have e : idx.toNat - 1 = (idx.toNat % c.dpb - 1) + idx.toNat / c.dpb * c.dpb := by omega
    rw [e, Nat.add_mul_div_right _ _ (by omega), Nat.div_eq_of_lt (by omega), Nat.zero_add]
  rw [he]
  obtain ⟨ci', e, _⟩ := seekRead_file hc hw hd.mnt (b := idx.toNat / c.dpb) (blk_max hp (by omega))
  obtain ⟨ci, v⟩ := s
  rw [show seekAndRead c (idx.toNat / c.dpb) ⟨ci, v⟩ = _ from e]
  intro hz
  injection hz with hz
  exact hu (hd.sparse hc hp hlt (by simpa using hz))

/-! ### Directories whose contents are not what the driver wrote -/

/-- Whatever the disk holds: if the longest directory has fewer than 2^32 entries, a lookup ends after it has looked
at each block that a directory can have. -/
theorem C64_lookup_ends (hc : c.Ok) (hp : c.PosixOk) (hsm : c.dataBlocks * c.dpb < 2 ^ 32) (s : DS) (name : List Byte) :
    ∃ r s', r ≠ .error .hang ∧ ∀ fuel, c.dataBlocks + 1 ≤ fuel → Words.dirLookup c fuel name s = (r, s') := by
  have hd := dpb_bounds hc hp
  have key : ∀ fuel, c.dataBlocks + 1 ≤ fuel → Words.dirLookup c fuel name s = Words.dirLookup c (c.dataBlocks + 1) name s ∧
      (Words.dirLookup c fuel name s).1 ≠ .error .hang := by
    intro fuel hf
    unfold Words.dirLookup
    simp only [run_bind, run_get]
    split
    · exact ⟨rfl, by simp⟩
    split
    · exact ⟨rfl, by simp⟩
    split
    · exact ⟨rfl, by simp⟩
    split
    · exact ⟨rfl, by simp⟩
    simp only [run_bind]
    have en : ∀ f, c.dataBlocks + 1 ≤ f → Enough c (Words.offIdx c (BitVec.ofNat 64 s.ci.node.size)).toNat f (0 : U32).toNat := by
      intro f hf
      refine ⟨?_, fun h => by omega⟩
      rw [zero32, Nat.zero_div, Nat.zero_add]; exact hf
    have h := lookupLoop_ends hc hp hsm name (Str.nameLen c.sep name) (Words.offIdx c (BitVec.ofNat 64 s.ci.node.size)) fuel (c.dataBlocks + 1) 0 noIndex s
      (by rw [zero32, Nat.zero_mod]) (en _ hf) (en _ (Nat.le_refl _))
    rw [← h.1]
    refine ⟨rfl, ?_⟩
    have h := h.2
    rcases hq : Words.lookupLoop c name (Str.nameLen c.sep name) (Words.offIdx c (BitVec.ofNat 64 s.ci.node.size)) fuel 0 noIndex s with ⟨r, s1⟩
    rw [hq] at h
    cases r with
    | error e => exact fun hx => h (by simpa using hx)
    | ok x => obtain ⟨i, ino, fr⟩ := x; dsimp only; split <;> simp
  exact ⟨(Words.dirLookup c (c.dataBlocks + 1) name s).1, (Words.dirLookup c (c.dataBlocks + 1) name s).2, (key _ (Nat.le_refl _)).2, fun fuel hf => (key fuel hf).1⟩

/-- A read of the next entry ends, too. -/
theorem C64_read_ends (hc : c.Ok) (hp : c.PosixOk) (hsm : c.dataBlocks * c.dpb < 2 ^ 32) (s : DS) (idx : U32) :
    ∃ r s', r ≠ .error .hang ∧ ∀ fuel, c.dataBlocks + 1 ≤ fuel → Words.dirRead c fuel idx s = (r, s') := by
  have hd := dpb_bounds hc hp
  have key : ∀ fuel, c.dataBlocks + 1 ≤ fuel → Words.dirRead c fuel idx s = Words.dirRead c (c.dataBlocks + 1) idx s ∧
      (Words.dirRead c fuel idx s).1 ≠ .error .hang := by
    intro fuel hf
    unfold Words.dirRead
    simp only [run_bind, run_get]
    split
    · exact ⟨rfl, by simp⟩
    split
    · exact ⟨rfl, by simp⟩
    simp only [run_bind]
    have en : ∀ f, c.dataBlocks + 1 ≤ f → Enough c (Words.offIdx c (BitVec.ofNat 64 s.ci.node.size)).toNat f idx.toNat :=
      fun f hf => ⟨Nat.le_trans hf (Nat.le_add_left _ _), fun h => by omega⟩
    have h := readLoop_ends hc hp hsm (Words.offIdx c (BitVec.ofNat 64 s.ci.node.size)) fuel (c.dataBlocks + 1) idx s (en _ hf) (en _ (Nat.le_refl _))
    rw [← h.1]
    refine ⟨rfl, ?_⟩
    have h := h.2
    rcases hq : Words.readLoop c (Words.offIdx c (BitVec.ofNat 64 s.ci.node.size)) fuel idx s with ⟨r, s1⟩
    rw [hq] at h
    cases r with
    | error e => exact fun hx => h (by simpa using hx)
    | ok x =>
      cases x with
      | none => simp
      | some p => obtain ⟨i, ino, fr⟩ := p; simp
  exact ⟨(Words.dirRead c (c.dataBlocks + 1) idx s).1, (Words.dirRead c (c.dataBlocks + 1) idx s).2, (key _ (Nat.le_refl _)).2, fun fuel hf => (key fuel hf).1⟩

/-- The search for the last entry in use (which follows the deletion of the last entry) ends, too, from any entry. -/
theorem C64_delete_ends (hc : c.Ok) (hp : c.PosixOk) (hsm : (c.dataBlocks + 1) * c.dpb ≤ 2 ^ 32) (s : DS) (t : U32) (fuel : Nat)
    (hf : c.dataBlocks + 1 ≤ fuel) : (Words.trimLoop c fuel t s).1 ≠ .error .hang := by
  refine trimLoop_ends hc hp hsm fuel t s ?_
  by_cases h : c.dataBlocks ≤ t.toNat / c.dpb
  · exact Or.inr (Or.inl ⟨h, by omega⟩)
  · exact Or.inr (Or.inr (by omega))

/-- Without that condition a read may never end: the number of entries per block divides 2^32, a directory can have
2^32 of them, and the directory read has no block at all but a size in the last block before 2^32 entries.  (The
driver creates no such directory; it is accepted when found on the disk.) -/
theorem C64_read_hangs (hc : c.Ok) (hp : c.PosixOk) (hdv : c.dpb ∣ 2 ^ 32) (hsz : 2 ^ 32 ≤ c.dataBlocks * c.dpb) (s : DS)
    (ha : Absent s) (hdir : s.ci.dir = true) (hs : s.ci.node.size ≤ c.sizeMax)
    (hcount : c.offIdx s.ci.node.size < 2 ^ 32 ∧ 2 ^ 32 < c.offIdx s.ci.node.size + c.dpb) (fuel : Nat) :
    (Words.dirRead c fuel 0 s).1 = .error .hang := by
  have hm := sizeMax_lt hc
  have hnum : (BitVec.ofNat 64 s.ci.node.size).toNat = s.ci.node.size := ofNat64 (by omega)
  have hcn : (Words.offIdx c (BitVec.ofNat 64 s.ci.node.size)).toNat = c.offIdx s.ci.node.size := by
    rw [offIdx_eq hc hp (by rw [hnum]; exact hs) (by rw [hnum]; exact hcount.1), hnum]
  have h := readLoop_hangs hc hp hdv hsz (count := Words.offIdx c (BitVec.ofNat 64 s.ci.node.size)) (by rw [hcn]; exact hcount.2) fuel 0 s ha
    (by rw [zero32, Nat.zero_mod])
  unfold Words.dirRead
  simp only [run_bind, run_get]
  rw [if_neg ha.nb, if_neg (by rw [hdir]; decide)]
  simp only [run_bind]
  rcases hr : Words.readLoop c (Words.offIdx c (BitVec.ofNat 64 s.ci.node.size)) fuel 0 s with ⟨r, s1⟩
  rw [hr] at h
  subst h
  rfl

/-- The same for the lookup of any valid name. -/
theorem C64_lookup_hangs (hc : c.Ok) (hp : c.PosixOk) (hdv : c.dpb ∣ 2 ^ 32) (hsz : 2 ^ 32 ≤ c.dataBlocks * c.dpb) (s : DS)
    (ha : Absent s) (hdir : s.ci.dir = true) (hs : s.ci.node.size ≤ c.sizeMax)
    (hcount : c.offIdx s.ci.node.size < 2 ^ 32 ∧ 2 ^ 32 < c.offIdx s.ci.node.size + c.dpb) (name : List Byte)
    (hn : 0 < Str.nameLen c.sep name ∧ Str.nameLen c.sep name ≤ c.nameMax) (fuel : Nat) :
    (Words.dirLookup c fuel name s).1 = .error .hang := by
  have hm := sizeMax_lt hc
  have hnum : (BitVec.ofNat 64 s.ci.node.size).toNat = s.ci.node.size := ofNat64 (by omega)
  have hcn : (Words.offIdx c (BitVec.ofNat 64 s.ci.node.size)).toNat = c.offIdx s.ci.node.size := by
    rw [offIdx_eq hc hp (by rw [hnum]; exact hs) (by rw [hnum]; exact hcount.1), hnum]
  have h := lookupLoop_hangs hc hp hdv hsz (count := Words.offIdx c (BitVec.ofNat 64 s.ci.node.size)) (by rw [hcn]; exact hcount.2) name
    (Str.nameLen c.sep name) fuel 0 noIndex s ha (by rw [zero32, Nat.zero_mod])
  unfold Words.dirLookup
  simp only [run_bind, run_get]
  rw [if_neg ha.nb, if_neg (by rw [hdir]; decide), if_neg (by omega), if_neg (by omega)]
  simp only [run_bind]
  rcases hr : Words.lookupLoop c name (Str.nameLen c.sep name) (Words.offIdx c (BitVec.ofNat 64 s.ci.node.size)) fuel 0 noIndex s with ⟨r, s1⟩
  rw [hr] at h
  subst h
  rfl

/-- A directory without blocks whose last block is incomplete: every valid name is found, and the inode number
returned is never set (here 0; in C it is what the variable of the caller happened to hold). -/
theorem C64_lookup_unset (hc : c.Ok) (hp : c.PosixOk) (s : DS) (ha : Absent s) (hdir : s.ci.dir = true) (hs : s.ci.node.size ≤ c.sizeMax)
    (hcount : c.offIdx s.ci.node.size + c.dpb ≤ 2 ^ 32) (hun : c.offIdx s.ci.node.size % c.dpb ≠ 0) (name : List Byte)
    (hn : 0 < Str.nameLen c.sep name ∧ Str.nameLen c.sep name ≤ c.nameMax) (fuel : Nat) (hf : c.offIdx s.ci.node.size ≤ fuel) :
    ∃ i s', Words.dirLookup c fuel name s = (.ok (.found i 0), s') ∧ c.offIdx s.ci.node.size < i := by
  have hm := sizeMax_lt hc
  have hnum : (BitVec.ofNat 64 s.ci.node.size).toNat = s.ci.node.size := ofNat64 (by omega)
  have hd := dpb_bounds hc hp
  have hcn : (Words.offIdx c (BitVec.ofNat 64 s.ci.node.size)).toNat = c.offIdx s.ci.node.size := by
    rw [offIdx_eq hc hp (by rw [hnum]; exact hs) (by rw [hnum]; omega), hnum]
  obtain ⟨i, fr, s', e, hi⟩ := lookupLoop_past hc hp (count := Words.offIdx c (BitVec.ofNat 64 s.ci.node.size))
    (by rw [hcn]; exact offIdx_le hc hp hs) (by rw [hcn]; exact hcount) (by rw [hcn]; exact hun) name (Str.nameLen c.sep name) fuel 0 noIndex s ha
    (by rw [zero32, Nat.zero_mod]) (by rw [hcn, zero32]; omega) (by rw [zero32]; omega)
  refine ⟨i.toNat, s', ?_, by rw [← hcn]; exact hi⟩
  unfold Words.dirLookup
  simp only [run_bind, run_get]
  rw [if_neg ha.nb, if_neg (by rw [hdir]; decide), if_neg (by omega), if_neg (by omega)]
  simp only [run_bind]
  rw [e]
  simp only
  rw [if_neg (fun h => by rw [h] at hi; omega)]
  rfl

/-! ### The hypotheses can be met -/

theorem demoWd_ok : demoConf.PosixOk := ⟨rfl, by decide, by decide, by decide⟩

/-- The condition holds of the whole demonstration configuration. -/
example : demoConf.dataBlocks * demoConf.dpb < 2 ^ 32 ∧ (demoConf.dataBlocks + 1) * demoConf.dpb ≤ 2 ^ 32 ∧ ∀ s, Words.Roomy demoConf s :=
  ⟨by decide, by decide, fun s => Or.inl (by decide)⟩
example (s : DS) (name : List Byte) : ∃ r s', r ≠ .error .hang ∧ ∀ fuel, demoConf.dataBlocks + 1 ≤ fuel → Words.dirLookup demoConf fuel name s = (r, s') :=
  C64_lookup_ends demo_ok demoWd_ok (by decide) s name

/-- The configuration of projects/linux/redconf.h and the first volume of redconf.c (4096-byte blocks, names of 12 bytes). -/
def confLinux : Conf := ⟨4096, 4, 32, true, true, true, true, true, 12, 10000, 65536, false, false, true, 47⟩
theorem confLinux_ok : confLinux.Ok where
  bs_pow := ⟨12, by decide, by decide, rfl⟩
  ptrs := by decide
  inodes := by decide
  blocks_min := by decide
  blocks_max := by decide
  fits := by decide
  nodes := by decide
theorem confLinux_posix : confLinux.PosixOk := ⟨rfl, by decide, by decide, by decide⟩

/-- An inode as it is right after it was read from the disk: a directory without blocks and with the given size. -/
def hostileDir (size : Nat) : Cinode :=
  { Cinode.init 2 with nodeBuf := some 6, dir := true, node := { InodeNode.zero with size := size, mode := modeDir } }

/-- With that configuration, a directory of 2^36 - 16 bytes without blocks makes a read and every lookup run forever. -/
theorem C64_hangs_witness (v : Vol) (fuel : Nat) : (Words.dirRead confLinux fuel 0 ⟨hostileDir (2 ^ 36 - 16), v⟩).1 = .error .hang ∧
    (Words.dirLookup confLinux fuel [97#8, 0#8] ⟨hostileDir (2 ^ 36 - 16), v⟩).1 = .error .hang := by
  have ha : Absent ⟨hostileDir (2 ^ 36 - 16), v⟩ := ⟨by simp [hostileDir], fun _ => rfl, rfl, rfl, rfl⟩
  have h2 : confLinux.dpb ∣ 2 ^ 32 := ⟨2 ^ 24, by decide⟩
  exact ⟨C64_read_hangs confLinux_ok confLinux_posix h2 (by decide) _ ha rfl (show 2 ^ 36 - 16 ≤ confLinux.sizeMax by decide)
      (show confLinux.offIdx (2 ^ 36 - 16) < 2 ^ 32 ∧ 2 ^ 32 < confLinux.offIdx (2 ^ 36 - 16) + confLinux.dpb by decide) fuel,
    C64_lookup_hangs confLinux_ok confLinux_posix h2 (by decide) _ ha rfl (show 2 ^ 36 - 16 ≤ confLinux.sizeMax by decide)
      (show confLinux.offIdx (2 ^ 36 - 16) < 2 ^ 32 ∧ 2 ^ 32 < confLinux.offIdx (2 ^ 36 - 16) + confLinux.dpb by decide) [97#8, 0#8] (by decide) fuel⟩

/-- A directory of one entry without blocks. -/
example (v : Vol) : ∃ i s', Words.dirLookup demoConf 1 [97#8, 0#8] ⟨hostileDir 16, v⟩ = (.ok (.found i 0), s') ∧ demoConf.offIdx 16 < i :=
  C64_lookup_unset demo_ok demoWd_ok ⟨hostileDir 16, v⟩ ⟨by simp [hostileDir], fun _ => rfl, rfl, rfl, rfl⟩ rfl (show 16 ≤ demoConf.sizeMax by decide)
    (show demoConf.offIdx 16 + demoConf.dpb ≤ 2 ^ 32 by decide) (show demoConf.offIdx 16 % demoConf.dpb ≠ 0 by decide) [97#8, 0#8]
    (by decide) 1 (show demoConf.offIdx 16 ≤ 1 by decide)

/-- An entry that is in use is in a directory that can be mounted. -/
theorem mount_entry (hc : c.SysOk) {v : Vol} (hr : Reach c v) (hm : v.mounted = true) (hx : c.posix = true) {p k : Nat} {x : Nat × List Byte}
    (he : entOf c (files c v) p k = some x) : ∃ (s : DS) (d : ADir), Wf c s.v ∧ MDir c s.v s.ci d ∧ s.ci.ino = p ∧ d.slot k = some x := by
  obtain ⟨a, ha⟩ := hr.abs hc
  have hi := (ha.inv (ha.mounted_iff.trans hm)).1
  have hn : NsOk c (files c v) := by have := hi.now; rw [Sound.posix hx] at this; exact this
  rcases mountDir hc.ok hi.wf p false with ⟨e, h, _⟩ | ⟨f, ci, v', h1, _, h3, _, h5⟩
  · rcases h with ⟨_, h⟩ | ⟨_, f, h⟩
    · unfold entOf at he; rw [h] at he; cases he
    · unfold entOf at he; rw [h.1] at he; simp only at he; rw [if_neg (by rw [h.2]; decide)] at he; cases he
  · obtain ⟨rfl, _⟩ := h5 rfl
    rw [entOf_dir h1] at he
    exact ⟨⟨ci, v'⟩, dirOf c f, hi.wf, hn.mdir h1 h3, h3.ino, he⟩

theorem demo_entry : (entOf demoConf (files demoConf demoVol) 2 1 == some (4, nmA)) = true := by decide +kernel
/-- `C64_delete_wellformed`, and the third case of `Roomy`: the root directory of the demo volume, of which the entry number 1 is in use. -/
example : ∃ (s : DS) (d : ADir), Wf demoConf s.v ∧ MDir demoConf s.v s.ci d ∧ s.ci.ino = 2 ∧ d.slot (1#32).toNat ≠ none := by
  obtain ⟨s, d, h1, h2, h3, h4⟩ := mount_entry demo_sys demo_reach demo_mounted rfl (eq_of_beq demo_entry)
  exact ⟨s, d, h1, h2, h3, by rw [show (1#32).toNat = 1 from rfl, h4]; simp⟩

end RedFs
