import Verif.Spec.Fse
import Verif.Lemmas.Refine
set_option linter.unusedSimpArgs false
set_option linter.unusedVariables false
/-!
The FSE API refines its specification.
-/
namespace RedFs.Fse
open M Bitmap Vol

variable {c : Conf} {fc : FConf}

/-! ### files as lists of bytes -/

/-- A file of an FSE volume with the contents `xs`. -/
def toA (xs : List Byte) : AFile := ⟨modeReg, 1, 0, xs.length, fun k => xs.getD k 0⟩

/-- The files of an FSE volume. -/
def filesOf (c : Conf) (G : Contents) : RedFs.Files := fun i => if Spec.IsFile c i then some (toA (G i)) else none

theorem pad_length (xs : List Byte) (n : Nat) : (Spec.pad xs n).length = max xs.length n := by
  unfold Spec.pad; rw [List.length_append, List.length_replicate]; omega

theorem pad_getD (xs : List Byte) (n k : Nat) : (Spec.pad xs n).getD k 0 = xs.getD k 0 := by
  unfold Spec.pad
  simp only [List.getD_eq_getElem?_getD]
  by_cases h : k < xs.length
  · rw [List.getElem?_append_left h]
  · rw [List.getElem?_append_right (by omega), List.getElem?_eq_none (l := xs) (by omega), List.getElem?_replicate]
    split <;> rfl

theorem take_getD (xs : List Byte) (n k : Nat) : (xs.take n).getD k 0 = if k < n then xs.getD k 0 else 0 := by
  simp only [List.getD_eq_getElem?_getD, List.getElem?_take]
  split <;> rfl

theorem resize_length (xs : List Byte) (n : Nat) : (Spec.resize xs n).length = n := by
  unfold Spec.resize; rw [List.length_take, pad_length]; omega

theorem toA_resize (xs : List Byte) (n : Nat) : toA (Spec.resize xs n) = (toA xs).truncate n := by
  refine AFile.ext rfl rfl rfl (resize_length xs n) (funext fun k => ?_)
  show (Spec.resize xs n).getD k 0 = if k < n then xs.getD k 0 else 0
  unfold Spec.resize
  rw [take_getD, pad_getD]

theorem put_length (xs : List Byte) (off : Nat) (bs : List Byte) (h : bs ≠ []) : (Spec.put xs off bs).length = max xs.length (off + bs.length) := by
  unfold Spec.put
  rw [if_neg h, List.length_append, List.length_append, List.length_take, pad_length, List.length_drop]
  omega

theorem put_getD (xs : List Byte) (off : Nat) (bs : List Byte) (h : bs ≠ []) (k : Nat) :
    (Spec.put xs off bs).getD k 0 = if off ≤ k ∧ k < off + bs.length then bs.getD (k - off) 0 else xs.getD k 0 := by
  have hl : ((Spec.pad xs off).take off).length = off := by rw [List.length_take, pad_length]; omega
  unfold Spec.put
  rw [if_neg h]
  simp only [List.getD_eq_getElem?_getD]
  by_cases h1 : k < off
  · rw [if_neg (by omega), List.append_assoc, List.getElem?_append_left (by omega)]
    have := take_getD (Spec.pad xs off) off k
    rw [if_pos h1, pad_getD] at this
    simpa only [List.getD_eq_getElem?_getD] using this
  · rw [List.append_assoc, List.getElem?_append_right (by omega), hl]
    by_cases h2 : k < off + bs.length
    · rw [if_pos ⟨by omega, h2⟩, List.getElem?_append_left (by omega)]
    · rw [if_neg (by omega), List.getElem?_append_right (by omega), List.getElem?_drop]
      congr 2; omega

theorem toA_put (xs : List Byte) (off n : Nat) (b : Nat → Byte) : toA (Spec.put xs off ((List.range n).map b)) = (toA xs).put off n b := by
  unfold AFile.put
  by_cases h : n = 0
  · subst h; rfl
  · have hne : (List.range n).map b ≠ [] := by
      intro h'; have := congrArg List.length h'; simp at this; exact h this
    rw [if_neg h]
    refine AFile.ext rfl rfl rfl ?_ (funext fun k => ?_)
    · show (Spec.put xs off _).length = max xs.length (off + n)
      rw [put_length _ _ _ hne]; simp
    · show (Spec.put xs off _).getD k 0 = if off ≤ k ∧ k < off + n then b (k - off) else xs.getD k 0
      rw [put_getD _ _ _ hne]
      simp only [List.length_map, List.length_range]
      split
      · next hk =>
        rw [List.getD_eq_getElem?_getD, List.getElem?_map, List.getElem?_range (by omega)]; rfl
      · rfl

theorem toA_read (xs : List Byte) (off len : Nat) : (toA xs).read off len = (xs.drop off).take len := by
  unfold AFile.read
  show (List.range (min len (xs.length - off))).map (fun k => xs.getD (off + k) 0) = _
  apply List.ext_getElem?
  intro k
  rw [List.getElem?_map, List.getElem?_take, List.getElem?_drop]
  by_cases h : k < min len (xs.length - off)
  · rw [List.getElem?_range h, if_pos (by omega)]
    simp only [Option.map_some]
    rw [List.getD_eq_getElem?_getD, List.getElem?_eq_getElem (by omega)]; rfl
  · rw [List.getElem?_eq_none (by rw [List.length_range]; omega)]
    split
    · rw [List.getElem?_eq_none (by omega)]; rfl
    · rfl

theorem filesOf_valid (G : Contents) {file : Nat} (h : Spec.IsFile c file) : filesOf c G file = some (toA (G file)) := if_pos h
theorem filesOf_none (G : Contents) {file : Nat} (h : ¬ Spec.IsFile c file) : filesOf c G file = none := if_neg h

theorem filesOf_set (G : Contents) {file : Nat} (h : Spec.IsFile c file) (xs : List Byte) :
    (filesOf c G).set file (some (toA xs)) = filesOf c (Spec.set G file xs) := by
  funext i
  unfold RedFs.Files.set filesOf Spec.set
  by_cases e : i = file
  · subst e; rw [if_pos rfl, if_pos h, if_pos rfl]
  · rw [if_neg e, if_neg e]

theorem formatted_fse (h : c.posix = false) : formatted c = filesOf c Spec.empty := by
  funext i
  unfold formatted filesOf
  rw [h, if_neg (by simp)]
  by_cases h1 : Spec.IsFile c i
  · rw [if_pos (show c.inodeValid i = true by unfold Conf.inodeValid; simpa [Spec.IsFile] using h1), if_pos h1]; rfl
  · rw [if_neg (show ¬ c.inodeValid i = true by unfold Conf.inodeValid; simpa [Spec.IsFile] using h1), if_neg h1]

theorem isReg_iff (G : Contents) {file : Nat} {f : AFile} : RedFs.Spec.IsReg (filesOf c G) file f ↔ Spec.IsFile c file ∧ f = toA (G file) := by
  unfold RedFs.Spec.IsReg
  by_cases h : Spec.IsFile c file
  · rw [filesOf_valid G h]
    constructor
    · rintro ⟨h1, _⟩; exact ⟨h, (Option.some.inj h1).symm⟩
    · rintro ⟨_, rfl⟩; exact ⟨rfl, rfl⟩
  · rw [filesOf_none G h]
    constructor
    · rintro ⟨h1, _⟩; cases h1
    · rintro ⟨h1, _⟩; exact absurd h1 h

theorem notReg_iff (G : Contents) {file : Nat} {e : Err} : RedFs.Spec.NotReg (filesOf c G) file e ↔ ¬ Spec.IsFile c file ∧ e = .ebadf := by
  unfold RedFs.Spec.NotReg RedFs.Spec.IsDir
  by_cases h : Spec.IsFile c file
  · rw [filesOf_valid G h]
    constructor
    · rintro (⟨_, h1⟩ | ⟨_, f, h1, h2⟩)
      · cases h1
      · rw [← Option.some.inj h1] at h2; exact absurd (show modeReg = modeDir from h2) (by decide)
    · rintro ⟨h1, _⟩; exact absurd h h1
  · rw [filesOf_none G h]
    constructor
    · rintro (⟨h1, _⟩ | ⟨_, f, h1, h2⟩)
      · exact ⟨h, h1⟩
      · cases h1
    · rintro ⟨_, h1⟩; exact Or.inl ⟨h1, rfl⟩

/-! ### the operations -/

theorem write_rep {file off len : Nat} {buf : Nat → Byte} {G : Contents} {r : Except Err Nat} {F : RedFs.Files}
    (h : RedFs.Spec.Write c file off len buf (filesOf c G) r F) :
    ∃ G', F = filesOf c G' ∧ Spec.Write c file off len buf G (r.map .num) G' := by
  cases r with
  | error e =>
    obtain ⟨rfl, h⟩ := h
    refine ⟨G, rfl, ?_⟩
    unfold Spec.Write
    rcases h with h | ⟨f, h1, h⟩
    · obtain ⟨h1, rfl⟩ := (notReg_iff G).1 h
      rw [if_pos h1]; exact ⟨rfl, rfl⟩
    · replace h1 := (isReg_iff G).1 h1; obtain ⟨h1, rfl⟩ := h1
      rw [if_neg (not_not_intro h1)]
      by_cases hl : c.sizeMax < off ∨ (off = c.sizeMax ∧ 0 < len)
      · rw [if_pos hl] at h ⊢; rw [h]; exact ⟨rfl, rfl⟩
      · rw [if_neg hl] at h ⊢; obtain ⟨rfl, h⟩ := h; exact Or.inl ⟨rfl, h, rfl⟩
  | ok n =>
    obtain ⟨f, h1, h2, h3, h4, rfl⟩ := h
    replace h1 := (isReg_iff G).1 h1; obtain ⟨h1, rfl⟩ := h1
    refine ⟨Spec.set G file (Spec.put (G file) off ((List.range n).map buf)), ?_, ?_⟩
    · rw [← filesOf_set G h1, toA_put]
    · unfold Spec.Write
      have hl : ¬ (c.sizeMax < off ∨ (off = c.sizeMax ∧ 0 < len)) := by
        rintro (h | ⟨h, hp⟩)
        · omega
        · have := h3 hp; omega
      rw [if_neg (not_not_intro h1), if_neg hl]
      exact Or.inr ⟨n, rfl, h2, h3, h4, rfl⟩

theorem truncate_rep {file size : Nat} {G : Contents} {r : Except Err Unit} {F : RedFs.Files}
    (h : RedFs.Spec.Truncate c file size (filesOf c G) r F) :
    ∃ G', F = filesOf c G' ∧ Spec.Truncate c file size G (r.map fun _ => .unit) G' := by
  cases r with
  | error e =>
    obtain ⟨rfl, h⟩ := h
    refine ⟨G, rfl, ?_⟩
    unfold Spec.Truncate
    rcases h with h | ⟨f, h1, h⟩
    · obtain ⟨h1, rfl⟩ := (notReg_iff G).1 h
      rw [if_pos h1]; exact ⟨rfl, rfl⟩
    · replace h1 := (isReg_iff G).1 h1; obtain ⟨h1, rfl⟩ := h1
      rw [if_neg (not_not_intro h1)]
      by_cases hl : c.sizeMax < size
      · rw [if_pos hl] at h ⊢; rw [h]; exact ⟨rfl, rfl⟩
      · rw [if_neg hl] at h ⊢; rw [h]; exact Or.inl ⟨rfl, rfl⟩
  | ok n =>
    obtain ⟨f, h1, h2, rfl⟩ := h
    replace h1 := (isReg_iff G).1 h1; obtain ⟨h1, rfl⟩ := h1
    refine ⟨Spec.set G file (Spec.resize (G file) size), ?_, ?_⟩
    · rw [← filesOf_set G h1, toA_resize]
    · unfold Spec.Truncate
      rw [if_neg (not_not_intro h1), if_neg (by omega)]
      exact Or.inr ⟨rfl, rfl⟩

/-! ### one volume -/

/-- The volume `s` of the core's specification is the volume `a` of the FSE specification. -/
structure Rep (c : Conf) (s : Sys) (a : FVol) : Prop where
  mounted : a.mounted = s.mounted
  rw_ : s.mounted = true → s.ro = false
  now : s.mounted = true → s.now = filesOf c a.now
  disk : s.disk = a.disk.map (filesOf c)

/-- The result of a core call as the FSE API returns it. -/
def toF : Reply → FReply
  | .num n => .num n
  | .bytes bs => .bytes bs
  | _ => .unit

/-- The states committed. -/
def trOf (c : Conf) (tr : List (Option Contents)) : List (Option RedFs.Files) := tr.map (Option.map (filesOf c))

theorem getLast_some {tr : List RedFs.Files} {ftr : List (Option Contents)} {d : Option RedFs.Files} {d' : Option Contents}
    (h : tr.map some = trOf c ftr) (hd : d = d'.map (filesOf c)) :
    (match tr.getLast? with | some F => some F | none => d) = (ftr.getLast?.getD d').map (filesOf c) := by
  have h1 : (tr.map some).getLast? = (trOf c ftr).getLast? := by rw [h]
  unfold trOf at h1
  rw [List.getLast?_map, List.getLast?_map] at h1
  cases e : tr.getLast? with
  | none =>
    rw [e] at h1
    cases e' : ftr.getLast? with
    | none => exact hd
    | some x => rw [e'] at h1; cases h1
  | some F =>
    rw [e] at h1
    cases e' : ftr.getLast? with
    | none => rw [e'] at h1; cases h1
    | some x => rw [e'] at h1; exact Option.some.inj h1

theorem modify_rep {α : Type} {ev : Event} {R : RedFs.Files → Except Err α → RedFs.Files → Prop} {f : α → Reply}
    {R' : Contents → Except Err FReply → Contents → Prop}
    (hR : ∀ G r F, R (filesOf c G) r F → ∃ G', F = filesOf c G' ∧ R' G (r.map fun a => toF (f a)) G')
    (hE : ∀ G G', R' G (.error .enospc) G' → G' = G)
    {s s' : Sys} {r : Except Err Reply} {tr : List RedFs.Files} {a : FVol} (hr : Rep c s a) (hm : a.mounted = true → a.mask = s.mask)
    (h : RedFs.Spec.Modify ev (RedFs.Spec.Via f R) s r s' tr) :
    ∃ a' ftr, Rep c s' a' ∧ (a'.mounted = true → a'.mask = s'.mask) ∧ a'.mask = a.mask ∧ tr.map some = trOf c ftr ∧ Spec.Modify ev R' a (r.map toF) a' ftr := by
  unfold RedFs.Spec.Modify at h
  unfold Spec.Modify
  split at h
  · next hmm =>
    obtain ⟨rfl, rfl, rfl⟩ := h
    exact ⟨a, [], hr, hm, rfl, rfl, by rw [if_pos (hr.mounted.trans hmm)]; exact ⟨rfl, rfl, rfl⟩⟩
  · next hmm =>
    have hmt : s.mounted = true := by simpa using hmm
    rw [hr.rw_ hmt, if_neg (by simp)] at h
    obtain ⟨pre, F, hpre, ⟨r0, rfl, hR0⟩, htr, hs⟩ := h
    rw [hr.now hmt] at hR0
    obtain ⟨G, rfl, hG⟩ := hR _ _ _ hR0
    have hon : ∀ e, s.on e = a.mask.testBit e.bit := fun e => by unfold Sys.on; rw [hm (by rw [hr.mounted, hmt])]
    have hb : ((r0.map f).map toF) = (r0.map fun a => toF (f a)) := by cases r0 <;> rfl
    have hpre' : ∃ fpre, pre.map some = trOf c fpre ∧ (fpre = [] ∨ fpre = [some a.now] ∧ a.mask.testBit Event.volfull.bit = true ∧ R' a.now (.error .enospc) a.now) := by
      rcases hpre with rfl | ⟨rfl, h1, r1, h2, h3⟩
      · exact ⟨[], rfl, Or.inl rfl⟩
      · refine ⟨[some a.now], by rw [hr.now hmt]; rfl, Or.inr ⟨rfl, by rw [← hon]; exact h1, ?_⟩⟩
        rw [hr.now hmt] at h3
        obtain ⟨G1, e1, h4⟩ := hR _ _ _ h3
        cases r1 with
        | ok x => cases h2
        | error e =>
          obtain rfl : Err.enospc = e := Except.error.inj h2
          have := hE _ _ h4
          rw [this] at h4; exact h4
    obtain ⟨fpre, hf1, hf2⟩ := hpre'
    have htb : (r0.map f).toBool = (r0.map fun a => toF (f a)).toBool := by cases r0 <;> rfl
    refine ⟨{ a with now := G, disk := (fpre ++ (if (r0.map fun a => toF (f a)).toBool = true ∧ a.mask.testBit ev.bit = true then [some G] else [])).getLast?.getD a.disk },
      fpre ++ (if (r0.map fun a => toF (f a)).toBool = true ∧ a.mask.testBit ev.bit = true then [some G] else []), ?_, ?_, rfl, ?_, ?_⟩
    · subst hs
      refine ⟨?_, ?_, ?_, ?_⟩
      · exact hr.mounted
      · intro _; exact hr.rw_ hmt
      · intro _; rfl
      · show (match tr.getLast? with | some F => some F | none => s.disk) = _
        refine getLast_some ?_ hr.disk
        rw [htr, hon, htb, List.map_append, hf1]
        unfold trOf; rw [List.map_append]
        split <;> rfl
    · subst hs; intro _; exact hm (by rw [hr.mounted, hmt])
    · rw [htr, hon, htb, List.map_append, hf1]
      unfold trOf; rw [List.map_append]
      split <;> rfl
    · rw [if_neg (by rw [hr.mounted]; exact hmm), hb]
      exact ⟨fpre, G, hf2, hG, rfl, rfl⟩

theorem write_enospc {file off len : Nat} {buf : Nat → Byte} (G G' : Contents) (h : Spec.Write c file off len buf G (.error .enospc) G') : G' = G := by
  unfold Spec.Write at h
  split at h
  · exact h.2
  · split at h
    · exact h.2
    · rcases h with h | ⟨n, h, _⟩
      · exact h.2.2
      · cases h

theorem truncate_enospc {file size : Nat} (G G' : Contents) (h : Spec.Truncate c file size G (.error .enospc) G') : G' = G := by
  unfold Spec.Truncate at h
  split at h
  · exact h.2
  · split at h
    · exact h.2
    · rcases h with h | ⟨h, _⟩
      · exact h.2
      · cases h

/-- The core call that a call of the FSE API makes. -/
def core? : FCall → Option Call
  | .mount _ => some (.mount false)
  | .unmount _ => some .unmount
  | .read _ file off len => some (.read file off len)
  | .write _ file off len buf => some (.write file off len buf)
  | .truncate _ file size => some (.truncate file size)
  | .sizeGet _ file => some (.fileSize file)
  | .maskSet _ mask => some (.maskSet mask)
  | .maskGet _ => some .maskGet
  | .transact _ => some .transact
  | .rollback _ => some .rollback
  | _ => none

theorem core_ok {k : FCall} {k' : Call} (h : core? k = some k') : k'.Ok c := by
  cases k <;> simp only [core?, Option.some.injEq, reduceCtorEq] at h <;> subst h <;> trivial

/-- The core's specification gives that of the FSE API. -/
theorem does_rep (hp : c.posix = false) {k : FCall} {k' : Call} (hk : core? k = some k') {s s' : Sys} {r : Except Err Reply} {tr : List RedFs.Files} {a : FVol}
    (hr : Rep c s a) (hm : a.mask = s.mask) (h : RedFs.Spec.Does c k' s r s' tr) :
    ∃ a' ftr, Rep c s' a' ∧ a'.mask = s'.mask ∧ tr.map some = trOf c ftr ∧ Spec.VolDoes c k a (r.map toF) a' ftr := by
  have ask : ∀ (Q : Except Err FReply → Prop) (Q0 : RedFs.Files → Except Err Reply → Prop), (∀ r, s.mounted = true → Q0 s.now r → Q (r.map toF)) →
      RedFs.Spec.Ask Q0 s r s' tr → ∃ a' ftr, Rep c s' a' ∧ a'.mask = s'.mask ∧ tr.map some = trOf c ftr ∧ Spec.Ask Q a (r.map toF) a' ftr := by
    clear h
    rintro Q Q0 hQ ⟨rfl, rfl, h⟩
    refine ⟨a, [], hr, hm, rfl, rfl, rfl, ?_⟩
    rw [hr.mounted]
    by_cases h0 : s'.mounted = false
    · rw [if_pos h0] at h ⊢; rw [h]; rfl
    · rw [if_neg h0] at h ⊢; exact hQ r (by simpa using h0) h
  cases k <;> simp only [core?, Option.some.injEq, reduceCtorEq] at hk <;> subst hk <;> simp only [RedFs.Spec.Does] at h <;> simp only [Spec.VolDoes]
  case mount vol =>
    obtain ⟨rfl, h⟩ := h
    rw [hp] at h
    by_cases h0 : s.mounted = true
    · rw [if_pos h0] at h
      obtain ⟨rfl, rfl⟩ := h
      exact ⟨a, [], hr, hm, rfl, rfl, by rw [hr.mounted, if_pos h0]; exact ⟨rfl, rfl⟩⟩
    · rw [if_neg h0] at h
      have hd := hr.disk
      cases e : a.disk with
      | none =>
        rw [e] at hd
        replace hd : s.disk = none := hd
        rw [hd] at h
        obtain ⟨rfl, rfl⟩ := h
        exact ⟨a, [], hr, hm, rfl, rfl, by rw [hr.mounted, if_neg h0]; exact ⟨rfl, rfl⟩⟩
      | some G =>
        rw [e] at hd
        replace hd : s.disk = some (filesOf c G) := hd
        rw [hd] at h
        obtain ⟨rfl, rfl⟩ := h
        exact ⟨{ a with mounted := true, now := G, disk := some G }, [], ⟨rfl, fun _ => rfl, fun _ => rfl, rfl⟩, hm, rfl, rfl,
          by rw [if_neg (by rw [hr.mounted]; exact h0)]; exact ⟨rfl, rfl⟩⟩
  case unmount vol =>
    by_cases h0 : s.mounted = false
    · rw [if_pos h0, hp] at h
      obtain ⟨rfl, rfl, rfl⟩ := h
      exact ⟨a, [], hr, hm, rfl, by rw [hr.mounted, if_pos h0]; exact ⟨rfl, rfl, rfl⟩⟩
    · rw [if_neg h0] at h
      obtain ⟨rfl, htr, rfl⟩ := h
      have hmt : s.mounted = true := by simpa using h0
      rw [hr.rw_ hmt, hr.now hmt] at htr
      have hon : s.on .umount = a.mask.testBit Event.umount.bit := by unfold Sys.on; rw [hm]
      have htr' : tr.map some = trOf c (if a.mask.testBit Event.umount.bit = true then [some a.now] else []) := by
        rw [htr, hon]
        by_cases hb : a.mask.testBit Event.umount.bit = true
        · rw [if_pos ⟨rfl, hb⟩, if_pos hb]; rfl
        · rw [if_neg (fun h => hb h.2), if_neg hb]; rfl
      refine ⟨{ a with mounted := false, disk := (if a.mask.testBit Event.umount.bit = true then [some a.now] else []).getLast?.getD a.disk },
        _, ⟨rfl, ?_, ?_, ?_⟩, hm, htr', by rw [hr.mounted, if_neg h0]; exact ⟨rfl, rfl, rfl⟩⟩
      · intro h; cases h
      · intro h; cases h
      · show (match tr.getLast? with | some F => some F | none => s.disk) = _
        exact getLast_some htr' hr.disk
  case read vol file off len =>
    refine ask _ _ ?_ h
    rintro r h0 ⟨r0, rfl, hQ⟩
    rw [hr.now h0] at hQ
    cases r0 with
    | error e =>
      obtain ⟨h1, rfl⟩ := (notReg_iff _).1 hQ
      rw [if_pos h1]; rfl
    | ok bs =>
      obtain ⟨f, h1, rfl⟩ := hQ
      replace h1 := (isReg_iff _).1 h1; obtain ⟨h1, rfl⟩ := h1
      rw [if_neg (not_not_intro h1), toA_read]; rfl
  case write vol file off len buf =>
    obtain ⟨a', ftr, g1, g2, g3, g4, g5⟩ := modify_rep (R' := Spec.Write c file off len buf) (fun G r F h => write_rep h) write_enospc hr (fun _ => hm) h
    refine ⟨a', ftr, g1, ?_, g4, g5⟩
    rw [g3, hm]
    exact (RedFs.Spec.Does.mask (c := c) (k := .write file off len buf) h (by intro m h; cases h)).symm
  case truncate vol file size =>
    obtain ⟨a', ftr, g1, g2, g3, g4, g5⟩ := modify_rep (R' := Spec.Truncate c file size) (fun G r F h => truncate_rep h) truncate_enospc hr (fun _ => hm) h
    refine ⟨a', ftr, g1, ?_, g4, g5⟩
    rw [g3, hm]
    exact (RedFs.Spec.Does.mask (c := c) (k := .truncate file size) h (by intro m h; cases h)).symm
  case sizeGet vol file =>
    refine ask _ _ ?_ h
    rintro r h0 ⟨r0, rfl, hQ⟩
    rw [hr.now h0] at hQ
    cases r0 with
    | error e =>
      obtain ⟨h1, rfl⟩ := (notReg_iff _).1 hQ
      rw [if_pos h1]; rfl
    | ok n =>
      obtain ⟨f, h1, rfl⟩ := hQ
      replace h1 := (isReg_iff _).1 h1; obtain ⟨h1, rfl⟩ := h1
      rw [if_neg (not_not_intro h1)]; rfl
  case maskSet vol mask =>
    obtain ⟨rfl, h⟩ := h
    by_cases h0 : s.mounted = false ∨ mask &&& c.transactMask ≠ mask
    · rw [if_pos h0] at h
      obtain ⟨rfl, rfl⟩ := h
      exact ⟨a, [], hr, hm, rfl, rfl, by rw [if_pos (by rw [hr.mounted]; exact h0)]; exact ⟨rfl, rfl⟩⟩
    · rw [if_neg h0, hr.rw_ (by simpa using fun h => h0 (Or.inl h)), if_neg (by simp)] at h
      obtain ⟨rfl, rfl⟩ := h
      exact ⟨{ a with mask := mask }, [], ⟨hr.mounted, fun _ => rfl, hr.now, hr.disk⟩, rfl, rfl, rfl, by rw [if_neg (by rw [hr.mounted]; exact h0)]; exact ⟨rfl, rfl⟩⟩
  case maskGet vol =>
    refine ask _ _ ?_ h
    intro r _ h; rw [h, hm]; rfl
  case transact vol =>
    by_cases h0 : s.mounted = false
    · rw [if_pos h0] at h
      obtain ⟨rfl, rfl, rfl⟩ := h
      exact ⟨a, [], hr, hm, rfl, by rw [if_pos (by rw [hr.mounted]; exact h0)]; exact ⟨rfl, rfl, rfl⟩⟩
    · have hmt : s.mounted = true := by simpa using h0
      rw [if_neg h0, hr.rw_ hmt, if_neg (by simp)] at h
      obtain ⟨rfl, rfl, rfl⟩ := h
      refine ⟨{ a with disk := some a.now }, [some a.now], ⟨hr.mounted, fun _ => rfl, hr.now, ?_⟩, hm, by rw [hr.now hmt]; rfl, by rw [if_neg (by rw [hr.mounted]; exact h0)]; exact ⟨rfl, rfl, rfl⟩⟩
      show some s.now = some _; rw [hr.now hmt]
  case rollback vol =>
    obtain ⟨rfl, h⟩ := h
    by_cases h0 : s.mounted = false
    · rw [if_pos h0] at h
      obtain ⟨rfl, rfl⟩ := h
      exact ⟨a, [], hr, hm, rfl, rfl, by rw [if_pos (by rw [hr.mounted]; exact h0)]; exact ⟨rfl, rfl⟩⟩
    · have hmt : s.mounted = true := by simpa using h0
      rw [if_neg h0, hr.rw_ hmt, if_neg (by simp)] at h
      obtain ⟨rfl, F, hF, rfl⟩ := h
      have hd := hr.disk
      rw [hF] at hd
      cases e : a.disk with
      | none => rw [e] at hd; cases hd
      | some G =>
        rw [e] at hd
        replace hd : some F = some (filesOf c G) := hd
        refine ⟨{ a with now := G, disk := some G }, [], ⟨hr.mounted, fun _ => rfl, fun _ => Option.some.inj hd, ?_⟩, hm, rfl, rfl, by rw [if_neg (by rw [hr.mounted]; exact h0)]; exact ⟨rfl, G, rfl, rfl⟩⟩
        exact hF.trans hd

/-! ### the calls -/

theorem enter_ok {s : FSt} {i : Nat} (hi : s.inited = true) (hn : i < fc.n) : fseEnter fc i s = (.ok (), { s with cur := i }) := by
  unfold fseEnter volSetCurrent
  simp only [run_bind, run_get, hi, if_pos, if_neg (show ¬ fc.n ≤ i by omega), run_modify]

theorem enter_bad {s : FSt} {i : Nat} (h : s.inited = false ∨ fc.n ≤ i) : fseEnter fc i s = (.error .einval, s) := by
  unfold fseEnter volSetCurrent
  by_cases hi : s.inited = true
  · have hn : fc.n ≤ i := by rcases h with h | h; (rw [hi] at h; cases h); exact h
    simp only [run_bind, run_get, hi, if_pos, if_pos hn, run_fail]
  · simp only [run_bind, run_get, if_neg hi, run_fail]

/-- The state with volume `i` replaced. -/
def setVol (s : FSt) (i : Nat) (v : Vol) : FSt := { s with cur := i, vols := fun j => if j = i then v else s.vols j }

theorem setVol_self (s : FSt) (i : Nat) : setVol s i (s.vols i) = { s with cur := i } := by
  unfold setVol
  congr 1
  funext j
  split
  · next h => rw [h]
  · rfl

theorem ret_run {α : Type} {f : α → FReply} {m : FM α} {s s' : FSt} {r : Except Err α} (h : m s = (r, s')) : ret f m s = (r.map f, s') := by
  unfold ret; rw [run_bind, h]; cases r <;> rfl

/-- Calls that are refused. -/
theorem fexec_bad {k : FCall} {i : Nat} {s : FSt} (hk : Spec.vol? k = some i) (h : s.inited = false ∨ fc.n ≤ i ∨ Spec.tooLong k = true) :
    fexec fc k s = (.error .einval, s) := by
  by_cases hl : Spec.tooLong k = true
  · cases k <;> simp only [Spec.tooLong, reduceCtorEq] at hl
    all_goals
      replace hl := of_decide_eq_true hl
      refine ret_run (r := .error .einval) ?_
      first | unfold fseRead int32Max | unfold fseWrite int32Max
      rw [if_pos hl]; rfl
  · have he := enter_bad (fc := fc) (s := s) (i := i) (by tauto)
    have hl' : Spec.tooLong k = false := by simpa using hl
    cases k <;> simp only [Spec.vol?, Option.some.injEq, reduceCtorEq] at hk <;> subst hk
    all_goals
      refine ret_run (r := .error .einval) ?_
      first
        | unfold fseMount | unfold fseUnmount | unfold fseFormat | unfold fseTruncate | unfold fseSizeGet | unfold fseTransMaskSet
        | unfold fseTransMaskGet | unfold fseTransact | unfold fseRollback
        | (unfold fseRead int32Max; rw [if_neg (of_decide_eq_false hl')])
        | (unfold fseWrite int32Max; rw [if_neg (of_decide_eq_false hl')])
      rw [run_bind, he]

theorem onCur_at {α : Type} (m : Conf → VM α) (s : FSt) (i : Nat) :
    onCur fc m { s with cur := i } = ((m (fc.conf i) (s.vols i)).1, setVol s i (m (fc.conf i) (s.vols i)).2) := rfl

theorem reply_eq {α : Type} (f : α → Reply) (m : VM α) (v : Vol) : reply f m v = ((m v).1.map f, (m v).2) := reply_run rfl

/-- Calls that are passed on to the core. -/
theorem fexec_core {k : FCall} {k' : Call} {i : Nat} {s : FSt} (hk : Spec.vol? k = some i) (hc : core? k = some k') (hi : s.inited = true) (hn : i < fc.n)
    (hl : Spec.tooLong k = false) (hp : (fc.conf i).posix = false) :
    fexec fc k s = ((exec (fc.conf i) k' (s.vols i)).1.map toF, setVol s i (exec (fc.conf i) k' (s.vols i)).2) := by
  have he := enter_ok (fc := fc) hi hn
  have mm : ∀ {α : Type} (x : Except Err α) (f : α → Reply), (x.map f).map toF = x.map fun a => toF (f a) := by
    intro α x f; cases x <;> rfl
  cases k <;> simp only [Spec.vol?, Option.some.injEq, reduceCtorEq] at hk <;> subst hk <;> simp only [core?, Option.some.injEq, reduceCtorEq] at hc <;>
    subst hc <;> simp only [exec, reply_eq, mm]
  case mount i =>
    refine ret_run ?_
    unfold fseMount apiMount
    rw [run_bind, he]; dsimp only
    rw [run_bind, run_get]; dsimp only
    simp only [run_bind, run_get, hp]
    by_cases h0 : (s.vols i).mounted = true
    · rw [if_pos h0, if_pos h0]
      simp only [Bool.false_eq_true, if_false, run_pure]
      rw [setVol_self]
    · rw [if_neg h0, if_neg h0, onCur_at]
  case unmount i =>
    refine ret_run ?_
    unfold fseUnmount apiUnmount
    rw [run_bind, he]; dsimp only
    rw [run_bind, run_get]; dsimp only
    simp only [run_bind, run_get, hp]
    by_cases h0 : (s.vols i).mounted = true
    · rw [if_pos h0, if_pos h0, onCur_at]
    · rw [if_neg h0, if_neg h0]
      simp only [Bool.false_eq_true, if_false, run_pure]
      rw [setVol_self]
  case read i file off len =>
    refine ret_run ?_
    unfold fseRead int32Max
    rw [if_neg (of_decide_eq_false hl), run_bind, he]; dsimp only
    rw [onCur_at]
  case write i file off len buf =>
    refine ret_run ?_
    unfold fseWrite int32Max
    rw [if_neg (of_decide_eq_false hl), run_bind, he]; dsimp only
    rw [onCur_at]
  all_goals
    refine ret_run ?_
    first | unfold fseTruncate | unfold fseSizeGet | unfold fseTransMaskSet | unfold fseTransMaskGet | unfold fseTransact | unfold fseRollback
    rw [run_bind, he]; dsimp only
    rw [onCur_at]

theorem fexec_format {i : Nat} {s : FSt} (hi : s.inited = true) (hn : i < fc.n) :
    fexec fc (.format i) s = ((volFormat (fc.conf i) (s.vols i)).1.map (fun _ => .unit), setVol s i (volFormat (fc.conf i) (s.vols i)).2) := by
  refine ret_run ?_
  unfold fseFormat
  rw [run_bind, enter_ok hi hn]; dsimp only
  rw [onCur_at]

/-! ### simulation -/

/-- The model's state `s` is the state `a` of the specification. -/
structure FAbs (fc : FConf) (s : FSt) (a : FSys) : Prop where
  inited : a.inited = s.inited
  down : s.inited = false → ∀ j, j < fc.n → (a.vol j).mounted = false
  vols : ∀ j, j < fc.n → ∃ y, Abs (fc.conf j) (s.vols j) y ∧ Rep (fc.conf j) y (a.vol j) ∧ (s.inited = true → (a.vol j).mask = y.mask)

/-- The specification's state with volume `i` replaced. -/
def putVol (a : FSys) (i : Nat) (x : FVol) : FSys := { a with vol := fun j => if j = i then x else a.vol j }

theorem FAbs.put {s : FSt} {a : FSys} (h : FAbs fc s a) (hi : s.inited = true) {i : Nat} {v : Vol} {x : FVol} {y : Sys}
    (h1 : Abs (fc.conf i) v y) (h2 : Rep (fc.conf i) y x) (h3 : x.mask = y.mask) : FAbs fc (setVol s i v) (putVol a i x) := by
  refine ⟨h.inited, fun h' => ?_, fun j hj => ?_⟩
  · rw [show (setVol s i v).inited = s.inited from rfl, hi] at h'; cases h'
  · show ∃ y, Abs (fc.conf j) (if j = i then v else s.vols j) y ∧ Rep (fc.conf j) y (if j = i then x else a.vol j) ∧ (_ → (if j = i then x else a.vol j).mask = y.mask)
    by_cases e : j = i
    · subst e; rw [if_pos rfl, if_pos rfl]; exact ⟨y, h1, h2, fun _ => h3⟩
    · rw [if_neg e, if_neg e]; exact h.vols j hj

/-- What a power loss leaves, for one volume. -/
def Survives (fc : FConf) (a : FSys) (k : FCall) (tr : List (Option Contents)) (j : Nat) (w : Vol) : Prop :=
  ∃ y x, Abs (fc.conf j) w y ∧ Rep (fc.conf j) y x ∧ x.mounted = false ∧ (x.disk = (a.vol j).disk ∨ (Spec.vol? k = some j ∧ x.disk ∈ tr))

/-- The volumes found after a power loss. -/
theorem rep_down {y : Sys} {D : Option Contents} (hm : y.mounted = false) (hd : y.disk = D.map (filesOf c)) : Rep c y ⟨false, 0, Spec.empty, D⟩ :=
  ⟨hm.symm, fun h => (by rw [hm] at h; cases h), fun h => (by rw [hm] at h; cases h), hd⟩

theorem image_crash {k : FCall} {e : Epoch} {D : Nat → Blk} (h : Image c k e D) : CrashImage c e D := by
  cases k <;> first | exact h | exact h.image

/-- A power loss when the volume is not being used. -/
theorem survives_idle (hc : fc.Ok) {s : FSt} {a : FSys} (h : FAbs fc s a) {k : FCall} {tr : List (Option Contents)} {j : Nat} (hj : j < fc.n) {w : Vol} {D : Nat → Blk}
    (hD : CrashImage (fc.conf j) (s.vols j).epoch D) (hw : Boot w D) : Survives fc a k tr j w := by
  obtain ⟨y, h1, h2, _⟩ := h.vols j hj
  obtain ⟨y1, g1, g2, g3⟩ := h1.idle (hc.conf j hj).ok D hD w hw
  refine ⟨y1, ⟨false, 0, Spec.empty, (a.vol j).disk⟩, g1, rep_down g2 ?_, rfl, Or.inl rfl⟩
  rw [List.mem_singleton.1 g3, h2.disk]

/-- Nothing is left of a call that does not touch the disk. -/
theorem survives_same (hc : fc.Ok) {s s' : FSt} {a : FSys} (h : FAbs fc s a) {k : FCall} {tr : List (Option Contents)} {j : Nat} (hj : j < fc.n)
    (hv : s'.vols j = s.vols j) {new : List Epoch} {e : Epoch} {D : Nat → Blk} {w : Vol} (hn : (s'.vols j).hist = new ++ (s.vols j).hist)
    (he : e ∈ (s'.vols j).epoch :: new) (hD : Image (fc.conf j) k e D) (hw : Boot w D) : Survives fc a k tr j w := by
  rw [hv] at hn he
  have : new = [] := by
    have := congrArg List.length hn; rw [List.length_append] at this; exact List.length_eq_zero_iff.1 (by omega)
  subst this
  rw [List.mem_singleton] at he
  subst he
  exact survives_idle hc h hj (image_crash hD) hw

theorem forget_of {k : FCall} (h : ∀ i, k ≠ .format i) (r : Except Err FReply) (s : FSt) : forget k r s = s := by
  cases k <;> first | rfl | (exact absurd rfl (h _))

theorem forget_setVol {s : FSt} {i : Nat} {v : Vol} {x : FReply} :
    forget (.format i) (.ok x) (setVol s i v) = setVol s i { v with hist := [] } := by
  have e : (fun j => if j = i then { (setVol s i v).vols i with hist := [] } else (setVol s i v).vols j) = fun j => if j = i then { v with hist := [] } else s.vols j := by
    funext j
    by_cases hji : j = i
    · rw [if_pos hji, if_pos hji, show (setVol s i v).vols i = v from if_pos rfl]
    · rw [if_neg hji, if_neg hji]; exact if_neg hji
  show (⟨s.inited, i, fun j => if j = i then { (setVol s i v).vols i with hist := [] } else (setVol s i v).vols j⟩ : FSt) = _
  rw [e]; rfl

/-- The simulation of one call. -/
theorem fexec_sim (hc : fc.Ok) {s s' : FSt} {a : FSys} (h : FAbs fc s a) {k : FCall} {r : Except Err FReply} (hp : Permitted fc k s) (he : fexec fc k s = (r, s')) :
    ∃ a' tr, Spec.Does fc k a r a' tr ∧ FAbs fc (forget k r s') a' ∧
      ∀ j, j < fc.n → ∀ new e D w, (s'.vols j).hist = new ++ (s.vols j).hist → e ∈ (s'.vols j).epoch :: new → Image (fc.conf j) k e D → Boot w D →
        Survives fc a k tr j w := by
  cases hv : Spec.vol? k with
  | none =>
    by_cases hini : k = .init
    · subst hini
      by_cases hi : s.inited = true
      · have hs : fexec fc .init s = (.ok .unit, s) := by
          refine ret_run (r := .ok ()) ?_
          unfold fseInit; rw [run_bind, run_get]; dsimp only; rw [if_pos hi]; rfl
        rw [hs] at he; obtain ⟨rfl, rfl⟩ := Prod.mk.inj he
        refine ⟨a, [], ?_, h, fun j hj new e D w => survives_same hc h hj rfl⟩
        simp only [Spec.Does, Spec.vol?, h.inited, hi, if_true, and_self]
      · have hs : fexec fc .init s = (.ok .unit, { s with inited := true, vols := fun i => if i < fc.n then coreInit fc.transDefault (s.vols i) else s.vols i }) := by
          refine ret_run (r := .ok ()) ?_
          unfold fseInit; rw [run_bind, run_get]; dsimp only; rw [if_neg hi]; rfl
        rw [hs] at he; obtain ⟨rfl, rfl⟩ := Prod.mk.inj he
        have hi' : s.inited = false := by simpa using hi
        have hvol : ∀ j, j < fc.n → (if j < fc.n then coreInit fc.transDefault (s.vols j) else s.vols j) = coreInit fc.transDefault (s.vols j) := fun j hj => if_pos hj
        refine ⟨⟨true, fun j => if j < fc.n then { a.vol j with mask := fc.transDefault } else a.vol j⟩, [], ?_, ⟨rfl, fun h' => (by cases h'), fun j hj => ?_⟩, ?_⟩
        · simp only [Spec.Does, Spec.vol?, h.inited, hi', Bool.false_eq_true, if_false, and_self]
        · obtain ⟨y, h1, h2, h3⟩ := h.vols j hj
          have hdn := h.down hi' j hj
          rw [h2.mounted] at hdn
          refine ⟨{ y with mask := fc.transDefault }, ?_, ?_, ?_⟩
          · show Abs _ (if j < fc.n then coreInit fc.transDefault (s.vols j) else s.vols j) _
            rw [if_pos hj]; exact init_sim h1 hdn _
          · show Rep _ _ (if j < fc.n then { a.vol j with mask := fc.transDefault } else a.vol j)
            rw [if_pos hj]; exact ⟨h2.mounted, h2.rw_, h2.now, h2.disk⟩
          · intro _
            show (if j < fc.n then { a.vol j with mask := fc.transDefault } else a.vol j).mask = _
            rw [if_pos hj]
        · intro j hj new e D w hn hee hD hw
          obtain ⟨y, h1, h2, h3⟩ := h.vols j hj
          have hdn := h.down hi' j hj
          rw [h2.mounted] at hdn
          have hab := init_sim h1 hdn fc.transDefault
          replace hn : (if j < fc.n then coreInit fc.transDefault (s.vols j) else s.vols j).hist = new ++ (s.vols j).hist := hn
          replace hee : e ∈ (if j < fc.n then coreInit fc.transDefault (s.vols j) else s.vols j).epoch :: new := hee
          rw [if_pos hj] at hn hee
          have : new = [] := by
            have := congrArg List.length hn
            rw [show (coreInit fc.transDefault (s.vols j)).hist = (s.vols j).hist from rfl, List.length_append] at this
            exact List.length_eq_zero_iff.1 (by omega)
          subst this
          rw [List.mem_singleton] at hee
          subst hee
          obtain ⟨y1, g1, g2, g3⟩ := hab.idle (hc.conf j hj).ok D (image_crash hD) w hw
          refine ⟨y1, ⟨false, 0, Spec.empty, (a.vol j).disk⟩, g1, rep_down g2 ?_, rfl, Or.inl rfl⟩
          rw [List.mem_singleton.1 g3]; exact h2.disk
    · have hun : k = .uninit := by
        cases k <;> simp only [Spec.vol?, reduceCtorEq] at hv
        · exact absurd rfl hini
        · rfl
      subst hun
      by_cases hi : s.inited = true
      · have hany : (List.range fc.n).any (fun i => (s.vols i).mounted) = true ↔ ∃ j, j < fc.n ∧ (a.vol j).mounted = true := by
          rw [List.any_eq_true]
          constructor
          · rintro ⟨j, h1, h2⟩
            have hj := List.mem_range.1 h1
            obtain ⟨y, g1, g2, _⟩ := h.vols j hj
            exact ⟨j, hj, by rw [g2.mounted, g1.mounted_iff]; exact h2⟩
          · rintro ⟨j, hj, h2⟩
            obtain ⟨y, g1, g2, _⟩ := h.vols j hj
            exact ⟨j, List.mem_range.2 hj, by rw [g2.mounted, g1.mounted_iff] at h2; exact h2⟩
        by_cases hm : (List.range fc.n).any (fun i => (s.vols i).mounted) = true
        · have hs : fexec fc .uninit s = (.error .ebusy, s) := by
            refine ret_run (r := .error .ebusy) ?_
            unfold fseUninit; rw [run_bind, run_get]; dsimp only; rw [if_pos hi, if_pos hm]; rfl
          rw [hs] at he; obtain ⟨rfl, rfl⟩ := Prod.mk.inj he
          refine ⟨a, [], ?_, h, fun j hj new e D w => survives_same hc h hj rfl⟩
          simp only [Spec.Does, Spec.vol?, h.inited, hi, Bool.true_eq_false, if_false, if_pos (hany.1 hm), and_self]
        · have hs : fexec fc .uninit s = (.ok .unit, { s with inited := false }) := by
            refine ret_run (r := .ok ()) ?_
            unfold fseUninit; rw [run_bind, run_get]; dsimp only; rw [if_pos hi, if_neg hm]; rfl
          rw [hs] at he; obtain ⟨rfl, rfl⟩ := Prod.mk.inj he
          have hne : ¬ ∃ j, j < fc.n ∧ (a.vol j).mounted = true := fun h' => hm (hany.2 h')
          refine ⟨{ a with inited := false }, [], ?_, ⟨rfl, fun _ j hj => ?_, fun j hj => ?_⟩, fun j hj new e D w => survives_same hc h hj rfl⟩
          · simp only [Spec.Does, Spec.vol?, h.inited, hi, Bool.true_eq_false, if_false, if_neg hne, and_self]
          · cases hx : (a.vol j).mounted
            · rfl
            · exact absurd ⟨j, hj, hx⟩ hne
          · obtain ⟨y, g1, g2, _⟩ := h.vols j hj
            exact ⟨y, g1, g2, fun h' => (by cases h')⟩
      · have hs : fexec fc .uninit s = (.ok .unit, s) := by
          refine ret_run (r := .ok ()) ?_
          unfold fseUninit; rw [run_bind, run_get]; dsimp only; rw [if_neg hi]; rfl
        rw [hs] at he; obtain ⟨rfl, rfl⟩ := Prod.mk.inj he
        refine ⟨a, [], ?_, h, fun j hj new e D w => survives_same hc h hj rfl⟩
        have hi' : s.inited = false := by simpa using hi
        simp only [Spec.Does, Spec.vol?, h.inited, hi', if_true, and_self]
  | some i =>
    by_cases hbad : s.inited = false ∨ fc.n ≤ i ∨ Spec.tooLong k = true
    · rw [fexec_bad hv hbad] at he
      obtain ⟨rfl, rfl⟩ := Prod.mk.inj he
      have hf : forget k (.error .einval) s = s := by cases k <;> rfl
      rw [hf]
      refine ⟨a, [], ?_, h, fun j hj new e D w => survives_same hc h hj rfl⟩
      simp only [Spec.Does, hv, h.inited, if_pos hbad, and_self]
    · have hi : s.inited = true := by simpa using fun h' => hbad (Or.inl h')
      have hn : i < fc.n := by by_contra h'; exact hbad (Or.inr (Or.inl (by omega)))
      have hl : Spec.tooLong k = false := by simpa using fun h' => hbad (Or.inr (Or.inr h'))
      have hbad' : ¬ (a.inited = false ∨ fc.n ≤ i ∨ Spec.tooLong k = true) := by rw [h.inited]; exact hbad
      have hpx := hc.fse i hn
      obtain ⟨y, h1, h2, h3⟩ := h.vols i hn
      replace h3 := h3 hi
      have other : ∀ {k : FCall} {v : Vol} {tr : List (Option Contents)} {j : Nat}, j ≠ i → j < fc.n → ∀ {new : List Epoch} {e : Epoch} {D : Nat → Blk} {w : Vol},
          ((setVol s i v).vols j).hist = new ++ (s.vols j).hist → e ∈ ((setVol s i v).vols j).epoch :: new → Image (fc.conf j) k e D → Boot w D →
          Survives fc a k tr j w := by
        intro k v tr j hji hj new e D w
        exact survives_same hc h hj (show (if j = i then v else s.vols j) = _ from if_neg hji)
      cases hk : core? k with
      | some k' =>
        have hnf : ∀ i, k ≠ .format i := by rintro i rfl; cases hk
        rw [fexec_core hv hk hi hn hl hpx] at he
        obtain ⟨rfl, rfl⟩ := Prod.mk.inj he
        obtain ⟨r0, v', y', tr0, e0, d0, a0, new0, hn0, hrec⟩ := exec_sim (hc.conf i hn) h1 (core_ok hk)
        rw [e0] at *
        obtain ⟨x', ftr, g1, g2, g3, g4⟩ := does_rep hpx hk h2 h3 d0
        rw [forget_of hnf]
        refine ⟨putVol a i x', ftr, ?_, h.put hi a0 g1 g2, fun j hj new e D w hh hee hD hw => ?_⟩
        · simp only [Spec.Does, hv, if_neg hbad']
          refine ⟨h.inited.trans hi, fun j hj => if_neg hj, ?_⟩
          show Spec.VolDoes _ k _ _ (if i = i then x' else a.vol i) ftr
          rw [if_pos rfl]; exact g4
        · by_cases hji : j = i
          · subst hji
            have hsv : (setVol s j v').vols j = v' := if_pos rfl
            rw [hsv] at hh hee
            have hnn : new = new0 := by rw [hn0] at hh; exact (List.append_cancel_right hh).symm
            subst hnn
            -- the states committed
            have key : ∀ y1, Abs (fc.conf j) w y1 → y1.mounted = false → y1.disk ∈ y.disk :: tr0.map some → Survives fc a k ftr j w := by
              intro y1 q1 q2 q3
              rw [g3, h2.disk] at q3
              rcases List.mem_cons.1 q3 with q3 | q3
              · exact ⟨y1, ⟨false, 0, Spec.empty, (a.vol j).disk⟩, q1, rep_down q2 q3, rfl, Or.inl rfl⟩
              · obtain ⟨o, ho, ho'⟩ := List.mem_map.1 q3
                exact ⟨y1, ⟨false, 0, Spec.empty, o⟩, q1, rep_down q2 ho'.symm, rfl, Or.inr ⟨hv, ho⟩⟩
            rcases List.mem_cons.1 hee with rfl | hin
            · obtain ⟨y1, q1, q2, q3⟩ := a0.idle (hc.conf j hj).ok D (image_crash hD) w hw
              refine key y1 q1 q2 ?_
              rw [List.mem_singleton.1 q3]; exact d0.last
            · obtain ⟨y1, q1, q2, q3⟩ := hrec e hin D (image_crash hD) w hw
              exact key y1 q1 q2 q3
          · exact other hji hj hh hee hD hw
      | none =>
        have hkf : k = .format i := by
          cases k <;> simp only [core?, reduceCtorEq] at hk <;> simp only [Spec.vol?, Option.some.injEq, reduceCtorEq] at hv
          subst hv; rfl
        subst hkf
        rw [fexec_format hi hn] at he
        obtain ⟨rfl, rfl⟩ := Prod.mk.inj he
        have hmi := h1.mounted_iff
        by_cases hm : (s.vols i).mounted = true
        · have hf : volFormat (fc.conf i) (s.vols i) = (.error .ebusy, s.vols i) := by unfold volFormat; simp only [run_bind, run_get, hm]; rfl
          rw [hf]
          refine ⟨putVol a i (a.vol i), [], ?_, h.put hi h1 h2 h3, fun j hj new e D w hh hee hD hw => ?_⟩
          · simp only [Spec.Does, Spec.vol?, if_neg hbad']
            refine ⟨h.inited.trans hi, fun j hj => if_neg hj, ?_⟩
            show Spec.VolDoes _ _ _ _ (if i = i then a.vol i else a.vol i) []
            rw [if_pos rfl]
            simp only [Spec.VolDoes]
            rw [if_pos (by rw [h2.mounted, hmi]; exact hm)]
            exact ⟨by trivial, by trivial, by trivial⟩
          · refine survives_same hc h hj ?_ hh hee hD hw
            show (if j = i then s.vols i else s.vols j) = s.vols j
            split
            · next e => rw [e]
            · rfl
        · have hm' : y.mounted = false := by rw [hmi]; simpa using hm
          have haf : (s.vols i).almostFree = 0 := by
            rcases hp i rfl hn with hp | hp
            · exact hp
            · exact absurd hp hm
          obtain ⟨v', e0, a0, hcr⟩ := format_sim (hc.conf i hn) h1 hm' haf
          rw [e0]
          have hrp : Rep (fc.conf i) { y with disk := some (formatted (fc.conf i)) } { a.vol i with disk := some Spec.empty } :=
            ⟨h2.mounted, fun h' => (by rw [show _ = y.mounted from rfl, hm'] at h'; cases h'), fun h' => (by rw [show _ = y.mounted from rfl, hm'] at h'; cases h'),
              by rw [formatted_fse hpx]; rfl⟩
          refine ⟨putVol a i { a.vol i with disk := some Spec.empty }, [none, some Spec.empty], ?_, ?_, fun j hj new e D w hh hee hD hw => ?_⟩
          · simp only [Spec.Does, Spec.vol?, if_neg hbad']
            refine ⟨h.inited.trans hi, fun j hj => if_neg hj, ?_⟩
            show Spec.VolDoes _ _ _ _ (if i = i then { a.vol i with disk := some Spec.empty } else a.vol i) _
            rw [if_pos rfl]
            simp only [Spec.VolDoes]
            rw [if_neg (by rw [h2.mounted, hm']; simp)]
            exact ⟨by trivial, by trivial, by trivial⟩
          · have := h.put hi (i := i) a0 hrp h3
            have hfo : forget (.format i) (Except.map (fun _ => FReply.unit) (.ok ())) (setVol s i v') = setVol s i { v' with hist := [] } := by
              exact forget_setVol
            rw [hfo]; exact this
          · by_cases hji : j = i
            · subst hji
              have hsv : (setVol s j v').vols j = v' := if_pos rfl
              rw [hsv] at hh hee
              have key : ∀ y1, Abs (fc.conf j) w y1 → y1.mounted = false → (y1.disk = y.disk ∨ y1.disk = none ∨ y1.disk = some (formatted (fc.conf j))) →
                  Survives fc a (.format j) [none, some Spec.empty] j w := by
                intro y1 q1 q2 q3
                rcases q3 with q3 | q3 | q3
                · exact ⟨y1, ⟨false, 0, Spec.empty, (a.vol j).disk⟩, q1, rep_down q2 (q3.trans h2.disk), rfl, Or.inl rfl⟩
                · exact ⟨y1, ⟨false, 0, Spec.empty, none⟩, q1, rep_down q2 q3, rfl, Or.inr ⟨rfl, by simp⟩⟩
                · exact ⟨y1, ⟨false, 0, Spec.empty, some Spec.empty⟩, q1, rep_down q2 (by rw [q3, formatted_fse hpx]; rfl), rfl, Or.inr ⟨rfl, by simp⟩⟩
              rcases List.mem_cons.1 hee with rfl | hin
              · obtain ⟨y1, q1, q2, q3⟩ := a0.idle (hc.conf j hj).ok D (image_crash hD) w hw
                exact key y1 q1 q2 (Or.inr (Or.inr (List.mem_singleton.1 q3)))
              · obtain ⟨y1, q1, q2, q3⟩ := hcr new hh e hin D hD w hw
                exact key y1 q1 q2 q3
            · exact other hji hj hh hee hD hw

theorem choose_lt {α : Type} {n : Nat} {P : Nat → α → Prop} (d : α) (h : ∀ j, j < n → ∃ x, P j x) : ∃ g : Nat → α, ∀ j, j < n → P j (g j) := by
  classical
  refine ⟨fun j => if hj : j < n then (h j hj).choose else d, fun j hj => ?_⟩
  show P j (if hj : j < n then (h j hj).choose else d)
  rw [dif_pos hj]
  exact (h j hj).choose_spec

/-- The histories of the model are those of the specification. -/
theorem FRun.refines (hc : fc.Ok) {s0 s : FSt} {a0 : FSys} {t : List FEv} (h0 : FAbs fc s0 a0) (h : FRun fc s0 t s) : ∃ a, FSRun fc a0 t a ∧ FAbs fc s a := by
  induction h with
  | nil => exact ⟨a0, .nil, h0⟩
  | call hr hp he ih =>
    obtain ⟨a, h1, h2⟩ := ih
    obtain ⟨a', tr, d, h3, _⟩ := fexec_sim hc h2 hp he
    exact ⟨a', .call h1 d, h3⟩
  | @crash t s s' w k r hr hp he hw hx ih =>
    obtain ⟨a, h1, h2⟩ := ih
    obtain ⟨a', tr, d, _, h3⟩ := fexec_sim hc h2 hp he
    have hs : ∀ j, j < fc.n → Survives fc a k tr j (w.vols j) := by
      intro j hj
      obtain ⟨new, e, D, q1, q2, q3, q4⟩ := hx j hj
      exact h3 j hj new e D _ q1 q2 q3 q4
    have hch : ∃ g : Nat → FVol, ∀ j, j < fc.n → ∃ y, Abs (fc.conf j) (w.vols j) y ∧ Rep (fc.conf j) y (g j) ∧ (g j).mounted = false ∧
        ((g j).disk = (a.vol j).disk ∨ (Spec.vol? k = some j ∧ (g j).disk ∈ tr)) := by
      refine choose_lt (n := fc.n) (P := fun j x => ∃ y, Abs (fc.conf j) (w.vols j) y ∧ Rep (fc.conf j) y x ∧ x.mounted = false ∧
        (x.disk = (a.vol j).disk ∨ (Spec.vol? k = some j ∧ x.disk ∈ tr))) (d := a.vol 0) fun j hj => ?_
      obtain ⟨y, x, q⟩ := hs j hj
      exact ⟨x, y, q⟩
    obtain ⟨g, hg⟩ := hch
    refine ⟨⟨false, g⟩, .crash h1 ⟨rfl, fun j hj => ?_, r, a', tr, d, fun j hj => ?_⟩, ⟨hw.symm, fun _ j hj => ?_, fun j hj => ?_⟩⟩
    · obtain ⟨y, _, _, q, _⟩ := hg j hj; exact q
    · obtain ⟨y, _, _, _, q⟩ := hg j hj; exact q
    · obtain ⟨y, _, _, q, _⟩ := hg j hj; exact q
    · obtain ⟨y, q1, q2, _⟩ := hg j hj; exact ⟨y, q1, q2, fun h' => (by rw [hw] at h'; cases h')⟩
  | @idleCrash t s w hr hw hx ih =>
    obtain ⟨a, h1, h2⟩ := ih
    have hs : ∀ j, j < fc.n → ∃ y, Abs (fc.conf j) (w.vols j) y ∧ y.mounted = false ∧ y.disk = (a.vol j).disk.map (filesOf (fc.conf j)) := by
      intro j hj
      obtain ⟨D, hD, hb⟩ := hx j hj
      obtain ⟨y, g1, g2, _⟩ := h2.vols j hj
      obtain ⟨y1, q1, q2, q3⟩ := g1.idle (hc.conf j hj).ok D hD _ hb
      exact ⟨y1, q1, q2, (List.mem_singleton.1 q3).trans g2.disk⟩
    refine ⟨⟨false, fun j => ⟨false, 0, Spec.empty, (a.vol j).disk⟩⟩, .idleCrash h1 rfl fun j hj => ⟨rfl, rfl⟩, ⟨hw.symm, fun _ j hj => rfl, fun j hj => ?_⟩⟩
    obtain ⟨y, q1, q2, q3⟩ := hs j hj
    exact ⟨y, q1, rep_down q2 q3, fun h' => (by rw [hw] at h'; cases h')⟩

theorem FStart.abs {s : FSt} (h : FStart fc s) : FAbs fc s unformatted :=
  ⟨h.inited.symm, fun _ j hj => rfl, fun j hj => ⟨_, (h.blank j hj).abs, rep_down rfl rfl, fun h' => (by rw [h.inited] at h'; cases h')⟩⟩

end RedFs.Fse
