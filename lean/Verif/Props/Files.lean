import Verif.Props.Account
set_option linter.unusedSimpArgs false
set_option linter.unusedVariables false
/-!
The contents of files, over every history of calls (C10-C13, C44).
-/
namespace RedFs.Props.Files
open RedFs RedFs.Props.System RedFs.Props.Account
open M Vol Spec

variable {c : Conf} {v v' w : Vol} {r : Except Err Reply} {k : Call} {ino : Nat}

/-! ### What a history of calls says about the contents of a file -/

/-- A call and its result. -/
abbrev Done := Call × Except Err Reply

/-- The byte that a call puts at offset `off` of file `ino`, if it touches it: a write that covers it, the
truncation of the file in front of it, or the creation of the file. -/
def touches (ino off : Nat) : Done → Option Byte
  | (.write i start _ buf, .ok (.num n)) => if i = ino ∧ start ≤ off ∧ off < start + n then some (buf (off - start)) else none
  | (.truncate i size, .ok _) => if i = ino ∧ size ≤ off then some 0 else none
  | (.create _ _ _, .ok (.num i)) => if i = ino then some 0 else none
  | _ => none

/-- The byte most recently put at that offset, in a history (oldest call first); `b` if there is none. -/
def lastByte (ino off : Nat) (b : Byte) (h : List Done) : Byte := (h.reverse.findSome? (touches ino off)).getD b

/-- The size of the file after a call. -/
def resized (ino : Nat) (sz : Nat) : Done → Nat
  | (.write i start _ _, .ok (.num n)) => if i = ino ∧ 0 < n then max sz (start + n) else sz
  | (.truncate i size, .ok _) => if i = ino then size else sz
  | (.create _ _ _, .ok (.num i)) => if i = ino then 0 else sz
  | _ => sz

/-- The size of the file after a history that began with size `sz`. -/
def lastSize (ino sz : Nat) (h : List Done) : Nat := h.foldl (resized ino) sz

/-- The history of a sequence of calls. -/
def history (c : Conf) (ks : List Call) (v : Vol) : List Done := ks.zip (runCalls c ks v).1

/-- Calls that go on with the same mount and do not return to an earlier state. -/
def Forward (k : Call) : Prop := k ≠ .rollback ∧ k ≠ .unmount

/-! ### One call -/

/-- What a call does to the regular file `ino`, seen from after the call. -/
theorem step_reg (hc : c.SysOk) (h : Reach c v) (hm : v.mounted = true) (hk : k.Ok c) (hf : Forward k) (he : exec c k v = (r, v')) :
    v'.mounted = true ∧ ∀ ino f', IsReg (files c v') ino f' →
      ∃ f, f'.size = resized ino f.size (k, r) ∧ (∀ off, f'.bytes off = (touches ino off (k, r)).getD (f.bytes off)) ∧
        (IsReg (files c v) ino f ∨ (∀ off, touches ino off (k, r) = some 0) ∧ ∀ sz, resized ino sz (k, r) = 0) := by
  obtain ⟨r', v'', s', tr, e', d, a, _⟩ := exec_sim hc (Reach.sysOf hc h hm) hk
  rw [he] at e'; obtain ⟨rfl, rfl⟩ := Prod.mk.inj e'
  have hs' : s'.mounted = true := (d.mounted hf.2 (Or.inl rfl)).trans rfl
  obtain ⟨_, hnow, _⟩ := a.inv hs'
  have hm' : v'.mounted = true := by rw [← a.mounted_iff]; exact hs'
  refine ⟨hm', ?_⟩
  intro ino f' hr'
  have hz : ∀ f : AFile, (∀ off, touches ino off (k, r) = none) → resized ino f.size (k, r) = f.size → f'.size = f.size → f'.bytes = f.bytes → IsReg (files c v) ino f →
      ∃ f, f'.size = resized ino f.size (k, r) ∧ (∀ off, f'.bytes off = (touches ino off (k, r)).getD (f.bytes off)) ∧
        (IsReg (files c v) ino f ∨ (∀ off, touches ino off (k, r) = some 0) ∧ ∀ sz, resized ino sz (k, r) = 0) := by
    intro f h1 h2 h3 h4 h5
    exact ⟨f, by rw [h2, h3], fun off => by rw [h1, h4]; rfl, Or.inl h5⟩
  have same : files c v' = files c v → (∀ off, touches ino off (k, r) = none) → (∀ sz, resized ino sz (k, r) = sz) →
      ∃ f, f'.size = resized ino f.size (k, r) ∧ (∀ off, f'.bytes off = (touches ino off (k, r)).getD (f.bytes off)) ∧
        (IsReg (files c v) ino f ∨ (∀ off, touches ino off (k, r) = some 0) ∧ ∀ sz, resized ino sz (k, r) = 0) :=
    fun h1 h2 h3 => hz f' h2 (h3 _) rfl rfl (by rw [← h1]; exact hr')
  -- a call that only asks
  have ask : ∀ {Q : RedFs.Files → Except Err Reply → Prop}, Ask Q (sysOf c v) r s' tr → files c v' = files c v := by
    intro Q q; rw [← hnow, q.1]; rfl
  -- a call that modifies: on a read-only volume nothing happens
  have mod : ∀ {ev : Event} {α : Type} {g : α → Reply} {R : RedFs.Files → Except Err α → RedFs.Files → Prop}, Modify ev (Via g R) (sysOf c v) r s' tr →
      (files c v' = files c v ∧ ∃ e, r = .error e) ∨ ∃ r0 : Except Err α, r = r0.map g ∧ R (files c v) r0 (files c v') := by
    intro ev α g R q
    cases hro : v.readOnly
    · right; rw [← hnow]; exact modify_rel q hro
    · left
      unfold Modify at q
      rw [if_neg (show ¬ (sysOf c v).mounted = false from fun h => by cases h), if_pos (show (sysOf c v).ro = true from hro)] at q
      exact ⟨by rw [← hnow, q.2.1]; rfl, _, q.1⟩
  have dirNot : ∀ {p : Nat} {F : RedFs.Files}, F = files c v' → DirKept (files c v) F p → p ≠ ino := by
    rintro p F rfl ⟨g, g', _, h2, _⟩ rfl
    have := h2.1
    rw [hr'.1] at this; injection this with this; subst this
    have h3 := hr'.2; rw [h2.2] at h3; cases h3
  have err : ∀ e, r = .error e → (∀ off, touches ino off (k, r) = none) ∧ (∀ sz, resized ino sz (k, r) = sz) := by
    rintro e rfl
    constructor
    · intro off; unfold touches; split <;> first | rfl | (next hh => cases (Prod.mk.inj hh).2)
    · intro sz; unfold resized; split <;> first | rfl | (next hh => cases (Prod.mk.inj hh).2)
  cases k with
  | write i start len buf =>
    rcases mod d with ⟨h1, e, h2⟩ | ⟨r0, h1, h2⟩
    · exact same h1 (err e h2).1 (err e h2).2
    · rcases r0 with e | n
      · exact same h2.1 (err e h1).1 (err e h1).2
      · obtain ⟨f, h3, h4, h5, h6, h7⟩ := h2
        have h1 : r = .ok (.num n) := h1
        subst h1
        by_cases hi : ino = i
        · subst hi
          rw [h7] at hr'
          have := hr'.1; rw [Files.set_same] at this; injection this with this
          subst this
          refine ⟨f, ?_, ?_, Or.inl h3⟩
          · show (f.put start n buf).size = if ino = ino ∧ 0 < n then _ else _
            unfold AFile.put
            by_cases hn : n = 0
            · rw [if_pos hn, if_neg (by omega)]
            · rw [if_neg hn, if_pos ⟨rfl, by omega⟩]; rfl
          · intro off
            show (f.put start n buf).bytes off = (if ino = ino ∧ start ≤ off ∧ off < start + n then some (buf (off - start)) else none).getD _
            unfold AFile.put
            by_cases hn : n = 0
            · rw [if_pos hn, if_neg (by omega)]; rfl
            · rw [if_neg hn]
              by_cases ho : start ≤ off ∧ off < start + n
              · rw [if_pos ⟨rfl, ho⟩]; show (if _ then _ else _) = _; rw [if_pos ho]; rfl
              · rw [if_neg (fun hh => ho hh.2)]; show (if _ then _ else _) = _; rw [if_neg ho]; rfl
        · refine hz f' ?_ ?_ rfl rfl ?_
          · intro off; show (if _ then _ else _) = _; rw [if_neg (fun hh => hi hh.1.symm)]
          · show (if _ then _ else _) = _; rw [if_neg (fun hh => hi hh.1.symm)]
          · rw [h7] at hr'; rw [IsReg, Files.set_other _ _ hi] at hr'; exact hr'
  | truncate i size =>
    rcases mod d with ⟨h1, e, h2⟩ | ⟨r0, h1, h2⟩
    · exact same h1 (err e h2).1 (err e h2).2
    · rcases r0 with e | ⟨⟩
      · exact same h2.1 (err e h1).1 (err e h1).2
      · obtain ⟨f, h3, h4, h7⟩ := h2
        have h1 : r = .ok .unit := h1
        subst h1
        by_cases hi : ino = i
        · subst hi
          rw [h7] at hr'
          have := hr'.1; rw [Files.set_same] at this; injection this with this
          subst this
          refine ⟨f, ?_, ?_, Or.inl h3⟩
          · show size = if ino = ino then size else _
            rw [if_pos rfl]
          · intro off
            show (if off < size then _ else _) = (if ino = ino ∧ size ≤ off then some 0 else none).getD _
            by_cases ho : off < size
            · rw [if_pos ho, if_neg (by omega)]; rfl
            · rw [if_neg ho, if_pos ⟨rfl, by omega⟩]; rfl
        · refine hz f' ?_ ?_ rfl rfl ?_
          · intro off; show (if _ then _ else _) = _; rw [if_neg (fun hh => hi hh.1.symm)]
          · show (if _ then _ else _) = _; rw [if_neg (fun hh => hi hh.symm)]
          · rw [h7] at hr'; rw [IsReg, Files.set_other _ _ hi] at hr'; exact hr'
  | create p name isDir =>
    rcases mod d with ⟨h1, e, h2⟩ | ⟨r0, h1, h2⟩
    · exact same h1 (err e h2).1 (err e h2).2
    · rcases r0 with e | i
      · exact same h2.1 (err e h1).1 (err e h1).2
      · obtain ⟨_, _, _, h3, _, h4, h5, h6, _⟩ := h2
        have h1 : r = .ok (.num i) := h1
        subst h1
        have hp := dirNot rfl h5
        by_cases hi : ino = i
        · subst hi
          have hff := hr'.1
          rw [h4] at hff; injection hff with hff
          subst hff
          have ht : ∀ off, touches ino off (.create p name isDir, .ok (.num ino)) = some 0 := by
            intro off; show (if ino = ino then _ else _) = _; rw [if_pos rfl]
          refine ⟨AFile.new modeReg 0, ?_, ?_, Or.inr ⟨ht, fun sz => by show (if ino = ino then 0 else _) = 0; rw [if_pos rfl]⟩⟩
          · show 0 = if ino = ino then 0 else _; rw [if_pos rfl]
          · intro off; rw [ht]; rfl
        · refine hz f' ?_ ?_ rfl rfl ?_
          · intro off; show (if _ then _ else _) = _; rw [if_neg (fun hh => hi hh.symm)]
          · show (if _ then _ else _) = _; rw [if_neg (fun hh => hi hh.symm)]
          · rw [IsReg, h6 ino hi (Ne.symm hp)] at hr'; exact hr'
  | link p name i =>
    rcases mod d with ⟨h1, e, h2⟩ | ⟨r0, h1, h2⟩
    · exact same h1 (err e h2).1 (err e h2).2
    · rcases r0 with e | ⟨⟩
      · exact same h2.1 (err e h1).1 (err e h1).2
      · obtain ⟨_, _, f, h3, _, h4, h5, h6, _⟩ := h2
        have h1 : r = .ok .unit := h1
        subst h1
        have hp := dirNot rfl h5
        by_cases hi : ino = i
        · subst hi
          have hff := hr'.1
          rw [h4] at hff; injection hff with hff
          subst hff
          exact hz f (fun _ => rfl) rfl rfl rfl h3
        · refine hz f' (fun _ => rfl) rfl rfl rfl ?_
          rw [IsReg, h6 ino hi (Ne.symm hp)] at hr'; exact hr'
  | unlink p name =>
    rcases mod d with ⟨h1, e, h2⟩ | ⟨r0, h1, h2⟩
    · exact same h1 (err e h2).1 (err e h2).2
    · rcases r0 with e | ⟨⟩
      · exact same h2.1 (err e h1).1 (err e h1).2
      · obtain ⟨i, f, _, h3, _, h4, h5, h6, _⟩ := h2
        have h1 : r = .ok .unit := h1
        subst h1
        have hp := dirNot rfl h5
        by_cases hi : ino = i
        · subst hi
          have hff := hr'.1
          rw [h4] at hff
          unfold unlinked at hff
          split at hff
          · injection hff with hff
            subst hff
            exact hz f (fun _ => rfl) rfl rfl rfl ⟨h3, hr'.2⟩
          · cases hff
        · refine hz f' (fun _ => rfl) rfl rfl rfl ?_
          rw [IsReg, h6 ino hi (Ne.symm hp)] at hr'; exact hr'
  | rename p name p' name' =>
    rcases mod d with ⟨h1, e, h2⟩ | ⟨r0, h1, h2⟩
    · exact same h1 (err e h2).1 (err e h2).2
    · rcases r0 with e | ⟨⟩
      · exact same h2.1 (err e h1).1 (err e h1).2
      · have h1 : r = .ok .unit := h1
        subst h1
        rcases h2 with ⟨h2, _⟩ | ⟨i, f, _, h3, _, _, _, h4, _, h5, h5', _, h6⟩
        · exact same h2 (fun _ => rfl) (fun _ => rfl)
        · have hp := dirNot rfl h5
          have hp' := dirNot rfl h5'
          by_cases hi : ino = i
          · subst hi
            have hff := hr'.1
            rw [h4] at hff; injection hff with hff
            subst hff
            exact hz f (fun _ => rfl) rfl rfl rfl ⟨h3, hr'.2⟩
          · rcases h6 with ⟨_, h6⟩ | ⟨j, g, _, _, h7, _, _, _, _, _, h8, h6⟩
            · refine hz f' (fun _ => rfl) rfl rfl rfl ?_
              rw [IsReg, h6 ino hi (Ne.symm hp) (Ne.symm hp')] at hr'; exact hr'
            · by_cases hj : ino = j
              · subst hj
                have hff := hr'.1
                rw [h8] at hff
                unfold unlinked at hff
                split at hff
                · injection hff with hff
                  subst hff
                  exact hz g (fun _ => rfl) rfl rfl rfl ⟨h7, hr'.2⟩
                · cases hff
              · refine hz f' (fun _ => rfl) rfl rfl rfl ?_
                rw [IsReg, h6 ino hi hj (Ne.symm hp) (Ne.symm hp')] at hr'; exact hr'
  | rollback => exact absurd rfl hf.1
  | unmount => exact absurd rfl hf.2
  | maskSet mask =>
    refine same ?_ (fun _ => rfl) (fun _ => rfl)
    have d := d.2
    split at d
    · rw [← hnow, d.2]; rfl
    · split at d <;> (rw [← hnow, d.2]; rfl)
  | transact =>
    refine same ?_ (fun _ => rfl) (fun _ => rfl)
    simp only [Spec.Does] at d
    rw [if_neg (show ¬ (sysOf c v).mounted = false from fun h => by cases h)] at d
    split at d
    · rw [← hnow, d.2.1]; rfl
    · rw [← hnow, d.2.2]; rfl
  | mount ro =>
    refine same ?_ (fun _ => rfl) (fun _ => rfl)
    have d := d.2
    rw [if_pos (show (sysOf c v).mounted = true from rfl)] at d
    rw [← hnow, d.1]; rfl
  | maskGet => exact same (by rw [← hnow, d.1]; rfl) (fun _ => rfl) (fun _ => rfl)
  | statfs => exact same (by rw [← hnow, d.1]; rfl) (fun _ => rfl) (fun _ => rfl)
  | _ => exact same (by rw [← hnow, d.1]; rfl) (fun _ => rfl) (fun _ => rfl)


/-! ### Histories -/

theorem runCalls_append (c : Conf) (ks ks' : List Call) : ∀ v : Vol, runCalls c (ks ++ ks') v =
    ((runCalls c ks v).1 ++ (runCalls c ks' (runCalls c ks v).2).1, (runCalls c ks' (runCalls c ks v).2).2) := by
  induction ks with
  | nil => intro v; rfl
  | cons k ks ih => intro v; simp only [List.cons_append, runCalls, ih]

theorem runCalls_length (c : Conf) (ks : List Call) : ∀ v : Vol, (runCalls c ks v).1.length = ks.length := by
  induction ks with
  | nil => intro v; rfl
  | cons k ks ih => intro v; simp only [runCalls, List.length_cons, ih]

theorem history_append (c : Conf) (ks ks' : List Call) (v : Vol) :
    history c (ks ++ ks') v = history c ks v ++ history c ks' (runCalls c ks v).2 := by
  unfold history
  rw [runCalls_append, List.zip_append]
  rw [runCalls_length]

theorem lastByte_append (ino off : Nat) (b : Byte) (h h' : List Done) :
    lastByte ino off b (h ++ h') = lastByte ino off (lastByte ino off b h) h' := by
  unfold lastByte
  rw [List.reverse_append, List.findSome?_append]
  cases h'.reverse.findSome? (touches ino off) <;> rfl

/-- The byte at an offset of a file of a table, and its size; zero if there is no such file. -/
def byteAt (F : RedFs.Files) (ino off : Nat) : Byte := match F ino with | some f => f.bytes off | none => 0
def sizeAt (F : RedFs.Files) (ino : Nat) : Nat := match F ino with | some f => f.size | none => 0

/-- **C10** After any sequence of calls on a mounted volume - successful or not, in any order, by any number
of users of the API - every regular file has the size and the bytes which the history of the calls says: at each
offset the byte most recently written there, or zero if the file has been created or truncated in front
of that offset since. -/
theorem C10_contents (hc : c.SysOk) {ks : List Call} (hk : ∀ k ∈ ks, k.Ok c ∧ Forward k) (h : Reach c v) (hm : v.mounted = true) :
    (runCalls c ks v).2.mounted = true ∧ ∀ ino f, IsReg (files c (runCalls c ks v).2) ino f →
      f.size = lastSize ino (sizeAt (files c v) ino) (history c ks v) ∧
      ∀ off, f.bytes off = lastByte ino off (byteAt (files c v) ino off) (history c ks v) := by
  rw [← List.reverse_reverse ks] at hk ⊢
  generalize ks.reverse = rs at hk ⊢
  induction rs with
  | nil =>
    refine ⟨hm, fun ino f hf => ?_⟩
    have hf' : files c v ino = some f := hf.1
    unfold sizeAt byteAt
    rw [hf']
    exact ⟨rfl, fun off => rfl⟩
  | cons k rs ih =>
    rw [List.reverse_cons] at hk ⊢
    obtain ⟨hm1, ih⟩ := ih (fun k' hk' => hk k' (List.mem_append_left _ hk'))
    have hr1 := h.calls (fun k' hk' => (hk k' (List.mem_append_left _ hk')).1)
    obtain ⟨hk1, hk2⟩ := hk k (List.mem_append_right _ (List.mem_singleton.2 rfl))
    rw [history_append, runCalls_append]
    generalize history c rs.reverse v = hst at ih ⊢
    generalize (runCalls c rs.reverse v).2 = v1 at hm1 ih hr1 ⊢
    obtain ⟨hm2, h3⟩ := step_reg hc hr1 hm1 hk1 hk2 (exec_eta c k v1)
    refine ⟨hm2, fun ino f' hf' => ?_⟩
    obtain ⟨f, h4, h5, h6⟩ := h3 ino f' hf'
    have e1 : history c [k] v1 = [(k, (exec c k v1).1)] := rfl
    rw [e1]
    constructor
    · show f'.size = List.foldl _ _ _
      rw [List.foldl_append]
      show f'.size = resized ino (lastSize ino _ hst) _
      rw [h4]
      rcases h6 with h6 | ⟨_, h6⟩
      · rw [(ih ino f h6).1]
      · rw [h6, h6]
    · intro off
      rw [lastByte_append, h5]
      have e2 : ∀ b d, lastByte ino off b [d] = (touches ino off d).getD b := by
        intro b d
        unfold lastByte
        show (List.findSome? _ [d]).getD b = _
        rw [List.findSome?_singleton]
      rw [e2]
      rcases h6 with h6 | ⟨h6, _⟩
      · rw [(ih ino f h6).2 off]
      · rw [h6]; rfl

/-- A read on a mounted volume: it changes nothing. -/
theorem read_rel (hc : c.SysOk) (h : Reach c v) (hm : v.mounted = true) {start len : Nat} (he : exec c (.read ino start len) v = (r, v')) :
    ViaQ .bytes (Read ino start len) (files c v) r ∧ files c v' = files c v := by
  obtain ⟨r', v'', s', tr, e', d, a, _⟩ := exec_sim hc (Reach.sysOf hc h hm) (k := .read ino start len) trivial
  rw [he] at e'; obtain ⟨rfl, rfl⟩ := Prod.mk.inj e'
  obtain ⟨_, hnow, _⟩ := a.inv ((d.mounted (fun hh => by cases hh) (Or.inl rfl)).trans rfl)
  refine ⟨?_, by rw [← hnow, d.1]; rfl⟩
  have := d.2.2
  rw [if_neg (show ¬ (sysOf c v).mounted = false from fun h => by cases h)] at this
  exact this

/-- **C10** Reading the file `ino` after the calls `ks` gives exactly the requested number of bytes, clipped
at end of file, and each of them is the byte most recently put at its offset. -/
theorem C10_read (hc : c.SysOk) {ks : List Call} (hk : ∀ k ∈ ks, k.Ok c ∧ Forward k) (h : Reach c v) (hm : v.mounted = true)
    {f : AFile} (hf : IsReg (files c (runCalls c ks v).2) ino f) (start len : Nat) :
    ∃ bs, (exec c (.read ino start len) (runCalls c ks v).2).1 = .ok (.bytes bs) ∧
      bs.length = min len (lastSize ino (sizeAt (files c v) ino) (history c ks v) - start) ∧
      ∀ j (hj : j < bs.length), bs[j] = lastByte ino (start + j) (byteAt (files c v) ino (start + j)) (history c ks v) := by
  obtain ⟨hm1, h1⟩ := C10_contents hc hk h hm
  obtain ⟨h2, h3⟩ := h1 ino f hf
  obtain ⟨⟨r0, h4, h5⟩, _⟩ := read_rel hc (h.calls fun k' hk' => (hk k' hk').1) hm1 (exec_eta c (.read ino start len) _)
  rcases r0 with e | bs
  · exfalso
    rcases h5 with ⟨_, h5⟩ | ⟨_, g, h5⟩
    · rw [hf.1] at h5; cases h5
    · have := h5.1; rw [hf.1] at this; injection this with this; subst this
      have := h5.2; rw [hf.2] at this; cases this
  · obtain ⟨g, h5, h6⟩ := h5
    have := h5.1; rw [hf.1] at this; injection this with this; subst this
    refine ⟨bs, h4, ?_, ?_⟩
    · rw [h6, ← h2]; unfold AFile.read; rw [List.length_map, List.length_range]
    · subst h6
      intro j hj
      rw [← h3]
      simp only [AFile.read, List.getElem_map, List.getElem_range]

/-- What a file that exists can be read as: the end of C10 for a file which some call has just made. -/
theorem C10_stat_size (hc : c.SysOk) (h : Reach c v) (hm : v.mounted = true) {f : AFile} (hf : files c v ino = some f) :
    ∃ st, (exec c (.stat ino) v).1 = .ok (.stat st) ∧ st.size = f.size ∧ st.mode = f.mode ∧ st.nlink = f.nlink ∧ st.ino = ino := by
  obtain ⟨r', v'', s', tr, e', d, a, _⟩ := exec_sim hc (Reach.sysOf hc h hm) (k := .stat ino) trivial
  rw [e']
  have d := d.2.2
  rw [if_neg (show ¬ (sysOf c v).mounted = false from fun h => by cases h)] at d
  obtain ⟨r0, h4, h5⟩ := d
  rcases r0 with e | st
  · have h5 := h5.2; rw [show (sysOf c v).now ino = files c v ino from rfl, hf] at h5; cases h5
  · obtain ⟨g, h5, h6, h7, h8, h9⟩ := h5
    rw [show (sysOf c v).now ino = files c v ino from rfl, hf] at h5; injection h5 with h5; subst h5
    exact ⟨st, h4, h9, h7, h8, h6⟩

/-! ### C11, C13: one write -/

/-- A modifying call of the kind of write and truncate. -/
theorem data_rel (hc : c.SysOk) (h : Reach c v) (hm : v.mounted = true) (hro : v.readOnly = false) {start len : Nat} {buf : Nat → Byte}
    (he : exec c (.write ino start len buf) v = (r, v')) :
    Via .num (Write c ino start len buf) (files c v) r (files c v') := by
  obtain ⟨r', v'', s', tr, e', d, a, _⟩ := exec_sim hc (Reach.sysOf hc h hm) (k := .write ino start len buf) trivial
  rw [he] at e'; obtain ⟨rfl, rfl⟩ := Prod.mk.inj e'
  obtain ⟨_, h2, _⟩ := a.inv ((d.mounted (fun hh => by cases hh) (Or.inl rfl)).trans rfl)
  rw [← h2]; exact modify_rel d hro
theorem trunc_rel (hc : c.SysOk) (h : Reach c v) (hm : v.mounted = true) (hro : v.readOnly = false) {size : Nat}
    (he : exec c (.truncate ino size) v = (r, v')) :
    Via (fun _ => .unit) (Truncate c ino size) (files c v) r (files c v') := by
  obtain ⟨r', v'', s', tr, e', d, a, _⟩ := exec_sim hc (Reach.sysOf hc h hm) (k := .truncate ino size) trivial
  rw [he] at e'; obtain ⟨rfl, rfl⟩ := Prod.mk.inj e'
  obtain ⟨_, h2, _⟩ := a.inv ((d.mounted (fun hh => by cases hh) (Or.inl rfl)).trans rfl)
  rw [← h2]; exact modify_rel d hro

/-- **C11** A write or truncate of a file, whatever its result, leaves every other file and directory as it
was: contents, size and attributes; and of the file itself the type, the link count and the parent. -/
theorem C11_other_files (hc : c.SysOk) (h : Reach c v) (hm : v.mounted = true) (hro : v.readOnly = false)
    (hk : (∃ start len buf, k = .write ino start len buf) ∨ ∃ size, k = .truncate ino size) (he : exec c k v = (r, v')) :
    (∀ j, j ≠ ino → files c v' j = files c v j) ∧
    ((files c v' ino).map fun f => (f.mode, f.nlink, f.parent)) = (files c v ino).map fun f => (f.mode, f.nlink, f.parent) := by
  rcases hk with ⟨start, len, buf, rfl⟩ | ⟨size, rfl⟩
  · obtain ⟨r0, _, h2⟩ := data_rel hc h hm hro he
    rcases r0 with e | n
    · rw [h2.1]; exact ⟨fun _ _ => rfl, rfl⟩
    · obtain ⟨f, h3, _, _, _, h4⟩ := h2
      rw [h4]
      refine ⟨fun j hj => Files.set_other _ _ hj, ?_⟩
      rw [Files.set_same, h3.1]
      unfold AFile.put AFile.write
      split <;> rfl
  · obtain ⟨r0, _, h2⟩ := trunc_rel hc h hm hro he
    rcases r0 with e | ⟨⟩
    · rw [h2.1]; exact ⟨fun _ _ => rfl, rfl⟩
    · obtain ⟨f, h3, _, h4⟩ := h2
      rw [h4]
      refine ⟨fun j hj => Files.set_other _ _ hj, ?_⟩
      rw [Files.set_same, h3.1]
      rfl

/-- **C13** A write reports the number `n` of bytes written.  Exactly the first `n` bytes of the buffer are in
the file, every other byte is as it was, and the size is what it takes; at least one byte is written,
unless none was to be written. -/
theorem C13_prefix (hc : c.SysOk) (h : Reach c v) (hm : v.mounted = true) (hro : v.readOnly = false) {start len n : Nat} {buf : Nat → Byte}
    (he : exec c (.write ino start len buf) v = (.ok (.num n), v')) :
    n ≤ len ∧ (0 < len → 0 < n) ∧ ∃ f f', IsReg (files c v) ino f ∧ IsReg (files c v') ino f' ∧
      (∀ j, j < n → f'.bytes (start + j) = buf j) ∧ (∀ off, off < start ∨ start + n ≤ off → f'.bytes off = f.bytes off) ∧
      f'.size = if n = 0 then f.size else max f.size (start + n) := by
  obtain ⟨r0, h1, h2⟩ := data_rel hc h hm hro he
  rcases r0 with e | m
  · cases h1
  · have : n = m := by injection h1 with h1; injection h1
    subst this
    obtain ⟨f, h3, h4, h5, _, h6⟩ := h2
    refine ⟨h4, h5, f, f.put start n buf, h3, ⟨by rw [h6, Files.set_same], ?_⟩, ?_, ?_, ?_⟩
    · unfold AFile.put AFile.write; split <;> exact h3.2
    · intro j hj
      unfold AFile.put AFile.write
      rw [if_neg (by omega)]
      show (if _ then _ else _) = _
      rw [if_pos (by omega)]; congr 1; omega
    · intro off ho
      unfold AFile.put AFile.write
      split
      · rfl
      · show (if _ then _ else _) = _
        rw [if_neg (by omega)]
    · unfold AFile.put AFile.write
      split <;> rfl

/-- **C13** A write that fails changes no file. -/
theorem C13_failed_write (hc : c.SysOk) (h : Reach c v) (hm : v.mounted = true) (hro : v.readOnly = false) {start len : Nat} {buf : Nat → Byte} {e : Err}
    (he : exec c (.write ino start len buf) v = (.error e, v')) : files c v' = files c v := by
  obtain ⟨r0, h1, h2⟩ := data_rel hc h hm hro he
  rcases r0 with e | m
  · exact h2.1
  · cases h1

/-! ### C12 -/

/-- Does the call write to that offset of the file? -/
def Writes (ino off : Nat) : Done → Prop
  | (.write i start _ _, .ok (.num n)) => i = ino ∧ start ≤ off ∧ off < start + n
  | _ => False

theorem touches_zero {off : Nat} {d : Done} (h : ¬ Writes ino off d) : touches ino off d = none ∨ touches ino off d = some 0 := by
  unfold touches
  split
  · next => left; exact if_neg h
  · next => split; exact Or.inr rfl; exact Or.inl rfl
  · next => split; exact Or.inr rfl; exact Or.inl rfl
  · exact Or.inl rfl

theorem lastByte_zero {off : Nat} {hst : List Done} (h : ∀ d ∈ hst, ¬ Writes ino off d) : lastByte ino off 0 hst = 0 := by
  unfold lastByte
  rcases he : hst.reverse.findSome? (touches ino off) with _ | b
  · rfl
  · obtain ⟨d, h1, h2⟩ := List.exists_of_findSome?_eq_some he
    rcases touches_zero (h d (List.mem_reverse.1 h1)) with h3 | h3 <;> rw [h3] at h2
    · cases h2
    · injection h2 with h2; rw [← h2]; rfl

/-- **C12** After a file has been truncated to `size`, every offset from `size` on reads as zero until it is
written again - whatever else is done, whether the file is extended by truncate or by a write behind it. -/
theorem C12_after_truncate (hc : c.SysOk) {ks : List Call} {size off : Nat} (hk : ∀ k ∈ ks, k.Ok c ∧ Forward k) (h : Reach c v) (hm : v.mounted = true)
    (he : exec c (.truncate ino size) v = (.ok .unit, v')) (ho : size ≤ off) (hw : ∀ d ∈ history c ks v', ¬ Writes ino off d)
    {f : AFile} (hf : IsReg (files c (runCalls c ks v').2) ino f) : f.bytes off = 0 := by
  have hk' : ∀ k ∈ Call.truncate ino size :: ks, k.Ok c ∧ Forward k := by
    intro k hk1
    rcases List.mem_cons.1 hk1 with rfl | hk1
    · exact ⟨trivial, fun hh => (by cases hh), fun hh => (by cases hh)⟩
    · exact hk k hk1
  have e1 : runCalls c (.truncate ino size :: ks) v = (.ok .unit :: (runCalls c ks v').1, (runCalls c ks v').2) := by
    show (_, _) = _; rw [he]
  have h1 := (C10_contents hc hk' h hm).2
  rw [e1] at h1
  rw [(h1 ino f hf).2 off]
  have e2 : history c (.truncate ino size :: ks) v = [(.truncate ino size, .ok .unit)] ++ history c ks v' := by
    unfold history; rw [e1]; rfl
  rw [e2, lastByte_append]
  have e3 : ∀ b, lastByte ino off b [(.truncate ino size, .ok .unit)] = 0 := by
    intro b
    unfold lastByte
    show (List.findSome? _ [_]).getD b = _
    rw [List.findSome?_singleton]
    show (if ino = ino ∧ size ≤ off then some (0 : Byte) else none).getD b = 0
    rw [if_pos ⟨rfl, ho⟩]; rfl
  rw [e3]
  exact lastByte_zero hw

/-- **C12** The same for what lies behind the end of a file (nothing from a file that used the blocks before is ever seen). -/
theorem C12_behind_end (hc : c.SysOk) {ks : List Call} {off : Nat} (hk : ∀ k ∈ ks, k.Ok c ∧ Forward k) (h : Reach c v) (hm : v.mounted = true)
    (ho : sizeAt (files c v) ino ≤ off) (hw : ∀ d ∈ history c ks v, ¬ Writes ino off d)
    {f : AFile} (hf : IsReg (files c (runCalls c ks v).2) ino f) : f.bytes off = 0 := by
  rw [((C10_contents hc hk h hm).2 ino f hf).2 off]
  have : byteAt (files c v) ino off = 0 := by
    unfold sizeAt at ho
    unfold byteAt
    cases hg : files c v ino with
    | none => rfl
    | some g =>
      rw [hg] at ho
      unfold files fileOf at hg
      rw [Option.map_eq_some_iff] at hg
      obtain ⟨n, _, rfl⟩ := hg
      show (if _ then _ else _) = _
      rw [if_neg (Nat.not_lt.2 ho)]
  rw [this]
  exact lastByte_zero hw


/-! ### C44 -/

/-- **C44** No file of a reachable volume is larger than the maximum. -/
theorem C44_size_le (hc : c.SysOk) (h : Reach c v) (hm : v.mounted = true) {f : AFile} (hf : files c v ino = some f) : f.size ≤ c.sizeMax := by
  unfold files fileOf at hf
  rw [Option.map_eq_some_iff] at hf
  obtain ⟨n, h1, rfl⟩ := hf
  exact ((Reach.up hc h hm).wf.fs.node ino n h1).2.1

theorem not_notReg {F : RedFs.Files} {f : AFile} {e : Err} (hf : IsReg F ino f) : ¬ NotReg F ino e := by
  rintro (⟨_, h⟩ | ⟨_, g, h⟩)
  · rw [hf.1] at h; cases h
  · have := h.1; rw [hf.1] at this; injection this with this; subst this
    have := h.2; rw [hf.2] at this; cases this

/-- **C44** A write that starts at the maximum or beyond it fails with EFBIG. -/
theorem C44_write_efbig (hc : c.SysOk) (h : Reach c v) (hm : v.mounted = true) (hro : v.readOnly = false) {start len : Nat} {buf : Nat → Byte} {f : AFile}
    (hf : IsReg (files c v) ino f) (hs : c.sizeMax ≤ start) (hl : 0 < len) (he : exec c (.write ino start len buf) v = (r, v')) :
    r = .error .efbig ∧ files c v' = files c v := by
  obtain ⟨r0, h1, h2⟩ := data_rel hc h hm hro he
  rcases r0 with e | m
  · obtain ⟨h2, h3 | ⟨g, _, h3⟩⟩ := h2
    · exact absurd h3 (not_notReg hf)
    · rw [if_pos (by omega)] at h3
      rw [h1, h3]; exact ⟨rfl, h2⟩
  · obtain ⟨g, _, _, h3, h4, _⟩ := h2
    have := h3 hl
    omega

/-- **C44** A write that crosses the maximum is clipped there; no write that starts below it fails with EFBIG. -/
theorem C44_write_clipped (hc : c.SysOk) (h : Reach c v) (hm : v.mounted = true) (hro : v.readOnly = false) {start len : Nat} {buf : Nat → Byte}
    (hs : start < c.sizeMax) (he : exec c (.write ino start len buf) v = (r, v')) :
    r ≠ .error .efbig ∧ ∀ n, r = .ok (.num n) → start + n ≤ c.sizeMax := by
  obtain ⟨r0, h1, h2⟩ := data_rel hc h hm hro he
  subst h1
  rcases r0 with e | m
  · refine ⟨fun hh => ?_, fun n hh => by cases hh⟩
    injection hh with hh
    subst hh
    obtain ⟨h2, (⟨h3, _⟩ | ⟨h3, _⟩) | ⟨g, _, h3⟩⟩ := h2
    · cases h3
    · cases h3
    · rw [if_neg (by omega)] at h3; cases h3.1
  · refine ⟨fun hh => (by cases hh), fun n hh => ?_⟩
    injection hh with hh; injection hh with hh; subst hh
    obtain ⟨_, _, _, _, h4, _⟩ := h2
    exact h4

/-- **C44** Truncating to more than the maximum fails with EFBIG, and only that. -/
theorem C44_truncate_efbig (hc : c.SysOk) (h : Reach c v) (hm : v.mounted = true) (hro : v.readOnly = false) {size : Nat} {f : AFile}
    (hf : IsReg (files c v) ino f) (he : exec c (.truncate ino size) v = (r, v')) :
    r = .error .efbig ↔ c.sizeMax < size := by
  obtain ⟨r0, h1, h2⟩ := trunc_rel hc h hm hro he
  subst h1
  rcases r0 with e | m
  · obtain ⟨h2, h3 | ⟨g, _, h3⟩⟩ := h2
    · exact absurd h3 (not_notReg hf)
    · constructor
      · intro hh
        injection hh with hh; subst hh
        split at h3
        · assumption
        · cases h3
      · intro hh
        rw [if_pos hh] at h3; rw [h3]; rfl
  · obtain ⟨_, _, h3, _⟩ := h2
    exact ⟨fun hh => (by cases hh), fun hh => by omega⟩

/-- **C44** Every offset below the maximum has a position in the tree of blocks, at the level of data
blocks; and offsets in different blocks have different positions. -/
theorem C44_addressable (hc : c.SysOk) {off : Nat} (ho : off < c.sizeMax) :
    PosOk c (posOf c (off / c.blockSize)) ∧ (posOf c (off / c.blockSize)).lvl c = 0 := by
  have := posOf_ok hc.ok (b := off / c.blockSize) (div_lt_data hc.ok ho)
  exact ⟨this.1, this.2.1⟩
theorem C44_distinct (hc : c.SysOk) {off off' : Nat} (ho : off < c.sizeMax) (ho' : off' < c.sizeMax)
    (h : posOf c (off / c.blockSize) = posOf c (off' / c.blockSize)) : off / c.blockSize = off' / c.blockSize :=
  posOf_inj hc.ok (div_lt_data hc.ok ho) (div_lt_data hc.ok ho') h


/-! ### The hypotheses can be met -/

/-- The mounted volume after the mount, and the calls after it. -/
def startVol : Vol := (exec demoConf (.mount false) (freshVol demoConf)).2
theorem start_reach : Reach demoConf startVol := (fresh_reach _).call (k := .mount false) trivial (exec_eta ..)
theorem start_mounted : startVol.mounted = true := by decide +kernel

/-- File 4 is made, written, shrunk, extended by a write behind its end, and written once more. -/
def fileCalls : List Call :=
  [.create 2 nmD true, .create 2 nmA false, .write 4 100 200 (fun k => BitVec.ofNat 8 k), .truncate 4 120, .write 4 300 10 (fun _ => 7),
   .write 4 305 3 (fun _ => 9)]
theorem fileCalls_ok : ∀ k ∈ fileCalls, k.Ok demoConf ∧ Forward k := by
  intro k hk
  simp only [fileCalls, List.mem_cons, List.mem_nil_iff, or_false] at hk
  rcases hk with rfl | rfl | rfl | rfl | rfl | rfl <;>
    exact ⟨(by trivial), fun h => (by cases h), fun h => (by cases h)⟩
def fileVol : Vol := (runCalls demoConf fileCalls startVol).2
theorem file_reach : Reach demoConf fileVol := start_reach.calls fun k hk => (fileCalls_ok k hk).1
theorem file_mounted : fileVol.mounted = true := by decide +kernel

theorem isReg_of {F : RedFs.Files} {i : Nat} (h : (match F i with | some f => decide (f.mode = modeReg) | none => false) = true) : ∃ f, IsReg F i f := by
  cases hf : F i with
  | none => rw [hf] at h; cases h
  | some f => rw [hf] at h; exact ⟨f, hf, of_decide_eq_true h⟩

theorem file_reg : ∃ f, IsReg (files demoConf fileVol) 4 f := isReg_of (by decide +kernel)

/-- After them the file has 310 bytes; what was cut off at 120 is zero, and the last bytes are the last ones written. -/
example : ∃ f, IsReg (files demoConf fileVol) 4 f ∧ f.size = 310 ∧ f.bytes 119 = 19 ∧ f.bytes 120 = 0 ∧ f.bytes 200 = 0 ∧ f.bytes 304 = 7 ∧ f.bytes 306 = 9 := by
  obtain ⟨f, hf⟩ := file_reg
  obtain ⟨h1, h2⟩ := (C10_contents demo_sys fileCalls_ok start_reach start_mounted).2 4 f hf
  refine ⟨f, hf, ?_, ?_, ?_, ?_, ?_, ?_⟩
  · rw [h1]; decide +kernel
  all_goals rw [h2]; decide +kernel
example : ∃ bs, (exec demoConf (.read 4 300 50) fileVol).1 = .ok (.bytes bs) ∧ bs.length = 10 := by
  obtain ⟨f, hf⟩ := file_reg
  obtain ⟨bs, h1, h2, _⟩ := C10_read demo_sys fileCalls_ok start_reach start_mounted hf 300 50
  exact ⟨bs, h1, by rw [h2]; decide +kernel⟩
example : ∃ st, (exec demoConf (.stat 4) fileVol).1 = .ok (.stat st) ∧ st.nlink = 1 := by
  obtain ⟨f, hf⟩ := file_reg
  obtain ⟨st, h1, _, _, h2, _⟩ := C10_stat_size demo_sys file_reach file_mounted hf.1
  refine ⟨st, h1, ?_⟩
  have : (match files demoConf fileVol 4 with | some f => f.nlink | none => 0) = 1 := by decide +kernel
  rw [h2]; rw [hf.1] at this; exact this

theorem file_rw : fileVol.readOnly = false := by decide +kernel

/-- C11, C13: a write in the middle of the demo file, next to a directory. -/
example : (∀ j, j ≠ 4 → files demoConf (exec demoConf (.write 4 0 20 (fun _ => 1)) fileVol).2 j = files demoConf fileVol j) :=
  (C11_other_files demo_sys file_reach file_mounted file_rw (Or.inl ⟨0, 20, _, rfl⟩) (exec_eta ..)).1
example : files demoConf fileVol 3 ≠ none := by
  have : (files demoConf fileVol 3).isSome = true := by decide +kernel
  intro h; rw [h] at this; cases this
example : ∃ n v', exec demoConf (.write 4 0 20 (fun _ => 1)) fileVol = (.ok (.num n), v') ∧ n = 20 := by
  have h : (match (exec demoConf (.write 4 0 20 (fun _ => 1)) fileVol).1 with | .ok (.num n) => decide (n = 20) | _ => false) = true := by decide +kernel
  generalize exec demoConf (.write 4 0 20 (fun _ => 1)) fileVol = x at h
  rcases x with ⟨e | a, y⟩
  · cases h
  · cases a <;> first | cases h | exact ⟨_, y, rfl, of_decide_eq_true h⟩

/-- C12: the file is truncated and extended again. -/
def cutVol : Vol := (exec demoConf (.truncate 4 90) fileVol).2
theorem cut_run : exec demoConf (.truncate 4 90) fileVol = (.ok .unit, cutVol) := by
  have h : (match exec demoConf (.truncate 4 90) fileVol with | (.ok .unit, _) => true | _ => false) = true := by decide +kernel
  unfold cutVol
  generalize exec demoConf (.truncate 4 90) fileVol = x at h ⊢
  rcases x with ⟨e | a, y⟩
  · cases h
  · cases a <;> first | rfl | cases h
def growCalls : List Call := [.truncate 4 200, .write 4 500 1 (fun _ => 1)]
example : ∃ f, IsReg (files demoConf (runCalls demoConf growCalls cutVol).2) 4 f ∧ f.bytes 110 = 0 := by
  obtain ⟨f, hf⟩ : ∃ f, IsReg (files demoConf (runCalls demoConf growCalls cutVol).2) 4 f := isReg_of (by decide +kernel)
  refine ⟨f, hf, C12_after_truncate demo_sys ?_ file_reach file_mounted cut_run (size := 90) (by decide) ?_ hf⟩
  · intro k hk
    simp only [growCalls, List.mem_cons, List.mem_nil_iff, or_false] at hk
    rcases hk with rfl | rfl <;> exact ⟨trivial, fun h => (by cases h), fun h => (by cases h)⟩
  · intro d hd
    unfold history growCalls at hd
    obtain ⟨k, r⟩ := d
    have hk := (List.of_mem_zip hd).1
    have hk' : k = .truncate 4 200 ∨ k = .write 4 500 1 (fun _ => 1) := by simpa using hk
    rcases hk' with rfl | rfl
    · exact id
    · intro hw
      unfold Writes at hw
      split at hw
      · next e =>
        injection e with e1 e2
        injection e1 with e1 e3
        omega
      · exact hw

/-- C44: the size limit of the demo configuration; a write at the limit. -/
example : (exec demoConf (.write 4 demoConf.sizeMax 1 (fun _ => 1)) fileVol).1 = .error .efbig := by
  obtain ⟨f, hf⟩ := file_reg
  exact (C44_write_efbig demo_sys file_reach file_mounted file_rw hf (Nat.le_refl _) (by decide) (exec_eta ..)).1
example : (exec demoConf (.truncate 4 (demoConf.sizeMax + 1)) fileVol).1 = .error .efbig := by
  obtain ⟨f, hf⟩ := file_reg
  exact (C44_truncate_efbig demo_sys file_reach file_mounted file_rw hf (exec_eta ..)).2 (by omega)

end RedFs.Props.Files
