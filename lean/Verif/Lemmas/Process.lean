import Verif.Model.Process
import Verif.Lemmas.Postcard
import Verif.Lemmas.Session
/-! Helper lemmas about process creation. -/
namespace Iris

/-! ### Numbers -/

theorem dec_isDigit (n : Nat) : (dec n).all Char.isDigit = true := by
  rw [List.all_eq_true]
  intro c hc
  exact Nat.isDigit_of_mem_toDigits (by omega) (by omega) hc

theorem dec_ne_nil (n : Nat) : dec n ≠ [] := Nat.toDigits_ne_nil

theorem parseDigits_dec (n : Nat) : parseDigits (dec n) = some n := by
  simp only [parseDigits, dec_ne_nil, if_false, dec_isDigit, if_true]
  exact congrArg some Nat.ofDigitChars_ten_toDigits

theorem dec_head (n : Nat) : ∃ c r, dec n = c :: r ∧ c ≠ '+' ∧ c ≠ '-' := by
  cases h : dec n with
  | nil => exact absurd h (dec_ne_nil n)
  | cons c r =>
    have := dec_isDigit n
    rw [h] at this
    simp only [List.all_cons, Bool.and_eq_true] at this
    refine ⟨c, r, rfl, ?_, ?_⟩ <;> (rintro rfl; exact absurd this.1 (by decide))

theorem parseU64_dec (n : Nat) (h : n < 2 ^ 64) : parseU64 (dec n) = some (BitVec.ofNat 64 n) := by
  obtain ⟨c, r, hd, h1, _⟩ := dec_head n
  have : dropPlus (dec n) = dec n := by
    rw [hd]
    unfold dropPlus
    split
    · rename_i heq
      simp only [List.cons.injEq] at heq
      exact absurd heq.1 h1
    · rfl
  simp only [parseU64, this, parseDigits_dec, Option.bind_some, h, if_true]

theorem parseI32_dec (n : Nat) :
    parseI32 (dec n) = if n < 2 ^ 31 then some (n : Int) else none := by
  obtain ⟨c, r, hd, h1, h2⟩ := dec_head n
  unfold parseI32
  rw [hd]
  split
  · rename_i heq
    simp only [List.cons.injEq] at heq
    exact absurd heq.1 h2
  · rename_i heq
    simp only [List.cons.injEq] at heq
    exact absurd heq.1 h1
  · rw [← hd, parseDigits_dec]
    rfl

/-! ### Environment -/

theorem utf8_append (a b : Str) : utf8 (a ++ b) = utf8 a ++ utf8 b := by simp [utf8]

theorem utf8_eqSign (b : Str) : utf8 ('=' :: b) = eqSign :: utf8 b := by
  rw [show ('=' :: b) = ['='] ++ b from rfl, utf8_append]
  rfl

/-- The channel variable's name as bytes. -/
def ipcName : Bytes := utf8 IPC_HANDLE_ENV_NAME

theorem eq_not_mem_ipcName : eqSign ∉ ipcName := by decide

theorem ipcHandleVar_eq (fd : Nat) : ipcHandleVar fd = ipcName ++ eqSign :: utf8 (dec fd) := by
  simp only [ipcHandleVar, utf8_append, utf8_eqSign, ipcName]

theorem nameFromEnv_append (n v : Bytes) (h : eqSign ∉ n) : nameFromEnv (n ++ eqSign :: v) = n := by
  induction n with
  | nil => simp [nameFromEnv]
  | cons b n ih =>
    simp only [List.mem_cons, not_or] at h
    simp only [List.cons_append, nameFromEnv, if_neg (Ne.symm h.1), ih h.2]

theorem nameFromEnv_ipc (fd : Nat) : nameFromEnv (ipcHandleVar fd) = ipcName := by
  rw [ipcHandleVar_eq, nameFromEnv_append _ _ eq_not_mem_ipcName]

theorem valueOf_append (n v : Bytes) : valueOf n (n ++ eqSign :: v) = some v := by
  induction n with
  | nil => simp [valueOf]
  | cons b n ih => simp [valueOf, ih]

theorem valueOf_some {n e v : Bytes} (h : valueOf n e = some v) : e = n ++ eqSign :: v := by
  induction n generalizing e with
  | nil =>
    cases e with
    | nil => simp [valueOf] at h
    | cons b e =>
      simp only [valueOf] at h
      split at h
      · rename_i hb; cases h; simp [hb]
      · cases h
  | cons a n ih =>
    cases e with
    | nil => simp [valueOf] at h
    | cons b e =>
      simp only [valueOf] at h
      split at h
      · rename_i hb; subst hb; simp [ih h]
      · cases h

theorem getenv_append {n : Bytes} (l : List Bytes) (v : Bytes)
    (h : ∀ e ∈ l, valueOf n e = none) : getenv n (l ++ [v]) = valueOf n v := by
  induction l with
  | nil =>
    simp only [List.nil_append, getenv]
    cases valueOf n v <;> rfl
  | cons e l ih =>
    simp only [List.cons_append, getenv, h e List.mem_cons_self]
    exact ih fun x hx => h x (List.mem_cons_of_mem _ hx)

/-- What the worker reads back from an environment ending in the channel variable. -/
theorem readIpcHandle_append (l : List Bytes) (fd : Nat) (hfd : fd < 2 ^ 31)
    (h : ∀ e ∈ l, nameFromEnv e ≠ ipcName) :
    readIpcHandle (l ++ [ipcHandleVar fd]) = some ⟨some (BitVec.ofNat 32 fd)⟩ := by
  have hg : getenv (utf8 IPC_HANDLE_ENV_NAME) (l ++ [ipcHandleVar fd]) = some (utf8 (dec fd)) := by
    rw [getenv_append]
    · rw [ipcHandleVar_eq]; exact valueOf_append _ _
    · intro e he
      cases hv : valueOf (utf8 IPC_HANDLE_ENV_NAME) e with
      | none => rfl
      | some v =>
        refine absurd ?_ (h e he)
        rw [valueOf_some hv]
        exact nameFromEnv_append _ _ eq_not_mem_ipcName
  have h64 : fd < 2 ^ 64 := by omega
  simp only [readIpcHandle, hg, Option.bind_some, fromUtf8_utf8, parseU64_dec fd h64]
  have hn : (BitVec.ofNat 64 fd).toNat = fd := by
    rw [BitVec.toNat_ofNat]; omega
  have hw : BitVec.setWidth 32 (BitVec.ofNat 64 fd) = BitVec.ofNat 32 fd := by
    apply BitVec.eq_of_toNat_eq; simp
  have hp : (0 : Int) ≤ (BitVec.ofNat 32 fd).toInt := by
    rw [BitVec.toInt_eq_toNat_cond]
    have : (BitVec.ofNat 32 fd).toNat = fd := by rw [BitVec.toNat_ofNat]; omega
    rw [this, if_pos (by omega)]
    omega
  have hr : Handle.fromRaw (BitVec.ofNat 64 fd) = .ok ⟨some (BitVec.ofNat 32 fd)⟩ := by
    simp only [Handle.fromRaw, hn, hw]
    rw [if_pos (by omega), if_pos hp]
  rw [hr]
  rfl

/-! ### Descriptor tables -/

theorem FdTable.WF.erase {t : FdTable} (h : t.WF) (n : Nat) : (t.erase n).WF :=
  (List.filter_sublist.map _).nodup h

theorem FdTable.WF.filter {t : FdTable} (h : t.WF) (f : Nat × FdEntry → Bool) :
    FdTable.WF (List.filter f t) := (List.filter_sublist.map _).nodup h

theorem FdTable.erase_fds (t : FdTable) (n : Nat) : n ∉ (t.erase n).fds := by
  intro h
  have := (FdTable.get_erase t n n)
  rw [if_pos rfl] at this
  exact FdTable.get_none_iff.1 this h

theorem FdTable.WF.cons {t : FdTable} (h : t.WF) {n : Nat} {e : FdEntry} (hn : n ∉ t.fds) :
    FdTable.WF ((n, e) :: t) := by
  simp only [FdTable.WF, FdTable.fds, List.map_cons, List.nodup_cons]
  exact ⟨hn, h⟩

theorem FdTable.WF.alloc {t : FdTable} (h : t.WF) (e : FdEntry) : (t.alloc e).2.WF :=
  h.cons t.lowestFree_fresh

theorem FdTable.WF.set {t : FdTable} (h : t.WF) (n : Nat) (e : FdEntry) : (t.set n e).WF :=
  (h.erase n).cons (t.erase_fds n)

theorem FdTable.get_mem {t : FdTable} {n : Nat} {e : FdEntry} (h : t.get n = some e) : (n, e) ∈ t := by
  induction t with
  | nil => simp [FdTable.get] at h
  | cons x t ih =>
    obtain ⟨m, f⟩ := x
    simp only [FdTable.get] at h
    split at h
    · rename_i hm; cases h; simp [hm]
    · exact List.mem_cons_of_mem _ (ih h)

theorem FdTable.WF.get_of_mem {t : FdTable} (hw : t.WF) {n : Nat} {e : FdEntry} (h : (n, e) ∈ t) :
    t.get n = some e := by
  induction t with
  | nil => cases h
  | cons x t ih =>
    obtain ⟨m, f⟩ := x
    simp only [FdTable.WF, FdTable.fds, List.map_cons, List.nodup_cons] at hw
    simp only [FdTable.get]
    rcases List.mem_cons.1 h with h | h
    · cases h; simp
    · have hm : m ≠ n := by
        rintro rfl
        exact hw.1 (List.mem_map_of_mem (f := Prod.fst) h)
      rw [if_neg hm]
      exact ih hw.2 h

theorem FdTable.WF.get_filter {t : FdTable} (hw : t.WF) (f : Nat × FdEntry → Bool) (n : Nat) :
    FdTable.get (List.filter f t) n = (t.get n).filter fun e => f (n, e) := by
  cases h : FdTable.get (List.filter f t) n with
  | some e =>
    have hm := List.mem_filter.1 (FdTable.get_mem h)
    rw [hw.get_of_mem hm.1, Option.filter_some, if_pos hm.2]
  | none =>
    cases ht : t.get n with
    | none => rfl
    | some e =>
      cases hf : f (n, e) with
      | false => rw [Option.filter_some, hf]; rfl
      | true =>
        have := (hw.filter f).get_of_mem (List.mem_filter.2 ⟨FdTable.get_mem ht, hf⟩)
        rw [h] at this; cases this

theorem FdTable.lowestFree_eq {t : FdTable} {n : Nat} (h : t.get n = none)
    (hb : ∀ m, m < n → t.get m ≠ none) : t.lowestFree = n := by
  obtain ⟨h1, h2⟩ := t.lowestFree_spec
  rcases Nat.lt_trichotomy t.lowestFree n with hl | hl | hl
  · exact absurd h1 (hb _ hl)
  · exact hl
  · exact absurd h (h2 _ hl)

theorem FdTable.lowestFree_gt {t : FdTable} {k : Nat} (h : ∀ m, m ≤ k → t.get m ≠ none) :
    k < t.lowestFree := by
  apply Classical.byContradiction
  intro hc
  exact h _ (by omega) t.lowestFree_spec.1

/-! ### The entry point -/

theorem writeFile_eq (os : WriteOs) (t : FdTable) : writeFile os t = t := by
  unfold writeFile
  cases os.open with
  | error _ => rfl
  | ok file => exact FdTable.erase_alloc t _

theorem prepare_eq (os : EntryOs) (p : EntryParams) (t : FdTable) (caps : Caps) :
    prepare os p t caps = if os.noNewPrivs = false then none
      else some ⟨t, dropCapabilities os.caps caps, true, isolate os, []⟩ := by
  simp only [prepare, writeFile_eq, ite_self]

/-- The descriptors the cleanup keeps. -/
def Kept (p : EntryParams) (n : Nat) : Prop :=
  p.allowed ≠ [] ∧ (n ≤ 2 ∨ n ∈ p.allowed ∨ n = p.errnoPipe)

instance (p : EntryParams) (n : Nat) : Decidable (Kept p n) := by unfold Kept; infer_instance

theorem keeps_iff (p : EntryParams) (f n : Nat) (h : n ≠ f) :
    keeps p f (n : Int) = true ↔ Kept p n := by
  have h' : ((n : Int) == (f : Int)) = false := by simp; omega
  simp only [keeps, List.any_eq_true, Bool.or_eq_true, decide_eq_true_eq, beq_iff_eq, Kept]
  constructor
  · rintro ⟨a, ha, hh⟩
    refine ⟨List.ne_nil_of_mem ha, ?_⟩
    rcases hh with ((hh | hh) | hh) | hh
    · left; omega
    · right; left
      have : n = a := by omega
      exact this ▸ ha
    · omega
    · right; right; omega
  · rintro ⟨hne, hh⟩
    rcases hh with hh | hh | hh
    · obtain ⟨a, ha⟩ := List.exists_mem_of_ne_nil _ hne
      exact ⟨a, ha, by left; left; left; omega⟩
    · exact ⟨n, hh, by left; left; right; rfl⟩
    · obtain ⟨a, ha⟩ := List.exists_mem_of_ne_nil _ hne
      exact ⟨a, ha, by right; omega⟩

theorem closeFds_eq (os : EntryOs) (p : EntryParams) (f : Nat) (l : FdTable) :
    ∀ (fails : Option Nat) (t t' : FdTable),
    closeFds os p f fails (l.map fun x => ⟨dec x.1, true⟩) t = some t' →
    t' = t.filter fun x => !(decide (x.1 ∈ l.fds) && !keeps p f (x.1 : Int)) := by
  induction l with
  | nil =>
    intro fails t t' h
    simp only [List.map_nil, closeFds] at h
    split at h
    · cases h
    · cases h
      exact (List.filter_eq_self.2 fun x _ => by simp [FdTable.fds]).symm
  | cons x l ih =>
    intro fails t t' h
    obtain ⟨n, e⟩ := x
    simp only [List.map_cons, closeFds] at h
    split at h
    · cases h
    · rw [parseI32_dec] at h
      by_cases hn : n < 2 ^ 31
      · rw [if_pos hn] at h
        simp only [Bool.true_eq_false, if_false] at h
        by_cases hk : keeps p f (n : Int) = true
        · rw [if_pos hk] at h
          rw [ih _ _ _ h]
          apply List.filter_congr
          intro y _
          simp only [FdTable.fds, List.map_cons, List.mem_cons]
          by_cases hy : y.1 = n
          · simp [hy, hk]
          · by_cases hm : y.1 ∈ List.map Prod.fst l <;> simp [hy, hm]
        · rw [if_neg hk] at h
          simp only [sysClose, Int.toNat_natCast, Int.natCast_nonneg, if_true] at h
          cases hg : t.get n with
          | none => simp [hg] at h
          | some e' =>
            simp only [hg] at h
            cases hc : os.close n with
            | false => simp [hc] at h
            | true =>
              simp only [hc] at h
              rw [ih _ _ _ h, FdTable.erase, List.filter_filter]
              apply List.filter_congr
              intro y _
              simp only [FdTable.fds, List.map_cons, List.mem_cons]
              by_cases hy : y.1 = n
              · simp [hy, hk]
              · by_cases hm : y.1 ∈ List.map Prod.fst l <;> simp [hy, hm]
      · rw [if_neg hn] at h
        simp at h

theorem cleanupFds_eq {os : EntryOs} {p : EntryParams} {t t' : FdTable}
    (h : cleanupFds os p t = some t') : t' = t.filter fun x => decide (Kept p x.1) := by
  unfold cleanupFds at h
  cases ho : os.openFds with
  | error _ => simp [ho] at h
  | ok file =>
    simp only [ho] at h
    split at h
    · cases h
    · obtain ⟨t1, h1, h2⟩ := Option.map_eq_some_iff.1 h
      have h1' : closeFds os p (t.alloc ⟨file, FD_CLOEXEC⟩).1
          ((os.readdirFails.map (· - 1)).map (· - 1))
          ((t.alloc ⟨file, FD_CLOEXEC⟩).2.map fun x => ⟨dec x.1, true⟩) (t.alloc ⟨file, FD_CLOEXEC⟩).2
          = some t1 := by
        simp only [procSelfFd, closeFds] at h1
        split at h1
        · cases h1
        · simp only [if_true] at h1
          split at h1
          · cases h1
          · exact h1
      have := closeFds_eq os p _ _ _ _ _ h1'
      rw [← h2, this]
      simp only [FdTable.erase, List.filter_filter, FdTable.alloc]
      rw [List.filter_cons_of_neg (by simp)]
      apply List.filter_congr
      intro x hx
      have hne : x.1 ≠ t.lowestFree := by
        intro hc
        exact t.lowestFree_fresh (hc ▸ List.mem_map_of_mem (f := Prod.fst) hx)
      have hin : x.1 ∈ FdTable.fds ((t.lowestFree, ⟨file, FD_CLOEXEC⟩) :: t) := by
        simp only [FdTable.fds, List.map_cons, List.mem_cons]
        exact .inr (List.mem_map_of_mem (f := Prod.fst) hx)
      simp only [hin, decide_true, Bool.true_and, Bool.not_not, ne_eq, hne, not_false_eq_true]
      by_cases hk : Kept p x.1
      · simp [hk, (keeps_iff p _ _ hne).2 hk]
      · have : keeps p t.lowestFree (x.1 : Int) = false := by
          rw [Bool.eq_false_iff]; exact fun hc => hk ((keeps_iff p _ _ hne).1 hc)
        simp [hk, this]

/-- What a standard stream is connected to. -/
def stdSource (os : EntryOs) (num : Nat) (r : Option Nat) (t : FdTable) (file : Nat) : Prop :=
  match r with
  | some fd => ∃ e, (t.erase num).get fd = some e ∧ e.file = file
  | none => os.openNull num = .ok file

theorem setupStd_some {os : EntryOs} {num : Nat} {r : Option Nat} {s s' : EntryState}
    (h : setupStd os num r s = some s') :
    ∃ file, stdSource os num r s.table file ∧
      s' = { s with
        table := (num, ⟨file, 0#32⟩) :: s.table.erase num
        opened := if r = none then (file, c!"/dev/null", O_RDONLY) :: s.opened else s.opened } := by
  unfold setupStd at h
  cases r with
  | some fd =>
    simp only at h
    cases hg : (s.table.erase num).get fd with
    | none => simp [hg] at h
    | some e =>
      simp only [hg] at h
      split at h
      · cases h
      · simp only [FdTable.alloc] at h
        by_cases hn : FdTable.lowestFree (s.table.erase num) = num
        · simp only [hn, ne_eq, not_true_eq_false, if_false, Option.some.injEq] at h
          subst h
          exact ⟨e.file, ⟨e, hg, rfl⟩, by simp [hn]⟩
        · simp [hn] at h
  | none =>
    simp only at h
    cases ho : os.openNull num with
    | error _ => simp [ho] at h
    | ok file =>
      simp only [ho, FdTable.alloc] at h
      by_cases hn : FdTable.lowestFree (s.table.erase num) = num
      · simp only [hn, ne_eq, not_true_eq_false, if_false, Option.some.injEq] at h
        subst h
        exact ⟨file, ho, by simp [hn]⟩
      · simp [hn] at h

/-- The state in which `execve` is called. -/
structure Ready (os : EntryOs) (p : EntryParams) (t : FdTable) (caps : Caps) (s : EntryState)
    (f0 f1 f2 : Nat) : Prop where
  nnp : os.noNewPrivs = true
  src0 : stdSource os 0 p.stdin (t.filter fun x => decide (Kept p x.1)) f0
  src1 : stdSource os 1 p.stdout
    ((0, ⟨f0, 0#32⟩) :: FdTable.erase (t.filter fun x => decide (Kept p x.1)) 0) f1
  src2 : stdSource os 2 p.stderr
    ((1, ⟨f1, 0#32⟩) :: FdTable.erase
      ((0, ⟨f0, 0#32⟩) :: FdTable.erase (t.filter fun x => decide (Kept p x.1)) 0) 1) f2
  table : s.table = (2, ⟨f2, 0#32⟩) :: FdTable.erase ((1, ⟨f1, 0#32⟩) :: FdTable.erase
      ((0, ⟨f0, 0#32⟩) :: FdTable.erase (t.filter fun x => decide (Kept p x.1)) 0) 1) 2
  caps : s.caps = dropCapabilities os.caps caps
  noNewPrivs : s.noNewPrivs = true
  isolation : s.isolation = isolate os
  null0 : p.stdin = none → (f0, c!"/dev/null", O_RDONLY) ∈ s.opened
  null1 : p.stdout = none → (f1, c!"/dev/null", O_RDONLY) ∈ s.opened
  null2 : p.stderr = none → (f2, c!"/dev/null", O_RDONLY) ∈ s.opened
  opened : ∀ x ∈ s.opened, x.2 = (c!"/dev/null", O_RDONLY)

/-- Either the entry point gives up, or it gets to `execve`. -/
theorem cloneEntrypoint_cases (os : EntryOs) (p : EntryParams) (t : FdTable) (caps : Caps) :
    cloneEntrypoint os p t caps = .gaveUp ∨
    ∃ s f0 f1 f2, Ready os p t caps s f0 f1 f2 ∧ cloneEntrypoint os p t caps = execOrReport os p s := by
  unfold cloneEntrypoint
  split
  · exact .inl rfl
  · rename_i s h
    right
    rw [prepare_eq] at h
    by_cases hn : os.noNewPrivs = false
    · rw [if_pos hn] at h; cases h
    · rw [if_neg hn] at h
      simp only [Option.bind_some, Option.bind_eq_some_iff] at h
      obtain ⟨t1, h1, s0, hs0, s1, hs1, hs2⟩ := h
      have ht := cleanupFds_eq h1
      obtain ⟨f0, hf0, rfl⟩ := setupStd_some hs0
      obtain ⟨f1, hf1, rfl⟩ := setupStd_some hs1
      obtain ⟨f2, hf2, rfl⟩ := setupStd_some hs2
      subst ht
      refine ⟨_, f0, f1, f2, ⟨by simpa using hn, hf0, hf1, hf2, rfl, rfl, rfl, rfl, ?_, ?_, ?_, ?_⟩, rfl⟩
      · intro h; simp only [h]; simp only [if_true]; split <;> split <;> simp
      · intro h; simp only [h]; simp only [if_true]; split <;> simp
      · intro h; simp only [h]; simp
      · intro x hx
        simp only at hx
        have hd : ∀ (l : List (Nat × Str × BitVec 32)) (r : Option Nat) (f : Nat),
            (∀ x ∈ l, x.2 = (c!"/dev/null", O_RDONLY)) →
            ∀ x ∈ (if r = none then (f, c!"/dev/null", O_RDONLY) :: l else l),
              x.2 = (c!"/dev/null", O_RDONLY) := by
          intro l r f hl x hx
          split at hx
          · rcases List.mem_cons.1 hx with rfl | hx
            · rfl
            · exact hl x hx
          · exact hl x hx
        exact hd _ _ _ (hd _ _ _ (hd _ _ _ (by simp))) x hx

theorem FdTable.get_cons (m : Nat) (e : FdEntry) (t : FdTable) (n : Nat) :
    FdTable.get ((m, e) :: t) n = if n = m then some e else t.get n := by
  simp only [FdTable.get]
  by_cases h : m = n
  · simp [h]
  · simp [h, Ne.symm h]

theorem kept_get {p : EntryParams} {t : FdTable} (hw : t.WF) (n : Nat) :
    FdTable.get (t.filter fun x => decide (Kept p x.1)) n = if Kept p n then t.get n else none := by
  rw [hw.get_filter]
  by_cases hk : Kept p n
  · cases h : t.get n <;> simp [hk, Option.filter]
  · cases h : t.get n <;> simp [hk, Option.filter]

theorem Ready.wf {os : EntryOs} {p : EntryParams} {t : FdTable} {caps : Caps} {s : EntryState}
    {f0 f1 f2 : Nat} (h : Ready os p t caps s f0 f1 f2) (hw : t.WF) : s.table.WF := by
  rw [h.table]
  exact (((((hw.filter _).erase _).cons (FdTable.erase_fds _ _)).erase _ |>.cons
    (FdTable.erase_fds _ _)).erase _).cons (FdTable.erase_fds _ _)

theorem Ready.get {os : EntryOs} {p : EntryParams} {t : FdTable} {caps : Caps} {s : EntryState}
    {f0 f1 f2 : Nat} (h : Ready os p t caps s f0 f1 f2) (hw : t.WF) (n : Nat) :
    s.table.get n = if n = 0 then some ⟨f0, 0#32⟩ else if n = 1 then some ⟨f1, 0#32⟩
      else if n = 2 then some ⟨f2, 0#32⟩ else if Kept p n then t.get n else none := by
  rw [h.table]
  simp only [FdTable.get_cons, FdTable.get_erase, kept_get hw]
  by_cases h0 : n = 0
  · simp [h0]
  · by_cases h1 : n = 1
    · simp [h1]
    · by_cases h2 : n = 2
      · simp [h2]
      · simp [h0, h1, h2]

theorem closeOnExec_get {t : FdTable} (hw : t.WF) (n : Nat) :
    (closeOnExec t).get n = (t.get n).filter fun e => decide (e.flags &&& FD_CLOEXEC = 0#32) := by
  rw [closeOnExec, hw.get_filter]

end Iris
