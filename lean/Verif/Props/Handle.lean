import Verif.Lemmas.Fd
/-! # C33-C35: handles -/
namespace Iris

/-- C33. A raw value is accepted exactly up to `i32::MAX`; it is what `as_raw` and
`into_raw` return; the error carries the value refused. -/
theorem C33_raw_round_trip (v : BitVec 64) :
    (v.toNat < 2 ^ 31 →
      ∃ h, Handle.fromRaw v = .ok h ∧ h.asRaw = some v ∧ h.intoRaw.1 = some v) ∧
    (2 ^ 31 ≤ v.toNat → Handle.fromRaw v = .error (.invalidHandleValue v)) := by
  constructor
  · intro hv
    have hn : (v.setWidth 32).toNat = v.toNat := by
      rw [BitVec.toNat_setWidth]; omega
    have hi : (v.setWidth 32).toInt = v.toNat := by
      rw [BitVec.toInt_eq_toNat_of_lt (by rw [hn]; omega), hn]
    have hb : (v.setWidth 32).signExtend 64 = v := by
      apply BitVec.eq_of_toInt_eq
      rw [BitVec.toInt_signExtend_of_le (by omega), hi, BitVec.toInt_eq_toNat_of_lt (by omega)]
    refine ⟨⟨some (v.setWidth 32)⟩, ?_, ?_, ?_⟩
    · simp only [Handle.fromRaw]
      rw [if_pos (by omega), if_pos (by rw [hi]; omega)]
    · simp [Handle.asRaw, hb]
    · simp [Handle.intoRaw, hb]
  · intro hv
    simp only [Handle.fromRaw]
    rw [if_neg (by omega)]

example : Handle.fromRaw 7#64 = .ok ⟨some 7#32⟩ ∧
    Handle.fromRaw 0x80000000#64 = .error (.invalidHandleValue 0x80000000#64) ∧
    Handle.fromRaw 0xffffffffffffffff#64 = .error (.invalidHandleValue 0xffffffffffffffff#64) := by
  decide +kernel

/-- C33. After `into_raw` nothing is left to close. -/
theorem C33_into_raw_empties (h : Handle) : h.intoRaw.2.val = none := rfl

/-- C34. After a successful `set_inheritable(b)`, `is_inheritable()` is `b`; the
descriptor refers to the same file; no other flag and no other descriptor
changed. -/
theorem C34_set_inheritable (t t' : FdTable) (fd : Nat) (b : Bool)
    (h : setInheritable t fd b = (.ok (), t')) :
    isInheritable t' fd = .ok b ∧
    (∀ m, m ≠ fd → t'.get m = t.get m) ∧
    ∃ e e', t.get fd = some e ∧ t'.get fd = some e' ∧ e'.file = e.file ∧
      ∀ i, i ≠ 0 → e'.flags.getLsbD i = e.flags.getLsbD i := by
  simp only [setInheritable, sysGetFd, sysSetFd] at h
  cases hg : t.get fd with
  | none => simp [hg] at h
  | some e =>
    simp only [hg, Prod.mk.injEq, true_and] at h
    subst h
    have hc : ∀ x : BitVec 32, (x &&& 1#32 == 0#32) = !x.getLsbD 0 := by
      intro x
      cases hx : x.getLsbD 0
      · simp only [Bool.not_false, beq_iff_eq]
        ext j hj
        cases j with
        | zero => simp [← BitVec.getLsbD_eq_getElem, hx]
        | succ j => simp
      · simp only [Bool.not_true, beq_eq_false_iff_ne, ne_eq]
        intro hz
        have := congrArg (fun v : BitVec 32 => v.getLsbD 0) hz
        rw [BitVec.getLsbD_and, hx] at this
        simp at this
    refine ⟨?_, ?_, e, ⟨e.file, (e.flags &&& ~~~FD_CLOEXEC) ||| (if b then 0#32 else FD_CLOEXEC)⟩, rfl, (by rw [FdTable.get_set, if_pos rfl]), rfl, ?_⟩
    · simp only [isInheritable, sysGetFd, FdTable.get_set, if_true, FD_CLOEXEC, hc]
      cases b <;> simp
    · intro m hm
      rw [FdTable.get_set, if_neg hm]
    · intro i hi
      simp only [BitVec.getLsbD_or, BitVec.getLsbD_and, BitVec.getLsbD_not, FD_CLOEXEC]
      by_cases h32 : i < 32
      · cases b <;> simp [h32, hi]
      · have h1 : ∀ x : BitVec 32, x.getLsbD i = false := fun x => BitVec.getLsbD_of_ge _ _ (by omega)
        simp [h1]

/-- C34. It succeeds exactly on an open descriptor; otherwise nothing changes. -/
theorem C34_set_inheritable_fails (t : FdTable) (fd : Nat) (b : Bool) :
    ((setInheritable t fd b).1 = .ok () ↔ t.get fd ≠ none) ∧
    ((setInheritable t fd b).1 ≠ .ok () → (setInheritable t fd b).2 = t) := by
  simp only [setInheritable, sysGetFd, sysSetFd]
  cases hg : t.get fd <;> simp

example : setInheritable [(3, ⟨9, 5#32⟩), (0, ⟨1, 0#32⟩)] 3 true
    = (.ok (), [(3, ⟨9, 4#32⟩), (0, ⟨1, 0#32⟩)]) := by decide +kernel

/-! ## Ownership -/

/-- The invariant of handle programs. -/
structure HandleInv (t0 : FdTable) (s : HandleState) : Prop where
  noFail : s.closeFailed = false
  names : (s.live.map Prod.fst).Nodup
  owners : (s.live.map Prod.snd).Nodup
  rel : s.released.Nodup
  disj : ∀ n ∈ s.live.map Prod.snd, n ∉ s.released
  fresh : ∀ n, (n ∈ s.live.map Prod.snd ∨ n ∈ s.released) → t0.get n = none
  opens : ∀ n, s.table.get n ≠ none ↔
    t0.get n ≠ none ∨ n ∈ s.live.map Prod.snd ∨ n ∈ s.released
  keeps : ∀ n, t0.get n ≠ none → s.table.get n = t0.get n
  owned : ∀ n, (n ∈ s.live.map Prod.snd ∨ n ∈ s.released) → s.opened.count n = s.closed.count n + 1
  gone : ∀ n, n ∉ s.live.map Prod.snd → n ∉ s.released → s.opened.count n = s.closed.count n

theorem ownedBy_none {l : List (Nat × Nat)} {h : Nat} : ownedBy l h = none ↔ h ∉ l.map Prod.fst := by
  induction l with
  | nil => simp [ownedBy]
  | cons x l ih =>
    obtain ⟨n, fd⟩ := x
    simp only [ownedBy, List.map_cons, List.mem_cons, not_or]
    by_cases hn : n = h
    · subst hn; simp
    · rw [if_neg hn, ih]
      exact ⟨fun hh => ⟨Ne.symm hn, hh⟩, fun hh => hh.2⟩

/-- Removing a handle variable removes exactly its descriptor from the owned ones. -/
theorem live_remove {l : List (Nat × Nat)} {h fd : Nat} (ho : ownedBy l h = some fd)
    (hn : (l.map Prod.fst).Nodup) (hs : (l.map Prod.snd).Nodup) :
    ((l.filter fun x => x.1 ≠ h).map Prod.fst).Nodup ∧
    ((l.filter fun x => x.1 ≠ h).map Prod.snd).Nodup ∧
    fd ∈ l.map Prod.snd ∧
    ∀ n, n ∈ (l.filter fun x => x.1 ≠ h).map Prod.snd ↔ n ∈ l.map Prod.snd ∧ n ≠ fd := by
  refine ⟨List.Nodup.sublist (List.filter_sublist.map _) hn,
    List.Nodup.sublist (List.filter_sublist.map _) hs, ?_⟩
  induction l with
  | nil => simp [ownedBy] at ho
  | cons x l ih =>
    obtain ⟨k, f⟩ := x
    simp only [List.map_cons, List.nodup_cons] at hn hs
    simp only [ownedBy] at ho
    by_cases hk : k = h
    · subst hk
      simp only [if_true, Option.some.injEq] at ho
      subst ho
      have hfil : l.filter (fun x => x.1 ≠ k) = l := by
        simp only [List.filter_eq_self, ne_eq, decide_not, Bool.not_eq_eq_eq_not, Bool.not_true,
          decide_eq_false_iff_not]
        rintro y hy rfl
        exact hn.1 (List.mem_map_of_mem hy)
      refine ⟨by simp, ?_⟩
      intro n
      rw [List.filter_cons]
      simp only [ne_eq, not_true_eq_false, decide_false, Bool.false_eq_true, if_false]
      rw [show (List.filter (fun x => decide ¬ x.1 = k) l) = l from hfil]
      simp only [List.map_cons, List.mem_cons]
      constructor
      · intro hmem
        exact ⟨.inr hmem, fun hc => hs.1 (hc ▸ hmem)⟩
      · rintro ⟨rfl | hmem, hne⟩
        · exact absurd rfl hne
        · exact hmem
    · rw [if_neg hk] at ho
      obtain ⟨h1, h2⟩ := ih ho hn.2 hs.2
      refine ⟨by simp [h1], ?_⟩
      intro n
      rw [List.filter_cons]
      simp only [ne_eq, hk, not_false_eq_true, decide_true, if_true, List.map_cons, List.mem_cons]
      rw [h2]
      have hne : f ≠ fd := by
        rintro rfl; exact hs.1 h1
      constructor
      · rintro (rfl | ⟨h3, h4⟩)
        · exact ⟨.inl rfl, hne⟩
        · exact ⟨.inr h3, h4⟩
      · rintro ⟨rfl | h3, h4⟩
        · exact .inl rfl
        · exact .inr ⟨h3, h4⟩

theorem HandleInv.addNew {t0 : FdTable} {s : HandleState} (hi : HandleInv t0 s) (h : Nat)
    (e : FdEntry) (hf : ownedBy s.live h = none) :
    HandleInv t0 { s with table := (s.table.alloc e).2, live := (h, s.table.lowestFree) :: s.live,
                          opened := s.table.lowestFree :: s.opened } := by
  have hfree := s.table.lowestFree_spec.1
  have hno : ¬ (t0.get s.table.lowestFree ≠ none ∨
      s.table.lowestFree ∈ s.live.map Prod.snd ∨ s.table.lowestFree ∈ s.released) := by
    rw [← hi.opens]; simp [hfree]
  simp only [not_or] at hno
  obtain ⟨n1, n2, n3⟩ := hno
  have n1 : t0.get s.table.lowestFree = none := by
    cases h : t0.get s.table.lowestFree with
    | none => rfl
    | some e => simp [h] at n1
  constructor
  · exact hi.noFail
  · simp only [List.map_cons, List.nodup_cons]
    exact ⟨ownedBy_none.1 hf, hi.names⟩
  · simp only [List.map_cons, List.nodup_cons]
    exact ⟨n2, hi.owners⟩
  · exact hi.rel
  · intro n hn
    simp only [List.map_cons, List.mem_cons] at hn
    rcases hn with rfl | hn
    · exact n3
    · exact hi.disj n hn
  · intro n hn
    simp only [List.map_cons, List.mem_cons] at hn
    rcases hn with (rfl | hn) | hn
    · exact n1
    · exact hi.fresh n (.inl hn)
    · exact hi.fresh n (.inr hn)
  · intro n
    simp only [FdTable.get_alloc, List.map_cons, List.mem_cons]
    by_cases hn : n = s.table.lowestFree
    · simp [hn]
    · rw [if_neg hn, hi.opens]
      simp [hn]
  · intro n hn
    simp only [FdTable.get_alloc]
    rw [if_neg, hi.keeps n hn]
    rintro rfl
    exact hn n1
  · intro n hn
    simp only [List.map_cons, List.mem_cons] at hn
    simp only [List.count_cons]
    by_cases hn' : n = s.table.lowestFree
    · subst hn'
      have := hi.gone _ n2 n3
      simp only [beq_self_eq_true, if_true]
      omega
    · have hn2 : (s.table.lowestFree == n) = false := by simpa using Ne.symm hn'
      simp only [hn2, Bool.false_eq_true, if_false]
      exact hi.owned n (by simpa [hn'] using hn)
  · intro n hn1 hn2
    simp only [List.map_cons, List.mem_cons, not_or] at hn1
    simp only [List.count_cons]
    have hn3 : (s.table.lowestFree == n) = false := by simpa using Ne.symm hn1.1
    simp only [hn3, Bool.false_eq_true, if_false]
    exact hi.gone n hn1.2 hn2

theorem HandleInv.step {t0 : FdTable} {s : HandleState} (hi : HandleInv t0 s) (op : HandleOp) :
    HandleInv t0 (s.step op) := by
  cases op with
  | create h file =>
    simp only [HandleState.step]
    split
    · rename_i hf
      exact hi.addNew h ⟨file, 0#32⟩ hf
    · exact hi
  | clone h h2 =>
    simp only [HandleState.step]
    split
    · rename_i fd hfd hf
      split
      · rename_i e he
        exact hi.addNew h2 ⟨e.file, 0#32⟩ hf
      · exact hi
    · exact hi
  | intoRaw h =>
    simp only [HandleState.step]
    split
    · rename_i fd hfd
      obtain ⟨r1, r2, r3, r4⟩ := live_remove hfd hi.names hi.owners
      constructor
      · exact hi.noFail
      · exact r1
      · exact r2
      · simp only [List.nodup_cons]
        exact ⟨hi.disj fd r3, hi.rel⟩
      · intro n hn
        have hn := (r4 n).1 hn
        simp only [List.mem_cons, not_or]
        exact ⟨hn.2, hi.disj n hn.1⟩
      · intro n hn
        apply hi.fresh
        rcases hn with hn | hn
        · exact .inl ((r4 n).1 hn).1
        · simp only [List.mem_cons] at hn
          rcases hn with rfl | hn
          · exact .inl r3
          · exact .inr hn
      · intro n
        rw [hi.opens, r4]
        simp only [List.mem_cons]
        by_cases hn : n = fd
        · subst hn; simp [r3]
        · simp [hn]
      · exact hi.keeps
      · intro n hn
        apply hi.owned
        rw [r4] at hn
        simp only [List.mem_cons] at hn
        rcases hn with hn | rfl | hn
        · exact .inl hn.1
        · exact .inl r3
        · exact .inr hn
      · intro n hn1 hn2
        simp only [List.mem_cons, not_or] at hn2
        refine hi.gone n (fun hc => hn1 ((r4 n).2 ⟨hc, hn2.1⟩)) hn2.2
    · exact hi
  | adopt fd h =>
    simp only [HandleState.step]
    split
    · rename_i hc
      obtain ⟨hrel, hf⟩ := hc
      constructor
      · exact hi.noFail
      · simp only [List.map_cons, List.nodup_cons]
        exact ⟨ownedBy_none.1 hf, hi.names⟩
      · simp only [List.map_cons, List.nodup_cons]
        exact ⟨fun hm => hi.disj _ hm hrel, hi.owners⟩
      · exact hi.rel.sublist List.filter_sublist
      · intro n hn
        simp only [List.map_cons, List.mem_cons] at hn
        simp only [List.mem_filter, ne_eq, decide_not, Bool.not_eq_eq_eq_not, Bool.not_true,
          decide_eq_false_iff_not, not_and, Decidable.not_not]
        intro hr
        rcases hn with rfl | hn
        · rfl
        · exact absurd hr (hi.disj n hn)
      · intro n hn
        apply hi.fresh
        simp only [List.map_cons, List.mem_cons, List.mem_filter] at hn
        rcases hn with (rfl | hn) | hn
        · exact .inr hrel
        · exact .inl hn
        · exact .inr hn.1
      · intro n
        rw [hi.opens]
        simp only [List.map_cons, List.mem_cons, List.mem_filter]
        by_cases hn : n = fd
        · subst hn; simp [hrel]
        · simp [hn]
      · exact hi.keeps
      · intro n hn
        apply hi.owned
        simp only [List.map_cons, List.mem_cons, List.mem_filter] at hn
        rcases hn with (rfl | hn) | hn
        · exact .inr hrel
        · exact .inl hn
        · exact .inr hn.1
      · intro n hn1 hn2
        simp only [List.map_cons, List.mem_cons, not_or] at hn1
        refine hi.gone n hn1.2 (fun hc => hn2 ?_)
        simp only [List.mem_filter]
        exact ⟨hc, by simpa using hn1.1⟩
    · exact hi
  | drop h =>
    simp only [HandleState.step]
    split
    · rename_i fd hfd
      obtain ⟨r1, r2, r3, r4⟩ := live_remove hfd hi.names hi.owners
      have hopen : s.table.get fd ≠ none := (hi.opens fd).2 (.inr (.inl r3))
      simp only [HandleState.close]
      cases hg : s.table.get fd with
      | none => exact absurd hg hopen
      | some e =>
        have hnr : fd ∉ s.released := hi.disj fd r3
        have h0 : t0.get fd = none := hi.fresh fd (.inl r3)
        constructor
        · exact hi.noFail
        · exact r1
        · exact r2
        · exact hi.rel
        · intro n hn; exact hi.disj n ((r4 n).1 hn).1
        · intro n hn
          apply hi.fresh
          rcases hn with hn | hn
          · exact .inl ((r4 n).1 hn).1
          · exact .inr hn
        · intro n
          simp only
          rw [FdTable.get_erase, r4]
          by_cases hn : n = fd
          · subst hn; simp [h0, hnr]
          · rw [if_neg hn, hi.opens]; simp [hn]
        · intro n hn
          simp only
          rw [FdTable.get_erase, if_neg, hi.keeps n hn]
          rintro rfl; exact hn h0
        · intro n hn
          have hne : n ≠ fd := by
            rintro rfl
            rcases hn with hn | hn
            · exact ((r4 n).1 hn).2 rfl
            · exact hnr hn
          have hn2 : (fd == n) = false := by simpa using Ne.symm hne
          simp only [List.count_cons, hn2, Bool.false_eq_true, if_false]
          apply hi.owned
          rcases hn with hn | hn
          · exact .inl ((r4 n).1 hn).1
          · exact .inr hn
        · intro n hn1 hn2
          simp only [List.count_cons]
          by_cases hne : n = fd
          · subst hne
            have := hi.owned n (.inl r3)
            simp only [beq_self_eq_true, if_true]
            exact this
          · have hn3 : (fd == n) = false := by simpa using Ne.symm hne
            simp only [hn3, Bool.false_eq_true, if_false]
            exact hi.gone n (fun hc => hn1 ((r4 n).2 ⟨hc, hne⟩)) hn2
    · exact hi

theorem handleInv_run (t0 : FdTable) (ops : List HandleOp) :
    HandleInv t0 ((HandleState.start t0).run ops) := by
  have h0 : HandleInv t0 (HandleState.start t0) := by
    constructor <;> simp [HandleState.start]
  have : ∀ s, HandleInv t0 s → HandleInv t0 (s.run ops) := by
    induction ops with
    | nil => exact fun s hs => hs
    | cons op ops ih => exact fun s hs => ih _ (hs.step op)
  exact this _ h0

/-- C35. Run any program of handle operations from any descriptor table.
No `close` fails, no two live handles own the same descriptor, every descriptor
owned by a live handle or released by `into_raw` is open, and nothing else was
opened or closed: the descriptors the program started with are untouched. -/
theorem C35_owned_descriptors (t0 : FdTable) (ops : List HandleOp) :
    let s := (HandleState.start t0).run ops
    s.closeFailed = false ∧
    (∀ h1 h2 n, (h1, n) ∈ s.live → (h2, n) ∈ s.live → h1 = h2) ∧
    (∀ n, s.table.get n ≠ none ↔
      t0.get n ≠ none ∨ (∃ h, (h, n) ∈ s.live) ∨ n ∈ s.released) ∧
    (∀ n, t0.get n ≠ none → s.table.get n = t0.get n) := by
  intro s
  have hi := handleInv_run t0 ops
  refine ⟨hi.noFail, ?_, ?_, hi.keeps⟩
  · intro h1 h2 n m1 m2
    have key : ∀ l : List (Nat × Nat), (l.map Prod.snd).Nodup → (h1, n) ∈ l → (h2, n) ∈ l → h1 = h2 := by
      intro l hl
      induction l with
      | nil => simp
      | cons x l ih =>
        obtain ⟨k, f⟩ := x
        simp only [List.map_cons, List.nodup_cons] at hl
        simp only [List.mem_cons, Prod.mk.injEq]
        rintro (⟨e1, e2⟩ | a1) (⟨e3, e4⟩ | a2)
        · rw [e1, e3]
        · exact absurd (List.mem_map.2 ⟨_, a2, e2⟩) hl.1
        · exact absurd (List.mem_map.2 ⟨_, a1, e4⟩) hl.1
        · exact ih hl.2 a1 a2
    exact key _ hi.owners m1 m2
  · intro n
    have := hi.opens n
    simpa using this

/-- C35. Closed exactly once: every time the system handed out descriptor `n` there
is exactly one matching `close(n)`, except for the last time if a handle (or the
program, after `into_raw`) still owns it. -/
theorem C35_closed_exactly_once (t0 : FdTable) (ops : List HandleOp) (n : Nat) :
    let s := (HandleState.start t0).run ops
    (((∃ h, (h, n) ∈ s.live) ∨ n ∈ s.released) → s.opened.count n = s.closed.count n + 1) ∧
    (¬ ((∃ h, (h, n) ∈ s.live) ∨ n ∈ s.released) → s.opened.count n = s.closed.count n) := by
  intro s
  have hi := handleInv_run t0 ops
  have hm : n ∈ s.live.map Prod.snd ↔ ∃ h, (h, n) ∈ s.live := by simp
  rw [← hm]
  exact ⟨hi.owned n, fun h => hi.gone n (fun hc => h (.inl hc)) (fun hc => h (.inr hc))⟩

/-- C35. When no handle is left and none was released, the table is the initial one. -/
theorem C35_no_leak (t0 : FdTable) (ops : List HandleOp)
    (hl : ((HandleState.start t0).run ops).live = [])
    (hr : ((HandleState.start t0).run ops).released = []) (n : Nat) :
    ((HandleState.start t0).run ops).table.get n = t0.get n := by
  have hi := handleInv_run t0 ops
  cases h0 : t0.get n with
  | some e => rw [hi.keeps n (by simp [h0]), h0]
  | none =>
    have := hi.opens n
    rw [hl, hr, h0] at this
    simpa using this

/-- A program with clones, an `into_raw`, an adoption and drops. -/
example :
    let s := (HandleState.start [(0, ⟨7, 0#32⟩), (1, ⟨8, 0#32⟩)]).run
      [.create 0 42, .clone 0 1, .drop 0, .create 2 43, .intoRaw 1, .adopt 3 5, .clone 5 6, .drop 2]
    s.live = [(6, 4), (5, 3)] ∧ s.closed = [2, 2] ∧ s.opened = [4, 2, 3, 2] ∧
      s.closeFailed = false := by decide +kernel

end Iris
