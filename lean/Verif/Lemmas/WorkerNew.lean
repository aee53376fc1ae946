import Verif.Lemmas.Process
/-! Helper lemmas about `Worker::new`. -/
namespace Iris

theorem FdTable.erase_set (t : FdTable) (n : Nat) (e : FdEntry) : (t.set n e).erase n = t.erase n := by
  simp [FdTable.set, FdTable.erase, List.filter_filter]

theorem FdTable.alloc_fst (t : FdTable) (e : FdEntry) : (t.alloc e).1 = t.lowestFree := rfl

theorem FdTable.get_alloc_self (t : FdTable) (e : FdEntry) : (t.alloc e).2.get t.lowestFree = some e := by
  rw [FdTable.get_alloc, if_pos rfl]

theorem setInheritable_ok {t : FdTable} {fd : Nat} {e : FdEntry} (h : t.get fd = some e) (allow : Bool) :
    setInheritable t fd allow = (.ok (),
      t.set fd ⟨e.file, (e.flags &&& ~~~FD_CLOEXEC) ||| (if allow then 0#32 else FD_CLOEXEC)⟩) := by
  simp [setInheritable, sysGetFd, sysSetFd, h]

/-- A descriptor is open and survives `execve`. -/
def Inherits (t : FdTable) (fd : Nat) : Prop :=
  ∃ e, t.get fd = some e ∧ e.flags &&& FD_CLOEXEC = 0#32

theorem allowHandle_ok {t : FdTable} {p p' : Policy} {fd : Nat} (h : allowHandle t p fd = .ok p') :
    Inherits t fd ∧ p' = { p with inherit := setInsert p.inherit fd } := by
  unfold allowHandle isInheritable sysGetFd at h
  cases hg : t.get fd with
  | none => simp [hg, Except.mapError, Policy.allowInheritHandle] at h
  | some e =>
    simp only [hg, Except.mapError] at h
    by_cases hf : e.flags &&& FD_CLOEXEC = 0#32
    · simp [hf, Policy.allowInheritHandle] at h
      exact ⟨⟨e, hg, hf⟩, h.symm⟩
    · have hb : (e.flags &&& FD_CLOEXEC == 0#32) = false := by simpa using hf
      rw [hb] at h
      simp [Policy.allowInheritHandle] at h

theorem allowHandle_of {t : FdTable} {p : Policy} {fd : Nat} (h : Inherits t fd) :
    allowHandle t p fd = .ok { p with inherit := setInsert p.inherit fd } := by
  obtain ⟨e, hg, hf⟩ := h
  simp [allowHandle, isInheritable, sysGetFd, hg, Except.mapError, Policy.allowInheritHandle, hf]

theorem mem_setInsert {α : Type} [DecidableEq α] (s : List α) (x y : α) :
    y ∈ setInsert s x ↔ y ∈ s ∨ y = x := by
  unfold setInsert
  split
  · constructor
    · exact .inl
    · rintro (h | rfl)
      · exact h
      · assumption
  · simp [or_comm]

theorem allowHandles_ok {t : FdTable} {l : List Nat} :
    ∀ {p p' : Policy}, allowHandles t p l = .ok p' →
    (∀ fd ∈ l, Inherits t fd) ∧ (∀ x, x ∈ p'.inherit ↔ x ∈ p.inherit ∨ x ∈ l)
      ∧ p'.runtime = p.runtime := by
  induction l with
  | nil =>
    intro p p' h
    cases h
    simp
  | cons fd l ih =>
    intro p p' h
    simp only [allowHandles] at h
    split at h
    · cases h
    · rename_i q hq
      obtain ⟨hi, rfl⟩ := allowHandle_ok hq
      obtain ⟨h1, h2, h3⟩ := ih h
      refine ⟨?_, ?_, h3⟩
      · intro x hx
        rcases List.mem_cons.1 hx with rfl | hx
        · exact hi
        · exact h1 x hx
      · intro x
        rw [h2, mem_setInsert, List.mem_cons, or_assoc]

theorem allowHandles_of {t : FdTable} {l : List Nat} :
    ∀ {p : Policy}, (∀ fd ∈ l, Inherits t fd) → ∃ p', allowHandles t p l = .ok p' := by
  induction l with
  | nil => exact fun _ => ⟨_, rfl⟩
  | cons fd l ih =>
    intro p h
    simp only [allowHandles, allowHandle_of (h fd List.mem_cons_self)]
    exact ih fun x hx => h x (List.mem_cons_of_mem _ hx)

theorem setEnv_ok {c c' : ProcessConfig} {v : Bytes} (h : c.setEnv v = (.ok (), c')) :
    (∀ e ∈ c.envp, nameFromEnv e ≠ nameFromEnv v) ∧ c' = { c with envp := c.envp ++ [v] } := by
  unfold ProcessConfig.setEnv at h
  split at h
  · cases h
  · rename_i hn
    cases h
    refine ⟨?_, rfl⟩
    intro e he hc
    exact hn (List.any_eq_true.2 ⟨e, he, by simp [hc]⟩)

/-- The redirected streams of a configuration. -/
def streams (c : ProcessConfig) : List Nat := [c.stdin, c.stdout, c.stderr].filterMap id

theorem mem_streams {c : ProcessConfig} {fd : Nat} :
    fd ∈ streams c ↔ c.stdin = some fd ∨ c.stdout = some fd ∨ c.stderr = some fd := by
  unfold streams
  cases c.stdin <;> cases c.stdout <;> cases c.stderr <;> simp <;> grind

theorem prepareWorker_ok {t : FdTable} {p p' : Policy} {c c' : ProcessConfig} {w : Nat}
    (h : prepareWorker t p c w = .ok (p', c')) :
    (∀ fd ∈ streams c, Inherits t fd)
    ∧ (∀ x, x ∈ p'.inherit ↔ x ∈ p.inherit ∨ x ∈ streams c ∨ x = w)
    ∧ p'.runtime = p.runtime
    ∧ (∀ e ∈ c.envp, nameFromEnv e ≠ ipcName)
    ∧ c' = { c with envp := c.envp ++ [ipcHandleVar w] } := by
  unfold prepareWorker at h
  split at h
  · cases h
  · rename_i q hq
    obtain ⟨hi, rfl⟩ := allowHandle_ok hq
    split at h
    · cases h
    · rename_i q' hq'
      obtain ⟨h1, h2, h3⟩ := allowHandles_ok hq'
      split at h
      · cases h
      · rename_i c'' hc
        cases h
        obtain ⟨h4, h5⟩ := setEnv_ok hc
        refine ⟨h1, ?_, h3, ?_, h5⟩
        · intro x
          rw [h2, mem_setInsert]
          simp only [streams]
          grind
        · intro e he
          rw [← nameFromEnv_ipc w]
          exact h4 e he

/-! ### `OSSandboxedProcess::new` -/

/-- The table after `pipe`. -/
def afterPipe (t : FdTable) (r w : Nat) : FdTable := ((t.alloc ⟨r, 0#32⟩).2.alloc ⟨w, 0#32⟩).2
/-- The descriptor of the pipe's write end. -/
def pipeFd (t : FdTable) (r : Nat) : Nat := (t.alloc ⟨r, 0#32⟩).2.lowestFree
/-- The table the new process gets. -/
def childTable (t : FdTable) (r w : Nat) : FdTable :=
  (afterPipe t r w).set (pipeFd t r) ⟨w, FD_CLOEXEC⟩

theorem afterPipe_inheritable (t : FdTable) (r w : Nat) :
    setInheritable (afterPipe t r w) (pipeFd t r) false = (.ok (), childTable t r w) := by
  rw [setInheritable_ok (t := afterPipe t r w) (fd := pipeFd t r) (e := ⟨w, 0#32⟩)
    (FdTable.get_alloc_self _ _)]
  simp [childTable]

theorem afterPipe_erase (t : FdTable) (r w : Nat) :
    ((childTable t r w).erase (pipeFd t r)).erase t.lowestFree = t := by
  rw [childTable, FdTable.erase_set]
  have h1 : (afterPipe t r w).erase (pipeFd t r) = (t.alloc ⟨r, 0#32⟩).2 :=
    FdTable.erase_alloc (t.alloc ⟨r, 0#32⟩).2 ⟨w, 0#32⟩
  rw [h1]
  exact FdTable.erase_alloc t ⟨r, 0#32⟩

theorem childTable_get (t : FdTable) (r w n : Nat) :
    (childTable t r w).get n = if n = pipeFd t r then some ⟨w, FD_CLOEXEC⟩
      else if n = t.lowestFree then some ⟨r, 0#32⟩ else t.get n := by
  rw [childTable, FdTable.get_set]
  by_cases h : n = pipeFd t r
  · simp [h]
  · simp only [h, if_false, afterPipe, FdTable.get_alloc]
    have h' : ¬ n = ((t.alloc ⟨r, 0#32⟩).2).lowestFree := h
    rw [if_neg h']

theorem pipeFd_fresh (t : FdTable) (r : Nat) : t.get (pipeFd t r) = none ∧ pipeFd t r ≠ t.lowestFree := by
  have h := (t.alloc ⟨r, 0#32⟩).2.lowestFree_spec.1
  rw [FdTable.get_alloc] at h
  simp only [pipeFd]
  split at h
  · cases h
  · rename_i hne; exact ⟨h, hne⟩

theorem childTable_WF {t : FdTable} (h : t.WF) (r w : Nat) : (childTable t r w).WF :=
  ((h.alloc _).alloc _).set _ _

theorem newProcess_eq (p : Policy) (c : ProcessConfig) (t : FdTable) (caps : Caps) (os : ProcOs) :
    newProcess p c t caps os =
      if c.argv = [] then ⟨.error .missingCommandLine, t, none⟩
      else match os.pipe with
        | .error e => ⟨.error (.internalOsOperationFailed c!"pipe() failed" e), t, none⟩
        | .ok (r, w) =>
          match tryClone os with
          | .error e => ⟨.error e, t, none⟩
          | .ok (pid, _, pidNs) =>
            ⟨readErrno os w pid (cloneEntrypoint os.entry (entryParams p c os (pipeFd t r))
                (childTable t r w) caps), t,
             some ⟨pid, pidNs, cloneEntrypoint os.entry (entryParams p c os (pipeFd t r))
                (childTable t r w) caps⟩⟩ := by
  unfold newProcess
  split
  · rfl
  · cases os.pipe with
    | error e => rfl
    | ok x =>
      obtain ⟨r, w⟩ := x
      have h := afterPipe_inheritable t r w
      have h2 := afterPipe_erase t r w
      simp only [afterPipe] at h
      simp only [FdTable.alloc_fst]
      simp only [pipeFd] at h h2 ⊢
      rw [h]
      simp only [h2]
      cases tryClone os <;> rfl

theorem newProcess_table (p : Policy) (c : ProcessConfig) (t : FdTable) (caps : Caps) (os : ProcOs) :
    (newProcess p c t caps os).table = t := by
  rw [newProcess_eq]
  split
  · rfl
  · cases os.pipe with
    | error e => rfl
    | ok x => simp only; cases tryClone os <;> rfl

theorem newProcess_child {p : Policy} {c : ProcessConfig} {t : FdTable} {caps : Caps} {os : ProcOs}
    {ch : Child} (h : (newProcess p c t caps os).child = some ch) :
    c.argv ≠ [] ∧ ∃ r w user, os.pipe = .ok (r, w) ∧ tryClone os = .ok (ch.pid, user, ch.pidNs) ∧
      ch.ending = cloneEntrypoint os.entry (entryParams p c os (pipeFd t r)) (childTable t r w) caps ∧
      (newProcess p c t caps os).result = readErrno os w ch.pid ch.ending := by
  rw [newProcess_eq] at h ⊢
  split at h
  · cases h
  · rename_i hargv
    refine ⟨hargv, ?_⟩
    rw [if_neg hargv]
    cases hp : os.pipe with
    | error e => simp [hp] at h
    | ok x =>
      obtain ⟨r, w⟩ := x
      simp only [hp] at h
      cases hc : tryClone os with
      | error e => simp [hc] at h
      | ok y =>
        obtain ⟨pid, user, pidNs⟩ := y
        simp only [hc, Option.some.injEq] at h
        subst h
        exact ⟨r, w, user, rfl, rfl, rfl, rfl⟩

theorem newProcess_no_child {p : Policy} {c : ProcessConfig} {t : FdTable} {caps : Caps} {os : ProcOs}
    (h : (newProcess p c t caps os).child = none) : ∃ e, (newProcess p c t caps os).result = .error e := by
  rw [newProcess_eq] at h ⊢
  split at h
  · rename_i hargv
    rw [if_pos hargv]; exact ⟨_, rfl⟩
  · rename_i hargv
    rw [if_neg hargv]
    cases hp : os.pipe with
    | error e => exact ⟨_, rfl⟩
    | ok x =>
      simp only [hp] at h
      cases hc : tryClone os with
      | error e => exact ⟨e, rfl⟩
      | ok y => simp [hc] at h

/-! ### `Worker::new` -/

/-- The table with both ends of the channel. -/
def chanTable (t : FdTable) (a b : Nat) : FdTable :=
  ((t.alloc ⟨a, 0#32⟩).2.alloc ⟨b, 0#32⟩).2.set (pipeFd t a) ⟨b, 0#32⟩

theorem chanTable_inheritable (t : FdTable) (a b : Nat) :
    setInheritable ((t.alloc ⟨a, 0#32⟩).2.alloc ⟨b, 0#32⟩).2 (pipeFd t a) true
      = (.ok (), chanTable t a b) := by
  rw [setInheritable_ok (fd := pipeFd t a) (e := ⟨b, 0#32⟩) (FdTable.get_alloc_self _ _)]
  simp [chanTable]

theorem chanTable_erase (t : FdTable) (a b : Nat) :
    (chanTable t a b).erase (pipeFd t a) = (t.alloc ⟨a, 0#32⟩).2 := by
  rw [chanTable, FdTable.erase_set]
  exact FdTable.erase_alloc (t.alloc ⟨a, 0#32⟩).2 ⟨b, 0#32⟩

theorem chanTable_erase2 (t : FdTable) (a b : Nat) :
    ((chanTable t a b).erase (pipeFd t a)).erase t.lowestFree = t := by
  rw [chanTable_erase]
  exact FdTable.erase_alloc t ⟨a, 0#32⟩

theorem chanTable_get (t : FdTable) (a b n : Nat) :
    (chanTable t a b).get n = if n = pipeFd t a then some ⟨b, 0#32⟩
      else if n = t.lowestFree then some ⟨a, 0#32⟩ else t.get n := by
  rw [chanTable, FdTable.get_set]
  by_cases h : n = pipeFd t a
  · simp [h]
  · simp only [h, if_false, FdTable.get_alloc]
    have h' : ¬ n = ((t.alloc ⟨a, 0#32⟩).2).lowestFree := h
    rw [if_neg h']

theorem chanTable_WF {t : FdTable} (h : t.WF) (a b : Nat) : (chanTable t a b).WF :=
  ((h.alloc _).alloc _).set _ _

/-- `Worker::new` without the bookkeeping of descriptors. -/
theorem workerNew_eq (abi : Abi) (t : FdTable) (caps : Caps) (c : ProcessConfig) (p : Policy) (os : NewOs) :
    workerNew abi t caps c p os =
      match os.socketpair with
      | .error e => ⟨.error (.internalOsOperationFailed c!"socketpair() failed" e), t, none⟩
      | .ok (a, b) =>
        match prepareWorker (chanTable t a b) p c (pipeFd t a) with
        | .error e => ⟨.error e, t, none⟩
        | .ok (p', c') =>
          match (newProcess p' c' (chanTable t a b) caps os.proc).result with
          | .error e => ⟨.error e, t, (newProcess p' c' (chanTable t a b) caps os.proc).child⟩
          | .ok pid =>
            match startIpcLoop abi p'.runtime (t.alloc ⟨a, 0#32⟩).2 t.lowestFree os.first os.osFirst
                os.filter os.spawnOk with
            | (.error e, t', _) => ⟨.error e, t', (newProcess p' c' (chanTable t a b) caps os.proc).child⟩
            | (.ok s, t', _) => ⟨.ok (pid, s), t', (newProcess p' c' (chanTable t a b) caps os.proc).child⟩ := by
  unfold workerNew
  cases os.socketpair with
  | error e => rfl
  | ok x =>
    obtain ⟨a, b⟩ := x
    have h := chanTable_inheritable t a b
    have h3 := chanTable_erase t a b
    simp only [FdTable.alloc_fst]
    simp only [pipeFd] at h h3 ⊢
    rw [h]
    have h4 : FdTable.erase (t.alloc ⟨a, 0#32⟩).2 t.lowestFree = t := FdTable.erase_alloc t ⟨a, 0#32⟩
    simp only [newProcess_table, h3, h4]
    cases prepareWorker (chanTable t a b) p c (t.alloc ⟨a, 0#32⟩).2.lowestFree <;> rfl

/-- What is known of a process created by `Worker::new`. -/
structure Created (t : FdTable) (caps : Caps) (c : ProcessConfig) (p : Policy) (os : NewOs)
    (ch : Child) (a b r w : Nat) (p' : Policy) : Prop where
  socketpair : os.socketpair = .ok (a, b)
  pipe : os.proc.pipe = .ok (r, w)
  argv : c.argv ≠ []
  streams : ∀ fd ∈ streams c, Inherits (chanTable t a b) fd
  inherit : ∀ x, x ∈ p'.inherit ↔ x ∈ p.inherit ∨ x ∈ Iris.streams c ∨ x = pipeFd t a
  runtime : p'.runtime = p.runtime
  names : ∀ e ∈ c.envp, nameFromEnv e ≠ ipcName
  clone : ∃ user, tryClone os.proc = .ok (ch.pid, user, ch.pidNs)
  ending : ch.ending = cloneEntrypoint os.proc.entry
    (entryParams p' { c with envp := c.envp ++ [ipcHandleVar (pipeFd t a)] } os.proc
      (pipeFd (chanTable t a b) r)) (childTable (chanTable t a b) r w) caps

theorem workerNew_child {abi : Abi} {t : FdTable} {caps : Caps} {c : ProcessConfig} {p : Policy}
    {os : NewOs} {ch : Child} (h : (workerNew abi t caps c p os).child = some ch) :
    ∃ a b r w p', Created t caps c p os ch a b r w p' ∧
      (∀ e, readErrno os.proc w ch.pid ch.ending = .error e →
        workerNew abi t caps c p os = ⟨.error e, t, some ch⟩) ∧
      (readErrno os.proc w ch.pid ch.ending = .ok ch.pid →
        workerNew abi t caps c p os =
          match startIpcLoop abi p'.runtime (t.alloc ⟨a, 0#32⟩).2 t.lowestFree os.first os.osFirst
                os.filter os.spawnOk with
            | (.error e, t', _) => ⟨.error e, t', some ch⟩
            | (.ok s, t', _) => ⟨.ok (ch.pid, s), t', some ch⟩) := by
  rw [workerNew_eq] at h ⊢
  cases hs : os.socketpair with
  | error e => simp [hs] at h
  | ok x =>
    obtain ⟨a, b⟩ := x
    simp only [hs] at h ⊢
    cases hp : prepareWorker (chanTable t a b) p c (pipeFd t a) with
    | error e => simp [hp] at h
    | ok y =>
      obtain ⟨p', c'⟩ := y
      simp only [hp] at h ⊢
      obtain ⟨h1, h2, h3, h4, h5⟩ := prepareWorker_ok hp
      have hch : (newProcess p' c' (chanTable t a b) caps os.proc).child = some ch := by
        revert h
        cases (newProcess p' c' (chanTable t a b) caps os.proc).result with
        | error e => exact id
        | ok pid =>
          simp only
          split <;> exact id
      obtain ⟨hargv, r, w, user, hpipe, hclone, hend, hres⟩ := newProcess_child hch
      subst h5
      refine ⟨a, b, r, w, p', ⟨hs, hpipe, hargv, h1, h2, h3, h4, ⟨user, hclone⟩, hend⟩, ?_, ?_⟩
      · intro e he
        rw [hres, he, hch]
      · intro he
        rw [hres, he, hch]

/-- What is known of a program started by `Worker::new`. -/
theorem workerNew_started {abi : Abi} {t : FdTable} {caps : Caps} {c : ProcessConfig} {p : Policy}
    {os : NewOs} {ch : Child} {img : Image} (h : (workerNew abi t caps c p os).child = some ch)
    (hs : ch.ending = .started img) :
    ∃ a b r w p' s f0 f1 f2, Created t caps c p os ch a b r w p' ∧
      Ready os.proc.entry
        (entryParams p' { c with envp := c.envp ++ [ipcHandleVar (pipeFd t a)] } os.proc
          (pipeFd (chanTable t a b) r)) (childTable (chanTable t a b) r w) caps s f0 f1 f2 ∧
      img = ⟨c.exe, c.argv, c.envp ++ [ipcHandleVar (pipeFd t a)], closeOnExec s.table,
        execCaps os.proc.entry s.noNewPrivs s.caps, s.noNewPrivs, s.isolation, s.opened⟩ := by
  obtain ⟨a, b, r, w, p', hc, _, _⟩ := workerNew_child h
  have he := hc.ending
  rcases cloneEntrypoint_cases os.proc.entry
    (entryParams p' { c with envp := c.envp ++ [ipcHandleVar (pipeFd t a)] } os.proc
      (pipeFd (chanTable t a b) r)) (childTable (chanTable t a b) r w) caps with hg | ⟨s, f0, f1, f2, hr, hg⟩
  · rw [hg, hs] at he; cases he
  · rw [hg, hs] at he
    refine ⟨a, b, r, w, p', s, f0, f1, f2, hc, hr, ?_⟩
    unfold execOrReport at he
    split at he
    · cases he; rfl
    · cases he

/-- The descriptors of the new process, in terms of the broker's. -/
theorem child_get (t : FdTable) (a b r w n : Nat) :
    (childTable (chanTable t a b) r w).get n =
      if n = pipeFd (chanTable t a b) r then some ⟨w, FD_CLOEXEC⟩
      else if n = (chanTable t a b).lowestFree then some ⟨r, 0#32⟩
      else if n = pipeFd t a then some ⟨b, 0#32⟩
      else if n = t.lowestFree then some ⟨a, 0#32⟩ else t.get n := by
  rw [childTable_get, chanTable_get]

/-- The four new descriptors are different and were free. -/
theorem new_fds (t : FdTable) (a b r : Nat) :
    t.get t.lowestFree = none ∧ t.get (pipeFd t a) = none ∧ pipeFd t a ≠ t.lowestFree
    ∧ t.get (chanTable t a b).lowestFree = none ∧ (chanTable t a b).lowestFree ≠ t.lowestFree
    ∧ (chanTable t a b).lowestFree ≠ pipeFd t a
    ∧ t.get (pipeFd (chanTable t a b) r) = none ∧ pipeFd (chanTable t a b) r ≠ t.lowestFree
    ∧ pipeFd (chanTable t a b) r ≠ pipeFd t a
    ∧ pipeFd (chanTable t a b) r ≠ (chanTable t a b).lowestFree := by
  have h1 := pipeFd_fresh t a
  have h2 := pipeFd_fresh (chanTable t a b) r
  have h3 := (chanTable t a b).lowestFree_spec.1
  rw [chanTable_get] at h3
  have h4 := h2.1
  rw [chanTable_get] at h4
  refine ⟨t.lowestFree_spec.1, h1.1, h1.2, ?_, ?_, ?_, ?_, ?_, ?_, h2.2⟩ <;> grind

end Iris
