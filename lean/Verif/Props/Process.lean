import Verif.Spec.Process
import Verif.Lemmas.WorkerNew
import Verif.Props.Broker
/-! # C36-C44: how a worker process is created -/
namespace Iris
open Spec

/-! ## C36 -/

theorem nameFromEnv_spec (v name : Bytes) : nameFromEnv v = name ↔ EnvName v name := by
  constructor
  · rintro rfl
    induction v with
    | nil => exact ⟨by simp [nameFromEnv], .inl rfl⟩
    | cons b v ih =>
      simp only [nameFromEnv]
      split
      · rename_i hb
        exact ⟨by simp, .inr ⟨v, by simp [hb, eqSign]⟩⟩
      · rename_i hb
        obtain ⟨h1, h2⟩ := ih
        refine ⟨?_, ?_⟩
        · simp only [List.mem_cons, not_or]
          exact ⟨fun hc => hb (by rw [← hc]; rfl), h1⟩
        · rcases h2 with h2 | ⟨x, h2⟩
          · exact .inl (by rw [← h2])
          · exact .inr ⟨x, by rw [List.cons_append, ← h2]⟩
  · rintro ⟨h1, rfl | ⟨x, rfl⟩⟩
    · induction v with
      | nil => rfl
      | cons b v ih =>
        simp only [List.mem_cons, not_or] at h1
        simp only [nameFromEnv]
        rw [if_neg (fun hc => h1.1 (by rw [hc]; rfl)), ih h1.2]
    · exact nameFromEnv_append _ _ h1

/-- C36. Adding a variable succeeds exactly when no variable has the same name, and then
appends it; otherwise nothing changes. -/
theorem C36_add (c : ProcessConfig) (v name : Bytes) (h : EnvName v name) :
    ((∀ x ∈ c.envp, ¬ EnvName x name) →
      c.call (.env v) = (.ok (), { c with envp := c.envp ++ [v] })) ∧
    ((∃ x ∈ c.envp, EnvName x name) →
      c.call (.env v) = (.error (.conflictingEnvironmentVariable name), c)) := by
  have hn := (nameFromEnv_spec v name).2 h
  simp only [ProcessConfig.call, ProcessConfig.setEnv, hn]
  constructor
  · intro hx
    rw [if_neg]
    intro hc
    obtain ⟨x, hm, he⟩ := List.any_eq_true.1 hc
    exact hx x hm ((nameFromEnv_spec x name).1 (by simpa using he))
  · rintro ⟨x, hm, he⟩
    rw [if_pos]
    exact List.any_eq_true.2 ⟨x, hm, by simpa using (nameFromEnv_spec x name).2 he⟩

/-- The variables set by a sequence of calls. -/
def Spec.variables : List ConfigCall → List Bytes
  | [] => []
  | .env v :: l => v :: Spec.variables l
  | _ :: l => Spec.variables l

theorem variables_append (a b : List ConfigCall) : variables (a ++ b) = variables a ++ variables b := by
  induction a with
  | nil => rfl
  | cons x a ih => cases x <;> simp [variables, ih]

theorem firstOfEachName_snoc (name : Bytes → Bytes) (l : List Bytes) (v : Bytes) :
    firstOfEachName name (l ++ [v]) = firstOfEachName name l
      ++ (if (firstOfEachName name l).any (fun x => name x == name v) then [] else [v]) := by
  induction l with
  | nil => simp [firstOfEachName]
  | cons x l ih =>
    simp only [List.cons_append, firstOfEachName, ih, List.filter_append]
    congr 1
    congr 1
    by_cases hv : name x = name v
    · simp only [List.any_cons, hv, beq_self_eq_true, Bool.true_or, if_true]
      split <;> simp
    · have h1 : (name x == name v) = false := by simpa using hv
      simp only [List.any_cons, h1, Bool.false_or]
      have h2 : (List.filter (fun y => decide (name y ≠ name x)) (firstOfEachName name l)).any
          (fun x => name x == name v) = (firstOfEachName name l).any fun x => name x == name v := by
        rw [Bool.eq_iff_iff, List.any_eq_true, List.any_eq_true]
        constructor
        · rintro ⟨y, hy, he⟩
          exact ⟨y, (List.mem_filter.1 hy).1, he⟩
        · rintro ⟨y, hy, he⟩
          refine ⟨y, List.mem_filter.2 ⟨hy, ?_⟩, he⟩
          have he : name y = name v := by simpa using he
          simp only [he, ne_eq, decide_not, Bool.not_eq_true', decide_eq_false_iff_not]
          exact Ne.symm hv
      rw [h2]
      split
      · rfl
      · simp [Ne.symm hv]

theorem nameFromEnv_takeWhile (v : Bytes) : nameFromEnv v = v.takeWhile (· != 61) := by
  induction v with
  | nil => rfl
  | cons b v ih =>
    simp only [nameFromEnv, List.takeWhile_cons, ih, eqSign, bne_iff_ne, ne_eq, ite_not]

/-- C36. After any sequence of calls, the environment is the first variable of each name,
in the order in which they were set. -/
theorem C36_environment (exe : Bytes) (argv : List Bytes) (l : List ConfigCall) :
    ((ProcessConfig.new exe argv).calls l).envp
      = firstOfEachName (fun v => v.takeWhile (· != 61)) (variables l) := by
  rw [← funext nameFromEnv_takeWhile]
  have key : ∀ l' : List ConfigCall, ((ProcessConfig.new exe argv).calls l'.reverse).envp
      = firstOfEachName nameFromEnv (variables l'.reverse) := by
    intro l'
    induction l' with
    | nil => rfl
    | cons x l' ih =>
      simp only [List.reverse_cons, ProcessConfig.calls, List.foldl_append, List.foldl_cons,
        List.foldl_nil, variables_append] at ih ⊢
      generalize List.foldl (fun c x => (ProcessConfig.call c x).2) (ProcessConfig.new exe argv)
        l'.reverse = c at ih ⊢
      cases x with
      | env v =>
        simp only [variables, firstOfEachName_snoc, ProcessConfig.call, ProcessConfig.setEnv, ← ih]
        split <;> simp
      | _ => simpa [ProcessConfig.call, variables] using ih
  simpa using key l.reverse

/-- The last of these calls that sets something, if any. -/
def Spec.lastSet {α : Type} (f : ConfigCall → Option α) (l : List ConfigCall) : Option α := (l.filterMap f).getLast?

theorem lastSet_snoc {α : Type} (f : ConfigCall → Option α) (l : List ConfigCall) (x : ConfigCall) :
    lastSet f (l ++ [x]) = (f x).or (lastSet f l) := by
  unfold lastSet
  rw [List.filterMap_append]
  cases h : f x <;> simp [h]

/-- C36. After any sequence of calls, each other setting is the one last given, or that of `new`. -/
theorem C36_settings (exe : Bytes) (argv : List Bytes) (l : List ConfigCall) :
    let c := (ProcessConfig.new exe argv).calls l
    c.exe = exe ∧ c.argv = argv ∧
    c.cwd = (lastSet (fun | .cwd d => some d | _ => none) l).getD none ∧
    c.stdin = (lastSet (fun | .stdin h => some h | _ => none) l).getD none ∧
    c.stdout = (lastSet (fun | .stdout h => some h | _ => none) l).getD none ∧
    c.stderr = (lastSet (fun | .stderr h => some h | _ => none) l).getD none := by
  have key : ∀ l' : List ConfigCall, let c := (ProcessConfig.new exe argv).calls l'.reverse
      c.exe = exe ∧ c.argv = argv ∧
      c.cwd = (lastSet (fun | .cwd d => some d | _ => none) l'.reverse).getD none ∧
      c.stdin = (lastSet (fun | .stdin h => some h | _ => none) l'.reverse).getD none ∧
      c.stdout = (lastSet (fun | .stdout h => some h | _ => none) l'.reverse).getD none ∧
      c.stderr = (lastSet (fun | .stderr h => some h | _ => none) l'.reverse).getD none := by
    intro l'
    induction l' with
    | nil => exact ⟨rfl, rfl, rfl, rfl, rfl, rfl⟩
    | cons x l' ih =>
      simp only [List.reverse_cons, ProcessConfig.calls, List.foldl_append, List.foldl_cons, List.foldl_nil,
        lastSet_snoc] at ih ⊢
      generalize List.foldl (fun c x => (ProcessConfig.call c x).2) (ProcessConfig.new exe argv) l'.reverse = c at ih ⊢
      cases x
      case env v =>
        simp only [ProcessConfig.call, ProcessConfig.setEnv]
        split <;> exact ih
      all_goals
        obtain ⟨h1, h2, h3, h4, h5, h6⟩ := ih
        exact ⟨h1, h2, by first | rfl | exact h3, by first | rfl | exact h4, by first | rfl | exact h5, by first | rfl | exact h6⟩
  simpa using key l.reverse

example : (ProcessConfig.new [] []).calls [.cwd (some (utf8 c!"/a")), .stdin (some 4), .cwd (some (utf8 c!"/b")), .stdout (some 5),
    .stderr (some 6), .stdin none] = ⟨[], [], [], some (utf8 c!"/b"), none, some 5, some 6⟩ := by decide +kernel

/-- C36. No two variables of a configuration have the same name. -/
theorem C36_unique (exe : Bytes) (argv : List Bytes) (l : List ConfigCall) (i j : Nat) (v w name : Bytes)
    (hi : ((ProcessConfig.new exe argv).calls l).envp[i]? = some v)
    (hj : ((ProcessConfig.new exe argv).calls l).envp[j]? = some w)
    (hv : EnvName v name) (hw : EnvName w name) : i = j := by
  have hnd : ∀ vs, ((firstOfEachName nameFromEnv vs).map nameFromEnv).Nodup := by
    intro vs
    induction vs with
    | nil => simp [firstOfEachName]
    | cons v vs ih =>
      simp only [firstOfEachName, List.map_cons, List.nodup_cons]
      refine ⟨?_, (List.filter_sublist.map _).nodup ih⟩
      intro hc
      obtain ⟨x, hx, he⟩ := List.mem_map.1 hc
      have := (List.mem_filter.1 hx).2
      simp [he] at this
  rw [C36_environment, ← funext nameFromEnv_takeWhile] at hi hj
  have h := hnd (variables l)
  have e1 : ((firstOfEachName nameFromEnv (variables l)).map nameFromEnv)[i]? = some name := by
    rw [List.getElem?_map, hi, Option.map_some, (nameFromEnv_spec v name).2 hv]
  have e2 : ((firstOfEachName nameFromEnv (variables l)).map nameFromEnv)[j]? = some name := by
    rw [List.getElem?_map, hj, Option.map_some, (nameFromEnv_spec w name).2 hw]
  have l1 := (List.getElem?_eq_some_iff.1 e1).1
  exact (List.getElem?_inj l1 h).1 (e1.trans e2.symm)

/-- Two variables, one set twice, and one without a value. -/
example : ((ProcessConfig.new [] []).calls
    [.env (utf8 c!"A=1"), .stdin none, .env (utf8 c!"B=2"), .env (utf8 c!"A=3"), .env (utf8 c!"C"),
     .env (utf8 c!"C=")]).envp
    = [utf8 c!"A=1", utf8 c!"B=2", utf8 c!"C"] := by decide

example : EnvName (utf8 c!"A=1") (utf8 c!"A") := ⟨by decide, .inr ⟨utf8 c!"1", rfl⟩⟩

/-! ## C37 -/

theorem pipeFd_le (t : FdTable) (a : Nat) : pipeFd t a ≤ t.length + 1 := by
  have := (t.alloc ⟨a, 0#32⟩).2.lowestFree_le
  simpa [FdTable.alloc, pipeFd] using this

/-- C37. A worker program is started with the configured executable, arguments and
environment, followed by `SANDBOX_IPC_HANDLE` set to the (decimal) number of a
descriptor that was free, which is what the worker reads back. -/
theorem C37_environment (abi : Abi) (t : FdTable) (caps : Caps) (c : ProcessConfig) (p : Policy) (os : NewOs)
    (ht : RealTable t) (ch : Child) (img : Image) (h : (workerNew abi t caps c p os).child = some ch)
    (hs : ch.ending = .started img) :
    img.exe = c.exe ∧ img.argv = c.argv ∧ ∃ fd : Nat, t.get fd = none ∧
      img.envp = c.envp ++ [utf8 (c!"SANDBOX_IPC_HANDLE=" ++ (toString fd).toList)] ∧
      readIpcHandle img.envp = some ⟨some (BitVec.ofNat 32 fd)⟩ ∧ fd < 2 ^ 31 := by
  obtain ⟨a, b, r, w, p', s, f0, f1, f2, hc, hr, rfl⟩ := workerNew_started h hs
  refine ⟨rfl, rfl, pipeFd t a, (pipeFd_fresh t a).1, ?_, ?_, ?_⟩
  · simp only [ipcHandleVar, IPC_HANDLE_ENV_NAME, dec]
    rw [show (toString (pipeFd t a)).toList = Nat.toDigits 10 (pipeFd t a) from Nat.toList_repr]
    rfl
  · have := pipeFd_le t a
    have := ht.small
    exact readIpcHandle_append _ _ (by omega) hc.names
  · have := pipeFd_le t a
    have := ht.small
    omega

/-- C37. If the caller has set `SANDBOX_IPC_HANDLE`, with or without a value, no process is
created and the creation fails. -/
theorem C37_reserved_name (abi : Abi) (t : FdTable) (caps : Caps) (c : ProcessConfig) (p : Policy) (os : NewOs)
    (v : Bytes) (hv : v ∈ c.envp) (hn : EnvName v (utf8 c!"SANDBOX_IPC_HANDLE")) :
    (workerNew abi t caps c p os).child = none ∧ ∃ e, (workerNew abi t caps c p os).result = .error e := by
  have hchild : (workerNew abi t caps c p os).child = none := by
    cases h : (workerNew abi t caps c p os).child with
    | none => rfl
    | some ch =>
      obtain ⟨a, b, r, w, p', hc, _, _⟩ := workerNew_child h
      exact absurd ((nameFromEnv_spec _ _).2 hn) (hc.names v hv)
  refine ⟨hchild, ?_⟩
  rw [workerNew_eq] at hchild ⊢
  cases hs : os.socketpair with
  | error e => exact ⟨_, rfl⟩
  | ok x =>
    obtain ⟨a, b⟩ := x
    simp only [hs] at hchild ⊢
    cases hp : prepareWorker (chanTable t a b) p c (pipeFd t a) with
    | error e => exact ⟨e, rfl⟩
    | ok y =>
      obtain ⟨p', c'⟩ := y
      exact absurd ((nameFromEnv_spec _ _).2 hn) ((prepareWorker_ok hp).2.2.2.1 v hv)

/-! ## C38, C39 -/

theorem inherits_iff (t : FdTable) (fd : Nat) : Inherits t fd ↔ Inheritable t fd := by
  unfold Inherits Inheritable
  have key : ∀ f : BitVec 32, f &&& FD_CLOEXEC = 0#32 ↔ f.getLsbD 0 = false := by
    intro f
    constructor
    · intro h
      have := congrArg (fun x => x.getLsbD 0) h
      simpa [FD_CLOEXEC] using this
    · intro h
      apply BitVec.eq_of_getLsbD_eq
      intro i hi
      by_cases h0 : i = 0
      · subst h0; rw [BitVec.getLsbD_and, h]; rfl
      · simp [FD_CLOEXEC, h0]
  simp only [key]

/-- The table of a started program, in terms of the broker's. -/
theorem started_get {t : FdTable} {caps : Caps} {c : ProcessConfig} {p : Policy} {os : NewOs} {ch : Child}
    {a b r w : Nat} {p' : Policy} {s : EntryState} {f0 f1 f2 : Nat} (hw : t.WF)
    (hc : Created t caps c p os ch a b r w p')
    (hr : Ready os.proc.entry
        (entryParams p' { c with envp := c.envp ++ [ipcHandleVar (pipeFd t a)] } os.proc
          (pipeFd (chanTable t a b) r)) (childTable (chanTable t a b) r w) caps s f0 f1 f2)
    (n : Nat) (hn : 2 < n) :
    (closeOnExec s.table).get n =
      if n ∈ p'.inherit then
        ((childTable (chanTable t a b) r w).get n).filter fun e => decide (e.flags &&& FD_CLOEXEC = 0#32)
      else none := by
  have hcw : (childTable (chanTable t a b) r w).WF := childTable_WF (chanTable_WF hw a b) r w
  rw [closeOnExec_get (hr.wf hcw), hr.get hcw]
  rw [if_neg (by omega), if_neg (by omega), if_neg (by omega)]
  have hne : p'.inherit ≠ [] := List.ne_nil_of_mem ((hc.inherit (pipeFd t a)).2 (.inr (.inr rfl)))
  by_cases hk : n ∈ p'.inherit
  · rw [if_pos hk, if_pos]
    exact ⟨hne, .inr (.inl hk)⟩
  · rw [if_neg hk]
    by_cases he : n = pipeFd (chanTable t a b) r
    · rw [if_pos ⟨hne, .inr (.inr he)⟩, child_get, if_pos he, Option.filter_some]
      exact if_neg (by simp [FD_CLOEXEC])
    · rw [if_neg]
      · rfl
      · rintro ⟨_, h | h | h⟩
        · omega
        · exact hk h
        · exact he h

/-- C38, C39. Above the standard streams, the descriptors of a started worker program are
its end of the channel, and each descriptor which the caller declared and which is open
and inheritable, referring to the same file as in the broker. Nothing else, whatever
else the broker had open. `hp`: a policy and a configuration borrow the handles they are
given, which are therefore open. -/
theorem C38_exact (abi : Abi) (t : FdTable) (caps : Caps) (c : ProcessConfig) (p : Policy) (os : NewOs)
    (ht : RealTable t) (hp : ∀ fd, Declared p c fd → t.get fd ≠ none)
    (ch : Child) (img : Image) (h : (workerNew abi t caps c p os).child = some ch)
    (hs : ch.ending = .started img) :
    ∃ chan a b, t.get chan = none ∧ os.socketpair = .ok (a, b) ∧
      img.envp = c.envp ++ [utf8 (c!"SANDBOX_IPC_HANDLE=" ++ (toString chan).toList)] ∧
      ∀ fd e, 2 < fd → (img.table.get fd = some e ↔
        (fd = chan ∧ e = ⟨b, 0#32⟩) ∨ (Declared p c fd ∧ Inheritable t fd ∧ t.get fd = some e)) := by
  obtain ⟨a, b, r, w, p', s, f0, f1, f2, hc, hr, rfl⟩ := workerNew_started h hs
  obtain ⟨n1, n2, n3, n4, n5, n6, n7, n8, n9, n10⟩ := new_fds t a b r
  refine ⟨pipeFd t a, a, b, n2, hc.socketpair, ?_, ?_⟩
  · simp only [ipcHandleVar, IPC_HANDLE_ENV_NAME, dec]
    rw [show (toString (pipeFd t a)).toList = Nat.toDigits 10 (pipeFd t a) from Nat.toList_repr]
    rfl
  intro fd e hfd
  rw [started_get ht.nodup hc hr fd hfd, child_get]
  have hdecl : fd ∈ p'.inherit ↔ Declared p c fd ∨ fd = pipeFd t a := by
    rw [hc.inherit, mem_streams]
    simp only [Declared, Policy.inheritedHandles]
    grind
  by_cases hw : fd = pipeFd t a
  · rw [if_pos (hdecl.2 (.inr hw)), if_neg (by rw [hw]; exact Ne.symm n9),
      if_neg (by rw [hw]; exact Ne.symm n6), if_pos hw, Option.filter_some, if_pos (by simp [FD_CLOEXEC])]
    constructor
    · intro h; cases h; exact .inl ⟨hw, rfl⟩
    · rintro (⟨_, rfl⟩ | ⟨_, _, h⟩)
      · rfl
      · rw [hw, n2] at h; cases h
  · by_cases hd : Declared p c fd
    · have ho := hp fd hd
      have hne : ∀ m, t.get m = none → fd ≠ m := fun m hm hc => ho (hc ▸ hm)
      rw [if_pos (hdecl.2 (.inl hd)), if_neg (hne _ n7), if_neg (hne _ n4), if_neg hw, if_neg (hne _ n1)]
      rw [← inherits_iff]
      constructor
      · intro h
        obtain ⟨h1, h2⟩ := Option.filter_eq_some_iff.1 h
        exact .inr ⟨hd, ⟨e, h1, by simpa using h2⟩, h1⟩
      · rintro (⟨h, _⟩ | ⟨_, ⟨e', h1, h2⟩, h3⟩)
        · exact absurd h hw
        · rw [h3] at h1
          cases h1
          exact Option.filter_eq_some_iff.2 ⟨h3, by simpa using h2⟩
    · rw [if_neg (fun hc => (hdecl.1 hc).elim hd hw)]
      constructor
      · intro h; cases h
      · rintro (⟨h, _⟩ | ⟨h, _⟩)
        · exact absurd h hw
        · exact absurd h hd

/-- C38. If a redirected stream is not inheritable (or not open), no process is created
and the creation fails. -/
theorem C38_not_inheritable (abi : Abi) (t : FdTable) (caps : Caps) (c : ProcessConfig) (p : Policy)
    (os : NewOs) (fd : Nat) (hfd : c.stdin = some fd ∨ c.stdout = some fd ∨ c.stderr = some fd)
    (hopen : t.get fd ≠ none) (hn : ¬ Inheritable t fd) :
    (workerNew abi t caps c p os).child = none ∧ ∃ e, (workerNew abi t caps c p os).result = .error e := by
  have key : ∀ a b, ¬ Inherits (chanTable t a b) fd := by
    rintro a b ⟨e, he, hf⟩
    rw [chanTable_get] at he
    have h1 : fd ≠ pipeFd t a := fun hc => hopen (hc ▸ (pipeFd_fresh t a).1)
    have h2 : fd ≠ t.lowestFree := fun hc => hopen (hc ▸ t.lowestFree_spec.1)
    rw [if_neg h1, if_neg h2] at he
    exact hn ((inherits_iff t fd).1 ⟨e, he, hf⟩)
  rw [workerNew_eq]
  cases hs : os.socketpair with
  | error e => exact ⟨rfl, _, rfl⟩
  | ok x =>
    obtain ⟨a, b⟩ := x
    simp only
    cases hp : prepareWorker (chanTable t a b) p c (pipeFd t a) with
    | error e => exact ⟨rfl, e, rfl⟩
    | ok y => exact absurd ((prepareWorker_ok hp).1 fd (mem_streams.2 hfd)) (key a b)

/-- C38. A handle is accepted in a policy exactly if it is inheritable. -/
theorem C38_allow (t : FdTable) (p : Policy) (fd : Nat) :
    (∃ p', allowHandle t p fd = .ok p') ↔ Inheritable t fd := by
  rw [← inherits_iff]
  exact ⟨fun ⟨_, h⟩ => (allowHandle_ok h).1, fun h => ⟨_, allowHandle_of h⟩⟩

/-- C39. Every descriptor of a started worker program is 0, 1, 2, its channel, or was
declared by the caller, whatever the broker had open. -/
theorem C39_nothing_leaks (abi : Abi) (t : FdTable) (caps : Caps) (c : ProcessConfig) (p : Policy) (os : NewOs)
    (ht : RealTable t) (ch : Child) (img : Image) (h : (workerNew abi t caps c p os).child = some ch)
    (hs : ch.ending = .started img) :
    ∃ chan, t.get chan = none ∧
      img.envp = c.envp ++ [utf8 (c!"SANDBOX_IPC_HANDLE=" ++ (toString chan).toList)] ∧
      ∀ fd e, img.table.get fd = some e → fd ≤ 2 ∨ fd = chan ∨ Declared p c fd := by
  obtain ⟨a, b, r, w, p', s, f0, f1, f2, hc, hr, rfl⟩ := workerNew_started h hs
  refine ⟨pipeFd t a, (pipeFd_fresh t a).1, ?_, ?_⟩
  · simp only [ipcHandleVar, IPC_HANDLE_ENV_NAME, dec]
    rw [show (toString (pipeFd t a)).toList = Nat.toDigits 10 (pipeFd t a) from Nat.toList_repr]
    rfl
  intro fd e he
  by_cases hfd : 2 < fd
  · rw [started_get ht.nodup hc hr fd hfd] at he
    split at he
    · rename_i hm
      have := (hc.inherit fd).1 hm
      rw [mem_streams] at this
      simp only [Declared, Policy.inheritedHandles]
      grind
    · cases he
  · left; omega

/-! ## C40, C41 -/

theorem started_std {t : FdTable} {caps : Caps} {c : ProcessConfig} {p : Policy} {os : NewOs} {ch : Child}
    {a b r w : Nat} {p' : Policy} {s : EntryState} {f0 f1 f2 : Nat} (hw : t.WF)
    (_hc : Created t caps c p os ch a b r w p')
    (hr : Ready os.proc.entry
        (entryParams p' { c with envp := c.envp ++ [ipcHandleVar (pipeFd t a)] } os.proc
          (pipeFd (chanTable t a b) r)) (childTable (chanTable t a b) r w) caps s f0 f1 f2) :
    (closeOnExec s.table).get 0 = some ⟨f0, 0#32⟩ ∧ (closeOnExec s.table).get 1 = some ⟨f1, 0#32⟩
    ∧ (closeOnExec s.table).get 2 = some ⟨f2, 0#32⟩ := by
  have hcw : (childTable (chanTable t a b) r w).WF := childTable_WF (chanTable_WF hw a b) r w
  simp only [closeOnExec_get (hr.wf hcw), hr.get hcw]
  refine ⟨?_, ?_, ?_⟩ <;> simp [Option.filter_some]

/-- The new process sees the file of a redirected stream where the caller put it. -/
theorem kept_stream {t : FdTable} {caps : Caps} {c : ProcessConfig} {p : Policy} {os : NewOs} {ch : Child}
    {a b r w : Nat} {p' : Policy} (hw : t.WF) (_hc : Created t caps c p os ch a b r w p') {h : Nat}
    (hopen : t.get h ≠ none) {e : FdEntry}
    (he : FdTable.get ((childTable (chanTable t a b) r w).filter fun x => decide (Kept
        (entryParams p' { c with envp := c.envp ++ [ipcHandleVar (pipeFd t a)] } os.proc
          (pipeFd (chanTable t a b) r)) x.1)) h = some e) : t.get h = some e := by
  rw [kept_get (childTable_WF (chanTable_WF hw a b) r w)] at he
  split at he
  · rw [child_get] at he
    obtain ⟨n1, n2, n3, n4, n5, n6, n7, n8, n9, n10⟩ := new_fds t a b r
    have hne : ∀ m, t.get m = none → h ≠ m := fun m hm hc => hopen (hc ▸ hm)
    rwa [if_neg (hne _ n7), if_neg (hne _ n4), if_neg (hne _ n2), if_neg (hne _ n1)] at he
  · cases he

/-- C40, full statement: each standard stream of a started program is the one that was
configured. -/
def Spec.StreamsAsConfigured : Prop :=
  ∀ (abi : Abi) (t : FdTable) (caps : Caps) (c : ProcessConfig) (p : Policy) (os : NewOs) (ch : Child)
    (img : Image), RealTable t → (∀ fd, Declared p c fd → t.get fd ≠ none) →
    (workerNew abi t caps c p os).child = some ch → ch.ending = .started img →
    StreamIs t img 0 c.stdin ∧ StreamIs t img 1 c.stdout ∧ StreamIs t img 2 c.stderr

/-- C40, what holds. Missing: stdout redirected to the broker's descriptor 0, stderr to
its descriptor 0 or 1 (see `C40_violated`). Standard input is always right. -/
theorem C40_streams_partial (abi : Abi) (t : FdTable) (caps : Caps) (c : ProcessConfig) (p : Policy) (os : NewOs)
    (ht : RealTable t) (hp : ∀ fd, Declared p c fd → t.get fd ≠ none)
    (ch : Child) (img : Image) (h : (workerNew abi t caps c p os).child = some ch)
    (hs : ch.ending = .started img) :
    StreamIs t img 0 c.stdin ∧ (c.stdout ≠ some 0 → StreamIs t img 1 c.stdout) ∧
    (c.stderr ≠ some 0 → c.stderr ≠ some 1 → StreamIs t img 2 c.stderr) := by
  obtain ⟨a, b, r, w, p', s, f0, f1, f2, hc, hr, rfl⟩ := workerNew_started h hs
  obtain ⟨g0, g1, g2⟩ := started_std ht.nodup hc hr
  refine ⟨?_, ?_, ?_⟩
  · have hsrc := hr.src0
    cases hi : c.stdin with
    | none => exact ⟨_, _, g0, hr.null0 hi⟩
    | some x =>
      simp only [entryParams, hi, stdSource] at hsrc
      obtain ⟨e, he, hf⟩ := hsrc
      rw [FdTable.get_erase] at he
      split at he
      · cases he
      · exact ⟨e, _, kept_stream ht.nodup hc (hp x (.inr (.inl hi))) he, g0, hf.symm⟩
  · intro h0
    have hsrc := hr.src1
    cases hi : c.stdout with
    | none => exact ⟨_, _, g1, hr.null1 hi⟩
    | some x =>
      simp only [entryParams, hi, stdSource] at hsrc
      obtain ⟨e, he, hf⟩ := hsrc
      have hx0 : x ≠ 0 := fun hc => h0 (by rw [hi, hc])
      rw [FdTable.get_erase] at he
      split at he
      · cases he
      · rw [FdTable.get_cons, if_neg hx0, FdTable.get_erase, if_neg hx0] at he
        exact ⟨e, _, kept_stream ht.nodup hc (hp x (.inr (.inr (.inl hi)))) he, g1, hf.symm⟩
  · intro h0 h1
    have hsrc := hr.src2
    cases hi : c.stderr with
    | none => exact ⟨_, _, g2, hr.null2 hi⟩
    | some x =>
      simp only [entryParams, hi, stdSource] at hsrc
      obtain ⟨e, he, hf⟩ := hsrc
      have hx0 : x ≠ 0 := fun hc => h0 (by rw [hi, hc])
      have hx1 : x ≠ 1 := fun hc => h1 (by rw [hi, hc])
      rw [FdTable.get_erase] at he
      split at he
      · cases he
      · rw [FdTable.get_cons, if_neg hx1, FdTable.get_erase, if_neg hx1, FdTable.get_cons, if_neg hx0,
          FdTable.get_erase, if_neg hx0] at he
        exact ⟨e, _, kept_stream ht.nodup hc (hp x (.inr (.inr (.inr hi)))) he, g2, hf.symm⟩

/-- A system on which everything succeeds. -/
def goodEntry : EntryOs where
  noNewPrivs := true
  setgroups := ⟨.ok 70, true⟩
  uidMap := ⟨.ok 71, true⟩
  gidMap := ⟨.error 13, true⟩
  unshareIpc := true
  unshareNet := true
  unshareUts := true
  setHostname := true
  unshareCgroup := false
  unshareMount := true
  mountProc := true
  caps := ⟨true, true, true, true, 41, fun _ => true, true, true⟩
  openFds := .ok 72
  fdopendir := true
  readdirFails := none
  close := fun _ => true
  dup := fun _ => true
  openNull := fun n => .ok (80 + n)
  execve := none
  execGain := BitVec.allOnes 64
  execEffective := BitVec.allOnes 64

def goodOs : NewOs where
  socketpair := .ok (50, 51)
  proc := ⟨.ok (60, 61), 1000, 1000, .error 1, .ok 4321, .error 1, none, goodEntry⟩
  first := .datagram ⟨[0], []⟩
  osFirst := ⟨2, .ok 9, none⟩
  filter := some [6, 0]
  spawnOk := true

/-- A broker with its standard streams, an inheritable file on 3, a private one on 4, and
another inheritable one on 7. -/
def brokerTable : FdTable :=
  [(0, ⟨10, 0#32⟩), (1, ⟨11, 0#32⟩), (2, ⟨12, 0#32⟩), (3, ⟨13, 0#32⟩), (4, ⟨14, 1#32⟩), (7, ⟨17, 0#32⟩)]

def fullCaps : Caps := ⟨0x1ffffffffff#64, 0x1ffffffffff#64, 0#64, 0#64, 0x1ffffffffff#64⟩

/-- A program with standard output redirected to descriptor 3, and a variable. -/
def someConfig : ProcessConfig :=
  (ProcessConfig.new (utf8 c!"/bin/x") [utf8 c!"x", utf8 c!"-v"]).calls [.stdout (some 3), .env (utf8 c!"A=1")]

theorem brokerTable_real : RealTable brokerTable := ⟨by decide, by decide, by decide⟩

/-- The worker that results: it has the standard streams, descriptor 3 and its channel on
6. Descriptors 4 and 7 of the broker are gone. -/
example : (workerNew .lp64 brokerTable fullCaps someConfig tmpPolicy goodOs).child =
    some ⟨4321, true, .started {
      exe := utf8 c!"/bin/x"
      argv := [utf8 c!"x", utf8 c!"-v"]
      envp := [utf8 c!"A=1", utf8 c!"SANDBOX_IPC_HANDLE=6"]
      table := [(2, ⟨82, 0#32⟩), (1, ⟨13, 0#32⟩), (0, ⟨80, 0#32⟩), (6, ⟨51, 0#32⟩), (3, ⟨13, 0#32⟩)]
      caps := ⟨0#64, 0#64, 0#64, 0#64, 0#64⟩
      noNewPrivs := true
      isolation := ⟨true, true, true, true, false, true, true⟩
      opened := [(82, c!"/dev/null", O_RDONLY), (80, c!"/dev/null", O_RDONLY)] }⟩ := by
  decide +kernel

example : ∀ fd, Declared tmpPolicy someConfig fd → brokerTable.get fd ≠ none := by
  intro fd h
  have h1 : tmpPolicy.inheritedHandles = [] := by decide +kernel
  have h2 : someConfig.stdin = none ∧ someConfig.stdout = some 3 ∧ someConfig.stderr = none := by
    decide +kernel
  simp only [Declared, h1, h2.1, h2.2.1, h2.2.2, List.not_mem_nil, reduceCtorEq, Option.some.injEq, false_or,
    or_false] at h
  rw [← h]; decide

/-- A handle that is not inheritable is refused. -/
example : brokerTable.get 4 ≠ none ∧ ¬ Inheritable brokerTable 4 ∧
    ({ someConfig with stdin := some 4 } : ProcessConfig).stdin = some 4 := by
  refine ⟨by decide, ?_, rfl⟩
  rintro ⟨e, h1, h2⟩
  cases h1
  revert h2
  decide

example : utf8 c!"SANDBOX_IPC_HANDLE" ∈ ({ someConfig with envp := [utf8 c!"SANDBOX_IPC_HANDLE"] } : ProcessConfig).envp
    ∧ EnvName (utf8 c!"SANDBOX_IPC_HANDLE") (utf8 c!"SANDBOX_IPC_HANDLE") :=
  ⟨by simp, by decide, .inl rfl⟩

/-- Standard output redirected to the broker's standard input. -/
def aliasConfig : ProcessConfig := { someConfig with stdout := some 0 }

/-- C40 is false: standard output is then the null device opened as standard input,
because descriptor 0 has already been replaced when it is duplicated. -/
theorem C40_violated : ¬ Spec.StreamsAsConfigured := by
  intro h
  have hr : (workerNew .lp64 brokerTable fullCaps aliasConfig tmpPolicy goodOs).child =
      some ⟨4321, true, .started {
        exe := utf8 c!"/bin/x"
        argv := [utf8 c!"x", utf8 c!"-v"]
        envp := [utf8 c!"A=1", utf8 c!"SANDBOX_IPC_HANDLE=6"]
        table := [(2, ⟨82, 0#32⟩), (1, ⟨80, 0#32⟩), (0, ⟨80, 0#32⟩), (6, ⟨51, 0#32⟩)]
        caps := ⟨0#64, 0#64, 0#64, 0#64, 0#64⟩
        noNewPrivs := true
        isolation := ⟨true, true, true, true, false, true, true⟩
        opened := [(82, c!"/dev/null", O_RDONLY), (80, c!"/dev/null", O_RDONLY)] }⟩ := by
    decide +kernel
  have := (h .lp64 brokerTable fullCaps aliasConfig tmpPolicy goodOs _ _ brokerTable_real ?_ hr rfl).2.1
  · obtain ⟨e, e', h1, h2, h3⟩ := this
    cases h1
    cases h2
    exact absurd h3 (by decide)
  · intro fd h
    have h1 : tmpPolicy.inheritedHandles = [] := by decide +kernel
    have h2 : aliasConfig.stdin = none ∧ aliasConfig.stdout = some 0 ∧ aliasConfig.stderr = none := by
      decide +kernel
    simp only [Declared, h1, h2.1, h2.2.1, h2.2.2, List.not_mem_nil, reduceCtorEq, Option.some.injEq, false_or,
      or_false] at h
    rw [← h]; decide

/-- C40. A stream cannot be redirected to the descriptor it already is: the program is
never started. -/
theorem C40_same_number_never_starts (os : EntryOs) (p : EntryParams) (t : FdTable) (caps : Caps)
    (h : p.stdin = some 0 ∨ p.stdout = some 1 ∨ p.stderr = some 2) :
    cloneEntrypoint os p t caps = .gaveUp := by
  rcases cloneEntrypoint_cases os p t caps with hg | ⟨s, f0, f1, f2, hr, _⟩
  · exact hg
  · rcases h with h | h | h
    · have := hr.src0
      simp only [h, stdSource, FdTable.get_erase, if_true] at this
      obtain ⟨e, he, _⟩ := this
      cases he
    · have := hr.src1
      simp only [h, stdSource, FdTable.get_erase, if_true] at this
      obtain ⟨e, he, _⟩ := this
      cases he
    · have := hr.src2
      simp only [h, stdSource, FdTable.get_erase, if_true] at this
      obtain ⟨e, he, _⟩ := this
      cases he

end Iris
