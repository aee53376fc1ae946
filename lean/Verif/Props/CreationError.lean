import Verif.Spec.CreationError
import Verif.Props.Startup
import Verif.Props.ChannelError
/-! # C127: the error of a failed creation says what failed -/
namespace Iris
open Spec

theorem recvRequest_nil : recvRequest [] = none := by decide

theorem classify_exited {i : Incoming} (h : i = .eof ∨ i = .datagram ⟨[], []⟩) : classify i = .hangup := by
  rcases h with rfl | rfl
  · rfl
  · simp [classify, recvRequest_nil]

theorem classify_error (c : Nat) : classify (.error c) = .hangup := rfl

theorem classify_garbled {data : Bytes} (h : 65536 < data.length ∨ recvRequest data = none) :
    classify (.datagram ⟨data, []⟩) = .hangup := by
  rw [classify]
  rcases h with h | h
  · rw [if_neg (by omega)]
  · rw [h]; split <;> rfl

theorem Spec.Cause.unique {t : FdTable} {c : ProcessConfig} {p : Policy} {os : NewOs} {ending : Option EntryEnd} {n : Nat}
    {e e' : BrokerError} (h : Cause t c p os ending n e) (h' : Cause t c p os ending n e') : e = e' := by
  have x1 : ∀ {i : Incoming} {r : IPCRequest}, i = .eof ∨ i = .datagram ⟨[], []⟩ → classify i ≠ .request r := by
    intro i r h; rw [classify_exited h]; simp
  have x2 : ∀ {d : Bytes} {i : Incoming} {r : IPCRequest}, i = .datagram ⟨d, []⟩ →
      65536 < d.length ∨ recvRequest d = none → classify i ≠ .request r := by
    intro d i r e h; rw [e, classify_garbled h]; simp
  have x3 : ∀ {i : Incoming} {r : IPCRequest} {c : Nat}, i = .error c → classify i ≠ .request r := by
    intro i r c e; rw [e, classify_error]; simp
  have x4 : ∀ {i : Incoming} {c : Nat}, i = .error c → ¬ (i = .eof ∨ i = .datagram ⟨[], []⟩) := by
    intro i c h; rw [h]; simp
  have x5 : ∀ {i : Incoming} {d : Bytes}, i = .datagram ⟨d, []⟩ → d ≠ [] → ¬ (i = .eof ∨ i = .datagram ⟨[], []⟩) := by
    intro i d h hd; rw [h]; simp [hd]
  cases h <;> cases h' <;> first
    | rfl
    | (exfalso; exact x1 ‹_› ‹_›)
    | (exfalso; exact x2 ‹_› ‹_› ‹_›)
    | (exfalso; exact x3 ‹_› ‹_›)
    | (exfalso; exact x4 ‹_› ‹_›)
    | (exfalso; exact x5 ‹_› ‹_› ‹_›)
    | simp_all

/-- What the thread of a new worker starts with. -/
theorem startIpcLoop_cause (abi : Abi) (t : FdTable) (c : ProcessConfig) (p : Policy) (os : NewOs) (ending : Option EntryEnd)
    (t' : FdTable) (chan : Nat) (hf : ∀ d, os.first = .datagram d → d.files = [])
    (h8 : ∀ m, m < 9 → ∀ e, ¬ Cause t c p os ending m e) :
    match (startIpcLoop abi p.runtime t' chan os.first os.osFirst os.filter os.spawnOk).1 with
    | .error e => FirstCause t c p os ending e
    | .ok _ => ∀ n e, ¬ Cause t c p os ending n e := by
  have first : ∀ e, Cause t c p os ending 9 e → FirstCause t c p os ending e := fun e h => ⟨9, h, h8⟩
  cases hc : classify os.first with
  | request r =>
    by_cases hr : r = .initialization
    · subst hr
      have h9 : ∀ m, m < 10 → ∀ e, ¬ Cause t c p os ending m e := by
        intro m hm e hx
        rcases Nat.lt_or_ge m 9 with h | h
        · exact h8 m h e hx
        · have : m = 9 := by omega
          subst this
          cases hx with
          | exited h => rw [classify_exited h] at hc; cases hc
          | receive h => rw [h, classify_error] at hc; cases hc
          | garbled h _ hg => rw [h, classify_garbled hg] at hc; cases hc
          | unexpected h hr => rw [hc] at h; cases h; exact hr rfl
      rw [startIpcLoop, recv_request hc]
      simp only []
      cases hs : sendResponse (.initialization p.runtime (os.filter.getD [])) with
      | none => exact ⟨10, .send (.inl hs), h9⟩
      | some data =>
        cases he : os.osFirst.sendError with
        | some code =>
          obtain ⟨x, hx⟩ := channelSend_fails abi t' (some data) none code
          rw [hx]
          exact ⟨10, .send (.inr (by rw [he]; simp)), h9⟩
        | none =>
          rw [channelSend_plain]
          simp only []
          have h10 : ∀ m, m < 11 → ∀ e, ¬ Cause t c p os ending m e := by
            intro m hm e hx
            rcases Nat.lt_or_ge m 10 with h | h
            · exact h9 m h e hx
            · have : m = 10 := by omega
              subst this
              cases hx with
              | send h =>
                rcases h with h | h
                · rw [hs] at h; cases h
                · exact h he
          cases hsp : os.spawnOk with
          | false => exact ⟨11, .thread hsp, h10⟩
          | true =>
            simp only [if_true]
            intro n e hx
            rcases Nat.lt_or_ge n 11 with h | h
            · exact h10 n h e hx
            · cases hx <;> first | omega | (rename_i h'; rw [hsp] at h'; cases h')
    · rw [startIpcLoop, recv_request hc]
      cases r with
      | initialization => exact absurd rfl hr
      | openFile path flags => exact first _ (.unexpected hc hr)
      | syscall nb args ip => exact first _ (.unexpected hc hr)
  | hangup =>
    cases hi : os.first with
    | error code => exact first _ (.receive hi)
    | eof => exact first _ (.exited (.inl hi))
    | datagram d =>
      obtain ⟨data, files⟩ := d
      have := hf _ hi
      simp only at this
      subst this
      rw [startIpcLoop, channelRecv_plain]
      rw [hi, classify] at hc
      by_cases hlen : IPC_MESSAGE_MAX_SIZE < data.length
      · rw [if_pos hlen]
        exact first _ (.garbled hi (by rintro rfl; simp at hlen) (.inl hlen))
      · rw [if_neg hlen]
        by_cases h0 : data.length = 0
        · rw [if_pos h0]
          have : data = [] := List.length_eq_zero_iff.1 h0
          exact first _ (.exited (.inr (by rw [hi, this])))
        · rw [if_neg h0]
          have hd : data ≠ [] := fun h => h0 (by rw [h]; rfl)
          have hl : data.length ≤ 65536 := by simp only [IPC_MESSAGE_MAX_SIZE] at hlen; omega
          rw [if_pos hl] at hc
          cases hr : deserialize decRequest data with
          | none =>
            exact first _ (.garbled hi hd (.inr (by simp [recvRequest, hr])))
          | some m => simp [recvRequest, hr] at hc

/-- A stream which is open but not inheritable. -/
theorem allowHandle_refused {t : FdTable} {p : Policy} {fd : Nat} (ho : t.get fd ≠ none) (hn : ¬ Inherits t fd) :
    allowHandle t p fd = .error (.cannotBuildPolicyForWorker (.handleNotInheritable fd)) := by
  obtain ⟨e, he⟩ := Option.ne_none_iff_exists'.1 ho
  have hf : ¬ e.flags &&& FD_CLOEXEC = 0#32 := fun h => hn ⟨e, he, h⟩
  have hb : (e.flags &&& FD_CLOEXEC == 0#32) = false := by rw [beq_eq_false_iff_ne]; exact hf
  simp only [allowHandle, isInheritable, sysGetFd, he, Except.mapError, hb, Policy.allowInheritHandle]

/-- The channel does not change what can be inherited of the open descriptors. -/
theorem chanTable_inherits (t : FdTable) (a b : Nat) {fd : Nat} (h : t.get fd ≠ none) :
    Inherits (chanTable t a b) fd ↔ Inheritable t fd := by
  rw [← inherits_iff, Inherits, Inherits, chanTable_get, if_neg, if_neg]
  · rintro rfl; exact h t.lowestFree_spec.1
  · rintro rfl; exact h (pipeFd_fresh t a).1

/-- The steps 1 to 4. -/
theorem prepareWorker_cause (t : FdTable) (c : ProcessConfig) (p : Policy) (os : NewOs) (ending : Option EntryEnd) (a b : Nat)
    (hopen : ∀ fd, c.stdin = some fd ∨ c.stdout = some fd ∨ c.stderr = some fd → t.get fd ≠ none)
    (h0 : os.socketpair = .ok (a, b)) :
    match prepareWorker (chanTable t a b) p c (pipeFd t a) with
    | .error e => ∃ n, n < 5 ∧ Cause t c p os ending n e ∧ ∀ m, m < n → ∀ e', ¬ Cause t c p os ending m e'
    | .ok _ => ∀ n, n < 5 → ∀ e, ¬ Cause t c p os ending n e := by
  have hw : Inherits (chanTable t a b) (pipeFd t a) := ⟨⟨b, 0#32⟩, by rw [chanTable_get, if_pos rfl], by simp⟩
  have hget : ∀ fd, t.get fd ≠ none → (chanTable t a b).get fd = t.get fd := by
    intro fd h
    rw [chanTable_get, if_neg, if_neg]
    · rintro rfl; exact h t.lowestFree_spec.1
    · rintro rfl; exact h (pipeFd_fresh t a).1
  have hinh : ∀ fd, t.get fd ≠ none → (Inherits (chanTable t a b) fd ↔ Inheritable t fd) :=
    fun fd h => chanTable_inherits t a b h
  -- one stream
  have one : ∀ (p : Policy) fd, t.get fd ≠ none →
      (Inheritable t fd ∧ ∃ p', allowHandle (chanTable t a b) p fd = .ok p') ∨
      (¬ Inheritable t fd ∧ allowHandle (chanTable t a b) p fd =
        .error (.cannotBuildPolicyForWorker (.handleNotInheritable fd))) := by
    intro p fd h
    by_cases hi : Inheritable t fd
    · exact .inl ⟨hi, _, allowHandle_of ((hinh fd h).2 hi)⟩
    · exact .inr ⟨hi, allowHandle_refused (by rw [hget fd h]; exact h) fun hx => hi ((hinh fd h).1 hx)⟩
  -- what a list of streams gives
  have more : ∀ (l : List Nat) (p : Policy), (∀ fd ∈ l, t.get fd ≠ none) →
      ((∀ fd ∈ l, Inheritable t fd) ∧ ∃ p', allowHandles (chanTable t a b) p l = .ok p') ∨
      ∃ pre fd post, l = pre ++ fd :: post ∧ (∀ x ∈ pre, Inheritable t x) ∧ ¬ Inheritable t fd ∧
        allowHandles (chanTable t a b) p l = .error (.cannotBuildPolicyForWorker (.handleNotInheritable fd)) := by
    intro l
    induction l with
    | nil => exact fun p _ => .inl ⟨by simp, p, rfl⟩
    | cons fd l ih =>
      intro p hl
      rw [allowHandles]
      rcases one p fd (hl fd List.mem_cons_self) with ⟨h1, p', h2⟩ | ⟨h1, h2⟩
      · rw [h2]
        simp only []
        rcases ih p' (fun x hx => hl x (List.mem_cons_of_mem _ hx)) with ⟨h3, h4⟩ | ⟨pre, x, post, rfl, h4, h5, h6⟩
        · refine .inl ⟨fun x hx => ?_, h4⟩
          rcases List.mem_cons.1 hx with rfl | hx
          · exact h1
          · exact h3 x hx
        · refine .inr ⟨fd :: pre, x, post, rfl, fun y hy => ?_, h5, h6⟩
          rcases List.mem_cons.1 hy with rfl | hy
          · exact h1
          · exact h4 y hy
      · rw [h2]
        exact .inr ⟨[], fd, l, rfl, by simp, h1, rfl⟩
  have c0 : ∀ e, ¬ Cause t c p os ending 0 e := by
    intro e h; cases h with | channel h => rw [h0] at h; cases h
  rw [prepareWorker, allowHandle_of hw]
  simp only []
  have hst : ∀ fd ∈ [c.stdin, c.stdout, c.stderr].filterMap id, t.get fd ≠ none := fun fd h => hopen fd (mem_streams.1 h)
  rcases more _ { p with inherit := setInsert p.inherit (pipeFd t a) } hst with ⟨h1, p', h2⟩ | ⟨pre, fd, post, hl, h1, h2, h3⟩
  · rw [h2]
    simp only []
    have hin : ∀ fd, c.stdin = some fd ∨ c.stdout = some fd ∨ c.stderr = some fd → Inheritable t fd :=
      fun fd h => h1 fd (mem_streams.2 h)
    have c3 : ∀ m, m < 4 → ∀ e, ¬ Cause t c p os ending m e := by
      intro m hm e h
      cases h with
      | channel h => exact c0 _ (.channel h)
      | stdin h hn => exact hn (hin _ (.inl h))
      | stdout h hn => exact hn (hin _ (.inr (.inl h)))
      | stderr h hn => exact hn (hin _ (.inr (.inr h)))
      | _ => omega
    rw [ProcessConfig.setEnv]
    by_cases hany : c.envp.any (fun prev => nameFromEnv prev == nameFromEnv (ipcHandleVar (pipeFd t a))) = true
    · rw [if_pos hany]
      simp only []
      rw [nameFromEnv_ipc]
      obtain ⟨v, hv, hx⟩ := List.any_eq_true.1 hany
      rw [beq_iff_eq, nameFromEnv_ipc] at hx
      exact ⟨4, by omega, .environment hv ((nameFromEnv_spec v _).1 hx), c3⟩
    · rw [if_neg hany]
      simp only []
      intro m hm e h
      rcases Nat.lt_or_ge m 4 with hm' | hm'
      · exact c3 m hm' e h
      · cases h with
        | environment hv hn =>
          apply hany
          rw [List.any_eq_true]
          refine ⟨_, hv, ?_⟩
          rw [beq_iff_eq, nameFromEnv_ipc]
          exact (nameFromEnv_spec _ _).2 hn
        | _ => omega
  · rw [h3]
    simp only []
    have which : c.stdin = some fd ∨ (c.stdout = some fd ∧ ∀ x, c.stdin = some x → Inheritable t x) ∨
        (c.stderr = some fd ∧ (∀ x, c.stdin = some x → Inheritable t x) ∧ ∀ x, c.stdout = some x → Inheritable t x) := by
      clear hst h3
      generalize c.stdin = s0 at hl ⊢
      generalize c.stdout = s1 at hl ⊢
      generalize c.stderr = s2 at hl ⊢
      rcases pre with _ | ⟨x, _ | ⟨y, _ | ⟨z, pre⟩⟩⟩ <;> cases s0 <;> cases s1 <;> cases s2 <;>
        simp at hl h1 ⊢ <;> grind
    have no : ∀ {x e}, c.stdin = some x → Inheritable t x → ¬ Cause t c p os ending 1 e := by
      intro x e h hi hx
      cases hx with | stdin h' hn => rw [h] at h'; cases h'; exact hn hi
    rcases which with h | ⟨h, i0⟩ | ⟨h, i0, i1⟩
    · refine ⟨1, by omega, .stdin h h2, fun m hm e => ?_⟩
      have : m = 0 := by omega
      subst this; exact c0 e
    · refine ⟨2, by omega, .stdout h h2, fun m hm e hx => ?_⟩
      cases hx with
      | channel h => exact c0 _ (.channel h)
      | stdin h' hn => exact hn (i0 _ h')
      | _ => omega
    · refine ⟨3, by omega, .stderr h h2, fun m hm e hx => ?_⟩
      cases hx with
      | channel h => exact c0 _ (.channel h)
      | stdin h' hn => exact hn (i0 _ h')
      | stdout h' hn => exact hn (i1 _ h')
      | _ => omega

/-- Steps 5 to 7. -/
theorem newProcess_cause (t t' : FdTable) (caps : Caps) (c c' : ProcessConfig) (p p' : Policy) (os : NewOs)
    (ending : Option EntryEnd) (hargv : c'.argv = c.argv) (h4 : ∀ m, m < 5 → ∀ e, ¬ Cause t c p os ending m e)
    (hch : (newProcess p' c' t' caps os.proc).child = none) :
    ∃ e, (newProcess p' c' t' caps os.proc).result = .error e ∧ FirstCause t c p os ending e := by
  rw [newProcess_eq] at hch ⊢
  by_cases ha : c'.argv = []
  · rw [if_pos ha]
    exact ⟨_, rfl, 5, .arguments (hargv ▸ ha), h4⟩
  · rw [if_neg ha] at hch ⊢
    have h5 : ∀ m, m < 6 → ∀ e, ¬ Cause t c p os ending m e := by
      intro m hm e hx
      rcases Nat.lt_or_ge m 5 with h | h
      · exact h4 m h e hx
      · cases hx with
        | arguments h' => exact ha (hargv ▸ h')
        | _ => omega
    cases hp : os.proc.pipe with
    | error code => exact ⟨_, rfl, 6, .pipe hp, h5⟩
    | ok x =>
      obtain ⟨r, w⟩ := x
      simp only [hp] at hch ⊢
      have h6 : ∀ m, m < 7 → ∀ e, ¬ Cause t c p os ending m e := by
        intro m hm e hx
        rcases Nat.lt_or_ge m 6 with h | h
        · exact h5 m h e hx
        · cases hx with
          | pipe h' => rw [hp] at h'; cases h'
          | _ => omega
      cases h1 : os.proc.clone1 with
      | ok pid => simp [tryClone, h1] at hch
      | error c1 =>
        cases h2 : os.proc.clone2 with
        | ok pid => simp [tryClone, h1, h2] at hch
        | error c2 =>
          cases h3 : os.proc.clone3 with
          | ok pid => simp [tryClone, h1, h2, h3] at hch
          | error c3 =>
            refine ⟨_, ?_, 7, .clone h1 h2 h3, h6⟩
            simp [tryClone, h1, h2, h3]

/-- A creation fails with the error of its first failing step, or none of its steps fails. -/
theorem workerNew_outcome (abi : Abi) (t : FdTable) (caps : Caps) (c : ProcessConfig) (p : Policy) (os : NewOs)
    (ht : RealTable t)
    (hopen : ∀ fd, c.stdin = some fd ∨ c.stdout = some fd ∨ c.stderr = some fd → t.get fd ≠ none)
    (hread : os.proc.readError = none) (hint : ∀ e, os.proc.entry.execve = some e → e < 2 ^ 31)
    (hf : ∀ d, os.first = .datagram d → d.files = []) :
    match (workerNew abi t caps c p os).result with
    | .error e => FirstCause t c p os ((workerNew abi t caps c p os).child.map Child.ending) e
    | .ok _ => ∀ n e, ¬ Cause t c p os ((workerNew abi t caps c p os).child.map Child.ending) n e := by
  cases hch : (workerNew abi t caps c p os).child with
  | none =>
    simp only [Option.map_none]
    rw [workerNew_eq] at hch ⊢
    cases h0 : os.socketpair with
    | error code => exact ⟨0, .channel h0, fun m hm => by omega⟩
    | ok x =>
      obtain ⟨a, b⟩ := x
      simp only [h0] at hch ⊢
      have hprep := prepareWorker_cause t c p os none a b hopen h0
      cases hp : prepareWorker (chanTable t a b) p c (pipeFd t a) with
      | error e =>
        rw [hp] at hprep
        obtain ⟨n, _, h⟩ := hprep
        exact ⟨n, h⟩
      | ok y =>
        obtain ⟨p', c'⟩ := y
        rw [hp] at hprep
        simp only [hp] at hch ⊢
        obtain ⟨_, _, _, _, h5⟩ := prepareWorker_ok hp
        have hn : (newProcess p' c' (chanTable t a b) caps os.proc).child = none := by
          revert hch
          cases (newProcess p' c' (chanTable t a b) caps os.proc).result with
          | error e => exact id
          | ok pid => simp only; split <;> exact id
        obtain ⟨e, he, hfc⟩ := newProcess_cause t (chanTable t a b) caps c c' p p' os none (by rw [h5]) hprep hn
        rw [he]
        exact hfc
  | some ch =>
    simp only [Option.map_some]
    obtain ⟨a, b, r, w, p', hc, hbad, hgood⟩ := workerNew_child hch
    have h7 : ∀ m, m < 8 → ∀ e, ¬ Cause t c p os (some ch.ending) m e := by
      intro m hm e hx
      have hin : ∀ fd, c.stdin = some fd ∨ c.stdout = some fd ∨ c.stderr = some fd → Inheritable t fd :=
        fun fd h => (chanTable_inherits t a b (hopen fd h)).1 (hc.streams fd (mem_streams.2 h))
      obtain ⟨user, hcl⟩ := hc.clone
      cases hx with
      | channel h => rw [hc.socketpair] at h; cases h
      | stdin h hn => exact hn (hin _ (.inl h))
      | stdout h hn => exact hn (hin _ (.inr (.inl h)))
      | stderr h hn => exact hn (hin _ (.inr (.inr h)))
      | environment hv hn => exact hc.names _ hv ((nameFromEnv_spec _ _).2 hn)
      | arguments h => exact hc.argv h
      | pipe h => rw [hc.pipe] at h; cases h
      | clone h1 h2 h3 => simp [tryClone, h1, h2, h3] at hcl
      | _ => omega
    have faith := C44_faithful_partial abi t caps c p os ch ht hread hint hch
    have hcase : (∃ code, readErrno os.proc w ch.pid ch.ending = .error (.internalOsOperationFailed c!"execve()" code)) ∨
        readErrno os.proc w ch.pid ch.ending = .ok ch.pid := by
      unfold readErrno
      rw [hread]
      simp only
      split
      · exact .inl ⟨_, rfl⟩
      · exact .inr rfl
    rcases hcase with ⟨code, he⟩ | hok
    · rw [hbad _ he]
      obtain ⟨wrote, hw⟩ := (faith code).1 (by rw [hbad _ he])
      exact ⟨8, .execute (by rw [hw]), h7⟩
    · have h8 : ∀ m, m < 9 → ∀ e, ¬ Cause t c p os (some ch.ending) m e := by
        intro m hm e hx
        rcases Nat.lt_or_ge m 8 with h | h
        · exact h7 m h e hx
        · cases hx with
          | execute h' =>
            rename_i code wrote
            have := (faith code).2 ⟨wrote, Option.some.inj h'⟩
            rw [hgood hok] at this
            have hno := startIpcLoop_not_exec abi p'.runtime (t.alloc ⟨a, 0#32⟩).2 t.lowestFree os.first os.osFirst
              os.filter os.spawnOk code
            generalize startIpcLoop abi p'.runtime (t.alloc ⟨a, 0#32⟩).2 t.lowestFree os.first os.osFirst
              os.filter os.spawnOk = y at this hno
            obtain ⟨y, ty, acts⟩ := y
            cases y with
            | ok s => cases this
            | error e' => exact hno (by rw [Except.error.inj this])
          | _ => omega
      have key := startIpcLoop_cause abi t c p os (some ch.ending) (t.alloc ⟨a, 0#32⟩).2 t.lowestFree hf h8
      rw [hgood hok, hc.runtime]
      generalize startIpcLoop abi p.runtime (t.alloc ⟨a, 0#32⟩).2 t.lowestFree os.first os.osFirst
        os.filter os.spawnOk = y at key ⊢
      obtain ⟨y, ty, acts⟩ := y
      cases y <;> exact key

/-- C127: creating a worker fails exactly when one of its steps fails, and the error is the one of the first failing
step. `hread` and `hint` are the hypotheses of C44; `hf`: the first message has no file (`C127_attached`). -/
theorem C127_first_cause (abi : Abi) (t : FdTable) (caps : Caps) (c : ProcessConfig) (p : Policy) (os : NewOs)
    (ht : RealTable t)
    (hopen : ∀ fd, c.stdin = some fd ∨ c.stdout = some fd ∨ c.stderr = some fd → t.get fd ≠ none)
    (hread : os.proc.readError = none) (hint : ∀ e, os.proc.entry.execve = some e → e < 2 ^ 31)
    (hf : ∀ d, os.first = .datagram d → d.files = []) (e : BrokerError) :
    (workerNew abi t caps c p os).result = .error e ↔
      FirstCause t c p os ((workerNew abi t caps c p os).child.map Child.ending) e := by
  have key := workerNew_outcome abi t caps c p os ht hopen hread hint hf
  cases hr : (workerNew abi t caps c p os).result with
  | ok s =>
    rw [hr] at key
    constructor
    · intro h; cases h
    · rintro ⟨n, hx, _⟩; exact absurd hx (key n e)
  | error e' =>
    rw [hr] at key
    simp only [Except.error.injEq]
    constructor
    · rintro rfl; exact key
    · rintro ⟨n, hx, hl⟩
      obtain ⟨n', hx', hl'⟩ := key
      rcases Nat.lt_trichotomy n n' with h | h | h
      · exact absurd hx (hl' n h e)
      · subst h; exact hx'.unique hx
      · exact absurd hx' (hl n' h e')

/-- C127: if the first message has files, there is no worker: the error is the one of an earlier step, or says that the
process ended, that the message cannot be received or that it is not expected. -/
theorem C127_attached (abi : Abi) (t : FdTable) (caps : Caps) (c : ProcessConfig) (p : Policy) (os : NewOs)
    (ht : RealTable t) (hread : os.proc.readError = none) (hint : ∀ e, os.proc.entry.execve = some e → e < 2 ^ 31)
    (d : Datagram) (hd : os.first = .datagram d) (hf : d.files ≠ []) :
    ∃ e, (workerNew abi t caps c p os).result = .error e ∧
      ((∃ ch, (workerNew abi t caps c p os).child = some ch ∧ ∀ code wrote, ch.ending ≠ .execFailed code wrote) →
        e = .processExitedDuringInitialization ∨ e = .workerCommunicationError ∨ e = .unexpectedWorkerMessage) := by
  have loop : ∀ t' chan, ∃ e, (startIpcLoop abi p.runtime t' chan os.first os.osFirst os.filter os.spawnOk).1 = .error e ∧
      (e = .processExitedDuringInitialization ∨ e = .workerCommunicationError ∨ e = .unexpectedWorkerMessage) := by
    intro t' chan
    have hnone : ∀ ty m, channelRecv abi decRequest IPC_MESSAGE_MAX_SIZE os.osFirst.canInstall t' os.first ≠
        (ty, .ok (some (m, none))) := by
      intro ty m hy
      rw [hd, channelRecv, sysRecvmsg] at hy
      have hlen := installAll_length (d.files.take (min os.osFirst.canInstall (maxFds abi (CMSG_SIZE abi)))) t'
      generalize installAll t' (d.files.take (min os.osFirst.canInstall (maxFds abi (CMSG_SIZE abi)))) = z at hy hlen
      obtain ⟨tz, fds⟩ := z
      simp only at hy hlen
      cases fds with
      | nil =>
        have hpos := List.length_pos_iff.2 hf
        simp only [recvFinish, rightsCmsg, recvCmsgs] at hy
        rw [if_pos (by simp [hpos])] at hy
        cases hy
      | cons fd fds =>
        simp only [recvFinish, rightsCmsg, recvCmsgs, ne_eq, not_true_eq_false, if_false, List.head?_cons] at hy
        split at hy
        · cases hy
        · split at hy
          · cases hy
          · split at hy <;> cases hy
    rw [startIpcLoop]
    generalize channelRecv abi decRequest IPC_MESSAGE_MAX_SIZE os.osFirst.canInstall t' os.first = y at hnone
    match y, hnone with
    | (ty, .ok (some (m, none))), hy => exact absurd rfl (hy ty m)
    | (ty, .ok (some (.initialization, some h))), _ => exact ⟨_, rfl, .inr (.inr rfl)⟩
    | (ty, .ok (some (.openFile _ _, some h))), _ => exact ⟨_, rfl, .inr (.inr rfl)⟩
    | (ty, .ok (some (.syscall _ _ _, some h))), _ => exact ⟨_, rfl, .inr (.inr rfl)⟩
    | (ty, .ok none), _ => exact ⟨_, rfl, .inl rfl⟩
    | (ty, .error _), _ => exact ⟨_, rfl, .inr (.inl rfl)⟩
  cases hch : (workerNew abi t caps c p os).child with
  | none =>
    cases hr : (workerNew abi t caps c p os).result with
    | error e => exact ⟨e, rfl, by rintro ⟨ch, h, _⟩; cases h⟩
    | ok x =>
      exfalso
      rw [workerNew_eq] at hr hch
      split at hr
      · cases hr
      · rename_i a b h0
        simp only [h0] at hch
        split at hr
        · cases hr
        · rename_i p' c' hp
          simp only [hp] at hch
          split at hr
          · cases hr
          · rename_i pid hn
            rw [newProcess_eq] at hn
            have hn' : (newProcess p' c' (chanTable t a b) caps os.proc).child = none := by
              revert hch
              cases (newProcess p' c' (chanTable t a b) caps os.proc).result with
              | error e => exact id
              | ok pid => simp only; split <;> exact id
            rw [newProcess_eq] at hn'
            split at hn
            · cases hn
            · rename_i ha
              rw [if_neg ha] at hn'
              split at hn
              · cases hn
              · rename_i r w hpipe
                simp only [hpipe] at hn'
                split at hn
                · cases hn
                · rename_i hcl
                  simp [hcl] at hn'
  | some ch =>
    obtain ⟨a, b, r, w, p', hc, hbad, hgood⟩ := workerNew_child hch
    have faith := C44_faithful_partial abi t caps c p os ch ht hread hint hch
    have hcase : (∃ code, readErrno os.proc w ch.pid ch.ending = .error (.internalOsOperationFailed c!"execve()" code)) ∨
        readErrno os.proc w ch.pid ch.ending = .ok ch.pid := by
      unfold readErrno
      rw [hread]
      simp only
      split
      · exact .inl ⟨_, rfl⟩
      · exact .inr rfl
    rcases hcase with ⟨code, he⟩ | hok
    · refine ⟨_, by rw [hbad _ he], ?_⟩
      rintro ⟨ch', h, hno⟩
      cases h
      obtain ⟨wrote, hw⟩ := (faith code).1 (by rw [hbad _ he])
      exact absurd hw (hno code wrote)
    · obtain ⟨e, he, hcases⟩ := loop (t.alloc ⟨a, 0#32⟩).2 t.lowestFree
      refine ⟨e, ?_, fun _ => hcases⟩
      rw [hgood hok, hc.runtime]
      generalize startIpcLoop abi p.runtime (t.alloc ⟨a, 0#32⟩).2 t.lowestFree os.first os.osFirst
        os.filter os.spawnOk = y at he ⊢
      obtain ⟨y, ty, acts⟩ := y
      simp only at he
      subst he
      rfl

theorem someConfig_streams : someConfig.stdin = none ∧ someConfig.stdout = some 3 ∧ someConfig.stderr = none := by
  decide +kernel

theorem someConfig_open (fd : Nat)
    (h : someConfig.stdin = some fd ∨ someConfig.stdout = some fd ∨ someConfig.stderr = some fd) :
    brokerTable.get fd ≠ none := by
  obtain ⟨h1, h2, h3⟩ := someConfig_streams
  rw [h1, h2, h3] at h
  rcases h with h | h | h
  · cases h
  · cases h; decide
  · cases h

/-- The worker of the example in C40 is created, so nothing prevents it. -/
example : ∀ n e, ¬ Cause brokerTable someConfig tmpPolicy goodOs
    ((workerNew .lp64 brokerTable fullCaps someConfig tmpPolicy goodOs).child.map Child.ending) n e := by
  have key := workerNew_outcome .lp64 brokerTable fullCaps someConfig tmpPolicy goodOs brokerTable_real
    someConfig_open rfl (by intro e h; cases h) (by intro d h; cases h; rfl)
  have hr : (workerNew .lp64 brokerTable fullCaps someConfig tmpPolicy goodOs).result =
      .ok (4321, ⟨(5, ⟨50, 0#32⟩) :: brokerTable, 5, .running, [.sent (.initialization tmpPolicy.runtime [6, 0]) []]⟩) := by
    decide +kernel
  rw [hr] at key
  exact key

/-- The same worker, if the thread cannot be created and the program does not exist: the program comes first. -/
def missingOs : NewOs :=
  { goodOs with
    proc := { goodOs.proc with entry := { goodEntry with execve := some 2 } },
    spawnOk := false,
    first := .eof }

example : (workerNew .lp64 brokerTable fullCaps someConfig tmpPolicy missingOs).result =
    .error (.internalOsOperationFailed c!"execve()" 2) ∧
    FirstCause brokerTable someConfig tmpPolicy missingOs
      ((workerNew .lp64 brokerTable fullCaps someConfig tmpPolicy missingOs).child.map Child.ending)
      (.internalOsOperationFailed c!"execve()" 2) := by
  have hr : (workerNew .lp64 brokerTable fullCaps someConfig tmpPolicy missingOs).result =
      .error (.internalOsOperationFailed c!"execve()" 2) := by decide +kernel
  exact ⟨hr, (C127_first_cause .lp64 brokerTable fullCaps someConfig tmpPolicy missingOs brokerTable_real
    someConfig_open rfl (by intro e h; cases h; decide) (by intro d h; cases h) _).1 hr⟩

/-- An inheritable stream is required: descriptor 4 is private. -/
example : (workerNew .lp64 brokerTable fullCaps { someConfig with stderr := some 4, argv := [] } tmpPolicy goodOs).result =
    .error (.cannotBuildPolicyForWorker (.handleNotInheritable 4)) ∧
    (workerNew .lp64 brokerTable fullCaps { someConfig with argv := [] } tmpPolicy goodOs).result =
      .error .missingCommandLine := by
  decide +kernel

/-- A first message with two files. -/
example : (workerNew .lp64 brokerTable fullCaps someConfig tmpPolicy twoFilesOs).result = .error .unexpectedWorkerMessage := by
  decide +kernel

end Iris
