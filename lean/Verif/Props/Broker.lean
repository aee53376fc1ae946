import Verif.Lemmas.Session
/-! # C15, C18-C24: what the broker does for a worker

`hlen` says that the broker has fewer than 2^31 descriptors (a descriptor is a C
`int`). `Session` is everything that can vary: the first thing received, all that
is received later, and every decision of the operating system. -/
namespace Iris
open Spec

/-- C18. In any session, the files opened are exactly those of the granted open
requests among the first requests received (in order, one each, same path and
flags), `served` being all of them as long as the session runs. -/
theorem C18_opens_what_is_granted [Target] (abi : Abi) (p : Policy) (x : Session)
    (hlen : x.table.length < 2 ^ 31) :
    ∃ served : List IPCRequest,
      served.map Event.request <+: (x.rest.map fun i => classify i.1) ∧
      opens (x.run abi p).trace = served.filterMap (fun r => match r with
        | .openFile path flags =>
          if (p.evaluate (.fileOpen path flags)).1 = .granted then some (path, flags) else none
        | _ => none) ∧
      ((x.run abi p).status = .running → served.length = x.rest.length) := by
  obtain ⟨done, opening, _, _, h3, h4, _, h6, _⟩ := session_trace abi p x hlen
  refine ⟨done.map Prod.fst ++ opening, ?_, ?_, ?_⟩
  · simpa [List.map_append, List.map_map, Function.comp_def] using h3
  · rw [h4]
    rfl
  · intro h
    have := h6 h
    have hl := List.IsPrefix.length_le h3
    simp only [List.length_append, List.length_map] at hl ⊢
    omega

/-- C18. An `open` call happens only for a request the worker sent, which the policy
grants; new files get mode 0600. -/
theorem C18_nothing_else_opened [Target] (abi : Abi) (p : Policy) (x : Session)
    (hlen : x.table.length < 2 ^ 31) (path : Str) (flags mode : BitVec 32)
    (h : Action.opened path flags mode ∈ (x.run abi p).trace) :
    (∃ i ∈ x.rest, classify i.1 = .request (.openFile path flags)) ∧
    (p.evaluate (.fileOpen path flags)).1 = .granted ∧ mode = 0o600#32 := by
  obtain ⟨done, opening, h1, _, h3, _, _, _, h7⟩ := session_trace abi p x hlen
  have key : ∀ r, Action.opened path flags mode ∈ openActs p r →
      r = .openFile path flags ∧ Grants p path flags ∧ mode = 0o600#32 := by
    intro r hr
    simp only [openActs, List.mem_map, Option.mem_toList] at hr
    obtain ⟨y, hy, heq⟩ := hr
    simp only [Action.opened.injEq] at heq
    obtain ⟨h1, h2, h3⟩ := heq
    cases r with
    | openFile q f =>
      simp only [toOpen] at hy
      split at hy
      · rename_i hg
        simp only [Option.mem_def, Option.some.injEq] at hy
        subst hy
        simp only at h1 h2
        subst h1 h2
        exact ⟨rfl, hg, h3.symm⟩
      · cases hy
    | _ => cases hy
  have hin : ∀ r : IPCRequest, Event.request r ∈ (x.rest.map fun i => classify i.1) →
      ∃ i ∈ x.rest, classify i.1 = .request r := by
    intro r hr
    obtain ⟨i, hi, he⟩ := List.mem_map.1 hr
    exact ⟨i, hi, he⟩
  have hsub := h3.subset
  rcases h7 _ h with h' | ⟨d, hd, ha⟩ | ⟨r, hr, ha⟩ | ⟨n, h'⟩
  · cases h'
  · simp only [served, List.mem_append, List.mem_singleton, reduceCtorEq, or_false] at ha
    have ha' : Action.opened path flags mode ∈ openActs p d.1 := by
      rcases ha with ha | ha
      · exfalso
        cases hd1 : d.1 <;> rw [hd1] at ha <;> simp [notes] at ha
      · exact ha
    obtain ⟨hk1, hk2, hk3⟩ := key _ ha'
    refine ⟨hin _ (hsub ?_), hk2, hk3⟩
    rw [← hk1]
    exact List.mem_append_left _ (List.mem_map.2 ⟨d, hd, rfl⟩)
  · obtain ⟨hk1, hk2, hk3⟩ := key _ ha
    refine ⟨hin _ (hsub ?_), hk2, hk3⟩
    rw [← hk1]
    exact List.mem_append_right _ (List.mem_map.2 ⟨r, hr, rfl⟩)
  · cases h'

/-- C19. Every reply sent after the handshake is the reply to a request `r` received,
and either it has code 0, `r` asked to open a file, this was granted and succeeded,
and the file opened comes first with the reply; or nothing comes with it and the
code is minus an error number: EACCES (13) if an open was not granted, the error of
`open` if that failed, ENOSYS (38) for another system call, EINVAL (22) for a second
initialization. -/
theorem C19_reply_and_descriptor [Target] (abi : Abi) (p : Policy) (x : Session)
    (hlen : x.table.length < 2 ^ 31) (code : BitVec 64) (files : List Nat)
    (h : Action.sent (.syscallResult code) files ∈ (x.run abi p).trace) :
    ∃ i ∈ x.rest, ∃ r, classify i.1 = .request r ∧
      ((∃ path flags file, r = .openFile path flags ∧ code = 0#64 ∧
          (p.evaluate (.fileOpen path flags)).1 = .granted ∧ i.2.openResult = .ok file ∧
          files.head? = some file ∧ (abi = .ilp32 → files = [file])) ∨
       (files = [] ∧ ∃ e, code = -(BitVec.ofNat 64 e) ∧ match r with
          | .openFile path flags =>
            if (p.evaluate (.fileOpen path flags)).1 = .granted then i.2.openResult = .error e
            else e = 13
          | .syscall _ _ _ => e = 38
          | .initialization => e = 22)) := by
  obtain ⟨done, opening, h1, _, _, _, _, _, h7⟩ := session_trace abi p x hlen
  rcases h7 _ h with h' | ⟨d, hd, ha⟩ | ⟨r, hr, ha⟩ | ⟨n, h'⟩
  · cases h'
  · have hmem : (Event.request d.1, d.2) ∈ (x.rest.map fun i => (classify i.1, i.2)) :=
      h1.subset (List.mem_map.2 ⟨d, hd, rfl⟩)
    obtain ⟨i, hi, he⟩ := List.mem_map.1 hmem
    simp only [Prod.mk.injEq] at he
    refine ⟨i, hi, d.1, he.1, ?_⟩
    rw [he.2]
    have hne : ∀ r, Action.sent (.syscallResult code) files ∉ notes p r := by
      intro r hr; cases r <;> simp [notes] at hr
    have hne2 : ∀ r, Action.sent (.syscallResult code) files ∉ openActs p r := by
      intro r hr; simp [openActs] at hr
    simp only [served, List.mem_append, List.mem_singleton, hne, hne2, or_self, false_or,
      Action.sent.injEq, IPCResponse.syscallResult.injEq] at ha
    obtain ⟨hcode, hfiles⟩ := ha
    obtain ⟨r, os⟩ := d
    simp only at hcode hfiles ⊢
    subst hcode hfiles
    cases r with
    | initialization => right; exact ⟨rfl, 22, rfl, rfl⟩
    | syscall nb args ip => right; exact ⟨rfl, 38, rfl, rfl⟩
    | openFile path flags =>
      by_cases hg : Grants p path flags
      · cases ho : os.openResult with
        | ok file =>
          left
          refine ⟨path, flags, file, rfl, by simp [answer, hg, ho], hg, rfl, ?_, ?_⟩
          · rw [replyFiles_head]; simp [answer, hg, ho]
          · rintro rfl; simp [replyFiles, answer, hg, ho, attached]
        | error e =>
          right
          refine ⟨by simp [replyFiles, answer, hg, ho], e, by simp [answer, hg, ho], ?_⟩
          simp only
          rw [if_pos (show (p.evaluate (.fileOpen path flags)).1 = .granted from hg)]
          trivial
      · right
        refine ⟨by simp [replyFiles, answer, hg], 13, by simp [answer, hg], ?_⟩
        simp only
        rw [if_neg (show ¬ (p.evaluate (.fileOpen path flags)).1 = .granted from hg)]
        trivial
  · simp [openActs] at ha
  · cases h'

/-- C19. With the error numbers of Linux (1 to 4095), the code tells success from
failure: it is negative when no descriptor comes. -/
theorem C19_negative_codes (e : Nat) (h1 : 1 ≤ e) (h2 : e ≤ 4095) :
    (-(BitVec.ofNat 64 e)).toInt = -(e : Int) ∧ (-(BitVec.ofNat 64 e)).toInt < 0 := by
  have h3 : (-(BitVec.ofNat 64 e)).toInt = -(e : Int) := by
    rw [BitVec.toInt_neg]
    have : (BitVec.ofNat 64 e).toInt = e := by
      rw [BitVec.toInt_ofNat']
      exact Int.bmod_eq_of_le (by omega) (by omega)
    rw [this]
    exact Int.bmod_eq_of_le (by omega) (by omega)
  omega

/-- C20. The replies are the answers to a first part of the requests received, one
each, in order; to all of them while the session runs. Each answer depends on that
request, the policy and what the operating system did for it only. -/
theorem C20_one_reply_per_request [Target] (abi : Abi) (p : Policy) (x : Session)
    (hlen : x.table.length < 2 ^ 31) :
    ∃ done : List (IPCRequest × OsChoice),
      (done.map fun d => (Event.request d.1, d.2)) <+: (x.rest.map fun i => (classify i.1, i.2)) ∧
      replies (x.run abi p).trace = done.map (fun d => answer p d.2 d.1) ∧
      ((x.run abi p).status = .running → done.length = x.rest.length) := by
  obtain ⟨done, opening, h1, _, _, _, h5, h6, _⟩ := session_trace abi p x hlen
  exact ⟨done, h1, h5, h6⟩

/-- C20. The session goes on as long as messages are acceptable, granted paths have no
NUL and replies can be sent: then every request is answered. -/
theorem C20_keeps_serving [Target] (abi : Abi) (p : Policy) (s : Broker)
    (reqs : List (IPCRequest × OsChoice)) (ins : List (Incoming × OsChoice))
    (hlen : s.table.length < 2 ^ 31) (hs : s.status = .running)
    (hi : (ins.map fun i => (classify i.1, i.2)) = reqs.map fun d => (Event.request d.1, d.2))
    (hc : ∀ d ∈ reqs, ¬ Crashes p d.1) (hse : ∀ d ∈ reqs, d.2.sendError = none) :
    (s.run abi p ins).status = .running ∧
    replies (s.run abi p ins).trace = replies s.trace ++ reqs.map fun d => answer p d.2 d.1 := by
  obtain ⟨done, hd, hcase⟩ := run_session abi p s ins hs hlen
  have hinj : ∀ a b : List (IPCRequest × OsChoice),
      (a.map fun d => (Event.request d.1, d.2)) = (b.map fun d => (Event.request d.1, d.2)) → a = b := by
    intro a
    induction a with
    | nil => intro b h; cases b <;> simp_all
    | cons x a ih =>
      intro b h
      cases b with
      | nil => simp at h
      | cons y b =>
        simp only [List.map_cons, List.cons.injEq, Prod.mk.injEq, Event.request.injEq] at h
        rw [ih b h.2]
        congr 1
        exact Prod.ext h.1.1 h.1.2
  rcases hcase with ⟨h1, h2⟩ | ⟨i, rest, h1, h2, h3, _⟩
  · rw [hi] at h1
    have := hinj _ _ h1
    subst this
    rw [h2]
    exact ⟨hs, by simp only [replies_append, replies_flatMap]⟩
  · exfalso
    rw [hi] at h1
    have hmem : (classify i.1, i.2) ∈ reqs.map fun d => (Event.request d.1, d.2) := by
      rw [h1]; simp
    obtain ⟨d, hdm, heq⟩ := List.mem_map.1 hmem
    simp only [Prod.mk.injEq] at heq
    rw [step_request abi p { s with trace := s.trace ++ done.flatMap (served abi p s.table) } i.1 i.2 d.1 hs hlen heq.1.symm,
      if_neg (hc d hdm), ← heq.2, hse d hdm] at h2
    rw [h2] at h3
    exact h3 hs

/-- C15, broker side: in every mode a system call request is answered -ENOSYS, with no
descriptor, and all the broker does besides is calling log callbacks. -/
theorem C15_broker_answers_enosys [Target] (abi : Abi) (p : Policy) (s : Broker) (inc : Incoming)
    (os : OsChoice) (nb : BitVec 64) (args : Args6) (ip : BitVec 64)
    (hlen : s.table.length < 2 ^ 31) (hs : s.status = .running)
    (hc : classify inc = .request (.syscall nb args ip)) :
    ∃ log : List (Notification Request), (s.step abi p inc os).trace = s.trace ++ log.map .notified ++
      (if os.sendError = none then [.sent (.syscallResult (-38#64)) []] else []) := by
  refine ⟨(p.evaluate (.syscall nb args ip)).2, ?_⟩
  rw [step_request abi p s inc os _ hs hlen hc, if_neg (by simp [Crashes])]
  cases os.sendError <;> simp [notes, openActs, toOpen, answer, replyFiles]

/-- C22. A malformed or oversized message, an attached descriptor, an error or the end of
the stream, whatever came before: the session does not run afterwards, and whatever
comes later nothing more is sent, opened or logged. -/
theorem C22_hostile_message_ends_session [Target] (abi : Abi) (p : Policy) (s : Broker)
    (before later : List (Incoming × OsChoice)) (inc : Incoming) (os : OsChoice)
    (hh : Hostile inc) :
    (s.run abi p (before ++ (inc, os) :: later)).trace = (s.run abi p before).trace ∧
    (s.run abi p (before ++ (inc, os) :: later)).status ≠ .running := by
  have hc : classify inc = .hangup := by
    cases hh with
    | eof => rfl
    | error e => rfl
    | attached data f fs => rfl
    | malformed data files h => cases files <;> simp [classify, h]
    | tooLong data files h =>
      cases files with
      | nil => simp only [classify]; rw [if_neg (by omega)]
      | cons f fs => rfl
  rw [run_append, run_cons]
  by_cases hs : (s.run abi p before).status = .running
  · have h := step_hangup abi p (s.run abi p before) inc os hs hc
    rw [run_stopped _ _ _ _ (by rw [h]; simp)]
    rw [h]; simp
  · rw [step_stopped _ _ _ _ _ hs, run_stopped _ _ _ _ hs]
    exact ⟨rfl, hs⟩

/-- C21. If the first message is not an initialization request without a descriptor,
nothing is ever sent, opened or logged, and creating the worker fails: with
`ProcessExitedDuringInitialization` at end of stream, `UnexpectedWorkerMessage` for
another request, `WorkerCommunicationError` for an error, a malformed or an oversized
message. -/
theorem C21_nothing_before_handshake [Target] (abi : Abi) (p : Policy) (x : Session)
    (h : classify x.first ≠ .request .initialization) :
    (x.run abi p).trace = [] ∧ (x.run abi p).status = .ended ∧
    (∃ e, (x.start abi p).1 = .error e) ∧
    (x.first = .eof → (x.start abi p).1 = .error .processExitedDuringInitialization) ∧
    (∀ r, classify x.first = .request r → (x.start abi p).1 = .error .unexpectedWorkerMessage) ∧
    (∀ e, x.first = .error e → (x.start abi p).1 = .error .workerCommunicationError) ∧
    (∀ data, x.first = .datagram ⟨data, []⟩ → data ≠ [] → recvRequest data = none →
      (x.start abi p).1 = .error .workerCommunicationError) ∧
    (∀ data, x.first = .datagram ⟨data, []⟩ → 64 * 1024 < data.length →
      (x.start abi p).1 = .error .workerCommunicationError) := by
  have hstart : ∃ e t, x.start abi p = (.error e, t, []) := by
    cases hc : classify x.first with
    | hangup =>
      have hh := recv_hangup hc abi x.osFirst.canInstall x.table
      simp only [Session.start, startIpcLoop]
      generalize channelRecv abi decRequest IPC_MESSAGE_MAX_SIZE x.osFirst.canInstall x.table x.first
        = y at hh ⊢
      match y, hh with
      | (t, .ok (some (m, none))), hh => exact absurd rfl (hh t m)
      | (t, .ok (some (.initialization, some h))), _ => exact ⟨_, _, rfl⟩
      | (t, .ok (some (.openFile _ _, some h))), _ => exact ⟨_, _, rfl⟩
      | (t, .ok (some (.syscall _ _ _, some h))), _ => exact ⟨_, _, rfl⟩
      | (t, .ok none), _ => exact ⟨_, _, rfl⟩
      | (t, .error _), _ => exact ⟨_, _, rfl⟩
    | request r =>
      simp only [Session.start, startIpcLoop, recv_request hc]
      cases r with
      | openFile _ _ => exact ⟨_, _, rfl⟩
      | syscall _ _ _ => exact ⟨_, _, rfl⟩
      | initialization => exact absurd hc h
  obtain ⟨e, t, hst⟩ := hstart
  refine ⟨by simp [Session.run, hst], by simp [Session.run, hst], ⟨e, by rw [hst]⟩, ?_, ?_, ?_, ?_, ?_⟩
  · intro hf; simp [Session.start, startIpcLoop, hf, channelRecv, recvFinish, recvCmsgs]
  · intro r hr
    simp only [Session.start, startIpcLoop, recv_request hr]
    cases r with
    | openFile _ _ => rfl
    | syscall _ _ _ => rfl
    | initialization => exact absurd hr h
  · intro e hf; simp [Session.start, startIpcLoop, hf, channelRecv]
  · intro data hf hne hd
    have hlen : data.length ≠ 0 := fun hl => hne (List.length_eq_zero_iff.1 hl)
    simp only [recvRequest] at hd
    simp only [Session.start, startIpcLoop, hf, channelRecv_plain, hd, hlen, if_false]
    by_cases hl : IPC_MESSAGE_MAX_SIZE < data.length
    · simp only [hl, if_true]
    · simp only [hl, if_false]
  · intro data hf hl
    have : IPC_MESSAGE_MAX_SIZE < data.length := hl
    simp only [Session.start, startIpcLoop, hf, channelRecv_plain, this, if_true]

/-- C21. After an initialization request the first thing sent is the initialization
reply, with the policy in force and the filter; the session starts unless the reply
cannot be sent or the thread cannot be created. -/
theorem C21_handshake_reply [Target] (abi : Abi) (p : Policy) (x : Session)
    (h : classify x.first = .request .initialization) :
    ((sendResponse (.initialization p (x.filter.getD []))).isNone ∨ x.osFirst.sendError.isSome →
      (x.start abi p).1 = .error .workerCommunicationError ∧ (x.run abi p).trace = []) ∧
    ((sendResponse (.initialization p (x.filter.getD []))).isSome → x.osFirst.sendError = none →
      (x.run abi p).trace.head? = some (.sent (.initialization p (x.filter.getD [])) []) ∧
      (x.spawnOk = true ↔ ∃ s, (x.start abi p).1 = .ok s)) := by
  constructor
  · intro h1
    have : ∃ e, channelSend abi x.table (sendResponse (.initialization p (x.filter.getD []))) none
        x.osFirst.sendError = .error e := by
      rcases h1 with h1 | h1
      · rw [Option.isNone_iff_eq_none.1 h1]; exact ⟨_, rfl⟩
      · obtain ⟨e, he⟩ := Option.isSome_iff_exists.1 h1
        rw [he]; exact channelSend_fails _ _ _ _ _
    obtain ⟨e, he⟩ := this
    have hs : x.start abi p = (.error .workerCommunicationError, x.table.erase x.chan, []) := by
      simp only [Session.start, startIpcLoop, recv_request h, he]
    exact ⟨by rw [hs], by simp only [Session.run, hs]⟩
  · intro h1 h2
    obtain ⟨data, hd⟩ := Option.isSome_iff_exists.1 h1
    have hs : x.start abi p = if x.spawnOk then (.ok ⟨x.table, x.chan, .running,
        [.sent (.initialization p (x.filter.getD [])) []]⟩, x.table,
        [.sent (.initialization p (x.filter.getD [])) []])
        else (.error (.internalOsOperationFailed c!"cannot create ipc thread" 0),
          x.table.erase x.chan, [.sent (.initialization p (x.filter.getD [])) []]) := by
      simp only [Session.start, startIpcLoop, recv_request h, hd, h2, channelSend_plain]
    have hmono : ∀ (ins : List (Incoming × OsChoice)) (s : Broker) a, s.trace.head? = some a →
        (s.run abi p ins).trace.head? = some a := by
      intro ins
      induction ins with
      | nil => exact fun s a h => h
      | cons i ins ih =>
        intro s a ha
        rw [run_cons]
        apply ih
        obtain ⟨l, hl⟩ := step_trace abi p s i.1 i.2
        rw [hl]
        cases ht : s.trace with
        | nil => rw [ht] at ha; cases ha
        | cons y ys => rw [ht] at ha; simpa using ha
    cases hsp : x.spawnOk with
    | false =>
      rw [hsp] at hs
      simp only [Bool.false_eq_true, if_false] at hs
      refine ⟨by simp only [Session.run, hs]; rfl, ?_⟩
      rw [hs]; simp
    | true =>
      rw [hsp] at hs
      simp only [if_true] at hs
      refine ⟨by simp only [Session.run, hs]; exact hmono _ _ _ rfl, ?_⟩
      rw [hs]; simp

/-- C21. A second initialization request is answered -EINVAL and nothing else happens. -/
theorem C21_second_initialization [Target] (abi : Abi) (p : Policy) (s : Broker) (inc : Incoming)
    (os : OsChoice) (hlen : s.table.length < 2 ^ 31) (hs : s.status = .running)
    (hse : os.sendError = none) (hc : classify inc = .request .initialization) :
    s.step abi p inc os = { s with trace := s.trace ++ [.sent (.syscallResult (-22#64)) []] } := by
  rw [step_request abi p s inc os _ hs hlen hc, if_neg (by simp [Crashes]), hse]
  simp [notes, openActs, toOpen, answer, replyFiles]

/-! ## C23 -/

/-- C23, full statement: no session makes the message loop panic. -/
def Spec.NeverPanics [Target] (p : Policy) : Prop :=
  ∀ (abi : Abi) (x : Session), x.table.length < 2 ^ 31 → (x.run abi p).status ≠ .panicked

/-- A policy that lets a worker read what is in `/tmp`. -/
def tmpPolicy : Policy := Policy.nothingAllowed.calls [.fs (.dirRead c!"/tmp")]

/-- A worker that sends an initialization request, then `open("/tmp/\0", O_RDONLY)`. -/
def nulSession : Session where
  table := [(0, ⟨1, 0#32⟩), (3, ⟨2, 1#32⟩)]
  chan := 3
  first := .datagram ⟨[0], []⟩
  osFirst := ⟨2, .ok 9, none⟩
  filter := some [6, 0]
  spawnOk := true
  rest := [(.datagram ⟨[1, 6, 47, 116, 109, 112, 47, 0, 0], []⟩, ⟨2, .ok 9, none⟩)]

/-- C23 is false: a NUL in a path the policy grants reaches `CString::new(..).unwrap()`. -/
theorem C23_violated : ¬ @Spec.NeverPanics x86_64 tmpPolicy := by
  intro h
  have := @h .lp64 nulSession (by decide)
  exact this (by decide +kernel)

/-- C23. The same for every policy that grants a path with a NUL, in any state of the loop. -/
theorem C23_violated_by_any_granted_nul [Target] (abi : Abi) (p : Policy) (s : Broker)
    (inc : Incoming) (os : OsChoice) (path : Str) (flags : BitVec 32)
    (hlen : s.table.length < 2 ^ 31) (hs : s.status = .running)
    (hc : classify inc = .request (.openFile path flags))
    (hg : (p.evaluate (.fileOpen path flags)).1 = .granted) (hn : '\x00' ∈ path) :
    (s.step abi p inc os).status = .panicked := by
  rw [step_request abi p s inc os _ hs hlen hc, if_pos ⟨hg, hn⟩]

/-- C23, what holds. Missing from the full statement: sessions in which the worker asks
for a path with a NUL that the policy grants. In all others nothing panics, whatever
the worker sends. -/
theorem C23_no_panic_partial [Target] (abi : Abi) (p : Policy) (x : Session)
    (hlen : x.table.length < 2 ^ 31)
    (h : ∀ i ∈ x.rest, ∀ path flags, classify i.1 = .request (.openFile path flags) →
      (p.evaluate (.fileOpen path flags)).1 = .granted → '\x00' ∉ path) :
    (x.run abi p).status ≠ .panicked := by
  rcases session_start abi p x with ⟨e, t, acts, hs, ha⟩ | ⟨_, hs⟩
  · simp [Session.run, hs]
  · simp only [Session.run, hs]
    obtain ⟨done, hd, hcase⟩ := run_session abi p ⟨x.table, x.chan, .running,
        [.sent (.initialization p (x.filter.getD [])) []]⟩ x.rest rfl hlen
    simp only at hcase
    rcases hcase with ⟨hi, hr⟩ | ⟨i, rest, hi, hr, hst, him⟩
    · rw [hr]; simp
    · cases hc : classify i.1 with
      | hangup => rw [hr, step_hangup abi p _ i.1 i.2 rfl hc]; simp
      | request r =>
        rw [hr, step_request abi p _ i.1 i.2 r rfl hlen hc]
        have hcr : ¬ Crashes p r := by
          intro hcr
          cases r with
          | initialization => exact hcr
          | syscall _ _ _ => exact hcr
          | openFile path flags =>
            have hmem : (classify i.1, i.2) ∈ (x.rest.map fun i => (classify i.1, i.2)) := by
              rw [hi]; simp
            obtain ⟨j, hj, he⟩ := List.mem_map.1 hmem
            simp only [Prod.mk.injEq] at he
            exact h j hj path flags (he.1.trans hc) hcr.1 hcr.2
        rw [if_neg hcr]
        split <;> simp

/-- A session with three messages (a granted open, a refused one, a system call) meets
the hypotheses of C18-C24, and this is what it does. -/
def goodSession : Session :=
  { nulSession with rest :=
    [(.datagram ⟨encRequest (.openFile c!"/tmp/a" 0#32), []⟩, ⟨2, .ok 9, none⟩),
     (.datagram ⟨encRequest (.openFile c!"/etc/a" 0#32), []⟩, ⟨2, .ok 9, none⟩),
     (.datagram ⟨encRequest (.syscall 41#64 ⟨1, 2, 3, 4, 5, 6⟩ 7#64), []⟩, ⟨2, .ok 9, none⟩)] }

example : @Session.run x86_64 .lp64 tmpPolicy goodSession =
    ⟨goodSession.table, 3, .running,
      [.sent (.initialization tmpPolicy [6, 0]) [],
       .opened c!"/tmp/a" 0#32 0x180#32, .sent (.syscallResult 0#64) [9, 1],
       .sent (.syscallResult (-13#64)) [],
       .sent (.syscallResult (-38#64)) []]⟩ := by decide +kernel

example : ∀ i ∈ goodSession.rest, ∀ path flags, classify i.1 = .request (.openFile path flags) →
    (@Policy.evaluate x86_64 tmpPolicy (.fileOpen path flags)).1 = .granted → '\x00' ∉ path := by
  intro i hi path flags hc _
  have h3 : goodSession.rest.map (fun i => classify i.1) =
      [.request (.openFile c!"/tmp/a" 0#32), .request (.openFile c!"/etc/a" 0#32),
       .request (.syscall 41#64 ⟨1, 2, 3, 4, 5, 6⟩ 7#64)] := by decide +kernel
  have := List.mem_map_of_mem (f := fun i : Incoming × OsChoice => classify i.1) hi
  rw [h3, hc] at this
  simp only [List.mem_cons, Event.request.injEq, IPCRequest.openFile.injEq, reduceCtorEq,
    List.not_mem_nil, or_false] at this
  rcases this with ⟨rfl, _⟩ | ⟨rfl, _⟩ <;> decide

example : Hostile (.datagram ⟨[1, 6, 47], []⟩) ∧ Hostile (.datagram ⟨[0], [4, 5]⟩) :=
  ⟨.malformed _ _ (by decide +kernel), .attached _ _ _⟩

example : classify (.datagram ⟨[3], []⟩) ≠ .request .initialization ∧
    classify nulSession.first = .request .initialization := by decide +kernel

/-! ## C24 -/

/-- C24, full statement: after a session the broker has exactly the descriptors it had
before, except that the channel is closed once the session is over. -/
def Spec.KeepsNoDescriptor [Target] (abi : Abi) : Prop :=
  ∀ (p : Policy) (x : Session), x.table.length < 2 ^ 31 →
    (x.run abi p).table = if (x.run abi p).status = .running then x.table else x.table.erase x.chan

/-- C24. While a session runs, however many requests were answered, the broker's
descriptors are those it had before. -/
theorem C24_nothing_kept_while_running [Target] (abi : Abi) (p : Policy) (x : Session)
    (hlen : x.table.length < 2 ^ 31) (hr : (x.run abi p).status = .running) :
    (x.run abi p).table = x.table := by
  rcases session_start abi p x with ⟨e, t, acts, hs, ha⟩ | ⟨_, hs⟩
  · simp [Session.run, hs] at hr
  · simp only [Session.run, hs] at hr ⊢
    obtain ⟨done, hd, hcase⟩ := run_session abi p ⟨x.table, x.chan, .running,
        [.sent (.initialization p (x.filter.getD [])) []]⟩ x.rest rfl hlen
    simp only at hcase
    rcases hcase with ⟨hi, hrun⟩ | ⟨i, rest, hi, hrun, hst, him⟩
    · rw [hrun]
    · exact absurd hr hst

/-- C24, what holds on x86_64. Missing from the full statement: descriptors a worker
attaches to a message, beyond the first. When a session is over it leaves behind, whatever the worker sent and whatever failed: nothing, or on x86_64 one descriptor, and this only if the worker attached at
least two to a message. -/
theorem C24_at_most_one_kept_partial [Target] (abi : Abi) (p : Policy) (x : Session)
    (hlen : x.table.length < 2 ^ 31) (hr : (x.run abi p).status ≠ .running) :
    (x.run abi p).table = x.table.erase x.chan ∨
    (abi = .lp64 ∧ (∃ i ∈ (x.first, x.osFirst) :: x.rest, ∃ d, i.1 = .datagram d ∧ 2 ≤ d.files.length) ∧
      ∃ n f, x.table.get n = none ∧
        (x.run abi p).table = FdTable.erase ((n, ⟨f, 1#32⟩) :: x.table) x.chan) := by
  have hstart : ∀ e t acts, x.start abi p = (.error e, t, acts) →
      t = (recvDrop (channelRecv abi decRequest IPC_MESSAGE_MAX_SIZE x.osFirst.canInstall x.table
        x.first)).erase x.chan := by
    intro e t acts h
    simp only [Session.start, startIpcLoop] at h
    generalize channelRecv abi decRequest IPC_MESSAGE_MAX_SIZE x.osFirst.canInstall x.table x.first
      = y at h ⊢
    match y, h with
    | (t, .ok (some (.initialization, none))), h =>
      simp only [recvDrop, dropHandle]
      simp only at h
      split at h
      · simp only [Prod.mk.injEq] at h; exact h.2.1.symm
      · split at h
        · simp at h
        · simp only [Prod.mk.injEq] at h; exact h.2.1.symm
    | (t, .ok (some (.initialization, some h'))), h => simp only [Prod.mk.injEq] at h; exact h.2.1.symm
    | (t, .ok (some (.openFile _ _, h'))), h => simp only [Prod.mk.injEq] at h; exact h.2.1.symm
    | (t, .ok (some (.syscall _ _ _, h'))), h => simp only [Prod.mk.injEq] at h; exact h.2.1.symm
    | (t, .ok none), h => simp only [Prod.mk.injEq] at h; exact h.2.1.symm
    | (t, .error _), h => simp only [Prod.mk.injEq] at h; exact h.2.1.symm
  rcases session_start abi p x with ⟨e, t, acts, hs, ha⟩ | ⟨_, hs⟩
  · have ht := hstart e t acts hs
    simp only [Session.run, hs]
    rcases channelRecv_drop abi decRequest IPC_MESSAGE_MAX_SIZE x.osFirst.canInstall x.table x.first
      with h | ⟨habi, d, n, f, hd, hl, _, hn, h⟩
    · left; rw [ht, h]
    · right
      exact ⟨habi, ⟨_, List.mem_cons_self, d, hd, hl⟩, n, f, hn, by rw [ht, h]; rfl⟩
  · simp only [Session.run, hs] at hr ⊢
    obtain ⟨done, hd, hcase⟩ := run_session abi p ⟨x.table, x.chan, .running,
        [.sent (.initialization p (x.filter.getD [])) []]⟩ x.rest rfl hlen
    simp only at hcase
    rcases hcase with ⟨hi, hrun⟩ | ⟨i, rest, hi, hrun, hst, him⟩
    · rw [hrun] at hr; exact absurd rfl hr
    · cases hc : classify i.1 with
      | hangup =>
        rw [hrun, step_hangup abi p _ i.1 i.2 rfl hc]
        simp only
        rcases channelRecv_drop abi decRequest IPC_MESSAGE_MAX_SIZE i.2.canInstall x.table i.1
          with h | ⟨habi, d, n, f, hd, hl, _, hn, h⟩
        · left; rw [h]
        · right
          exact ⟨habi, ⟨i, List.mem_cons_of_mem _ him, d, hd, hl⟩, n, f, hn, by rw [h]; rfl⟩
      | request r =>
        left
        rw [hrun, step_request abi p _ i.1 i.2 r rfl hlen hc] at hr ⊢
        by_cases hcr : Crashes p r
        · rw [if_pos hcr]
        · rw [if_neg hcr] at hr ⊢
          cases hse : i.2.sendError with
          | none => rw [hse] at hr; exact absurd rfl hr
          | some e => rfl

/-- C24 holds of 32-bit builds. -/
theorem C24_nothing_kept_on_32_bit [Target] : Spec.KeepsNoDescriptor .ilp32 := by
  intro p x hlen
  by_cases hr : (x.run .ilp32 p).status = .running
  · rw [if_pos hr, C24_nothing_kept_while_running .ilp32 p x hlen hr]
  · rw [if_neg hr]
    rcases C24_at_most_one_kept_partial .ilp32 p x hlen hr with h | ⟨h, _⟩
    · exact h
    · cases h

/-- C24 holds on x86_64 of sessions in which the worker attaches at most one descriptor
to a message. -/
theorem C24_nothing_kept_partial [Target] (p : Policy) (x : Session) (hlen : x.table.length < 2 ^ 31)
    (h : ∀ i ∈ (x.first, x.osFirst) :: x.rest, ∀ d, i.1 = .datagram d → d.files.length ≤ 1) :
    (x.run .lp64 p).table =
      if (x.run .lp64 p).status = .running then x.table else x.table.erase x.chan := by
  by_cases hr : (x.run .lp64 p).status = .running
  · rw [if_pos hr, C24_nothing_kept_while_running .lp64 p x hlen hr]
  · rw [if_neg hr]
    rcases C24_at_most_one_kept_partial .lp64 p x hlen hr with h' | ⟨_, ⟨i, hi, d, hd, hl⟩, _⟩
    · exact h'
    · have := h i hi d hd; omega

/-- A worker that sends a message with two descriptors. -/
def twoFilesSession : Session :=
  { nulSession with rest := [(.datagram ⟨[0], [7, 8]⟩, ⟨2, .ok 9, none⟩)] }

/-- C24 is false on x86_64: the second descriptor a worker attaches stays open in the
broker (`recv` has room for two and reads one) after the session is over. -/
theorem C24_violated : ¬ @Spec.KeepsNoDescriptor x86_64 .lp64 := by
  intro h
  have := h tmpPolicy twoFilesSession (by decide)
  have h1 : (@Session.run x86_64 .lp64 tmpPolicy twoFilesSession).status = .ended ∧
      (@Session.run x86_64 .lp64 tmpPolicy twoFilesSession).table = [(2, ⟨8, FD_CLOEXEC⟩), (0, ⟨1, 0#32⟩)] := by
    decide +kernel
  rw [h1.1, h1.2] at this
  exact absurd this (by decide)

example : (@Session.run x86_64 .lp64 tmpPolicy goodSession).status = .running ∧
    (∀ i ∈ (goodSession.first, goodSession.osFirst) :: goodSession.rest, ∀ d, i.1 = .datagram d →
      d.files.length ≤ 1) := by
  refine ⟨by decide +kernel, ?_⟩
  intro i hi d hd
  simp only [goodSession, nulSession, List.mem_cons, List.not_mem_nil, or_false] at hi
  rcases hi with rfl | rfl | rfl | rfl <;> cases hd <;> simp

end Iris
