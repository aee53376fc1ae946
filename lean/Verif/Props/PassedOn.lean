import Verif.Lemmas.PassedOn
import Verif.Props.WholeBroker
/-!
# Programs started by the rest of the broker's process (C150)

The program that uses the library may execute other programs at any time. They get every open
descriptor which is not marked `FD_CLOEXEC`.
-/
namespace Iris
open Spec

/-- `PassedOn` is what `execve` of the model does. -/
theorem passedOn_iff {t : FdTable} (hw : (t.map Prod.fst).Nodup) (fd : Nat) :
    PassedOn t fd ↔ (closeOnExec t).get fd ≠ none := by
  rw [closeOnExec_get hw]
  cases h : t.get fd with
  | none => simp [PassedOn, h]
  | some e => by_cases hf : e.flags &&& 1#32 = 0#32 <;> simp [PassedOn, h, FD_CLOEXEC, Option.filter, hf]

/-- C150 is false in every execution, at all times: the broker's end of the channel of every worker which is being served
is passed on to any program that is executed. -/
theorem C150_violated_channel [Target] (abi : Abi) (ok : FdTable → Prop) (w w' : WholeBroker) (ls : List BrokerEvent)
    (h : NothingYet w) (he : WholeExec abi ok Declared w ls w') (j : Nat) (c : ProcessConfig) (p : Policy) (caps : Caps)
    (os : NewOs) (before : FdTable) (hm : .made j c p caps os before ∈ ls) (th : Loop) (ht : w'.threads j = some th)
    (hg : ∀ why, th.phase ≠ .gone why) :
    HeldFor j ls th.chan ∧ PassedOn w'.table th.chan ∧
    ∃ a b, os.socketpair = .ok (a, b) ∧ (w'.table.get th.chan).map (·.file) = some a := by
  obtain ⟨t0, ms, ⟨x, a, b, h1, h2, h3⟩, h4, _⟩ := (thread_run h he j).2 th ht
  obtain ⟨y, hy, _, rfl⟩ := whole_made h he hm
  rw [h1] at hy
  cases hy
  have hown : th.chan ∈ th.owned := by
    unfold Loop.owned
    split <;> first | exact absurd (by assumption) (hg _) | simp
  have key := exec_entry abi ok _ _ ms (oneLoop_fresh (by rw [h3]; rfl)) h4 0 (by simpa only [oneLoop, if_true] using hown)
  simp only [oneLoop, if_true] at key
  rw [h3] at key
  refine ⟨(whole_exec h he).2.fd.holds j _ (mem_fds_thread ht _ hown), ⟨_, key, by simp⟩, a, b, h2, ?_⟩
  rw [key]
  rfl

/-- C150 is false of every call of `Worker::new`: whatever it opens, other than what a worker sends, is passed on at
first. That is both ends of the channel and both ends of the pipe. -/
theorem C150_violated_new [Target] (abi : Abi) (ok : FdTable → Prop) (w w' : WholeBroker) (ls : List BrokerEvent)
    (h : NothingYet w) (he : WholeExec abi ok Declared w ls w') (j : Nat) (c : ProcessConfig) (p : Policy) (caps : Caps)
    (os : NewOs) (first before after : FdTable) (hm : .made j c p caps os first ∈ ls) (hs : .step j before after ∈ ls)
    (fd : Nat) (e : FdEntry) (hop : Opens before after fd e) :
    PassedOn after fd ∨ (¬ PassedOn after fd ∧ ∃ d, os.first = .datagram d ∧ e.file ∈ d.files) := by
  obtain ⟨x, h1, h2⟩ := (all_opens h he).step j before after hs
  obtain ⟨y, hy, _, rfl⟩ := whole_made h he hm
  rw [h1] at hy
  cases hy
  rcases h2 fd e hop with h3 | ⟨h3, h4⟩
  · exact .inl ⟨e, hop.2, by simp [h3]⟩
  · refine .inr ⟨?_, h4⟩
    rintro ⟨e', h5, h6⟩
    rw [hop.2] at h5
    cases h5
    rw [h3] at h6
    revert h6
    decide

/-- C150, what holds: what a worker sends to the thread serving it is not passed on. Missing: everything else. -/
theorem C150_received_partial [Target] (abi : Abi) (ok : FdTable → Prop) (w w' : WholeBroker) (ls : List BrokerEvent)
    (h : NothingYet w) (he : WholeExec abi ok Declared w ls w') (j : Nat) (inc : Incoming) (os : OsChoice)
    (before after : FdTable) (hm : .recv j inc os before after ∈ ls) (fd : Nat) (hn : before.get fd = none) :
    ¬ PassedOn after fd := by
  rintro ⟨e, h1, h2⟩
  obtain ⟨h3, _⟩ := (all_opens h he).recv j inc os before after hm fd e ⟨hn, h1⟩
  rw [h3] at h2
  revert h2
  decide

/-- C150. A file opened because a worker asked for it is passed on unless the worker asked for `O_CLOEXEC` (0x80000). -/
theorem C150_asked [Target] (abi : Abi) (ok : FdTable → Prop) (w w' : WholeBroker) (ls : List BrokerEvent)
    (h : NothingYet w) (he : WholeExec abi ok Declared w ls w') (j : Nat) (before after : FdTable)
    (hm : .serve j before after ∈ ls) (fd : Nat) (e : FdEntry) (hop : Opens before after fd e) :
    ∃ th path flags mode, w'.threads j = some th ∧ Action.opened path flags mode ∈ th.trace ∧
      (PassedOn after fd ↔ flags &&& 0x80000#32 = 0#32) := by
  obtain ⟨th, h1, h2⟩ := (all_opens h he).serve j before after hm
  obtain ⟨path, flags, mode, h3, h4⟩ := h2 fd e hop
  refine ⟨th, path, flags, mode, h1, h3, ?_⟩
  by_cases hf : flags &&& 0x80000#32 = 0#32
  · simp only [hf, iff_true]
    exact ⟨e, hop.2, by simp [h4, hf]⟩
  · simp only [hf, iff_false]
    rintro ⟨e', h5, h6⟩
    rw [hop.2] at h5
    cases h5
    rw [h4, if_pos hf] at h6
    revert h6
    decide

/-- C150, what holds: while the pipe's write end is open after the worker's process has been created, it is not passed on.
So no other program makes `Worker::new` wait for it. Missing: between `pipe` and `fcntl`, it is. -/
theorem C150_pipe_partial [Target] (abi : Abi) (ok : FdTable → Prop) (w w' : WholeBroker) (ls : List BrokerEvent)
    (h : NothingYet w) (he : WholeExec abi ok Declared w ls w') (j : Nat) (x : Creation) (hx : w'.calls j = some x)
    (e : ChanEnds) (p : Policy) (q : PipeEnds)
    (hp : (∃ c, x.phase = .cloning e p c q) ∨ ∃ ch, x.phase = .cloned e p q ch) : ¬ PassedOn w'.table q.wr := by
  have key : ∃ f, w'.table.get q.wr = some ⟨f, FD_CLOEXEC⟩ := by
    rcases hp with ⟨c, hp⟩ | ⟨ch, hp⟩
    · have hok := (exec_creators_inv ⟨h.calls, h.nodup⟩ (whole_exec h he).1).ok j x hx
      unfold PhaseOk at hok
      rw [hp] at hok
      obtain ⟨_, _, _, f, _, _, h3⟩ := hok
      exact ⟨_, h3⟩
    · exact pipe_sealed h he j hx hp
  obtain ⟨f, hf⟩ := key
  rintro ⟨e', h5, h6⟩
  rw [hf] at h5
  cases h5
  exact absurd h6 (by simp [FD_CLOEXEC])

/-! ## The hypotheses are met -/

/-- Both workers of the execution of C133 are being served, and the broker's ends are passed on: 5 and 8. -/
example : ∃ th0 th1, wholeEnd.2.threads 0 = some th0 ∧ wholeEnd.2.threads 1 = some th1 ∧ th0.chan = 5 ∧ th1.chan = 8 ∧
    PassedOn wholeEnd.2.table 5 ∧ PassedOn wholeEnd.2.table 8 ∧ ¬ PassedOn wholeEnd.2.table 6 := by
  have h0 : (wholeEnd.2.threads 0).map (fun th => (th.chan, th.phase.isIdle)) = some (5, true) := by decide +kernel
  have h1 : (wholeEnd.2.threads 1).map (fun th => (th.chan, th.phase.isIdle)) = some (8, true) := by decide +kernel
  have ht : wholeEnd.2.table = [(8, ⟨52, 0#32⟩), (5, ⟨50, 0#32⟩)] ++ brokerTable := by decide +kernel
  cases e0 : wholeEnd.2.threads 0 with
  | none => rw [e0] at h0; cases h0
  | some th0 =>
    cases e1 : wholeEnd.2.threads 1 with
    | none => rw [e1] at h1; cases h1
    | some th1 =>
      rw [e0] at h0
      rw [e1] at h1
      simp only [Option.map_some, Option.some.injEq, Prod.mk.injEq] at h0 h1
      refine ⟨th0, th1, rfl, rfl, h0.1, h1.1, ⟨⟨50, 0#32⟩, by rw [ht]; rfl, rfl⟩, ⟨⟨52, 0#32⟩, by rw [ht]; rfl, rfl⟩, ?_⟩
      rintro ⟨e, h, _⟩
      rw [ht] at h
      cases h

/-- A worker sends a file: descriptor 6 is not passed on. -/
def sendsFile : List Turn :=
  List.replicate 22 (.step 0) ++ [.recv 0 (.datagram ⟨[1], [300]⟩) ⟨2, .ok 0, none⟩]

def sendsFileEnd : List BrokerEvent × WholeBroker :=
  sendsFile.foldl (@WholeBroker.turn x86_64 .lp64 fewStdin) (wholeCalls brokerTable)

example : sendsFileEnd.2.table = [(6, ⟨300, 1#32⟩), (5, ⟨50, 0#32⟩)] ++ brokerTable := by decide +kernel

/-- While worker 0 is created: after `socketpair`, after `pipe`, and after `fcntl`. -/
def createdTo (n : Nat) : FdTable :=
  ((List.replicate n (Turn.step 0)).foldl (@WholeBroker.turn x86_64 .lp64 fewStdin) (wholeCalls brokerTable)).2.table

example : createdTo 1 = [(6, ⟨51, 0#32⟩), (5, ⟨50, 0#32⟩)] ++ brokerTable ∧
    createdTo 7 = [(9, ⟨61, 0#32⟩), (8, ⟨60, 0#32⟩), (6, ⟨51, 0#32⟩), (5, ⟨50, 0#32⟩)] ++ brokerTable ∧
    createdTo 10 = [(9, ⟨61, 1#32⟩), (8, ⟨60, 0#32⟩), (6, ⟨51, 0#32⟩), (5, ⟨50, 0#32⟩)] ++ brokerTable := by decide +kernel

/-- C150 is false: a broker which serves one worker passes its end of the channel on. -/
theorem C150_violated : ¬ @NothingPassedOn x86_64 .lp64 (fun t => Bounded t ∧ StdinIs 10 t) := by
  intro hall
  obtain ⟨hn, he⟩ := wholeEnd_exec
  have h0 : (wholeEnd.2.threads 0).map (fun th => th.phase.isIdle) = some true := by decide +kernel
  cases e0 : wholeEnd.2.threads 0 with
  | none => rw [e0] at h0; cases h0
  | some th =>
    rw [e0] at h0
    have hidle := LoopPhase.of_isIdle th.phase (by simpa using h0)
    have hm : .made 0 someConfig tmpPolicy fullCaps goodOs brokerTable ∈ wholeEnd.1 :=
      @turns_mem x86_64 .lp64 fewStdin _ _ _ (List.mem_cons_self ..)
    generalize wholeEnd = W at he hm e0
    obtain ⟨h1, h2, _⟩ := @C150_violated_channel x86_64 _ _ _ _ _ hn he 0 _ _ _ _ _ hm th e0 (by intro why; rw [hidle]; simp)
    exact hall _ _ _ hn he 0 _ h1 h2

end Iris
