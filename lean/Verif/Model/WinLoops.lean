import Verif.Model.WinBroker
/-!
# Several workers served at once, on Windows

Models the threads of broker/src/windows/ipc_loop.rs again, one system call at a time, on what they share:
the handles of the broker. Between any two system calls of a thread there can be system calls of the others, new
workers, and anything else the broker does with handles of its own. A thread uses whatever its two handle
values refer to at that moment. The pieces (`winRecv`, `winServe`, `winDuplicate`, `winWrap`) are those of Model/WinBroker.lean;
C134 proves that a thread which is not interrupted is the `WinBroker.step` of that file.
-/
namespace Iris

/-- The handles of the broker, and those of each worker, which is named by its process object. -/
structure WinShared where
  broker : HTable
  workers : Nat → HTable

/-- Where a thread is (broker/src/windows/ipc_loop.rs:17-99). -/
inductive WinLoopPhase
  /-- in the `ReadFile` of line 18 -/
  | greeting
  /-- in the `ReadFile` of line 35 -/
  | idle
  /-- `ReadFile` has returned; next is the system call the message asks for, if any -/
  | received (first : Bool) (inc : WinIncoming) (os : WinChoice)
  /-- about to call `DuplicateHandle` (ipc/src/windows/channel.rs:170) -/
  | giving (os : WinChoice) (resp : WinIPCResponse) (h : BitVec 64)
  /-- about to call `WriteFile` (ipc/src/windows/channel.rs:193), with the handle to be closed later, and what it was duplicated to -/
  | writing (os : WinChoice) (resp : WinIPCResponse) (h : Option (BitVec 64)) (given : Option (BitVec 64 × Nat))
  /-- about to close a handle, then to go on or to leave (ipc/src/windows/handle.rs:73-86) -/
  | dropping (h : BitVec 64) (next : Bool)
  /-- about to close the pipe -/
  | leaving
  /-- about to close the handle of the process -/
  | detaching
  | gone
deriving DecidableEq

/-- The thread serving one worker: its policy and its two handles (broker/src/windows/ipc_loop.rs:10-11), where it is, all it did,
and the objects it has read from and written to. -/
structure WinLoop where
  policy : Policy
  pipe : BitVec 64
  process : BitVec 64
  phase : WinLoopPhase
  trace : List WinAction
  ends : List (Option Nat)

def WinLoop.at (th : WinLoop) (ph : WinLoopPhase) : WinLoop := { th with phase := ph }

/-- The `ReadFile` of `recv` (ipc/src/windows/channel.rs:216-235), which fails if the value is not that of a handle
(`ERROR_INVALID_HANDLE` is 6). The value is looked up when `ReadFile` returns: a read that waits while the value comes to refer to
another object is not modelled. -/
def WinLoop.receive (s : WinShared) (th : WinLoop) (inc : WinIncoming) (os : WinChoice) : WinLoop :=
  { th with
    phase := .received (th.phase = .greeting) (if s.broker.get th.pipe = none then .failed 6 else inc) os
    ends := th.ends ++ [s.broker.get th.pipe] }

/-- broker/src/windows/ipc_loop.rs:92-99: what follows the attempt to send, depending on the handle sent and the result. -/
def afterSend (h : Option (BitVec 64)) (ok : Bool) : WinLoopPhase :=
  match h with
  | some h => .dropping h ok
  | none => if ok then .idle else .leaving

/-- broker/src/windows/ipc_loop.rs:17-99, the next system call of a thread. `winServe` makes one at most (lines 50-91);
what the thread does without one (decoding, evaluating the policy, encoding) goes with the call before or after. -/
def WinLoop.go (debug : Bool) (s : WinShared) (th : WinLoop) : WinShared × WinLoop :=
  match th.phase with
  | .greeting | .idle | .gone => (s, th)
  | .received first inc os =>
    match winRecv inc with
    | .request r none =>
      if first then
        if r = .initialization then (s, th.at (.writing os (.initialization th.policy) none none))
        else (s, th.at .leaving)
      else
        match winServe debug th.policy ⟨s.broker, []⟩ os r with
        | none => (s, th.at .leaving)
        | some x =>
          ({ s with broker := x.tables.broker },
           { th with
             phase := match x.handle with
               | some h => .giving os x.resp h
               | none => .writing os x.resp none none
             trace := th.trace ++ x.acts })
    | .request _ (some h) => (s, th.at (.dropping h false))
    | .ended => (s, th.at .leaving)
    | .error => (s, th.at .leaving)
  | .giving os resp h =>
    match s.broker.get th.process with
    | none => (s, th.at (.dropping h false))
    | some target =>
      match winDuplicate ⟨s.broker, s.workers target⟩ h os with
      | none => (s, th.at (.dropping h false))
      | some (t, v, object) =>
        ({ s with workers := fun k => if k = target then t.worker else s.workers k },
         th.at (.writing os resp (some h) (some (v, object))))
  | .writing os resp h given =>
    match winWrap (encWinResponse resp) (given.map (·.1)), s.broker.get th.pipe with
    | some _, some pipe =>
      if os.writeOk then
        (s, { th with phase := afterSend h true, trace := th.trace ++ [.sent resp given],
                      ends := th.ends ++ [some pipe] })
      else (s, { th with phase := afterSend h false, ends := th.ends ++ [some pipe] })
    | _, _ => (s, th.at (afterSend h false))
  | .dropping h next => ({ s with broker := s.broker.close h }, th.at (if next then .idle else .leaving))
  | .leaving => ({ s with broker := s.broker.close th.pipe }, th.at .detaching)
  | .detaching => ({ s with broker := s.broker.close th.process }, th.at .gone)

/-- The handles a thread has, and will use or close. -/
def WinLoop.owned (th : WinLoop) : List (BitVec 64) :=
  match th.phase with
  | .greeting | .idle | .received _ _ _ | .leaving => [th.pipe, th.process]
  | .giving _ _ h | .dropping h _ => [h, th.pipe, th.process]
  | .writing _ _ h _ => h.toList ++ [th.pipe, th.process]
  | .detaching => [th.process]
  | .gone => []

/-- The broker process: what its threads share, and the threads. -/
structure WinLoops where
  shared : WinShared
  threads : Nat → Option WinLoop

def WinLoops.put (w : WinLoops) (j : Nat) (x : WinShared × WinLoop) : WinLoops :=
  ⟨x.1, fun k => if k = j then some x.2 else w.threads k⟩

/-- What is remembered of an execution: a worker was created, with this policy, the handles of its thread and the
objects they refer to; its thread received something; its thread made another system call. -/
inductive WinLoopEvent
  | spawned (j : Nat) (p : Policy) (pipe process : BitVec 64) (pipeObject processObject : Nat)
  | recv (j : Nat) (inc : WinIncoming) (os : WinChoice) (before : WinShared)
  | step (j : Nat) (before after : WinShared)

/-- An execution. A new worker is what a successful `Worker::new` leaves (broker/src/worker.rs:18-85; its system calls
are the subject of C132): two handles, of a new pipe and a new process, and a thread. Between the system calls of threads other
threads of the broker do what they want with handles that are not those of the threads, and workers with their own. -/
inductive WinLoopsExec (debug : Bool) (w : WinLoops) : List WinLoopEvent → WinLoops → Prop
  | start : WinLoopsExec debug w [] w
  | spawn (ls : List WinLoopEvent) (w1 : WinLoops) (j : Nat) (p : Policy) (pipe process : BitVec 64) (po qo : Nat)
    (he : WinLoopsExec debug w ls w1) (hj : w1.threads j = none) (h1 : w1.shared.broker.get pipe = none)
    (h2 : w1.shared.broker.get process = none) (h3 : pipe ≠ process)
    (h4 : ∀ k p' a b po' qo', .spawned k p' a b po' qo' ∈ ls → po' ≠ po ∧ qo' ≠ qo) :
    WinLoopsExec debug w (ls ++ [.spawned j p pipe process po qo])
      (w1.put j ({ w1.shared with broker := (pipe, po) :: (process, qo) :: w1.shared.broker },
        ⟨p, pipe, process, .greeting, [], []⟩))
  | recv (ls : List WinLoopEvent) (w1 : WinLoops) (j : Nat) (th : WinLoop) (inc : WinIncoming) (os : WinChoice)
    (he : WinLoopsExec debug w ls w1) (hj : w1.threads j = some th) (hp : th.phase = .greeting ∨ th.phase = .idle) :
    WinLoopsExec debug w (ls ++ [.recv j inc os w1.shared]) (w1.put j (w1.shared, th.receive w1.shared inc os))
  | step (ls : List WinLoopEvent) (w1 : WinLoops) (j : Nat) (th : WinLoop)
    (he : WinLoopsExec debug w ls w1) (hj : w1.threads j = some th) :
    WinLoopsExec debug w (ls ++ [.step j w1.shared (th.go debug w1.shared).1]) (w1.put j (th.go debug w1.shared))
  | other (ls : List WinLoopEvent) (w1 : WinLoops) (s : WinShared) (he : WinLoopsExec debug w ls w1)
    (ho : ∀ j th, w1.threads j = some th → ∀ h ∈ th.owned, w1.shared.broker.get h ≠ none →
      s.broker.get h = w1.shared.broker.get h) :
    WinLoopsExec debug w ls { w1 with shared := s }

end Iris
