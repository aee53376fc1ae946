import Verif.Model.WinCreators
import Verif.Model.WinLoops
/-!
# A whole broker process on Windows

Puts together broker/src/worker.rs:18-85 (Model/WinCreators.lean) and the threads it spawns at broker/src/windows/ipc_loop.rs:15-99
(Model/WinLoops.lean): threads of the program call `Worker::new`, each call that succeeds leaves a thread which serves the worker it has
created, and all of them share the handles of one process, one system call at a time, in any order.
-/
namespace Iris

/-- broker/src/windows/ipc_loop.rs:10-17: the thread a call creates takes the runtime policy (broker/src/worker.rs:75, which does
not depend on the handles allowed at lines 35-45), the pipe and the handle of the process. Only its last step creates one. -/
def WCreation.thread (x : WCreation) : Option WinLoop :=
  match x.phase with
  | .spawning mine _ remote => if x.os.spawn then some ⟨x.policy.runtime, mine, remote, .greeting, [], []⟩ else none
  | _ => none

/-- What a system call of a thread leaves of the rest of the process when the handles are `t` after it: the pipes whose server end it has not closed
(as in `PipeWorld.close`), and the marks of the handles still there. New objects get numbers that are not used yet. -/
def WinWorld.withHandles (w : WinWorld) (t : HTable) : WinWorld :=
  { w with
    pw := ⟨w.pw.pipes.filter fun i => w.pw.handles.all fun e => e.2 ≠ i.server || (t.get e.1).isSome,
      t.foldl (fun n e => max n (e.2 + 1)) w.pw.next, t⟩
    inheritable := w.inheritable.filter fun h => (t.get h).isSome }

/-- The process: what its threads share, the handles of each worker process, the calls of `Worker::new` made so far
(broker/src/worker.rs:18), and the thread each has created (broker/src/windows/ipc_loop.rs:15). -/
structure WholeWin where
  world : WinWorld
  workers : Nat → HTable
  calls : Nat → Option WCreation
  threads : Nat → Option WinLoop

/-- What the threads serving workers use (`WinShared` of Model/WinLoops.lean). -/
def WholeWin.shared (w : WholeWin) : WinShared := ⟨w.world.pw.handles, w.workers⟩

/-- A new call (broker/src/worker.rs:18). -/
def WholeWin.made (w : WholeWin) (j : Nat) (x : WCreation) : WholeWin :=
  { w with calls := fun k => if k = j then some x else w.calls k }

/-- The next system call of call `j` (broker/src/worker.rs:18-85); the last may create a thread. -/
def WholeWin.create (w : WholeWin) (j : Nat) (x : WCreation) : WholeWin :=
  ⟨(x.go w.world).1, w.workers, fun k => if k = j then some (x.go w.world).2 else w.calls k,
   fun k => if k = j then x.thread else w.threads k⟩

/-- The thread of worker `j` has received a message (broker/src/windows/ipc_loop.rs:18 and 35). -/
def WholeWin.received (w : WholeWin) (j : Nat) (th : WinLoop) : WholeWin :=
  { w with threads := fun k => if k = j then some th else w.threads k }

/-- A system call of the thread of worker `j` (broker/src/windows/ipc_loop.rs:17-99). -/
def WholeWin.served (w : WholeWin) (j : Nat) (x : WinShared × WinLoop) : WholeWin :=
  ⟨w.world.withHandles x.1.broker, x.1.workers, w.calls, fun k => if k = j then some x.2 else w.threads k⟩

/-- What is remembered of an execution: a call was made; it made a system call; the thread serving worker `j` received something; it made
another system call. -/
inductive WholeWinEvent
  | made (j : Nat) (c : ProcessConfig) (p : Policy) (os : LaunchOs) (before : WinWorld)
  | step (j : Nat) (before after : WinWorld)
  | recv (j : Nat) (inc : WinIncoming) (os : WinChoice) (before : WinShared)
  | serve (j : Nat) (before after : WinShared)

/-- An execution: calls are made, their steps and those of the threads they create happen in any order, and between them anything the rest
of the program does to handles that belong neither to them nor to a configuration or policy borrowed by a call in progress
(`WinOther`), and anything workers do to their own. What a thread opens is a new object (`hf`). -/
inductive WholeWinExec (debug : Bool) (borrowed : Policy → ProcessConfig → BitVec 64 → Prop) (w : WholeWin) :
    List WholeWinEvent → WholeWin → Prop
  | start : WholeWinExec debug borrowed w [] w
  | call (ls : List WholeWinEvent) (w1 : WholeWin) (j : Nat) (c : ProcessConfig) (p : Policy) (os : LaunchOs)
    (he : WholeWinExec debug borrowed w ls w1) (hj : w1.calls j = none)
    (hb : ∀ h, borrowed p c h → w1.world.pw.handles.get h ≠ none ∧ (∀ k x, w1.calls k = some x → h ∉ x.owned) ∧
      ∀ k th, w1.threads k = some th → h ∉ th.owned) :
    WholeWinExec debug borrowed w (ls ++ [.made j c p os w1.world]) (w1.made j (.make c p os))
  | go (ls : List WholeWinEvent) (w1 : WholeWin) (j : Nat) (x : WCreation)
    (he : WholeWinExec debug borrowed w ls w1) (hj : w1.calls j = some x) (hx : x.phase.over = false) :
    WholeWinExec debug borrowed w (ls ++ [.step j w1.world (x.go w1.world).1]) (w1.create j x)
  | recv (ls : List WholeWinEvent) (w1 : WholeWin) (j : Nat) (th : WinLoop) (inc : WinIncoming) (os : WinChoice)
    (he : WholeWinExec debug borrowed w ls w1) (hj : w1.threads j = some th) (hp : th.phase = .greeting ∨ th.phase = .idle) :
    WholeWinExec debug borrowed w (ls ++ [.recv j inc os w1.shared]) (w1.received j (th.receive w1.shared inc os))
  | serve (ls : List WholeWinEvent) (w1 : WholeWin) (j : Nat) (th : WinLoop)
    (he : WholeWinExec debug borrowed w ls w1) (hj : w1.threads j = some th)
    (hf : ∀ h o, w1.world.pw.handles.get h = none → (th.go debug w1.shared).1.broker.get h = some o →
      w1.world.pw.next ≤ o ∧ ∀ i ∈ w1.world.pw.pipes, i.client ≠ some o) :
    WholeWinExec debug borrowed w (ls ++ [.serve j w1.shared (th.go debug w1.shared).1])
      (w1.served j (th.go debug w1.shared))
  | other (ls : List WholeWinEvent) (w1 : WholeWin) (w2 : WinWorld) (workers : Nat → HTable)
    (he : WholeWinExec debug borrowed w ls w1)
    (ho : WinOther (fun h => ∃ j x, w1.calls j = some x ∧ h ∈ x.owned)
      (fun h => ∃ j x, w1.calls j = some x ∧ x.phase.over = false ∧ borrowed x.policy x.config h) w1.world w2)
    (ht : ∀ j th, w1.threads j = some th → ∀ h ∈ th.owned, w1.world.pw.handles.get h ≠ none →
      w2.pw.handles.get h = w1.world.pw.handles.get h) :
    WholeWinExec debug borrowed w ls { w1 with world := w2, workers := workers }

end Iris
