import Verif.Model.Worker
/-!
# Entering and leaving the SIGSYS handler

Models worker/src/linux/lockdown.rs:198-216 (signal checks), 25-27, 231-238 and 287-289
(the thread-local reentrancy flag) and the mutex of `get_ipc_channel` (33-35), for one
thread. The handler is installed with SA_NODEFER (line 98), so a system call trapped while
it runs starts it again on top of itself.
-/
namespace Iris

/-- SIGSYS on Linux, and line 21 `SYS_SECCOMP`. -/
def SIGSYS : Nat := 31
def SYS_SECCOMP : Nat := 1

/-- Where one activation of the handler is. -/
inductive Frame
  /-- before `get_ipc_channel`, or after the guard was dropped -/
  | working
  /-- in `Mutex::lock`: the thread is blocked while the mutex is held -/
  | locking
  /-- holding the guard (in `send` or `recv`) -/
  | holding
deriving DecidableEq, Repr

/-- A thread: the thread-local flag, the handler's activations (innermost first), whether the
channel mutex is held by this thread, and whether it stopped with a panic. -/
structure SigState where
  flag : Bool
  frames : List Frame
  held : Bool
  panicked : Bool
deriving DecidableEq, Repr

def SigState.init : SigState := ⟨false, [], false, false⟩

/-- worker/src/linux/lockdown.rs:237 and 288, `*b.borrow_mut() = &v` where `b: &bool` is a
variable of the closure: this makes `b` point elsewhere; the thread-local it pointed to keeps
its value `stored`. -/
def assignFlag (stored _v : Bool) : Bool := stored

/-- worker/src/linux/lockdown.rs:198-238: the start of the handler. -/
def SigState.enter (s : SigState) (signalNo siCode : Nat) : SigState :=
  if signalNo ≠ SIGSYS then s
  else if siCode ≠ SYS_SECCOMP then s
  else if s.flag then { s with panicked := true }
  else { s with flag := assignFlag s.flag true, frames := .working :: s.frames }

/-- One step of the thread. Only code that runs can be interrupted or trap: not a thread
blocked in `Mutex::lock`. -/
inductive SigState.Step : SigState → SigState → Prop
  /-- a signal is delivered to the program, or to the handler itself -/
  | signal (s : SigState) (signalNo siCode : Nat) (hp : s.panicked = false)
    (hr : s.frames.head? ≠ some .locking) : Step s (s.enter signalNo siCode)
  /-- the handler calls `get_ipc_channel` -/
  | lock (s : SigState) (fs : List Frame) (hp : s.panicked = false) (h : s.frames = .working :: fs) :
    Step s { s with frames := .locking :: fs }
  /-- `Mutex::lock` returns -/
  | locked (s : SigState) (fs : List Frame) (hp : s.panicked = false) (h : s.frames = .locking :: fs)
    (hh : s.held = false) : Step s { s with frames := .holding :: fs, held := true }
  /-- the guard is dropped -/
  | unlock (s : SigState) (fs : List Frame) (hp : s.panicked = false) (h : s.frames = .holding :: fs) :
    Step s { s with frames := .working :: fs, held := false }
  /-- lines 287-290: the flag is cleared and the handler returns -/
  | leave (s : SigState) (fs : List Frame) (hp : s.panicked = false) (h : s.frames = .working :: fs) :
    Step s { s with flag := assignFlag s.flag false, frames := fs }

inductive SigState.Reachable : SigState → Prop
  | init : Reachable .init
  | step {s s'} (h : Reachable s) (hs : Step s s') : Reachable s'

end Iris
