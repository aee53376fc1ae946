import Verif.Model.Threads
import Verif.Model.WinWorker
/-!
# The threads of a Windows worker and their shared channel

Models worker/src/windows/lockdown.rs:730-750: `send_recv` locks the one channel, logs, sends, receives, logs again and
unlocks. Unlike in Model/Threads.lean a logger is called, and as programs choose it, it can itself make hooked calls:
then the thread is in two calls at once. `Mutex::lock` waits while any thread holds the lock, also the same one (the
locks of Rust on Windows). A panic ends the process and is not modelled here (see Model/WinWorker.lean).
-/
namespace Iris

/-- Where a call is in `send_recv`. -/
inductive CallFrame (Req Resp : Type)
  /-- line 731: waiting in `get_ipc_channel` -/
  | waiting (r : Req)
  /-- line 732: holding the guard, about to log -/
  | before (r : Req)
  /-- line 734: about to send -/
  | locked (r : Req)
  /-- line 736: about to receive -/
  | sent (r : Req)
  /-- line 740: about to log -/
  | after (r : Req) (a : Resp)
  /-- line 741: about to drop the guard and return `a` -/
  | received (r : Req) (a : Resp)

/-- What the logger of the program does with the two lines of a call: the hooked call it makes, if any. A line that is
filtered out makes none. -/
structure Logger (Req Resp : Type) where
  onSend : Req → Option Req
  onRecv : Resp → Option Req

/-- All threads, each with the calls it is in, the innermost first; the mutex, the pipe and the broker. `sends` and
`results` are histories, as in `World`. -/
structure LWorld (σ Req Resp : Type) where
  stack : Nat → List (CallFrame Req Resp)
  lock : Option Nat
  toBroker : List Req
  toWorker : List Resp
  broker : σ
  sends : List (Nat × Req)
  results : Nat → List (Req × Resp)

/-- Nothing happened yet. -/
def LWorld.init {σ Req Resp : Type} (s : σ) : LWorld σ Req Resp :=
  ⟨fun _ => [], none, [], [], s, [], fun _ => []⟩

/-- The frames after the logger was called in frame `f`. -/
def logged {Req Resp : Type} (q : Option Req) (f : CallFrame Req Resp) (fs : List (CallFrame Req Resp)) :
    List (CallFrame Req Resp) :=
  match q with
  | none => f :: fs
  | some q => .waiting q :: f :: fs

/-- One step of one thread or of the broker, whose behaviour is `serve`. -/
inductive LWorld.Step {σ Req Resp : Type} (serve : σ → Req → σ × Resp) (log : Logger Req Resp) :
    LWorld σ Req Resp → LWorld σ Req Resp → Prop
  /-- the program makes a hooked call -/
  | call (w) (i : Nat) (r : Req) (h : w.stack i = []) :
    Step serve log w { w with stack := update w.stack i [.waiting r] }
  /-- `Mutex::lock` returns, line 748 -/
  | acquire (w) (i : Nat) (r : Req) (fs) (h : w.stack i = .waiting r :: fs) (hl : w.lock = none) :
    Step serve log w { w with stack := update w.stack i (.before r :: fs), lock := some i }
  /-- `debug!`, line 732 -/
  | logSend (w) (i : Nat) (r : Req) (fs) (h : w.stack i = .before r :: fs) :
    Step serve log w { w with stack := update w.stack i (logged (log.onSend r) (.locked r) fs) }
  /-- `ipc.send`, lines 734-735 -/
  | send (w) (i : Nat) (r : Req) (fs) (h : w.stack i = .locked r :: fs) :
    Step serve log w { w with stack := update w.stack i (.sent r :: fs), toBroker := w.toBroker ++ [r],
                              sends := w.sends ++ [(i, r)] }
  /-- the broker reads a request and replies -/
  | serve (w) (r : Req) (rest : List Req) (h : w.toBroker = r :: rest) :
    Step serve log w { w with toBroker := rest, broker := (serve w.broker r).1,
                              toWorker := w.toWorker ++ [(serve w.broker r).2] }
  /-- `ipc.recv`, lines 736-739 -/
  | recv (w) (i : Nat) (r : Req) (a : Resp) (fs) (rest : List Resp) (h : w.stack i = .sent r :: fs)
    (hq : w.toWorker = a :: rest) :
    Step serve log w { w with stack := update w.stack i (.after r a :: fs), toWorker := rest }
  /-- `debug!`, line 740 -/
  | logRecv (w) (i : Nat) (r : Req) (a : Resp) (fs) (h : w.stack i = .after r a :: fs) :
    Step serve log w { w with stack := update w.stack i (logged (log.onRecv a) (.received r a) fs) }
  /-- the guard is dropped and the call returns, lines 741-742 -/
  | release (w) (i : Nat) (r : Req) (a : Resp) (fs) (h : w.stack i = .received r a :: fs) :
    Step serve log w { w with stack := update w.stack i fs, lock := none,
                              results := update w.results i (w.results i ++ [(r, a)]) }

/-- Any number of steps. -/
inductive LWorld.Reachable {σ Req Resp : Type} (serve : σ → Req → σ × Resp) (log : Logger Req Resp) (s : σ) :
    LWorld σ Req Resp → Prop
  | init : Reachable serve log s (.init s)
  | step {w w'} (h : Reachable serve log s w) (hs : Step serve log w w') : Reachable serve log s w'

/-- The broker of Model/WinBroker.lean as `serve`: request number `n` meets the choices `os n` of the system. -/
def winThreadServe (debug : Bool) (p : Policy) (os : Nat → WinChoice) (s : WinBroker × Nat) (r : WinIPCRequest) :
    (WinBroker × Nat) × WinIncoming :=
  let b := winAfter debug p s.1 (os s.2) r
  ((b, s.2 + 1), winPiped s.1 b)

end Iris
