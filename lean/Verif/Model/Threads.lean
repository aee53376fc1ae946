import Verif.Model.Worker
/-!
# The threads of a worker and their shared channel

Models worker/src/linux/lockdown.rs:31-35 (one channel behind one mutex) and 292-303
(`send_recv`: lock, send, receive, unlock), for any number of threads and any interleaving.
The two directions of the socket are FIFO queues; the broker takes one request at a time
(broker/src/linux/ipc_loop.rs:45-74). A panic anywhere ends the process and is not
modelled here (see Model/Worker.lean), nor are traps inside the handler (Model/Sigsys.lean).
-/
namespace Iris

/-- Where a thread is in `send_recv`. -/
inductive Pc (Req Resp : Type)
  /-- running the program -/
  | idle
  /-- line 297: waiting in `get_ipc_channel` -/
  | waiting (r : Req)
  /-- line 298: holding the guard, about to send -/
  | locked (r : Req)
  /-- line 300: about to receive -/
  | sent (r : Req)
  /-- line 303: about to drop the guard and return `a` -/
  | received (r : Req) (a : Resp)

/-- All threads, the mutex, the socket and the broker. `sends` and `results` are histories:
what went into the socket, in order and by whom, and what each thread's calls returned. -/
structure World (σ Req Resp : Type) where
  pc : Nat → Pc Req Resp
  lock : Option Nat
  toBroker : List Req
  toWorker : List Resp
  broker : σ
  sends : List (Nat × Req)
  results : Nat → List (Req × Resp)

/-- Update of a function at one point. -/
def update {α : Type} (f : Nat → α) (i : Nat) (v : α) : Nat → α := fun j => if j = i then v else f j

/-- Nothing happened yet. -/
def World.init {σ Req Resp : Type} (s : σ) : World σ Req Resp :=
  ⟨fun _ => .idle, none, [], [], s, [], fun _ => []⟩

/-- One step of one thread or of the broker, whose behaviour is `serve`. -/
inductive World.Step {σ Req Resp : Type} (serve : σ → Req → σ × Resp) :
    World σ Req Resp → World σ Req Resp → Prop
  /-- a thread makes a system call that is intercepted -/
  | trap (w) (i : Nat) (r : Req) (h : w.pc i = .idle) :
    Step serve w { w with pc := update w.pc i (.waiting r) }
  /-- `Mutex::lock` returns, line 34 -/
  | acquire (w) (i : Nat) (r : Req) (h : w.pc i = .waiting r) (hl : w.lock = none) :
    Step serve w { w with pc := update w.pc i (.locked r), lock := some i }
  /-- `ipc.send`, line 298 -/
  | send (w) (i : Nat) (r : Req) (h : w.pc i = .locked r) :
    Step serve w { w with pc := update w.pc i (.sent r), toBroker := w.toBroker ++ [r],
                          sends := w.sends ++ [(i, r)] }
  /-- the broker reads a request and replies -/
  | serve (w) (r : Req) (rest : List Req) (h : w.toBroker = r :: rest) :
    Step serve w { w with toBroker := rest, broker := (serve w.broker r).1,
                          toWorker := w.toWorker ++ [(serve w.broker r).2] }
  /-- `ipc.recv`, line 300 -/
  | recv (w) (i : Nat) (r : Req) (a : Resp) (rest : List Resp) (h : w.pc i = .sent r)
    (hq : w.toWorker = a :: rest) :
    Step serve w { w with pc := update w.pc i (.received r a), toWorker := rest }
  /-- the guard is dropped and the call returns, line 303 -/
  | release (w) (i : Nat) (r : Req) (a : Resp) (h : w.pc i = .received r a) :
    Step serve w { w with pc := update w.pc i .idle, lock := none,
                          results := update w.results i (w.results i ++ [(r, a)]) }

/-- Any number of steps. -/
inductive World.Reachable {σ Req Resp : Type} (serve : σ → Req → σ × Resp) (s : σ) :
    World σ Req Resp → Prop
  | init : Reachable serve s (.init s)
  | step {w w'} (h : Reachable serve s w) (hs : Step serve w w') : Reachable serve s w'

/-- The broker of Model/Broker.lean as `serve`: request number `n` meets the choices `os n` of
the system. -/
def brokerServe [Target] (abi : Abi) (p : Policy) (os : Nat → OsChoice) (s : Broker × Nat)
    (r : IPCRequest) : (Broker × Nat) × Incoming :=
  match sendRequest r with
  | none => ((s.1, s.2 + 1), .eof)
  | some data =>
    let b' := s.1.step abi p (.datagram ⟨data, []⟩) (os s.2)
    ((b', s.2 + 1), brokerReply s.1 b')

end Iris
