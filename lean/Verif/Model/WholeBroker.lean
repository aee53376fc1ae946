import Verif.Model.Creators
/-!
# A whole broker process

Puts together broker/src/worker.rs:18-85 (Model/Creators.lean) and the threads it spawns at
broker/src/linux/ipc_loop.rs:43-74 (Model/Concurrent.lean): threads of the program call
`Worker::new`, each call that succeeds leaves a thread which serves the worker it has created,
and all of them share one descriptor table, one system call at a time, in any order.
-/
namespace Iris

/-- broker/src/linux/ipc_loop.rs:43-45: the thread a call creates takes the policy and the
broker's end of the channel. Only its last step creates one. -/
def Creation.thread (x : Creation) : Option Loop :=
  match x.phase with
  | .spawning mine p _ => if x.os.spawnOk then some ⟨p, mine, .idle, [], []⟩ else none
  | _ => none

/-- The process: its descriptor table, the calls of `Worker::new` made so far
(broker/src/worker.rs:18), and the thread each has created (broker/src/linux/ipc_loop.rs:43). -/
structure WholeBroker where
  table : FdTable
  calls : Nat → Option Creation
  threads : Nat → Option Loop

/-- A new call (broker/src/worker.rs:18). -/
def WholeBroker.made (w : WholeBroker) (j : Nat) (x : Creation) : WholeBroker :=
  { w with calls := fun k => if k = j then some x else w.calls k }

/-- The next system call of call `j` (broker/src/worker.rs:18-85); the last may create a thread. -/
def WholeBroker.create (abi : Abi) (w : WholeBroker) (j : Nat) (x : Creation) : WholeBroker :=
  ⟨(x.go abi w.table).1, fun k => if k = j then some (x.go abi w.table).2 else w.calls k,
   fun k => if k = j then x.thread else w.threads k⟩

/-- A step of the thread of worker `j` (broker/src/linux/ipc_loop.rs:45-74). -/
def WholeBroker.served (w : WholeBroker) (j : Nat) (x : FdTable × Loop) : WholeBroker :=
  ⟨x.1, w.calls, fun k => if k = j then some x.2 else w.threads k⟩

/-- What is remembered of an execution: a call was made; it made a system call; the thread
serving worker `j` received something; it made another step. -/
inductive BrokerEvent
  | made (j : Nat) (c : ProcessConfig) (p : Policy) (caps : Caps) (os : NewOs) (before : FdTable)
  | step (j : Nat) (before after : FdTable)
  | recv (j : Nat) (inc : Incoming) (os : OsChoice) (before after : FdTable)
  | serve (j : Nat) (before after : FdTable)

/-- An execution: calls are made, their steps and those of the threads they create happen in any
order, and between them anything the rest of the program does to descriptors that belong neither
to them nor to a configuration or policy borrowed by a call in progress. `ok` is assumed of the
table at all times. -/
inductive WholeExec [Target] (abi : Abi) (ok : FdTable → Prop) (borrowed : Policy → ProcessConfig → Nat → Prop)
    (w : WholeBroker) : List BrokerEvent → WholeBroker → Prop
  | start (h : ok w.table) : WholeExec abi ok borrowed w [] w
  | call (ls : List BrokerEvent) (w1 : WholeBroker) (j : Nat) (c : ProcessConfig) (p : Policy) (caps : Caps)
    (os : NewOs) (he : WholeExec abi ok borrowed w ls w1) (hj : w1.calls j = none)
    (hb : ∀ fd, borrowed p c fd → w1.table.get fd ≠ none ∧
      (∀ k x, w1.calls k = some x → fd ∉ x.phase.owned) ∧ ∀ k th, w1.threads k = some th → fd ∉ th.owned) :
    WholeExec abi ok borrowed w (ls ++ [.made j c p caps os w1.table]) (w1.made j (.make c p caps os))
  | go (ls : List BrokerEvent) (w1 : WholeBroker) (j : Nat) (x : Creation)
    (he : WholeExec abi ok borrowed w ls w1) (hj : w1.calls j = some x) (hx : x.phase.over = false)
    (h : ok (x.go abi w1.table).1) :
    WholeExec abi ok borrowed w (ls ++ [.step j w1.table (x.go abi w1.table).1]) (w1.create abi j x)
  | recv (ls : List BrokerEvent) (w1 : WholeBroker) (j : Nat) (th : Loop) (inc : Incoming) (os : OsChoice)
    (he : WholeExec abi ok borrowed w ls w1) (hj : w1.threads j = some th) (hi : th.phase = .idle)
    (h : ok (th.receive abi w1.table inc os).1) :
    WholeExec abi ok borrowed w (ls ++ [.recv j inc os w1.table (th.receive abi w1.table inc os).1])
      (w1.served j (th.receive abi w1.table inc os))
  | serve (ls : List BrokerEvent) (w1 : WholeBroker) (j : Nat) (th : Loop)
    (he : WholeExec abi ok borrowed w ls w1) (hj : w1.threads j = some th)
    (h : ok (th.go abi w1.table).1) :
    WholeExec abi ok borrowed w (ls ++ [.serve j w1.table (th.go abi w1.table).1])
      (w1.served j (th.go abi w1.table))
  | other (ls : List BrokerEvent) (w1 : WholeBroker) (t : FdTable) (he : WholeExec abi ok borrowed w ls w1)
    (hn : (t.map Prod.fst).Nodup)
    (ho : ∀ j x, w1.calls j = some x → ∀ fd ∈ x.phase.owned, t.get fd = w1.table.get fd)
    (ht : ∀ j th, w1.threads j = some th → ∀ fd ∈ th.owned, t.get fd = w1.table.get fd)
    (hb : ∀ j x, w1.calls j = some x → x.phase.over = false →
      ∀ fd, borrowed x.policy x.config fd → t.get fd = w1.table.get fd) (h : ok t) :
    WholeExec abi ok borrowed w ls { w1 with table := t }

end Iris
