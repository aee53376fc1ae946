import Verif.Spec.Process
import Verif.Spec.Broker
/-!
# What can prevent a Linux worker from being created

The steps of the creation, in order, and the error of each one.
-/
namespace Iris.Spec

/-- `Cause … n e`: step `n` of the creation fails, and the error for it is `e`. `ending` is what became of the new
process, if one was created. -/
inductive Cause (t : FdTable) (c : ProcessConfig) (p : Policy) (os : NewOs) (ending : Option EntryEnd) :
    Nat → BrokerError → Prop
  /-- no channel -/
  | channel {code : Nat} (h : os.socketpair = .error code) :
    Cause t c p os ending 0 (.internalOsOperationFailed c!"socketpair() failed" code)
  /-- a stream which is not inheritable -/
  | stdin {fd : Nat} (h : c.stdin = some fd) (hn : ¬ Inheritable t fd) :
    Cause t c p os ending 1 (.cannotBuildPolicyForWorker (.handleNotInheritable fd))
  | stdout {fd : Nat} (h : c.stdout = some fd) (hn : ¬ Inheritable t fd) :
    Cause t c p os ending 2 (.cannotBuildPolicyForWorker (.handleNotInheritable fd))
  | stderr {fd : Nat} (h : c.stderr = some fd) (hn : ¬ Inheritable t fd) :
    Cause t c p os ending 3 (.cannotBuildPolicyForWorker (.handleNotInheritable fd))
  /-- the variable for the channel is taken -/
  | environment {v : Bytes} (h : v ∈ c.envp) (hn : EnvName v (utf8 c!"SANDBOX_IPC_HANDLE")) :
    Cause t c p os ending 4 (.conflictingEnvironmentVariable (utf8 c!"SANDBOX_IPC_HANDLE"))
  /-- no arguments, not even the name of the program -/
  | arguments (h : c.argv = []) : Cause t c p os ending 5 .missingCommandLine
  /-- no pipe -/
  | pipe {code : Nat} (h : os.proc.pipe = .error code) :
    Cause t c p os ending 6 (.internalOsOperationFailed c!"pipe() failed" code)
  /-- no process, however it is asked for -/
  | clone {code1 code2 code : Nat} (h1 : os.proc.clone1 = .error code1) (h2 : os.proc.clone2 = .error code2)
      (h : os.proc.clone3 = .error code) : Cause t c p os ending 7 (.internalOsOperationFailed c!"clone() failed" code)
  /-- the program cannot be executed -/
  | execute {code : Nat} {wrote : Option (Nat × Bytes)} (h : ending = some (.execFailed code wrote)) :
    Cause t c p os ending 8 (.internalOsOperationFailed c!"execve()" code)
  /-- the channel is closed before anything was received; an empty message is taken for this -/
  | exited (h : os.first = .eof ∨ os.first = .datagram ⟨[], []⟩) :
    Cause t c p os ending 9 .processExitedDuringInitialization
  /-- nothing can be received -/
  | receive {code : Nat} (h : os.first = .error code) : Cause t c p os ending 9 .workerCommunicationError
  /-- what is received is not a message -/
  | garbled {data : Bytes} (h : os.first = .datagram ⟨data, []⟩) (hd : data ≠ [])
      (hg : 65536 < data.length ∨ recvRequest data = none) : Cause t c p os ending 9 .workerCommunicationError
  /-- a message, but not the first one of a worker -/
  | unexpected {r : IPCRequest} (h : classify os.first = .request r) (hr : r ≠ .initialization) :
    Cause t c p os ending 9 .unexpectedWorkerMessage
  /-- the policy is too long for a message, or cannot be sent -/
  | send (h : sendResponse (.initialization p.runtime (os.filter.getD [])) = none ∨ os.osFirst.sendError ≠ none) :
    Cause t c p os ending 10 .workerCommunicationError
  /-- no thread to serve the worker (the text goes on with the system's reason, which is left out here) -/
  | thread (h : os.spawnOk = false) :
    Cause t c p os ending 11 (.internalOsOperationFailed c!"cannot create ipc thread" 0)

/-- The error of the first step that fails. -/
def FirstCause (t : FdTable) (c : ProcessConfig) (p : Policy) (os : NewOs) (ending : Option EntryEnd) (e : BrokerError) :
    Prop :=
  ∃ n, Cause t c p os ending n e ∧ ∀ m, m < n → ∀ e', ¬ Cause t c p os ending m e'

end Iris.Spec
