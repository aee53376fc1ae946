import Verif.Model.WinErrors
import Verif.Spec.Process
/-!
# What can prevent a Windows worker from being created

The steps of the creation, in order, and the error of each one.
-/
namespace Iris.Spec

/-- An iteration of the creation of the channel fails with this error. 5 is "access denied", taken to mean that the name is
in use; 4, "too many open files", stands for an answer of the system that the model turns down because that value is in use; 231
is for somebody else being connected to the pipe. -/
inductive ChannelCause (r : PipeRound) : BrokerError → Prop
  | create {code : BitVec 32} (h : r.create = .error code ∧ code ≠ 5 ∨ (∃ taken, r.create = .ok taken) ∧ code = 4) :
    ChannelCause r (.internalOsOperationFailed c!"CreateNamedPipe() failed" code.toNat)
  | open_ {code : BitVec 32} (h : r.open_ = .error code ∨ (∃ x, r.open_ = .ok x) ∧ (code = 4 ∨ code = 231)) :
    ChannelCause r (.internalOsOperationFailed c!"CreateFile() failed" code.toNat)
  | connect {code : BitVec 32} (h : r.connect = some code) :
    ChannelCause r (.internalOsOperationFailed c!"ConnectNamedPipe() failed" code.toNat)
  | setMode {code : BitVec 32} (h : r.setMode = some code) :
    ChannelCause r (.internalOsOperationFailed c!"SetNamedPipeHandleState() failed" code.toNat)

/-- `WinCause … n e`: step `n` of the creation fails, after that of the channel, and the error for it is `e`. `round` is the
last attempt at creating a process; `line` is the command line as text. -/
inductive WinCause (codes : LaunchCodes) (os : LaunchOs) (c : ProcessConfig) (w : WinWorld) (line : Str) (round : Nat) :
    Nat → BrokerError → Prop
  /-- the worker's end of the channel cannot be made inheritable -/
  | inherit (h : os.setInheritable = false) : WinCause codes os c w line round 1
      (.internalOsOperationFailed c!"SetHandleInformation() failed" codes.setInheritable.toNat)
  /-- a stream which is not inheritable -/
  | stdin {raw : Nat} (h : c.stdin = some raw) (hn : BitVec.ofNat 64 raw ∉ w.inheritable) :
    WinCause codes os c w line round 2 (.cannotBuildPolicyForWorker (.handleNotInheritable raw))
  | stdout {raw : Nat} (h : c.stdout = some raw) (hn : BitVec.ofNat 64 raw ∉ w.inheritable) :
    WinCause codes os c w line round 3 (.cannotBuildPolicyForWorker (.handleNotInheritable raw))
  | stderr {raw : Nat} (h : c.stderr = some raw) (hn : BitVec.ofNat 64 raw ∉ w.inheritable) :
    WinCause codes os c w line round 4 (.cannotBuildPolicyForWorker (.handleNotInheritable raw))
  /-- the variable for the channel is taken -/
  | environment {v : Bytes} (h : v ∈ c.envp) (hn : EnvName v (utf8 c!"SANDBOX_IPC_HANDLE")) :
    WinCause codes os c w line round 5 (.conflictingEnvironmentVariable (utf8 c!"SANDBOX_IPC_HANDLE"))
  /-- no arguments, not even the name of the program -/
  | arguments (h : c.argv = []) : WinCause codes os c w line round 6 .missingCommandLine
  /-- the Windows directory is not known -/
  | directory (h : os.windowsDirectory = false) : WinCause codes os c w line round 7
      (.internalOsOperationFailed c!"GetSystemDirectory() failed" codes.windowsDirectory.toNat)
  /-- no list of attributes -/
  | list (h : (os.rounds round).listOk = false) : WinCause codes os c w line round 8
      (.internalOsOperationFailed c!"InitializeProcThreadAttributeList()" (codes.list round).toNat)
  /-- no process -/
  | create (h : (os.rounds round).createOk = false) : WinCause codes os c w line round 9
      (.internalOsOperationFailed (c!"CreateProcess(" ++ line ++ c!") failed") (codes.create round).toNat)
  /-- a process whose number cannot be got -/
  | number (h : (os.rounds round).pid = 0#32) : WinCause codes os c w line round 10
      (.internalOsOperationFailed c!"GetProcessId() failed" (codes.getPid round).toNat)
  /-- a process that cannot be opened, to give it handles later -/
  | accept (h : os.opened = none) : WinCause codes os c w line round 11
      (.internalOsOperationFailed c!"unknown OS operation failed, IPC channel does not accept worker PID" 0)
  /-- no thread to serve the worker -/
  | thread (h : os.spawn = false) : WinCause codes os c w line round 12
      (.internalOsOperationFailed (c!"cannot create ipc thread: " ++ codes.spawn) 0)

/-- Attempt `round` at creating a process is made and is the last one: if it had no list of attributes that would be the
error, and what the system would do in later ones makes no difference. -/
def LastAttempt (err : LaunchCodes → LaunchOs → Option BrokerError) (codes : LaunchCodes) (os : LaunchOs) (round : Nat)
    (e : BrokerError) : Prop :=
  (∀ codes' rounds, (∀ i, i < round → rounds i = os.rounds i) → (rounds round).listOk = false →
    err codes' { os with rounds := rounds } =
      some (.internalOsOperationFailed c!"InitializeProcThreadAttributeList()" (codes'.list round).toNat)) ∧
  ∀ rounds, (∀ i, i ≤ round → rounds i = os.rounds i) → err codes { os with rounds := rounds } = some e

/-- The error of the first step that fails; `err` is the error for all that the system may do. -/
def FirstWinCause (err : LaunchCodes → LaunchOs → Option BrokerError) (codes : LaunchCodes) (os : LaunchOs) (c : ProcessConfig)
    (w : WinWorld) (line : Str) (round : Nat) (e : BrokerError) : Prop :=
  ∃ n, WinCause codes os c w line round n e ∧ (∀ m, m < n → ∀ e', ¬ WinCause codes os c w line round m e') ∧
    (8 ≤ n ∧ n ≤ 10 → LastAttempt err codes os round e)

/-- The error says which call of the system failed, and with which code. -/
def TellsCall (call : Str) (code : BitVec 32) : BrokerError → Prop
  | .internalOsOperationFailed description n => call <+: description ∧ n = code.toNat
  | _ => False

end Iris.Spec
