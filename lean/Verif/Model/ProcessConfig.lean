import Verif.Model.Broker
/-!
# Process configuration

Models broker/src/process_config.rs, worker/src/lib.rs and the number parsing and
environment lookups of the Rust standard library they use.
-/
namespace Iris

/-- broker/src/process_config.rs:5-14 `ProcessConfig`. A `CString` is its bytes, without
the final NUL. A handle is the number of its descriptor. -/
structure ProcessConfig where
  exe : Bytes
  argv : List Bytes
  envp : List Bytes
  cwd : Option Bytes
  stdin : Option Nat
  stdout : Option Nat
  stderr : Option Nat
deriving DecidableEq, Repr

/-- The byte `=`. -/
def eqSign : UInt8 := 61

/-- broker/src/process_config.rs:16-23 `name_from_env`. -/
def nameFromEnv : Bytes → Bytes
  | [] => []
  | b :: bs => if b = eqSign then [] else b :: nameFromEnv bs

/-- broker/src/process_config.rs:26-36 `ProcessConfig::new`. -/
def ProcessConfig.new (exe : Bytes) (argv : List Bytes) : ProcessConfig :=
  ⟨exe, argv, [], none, none, none, none⟩

/-- broker/src/process_config.rs:46-59 `set_environment_variable`. The name in the error
is kept as bytes: `to_string_lossy` is not modelled. -/
def ProcessConfig.setEnv (c : ProcessConfig) (v : Bytes) : Except BrokerError Unit × ProcessConfig :=
  if c.envp.any (fun prev => nameFromEnv prev == nameFromEnv v) then
    (.error (.conflictingEnvironmentVariable (nameFromEnv v)), c)
  else (.ok (), { c with envp := c.envp ++ [v] })

/-- The public functions changing a configuration. -/
inductive ConfigCall
  | cwd (d : Option Bytes)
  | env (v : Bytes)
  | stdin (h : Option Nat)
  | stdout (h : Option Nat)
  | stderr (h : Option Nat)
deriving DecidableEq, Repr

/-- broker/src/process_config.rs:38-83. -/
def ProcessConfig.call (c : ProcessConfig) : ConfigCall → Except BrokerError Unit × ProcessConfig
  | .cwd d => (.ok (), { c with cwd := d })
  | .env v => c.setEnv v
  | .stdin h => (.ok (), { c with stdin := h })
  | .stdout h => (.ok (), { c with stdout := h })
  | .stderr h => (.ok (), { c with stderr := h })

/-- Any sequence of calls. -/
def ProcessConfig.calls (c : ProcessConfig) (l : List ConfigCall) : ProcessConfig :=
  l.foldl (fun c x => (c.call x).2) c

/-- The digits of an unsigned number, `core::num` `from_str_radix(10)`: no digit or
another character is an error. -/
def parseDigits (s : Str) : Option Nat :=
  if s = [] then none
  else if s.all Char.isDigit then some (Nat.ofDigitChars 10 s 0) else none

/-- An optional `+`. -/
def dropPlus : Str → Str
  | '+' :: r => r
  | r => r

/-- `str::parse::<u64>`: an optional `+`, digits, no overflow. -/
def parseU64 (s : Str) : Option (BitVec 64) :=
  (parseDigits (dropPlus s)).bind fun n => if n < 2 ^ 64 then some (BitVec.ofNat 64 n) else none

/-- `str::parse::<i32>`: an optional sign, digits, no overflow. -/
def parseI32 (s : Str) : Option Int :=
  match s with
  | '-' :: r => (parseDigits r).bind fun n => if n ≤ 2 ^ 31 then some (-(n : Int)) else none
  | '+' :: r => (parseDigits r).bind fun n => if n < 2 ^ 31 then some (n : Int) else none
  | r => (parseDigits r).bind fun n => if n < 2 ^ 31 then some (n : Int) else none

/-- ipc/src/lib.rs:23 `IPC_HANDLE_ENV_NAME`. -/
def IPC_HANDLE_ENV_NAME : Str := c!"SANDBOX_IPC_HANDLE"

/-- broker/src/worker.rs:46-51: `format!("{}={}", IPC_HANDLE_ENV_NAME, raw)`. -/
def ipcHandleVar (fd : Nat) : Bytes := utf8 (IPC_HANDLE_ENV_NAME ++ '=' :: dec fd)

/-- The value in `v` if it is a variable called `name`. -/
def valueOf : Bytes → Bytes → Option Bytes
  | [], b :: r => if b = eqSign then some r else none
  | n :: ns, b :: r => if n = b then valueOf ns r else none
  | _, [] => none

/-- `getenv`: the value of the first `name=value` entry. -/
def getenv (name : Bytes) : List Bytes → Option Bytes
  | [] => none
  | v :: vs =>
    match valueOf name v with
    | some x => some x
    | none => getenv name vs

/-- worker/src/lib.rs:13-23: what the worker makes of its environment. `none` is one of
the three `expect` panics. Removing the variable (line 15) is not modelled. -/
def readIpcHandle (envp : List Bytes) : Option Handle :=
  (getenv (utf8 IPC_HANDLE_ENV_NAME) envp).bind fun v =>
  (fromUtf8 v).bind fun s =>
  (parseU64 s).bind fun n => (Handle.fromRaw n).toOption

end Iris
