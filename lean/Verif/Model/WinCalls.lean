import Verif.Model.WinProcess
/-!
# How functions are found and called on Windows

Models broker/src/windows/get_proc_address.rs, the function types of broker/src/windows/brokered_syscalls.rs and
broker/src/windows/process.rs, and those of the hooks of worker/src/windows/lockdown.rs, down to where arguments are in registers
and on the stack.

Simplifications: addresses of the stack are integers, which do not wrap around, and it always has room. A function reads its
parameters, changes nothing that is not its own, and returns.
-/
namespace Iris

/-- The types of parameters that occur: 32-bit integers (`ULONG`, `ACCESS_MASK`, `DWORD`, enumerations) and pointers, handles
included. -/
inductive ParamType
  | dword
  | pointer
deriving DecidableEq, Repr

/-- The ABI in a declaration of Rust. -/
inductive RustAbi
  | C
  | system
deriving DecidableEq, Repr

/-- A function type of Rust. -/
structure FnType where
  abi : RustAbi
  params : List ParamType
deriving DecidableEq, Repr

/-- broker/src/windows/brokered_syscalls.rs:27-39. -/
def pNtCreateFile : FnType :=
  ⟨.system, [.pointer, .dword, .pointer, .pointer, .pointer, .dword, .dword, .dword, .dword, .pointer, .dword]⟩
/-- broker/src/windows/brokered_syscalls.rs:41-49. -/
def pNtCreateKey : FnType := ⟨.system, [.pointer, .dword, .pointer, .dword, .pointer, .dword, .pointer]⟩
/-- broker/src/windows/brokered_syscalls.rs:51-55. -/
def pNtOpenKey : FnType := ⟨.system, [.pointer, .dword, .pointer]⟩
/-- broker/src/windows/process.rs:109-116. -/
def createAppContainerProfileFn : FnType := ⟨.C, [.pointer, .pointer, .pointer, .pointer, .dword, .pointer]⟩
/-- broker/src/windows/process.rs:117. -/
def deleteAppContainerProfileFn : FnType := ⟨.C, [.pointer]⟩
/-- worker/src/windows/lockdown.rs:93-102. -/
def ntQueryInformationProcess : FnType := ⟨.system, [.pointer, .dword, .pointer, .dword, .pointer]⟩
/-- worker/src/windows/lockdown.rs:512-524. -/
def hookNtCreateFileFn : FnType :=
  ⟨.system, [.pointer, .dword, .pointer, .pointer, .pointer, .dword, .dword, .dword, .dword, .pointer, .dword]⟩
/-- worker/src/windows/lockdown.rs:594-601. -/
def hookNtOpenFileFn : FnType := ⟨.system, [.pointer, .dword, .pointer, .pointer, .dword, .dword]⟩
/-- worker/src/windows/lockdown.rs:655-663. -/
def hookNtCreateKeyFn : FnType := ⟨.system, [.pointer, .dword, .pointer, .dword, .pointer, .dword, .pointer]⟩

/-- worker/src/windows/lockdown.rs:763-769: the function each hook takes the place of. -/
def hookFunctions : List (List Char × FnType) :=
  [(c!"NtCreateFile", hookNtCreateFileFn), (c!"NtOpenFile", hookNtOpenFileFn), (c!"NtCreateKey", hookNtCreateKeyFn)]

/-- The types under which functions of Windows are called: brokered_syscalls.rs:81-84, 172-179, process.rs:125-150 and
lockdown.rs:94. -/
def calledFunctions : List (List Char × FnType) :=
  [(c!"NtCreateFile", pNtCreateFile), (c!"NtCreateKey", pNtCreateKey), (c!"NtOpenKey", pNtOpenKey),
   (c!"NtQueryInformationProcess", ntQueryInformationProcess),
   (c!"CreateAppContainerProfile", createAppContainerProfileFn),
   (c!"DeleteAppContainerProfile", deleteAppContainerProfileFn)]

/-- The two machines the project is compiled for. -/
inductive WinArch
  | x86
  | x64
deriving DecidableEq, Repr

/-- What a calling convention fixes: whether arguments are all pushed, and who removes them. -/
inductive Convention
  /-- arguments are pushed, the caller removes them -/
  | cdecl
  /-- arguments are pushed, the function removes them -/
  | stdcall
  /-- the first four are in registers, with room reserved for them on the stack; the caller removes all that -/
  | win64
deriving DecidableEq, Repr

/-- `extern "C"` and `extern "system"` (the Rust reference, "ABI"). -/
def RustAbi.convention : WinArch → RustAbi → Convention
  | .x86, .C => .cdecl
  | .x86, .system => .stdcall
  | .x64, _ => .win64

/-- The stack pointer, the stack, and the registers rcx, rdx, r8 and r9. -/
structure CallState where
  sp : Int
  mem : Int → BitVec 64
  regs : Nat → BitVec 64

def CallState.store (s : CallState) (a : Int) (v : BitVec 64) : CallState :=
  { s with mem := fun b => if b = a then v else s.mem b }

/-- What is put in a register or on the stack for an argument. The upper half of a 64-bit slot which holds a 32-bit integer can
be anything; a slot of a 32-bit machine has no upper half. -/
def slot (arch : WinArch) (junk : BitVec 32) (t : ParamType) (v : BitVec 64) : BitVec 64 :=
  match arch, t with
  | .x86, _ => (v.truncate 32).zeroExtend 64
  | .x64, .dword => junk ++ v.truncate 32
  | .x64, .pointer => v

/-- How a function reads a parameter from there. -/
def unslot (t : ParamType) (v : BitVec 64) : BitVec 64 :=
  match t with
  | .dword => (v.truncate 32).zeroExtend 64
  | .pointer => v

/-- `push`es of a 32-bit machine, last argument first. -/
def pushAll : List (BitVec 64) → CallState → CallState
  | [], s => s
  | v :: l, s =>
    let s := pushAll l s
    { s.store (s.sp - 4) v with sp := s.sp - 4 }

/-- On a 64-bit machine the place of each argument after the fourth is next to that of the one before. -/
def storeAll (base : Int) : Nat → List (BitVec 64) → CallState → CallState
  | _, [], s => s
  | i, v :: l, s =>
    if i < 4 then storeAll base (i + 1) l { s with regs := fun k => if k = i then v else s.regs k }
    else storeAll base (i + 1) l (s.store (base + 8 * i) v)

/-- The caller's part before the function starts: arguments, and the return address. -/
def enterCall (c : Convention) (args : List (BitVec 64)) (ret : BitVec 64) (s : CallState) : CallState :=
  match c with
  | .cdecl | .stdcall =>
    let s := pushAll args s
    { s.store (s.sp - 4) ret with sp := s.sp - 4 }
  | .win64 =>
    let base := s.sp - 8 * (max 4 args.length : Nat)
    let s := storeAll base 0 args { s with sp := base }
    { s.store (s.sp - 8) ret with sp := s.sp - 8 }

/-- Where a function that has just started finds its parameter number `i`. -/
def param (c : Convention) (s : CallState) (i : Nat) : BitVec 64 :=
  match c with
  | .cdecl | .stdcall => s.mem (s.sp + 4 + 4 * i)
  | .win64 => if i < 4 then s.regs i else s.mem (s.sp + 8 + 8 * i)

/-- `ret`, or `ret n` for a function that removes its parameters. -/
def leaveCall (c : Convention) (params : Nat) (s : CallState) : CallState :=
  match c with
  | .cdecl => { s with sp := s.sp + 4 }
  | .stdcall => { s with sp := s.sp + 4 + 4 * params }
  | .win64 => { s with sp := s.sp + 8 }

/-- The caller's part after the function has returned. -/
def afterCall (c : Convention) (args : Nat) (s : CallState) : CallState :=
  match c with
  | .cdecl => { s with sp := s.sp + 4 * args }
  | .stdcall => s
  | .win64 => { s with sp := s.sp + 8 * (max 4 args : Nat) }

/-- A call compiled from a value of type `caller`, of a function compiled from type `callee`: the parameters the
function sees, where its return address is, and the state after the call. -/
def callFn (arch : WinArch) (caller callee : FnType) (junk : BitVec 32) (args : List (BitVec 64)) (ret : BitVec 64)
    (s : CallState) : List (BitVec 64) × BitVec 64 × CallState :=
  let c := caller.abi.convention arch
  let d := callee.abi.convention arch
  let s1 := enterCall c ((caller.params.zip args).map fun x => slot arch junk x.1 x.2) ret s
  (callee.params.mapIdx fun i t => unslot t (param d s1 i), s1.mem s1.sp,
   afterCall c caller.params.length (leaveCall d callee.params.length s1))

/-! ### Finding functions -/

/-- The libraries of the process with their functions; the system's search for a library to be loaded. -/
structure WinLibraries where
  loaded : List (List Char × List (List Char × BitVec 64))
  onDisk : List (List Char × List (List Char × BitVec 64))

/-- broker/src/windows/get_proc_address.rs:6-20. `CString::new` fails if there is a NUL character. -/
def getProcAddress (w : WinLibraries) (dll func : List Char) : BitVec 64 :=
  if '\x00' ∈ dll then 0
  else if '\x00' ∈ func then 0
  else
    match w.loaded.lookup dll with
    | none => 0
    | some exports => (exports.lookup func).getD 0

/-- broker/src/windows/brokered_syscalls.rs:81-84, 172-179: the address, or a panic. -/
def ntFunction (w : WinLibraries) (func : List Char) : Option (BitVec 64) :=
  match getProcAddress w c!"ntdll.dll" func with
  | 0 => none
  | a => some a

/-- `LoadLibraryA`: the library that is loaded, or else the one found on disk. -/
def loadLibrary (w : WinLibraries) (dll : List Char) : Option (List (List Char × BitVec 64)) :=
  match w.loaded.lookup dll with
  | some e => some e
  | none => w.onDisk.lookup dll

/-- broker/src/windows/process.rs:124-154 `APPCONTAINER_PROFILE_FN`. -/
def appContainerProfileFn (w : WinLibraries) : Option (BitVec 64 × BitVec 64) :=
  match loadLibrary w c!"userenv.dll" with
  | none => none
  | some exports =>
    let create := (exports.lookup c!"CreateAppContainerProfile").getD 0
    let delete := (exports.lookup c!"DeleteAppContainerProfile").getD 0
    if create = 0 ∨ delete = 0 then none else some (create, delete)

/-- The calls made for one AppContainer profile, broker/src/windows/process.rs:307-337, and their effect on the stack pointer:
once, or again after the removal of a leftover. -/
def profileCalls (arch : WinArch) (real : List Char → FnType) (leftover : Bool) (junk : BitVec 32)
    (args : List (BitVec 64)) (name ret : BitVec 64) (s : CallState) : CallState :=
  let create := fun s => (callFn arch createAppContainerProfileFn (real c!"CreateAppContainerProfile") junk args ret s).2.2
  let delete := fun s => (callFn arch deleteAppContainerProfileFn (real c!"DeleteAppContainerProfile") junk [name] ret s).2.2
  let s := create s
  if leftover then create (delete s) else s

end Iris
