import Verif.Model.WinCalls
/-!
# The functions of Windows as its headers declare them, and what a call must leave as it was
-/
namespace Iris.Spec

/-- All are `NTAPI`, `WINAPI` or `STDAPI`, so `extern "system"` (winternl.h, wdm.h, userenv.h). -/
def winFunction : List Char → Option FnType
  | ['N', 't', 'C', 'r', 'e', 'a', 't', 'e', 'F', 'i', 'l', 'e'] =>
    some ⟨.system, [/- FileHandle -/ .pointer, /- DesiredAccess -/ .dword, /- ObjectAttributes -/ .pointer,
      /- IoStatusBlock -/ .pointer, /- AllocationSize -/ .pointer, /- FileAttributes -/ .dword, /- ShareAccess -/ .dword,
      /- CreateDisposition -/ .dword, /- CreateOptions -/ .dword, /- EaBuffer -/ .pointer, /- EaLength -/ .dword]⟩
  | ['N', 't', 'O', 'p', 'e', 'n', 'F', 'i', 'l', 'e'] =>
    some ⟨.system, [/- FileHandle -/ .pointer, /- DesiredAccess -/ .dword, /- ObjectAttributes -/ .pointer,
      /- IoStatusBlock -/ .pointer, /- ShareAccess -/ .dword, /- OpenOptions -/ .dword]⟩
  | ['N', 't', 'C', 'r', 'e', 'a', 't', 'e', 'K', 'e', 'y'] =>
    some ⟨.system, [/- KeyHandle -/ .pointer, /- DesiredAccess -/ .dword, /- ObjectAttributes -/ .pointer,
      /- TitleIndex -/ .dword, /- Class -/ .pointer, /- CreateOptions -/ .dword, /- Disposition -/ .pointer]⟩
  | ['N', 't', 'O', 'p', 'e', 'n', 'K', 'e', 'y'] =>
    some ⟨.system, [/- KeyHandle -/ .pointer, /- DesiredAccess -/ .dword, /- ObjectAttributes -/ .pointer]⟩
  | ['N', 't', 'Q', 'u', 'e', 'r', 'y', 'I', 'n', 'f', 'o', 'r', 'm', 'a', 't', 'i', 'o', 'n', 'P', 'r', 'o', 'c', 'e', 's', 's'] =>
    some ⟨.system, [/- ProcessHandle -/ .pointer, /- ProcessInformationClass -/ .dword, /- ProcessInformation -/ .pointer,
      /- ProcessInformationLength -/ .dword, /- ReturnLength -/ .pointer]⟩
  | ['C', 'r', 'e', 'a', 't', 'e', 'A', 'p', 'p', 'C', 'o', 'n', 't', 'a', 'i', 'n', 'e', 'r', 'P', 'r', 'o', 'f', 'i', 'l', 'e'] =>
    some ⟨.system, [/- pszAppContainerName -/ .pointer, /- pszDisplayName -/ .pointer, /- pszDescription -/ .pointer,
      /- pCapabilities -/ .pointer, /- dwCapabilityCount -/ .dword, /- ppSidAppContainerSid -/ .pointer]⟩
  | ['D', 'e', 'l', 'e', 't', 'e', 'A', 'p', 'p', 'C', 'o', 'n', 't', 'a', 'i', 'n', 'e', 'r', 'P', 'r', 'o', 'f', 'i', 'l', 'e'] =>
    some ⟨.system, [/- pszAppContainerName -/ .pointer]⟩
  | _ => none

/-- A value of the type, on the machine. -/
def Fits (arch : WinArch) (t : ParamType) (v : BitVec 64) : Prop :=
  match arch, t with
  | .x64, .pointer => True
  | _, _ => v.toNat < 4294967296

/-- One value for each parameter. -/
def AllFit (arch : WinArch) : List ParamType → List (BitVec 64) → Prop
  | [], [] => True
  | t :: ts, v :: vs => Fits arch t v ∧ AllFit arch ts vs
  | _, _ => False

/-- The function got these arguments and can return, and its caller finds the stack as it left it: the stack pointer, and all
that is stored from there on (addresses below are free). -/
def CallOk (args : List (BitVec 64)) (ret : BitVec 64) (s : CallState) (x : List (BitVec 64) × BitVec 64 × CallState) : Prop :=
  x.1 = args ∧ x.2.1 = ret ∧ x.2.2.sp = s.sp ∧ ∀ a, s.sp ≤ a → x.2.2.mem a = s.mem a

/-- The function named is there. -/
def Exported (exports : List (List Char × BitVec 64)) (func : List Char) (a : BitVec 64) : Prop :=
  exports.lookup func = some a ∧ a ≠ 0

end Iris.Spec
