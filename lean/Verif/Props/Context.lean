import Verif.Model.Context
import Verif.Spec.Context
import Verif.Props.Worker
import Verif.Props.Sigsys
/-! # The registers of a program whose calls are intercepted (C71, C109) -/
namespace Iris
open Spec Iris.Asm

/-- C71. A signal that was not raised by the filter: nothing is sent to the broker, nothing is run,
no descriptor and no register changes. -/
theorem C71_registers_unchanged (abi : Abi) (audit : Bool) (replace : Bytes → Str) (mem : Memory)
    (t : FdTable) (flag : Bool) (signalNo siCode : Nat) (s : UserState) (more : Fin 5 → BitVec 64)
    (io : WorkerIo) (h : signalNo ≠ 31 ∨ siCode ≠ 1) :
    ∃ g, sigsysHandler abi audit replace mem t flag signalNo siCode (s.frame more) io =
      (none, .returns g) ∧ resumed g = s ∧ g = s.frame more := by
  refine ⟨s.frame more, ?_, ?_, rfl⟩
  · simp only [sigsysHandler, SIGSYS, SYS_SECCOMP]
    rcases h with h | h
    · exact if_pos h
    · by_cases h1 : signalNo = 31
      · rw [if_neg (by simpa using h1), if_pos h]
      · exact if_pos h1
  · obtain ⟨reg, rip, flags⟩ := s
    simp only [resumed, UserState.frame]
    congr 1
    funext r
    cases r <;> rfl

theorem contextCall_frame (s : UserState) (more : Fin 5 → BitVec 64) :
    contextCall (s.trapped.frame more) = s.call := rfl

theorem after_writeResult (s : UserState) (more : Fin 5 → BitVec 64) (v : BitVec 64) :
    AfterSyscall s (resumed (writeResult (s.trapped.frame more) v)) v where
  rip := rfl
  flags := rfl
  rax := rfl
  rcx := rfl
  r11 := rfl
  others := by
    intro r h1 h2 h3
    cases r <;> first | rfl | (exact absurd rfl h1) | (exact absurd rfl h2) | (exact absurd rfl h3)

/-- C109. A program makes a system call, the filter traps it. The handler serves exactly the call the
kernel would have run, with the address after the instruction as call site. If it has a result, the
program goes on after the instruction with that result in `rax`, its flags and all other registers as
after any system call; nothing else in the signal frame is changed. If it has none (the worker panics
or faults), the program does not go on. -/
theorem C109_call_returns_like_a_call (abi : Abi) (audit : Bool) (replace : Bytes → Str)
    (mem : Memory) (t : FdTable) (s : UserState) (more : Fin 5 → BitVec 64) (io : WorkerIo) :
    ∃ h e, sigsysHandler abi audit replace mem t false 31 1 (s.trapped.frame more) io = (some h, e) ∧
      h = handleTrap abi audit replace mem t s.call io ∧
      (∀ v, h.ret = .code v → ∃ g, e = .returns g ∧ AfterSyscall s (resumed g) v ∧
        ∀ i, i ≠ 13 → g i = s.trapped.frame more i) ∧
      ((∀ v, h.ret ≠ .code v) → ∀ g, e ≠ .returns g) := by
  refine ⟨_, _, rfl, by rw [contextCall_frame], ?_, ?_⟩
  · rw [contextCall_frame]
    intro v hv
    simp only [hv]
    refine ⟨_, rfl, after_writeResult s more v, ?_⟩
    intro i hi
    exact if_neg hi
  · rw [contextCall_frame]
    intro hn g
    cases hr : (handleTrap abi audit replace mem t s.call io).ret with
    | code v => exact absurd hr (hn v)
    | panic => simp
    | fault => simp

theorem withBroker_received [Target] (abi : Abi) (p : Policy) (b : Broker) (os : OsChoice)
    (handler : Incoming → Handled) :
    (withBroker abi p b os handler).1 = handler (received abi p b os handler) := by
  simp only [withBroker, received]
  cases (handler .eof).sent with
  | none => rfl
  | some req =>
    simp only [Option.bind_some]
    cases sendRequest req <;> rfl

/-- What the worker receives while the broker serves the call of a program. -/
def Spec.UserState.reply [Target] (s : UserState) (abi : Abi) (p : Policy) (b : Broker) (os : OsChoice)
    (audit : Bool) (replace : Bytes → Str) (mem : Memory) (t : FdTable) (io : WorkerIo) : Incoming :=
  received abi p b os fun inc =>
    match (sigsysHandler abi audit replace mem t false 31 1 (s.trapped.frame fun _ => 0#64)
      { io with incoming := inc }).1 with
    | some h => h
    | none => ⟨t, none, .panic, none⟩

/-- C109, all the way for a program that opens a file: it executes `syscall` with the number of open in
`rax`, the address of the path in `rdi` and the flags in `rsi`. It goes on after the instruction with
nothing changed but `rax` (and `rcx`, `r11`, as after any system call), where it finds: -EACCES if its
policy does not allow it; the error of the system; or a descriptor that was free and now is the file
it asked for. -/
theorem C109_open [Target] (abi : Abi) (h : List Call) (b : Broker) (os : OsChoice)
    (audit : Bool) (replace : Bytes → Str) (mem : Memory) (t : FdTable) (s : UserState)
    (more : Fin 5 → BitVec 64) (io : WorkerIo) (cwd path : Str) (hs : Serving b os t io cwd)
    (hnr : s.reg .rax = 2) (hpath : mem (s.reg .rdi) = some (utf8 path)) (hnul : '\x00' ∉ path)
    (hlen : messageSize (utf8 (absolute cwd path)).length ((s.reg .rsi).setWidth 32) ≤ 65536) :
    let flags := (s.reg .rsi).setWidth 32
    let inc := s.reply abi (Policy.nothingAllowed.calls h) b os audit replace mem t io
    ∃ hd g v, sigsysHandler abi audit replace mem t false 31 1 (s.trapped.frame more)
        { io with incoming := inc } = (some hd, .returns g) ∧
      AfterSyscall s (resumed g) v ∧
      (¬ OpenAllowed h (absolute cwd path) flags → v = -13#64 ∧ hd.table = t) ∧
      (OpenAllowed h (absolute cwd path) flags →
        (∀ e, os.openResult = .error e → v = -(BitVec.ofNat 64 e) ∧ hd.table = t) ∧
        (∀ file, os.openResult = .ok file → ∃ fd, fd < 2 ^ 31 ∧ v = BitVec.ofNat 64 fd ∧
          t.get fd = none ∧ hd.table.get fd = some ⟨file, 1#32⟩ ∧
          ∀ i, t.get i ≠ none → hd.table.get i = t.get i)) := by
  intro flags inc
  have hc : PathCall mem s.call (.open flags) path := .open path hnr hpath hnul
  have hserv := C67_open_end_to_end abi h b os audit replace mem t s.call io cwd flags path hs hc hlen
  have hinc : (Spec.served abi (Policy.nothingAllowed.calls h) b os audit replace mem t s.call io).1 =
      handleTrap abi audit replace mem t s.call { io with incoming := inc } := by
    rw [Spec.served, withBroker_received]
    rfl
  obtain ⟨hd, e, hrun, hhd, hret, _⟩ := C109_call_returns_like_a_call abi audit replace mem t s more
    { io with incoming := inc }
  simp only at hserv
  rw [hinc, ← hhd] at hserv
  obtain ⟨_, _, hno, hyes⟩ := hserv
  have hcode : ∃ v, hd.ret = .code v := by
    by_cases hal : OpenAllowed h (absolute cwd path) flags
    · cases ho : os.openResult with
      | error e => exact ⟨_, ((hyes hal).2.1 e ho).1⟩
      | ok file =>
        obtain ⟨fd, _, hfd, _⟩ := (hyes hal).2.2 file ho
        exact ⟨_, hfd⟩
    · exact ⟨_, (hno hal).1⟩
  obtain ⟨v, hv⟩ := hcode
  obtain ⟨g, rfl, hafter, _⟩ := hret v hv
  refine ⟨hd, g, v, hrun, hafter, ?_, ?_⟩
  · intro hal
    have := hno hal
    rw [hv] at this
    exact ⟨by simpa using this.1, this.2.1⟩
  · intro hal
    obtain ⟨_, he, hf⟩ := hyes hal
    refine ⟨?_, ?_⟩
    · intro e ho
      have := he e ho
      rw [hv] at this
      exact ⟨by simpa using this.1, this.2⟩
    · intro file ho
      obtain ⟨fd, h1, h2, h3⟩ := hf file ho
      rw [hv] at h2
      exact ⟨fd, h1, by simpa using h2, h3⟩

/-- A program that is at open("notes.txt", O_RDONLY), with other values in the other registers. -/
def demoProgram : UserState where
  reg
    | .rax => 2 | .rdi => 4096 | .rsi => 0 | .rbx => 77 | .rsp => 0x7ff0 | .rcx => 5 | _ => 9
  rip := 0x400ffe
  flags := 0x246

/-- rax, rip, rbx and rsp of the program after the handler. -/
def demoSeen : HandlerEnd → Option (List (BitVec 64))
  | .returns g => some [(resumed g).reg .rax, (resumed g).rip, (resumed g).reg .rbx, (resumed g).reg .rsp]
  | _ => none

def demoInc : Incoming :=
  @UserState.reply x86_64 demoProgram .lp64 (Policy.nothingAllowed.calls demoRules)
    demoBroker demoOs false (fun _ => []) demoMemory demoTable demoIo

/-- It gets descriptor 2, at 0x401000, with `rbx` and `rsp` as before. -/
example : demoSeen (sigsysHandler .lp64 false (fun _ => []) demoMemory demoTable false 31 1
    (demoProgram.trapped.frame fun _ => 0) { demoIo with incoming := demoInc }).2 =
    some [2, 0x401000, 77, 0x7ff0] := by
  decide +kernel

example : demoMemory (demoProgram.reg .rdi) = some (utf8 c!"notes.txt") := by decide +kernel

end Iris
