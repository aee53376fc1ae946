import Verif.Lemmas.Asm
import Verif.Props.Lockdown
/-!
# C50, C78: the stub that re-issues system calls
-/
namespace Iris
open Asm Spec

/-- C50, x86_64. Called as a C function with a number and six arguments, the stub makes exactly
one system call, with that number and those arguments, from the advertised address; it returns
the kernel's result to its caller, with the stack pointer and the registers C functions must
preserve as they were; and except for the 88 bytes below the stack pointer the kernel sees the
memory of the caller, and the caller the memory the kernel left. The kernel must not overwrite
the return address. -/
theorem C50_rerun_x86_64 (k : Kernel 64) (s : St Reg64 64) (nb : BitVec 64) (a : Fin 6 → BitVec 64)
    (hc : CCall64 s nb a) (hk : Leaves k (s.regs .rsp) 8) :
    ∃ s' m call, call = ⟨nb, a, s.ip + BitVec.ofNat 64 asmOffset64⟩ ∧
      run cpu64 k rerun64 s = some (s', [call]) ∧
      s'.regs .rax = (k call m).result ∧ CReturn .rsp preserved64 s s' ∧
      (∀ x, ¬ InRange (s.regs .rsp - 88#64) 88 x → m x = s.mem x) ∧
      (∀ x, ¬ InRange (s.regs .rsp - 88#64) 88 x → s'.mem x = (k call m).mem x) := by
  obtain ⟨r, hr⟩ : ∃ r, s.regs .rsp = r + 88#64 := ⟨s.regs .rsp - 88#64, by grind⟩
  obtain ⟨⟨s', calls⟩, h1, h2, h3, h4, h5, h6, h7⟩ := run64_aux k s nb a hc r hr
  simp only at h2 h3 h4 h5 h6 h7
  have hb : s.regs .rsp - 88#64 = r := by rw [hr, BitVec.add_sub_cancel]
  refine ⟨s', _, _, rfl, by rw [h1, h2], h3, ⟨?_, by rw [h6, hr], h7⟩, ?_, ?_⟩
  · rw [h5, hr]
    apply read_congr (by decide)
    intro x hx
    have hout : ¬ InRange r 88 x := by
      rw [InRange] at hx ⊢
      have e : x - r = (x - (r + 88#64)) + 88#64 := by
        clear hx
        grind
      rw [e, BitVec.toNat_add]
      have : (88#64).toNat = 88 := rfl
      omega
    rw [hk _ _ x (by rw [hr]; exact hx), callMem64_outside _ _ _ _ _ hout]
  · rw [hb]
    exact fun x hx => callMem64_outside _ _ _ _ _ hx
  · rw [hb]
    intro x hx
    rw [h4]
    exact write_other _ _ _ _ fun h => hx (inRange_of_add _ _ _ _ _ h (by decide) (by decide))

/-- C50, 32-bit x86. The kernel must not overwrite the return address and the four registers
saved below it. -/
theorem C50_rerun_i686 (k : Kernel 32) (s : St Reg32 32) (nb : BitVec 32) (a : Fin 6 → BitVec 32)
    (hc : CCall32 s nb a) (hk : Leaves k (s.regs .esp - 16#32) 20) :
    ∃ s' m call, call = ⟨nb, a, s.ip + BitVec.ofNat 32 asmOffset32⟩ ∧
      run cpu32 k rerun32 s = some (s', [call]) ∧
      s'.regs .eax = (k call m).result ∧ CReturn .esp preserved32 s s' ∧
      (∀ x, ¬ InRange (s.regs .esp - 16#32) 16 x → m x = s.mem x) ∧
      s'.mem = (k call m).mem := by
  obtain ⟨r, hr⟩ : ∃ r, s.regs .esp = r + 16#32 := ⟨s.regs .esp - 16#32, by grind⟩
  obtain ⟨⟨s', calls⟩, h1, h2, h3, h4, h5, h6, h7, h8, h9, h10⟩ :=
    run32_aux k s nb a hc r hr _ rfl
  simp only at h2 h3 h4 h5 h6 h7 h8 h9 h10
  have hb : s.regs .esp - 16#32 = r := by rw [hr, BitVec.add_sub_cancel]
  rw [hb] at hk
  have hin : ∀ (i : BitVec 32), i.toNat ≤ 16 →
      read s'.mem (r + i) = read (callMem32 s.mem r (s.regs .ebp) (s.regs .ebx) (s.regs .esi)
        (s.regs .edi)) (r + i) := by
    intro i hi
    apply read_congr (by decide)
    intro x hx
    rw [h4]
    exact hk _ _ x (inRange_of_add _ _ _ _ _ hx (by omega) (by decide))
  refine ⟨s', _, _, rfl, by rw [h1, h2], h3, ⟨?_, by rw [h6, hr], ?_⟩, ?_, h4⟩
  · rw [h5, hr, hin _ (by decide), callMem32]
    rw [rw32_other, rw32_other, rw32_other, rw32_other] <;> decide
  · intro q hq
    simp only [preserved32, List.mem_cons, List.not_mem_nil, or_false] at hq
    rcases hq with rfl | rfl | rfl | rfl
    · rw [h8, hin _ (by decide), callMem32, rw32_other _ _ _ _ _ (by decide),
        rw32_other _ _ _ _ _ (by decide), rw32_same]
    · rw [h7, hin _ (by decide), callMem32, rw32_other _ _ _ _ _ (by decide),
        rw32_other _ _ _ _ _ (by decide), rw32_other _ _ _ _ _ (by decide), rw32_same]
    · rw [h9, hin _ (by decide), callMem32, rw32_other _ _ _ _ _ (by decide), rw32_same]
    · rw [h10, hin _ (by decide), callMem32, rw32_same]
  · rw [hb]
    exact fun x hx => callMem32_outside _ _ _ _ _ _ _ hx

/-- C50, with the handler: it reads the number and the arguments from the registers saved when
the call trapped and passes them to the stub; the call the kernel then gets has the number and
the arguments it would have got. -/
theorem C50_same_call_x86_64 (k : Kernel 64) (regs : Reg64 → BitVec 64) (s : St Reg64 64)
    (hc : CCall64 s (regs contextNr64) fun i => regs (contextArg64 i))
    (hk : Leaves k (s.regs .rsp) 8) :
    ∃ s' call, run cpu64 k rerun64 s = some (s', [call]) ∧ call.nr = kernelNr64 regs ∧
      call.args = kernelArgs64 regs := by
  obtain ⟨s', m, call, rfl, h, _⟩ := C50_rerun_x86_64 k s _ _ hc hk
  refine ⟨s', _, h, rfl, ?_⟩
  funext i
  match i with
  | 0 => rfl | 1 => rfl | 2 => rfl | 3 => rfl | 4 => rfl | 5 => rfl

theorem C50_same_call_i686 (k : Kernel 32) (regs : Reg32 → BitVec 32) (s : St Reg32 32)
    (hc : CCall32 s (regs contextNr32) fun i => regs (contextArg32 i))
    (hk : Leaves k (s.regs .esp - 16#32) 20) :
    ∃ s' call, run cpu32 k rerun32 s = some (s', [call]) ∧ call.nr = kernelNr32 regs ∧
      call.args = kernelArgs32 regs := by
  obtain ⟨s', m, call, rfl, h, _⟩ := C50_rerun_i686 k s _ _ hc hk
  refine ⟨s', _, h, rfl, ?_⟩
  funext i
  match i with
  | 0 => rfl | 1 => rfl | 2 => rfl | 3 => rfl | 4 => rfl | 5 => rfl

/-- C78, what holds. A worker past its lockdown in audit mode, with the filter and the policy of
the broker: the call the stub makes is allowed by the filter, whatever its number and
arguments, so that re-issuing a call never traps again. Missing, as for C49 and C77: stubs
loaded at an address whose low half is 0xCAFECAFE, and filters containing half of the placeholder.
(For 32-bit x86 see the next theorem.) `d` is what the filter sees of a call: the stub's is one which comes from the
address given by C50. -/
theorem C78_rerun_not_trapped_partial [Target] (numbers : Seccomp.Arch → String → Option (BitVec 32))
    (lib : Seccomp.Lib) (hlib : Faithful numbers lib) (abi : Abi) (t : FdTable) (os : Seccomp.LockOs)
    (L : Seccomp.Locked) (pid : BitVec 64) (p : Policy) (bytes data : Bytes)
    (hf : DistinctKeys p.files) (hd : DistinctKeys p.dirs) (hk : DistinctKeys p.regkeys)
    (hc : Seccomp.computeSeccompFilter lib pid p.auditOnly = .ok bytes)
    (hs : sendResponse (.initialization p.runtime bytes) = some data)
    (hi : os.incoming = .datagram ⟨data, []⟩) (hL : Seccomp.lowerFinal abi t os = some L)
    (ha : p.auditOnly = true) (hsite : Bpf.lo os.callSite ≠ 0xCAFECAFE#32)
    (hno : NoPlaceholder (bytes.drop 40))
    (k : Kernel 64) (s : St Reg64 64) (nb : BitVec 64) (a : Fin 6 → BitVec 64)
    (hcall : CCall64 s nb a) (hret : Leaves k (s.regs .rsp) 8)
    (hentry : os.callSite = s.ip + BitVec.ofNat 64 asmOffset64) :
    ∃ s' call prog scope, run cpu64 k rerun64 s = some (s', [call]) ∧ call.nr = nb ∧ call.args = a ∧
      L.filter = some (prog, scope) ∧
      ∀ d arch name args, IsCall numbers d arch name args → d.ip = call.ip →
        Bpf.run prog d = some 0x7fff0000#32 := by
  obtain ⟨s', m, call, rfl, h, _⟩ := C50_rerun_x86_64 k s nb a hcall hret
  obtain ⟨rules, prog, scope, _, hfil, _, _, hrun⟩ := C77_enforced_partial numbers lib hlib abi t os L
    pid p bytes data hf hd hk hc hs hi hL (fun _ => ⟨hsite, hno⟩)
  refine ⟨s', _, prog, scope, h, rfl, rfl, hfil, ?_⟩
  intro d arch name args hcl hip
  rw [hrun d arch name args hcl, if_pos ⟨ha, hip.trans hentry.symm⟩]

/-- C78, what holds on 32-bit x86. The same, with the stub for this architecture; the filter sees
addresses as 64-bit numbers. -/
theorem C78_rerun_not_trapped_i686_partial [Target]
    (numbers : Seccomp.Arch → String → Option (BitVec 32))
    (lib : Seccomp.Lib) (hlib : Faithful numbers lib) (abi : Abi) (t : FdTable) (os : Seccomp.LockOs)
    (L : Seccomp.Locked) (pid : BitVec 64) (p : Policy) (bytes data : Bytes)
    (hf : DistinctKeys p.files) (hd : DistinctKeys p.dirs) (hk : DistinctKeys p.regkeys)
    (hc : Seccomp.computeSeccompFilter lib pid p.auditOnly = .ok bytes)
    (hs : sendResponse (.initialization p.runtime bytes) = some data)
    (hi : os.incoming = .datagram ⟨data, []⟩) (hL : Seccomp.lowerFinal abi t os = some L)
    (ha : p.auditOnly = true) (hno : NoPlaceholder (bytes.drop 40))
    (k : Kernel 32) (s : St Reg32 32) (nb : BitVec 32) (a : Fin 6 → BitVec 32)
    (hcall : CCall32 s nb a) (hret : Leaves k (s.regs .esp - 16#32) 20)
    (hentry : os.callSite = (s.ip + BitVec.ofNat 32 asmOffset32).setWidth 64)
    (hsite : s.ip + BitVec.ofNat 32 asmOffset32 ≠ 0xCAFECAFE#32) :
    ∃ s' call prog scope, run cpu32 k rerun32 s = some (s', [call]) ∧ call.nr = nb ∧ call.args = a ∧
      L.filter = some (prog, scope) ∧
      ∀ d arch name args, IsCall numbers d arch name args → d.ip = call.ip.setWidth 64 →
        Bpf.run prog d = some 0x7fff0000#32 := by
  obtain ⟨s', m, call, rfl, h, _⟩ := C50_rerun_i686 k s nb a hcall hret
  have hlo : Bpf.lo os.callSite ≠ 0xCAFECAFE#32 := by
    intro h
    apply hsite
    rw [← h, hentry, Bpf.lo]
    ext i hi
    simp [BitVec.getElem_extractLsb', BitVec.getLsbD_setWidth, hi]
    omega
  obtain ⟨rules, prog, scope, _, hfil, _, _, hrun⟩ := C77_enforced_partial numbers lib hlib abi t os L
    pid p bytes data hf hd hk hc hs hi hL (fun _ => ⟨hlo, hno⟩)
  refine ⟨s', _, prog, scope, h, rfl, rfl, hfil, ?_⟩
  intro d arch name args hcl hip
  rw [hrun d arch name args hcl, if_pos ⟨ha, hip.trans hentry.symm⟩]

/-! A concrete call: seven different values, a kernel which answers the sum of the arguments and
overwrites memory far from the stack. -/

def exampleSt64 : St Reg64 64 where
  regs := fun r => match r with
    | .rdi => 7 | .rsi => 10 | .rdx => 11 | .rcx => 12 | .r8 => 13 | .r9 => 14
    | .rsp => 0x7fff00001000 | r => BitVec.ofNat 64 (1000 + r.num)
  mem := write (write (fun _ => 0) 0x7fff00001000 0x401234) 0x7fff00001008 15
  ip := 0x500000

def exampleKernel64 : Kernel 64 := fun call m =>
  ⟨call.args 0 + call.args 1 + call.args 2 + call.args 3 + call.args 4 + call.args 5,
    write m 0x10000 77, 0x246⟩

example : ∃ a, CCall64 exampleSt64 7 a ∧ Leaves exampleKernel64 (exampleSt64.regs .rsp) 8 := by
  refine ⟨six 10 11 12 13 14 15, ⟨rfl, rfl, rfl, rfl, rfl, rfl, by decide⟩, ?_⟩
  intro call m x hx
  apply write_other
  rw [InRange] at hx ⊢
  have : exampleSt64.regs .rsp = 0x7fff00001000#64 := rfl
  rw [this] at hx
  intro h
  bv_omega

/-- The stub loaded so that its call site is the one of the example of C77 (which meets the other
hypotheses of C78). -/
example (data : Bytes) : ∃ s : St Reg64 64, CCall64 s 7 (six 10 11 12 13 14 15) ∧
    (calmOs data).callSite = s.ip + BitVec.ofNat 64 asmOffset64 :=
  ⟨⟨exampleSt64.regs, exampleSt64.mem, (calmOs data).callSite - 91#64⟩,
    ⟨rfl, rfl, rfl, rfl, rfl, rfl, show read exampleSt64.mem (exampleSt64.regs .rsp + 8#64) = 15#64 by
      decide⟩, by
      show (calmOs data).callSite = (calmOs data).callSite - 91#64 + 91#64
      rw [BitVec.sub_add_cancel]⟩

def exampleSt32 : St Reg32 32 where
  regs := fun r => match r with
    | .esp => 0xbfff1000 | r => BitVec.ofNat 32 (1000 + r.num)
  mem := write (write (write (write (write (write (write (write (fun _ => 0)
    0xbfff1000 0x8041234) 0xbfff1004 7) 0xbfff1008 10) 0xbfff100c 11) 0xbfff1010 12) 0xbfff1014 13)
    0xbfff1018 14) 0xbfff101c 15
  ip := 0x8050000

def exampleKernel32 : Kernel 32 := fun call m => ⟨call.args 0, write m 0x10000 77, 0x246⟩

theorem exampleCall32 : CCall32 exampleSt32 7 (six 10 11 12 13 14 15) :=
  ⟨by decide, by decide, by decide, by decide, by decide, by decide, by decide⟩

example : ∃ a, CCall32 exampleSt32 7 a ∧ Leaves exampleKernel32 (exampleSt32.regs .esp - 16#32) 20 := by
  refine ⟨six 10 11 12 13 14 15, exampleCall32, ?_⟩
  intro call m x hx
  apply write_other
  rw [InRange] at hx ⊢
  have : exampleSt32.regs .esp = 0xbfff1000#32 := rfl
  rw [this] at hx
  intro h
  bv_omega

/-- The stub of 32-bit x86 at the call site of the example of C77, if that is below 4 GiB. -/
example (site : BitVec 32) : ∃ s : St Reg32 32, CCall32 s 7 (six 10 11 12 13 14 15) ∧
    site.setWidth 64 = (s.ip + BitVec.ofNat 32 asmOffset32).setWidth 64 :=
  ⟨⟨exampleSt32.regs, exampleSt32.mem, site - BitVec.ofNat 32 asmOffset32⟩,
    ⟨exampleCall32.p1, exampleCall32.p2, exampleCall32.p3, exampleCall32.p4, exampleCall32.p5,
      exampleCall32.p6, exampleCall32.p7⟩, by
      show site.setWidth 64 = (site - BitVec.ofNat 32 asmOffset32 + BitVec.ofNat 32 asmOffset32).setWidth 64
      rw [BitVec.sub_add_cancel]⟩

end Iris
