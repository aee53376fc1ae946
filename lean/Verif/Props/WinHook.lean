import Verif.Lemmas.WinHook
/-!
# C63, C91: functions of a Windows worker are redirected
-/
namespace Iris
open Spec Asm

/-! ## C63: trampolines -/

/-- **C63**, x86_64. Whatever the target, executing the bytes that were written arrives at it, with all
registers (the stack pointer too) as they were, and memory as it was but for the 8 bytes below the stack.
The stack must not be where the trampoline is. -/
theorem C63_trampoline64_lands (m : Mem 64) (location target : BitVec 64) (s : St Reg64 64)
    (hip : s.ip = location) (hmem : s.mem = writeTrampoline64 m location target)
    (hstack : ∀ x, InRange (s.regs .rsp - 8) 8 x → ¬ InRange location 14 x) :
    ∃ s', execs exec64 3 s = some s' ∧ s'.ip = target ∧ s'.regs = s.regs ∧
      ∀ x, ¬ InRange (s.regs .rsp - 8) 8 x → s'.mem x = s.mem x := by
  subst hip
  exact exec_trampoline64 s target (by rw [hmem]; exact copyTo_holds _ _ _ (by rw [patch64_length]; decide)) hstack

/-- **C63**, 32-bit x86: one jump, nothing but the instruction pointer changes. -/
theorem C63_trampoline32_lands (m : Mem 32) (location target : BitVec 32) (s : St Reg32 32)
    (hip : s.ip = location) (hmem : s.mem = writeTrampoline32 m location target) :
    execs exec32 1 s = some { s with ip := target } := by
  subst hip
  have := exec_trampoline32 s target (by
    rw [hmem]; exact copyTo_holds _ _ _ (by simp [patch32, leBytes_length]))
  exact this

/-- **C63**: writing a trampoline changes 14 bytes (x86_64) or 5 (32-bit x86), no others. -/
theorem C63_only_trampoline_written (m64 : Mem 64) (l64 t64 x64 : BitVec 64) (m32 : Mem 32) (l32 t32 x32 : BitVec 32) :
    (¬ InRange l64 14 x64 → writeTrampoline64 m64 l64 t64 x64 = m64 x64) ∧
    (¬ InRange l32 5 x32 → writeTrampoline32 m32 l32 t32 x32 = m32 x32) := by
  constructor
  · intro h
    exact copyTo_other _ _ _ _ (by rw [patch64_length]; exact h)
  · intro h
    exact copyTo_other _ _ _ _ (by simp only [patch32, List.length_append, leBytes_length, List.length_singleton]; exact h)

/-- A target with the high bit of its low half set (`push` sign-extends it), called with a stack. -/
example : ∃ s : St Reg64 64, s.ip = 0x10000 ∧
    s.mem = writeTrampoline64 (fun _ => 0) 0x10000 0x7ff6_9000_1234 ∧
    (∀ x, InRange (s.regs .rsp - 8) 8 x → ¬ InRange (0x10000 : BitVec 64) 14 x) ∧
    ∃ s', execs exec64 3 s = some s' ∧ s'.ip = 0x7ff6_9000_1234 := by
  refine ⟨⟨fun _ => 0x5000, writeTrampoline64 (fun _ => 0) 0x10000 0x7ff6_9000_1234, 0x10000⟩, rfl, rfl, ?_, ?_⟩
  · intro x h1 h2
    simp only [InRange, BitVec.toNat_sub] at h1 h2
    simp at h1 h2
    omega
  · refine ⟨_, rfl, ?_⟩
    decide +kernel

/-- A jump backwards. -/
example : ∃ s : St Reg32 32, s.ip = 0x7700_0000 ∧ s.mem = writeTrampoline32 (fun _ => 0) 0x7700_0000 0x0040_1000 ∧
    execs exec32 1 s = some { s with ip := 0x0040_1000 } :=
  ⟨⟨fun _ => 0, _, 0x7700_0000⟩, rfl, rfl, C63_trampoline32_lands (fun _ => 0) _ _ _ rfl rfl⟩

/-! ## C91: all the ways to call a hooked function lead to its replacement -/

/-- **C91**, as far as it is true. Functions of module `dll` were hooked one after the other, in a worker
without trampolines, and nothing panicked. The functions are different from each other, their addresses are
in use, and no replacement is itself hooked. Then in each module, each entry of its exports that led to one of
them now leads to its replacement, each place of its imports that held one of them now holds the replacement,
and all other entries and places are as before.

Missing: the trampolines must be within 4 GiB above the module (`hnear`), else see
`C91_far_trampoline_violated`. -/
theorem C91_calls_reach_hooks_partial (os : HookOs) (inUse : List (BitVec 64)) (ho : HonestOs os inUse) (dll : Nat)
    (hooks : List (Nat × BitVec 64)) (mem : Mem 64) (mods mods' : List WinModule) (s' : HookState)
    (h : hookAll os dll hooks ⟨mem, []⟩ mods = some (s', mods'))
    (hdistinct : ((hookPairs mods dll hooks).map Prod.fst).Nodup)
    (hhooks : ∀ p ∈ hookPairs mods dll hooks,
      p.1 ∈ inUse ∧ p.2 ≠ 0 ∧ p.2 ∉ (hookPairs mods dll hooks).map Prod.fst)
    (hnear : ∀ m ∈ mods,
      (∃ rva ∈ m.exports, m.base + rva.zeroExtend 64 ∈ (hookPairs mods dll hooks).map Prod.fst) →
      ∀ a ∈ s'.trampolines, (a - m.base).toNat < 2 ^ 32) :
    (hookPairs mods dll hooks).length = hooks.length ∧ mods'.length = mods.length ∧
    ∀ (i : Nat) (m m' : WinModule), mods[i]? = some m → mods'[i]? = some m' →
      ExportsRedirected s'.mem (hookPairs mods dll hooks) m m' ∧
      ImportsRedirected (hookPairs mods dll hooks) m m' := by
  obtain ⟨h1, h2, h3, h4⟩ := hookAll_spec ho dll hooks ⟨mem, []⟩ s' mods mods' (by simp [HookState.Aligned]) h
    hdistinct hhooks hnear (by simp)
  refine ⟨h1, h3, fun i m m' hm hm' => ?_⟩
  obtain ⟨h5, h6⟩ := h4 i m m' hm hm'
  refine ⟨h5, fun j k a ha => ?_⟩
  obtain ⟨h7, h8⟩ := h6 j k
  refine ⟨fun hl => ?_, fun hl => ?_⟩
  · rw [h7 hl, ha]; rfl
  · rw [h8 hl, ha]

/-- Memory is in use until an address, and free from there on, but for the trampolines. -/
def boundaryOs (limit : Nat) : HookOs where
  granularity := 65536
  query done a :=
    if a.toNat < limit then some (limit - a.toNat, false)
    else if a ∈ done then some (65536, false)
    else some (65536, true)
  alloc _ _ := true

theorem boundaryOs_honest (limit : Nat) (inUse : List (BitVec 64)) (h : ∀ a ∈ inUse, a.toNat < limit) :
    HonestOs (boundaryOs limit) inUse := by
  refine ⟨⟨(by decide : 14 ≤ 65536), (by decide : 65536 ∣ 2 ^ 64)⟩, ?_⟩
  intro done a size hq
  simp only [boundaryOs] at hq
  split at hq
  · simp at hq
  · split at hq
    · simp at hq
    · rename_i h1 h2
      exact ⟨h2, fun h3 => h1 (h a h3)⟩

/-- A DLL of three functions, at the top of the address space of a process. -/
def demoNtdll : WinModule := ⟨0x7ffa_0000_0000, .amd64, [0x1000, 0x2000, 0x3000, 0x2000], none⟩

/-- A program that imports two of them, and a module of which it imports one. After the end of the tables
there are addresses too. -/
def demoExe : WinModule := ⟨0x7ff6_0000_0000, .amd64, [],
  some [⟨0x50, 0x60, [0x7ffa_0000_2000, 0x7ffa_0000_3000, 0, 0x7ffa_0000_2000]⟩, ⟨0x70, 0x80, [0x1234, 0]⟩,
    ⟨0, 0, [0x7ffa_0000_2000, 0]⟩]⟩

/-- Two functions are hooked by functions of the program (which are below the DLL). -/
def demoHooks : List (Nat × BitVec 64) := [(1, 0x7ff6_0000_9000), (0, 0x7ff6_0000_a000)]

theorem demo_result :
    (hookAll (boundaryOs 0x7ffa_0010_0000) 0 demoHooks ⟨fun _ => 0, []⟩ [demoNtdll, demoExe]).map
        (fun r => (r.1.trampolines, r.2)) =
      some ([0x7ffa_0011_0000, 0x7ffa_0010_0000],
        [⟨0x7ffa_0000_0000, .amd64, [0x11_0000, 0x10_0000, 0x3000, 0x10_0000], none⟩,
         ⟨0x7ff6_0000_0000, .amd64, [],
          some [⟨0x50, 0x60, [0x7ff6_0000_9000, 0x7ffa_0000_3000, 0, 0x7ffa_0000_2000]⟩, ⟨0x70, 0x80, [0x1234, 0]⟩,
            ⟨0, 0, [0x7ffa_0000_2000, 0]⟩]⟩]) := by
  decide +kernel

/-- In a 32-bit module the address of the replacement must fit. -/
example : hookThunks .i386 0x1000 0x2000 [0x1000, 0x3000, 0, 0x1000] = some [0x2000, 0x3000, 0, 0x1000] ∧
    hookThunks .i386 0x1000 0x1_0000_0000 [0x1000, 0x3000, 0] = none := by
  decide

/-- The hypotheses are met: two functions, one of them exported twice, are hooked through two trampolines. -/
example : ∃ s' mods', hookAll (boundaryOs 0x7ffa_0010_0000) 0 demoHooks ⟨fun _ => 0, []⟩ [demoNtdll, demoExe] =
      some (s', mods') ∧ s'.trampolines.length = 2 ∧
    ∀ (i : Nat) (m m' : WinModule), [demoNtdll, demoExe][i]? = some m → mods'[i]? = some m' →
      ExportsRedirected s'.mem (hookPairs [demoNtdll, demoExe] 0 demoHooks) m m' ∧
      ImportsRedirected (hookPairs [demoNtdll, demoExe] 0 demoHooks) m m' := by
  have h := demo_result
  rw [Option.map_eq_some_iff] at h
  obtain ⟨⟨s', mods'⟩, h1, h2⟩ := h
  simp only [Prod.mk.injEq] at h2
  refine ⟨s', mods', h1, by rw [h2.1]; rfl, ?_⟩
  have ho := boundaryOs_honest 0x7ffa_0010_0000 [0x7ffa_0000_1000, 0x7ffa_0000_2000] (by simp)
  have hd : ((hookPairs [demoNtdll, demoExe] 0 demoHooks).map Prod.fst).Nodup := by decide +kernel
  have hh : ∀ p ∈ hookPairs [demoNtdll, demoExe] 0 demoHooks, p.1 ∈ [0x7ffa_0000_1000, 0x7ffa_0000_2000] ∧ p.2 ≠ 0 ∧
      p.2 ∉ (hookPairs [demoNtdll, demoExe] 0 demoHooks).map Prod.fst := by decide +kernel
  have hn : ∀ m ∈ [demoNtdll, demoExe],
      (∃ rva ∈ m.exports, m.base + rva.zeroExtend 64 ∈ (hookPairs [demoNtdll, demoExe] 0 demoHooks).map Prod.fst) →
      ∀ a ∈ s'.trampolines, (a - m.base).toNat < 2 ^ 32 := by
    rw [h2.1]
    simp only [List.mem_cons, List.not_mem_nil, or_false, forall_eq_or_imp, forall_eq]
    exact ⟨fun _ => by decide +kernel, fun h => by simp [demoExe] at h⟩
  exact (C91_calls_reach_hooks_partial _ _ ho 0 demoHooks _ _ mods' s' h1 hd hh hn).2.2

/-- **C91 is violated** when the first free memory is more than 4 GiB above a module: the address of the
trampoline is cut to 32 bits, and the entry of the exports leads somewhere else. Here it leads to the first
byte of the module, from which no execution arrives at the replacement. -/
theorem C91_far_trampoline_violated :
    ∃ (os : HookOs) (inUse : List (BitVec 64)) (m m' : WinModule) (s' : HookState) (hook : BitVec 64),
      HonestOs os inUse ∧ hookAll os 0 [(0, hook)] ⟨fun _ => 0, []⟩ [m] = some (s', [m']) ∧
      (∀ p ∈ hookPairs [m] 0 [(0, hook)], p.1 ∈ inUse ∧ p.2 ≠ 0 ∧ p.2 ∉ inUse) ∧
      m'.exports = [0] ∧ ¬ ExportsRedirected s'.mem (hookPairs [m] 0 [(0, hook)]) m m' := by
  have h : (hookAll (boundaryOs 0x7ffc_0000_0000) 0 [(0, 0x7ff6_0000_9000)] ⟨fun _ => 0, []⟩
      [⟨0x7ffa_0000_0000, .amd64, [0x1000], none⟩]).map
        (fun r => (r.1.trampolines, r.2, r.1.mem 0x7ffa_0000_0000)) =
      some ([0x7ffc_0000_0000], [⟨0x7ffa_0000_0000, .amd64, [0], none⟩], 0) := by decide +kernel
  rw [Option.map_eq_some_iff] at h
  obtain ⟨⟨s', mods'⟩, h1, h2⟩ := h
  simp only [Prod.mk.injEq] at h2
  obtain ⟨h2, h3, h4⟩ := h2
  subst h3
  refine ⟨boundaryOs 0x7ffc_0000_0000, [0x7ffa_0000_1000], _, _, s', 0x7ff6_0000_9000,
    boundaryOs_honest _ _ (by simp), h1, by simp [hookPairs], rfl, ?_⟩
  rintro ⟨_, _, h5⟩
  have h6 := (h5 0 0x1000 0 rfl rfl).1 (0x7ffa_0000_1000, 0x7ff6_0000_9000) (by decide +kernel) (by decide +kernel)
  obtain ⟨n, t, h7, h8, _⟩ := h6 ⟨fun _ => 0x5000, s'.mem, 0x7ffa_0000_0000⟩ rfl (fun _ _ => rfl) (by
    intro x h9 h10
    simp only [InRange, BitVec.toNat_sub] at h9 h10
    simp at h9 h10
    omega)
  cases n with
  | zero =>
    simp only [execs, Option.some.injEq] at h7
    subst h7
    exact absurd h8 (by decide : ¬ (0x7ffa_0000_0000 : BitVec 64) = 0x7ff6_0000_9000)
  | succ n =>
    simp only [execs, exec64, h4] at h7
    cases h7

end Iris
