import Verif.Lemmas.Seccomp
import Verif.Props.Process
/-!
# C45-C49: the system call filter

`decision rules name args` is what a filter with these rules decides on the system call
`name` (Model/Seccomp.lean), `buildRules lib pid` the rules the broker puts in the filter of
the worker `pid`, `lib` being whatever libseccomp does.
-/
namespace Iris
open Spec Iris.Seccomp

/-- A library that knows every system call and never fails. -/
def goodLib : Lib := ⟨true, fun _ => true, fun _ => true, fun _ => true, true, fun _ => none⟩

theorem goodLib_builds (pid : BitVec 64) : buildRules goodLib pid = .ok (allRules pid) := by
  obtain ⟨out, h⟩ := addRules_total goodLib (allRules pid) [] (fun _ _ _ => rfl)
  have := addRules_ok h
  rw [buildRules, if_pos (by rfl), h, this]
  simp [goodLib]

/-! ## C46 -/

/-- C46. A system call of the worker runs without trapping exactly if libseccomp knows it
and it is on the published list, or it is one of the six restricted calls with the arguments
it is restricted to. -/
theorem C46_only_listed (lib : Lib) (pid : BitVec 64) (rules : List Rule)
    (h : buildRules lib pid = .ok rules) (name : String) (args : Args) :
    decision rules name args = .allow ↔ lib.fromName name = true ∧
      (name ∈ unrestricted ∨
       (name ∈ ["mmap", "mmap2", "mprotect"] ∧ PlainProtection (args 2)) ∨
       (name ∈ ["kill", "tgkill"] ∧ args 0 = pid) ∨
       (name = "ioctl" ∧ args 1 = 0x5401#64)) := by
  rw [built_allow h, mem_allowed_iff, protection_iff]
  simp

/-- C46. Nothing that reaches outside the worker is ever allowed, whatever its arguments. -/
theorem C46_outside_trapped (lib : Lib) (pid : BitVec 64) (rules : List Rule)
    (h : buildRules lib pid = .ok rules) (name : String) (hn : name ∈ outside) (args : Args) :
    decision rules name args = .trap := by
  rw [decision_trap, Ne, C46_only_listed lib pid rules h]
  rintro ⟨_, hc⟩
  have h1 : ∀ m ∈ outside, m ∉ unrestricted ∧ m ∉ ["mmap", "mmap2", "mprotect"] ∧
      m ∉ ["kill", "tgkill"] ∧ m ≠ "ioctl" := by decide +kernel
  obtain ⟨n1, n2, n3, n4⟩ := h1 name hn
  rcases hc with hc | ⟨hc, _⟩ | ⟨hc, _⟩ | ⟨hc, _⟩
  · exact n1 hc
  · exact n2 hc
  · exact n3 hc
  · exact n4 hc

/-- A filter does get built, it allows `read` and traps `openat`. -/
example : ∃ rules, buildRules goodLib 4321#64 = .ok rules ∧
    decision rules "read" (fun _ => 7#64) = .allow ∧
    decision rules "openat" (fun _ => 7#64) = .trap :=
  ⟨_, goodLib_builds _,
    (C46_only_listed _ _ _ (goodLib_builds _) _ _).2 ⟨rfl, .inl (by decide +kernel)⟩,
    C46_outside_trapped _ _ _ (goodLib_builds _) _ (by decide +kernel) _⟩

/-! ## C45 -/

/-- C45, full statement: `mmap`, `mmap2` and `mprotect` are allowed exactly if the protection
they ask for has only harmless bits. -/
def Spec.NoExecutableMemory : Prop :=
  ∀ (lib : Lib) (pid : BitVec 64) (rules : List Rule), buildRules lib pid = .ok rules →
    ∀ (arch : Arch) (name : String), name ∈ ["mmap", "mmap2", "mprotect"] →
      lib.fromName name = true → ∀ (args : Args) (mem : BitVec 32 → BitVec 32),
      (decision rules name args = .allow ↔ PlainProtection (protectionOf arch name args mem))

/-- C45 is false: the `mmap` of 32-bit x86 takes its arguments from memory, where the filter
does not look, and the filter allows it as long as the third register is harmless. -/
theorem C45_violated (lib : Lib) (pid : BitVec 64) (rules : List Rule)
    (h : buildRules lib pid = .ok rules) (hk : lib.fromName "mmap" = true) :
    ∃ (args : Args) (mem : BitVec 32 → BitVec 32),
      (protectionOf .x86 "mmap" args mem).getLsbD 2 = true ∧ decision rules "mmap" args = .allow := by
  refine ⟨fun _ => 0#64, fun _ => 7#32, by decide, ?_⟩
  rw [C46_only_listed lib pid rules h]
  refine ⟨hk, .inr (.inl ⟨by decide, ?_⟩)⟩
  intro i _ hi
  simp at hi

theorem C45_full_statement_false : ¬ Spec.NoExecutableMemory := by
  intro h
  obtain ⟨args, mem, h1, h2⟩ := C45_violated goodLib 1#64 _ (goodLib_builds _) rfl
  exact exec_protection_denied _ h1
    ((h goodLib 1#64 _ (goodLib_builds _) .x86 "mmap" (by decide) rfl args mem).1 h2)

/-- C45, what holds. Missing: the `mmap` of 32-bit x86 (see `C45_violated`). -/
theorem C45_no_executable_memory_partial (lib : Lib) (pid : BitVec 64) (rules : List Rule)
    (h : buildRules lib pid = .ok rules) (arch : Arch) (name : String)
    (hn : name ∈ ["mmap", "mmap2", "mprotect"]) (hx : arch ≠ .x86 ∨ name ≠ "mmap")
    (hk : lib.fromName name = true) (args : Args) (mem : BitVec 32 → BitVec 32) :
    (decision rules name args = .allow ↔ PlainProtection (protectionOf arch name args mem)) ∧
    ((protectionOf arch name args mem).getLsbD 2 = true → decision rules name args = .trap) := by
  have hp : protectionOf arch name args mem = args 2 := by
    rw [protectionOf, if_neg]
    rintro ⟨h1, h2⟩
    rcases hx with hx | hx
    · exact hx h1
    · exact hx h2
  have h1 : decision rules name args = .allow ↔ PlainProtection (args 2) := by
    rw [C46_only_listed lib pid rules h]
    constructor
    · rintro ⟨_, hc⟩
      have hno : ∀ m ∈ ["mmap", "mmap2", "mprotect"],
          m ∉ unrestricted ∧ m ∉ ["kill", "tgkill"] ∧ m ≠ "ioctl" := by decide +kernel
      obtain ⟨n1, n2, n3⟩ := hno name hn
      rcases hc with hc | ⟨_, hc⟩ | ⟨hc, _⟩ | ⟨hc, _⟩
      · exact absurd hc n1
      · exact hc
      · exact absurd hc n2
      · exact absurd hc n3
    · intro hp
      exact ⟨hk, .inr (.inl ⟨hn, hp⟩)⟩
  rw [hp]
  refine ⟨h1, fun h2 => ?_⟩
  rw [decision_trap, Ne, h1]
  exact exec_protection_denied _ h2

/-- On x86_64, PROT_READ|PROT_WRITE is allowed and PROT_READ|PROT_EXEC is not. -/
example : decision (allRules 1#64) "mmap" (fun _ => 3#64) = .allow ∧
    decision (allRules 1#64) "mprotect" (fun _ => 5#64) = .trap :=
  ⟨(C45_no_executable_memory_partial _ _ _ (goodLib_builds 1#64) .x86_64 "mmap" (by decide)
      (.inl (by decide)) rfl _ (fun _ => 0#32)).1.2
      (by rw [← protection_iff]; decide),
    (C45_no_executable_memory_partial _ _ _ (goodLib_builds 1#64) .x86_64 "mprotect" (by decide)
      (.inl (by decide)) rfl _ (fun _ => 0#32)).2 (by decide)⟩

/-! ## C47 -/

/-- What the filter decides on `kill` and `tgkill`. -/
theorem kill_allow {lib : Lib} {pid : BitVec 64} {rules : List Rule}
    (h : buildRules lib pid = .ok rules) {name : String} (hn : name ∈ ["kill", "tgkill"])
    (hk : lib.fromName name = true) (args : Args) :
    decision rules name args = .allow ↔ args 0 = pid := by
  rw [C46_only_listed lib pid rules h]
  constructor
  · rintro ⟨_, hc⟩
    have hno : ∀ m ∈ ["kill", "tgkill"],
        m ∉ unrestricted ∧ m ∉ ["mmap", "mmap2", "mprotect"] ∧ m ≠ "ioctl" := by decide +kernel
    obtain ⟨n1, n2, n3⟩ := hno name hn
    rcases hc with hc | ⟨hc, _⟩ | ⟨_, hc⟩ | ⟨hc, _⟩
    · exact absurd hc n1
    · exact absurd hc n2
    · exact hc
    · exact absurd hc n3
  · intro hp
    exact ⟨hk, .inr (.inr (.inl ⟨hn, hp⟩))⟩

/-- C47, full statement: the filter built for a worker that was created (for the process
number the broker knows) allows `kill` and `tgkill` exactly on the worker itself. -/
def Spec.SignalsSelfOnly : Prop :=
  ∀ (abi : Abi) (t : FdTable) (caps : Caps) (c : ProcessConfig) (p : Policy) (os : NewOs)
    (ch : Child) (pid : Nat) (s : Broker),
    (workerNew abi t caps c p os).child = some ch →
    (workerNew abi t caps c p os).result = .ok (pid, s) →
    ∀ (lib : Lib) (rules : List Rule), buildRules lib (BitVec.ofNat 64 pid) = .ok rules →
    ∀ name ∈ ["kill", "tgkill"], lib.fromName name = true → ∀ args, ProperPid args →
      (decision rules name args = .allow ↔ signalTarget args = ownPid ch)

theorem proper_target {args : Args} (hp : ProperPid args) {pid : Nat} (h : pid < 2 ^ 31) :
    args 0 = BitVec.ofNat 64 pid ↔ signalTarget args = pid := by
  rw [signalTarget, ProperPid] at *
  generalize Bpf.lo (args 0) = v at *
  rw [hp]
  have hpid : (BitVec.ofNat 32 pid).toInt = pid := by
    have hn : (BitVec.ofNat 32 pid).toNat = pid := by rw [BitVec.toNat_ofNat]; omega
    rw [BitVec.toInt_eq_toNat_of_lt (by omega), hn]
  have h64 : BitVec.ofNat 64 pid = (BitVec.ofNat 32 pid).signExtend 64 := by
    apply BitVec.eq_of_toInt_eq
    rw [BitVec.toInt_signExtend_of_le (by omega), hpid]
    have hn : (BitVec.ofNat 64 pid).toNat = pid := by rw [BitVec.toNat_ofNat]; omega
    rw [BitVec.toInt_eq_toNat_of_lt (by omega), hn]
  rw [h64]
  constructor
  · intro h1
    have := congrArg BitVec.toInt h1
    rwa [BitVec.toInt_signExtend_of_le (by omega), BitVec.toInt_signExtend_of_le (by omega), hpid] at this
  · intro h1
    have : v = BitVec.ofNat 32 pid := BitVec.eq_of_toInt_eq (by rw [h1, hpid])
    rw [this]

/-- C47, what holds. Missing: workers in a PID namespace of their own (see `C47_violated`).
For the others, `kill` and `tgkill` are allowed exactly on the worker itself, and never on
another process even if the register's high half is not that of a `pid_t`. -/
theorem C47_signals_self_partial (lib : Lib) (ch : Child) (rules : List Rule)
    (hns : ch.pidNs = false) (hpid : ch.pid < 2 ^ 31)
    (h : buildRules lib (BitVec.ofNat 64 ch.pid) = .ok rules) (name : String)
    (hn : name ∈ ["kill", "tgkill"]) (hk : lib.fromName name = true) (args : Args) :
    (decision rules name args = .allow → signalTarget args = ownPid ch) ∧
    (ProperPid args → (decision rules name args = .allow ↔ signalTarget args = ownPid ch)) := by
  have ho : ownPid ch = ch.pid := by simp [ownPid, hns]
  rw [kill_allow h hn hk, ho]
  refine ⟨fun h1 => ?_, fun hp => proper_target hp hpid⟩
  have hp : ProperPid args := by
    rw [ProperPid, h1]
    apply BitVec.eq_of_getLsbD_eq
    intro i hi
    have hz : ∀ j, 31 ≤ j → (BitVec.ofNat 64 ch.pid).getLsbD j = false := by
      intro j hj
      rw [BitVec.getLsbD_ofNat]
      have : ch.pid < 2 ^ j := Nat.lt_of_lt_of_le hpid (Nat.pow_le_pow_right (by omega) hj)
      simp [Nat.testBit_lt_two_pow this]
    rw [BitVec.getLsbD_signExtend]
    by_cases h32 : i < 32
    · simp [hi, h32, Bpf.lo]
    · rw [hz i (by omega)]
      have h31 : (Bpf.lo (BitVec.ofNat 64 ch.pid)).msb = false := by
        rw [BitVec.msb_eq_getLsbD_last, Bpf.lo, BitVec.getLsbD_extractLsb', hz _ (by omega)]
        rfl
      simp [h32, h31]
  exact (proper_target hp hpid).1 h1

/-- C47 is false for every worker in its own PID namespace: there its own number is 1, which
the filter traps, while it allows signalling whatever has the number the worker has outside. -/
theorem C47_violated_in_namespace (lib : Lib) (ch : Child) (rules : List Rule)
    (hns : ch.pidNs = true) (h1 : 1 < ch.pid) (hpid : ch.pid < 2 ^ 31)
    (h : buildRules lib (BitVec.ofNat 64 ch.pid) = .ok rules) (name : String)
    (hn : name ∈ ["kill", "tgkill"]) (hk : lib.fromName name = true) (args : Args)
    (hp : ProperPid args) :
    (signalTarget args = ownPid ch → decision rules name args = .trap) ∧
    (signalTarget args = ch.pid → decision rules name args = .allow) := by
  have ho : ownPid ch = 1 := by simp [ownPid, hns]
  rw [decision_trap, Ne, kill_allow h hn hk, proper_target hp hpid, ho]
  constructor
  · intro h2 h3; omega
  · exact id

/-- Such workers are what `Worker::new` normally creates. -/
theorem C47_violated : ¬ Spec.SignalsSelfOnly := by
  intro h
  have hc : ∃ e s, (workerNew .lp64 brokerTable fullCaps someConfig tmpPolicy goodOs).child =
      some ⟨4321, true, e⟩ ∧
      (workerNew .lp64 brokerTable fullCaps someConfig tmpPolicy goodOs).result = .ok (4321, s) := by
    have h1 : (workerNew .lp64 brokerTable fullCaps someConfig tmpPolicy goodOs).child.map
        (fun c => (c.pid, c.pidNs)) = some (4321, true) := by decide +kernel
    have h2 : (workerNew .lp64 brokerTable fullCaps someConfig tmpPolicy goodOs).result.toOption.map
        (·.1) = some 4321 := by decide +kernel
    revert h1 h2
    generalize workerNew .lp64 brokerTable fullCaps someConfig tmpPolicy goodOs = r
    intro h1 h2
    rcases hch : r.child with _ | ⟨a, b, e⟩
    · simp [hch] at h1
    · rcases hr : r.result with x | ⟨x, s⟩
      · simp [hr, Except.toOption] at h2
      · simp only [hch, hr, Except.toOption, Option.map_some, Option.some.injEq, Prod.mk.injEq] at h1 h2
        obtain ⟨rfl, rfl⟩ := h1
        subst h2
        exact ⟨e, s, rfl, rfl⟩
  obtain ⟨e, s, h1, h2⟩ := hc
  have := (h _ _ _ _ _ _ _ _ s h1 h2 goodLib _ (goodLib_builds _) "kill" (by decide) rfl
    (fun _ => 4321#64) (by unfold ProperPid; decide)).1
    ((kill_allow (goodLib_builds _) (by decide) rfl _).2 (by decide))
  simp [ownPid, signalTarget] at this
  revert this
  decide

/-! ## C48 -/

/-- C48. With the audit prelude in front of a filter, a system call made from the given
address is allowed and any other gets exactly the filter's own result. -/
theorem C48_prelude (site : BitVec 64) (p : List Bpf.Insn) (hp : BeginsWithLoad p) (d : Bpf.Data) :
    (d.ip = site → Bpf.run (prelude site ++ p) d = some 0x7fff0000#32) ∧
    (d.ip ≠ site → Bpf.run (prelude site ++ p) d = Bpf.run p d) := by
  rw [run_prelude]
  constructor
  · intro h; rw [if_pos h]; rfl
  · intro h; rw [if_neg h, runFrom_load _ _ _ hp]

/-- The hypothesis is needed: a program which returns the accumulator it starts with (zero)
sees half of the instruction pointer instead. libseccomp generates no such program. -/
theorem C48_needs_load : ∃ (site : BitVec 64) (p : List Bpf.Insn) (d : Bpf.Data), d.ip ≠ site ∧
    Bpf.run p d = some 0#32 ∧ Bpf.run (prelude site ++ p) d ≠ Bpf.run p d :=
  ⟨0x1000#64, [⟨0x16#16, 0, 0, 0⟩], ⟨0, 0, 0x2000#64, fun _ => 0⟩, by decide, by decide, by decide⟩

/-- A filter that traps everything: from the call site `getpid` runs, elsewhere it traps. -/
example : BeginsWithLoad [⟨0x20#16, 0, 0, 0⟩, ⟨0x06#16, 0, 0, Bpf.RET_TRAP⟩] ∧
    Bpf.run (prelude 0x7f001234005b#64 ++ [⟨0x20#16, 0, 0, 0⟩, ⟨0x06#16, 0, 0, Bpf.RET_TRAP⟩])
      ⟨39#32, 0xC000003E#32, 0x7f001234005b#64, fun _ => 0⟩ = some Bpf.RET_ALLOW ∧
    Bpf.run (prelude 0x7f001234005b#64 ++ [⟨0x20#16, 0, 0, 0⟩, ⟨0x06#16, 0, 0, Bpf.RET_TRAP⟩])
      ⟨39#32, 0xC000003E#32, 0x7f001234005c#64, fun _ => 0⟩ = some Bpf.RET_TRAP :=
  ⟨⟨_, _, rfl, rfl⟩, by decide, by decide⟩

/-! ## C49 -/

/-- C49, full statement: patching an audit filter replaces the placeholder by the address of
the call site and nothing else. -/
def Spec.PatchesOnlyPlaceholder : Prop :=
  ∀ (site : BitVec 64) (f : Bytes),
    patch site (Bpf.encode (prelude placeholder) ++ f) = Bpf.encode (prelude site) ++ f

/-- C49 is false for the addresses whose low half looks like the placeholder's second half:
what was just written is overwritten with the address's high half. -/
theorem C49_violated_by_address (f : Bytes) :
    patch 0x00007F12CAFECAFE#64 (Bpf.encode (prelude placeholder) ++ f) ≠
      Bpf.encode (prelude 0x00007F12CAFECAFE#64) ++ f := by
  intro h
  have hf : firstHalf 0x00007F12CAFECAFE#64 = [0xFE, 0xCA, 0xFE, 0xCA] := by decide
  have hg : secondHalf 0x00007F12CAFECAFE#64 = [0x12, 0x7F, 0, 0] := by decide
  have hl : ∃ n, (Bpf.encode (prelude placeholder) ++ f).length = n + 13 :=
    ⟨f.length + 27, by rw [placeholder_bytes]; simp only [List.length_cons]⟩
  obtain ⟨n, hn⟩ := hl
  obtain ⟨a, b, c, d, e, g, k, i, h1, _, h3⟩ := prelude_bytes 0x00007F12CAFECAFE#64 f
  rw [patch, hn, h3, placeholder_bytes] at h
  iterate 12 rw [patchLoop_skip _ _ _ _ (by simp) (by simp)] at h
  rw [patchLoop, if_pos (by simp), first_eq, second_eq, hf, hg] at h
  rw [hf] at h1
  simp [replaceFront] at h
  simp at h1
  rw [← h1.1] at h
  simp at h

theorem C49_violated : ¬ Spec.PatchesOnlyPlaceholder :=
  fun h => C49_violated_by_address [] (h _ _)

/-- C49 is also false for filters in which the bytes of the placeholder occur elsewhere, even
across two fields of an instruction: here the constant of a comparison changes. -/
theorem C49_violated_by_filter :
    patch 0x00007F1200001000#64 (Bpf.encode (prelude placeholder ++
        [⟨0x20#16, 0, 0, 0⟩, ⟨0x15#16, 0, 1, 0xC0DEC0DE#32⟩, ⟨0x06#16, 0, 0, 0⟩])) =
      Bpf.encode (prelude 0x00007F1200001000#64 ++
        [⟨0x20#16, 0, 0, 0⟩, ⟨0x15#16, 0, 1, 0x00001000#32⟩, ⟨0x06#16, 0, 0, 0⟩]) := by
  decide +kernel

/-- C49, what holds. Missing: the addresses whose low half is 0xCAFECAFE and filters that
contain the bytes of one of the placeholder's halves. -/
theorem C49_patch_partial (site : BitVec 64) (f : Bytes)
    (hs : Bpf.lo site ≠ 0xCAFECAFE#32) (hf : NoPlaceholder f) :
    patch site (Bpf.encode (prelude placeholder) ++ f) = Bpf.encode (prelude site) ++ f := by
  have h : firstHalf site ≠ secondHalf placeholder := by
    intro he
    apply hs
    have h1 := join32 (Bpf.lo site)
    simp only [firstHalf, secondHalf, Bpf.le32, List.cons.injEq, UInt8.ofBitVec.injEq, and_true] at he
    rw [he.1, he.2.1, he.2.2.1, he.2.2.2, join32] at h1
    rw [← h1]
    decide
  rw [patch, List.length_append, encode_length, show 8 * (prelude placeholder).length = 40 from rfl,
    patch_prelude site f h, patchLoop_none site _ f hf]

example : Bpf.lo 0x7f001234005b#64 ≠ 0xCAFECAFE#32 ∧
    NoPlaceholder (Bpf.encode [⟨0x20#16, 0, 0, 0⟩, ⟨0x06#16, 0, 0, Bpf.RET_TRAP⟩]) := by
  refine ⟨by decide, ?_, ?_⟩ <;> decide

end Iris
