import Verif.Spec.Seccomp
/-! Lemmas on the filter's rules, on BPF and on the patch loop. -/
namespace Iris.Seccomp
open Spec

/-! ## Rules -/

theorem addRules_ok {lib : Lib} {rs rules out : List Rule} (h : addRules lib rs rules = .ok out) :
    out = rules ++ rs.filter (fun r => lib.fromName r.name) := by
  induction rs generalizing rules with
  | nil => simp only [addRules, Except.ok.injEq] at h; simp [h]
  | cons r rs ih =>
    rw [addRules, addRule] at h
    by_cases hn : lib.fromName r.name = true
    · by_cases ha : lib.addRule r = true
      · simp only [hn, ha, if_true] at h
        rw [ih h]
        simp [hn]
      · simp [hn, ha] at h
    · simp only [hn] at h
      rw [ih h]
      simp [hn]

theorem buildRules_ok {lib : Lib} {pid : BitVec 64} {rules : List Rule}
    (h : buildRules lib pid = .ok rules) :
    rules = (allRules pid).filter (fun r => lib.fromName r.name) := by
  rw [buildRules] at h
  split at h
  · simpa using addRules_ok h
  · cases h

theorem buildRules_needs {lib : Lib} {pid : BitVec 64} {rules : List Rule} (h : buildRules lib pid = .ok rules) :
    lib.newFilter = true ∧ ∀ arch, lib.addArch arch = true := by
  rw [buildRules] at h
  split at h
  · next hc =>
    simp only [Bool.and_eq_true] at hc
    obtain ⟨⟨⟨h1, h2⟩, h3⟩, h4⟩ := hc
    exact ⟨h1, fun a => by cases a <;> assumption⟩
  · cases h

theorem addRules_no_panic (lib : Lib) (rs rules : List Rule) : addRules lib rs rules ≠ .error .panic := by
  induction rs generalizing rules with
  | nil => simp [addRules]
  | cons r rs ih =>
    rw [addRules]
    cases hr : addRule lib r rules with
    | ok rules => exact ih rules
    | error e =>
      intro h
      cases Except.error.inj h
      rw [addRule] at hr
      split at hr
      · split at hr <;> cases hr
      · cases hr

theorem addRules_total (lib : Lib) (rs rules : List Rule)
    (h : ∀ r ∈ rs, lib.fromName r.name = true → lib.addRule r = true) :
    ∃ out, addRules lib rs rules = .ok out := by
  induction rs generalizing rules with
  | nil => exact ⟨_, rfl⟩
  | cons r rs ih =>
    rw [addRules, addRule]
    by_cases hn : lib.fromName r.name = true
    · simp only [hn, h r (by simp) hn, if_true]
      exact ih _ fun r' h' => h r' (by simp [h'])
    · simp only [hn]
      exact ih _ fun r' h' => h r' (by simp [h'])

/-- Every rule of the filter. -/
theorem mem_allRules (pid : BitVec 64) (r : Rule) :
    r ∈ allRules pid ↔ (∃ n ∈ allowedByDefault, r = ⟨n, []⟩) ∨
      (∃ n, (n = "mmap" ∨ n = "mmap2" ∨ n = "mprotect") ∧ r = protectionRule n) ∨
      (∃ n, (n = "kill" ∨ n = "tgkill") ∧ r = selfRule pid n) ∨ r = ioctlRule := by
  simp only [allRules, List.mem_append, List.mem_map, List.mem_cons, List.not_mem_nil, or_false]
  constructor
  · rintro (⟨n, h, rfl⟩ | h)
    · exact .inl ⟨n, h, rfl⟩
    · rcases h with rfl | rfl | rfl | rfl | rfl | rfl
      · exact .inr (.inl ⟨_, .inl rfl, rfl⟩)
      · exact .inr (.inl ⟨_, .inr (.inl rfl), rfl⟩)
      · exact .inr (.inl ⟨_, .inr (.inr rfl), rfl⟩)
      · exact .inr (.inr (.inl ⟨_, .inl rfl, rfl⟩))
      · exact .inr (.inr (.inl ⟨_, .inr rfl, rfl⟩))
      · exact .inr (.inr (.inr rfl))
  · rintro (⟨n, h, rfl⟩ | ⟨n, h, rfl⟩ | ⟨n, h, rfl⟩ | rfl)
    · exact .inl ⟨n, h, rfl⟩
    · rcases h with rfl | rfl | rfl <;> simp
    · rcases h with rfl | rfl <;> simp
    · simp

theorem mem_allowed_iff (n : String) : n ∈ allowedByDefault ↔ n ∈ unrestricted := by
  constructor
  · intro h
    have : ∀ m ∈ allowedByDefault, m ∈ unrestricted := by decide +kernel
    exact this n h
  · intro h
    have : ∀ m ∈ unrestricted, m ∈ allowedByDefault := by decide +kernel
    exact this n h

theorem allowed_not_special (n : String) (h : n ∈ allowedByDefault) :
    n ≠ "mmap" ∧ n ≠ "mmap2" ∧ n ≠ "mprotect" ∧ n ≠ "kill" ∧ n ≠ "tgkill" ∧ n ≠ "ioctl" := by
  have : ∀ m ∈ allowedByDefault,
      m ≠ "mmap" ∧ m ≠ "mmap2" ∧ m ≠ "mprotect" ∧ m ≠ "kill" ∧ m ≠ "tgkill" ∧ m ≠ "ioctl" := by
    decide +kernel
  exact this n h

theorem decision_allow (rules : List Rule) (name : String) (args : Args) :
    decision rules name args = .allow ↔ ∃ r ∈ rules, r.applies name args = true := by
  rw [decision]
  constructor
  · intro h
    by_cases hb : rules.any (·.applies name args) = true
    · simpa using hb
    · simp [hb] at h
  · intro h
    have : rules.any (·.applies name args) = true := by simpa using h
    simp [this]

theorem decision_trap (rules : List Rule) (name : String) (args : Args) :
    decision rules name args = .trap ↔ decision rules name args ≠ .allow := by
  cases decision rules name args <;> simp

/-- What a filter built by the broker allows. -/
theorem built_allow {lib : Lib} {pid : BitVec 64} {rules : List Rule}
    (h : buildRules lib pid = .ok rules) (name : String) (args : Args) :
    decision rules name args = .allow ↔ lib.fromName name = true ∧
      (name ∈ allowedByDefault ∨
       ((name = "mmap" ∨ name = "mmap2" ∨ name = "mprotect") ∧ args 2 &&& deniedProtection = 0#64) ∨
       ((name = "kill" ∨ name = "tgkill") ∧ args 0 = pid) ∨
       (name = "ioctl" ∧ args 1 = 21505#64)) := by
  rw [decision_allow, buildRules_ok h]
  have hall : ∀ v : BitVec 64, v &&& allBits = v := fun v => by
    rw [show allBits = BitVec.allOnes 64 by decide, BitVec.and_allOnes]
  constructor
  · rintro ⟨r, hr, ha⟩
    rw [List.mem_filter] at hr
    obtain ⟨hm, hn⟩ := hr
    simp only [Rule.applies, Bool.and_eq_true, beq_iff_eq] at ha
    obtain ⟨rfl, hc⟩ := ha
    refine ⟨hn, ?_⟩
    rcases (mem_allRules pid r).1 hm with ⟨n, h1, rfl⟩ | ⟨n, h1, rfl⟩ | ⟨n, h1, rfl⟩ | rfl
    · exact .inl h1
    · refine .inr (.inl ⟨h1, ?_⟩)
      simpa [protectionRule, Cond.holds] using hc
    · refine .inr (.inr (.inl ⟨h1, ?_⟩))
      simpa [selfRule, Cond.holds, hall] using hc
    · refine .inr (.inr (.inr ⟨rfl, ?_⟩))
      simpa [ioctlRule, Cond.holds, hall] using hc
  · rintro ⟨hn, h1 | ⟨h1, h2⟩ | ⟨h1, h2⟩ | ⟨rfl, h2⟩⟩
    · exact ⟨⟨name, []⟩, List.mem_filter.2 ⟨(mem_allRules _ _).2 (.inl ⟨_, h1, rfl⟩), hn⟩,
        by simp [Rule.applies]⟩
    · exact ⟨protectionRule name,
        List.mem_filter.2 ⟨(mem_allRules _ _).2 (.inr (.inl ⟨_, h1, rfl⟩)), hn⟩,
        by simp [Rule.applies, protectionRule, Cond.holds, h2]⟩
    · exact ⟨selfRule pid name,
        List.mem_filter.2 ⟨(mem_allRules _ _).2 (.inr (.inr (.inl ⟨_, h1, rfl⟩))), hn⟩,
        by simp [Rule.applies, selfRule, Cond.holds, hall, h2]⟩
    · exact ⟨ioctlRule, List.mem_filter.2 ⟨(mem_allRules _ _).2 (.inr (.inr (.inr rfl))), hn⟩,
        by simp [Rule.applies, ioctlRule, Cond.holds, hall, h2]⟩

theorem protection_iff (v : BitVec 64) : v &&& deniedProtection = 0#64 ↔ PlainProtection v := by
  have hd : ∀ i, i < 64 → (deniedProtection.getLsbD i = false ↔
      i = 0 ∨ i = 1 ∨ i = 3 ∨ i = 4 ∨ i = 24 ∨ i = 25) := by decide
  constructor
  · intro h i hi hv
    have h1 := congrArg (BitVec.getLsbD · i) h
    simp only [BitVec.getLsbD_and, hv, Bool.true_and, BitVec.getLsbD_zero] at h1
    exact (hd i hi).1 h1
  · intro h
    apply BitVec.eq_of_getLsbD_eq
    intro i hi
    simp only [BitVec.getLsbD_and, BitVec.getLsbD_zero]
    cases hv : v.getLsbD i with
    | false => rfl
    | true => simpa using (hd i hi).2 (h i hi hv)

theorem exec_protection_denied (v : BitVec 64) (h : v.getLsbD 2 = true) : ¬ PlainProtection v := by
  intro hp
  have := hp 2 (by omega) h
  omega

/-! ## BPF -/

theorem halves_eq (a b : BitVec 64) : a = b ↔ Bpf.lo a = Bpf.lo b ∧ Bpf.hi a = Bpf.hi b := by
  constructor
  · rintro rfl; exact ⟨rfl, rfl⟩
  · rintro ⟨h1, h2⟩
    apply BitVec.eq_of_getLsbD_eq
    intro i hi
    by_cases h : i < 32
    · have := congrArg (BitVec.getLsbD · i) h1
      simpa [Bpf.lo, h] using this
    · have := congrArg (BitVec.getLsbD · (i - 32)) h2
      have h3 : i - 32 < 32 := by omega
      have h4 : 32 + (i - 32) = i := by omega
      simpa [Bpf.hi, h3, h4] using this

/-- A program that starts with a load does not depend on the accumulator it starts with. -/
theorem runFrom_load (p : List Bpf.Insn) (d : Bpf.Data) (a : BitVec 32) (h : BeginsWithLoad p) :
    Bpf.runFrom d p 0 { Bpf.St.init with a := a } = Bpf.run p d := by
  obtain ⟨i, rest, rfl, hc⟩ := h
  rw [Bpf.run, Bpf.runFrom, Bpf.runFrom]
  have : ∀ s, Bpf.exec d i s = Bpf.setA s (d.word i.k.toNat) := by
    intro s
    have : i.code.toNat = 0x20 := by rw [hc]; rfl
    rw [Bpf.exec, this]
    rfl
  rw [this, this]
  cases d.word i.k.toNat <;> rfl

theorem exec_LD (d : Bpf.Data) (k : BitVec 32) (s : Bpf.St) :
    Bpf.exec d { code := LD_W_ABS, jf := 0, jt := 0, k := k } s = Bpf.setA s (d.word k.toNat) := rfl

theorem exec_JEQ (d : Bpf.Data) (jf k) (s : Bpf.St) :
    Bpf.exec d { code := JMP_JEQ_K, jf := jf, jt := 0, k := k } s =
      .go (if s.a = k then 0 else jf.toNat) s := by
  show Bpf.branch _ _ _ = _
  simp [Bpf.branch]

theorem exec_RET (d : Bpf.Data) (k : BitVec 32) (s : Bpf.St) :
    Bpf.exec d { code := RET_K, jf := 0, jt := 0, k := k } s = .ret k := rfl

theorem run_prelude (site : BitVec 64) (p : List Bpf.Insn) (d : Bpf.Data) :
    Bpf.run (prelude site ++ p) d =
      if d.ip = site then some Bpf.RET_ALLOW
      else Bpf.runFrom d p 0 { Bpf.St.init with
        a := if Bpf.lo d.ip = Bpf.lo site then Bpf.hi d.ip else Bpf.lo d.ip } := by
  have h8 : d.word (BitVec.toNat ipOffset) = some (Bpf.lo d.ip) := rfl
  have h12 : d.word (BitVec.toNat (ipOffset + 4#32)) = some (Bpf.hi d.ip) := rfl
  rw [Bpf.run, prelude]
  simp only [List.cons_append, List.nil_append]
  rw [Bpf.runFrom, exec_LD, h8]
  simp only [Bpf.setA]
  rw [Bpf.runFrom, exec_JEQ]
  by_cases h1 : Bpf.lo d.ip = Bpf.lo site
  · simp only [h1, if_true]
    rw [Bpf.runFrom, exec_LD, h12]
    simp only [Bpf.setA]
    rw [Bpf.runFrom, exec_JEQ]
    by_cases h2 : Bpf.hi d.ip = Bpf.hi site
    · simp only [h2, if_true]
      rw [Bpf.runFrom, exec_RET, if_pos ((halves_eq _ _).2 ⟨h1, h2⟩)]
    · have hne : d.ip ≠ site := fun h => h2 (by rw [h])
      simp only [h2, if_false, if_neg hne]
      rfl
  · have hne : d.ip ≠ site := fun h => h1 (by rw [h])
    simp only [h1, if_false, if_neg hne]
    rfl

/-! ## Bytes -/

theorem Insn.bytes_length (i : Bpf.Insn) : i.bytes.length = 8 := rfl

theorem encode_length (p : List Bpf.Insn) : (Bpf.encode p).length = 8 * p.length := by
  induction p with
  | nil => rfl
  | cons i p ih =>
    rw [Bpf.encode, List.flatMap_cons, List.length_append, Insn.bytes_length, ← Bpf.encode, ih,
      List.length_cons]
    omega

theorem encode_append (p q : List Bpf.Insn) : Bpf.encode (p ++ q) = Bpf.encode p ++ Bpf.encode q := by
  simp [Bpf.encode]

theorem join16 (v : BitVec 16) : v.extractLsb' 8 8 ++ v.extractLsb' 0 8 = v := by
  apply BitVec.eq_of_getLsbD_eq
  intro i hi
  simp only [BitVec.getLsbD_append, BitVec.getLsbD_extractLsb']
  by_cases h : i < 8
  · simp [h]
  · have h1 : i - 8 < 8 := by omega
    have h2 : 8 + (i - 8) = i := by omega
    simp [h, h1, h2]

theorem join32 (v : BitVec 32) :
    v.extractLsb' 24 8 ++ v.extractLsb' 16 8 ++ v.extractLsb' 8 8 ++ v.extractLsb' 0 8 = v := by
  apply BitVec.eq_of_getLsbD_eq
  intro i hi
  simp only [BitVec.getLsbD_append, BitVec.getLsbD_extractLsb']
  by_cases h : i < 8
  · simp [h]
  · by_cases h1 : i - 8 < 8
    · have h2 : 8 + (i - 8) = i := by omega
      simp [h, h1, h2]
    · by_cases h3 : i - 8 - 8 < 8
      · have h2 : 16 + (i - 8 - 8) = i := by omega
        simp [h, h1, h3, h2]
      · have h4 : i - 8 - 8 - 8 < 8 := by omega
        have h2 : 24 + (i - 8 - 8 - 8) = i := by omega
        simp [h, h1, h3, h4, h2]

theorem decode_encode (p : List Bpf.Insn) (rest : Bytes) :
    Bpf.decode p.length (Bpf.encode p ++ rest) = some p := by
  induction p with
  | nil => rfl
  | cons i p ih =>
    have : Bpf.encode (i :: p) ++ rest = i.bytes ++ (Bpf.encode p ++ rest) := by simp [Bpf.encode]
    rw [this]
    show (Bpf.decode p.length (Bpf.encode p ++ rest)).map _ = _
    rw [ih]
    simp only [Option.map_some, join16, join32]

/-! ## The patch loop -/

theorem first_eq : firstHalf placeholder = [0xDE, 0xC0, 0xDE, 0xC0] := by decide
theorem second_eq : secondHalf placeholder = [0xFE, 0xCA, 0xFE, 0xCA] := by decide

theorem patchLoop_short (site : BitVec 64) (n : Nat) (l : Bytes) (h : l.length ≤ 4) :
    patchLoop site n l = l := by
  cases n with
  | zero => rfl
  | succ n => rw [patchLoop, if_neg (by omega)]

theorem patchLoop_skip (site : BitVec 64) (n : Nat) (b : UInt8) (l : Bytes)
    (h1 : (b :: l).take 4 ≠ [0xDE, 0xC0, 0xDE, 0xC0])
    (h2 : (b :: l).take 4 ≠ [0xFE, 0xCA, 0xFE, 0xCA]) :
    patchLoop site (n + 1) (b :: l) = b :: patchLoop site n l := by
  by_cases hl : 4 < (b :: l).length
  · rw [patchLoop, if_pos hl, first_eq, second_eq]
    have e1 : replaceFront [0xDE, 0xC0, 0xDE, 0xC0] (firstHalf site) (b :: l) = b :: l := by
      rw [replaceFront, if_neg h1]
    have e2 : replaceFront [0xFE, 0xCA, 0xFE, 0xCA] (secondHalf site) (b :: l) = b :: l := by
      rw [replaceFront, if_neg h2]
    rw [e1, e2]
  · rw [patchLoop_short _ _ _ (by omega), patchLoop_short _ _ _ (by simp at hl ⊢; omega)]

theorem patchLoop_none (site : BitVec 64) (n : Nat) (l : Bytes) (h : NoPlaceholder l) :
    patchLoop site n l = l := by
  induction n generalizing l with
  | zero => rfl
  | succ n ih =>
    cases l with
    | nil => rfl
    | cons b l =>
      rw [patchLoop_skip, ih]
      · exact ⟨fun hi => h.1 (hi.trans (List.suffix_cons b l).isInfix),
          fun hi => h.2 (hi.trans (List.suffix_cons b l).isInfix)⟩
      · intro he
        exact h.1 (he ▸ (List.take_prefix 4 (b :: l)).isInfix)
      · intro he
        exact h.2 (he ▸ (List.take_prefix 4 (b :: l)).isInfix)

/-- The first half of the placeholder, if the address's low half is not the second half. -/
theorem patchLoop_first (site : BitVec 64) (n : Nat) (a b c d x : UInt8) (l : Bytes)
    (hs : firstHalf site = [a, b, c, d]) (h : firstHalf site ≠ secondHalf placeholder) :
    patchLoop site (n + 1) (0xDE :: 0xC0 :: 0xDE :: 0xC0 :: x :: l) =
      a :: patchLoop site n (b :: c :: d :: x :: l) := by
  rw [patchLoop, if_pos (by simp), first_eq]
  have e1 : replaceFront [0xDE, 0xC0, 0xDE, 0xC0] (firstHalf site)
      (0xDE :: 0xC0 :: 0xDE :: 0xC0 :: x :: l) = a :: b :: c :: d :: x :: l := by
    rw [replaceFront, if_pos (by rfl), hs]; rfl
  have e2 : replaceFront (secondHalf placeholder) (secondHalf site) (a :: b :: c :: d :: x :: l) =
      a :: b :: c :: d :: x :: l := by
    rw [replaceFront, if_neg]
    rw [hs] at h
    exact h
  rw [e1, e2]

/-- The second half. -/
theorem patchLoop_second (site : BitVec 64) (n : Nat) (a b c d x : UInt8) (l : Bytes)
    (hs : secondHalf site = [a, b, c, d]) :
    patchLoop site (n + 1) (0xFE :: 0xCA :: 0xFE :: 0xCA :: x :: l) =
      a :: patchLoop site n (b :: c :: d :: x :: l) := by
  rw [patchLoop, if_pos (by simp), first_eq, second_eq]
  have e1 : replaceFront [0xDE, 0xC0, 0xDE, 0xC0] (firstHalf site)
      (0xFE :: 0xCA :: 0xFE :: 0xCA :: x :: l) = 0xFE :: 0xCA :: 0xFE :: 0xCA :: x :: l := by
    rw [replaceFront, if_neg (by simp)]
  have e2 : replaceFront [0xFE, 0xCA, 0xFE, 0xCA] (secondHalf site)
      (0xFE :: 0xCA :: 0xFE :: 0xCA :: x :: l) = a :: b :: c :: d :: x :: l := by
    rw [replaceFront, if_pos (by rfl), hs]; rfl
  rw [e1, e2]

/-- The bytes of the prelude. -/
theorem prelude_bytes (site : BitVec 64) (f : Bytes) :
    ∃ a b c d e g h i, firstHalf site = [a, b, c, d] ∧ secondHalf site = [e, g, h, i] ∧
    Bpf.encode (prelude site) ++ f =
      0x20 :: 0 :: 0 :: 0 :: 8 :: 0 :: 0 :: 0 ::
      0x15 :: 0 :: 0 :: 3 :: a :: b :: c :: d ::
      0x20 :: 0 :: 0 :: 0 :: 12 :: 0 :: 0 :: 0 ::
      0x15 :: 0 :: 0 :: 1 :: e :: g :: h :: i ::
      0x06 :: 0 :: 0 :: 0 :: 0 :: 0 :: 0xFF :: 0x7F :: f :=
  ⟨_, _, _, _, _, _, _, _, rfl, rfl, by simp [Bpf.encode, prelude, Bpf.Insn.bytes]; rfl⟩

theorem placeholder_bytes (f : Bytes) :
    Bpf.encode (prelude placeholder) ++ f =
      0x20 :: 0 :: 0 :: 0 :: 8 :: 0 :: 0 :: 0 ::
      0x15 :: 0 :: 0 :: 3 :: 0xDE :: 0xC0 :: 0xDE :: 0xC0 ::
      0x20 :: 0 :: 0 :: 0 :: 12 :: 0 :: 0 :: 0 ::
      0x15 :: 0 :: 0 :: 1 :: 0xFE :: 0xCA :: 0xFE :: 0xCA ::
      0x06 :: 0 :: 0 :: 0 :: 0 :: 0 :: 0xFF :: 0x7F :: f := rfl

theorem patch_prelude (site : BitVec 64) (f : Bytes)
    (h : firstHalf site ≠ secondHalf placeholder) (n : Nat) :
    patchLoop site (40 + n) (Bpf.encode (prelude placeholder) ++ f) =
      Bpf.encode (prelude site) ++ patchLoop site n f := by
  obtain ⟨a, b, c, d, e, g, k, i, h1, h2, h3⟩ := prelude_bytes site (patchLoop site n f)
  rw [h3, placeholder_bytes, show 40 + n = n + 40 by omega]
  iterate 12 rw [patchLoop_skip _ _ _ _ (by simp) (by simp)]
  rw [patchLoop_first _ _ a b c d _ _ h1 h]
  iterate 15 rw [patchLoop_skip _ _ _ _ (by simp) (by simp)]
  rw [patchLoop_second _ _ e g k i _ _ h2]
  iterate 11 rw [patchLoop_skip _ _ _ _ (by simp) (by simp)]

end Iris.Seccomp
