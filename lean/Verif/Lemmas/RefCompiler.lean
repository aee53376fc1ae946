import Verif.Lemmas.Seccomp
/-!
# A rule compiler that keeps libseccomp's promise

Not a model of anything in /repo: it shows that the hypothesis `Faithful` can be met, and
serves in the examples.
-/
namespace Iris.Seccomp.Ref
open Spec

/-- A state with this accumulator. -/
def st (a : BitVec 32) : Bpf.St := ⟨a, 0#32, fun _ => 0#32⟩

def ld (k : BitVec 32) : Bpf.Insn := { code := LD_W_ABS, jf := 0, jt := 0, k := k }
def jeq (k : BitVec 32) (jf : BitVec 8) : Bpf.Insn := { code := JMP_JEQ_K, jf := jf, jt := 0, k := k }
def and (k : BitVec 32) : Bpf.Insn := { code := 0x54#16, jf := 0, jt := 0, k := k }
def ret (k : BitVec 32) : Bpf.Insn := { code := RET_K, jf := 0, jt := 0, k := k }

/-- One rule on one architecture. -/
def block (arch nr : BitVec 32) : Option Cond → List Bpf.Insn
  | none => [ld 4#32, jeq arch 3, ld 0#32, jeq nr 1, ret Bpf.RET_ALLOW]
  | some c =>
    [ld 4#32, jeq arch 9, ld 0#32, jeq nr 7,
     ld (BitVec.ofNat 32 (16 + 8 * c.arg.val)), and (Bpf.lo c.mask), jeq (Bpf.lo c.value) 4,
     ld (BitVec.ofNat 32 (20 + 8 * c.arg.val)), and (Bpf.hi c.mask), jeq (Bpf.hi c.value) 1,
     ret Bpf.RET_ALLOW]

def condHolds (d : Bpf.Data) : Option Cond → Bool
  | none => true
  | some c => c.holds d.args

theorem run_ld (d : Bpf.Data) (k v a : BitVec 32) (p : List Bpf.Insn) (h : d.word k.toNat = some v) :
    Bpf.runFrom d (ld k :: p) 0 (st a) =
      Bpf.runFrom d p 0 (st v) := by
  rw [Bpf.runFrom, ld, exec_LD, h]; rfl

theorem run_jeq (d : Bpf.Data) (k a : BitVec 32) (jf : BitVec 8) (p : List Bpf.Insn) :
    Bpf.runFrom d (jeq k jf :: p) 0 (st a) =
      Bpf.runFrom d p (if a = k then 0 else jf.toNat) (st a) := by
  rw [Bpf.runFrom, jeq, exec_JEQ]; rfl

theorem run_and (d : Bpf.Data) (k a : BitVec 32) (p : List Bpf.Insn) :
    Bpf.runFrom d (and k :: p) 0 (st a) =
      Bpf.runFrom d p 0 (st (a &&& k)) := rfl

theorem run_ret (d : Bpf.Data) (k : BitVec 32) (s : Bpf.St) (p : List Bpf.Insn) :
    Bpf.runFrom d (ret k :: p) 0 s = some k := rfl

theorem run_skip (d : Bpf.Data) (i : Bpf.Insn) (n : Nat) (s : Bpf.St) (p : List Bpf.Insn) :
    Bpf.runFrom d (i :: p) (n + 1) s = Bpf.runFrom d p n s := rfl

theorem word_lo (d : Bpf.Data) (i : Fin 6) :
    d.word (BitVec.ofNat 32 (16 + 8 * i.val)).toNat = some (Bpf.lo (d.args i)) := by
  match i with
  | 0 => rfl | 1 => rfl | 2 => rfl | 3 => rfl | 4 => rfl | 5 => rfl

theorem word_hi (d : Bpf.Data) (i : Fin 6) :
    d.word (BitVec.ofNat 32 (20 + 8 * i.val)).toNat = some (Bpf.hi (d.args i)) := by
  match i with
  | 0 => rfl | 1 => rfl | 2 => rfl | 3 => rfl | 4 => rfl | 5 => rfl

theorem run_block (d : Bpf.Data) (arch nr a : BitVec 32) (c : Option Cond) (p : List Bpf.Insn)
    (hp : BeginsWithLoad p) :
    Bpf.runFrom d (block arch nr c ++ p) 0 (st a) =
      if d.arch = arch ∧ d.nr = nr ∧ condHolds d c = true then some Bpf.RET_ALLOW
      else Bpf.run p d := by
  have h4 : d.word (BitVec.toNat 4#32) = some d.arch := rfl
  have h0 : d.word (BitVec.toNat 0#32) = some d.nr := rfl
  cases c with
  | none =>
    simp only [block, List.cons_append, List.nil_append]
    rw [run_ld _ _ _ _ _ h4, run_jeq]
    by_cases h1 : d.arch = arch
    · rw [if_pos h1, run_ld _ _ _ _ _ h0, run_jeq]
      by_cases h2 : d.nr = nr
      · rw [if_pos h2, run_ret, if_pos ⟨h1, h2, rfl⟩]
      · rw [if_neg h2, if_neg (fun h => h2 h.2.1)]
        exact runFrom_load _ _ _ hp
    · rw [if_neg h1, if_neg (fun h => h1 h.1)]
      exact runFrom_load _ _ _ hp
  | some c =>
    simp only [block, List.cons_append, List.nil_append]
    rw [run_ld _ _ _ _ _ h4, run_jeq]
    by_cases h1 : d.arch = arch
    · rw [if_pos h1, run_ld _ _ _ _ _ h0, run_jeq]
      by_cases h2 : d.nr = nr
      · rw [if_pos h2, run_ld _ _ _ _ _ (word_lo d c.arg), run_and, run_jeq]
        by_cases h3 : Bpf.lo (d.args c.arg) &&& Bpf.lo c.mask = Bpf.lo c.value
        · rw [if_pos h3, run_ld _ _ _ _ _ (word_hi d c.arg), run_and, run_jeq]
          by_cases h5 : Bpf.hi (d.args c.arg) &&& Bpf.hi c.mask = Bpf.hi c.value
          · rw [if_pos h5, run_ret, if_pos]
            refine ⟨h1, h2, ?_⟩
            rw [condHolds, Cond.holds, beq_iff_eq, halves_eq]
            exact ⟨by rw [← h3]; simp [Bpf.lo, BitVec.extractLsb'_and],
              by rw [← h5]; simp [Bpf.hi, BitVec.extractLsb'_and]⟩
          · rw [if_neg h5, if_neg]
            · exact runFrom_load _ _ _ hp
            · rintro ⟨_, _, h6⟩
              rw [condHolds, Cond.holds, beq_iff_eq, halves_eq] at h6
              apply h5
              rw [← h6.2]
              simp [Bpf.hi, BitVec.extractLsb'_and]
        · rw [if_neg h3, if_neg]
          · exact runFrom_load _ _ _ hp
          · rintro ⟨_, _, h6⟩
            rw [condHolds, Cond.holds, beq_iff_eq, halves_eq] at h6
            apply h3
            rw [← h6.1]
            simp [Bpf.lo, BitVec.extractLsb'_and]
      · rw [if_neg h2, if_neg (fun h => h2 h.2.1)]
        exact runFrom_load _ _ _ hp
    · rw [if_neg h1, if_neg (fun h => h1 h.1)]
      exact runFrom_load _ _ _ hp

/-- Numbers of system calls. -/
abbrev Numbers := Arch → String → Option (BitVec 32)

/-- Within one value of the `arch` word, a number is that of one system call. -/
def Unambiguous (numbers : Numbers) : Prop :=
  ∀ a a' n n' k, auditArch a = auditArch a' → numbers a n = some k → numbers a' n' = some k → n = n'

/-- One rule, on the architectures that have the system call. -/
def compileRule (numbers : Numbers) (name : String) (c : Option Cond) : List Arch → List Bpf.Insn
  | [] => []
  | a :: as =>
    (match numbers a name with
      | none => []
      | some n => block (auditArch a) n c) ++ compileRule numbers name c as

def archs : List Arch := [.x86, .x86_64, .x32]

/-- Rules with at most one condition. -/
def compile (numbers : Numbers) : List Rule → Option (List Bpf.Insn)
  | [] => some [ld 0, ret Bpf.RET_TRAP]
  | r :: rs =>
    match r.conds with
    | [] => (compile numbers rs).map (compileRule numbers r.name none archs ++ ·)
    | [c] => (compile numbers rs).map (compileRule numbers r.name (some c) archs ++ ·)
    | _ => none

theorem block_begins (arch nr : BitVec 32) (c : Option Cond) (p : List Bpf.Insn) :
    BeginsWithLoad (block arch nr c ++ p) := by
  cases c <;> exact ⟨_, _, rfl, rfl⟩

theorem run_rule (numbers : Numbers) (name : String) (c : Option Cond) (d : Bpf.Data)
    (p : List Bpf.Insn) (hp : BeginsWithLoad p) (as : List Arch) :
    BeginsWithLoad (compileRule numbers name c as ++ p) ∧
    Bpf.run (compileRule numbers name c as ++ p) d =
      if (∃ a ∈ as, d.arch = auditArch a ∧ numbers a name = some d.nr) ∧ condHolds d c = true
      then some Bpf.RET_ALLOW else Bpf.run p d := by
  induction as with
  | nil => exact ⟨hp, by simp [compileRule]⟩
  | cons a as ih =>
    rw [compileRule]
    cases hn : numbers a name with
    | none =>
      simp only [List.nil_append]
      refine ⟨ih.1, ?_⟩
      rw [ih.2]
      simp [hn]
    | some n =>
      simp only [List.append_assoc]
      refine ⟨block_begins _ _ _ _, ?_⟩
      have := run_block d (auditArch a) n 0#32 c _ ih.1
      rw [show st 0#32 = Bpf.St.init from rfl] at this
      rw [Bpf.run, this, ih.2]
      by_cases h1 : d.arch = auditArch a ∧ d.nr = n ∧ condHolds d c = true
      · rw [if_pos h1, if_pos]
        exact ⟨⟨a, by simp, h1.1, by rw [hn, h1.2.1]⟩, h1.2.2⟩
      · rw [if_neg h1]
        by_cases h2 : (∃ a ∈ as, d.arch = auditArch a ∧ numbers a name = some d.nr) ∧ condHolds d c = true
        · rw [if_pos h2, if_pos]
          obtain ⟨⟨a', h3, h4⟩, h5⟩ := h2
          exact ⟨⟨a', by simp [h3], h4⟩, h5⟩
        · rw [if_neg h2, if_neg]
          rintro ⟨⟨a', h3, h4, h5⟩, h6⟩
          rcases List.mem_cons.1 h3 with rfl | h3
          · rw [hn] at h5
            exact h1 ⟨h4, (Option.some.inj h5).symm, h6⟩
          · exact h2 ⟨⟨a', h3, h4, h5⟩, h6⟩

theorem mem_archs (a : Arch) : a ∈ archs := by cases a <;> decide

/-- The call's name decides which rules apply. -/
theorem names_iff {numbers : Numbers} (hu : Unambiguous numbers) {d : Bpf.Data} {arch : Arch}
    {name : String} {args : Args} (hc : IsCall numbers d arch name args) (n : String) :
    (∃ a ∈ archs, d.arch = auditArch a ∧ numbers a n = some d.nr) ↔ n = name := by
  constructor
  · rintro ⟨a, _, h1, h2⟩
    exact hu a arch n name d.nr (by rw [← h1, hc.1]) h2 hc.2.1
  · rintro rfl
    exact ⟨arch, mem_archs _, hc.1, hc.2.1⟩

theorem compile_faithful (numbers : Numbers) (hu : Unambiguous numbers) (rules : List Rule)
    (p : List Bpf.Insn) (h : compile numbers rules = some p) :
    BeginsWithLoad p ∧ ∀ d arch name args, IsCall numbers d arch name args →
      Bpf.run p d = some (code (decision rules name args)) := by
  induction rules generalizing p with
  | nil =>
    simp only [compile, Option.some.injEq] at h
    subst h
    exact ⟨⟨_, _, rfl, rfl⟩, fun d _ _ _ _ => rfl⟩
  | cons r rs ih =>
    have key : ∀ c : Option Cond, (∀ d : Bpf.Data, condHolds d c = r.conds.all (·.holds d.args)) →
        ∀ q, compile numbers rs = some q → p = compileRule numbers r.name c archs ++ q →
        BeginsWithLoad p ∧ ∀ d arch name args, IsCall numbers d arch name args →
          Bpf.run p d = some (code (decision (r :: rs) name args)) := by
      intro c hcond q hq hpq
      obtain ⟨hb, hr⟩ := ih q hq
      refine ⟨by rw [hpq]; exact (run_rule numbers r.name c ⟨0, 0, 0, fun _ => 0⟩ q hb archs).1, ?_⟩
      intro d arch name args hc
      rw [hpq, (run_rule numbers r.name c d q hb archs).2, hr d arch name args hc]
      have hargs : d.args = args := hc.2.2
      by_cases h1 : r.name = name ∧ condHolds d c = true
      · rw [if_pos ⟨(names_iff hu hc _).2 h1.1, h1.2⟩]
        have : decision (r :: rs) name args = .allow := by
          rw [decision_allow]
          refine ⟨r, by simp, ?_⟩
          rw [hcond, hargs] at h1
          simp only [Rule.applies, h1.1, h1.2, beq_self_eq_true, Bool.and_self]
        rw [this]; rfl
      · rw [if_neg (fun h2 => h1 ⟨(names_iff hu hc _).1 h2.1, h2.2⟩)]
        have : decision (r :: rs) name args = decision rs name args := by
          have : r.applies name args = false := by
            rw [hcond, hargs] at h1
            rw [Bool.eq_false_iff]
            intro h2
            simp only [Rule.applies, Bool.and_eq_true, beq_iff_eq] at h2
            exact h1 h2
          simp only [decision, List.any_cons, this, Bool.false_or]
        rw [this]
    rw [compile] at h
    rcases hconds : r.conds with _ | ⟨c, _ | ⟨c', cs⟩⟩
    · rw [hconds] at h
      simp only [Option.map_eq_some_iff] at h
      obtain ⟨q, hq, rfl⟩ := h
      exact key none (by simp [condHolds, hconds]) q hq rfl
    · rw [hconds] at h
      simp only [Option.map_eq_some_iff] at h
      obtain ⟨q, hq, rfl⟩ := h
      exact key (some c) (by simp [condHolds, hconds]) q hq rfl
    · rw [hconds] at h
      cases h

/-- Some of the real numbers (the system calls of the examples). -/
def table : Arch → List (String × BitVec 32)
  | .x86 => [("exit", 1), ("read", 3), ("write", 4), ("open", 5), ("execve", 11), ("kill", 37),
      ("ioctl", 54), ("mmap", 90), ("mprotect", 125), ("mmap2", 192), ("tgkill", 270)]
  | .x86_64 => [("read", 0), ("write", 1), ("open", 2), ("mmap", 9), ("mprotect", 10),
      ("ioctl", 16), ("sendmsg", 46), ("socketpair", 53), ("execve", 59), ("exit", 60), ("kill", 62), ("fcntl", 72),
      ("tgkill", 234), ("newfstatat", 262)]
  | .x32 => [("read", 0x40000000), ("write", 0x40000001), ("open", 0x40000002),
      ("mmap", 0x40000009), ("mprotect", 0x4000000a), ("ioctl", 0x40000202),
      ("execve", 0x40000208), ("exit", 0x4000003c), ("kill", 0x4000003e), ("tgkill", 0x400000ea)]

def numbers : Numbers := fun a n => (table a).lookup n

theorem lookup_mem {l : List (String × BitVec 32)} {n : String} {k : BitVec 32}
    (h : l.lookup n = some k) : (n, k) ∈ l := by
  induction l with
  | nil => cases h
  | cons x l ih =>
    obtain ⟨m, v⟩ := x
    rw [List.lookup_cons] at h
    by_cases hm : n = m
    · subst hm
      simp at h
      subst h
      simp
    · have : (n == m) = false := by simpa using hm
      simp only [this] at h
      exact List.mem_cons_of_mem _ (ih h)

theorem numbers_unambiguous : Unambiguous numbers := by
  intro a a' n n' k h1 h2 h3
  have key : ∀ x ∈ table a, ∀ y ∈ table a', x.2 = y.2 → x.1 = y.1 := by
    cases a <;> cases a' <;> first | (exact absurd h1 (by decide)) | decide +kernel
  exact key _ (lookup_mem h2) _ (lookup_mem h3) rfl

/-- A library built on this compiler. -/
def lib : Lib := ⟨true, fun _ => true, fun n => archs.any fun a => (numbers a n).isSome,
  fun _ => true, true, compile numbers⟩

theorem lib_faithful : Faithful numbers lib :=
  fun rules p h =>
    let ⟨h1, h2⟩ := compile_faithful numbers numbers_unambiguous rules p h
    ⟨h1, fun d arch name args _ => h2 d arch name args⟩

end Iris.Seccomp.Ref
