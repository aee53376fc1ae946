import Verif.Props.Process
/-! # C41-C44, C72-C75: what a worker program starts with, and how failures are reported -/
namespace Iris
open Spec

/-! ## C41 -/

/-- C41, full statement. -/
def Spec.OutputIgnored : Prop :=
  ∀ (abi : Abi) (t : FdTable) (caps : Caps) (c : ProcessConfig) (p : Policy) (os : NewOs) (ch : Child)
    (img : Image), RealTable t → (workerNew abi t caps c p os).child = some ch → ch.ending = .started img →
    (c.stdout = none → writeTo img 1 = .discarded) ∧ (c.stderr = none → writeTo img 2 = .discarded)

theorem writeTo_null {img : Image} {fd f : Nat} (ho : ∀ x ∈ img.opened, x.2 = (c!"/dev/null", O_RDONLY))
    (hg : img.table.get fd = some ⟨f, 0#32⟩) (hm : (f, c!"/dev/null", O_RDONLY) ∈ img.opened) :
    writeTo img fd = .badFd := by
  unfold writeTo
  rw [hg]
  simp only
  cases hf : img.opened.find? fun x => x.1 == f with
  | none => exact absurd (List.find?_eq_none.1 hf _ hm) (by simp)
  | some x =>
    obtain ⟨g, path, flags⟩ := x
    have := ho _ (List.mem_of_find?_eq_some hf)
    simp only [Prod.mk.injEq] at this
    simp only [this.2]
    rfl

/-- C41 is false of every worker: writing to an output that is not redirected fails, as
the null device was opened for reading only. -/
theorem C41_writes_fail (abi : Abi) (t : FdTable) (caps : Caps) (c : ProcessConfig) (p : Policy) (os : NewOs)
    (ht : RealTable t) (ch : Child) (img : Image) (h : (workerNew abi t caps c p os).child = some ch)
    (hs : ch.ending = .started img) :
    (c.stdout = none → writeTo img 1 = .badFd) ∧ (c.stderr = none → writeTo img 2 = .badFd) := by
  obtain ⟨a, b, r, w, p', s, f0, f1, f2, hc, hr, rfl⟩ := workerNew_started h hs
  obtain ⟨_, g1, g2⟩ := started_std ht.nodup hc hr
  exact ⟨fun hn => writeTo_null hr.opened g1 (hr.null1 hn), fun hn => writeTo_null hr.opened g2 (hr.null2 hn)⟩

/-- A running program in the process `someConfig` describes, from the example in C40. -/
theorem C41_violated : ¬ Spec.OutputIgnored := by
  intro h
  have hr : (workerNew .lp64 brokerTable fullCaps someConfig tmpPolicy goodOs).child =
      some ⟨4321, true, .started {
        exe := utf8 c!"/bin/x"
        argv := [utf8 c!"x", utf8 c!"-v"]
        envp := [utf8 c!"A=1", utf8 c!"SANDBOX_IPC_HANDLE=6"]
        table := [(2, ⟨82, 0#32⟩), (1, ⟨13, 0#32⟩), (0, ⟨80, 0#32⟩), (6, ⟨51, 0#32⟩), (3, ⟨13, 0#32⟩)]
        caps := ⟨0#64, 0#64, 0#64, 0#64, 0#64⟩
        noNewPrivs := true
        isolation := ⟨true, true, true, true, false, true, true⟩
        opened := [(82, c!"/dev/null", O_RDONLY), (80, c!"/dev/null", O_RDONLY)] }⟩ := by
    decide +kernel
  have := (h _ _ _ _ _ _ _ _ brokerTable_real hr rfl).2 (by decide +kernel)
  revert this
  decide +kernel

/-- C41, what holds: what a worker writes to an output that is not redirected goes
nowhere. Missing: the write succeeds. -/
theorem C41_goes_nowhere_partial (abi : Abi) (t : FdTable) (caps : Caps) (c : ProcessConfig) (p : Policy)
    (os : NewOs) (ht : RealTable t) (ch : Child) (img : Image)
    (h : (workerNew abi t caps c p os).child = some ch) (hs : ch.ending = .started img) :
    (c.stdout = none → writeTo img 1 ≠ .elsewhere) ∧ (c.stderr = none → writeTo img 2 ≠ .elsewhere) := by
  obtain ⟨h1, h2⟩ := C41_writes_fail abi t caps c p os ht ch img h hs
  exact ⟨fun hn => by rw [h1 hn]; decide, fun hn => by rw [h2 hn]; decide⟩

/-! ## C42 -/

/-- C42. A started program runs with no_new_privs, with the three standard streams open,
and with no other descriptor of the broker than those declared and its channel. -/
theorem C42_hardened (abi : Abi) (t : FdTable) (caps : Caps) (c : ProcessConfig) (p : Policy) (os : NewOs)
    (ht : RealTable t) (ch : Child) (img : Image) (h : (workerNew abi t caps c p os).child = some ch)
    (hs : ch.ending = .started img) :
    img.noNewPrivs = true ∧ (∀ n, n ≤ 2 → ∃ e, img.table.get n = some e) ∧
    ∃ chan, t.get chan = none ∧ ∀ fd e, img.table.get fd = some e → fd ≤ 2 ∨ fd = chan ∨ Declared p c fd := by
  refine ⟨?_, ?_, ?_⟩
  · obtain ⟨a, b, r, w, p', s, f0, f1, f2, hc, hr, rfl⟩ := workerNew_started h hs
    exact hr.noNewPrivs
  · obtain ⟨a, b, r, w, p', s, f0, f1, f2, hc, hr, rfl⟩ := workerNew_started h hs
    obtain ⟨g0, g1, g2⟩ := started_std ht.nodup hc hr
    intro n hn
    rcases (by omega : n = 0 ∨ n = 1 ∨ n = 2) with rfl | rfl | rfl
    · exact ⟨_, g0⟩
    · exact ⟨_, g1⟩
    · exact ⟨_, g2⟩
  · obtain ⟨chan, h1, _, h2⟩ := C39_nothing_leaks abi t caps c p os ht ch img h hs
    exact ⟨chan, h1, h2⟩

/-- The system call that sets up a standard stream succeeds: opening the null device, or
duplicating the descriptor it is redirected to. -/
def Spec.streamStep (os : EntryOs) (num : Nat) : Option Nat → Prop
  | none => ∃ f, os.openNull num = .ok f
  | some _ => os.dup num = true

/-- The preparatory system calls of the entry point that must succeed. -/
structure Spec.StepsSucceed (os : EntryOs) (stdin stdout stderr : Option Nat) : Prop where
  noNewPrivs : os.noNewPrivs = true
  openFds : ∃ f, os.openFds = .ok f
  fdopendir : os.fdopendir = true
  readdir : os.readdirFails = none
  step0 : streamStep os 0 stdin
  step1 : streamStep os 1 stdout
  step2 : streamStep os 2 stderr

theorem closeFds_no_failure (os : EntryOs) (p : EntryParams) (f : Nat) (l : List DirEntry) :
    ∀ (n : Nat) (t : FdTable), closeFds os p f (some n) l t = none := by
  induction l with
  | nil => intro n t; rfl
  | cons x l ih =>
    intro n t
    simp only [closeFds, Option.map_some]
    split
    · rfl
    · split
      · exact ih _ _
      · split
        · rfl
        · split
          · exact ih _ _
          · split
            · rfl
            · exact ih _ _

theorem setupStd_succeeds {os : EntryOs} {num : Nat} {r : Option Nat} {s s' : EntryState}
    (h : setupStd os num r s = some s') :
    streamStep os num r := by
  unfold setupStd at h
  cases r with
  | none =>
    simp only [streamStep] at h ⊢
    cases ho : os.openNull num with
    | error e => simp [ho] at h
    | ok f => exact ⟨f, rfl⟩
  | some fd =>
    simp only [streamStep] at h ⊢
    cases hg : (s.table.erase num).get fd with
    | none => simp [hg] at h
    | some e =>
      simp only [hg] at h
      split at h
      · cases h
      · rename_i hd
        simpa using hd

/-- C42. If one of these calls fails nothing is executed. -/
theorem C42_steps_needed (os : EntryOs) (p : EntryParams) (t : FdTable) (caps : Caps)
    (h : cloneEntrypoint os p t caps ≠ .gaveUp) : StepsSucceed os p.stdin p.stdout p.stderr := by
  unfold cloneEntrypoint at h
  split at h
  · exact absurd rfl h
  · rename_i s hs
    rw [prepare_eq] at hs
    by_cases hn : os.noNewPrivs = false
    · rw [if_pos hn] at hs; cases hs
    · rw [if_neg hn] at hs
      simp only [Option.bind_some, Option.bind_eq_some_iff] at hs
      obtain ⟨t1, h1, s0, hs0, s1, hs1, hs2⟩ := hs
      unfold cleanupFds at h1
      refine ⟨by simpa using hn, ?_, ?_, ?_, setupStd_succeeds hs0, setupStd_succeeds hs1, setupStd_succeeds hs2⟩
      · cases ho : os.openFds with
        | error e => simp [ho] at h1
        | ok f => exact ⟨f, rfl⟩
      · cases ho : os.openFds with
        | error e => simp [ho] at h1
        | ok f =>
          simp only [ho] at h1
          split at h1
          · cases h1
          · rename_i hd
            simpa using hd
      · cases ho : os.openFds with
        | error e => simp [ho] at h1
        | ok f =>
          simp only [ho] at h1
          split at h1
          · cases h1
          · cases hf : os.readdirFails with
            | none => rfl
            | some n =>
              rw [hf] at h1
              simp only [closeFds_no_failure, Option.map_none] at h1
              cases h1

/-! ## C43 -/

/-- C43, full statement. -/
def Spec.NoCapabilityKept : Prop :=
  ∀ (abi : Abi) (t : FdTable) (caps : Caps) (c : ProcessConfig) (p : Policy) (os : NewOs) (ch : Child)
    (img : Image), RealTable t → (workerNew abi t caps c p os).child = some ch → ch.ending = .started img →
    NoCapability img.caps

/-- A system where `cap_set_proc` fails. -/
def capFailOs : NewOs :=
  { goodOs with proc := { goodOs.proc with entry := { goodEntry with caps := { goodEntry.caps with lower := false } } } }

/-- C43 is false: if capabilities cannot be dropped the program is executed with them. -/
theorem C43_violated : ¬ Spec.NoCapabilityKept := by
  intro h
  have hr : (workerNew .lp64 brokerTable fullCaps someConfig tmpPolicy capFailOs).child =
      some ⟨4321, true, .started {
        exe := utf8 c!"/bin/x"
        argv := [utf8 c!"x", utf8 c!"-v"]
        envp := [utf8 c!"A=1", utf8 c!"SANDBOX_IPC_HANDLE=6"]
        table := [(2, ⟨82, 0#32⟩), (1, ⟨13, 0#32⟩), (0, ⟨80, 0#32⟩), (6, ⟨51, 0#32⟩), (3, ⟨13, 0#32⟩)]
        caps := ⟨0x1ffffffffff#64, 0x1ffffffffff#64, 0#64, 0#64, 0#64⟩
        noNewPrivs := true
        isolation := ⟨true, true, true, true, false, true, true⟩
        opened := [(82, c!"/dev/null", O_RDONLY), (80, c!"/dev/null", O_RDONLY)] }⟩ := by
    decide +kernel
  have := (h _ _ _ _ _ _ _ _ brokerTable_real hr rfl).1
  revert this
  decide

theorem sysCapset_zero (c : Caps) :
    sysCapset c 0#64 0#64 0#64 = some { c with permitted := 0#64, effective := 0#64, inheritable := 0#64, ambient := 0#64 } := by
  simp [sysCapset]

/-- C43, what holds. Missing: failures of `cap_get_proc`, `cap_clear` and `cap_set_proc`,
which are ignored. Failures to drop the bounding set do not matter. -/
theorem C43_no_capability_partial (abi : Abi) (t : FdTable) (caps : Caps) (c : ProcessConfig) (p : Policy)
    (os : NewOs) (ch : Child) (img : Image) (h : (workerNew abi t caps c p os).child = some ch)
    (hs : ch.ending = .started img)
    (h1 : os.proc.entry.caps.getProc = true) (h2 : os.proc.entry.caps.clear = true)
    (h3 : os.proc.entry.caps.lower = true) : NoCapability img.caps := by
  obtain ⟨a, b, r, w, p', s, f0, f1, f2, hc, hr, rfl⟩ := workerNew_started h hs
  simp only [hr.caps, hr.noNewPrivs, dropCapabilities, h1, h2, h3, sysCapset_zero, Option.getD_some,
    Bool.true_eq_false, if_false, NoCapability, execCaps, if_true]
  simp

theorem sysCapset_permitted {c c' : Caps} {p e i : BitVec 64} (h : sysCapset c p e i = some c') :
    c'.permitted &&& ~~~c.permitted = 0#64 := by
  unfold sysCapset at h
  split at h
  · cases h; rename_i hh; exact hh.1
  · cases h

theorem and_not_self (x : BitVec 64) : x &&& ~~~x = 0#64 := by simp

theorem dropBounding_permitted (os : CapOs) : ∀ (n k : Nat) (c : Caps),
    (dropBounding os n k c).permitted = c.permitted
  | 0, _, _ => rfl
  | n + 1, k, c => by
    simp only [dropBounding]
    split
    · rfl
    · rw [dropBounding_permitted os n]

theorem dropBoundingSet_permitted (os : CapOs) (c : Caps) :
    (dropBoundingSet os c).permitted = c.permitted := by
  unfold dropBoundingSet
  split; rfl
  split; rfl
  split; rfl
  split; rfl
  split
  · rfl
  · rename_i c' h
    rw [dropBounding_permitted]
    unfold sysCapset at h
    split at h
    · cases h; rfl
    · cases h

/-- C43. Whatever fails, and whatever the program's file grants, the program has no
capability the broker did not have. -/
theorem C43_never_gains (abi : Abi) (t : FdTable) (caps : Caps) (c : ProcessConfig) (p : Policy)
    (os : NewOs) (ch : Child) (img : Image) (h : (workerNew abi t caps c p os).child = some ch)
    (hs : ch.ending = .started img) (i : Nat)
    (hb : img.caps.permitted.getLsbD i = true ∨ img.caps.effective.getLsbD i = true) :
    caps.permitted.getLsbD i = true := by
  obtain ⟨a, b, r, w, p', s, f0, f1, f2, hc, hr, rfl⟩ := workerNew_started h hs
  simp only [hr.caps, hr.noNewPrivs, execCaps, if_true, BitVec.getLsbD_and, Bool.and_eq_true] at hb
  have hp : (dropCapabilities os.proc.entry.caps caps).permitted.getLsbD i = true := by
    rcases hb with hb | hb
    · exact hb.2
    · exact hb.1.2
  unfold dropCapabilities at hp
  split at hp
  · exact hp
  · simp only at hp
    split at hp
    · rwa [dropBoundingSet_permitted] at hp
    · split at hp
      · rwa [dropBoundingSet_permitted] at hp
      · rw [sysCapset_zero] at hp
        simp at hp

theorem dropBounding_cleared (os : CapOs) : ∀ (n k : Nat) (c : Caps), c.effective &&& CAP_SETPCAP ≠ 0#64 →
    (∀ i, i < k + n → os.dropBound i = true) → k + n ≤ 64 → ∀ i,
    (dropBounding os n k c).bounding.getLsbD i = (c.bounding.getLsbD i && (decide (i < k) || decide (k + n ≤ i)))
  | 0, k, c, _, _, _, i => by
    simp only [dropBounding, Nat.add_zero]
    by_cases h : i < k <;> simp [h] <;> omega
  | n + 1, k, c, he, hd, hn, i => by
    rw [dropBounding, if_neg (by simp [he, hd k (by omega)]),
      dropBounding_cleared os n (k + 1) { c with bounding := c.bounding &&& ~~~(1#64 <<< k) } he
        (fun i hi => hd i (by omega)) (by omega)]
    by_cases h64 : i < 64
    · simp only [BitVec.getLsbD_and, BitVec.getLsbD_not, h64, BitVec.getLsbD_shiftLeft, BitVec.getLsbD_one]
      by_cases h1 : i < k
      · simp [h1, Nat.lt_succ_of_lt h1]
      · by_cases h2 : i = k
        · subst h2; simp
        · have h3 : ¬ i < k + 1 := by omega
          have h4 : k + 1 + n = k + (n + 1) := by omega
          have h5 : i - k ≠ 0 := by omega
          simp [h1, h3, h4, h5]
    · rw [BitVec.getLsbD_of_ge _ _ (by omega), BitVec.getLsbD_of_ge _ _ (by omega)]
      rfl

theorem sysCapset_bounding {c c' : Caps} {p e i : BitVec 64} (h : sysCapset c p e i = some c') :
    c'.bounding = c.bounding := by
  unfold sysCapset at h
  split at h
  · cases h; rfl
  · cases h

/-- C43. If no call fails, and the broker may use CAP_SETPCAP (bit 8), then the bounding set
of the program has none of the capabilities the kernel knows: no file the program executes
later gives it one of them. The rest of the bounding set stays. -/
theorem C43_bounding (abi : Abi) (t : FdTable) (caps : Caps) (c : ProcessConfig) (p : Policy)
    (os : NewOs) (ch : Child) (img : Image) (h : (workerNew abi t caps c p os).child = some ch)
    (hs : ch.ending = .started img)
    (h1 : os.proc.entry.caps.getProc = true) (h2 : os.proc.entry.caps.getFlag = true)
    (h3 : os.proc.entry.caps.setFlag = true) (h4 : os.proc.entry.caps.raise = true)
    (hk : os.proc.entry.caps.known ≤ 64)
    (hd : ∀ i, i < os.proc.entry.caps.known → os.proc.entry.caps.dropBound i = true)
    (hp : caps.permitted.getLsbD 8 = true) (he : caps.effective &&& ~~~caps.permitted = 0#64) (i : Nat) :
    img.caps.bounding.getLsbD i = (caps.bounding.getLsbD i && decide (os.proc.entry.caps.known ≤ i)) := by
  obtain ⟨a, b, r, w, p', s, f0, f1, f2, hc, hr, rfl⟩ := workerNew_started h hs
  have hp0 : caps.permitted &&& CAP_SETPCAP ≠ 0#64 := by
    intro h0
    have := congrArg (BitVec.getLsbD · 8) h0
    simp only [BitVec.getLsbD_and, hp, Bool.true_and] at this
    exact absurd this (by decide)
  have hset : sysCapset caps caps.permitted (caps.effective ||| CAP_SETPCAP) caps.inheritable =
      some { caps with effective := caps.effective ||| CAP_SETPCAP,
                       ambient := caps.ambient &&& caps.permitted &&& caps.inheritable } := by
    unfold sysCapset
    rw [if_pos]
    refine ⟨by simp, ?_, ?_⟩
    · ext j hj
      have hej := congrArg (BitVec.getLsbD · j) he
      simp only [BitVec.getLsbD_and, BitVec.getLsbD_not, hj, BitVec.getLsbD_zero, decide_true, Bool.true_and] at hej
      simp only [← BitVec.getLsbD_eq_getElem, BitVec.getLsbD_and, BitVec.getLsbD_or, BitVec.getLsbD_not, hj, CAP_SETPCAP,
        BitVec.getLsbD_shiftLeft, BitVec.getLsbD_one, decide_true, Bool.true_and, BitVec.getLsbD_zero]
      by_cases h8 : j = 8
      · subst h8; simp [hp]
      · have : ¬ (¬ j < 8 ∧ j - 8 = 0) := by omega
        by_cases hl : j < 8
        · simpa [hl] using hej
        · have h0 : j - 8 ≠ 0 := by omega
          simpa [hl, h0] using hej
    · ext j hj
      simp only [← BitVec.getLsbD_eq_getElem, BitVec.getLsbD_and, BitVec.getLsbD_or, BitVec.getLsbD_not, hj, decide_true,
        Bool.true_and, BitVec.getLsbD_zero]
      cases caps.inheritable.getLsbD j <;> simp
  have hb : (dropBoundingSet os.proc.entry.caps caps).bounding.getLsbD i =
      (caps.bounding.getLsbD i && decide (os.proc.entry.caps.known ≤ i)) := by
    unfold dropBoundingSet
    rw [if_neg (by simp [h2]), if_neg hp0, if_neg (by simp [h3]), if_neg (by simp [h4]), hset]
    simp only
    rw [dropBounding_cleared _ _ _ _ _ (by simpa using hd) (by omega)]
    · simp
    · intro h0
      have := congrArg (BitVec.getLsbD · 8) h0
      simp only [BitVec.getLsbD_and, BitVec.getLsbD_or, show CAP_SETPCAP.getLsbD 8 = true by decide, Bool.or_true,
        Bool.and_true] at this
      exact absurd this (by decide)
  have hx : (dropCapabilities os.proc.entry.caps caps).bounding = (dropBoundingSet os.proc.entry.caps caps).bounding := by
    unfold dropCapabilities
    rw [if_neg (by simp [h1])]
    simp only
    split
    · rfl
    · split
      · rfl
      · rw [sysCapset_zero]; rfl
  simp only [hr.caps, execCaps]
  rw [hx, hb]

/-- `C43_bounding` has its hypotheses met. -/
example : ∃ ch img, (workerNew .lp64 brokerTable fullCaps someConfig tmpPolicy goodOs).child = some ch ∧
    ch.ending = .started img ∧ ∀ i, i < 41 → fullCaps.bounding.getLsbD i = true ∧ img.caps.bounding.getLsbD i = false := by
  have hr : (workerNew .lp64 brokerTable fullCaps someConfig tmpPolicy goodOs).child =
      some ⟨4321, true, .started {
        exe := utf8 c!"/bin/x"
        argv := [utf8 c!"x", utf8 c!"-v"]
        envp := [utf8 c!"A=1", utf8 c!"SANDBOX_IPC_HANDLE=6"]
        table := [(2, ⟨82, 0#32⟩), (1, ⟨13, 0#32⟩), (0, ⟨80, 0#32⟩), (6, ⟨51, 0#32⟩), (3, ⟨13, 0#32⟩)]
        caps := ⟨0#64, 0#64, 0#64, 0#64, 0#64⟩
        noNewPrivs := true
        isolation := ⟨true, true, true, true, false, true, true⟩
        opened := [(82, c!"/dev/null", O_RDONLY), (80, c!"/dev/null", O_RDONLY)] }⟩ := by
    decide +kernel
  refine ⟨_, _, hr, rfl, fun i hi => ⟨?_, ?_⟩⟩
  · revert i; decide
  · rw [C43_bounding _ _ _ _ _ _ _ _ hr rfl rfl rfl rfl rfl (by decide) (fun _ _ => rfl) (by decide) (by decide)]
    have : ¬ goodOs.proc.entry.caps.known ≤ i := by simp only [goodOs, goodEntry]; omega
    simp [this]

/-! ## C44 -/

/-- The write end of the pipe is the fourth new descriptor. -/
theorem pipe_gt (t : FdTable) (a b r : Nat) : 2 < pipeFd (chanTable t a b) r := by
  obtain ⟨n1, n2, n3, n4, n5, n6, n7, n8, n9, n10⟩ := new_fds t a b r
  have h1 : t.lowestFree < pipeFd t a := by
    rcases Nat.lt_or_ge (pipeFd t a) t.lowestFree with h | h
    · exact absurd n2 (t.lowestFree_spec.2 _ h)
    · omega
  have h2 : pipeFd t a < (chanTable t a b).lowestFree := by
    rcases Nat.lt_or_ge (chanTable t a b).lowestFree (pipeFd t a) with h | h
    · have := (t.alloc ⟨a, 0#32⟩).2.lowestFree_spec.2 _ h
      rw [FdTable.get_alloc, if_neg n5] at this
      exact absurd n4 this
    · omega
  have h3 : (chanTable t a b).lowestFree < pipeFd (chanTable t a b) r := by
    rcases Nat.lt_or_ge (pipeFd (chanTable t a b) r) (chanTable t a b).lowestFree with h | h
    · have := (chanTable t a b).lowestFree_spec.2 _ h
      exact absurd (pipeFd_fresh (chanTable t a b) r).1 this
    · omega
  omega

/-- C44, full statement: a program that could not be executed is reported as such, with
its errno (a C `int`), and a program that was executed is not reported as not executed. -/
def Spec.FaithfulErrors : Prop :=
  ∀ (abi : Abi) (t : FdTable) (caps : Caps) (c : ProcessConfig) (p : Policy) (os : NewOs) (ch : Child),
    RealTable t → (∀ e, os.proc.entry.execve = some e → e < 2 ^ 31) →
    (workerNew abi t caps c p os).child = some ch → ∀ e,
    ((workerNew abi t caps c p os).result = .error (.internalOsOperationFailed c!"execve()" e) ↔
      ∃ wrote, ch.ending = .execFailed e wrote)

/-- C44. The four bytes crossing the pipe decode to the number encoded. -/
theorem C44_bytes (e : Nat) (h : e < 2 ^ 32) :
    (beBytes (BitVec.ofNat 32 e)).length = 4 ∧ ofBe (beBytes (BitVec.ofNat 32 e)) = e := by
  refine ⟨rfl, ?_⟩
  simp only [beBytes, ofBe, List.map_cons, List.map_nil, List.foldl_cons, List.foldl_nil,
    BitVec.extractLsb'_toNat, BitVec.toNat_ofNat, Nat.mod_eq_of_lt h, UInt8.toNat_ofNat', Nat.shiftRight_eq_div_pow]
  omega

theorem startIpcLoop_not_exec (abi : Abi) (p : Policy) (t : FdTable) (chan : Nat) (inc : Incoming)
    (os : OsChoice) (filter : Option Bytes) (ok : Bool) (e : Nat) :
    (startIpcLoop abi p t chan inc os filter ok).1 ≠ .error (.internalOsOperationFailed c!"execve()" e) := by
  unfold startIpcLoop
  split
  · simp only
    split
    · simp
    · split
      · simp
      · simp only [ne_eq, Except.error.injEq, BrokerError.internalOsOperationFailed.injEq, not_and]
        intro hc
        exact absurd hc (by decide)
  · simp
  · simp
  · simp

/-- C44, what holds: `hread`, `read` on the pipe does not fail. -/
theorem C44_faithful_partial (abi : Abi) (t : FdTable) (caps : Caps) (c : ProcessConfig) (p : Policy)
    (os : NewOs) (ch : Child) (ht : RealTable t) (hread : os.proc.readError = none)
    (hint : ∀ e, os.proc.entry.execve = some e → e < 2 ^ 31)
    (h : (workerNew abi t caps c p os).child = some ch) (e : Nat) :
    (workerNew abi t caps c p os).result = .error (.internalOsOperationFailed c!"execve()" e) ↔
      ∃ wrote, ch.ending = .execFailed e wrote := by
  obtain ⟨a, b, r, w, p', hc, hbad, hgood⟩ := workerNew_child h
  have hpipe := pipe_gt t a b r
  have hne : p'.inherit ≠ [] := List.ne_nil_of_mem ((hc.inherit (pipeFd t a)).2 (.inr (.inr rfl)))
  have hcw : (childTable (chanTable t a b) r w).WF := childTable_WF (chanTable_WF ht.nodup a b) r w
  have hnot : readErrno os.proc w ch.pid ch.ending = .ok ch.pid →
      (workerNew abi t caps c p os).result ≠ .error (.internalOsOperationFailed c!"execve()" e) := by
    intro hok
    rw [hgood hok]
    have := startIpcLoop_not_exec abi p'.runtime (t.alloc ⟨a, 0#32⟩).2 t.lowestFree os.first os.osFirst
      os.filter os.spawnOk e
    generalize startIpcLoop abi p'.runtime (t.alloc ⟨a, 0#32⟩).2 t.lowestFree os.first os.osFirst
      os.filter os.spawnOk = y at this
    match y, this with
    | (.error e', t', acts), this =>
      intro hx
      have hx' := Except.error.inj hx
      exact this (by rw [hx'])
    | (.ok s, t', acts), this => simp
  have hend := hc.ending
  rcases cloneEntrypoint_cases os.proc.entry
    (entryParams p' { c with envp := c.envp ++ [ipcHandleVar (pipeFd t a)] } os.proc
      (pipeFd (chanTable t a b) r)) (childTable (chanTable t a b) r w) caps with hg | ⟨s, f0, f1, f2, hr, hg⟩
  · rw [hg] at hend
    have hok : readErrno os.proc w ch.pid ch.ending = .ok ch.pid := by
      simp [readErrno, hread, hend, pipeContents]
    exact ⟨fun hx => absurd hx (hnot hok), fun ⟨_, hx⟩ => by rw [hend] at hx; cases hx⟩
  · rw [hg] at hend
    simp only [execOrReport] at hend
    cases hx : os.proc.entry.execve with
    | none =>
      simp only [hx] at hend
      have hok : readErrno os.proc w ch.pid ch.ending = .ok ch.pid := by
        simp [readErrno, hread, hend, pipeContents]
      exact ⟨fun hx => absurd hx (hnot hok), fun ⟨_, hx⟩ => by rw [hend] at hx; cases hx⟩
    | some e' =>
      simp only [hx] at hend
      have hget : s.table.get (pipeFd (chanTable t a b) r) = some ⟨w, FD_CLOEXEC⟩ := by
        rw [hr.get hcw, if_neg (by omega), if_neg (by omega), if_neg (by omega),
          if_pos ⟨hne, .inr (.inr rfl)⟩, child_get, if_pos rfl]
      have hp : (entryParams p' { c with envp := c.envp ++ [ipcHandleVar (pipeFd t a)] } os.proc
          (pipeFd (chanTable t a b) r)).errnoPipe = pipeFd (chanTable t a b) r := rfl
      rw [hp, hget, Option.map_some] at hend
      have hres : readErrno os.proc w ch.pid ch.ending
          = .error (.internalOsOperationFailed c!"execve()" (ofBe (beBytes (BitVec.ofNat 32 e')))) := by
        simp [readErrno, hread, hend, pipeContents, beBytes]
      rw [hbad _ hres, hend]
      rw [(C44_bytes e' (by have := hint e' hx; omega)).2]
      simp only [Except.error.injEq, BrokerError.internalOsOperationFailed.injEq, true_and, EntryEnd.execFailed.injEq]
      exact ⟨fun hh => ⟨_, hh, rfl⟩, fun ⟨_, hh, _⟩ => hh⟩

/-- C44. If the new process gives up, or for any other reason its end of the channel is
closed before it has sent anything, the creation fails. -/
theorem C44_no_message (abi : Abi) (t : FdTable) (caps : Caps) (c : ProcessConfig) (p : Policy)
    (os : NewOs) (hf : os.first = .eof) : ∃ e, (workerNew abi t caps c p os).result = .error e := by
  cases hc : (workerNew abi t caps c p os).child with
  | none =>
    rw [workerNew_eq] at hc ⊢
    cases hs : os.socketpair with
    | error e => exact ⟨_, rfl⟩
    | ok x =>
      obtain ⟨a, b⟩ := x
      simp only [hs] at hc ⊢
      cases hp : prepareWorker (chanTable t a b) p c (pipeFd t a) with
      | error e => exact ⟨e, rfl⟩
      | ok y =>
        obtain ⟨p', c'⟩ := y
        simp only [hp] at hc ⊢
        cases hn : (newProcess p' c' (chanTable t a b) caps os.proc).result with
        | error e => exact ⟨e, rfl⟩
        | ok pid =>
          simp only [hn] at hc ⊢
          rw [hf]
          exact ⟨_, rfl⟩
  | some ch =>
    obtain ⟨a, b, r, w, p', _, hbad, hgood⟩ := workerNew_child hc
    have hcase : (∃ e, readErrno os.proc w ch.pid ch.ending = .error e) ∨
        readErrno os.proc w ch.pid ch.ending = .ok ch.pid := by
      unfold readErrno
      cases os.proc.readError with
      | some _ => exact .inr rfl
      | none =>
        simp only
        split
        · exact .inl ⟨_, rfl⟩
        · exact .inr rfl
    rcases hcase with ⟨e, he⟩ | he
    · rw [hbad e he]; exact ⟨e, rfl⟩
    · rw [hgood he, hf]; exact ⟨_, rfl⟩

/-- The program does not exist, and the broker's `read` is interrupted by a signal. -/
def interruptedOs : NewOs :=
  { goodOs with proc := { goodOs.proc with readError := some 4, entry := { goodEntry with execve := some 2 } },
                first := .eof }

/-- C44 is false: if `read` is interrupted the errno is lost. -/
theorem C44_violated : ¬ Spec.FaithfulErrors := by
  intro h
  have h1 : (workerNew .lp64 brokerTable fullCaps someConfig tmpPolicy interruptedOs).child =
      some ⟨4321, true, .execFailed 2 (some (61, [0, 0, 0, 2]))⟩ ∧
      (workerNew .lp64 brokerTable fullCaps someConfig tmpPolicy interruptedOs).result =
        .error .processExitedDuringInitialization := by decide +kernel
  have := (h .lp64 brokerTable fullCaps someConfig tmpPolicy interruptedOs _ brokerTable_real
    (by intro e he; cases he; decide) h1.1 2).2 ⟨_, rfl⟩
  rw [h1.2] at this
  cases this

/-! ## C72 -/

/-- C72, full statement: the descriptor named by the variable is the worker's end of the
channel whose other end the broker reads. -/
def Spec.ChannelWorks : Prop :=
  ∀ (abi : Abi) (t : FdTable) (caps : Caps) (c : ProcessConfig) (p : Policy) (os : NewOs) (ch : Child)
    (img : Image), RealTable t → (∀ fd, Declared p c fd → t.get fd ≠ none) →
    (workerNew abi t caps c p os).child = some ch → ch.ending = .started img →
    ∃ a b chan, os.socketpair = .ok (a, b) ∧ readIpcHandle img.envp = some ⟨some (BitVec.ofNat 32 chan)⟩ ∧
      img.table.get chan = some ⟨b, 0#32⟩

/-- C72, what holds: `hstd`, the broker has its three standard streams. -/
theorem C72_channel_partial (abi : Abi) (t : FdTable) (caps : Caps) (c : ProcessConfig) (p : Policy)
    (os : NewOs) (ch : Child) (img : Image) (ht : RealTable t) (hstd : HasStdStreams t)
    (hp : ∀ fd, Declared p c fd → t.get fd ≠ none) (h : (workerNew abi t caps c p os).child = some ch)
    (hs : ch.ending = .started img) :
    ∃ a b chan, os.socketpair = .ok (a, b) ∧ readIpcHandle img.envp = some ⟨some (BitVec.ofNat 32 chan)⟩ ∧
      img.table.get chan = some ⟨b, 0#32⟩ := by
  obtain ⟨chan, a, b, hf, hsp, henv, hall⟩ := C38_exact abi t caps c p os ht hp ch img h hs
  obtain ⟨_, _, fd, _, henv', hread, _⟩ := C37_environment abi t caps c p os ht ch img h hs
  have heq : chan = fd := by
    rw [henv] at henv'
    have := List.append_cancel_left henv'
    simp only [List.cons.injEq, and_true] at this
    have h1 := congrArg fromUtf8 this
    rw [fromUtf8_utf8, fromUtf8_utf8] at h1
    have h2 := List.append_cancel_left (Option.some.inj h1)
    have h3 : dec chan = dec fd := by
      simp only [dec]
      rw [← show (toString chan).toList = Nat.toDigits 10 chan from Nat.toList_repr, h2]
      exact Nat.toList_repr
    have h4 := congrArg parseDigits h3
    rw [parseDigits_dec, parseDigits_dec] at h4
    exact Option.some.inj h4
  subst heq
  have h2 : 2 < chan := by
    rcases Nat.lt_or_ge 2 chan with hh | hh
    · exact hh
    · exact absurd hf (hstd _ hh)
  exact ⟨a, b, chan, hsp, hread, (hall chan ⟨b, 0#32⟩ h2).2 (.inl ⟨rfl, rfl⟩)⟩

/-- The same program, without redirection. -/
def plainConfig : ProcessConfig := { someConfig with stdout := none }

/-- C72 is false if the broker has closed its standard streams: the channel then has a
number below 3 and the entry point puts the null device in its place. -/
theorem C72_violated : ¬ Spec.ChannelWorks := by
  intro h
  have hr : (workerNew .lp64 [] fullCaps plainConfig tmpPolicy goodOs).child =
      some ⟨4321, true, .started {
        exe := utf8 c!"/bin/x"
        argv := [utf8 c!"x", utf8 c!"-v"]
        envp := [utf8 c!"A=1", utf8 c!"SANDBOX_IPC_HANDLE=1"]
        table := [(2, ⟨82, 0#32⟩), (1, ⟨81, 0#32⟩), (0, ⟨80, 0#32⟩)]
        caps := ⟨0#64, 0#64, 0#64, 0#64, 0#64⟩
        noNewPrivs := true
        isolation := ⟨true, true, true, true, false, true, true⟩
        opened := [(82, c!"/dev/null", O_RDONLY), (81, c!"/dev/null", O_RDONLY), (80, c!"/dev/null", O_RDONLY)] }⟩ := by
    decide +kernel
  have hd : ∀ fd, Declared tmpPolicy plainConfig fd → FdTable.get [] fd ≠ none := by
    intro fd h
    have h1 : tmpPolicy.inheritedHandles = [] := by decide +kernel
    have h2 : plainConfig.stdin = none ∧ plainConfig.stdout = none ∧ plainConfig.stderr = none := by
      decide +kernel
    simp only [Declared, h1, h2.1, h2.2.1, h2.2.2, List.not_mem_nil, reduceCtorEq, or_false] at h
  obtain ⟨a, b, chan, h1, h2, h3⟩ := h _ _ _ _ _ _ _ _ ⟨by decide, by simp, by decide⟩ hd hr rfl
  cases h1
  simp only [FdTable.get_cons] at h3
  split at h3
  · cases h3
  · split at h3
    · cases h3
    · split at h3
      · cases h3
      · cases h3

example : HasStdStreams brokerTable := by
  intro n hn
  rcases (by omega : n = 0 ∨ n = 1 ∨ n = 2) with rfl | rfl | rfl <;> decide

/-! ## C73 -/

theorem FdTable.length_erase_le (t : FdTable) (n : Nat) : (t.erase n).length ≤ t.length :=
  List.length_filter_le _ _

theorem chanTable_length (t : FdTable) (a b : Nat) : (chanTable t a b).length ≤ t.length + 3 := by
  have := FdTable.length_erase_le ((t.alloc ⟨a, 0#32⟩).2.alloc ⟨b, 0#32⟩).2 (pipeFd t a)
  simp only [FdTable.alloc, List.length_cons] at this
  simp only [chanTable, FdTable.set, FdTable.alloc, List.length_cons]
  omega

theorem childTable_length (t : FdTable) (r w : Nat) : (childTable t r w).length ≤ t.length + 3 := by
  have := FdTable.length_erase_le (afterPipe t r w) (pipeFd t r)
  simp only [afterPipe, FdTable.alloc, List.length_cons] at this
  simp only [childTable, afterPipe, FdTable.set, FdTable.alloc, List.length_cons]
  omega

theorem closeFds_succeeds (os : EntryOs) (p : EntryParams) (f : Nat) (hclose : ∀ fd, os.close fd = true)
    (l : FdTable) : ∀ t : FdTable, (∀ x ∈ l, x.1 < 2 ^ 31) → (l.map Prod.fst).Nodup →
    (∀ x ∈ l, t.get x.1 ≠ none) →
    ∃ t', closeFds os p f none (l.map fun x => ⟨dec x.1, true⟩) t = some t' := by
  induction l with
  | nil => intro t _ _ _; exact ⟨t, rfl⟩
  | cons x l ih =>
    intro t hint hnd hop
    obtain ⟨n, e⟩ := x
    simp only [List.map_cons, List.nodup_cons] at hnd
    have hi : ∀ x ∈ l, x.1 < 2 ^ 31 := fun x hx => hint x (List.mem_cons_of_mem _ hx)
    simp only [List.map_cons, closeFds, reduceCtorEq, if_false, Bool.true_eq_false, Option.map_none]
    rw [parseI32_dec, if_pos (hint _ List.mem_cons_self)]
    simp only
    split
    · exact ih t hi hnd.2 fun x hx => hop x (List.mem_cons_of_mem _ hx)
    · have hg := hop _ List.mem_cons_self
      simp only [sysClose, Int.toNat_natCast, Int.natCast_nonneg, if_true]
      cases hg' : t.get n with
      | none => exact absurd hg' hg
      | some e' =>
        simp only [hclose]
        apply ih _ hi hnd.2
        intro x hx
        rw [FdTable.get_erase, if_neg]
        · exact hop x (List.mem_cons_of_mem _ hx)
        · intro hc
          exact hnd.1 (hc ▸ List.mem_map_of_mem (f := Prod.fst) hx)

theorem cleanupFds_succeeds {os : EntryOs} {p : EntryParams} {t : FdTable} (hclose : ∀ fd, os.close fd = true)
    (h1 : ∃ f, os.openFds = .ok f) (h2 : os.fdopendir = true) (h3 : os.readdirFails = none)
    (hw : t.WF) (hint : ∀ x ∈ t, x.1 < 2 ^ 31) (hfree : t.lowestFree < 2 ^ 31) :
    cleanupFds os p t = some (t.filter fun x => decide (Kept p x.1)) := by
  obtain ⟨f, hf⟩ := h1
  have : ∃ t', cleanupFds os p t = some t' := by
    unfold cleanupFds
    simp only [hf, h2, h3, Bool.true_eq_false, if_false, procSelfFd, closeFds, reduceCtorEq, if_true,
      Option.map_none]
    have hi : ∀ x ∈ (t.alloc ⟨f, FD_CLOEXEC⟩).2, x.1 < 2 ^ 31 := by
      intro x hx
      simp only [FdTable.alloc, List.mem_cons] at hx
      rcases hx with rfl | hx
      · exact hfree
      · exact hint x hx
    have ho : ∀ x ∈ (t.alloc ⟨f, FD_CLOEXEC⟩).2, (t.alloc ⟨f, FD_CLOEXEC⟩).2.get x.1 ≠ none := by
      intro x hx
      obtain ⟨m, e⟩ := x
      rw [(hw.alloc _).get_of_mem hx]
      exact Option.some_ne_none _
    obtain ⟨t', h⟩ := closeFds_succeeds os p (t.alloc ⟨f, FD_CLOEXEC⟩).1 hclose (t.alloc ⟨f, FD_CLOEXEC⟩).2
      (t.alloc ⟨f, FD_CLOEXEC⟩).2 hi (hw.alloc _) ho
    rw [h]
    exact ⟨_, rfl⟩
  obtain ⟨t', h⟩ := this
  rw [h, cleanupFds_eq h]

theorem setupStd_of {os : EntryOs} {num : Nat} {r : Option Nat} {s : EntryState}
    (hstep : streamStep os num r) (hsrc : ∀ fd, r = some fd → fd ≠ num ∧ s.table.get fd ≠ none)
    (hlow : ∀ n, n < num → s.table.get n ≠ none) :
    ∃ s', setupStd os num r s = some s' ∧ (∀ n, s'.table.get n ≠ none ↔ s.table.get n ≠ none ∨ n = num)
      ∧ s'.caps = s.caps ∧ s'.noNewPrivs = s.noNewPrivs ∧ s'.isolation = s.isolation := by
  have hfree : FdTable.lowestFree (s.table.erase num) = num := by
    apply FdTable.lowestFree_eq
    · rw [FdTable.get_erase, if_pos rfl]
    · intro n hn
      rw [FdTable.get_erase, if_neg (by omega)]
      exact hlow n hn
  have htab : ∀ (e : FdEntry) (n : Nat), FdTable.get ((num, e) :: s.table.erase num) n ≠ none ↔
      s.table.get n ≠ none ∨ n = num := by
    intro e n
    rw [FdTable.get_cons, FdTable.get_erase]
    by_cases h : n = num <;> simp [h]
  unfold setupStd
  cases r with
  | none =>
    obtain ⟨f, hf⟩ := hstep
    simp only [hf, FdTable.alloc, hfree, ne_eq, not_true_eq_false, if_false, Option.some.injEq]
    exact ⟨_, rfl, htab _, rfl, rfl, rfl⟩
  | some fd =>
    obtain ⟨h1, h2⟩ := hsrc fd rfl
    simp only [streamStep] at hstep
    have hg : (s.table.erase num).get fd = s.table.get fd := by rw [FdTable.get_erase, if_neg h1]
    cases h3 : s.table.get fd with
    | none => exact absurd h3 h2
    | some e =>
      rw [h3] at hg
      simp only [hg, hstep, Bool.true_eq_false, if_false, FdTable.alloc, hfree, ne_eq, not_true_eq_false,
        Option.some.injEq]
      exact ⟨_, rfl, htab _, rfl, rfl, rfl⟩

/-- C73. Once a process is created, the program is started if the mandatory steps succeed,
descriptors can be closed, no stream is redirected to itself and the program can be
executed. Nothing else matters: user mappings, namespaces and capabilities may fail, and
the program is isolated from the broker exactly as far as they succeeded. -/
theorem C73_starts (abi : Abi) (t : FdTable) (caps : Caps) (c : ProcessConfig) (p : Policy) (os : NewOs)
    (ht : RealTable t) (hp : ∀ fd, Declared p c fd → t.get fd ≠ none) (ch : Child)
    (h : (workerNew abi t caps c p os).child = some ch)
    (hsteps : StepsSucceed os.proc.entry c.stdin c.stdout c.stderr)
    (hclose : ∀ fd, os.proc.entry.close fd = true) (hexec : os.proc.entry.execve = none)
    (h0 : c.stdin ≠ some 0) (h1 : c.stdout ≠ some 1) (h2 : c.stderr ≠ some 2) :
    ∃ img, ch.ending = .started img ∧
      img.isolation.ipc = os.proc.entry.unshareIpc ∧ img.isolation.net = os.proc.entry.unshareNet ∧
      img.isolation.uts = os.proc.entry.unshareUts ∧ img.isolation.cgroup = os.proc.entry.unshareCgroup ∧
      img.isolation.mount = os.proc.entry.unshareMount ∧
      (img.isolation.hostname = true ↔ os.proc.entry.unshareUts = true ∧ os.proc.entry.setHostname = true) ∧
      (img.isolation.proc = true ↔ os.proc.entry.unshareMount = true ∧ os.proc.entry.mountProc = true) := by
  obtain ⟨a, b, r, w, p', hc, _, _⟩ := workerNew_child h
  have hcw : (childTable (chanTable t a b) r w).WF := childTable_WF (chanTable_WF ht.nodup a b) r w
  have hlen := childTable_length (chanTable t a b) r w
  have hlen' := chanTable_length t a b
  have hint : ∀ x ∈ childTable (chanTable t a b) r w, x.1 < 2 ^ 31 := by
    intro x hx
    obtain ⟨n, e⟩ := x
    have hg := hcw.get_of_mem hx
    rw [child_get] at hg
    have l1 := t.lowestFree_le
    have l2 := pipeFd_le t a
    have l3 := (chanTable t a b).lowestFree_le
    have l4 := pipeFd_le (chanTable t a b) r
    have l5 := chanTable_length t a b
    have l6 := ht.small
    split at hg
    · simp only; omega
    · split at hg
      · simp only; omega
      · split at hg
        · simp only; omega
        · split at hg
          · simp only; omega
          · exact ht.int _ (FdTable.get_mem hg)
  have hfree : (childTable (chanTable t a b) r w).lowestFree < 2 ^ 31 := by
    have := (childTable (chanTable t a b) r w).lowestFree_le
    have := ht.small
    omega
  have hkept : ∀ fd, Declared p c fd → FdTable.get ((childTable (chanTable t a b) r w).filter fun x => decide (Kept
        (entryParams p' { c with envp := c.envp ++ [ipcHandleVar (pipeFd t a)] } os.proc
          (pipeFd (chanTable t a b) r)) x.1)) fd ≠ none := by
    intro fd hd
    obtain ⟨n1, n2, n3, n4, n5, n6, n7, n8, n9, n10⟩ := new_fds t a b r
    have hne : ∀ m, t.get m = none → fd ≠ m := fun m hm hc => hp fd hd (hc ▸ hm)
    rw [kept_get hcw, if_pos, child_get, if_neg (hne _ n7), if_neg (hne _ n4), if_neg (hne _ n2),
      if_neg (hne _ n1)]
    · exact hp fd hd
    · refine ⟨List.ne_nil_of_mem ((hc.inherit (pipeFd t a)).2 (.inr (.inr rfl))), .inr (.inl ?_)⟩
      show fd ∈ p'.inherit
      rw [hc.inherit, mem_streams]
      simp only [Declared, Policy.inheritedHandles] at hd
      grind
  have hend := hc.ending
  unfold cloneEntrypoint at hend
  rw [prepare_eq, if_neg (by simp [hsteps.noNewPrivs])] at hend
  simp only [Option.bind_some] at hend
  rw [cleanupFds_succeeds hclose hsteps.openFds hsteps.fdopendir hsteps.readdir hcw hint hfree] at hend
  simp only [Option.bind_some] at hend
  generalize hT : ((childTable (chanTable t a b) r w).filter fun x => decide (Kept
        (entryParams p' { c with envp := c.envp ++ [ipcHandleVar (pipeFd t a)] } os.proc
          (pipeFd (chanTable t a b) r)) x.1)) = T at hkept hend
  obtain ⟨s0, e0, g0, -, -, i0⟩ := setupStd_of (os := os.proc.entry) (num := 0) (r := c.stdin)
    (s := ⟨T, dropCapabilities os.proc.entry.caps caps, true, isolate os.proc.entry, []⟩) hsteps.step0
    (fun fd hfd => ⟨fun hc => h0 (hc ▸ hfd), hkept fd (.inr (.inl hfd))⟩) (fun n hn => by omega)
  obtain ⟨s1, e1, g1, -, -, i1⟩ := setupStd_of (os := os.proc.entry) (num := 1) (r := c.stdout)
    (s := s0) hsteps.step1
    (fun fd hfd => ⟨fun hc => h1 (hc ▸ hfd), (g0 fd).2 (.inl (hkept fd (.inr (.inr (.inl hfd)))))⟩)
    (fun n hn => (g0 n).2 (.inr (by omega)))
  obtain ⟨s2, e2, g2, -, -, i2⟩ := setupStd_of (os := os.proc.entry) (num := 2) (r := c.stderr)
    (s := s1) hsteps.step2
    (fun fd hfd => ⟨fun hc => h2 (hc ▸ hfd), (g1 fd).2 (.inl ((g0 fd).2 (.inl (hkept fd (.inr (.inr (.inr hfd)))))))⟩)
    (fun n hn => by
      rcases (by omega : n = 0 ∨ n = 1) with rfl | rfl
      · exact (g1 0).2 (.inl ((g0 0).2 (.inr rfl)))
      · exact (g1 1).2 (.inr rfl))
  have hin : ∀ pp : Nat, (entryParams p' { c with envp := c.envp ++ [ipcHandleVar (pipeFd t a)] } os.proc pp).stdin
      = c.stdin := fun _ => rfl
  have hout : ∀ pp : Nat, (entryParams p' { c with envp := c.envp ++ [ipcHandleVar (pipeFd t a)] } os.proc pp).stdout
      = c.stdout := fun _ => rfl
  have herr : ∀ pp : Nat, (entryParams p' { c with envp := c.envp ++ [ipcHandleVar (pipeFd t a)] } os.proc pp).stderr
      = c.stderr := fun _ => rfl
  rw [hin, hout, herr, e0] at hend
  simp only [Option.bind_some, e1, e2] at hend
  simp only [execOrReport, hexec] at hend
  refine ⟨_, hend, ?_⟩
  simp only [i2, i1, i0, isolate, true_and]
  constructor
  · cases os.proc.entry.unshareUts <;> simp
  · cases os.proc.entry.unshareMount <;> simp

example : StepsSucceed goodEntry none (some 3) none :=
  ⟨rfl, ⟨_, rfl⟩, rfl, rfl, ⟨_, rfl⟩, rfl, ⟨_, rfl⟩⟩

/-- Every optional step fails. -/
def unluckyOs : NewOs :=
  { goodOs with proc := { goodOs.proc with entry := { goodEntry with
      setgroups := ⟨.error 1, false⟩, uidMap := ⟨.ok 71, false⟩, unshareIpc := false, unshareNet := false,
      unshareUts := false, unshareMount := false, caps := { goodEntry.caps with getProc := false } } } }

example : ((workerNew .lp64 brokerTable fullCaps someConfig tmpPolicy unluckyOs).child.map fun ch =>
    match ch.ending with
    | .started img => some (img.isolation, img.caps)
    | _ => none) = some (some (⟨false, false, false, false, false, false, false⟩, fullCaps)) := by
  decide +kernel

/-! ## C74 -/

theorem prepareWorker_of {t : FdTable} {p : Policy} {c : ProcessConfig} {w : Nat} (hw : Inherits t w)
    (hs : ∀ fd ∈ streams c, Inherits t fd) (hn : ∀ e ∈ c.envp, nameFromEnv e ≠ ipcName) :
    ∃ p' c', prepareWorker t p c w = .ok (p', c') := by
  obtain ⟨p', hp'⟩ := allowHandles_of (p := { p with inherit := setInsert p.inherit w }) hs
  unfold prepareWorker
  rw [allowHandle_of hw]
  simp only
  have : allowHandles t { p with inherit := setInsert p.inherit w } ([c.stdin, c.stdout, c.stderr].filterMap id)
      = .ok p' := hp'
  rw [this]
  simp only [ProcessConfig.setEnv]
  rw [if_neg]
  · exact ⟨_, _, rfl⟩
  · intro hc
    obtain ⟨x, hm, he⟩ := List.any_eq_true.1 hc
    apply hn x hm
    rw [← nameFromEnv_ipc w]
    simpa using he

/-- C74. If the channel, the pipe and a process can be created, the redirected streams can
be inherited, the configuration is in order, the program starts and introduces itself,
and the policy fits in a message, then the worker is created: its process was started,
it has been sent the caller's policy (without the handles), and its requests are served
from then on. -/
theorem C74_creation_succeeds (abi : Abi) (t : FdTable) (caps : Caps) (c : ProcessConfig) (p : Policy)
    (os : NewOs) (ht : RealTable t) (hp : ∀ fd, Declared p c fd → t.get fd ≠ none)
    (hsp : ∃ ends, os.socketpair = .ok ends) (hpipe : ∃ ends, os.proc.pipe = .ok ends)
    (hclone : ∃ pid, os.proc.clone1 = .ok pid ∨ os.proc.clone2 = .ok pid ∨ os.proc.clone3 = .ok pid)
    (hargv : c.argv ≠ [])
    (hstreams : ∀ fd, c.stdin = some fd ∨ c.stdout = some fd ∨ c.stderr = some fd → Inheritable t fd)
    (hname : ∀ v ∈ c.envp, ¬ EnvName v (utf8 c!"SANDBOX_IPC_HANDLE"))
    (hsteps : StepsSucceed os.proc.entry c.stdin c.stdout c.stderr)
    (hclose : ∀ fd, os.proc.entry.close fd = true) (hexec : os.proc.entry.execve = none)
    (h0 : c.stdin ≠ some 0) (h1 : c.stdout ≠ some 1) (h2 : c.stderr ≠ some 2)
    (hfirst : classify os.first = .request .initialization) (hsend : os.osFirst.sendError = none)
    (hfits : sendResponse (.initialization p.runtime (os.filter.getD [])) ≠ none)
    (hspawn : os.spawnOk = true) :
    ∃ pid pidNs img s, (workerNew abi t caps c p os).result = .ok (pid, s) ∧
      (workerNew abi t caps c p os).child = some ⟨pid, pidNs, .started img⟩ ∧
      s.status = .running ∧ s.trace = [.sent (.initialization p.runtime (os.filter.getD [])) []] := by
  obtain ⟨⟨a, b⟩, hsp⟩ := hsp
  obtain ⟨⟨r, w⟩, hpipe⟩ := hpipe
  have hcl : ∃ y, tryClone os.proc = .ok y := by
    obtain ⟨pid, hcl⟩ := hclone
    unfold tryClone
    cases e1 : os.proc.clone1 with
    | ok _ => exact ⟨_, rfl⟩
    | error _ =>
      cases e2 : os.proc.clone2 with
      | ok _ => exact ⟨_, rfl⟩
      | error _ =>
        cases e3 : os.proc.clone3 with
        | ok _ => exact ⟨_, rfl⟩
        | error _ => simp [e1, e2, e3] at hcl
  obtain ⟨⟨pid, user, pidNs⟩, hcl⟩ := hcl
  have hw : Inherits (chanTable t a b) (pipeFd t a) := ⟨⟨b, 0#32⟩, by rw [chanTable_get, if_pos rfl], by simp⟩
  have hst : ∀ fd ∈ streams c, Inherits (chanTable t a b) fd := by
    intro fd hfd
    obtain ⟨e, he, hf⟩ := (inherits_iff t fd).2 (hstreams fd (mem_streams.1 hfd))
    refine ⟨e, ?_, hf⟩
    have hne : ∀ m, t.get m = none → fd ≠ m := by
      intro m hm hc
      rw [← hc, he] at hm
      cases hm
    rw [chanTable_get, if_neg (hne _ (pipeFd_fresh t a).1), if_neg (hne _ t.lowestFree_spec.1), he]
  obtain ⟨p', c', hprep⟩ := prepareWorker_of (p := p) hw hst
    (fun e he hc => hname e he ((nameFromEnv_spec e _).1 hc))
  obtain ⟨_, _, hrt, _, hc'⟩ := prepareWorker_ok hprep
  have hargv' : c'.argv ≠ [] := by rw [hc']; exact hargv
  have hchild : ∃ ch, (workerNew abi t caps c p os).child = some ch := by
    rw [workerNew_eq, hsp]
    simp only [hprep]
    have : ∃ ch, (newProcess p' c' (chanTable t a b) caps os.proc).child = some ch := by
      rw [newProcess_eq, if_neg hargv', hpipe]
      simp only [hcl]
      exact ⟨_, rfl⟩
    obtain ⟨ch, hch⟩ := this
    refine ⟨ch, ?_⟩
    split
    · exact hch
    · split <;> exact hch
  obtain ⟨ch, hch⟩ := hchild
  obtain ⟨img, himg, _⟩ := C73_starts abi t caps c p os ht hp ch hch hsteps hclose hexec h0 h1 h2
  obtain ⟨a2, b2, r2, w2, p2, hcr, _, hgood⟩ := workerNew_child hch
  have hread : readErrno os.proc w2 ch.pid ch.ending = .ok ch.pid := by
    unfold readErrno
    rw [himg]
    cases os.proc.readError <;> rfl
  have hres := hgood hread
  obtain ⟨data, hdata⟩ := Option.ne_none_iff_exists'.1 hfits
  have hloop : startIpcLoop abi p2.runtime (t.alloc ⟨a2, 0#32⟩).2 t.lowestFree os.first os.osFirst
      os.filter os.spawnOk = (.ok ⟨(t.alloc ⟨a2, 0#32⟩).2, t.lowestFree, .running,
        [.sent (.initialization p.runtime (os.filter.getD [])) []]⟩, (t.alloc ⟨a2, 0#32⟩).2,
        [.sent (.initialization p.runtime (os.filter.getD [])) []]) := by
    unfold startIpcLoop
    rw [recv_request hfirst, hcr.runtime]
    simp only [hdata, hsend, channelSend_plain, hspawn, if_true]
  rw [hloop] at hres
  simp only at hres
  refine ⟨ch.pid, ch.pidNs, img, _, by rw [hres], ?_, rfl, rfl⟩
  rw [hch, ← himg]

/-- These hypotheses hold of the example in C40, and the result is: -/
example : (workerNew .lp64 brokerTable fullCaps someConfig tmpPolicy goodOs).result =
    .ok (4321, ⟨(5, ⟨50, 0#32⟩) :: brokerTable, 5, .running, [.sent (.initialization tmpPolicy.runtime [6, 0]) []]⟩) := by
  decide +kernel

/-! ## C75 -/

/-- C75, full statement: a failed creation leaves the broker's descriptors as they were,
a successful one adds the broker's end of the channel. -/
def Spec.CreationKeepsDescriptors (abi : Abi) : Prop :=
  ∀ (t : FdTable) (caps : Caps) (c : ProcessConfig) (p : Policy) (os : NewOs),
    match (workerNew abi t caps c p os).result with
    | .error _ => (workerNew abi t caps c p os).table = t
    | .ok _ => ∃ fd a b, t.get fd = none ∧ os.socketpair = .ok (a, b) ∧
        (workerNew abi t caps c p os).table = (fd, ⟨a, 0#32⟩) :: t

theorem startIpcLoop_table (abi : Abi) (p : Policy) (t : FdTable) (chan : Nat) (inc : Incoming) (os : OsChoice)
    (filter : Option Bytes) (ok : Bool) :
    match startIpcLoop abi p t chan inc os filter ok with
    | (.error _, t', _) => t' = (recvDrop (channelRecv abi decRequest IPC_MESSAGE_MAX_SIZE os.canInstall t inc)).erase chan
    | (.ok _, t', _) => t' = t := by
  unfold startIpcLoop
  cases hc : classify inc with
  | request r =>
    rw [recv_request hc]
    cases r with
    | openFile _ _ => rfl
    | syscall _ _ _ => rfl
    | initialization =>
      simp only
      cases channelSend abi t (sendResponse (.initialization p (filter.getD []))) none os.sendError with
      | error e => rfl
      | ok d => cases ok <;> rfl
  | hangup =>
    have hh := recv_hangup hc abi os.canInstall t
    generalize channelRecv abi decRequest IPC_MESSAGE_MAX_SIZE os.canInstall t inc = y at hh ⊢
    match y, hh with
    | (t, .ok (some (m, none))), hh => exact absurd rfl (hh t m)
    | (t, .ok (some (.initialization, some h))), _ => rfl
    | (t, .ok (some (.openFile _ _, some h))), _ => rfl
    | (t, .ok (some (.syscall _ _ _, some h))), _ => rfl
    | (t, .ok none), _ => rfl
    | (t, .error _), _ => rfl

theorem workerNew_table (abi : Abi) (t : FdTable) (caps : Caps) (c : ProcessConfig) (p : Policy) (os : NewOs)
    (hrecv : ∀ t', recvDrop (channelRecv abi decRequest IPC_MESSAGE_MAX_SIZE os.osFirst.canInstall t' os.first) = t') :
    match (workerNew abi t caps c p os).result with
    | .error _ => (workerNew abi t caps c p os).table = t
    | .ok _ => ∃ fd a b, t.get fd = none ∧ os.socketpair = .ok (a, b) ∧
        (workerNew abi t caps c p os).table = (fd, ⟨a, 0#32⟩) :: t := by
  rw [workerNew_eq]
  cases hs : os.socketpair with
  | error e => rfl
  | ok x =>
    obtain ⟨a, b⟩ := x
    simp only
    cases hp : prepareWorker (chanTable t a b) p c (pipeFd t a) with
    | error e => rfl
    | ok y =>
      obtain ⟨p', c'⟩ := y
      simp only
      cases hn : (newProcess p' c' (chanTable t a b) caps os.proc).result with
      | error e => rfl
      | ok pid =>
        simp only
        have hl := startIpcLoop_table abi p'.runtime (t.alloc ⟨a, 0#32⟩).2 t.lowestFree os.first os.osFirst
          os.filter os.spawnOk
        rw [hrecv] at hl
        generalize startIpcLoop abi p'.runtime (t.alloc ⟨a, 0#32⟩).2 t.lowestFree os.first os.osFirst
          os.filter os.spawnOk = z at hl
        match z, hl with
        | (.error e, t', acts), hl =>
          simp only at hl ⊢
          rw [hl]
          exact FdTable.erase_alloc t ⟨a, 0#32⟩
        | (.ok s, t', acts), hl =>
          simp only at hl ⊢
          exact ⟨t.lowestFree, a, b, t.lowestFree_spec.1, rfl, hl⟩

/-- C75 holds of 32-bit builds. -/
theorem C75_32_bit : Spec.CreationKeepsDescriptors .ilp32 := by
  intro t caps c p os
  apply workerNew_table
  intro t'
  rcases channelRecv_drop .ilp32 decRequest IPC_MESSAGE_MAX_SIZE os.osFirst.canInstall t' os.first with h | ⟨h, _⟩
  · exact h
  · cases h

/-- C75 holds of 64-bit builds unless the worker attaches two descriptors or more to its
first message. -/
theorem C75_descriptors_partial (t : FdTable) (caps : Caps) (c : ProcessConfig) (p : Policy) (os : NewOs)
    (hf : ∀ d, os.first = .datagram d → d.files.length ≤ 1) :
    match (workerNew .lp64 t caps c p os).result with
    | .error _ => (workerNew .lp64 t caps c p os).table = t
    | .ok _ => ∃ fd a b, t.get fd = none ∧ os.socketpair = .ok (a, b) ∧
        (workerNew .lp64 t caps c p os).table = (fd, ⟨a, 0#32⟩) :: t := by
  apply workerNew_table
  intro t'
  rcases channelRecv_drop .lp64 decRequest IPC_MESSAGE_MAX_SIZE os.osFirst.canInstall t' os.first
    with h | ⟨_, d, n, f, hd, hl, _⟩
  · exact h
  · have := hf d hd; omega

/-- The worker attaches two descriptors to its first message. -/
def twoFilesOs : NewOs := { goodOs with first := .datagram ⟨[0], [77, 78]⟩ }

/-- C75 is false of 64-bit builds. -/
theorem C75_violated : ¬ Spec.CreationKeepsDescriptors .lp64 := by
  intro h
  have h := h brokerTable fullCaps someConfig tmpPolicy twoFilesOs
  have h1 : (workerNew .lp64 brokerTable fullCaps someConfig tmpPolicy twoFilesOs).result
      = .error .unexpectedWorkerMessage ∧
      (workerNew .lp64 brokerTable fullCaps someConfig tmpPolicy twoFilesOs).table
      = (8, ⟨78, FD_CLOEXEC⟩) :: brokerTable := by decide +kernel
  rw [h1.1, h1.2] at h
  exact absurd h (by decide)

end Iris
