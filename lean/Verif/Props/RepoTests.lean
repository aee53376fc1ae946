import Verif.Props.Worker
import Verif.Props.WinWorker
import Verif.Props.WinPolicy
/-!
# The project's own tests, for every file

The tests of the repository open one temporary file under four policies and check each call against a table. Here
the tables are copied from the tests, and hold for every file, every program and every state of the broker. The
decisions listed in another test are computed on the model at the end: the model answers what the code is tested to
answer.
-/
namespace Iris.Spec

/-- The calls of tests/src/bin/file_path_open_worker.rs:139-150: the flags, and whether the call should work given
that the file is readable and writable. `O_RDONLY` is 0, `O_WRONLY` 1, `O_RDWR` 2, `O_CREAT` 0x40, `O_EXCL` 0x80,
`O_TRUNC` 0x200, `O_APPEND` 0x400, `O_CLOEXEC` 0x80000, `O_PATH` 0x200000. -/
def testedFlags : List (BitVec 32 × (Bool → Bool → Bool)) :=
  [(0x0#32, fun readable _ => readable),
   (0x80000#32, fun readable _ => readable),
   (0x1#32, fun _ writable => writable),
   (0x2#32, fun readable writable => readable && writable),
   (0x401#32, fun _ writable => writable),
   (0x402#32, fun readable writable => readable && writable),
   (0x200000#32, fun readable writable => readable || writable),
   (0x40#32, fun readable writable => readable && writable),
   (0x80#32, fun readable writable => readable && writable),
   (0x200#32, fun readable writable => readable && writable)]

/-- The policy of tests/tests/file_path_open.rs:76-86. -/
def testedRules (path : Str) (readable writable : Bool) : List FsCall :=
  (if readable then [.fileRead path] else []) ++ (if writable then [.fileWrite path] else [])

/-- The calls of tests/src/bin/file_path_open_worker.rs:339-375: the access, and whether the call should work.
`FILE_READ_DATA` is 1, `FILE_WRITE_DATA` 2, `SYNCHRONIZE` 0x100000, `GENERIC_READ` 0x80000000, `GENERIC_WRITE`
0x40000000. -/
def testedAccess : List (BitVec 32 × (Bool → Bool → Bool)) :=
  [(0x100001#32, fun readable _ => readable),
   (0x80100000#32, fun readable _ => readable),
   (0x100002#32, fun _ writable => writable),
   (0x40100000#32, fun _ writable => writable)]

/-- The policy of tests/tests/windows_registry.rs:50-55 (a test that is commented out). -/
def testedKeyRules (key : Str) (readable writable : Bool) : List WinCall :=
  (if readable then [.regRead key] else []) ++ (if writable then [.regWrite key] else [])

/-- The access of tests/src/bin/windows_registry_worker.rs:59-67: `READ_CONTROL` (0x20000) with
`KEY_ENUMERATE_SUB_KEYS | KEY_NOTIFY | KEY_QUERY_VALUE` to read, with `KEY_CREATE_SUB_KEY | KEY_SET_VALUE | DELETE |
WRITE_DAC | WRITE_OWNER` to write. -/
def testedKeyAccess (read write : Bool) : BitVec 32 :=
  (if read then 0x19#32 else 0#32) ||| (if write then 0xD0006#32 else 0#32) ||| 0x20000#32

/-- tests/src/bin/windows_registry_worker.rs:89-90: `should_work`. -/
def testedKeyShould (readable writable read write : Bool) : Bool :=
  (!read || readable) && (!write || writable) && (readable || writable)

/-- C143, Windows registry, full statement: `NtCreateKey` on the key of a rule is granted exactly when the test says it
should work. -/
def TestedKeys : Prop :=
  ∀ (os : WinOs) (key kernel : Str), RegKeyName os.sid key kernel → ¬ HasEmptyName kernel →
    kernel.getLast? ≠ some '\\' → ∀ readable writable read write : Bool,
      ((Policy.nothingAllowed.winCalls os (testedKeyRules key readable writable)).winEvaluate false
        (.regKeyOpen kernel (testedKeyAccess read write) 0 true)).1 = .granted ↔
      testedKeyShould readable writable read write = true

end Iris.Spec

namespace Iris
open Spec

theorem tested_read {path : Str} {cs : List Str} (hp : Denotes path cs) (r w : Bool) :
    ReadAllowed ((testedRules path r w).map .fs) cs ↔ r = true := by
  cases r <;> cases w <;> simp [ReadAllowed, testedRules, GivesRead, hp]

theorem tested_write {path : Str} {cs : List Str} (hp : Denotes path cs) (r w : Bool) :
    WriteAllowed ((testedRules path r w).map .fs) cs ↔ w = true := by
  cases r <;> cases w <;> simp [WriteAllowed, testedRules, GivesWrite, hp]

theorem tested_open [Target] {path : Str} {cs : List Str} (hp : Denotes path cs) (r w : Bool) (flags : BitVec 32)
    (should : Bool → Bool → Bool) (hf : (flags, should) ∈ testedFlags) :
    OpenAllowed ((testedRules path r w).map .fs) path flags ↔ should r w = true := by
  have hsup : Supported flags := by
    intro i hi hb
    refine .inl ?_
    simp only [testedFlags, List.mem_cons, Prod.mk.injEq, List.not_mem_nil, or_false] at hf
    revert i
    rcases hf with ⟨rfl, _⟩ | ⟨rfl, _⟩ | ⟨rfl, _⟩ | ⟨rfl, _⟩ | ⟨rfl, _⟩ | ⟨rfl, _⟩ | ⟨rfl, _⟩ |
      ⟨rfl, _⟩ | ⟨rfl, _⟩ | ⟨rfl, _⟩ <;> decide +kernel
  have hopen : OpenAllowed ((testedRules path r w).map .fs) path flags ↔
      (r = true ∨ w = true) ∧ (AsksRead flags → r = true) ∧ (AsksWrite flags → w = true) := by
    constructor
    · rintro ⟨_, ds, hd, h⟩
      rw [hd.unique hp, tested_read hp, tested_write hp] at h
      exact h
    · intro h
      refine ⟨hsup, cs, hp, ?_⟩
      rw [tested_read hp, tested_write hp]
      exact h
  rw [hopen]
  simp only [testedFlags, List.mem_cons, Prod.mk.injEq, List.not_mem_nil, or_false] at hf
  rcases hf with ⟨rfl, rfl⟩ | ⟨rfl, rfl⟩ | ⟨rfl, rfl⟩ | ⟨rfl, rfl⟩ | ⟨rfl, rfl⟩ | ⟨rfl, rfl⟩ | ⟨rfl, rfl⟩ |
    ⟨rfl, rfl⟩ | ⟨rfl, rfl⟩ | ⟨rfl, rfl⟩ <;> cases r <;> cases w <;> simp [AsksRead, AsksWrite, Has]

/-- C143, Linux. Whatever the file, the program and its descriptors: under the four policies of the test each call
of the test, by `open` or `openat`, works exactly when the test says it should. If it should, the file is opened once,
under its name and with those flags, and the program gets a descriptor for it; if it should not, the program gets
`EACCES` (13) and nothing is opened. -/
theorem C143_linux_table [Target] (abi : Abi) (b : Broker) (os : OsChoice) (audit : Bool) (replace : Bytes → Str)
    (mem : Memory) (t : FdTable) (regs : Regs) (io : WorkerIo) (cwd : Str) (hs : Serving b os t io cwd)
    (path : Str) (cs : List Str) (hp : Denotes path cs)
    (file : Nat) (hfile : os.openResult = .ok file)
    (readable writable : Bool) (flags : BitVec 32) (should : Bool → Bool → Bool) (hf : (flags, should) ∈ testedFlags)
    (hc : PathCall mem regs (.open flags) path) (hlen : messageSize (utf8 path).length flags ≤ 65536) :
    let p := Policy.nothingAllowed.calls ((testedRules path readable writable).map .fs)
    let x := Spec.served abi p b os audit replace mem t regs io
    x.2.status = .running ∧
    (should readable writable = true →
      opens x.2.trace = opens b.trace ++ [(path, flags)] ∧
      ∃ fd, fd < 2 ^ 31 ∧ x.1.ret = .code (BitVec.ofNat 64 fd) ∧ t.get fd = none ∧
        x.1.table.get fd = some ⟨file, 1#32⟩) ∧
    (should readable writable = false →
      x.1.ret = .code (-13#64) ∧ x.1.table = t ∧ opens x.2.trace = opens b.trace) := by
  have habs : absolute cwd path = path := by
    have hh : path.head? = some '/' := by
      obtain ⟨h1, _, h3⟩ := hp
      cases cs with
      | nil => exact absurd rfl h1
      | cons c cs => rcases h3 with rfl | rfl <;> rfl
    simp only [absolute, if_pos hh]
  have h67 := C67_open_end_to_end abi ((testedRules path readable writable).map .fs) b os audit replace mem t regs io
    cwd flags path hs hc (by rw [habs]; exact hlen)
  simp only [habs, tested_open hp readable writable flags should hf] at h67
  obtain ⟨h1, _, h3, h4⟩ := h67
  refine ⟨h1, fun hy => ?_, fun hn => h3 (by rw [hn]; simp)⟩
  obtain ⟨h5, _, h6⟩ := h4 hy
  obtain ⟨fd, h7, h8, h9, h10, _⟩ := h6 file hfile
  exact ⟨h5, fd, h7, h8, h9, h10⟩

theorem testedWin_given (full : Str → Str) (file : Str) (hd : OnDrive (full file)) (r w : Bool) (right : Right) :
    Given full ((testedRules file r w).map .fs) right (c!"\\??\\" ++ full file) ↔
      (right = .read ∧ r = true) ∨ (right = .write ∧ w = true) := by
  have hk : FileCovers full file (c!"\\??\\" ++ full file) := ⟨hd, rfl⟩
  generalize c!"\\??\\" ++ full file = q at hk
  cases r <;> cases w <;> simp [Given, testedRules, Gives, hk]

theorem testedWin_open (full : Str → Str) (file : Str) (hd : OnDrive (full file)) (r w : Bool) (access : BitVec 32)
    (should : Bool → Bool → Bool) (hf : (access, should) ∈ testedAccess) :
    (SupportedFileRequest access 0#32 1#32 (0x60#32 ||| 0x200000#32) ∧ (c!"\\??\\" ++ full file).head? = some '\\' ∧
      (∃ right, Given full ((testedRules file r w).map .fs) right (c!"\\??\\" ++ full file)) ∧
      ∀ right, Asks access 7#32 1#32 (0x60#32 ||| 0x200000#32) [] right →
        Given full ((testedRules file r w).map .fs) right (c!"\\??\\" ++ full file)) ↔ should r w = true := by
  have hsup : SupportedFileRequest access 0#32 1#32 (0x60#32 ||| 0x200000#32) := by
    refine ⟨?_, fun i _ h => by simp at h, by decide, by decide⟩
    simp only [testedAccess, List.mem_cons, Prod.mk.injEq, List.not_mem_nil, or_false] at hf
    unfold SupportedFileAccess OnlyBits
    rcases hf with ⟨rfl, _⟩ | ⟨rfl, _⟩ | ⟨rfl, _⟩ | ⟨rfl, _⟩ <;> decide +kernel
  have hasks : ∀ right, Asks access 7#32 1#32 (0x60#32 ||| 0x200000#32) [] right ↔
      (right = .read ∧ (access = 0x100001#32 ∨ access = 0x80100000#32)) ∨
      (right = .write ∧ (access = 0x100002#32 ∨ access = 0x40100000#32)) := by
    intro right
    simp only [testedAccess, List.mem_cons, Prod.mk.injEq, List.not_mem_nil, or_false] at hf
    rcases hf with ⟨rfl, _⟩ | ⟨rfl, _⟩ | ⟨rfl, _⟩ | ⟨rfl, _⟩ <;> cases right <;> simp [Asks, Has] <;> decide
  simp only [hasks, testedWin_given full file hd]
  simp only [testedAccess, List.mem_cons, Prod.mk.injEq, List.not_mem_nil, or_false] at hf
  constructor
  · rintro ⟨_, _, _, h⟩
    rcases hf with ⟨rfl, rfl⟩ | ⟨rfl, rfl⟩ | ⟨rfl, rfl⟩ | ⟨rfl, rfl⟩
    · simpa using h .read (.inl ⟨rfl, .inl rfl⟩)
    · simpa using h .read (.inl ⟨rfl, .inr rfl⟩)
    · simpa using h .write (.inr ⟨rfl, .inl rfl⟩)
    · simpa using h .write (.inr ⟨rfl, .inr rfl⟩)
  · intro h
    refine ⟨hsup, rfl, ?_⟩
    rcases hf with ⟨rfl, rfl⟩ | ⟨rfl, rfl⟩ | ⟨rfl, rfl⟩ | ⟨rfl, rfl⟩
    · refine ⟨⟨.read, .inl ⟨rfl, h⟩⟩, ?_⟩
      rintro right (⟨hr, _⟩ | ⟨_, hx⟩)
      · exact .inl ⟨hr, h⟩
      · exact absurd hx (by decide)
    · refine ⟨⟨.read, .inl ⟨rfl, h⟩⟩, ?_⟩
      rintro right (⟨hr, _⟩ | ⟨_, hx⟩)
      · exact .inl ⟨hr, h⟩
      · exact absurd hx (by decide)
    · refine ⟨⟨.write, .inr ⟨rfl, h⟩⟩, ?_⟩
      rintro right (⟨_, hx⟩ | ⟨hr, _⟩)
      · exact absurd hx (by decide)
      · exact .inr ⟨hr, h⟩
    · refine ⟨⟨.write, .inr ⟨rfl, h⟩⟩, ?_⟩
      rintro right (⟨_, hx⟩ | ⟨hr, _⟩)
      · exact absurd hx (by decide)
      · exact .inr ⟨hr, h⟩

/-- C143, Windows. Whatever the file on a drive, the program and the broker's state: under the four policies of the
test each call of the test to `NtCreateFile` (an existing file, shared with everybody, synchronous and no directory)
works exactly when the test says it should. If it should, one call is made to the kernel, with the same name and
access, and the program gets its status and, on success, a handle to what was opened; if it should not, the program
gets `STATUS_ACCESS_DENIED` and a null handle, and no call is made. -/
theorem C143_windows_table (debug : Bool) (wos : WinOs) (full : Str → Str) (hwos : FullNames wos full) (file : Str)
    (hd : OnDrive (full file)) (hne : ¬ HasEmptyName (c!"\\??\\" ++ full file))
    (hdbg : debug = false ∨ ¬ c!".pdb" <:+: c!"\\??\\" ++ full file) (b : WinBroker) (os : WinChoice)
    (hos : CanAnswer b os) (readable writable : Bool) (access : BitVec 32) (should : Bool → Bool → Bool)
    (hf : (access, should) ∈ testedAccess) (name : NtString) (hn : Names name (utf16 (c!"\\??\\" ++ full file)))
    (hlen : fileMessageSize access (utf8 (c!"\\??\\" ++ full file)).length 0 0 7 1 0x60 ≤ 65536) :
    let p := Policy.nothingAllowed.winCalls wos ((testedRules file readable writable).map .fs)
    let h := hookNtCreateFile ⟨true, access, some ⟨0, some name⟩, true, some 0, 0, 7, 1, 0x60, 0⟩ (winBrokered debug p b os)
    let b' := afterCall debug p b os h
    b'.running = true ∧
    (should readable writable = true → ∃ res reply v,
      b'.trace = b.trace ++ [.called (.createFile access (utf16 (c!"\\??\\" ++ full file)) 0 0x80 7 1 0x200060 []) res,
        .sent reply v] ∧
      h.ret = .status res.status ∧ h.info = some res.info ∧
      (¬ res.status.toInt < 0 → ∃ v, v ≠ 0#64 ∧ h.handle = some v ∧
        b'.tables = { b.tables with worker := (v, res.object) :: b.tables.worker })) ∧
    (should readable writable = false →
      h.ret = .status 0xC0000022#32 ∧ h.handle = some 0#64 ∧ b'.tables = b.tables ∧
      ∃ reply, b'.trace = b.trace ++ [.sent reply none]) := by
  intro p h b'
  have hcar := (C92_create_file_exact_partial debug p b os hos
    ⟨true, access, some ⟨0, some name⟩, true, some 0, 0, 7, 1, 0x60, 0⟩ ⟨0, some name⟩ name (c!"\\??\\" ++ full file)
    rfl rfl rfl rfl rfl rfl hn).1 hlen
  have hg : (p.winEvaluate debug (.fileOpen (c!"\\??\\" ++ full file) access 0#32 7#32 1#32
      (0x60#32 ||| 0x200000#32) [])).1 = .granted ↔ should readable writable = true := by
    rw [C58_file_open_exact debug wos full hwos _ _ _ _ _ _ _ _ hdbg hne]
    exact testedWin_open full file hd readable writable access should hf
  have hquiet : ∀ req, (p.winEvaluate debug req).2 = [] := by
    intro req
    have hcb : p.callbacks = [] := by
      rw [winCalls_callbacks]
      cases readable <;> cases writable <;> rfl
    cases req <;> simp [Policy.winEvaluate, hcb, Policy.logVerdict]
  obtain ⟨h1, h2⟩ := hcar
  refine ⟨h1, fun hy => ?_, fun hno => ?_⟩
  · rcases h2 with ⟨_, res, reply, v, h3, h4, h5, _, h7⟩ | ⟨hng, _⟩
    · rw [hquiet, List.map_nil, List.append_nil] at h3
      simp only [Option.getD_some] at h3
      rw [show (0x60 : BitVec 32) ||| 0x200000#32 = 0x200060 by decide] at h3
      exact ⟨res, reply, v, h3, h4, h5, h7⟩
    · exact absurd (hg.2 hy) hng
  · rcases h2 with ⟨hng, _⟩ | ⟨_, ⟨reply, h3⟩, h4, _, h6, h7⟩
    · rw [hg.1 hng] at hno; cases hno
    · rw [hquiet] at h3
      exact ⟨h4, h6, h7, reply, by simpa only [List.map_nil, List.append_nil] using h3⟩

/-- The key `HKEY_CURRENT_USER\test1` with a rule to read it cannot be opened to read it by `NtCreateKey`, although
the test (which is commented out) says it should. -/
theorem C143_registry_violated : ¬ TestedKeys := by
  intro h
  have h1 := (h plainOs c!"HKEY_CURRENT_USER\\test1" c!"\\REGISTRY\\USER\\S-1-5-21\\test1"
    ⟨c!"HKEY_CURRENT_USER", c!"\\REGISTRY\\USER\\S-1-5-21", c!"\\test1", by simp [regRoots, plainOs], rfl, rfl⟩
    (by unfold HasEmptyName; decide) (by decide) true false true false).2 (by decide)
  exact absurd h1 (by decide +kernel)

/-- C143, Windows registry, what holds: what should not work is refused, and with rules to read and to write all of the
test's calls are granted; with only one of the two rules none is. Missing: with only one of the rules, the calls that
ask no more than it gives should work. -/
theorem C143_registry_partial (debug : Bool) (os : WinOs) (key kernel : Str) (hk : RegKeyName os.sid key kernel)
    (hne : ¬ HasEmptyName kernel) (hlast : kernel.getLast? ≠ some '\\') (readable writable read write : Bool) :
    let granted := ((Policy.nothingAllowed.winCalls os (testedKeyRules key readable writable)).winEvaluate debug
        (.regKeyOpen kernel (testedKeyAccess read write) 0 true)).1 = .granted
    (testedKeyShould readable writable read write = false → ¬ granted) ∧
    (granted ↔ readable = true ∧ writable = true) := by
  have hself : AtOrAbove kernel (trim kernel) := by simp [trim, hlast, AtOrAbove]
  have hr : RegReadAllowed os.sid (testedKeyRules key readable writable) kernel ↔ readable = true := by
    constructor
    · rintro ⟨r, k, hm, _⟩
      cases readable <;> cases writable <;> simp [testedKeyRules] at hm ⊢
    · rintro rfl
      exact ⟨key, kernel, by simp [testedKeyRules], hk, hself⟩
  have hw : RegWriteAllowed os.sid (testedKeyRules key readable writable) kernel ↔ writable = true := by
    constructor
    · rintro ⟨r, k, hm, _⟩
      cases readable <;> cases writable <;> simp [testedKeyRules] at hm ⊢
    · rintro rfl
      exact ⟨key, kernel, by simp [testedKeyRules], hk, hself⟩
  have hsup : SupportedKeyAccess (testedKeyAccess read write) := by
    unfold SupportedKeyAccess OnlyBits
    cases read <;> cases write <;> decide +kernel
  have hother : AsksKeyOther (testedKeyAccess read write) := by
    unfold AsksKeyOther
    cases read <;> cases write <;> decide +kernel
  have hg := C59_registry_exact_partial debug os (testedKeyRules key readable writable) kernel
    (testedKeyAccess read write) 0 true hne
  rw [hr, hw] at hg
  have hg' : ((Policy.nothingAllowed.winCalls os (testedKeyRules key readable writable)).winEvaluate debug
      (.regKeyOpen kernel (testedKeyAccess read write) 0 true)).1 = .granted ↔ readable = true ∧ writable = true := by
    rw [hg]
    constructor
    · rintro ⟨_, _, _, h1, h2⟩
      exact ⟨h1 (.inr hother), h2 (.inr hother)⟩
    · rintro ⟨h1, h2⟩
      exact ⟨hsup, .inl rfl, .inl h1, fun _ => h1, fun _ => h2⟩
  refine ⟨fun hs hgr => ?_, hg'⟩
  obtain ⟨h1, h2⟩ := hg'.1 hgr
  rw [h1, h2] at hs
  cases read <;> cases write <;> exact absurd hs (by decide)

example : RegKeyName plainOs.sid c!"HKEY_CURRENT_USER\\test1" c!"\\REGISTRY\\USER\\S-1-5-21\\test1" :=
  ⟨c!"HKEY_CURRENT_USER", c!"\\REGISTRY\\USER\\S-1-5-21", c!"\\test1", by simp [regRoots, plainOs], rfl, rfl⟩

/-! ## Witnesses -/

/-- The hypotheses of `C143_linux_table` are met: the file of the demonstration is opened to be written, by a program
that may write it but not read it, and cannot be opened to be read. -/
example : PathCall demoMemory (demoCall 2 8192 1) (.open 1#32) c!"/tmp/notes.txt" ∧
    Denotes c!"/tmp/notes.txt" [c!"tmp", c!"notes.txt"] ∧
    (1#32, fun _ writable => writable) ∈ testedFlags :=
  ⟨.open _ rfl rfl (by decide), demo_denotes, by simp [testedFlags]⟩

def testedDemo (flags : BitVec 64) : Handled × Broker :=
  @Spec.served x86_64 .lp64 (Policy.nothingAllowed.calls ((testedRules c!"/tmp/notes.txt" false true).map .fs))
    demoBroker demoOs false (fun _ => []) demoMemory demoTable (demoCall 2 8192 flags) demoIo

example : (testedDemo 1).1.ret = .code 2#64 ∧ (testedDemo 0).1.ret = .code (-13#64) := by
  unfold testedDemo
  constructor <;> decide +kernel

/-- Those of `C143_windows_table` too. -/
def testedWinName : NtString := ⟨20, utf16 c!"\\??\\C:\\x.y"⟩

example : OnDrive (id c!"C:\\x.y") ∧ ¬ HasEmptyName c!"\\??\\C:\\x.y" ∧ CanAnswer winOddBroker winOddChoice ∧
    Names testedWinName (utf16 c!"\\??\\C:\\x.y") := by
  refine ⟨⟨'C', _, rfl, by decide⟩, by unfold HasEmptyName; decide, ?_, by decide, by exact ⟨[], rfl⟩⟩
  exact C92_name_replaced_violated.2.1

/-! ## The decisions of tests/tests/unix_file_path_policy_decision.rs

Computed on the model: it answers what the code is tested to answer, and with the same kind of verdict. -/

/-- The kind of a verdict: granted, denied by the policy, invalid parameters. -/
def Spec.verdictKind : Verdict → Nat
  | .granted => 0
  | .deniedByPolicy _ => 1
  | .invalidRequestParameters _ _ => 2
  | .delegationNotSupported _ => 3

def testedDecision (h : List FsCall) (path : Str) (flags : BitVec 32) : Nat :=
  verdictKind (@Policy.evaluate x86_64 (Policy.nothingAllowed.calls (h.map .fs)) (.fileOpen path flags)).1

/-- Lines 7-47. -/
example : [(c!"/etc/hosts", 0#32), (c!"/etc/nothosts", 0), (c!"/etc/hosts", 1), (c!"/etc/hosts ", 0)].map
    (fun q => testedDecision [.fileRead c!"/etc/hosts"] q.1 q.2) = [0, 1, 1, 1] := by decide +kernel

/-- Lines 49-87. -/
example : [(c!"/without_trailing_slash", 1#32), (c!"/without_trailing_slash/", 1), (c!"/not_without_trailing_slash", 1),
      (c!"/without_trailing_slash", 0)].map
    (fun q => testedDecision [.dirWrite c!"/without_trailing_slash"] q.1 q.2) = [0, 0, 1, 1] := by decide +kernel

/-- Lines 89-107. -/
example : [c!"/etc/hosts", c!"/etc/ssh/ssh_config"].map (testedDecision [.dirRead c!"/etc/"] · 0) = [0, 0] := by
  decide +kernel

/-- Lines 108-118. -/
example : testedDecision [.dirRead c!"/home/me/", .dirWrite c!"/home/me/.cache/"] c!"/home/me/.cache/a.txt" 2 = 0 := by
  decide +kernel

/-- Lines 120-162. -/
example : [c!"a.txt", c!"../../../../../../../../home/me/a.txt", c!"/home/me/../a.txt", c!"/home/me/./a.txt"].map
    (testedDecision [.dirRead c!"/home/me/"] · 0) = [2, 2, 2, 2] := by decide +kernel

end Iris
