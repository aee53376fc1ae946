import Verif.Lemmas.WinPolicy
/-!
# Windows policy decisions (C58, C59, C66, C82, C83, C84, C85)

The specification used in the statements is in `Verif/Spec/WinPolicy.lean`.
-/
namespace Iris
open Spec

/-- A system on which every path is its own full name, for the examples. -/
def plainOs : WinOs where
  fullPathSize u := if u.length ≤ 1 then 0 else u.length
  fullPathFill u _ := (u.length - 1, u)
  sid := c!"S-1-5-21"

theorem plainOs_full : FullNames plainOs id := by
  intro r
  by_cases h : utf16 r = []
  · left; simp [plainOs, h]
  · right
    refine ⟨utf16 r, ?_, h, .inl ⟨?_, .inl rfl⟩⟩
    · simp [plainOs, h]
    · simp [plainOs]

/-! ## C58 Windows file decisions are exactly what the rules say -/

/-- For every history of calls and every request whose path has no empty name in it (release builds; in
a debug build, for paths without `.pdb`). -/
theorem C58_file_open_exact (debug : Bool) (os : WinOs) (full : Str → Str) (hos : FullNames os full)
    (h : List WinCall) (path : Str) (access attributes share disposition options : BitVec 32)
    (ea : Bytes) (hdbg : debug = false ∨ ¬ c!".pdb" <:+: path) (hpath : ¬ HasEmptyName path) :
    ((Policy.nothingAllowed.winCalls os h).winEvaluate debug
        (.fileOpen path access attributes share disposition options ea)).1 = .granted ↔
      SupportedFileRequest access attributes disposition options ∧ path.head? = some '\\' ∧
      (∃ right, Given full h right path) ∧
      ∀ right, Asks access share disposition options ea right → Given full h right path := by
  have ha : (Policy.nothingAllowed.winCalls os h).auditOnly = false := winCalls_audit _ _ _
  simp only [Policy.winEvaluate, ha, Bool.false_eq_true, if_false]
  rw [winCheckFileOpen_iff _ _ _ _ _ _ _ _ _ (hdbg.imp id fun h => Bool.eq_false_iff.2 (mt (containsPdb_iff path).1 h))]
  simp only [given_iff hos (p := Policy.nothingAllowed) rfl rfl h _ hpath]

/-- For every path at all, nothing is granted beyond the rules. -/
theorem C58_no_excess_access (debug : Bool) (os : WinOs) (full : Str → Str) (hos : FullNames os full)
    (h : List WinCall) (path : Str) (access attributes share disposition options : BitVec 32)
    (ea : Bytes) (hdbg : debug = false ∨ ¬ c!".pdb" <:+: path)
    (hg : ((Policy.nothingAllowed.winCalls os h).winEvaluate debug
        (.fileOpen path access attributes share disposition options ea)).1 = .granted) :
    SupportedFileRequest access attributes disposition options ∧ path.head? = some '\\' ∧
      (∃ right, Given full h right path) ∧
      ∀ right, Asks access share disposition options ea right → Given full h right path := by
  have ha : (Policy.nothingAllowed.winCalls os h).auditOnly = false := winCalls_audit _ _ _
  simp only [Policy.winEvaluate, ha, Bool.false_eq_true, if_false] at hg
  obtain ⟨h1, h2, ⟨r, h3⟩, h4⟩ := (winCheckFileOpen_iff _ _ _ _ _ _ _ _ _
    (hdbg.imp id fun h => Bool.eq_false_iff.2 (mt (containsPdb_iff path).1 h))).1 hg
  exact ⟨h1, h2, ⟨r, given_only hos rfl rfl h r path h3⟩, fun r hr => given_only hos rfl rfl h r path (h4 r hr)⟩

/-- In a debug build every request on a path with `.pdb` in it is granted, whatever the rules. -/
theorem C58_debug_builds (p : Policy) (path : Str) (access attributes share disposition options : BitVec 32)
    (ea : Bytes) (hp : c!".pdb" <:+: path) :
    (p.winEvaluate true (.fileOpen path access attributes share disposition options ea)).1 = .granted := by
  have : containsPdb path = true := (containsPdb_iff path).2 hp
  simp only [Policy.winEvaluate, Policy.winCheckFileOpen, this, Bool.and_true, if_true]
  split <;> rfl

example : ((Policy.nothingAllowed.winCalls plainOs
    [.fs (.dirRead c!"C:\\Windows"), .fs (.fileWrite c!"D:\\log.txt"), .fs (.dirLock c!"C:\\" true true true)]).winEvaluate
      false (.fileOpen c!"\\??\\C:\\Windows\\System32\\x.dll" 0x80100080 0x80 0 1 0x200060 [])).1 = .granted := by
  decide +kernel

/-- Not without the rule on locks, nor to write. -/
example : ((Policy.nothingAllowed.winCalls plainOs [.fs (.dirRead c!"C:\\Windows")]).winEvaluate
      false (.fileOpen c!"\\??\\C:\\Windows\\System32\\x.dll" 0x80100080 0x80 0 1 0x200060 [])).1 ≠ .granted ∧
    ((Policy.nothingAllowed.winCalls plainOs
      [.fs (.dirRead c!"C:\\Windows"), .fs (.dirLock c!"C:\\" true true true)]).winEvaluate
      false (.fileOpen c!"\\??\\C:\\Windows\\System32\\x.dll" 0x40100080 0x80 0 1 0x200060 [])).1 ≠ .granted := by
  decide +kernel

example : ¬ HasEmptyName c!"\\??\\C:\\Windows\\x.dll" := by
  simp only [HasEmptyName]; decide

/-! ## C85 A rule accepted on Windows has an effect: violated -/

/-- A rule on a path that is not on a drive is accepted and has no effect at all. -/
theorem C85_accepted_rule_without_effect_violated (os : WinOs) (full : Str → Str) (hos : FullNames os full)
    (p : Policy) (c : FsCall) (hc : ¬ OnDrive (full c.path)) :
    p.winCall os (.fs c) = (.ok (), p) := by
  have hf : isDriveAbsolute (full c.path) = false := by
    rw [← Bool.not_eq_true, isDriveAbsolute_iff]; exact hc
  simp only [Policy.winCall, fsCall_eq, Policy.allowFileAccess, winPathOs, absolute_eq hos, hf]
  rfl

/-- A share on the network. -/
example : ¬ OnDrive (id c!"\\\\server\\share\\a.txt") := by
  rintro ⟨c, rest, h, _⟩; simp at h

/-- The right a call is about. -/
def Spec.Offers (right : Right) : FsCall → Prop
  | .fileRead _ | .dirRead _ => right = .read
  | .fileWrite _ | .dirWrite _ => right = .write
  | .fileLock _ readers writers deleters | .dirLock _ readers writers deleters =>
    right = .blockReaders ∧ readers = true ∨ right = .blockWriters ∧ writers = true ∨
      right = .blockDeleters ∧ deleters = true

/-- A request for one right only: read data, write data, or open while keeping some others out. -/
def Spec.simplest (path : Str) : Right → WinRequest
  | .read => .fileOpen path 1 0 7 1 0x200000 []
  | .write => .fileOpen path 2 0 7 1 0x200000 []
  | .blockReaders => .fileOpen path 0 0 6 1 0x200000 []
  | .blockWriters => .fileOpen path 0 0 5 1 0x200000 []
  | .blockDeleters => .fileOpen path 0 0 3 1 0x200000 []

/-- What holds instead: no call on a path is ever refused, and one on a drive has the effect it says, on
the path itself. Missing with respect to C85: paths that are not on a drive. -/
theorem C85_rule_on_drive_partial (os : WinOs) (full : Str → Str) (hos : FullNames os full) (h : List WinCall)
    (c : FsCall) (hm : .fs c ∈ h) (hd : OnDrive (full c.path)) (right : Right) (hr : Offers right c)
    (hne : ¬ HasEmptyName (c!"\\??\\" ++ full c.path)) :
    (∀ p : Policy, (p.winCall os (.fs c)).1 = .ok ()) ∧
    ((Policy.nothingAllowed.winCalls os h).winEvaluate false
      (simplest (c!"\\??\\" ++ full c.path) right)).1 = .granted := by
  have hg : Given full h right (c!"\\??\\" ++ full c.path) := by
    refine ⟨c, hm, ?_⟩
    have hk : KernelName full c.path (trim (c!"\\??\\" ++ full c.path)) := ⟨hd, rfl⟩
    cases c with
    | fileRead r => exact ⟨hr, hk⟩
    | fileWrite r => exact ⟨hr, hk⟩
    | fileLock r x y z => exact ⟨hr, hk⟩
    | dirRead r => exact ⟨hr, _, hk, .inl rfl⟩
    | dirWrite r => exact ⟨hr, _, hk, .inl rfl⟩
    | dirLock r x y z => exact ⟨hr, _, hk, .inl rfl⟩
  refine ⟨fun p => ?_, ?_⟩
  · simp only [Policy.winCall, fsCall_eq, Policy.allowFileAccess, winPathOs]
  · have bits : ∀ w : BitVec 32, w = 0 ∨ w = 1 ∨ w = 2 → SupportedFileRequest w 0 1 0x200000 := by
      rintro w (rfl | rfl | rfl) <;>
        exact ⟨by unfold SupportedFileAccess OnlyBits; decide, by unfold SupportedAttributes OnlyBits; decide,
          by decide, by decide⟩
    cases right <;>
      refine (C58_file_open_exact false os full hos h _ _ _ _ _ _ _ (.inl rfl) hne).2
        ⟨bits _ (by decide), rfl, ⟨_, hg⟩, fun right' hask => ?_⟩ <;>
      cases right' <;> first
        | exact hg
        | (exfalso; revert hask; simp only [Asks, Has]; decide)

/-- A path on a drive. -/
example : OnDrive (id c!"C:\\a") ∧ Offers .read (.fileRead c!"C:\\a") ∧
    ¬ HasEmptyName (c!"\\??\\" ++ id c!"C:\\a") := by
  refine ⟨⟨'C', ['a'], rfl, by decide⟩, rfl, ?_⟩
  unfold HasEmptyName; decide

/-! ## C59 Windows registry decisions follow the rules: violated -/

/-- The standard mask to read a key (`KEY_READ`) has the right to be notified and to read the security of the
key. -/
def Spec.keyRead : BitVec 32 := 0x20019

/-- `KEY_READ` asks for nothing but reading, and a rule gives reading, but the request is refused. -/
theorem C59_key_read_violated :
    SupportedKeyAccess keyRead ∧ ¬ AsksKeyWrite keyRead false ∧
    RegReadAllowed plainOs.sid [.regRead c!"HKEY_LOCAL_MACHINE\\Software"] c!"\\REGISTRY\\MACHINE\\Software\\a" ∧
    ((Policy.nothingAllowed.winCalls plainOs [.regRead c!"HKEY_LOCAL_MACHINE\\Software"]).winEvaluate false
      (.regKeyOpen c!"\\REGISTRY\\MACHINE\\Software\\a" keyRead 0 false)).1 ≠ .granted := by
  refine ⟨?_, ?_, ?_, ?_⟩
  · unfold SupportedKeyAccess OnlyBits; decide
  · unfold AsksKeyWrite; decide
  · refine ⟨_, _, .head _, ⟨c!"HKEY_LOCAL_MACHINE", c!"\\REGISTRY\\MACHINE", c!"\\Software", by simp [regRoots], rfl, rfl⟩,
      .inr ?_⟩
    exact ⟨c!"a", rfl⟩
  · decide +kernel

/-- What is granted, exactly, for keys without an empty name. Missing with respect to C59: rights that
neither read nor change the key need both rules. -/
theorem C59_registry_exact_partial (debug : Bool) (os : WinOs) (h : List WinCall) (path : Str)
    (access options : BitVec 32) (create : Bool) (hpath : ¬ HasEmptyName path) :
    ((Policy.nothingAllowed.winCalls os h).winEvaluate debug (.regKeyOpen path access options create)).1 = .granted ↔
      SupportedKeyAccess access ∧ SupportedKeyOptions options ∧
      (RegReadAllowed os.sid h path ∨ RegWriteAllowed os.sid h path) ∧
      (AsksKeyRead access ∨ AsksKeyOther access → RegReadAllowed os.sid h path) ∧
      (AsksKeyWrite access create ∨ AsksKeyOther access → RegWriteAllowed os.sid h path) := by
  have ha : (Policy.nothingAllowed.winCalls os h).auditOnly = false := winCalls_audit _ _ _
  simp only [Policy.winEvaluate, ha, Bool.false_eq_true, if_false]
  rw [winCheckRegKeyOpen_iff]
  simp only [regRead_iff (p := Policy.nothingAllowed) rfl h hpath, regWrite_iff (p := Policy.nothingAllowed) rfl h hpath]

/-- The same in terms of C59, for the masks that only read or change the key. -/
theorem C59_registry_plain_masks_partial (debug : Bool) (os : WinOs) (h : List WinCall) (path : Str)
    (access options : BitVec 32) (create : Bool) (hpath : ¬ HasEmptyName path) (hmask : ¬ AsksKeyOther access) :
    ((Policy.nothingAllowed.winCalls os h).winEvaluate debug (.regKeyOpen path access options create)).1 = .granted ↔
      SupportedKeyAccess access ∧ SupportedKeyOptions options ∧
      (RegReadAllowed os.sid h path ∨ RegWriteAllowed os.sid h path) ∧
      (AsksKeyRead access → RegReadAllowed os.sid h path) ∧
      (AsksKeyWrite access create → RegWriteAllowed os.sid h path) := by
  rw [C59_registry_exact_partial debug os h path access options create hpath]
  simp only [hmask, or_false]

/-- For every path at all, nothing is granted beyond the rules. -/
theorem C59_no_excess_access (debug : Bool) (os : WinOs) (h : List WinCall) (path : Str)
    (access options : BitVec 32) (create : Bool)
    (hg : ((Policy.nothingAllowed.winCalls os h).winEvaluate debug
      (.regKeyOpen path access options create)).1 = .granted) :
    SupportedKeyAccess access ∧ SupportedKeyOptions options ∧
      (RegReadAllowed os.sid h path ∨ RegWriteAllowed os.sid h path) ∧
      (AsksKeyRead access → RegReadAllowed os.sid h path) ∧
      (AsksKeyWrite access create → RegWriteAllowed os.sid h path) := by
  have ha : (Policy.nothingAllowed.winCalls os h).auditOnly = false := winCalls_audit _ _ _
  simp only [Policy.winEvaluate, ha, Bool.false_eq_true, if_false] at hg
  obtain ⟨h1, h2, h3, h4, h5⟩ := (winCheckRegKeyOpen_iff _ _ _ _ _).1 hg
  refine ⟨h1, h2, ?_, fun hr => regRead_only rfl h path (h4 (.inl hr)), fun hr => regWrite_only rfl h path (h5 (.inl hr))⟩
  exact h3.imp (regRead_only rfl h path) (regWrite_only rfl h path)

example : ((Policy.nothingAllowed.winCalls plainOs [.regRead c!"HKEY_CURRENT_USER\\Software\\"]).winEvaluate false
      (.regKeyOpen c!"\\REGISTRY\\USER\\S-1-5-21\\Software\\a\\b" 9 0 false)).1 = .granted ∧
    ¬ AsksKeyOther 9#32 ∧ ¬ HasEmptyName c!"\\REGISTRY\\USER\\S-1-5-21\\Software\\a\\b" := by
  refine ⟨by decide +kernel, ?_, ?_⟩
  · unfold AsksKeyOther; decide
  · unfold HasEmptyName; decide

/-! ## C66 Registry rule paths map to the documented kernel paths: violated -/

/-- Each root, alone or followed by names, maps to what the kernel calls it. -/
theorem C66_mapping (os : WinOs) (root kernel rest : Str) (hm : (root, kernel) ∈ regRoots os.sid) :
    deriveRegKey os (root ++ rest) = .ok [kernel ++ rest] :=
  (deriveRegKey_ok_iff os _ _).2 ⟨root, kernel, rest, hm, rfl, rfl⟩

/-- Through the interface: a rule on a key gives reading of that key, and of all below it. -/
theorem C66_rule_reaches_key (debug : Bool) (os : WinOs) (h : List WinCall) (root kernel rest below : Str)
    (hm : (root, kernel) ∈ regRoots os.sid) (hin : .regRead (root ++ rest) ∈ h)
    (hb : below = [] ∨ below.head? = some '\\')
    (hne : ¬ HasEmptyName (kernel ++ rest ++ below)) (hend : (kernel ++ rest ++ below).getLast? ≠ some '\\') :
    ((Policy.nothingAllowed.winCalls os h).winEvaluate debug
      (.regKeyOpen (kernel ++ rest ++ below) 1 0 false)).1 = .granted := by
  have ht : trim (kernel ++ rest ++ below) = kernel ++ rest ++ below := by rw [trim, if_neg hend]
  have hr : RegReadAllowed os.sid h (kernel ++ rest ++ below) := by
    refine ⟨_, _, hin, ⟨root, kernel, rest, hm, rfl, rfl⟩, ?_⟩
    rw [ht]
    rcases hb with rfl | hb
    · left; rw [List.append_nil] at hend ⊢; rw [trim, if_neg hend]
    · right
      obtain ⟨t, rfl⟩ : ∃ t, below = '\\' :: t := by
        cases below with
        | nil => cases hb
        | cons c t => simp at hb; exact ⟨t, by rw [hb]⟩
      have : (kernel ++ rest).getLast? ≠ some '\\' := by
        intro hl
        obtain ⟨u, hu⟩ := List.getLast?_eq_some_iff.1 hl
        exact hne ⟨u, t, by rw [hu]; simp⟩
      rw [trim, if_neg this]
      exact ⟨t, by simp⟩
  rw [C59_registry_exact_partial _ _ _ _ _ _ _ hne]
  refine ⟨?_, .inl rfl, .inl hr, fun _ => hr, ?_⟩
  · unfold SupportedKeyAccess OnlyBits; decide
  · intro hw
    exfalso
    revert hw
    unfold AsksKeyWrite AsksKeyOther
    decide

/-- A rule is refused exactly when no root begins it, and then changes nothing. Missing with respect to C66: a
name that only begins like a root should be refused too. -/
theorem C66_unknown_root_partial (os : WinOs) (p : Policy) (r : Str) (write : Bool) :
    ((∀ root kernel, (root, kernel) ∈ regRoots os.sid → ¬ root <+: r) →
      p.winCall os (if write then .regWrite r else .regRead r) = (.error (.unsupportedRegistryPath r), p)) ∧
    ((∃ root kernel, (root, kernel) ∈ regRoots os.sid ∧ root <+: r) →
      (p.winCall os (if write then .regWrite r else .regRead r)).1 = .ok ()) := by
  constructor
  · intro h
    have := (deriveRegKey_error_iff os r _).2 ⟨rfl, h⟩
    cases write <;> simp only [if_true, Bool.false_eq_true, if_false, Policy.winCall, Policy.allowRegKey, this]
  · rintro ⟨root, kernel, hm, rest, rfl⟩
    have := C66_mapping os root kernel rest hm
    cases write <;> simp only [if_true, Bool.false_eq_true, if_false, Policy.winCall, Policy.allowRegKey, this]

/-- A name that only begins like a root is accepted, and the rule is on another key. -/
theorem C66_root_prefix_violated (os : WinOs) (p : Policy) :
    (p.winCall os (.regRead c!"HKEY_USERSX\\a")).1 = .ok () ∧
    deriveRegKey os c!"HKEY_USERSX\\a" = .ok [c!"\\REGISTRY\\USERX\\a"] := ⟨rfl, rfl⟩

/-- Different names under one root remain different. -/
theorem C66_injective (os : WinOs) (root kernel rest rest' : Str) (hm : (root, kernel) ∈ regRoots os.sid)
    (h : deriveRegKey os (root ++ rest) = deriveRegKey os (root ++ rest')) : rest = rest' := by
  rw [C66_mapping os _ _ _ hm, C66_mapping os _ _ _ hm] at h
  simpa using h

example : deriveRegKey plainOs c!"HKEY_CURRENT_USER\\Software" = .ok [c!"\\REGISTRY\\USER\\S-1-5-21\\Software"] ∧
    deriveRegKey plainOs c!"HKLM\\Software" = .error (.unsupportedRegistryPath c!"HKLM\\Software") := ⟨rfl, rfl⟩

/-! ## C82 Options that change what a request means are refused on Windows: violated -/

/-- The decision depends only on two of the options: that links are not followed (bit 21), and that the file is
deleted when it is closed (bit 12). -/
theorem C82_other_options_ignored (debug : Bool) (p : Policy) (path : Str)
    (access attributes share disposition options options' : BitVec 32) (ea : Bytes)
    (h12 : options.getLsbD 12 = options'.getLsbD 12) (h21 : options.getLsbD 21 = options'.getLsbD 21) :
    (p.winEvaluate debug (.fileOpen path access attributes share disposition options ea)).1 =
      (p.winEvaluate debug (.fileOpen path access attributes share disposition options' ea)).1 := by
  have key : ∀ (m : BitVec 32) (n : Nat), (∀ i, i < 32 → (m.getLsbD i = true ↔ i = n)) →
      options.getLsbD n = options'.getLsbD n → options &&& m = options' &&& m := by
    intro m n hm hn
    apply BitVec.eq_of_getLsbD_eq
    intro i hi
    rw [BitVec.getLsbD_and, BitVec.getLsbD_and]
    cases hb : m.getLsbD i with
    | false => simp
    | true => rw [(hm i hi).1 hb, hn]
  have h1 : options &&& FILE_FLAG_OPEN_REPARSE_POINT = options' &&& FILE_FLAG_OPEN_REPARSE_POINT :=
    key _ 21 (by decide) h21
  have h2 : options &&& FILE_DELETE_ON_CLOSE = options' &&& FILE_DELETE_ON_CLOSE := key _ 12 (by decide) h12
  simp only [Policy.winEvaluate, Policy.winCheckFileOpen, h1, h2]

/-- So a request to open a file by its number (`FILE_OPEN_BY_FILE_ID`, 0x2000), for which the name is not a path
at all, is granted whenever the same one by path is. -/
theorem C82_open_by_id_violated (debug : Bool) (p : Policy) (path : Str)
    (access attributes share disposition options : BitVec 32) (ea : Bytes)
    (hg : (p.winEvaluate debug (.fileOpen path access attributes share disposition options ea)).1 = .granted) :
    (p.winEvaluate debug
      (.fileOpen path access attributes share disposition (options ||| 0x2000) ea)).1 = .granted := by
  rw [C82_other_options_ignored debug p path access attributes share disposition (options ||| 0x2000) options ea ?_ ?_]
  · exact hg
  · rw [BitVec.getLsbD_or]; simp
  · rw [BitVec.getLsbD_or]; simp

/-- What holds instead, in any build and for any policy that is not for auditing: links are never followed, and
a file is deleted on close only with write access. Missing with respect to C82: all other options. -/
theorem C82_links_and_deletion_partial (os : WinOs) (full : Str → Str) (hos : FullNames os full)
    (h : List WinCall) (path : Str) (access attributes share disposition options : BitVec 32) (ea : Bytes)
    (hg : ((Policy.nothingAllowed.winCalls os h).winEvaluate false
        (.fileOpen path access attributes share disposition options ea)).1 = .granted) :
    Has options 0x200000 ∧ (Has options 0x1000 → Given full h .write path) := by
  obtain ⟨h1, _, _, h4⟩ := C58_no_excess_access false os full hos h path _ _ _ _ _ _ (.inl rfl) hg
  exact ⟨h1.2.2.1, fun hd => h4 .write (.inr (.inr (.inl hd)))⟩

example : ((Policy.nothingAllowed.winCalls plainOs
    [.fs (.dirRead c!"C:\\"), .fs (.dirLock c!"C:\\" true true true)]).winEvaluate
      false (.fileOpen c!"\\??\\C:\\12345678" 0x80100080 0x80 0 1 0x202060 [])).1 = .granted := by decide +kernel

/-! ## C83 Audit mode and notifications on Windows -/

/-- The callbacks a history registers, in order. -/
def Spec.winRegistered (h : List WinCall) : List Nat :=
  h.filterMap fun | .addLogCallback cb => some cb | _ => none

theorem winCalls_callbacks (os : WinOs) (p : Policy) (h : List WinCall) :
    (p.winCalls os h).callbacks = p.callbacks ++ winRegistered h := by
  induction h generalizing p with
  | nil => simp [Policy.winCalls, winRegistered]
  | cons c h ih =>
    have := ih (p.winCall os c).2
    simp only [Policy.winCalls, List.foldl_cons] at this ⊢
    rw [this, (winCall_rest os p c).2]
    cases c <;> simp [winRegistered]

/-- The tables do not depend on the audit flag. -/
theorem winCall_audit_same (os : WinOs) (p : Policy) (c : WinCall) (b : Bool) :
    ({ p with auditOnly := b } : Policy).winCall os c =
      ((p.winCall os c).1, { (p.winCall os c).2 with auditOnly := b }) := by
  cases c with
  | fs d =>
    simp only [Policy.winCall, fsCall_eq]
    cases hd : (winPathOs os).derive d.path with
    | error e => rw [allowFileAccess_error hd, allowFileAccess_error hd]
    | ok ds =>
      rw [allowFileAccess_ok hd, allowFileAccess_ok hd]
      congr 1
      generalize d.isDir = dir
      clear hd
      induction ds generalizing p with
      | nil => rfl
      | cons x ds ih =>
        simp only [List.foldl_cons]
        rw [← ih]
        cases dir <;> rfl
  | addLogCallback cb => rfl
  | inheritHandle raw q =>
    simp only [Policy.winCall, Policy.allowInheritHandle]
    split <;> rfl
  | regRead path => simp only [Policy.winCall, Policy.allowRegKey]; split <;> rfl
  | regWrite path => simp only [Policy.winCall, Policy.allowRegKey]; split <;> rfl

theorem winCalls_audit_same (os : WinOs) (p : Policy) (h : List WinCall) (b : Bool) :
    ({ p with auditOnly := b } : Policy).winCalls os h = { (p.winCalls os h) with auditOnly := b } := by
  induction h generalizing p with
  | nil => rfl
  | cons c h ih =>
    have := ih (p.winCall os c).2
    simp only [Policy.winCalls, List.foldl_cons] at this ⊢
    rw [winCall_audit_same]
    exact this

/-- Whatever the history, a policy for auditing grants every request; and with either kind of policy each callback
is told once of each request, in order, with the verdict the policy gives or would give if it were enforced. -/
theorem C83_audit_and_notifications (debug audit : Bool) (os : WinOs) (h : List WinCall) (reqs : List WinRequest) :
    let p := (if audit then Policy.auditOnlyPolicy else Policy.nothingAllowed).winCalls os h
    (audit = true → ∀ req, (p.winEvaluate debug req).1 = .granted) ∧
    reqs.flatMap (fun r => (p.winEvaluate debug r).2) =
      reqs.flatMap (fun r => (winRegistered h).map fun cb =>
        ⟨cb, r, ((Policy.nothingAllowed.winCalls os h).winEvaluate debug r).1⟩) := by
  intro p
  have hp : p = { (Policy.nothingAllowed.winCalls os h) with auditOnly := audit } := by
    rw [← winCalls_audit_same]
    cases audit <;> rfl
  have he : (Policy.nothingAllowed.winCalls os h).auditOnly = false := winCalls_audit _ _ _
  have hcb : p.callbacks = winRegistered h := by
    rw [hp]; simp only; rw [winCalls_callbacks]; rfl
  constructor
  · intro ha req
    simp only [Policy.winEvaluate, hp, ha, if_true]
  · congr 1
    funext r
    simp only [Policy.winEvaluate, Policy.logVerdict, hcb, he, Bool.false_eq_true, if_false]
    rw [hp]
    cases r <;> rfl

example : ((Policy.auditOnlyPolicy.winCalls plainOs [.addLogCallback 4, .regRead c!"HKEY_USERS", .addLogCallback 2]).winEvaluate
    false (.regKeyOpen c!"\\REGISTRY\\MACHINE" 1 0 false)) =
    (.granted, [⟨4, .regKeyOpen c!"\\REGISTRY\\MACHINE" 1 0 false,
        .deniedByPolicy c!"requests read-only access, but has no access to that path"⟩,
      ⟨2, .regKeyOpen c!"\\REGISTRY\\MACHINE" 1 0 false,
        .deniedByPolicy c!"requests read-only access, but has no access to that path"⟩]) := by decide +kernel

/-! ## C84 On Windows too, rules only add up -/

/-- Two histories with the same calls, in any order and with any repetitions, decide the same. -/
theorem C84_order_and_repetition (debug : Bool) (os : WinOs) (h h' : List WinCall) (hs : ∀ c, c ∈ h ↔ c ∈ h')
    (req : WinRequest) :
    ((Policy.nothingAllowed.winCalls os h).winEvaluate debug req).1 =
      ((Policy.nothingAllowed.winCalls os h').winEvaluate debug req).1 := by
  have ha : ∀ h, (Policy.nothingAllowed.winCalls os h).auditOnly = false := fun h => winCalls_audit _ _ _
  cases req with
  | fileOpen path access attributes share disposition options ea =>
    simp only [Policy.winEvaluate, Policy.winCheckFileOpen, ha, winSep, (winCalls_congr os _ h h' hs path).1]
    rfl
  | regKeyOpen path access options create =>
    simp only [Policy.winEvaluate, Policy.winCheckRegKeyOpen, ha, (winCalls_congr os _ h h' hs path).2]

/-- A request that is granted remains so whatever calls are added anywhere. -/
theorem C84_monotone (debug : Bool) (os : WinOs) (h h' : List WinCall) (hs : ∀ c ∈ h, c ∈ h') (req : WinRequest)
    (hg : ((Policy.nothingAllowed.winCalls os h).winEvaluate debug req).1 = .granted) :
    ((Policy.nothingAllowed.winCalls os h').winEvaluate debug req).1 = .granted := by
  have ha : ∀ h, (Policy.nothingAllowed.winCalls os h).auditOnly = false := fun h => winCalls_audit _ _ _
  have hm := winCalls_mono os Policy.nothingAllowed h h' hs
  cases req with
  | fileOpen path access attributes share disposition options ea =>
    simp only [Policy.winEvaluate, ha, Bool.false_eq_true, if_false] at hg ⊢
    by_cases hd : debug = false ∨ containsPdb path = false
    · rw [winCheckFileOpen_iff _ _ _ _ _ _ _ _ _ hd] at hg ⊢
      obtain ⟨h1, h2, ⟨r, h3⟩, h4⟩ := hg
      exact ⟨h1, h2, ⟨r, hm.1 r path h3⟩, fun r hr => hm.1 r path (h4 r hr)⟩
    · simp only [not_or, Bool.not_eq_false] at hd
      simp only [Policy.winCheckFileOpen, hd.1, hd.2, Bool.and_self, if_true]
  | regKeyOpen path access options create =>
    simp only [Policy.winEvaluate, ha, Bool.false_eq_true, if_false] at hg ⊢
    rw [winCheckRegKeyOpen_iff] at hg ⊢
    obtain ⟨h1, h2, h3, h4, h5⟩ := hg
    exact ⟨h1, h2, h3.imp (hm.2.1 path) (hm.2.2 path), fun h => hm.2.1 path (h4 h), fun h => hm.2.2 path (h5 h)⟩

/-- Without rules nothing is granted in a release build. -/
theorem C84_deny_by_default (os : WinOs) (h : List WinCall)
    (hno : ∀ c ∈ h, (∃ cb, c = .addLogCallback cb) ∨ ∃ raw q, c = .inheritHandle raw q) (req : WinRequest) :
    ((Policy.nothingAllowed.winCalls os h).winEvaluate false req).1 ≠ .granted := by
  have ha : (Policy.nothingAllowed.winCalls os h).auditOnly = false := winCalls_audit _ _ _
  intro hg
  cases req with
  | fileOpen path access attributes share disposition options ea =>
    simp only [Policy.winEvaluate, ha, Bool.false_eq_true, if_false] at hg
    obtain ⟨_, _, ⟨r, h3⟩, _⟩ := (winCheckFileOpen_iff _ _ _ _ _ _ _ _ _ (.inl rfl)).1 hg
    have hn : ∀ d, WinCall.fs d ∉ h := by
      intro d hd
      rcases hno _ hd with ⟨_, h⟩ | ⟨_, _, h⟩ <;> cases h
    rcases allowedAccess_only (rightProj_ok r) _ _ h3 with h | ⟨k, _, h⟩
    · rcases (winCalls_tables (rightProj_ok r) os _ _ _).2.1 h with h | ⟨d, hd, _⟩
      · simp [TableHas, Policy.nothingAllowed, AMap.get] at h
      · exact hn d hd
    · rcases (winCalls_tables (rightProj_ok r) os _ _ _).1.1 h with h | ⟨d, hd, _⟩
      · simp [TableHas, Policy.nothingAllowed, AMap.get] at h
      · exact hn d hd
  | regKeyOpen path access options create =>
    obtain ⟨_, _, h3, _⟩ := C59_no_excess_access _ _ _ _ _ _ _ hg
    rcases h3 with ⟨r, _, hm, _⟩ | ⟨r, _, hm, _⟩
    · rcases hno _ hm with ⟨_, h⟩ | ⟨_, _, h⟩ <;> cases h
    · rcases hno _ hm with ⟨_, h⟩ | ⟨_, _, h⟩ <;> cases h

example : ∀ c, c ∈ [WinCall.regRead c!"HKEY_USERS", .fs (.fileRead c!"C:\\a")] ↔
    c ∈ [WinCall.fs (.fileRead c!"C:\\a"), .regRead c!"HKEY_USERS", .fs (.fileRead c!"C:\\a")] := by
  simp only [List.mem_cons, List.not_mem_nil, or_false]
  intro c
  constructor
  · rintro (h | h)
    · exact .inr (.inl h)
    · exact .inl h
  · rintro (h | h | h)
    · exact .inr h
    · exact .inl h
    · exact .inr h

end Iris
