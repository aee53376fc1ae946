import Verif.Lemmas.Reasons
import Verif.Props.WinPolicy
/-! # C117 and C118: the reason given with a decision is true -/
namespace Iris
open Spec

/-! ## C117 On Linux -/

/-- A policy at its creation. -/
def Spec.fresh (audit : Bool) : Policy := if audit then .auditOnlyPolicy else .nothingAllowed

/-- Whatever the calls on a policy, the verdict on a request to open a file comes with a true reason. -/
theorem C117_reasons_are_true [Target] (h : List Call) (path : Str) (flags : BitVec 32) :
    LinuxReasonTrue h path flags ((Policy.nothingAllowed.calls h).evaluate (.fileOpen path flags)).1 := by
  have ha : (Policy.nothingAllowed.calls h).auditOnly = false := calls_audit _ _
  rw [evaluate_fst, ha]
  simp only [Bool.false_eq_true, if_false]
  exact checkFileOpen_reason rfl rfl h path flags

example : ((@Policy.evaluate x86_64 (Policy.nothingAllowed.calls [.fs (.dirRead c!"/etc")])
    (.fileOpen c!"/etc/passwd" O_RDWR))).1 = .deniedByPolicy c!"requests read-write access, but can only read" ∧
  ((@Policy.evaluate x86_64 (Policy.nothingAllowed.calls [.fs (.dirRead c!"/etc")])
    (.fileOpen c!"/etc/passwd" 0x3000))).1 = .delegationNotSupported c!"open flag 0x3000 not supported" := by
  decide +kernel

/-- So do log callbacks, also in audit mode. -/
theorem C117_callbacks_get_true_reasons [Target] (audit : Bool) (h : List Call) (path : Str) (flags : BitVec 32)
    (n : Notification Request)
    (hn : n ∈ (((Spec.fresh audit).calls h).evaluate (.fileOpen path flags)).2) :
    LinuxReasonTrue h path flags n.verdict := by
  simp only [Policy.evaluate, Policy.logVerdict, List.mem_map] at hn
  obtain ⟨cb, _, rfl⟩ := hn
  cases audit
  · exact checkFileOpen_reason (p := .nothingAllowed) rfl rfl h path flags
  · exact checkFileOpen_reason (p := .auditOnlyPolicy) rfl rfl h path flags

example : ⟨4, .fileOpen c!"/etc/passwd" O_WRONLY, .deniedByPolicy c!"requests write-only access, but can only read"⟩ ∈
    (@Policy.evaluate x86_64 ((Spec.fresh true).calls [.fs (.dirRead c!"/etc"), .addLogCallback 4])
      (.fileOpen c!"/etc/passwd" O_WRONLY)).2 := by
  decide +kernel

/-- Sentences are not ambiguous: each says only one thing about what was asked and about the rules. -/
theorem C117_sentences_say_one_thing {r w r' w' cr cw cr' cw' : Prop} {x y x' y' : Str}
    (h1 : AskedWords c!"read-write" r w x) (h2 : AskedWords c!"read-write" r' w' x')
    (h3 : HeldWords cr cw y) (h4 : HeldWords cr' cw' y')
    (he : c!"requests " ++ x ++ c!" access, but " ++ y = c!"requests " ++ x' ++ c!" access, but " ++ y') :
    ((r ↔ r') ∧ (w ↔ w')) ∧ ((cr ↔ cr') ∧ (cw ↔ cw')) := by
  rcases h1 with ⟨a1, a2, rfl⟩ | ⟨a1, a2, rfl⟩ | ⟨a1, a2, rfl⟩ | ⟨a1, a2, rfl⟩ <;>
  rcases h2 with ⟨b1, b2, rfl⟩ | ⟨b1, b2, rfl⟩ | ⟨b1, b2, rfl⟩ | ⟨b1, b2, rfl⟩ <;>
  rcases h3 with ⟨c1, c2, rfl⟩ | ⟨c1, c2, rfl⟩ | ⟨c1, c2, rfl⟩ <;>
  rcases h4 with ⟨d1, d2, rfl⟩ | ⟨d1, d2, rfl⟩ | ⟨d1, d2, rfl⟩ <;>
  first
    | (exfalso; revert he; decide)
    | (clear he; simp only [a1, a2, b1, b2, c1, c2, d1, d2, and_self])

example : AskedWords c!"read-write" True False c!"read-only" ∧ HeldWords False True c!"can only write" := by
  simp [AskedWords, HeldWords]

/-! ## C118 On Windows -/

/-- Whatever the calls on a policy, the verdict on a request to open a file comes with a true reason. -/
theorem C118_file_reasons_are_true (debug : Bool) (os : WinOs) (full : Str → Str) (hos : FullNames os full)
    (h : List WinCall) (path : Str) (access attributes share disposition options : BitVec 32) (ea : Bytes)
    (hpath : ¬ HasEmptyName path) :
    WinFileReasonTrue (fun right => Given full h right path) path access attributes share disposition options ea
      ((Policy.nothingAllowed.winCalls os h).winEvaluate debug
        (.fileOpen path access attributes share disposition options ea)).1 := by
  have ha : (Policy.nothingAllowed.winCalls os h).auditOnly = false := winCalls_audit _ _ _
  simp only [Policy.winEvaluate, ha, Bool.false_eq_true, if_false]
  exact winCheckFileOpen_reason _ _ _ _ _ _ _ _ _ _
    (fun r => given_iff hos (p := Policy.nothingAllowed) rfl rfl h r hpath)

example : ((Policy.nothingAllowed.winCalls plainOs
    [.fs (.dirRead c!"C:\\Windows"), .fs (.dirLock c!"C:\\" false true true)]).winEvaluate
      false (.fileOpen c!"\\??\\C:\\Windows\\x.dll" 0x80100080 0x80 2 1 0x200060 [])).1 =
      .deniedByPolicy c!"requests to block other readers deleters but can only block writers deleters" ∧
    ((Policy.nothingAllowed.winCalls plainOs [.fs (.dirRead c!"C:\\Windows")]).winEvaluate
      false (.fileOpen c!"\\??\\C:\\Windows\\x.dll" 0xC0100080 0x80 0 1 0x200060 [])).1 =
      .deniedByPolicy c!"requests read and write, but can only read" := by
  decide +kernel

/-- C118 for registry keys, full statement. -/
def Spec.KeyReasonsTrue : Prop :=
  ∀ (debug : Bool) (os : WinOs) (h : List WinCall) (path : Str) (access options : BitVec 32) (create : Bool),
    ¬ HasEmptyName path →
    KeyReasonTrue (RegReadAllowed os.sid h path) (RegWriteAllowed os.sid h path) (AsksKeyRead access)
      (AsksKeyWrite access create) access options
      ((Policy.nothingAllowed.winCalls os h).winEvaluate debug (.regKeyOpen path access options create)).1

/-- The verdict on a request to open a registry key comes with a true reason, if the mask has none of the rights
that the code calls always granted. Missing from the full statement: those. -/
theorem C118_key_reasons_are_true_partial (debug : Bool) (os : WinOs) (h : List WinCall) (path : Str)
    (access options : BitVec 32) (create : Bool) (hpath : ¬ HasEmptyName path) (hmask : ¬ AsksKeyOther access) :
    KeyReasonTrue (RegReadAllowed os.sid h path) (RegWriteAllowed os.sid h path) (AsksKeyRead access)
      (AsksKeyWrite access create) access options
      ((Policy.nothingAllowed.winCalls os h).winEvaluate debug (.regKeyOpen path access options create)).1 := by
  have ha : (Policy.nothingAllowed.winCalls os h).auditOnly = false := winCalls_audit _ _ _
  simp only [Policy.winEvaluate, ha, Bool.false_eq_true, if_false]
  have := winCheckRegKeyOpen_reason (Policy.nothingAllowed.winCalls os h) path access options create _ _
    (regRead_iff (p := Policy.nothingAllowed) rfl h hpath) (regWrite_iff (p := Policy.nothingAllowed) rfl h hpath)
  simpa only [hmask, or_false] using this

/-- For any mask, what is said of the rules is true. -/
theorem C118_key_rules_are_true_partial (debug : Bool) (os : WinOs) (h : List WinCall) (path : Str)
    (access options : BitVec 32) (create : Bool) (hpath : ¬ HasEmptyName path) :
    KeyReasonTrue (RegReadAllowed os.sid h path) (RegWriteAllowed os.sid h path)
      (AsksKeyRead access ∨ AsksKeyOther access) (AsksKeyWrite access create ∨ AsksKeyOther access) access options
      ((Policy.nothingAllowed.winCalls os h).winEvaluate debug (.regKeyOpen path access options create)).1 := by
  have ha : (Policy.nothingAllowed.winCalls os h).auditOnly = false := winCalls_audit _ _ _
  simp only [Policy.winEvaluate, ha, Bool.false_eq_true, if_false]
  exact winCheckRegKeyOpen_reason (Policy.nothingAllowed.winCalls os h) path access options create _ _
    (regRead_iff (p := Policy.nothingAllowed) rfl h hpath) (regWrite_iff (p := Policy.nothingAllowed) rfl h hpath)

example : ((Policy.nothingAllowed.winCalls plainOs [.regRead c!"HKEY_CURRENT_USER\\Software\\"]).winEvaluate false
      (.regKeyOpen c!"\\REGISTRY\\USER\\S-1-5-21\\Software\\a\\b" 3 0 false)).1 =
      .deniedByPolicy c!"requests read-write access, but can only read" ∧ ¬ AsksKeyOther 3#32 := by
  refine ⟨by decide +kernel, ?_⟩
  unfold AsksKeyOther; decide

/-- It is said that a request asks to read and write when it only asks to be told of changes. -/
theorem C118_violated : ¬ Spec.KeyReasonsTrue := by
  intro h
  have h1 := h false plainOs [] c!"\\REGISTRY\\MACHINE\\a" 0x10 0 false (by unfold HasEmptyName; decide)
  have h2 : ((Policy.nothingAllowed.winCalls plainOs []).winEvaluate false
      (.regKeyOpen c!"\\REGISTRY\\MACHINE\\a" 0x10 0 false)).1 =
      .deniedByPolicy c!"requests read-write access, but has no access to that path" := by decide +kernel
  rw [h2] at h1
  obtain ⟨_, _, x, y, he, hx, hy⟩ := h1
  have nr : ¬ AsksKeyRead 0x10 := by unfold AsksKeyRead; decide
  have nw : ¬ AsksKeyWrite 0x10 false := by unfold AsksKeyWrite; decide
  simp only [AskedWords, nr, nw, false_and, true_and, false_or, not_false_eq_true] at hx
  subst hx
  simp at he

end Iris
