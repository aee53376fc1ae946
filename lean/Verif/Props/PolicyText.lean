import Verif.Lemmas.PolicyText
import Verif.Props.Reasons
/-! # C119: a printed policy tells what is allowed -/
namespace Iris
open Spec

/-- C119, full statement on Linux: two policies which can be printed in the same way are both for audit or both
not, let the same handles be inherited and answer the same to every request. -/
def Spec.PrintFaithful [Target] : Prop :=
  ∀ (audit audit' : Bool) (h h' : List Call) (text : Str),
    ((Spec.fresh audit).calls h).Prints text → ((Spec.fresh audit').calls h').Prints text →
    audit = audit' ∧
    (∀ x, x ∈ ((Spec.fresh audit).calls h).inheritedHandles ↔ x ∈ ((Spec.fresh audit').calls h').inheritedHandles) ∧
    ∀ r, (((Spec.fresh audit).calls h).evaluate r).1 = (((Spec.fresh audit').calls h').evaluate r).1

/-- The same on Windows. -/
def Spec.WinPrintFaithful : Prop :=
  ∀ (os : WinOs) (audit audit' : Bool) (h h' : List WinCall) (text : Str),
    ((Spec.fresh audit).winCalls os h).Prints text → ((Spec.fresh audit').winCalls os h').Prints text →
    audit = audit' ∧
    (∀ x, x ∈ ((Spec.fresh audit).winCalls os h).inheritedHandles ↔
      x ∈ ((Spec.fresh audit').winCalls os h').inheritedHandles) ∧
    ∀ debug r, (((Spec.fresh audit).winCalls os h).winEvaluate debug r).1 =
      (((Spec.fresh audit').winCalls os h').winEvaluate debug r).1

theorem fresh_wf (audit : Bool) : (Spec.fresh audit).WF := by
  cases audit
  · exact nothingAllowed_wf
  · exact auditOnlyPolicy_wf

theorem fresh_audit (audit : Bool) : (Spec.fresh audit).auditOnly = audit := by cases audit <;> rfl

/-- A policy can always be printed. -/
theorem C119_always_prints (p : Policy) : ∃ text, p.Prints text :=
  ⟨_, p.inherit, p.files, p.dirs, p.regkeys, .refl _, .refl _, .refl _, .refl _, rfl⟩

/-- C119: the first line tells whether anything is blocked, whatever the rules are; a policy ends with a line `}`. -/
theorem C119_announces (p : Policy) (text : Str) (hp : p.Prints text) :
    (if p.auditOnly then c!"Policy [/!\\ audit mode, nothing will be blocked] {\n" else c!"Policy {\n") <+: text ∧
    c!"\n}\n" <:+ text ∧ (c!"Policy {\n" <+: text ↔ p.auditOnly = false) := by
  obtain ⟨hs, fs, ds, rs, _, _, _, _, rfl⟩ := hp
  have hsplit : ∀ a b : List Str, unlines (a ++ b) = unlines a ++ unlines b := by
    intro a b
    induction a with
    | nil => rfl
    | cons x xs ih => simp [unlines, ih]
  have hend : ∀ (l : Str) (ls : List Str), c!"\n}\n" <:+ unlines ([l] ++ ls ++ [c!"}"]) := by
    intro l ls
    rw [hsplit]
    have : ∃ t, unlines ([l] ++ ls) = t ++ ['\n'] := by
      generalize hn : ls.length = n
      induction n generalizing l ls with
      | zero =>
        cases ls with
        | nil => exact ⟨l, by simp [unlines]⟩
        | cons => simp at hn
      | succ n ih =>
        cases ls with
        | nil => simp at hn
        | cons x xs =>
          obtain ⟨t, ht⟩ := ih x xs (by simpa using hn)
          refine ⟨l ++ '\n' :: t, ?_⟩
          simp only [List.cons_append, List.nil_append, unlines] at ht ⊢
          rw [ht]
          simp
    obtain ⟨t, ht⟩ := this
    rw [ht]
    exact ⟨t, by simp [unlines]⟩
  refine ⟨?_, hend _ _, ?_⟩
  · cases p.auditOnly <;> simp [printHeader, unlines, List.prefix_iff_eq_take]
  · cases p.auditOnly <;> simp [printHeader, unlines, List.prefix_iff_eq_take]

/-- A printed policy determines its rules, on both systems, except for which kinds of locks they allow. -/
theorem C119_print_tells_rules_partial (p p' : Policy) (hw : p.WF) (hw' : p'.WF) (h1 : OneLineRules p)
    (h2 : OneLineRules p') (text : Str) (hp : p.Prints text) (hp' : p'.Prints text) :
    p.auditOnly = p'.auditOnly ∧ (∀ x, x ∈ p.inheritedHandles ↔ x ∈ p'.inheritedHandles) ∧
    ∀ path, AlmostSame (AMap.get p.files path) (AMap.get p'.files path) ∧
      AlmostSame (AMap.get p.dirs path) (AMap.get p'.dirs path) ∧
      AMap.get p.regkeys path = AMap.get p'.regkeys path := by
  obtain ⟨a1, a2, a3, a4, a5⟩ := prints_inj h1 h2 hp hp'
  obtain ⟨_, b2, b3, b4, b5⟩ := prints_inj h2 h1 hp' hp
  exact ⟨a1, fun x => ⟨a2 x, b2 x⟩, fun path => ⟨get_almost hw.1 hw'.1 a3 b3 path,
    get_almost hw.2.1 hw'.2.1 a4 b4 path, get_same hw.2.2.1 hw'.2.2.1 a5 b5 path⟩⟩

example : (Policy.nothingAllowed.calls [.fs (.fileRead c!"/a"), .fs (.dirWrite c!"/b/"), .fs (.fileLock c!"/a" true false true),
      .inheritHandle 5 (.ok true)]).Prints
    c!"Policy {
    Inherit handle Handle { val: Some(5) }
    /a file read block_readers block_readers
    /b directory write
}
" ∧ OneLineRules (Policy.nothingAllowed.calls [.fs (.fileRead c!"/a"), .fs (.dirWrite c!"/b/")]) := by
  refine ⟨⟨_, _, _, _, .refl _, .refl _, .refl _, .refl _, by decide +kernel⟩, ?_⟩
  unfold OneLineRules; decide +kernel

/-- C119 on Linux, when no rule is about a path with a line break. Missing from the full statement: those, for
which it is false (C119_violated). -/
theorem C119_print_tells_decisions_partial [Target] (audit audit' : Bool) (h h' : List Call)
    (hl : ∀ c, .fs c ∈ h → '\n' ∉ c.path) (hl' : ∀ c, .fs c ∈ h' → '\n' ∉ c.path) (text : Str)
    (hp : ((Spec.fresh audit).calls h).Prints text) (hp' : ((Spec.fresh audit').calls h').Prints text) :
    audit = audit' ∧
    (∀ x, x ∈ ((Spec.fresh audit).calls h).inheritedHandles ↔ x ∈ ((Spec.fresh audit').calls h').inheritedHandles) ∧
    ∀ r, (((Spec.fresh audit).calls h).evaluate r).1 = (((Spec.fresh audit').calls h').evaluate r).1 := by
  have one : ∀ (audit : Bool) (h : List Call), (∀ c, .fs c ∈ h → '\n' ∉ c.path) →
      OneLineRules ((Spec.fresh audit).calls h) := by
    intro audit h hl
    have := calls_oneLine (p := Spec.fresh audit) (by cases audit <;> simp [Policy.Entries, Spec.fresh,
      Policy.nothingAllowed, Policy.auditOnlyPolicy]) h hl
    refine ⟨this.1, this.2, ?_⟩
    rw [calls_regkeys]
    cases audit <;> simp [Spec.fresh, Policy.nothingAllowed, Policy.auditOnlyPolicy]
  obtain ⟨h1, h2, h3⟩ := C119_print_tells_rules_partial _ _ (calls_wf (fresh_wf audit) h)
    (calls_wf (fresh_wf audit') h') (one audit h hl) (one audit' h' hl') text hp hp'
  rw [calls_audit, calls_audit, fresh_audit, fresh_audit] at h1
  refine ⟨h1, h2, fun r => ?_⟩
  have hr : ∀ path, (((Spec.fresh audit).calls h).allowedAccess '/' path).read =
      (((Spec.fresh audit').calls h').allowedAccess '/' path).read :=
    allowedAccess_same projRead '/' (fun k => (almostSame_read (fun k => (h3 k).1) k).1)
      (fun k => (almostSame_read (fun k => (h3 k).2.1) k).1)
  have hw : ∀ path, (((Spec.fresh audit).calls h).allowedAccess '/' path).write =
      (((Spec.fresh audit').calls h').allowedAccess '/' path).write :=
    allowedAccess_same projWrite '/' (fun k => (almostSame_read (fun k => (h3 k).1) k).2)
      (fun k => (almostSame_read (fun k => (h3 k).2.1) k).2)
  have ha : ((Spec.fresh audit).calls h).auditOnly = ((Spec.fresh audit').calls h').auditOnly := by
    rw [calls_audit, calls_audit, fresh_audit, fresh_audit, h1]
  cases r with
  | fileOpen path flags => simp only [Policy.evaluate, ha, Policy.checkFileOpen, hr, hw]
  | syscall nb args ip => simp only [Policy.evaluate, ha]

example : ∀ c, Call.fs c ∈ [Call.fs (.fileRead c!"/a file read"), .inheritHandle 5 (.ok true)] → '\n' ∉ c.path := by
  simp only [List.mem_cons, List.not_mem_nil, or_false]
  rintro c (h | h)
  · cases h; decide
  · cases h

/-- False in full on Linux: one rule on a path with a line break prints as two rules. -/
theorem C119_violated : ¬ @Spec.PrintFaithful x86_64 := by
  intro h
  have := (@h false false [.fs (.fileRead c!"/a file read\n    /b")] [.fs (.fileRead c!"/a"), .fs (.fileRead c!"/b")]
    c!"Policy {
    /a file read
    /b file read
}
" ⟨_, _, _, _, .refl _, .refl _, .refl _, .refl _, by decide +kernel⟩
    ⟨[], [(c!"/a", ⟨true, false, false, false, false⟩), (c!"/b", ⟨true, false, false, false, false⟩)], [], [],
      by decide +kernel, by decide +kernel, by decide +kernel, by decide +kernel, by decide +kernel⟩).2.2
    (.fileOpen c!"/a" O_RDONLY)
  revert this
  decide +kernel

/-- C119 on Windows, without rules about locks and without line breaks. Missing from the full statement: those, for
which it is false (C119_locks_violated). -/
theorem C119_print_tells_windows_decisions_partial (os : WinOs) (audit audit' : Bool) (h h' : List WinCall)
    (hl : ∀ c, .fs c ∈ h → ¬ IsLock c)
    (h1 : OneLineRules ((Spec.fresh audit).winCalls os h)) (h2 : OneLineRules ((Spec.fresh audit').winCalls os h'))
    (text : Str) (hp : ((Spec.fresh audit).winCalls os h).Prints text)
    (hp' : ((Spec.fresh audit').winCalls os h').Prints text) :
    audit = audit' ∧
    (∀ x, x ∈ ((Spec.fresh audit).winCalls os h).inheritedHandles ↔
      x ∈ ((Spec.fresh audit').winCalls os h').inheritedHandles) ∧
    ∀ debug r, (((Spec.fresh audit).winCalls os h).winEvaluate debug r).1 =
      (((Spec.fresh audit').winCalls os h').winEvaluate debug r).1 := by
  obtain ⟨e1, e2, e3⟩ := C119_print_tells_rules_partial _ _ (winCalls_tables_wf (fresh_wf audit) h)
    (winCalls_tables_wf (fresh_wf audit') h') h1 h2 text hp hp'
  have ha := e1
  rw [winCalls_audit, winCalls_audit, fresh_audit, fresh_audit] at e1
  refine ⟨e1, e2, fun debug r => ?_⟩
  have hn := winCalls_noLock (os := os) (p := Spec.fresh audit) (by cases audit <;> simp [Policy.Entries, Spec.fresh,
      Policy.nothingAllowed, Policy.auditOnlyPolicy]) h hl
  have hacc : ∀ path, ((Spec.fresh audit).winCalls os h).allowedAccess winSep path =
      ((Spec.fresh audit').winCalls os h').allowedAccess winSep path := fun path =>
    allowedAccess_congr (almostSame_noLock (fun k => (e3 k).1) hn.1) (almostSame_noLock (fun k => (e3 k).2.1) hn.2) path
  have hreg : ∀ path, ((Spec.fresh audit).winCalls os h).regAllowedAccess path =
      ((Spec.fresh audit').winCalls os h').regAllowedAccess path := by
    intro path
    have hg : ∀ {g}, RegProj g → g (((Spec.fresh audit).winCalls os h).regAllowedAccess path) =
        g (((Spec.fresh audit').winCalls os h').regAllowedAccess path) := by
      intro g hg
      rw [Bool.eq_iff_iff]
      exact ⟨regAccess_mono hg (fun k hk => by simpa only [RegHas, (e3 k).2.2] using hk) path,
        regAccess_mono hg (fun k hk => by simpa only [RegHas, (e3 k).2.2] using hk) path⟩
    exact Prod.ext (hg regFst) (hg regSnd)
  cases r with
  | fileOpen path a b c d e ea => simp only [Policy.winEvaluate, ha, Policy.winCheckFileOpen, hacc]
  | regKeyOpen path a o create => simp only [Policy.winEvaluate, ha, Policy.winCheckRegKeyOpen, hreg]

example : OneLineRules ((Spec.fresh false).winCalls plainOs [.fs (.dirRead c!"C:\\Windows"),
    .regWrite c!"HKEY_CURRENT_USER\\Software\\"]) := by
  unfold OneLineRules; decide +kernel

/-- False in full on Windows: the right to keep readers out prints as the right to keep deleters out. -/
theorem C119_locks_violated : ¬ Spec.WinPrintFaithful := by
  intro h
  have := (h plainOs false false [.fs (.fileLock c!"C:\\a" true false false)] [.fs (.fileLock c!"C:\\a" false false true)]
    c!"Policy {
    \\??\\C:\\a file block_readers
}
" ⟨_, _, _, _, .refl _, .refl _, .refl _, .refl _, by decide +kernel⟩
    ⟨_, _, _, _, .refl _, .refl _, .refl _, .refl _, by decide +kernel⟩).2.2
    false (.fileOpen c!"\\??\\C:\\a" 0 0 6 1 0x200000 [])
  revert this
  decide +kernel

end Iris
