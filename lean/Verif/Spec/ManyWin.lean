import Verif.Model.ManyWin
import Verif.Spec.WinFiles
import Verif.Spec.WinKeys
import Verif.Spec.WholeWin
/-!
# What the workers of a broker on Windows may have done to files and registry keys
-/
namespace Iris.Spec

/-- All that was done for worker `j`, in order. -/
def winDoneFor {T : Type} (j : Nat) (es : List (SharedEvent T)) : List WinAction :=
  es.filterMap fun e => match e with
    | .did k a _ _ => if k = j then some a else none
    | .acted _ _ _ => none

/-- These events are what the threads of this broker process have done. -/
def WinEventsOf {T : Type} (w : WholeWin) (es : List (SharedEvent T)) : Prop :=
  ∀ j, winDoneFor j es = match w.threads j with | some th => th.trace | none => []

/-- Each worker that is served was created with the rules `h j`. -/
def WinRulesAre (os : WinOs) (h : Nat → List WinCall) (w : WholeWin) (ls : List WholeWinEvent) : Prop :=
  ∀ j th, w.threads j = some th → ∃ c los before, .made j c (Policy.nothingAllowed.winCalls os (h j)) los before ∈ ls

/-- Something was done by worker `j` or for it. -/
def WinChangeBy {T : Type} (j : Nat) (e : SharedEvent T) : Prop :=
  (∃ a before after, e = .did j a before after) ∨ ∃ before after, e = .acted j before after

/-- Something was opened for worker `j`, and `tree` is what there was then. -/
def OpenedIn {T : Type} (j : Nat) (es : List (SharedEvent T)) (tree : T) : Prop := ∃ a before, .did j a before tree ∈ es

/-- What a worker may do with the files it has: write to one, or delete one. `write` are the files, `enter` the names in
directories. -/
def NtMayAct (up : Str → Str) (write : Nat → Prop) (enter : Nat → Str → Prop) (before after : NtTree) : Prop :=
  after = before ∨
  (∃ i old new, write i ∧ before[i]? = some (.file old) ∧ after = before.set i (.file new)) ∨
  ∃ d c old, enter d c ∧ before[d]? = some (.dir old) ∧ after = before.set d (.dir (old.filter fun e => up e.1 ≠ up c))

/-- What a worker may do with the keys it has: set values of one, or delete one. -/
def KeysMayAct (up : Str → Str) (write : Nat → Prop) (enter : Nat → Str → Prop) (before after : KeyTree) : Prop :=
  after = before ∨
  (∃ i old values, write i ∧ before[i]? = some old ∧ after = before.set i ⟨old.subkeys, values, old.link⟩) ∨
  ∃ d c old, enter d c ∧ before[d]? = some old ∧
    after = before.set d ⟨old.subkeys.filter fun e => up e.1 ≠ up c, old.values, old.link⟩

/-- A worker's requests name files by paths, not too long, and keys by names not too long. -/
def AllPlainNames (ls : List WholeWinEvent) : Prop := ∀ j, PlainNames (winHeardBy j ls)
def AllShortKeyNames (ls : List WholeWinEvent) : Prop := ∀ j, ShortKeyNames (winHeardBy j ls)

end Iris.Spec
