import Verif.Spec.Budget
import Verif.Spec.WholeWin
/-! # Specification vocabulary for what workers cost a Windows broker -/
namespace Iris.Spec

/-- How many steps the thread serving worker `j` made, not counting `ReadFile`. -/
def winServesOf (j : Nat) (ls : List WholeWinEvent) : Nat :=
  (ls.filter fun l => match l with | .serve k _ _ => k == j | _ => false).length

/-- The workers some thread wanted to create. -/
def winMadeIn (ls : List WholeWinEvent) : List Nat :=
  ls.filterMap fun l => match l with | .made j _ _ _ _ => some j | _ => none

/-- The thread waits for a request, or has ended. -/
def WinAtRest (th : WinLoop) : Prop := th.phase = .idle ∨ th.phase = .gone

/-- C145 for creations that have failed: nothing is left open for them. -/
def WinLeavesNothing : Prop :=
  ∀ (debug : Bool) (w w' : WholeWin) (ls : List WholeWinEvent) (j : Nat) (x : WCreation) (err : Option BrokerError),
    NoWinWorkers w → WholeWinExec debug DeclaredHandle w ls w' → w'.calls j = some x → x.phase = .failed err →
    ∀ n, ¬ HandleFor j ls n

end Iris.Spec
