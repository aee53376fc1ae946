import Verif.Spec.WinCreators
/-! # Specification vocabulary for the handles other programs get -/
namespace Iris.Spec

/-- A process which is created with `bInheritHandles` and without a list of handles gets `h`: it is open, and it is
inheritable. -/
def HandedOn (w : WinWorld) (h : BitVec 64) : Prop := w.pw.handles.get h ≠ none ∧ h ∈ w.inheritable

/-- C151, full statement: at any time, no handle opened by a creation of a worker is handed on to a process another thread
of the broker creates. -/
def NothingHandedOn : Prop :=
  ∀ (w w' : WinCreators) (ls : List WinCreateEvent), NoWinCalls w → WinCreatorsExec DeclaredHandle w ls w' →
    ∀ j h, HoldsHandle j ls h → ¬ HandedOn w'.world h

end Iris.Spec
