import Verif.Model.WinDllMem
/-!
# Things that must be given back to the system
-/
namespace Iris.Spec

/-- In order: each thing is allocated once, is only used or freed while it is there. So nothing is freed twice, or used after
it was freed. -/
def SafeUse (log : List DllEvent) : Prop :=
  ∀ before x after, log = before ++ x :: after →
    match x with
    | .alloc i _ => ∀ k, .alloc i k ∉ before
    | .use i | .free i => (∃ k, .alloc i k ∈ before) ∧ .free i ∉ before

/-- It was allocated and is still there. -/
def Leaked (log : List DllEvent) (i : Nat) (k : DllThing) : Prop := .alloc i k ∈ log ∧ .free i ∉ log

end Iris.Spec
