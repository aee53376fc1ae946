import Verif.Model.EntryIds
/-!
# Vocabulary of C120
-/
namespace Iris.Spec

/-- The user or group `inside` a namespace is the user or group `outside`. -/
def Is (m : List Extent) (inside outside : Nat) : Prop :=
  ∃ e ∈ m, e.inside ≤ inside ∧ inside < e.inside + e.count ∧ outside = e.outside + (inside - e.inside)

/-- The namespace knows one user or group, under its own number. -/
def OnlyItself (m : List Extent) (id : Nat) : Prop := ∀ i o, Is m i o ↔ i = id ∧ o = id

/-- The namespace knows no user or group. -/
def Nobody (m : List Extent) : Prop := ∀ i o, ¬ Is m i o

end Iris.Spec
