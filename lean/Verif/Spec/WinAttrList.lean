import Verif.Model.WinAttrList
/-!
# Vocabulary of C122
-/
namespace Iris.Spec

/-- Memory as there can be before: blocks have numbers which were given out, and lists are in such blocks. -/
def Possible (m : AttrMem) : Prop := (∀ b ∈ m.blocks, b.id < m.next) ∧ ∀ l ∈ m.lists, l.1 < m.next

/-- The system lets a list be initialised. -/
def listGiven (os : ListOs) : Bool := !os.probeOk && os.probeError == 122#32 && !os.refuses

/-- All that was taken was given back: blocks, lists, and identifiers of profiles. -/
def GivesBack (m m' : AttrMem) : Prop := m'.blocks = m.blocks ∧ m'.lists = m.lists ∧ m'.sids = m.sids

/-- The part of `GivesBack` that the code fulfils. -/
def GivesBackMemory (m m' : AttrMem) : Prop := m'.blocks = m.blocks ∧ m'.lists = m.lists

/-- C122 in full: as documented, values persist until the list is deleted; and all is given back. -/
def CarefulWithMemory : Prop :=
  ∀ (supported : Bool) (inherited : List (BitVec 64)) (lists : Nat → ListOs) (rounds : Nat → WinRound) (n : Nat)
    (s : WinStart) (m : AttrMem), Possible m →
    ∃ r m', winCreateMem true supported inherited lists rounds n s m = some (r, m') ∧ GivesBack m m'

end Iris.Spec
