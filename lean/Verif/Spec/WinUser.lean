import Verif.Model.WinUser
import Verif.Spec.WinPolicy
/-!
# Vocabulary of C123
-/
namespace Iris.Spec

/-- A rule path for the hive of the current user: the root alone, or names below it. -/
def OwnHive (r : Str) : Prop := ∃ rest, r = c!"HKEY_CURRENT_USER" ++ rest ∧ (rest = [] ∨ rest.head? = some '\\')

/-- The rules about the registry are all for the hive of the current user. -/
def OnlyOwnHive (h : List WinCall) : Prop := ∀ r, .regRead r ∈ h ∨ .regWrite r ∈ h → OwnHive r

/-- A path in the hive of a user. -/
def InHiveOf (u : Sid) (path : Str) : Prop :=
  ∃ rest, path = c!"\\REGISTRY\\USER\\" ++ u.text ++ rest ∧ (rest = [] ∨ rest.head? = some '\\')

end Iris.Spec
