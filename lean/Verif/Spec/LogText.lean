import Verif.Model.LogText
/-!
# What a reader of the log may rely on (C115, C116)
-/
namespace Iris

/-- A text log has the message of each record on a line of its own. -/
def Spec.textLog : List LogRecord → Str
  | [] => []
  | r :: rs => r.message ++ '\n' :: Spec.textLog rs

/-- What a policy that is enforced answers to a request. -/
def Spec.decision [Target] (p : Policy) (r : Request) : Verdict :=
  ({ p with auditOnly := false }.evaluate r).1

/-- The same on Windows. -/
def Spec.winDecision (debug : Bool) (p : Policy) (r : WinRequest) : Verdict :=
  ({ p with auditOnly := false }.winEvaluate debug r).1

/-- The path a request is about, if any. -/
def Spec.requestPath : Request → Str
  | .fileOpen path _ => path
  | .syscall _ _ _ => []

def Spec.winRequestPath : WinRequest → Str
  | .fileOpen path _ _ _ _ _ _ => path
  | .regKeyOpen path _ _ _ => path

/-- Two Windows requests look the same in the log: they are equal, except for the bytes of the extended
attributes, and for the options of a registry key which is not to be created. -/
def Spec.SameOnPaper : WinRequest → WinRequest → Prop
  | .fileOpen path a b c d e ea, .fileOpen path' a' b' c' d' e' ea' =>
    path = path' ∧ a = a' ∧ b = b' ∧ c = c' ∧ d = d' ∧ e = e' ∧ ea.length = ea'.length
  | .regKeyOpen path a o create, .regKeyOpen path' a' o' create' =>
    path = path' ∧ a = a' ∧ create = create' ∧ (create = true → o = o')
  | _, _ => False

end Iris
