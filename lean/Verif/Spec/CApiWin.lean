import Verif.Model.CApiWin
/-!
# What a C function registered on Windows is supposed to read
-/
namespace Iris.Spec

/-- What a Rust callback is told, as C data. -/
def sameWinRequest : WinRequest → WinCSeen → Prop
  | .fileOpen path access attributes share disposition options ea, .fileOpen p a b c d e x =>
    p = utf8 path ∧ a = access ∧ b = attributes ∧ c = share ∧ d = disposition ∧ e = options ∧ x = ea
  | .regKeyOpen path access options create, .regKeyOpen p a o c => p = utf8 path ∧ a = access ∧ o = options ∧ c = create
  | _, _ => False

/-- The path of a request. -/
def winReqPath : WinRequest → Str
  | .fileOpen path .. => path
  | .regKeyOpen path .. => path

/-- The request is for a file, and has no extended attributes: almost every one. -/
def NoAttributes : WinRequest → Prop
  | .fileOpen _ _ _ _ _ _ ea => ea = []
  | .regKeyOpen .. => False

/-- There is memory: the allocator's answers are not null, not in use, and different. -/
structure HasMemory (h : CHeap) (addr : Nat → Nat) : Prop where
  nonnull : ∀ i, addr i ≠ 0
  unused : ∀ i, ∀ b ∈ h, b.addr ≠ addr i
  different : ∀ i j, i ≠ j → addr i ≠ addr j

end Iris.Spec
