import Verif.Spec.WinPolicy
/-!
# When the reason given with a decision is true (C117, C118)

Each sentence is spelled out together with the facts that make it true.
-/
namespace Iris.Spec

/-- `s` is `n` in hexadecimal, after `0x`. -/
def Hex (s : Str) (n : Nat) : Prop :=
  ∃ ds, s = '0' :: 'x' :: ds ∧ ds ≠ [] ∧ (∀ c ∈ ds, c ∈ c!"0123456789ABCDEF") ∧
    ds.foldl (fun a c => 16 * a + c!"0123456789ABCDEF".idxOf c) 0 = n

/-- `s` shows exactly the bits of a word that are not acceptable, and there are some. -/
def ShowsExtra (w : BitVec 32) (ok : Nat → Prop) (s : Str) : Prop :=
  ∃ extra : BitVec 32, extra ≠ 0 ∧ (∀ i, i < 32 → (extra.getLsbD i = true ↔ w.getLsbD i = true ∧ ¬ ok i)) ∧
    Hex s extra.toNat

/-- The words for what a request asks for. `both` is how asking to read and write is put. -/
def AskedWords (both : Str) (read write : Prop) (s : Str) : Prop :=
  (read ∧ write ∧ s = both) ∨ (read ∧ ¬ write ∧ s = c!"read-only") ∨ (¬ read ∧ write ∧ s = c!"write-only") ∨
  (¬ read ∧ ¬ write ∧ s = c!"read or write")

/-- The words for what the rules give, when they do not give all. -/
def HeldWords (read write : Prop) (s : Str) : Prop :=
  (read ∧ ¬ write ∧ s = c!"can only read") ∨ (¬ read ∧ write ∧ s = c!"can only write") ∨
  (¬ read ∧ ¬ write ∧ s = c!"has no access to that path")

/-- The path is shown as it is. -/
def NotCanonicalWords (path why : Str) : Prop :=
  why = c!"path to open \"" ++ path ++ c!"\" is not in canonical form"

/-- What is said of a request to open a file on Linux is true, after the calls `h`. -/
def LinuxReasonTrue [T : Target] (h : List Call) (path : Str) (flags : BitVec 32) : Verdict → Prop
  | .granted => True
  | .delegationNotSupported why =>
    ∃ s, why = c!"open flag " ++ s ++ c!" not supported" ∧
      ShowsExtra flags (fun i => i ∈ [0, 1, 6, 7, 9, 10, 16, 19, 21] ∨ T.oLargefile.getLsbD i = true) s
  | .invalidRequestParameters name why =>
    Supported flags ∧ ¬ Canonical path ∧ name = c!"path" ∧ NotCanonicalWords path why
  | .deniedByPolicy why =>
    Supported flags ∧ ∃ cs, Denotes path cs ∧ ∃ x y, why = c!"requests " ++ x ++ c!" access, but " ++ y ∧
      AskedWords c!"read-write" (AsksRead flags) (AsksWrite flags) x ∧
      HeldWords (ReadAllowed h cs) (WriteAllowed h cs) y

/-- The words for the programs that are to be kept out. -/
def others : Right → Str
  | .blockReaders => c!" readers"
  | .blockWriters => c!" writers"
  | .blockDeleters => c!" deleters"
  | _ => []

/-- The list of those kinds of locks for which something holds. -/
def Locks (l : List Right) (p : Right → Prop) : Prop :=
  l.Sublist [.blockReaders, .blockWriters, .blockDeleters] ∧
  ∀ k ∈ [Right.blockReaders, .blockWriters, .blockDeleters], k ∈ l ↔ p k

/-- What is said of a request to open a file on Windows is true, `given` being the rights the rules give. -/
def WinFileReasonTrue (given : Right → Prop) (path : Str) (access attributes share disposition options : BitVec 32)
    (ea : Bytes) : Verdict → Prop
  | .granted => True
  | .delegationNotSupported why =>
    (∃ s, why = c!"access right " ++ s ++ c!" not supported" ∧
      ShowsExtra access (· ∈ [0, 1, 2, 3, 4, 7, 8, 16, 17, 18, 19, 20, 28, 30, 31]) s) ∨
    (∃ s, why = c!"file attribute " ++ s ++ c!" not supported" ∧
      ShowsExtra attributes (· ∈ [7, 20, 25, 26, 27, 28, 29, 31]) s) ∨
    (why = c!"opening files with reparse points enabled is not supported" ∧ ¬ Has options 0x200000) ∨
    (∃ s, why = c!"file creation disposition " ++ s ++ c!" not supported" ∧ Hex s disposition.toNat ∧
      5 < disposition.toNat)
  | .invalidRequestParameters name why =>
    path.head? ≠ some '\\' ∧ name = c!"path" ∧ NotCanonicalWords path why
  | .deniedByPolicy why =>
    let asks := Asks access share disposition options ea
    SupportedFileRequest access attributes disposition options ∧ path.head? = some '\\' ∧
    ((why = c!"has no access to that path" ∧ ∀ right, ¬ given right) ∨
     (∃ x y, why = c!"requests " ++ x ++ c!", but " ++ y ∧
       AskedWords c!"read and write" (asks .read) (asks .write) x ∧ HeldWords (given .read) (given .write) y) ∨
     (∃ asked held, Locks asked asks ∧ Locks held given ∧ (∃ k ∈ asked, k ∉ held) ∧
       (asks .read → given .read) ∧ (asks .write → given .write) ∧
       why = c!"requests to block other" ++ asked.flatMap others ++ c!" but " ++
         (if held = [] then c!"has no lock right" else c!"can only block" ++ held.flatMap others)))

/-- What is said of a request to open a registry key is true, `asksRead`, `asksWrite` being what it asks for and
`read`, `write` what the rules give. -/
def KeyReasonTrue (read write asksRead asksWrite : Prop) (access options : BitVec 32) : Verdict → Prop
  | .granted => True
  | .delegationNotSupported why =>
    (∃ s, why = c!"access right " ++ s ++ c!" not supported" ∧
      ShowsExtra access (· ∈ [0, 1, 2, 3, 4, 8, 9, 16, 17, 18, 19, 20]) s) ∨
    (∃ s, why = c!"creation option " ++ s ++ c!" not supported" ∧ ShowsExtra options (· = 0) s)
  | .invalidRequestParameters _ _ => False
  | .deniedByPolicy why =>
    SupportedKeyAccess access ∧ SupportedKeyOptions options ∧
    ∃ x y, why = c!"requests " ++ x ++ c!" access, but " ++ y ∧
      AskedWords c!"read-write" asksRead asksWrite x ∧ HeldWords read write y

end Iris.Spec
