import Verif.Model.LogText
/-!
# The text of a record, with numbers as people read them (C115, C116)
-/
namespace Iris.Spec

/-- The value of a digit. -/
def digitValue (c : Char) : Option Nat :=
  if '0' ≤ c ∧ c ≤ '9' then some (c.toNat - '0'.toNat)
  else if 'A' ≤ c ∧ c ≤ 'F' then some (10 + (c.toNat - 'A'.toNat))
  else none

/-- `s` is the usual way to write `n`: most significant digit first, no useless zero. -/
inductive Numeral (base : Nat) : Str → Nat → Prop
  | digit {c : Char} {d : Nat} (h : digitValue c = some d) (hd : d < base) : Numeral base [c] d
  | more {s : Str} {n : Nat} {c : Char} {d : Nat} (hs : Numeral base s n) (hn : n ≠ 0) (h : digitValue c = some d)
      (hd : d < base) : Numeral base (s ++ [c]) (n * base + d)

/-- A decimal number, maybe negative. -/
inductive Decimal : Str → Int → Prop
  | nonneg {s : Str} {n : Nat} (h : Numeral 10 s n) : Decimal s n
  | neg {s : Str} {n : Nat} (h : Numeral 10 s n) (hn : n ≠ 0) : Decimal ('-' :: s) (-n)

/-- A hexadecimal number, with its prefix. -/
inductive HexText : Str → Nat → Prop
  | mk {s : Str} {n : Nat} (h : Numeral 16 s n) : HexText ('0' :: 'x' :: s) n

/-- How a request of a Linux worker is shown. -/
inductive RequestText : Request → Str → Prop
  | file {path : Str} {flags : BitVec 32} {f : Str} (h : HexText f flags.toNat) :
    RequestText (.fileOpen path flags) (c!"file " ++ path ++ c!" with flags " ++ f)
  | syscall {nb : BitVec 64} {args : Args6} {ip : BitVec 64} {n a0 a1 a2 a3 a4 a5 i : Str}
      (hn : Decimal n nb.toInt) (h0 : HexText a0 args.a0.toNat) (h1 : HexText a1 args.a1.toNat) (h2 : HexText a2 args.a2.toNat)
      (h3 : HexText a3 args.a3.toNat) (h4 : HexText a4 args.a4.toNat) (h5 : HexText a5 args.a5.toNat) (hi : HexText i ip.toNat) :
    RequestText (.syscall nb args ip)
      (c!"syscall nb#" ++ n ++ c!" with arguments (" ++ a0 ++ c!", " ++ a1 ++ c!", " ++ a2 ++ c!", " ++ a3 ++ c!", "
        ++ a4 ++ c!", " ++ a5 ++ c!") at address " ++ i)

/-- How a request of a Windows worker is shown. -/
inductive WinRequestText : WinRequest → Str → Prop
  | file {path : Str} {access attributes share disposition options : BitVec 32} {a s t d o : Str}
      (ha : HexText a access.toNat) (hs : HexText s share.toNat) (ht : HexText t attributes.toNat) (hd : HexText d disposition.toNat)
      (ho : HexText o options.toNat) :
    WinRequestText (.fileOpen path access attributes share disposition options [])
      (c!"file " ++ path ++ c!" with access_mask " ++ a ++ c!" (sharing " ++ s ++ c!") (attributes " ++ t
        ++ c!") (create_disposition " ++ d ++ c!" and create_options " ++ o ++ c!")")
  | fileWithAttributes {path : Str} {access attributes share disposition options : BitVec 32} {ea : Bytes}
      {a s t d o l : Str} (ha : HexText a access.toNat) (hs : HexText s share.toNat) (ht : HexText t attributes.toNat)
      (hd : HexText d disposition.toNat) (ho : HexText o options.toNat) (he : ea ≠ []) (hl : Numeral 10 l ea.length) :
    WinRequestText (.fileOpen path access attributes share disposition options ea)
      (c!"file " ++ path ++ c!" with access_mask " ++ a ++ c!" (sharing " ++ s ++ c!") (attributes " ++ t
        ++ c!") (create_disposition " ++ d ++ c!" and create_options " ++ o ++ c!")" ++ c!"with " ++ l
        ++ c!" bytes of extended attributes")
  | key {path : Str} {access options : BitVec 32} {a : Str} (ha : HexText a access.toNat) :
    WinRequestText (.regKeyOpen path access options false)
      (c!"registry key " ++ path ++ c!" with access_mask " ++ a)
  | newKey {path : Str} {access options : BitVec 32} {a o : Str} (ha : HexText a access.toNat) (ho : HexText o options.toNat) :
    WinRequestText (.regKeyOpen path access options true)
      (c!"registry key " ++ path ++ c!" with access_mask " ++ a ++ c!", creating it with options " ++ o
        ++ c!" if it does not exist")

/-- The record of a decision about a request shown as `request`. -/
inductive RecordText (request : Str) : Verdict → LogRecord → Prop
  | granted : RecordText request .granted ⟨.info, c!"Worker granted access to " ++ request⟩
  | unsupported {why : Str} : RecordText request (.delegationNotSupported why)
      ⟨.warn, c!"Worker tried to access " ++ request ++ c!" but delegation is not supported: " ++ why⟩
  | denied {why : Str} : RecordText request (.deniedByPolicy why)
      ⟨.warn, c!"Worker tried to access " ++ request ++ c!" but it is not allowed by its policy: " ++ why⟩
  | invalid {name why : Str} : RecordText request (.invalidRequestParameters name why)
      ⟨.warn, c!"Worker tried to access " ++ request ++ c!" but \"" ++ name ++ c!"\" was unexpected: " ++ why⟩

end Iris.Spec
