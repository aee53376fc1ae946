import Verif.Model.RustStd
/-!
# Windows strings

The documented behaviour of `str::encode_utf16` and `String::from_utf16`, and the numbers defined by
the Windows SDK that the code names (trusted base, see DESIGN.md).
-/
namespace Iris

/-- One UTF-16 code unit. -/
abbrev U16 := BitVec 16

/-- The code units of one character. -/
def utf16Char (c : Char) : List U16 :=
  if c.toNat < 0x10000 then [BitVec.ofNat 16 c.toNat]
  else [BitVec.ofNat 16 (0xD800 + (c.toNat - 0x10000) / 0x400),
        BitVec.ofNat 16 (0xDC00 + (c.toNat - 0x10000) % 0x400)]

/-- `str::encode_utf16`. -/
def utf16 (s : Str) : List U16 := s.flatMap utf16Char

/-- `String::from_utf16`: `none` on an unpaired surrogate. -/
def fromUtf16 : List U16 → Option Str
  | [] => some []
  | u :: rest =>
    if u.toNat < 0xD800 ∨ 0xE000 ≤ u.toNat then (fromUtf16 rest).map (Char.ofNat u.toNat :: ·)
    else if 0xDC00 ≤ u.toNat then none
    else match rest with
      | [] => none
      | v :: rest =>
        if 0xDC00 ≤ v.toNat ∧ v.toNat < 0xE000 then
          (fromUtf16 rest).map
            (Char.ofNat (0x10000 + (u.toNat - 0xD800) * 0x400 + (v.toNat - 0xDC00)) :: ·)
        else none

/-- `String::from_utf16_lossy`: an unpaired surrogate becomes U+FFFD. -/
def fromUtf16Lossy : List U16 → Str
  | [] => []
  | u :: rest =>
    if u.toNat < 0xD800 ∨ 0xE000 ≤ u.toNat then Char.ofNat u.toNat :: fromUtf16Lossy rest
    else if 0xDC00 ≤ u.toNat then Char.ofNat 0xFFFD :: fromUtf16Lossy rest
    else match rest with
      | [] => [Char.ofNat 0xFFFD]
      | v :: rest' =>
        if 0xDC00 ≤ v.toNat ∧ v.toNat < 0xE000 then
          Char.ofNat (0x10000 + (u.toNat - 0xD800) * 0x400 + (v.toNat - 0xDC00)) :: fromUtf16Lossy rest'
        else Char.ofNat 0xFFFD :: fromUtf16Lossy (v :: rest')

/-! Access rights (winnt.h) -/

def GENERIC_READ : BitVec 32 := 0x80000000
def GENERIC_WRITE : BitVec 32 := 0x40000000
def GENERIC_ALL : BitVec 32 := 0x10000000
def DELETE : BitVec 32 := 0x00010000
def READ_CONTROL : BitVec 32 := 0x00020000
def WRITE_DAC : BitVec 32 := 0x00040000
def WRITE_OWNER : BitVec 32 := 0x00080000
def SYNCHRONIZE : BitVec 32 := 0x00100000
def FILE_READ_DATA : BitVec 32 := 0x0001
def FILE_WRITE_DATA : BitVec 32 := 0x0002
def FILE_APPEND_DATA : BitVec 32 := 0x0004
def FILE_READ_EA : BitVec 32 := 0x0008
def FILE_WRITE_EA : BitVec 32 := 0x0010
def FILE_READ_ATTRIBUTES : BitVec 32 := 0x0080
def FILE_WRITE_ATTRIBUTES : BitVec 32 := 0x0100
def KEY_QUERY_VALUE : BitVec 32 := 0x0001
def KEY_SET_VALUE : BitVec 32 := 0x0002
def KEY_CREATE_SUB_KEY : BitVec 32 := 0x0004
def KEY_ENUMERATE_SUB_KEYS : BitVec 32 := 0x0008
def KEY_NOTIFY : BitVec 32 := 0x0010
def KEY_WOW64_64KEY : BitVec 32 := 0x0100
def KEY_WOW64_32KEY : BitVec 32 := 0x0200

/-! Share modes, attributes and options (winnt.h, winbase.h) -/

def FILE_SHARE_READ : BitVec 32 := 0x1
def FILE_SHARE_WRITE : BitVec 32 := 0x2
def FILE_SHARE_DELETE : BitVec 32 := 0x4
def FILE_ATTRIBUTE_NORMAL : BitVec 32 := 0x80
def FILE_FLAG_WRITE_THROUGH : BitVec 32 := 0x80000000
def FILE_FLAG_NO_BUFFERING : BitVec 32 := 0x20000000
def FILE_FLAG_RANDOM_ACCESS : BitVec 32 := 0x10000000
def FILE_FLAG_SEQUENTIAL_SCAN : BitVec 32 := 0x08000000
def FILE_FLAG_DELETE_ON_CLOSE : BitVec 32 := 0x04000000
def FILE_FLAG_BACKUP_SEMANTICS : BitVec 32 := 0x02000000
def FILE_FLAG_OPEN_REPARSE_POINT : BitVec 32 := 0x00200000
def FILE_FLAG_OPEN_NO_RECALL : BitVec 32 := 0x00100000
def REG_OPTION_NON_VOLATILE : BitVec 32 := 0
def REG_OPTION_VOLATILE : BitVec 32 := 1

end Iris
