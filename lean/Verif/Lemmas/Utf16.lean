import Verif.Model.WinStd
/-! Lemmas about UTF-16. -/
namespace Iris

theorem char_valid (c : Char) : c.toNat < 0xD800 ∨ (0xDFFF < c.toNat ∧ c.toNat < 0x110000) := c.valid

theorem fromUtf16_char (c : Char) (rest : List U16) :
    fromUtf16 (utf16Char c ++ rest) = (fromUtf16 rest).map (c :: ·) := by
  have hv := char_valid c
  have hc : Char.ofNat c.toNat = c := Char.ofNat_toNat c
  unfold utf16Char
  split
  · rename_i h
    have e : (BitVec.ofNat 16 c.toNat).toNat = c.toNat := by
      rw [BitVec.toNat_ofNat]; exact Nat.mod_eq_of_lt (by omega)
    show fromUtf16 (_ :: rest) = _
    rw [fromUtf16.eq_def]
    simp only
    rw [if_pos (by rw [e]; omega), e, hc]
  · rename_i h
    have e1 : (BitVec.ofNat 16 (0xD800 + (c.toNat - 0x10000) / 0x400)).toNat =
        0xD800 + (c.toNat - 0x10000) / 0x400 := by
      rw [BitVec.toNat_ofNat]; exact Nat.mod_eq_of_lt (by omega)
    have e2 : (BitVec.ofNat 16 (0xDC00 + (c.toNat - 0x10000) % 0x400)).toNat =
        0xDC00 + (c.toNat - 0x10000) % 0x400 := by
      rw [BitVec.toNat_ofNat]; exact Nat.mod_eq_of_lt (by omega)
    show fromUtf16 (_ :: _ :: rest) = _
    rw [fromUtf16.eq_def]
    simp only
    rw [if_neg (by rw [e1]; omega), if_neg (by rw [e1]; omega), if_pos (by rw [e2]; omega), e1, e2]
    have : 0x10000 + (0xD800 + (c.toNat - 0x10000) / 0x400 - 0xD800) * 0x400 +
        (0xDC00 + (c.toNat - 0x10000) % 0x400 - 0xDC00) = c.toNat := by omega
    rw [this, hc]

theorem fromUtf16_utf16 (s : Str) : fromUtf16 (utf16 s) = some s := by
  induction s with
  | nil => rfl
  | cons c s ih =>
    show fromUtf16 (utf16Char c ++ utf16 s) = _
    rw [fromUtf16_char, ih]; rfl

theorem utf16_injective {s t : Str} (h : utf16 s = utf16 t) : s = t := by
  have := congrArg fromUtf16 h
  rwa [fromUtf16_utf16, fromUtf16_utf16, Option.some.injEq] at this

theorem toNat_ofNat_valid {n : Nat} (h : n < 0xD800 ∨ (0xDFFF < n ∧ n < 0x110000)) : (Char.ofNat n).toNat = n := by
  have : n.isValidChar := h
  rw [Char.ofNat, dif_pos this]; rfl

theorem utf16_of_from (u : List U16) (s : Str) (h : fromUtf16 u = some s) : utf16 s = u := by
  fun_induction fromUtf16 u generalizing s with
  | case1 => cases h; rfl
  | case2 u rest hu ih =>
    simp only [Option.map_eq_some_iff] at h
    obtain ⟨t, ht, rfl⟩ := h
    show utf16Char _ ++ utf16 t = _
    have hlt := u.isLt
    have e : (Char.ofNat u.toNat).toNat = u.toNat := toNat_ofNat_valid (by omega)
    rw [ih t ht, utf16Char, e, if_pos (by omega)]
    simp
  | case3 => cases h
  | case4 => cases h
  | case5 u hu hu' v rest hv ih =>
    simp only [Option.map_eq_some_iff] at h
    obtain ⟨t, ht, rfl⟩ := h
    show utf16Char _ ++ utf16 t = _
    have hlt := u.isLt
    have e : (Char.ofNat (0x10000 + (u.toNat - 0xD800) * 0x400 + (v.toNat - 0xDC00))).toNat =
        0x10000 + (u.toNat - 0xD800) * 0x400 + (v.toNat - 0xDC00) := toNat_ofNat_valid (by omega)
    rw [ih t ht, utf16Char, e, if_neg (by omega)]
    simp only [List.cons_append, List.nil_append, List.cons.injEq, and_true]
    constructor
    · apply BitVec.eq_of_toNat_eq
      rw [BitVec.toNat_ofNat]; omega
    · apply BitVec.eq_of_toNat_eq
      rw [BitVec.toNat_ofNat]; omega
  | case6 => cases h

end Iris
