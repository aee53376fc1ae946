import Verif.Spec.Numerals
import Verif.Model.WinPipe
import Verif.Props.LogText
/-! # C115, C116: the exact text of every record -/
namespace Iris
open Spec

theorem digitValue_dec : ∀ x : Fin 10, digitValue (Nat.digitChar x) = some x.val := by decide
theorem digitValue_hex : ∀ x : Fin 16, digitValue (Nat.digitChar x).toUpper = some x.val := by decide

theorem numeral_digits (b : Nat) (hb : 1 < b) (f : Char → Char)
    (hf : ∀ x, x < b → digitValue (f (Nat.digitChar x)) = some x) (n : Nat) :
    Numeral b ((Nat.toDigits b n).map f) n := by
  induction n using Nat.strongRecOn with
  | ind n ih =>
    by_cases hn : n < b
    · rw [Nat.toDigits_of_lt_base hn]
      exact .digit (hf n hn) hn
    · rw [Nat.toDigits_of_base_le hb (by omega), List.map_append, List.map_cons, List.map_nil]
      have hm : n % b < b := Nat.mod_lt _ (by omega)
      have := Numeral.more (ih (n / b) (Nat.div_lt_self (by omega) hb))
        (Nat.ne_of_gt (Nat.div_pos (by omega) (by omega))) (hf _ hm) hm
      rwa [Nat.div_add_mod'] at this

theorem numeral_dec (n : Nat) : Numeral 10 (dec n) n := by
  have := numeral_digits 10 (by omega) id (fun x hx => digitValue_dec ⟨x, hx⟩) n
  simpa [dec] using this

theorem hex_hexAlt (n : Nat) : HexText (hexAlt n) n :=
  .mk (numeral_digits 16 (by omega) Char.toUpper (fun x hx => digitValue_hex ⟨x, hx⟩) n)

theorem decimal_decSigned (n : BitVec 64) : Decimal (decSigned n) n.toInt := by
  rw [decSigned]
  split
  · rename_i h
    have := Decimal.neg (numeral_dec n.toInt.natAbs) (by omega)
    rwa [show (-(n.toInt.natAbs : Int)) = n.toInt by omega] at this
  · rename_i h
    have := Decimal.nonneg (numeral_dec n.toInt.natAbs)
    rwa [show ((n.toInt.natAbs : Nat) : Int) = n.toInt by omega] at this

theorem recordText (request : Str) (v : Verdict) : RecordText request v (verdictRecord request v) := by
  cases v with
  | granted => exact .granted
  | delegationNotSupported why => exact .unsupported
  | deniedByPolicy why => exact .denied
  | invalidRequestParameters name why => exact .invalid

/-- C115: the text of each record is the one a reader expects, numbers included. -/
theorem C115_text [Target] (p : Policy) (r : Request) :
    ∃ text, RequestText r text ∧ RecordText text (Spec.decision p r) (p.evaluateRecord r) := by
  refine ⟨r.display, ?_, ?_⟩
  · cases r with
    | fileOpen path flags => exact .file (hex_hexAlt _)
    | syscall nb args ip =>
      exact .syscall (decimal_decSigned nb) (hex_hexAlt _) (hex_hexAlt _) (hex_hexAlt _) (hex_hexAlt _) (hex_hexAlt _)
        (hex_hexAlt _) (hex_hexAlt _)
  · rw [(evaluateRecord_decision p r).1]
    exact recordText _ _

/-- C116: the same on Windows. -/
theorem C116_text (debug : Bool) (p : Policy) (r : WinRequest) :
    ∃ text, WinRequestText r text ∧ RecordText text (Spec.winDecision debug p r) (p.winEvaluateRecord debug r) := by
  refine ⟨r.display, ?_, ?_⟩
  · cases r with
    | fileOpen path access attributes share disposition options ea =>
      cases ea with
      | nil =>
        rw [show WinRequest.display (.fileOpen path access attributes share disposition options []) =
          _ from List.append_nil _]
        exact .file (hex_hexAlt _) (hex_hexAlt _) (hex_hexAlt _) (hex_hexAlt _) (hex_hexAlt _)
      | cons b ea =>
        have := WinRequestText.fileWithAttributes (path := path) (hex_hexAlt access.toNat) (hex_hexAlt share.toNat)
          (hex_hexAlt attributes.toNat) (hex_hexAlt disposition.toNat) (hex_hexAlt options.toNat)
          (List.cons_ne_nil b ea) (numeral_dec _)
        simp only [WinRequest.display, List.isEmpty_cons, Bool.false_eq_true, if_false]
        simpa only [List.append_assoc] using this
    | regKeyOpen path access options create =>
      cases create with
      | false =>
        rw [show WinRequest.display (.regKeyOpen path access options false) = _ from List.append_nil _]
        exact .key (hex_hexAlt _)
      | true =>
        have := WinRequestText.newKey (path := path) (hex_hexAlt access.toNat) (hex_hexAlt options.toNat)
        simp only [WinRequest.display, if_true]
        simpa only [List.append_assoc] using this
  · rw [(winEvaluateRecord_decision debug p r).1]
    exact recordText _ _

/-- C121: the codes in the messages of a starting worker are written as usual. -/
theorem C121_codes (n : BitVec 32) : Decimal (displayI32 n) n.toInt := by
  rw [displayI32]
  split
  · rename_i h
    have h2 : 2 ^ 31 ≤ n.toNat := by
      rw [BitVec.msb_eq_decide] at h; simpa using h
    have h3 := n.isLt
    have e : (-n).toNat = 2 ^ 32 - n.toNat := by rw [BitVec.toNat_neg]; omega
    have := Decimal.neg (numeral_dec (-n).toNat) (by omega)
    rw [show n.toInt = -((-n).toNat : Int) by rw [BitVec.toInt_eq_toNat_cond, if_neg (by omega), e]; omega]
    exact this
  · rename_i h
    have h2 : n.toNat < 2 ^ 31 := by
      rw [BitVec.msb_eq_decide] at h
      have : ¬ (2 ^ (32 - 1) ≤ n.toNat) := by simpa using h
      omega
    rw [show n.toInt = (n.toNat : Int) by rw [BitVec.toInt_eq_toNat_cond, if_pos (by omega)]]
    exact .nonneg (numeral_dec _)

example : displayI32 (BitVec.ofInt 32 (-13)) = c!"-13" ∧ displayI32 13#32 = c!"13" ∧ displayI32 0#32 = c!"0" := by
  decide +kernel

/-- Zero is never shown as `-0`, and the most negative number is shown in full. -/
example : (@Policy.evaluateRecord x86_64 .nothingAllowed (.syscall 0#64 ⟨0#64, 1#64, 2#64, 3#64, 4#64, 0xABCDEF#64⟩ 9#64)).message =
    c!"Worker tried to access syscall nb#0 with arguments (0x0, 0x1, 0x2, 0x3, 0x4, 0xABCDEF) at address 0x9 but delegation is not supported: unsupported system call" ∧
    decSigned (0x8000000000000000#64) = c!"-9223372036854775808" := by
  decide +kernel

theorem numeral_isDigit {b : Nat} {s : Str} {n : Nat} (h : Numeral b s n) : ∀ c ∈ s, digitValue c ≠ none := by
  induction h with
  | digit h _ => intro c hc; rw [List.mem_singleton.1 hc, h]; simp
  | more _ _ h _ ih =>
    intro c hc
    rcases List.mem_append.1 hc with hc | hc
    · exact ih c hc
    · rw [List.mem_singleton.1 hc, h]; simp

/-- This is not a way to write a number. -/
example (z : Int) : ¬ Decimal c!"-0" z := by
  intro h
  generalize hs : c!"-0" = s at h
  cases h with
  | nonneg h => subst hs; exact numeral_isDigit h '-' (by decide) (by decide)
  | neg h hn =>
    cases hs
    generalize hs : ['0'] = s at h
    cases h with
    | digit h => cases hs; cases h; exact hn rfl
    | more h _ _ _ =>
      rename_i s' _ _ _ _ _ _
      cases s' with
      | nil => generalize hs' : ([] : Str) = s at h; cases h <;> simp at hs'
      | cons c s' => simp at hs

end Iris
