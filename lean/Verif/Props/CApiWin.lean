import Verif.Spec.CApiWin
import Verif.Lemmas.CApi
/-!
# C108: log callbacks of the C API on Windows
-/
namespace Iris
open Spec

theorem ofNat_ne {n : Nat} (h : n % 256 ≠ 0) : (0 : UInt8) ≠ UInt8.ofNat n := by
  intro e
  have := congrArg UInt8.toNat e
  simp at this
  omega
theorem utf8Char_nonzero {c : Char} (h : c ≠ '\x00') : (0 : UInt8) ∉ String.utf8EncodeChar c := by
  have hv : c.val.toNat ≠ 0 := fun e => h (Char.ext (UInt32.toNat_inj.1 e))
  have hb : c.val.toNat < 1114112 := by
    have := c.valid
    simp only [UInt32.isValidChar, Nat.isValidChar] at this
    omega
  simp only [String.utf8EncodeChar]
  generalize c.val.toNat = v at *
  split
  · simp only [List.mem_singleton]
    exact ofNat_ne (by omega)
  · split
    · simp only [List.mem_cons, List.not_mem_nil, or_false, not_or]
      exact ⟨ofNat_ne (by omega), ofNat_ne (by omega)⟩
    · split
      · simp only [List.mem_cons, List.not_mem_nil, or_false, not_or]
        exact ⟨ofNat_ne (by omega), ofNat_ne (by omega), ofNat_ne (by omega)⟩
      · simp only [List.mem_cons, List.not_mem_nil, or_false, not_or]
        exact ⟨ofNat_ne (by omega), ofNat_ne (by omega), ofNat_ne (by omega), ofNat_ne (by omega)⟩

theorem utf8_nonzero {s : Str} (h : '\x00' ∉ s) : (0 : UInt8) ∉ utf8 s := by
  intro hm
  obtain ⟨c, hc, hb⟩ := List.mem_flatMap.1 hm
  exact utf8Char_nonzero (fun e => h (e ▸ hc)) hb

/-! ### The heap -/

theorem at_cons (b : CBlock) (h : CHeap) : CHeap.at? (b :: h) b.addr = some b := by
  simp [CHeap.at?]

theorem at_cons_ne {b : CBlock} {a : Nat} (h : CHeap) (hn : b.addr ≠ a) : CHeap.at? (b :: h) a = CHeap.at? h a := by
  simp [CHeap.at?, hn]

theorem fresh_iff (h : CHeap) (a : Nat) : h.fresh a = true ↔ a ≠ 0 ∧ ∀ b ∈ h, b.addr ≠ a := by
  simp [CHeap.fresh]

theorem filter_fresh {h : CHeap} {a : Nat} (hf : ∀ b ∈ h, b.addr ≠ a) : h.filter (·.addr ≠ a) = h := by
  rw [List.filter_eq_self]
  intro b hb
  simpa using hf b hb

/-- The block of a string. -/
def strBlock (a : Nat) (s : Str) : CBlock := ⟨a, (utf8 s).length + 1, 1, utf8 s ++ [0]⟩

/-- The block of extended attributes. -/
def eaBlock (a : Nat) (data : Bytes) : CBlock := ⟨a, data.length, 16, data⟩

theorem cStringNew_ok {h : CHeap} {a : Nat} {s : Str} (hs : '\x00' ∉ s) (hf : h.fresh a = true) :
    cStringNew h a s = .ok a (strBlock a s :: h) := by
  simp [cStringNew, hs, hf, strBlock]

theorem string_of_at {h : CHeap} {a : Nat} {s : Str} (hs : '\x00' ∉ s) (ha : h.at? a = some (strBlock a s)) :
    h.string a = some (utf8 s) := by
  have h0 := utf8_nonzero hs
  rw [CHeap.string, ha, Option.map_some, strBlock]
  simp only
  rw [List.takeWhile_append_of_pos]
  · simp
  · intro x hx
    simp only [ne_eq, decide_not, Bool.not_eq_true', decide_eq_false_iff_not]
    rintro rfl; exact h0 hx

theorem dropString_of_at {h : CHeap} {a : Nat} {s : Str} (hs : '\x00' ∉ s) (ha : h.at? a = some (strBlock a s)) :
    h.dropString a = .ok () (h.filter (·.addr ≠ a)) := by
  rw [CHeap.dropString, string_of_at hs ha]
  simp only
  rw [CHeap.dealloc, ha]
  simp [strBlock]

theorem bytes_of_at {h : CHeap} {a : Nat} {data : Bytes} (ha : h.at? a = some (eaBlock a data)) :
    h.bytes a data.length = some data := by
  rw [CHeap.bytes, ha, Option.bind_some, eaBlock]
  simp

theorem dealloc_of_at {h : CHeap} {a : Nat} {data : Bytes} (ha : h.at? a = some (eaBlock a data)) :
    h.dealloc a data.length 16 = .ok () (h.filter (·.addr ≠ a)) := by
  rw [CHeap.dealloc, ha]
  simp [eaBlock]

/-! ### Verdicts have no NUL -/

theorem accessAsked_clean (r w : Bool) (both : Str) (h : '\x00' ∉ both) : '\x00' ∉ accessAsked r w both := by
  cases r <;> cases w
  · exact (by decide : '\x00' ∉ c!"read or write")
  · exact (by decide : '\x00' ∉ c!"write-only")
  · exact (by decide : '\x00' ∉ c!"read-only")
  · exact h

theorem accessHeld_clean (r w : Bool) : '\x00' ∉ accessHeld r w := by
  cases r <;> cases w <;> decide

theorem lockWhy_clean (a b c d e f : Bool) : '\x00' ∉ lockWhy a b c d e f := by
  revert a b c d e f; decide

theorem winFile_clean (debug : Bool) (p : Policy) (path : Str) (access attributes share disposition options : BitVec 32)
    (ea : Bytes) (h : '\x00' ∉ path) :
    cleanVerdict (p.winCheckFileOpen debug path access attributes share disposition options ea) := by
  simp only [Policy.winCheckFileOpen]
  repeat' split
  all_goals first
    | trivial
    | (simp only [cleanVerdict, List.mem_append, hexAlt_clean, not_or, h, lockWhy_clean, accessHeld_clean,
        accessAsked_clean _ _ c!"read and write" (by decide)]; decide)

theorem winReg_clean (p : Policy) (path : Str) (access options : BitVec 32) (create : Bool) :
    cleanVerdict (p.winCheckRegKeyOpen path access options create) := by
  simp only [Policy.winCheckRegKeyOpen]
  repeat' split
  all_goals first
    | trivial
    | (simp only [cleanVerdict, List.mem_append, hexAlt_clean, not_or, accessHeld_clean,
        accessAsked_clean _ _ c!"read-write" (by decide)]; decide)

theorem winNotification (debug : Bool) (p : Policy) (req : WinRequest) (n : Notification WinRequest)
    (h : n ∈ (p.winEvaluate debug req).2) : n.request = req ∧ ('\x00' ∉ winReqPath req → cleanVerdict n.verdict) := by
  simp only [Policy.winEvaluate, Policy.logVerdict, List.mem_map] at h
  obtain ⟨cb, _, rfl⟩ := h
  refine ⟨rfl, fun hc => ?_⟩
  cases req with
  | fileOpen path a b c d e ea => exact winFile_clean debug p path a b c d e ea hc
  | regKeyOpen path a o c => exact winReg_clean p path a o c


/-! ### One call -/

theorem Spec.HasMemory.fresh {h : CHeap} {addr : Nat → Nat} (hm : HasMemory h addr) (i : Nat) : h.fresh (addr i) = true :=
  (fresh_iff _ _).2 ⟨hm.nonnull i, hm.unused i⟩

/-- Memory with one more block, which is not at any of the addresses still to come. -/
theorem fresh_cons {h : CHeap} {a : Nat} {b : CBlock} (hf : h.fresh a = true) (hb : b.addr ≠ a) :
    CHeap.fresh (b :: h) a = true := by
  rw [fresh_iff] at *
  exact ⟨hf.1, fun c hc => by
    rcases List.mem_cons.1 hc with rfl | hc
    · exact hb
    · exact hf.2 c hc⟩

/-- The strings of a verdict: made, read, and freed again. -/
theorem verdict_call {h : CHeap} {addr : Nat → Nat} (hf2 : h.fresh (addr 2) = true) (hf3 : h.fresh (addr 3) = true)
    (hd : addr 2 ≠ addr 3) (v : Verdict) (hv : cleanVerdict v) :
    ∃ cv extra vs, WinCVerdict.ofRust h addr v = .ok cv (extra ++ h) ∧ cv.seen (extra ++ h) = some vs ∧ sameVerdict v vs ∧
      cv.drop (extra ++ h) = .ok () h ∧ ∀ b ∈ extra, b.addr = addr 2 ∨ b.addr = addr 3 := by
  have u2 := (fresh_iff _ _).1 hf2
  have u3 := (fresh_iff _ _).1 hf3
  have one : ∀ s : Str, '\x00' ∉ s → CHeap.string (strBlock (addr 2) s :: h) (addr 2) = some (utf8 s) ∧
      CHeap.dropString (strBlock (addr 2) s :: h) (addr 2) = .ok () h := by
    intro s hs
    refine ⟨string_of_at hs (at_cons _ _), ?_⟩
    rw [dropString_of_at hs (at_cons _ _), List.filter_cons_of_neg (by simp [strBlock]), filter_fresh u2.2]
  cases v with
  | granted => exact ⟨.granted, [], .granted, rfl, rfl, trivial, rfl, by simp⟩
  | deniedByPolicy why =>
    obtain ⟨o1, o2⟩ := one why hv
    exact ⟨.deniedByPolicy (addr 2), [strBlock (addr 2) why], .deniedByPolicy (utf8 why),
      by rw [WinCVerdict.ofRust, cStringNew_ok hv hf2]; rfl, by simp [WinCVerdict.seen, o1], rfl,
      by simpa [WinCVerdict.drop] using o2, by simp [strBlock]⟩
  | delegationNotSupported why =>
    obtain ⟨o1, o2⟩ := one why hv
    exact ⟨.delegationNotSupported (addr 2), [strBlock (addr 2) why], .delegationNotSupported (utf8 why),
      by rw [WinCVerdict.ofRust, cStringNew_ok hv hf2]; rfl, by simp [WinCVerdict.seen, o1], rfl,
      by simpa [WinCVerdict.drop] using o2, by simp [strBlock]⟩
  | invalidRequestParameters a why =>
    have e2 : CHeap.at? (strBlock (addr 3) why :: strBlock (addr 2) a :: h) (addr 2) = some (strBlock (addr 2) a) := by
      rw [at_cons_ne _ (Ne.symm hd)]; exact at_cons _ _
    have e3 : CHeap.at? (strBlock (addr 3) why :: strBlock (addr 2) a :: h) (addr 3) = some (strBlock (addr 3) why) :=
      at_cons _ _
    refine ⟨.invalidRequestParameters (addr 2) (addr 3), [strBlock (addr 3) why, strBlock (addr 2) a],
      .invalidRequestParameters (utf8 a) (utf8 why), ?_, ?_, ⟨rfl, rfl⟩, ?_, by simp [strBlock]⟩
    · rw [WinCVerdict.ofRust, cStringNew_ok hv.1 hf2]
      simp only [Ran.bind]
      rw [cStringNew_ok hv.2 (fresh_cons hf3 hd)]
      rfl
    · simp only [WinCVerdict.seen, List.cons_append, List.nil_append]
      rw [string_of_at hv.1 e2, string_of_at hv.2 e3]
      rfl
    · simp only [WinCVerdict.drop, List.cons_append, List.nil_append]
      rw [dropString_of_at hv.1 e2]
      simp only [Ran.bind]
      rw [List.filter_cons_of_pos (by show decide _ = true; exact decide_eq_true fun e => hd (Eq.symm e)), List.filter_cons_of_neg (by simp [strBlock]),
        filter_fresh u2.2, dropString_of_at hv.2 (at_cons _ _), List.filter_cons_of_neg (by simp [strBlock]),
        filter_fresh u3.2]

theorem at_append {extra h : CHeap} {a : Nat} (he : ∀ b ∈ extra, b.addr ≠ a) : CHeap.at? (extra ++ h) a = CHeap.at? h a := by
  induction extra with
  | nil => rfl
  | cons b extra ih =>
    rw [List.cons_append, at_cons_ne _ (he b (by simp))]
    exact ih fun c hc => he c (List.mem_cons_of_mem _ hc)

/-- **C108**, as far as it is true. For every policy, every request for a registry key or for a file with extended attributes,
and every registered callback, if the path has no NUL and there is memory, the C function reads the same request and the
same verdict as a Rust function, and afterwards the heap is as before. -/
theorem C108_same_data_partial (debug : Bool) (p : Policy) (req : WinRequest) (n : Notification WinRequest)
    (hn : n ∈ (p.winEvaluate debug req).2) (hp : '\x00' ∉ winReqPath req) (ha : ¬ NoAttributes req) (h : CHeap)
    (addr : Nat → Nat) (hm : HasMemory h addr) :
    ∃ rs vs, winCNotify h addr n = .ok (n.callback, rs, vs) h ∧ sameWinRequest req rs ∧ sameVerdict n.verdict vs := by
  obtain ⟨hreq, hv⟩ := winNotification debug p req n hn
  replace hv := hv hp
  rw [winCNotify, hreq]
  cases req with
  | regKeyOpen path a o c =>
    replace hp : '\x00' ∉ path := hp
    obtain ⟨cv, extra, vs, v1, v2, v3, v4, v5⟩ := verdict_call (h := strBlock (addr 1) path :: h)
      (fresh_cons (hm.fresh 2) (hm.different 1 2 (by decide))) (fresh_cons (hm.fresh 3) (hm.different 1 3 (by decide)))
      (hm.different 2 3 (by decide)) n.verdict hv
    have hat : CHeap.at? (extra ++ strBlock (addr 1) path :: h) (addr 1) = some (strBlock (addr 1) path) := by
      rw [at_append]
      · exact at_cons _ _
      · intro b hb
        rcases v5 b hb with e | e <;> rw [e]
        · exact hm.different 2 1 (by decide)
        · exact hm.different 3 1 (by decide)
    refine ⟨.regKeyOpen (utf8 path) a o c, vs, ?_, ⟨rfl, rfl, rfl, rfl⟩, v3⟩
    rw [WinCRequest.ofRust, cStringNew_ok hp (hm.fresh 1)]
    simp only [Ran.bind]
    rw [v1]
    simp only [WinCRequest.seen, string_of_at hp hat, Option.map_some, v2]
    rw [v4]
    simp only [WinCRequest.drop]
    rw [dropString_of_at hp (at_cons _ _), List.filter_cons_of_neg (by simp [strBlock]), filter_fresh (hm.unused 1)]
  | fileOpen path a b c d e ea =>
    replace hp : '\x00' ∉ path := hp
    have hea : ea.length ≠ 0 := fun hz => ha (List.eq_nil_of_length_eq_zero hz)
    have f1 : CHeap.fresh (eaBlock (addr 0) ea :: h) (addr 1) = true :=
      fresh_cons (hm.fresh 1) (hm.different 0 1 (by decide))
    obtain ⟨cv, extra, vs, v1, v2, v3, v4, v5⟩ := verdict_call (h := strBlock (addr 1) path :: eaBlock (addr 0) ea :: h)
      (fresh_cons (fresh_cons (hm.fresh 2) (hm.different 0 2 (by decide))) (hm.different 1 2 (by decide)))
      (fresh_cons (fresh_cons (hm.fresh 3) (hm.different 0 3 (by decide))) (hm.different 1 3 (by decide)))
      (hm.different 2 3 (by decide)) n.verdict hv
    have h10 : (strBlock (addr 1) path).addr ≠ addr 0 := hm.different 1 0 (by decide)
    have hat : CHeap.at? (extra ++ strBlock (addr 1) path :: eaBlock (addr 0) ea :: h) (addr 1) =
        some (strBlock (addr 1) path) := by
      rw [at_append]
      · exact at_cons _ _
      · intro b hb
        rcases v5 b hb with e | e <;> rw [e]
        · exact hm.different 2 1 (by decide)
        · exact hm.different 3 1 (by decide)
    have hat0 : CHeap.at? (extra ++ strBlock (addr 1) path :: eaBlock (addr 0) ea :: h) (addr 0) =
        some (eaBlock (addr 0) ea) := by
      rw [at_append, at_cons_ne _ h10]
      · exact at_cons _ _
      · intro b hb
        rcases v5 b hb with e | e <;> rw [e]
        · exact hm.different 2 0 (by decide)
        · exact hm.different 3 0 (by decide)
    refine ⟨.fileOpen (utf8 path) a b c d e ea, vs, ?_, ⟨rfl, rfl, rfl, rfl, rfl, rfl, rfl⟩, v3⟩
    have hraw : rawCopy h (addr 0) ea = .ok (addr 0) (eaBlock (addr 0) ea :: h) := by
      have : ea ≠ [] := fun e => hea (by simp [e])
      simp [rawCopy, hm.fresh 0, eaBlock, this]
    rw [WinCRequest.ofRust, hraw]
    simp only [Ran.bind]
    rw [cStringNew_ok hp f1]
    simp only
    rw [v1]
    simp only [WinCRequest.seen, string_of_at hp hat, bytes_of_at hat0, Option.map_some, Option.bind_some, v2]
    rw [v4]
    simp only [WinCRequest.drop]
    rw [dropString_of_at hp (at_cons _ _), List.filter_cons_of_neg (by simp [strBlock]),
      List.filter_cons_of_pos (by show decide _ = true; exact decide_eq_true (hm.different 0 1 (by decide))), filter_fresh (hm.unused 1)]
    simp only [Ran.bind]
    rw [dealloc_of_at (at_cons _ _), List.filter_cons_of_neg (by simp [eaBlock]), filter_fresh (hm.unused 0)]

/-- A request for a file without extended attributes, that is to say nearly every request for a file, whatever the policy
decides: nothing can be said of what happens, a block of size zero is allocated, which is undefined behaviour. -/
theorem C108_no_attributes_violated (debug : Bool) (p : Policy) (req : WinRequest) (hr : NoAttributes req)
    (n : Notification WinRequest) (hn : n ∈ (p.winEvaluate debug req).2) (h : CHeap) (addr : Nat → Nat) :
    winCNotify h addr n = .undefined := by
  obtain ⟨hreq, -⟩ := winNotification debug p req n hn
  cases req with
  | regKeyOpen => exact hr.elim
  | fileOpen path a b c d e ea =>
    obtain rfl : ea = [] := hr
    rw [winCNotify, hreq]
    rfl

/-- A path with a NUL, which a worker can send, ends the thread that serves the worker, and the memory of the extended
attributes is lost. -/
theorem C108_nul_violated (debug : Bool) (p : Policy) (path : Str) (access attributes share disposition options : BitVec 32)
    (ea : Bytes) (hz : '\x00' ∈ path) (hea : ea ≠ []) (n : Notification WinRequest)
    (hn : n ∈ (p.winEvaluate debug (.fileOpen path access attributes share disposition options ea)).2) (h : CHeap)
    (addr : Nat → Nat) (hm : HasMemory h addr) : ∃ b, winCNotify h addr n = .panics (b :: h) := by
  obtain ⟨hreq, -⟩ := winNotification debug p _ n hn
  refine ⟨eaBlock (addr 0) ea, ?_⟩
  have hraw : rawCopy h (addr 0) ea = .ok (addr 0) (eaBlock (addr 0) ea :: h) := by
    simp [rawCopy, hm.fresh 0, eaBlock, hea]
  rw [winCNotify, hreq, WinCRequest.ofRust, hraw]
  simp only [Ran.bind, cStringNew, hz, if_true]

/-- Memory given back with another size, another alignment, or twice is undefined behaviour. -/
example : (CHeap.dealloc [⟨16, 4, 1, [97, 98, 99, 0]⟩] 16 4 1) = .ok () [] ∧
    (CHeap.dealloc [⟨16, 4, 1, [97, 98, 99, 0]⟩] 16 3 1) = .undefined ∧
    (CHeap.dealloc [⟨16, 4, 1, [97, 98, 99, 0]⟩] 16 4 16) = .undefined ∧
    (CHeap.dealloc [] 16 4 1) = .undefined := by decide +kernel

/-- An allocator that has memory. -/
example : HasMemory [] (fun i => 16 * (i + 1)) := ⟨by intro i; simp, by simp, by intro i j h; show 16 * (i + 1) ≠ 16 * (j + 1); omega⟩

example : ((Policy.nothingAllowed.addLogCallback 7).winEvaluate false
      (.fileOpen c!"\\??\\C:\\a" 1 0x80 7 1 0x200000 [])).2.map (winCNotify [] (fun i => 16 * (i + 1))) = [.undefined] := by
  decide +kernel

example : ((Policy.nothingAllowed.addLogCallback 7).winEvaluate false
      (.fileOpen c!"\\??\\C:\\a" 1 0x80 7 1 0x200000 [5])).2.map (winCNotify [] (fun i => 16 * (i + 1))) =
    [.ok (7, .fileOpen (utf8 c!"\\??\\C:\\a") 1 0x80 7 1 0x200000 [5],
      .deniedByPolicy (utf8 c!"has no access to that path")) []] := by
  decide +kernel

end Iris
