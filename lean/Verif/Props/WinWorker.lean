import Verif.Lemmas.Sizes
import Verif.Lemmas.WinWorker
/-!
# C92-C95: calls of programs in a Windows worker

A hooked call with the broker at the other end of the pipe, from the program's parameters to what it gets back.
-/
namespace Iris
open Spec

/-! ## C92: files -/

theorem carried_fits (debug : Bool) (p : Policy) (b : WinBroker) (os : WinChoice) (hos : CanAnswer b os)
    (access : BitVec 32) (path : Str) (allocation : BitVec 64) (attributes share disposition options : BitVec 32)
    (hfit : ∃ data, winWrap (encWinRequest (.ntCreateFile access path allocation attributes share disposition options [])) none =
      some data) (hu : (utf16 path).length < 32768) :
    let r := WinIPCRequest.ntCreateFile access path allocation attributes share disposition options []
    let h := finishFile r (winBrokered debug p b os r)
    Carried debug p b (afterCall debug p b os h)
      (.fileOpen path access attributes share disposition (options ||| 0x200000#32) [])
      (.createFile access (utf16 path) allocation 0x80#32 share disposition (options ||| 0x200000#32) []) h
      (fun res => h.info = some (res.elim 0#64 (·.info))) := by
  intro r h
  obtain ⟨hb, hw, v0, hd, h0, hv⟩ := hos
  obtain ⟨data, hdata⟩ := hfit
  obtain ⟨hr, hx⟩ := win_exchange debug p b os r data v0 hb hdata (by simp [r]) hw hd h0 hv
  have hsent : h.sent = some r := by
    simp only [h, finishFile]
    split <;> rfl
  have hafter : afterCall debug p b os h = winAfter debug p b os r := by simp only [afterCall, hsent]
  have hgr : WinGrants debug p r ↔
      (p.winEvaluate debug (.fileOpen path access attributes share disposition (options ||| 0x200000#32) [])).1 = .granted := by
    simp [WinGrants, winAsked, r]
  have hcut : cutName path = utf16 path := cutName_short hu
  rw [hafter]
  refine ⟨hr, ?_⟩
  rcases hx with ⟨hg, res, v, h1, h2, h3, h4⟩ | ⟨hg, h1, h2, h3⟩
  · have hh : h = ⟨some r, some ((if res.status.toInt < 0 then none else some v).getD 0), some res.info, none,
        .status res.status⟩ := by
      simp only [h, finishFile, h2]; rfl
    refine .inl ⟨hgr.1 hg, res, winAnswer res r, (if res.status.toInt < 0 then none else some (v, res.object)), ?_, by rw [hh], by rw [hh]; rfl, ?_, ?_⟩
    · rw [h1]
      simp only [winNotes, winAsked, winCallFor, r, hcut, Option.toList_some, List.map_cons, List.map_nil,
        List.append_assoc, List.cons_append, List.nil_append]
    · intro hneg
      exact ⟨by rw [hh, if_pos hneg]; rfl, h3 hneg⟩
    · intro hneg
      exact ⟨v, (h4 hneg).1, by rw [hh, if_neg hneg]; rfl, (h4 hneg).2⟩
  · have hh : h = { sent := some r, handle := some 0, info := some 0, ret := .status 0xC0000022#32 } := by
      simp only [h, finishFile, h2]
    exact .inr ⟨fun hc => hg (hgr.2 hc), ⟨_, h1⟩, by rw [hh], by rw [hh]; rfl, by rw [hh]; rfl, h3⟩

theorem carried_file (debug : Bool) (p : Policy) (b : WinBroker) (os : WinChoice) (hos : CanAnswer b os)
    (access : BitVec 32) (path : Str) (allocation : BitVec 64) (attributes share disposition options : BitVec 32)
    (hlen : (utf8 path).length ≤ 60000) (hu : (utf16 path).length < 32768) :
    let r := WinIPCRequest.ntCreateFile access path allocation attributes share disposition options []
    let h := finishFile r (winBrokered debug p b os r)
    Carried debug p b (afterCall debug p b os h)
      (.fileOpen path access attributes share disposition (options ||| 0x200000#32) [])
      (.createFile access (utf16 path) allocation 0x80#32 share disposition (options ||| 0x200000#32) []) h
      (fun res => h.info = some (res.elim 0#64 (·.info))) :=
  carried_fits debug p b os hos access path allocation attributes share disposition options
    (C89_request_encodes _ none (by simpa using hlen)) hu

/-- **C92**, `NtCreateFile`, as far as it is true. A program names a file, without a root directory and without
extended attributes. Then what it gets is what the policy and the kernel decide on exactly the name it gave,
with its access, sharing, disposition and options (except that a link is opened itself, and that the file has
normal attributes).

Missing: names that are not valid UTF-16 (`C92_name_replaced_violated`), names whose UTF-8 does not fit in a
message (`C92_long_name_violated`). -/
theorem C92_create_file_partial (debug : Bool) (p : Policy) (b : WinBroker) (os : WinChoice) (hos : CanAnswer b os)
    (a : CreateFileArgs) (oa : ObjectAttributes) (name : NtString) (path : Str)
    (h1 : a.fileHandle = true) (h2 : a.ioStatusBlock = true) (h3 : a.objectAttributes = some oa) (h4 : oa.root = 0)
    (h5 : a.eaLength = 0) (h6 : oa.name = some name) (h7 : Names name (utf16 path)) (h8 : (utf8 path).length ≤ 60000) :
    let h := hookNtCreateFile a (winBrokered debug p b os)
    Carried debug p b (afterCall debug p b os h)
      (.fileOpen path a.access a.attributes a.share a.disposition (a.options ||| 0x200000#32) [])
      (.createFile a.access (utf16 path) (a.allocation.getD 0) 0x80#32 a.share a.disposition
        (a.options ||| 0x200000#32) []) h
      (fun res => h.info = some (res.elim 0#64 (·.info))) := by
  have hh : hookNtCreateFile a (winBrokered debug p b os) =
      finishFile (.ntCreateFile a.access path (a.allocation.getD 0) a.attributes a.share a.disposition a.options [])
        (winBrokered debug p b os
          (.ntCreateFile a.access path (a.allocation.getD 0) a.attributes a.share a.disposition a.options [])) := by
    simp only [hookNtCreateFile, h1, h2, h3, h4, h5, h6, units_of_names h7, fromUtf16Lossy_utf16, ne_eq,
      not_true_eq_false, or_self, if_false]
  intro h
  simp only [h, hh]
  exact carried_file debug p b os hos _ _ _ _ _ _ _ h8 (names_length h7)

/-- **C92**, `NtOpenFile`, as far as it is true: an existing file (1 is `FILE_OPEN`) is opened. -/
theorem C92_open_file_partial (debug : Bool) (p : Policy) (b : WinBroker) (os : WinChoice) (hos : CanAnswer b os)
    (a : OpenFileArgs) (oa : ObjectAttributes) (name : NtString) (path : Str)
    (h1 : a.fileHandle = true) (h2 : a.ioStatusBlock = true) (h3 : a.objectAttributes = some oa) (h4 : oa.root = 0)
    (h6 : oa.name = some name) (h7 : Names name (utf16 path)) (h8 : (utf8 path).length ≤ 60000) :
    let h := hookNtOpenFile a (winBrokered debug p b os)
    Carried debug p b (afterCall debug p b os h)
      (.fileOpen path a.access 0#32 a.share 1#32 (a.options ||| 0x200000#32) [])
      (.createFile a.access (utf16 path) 0#64 0x80#32 a.share 1#32 (a.options ||| 0x200000#32) []) h
      (fun res => h.info = some (res.elim 0#64 (·.info))) := by
  have hh : hookNtOpenFile a (winBrokered debug p b os) =
      finishFile (.ntCreateFile a.access path 0 0 a.share 1#32 a.options [])
        (winBrokered debug p b os (.ntCreateFile a.access path 0 0 a.share 1#32 a.options [])) := by
    simp only [hookNtOpenFile, h1, h2, h3, h4, h6, units_of_names h7, fromUtf16Lossy_utf16, ne_eq,
      not_true_eq_false, if_false, FILE_OPEN]
    rfl
  intro h
  simp only [h, hh]
  exact carried_file debug p b os hos _ _ _ _ _ _ _ h8 (names_length h7)

theorem file_size (access : BitVec 32) (path : Str) (allocation : BitVec 64) (attributes share disposition options : BitVec 32) :
    winWrap (encWinRequest (.ntCreateFile access path allocation attributes share disposition options [])) none =
      if fileMessageSize access (utf8 path).length allocation attributes share disposition options ≤ 65536 then
        some (encWinRequest (.ntCreateFile access path allocation attributes share disposition options []) ++ [0]) else none := by
  have h0 : sevenBits 0 = 1 := by unfold sevenBits; rfl
  have h1 : sevenBits 1 = 1 := by unfold sevenBits; rfl
  have hl : (encWinRequest (.ntCreateFile access path allocation attributes share disposition options []) ++ [0]).length =
      fileMessageSize access (utf8 path).length allocation attributes share disposition options := by
    simp only [encWinRequest, encStr, encBytes, encI64, encB64, encB32, List.length_append, List.length_cons, List.length_nil,
      sevenBits_eq, unsigned64_eq, fileMessageSize]
    omega
  simp only [winWrap, serialize, encOption, hl, IPC_MESSAGE_MAX_SIZE]

/-- Shorter names always fit. -/
theorem fileMessage_short {access : BitVec 32} {path : Str} {allocation : BitVec 64} {attributes share disposition options : BitVec 32}
    (h : (utf8 path).length ≤ 60000) :
    fileMessageSize access (utf8 path).length allocation attributes share disposition options ≤ 65536 := by
  obtain ⟨bs, hb⟩ := C89_request_encodes (.ntCreateFile access path allocation attributes share disposition options []) none
    (by simpa using h)
  rw [file_size] at hb
  split at hb
  · assumption
  · cases hb

/-- **C92**, `NtCreateFile`, exactly, for names that are valid UTF-16: the call is carried out as in `C92_create_file_partial` if
its message has at most 65536 bytes, otherwise the program is ended. Missing: the other names
(`C92_name_replaced_violated`). -/
theorem C92_create_file_exact_partial (debug : Bool) (p : Policy) (b : WinBroker) (os : WinChoice) (hos : CanAnswer b os)
    (a : CreateFileArgs) (oa : ObjectAttributes) (name : NtString) (path : Str)
    (h1 : a.fileHandle = true) (h2 : a.ioStatusBlock = true) (h3 : a.objectAttributes = some oa) (h4 : oa.root = 0)
    (h5 : a.eaLength = 0) (h6 : oa.name = some name) (h7 : Names name (utf16 path)) :
    let h := hookNtCreateFile a (winBrokered debug p b os)
    let size := fileMessageSize a.access (utf8 path).length (a.allocation.getD 0) a.attributes a.share a.disposition a.options
    (size ≤ 65536 → Carried debug p b (afterCall debug p b os h)
      (.fileOpen path a.access a.attributes a.share a.disposition (a.options ||| 0x200000#32) [])
      (.createFile a.access (utf16 path) (a.allocation.getD 0) 0x80#32 a.share a.disposition
        (a.options ||| 0x200000#32) []) h
      (fun res => h.info = some (res.elim 0#64 (·.info)))) ∧
    (65536 < size → h.ret = .abort) := by
  have hh : hookNtCreateFile a (winBrokered debug p b os) =
      finishFile (.ntCreateFile a.access path (a.allocation.getD 0) a.attributes a.share a.disposition a.options [])
        (winBrokered debug p b os
          (.ntCreateFile a.access path (a.allocation.getD 0) a.attributes a.share a.disposition a.options [])) := by
    simp only [hookNtCreateFile, h1, h2, h3, h4, h5, h6, units_of_names h7, fromUtf16Lossy_utf16, ne_eq,
      not_true_eq_false, or_self, if_false]
  intro h size
  refine ⟨fun hs => ?_, fun hs => ?_⟩
  · simp only [h, hh]
    exact carried_fits debug p b os hos _ _ _ _ _ _ _ ⟨_, by rw [file_size, if_pos hs]⟩ (names_length h7)
  · simp only [h, hh, finishFile, winSendRecv, file_size]
    rw [if_neg (Nat.not_le.2 hs)]

/-- **C92**, `NtOpenFile`, exactly, in the same sense. -/
theorem C92_open_file_exact_partial (debug : Bool) (p : Policy) (b : WinBroker) (os : WinChoice) (hos : CanAnswer b os)
    (a : OpenFileArgs) (oa : ObjectAttributes) (name : NtString) (path : Str)
    (h1 : a.fileHandle = true) (h2 : a.ioStatusBlock = true) (h3 : a.objectAttributes = some oa) (h4 : oa.root = 0)
    (h6 : oa.name = some name) (h7 : Names name (utf16 path)) :
    let h := hookNtOpenFile a (winBrokered debug p b os)
    let size := fileMessageSize a.access (utf8 path).length 0 0 a.share 1#32 a.options
    (size ≤ 65536 → Carried debug p b (afterCall debug p b os h)
      (.fileOpen path a.access 0#32 a.share 1#32 (a.options ||| 0x200000#32) [])
      (.createFile a.access (utf16 path) 0#64 0x80#32 a.share 1#32 (a.options ||| 0x200000#32) []) h
      (fun res => h.info = some (res.elim 0#64 (·.info)))) ∧
    (65536 < size → h.ret = .abort) := by
  have hh : hookNtOpenFile a (winBrokered debug p b os) =
      finishFile (.ntCreateFile a.access path 0 0 a.share 1#32 a.options [])
        (winBrokered debug p b os (.ntCreateFile a.access path 0 0 a.share 1#32 a.options [])) := by
    simp only [hookNtOpenFile, h1, h2, h3, h4, h6, units_of_names h7, fromUtf16Lossy_utf16, ne_eq,
      not_true_eq_false, if_false, FILE_OPEN]
    rfl
  intro h size
  refine ⟨fun hs => ?_, fun hs => ?_⟩
  · simp only [h, hh]
    exact carried_fits debug p b os hos _ _ _ _ _ _ _ ⟨_, by rw [file_size, if_pos hs]⟩ (names_length h7)
  · simp only [h, hh, finishFile, winSendRecv, file_size]
    rw [if_neg (Nat.not_le.2 hs)]

/-- A name of 65519 bytes fits with usual flags, one of 65520 does not, but with smaller flags one of 65524 does. -/
example : fileMessageSize 0xC0100080#32 65519 0#64 0x80#32 7#32 1#32 0x60#32 ≤ 65536 ∧
    65536 < fileMessageSize 0xC0100080#32 65520 0#64 0x80#32 7#32 1#32 0x60#32 ∧
    fileMessageSize 1#32 65524 0#64 0#32 7#32 1#32 0x60#32 ≤ 65536 := by
  decide +kernel

/-! ## C93: registry keys -/

theorem carried_key_fits (debug : Bool) (p : Policy) (b : WinBroker) (os : WinChoice) (hos : CanAnswer b os)
    (a : CreateKeyArgs) (oa : ObjectAttributes) (name : NtString) (path : Str) (cls : Option Str)
    (h1 : a.keyHandle = true) (h3 : a.objectAttributes = some oa) (h4 : oa.root = 0) (h5 : a.titleIndex = 0)
    (h6 : oa.name = some name) (h7 : Names name (utf16 path))
    (h8 : (a.cls = none ∧ cls = none) ∨ ∃ s c, a.cls = some s ∧ cls = some c ∧ Names s (utf16 c))
    (h9 : ∃ data, winWrap (encWinRequest (.ntCreateKey a.access path 0 cls a.options true)) none = some data) :
    let h := hookNtCreateKey a (winBrokered debug p b os)
    Carried debug p b (afterCall debug p b os h)
      (.regKeyOpen path a.access a.options true)
      (.createKey a.access (utf16 path) 0#32 (cls.map utf16) a.options) h
      (fun res => h.disposition = if a.outDisposition then
        some (match res with
          | some res => if res.status.toInt < 0 then 0#32 else res.disposition
          | none => 0#32) else none) := by
  have hcls : ∃ units, classUnits a.cls = some units ∧ units.map fromUtf16Lossy = cls := by
    rcases h8 with ⟨e1, e2⟩ | ⟨s, c, e1, e2, e3⟩
    · exact ⟨none, by rw [e1]; rfl, by rw [e2]; rfl⟩
    · refine ⟨some (utf16 c), by rw [e1]; simp [classUnits, units_of_names e3], ?_⟩
      simp [e2, fromUtf16Lossy_utf16]
  have hclscut : cls.map cutName = cls.map utf16 := by
    rcases h8 with ⟨e1, e2⟩ | ⟨s, c, e1, e2, e3⟩
    · rw [e2]; rfl
    · rw [e2]; simp [cutName_short (names_length e3)]
  obtain ⟨units, hunits, hcls⟩ := hcls
  let r := WinIPCRequest.ntCreateKey a.access path 0 cls a.options true
  intro h
  obtain ⟨hb, hw, v0, hd, h0, hv⟩ := hos
  obtain ⟨data, hdata⟩ := h9
  obtain ⟨hr, hx⟩ := win_exchange debug p b os r data v0 hb hdata (by simp [r]) hw hd h0 hv
  have hh : h = (match winSendRecv r (winBrokered debug p b os r) with
      | some (.ntCreateKey d code, handle) =>
        { sent := some r, handle := some (handle.getD 0),
          disposition := if a.outDisposition then some d else none, ret := .status code }
      | some (.syscallResult code, none) =>
        { sent := some r, handle := some 0, disposition := if a.outDisposition then some 0 else none, ret := .status code }
      | _ => { sent := some r, handle := some 0, disposition := if a.outDisposition then some 0 else none, ret := .abort }) := by
    simp only [h, hookNtCreateKey, h1, h3, h4, h5, h6, units_of_names h7, hunits, hcls, fromUtf16Lossy_utf16, ne_eq,
      not_true_eq_false, or_self, if_false, r]
    rfl
  have hsent : h.sent = some r := by
    rw [hh]
    split <;> rfl
  have hafter : afterCall debug p b os h = winAfter debug p b os r := by simp only [afterCall, hsent]
  have hgr : WinGrants debug p r ↔ (p.winEvaluate debug (.regKeyOpen path a.access a.options true)).1 = .granted := by
    simp [WinGrants, winAsked, r]
  have hcut : cutName path = utf16 path := cutName_short (names_length h7)
  rw [hafter]
  refine ⟨hr, ?_⟩
  rcases hx with ⟨hg, res, v, i1, i2, i3, i4⟩ | ⟨hg, i1, i2, i3⟩
  · rw [i2] at hh
    refine .inl ⟨hgr.1 hg, res, winAnswer res r, (if res.status.toInt < 0 then none else some (v, res.object)), ?_, by rw [hh]; rfl, by rw [hh]; rfl, ?_, ?_⟩
    · rw [i1]
      simp only [winNotes, winAsked, winCallFor, r, hcut, hclscut, Option.toList_some, List.map_cons, List.map_nil,
        List.append_assoc, List.cons_append, List.nil_append]
      rfl
    · intro hneg
      exact ⟨by rw [hh, if_pos hneg]; rfl, i3 hneg⟩
    · intro hneg
      exact ⟨v, (i4 hneg).1, by rw [hh, if_neg hneg]; rfl, (i4 hneg).2⟩
  · rw [i2] at hh
    exact .inr ⟨fun hc => hg (hgr.2 hc), ⟨_, i1⟩, by rw [hh], by rw [hh]; rfl, by rw [hh]; rfl, i3⟩

/-- **C93**, as far as it is true: `NtCreateKey` with a name and perhaps a class; the disposition is given to
programs that ask for it. Missing: as in C92. -/
theorem C93_create_key_partial (debug : Bool) (p : Policy) (b : WinBroker) (os : WinChoice) (hos : CanAnswer b os)
    (a : CreateKeyArgs) (oa : ObjectAttributes) (name : NtString) (path : Str) (cls : Option Str)
    (h1 : a.keyHandle = true) (h3 : a.objectAttributes = some oa) (h4 : oa.root = 0) (h5 : a.titleIndex = 0)
    (h6 : oa.name = some name) (h7 : Names name (utf16 path))
    (h8 : (a.cls = none ∧ cls = none) ∨ ∃ s c, a.cls = some s ∧ cls = some c ∧ Names s (utf16 c))
    (h9 : (utf8 path).length + (utf8 (cls.getD [])).length ≤ 60000) :
    let h := hookNtCreateKey a (winBrokered debug p b os)
    Carried debug p b (afterCall debug p b os h)
      (.regKeyOpen path a.access a.options true)
      (.createKey a.access (utf16 path) 0#32 (cls.map utf16) a.options) h
      (fun res => h.disposition = if a.outDisposition then
        some (match res with
          | some res => if res.status.toInt < 0 then 0#32 else res.disposition
          | none => 0#32) else none) :=
  carried_key_fits debug p b os hos a oa name path cls h1 h3 h4 h5 h6 h7 h8 (C89_request_encodes _ none (by simpa using h9))

theorem key_size (access : BitVec 32) (path : Str) (cls : Option Str) (options : BitVec 32) :
    winWrap (encWinRequest (.ntCreateKey access path 0 cls options true)) none =
      if keyMessageSize access (utf8 path).length (cls.map fun c => (utf8 c).length) options ≤ 65536 then
        some (encWinRequest (.ntCreateKey access path 0 cls options true) ++ [0]) else none := by
  have h0 : sevenBits 0 = 1 := by unfold sevenBits; rfl
  have h2 : sevenBits 2 = 1 := by unfold sevenBits; rfl
  have hl : (encWinRequest (.ntCreateKey access path 0 cls options true) ++ [0]).length =
      keyMessageSize access (utf8 path).length (cls.map fun c => (utf8 c).length) options := by
    have h3 : (0#32).toNat = 0 := rfl
    cases cls <;>
    · simp only [encWinRequest, encStr, encBytes, encB32, encBool, encOption, List.length_append, List.length_cons,
        List.length_nil, sevenBits_eq, keyMessageSize, Option.map_none, Option.map_some, h3, BitVec.ofNat_eq_ofNat]
      omega
  simp only [winWrap, serialize, encOption, hl, IPC_MESSAGE_MAX_SIZE]

/-- Shorter names and classes always fit. -/
theorem keyMessage_short {access : BitVec 32} {path : Str} {cls : Option Str} {options : BitVec 32}
    (h : (utf8 path).length + (utf8 (cls.getD [])).length ≤ 60000) :
    keyMessageSize access (utf8 path).length (cls.map fun c => (utf8 c).length) options ≤ 65536 := by
  obtain ⟨bs, hb⟩ := C89_request_encodes (.ntCreateKey access path 0 cls options true) none (by simpa using h)
  rw [key_size] at hb
  split at hb
  · assumption
  · cases hb

/-- **C93**, exactly, for names that are valid UTF-16: the call is carried out as in `C93_create_key_partial` if its message has
at most 65536 bytes, otherwise the program is ended. -/
theorem C93_create_key_exact_partial (debug : Bool) (p : Policy) (b : WinBroker) (os : WinChoice) (hos : CanAnswer b os)
    (a : CreateKeyArgs) (oa : ObjectAttributes) (name : NtString) (path : Str) (cls : Option Str)
    (h1 : a.keyHandle = true) (h3 : a.objectAttributes = some oa) (h4 : oa.root = 0) (h5 : a.titleIndex = 0)
    (h6 : oa.name = some name) (h7 : Names name (utf16 path))
    (h8 : (a.cls = none ∧ cls = none) ∨ ∃ s c, a.cls = some s ∧ cls = some c ∧ Names s (utf16 c)) :
    let h := hookNtCreateKey a (winBrokered debug p b os)
    let size := keyMessageSize a.access (utf8 path).length (cls.map fun c => (utf8 c).length) a.options
    (size ≤ 65536 → Carried debug p b (afterCall debug p b os h)
      (.regKeyOpen path a.access a.options true)
      (.createKey a.access (utf16 path) 0#32 (cls.map utf16) a.options) h
      (fun res => h.disposition = if a.outDisposition then
        some (match res with
          | some res => if res.status.toInt < 0 then 0#32 else res.disposition
          | none => 0#32) else none)) ∧
    (65536 < size → h.ret = .abort) := by
  have hcls : ∃ units, classUnits a.cls = some units ∧ units.map fromUtf16Lossy = cls := by
    rcases h8 with ⟨e1, e2⟩ | ⟨s, c, e1, e2, e3⟩
    · exact ⟨none, by rw [e1]; rfl, by rw [e2]; rfl⟩
    · refine ⟨some (utf16 c), by rw [e1]; simp [classUnits, units_of_names e3], ?_⟩
      simp [e2, fromUtf16Lossy_utf16]
  intro h size
  refine ⟨fun hs => ?_, fun hs => ?_⟩
  · exact carried_key_fits debug p b os hos a oa name path cls h1 h3 h4 h5 h6 h7 h8 ⟨_, by rw [key_size, if_pos hs]⟩
  · obtain ⟨units, hunits, hcls⟩ := hcls
    have hn : ∀ io, winSendRecv (.ntCreateKey a.access path 0 cls a.options true) io = none := by
      intro io
      simp only [winSendRecv, key_size]
      rw [if_neg (Nat.not_le.2 hs)]
    simp only [h, hookNtCreateKey, h1, h3, h4, h5, h6, units_of_names h7, hunits, hcls, fromUtf16Lossy_utf16, ne_eq,
      not_true_eq_false, or_self, if_false, hn]

/-! ## Where C92 and C93 fail -/

theorem encode_long {path : Str} (h : 65536 < (utf8 path).length) (access : BitVec 32) (allocation : BitVec 64)
    (attributes share disposition options : BitVec 32) (ea : Bytes) (v : Option (BitVec 64)) :
    winWrap (encWinRequest (.ntCreateFile access path allocation attributes share disposition options ea)) v = none := by
  cases hw : winWrap (encWinRequest (.ntCreateFile access path allocation attributes share disposition options ea)) v with
  | none => rfl
  | some bs =>
    exfalso
    obtain ⟨rfl, hl⟩ := winWrap_some hw
    simp only [encWinRequest, encStr, encBytes, List.length_append] at hl
    omega

/-- A program that names a file with a valid name whose UTF-8 has more than 65536 bytes is ended, whatever the
policy says about the file. -/
theorem C92_long_name_violated (io : WinIPCRequest → WinIo) (a : CreateFileArgs) (oa : ObjectAttributes)
    (name : NtString) (path : Str)
    (h1 : a.fileHandle = true) (h2 : a.ioStatusBlock = true) (h3 : a.objectAttributes = some oa) (h4 : oa.root = 0)
    (h5 : a.eaLength = 0) (h6 : oa.name = some name) (h7 : Names name (utf16 path)) (h8 : 65536 < (utf8 path).length) :
    (hookNtCreateFile a io).ret = .abort := by
  have hs : ∀ io, winSendRecv (.ntCreateFile a.access path (a.allocation.getD 0) a.attributes a.share a.disposition
      a.options []) io = none := by
    intro io
    simp only [winSendRecv, encode_long h8]
  simp only [hookNtCreateFile, h1, h2, h3, h4, h5, h6, units_of_names h7, fromUtf16Lossy_utf16, ne_eq,
    not_true_eq_false, or_self, if_false, finishFile, hs]

/-- Such names exist: 30000 times U+4E2D, which is one unit each. -/
example : Names ⟨60000#16, utf16 (List.replicate 30000 '\u4e2d')⟩ (utf16 (List.replicate 30000 '\u4e2d')) ∧
    65536 < (utf8 (List.replicate 30000 '\u4e2d')).length := by
  have h16 : ∀ n, (utf16 (List.replicate n '\u4e2d')).length = n := by
    intro n
    induction n with
    | zero => rfl
    | succ n ih =>
      rw [List.replicate_succ]
      have : utf16 ('\u4e2d' :: List.replicate n '\u4e2d') = utf16 ['\u4e2d'] ++ utf16 (List.replicate n '\u4e2d') := by
        simp [utf16]
      rw [this, List.length_append, ih, show (utf16 ['\u4e2d']).length = 1 from by decide +kernel]
      omega
  have h8 : ∀ n, (utf8 (List.replicate n '\u4e2d')).length = 3 * n := by
    intro n
    induction n with
    | zero => rfl
    | succ n ih =>
      rw [List.replicate_succ]
      have : utf8 ('\u4e2d' :: List.replicate n '\u4e2d') = utf8 ['\u4e2d'] ++ utf8 (List.replicate n '\u4e2d') := by
        simp [utf8]
      rw [this, List.length_append, ih, show (utf8 ['\u4e2d']).length = 3 from by decide +kernel]
      omega
  refine ⟨⟨?_, List.prefix_refl _⟩, ?_⟩
  · rw [h16]; decide
  · rw [h8]; decide

/-- The file `C:\d\` followed by a lone surrogate, which is a valid name for the kernel. -/
def winOddName : List U16 := utf16 c!"\\??\\C:\\d\\" ++ [0xD800#16]

def winOddCall : CreateFileArgs :=
  ⟨true, 1, some ⟨0, some ⟨20, winOddName⟩⟩, true, none, 0, 7, 1, 0, 0⟩

def winOddBroker : WinBroker :=
  (WinBroker.start ⟨[(4, 1), (8, 2), (12, 3)], [(4, 5)]⟩ 4 8).run false winDemoPolicy winDemoFirst []

def winOddChoice : WinChoice := ⟨⟨0, 1, 0, 0x100, 7⟩, some 0x20, true⟩

/-- A program names one file, the kernel is asked for another one, and the program gets a handle to that one. -/
theorem C92_name_replaced_violated :
    Names ⟨20, winOddName⟩ winOddName ∧ CanAnswer winOddBroker winOddChoice ∧
    (hookNtCreateFile winOddCall (winBrokered false winDemoPolicy winOddBroker winOddChoice)).ret = .status 0 ∧
    (hookNtCreateFile winOddCall (winBrokered false winDemoPolicy winOddBroker winOddChoice)).handle = some 0x20 ∧
    ∃ other, other ≠ winOddName ∧
      (afterCall false winDemoPolicy winOddBroker winOddChoice
        (hookNtCreateFile winOddCall (winBrokered false winDemoPolicy winOddBroker winOddChoice))).trace =
      winOddBroker.trace ++ [.called (.createFile 1 other 0 0x80 7 1 0x200000 []) ⟨0, 1, 0, 0x100, 7⟩,
        .sent (.ntCreateFile 1 0) (some (0x20, 7))] := by
  refine ⟨⟨by decide +kernel, List.prefix_refl _⟩, ⟨by decide +kernel, by decide +kernel, 0x20, by decide +kernel,
    by decide, ?_⟩, by decide +kernel, by decide +kernel, utf16 c!"\\??\\C:\\d\\" ++ [0xFFFD#16], by decide +kernel,
    by decide +kernel⟩
  have : winOddBroker.tables.worker = [(4, 5)] := by decide +kernel
  rw [this]
  simp

/-! ## C94: calls refused at once -/

theorem finish_file (r : WinIPCRequest) (io : WinIo) : (finishFile r io).sent = some r ∧
    (∀ v, (finishFile r io).handle = some v → v ≠ 0#64 → ∃ resp, winSendRecv r io = some (resp, some v)) := by
  simp only [finishFile]
  split
  · rename_i info code handle heq
    refine ⟨rfl, fun v hv h0 => ?_⟩
    cases handle with
    | none => simp at hv; exact absurd hv.symm h0
    | some w => simp at hv; subst hv; exact ⟨_, heq⟩
  · exact ⟨rfl, fun v hv h0 => by simp at hv; exact absurd hv.symm h0⟩
  · exact ⟨rfl, fun v hv h0 => by simp at hv; exact absurd hv.symm h0⟩

/-- **C94**, `NtCreateFile`. A call without one of its pointers, with a root directory, with extended attributes
or without a name is answered at once and gives no handle. A call that is not, and whose name can be read, is
sent to the broker. Whenever the program gets a handle, it is one the broker sent in reply to this call. -/
theorem C94_create_file (a : CreateFileArgs) (io : WinIPCRequest → WinIo) :
    let h := hookNtCreateFile a io
    (∀ st, refusedAtOnce (a.fileHandle && a.ioStatusBlock) a.objectAttributes (a.eaLength != 0#32) = some st →
      h.sent = none ∧ h.ret = .status st ∧ ∀ v, h.handle = some v → v = 0#64) ∧
    (refusedAtOnce (a.fileHandle && a.ioStatusBlock) a.objectAttributes (a.eaLength != 0#32) = none →
      ∀ oa name units, a.objectAttributes = some oa → oa.name = some name → Names name units → h.sent.isSome = true) ∧
    (∀ v, h.handle = some v → v ≠ 0#64 → ∃ r resp, h.sent = some r ∧ winSendRecv r (io r) = some (resp, some v)) := by
  intro h
  obtain ⟨fh, access, oa, iosb, allocation, attributes, share, disposition, options, ea⟩ := a
  cases fh with
  | false => simp [refusedAtOnce, h, hookNtCreateFile, STATUS_INVALID_PARAMETER]
  | true =>
    cases iosb with
    | false => cases oa <;> simp [refusedAtOnce, h, hookNtCreateFile, STATUS_INVALID_PARAMETER]
    | true =>
      cases oa with
      | none => simp [refusedAtOnce, h, hookNtCreateFile, STATUS_INVALID_PARAMETER]
      | some oa =>
        obtain ⟨root, name⟩ := oa
        by_cases hr : root ≠ 0 ∨ ea ≠ 0
        · have hr' : ¬ root = 0#64 ∨ ¬ ea = 0#32 := hr
          simp only [refusedAtOnce, h, hookNtCreateFile, if_pos hr, Bool.and_self, bne_iff_ne, ne_eq, if_pos hr',
            STATUS_NOT_SUPPORTED, Option.some.injEq]
          refine ⟨fun st hst => ⟨trivial, by rw [← hst]; rfl, fun v hv => hv.symm⟩, by simp, fun v hv h0 => absurd hv.symm h0⟩
        · have hr' : ¬ (¬ root = 0#64 ∨ ¬ ea = 0#32) := hr
          cases name with
          | none =>
            simp only [refusedAtOnce, h, hookNtCreateFile, if_neg hr, Bool.and_self, bne_iff_ne, ne_eq, if_neg hr',
              STATUS_INVALID_PARAMETER, Option.some.injEq, if_true]
            refine ⟨fun st hst => ⟨trivial, by rw [← hst]; rfl, fun v hv => hv.symm⟩, by simp, fun v hv h0 => absurd hv.symm h0⟩
          | some name =>
            refine ⟨fun st hst => ?_, fun _ oa name' units h1 h2 h3 => ?_, fun v hv h0 => ?_⟩
            · simp only [refusedAtOnce, Bool.and_self, bne_iff_ne, ne_eq, if_neg hr', reduceCtorEq, if_false] at hst
            · cases h1; cases h2
              simp only [h, hookNtCreateFile, if_neg hr, units_of_names h3, (finish_file _ _).1]; rfl
            · simp only [h, hookNtCreateFile, if_neg hr] at hv ⊢
              cases hu : name.units with
              | none => simp only [hu] at hv; simp at hv; exact absurd hv.symm h0
              | some units =>
                simp only [hu] at hv ⊢
                exact ⟨_, ((finish_file _ _).2 v hv h0).imp fun _ h => ⟨(finish_file _ _).1, h⟩⟩

/-- **C94**, `NtOpenFile`. -/
theorem C94_open_file (a : OpenFileArgs) (io : WinIPCRequest → WinIo) :
    let h := hookNtOpenFile a io
    (∀ st, refusedAtOnce (a.fileHandle && a.ioStatusBlock) a.objectAttributes false = some st →
      h.sent = none ∧ h.ret = .status st ∧ ∀ v, h.handle = some v → v = 0#64) ∧
    (refusedAtOnce (a.fileHandle && a.ioStatusBlock) a.objectAttributes false = none →
      ∀ oa name units, a.objectAttributes = some oa → oa.name = some name → Names name units → h.sent.isSome = true) ∧
    (∀ v, h.handle = some v → v ≠ 0#64 → ∃ r resp, h.sent = some r ∧ winSendRecv r (io r) = some (resp, some v)) := by
  intro h
  obtain ⟨fh, access, oa, iosb, share, options⟩ := a
  cases fh with
  | false => simp [refusedAtOnce, h, hookNtOpenFile, STATUS_INVALID_PARAMETER]
  | true =>
    cases iosb with
    | false => cases oa <;> simp [refusedAtOnce, h, hookNtOpenFile, STATUS_INVALID_PARAMETER]
    | true =>
      cases oa with
      | none => simp [refusedAtOnce, h, hookNtOpenFile, STATUS_INVALID_PARAMETER]
      | some oa =>
        obtain ⟨root, name⟩ := oa
        by_cases hr : root ≠ 0
        · have hr' : ¬ root = 0#64 ∨ false = true := .inl hr
          simp only [refusedAtOnce, h, hookNtOpenFile, if_pos hr, Bool.and_self, ne_eq, if_pos hr',
            STATUS_NOT_SUPPORTED, Option.some.injEq]
          refine ⟨fun st hst => ⟨trivial, by rw [← hst]; rfl, fun v hv => hv.symm⟩, by simp, fun v hv h0 => absurd hv.symm h0⟩
        · have hr' : ¬ (¬ root = 0#64 ∨ false = true) := by simpa using hr
          cases name with
          | none =>
            simp only [refusedAtOnce, h, hookNtOpenFile, if_neg hr, Bool.and_self, ne_eq, if_neg hr',
              STATUS_INVALID_PARAMETER, Option.some.injEq, if_true]
            refine ⟨fun st hst => ⟨trivial, by rw [← hst]; rfl, fun v hv => hv.symm⟩, by simp, fun v hv h0 => absurd hv.symm h0⟩
          | some name =>
            refine ⟨fun st hst => ?_, fun _ oa name' units h1 h2 h3 => ?_, fun v hv h0 => ?_⟩
            · have h0 : root = 0#64 := Decidable.of_not_not hr
              simp [refusedAtOnce, h0] at hst
            · cases h1; cases h2
              simp only [h, hookNtOpenFile, if_neg hr, units_of_names h3, (finish_file _ _).1]; rfl
            · simp only [h, hookNtOpenFile, if_neg hr] at hv ⊢
              cases hu : name.units with
              | none => simp only [hu] at hv; simp at hv; exact absurd hv.symm h0
              | some units =>
                simp only [hu] at hv ⊢
                exact ⟨_, ((finish_file _ _).2 v hv h0).imp fun _ h => ⟨(finish_file _ _).1, h⟩⟩

/-- **C94**, `NtCreateKey`; here a title index is not supported. -/
theorem C94_create_key (a : CreateKeyArgs) (io : WinIPCRequest → WinIo) :
    let h := hookNtCreateKey a io
    (∀ st, refusedAtOnce a.keyHandle a.objectAttributes (a.titleIndex != 0#32) = some st →
      h.sent = none ∧ h.ret = .status st ∧ (∀ v, h.handle = some v → v = 0#64) ∧ ∀ d, h.disposition = some d → d = 0#32) ∧
    (refusedAtOnce a.keyHandle a.objectAttributes (a.titleIndex != 0#32) = none →
      ∀ oa name units, a.objectAttributes = some oa → oa.name = some name → Names name units →
        (∀ c, a.cls = some c → ∃ u, Names c u) → h.sent.isSome = true) ∧
    (∀ v, h.handle = some v → v ≠ 0#64 → ∃ r resp, h.sent = some r ∧ winSendRecv r (io r) = some (resp, some v)) := by
  intro h
  obtain ⟨kh, access, oa, ti, cls, options, out⟩ := a
  cases kh with
  | false => simp [refusedAtOnce, h, hookNtCreateKey, STATUS_INVALID_PARAMETER]
  | true =>
    cases oa with
    | none => simp [refusedAtOnce, h, hookNtCreateKey, STATUS_INVALID_PARAMETER]
    | some oa =>
      obtain ⟨root, name⟩ := oa
      by_cases hr : root ≠ 0 ∨ ti ≠ 0
      · have hr' : ¬ root = 0#64 ∨ ¬ ti = 0#32 := hr
        simp only [refusedAtOnce, h, hookNtCreateKey, if_pos hr, bne_iff_ne, ne_eq, if_pos hr',
          STATUS_NOT_SUPPORTED, Option.some.injEq]
        refine ⟨fun st hst => ⟨trivial, by rw [← hst]; rfl, (fun v hv => hv.symm), fun d hd => by
          cases out <;> simp_all⟩, by simp, fun v hv h0 => absurd hv.symm h0⟩
      · have hr' : ¬ (¬ root = 0#64 ∨ ¬ ti = 0#32) := hr
        cases name with
        | none =>
          simp only [refusedAtOnce, h, hookNtCreateKey, if_neg hr, bne_iff_ne, ne_eq, if_neg hr',
            STATUS_INVALID_PARAMETER, Option.some.injEq, if_true]
          refine ⟨fun st hst => ⟨trivial, by rw [← hst]; rfl, (fun v hv => hv.symm), fun d hd => by
          cases out <;> simp_all⟩, by simp, fun v hv h0 => absurd hv.symm h0⟩
        | some name =>
          refine ⟨fun st hst => ?_, fun _ oa name' units h1 h2 h3 h4 => ?_, fun v hv h0 => ?_⟩
          · simp only [refusedAtOnce, bne_iff_ne, ne_eq, if_neg hr', reduceCtorEq, if_false] at hst
          · cases h1; cases h2
            have hc : ∃ u, classUnits cls = some u := by
              cases cls with
              | none => exact ⟨none, rfl⟩
              | some c =>
                obtain ⟨u, hu⟩ := h4 c rfl
                exact ⟨some u, by simp [classUnits, units_of_names hu]⟩
            obtain ⟨u, hu⟩ := hc
            simp only [h, hookNtCreateKey, if_neg hr, units_of_names h3, hu]
            split <;> rfl
          · simp only [h, hookNtCreateKey, if_neg hr] at hv ⊢
            cases hu : name.units with
            | none => simp only [hu] at hv; simp at hv; exact absurd hv.symm h0
            | some units =>
              cases hc : classUnits cls with
              | none => simp only [hu, hc] at hv; simp at hv; exact absurd hv.symm h0
              | some c =>
                simp only [hu, hc] at hv ⊢
                generalize hreq : WinIPCRequest.ntCreateKey access (fromUtf16Lossy units) ti
                  (c.map fromUtf16Lossy) options true = req at hv ⊢
                split at hv
                · rename_i d code handle heq
                  cases handle with
                  | none => simp at hv; exact absurd hv.symm h0
                  | some w =>
                    simp at hv
                    subst hv
                    exact ⟨req, _, rfl, heq⟩
                · simp at hv; exact absurd hv.symm h0
                · simp at hv; exact absurd hv.symm h0

/-- C94: calls refused at once, and one that is not. -/
example :
    refusedAtOnce true (some ⟨0, none⟩) false = some 0xC000000D ∧
    refusedAtOnce true (some ⟨8, some ⟨2, [0x41]⟩⟩) false = some 0xC00000BB ∧
    refusedAtOnce true (some ⟨0, some ⟨2, [0x41]⟩⟩) false = none ∧ Names ⟨2, [0x41, 0x42]⟩ [0x41] := by
  refine ⟨by decide, by decide, by decide, by decide, ?_⟩
  exact ⟨[0x42], rfl⟩

/-! ## C95: the start of a worker -/

/-- **C95.** A worker whose broker was given any policy built with the API starts if the policy fits in a message
and the broker can write it; in all other cases it does not start. `data` is what the worker writes. -/
theorem C95_start (os : WinOs) (calls : List WinCall) (base : Policy)
    (hbase : base = Policy.nothingAllowed ∨ base = Policy.auditOnlyPolicy) (b : WinBroker) (hb : b.running = true)
    (choice : WinChoice) (data : Bytes) (hdata : winWrap (encWinRequest .initialization) none = some data) :
    let p := base.winCalls os calls
    let b' := b.handshake p (.message data, choice)
    (winInitialize ⟨true, winPiped b b'⟩ = true ↔
      choice.writeOk = true ∧ (winWrap (encWinResponse (.initialization p)) none).isSome = true) ∧
    (b'.running = true ↔ winInitialize ⟨true, winPiped b b'⟩ = true) := by
  intro p b'
  obtain ⟨hl, hu⟩ := C89_request_round_trip _ none data hdata
  have hreq : winRequest (.message data) = some .initialization := by simp [winRequest, hl, hu]
  have hbroken : winInitialize ⟨true, .broken⟩ = false := by
    simp [winInitialize, winSendRecv, hdata]
  rcases win_handshake p b (.message data, choice) hb with ⟨_, h2, h3, h4⟩ | ⟨h1, h2⟩
  · have hb' : b' = { b with trace := b.trace ++ [.sent (.initialization p) none] } := h4
    obtain ⟨bs, hbs⟩ := Option.isSome_iff_exists.1 h3
    have hp : winPiped b b' = .message bs := by
      simp [winPiped, hb', hbs]
    obtain ⟨q, hq, _⟩ := C89_policy_round_trip os calls base hbase bs hbs
    have hlen := (winWrap_some hbs).2
    have hi : winInitialize ⟨true, winPiped b b'⟩ = true := by
      have : ¬ bs.length > IPC_MESSAGE_MAX_SIZE := by simp only [IPC_MESSAGE_MAX_SIZE]; omega
      simp [winInitialize, winSendRecv, hdata, hp, this, hq]
    rw [hi]
    refine ⟨⟨fun _ => ⟨h2, h3⟩, fun _ => rfl⟩, ⟨fun _ => rfl, fun _ => ?_⟩⟩
    rw [hb']
    exact hb
  · have hn : winNamed (.message data) = none := by
      simp [winNamed, hl, hu]
    have hb' : b' = b.leave := by rw [show b' = _ from h2, hn]; rfl
    have hp : winPiped b b' = .broken := by simp [winPiped, hb', WinBroker.leave]
    rw [hp, hbroken]
    refine ⟨⟨fun h => absurd h (by simp), fun h => absurd ⟨hreq, h.1, h.2⟩ h1⟩, ?_⟩
    rw [hb']
    simp [WinBroker.leave]

/-- Whatever is at the other end of the pipe, a worker only starts after a greeting without a handle. -/
theorem C95_only_after_greeting (io : WinIo) :
    winInitialize io = true ↔ io.writeOk = true ∧ ∃ data q, io.incoming = .message data ∧ data.length ≤ 65536 ∧
      winUnwrap decWinResponse data = some (.initialization q, none) := by
  obtain ⟨d, hd⟩ := C89_request_encodes .initialization none trivial
  obtain ⟨w, inc⟩ := io
  cases w with
  | false => simp [winInitialize, winSendRecv, hd]
  | true =>
    cases inc with
    | broken => simp [winInitialize, winSendRecv, hd]
    | failed c => simp [winInitialize, winSendRecv, hd]
    | message data =>
      by_cases hl : data.length > IPC_MESSAGE_MAX_SIZE
      · have : ¬ data.length ≤ 65536 := by simp only [IPC_MESSAGE_MAX_SIZE] at hl; omega
        simp only [winInitialize, winSendRecv, hd, if_true, if_pos hl, Bool.false_eq_true, true_and, false_iff]
        rintro ⟨data', q, h, hle, -⟩
        cases h
        exact this hle
      · have : data.length ≤ 65536 := by simp only [IPC_MESSAGE_MAX_SIZE] at hl; omega
        simp only [winInitialize, winSendRecv, hd, if_true, if_neg hl, true_and]
        constructor
        · intro h
          split at h
          · exact ⟨data, _, rfl, this, by assumption⟩
          · cases h
        · rintro ⟨data', q, h, -, hq⟩
          cases h
          rw [hq]

/-- C92, C93: a program opens the file and the key it may read, and is refused another file. -/
example :
    hookNtOpenFile ⟨true, 1, some ⟨0, some ⟨20, utf16 c!"\\??\\C:\\d\\f"⟩⟩, true, 7, 0⟩
      (winBrokered false winDemoPolicy winOddBroker winOddChoice) =
      { sent := some (.ntCreateFile 1 c!"\\??\\C:\\d\\f" 0 0 7 1 0 []), handle := some 0x20, info := some 1, ret := .status 0 } ∧
    (hookNtOpenFile ⟨true, 1, some ⟨0, some ⟨16, utf16 c!"\\??\\C:\\e"⟩⟩, true, 7, 0⟩
      (winBrokered false winDemoPolicy winOddBroker winOddChoice)).ret = .status 0xC0000022 ∧
    (hookNtCreateKey ⟨true, 0x20019, some ⟨0, some ⟨42, utf16 c!"\\REGISTRY\\MACHINE\\k\\s"⟩⟩, 0, some ⟨2, [0x41]⟩, 0, true⟩
      (winBrokered false (winDemoPolicy.winCalls plainOs [.regWrite c!"HKEY_LOCAL_MACHINE\\k"]) winOddBroker
        ⟨⟨0, 0, 2, 0x100, 9⟩, some 0x28, true⟩)) =
      { sent := some (.ntCreateKey 0x20019 c!"\\REGISTRY\\MACHINE\\k\\s" 0 (some c!"A") 0 true), handle := some 0x28,
        disposition := some 2, ret := .status 0 } := by
  refine ⟨by decide +kernel, by decide +kernel, by decide +kernel⟩

end Iris
