import Verif.Lemmas.Sizes
import Verif.Lemmas.Worker
/-!
# Properties of intercepted system calls (C31, C51, C52, C67, C68)

A worker and its broker together: the trap handler sends its request, the broker takes one
step, the handler receives the reply.
-/
namespace Iris
open Spec

/-- A trapped call of a worker, served by its broker. -/
def Spec.served [Target] (abi : Abi) (p : Policy) (b : Broker) (os : OsChoice) (audit : Bool)
    (replace : Bytes → Str) (mem : Memory) (t : FdTable) (r : Regs) (io : WorkerIo) :
    Handled × Broker :=
  withBroker abi p b os fun inc => handleTrap abi audit replace mem t r { io with incoming := inc }

/-- The path of the request a call makes. -/
def Spec.asked (cwd path : Str) : Kind → Str
  | .open _ => absolute cwd path
  | _ => path

/-- The flags of the request a call makes; those of a call without are O_PATH. -/
def Spec.askedFlags : Kind → BitVec 32
  | .open flags => flags
  | .access mode => mode
  | .stat | .chdir => 0x200000#32

theorem requestOf_eq (cwd path : Str) (k : Kind) : ∃ f, requestOf cwd path k = .openFile (asked cwd path k) f := by
  cases k <;> exact ⟨_, rfl⟩

/-- Everything about a served path call whose request fits into a message. -/
theorem served_fits [Target] (abi : Abi) (p : Policy) (b : Broker) (os : OsChoice) (audit : Bool)
    (replace : Bytes → Str) (mem : Memory) (t : FdTable) (r : Regs) (io : WorkerIo) (cwd : Str)
    (k : Kind) (path : Str) (hs : Serving b os t io cwd) (hc : PathCall mem r k path)
    (hfit : ∀ f, requestOf cwd path k = .openFile (asked cwd path k) f →
      ∃ data, sendRequest (.openFile (asked cwd path k) f) = some data) :
    ∃ q f, requestOf cwd path k = .openFile q f ∧
      (Spec.served abi p b os audit replace mem t r io).2 =
        { b with trace := b.trace ++ Iris.served abi p b.table (.openFile q f, os) } ∧
      match (answer p os (.openFile q f)).2 with
      | none => (Spec.served abi p b os audit replace mem t r io).1 =
          ⟨t, some (.openFile q f), .code (answer p os (.openFile q f)).1, none⟩
      | some file => ∃ t' extra, Received t t' file extra t.lowestFree ∧ (abi = .ilp32 → extra = []) ∧
          (Spec.served abi p b os audit replace mem t r io).1 = match k with
            | .open _ => ⟨t', some (.openFile q f), .code (BitVec.ofNat 64 t.lowestFree), none⟩
            | .access _ => ⟨t'.erase t.lowestFree, some (.openFile q f), .code 0#64, none⟩
            | _ => ⟨t'.erase t.lowestFree, some (.openFile q f),
                .code ((io.onFd t.lowestFree).elim 0#64 negErrno), none⟩ := by
  obtain ⟨q, f, hq, hn⟩ := requestOf_noNul hc hs.cwdNoNul
  obtain ⟨f', hq'⟩ := requestOf_eq cwd path k
  rw [hq] at hq'
  cases hq'
  obtain ⟨data, hd⟩ := hfit f hq
  have hw := withBroker_served abi p b os
    (fun inc => handleTrap abi audit replace mem t r { io with incoming := inc })
    (.openFile (asked cwd path k) f) data
    (by rw [← hq]; simp only [trap_eq abi audit replace t _ hc]
        exact handlerOf_sent abi t path cwd _ k hs.knownCwd)
    hd hs.running hs.brokerTable (by rintro ⟨_, h⟩; exact hn h) hs.brokerSends
  refine ⟨_, f, hq, by rw [Spec.served, hw], ?_⟩
  simp only [Spec.served]
  rw [hw]
  simp only [trap_eq abi audit replace t _ hc]
  have hh := handler_served abi p b.table t os path cwd k _ f hq data hd
    { io with incoming := .datagram ⟨encResponse (.syscallResult (answer p os
      (.openFile (asked cwd path k) f)).1), replyFiles abi p b.table os (.openFile (asked cwd path k) f)⟩ }
    hs.workerSends hs.room
    hs.knownCwd hs.errno rfl
  cases ha : (answer p os (.openFile (asked cwd path k) f)).2 with
  | none => rw [ha] at hh; exact hh
  | some file => rw [ha] at hh; cases k <;> exact hh

/-- Everything about a served path call. -/
theorem served_call [Target] (abi : Abi) (p : Policy) (b : Broker) (os : OsChoice) (audit : Bool)
    (replace : Bytes → Str) (mem : Memory) (t : FdTable) (r : Regs) (io : WorkerIo) (cwd : Str)
    (k : Kind) (path : Str) (hs : Serving b os t io cwd) (hc : PathCall mem r k path)
    (hlen : (utf8 (asked cwd path k)).length ≤ 65527) :
    ∃ q f, requestOf cwd path k = .openFile q f ∧
      (Spec.served abi p b os audit replace mem t r io).2 =
        { b with trace := b.trace ++ Iris.served abi p b.table (.openFile q f, os) } ∧
      match (answer p os (.openFile q f)).2 with
      | none => (Spec.served abi p b os audit replace mem t r io).1 =
          ⟨t, some (.openFile q f), .code (answer p os (.openFile q f)).1, none⟩
      | some file => ∃ t' extra, Received t t' file extra t.lowestFree ∧ (abi = .ilp32 → extra = []) ∧
          (Spec.served abi p b os audit replace mem t r io).1 = match k with
            | .open _ => ⟨t', some (.openFile q f), .code (BitVec.ofNat 64 t.lowestFree), none⟩
            | .access _ => ⟨t'.erase t.lowestFree, some (.openFile q f), .code 0#64, none⟩
            | _ => ⟨t'.erase t.lowestFree, some (.openFile q f),
                .code ((io.onFd t.lowestFree).elim 0#64 negErrno), none⟩ := by
  have h := served_fits abi p b os audit replace mem t r io cwd k path hs hc fun f _ =>
    C27_request_encodes _ (by intro q f h; cases h; exact hlen)
  cases k <;> exact h

theorem request_size (q : Str) (f : BitVec 32) : (encRequest (.openFile q f)).length = messageSize (utf8 q).length f := by
  simp only [encRequest, encStr, encBytes, encI32, encB32, List.length_append, sevenBits_eq, unsigned32_eq, messageSize]
  have : sevenBits 1 = 1 := by unfold sevenBits; rfl
  omega

theorem requestOf_flags (cwd path : Str) (k : Kind) :
    requestOf cwd path k = .openFile (asked cwd path k) (askedFlags k) := by
  cases k <;> rfl

theorem served_sized {cwd : Str} {k : Kind} {path : Str}
    (hlen : messageSize (utf8 (asked cwd path k)).length (askedFlags k) ≤ 65536) (f : BitVec 32)
    (hf : requestOf cwd path k = .openFile (asked cwd path k) f) :
    ∃ data, sendRequest (.openFile (asked cwd path k) f) = some data := by
  rw [requestOf_flags] at hf
  cases hf
  refine ⟨_, if_pos ?_⟩
  rw [request_size]
  exact hlen

/-- Shorter paths always fit. -/
theorem messageSize_short {n : Nat} (f : BitVec 32) (h : n ≤ 65527) : messageSize n f ≤ 65536 := by
  have h1 := encVarint_length 2 n (by omega)
  have h2 := encVarint_length 4 (zigzag f).toNat (by have := (zigzag f).isLt; omega)
  rw [sevenBits_eq] at h1 h2
  rw [unsigned32_eq] at h2
  unfold messageSize
  omega

/-! ## C67 -/

/-- C67. An intercepted open or openat (relative to the working directory, or absolute):
* the rules do not allow it: the result is -EACCES, no file is opened by the broker and the
  worker's descriptors are unchanged;
* the rules allow it and the system refuses: the result is the system's error, the worker's
  descriptors are unchanged;
* the rules allow it and the system opens the file: the result is a descriptor that was
  free, now refers to that file and to nothing else; all other open descriptors are as
  before. The file was opened at exactly the path the program meant, with exactly its
  flags.
The message with the path and the flags has at most 64 KiB: with any other the worker stops (`C31_returns_iff`). -/
theorem C67_open_end_to_end [Target] (abi : Abi) (h : List Call) (b : Broker) (os : OsChoice)
    (audit : Bool) (replace : Bytes → Str) (mem : Memory) (t : FdTable) (r : Regs) (io : WorkerIo)
    (cwd : Str) (flags : BitVec 32) (path : Str) (hs : Serving b os t io cwd)
    (hc : PathCall mem r (.open flags) path)
    (hlen : messageSize (utf8 (absolute cwd path)).length flags ≤ 65536) :
    let x := Spec.served abi (Policy.nothingAllowed.calls h) b os audit replace mem t r io
    x.2.status = .running ∧ x.2.table = b.table ∧
    (¬ OpenAllowed h (absolute cwd path) flags →
      x.1.ret = .code (-13#64) ∧ x.1.table = t ∧ opens x.2.trace = opens b.trace) ∧
    (OpenAllowed h (absolute cwd path) flags →
      opens x.2.trace = opens b.trace ++ [(absolute cwd path, flags)] ∧
      (∀ e, os.openResult = .error e → x.1.ret = .code (-(BitVec.ofNat 64 e)) ∧ x.1.table = t) ∧
      (∀ file, os.openResult = .ok file → ∃ fd, fd < 2 ^ 31 ∧ x.1.ret = .code (BitVec.ofNat 64 fd) ∧
        t.get fd = none ∧ x.1.table.get fd = some ⟨file, 1#32⟩ ∧
        ∀ i, t.get i ≠ none → x.1.table.get i = t.get i)) := by
  intro x
  obtain ⟨q, f, hq, hb, hm⟩ := served_fits abi (Policy.nothingAllowed.calls h) b os audit replace
    mem t r io cwd _ path hs hc (served_sized hlen)
  cases hq
  have hx2 : x.2.trace = b.trace ++ Iris.served abi (Policy.nothingAllowed.calls h) b.table
      (.openFile (absolute cwd path) flags, os) := by
    show (Spec.served ..).2.trace = _
    rw [hb]
  have hex := C02_file_open_exact h (absolute cwd path) flags
  refine ⟨?_, ?_, ?_, ?_⟩
  · show (Spec.served ..).2.status = _
    rw [hb]; exact hs.running
  · show (Spec.served ..).2.table = _
    rw [hb]
  · intro hna
    have hg : ¬ Grants (Policy.nothingAllowed.calls h) (absolute cwd path) flags :=
      fun hg => hna (hex.1 hg)
    have ha : answer (Policy.nothingAllowed.calls h) os (.openFile (absolute cwd path) flags) =
        (-13#64, none) := by simp only [answer, if_neg hg]
    rw [ha] at hm
    simp only at hm
    refine ⟨by show (Spec.served ..).1.ret = _; rw [hm], by show (Spec.served ..).1.table = _; rw [hm], ?_⟩
    rw [hx2, opens_append, opens_served]
    simp [toOpen, hg]
  · intro hal
    have hg : Grants (Policy.nothingAllowed.calls h) (absolute cwd path) flags := hex.2 hal
    refine ⟨?_, ?_, ?_⟩
    · rw [hx2, opens_append, opens_served]
      simp [toOpen, hg]
    · intro e he
      have ha : answer (Policy.nothingAllowed.calls h) os (.openFile (absolute cwd path) flags) =
          (-(BitVec.ofNat 64 e), none) := by simp only [answer, if_pos hg, he]
      rw [ha] at hm
      simp only at hm
      exact ⟨by show (Spec.served ..).1.ret = _; rw [hm], by show (Spec.served ..).1.table = _; rw [hm]⟩
    · intro file hf
      have ha : answer (Policy.nothingAllowed.calls h) os (.openFile (absolute cwd path) flags) =
          (0#64, some file) := by simp only [answer, if_pos hg, hf]
      rw [ha] at hm
      simp only at hm
      obtain ⟨t', extra, hr, _, hh⟩ := hm
      refine ⟨t.lowestFree, Nat.lt_of_le_of_lt hr.small hs.workerTable,
        by show (Spec.served ..).1.ret = _; rw [hh], hr.fresh, ?_, ?_⟩
      · show (Spec.served ..).1.table.get _ = _
        rw [hh]; exact hr.here
      · intro i hi
        show (Spec.served ..).1.table.get _ = _
        rw [hh]; exact hr.kept i hi

/-- C67. Where a `cmsghdr` takes 12 bytes (32-bit), the new descriptor is the only one. -/
theorem C67_no_other_descriptor [Target] (h : List Call) (b : Broker) (os : OsChoice)
    (audit : Bool) (replace : Bytes → Str) (mem : Memory) (t : FdTable) (r : Regs) (io : WorkerIo)
    (cwd : Str) (flags : BitVec 32) (path : Str) (hs : Serving b os t io cwd)
    (hc : PathCall mem r (.open flags) path)
    (hlen : messageSize (utf8 (absolute cwd path)).length flags ≤ 65536) (i j : Nat) (e e' : FdEntry)
    (hi : t.get i = none) (hj : t.get j = none)
    (hi' : (Spec.served .ilp32 (Policy.nothingAllowed.calls h) b os audit replace mem t r io).1.table.get i = some e)
    (hj' : (Spec.served .ilp32 (Policy.nothingAllowed.calls h) b os audit replace mem t r io).1.table.get j = some e') :
    i = j := by
  obtain ⟨q, f, hq, hb, hm⟩ := served_fits .ilp32 (Policy.nothingAllowed.calls h) b os audit replace
    mem t r io cwd _ path hs hc (served_sized hlen)
  cases ha : (answer (Policy.nothingAllowed.calls h) os (.openFile q f)).2 with
  | none =>
    rw [ha] at hm; simp only at hm
    rw [hm] at hi'; simp only at hi'
    rw [hi] at hi'; cases hi'
  | some file =>
    rw [ha] at hm; simp only at hm
    obtain ⟨t', extra, hr, hx, hh⟩ := hm
    rw [hx trivial] at hr
    rw [hh] at hi' hj'
    rcases hr.new i e hi hi' with h1 | h1
    · rcases hr.new j e' hj hj' with h2 | h2
      · rw [h1, h2]
      · cases h2
    · cases h1

/-! ## Witnesses -/

/-- A program with "notes.txt" at 4096, "/tmp/notes.txt" at 8192 and "/etc/shadow" at 12288. -/
def demoMemory : Memory := fun a =>
  if a = 4096#64 then some (utf8 c!"notes.txt")
  else if a = 8192#64 then some (utf8 c!"/tmp/notes.txt")
  else if a = 12288#64 then some (utf8 c!"/etc/shadow")
  else none

def demoBroker : Broker := ⟨[(0, ⟨1, 0#32⟩), (3, ⟨2, 1#32⟩)], 3, .running, []⟩
def demoOs : OsChoice := ⟨2, .ok 9, none⟩
def demoTable : FdTable := [(0, ⟨21, 0#32⟩), (1, ⟨22, 0#32⟩), (5, ⟨23, 1#32⟩)]
def demoIo : WorkerIo := ⟨none, .eof, 10, some c!"/tmp", fun _ => none, fun _ _ => 7#64⟩
def demoRules : List Call := [.fs (.dirRead c!"/tmp")]
/-- A call with two arguments. -/
def demoCall (nr a0 a1 : BitVec 64) : Regs := ⟨nr, ⟨a0, a1, 0, 0, 0, 0⟩, 0x401000⟩

theorem demo_serving : Serving demoBroker demoOs demoTable demoIo c!"/tmp" where
  running := rfl
  brokerTable := by decide
  workerTable := by decide
  brokerSends := rfl
  workerSends := rfl
  room := by decide
  errno := by intro e h; cases h
  knownCwd := rfl
  cwdNoNul := by decide

theorem demo_open : PathCall demoMemory (demoCall 2 4096 0) (.open 0#32) c!"notes.txt" :=
  .open _ rfl rfl (by decide)

theorem demo_rules_read : ReadAllowed demoRules [c!"tmp", c!"notes.txt"] := by
  refine ⟨_, List.mem_singleton.2 rfl, ?_⟩
  exact ⟨[c!"tmp"], ⟨by simp, by simp [GoodComponent], .inl rfl⟩, [c!"notes.txt"], rfl⟩

theorem demo_denotes : Denotes c!"/tmp/notes.txt" [c!"tmp", c!"notes.txt"] :=
  ⟨by simp, by simp [GoodComponent], .inl rfl⟩

/-- The hypotheses of C67 are met, by a relative path and rules that allow it. -/
example : @OpenAllowed x86_64 demoRules (absolute c!"/tmp" c!"notes.txt") 0#32 :=
  ⟨by intro i _ h; simp at h, _, demo_denotes, .inl demo_rules_read,
    fun _ => demo_rules_read, fun h => absurd h.2 (by simp [Has])⟩

example : (@Spec.served x86_64 .lp64 (Policy.nothingAllowed.calls demoRules) demoBroker demoOs false
    (fun _ => []) demoMemory demoTable (demoCall 2 4096 0) demoIo).1.ret = .code 2#64 := by
  decide +kernel

example : (@Spec.served x86_64 .lp64 (Policy.nothingAllowed.calls demoRules) demoBroker demoOs false
    (fun _ => []) demoMemory demoTable (demoCall 2 12288 0) demoIo).1.ret = .code (-13#64) := by
  decide +kernel

/-! ## C52 -/

/-- C52, full statement: whatever the call, a path and the absolute path it means give the
same result, the same descriptors and the same request to the broker. -/
def Spec.RelativeLikeAbsolute (abi : Abi) : Prop :=
  ∀ (audit : Bool) (replace : Bytes → Str) (mem : Memory) (t : FdTable) (r r' : Regs) (io : WorkerIo)
    (cwd : Str) (k : Kind) (path : Str), io.cwd = some cwd → cwd.head? = some '/' →
    PathCall mem r k path → PathCall mem r' k (absolute cwd path) →
    handleTrap abi audit replace mem t r io = handleTrap abi audit replace mem t r' io

/-- C52, what holds. Missing from the full statement: access, stat and chdir. For open and
openat it holds, whatever the broker and the system do. -/
theorem C52_open_partial (abi : Abi) (audit : Bool) (replace : Bytes → Str) (mem : Memory)
    (t : FdTable) (r r' : Regs) (io : WorkerIo) (cwd : Str) (flags : BitVec 32) (path : Str)
    (hc : io.cwd = some cwd) (ha : cwd.head? = some '/')
    (h : PathCall mem r (.open flags) path) (h' : PathCall mem r' (.open flags) (absolute cwd path)) :
    handleTrap abi audit replace mem t r io = handleTrap abi audit replace mem t r' io := by
  rw [trap_eq abi audit replace t io h, trap_eq abi audit replace t io h']
  have hh : (absolute cwd path).head? = some '/' := by
    simp only [absolute]
    split
    · assumption
    · cases cwd with
      | nil => cases ha
      | cons c cwd => split <;> simpa using ha
  have : absolute cwd (absolute cwd path) = absolute cwd path := by
    generalize absolute cwd path = q at hh
    simp only [absolute, if_pos hh]
  simp only [handlerOf, handleOpenat, hc, resolvePath_eq, this]

/-- C52. The absolute path is the one that names the components of the working directory
followed by those of the relative path. -/
theorem C52_absolute_names (cwd path : Str) (cs ds : List Str)
    (hc : (cs = [] ∧ cwd = c!"/") ∨ (Denotes cwd cs ∧ cwd = render cs))
    (hp : Denotes ('/' :: path) ds) : Denotes (absolute cwd path) (cs ++ ds) := by
  have hgs : ∀ c ∈ cs, GoodComponent c := by
    rcases hc with ⟨rfl, _⟩ | ⟨h, _⟩
    · simp
    · exact h.2.1
  obtain ⟨hd1, hd2, hd3⟩ := hp
  have hph : path.head? ≠ some '/' := by
    cases ds with
    | nil => exact absurd rfl hd1
    | cons d ds =>
      have hg := hd2 d (by simp)
      have : ∃ tl, '/' :: path = '/' :: (d ++ tl) := by
        rcases hd3 with h | h
        · exact ⟨render ds, by rw [h]; simp [render]⟩
        · exact ⟨render ds ++ ['/'], by rw [h]; simp [render]⟩
      obtain ⟨tl, htl⟩ := this
      cases htl
      cases d with
      | nil => exact absurd rfl hg.1
      | cons c d =>
        simp only [List.cons_append, List.head?_cons, ne_eq, Option.some.injEq]
        rintro rfl
        exact hg.2.1 (by simp)
  have hab : absolute cwd path = render cs ++ '/' :: path := by
    simp only [absolute, if_neg hph]
    rcases hc with ⟨rfl, rfl⟩ | ⟨h, rfl⟩
    · rfl
    · rw [if_neg]
      intro hl
      rw [render_eq] at hl
      exact renderSep_getLast (fun c hc => (hgs c hc).plain) hl
  refine ⟨by simp [hd1], ?_, ?_⟩
  · intro c hc'
    rcases List.mem_append.1 hc' with h | h
    · exact hgs c h
    · exact hd2 c h
  · rw [hab]
    have : render (cs ++ ds) = render cs ++ render ds := by
      rw [render_eq, render_eq, render_eq, renderSep_append]
    rcases hd3 with h | h
    · left; rw [this, h]
    · right; rw [this, h, List.append_assoc]

/-- C52 for the other calls: with a relative path they are refused, whatever the rules. -/
theorem C52_others_refused [Target] (abi : Abi) (h : List Call) (b : Broker) (os : OsChoice)
    (audit : Bool) (replace : Bytes → Str) (mem : Memory) (t : FdTable) (r : Regs) (io : WorkerIo)
    (cwd : Str) (k : Kind) (path : Str) (hs : Serving b os t io cwd) (hc : PathCall mem r k path)
    (hk : ∀ flags, k ≠ .open flags) (hr : path.head? ≠ some '/') (hlen : messageSize (utf8 path).length (askedFlags k) ≤ 65536) :
    (Spec.served abi (Policy.nothingAllowed.calls h) b os audit replace mem t r io).1 =
      ⟨t, (Spec.served abi (Policy.nothingAllowed.calls h) b os audit replace mem t r io).1.sent,
        .code (-13#64), none⟩ := by
  have hask : asked cwd path k = path := by cases k <;> first | rfl | exact absurd rfl (hk _)
  obtain ⟨q, f, hq, hb, hm⟩ := served_fits abi (Policy.nothingAllowed.calls h) b os audit replace
    mem t r io cwd _ path hs hc (served_sized (by rw [hask]; exact hlen))
  have hqp : q = path := by
    obtain ⟨f', hq'⟩ := requestOf_eq cwd path k
    rw [hq, hask] at hq'
    cases hq'; rfl
  subst hqp
  have hg : ¬ Grants (Policy.nothingAllowed.calls h) q f := by
    apply C04_canonical_only _ (calls_audit _ _)
    rintro ⟨cs, hd⟩
    have := hd.startsWith
    cases q with
    | nil => simp [startsWith, stripPrefix] at this
    | cons c q =>
      simp only [startsWith, stripPrefix] at this
      by_cases hcc : c = '/'
      · subst hcc; simp at hr
      · simp [hcc] at this
  have ha : answer (Policy.nothingAllowed.calls h) os (.openFile q f) = (-13#64, none) := by
    simp only [answer, if_neg hg]
  rw [ha] at hm
  simp only at hm
  rw [hm]

theorem C52_violated (abi : Abi) : ¬ Spec.RelativeLikeAbsolute abi := by
  intro h
  have := h false (fun _ => []) demoMemory demoTable (demoCall 4 4096 0) (demoCall 4 8192 0) demoIo
    c!"/tmp" .stat c!"notes.txt" rfl rfl (.stat _ rfl rfl (by decide)) (.stat _ rfl rfl (by decide))
  have h2 := congrArg Handled.sent this
  rw [trap_eq abi _ _ _ _ (.stat c!"notes.txt" rfl rfl (by decide) : PathCall demoMemory (demoCall 4 4096 0) _ _),
    trap_eq abi _ _ _ _ (.stat c!"/tmp/notes.txt" rfl rfl (by decide) : PathCall demoMemory (demoCall 4 8192 0) _ _),
    handlerOf_sent abi _ _ c!"/tmp" _ _ rfl, handlerOf_sent abi _ _ c!"/tmp" _ _ rfl] at h2
  revert h2
  decide

/-- The same with a broker: `stat("/tmp/notes.txt")` succeeds and `stat("notes.txt")` in `/tmp`
does not. -/
example : ((@Spec.served x86_64 .lp64 (Policy.nothingAllowed.calls demoRules) demoBroker demoOs false
      (fun _ => []) demoMemory demoTable (demoCall 4 8192 0) demoIo).1.ret,
    (@Spec.served x86_64 .lp64 (Policy.nothingAllowed.calls demoRules) demoBroker demoOs false
      (fun _ => []) demoMemory demoTable (demoCall 4 4096 0) demoIo).1.ret) =
    (.code 0#64, .code (-13#64)) := by decide +kernel

/-- The hypotheses of `C52_open_partial` and `C52_absolute_names` are met. -/
example : PathCall demoMemory (demoCall 2 8192 0) (.open 0#32) (absolute c!"/tmp" c!"notes.txt") ∧
    Denotes c!"/tmp" [c!"tmp"] ∧ c!"/tmp" = render [c!"tmp"] ∧ Denotes ('/' :: c!"notes.txt") [c!"notes.txt"] :=
  ⟨.open _ rfl rfl (by decide), ⟨by simp, by simp [GoodComponent], .inl rfl⟩, rfl,
    ⟨by simp, by simp [GoodComponent], .inl rfl⟩⟩

/-! ## C31 -/

/-- C31, full statement: with a broker that serves, every call that takes a path returns. -/
def Spec.AlwaysReturns [Target] (abi : Abi) (p : Policy) : Prop :=
  ∀ (b : Broker) (os : OsChoice) (audit : Bool) (replace : Bytes → Str) (mem : Memory) (t : FdTable)
    (r : Regs) (io : WorkerIo) (cwd : Str) (k : Kind) (path : Str), Serving b os t io cwd →
    PathCall mem r k path →
    ∃ v, (Spec.served abi p b os audit replace mem t r io).1.ret = .code v

/-- C31, what holds. Missing from the full statement: paths longer than 65527 bytes. -/
theorem C31_returns_partial [Target] (abi : Abi) (p : Policy) (b : Broker) (os : OsChoice)
    (audit : Bool) (replace : Bytes → Str) (mem : Memory) (t : FdTable) (r : Regs) (io : WorkerIo)
    (cwd : Str) (k : Kind) (path : Str) (hs : Serving b os t io cwd) (hc : PathCall mem r k path)
    (hlen : (utf8 (asked cwd path k)).length ≤ 65527) :
    ∃ v, (Spec.served abi p b os audit replace mem t r io).1.ret = .code v := by
  obtain ⟨q, f, hq, hb, hm⟩ := served_call abi p b os audit replace mem t r io cwd _ path hs hc hlen
  cases ha : (answer p os (.openFile q f)).2 with
  | none => rw [ha] at hm; simp only at hm; exact ⟨_, by rw [hm]⟩
  | some file =>
    rw [ha] at hm; simp only at hm
    obtain ⟨t', extra, hr, hx, hh⟩ := hm
    rw [hh]
    cases k <;> exact ⟨_, rfl⟩

theorem sendRequest_long (q : Str) (f : BitVec 32) (h : 65536 < (utf8 q).length) :
    sendRequest (.openFile q f) = none := by
  simp only [sendRequest, serialize]
  rw [if_neg]
  simp only [encRequest, encStr, encBytes, List.length_append, IPC_MESSAGE_MAX_SIZE]
  omega

/-- With any request that does not fit into a message the worker stops with a panic, whatever the policy
and the broker. -/
theorem served_panics [Target] (abi : Abi) (p : Policy) (b : Broker) (os : OsChoice)
    (audit : Bool) (replace : Bytes → Str) (mem : Memory) (t : FdTable) (r : Regs) (io : WorkerIo)
    (cwd : Str) (k : Kind) (path : Str) (hcwd : io.cwd = some cwd) (hc : PathCall mem r k path)
    (hn : ∀ f, requestOf cwd path k = .openFile (asked cwd path k) f →
      sendRequest (.openFile (asked cwd path k) f) = none) :
    (Spec.served abi p b os audit replace mem t r io).1.ret = .panic ∧
      (Spec.served abi p b os audit replace mem t r io).1.table = t := by
  obtain ⟨f, hq⟩ := requestOf_eq cwd path k
  have hn := hn f hq
  have hr : ∀ i, sendRecv abi t (.openFile (asked cwd path k) f) { io with incoming := i } = (t, none) := by
    intro i
    simp only [sendRecv, hn]
    rfl
  have hsent : ∀ i, (handlerOf abi t path { io with incoming := i } k).sent =
      some (.openFile (asked cwd path k) f) := fun i => by
    have := handlerOf_sent abi t path cwd { io with incoming := i } k hcwd
    rw [this, hq]
  simp only [Spec.served, withBroker, trap_eq abi audit replace t _ hc, hsent, hn]
  cases k <;> injection hq with _ hf <;> subst hf <;> simp only [asked, hcwd] at hr <;>
    simp only [handlerOf, handleOpenat, handleAccess, handleByPath, getFdForPath, hcwd,
      resolvePath_eq, hr, and_self]

/-- C31. With any path longer than 64 KiB the worker stops with a panic, whatever the policy
and the broker. -/
theorem C31_long_path_panics [Target] (abi : Abi) (p : Policy) (b : Broker) (os : OsChoice)
    (audit : Bool) (replace : Bytes → Str) (mem : Memory) (t : FdTable) (r : Regs) (io : WorkerIo)
    (cwd : Str) (k : Kind) (path : Str) (hcwd : io.cwd = some cwd) (hc : PathCall mem r k path)
    (hlen : 65536 < (utf8 (asked cwd path k)).length) :
    (Spec.served abi p b os audit replace mem t r io).1.ret = .panic :=
  served_panics abi p b os audit replace mem t r io cwd k path hcwd hc (fun f _ => sendRequest_long _ f hlen) |>.1

/-- C31, exactly: with a broker that serves, a call that takes a path returns if and only if the message with this path
has at most 64 KiB; otherwise the worker stops with a panic. -/
theorem C31_returns_iff [Target] (abi : Abi) (p : Policy) (b : Broker) (os : OsChoice)
    (audit : Bool) (replace : Bytes → Str) (mem : Memory) (t : FdTable) (r : Regs) (io : WorkerIo)
    (cwd : Str) (k : Kind) (path : Str) (hs : Serving b os t io cwd) (hc : PathCall mem r k path) :
    ((∃ v, (Spec.served abi p b os audit replace mem t r io).1.ret = .code v) ↔
      messageSize (utf8 (asked cwd path k)).length (askedFlags k) ≤ 65536) ∧
    ((Spec.served abi p b os audit replace mem t r io).1.ret = .panic ↔
      65536 < messageSize (utf8 (asked cwd path k)).length (askedFlags k)) := by
  have hf : ∀ f, requestOf cwd path k = .openFile (asked cwd path k) f → f = askedFlags k := by
    intro f h; rw [requestOf_flags] at h; cases h; rfl
  by_cases hl : messageSize (utf8 (asked cwd path k)).length (askedFlags k) ≤ 65536
  · have hret : ∃ v, (Spec.served abi p b os audit replace mem t r io).1.ret = .code v := by
      obtain ⟨q, f, hq, hb, hm⟩ := served_fits abi p b os audit replace mem t r io cwd _ path hs hc (by
        intro f h
        rw [hf f h]
        refine ⟨_, if_pos ?_⟩
        rw [request_size]
        exact hl)
      cases ha : (answer p os (.openFile q f)).2 with
      | none => rw [ha] at hm; simp only at hm; exact ⟨_, by rw [hm]⟩
      | some file =>
        rw [ha] at hm; simp only at hm
        obtain ⟨t', extra, hr, hx, hh⟩ := hm
        rw [hh]
        cases k <;> exact ⟨_, rfl⟩
    refine ⟨⟨fun _ => hl, fun _ => hret⟩, fun hp => ?_, fun h => by omega⟩
    obtain ⟨v, hv⟩ := hret
    rw [hp] at hv
    cases hv
  · have ⟨hp, _⟩ := served_panics abi p b os audit replace mem t r io cwd k path hs.knownCwd hc (by
      intro f h
      rw [hf f h]
      refine if_neg ?_
      rw [request_size]
      exact hl)
    refine ⟨⟨fun ⟨v, hv⟩ => ?_, fun h => absurd h hl⟩, fun _ => by omega, fun _ => hp⟩
    rw [hp] at hv
    cases hv

/-- So the longest path that can be opened for reading has 65531 bytes, and the longest with O_CREAT and O_WRONLY 65530. -/
example : (∀ n, messageSize n 0#32 ≤ 65536 ↔ n ≤ 65531) ∧ ∀ n, messageSize n 0x41#32 ≤ 65536 ↔ n ≤ 65530 := by
  have h0 : sevenBits (unsigned 0#32) = 1 := by unfold sevenBits; decide
  have h1 : sevenBits (unsigned 0x41#32) = 2 := by unfold sevenBits; unfold sevenBits; decide
  have h2 : ∀ n, 16384 ≤ n → n < 2097152 → sevenBits n = 3 := by
    intro n h h'
    unfold sevenBits; rw [if_neg (by omega)]
    unfold sevenBits; rw [if_neg (by omega)]
    unfold sevenBits; rw [if_pos (by omega)]
  have h3 : ∀ n, n < 16384 → sevenBits n ≤ 2 := by
    intro n h
    unfold sevenBits; split
    · omega
    · unfold sevenBits; rw [if_pos (by omega)]; omega
  unfold messageSize
  rw [h0, h1]
  refine ⟨fun n => ?_, fun n => ?_⟩ <;>
  · by_cases ha : n < 16384
    · have := h3 n ha; omega
    · by_cases hb : n < 2097152
      · have := h2 n (by omega) hb; omega
      · omega

/-- "/aaa…": 70000 times. -/
def longPath : Str := '/' :: List.replicate 70000 'a'

theorem utf8_replicate_a (n : Nat) : (utf8 (List.replicate n 'a')).length = n := by
  induction n with
  | zero => rfl
  | succ n ih =>
    have : utf8 (List.replicate (n + 1) 'a') = 97 :: utf8 (List.replicate n 'a') := rfl
    rw [this, List.length_cons, ih]

theorem longPath_length : (utf8 longPath).length = 70001 := by
  have : utf8 longPath = 47 :: utf8 (List.replicate 70000 'a') := rfl
  rw [this, List.length_cons, utf8_replicate_a]

theorem C31_violated [Target] (abi : Abi) (p : Policy) : ¬ Spec.AlwaysReturns abi p := by
  intro h
  have hc : PathCall (fun _ => some (utf8 longPath)) (demoCall 2 4096 0) (.open 0#32) longPath :=
    .open _ rfl rfl (by
      intro h
      rcases List.mem_cons.1 h with h | h
      · revert h; decide
      · have := (List.mem_replicate.1 h).2
        revert this; decide)
  obtain ⟨v, hv⟩ := h demoBroker demoOs false (fun _ => []) (fun _ => some (utf8 longPath)) demoTable
    (demoCall 2 4096 0) demoIo c!"/tmp" _ longPath demo_serving hc
  rw [C31_long_path_panics abi p demoBroker demoOs false (fun _ => []) _ demoTable _ demoIo c!"/tmp" _
    longPath rfl hc (by
      have : asked c!"/tmp" longPath (.open 0#32) = longPath := rfl
      rw [this, longPath_length]; omega)] at hv
  cases hv

example : (utf8 (asked c!"/tmp" c!"notes.txt" (.open 0#32))).length ≤ 65527 := by decide

example : messageSize (utf8 (absolute c!"/tmp" c!"notes.txt")).length 0#32 ≤ 65536 := messageSize_short _ (by decide)

/-! ## C51 -/

/-- The rules give what `access(path, mode)` asks: bit 4 is reading, bit 2 writing, and any
mode needs the path to be accessible at all. -/
def Spec.AccessAllowed (h : List Call) (path : Str) (mode : BitVec 32) : Prop :=
  ∃ cs, Denotes path cs ∧ (ReadAllowed h cs ∨ WriteAllowed h cs) ∧
    (Has mode 4#32 → ReadAllowed h cs) ∧ (Has mode 2#32 → WriteAllowed h cs)

/-- C51, full statement: with a file that the system can open, access() succeeds exactly when
the rules give the accesses in `mode`. -/
def Spec.AccessExact [Target] (abi : Abi) : Prop :=
  ∀ (h : List Call) (b : Broker) (os : OsChoice) (audit : Bool) (replace : Bytes → Str) (mem : Memory)
    (t : FdTable) (r : Regs) (io : WorkerIo) (cwd : Str) (mode : BitVec 32) (path : Str) (file : Nat),
    Serving b os t io cwd → PathCall mem r (.access mode) path → path.head? = some '/' →
    mode &&& ~~~7#32 = 0#32 → messageSize (utf8 path).length mode ≤ 65536 → os.openResult = .ok file →
    ((Spec.served abi (Policy.nothingAllowed.calls h) b os audit replace mem t r io).1.ret = .code 0#64 ↔
      AccessAllowed h path mode)

/-- How access() ends: it succeeds exactly when an open with the mode taken as flags is
allowed and works. -/
theorem access_outcome [Target] (abi : Abi) (h : List Call) (b : Broker) (os : OsChoice)
    (audit : Bool) (replace : Bytes → Str) (mem : Memory) (t : FdTable) (r : Regs) (io : WorkerIo)
    (cwd : Str) (mode : BitVec 32) (path : Str) (hs : Serving b os t io cwd)
    (hc : PathCall mem r (.access mode) path) :
    (Spec.served abi (Policy.nothingAllowed.calls h) b os audit replace mem t r io).1.ret = .code 0#64 ↔
      OpenAllowed h path mode ∧ (∃ file, os.openResult = .ok file) ∧ messageSize (utf8 path).length mode ≤ 65536 := by
  by_cases hlen : messageSize (utf8 path).length mode ≤ 65536
  case neg =>
    have hp := (C31_returns_iff abi (Policy.nothingAllowed.calls h) b os audit replace mem t r io cwd _ path hs hc).2.2
      (Nat.lt_of_not_le hlen)
    rw [hp]
    exact ⟨fun h => (nomatch h), fun h => absurd h.2.2 hlen⟩
  obtain ⟨q, f, hq, hb, hm⟩ := served_fits abi (Policy.nothingAllowed.calls h) b os audit replace
    mem t r io cwd _ path hs hc (served_sized hlen)
  cases hq
  have hex := C02_file_open_exact h path mode
  cases ha : (answer (Policy.nothingAllowed.calls h) os (.openFile path mode)).2 with
  | none =>
    rw [ha] at hm; simp only at hm
    rw [hm]
    have hmsb := answer_msb _ os path mode hs.errno ha
    constructor
    · intro h0
      simp only [Ret.code.injEq] at h0
      rw [h0] at hmsb; cases hmsb
    · rintro ⟨h1, ⟨file, h2⟩, _⟩
      simp only [answer, if_pos (show Grants _ path mode from hex.2 h1), h2] at ha
      cases ha
  | some file =>
    rw [ha] at hm; simp only at hm
    obtain ⟨t', extra, hr, hx, hh⟩ := hm
    rw [hh]
    simp only [true_iff]
    simp only [answer] at ha
    split at ha
    · rename_i hg
      cases ho : os.openResult with
      | ok f' => exact ⟨hex.1 hg, ⟨f', rfl⟩, hlen⟩
      | error e => rw [ho] at ha; cases ha
    · cases ha

theorem no_read_bit [Target] {mode : BitVec 32}
    (hT : Target.oLargefile = 0#32 ∨ Target.oLargefile = 0x8000#32) (h1 : Supported mode) :
    ¬ Has mode 4#32 := by
  intro hr
  apply hr
  have hb : mode.getLsbD 2 = false := by
    cases hb : mode.getLsbD 2 with
    | false => rfl
    | true =>
      rcases h1 2 (by omega) hb with h | h
      · simp at h
      · rcases hT with hT | hT <;> rw [hT] at h <;> revert h <;> decide
  apply BitVec.eq_of_getLsbD_eq
  intro i hi
  rw [BitVec.getLsbD_and]
  by_cases h : i = 2
  · subst h; rw [hb]; rfl
  · have : (4#32).getLsbD i = false := by
      have h' : ∀ i < 32, i ≠ 2 → (4#32).getLsbD i = false := by decide
      exact h' i hi h
    rw [this]; simp

/-- C51, what holds: success is never wrong. Missing from the full statement: the other
direction, see `C51_read_always_refused`. -/
theorem C51_success_is_right_partial [Target] (abi : Abi) (h : List Call) (b : Broker) (os : OsChoice)
    (audit : Bool) (replace : Bytes → Str) (mem : Memory) (t : FdTable) (r : Regs) (io : WorkerIo)
    (cwd : Str) (mode : BitVec 32) (path : Str) (hs : Serving b os t io cwd)
    (hc : PathCall mem r (.access mode) path)
    (hmode : mode &&& ~~~7#32 = 0#32)
    (hT : Target.oLargefile = 0#32 ∨ Target.oLargefile = 0x8000#32)
    (h0 : (Spec.served abi (Policy.nothingAllowed.calls h) b os audit replace mem t r io).1.ret = .code 0#64) :
    AccessAllowed h path mode ∧ ∃ file, os.openResult = .ok file := by
  obtain ⟨⟨h1, cs, h2, h3, h4, h5⟩, h6, _⟩ := (access_outcome abi h b os audit replace mem t r io cwd mode path
    hs hc).1 h0
  refine ⟨⟨cs, h2, h3, ?_, ?_⟩, h6⟩
  · exact fun hr => absurd hr (no_read_bit hT h1)
  · intro hw
    refine h5 ⟨?_, .inr (.inl hw)⟩
    intro hp
    apply hp
    have : mode &&& 0x200000#32 = (mode &&& ~~~7#32) &&& 0x200000#32 := by
      rw [BitVec.and_assoc]; rfl
    rw [this, hmode]; simp

/-- C51. access() with the reading bit is always refused, whatever the rules. -/
theorem C51_read_always_refused [Target] (abi : Abi) (h : List Call) (b : Broker) (os : OsChoice)
    (audit : Bool) (replace : Bytes → Str) (mem : Memory) (t : FdTable) (r : Regs) (io : WorkerIo)
    (cwd : Str) (mode : BitVec 32) (path : Str) (hs : Serving b os t io cwd)
    (hc : PathCall mem r (.access mode) path)
    (hT : Target.oLargefile = 0#32 ∨ Target.oLargefile = 0x8000#32) (hr : Has mode 4#32) :
    (Spec.served abi (Policy.nothingAllowed.calls h) b os audit replace mem t r io).1.ret ≠ .code 0#64 := by
  intro h0
  exact no_read_bit hT ((access_outcome abi h b os audit replace mem t r io cwd mode path
    hs hc).1 h0).1.1 hr

theorem C51_violated (abi : Abi) : ¬ @Spec.AccessExact x86_64 abi := by
  intro h
  have hc : PathCall demoMemory (demoCall 21 8192 4) (.access 4#32) c!"/tmp/notes.txt" :=
    .access _ rfl rfl (by decide)
  have h1 := @h demoRules demoBroker demoOs false (fun _ => []) demoMemory demoTable
    (demoCall 21 8192 4) demoIo c!"/tmp" 4#32 c!"/tmp/notes.txt" 9 demo_serving hc rfl rfl
    (messageSize_short _ (by decide)) rfl
  have h2 : AccessAllowed demoRules c!"/tmp/notes.txt" 4#32 :=
    ⟨_, demo_denotes, .inl demo_rules_read, fun _ => demo_rules_read, fun h => absurd h (by decide)⟩
  exact @C51_read_always_refused x86_64 abi demoRules demoBroker demoOs false (fun _ => []) demoMemory
    demoTable (demoCall 21 8192 4) demoIo c!"/tmp" 4#32 c!"/tmp/notes.txt" demo_serving hc
    (.inl rfl) (by decide) (h1.2 h2)

/-- The hypotheses of `C51_success_is_right_partial` are met: access(path, F_OK) succeeds. -/
example : (@Spec.served x86_64 .lp64 (Policy.nothingAllowed.calls demoRules) demoBroker demoOs false
    (fun _ => []) demoMemory demoTable (demoCall 21 8192 0) demoIo).1.ret = .code 0#64 := by
  decide +kernel

/-! ## C68 -/

/-- C68, full statement: after access, stat or chdir the worker has the descriptors it had. -/
def Spec.LeavesNothingOpen [Target] (abi : Abi) (p : Policy) : Prop :=
  ∀ (b : Broker) (os : OsChoice) (audit : Bool) (replace : Bytes → Str) (mem : Memory) (t : FdTable)
    (r : Regs) (io : WorkerIo) (cwd : Str) (k : Kind) (path : Str), Serving b os t io cwd →
    PathCall mem r k path → (∀ flags, k ≠ .open flags) →
    ∀ i, (Spec.served abi p b os audit replace mem t r io).1.table.get i = t.get i

/-- C68, what holds. Missing from the full statement: 64-bit builds. -/
theorem C68_leaves_nothing_open_partial [Target] (p : Policy) : Spec.LeavesNothingOpen .ilp32 p := by
  intro b os audit replace mem t r io cwd k path hs hc hk i
  have hask : asked cwd path k = path := by cases k <;> first | rfl | exact absurd rfl (hk _)
  by_cases hlen : messageSize (utf8 path).length (askedFlags k) ≤ 65536
  case neg =>
    rw [(served_panics .ilp32 p b os audit replace mem t r io cwd k path hs.knownCwd hc fun f hf => by
      rw [requestOf_flags] at hf
      cases hf
      refine if_neg ?_
      rw [request_size, hask]
      exact hlen).2]
  obtain ⟨q, f, hq, hb, hm⟩ := served_fits .ilp32 p b os audit replace mem t r io cwd _ path hs hc
    (served_sized (by rw [hask]; exact hlen))
  cases ha : (answer p os (.openFile q f)).2 with
  | none => rw [ha] at hm; simp only at hm; rw [hm]
  | some file =>
    rw [ha] at hm; simp only at hm
    obtain ⟨t', extra, hr, hx, hh⟩ := hm
    have hnil : extra = [] := hx trivial
    subst hnil
    have key : (t'.erase t.lowestFree).get i = t.get i := by
      rw [FdTable.get_erase]
      by_cases hi : i = t.lowestFree
      · rw [if_pos hi, hi, hr.fresh]
      · rw [if_neg hi]
        by_cases hn : t.get i = none
        · cases hg : t'.get i with
          | none => rw [hn]
          | some e =>
            rcases hr.new i e hn hg with h | h
            · exact absurd h hi
            · cases h
        · exact hr.kept i hn
    rw [hh]
    cases k with
    | «open» flags => exact absurd rfl (hk flags)
    | access mode => exact key
    | stat => exact key
    | chdir => exact key

/-- C68 is false on 64-bit builds: a granted stat leaves a copy of the broker's descriptor 0
(see C25) in the worker. -/
theorem C68_violated : ¬ @Spec.LeavesNothingOpen x86_64 .lp64 (Policy.nothingAllowed.calls demoRules) := by
  intro h
  have := @h demoBroker demoOs false (fun _ => []) demoMemory demoTable (demoCall 4 8192 0) demoIo
    c!"/tmp" .stat c!"/tmp/notes.txt" demo_serving (.stat _ rfl rfl (by decide)) (by simp) 3
  revert this
  decide +kernel

/-! ## C69 -/

/-- The call is none of those the worker treats by path. -/
def Spec.OtherCall (mem : Memory) (r : Regs) : Prop :=
  (r.nr ≠ 2 ∧ r.nr ≠ 4 ∧ r.nr ≠ 21 ∧ r.nr ≠ 80 ∧ r.nr ≠ 257) ∨
  (r.nr = 257 ∧ r.args.a0.setWidth 32 ≠ -100#32 ∧ ∃ bytes, mem r.args.a1 = some bytes ∧ bytes.head? ≠ some 47)

/-- C69. Any other intercepted call: the broker is told its number, arguments and call site
and logs it, nothing is opened and the worker's descriptors do not change. In enforcing mode
the program gets -ENOSYS and the call is not run. In audit-only mode the call is run once, with
the same number and arguments, and the program gets its result. -/
theorem C69_other_calls [Target] (abi : Abi) (p : Policy) (b : Broker) (os : OsChoice) (audit : Bool)
    (replace : Bytes → Str) (mem : Memory) (t : FdTable) (r : Regs) (io : WorkerIo) (cwd : Str)
    (hs : Serving b os t io cwd) (hc : OtherCall mem r) :
    let x := Spec.served abi p b os audit replace mem t r io
    x.1.table = t ∧ x.1.sent = some (.syscall r.nr r.args r.ip) ∧ x.2.status = .running ∧
    opens x.2.trace = opens b.trace ∧
    x.2.trace = b.trace ++ ((p.evaluate (.syscall r.nr r.args r.ip)).2.map .notified) ++
      [.sent (.syscallResult (-38#64)) []] ∧
    (audit = false → x.1.ret = .code (-38#64) ∧ x.1.reran = none) ∧
    (audit = true → x.1.ret = .code (io.rerun r.nr r.args) ∧ x.1.reran = some (r.nr, r.args)) := by
  have htrap : ∀ io, handleTrap abi audit replace mem t r io =
      handleSyscall abi audit t r.nr r.args r.ip io := by
    intro io
    rcases hc with ⟨h1, h2, h3, h4, h5⟩ | ⟨h1, h2, bytes, h3, h4⟩
    · simp only [handleTrap, SYS_access, SYS_stat, SYS_open, SYS_openat, SYS_chdir]
      rw [if_neg (show ¬ r.nr = 21#64 from h3), if_neg (show ¬ r.nr = 4#64 from h2),
        if_neg (show ¬ r.nr = 2#64 from h1), if_neg (show ¬ r.nr = 257#64 from h5)]
      exact if_neg h4
    · simp only [handleTrap, SYS_access, SYS_stat, SYS_open, SYS_openat, SYS_chdir, AT_FDCWD, h1]
      rw [if_neg (by decide), if_neg (by decide), if_neg (by decide), if_pos (by decide), if_neg h2, h3]
      simp only [if_neg h4]
  obtain ⟨data, hd⟩ := C27_request_encodes (.syscall r.nr r.args r.ip) (by intro q f h; cases h)
  have hsent : ∀ io, (handleSyscall abi audit t r.nr r.args r.ip io).sent =
      some (.syscall r.nr r.args r.ip) := by
    intro io
    simp only [handleSyscall]
    split
    · split <;> rfl
    · split <;> rfl
    · rfl
  have hw := withBroker_served abi p b os
    (fun inc => handleTrap abi audit replace mem t r { io with incoming := inc })
    (.syscall r.nr r.args r.ip) data (by simp only [htrap, hsent]) hd hs.running hs.brokerTable
    (by simp [Crashes]) hs.brokerSends
  have hx : Spec.served abi p b os audit replace mem t r io =
      (if audit then ⟨t, some (.syscall r.nr r.args r.ip), .code (io.rerun r.nr r.args), some (r.nr, r.args)⟩
        else ⟨t, some (.syscall r.nr r.args r.ip), .code (-38#64), none⟩,
       { b with trace := b.trace ++ Iris.served abi p b.table (.syscall r.nr r.args r.ip, os) }) := by
    rw [Spec.served, hw]
    congr 1
    rw [htrap]
    have h := sendRecv_served abi p b.table t os (.syscall r.nr r.args r.ip) data hd
      { io with incoming := .datagram ⟨encResponse (.syscallResult (answer p os
        (.syscall r.nr r.args r.ip)).1), replyFiles abi p b.table os (.syscall r.nr r.args r.ip)⟩ }
      hs.workerSends hs.room rfl
    simp only [answer] at h
    simp only [handleSyscall, answer, h]
    cases audit <;> rfl
  have ht : b.trace ++ Iris.served abi p b.table (.syscall r.nr r.args r.ip, os) =
      b.trace ++ ((p.evaluate (.syscall r.nr r.args r.ip)).2.map .notified) ++
      [.sent (.syscallResult (-38#64)) []] := by
    simp [Iris.served, notes, openActs, toOpen, answer, replyFiles]
  intro x
  have hx' : x = _ := hx
  rw [hx']
  refine ⟨?_, ?_, hs.running, ?_, ht, ?_, ?_⟩
  · cases audit <;> rfl
  · cases audit <;> rfl
  · rw [opens_append, opens_served]; simp [toOpen]
  · rintro rfl; exact ⟨rfl, rfl⟩
  · rintro rfl; exact ⟨rfl, rfl⟩

/-- socket(1, 2) and openat(7, "notes.txt") are such calls. -/
example : OtherCall demoMemory (demoCall 41 1 2) ∧ OtherCall demoMemory (demoCall 257 7 4096) :=
  ⟨.inl (by decide), .inr ⟨rfl, by decide, _, rfl, by decide⟩⟩

end Iris
