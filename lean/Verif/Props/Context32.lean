import Verif.Spec.Context32
import Verif.Props.Context
/-! # Calls of 32-bit programs that are intercepted (C125) -/
namespace Iris
open Spec Iris.Asm

theorem low_signExtend (v : BitVec 32) : (v.signExtend 64).setWidth 32 = v := by
  apply BitVec.eq_of_getLsbD_eq
  intro i hi
  simp [BitVec.getLsbD_setWidth, BitVec.getLsbD_signExtend, hi]
  omega

theorem signExtend_inj {a b : BitVec 32} (h : a.signExtend 64 = b.signExtend 64) : a = b := by
  rw [← low_signExtend a, h, low_signExtend]

theorem wide_signExtend (mem : Memory32) (v : BitVec 32) : mem.wide (v.signExtend 64) = mem v := by
  simp only [Memory32.wide, low_signExtend]

/-- The registers of a trapped call, as read by the handler. -/
theorem contextCall32_frame (s : UserState32) (more : Fin 8 → BitVec 32) :
    contextCall32 (s.trapped.frame more) =
      ⟨(kernelNr32 s.reg).signExtend 64,
        ⟨(kernelArgs32 s.reg 0).signExtend 64, (kernelArgs32 s.reg 1).signExtend 64,
          (kernelArgs32 s.reg 2).signExtend 64, (kernelArgs32 s.reg 3).signExtend 64,
          (kernelArgs32 s.reg 4).signExtend 64, (kernelArgs32 s.reg 5).signExtend 64⟩,
        (s.eip + 2#32).signExtend 64⟩ := rfl

theorem after_writeResult32 (s : UserState32) (more : Fin 8 → BitVec 32) (v : BitVec 64) :
    AfterInt80 s (resumed32 (writeResult32 (s.trapped.frame more) v)) (v.setWidth 32) where
  eip := rfl
  flags := rfl
  eax := rfl
  others := by
    intro r h1
    cases r <;> first | rfl | (exact absurd rfl h1)

theorem handler32 (abi : Abi) (audit : Bool) (replace : Bytes → Str) (mem : Memory32) (t : FdTable)
    (s : UserState32) (more : Fin 8 → BitVec 32) (io : WorkerIo) :
    (sigsysHandler32 abi audit replace mem t false 31 1 (s.trapped.frame more) io).1 =
      some (handleTrap32 abi audit replace mem t (contextCall32 (s.trapped.frame more)) io) := rfl

/-- What the handler's end means to the program. -/
theorem end32 (abi : Abi) (audit : Bool) (replace : Bytes → Str) (mem : Memory32) (t : FdTable)
    (s : UserState32) (more : Fin 8 → BitVec 32) (io : WorkerIo) (v : BitVec 64)
    (hv : (handleTrap32 abi audit replace mem t (contextCall32 (s.trapped.frame more)) io).ret = .code v) :
    ∃ g, (sigsysHandler32 abi audit replace mem t false 31 1 (s.trapped.frame more) io).2 = .returns g ∧
      AfterInt80 s (resumed32 g) (v.setWidth 32) ∧ ∀ i, i ≠ 11 → g i = s.trapped.frame more i := by
  refine ⟨writeResult32 (s.trapped.frame more) v, ?_, after_writeResult32 s more v, fun i hi => if_neg hi⟩
  show (match (handleTrap32 abi audit replace mem t (contextCall32 (s.trapped.frame more)) io).ret with
      | .code v => HandlerEnd32.returns (writeResult32 (s.trapped.frame more) v)
      | .panic => .panics
      | .fault => .faults) = _
  rw [hv]

theorem openat32 (abi : Abi) (audit : Bool) (replace : Bytes → Str) (mem : Memory32) (t : FdTable) (args : Args6)
    (ip : BitVec 64) (io : WorkerIo) (bytes : Bytes) (hb : mem.wide args.a1 = some bytes)
    (h : args.a0.setWidth 32 = -100#32 ∨ bytes.head? = some 47) :
    handleTrap32 abi audit replace mem t ⟨BitVec.signExtend 64 295#32, args, ip⟩ io =
      handleTrap abi audit replace mem.wide t ⟨257, args, ip⟩ io := by
  have e1 : handleTrap32 abi audit replace mem t ⟨BitVec.signExtend 64 295#32, args, ip⟩ io =
      if args.a0.setWidth 32 = -100#32 then
        (match readString replace mem.wide args.a1 with
        | some path => handleOpenat abi t path (args.a2.setWidth 32) io
        | none => ⟨t, none, .fault, none⟩)
      else match mem.wide args.a1 with
        | none => ⟨t, none, .fault, none⟩
        | some b =>
          if b.head? = some 47 then
            (match readString replace mem.wide args.a1 with
            | some path => handleOpenat abi t path (args.a2.setWidth 32) io
            | none => ⟨t, none, .fault, none⟩)
          else handleSyscall32 abi audit t (BitVec.signExtend 64 295#32) args ip io := rfl
  have e2 : handleTrap abi audit replace mem.wide t ⟨257, args, ip⟩ io =
      if args.a0.setWidth 32 = -100#32 then
        (match readString replace mem.wide args.a1 with
        | some path => handleOpenat abi t path (args.a2.setWidth 32) io
        | none => ⟨t, none, .fault, none⟩)
      else match mem.wide args.a1 with
        | none => ⟨t, none, .fault, none⟩
        | some b =>
          if b.head? = some 47 then
            (match readString replace mem.wide args.a1 with
            | some path => handleOpenat abi t path (args.a2.setWidth 32) io
            | none => ⟨t, none, .fault, none⟩)
          else handleSyscall abi audit t 257 args ip io := rfl
  rw [e1, e2]
  by_cases hd : args.a0.setWidth 32 = -100#32
  · rw [if_pos hd, if_pos hd]
  · have hh := h.resolve_left hd
    rw [if_neg hd, if_neg hd]
    simp only [hb, if_pos hh]

/-- A call by path is served like the same call of x86_64. -/
theorem path32 (abi : Abi) (audit : Bool) (replace : Bytes → Str) (mem : Memory32) (t : FdTable) (s : UserState32)
    (more : Fin 8 → BitVec 32) (k : Kind) (path : Str) (h : PathCall32 mem s k path) :
    ∃ r, PathCall mem.wide r k path ∧ ∀ io, handleTrap32 abi audit replace mem t
      (contextCall32 (s.trapped.frame more)) io = handleTrap abi audit replace mem.wide t r io := by
  rw [contextCall32_frame]
  cases h with
  | «open» _ h1 h2 h3 =>
    refine ⟨⟨2, ⟨(kernelArgs32 s.reg 0).signExtend 64, (kernelArgs32 s.reg 1).signExtend 64,
      (kernelArgs32 s.reg 2).signExtend 64, (kernelArgs32 s.reg 3).signExtend 64,
      (kernelArgs32 s.reg 4).signExtend 64, (kernelArgs32 s.reg 5).signExtend 64⟩,
      (s.eip + 2#32).signExtend 64⟩, ?_, ?_⟩
    · have := PathCall.open (mem := mem.wide) (r := ⟨2, ⟨(kernelArgs32 s.reg 0).signExtend 64,
        (kernelArgs32 s.reg 1).signExtend 64, (kernelArgs32 s.reg 2).signExtend 64, (kernelArgs32 s.reg 3).signExtend 64,
        (kernelArgs32 s.reg 4).signExtend 64, (kernelArgs32 s.reg 5).signExtend 64⟩, (s.eip + 2#32).signExtend 64⟩)
        path rfl (by rw [wide_signExtend]; exact h2) h3
      rw [low_signExtend] at this
      exact this
    · intro io
      rw [h1]
      rfl
  | openat _ h1 h2 h3 h4 =>
    refine ⟨⟨257, ⟨(kernelArgs32 s.reg 0).signExtend 64, (kernelArgs32 s.reg 1).signExtend 64,
      (kernelArgs32 s.reg 2).signExtend 64, (kernelArgs32 s.reg 3).signExtend 64,
      (kernelArgs32 s.reg 4).signExtend 64, (kernelArgs32 s.reg 5).signExtend 64⟩,
      (s.eip + 2#32).signExtend 64⟩, ?_, ?_⟩
    · have := PathCall.openat (mem := mem.wide) (r := ⟨257, ⟨(kernelArgs32 s.reg 0).signExtend 64,
        (kernelArgs32 s.reg 1).signExtend 64, (kernelArgs32 s.reg 2).signExtend 64, (kernelArgs32 s.reg 3).signExtend 64,
        (kernelArgs32 s.reg 4).signExtend 64, (kernelArgs32 s.reg 5).signExtend 64⟩, (s.eip + 2#32).signExtend 64⟩)
        path rfl (by rw [wide_signExtend]; exact h2) h3 (by rw [low_signExtend]; exact h4)
      rw [low_signExtend] at this
      exact this
    · intro io
      have hread : mem.wide ((kernelArgs32 s.reg 1).signExtend 64) = some (utf8 path) := by
        rw [wide_signExtend]; exact h2
      rw [h1]
      refine openat32 abi audit replace mem t _ _ io (utf8 path) (by rw [wide_signExtend]; exact h2) ?_
      rw [low_signExtend]
      refine h4.imp id fun h => ?_
      cases path with
      | nil => cases h
      | cons c tl =>
        simp only [List.head?_cons, Option.some.injEq] at h
        subst h; rfl
  | access _ h1 h2 h3 =>
    refine ⟨⟨21, ⟨(kernelArgs32 s.reg 0).signExtend 64, (kernelArgs32 s.reg 1).signExtend 64,
      (kernelArgs32 s.reg 2).signExtend 64, (kernelArgs32 s.reg 3).signExtend 64,
      (kernelArgs32 s.reg 4).signExtend 64, (kernelArgs32 s.reg 5).signExtend 64⟩,
      (s.eip + 2#32).signExtend 64⟩, ?_, ?_⟩
    · have := PathCall.access (mem := mem.wide) (r := ⟨21, ⟨(kernelArgs32 s.reg 0).signExtend 64,
        (kernelArgs32 s.reg 1).signExtend 64, (kernelArgs32 s.reg 2).signExtend 64, (kernelArgs32 s.reg 3).signExtend 64,
        (kernelArgs32 s.reg 4).signExtend 64, (kernelArgs32 s.reg 5).signExtend 64⟩, (s.eip + 2#32).signExtend 64⟩)
        path rfl (by rw [wide_signExtend]; exact h2) h3
      rw [low_signExtend] at this
      exact this
    · intro io
      rw [h1]
      rfl
  | stat _ h1 h2 h3 =>
    refine ⟨⟨4, ⟨(kernelArgs32 s.reg 0).signExtend 64, (kernelArgs32 s.reg 1).signExtend 64,
      (kernelArgs32 s.reg 2).signExtend 64, (kernelArgs32 s.reg 3).signExtend 64,
      (kernelArgs32 s.reg 4).signExtend 64, (kernelArgs32 s.reg 5).signExtend 64⟩,
      (s.eip + 2#32).signExtend 64⟩, .stat path rfl (by rw [wide_signExtend]; exact h2) h3, ?_⟩
    intro io
    rw [h1]
    rfl
  | chdir _ h1 h2 h3 =>
    refine ⟨⟨80, ⟨(kernelArgs32 s.reg 0).signExtend 64, (kernelArgs32 s.reg 1).signExtend 64,
      (kernelArgs32 s.reg 2).signExtend 64, (kernelArgs32 s.reg 3).signExtend 64,
      (kernelArgs32 s.reg 4).signExtend 64, (kernelArgs32 s.reg 5).signExtend 64⟩,
      (s.eip + 2#32).signExtend 64⟩, .chdir path rfl (by rw [wide_signExtend]; exact h2) h3, ?_⟩
    intro io
    rw [h1]
    rfl

/-- **C125**, the registers. A 32-bit program makes a system call with `int 0x80`, the filter traps it. If the handler
has a result, the program goes on after the instruction with that result in `eax`, its flags and all other registers as
they were; nothing else in the signal frame is changed. If it has none, the program does not go on. -/
theorem C125_call_returns_like_a_call (abi : Abi) (audit : Bool) (replace : Bytes → Str) (mem : Memory32)
    (t : FdTable) (s : UserState32) (more : Fin 8 → BitVec 32) (io : WorkerIo) :
    ∃ h e, sigsysHandler32 abi audit replace mem t false 31 1 (s.trapped.frame more) io = (some h, e) ∧
      (∀ v, h.ret = .code v → ∃ g, e = .returns g ∧ AfterInt80 s (resumed32 g) (v.setWidth 32) ∧
        ∀ i, i ≠ 11 → g i = s.trapped.frame more i) ∧
      ((∀ v, h.ret ≠ .code v) → ∀ g, e ≠ .returns g) := by
  refine ⟨_, _, rfl, fun v hv => end32 abi audit replace mem t s more io v hv, ?_⟩
  intro hn g
  cases hr : (handleTrap32 abi audit replace mem t (contextCall32 (s.trapped.frame more)) io).ret with
  | code v => exact absurd hr (hn v)
  | panic => simp
  | fault => simp

/-- **C125**, calls by path: `open`, `openat`, `access`, `stat` and `chdir` of a 32-bit program are served as the same
call of a 64-bit program is (C51, C52, C67, C68 say how), and the result is in `eax`. -/
theorem C125_served_like_64 [Target] (abi : Abi) (p : Policy) (b : Broker) (os : OsChoice) (audit : Bool)
    (replace : Bytes → Str) (mem : Memory32) (t : FdTable) (s : UserState32) (more : Fin 8 → BitVec 32) (io : WorkerIo)
    (k : Kind) (path : Str) (h : PathCall32 mem s k path) :
    ∃ r mem', (∀ a, mem' (signed a) = mem a) ∧ PathCall mem' r k path ∧
      let y := Spec.served abi p b os audit replace mem' t r io
      let x := served32 abi p b os audit replace mem t s more io
      x.1.1 = some y.1 ∧ x.2 = y.2 ∧
      ∀ v, y.1.ret = .code v → ∃ g, x.1.2 = .returns g ∧ AfterInt80 s (resumed32 g) (v.setWidth 32) := by
  obtain ⟨r, hr, he⟩ := path32 abi audit replace mem t s more k path h
  refine ⟨r, mem.wide, fun a => ?_, hr, ?_⟩
  · have : signed a = a.signExtend 64 := rfl
    rw [this, wide_signExtend]
  have hh : (fun inc => ((sigsysHandler32 abi audit replace mem t false 31 1 (s.trapped.frame more)
      { io with incoming := inc }).1).getD ⟨t, none, .panic, none⟩) =
      fun inc => handleTrap abi audit replace mem.wide t r { io with incoming := inc } := by
    funext inc
    rw [handler32, Option.getD_some, he]
  simp only [served32, Spec.served, hh]
  refine ⟨?_, trivial, ?_⟩
  · rw [handler32, he, withBroker_received]
  · intro v hv
    rw [withBroker_received] at hv
    obtain ⟨g, h1, h2, _⟩ := end32 abi audit replace mem t s more
      { io with incoming := received abi p b os (fun inc => handleTrap abi audit replace mem.wide t r { io with incoming := inc }) } v (by rw [he]; exact hv)
    exact ⟨g, h1, h2⟩

/-- **C125**, all the way for a 32-bit program that opens a file with `open` or `openat`: it goes on after the
instruction with nothing changed but `eax`, where it finds -EACCES if its policy does not allow it; the error of the
system; or a descriptor that was free and now is the file it asked for. -/
theorem C125_open [Target] (abi : Abi) (h : List Call) (b : Broker) (os : OsChoice) (audit : Bool)
    (replace : Bytes → Str) (mem : Memory32) (t : FdTable) (s : UserState32) (more : Fin 8 → BitVec 32) (io : WorkerIo)
    (cwd path : Str) (flags : BitVec 32) (hs : Serving b os t io cwd) (hc : PathCall32 mem s (.open flags) path)
    (hlen : messageSize (utf8 (absolute cwd path)).length flags ≤ 65536) :
    ∃ hd g v, (served32 abi (Policy.nothingAllowed.calls h) b os audit replace mem t s more io).1 =
        (some hd, .returns g) ∧ AfterInt80 s (resumed32 g) v ∧
      (¬ OpenAllowed h (absolute cwd path) flags → v = -13#32 ∧ hd.table = t) ∧
      (OpenAllowed h (absolute cwd path) flags →
        (∀ e, os.openResult = .error e → v = -(BitVec.ofNat 32 e) ∧ hd.table = t) ∧
        (∀ file, os.openResult = .ok file → ∃ fd, fd < 2 ^ 31 ∧ v = BitVec.ofNat 32 fd ∧
          t.get fd = none ∧ hd.table.get fd = some ⟨file, 1#32⟩ ∧
          ∀ i, t.get i ≠ none → hd.table.get i = t.get i)) := by
  obtain ⟨r, mem', _, hr, h1, _, h3⟩ := C125_served_like_64 abi (Policy.nothingAllowed.calls h) b os audit replace mem t s
    more io _ path hc
  have hserv := C67_open_end_to_end abi h b os audit replace mem' t r io cwd flags path hs hr hlen
  simp only at hserv h1 h3
  generalize (Spec.served abi (Policy.nothingAllowed.calls h) b os audit replace mem' t r io) = y at hserv h1 h3
  generalize (served32 abi (Policy.nothingAllowed.calls h) b os audit replace mem t s more io) = x at h1 h3
  obtain ⟨_, _, hno, hyes⟩ := hserv
  have hcode : ∃ v, y.1.ret = .code v := by
    by_cases hal : OpenAllowed h (absolute cwd path) flags
    · cases ho : os.openResult with
      | error e => exact ⟨_, ((hyes hal).2.1 e ho).1⟩
      | ok file =>
        obtain ⟨fd, _, hfd, _⟩ := (hyes hal).2.2 file ho
        exact ⟨_, hfd⟩
    · exact ⟨_, (hno hal).1⟩
  obtain ⟨v, hv⟩ := hcode
  obtain ⟨g, h4, h5⟩ := h3 v hv
  refine ⟨y.1, g, v.setWidth 32, Prod.ext h1 h4, h5, ?_, ?_⟩
  · intro hal
    have := hno hal
    rw [hv] at this
    obtain ⟨h6, h7, _⟩ := this
    have h6 : v = -13#64 := by simpa using h6
    exact ⟨by rw [h6]; rfl, h7⟩
  · intro hal
    obtain ⟨_, he, hf⟩ := hyes hal
    refine ⟨?_, ?_⟩
    · intro e ho
      have := he e ho
      rw [hv] at this
      have h6 : v = -(BitVec.ofNat 64 e) := by simpa using this.1
      refine ⟨?_, this.2⟩
      rw [h6]
      apply BitVec.eq_of_toNat_eq
      have := hs.errno e ho
      simp only [BitVec.toNat_setWidth, BitVec.toNat_neg, BitVec.toNat_ofNat]
      omega
    · intro file ho
      obtain ⟨fd, h1, h2, h3⟩ := hf file ho
      rw [hv] at h2
      have h6 : v = BitVec.ofNat 64 fd := by simpa using h2
      refine ⟨fd, h1, ?_, h3⟩
      rw [h6]
      apply BitVec.eq_of_toNat_eq
      simp only [BitVec.toNat_setWidth, BitVec.toNat_ofNat]
      omega

theorem other32 (abi : Abi) (audit : Bool) (replace : Bytes → Str) (mem : Memory32) (t : FdTable) (s : UserState32)
    (more : Fin 8 → BitVec 32) (hc : OtherCall32 mem s) (io : WorkerIo) :
    let r := contextCall32 (s.trapped.frame more)
    handleTrap32 abi audit replace mem t r io = handleSyscall32 abi audit t r.nr r.args r.ip io := by
  simp only [contextCall32_frame]
  have inj : ∀ n : BitVec 32, kernelNr32 s.reg ≠ n → (kernelNr32 s.reg).signExtend 64 ≠ n.signExtend 64 :=
    fun n h e => h (signExtend_inj e)
  rcases hc with hn | ⟨h1, h2, bytes, h3, h4⟩
  · show (if _ = (33#32).signExtend 64 then _ else if _ = (106#32).signExtend 64 then _ else
      if _ = (5#32).signExtend 64 then _ else if _ = (295#32).signExtend 64 then _ else
      if _ = (12#32).signExtend 64 then _ else _) = _
    rw [if_neg (inj 33#32 (hn _ (by simp))), if_neg (inj 106#32 (hn _ (by simp))), if_neg (inj 5#32 (hn _ (by simp))),
      if_neg (inj 295#32 (hn _ (by simp))), if_neg (inj 12#32 (hn _ (by simp)))]
  · have hread : mem.wide ((kernelArgs32 s.reg 1).signExtend 64) = some bytes := by
      rw [wide_signExtend]; exact h3
    simp only [handleTrap32, h1, SYS32_access, SYS32_stat, SYS32_open, SYS32_openat, SYS32_chdir,
      AT_FDCWD, low_signExtend, hread]
    rw [if_neg (by decide), if_neg (by decide), if_neg (by decide), if_pos (by decide), if_neg h2, if_neg h4]

/-- **C125**, any other call of a 32-bit program: the broker is told its number, arguments and call site (as signed
numbers), nothing is opened and no descriptor changes. In enforcing mode the program gets -ENOSYS and the call is not
run. In audit-only mode the call is run once, with the same number and arguments, and the program gets its result. -/
theorem C125_other_calls [Target] (abi : Abi) (p : Policy) (b : Broker) (os : OsChoice) (audit : Bool)
    (replace : Bytes → Str) (mem : Memory32) (t : FdTable) (s : UserState32) (more : Fin 8 → BitVec 32) (io : WorkerIo)
    (cwd : Str) (hs : Serving b os t io cwd) (hc : OtherCall32 mem s) :
    let nr := signed (kernelNr32 s.reg)
    let args : Args6 := ⟨signed (kernelArgs32 s.reg 0), signed (kernelArgs32 s.reg 1), signed (kernelArgs32 s.reg 2),
      signed (kernelArgs32 s.reg 3), signed (kernelArgs32 s.reg 4), signed (kernelArgs32 s.reg 5)⟩
    let ip := signed (s.eip + 2#32)
    let x := served32 abi p b os audit replace mem t s more io
    ∃ hd g v, x.1 = (some hd, .returns g) ∧ AfterInt80 s (resumed32 g) v ∧
      hd.table = t ∧ hd.sent = some (.syscall nr args ip) ∧ x.2.status = .running ∧
      opens x.2.trace = opens b.trace ∧
      (audit = false → v = -38#32 ∧ hd.reran = none) ∧
      (audit = true → v = (io.rerun nr args).setWidth 32 ∧ hd.reran = some (nr, args)) := by
  intro nr args ip
  have hr : contextCall32 (s.trapped.frame more) = ⟨nr, args, ip⟩ := rfl
  have htrap : ∀ io, handleTrap32 abi audit replace mem t ⟨nr, args, ip⟩ io =
      handleSyscall32 abi audit t nr args ip io := by
    intro io
    have := other32 abi audit replace mem t s more hc io
    rw [hr] at this
    exact this
  have hh : (fun inc => ((sigsysHandler32 abi audit replace mem t false 31 1 (s.trapped.frame more)
      { io with incoming := inc }).1).getD ⟨t, none, .panic, none⟩) =
      fun inc => handleSyscall32 abi audit t nr args ip { io with incoming := inc } := by
    funext inc
    rw [handler32, Option.getD_some, hr, htrap]
  obtain ⟨data, hd⟩ := C27_request_encodes (.syscall nr args ip) (by intro q f h; cases h)
  have hsent : ∀ io, (handleSyscall32 abi audit t nr args ip io).sent = some (.syscall nr args ip) := by
    intro io
    simp only [handleSyscall32]
    split
    · split <;> rfl
    · split <;> rfl
    · rfl
  have hw := withBroker_served abi p b os
    (fun inc => handleSyscall32 abi audit t nr args ip { io with incoming := inc })
    (.syscall nr args ip) data (hsent _) hd hs.running hs.brokerTable (by simp [Crashes]) hs.brokerSends
  have hx : withBroker abi p b os (fun inc => handleSyscall32 abi audit t nr args ip { io with incoming := inc }) =
      (if audit then ⟨t, some (.syscall nr args ip), .code (io.rerun nr args), some (nr, args)⟩
        else ⟨t, some (.syscall nr args ip), .code (-38#64), none⟩,
       { b with trace := b.trace ++ Iris.served abi p b.table (.syscall nr args ip, os) }) := by
    rw [hw]
    congr 1
    have h := sendRecv_served abi p b.table t os (.syscall nr args ip) data hd
      { io with incoming := .datagram ⟨encResponse (.syscallResult (answer p os
        (.syscall nr args ip)).1), replyFiles abi p b.table os (.syscall nr args ip)⟩ }
      hs.workerSends hs.room rfl
    simp only [answer] at h
    simp only [handleSyscall32, answer, h]
    cases audit <;> rfl
  have hrec := withBroker_received abi p b os
    (fun inc => handleSyscall32 abi audit t nr args ip { io with incoming := inc })
  rw [hx] at hrec
  simp only [served32, hh, hx]
  have hhd : handleTrap32 abi audit replace mem t (contextCall32 (s.trapped.frame more))
      { io with incoming := received abi p b os (fun inc => handleSyscall32 abi audit t nr args ip { io with incoming := inc }) } =
      if audit then ⟨t, some (.syscall nr args ip), .code (io.rerun nr args), some (nr, args)⟩
        else ⟨t, some (.syscall nr args ip), .code (-38#64), none⟩ := by
    rw [hr, htrap]; exact hrec.symm
  have hopens : opens (b.trace ++ Iris.served abi p b.table (.syscall nr args ip, os)) = opens b.trace := by
    rw [opens_append, opens_served]; simp [toOpen]
  cases audit with
  | false =>
    obtain ⟨g, h1, h2, _⟩ := end32 abi false replace mem t s more _ _ (by rw [hhd]; rfl)
    exact ⟨_, g, _, Prod.ext (by rw [handler32, hhd]) h1, h2, rfl, rfl, hs.running, hopens,
      fun _ => ⟨rfl, rfl⟩, fun h => by cases h⟩
  | true =>
    obtain ⟨g, h1, h2, _⟩ := end32 abi true replace mem t s more _ _ (by rw [hhd]; rfl)
    exact ⟨_, g, _, Prod.ext (by rw [handler32, hhd]) h1, h2, rfl, rfl, hs.running, hopens,
      fun h => by (cases h), fun _ => ⟨rfl, rfl⟩⟩

/-- **C125**, other signals: one that is not SIGSYS, or a SIGSYS of another cause, changes nothing. -/
theorem C125_other_signals (abi : Abi) (audit : Bool) (replace : Bytes → Str) (mem : Memory32)
    (t : FdTable) (flag : Bool) (signalNo siCode : Nat) (s : UserState32) (more : Fin 8 → BitVec 32)
    (io : WorkerIo) (h : signalNo ≠ 31 ∨ siCode ≠ 1) :
    ∃ g, sigsysHandler32 abi audit replace mem t flag signalNo siCode (s.frame more) io =
      (none, .returns g) ∧ resumed32 g = s ∧ g = s.frame more := by
  refine ⟨s.frame more, ?_, ?_, rfl⟩
  · simp only [sigsysHandler32, SIGSYS, SYS_SECCOMP]
    rcases h with h | h
    · exact if_pos h
    · by_cases h1 : signalNo = 31
      · rw [if_neg (by simpa using h1), if_pos h]
      · exact if_pos h1
  · obtain ⟨reg, eip, flags⟩ := s
    simp only [resumed32, UserState32.mk.injEq]
    refine ⟨?_, rfl, rfl⟩
    funext r
    cases r <;> rfl

/-- A 32-bit program at call 195 (`stat64`, the `stat` of C libraries on this machine), its path allowed or not: it
gets -ENOSYS and the broker is not asked about a path. So a file that a policy allows cannot be examined this way. -/
theorem C125_stat64_violated [Target] (abi : Abi) (p : Policy) (b : Broker) (os : OsChoice) (replace : Bytes → Str)
    (mem : Memory32) (t : FdTable) (s : UserState32) (more : Fin 8 → BitVec 32) (io : WorkerIo) (cwd : Str)
    (hs : Serving b os t io cwd) (hnr : kernelNr32 s.reg = 195) :
    let x := served32 abi p b os false replace mem t s more io
    ∃ hd g, x.1 = (some hd, .returns g) ∧ AfterInt80 s (resumed32 g) (-38#32) ∧
      ∀ path flags, hd.sent ≠ some (.openFile path flags) := by
  intro x
  obtain ⟨hd, g, v, h1, h2, _, h3, _, _, h4, _⟩ := C125_other_calls abi p b os false replace mem t s more io cwd hs
    (.inl (by rw [hnr]; simp only [List.mem_cons, List.not_mem_nil, or_false, forall_eq_or_imp, forall_eq]; decide))
  refine ⟨hd, g, h1, (h4 rfl).1 ▸ h2, fun path flags h => ?_⟩
  rw [h3] at h
  cases h

def demoMemory32 : Memory32 := fun a => demoMemory (a.setWidth 64)

/-- A 32-bit program at a call with a path, with other values in the other registers. -/
def demoProgram32 (nr a0 a1 : BitVec 32) : UserState32 where
  reg
    | .eax => nr | .ebx => a0 | .ecx => a1 | .edx => 0 | .esp => 0xffff7ff0 | _ => 9
  eip := 0x400ffe
  flags := 0x246

/-- eax, eip, ebx and esp of the program after the handler. -/
def demoSeen32 : HandlerEnd32 → Option (List (BitVec 32))
  | .returns g => some [(resumed32 g).reg .eax, (resumed32 g).eip, (resumed32 g).reg .ebx, (resumed32 g).reg .esp]
  | _ => none

def demoRun32 (audit : Bool) (s : UserState32) : Option (List (BitVec 32)) :=
  demoSeen32 (@served32 x86_64 .lp64 (Policy.nothingAllowed.calls demoRules) demoBroker demoOs audit (fun _ => [])
    demoMemory32 demoTable s (fun _ => 0) demoIo).1.2

/-- open("notes.txt", O_RDONLY) gets descriptor 2; openat does as well; a path no rule allows gets -EACCES; stat64
gets -ENOSYS, and is run in audit-only mode. -/
example : demoRun32 false (demoProgram32 5 4096 0) = some [2, 0x401000, 4096, 0xffff7ff0] ∧
    demoRun32 false (demoProgram32 295 (-100#32) 4096) = some [2, 0x401000, -100#32, 0xffff7ff0] ∧
    demoRun32 false (demoProgram32 5 12288 0) = some [-13#32, 0x401000, 12288, 0xffff7ff0] ∧
    demoRun32 false (demoProgram32 195 4096 0) = some [-38#32, 0x401000, 4096, 0xffff7ff0] ∧
    demoRun32 true (demoProgram32 195 4096 0) = some [7, 0x401000, 4096, 0xffff7ff0] := by
  decide +kernel

/-- The hypotheses of the theorems above hold of these programs. -/
example : PathCall32 demoMemory32 (demoProgram32 5 4096 0) (.open 0) c!"notes.txt" ∧
    PathCall32 demoMemory32 (demoProgram32 295 (-100#32) 4096) (.open 0) c!"notes.txt" ∧
    OtherCall32 demoMemory32 (demoProgram32 195 4096 0) ∧ kernelNr32 (demoProgram32 195 4096 0).reg = 195 ∧
    Serving demoBroker demoOs demoTable demoIo c!"/tmp" :=
  ⟨.open _ rfl (by decide +kernel) (by decide +kernel),
   .openat _ rfl (by decide +kernel) (by decide +kernel) (.inl rfl), .inl (by simp only [List.mem_cons, List.not_mem_nil, or_false, forall_eq_or_imp, forall_eq]; decide), rfl, demo_serving⟩

end Iris
