import Verif.Spec.Confined
import Verif.Props.Worker
import Verif.Props.Files
/-!
# Lemmas: the calls of a confined program
-/
namespace Iris
open Spec

theorem components_sep (a b : Str) : components (a ++ '/' :: b) = components a ++ components b := by
  simp only [components, split_append_sep, List.filter_append]

theorem components_render {cs : List Str} (hg : ∀ c ∈ cs, GoodComponent c) (hne : cs ≠ []) : components (render cs) = cs :=
  components_denotes ⟨hne, hg, .inl rfl⟩

/-- From the root directory, by way of a directory. -/
theorem walk_through {fs : FileTree} (follow : Bool) (again : Nat → List Str → Walk) {cs : List Str} {d : Nat} (hn : Named fs cs d) :
    (∀ c ∈ cs, GoodComponent c) → (∃ e p, fs[d]? = some (.dir e p)) → ∀ rest : List Str,
    walkWith fs follow again 0 (cs ++ rest) = walkWith fs follow again d rest := by
  induction hn with
  | root => intro _ _ rest; rfl
  | entry cs d e p c i _ hd hc ih =>
    intro hg ⟨e', p', hi⟩ rest
    have hgc := hg c (by simp)
    rw [List.append_assoc, ih (fun c' h' => hg c' (List.mem_append.2 (.inl h'))) ⟨e, p, hd⟩]
    simp only [List.cons_append, List.nil_append, walkWith, hd, if_neg (show ¬ c = ['.'] from hgc.2.2.1),
      if_neg (show ¬ c = ['.', '.'] from hgc.2.2.2), hc, hi]

theorem walkLinks_through {fs : FileTree} (follow : Bool) (n : Nat) {cs : List Str} {d : Nat} (hn : Named fs cs d)
    (hg : ∀ c ∈ cs, GoodComponent c) (hd : ∃ e p, fs[d]? = some (.dir e p)) (rest : List Str) :
    walkLinks fs follow n 0 (cs ++ rest) = walkLinks fs follow n d rest := by
  cases n <;> exact walk_through follow _ hn hg hd rest

/-- The absolute path leads where the path leads. -/
theorem kResolve_absolute {w : Bare} {name path : Str} (follow : Bool)
    (hn : path.head? = some '/' ∨ NamesDirectory w.tree w.cwd name) :
    kResolve w.tree follow (absolute name path) = pathTo w follow path := by
  by_cases ha : path.head? = some '/'
  · simp only [absolute, kResolve, pathTo, if_pos ha]
  · obtain ⟨cs, h1, h2, h3, rfl⟩ := hn.resolve_left ha
    simp only [kResolve, pathTo, if_neg ha]
    have hg : ∀ c ∈ cs, GoodComponent c := fun c hc => (h2 c hc).1
    have : components (absolute (if cs = [] then c!"/" else render cs) path) = cs ++ components path := by
      by_cases hne : cs = []
      · subst hne
        simp only [absolute, if_neg ha, if_true]
        exact components_sep [] path
      · have hl : (render cs).getLast? ≠ some '/' := by
          intro hl
          rw [render_eq] at hl
          exact renderSep_getLast (fun c hc => (hg c hc).plain) hl
        simp only [absolute, if_neg ha, if_neg hne, if_neg hl, components_sep, components_render hg hne]
    rw [this]
    exact walkLinks_through follow 40 h1 hg h3 _

theorem absolute_last (name : Str) {path : Str} (hne : path ≠ []) : (absolute name path).getLast? = path.getLast? := by
  have key : ∀ a : Str, (a ++ path).getLast? = path.getLast? := by
    intro a
    rw [List.getLast?_append]
    cases h : path.getLast? with
    | none => exact absurd (List.getLast?_eq_none_iff.1 h) hne
    | some x => rfl
  unfold absolute
  split
  · rfl
  · split
    · exact key name
    · have := key (name ++ ['/'])
      simpa using this

/-- A link at the end is not what is found when links are followed. -/
theorem kOpen_native {w : Bare} {name path : Str} (flags : BitVec 32) (hne : path ≠ [])
    (hn : path.head? = some '/' ∨ NamesDirectory w.tree w.cwd name) :
    kOpen w.tree (absolute name path) flags none = nativeOpen w path flags := by
  have hr := fun follow => kResolve_absolute (w := w) (name := name) (path := path) follow hn
  have e1 : O_PATH = 0x200000#32 := rfl
  have e2 : O_CREAT = 0x40#32 := rfl
  have e3 : O_TRUNC = 0x200#32 := rfl
  have e4 : O_WRONLY = 1#32 := rfl
  have e5 : O_RDWR = 2#32 := rfl
  have e6 : O_EXCL = 0x80#32 := rfl
  have e7 : O_DIRECTORY = 0x10000#32 := rfl
  unfold kOpen nativeOpen lookup
  simp only [hr, absolute_last name hne, e1, e2, e3, e4, e5, e6, e7, Has]
  by_cases h1 : flags &&& 0x200000#32 = 0#32
  · by_cases h2 : flags &&& 0x40#32 = 0#32 <;> by_cases h3 : flags &&& 0x80#32 = 0#32 <;>
      by_cases h4 : path.getLast? = some '/' <;> by_cases h5 : flags &&& 0x10000#32 = 0#32 <;>
      by_cases h6 : flags &&& 0x200#32 = 0#32 <;> by_cases h7 : flags &&& 1#32 = 0#32 <;>
      by_cases h8 : flags &&& 2#32 = 0#32 <;> simp [h1, h2, h3, h4, h5, h6, h7, h8] <;> rfl
  · simp only [h1, ne_eq, not_false_eq_true, decide_true, Bool.not_true, Bool.false_and, Bool.and_false, Bool.or_false, Bool.not_false, if_true,
      Bool.false_eq_true, if_false]
    cases pathTo w true path with
    | failed e => rfl
    | missing d c => rfl
    | found i =>
      simp only
      cases hi : w.tree[i]? with
      | none => rfl
      | some n =>
        cases n with
        | dir e p => simp [hi]
        | link t => rfl
        | file b =>
          by_cases h4 : path.getLast? = some '/' <;> by_cases h5 : flags &&& 0x10000#32 = 0#32 <;> simp [h4, h5, hi]

/-- With `O_PATH` alone. -/
theorem native_path (w : Bare) (path : Str) : nativeOpen w path 0x200000#32 = (lookup w path, w.tree) := by
  have h1 : Has 0x200000#32 0x200000#32 := by unfold Has; decide
  have h2 : ¬ Has 0x200000#32 0x10000#32 := by unfold Has; decide
  unfold nativeOpen
  rw [if_pos h1]
  cases lookup w path with
  | error e => rfl
  | ok i =>
    simp only [if_neg h2]
    split <;> rfl

/-- The errors of the kernel are errors. -/
theorem walkWith_errno {fs : FileTree} (follow : Bool) (again : Nat → List Str → Walk)
    (ha : ∀ d cs e, again d cs = .failed e → 1 ≤ e ∧ e ≤ 4095) :
    ∀ (cs : List Str) (cur e : Nat), walkWith fs follow again cur cs = .failed e → 1 ≤ e ∧ e ≤ 4095 := by
  intro cs
  induction cs with
  | nil => intro cur e h; simp [walkWith] at h
  | cons c rest ih =>
    intro cur e h
    simp only [walkWith] at h
    repeat' split at h
    all_goals first
      | exact ih _ _ h
      | exact ha _ _ _ h
      | (cases h; done)
      | (cases h; decide)

theorem walkLinks_errno {fs : FileTree} (follow : Bool) :
    ∀ (n : Nat) (d : Nat) (cs : List Str) (e : Nat), walkLinks fs follow n d cs = .failed e → 1 ≤ e ∧ e ≤ 4095 := by
  intro n
  induction n with
  | zero => intro d cs e h; exact walkWith_errno follow _ (fun _ _ e h => by cases h; decide) cs d e h
  | succ n ih => intro d cs e h; exact walkWith_errno follow _ ih cs d e h

theorem kOpen_errno {fs : FileTree} {path : Str} {flags : BitVec 32} {refuse : Option Nat} (hr : ∀ e, refuse = some e → 1 ≤ e ∧ e ≤ 4095)
    (e : Nat) (h : (kOpen fs path flags refuse).1 = .error e) : 1 ≤ e ∧ e ≤ 4095 := by
  unfold kOpen at h
  simp only at h
  repeat' split at h
  all_goals first
    | (cases h; exact hr _ rfl)
    | (cases h; decide)
    | (rename_i hw; cases h; exact walkLinks_errno _ _ _ _ _ hw)
    | (cases h; done)

/-- The working directory is of no account for an absolute path, and for calls other than `open`. -/
theorem trap_absolute (abi : Abi) (audit : Bool) (replace : Bytes → Str) {mem : Memory} (t : FdTable) {r : Regs} (io : WorkerIo) {k : Kind}
    {path : Str} (hc : PathCall mem r k path) (ha : path.head? = some '/' ∨ ∀ flags, k ≠ .open flags) (cwd : Option Str) :
    handleTrap abi audit replace mem t r io = handleTrap abi audit replace mem t r { io with cwd := cwd } := by
  rw [trap_eq abi audit replace t io hc, trap_eq abi audit replace t _ hc]
  rcases ha with ha | ha
  · obtain ⟨rest, rfl⟩ : ∃ rest, path = '/' :: rest := by
      cases path with
      | nil => cases ha
      | cons c rest => simp only [List.head?_cons, Option.some.injEq] at ha; exact ⟨rest, by rw [ha]⟩
    cases k <;> rfl
  · cases k with
    | «open» f => exact absurd rfl (ha f)
    | _ => rfl

theorem served_isOpen [Target] (abi : Abi) (p : Policy) (t : FdTable) (q : Str) (f : BitVec 32) (os : OsChoice) :
    (Iris.served abi p t (.openFile q f, os)).any Action.isOpen = decide (Grants p q f) := by
  have h1 : (notes p (.openFile q f)).any Action.isOpen = false := by
    rw [List.any_eq_false]
    intro a ha
    simp only [notes, List.mem_map] at ha
    obtain ⟨n, _, rfl⟩ := ha
    simp [Action.isOpen]
  simp only [Iris.served, List.any_append, h1, openActs, toOpen]
  by_cases hg : Grants p q f <;> simp [hg, Action.isOpen]

/-- What comes of a call, given what the broker's `open` does. -/
def comes (cwd : Nat) (opened : Except Nat Nat × FileTree) : Kind → Outcome × FileTree × Nat
  | .open _ => (seen opened.1, opened.2, cwd)
  | .stat => (seen opened.1, opened.2, cwd)
  | .access _ =>
    match opened.1 with
    | .ok i => (.file i, opened.2, cwd)
    | .error e => (.error e, opened.2, cwd)
  | .chdir =>
    match opened.1 with
    | .error e => (.error e, opened.2, cwd)
    | .ok i =>
      match opened.2[i]? with
      | some (.dir _ _) => (.done, opened.2, i)
      | _ => (.error 20, opened.2, cwd)

theorem outcome_error (nr : BitVec 64) (file : Option Nat) (t : FdTable) (s : Option IPCRequest) (e : Nat) (h1 : 1 ≤ e) (h2 : e ≤ 4095) :
    outcomeOf nr file ⟨t, s, .code (-(BitVec.ofNat 64 e)), none⟩ = .error e := by
  simp only [outcomeOf, negErrno_msb e h1 h2, if_true, BitVec.neg_neg, BitVec.toNat_ofNat]
  congr 1
  omega

theorem outcome_eacces (nr : BitVec 64) (file : Option Nat) (t : FdTable) (s : Option IPCRequest) :
    outcomeOf nr file ⟨t, s, .code (-13#64), none⟩ = .error 13 :=
  outcome_error nr file t s 13 (by decide) (by decide)

theorem outcome_enotdir (nr : BitVec 64) (file : Option Nat) (t : FdTable) (s : Option IPCRequest) :
    outcomeOf nr file ⟨t, s, .code (negErrno 20), none⟩ = .error 20 :=
  outcome_error nr file t s 20 (by decide) (by decide)

theorem code_ne (e : Nat) (h1 : 1 ≤ e) (h2 : e ≤ 4095) : Ret.code (-(BitVec.ofNat 64 e)) ≠ .code 0#64 := by
  intro h
  have := negErrno_msb e h1 h2
  rw [Ret.code.inj h] at this
  exact absurd this (by decide)

theorem turn_served [Target] (abi : Abi) (p : Policy) (audit : Bool) (replace : Bytes → Str) (getcwd : FileTree → Nat → Option Str)
    (w : Confined) (c : PathTurn) (k : Kind) (path name : Str) (hc : TurnServed (c, k, path)) (hrun : w.broker.status = .running)
    (htab : w.broker.table.length < 2 ^ 31) (hname : (path.head? = some '/' ∨ ∀ flags, k ≠ .open flags) ∨ getcwd (c.others w.tree) w.cwd = some name)
    (hnul : '\x00' ∉ name) (q : Str) (f : BitVec 32) (hq : requestOf name path k = .openFile q f) (hlen : messageSize (utf8 q).length f ≤ 65536) :
    let x := w.turn abi p audit replace getcwd c
    x.2.broker.status = .running ∧ x.2.broker.table = w.broker.table ∧
    (¬ Grants p q f → x.1 = .error 13 ∧ x.2.tree = c.others w.tree ∧ x.2.cwd = w.cwd) ∧
    (Grants p q f → (∀ m, k ≠ .access m) → (x.1, x.2.tree, x.2.cwd) = comes w.cwd (kOpen (c.others w.tree) q f c.refuse) k) := by
  intro x
  have hsays : PathCall c.mem c.regs k path := hc.says
  obtain ⟨q', f', hq', hn⟩ := requestOf_noNul hsays hnul
  rw [hq] at hq'
  cases hq'
  obtain ⟨data, hd⟩ : ∃ data, sendRequest (.openFile q f) = some data := ⟨_, if_pos (by rw [request_size]; exact hlen)⟩
  have htrap : ∀ onFd inc, handleTrap abi audit replace c.mem c.table c.regs
      { c.io with cwd := getcwd (c.others w.tree) w.cwd, incoming := inc, onFd := onFd } =
      handlerOf abi c.table path { c.io with cwd := some name, incoming := inc, onFd := onFd } k := by
    intro onFd inc
    rw [← trap_eq abi audit replace c.table _ hsays]
    rcases hname with ha | ha
    · exact trap_absolute abi audit replace c.table _ hsays ha (some name)
    · rw [ha]
  have hsent : ∀ onFd inc, (handlerOf abi c.table path { c.io with cwd := some name, incoming := inc, onFd := onFd } k).sent =
      some (.openFile q f) := by
    intro onFd inc
    rw [← hq]
    exact handlerOf_sent abi c.table path name _ k rfl
  generalize hop : kOpen (c.others w.tree) q f c.refuse = opened
  have herr : ∀ e, opened.1 = .error e → 1 ≤ e ∧ e ≤ 4095 := by
    intro e he
    rw [← hop] at he
    exact kOpen_errno hc.errno e he
  generalize hos : ({ c.os with openResult := opened.1 } : OsChoice) = os
  have hose : os.sendError = none := by rw [← hos]; exact hc.brokerSends
  have hosr : os.openResult = opened.1 := by rw [← hos]
  have hcr : ¬ Crashes p (.openFile q f) := fun h => hn h.2
  have hwb : ∀ onFd, withBroker abi p w.broker os
      (fun inc => handlerOf abi c.table path { c.io with cwd := some name, incoming := inc, onFd := onFd } k) = _ :=
    fun onFd => withBroker_served abi p w.broker os _ (.openFile q f) data (hsent onFd .eof) hd hrun htab hcr hose
  obtain ⟨hrep, hstep⟩ := brokerReply_answer abi p w.broker os (.openFile q f) data hd hrun htab hcr hose
  rw [hstep] at hrep
  have hx : x = w.turn abi p audit replace getcwd c := rfl
  unfold Confined.turn at hx
  simp only [htrap, hsent, hop, hos, hwb, List.drop_left, served_isOpen, hrep] at hx
  have hget := sendRecv_served abi p w.broker.table c.table os (.openFile q f) data hd
    { c.io with cwd := getcwd (c.others w.tree) w.cwd, incoming := .datagram ⟨encResponse (.syscallResult (answer p os (.openFile q f)).1),
      replyFiles abi p w.broker.table os (.openFile q f)⟩ } hc.workerSends hc.room rfl
  have hh := fun onFd => handler_served abi p w.broker.table c.table os path name k q f hq data hd
    { c.io with cwd := some name, incoming := .datagram ⟨encResponse (.syscallResult (answer p os (.openFile q f)).1),
      replyFiles abi p w.broker.table os (.openFile q f)⟩, onFd := onFd } hc.workerSends hc.room rfl (by rw [hosr]; exact herr) rfl
  have hbr : x.2.broker = { w.broker with trace := w.broker.trace ++ Iris.served abi p w.broker.table (.openFile q f, os) } := by rw [hx]
  refine ⟨by rw [hbr]; exact hrun, by rw [hbr], ?_, ?_⟩
  · intro hg
    have ha : answer p os (.openFile q f) = (-13#64, none) := by simp only [answer, if_neg hg]
    rw [ha] at hx hh
    simp only at hh
    simp only [hh, decide_eq_false hg] at hx
    have hcode : Ret.code (-13#64) ≠ .code 0#64 := by decide
    have hout : x.1 = .error 13 := by simp only [hx, outcome_eacces]
    exact ⟨hout, by rw [hx]; rfl, by rw [hx]; exact if_neg fun h => hcode h.2⟩
  · intro hg hk
    cases hopr : opened.1 with
    | error e =>
      have ha : answer p os (.openFile q f) = (-(BitVec.ofNat 64 e), none) := by simp only [answer, if_pos hg, hosr, hopr]
      obtain ⟨h1, h2⟩ := herr e hopr
      rw [ha] at hx hh
      simp only at hh
      simp only [hh, decide_eq_true hg, if_true] at hx
      have hout : x.1 = .error e := by rw [hx]; exact outcome_error _ _ _ _ e h1 h2
      have htree : x.2.tree = opened.2 := by rw [hx]
      have hcwd : x.2.cwd = w.cwd := by rw [hx]; exact if_neg fun h => code_ne e h1 h2 h.2
      rw [hout, htree, hcwd]
      cases k <;> simp [comes, hopr, seen]
    | ok i =>
      have ha : answer p os (.openFile q f) = (0#64, some i) := by simp only [answer, if_pos hg, hosr, hopr]
      rw [ha] at hx hh hget
      simp only at hh hget
      obtain ⟨t', extra, hsr, hrec, _⟩ := hget
      have hgf := congrArg (fun y : FdTable × Option (IPCResponse × Option Nat) => match y with
        | (t, some (.syscallResult _, some fd)) => ((t, some (.ok fd)) : FdTable × Option (Except (BitVec 64) Nat))
        | (t, some (.syscallResult code, none)) => if code.msb then (t, some (.error code)) else (t, none)
        | (t, _) => (t, none)) hsr
      change getFdForPath abi c.table q f _ = (t', some (.ok c.table.lowestFree)) at hgf
      have hsmall : c.table.lowestFree < 2 ^ 31 := Nat.lt_of_le_of_lt hrec.small hc.small
      simp only [hgf, hrec.here, Option.map_some, decide_eq_true hg, if_true] at hx
      cases k with
      | access m => exact absurd rfl (hk m)
      | «open» fl =>
        obtain ⟨t2, extra2, hrec2, _, hh2⟩ := hh (kOnFd opened.2 t' (decide (c.regs.nr = SYS_chdir)))
        simp only at hh2
        rw [hh2] at hx
        have hmsb : (BitVec.ofNat 64 c.table.lowestFree).msb = false := by
          rw [BitVec.msb_eq_false_iff_two_mul_lt, BitVec.toNat_ofNat]
          omega
        have hnat : (BitVec.ofNat 64 c.table.lowestFree).toNat = c.table.lowestFree := by
          rw [BitVec.toNat_ofNat]; omega
        have hnr : c.regs.nr ≠ SYS_stat ∧ c.regs.nr ≠ SYS_chdir := by
          cases hsays with
          | «open» _ h1 => rw [h1]; decide
          | openat _ h1 => rw [h1]; decide
        have hout : x.1 = .file i := by
          rw [hx]
          simp only [outcomeOf, hmsb, Bool.false_eq_true, if_false, if_neg hnr.1, if_neg hnr.2, hnat, hrec2.here, Option.elim_some]
        have htree : x.2.tree = opened.2 := by rw [hx]
        have hcwd : x.2.cwd = w.cwd := by rw [hx]; exact if_neg fun h => hnr.2 h.1
        rw [hout, htree, hcwd]
        simp only [comes, hopr, seen]
      | stat =>
        have hnr : c.regs.nr = SYS_stat := by cases hsays with | stat _ h1 => exact h1
        have hnr2 : ¬ c.regs.nr = SYS_chdir := by rw [hnr]; decide
        obtain ⟨t2, extra2, hrec2, _, hh2⟩ := hh (kOnFd opened.2 t' (decide (c.regs.nr = SYS_chdir)))
        simp only [kOnFd, hrec.here, decide_eq_false hnr2, Bool.false_eq_true, if_false, Option.elim_none] at hh2
        simp only [kOnFd, decide_eq_false hnr2, Bool.false_eq_true, if_false, hh2] at hx
        have hout : x.1 = .file i := by
          rw [hx]
          simp [outcomeOf, hnr]
        have htree : x.2.tree = opened.2 := by rw [hx]
        have hcwd : x.2.cwd = w.cwd := by rw [hx]; exact if_neg fun h => hnr2 h.1
        rw [hout, htree, hcwd]
        simp only [comes, hopr, seen]
      | chdir =>
        have hnr : c.regs.nr = SYS_chdir := by cases hsays with | chdir _ h1 => exact h1
        have hnr2 : ¬ c.regs.nr = SYS_stat := by rw [hnr]; decide
        obtain ⟨t2, extra2, hrec2, _, hh2⟩ := hh (kOnFd opened.2 t' (decide (c.regs.nr = SYS_chdir)))
        have htree : x.2.tree = opened.2 := by rw [hx]
        by_cases hdir : ∃ e p, opened.2[i]? = some (.dir e p)
        · obtain ⟨e, p', hdir⟩ := hdir
          have hon : kOnFd opened.2 t' (decide (c.regs.nr = SYS_chdir)) c.table.lowestFree = none := by
            simp only [kOnFd, hrec.here, decide_eq_true hnr, if_true, hdir]
          simp only [hon, Option.elim_none] at hh2
          simp only [hh2] at hx
          have hout : x.1 = .done := by rw [hx]; simp [outcomeOf, hnr, SYS_stat, SYS_chdir]
          have hcwd : x.2.cwd = i := by rw [hx]; simp [hnr]
          rw [hout, htree, hcwd]
          simp only [comes, hopr, hdir]
        · have hnd : (match opened.2[i]? with | some (.dir _ _) => (none : Option Nat) | _ => some 20) = some 20 := by
            split
            · rename_i e p' h; exact absurd ⟨_, _, h⟩ hdir
            · rfl
          have hon : kOnFd opened.2 t' (decide (c.regs.nr = SYS_chdir)) c.table.lowestFree = some 20 := by
            simp only [kOnFd, hrec.here, decide_eq_true hnr, if_true]
            exact hnd
          simp only [hon, Option.elim_some] at hh2
          simp only [hh2] at hx
          have hout : x.1 = .error 20 := by simp only [hx, outcome_enotdir]
          have hcwd : x.2.cwd = w.cwd := by
            rw [hx]; exact if_neg fun h => code_ne 20 (by decide) (by decide) h.2
          rw [hout, htree, hcwd]
          simp only [comes, hopr]
          split
          · rename_i e p' h; exact absurd ⟨_, _, h⟩ hdir
          · rfl

theorem render_noNul {cs : List Str} (h : ∀ c ∈ cs, '\x00' ∉ c) : '\x00' ∉ render cs := by
  induction cs with
  | nil => simp [render]
  | cons c cs ih =>
    simp only [render, List.cons_append, List.mem_cons, List.mem_append, not_or]
    exact ⟨by decide, h c (by simp), ih fun c' h' => h c' (List.mem_cons_of_mem _ h')⟩

theorem Spec.NamesDirectory.noNul {fs : FileTree} {d : Nat} {s : Str} (h : NamesDirectory fs d s) : '\x00' ∉ s := by
  obtain ⟨cs, _, h2, _, rfl⟩ := h
  split
  · decide
  · exact render_noNul fun c hc => (h2 c hc).2

theorem absolute_absolute {path : Str} (ha : path.head? = some '/') (name : Str) : absolute name path = path := by
  simp only [absolute, if_pos ha]

/-- The name of the working directory, or any other for an absolute path. -/
theorem CallAllowed_name [Target] {h : List Call} {fs : FileTree} {cwd : Nat} {getcwd : FileTree → Nat → Option Str} (hg : Getcwd getcwd)
    {k : Kind} {path : Str} (ha : CallAllowed h (getcwd fs cwd) k path) :
    ∃ name, '\x00' ∉ name ∧ (path.head? = some '/' ∨ getcwd fs cwd = some name) ∧ (path.head? = some '/' ∨ NamesDirectory fs cwd name) ∧
      OpenAllowed h (absolute name path) (flagsOf k) ∧ messageSize (utf8 (absolute name path)).length (flagsOf k) ≤ 65536 := by
  obtain ⟨name, h1, h2, h3⟩ := ha
  by_cases hp : path.head? = some '/'
  · refine ⟨c!"/", by decide, .inl hp, .inl hp, ?_⟩
    rw [absolute_absolute hp] at h2 h3 ⊢
    exact ⟨h2, h3⟩
  · have hn := hg _ _ _ (h1.resolve_left hp)
    exact ⟨name, hn.noNul, h1, .inr hn, h2, h3⟩

/-- One call within the rules. -/
theorem turn_within [Target] (abi : Abi) (h : List Call) (audit : Bool) (replace : Bytes → Str) (getcwd : FileTree → Nat → Option Str)
    (hg : Getcwd getcwd) (w : Confined) (c : PathTurn × Kind × Str) (hc : TurnServed c) (hrun : w.broker.status = .running)
    (htab : w.broker.table.length < 2 ^ 31) (ha : CallAllowed h (getcwd (c.1.others w.tree) w.cwd) c.2.1 c.2.2) (hp : Plain c.2.1 c.2.2) :
    let x := w.turn abi (Policy.nothingAllowed.calls h) audit replace getcwd c.1
    x.2.broker.status = .running ∧ x.2.broker.table = w.broker.table ∧ x.1 = (Bare.turn ⟨w.tree, w.cwd⟩ c).1 ∧
      (⟨x.2.tree, x.2.cwd⟩ : Bare) = (Bare.turn ⟨w.tree, w.cwd⟩ c).2 := by
  intro x
  obtain ⟨c, k, path⟩ := c
  simp only at ha hp
  obtain ⟨name, hnul, hname, hdir, hall, hlen⟩ := CallAllowed_name hg ha
  have hne : path ≠ [] := by
    rintro rfl
    cases k <;> simp [Plain] at hp
  have hreq : requestOf name path k = .openFile (absolute name path) (flagsOf k) := by
    cases k with
    | «open» f => rfl
    | access m => exact hp.elim
    | stat => rw [absolute_absolute hp]; rfl
    | chdir => rw [absolute_absolute hp]; rfl
  obtain ⟨h1, h2, _, h4⟩ := turn_served abi (Policy.nothingAllowed.calls h) audit replace getcwd w c k path name hc hrun htab (hname.imp_left .inl) hnul _ _
    hreq hlen
  have hk : ∀ m, k ≠ .access m := by rintro m rfl; exact hp
  have h5 := h4 ((C02_file_open_exact h _ _).2 hall) hk
  refine ⟨h1, h2, ?_⟩
  have e1 := congrArg Prod.fst h5
  have e2 := congrArg (fun y : Outcome × FileTree × Nat => y.2.1) h5
  have e3 := congrArg (fun y : Outcome × FileTree × Nat => y.2.2) h5
  simp only at e1 e2 e3
  show x.1 = _ ∧ (⟨x.2.tree, x.2.cwd⟩ : Bare) = _
  rw [show x.1 = _ from e1, show x.2.tree = _ from e2, show x.2.cwd = _ from e3]
  simp only [Bare.turn]
  cases hr : c.refuse with
  | some e =>
    have : ∀ flags, kOpen (c.others w.tree) (absolute name path) flags (some e) = (.error e, c.others w.tree) := fun _ => rfl
    rw [this]
    cases k <;> simp [comes, Bare.call, seen]
  | none =>
    rw [kOpen_native (w := ⟨c.others w.tree, w.cwd⟩) (flagsOf k) hne hdir]
    cases k with
    | access m => exact hp.elim
    | «open» f => simp [comes, Bare.call, flagsOf, hne]
    | stat => simp [comes, Bare.call, flagsOf, hne, native_path]
    | chdir =>
      simp only [comes, Bare.call, flagsOf, hne, native_path, if_false]
      cases lookup ⟨c.others w.tree, w.cwd⟩ path with
      | error e => simp
      | ok i =>
        simp only
        cases hi : (c.others w.tree)[i]? with
        | none => simp
        | some n => cases n <;> simp

end Iris
