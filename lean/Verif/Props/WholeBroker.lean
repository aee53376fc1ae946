import Verif.Lemmas.WholeBroker
import Verif.Props.Concurrent
import Verif.Props.Worker
/-!
# A whole broker process (C133)

Workers are created by any threads of the program while others are being created and others are
being served; every interleaving of their system calls, and anything else the program does to its own
descriptors in between.
-/
namespace Iris
open Spec

/-- The thread serving a worker has the policy given to the call that created it, and the broker's end of
the channel made by that call. -/
theorem whole_made [Target] {abi : Abi} {ok : FdTable → Prop} {w w' : WholeBroker} {ls : List BrokerEvent}
    (h : NothingYet w) (he : WholeExec abi ok Declared w ls w') {j : Nat} {c : ProcessConfig} {p : Policy} {caps : Caps}
    {os : NewOs} {before : FdTable} (hm : .made j c p caps os before ∈ ls) :
    ∃ x, w'.calls j = some x ∧ x.policy = p ∧ x.os = os := by
  have hc := (whole_exec h he).1
  obtain ⟨y, h1, _, h2, _, h3, _⟩ := (exec_creators_inv ⟨h.calls, h.nodup⟩ hc).made j c p caps os before
    (List.mem_filterMap.2 ⟨_, hm, rfl⟩)
  exact ⟨y, h1, h2, h3⟩

/-- C133. Whatever is served or created meanwhile, a worker program that has been started has, above the
standard streams, its end of its own channel and the descriptors its creator declared that were
inheritable, and nothing else: no file opened for another worker, no channel of another. -/
theorem C133_programs [Target] (abi : Abi) (ok : FdTable → Prop) (w w' : WholeBroker) (ls : List BrokerEvent) (h : NothingYet w)
    (he : WholeExec abi ok Declared w ls w') (j : Nat) (c : ProcessConfig) (p : Policy) (caps : Caps) (os : NewOs)
    (before : FdTable) (hm : .made j c p caps os before ∈ ls) (x : Creation) (hx : w'.calls j = some x)
    (ch : Child) (img : Image) (hc : x.child = some ch) (hs : ch.ending = .started img) :
    ∃ a b, os.socketpair = .ok (a, b) ∧ StartedRight before c p b img :=
  C129_descriptors abi _ _ _ ⟨h.calls, h.nodup⟩ (whole_exec h he).1 j c p caps os before
    (List.mem_filterMap.2 ⟨_, hm, rfl⟩) x hx ch img hc hs

/-- C133. Its standard streams are those configured, as far as C40 holds. Missing: the same as for
`C40_streams_partial`. -/
theorem C133_streams_partial [Target] (abi : Abi) (ok : FdTable → Prop) (w w' : WholeBroker) (ls : List BrokerEvent)
    (h : NothingYet w) (he : WholeExec abi ok Declared w ls w') (j : Nat) (c : ProcessConfig) (p : Policy) (caps : Caps)
    (os : NewOs) (before : FdTable) (hm : .made j c p caps os before ∈ ls) (x : Creation) (hx : w'.calls j = some x)
    (ch : Child) (img : Image) (hc : x.child = some ch) (hs : ch.ending = .started img) :
    StreamIs before img 0 c.stdin ∧ (c.stdout ≠ some 0 → StreamIs before img 1 c.stdout) ∧
    (c.stderr ≠ some 0 → c.stderr ≠ some 1 → StreamIs before img 2 c.stderr) :=
  C129_streams_partial abi _ _ _ ⟨h.calls, h.nodup⟩ (whole_exec h he).1 j c p caps os before
    (List.mem_filterMap.2 ⟨_, hm, rfl⟩) x hx ch img hc hs

/-- C133. Exactly the workers whose creation succeeded are served: by a thread that has the policy
given to the call (without the descriptors to inherit, which are of no more use) and the descriptor the
call has left. -/
theorem C133_served [Target] (abi : Abi) (ok : FdTable → Prop) (w w' : WholeBroker) (ls : List BrokerEvent) (h : NothingYet w)
    (he : WholeExec abi ok Declared w ls w') (j : Nat) :
    (∀ x m pid, w'.calls j = some x → x.phase = .served m pid → ∃ th, w'.threads j = some th ∧ th.chan = m ∧
      th.policy = { x.policy with inherit := [] }) ∧
    ∀ th, w'.threads j = some th → ∃ x m pid, w'.calls j = some x ∧ x.phase = .served m pid := by
  have hi := (whole_exec h he).2
  constructor
  · intro x m pid hx hp
    obtain ⟨th, ht⟩ := hi.thread j x m pid hx hp
    obtain ⟨y, pid', h1, h2, h3⟩ := hi.served j th ht
    rw [hx] at h1
    cases h1
    rw [hp] at h2
    cases h2
    exact ⟨th, ht, rfl, h3⟩
  · intro th ht
    obtain ⟨y, pid', h1, h2, h3⟩ := hi.served j th ht
    exact ⟨y, _, _, h1, h2⟩

/-- C133. Every message for worker `j` is received from, and every reply sent to, the broker's end of
the socket pair made for worker `j`. -/
theorem C133_own_socket [Target] (abi : Abi) (ok : FdTable → Prop) (w w' : WholeBroker) (ls : List BrokerEvent)
    (h : NothingYet w) (he : WholeExec abi ok Declared w ls w') (j : Nat) (c : ProcessConfig) (p : Policy) (caps : Caps)
    (os : NewOs) (before : FdTable) (hm : .made j c p caps os before ∈ ls) (th : Loop) (ht : w'.threads j = some th) :
    ∃ a b, os.socketpair = .ok (a, b) ∧ ∀ s ∈ th.sockets, s = some a := by
  obtain ⟨t0, ms, ⟨x, a, b, h1, h2, h3⟩, h4, _⟩ := (thread_run h he j).2 th ht
  obtain ⟨y, hy, _, rfl⟩ := whole_made h he hm
  rw [h1] at hy
  cases hy
  refine ⟨a, b, h2, fun s hs => ?_⟩
  have := (exec_sockets abi ok _ _ ms (oneLoop_fresh (by rw [h3]; rfl)) h4 0).1 s hs
  simp only [oneLoop, if_true] at this
  rw [this, socketOf, h3]
  rfl

/-- What a thread has done has been asked for by its worker, and is granted by the worker's policy. -/
theorem thread_just [Target] {abi : Abi} {w w' : WholeBroker} {ls : List BrokerEvent} (h : NothingYet w)
    (he : WholeExec abi Bounded Declared w ls w') {j : Nat} {c : ProcessConfig} {p : Policy} {caps : Caps}
    {os : NewOs} {before : FdTable} (hm : .made j c p caps os before ∈ ls) {th : Loop} (ht : w'.threads j = some th) :
    JustTrace abi p.runtime (receivedBy j ls) th.trace := by
  obtain ⟨t0, ms, ⟨x, a, b, h1, h2, h3⟩, h4, h5⟩ := (thread_run h he j).2 th ht
  obtain ⟨y, hy, rfl, rfl⟩ := whole_made h he hm
  obtain ⟨z, pid, hz, _, hpol⟩ := (whole_exec h he).2.served j th ht
  rw [hz] at hy
  cases hy
  have := (exec_just abi Bounded (fun _ h => h) _ _ ms (oneLoop_fresh (by rw [h3]; rfl)) h4 0).1
  simp only [oneLoop, if_true] at this
  rw [h5, hpol] at this
  exact this

/-- C133. Every file opened for worker `j` was asked for by worker `j`, and the calls made on the policy its
creator gave allow it, whatever the other workers ask for and are allowed. It is opened with the
rights of the broker only for the flags asked for, and created with mode 600. -/
theorem C133_opened [Target] (abi : Abi) (w w' : WholeBroker) (ls : List BrokerEvent) (h : NothingYet w)
    (he : WholeExec abi Bounded Declared w ls w') (j : Nat) (c : ProcessConfig) (cs : List Call) (caps : Caps)
    (os : NewOs) (before : FdTable) (hm : .made j c (Policy.nothingAllowed.calls cs) caps os before ∈ ls)
    (th : Loop) (ht : w'.threads j = some th) (path : Str) (flags mode : BitVec 32)
    (ho : Action.opened path flags mode ∈ th.trace) :
    mode = 0o600#32 ∧ (∃ i ∈ receivedBy j ls, classify i.1 = .request (.openFile path flags)) ∧
      OpenAllowed cs path flags := by
  obtain ⟨h1, o, ⟨inc, h2, h3⟩, h4⟩ := (thread_just h he hm ht).opened path flags mode ho
  exact ⟨h1, ⟨_, h2, h3⟩, (C02_file_open_exact cs path flags).1 h4⟩

/-- C133 on 32-bit targets: a reply to worker `j` carries no file, or just the file opened for a request of worker
`j` that its policy allows. -/
theorem C133_sent_ilp32 [Target] (w w' : WholeBroker) (ls : List BrokerEvent) (h : NothingYet w)
    (he : WholeExec .ilp32 Bounded Declared w ls w') (j : Nat) (c : ProcessConfig) (cs : List Call) (caps : Caps)
    (os : NewOs) (before : FdTable) (hm : .made j c (Policy.nothingAllowed.calls cs) caps os before ∈ ls)
    (th : Loop) (ht : w'.threads j = some th) (resp : IPCResponse) (files : List Nat)
    (hs : Action.sent resp files ∈ th.trace) :
    files = [] ∨ ∃ i ∈ receivedBy j ls, ∃ path flags file, classify i.1 = .request (.openFile path flags) ∧
      OpenAllowed cs path flags ∧ i.2.openResult = .ok file ∧ files = [file] := by
  rcases (thread_just h he hm ht).sent resp files hs with h0 | ⟨o, path, flags, file, ⟨⟨inc, h2, h3⟩, h4⟩, h5, h6, h7⟩
  · exact .inl h0
  · exact .inr ⟨_, h2, path, flags, file, h3, (C02_file_open_exact cs path flags).1 h4, h5, h7 rfl⟩

/-- C133, what holds on every target: the first file a reply carries is the one opened for a request
of worker `j`. Missing: on x86_64, another file goes with it (`C133_violated`). -/
theorem C133_sent_partial [Target] (abi : Abi) (w w' : WholeBroker) (ls : List BrokerEvent) (h : NothingYet w)
    (he : WholeExec abi Bounded Declared w ls w') (j : Nat) (c : ProcessConfig) (cs : List Call) (caps : Caps)
    (os : NewOs) (before : FdTable) (hm : .made j c (Policy.nothingAllowed.calls cs) caps os before ∈ ls)
    (th : Loop) (ht : w'.threads j = some th) (resp : IPCResponse) (files : List Nat)
    (hs : Action.sent resp files ∈ th.trace) :
    files = [] ∨ ∃ i ∈ receivedBy j ls, ∃ path flags file, classify i.1 = .request (.openFile path flags) ∧
      OpenAllowed cs path flags ∧ i.2.openResult = .ok file ∧ files.head? = some file := by
  rcases (thread_just h he hm ht).sent resp files hs with h0 | ⟨o, path, flags, file, ⟨⟨inc, h2, h3⟩, h4⟩, h5, h6, h7⟩
  · exact .inl h0
  · exact .inr ⟨_, h2, path, flags, file, h3, (C02_file_open_exact cs path flags).1 h4, h5, h6⟩

/-- What is served to a worker of a whole broker process is what it is served alone. -/
theorem thread_alone [Target] {abi : Abi} (f : Nat) {ok : FdTable → Prop} (hok : ∀ t, ok t → Calm abi f t)
    {w w' : WholeBroker} {ls : List BrokerEvent} (h : NothingYet w) (he : WholeExec abi ok Declared w ls w') {j : Nat}
    {c : ProcessConfig} {p : Policy} {caps : Caps} {os : NewOs} {before : FdTable}
    (hm : .made j c p caps os before ∈ ls) {th : Loop} (ht : w'.threads j = some th) :
    ∃ t0 a b, os.socketpair = .ok (a, b) ∧ t0.get th.chan = some ⟨a, 0#32⟩ ∧
      SameAsAlone abi t0 ⟨{ p with inherit := [] }, th.chan, .idle, [], []⟩ (receivedBy j ls) th := by
  obtain ⟨t0, ms, ⟨x, a, b, h1, h2, h3⟩, h4, h5⟩ := (thread_run h he j).2 th ht
  obtain ⟨y, hy, rfl, rfl⟩ := whole_made h he hm
  obtain ⟨z, pid, hz, _, hpol⟩ := (whole_exec h he).2.served j th ht
  rw [h1] at hy hz
  cases hy
  cases hz
  refine ⟨t0, a, b, h2, h3, ?_⟩
  have he' := exec_mono _ _ _ hok _ _ _ h4
  have htr := exec_tracks abi f _ _ ms (oneLoop_fresh (by rw [h3]; rfl)) he' 0 rfl
  simp only [oneLoop, if_true] at htr
  rw [h5] at htr
  exact tracks_same abi f t0 _ _ _ _ (exec_start _ _ _ _ _ he') hpol rfl htr

/-- C133 on 32-bit targets: a worker gets exactly the answers it gets from a broker that serves it
alone, from the moment its thread is created, whatever workers are created and served meanwhile. -/
theorem C133_session_ilp32 [Target] (w w' : WholeBroker) (ls : List BrokerEvent) (h : NothingYet w)
    (he : WholeExec .ilp32 Bounded Declared w ls w') (j : Nat) (c : ProcessConfig) (p : Policy) (caps : Caps)
    (os : NewOs) (before : FdTable) (hm : .made j c p caps os before ∈ ls) (th : Loop) (ht : w'.threads j = some th) :
    ∃ t0 a b, os.socketpair = .ok (a, b) ∧ t0.get th.chan = some ⟨a, 0#32⟩ ∧
      SameAsAlone .ilp32 t0 ⟨{ p with inherit := [] }, th.chan, .idle, [], []⟩ (receivedBy j ls) th :=
  thread_alone 0 (fun _ hb => ⟨hb, by simp⟩) h he hm ht

/-- C133 on x86_64, what holds: the same as long as descriptor 0 of the broker stays open on the same file.
Missing: brokers whose descriptor 0 is closed (`C133_violated`). -/
theorem C133_session_partial [Target] (f : Nat) (w w' : WholeBroker) (ls : List BrokerEvent) (h : NothingYet w)
    (he : WholeExec .lp64 (fun t => Bounded t ∧ StdinIs f t) Declared w ls w') (j : Nat) (c : ProcessConfig) (p : Policy)
    (caps : Caps) (os : NewOs) (before : FdTable) (hm : .made j c p caps os before ∈ ls) (th : Loop)
    (ht : w'.threads j = some th) :
    ∃ t0 a b, os.socketpair = .ok (a, b) ∧ t0.get th.chan = some ⟨a, 0#32⟩ ∧
      SameAsAlone .lp64 t0 ⟨{ p with inherit := [] }, th.chan, .idle, [], []⟩ (receivedBy j ls) th :=
  thread_alone f (fun _ hb => ⟨hb.1, fun _ => hb.2⟩) h he hm ht

theorem whole_no_interference [Target] {abi : Abi} (f : Nat) {ok : FdTable → Prop} (hok : ∀ t, ok t → Calm abi f t) :
    WholeNoInterference abi ok := by
  intro w w' v v' ls ms i j c d p caps caps' os os' b b' th th' hw hv ew ev hm hn ht ht' hr ra rb
  obtain ⟨t0, as, ⟨x, a1, b1, h1, h2, h3⟩, h4, h5⟩ := (thread_run hw ew i).2 th ht
  obtain ⟨t0', as', ⟨x', a1', b1', h1', h2', h3'⟩, h4', h5'⟩ := (thread_run hv ev j).2 th' ht'
  obtain ⟨y, hy, hp, _⟩ := whole_made hw ew hm
  obtain ⟨y', hy', hp', _⟩ := whole_made hv ev hn
  obtain ⟨z, pid, hz, _, hpol⟩ := (whole_exec hw ew).2.served i th ht
  obtain ⟨z', pid', hz', _, hpol'⟩ := (whole_exec hv ev).2.served j th' ht'
  rw [hz] at hy
  rw [hz'] at hy'
  cases hy
  cases hy'
  have := no_interference abi f _ _ _ _ as as' 0 0 (oneLoop_fresh (by rw [h3]; rfl)) (oneLoop_fresh (by rw [h3']; rfl))
    (exec_mono _ _ _ hok _ _ _ h4) (exec_mono _ _ _ hok _ _ _ h4') rfl rfl
    (by simp only [oneLoop, if_true]; rw [hpol, hpol', hp, hp']) (by rw [h5, h5', hr]) ra rb
  exact this

/-- C133 on 32-bit targets. -/
theorem C133_no_interference_ilp32 [Target] : WholeNoInterference .ilp32 Bounded :=
  whole_no_interference 0 fun _ hb => ⟨hb, by simp⟩

/-- C133 on x86_64, what holds: as long as descriptor 0 stays open on the same file. -/
theorem C133_no_interference_partial [Target] (f : Nat) :
    WholeNoInterference .lp64 (fun t => Bounded t ∧ StdinIs f t) :=
  whole_no_interference f fun _ hb => ⟨hb.1, fun _ => hb.2⟩

/-- C133. A step made for worker `j`, creating or serving it, changes or closes no descriptor but those opened
for worker `j`. -/
theorem C133_own_only [Target] (abi : Abi) (ok : FdTable → Prop) (w w' : WholeBroker) (l1 l2 : List BrokerEvent)
    (l : BrokerEvent) (j : Nat) (before after : FdTable) (h : NothingYet w)
    (he : WholeExec abi ok Declared w (l1 ++ l :: l2) w') (hl : StepOf j l before after) (fd : Nat)
    (hb : before.get fd ≠ none) (ha : after.get fd ≠ before.get fd) : HeldFor j l1 fd :=
  (whole_exec h he).2.fd.own l1 l l2 j before after rfl hl fd hb ha

/-- C133. No descriptor is opened for two workers, and those opened for a worker and not closed for it
are open. Missing: as for `C133_closed_partial`. -/
theorem C133_apart_partial [Target] (abi : Abi) (ok : FdTable → Prop) (w w' : WholeBroker) (ls : List BrokerEvent)
    (h : NothingYet w) (he : WholeExec abi ok Declared w ls w')
    (hn : ∀ j x, w'.calls j = some x → FewFiles x.os.first)
    (hr : ∀ j, ∀ i ∈ receivedBy j ls, FewFiles i.1) (i j : Nat) (fd : Nat) (hi : HeldFor i ls fd) :
    w'.table.get fd ≠ none ∧ (HeldFor j ls fd → i = j) := by
  have hinv := (whole_exec h he).2
  have hl : ∀ j x, w'.calls j = some x → nfiles x.os ≤ 1 := by
    intro j x hx
    unfold nfiles
    split
    · rename_i d e; exact hn j x hx d e
    · exact Nat.zero_le _
  have h1 := hinv.fd.only i (hl i) (hr i) fd hi
  refine ⟨hinv.fd.present i fd h1, fun hj => ?_⟩
  have h2 := hinv.fd.only j (hl j) (hr j) fd hj
  exact Classical.byContradiction fun hne => hinv.fd.apart i j hne fd h1 h2

/-- C133. When its creation has failed, or when it is not served any more, no descriptor opened for
worker `j` is left open. Missing: messages that come with several files, all but one of which stay open
(`C75_violated`). -/
theorem C133_closed_partial [Target] (abi : Abi) (ok : FdTable → Prop) (w w' : WholeBroker) (ls : List BrokerEvent)
    (h : NothingYet w) (he : WholeExec abi ok Declared w ls w') (j : Nat) (x : Creation) (hx : w'.calls j = some x)
    (hn : FewFiles x.os.first) (hr : ∀ i ∈ receivedBy j ls, FewFiles i.1)
    (hover : (∃ err, x.phase = .failed err) ∨ ∃ th why, w'.threads j = some th ∧ th.phase = .gone why) (fd : Nat) :
    ¬ HeldFor j ls fd := by
  intro hh
  have hi := (whole_exec h he).2
  have hl : nfiles x.os ≤ 1 := by
    unfold nfiles
    split
    · rename_i d e; exact hn d e
    · exact Nat.zero_le _
  have hm := hi.fd.only j (fun y hy => by rw [hx] at hy; cases hy; exact hl) hr fd hh
  rcases hover with ⟨err, hf⟩ | ⟨th, why, ht, hg⟩
  · have hno : w'.threads j = none := by
      cases ht : w'.threads j with
      | none => rfl
      | some th =>
        obtain ⟨y, pid, h1, h2, _⟩ := hi.served j th ht
        rw [hx] at h1; cases h1
        rw [hf] at h2; cases h2
    rw [fds_call hx hno, hf] at hm
    cases hm
  · obtain ⟨y, pid, h1, h2, _⟩ := hi.served j th ht
    rw [fds_thread h1 h2 ht, Loop.owned, hg] at hm
    cases hm

/-- C133. A worker that is served, and not in the middle of a request, has one descriptor of the broker: its
channel. Missing: as for `C133_closed_partial`. -/
theorem C133_one_partial [Target] (abi : Abi) (ok : FdTable → Prop) (w w' : WholeBroker) (ls : List BrokerEvent)
    (h : NothingYet w) (he : WholeExec abi ok Declared w ls w') (j : Nat) (x : Creation) (hx : w'.calls j = some x)
    (hn : FewFiles x.os.first) (hr : ∀ i ∈ receivedBy j ls, FewFiles i.1) (th : Loop) (ht : w'.threads j = some th)
    (hp : th.phase = .idle) (fd : Nat) : HeldFor j ls fd ↔ fd = th.chan := by
  have hi := (whole_exec h he).2
  have hl : nfiles x.os ≤ 1 := by
    unfold nfiles
    split
    · rename_i d e; exact hn d e
    · exact Nat.zero_le _
  obtain ⟨y, pid, h1, h2, _⟩ := hi.served j th ht
  have hfds : w'.fds j = [th.chan] := by rw [fds_thread h1 h2 ht, Loop.owned, hp]
  constructor
  · intro hh
    have hm := hi.fd.only j (fun y hy => by rw [hx] at hy; cases hy; exact hl) hr fd hh
    rw [hfds] at hm
    exact List.mem_singleton.1 hm
  · rintro rfl
    exact hi.fd.holds j _ (by rw [hfds]; exact List.mem_singleton.2 rfl)

/-! ## Two workers, one served while the other is created -/

/-- The next thing that happens. -/
inductive Turn
  | step (j : Nat)
  | recv (j : Nat) (inc : Incoming) (os : OsChoice)
  | serve (j : Nat)

/-- If it can. -/
def WholeBroker.turn [Target] (abi : Abi) (ok : FdTable → Bool) (s : List BrokerEvent × WholeBroker) :
    Turn → List BrokerEvent × WholeBroker
  | .step j => match s.2.calls j with
    | none => s
    | some x =>
      if !x.phase.over && ok (x.go abi s.2.table).1 then
        (s.1 ++ [.step j s.2.table (x.go abi s.2.table).1], s.2.create abi j x)
      else s
  | .recv j inc os => match s.2.threads j with
    | none => s
    | some th =>
      if th.phase.isIdle && ok (th.receive abi s.2.table inc os).1 then
        (s.1 ++ [.recv j inc os s.2.table (th.receive abi s.2.table inc os).1],
         s.2.served j (th.receive abi s.2.table inc os))
      else s
  | .serve j => match s.2.threads j with
    | none => s
    | some th =>
      if ok (th.go abi s.2.table).1 then
        (s.1 ++ [.serve j s.2.table (th.go abi s.2.table).1], s.2.served j (th.go abi s.2.table))
      else s

theorem whole_turns [Target] {abi : Abi} {ok : FdTable → Bool} {w : WholeBroker} (l : List Turn) :
    ∀ (s : List BrokerEvent × WholeBroker), WholeExec abi (fun t => ok t = true) Declared w s.1 s.2 →
    WholeExec abi (fun t => ok t = true) Declared w (l.foldl (WholeBroker.turn abi ok) s).1
      (l.foldl (WholeBroker.turn abi ok) s).2 := by
  induction l with
  | nil => exact fun s h => h
  | cons a l ih =>
    intro s h
    apply ih
    unfold WholeBroker.turn
    split
    all_goals
      split
      · exact h
      · rename_i x hx
        split
        · rename_i ho
          first
            | exact .serve _ _ _ x h hx ho
            | (simp only [Bool.and_eq_true, Bool.not_eq_true'] at ho
               first
                 | exact .go _ _ _ x h hx ho.1 ho.2
                 | exact .recv _ _ _ x _ _ h hx (LoopPhase.of_isIdle _ ho.1) ho.2)
        · exact h

theorem turns_mem [Target] {abi : Abi} {ok : FdTable → Bool} {e : BrokerEvent} (l : List Turn) :
    ∀ (s : List BrokerEvent × WholeBroker), e ∈ s.1 → e ∈ (l.foldl (WholeBroker.turn abi ok) s).1 := by
  induction l with
  | nil => exact fun s h => h
  | cons a l ih =>
    intro s h
    apply ih
    unfold WholeBroker.turn
    split
    all_goals
      split
      · exact h
      · split
        · exact List.mem_append_left _ h
        · exact h

/-- Both calls have been made. -/
def wholeCalls (t : FdTable) : List BrokerEvent × WholeBroker :=
  ([.made 0 someConfig tmpPolicy fullCaps goodOs t, .made 1 otherConfig tmpPolicy fullCaps otherOs t],
   (WholeBroker.made (WholeBroker.made ⟨t, fun _ => none, fun _ => none⟩ 0 (.make someConfig tmpPolicy fullCaps goodOs)) 1
     (.make otherConfig tmpPolicy fullCaps otherOs)))

theorem wholeCalls_exec [Target] (abi : Abi) (ok : FdTable → Prop) (t : FdTable) (ht : ok t) (h3 : t.get 3 ≠ none)
    (h7 : t.get 7 ≠ none) :
    WholeExec abi ok Declared ⟨t, fun _ => none, fun _ => none⟩ (wholeCalls t).1 (wholeCalls t).2 := by
  have open37 : ∀ fd, fd = 3 ∨ fd = 7 → t.get fd ≠ none := by
    rintro fd (rfl | rfl) <;> assumption
  have h0 : WholeExec abi ok Declared ⟨t, fun _ => none, fun _ => none⟩
      [.made 0 someConfig tmpPolicy fullCaps goodOs t]
      (WholeBroker.made ⟨t, fun _ => none, fun _ => none⟩ 0 (.make someConfig tmpPolicy fullCaps goodOs)) :=
    .call [] ⟨t, fun _ => none, fun _ => none⟩ 0 someConfig tmpPolicy fullCaps goodOs (.start ht) rfl fun fd hd =>
      ⟨open37 fd (declared_open _ (.inl rfl) fd hd), fun k x hx => (by cases hx), fun k x hx => (by cases hx)⟩
  refine .call _ _ 1 otherConfig tmpPolicy fullCaps otherOs h0 rfl fun fd hd =>
      ⟨open37 fd (declared_open _ (.inr rfl) fd hd), fun k x hx => ?_, fun k x hx => by cases hx⟩
  by_cases hk : k = 0
  · subst hk
    simp only [WholeBroker.made, if_true] at hx
    cases hx
    intro hc; cases hc
  · simp only [WholeBroker.made, if_neg hk] at hx
    cases hx

/-- `open("/tmp/a", O_RDONLY)` from worker `j`, which gives this open file. -/
def wholeAsks (j file : Nat) : Turn :=
  .recv j (.datagram ⟨encRequest (.openFile c!"/tmp/a" 0#32), []⟩) ⟨2, .ok file, none⟩

/-- Worker 0 is created; it asks for a file, which is open while worker 1 is created; then worker 1 asks for one. -/
def wholeSchedule : List Turn :=
  List.replicate 22 (.step 0) ++ [wholeAsks 0 100, .serve 0, .serve 0] ++ List.replicate 22 (.step 1) ++
    [wholeAsks 1 200, .serve 1, .serve 0, .serve 1, .serve 1, .serve 0, .serve 1]

/-- Few descriptors, and descriptor 0 is open on file 10. -/
def fewStdin (t : FdTable) : Bool := few t && decide ((t.get 0).map (·.file) = some 10)

def wholeEnd : List BrokerEvent × WholeBroker :=
  wholeSchedule.foldl (@WholeBroker.turn x86_64 .lp64 fewStdin) (wholeCalls brokerTable)

theorem whole_mono [Target] (abi : Abi) (ok ok' : FdTable → Prop) (h : ∀ t, ok t → ok' t) {w w' : WholeBroker}
    {ls : List BrokerEvent} (he : WholeExec abi ok Declared w ls w') : WholeExec abi ok' Declared w ls w' := by
  induction he with
  | start a => exact .start (h _ a)
  | call ls w1 j c p caps os _ a b ih => exact .call ls w1 j c p caps os ih a b
  | go ls w1 j x _ a b c ih => exact .go ls w1 j x ih a b (h _ c)
  | recv ls w1 j th inc os _ a b c ih => exact .recv ls w1 j th inc os ih a b (h _ c)
  | serve ls w1 j th _ a b ih => exact .serve ls w1 j th ih a (h _ b)
  | other ls w1 t _ a b c d e ih => exact .other ls w1 t ih a b c d (h _ e)

/-- The execution meets the hypotheses of the theorems on x86_64, -/
theorem wholeEnd_exec : NothingYet ⟨brokerTable, fun _ => none, fun _ => none⟩ ∧
    @WholeExec x86_64 .lp64 (fun t => Bounded t ∧ StdinIs 10 t) Declared ⟨brokerTable, fun _ => none, fun _ => none⟩
      wholeEnd.1 wholeEnd.2 := by
  refine ⟨⟨fun _ => rfl, fun _ => rfl, brokerTable_real.nodup⟩, ?_⟩
  refine @whole_mono x86_64 .lp64 (fun t => fewStdin t = true) _ (fun t h => ?_) _ _ _ ?_
  · simpa only [fewStdin, few, Bounded, StdinIs, Bool.and_eq_true, decide_eq_true_eq] using h
  · exact @whole_turns x86_64 .lp64 fewStdin _ _ _
      (@wholeCalls_exec x86_64 .lp64 _ brokerTable (by decide) (by decide) (by decide))

def wholeTrace (w : WholeBroker) (j : Nat) : Option (List Action) := (w.threads j).map (·.trace)

/-- both workers are served, and each gets its own file (and, on x86_64, that of descriptor 0), -/
example : wholeTrace wholeEnd.2 0 = some [.opened c!"/tmp/a" 0#32 0x180#32, .sent (.syscallResult 0#64) [100, 10]] ∧
    wholeTrace wholeEnd.2 1 = some [.opened c!"/tmp/a" 0#32 0x180#32, .sent (.syscallResult 0#64) [200, 10]] ∧
    wholeEnd.2.table = [(8, ⟨52, 0#32⟩), (5, ⟨50, 0#32⟩)] ++ brokerTable := by
  decide +kernel

/-- and while worker 1 was created the file opened for worker 0 was open, without being passed on. -/
example : ((wholeSchedule.take 30).foldl (@WholeBroker.turn x86_64 .lp64 fewStdin) (wholeCalls brokerTable)).2.table =
      [(9, ⟨53, 0#32⟩), (8, ⟨52, 0#32⟩), (6, ⟨100, 0#32⟩), (5, ⟨50, 0#32⟩)] ++ brokerTable ∧
    startedTable ⟨wholeEnd.2.table, wholeEnd.2.calls⟩ 1 =
      some [(2, ⟨82, 0#32⟩), (1, ⟨81, 0#32⟩), (0, ⟨17, 0#32⟩), (9, ⟨53, 0#32⟩), (7, ⟨17, 0#32⟩)] := by
  decide +kernel

/-- The same broker without a standard input. -/
def noStdin : FdTable := brokerTable.erase 0

def wholeEnd' : List BrokerEvent × WholeBroker :=
  wholeSchedule.foldl (@WholeBroker.turn x86_64 .lp64 few) (wholeCalls noStdin)

/-- On 32-bit targets. -/
example : NothingYet ⟨brokerTable, fun _ => none, fun _ => none⟩ ∧
    @WholeExec x86_64 .ilp32 Bounded Declared ⟨brokerTable, fun _ => none, fun _ => none⟩
      (wholeSchedule.foldl (@WholeBroker.turn x86_64 .ilp32 few) (wholeCalls brokerTable)).1
      (wholeSchedule.foldl (@WholeBroker.turn x86_64 .ilp32 few) (wholeCalls brokerTable)).2 :=
  ⟨⟨fun _ => rfl, fun _ => rfl, brokerTable_real.nodup⟩,
   @whole_mono x86_64 .ilp32 (fun t => few t = true) _ (fun t h => by simpa [few, Bounded] using h) _ _ _
      (@whole_turns x86_64 .ilp32 few _ _ _
        (@wholeCalls_exec x86_64 .ilp32 _ brokerTable (by decide) (by decide) (by decide)))⟩

example : wholeTrace (wholeSchedule.foldl (@WholeBroker.turn x86_64 .ilp32 few) (wholeCalls brokerTable)).2 1 =
    some [.opened c!"/tmp/a" 0#32 0x180#32, .sent (.syscallResult 0#64) [200]] := by
  decide +kernel

/-- C133 is false on x86_64 of a broker whose descriptor 0 is closed: the broker's end of the channel of worker 0 is
put there, and is sent to worker 1 with the file it asks for. Worker 1 can then answer the requests of
worker 0 in place of the broker. -/
theorem C133_violated : ∃ (w w' : WholeBroker) (ls : List BrokerEvent) (c : ProcessConfig) (p : Policy) (caps : Caps)
    (os : NewOs) (a b : Nat) (th : Loop) (resp : IPCResponse) (files : List Nat), NothingYet w ∧
    @WholeExec x86_64 .lp64 Bounded Declared w ls w' ∧
    .made 0 c p caps os w.table ∈ ls ∧ os.socketpair = .ok (a, b) ∧ (w'.threads 0).isSome ∧ w'.threads 1 = some th ∧
    .sent resp files ∈ th.trace ∧ a ∈ files := by
  have hx : @WholeExec x86_64 .lp64 Bounded Declared ⟨noStdin, fun _ => none, fun _ => none⟩ wholeEnd'.1 wholeEnd'.2 :=
    @whole_mono x86_64 .lp64 (fun t => few t = true) _ (fun t h => by simpa [few, Bounded] using h) _ _ _
      (@whole_turns x86_64 .lp64 few _ _ _
        (@wholeCalls_exec x86_64 .lp64 _ noStdin (by decide) (by decide) (by decide)))
  have ht : wholeTrace wholeEnd'.2 1 =
      some [.opened c!"/tmp/a" 0#32 0x180#32, .sent (.syscallResult 0#64) [200, 50]] := by decide +kernel
  have h0 : (wholeEnd'.2.threads 0).isSome = true := by decide +kernel
  obtain ⟨th, h1, h2⟩ := Option.map_eq_some_iff.1 ht
  refine ⟨_, _, _, someConfig, tmpPolicy, fullCaps, goodOs, 50, 51, th, .syscallResult 0#64, [200, 50],
    ⟨fun _ => rfl, fun _ => rfl, by decide⟩, hx, ?_, rfl, h0, h1, ?_, by decide⟩
  · exact @turns_mem x86_64 .lp64 few _ _ _ (List.mem_cons_self ..)
  · rw [h2]; simp

end Iris
