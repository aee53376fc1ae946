import Verif.Spec.PassedOn
import Verif.Lemmas.WholeBroker
/-!
# How each descriptor is opened
-/
namespace Iris
open Spec

/-- The whole entry of the thread's channel is never changed while the thread has it. -/
theorem go_entry [Target] (abi : Abi) (t : FdTable) (th : Loop) (s : Option FdEntry) (hn : th.owned.Nodup)
    (hw : th.Wf) (hp : ∀ fd ∈ th.owned, t.get fd ≠ none) (h2 : th.chan ∈ th.owned → t.get th.chan = s)
    (hown : (th.go abi t).2.chan ∈ (th.go abi t).2.owned) : (th.go abi t).1.get (th.go abi t).2.chan = s := by
  obtain ⟨p, chan, phase, trace, socks⟩ := th
  cases phase with
  | idle => exact h2 hown
  | gone why => exact h2 hown
  | leaving why => simp [Loop.go, Loop.owned] at hown
  | closing h next =>
    rw [← h2 (by simp [Loop.owned])]
    have hne : h ≠ some chan := by
      rintro rfl
      simp [Loop.owned] at hn
    simp only [Loop.go, get_dropHandle t h chan hne]
  | replying os resp h =>
    have hs := h2 (by simp [Loop.owned])
    simp only [Loop.go]
    split <;> exact hs
  | received os r =>
    cases r with
    | error e => exact h2 (by simp [Loop.owned])
    | ok r =>
      obtain ⟨fds, hfds⟩ := hw os r rfl
      have hown' : Loop.owned ⟨p, chan, .received os (.ok r), trace, socks⟩ = chan :: fds := by
        simp only [Loop.owned, hfds, rights_fds]
      rw [hown'] at hn h2
      rw [List.nodup_cons] at hn
      rw [← h2 (by simp)]
      simp only [Loop.go]
      rcases recvFinish_table decRequest t r fds hfds with ⟨m, he⟩ | ⟨he, _⟩
      · rw [he]
      · rw [he, get_dropHandle]
        exact fun e => hn.1 (List.mem_of_mem_head? e)
  | serving os m =>
    have hown' : Loop.owned ⟨p, chan, .serving os m, trace, socks⟩ = [chan] := rfl
    have hchan : t.get chan ≠ none := hp _ (by rw [hown']; simp)
    have hs := h2 (by simp [Loop.owned])
    have halloc : ∀ e, (t.alloc e).2.get chan = s := by
      intro e
      rw [← hs, FdTable.get_alloc, if_neg]
      rintro rfl
      exact hchan t.lowestFree_spec.1
    simp only [Loop.go]
    cases m with
    | initialization => exact hs
    | syscall nb args ip => exact hs
    | openFile path flags =>
      simp only [serveRequest, proxiedOpenFile]
      by_cases hg : (p.evaluate (.fileOpen path flags)).1 ≠ .granted
      · simp only [if_pos hg]; exact hs
      · simp only [if_neg hg]
        by_cases hz : '\x00' ∈ path
        · simp only [if_pos hz]; exact hs
        · simp only [if_neg hz]
          cases os.openResult with
          | error e => exact hs
          | ok file => exact halloc _

theorem exec_entry [Target] (abi : Abi) (ok : FdTable → Prop) (w w' : Loops) (ls : List LoopStep)
    (hf : Fresh w) (he : LoopsExec abi ok w ls w') (i : Nat) :
    (w'.threads i).chan ∈ (w'.threads i).owned →
      w'.table.get (w'.threads i).chan = w.table.get (w.threads i).chan := by
  induction he with
  | start _ => exact fun _ => rfl
  | recv ls w1 j inc os he hidle hok ih =>
    have inv := exec_inv abi _ w w1 ls (inv_fresh w hf) he
    have fr := receive_frame abi w1.table (w1.threads j) inc os hidle (inv.present j)
    by_cases hj : i = j
    · subst hj
      have hown : (w1.threads i).chan ∈ (w1.threads i).owned := by simp [Loop.owned, hidle]
      have hs := ih hown
      simp only [Loops.put, if_true]
      intro _
      rw [← hs]
      have hopen := inv.present i _ hown
      show ((w1.threads i).receive abi w1.table inc os).1.get (w1.threads i).chan = _
      cases inc with
      | error e => rfl
      | eof => rfl
      | datagram d => exact (installAll_spec _ _).2.2.2 _ hopen
    · simp only [Loops.put, if_neg hj]
      intro hown
      rw [← ih hown, fr.keep _ (inv.present i _ hown) (inv.apart i j hj _ hown)]
  | go ls w1 j he hok ih =>
    have inv := exec_inv abi _ w w1 ls (inv_fresh w hf) he
    have fr := go_frame abi w1.table (w1.threads j) (inv.nodup j) (inv.wf j) (inv.present j)
    by_cases hj : i = j
    · subst hj
      simp only [Loops.put, if_true]
      exact go_entry abi w1.table _ _ (inv.nodup i) (inv.wf i) (inv.present i) ih
    · simp only [Loops.put, if_neg hj]
      intro hown
      rw [← ih hown, fr.keep _ (inv.present i _ hown) (inv.apart i j hj _ hown)]
  | other ls w1 t he hfr hok ih =>
    intro hown
    rw [← ih hown, hfr i _ hown]

/-! ## What each step opens -/

theorem installAll_new (fs : List Nat) : ∀ (t : FdTable) (fd : Nat) (e : FdEntry), t.get fd = none →
    (installAll t fs).1.get fd = some e → e.flags = FD_CLOEXEC ∧ e.file ∈ fs := by
  induction fs with
  | nil => intro t fd e h h'; simp only [installAll] at h'; rw [h] at h'; cases h'
  | cons f fs ih =>
    intro t fd e h h'
    simp only [installAll] at h'
    by_cases hfd : fd = t.lowestFree
    · have hg : (t.alloc ⟨f, FD_CLOEXEC⟩).2.get fd = some ⟨f, FD_CLOEXEC⟩ := by rw [FdTable.get_alloc, if_pos hfd]
      rw [(installAll_spec fs _).2.2.2 fd (by rw [hg]; simp), hg] at h'
      cases h'
      exact ⟨rfl, by simp⟩
    · obtain ⟨h1, h2⟩ := ih _ fd e (by rw [FdTable.get_alloc, if_neg hfd]; exact h) h'
      exact ⟨h1, List.mem_cons_of_mem _ h2⟩

theorem startRecv_new {abi : Abi} {t : FdTable} {os : OsChoice} {inc : Incoming} {fd : Nat} {e : FdEntry}
    (h : t.get fd = none) (h' : (startRecv abi t os inc).1.get fd = some e) :
    e.flags = FD_CLOEXEC ∧ ∃ d, inc = .datagram d ∧ e.file ∈ d.files := by
  cases inc with
  | error => simp only [startRecv] at h'; rw [h] at h'; cases h'
  | eof => simp only [startRecv] at h'; rw [h] at h'; cases h'
  | datagram d =>
    obtain ⟨h1, h2⟩ := installAll_new _ _ _ _ h h'
    exact ⟨h1, d, rfl, List.mem_of_mem_take h2⟩

theorem erase_new {t : FdTable} {n fd : Nat} {e : FdEntry} (h : t.get fd = none) : (t.erase n).get fd ≠ some e := by
  rw [FdTable.get_erase]
  split
  · simp
  · rw [h]; simp

theorem dropHandle_new {t : FdTable} {n : Option Nat} {fd : Nat} {e : FdEntry} (h : t.get fd = none) :
    (dropHandle t n).get fd ≠ some e := by
  cases n with
  | none => simp only [dropHandle]; rw [h]; simp
  | some n => exact erase_new h

theorem recvFinish_new {t : FdTable} {r : RecvMsg} {fds : List Nat} {fd : Nat} {e : FdEntry}
    (hc : r.cmsgs = rightsCmsg fds) (h : t.get fd = none) : (recvFinish decRequest t r).1.get fd ≠ some e := by
  rcases recvFinish_table decRequest t r fds hc with ⟨m, he⟩ | ⟨he, _⟩
  · rw [he]; simp [h]
  · rw [he]; exact dropHandle_new h

theorem two_new {t : FdTable} {a b fd : Nat} {e : FdEntry} (h : t.get fd = none)
    (h' : ((t.alloc ⟨a, 0#32⟩).2.alloc ⟨b, 0#32⟩).2.get fd = some e) : e.flags = 0#32 := by
  rw [two_get] at h'
  split at h'
  · cases h'; rfl
  split at h'
  · cases h'; rfl
  · rw [h] at h'; cases h'

theorem setFd_new {t t' : FdTable} {n fd : Nat} {f : BitVec 32} {e : FdEntry} (hs : sysSetFd t n f = .ok t')
    (h : t.get fd = none) : t'.get fd ≠ some e := by
  unfold sysSetFd at hs
  split at hs
  · rename_i e0 h0
    cases hs
    rw [FdTable.get_set]
    split
    · rename_i hn; subst hn; rw [h] at h0; cases h0
    · rw [h]; simp
  · cases hs

/-- What a step of `Worker::new` opens. -/
theorem create_new {abi : Abi} {t : FdTable} {x : Creation} (ho : PhaseOk t x) {fd : Nat} {e : FdEntry}
    (h : t.get fd = none) (h' : (x.go abi t).1.get fd = some e) :
    e.flags = 0#32 ∨ e.flags = FD_CLOEXEC ∧ ∃ d, x.os.first = .datagram d ∧ e.file ∈ d.files := by
  have no : t.get fd ≠ some e := by rw [h]; simp
  obtain ⟨c, p, caps, os, ph, chd⟩ := x
  cases ph with
  | begin =>
    simp only [Creation.go] at h'
    split at h'
    · exact absurd h' no
    · exact .inl (two_new h h')
  | paired q =>
    simp only [Creation.go] at h'
    split at h' <;> exact absurd h' no
  | marking q f =>
    simp only [Creation.go] at h'
    split at h'
    · exact absurd h' no
    · rename_i hs; exact absurd h' (setFd_new hs h)
  | checking q p left =>
    cases left with
    | nil => exact absurd h' no
    | cons a left =>
      simp only [Creation.go] at h'
      split at h' <;> exact absurd h' no
  | piping =>
    simp only [Creation.go] at h'
    split at h'
    · exact absurd h' no
    · exact .inl (two_new h h')
  | piped q p c r =>
    simp only [Creation.go] at h'
    split at h' <;> exact absurd h' no
  | sealing q p c r f =>
    simp only [Creation.go] at h'
    split at h'
    · exact absurd h' no
    · rename_i hs; exact absurd h' (setFd_new hs h)
  | cloning q p c r =>
    simp only [Creation.go] at h'
    split at h' <;> exact absurd h' no
  | cloned q p r ch => exact absurd h' (erase_new h)
  | reading q p r ch => exact absurd h' no
  | read q p r ch => exact absurd h' (erase_new h)
  | handing q p pid => exact absurd h' (erase_new h)
  | greeting m p pid => exact .inr (startRecv_new h h')
  | greeted m p pid r =>
    cases r with
    | error => exact absurd h' no
    | ok r =>
      obtain ⟨_, _, h3⟩ := ho
      obtain ⟨fds, h4, _⟩ := h3 r rfl
      exact absurd h' (recvFinish_new h4 h)
  | answering m p pid =>
    simp only [Creation.go] at h'
    split at h' <;> exact absurd h' no
  | spawning m p pid => exact absurd h' no
  | failing err left =>
    cases left with
    | nil => exact absurd h' no
    | cons => exact absurd h' (erase_new h)
  | failed => exact absurd h' no
  | served => exact absurd h' no

/-- What a step of a thread serving a worker opens. -/
theorem serve_new [Target] {abi : Abi} {t : FdTable} {th : Loop} (hw : th.Wf) {fd : Nat} {e : FdEntry}
    (h : t.get fd = none) (h' : (th.go abi t).1.get fd = some e) :
    ∃ path flags mode, Action.opened path flags mode ∈ (th.go abi t).2.trace ∧
      e.flags = if flags &&& 0x80000#32 ≠ 0#32 then FD_CLOEXEC else 0#32 := by
  have no : t.get fd ≠ some e := by rw [h]; simp
  obtain ⟨p, chan, phase, trace, socks⟩ := th
  cases phase with
  | idle => exact absurd h' no
  | gone why => exact absurd h' no
  | leaving why => exact absurd h' (erase_new h)
  | closing hd next => exact absurd h' (dropHandle_new h)
  | replying os resp hd =>
    simp only [Loop.go] at h'
    split at h' <;> exact absurd h' no
  | received os r =>
    cases r with
    | error e => exact absurd h' no
    | ok r =>
      obtain ⟨fds, hfds⟩ := hw os r rfl
      exact absurd h' (recvFinish_new hfds h)
  | serving os m =>
    cases m with
    | initialization => exact absurd h' no
    | syscall nb args ip => exact absurd h' no
    | openFile path flags =>
      simp only [Loop.go, serveRequest, proxiedOpenFile] at h' ⊢
      by_cases hg : (p.evaluate (.fileOpen path flags)).1 ≠ .granted
      · simp only [if_pos hg] at h'; exact absurd h' no
      · simp only [if_neg hg] at h' ⊢
        by_cases hz : '\x00' ∈ path
        · simp only [if_pos hz] at h'; exact absurd h' no
        · simp only [if_neg hz] at h' ⊢
          cases hres : os.openResult with
          | error n => rw [hres] at h'; exact absurd h' no
          | ok file =>
            rw [hres] at h'
            refine ⟨path, flags, openMode, by simp, ?_⟩
            simp only at h'
            rw [FdTable.get_alloc] at h'
            split at h'
            · cases h'; rfl
            · exact absurd h' no

theorem go_trace [Target] (abi : Abi) (t : FdTable) (th : Loop) : ∀ a ∈ th.trace, a ∈ (th.go abi t).2.trace := by
  intro a ha
  unfold Loop.go
  split
  all_goals first
    | exact ha
    | (split <;> first | exact ha | exact List.mem_append_left _ ha)

/-- How every descriptor was opened. -/
structure AllOpens (ls : List BrokerEvent) (w : WholeBroker) : Prop where
  step : ∀ j b a, .step j b a ∈ ls → ∃ x, w.calls j = some x ∧ ∀ fd e, Opens b a fd e →
    e.flags = 0#32 ∨ e.flags = FD_CLOEXEC ∧ ∃ d, x.os.first = .datagram d ∧ e.file ∈ d.files
  recv : ∀ j inc os b a, .recv j inc os b a ∈ ls → ∀ fd e, Opens b a fd e →
    e.flags = FD_CLOEXEC ∧ ∃ d, inc = .datagram d ∧ e.file ∈ d.files
  serve : ∀ j b a, .serve j b a ∈ ls → ∃ th, w.threads j = some th ∧ ∀ fd e, Opens b a fd e →
    ∃ path flags mode, Action.opened path flags mode ∈ th.trace ∧
      e.flags = if flags &&& 0x80000#32 ≠ 0#32 then FD_CLOEXEC else 0#32

theorem all_opens [Target] {abi : Abi} {ok : FdTable → Prop} {w w' : WholeBroker} {ls : List BrokerEvent}
    (h : NothingYet w) (he : WholeExec abi ok Declared w ls w') : AllOpens ls w' := by
  induction he with
  | start _ => exact ⟨by simp, by simp, by simp⟩
  | call ls w1 k c p caps os he hk hb ih =>
    refine ⟨fun j b a hm => ?_, fun j inc os b a hm => ?_, fun j b a hm => ?_⟩ <;>
      simp only [List.mem_append, List.mem_singleton, reduceCtorEq, or_false] at hm
    · obtain ⟨x, h1, h2⟩ := ih.step j b a hm
      have hjk : j ≠ k := by rintro rfl; rw [hk] at h1; cases h1
      exact ⟨x, by simp only [WholeBroker.made, if_neg hjk]; exact h1, h2⟩
    · exact ih.recv j inc os b a hm
    · exact ih.serve j b a hm
  | go ls w1 k x he hk hx hokt ih =>
    obtain ⟨hc, hi⟩ := whole_exec h he
    have hok := (exec_creators_inv ⟨h.calls, h.nodup⟩ hc).ok k x hk
    have hnk : w1.threads k = none := by
      cases hth : w1.threads k with
      | none => rfl
      | some th =>
        obtain ⟨y, pid, h1, h2, _⟩ := hi.served k th hth
        rw [hk] at h1; cases h1
        rw [h2] at hx; cases hx
    have hbef := fds_call hk hnk
    have hg := go_ok abi w1.table x hx hi.fd.tab (hbef ▸ hi.fd.nodup k) (hbef ▸ hi.fd.present k) hok
    refine ⟨fun j b a hm => ?_, fun j inc os b a hm => ?_, fun j b a hm => ?_⟩ <;>
      simp only [List.mem_append, List.mem_singleton, reduceCtorEq, or_false] at hm
    · by_cases hjk : j = k
      · subst hjk
        refine ⟨(x.go abi w1.table).2, by simp [WholeBroker.create], fun fd e hop => ?_⟩
        rw [hg.os]
        rcases hm with hm | hm
        · obtain ⟨y, h1, h2⟩ := ih.step j b a hm
          rw [hk] at h1; cases h1
          exact h2 fd e hop
        · cases hm
          exact create_new hok hop.1 hop.2
      · rcases hm with hm | hm
        · obtain ⟨y, h1, h2⟩ := ih.step j b a hm
          exact ⟨y, by simp only [WholeBroker.create, if_neg hjk]; exact h1, h2⟩
        · cases hm; exact absurd rfl hjk
    · exact ih.recv j inc os b a hm
    · obtain ⟨th, h1, h2⟩ := ih.serve j b a hm
      have hjk : j ≠ k := by rintro rfl; rw [hnk] at h1; cases h1
      exact ⟨th, by simp only [WholeBroker.create, if_neg hjk]; exact h1, h2⟩
  | recv ls w1 k th1 inc os he hk hidle hokt ih =>
    refine ⟨fun j b a hm => ?_, fun j inc os b a hm => ?_, fun j b a hm => ?_⟩ <;>
      simp only [List.mem_append, List.mem_singleton, reduceCtorEq, or_false] at hm
    · exact ih.step j b a hm
    · rcases hm with hm | hm
      · exact ih.recv j inc os b a hm
      · cases hm
        exact fun fd e hop => startRecv_new hop.1 hop.2
    · obtain ⟨th, h1, h2⟩ := ih.serve j b a hm
      by_cases hjk : j = k
      · subst hjk
        rw [hk] at h1; cases h1
        exact ⟨(th1.receive abi w1.table inc os).2, by simp [WholeBroker.served], h2⟩
      · exact ⟨th, by simp only [WholeBroker.served, if_neg hjk]; exact h1, h2⟩
  | serve ls w1 k th1 he hk hokt ih =>
    obtain ⟨hc, hi⟩ := whole_exec h he
    refine ⟨fun j b a hm => ?_, fun j inc os b a hm => ?_, fun j b a hm => ?_⟩ <;>
      simp only [List.mem_append, List.mem_singleton, reduceCtorEq, or_false] at hm
    · exact ih.step j b a hm
    · exact ih.recv j inc os b a hm
    · by_cases hjk : j = k
      · subst hjk
        refine ⟨(th1.go abi w1.table).2, by simp [WholeBroker.served], fun fd e hop => ?_⟩
        rcases hm with hm | hm
        · obtain ⟨th, h1, h2⟩ := ih.serve j b a hm
          rw [hk] at h1; cases h1
          obtain ⟨path, flags, mode, h3, h4⟩ := h2 fd e hop
          exact ⟨path, flags, mode, go_trace abi _ _ _ h3, h4⟩
        · cases hm
          exact serve_new (hi.wf j th1 hk) hop.1 hop.2
      · rcases hm with hm | hm
        · obtain ⟨th, h1, h2⟩ := ih.serve j b a hm
          exact ⟨th, by simp only [WholeBroker.served, if_neg hjk]; exact h1, h2⟩
        · cases hm; exact absurd rfl hjk
  | other ls w1 t he hn ho ht hb hokt ih => exact ⟨ih.step, ih.recv, ih.serve⟩

/-! ## The pipe a worker's process reports errors with -/

theorem cloned_from {abi : Abi} {t : FdTable} {x : Creation} {q : ChanEnds} {p : Policy} {r : PipeEnds} {ch : Child}
    (h : (x.go abi t).2.phase = .cloned q p r ch) : (∃ c, x.phase = .cloning q p c r) ∧ (x.go abi t).1 = t := by
  have nf : ∀ err l, CreatePhase.fail err l ≠ .cloned q p r ch := by intro err l; cases l <;> simp [CreatePhase.fail]
  obtain ⟨c, pol, caps, os, ph, chd⟩ := x
  unfold Creation.go at h ⊢
  cases ph with
  | cloning q' p' c' r' =>
    simp only at h ⊢
    split at h
    · simp only at h; exact (nf _ _ h).elim
    · cases h
      exact ⟨⟨_, rfl⟩, rfl⟩
  | checking q' p' left =>
    exfalso
    cases left with
    | nil =>
      simp only [afterChecks] at h
      split at h
      · exact nf _ _ h
      · split at h
        · exact nf _ _ h
        · cases h
    | cons a left => simp only at h; split at h <;> first | exact nf _ _ h | cases h
  | read q' p' rd res => exfalso; cases res <;> simp only [afterRead] at h <;> first | exact nf _ _ h | cases h
  | greeted m p' pid res =>
    exfalso
    cases res with
    | error => simp only at h; exact nf _ _ h
    | ok res =>
      simp only at h
      unfold afterGreeting at h
      split at h <;> first | exact nf _ _ h | cases h
  | spawning m p' pid =>
    exfalso
    simp only at h
    unfold afterSpawn at h
    split at h <;> first | exact nf _ _ h | cases h
  | failing err left => exfalso; cases left <;> simp only at h <;> first | exact nf _ _ h | cases h
  | begin => exfalso; simp only at h; split at h <;> cases h
  | paired => exfalso; simp only at h; split at h <;> first | exact nf _ _ h | cases h
  | marking => exfalso; simp only at h; split at h <;> first | exact nf _ _ h | cases h
  | piping => exfalso; simp only at h; split at h <;> first | exact nf _ _ h | cases h
  | piped => exfalso; simp only at h; split at h <;> first | exact nf _ _ h | cases h
  | sealing => exfalso; simp only at h; split at h <;> first | exact nf _ _ h | cases h
  | answering => exfalso; simp only at h; split at h <;> first | exact nf _ _ h | cases h
  | cloned => cases h
  | reading => cases h
  | handing => cases h
  | greeting => cases h
  | failed => cases h
  | served => cases h

theorem pipe_sealed [Target] {abi : Abi} {ok : FdTable → Prop} {w w' : WholeBroker} {ls : List BrokerEvent}
    (h : NothingYet w) (he : WholeExec abi ok Declared w ls w') (j : Nat) {x : Creation} {q : ChanEnds} {p : Policy}
    {r : PipeEnds} {ch : Child} (hx : w'.calls j = some x) (hph : x.phase = .cloned q p r ch) :
    ∃ f, w'.table.get r.wr = some ⟨f, FD_CLOEXEC⟩ := by
  have mem : ∀ {x : Creation}, x.phase = .cloned q p r ch → r.wr ∈ x.phase.owned := by
    intro x hx; rw [hx]; simp [CreatePhase.owned]
  induction he generalizing x with
  | start _ => rw [h.calls] at hx; cases hx
  | call ls w1 k c p' caps os he hk hb ih =>
    by_cases hjk : j = k
    · subst hjk
      simp only [WholeBroker.made, if_true] at hx
      cases hx
      cases hph
    · simp only [WholeBroker.made, if_neg hjk] at hx
      exact ih hx hph
  | go ls w1 k y he hk hy hokt ih =>
    obtain ⟨hc, hi⟩ := whole_exec h he
    have hok := (exec_creators_inv ⟨h.calls, h.nodup⟩ hc).ok k y hk
    have hnk : w1.threads k = none := by
      cases hth : w1.threads k with
      | none => rfl
      | some th =>
        obtain ⟨y, pid, h1, h2, _⟩ := hi.served k th hth
        rw [hk] at h1; cases h1
        rw [h2] at hy; cases hy
    have hbef := fds_call hk hnk
    have hg := go_ok abi w1.table y hy hi.fd.tab (hbef ▸ hi.fd.nodup k) (hbef ▸ hi.fd.present k) hok
    by_cases hjk : j = k
    · subst hjk
      simp only [WholeBroker.create, if_true] at hx ⊢
      cases hx
      obtain ⟨⟨c, h1⟩, h2⟩ := cloned_from hph
      rw [h2]
      unfold PhaseOk at hok
      rw [h1] at hok
      obtain ⟨_, _, _, f, _, _, h3⟩ := hok
      exact ⟨_, h3⟩
    · simp only [WholeBroker.create, if_neg hjk] at hx ⊢
      have hin := mem_fds_call hx _ (mem hph)
      rw [hg.moves.keep _ (hi.fd.present j _ hin) fun ho => hi.fd.apart j k hjk _ hin (mem_fds_call hk _ ho)]
      exact ih hx hph
  | recv ls w1 k th1 inc os he hk hidle hokt ih =>
    obtain ⟨hc, hi⟩ := whole_exec h he
    obtain ⟨y, pid, g1, g2, g3⟩ := hi.served k th1 hk
    have hb := fds_thread g1 g2 hk
    have hp := hi.fd.present k
    rw [hb] at hp
    obtain ⟨m1, _, _⟩ := receive_moves abi w1.table th1 inc os hidle hp hi.fd.tab
    simp only [WholeBroker.served] at hx ⊢
    have hjk : j ≠ k := by rintro rfl; rw [g1] at hx; cases hx; rw [g2] at hph; cases hph
    have hin := mem_fds_call hx _ (mem hph)
    rw [m1.keep _ (hi.fd.present j _ hin) fun ho => hi.fd.apart j k hjk _ hin (mem_fds_thread hk _ ho)]
    exact ih hx hph
  | serve ls w1 k th1 he hk hokt ih =>
    obtain ⟨hc, hi⟩ := whole_exec h he
    obtain ⟨y, pid, g1, g2, g3⟩ := hi.served k th1 hk
    have hb := fds_thread g1 g2 hk
    have hp := hi.fd.present k
    have hnd := hi.fd.nodup k
    rw [hb] at hp hnd
    obtain ⟨m1, _, _⟩ := go_moves abi w1.table th1 hnd (hi.wf k th1 hk) hp hi.fd.tab
    simp only [WholeBroker.served] at hx ⊢
    have hjk : j ≠ k := by rintro rfl; rw [g1] at hx; cases hx; rw [g2] at hph; cases hph
    have hin := mem_fds_call hx _ (mem hph)
    rw [m1.keep _ (hi.fd.present j _ hin) fun ho => hi.fd.apart j k hjk _ hin (mem_fds_thread hk _ ho)]
    exact ih hx hph
  | other ls w1 t he hn ho ht hb hokt ih =>
    simp only at hx ⊢
    rw [ho j x hx _ (mem hph)]
    exact ih hx hph

end Iris
