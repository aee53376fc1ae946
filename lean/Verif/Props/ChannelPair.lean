import Verif.Lemmas.ChannelPair
import Verif.Props.Channel
/-! # C114: both ends of a channel, over any history of any number of processes -/
namespace Iris

/-- C114, full statement: whatever the processes do, what arrives at one end of a channel is what was
sent at the other end, each message once, in order, with its handle; and `recv` says that the channel
has ended only if everything sent has arrived and nobody can send any more. -/
def Spec.ChannelReliable (abi : Abi) : Prop :=
  ∀ (s0 s : SockNet) (evs : List ChanEvent) (a b : Nat), Spec.BeforeChannels s0 → ChanRun abi s0 evs s →
    Spec.Pair evs a b →
    Spec.InOrder (Spec.sentOn evs a) (Spec.receivedOn evs b) ∧
    ((∃ ev, evs.getLast? = some ev ∧ Spec.SaysEnded ev b) →
      (Spec.receivedOn evs b).length = (Spec.sentOn evs a).length ∧ ¬ s.Live a)

/-- C114 when no message is serialized into zero bytes, which holds of every message of the broker and
the worker (C26_no_empty_message). Missing from the full statement: types which serialize into nothing,
such as `()`. -/
theorem C114_reliable_partial (abi : Abi) (s0 s : SockNet) (evs : List ChanEvent) (a b : Nat)
    (h0 : Spec.BeforeChannels s0) (hr : ChanRun abi s0 evs s) (hp : Spec.Pair evs a b)
    (hne : ∀ f, ∀ m ∈ Spec.sentOn evs f, m.1 ≠ []) :
    Spec.InOrder (Spec.sentOn evs a) (Spec.receivedOn evs b) ∧
    ((∃ ev, evs.getLast? = some ev ∧ Spec.SaysEnded ev b) →
      (Spec.receivedOn evs b).length = (Spec.sentOn evs a).length ∧ ¬ s.Live a) := by
  have hi : ChanInv evs s := ChanInv.run hr h0 hne
  constructor
  · obtain ⟨k, hk, hpe⟩ := hi.pair hp
    obtain ⟨taken, h1, h2, h3⟩ := hi.flow b k hk
    rw [hpe] at h1
    rw [h1]
    refine ⟨by rw [h2, List.length_append]; omega, fun p hz => h3 p ?_⟩
    have hz' : (Spec.receivedOn evs b).zip (taken ++ k.queue.map Datagram.message) =
        (Spec.receivedOn evs b).zip taken := by
      have := List.zip_append (l₁ := Spec.receivedOn evs b) (r₁ := []) (l₂ := taken)
        (r₂ := k.queue.map Datagram.message) h2
      simpa using this
    rwa [hz'] at hz
  · rintro ⟨ev, hlast, hend⟩
    cases hr with
    | nil => simp at hlast
    | snoc hrun hst =>
      rename_i s1 evs ev'
      have hlast' : ev' = ev := by simpa using hlast
      subst hlast'
      have hi1 : ChanInv evs s1 := ChanInv.run hrun h0 (NoEmpty.init hne)
      obtain ⟨k, hk, hpe⟩ := hi.pair hp
      obtain ⟨taken, h1, h2, h3⟩ := hi.flow b k hk
      cases hst with
      | create pid fails => exact absurd hend (by simp [Spec.SaysEnded])
      | send => exact absurd hend (by simp [Spec.SaysEnded])
      | recv pid fd e k' dec cap ci d rest he hk' hq =>
        have hd : d.data ≠ [] := NoEmpty.init hne _ _ (hi1.queue_sent hk' (by rw [hq]; simp))
        have ha := ((channelRecv_datagram abi dec cap ci (s1.tables pid) d).2 hd).1
        simp only [Spec.SaysEnded] at hend
        split at hend
        · rename_i heq
          injection heq with _ h2 _ _ h5
          subst h2
          rw [eq_of_heq h5] at ha
          cases ha
        · exact absurd hend id
      | eof pid fd e k' dec cap ci he hk' hq hdead =>
        have hb : e.file = b := hend
        rw [hb, hk] at hk'
        cases hk'
        rw [hpe] at h1 hdead
        refine ⟨?_, hdead⟩
        rw [h1, hq, h2]; simp
      | recvFails => exact absurd hend (by simp [Spec.SaysEnded, channelRecv])
      | other => exact absurd hend (by simp [Spec.SaysEnded])

/-- C114. The end of a channel is final: once nobody keeps an end, whatever happens, no `send` on it ever
happens again. -/
theorem C114_end_is_final (abi : Abi) (s0 s s' : SockNet) (evs more : List ChanEvent) (a b : Nat)
    (h0 : Spec.BeforeChannels s0) (hr : ChanRun abi s0 evs s) (hp : Spec.Pair evs a b)
    (hne : ∀ f, ∀ m ∈ Spec.sentOn evs f, m.1 ≠ [])
    (hend : ∃ ev, evs.getLast? = some ev ∧ Spec.SaysEnded ev b) (hr' : ChanRun abi s more s') :
    Spec.sentOn more a = [] ∧ ¬ s'.Live a := by
  have hi : ChanInv evs s := ChanInv.run hr h0 hne
  have hdead := ((C114_reliable_partial abi s0 s evs a b h0 hr hp hne).2 hend).2
  obtain ⟨k, hk, hpe⟩ := hi.pair hp
  obtain ⟨_, k', hk', _⟩ := hi.peers b k hk
  rw [hpe] at hk'
  have hsi : SockInv s := ⟨hi.live, hi.sock, fun f k hk => by
    obtain ⟨_, k2, hk2, _⟩ := hi.peers f k hk
    exact hi.sock _ _ hk2⟩
  obtain ⟨_, _, h3, h4⟩ := dead_run hr' hsi (hi.sock a k' hk') hdead
  refine ⟨?_, h3⟩
  simp only [Spec.sentOn, List.filterMap_eq_nil_iff]
  intro ev hev
  split
  · rename_i f bytes file
    rw [if_neg]
    rintro rfl
    exact h4 _ _ _ hev
  · rfl

/-- C114. `IpcChannel::new` gives two new descriptors, on two files nobody had, each the other end of the
other, with nothing waiting; nothing else changes. If it fails nothing changes at all. -/
theorem C114_new_channel (s : SockNet) (pid : Nat)
    (hi : ∀ f, s.Live f → f < s.next) :
    (∃ s' fd0 fd1 a b, channelPairNew s pid none = (s', .ok (fd0, fd1)) ∧ fd0 ≠ fd1 ∧ a ≠ b ∧
      ¬ s.Live a ∧ ¬ s.Live b ∧
      (s.tables pid).get fd0 = none ∧ (s.tables pid).get fd1 = none ∧
      (s'.tables pid).get fd0 = some ⟨a, 0#32⟩ ∧ (s'.tables pid).get fd1 = some ⟨b, 0#32⟩ ∧
      s'.socks a = some ⟨b, []⟩ ∧ s'.socks b = some ⟨a, []⟩ ∧
      (∀ fd, fd ≠ fd0 → fd ≠ fd1 → (s'.tables pid).get fd = (s.tables pid).get fd) ∧
      (∀ p, p ≠ pid → s'.tables p = s.tables p) ∧
      (∀ f, f ≠ a → f ≠ b → s'.socks f = s.socks f)) ∧
    ∀ e, channelPairNew s pid (some e) =
      (s, .error (.internalOsOperationFailed c!"socketpair() failed" e)) := by
  obtain ⟨hn, hs, ht, fd0, fd1, hok, hne, hf0, hf1, h0, h1, hrest⟩ := channelPairNew_ok s pid
  refine ⟨⟨(channelPairNew s pid none).1, fd0, fd1, s.next, s.next + 1, ?_, hne, by omega,
    fun hc => Nat.lt_irrefl _ (hi _ hc), fun hc => ?_, hf0, hf1, h0, h1, ?_, ?_, hrest, ht, ?_⟩,
    fun e => rfl⟩
  · rw [← hok]
  · have := hi _ hc; omega
  · rw [hs, if_neg (by omega), if_pos rfl]
  · rw [hs, if_pos rfl]
  · intro f hfa hfb
    rw [hs, if_neg hfb, if_neg hfa]

/-- C114. A message that was accepted and has not arrived yet does not get lost: any process that has the
other end can receive it now, whatever happened before. -/
theorem C114_next_can_arrive (abi : Abi) (s0 s : SockNet) (evs : List ChanEvent) (a b : Nat)
    (h0 : Spec.BeforeChannels s0) (hr : ChanRun abi s0 evs s) (hp : Spec.Pair evs a b)
    (hne : ∀ f, ∀ m ∈ Spec.sentOn evs f, m.1 ≠ []) (m : Bytes × Option Nat)
    (hm : (Spec.sentOn evs a)[(Spec.receivedOn evs b).length]? = some m)
    (pid fd : Nat) (e : FdEntry) (he : (s.tables pid).get fd = some e) (hb : e.file = b)
    {α : Type} (dec : Parser α) (cap : Nat) :
    ∃ result s', ChanStep abi s (.received b dec cap result) s' ∧
      (Spec.Receipt.mk dec cap result).arrived = true ∧ (Spec.Receipt.mk dec cap result).About m := by
  have hi : ChanInv evs s := ChanInv.run hr h0 hne
  obtain ⟨k, hk, hpe⟩ := hi.pair hp
  obtain ⟨taken, h1, h2, _⟩ := hi.flow b k hk
  rw [hpe] at h1
  rw [h1, h2] at hm
  cases hq : k.queue with
  | nil => rw [hq] at hm; simp at hm
  | cons d rest =>
    rw [hq] at hm
    have hmd : d.message = m := by simpa using hm
    subst hmd hb
    have hd : d.data ≠ [] := hne _ _ (hi.queue_sent hk (by rw [hq]; simp))
    obtain ⟨ha, hab⟩ := (channelRecv_datagram abi dec cap 2 (s.tables pid) d).2 hd
    exact ⟨_, _, .recv s pid fd e k dec cap 2 d rest he hk hq, ha, hab⟩

/-! ## Concrete histories -/

/-- Process 1 has two files open; no channel yet. -/
def pairStart : SockNet :=
  ⟨fun p => if p = 1 then [(0, ⟨5, 0#32⟩), (7, ⟨6, 0#32⟩)] else [], fun _ => none, 10⟩
/-- It creates a channel: descriptors 1 and 2, on files 10 and 11. -/
def pairCreated : SockNet := (channelPairNew pairStart 1 none).1

theorem pairStart_ok : Spec.BeforeChannels pairStart := by
  refine ⟨fun _ => rfl, ?_⟩
  intro pid fd e he
  by_cases hp : pid = 1
  · subst hp
    simp only [pairStart, if_true, FdTable.get] at he
    split at he
    · cases he; decide
    · split at he
      · cases he; decide
      · cases he
  · simp only [pairStart, if_neg hp, FdTable.get] at he
    cases he

/-- Create, send a message with the handle 7, receive it: the message arrives with a descriptor on
the same file, and the hypotheses of C114_reliable_partial are met. -/
theorem pairDemo : ∃ (evs : List ChanEvent) (s : SockNet), ChanRun .lp64 pairStart evs s ∧
    Spec.Pair evs 10 11 ∧ Spec.sentOn evs 10 = [([0], some 6)] ∧
    Spec.receivedOn evs 11 = [⟨decRequest, 100, .ok (some (.initialization, some 6))⟩] ∧
    ∀ f, ∀ m ∈ Spec.sentOn evs f, m.1 ≠ [] := by
  have h1 : ChanStep .lp64 pairStart (.created (some (10, 11))) pairCreated :=
    .create pairStart 1 none
  have h2 := ChanStep.send (abi := .lp64) pairCreated 1 1 ⟨10, 0#32⟩ ⟨11, []⟩ (some [0]) (some 7) none
    (by decide +kernel) (by decide +kernel) (by intro h hh; cases hh; decide)
    (fun _ => .held 1 2 ⟨11, 0#32⟩ (by decide +kernel))
  have hs : channelSend .lp64 (pairCreated.tables 1) (some [0]) (some 7) none = .ok ⟨[0], [6, 5]⟩ := by
    decide +kernel
  have hp : pairCreated.socks 11 = some ⟨10, []⟩ := by decide +kernel
  have hf : (((some 7 : Option Nat).bind fun h => ((pairCreated.tables 1).get h).map FdEntry.file)) =
      some 6 := by decide +kernel
  rw [hs, hf] at h2
  simp only [hp, Except.map, List.nil_append] at h2
  have h3 := ChanStep.recv (abi := .lp64) (pairCreated.setSock 11 ⟨10, [⟨[0], [6, 5]⟩]⟩) 1 2 ⟨11, 0#32⟩
    ⟨10, [⟨[0], [6, 5]⟩]⟩ decRequest 100 9 ⟨[0], [6, 5]⟩ [] (by decide +kernel) (by decide +kernel) rfl
  have hr : onFile (channelRecv .lp64 decRequest 100 9
        ((pairCreated.setSock 11 ⟨10, [⟨[0], [6, 5]⟩]⟩).tables 1) (.datagram ⟨[0], [6, 5]⟩)).1
      (channelRecv .lp64 decRequest 100 9
        ((pairCreated.setSock 11 ⟨10, [⟨[0], [6, 5]⟩]⟩).tables 1) (.datagram ⟨[0], [6, 5]⟩)).2 =
      .ok (some (.initialization, some 6)) := by decide +kernel
  rw [hr] at h3
  refine ⟨_, _, .snoc (.snoc (.snoc (.nil _) h1) h2) h3, .inl (by simp), by simp [Spec.sentOn], ?_, ?_⟩
  · simp [Spec.receivedOn, Spec.Receipt.arrived]
  · intro f m hm
    simp only [Spec.sentOn, List.nil_append, List.cons_append, List.filterMap_cons,
      List.filterMap_nil] at hm
    split at hm
    · simp at hm
    · rename_i hq
      split at hq
      · cases hq; simp at hm; subst hm; simp
      · cases hq

/-- C114 is false in general: the value `()` serializes into no bytes, `send` accepts it, and `recv`
reports the end of the channel although the other end is open and another message follows; that one
is then received in its place. -/
theorem C114_violated : ¬ Spec.ChannelReliable .lp64 := by
  intro hall
  have h1 : ChanStep .lp64 pairStart (.created (some (10, 11))) pairCreated :=
    .create pairStart 1 none
  have h2 := ChanStep.send (abi := .lp64) pairCreated 1 1 ⟨10, 0#32⟩ ⟨11, []⟩ (some []) none none
    (by decide +kernel) (by decide +kernel) (by intro h hh; cases hh)
    (fun _ => .held 1 2 ⟨11, 0#32⟩ (by decide +kernel))
  have hs : channelSend .lp64 (pairCreated.tables 1) (some []) none none = .ok ⟨[], []⟩ := by
    decide +kernel
  have hp : pairCreated.socks 11 = some ⟨10, []⟩ := by decide +kernel
  rw [hs] at h2
  simp only [hp, Except.map, List.nil_append] at h2
  have h3 := ChanStep.recv (abi := .lp64) (pairCreated.setSock 11 ⟨10, [⟨[], []⟩]⟩) 1 2 ⟨11, 0#32⟩
    ⟨10, [⟨[], []⟩]⟩ decRequest 100 9 ⟨[], []⟩ [] (by decide +kernel) (by decide +kernel) rfl
  have hr : onFile (channelRecv .lp64 decRequest 100 9
        ((pairCreated.setSock 11 ⟨10, [⟨[], []⟩]⟩).tables 1) (.datagram ⟨[], []⟩)).1
      (channelRecv .lp64 decRequest 100 9
        ((pairCreated.setSock 11 ⟨10, [⟨[], []⟩]⟩).tables 1) (.datagram ⟨[], []⟩)).2 =
      .ok none := by decide +kernel
  rw [hr] at h3
  have := (hall pairStart _ _ 10 11 pairStart_ok (.snoc (.snoc (.snoc (.nil _) h1) h2) h3)
    (.inl (by simp))).2 ⟨.received 11 decRequest 100 (.ok none), by simp, rfl⟩
  refine this.2 (.held 1 1 ⟨10, 0#32⟩ ?_)
  decide +kernel

example : Spec.Receipt.About ⟨decRequest, 100, .ok (some (.initialization, some 6))⟩ ([0], some 6) :=
  ⟨by decide +kernel, rfl, by decide⟩

/-- After process 1 has closed its first end. -/
def pairClosed : SockNet :=
  { pairCreated with
    tables := fun p => if p = 1 then [(2, ⟨11, 0#32⟩), (0, ⟨5, 0#32⟩), (7, ⟨6, 0#32⟩)] else [] }

theorem pairClosed_dead : ¬ pairClosed.Live 10 := by
  have key : ∀ f, pairClosed.Live f → f ≠ 10 := by
    intro f hf
    cases hf with
    | held pid fd e he =>
      by_cases hp : pid = 1
      · subst hp
        simp only [pairClosed, if_true, FdTable.get] at he
        split at he
        · cases he; decide
        · split at he
          · cases he; decide
          · split at he
            · cases he; decide
            · cases he
      · simp only [pairClosed, if_neg hp, FdTable.get] at he
        cases he
    | queued f k d g _ hk hd hg =>
      have hs : pairClosed.socks f = if f = 11 then some ⟨10, []⟩ else
          if f = 10 then some ⟨11, []⟩ else none := rfl
      rw [hs] at hk
      split at hk
      · cases hk; simp at hd
      · split at hk
        · cases hk; simp at hd
        · cases hk
  exact fun h => key 10 h rfl

/-- A history meeting the hypotheses of C114_end_is_final: create, close one end, `recv` on the other
says the channel has ended. -/
example : ∃ (evs : List ChanEvent) (s : SockNet), ChanRun .lp64 pairStart evs s ∧ Spec.Pair evs 10 11 ∧
    (∀ f, ∀ m ∈ Spec.sentOn evs f, m.1 ≠ []) ∧
    ∃ ev, evs.getLast? = some ev ∧ Spec.SaysEnded ev 11 := by
  have h1 : ChanStep .lp64 pairStart (.created (some (10, 11))) pairCreated :=
    .create pairStart 1 none
  have h2 : ChanStep .lp64 pairCreated .other pairClosed := by
    refine .other pairCreated pairClosed.tables 12 (by decide) ?_
    intro pid fd e he
    left
    by_cases hp : pid = 1
    · subst hp
      simp only [pairClosed, if_true, FdTable.get] at he
      split at he
      · cases he; exact .held 1 2 ⟨11, 0#32⟩ (by decide +kernel)
      · split at he
        · cases he; exact .held 1 0 ⟨5, 0#32⟩ (by decide +kernel)
        · split at he
          · cases he; exact .held 1 7 ⟨6, 0#32⟩ (by decide +kernel)
          · cases he
    · simp only [pairClosed, if_neg hp, FdTable.get] at he
      cases he
  have h3 := ChanStep.eof (abi := .lp64) pairClosed 1 2 ⟨11, 0#32⟩ ⟨10, []⟩ decRequest 100 9
    (by decide +kernel) (by decide +kernel) rfl pairClosed_dead
  refine ⟨_, _, .snoc (.snoc (.snoc (.nil _) h1) h2) h3, .inl (by simp), ?_,
    .received 11 decRequest 100 (.ok none), by simp; rfl, rfl⟩
  intro f m hm
  simp [Spec.sentOn] at hm

end Iris
