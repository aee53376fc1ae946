import Verif.Spec.ChannelPair
import Verif.Lemmas.Concurrent
/-! Helper lemmas about both ends of a channel (C114). -/
namespace Iris

/-! ## What one call does -/

theorem lookupFds_files {t : FdTable} {fds files : List Nat} (h : lookupFds t fds = .ok files) :
    ∀ f ∈ files, ∃ fd e, t.get fd = some e ∧ e.file = f := by
  induction fds generalizing files with
  | nil => simp only [lookupFds, Except.ok.injEq] at h; subst h; simp
  | cons fd fds ih =>
    simp only [lookupFds] at h
    split at h
    · cases h
    · rename_i e he
      cases hl : lookupFds t fds with
      | error x => rw [hl] at h; simp [Except.map] at h
      | ok l =>
        rw [hl] at h
        simp only [Except.map, Except.ok.injEq] at h
        subst h
        intro f hf
        rcases List.mem_cons.1 hf with rfl | hf
        · exact ⟨fd, e, he, rfl⟩
        · exact ih hl f hf

/-- What `send` puts on the socket: the bytes, the file of the handle first, and only files of the
sender. -/
theorem channelSend_ok {abi : Abi} {t : FdTable} {encoded : Option Bytes} {handle fails : Option Nat}
    {d : Datagram} (hh : ∀ h, handle = some h → h < 2 ^ 31)
    (h : channelSend abi t encoded handle fails = .ok d) :
    encoded = some d.data ∧ fails = none ∧
      d.files.head? = (handle.bind fun h => (t.get h).map FdEntry.file) ∧
      ∀ f ∈ d.files, ∃ fd e, t.get fd = some e ∧ e.file = f := by
  simp only [channelSend] at h
  cases encoded with
  | none => simp at h
  | some data =>
    cases fails with
    | some e => simp at h
    | none =>
      simp only [sysSendmsg] at h
      cases handle with
      | none =>
        simp only [scmSend, List.length_nil] at h
        rw [if_pos (by cases abi <;> decide)] at h
        simp only [Except.map, Except.ok.injEq] at h
        subst h
        simp
      | some fd =>
        have hfd := hh fd rfl
        have key : ∃ fds, scmSend abi t (buildControl abi fd) = lookupFds t (fd :: fds) := by
          cases abi with
          | lp64 => exact ⟨[0], scmSend_lp64 t fd (by omega)⟩
          | ilp32 => exact ⟨[], scmSend_ilp32 t fd (by omega)⟩
        obtain ⟨fds, key⟩ := key
        simp only [key] at h
        cases hl : lookupFds t (fd :: fds) with
        | error x => rw [hl] at h; simp [Except.map] at h
        | ok files =>
          rw [hl] at h
          simp only [Except.map, Except.ok.injEq] at h
          subst h
          refine ⟨rfl, rfl, ?_, lookupFds_files hl⟩
          simp only [lookupFds] at hl
          split at hl
          · cases hl
          · rename_i e he
            cases hl2 : lookupFds t fds with
            | error x => rw [hl2] at hl; simp [Except.map] at hl
            | ok l =>
              rw [hl2] at hl
              simp only [Except.map, Except.ok.injEq] at hl
              subst hl
              simp [he]

/-- The descriptors installed are on the files received. -/
theorem installAll_files (fs : List Nat) : ∀ (t : FdTable),
    (∀ fd e, (installAll t fs).1.get fd = some e → t.get fd = some e ∨ e.file ∈ fs) ∧
    ((installAll t fs).2.head?.bind fun fd => ((installAll t fs).1.get fd).map FdEntry.file) =
      fs.head? := by
  induction fs with
  | nil => intro t; exact ⟨fun fd e h => .inl h, rfl⟩
  | cons f fs ih =>
    intro t
    simp only [installAll]
    obtain ⟨h1, _⟩ := ih (t.alloc ⟨f, FD_CLOEXEC⟩).2
    obtain ⟨_, _, _, h4⟩ := installAll_spec fs (t.alloc ⟨f, FD_CLOEXEC⟩).2
    have hg : (t.alloc ⟨f, FD_CLOEXEC⟩).2.get (t.alloc ⟨f, FD_CLOEXEC⟩).1 = some ⟨f, FD_CLOEXEC⟩ := by
      rw [FdTable.get_alloc]; exact if_pos rfl
    refine ⟨fun fd e h => ?_, ?_⟩
    · rcases h1 fd e h with h | h
      · rw [FdTable.get_alloc] at h
        split at h
        · cases h; exact .inr (by simp)
        · exact .inl h
      · exact .inr (by simp [h])
    · simp only [List.head?_cons, Option.bind_some]
      rw [h4 _ (by rw [hg]; simp), hg]; rfl

theorem get_dropHandle_sub (t : FdTable) (h : Option Nat) (fd : Nat) (e : FdEntry)
    (hg : (dropHandle t h).get fd = some e) : t.get fd = some e := by
  cases h with
  | none => exact hg
  | some n =>
    simp only [dropHandle, FdTable.get_erase] at hg
    split at hg
    · cases hg
    · exact hg

/-- `recv` of a datagram in terms of the descriptors installed. -/
theorem channelRecv_eq {α : Type} (abi : Abi) (dec : Parser α) (cap k : Nat) (t t' : FdTable)
    (fds : List Nat) (d : Datagram)
    (hi : installAll t (d.files.take (min k (maxFds abi (CMSG_SIZE abi)))) = (t', fds)) :
    channelRecv abi dec cap k t (.datagram d) =
      if fds.length < d.files.length ∨ cap < d.data.length then
        (dropHandle t' fds.head?, .error (.payloadTooBigToTransmit (d.data.take cap)))
      else if d.data.length = 0 then (dropHandle t' fds.head?, .ok none)
      else match deserialize dec d.data with
        | none => (dropHandle t' fds.head?, .error (.internalDeserializationError d.data))
        | some m => (t', .ok (some (m, fds.head?))) := by
  simp only [channelRecv, sysRecvmsg, hi, recvFinish, recvCmsgs_rights, Bool.or_eq_true,
    decide_eq_true_eq]
  by_cases hf : fds.length < d.files.length ∨ cap < d.data.length
  · rw [if_pos hf, if_pos hf]
  · rw [if_neg hf, if_neg hf, List.take_of_length_le (by omega)]
    split
    · rfl
    · cases deserialize dec d.data <;> rfl

/-- What `recv` makes of a datagram, and the files of the receiver afterwards. -/
theorem channelRecv_datagram {α : Type} (abi : Abi) (dec : Parser α) (cap k : Nat) (t : FdTable)
    (d : Datagram) :
    (∀ fd e, (channelRecv abi dec cap k t (.datagram d)).1.get fd = some e →
      t.get fd = some e ∨ e.file ∈ d.files) ∧
    (d.data ≠ [] →
      (Spec.Receipt.mk dec cap (onFile (channelRecv abi dec cap k t (.datagram d)).1
          (channelRecv abi dec cap k t (.datagram d)).2)).arrived = true ∧
      (Spec.Receipt.mk dec cap (onFile (channelRecv abi dec cap k t (.datagram d)).1
          (channelRecv abi dec cap k t (.datagram d)).2)).About (d.data, d.files.head?)) := by
  obtain ⟨hi1, hi2⟩ := installAll_files (d.files.take (min k (maxFds abi (CMSG_SIZE abi)))) t
  obtain ⟨_, hlen, _, _⟩ := installAll_spec (d.files.take (min k (maxFds abi (CMSG_SIZE abi)))) t
  cases hi : installAll t (d.files.take (min k (maxFds abi (CMSG_SIZE abi)))) with
  | mk t' fds =>
  rw [hi] at hi1 hi2 hlen
  have hi1' : ∀ fd e, t'.get fd = some e → t.get fd = some e ∨ e.file ∈ d.files :=
    fun fd e h => (hi1 fd e h).imp id List.mem_of_mem_take
  rw [channelRecv_eq abi dec cap k t t' fds d hi]
  by_cases hf : fds.length < d.files.length ∨ cap < d.data.length
  · rw [if_pos hf]
    refine ⟨fun fd e h => hi1' fd e (get_dropHandle_sub _ _ _ _ h), fun _ => ⟨rfl, rfl, ?_⟩⟩
    rcases hf with hf | hf
    · refine .inr ?_
      intro hc
      rw [List.head?_eq_none_iff] at hc
      simp [hc] at hf
    · exact .inl hf
  · rw [if_neg hf]
    have hall : d.files.take (min k (maxFds abi (CMSG_SIZE abi))) = d.files := by
      apply List.take_of_length_le
      simp only [List.length_take] at hlen
      omega
    rw [hall] at hi2
    by_cases hz : d.data.length = 0
    · rw [if_pos hz]
      exact ⟨fun fd e h => hi1' fd e (get_dropHandle_sub _ _ _ _ h),
        fun h => absurd (List.length_eq_zero_iff.1 hz) h⟩
    · rw [if_neg hz]
      cases hd : deserialize dec d.data with
      | none =>
        exact ⟨fun fd e h => hi1' fd e (get_dropHandle_sub _ _ _ _ h),
          fun _ => ⟨rfl, rfl, hd, Nat.le_of_not_lt fun h => hf (.inr h)⟩⟩
      | some m => exact ⟨hi1', fun _ => ⟨rfl, hd, hi2, Nat.le_of_not_lt fun h => hf (.inr h)⟩⟩

/-! ## Which files are kept -/

theorem live_step {s s' : SockNet} (hsock : ∀ f k, s.socks f = some k → f < s.next)
    (h1 : ∀ pid fd e, (s'.tables pid).get fd = some e →
      s.Live e.file ∨ (s.next ≤ e.file ∧ e.file < s'.next))
    (h2 : ∀ f k d g, s'.socks f = some k → d ∈ k.queue → g ∈ d.files →
      s.Live g ∨ ∃ k0, s.socks f = some k0 ∧ d ∈ k0.queue) :
    ∀ f, s'.Live f → s.Live f ∨ (s.next ≤ f ∧ f < s'.next) := by
  intro f hf
  induction hf with
  | held pid fd e he => exact h1 pid fd e he
  | queued f k d g _ hk hd hg ih =>
    rcases h2 f k d g hk hd hg with h | ⟨k0, hk0, hd0⟩
    · exact .inl h
    · rcases ih with ih | ih
      · exact .inl (.queued f k0 d g ih hk0 hd0 hg)
      · have := hsock f k0 hk0; omega

theorem setTable_get (s : SockNet) (pid p : Nat) (t : FdTable) :
    (s.setTable pid t).tables p = if p = pid then t else s.tables p := rfl

theorem setSock_get (s : SockNet) (f g : Nat) (k : Sock) :
    (s.setSock f k).socks g = if g = f then some k else s.socks g := rfl

/-- The state after `socketpair`. -/
theorem channelPairNew_ok (s : SockNet) (pid : Nat) :
    ((channelPairNew s pid none).1.next = s.next + 2) ∧
    (∀ f, (channelPairNew s pid none).1.socks f =
      if f = s.next + 1 then some ⟨s.next, []⟩ else if f = s.next then some ⟨s.next + 1, []⟩
      else s.socks f) ∧
    (∀ p, p ≠ pid → (channelPairNew s pid none).1.tables p = s.tables p) ∧
    ∃ fd0 fd1, (channelPairNew s pid none).2 = .ok (fd0, fd1) ∧ fd0 ≠ fd1 ∧
      (s.tables pid).get fd0 = none ∧ (s.tables pid).get fd1 = none ∧
      ((channelPairNew s pid none).1.tables pid).get fd0 = some ⟨s.next, 0#32⟩ ∧
      ((channelPairNew s pid none).1.tables pid).get fd1 = some ⟨s.next + 1, 0#32⟩ ∧
      ∀ fd, fd ≠ fd0 → fd ≠ fd1 →
        ((channelPairNew s pid none).1.tables pid).get fd = (s.tables pid).get fd := by
  refine ⟨rfl, fun f => rfl, fun p hp => if_neg hp, ?_⟩
  have ht : (channelPairNew s pid none).1.tables pid =
      (((s.tables pid).alloc ⟨s.next, 0#32⟩).2.alloc ⟨s.next + 1, 0#32⟩).2 := if_pos rfl
  rw [ht]
  have hfree := ((s.tables pid).alloc ⟨s.next, 0#32⟩).2.lowestFree_spec.1
  rw [FdTable.get_alloc] at hfree
  have hnn : ((s.tables pid).alloc ⟨s.next, 0#32⟩).2.lowestFree ≠ (s.tables pid).lowestFree := by
    intro hc; simp [hc] at hfree
  rw [if_neg hnn] at hfree
  refine ⟨(s.tables pid).lowestFree, ((s.tables pid).alloc ⟨s.next, 0#32⟩).2.lowestFree, rfl,
    Ne.symm hnn, (s.tables pid).lowestFree_spec.1, hfree, ?_, ?_, ?_⟩
  · rw [FdTable.get_alloc, if_neg (Ne.symm hnn), FdTable.get_alloc, if_pos rfl]
  · rw [FdTable.get_alloc, if_pos rfl]
  · intro fd h0 h1
    rw [FdTable.get_alloc, if_neg h1, FdTable.get_alloc, if_neg h0]

/-- No step brings back a file nobody keeps. -/
theorem ChanStep.live {abi : Abi} {s s' : SockNet} {ev : ChanEvent} (h : ChanStep abi s ev s')
    (hsock : ∀ f k, s.socks f = some k → f < s.next) :
    s.next ≤ s'.next ∧ ∀ f, s'.Live f → s.Live f ∨ (s.next ≤ f ∧ f < s'.next) := by
  have same : ∀ s0 : SockNet, (∀ f k, s0.socks f = some k → f < s0.next) →
      ∀ f, s0.Live f → s0.Live f ∨ (s0.next ≤ f ∧ f < s0.next) := fun _ _ f hf => .inl hf
  cases h with
  | create pid fails =>
    cases fails with
    | some e => exact ⟨Nat.le_refl _, same _ hsock⟩
    | none =>
      obtain ⟨hn, hs, ht, fd0, fd1, _, _, _, _, h0, h1, hr⟩ := channelPairNew_ok s pid
      refine ⟨by omega, live_step hsock ?_ ?_⟩
      · intro p fd e he
        by_cases hp : p = pid
        · subst hp
          by_cases hf0 : fd = fd0
          · subst hf0; rw [h0] at he; cases he; right; simp only; omega
          · by_cases hf1 : fd = fd1
            · subst hf1; rw [h1] at he; cases he; right; simp only; omega
            · rw [hr fd hf0 hf1] at he; exact .inl (.held p fd e he)
        · rw [ht p hp] at he; exact .inl (.held p fd e he)
      · intro f k d g hk hd hg
        rw [hs] at hk
        split at hk
        · cases hk; simp at hd
        · split at hk
          · cases hk; simp at hd
          · exact .inr ⟨k, hk, hd⟩
  | send pid fd e k encoded handle fails he hk hh hp =>
    split
    · rename_i d p hc hpk
      obtain ⟨_, _, _, hfiles⟩ := channelSend_ok hh hc
      refine ⟨Nat.le_refl _, live_step hsock (fun p fd e he => .inl (.held p fd e he)) ?_⟩
      intro f k' d' g hk' hd' hg
      rw [setSock_get] at hk'
      split at hk'
      · rename_i hf
        cases hk'
        rcases List.mem_append.1 hd' with hd' | hd'
        · exact .inr ⟨p, by rw [hf]; exact hpk, hd'⟩
        · simp only [List.mem_singleton] at hd'
          subst hd'
          obtain ⟨fd', e', he', hf'⟩ := hfiles g hg
          exact .inl (hf' ▸ .held pid fd' e' he')
      · exact .inr ⟨k', hk', hd'⟩
    · exact ⟨Nat.le_refl _, same _ hsock⟩
  | recv pid fd e k dec cap ci d rest he hk hq =>
    have hl : s.Live e.file := .held pid fd e he
    refine ⟨Nat.le_refl _, live_step hsock ?_ ?_⟩
    · intro p fd' e' he'
      rw [setTable_get] at he'
      split at he'
      · rcases (channelRecv_datagram abi dec cap ci (s.tables pid) d).1 fd' e' he' with h | h
        · exact .inl (.held pid fd' e' h)
        · exact .inl (.queued e.file k d e'.file hl hk (by rw [hq]; simp) h)
      · exact .inl (.held p fd' e' he')
    · intro f k' d' g hk' hd' hg
      change (s.setSock e.file _).socks f = some k' at hk'
      rw [setSock_get] at hk'
      split at hk'
      · rename_i hf
        cases hk'
        exact .inr ⟨k, by rw [hf]; exact hk, by rw [hq]; exact List.mem_cons_of_mem _ hd'⟩
      · exact .inr ⟨k', hk', hd'⟩
  | eof => exact ⟨Nat.le_refl _, same _ hsock⟩
  | recvFails => exact ⟨Nat.le_refl _, same _ hsock⟩
  | other tables next hle ht =>
    exact ⟨hle, live_step hsock ht fun f k d g hk hd hg => .inr ⟨k, hk, hd⟩⟩

/-! ## The invariant of a run -/

theorem sentOn_snoc (evs : List ChanEvent) (ev : ChanEvent) (f : Nat) :
    Spec.sentOn (evs ++ [ev]) f = Spec.sentOn evs f ++ Spec.sentOn [ev] f :=
  List.filterMap_append ..

theorem receivedOn_snoc (evs : List ChanEvent) (ev : ChanEvent) (f : Nat) :
    Spec.receivedOn (evs ++ [ev]) f = Spec.receivedOn evs f ++ Spec.receivedOn [ev] f :=
  List.filterMap_append ..

/-- A datagram as the message it carries. -/
def Datagram.message (d : Datagram) : Bytes × Option Nat := (d.data, d.files.head?)

/-- What has arrived at a socket and what waits there are together what the other end has sent. -/
def ChanFlow (evs : List ChanEvent) (f : Nat) (k : Sock) : Prop :=
  ∃ taken, Spec.sentOn evs k.peer = taken ++ k.queue.map Datagram.message ∧
    (Spec.receivedOn evs f).length = taken.length ∧
    ∀ p ∈ (Spec.receivedOn evs f).zip taken, p.1.About p.2

structure ChanInv (evs : List ChanEvent) (s : SockNet) : Prop where
  live : ∀ f, s.Live f → f < s.next
  sock : ∀ f k, s.socks f = some k → f < s.next
  peers : ∀ f k, s.socks f = some k → k.peer ≠ f ∧ ∃ k', s.socks k.peer = some k' ∧ k'.peer = f
  quiet : ∀ f, s.next ≤ f → Spec.sentOn evs f = [] ∧ Spec.receivedOn evs f = []
  pairs : ∀ a b, .created (some (a, b)) ∈ evs → ∃ k, s.socks a = some k ∧ k.peer = b
  flow : ∀ f k, s.socks f = some k → ChanFlow evs f k

/-- Events which are about no message. -/
theorem ChanFlow.silent {evs : List ChanEvent} {ev : ChanEvent} {f : Nat} {k : Sock}
    (h : ChanFlow evs f k) (h1 : Spec.sentOn [ev] k.peer = []) (h2 : Spec.receivedOn [ev] f = []) :
    ChanFlow (evs ++ [ev]) f k := by
  simpa only [ChanFlow, sentOn_snoc, receivedOn_snoc, h1, h2, List.append_nil] using h

theorem sentOn_other (ev : ChanEvent) (f : Nat)
    (h : ∀ enc file r, ev ≠ .sent f enc file r) : Spec.sentOn [ev] f = [] := by
  cases ev with
  | sent s enc file r =>
    have hs : s ≠ f := fun hc => h enc file r (by rw [hc])
    cases enc <;> cases r <;> simp [Spec.sentOn, hs]
  | _ => rfl

theorem receivedOn_not (ev : ChanEvent) (f : Nat)
    (h : ∀ (α : Type) (dec : Parser α) cap r, ev ≠ .received f dec cap r) :
    Spec.receivedOn [ev] f = [] := by
  cases ev with
  | received s dec cap r =>
    have hs : s ≠ f := fun hc => h _ dec cap r (by rw [hc])
    simp [Spec.receivedOn, hs]
  | _ => rfl

theorem receivedOn_silent {α : Type} (f s : Nat) (dec : Parser α) (cap : Nat)
    (r : Except IpcError (Option (α × Option Nat)))
    (h : (Spec.Receipt.mk dec cap r).arrived = false) :
    Spec.receivedOn [.received s dec cap r] f = [] := by
  simp [Spec.receivedOn, h]

theorem receivedOn_arrived {α : Type} (f : Nat) (dec : Parser α) (cap : Nat)
    (r : Except IpcError (Option (α × Option Nat)))
    (h : (Spec.Receipt.mk dec cap r).arrived = true) :
    Spec.receivedOn [.received f dec cap r] f = [⟨dec, cap, r⟩] := by
  simp [Spec.receivedOn, h]

theorem ChanInv.start {s : SockNet} (h : Spec.BeforeChannels s) : ChanInv [] s where
  live := by
    intro f hf
    cases hf with
    | held pid fd e he => exact h.2 pid fd e he
    | queued f k _ _ _ hk => rw [h.1 f] at hk; cases hk
  sock := by intro f k hk; rw [h.1 f] at hk; cases hk
  peers := by intro f k hk; rw [h.1 f] at hk; cases hk
  quiet := fun _ _ => ⟨rfl, rfl⟩
  pairs := by intro a b hm; simp at hm
  flow := by intro f k hk; rw [h.1 f] at hk; cases hk

/-- Steps that leave the sockets alone and are about no message. -/
theorem ChanInv.silent {evs : List ChanEvent} {ev : ChanEvent} {s s' : SockNet} (h : ChanInv evs s)
    (hl : ∀ f, s'.Live f → f < s'.next) (hs : s'.socks = s.socks) (hn : s.next ≤ s'.next)
    (h1 : ∀ f, Spec.sentOn [ev] f = []) (h2 : ∀ f, Spec.receivedOn [ev] f = [])
    (h3 : ∀ a b, ev ≠ .created (some (a, b))) : ChanInv (evs ++ [ev]) s' where
  live := hl
  sock := by intro f k hk; rw [hs] at hk; exact Nat.lt_of_lt_of_le (h.sock f k hk) hn
  peers := by intro f k hk; rw [hs] at hk ⊢; exact h.peers f k hk
  quiet := by
    intro f hf
    rw [sentOn_snoc, receivedOn_snoc, h1, h2, List.append_nil, List.append_nil]
    exact h.quiet f (Nat.le_trans hn hf)
  pairs := by
    intro a b hm
    rw [hs]
    rcases List.mem_append.1 hm with hm | hm
    · exact h.pairs a b hm
    · simp only [List.mem_singleton] at hm
      exact absurd hm.symm (h3 a b)
  flow := by intro f k hk; rw [hs] at hk; exact (h.flow f k hk).silent (h1 _) (h2 _)

theorem ChanInv.created {evs : List ChanEvent} {s : SockNet} (h : ChanInv evs s) (pid : Nat)
    (hl : ∀ f, (channelPairNew s pid none).1.Live f → f < (channelPairNew s pid none).1.next) :
    ChanInv (evs ++ [.created (some (s.next, s.next + 1))]) (channelPairNew s pid none).1 := by
  obtain ⟨hn, hs, -⟩ := channelPairNew_ok s pid
  have q : ∀ f, Spec.sentOn (evs ++ [.created (some (s.next, s.next + 1))]) f = Spec.sentOn evs f ∧
      Spec.receivedOn (evs ++ [.created (some (s.next, s.next + 1))]) f = Spec.receivedOn evs f := by
    intro f
    rw [sentOn_snoc, receivedOn_snoc]
    exact ⟨List.append_nil _, List.append_nil _⟩
  refine ⟨hl, ?_, ?_, ?_, ?_, ?_⟩
  · intro f k hk
    rw [hs] at hk
    rw [hn]
    split at hk
    · omega
    · split at hk
      · omega
      · have := h.sock f k hk; omega
  · intro f k hk
    rw [hs] at hk
    split at hk
    · rename_i hf
      cases hk
      exact ⟨by simp only; omega, ⟨s.next + 1, []⟩, by rw [hs]; simp, hf.symm⟩
    · split at hk
      · rename_i hf
        cases hk
        exact ⟨by simp only; omega, ⟨s.next, []⟩, by rw [hs]; simp, hf.symm⟩
      · obtain ⟨hp, k', hk', hp'⟩ := h.peers f k hk
        have := h.sock _ _ hk'
        refine ⟨hp, k', ?_, hp'⟩
        rw [hs, if_neg (by omega), if_neg (by omega)]
        exact hk'
  · intro f hf
    rw [(q f).1, (q f).2]
    exact h.quiet f (by omega)
  · intro a b hm
    rcases List.mem_append.1 hm with hm | hm
    · obtain ⟨k, hk, hp⟩ := h.pairs a b hm
      have := h.sock _ _ hk
      exact ⟨k, by rw [hs, if_neg (by omega), if_neg (by omega)]; exact hk, hp⟩
    · simp only [List.mem_singleton, ChanEvent.created.injEq, Option.some.injEq, Prod.mk.injEq] at hm
      obtain ⟨rfl, rfl⟩ := hm
      exact ⟨⟨s.next + 1, []⟩, by rw [hs]; simp, rfl⟩
  · intro f k hk
    rw [hs] at hk
    simp only [ChanFlow, (q _).1, (q _).2]
    split at hk
    · rename_i hf
      cases hk
      exact ⟨[], by simp [(h.quiet s.next (by omega)).1], by simp [(h.quiet f (by omega)).2], by simp⟩
    · split at hk
      · rename_i hf
        cases hk
        exact ⟨[], by simp [(h.quiet (s.next + 1) (by omega)).1], by simp [(h.quiet f (by omega)).2],
          by simp⟩
      · exact h.flow f k hk

/-- One more message at the end of the queue of the peer. -/
theorem ChanInv.sent {evs : List ChanEvent} {s : SockNet} (h : ChanInv evs s) {f : Nat} {k p : Sock}
    {d : Datagram} {file : Option Nat} (hk : s.socks f = some k) (hp : s.socks k.peer = some p)
    (hfile : d.files.head? = file)
    (hl : ∀ g, (s.setSock k.peer { p with queue := p.queue ++ [d] }).Live g → g < s.next) :
    ChanInv (evs ++ [.sent f (some d.data) file (.ok ())])
      (s.setSock k.peer { p with queue := p.queue ++ [d] }) := by
  obtain ⟨hne, p', hp', hpp⟩ := h.peers f k hk
  rw [hp] at hp'; cases hp'
  have hr : ∀ g, Spec.receivedOn (evs ++ [.sent f (some d.data) file (.ok ())]) g =
      Spec.receivedOn evs g := by
    intro g; rw [receivedOn_snoc]; exact List.append_nil _
  have hsame : Spec.sentOn (evs ++ [.sent f (some d.data) file (.ok ())]) f =
      Spec.sentOn evs f ++ [d.message] := by
    rw [sentOn_snoc]; simp [Spec.sentOn, Datagram.message, hfile]
  have hother : ∀ g, g ≠ f → Spec.sentOn (evs ++ [.sent f (some d.data) file (.ok ())]) g =
      Spec.sentOn evs g := by
    intro g hg
    rw [sentOn_snoc, sentOn_other, List.append_nil]
    intro enc fl r hc; cases hc; exact hg rfl
  refine ⟨hl, ?_, ?_, ?_, ?_, ?_⟩
  · intro g k' hk'
    rw [setSock_get] at hk'
    split at hk'
    · rename_i hg; rw [hg]; exact h.sock _ _ hp
    · exact h.sock g k' hk'
  · intro g k' hk'
    rw [setSock_get] at hk'
    split at hk'
    · rename_i hg
      cases hk'
      simp only [hpp]
      refine ⟨by rw [hg]; exact Ne.symm hne, k, ?_, hg.symm⟩
      rw [setSock_get, if_neg (Ne.symm hne)]; exact hk
    · obtain ⟨h1, k'', h2, h3⟩ := h.peers g k' hk'
      refine ⟨h1, ?_⟩
      rw [setSock_get]
      split
      · rename_i hc
        rw [hc, hp] at h2; cases h2
        exact ⟨_, rfl, h3⟩
      · exact ⟨k'', h2, h3⟩
  · intro g hg
    have hgf : g ≠ f := by have := h.sock f k hk; rintro rfl; simp only [SockNet.setSock] at hg; omega
    rw [hother g hgf, hr]
    exact h.quiet g hg
  · intro a b hm
    have hm' : .created (some (a, b)) ∈ evs := by simpa using hm
    obtain ⟨k', hk', hb⟩ := h.pairs a b hm'
    rw [setSock_get]
    split
    · rename_i hc
      rw [hc, hp] at hk'; cases hk'
      exact ⟨_, rfl, hb⟩
    · exact ⟨k', hk', hb⟩
  · intro g k' hk'
    rw [setSock_get] at hk'
    split at hk'
    · rename_i hg
      cases hk'
      obtain ⟨taken, h1, h2, h3⟩ := h.flow _ _ hp
      rw [hpp] at h1
      refine ⟨taken, ?_, ?_, ?_⟩
      · simp only [hpp]
        rw [hsame, h1]; simp
      · rw [hr, hg]; exact h2
      · rw [hr, hg]; exact h3
    · rename_i hg
      have hne' : k'.peer ≠ f := by
        intro hc
        obtain ⟨_, k2, hk2, hk2p⟩ := h.peers g k' hk'
        rw [hc, hk] at hk2; cases hk2
        exact hg hk2p.symm
      obtain ⟨taken, h1, h2, h3⟩ := h.flow _ _ hk'
      exact ⟨taken, by rw [hother _ hne']; exact h1, by rw [hr]; exact h2, by rw [hr]; exact h3⟩

/-- One message less at the head of the queue. -/
theorem ChanInv.received {evs : List ChanEvent} {s s' : SockNet} (h : ChanInv evs s) {f : Nat}
    {k : Sock} {d : Datagram} {rest : List Datagram} {α : Type} {dec : Parser α} {cap : Nat}
    {r : Except IpcError (Option (α × Option Nat))}
    (hk : s.socks f = some k) (hq : k.queue = d :: rest)
    (ha : (Spec.Receipt.mk dec cap r).arrived = true)
    (hab : (Spec.Receipt.mk dec cap r).About d.message)
    (hs : s'.socks = (s.setSock f { k with queue := rest }).socks) (hn : s'.next = s.next)
    (hl : ∀ g, s'.Live g → g < s.next) : ChanInv (evs ++ [.received f dec cap r]) s' := by
  have hsent : ∀ g, Spec.sentOn (evs ++ [.received f dec cap r]) g = Spec.sentOn evs g := by
    intro g; rw [sentOn_snoc]; exact List.append_nil _
  have hsame : Spec.receivedOn (evs ++ [.received f dec cap r]) f =
      Spec.receivedOn evs f ++ [⟨dec, cap, r⟩] := by
    rw [receivedOn_snoc, receivedOn_arrived _ _ _ _ ha]
  have hother : ∀ g, g ≠ f → Spec.receivedOn (evs ++ [.received f dec cap r]) g =
      Spec.receivedOn evs g := by
    intro g hg
    rw [receivedOn_snoc, receivedOn_not, List.append_nil]
    intro α' dec' cap' r' hc
    injection hc with hc; exact hg hc.symm
  refine ⟨by rw [hn]; exact hl, ?_, ?_, ?_, ?_, ?_⟩
  · intro g k' hk'
    rw [hs, setSock_get] at hk'
    rw [hn]
    split at hk'
    · rename_i hg; rw [hg]; exact h.sock _ _ hk
    · exact h.sock g k' hk'
  · intro g k' hk'
    rw [hs, setSock_get] at hk'
    have : ∃ k0, s.socks g = some k0 ∧ k0.peer = k'.peer := by
      split at hk'
      · rename_i hg; cases hk'; exact ⟨k, by rw [hg]; exact hk, rfl⟩
      · exact ⟨k', hk', rfl⟩
    obtain ⟨k0, hk0, hpe⟩ := this
    obtain ⟨h1, k2, h2, h3⟩ := h.peers g k0 hk0
    rw [hpe] at h1 h2
    refine ⟨h1, ?_⟩
    rw [hs, setSock_get]
    split
    · rename_i hc
      rw [hc, hk] at h2; cases h2
      exact ⟨_, rfl, h3⟩
    · exact ⟨k2, h2, h3⟩
  · intro g hg
    have hgf : g ≠ f := by have := h.sock f k hk; rintro rfl; omega
    rw [hsent, hother g hgf]
    exact h.quiet g (by omega)
  · intro a b hm
    have hm' : .created (some (a, b)) ∈ evs := by simpa using hm
    obtain ⟨k', hk', hb⟩ := h.pairs a b hm'
    rw [hs, setSock_get]
    split
    · rename_i hc
      rw [hc, hk] at hk'; cases hk'
      exact ⟨_, rfl, hb⟩
    · exact ⟨k', hk', hb⟩
  · intro g k' hk'
    rw [hs, setSock_get] at hk'
    split at hk'
    · rename_i hg
      cases hk'
      obtain ⟨taken, h1, h2, h3⟩ := h.flow _ _ hk
      refine ⟨taken ++ [d.message], ?_, ?_, ?_⟩
      · rw [hsent]; simp only; rw [h1, hq]; simp
      · rw [hg, hsame]; simp [h2]
      · rw [hg, hsame, List.zip_append h2]
        intro p hp
        rcases List.mem_append.1 hp with hp | hp
        · exact h3 p hp
        · simp only [List.zip_cons_cons, List.zip_nil_right, List.mem_singleton] at hp
          subst hp; exact hab
    · rename_i hg
      obtain ⟨taken, h1, h2, h3⟩ := h.flow _ _ hk'
      exact ⟨taken, by rw [hsent]; exact h1, by rw [hother g hg]; exact h2,
        by rw [hother g hg]; exact h3⟩

/-- No message accepted so far is empty. -/
def NoEmpty (evs : List ChanEvent) : Prop := ∀ f, ∀ m ∈ Spec.sentOn evs f, m.1 ≠ []

theorem NoEmpty.init {evs : List ChanEvent} {ev : ChanEvent} (h : NoEmpty (evs ++ [ev])) :
    NoEmpty evs := by
  intro f m hm
  refine h f m ?_
  rw [sentOn_snoc]
  exact List.mem_append_left _ hm

theorem ChanInv.queue_sent {evs : List ChanEvent} {s : SockNet} (h : ChanInv evs s) {f : Nat} {k : Sock}
    {d : Datagram} (hk : s.socks f = some k) (hd : d ∈ k.queue) :
    d.message ∈ Spec.sentOn evs k.peer := by
  obtain ⟨taken, h1, _⟩ := h.flow f k hk
  rw [h1]
  exact List.mem_append_right _ (List.mem_map_of_mem hd)

theorem ChanInv.step {abi : Abi} {evs : List ChanEvent} {ev : ChanEvent} {s s' : SockNet}
    (h : ChanInv evs s) (hst : ChanStep abi s ev s') (hne : NoEmpty evs) :
    ChanInv (evs ++ [ev]) s' := by
  obtain ⟨hmono, hlive⟩ := hst.live h.sock
  have hl : ∀ f, s'.Live f → f < s'.next := by
    intro f hf
    rcases hlive f hf with hf | hf
    · exact Nat.lt_of_lt_of_le (h.live f hf) hmono
    · exact hf.2
  clear hlive
  cases hst with
  | create pid fails =>
    cases fails with
    | some e => exact h.silent hl rfl hmono (fun _ => rfl) (fun _ => rfl) (by intro a b hc; cases hc)
    | none => exact h.created pid hl
  | send pid fd e k encoded handle fails he hk hh hp =>
    cases hc : channelSend abi (s.tables pid) encoded handle fails with
    | error x =>
      simp only [hc] at hl hmono ⊢
      refine h.silent hl rfl hmono (fun f => ?_) (fun f => rfl) (by intro a b hc; cases hc)
      cases encoded <;> simp [Spec.sentOn, Except.map]
    | ok d =>
      obtain ⟨_, p, hpk, _⟩ := h.peers _ _ hk
      simp only [hc, hpk] at hl hmono ⊢
      obtain ⟨henc, _, hfile, _⟩ := channelSend_ok hh hc
      rw [henc]
      exact h.sent hk hpk hfile hl
  | recv pid fd e k dec cap ci d rest he hk hq =>
    obtain ⟨ha, hab⟩ := (channelRecv_datagram abi dec cap ci (s.tables pid) d).2
      (hne _ _ (h.queue_sent hk (by rw [hq]; simp)))
    exact h.received hk hq ha hab rfl rfl hl
  | eof pid fd e k dec cap ci he hk hq hp =>
    exact h.silent hl rfl hmono (fun _ => rfl) (fun f => receivedOn_silent _ _ _ _ _ rfl)
      (by intro a b hc; cases hc)
  | recvFails pid fd e k dec cap ci errno he hk =>
    exact h.silent hl rfl hmono (fun _ => rfl) (fun f => receivedOn_silent _ _ _ _ _ rfl)
      (by intro a b hc; cases hc)
  | other tables next hle ht =>
    exact h.silent hl rfl hmono (fun _ => rfl) (fun _ => rfl) (by intro a b hc; cases hc)

theorem ChanInv.run {abi : Abi} {evs : List ChanEvent} {s s' : SockNet} (h : ChanRun abi s evs s')
    (h0 : Spec.BeforeChannels s) (hne : NoEmpty evs) : ChanInv evs s' := by
  induction h with
  | nil => exact ChanInv.start h0
  | snoc _ hst ih => exact (ih hne.init).step hst hne.init

theorem ChanInv.pair {evs : List ChanEvent} {s : SockNet} (h : ChanInv evs s) {a b : Nat}
    (hp : Spec.Pair evs a b) : ∃ k, s.socks b = some k ∧ k.peer = a := by
  rcases hp with hp | hp
  · obtain ⟨k, hk, hb⟩ := h.pairs a b hp
    obtain ⟨_, k', hk', hpe⟩ := h.peers a k hk
    exact ⟨k', by rw [← hb]; exact hk', hpe⟩
  · exact h.pairs b a hp

/-! ## Facts about runs which need no hypothesis on the messages -/

/-- The part of the invariant about numbers only. -/
structure SockInv (s : SockNet) : Prop where
  live : ∀ f, s.Live f → f < s.next
  sock : ∀ f k, s.socks f = some k → f < s.next
  peer : ∀ f k, s.socks f = some k → k.peer < s.next

theorem SockInv.step {abi : Abi} {ev : ChanEvent} {s s' : SockNet} (h : SockInv s)
    (hst : ChanStep abi s ev s') : SockInv s' := by
  obtain ⟨hmono, hlive⟩ := hst.live h.sock
  have hl : ∀ f, s'.Live f → f < s'.next := by
    intro f hf
    rcases hlive f hf with hf | hf
    · exact Nat.lt_of_lt_of_le (h.live f hf) hmono
    · exact hf.2
  clear hlive
  suffices hh : ∀ f k, s'.socks f = some k → f < s'.next ∧ k.peer < s'.next from
    ⟨hl, fun f k hk => (hh f k hk).1, fun f k hk => (hh f k hk).2⟩
  clear hl
  intro f k hk
  cases hst with
  | create pid fails =>
    cases fails with
    | some e => exact ⟨h.sock f k hk, h.peer f k hk⟩
    | none =>
      obtain ⟨hn, hs, -⟩ := channelPairNew_ok s pid
      rw [hs] at hk
      rw [hn]
      split at hk
      · cases hk; simp only; omega
      · split at hk
        · cases hk; simp only; omega
        · have := h.sock f k hk; have := h.peer f k hk; omega
  | send pid fd e k0 encoded handle fails he hk0 hh hp =>
    split at hk
    · rename_i d p hc hpk
      rw [setSock_get] at hk
      split at hk
      · rename_i hf; cases hk; rw [hf]; exact ⟨h.sock _ _ hpk, h.peer _ p hpk⟩
      · exact ⟨h.sock f k hk, h.peer f k hk⟩
    · exact ⟨h.sock f k hk, h.peer f k hk⟩
  | recv pid fd e k0 dec cap ci d rest he hk0 hq =>
    change (s.setSock e.file _).socks f = some k at hk
    rw [setSock_get] at hk
    split at hk
    · rename_i hf; cases hk; rw [hf]; exact ⟨h.sock _ _ hk0, h.peer _ k0 hk0⟩
    · exact ⟨h.sock f k hk, h.peer f k hk⟩
  | eof => exact ⟨h.sock f k hk, h.peer f k hk⟩
  | recvFails => exact ⟨h.sock f k hk, h.peer f k hk⟩
  | other tables next hle ht =>
    exact ⟨Nat.lt_of_lt_of_le (h.sock f k hk) hle, Nat.lt_of_lt_of_le (h.peer f k hk) hle⟩

/-- Nothing is sent any more by an end nobody keeps. -/
theorem dead_run {abi : Abi} {evs : List ChanEvent} {s s' : SockNet} {a : Nat}
    (h : ChanRun abi s evs s') (hi : SockInv s) (ha : a < s.next) (hd : ¬ s.Live a) :
    SockInv s' ∧ a < s'.next ∧ ¬ s'.Live a ∧ ∀ enc file r, .sent a enc file r ∉ evs := by
  induction h with
  | nil => exact ⟨hi, ha, hd, by simp⟩
  | snoc _ hst ih =>
    obtain ⟨h1, h2, h3, h4⟩ := ih
    obtain ⟨hmono, hlive⟩ := hst.live h1.sock
    refine ⟨h1.step hst, by omega, fun hc => ?_, fun enc file r hm => ?_⟩
    · rcases hlive a hc with hc | hc
      · exact h3 hc
      · omega
    · rcases List.mem_append.1 hm with hm | hm
      · exact h4 enc file r hm
      · simp only [List.mem_singleton] at hm
        clear hlive
        cases hst with
        | send pid fd e k encoded handle fails he hk hh hp =>
          injection hm with h1
          exact h3 (h1 ▸ .held pid fd e he)
        | _ => cases hm

end Iris
