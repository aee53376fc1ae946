import Verif.Lemmas.Threads
/-! # Properties of concurrent intercepted calls (C32, C70) -/
namespace Iris
open Spec

/-- C32. In every reachable state of any number of threads, what a thread's calls returned is
the broker's replies to that thread's own requests, in order, each once. At most its last
request is still unanswered, and then its call is still in progress. -/
theorem C32_own_answers {σ Req Resp : Type} (serve : σ → Req → σ × Resp) (s : σ)
    (w : World σ Req Resp) (h : World.Reachable serve s w) (i : Nat) :
    w.results i = ownExchanges serve s w.sends i ∨
    (Busy w i ∧ ∃ x, w.results i ++ [x] = ownExchanges serve s w.sends i) := by
  have key : ∀ (k : Nat) (r : Req) (l : List (Nat × Req)), w.sends = l ++ [(k, r)] → w.pc k ≠ .idle →
      (∀ i, w.results i = ownExchanges serve s l i) →
      w.results i = ownExchanges serve s w.sends i ∨
      (Busy w i ∧ ∃ x, w.results i ++ [x] = ownExchanges serve s w.sends i) := by
    intro k r l hh hk hr
    rw [hh, ownExchanges_snoc, hr]
    by_cases h : k = i
    · subst h
      rw [if_pos rfl]
      exact .inr ⟨hk, _, rfl⟩
    · rw [if_neg h]; left; simp
  cases inv_reachable h with
  | free hl hp hb hw hs hr => exact .inl (hr i)
  | locked k r hl hi hp hb hw hs hr => exact .inl (hr i)
  | asked k r l hl hi hp hb hw hh hs hr => exact key k r l hh (by rw [hi]; simp) hr
  | answered k r l hl hi hp hb hw hh hs hr => exact key k r l hh (by rw [hi]; simp) hr
  | received k r l hl hi hp hb hw hh hs hr => exact key k r l hh (by rw [hi]; simp) hr

/-- C32. When no call is in progress, every request of every thread was answered. -/
theorem C32_all_answered {σ Req Resp : Type} (serve : σ → Req → σ × Resp) (s : σ)
    (w : World σ Req Resp) (h : World.Reachable serve s w) (hi : ∀ i, ¬ Busy w i) (i : Nat) :
    w.results i = ownExchanges serve s w.sends i ∧ w.toBroker = [] ∧ w.toWorker = [] := by
  cases inv_reachable h with
  | free hl hp hb hw hs hr => exact ⟨hr i, hb, hw⟩
  | locked k r hl hk => exact absurd (show Busy w k by rw [Busy, hk]; simp) (hi k)
  | asked k r l hl hk => exact absurd (show Busy w k by rw [Busy, hk]; simp) (hi k)
  | answered k r l hl hk => exact absurd (show Busy w k by rw [Busy, hk]; simp) (hi k)
  | received k r l hl hk => exact absurd (show Busy w k by rw [Busy, hk]; simp) (hi k)

/-- C32 with the broker of Model/Broker.lean: request number `n` in the order of sending gets the
answer the policy and the system (`os n`) give to that request. -/
theorem C32_with_the_broker [Target] (abi : Abi) (p : Policy) (os : Nat → OsChoice) (b : Broker)
    (hb : b.status = .running) (hlen : b.table.length < 2 ^ 31) (hse : ∀ n, (os n).sendError = none)
    (w : World (Broker × Nat) IPCRequest Incoming)
    (h : World.Reachable (brokerServe abi p os) (b, 0) w)
    (hreq : ∀ x ∈ w.sends, ¬ Crashes p x.2 ∧ (sendRequest x.2).isSome) (i : Nat) (r : IPCRequest)
    (a : Incoming) (ha : (r, a) ∈ w.results i) :
    ∃ n, w.sends[n]? = some (i, r) ∧
      a = .datagram ⟨encResponse (.syscallResult (answer p (os n) r).1),
        replyFiles abi p b.table (os n) r⟩ := by
  -- the replies to a list of good requests
  have hrun : ∀ (l : List IPCRequest) (b' : Broker) (k : Nat), b'.status = .running →
      b'.table = b.table → (∀ r ∈ l, ¬ Crashes p r ∧ (sendRequest r).isSome) → ∀ n r a,
      l[n]? = some r → (repliesTo (brokerServe abi p os) (b', k) l)[n]? = some a →
      a = Incoming.datagram ⟨encResponse (.syscallResult (answer p (os (k + n)) r).1),
        replyFiles abi p b.table (os (k + n)) r⟩ := by
    intro l
    induction l with
    | nil => intro b' k _ _ _ n r a h; cases n <;> simp at h
    | cons q l ih =>
      intro b' k hb' ht hg n r a h1 h2
      obtain ⟨hnc, hs⟩ := hg q (by simp)
      obtain ⟨data, hd⟩ := Option.isSome_iff_exists.1 hs
      obtain ⟨h3, h4⟩ := brokerReply_answer abi p b' (os k) q data hd hb' (by rw [ht]; exact hlen) hnc (hse k)
      have hserve : brokerServe abi p os (b', k) q =
          (({ b' with trace := b'.trace ++ served abi p b'.table (q, os k) }, k + 1),
            .datagram ⟨encResponse (.syscallResult (answer p (os k) q).1), replyFiles abi p b.table (os k) q⟩) := by
        simp only [brokerServe, hd]
        rw [h3, h4, ht]
      simp only [repliesTo] at h2
      rw [hserve] at h2
      cases n with
      | zero =>
        simp only [List.getElem?_cons_zero, Option.some.injEq] at h1 h2
        rw [← h2, ← h1]; rfl
      | succ n =>
        simp only [List.getElem?_cons_succ] at h1 h2
        have := ih { b' with trace := b'.trace ++ served abi p b'.table (q, os k) } (k + 1) hb' ht
          (fun r hr => hg r (by simp [hr])) n r a h1 h2
        rw [show k + 1 + n = k + (n + 1) by omega] at this
        exact this
  have hmem : (r, a) ∈ ownExchanges (brokerServe abi p os) (b, 0) w.sends i := by
    rcases C32_own_answers _ _ w h i with he | ⟨_, x, he⟩
    · rw [← he]; exact ha
    · rw [← he]; exact List.mem_append.2 (.inl ha)
  simp only [ownExchanges, List.mem_map, List.mem_filter, decide_eq_true_eq] at hmem
  obtain ⟨⟨⟨j, r'⟩, a'⟩, ⟨hz, hj⟩, hx⟩ := hmem
  simp only [Prod.mk.injEq] at hx
  obtain ⟨rfl, rfl⟩ := hx
  have hj' : j = i := hj
  subst hj'
  obtain ⟨n, hn⟩ := List.getElem?_of_mem hz
  have hn' : w.sends[n]? = some (j, r') ∧
      (repliesTo (brokerServe abi p os) (b, 0) (w.sends.map Prod.snd))[n]? = some a' := by
    rw [List.getElem?_zip_eq_some] at hn
    exact hn
  refine ⟨n, hn'.1, ?_⟩
  have := hrun (w.sends.map Prod.snd) b 0 hb rfl (by
    intro q hq
    obtain ⟨x, hx, rfl⟩ := List.mem_map.1 hq
    exact hreq x hx) n r' a' (by rw [List.getElem?_map, hn'.1]; rfl) hn'.2
  rw [Nat.zero_add] at this
  exact this

/-- A step in which no thread starts a call. -/
def Spec.Continues {σ Req Resp : Type} (serve : σ → Req → σ × Resp) (w w' : World σ Req Resp) : Prop :=
  World.Step serve w w' ∧ ∀ j, ¬ Busy w j → ¬ Busy w' j

/-- `n` such steps. -/
inductive Spec.ContinuesFor {σ Req Resp : Type} (serve : σ → Req → σ × Resp) :
    Nat → World σ Req Resp → World σ Req Resp → Prop
  | zero (w) : ContinuesFor serve 0 w w
  | succ {n w w' w''} (h : Continues serve w w') (hs : ContinuesFor serve n w' w'') :
    ContinuesFor serve (n + 1) w w''

/-- C70. Threads never block each other: as long as a call is in progress, one of the calls in
progress or the broker can take a step. -/
theorem C70_no_deadlock {σ Req Resp : Type} (serve : σ → Req → σ × Resp) (s : σ)
    (w : World σ Req Resp) (h : World.Reachable serve s w) (i : Nat) (hi : Busy w i) :
    ∃ w', Continues serve w w' := by
  have keep : ∀ (k : Nat) (v : Pc Req Resp), Busy w k → ∀ j, w.pc j = .idle → update w.pc k v j = .idle := by
    intro k v hk j hj
    rw [update_other _ (by rintro rfl; exact hk hj)]; exact hj
  have nb : ∀ {w' : World σ Req Resp}, (∀ j, w.pc j = .idle → w'.pc j = .idle) →
      ∀ j, ¬ Busy w j → ¬ Busy w' j := by
    intro w' hk j hj hj'
    exact hj' (hk j (Classical.not_not.1 hj))
  cases inv_reachable h with
  | free hl hp hb hw hs hr =>
    cases hpc : w.pc i with
    | idle => exact absurd hpc hi
    | waiting r => exact ⟨_, .acquire w i r hpc hl, nb (keep i _ hi)⟩
    | locked r => have := hp i; rw [hpc] at this; cases this
    | sent r => have := hp i; rw [hpc] at this; cases this
    | received r a => have := hp i; rw [hpc] at this; cases this
  | locked k r hl hk => exact ⟨_, .send w k r hk, nb (keep k _ (by rw [Busy, hk]; simp))⟩
  | asked k r l hl hk hp hb => exact ⟨_, .serve w r [] hb, nb (fun j hj => hj)⟩
  | answered k r l hl hk hp hb hw => exact ⟨_, .recv w k r _ [] hk hw, nb (keep k _ (by rw [Busy, hk]; simp))⟩
  | received k r l hl hk => exact ⟨_, .release w k r _ hk, nb (keep k _ (by rw [Busy, hk]; simp))⟩

/-- Steps a thread can still take in its call. -/
def rank {Req Resp : Type} : Pc Req Resp → Nat
  | .idle => 0
  | .waiting _ => 5
  | .locked _ => 4
  | .sent _ => 2
  | .received _ _ => 1

def load {Req Resp : Type} (pc : Nat → Pc Req Resp) : Nat → Nat
  | 0 => 0
  | n + 1 => load pc n + rank (pc n)

theorem load_update {Req Resp : Type} (pc : Nat → Pc Req Resp) (i : Nat) (v : Pc Req Resp) :
    ∀ n, load (update pc i v) n + (if i < n then rank (pc i) else 0) =
      load pc n + (if i < n then rank v else 0) := by
  intro n
  induction n with
  | zero => simp [load]
  | succ n ih =>
    simp only [load]
    by_cases h : i = n
    · subst h
      rw [if_neg (Nat.lt_irrefl i), if_neg (Nat.lt_irrefl i)] at ih
      rw [if_pos (Nat.lt_succ_self i), if_pos (Nat.lt_succ_self i), update_same]
      omega
    · rw [update_other _ (Ne.symm h)]
      by_cases h2 : i < n
      · rw [if_pos h2, if_pos h2] at ih
        rw [if_pos (by omega), if_pos (by omega)]
        omega
      · rw [if_neg h2, if_neg h2] at ih
        rw [if_neg (by omega), if_neg (by omega)]
        omega

theorem load_le {Req Resp : Type} (pc : Nat → Pc Req Resp) (n : Nat) : load pc n ≤ 5 * n := by
  induction n with
  | zero => simp [load]
  | succ n ih =>
    have : rank (pc n) ≤ 5 := by cases pc n <;> simp [rank]
    simp only [load]; omega

/-- C70. However the steps are scheduled, calls complete: with at most `n` threads in calls and no
new call, after at most `5 n + 1` steps nothing more can happen (and by `C70_no_deadlock` all
calls have then returned). -/
theorem C70_calls_complete {σ Req Resp : Type} (serve : σ → Req → σ × Resp) (s : σ)
    (w w' : World σ Req Resp) (h : World.Reachable serve s w) (n k : Nat)
    (hn : ∀ i, n ≤ i → ¬ Busy w i) (hk : ContinuesFor serve k w w') : k ≤ 5 * n + 1 := by
  have hq : w.toBroker.length ≤ 1 := by
    cases inv_reachable h with
    | free hl hp hb => rw [hb]; simp
    | locked k r hl hk hp hb => rw [hb]; simp
    | asked k r l hl hk hp hb => rw [hb]; simp
    | answered k r l hl hk hp hb => rw [hb]; simp
    | received k r l hl hk hp hb => rw [hb]; simp
  have key : k + (load w'.pc n + w'.toBroker.length) ≤ load w.pc n + w.toBroker.length := by
    clear hq h
    induction hk with
    | zero w => simp
    | @succ m w w1 w2 hc _ ih =>
      have ih := ih (fun i hi => hc.2 i (hn i hi))
      suffices hlt : load w1.pc n + w1.toBroker.length < load w.pc n + w.toBroker.length by omega
      have busy_lt : ∀ i, Busy w i → i < n := fun i hi =>
        Nat.lt_of_not_le fun hle => hn i hle hi
      have pos : ∀ (i : Nat) (v : Pc Req Resp), i < n →
          load (update w.pc i v) n + rank (w.pc i) = load w.pc n + rank v := by
        intro i v hi
        have := load_update w.pc i v n
        rw [if_pos hi, if_pos hi] at this
        exact this
      obtain ⟨hstep, hidle⟩ := hc
      cases hstep with
      | trap i r hp =>
        exfalso
        refine hidle i (by rw [Busy, hp]; simp) ?_
        simp [Busy, update_same]
      | acquire i r hp hl =>
        have := pos i (.locked r) (busy_lt i (by rw [Busy, hp]; simp))
        rw [hp] at this; simp only [rank] at this ⊢; omega
      | send i r hp =>
        have := pos i (.sent r) (busy_lt i (by rw [Busy, hp]; simp))
        rw [hp] at this; simp only [rank, List.length_append, List.length_singleton] at this ⊢; omega
      | serve r rest hp => simp only [hp, List.length_cons]; omega
      | recv i r a rest hp hq =>
        have := pos i (.received r a) (busy_lt i (by rw [Busy, hp]; simp))
        rw [hp] at this; simp only [rank] at this ⊢; omega
      | release i r a hp =>
        have := pos i .idle (busy_lt i (by rw [Busy, hp]; simp))
        rw [hp] at this; simp only [rank] at this ⊢; omega
  have := load_le w.pc n
  omega

/-- Two threads, interleaved: thread 1 traps and gets the lock, thread 0 traps, thread 1 sends.
The broker doubles numbers. The hypotheses of C32 and C70 are met by the state reached. -/
example : ∃ w : World Unit Nat Nat, World.Reachable (fun _ r => ((), 2 * r)) () w ∧ Busy w 0 ∧ Busy w 1 ∧
    w.sends = [(1, 7)] := by
  refine ⟨_, .step (.step (.step (.step .init (.trap _ 1 7 rfl)) (.acquire _ 1 7 rfl rfl))
    (.trap _ 0 9 rfl)) (.send _ 1 7 rfl), ?_, ?_, rfl⟩
  · simp [Busy, update]
  · simp [Busy, update]

end Iris
