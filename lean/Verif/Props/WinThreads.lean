import Verif.Lemmas.WinThreads
import Verif.Props.WinWorker
/-!
# C124: hooked calls of many threads

Any number of threads of a Windows worker make hooked calls, in any interleaving.
-/
namespace Iris
open Spec

/-- **C124**. Whatever the logger does, what a thread's hooked calls returned is the broker's replies to that thread's
own requests, in order, each once. At most its last request is still unanswered, and then its call is in progress. -/
theorem C124_own_answers {σ Req Resp : Type} (serve : σ → Req → σ × Resp) (log : Logger Req Resp) (s : σ)
    (w : LWorld σ Req Resp) (h : LWorld.Reachable serve log s w) (i : Nat) :
    w.results i = ownExchanges serve s w.sends i ∨
    (InCall w i ∧ ∃ x, w.results i ++ [x] = ownExchanges serve s w.sends i) := by
  rw [inCall_iff]
  exact C32_own_answers serve s w.erase (sim h).1 i

/-- The answer to a thread's request, with the broker of Model/WinBroker.lean: as if all requests were served one at a
time in the order of sending. -/
theorem C124_as_if_in_turn (debug : Bool) (p : Policy) (os : Nat → WinChoice) (log : Logger WinIPCRequest WinIncoming)
    (b : WinBroker) (w : LWorld (WinBroker × Nat) WinIPCRequest WinIncoming)
    (h : LWorld.Reachable (winThreadServe debug p os) log (b, 0) w) (i : Nat) (r : WinIPCRequest) (a : WinIncoming)
    (ha : (r, a) ∈ w.results i) :
    ∃ n, w.sends[n]? = some (i, r) ∧
      a = (winBrokered debug p (servedInTurn debug p os b 0 ((w.sends.map Prod.snd).take n)) (os n) r).incoming := by
  have hmem : (r, a) ∈ ownExchanges (winThreadServe debug p os) (b, 0) w.sends i := by
    rcases C124_own_answers _ log _ w h i with he | ⟨_, x, he⟩
    · rw [← he]; exact ha
    · rw [← he]; exact List.mem_append.2 (.inl ha)
  simp only [ownExchanges, List.mem_map, List.mem_filter, decide_eq_true_eq] at hmem
  obtain ⟨⟨⟨j, r'⟩, a'⟩, ⟨hz, hj⟩, hx⟩ := hmem
  simp only [Prod.mk.injEq] at hx
  obtain ⟨rfl, rfl⟩ := hx
  have hj' : j = i := hj
  subst hj'
  obtain ⟨n, hn⟩ := List.getElem?_of_mem hz
  rw [List.getElem?_zip_eq_some] at hn
  refine ⟨n, hn.1, ?_⟩
  have := replies_in_turn debug p os (w.sends.map Prod.snd) b 0 n r' a' (by rw [List.getElem?_map, hn.1]; rfl) hn.2
  rw [Nat.zero_add] at this
  exact this

/-- **C124**, for the three hooked functions. A thread calls one; the hook sends `r`, gets `a` back, and gives the
program what it does. Then the program gets what it would get from a broker that served, one at a time, the requests
sent before this one: C92, C93 and C94 say what that is. -/
theorem C124_hooked_calls (debug : Bool) (p : Policy) (os : Nat → WinChoice) (log : Logger WinIPCRequest WinIncoming)
    (b : WinBroker) (w : LWorld (WinBroker × Nat) WinIPCRequest WinIncoming)
    (h : LWorld.Reachable (winThreadServe debug p os) log (b, 0) w) (i : Nat) (r : WinIPCRequest) (a : WinIncoming)
    (ha : (r, a) ∈ w.results i) :
    ∃ n, w.sends[n]? = some (i, r) ∧
      let before := servedInTurn debug p os b 0 ((w.sends.map Prod.snd).take n)
      let got : WinIPCRequest → WinIo := fun _ => ⟨true, a⟩
      (∀ x, (hookNtCreateFile x got).sent = some r →
        hookNtCreateFile x got = hookNtCreateFile x (winBrokered debug p before (os n))) ∧
      (∀ x, (hookNtOpenFile x got).sent = some r →
        hookNtOpenFile x got = hookNtOpenFile x (winBrokered debug p before (os n))) ∧
      (∀ x, (hookNtCreateKey x got).sent = some r →
        hookNtCreateKey x got = hookNtCreateKey x (winBrokered debug p before (os n))) := by
  obtain ⟨n, h1, h2⟩ := C124_as_if_in_turn debug p os log b w h i r a ha
  have he : (⟨true, a⟩ : WinIo) =
      winBrokered debug p (servedInTurn debug p os b 0 ((w.sends.map Prod.snd).take n)) (os n) r := by
    rw [h2]; rfl
  exact ⟨n, h1, fun x hs => createFile_congr x _ _ r hs he, fun x hs => openFile_congr x _ _ r hs he,
    fun x hs => createKey_congr x _ _ r hs he⟩

/-- The broker can answer every request, so it goes on serving: for `C124_hooked_calls` together with C92 to C94. The
worker sends no second handshake, messages fit, and the system lets the broker write and give handles. -/
theorem C124_goes_on_serving (debug : Bool) (p : Policy) (os : Nat → WinChoice) (b : WinBroker) (l : List WinIPCRequest)
    (hb : b.running = true) (hr : ∀ r ∈ l, r ≠ .initialization ∧ (winWrap (encWinRequest r) none).isSome)
    (hos : ∀ n, n < l.length → (os n).writeOk = true ∧ ∃ v, (os n).dup = some v ∧ v ≠ 0#64 ∧
      ∀ e ∈ (servedInTurn debug p os b 0 (l.take n)).tables.worker, e.1 ≠ v) (n : Nat) (hn : n < l.length) :
    CanAnswer (servedInTurn debug p os b 0 (l.take n)) (os n) := by
  refine ⟨?_, (hos n hn).1, (hos n hn).2⟩
  induction n with
  | zero => exact hb
  | succ n ih =>
    have hn' : n < l.length := by omega
    have ih := ih hn'
    rw [List.take_add_one, servedInTurn_append, List.length_take, Nat.min_eq_left (by omega), Nat.zero_add,
      List.getElem?_eq_getElem hn']
    simp only [Option.toList_some, servedInTurn]
    obtain ⟨hq, hs⟩ := hr _ (List.getElem_mem hn')
    obtain ⟨data, hd⟩ := Option.isSome_iff_exists.1 hs
    obtain ⟨hw, v, h1, h2, h3⟩ := hos n hn'
    exact (win_exchange debug p _ (os n) _ data v ih hd hq hw h1 h2 h3).1

/-- **C124**, as far as it is true: if the logger makes no hooked calls, threads never block each other. As long as a
call is in progress, one of the calls in progress or the broker can take a step. -/
theorem C124_no_deadlock_partial {σ Req Resp : Type} (serve : σ → Req → σ × Resp) (log : Logger Req Resp)
    (hq : MakesNoCalls log) (s : σ) (w : LWorld σ Req Resp) (h : LWorld.Reachable serve log s w) (i : Nat) (hi : InCall w i) :
    ∃ w', GoesOn serve log w w' := by
  obtain ⟨hr, _⟩ := sim h
  have single := quiet_single hq h
  have keep : ∀ (k : Nat) (v : List (CallFrame Req Resp)), InCall w k → ∀ j, ¬ InCall w j → update w.stack k v j = [] := by
    intro k v hk j hj
    rw [update_other _ (by rintro rfl; exact hj hk)]
    exact Classical.not_not.1 hj
  have top : ∀ (k : Nat), (w.erase.pc k) ≠ .idle → ∃ f, w.stack k = [f] ∧ w.erase.pc k = f.erase := by
    intro k hk
    rcases single k with hs | ⟨f, hs⟩
    · exact absurd (by simp only [LWorld.erase, hs, eraseStack]) hk
    · exact ⟨f, hs, by simp only [LWorld.erase, hs, eraseStack]⟩
  have lockedStep : ∀ k r, w.erase.pc k = .locked r → ∃ w', GoesOn serve log w w' := by
    intro k r hk
    obtain ⟨f, hs, he⟩ := top k (by rw [hk]; simp)
    have hb : InCall w k := by rw [InCall, hs]; simp
    cases f <;> simp only [CallFrame.erase, hk] at he <;> first | cases he | skip
    · exact ⟨_, .logSend w k _ [] hs, fun j hj => not_not_intro (keep k _ hb j hj)⟩
    · exact ⟨_, .send w k _ [] hs, fun j hj => not_not_intro (keep k _ hb j hj)⟩
  cases inv_reachable hr with
  | free hl hp hb hw hs hres =>
    obtain ⟨f, hf, he⟩ := top i ((inCall_iff w i).1 hi)
    have hpi := hp i
    rw [he] at hpi
    cases f <;> simp only [CallFrame.erase, Pc.inside, reduceCtorEq] at hpi
    rename_i r
    exact ⟨_, .acquire w i r [] hf hl, fun j hj => not_not_intro (keep i _ hi j hj)⟩
  | locked k r hl hk => exact lockedStep k r hk
  | asked k r l hl hk hp hb => exact ⟨_, .serve w r [] hb, fun j hj => hj⟩
  | answered k r l hl hk hp hb hw =>
    obtain ⟨f, hs, he⟩ := top k (by rw [hk]; simp)
    have hb : InCall w k := by rw [InCall, hs]; simp
    cases f <;> simp only [CallFrame.erase, hk] at he <;> first | cases he | skip
    exact ⟨_, .recv w k _ _ [] [] hs hw, fun j hj => not_not_intro (keep k _ hb j hj)⟩
  | received k r l hl hk =>
    obtain ⟨f, hs, he⟩ := top k (by rw [hk]; simp)
    have hb : InCall w k := by rw [InCall, hs]; simp
    cases f <;> simp only [CallFrame.erase, hk] at he <;> first | cases he | skip
    · exact ⟨_, .logRecv w k _ _ [] hs, fun j hj => not_not_intro (keep k _ hb j hj)⟩
    · exact ⟨_, .release w k _ _ [] hs, fun j hj => not_not_intro (keep k _ hb j hj)⟩

/-- **C124**, as far as it is true. However the steps are scheduled, calls complete: with at most `n` threads in calls
and no new call, after at most `7 n + 1` steps nothing more can happen (and by `C124_no_deadlock_partial` all calls have
then returned). -/
theorem C124_calls_complete_partial {σ Req Resp : Type} (serve : σ → Req → σ × Resp) (log : Logger Req Resp)
    (hq : MakesNoCalls log) (s : σ) (w w' : LWorld σ Req Resp) (h : LWorld.Reachable serve log s w) (n k : Nat)
    (hn : ∀ i, n ≤ i → ¬ InCall w i) (hk : GoesOnFor serve log k w w') : k ≤ 7 * n + 1 := by
  have hqb : w.toBroker.length ≤ 1 := by
    have hb : ∀ l : List Req, w.erase.toBroker = l → w.toBroker.length = l.length := fun l e => congrArg List.length e
    cases inv_reachable (sim h).1 with
    | free hl hp h1 => rw [hb _ h1]; simp
    | locked k r hl hk hp h1 => rw [hb _ h1]; simp
    | asked k r l hl hk hp h1 => rw [hb _ h1]; simp
    | answered k r l hl hk hp h1 => rw [hb _ h1]; simp
    | received k r l hl hk hp h1 => rw [hb _ h1]; simp
  have hload := stackLoad_le w.stack (quiet_single hq h) n
  have key : k + (stackLoad w'.stack n + w'.toBroker.length) ≤ stackLoad w.stack n + w.toBroker.length := by
    clear hqb h hload
    induction hk with
    | zero w => simp
    | @succ m w w1 w2 hc _ ih =>
      have ih := ih (fun i hi => hc.2 i (hn i hi))
      suffices hlt : stackLoad w1.stack n + w1.toBroker.length < stackLoad w.stack n + w.toBroker.length by omega
      have busy_lt : ∀ i f fs, w.stack i = f :: fs → i < n := fun i f fs hi =>
        Nat.lt_of_not_le fun hle => hn i hle (by rw [InCall, hi]; simp)
      have pos : ∀ (i : Nat) (v : List (CallFrame Req Resp)), i < n →
          stackLoad (update w.stack i v) n + stackRank (w.stack i) = stackLoad w.stack n + stackRank v := by
        intro i v hi
        have := stackLoad_update w.stack i v n
        rw [if_pos hi, if_pos hi] at this
        exact this
      obtain ⟨hstep, hidle⟩ := hc
      cases hstep with
      | call i r hp =>
        exfalso
        refine hidle i (by rw [InCall, hp]; simp) ?_
        simp [InCall, update_same]
      | acquire i r fs hp hl =>
        have := pos i (.before r :: fs) (busy_lt i _ _ hp)
        rw [hp] at this; simp only [stackRank, List.map_cons, List.sum_cons, frameRank] at this ⊢; omega
      | logSend i r fs hp =>
        have := pos i (.locked r :: fs) (busy_lt i _ _ hp)
        rw [hq.1, logged]
        rw [hp] at this; simp only [stackRank, List.map_cons, List.sum_cons, frameRank] at this ⊢; omega
      | send i r fs hp =>
        have := pos i (.sent r :: fs) (busy_lt i _ _ hp)
        rw [hp] at this
        simp only [stackRank, List.map_cons, List.sum_cons, frameRank, List.length_append, List.length_singleton] at this ⊢
        omega
      | serve r rest hp => simp only [hp, List.length_cons]; omega
      | recv i r a fs rest hp hq =>
        have := pos i (.after r a :: fs) (busy_lt i _ _ hp)
        rw [hp] at this; simp only [stackRank, List.map_cons, List.sum_cons, frameRank] at this ⊢; omega
      | logRecv i r a fs hp =>
        have := pos i (.received r a :: fs) (busy_lt i _ _ hp)
        rw [hq.2, logged]
        rw [hp] at this; simp only [stackRank, List.map_cons, List.sum_cons, frameRank] at this ⊢; omega
      | release i r a fs hp =>
        have := pos i fs (busy_lt i _ _ hp)
        rw [hp] at this; simp only [stackRank, List.map_cons, List.sum_cons, frameRank] at this ⊢; omega
  omega

/-- A thread waiting for the lock it holds waits for ever, and so does every other. -/
theorem C124_stuck_for_ever {σ Req Resp : Type} (serve : σ → Req → σ × Resp) (log : Logger Req Resp) (s : σ)
    (w w' : LWorld σ Req Resp) (h : LWorld.Reachable serve log s w) (i : Nat) (q : Req) (f : CallFrame Req Resp)
    (hi : w.stack i = [.waiting q, f]) (hs : LWorld.Step serve log w w') :
    w'.stack i = [.waiting q, f] ∧ w'.results = w.results := by
  obtain ⟨hr, hsh⟩ := sim h
  have hlk : w.lock = some i := by
    cases hsh i with
    | idle h1 => rw [h1] at hi; cases hi
    | one g h1 => rw [h1] at hi; simp at hi
    | two q f h1 h2 h3 => exact h3
  have hne : ∀ {j : Nat} {g : CallFrame Req Resp} {fs}, w.stack j = g :: fs → (∀ r, g ≠ .waiting r) → i ≠ j := by
    rintro j g fs h1 h2 rfl
    rw [hi] at h1
    simp only [List.cons.injEq] at h1
    exact h2 q h1.1.symm
  cases hs with
  | call j r h1 => exact ⟨by rw [← hi]; exact update_other _ (by rintro rfl; rw [hi] at h1; cases h1) _, rfl⟩
  | acquire j r fs h1 h2 => rw [hlk] at h2; cases h2
  | logSend j r fs h1 => exact ⟨by rw [← hi]; exact update_other _ (hne h1 (by simp)) _, rfl⟩
  | send j r fs h1 => exact ⟨by rw [← hi]; exact update_other _ (hne h1 (by simp)) _, rfl⟩
  | serve r rest h1 => exact ⟨hi, rfl⟩
  | recv j r a fs rest h1 h2 => exact ⟨by rw [← hi]; exact update_other _ (hne h1 (by simp)) _, rfl⟩
  | logRecv j r a fs h1 => exact ⟨by rw [← hi]; exact update_other _ (hne h1 (by simp)) _, rfl⟩
  | release j r a fs h1 =>
    exfalso
    have hfs := (hsh j).single h1 (by simp)
    subst hfs
    have := inside_lock hr j (by simp only [LWorld.erase, h1, eraseStack, CallFrame.erase, Pc.inside])
    rw [show w.erase.lock = w.lock from rfl, hlk] at this
    exact hne h1 (by simp) (Option.some.inj this)

/-- **C124** does not hold for every logger: with one that makes a hooked call for each line, no hooked call of any
thread ever returns. -/
theorem C124_no_deadlock_violated {σ Req Resp : Type} (serve : σ → Req → σ × Resp) (log : Logger Req Resp)
    (hl : ∀ r, (log.onSend r).isSome) (s : σ) :
    (∀ w : LWorld σ Req Resp, LWorld.Reachable serve log s w → ∀ i, w.results i = []) ∧
    (∀ r : Req, ∃ w : LWorld σ Req Resp, LWorld.Reachable serve log s w ∧
      (∃ q, w.stack 0 = [.waiting q, .locked r]) ∧ ¬ ∃ w', GoesOn serve log w w') := by
  constructor
  · intro w h
    -- no call gets past its first line
    have inv : (∀ i, w.results i = []) ∧ w.toBroker = [] ∧ w.toWorker = [] ∧
        ∀ i f, f ∈ w.stack i → (∃ r, f = .waiting r) ∨ (∃ r, f = .before r) ∨
          ∃ r q, f = .locked r ∧ w.stack i = [.waiting q, f] := by
      induction h with
      | init => exact ⟨fun i => rfl, rfl, rfl, fun i f hf => by cases hf⟩
      | @step w w' hw hs ih =>
        obtain ⟨h1, h2, h3, h4⟩ := ih
        obtain ⟨_, hsh⟩ := sim hw
        have noHead : ∀ {i : Nat} {f : CallFrame Req Resp} {fs}, w.stack i = f :: fs →
            (∃ r, f = .waiting r) ∨ ∃ r, f = .before r := by
          intro i f fs h
          rcases h4 i f (by rw [h]; exact List.mem_cons_self) with h' | h' | ⟨r, q, hf, he⟩
          · exact .inl h'
          · exact .inr h'
          · rw [h] at he; simp only [List.cons.injEq] at he
            exact .inl ⟨q, he.1⟩
        have keep : ∀ (i : Nat) (v : List (CallFrame Req Resp)),
            (∀ f, f ∈ v → (∃ r, f = .waiting r) ∨ (∃ r, f = .before r) ∨ ∃ r q, f = .locked r ∧ v = [.waiting q, f]) →
            ∀ j f, f ∈ update w.stack i v j → (∃ r, f = .waiting r) ∨ (∃ r, f = .before r) ∨
              ∃ r q, f = .locked r ∧ update w.stack i v j = [.waiting q, f] := by
          intro i v hv j f hf
          by_cases hj : j = i
          · subst hj; rw [update_same] at hf ⊢; exact hv f hf
          · rw [update_other _ hj] at hf ⊢; exact h4 j f hf
        cases hs with
        | call i r h => exact ⟨h1, h2, h3, keep i _ (by simp)⟩
        | acquire i r fs h hl' =>
          obtain rfl := (hsh i).waits h hl'
          exact ⟨h1, h2, h3, keep i _ (by simp)⟩
        | logSend i r fs h =>
          obtain rfl := (hsh i).single h (by simp)
          obtain ⟨q, hq⟩ := Option.isSome_iff_exists.1 (hl r)
          refine ⟨h1, h2, h3, keep i _ ?_⟩
          rw [hq, logged]
          intro f hf
          simp only [List.mem_cons, List.not_mem_nil, or_false] at hf
          rcases hf with rfl | rfl
          · exact .inl ⟨q, rfl⟩
          · exact .inr (.inr ⟨r, q, rfl, rfl⟩)
        | send i r fs h => rcases noHead h with ⟨_, h⟩ | ⟨_, h⟩ <;> cases h
        | serve r rest h => rw [h2] at h; cases h
        | recv i r a fs rest h _ => rcases noHead h with ⟨_, h⟩ | ⟨_, h⟩ <;> cases h
        | logRecv i r a fs h => rcases noHead h with ⟨_, h⟩ | ⟨_, h⟩ <;> cases h
        | release i r a fs h => rcases noHead h with ⟨_, h⟩ | ⟨_, h⟩ <;> cases h
    exact inv.1
  · intro r
    obtain ⟨q, hq⟩ := Option.isSome_iff_exists.1 (hl r)
    refine ⟨_, .step (.step (.step .init (.call _ 0 r rfl)) (.acquire _ 0 r [] rfl rfl)) (.logSend _ 0 r [] rfl), ?_, ?_⟩
    · exact ⟨q, by simp [update, hq, logged]⟩
    · rintro ⟨w', hs, hidle⟩
      have other : ∀ {j : Nat} {f : CallFrame Req Resp} {fs},
          update (update (update (LWorld.init s : LWorld σ Req Resp).stack 0 [.waiting r]) 0 [.before r]) 0
            (logged (log.onSend r) (.locked r) []) j = f :: fs → f = .waiting q := by
        intro j f fs h
        by_cases hj : j = 0
        · subst hj; rw [update_same, hq, logged] at h; simp only [List.cons.injEq] at h; exact h.1.symm
        · rw [update_other _ hj, update_other _ hj, update_other _ hj] at h; cases h
      cases hs with
      | call j r' h =>
        exact hidle j (by rw [InCall, h]; simp) (by simp [InCall, update_same])
      | acquire j r' fs h hl' => cases hl'
      | logSend j r' fs h => cases other h
      | send j r' fs h => cases other h
      | serve r' rest h => cases h
      | recv j r' a fs rest h _ => cases other h
      | logRecv j r' a fs h => cases other h
      | release j r' a fs h => cases other h

/-- Two threads with a quiet logger and a broker that doubles numbers: thread 1 has the lock, thread 0 waits. -/
example : ∃ w : LWorld Unit Nat Nat, LWorld.Reachable (fun _ r => ((), 2 * r)) ⟨fun _ => none, fun _ => none⟩ () w ∧
    MakesNoCalls (⟨fun _ => none, fun _ => none⟩ : Logger Nat Nat) ∧ InCall w 0 ∧ InCall w 1 ∧ w.sends = [(1, 7)] := by
  refine ⟨_, .step (.step (.step (.step (.step .init (.call _ 1 7 rfl)) (.acquire _ 1 7 [] rfl rfl))
    (.call _ 0 9 rfl)) (.logSend _ 1 7 [] rfl)) (.send _ 1 7 [] rfl), ⟨fun _ => rfl, fun _ => rfl⟩, ?_, ?_, rfl⟩
  · simp [InCall, update]
  · simp [InCall, update]

/-- A call that completed while another thread waits: the hypotheses of `C124_as_if_in_turn` and `C124_hooked_calls`. -/
example (debug : Bool) (p : Policy) (os : Nat → WinChoice) (b : WinBroker) (r q : WinIPCRequest) :
    ∃ w a, LWorld.Reachable (winThreadServe debug p os) ⟨fun _ => none, fun _ => none⟩ (b, 0) w ∧
      (r, a) ∈ w.results 1 ∧ w.stack 0 = [.waiting q] := by
  refine ⟨_, (winThreadServe debug p os (b, 0) r).2,
    .step (.step (.step (.step (.step (.step (.step (.step (.step .init (.call _ 1 r rfl)) (.acquire _ 1 r [] rfl rfl))
      (.logSend _ 1 r [] rfl)) (.send _ 1 r [] rfl)) (.call _ 0 q rfl)) (.serve _ r [] rfl))
      (.recv _ 1 r _ [] [] rfl rfl)) (.logRecv _ 1 r _ [] rfl)) (.release _ 1 r _ [] rfl), ?_, ?_⟩
  · simp [update, LWorld.init]
  · simp [update]

end Iris
