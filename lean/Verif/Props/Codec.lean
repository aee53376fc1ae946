import Verif.Lemmas.Postcard
import Verif.Lemmas.Sizes
/-!
# C27-C30: messages on the wire

`sendRequest`/`sendResponse` give the datagram `channel.send` puts on the socket
(nothing if the message does not fit), `recvRequest`/`recvResponse` what
`channel.recv` makes of a datagram.
-/
namespace Iris
open Spec

theorem fits_of_send {m : IPCRequest} {bs : Bytes} (h : sendRequest m = some bs) :
    m.Fits ∧ bs = encRequest m := by
  simp only [sendRequest, serialize] at h
  split at h
  · rename_i hle
    simp only [Option.some.injEq] at h
    refine ⟨?_, h.symm⟩
    cases m with
    | openFile path flags =>
      simp only [IPCRequest.Fits]
      simp only [encRequest, encStr, encBytes, List.length_append, IPC_MESSAGE_MAX_SIZE] at hle
      omega
    | _ => trivial
  · cases h

/-- C27. Whatever datagram a request was turned into, it decodes to that request. -/
theorem C27_request_round_trip (m : IPCRequest) (bs : Bytes) (h : sendRequest m = some bs) :
    recvRequest bs = some m := by
  obtain ⟨hf, rfl⟩ := fits_of_send h
  have := decRequest_enc m [] hf
  simp only [List.append_nil] at this
  simp [recvRequest, deserialize, this]

/-- C27. A request is refused by the encoder only for its size: every request
whose path has at most 65527 bytes has a datagram. -/
theorem C27_request_encodes (m : IPCRequest)
    (h : ∀ path flags, m = .openFile path flags → (utf8 path).length ≤ 65527) :
    ∃ bs, sendRequest m = some bs := by
  have h32 : ∀ v, (encI32 v).length ≤ 5 := fun v => encVarint_length 4 _ (by have := (zigzag v).isLt; omega)
  have h64 : ∀ v, (encI64 v).length ≤ 10 := fun v => encVarint_length 9 _ (by have := (zigzag v).isLt; omega)
  simp only [sendRequest, serialize]
  rw [if_pos]
  · exact ⟨_, rfl⟩
  · cases m with
    | initialization => simp [encRequest, encVarint_small, IPC_MESSAGE_MAX_SIZE]
    | openFile path flags =>
      have h1 := h path flags rfl
      have h2 := encVarint_length 2 _ (show (utf8 path).length < 128 ^ 3 by omega)
      have h3 := h32 flags
      simp only [encRequest, encStr, encBytes, List.length_append, IPC_MESSAGE_MAX_SIZE,
        encVarint_small (show 1 < 128 by omega), List.length_singleton]
      omega
    | syscall nb args ip =>
      have := h64 nb
      have := h64 ip
      have := h64 args.a0
      have := h64 args.a1
      have := h64 args.a2
      have := h64 args.a3
      have := h64 args.a4
      have := h64 args.a5
      simp only [encRequest, encArgs, List.length_append, IPC_MESSAGE_MAX_SIZE,
        encVarint_small (show 2 < 128 by omega), List.length_singleton]
      omega

/-- C27. Exactly: a request can be sent if and only if it is not for a file whose path, with the flags, takes more than
65536 bytes. -/
theorem C27_request_sent_iff (m : IPCRequest) :
    (∃ bs, sendRequest m = some bs) ↔
      ∀ path flags, m = .openFile path flags → Spec.messageSize (utf8 path).length flags ≤ 65536 := by
  cases m with
  | openFile path flags =>
    have hl : (encRequest (.openFile path flags)).length = Spec.messageSize (utf8 path).length flags := by
      have : Spec.sevenBits 1 = 1 := by unfold Spec.sevenBits; rfl
      simp only [encRequest, encStr, encBytes, encI32, encB32, List.length_append, sevenBits_eq, unsigned32_eq,
        Spec.messageSize]
      omega
    simp only [sendRequest, serialize, hl, IPC_MESSAGE_MAX_SIZE]
    constructor
    · rintro ⟨bs, h⟩ p f e
      cases e
      split at h
      · assumption
      · cases h
    · intro h
      exact ⟨_, if_pos (h _ _ rfl)⟩
  | initialization => exact ⟨fun _ _ _ h => (nomatch h), fun _ => C27_request_encodes _ fun _ _ h => (nomatch h)⟩
  | syscall nb args ip => exact ⟨fun _ _ _ h => (nomatch h), fun _ => C27_request_encodes _ fun _ _ h => (nomatch h)⟩

/-- A path of 65531 bytes can be sent with no flags, one of 65532 cannot. -/
example : Spec.messageSize 65531 0#32 ≤ 65536 ∧ 65536 < Spec.messageSize 65532 0#32 := by decide +kernel

example : ∃ bs, sendRequest (.openFile c!"/etc/é" (O_RDWR ||| O_CREAT)) = some bs :=
  C27_request_encodes _ (by
    intro p f h; cases h
    have : (utf8 c!"/etc/é").length = 7 := by decide +kernel
    omega)

example : sendRequest (.syscall 5 ⟨1, -1, 3, 4, 5, 6⟩ 0x7fffffffffffffff)
    = some [2, 10, 2, 1, 6, 8, 10, 12, 254, 255, 255, 255, 255, 255, 255, 255, 255, 1] := by
  simp [sendRequest, serialize, encRequest, encArgs, encI64, encB64, encVarint, zigzag,
    IPC_MESSAGE_MAX_SIZE]

/-- What a `HashMap` guarantees: no key twice. -/
def Spec.DistinctKeys {α : Type} (m : AMap α) : Prop := (m.map Prod.fst).Nodup

/-- C28, system call results. -/
theorem C28_result_round_trip (code : BitVec 64) :
    ∃ bs, sendResponse (.syscallResult code) = some bs ∧
      recvResponse bs = some (.syscallResult code) := by
  have h : (encResponse (.syscallResult code)).length ≤ IPC_MESSAGE_MAX_SIZE := by
    have := encVarint_length 9 (zigzag code).toNat (by have := (zigzag code).isLt; omega)
    simp only [encResponse, encI64, encB64, List.length_append, IPC_MESSAGE_MAX_SIZE,
      encVarint_small (show 1 < 128 by omega), List.length_singleton]
    omega
  refine ⟨encResponse (.syscallResult code), by simp [sendResponse, serialize, h], ?_⟩
  have h2 := decI64_enc code []
  simp only [List.append_nil] at h2
  simp only [recvResponse, deserialize, decResponse, encResponse]
  rw [decU32_enc _ _ (by omega)]
  simp [h2]

/-- C28, initialization replies. `p` is any policy, in any iteration order of
its tables. What the worker decodes compares equal (`==` of Rust) to what the
broker sent, has the same tables, and takes the same decision on every request.
-/
theorem C28_policy_round_trip [Target] (p : Policy) (filter bs : Bytes)
    (hf : DistinctKeys p.files) (hd : DistinctKeys p.dirs) (hk : DistinctKeys p.regkeys)
    (h : sendResponse (.initialization p.runtime filter) = some bs) :
    ∃ q, recvResponse bs = some (.initialization q filter) ∧
      Policy.eq q p.runtime = true ∧
      (∀ k, AMap.get q.files k = AMap.get p.files k) ∧
      (∀ k, AMap.get q.dirs k = AMap.get p.dirs k) ∧
      (∀ k, AMap.get q.regkeys k = AMap.get p.regkeys k) ∧
      (∀ req, (q.evaluate req).1 = (p.evaluate req).1) ∧
      q.callbacks = [] ∧ q.inherit = [] := by
  have hfit : ∀ {α : Type} (e : α → Bytes) (m : AMap α),
      (encMap e m).length ≤ IPC_MESSAGE_MAX_SIZE → AMap.Fits m := by
    intro α e m hle
    simp only [encMap, List.length_append, IPC_MESSAGE_MAX_SIZE] at hle
    have hkey : ∀ kv ∈ m, (utf8 kv.1).length + 1 ≤ (encStr kv.1 ++ e kv.2).length := by
      intro kv _
      have := List.length_pos_iff.2 (encVarint_ne_nil (utf8 kv.1).length)
      simp only [encStr, encBytes, List.length_append]
      omega
    have hsum : ∀ l : AMap α, (∀ kv ∈ l, (utf8 kv.1).length + 1 ≤ (encStr kv.1 ++ e kv.2).length) →
        l.length ≤ (l.flatMap fun kv => encStr kv.1 ++ e kv.2).length ∧
        ∀ kv ∈ l, (utf8 kv.1).length ≤ (l.flatMap fun kv => encStr kv.1 ++ e kv.2).length := by
      intro l hl
      induction l with
      | nil => simp
      | cons x l ih =>
        have h1 := hl x (by simp)
        have h2 := ih (fun kv hkv => hl kv (by simp [hkv]))
        simp only [List.flatMap_cons, List.length_append, List.length_cons, List.mem_cons]
        simp only [List.length_append] at h1
        refine ⟨by omega, ?_⟩
        rintro kv (rfl | hkv)
        · omega
        · have := h2.2 kv hkv; omega
    have h3 := hsum m hkey
    refine ⟨by omega, fun kv hkv => ?_⟩
    have := h3.2 kv hkv; omega
  simp only [sendResponse, serialize] at h
  split at h
  case isFalse => cases h
  rename_i hle
  simp only [Option.some.injEq] at h
  subst h
  simp only [encResponse, encPolicy, List.length_append, Policy.runtime, encBytes] at hle
  have f1 : AMap.Fits p.files := hfit encAcc _ (by omega)
  have f2 : AMap.Fits p.dirs := hfit encAcc _ (by omega)
  have f3 : AMap.Fits p.regkeys := hfit encPair _ (by omega)
  have f4 : filter.length < 2 ^ 64 := by simp only [IPC_MESSAGE_MAX_SIZE] at hle; omega
  have hdec := decBytes_enc filter [] f4
  simp only [List.append_nil] at hdec
  have hrev : ∀ {α : Type} (m : AMap α), DistinctKeys m → ∀ k,
      AMap.get m.reverse k = AMap.get m k := by
    intro α m hm k
    have hw : AMap.WF m.reverse := by
      simp only [AMap.WF, List.map_reverse]
      exact List.pairwise_reverse.2 (hm.imp Ne.symm)
    cases hg : AMap.get m k with
    | some v =>
      exact AMap.get_of_mem hw (List.mem_reverse.2 (AMap.mem_of_get hg))
    | none =>
      cases hg2 : AMap.get m.reverse k with
      | none => rfl
      | some v =>
        rw [AMap.get_of_mem hm (List.mem_reverse.1 (AMap.mem_of_get hg2))] at hg
        cases hg
  have heq : ∀ {α : Type} [DecidableEq α] (m : AMap α), DistinctKeys m →
      AMap.eq m.reverse m = true := by
    intro α _ m hm
    simp only [AMap.eq, List.length_reverse, BEq.rfl, Bool.true_and, List.all_eq_true,
      List.mem_reverse, decide_eq_true_eq]
    intro kv hkv
    exact AMap.get_of_mem hm hkv
  refine ⟨⟨[], [], p.files.reverse, p.dirs.reverse, p.regkeys.reverse, p.auditOnly⟩, ?_, ?_,
    hrev _ hf, hrev _ hd, hrev _ hk, ?_, rfl, rfl⟩
  · simp only [recvResponse, deserialize, decResponse, encResponse, encPolicy, Policy.runtime,
      List.append_assoc, decPolicy]
    rw [decU32_enc _ _ (by omega)]
    simp only [Option.bind_eq_bind, Option.bind_some]
    rw [decMap_enc decAcc_enc _ _ f1 hf]
    simp only [Option.bind_some]
    rw [decMap_enc decAcc_enc _ _ f2 hd]
    simp only [Option.bind_some]
    rw [decMap_enc decPair_enc _ _ f3 hk]
    simp only [Option.bind_some]
    rw [decBool_enc]
    simp [hdec]
  · simp only [Policy.eq, Policy.runtime, heq _ hf, heq _ hd, heq _ hk, setEq]
    simp
  · intro req
    cases req with
    | syscall nb args ip => simp [Policy.evaluate]
    | fileOpen path flags =>
      rw [evaluate_fst, evaluate_fst]
      have := checkFileOpen_congr
        (⟨[], [], p.files.reverse, p.dirs.reverse, p.regkeys.reverse, p.auditOnly⟩ : Policy) p path flags
        (fun _ => ?_)
      · rw [this]
      · rw [allowedAccess_congr (p := ⟨[], [], p.files.reverse, p.dirs.reverse, p.regkeys.reverse, p.auditOnly⟩) (q := p)
          (hrev _ hf) (hrev _ hd)]
        simp

/-- Policies built through the API are hash maps. -/
theorem C28_built_policies_qualify (h : List Call) (base : Policy)
    (hb : base = Policy.nothingAllowed ∨ base = Policy.auditOnlyPolicy) :
    DistinctKeys (base.calls h).files ∧ DistinctKeys (base.calls h).dirs ∧
      DistinctKeys (base.calls h).regkeys := by
  have hw : (base.calls h).WF := by
    rcases hb with rfl | rfl
    · exact calls_wf nothingAllowed_wf h
    · exact calls_wf auditOnlyPolicy_wf h
  exact ⟨hw.1, hw.2.1, hw.2.2.1⟩

example : ∃ bs, sendResponse (.initialization
    (Policy.runtime (Policy.nothingAllowed.calls [.fs (.dirRead c!"/a"), .fs (.fileWrite c!"/b")]))
    [1, 2]) = some bs := by
  refine ⟨_, (if_pos ?_)⟩
  simp [encResponse, encPolicy, encMap, encStr, encBytes, encVarint_small, Policy.runtime,
    Policy.calls, Policy.call, Policy.fsCall, Policy.allowFileAccess, linuxOs, startsWith,
    stripPrefix, mergeAccess, stripTrailing, stripSuffix, AMap.insert, AMap.get,
    Policy.nothingAllowed, utf8, encAcc, encBool, IPC_MESSAGE_MAX_SIZE]
  decide +kernel

/-- C29. A request decoded from arbitrary bytes: its string was in them. -/
theorem C29_request_within_input (bs : Bytes) (path : Str) (flags : BitVec 32)
    (h : recvRequest bs = some (.openFile path flags)) :
    utf8 path <:+: bs ∧ path.length ≤ bs.length := by
  have hlen : ∀ s : Str, s.length ≤ (utf8 s).length := by
    intro s
    induction s with
    | nil => simp
    | cons c s ih =>
      have := c.utf8Size_pos
      simp only [utf8, List.flatMap_cons, List.length_append, List.length_cons,
        String.length_utf8EncodeChar] at *
      omega
  have hin : utf8 path <:+: bs := by
    simp only [recvRequest, deserialize, Option.map_eq_some_iff] at h
    obtain ⟨⟨m, r⟩, h1, h2⟩ := h
    simp only at h2
    subst h2
    simp only [decRequest, Option.bind_eq_bind, Option.bind_eq_some_iff] at h1
    obtain ⟨⟨tag, r1⟩, h2, h3⟩ := h1
    have hs := decU32_suffix _ _ _ h2
    match tag, h3 with
    | 0, h3 => simp at h3
    | 1, h3 =>
      simp only [Option.bind_eq_some_iff] at h3
      obtain ⟨⟨path', r2⟩, h4, ⟨fl, r3⟩, h5, h6⟩ := h3
      simp only [Option.pure_def, Option.some.injEq, Prod.mk.injEq, IPCRequest.openFile.injEq] at h6
      obtain ⟨⟨rfl, _⟩, _⟩ := h6
      obtain ⟨pre, hp⟩ := decStr_some h4
      exact List.IsInfix.trans ⟨pre, r2, hp.symm⟩ hs.isInfix
    | 2, h3 =>
      simp only [Option.bind_eq_some_iff] at h3
      obtain ⟨_, _, _, _, _, _, h6⟩ := h3
      simp at h6
    | n + 3, h3 => simp at h3
  exact ⟨hin, Nat.le_trans (hlen path) hin.length_le⟩

theorem takeVarint_lt (lastMax : Nat) : ∀ (k shift acc : Nat) (bs : Bytes) (n : Nat) (r : Bytes),
    takeVarint lastMax k shift acc bs = some (n, r) → acc < 2 ^ shift →
    n < 2 ^ (shift + 7 * (k - 1)) * (lastMax + 1) ∨ n < 2 ^ (shift + 7 * (k - 1)) := by
  intro k
  induction k with
  | zero => intro shift acc bs n r h; simp [takeVarint] at h
  | succ k ih =>
    intro shift acc bs n r h ha
    cases bs with
    | nil => simp [takeVarint] at h
    | cons b bs =>
      simp only [takeVarint] at h
      have hb : acc + b.toNat % 128 * 2 ^ shift < 2 ^ (shift + 7) := by
        have h1 : b.toNat % 128 ≤ 127 := by omega
        have h2 : b.toNat % 128 * 2 ^ shift ≤ 127 * 2 ^ shift := Nat.mul_le_mul_right _ h1
        rw [Nat.pow_add]
        omega
      split at h
      · rename_i hlt
        split at h
        · cases h
        · rename_i hl
          simp only [Option.some.injEq, Prod.mk.injEq] at h
          obtain ⟨rfl, rfl⟩ := h
          cases k with
          | zero =>
            left
            simp only [Nat.zero_add, Nat.sub_self, Nat.mul_zero, Nat.add_zero]
            have h1 : b.toNat ≤ lastMax := by simp at hl; omega
            have h2 : b.toNat % 128 * 2 ^ shift ≤ lastMax * 2 ^ shift := Nat.mul_le_mul_right _ (by omega)
            rw [Nat.mul_add, Nat.mul_one, Nat.mul_comm (2 ^ shift)]
            omega
          | succ k =>
            right
            refine Nat.lt_of_lt_of_le hb (Nat.pow_le_pow_right (by decide) ?_)
            omega
      · have := ih _ _ _ _ _ h hb
        cases k with
        | zero => simp [takeVarint] at h
        | succ k =>
          rw [show shift + 7 * (k + 1 + 1 - 1) = shift + 7 + 7 * (k + 1 - 1) by omega]
          exact this

/-- C29. Integers that do not fit are refused, they are never cut. -/
theorem C29_integers_in_range (bs r : Bytes) (n : Nat) :
    (decU32 bs = some (n, r) → n < 2 ^ 32) ∧ (decU64 bs = some (n, r) → n < 2 ^ 64) := by
  constructor
  · intro h
    have := takeVarint_lt 15 5 0 0 bs n r h (by decide)
    simp only [Nat.reduceSub, Nat.reduceMul, Nat.reduceAdd, Nat.zero_add] at this
    omega
  · intro h
    have := takeVarint_lt 1 10 0 0 bs n r h (by decide)
    simp only [Nat.reduceSub, Nat.reduceMul, Nat.reduceAdd, Nat.zero_add] at this
    omega

/-- C29. A message of a kind that does not exist is refused. -/
theorem C29_unknown_kind_refused (tag : Nat) (rest : Bytes) (ht : tag < 2 ^ 32) :
    (3 ≤ tag → recvRequest (encVarint tag ++ rest) = none) ∧
    (2 ≤ tag → recvResponse (encVarint tag ++ rest) = none) := by
  constructor
  · intro h
    simp only [recvRequest, deserialize, decRequest]
    rw [decU32_enc _ _ ht]
    simp only [Option.bind_eq_bind, Option.bind_some]
    match tag, h with
    | n + 3, _ => rfl
  · intro h
    simp only [recvResponse, deserialize, decResponse]
    rw [decU32_enc _ _ ht]
    simp only [Option.bind_eq_bind, Option.bind_some]
    match tag, h with
    | n + 2, _ => rfl

/-- C29. A reply decoded from arbitrary bytes: the filter and the text of every
rule were in them, and the rule tables are proper maps. -/
theorem C29_response_within_input (bs filter : Bytes) (p : Policy)
    (h : recvResponse bs = some (.initialization p filter)) :
    filter <:+: bs ∧
    (∀ k ∈ p.files.map Prod.fst, utf8 k <:+: bs) ∧ (∀ k ∈ p.dirs.map Prod.fst, utf8 k <:+: bs) ∧
    (∀ k ∈ p.regkeys.map Prod.fst, utf8 k <:+: bs) ∧
    DistinctKeys p.files ∧ DistinctKeys p.dirs ∧ DistinctKeys p.regkeys ∧
    p.callbacks = [] ∧ p.inherit = [] := by
  simp only [recvResponse, deserialize, Option.map_eq_some_iff] at h
  obtain ⟨⟨m, r⟩, h1, h2⟩ := h
  simp only at h2
  subst h2
  simp only [decResponse, Option.bind_eq_bind, Option.bind_eq_some_iff] at h1
  obtain ⟨⟨tag, r0⟩, h2, h3⟩ := h1
  have hs0 := decU32_suffix _ _ _ h2
  match tag, h3 with
  | 0, h3 =>
    simp only [Option.bind_eq_some_iff] at h3
    obtain ⟨⟨p', r1⟩, h4, ⟨f', r2⟩, h5, h6⟩ := h3
    simp only [Option.pure_def, Option.some.injEq, Prod.mk.injEq,
      IPCResponse.initialization.injEq] at h6
    obtain ⟨⟨rfl, rfl⟩, _⟩ := h6
    simp only [decPolicy, Option.bind_eq_bind, Option.bind_eq_some_iff] at h4
    obtain ⟨⟨m1, s1⟩, k1, ⟨m2, s2⟩, k2, ⟨m3, s3⟩, k3, ⟨a, s4⟩, k4, k5⟩ := h4
    simp only [Option.pure_def, Option.some.injEq, Prod.mk.injEq] at k5
    obtain ⟨rfl, rfl⟩ := k5
    have t1 := decMap_suffix decAcc_suffix _ _ _ k1
    have t2 := decMap_suffix decAcc_suffix _ _ _ k2
    have t3 := decMap_suffix decPair_suffix _ _ _ k3
    have t4 := decBool_suffix _ _ _ k4
    have u1 : s1 <:+ bs := t1.trans hs0
    have u2 : s2 <:+ bs := t2.trans u1
    have u3 : s3 <:+ bs := t3.trans u2
    have u4 : s4 <:+ bs := t4.trans u3
    have wf : ∀ {α : Type} {d : Parser α} {b b' : Bytes} {m : AMap α},
        decMap d b = some (m, b') → DistinctKeys m := by
      intro α d b b' m hm
      simp only [decMap, Option.bind_eq_bind, Option.bind_eq_some_iff] at hm
      obtain ⟨⟨n, b1⟩, _, hm⟩ := hm
      exact decEntries_wf _ _ _ (by simp [AMap.WF]) _ _ hm
    refine ⟨?_, ?_, ?_, ?_, wf k1, wf k2, wf k3, rfl, rfl⟩
    · obtain ⟨pre, hp⟩ := decBytes_some h5
      exact List.IsInfix.trans ⟨pre, r2, hp.symm⟩ u4.isInfix
    · intro k hk; exact (decMap_keys decAcc_suffix _ _ _ k1 k hk).trans hs0.isInfix
    · intro k hk; exact (decMap_keys decAcc_suffix _ _ _ k2 k hk).trans u1.isInfix
    · intro k hk; exact (decMap_keys decPair_suffix _ _ _ k3 k hk).trans u2.isInfix
  | 1, h3 =>
    simp only [Option.bind_eq_some_iff] at h3
    obtain ⟨_, _, h6⟩ := h3
    simp at h6
  | n + 2, h3 => simp at h3

/-- Malformed inputs are rejected, a non canonical number is not: decoding is not
injective, only encoding is. -/
example : recvRequest [] = none ∧ recvRequest [3] = none ∧ recvRequest [1, 5, 47] = none ∧
    recvRequest [0x80, 0x80, 0x80, 0x80, 0x10] = none ∧
    recvRequest [0x80, 0] = some .initialization ∧
    recvRequest [0, 99] = some .initialization := by
  refine ⟨?_, ?_, ?_, ?_, ?_, ?_⟩ <;> decide +kernel

/-- C30. If the datagram of one request begins with the datagram of another, the
requests are equal. -/
theorem C30_prefix_free (a b : IPCRequest) (x y : Bytes) (ha : sendRequest a = some x)
    (hb : sendRequest b = some y) (h : x <+: y) : a = b := by
  obtain ⟨fa, rfl⟩ := fits_of_send ha
  obtain ⟨fb, rfl⟩ := fits_of_send hb
  obtain ⟨t, ht⟩ := h
  have h1 := decRequest_enc a t fa
  have h2 := decRequest_enc b [] fb
  rw [List.append_nil, ← ht, h1] at h2
  simp only [Option.some.injEq, Prod.mk.injEq] at h2
  exact h2.1

/-- C30. Different requests have different datagrams. -/
theorem C30_injective (a b : IPCRequest) (x y : Bytes) (ha : sendRequest a = some x)
    (hb : sendRequest b = some y) (hne : a ≠ b) : x ≠ y := by
  rintro rfl
  exact hne (C30_prefix_free a b x x ha hb (List.prefix_refl _))

example : ∃ x y, sendRequest (.openFile c!"/a" 0) = some x ∧ sendRequest (.openFile c!"/a/b" 0) = some y
    ∧ x ≠ y := by
  obtain ⟨x, hx⟩ := C27_request_encodes (.openFile c!"/a" 0) (by
    intro p f h; cases h
    have : (utf8 c!"/a").length = 2 := by decide +kernel
    omega)
  obtain ⟨y, hy⟩ := C27_request_encodes (.openFile c!"/a/b" 0) (by
    intro p f h; cases h
    have : (utf8 c!"/a/b").length = 4 := by decide +kernel
    omega)
  exact ⟨x, y, hx, hy, C30_injective _ _ _ _ hx hy (by decide)⟩

end Iris
