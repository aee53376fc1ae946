import Verif.Lemmas.RefCompiler
import Verif.Props.Seccomp
import Verif.Props.Channel
import Verif.Props.Codec
/-!
# C76-C77: the filter a worker ends up with

`lowerFinal abi t os` is the worker's final lockdown, up to its return (`none` if it panics).
-/
namespace Iris
open Spec Iris.Seccomp

theorem le16_append (a b : BitVec 8) : Bpf.le16 (a ++ b) = [⟨b⟩, ⟨a⟩] := by
  have h0 : (a ++ b).extractLsb' 0 8 = b := BitVec.extractLsb'_append_eq_right
  have h1 : (a ++ b).extractLsb' 8 8 = a := BitVec.extractLsb'_append_eq_left
  rw [Bpf.le16, h0, h1]

theorem le32_append (a b c d : BitVec 8) : Bpf.le32 (a ++ b ++ c ++ d) = [⟨d⟩, ⟨c⟩, ⟨b⟩, ⟨a⟩] := by
  have h0 : (a ++ b ++ c ++ d).extractLsb' 0 8 = d := BitVec.extractLsb'_append_eq_right
  have h1 : (a ++ b ++ c ++ d).extractLsb' 8 8 = c := by
    rw [BitVec.extractLsb'_append_eq_of_le (by omega)]
    exact BitVec.extractLsb'_append_eq_right
  have h2 : (a ++ b ++ c ++ d).extractLsb' 16 8 = b := by
    rw [BitVec.extractLsb'_append_eq_of_le (by omega), BitVec.extractLsb'_append_eq_of_le (by omega)]
    exact BitVec.extractLsb'_append_eq_right
  have h3 : (a ++ b ++ c ++ d).extractLsb' 24 8 = a := by
    rw [BitVec.extractLsb'_append_eq_of_le (by omega), BitVec.extractLsb'_append_eq_of_le (by omega)]
    exact BitVec.extractLsb'_append_eq_left
  rw [Bpf.le32, h0, h1, h2, h3]

theorem decode_take {n : Nat} {bs : Bytes} {p : List Bpf.Insn} (h : Bpf.decode n bs = some p) :
    p.length = n ∧ Bpf.encode p = bs.take (8 * n) := by
  induction n generalizing bs p with
  | zero =>
    simp only [Bpf.decode, Option.some.injEq] at h
    subst h
    exact ⟨rfl, rfl⟩
  | succ n ih =>
    match bs, h with
    | c0 :: c1 :: t :: f :: k0 :: k1 :: k2 :: k3 :: rest, h =>
      simp only [Bpf.decode, Option.map_eq_some_iff] at h
      obtain ⟨q, hq, rfl⟩ := h
      obtain ⟨h1, h2⟩ := ih hq
      refine ⟨by simp [h1], ?_⟩
      rw [Bpf.encode, List.flatMap_cons, ← Bpf.encode, h2, show 8 * (n + 1) = 8 * n + 8 by omega]
      simp only [Bpf.Insn.bytes, le16_append, le32_append, List.cons_append, List.nil_append,
        List.take_succ_cons]

theorem prelude_length (site : BitVec 64) : (prelude site).length = 5 := rfl

theorem patchLoop_length (site : BitVec 64) (n : Nat) (l : Bytes) :
    (patchLoop site n l).length = l.length := by
  induction n generalizing l with
  | zero => rfl
  | succ n ih =>
    rw [patchLoop]
    split
    · rename_i hl
      have hr : ∀ pat v : BitVec 64, ∀ (f : BitVec 64 → Bytes), (∀ x, (f x).length = 4) → ∀ m : Bytes,
          4 < m.length → (replaceFront (f pat) (f v) m).length = m.length := by
        intro pat v f hf m hm
        rw [replaceFront]
        split
        · rw [List.length_append, hf, List.length_drop]; omega
        · rfl
      have e1 := hr placeholder site firstHalf (fun _ => rfl) l hl
      have e2 := hr placeholder site secondHalf (fun _ => rfl) _ (by rw [e1]; exact hl)
      split
      · rename_i heq
        rw [heq] at e2
        rw [← e1, ← e2]
      · rename_i b r heq
        rw [heq] at e2
        rw [List.length_cons, ih, ← e1, ← e2, List.length_cons]
    · rfl

theorem patch_length (site : BitVec 64) (l : Bytes) : (patch site l).length = l.length :=
  patchLoop_length _ _ _

/-- What the worker loads: the broker's filter, patched in audit mode. -/
def Spec.toLoad (os : LockOs) (policy : Policy) (filter : Bytes) : Bytes :=
  if policy.auditOnly then patch os.callSite filter else filter

/-- The system call which installs a filter on these threads accepted it. -/
def Spec.Accepted (os : LockOs) (p : List Bpf.Insn) : Scope → Prop
  | .allThreads => os.seccompOk p = true
  | .callingThread => os.seccompOk p = false ∧ os.prctlOk p = true

theorem lowerFinal_some {abi : Abi} {t : FdTable} {os : LockOs} {L : Locked}
    (h : lowerFinal abi t os = some L) :
    ∃ data files policy filter t', os.incoming = .datagram ⟨data, files⟩ ∧
      data.length ≤ 65536 ∧ recvResponse data = some (.initialization policy filter) ∧
      applyAnswer os t' policy.auditOnly filter = some L := by
  rw [lowerFinal] at h
  split at h
  · cases h
  · split at h
    · rename_i t' policy filter heq
      cases hinc : os.incoming with
      | error e => rw [hinc] at heq; cases heq
      | eof => rw [hinc] at heq; simp [channelRecv, recvFinish, recvCmsgs] at heq
      | datagram d =>
        rw [hinc] at heq
        obtain ⟨h1, _, h3⟩ := C26_truncated_never_decoded _ _ _ _ _ _ _ _ _ heq
        exact ⟨d.data, d.files, policy, filter, t', rfl, h1, h3, h⟩
    · cases h

theorem install_some {os : LockOs} {f : Bytes} {x : List Bpf.Insn × Scope} (hlen : f.length ≤ 65536)
    (h : install os f = some x) :
    Accepted os x.1 x.2 ∧ Bpf.encode x.1 = f.take (8 * (f.length / 8)) := by
  have h16 : (BitVec.ofNat 16 (f.length / 8)).toNat = f.length / 8 := by
    rw [BitVec.toNat_ofNat]; omega
  rw [install, h16] at h
  cases hd : Bpf.decode (f.length / 8) f with
  | none => rw [hd] at h; cases h
  | some p =>
    rw [hd] at h
    simp only at h
    obtain ⟨_, h2⟩ := decode_take hd
    by_cases hs : os.seccompOk p = true
    · rw [if_pos hs] at h
      cases h
      exact ⟨hs, h2⟩
    · rw [if_neg hs] at h
      by_cases hp : os.prctlOk p = true
      · rw [if_pos hp] at h
        cases h
        exact ⟨⟨by simpa using hs, hp⟩, h2⟩
      · rw [if_neg hp] at h; cases h

/-! ## C76 -/

/-- C76. If the final lockdown returns, the broker's answer was an initialization message, and
either it contained no filter, or SIGSYS is handled and the kernel applies, instruction for
instruction, the filter in that message (patched for this program's call site in audit mode;
bytes after the last whole instruction are left out). -/
theorem C76_lockdown (abi : Abi) (t : FdTable) (os : LockOs) (L : Locked)
    (h : lowerFinal abi t os = some L) :
    ∃ data files policy filter, os.incoming = .datagram ⟨data, files⟩ ∧
      recvResponse data = some (.initialization policy filter) ∧
      L.audit = policy.auditOnly ∧
      ((filter = [] ∧ L.filter = none) ∨
       (filter ≠ [] ∧ L.handler = true ∧ os.sigactionOk = true ∧
        (os.oldSigsys = .default ∨ os.oldSigsys = .ignore) ∧
        ∃ p scope, L.filter = some (p, scope) ∧ Accepted os p scope ∧
          Bpf.encode p = (toLoad os policy filter).take (8 * (filter.length / 8)))) := by
  obtain ⟨data, files, policy, filter, t', h1, h2, h3, h4⟩ := lowerFinal_some h
  refine ⟨data, files, policy, filter, h1, h3, ?_⟩
  have hlen : filter.length ≤ 65536 :=
    Nat.le_trans (C29_response_within_input data filter policy h3).1.length_le h2
  rw [applyAnswer] at h4
  by_cases hf : filter = []
  · rw [if_pos hf] at h4
    cases h4
    exact ⟨rfl, .inl ⟨hf, rfl⟩⟩
  · rw [if_neg hf] at h4
    by_cases hs : os.sigactionOk = true
    · rw [if_pos hs] at h4
      have key : (os.oldSigsys = .default ∨ os.oldSigsys = .ignore) ∧
          (install os (toLoad os policy filter)).map
          (fun f => (⟨t', policy.auditOnly, true, some f⟩ : Locked)) = some L := by
        cases ho : os.oldSigsys with
        | default => rw [ho] at h4; exact ⟨.inl rfl, h4⟩
        | ignore => rw [ho] at h4; exact ⟨.inr rfl, h4⟩
        | handler a => rw [ho] at h4; cases h4
      obtain ⟨hoo, h5⟩ := key
      obtain ⟨⟨p, scope⟩, h6, rfl⟩ := Option.map_eq_some_iff.1 h5
      have hl : (toLoad os policy filter).length = filter.length := by
        rw [toLoad]
        split
        · exact patch_length _ _
        · rfl
      obtain ⟨h7, h8⟩ := install_some (by rw [hl]; exact hlen) h6
      rw [hl] at h8
      exact ⟨rfl, .inr ⟨hf, rfl, hs, hoo, p, scope, rfl, h7, h8⟩⟩
    · rw [if_neg hs] at h4; cases h4

theorem lowerFinal_answered (abi : Abi) (t : FdTable) (os : LockOs) (data : Bytes) (policy : Policy) (filter : Bytes)
    (hs : os.sendError = none) (hi : os.incoming = .datagram ⟨data, []⟩) (hd : data.length ≤ 65536)
    (hm : recvResponse data = some (.initialization policy filter)) :
    lowerFinal abi t os = applyAnswer os t policy.auditOnly filter := by
  have hne : data ≠ [] := by rintro rfl; cases hm
  obtain ⟨bs, hb⟩ := C27_request_encodes .initialization (by simp)
  rw [lowerFinal, hs, hb, channelSend_plain, hi]
  simp only
  rw [channelRecv_plain, if_neg (by simp only [IPC_MESSAGE_MAX_SIZE]; omega),
    if_neg (by simpa using hne)]
  rw [show deserialize decResponse data = some (.initialization policy filter) from hm]

/-- C76. The lockdown does succeed, in both modes: if the message arrives, SIGSYS was not handled and the kernel
takes the program whose whole instructions the (patched) filter is made of, the worker goes on under it. -/
theorem C76_lockdown_succeeds (abi : Abi) (t : FdTable) (os : LockOs) (data : Bytes)
    (policy : Policy) (filter : Bytes) (prog : List Bpf.Insn) (hne : filter ≠ [])
    (hs : os.sendError = none) (hi : os.incoming = .datagram ⟨data, []⟩)
    (hd : data.length ≤ 65536)
    (hm : recvResponse data = some (.initialization policy filter))
    (hp : Bpf.encode prog = (toLoad os policy filter).take (8 * (filter.length / 8)))
    (ha : os.sigactionOk = true)
    (ho : os.oldSigsys = .default ∨ os.oldSigsys = .ignore)
    (hk : os.seccompOk prog = true ∨ os.prctlOk prog = true) :
    ∃ scope, lowerFinal abi t os = some ⟨t, policy.auditOnly, true, some (prog, scope)⟩ ∧ Accepted os prog scope := by
  have hlen : filter.length ≤ 65536 :=
    Nat.le_trans (C29_response_within_input data _ policy hm).1.length_le hd
  have hl : (toLoad os policy filter).length = filter.length := by
    unfold toLoad
    split
    · exact patch_length _ _
    · rfl
  have h8 : prog.length = filter.length / 8 := by
    have := congrArg List.length hp
    rw [encode_length, List.length_take, hl] at this
    omega
  have h16 : (BitVec.ofNat 16 ((toLoad os policy filter).length / 8)).toNat = prog.length := by
    rw [hl, h8, BitVec.toNat_ofNat]; omega
  have hinst : ∃ scope, install os (toLoad os policy filter) = some (prog, scope) ∧ Accepted os prog scope := by
    have := decode_encode prog ((toLoad os policy filter).drop (8 * (filter.length / 8)))
    rw [hp, List.take_append_drop] at this
    rw [install, h16, this]
    by_cases h1 : os.seccompOk prog = true
    · exact ⟨_, if_pos h1, h1⟩
    · have h2 : os.prctlOk prog = true := by
        rcases hk with hk | hk
        · exact absurd hk h1
        · exact hk
      exact ⟨.callingThread, by simp only; rw [if_neg h1, if_pos h2], by simpa using h1, h2⟩
  obtain ⟨scope, hinst, hacc⟩ := hinst
  refine ⟨scope, ?_, hacc⟩
  rw [lowerFinal_answered abi t os data policy filter hs hi hd hm, applyAnswer, if_neg hne, if_pos ha]
  unfold toLoad at hinst
  rcases ho with ho | ho <;> rw [ho] <;> simp [hinst]

/-- C76. If the message contains no filter, the worker goes on without one and leaves SIGSYS alone. -/
theorem C76_no_filter (abi : Abi) (t : FdTable) (os : LockOs) (data : Bytes) (policy : Policy)
    (hs : os.sendError = none) (hi : os.incoming = .datagram ⟨data, []⟩) (hd : data.length ≤ 65536)
    (hm : recvResponse data = some (.initialization policy [])) :
    lowerFinal abi t os = some ⟨t, policy.auditOnly, false, none⟩ := by
  rw [lowerFinal_answered abi t os data policy [] hs hi hd hm, applyAnswer, if_pos rfl]

/-! ## C77 -/

/-- C77, full statement: whatever libseccomp does, a worker which has been sent the broker's
answer and whose lockdown returns runs under a filter. -/
def Spec.AlwaysFiltered : Prop :=
  ∀ (abi : Abi) (t : FdTable) (os : LockOs) (L : Locked) (lib : Lib) (pid : BitVec 64)
    (p : Policy) (data : Bytes),
    sendResponse (.initialization p.runtime ((computeSeccompFilter lib pid p.auditOnly).toOption.getD []))
      = some data →
    os.incoming = .datagram ⟨data, []⟩ → lowerFinal abi t os = some L → L.filter ≠ none

/-- A system on which everything works, where the broker answers with these bytes. -/
def calmOs (data : Bytes) : LockOs where
  sendError := none
  incoming := .datagram ⟨data, []⟩
  canInstall := 2
  oldSigsys := .default
  sigactionOk := true
  seccompOk := fun _ => true
  prctlOk := fun _ => true
  callSite := 0x7f001234005b#64

/-- C77 is false: if the filter cannot be computed, the broker sends an empty one and the worker
goes on without any. -/
theorem C77_violated : ¬ Spec.AlwaysFiltered := by
  intro h
  have hl : computeSeccompFilter { goodLib with newFilter := false } 1#64 false = .error .seccompError := by
    decide
  refine h .lp64 [] (calmOs [0, 0, 0, 0, 0, 0]) ⟨[], false, false, none⟩
    { goodLib with newFilter := false } 1#64 Policy.nothingAllowed [0, 0, 0, 0, 0, 0] ?_ rfl ?_ rfl
  · rw [show Policy.nothingAllowed.auditOnly = false from rfl, hl]
    decide +kernel
  · have hm : recvResponse [0, 0, 0, 0, 0, 0] = some (.initialization Policy.nothingAllowed []) := by
      decide +kernel
    obtain ⟨bs, hb⟩ := C27_request_encodes .initialization (by simp)
    rw [lowerFinal, show (calmOs [0, 0, 0, 0, 0, 0]).sendError = none from rfl, hb, channelSend_plain,
      show (calmOs [0, 0, 0, 0, 0, 0]).incoming = .datagram ⟨[0, 0, 0, 0, 0, 0], []⟩ from rfl]
    simp only
    rw [channelRecv_plain, if_neg (by decide), if_neg (by decide),
      show deserialize decResponse [0, 0, 0, 0, 0, 0] = _ from hm]
    rfl

/-- C77. A filter is computed only if libseccomp could create one for the three architectures and a temporary file could be
created; it is, if libseccomp also accepts the rules for the system calls it knows and writes the program. Otherwise the error
is a `SeccompError`, or a panic if it is the temporary file that is missing. -/
theorem C77_computed (lib : Lib) (pid : BitVec 64) (audit : Bool) :
    (∀ bytes, computeSeccompFilter lib pid audit = .ok bytes →
      lib.newFilter = true ∧ (∀ arch, lib.addArch arch = true) ∧ lib.tempfile = true) ∧
    (lib.newFilter = true → (∀ arch, lib.addArch arch = true) →
      (∀ r, lib.fromName r.name = true → lib.addRule r = true) → (∀ rules, lib.exportBpf rules ≠ none) →
      (lib.tempfile = true → ∃ bytes, computeSeccompFilter lib pid audit = .ok bytes) ∧
      (lib.tempfile = false → computeSeccompFilter lib pid audit = .error .panic)) ∧
    (computeSeccompFilter lib pid audit = .error .panic → lib.tempfile = false) := by
  refine ⟨fun bytes h => ?_, fun h1 h2 h3 h4 => ?_, fun h => ?_⟩
  · rw [computeSeccompFilter] at h
    split at h
    · cases h
    · next rules hr =>
      obtain ⟨e1, e2⟩ := buildRules_needs hr
      split at h
      · next ht => exact ⟨e1, e2, ht⟩
      · cases h
  · obtain ⟨out, ho⟩ := addRules_total lib (allRules pid) [] (fun r _ => h3 r)
    have hb : buildRules lib pid = .ok out := by
      rw [buildRules, if_pos (by simp [h1, h2]), ho]
    rw [computeSeccompFilter, hb]
    refine ⟨fun ht => ?_, fun ht => by simp [ht]⟩
    cases hx : lib.exportBpf out with
    | none => exact absurd hx (h4 out)
    | some q => exact ⟨Bpf.encode (if audit then prelude placeholder else []) ++ Bpf.encode q, by simp only [ht, if_true, hx]⟩
  · rw [computeSeccompFilter] at h
    split at h
    · next e hr =>
      rw [buildRules] at hr
      split at hr
      · cases Except.error.inj h
        exact absurd hr (addRules_no_panic lib _ _)
      · cases hr; cases h
    · split at h
      · split at h <;> cases h
      · next ht => simpa using ht

example : (∃ bytes, computeSeccompFilter Ref.lib 4321#64 true = .ok bytes) ∧
    computeSeccompFilter { Ref.lib with tempfile := false } 4321#64 false = .error .panic ∧
    computeSeccompFilter { Ref.lib with addArch := fun a => a ≠ .x86 } 4321#64 false = .error .seccompError := by
  refine ⟨⟨(computeSeccompFilter Ref.lib 4321#64 true).toOption.getD [], by decide +kernel⟩, by decide +kernel, by decide +kernel⟩

/-- C77, what holds. Missing: a filter that cannot be computed (see `C77_violated`), and in audit
mode the addresses and filters of C49. Otherwise the worker runs under a program which allows and
traps exactly what the broker's rules say, for every system call of the three architectures, except
that in audit mode everything is allowed from the call site. -/
theorem C77_enforced_partial [Target] (numbers : Arch → String → Option (BitVec 32)) (lib : Lib)
    (hlib : Faithful numbers lib) (abi : Abi) (t : FdTable) (os : LockOs) (L : Locked)
    (pid : BitVec 64) (p : Policy) (bytes data : Bytes)
    (hf : DistinctKeys p.files) (hd : DistinctKeys p.dirs) (hk : DistinctKeys p.regkeys)
    (hc : computeSeccompFilter lib pid p.auditOnly = .ok bytes)
    (hs : sendResponse (.initialization p.runtime bytes) = some data)
    (hi : os.incoming = .datagram ⟨data, []⟩) (hL : lowerFinal abi t os = some L)
    (haudit : p.auditOnly = true → Bpf.lo os.callSite ≠ 0xCAFECAFE#32 ∧ NoPlaceholder (bytes.drop 40)) :
    ∃ rules prog scope, buildRules lib pid = .ok rules ∧ L.filter = some (prog, scope) ∧
      L.handler = true ∧ L.audit = p.auditOnly ∧
      ∀ d arch name args, IsCall numbers d arch name args →
        Bpf.run prog d =
          if p.auditOnly = true ∧ d.ip = os.callSite then some 0x7fff0000#32
          else some (code (decision rules name args)) := by
  rw [computeSeccompFilter] at hc
  split at hc
  · cases hc
  rename_i rules hrules
  split at hc
  case isFalse => cases hc
  split at hc
  · cases hc
  rename_i prog hexp
  obtain ⟨hload, hrun⟩ := hlib rules prog hexp
  have harch := (buildRules_needs hrules).2
  obtain ⟨q, hq, heq, _⟩ := C28_policy_round_trip p bytes data hf hd hk hs
  have hqa : q.auditOnly = p.auditOnly := by
    simp only [Policy.eq, Bool.and_eq_true, beq_iff_eq] at heq
    exact heq.2
  obtain ⟨data', files', q', filter', e1, e2, e3, e4⟩ := C76_lockdown abi t os L hL
  rw [hi] at e1
  cases e1
  rw [hq] at e2
  cases e2
  have hprog : prog ≠ [] := by
    obtain ⟨i, rest, rfl, _⟩ := hload
    simp
  have hbne : bytes ≠ [] := by
    intro h0
    rw [h0] at hc
    have h1 := congrArg (fun x => x.toOption.map List.length) hc
    simp only [Except.toOption, Option.map_some, List.length_append, encode_length, List.length_nil,
      Option.some.injEq] at h1
    exact hprog (List.length_eq_zero_iff.1 (by omega))
  rcases e4 with ⟨h0, _⟩ | ⟨_, hh, _, _, prog', scope, hfil, _, henc⟩
  · exact absurd h0 hbne
  refine ⟨rules, prog', scope, hrules, hfil, hh, by rw [e3, hqa], ?_⟩
  have hinj : ∀ x, bytes.length = 8 * x.length → toLoad os q bytes = Bpf.encode x → prog' = x := by
    intro x hx1 hx2
    rw [hx2, hx1, Nat.mul_div_cancel_left _ (by omega), ← encode_length, List.take_length] at henc
    have h1 := decode_encode x []
    have h2 := decode_encode prog' []
    rw [List.append_nil] at h1 h2
    have hl : prog'.length = x.length := by
      have := congrArg List.length henc
      rw [encode_length, encode_length] at this
      omega
    rw [henc, hl, h1] at h2
    exact (Option.some.inj h2).symm
  intro d arch name args hcall
  cases ha : p.auditOnly with
  | false =>
    rw [ha] at hc hqa
    have hb : bytes = Bpf.encode prog := by
      rw [if_neg (by decide)] at hc
      exact (Except.ok.inj hc).symm
    have hp' := hinj prog (by rw [hb, encode_length]) (by rw [toLoad, if_neg (by rw [hqa]; decide), hb])
    rw [hp', hrun d arch name args (harch arch) hcall]
    simp
  | true =>
    obtain ⟨h1, h2⟩ := haudit ha
    rw [ha] at hc hqa
    have hb : bytes = Bpf.encode (prelude placeholder) ++ Bpf.encode prog := by
      rw [if_pos rfl] at hc
      exact (Except.ok.inj hc).symm
    have hdrop : bytes.drop 40 = Bpf.encode prog := by
      rw [hb, List.drop_left' (by rw [encode_length]; rfl)]
    rw [hdrop] at h2
    have e1 : bytes.length = 8 * (prelude os.callSite ++ prog).length := by
      rw [hb, List.length_append, encode_length, encode_length, List.length_append, Nat.mul_add,
        prelude_length, prelude_length]
    have e2 : toLoad os q bytes = Bpf.encode (prelude os.callSite ++ prog) := by
      rw [toLoad, if_pos hqa, hb, C49_patch_partial _ _ h1 h2, encode_append]
    have hp' := hinj (prelude os.callSite ++ prog) e1 e2
    obtain ⟨c1, c2⟩ := C48_prelude os.callSite prog hload d
    rw [hp']
    by_cases hip : d.ip = os.callSite
    · rw [c1 hip, if_pos ⟨rfl, hip⟩]
    · rw [c2 hip, if_neg (fun h => hip h.2), hrun d arch name args (harch arch) hcall]

/-- The hypotheses can be met: with the reference library, for a policy that allows nothing and for
the audit policy, the filter is computed, fits in the message, contains no placeholder, and the
lockdown succeeds. -/
def exampleBytes (audit : Bool) : Bytes :=
  (computeSeccompFilter Ref.lib 4321#64 audit).toOption.getD []
def examplePolicy (audit : Bool) : Policy :=
  if audit then Policy.auditOnlyPolicy else Policy.nothingAllowed
def exampleData (audit : Bool) : Bytes :=
  (sendResponse (.initialization (examplePolicy audit).runtime (exampleBytes audit))).getD []

example (audit : Bool) :
    computeSeccompFilter Ref.lib 4321#64 (examplePolicy audit).auditOnly = .ok (exampleBytes audit) ∧
    sendResponse (.initialization (examplePolicy audit).runtime (exampleBytes audit))
      = some (exampleData audit) ∧
    (lowerFinal .lp64 [] (calmOs (exampleData audit))).isSome = true ∧
    Bpf.lo (calmOs (exampleData audit)).callSite ≠ 0xCAFECAFE#32 ∧
    NoPlaceholder ((exampleBytes audit).drop 40) := by
  cases audit <;> refine ⟨by decide +kernel, by decide +kernel, by decide +kernel, by decide, ?_, ?_⟩ <;>
    decide +kernel

end Iris
