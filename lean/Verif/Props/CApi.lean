import Verif.Lemmas.CApiOwn
/-!
# The C interface (C56, C57, C79, C80, C81)
-/
namespace Iris
open Spec

/-! ## C56 C callers get the same semantics and a valid object after every call -/

/-- Missing from the full property (`Spec.AsDocumented`): histories in which a call returned
"too many handles". Every program that follows the rules, as long as it gives no policy more
than 32 handles, gets from every call what is documented, no call uses memory that was freed, and
every object it has stands for what the same calls make in Rust. -/
theorem C56_as_documented_partial (abi : Abi) (t : FdTable) (calls : List CCall) (d : Doc) (rs : List Reply)
    (hd : (Doc.start t).run abi calls = some (d, rs)) (hr : ∀ r ∈ rs, r.status ≠ .tooManyHandles) :
    ∃ s, (CState.start t).run abi calls = some (s, rs) ∧ Agree s d := by
  obtain ⟨s, e, h⟩ := sim_run abi calls _ _ d rs (sim_start t) hd hr
  exact ⟨s, e, h.agree⟩

/-- A descriptor given to a policy stays the caller's: no history of calls on policies closes
any, or changes the table of descriptors, if it gives no policy more than 32 handles. -/
theorem C56_handles_not_closed_partial (abi : Abi) (calls : List CCall) (s s' : CState) (rs : List Reply)
    (hp : ∀ c ∈ calls, OnPolicies c = true) (h : s.run abi calls = some (s', rs))
    (hr : ∀ r ∈ rs, r.status ≠ .tooManyHandles) : s'.closed = s.closed ∧ s'.table = s.table := by
  induction calls generalizing s rs with
  | nil =>
    simp only [CState.run, Option.some.injEq, Prod.mk.injEq] at h
    obtain ⟨rfl, _⟩ := h
    exact ⟨rfl, rfl⟩
  | cons c cs ih =>
    simp only [CState.run, Option.bind_eq_some_iff, Option.map_eq_some_iff, Prod.mk.injEq] at h
    obtain ⟨⟨s1, r⟩, h1, ⟨s2, rs'⟩, h2, rfl, rfl⟩ := h
    obtain ⟨e1, e2⟩ := ih s1 rs' (fun c hc => hp c (by simp [hc])) h2 (fun r hr' => hr r (by simp [hr']))
    have hstep : s1.closed = s.closed ∧ s1.table = s.table :=
      policy_step_keeps abi s s1 c r (hp c (by simp)) h1 (hr r (by simp))
    exact ⟨e1.trans hstep.1, e2.trans hstep.2⟩

/-- The call for one handle too many frees the policy, which the caller still thinks it owns, and
closes every handle it was given and the new one, which are the caller's. -/
theorem C56_one_handle_too_many (abi : Abi) (s : CState) (p : Nat) (x : CPolicy) (raw : BitVec 64)
    (hp : p ≠ 0) (hx : s.heap p = some (.policy x)) (hfull : ∀ h ∈ x.slots, h ≠ none) (hraw : raw.toNat < 2 ^ 31) :
    ∃ s', s.step abi (.allowInherit p raw) = some (s', ⟨.tooManyHandles, none⟩) ∧
      s'.heap p = none ∧ s'.closed = s.closed ++ x.slots.filterMap id ++ [raw.toNat] ∧
      (∀ call, call ∈ [CCall.policyFree p, .allowInherit p raw, .allowFs p (some []) .fileRead,
        .addLogCallback p 0] → s'.step abi call = none) := by
  rcases fromRaw_cases raw with ⟨_, h, hok, hval⟩ | ⟨hge, _⟩
  · have hat : s.policyAt p = some x := by simp only [CState.policyAt, hx]
    have hnone : fillSlot x.slots raw.toNat = none := fillSlot_full _ _ hfull
    refine ⟨_, by simp only [CState.step, cAllowInherit, if_neg hp, hok, hat, Option.map_some, hval, hnone]; rfl,
      by simp [CState.close, CState.put], by simp [CState.close, CState.put], ?_⟩
    have hdead : ((s.put p none).close (x.slots.filterMap id ++ [raw.toNat])).policyAt p = none := by
      simp [CState.policyAt, CState.close, CState.put]
    intro call hc
    simp only [List.mem_cons, List.not_mem_nil, or_false] at hc
    rcases hc with rfl | rfl | rfl | rfl
    · simp only [CState.step, hdead, Option.map_none]
    · simp only [CState.step, cAllowInherit, if_neg hp, hok, hdead, Option.map_none]
    · simp only [CState.step, cAllowFs, if_neg hp, hdead, Option.map_none]
      rfl
    · simp only [CState.step, if_neg hp, hdead, Option.map_none]
  · exact absurd hraw hge

/-- Descriptor 3 open and inheritable. -/
def capiTable : FdTable := [(0, ⟨1, 0⟩), (3, ⟨2, 0⟩)]

/-- A policy given descriptor 3 thirty-three times, then used. -/
def tooManyCalls : List CCall :=
  [.policyNew false 4096] ++ List.replicate 33 (.allowInherit 4096 3#64) ++ [.policyFree 4096]

/-- The theorem above applies after the first 32 of them. -/
example : (((CState.start capiTable).run .lp64 (tooManyCalls.take 33)).bind fun x => x.1.policyAt 4096).map
    (fun x => x.slots) = some (List.replicate 32 (some 3)) := by decide +kernel

/-- So the full property does not hold: after a 33rd handle, which the documentation does not
forbid, the next use of the policy is undefined behaviour. -/
theorem C56_violated (abi : Abi) : ¬ AsDocumented abi := by
  intro h
  have h1 : ((Doc.start capiTable).run abi tooManyCalls).isSome = true := by cases abi <;> decide +kernel
  have h2 : ((CState.start capiTable).run abi tooManyCalls).isNone = true := by cases abi <;> decide +kernel
  obtain ⟨⟨d, rs⟩, hd⟩ := Option.isSome_iff_exists.mp h1
  obtain ⟨s, hs, _⟩ := h capiTable tooManyCalls d rs hd
  rw [hs] at h2
  cases h2

/-- A history the partial theorems apply to: two policies, a rule, thirty-two handles. -/
def fineCalls : List CCall :=
  [.policyNew false 4096, .policyNew true 8192, .allowFs 4096 (some (utf8 c!"/tmp/x")) .fileRead,
   .allowFs 4096 (some [255]) .fileRead, .allowInherit 8192 99#64] ++
  List.replicate 32 (.allowInherit 4096 3#64) ++ [.policyFree 4096]

example : ((Doc.start capiTable).run .lp64 fineCalls).isSome = true ∧
    (((Doc.start capiTable).run .lp64 fineCalls).map fun x => x.2.map fun r => r.status) =
      some ([.success, .success, .success, .nonUtf8Path, .policyHandleOsOperationFailed] ++
        List.replicate 32 .success ++ [.success]) ∧
    (fineCalls.all OnPolicies) = true := by decide +kernel

/-! ## C57 Every error has its own C status code -/

/-- Statuses are different as C integers. -/
theorem C57_codes_injective (a b : IrisStatus) (h : a.code = b.code) : a = b := by
  cases a <;> cases b <;> first | rfl | exact absurd h (by decide)

/-- For all errors of all types, whatever they carry: the code is not success, nor one of those the
interface uses for its own errors, and two errors have the same code exactly when they are of the
same kind. -/
theorem C57_code_per_kind (a b : LibError) :
    a.code ≠ 0 ∧ 1000 < a.code.toNat ∧ (a.code = b.code ↔ a.kind = b.kind) := by
  obtain ⟨x, hx, hi, hi'⟩ := kinds_complete a
  obtain ⟨y, hy, hj, hj'⟩ := kinds_complete b
  rw [hi, hj, hi', hj']
  have key : ∀ x ∈ kinds, ∀ y ∈ kinds, x.code ≠ 0 ∧ 1000 < x.code.toNat ∧ (x.code = y.code ↔ x.kind = y.kind) := by
    decide +kernel
  exact key x hx y hy

/-- And the code is the documented number of its kind. -/
theorem C57_code_values (e : LibError) : (e.kind, e.code.toNat) ∈ kindCodes ∧
    ∀ c ∈ interfaceCodes, c.1.code.toNat = c.2 := by
  obtain ⟨x, hx, hi, hi'⟩ := kinds_complete e
  rw [hi, hi']
  have key : ∀ x ∈ kinds, (x.kind, x.code.toNat) ∈ kindCodes := by decide +kernel
  exact ⟨key x hx, by decide⟩

example : (LibError.broker (.cannotBuildPolicyForWorker (.invalidHandleValue 7))).code = 1004 := by decide

/-- Granting a path returns 0 exactly when the path is UTF-8 and the same call in Rust succeeds, and
then the object is what that call makes. -/
theorem C57_success_path (abi : Abi) (s s' : CState) (p : Nat) (x : CPolicy) (bytes : Bytes) (k : FsKind)
    (r : Reply) (hp : p ≠ 0) (hx : s.heap p = some (.policy x))
    (h : s.step abi (.allowFs p (some bytes) k) = some (s', r)) :
    (r.status.code = 0 ↔ ∃ str, fromUtf8 bytes = some str ∧ (x.inner.fsCall linuxOs (Spec.rustCall str k)).1 = .ok ()) ∧
    (∀ str, fromUtf8 bytes = some str →
      s'.heap p = some (.policy ⟨(x.inner.fsCall linuxOs (Spec.rustCall str k)).2, x.slots⟩)) := by
  simp only [← rustCall_eq]
  have hat : s.policyAt p = some x := by simp only [CState.policyAt, hx]
  simp only [CState.step, cAllowFs, if_neg hp, hat, Option.map_some] at h
  cases hu : fromUtf8 bytes with
  | none =>
    simp only [hu, Option.some.injEq, Prod.mk.injEq] at h
    rw [← h.2]
    simp [IrisStatus.code]
  | some str =>
    simp only [hu, Option.some.injEq, Prod.mk.injEq] at h
    rw [← h.2, ← h.1, statusOf_zero _ _ ofPolicy_ne]
    simp [CState.put]

/-- Likewise for a handle. -/
theorem C57_success_handle (abi : Abi) (s s' : CState) (p : Nat) (x : CPolicy) (raw : BitVec 64)
    (r : Reply) (hp : p ≠ 0) (hx : s.heap p = some (.policy x))
    (h : s.step abi (.allowInherit p raw) = some (s', r)) :
    (r.status.code = 0 ↔ raw.toNat < 2 ^ 31 ∧ (∃ hnd ∈ x.slots, hnd = none) ∧
      isInheritable s.table raw.toNat = .ok true) := by
  have hat : s.policyAt p = some x := by simp only [CState.policyAt, hx]
  rcases fromRaw_cases raw with ⟨hlt, hnd, hok, hval⟩ | ⟨hge, herr⟩
  · simp only [CState.step, cAllowInherit, if_neg hp, hok, hat, Option.map_some, hval] at h
    cases hf : fillSlot x.slots raw.toNat with
    | none =>
      simp only [hf, Option.some.injEq, Prod.mk.injEq] at h
      rw [← h.2]
      constructor
      · intro hc; exact absurd hc (by decide)
      · rintro ⟨_, ⟨o, hm, rfl⟩, _⟩
        exact absurd rfl (fillSlot_none_full _ _ hf none hm)
    | some slots =>
      simp only [hf, Option.some.injEq, Prod.mk.injEq] at h
      rw [← h.2]
      simp only
      rw [statusOf_zero _ _ ofPolicy_ne]
      have hex : ∃ o ∈ x.slots, o = none := by
        refine Classical.byContradiction fun hn => ?_
        have : fillSlot x.slots raw.toNat = none :=
          fillSlot_full _ _ (fun o ho e => hn ⟨o, ho, e⟩)
        rw [this] at hf; cases hf
      cases hi : isInheritable s.table raw.toNat with
      | error e => simp [Except.mapError, Policy.allowInheritHandle]
      | ok b => cases b <;> simp [Except.mapError, Policy.allowInheritHandle, hlt] <;> simpa using hex
  · simp only [CState.step, cAllowInherit, if_neg hp, herr, Option.some.injEq, Prod.mk.injEq] at h
    rw [← h.2]
    constructor
    · intro hc; exact absurd hc (by show ¬ (4001 : BitVec 64) = 0; decide)
    · rintro ⟨hlt, _⟩; exact absurd hlt hge

/-- Creating a worker returns 0 exactly when the worker was created, and then the pointer it gives is
to that worker. -/
theorem C57_success_worker (abi : Abi) (s s' : CState) (c p addr : Nat) (x : CConfig) (y : CPolicy)
    (caps : Caps) (os : NewOs) (r : Reply) (hc : c ≠ 0) (hp : p ≠ 0)
    (hx : s.heap c = some (.config x)) (hy : s.heap p = some (.policy y))
    (h : s.step abi (.workerNew c p true addr caps os) = some (s', r)) :
    (r.status.code = 0 ↔ ∃ pid sess, (workerNew abi s.table caps x.inner y.inner os).result = .ok (pid, sess)) ∧
    ∀ pid sess, (workerNew abi s.table caps x.inner y.inner os).result = .ok (pid, sess) →
      r.value = some addr ∧ addr ≠ 0 ∧ s'.heap addr = some (.worker pid) := by
  have h1 : s.configAt c = some x := by simp only [CState.configAt, hx]
  have h2 : s.policyAt p = some y := by simp only [CState.policyAt, hy]
  simp only [CState.step, cWorkerNew, hc, hp, h1, h2, Option.bind_some, false_or,
    Bool.true_eq_false, if_false] at h
  cases hres : (workerNew abi s.table caps x.inner y.inner os).result with
  | error e =>
    simp only [hres, Option.some.injEq, Prod.mk.injEq] at h
    rw [← h.2]
    exact ⟨⟨fun h => absurd h (ofBroker_ne e), fun ⟨_, _, h⟩ => by cases h⟩, fun _ _ h => by cases h⟩
  | ok z =>
    obtain ⟨pid, sess⟩ := z
    simp only [hres, Option.map_eq_some_iff, Prod.mk.injEq] at h
    obtain ⟨s1, ha, rfl, rfl⟩ := h
    unfold CState.alloc at ha
    split at ha
    · cases ha
    · rename_i hn
      simp only [Option.some.injEq] at ha
      refine ⟨⟨fun _ => ⟨pid, sess, rfl⟩, fun _ => rfl⟩, ?_⟩
      intro pid' sess' e
      simp only [Except.ok.injEq, Prod.mk.injEq] at e
      obtain ⟨rfl, _⟩ := e
      refine ⟨rfl, fun e0 => hn (.inl e0), ?_⟩
      rw [← ha]
      simp [CState.put]

example : (LibError.broker (.cannotBuildPolicyForWorker (.unsupportedFilesystemPath c!"x"))).code = 1002 ∧
    (LibError.policy (.unsupportedFilesystemPath c!"y")).code = 1002 ∧
    (LibError.handle (.invalidHandleValue 5)).code = 4001 := by decide

/-! ## C79 A configuration made in C is the one described, and owns the streams it was given -/

/-- After any calls, giving a descriptor as a stream of a configuration makes it that stream of it and
closes the descriptor it had there, and no other: what was given last for the other streams stays. -/
theorem C79_redirect (abi : Abi) (t : FdTable) (calls : List CCall) (s : CState) (rs : List Reply)
    (hs : (CState.start t).run abi calls = some (s, rs)) (st : Stream) (c : Nat) (x : CConfig)
    (raw : BitVec 64) (hc : c ≠ 0) (hx : s.heap c = some (.config x)) (hraw : raw.toNat < 2 ^ 31) :
    ∃ s', s.step abi (.redirect st c raw) = some (s', ⟨.success, none⟩) ∧
      s'.closed = s.closed ++ (streamOf x.inner st).toList ∧
      ∃ y, s'.heap c = some (.config y) ∧ y.inner = withStream x.inner (some raw.toNat) st := by
  have hat : s.configAt c = some x := by simp only [CState.configAt, hx]
  obtain ⟨w1, w2, w3⟩ := configsWf_run abi calls _ _ _ (by intro c x h; cases h) hs c x hx
  have hm : raw ≠ 0xffffffffffffffff#64 := by
    rintro rfl; exact absurd hraw (by decide)
  rcases fromRaw_cases raw with ⟨_, hnd, hok, hval⟩ | ⟨hge, _⟩
  · refine ⟨_, by simp only [CState.step, cRedirect, if_neg hc, if_neg hm, hok, Except.map, hat,
      Option.map_some, hval]; rfl, ?_, ?_⟩
    · cases st <;> simp [CState.close, CState.put, CConfig.held, streamOf, w1, w2, w3]
    · refine ⟨x.setStream (some raw.toNat) st, by simp [CState.close, CState.put], ?_⟩
      cases st <;> rfl
  · exact absurd hraw hge

/-- After any calls, freeing a configuration closes the descriptors that are its streams, and no
other. -/
theorem C79_free (abi : Abi) (t : FdTable) (calls : List CCall) (s : CState) (rs : List Reply)
    (hs : (CState.start t).run abi calls = some (s, rs)) (c : Nat) (x : CConfig)
    (hx : s.heap c = some (.config x)) :
    ∃ s', s.step abi (.configFree c) = some (s', ⟨.success, none⟩) ∧ s'.heap c = none ∧
      s'.closed = s.closed ++ x.inner.stdin.toList ++ x.inner.stdout.toList ++ x.inner.stderr.toList := by
  have hat : s.configAt c = some x := by simp only [CState.configAt, hx]
  obtain ⟨w1, w2, w3⟩ := configsWf_run abi calls _ _ _ (by intro c x h; cases h) hs c x hx
  exact ⟨_, by simp only [CState.step, hat, Option.map_some]; rfl, by simp [CState.close, CState.put],
    by simp [CState.close, CState.put, CConfig.held, w1, w2, w3]⟩

/-- The calls for one descriptor as both outputs, which works in Rust. -/
def sharedStream (fd : Nat) : List CCall :=
  [.configNew (some [97]) (some [[97]]) true 4096, .redirect .stdout 4096 (BitVec.ofNat 64 fd),
   .redirect .stderr 4096 (BitVec.ofNat 64 fd)]

/-- The descriptor is then closed twice: the second `close` can reach an unrelated file opened in
between. -/
theorem C79_shared_stream_closed_twice (abi : Abi) (t : FdTable) (fd : Nat) (hfd : fd < 2 ^ 31) :
    ∃ s rs, (CState.start t).run abi (sharedStream fd ++ [.configFree 4096]) = some (s, rs) ∧
      s.closed = [fd, fd] := by
  have hn : (BitVec.ofNat 64 fd).toNat = fd := by
    rw [BitVec.toNat_ofNat]; exact Nat.mod_eq_of_lt (by omega)
  have e0 : (CState.start t).run abi [.configNew (some [97]) (some [[97]]) true 4096] =
      some ((CState.start t).put 4096 (some (.config ⟨.new [97] [[97]], none, none, none⟩)), [⟨.success, some 4096⟩]) := rfl
  obtain ⟨s1, e1, c1, y1, h1, i1⟩ := C79_redirect abi t _ _ _ e0 .stdout 4096
    ⟨.new [97] [[97]], none, none, none⟩ (.ofNat 64 fd) (by decide) (by simp [CState.put])
    (by rw [hn]; exact hfd)
  have r1 := cRun_append abi _ [.redirect .stdout 4096 (BitVec.ofNat 64 fd)] _ _ s1 _ [⟨.success, none⟩] e0
    (by simp [CState.run, e1])
  obtain ⟨s2, e2, c2, y2, h2, i2⟩ := C79_redirect abi t _ _ _ r1 .stderr 4096 y1 (.ofNat 64 fd) (by decide) h1
    (by rw [hn]; exact hfd)
  have r2 := cRun_append abi _ [.redirect .stderr 4096 (BitVec.ofNat 64 fd)] _ _ s2 _ [⟨.success, none⟩] r1
    (by simp [CState.run, e2])
  obtain ⟨s3, e3, _, c3⟩ := C79_free abi t _ _ _ r2 4096 y2 h2
  have r3 := cRun_append abi _ [.configFree 4096] _ _ s3 _ [⟨.success, none⟩] r2 (by simp [CState.run, e3])
  refine ⟨s3, _, r3, ?_⟩
  rw [c3, c2, c1, i2, i1, hn]
  rfl

/-- C79 is false: not every descriptor is closed once. -/
theorem C79_violated (abi : Abi) : ¬ ClosesOnce abi := by
  intro h
  obtain ⟨s, rs, hr, hc⟩ := C79_shared_stream_closed_twice abi [] 5 (by decide)
  have := h [] _ s rs hr (by
    refine ⟨by simp [given], fun s' r h => ?_⟩
    cases h
    refine ⟨by simp [CState.put, CState.start], fun s' r h => ?_⟩
    cases h
    refine ⟨by simp [CState.put, CState.start, CState.close, CConfig.held], fun s' r h => ?_⟩
    cases h
    exact ⟨by simp [given], fun _ _ _ => trivial⟩)
  rw [hc] at this
  simp at this

/-- C79, what holds. Missing from the full statement: a descriptor given twice. For every program that
gives each descriptor once (to one stream of one configuration, or to one policy), whatever else it
calls and in whatever order: no descriptor is closed twice, only descriptors given are closed, and
none that is still a stream of a configuration. -/
theorem C79_closed_once_partial (abi : Abi) (t : FdTable) (calls : List CCall) (s : CState)
    (rs : List Reply) (hs : (CState.start t).run abi calls = some (s, rs))
    (hg : (calls.flatMap given).Nodup) :
    s.closed.Nodup ∧ (∀ fd ∈ s.closed, fd ∈ calls.flatMap given) ∧
    ∀ c x st fd, s.heap c = some (.config x) → streamOf x.inner st = some fd →
      fd ∉ s.closed ∧ fd ∈ calls.flatMap given := by
  have h := owned_run abi calls _ _ _ [] (owned_start t) (by simpa using hg) hs
  simp only [List.nil_append] at h
  refine ⟨h.once, h.closedGiven, ?_⟩
  intro c x st fd hx hst
  obtain ⟨w1, w2, w3⟩ := configsWf_run abi calls _ _ _ (by intro c x h; cases h) hs c x hx
  have ho : fd ∈ s.owned c := by
    simp only [CState.owned, hx, CObj.owned, CConfig.held, w1, w2, w3]
    cases st <;> simp only [streamOf] at hst <;> simp [hst]
  exact ⟨h.notClosed c fd ho, h.given c fd ho⟩

/-- A program with two configurations and three streams, one replaced, one configuration freed. -/
def distinctStreams : List CCall :=
  [.configNew (some [97]) (some [[97]]) true 4096, .redirect .stdout 4096 5, .redirect .stderr 4096 6,
   .configNew (some [98]) (some [[98]]) true 8192, .redirect .stdout 8192 7, .redirect .stdout 4096 8,
   .configFree 8192]

example : (distinctStreams.flatMap given).Nodup ∧
    (((CState.start capiTable).run .lp64 distinctStreams).map fun x => x.1.closed) = some [5, 7] := by
  decide +kernel

example : ((CState.start capiTable).run .lp64 (sharedStream 3)).isSome = true := by decide +kernel

/-! ## C80 Freeing a worker ends its process -/

/-- It does not: the processes running are the same before and after. -/
theorem C80_violated (abi : Abi) (s : CState) (w pid : Nat) (hw : s.heap w = some (.worker pid)) :
    ∃ s', s.step abi (.workerFree w) = some (s', ⟨.success, none⟩) ∧ s'.heap w = none ∧ s'.running = s.running := by
  have hat : s.workerAt w = some pid := by simp only [CState.workerAt, hw]
  exact ⟨s.put w none, by simp only [CState.step, hat, Option.map_some], by simp [CState.put], rfl⟩

example : ∃ s : CState, s.heap 4096 = some (.worker 77) ∧ 77 ∈ s.running :=
  ⟨⟨fun _ => some (.worker 77), [], [], [77]⟩, rfl, by simp⟩

/-- No call of the interface ends a process; every process once started runs on. -/
theorem C80_no_call_ends_a_process (abi : Abi) (calls : List CCall) (s s' : CState) (rs : List Reply)
    (h : s.run abi calls = some (s', rs)) : ∀ pid ∈ s.running, pid ∈ s'.running := by
  induction calls generalizing s rs with
  | nil =>
    simp only [CState.run, Option.some.injEq, Prod.mk.injEq] at h
    obtain ⟨rfl, _⟩ := h
    exact fun _ h => h
  | cons c cs ih =>
    simp only [CState.run, Option.bind_eq_some_iff, Option.map_eq_some_iff, Prod.mk.injEq] at h
    obtain ⟨⟨s1, r⟩, h1, ⟨s2, rs'⟩, h2, rfl, rfl⟩ := h
    intro pid hp
    exact ih s1 rs' h2 pid (step_running abi s s1 c r h1 pid hp)

/-! ## C81 A C log callback is told what a Rust one is -/

/-- Missing from the full property: requests whose path has a NUL. For every policy and every other
request, the C function is called for each callback registered, in order, with the same request and
the same verdict. -/
theorem C81_same_data_partial [Target] (p : Policy) (req : Request) (hn : '\x00' ∉ reqPath req) :
    ∀ n ∈ (p.evaluate req).2, ∃ creq cv, cNotify n = some (n.callback, creq, cv) ∧
      sameRequest req creq ∧ sameVerdict n.verdict cv := by
  intro n hm
  obtain ⟨hreq, hv⟩ := evaluate_notification p req n hm
  obtain ⟨cv, e1, e2⟩ := verdict_ok n.verdict (hv hn)
  obtain ⟨creq, e3, e4⟩ := request_ok req hn
  exact ⟨creq, cv, by simp [cNotify, hreq, e1, e3], e4, e2⟩

/-- A request whose path has a NUL panics in the callback before the C function is called, whatever the
policy decides about it. -/
theorem C81_violated [Target] (p : Policy) (path : Str) (flags : BitVec 32) (hn : '\x00' ∈ path)
    (n : Notification Request) (hm : n ∈ (p.evaluate (.fileOpen path flags)).2) : cNotify n = none := by
  obtain ⟨hreq, _⟩ := evaluate_notification p _ n hm
  simp [cNotify, hreq, CRequest.ofRust, cString, hn]

example : (((@Policy.evaluate x86_64 (Policy.nothingAllowed.addLogCallback 7) (.fileOpen c!"/etc/../x" 0)).2).map cNotify) =
    [some (7, .fileOpen (utf8 c!"/etc/../x") 0, .invalidRequestParameters (utf8 c!"path")
      (utf8 c!"path to open \"/etc/../x\" is not in canonical form"))] := by decide +kernel

/-- The request of the violation is denied. -/
example : (@Policy.evaluate x86_64 (Policy.nothingAllowed.addLogCallback 7) (.fileOpen ['/', 'a', '\x00'] 0)).1 ≠ .granted ∧
    (@Policy.evaluate x86_64 (Policy.nothingAllowed.addLogCallback 7) (.fileOpen ['/', 'a', '\x00'] 0)).2 ≠ [] := by
  decide +kernel

end Iris
