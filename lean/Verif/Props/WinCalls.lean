import Verif.Spec.WinCalls
/-!
# C135: calls of functions of Windows, and of the hooks
-/
namespace Iris
open Spec

theorem unslot_slot {arch : WinArch} {t : ParamType} {v : BitVec 64} (junk : BitVec 32) (h : Fits arch t v) :
    unslot t (slot arch junk t v) = v := by
  have e : ∀ v : BitVec 64, v.toNat < 4294967296 → (v.truncate 32).zeroExtend 64 = v := by
    intro v hv; apply BitVec.eq_of_toNat_eq; simp; omega
  cases arch <;> cases t <;> simp only [unslot, slot, Fits] at *
  · rw [e v h]; exact e v h
  · exact e v h
  · have : (junk ++ v.truncate 32).truncate 32 = v.truncate 32 := by
      have h2 : (junk ++ v.truncate 32 : BitVec (32 + 32)).toNat = junk.toNat <<< 32 ||| (v.truncate 32).toNat :=
        BitVec.toNat_append ..
      apply BitVec.eq_of_toNat_eq
      rw [BitVec.truncate, BitVec.toNat_setWidth]
      show (junk ++ v.truncate 32 : BitVec (32 + 32)).toNat % 2 ^ 32 = _
      rw [h2, ← Nat.shiftLeft_add_eq_or_of_lt (v.truncate 32).isLt, Nat.shiftLeft_eq]
      have := (v.truncate 32).isLt
      simp only [BitVec.truncate] at *
      omega
    rw [this]; exact e v h

theorem pushAll_sp (l : List (BitVec 64)) (s : CallState) : (pushAll l s).sp = s.sp - 4 * l.length := by
  induction l with
  | nil => simp [pushAll]
  | cons v l ih => simp only [pushAll, List.length_cons]; rw [ih]; omega

theorem pushAll_above (l : List (BitVec 64)) (s : CallState) : ∀ a, s.sp ≤ a → (pushAll l s).mem a = s.mem a := by
  induction l with
  | nil => exact fun a _ => rfl
  | cons v l ih =>
    intro a h
    have := pushAll_sp l s
    simp only [pushAll, CallState.store]
    rw [if_neg (by omega)]
    exact ih a h

theorem pushAll_get (l : List (BitVec 64)) (s : CallState) :
    ∀ (i : Nat) v, l[i]? = some v → (pushAll l s).mem ((pushAll l s).sp + 4 * i) = v := by
  induction l with
  | nil => intro i v h; cases h
  | cons w l ih =>
    intro i v h
    cases i with
    | zero =>
      simp only [List.getElem?_cons_zero, Option.some.injEq] at h
      simp [pushAll, CallState.store, h]
    | succ i =>
      simp only [List.getElem?_cons_succ] at h
      have := ih i v h
      simp only [pushAll, CallState.store]
      rw [if_neg (by omega), ← this]
      congr 1; omega

theorem storeAll_sp (base : Int) (l : List (BitVec 64)) : ∀ i s, (storeAll base i l s).sp = s.sp := by
  induction l with
  | nil => exact fun _ _ => rfl
  | cons v l ih => intro i s; simp only [storeAll]; split <;> rw [ih] <;> rfl

theorem storeAll_mem (base : Int) (l : List (BitVec 64)) :
    ∀ (i : Nat) s (a : Int), (a < base + 8 * i ∨ base + 8 * (i + l.length) ≤ a) → (storeAll base i l s).mem a = s.mem a := by
  induction l with
  | nil => exact fun _ _ _ _ => rfl
  | cons v l ih =>
    intro i s a h
    simp only [List.length_cons] at h
    simp only [storeAll]
    split
    · rw [ih (i + 1) _ a (by omega)]
    · rw [ih (i + 1) _ a (by omega)]
      simp only [CallState.store]
      rw [if_neg (by omega)]

theorem storeAll_regs (base : Int) (l : List (BitVec 64)) :
    ∀ i s k, k < i → (storeAll base i l s).regs k = s.regs k := by
  induction l with
  | nil => exact fun _ _ _ _ => rfl
  | cons v l ih =>
    intro i s k h
    simp only [storeAll]
    split
    · rw [ih _ _ _ (by omega)]
      simp only []
      rw [if_neg (by omega)]
    · rw [ih _ _ _ (by omega)]; rfl

theorem storeAll_get (base : Int) (l : List (BitVec 64)) :
    ∀ i s k v, l[k]? = some v →
      (if i + k < 4 then (storeAll base i l s).regs (i + k) else (storeAll base i l s).mem (base + 8 * (i + k : Nat))) = v := by
  induction l with
  | nil => intro i s k v h; cases h
  | cons w l ih =>
    intro i s k v h
    cases k with
    | zero =>
      simp only [List.getElem?_cons_zero, Option.some.injEq] at h
      simp only [Nat.add_zero, storeAll]
      by_cases hi : i < 4
      · simp only [hi, if_true]
        rw [storeAll_regs _ _ _ _ _ (by omega)]; simp [h]
      · simp only [hi, if_false]
        rw [storeAll_mem base l (i + 1) _ _ (by omega)]; simp [CallState.store, h]
    | succ k =>
      simp only [List.getElem?_cons_succ] at h
      have e : i + (k + 1) = i + 1 + k := by omega
      simp only [storeAll, e]
      split
      · by_cases hi : i < 4
        · simp only [hi, if_true]; rename_i hk; have := ih (i + 1) { s with regs := fun k => if k = i then w else s.regs k } k v h
          rwa [if_pos hk] at this
        · omega
      · rename_i hk
        by_cases hi : i < 4
        · simp only [hi, if_true]; have := ih (i + 1) { s with regs := fun k => if k = i then w else s.regs k } k v h
          rwa [if_neg hk] at this
        · simp only [hi, if_false]; have := ih (i + 1) (s.store (base + 8 * i) w) k v h
          rwa [if_neg hk] at this

/-- What each function finds, once started. -/
theorem enterCall_param (c : Convention) (args : List (BitVec 64)) (ret : BitVec 64) (s : CallState) (i : Nat)
    (v : BitVec 64) (h : args[i]? = some v) : param c (enterCall c args ret s) i = v := by
  have push : (pushAll args s).mem ((pushAll args s).sp + 4 * i) = v := pushAll_get args s i v h
  cases c with
  | cdecl =>
    simp only [param, enterCall, CallState.store]
    rw [if_neg (by omega), ← push]; congr 1; omega
  | stdcall =>
    simp only [param, enterCall, CallState.store]
    rw [if_neg (by omega), ← push]; congr 1; omega
  | win64 =>
    have hs := storeAll_get (s.sp - 8 * (max 4 args.length : Nat)) args 0
      { s with sp := s.sp - 8 * (max 4 args.length : Nat) } i v h
    simp only [param, enterCall, CallState.store, storeAll_sp]
    simp only [Nat.zero_add] at hs
    split
    · rename_i hi; rwa [if_pos hi] at hs
    · rename_i hi
      rw [if_neg hi] at hs
      rw [if_neg (by omega), ← hs]; congr 1; omega

theorem enterCall_ret (c : Convention) (args : List (BitVec 64)) (ret : BitVec 64) (s : CallState) :
    (enterCall c args ret s).mem (enterCall c args ret s).sp = ret := by
  cases c <;> simp [enterCall, CallState.store]

theorem enterCall_above (c : Convention) (args : List (BitVec 64)) (ret : BitVec 64) (s : CallState) (a : Int)
    (h : s.sp ≤ a) : (enterCall c args ret s).mem a = s.mem a := by
  have push := pushAll_above args s a h
  have sp := pushAll_sp args s
  cases c with
  | cdecl => simp only [enterCall, CallState.store]; rw [if_neg (by omega)]; exact push
  | stdcall => simp only [enterCall, CallState.store]; rw [if_neg (by omega)]; exact push
  | win64 =>
    simp only [enterCall, CallState.store, storeAll_sp]
    rw [if_neg (by omega), storeAll_mem _ args 0 _ a (by omega)]

theorem callFn_mem (arch : WinArch) (f g : FnType) (junk : BitVec 32) (args : List (BitVec 64)) (ret : BitVec 64)
    (s : CallState) (a : Int) (h : s.sp ≤ a) : (callFn arch f g junk args ret s).2.2.mem a = s.mem a := by
  have : ∀ (c : Convention) n (s : CallState), (afterCall c n s).mem = s.mem := by intro c n s; cases c <;> rfl
  have h2 : ∀ (c : Convention) n (s : CallState), (leaveCall c n s).mem = s.mem := by intro c n s; cases c <;> rfl
  simp only [callFn, this, h2]
  exact enterCall_above _ _ _ _ _ h

theorem allFit_length {arch : WinArch} : ∀ {ts : List ParamType} {vs : List (BitVec 64)}, AllFit arch ts vs →
    ts.length = vs.length
  | [], [], _ => rfl
  | _ :: _, _ :: _, h => by simp [allFit_length h.2]
  | [], _ :: _, h => h.elim
  | _ :: _, [], h => h.elim

theorem slots_seen {arch : WinArch} (junk : BitVec 32) (seen : Nat → BitVec 64) : ∀ {ts : List ParamType} {vs : List (BitVec 64)},
    AllFit arch ts vs → (∀ i v, ((ts.zip vs).map fun x => slot arch junk x.1 x.2)[i]? = some v → seen i = v) →
      ts.mapIdx (fun i t => unslot t (seen i)) = vs
  | [], [], _, _ => rfl
  | t :: ts, v :: vs, hf, h => by
    have ih := slots_seen junk (fun i => seen (i + 1)) hf.2 (fun i v hv => h (i + 1) v (by simpa using hv))
    have h0 := h 0 _ (by simp; rfl)
    simp only [List.mapIdx_cons, h0, unslot_slot junk hf.1]
    simpa [Function.comp_def] using ih
  | [], _ :: _, hf, _ => hf.elim
  | _ :: _, [], hf, _ => hf.elim

/-- The declared type is the real one. -/
theorem callFn_same (arch : WinArch) (f : FnType) (junk : BitVec 32) (args : List (BitVec 64)) (ret : BitVec 64)
    (s : CallState) (h : AllFit arch f.params args) : CallOk args ret s (callFn arch f f junk args ret s) := by
  refine ⟨?_, enterCall_ret _ _ _ _, ?_, fun a => callFn_mem _ _ _ _ _ _ _ _⟩
  · exact slots_seen junk _ h fun i v hv => enterCall_param _ _ _ _ _ _ hv
  · have hl := allFit_length h
    have hsp := fun l => pushAll_sp l s
    simp only [callFn]
    generalize f.abi.convention arch = c
    cases c with
    | cdecl => simp [enterCall, leaveCall, afterCall, hsp, CallState.store, ← hl]
    | stdcall => simp [enterCall, leaveCall, afterCall, hsp, CallState.store, ← hl]
    | win64 => simp [enterCall, leaveCall, afterCall, storeAll_sp, CallState.store, ← hl]

/-- C135: each hook gets the arguments of the function it takes the place of, can return, and leaves the stack as it was,
whatever the machine. -/
theorem C135_hooks (arch : WinArch) (name : List Char) (hook : FnType) (hm : (name, hook) ∈ hookFunctions) :
    ∃ real, winFunction name = some real ∧ ∀ junk args ret s, AllFit arch real.params args →
      CallOk args ret s (callFn arch real hook junk args ret s) := by
  have h : winFunction name = some hook := by
    simp only [hookFunctions, List.mem_cons, List.not_mem_nil, or_false, Prod.mk.injEq] at hm
    obtain ⟨rfl, rfl⟩ | ⟨rfl, rfl⟩ | ⟨rfl, rfl⟩ := hm <;> rfl
  exact ⟨hook, h, fun junk args ret s hf => callFn_same arch hook junk args ret s hf⟩

/-- C135: the hooks are these. -/
theorem C135_hooked : hookFunctions.map (·.1) = ["NtCreateFile".toList, "NtOpenFile".toList, "NtCreateKey".toList] := by
  decide

/-- C135: a function of Windows the code calls gets its arguments and leaves the stack as it was, on 64-bit machines, and on
32-bit machines if it is a function of ntdll. -/
theorem C135_calls_partial (arch : WinArch) (name : List Char) (f : FnType) (hm : (name, f) ∈ calledFunctions)
    (ha : arch = .x64 ∨ name.take 2 = ['N', 't']) :
    ∃ real, winFunction name = some real ∧ ∀ junk args ret s, AllFit arch real.params args →
      CallOk args ret s (callFn arch f real junk args ret s) := by
  simp only [calledFunctions, List.mem_cons, List.not_mem_nil, or_false, Prod.mk.injEq] at hm
  obtain ⟨rfl, rfl⟩ | ⟨rfl, rfl⟩ | ⟨rfl, rfl⟩ | ⟨rfl, rfl⟩ | ⟨rfl, rfl⟩ | ⟨rfl, rfl⟩ := hm
  · exact ⟨_, rfl, fun junk args ret s hf => callFn_same arch pNtCreateFile junk args ret s hf⟩
  · exact ⟨_, rfl, fun junk args ret s hf => callFn_same arch pNtCreateKey junk args ret s hf⟩
  · exact ⟨_, rfl, fun junk args ret s hf => callFn_same arch pNtOpenKey junk args ret s hf⟩
  · exact ⟨_, rfl, fun junk args ret s hf => callFn_same arch ntQueryInformationProcess junk args ret s hf⟩
  · obtain rfl | ha := ha
    · exact ⟨_, rfl, fun junk args ret s hf => callFn_same .x64 createAppContainerProfileFn junk args ret s hf⟩
    · exact absurd ha (by decide)
  · obtain rfl | ha := ha
    · exact ⟨_, rfl, fun junk args ret s hf => callFn_same .x64 deleteAppContainerProfileFn junk args ret s hf⟩
    · exact absurd ha (by decide)

/-- C135: the functions called by the code are these. -/
theorem C135_called : calledFunctions.map (·.1) = ["NtCreateFile".toList, "NtCreateKey".toList, "NtOpenKey".toList,
    "NtQueryInformationProcess".toList, "CreateAppContainerProfile".toList, "DeleteAppContainerProfile".toList] := by
  decide

/-- On a 32-bit machine, a function that removes its own arguments and is called as one that does not. -/
theorem callFn_x86 (f : FnType) (hf : f.abi = .C) (ps : List ParamType) (hp : f.params = ps) (junk : BitVec 32)
    (args : List (BitVec 64)) (ret : BitVec 64) (s : CallState) (h : AllFit .x86 ps args) :
    (callFn .x86 f ⟨.system, ps⟩ junk args ret s).1 = args ∧ (callFn .x86 f ⟨.system, ps⟩ junk args ret s).2.1 = ret ∧
    (callFn .x86 f ⟨.system, ps⟩ junk args ret s).2.2.sp = s.sp + 4 * ps.length := by
  subst hp
  refine ⟨?_, enterCall_ret _ _ _ _, ?_⟩
  · refine slots_seen junk _ h fun i v hv => ?_
    have := enterCall_param (f.abi.convention .x86) _ ret s i v hv
    rw [hf] at this ⊢
    exact this
  · have hl := allFit_length h
    have hsp := fun l => pushAll_sp l s
    simp [callFn, hf, RustAbi.convention, enterCall, leaveCall, afterCall, hsp, CallState.store, ← hl]

/-- C135 is false on 32-bit machines: each call of `CreateAppContainerProfile` leaves the stack pointer 24 bytes too high, and each
call of `DeleteAppContainerProfile` 4 bytes. -/
theorem C135_violated (junk : BitVec 32) (args : List (BitVec 64)) (name ret : BitVec 64) (s : CallState)
    (h : AllFit .x86 [.pointer, .pointer, .pointer, .pointer, .dword, .pointer] args) (hn : AllFit .x86 [.pointer] [name]) :
    ∃ fc fd rc rd, ("CreateAppContainerProfile".toList, fc) ∈ calledFunctions ∧
      ("DeleteAppContainerProfile".toList, fd) ∈ calledFunctions ∧
      winFunction "CreateAppContainerProfile".toList = some rc ∧ winFunction "DeleteAppContainerProfile".toList = some rd ∧
      (callFn .x86 fc rc junk args ret s).2.2.sp = s.sp + 24 ∧ (callFn .x86 fd rd junk [name] ret s).2.2.sp = s.sp + 4 ∧
      ¬ CallOk args ret s (callFn .x86 fc rc junk args ret s) ∧ ¬ CallOk [name] ret s (callFn .x86 fd rd junk [name] ret s) := by
  have h1 := (callFn_x86 createAppContainerProfileFn rfl _ rfl junk args ret s h).2.2
  have h2 := (callFn_x86 deleteAppContainerProfileFn rfl _ rfl junk [name] ret s hn).2.2
  refine ⟨createAppContainerProfileFn, deleteAppContainerProfileFn, _, _, by decide, by decide, rfl, rfl, h1, h2, ?_, ?_⟩
  · rintro ⟨-, -, h3, -⟩
    have := h1.symm.trans h3
    simp [createAppContainerProfileFn] at this
    omega
  · rintro ⟨-, -, h3, -⟩
    have := h2.symm.trans h3
    simp [deleteAppContainerProfileFn] at this
    omega

theorem profileCalls_x86 (real : List Char → FnType) (h1 : some (real "CreateAppContainerProfile".toList) =
      winFunction "CreateAppContainerProfile".toList)
    (h2 : some (real "DeleteAppContainerProfile".toList) = winFunction "DeleteAppContainerProfile".toList)
    (leftover : Bool) (junk : BitVec 32) (args : List (BitVec 64)) (name ret : BitVec 64) (s : CallState)
    (h : AllFit .x86 [.pointer, .pointer, .pointer, .pointer, .dword, .pointer] args) (hn : AllFit .x86 [.pointer] [name]) :
    (profileCalls .x86 real leftover junk args name ret s).sp = s.sp + (if leftover then 52 else 24) := by
  have e1 := Option.some.inj h1
  have e2 := Option.some.inj h2
  have c : ∀ s, (callFn .x86 createAppContainerProfileFn (real c!"CreateAppContainerProfile") junk args ret s).2.2.sp = s.sp + 24 := by
    intro s
    have := (callFn_x86 createAppContainerProfileFn rfl _ rfl junk args ret s h).2.2
    rw [show real c!"CreateAppContainerProfile" = _ from e1]
    exact this
  have d : ∀ s, (callFn .x86 deleteAppContainerProfileFn (real c!"DeleteAppContainerProfile") junk [name] ret s).2.2.sp = s.sp + 4 := by
    intro s
    have := (callFn_x86 deleteAppContainerProfileFn rfl _ rfl junk [name] ret s hn).2.2
    rw [show real c!"DeleteAppContainerProfile" = _ from e2]
    exact this
  cases leftover with
  | false => simp only [profileCalls]; exact c s
  | true =>
    simp only [profileCalls, if_true]
    rw [c, d, c]; omega

/-- C135 is false on 32-bit machines: after the calls made for an AppContainer, the next call writes its return address over
something the caller keeps on its stack. -/
theorem C135_violated_overwrites (real : List Char → FnType) (h1 : some (real "CreateAppContainerProfile".toList) =
      winFunction "CreateAppContainerProfile".toList)
    (h2 : some (real "DeleteAppContainerProfile".toList) = winFunction "DeleteAppContainerProfile".toList)
    (leftover : Bool) (junk : BitVec 32) (args : List (BitVec 64)) (name ret ret' : BitVec 64) (s : CallState)
    (h : AllFit .x86 [.pointer, .pointer, .pointer, .pointer, .dword, .pointer] args) (hn : AllFit .x86 [.pointer] [name]) :
    ∃ a, s.sp ≤ a ∧
      (enterCall .stdcall [] ret' (profileCalls .x86 real leftover junk args name ret s)).mem a = ret' := by
  have hsp := profileCalls_x86 real h1 h2 leftover junk args name ret s h hn
  refine ⟨(profileCalls .x86 real leftover junk args name ret s).sp - 4, ?_, ?_⟩
  · rw [hsp]; cases leftover <;> simp <;> omega
  · simp [enterCall, pushAll, CallState.store]

/-- C135: the calls made for an AppContainer leave the stack as it was on a 64-bit machine. -/
theorem C135_profile_x64 (real : List Char → FnType) (h1 : some (real "CreateAppContainerProfile".toList) =
      winFunction "CreateAppContainerProfile".toList)
    (h2 : some (real "DeleteAppContainerProfile".toList) = winFunction "DeleteAppContainerProfile".toList)
    (leftover : Bool) (junk : BitVec 32) (args : List (BitVec 64)) (name ret : BitVec 64) (s : CallState)
    (h : AllFit .x64 [.pointer, .pointer, .pointer, .pointer, .dword, .pointer] args) :
    (profileCalls .x64 real leftover junk args name ret s).sp = s.sp ∧
    ∀ a, s.sp ≤ a → (profileCalls .x64 real leftover junk args name ret s).mem a = s.mem a := by
  have e1 := Option.some.inj h1
  have e2 := Option.some.inj h2
  have c : ∀ s, CallOk args ret s (callFn .x64 createAppContainerProfileFn (real c!"CreateAppContainerProfile") junk args ret s) := by
    intro s
    rw [show real c!"CreateAppContainerProfile" = _ from e1]
    exact callFn_same .x64 createAppContainerProfileFn junk args ret s h
  have d : ∀ s, CallOk [name] ret s (callFn .x64 deleteAppContainerProfileFn (real c!"DeleteAppContainerProfile") junk [name] ret s) := by
    intro s
    rw [show real c!"DeleteAppContainerProfile" = _ from e2]
    exact callFn_same .x64 deleteAppContainerProfileFn junk [name] ret s ⟨trivial, trivial⟩
  cases leftover with
  | false => exact ⟨(c s).2.2.1, (c s).2.2.2⟩
  | true =>
    simp only [profileCalls, if_true]
    refine ⟨by rw [(c _).2.2.1, (d _).2.2.1, (c _).2.2.1], fun a ha => ?_⟩
    rw [(c _).2.2.2 a (by rw [(d _).2.2.1, (c _).2.2.1]; exact ha), (d _).2.2.2 a (by rw [(c _).2.2.1]; exact ha), (c _).2.2.2 a ha]

/-- C135: the broker finds a function of ntdll exactly if ntdll is loaded and has it, and then calls that one. -/
theorem C135_found (w : WinLibraries) (func : List Char) (hf : '\x00' ∉ func) (a : BitVec 64) :
    ntFunction w func = some a ↔ ∃ exports, w.loaded.lookup "ntdll.dll".toList = some exports ∧ Exported exports func a := by
  have hd : '\x00' ∉ c!"ntdll.dll" := by decide
  have e : ntFunction w func = if getProcAddress w c!"ntdll.dll" func = 0 then none else some (getProcAddress w c!"ntdll.dll" func) := by
    unfold ntFunction
    split
    · rename_i h; exact (if_pos h).symm
    · rename_i h1; exact (if_neg (fun h2 => h1 h2)).symm
  rw [e]
  have g : getProcAddress w c!"ntdll.dll" func =
      match w.loaded.lookup "ntdll.dll".toList with
      | none => 0
      | some exports => (exports.lookup func).getD 0 := by
    unfold getProcAddress
    rw [if_neg hd, if_neg hf]
    rfl
  rw [g]
  cases w.loaded.lookup "ntdll.dll".toList with
  | none => simp
  | some exports =>
    cases hx : exports.lookup func with
    | none => simp [Exported, hx]
    | some b =>
      simp only [hx, Option.getD_some, Option.some.injEq, Exported]
      constructor
      · intro h
        split at h
        · cases h
        · rename_i hb; cases h; exact ⟨exports, rfl, hx, hb⟩
      · rintro ⟨_, rfl, h, h0⟩
        rw [hx] at h; cases h
        rw [if_neg h0]

/-- C135: AppContainers are used exactly if userenv.dll can be loaded and has both functions. -/
theorem C135_supported (w : WinLibraries) (a b : BitVec 64) :
    appContainerProfileFn w = some (a, b) ↔
      ∃ exports, (w.loaded.lookup "userenv.dll".toList = some exports ∨
          w.loaded.lookup "userenv.dll".toList = none ∧ w.onDisk.lookup "userenv.dll".toList = some exports) ∧
        Exported exports "CreateAppContainerProfile".toList a ∧ Exported exports "DeleteAppContainerProfile".toList b := by
  have hl : loadLibrary w c!"userenv.dll" = match w.loaded.lookup "userenv.dll".toList with
    | some e => some e
    | none => w.onDisk.lookup "userenv.dll".toList := rfl
  have key : ∀ exports : List (List Char × BitVec 64),
      ((if (exports.lookup c!"CreateAppContainerProfile").getD 0 = 0 ∨ (exports.lookup c!"DeleteAppContainerProfile").getD 0 = 0 then none
        else some ((exports.lookup c!"CreateAppContainerProfile").getD 0, (exports.lookup c!"DeleteAppContainerProfile").getD 0)) = some (a, b)) ↔
      Exported exports "CreateAppContainerProfile".toList a ∧ Exported exports "DeleteAppContainerProfile".toList b := by
    intro exports
    have e1 : c!"CreateAppContainerProfile" = "CreateAppContainerProfile".toList := rfl
    have e2 : c!"DeleteAppContainerProfile" = "DeleteAppContainerProfile".toList := rfl
    rw [e1, e2]
    generalize "CreateAppContainerProfile".toList = n1
    generalize "DeleteAppContainerProfile".toList = n2
    unfold Exported
    cases exports.lookup n1 with
    | none => simp
    | some x =>
      cases exports.lookup n2 with
      | none => simp
      | some y =>
        simp only [Option.getD_some, Option.some.injEq]
        constructor
        · intro h
          split at h
          · cases h
          · rename_i hn
            simp only [Option.some.injEq, Prod.mk.injEq] at h
            obtain ⟨rfl, rfl⟩ := h
            exact ⟨⟨rfl, fun e => hn (.inl e)⟩, rfl, fun e => hn (.inr e)⟩
        · rintro ⟨⟨rfl, h1⟩, rfl, h2⟩
          rw [if_neg (by rintro (h | h); exact h1 h; exact h2 h)]
  unfold appContainerProfileFn
  rw [hl]
  cases h1 : w.loaded.lookup "userenv.dll".toList with
  | some exports =>
    simp only [key]
    constructor
    · intro h; exact ⟨exports, .inl rfl, h⟩
    · rintro ⟨e, (he | he), h⟩
      · cases he; exact h
      · cases he.1
  | none =>
    cases h2 : w.onDisk.lookup "userenv.dll".toList with
    | none =>
      simp only []
      constructor
      · intro h; cases h
      · rintro ⟨e, (he | he), h⟩
        · cases he
        · cases he.2
    | some exports =>
      simp only [key]
      constructor
      · intro h; exact ⟨exports, .inr ⟨trivial, rfl⟩, h⟩
      · rintro ⟨e, (he | he), h⟩
        · cases he
        · cases he.2; exact h

/-! ### Cases that meet the hypotheses -/

/-- C135_hooks: an open of a file on a 32-bit machine. -/
example : (c!"NtOpenFile", hookNtOpenFileFn) ∈ hookFunctions ∧
    AllFit .x86 hookNtOpenFileFn.params [0x401000, 0x80100000, 0x402000, 0x403000, 7, 0x20] :=
  ⟨by decide, by simp [hookNtOpenFileFn, AllFit, Fits]⟩

/-- C135_calls_partial: creation of a profile on a 64-bit machine, deletion on none of 32 bits. -/
example : (c!"CreateAppContainerProfile", createAppContainerProfileFn) ∈ calledFunctions ∧
    AllFit .x64 createAppContainerProfileFn.params [0x7ff612340000, 0x7ff612340000, 0x7ff612340000, 0, 0, 0x12fe00] :=
  ⟨by decide, by simp [createAppContainerProfileFn, AllFit, Fits]⟩

/-- C135_violated: the arguments of process.rs:307-316. -/
example : AllFit .x86 [.pointer, .pointer, .pointer, .pointer, .dword, .pointer] [0x401000, 0x401000, 0x401000, 0, 0, 0x12fe00] ∧
    AllFit .x86 [.pointer] [0x401000] := by
  simp [AllFit, Fits]

def winCallsDemo : WinLibraries :=
  ⟨[(c!"ntdll.dll", [(c!"NtCreateFile", 0x77001000), (c!"NtOpenKey", 0x77002000)])],
   [(c!"userenv.dll", [(c!"CreateAppContainerProfile", 0x76001000), (c!"DeleteAppContainerProfile", 0x76002000)])]⟩

/-- C135_found, C135_supported. -/
example : ntFunction winCallsDemo c!"NtOpenKey" = some 0x77002000 ∧ ntFunction winCallsDemo c!"NtCreateKey" = none ∧
    appContainerProfileFn winCallsDemo = some (0x76001000, 0x76002000) := by
  decide +kernel

end Iris
