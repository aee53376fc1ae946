import Verif.Spec.ProcessMem
/-! # Lemmas about the memory of a new worker's parameters -/
namespace Iris
open Spec

theorem takeWhile_cstr (s : Bytes) (h : (0 : UInt8) ∉ s) : (s ++ [0]).takeWhile (· != 0) = s := by
  induction s with
  | nil => rfl
  | cons x s ih =>
    simp only [List.mem_cons, not_or] at h
    have hx : (x != 0) = true := by simpa using fun h' : x = 0 => h.1 h'.symm
    rw [List.cons_append, List.takeWhile_cons, if_pos hx, ih h.2]

/-- `m'` has everything that `m` has. -/
def LMem.Extends (m m' : LMem) : Prop := ∀ a b, m.blocks a = some b → m'.blocks a = some b

theorem LMem.Extends.trans {a b c : LMem} (h : a.Extends b) (h' : b.Extends c) : a.Extends c :=
  fun x y hx => h' x y (h x y hx)

theorem extends_alloc (m : LMem) (hf : FreshMem m) (b : LBlock) : m.Extends (m.alloc b).2 := by
  intro a x h
  simp only [LMem.alloc]
  by_cases ha : a = m.next
  · rw [ha, hf _ (Nat.le_refl _)] at h
    cases h
  · rw [if_neg ha]; exact h

theorem fresh_alloc (m : LMem) (hf : FreshMem m) (b : LBlock) : FreshMem (m.alloc b).2 := by
  intro a h
  simp only [LMem.alloc] at h ⊢
  rw [if_neg (by omega)]
  exact hf a (by omega)

theorem readCStr_of {m m' : LMem} (h : m.Extends m') {a : Nat} {s : Bytes} (hs : CStringAt m a s) :
    m'.readCStr a = some s := by
  simp only [LMem.readCStr, h _ _ hs.1]
  rw [if_pos (by simp), takeWhile_cstr s hs.2]

theorem readCStrs_of {m m' : LMem} (h : m.Extends m') : ∀ (l : List Nat) (ss : List Bytes), l.length = ss.length →
    (∀ x ∈ l.zip ss, CStringAt m x.1 x.2) → m'.readCStrs l = some ss
  | [], [], _, _ => rfl
  | [], _ :: _, hl, _ => by simp at hl
  | _ :: _, [], hl, _ => by simp at hl
  | a :: l, s :: ss, hl, hz => by
    simp only [LMem.readCStrs]
    rw [readCStr_of h (hz (a, s) (by simp)),
      readCStrs_of h l ss (by simpa using hl) (fun x hx => hz x (by simp [hx]))]
    rfl

theorem untilNull_map (l : List Nat) : untilNull (l.map some ++ [none]) = some l := by
  induction l with
  | nil => rfl
  | cons a l ih => simp only [List.map_cons, List.cons_append, untilNull, ih, Option.map_some]

theorem readStrings_of {m m' : LMem} (h : m.Extends m') (a : Nat) (l : List Nat) (ss : List Bytes)
    (ha : m'.blocks a = some (.ptrs (l.map some ++ [none]))) (hl : l.length = ss.length)
    (hz : ∀ x ∈ l.zip ss, CStringAt m x.1 x.2) : m'.readStrings a = some ss := by
  simp only [LMem.readStrings, ha, untilNull_map, Option.bind_some, readCStrs_of h l ss hl hz]

theorem readBytes_of {m : LMem} (a : Nat) (s : Bytes) (ha : m.blocks a = some (.bytes (s ++ [0]))) :
    m.readBytes a s.length = some s := by
  simp only [LMem.readBytes, ha]
  rw [if_pos (by simp)]
  simp

theorem readInts_of {m : LMem} (a : Nat) (l : List Nat) (ha : m.blocks a = some (.ints (l.map Int.ofNat))) :
    m.readInts a l.length = some l := by
  simp only [LMem.readInts, ha]
  rw [if_pos (by simp)]
  congr 1
  rw [List.take_of_length_le (by simp), List.map_map]
  exact List.map_id l

/-- What the parameters of a configuration look like in memory, with the rest of what they point to. -/
structure ParamsAt (m : LMem) (p : Policy) (c : ProcessConfig) (at' : ConfigAt) (os : ProcOs) (pipe : Nat)
    (r : RawParams) : Prop where
  uidMap : m.blocks r.uidMap = some (.bytes (idMap os.uid ++ [0]))
  gidMap : m.blocks r.gidMap = some (.bytes (idMap os.gid ++ [0]))
  argv : m.blocks r.argv = some (.ptrs (at'.argv.map some ++ [none]))
  envp : m.blocks r.envp = some (.ptrs (at'.envp.map some ++ [none]))
  allowed : m.blocks r.allowed = some (.ints (p.inheritedHandles.map Int.ofNat))
  uidLen : r.uidMapLen = (idMap os.uid).length
  gidLen : r.gidMapLen = (idMap os.gid).length
  exe : r.exe = at'.exe
  count : r.allowedCount = p.inheritedHandles.length
  rest : r.errnoPipe = pipe ∧ r.stdin = c.stdin ∧ r.stdout = c.stdout ∧ r.stderr = c.stderr

theorem readParams_of {m m' : LMem} (h : m.Extends m') {p : Policy} {c : ProcessConfig} {at' : ConfigAt} {os : ProcOs}
    {pipe : Nat} {r : RawParams} (a : Nat) (hs : Stored m c at') (ha : m'.blocks a = some (.params r))
    (hr : ParamsAt m' p c at' os pipe r) : m'.readParams a = some (entryParams p c os pipe) := by
  obtain ⟨h1, h2, h3, h4, h5, e1, e2, e3, e4, e5, e6, e7, e8⟩ := hr
  simp only [LMem.readParams, ha]
  rw [e1, e2, e3, e4, e5, e6, e7, e8, readBytes_of _ _ h1, readBytes_of _ _ h2, readCStr_of h hs.exe,
    readStrings_of h _ _ _ h3 hs.argvLength hs.argv, readStrings_of h _ _ _ h4 hs.envpLength hs.envp, readInts_of _ _ h5]
  rfl

theorem drop_stack (m : LMem) (hf : FreshMem m) (b : LBlock) :
    ((m.alloc b).2.drops [m.next]) = some ⟨m.blocks, m.next + 1⟩ := by
  simp only [LMem.drops, LMem.free, LMem.alloc, if_true, Option.map_some, Option.bind_some, Option.some.injEq,
    LMem.mk.injEq, and_true]
  funext i
  by_cases h : i = m.next
  · rw [if_pos h, h, hf _ (Nat.le_refl _)]
  · rw [if_neg h, if_neg h]

theorem fresh_next {m : LMem} (hf : FreshMem m) (n : Nat) (h : m.next ≤ n) : FreshMem ⟨m.blocks, n⟩ :=
  fun a ha => hf a (Nat.le_trans h ha)

theorem tryCloneMem_error (e : Nat) (flags : BitVec 32) (m : LMem) (hf : FreshMem m) :
    tryCloneMem (.error e) flags m = some (.error e, ⟨m.blocks, m.next + 1⟩) := by
  simp only [tryCloneMem]
  have := drop_stack m hf (.stack DEFAULT_CLONE_STACK_SIZE)
  simp only [LMem.alloc] at this ⊢
  rw [this]
  rfl

/-- The three attempts. -/
theorem attempts_mem (os : ProcOs) (m : LMem) (hf : FreshMem m) :
    let r := orElseMem (orElseMem (tryCloneMem os.clone1 (CLONE_NEWUSER ||| CLONE_NEWPID) m) os.clone2 CLONE_NEWPID) os.clone3 0#32
    match tryClone os with
    | .error e => ∃ n code, m.next ≤ n ∧ r = some (.error code, ⟨m.blocks, n⟩) ∧
        e = .internalOsOperationFailed c!"clone() failed" code
    | .ok (pid, _, ns) => ∃ n flags, m.next ≤ n ∧
        r = some (.ok (pid, n, flags), ((⟨m.blocks, n⟩ : LMem).alloc (.stack (1024 * 1024))).2) ∧
        flags &&& 0x100#32 = 0#32 ∧ decide (flags &&& 0x20000000#32 ≠ 0#32) = ns := by
  intro r
  simp only [r, tryClone]
  cases h1 : os.clone1 with
  | ok pid => exact ⟨m.next, _, Nat.le_refl _, rfl, by decide, by decide⟩
  | error e1 =>
    simp only [tryCloneMem_error e1 _ m hf, orElseMem]
    have hf1 := fresh_next hf (m.next + 1) (by omega)
    cases h2 : os.clone2 with
    | ok pid => exact ⟨m.next + 1, _, by omega, rfl, by decide, by decide⟩
    | error e2 =>
      simp only [tryCloneMem_error e2 _ _ hf1]
      have hf2 := fresh_next hf (m.next + 1 + 1) (by omega)
      cases h3 : os.clone3 with
      | ok pid => exact ⟨m.next + 1 + 1, _, by omega, rfl, by decide, by decide⟩
      | error e3 => exact ⟨m.next + 1 + 1 + 1, e3, by omega, tryCloneMem_error e3 _ _ hf2, rfl⟩

/-- The parameters, where `n` is the address of the first block allocated for them. -/
def rawParams (n : Nat) (p : Policy) (c : ProcessConfig) (at' : ConfigAt) (os : ProcOs) (pipe : Nat) : RawParams :=
  ⟨n + 3, (idMap os.uid).length, n + 4, (idMap os.gid).length, at'.exe, n, n + 1,
    n + 2, p.inheritedHandles.length, pipe, c.stdin, c.stdout, c.stderr⟩

/-- The memory once everything for the new process is allocated. -/
def withParams (m : LMem) (p : Policy) (c : ProcessConfig) (at' : ConfigAt) (os : ProcOs) (pipe : Nat) : LMem :=
  ⟨fun i => if i = m.next + 5 then some (.params (rawParams m.next p c at' os pipe))
    else if i = m.next + 4 then some (.bytes (idMap os.gid ++ [0]))
    else if i = m.next + 3 then some (.bytes (idMap os.uid ++ [0]))
    else if i = m.next + 2 then some (.ints (p.inheritedHandles.map Int.ofNat))
    else if i = m.next + 1 then some (.ptrs (at'.envp.map some ++ [none]))
    else if i = m.next then some (.ptrs (at'.argv.map some ++ [none]))
    else m.blocks i, m.next + 6⟩

theorem drops_all : ∀ (l : List Nat) (m : LMem), l.Nodup → (∀ a ∈ l, (m.blocks a).isSome) →
    m.drops l = some ⟨fun i => if i ∈ l then none else m.blocks i, m.next⟩
  | [], m, _, _ => by simp [LMem.drops]
  | a :: l, m, hd, hl => by
    obtain ⟨b, hb⟩ := Option.isSome_iff_exists.1 (hl a (by simp))
    rw [List.nodup_cons] at hd
    simp only [LMem.drops, LMem.free, hb, Option.map_some, Option.bind_some]
    rw [drops_all l _ hd.2 ?_]
    · simp only [Option.some.injEq, LMem.mk.injEq, and_true]
      funext i
      by_cases h1 : i ∈ l
      · simp [h1]
      · by_cases h2 : i = a <;> simp [h1, h2]
    · intro x hx
      have : x ≠ a := fun h => hd.1 (h ▸ hx)
      simp only [if_neg this]
      exact hl x (by simp [hx])

theorem withParams_outside (m : LMem) (p : Policy) (c : ProcessConfig) (at' : ConfigAt) (os : ProcOs) (pipe i : Nat)
    (h : i < m.next ∨ m.next + 6 ≤ i) : (withParams m p c at' os pipe).blocks i = m.blocks i := by
  simp only [withParams]
  rw [if_neg (by omega), if_neg (by omega), if_neg (by omega), if_neg (by omega), if_neg (by omega), if_neg (by omega)]

theorem withParams_live (m : LMem) (p : Policy) (c : ProcessConfig) (at' : ConfigAt) (os : ProcOs) (pipe i : Nat)
    (h : m.next ≤ i) (h' : i < m.next + 6) : ((withParams m p c at' os pipe).blocks i).isSome := by
  simp only [withParams]
  repeat' split
  all_goals first | rfl | omega

theorem withParams_fresh {m : LMem} (hf : FreshMem m) (p : Policy) (c : ProcessConfig) (at' : ConfigAt) (os : ProcOs)
    (pipe : Nat) : FreshMem (withParams m p c at' os pipe) := by
  intro a h
  rw [withParams_outside m p c at' os pipe a (.inr h)]
  exact hf a (Nat.le_trans (by simp [withParams]) h)

theorem withParams_extends {m : LMem} (hf : FreshMem m) (p : Policy) (c : ProcessConfig) (at' : ConfigAt) (os : ProcOs)
    (pipe : Nat) : m.Extends (withParams m p c at' os pipe) := by
  intro a b h
  by_cases ha : a < m.next
  · rw [withParams_outside m p c at' os pipe a (.inl ha)]; exact h
  · rw [hf a (by omega)] at h; cases h

theorem withParams_params {m m' : LMem} (p : Policy) (c : ProcessConfig) (at' : ConfigAt)
    (os : ProcOs) (pipe : Nat) (h : (withParams m p c at' os pipe).Extends m') :
    m'.blocks (m.next + 5) = some (.params (rawParams m.next p c at' os pipe)) ∧
      ParamsAt m' p c at' os pipe (rawParams m.next p c at' os pipe) := by
  refine ⟨h _ _ (by simp [withParams]), ⟨h _ _ ?_, h _ _ ?_, h _ _ ?_, h _ _ ?_, h _ _ ?_, rfl, rfl, rfl, rfl, rfl, rfl,
    rfl, rfl⟩⟩ <;> simp [withParams, rawParams]

end Iris
