import Verif.Lemmas.LinuxPolicy
/-!
# Properties C01 - C17: Linux policy decisions

The specification used in the statements is in `Verif/Spec/LinuxPolicy.lean`.
-/
namespace Iris
open Spec

/-! ## C01 Deny by default -/

/-- Whatever callbacks and handles are registered, without a file rule nothing is
granted. -/
theorem C01_deny_by_default [Target] (h : List Call) (hno : ∀ c, Call.fs c ∉ h) (req : Request) :
    ((Policy.nothingAllowed.calls h).evaluate req).1 ≠ .granted := by
  have ha : (Policy.nothingAllowed.calls h).auditOnly = false := calls_audit _ _
  cases req with
  | syscall nb args ip => simp [Policy.evaluate, ha]
  | fileOpen path flags =>
    rw [evaluate_fst, ha]
    simp only [Bool.false_eq_true, if_false]
    intro hg
    obtain ⟨_, ⟨cs, hd⟩, hrw, _⟩ := (checkFileOpen_granted_iff _ _ _).1 hg
    rw [readAllowed_iff rfl rfl h hd, writeAllowed_iff rfl rfl h hd] at hrw
    rcases hrw with ⟨c, hm, _⟩ | ⟨c, hm, _⟩ <;> exact hno c hm

example : ∀ c, Call.fs c ∉ [Call.addLogCallback 3, Call.inheritHandle 5 (.ok true)] := by simp

/-! ## C02 File open decisions are exactly what the rules say -/

theorem C02_file_open_exact [Target] (h : List Call) (path : Str) (flags : BitVec 32) :
    ((Policy.nothingAllowed.calls h).evaluate (.fileOpen path flags)).1 = .granted ↔
      Supported flags ∧ ∃ cs, Denotes path cs ∧
        (ReadAllowed h cs ∨ WriteAllowed h cs) ∧
        (AsksRead flags → ReadAllowed h cs) ∧
        (AsksWrite flags → WriteAllowed h cs) := by
  have ha : (Policy.nothingAllowed.calls h).auditOnly = false := calls_audit _ _
  rw [evaluate_fst, ha]
  simp only [Bool.false_eq_true, if_false]
  rw [checkFileOpen_granted_iff]
  constructor
  · rintro ⟨hs, ⟨cs, hd⟩, h1, h2, h3⟩
    rw [readAllowed_iff rfl rfl h hd] at h1 h2
    rw [writeAllowed_iff rfl rfl h hd] at h1 h3
    exact ⟨hs, cs, hd, h1, h2, h3⟩
  · rintro ⟨hs, cs, hd, h1, h2, h3⟩
    rw [readAllowed_iff rfl rfl h hd, writeAllowed_iff rfl rfl h hd]
    exact ⟨hs, ⟨cs, hd⟩, h1, h2, h3⟩

/-- A path is named by at most one component list, so the existential in C02 is
not a choice. -/
theorem C02_denotes_unique {s : Str} {cs ds : List Str} (h : Denotes s cs) (h' : Denotes s ds) :
    cs = ds := h.unique h'

example : ((@Policy.evaluate x86_64 (Policy.nothingAllowed.calls
    [.fs (.dirRead c!"/etc"), .fs (.fileWrite c!"/tmp/log/"), .fs (.fileRead c!"relative")])
    (.fileOpen c!"/etc/ssl/cert" O_RDONLY))).1 = .granted := by decide +kernel

example : ((@Policy.evaluate x86_64 (Policy.nothingAllowed.calls
    [.fs (.dirRead c!"/etc"), .fs (.fileWrite c!"/tmp/log/")])
    (.fileOpen c!"/etc/ssl/cert" O_RDWR))).1 ≠ .granted := by decide +kernel

/-! ## C03 No access beyond the rules, in terms of what the kernel does -/

theorem C03_no_excess_access [Target] (h : List Call) (path : Str) (flags : BitVec 32)
    (hg : ((Policy.nothingAllowed.calls h).evaluate (.fileOpen path flags)).1 = .granted)
    (hT : Target.oLargefile = 0#32 ∨ Target.oLargefile = 0x8000#32) :
    ∃ cs, Denotes path cs ∧
      (KernelReadable flags → ReadAllowed h cs) ∧
      (KernelWritable flags → WriteAllowed h cs) ∧
      (KernelTruncates flags → WriteAllowed h cs) ∧
      (KernelCreates flags → WriteAllowed h cs) ∧
      ¬ KernelTmpfile flags ∧
      (ReadAllowed h cs ∨ WriteAllowed h cs) := by
  obtain ⟨hs, cs, hd, h1, h2, h3⟩ := (C02_file_open_exact h path flags).1 hg
  refine ⟨cs, hd, ?_, ?_, ?_, ?_, ?_, h1⟩
  · rintro ⟨hp, hm⟩
    refine h2 ⟨hp, ?_⟩
    have : flags &&& 1#32 = accMode flags &&& 1#32 := by
      rw [accMode, BitVec.and_assoc]; rfl
    simp only [Has, ne_eq, this]
    rcases hm with hm | hm <;> rw [hm] <;> decide
  · rintro ⟨hp, hm⟩
    refine h3 ⟨hp, ?_⟩
    rcases hm with hm | hm
    · left
      have : flags &&& 1#32 = accMode flags &&& 1#32 := by
        rw [accMode, BitVec.and_assoc]; rfl
      simp only [Has, this, hm]; decide
    · right; left
      have : flags &&& 2#32 = accMode flags &&& 2#32 := by
        rw [accMode, BitVec.and_assoc]; rfl
      simp only [Has, this, hm]; decide
  · rintro ⟨hp, hm⟩
    exact h3 ⟨hp, Or.inr (Or.inr (Or.inl hm))⟩
  · rintro ⟨hp, hm⟩
    exact h3 ⟨hp, Or.inr (Or.inr (Or.inr (Or.inl hm)))⟩
  · intro hm
    apply hm
    apply BitVec.eq_of_getLsbD_eq
    intro i hi
    have hbit : ∀ i, i < 32 → (0x400000#32).getLsbD i = true → i = 22 := by decide
    simp only [BitVec.getLsbD_and, BitVec.getLsbD_zero]
    cases hf : flags.getLsbD i with
    | false => rfl
    | true =>
      cases hb : (0x400000#32).getLsbD i with
      | false => rfl
      | true =>
        have := hbit i hi hb
        subst this
        rcases hs 22 hi hf with h' | h'
        · simp at h'
        · rcases hT with hT | hT <;> rw [hT] at h' <;> simp at h'

example : @Target.oLargefile x86_64 = 0#32 ∧ @Target.oLargefile i686 = 0x8000#32 := ⟨rfl, rfl⟩

example : ((@Policy.evaluate x86_64 (Policy.nothingAllowed.calls
    [.fs (.fileRead c!"/a"), .fs (.fileWrite c!"/a")])
    (.fileOpen c!"/a" (O_RDWR ||| O_CREAT ||| O_TRUNC)))).1 = .granted := by decide +kernel

/-! ## C04 Non canonical paths are never opened -/

theorem C04_canonical_only [Target] (p : Policy) (he : p.auditOnly = false) (path : Str)
    (flags : BitVec 32) (hn : ¬ Canonical path) :
    (p.evaluate (.fileOpen path flags)).1 ≠ .granted := by
  rw [evaluate_fst, he]
  simp only [Bool.false_eq_true, if_false]
  intro hg
  exact hn ((checkFileOpen_granted_iff _ _ _).1 hg).2.1

/-- What is not canonical, in terms of the text of the path: anything relative,
with an empty component, or with a `.` or `..` component. -/
theorem C04_not_canonical_text (path : Str)
    (h : path.head? ≠ some '/' ∨ path = ['/'] ∨ c!"//" <:+: path ∨
      c!"/./" <:+: path ++ ['/'] ∨ c!"/../" <:+: path ++ ['/']) :
    ¬ Canonical path := by
  rintro ⟨cs, hd⟩
  have hsplit := hd.split
  have hcs := hd.2.1
  have hroot : split '/' (path ++ ['/']) = split '/' path ++ [[]] := by
    rw [split_append_sep]; rfl
  have hmid : ∀ (d u v : Str), path ++ ['/'] = u ++ ('/' :: d ++ ['/']) ++ v → '/' ∉ d →
      d ∈ split '/' path ∨ d = [] := by
    intro d u v e hd
    have h1 : d ∈ split '/' (path ++ ['/']) := by
      rw [e]
      have : u ++ ('/' :: d ++ ['/']) ++ v = u ++ '/' :: (d ++ '/' :: v) := by simp
      rw [this, split_append_sep, split_append hd]
      simp
    rw [hroot] at h1
    rcases List.mem_append.1 h1 with h1 | h1
    · exact Or.inl h1
    · right; simpa using h1
  have hgood : ∀ d, d ∈ split '/' path → d ≠ [] → GoodComponent d := by
    intro d hd hne
    rcases hsplit with e | e <;> rw [e] at hd
    · rcases List.mem_cons.1 hd with h | h
      · exact absurd h hne
      · exact hcs d h
    · rcases List.mem_cons.1 hd with h | h
      · exact absurd h hne
      · rcases List.mem_append.1 h with h | h
        · exact hcs d h
        · exact absurd (by simpa using h) hne
  rcases h with h | h | h | h | h
  · apply h
    have := hd.startsWith
    cases path with
    | nil => simp [Iris.startsWith, stripPrefix] at this
    | cons x xs =>
      simp only [Iris.startsWith, stripPrefix] at this
      split at this
      · rename_i hx; simp [hx]
      · cases this
  · subst h
    have hs : split '/' ['/'] = [[], []] := by decide
    rw [hs] at hsplit
    have hne := hd.1
    rcases hsplit with e | e
    · have : cs = [[]] := by simpa using e.symm
      rw [this] at hcs
      exact (hcs [] (by simp)).1 rfl
    · have : cs ++ [[]] = [[]] := by simpa using e.symm
      cases cs with
      | nil => exact hne rfl
      | cons a b => simp at this
  · obtain ⟨u, v, e⟩ := h
    have hs : split '/' path = split '/' u ++ [] :: split '/' v := by
      rw [← e]
      have : u ++ ['/', '/'] ++ v = u ++ '/' :: ([] ++ '/' :: v) := by simp
      rw [this, split_append_sep, split_append (by simp)]
    have hu := split_ne_nil '/' u
    have hv := split_ne_nil '/' v
    have hnot : ∀ (l : List Str), (∀ c ∈ l, GoodComponent c) → [] ∉ l :=
      fun l hl hm => (hl [] hm).1 rfl
    cases hu' : split '/' u with
    | nil => exact hu hu'
    | cons a t =>
      rw [hu'] at hs
      rcases hsplit with e' | e'
      · rw [e'] at hs
        simp only [List.cons_append, List.cons.injEq] at hs
        refine hnot cs hcs ?_
        rw [hs.2]; simp
      · rw [e'] at hs
        simp only [List.cons_append, List.cons.injEq] at hs
        obtain ⟨w, x, hx⟩ : ∃ w x, split '/' v = w ++ [x] := by
          rcases List.eq_nil_or_concat (split '/' v) with h | ⟨w, x, h⟩
          · exact absurd h hv
          · exact ⟨w, x, by rw [h, List.concat_eq_append]⟩
        have h2 := hs.2
        rw [hx] at h2
        have h3 : cs ++ [[]] = (t ++ [] :: w) ++ [x] := by rw [h2]; simp
        have h4 := (List.append_inj' h3 rfl).1
        refine hnot cs hcs ?_
        rw [h4]; simp
  · obtain ⟨u, v, e⟩ := h
    rcases hmid ['.'] u v (by rw [← e]; simp) (by decide) with h | h
    · exact (hgood _ h (by simp)).2.2.1 rfl
    · simp at h
  · obtain ⟨u, v, e⟩ := h
    rcases hmid ['.', '.'] u v (by rw [← e]; simp) (by decide) with h | h
    · exact (hgood _ h (by simp)).2.2.2 rfl
    · simp at h

example : c!"/../" <:+: c!"/allowed/../etc/shadow" ++ ['/'] := ⟨c!"/allowed", c!"etc/shadow/", rfl⟩
example : c!"/../" <:+: c!"/allowed/.." ++ ['/'] := ⟨c!"/allowed", [], rfl⟩

/-! ## C05 Directory rules stop at component boundaries -/

/-- With a single directory read rule on `ds`, a canonical path is readable
exactly when `ds` is a component-wise prefix of it. -/
theorem C05_directory_rule_exact [Target] (r path : Str) (ds cs : List Str)
    (hr : Denotes r ds) (hp : Denotes path cs) :
    ((Policy.nothingAllowed.calls [.fs (.dirRead r)]).evaluate (.fileOpen path 0#32)).1
      = .granted ↔ ds <+: cs := by
  rw [C02_file_open_exact]
  have hread : ∀ xs, ReadAllowed [Call.fs (.dirRead r)] xs ↔ ds <+: xs := by
    intro xs
    simp only [ReadAllowed, List.mem_singleton, Call.fs.injEq]
    constructor
    · rintro ⟨c, rfl, ds', h1, h2⟩
      rw [hr.unique h1]; exact h2
    · intro h; exact ⟨_, rfl, ds, hr, h⟩
  constructor
  · rintro ⟨_, cs', hd, _, h2, _⟩
    rw [hp.unique hd, ← hread]
    exact h2 (by simp [AsksRead, Has])
  · intro h
    refine ⟨by intro i _ hi; simp at hi, cs, hp, Or.inl ((hread cs).2 h),
      fun _ => (hread cs).2 h, ?_⟩
    simp [AsksWrite, Has]

/-- With a single file read rule, exactly that path is readable. -/
theorem C05_file_rule_exact [Target] (r path : Str) (ds cs : List Str)
    (hr : Denotes r ds) (hp : Denotes path cs) :
    ((Policy.nothingAllowed.calls [.fs (.fileRead r)]).evaluate (.fileOpen path 0#32)).1
      = .granted ↔ ds = cs := by
  rw [C02_file_open_exact]
  have hread : ∀ xs, ReadAllowed [Call.fs (.fileRead r)] xs ↔ ds = xs := by
    intro xs
    simp only [ReadAllowed, List.mem_singleton, Call.fs.injEq]
    constructor
    · rintro ⟨c, rfl, h1⟩; exact hr.unique h1
    · rintro rfl; exact ⟨_, rfl, hr⟩
  constructor
  · rintro ⟨_, cs', hd, _, h2, _⟩
    rw [hp.unique hd, ← hread]
    exact h2 (by simp [AsksRead, Has])
  · intro h
    refine ⟨by intro i _ hi; simp at hi, cs, hp, Or.inl ((hread cs).2 h),
      fun _ => (hread cs).2 h, ?_⟩
    simp [AsksWrite, Has]

/-- A rule covers the file or directory named by `cs`: it is on exactly that one, or it is a directory
rule on one of its ancestors, by whole components. -/
def Spec.Covers (r : FsCall) (cs : List Str) : Prop :=
  match r with
  | .fileRead p | .fileWrite p | .fileLock p _ _ _ => Denotes p cs
  | .dirRead p | .dirWrite p | .dirLock p _ _ _ => ∃ ds, Denotes p ds ∧ ds <+: cs

/-- Whatever rules were added before and after it, a rule that does not cover a path changes nothing
to the decisions on that path: they are the same as without the rule. -/
theorem C05_other_rules_irrelevant [Target] (before after : List Call) (r : FsCall) (path : Str)
    (cs : List Str) (flags : BitVec 32) (hp : Denotes path cs) (hr : ¬ Spec.Covers r cs) :
    ((Policy.nothingAllowed.calls (before ++ .fs r :: after)).evaluate (.fileOpen path flags)).1 = .granted ↔
    ((Policy.nothingAllowed.calls (before ++ after)).evaluate (.fileOpen path flags)).1 = .granted := by
  have hread : ReadAllowed (before ++ .fs r :: after) cs ↔ ReadAllowed (before ++ after) cs := by
    simp only [ReadAllowed, List.mem_append, List.mem_cons, Call.fs.injEq]
    constructor
    · rintro ⟨c, h | rfl | h, hg⟩
      · exact ⟨c, .inl h, hg⟩
      · exact absurd (by cases c <;> first | exact hg | exact hg.elim) hr
      · exact ⟨c, .inr h, hg⟩
    · rintro ⟨c, h | h, hg⟩
      · exact ⟨c, .inl h, hg⟩
      · exact ⟨c, .inr (.inr h), hg⟩
  have hwrite : WriteAllowed (before ++ .fs r :: after) cs ↔ WriteAllowed (before ++ after) cs := by
    simp only [WriteAllowed, List.mem_append, List.mem_cons, Call.fs.injEq]
    constructor
    · rintro ⟨c, h | rfl | h, hg⟩
      · exact ⟨c, .inl h, hg⟩
      · exact absurd (by cases c <;> first | exact hg | exact hg.elim) hr
      · exact ⟨c, .inr h, hg⟩
    · rintro ⟨c, h | h, hg⟩
      · exact ⟨c, .inl h, hg⟩
      · exact ⟨c, .inr (.inr h), hg⟩
  rw [C02_file_open_exact, C02_file_open_exact]
  constructor
  · rintro ⟨h1, ds, hd, h2, h3, h4⟩
    rw [← hp.unique hd] at h2 h3 h4
    rw [hread, hwrite] at h2
    rw [hread] at h3
    rw [hwrite] at h4
    exact ⟨h1, cs, hp, h2, h3, h4⟩
  · rintro ⟨h1, ds, hd, h2, h3, h4⟩
    rw [← hp.unique hd] at h2 h3 h4
    rw [← hread, ← hwrite] at h2
    rw [← hread] at h3
    rw [← hwrite] at h4
    exact ⟨h1, cs, hp, h2, h3, h4⟩

/-- A directory rule on /home/al does not cover /home/alice/x. -/
example : ¬ Spec.Covers (.dirWrite c!"/home/al") [c!"home", c!"alice", c!"x"] := by
  rintro ⟨ds, hd, hp⟩
  have : Denotes c!"/home/al" [c!"home", c!"al"] := ⟨by simp, by simp [GoodComponent], .inl rfl⟩
  rw [hd.unique this] at hp
  simp at hp

/-- Name-prefix confusion is impossible: whatever the other rules that do not
cover it, a rule (file or directory, any access) on `.../name` gives nothing on
a path going through a sibling `.../nameXYZ`. -/
theorem C05_sibling_not_covered (r : FsCall) (parent : List Str) (name extra : Str)
    (rest : List Str) (hx : extra ≠ []) (hr : Denotes r.path (parent ++ [name])) :
    ¬ GivesRead r (parent ++ (name ++ extra) :: rest) ∧
    ¬ GivesWrite r (parent ++ (name ++ extra) :: rest) := by
  have h1 : parent ++ [name] ≠ parent ++ (name ++ extra) :: rest := by
    intro h
    have h := List.append_cancel_left h
    simp only [List.cons.injEq, List.self_eq_append_right] at h
    exact hx h.1
  have h2 : ¬ (parent ++ [name]) <+: (parent ++ (name ++ extra) :: rest) := by
    rw [List.prefix_append_right_inj]
    rintro ⟨t, ht⟩
    simp only [List.cons_append, List.cons.injEq, List.self_eq_append_right] at ht
    exact hx ht.1
  cases r <;> simp only [FsCall.path] at hr <;> simp only [GivesRead, GivesWrite, not_false_iff,
    and_true, true_and, and_self]
  · exact fun h => h1 (hr.unique h)
  · exact fun h => h1 (hr.unique h)
  · rintro ⟨ds, hd, hp⟩; rw [← hr.unique hd] at hp; exact h2 hp
  · rintro ⟨ds, hd, hp⟩; rw [← hr.unique hd] at hp; exact h2 hp

example : Denotes c!"/etc/ssh" [c!"etc", c!"ssh"] ∧ Denotes c!"/etc/sshd/key" [c!"etc", c!"sshd", c!"key"] :=
  ⟨⟨by simp, by simp [GoodComponent], Or.inl rfl⟩, ⟨by simp, by simp [GoodComponent], Or.inl rfl⟩⟩

/-! ## C06 Adding a rule never takes access away -/

theorem C06_monotone [Target] (p : Policy) (h : List Call) (req : Request)
    (hg : (p.evaluate req).1 = .granted) : ((p.calls h).evaluate req).1 = .granted := by
  cases req with
  | syscall nb args ip =>
    simp only [Policy.evaluate, calls_audit] at hg ⊢
    exact hg
  | fileOpen path flags =>
    rw [evaluate_fst] at hg ⊢
    rw [calls_audit]
    split
    · rfl
    · rename_i ha
      rw [if_neg ha] at hg
      obtain ⟨hs, ⟨cs, hd⟩, h1, h2, h3⟩ := (checkFileOpen_granted_iff _ _ _).1 hg
      have hr : (p.allowedAccess '/' path).read = true →
          ((p.calls h).allowedAccess '/' path).read = true :=
        fun x => (allowedAccess_calls projRead p h hd).2 (Or.inl x)
      have hw : (p.allowedAccess '/' path).write = true →
          ((p.calls h).allowedAccess '/' path).write = true :=
        fun x => (allowedAccess_calls projWrite p h hd).2 (Or.inl x)
      exact (checkFileOpen_granted_iff _ _ _).2
        ⟨hs, ⟨cs, hd⟩, h1.imp hr hw, fun x => hr (h2 x), fun x => hw (h3 x)⟩

example : (@Policy.evaluate x86_64 (Policy.nothingAllowed.calls [.fs (.fileRead c!"/a")])
    (.fileOpen c!"/a" O_RDONLY)).1 = .granted := by decide +kernel

/-! ## C07 Rule order and repetition are irrelevant -/

theorem C07_order_irrelevant [Target] (p : Policy) (h₁ h₂ : List Call)
    (hsame : ∀ c, Call.fs c ∈ h₁ ↔ Call.fs c ∈ h₂) (req : Request) :
    ((p.calls h₁).evaluate req).1 = ((p.calls h₂).evaluate req).1 := by
  cases req with
  | syscall nb args ip => simp only [Policy.evaluate, calls_audit]
  | fileOpen path flags =>
    rw [evaluate_fst, evaluate_fst, calls_audit, calls_audit]
    rw [checkFileOpen_congr (p.calls h₁) (p.calls h₂) path flags]
    rintro ⟨cs, hd⟩
    have key : ∀ f, ProjOk f → f ((p.calls h₁).allowedAccess '/' path) =
        f ((p.calls h₂).allowedAccess '/' path) := by
      intro f hf
      rw [Bool.eq_iff_iff, allowedAccess_calls hf p h₁ hd, allowedAccess_calls hf p h₂ hd]
      simp only [hsame]
    exact ⟨key _ projRead, key _ projWrite⟩

example : ∀ c, Call.fs c ∈ [Call.fs (.fileRead c!"/a"), .fs (.dirLock c!"/b" true false true),
      .fs (.fileWrite c!"/a")] ↔
    Call.fs c ∈ [Call.fs (.fileWrite c!"/a"), .fs (.fileRead c!"/a"), .addLogCallback 1,
      .fs (.fileRead c!"/a"), .fs (.dirLock c!"/b" true false true)] := by
  intro c; simp only [List.mem_cons, Call.fs.injEq, List.not_mem_nil, or_false, reduceCtorEq, false_or]
  grind

/-! ## C08 A rejected rule changes nothing, and only relative paths are rejected -/

theorem C08_rejected_rule (p : Policy) (c : FsCall) :
    (∀ e, (p.call (.fs c)).1 = .error e ↔
      (c.path.head? ≠ some '/' ∧ e = .unsupportedFilesystemPath c.path)) ∧
    (∀ e, (p.call (.fs c)).1 = .error e → (p.call (.fs c)).2 = p) := by
  have hsw : startsWith '/' c.path = true ↔ c.path.head? = some '/' := by
    cases hp : c.path with
    | nil => simp [startsWith, stripPrefix]
    | cons x xs =>
      simp only [startsWith, stripPrefix, List.head?_cons, Option.some.injEq]
      split <;> simp [*]
  simp only [Policy.call, fsCall_eq]
  by_cases h : startsWith '/' c.path = true
  · have hd : linuxOs.derive c.path = .ok [c.path] := by simp [linuxOs, h]
    rw [allowFileAccess_ok hd]
    simp [hsw.1 h]
  · have hd : linuxOs.derive c.path = .error (.unsupportedFilesystemPath c.path) := by
      simp [linuxOs, h]
    rw [allowFileAccess_error hd]
    have : ¬ c.path.head? = some '/' := fun x => h (hsw.2 x)
    simp only [Except.error.injEq, ne_eq, this, not_false_iff, true_and]
    exact ⟨fun e => eq_comm, fun _ _ => trivial⟩

example : (Policy.nothingAllowed.call (.fs (.fileRead c!"etc/passwd"))).1 =
    .error (.unsupportedFilesystemPath c!"etc/passwd") := by rfl

/-! ## C09 A trailing separator makes no difference -/

/-- The same rule call with one more separator at the end of its path. -/
def FsCall.withSlash : FsCall → FsCall
  | .fileRead p => .fileRead (p ++ ['/'])
  | .fileWrite p => .fileWrite (p ++ ['/'])
  | .fileLock p r w d => .fileLock (p ++ ['/']) r w d
  | .dirRead p => .dirRead (p ++ ['/'])
  | .dirWrite p => .dirWrite (p ++ ['/'])
  | .dirLock p r w d => .dirLock (p ++ ['/']) r w d

theorem C09_rule_trailing_separator (p : Policy) (c : FsCall) (hne : c.path ≠ [])
    (hl : c.path.getLast? ≠ some '/') :
    (p.call (.fs c.withSlash)).2 = (p.call (.fs c)).2 := by
  have h1 : c.withSlash.path = c.path ++ ['/'] := by cases c <;> rfl
  have h2 : c.withSlash.isDir = c.isDir := by cases c <;> rfl
  have h3 : c.withSlash.acc = c.acc := by cases c <;> rfl
  simp only [Policy.call, fsCall_eq, h1, h2, h3]
  have hsw : startsWith '/' (c.path ++ ['/']) = startsWith '/' c.path := by
    cases hp : c.path with
    | nil => exact absurd hp hne
    | cons x xs => simp only [startsWith, stripPrefix, List.cons_append]; split <;> rfl
  by_cases h : startsWith '/' c.path = true
  · have hd : linuxOs.derive c.path = .ok [c.path] := by simp [linuxOs, h]
    have hd' : linuxOs.derive (c.path ++ ['/']) = .ok [c.path ++ ['/']] := by
      simp [linuxOs, h, hsw]
    rw [allowFileAccess_ok hd, allowFileAccess_ok hd']
    have hm : ∀ m, mergeAccess '/' m (c.path ++ ['/']) c.acc = mergeAccess '/' m c.path c.acc := by
      intro m
      simp only [mergeAccess, stripTrailing, stripSuffix_append, stripSuffix_none hl,
        Option.getD_some, Option.getD_none]
    have hm' : ∀ m, mergeAccess linuxOs.sep m (c.path ++ ['/']) c.acc
        = mergeAccess linuxOs.sep m c.path c.acc := hm
    simp only [List.foldl_cons, List.foldl_nil, addRule, hm']
  · have hd : linuxOs.derive c.path = .error (.unsupportedFilesystemPath c.path) := by
      simp [linuxOs, h]
    have hd' : linuxOs.derive (c.path ++ ['/']) =
        .error (.unsupportedFilesystemPath (c.path ++ ['/'])) := by simp [linuxOs, h, hsw]
    rw [allowFileAccess_error hd, allowFileAccess_error hd']

theorem C09_request_trailing_separator [Target] (p : Policy) (path : Str) (flags : BitVec 32)
    (hl : path.getLast? ≠ some '/') :
    ((p.evaluate (.fileOpen (path ++ ['/']) flags)).1 = .granted ↔
      (p.evaluate (.fileOpen path flags)).1 = .granted) := by
  rw [evaluate_fst, evaluate_fst]
  split
  · simp
  · rw [checkFileOpen_granted_iff, checkFileOpen_granted_iff]
    have hacc : p.allowedAccess '/' (path ++ ['/']) = p.allowedAccess '/' path := by
      simp only [Policy.allowedAccess, Policy.lookupTraced, stripSuffix_append,
        stripSuffix_none hl, Option.getD_some, Option.getD_none]
    have hcan : Canonical (path ++ ['/']) ↔ Canonical path := by
      constructor
      · rintro ⟨cs, h1, h2, h3⟩
        refine ⟨cs, h1, h2, Or.inl ?_⟩
        have hd : Denotes (path ++ ['/']) cs := ⟨h1, h2, h3⟩
        have := hd.strip
        rw [stripSuffix_append] at this
        rw [render_eq]; exact this
      · rintro ⟨cs, h1, h2, h3⟩
        refine ⟨cs, h1, h2, Or.inr ?_⟩
        rcases h3 with h3 | h3
        · rw [h3]
        · rw [h3] at hl; simp at hl
    rw [hacc, hcan]

example : (c!"/a/b").getLast? ≠ some '/' ∧ c!"/a/b" ≠ [] := by decide

/-! ## C10 Rule lookup terminates after at most one probe per component -/

/-- `lookupTraced` is total (termination was proved to define it) and the number
of directory-table probes is bounded by the number of separators plus one. -/
theorem C10_probe_bound (p : Policy) (path : Str) :
    (p.lookupTraced '/' path).2.length ≤ path.count '/' + 1 := by
  simp only [Policy.lookupTraced]
  refine Nat.le_trans (walk_probes _ _ _ _) ?_
  cases hs : stripSuffix '/' path with
  | none => simp
  | some t => rw [stripSuffix_some hs]; simp

example : (Policy.nothingAllowed.lookupTraced '/' c!"/a/b/c/").2 =
    [c!"/a/b/c", c!"/a/b", c!"/a"] := by decide +kernel

/-- The probes counted above are all that a decision rests on: a policy that
agrees with the first one on the entry of the path itself and on the entries of
the directories probed takes the same decision on every request for that path
and tells its callbacks the same. -/
theorem C10_probes_decide [Target] (p q : Policy) (path : Str) (flags : BitVec 32)
    (hAudit : q.auditOnly = p.auditOnly) (hCallbacks : q.callbacks = p.callbacks)
    (hFile : ∀ s, s = path ∨ s ++ ['/'] = path → AMap.get q.files s = AMap.get p.files s)
    (hDirs : ∀ d ∈ (p.lookupTraced '/' path).2, AMap.get q.dirs d = AMap.get p.dirs d) :
    q.evaluate (.fileOpen path flags) = p.evaluate (.fileOpen path flags) := by
  have hacc : q.allowedAccess '/' path = p.allowedAccess '/' path := by
    simp only [Policy.allowedAccess, Policy.lookupTraced] at hDirs ⊢
    have hf : AMap.get q.files ((stripSuffix '/' path).getD path)
        = AMap.get p.files ((stripSuffix '/' path).getD path) := by
      cases hs : stripSuffix '/' path with
      | none => exact hFile _ (Or.inl rfl)
      | some t => exact hFile _ (Or.inr (stripSuffix_some hs).symm)
    rw [hf]
    rw [walk_agrees _ _ _ _ _ hDirs]
  simp only [Policy.evaluate, Policy.checkFileOpen, hacc, hAudit, Policy.logVerdict, hCallbacks]

/-- Not vacuous, and the probes matter: the rule on `/a` is found by the last
probe for `/a/b/c`. -/
example [Target] :
    let p := Policy.nothingAllowed.calls [.fs (.dirRead c!"/a")]
    c!"/a" ∈ (p.lookupTraced '/' c!"/a/b/c").2 ∧
    AMap.get p.dirs c!"/a" ≠ AMap.get Policy.nothingAllowed.dirs c!"/a" := by decide +kernel

/-! ## C11 A rule on the root directory covers the whole tree: violated -/

/-- The expected statement is
`∀ path, Canonical path → ... (.fileOpen path O_RDONLY) = granted` after
`allow_dir_read("/")`. The code does the opposite: the rule is accepted and
grants nothing at all. -/
theorem C11_root_rule_violated [Target] :
    (Policy.nothingAllowed.call (.fs (.dirRead ['/']))).1 = .ok () ∧
    ∀ path flags, ((Policy.nothingAllowed.calls [.fs (.dirRead ['/'])]).evaluate
      (.fileOpen path flags)).1 ≠ .granted := by
  refine ⟨rfl, ?_⟩
  intro path flags hg
  obtain ⟨_, cs, hd, h1, _⟩ := (C02_file_open_exact _ path flags).1 hg
  have hroot : ¬ Canonical ['/'] := C04_not_canonical_text _ (Or.inr (Or.inl rfl))
  simp only [ReadAllowed, WriteAllowed, List.mem_singleton, Call.fs.injEq, exists_eq_left,
    GivesRead, GivesWrite, or_false] at h1
  obtain ⟨ds, h, _⟩ := h1
  exact hroot ⟨ds, h⟩

/-- What holds instead: a read rule on any canonical directory covers its whole
subtree, in any history. Missing with respect to C11: the root directory. -/
theorem C11_directory_rule_covers_subtree_partial [Target] (h : List Call) (r path : Str)
    (ds cs : List Str) (hm : .fs (.dirRead r) ∈ h) (hr : Denotes r ds) (hp : Denotes path cs)
    (hpre : ds <+: cs) :
    ((Policy.nothingAllowed.calls h).evaluate (.fileOpen path 0#32)).1 = .granted := by
  rw [C02_file_open_exact]
  have : ReadAllowed h cs := ⟨_, hm, ds, hr, hpre⟩
  refine ⟨by intro i _ hi; simp at hi, cs, hp, Or.inl this, fun _ => this, ?_⟩
  simp [AsksWrite, Has]

example : Denotes c!"/usr" [c!"usr"] ∧ Denotes c!"/usr/lib/x" [c!"usr", c!"lib", c!"x"] ∧
    [c!"usr"] <+: [c!"usr", c!"lib", c!"x"] :=
  ⟨⟨by simp, by simp [GoodComponent], Or.inl rfl⟩, ⟨by simp, by simp [GoodComponent], Or.inl rfl⟩,
    ⟨_, rfl⟩⟩

/-! ## C12 Flags outside the supported set are always refused -/

theorem C12_unsupported_flags [Target] (p : Policy) (he : p.auditOnly = false) (path : Str)
    (flags : BitVec 32) (hn : ¬ Supported flags) :
    ∃ bad : BitVec 32,
      (∀ i, i < 32 → (bad.getLsbD i = true ↔ flags.getLsbD i = true ∧
        ¬ (i ∈ [0, 1, 6, 7, 9, 10, 16, 19, 21] ∨ Target.oLargefile.getLsbD i = true))) ∧
      bad ≠ 0#32 ∧
      (p.evaluate (.fileOpen path flags)).1 = .delegationNotSupported
        (c!"open flag " ++ hexAlt bad.toNat ++ c!" not supported") := by
  have hs : flags &&& ~~~SUPPORTED_FILE_OPEN_FLAGS ≠ 0#32 :=
    fun h => hn ((supported_iff flags).1 h)
  refine ⟨flags &&& ~~~SUPPORTED_FILE_OPEN_FLAGS, ?_, hs, ?_⟩
  · intro i hi
    have key : ∀ i, i < 32 → ((O_RDONLY ||| O_WRONLY ||| O_RDWR ||| O_TRUNC ||| O_CREAT ||| O_EXCL
        ||| O_DIRECTORY ||| O_APPEND ||| O_PATH ||| O_CLOEXEC).getLsbD i = true ↔
        i ∈ [0, 1, 6, 7, 9, 10, 16, 19, 21]) := by decide
    have hsup : SUPPORTED_FILE_OPEN_FLAGS.getLsbD i = true ↔
        (i ∈ [0, 1, 6, 7, 9, 10, 16, 19, 21] ∨ Target.oLargefile.getLsbD i = true) := by
      rw [← key i hi]
      simp only [SUPPORTED_FILE_OPEN_FLAGS]
      rw [BitVec.getLsbD_or, Bool.or_eq_true]
    rw [← hsup, BitVec.getLsbD_and, BitVec.getLsbD_not]
    simp [hi]
  · rw [evaluate_fst, he]
    simp only [Bool.false_eq_true, if_false, Policy.checkFileOpen]
    rw [if_pos hs]

/-- `O_NOFOLLOW`, `__O_TMPFILE`, `O_DIRECT`, `O_ASYNC`, `O_SYNC`, `O_NONBLOCK`,
`O_NOCTTY`, `O_NOATIME`, on both targets. -/
example : ¬ @Supported x86_64 0x20000#32 ∧ ¬ @Supported i686 0x20000#32 ∧
    ¬ @Supported x86_64 0x400000#32 ∧ ¬ @Supported i686 0x4000#32 ∧
    ¬ @Supported x86_64 0x101000#32 ∧ ¬ @Supported x86_64 0x8000#32 ∧
    @Supported i686 0x8000#32 := by
  simp only [← supported_iff]; decide

/-! ## C13 Audit-only mode -/

theorem C13_audit_only [Target] (h : List Call) (req : Request) :
    ((Policy.auditOnlyPolicy.calls h).evaluate req).1 = .granted ∧
    (∀ n ∈ ((Policy.auditOnlyPolicy.calls h).evaluate req).2,
      n.verdict = ((Policy.nothingAllowed.calls h).evaluate req).1) ∧
    (Policy.auditOnlyPolicy.calls h).auditOnly = true ∧
    (Policy.nothingAllowed.calls h).auditOnly = false := by
  have ha : (Policy.auditOnlyPolicy.calls h).auditOnly = true := calls_audit _ _
  have he : (Policy.nothingAllowed.calls h).auditOnly = false := calls_audit _ _
  refine ⟨?_, ?_, ha, he⟩
  · simp only [Policy.evaluate, ha, if_true]
  · intro n hn
    simp only [Policy.evaluate, Policy.logVerdict, List.mem_map] at hn
    obtain ⟨cb, _, rfl⟩ := hn
    simp only [Policy.evaluate, he, Bool.false_eq_true, if_false]
    cases req with
    | syscall nb args ip => rfl
    | fileOpen path flags =>
      apply checkFileOpen_congr
      rintro ⟨cs, hd⟩
      have key : ∀ f, ProjOk f → f ((Policy.auditOnlyPolicy.calls h).allowedAccess '/' path) =
          f ((Policy.nothingAllowed.calls h).allowedAccess '/' path) := by
        intro f hf
        rw [Bool.eq_iff_iff, allowedAccess_calls hf _ h hd, allowedAccess_calls hf _ h hd,
          empty_access hd hf rfl rfl, empty_access hd hf rfl rfl]
      exact ⟨key _ projRead, key _ projWrite⟩

example : (@Policy.evaluate x86_64 (Policy.auditOnlyPolicy.calls [.addLogCallback 7])
    (.fileOpen c!"/a" O_RDONLY)) =
    (.granted, [⟨7, .fileOpen c!"/a" O_RDONLY,
      .deniedByPolicy c!"requests read-only access, but has no access to that path"⟩]) := by
  decide +kernel

/-! ## C14 Every decision is logged exactly once to every callback -/

/-- Callbacks registered by a history, in order. -/
def Spec.registered : List Call → List Nat
  | [] => []
  | .addLogCallback cb :: h => cb :: registered h
  | _ :: h => registered h

theorem calls_callbacks (p : Policy) (h : List Call) :
    (p.calls h).callbacks = p.callbacks ++ registered h := by
  induction h generalizing p with
  | nil => simp [Policy.calls, registered]
  | cons c h ih =>
    have := ih (p.call c).2
    simp only [Policy.calls, List.foldl_cons] at this ⊢
    rw [this]
    cases c with
    | fs d => simp only [Policy.call, (fsCall_rest linuxOs p d).1, registered]
    | addLogCallback cb => simp [Policy.call, Policy.addLogCallback, registered]
    | inheritHandle raw q =>
      simp only [Policy.call, Policy.allowInheritHandle]; split <;> simp [registered]

/-- The notifications of a sequence of requests, for any policy: request by
request, for each the registered callbacks in order, with the verdict the rules
give in enforcing mode. -/
theorem C14_notifications [Target] (audit : Bool) (h : List Call) (reqs : List Request) :
    let p := (if audit then Policy.auditOnlyPolicy else Policy.nothingAllowed).calls h
    reqs.flatMap (fun r => (p.evaluate r).2) =
      reqs.flatMap (fun r => (registered h).map fun cb =>
        ⟨cb, r, ((Policy.nothingAllowed.calls h).evaluate r).1⟩) := by
  intro p
  have hcb : p.callbacks = registered h := by
    simp only [p]; rw [calls_callbacks]; cases audit <;> rfl
  congr 1
  funext r
  have hverd : ∀ n ∈ (p.evaluate r).2,
      n.verdict = ((Policy.nothingAllowed.calls h).evaluate r).1 := by
    cases haud : audit with
    | true => simp only [p, haud]; exact (C13_audit_only h r).2.1
    | false =>
      simp only [p, haud]
      intro n hn
      simp only [Bool.false_eq_true, if_false, Policy.evaluate, Policy.logVerdict,
        List.mem_map] at hn
      obtain ⟨cb, _, rfl⟩ := hn
      have he : (Policy.nothingAllowed.calls h).auditOnly = false := calls_audit _ _
      simp only [Policy.evaluate, he, Bool.false_eq_true, if_false]
  have hshape : ∃ v, (p.evaluate r).2 = (registered h).map (fun cb => ⟨cb, r, v⟩) :=
    by simp only [Policy.evaluate, Policy.logVerdict, hcb]; exact ⟨_, rfl⟩
  obtain ⟨v, hv⟩ := hshape
  rw [hv] at hverd ⊢
  apply List.map_congr_left
  intro cb hm
  have := hverd ⟨cb, r, v⟩ (List.mem_map_of_mem (f := fun cb => (⟨cb, r, v⟩ : Notification Request)) hm)
  simp only at this
  rw [this]

example : registered [.addLogCallback 4, .fs (.fileRead c!"/a"), .addLogCallback 2] = [4, 2] := rfl

/-! ## C15 (policy part) System calls are never delegated -/

theorem C15_syscalls_refused [Target] (p : Policy) (he : p.auditOnly = false)
    (nb : BitVec 64) (args : Args6) (ip : BitVec 64) :
    (p.evaluate (.syscall nb args ip)).1 = .delegationNotSupported c!"unsupported system call" := by
  simp only [Policy.evaluate, he, Bool.false_eq_true, if_false]

/-! ## C16 Runtime policy, clone and equality -/

/-- A policy obtained through the public constructors and any calls. -/
def Spec.Built (p : Policy) : Prop :=
  ∃ h, p = Policy.nothingAllowed.calls h ∨ p = Policy.auditOnlyPolicy.calls h

theorem Spec.Built.wf {p : Policy} (h : Built p) : p.WF := by
  obtain ⟨h, rfl | rfl⟩ := h
  · exact calls_wf nothingAllowed_wf h
  · exact calls_wf auditOnlyPolicy_wf h

theorem C16_runtime_policy [Target] (p : Policy) :
    (∀ req, p.runtime.evaluate req = p.evaluate req) ∧
    p.runtime.inheritedHandles = [] ∧ p.runtime.callbacks = p.callbacks ∧
    p.runtime.auditOnly = p.auditOnly := by
  refine ⟨fun req => ?_, rfl, rfl, rfl⟩
  cases req <;> rfl

theorem C16_equal_policies_decide_equally [Target] (p q : Policy) (hp : Built p)
    (heq : p.eq q = true) (req : Request) : (p.evaluate req).1 = (q.evaluate req).1 := by
  simp only [Policy.eq, Bool.and_eq_true, beq_iff_eq] at heq
  obtain ⟨⟨⟨⟨_, hf⟩, hd⟩, _⟩, ha⟩ := heq
  have hw := hp.wf
  have hacc := allowedAccess_congr (sep := '/') (AMap.eq_get hw.1 hf) (AMap.eq_get hw.2.1 hd)
  cases req with
  | syscall nb args ip => simp only [Policy.evaluate, ha]
  | fileOpen path flags =>
    simp only [evaluate_fst, ha, Policy.checkFileOpen, hacc]

/-- Equality holds at least between a policy and its clone, whatever callbacks are
added to one of them. -/
theorem C16_equality_reflexive (p : Policy) (hp : Built p) (cbs : List Nat) :
    p.eq { p with callbacks := cbs } = true := by
  have hw := hp.wf
  simp only [Policy.eq, AMap.eq_refl hw.1, AMap.eq_refl hw.2.1, AMap.eq_refl hw.2.2.1, setEq]
  simp

example : (Policy.nothingAllowed.calls [.fs (.fileRead c!"/a"), .fs (.fileRead c!"/b")]).eq
    (Policy.nothingAllowed.calls [.fs (.fileRead c!"/b"), .addLogCallback 1,
      .fs (.fileRead c!"/a/")]) = true := by decide +kernel

/-! ## C17 Lock rules give no access on Linux -/

/-- A lock rule call. -/
def Spec.isLock : Call → Bool
  | .fs (.fileLock _ _ _ _) | .fs (.dirLock _ _ _ _) => true
  | _ => false

theorem C17_lock_rules_irrelevant [Target] (h : List Call) (req : Request) :
    ((Policy.nothingAllowed.calls h).evaluate req).1 =
      ((Policy.nothingAllowed.calls (h.filter (fun c => !isLock c))).evaluate req).1 := by
  cases req with
  | syscall nb args ip => simp only [Policy.evaluate, calls_audit]
  | fileOpen path flags =>
    rw [evaluate_fst, evaluate_fst, calls_audit, calls_audit]
    rw [checkFileOpen_congr]
    rintro ⟨cs, hd⟩
    have hnot : ∀ c, (GivesRead c cs ∨ GivesWrite c cs) → isLock (.fs c) = false := by
      intro c h; cases c <;> simp_all [GivesRead, GivesWrite, isLock]
    constructor
    · rw [Bool.eq_iff_iff, readAllowed_iff rfl rfl _ hd, readAllowed_iff rfl rfl _ hd]
      simp only [ReadAllowed, List.mem_filter]
      exact ⟨fun ⟨c, hm, hg⟩ => ⟨c, ⟨hm, by simp [hnot c (Or.inl hg)]⟩, hg⟩,
        fun ⟨c, hm, hg⟩ => ⟨c, hm.1, hg⟩⟩
    · rw [Bool.eq_iff_iff, writeAllowed_iff rfl rfl _ hd, writeAllowed_iff rfl rfl _ hd]
      simp only [WriteAllowed, List.mem_filter]
      exact ⟨fun ⟨c, hm, hg⟩ => ⟨c, ⟨hm, by simp [hnot c (Or.inr hg)]⟩, hg⟩,
        fun ⟨c, hm, hg⟩ => ⟨c, hm.1, hg⟩⟩

example : [Call.fs (.fileLock c!"/a" true true true), .fs (.fileRead c!"/a")].filter
    (fun c => !isLock c) = [.fs (.fileRead c!"/a")] := rfl

end Iris
