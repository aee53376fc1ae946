import Verif.Lemmas.Rules
/-! Lemmas about Linux decisions. -/
namespace Iris
open Spec

/-! ## Flags -/

theorem has_or (f a b : BitVec 32) : Has f (a ||| b) ↔ Has f a ∨ Has f b := by
  simp only [Has, ne_eq, BitVec.and_or_distrib_left, BitVec.or_eq_zero_iff]
  exact Decidable.not_and_iff_not_or_not

theorem and_not_eq_zero_iff (f s : BitVec 32) :
    f &&& ~~~s = 0#32 ↔ ∀ i, i < 32 → f.getLsbD i = true → s.getLsbD i = true := by
  constructor
  · intro h i hi hf
    have := congrArg (fun x => BitVec.getLsbD x i) h
    simpa [hf, hi] using this
  · intro h
    apply BitVec.eq_of_getLsbD_eq
    intro i hi
    have := h i hi
    simp only [BitVec.getLsbD_and, BitVec.getLsbD_not, hi, decide_true, Bool.true_and]
    cases hf : f.getLsbD i <;> simp_all

theorem supported_iff [T : Target] (f : BitVec 32) :
    f &&& ~~~SUPPORTED_FILE_OPEN_FLAGS = 0#32 ↔ Supported f := by
  rw [and_not_eq_zero_iff]
  simp only [Supported]
  have key : ∀ i, i < 32 → ((O_RDONLY ||| O_WRONLY ||| O_RDWR ||| O_TRUNC ||| O_CREAT ||| O_EXCL
      ||| O_DIRECTORY ||| O_APPEND ||| O_PATH ||| O_CLOEXEC).getLsbD i = true ↔
      i ∈ [0, 1, 6, 7, 9, 10, 16, 19, 21]) := by decide
  have : ∀ i, i < 32 → (SUPPORTED_FILE_OPEN_FLAGS.getLsbD i = true ↔
      (i ∈ [0, 1, 6, 7, 9, 10, 16, 19, 21] ∨ T.oLargefile.getLsbD i = true)) := by
    intro i hi
    rw [← key i hi]
    simp only [SUPPORTED_FILE_OPEN_FLAGS]
    rw [BitVec.getLsbD_or, Bool.or_eq_true]
  constructor
  · intro h i hi hf; exact (this i hi).1 (h i hi hf)
  · intro h i hi hf; exact (this i hi).2 (h i hi hf)

theorem effFlags_and_of_path {f : BitVec 32} (h : f &&& O_PATH ≠ 0#32) (m : BitVec 32)
    (hm : O_CLOEXEC &&& m = 0#32) :
    effFlags f &&& m = f &&& ((O_PATH ||| O_DIRECTORY ||| O_NOFOLLOW) &&& m) := by
  simp only [effFlags, if_pos h]
  rw [BitVec.and_comm _ m, BitVec.and_or_distrib_left, BitVec.and_comm m O_CLOEXEC, hm,
    BitVec.and_comm m, BitVec.and_assoc]
  simp

theorem effFlags_and_of_not_path {f : BitVec 32} (h : f &&& O_PATH = 0#32) (m : BitVec 32)
    (hm : O_CLOEXEC &&& m = 0#32) :
    effFlags f &&& m = f &&& m := by
  simp only [effFlags, h, ne_eq, not_true, if_false]
  rw [BitVec.and_comm _ m, BitVec.and_or_distrib_left, BitVec.and_comm m O_CLOEXEC, hm,
    BitVec.and_comm m]
  simp

theorem asksRead_iff (f : BitVec 32) : AsksRead f ↔ ¬ Has f O_PATH ∧ ¬ Has f O_WRONLY := Iff.rfl

theorem asksWrite_iff (f : BitVec 32) : AsksWrite f ↔ ¬ Has f O_PATH ∧ (Has f O_WRONLY ∨ Has f O_RDWR ∨
    Has f O_TRUNC ∨ Has f O_CREAT ∨ Has f O_EXCL ∨ Has f O_APPEND) := Iff.rfl

theorem requestsRead_iff (f : BitVec 32) :
    ((effFlags f &&& (O_WRONLY ||| O_PATH)) == 0#32) = true ↔ AsksRead f := by
  rw [beq_iff_eq]
  by_cases h : f &&& O_PATH = 0#32
  · rw [effFlags_and_of_not_path h _ (by decide), BitVec.and_or_distrib_left,
      BitVec.or_eq_zero_iff]
    simp [asksRead_iff, Has, h]
  · rw [effFlags_and_of_path h _ (by decide)]
    have : (O_PATH ||| O_DIRECTORY ||| O_NOFOLLOW) &&& (O_WRONLY ||| O_PATH) = O_PATH := by decide
    rw [this]
    simp [asksRead_iff, Has, h]

theorem requestsWrite_iff (f : BitVec 32) :
    ((effFlags f &&& (O_WRONLY ||| O_RDWR ||| O_TRUNC ||| O_CREAT ||| O_EXCL ||| O_APPEND)) != 0#32
        && (effFlags f &&& O_PATH) == 0#32) = true ↔ AsksWrite f := by
  rw [Bool.and_eq_true, bne_iff_ne, beq_iff_eq]
  by_cases h : f &&& O_PATH = 0#32
  · rw [effFlags_and_of_not_path h _ (by decide), effFlags_and_of_not_path h _ (by decide)]
    change Has f _ ∧ _ ↔ _
    simp only [has_or, asksWrite_iff]
    simp only [Has, h, ne_eq, not_true, not_false_iff, true_and, and_true, or_assoc]
  · rw [effFlags_and_of_path h O_PATH (by decide)]
    have : (O_PATH ||| O_DIRECTORY ||| O_NOFOLLOW) &&& O_PATH = O_PATH := by decide
    rw [this]
    simp [asksWrite_iff, Has, h]

/-! ## The decision, for any tables -/

theorem checkFileOpen_granted_iff [Target] (p : Policy) (path : Str) (flags : BitVec 32) :
    p.checkFileOpen path flags = .granted ↔
      Supported flags ∧ Canonical path ∧
      ((p.allowedAccess '/' path).read = true ∨ (p.allowedAccess '/' path).write = true) ∧
      (AsksRead flags → (p.allowedAccess '/' path).read = true) ∧
      (AsksWrite flags → (p.allowedAccess '/' path).write = true) := by
  simp only [Policy.checkFileOpen]
  rw [← supported_iff, ← pathIsSane_iff, ← requestsRead_iff, ← requestsWrite_iff]
  by_cases hs : flags &&& ~~~SUPPORTED_FILE_OPEN_FLAGS = 0#32
  · rw [if_neg (by simpa using hs)]
    by_cases hp : pathIsSane path = true
    · rw [if_neg (by simp [hp])]
      generalize ((effFlags flags &&& (O_WRONLY ||| O_PATH)) == 0#32) = rr
      generalize ((effFlags flags &&& (O_WRONLY ||| O_RDWR ||| O_TRUNC ||| O_CREAT ||| O_EXCL
        ||| O_APPEND)) != 0#32 && (effFlags flags &&& O_PATH) == 0#32) = rw
      generalize (p.allowedAccess '/' path).read = cr
      generalize (p.allowedAccess '/' path).write = cw
      cases rr <;> cases rw <;> cases cr <;> cases cw <;> simp [hs, hp]
    · rw [if_pos (by simp [hp])]
      simp [hp]
  · rw [if_pos (by simpa using hs)]
    simp [hs]

/-! ## Histories -/

theorem names_linux {c : FsCall} {cs : List Str} (hne : cs ≠ []) (hg : ∀ x ∈ cs, GoodComponent x) :
    c.Names linuxOs (renderSep '/' cs) ↔ Denotes c.path cs := by
  simp only [FsCall.Names, linuxOs]
  constructor
  · rintro ⟨ds, hd, d, hmem, hk⟩
    split at hd
    · cases hd
    · cases hd
      simp at hmem
      subst hmem
      exact (strip_eq_render_iff hne hg).1 hk
  · intro h
    refine ⟨[c.path], ?_, c.path, by simp, h.strip⟩
    rw [if_neg (by simp [h.startsWith])]

theorem calls_append (p : Policy) (a b : List Call) : p.calls (a ++ b) = (p.calls a).calls b := by
  simp [Policy.calls]

theorem call_tables {f : Acc → Bool} (hf : ProjOk f) (p : Policy) (c : Call) (key : Str) :
    (TableHas f (p.call c).2.dirs key ↔ TableHas f p.dirs key ∨
      ∃ d, c = .fs d ∧ d.isDir = true ∧ f d.acc = true ∧ d.Names linuxOs key) ∧
    (TableHas f (p.call c).2.files key ↔ TableHas f p.files key ∨
      ∃ d, c = .fs d ∧ d.isDir = false ∧ f d.acc = true ∧ d.Names linuxOs key) := by
  cases c with
  | fs d =>
    simp only [Policy.call, fsCall_dirs hf, fsCall_files hf]
    simp
  | addLogCallback cb => simp [Policy.call, Policy.addLogCallback]
  | inheritHandle raw q =>
    simp only [Policy.call, Policy.allowInheritHandle]
    split <;> simp

theorem calls_tables {f : Acc → Bool} (hf : ProjOk f) (p : Policy) (h : List Call) (key : Str) :
    (TableHas f (p.calls h).dirs key ↔ TableHas f p.dirs key ∨
      ∃ d, .fs d ∈ h ∧ d.isDir = true ∧ f d.acc = true ∧ d.Names linuxOs key) ∧
    (TableHas f (p.calls h).files key ↔ TableHas f p.files key ∨
      ∃ d, .fs d ∈ h ∧ d.isDir = false ∧ f d.acc = true ∧ d.Names linuxOs key) := by
  induction h generalizing p with
  | nil => simp [Policy.calls]
  | cons c h ih =>
    have ih := ih (p.call c).2
    have hc := call_tables hf p c key
    simp only [Policy.calls, List.foldl_cons] at ih ⊢
    rw [ih.1, ih.2, hc.1, hc.2]
    constructor
    · constructor
      · rintro ((h | ⟨d, rfl, h⟩) | ⟨d, hm, h⟩)
        · exact Or.inl h
        · exact Or.inr ⟨d, by simp, h⟩
        · exact Or.inr ⟨d, by simp [hm], h⟩
      · rintro (h | ⟨d, hm, h⟩)
        · exact Or.inl (Or.inl h)
        · rcases List.mem_cons.1 hm with hm | hm
          · exact Or.inl (Or.inr ⟨d, hm.symm, h⟩)
          · exact Or.inr ⟨d, hm, h⟩
    · constructor
      · rintro ((h | ⟨d, rfl, h⟩) | ⟨d, hm, h⟩)
        · exact Or.inl h
        · exact Or.inr ⟨d, by simp, h⟩
        · exact Or.inr ⟨d, by simp [hm], h⟩
      · rintro (h | ⟨d, hm, h⟩)
        · exact Or.inl (Or.inl h)
        · rcases List.mem_cons.1 hm with hm | hm
          · exact Or.inl (Or.inr ⟨d, hm.symm, h⟩)
          · exact Or.inr ⟨d, hm, h⟩

/-- A rule call covers `cs`. -/
def Covers (c : FsCall) (cs : List Str) : Prop :=
  (c.isDir = false ∧ Denotes c.path cs) ∨
  (c.isDir = true ∧ ∃ ds, Denotes c.path ds ∧ ds <+: cs)

theorem allowedAccess_calls {f : Acc → Bool} (hf : ProjOk f) (p : Policy) (h : List Call)
    {path : Str} {cs : List Str} (hd : Denotes path cs) :
    f ((p.calls h).allowedAccess '/' path) = true ↔
      f (p.allowedAccess '/' path) = true ∨ ∃ c, .fs c ∈ h ∧ f c.acc = true ∧ Covers c cs := by
  rw [allowedAccess_iff hf '/' _ hd.1 hd.plain hd.strip,
    allowedAccess_iff hf '/' p hd.1 hd.plain hd.strip, (calls_tables hf p h _).2]
  have hpre : ∀ rc, rc <+: cs → ∀ x ∈ rc, GoodComponent x :=
    fun rc hr x hx => hd.2.1 x (hr.subset hx)
  constructor
  · rintro ((h1 | ⟨d, hm, hdir, hacc, hn⟩) | ⟨rc, hr, hr', h1⟩)
    · exact Or.inl (Or.inl h1)
    · exact Or.inr ⟨d, hm, hacc, Or.inl ⟨hdir, (names_linux hd.1 hd.2.1).1 hn⟩⟩
    · rcases (calls_tables hf p h _).1.1 h1 with h1 | ⟨d, hm, hdir, hacc, hn⟩
      · exact Or.inl (Or.inr ⟨rc, hr, hr', h1⟩)
      · exact Or.inr ⟨d, hm, hacc, Or.inr ⟨hdir, rc, (names_linux hr (hpre rc hr')).1 hn, hr'⟩⟩
  · rintro ((h1 | ⟨rc, hr, hr', h1⟩) | ⟨d, hm, hacc, ⟨hdir, hn⟩ | ⟨hdir, ds, hn, hr'⟩⟩)
    · exact Or.inl (Or.inl h1)
    · exact Or.inr ⟨rc, hr, hr', (calls_tables hf p h _).1.2 (Or.inl h1)⟩
    · exact Or.inl (Or.inr ⟨d, hm, hdir, hacc, (names_linux hd.1 hd.2.1).2 hn⟩)
    · exact Or.inr ⟨ds, hn.1, hr', (calls_tables hf p h _).1.2
        (Or.inr ⟨d, hm, hdir, hacc, (names_linux hn.1 hn.2.1).2 hn⟩)⟩

theorem givesRead_iff (c : FsCall) (cs : List Str) :
    (c.acc.read = true ∧ Covers c cs) ↔ GivesRead c cs := by
  cases c <;> simp [FsCall.acc, Covers, FsCall.isDir, FsCall.path, GivesRead]

theorem givesWrite_iff (c : FsCall) (cs : List Str) :
    (c.acc.write = true ∧ Covers c cs) ↔ GivesWrite c cs := by
  cases c <;> simp [FsCall.acc, Covers, FsCall.isDir, FsCall.path, GivesWrite]

theorem empty_access {path : Str} {cs : List Str} (hd : Denotes path cs) {f : Acc → Bool}
    (hf : ProjOk f) {p : Policy} (h1 : p.files = []) (h2 : p.dirs = []) :
    f (p.allowedAccess '/' path) = false := by
  cases h : f (p.allowedAccess '/' path) with
  | false => rfl
  | true =>
    rw [allowedAccess_iff hf '/' _ hd.1 hd.plain hd.strip] at h
    simp [TableHas, h1, h2, AMap.get] at h

theorem readAllowed_iff {p : Policy} (h1 : p.files = []) (h2 : p.dirs = []) (h : List Call)
    {path : Str} {cs : List Str} (hd : Denotes path cs) :
    ((p.calls h).allowedAccess '/' path).read = true ↔ ReadAllowed h cs := by
  rw [allowedAccess_calls projRead p h hd]
  simp [empty_access hd projRead h1 h2, ReadAllowed, givesRead_iff]

theorem writeAllowed_iff {p : Policy} (h1 : p.files = []) (h2 : p.dirs = []) (h : List Call)
    {path : Str} {cs : List Str} (hd : Denotes path cs) :
    ((p.calls h).allowedAccess '/' path).write = true ↔ WriteAllowed h cs := by
  rw [allowedAccess_calls projWrite p h hd]
  simp [empty_access hd projWrite h1 h2, WriteAllowed, givesWrite_iff]

theorem call_audit (p : Policy) (c : Call) : (p.call c).2.auditOnly = p.auditOnly := by
  cases c with
  | fs d => exact (fsCall_rest linuxOs p d).2.2.2
  | addLogCallback cb => rfl
  | inheritHandle raw q =>
    simp only [Policy.call, Policy.allowInheritHandle]; split <;> rfl

theorem calls_audit (p : Policy) (h : List Call) : (p.calls h).auditOnly = p.auditOnly := by
  induction h generalizing p with
  | nil => rfl
  | cons c h ih => exact (ih (p.call c).2).trans (call_audit p c)

theorem evaluate_fst [Target] (p : Policy) (path : Str) (flags : BitVec 32) :
    (p.evaluate (.fileOpen path flags)).1 =
      if p.auditOnly then .granted else p.checkFileOpen path flags := rfl

/-- `check_file_open` depends on the tables only through the two access bits. -/
theorem checkFileOpen_congr [Target] (p q : Policy) (path : Str) (flags : BitVec 32)
    (h : Canonical path → (p.allowedAccess '/' path).read = (q.allowedAccess '/' path).read ∧
      (p.allowedAccess '/' path).write = (q.allowedAccess '/' path).write) :
    p.checkFileOpen path flags = q.checkFileOpen path flags := by
  by_cases hs : pathIsSane path = true
  · obtain ⟨h1, h2⟩ := h ((pathIsSane_iff path).1 hs)
    simp only [Policy.checkFileOpen, h1, h2]
  · simp only [Policy.checkFileOpen]
    split
    · rfl
    · rw [if_pos (by simp [hs]), if_pos (by simp [hs])]


/-! ## Canonical paths, textually -/

theorem split_append_sep (c : Char) (u w : Str) :
    split c (u ++ c :: w) = split c u ++ split c w := by
  induction u with
  | nil => simp [split]
  | cons x xs ih =>
    simp only [List.cons_append, split]
    split
    · simp [ih]
    · rw [ih]
      cases hs : split c xs with
      | nil => exact absurd hs (split_ne_nil c xs)
      | cons h t => simp

theorem Spec.Denotes.split {s : Str} {cs : List Str} (h : Denotes s cs) :
    Iris.split '/' s = [] :: cs ∨ Iris.split '/' s = [] :: (cs ++ [[]]) := by
  have hp := h.plain
  have hj : Iris.split '/' (renderSep '/' cs) = [] :: cs := by
    rw [renderSep_joinSep _ h.1]
    have := split_append_sep '/' [] (joinSep '/' cs)
    simp only [List.nil_append] at this
    rw [this, split_joinSep h.1 (fun p hq => (hp p hq).2)]
    rfl
  rcases h.2.2 with e | e
  · left; rw [e, render_eq, hj]
  · right
    rw [e, render_eq, split_append_sep, hj]; rfl

/-! ## Well-formed tables -/

/-- The tables of the policy have no duplicate key. -/
def Policy.WF (p : Policy) : Prop := p.files.WF ∧ p.dirs.WF ∧ p.regkeys.WF ∧ p.inherit.Nodup

theorem mergeAccess_wf {sep : Char} {m : AMap Acc} (h : m.WF) (path : Str) (acc : Acc) :
    (mergeAccess sep m path acc).WF := AMap.wf_insert h _ _

theorem addRule_wf {sep : Char} {dir : Bool} {acc : Acc} {ds : List Str} {p : Policy} (h : p.WF) :
    (ds.foldl (addRule sep dir acc) p).WF := by
  induction ds generalizing p with
  | nil => exact h
  | cons d ds ih =>
    apply ih
    cases dir
    · exact ⟨mergeAccess_wf h.1 _ _, h.2⟩
    · exact ⟨h.1, mergeAccess_wf h.2.1 _ _, h.2.2⟩

theorem fsCall_wf {os : PathOs} {p : Policy} (h : p.WF) (c : FsCall) : (p.fsCall os c).2.WF := by
  rw [fsCall_eq]
  cases hd : os.derive c.path with
  | error e => rw [allowFileAccess_error hd]; exact h
  | ok ds => rw [allowFileAccess_ok hd]; exact addRule_wf h

theorem setInsert_nodup {α : Type} [DecidableEq α] {s : List α} (h : s.Nodup) (x : α) :
    (setInsert s x).Nodup := by
  simp only [setInsert]
  split
  · exact h
  · rename_i hx; exact List.nodup_cons.2 ⟨hx, h⟩

theorem call_wf {p : Policy} (h : p.WF) (c : Call) : (p.call c).2.WF := by
  cases c with
  | fs d => exact fsCall_wf h d
  | addLogCallback cb => exact h
  | inheritHandle raw q =>
    simp only [Policy.call, Policy.allowInheritHandle]
    split
    · exact h
    · exact h
    · exact ⟨h.1, h.2.1, h.2.2.1, setInsert_nodup h.2.2.2 _⟩

theorem calls_wf {p : Policy} (h : p.WF) (cs : List Call) : (p.calls cs).WF := by
  induction cs generalizing p with
  | nil => exact h
  | cons c cs ih => exact ih (call_wf h c)

theorem nothingAllowed_wf : Policy.nothingAllowed.WF := by
  simp [Policy.WF, Policy.nothingAllowed, AMap.WF]

theorem auditOnlyPolicy_wf : Policy.auditOnlyPolicy.WF := by
  simp [Policy.WF, Policy.auditOnlyPolicy, Policy.nothingAllowed, AMap.WF]

/-- Two lists without duplicates, of the same length, one inside the other, have
the same members. -/
theorem mem_iff_of_subset_length {α : Type} [DecidableEq α] {a b : List α} (ha : a.Nodup)
    (hsub : ∀ x ∈ a, x ∈ b) (hl : a.length = b.length) : ∀ x, x ∈ a ↔ x ∈ b := by
  intro x
  refine ⟨hsub x, fun hx => ?_⟩
  apply Decidable.byContradiction
  intro hxa
  have hnd : (x :: a).Nodup := List.nodup_cons.2 ⟨hxa, ha⟩
  have hsub' : (x :: a) ⊆ b := by
    intro y hy
    rcases List.mem_cons.1 hy with h | h
    · rw [h]; exact hx
    · exact hsub y h
  have := hnd.length_le_of_subset hsub'
  simp at this; omega


theorem AMap.eq_get {α : Type} [DecidableEq α] {a b : AMap α} (ha : a.WF)
    (h : AMap.eq a b = true) (k : Str) : AMap.get a k = AMap.get b k := by
  simp only [AMap.eq, Bool.and_eq_true, beq_iff_eq, List.all_eq_true, decide_eq_true_eq] at h
  obtain ⟨hl, hall⟩ := h
  cases hg : AMap.get a k with
  | some v => exact (hall _ (AMap.mem_of_get hg)).symm
  | none =>
    have hka := AMap.get_eq_none.1 hg
    symm
    rw [AMap.get_eq_none]
    intro hkb
    apply hka
    refine (mem_iff_of_subset_length ha ?_ (by simpa using hl) k).2 hkb
    intro x hx
    obtain ⟨⟨x', v⟩, hm, rfl⟩ := List.mem_map.1 hx
    exact List.mem_map_of_mem (f := Prod.fst) (AMap.mem_of_get (hall _ hm))

theorem AMap.eq_refl {α : Type} [DecidableEq α] {a : AMap α} (ha : a.WF) : AMap.eq a a = true := by
  simp only [AMap.eq, Bool.and_eq_true, beq_iff_eq, List.all_eq_true, decide_eq_true_eq]
  exact ⟨trivial, fun e he => AMap.get_of_mem ha he⟩

theorem walk_congr {sep : Char} {d1 d2 : AMap Acc} (h : ∀ k, AMap.get d1 k = AMap.get d2 k)
    (acc : Acc) (s : Str) : walk sep d1 acc s = walk sep d2 acc s := by
  fun_induction walk sep d1 acc s with
  | case1 acc cur ha => rw [walk, if_pos ha]
  | case2 acc cur ha acc' parent h' r ih =>
    have : acc' = probe d2 acc cur := by simp only [probe, ← h]; rfl
    rw [walk_some (by simpa using ha) h', ← this, ← ih]
  | case3 acc cur ha acc' h' =>
    have : acc' = probe d2 acc cur := by simp only [probe, ← h]; rfl
    rw [walk_none (by simpa using ha) h', ← this]

theorem allowedAccess_congr {sep : Char} {p q : Policy}
    (hf : ∀ k, AMap.get p.files k = AMap.get q.files k)
    (hd : ∀ k, AMap.get p.dirs k = AMap.get q.dirs k) (s : Str) :
    p.allowedAccess sep s = q.allowedAccess sep s := by
  simp only [Policy.allowedAccess, Policy.lookupTraced, hf, walk_congr hd]

end Iris
