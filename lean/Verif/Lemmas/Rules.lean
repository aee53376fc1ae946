import Verif.Lemmas.Path
/-! Lemmas about rule tables and the ancestor walk, for any separator. -/
namespace Iris
open Spec

/-- What the lemmas need to know about a component of the access tuple. -/
structure ProjOk (f : Acc → Bool) : Prop where
  or : ∀ a b, f (a.or b) = (f a || f b)
  all : ∀ a, a.all = true → f a = true
  none : f Acc.none = false

theorem projRead : ProjOk Acc.read := ⟨fun _ _ => rfl, by simp +contextual [Acc.all], rfl⟩
theorem projWrite : ProjOk Acc.write := ⟨fun _ _ => rfl, by simp +contextual [Acc.all], rfl⟩
theorem projBlockR : ProjOk Acc.blockR := ⟨fun _ _ => rfl, by simp +contextual [Acc.all], rfl⟩
theorem projBlockW : ProjOk Acc.blockW := ⟨fun _ _ => rfl, by simp +contextual [Acc.all], rfl⟩
theorem projBlockD : ProjOk Acc.blockD := ⟨fun _ _ => rfl, by simp +contextual [Acc.all], rfl⟩

/-- The table has an entry for `key` with the component `f` set. -/
def TableHas (f : Acc → Bool) (m : AMap Acc) (key : Str) : Prop :=
  ∃ a, AMap.get m key = some a ∧ f a = true

/-- The access accumulated by one probe. -/
def probe (dirs : AMap Acc) (acc : Acc) (cur : Str) : Acc :=
  match AMap.get dirs cur with
  | some a => acc.or a
  | none => acc

theorem probe_iff {f : Acc → Bool} (hf : ProjOk f) (dirs : AMap Acc) (acc : Acc) (cur : Str) :
    f (probe dirs acc cur) = true ↔ f acc = true ∨ TableHas f dirs cur := by
  simp only [probe, TableHas]
  cases hg : AMap.get dirs cur with
  | none => simp
  | some a => simp [hf.or]

theorem walk_some {sep : Char} {dirs : AMap Acc} {acc : Acc} {cur parent : Str}
    (ha : acc.all = false) (h : stripOneComponent cur sep = some parent) :
    walk sep dirs acc cur =
      ((walk sep dirs (probe dirs acc cur) parent).1,
       cur :: (walk sep dirs (probe dirs acc cur) parent).2) := by
  rw [walk, if_neg (by simp [ha])]
  simp only [probe]
  split
  · rename_i q hq; rw [h] at hq; cases hq; rfl
  · rename_i hq; rw [h] at hq; cases hq

theorem walk_none {sep : Char} {dirs : AMap Acc} {acc : Acc} {cur : Str}
    (ha : acc.all = false) (h : stripOneComponent cur sep = none) :
    walk sep dirs acc cur = (probe dirs acc cur, [cur]) := by
  rw [walk, if_neg (by simp [ha])]
  simp only [probe]
  split
  · rename_i q hq; rw [h] at hq; cases hq
  · rfl

theorem walk_iff {f : Acc → Bool} (hf : ProjOk f) (sep : Char) (dirs : AMap Acc)
    (n : Nat) (cs : List Str) (hn : cs.length = n) (hne : cs ≠ [])
    (hp : ∀ c ∈ cs, PlainComp sep c) (acc : Acc) :
    f (walk sep dirs acc (renderSep sep cs)).1 = true ↔
      f acc = true ∨ ∃ rc, rc ≠ [] ∧ rc <+: cs ∧ TableHas f dirs (renderSep sep rc) := by
  induction n generalizing cs acc with
  | zero => exact absurd (List.length_eq_zero_iff.1 hn) hne
  | succ n ih =>
    rcases List.eq_nil_or_concat cs with h | ⟨ds, d, h⟩
    · exact absurd h hne
    rw [List.concat_eq_append] at h
    subst h
    have hpd : ∀ c ∈ ds, PlainComp sep c := fun c hc => hp c (by simp [hc])
    have hd : PlainComp sep d := hp d (by simp)
    have hstrip := stripOneComponent_render hpd hd
    have hlast : ∀ rc : List Str, rc <+: ds ++ [d] ↔ rc = ds ++ [d] ∨ rc <+: ds := by
      intro rc
      exact List.prefix_concat_iff
    by_cases hall : acc.all = true
    · rw [walk, if_pos hall]
      exact iff_of_true (hf.all _ hall) (Or.inl (hf.all _ hall))
    · have hall : acc.all = false := by simpa using hall
      by_cases hds : ds = []
      · rw [walk_none hall (by rw [hstrip, if_pos hds])]
        simp only
        rw [probe_iff hf]
        subst hds
        constructor
        · rintro (h | h)
          · exact Or.inl h
          · exact Or.inr ⟨[d], by simp, by simp, h⟩
        · rintro (h | ⟨rc, hr, hr', h⟩)
          · exact Or.inl h
          · right
            rcases (hlast rc).1 hr' with h' | h'
            · rw [h'] at h; exact h
            · exact absurd (List.prefix_nil.1 h') hr
      · have hlen : ds.length = n := by simp at hn; exact hn
        rw [walk_some hall (by rw [hstrip, if_neg hds])]
        simp only
        rw [ih ds hlen hds hpd, probe_iff hf]
        constructor
        · rintro ((h | h) | ⟨rc, hr, hr', h⟩)
          · exact Or.inl h
          · exact Or.inr ⟨ds ++ [d], by simp, by simp, h⟩
          · exact Or.inr ⟨rc, hr, (hlast rc).2 (Or.inr hr'), h⟩
        · rintro (h | ⟨rc, hr, hr', h⟩)
          · exact Or.inl (Or.inl h)
          · rcases (hlast rc).1 hr' with h' | h'
            · rw [h'] at h; exact Or.inl (Or.inr h)
            · exact Or.inr ⟨rc, hr, h', h⟩

theorem allowedAccess_iff {f : Acc → Bool} (hf : ProjOk f) (sep : Char) (p : Policy)
    {cs : List Str} (hne : cs ≠ []) (hp : ∀ c ∈ cs, PlainComp sep c) {s : Str}
    (hs : (stripSuffix sep s).getD s = renderSep sep cs) :
    f (p.allowedAccess sep s) = true ↔
      TableHas f p.files (renderSep sep cs) ∨
      ∃ rc, rc ≠ [] ∧ rc <+: cs ∧ TableHas f p.dirs (renderSep sep rc) := by
  simp only [Policy.allowedAccess, Policy.lookupTraced, hs]
  rw [walk_iff hf sep p.dirs _ cs rfl hne hp]
  cases hg : AMap.get p.files (renderSep sep cs) with
  | none => simp [TableHas, hg, hf.none]
  | some a => simp [TableHas, hg, hf.or, hf.none]

/-! ## Effect of the rule calls on the tables -/

theorem tableHas_merge {f : Acc → Bool} (hf : ProjOk f) (sep : Char) (m : AMap Acc)
    (path : Str) (acc : Acc) (key : Str) :
    TableHas f (mergeAccess sep m path acc) key ↔
      TableHas f m key ∨ ((stripSuffix sep path).getD path = key ∧ f acc = true) := by
  simp only [mergeAccess, stripTrailing, TableHas, AMap.get_insert]
  by_cases hk : (stripSuffix sep path).getD path = key
  · simp only [hk, if_true]
    cases hg : AMap.get m key with
    | none => simp [hf.or, hf.none]
    | some a => simp [hf.or]
  · simp [hk]

/-- Path of a rule call. -/
def FsCall.path : FsCall → Str
  | .fileRead p | .fileWrite p | .fileLock p _ _ _ | .dirRead p | .dirWrite p | .dirLock p _ _ _ => p
/-- Is it a directory rule call? -/
def FsCall.isDir : FsCall → Bool
  | .fileRead _ | .fileWrite _ | .fileLock _ _ _ _ => false
  | .dirRead _ | .dirWrite _ | .dirLock _ _ _ _ => true
/-- Access of a rule call. -/
def FsCall.acc : FsCall → Acc
  | .fileRead _ | .dirRead _ => ⟨true, false, false, false, false⟩
  | .fileWrite _ | .dirWrite _ => ⟨false, true, false, false, false⟩
  | .fileLock _ r w d | .dirLock _ r w d => ⟨false, false, r, w, d⟩

theorem fsCall_eq (os : PathOs) (p : Policy) (c : FsCall) :
    p.fsCall os c = p.allowFileAccess os c.path c.isDir c.acc := by
  cases c <;> rfl

/-- One step of the loop over derived paths. -/
def addRule (sep : Char) (dir : Bool) (acc : Acc) (p : Policy) (d : Str) : Policy :=
  if dir then { p with dirs := mergeAccess sep p.dirs d acc }
  else { p with files := mergeAccess sep p.files d acc }

theorem allowFileAccess_ok {os : PathOs} {p : Policy} {path : Str} {dir : Bool} {acc : Acc}
    {ds : List Str} (h : os.derive path = .ok ds) :
    p.allowFileAccess os path dir acc = (.ok (), ds.foldl (addRule os.sep dir acc) p) := by
  simp only [Policy.allowFileAccess, h]; rfl

theorem allowFileAccess_error {os : PathOs} {p : Policy} {path : Str} {dir : Bool} {acc : Acc}
    {e : PolicyError} (h : os.derive path = .error e) :
    p.allowFileAccess os path dir acc = (.error e, p) := by
  simp only [Policy.allowFileAccess, h]

theorem addRule_rest (sep : Char) (dir : Bool) (acc : Acc) (ds : List Str) (p : Policy) :
    let q := ds.foldl (addRule sep dir acc) p
    q.callbacks = p.callbacks ∧ q.inherit = p.inherit ∧ q.regkeys = p.regkeys ∧
      q.auditOnly = p.auditOnly ∧ (dir = true → q.files = p.files) ∧
      (dir = false → q.dirs = p.dirs) := by
  induction ds generalizing p with
  | nil => simp
  | cons d ds ih =>
    have := ih (addRule sep dir acc p d)
    simp only [List.foldl_cons]
    cases dir <;> simpa [addRule] using this

theorem addRule_dirs {f : Acc → Bool} (hf : ProjOk f) (sep : Char) (acc : Acc) (ds : List Str)
    (p : Policy) (key : Str) :
    TableHas f (ds.foldl (addRule sep true acc) p).dirs key ↔
      TableHas f p.dirs key ∨ (f acc = true ∧ ∃ d ∈ ds, (stripSuffix sep d).getD d = key) := by
  induction ds generalizing p with
  | nil => simp
  | cons d ds ih =>
    simp only [List.foldl_cons]
    rw [ih]
    simp only [addRule, if_true]
    rw [tableHas_merge hf]
    simp only [List.mem_cons, exists_eq_or_imp]
    constructor
    · rintro ((h | h) | h)
      · exact Or.inl h
      · exact Or.inr ⟨h.2, Or.inl h.1⟩
      · exact Or.inr ⟨h.1, Or.inr h.2⟩
    · rintro (h | ⟨h, h' | h'⟩)
      · exact Or.inl (Or.inl h)
      · exact Or.inl (Or.inr ⟨h', h⟩)
      · exact Or.inr ⟨h, h'⟩

theorem addRule_files {f : Acc → Bool} (hf : ProjOk f) (sep : Char) (acc : Acc) (ds : List Str)
    (p : Policy) (key : Str) :
    TableHas f (ds.foldl (addRule sep false acc) p).files key ↔
      TableHas f p.files key ∨ (f acc = true ∧ ∃ d ∈ ds, (stripSuffix sep d).getD d = key) := by
  induction ds generalizing p with
  | nil => simp
  | cons d ds ih =>
    simp only [List.foldl_cons]
    rw [ih]
    simp only [addRule]
    rw [if_neg (by simp), tableHas_merge hf]
    simp only [List.mem_cons, exists_eq_or_imp]
    constructor
    · rintro ((h | h) | h)
      · exact Or.inl h
      · exact Or.inr ⟨h.2, Or.inl h.1⟩
      · exact Or.inr ⟨h.1, Or.inr h.2⟩
    · rintro (h | ⟨h, h' | h'⟩)
      · exact Or.inl (Or.inl h)
      · exact Or.inl (Or.inr ⟨h', h⟩)
      · exact Or.inr ⟨h, h'⟩

/-- A rule call names `key` once its path is derived and normalised. -/
def FsCall.Names (os : PathOs) (c : FsCall) (key : Str) : Prop :=
  ∃ ds, os.derive c.path = .ok ds ∧ ∃ d ∈ ds, (stripSuffix os.sep d).getD d = key

theorem fsCall_dirs {f : Acc → Bool} (hf : ProjOk f) (os : PathOs) (p : Policy) (c : FsCall)
    (key : Str) :
    TableHas f (p.fsCall os c).2.dirs key ↔
      TableHas f p.dirs key ∨ (c.isDir = true ∧ f c.acc = true ∧ c.Names os key) := by
  rw [fsCall_eq]
  cases hd : os.derive c.path with
  | error e => rw [allowFileAccess_error hd]; simp [FsCall.Names, hd]
  | ok ds =>
    rw [allowFileAccess_ok hd]
    cases hdir : c.isDir with
    | true => simp only; rw [addRule_dirs hf]; simp [FsCall.Names, hd]
    | false =>
      have := (addRule_rest os.sep false c.acc ds p).2.2.2.2.2 rfl
      simp [this]

theorem fsCall_files {f : Acc → Bool} (hf : ProjOk f) (os : PathOs) (p : Policy) (c : FsCall)
    (key : Str) :
    TableHas f (p.fsCall os c).2.files key ↔
      TableHas f p.files key ∨ (c.isDir = false ∧ f c.acc = true ∧ c.Names os key) := by
  rw [fsCall_eq]
  cases hd : os.derive c.path with
  | error e => rw [allowFileAccess_error hd]; simp [FsCall.Names, hd]
  | ok ds =>
    rw [allowFileAccess_ok hd]
    cases hdir : c.isDir with
    | false => simp only; rw [addRule_files hf]; simp [FsCall.Names, hd]
    | true =>
      have := (addRule_rest os.sep true c.acc ds p).2.2.2.2.1 rfl
      simp [this]

theorem fsCall_rest (os : PathOs) (p : Policy) (c : FsCall) :
    (p.fsCall os c).2.callbacks = p.callbacks ∧ (p.fsCall os c).2.inherit = p.inherit ∧
      (p.fsCall os c).2.regkeys = p.regkeys ∧ (p.fsCall os c).2.auditOnly = p.auditOnly := by
  rw [fsCall_eq]
  cases hd : os.derive c.path with
  | error e => rw [allowFileAccess_error hd]; simp
  | ok ds =>
    rw [allowFileAccess_ok hd]
    have := addRule_rest os.sep c.isDir c.acc ds p
    exact ⟨this.1, this.2.1, this.2.2.1, this.2.2.2.1⟩

/-! ## Probes -/

theorem rsplitOnce_some {c : Char} {s a b : Str} (h : rsplitOnce c s = some (a, b)) :
    s = a ++ c :: b := by
  induction s generalizing a b with
  | nil => simp [rsplitOnce] at h
  | cons x xs ih =>
    simp only [rsplitOnce] at h
    split at h
    · rename_i a' b' h'
      simp only [Option.some.injEq, Prod.mk.injEq] at h
      rw [ih h', ← h.1, ← h.2]; rfl
    · split at h
      · rename_i hx
        simp only [Option.some.injEq, Prod.mk.injEq] at h
        rw [← h.1, ← h.2, hx]; rfl
      · cases h

theorem stripOneComponent_count {s r : Str} {sep : Char}
    (h : stripOneComponent s sep = some r) : r.count sep < s.count sep := by
  simp only [stripOneComponent] at h
  split at h
  · rename_i rest x hr
    split at h
    · cases h
    · cases h
      have h1 := rsplitOnce_some hr
      split at h1
      · rename_i t ht
        rw [stripSuffix_some ht, h1]
        simp
      · rw [h1]; simp
  · cases h

theorem walk_probes (sep : Char) (dirs : AMap Acc) (acc : Acc) (s : Str) :
    (walk sep dirs acc s).2.length ≤ s.count sep + 1 := by
  fun_induction walk sep dirs acc s with
  | case1 => simp
  | case2 acc cur h acc' parent h' r ih =>
    have := stripOneComponent_count h'
    simp only [List.length_cons, r]
    omega
  | case3 => simp

/-- A walk depends only on the entries of the keys it looks up. -/
theorem walk_agrees (sep : Char) (dirs dirs' : AMap Acc) (acc : Acc) (s : Str)
    (h : ∀ d ∈ (walk sep dirs acc s).2, AMap.get dirs' d = AMap.get dirs d) :
    walk sep dirs' acc s = walk sep dirs acc s := by
  fun_induction walk sep dirs acc s with
  | case1 acc cur hall => rw [walk]; simp [hall]
  | case2 acc cur hall acc' parent h' r ih =>
    have hc := h cur (by simp)
    have hr := ih fun d hd => h d (by simp [r, hd])
    rw [walk]
    rw [if_neg hall, hc]
    dsimp only
    split
    · rename_i h2; rw [h'] at h2; cases h2
      exact congrArg (fun x : Acc × List Str => (x.1, cur :: x.2)) hr
    · rename_i h2; rw [h'] at h2; cases h2
  | case3 acc cur hall acc' h' =>
    have hc := h cur (by simp)
    rw [walk]
    rw [if_neg hall, hc]
    dsimp only
    split
    · rename_i h2; rw [h'] at h2; cases h2
    · rfl

end Iris
