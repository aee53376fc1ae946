import Verif.Model.RustStd
/-! Lemmas about the `str` and `HashMap` models. -/
namespace Iris

theorem stripSuffix_append (c : Char) (s : Str) : stripSuffix c (s ++ [c]) = some s := by
  simp [stripSuffix]

theorem stripSuffix_none {c : Char} {s : Str} (h : s.getLast? ≠ some c) :
    stripSuffix c s = none := by simp [stripSuffix, h]

theorem stripSuffix_some {c : Char} {s t : Str} (h : stripSuffix c s = some t) : s = t ++ [c] := by
  simp only [stripSuffix] at h
  split at h
  · rename_i hl
    cases h
    obtain ⟨ys, hys⟩ := List.getLast?_eq_some_iff.1 hl
    subst hys; simp
  · cases h

theorem stripPrefix_some {c : Char} {s t : Str} (h : stripPrefix c s = some t) : s = c :: t := by
  cases s with
  | nil => simp [stripPrefix] at h
  | cons x xs =>
    simp only [stripPrefix] at h
    split at h
    · rename_i hx; cases h; rw [hx]
    · cases h

@[simp] theorem stripPrefix_cons (c : Char) (s : Str) : stripPrefix c (c :: s) = some s := by
  simp [stripPrefix]

/-- Pieces joined by a separator. -/
def joinSep (c : Char) : List Str → Str
  | [] => []
  | [s] => s
  | s :: t :: r => s ++ c :: joinSep c (t :: r)

theorem split_ne_nil (c : Char) (s : Str) : split c s ≠ [] := by
  cases s with
  | nil => simp [split]
  | cons x xs =>
    simp only [split]
    split
    · simp
    · split <;> simp

theorem joinSep_split (c : Char) (s : Str) : joinSep c (split c s) = s := by
  induction s with
  | nil => rfl
  | cons x xs ih =>
    simp only [split]
    split
    · rename_i hx
      cases hs : split c xs with
      | nil => exact absurd hs (split_ne_nil c xs)
      | cons h t => rw [hs] at ih; simp [joinSep, ih, hx]
    · cases hs : split c xs with
      | nil => exact absurd hs (split_ne_nil c xs)
      | cons h t =>
        rw [hs] at ih
        cases t with
        | nil => simp [joinSep] at ih ⊢; rw [ih]
        | cons a b => simp only [joinSep, List.cons_append] at ih ⊢; rw [ih]

theorem not_mem_of_mem_split {c : Char} {s p : Str} (h : p ∈ split c s) : c ∉ p := by
  induction s generalizing p with
  | nil => simp [split] at h; simp [h]
  | cons x xs ih =>
    simp only [split] at h
    split at h
    · rcases List.mem_cons.1 h with h | h
      · simp [h]
      · exact ih h
    · rename_i hx
      cases hs : split c xs with
      | nil => exact absurd hs (split_ne_nil c xs)
      | cons a t =>
        rw [hs] at h ih
        rcases List.mem_cons.1 h with h | h
        · subst h
          have := ih (List.mem_cons_self)
          simp only [List.mem_cons, not_or]
          exact ⟨fun e => hx e.symm, this⟩
        · exact ih (List.mem_cons_of_mem _ h)

theorem split_of_not_mem {c : Char} {s : Str} (h : c ∉ s) : split c s = [s] := by
  induction s with
  | nil => rfl
  | cons x xs ih =>
    simp only [List.mem_cons, not_or] at h
    simp [split, Ne.symm h.1, ih h.2]

theorem split_append {c : Char} {s t : Str} (h : c ∉ s) :
    split c (s ++ c :: t) = s :: split c t := by
  induction s with
  | nil => simp [split]
  | cons x xs ih =>
    simp only [List.mem_cons, not_or] at h
    simp [split, Ne.symm h.1, ih h.2]

theorem split_joinSep {c : Char} {l : List Str} (hne : l ≠ []) (h : ∀ p ∈ l, c ∉ p) :
    split c (joinSep c l) = l := by
  induction l with
  | nil => exact absurd rfl hne
  | cons a t ih =>
    cases t with
    | nil => exact split_of_not_mem (h a (List.mem_cons_self))
    | cons b r =>
      simp only [joinSep]
      rw [split_append (h a List.mem_cons_self)]
      rw [ih (by simp) (fun p hp => h p (List.mem_cons_of_mem _ hp))]

theorem rsplitOnce_not_mem {c : Char} {s : Str} (h : c ∉ s) : rsplitOnce c s = none := by
  induction s with
  | nil => rfl
  | cons x xs ih =>
    simp only [List.mem_cons, not_or] at h
    simp [rsplitOnce, ih h.2, Ne.symm h.1]

theorem rsplitOnce_append {c : Char} (s : Str) {t : Str} (h : c ∉ t) :
    rsplitOnce c (s ++ c :: t) = some (s, t) := by
  induction s with
  | nil => simp [rsplitOnce, rsplitOnce_not_mem h]
  | cons x xs ih => simp [rsplitOnce, ih]

/-! ## Maps -/

theorem AMap.get_insert {α : Type} (m : AMap α) (k k' : Str) (v : α) :
    AMap.get (AMap.insert m k v) k' = if k = k' then some v else AMap.get m k' := by
  simp only [AMap.insert, AMap.get]
  split
  · rfl
  · rename_i hk
    induction m with
    | nil => rfl
    | cons e r ih =>
      obtain ⟨a, b⟩ := e
      simp only [List.filter_cons]
      split
      · simp only [AMap.get]; split
        · rfl
        · exact ih
      · rename_i ha
        simp at ha
        subst ha
        rw [ih]; simp [AMap.get, hk]

/-- No key occurs twice. -/
def AMap.WF {α : Type} (m : AMap α) : Prop := (m.map Prod.fst).Nodup

theorem AMap.wf_insert {α : Type} {m : AMap α} (h : m.WF) (k : Str) (v : α) :
    (AMap.insert m k v).WF := by
  simp only [AMap.WF, AMap.insert, List.map_cons, List.nodup_cons] at *
  constructor
  · simp [List.mem_map]
  · exact (List.filter_sublist.map _).nodup h

theorem AMap.mem_of_get {α : Type} {m : AMap α} {k : Str} {v : α} (h : AMap.get m k = some v) :
    (k, v) ∈ m := by
  induction m with
  | nil => simp [AMap.get] at h
  | cons e r ih =>
    obtain ⟨a, b⟩ := e
    simp only [AMap.get] at h
    split at h
    · rename_i ha; cases h; subst ha; simp
    · exact List.mem_cons_of_mem _ (ih h)

theorem AMap.get_of_mem {α : Type} {m : AMap α} (hw : m.WF) {k : Str} {v : α} (h : (k, v) ∈ m) :
    AMap.get m k = some v := by
  induction m with
  | nil => cases h
  | cons e r ih =>
    obtain ⟨a, b⟩ := e
    simp only [AMap.WF, List.map_cons, List.nodup_cons] at hw
    simp only [AMap.get]
    rcases List.mem_cons.1 h with h | h
    · cases h; simp
    · have : a ≠ k := by
        rintro rfl
        exact hw.1 (List.mem_map_of_mem (f := Prod.fst) h)
      simp [this, ih hw.2 h]

theorem AMap.get_eq_none {α : Type} {m : AMap α} {k : Str} :
    AMap.get m k = none ↔ k ∉ m.map Prod.fst := by
  induction m with
  | nil => simp [AMap.get]
  | cons e r ih =>
    obtain ⟨a, b⟩ := e
    simp only [AMap.get, List.map_cons, List.mem_cons, not_or]
    split
    · rename_i h; simp [h]
    · rename_i h; rw [ih]; exact ⟨fun hr => ⟨Ne.symm h, hr⟩, fun hr => hr.2⟩

end Iris
