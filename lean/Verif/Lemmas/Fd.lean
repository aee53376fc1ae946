import Verif.Model.Channel
/-! Helper lemmas about descriptor tables. -/
namespace Iris

/-- The descriptors in use. -/
def FdTable.fds (t : FdTable) : List Nat := t.map Prod.fst
/-- A descriptor is used once. -/
def FdTable.WF (t : FdTable) : Prop := t.fds.Nodup

theorem FdTable.get_none_iff {t : FdTable} {n : Nat} : t.get n = none ↔ n ∉ t.fds := by
  induction t with
  | nil => simp [FdTable.get, FdTable.fds]
  | cons x t ih =>
    obtain ⟨m, e⟩ := x
    simp only [FdTable.get, FdTable.fds, List.map_cons, List.mem_cons, not_or]
    by_cases h : m = n
    · subst h; simp
    · rw [if_neg h, ih]
      simp only [FdTable.fds]
      constructor
      · exact fun hh => ⟨Ne.symm h, hh⟩
      · exact fun hh => hh.2

theorem FdTable.lowestFree_spec (t : FdTable) :
    t.get t.lowestFree = none ∧ ∀ m, m < t.lowestFree → t.get m ≠ none := by
  have hex : ∃ n ∈ List.range (t.length + 1), (t.get n).isNone = true := by
    apply Classical.byContradiction
    intro hno
    have hsub : List.range (t.length + 1) ⊆ t.fds := by
      intro n hn
      apply Classical.byContradiction
      intro hc
      exact hno ⟨n, hn, by simp [FdTable.get_none_iff.2 hc]⟩
    have := List.Nodup.length_le_of_subset List.nodup_range hsub
    simp [FdTable.fds] at this
    omega
  obtain ⟨n, hn⟩ := Option.isSome_iff_exists.1 (List.find?_isSome.2 hex)
  have hl : t.lowestFree = n := by simp [FdTable.lowestFree, hn]
  rw [hl]
  refine ⟨by simpa using List.find?_some hn, ?_⟩
  intro m hm
  rw [List.find?_range_eq_some] at hn
  have := hn.2.2 m hm
  intro hc
  simp [hc] at this

theorem FdTable.lowestFree_fresh (t : FdTable) : t.lowestFree ∉ t.fds :=
  FdTable.get_none_iff.1 t.lowestFree_spec.1

theorem FdTable.get_erase (t : FdTable) (n m : Nat) :
    (t.erase n).get m = if m = n then none else t.get m := by
  induction t with
  | nil => simp [FdTable.erase, FdTable.get]
  | cons x t ih =>
    obtain ⟨k, e⟩ := x
    simp only [FdTable.erase] at ih ⊢
    rw [List.filter_cons]
    by_cases hk : k = n
    · subst hk
      simp only [ne_eq, not_true_eq_false, decide_false, Bool.false_eq_true, if_false, ih]
      by_cases hm : m = k
      · simp [hm]
      · simp [hm, FdTable.get, Ne.symm hm]
    · simp only [ne_eq, hk, not_false_eq_true, decide_true, if_true, FdTable.get, ih]
      by_cases hm : m = n
      · subst hm; simp [hk]
      · simp [hm]

theorem FdTable.get_set (t : FdTable) (n m : Nat) (e : FdEntry) :
    (t.set n e).get m = if m = n then some e else t.get m := by
  simp only [FdTable.set, FdTable.get, FdTable.get_erase]
  by_cases h : n = m
  · simp [h]
  · simp [h, Ne.symm h]

theorem FdTable.get_alloc (t : FdTable) (e : FdEntry) (m : Nat) :
    (t.alloc e).2.get m = if m = t.lowestFree then some e else t.get m := by
  simp only [FdTable.alloc, FdTable.get]
  by_cases h : t.lowestFree = m
  · simp [h]
  · simp [h, Ne.symm h]

theorem FdTable.erase_of_fresh {t : FdTable} {n : Nat} (h : n ∉ t.fds) : t.erase n = t := by
  simp only [FdTable.erase, List.filter_eq_self]
  intro x hx
  simp only [ne_eq, decide_not, Bool.not_eq_eq_eq_not, Bool.not_true, decide_eq_false_iff_not]
  rintro rfl
  exact h (List.mem_map_of_mem hx)

/-- Opening and closing again gives the same table back. -/
theorem FdTable.erase_alloc (t : FdTable) (e : FdEntry) :
    (t.alloc e).2.erase (t.alloc e).1 = t := by
  simp only [FdTable.alloc]
  have : FdTable.erase ((t.lowestFree, e) :: t) t.lowestFree = t.erase t.lowestFree := by
    simp [FdTable.erase]
  rw [this, FdTable.erase_of_fresh t.lowestFree_fresh]

theorem ofLe_leBytes (n v : Nat) (h : v < 256 ^ n) : ofLe (leBytes n v) = v := by
  induction n generalizing v with
  | zero => simp at h; simp [leBytes, ofLe, h]
  | succ n ih =>
    have h2 : (UInt8.ofNat (v % 256)).toNat = v % 256 := by
      rw [UInt8.toNat_ofNat']; omega
    simp only [leBytes, ofLe, h2]
    rw [ih]
    · omega
    · rw [Nat.div_lt_iff_lt_mul (by omega)]; rwa [Nat.pow_succ] at h

theorem leBytes_length (n v : Nat) : (leBytes n v).length = n := by
  induction n generalizing v with
  | zero => rfl
  | succ n ih => simp [leBytes, ih]

end Iris
