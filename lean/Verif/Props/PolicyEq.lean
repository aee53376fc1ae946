import Verif.Props.LinuxPolicy
/-! # When two policies are equal (C16) -/
namespace Iris
open Spec

theorem length_of_same_mem {α : Type} {a b : List α} (ha : a.Nodup) (hb : b.Nodup)
    (h : ∀ x, x ∈ a ↔ x ∈ b) : a.length = b.length :=
  ((List.perm_ext_iff_of_nodup ha hb).2 h).length_eq

theorem setEq_iff {α : Type} [DecidableEq α] {a b : List α} (ha : a.Nodup) (hb : b.Nodup) :
    setEq a b = true ↔ ∀ x, x ∈ a ↔ x ∈ b := by
  simp only [setEq, Bool.and_eq_true, beq_iff_eq, List.all_eq_true, decide_eq_true_eq]
  constructor
  · rintro ⟨hl, hs⟩ x
    exact mem_iff_of_subset_length ha hs hl x
  · intro h
    exact ⟨length_of_same_mem ha hb h, fun x hx => (h x).1 hx⟩

theorem AMap.eq_iff {α : Type} [DecidableEq α] {a b : AMap α} (ha : a.WF) (hb : b.WF) :
    AMap.eq a b = true ↔ ∀ k, AMap.get a k = AMap.get b k := by
  refine ⟨fun h k => AMap.eq_get ha h k, fun h => ?_⟩
  simp only [AMap.eq, Bool.and_eq_true, beq_iff_eq, List.all_eq_true, decide_eq_true_eq]
  have hm : ∀ (x y : AMap α), x.WF → (∀ k, AMap.get x k = AMap.get y k) →
      ∀ k, k ∈ x.map Prod.fst → k ∈ y.map Prod.fst := by
    intro x y hx he k hk
    obtain ⟨e, hemem, rfl⟩ := List.mem_map.1 hk
    have := AMap.get_of_mem hx (k := e.1) (v := e.2) hemem
    rw [he] at this
    exact List.mem_map.2 ⟨_, AMap.mem_of_get this, rfl⟩
  refine ⟨?_, fun e he => ?_⟩
  · have := length_of_same_mem ha hb fun k => ⟨hm a b ha h k, hm b a hb (fun k => (h k).symm) k⟩
    simpa using this
  · rw [← h]
    exact AMap.get_of_mem ha he

/-- Two policies are equal exactly when they give the same handles to workers and have the same rules, in whatever
order these were given. -/
theorem C16_equality_exact (p q : Policy) (hp : Built p) (hq : Built q) :
    p.eq q = true ↔
      (∀ handle, handle ∈ p.inherit ↔ handle ∈ q.inherit) ∧
      (∀ path, AMap.get p.files path = AMap.get q.files path) ∧
      (∀ path, AMap.get p.dirs path = AMap.get q.dirs path) ∧
      (∀ key, AMap.get p.regkeys key = AMap.get q.regkeys key) ∧
      p.auditOnly = q.auditOnly := by
  have hw := hp.wf
  have hw' := hq.wf
  simp only [Policy.eq, Bool.and_eq_true, setEq_iff hw.2.2.2 hw'.2.2.2, AMap.eq_iff hw.1 hw'.1,
    AMap.eq_iff hw.2.1 hw'.2.1, AMap.eq_iff hw.2.2.1 hw'.2.2.1, beq_iff_eq, and_assoc]

example : (Policy.nothingAllowed.calls [.fs (.fileRead c!"/a"), .fs (.dirRead c!"/b")]).eq
      (Policy.nothingAllowed.calls [.fs (.dirRead c!"/b"), .fs (.fileRead c!"/a")]) = true ∧
    (Policy.nothingAllowed.calls [.fs (.fileRead c!"/a")]).eq
      (Policy.nothingAllowed.calls [.fs (.dirRead c!"/a")]) = false := by decide +kernel

end Iris
