import Verif.Lemmas.WinAttrList
/-!
# C122: memory used to create a Windows worker
-/
namespace Iris
open Spec

/-- **C122**. Whatever the system does, no memory is used which is not there, or beyond its end: in each iteration the
list is as big as the system asked, has a slot for each attribute, and when the process is created all values can
be read and are those which were meant (the result is that of `winCreate`, calls of `CreateProcess` included). All
blocks are freed and all lists deleted, once. Missing: that values persist until the list is deleted, and that the
identifiers of profiles are freed, see `C122_values_violated` and `C122_profile_ids_violated`. -/
theorem C122_memory_partial (supported : Bool) (inherited : List (BitVec 64)) (lists : Nat → ListOs)
    (rounds : Nat → WinRound) (n : Nat) (s : WinStart) (m : AttrMem) (hm : Possible m)
    (hr : ∀ k, (rounds k).listOk = listGiven (lists k)) :
    ∃ m', winCreateMem false supported inherited lists rounds n s m = some (winCreate supported inherited rounds n s, m') ∧
      GivesBackMemory m m' ∧ Possible m' := by
  obtain ⟨m', h1, h2⟩ := winLoopMem_eq supported inherited lists rounds hr n 0 ⟨true, true, true, true, true⟩ s m hm
  exact ⟨m', h1, ⟨h2.blocks, h2.lists⟩, h2.possible hm⟩

/-- A system which refuses nothing, for one worker. -/
def listGood : ListOs := ⟨false, 122#32, 160, false⟩

def roundGood : WinRound := ⟨true, 0#32, 0#32, fun _ => true, true, 4242#32⟩

/-- A system on which mitigations are not known, then less privileged containers. -/
def roundOld (k : Nat) : WinRound :=
  ⟨true, 0#32, 0#32, fun a => match a with | .mitigationPolicy _ => false | .allApplicationPackagesPolicy _ => k == 0 | _ => true,
    true, 4242#32⟩

/-- **C122**, violated. The values are gone before the list is deleted, already when the system refuses nothing: the
list is declared first, so it is dropped last. -/
theorem C122_values_violated :
    winCreateMem true true [0x64#64] (fun _ => listGood) (fun _ => roundGood) 1 ⟨0, [], []⟩ ⟨[], [], [], 0⟩ = none := by
  decide +kernel

/-- **C122**, violated otherwise. Each worker in a container leaves the identifier of its profile allocated, for
every behaviour of the system. -/
theorem C122_profile_ids_violated (supported : Bool) (inherited : List (BitVec 64)) (lists : Nat → ListOs)
    (rounds : Nat → WinRound) (n : Nat) (s s' : WinStart) (m m' : AttrMem) (hm : Possible m)
    (hr : ∀ k, (rounds k).listOk = listGiven (lists k)) (p : WinProcess) (i : Nat)
    (hc : winCreateMem false supported inherited lists rounds n s m = some (.created p s', m')) (hp : p.profile = some i)
    (hi : i ∉ m.sids) : ¬ GivesBack m m' := by
  obtain ⟨m1, h1, h2⟩ := winLoopMem_eq supported inherited lists rounds hr n 0 ⟨true, true, true, true, true⟩ s m hm
  rw [winCreateMem, h1] at hc
  simp only [Option.some.injEq, Prod.mk.injEq] at hc
  obtain ⟨hc, rfl⟩ := hc
  intro hg
  have := h2.leaked p s' i hc hp
  rw [hg.2.2] at this
  exact hi this

/-- **C122**, violated: the full statement is false. -/
theorem C122_violated : ¬ CarefulWithMemory := by
  intro h
  obtain ⟨r, m', h1, _⟩ := h true [0x64#64] (fun _ => listGood) (fun _ => roundGood) 1 ⟨0, [], []⟩ ⟨[], [], [], 0⟩
    ⟨by simp, by simp⟩
  rw [C122_values_violated] at h1
  cases h1

/-- C122: three iterations, with a list for 5, 4 and 3 attributes. The hypotheses are met, three identifiers are left. -/
example :
    Possible ⟨[⟨3, 10, none⟩], [(2, ⟨1, []⟩)], [], 7⟩ ∧
    (∀ k, (roundOld k).listOk = listGiven listGood) ∧
    winCreateMem false true [0x64#64, 0x64#64, 0x20#64] (fun _ => listGood) roundOld 10 ⟨5, [], []⟩
      ⟨[⟨3, 10, none⟩], [(2, ⟨1, []⟩)], [], 7⟩ =
    some (.created ⟨4242#32, some 7⟩ ⟨8, [5, 6, 7], [⟨3, [.securityCapabilities 7, .handleList [0x20#64, 0x64#64],
        .childProcessPolicy 1], true⟩]⟩,
      ⟨[⟨3, 10, none⟩], [(2, ⟨1, []⟩)], [7, 6, 5], 22⟩) := by
  refine ⟨⟨by decide, by decide⟩, fun k => rfl, by decide +kernel⟩

/-- C122: the system refuses to initialise the list: nothing is left. -/
example : winCreateMem true true [] (fun _ => ⟨false, 122#32, 64, true⟩) (fun _ => { roundGood with listOk := false }) 9
    ⟨0, [], []⟩ ⟨[], [], [], 0⟩ = some (.failed ⟨0, [], []⟩, ⟨[], [], [], 1⟩) := by
  decide +kernel

end Iris
