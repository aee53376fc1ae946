import Verif.Lemmas.EntryIds
import Verif.Props.Process
/-!
# C120: users and groups of a worker
-/
namespace Iris
open Spec

/-- **C120**. A worker in a user namespace of its own is there the user and the group of the broker, under their own
numbers, or nobody if the system refused it, and no other user or group exists: in particular not root, unless it is
the broker. Groups exist only if `setgroups` was denied before, unless the broker may change groups anyway. -/
theorem C120_ids (p : Policy) (c : ProcessConfig) (os : ProcOs) (childPipe : Nat) (cr : Creds) (broker : UserNs)
    (pid : Nat) (pidNs : Bool) (hc : tryClone os = .ok (pid, true, pidNs))
    (hu : os.uid < 2 ^ 32 - 1) (hg : os.gid < 2 ^ 32 - 1) :
    let ns := workerNs p c os childPipe cr broker
    (OnlyItself ns.uidMap os.uid ∨ Nobody ns.uidMap) ∧ (OnlyItself ns.gidMap os.gid ∨ Nobody ns.gidMap) ∧
    (os.uid ≠ 0 → ∀ o, ¬ Is ns.uidMap 0 o) ∧
    (¬ Nobody ns.gidMap → ns.setgroupsDenied = true ∨ cr.setgid = true) := by
  have hn : workerNs p c os childPipe cr broker =
      writeIds os.entry (entryParams p c os childPipe) cr ⟨[], [], false⟩ := by
    rw [workerNs, startNs, hc]
  have key : let ns := workerNs p c os childPipe cr broker
      (OnlyItself ns.uidMap os.uid ∨ Nobody ns.uidMap) ∧ (OnlyItself ns.gidMap os.gid ∨ Nobody ns.gidMap) ∧
      (¬ Nobody ns.gidMap → ns.setgroupsDenied = true ∨ cr.setgid = true) := by
    have s1 := is_single os.uid
    have s2 := is_single os.gid
    have s3 := nobody_nil
    have h1 : ∃ d, writeProc os.entry.setgroups (sysWriteSetgroups · (utf8 c!"deny")) ⟨[], [], false⟩ = ⟨[], [], d⟩ := by
      rw [writeProc]
      split
      · exact ⟨_, rfl⟩
      · split
        · exact ⟨true, by simp [sysWriteSetgroups]⟩
        · exact ⟨_, rfl⟩
    obtain ⟨d, h1⟩ := h1
    have h2 : ∃ l, (OnlyItself l os.uid ∨ Nobody l) ∧
        writeProc os.entry.uidMap (sysWriteUidMap cr · (idMap os.uid)) ⟨[], [], d⟩ = ⟨l, [], d⟩ := by
      rw [writeProc]
      split
      · exact ⟨[], .inr s3, rfl⟩
      · split
        · rw [sysWriteUidMap, kParseMap_idMap _ hu]
          simp only [ne_eq, not_true_eq_false, if_false]
          split
          · exact ⟨_, .inl s1, rfl⟩
          · exact ⟨[], .inr s3, rfl⟩
        · exact ⟨[], .inr s3, rfl⟩
    obtain ⟨l, hl, h2⟩ := h2
    have h3 : ∃ l', (OnlyItself l' os.gid ∧ (d = true ∨ cr.setgid = true) ∨ Nobody l') ∧
        writeProc os.entry.gidMap (sysWriteGidMap cr · (idMap os.gid)) ⟨l, [], d⟩ = ⟨l, l', d⟩ := by
      rw [writeProc]
      split
      · exact ⟨[], .inr s3, rfl⟩
      · split
        · rw [sysWriteGidMap, kParseMap_idMap _ hg]
          simp only [ne_eq, not_true_eq_false, if_false]
          split
          · rename_i h
            exact ⟨_, .inl ⟨s2, h.elim .inr fun h => .inl h.1⟩, rfl⟩
          · exact ⟨[], .inr s3, rfl⟩
        · exact ⟨[], .inr s3, rfl⟩
    obtain ⟨l', hl', h3⟩ := h3
    have p1 : 0 < (idMap os.uid).length := idMap_pos _
    have p2 : 0 < (idMap os.gid).length := idMap_pos _
    have hw : workerNs p c os childPipe cr broker = ⟨l, l', d⟩ := by
      rw [hn, writeIds]
      simp only [h1, entryParams, p1, p2, if_true, h2, h3]
    simp only [hw]
    refine ⟨hl, hl'.imp And.left id, fun hx => ?_⟩
    rcases hl' with hl' | hl'
    · exact hl'.2
    · exact absurd hl' hx
  refine ⟨key.1, key.2.1, fun h0 o ho => ?_, key.2.2⟩
  rcases key.1 with h | h
  · exact h0 ((h 0 o).1 ho).1.symm
  · exact h 0 o ho

/-- **C120**, the other direction. If the system refuses nothing and the broker runs as the user who started it, the
worker is that user and that group, and `setgroups` is denied. -/
theorem C120_ids_written (p : Policy) (c : ProcessConfig) (os : ProcOs) (childPipe : Nat) (cr : Creds) (broker : UserNs)
    (pid : Nat) (pidNs : Bool) (hc : tryClone os = .ok (pid, true, pidNs))
    (hu : os.uid < 2 ^ 32 - 1) (hg : os.gid < 2 ^ 32 - 1) (heu : cr.euid = os.uid) (heg : cr.egid = os.gid)
    (h : ∀ w ∈ [os.entry.setgroups, os.entry.uidMap, os.entry.gidMap], (∃ file, w.open = .ok file) ∧ w.written = true) :
    let ns := workerNs p c os childPipe cr broker
    OnlyItself ns.uidMap os.uid ∧ OnlyItself ns.gidMap os.gid ∧ ns.setgroupsDenied = true := by
  have hn : workerNs p c os childPipe cr broker =
      writeIds os.entry (entryParams p c os childPipe) cr ⟨[], [], false⟩ := by
    rw [workerNs, startNs, hc]
  simp only [List.mem_cons, List.not_mem_nil, or_false, forall_eq_or_imp, forall_eq] at h
  obtain ⟨⟨⟨f1, o1⟩, w1⟩, ⟨⟨f2, o2⟩, w2⟩, ⟨f3, o3⟩, w3⟩ := h
  have p1 : 0 < (idMap os.uid).length := idMap_pos _
  have p2 : 0 < (idMap os.gid).length := idMap_pos _
  have hw : workerNs p c os childPipe cr broker = ⟨[⟨os.uid, os.uid, 1⟩], [⟨os.gid, os.gid, 1⟩], true⟩ := by
    rw [hn, writeIds]
    simp [entryParams, p1, p2, writeProc, o1, w1, o2, w2, o3, w3, sysWriteSetgroups, sysWriteUidMap,
      sysWriteGidMap, kParseMap_idMap _ hu, kParseMap_idMap _ hg, heu, heg]
  simp only [hw]
  exact ⟨is_single _, is_single _, trivial⟩

/-- **C120**. A worker without a user namespace of its own leaves that of the broker as it is. -/
theorem C120_broker_ids_kept (p : Policy) (c : ProcessConfig) (os : ProcOs) (childPipe : Nat) (cr : Creds)
    (broker : UserNs) (hc : ∀ pid pidNs, tryClone os ≠ .ok (pid, true, pidNs))
    (hu : broker.uidMap ≠ []) (hg : broker.gidMap ≠ []) :
    workerNs p c os childPipe cr broker = broker := by
  have hs : startNs os broker = broker := by
    rw [startNs]
    split
    · rename_i h; exact absurd h (hc _ _)
    · rfl
  have e1 : writeProc os.entry.setgroups (sysWriteSetgroups · (utf8 c!"deny")) broker = broker := by
    rw [writeProc]
    split
    · rfl
    · split
      · by_cases hd : broker.setgroupsDenied = true <;> simp [sysWriteSetgroups, hd, hg]
      · rfl
  have e2 : ∀ b, writeProc os.entry.uidMap (sysWriteUidMap cr · b) broker = broker := by
    intro b; rw [writeProc]
    split
    · rfl
    · simp [sysWriteUidMap, hu]
  have e3 : ∀ b, writeProc os.entry.gidMap (sysWriteGidMap cr · b) broker = broker := by
    intro b; rw [writeProc]
    split
    · rfl
    · simp [sysWriteGidMap, hg]
  rw [workerNs, writeIds, hs]
  simp only [e1, e2, e3, ite_self]

/-- C120: a user and a group with a namespace; the same when `setgroups` cannot be written: the group is refused; a
broker which runs with the rights of another user; no namespace. -/
def idOs : ProcOs :=
  ⟨.ok (60, 61), 1000, 100, .ok 4321, .error 1, .error 1, none, { goodEntry with gidMap := ⟨.ok 72, true⟩ }⟩

def newIds (os : ProcOs) (euid : Nat) : UserNs :=
  workerNs Policy.nothingAllowed someConfig os 5 ⟨euid, 100, false, false⟩
    ⟨[⟨0, 0, 2 ^ 32 - 2⟩], [⟨0, 0, 2 ^ 32 - 2⟩], false⟩

example :
    newIds idOs 1000 = ⟨[⟨1000, 1000, 1⟩], [⟨100, 100, 1⟩], true⟩ ∧
    newIds { idOs with entry := { idOs.entry with setgroups := ⟨.error 2, true⟩ } } 1000 =
      ⟨[⟨1000, 1000, 1⟩], [], false⟩ ∧
    newIds idOs 1001 = ⟨[], [⟨100, 100, 1⟩], true⟩ ∧
    newIds { idOs with clone1 := .error 1, clone2 := .ok 4321 } 1000 =
      ⟨[⟨0, 0, 2 ^ 32 - 2⟩], [⟨0, 0, 2 ^ 32 - 2⟩], false⟩ := by
  decide +kernel

end Iris
