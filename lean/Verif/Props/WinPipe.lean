import Verif.Lemmas.WinPipe
/-!
# C100, C101: the channel of a Windows worker
-/
namespace Iris
open Spec

attribute [local irreducible] nameOf

/-! ## C100: the two ends of a channel -/

/-- What an iteration gives. -/
theorem attempt_handles {name : Bytes} {w w' : PipeWorld} {r : PipeRound} {a b : BitVec 64}
    (h : channelAttempt w name r = (.channel a b, w')) :
    w.handles.free a = true ∧ w.handles.free b = true ∧ a ≠ b ∧
    ∃ x y, w'.handles = (b, y) :: (a, x) :: w.handles ∧ w.next ≤ x ∧ x < y ∧ y < w'.next := by
  rcases attempt_cases w name r with ⟨h', -⟩ | ⟨e, v, h', -⟩ |
    ⟨h1, h2, w2, w4, h', -, hf1, hw2, hf2, s, -, hw4⟩
  · rw [h'] at h; cases h
  · rw [h'] at h; cases h
  · rw [h'] at h
    have f2 := (HTable.free_iff _ _).1 hf2
    have hne : h1 ≠ h2 := by
      rintro rfl
      have := f2.2
      rw [HTable.get_cons] at this; cases this
    have f2' : w.handles.get h2 = none := by
      have := f2.2
      rwa [HTable.get_cons_ne _ _ hne] at this
    obtain ⟨rfl, rfl, l, rfl⟩ := finish_channel_any h
    refine ⟨hf1, (HTable.free_iff _ _).2 ⟨f2.1, f2'⟩, hne, (w.others r.before1).next, (w2.others r.before2).next,
      ?_, others_next _ _, ?_, ?_⟩
    · rw [others_handles, hw4]
    · have h2 := others_next r.before2 w2
      rw [hw2] at h2
      simp only at h2
      rw [hw2]
      omega
    · have := others_next l w4
      rw [hw4] at this ⊢
      simp only at this
      omega

/-- What an iteration gives, if others leave the names of this process alone. -/
theorem attempt_channel {pid id : BitVec 32} {w w' : PipeWorld} {r : PipeRound} {o : PipeOutcome}
    (hr : ∀ a ∈ othersActs r, LeavesAlone pid a) (h : channelAttempt w (nameOf pid id) r = (o, w')) :
    o ≠ .hangs ∧ ∀ a b, o = .channel a b → Joined w' a b := by
  have hr1 : ∀ a ∈ r.before1, LeavesAlone pid a := fun a ha => hr a (by simp [othersActs, ha])
  have hr2 : ∀ a ∈ r.before2, LeavesAlone pid a := fun a ha => hr a (by simp [othersActs, ha])
  have hr3 : ∀ a ∈ r.before3, LeavesAlone pid a := fun a ha => hr a (by simp [othersActs, ha])
  have hr4 : ∀ a ∈ r.before4, LeavesAlone pid a := fun a ha => hr a (by simp [othersActs, ha])
  rcases attempt_cases w (nameOf pid id) r with ⟨h', -⟩ | ⟨e, v, h', -⟩ |
    ⟨h1, h2, w2, w4, h', hno, hf1, hw2, hf2, s, ⟨i, hi, hin, his, hic⟩, hw4⟩
  · rw [h'] at h; cases h; exact ⟨by simp, by simp⟩
  · rw [h'] at h; cases h; exact ⟨by simp, by simp⟩
  · rw [h'] at h
    have hown := nameOf_own pid id
    -- the instance is the one just created
    have huniq : ∀ j ∈ (w2.others r.before2).pipes, j.name = nameOf pid id →
        j = ⟨nameOf pid id, (w.others r.before1).next, none⟩ := by
      intro j hj hn
      have hj2 := others_own hr2 hj (hn ▸ hown)
      rw [hw2] at hj2
      rcases List.mem_append.1 hj2 with hj2 | hj2
      · exact absurd hn (hno j hj2)
      · simpa using hj2
    have hi' := huniq i hi hin
    have f2 := (HTable.free_iff _ _).1 hf2
    have hne : h1 ≠ h2 := by
      rintro rfl
      have := f2.2
      rw [HTable.get_cons] at this; cases this
    -- and it is connected
    let I : PipeInstance := ⟨nameOf pid id, (w.others r.before1).next, some (w2.others r.before2).next⟩
    have hI : I ∈ w4.pipes := by
      rw [hw4]
      have := connectTo_chosen (p := fun i => i.name = nameOf pid id && i.server = s)
        (o := (w2.others r.before2).next) hi (by simp [hin, his]) hic (fun j hj hp => by
          simp only [Bool.and_eq_true, decide_eq_true_eq] at hp
          rw [huniq j hj hp.1, hi'])
      rw [hi'] at this; exact this
    have hh4 : w4.handles =
        (h2, (w2.others r.before2).next) :: (h1, (w.others r.before1).next) :: w.handles := by rw [hw4]
    have hheld : ∃ e ∈ w4.handles, e.2 = I.server := ⟨(h1, _), by rw [hh4]; simp, rfl⟩
    have hI3 := others_keeps hr3 hI hown hheld
    have hg1 : w4.handles.get h1 = some I.server := by
      rw [hh4, HTable.get_cons_ne _ _ (Ne.symm hne), HTable.get_cons]
    have hg2 : w4.handles.get h2 = some (w2.others r.before2).next := by rw [hh4, HTable.get_cons]
    have hconn : (w4.others r.before3).connected h1 = true :=
      connected_of hI3 (by rw [others_handles]; exact hg1) rfl
    constructor
    · rintro rfl
      rcases finish_cases w4 h1 h2 r with ⟨e, v, hv, -⟩ | ⟨v, -, hv⟩ | ⟨v, hv, -⟩
      · rw [hv] at h; cases h
      · rw [hconn] at hv; cases hv
      · rw [hv] at h; cases h
    · rintro a b rfl
      obtain ⟨rfl, rfl, rfl⟩ := finish_channel_world h hconn
      have hI4 := others_keeps (w := w4.others r.before3) hr4 hI3 hown (by rw [others_handles]; exact hheld)
      refine ⟨I, hI4, ?_, _, rfl, ?_⟩
      · rw [others_handles, others_handles]; exact hg1
      · rw [others_handles, others_handles]; exact hg2

/-- **C100**, as far as it is true. If no other process uses the names this process gives to its pipes, a channel has two ends
which are joined to each other, and the broker never waits for ever. Missing: other processes that use these names, see
below. -/
theorem C100_joined_partial (pid : BitVec 32) (rounds : Nat → PipeRound)
    (hr : ∀ k, ∀ a ∈ othersActs (rounds k), LeavesAlone pid a)
    (n k : Nat) (id : BitVec 32) (w w' : PipeWorld) (o : PipeOutcome)
    (h : channelNew pid rounds n k id w = some (o, w')) :
    o ≠ .hangs ∧ ∀ a b, o = .channel a b → Joined w' a b := by
  induction n generalizing k id w with
  | zero => rw [channelNew] at h; cases h; exact ⟨by simp, by simp⟩
  | succ n ih =>
    rcases channelNew_cases pid id rounds n k w with ⟨-, -, h'⟩ | ⟨o', v, -, ha, h'⟩
    · rw [h'] at h
      exact ih _ _ _ h
    · rw [h'] at h
      cases h
      exact attempt_channel (hr k) ha

/-- Whatever others do, the two handles of a channel are new and different, they refer to new objects, and all other
handles are as they were. -/
theorem C100_handles (pid : BitVec 32) (rounds : Nat → PipeRound)
    (n k : Nat) (id : BitVec 32) (w w' : PipeWorld) (a b : BitVec 64)
    (h : channelNew pid rounds n k id w = some (.channel a b, w')) :
    w.handles.free a = true ∧ w.handles.free b = true ∧ a ≠ b ∧
    ∃ x y, w'.handles = (b, y) :: (a, x) :: w.handles ∧ w.next ≤ x ∧ x < y ∧ y < w'.next := by
  induction n generalizing k id w with
  | zero => rw [channelNew] at h; cases h
  | succ n ih =>
    rcases channelNew_cases pid id rounds n k w with ⟨-, -, h'⟩ | ⟨o', v, -, ha, h'⟩
    · rw [h'] at h
      obtain ⟨i1, i2, i3, x, y, i5, i6, i7⟩ := ih _ _ _ h
      rw [others_handles] at i1 i2 i5
      have := others_next (rounds k).before1 w
      exact ⟨i1, i2, i3, x, y, i5, by omega, i7⟩
    · rw [h'] at h
      cases h
      exact attempt_handles ha

/-- No channel, no handle: whatever others do, when the creation fails the broker has the handles it had before. -/
theorem C100_nothing_left (pid : BitVec 32) (rounds : Nat → PipeRound)
    (n k : Nat) (id : BitVec 32) (w w' : PipeWorld) (o : PipeOutcome)
    (h : channelNew pid rounds n k id w = some (o, w')) (ho : o = .again ∨ ∃ e, o = .error e) :
    w'.handles = w.handles := by
  induction n generalizing k id w with
  | zero => rw [channelNew] at h; cases h; rfl
  | succ n ih =>
    rcases channelNew_cases pid id rounds n k w with ⟨-, -, h'⟩ | ⟨o', v, hne, ha, h'⟩
    · rw [h'] at h
      rw [ih _ _ _ h, others_handles]
    · rw [h'] at h
      cases h
      rcases attempt_cases w (nameOf pid (id + 1)) (rounds k) with ⟨h', -⟩ | ⟨e, v, h', hv⟩ |
        ⟨h1, h2, w2, w4, h', -, f1, -, f2, s, -, hw4⟩
      · rw [h'] at ha; cases ha; exact absurd rfl hne
      · rw [h'] at ha; cases ha; exact hv
      · rw [h'] at ha
        rcases finish_cases w4 h1 h2 (rounds k) with ⟨e, v, hx, hv⟩ | ⟨v, hx, -⟩ | ⟨v, hx, -⟩
        · rw [hx] at ha
          cases ha
          rw [hv, hw4]
          exact close_two ((HTable.free_iff _ _).1 f1).2 ((HTable.free_iff _ _).1 f2).2
        · rw [hx] at ha; cases ha; rcases ho with ho | ⟨_, ho⟩ <;> cases ho
        · rw [hx] at ha; cases ha; rcases ho with ho | ⟨_, ho⟩ <;> cases ho

/-- The name of the first pipe of process 7. -/
def firstName : Bytes := utf8 c!"\\\\.\\pipe\\ipc-7-1"

/-- Another process creates a second instance of the pipe before the broker opens it, and the system connects the broker to
that one; then the other process connects to the broker's instance. -/
def interposed : PipeRound where
  before1 := []
  create := .ok 4
  before2 := [.create firstName]
  open_ := .ok (8, 1)
  before3 := [.connect firstName]
  connect := none
  waiting := []
  before4 := []
  setMode := none

/-- The broker gets a channel whose ends are not joined: both lead to the other process. -/
theorem C100_interposed_violated :
    ∃ w', channelNew 7 (fun _ => interposed) 1 0 0 ⟨[], 0, []⟩ = some (.channel 4 8, w') ∧ ¬ Joined w' 4 8 ∧
      w'.pipes = [⟨firstName, 0, some 3⟩, ⟨firstName, 1, some 2⟩] ∧ w'.handles = [(8, 2), (4, 0)] := by
  refine ⟨⟨[⟨firstName, 0, some 3⟩, ⟨firstName, 1, some 2⟩], 4, [(8, 2), (4, 0)]⟩, by decide +kernel, ?_, rfl, rfl⟩
  rintro ⟨i, hi, h1, c, h2, h3⟩
  have e1 : HTable.get [(8, 2), (4, 0)] 4 = some 0 := by decide
  have e2 : HTable.get [(8, 2), (4, 0)] 8 = some 2 := by decide
  rw [e1] at h1; rw [e2] at h3
  cases h3
  simp only [List.mem_cons, List.not_mem_nil, or_false] at hi
  rcases hi with rfl | rfl
  · cases h2
  · cases h1

/-! ## C101: the creation of a channel ends -/

/-- If another process has the broker connect to its own instance of the pipe, and does not connect to the broker's, the broker
waits for ever for someone to do so. -/
theorem C101_hangs_violated (n : Nat) :
    ∃ w', channelNew 7 (fun _ => { interposed with before3 := [] }) (n + 1) 0 0 ⟨[], 0, []⟩ = some (.hangs, w') ∧
      w'.pipes = [⟨firstName, 0, none⟩, ⟨firstName, 1, some 2⟩] := by
  refine ⟨⟨[⟨firstName, 0, none⟩, ⟨firstName, 1, some 2⟩], 3, [(8, 2), (4, 0)]⟩, ?_, rfl⟩
  rw [channelNew]
  have : channelAttempt ⟨[], 0, []⟩ firstName { interposed with before3 := [] } =
      (.hangs, ⟨[⟨firstName, 0, none⟩, ⟨firstName, 1, some 2⟩], 3, [(8, 2), (4, 0)]⟩) := by decide +kernel
  have hn : pipeName 7 (0 + 1) = some firstName := by decide +kernel
  rw [hn, Option.bind_some, this]

/-- If the system denies the creation of pipes, the broker tries for ever: after any number of iterations it is not done. -/
theorem C101_denied_violated (pid : BitVec 32) (rounds : Nat → PipeRound) (hd : ∀ k, (rounds k).create = .error 5)
    (n k : Nat) (id : BitVec 32) (w : PipeWorld) : ∃ w', channelNew pid rounds n k id w = some (.again, w') := by
  induction n generalizing k id w with
  | zero => exact ⟨w, rfl⟩
  | succ n ih =>
    have : channelAttempt w (nameOf pid (id + 1)) (rounds k) = (.again, w.others (rounds k).before1) := by
      rw [channelAttempt.eq_def, createNamedPipe.eq_def, hd k]
      generalize nameOf pid (id + 1) = name
      by_cases h : (w.others (rounds k).before1).pipes.any (·.name = name)
      · rw [if_pos h]; simp
      · rw [if_neg h]; simp
    rw [channelNew_again this]
    exact ih _ _ _

theorem pigeonhole {α : Type} [DecidableEq α] : ∀ (n : Nat) (f : Nat → α) (l : List α),
    (∀ i j, i < n → j < n → f i = f j → i = j) → (∀ i, i < n → f i ∈ l) → n ≤ l.length
  | 0, _, _, _, _ => Nat.zero_le _
  | n + 1, f, l, hi, hm => by
    have hn := hm n (by omega)
    have := pigeonhole n f (l.erase (f n)) (fun i j a b => hi i j (by omega) (by omega)) (fun i h => by
      rw [List.mem_erase_of_ne]
      · exact hm i (by omega)
      · intro e; have := hi i n (by omega) (by omega) e; omega)
    rw [List.length_erase_of_mem hn] at this
    have : 0 < l.length := List.length_pos_of_mem hn
    omega

theorem add_zero' (id : BitVec 32) : id + BitVec.ofNat 32 0 = id := by simp

theorem add_succ' (id : BitVec 32) (i : Nat) :
    id + 1 + 1 + BitVec.ofNat 32 i = id + 1 + BitVec.ofNat 32 (i + 1) := by
  rw [BitVec.ofNat_add]
  grind

theorem again_names (pid : BitVec 32) (rounds : Nat → PipeRound)
    (hr : ∀ k, ∀ a ∈ othersActs (rounds k), LeavesAlone pid a) (hd : ∀ k, (rounds k).create ≠ .error 5)
    (n k : Nat) (id : BitVec 32) (w w' : PipeWorld) (h : channelNew pid rounds n k id w = some (.again, w'))
    (i : Nat) (hi : i < n) : ∃ j ∈ w.pipes, j.name = nameOf pid (id + 1 + BitVec.ofNat 32 i) := by
  induction n generalizing k id w i with
  | zero => omega
  | succ n ih =>
    have hr1 : ∀ a ∈ (rounds k).before1, LeavesAlone pid a := fun a ha => hr k a (by simp [othersActs, ha])
    rcases channelNew_cases pid id rounds n k w with ⟨-, hc, h'⟩ | ⟨o', v, hne, ha, h'⟩
    · rw [h'] at h
      rcases hc with ⟨j, hj, hn⟩ | hc
      · cases i with
        | zero =>
          refine ⟨j, others_own hr1 hj (hn ▸ nameOf_own pid _), ?_⟩
          refine hn.trans (congrArg (nameOf pid) (add_zero' _).symm)
        | succ i =>
          obtain ⟨j, hj, hn⟩ := ih _ _ _ h i (by omega)
          refine ⟨j, others_own hr1 hj (hn ▸ nameOf_own pid _), ?_⟩
          exact hn.trans (congrArg (nameOf pid) (add_succ' _ _))
      · exact absurd hc (hd k)
    · rw [h'] at h; cases h; exact absurd rfl hne

/-- **C101**, as far as it is true. If others leave the names alone, and the system denies nothing by itself, a channel or an
error comes after at most one iteration more than there are pipes. Missing: denials, and others that use the names, see above. -/
theorem C101_ends_partial (pid : BitVec 32) (rounds : Nat → PipeRound)
    (hr : ∀ k, ∀ a ∈ othersActs (rounds k), LeavesAlone pid a) (hd : ∀ k, (rounds k).create ≠ .error 5)
    (w : PipeWorld) (hl : w.pipes.length + 1 < 2 ^ 32) :
    ∃ o w', channelNew pid rounds (w.pipes.length + 1) 0 0 w = some (o, w') ∧ o ≠ .again ∧ o ≠ .hangs := by
  have tot : ∀ (n k : Nat) (id : BitVec 32) (w : PipeWorld), ∃ o w', channelNew pid rounds n k id w = some (o, w') := by
    intro n
    induction n with
    | zero => intro k id w; exact ⟨_, _, rfl⟩
    | succ n ih =>
      intro k id w
      rcases channelNew_cases pid id rounds n k w with ⟨-, -, h'⟩ | ⟨o', v, -, -, h'⟩
      · rw [h']; exact ih _ _ _
      · exact ⟨_, _, h'⟩
  obtain ⟨o, w', h⟩ := tot (w.pipes.length + 1) 0 0 w
  refine ⟨o, w', h, ?_, (C100_joined_partial pid rounds hr _ _ _ _ _ _ h).1⟩
  rintro rfl
  have hn := again_names pid rounds hr hd _ 0 0 w w' h
  have := pigeonhole (w.pipes.length + 1) (fun i => nameOf pid (0 + 1 + BitVec.ofNat 32 i)) (w.pipes.map (·.name))
    (fun i j hi hj he => by
      have he := congrArg BitVec.toNat (BitVec.add_right_inj _ |>.1 (nameOf_inj he))
      rw [BitVec.toNat_ofNat, BitVec.toNat_ofNat, Nat.mod_eq_of_lt (by omega), Nat.mod_eq_of_lt (by omega)] at he
      exact he)
    (fun i hi => by
      obtain ⟨j, hj, hn⟩ := hn i hi
      exact List.mem_map.2 ⟨j, hj, hn⟩)
  rw [List.length_map] at this
  omega

/-! ## A case -/

/-- Another process creates a pipe of its own and one vanishes; the first name is taken by an earlier channel. -/
def quietRound : PipeRound := ⟨[], .ok 4, [.vanish 9], .ok (8, 2), [.create (utf8 c!"x")], none, [], [], none⟩

example : channelNew 7 (fun _ => quietRound) 2 0 0 ⟨[⟨firstName, 0, some 1⟩], 2, [(12, 0)]⟩ =
    some (.channel 4 8, ⟨[⟨firstName, 0, some 1⟩, ⟨utf8 c!"\\\\.\\pipe\\ipc-7-2", 2, some 3⟩, ⟨utf8 c!"x", 4, none⟩], 5,
      [(8, 3), (4, 2), (12, 0)]⟩) := by
  decide +kernel

example : ∀ a ∈ othersActs quietRound, LeavesAlone 7 a := by
  simp only [othersActs, quietRound, List.nil_append, List.append_nil, List.cons_append, List.mem_cons, List.not_mem_nil,
    or_false, forall_eq_or_imp, forall_eq]
  refine ⟨trivial, ?_⟩
  unfold LeavesAlone ownName
  decide +kernel

example : quietRound.create ≠ .error 5 := by decide

end Iris
