import Verif.Spec.WinPipe
import Verif.Lemmas.Process
import Verif.Lemmas.WinBroker
import Verif.Props.StackBuffer
namespace Iris
open Spec

/-! ## Names -/

theorem digit_cases {c : Char} (h : c.isDigit = true) : c ∈ c!"0123456789" := by
  simp only [Char.isDigit, Bool.and_eq_true, decide_eq_true_eq] at h
  have h1 : 48 ≤ c.toNat := by have := h.1; simpa [UInt32.le_iff_toNat_le] using this
  have h2 : c.toNat ≤ 57 := by have := h.2; simpa [UInt32.le_iff_toNat_le] using this
  have hc : c = Char.ofNat c.toNat := by simp
  have key : ∀ n, 48 ≤ n → n ≤ 57 → Char.ofNat n ∈ c!"0123456789" := by
    intro n a b
    have : n = 48 ∨ n = 49 ∨ n = 50 ∨ n = 51 ∨ n = 52 ∨ n = 53 ∨ n = 54 ∨ n = 55 ∨ n = 56 ∨ n = 57 := by omega
    rcases this with rfl | rfl | rfl | rfl | rfl | rfl | rfl | rfl | rfl | rfl <;> decide
  rw [hc]; exact key _ h1 h2

/-- Text of digits and minus signs: one byte each, none of them NUL. -/
theorem utf8_plain : ∀ (s : Str), (∀ c ∈ s, c ∈ c!"-0123456789") → (utf8 s).length = s.length ∧ (0 : UInt8) ∉ utf8 s
  | [], _ => ⟨rfl, by simp [utf8]⟩
  | c :: s, h => by
    obtain ⟨h1, h2⟩ := utf8_plain s fun c hc => h c (List.mem_cons_of_mem _ hc)
    have hc := h c List.mem_cons_self
    have key : ∀ c ∈ c!"-0123456789", (String.utf8EncodeChar c).length = 1 ∧ (0 : UInt8) ∉ String.utf8EncodeChar c := by
      decide +kernel
    obtain ⟨k1, k2⟩ := key c hc
    rw [show utf8 (c :: s) = String.utf8EncodeChar c ++ utf8 s from rfl]
    refine ⟨by simp [k1, h1]; omega, ?_⟩
    simp only [List.mem_append, not_or]
    exact ⟨k2, h2⟩

theorem dec_plain (n : Nat) : ∀ c ∈ dec n, c ∈ c!"-0123456789" := by
  intro c hc
  have h := dec_isDigit n
  rw [List.all_eq_true] at h
  exact List.mem_cons_of_mem _ (digit_cases (h c hc))

theorem display_plain (n : BitVec 32) : ∀ c ∈ displayI32 n, c ∈ c!"-0123456789" := by
  intro c hc
  rw [displayI32] at hc
  split at hc
  · rcases List.mem_cons.1 hc with rfl | hc
    · decide
    · exact dec_plain _ c hc
  · exact dec_plain _ c hc

theorem dec_length (n : Nat) (h : n < 2 ^ 32) : (dec n).length ≤ 10 := by
  rw [dec, Nat.length_toDigits_le_iff (by omega) (by omega)]
  omega

theorem display_length (n : BitVec 32) : (displayI32 n).length ≤ 11 := by
  rw [displayI32]
  split
  · have := dec_length (-n).toNat (-n).isLt
    rw [List.length_cons]; omega
  · have := dec_length n.toNat n.isLt
    omega

/-- The name of a pipe. -/
def nameOf (pid id : BitVec 32) : Bytes := utf8 (c!"\\\\.\\pipe\\ipc-" ++ dec pid.toNat ++ c!"-" ++ displayI32 id)

theorem pipeName_eq (pid id : BitVec 32) : pipeName pid id = some (nameOf pid id) := by
  unfold pipeName
  obtain ⟨b, pad, h1, -, -, -, h2⟩ := C54_stack_buffer 100 (by omega)
    [utf8 c!"\\\\.\\pipe\\ipc-", utf8 (dec pid.toNat), utf8 c!"-", utf8 (displayI32 id), [0]]
  rw [h1, Option.bind_some, h2, Option.map_some]
  refine congrArg some ?_
  obtain ⟨l1, z1⟩ := utf8_plain _ (dec_plain pid.toNat)
  obtain ⟨l2, z2⟩ := utf8_plain _ (display_plain id)
  have e0 : (utf8 c!"\\\\.\\pipe\\ipc-").length = 13 := by decide +kernel
  have z0 : (0 : UInt8) ∉ utf8 c!"\\\\.\\pipe\\ipc-" := by decide +kernel
  have e3 : (utf8 c!"-").length = 1 := by decide +kernel
  have z3 : (0 : UInt8) ∉ utf8 c!"-" := by decide +kernel
  have hd1 := dec_length pid.toNat pid.isLt
  have hd2 := display_length id
  have hn : nameOf pid id = utf8 c!"\\\\.\\pipe\\ipc-" ++ utf8 (dec pid.toNat) ++ utf8 c!"-" ++ utf8 (displayI32 id) := by
    simp only [nameOf, utf8_append]
  have hz : (0 : UInt8) ∉ nameOf pid id := by
    rw [hn]; simp only [List.mem_append, not_or]; exact ⟨⟨⟨z0, z1⟩, z3⟩, z2⟩
  have hl : (nameOf pid id).length ≤ 35 := by
    rw [hn]; simp only [List.length_append, e0, e3, l1, l2]; omega
  have hf : [utf8 c!"\\\\.\\pipe\\ipc-", utf8 (dec pid.toNat), utf8 c!"-", utf8 (displayI32 id), [0]].flatten =
      nameOf pid id ++ [0] := by rw [hn]; simp
  rw [hf, List.take_of_length_le (by simp; omega)]
  rw [List.takeWhile_append_of_pos]
  · simp
  · intro a ha
    simp only [decide_eq_true_eq]
    rintro rfl; exact hz ha

theorem nameOf_own (pid id : BitVec 32) : ownName pid (nameOf pid id) := by
  rw [nameOf, utf8_append (_ ++ _)]; exact List.prefix_append _ _

theorem utf8_inj {a b : Str} (h : utf8 a = utf8 b) : a = b := by
  have := congrArg fromUtf8 h
  simpa [fromUtf8_utf8] using this

theorem dec_inj {a b : Nat} (h : dec a = dec b) : a = b := by
  have := congrArg parseDigits h
  simpa [parseDigits_dec] using this

theorem display_inj {a b : BitVec 32} (h : displayI32 a = displayI32 b) : a = b := by
  simp only [displayI32] at h
  have hne : ∀ n r, dec n ≠ '-' :: r := by
    intro n r h
    obtain ⟨c, r', h1, -, h2⟩ := dec_head n
    rw [h1] at h; cases h; exact h2 rfl
  split at h <;> split at h
  · have := dec_inj (List.cons.inj h).2
    have : -a = -b := BitVec.eq_of_toNat_eq this
    simpa using congrArg (fun x => -x) this
  · exact absurd h.symm (hne _ _)
  · exact absurd h (hne _ _)
  · exact BitVec.eq_of_toNat_eq (dec_inj h)

theorem nameOf_inj {pid a b : BitVec 32} (h : nameOf pid a = nameOf pid b) : a = b :=
  display_inj (List.append_cancel_left (utf8_inj h))

/-! ## Other processes -/

theorem connectTo_servers (p : PipeInstance → Bool) (o : Nat) : ∀ l, (connectTo p o l).map (·.server) = l.map (·.server)
  | [] => rfl
  | i :: l => by
    rw [connectTo]; split
    · rfl
    · simp [connectTo_servers p o l]

theorem connectTo_names (p : PipeInstance → Bool) (o : Nat) : ∀ l, (connectTo p o l).map (·.name) = l.map (·.name)
  | [] => rfl
  | i :: l => by
    rw [connectTo]; split
    · rfl
    · simp [connectTo_names p o l]

theorem connectTo_mem {p : PipeInstance → Bool} {o : Nat} {i : PipeInstance} : ∀ {l}, i ∈ connectTo p o l →
    i ∈ l ∨ ∃ j ∈ l, p j = true ∧ j.client = none ∧ i = { j with client := some o }
  | [], h => nomatch h
  | j :: l, h => by
    rw [connectTo] at h
    split at h
    · next hp =>
      simp only [Bool.and_eq_true, Option.isNone_iff_eq_none] at hp
      rcases List.mem_cons.1 h with rfl | h
      · exact .inr ⟨j, List.mem_cons_self, hp.1, hp.2, rfl⟩
      · exact .inl (List.mem_cons_of_mem _ h)
    · rcases List.mem_cons.1 h with rfl | h
      · exact .inl List.mem_cons_self
      · rcases connectTo_mem h with h | ⟨k, hk, h⟩
        · exact .inl (List.mem_cons_of_mem _ h)
        · exact .inr ⟨k, List.mem_cons_of_mem _ hk, h⟩

theorem mem_connectTo {p : PipeInstance → Bool} {o : Nat} {i : PipeInstance} (hp : p i = false) : ∀ {l}, i ∈ l →
    i ∈ connectTo p o l
  | [], h => nomatch h
  | j :: l, h => by
    rw [connectTo]
    rcases List.mem_cons.1 h with rfl | h
    · rw [hp]; simp
    · split
      · exact List.mem_cons_of_mem _ h
      · exact List.mem_cons_of_mem _ (mem_connectTo hp h)

/-- The instance chosen is connected. -/
theorem connectTo_chosen {p : PipeInstance → Bool} {o : Nat} {i : PipeInstance} : ∀ {l}, i ∈ l → p i = true →
    i.client = none → (∀ j ∈ l, p j = true → j = i) → { i with client := some o } ∈ connectTo p o l
  | [], h, _, _, _ => nomatch h
  | j :: l, h, hp, hc, hu => by
    rw [connectTo]
    by_cases hj : p j = true
    · have := hu j List.mem_cons_self hj
      subst this
      rw [if_pos (by simp [hp, hc])]
      exact List.mem_cons_self
    · rw [if_neg (by simp [hj])]
      rcases List.mem_cons.1 h with rfl | h
      · exact absurd hp hj
      · exact List.mem_cons_of_mem _ (connectTo_chosen h hp hc fun k hk => hu k (List.mem_cons_of_mem _ hk))

theorem other_handles (w : PipeWorld) (a : OtherAct) : (w.other a).handles = w.handles := by
  cases a <;> simp only [PipeWorld.other] <;> repeat' split
  all_goals rfl

theorem others_handles : ∀ (l : List OtherAct) (w : PipeWorld), (w.others l).handles = w.handles
  | [], _ => rfl
  | a :: l, w => (others_handles l (w.other a)).trans (other_handles w a)

theorem other_next (w : PipeWorld) (a : OtherAct) : w.next ≤ (w.other a).next := by
  cases a <;> simp only [PipeWorld.other] <;> repeat' split
  all_goals simp

theorem others_next : ∀ (l : List OtherAct) (w : PipeWorld), w.next ≤ (w.others l).next
  | [], _ => Nat.le_refl _
  | a :: l, w => Nat.le_trans (other_next w a) (others_next l (w.other a))

/-- An instance of the broker that others leave alone. -/
theorem other_keeps {pid : BitVec 32} {w : PipeWorld} {a : OtherAct} (ha : LeavesAlone pid a) {i : PipeInstance}
    (hi : i ∈ w.pipes) (hn : ownName pid i.name) (hh : ∃ e ∈ w.handles, e.2 = i.server) : i ∈ (w.other a).pipes := by
  cases a with
  | create name =>
    simp only [PipeWorld.other]; split
    · exact List.mem_append_left _ hi
    · exact hi
  | connect name =>
    refine mem_connectTo ?_ hi
    simp only [decide_eq_false_iff_not]
    rintro rfl; exact ha hn
  | vanish server =>
    simp only [PipeWorld.other]; split
    · exact hi
    · next h =>
      simp only [List.any_eq_true, decide_eq_true_eq, not_exists, not_and] at h
      obtain ⟨e, he, hs⟩ := hh
      simp only [List.mem_filter, decide_eq_true_eq]
      exact ⟨hi, fun hc => h e he (hs.trans hc)⟩

theorem other_own {pid : BitVec 32} {w : PipeWorld} {a : OtherAct} (ha : LeavesAlone pid a) {i : PipeInstance}
    (hi : i ∈ (w.other a).pipes) (hn : ownName pid i.name) : i ∈ w.pipes := by
  cases a with
  | create name =>
    simp only [PipeWorld.other] at hi; split at hi
    · rcases List.mem_append.1 hi with h | h
      · exact h
      · simp only [List.mem_singleton] at h; subst h; exact absurd hn ha
    · exact hi
  | connect name =>
    rcases connectTo_mem hi with h | ⟨j, _, hp, _, rfl⟩
    · exact h
    · simp only [decide_eq_true_eq] at hp
      exact absurd (hp ▸ hn) ha
  | vanish server =>
    simp only [PipeWorld.other] at hi; split at hi
    · exact hi
    · exact (List.mem_filter.1 hi).1

theorem others_keeps {pid : BitVec 32} : ∀ {l : List OtherAct} {w : PipeWorld}, (∀ a ∈ l, LeavesAlone pid a) →
    ∀ {i : PipeInstance}, i ∈ w.pipes → ownName pid i.name → (∃ e ∈ w.handles, e.2 = i.server) → i ∈ (w.others l).pipes
  | [], _, _, _, h, _, _ => h
  | a :: _, w, ha, _, h, hn, hh =>
    others_keeps (w := w.other a) (fun b hb => ha b (List.mem_cons_of_mem _ hb))
      (other_keeps (ha a List.mem_cons_self) h hn hh) hn (by rw [other_handles]; exact hh)

theorem others_own {pid : BitVec 32} : ∀ {l : List OtherAct} {w : PipeWorld}, (∀ a ∈ l, LeavesAlone pid a) →
    ∀ {i : PipeInstance}, i ∈ (w.others l).pipes → ownName pid i.name → i ∈ w.pipes
  | [], _, _, _, h, _ => h
  | a :: _, w, ha, _, h, hn =>
    other_own (ha a List.mem_cons_self)
      (others_own (w := w.other a) (fun b hb => ha b (List.mem_cons_of_mem _ hb)) h hn) hn

/-! ## One iteration -/

theorem connected_of {w : PipeWorld} {h : BitVec 64} {i : PipeInstance} (hi : i ∈ w.pipes)
    (hg : w.handles.get h = some i.server) (hc : i.client.isSome = true) : w.connected h = true := by
  rw [PipeWorld.connected, List.any_eq_true]
  exact ⟨i, hi, by simp [hg, hc]⟩

theorem HTable.get_cons_ne (t : HTable) {h k : BitVec 64} (o : Nat) (hn : h ≠ k) :
    HTable.get ((h, o) :: t) k = t.get k := by
  simp [HTable.get, hn]

theorem HTable.get_mem {t : HTable} {h : BitVec 64} {o : Nat} (hg : t.get h = some o) : (h, o) ∈ t := by
  simp only [HTable.get, Option.map_eq_some_iff] at hg
  obtain ⟨e, he, rfl⟩ := hg
  have h1 := List.mem_of_find?_eq_some he
  have h2 := List.find?_some he
  simp only [decide_eq_true_eq] at h2
  rw [← h2]; exact h1

theorem close_two {t : HTable} {h1 h2 : BitVec 64} {o1 o2 : Nat} (f1 : t.get h1 = none)
    (f2 : HTable.get ((h1, o1) :: t) h2 = none) :
    (HTable.close ((h2, o2) :: (h1, o1) :: t) h2).close h1 = t := by
  rw [HTable.close_cons f2, HTable.close_cons f1]

/-- What is created in an iteration, if it gets that far. -/
theorem attempt_cases (w : PipeWorld) (name : Bytes) (r : PipeRound) :
    (channelAttempt w name r = (.again, w.others r.before1) ∧
      ((∃ i ∈ (w.others r.before1).pipes, i.name = name) ∨ r.create = .error 5)) ∨
    (∃ e w', channelAttempt w name r = (.error e, w') ∧ w'.handles = w.handles) ∨
    (∃ (h1 h2 : BitVec 64) (w2 w4 : PipeWorld), channelAttempt w name r = finishChannel w4 h1 h2 r ∧
      (∀ i ∈ (w.others r.before1).pipes, i.name ≠ name) ∧ w.handles.free h1 = true ∧
      w2 = ⟨(w.others r.before1).pipes ++ [⟨name, (w.others r.before1).next, none⟩],
        (w.others r.before1).next + 1, (h1, (w.others r.before1).next) :: w.handles⟩ ∧
      HTable.free ((h1, (w.others r.before1).next) :: w.handles) h2 = true ∧
      ∃ s, (∃ i ∈ (w2.others r.before2).pipes, i.name = name ∧ i.server = s ∧ i.client = none) ∧
        w4 = ⟨connectTo (fun i => i.name = name && i.server = s) (w2.others r.before2).next (w2.others r.before2).pipes,
          (w2.others r.before2).next + 1,
          (h2, (w2.others r.before2).next) :: (h1, (w.others r.before1).next) :: w.handles⟩) := by
  rw [channelAttempt.eq_def, createNamedPipe.eq_def]
  split
  · next e w' h =>
    split at h
    · next hany =>
      cases h
      left
      simp only [List.any_eq_true, decide_eq_true_eq] at hany
      exact ⟨by simp, .inl hany⟩
    · split at h
      · next hc =>
        cases h
        by_cases h5 : e = 5
        · subst h5
          exact .inl ⟨by simp, .inr hc⟩
        · refine .inr (.inl ⟨e, _, by rw [if_neg h5], others_handles _ _⟩)
      · split at h
        · cases h
        · cases h
          exact .inr (.inl ⟨4, _, by rfl, others_handles _ _⟩)
  · next h1 w' h =>
    split at h
    · cases h
    next hany =>
    split at h
    · cases h
    split at h
    · next hf =>
      cases h
      rw [others_handles] at hf ⊢
      have f1 := (HTable.free_iff _ _).1 hf
      simp only [List.any_eq_true, decide_eq_true_eq, not_exists, not_and] at hany
      rw [openPipe.eq_def]
      split
      · next e w'' h =>
        refine .inr (.inl ⟨e, _, rfl, ?_⟩)
        have : w''.handles = (h1, (w.others r.before1).next) :: w.handles := by
          split at h
          · cases h; rw [others_handles]
          · split at h
            · split at h
              · cases h
              · cases h; rw [others_handles]
            · cases h; rw [others_handles]
        simp only [PipeWorld.close, this, HTable.close_cons f1.2]
      · next h2 w'' h =>
        split at h
        · cases h
        · split at h
          · next s _ hs =>
            split at h
            · next hf2 =>
              cases h
              rw [others_handles] at hf2 ⊢
              refine .inr (.inr ⟨h1, _, _, _, rfl, hany, hf, rfl, hf2, s, ?_, rfl⟩)
              simp only [List.any_eq_true, Bool.and_eq_true, decide_eq_true_eq, Option.isNone_iff_eq_none] at hs
              obtain ⟨i, hi, ⟨a, b⟩, c⟩ := hs
              exact ⟨i, hi, a, b, c⟩
            · cases h
          · cases h
    · cases h

theorem finish_cases (w : PipeWorld) (h1 h2 : BitVec 64) (r : PipeRound) :
    (∃ e w', finishChannel w h1 h2 r = (.error e, w') ∧ w'.handles = (w.handles.close h2).close h1) ∨
    (∃ w', finishChannel w h1 h2 r = (.hangs, w') ∧ (w.others r.before3).connected h1 = false) ∨
    (∃ w', finishChannel w h1 h2 r = (.channel h1 h2, w') ∧ w'.handles = w.handles) := by
  simp only [finishChannel]
  split
  · exact .inl ⟨_, _, rfl, by simp only [PipeWorld.close, others_handles]⟩
  · split
    · split
      · exact .inl ⟨_, _, rfl, by simp only [PipeWorld.close, others_handles]⟩
      · exact .inr (.inr ⟨_, rfl, by simp only [others_handles]⟩)
    · next h _ => exact .inr (.inl ⟨_, rfl, h⟩)
  · split
    · exact .inl ⟨_, _, rfl, by simp only [PipeWorld.close, others_handles]⟩
    · exact .inr (.inr ⟨_, rfl, by simp only [others_handles]⟩)

theorem finish_channel_world {w w' : PipeWorld} {h1 h2 a b : BitVec 64} {r : PipeRound}
    (h : finishChannel w h1 h2 r = (.channel a b, w')) (hc : (w.others r.before3).connected h1 = true) :
    a = h1 ∧ b = h2 ∧ w' = (w.others r.before3).others r.before4 := by
  simp only [finishChannel, hc] at h
  split at h
  · cases h
  · cases h; exact ⟨rfl, rfl, rfl⟩

theorem others_append (w : PipeWorld) (l m : List OtherAct) : (w.others l).others m = w.others (l ++ m) := by
  simp only [PipeWorld.others, List.foldl_append]

theorem finish_channel_any {w w' : PipeWorld} {h1 h2 a b : BitVec 64} {r : PipeRound}
    (h : finishChannel w h1 h2 r = (.channel a b, w')) : a = h1 ∧ b = h2 ∧ ∃ l, w' = w.others l := by
  simp only [finishChannel] at h
  split at h
  · cases h
  · split at h
    · split at h
      · cases h
      · cases h; exact ⟨rfl, rfl, _, by rw [others_append, others_append]⟩
    · cases h
  · split at h
    · cases h
    · cases h; exact ⟨rfl, rfl, _, by rw [others_append]⟩

theorem channelNew_again {pid id : BitVec 32} {rounds : Nat → PipeRound} {n k : Nat} {w v : PipeWorld}
    (h : channelAttempt w (nameOf pid (id + 1)) (rounds k) = (.again, v)) :
    channelNew pid rounds (n + 1) k id w = channelNew pid rounds n (k + 1) (id + 1) v := by
  rw [channelNew, pipeName_eq, Option.bind_some, h]

theorem channelNew_done {pid id : BitVec 32} {rounds : Nat → PipeRound} {n k : Nat} {w v : PipeWorld} {o : PipeOutcome}
    (h : channelAttempt w (nameOf pid (id + 1)) (rounds k) = (o, v)) (ho : o ≠ .again) :
    channelNew pid rounds (n + 1) k id w = some (o, v) := by
  rw [channelNew, pipeName_eq, Option.bind_some, h]
  cases o <;> first | rfl | exact absurd rfl ho

/-- One iteration goes on, or it is the last. -/
theorem channelNew_cases (pid id : BitVec 32) (rounds : Nat → PipeRound) (n k : Nat) (w : PipeWorld) :
    (channelAttempt w (nameOf pid (id + 1)) (rounds k) = (.again, w.others (rounds k).before1) ∧
      ((∃ i ∈ (w.others (rounds k).before1).pipes, i.name = nameOf pid (id + 1)) ∨ (rounds k).create = .error 5) ∧
      channelNew pid rounds (n + 1) k id w = channelNew pid rounds n (k + 1) (id + 1) (w.others (rounds k).before1)) ∨
    (∃ o v, o ≠ .again ∧ channelAttempt w (nameOf pid (id + 1)) (rounds k) = (o, v) ∧
      channelNew pid rounds (n + 1) k id w = some (o, v)) := by
  rcases attempt_cases w (nameOf pid (id + 1)) (rounds k) with ⟨h', hc⟩ | ⟨e, v, h', hv⟩ |
      ⟨h1, h2, w2, w4, h', -⟩
  · exact .inl ⟨h', hc, channelNew_again h'⟩
  · exact .inr ⟨_, _, by simp, h', channelNew_done h' (by simp)⟩
  · right
    rcases finish_cases w4 h1 h2 (rounds k) with ⟨e, v, hx, hv⟩ | ⟨v, hx, -⟩ | ⟨v, hx, -⟩ <;> rw [hx] at h' <;>
      exact ⟨_, _, by simp, h', channelNew_done h' (by simp)⟩

end Iris
