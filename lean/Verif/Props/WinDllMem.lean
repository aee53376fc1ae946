import Verif.Spec.WinDllMem
import Verif.Props.WinDlls
/-!
# What the broker gets from the system to change permissions on DLLs is given back (C131)
-/
namespace Iris
open Spec

/-! ## The model is that of Model/WinDlls.lean -/

theorem delegatedM_result (getAce : Nat → Except (BitVec 32) Unit) (sid : Bytes) (sd : Nat) (l : List Ace) :
    ∀ (idx : Nat) (m : DllMem), (delegatedM getAce sid sd idx l m).1 = delegated getAce sid idx l := by
  induction l with
  | nil => intro idx m; rfl
  | cons a l ih =>
    intro idx m
    rw [delegatedM, delegated]
    cases getAce idx with
    | error e => rfl
    | ok u =>
      have h := ih (idx + 1) ((m.use sd).use sd)
      simp only
      generalize delegatedM getAce sid sd (idx + 1) l ((m.use sd).use sd) = r at h ⊢
      obtain ⟨r, m'⟩ := r
      simp only at h
      rw [← h]
      cases r <;> rfl

theorem ensureDllM_result (os : DllOs) (path sid : Bytes) (s : DllState) (m : DllMem) :
    (ensureDllM os path sid s m).1 = ensureDll os path sid s := by
  simp only [ensureDllM, ensureDll]
  cases (os.call s.calls).getInfo with
  | error e => rfl
  | ok u =>
    simp only
    cases s.dacls path with
    | none => rfl
    | some dacl =>
      simp only
      cases (os.call s.calls).aclInfo with
      | error e => rfl
      | ok u =>
        simp only
        have h := delegatedM_result (os.call s.calls).getAce sid m.next dacl 0 ((m.alloc .descriptor).use m.next)
        generalize delegatedM (os.call s.calls).getAce sid m.next 0 dacl ((m.alloc .descriptor).use m.next) = r at h ⊢
        obtain ⟨r, m'⟩ := r
        simp only at h
        rw [← h]
        cases r with
        | error e => rfl
        | ok b =>
          cases b with
          | true => rfl
          | false =>
            simp only
            cases (os.call s.calls).setEntries with
            | error e => rfl
            | ok u =>
              simp only
              cases (os.call s.calls).setInfo with
              | error e => rfl
              | ok u => rfl

theorem searchM_result (os : DllOs) (dir : Bytes) (search : Nat) (names : List Bytes) : ∀ (s : DllState) (m : DllMem),
    (searchM os dir ALL_PACKAGES ALL_RESTRICTED_PACKAGES search names s m).1 =
      names.foldl (fun s name => ensureTrustees os (dir ++ name) s) s := by
  induction names with
  | nil => intro s m; rfl
  | cons name names ih =>
    intro s m
    rw [searchM, ih, List.foldl_cons]
    simp only [ensureTrusteesM, ensureTrustees, ensureDllM_result]

theorem ensureDllsM_result (os : DllMemOs) (k : Nat) (folder : Bytes) (s : DllState) (m : DllMem)
    (hc : ∀ n, os.convert n = none) (hl : ∀ n, os.length n = none) :
    (ensureDllsM os k folder s m).1 = ensureDlls os.toDllOs folder s := by
  simp only [ensureDllsM, ensureDlls, getSidM, hc, hl]
  generalize os.find (withBackslash folder ++ [42, 46, 100, 108, 108]) = r
  obtain ⟨names, e⟩ := r
  cases names with
  | nil => rfl
  | cons name names =>
    simp only [searchM_result]

/-- If the two identifiers can be built, the permissions change as in C98 and C99. -/
theorem C131_same_permissions (os : DllMemOs) (exe windowsDir : Bytes) (s : DllState) (m : DllMem)
    (hc : ∀ n, os.convert n = none) (hl : ∀ n, os.length n = none) :
    (delegateDllsM os exe windowsDir s m).1 = delegateDlls os.toDllOs exe windowsDir s := by
  simp only [delegateDllsM, delegateDlls, ensureDllsM_result _ _ _ _ _ hc hl]

/-! ## The invariant -/

/-- `o` are the things the code holds on to at the moment, `lens` that the length of an identifier can always be got. -/
structure DllGood (lens : Prop) (m : DllMem) (o : List Nat) : Prop where
  safe : SafeUse m.log
  fresh : ∀ i k, .alloc i k ∈ m.log → i < m.next
  uniq : ∀ i k k', .alloc i k ∈ m.log → .alloc i k' ∈ m.log → k = k'
  freed : ∀ i, .free i ∈ m.log → ∃ k, .alloc i k ∈ m.log ∧ (k = .sid ∨ k = .descriptor)
  back : ∀ i k, .alloc i k ∈ m.log → k = .descriptor ∨ k = .sid ∧ lens → .free i ∈ m.log ∨ i ∈ o
  live : ∀ i ∈ o, (∃ k, .alloc i k ∈ m.log) ∧ .free i ∉ m.log
  nodup : o.Nodup

theorem safeUse_snoc {log : List DllEvent} (h : SafeUse log) (x : DllEvent)
    (hx : match x with
      | .alloc i _ => ∀ k, .alloc i k ∉ log
      | .use i | .free i => (∃ k, .alloc i k ∈ log) ∧ .free i ∉ log) : SafeUse (log ++ [x]) := by
  intro before y after he
  rcases List.eq_nil_or_concat after with rfl | ⟨as, a, rfl⟩
  · obtain ⟨h1, h2⟩ := List.append_inj' he rfl
    cases h1; cases h2
    exact hx
  · have he' : log ++ [x] = (before ++ y :: as) ++ [a] := by simpa using he
    obtain ⟨h1, -⟩ := List.append_inj' he' rfl
    exact h before y as h1

theorem DllGood.alloc {lens : Prop} {m : DllMem} {o : List Nat} (h : DllGood lens m o) (k : DllThing) :
    DllGood lens (m.alloc k) (m.next :: o) := by
  have hn : ∀ k', DllEvent.alloc m.next k' ∉ m.log := fun k' hk => Nat.lt_irrefl _ (h.fresh _ _ hk)
  have hm : ∀ i k', DllEvent.alloc i k' ∈ (m.alloc k).log ↔ .alloc i k' ∈ m.log ∨ i = m.next ∧ k' = k := by
    intro i k'; simp [DllMem.alloc]
  have hf : ∀ i, DllEvent.free i ∈ (m.alloc k).log ↔ .free i ∈ m.log := by
    intro i; simp [DllMem.alloc]
  refine ⟨safeUse_snoc h.safe _ hn, ?_, ?_, ?_, ?_, ?_, ?_⟩
  · intro i k' hi
    rcases (hm _ _).1 hi with hi | ⟨rfl, -⟩
    · exact Nat.lt_succ_of_lt (h.fresh _ _ hi)
    · exact Nat.lt_succ_self _
  · intro i k1 k2 h1 h2
    rcases (hm _ _).1 h1 with h1 | ⟨rfl, rfl⟩ <;> rcases (hm _ _).1 h2 with h2 | ⟨h2, rfl⟩
    · exact h.uniq _ _ _ h1 h2
    · rename_i hx hy
      subst hy; exact absurd hx (hn _)
    · exact absurd h2 (hn _)
    · rfl
  · intro i hi
    obtain ⟨k', h1, h2⟩ := h.freed i ((hf i).1 hi)
    exact ⟨k', (hm _ _).2 (.inl h1), h2⟩
  · intro i k' hi hk
    rcases (hm _ _).1 hi with hi | ⟨rfl, -⟩
    · rcases h.back _ _ hi hk with hb | hb
      · exact .inl ((hf i).2 hb)
      · exact .inr (List.mem_cons_of_mem _ hb)
    · exact .inr List.mem_cons_self
  · intro i hi
    rcases List.mem_cons.1 hi with rfl | hi
    · refine ⟨⟨k, (hm _ _).2 (.inr ⟨rfl, rfl⟩)⟩, fun hc => ?_⟩
      obtain ⟨k', h1, -⟩ := h.freed _ ((hf _).1 hc)
      exact hn _ h1
    · obtain ⟨⟨k', h1⟩, h2⟩ := h.live i hi
      exact ⟨⟨k', (hm _ _).2 (.inl h1)⟩, fun hc => h2 ((hf _).1 hc)⟩
  · refine List.nodup_cons.2 ⟨fun hc => ?_, h.nodup⟩
    obtain ⟨⟨k', h1⟩, -⟩ := h.live _ hc
    exact hn _ h1

theorem DllGood.use {lens : Prop} {m : DllMem} {o : List Nat} (h : DllGood lens m o) {i : Nat} (hi : i ∈ o) :
    DllGood lens (m.use i) o := by
  have hm : ∀ j k', DllEvent.alloc j k' ∈ (m.use i).log ↔ .alloc j k' ∈ m.log := by
    intro j k'; simp [DllMem.use]
  have hf : ∀ j, DllEvent.free j ∈ (m.use i).log ↔ .free j ∈ m.log := by
    intro j; simp [DllMem.use]
  refine ⟨safeUse_snoc h.safe _ (h.live i hi), ?_, ?_, ?_, ?_, ?_, h.nodup⟩
  · intro j k hj; exact h.fresh j k ((hm _ _).1 hj)
  · intro j k k' h1 h2; exact h.uniq j k k' ((hm _ _).1 h1) ((hm _ _).1 h2)
  · intro j hj
    obtain ⟨k, h1, h2⟩ := h.freed j ((hf _).1 hj)
    exact ⟨k, (hm _ _).2 h1, h2⟩
  · intro j k hj hk
    exact (h.back j k ((hm _ _).1 hj) hk).imp (hf j).2 id
  · intro j hj
    obtain ⟨⟨k, h1⟩, h2⟩ := h.live j hj
    exact ⟨⟨k, (hm _ _).2 h1⟩, fun hc => h2 ((hf _).1 hc)⟩

theorem DllGood.free {lens : Prop} {m : DllMem} {o : List Nat} {i : Nat} (h : DllGood lens m (i :: o)) {k : DllThing}
    (hi : .alloc i k ∈ m.log) (hk : k = .sid ∨ k = .descriptor) : DllGood lens (m.free i) o := by
  have hm : ∀ j k', DllEvent.alloc j k' ∈ (m.free i).log ↔ .alloc j k' ∈ m.log := by
    intro j k'; simp [DllMem.free]
  have hf : ∀ j, DllEvent.free j ∈ (m.free i).log ↔ .free j ∈ m.log ∨ j = i := by
    intro j; simp [DllMem.free]
  have hno := List.nodup_cons.1 h.nodup
  refine ⟨safeUse_snoc h.safe _ (h.live i List.mem_cons_self), ?_, ?_, ?_, ?_, ?_, hno.2⟩
  · intro j k hj; exact h.fresh j k ((hm _ _).1 hj)
  · intro j k k' h1 h2; exact h.uniq j k k' ((hm _ _).1 h1) ((hm _ _).1 h2)
  · intro j hj
    rcases (hf _).1 hj with hj | rfl
    · obtain ⟨k, h1, h2⟩ := h.freed j hj
      exact ⟨k, (hm _ _).2 h1, h2⟩
    · exact ⟨k, (hm _ _).2 hi, hk⟩
  · intro j k' hj hk'
    rcases h.back j k' ((hm _ _).1 hj) hk' with hb | hb
    · exact .inl ((hf j).2 (.inl hb))
    · rcases List.mem_cons.1 hb with rfl | hb
      · exact .inl ((hf _).2 (.inr rfl))
      · exact .inr hb
  · intro j hj
    obtain ⟨⟨k, h1⟩, h2⟩ := h.live j (List.mem_cons_of_mem _ hj)
    refine ⟨⟨k, (hm _ _).2 h1⟩, fun hc => ?_⟩
    rcases (hf _).1 hc with hc | rfl
    · exact h2 hc
    · exact hno.1 hj

/-- The code forgets something which it need not free for the invariant. -/
theorem DllGood.forget {lens : Prop} {m : DllMem} {o : List Nat} {i : Nat} (h : DllGood lens m (i :: o)) {k : DllThing}
    (hi : .alloc i k ∈ m.log) (hk : ¬ (k = .descriptor ∨ k = .sid ∧ lens)) : DllGood lens m o := by
  refine ⟨h.safe, h.fresh, h.uniq, h.freed, ?_, fun j hj => h.live j (List.mem_cons_of_mem _ hj), (List.nodup_cons.1 h.nodup).2⟩
  intro j k' hj hk'
  rcases h.back j k' hj hk' with hb | hb
  · exact .inl hb
  · rcases List.mem_cons.1 hb with rfl | hb
    · rw [h.uniq _ _ _ hj hi] at hk'
      exact absurd hk' hk
    · exact .inr hb

theorem DllGood.swap {lens : Prop} {m : DllMem} {o : List Nat} {i j : Nat} (h : DllGood lens m (i :: j :: o)) :
    DllGood lens m (j :: i :: o) := by
  refine ⟨h.safe, h.fresh, h.uniq, h.freed, ?_, ?_, ?_⟩
  · intro a k ha hk
    refine (h.back a k ha hk).imp id fun hb => ?_
    simp only [List.mem_cons] at hb ⊢
    rcases hb with hb | hb | hb
    · exact .inr (.inl hb)
    · exact .inl hb
    · exact .inr (.inr hb)
  · intro a ha
    refine h.live a ?_
    simp only [List.mem_cons] at ha ⊢
    rcases ha with ha | ha | ha
    · exact .inr (.inl ha)
    · exact .inl ha
    · exact .inr (.inr ha)
  · have := h.nodup
    simp only [List.nodup_cons, List.mem_cons, not_or] at this ⊢
    exact ⟨⟨fun e => this.1.1 e.symm, this.2.1⟩, this.1.2, this.2.2⟩

/-! ## The functions -/

theorem getSidM_good {lens : Prop} (os : DllMemOs) (hl : lens → ∀ n, os.length n = none) (k : Nat) (sid : Bytes) (m : DllMem)
    (o : List Nat) (h : DllGood lens m o) : DllGood lens (getSidM os k sid m).2 o := by
  rw [getSidM]
  cases os.convert k with
  | some e => exact h
  | none =>
    have ha : ∀ x, DllEvent.alloc m.next .sid ∈ (m.log ++ [.alloc m.next .sid]) ++ x := by intro x; simp
    have h1 := (h.alloc .sid).use List.mem_cons_self
    cases hk : os.length k with
    | some e =>
      refine h1.forget (ha [.use m.next]) ?_
      rintro (hc | ⟨-, hc⟩)
      · cases hc
      · rw [hl hc k] at hk; cases hk
    | none =>
      refine (h1.use List.mem_cons_self).free (k := .sid) ?_ (.inl rfl)
      simp [DllMem.use, DllMem.alloc]

theorem delegatedM_good {lens : Prop} (getAce : Nat → Except (BitVec 32) Unit) (sid : Bytes) (sd : Nat) (l : List Ace) (o : List Nat) :
    ∀ (idx : Nat) (m : DllMem), DllGood lens m (sd :: o) → .alloc sd .descriptor ∈ m.log →
      DllGood lens (delegatedM getAce sid sd idx l m).2 (sd :: o) ∧
      .alloc sd .descriptor ∈ (delegatedM getAce sid sd idx l m).2.log := by
  induction l with
  | nil => intro idx m h ha; exact ⟨h, ha⟩
  | cons a l ih =>
    intro idx m h ha
    rw [delegatedM]
    cases getAce idx with
    | error e => exact ⟨h.use List.mem_cons_self, List.mem_append_left _ ha⟩
    | ok u =>
      have h' := ih (idx + 1) ((m.use sd).use sd) ((h.use List.mem_cons_self).use List.mem_cons_self)
        (List.mem_append_left _ (List.mem_append_left _ ha))
      simp only
      generalize delegatedM getAce sid sd (idx + 1) l ((m.use sd).use sd) = r at h' ⊢
      obtain ⟨r, m'⟩ := r
      cases r <;> exact h'

theorem ensureDllM_good {lens : Prop} (os : DllOs) (path sid : Bytes) (s : DllState) (m : DllMem) (o : List Nat)
    (h : DllGood lens m o) : DllGood lens (ensureDllM os path sid s m).2 o := by
  simp only [ensureDllM]
  cases (os.call s.calls).getInfo with
  | error e => exact h
  | ok u =>
    simp only
    have h0 := h.alloc .descriptor
    have a0 : DllEvent.alloc m.next .descriptor ∈ (m.alloc .descriptor).log := by simp [DllMem.alloc]
    cases s.dacls path with
    | none => exact h0.free a0 (.inr rfl)
    | some dacl =>
      simp only
      have h1 := h0.use (List.mem_cons_self (a := m.next) (l := o))
      have a1 : DllEvent.alloc m.next .descriptor ∈ ((m.alloc .descriptor).use m.next).log := List.mem_append_left _ a0
      cases (os.call s.calls).aclInfo with
      | error e => exact h1.free a1 (.inr rfl)
      | ok u =>
        simp only
        have h2 := delegatedM_good (os.call s.calls).getAce sid m.next dacl o 0 _ h1 a1
        generalize delegatedM (os.call s.calls).getAce sid m.next 0 dacl ((m.alloc .descriptor).use m.next) = r at h2 ⊢
        obtain ⟨r, m'⟩ := r
        obtain ⟨h2, a2⟩ := h2
        cases r with
        | error e => exact h2.free a2 (.inr rfl)
        | ok b =>
          cases b with
          | true => exact h2.free a2 (.inr rfl)
          | false =>
            simp only
            have h3 := h2.use (List.mem_cons_self (a := m.next) (l := o))
            have a3 : DllEvent.alloc m.next .descriptor ∈ (m'.use m.next).log := List.mem_append_left _ a2
            cases (os.call s.calls).setEntries with
            | error e => exact h3.free a3 (.inr rfl)
            | ok u =>
              simp only
              have h4 := ((h3.alloc .acl).swap.free (List.mem_append_left _ a3) (.inr rfl)).use List.mem_cons_self
              have h5 := h4.forget (k := .acl) (by simp [DllMem.use, DllMem.alloc, DllMem.free]) (by simp)
              cases (os.call s.calls).setInfo with
              | error e => exact h5
              | ok u => exact h5

theorem searchM_good {lens : Prop} (os : DllOs) (dir sid1 sid2 : Bytes) (search : Nat) (o : List Nat) (names : List Bytes) :
    ∀ (s : DllState) (m : DllMem), DllGood lens m (search :: o) →
      DllGood lens (searchM os dir sid1 sid2 search names s m).2 (search :: o) := by
  induction names with
  | nil => intro s m h; exact h
  | cons name names ih =>
    intro s m h
    rw [searchM]
    refine ih _ _ (DllGood.use ?_ List.mem_cons_self)
    exact ensureDllM_good _ _ _ _ _ _ (ensureDllM_good _ _ _ _ _ _ h)

theorem ensureDllM_keeps (os : DllOs) (path sid : Bytes) (s : DllState) (m : DllMem) :
    ∃ x, (ensureDllM os path sid s m).2.log = m.log ++ x := by
  have hd : ∀ (getAce : Nat → Except (BitVec 32) Unit) (sd : Nat) (l : List Ace) (idx : Nat) (m : DllMem),
      ∃ x, (delegatedM getAce sid sd idx l m).2.log = m.log ++ x := by
    intro getAce sd l
    induction l with
    | nil => intro idx m; exact ⟨[], by simp [delegatedM]⟩
    | cons a l ih =>
      intro idx m
      rw [delegatedM]
      cases getAce idx with
      | error e => exact ⟨_, rfl⟩
      | ok u =>
        obtain ⟨x, hx⟩ := ih (idx + 1) ((m.use sd).use sd)
        simp only
        generalize delegatedM getAce sid sd (idx + 1) l ((m.use sd).use sd) = r at hx ⊢
        obtain ⟨r, m'⟩ := r
        refine ⟨[.use sd, .use sd] ++ x, ?_⟩
        cases r <;> simpa [DllMem.use] using hx
  simp only [ensureDllM]
  cases (os.call s.calls).getInfo with
  | error e => exact ⟨[], by simp⟩
  | ok u =>
    simp only
    cases s.dacls path with
    | none => exact ⟨[_, _], by simp [DllMem.free, DllMem.alloc]; exact ⟨rfl, rfl⟩⟩
    | some dacl =>
      simp only
      cases (os.call s.calls).aclInfo with
      | error e => exact ⟨_, by simp [DllMem.free, DllMem.alloc, DllMem.use]; rfl⟩
      | ok u =>
        simp only
        obtain ⟨x, hx⟩ := hd (os.call s.calls).getAce m.next dacl 0 ((m.alloc .descriptor).use m.next)
        generalize delegatedM (os.call s.calls).getAce sid m.next 0 dacl ((m.alloc .descriptor).use m.next) = r at hx ⊢
        obtain ⟨r, m'⟩ := r
        simp only [DllMem.use, DllMem.alloc, List.append_assoc] at hx
        have key : ∀ y, m'.log ++ y = m.log ++ ([.alloc m.next .descriptor] ++ ([.use m.next] ++ x) ++ y) := by
          intro y; rw [hx]; simp
        cases r with
        | error e => exact ⟨_, key _⟩
        | ok b =>
          cases b with
          | true => exact ⟨_, key _⟩
          | false =>
            simp only
            cases (os.call s.calls).setEntries with
            | error e =>
              have := key ([.use m.next] ++ [.free m.next])
              rw [← List.append_assoc] at this
              exact ⟨_, this⟩
            | ok u =>
              simp only
              have := key ([.use m.next] ++ ([.alloc m'.next .acl] ++ ([.free m.next] ++ [.use m'.next])))
              rw [← List.append_assoc, ← List.append_assoc, ← List.append_assoc] at this
              cases (os.call s.calls).setInfo <;> exact ⟨_, this⟩

theorem searchM_keeps (os : DllOs) (dir sid1 sid2 : Bytes) (search : Nat) (names : List Bytes) :
    ∀ (s : DllState) (m : DllMem), ∃ x, (searchM os dir sid1 sid2 search names s m).2.log = m.log ++ x := by
  induction names with
  | nil => intro s m; exact ⟨[], by simp [searchM]⟩
  | cons name names ih =>
    intro s m
    rw [searchM]
    obtain ⟨x1, h1⟩ := ensureDllM_keeps os (dir ++ name) sid1 s m
    obtain ⟨x2, h2⟩ := ensureDllM_keeps os (dir ++ name) sid2 (ensureDllM os (dir ++ name) sid1 s m).1.2 (ensureDllM os (dir ++ name) sid1 s m).2
    obtain ⟨x3, h3⟩ := ih (ensureTrusteesM os (dir ++ name) sid1 sid2 s m).1 ((ensureTrusteesM os (dir ++ name) sid1 sid2 s m).2.use search)
    refine ⟨x1 ++ (x2 ++ ([.use search] ++ x3)), ?_⟩
    rw [h3]
    simp only [ensureTrusteesM, DllMem.use, h2, h1, List.append_assoc]

theorem ensureDllsM_good {lens : Prop} (os : DllMemOs) (hl : lens → ∀ n, os.length n = none) (k : Nat) (folder : Bytes)
    (s : DllState) (m : DllMem) (o : List Nat) (h : DllGood lens m o) : DllGood lens (ensureDllsM os k folder s m).2 o := by
  rw [ensureDllsM]
  have h1 := getSidM_good os hl k ALL_PACKAGES m o h
  generalize getSidM os k ALL_PACKAGES m = r at h1 ⊢
  obtain ⟨r, m1⟩ := r
  cases r with
  | error e => exact h1
  | ok sid1 =>
    simp only
    have h2 := getSidM_good os hl (k + 1) ALL_RESTRICTED_PACKAGES m1 o h1
    generalize getSidM os (k + 1) ALL_RESTRICTED_PACKAGES m1 = r at h2 ⊢
    obtain ⟨r, m2⟩ := r
    cases r with
    | error e => exact h2
    | ok sid2 =>
      simp only
      generalize os.find (withBackslash folder ++ [42, 46, 100, 108, 108]) = r
      obtain ⟨names, e⟩ := r
      cases names with
      | nil => exact h2
      | cons name names =>
        simp only
        have h3 := searchM_good os.toDllOs (withBackslash folder) sid1 sid2 m2.next o (name :: names) s _ (h2.alloc .search)
        refine h3.forget (k := .search) ?_ (by simp)
        obtain ⟨x, hx⟩ := searchM_keeps os.toDllOs (withBackslash folder) sid1 sid2 m2.next (name :: names) s (m2.alloc .search)
        rw [hx]
        simp [DllMem.alloc]

theorem delegateDllsM_good {lens : Prop} (os : DllMemOs) (hl : lens → ∀ n, os.length n = none) (exe windowsDir : Bytes)
    (s : DllState) (m : DllMem) (h : DllGood lens m []) : DllGood lens (delegateDllsM os exe windowsDir s m).2 [] :=
  ensureDllsM_good os hl _ _ _ _ _ (ensureDllsM_good os hl _ _ _ _ _ h)

theorem dllGood_empty (lens : Prop) : DllGood lens ⟨0, []⟩ [] := by
  refine ⟨?_, ?_, ?_, ?_, ?_, ?_, List.nodup_nil⟩
  · intro before x after h
    cases before <;> cases h
  all_goals intros
  all_goals simp_all

theorem delegateAll_good {lens : Prop} (l : List (DllMemOs × Bytes × Bytes)) : ∀ (s : DllState) (m : DllMem),
    (lens → ∀ x ∈ l, ∀ n, x.1.length n = none) → DllGood lens m [] → DllGood lens (delegateAll l s m).2 [] := by
  induction l with
  | nil => intro s m _ h; exact h
  | cons x l ih =>
    intro s m hl h
    obtain ⟨os, exe, windowsDir⟩ := x
    exact ih _ _ (fun hx y hy => hl hx y (List.mem_cons_of_mem _ hy))
      (delegateDllsM_good os (fun hx => hl hx _ List.mem_cons_self) _ _ _ _ h)

/-! ## C131 -/

/-- **C131**, safety. Whatever the system does, in any number of creations, nothing is freed twice or used after it was freed. -/
theorem C131_safe (l : List (DllMemOs × Bytes × Bytes)) (s : DllState) : SafeUse (delegateAll l s ⟨0, []⟩).2.log :=
  (delegateAll_good (lens := False) l s _ (fun h => h.elim) (dllGood_empty _)).safe

/-- **C131**, as far as it is true: every security descriptor is freed before the call is over, whatever fails; so is every
identifier, if its length can be got. Missing: lists, searches, and identifiers whose length cannot be got, which are never
freed (`C131_leaks_violated`, `C131_grows_violated`). -/
theorem C131_freed_partial (l : List (DllMemOs × Bytes × Bytes)) (s : DllState) (i : Nat) :
    ¬ Leaked (delegateAll l s ⟨0, []⟩).2.log i .descriptor ∧
    ((∀ x ∈ l, ∀ n, x.1.length n = none) → ¬ Leaked (delegateAll l s ⟨0, []⟩).2.log i .sid) := by
  refine ⟨fun h => ?_, fun hl h => ?_⟩
  · have hg := delegateAll_good (lens := False) l s _ (fun h => h.elim) (dllGood_empty _)
    rcases hg.back i _ h.1 (.inl rfl) with hb | hb
    · exact h.2 hb
    · cases hb
  · have hg := delegateAll_good (lens := True) l s _ (fun _ => hl) (dllGood_empty _)
    rcases hg.back i _ h.1 (.inr ⟨rfl, trivial⟩) with hb | hb
    · exact h.2 hb
    · cases hb

/-- The property does not hold in full: no search is ever closed, no new access control list is ever freed. -/
theorem C131_leaks_violated (l : List (DllMemOs × Bytes × Bytes)) (s : DllState) (i : Nat) (k : DllThing)
    (hk : k = .search ∨ k = .acl) (h : .alloc i k ∈ (delegateAll l s ⟨0, []⟩).2.log) :
    Leaked (delegateAll l s ⟨0, []⟩).2.log i k := by
  refine ⟨h, fun hf => ?_⟩
  have hg := delegateAll_good (lens := False) l s _ (fun h => h.elim) (dllGood_empty _)
  obtain ⟨k', h1, h2⟩ := hg.freed i hf
  rw [hg.uniq _ _ _ h h1] at hk
  rcases hk with rfl | rfl <;> rcases h2 with h2 | h2 <;> cases h2

theorem getSidM_keeps (os : DllMemOs) (k : Nat) (sid : Bytes) (m : DllMem) :
    (∃ x, (getSidM os k sid m).2.log = m.log ++ x) ∧ m.next ≤ (getSidM os k sid m).2.next := by
  rw [getSidM]
  cases os.convert k with
  | some e => exact ⟨⟨[], by simp⟩, Nat.le_refl _⟩
  | none =>
    cases os.length k with
    | some e => exact ⟨⟨[.alloc m.next .sid, .use m.next], by simp [DllMem.use, DllMem.alloc]⟩, Nat.le_succ _⟩
    | none =>
      exact ⟨⟨[.alloc m.next .sid, .use m.next, .use m.next, .free m.next], by simp [DllMem.use, DllMem.alloc, DllMem.free]⟩,
        Nat.le_succ _⟩

theorem ensureDllsM_keeps (os : DllMemOs) (k : Nat) (folder : Bytes) (s : DllState) (m : DllMem) :
    ∃ x, (ensureDllsM os k folder s m).2.log = m.log ++ x := by
  rw [ensureDllsM]
  obtain ⟨⟨x1, h1⟩, -⟩ := getSidM_keeps os k ALL_PACKAGES m
  generalize getSidM os k ALL_PACKAGES m = r at h1 ⊢
  obtain ⟨r, m1⟩ := r
  cases r with
  | error e => exact ⟨x1, h1⟩
  | ok sid1 =>
    simp only
    obtain ⟨⟨x2, h2⟩, -⟩ := getSidM_keeps os (k + 1) ALL_RESTRICTED_PACKAGES m1
    generalize getSidM os (k + 1) ALL_RESTRICTED_PACKAGES m1 = r at h2 ⊢
    obtain ⟨r, m2⟩ := r
    simp only at h1 h2
    rw [h1, List.append_assoc] at h2
    cases r with
    | error e => exact ⟨_, h2⟩
    | ok sid2 =>
      simp only
      generalize os.find (withBackslash folder ++ [42, 46, 100, 108, 108]) = r
      obtain ⟨names, e⟩ := r
      cases names with
      | nil => exact ⟨_, h2⟩
      | cons name names =>
        simp only
        obtain ⟨x3, h3⟩ := searchM_keeps os.toDllOs (withBackslash folder) sid1 sid2 m2.next (name :: names) s (m2.alloc .search)
        refine ⟨(x1 ++ x2) ++ ([.alloc m2.next .search] ++ x3), h3.trans ?_⟩
        rw [DllMem.alloc, h2, List.append_assoc, List.append_assoc]

theorem delegateAll_keeps (l : List (DllMemOs × Bytes × Bytes)) : ∀ (s : DllState) (m : DllMem),
    ∃ x, (delegateAll l s m).2.log = m.log ++ x := by
  induction l with
  | nil => intro s m; exact ⟨[], by simp [delegateAll]⟩
  | cons x l ih =>
    intro s m
    obtain ⟨os, exe, windowsDir⟩ := x
    rw [delegateAll]
    simp only [delegateDllsM]
    obtain ⟨x1, h1⟩ := ensureDllsM_keeps os 0 (popToBackslash exe) s m
    obtain ⟨x2, h2⟩ := ensureDllsM_keeps os 2 windowsDir (ensureDllsM os 0 (popToBackslash exe) s m).1.2
      (ensureDllsM os 0 (popToBackslash exe) s m).2
    obtain ⟨x3, h3⟩ := ih (ensureDllsM os 2 windowsDir (ensureDllsM os 0 (popToBackslash exe) s m).1.2
      (ensureDllsM os 0 (popToBackslash exe) s m).2).1.2 (ensureDllsM os 2 windowsDir (ensureDllsM os 0 (popToBackslash exe) s m).1.2
      (ensureDllsM os 0 (popToBackslash exe) s m).2).2
    refine ⟨x1 ++ (x2 ++ x3), h3.trans ?_⟩
    rw [h2, h1, List.append_assoc, List.append_assoc]

theorem ensureDllsM_search (os : DllMemOs) (k : Nat) (folder : Bytes) (s : DllState) (m : DllMem)
    (hc : ∀ n, os.convert n = none) (hl : ∀ n, os.length n = none)
    (hf : (os.find (withBackslash folder ++ [42, 46, 100, 108, 108])).1 ≠ []) :
    ∃ i, m.next ≤ i ∧ .alloc i .search ∈ (ensureDllsM os k folder s m).2.log := by
  rw [ensureDllsM]
  simp only [getSidM, hc, hl]
  generalize os.find (withBackslash folder ++ [42, 46, 100, 108, 108]) = r at hf ⊢
  obtain ⟨names, e⟩ := r
  cases names with
  | nil => exact absurd rfl hf
  | cons name names =>
    refine ⟨m.next + 1 + 1, by omega, ?_⟩
    generalize hm2 : ((((((((m.alloc .sid).use m.next).use m.next).free m.next).alloc .sid).use _).use _).free _ : DllMem) = m2
    have hn : m.next + 1 + 1 = m2.next := by rw [← hm2]; rfl
    obtain ⟨x3, h3⟩ := searchM_keeps os.toDllOs (withBackslash folder) ALL_PACKAGES ALL_RESTRICTED_PACKAGES m2.next
      (os.toDllOs.3 (withBackslash folder ++ [42, 46, 100, 108, 108])).1 s (m2.alloc .search)
    rw [h3, hn]
    simp [DllMem.alloc]

/-- The property does not hold in full: each creation of a worker whose executable lies beside a DLL leaves one more search open, for as
long as the broker runs. -/
theorem C131_grows_violated (l : List (DllMemOs × Bytes × Bytes)) (s : DllState)
    (hl : ∀ x ∈ l, (∀ n, x.1.convert n = none) ∧ (∀ n, x.1.length n = none) ∧
      (x.1.find (withBackslash (popToBackslash x.2.1) ++ utf8 c!"*.dll")).1 ≠ []) :
    ∃ open_ : List Nat, open_.Nodup ∧ open_.length = l.length ∧
      ∀ i ∈ open_, Leaked (delegateAll l s ⟨0, []⟩).2.log i .search := by
  have main : ∀ (l : List (DllMemOs × Bytes × Bytes)) (s : DllState) (m : DllMem), DllGood False m [] →
      (∀ x ∈ l, (∀ n, x.1.convert n = none) ∧ (∀ n, x.1.length n = none) ∧
        (x.1.find (withBackslash (popToBackslash x.2.1) ++ [42, 46, 100, 108, 108])).1 ≠ []) →
      ∃ open_ : List Nat, open_.Nodup ∧ open_.length = l.length ∧
        ∀ i ∈ open_, m.next ≤ i ∧ .alloc i .search ∈ (delegateAll l s m).2.log := by
    intro l
    induction l with
    | nil => intro s m _ _; exact ⟨[], List.nodup_nil, rfl, by simp⟩
    | cons x l ih =>
      intro s m hg hl
      obtain ⟨os, exe, windowsDir⟩ := x
      obtain ⟨hc, hlen, hf⟩ := hl _ List.mem_cons_self
      obtain ⟨i, hi, ha⟩ := ensureDllsM_search os 0 (popToBackslash exe) s m hc hlen hf
      have hg1 : DllGood False (delegateDllsM os exe windowsDir s m).2 [] := delegateDllsM_good os (fun h => h.elim) _ _ _ _ hg
      obtain ⟨x2, h2⟩ := ensureDllsM_keeps os 2 windowsDir (ensureDllsM os 0 (popToBackslash exe) s m).1.2
        (ensureDllsM os 0 (popToBackslash exe) s m).2
      have ha1 : .alloc i .search ∈ (delegateDllsM os exe windowsDir s m).2.log := by
        show _ ∈ (ensureDllsM os 2 windowsDir _ _).2.log
        rw [h2]
        exact List.mem_append_left _ ha
      have hlt := hg1.fresh _ _ ha1
      obtain ⟨is, hn, hlen', his⟩ := ih (delegateDllsM os exe windowsDir s m).1 _ hg1
        (fun y hy => hl y (List.mem_cons_of_mem _ hy))
      obtain ⟨x3, h3⟩ := delegateAll_keeps l (delegateDllsM os exe windowsDir s m).1 (delegateDllsM os exe windowsDir s m).2
      have hmono : m.next ≤ (delegateDllsM os exe windowsDir s m).2.next := Nat.le_trans hi (Nat.le_of_lt hlt)
      refine ⟨i :: is, List.nodup_cons.2 ⟨fun hc => ?_, hn⟩, by simp [hlen'], ?_⟩
      · exact absurd (his i hc).1 (by omega)
      · intro j hj
        rcases List.mem_cons.1 hj with rfl | hj
        · refine ⟨hi, ?_⟩
          rw [delegateAll, h3]
          exact List.mem_append_left _ ha1
        · exact ⟨Nat.le_trans hmono (his j hj).1, (his j hj).2⟩
  obtain ⟨is, hn, hlen, his⟩ := main l s _ (dllGood_empty _) hl
  exact ⟨is, hn, hlen, fun i hi => C131_leaks_violated l s i _ (.inl rfl) (his i hi).2⟩

/-- `oneDllOs` (Props/WinDlls.lean), where identifiers can be built. -/
def oneDllMemOs : DllMemOs := { oneDllOs with convert := fun _ => none, length := fun _ => none }

/-- One creation. Two lists are left, one for each trustee, and the search. -/
example : (delegateAll [(oneDllMemOs, utf8 c!"C:\\app\\w.exe", utf8 c!"C:\\Windows")] ⟨fun _ => some [⟨0, 0, 0x1F01FF, [1]⟩], 0⟩ ⟨0, []⟩).2.log =
    [.alloc 0 .sid, .use 0, .use 0, .free 0, .alloc 1 .sid, .use 1, .use 1, .free 1, .alloc 2 .search,
     .alloc 3 .descriptor, .use 3, .use 3, .use 3, .use 3, .alloc 4 .acl, .free 3, .use 4,
     .alloc 5 .descriptor, .use 5, .use 5, .use 5, .use 5, .use 5, .use 5, .alloc 6 .acl, .free 5, .use 6, .use 2,
     .alloc 7 .sid, .use 7, .use 7, .free 7, .alloc 8 .sid, .use 8, .use 8, .free 8] := by
  decide +kernel

example : (∀ n, oneDllMemOs.convert n = none) ∧ (∀ n, oneDllMemOs.length n = none) ∧
    (oneDllMemOs.find (withBackslash (popToBackslash (utf8 c!"C:\\app\\w.exe")) ++ utf8 c!"*.dll")).1 ≠ [] :=
  ⟨fun _ => rfl, fun _ => rfl, by decide +kernel⟩

/-- The length of the first identifier cannot be got: it is left. -/
example : (delegateAll [({ oneDllMemOs with length := fun _ => some 87 }, utf8 c!"C:\\app\\w.exe", utf8 c!"C:\\Windows")]
    ⟨fun _ => some [], 0⟩ ⟨0, []⟩).2.log = [.alloc 0 .sid, .use 0, .alloc 1 .sid, .use 1] := by
  decide +kernel

end Iris
