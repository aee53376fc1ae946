import Verif.Spec.CApi
import Verif.Lemmas.Fd
/-! Helper lemmas about the C interface. -/
namespace Iris
open Spec

theorem rustCall_eq (k : FsKind) (path : Str) : k.call path = rustCall path k := by
  cases k <;> rfl

theorem fillSlot_none (l : List (Option Nat)) (fd : Nat) (h : fillSlot l fd = none) :
    l.countP Option.isSome = l.length := by
  induction l with
  | nil => rfl
  | cons x r ih =>
    cases x with
    | none => cases h
    | some x =>
      simp only [fillSlot, Option.map_eq_none_iff] at h
      simp [ih h]

theorem fillSlot_some (l l' : List (Option Nat)) (fd : Nat) (h : fillSlot l fd = some l') :
    l'.length = l.length ∧ l'.countP Option.isSome = l.countP Option.isSome + 1 ∧
    l.countP Option.isSome < l.length := by
  induction l generalizing l' with
  | nil => cases h
  | cons x r ih =>
    have hle := List.countP_le_length (l := r) (p := Option.isSome)
    cases x with
    | none =>
      simp only [fillSlot, Option.some.injEq] at h
      subst h
      simp
      omega
    | some x =>
      simp only [fillSlot, Option.map_eq_some_iff] at h
      obtain ⟨y, hy, rfl⟩ := h
      obtain ⟨h1, h2, h3⟩ := ih y hy
      simp [h1, h2]
      omega

theorem fromRaw_cases (raw : BitVec 64) :
    (raw.toNat < 2 ^ 31 ∧ ∃ h : Handle, Handle.fromRaw raw = .ok h ∧ (h.val.getD 0#32).toNat = raw.toNat) ∨
    (¬ raw.toNat < 2 ^ 31 ∧ Handle.fromRaw raw = .error (.invalidHandleValue raw)) := by
  unfold Handle.fromRaw
  by_cases h : raw.toNat ≤ 2147483647
  · left
    refine ⟨by omega, ?_⟩
    rw [if_pos h]
    have e : (raw.setWidth 32).toNat = raw.toNat := by
      rw [BitVec.toNat_setWidth]; exact Nat.mod_eq_of_lt (by omega)
    have hs : 0 ≤ (raw.setWidth 32).toInt := by
      rw [BitVec.toInt_eq_toNat_of_lt (by rw [e]; omega)]; omega
    simp only
    rw [if_pos hs]
    exact ⟨_, rfl, e⟩
  · right
    exact ⟨by omega, by rw [if_neg h]⟩

/-- The invariant of the boxes. -/
def CObj.Wf : CObj → Prop
  | .policy p => p.slots.length = 32
  | .config c => c.stdin = c.inner.stdin ∧ c.stdout = c.inner.stdout ∧ c.stderr = c.inner.stderr
  | .worker _ => True

structure Sim (s : CState) (d : Doc) : Prop where
  agree : Agree s d
  wf : ∀ p o, s.heap p = some o → o.Wf

theorem sim_start (t : FdTable) : Sim (.start t) (.start t) :=
  ⟨⟨fun _ => rfl, rfl, rfl⟩, by intro p o h; cases h⟩

theorem sim_put (s : CState) (d : Doc) (p : Nat) (o : Option CObj) (h : Sim s d)
    (hw : ∀ x, o = some x → x.Wf) : Sim (s.put p o) (d.set p (o.map meaning)) := by
  refine ⟨⟨?_, h.agree.table, h.agree.closed⟩, ?_⟩
  · intro q
    simp only [CState.put, Doc.set]
    split
    · rfl
    · exact h.agree.objs q
  · intro q x hx
    simp only [CState.put] at hx
    split at hx
    · exact hw x hx
    · exact h.wf q x hx

theorem sim_close (s : CState) (d : Doc) (fds : List Nat) (h : Sim s d) : Sim (s.close fds) (d.close fds) := by
  refine ⟨⟨h.agree.objs, ?_, ?_⟩, h.wf⟩
  · simp only [CState.close, Doc.close, h.agree.table]
  · simp only [CState.close, Doc.close, h.agree.closed]

theorem sim_alloc (s : CState) (d d' : Doc) (addr : Nat) (o : CObj) (r : Reply) (h : Sim s d) (hw : o.Wf)
    (hd : d.add addr (meaning o) = some (d', r)) :
    ∃ s', (s.alloc addr o).map (fun s => (s, (⟨.success, some addr⟩ : Reply))) = some (s', r) ∧ Sim s' d' := by
  unfold Doc.add at hd
  split at hd
  · cases hd
  · rename_i hn
    simp only [Option.some.injEq, Prod.mk.injEq] at hd
    obtain ⟨rfl, rfl⟩ := hd
    refine ⟨s.put addr (some o), ?_, sim_put s d addr (some o) h (by simp; exact hw)⟩
    unfold CState.alloc
    have hiff : s.heap addr = none ↔ d.objs addr = none := by
      rw [← h.agree.objs addr]; simp
    rw [if_neg (by rw [Ne, hiff]; exact hn)]
    rfl

theorem sim_policy (s : CState) (d : Doc) (p : Nat) (x : Policy) (g : Nat) (h : Sim s d)
    (hd : d.objs p = some (.policy x g)) :
    ∃ slots, s.policyAt p = some ⟨x, slots⟩ ∧ slots.length = 32 ∧ slots.countP Option.isSome = g := by
  have a := h.agree.objs p
  rw [hd] at a
  cases ho : s.heap p with
  | none => rw [ho] at a; cases a
  | some o =>
    rw [ho] at a
    cases o with
    | policy y =>
      simp only [Option.map_some, meaning, Option.some.injEq, DocObj.policy.injEq] at a
      obtain ⟨inner, slots⟩ := y
      obtain ⟨rfl, rfl⟩ := a
      exact ⟨slots, by simp [CState.policyAt, ho], h.wf p _ ho, rfl⟩
    | config c => simp [meaning] at a
    | worker w => simp [meaning] at a

theorem sim_config (s : CState) (d : Doc) (c : Nat) (x : ProcessConfig) (h : Sim s d)
    (hd : d.objs c = some (.config x)) : s.configAt c = some ⟨x, x.stdin, x.stdout, x.stderr⟩ := by
  have a := h.agree.objs c
  rw [hd] at a
  cases ho : s.heap c with
  | none => rw [ho] at a; cases a
  | some o =>
    rw [ho] at a
    cases o with
    | config y =>
      simp only [Option.map_some, meaning, Option.some.injEq, DocObj.config.injEq] at a
      obtain ⟨inner, a1, a2, a3⟩ := y
      simp only at a
      subst a
      have w := h.wf c _ ho
      obtain ⟨w1, w2, w3⟩ := w
      simp only at w1 w2 w3
      simp [CState.configAt, ho, w1, w2, w3]
    | policy p => simp [meaning] at a
    | worker w => simp [meaning] at a

theorem sim_worker (s : CState) (d : Doc) (w pid : Nat) (h : Sim s d)
    (hd : d.objs w = some (.worker pid)) : s.workerAt w = some pid := by
  have a := h.agree.objs w
  rw [hd] at a
  cases ho : s.heap w with
  | none => rw [ho] at a; cases a
  | some o =>
    rw [ho] at a
    cases o with
    | worker x => simpa [CState.workerAt, ho, meaning] using a
    | policy p => simp [meaning] at a
    | config c => simp [meaning] at a

theorem status_eq {ε : Type} (f : ε → IrisStatus) (r : Except ε Unit) : statusOf f r = status f r := by
  cases r <;> rfl

/-- One call that does not exhaust the slots. -/
theorem sim_step (abi : Abi) (s : CState) (d d' : Doc) (c : CCall) (r : Reply) (h : Sim s d)
    (hd : d.step abi c = some (d', r)) (hr : r.status ≠ .tooManyHandles) :
    ∃ s', s.step abi c = some (s', r) ∧ Sim s' d' := by
  cases c with
  | policyNew audit addr =>
    exact sim_alloc s d d' addr (.policy ⟨if audit then .auditOnlyPolicy else .nothingAllowed,
      List.replicate IRIS_MAX_HANDLES_PER_POLICY none⟩) r h (by simp [CObj.Wf, IRIS_MAX_HANDLES_PER_POLICY])
      (by simpa [meaning, List.countP_replicate, Doc.step] using hd)
  | policyFree p =>
    simp only [Doc.step] at hd
    split at hd
    · rename_i x g ho
      simp only [Option.some.injEq, Prod.mk.injEq] at hd
      obtain ⟨rfl, rfl⟩ := hd
      obtain ⟨slots, hs, _, _⟩ := sim_policy s d p x g h ho
      exact ⟨_, by simp only [CState.step, hs]; rfl, sim_put s d p none h (by simp)⟩
    · cases hd
  | allowInherit p raw =>
    simp only [Doc.step] at hd
    simp only [CState.step, cAllowInherit]
    by_cases hp : p = 0
    · rw [if_pos hp] at hd ⊢
      simp only [refused, Option.some.injEq, Prod.mk.injEq] at hd
      obtain ⟨rfl, rfl⟩ := hd
      exact ⟨s, rfl, h⟩
    · rw [if_neg hp] at hd ⊢
      split at hd
      · rename_i x g ho
        obtain ⟨slots, hs, hlen, hcount⟩ := sim_policy s d p x g h ho
        rcases fromRaw_cases raw with ⟨hlt, hd', hok, hval⟩ | ⟨hge, herr⟩
        · rw [if_pos hlt] at hd
          simp only [hok, hs, Option.map_some, hval]
          by_cases hg : g < 32
          · rw [if_pos hg] at hd
            simp only [Option.some.injEq, Prod.mk.injEq] at hd
            obtain ⟨rfl, rfl⟩ := hd
            cases hf : fillSlot slots raw.toNat with
            | none => have := fillSlot_none _ _ hf; omega
            | some slots' =>
              obtain ⟨f1, f2, _⟩ := fillSlot_some _ _ _ hf
              simp only [h.agree.table, status_eq]
              refine ⟨_, rfl, ?_⟩
              have := sim_put s d p (some (.policy ⟨(x.allowInheritHandle raw.toNat
                ((isInheritable d.table raw.toNat).mapError PolicyError.ofHandle)).2, slots'⟩)) h
                (by simp [CObj.Wf, f1, hlen])
              simpa [meaning, f2, hcount] using this
          · rw [if_neg hg] at hd
            simp only [Option.some.injEq, Prod.mk.injEq] at hd
            rw [← hd.2] at hr
            exact absurd rfl hr
        · rw [if_neg hge] at hd
          simp only [Option.some.injEq, Prod.mk.injEq] at hd
          obtain ⟨rfl, rfl⟩ := hd
          simp only [herr]
          exact ⟨s, rfl, h⟩
      · cases hd
  | allowFs p path k =>
    simp only [Doc.step, ← rustCall_eq] at hd
    simp only [CState.step, cAllowFs]
    by_cases hp : p = 0
    · rw [if_pos (.inl hp)] at hd
      rw [if_pos hp]
      simp only [refused, Option.some.injEq, Prod.mk.injEq] at hd
      obtain ⟨rfl, rfl⟩ := hd
      exact ⟨s, rfl, h⟩
    · rw [if_neg hp]
      cases path with
      | none =>
        rw [if_pos (.inr rfl)] at hd
        simp only [refused, Option.some.injEq, Prod.mk.injEq] at hd
        obtain ⟨rfl, rfl⟩ := hd
        exact ⟨s, rfl, h⟩
      | some bytes =>
        rw [if_neg (by simp [hp])] at hd
        split at hd
        · rename_i x g ho
          obtain ⟨slots, hs, hlen, hcount⟩ := sim_policy s d p x g h ho
          simp only [Option.bind_some] at hd
          cases hu : fromUtf8 bytes with
          | none =>
            simp only [hu, Option.some.injEq, Prod.mk.injEq] at hd
            obtain ⟨rfl, rfl⟩ := hd
            exact ⟨s, by simp only [hu], h⟩
          | some str =>
            simp only [hu, Option.some.injEq, Prod.mk.injEq] at hd
            obtain ⟨rfl, rfl⟩ := hd
            simp only [hu, hs, Option.map_some, status_eq]
            refine ⟨_, rfl, ?_⟩
            have := sim_put s d p (some (.policy ⟨(x.fsCall linuxOs (k.call str)).2, slots⟩)) h
              (by simp [CObj.Wf, hlen])
            simpa [meaning, hcount] using this
        · cases hd
  | addLogCallback p cb =>
    simp only [Doc.step] at hd
    simp only [CState.step]
    by_cases hp : p = 0
    · rw [if_pos hp] at hd ⊢
      simp only [refused, Option.some.injEq, Prod.mk.injEq] at hd
      obtain ⟨rfl, rfl⟩ := hd
      exact ⟨s, rfl, h⟩
    · rw [if_neg hp] at hd ⊢
      split at hd
      · rename_i x g ho
        obtain ⟨slots, hs, hlen, hcount⟩ := sim_policy s d p x g h ho
        simp only [Option.some.injEq, Prod.mk.injEq] at hd
        obtain ⟨rfl, rfl⟩ := hd
        simp only [hs, Option.map_some]
        refine ⟨_, rfl, ?_⟩
        have := sim_put s d p (some (.policy ⟨x.addLogCallback cb, slots⟩)) h (by simp [CObj.Wf, hlen])
        simpa [meaning, hcount] using this
      · cases hd
  | configNew exe argv out addr =>
    simp only [Doc.step] at hd
    simp only [CState.step]
    split at hd
    · rename_i exe a as
      exact sim_alloc s d d' addr (.config ⟨.new exe (a :: as), none, none, none⟩) r h
        ⟨rfl, rfl, rfl⟩ hd
    · rename_i hno
      simp only [refused, Option.some.injEq, Prod.mk.injEq] at hd
      obtain ⟨rfl, rfl⟩ := hd
      cases exe with
      | none => exact ⟨s, rfl, h⟩
      | some exe =>
        cases argv with
        | none => exact ⟨s, rfl, h⟩
        | some argv =>
          cases argv with
          | nil => exact ⟨s, by simp, h⟩
          | cons a as =>
            cases out with
            | false => exact ⟨s, by simp, h⟩
            | true => exact absurd rfl (hno exe a as rfl rfl)
  | configFree c =>
    simp only [Doc.step] at hd
    split at hd
    · rename_i x ho
      simp only [Option.some.injEq, Prod.mk.injEq] at hd
      obtain ⟨rfl, rfl⟩ := hd
      have hs := sim_config s d c x h ho
      refine ⟨_, by simp only [CState.step, hs]; rfl, ?_⟩
      have e : CConfig.held ⟨x, x.stdin, x.stdout, x.stderr⟩ .stdin ++
          CConfig.held ⟨x, x.stdin, x.stdout, x.stderr⟩ .stdout ++
          CConfig.held ⟨x, x.stdin, x.stdout, x.stderr⟩ .stderr = [x.stdin, x.stdout, x.stderr].filterMap id := by
        cases x.stdin <;> cases x.stdout <;> cases x.stderr <;> rfl
      rw [e]
      exact sim_close _ _ _ (sim_put s d c none h (by simp))
    · cases hd
  | cwd c v =>
    simp only [Doc.step] at hd
    simp only [CState.step, cConfigCall]
    by_cases hp : c = 0
    · rw [if_pos hp] at hd ⊢
      simp only [refused, Option.some.injEq, Prod.mk.injEq] at hd
      obtain ⟨rfl, rfl⟩ := hd
      exact ⟨s, rfl, h⟩
    · rw [if_neg hp] at hd ⊢
      split at hd
      · rename_i x ho
        have hs := sim_config s d c x h ho
        simp only [Option.some.injEq, Prod.mk.injEq] at hd
        obtain ⟨rfl, rfl⟩ := hd
        simp only [hs, Option.map_some]
        exact ⟨_, rfl, sim_put s d c (some (.config ⟨(x.call (.cwd v)).2, _, _, _⟩)) h
          (by simp [CObj.Wf, ProcessConfig.call])⟩
      · cases hd
  | env c v =>
    simp only [Doc.step] at hd
    simp only [CState.step, cConfigCall]
    cases v with
    | none =>
      simp only [refused, Option.some.injEq, Prod.mk.injEq] at hd
      obtain ⟨rfl, rfl⟩ := hd
      refine ⟨s, ?_, h⟩
      split <;> rfl
    | some v =>
      simp only at hd
      by_cases hp : c = 0
      · rw [if_pos hp] at hd ⊢
        simp only [refused, Option.some.injEq, Prod.mk.injEq] at hd
        obtain ⟨rfl, rfl⟩ := hd
        exact ⟨s, rfl, h⟩
      · rw [if_neg hp] at hd ⊢
        split at hd
        · rename_i x ho
          have hs := sim_config s d c x h ho
          simp only [Option.some.injEq, Prod.mk.injEq] at hd
          obtain ⟨rfl, rfl⟩ := hd
          simp only [hs, Option.map_some, status_eq]
          refine ⟨_, rfl, sim_put s d c (some (.config ⟨(x.call (.env v)).2, _, _, _⟩)) h ?_⟩
          intro o ho
          simp only [Option.some.injEq] at ho
          subst ho
          simp only [CObj.Wf, ProcessConfig.call, ProcessConfig.setEnv]
          split <;> exact ⟨rfl, rfl, rfl⟩
        · cases hd
  | redirect st c raw =>
    simp only [Doc.step] at hd
    simp only [CState.step, cRedirect]
    by_cases hp : c = 0
    · rw [if_pos hp] at hd ⊢
      simp only [refused, Option.some.injEq, Prod.mk.injEq] at hd
      obtain ⟨rfl, rfl⟩ := hd
      exact ⟨s, rfl, h⟩
    · rw [if_neg hp] at hd ⊢
      split at hd
      · rename_i x ho
        have hs := sim_config s d c x h ho
        have key : ∀ hnd, Sim ((s.put c (some (.config
              (CConfig.setStream ⟨x, x.stdin, x.stdout, x.stderr⟩ hnd st)))).close
              (CConfig.held ⟨x, x.stdin, x.stdout, x.stderr⟩ st))
            ((d.set c (some (.config (withStream x hnd st)))).close (streamOf x st).toList) := by
          intro hnd
          cases st
          all_goals
            exact sim_close _ _ _ (sim_put s d c (some (.config _)) h
              (by intro o ho; simp only [Option.some.injEq] at ho; subst ho; exact ⟨rfl, rfl, rfl⟩))
        by_cases hm : raw = 0xffffffffffffffff#64
        · rw [if_pos hm] at hd
          simp only [Option.some.injEq, Prod.mk.injEq] at hd
          obtain ⟨rfl, rfl⟩ := hd
          rw [if_pos hm]
          simp only [hs, Option.map_some]
          exact ⟨_, rfl, key none⟩
        · rw [if_neg hm] at hd ⊢
          rcases fromRaw_cases raw with ⟨hlt, hd', hok, hval⟩ | ⟨hge, herr⟩
          · rw [if_pos hlt] at hd
            simp only [Option.some.injEq, Prod.mk.injEq] at hd
            obtain ⟨rfl, rfl⟩ := hd
            simp only [hok, Except.map, hs, Option.map_some, hval]
            exact ⟨_, rfl, key (some raw.toNat)⟩
          · rw [if_neg hge] at hd
            simp only [Option.some.injEq, Prod.mk.injEq] at hd
            obtain ⟨rfl, rfl⟩ := hd
            simp only [herr, Except.map]
            exact ⟨s, rfl, h⟩
      · cases hd
  | workerNew c p out addr caps os =>
    simp only [Doc.step] at hd
    simp only [CState.step, cWorkerNew]
    by_cases hp : c = 0 ∨ p = 0 ∨ out = false
    · rw [if_pos hp] at hd ⊢
      simp only [refused, Option.some.injEq, Prod.mk.injEq] at hd
      obtain ⟨rfl, rfl⟩ := hd
      exact ⟨s, rfl, h⟩
    · rw [if_neg hp] at hd ⊢
      split at hd
      · rename_i x y g hc hpo
        have hs := sim_config s d c x h hc
        obtain ⟨slots, hs', _, _⟩ := sim_policy s d p y g h hpo
        simp only [hs, hs', Option.bind_some, h.agree.table]
        have h2 : Sim { s with table := (Iris.workerNew abi d.table caps x y os).table,
                               running := s.running ++ startedPid (Iris.workerNew abi d.table caps x y os).child }
            { d with table := (Iris.workerNew abi d.table caps x y os).table } :=
          ⟨⟨h.agree.objs, rfl, h.agree.closed⟩, h.wf⟩
        cases hres : (Iris.workerNew abi d.table caps x y os).result with
        | error e =>
          simp only [hres, Option.some.injEq, Prod.mk.injEq] at hd
          obtain ⟨rfl, rfl⟩ := hd
          exact ⟨_, rfl, h2⟩
        | ok z =>
          simp only [hres] at hd
          exact sim_alloc _ _ d' addr (.worker z.1) r h2 trivial hd
      · cases hd
  | workerPid w out =>
    simp only [Doc.step] at hd
    simp only [CState.step]
    by_cases hp : w = 0 ∨ out = false
    · rw [if_pos hp] at hd ⊢
      simp only [refused, Option.some.injEq, Prod.mk.injEq] at hd
      obtain ⟨rfl, rfl⟩ := hd
      exact ⟨s, rfl, h⟩
    · rw [if_neg hp] at hd ⊢
      split at hd
      · rename_i pid ho
        simp only [Option.some.injEq, Prod.mk.injEq] at hd
        obtain ⟨rfl, rfl⟩ := hd
        simp only [sim_worker s d w pid h ho, Option.map_some]
        exact ⟨s, rfl, h⟩
      · cases hd
  | workerFree w =>
    simp only [Doc.step] at hd
    split at hd
    · rename_i pid ho
      simp only [Option.some.injEq, Prod.mk.injEq] at hd
      obtain ⟨rfl, rfl⟩ := hd
      exact ⟨_, by simp only [CState.step, sim_worker s d w pid h ho]; rfl, sim_put s d w none h (by simp)⟩
    · cases hd

theorem sim_run (abi : Abi) (calls : List CCall) : ∀ (s : CState) (d d' : Doc) (rs : List Reply), Sim s d →
    d.run abi calls = some (d', rs) → (∀ r ∈ rs, r.status ≠ .tooManyHandles) →
    ∃ s', s.run abi calls = some (s', rs) ∧ Sim s' d' := by
  induction calls with
  | nil =>
    intro s d d' rs h hd _
    simp only [Doc.run, Option.some.injEq, Prod.mk.injEq] at hd
    obtain ⟨rfl, rfl⟩ := hd
    exact ⟨s, rfl, h⟩
  | cons c cs ih =>
    intro s d d' rs h hd hr
    simp only [Doc.run, Option.bind_eq_some_iff, Option.map_eq_some_iff, Prod.mk.injEq] at hd
    obtain ⟨⟨d1, r⟩, h1, ⟨d2, rs'⟩, h2, rfl, rfl⟩ := hd
    obtain ⟨s1, e1, sim1⟩ := sim_step abi s d d1 c r h h1 (hr r (by simp))
    obtain ⟨s2, e2, sim2⟩ := ih s1 d1 d2 rs' sim1 h2 (fun r hr' => hr r (by simp [hr']))
    exact ⟨s2, by simp [CState.run, e1, e2], sim2⟩


theorem fillSlot_full (l : List (Option Nat)) (fd : Nat) (h : ∀ o ∈ l, o ≠ none) : fillSlot l fd = none := by
  induction l with
  | nil => rfl
  | cons x r ih =>
    cases x with
    | none => exact absurd rfl (h none (by simp))
    | some x => simp [fillSlot, ih (fun o ho => h o (by simp [ho]))]

theorem fillSlot_none_full (l : List (Option Nat)) (fd : Nat) (h : fillSlot l fd = none) : ∀ o ∈ l, o ≠ none := by
  induction l with
  | nil => simp
  | cons x r ih =>
    cases x with
    | none => cases h
    | some x =>
      simp only [fillSlot, Option.map_eq_none_iff] at h
      intro o ho
      rcases List.mem_cons.mp ho with rfl | ho
      · simp
      · exact ih h o ho

theorem policy_step_keeps (abi : Abi) (s s' : CState) (c : CCall) (r : Reply) (hp : OnPolicies c = true)
    (h : s.step abi c = some (s', r)) (hr : r.status ≠ .tooManyHandles) :
    s'.closed = s.closed ∧ s'.table = s.table := by
  cases c with
  | policyNew audit addr =>
    simp only [CState.step, Option.map_eq_some_iff, Prod.mk.injEq, CState.alloc] at h
    obtain ⟨s1, h1, rfl, _⟩ := h
    split at h1
    · cases h1
    · cases h1; exact ⟨rfl, rfl⟩
  | policyFree p =>
    simp only [CState.step, Option.map_eq_some_iff, Prod.mk.injEq] at h
    obtain ⟨_, _, rfl, _⟩ := h
    exact ⟨rfl, rfl⟩
  | allowInherit p raw =>
    simp only [CState.step, cAllowInherit] at h
    split at h
    · cases h; exact ⟨rfl, rfl⟩
    · split at h
      · cases h; exact ⟨rfl, rfl⟩
      · simp only [Option.map_eq_some_iff] at h
        obtain ⟨x, _, h⟩ := h
        split at h
        · simp only [Prod.mk.injEq] at h
          rw [← h.2] at hr
          exact absurd rfl hr
        · simp only [Prod.mk.injEq] at h
          rw [← h.1]
          exact ⟨rfl, rfl⟩
  | allowFs p path k =>
    simp only [CState.step, cAllowFs] at h
    split at h
    · cases h; exact ⟨rfl, rfl⟩
    · split at h
      · cases h; exact ⟨rfl, rfl⟩
      · split at h
        · cases h; exact ⟨rfl, rfl⟩
        · simp only [Option.map_eq_some_iff, Prod.mk.injEq] at h
          obtain ⟨x, _, rfl, _⟩ := h
          exact ⟨rfl, rfl⟩
  | addLogCallback p cb =>
    simp only [CState.step] at h
    split at h
    · cases h; exact ⟨rfl, rfl⟩
    · simp only [Option.map_eq_some_iff, Prod.mk.injEq] at h
      obtain ⟨x, _, rfl, _⟩ := h
      exact ⟨rfl, rfl⟩
  | _ => cases hp

theorem step_running (abi : Abi) (s s' : CState) (c : CCall) (r : Reply) (h : s.step abi c = some (s', r)) :
    ∀ pid ∈ s.running, pid ∈ s'.running := by
  have halloc : ∀ (s s' : CState) addr o, s.alloc addr o = some s' → s'.running = s.running := by
    intro s s' addr o h
    unfold CState.alloc at h
    split at h
    · cases h
    · cases h; rfl
  intro pid hpid
  cases c with
  | policyNew audit addr =>
    simp only [CState.step, Option.map_eq_some_iff, Prod.mk.injEq] at h
    obtain ⟨s1, h1, rfl, _⟩ := h
    rw [halloc _ _ _ _ h1]; exact hpid
  | policyFree p =>
    simp only [CState.step, Option.map_eq_some_iff, Prod.mk.injEq] at h
    obtain ⟨_, _, rfl, _⟩ := h
    exact hpid
  | allowInherit p raw =>
    simp only [CState.step, cAllowInherit] at h
    split at h
    · cases h; exact hpid
    · split at h
      · cases h; exact hpid
      · simp only [Option.map_eq_some_iff] at h
        obtain ⟨x, _, h⟩ := h
        split at h
        · simp only [Prod.mk.injEq] at h
          rw [← h.1]; exact hpid
        · simp only [Prod.mk.injEq] at h
          rw [← h.1]; exact hpid
  | allowFs p path k =>
    simp only [CState.step, cAllowFs] at h
    split at h
    · cases h; exact hpid
    · split at h
      · cases h; exact hpid
      · split at h
        · cases h; exact hpid
        · simp only [Option.map_eq_some_iff, Prod.mk.injEq] at h
          obtain ⟨x, _, rfl, _⟩ := h
          exact hpid
  | addLogCallback p cb =>
    simp only [CState.step] at h
    split at h
    · cases h; exact hpid
    · simp only [Option.map_eq_some_iff, Prod.mk.injEq] at h
      obtain ⟨x, _, rfl, _⟩ := h
      exact hpid
  | configNew exe argv out addr =>
    simp only [CState.step] at h
    split at h
    · split at h
      · cases h; exact hpid
      · simp only [Option.map_eq_some_iff, Prod.mk.injEq] at h
        obtain ⟨s1, h1, rfl, _⟩ := h
        rw [halloc _ _ _ _ h1]; exact hpid
    · cases h; exact hpid
  | configFree c =>
    simp only [CState.step, Option.map_eq_some_iff, Prod.mk.injEq] at h
    obtain ⟨_, _, rfl, _⟩ := h
    exact hpid
  | cwd c v =>
    simp only [CState.step, cConfigCall] at h
    split at h
    · cases h; exact hpid
    · simp only [Option.map_eq_some_iff, Prod.mk.injEq] at h
      obtain ⟨_, _, rfl, _⟩ := h
      exact hpid
  | env c v =>
    simp only [CState.step, cConfigCall] at h
    split at h
    · cases h; exact hpid
    · split at h
      · cases h; exact hpid
      · simp only [Option.map_eq_some_iff, Prod.mk.injEq] at h
        obtain ⟨_, _, rfl, _⟩ := h
        exact hpid
  | redirect st c raw =>
    simp only [CState.step, cRedirect] at h
    split at h
    · cases h; exact hpid
    · split at h
      · cases h; exact hpid
      · simp only [Option.map_eq_some_iff, Prod.mk.injEq] at h
        obtain ⟨_, _, rfl, _⟩ := h
        exact hpid
  | workerNew c p out addr caps os =>
    simp only [CState.step, cWorkerNew] at h
    split at h
    · cases h; exact hpid
    · simp only [Option.bind_eq_some_iff] at h
      obtain ⟨x, _, y, _, h⟩ := h
      split at h
      · cases h
        exact List.mem_append_left _ hpid
      · simp only [Option.map_eq_some_iff, Prod.mk.injEq] at h
        obtain ⟨s1, h1, rfl, _⟩ := h
        rw [halloc _ _ _ _ h1]
        exact List.mem_append_left _ hpid
  | workerPid w out =>
    simp only [CState.step] at h
    split at h
    · cases h; exact hpid
    · simp only [Option.map_eq_some_iff, Prod.mk.injEq] at h
      obtain ⟨_, _, rfl, _⟩ := h
      exact hpid
  | workerFree w =>
    simp only [CState.step, Option.map_eq_some_iff, Prod.mk.injEq] at h
    obtain ⟨_, _, rfl, _⟩ := h
    exact hpid

/-- Both parts of every configuration agree on its streams. -/
def ConfigsWf (s : CState) : Prop :=
  ∀ c x, s.heap c = some (.config x) → x.stdin = x.inner.stdin ∧ x.stdout = x.inner.stdout ∧ x.stderr = x.inner.stderr

theorem configsWf_put (s : CState) (p : Nat) (o : Option CObj) (h : ConfigsWf s)
    (ho : ∀ x, o = some (.config x) → x.stdin = x.inner.stdin ∧ x.stdout = x.inner.stdout ∧ x.stderr = x.inner.stderr) :
    ConfigsWf (s.put p o) := by
  intro c x hx
  simp only [CState.put] at hx
  split at hx
  · exact ho x hx
  · exact h c x hx

theorem configAt_heap (s : CState) (c : Nat) (x : CConfig) (h : s.configAt c = some x) :
    s.heap c = some (.config x) := by
  unfold CState.configAt at h
  split at h
  · rename_i y hy; cases h; exact hy
  · cases h

theorem configsWf_step (abi : Abi) (s s' : CState) (c : CCall) (r : Reply) (hw : ConfigsWf s)
    (h : s.step abi c = some (s', r)) : ConfigsWf s' := by
  have halloc : ∀ (s s' : CState) addr o, ConfigsWf s → s.alloc addr o = some s' →
      (∀ x, o = .config x → x.stdin = x.inner.stdin ∧ x.stdout = x.inner.stdout ∧ x.stderr = x.inner.stderr) →
      ConfigsWf s' := by
    intro s s' addr o hw h ho
    unfold CState.alloc at h
    split at h
    · cases h
    · cases h; exact configsWf_put _ _ _ hw (fun x e => ho x (by cases e; rfl))
  cases c with
  | policyNew audit addr =>
    simp only [CState.step, Option.map_eq_some_iff, Prod.mk.injEq] at h
    obtain ⟨s1, h1, rfl, _⟩ := h
    exact halloc _ _ _ _ hw h1 (by simp)
  | policyFree p =>
    simp only [CState.step, Option.map_eq_some_iff, Prod.mk.injEq] at h
    obtain ⟨_, _, rfl, _⟩ := h
    exact configsWf_put _ _ _ hw (by simp)
  | allowInherit p raw =>
    simp only [CState.step, cAllowInherit] at h
    split at h
    · cases h; exact hw
    · split at h
      · cases h; exact hw
      · simp only [Option.map_eq_some_iff] at h
        obtain ⟨x, _, h⟩ := h
        split at h
        · simp only [Prod.mk.injEq] at h
          rw [← h.1]; exact configsWf_put _ _ none hw (by simp)
        · simp only [Prod.mk.injEq] at h
          rw [← h.1]; exact configsWf_put _ _ _ hw (by simp)
  | allowFs p path k =>
    simp only [CState.step, cAllowFs] at h
    split at h
    · cases h; exact hw
    · split at h
      · cases h; exact hw
      · split at h
        · cases h; exact hw
        · simp only [Option.map_eq_some_iff, Prod.mk.injEq] at h
          obtain ⟨x, _, rfl, _⟩ := h
          exact configsWf_put _ _ _ hw (by simp)
  | addLogCallback p cb =>
    simp only [CState.step] at h
    split at h
    · cases h; exact hw
    · simp only [Option.map_eq_some_iff, Prod.mk.injEq] at h
      obtain ⟨x, _, rfl, _⟩ := h
      exact configsWf_put _ _ _ hw (by simp)
  | configNew exe argv out addr =>
    simp only [CState.step] at h
    split at h
    · split at h
      · cases h; exact hw
      · simp only [Option.map_eq_some_iff, Prod.mk.injEq] at h
        obtain ⟨s1, h1, rfl, _⟩ := h
        exact halloc _ _ _ _ hw h1 (by intro x e; cases e; exact ⟨rfl, rfl, rfl⟩)
    · cases h; exact hw
  | configFree c =>
    simp only [CState.step, Option.map_eq_some_iff, Prod.mk.injEq] at h
    obtain ⟨_, _, rfl, _⟩ := h
    exact configsWf_put _ _ none hw (by simp)
  | cwd c v =>
    simp only [CState.step, cConfigCall] at h
    split at h
    · cases h; exact hw
    · simp only [Option.map_eq_some_iff, Prod.mk.injEq] at h
      obtain ⟨x, hx, rfl, _⟩ := h
      exact configsWf_put _ _ _ hw (by intro y e; cases e; exact hw c x (configAt_heap _ _ _ hx))
  | env c v =>
    simp only [CState.step, cConfigCall] at h
    split at h
    · cases h; exact hw
    · split at h
      · cases h; exact hw
      · rename_i v
        simp only [Option.map_eq_some_iff, Prod.mk.injEq] at h
        obtain ⟨x, hx, rfl, _⟩ := h
        refine configsWf_put _ _ _ hw ?_
        intro y e
        cases e
        have := hw c x (configAt_heap _ _ _ hx)
        simp only [ProcessConfig.call, ProcessConfig.setEnv]
        split <;> exact this
  | redirect st c raw =>
    simp only [CState.step, cRedirect] at h
    split at h
    · cases h; exact hw
    · split at h
      · cases h; exact hw
      · rename_i hnd _
        simp only [Option.map_eq_some_iff, Prod.mk.injEq] at h
        obtain ⟨x, hx, rfl, _⟩ := h
        have hold := hw c x (configAt_heap _ _ _ hx)
        have : ConfigsWf (s.put c (some (.config (x.setStream hnd st)))) := by
          refine configsWf_put _ _ _ hw ?_
          intro y e
          cases e
          cases st
          · exact ⟨rfl, hold.2.1, hold.2.2⟩
          · exact ⟨hold.1, rfl, hold.2.2⟩
          · exact ⟨hold.1, hold.2.1, rfl⟩
        exact this
  | workerNew c p out addr caps os =>
    simp only [CState.step, cWorkerNew] at h
    split at h
    · cases h; exact hw
    · simp only [Option.bind_eq_some_iff] at h
      obtain ⟨x, _, y, _, h⟩ := h
      split at h
      · cases h; exact hw
      · simp only [Option.map_eq_some_iff, Prod.mk.injEq] at h
        obtain ⟨s1, h1, rfl, _⟩ := h
        refine halloc _ s1 _ _ ?_ h1 ?_
        · intro c x hx; exact hw c x hx
        · intro x e; cases e
  | workerPid w out =>
    simp only [CState.step] at h
    split at h
    · cases h; exact hw
    · simp only [Option.map_eq_some_iff, Prod.mk.injEq] at h
      obtain ⟨_, _, rfl, _⟩ := h
      exact hw
  | workerFree w =>
    simp only [CState.step, Option.map_eq_some_iff, Prod.mk.injEq] at h
    obtain ⟨_, _, rfl, _⟩ := h
    exact configsWf_put _ _ _ hw (by simp)

theorem configsWf_run (abi : Abi) (calls : List CCall) (s s' : CState) (rs : List Reply) (hw : ConfigsWf s)
    (h : s.run abi calls = some (s', rs)) : ConfigsWf s' := by
  induction calls generalizing s rs with
  | nil =>
    simp only [CState.run, Option.some.injEq, Prod.mk.injEq] at h
    obtain ⟨rfl, _⟩ := h
    exact hw
  | cons c cs ih =>
    simp only [CState.run, Option.bind_eq_some_iff, Option.map_eq_some_iff, Prod.mk.injEq] at h
    obtain ⟨⟨s1, r⟩, h1, ⟨s2, rs'⟩, h2, rfl, rfl⟩ := h
    exact ih s1 rs' (configsWf_step abi s s1 c r hw h1) h2

theorem cRun_append (abi : Abi) (a b : List CCall) (s s1 s2 : CState) (r1 r2 : List Reply)
    (h1 : s.run abi a = some (s1, r1)) (h2 : s1.run abi b = some (s2, r2)) :
    s.run abi (a ++ b) = some (s2, r1 ++ r2) := by
  induction a generalizing s r1 with
  | nil =>
    simp only [CState.run, Option.some.injEq, Prod.mk.injEq] at h1
    obtain ⟨rfl, rfl⟩ := h1
    exact h2
  | cons c cs ih =>
    simp only [CState.run, Option.bind_eq_some_iff, Option.map_eq_some_iff, Prod.mk.injEq] at h1
    obtain ⟨⟨s', r⟩, e, ⟨s'', rs'⟩, e2, rfl, rfl⟩ := h1
    have := ih s' rs' e2
    simp [CState.run, e, this]

/-! Status codes -/

theorem ofPolicy_ne (e : PolicyError) : (IrisStatus.ofPolicy e).code ≠ 0 := by cases e <;> simp [IrisStatus.ofPolicy, IrisStatus.code]

theorem ofBroker_ne (e : BrokerError) : (IrisStatus.ofBroker e).code ≠ 0 := by
  cases e with
  | cannotBuildPolicyForWorker e => exact ofPolicy_ne e
  | _ => simp [IrisStatus.ofBroker, IrisStatus.code]

theorem statusOf_zero {ε : Type} (f : ε → IrisStatus) (r : Except ε Unit) (hf : ∀ e, (f e).code ≠ 0) :
    (statusOf f r).code = 0 ↔ r = .ok () := by
  cases r with
  | ok u => simp [statusOf, IrisStatus.code]
  | error e => exact ⟨fun h => absurd h (hf e), fun h => by cases h⟩

/-- One error of each kind. -/
def kinds : List LibError := [
  .policy (.invalidHandleValue 0),
  .policy (.handleNotInheritable 0),
  .policy (.unsupportedFilesystemPath []),
  .policy (.unsupportedRegistryPath []),
  .policy (.internalOsOperationFailed [] 0),
  .broker (.conflictingEnvironmentVariable []),
  .broker .missingCommandLine,
  .broker .workerCommunicationError,
  .broker .unexpectedWorkerMessage,
  .broker (.internalOsOperationFailed [] 0),
  .broker .processExitedDuringInitialization,
  .handle (.invalidHandleValue 0),
  .handle (.internalOsOperationFailed [] 0 0),
  .ipc .unexpectedHandleWithPayload,
  .ipc .invalidProcessID,
  .ipc .unableToOpenProcessOnTheOtherEnd,
  .ipc .payloadTooBigToTransmit,
  .ipc .payloadTooBigToSerialize,
  .ipc .payloadTooBigToDeserialize,
  .ipc .internalSerializationError,
  .ipc .internalDeserializationError,
  .ipc .internalOsOperationFailed,
  .ipc .invalidHandleValueReceived]

theorem kinds_complete (e : LibError) : ∃ x ∈ kinds, e.code = x.code ∧ e.kind = x.kind := by
  have hpol : ∀ e : PolicyError, ∃ x ∈ kinds, (LibError.policy e).code = x.code ∧
      (LibError.policy e).kind = x.kind := by
    intro e
    cases e with
    | invalidHandleValue _ => exact ⟨_, List.getElem_mem (l := kinds) (n := 0) (by decide), rfl, rfl⟩
    | handleNotInheritable _ => exact ⟨_, List.getElem_mem (l := kinds) (n := 1) (by decide), rfl, rfl⟩
    | unsupportedFilesystemPath _ => exact ⟨_, List.getElem_mem (l := kinds) (n := 2) (by decide), rfl, rfl⟩
    | unsupportedRegistryPath _ => exact ⟨_, List.getElem_mem (l := kinds) (n := 3) (by decide), rfl, rfl⟩
    | internalOsOperationFailed _ _ => exact ⟨_, List.getElem_mem (l := kinds) (n := 4) (by decide), rfl, rfl⟩
  cases e with
  | policy e => exact hpol e
  | broker e =>
    cases e with
    | cannotBuildPolicyForWorker e => exact hpol e
    | conflictingEnvironmentVariable _ => exact ⟨_, List.getElem_mem (l := kinds) (n := 5) (by decide), rfl, rfl⟩
    | missingCommandLine => exact ⟨_, List.getElem_mem (l := kinds) (n := 6) (by decide), rfl, rfl⟩
    | workerCommunicationError => exact ⟨_, List.getElem_mem (l := kinds) (n := 7) (by decide), rfl, rfl⟩
    | unexpectedWorkerMessage => exact ⟨_, List.getElem_mem (l := kinds) (n := 8) (by decide), rfl, rfl⟩
    | internalOsOperationFailed _ _ => exact ⟨_, List.getElem_mem (l := kinds) (n := 9) (by decide), rfl, rfl⟩
    | processExitedDuringInitialization => exact ⟨_, List.getElem_mem (l := kinds) (n := 10) (by decide), rfl, rfl⟩
  | handle e =>
    cases e with
    | invalidHandleValue _ => exact ⟨_, List.getElem_mem (l := kinds) (n := 11) (by decide), rfl, rfl⟩
    | internalOsOperationFailed _ _ _ => exact ⟨_, List.getElem_mem (l := kinds) (n := 12) (by decide), rfl, rfl⟩
  | ipc e =>
    cases e with
    | unexpectedHandleWithPayload => exact ⟨_, List.getElem_mem (l := kinds) (n := 13) (by decide), rfl, rfl⟩
    | invalidProcessID => exact ⟨_, List.getElem_mem (l := kinds) (n := 14) (by decide), rfl, rfl⟩
    | unableToOpenProcessOnTheOtherEnd => exact ⟨_, List.getElem_mem (l := kinds) (n := 15) (by decide), rfl, rfl⟩
    | payloadTooBigToTransmit => exact ⟨_, List.getElem_mem (l := kinds) (n := 16) (by decide), rfl, rfl⟩
    | payloadTooBigToSerialize => exact ⟨_, List.getElem_mem (l := kinds) (n := 17) (by decide), rfl, rfl⟩
    | payloadTooBigToDeserialize => exact ⟨_, List.getElem_mem (l := kinds) (n := 18) (by decide), rfl, rfl⟩
    | internalSerializationError => exact ⟨_, List.getElem_mem (l := kinds) (n := 19) (by decide), rfl, rfl⟩
    | internalDeserializationError => exact ⟨_, List.getElem_mem (l := kinds) (n := 20) (by decide), rfl, rfl⟩
    | internalOsOperationFailed => exact ⟨_, List.getElem_mem (l := kinds) (n := 21) (by decide), rfl, rfl⟩
    | invalidHandleValueReceived => exact ⟨_, List.getElem_mem (l := kinds) (n := 22) (by decide), rfl, rfl⟩

/-! Log callbacks -/

theorem toDigits16 (n : Nat) : ∀ c ∈ Nat.toDigits 16 n, c ∈ c!"0123456789abcdef" := by
  induction n using Nat.strongRecOn with
  | ind n ih =>
    by_cases h : n < 16
    · rw [Nat.toDigits_of_lt_base h]
      intro c hc
      rw [List.mem_singleton] at hc
      subst hc
      have : ∀ m : Fin 16, Nat.digitChar m ∈ c!"0123456789abcdef" := by decide
      exact this ⟨n, h⟩
    · rw [Nat.toDigits_of_base_le (by omega) (by omega)]
      intro c hc
      rcases List.mem_append.mp hc with hc | hc
      · exact ih (n / 16) (by omega) c hc
      · rw [List.mem_singleton] at hc
        subst hc
        have : ∀ m : Fin 16, Nat.digitChar m ∈ c!"0123456789abcdef" := by decide
        exact this ⟨n % 16, by omega⟩


theorem hexAlt_clean (n : Nat) : '\x00' ∉ hexAlt n := by
  simp only [hexAlt, hexUpper, List.mem_cons, List.mem_map, not_or]
  refine ⟨by decide, by decide, ?_⟩
  rintro ⟨c, hc, e⟩
  have key : ∀ c ∈ Nat.toDigits 16 n, c ∈ c!"0123456789abcdef" := toDigits16 n
  have : ∀ c ∈ c!"0123456789abcdef", c.toUpper ≠ '\x00' := by decide
  exact this c (key c hc) e


theorem cString_ok (s : Str) (h : '\x00' ∉ s) : cString s = some (utf8 s) := by simp [cString, h]

/-- No text of the verdict has a NUL. -/
def cleanVerdict : Verdict → Prop
  | .granted => True
  | .deniedByPolicy why => '\x00' ∉ why
  | .delegationNotSupported why => '\x00' ∉ why
  | .invalidRequestParameters a why => '\x00' ∉ a ∧ '\x00' ∉ why

theorem verdict_ok (v : Verdict) (h : cleanVerdict v) : ∃ cv, CVerdict.ofRust v = some cv ∧ sameVerdict v cv := by
  cases v with
  | granted => exact ⟨.granted, rfl, trivial⟩
  | deniedByPolicy why => exact ⟨.deniedByPolicy (utf8 why), by simp [CVerdict.ofRust, cString_ok why h], rfl⟩
  | delegationNotSupported why =>
    exact ⟨.delegationNotSupported (utf8 why), by simp [CVerdict.ofRust, cString_ok why h], rfl⟩
  | invalidRequestParameters a why =>
    exact ⟨.invalidRequestParameters (utf8 a) (utf8 why),
      by simp [CVerdict.ofRust, cString_ok a h.1, cString_ok why h.2], rfl, rfl⟩

theorem request_ok (r : Request) (h : '\x00' ∉ reqPath r) : ∃ cr, CRequest.ofRust r = some cr ∧ sameRequest r cr := by
  cases r with
  | fileOpen path flags => exact ⟨.fileOpen (utf8 path) flags, by simp [CRequest.ofRust, cString_ok path h], rfl, rfl⟩
  | syscall nb a ip => exact ⟨_, rfl, rfl, rfl, rfl⟩

theorem checkFileOpen_clean [Target] (p : Policy) (path : Str) (flags : BitVec 32) (h : '\x00' ∉ path) :
    cleanVerdict (p.checkFileOpen path flags) := by
  unfold Policy.checkFileOpen
  split
  · simp only [cleanVerdict, List.mem_append, hexAlt_clean]
    decide
  · split
    · simp only [cleanVerdict, List.mem_append, h]
      decide
    · simp only
      split
      · simp only [cleanVerdict, List.mem_append, not_or]
        refine ⟨⟨⟨by decide, ?_⟩, by decide⟩, ?_⟩
        · split
          · decide
          · split
            · decide
            · split <;> decide
        · split
          · decide
          · split <;> decide
      · trivial

theorem evaluate_notification [Target] (p : Policy) (req : Request) (n : Notification Request)
    (h : n ∈ (p.evaluate req).2) : n.request = req ∧ ('\x00' ∉ reqPath req → cleanVerdict n.verdict) := by
  simp only [Policy.evaluate, Policy.logVerdict, List.mem_map] at h
  obtain ⟨cb, _, rfl⟩ := h
  refine ⟨rfl, fun hc => ?_⟩
  cases req with
  | fileOpen path flags => exact checkFileOpen_clean p path flags hc
  | syscall nb a ip => simp only [cleanVerdict]; decide

end Iris
