import Verif.Spec.Threads
import Verif.Lemmas.Worker
namespace Iris
open Spec

variable {σ Req Resp : Type} (serve : σ → Req → σ × Resp)

/-- The broker's state after some requests. -/
def stateAfter : σ → List Req → σ
  | s, [] => s
  | s, r :: rs => stateAfter (serve s r).1 rs

theorem repliesTo_append (s : σ) (a b : List Req) :
    repliesTo serve s (a ++ b) = repliesTo serve s a ++ repliesTo serve (stateAfter serve s a) b := by
  induction a generalizing s with
  | nil => rfl
  | cons r a ih => simp [repliesTo, stateAfter, ih]

theorem stateAfter_append (s : σ) (a b : List Req) :
    stateAfter serve s (a ++ b) = stateAfter serve (stateAfter serve s a) b := by
  induction a generalizing s with
  | nil => rfl
  | cons r a ih => simp [stateAfter, ih]

theorem repliesTo_length (s : σ) (a : List Req) : (repliesTo serve s a).length = a.length := by
  induction a generalizing s with
  | nil => rfl
  | cons r a ih => simp [repliesTo, ih]

theorem ownExchanges_snoc (s : σ) (l : List (Nat × Req)) (i j : Nat) (r : Req) :
    ownExchanges serve s (l ++ [(i, r)]) j = ownExchanges serve s l j ++
      if i = j then [(r, (serve (stateAfter serve s (l.map Prod.snd)) r).2)] else [] := by
  simp only [ownExchanges, List.map_append, List.map_cons, List.map_nil, repliesTo_append]
  rw [List.zip_append (by rw [repliesTo_length, List.length_map])]
  by_cases h : i = j <;> simp [repliesTo, h]

/-- Inside the critical section. -/
def Pc.inside : Pc Req Resp → Bool
  | .locked _ | .sent _ | .received _ _ => true
  | _ => false

theorem update_same {α : Type} (f : Nat → α) (i : Nat) (v : α) : update f i v i = v := by simp [update]
theorem update_other {α : Type} (f : Nat → α) {i j : Nat} (h : j ≠ i) (v : α) : update f i v j = f j := by
  simp [update, h]

/-- What holds in every reachable state. `l` is the history of sends that have been fully dealt
with. -/
inductive Inv (s : σ) (w : World σ Req Resp) : Prop
  | free (hl : w.lock = none) (hp : ∀ i, (w.pc i).inside = false) (hb : w.toBroker = [])
      (hw : w.toWorker = []) (hs : w.broker = stateAfter serve s (w.sends.map Prod.snd))
      (hr : ∀ i, w.results i = ownExchanges serve s w.sends i)
  | locked (i : Nat) (r : Req) (hl : w.lock = some i) (hi : w.pc i = .locked r)
      (hp : ∀ j, j ≠ i → (w.pc j).inside = false) (hb : w.toBroker = [])
      (hw : w.toWorker = []) (hs : w.broker = stateAfter serve s (w.sends.map Prod.snd))
      (hr : ∀ i, w.results i = ownExchanges serve s w.sends i)
  | asked (i : Nat) (r : Req) (l : List (Nat × Req)) (hl : w.lock = some i) (hi : w.pc i = .sent r)
      (hp : ∀ j, j ≠ i → (w.pc j).inside = false) (hb : w.toBroker = [r])
      (hw : w.toWorker = []) (hh : w.sends = l ++ [(i, r)])
      (hs : w.broker = stateAfter serve s (l.map Prod.snd))
      (hr : ∀ i, w.results i = ownExchanges serve s l i)
  | answered (i : Nat) (r : Req) (l : List (Nat × Req)) (hl : w.lock = some i) (hi : w.pc i = .sent r)
      (hp : ∀ j, j ≠ i → (w.pc j).inside = false) (hb : w.toBroker = [])
      (hw : w.toWorker = [(serve (stateAfter serve s (l.map Prod.snd)) r).2]) (hh : w.sends = l ++ [(i, r)])
      (hs : w.broker = stateAfter serve s (w.sends.map Prod.snd))
      (hr : ∀ i, w.results i = ownExchanges serve s l i)
  | received (i : Nat) (r : Req) (l : List (Nat × Req)) (hl : w.lock = some i)
      (hi : w.pc i = .received r (serve (stateAfter serve s (l.map Prod.snd)) r).2)
      (hp : ∀ j, j ≠ i → (w.pc j).inside = false) (hb : w.toBroker = [])
      (hw : w.toWorker = []) (hh : w.sends = l ++ [(i, r)])
      (hs : w.broker = stateAfter serve s (w.sends.map Prod.snd))
      (hr : ∀ i, w.results i = ownExchanges serve s l i)

variable {serve}

theorem inside_update {pc : Nat → Pc Req Resp} {i : Nat} {v : Pc Req Resp} {P : Nat → Prop}
    (hp : ∀ j, P j → (pc j).inside = false) (hv : v.inside = false) :
    ∀ j, P j → (update pc i v j).inside = false := by
  intro j hj
  by_cases h : j = i
  · subst h; rw [update_same]; exact hv
  · rw [update_other _ h]; exact hp j hj

theorem inv_step {s : σ} {w w' : World σ Req Resp} (h : Inv serve s w) (hs : World.Step serve w w') :
    Inv serve s w' := by
  cases hs with
  | trap i r hpc =>
    have hne : ∀ {k : Nat}, w.pc k ≠ .idle → k ≠ i := by rintro k hk rfl; exact hk hpc
    cases h with
    | free hl hp hb hw hs hr =>
      exact .free hl (fun j => inside_update (P := fun _ => True) (fun j _ => hp j) rfl j trivial) hb hw hs hr
    | locked k r' hl hi hp hb hw hs hr =>
      exact .locked k r' hl (by simp only; rw [update_other _ (hne (by rw [hi]; simp)), hi])
        (inside_update hp rfl) hb hw hs hr
    | asked k r' l hl hi hp hb hw hh hs hr =>
      exact .asked k r' l hl (by simp only; rw [update_other _ (hne (by rw [hi]; simp)), hi])
        (inside_update hp rfl) hb hw hh hs hr
    | answered k r' l hl hi hp hb hw hh hs hr =>
      exact .answered k r' l hl (by simp only; rw [update_other _ (hne (by rw [hi]; simp)), hi])
        (inside_update hp rfl) hb hw hh hs hr
    | received k r' l hl hi hp hb hw hh hs hr =>
      exact .received k r' l hl (by simp only; rw [update_other _ (hne (by rw [hi]; simp)), hi])
        (inside_update hp rfl) hb hw hh hs hr
  | acquire i r hpc hlk =>
    cases h with
    | free hl hp hb hw hs hr =>
      refine .locked i r rfl (update_same ..) ?_ hb hw hs hr
      intro j hj
      simp only
      rw [update_other _ hj]; exact hp j
    | locked k r' hl => rw [hl] at hlk; cases hlk
    | asked k r' l hl => rw [hl] at hlk; cases hlk
    | answered k r' l hl => rw [hl] at hlk; cases hlk
    | received k r' l hl => rw [hl] at hlk; cases hlk
  | send i r hpc =>
    have hin : (w.pc i).inside = true := by rw [hpc]; rfl
    cases h with
    | free hl hp => rw [hp i] at hin; cases hin
    | locked k r' hl hi hp hb hw hs hr =>
      have : i = k := by
        refine Classical.byContradiction fun hne => ?_
        rw [hp i hne] at hin; cases hin
      subst this
      refine .asked i r w.sends hl (update_same ..) ?_ (by simp only; rw [hb]; rfl) hw rfl hs hr
      intro j hj
      simp only
      rw [update_other _ hj]; exact hp j hj
    | asked k r' l hl hi hp =>
      have : i = k := by
        refine Classical.byContradiction fun hne => ?_
        rw [hp i hne] at hin; cases hin
      subst this; rw [hi] at hpc; cases hpc
    | answered k r' l hl hi hp =>
      have : i = k := by
        refine Classical.byContradiction fun hne => ?_
        rw [hp i hne] at hin; cases hin
      subst this; rw [hi] at hpc; cases hpc
    | received k r' l hl hi hp =>
      have : i = k := by
        refine Classical.byContradiction fun hne => ?_
        rw [hp i hne] at hin; cases hin
      subst this; rw [hi] at hpc; cases hpc
  | serve r rest hq =>
    cases h with
    | free hl hp hb => rw [hb] at hq; cases hq
    | locked k r' hl hi hp hb => rw [hb] at hq; cases hq
    | asked k r' l hl hi hp hb hw hh hs hr =>
      rw [hb] at hq
      cases hq
      refine .answered k r l hl hi hp rfl (by simp only; rw [hw, hs]; rfl) hh ?_ hr
      simp only
      rw [hh, hs, List.map_append, stateAfter_append]
      rfl
    | answered k r' l hl hi hp hb => rw [hb] at hq; cases hq
    | received k r' l hl hi hp hb => rw [hb] at hq; cases hq
  | recv i r a rest hpc hq =>
    have hin : (w.pc i).inside = true := by rw [hpc]; rfl
    cases h with
    | free hl hp => rw [hp i] at hin; cases hin
    | locked k r' hl hi hp hb hw => rw [hw] at hq; cases hq
    | asked k r' l hl hi hp hb hw => rw [hw] at hq; cases hq
    | answered k r' l hl hi hp hb hw hh hs hr =>
      have : i = k := by
        refine Classical.byContradiction fun hne => ?_
        rw [hp i hne] at hin; cases hin
      subst this
      rw [hi] at hpc
      cases hpc
      rw [hw] at hq
      cases hq
      refine .received i r l hl (update_same ..) ?_ hb rfl hh hs hr
      intro j hj
      simp only
      rw [update_other _ hj]; exact hp j hj
    | received k r' l hl hi hp hb hw => rw [hw] at hq; cases hq
  | release i r a hpc =>
    have hin : (w.pc i).inside = true := by rw [hpc]; rfl
    cases h with
    | free hl hp => rw [hp i] at hin; cases hin
    | locked k r' hl hi hp =>
      have : i = k := by
        refine Classical.byContradiction fun hne => ?_
        rw [hp i hne] at hin; cases hin
      subst this; rw [hi] at hpc; cases hpc
    | asked k r' l hl hi hp =>
      have : i = k := by
        refine Classical.byContradiction fun hne => ?_
        rw [hp i hne] at hin; cases hin
      subst this; rw [hi] at hpc; cases hpc
    | answered k r' l hl hi hp =>
      have : i = k := by
        refine Classical.byContradiction fun hne => ?_
        rw [hp i hne] at hin; cases hin
      subst this; rw [hi] at hpc; cases hpc
    | received k r' l hl hi hp hb hw hh hs hr =>
      have : i = k := by
        refine Classical.byContradiction fun hne => ?_
        rw [hp i hne] at hin; cases hin
      subst this
      rw [hi] at hpc
      cases hpc
      refine .free rfl ?_ hb hw hs ?_
      · intro j
        by_cases hj : j = i
        · subst hj; simp only; rw [update_same]; rfl
        · simp only; rw [update_other _ hj]; exact hp j hj
      · intro j
        simp only
        rw [hh, ownExchanges_snoc]
        by_cases hj : j = i
        · subst hj; rw [update_same, if_pos rfl, hr]
        · rw [update_other _ hj, if_neg (Ne.symm hj), List.append_nil, hr]

theorem inv_reachable {s : σ} {w : World σ Req Resp} (h : World.Reachable serve s w) : Inv serve s w := by
  induction h with
  | init => exact .free rfl (fun _ => rfl) rfl rfl rfl (fun _ => rfl)
  | step _ hs ih => exact inv_step ih hs

end Iris
