import Verif.Spec.WinThreads
import Verif.Props.Threads
namespace Iris
open Spec

variable {σ Req Resp : Type} {serve : σ → Req → σ × Resp} {log : Logger Req Resp}

/-- The same call in the model without loggers. -/
def CallFrame.erase : CallFrame Req Resp → Pc Req Resp
  | .waiting r => .waiting r
  | .before r => .locked r
  | .locked r => .locked r
  | .sent r => .sent r
  | .after r a => .received r a
  | .received r a => .received r a

def eraseStack : List (CallFrame Req Resp) → Pc Req Resp
  | [] => .idle
  | [f] => f.erase
  | _ :: f :: _ => f.erase

def LWorld.erase (w : LWorld σ Req Resp) : World σ Req Resp :=
  ⟨fun i => eraseStack (w.stack i), w.lock, w.toBroker, w.toWorker, w.broker, w.sends, w.results⟩

/-- At most one call inside another, and then the outer one has the lock. -/
inductive Shape (w : LWorld σ Req Resp) (i : Nat) : Prop
  | idle (h : w.stack i = [])
  | one (f : CallFrame Req Resp) (h : w.stack i = [f])
  | two (q : Req) (f : CallFrame Req Resp) (h : w.stack i = [.waiting q, f]) (hf : f.erase.inside = true) (hl : w.lock = some i)

theorem erase_update (stack : Nat → List (CallFrame Req Resp)) (i : Nat) (fs : List (CallFrame Req Resp)) :
    (fun j => eraseStack (update stack i fs j)) = update (fun j => eraseStack (stack j)) i (eraseStack fs) := by
  funext j
  by_cases h : j = i
  · subst h; rw [update_same, update_same]
  · rw [update_other _ h, update_other _ h]

theorem update_id {α : Type} (f : Nat → α) (i : Nat) (v : α) (h : f i = v) : update f i v = f := by
  funext j
  by_cases hj : j = i
  · subst hj; rw [update_same, h]
  · rw [update_other _ hj]

/-- The holder of the lock. -/
theorem inside_lock {s : σ} {w : World σ Req Resp} (h : World.Reachable serve s w) (i : Nat)
    (hi : (w.pc i).inside = true) : w.lock = some i := by
  have key : ∀ k, w.lock = some k → (∀ j, j ≠ k → (w.pc j).inside = false) → w.lock = some i := by
    intro k hk hp
    by_cases hik : i = k
    · rw [hik]; exact hk
    · rw [hp i hik] at hi; cases hi
  cases inv_reachable h with
  | free hl hp hb hw hs hr => rw [hp i] at hi; cases hi
  | locked k r hl hk hp => exact key k hl hp
  | asked k r l hl hk hp => exact key k hl hp
  | answered k r l hl hk hp => exact key k hl hp
  | received k r l hl hk hp => exact key k hl hp

theorem Shape.update_of {w : LWorld σ Req Resp} (i : Nat) (w' : LWorld σ Req Resp)
    (hs : ∀ j, Shape w j) (hst : ∀ j, j ≠ i → w'.stack j = w.stack j)
    (hl : ∀ j, j ≠ i → w.lock = some j → w'.lock = some j) (hi : Shape w' i) : ∀ j, Shape w' j := by
  intro j
  by_cases h : j = i
  · subst h; exact hi
  · cases hs j with
    | idle h1 => exact .idle (by rw [hst j h]; exact h1)
    | one f h1 => exact .one f (by rw [hst j h]; exact h1)
    | two q f h1 h2 h3 => exact .two q f (by rw [hst j h]; exact h1) h2 (hl j h h3)

/-- The shape of a thread that can take a step with a call `f` that is not waiting. -/
theorem Shape.single {w : LWorld σ Req Resp} {i : Nat} (h : Shape w i) {f : CallFrame Req Resp} {fs}
    (hf : w.stack i = f :: fs) (hn : ∀ q, f ≠ .waiting q) : fs = [] := by
  cases h with
  | idle h1 => rw [h1] at hf; cases hf
  | one g h1 => rw [h1] at hf; simp only [List.cons.injEq] at hf; exact hf.2.symm
  | two q g h1 => rw [h1] at hf; simp only [List.cons.injEq] at hf; exact absurd hf.1.symm (hn q)

theorem Shape.waits {w : LWorld σ Req Resp} {i : Nat} (h : Shape w i) {r : Req} {fs}
    (hf : w.stack i = .waiting r :: fs) (hl : w.lock = none) : fs = [] := by
  cases h with
  | idle h1 => rw [h1] at hf; cases hf
  | one g h1 => rw [h1] at hf; simp only [List.cons.injEq] at hf; exact hf.2.symm
  | two q g h1 h2 h3 => rw [hl] at h3; cases h3

theorem eraseStack_logged (q : Option Req) (f : CallFrame Req Resp) : eraseStack (logged q f []) = f.erase := by
  cases q <;> rfl

theorem sim {s : σ} {w : LWorld σ Req Resp} (h : LWorld.Reachable serve log s w) :
    World.Reachable serve s w.erase ∧ ∀ i, Shape w i := by
  induction h with
  | init => exact ⟨.init, fun i => .idle rfl⟩
  | @step w w' _ hs ih =>
    obtain ⟨hr, hsh⟩ := ih
    cases hs with
    | call i r h =>
      refine ⟨?_, Shape.update_of i _ hsh (fun j hj => update_other _ hj _) (fun j _ hl => hl)
        (.one (.waiting r) (update_same _ _ _))⟩
      have hp : w.erase.pc i = .idle := by simp only [LWorld.erase, h, eraseStack]
      have := hr.step (.trap _ i r hp)
      simp only [LWorld.erase, erase_update]; exact this
    | acquire i r fs h hl =>
      obtain rfl := (hsh i).waits h hl
      refine ⟨?_, Shape.update_of i _ hsh (fun j hj => update_other _ hj _)
        (fun j _ hj => by rw [hl] at hj; cases hj) (.one (.before r) (update_same _ _ _))⟩
      have hp : w.erase.pc i = .waiting r := by simp only [LWorld.erase, h, eraseStack, CallFrame.erase]
      have := hr.step (.acquire _ i r hp hl)
      simp only [LWorld.erase, erase_update]; exact this
    | logSend i r fs h =>
      obtain rfl := (hsh i).single h (by simp)
      have hp : w.erase.pc i = .locked r := by simp only [LWorld.erase, h, eraseStack, CallFrame.erase]
      refine ⟨?_, Shape.update_of i _ hsh (fun j hj => update_other _ hj _) (fun j _ hl => hl) ?_⟩
      · have he : LWorld.erase { w with stack := update w.stack i (logged (log.onSend r) (.locked r) []) } = w.erase := by
          simp only [LWorld.erase, erase_update, eraseStack_logged, CallFrame.erase]
          rw [update_id (fun j => eraseStack (w.stack j)) _ _ hp]
        rw [he]; exact hr
      · have hlk := inside_lock hr i (by rw [hp]; rfl)
        cases hq : log.onSend r with
        | none => exact .one (.locked r) (by simp only [update_same, logged])
        | some q => exact .two q (.locked r) (by simp only [update_same, logged]) rfl hlk
    | send i r fs h =>
      obtain rfl := (hsh i).single h (by simp)
      have hp : w.erase.pc i = .locked r := by simp only [LWorld.erase, h, eraseStack, CallFrame.erase]
      refine ⟨?_, Shape.update_of i _ hsh (fun j hj => update_other _ hj _) (fun j _ hl => hl)
        (.one (.sent r) (update_same _ _ _))⟩
      have := hr.step (.send _ i r hp)
      simp only [LWorld.erase, erase_update]; exact this
    | serve r rest h =>
      refine ⟨hr.step (.serve _ r rest h), fun i => ?_⟩
      cases hsh i with
      | idle h1 => exact .idle h1
      | one f h1 => exact .one f h1
      | two q f h1 h2 h3 => exact .two q f h1 h2 h3
    | recv i r a fs rest h hq =>
      obtain rfl := (hsh i).single h (by simp)
      have hp : w.erase.pc i = .sent r := by simp only [LWorld.erase, h, eraseStack, CallFrame.erase]
      refine ⟨?_, Shape.update_of i _ hsh (fun j hj => update_other _ hj _) (fun j _ hl => hl)
        (.one (.after r a) (update_same _ _ _))⟩
      have := hr.step (.recv _ i r a rest hp hq)
      simp only [LWorld.erase, erase_update]; exact this
    | logRecv i r a fs h =>
      obtain rfl := (hsh i).single h (by simp)
      have hp : w.erase.pc i = .received r a := by simp only [LWorld.erase, h, eraseStack, CallFrame.erase]
      refine ⟨?_, Shape.update_of i _ hsh (fun j hj => update_other _ hj _) (fun j _ hl => hl) ?_⟩
      · have he : LWorld.erase { w with stack := update w.stack i (logged (log.onRecv a) (.received r a) []) } = w.erase := by
          simp only [LWorld.erase, erase_update, eraseStack_logged, CallFrame.erase]
          rw [update_id (fun j => eraseStack (w.stack j)) _ _ hp]
        rw [he]; exact hr
      · have hlk := inside_lock hr i (by rw [hp]; rfl)
        cases hq : log.onRecv a with
        | none => exact .one (.received r a) (by simp only [update_same, logged])
        | some q => exact .two q (.received r a) (by simp only [update_same, logged]) rfl hlk
    | release i r a fs h =>
      obtain rfl := (hsh i).single h (by simp)
      have hp : w.erase.pc i = .received r a := by simp only [LWorld.erase, h, eraseStack, CallFrame.erase]
      have hlk := inside_lock hr i (by rw [hp]; rfl)
      refine ⟨?_, Shape.update_of i _ hsh (fun j hj => update_other _ hj _)
        (fun j hj hl => ?_) (.idle (update_same _ _ _))⟩
      · have := hr.step (.release _ i r a hp)
        simp only [LWorld.erase, erase_update]; exact this
      · have hlk' : w.lock = some i := hlk
        rw [hlk'] at hl
        exact absurd (Option.some.inj hl).symm hj

theorem inCall_iff (w : LWorld σ Req Resp) (i : Nat) : InCall w i ↔ Busy w.erase i := by
  simp only [InCall, Busy, LWorld.erase]
  match h : w.stack i with
  | [] => simp [eraseStack]
  | [f] => cases f <;> simp [eraseStack, CallFrame.erase]
  | g :: f :: _ => cases f <;> simp [eraseStack, CallFrame.erase]

/-- With a quiet logger no call is inside another. -/
theorem quiet_single {s : σ} (hq : MakesNoCalls log) {w : LWorld σ Req Resp} (h : LWorld.Reachable serve log s w) :
    ∀ i, w.stack i = [] ∨ ∃ f, w.stack i = [f] := by
  induction h with
  | init => exact fun i => .inl rfl
  | @step w w' _ hs ih =>
    have keep : ∀ (i : Nat) (fs : List (CallFrame Req Resp)), (fs = [] ∨ ∃ f, fs = [f]) →
        ∀ j, update w.stack i fs j = [] ∨ ∃ f, update w.stack i fs j = [f] := by
      intro i fs hf j
      by_cases hj : j = i
      · subst hj; rw [update_same]; exact hf
      · rw [update_other _ hj]; exact ih j
    have tail : ∀ {i : Nat} {f : CallFrame Req Resp} {fs}, w.stack i = f :: fs → fs = [] := by
      intro i f fs h
      rcases ih i with h1 | ⟨g, h1⟩ <;> rw [h1] at h
      · cases h
      · simp only [List.cons.injEq] at h; exact h.2.symm
    cases hs with
    | call i r h => exact keep i _ (.inr ⟨_, rfl⟩)
    | acquire i r fs h hl => obtain rfl := tail h; exact keep i _ (.inr ⟨_, rfl⟩)
    | logSend i r fs h => obtain rfl := tail h; rw [hq.1]; exact keep i _ (.inr ⟨_, rfl⟩)
    | send i r fs h => obtain rfl := tail h; exact keep i _ (.inr ⟨_, rfl⟩)
    | serve r rest h => exact ih
    | recv i r a fs rest h _ => obtain rfl := tail h; exact keep i _ (.inr ⟨_, rfl⟩)
    | logRecv i r a fs h => obtain rfl := tail h; rw [hq.2]; exact keep i _ (.inr ⟨_, rfl⟩)
    | release i r a fs h => obtain rfl := tail h; exact keep i _ (.inl rfl)

/-- Steps a thread can still take in its calls. -/
def frameRank : CallFrame Req Resp → Nat
  | .waiting _ => 7
  | .before _ => 6
  | .locked _ => 5
  | .sent _ => 3
  | .after _ _ => 2
  | .received _ _ => 1

def stackRank (fs : List (CallFrame Req Resp)) : Nat := (fs.map frameRank).sum

def stackLoad (stack : Nat → List (CallFrame Req Resp)) : Nat → Nat
  | 0 => 0
  | n + 1 => stackLoad stack n + stackRank (stack n)

theorem stackLoad_update (stack : Nat → List (CallFrame Req Resp)) (i : Nat) (v : List (CallFrame Req Resp)) :
    ∀ n, stackLoad (update stack i v) n + (if i < n then stackRank (stack i) else 0) =
      stackLoad stack n + (if i < n then stackRank v else 0) := by
  intro n
  induction n with
  | zero => simp [stackLoad]
  | succ n ih =>
    simp only [stackLoad]
    by_cases h : i = n
    · subst h
      rw [if_neg (Nat.lt_irrefl i), if_neg (Nat.lt_irrefl i)] at ih
      rw [if_pos (Nat.lt_succ_self i), if_pos (Nat.lt_succ_self i), update_same]
      omega
    · rw [update_other _ (Ne.symm h)]
      by_cases h2 : i < n
      · rw [if_pos h2, if_pos h2] at ih
        rw [if_pos (by omega), if_pos (by omega)]
        omega
      · rw [if_neg h2, if_neg h2] at ih
        rw [if_neg (by omega), if_neg (by omega)]
        omega

theorem stackLoad_le (stack : Nat → List (CallFrame Req Resp)) (h : ∀ i, stack i = [] ∨ ∃ f, stack i = [f]) (n : Nat) :
    stackLoad stack n ≤ 7 * n := by
  induction n with
  | zero => simp [stackLoad]
  | succ n ih =>
    have : stackRank (stack n) ≤ 7 := by
      rcases h n with h | ⟨f, h⟩ <;> rw [h]
      · simp [stackRank]
      · cases f <;> simp [stackRank, frameRank]
    simp only [stackLoad]; omega

/-! ## The broker -/

theorem servedInTurn_append (debug : Bool) (p : Policy) (os : Nat → WinChoice) (l l' : List WinIPCRequest) :
    ∀ (b : WinBroker) (k : Nat), servedInTurn debug p os b k (l ++ l') =
      servedInTurn debug p os (servedInTurn debug p os b k l) (k + l.length) l' := by
  induction l with
  | nil => intro b k; simp [servedInTurn]
  | cons r l ih =>
    intro b k
    simp only [List.cons_append, servedInTurn, ih, List.length_cons]
    rw [show k + 1 + l.length = k + (l.length + 1) by omega]

theorem replies_in_turn (debug : Bool) (p : Policy) (os : Nat → WinChoice) (l : List WinIPCRequest) :
    ∀ (b : WinBroker) (k n : Nat) (r : WinIPCRequest) (a : WinIncoming), l[n]? = some r →
      (repliesTo (winThreadServe debug p os) (b, k) l)[n]? = some a →
      a = (winBrokered debug p (servedInTurn debug p os b k (l.take n)) (os (k + n)) r).incoming := by
  induction l with
  | nil => intro b k n r a h; cases n <;> simp at h
  | cons q l ih =>
    intro b k n r a h1 h2
    cases n with
    | zero =>
      simp only [List.getElem?_cons_zero, Option.some.injEq, repliesTo] at h1 h2
      subst h1 h2
      simp only [winThreadServe, List.take_zero, servedInTurn, winBrokered, Nat.add_zero]
    | succ n =>
      simp only [List.getElem?_cons_succ, repliesTo] at h1 h2
      have := ih (winAfter debug p b (os k) q) (k + 1) n r a h1 h2
      rw [this, List.take_succ_cons, servedInTurn, show k + 1 + n = k + (n + 1) by omega]

/-! ## A hook depends on the answer to its request only -/

theorem finishFile_sent (r : WinIPCRequest) (io : WinIo) : (finishFile r io).sent = some r := by
  unfold finishFile
  split <;> rfl

theorem createFile_congr (a : CreateFileArgs) (io io' : WinIPCRequest → WinIo) (r : WinIPCRequest)
    (hs : (hookNtCreateFile a io).sent = some r) (he : io r = io' r) : hookNtCreateFile a io = hookNtCreateFile a io' := by
  unfold hookNtCreateFile at hs ⊢
  split at hs
  · split at hs
    · simp at hs
    · rename_i hc
      simp only [if_neg hc]
      split at hs
      · simp at hs
      · split at hs
        · simp at hs
        · simp only [finishFile_sent, Option.some.injEq] at hs
          rw [hs, he]
  · simp at hs

theorem openFile_congr (a : OpenFileArgs) (io io' : WinIPCRequest → WinIo) (r : WinIPCRequest)
    (hs : (hookNtOpenFile a io).sent = some r) (he : io r = io' r) : hookNtOpenFile a io = hookNtOpenFile a io' := by
  unfold hookNtOpenFile at hs ⊢
  split at hs
  · split at hs
    · simp at hs
    · rename_i hc
      simp only [if_neg hc]
      split at hs
      · simp at hs
      · split at hs
        · simp at hs
        · simp only [finishFile_sent, Option.some.injEq] at hs
          rw [hs, he]
  · simp at hs

theorem createKey_congr (a : CreateKeyArgs) (io io' : WinIPCRequest → WinIo) (r : WinIPCRequest)
    (hs : (hookNtCreateKey a io).sent = some r) (he : io r = io' r) : hookNtCreateKey a io = hookNtCreateKey a io' := by
  unfold hookNtCreateKey at hs ⊢
  split at hs
  · simp only at hs ⊢
    split at hs
    · simp at hs
    · rename_i hc
      simp only [if_neg hc]
      split at hs
      · simp at hs
      · split at hs
        · rename_i units cls _ _
          have hq : WinIPCRequest.ntCreateKey a.access (fromUtf16Lossy units) a.titleIndex (cls.map fromUtf16Lossy)
              a.options true = r := by
            split at hs <;> simpa using hs
          simp only [hq, he]
        · simp at hs
  · simp at hs

end Iris
