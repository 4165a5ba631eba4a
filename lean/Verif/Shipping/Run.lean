import Verif.Shipping.Spec
/-
C147: the loop of a queue master, `Run` of /repo/examples/sockshop/workflow/queuemaster/queuemaster.go lines 52-89, call by call, with what the
queue, the shipping service and the context do as inputs.

Simplifications: the log, the waiting between attempts (line 80) and the number of shipments received, which is only logged (lines 69-70), are
left out.
-/
namespace Verif.Shipping.Run
open Verif.Shipping (Str Shipment)

/-- What the surroundings do at a step of the loop; the loop looks at the part that it is waiting for. -/
structure Env where
  /-- the context is cancelled -/
  cancelled : Bool
  /-- what `Pop` returns: an error, nothing or a shipment -/
  pop : Except Unit (Option Shipment)
  /-- `UpdateStatus` returns no error -/
  update : Bool

/-- Where the loop is. -/
inductive At where
  /-- at the `select` (line 54) -/
  | top
  /-- in `q.q.Pop` (line 59) -/
  | popping
  /-- in `q.shipping.UpdateStatus` (line 74) -/
  | sending (s : Shipment)
  /-- `Run` has returned, with an error or without -/
  | returned (failed : Bool)

/-- The calls that have returned. -/
inductive Call where
  | popped (s : Shipment)
  | poppedNone
  | popFailed
  /-- `UpdateStatus(ctx, id, "shipped")`, without an error or with one -/
  | updated (id : Str) (ok : Bool)

structure State where
  pc : At
  calls : List Call

def State.init : State := ⟨.top, []⟩

/-- One step of `Run` (lines 52-89); `exit` is `exitOnError`. -/
def step (exit : Bool) (e : Env) (σ : State) : State := match σ.pc with
  | .top => if e.cancelled then { σ with pc := .returned false } else { σ with pc := .popping }
  | .popping => match e.pop with
    | .error () => ⟨if exit then .returned true else .top, σ.calls ++ [.popFailed]⟩
    | .ok none => ⟨.top, σ.calls ++ [.poppedNone]⟩
    | .ok (some s) => ⟨.sending s, σ.calls ++ [.popped s]⟩
  | .sending s =>
    if e.update then ⟨.top, σ.calls ++ [.updated s.id true]⟩
    else ⟨if exit then .returned true else .sending s, σ.calls ++ [.updated s.id false]⟩
  | .returned _ => σ

/-- The first `n` steps. -/
def exec (exit : Bool) (env : Nat → Env) : Nat → State
  | 0 => State.init
  | n + 1 => step exit (env n) (exec exit env n)

/-- A queue master as `NewQueueMaster` makes it (lines 30-32): `exitOnError` is false. -/
def run (env : Nat → Env) (n : Nat) : State := exec false env n

/-! ### The terms of the statements -/

/-- The shipments taken from the queue, in order. -/
def taken : List Call → List Str
  | [] => []
  | .popped s :: l => s.id :: taken l
  | _ :: l => taken l

/-- The shipments whose status was updated without an error, in order. -/
def done : List Call → List Str
  | [] => []
  | .updated i true :: l => i :: done l
  | _ :: l => done l

/-- All the shipments whose status it tried to update. -/
def tried : List Call → List Str
  | [] => []
  | .updated i _ :: l => i :: tried l
  | _ :: l => tried l

/-! ### Lemmas -/

private theorem taken_append (l l' : List Call) : taken (l ++ l') = taken l ++ taken l' := by
  induction l with
  | nil => rfl
  | cons c l ih => cases c <;> simp [taken, ih]

private theorem done_append (l l' : List Call) : done (l ++ l') = done l ++ done l' := by
  induction l with
  | nil => rfl
  | cons c l ih =>
    cases c with
    | updated i b => cases b <;> simp [done, ih]
    | _ => simp [done, ih]

private theorem tried_append (l l' : List Call) : tried (l ++ l') = tried l ++ tried l' := by
  induction l with
  | nil => rfl
  | cons c l ih => cases c <;> simp [tried, ih]

/-- The shipment in hand. -/
def At.hand : At → List Str
  | .sending s => [s.id]
  | _ => []

private structure Inv (σ : State) : Prop where
  order : taken σ.calls = done σ.calls ++ σ.pc.hand
  attempts : ∀ i ∈ tried σ.calls, i ∈ taken σ.calls
  clean : σ.pc ≠ .returned true

private theorem step_inv (e : Env) {σ : State} (h : Inv σ) : Inv (step false e σ) := by
  obtain ⟨pc, calls⟩ := σ
  obtain ⟨h1, h2, h3⟩ := h
  simp only at h1 h2 h3
  cases pc with
  | top =>
    simp only [step]
    split
    · exact ⟨h1, h2, by simp⟩
    · exact ⟨h1, h2, by simp⟩
  | popping =>
    simp only [step]
    cases hp : e.pop with
    | error u =>
      refine ⟨?_, ?_, by simp⟩
      · simpa [taken_append, done_append, taken, done, At.hand] using h1
      · simpa [taken_append, tried_append, taken, tried] using h2
    | ok o =>
      cases o with
      | none =>
        refine ⟨?_, ?_, by simp⟩
        · simpa [taken_append, done_append, taken, done, At.hand] using h1
        · simpa [taken_append, tried_append, taken, tried] using h2
      | some s =>
        refine ⟨?_, ?_, by simp⟩
        · simpa [taken_append, done_append, taken, done, At.hand] using h1
        · intro i hi
          simp only [tried_append, tried, List.append_nil] at hi
          simp only [taken_append, List.mem_append]
          exact .inl (h2 i hi)
  | sending s =>
    simp only [step]
    have hs : s.id ∈ taken calls := by rw [h1]; simp [At.hand]
    split
    · refine ⟨?_, ?_, by simp⟩
      · simpa [taken_append, done_append, taken, done, At.hand] using h1
      · intro i hi
        simp only [tried_append, tried, List.mem_append, List.mem_singleton] at hi
        simp only [taken_append, taken, List.append_nil]
        rcases hi with hi | rfl
        · exact h2 i hi
        · exact hs
    · refine ⟨?_, ?_, by simp⟩
      · simpa [taken_append, done_append, taken, done, At.hand] using h1
      · intro i hi
        simp only [tried_append, tried, List.mem_append, List.mem_singleton] at hi
        simp only [taken_append, taken, List.append_nil]
        rcases hi with hi | rfl
        · exact h2 i hi
        · exact hs
  | returned b => exact ⟨h1, h2, h3⟩

private theorem inv (env : Nat → Env) (n : Nat) : Inv (run env n) := by
  induction n with
  | zero => exact ⟨rfl, by simp [run, exec, State.init, tried], by simp [run, exec, State.init]⟩
  | succ n ih => exact step_inv _ ih

/-! ### The theorems -/

/-- C147: whatever the queue and the shipping service return, the shipments that a queue master takes are marked as shipped one after the other,
in the order in which it takes them and each without an error once; at most the last one is not yet.  It tries this only with shipments that it
has taken. -/
theorem C147_order (env : Nat → Env) (n : Nat) : ∃ rest, taken (run env n).calls = done (run env n).calls ++ rest ∧ rest.length ≤ 1 ∧
    (∀ b, (run env n).pc = .returned b → rest = []) ∧ ∀ i ∈ tried (run env n).calls, i ∈ taken (run env n).calls := by
  obtain ⟨h1, h2, -⟩ := inv env n
  refine ⟨_, h1, ?_, ?_, h2⟩
  · cases (run env n).pc <;> simp [At.hand]
  · intro b hb
    rw [hb]
    rfl

/-- C147: errors do not make a queue master return: it returns only after the context was cancelled, and without an error. -/
theorem C147_returns (env : Nat → Env) (n : Nat) (b : Bool) (h : (run env n).pc = .returned b) :
    b = false ∧ ∃ i, i < n ∧ (env i).cancelled = true := by
  refine ⟨?_, ?_⟩
  · cases b with
    | false => rfl
    | true => exact absurd h (inv env n).clean
  · induction n with
    | zero => cases h
    | succ n ih =>
      have hs : run env (n + 1) = step false (env n) (run env n) := rfl
      rw [hs] at h
      cases hc : (run env n).pc with
      | returned b' =>
        have hb : b' = b := by
          simp only [step, hc] at h
          injection h
        obtain ⟨i, hi, hi'⟩ := ih (by rw [hc, hb])
        exact ⟨i, by omega, hi'⟩
      | top =>
        refine ⟨n, by omega, ?_⟩
        cases hx : (env n).cancelled with
        | true => rfl
        | false => simp [step, hc, hx] at h
      | popping =>
        simp only [step, hc] at h
        cases hp : (env n).pop with
        | error u => simp [hp] at h
        | ok o => cases o <;> simp [hp] at h
      | sending s =>
        simp only [step, hc] at h
        split at h <;> simp at h

private theorem stays (env : Nat → Env) (m : Nat) (b : Bool) (h : (run env m).pc = .returned b) (n : Nat) : run env (m + n) = run env m := by
  induction n with
  | zero => rfl
  | succ n ih =>
    have hs : run env (m + (n + 1)) = step false (env (m + n)) (run env (m + n)) := rfl
    rw [hs, ih]
    simp only [step, h]

/-- C147: once the context is cancelled, and if the shipping service works, a queue master returns within three steps.  It may take one more
shipment, if it was waiting for one. -/
theorem C147_stops_partial (env : Nat → Env) (m : Nat) (hc : ∀ i, m ≤ i → (env i).cancelled = true) (hu : ∀ i, m ≤ i → (env i).update = true)
    (n : Nat) (hn : m + 3 ≤ n) : (run env n).pc = .returned false ∧
      (taken (run env n).calls).length ≤ (taken (run env m).calls).length + 1 := by
  have one : ∀ k, run env (k + 1) = step false (env k) (run env k) := fun _ => rfl
  have top : ∀ k, m ≤ k → (run env k).pc = .top → run env (k + 1) = ⟨.returned false, (run env k).calls⟩ := by
    intro k hk h
    rw [one]
    simp [step, h, hc k hk]
  have send : ∀ k s, m ≤ k → (run env k).pc = .sending s →
      (run env (k + 1)).pc = .top ∧ taken (run env (k + 1)).calls = taken (run env k).calls := by
    intro k s hk h
    rw [one]
    simp [step, h, hu k hk, taken_append, taken]
  have fin : ∀ k, m ≤ k → k ≤ m + 3 → (∃ b, (run env k).pc = .returned b) →
      (taken (run env k).calls).length ≤ (taken (run env m).calls).length + 1 →
      (run env n).pc = .returned false ∧ (taken (run env n).calls).length ≤ (taken (run env m).calls).length + 1 := by
    intro k hk hk' ⟨b, hb⟩ hl
    have e := stays env k b hb (n - k)
    rw [show k + (n - k) = n by omega] at e
    have := (C147_returns env k b hb).1
    subst this
    rw [e]
    exact ⟨hb, hl⟩
  have fromTop : ∀ k, m ≤ k → k + 1 ≤ m + 3 → (run env k).pc = .top →
      (taken (run env k).calls).length ≤ (taken (run env m).calls).length + 1 →
      (run env n).pc = .returned false ∧ (taken (run env n).calls).length ≤ (taken (run env m).calls).length + 1 := by
    intro k hk hk' h hl
    have e := top k hk h
    exact fin (k + 1) (by omega) hk' ⟨false, by rw [e]⟩ (by rw [e]; exact hl)
  cases h0 : (run env m).pc with
  | returned b => exact fin m (Nat.le_refl _) (by omega) ⟨b, h0⟩ (by omega)
  | top => exact fromTop m (Nat.le_refl _) (by omega) h0 (by omega)
  | sending s =>
    obtain ⟨h1, h2⟩ := send m s (Nat.le_refl _) h0
    exact fromTop (m + 1) (by omega) (by omega) h1 (by rw [h2]; omega)
  | popping =>
    have e := one m
    cases hp : (env m).pop with
    | error u =>
      have e : run env (m + 1) = ⟨.top, (run env m).calls ++ [.popFailed]⟩ := by rw [e]; simp [step, h0, hp]
      exact fromTop (m + 1) (by omega) (by omega) (by rw [e]) (by rw [e]; simp [taken_append, taken])
    | ok o =>
      cases o with
      | none =>
        have e : run env (m + 1) = ⟨.top, (run env m).calls ++ [.poppedNone]⟩ := by rw [e]; simp [step, h0, hp]
        exact fromTop (m + 1) (by omega) (by omega) (by rw [e]) (by rw [e]; simp [taken_append, taken])
      | some s =>
        have e : run env (m + 1) = ⟨.sending s, (run env m).calls ++ [.popped s]⟩ := by rw [e]; simp [step, h0, hp]
        obtain ⟨h1, h2⟩ := send (m + 1) s (by omega) (by rw [e])
        exact fromTop (m + 2) (by omega) (by omega) h1 (by rw [h2, e]; simp [taken_append, taken])

private theorem step_prefix (e : Env) (σ : State) : ∃ l, (step false e σ).calls = σ.calls ++ l := by
  unfold step
  cases σ.pc with
  | top => exact ⟨[], by simp only; split <;> simp⟩
  | popping =>
    cases e.pop with
    | error u => exact ⟨_, rfl⟩
    | ok o => cases o <;> exact ⟨_, rfl⟩
  | sending s => simp only; split <;> exact ⟨_, rfl⟩
  | returned b => exact ⟨[], by simp⟩

private theorem done_mono (env : Nat → Env) (i : Str) (m k : Nat) (h : i ∈ done (run env m).calls) : i ∈ done (run env (m + k)).calls := by
  induction k with
  | zero => exact h
  | succ k ih =>
    obtain ⟨l, hl⟩ := step_prefix (env (m + k)) (run env (m + k))
    show i ∈ done (step false (env (m + k)) (run env (m + k))).calls
    rw [hl, done_append]
    exact List.mem_append_left _ ih

/-- C147: the attempts go on until one works, whatever fails before: as soon as the shipping service works at some later step, the shipment in
hand has been marked as shipped, whether or not the context is cancelled. -/
theorem C147_retries (env : Nat → Env) (m : Nat) (s : Shipment) (hs : (run env m).pc = .sending s) (i : Nat) (hi : m ≤ i)
    (hu : (env i).update = true) : s.id ∈ done (run env (i + 1)).calls := by
  obtain ⟨k, rfl⟩ := Nat.le.dest hi
  clear hi
  have now : ∀ j, (run env j).pc = .sending s → (env j).update = true → s.id ∈ done (run env (j + 1)).calls := by
    intro j hj hj'
    show s.id ∈ done (step false (env j) (run env j)).calls
    simp [step, hj, hj', done_append, done]
  have either : ∀ k, (run env (m + k)).pc = .sending s ∨ s.id ∈ done (run env (m + k)).calls := by
    intro k
    induction k with
    | zero => exact .inl hs
    | succ k ih =>
      rcases ih with ih | ih
      · cases hx : (env (m + k)).update with
        | true => exact .inr (now _ ih hx)
        | false =>
          refine .inl ?_
          show (step false (env (m + k)) (run env (m + k))).pc = _
          simp [step, ih, hx]
      · exact .inr (done_mono env _ (m + k) 1 ih)
  rcases either k with h | h
  · exact now _ h hu
  · exact done_mono env _ (m + k) 1 h

/-- C147 refuted: the attempts to update the status do not look at the context.  If the context is cancelled while a shipment is in hand and the
shipping service fails from then on, for instance because the context of its calls is cancelled, `Run` never returns. -/
theorem C147_never_refuted (env : Nat → Env) (m : Nat) (s : Shipment) (hs : (run env m).pc = .sending s)
    (hu : ∀ i, m ≤ i → (env i).update = false) (n : Nat) (hn : m ≤ n) : (run env n).pc = .sending s := by
  obtain ⟨k, rfl⟩ := Nat.le.dest hn
  clear hn
  induction k with
  | zero => exact hs
  | succ k ih =>
    show (step false (env (m + k)) (run env (m + k))).pc = _
    simp [step, ih, hu (m + k) (by omega)]

end Verif.Shipping.Run
