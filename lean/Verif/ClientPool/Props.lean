import Verif.ClientPool.Lemmas
/-
C05 and C06: the client pool.  `acts` is an arbitrary schedule of any number of concurrent Pop and Push
calls, cancellations and build outcomes, in which Push is only called with a client obtained from Pop.
-/
namespace Verif.ClientPool

/-- C05, capacity: never more clients are built than the capacity (and all of them are different). -/
theorem C05_capacity (cap : Nat) (acts : List Act) (s : State) (h : exec (init cap) acts = some s) :
    (built s.log).length ≤ cap ∧ (built s.log).Nodup := by
  have hi := inv_exec acts (inv_init cap) h
  have hc : s.cap = cap := cap_exec acts h
  have := hi.size
  have := hi.le
  rw [hi.built]
  refine ⟨?_, List.nodup_range⟩
  simp; omega

/-- C05, exclusivity: at every moment each client has been handed out at most once more than it was given
back, and only clients that were built are handed out: no two callers hold the same client. -/
theorem C05_exclusive (cap : Nat) (acts : List Act) (s : State) (h : exec (init cap) acts = some s)
    (c : Nat) :
    givenBack s.log c ≤ handedOut s.log c ∧ handedOut s.log c ≤ givenBack s.log c + 1 ∧
    (0 < handedOut s.log c → c ∈ built s.log) := by
  have hi := inv_exec acts (inv_init cap) h
  have h1 := hi.held c
  have h2 := hi.circ c
  simp only [circulating, List.count_append] at h2
  refine ⟨by omega, ?_, ?_⟩
  · split at h2 <;> omega
  · intro hpos
    rw [hi.built, List.mem_range]
    by_cases hb : c < s.nextClient
    · exact hb
    · exfalso
      have := handed_lt acts (s0 := init cap) (by intro c hc; simp [init, handedOut] at hc) (inv_init cap) h c hpos
      omega

/-- C05, Push does not block: whenever a Push is at its channel send, the send can be taken; and its
bookkeeping step before can always be taken. -/
theorem C05_push_never_blocks (cap : Nat) (acts : List Act) (s : State) (h : exec (init cap) acts = some s)
    (c : Nat) :
    (c ∈ s.returning → ∃ s', step s (.inc c) = some s') ∧
    (c ∈ s.sending → ∃ s', step s (.send c) = some s') := by
  have hi := inv_exec acts (inv_init cap) h
  refine ⟨fun hc => ⟨_, by simp only [step, hc, if_true]; rfl⟩, fun hc => ?_⟩
  have h1 := hi.len
  have h2 := hi.size
  have h3 := hi.le
  have hp := List.length_pos_of_mem hc
  simp only [circulating, List.length_append] at h1
  have hlt : s.clients.length < s.cap := by omega
  exact ⟨_, by simp only [step, hc, hlt]; rfl⟩

/-- C05, Available() never under-reports what is in the pool, and is exact when no call is in progress. -/
theorem C05_available (cap : Nat) (acts : List Act) (s : State) (h : exec (init cap) acts = some s) :
    (s.clients.length : Int) ≤ s.available ∧
    (s.sending = [] → s.took = [] → s.available = s.clients.length) := by
  have hi := inv_exec acts (inv_init cap) h
  have := hi.avail
  refine ⟨by omega, fun h1 h2 => ?_⟩
  simp [h1, h2] at this; exact this

private theorem quiescent_clients {cap acts} {s : State} (h : exec (init cap) acts = some s)
    (hq : Quiescent s) : s.clients.length = s.nextClient ∧ s.held = [] := by
  have hi := inv_exec acts (inv_init cap) h
  have hheld : s.held = [] := by
    cases hh : s.held with
    | nil => rfl
    | cons c l =>
      have h1 := hi.held c
      have h2 := hq.noneHeld c
      rw [hh] at h1
      simp at h1; omega
  have h1 := hi.len
  simp [circulating, hheld, hq.returning, hq.sending, hq.took] at h1
  exact ⟨h1, hheld⟩

/-- C06 without failing builds: if no build has failed so far, then whenever a Pop is waiting while nobody
holds a client and nothing else is in progress, that Pop can receive a client.
Missing from the full property: failing builds, for which it is false (`C06_stranded_waiter_refuted`). -/
theorem C06_waiter_served_partial (cap : Nat) (hcap : 0 < cap) (acts : List Act) (s : State)
    (h : exec (init cap) acts = some s) (hnofail : ∀ p, .buildFailed p ∉ s.log) (hq : Quiescent s)
    (p : Nat) (hp : p ∈ s.waiting) :
    ∃ s' c, step s (.recv p) = some s' ∧ s'.took = [(p, c)] := by
  have hi := inv_exec acts (inv_init cap) h
  have hc : s.cap = cap := cap_exec acts h
  have h1 := (hi.full hnofail).1 (List.ne_nil_of_mem hp)
  have h2 := hi.size
  have h3 := (quiescent_clients h hq).1
  simp [hq.building, hq.failing] at h2
  cases hb : s.clients with
  | nil => simp [hb] at h3; omega
  | cons c rest => exact ⟨_, c, by simp only [step, hb, hp, if_true]; rfl, by simp [hq.took]⟩

/-- C06, also with failing builds in the past: if at least one client is live, a waiting Pop can receive it
whenever nobody holds a client and nothing else is in progress. -/
theorem C06_waiter_served_if_any_client_partial (cap : Nat) (acts : List Act) (s : State)
    (h : exec (init cap) acts = some s) (hlive : built s.log ≠ []) (hq : Quiescent s)
    (p : Nat) (hp : p ∈ s.waiting) :
    ∃ s' c, step s (.recv p) = some s' ∧ s'.took = [(p, c)] := by
  have hi := inv_exec acts (inv_init cap) h
  have h3 := (quiescent_clients h hq).1
  rw [hi.built] at hlive
  have : s.nextClient ≠ 0 := by intro h0; simp [h0] at hlive
  cases hb : s.clients with
  | nil => simp [hb] at h3; omega
  | cons c rest => exact ⟨_, c, by simp only [step, hb, hp, if_true]; rfl, by simp [hq.took]⟩

/-- C06 refuted: with capacity 1, a caller that parks while another caller's build is in progress stays
parked when that build fails: nobody holds a client, nothing is in progress, the pool has room for a client,
and yet no step of the waiting call is possible (short of cancelling it). -/
theorem C06_stranded_waiter_refuted :
    ∃ acts s p, exec (init 1) acts = some s ∧ Quiescent s ∧ p ∈ s.waiting ∧ s.size = 0 ∧
      step s (.recv p) = none ∧ step s (.waitDone p) = none := by
  refine ⟨[.callPop, .tryMiss 0, .read 0, .cas 0 0, .callPop, .tryMiss 1, .read 1, .cas 1 1,
    .build 0 false, .fail 0], ?_⟩
  refine ⟨_, 1, by simp only [exec, step, init]; rfl, ?_, by decide, by decide, by decide, by decide⟩
  constructor <;> first | decide | (intro c; simp [handedOut, givenBack])

/-- C05, every Pop call returns at most once, and an error only if its context was cancelled or its own run of
the build function failed. -/
theorem C05_pop_returns (cap : Nat) (acts : List Act) (s : State) (h : exec (init cap) acts = some s) (p : Nat) :
    returned s.log p ≤ 1 ∧ (.popErr p ∈ s.log → .cancel p ∈ s.log ∨ .buildFailed p ∈ s.log) := by
  have hi := popInv_exec acts (popInv_init cap) h
  refine ⟨?_, hi.cause p⟩
  have := hi.once p
  split at this <;> omega

/-- C05, a Pop call with a cancelled context never blocks: where it waits for a client it can return with an
error. -/
theorem C05_cancelled_pop_returns (s : State) (p : Nat) (hc : s.cancelled p = true) :
    (p ∈ s.trying → ∃ s', step s (.tryDone p) = some s' ∧ s'.log = s.log ++ [.popErr p]) ∧
    (p ∈ s.waiting → ∃ s', step s (.waitDone p) = some s' ∧ s'.log = s.log ++ [.popErr p]) := by
  refine ⟨fun hp => ?_, fun hp => ?_⟩ <;> exact ⟨_, by simp only [step, hp, hc]; rfl, rfl⟩

/-! ### Concrete cases -/

/-- A cancelled Pop and one whose build failed. -/
example : ∃ s, exec (init 1) [.callPop, .tryMiss 0, .read 0, .cas 0 0, .callPop, .tryMiss 1, .read 1, .cas 1 1,
      .build 0 false, .fail 0, .cancel 1, .waitDone 1] = some s ∧ .popErr 0 ∈ s.log ∧ .popErr 1 ∈ s.log := by
  refine ⟨_, by simp only [exec, step, init]; rfl, by decide, by decide⟩


/-- Two callers share one client: the second waits and gets it after the first gives it back. -/
example : ∃ s, exec (init 1) [.callPop, .tryMiss 0, .read 0, .cas 0 0, .build 0 true, .callPop, .tryMiss 1,
      .read 1, .cas 1 1, .callPush 0, .inc 0, .send 0, .recv 1, .took 1 0] = some s ∧
    s.held = [0] ∧ built s.log = [0] ∧ handedOut s.log 0 = 2 ∧ givenBack s.log 0 = 1 := by
  simp [exec, step, init, built, handedOut, givenBack]

/-- The hypotheses of the C06 theorems are met after the client was given back. -/
example : ∃ s, exec (init 1) [.callPop, .tryMiss 0, .read 0, .cas 0 0, .build 0 true, .callPop, .tryMiss 1,
      .read 1, .cas 1 1, .callPush 0, .inc 0, .send 0] = some s ∧
    Quiescent s ∧ 1 ∈ s.waiting ∧ (∀ p, .buildFailed p ∉ s.log) ∧ built s.log ≠ [] := by
  refine ⟨_, by simp only [exec, step, init]; rfl, ?_, by decide, by simp, by decide⟩
  constructor <;> first | decide | skip
  intro c; by_cases hc : 0 = c <;> simp [handedOut, givenBack, hc]

/-- Push at its send. -/
example : ∃ s, exec (init 2) [.callPop, .tryMiss 0, .read 0, .cas 0 0, .build 0 true, .callPush 0, .inc 0] = some s ∧
    0 ∈ s.sending := by simp [exec, step, init]

end Verif.ClientPool
