import Verif.Queue.Lemmas
/-
C03 and C04: the in-memory queue.

In all theorems `acts` is an arbitrary schedule (any number of concurrent Push and Pop calls,
interleaved and cancelled in any way) and `s` the state it leads to.
-/
namespace Verif.Queue
open Verif.GoValue

/-- C03, order and no loss: at every moment of the history, the items handed out so far are exactly the
first items accepted so far, in the same order (so none is lost, duplicated or overtaken), and at most 10
items are in the queue. -/
theorem C03_fifo_no_loss_bounded (acts : List Act) (s : State) (h : exec init acts = some s)
    (pre : List Event) (hp : pre <+: s.log) :
    (∃ rest, accepted pre = removed pre ++ rest ∧ contents pre = rest ∧ rest.length ≤ 10) := by
  have hh := (inv_reach acts h).prefixes pre hp
  obtain ⟨⟨rest, hr⟩, hc⟩ := hh
  refine ⟨rest, hr.symm, ?_, ?_⟩
  · simp [contents, ← hr]
  · simpa [contents, ← hr, capacity] using hc

/-- C03, exactly once: no Push call is accepted twice and no accepted item is handed out twice, and every
item handed out is an accepted one. -/
theorem C03_each_item_once (acts : List Act) (s : State) (h : exec init acts = some s) :
    ((accepted s.log).map (·.1)).Nodup ∧ ((removed s.log).map (·.1)).Nodup ∧
    (∀ x ∈ removed s.log, x ∈ accepted s.log) ∧ (returned s.log).Nodup := by
  have hi := inv_reach acts h
  have hn := hi.accNodup
  refine ⟨hn, ?_, ?_, hi.retNodup⟩
  · rw [hi.fifo, List.map_append] at hn
    exact (List.nodup_append.1 hn).1
  · intro x hx; rw [hi.fifo]; simp [hx]

/-- C03, the item accepted by a Push is the item that was passed to it. -/
theorem C03_accepts_what_was_pushed (acts : List Act) (s : State) (h : exec init acts = some s)
    (c : CallId) (v : GoVal) (hc : .callPush c v ∈ s.log) (hr : c ∉ returned s.log)
    (s' : State) (hs : step s (.run c) = some s') (hret : c ∈ returned s'.log) :
    s'.log = s.log ++ [.pushRet c v true] := by
  have hi := inv_reach acts h
  rcases hi.pushPending c v hc hr with hcall | hcall
  · simp only [step, hcall] at hs
    split at hs
    · cases hs; rfl
    · cases hs; simp [hr] at hret
  · simp only [step, hcall] at hs
    split at hs
    · cases hs; rfl
    · cases hs

/-- C03, delivery: when the queue is not empty, a Pop in progress that runs returns true with the oldest
item, delivered into its destination by the typed copy of C55. -/
theorem C03_pop_takes_oldest (acts : List Act) (s : State) (h : exec init acts = some s)
    (c : CallId) (d : Dst) (hc : .callPop c d ∈ s.log) (hr : c ∉ returned s.log)
    (src : CallId) (v : GoVal) (rest) (hq : contents s.log = (src, v) :: rest) :
    ∃ s' dst' o, step s (.run c) = some s' ∧ copyResult v d = (dst', o) ∧
      s'.log = s.log ++ [.popTrue c src v dst' o] ∧ contents s'.log = rest := by
  have hi := inv_reach acts h
  have hb : s.buf = (src, v) :: rest := hi.contents_eq ▸ hq
  refine ⟨{ s with buf := rest, calls := setCall s.calls c .none, log := _ }, (copyResult v d).1,
    (copyResult v d).2, ?_, rfl, rfl, ?_⟩
  · rcases hi.popPending c d hc hr with hcall | hcall <;> simp [step, hcall, doRecv, hb]
  · simp [contents, hi.fifo, hb]

/-- C03 does not extend to items that do not fit the destination: such a Pop returns true with an
error (or panics), leaves its destination unchanged, and the item is gone from the queue. -/
theorem C03_mismatched_pop_loses_item_refuted (acts : List Act) (s : State)
    (h : exec init acts = some s) (c : CallId) (d : Dst) (hc : .callPop c d ∈ s.log)
    (hr : c ∉ returned s.log) (src : CallId) (v : GoVal) (rest)
    (hq : contents s.log = (src, v) :: rest) (hbad : (copyResult v d).2 ≠ .ok) :
    ∃ s' o, step s (.run c) = some s' ∧ o ≠ .ok ∧ s'.log = s.log ++ [.popTrue c src v d o] ∧
      (src, v) ∉ contents s'.log := by
  obtain ⟨s', dst', o, h1, h2, h3, h4⟩ := C03_pop_takes_oldest acts s h c d hc hr src v rest hq
  have hd : dst' = d := by
    cases d with
    | notPointer => simp [copyResult] at h2; exact h2.1.symm
    | nilPointer => simp [copyResult] at h2; exact h2.1.symm
    | ptr t cur =>
      simp only [copyResult] at h2 hbad
      cases hcp : copyTo v t <;> simp_all
  refine ⟨s', o, h1, by simpa [h2] using hbad, hd ▸ h3, ?_⟩
  rw [h4]
  have hi := inv_reach acts h
  have hb : s.buf = (src, v) :: rest := hi.contents_eq ▸ hq
  have hn := hi.accNodup
  rw [hi.fifo, hb] at hn
  simp only [List.map_append, List.map_cons] at hn
  have := (List.nodup_append.1 hn).2.1
  intro hm
  exact (List.nodup_cons.1 this).1 (List.mem_map.2 ⟨_, hm, rfl⟩)

/-- C04, Push: a Push returns false only if its context was cancelled before it returned and it had found
the queue full; its item never enters the queue, and is never handed out. -/
theorem C04_push_false (acts : List Act) (s : State) (h : exec init acts = some s)
    (pre post : List Event) (c : CallId) (v : GoVal)
    (hlog : s.log = pre ++ .pushRet c v false :: post) :
    .cancel c ∈ pre ∧
    (∃ p q, pre = p ++ .blocked c :: q ∧ (contents p).length = 10) ∧
    c ∉ (accepted s.log).map (·.1) ∧ c ∉ (removed s.log).map (·.1) := by
  have hi := inv_reach acts h
  obtain ⟨h1, p, q, h2, h3⟩ := hi.falsePush pre c v post hlog
  have hna : c ∉ (accepted s.log).map (·.1) := by
    intro hm
    have hn := hi.retNodup
    rw [hlog] at hn hm
    have hacc : ∀ l : List Event, ∀ c, c ∈ (accepted l).map (·.1) → c ∈ returned l := by
      intro l c hc
      obtain ⟨⟨c', w⟩, hm, rfl⟩ := List.mem_map.1 hc
      simp only [accepted, List.mem_filterMap] at hm
      obtain ⟨e, he, hx⟩ := hm
      simp only [returned, List.mem_filterMap]
      refine ⟨e, he, ?_⟩
      revert hx
      cases e <;> simp
      rename_i ok; cases ok <;> simp
      exact fun hh _ => hh
    rw [show pre ++ Event.pushRet c v false :: post = (pre ++ [Event.pushRet c v false]) ++ post by simp] at hn hm
    simp only [returned_append, accepted_append, returned_5, accepted_5, List.append_nil, List.map_append,
      List.mem_append] at hn hm
    have hn1 := List.nodup_append.1 hn
    have hn2 := List.nodup_append.1 hn1.1
    rcases hm with hm | hm
    · exact hn2.2.2 c (hacc _ _ hm) c (by simp) rfl
    · exact hn1.2.2 c (by simp) c (hacc _ _ hm) rfl
  refine ⟨h1, ⟨p, q, h2, h3⟩, hna, ?_⟩
  intro hm
  apply hna
  rw [hi.fifo, List.map_append]
  exact List.mem_append.2 (.inl hm)

/-- C04, Pop: a Pop returns false only if its context was cancelled before it returned and it had found the
queue empty; it removed nothing (the contents before and after are the same) and its destination is the
one it was called with. -/
theorem C04_pop_false (acts : List Act) (s : State) (h : exec init acts = some s)
    (pre post : List Event) (c : CallId) (d : Dst)
    (hlog : s.log = pre ++ .popFalse c d :: post) :
    .callPop c d ∈ pre ∧ .cancel c ∈ pre ∧
    (∃ p q, pre = p ++ .blocked c :: q ∧ contents p = []) ∧
    contents (pre ++ [.popFalse c d]) = contents pre := by
  have hi := inv_reach acts h
  obtain ⟨h1, h2, p, q, h3, h4⟩ := hi.falsePop pre c d post hlog
  exact ⟨h1, h2, ⟨p, q, h3, h4⟩, by simp [contents]⟩

/-- C04, ready Push: a Push that finds room at its first attempt succeeds, even if its context is already
cancelled; it cannot give up. -/
theorem C04_push_with_room_succeeds (acts : List Act) (s : State) (h : exec init acts = some s)
    (c : CallId) (v : GoVal) (hc : .callPush c v ∈ s.log) (hr : c ∉ returned s.log)
    (hfresh : .blocked c ∉ s.log) (hroom : (contents s.log).length < 10) :
    (∃ s', step s (.run c) = some s' ∧ s'.log = s.log ++ [.pushRet c v true]) ∧
    step s (.giveUp c) = none := by
  have hi := inv_reach acts h
  rw [hi.contents_eq] at hroom
  rcases hi.pushPending c v hc hr with hcall | hcall
  · refine ⟨⟨doSend s c v, by simp [step, hcall, capacity, hroom], rfl⟩, ?_⟩
    simp [step, hcall]
  · obtain ⟨_, p, q, hb, _⟩ := hi.pushWait c v hcall
    exact absurd (by rw [hb]; simp) hfresh

/-- C04, ready Pop: a Pop that finds an item at its first attempt succeeds, even if its context is already
cancelled; it cannot give up. -/
theorem C04_pop_with_item_succeeds (acts : List Act) (s : State) (h : exec init acts = some s)
    (c : CallId) (d : Dst) (hc : .callPop c d ∈ s.log) (hr : c ∉ returned s.log)
    (hfresh : .blocked c ∉ s.log) (src : CallId) (v : GoVal) (rest)
    (hq : contents s.log = (src, v) :: rest) :
    (∃ s' dst' o, step s (.run c) = some s' ∧ s'.log = s.log ++ [.popTrue c src v dst' o]) ∧
    step s (.giveUp c) = none := by
  obtain ⟨s', dst', o, h1, _, h3, _⟩ := C03_pop_takes_oldest acts s h c d hc hr src v rest hq
  refine ⟨⟨s', dst', o, h1, h3⟩, ?_⟩
  have hi := inv_reach acts h
  rcases hi.popPending c d hc hr with hcall | hcall
  · simp [step, hcall]
  · obtain ⟨_, p, q, hb, _⟩ := hi.popWait c d hcall
    exact absurd (by rw [hb]; simp) hfresh

/-- C04, cancellation is noticed: a Push or Pop waiting in the queue whose context is cancelled can always
return false. -/
theorem C04_cancelled_waiter_can_return (acts : List Act) (s : State) (h : exec init acts = some s)
    (c : CallId) (hb : .blocked c ∈ s.log) (hr : c ∉ returned s.log) (hcan : .cancel c ∈ s.log) 
    (hcall : (∃ v, .callPush c v ∈ s.log) ∨ (∃ d, .callPop c d ∈ s.log)) :
    ∃ s', step s (.giveUp c) = some s' ∧ c ∈ returned s'.log := by
  have hi := inv_reach acts h
  have hcan' : s.cancelled c = true := hi.cancelled' c hcan
  rcases hcall with ⟨v, hv⟩ | ⟨d, hd⟩
  · rcases hi.pushPending c v hv hr with h1 | h1
    · exact absurd hb (hi.pushTry c v h1).2
    · exact ⟨_, by simp [step, hcan', h1]; rfl, by simp⟩
  · rcases hi.popPending c d hd hr with h1 | h1
    · exact absurd hb (hi.popTry c d h1).2
    · exact ⟨_, by simp [step, hcan', h1]; rfl, by simp⟩

/-! ### The hypotheses are met by concrete schedules -/

private def i (n : Int) : GoVal := .scalar "int" n
private def intDst : Dst := .ptr (.named "int") (i 0)

/-- Two pushes and a pop: the pop receives the first item. -/
example : ∃ s, exec init [.push (i 1), .push (i 2), .pop intDst, .run 0, .run 1, .run 2] = some s ∧
    removed s.log = [(0, i 1)] ∧ contents s.log = [(1, i 2)] := by
  simp [exec, step, init, setCall, doSend, doRecv, capacity, intDst, i, copyResult, copyTo, assignable,
    removed, contents, accepted]

/-- A cancelled Pop on the empty queue returns false. -/
example : ∃ s, exec init [.pop intDst, .run 0, .cancel 0, .giveUp 0] = some s ∧
    s.log = [.callPop 0 intDst, .blocked 0, .cancel 0, .popFalse 0 intDst] := by
  simp [exec, step, init, setCall, doRecv]

/-- Eleven pushes: the eleventh blocks; cancelled, it returns false. -/
example : ∃ s, exec init ((List.range 11).map (fun n : Nat => Act.push (i n)) ++ (List.range 11).map Act.run ++
      [.cancel 10, .giveUp 10]) = some s ∧
    .pushRet 10 (i 10) false ∈ s.log ∧ (contents s.log).length = 10 := by
  simp [List.range, List.range.loop, exec, step, init, setCall, doSend, capacity, contents, accepted, removed]

/-- A pop with a destination of the wrong type loses the item. -/
example : ∃ s, exec init [.push (i 1), .run 0, .pop (.ptr (.named "string") (.scalar "string" 7))] = some s ∧
    contents s.log = [(0, i 1)] ∧
    (copyResult (i 1) (.ptr (.named "string") (.scalar "string" 7))).2 ≠ .ok ∧ 1 ∉ returned s.log := by
  simp [exec, step, init, setCall, doSend, capacity, contents, accepted, removed, returned, i, copyResult,
    copyTo, assignable, Fail.toOutcome]

/-- A Push whose context is cancelled before it starts still succeeds when there is room. -/
example : ∃ s, exec init [.push (i 1), .cancel 0, .run 0] = some s ∧ accepted s.log = [(0, i 1)] := by
  simp [exec, step, init, setCall, doSend, capacity, accepted]

end Verif.Queue
