import Verif.Queue.Spec
/- Invariant of the queue model. Helper lemmas for Verif.Queue.Props. -/
namespace Verif.Queue
open Verif.GoValue

theorem snoc_split {α} {l : List α} {e x : α} {pre post : List α} (h : l ++ [e] = pre ++ x :: post) :
    (∃ post', post = post' ++ [e] ∧ l = pre ++ x :: post') ∨ (post = [] ∧ pre = l ∧ x = e) := by
  rcases List.eq_nil_or_concat post with hp | ⟨post', y, hp⟩
  · subst hp
    right
    have := List.append_inj' (s₁ := l) (t₁ := [e]) (s₂ := pre) (t₂ := [x]) h rfl
    exact ⟨rfl, this.1.symm, by simpa using this.2.symm⟩
  · subst hp
    left
    have h' : l ++ [e] = (pre ++ x :: post') ++ [y] := by simpa using h
    have := List.append_inj' h' rfl
    refine ⟨post', ?_, this.1⟩
    have : e = y := by simpa using this.2
    simp [this]

@[simp, grind =] theorem accepted_append (a b) : accepted (a ++ b) = accepted a ++ accepted b := by
  simp [accepted]
@[simp, grind =] theorem removed_append (a b) : removed (a ++ b) = removed a ++ removed b := by
  simp [removed]
@[simp, grind =] theorem returned_append (a b) : returned (a ++ b) = returned a ++ returned b := by
  simp [returned]

@[simp, grind =] theorem accepted_0 (c v) : accepted [Event.callPush c v] = [] := rfl
@[simp, grind =] theorem removed_0 (c v) : removed [Event.callPush c v] = [] := rfl
@[simp, grind =] theorem returned_0 (c v) : returned [Event.callPush c v] = [] := rfl
@[simp, grind =] theorem accepted_1 (c d) : accepted [Event.callPop c d] = [] := rfl
@[simp, grind =] theorem removed_1 (c d) : removed [Event.callPop c d] = [] := rfl
@[simp, grind =] theorem returned_1 (c d) : returned [Event.callPop c d] = [] := rfl
@[simp, grind =] theorem accepted_2 (c) : accepted [Event.cancel c] = [] := rfl
@[simp, grind =] theorem removed_2 (c) : removed [Event.cancel c] = [] := rfl
@[simp, grind =] theorem returned_2 (c) : returned [Event.cancel c] = [] := rfl
@[simp, grind =] theorem accepted_3 (c) : accepted [Event.blocked c] = [] := rfl
@[simp, grind =] theorem removed_3 (c) : removed [Event.blocked c] = [] := rfl
@[simp, grind =] theorem returned_3 (c) : returned [Event.blocked c] = [] := rfl
@[simp, grind =] theorem accepted_4 (c v) : accepted [Event.pushRet c v true] = [(c, v)] := rfl
@[simp, grind =] theorem removed_4 (c v) : removed [Event.pushRet c v true] = [] := rfl
@[simp, grind =] theorem returned_4 (c v) : returned [Event.pushRet c v true] = [c] := rfl
@[simp, grind =] theorem accepted_5 (c v) : accepted [Event.pushRet c v false] = [] := rfl
@[simp, grind =] theorem removed_5 (c v) : removed [Event.pushRet c v false] = [] := rfl
@[simp, grind =] theorem returned_5 (c v) : returned [Event.pushRet c v false] = [c] := rfl
@[simp, grind =] theorem accepted_6 (c src v d o) : accepted [Event.popTrue c src v d o] = [] := rfl
@[simp, grind =] theorem removed_6 (c src v d o) : removed [Event.popTrue c src v d o] = [(src, v)] := rfl
@[simp, grind =] theorem returned_6 (c src v d o) : returned [Event.popTrue c src v d o] = [c] := rfl
@[simp, grind =] theorem accepted_7 (c d) : accepted [Event.popFalse c d] = [] := rfl
@[simp, grind =] theorem removed_7 (c d) : removed [Event.popFalse c d] = [] := rfl
@[simp, grind =] theorem returned_7 (c d) : returned [Event.popFalse c d] = [c] := rfl

/-- The nine shapes of a step. -/
inductive Shape (s : State) : State → Prop where
  | push (v) : Shape s { s with calls := setCall s.calls s.next (.pushTry v), next := s.next + 1,
                                log := s.log ++ [.callPush s.next v] }
  | pop (d) : Shape s { s with calls := setCall s.calls s.next (.popTry d), next := s.next + 1,
                               log := s.log ++ [.callPop s.next d] }
  | cancel (c) : c < s.next →
      Shape s { s with cancelled := fun d => if d = c then true else s.cancelled d,
                       log := s.log ++ [.cancel c] }
  | send (c v) : s.calls c = .pushTry v ∨ s.calls c = .pushWait v → s.buf.length < capacity →
      Shape s { s with buf := s.buf ++ [(c, v)], calls := setCall s.calls c .none,
                       log := s.log ++ [.pushRet c v true] }
  | recv (c d src v rest) : s.calls c = .popTry d ∨ s.calls c = .popWait d → s.buf = (src, v) :: rest →
      Shape s { s with buf := rest, calls := setCall s.calls c .none,
                       log := s.log ++ [.popTrue c src v (copyResult v d).1 (copyResult v d).2] }
  | blockPush (c v) : s.calls c = .pushTry v → ¬ s.buf.length < capacity →
      Shape s { s with calls := setCall s.calls c (.pushWait v), log := s.log ++ [.blocked c] }
  | blockPop (c d) : s.calls c = .popTry d → s.buf = [] →
      Shape s { s with calls := setCall s.calls c (.popWait d), log := s.log ++ [.blocked c] }
  | failPush (c v) : s.calls c = .pushWait v → s.cancelled c = true →
      Shape s { s with calls := setCall s.calls c .none, log := s.log ++ [.pushRet c v false] }
  | failPop (c d) : s.calls c = .popWait d → s.cancelled c = true →
      Shape s { s with calls := setCall s.calls c .none, log := s.log ++ [.popFalse c d] }

theorem step_shape {s a s'} (h : step s a = some s') : Shape s s' := by
  cases a with
  | push v => simp [step] at h; subst h; exact .push v
  | pop d => simp [step] at h; subst h; exact .pop d
  | cancel c =>
    simp only [step] at h
    split at h
    · cases h; exact .cancel c ‹_›
    · cases h
  | run c =>
    simp only [step] at h
    cases hc : s.calls c with
    | none => simp [hc] at h
    | pushTry v =>
      simp only [hc] at h
      split at h
      · cases h; exact .send c v (.inl hc) ‹_›
      · cases h; exact .blockPush c v hc ‹_›
    | pushWait v =>
      simp only [hc] at h
      split at h
      · cases h; exact .send c v (.inr hc) ‹_›
      · cases h
    | popTry d =>
      simp only [hc] at h
      cases hb : s.buf with
      | nil => simp [doRecv, hb] at h; subst h; rw [← hb]; exact .blockPop c d hc hb
      | cons x rest =>
        obtain ⟨src, v⟩ := x
        simp [doRecv, hb] at h; subst h
        exact .recv c d src v rest (.inl hc) hb
    | popWait d =>
      simp only [hc] at h
      cases hb : s.buf with
      | nil => simp [doRecv, hb] at h
      | cons x rest =>
        obtain ⟨src, v⟩ := x
        simp [doRecv, hb] at h; subst h
        exact .recv c d src v rest (.inr hc) hb
  | giveUp c =>
    simp only [step] at h
    split at h
    · rename_i hcan
      cases hc : s.calls c <;> simp [hc] at h
      · subst h; exact .failPush c _ hc hcan
      · subst h; exact .failPop c _ hc hcan
    · cases h

/-- Call `c` blocked at a moment when the history so far satisfies `P`. -/
def BlockedWhen (log : List Event) (c : CallId) (P : List Event → Prop) : Prop :=
  ∃ pre1 pre2, log = pre1 ++ .blocked c :: pre2 ∧ P pre1

theorem BlockedWhen.snoc {log c P} (e) (h : BlockedWhen log c P) : BlockedWhen (log ++ [e]) c P := by
  obtain ⟨a, b, h1, h2⟩ := h
  exact ⟨a, b ++ [e], by simp [h1], h2⟩

structure Inv (s : State) : Prop where
  fifo : accepted s.log = removed s.log ++ s.buf
  cap : s.buf.length ≤ capacity
  retLt : ∀ c ∈ returned s.log, c < s.next
  retNodup : (returned s.log).Nodup
  accRet : ∀ c ∈ (accepted s.log).map (·.1), c ∈ returned s.log
  accNodup : ((accepted s.log).map (·.1)).Nodup
  idle : ∀ c, s.next ≤ c → s.calls c = .none
  retIdle : ∀ c ∈ returned s.log, s.calls c = .none
  cancelled : ∀ c, s.cancelled c = true → .cancel c ∈ s.log
  cancelled' : ∀ c, .cancel c ∈ s.log → s.cancelled c = true
  callLt : ∀ c v, .callPush c v ∈ s.log → c < s.next
  callPopLt : ∀ c v, .callPop c v ∈ s.log → c < s.next
  blockedLt : ∀ c, .blocked c ∈ s.log → c < s.next
  pushTry : ∀ c v, s.calls c = .pushTry v → .callPush c v ∈ s.log ∧ .blocked c ∉ s.log
  popTry : ∀ c v, s.calls c = .popTry v → .callPop c v ∈ s.log ∧ .blocked c ∉ s.log
  pushWait : ∀ c v, s.calls c = .pushWait v → .callPush c v ∈ s.log ∧
    BlockedWhen s.log c fun pre => (contents pre).length = capacity
  popWait : ∀ c v, s.calls c = .popWait v → .callPop c v ∈ s.log ∧
    BlockedWhen s.log c fun pre => contents pre = []
  pushPending : ∀ c v, .callPush c v ∈ s.log → c ∉ returned s.log →
    s.calls c = .pushTry v ∨ s.calls c = .pushWait v
  popPending : ∀ c v, .callPop c v ∈ s.log → c ∉ returned s.log →
    s.calls c = .popTry v ∨ s.calls c = .popWait v
  prefixes : ∀ pre, pre <+: s.log → removed pre <+: accepted pre ∧ (contents pre).length ≤ capacity
  falsePush : ∀ pre c v post, s.log = pre ++ .pushRet c v false :: post →
    .cancel c ∈ pre ∧ (BlockedWhen pre c fun p => (contents p).length = capacity)
  falsePop : ∀ pre c d post, s.log = pre ++ .popFalse c d :: post →
    .callPop c d ∈ pre ∧ .cancel c ∈ pre ∧ (BlockedWhen pre c fun p => contents p = [])

theorem Inv.contents_eq {s} (h : Inv s) : contents s.log = s.buf := by
  simp [contents, h.fifo]

theorem inv_init : Inv init := by
  refine ⟨by simp [init, accepted, removed], by simp [init], ?_, ?_, ?_, ?_, ?_, ?_, ?_, ?_, ?_, ?_, ?_,
    ?_, ?_, ?_, ?_, ?_, ?_, ?_, ?_, ?_⟩ <;> simp [init, returned, accepted]
  simp [removed, contents, accepted]

theorem prefix_snoc {α} {pre l : List α} {e : α} (h : pre <+: l ++ [e]) : pre <+: l ∨ pre = l ++ [e] := by
  rcases h with ⟨t, ht⟩
  rcases List.eq_nil_or_concat t with hp | ⟨t', y, hp⟩
  · subst hp; right; simpa using ht
  · subst hp; left
    have h' : (pre ++ t') ++ [y] = l ++ [e] := by simpa using ht
    exact ⟨t', (List.append_inj' h' rfl).1⟩

macro "qq" : tactic => `(tactic| grind [setCall])

theorem prefixes_snoc {log : List Event} {e : Event} {buf}
    (hp : ∀ pre, pre <+: log → removed pre <+: accepted pre ∧ (contents pre).length ≤ capacity)
    (hf : accepted (log ++ [e]) = removed (log ++ [e]) ++ buf) (hc : buf.length ≤ capacity) :
    ∀ pre, pre <+: log ++ [e] → removed pre <+: accepted pre ∧ (contents pre).length ≤ capacity := by
  intro pre hpre
  rcases prefix_snoc hpre with h | h
  · exact hp pre h
  · subst h
    refine ⟨⟨buf, hf.symm⟩, ?_⟩
    simp only [contents, hf]
    simpa using hc

theorem falsePush_snoc {log : List Event} {e : Event}
    (hp : ∀ pre c v post, log = pre ++ .pushRet c v false :: post →
      .cancel c ∈ pre ∧ (BlockedWhen pre c fun p => (contents p).length = capacity))
    (he : ∀ c v, e = .pushRet c v false →
      .cancel c ∈ log ∧ (BlockedWhen log c fun p => (contents p).length = capacity)) :
    ∀ pre c v post, log ++ [e] = pre ++ .pushRet c v false :: post →
      .cancel c ∈ pre ∧ (BlockedWhen pre c fun p => (contents p).length = capacity) := by
  intro pre c v post h
  rcases snoc_split h with ⟨post', _, h2⟩ | ⟨_, h2, h3⟩
  · exact hp _ _ _ _ h2
  · rw [h2]; exact he c v h3.symm

theorem falsePop_snoc {log : List Event} {e : Event}
    (hp : ∀ pre c d post, log = pre ++ .popFalse c d :: post →
      .callPop c d ∈ pre ∧ .cancel c ∈ pre ∧ (BlockedWhen pre c fun p => contents p = []))
    (he : ∀ c d, e = .popFalse c d →
      .callPop c d ∈ log ∧ .cancel c ∈ log ∧ (BlockedWhen log c fun p => contents p = [])) :
    ∀ pre c d post, log ++ [e] = pre ++ .popFalse c d :: post →
      .callPop c d ∈ pre ∧ .cancel c ∈ pre ∧ (BlockedWhen pre c fun p => contents p = []) := by
  intro pre c d post h
  rcases snoc_split h with ⟨post', _, h2⟩ | ⟨_, h2, h3⟩
  · exact hp _ _ _ _ h2
  · rw [h2]; exact he c d h3.symm

theorem blocked_here (log : List Event) (c : CallId) (P : List Event → Prop) (h : P log) :
    BlockedWhen (log ++ [.blocked c]) c P := ⟨log, [], rfl, h⟩

theorem inv_push {s} (h : Inv s) (v) :
    Inv { s with calls := setCall s.calls s.next (.pushTry v), next := s.next + 1,
                                log := s.log ++ [.callPush s.next v] } := by
  have hcon := h.contents_eq
  obtain ⟨fifo, cap, retLt, retNodup, accRet, accNodup, idle, retIdle, canc, canc', callLt, callPopLt, blockedLt,
    pushTry, popTry, pushWait, popWait, pushPending, popPending, prefixes, falsePush, falsePop⟩ := h
  have hbw : ∀ c P e, BlockedWhen s.log c P → BlockedWhen (s.log ++ [e]) c P := fun c P e hh => hh.snoc e
  have hf : accepted (s.log ++ [.callPush s.next v]) = removed (s.log ++ [.callPush s.next v]) ++ s.buf := by
    simpa using fifo
  exact ⟨hf, cap, by qq, by qq, by qq, by qq, by qq, by qq, by qq, by qq, by qq, by qq, by qq, by qq,
    by qq, by qq, by qq, by qq, by qq, prefixes_snoc prefixes hf cap, falsePush_snoc falsePush (by simp),
    falsePop_snoc falsePop (by simp)⟩

theorem inv_pop {s} (h : Inv s) (d) :
    Inv { s with calls := setCall s.calls s.next (.popTry d), next := s.next + 1,
                               log := s.log ++ [.callPop s.next d] } := by
  have hcon := h.contents_eq
  obtain ⟨fifo, cap, retLt, retNodup, accRet, accNodup, idle, retIdle, canc, canc', callLt, callPopLt, blockedLt,
    pushTry, popTry, pushWait, popWait, pushPending, popPending, prefixes, falsePush, falsePop⟩ := h
  have hbw : ∀ c P e, BlockedWhen s.log c P → BlockedWhen (s.log ++ [e]) c P := fun c P e hh => hh.snoc e
  have hf : accepted (s.log ++ [.callPop s.next d]) = removed (s.log ++ [.callPop s.next d]) ++ s.buf := by
    simpa using fifo
  exact ⟨hf, cap, by qq, by qq, by qq, by qq, by qq, by qq, by qq, by qq, by qq, by qq, by qq, by qq,
    by qq, by qq, by qq, by qq, by qq, prefixes_snoc prefixes hf cap, falsePush_snoc falsePush (by simp),
    falsePop_snoc falsePop (by simp)⟩

theorem inv_cancel {s} (h : Inv s) (c) (_ : c < s.next) :
    Inv { s with cancelled := fun d => if d = c then true else s.cancelled d,
                       log := s.log ++ [.cancel c] } := by
  have hcon := h.contents_eq
  obtain ⟨fifo, cap, retLt, retNodup, accRet, accNodup, idle, retIdle, canc, canc', callLt, callPopLt, blockedLt,
    pushTry, popTry, pushWait, popWait, pushPending, popPending, prefixes, falsePush, falsePop⟩ := h
  have hbw : ∀ c P e, BlockedWhen s.log c P → BlockedWhen (s.log ++ [e]) c P := fun c P e hh => hh.snoc e
  have hf : accepted (s.log ++ [.cancel c]) = removed (s.log ++ [.cancel c]) ++ s.buf := by
    simpa using fifo
  exact ⟨hf, cap, by qq, by qq, by qq, by qq, by qq, by qq, by qq, by qq, by qq, by qq, by qq, by qq,
    by qq, by qq, by qq, by qq, by qq, prefixes_snoc prefixes hf cap, falsePush_snoc falsePush (by simp),
    falsePop_snoc falsePop (by simp)⟩

theorem inv_send {s} (h : Inv s) (c v) (hc : s.calls c = .pushTry v ∨ s.calls c = .pushWait v) (hlt : s.buf.length < capacity) :
    Inv { s with buf := s.buf ++ [(c, v)], calls := setCall s.calls c .none,
                       log := s.log ++ [.pushRet c v true] } := by
  have hcon := h.contents_eq
  obtain ⟨fifo, cap, retLt, retNodup, accRet, accNodup, idle, retIdle, canc, canc', callLt, callPopLt, blockedLt,
    pushTry, popTry, pushWait, popWait, pushPending, popPending, prefixes, falsePush, falsePop⟩ := h
  have hbw : ∀ c P e, BlockedWhen s.log c P → BlockedWhen (s.log ++ [e]) c P := fun c P e hh => hh.snoc e
  have hf : accepted (s.log ++ [.pushRet c v true]) =
      removed (s.log ++ [.pushRet c v true]) ++ (s.buf ++ [(c, v)]) := by
    simp [fifo]
  have hcap : (s.buf ++ [(c, v)]).length ≤ capacity := by simp; omega
  exact ⟨hf, hcap, by qq, by qq, by qq, by qq, by qq, by qq, by qq, by qq, by qq, by qq, by qq, by qq,
    by qq, by qq, by qq, by qq, by qq, prefixes_snoc prefixes hf hcap, falsePush_snoc falsePush (by simp),
    falsePop_snoc falsePop (by simp)⟩

theorem inv_recv {s} (h : Inv s) (c d src v rest) (hc : s.calls c = .popTry d ∨ s.calls c = .popWait d) (hb : s.buf = (src, v) :: rest) :
    Inv { s with buf := rest, calls := setCall s.calls c .none,
                       log := s.log ++ [.popTrue c src v (copyResult v d).1 (copyResult v d).2] } := by
  have hcon := h.contents_eq
  obtain ⟨fifo, cap, retLt, retNodup, accRet, accNodup, idle, retIdle, canc, canc', callLt, callPopLt, blockedLt,
    pushTry, popTry, pushWait, popWait, pushPending, popPending, prefixes, falsePush, falsePop⟩ := h
  have hbw : ∀ c P e, BlockedWhen s.log c P → BlockedWhen (s.log ++ [e]) c P := fun c P e hh => hh.snoc e
  have hf : accepted (s.log ++ [.popTrue c src v (copyResult v d).1 (copyResult v d).2]) =
      removed (s.log ++ [.popTrue c src v (copyResult v d).1 (copyResult v d).2]) ++ rest := by
    simp [fifo, hb]
  have hcap : rest.length ≤ capacity := by simp [hb] at cap; omega
  exact ⟨hf, hcap, by qq, by qq, by qq, by qq, by qq, by qq, by qq, by qq, by qq, by qq, by qq, by qq,
    by qq, by qq, by qq, by qq, by qq, prefixes_snoc prefixes hf hcap, falsePush_snoc falsePush (by simp),
    falsePop_snoc falsePop (by simp)⟩

theorem inv_blockPush {s} (h : Inv s) (c v) (hc : s.calls c = .pushTry v) (hlt : ¬ s.buf.length < capacity) :
    Inv { s with calls := setCall s.calls c (.pushWait v), log := s.log ++ [.blocked c] } := by
  have hcon := h.contents_eq
  obtain ⟨fifo, cap, retLt, retNodup, accRet, accNodup, idle, retIdle, canc, canc', callLt, callPopLt, blockedLt,
    pushTry, popTry, pushWait, popWait, pushPending, popPending, prefixes, falsePush, falsePop⟩ := h
  have hbw : ∀ c P e, BlockedWhen s.log c P → BlockedWhen (s.log ++ [e]) c P := fun c P e hh => hh.snoc e
  have hf : accepted (s.log ++ [.blocked c]) = removed (s.log ++ [.blocked c]) ++ s.buf := by
    simpa using fifo
  have hbl := blocked_here s.log c (fun p => (contents p).length = capacity) (by
    show (contents s.log).length = capacity
    rw [hcon]; omega)
  exact ⟨hf, cap, by qq, by qq, by qq, by qq, by qq, by qq, by qq, by qq, by qq, by qq, by qq, by qq,
    by qq, by qq, by qq, by qq, by qq, prefixes_snoc prefixes hf cap, falsePush_snoc falsePush (by simp),
    falsePop_snoc falsePop (by simp)⟩

theorem inv_blockPop {s} (h : Inv s) (c d) (hc : s.calls c = .popTry d) (hb : s.buf = []) :
    Inv { s with calls := setCall s.calls c (.popWait d), log := s.log ++ [.blocked c] } := by
  have hcon := h.contents_eq
  obtain ⟨fifo, cap, retLt, retNodup, accRet, accNodup, idle, retIdle, canc, canc', callLt, callPopLt, blockedLt,
    pushTry, popTry, pushWait, popWait, pushPending, popPending, prefixes, falsePush, falsePop⟩ := h
  have hbw : ∀ c P e, BlockedWhen s.log c P → BlockedWhen (s.log ++ [e]) c P := fun c P e hh => hh.snoc e
  have hf : accepted (s.log ++ [.blocked c]) = removed (s.log ++ [.blocked c]) ++ s.buf := by
    simpa using fifo
  have hbl := blocked_here s.log c (fun p => contents p = []) (by
    show contents s.log = []
    rw [hcon, hb])
  exact ⟨hf, cap, by qq, by qq, by qq, by qq, by qq, by qq, by qq, by qq, by qq, by qq, by qq, by qq,
    by qq, by qq, by qq, by qq, by qq, prefixes_snoc prefixes hf cap, falsePush_snoc falsePush (by simp),
    falsePop_snoc falsePop (by simp)⟩

theorem inv_failPush {s} (h : Inv s) (c v) (hc : s.calls c = .pushWait v) (hcan : s.cancelled c = true) :
    Inv { s with calls := setCall s.calls c .none, log := s.log ++ [.pushRet c v false] } := by
  have hcon := h.contents_eq
  obtain ⟨fifo, cap, retLt, retNodup, accRet, accNodup, idle, retIdle, canc, canc', callLt, callPopLt, blockedLt,
    pushTry, popTry, pushWait, popWait, pushPending, popPending, prefixes, falsePush, falsePop⟩ := h
  have hbw : ∀ c P e, BlockedWhen s.log c P → BlockedWhen (s.log ++ [e]) c P := fun c P e hh => hh.snoc e
  have hf : accepted (s.log ++ [.pushRet c v false]) = removed (s.log ++ [.pushRet c v false]) ++ s.buf := by
    simpa using fifo
  exact ⟨hf, cap, by qq, by qq, by qq, by qq, by qq, by qq, by qq, by qq, by qq, by qq, by qq, by qq,
    by qq, by qq, by qq, by qq, by qq, prefixes_snoc prefixes hf cap,
    falsePush_snoc falsePush (by rintro _ _ ⟨⟩; exact ⟨canc c hcan, (pushWait c v hc).2⟩),
    falsePop_snoc falsePop (by simp)⟩

theorem inv_failPop {s} (h : Inv s) (c d) (hc : s.calls c = .popWait d) (hcan : s.cancelled c = true) :
    Inv { s with calls := setCall s.calls c .none, log := s.log ++ [.popFalse c d] } := by
  have hcon := h.contents_eq
  obtain ⟨fifo, cap, retLt, retNodup, accRet, accNodup, idle, retIdle, canc, canc', callLt, callPopLt, blockedLt,
    pushTry, popTry, pushWait, popWait, pushPending, popPending, prefixes, falsePush, falsePop⟩ := h
  have hbw : ∀ c P e, BlockedWhen s.log c P → BlockedWhen (s.log ++ [e]) c P := fun c P e hh => hh.snoc e
  have hf : accepted (s.log ++ [.popFalse c d]) = removed (s.log ++ [.popFalse c d]) ++ s.buf := by
    simpa using fifo
  exact ⟨hf, cap, by qq, by qq, by qq, by qq, by qq, by qq, by qq, by qq, by qq, by qq, by qq, by qq,
    by qq, by qq, by qq, by qq, by qq, prefixes_snoc prefixes hf cap, falsePush_snoc falsePush (by simp),
    falsePop_snoc falsePop (by
      rintro _ _ ⟨⟩; exact ⟨(popWait c d hc).1, canc c hcan, (popWait c d hc).2⟩)⟩

theorem inv_step {s s'} (h : Inv s) (hs : Shape s s') : Inv s' := by
  cases hs with
  | push v => exact inv_push h v
  | pop d => exact inv_pop h d
  | cancel c hc => exact inv_cancel h c hc
  | send c v hc hlt => exact inv_send h c v hc hlt
  | recv c d src v rest hc hb => exact inv_recv h c d src v rest hc hb
  | blockPush c v hc hlt => exact inv_blockPush h c v hc hlt
  | blockPop c d hc hb => exact inv_blockPop h c d hc hb
  | failPush c v hc hcan => exact inv_failPush h c v hc hcan
  | failPop c d hc hcan => exact inv_failPop h c d hc hcan

theorem inv_exec {s s'} (acts) (h : Inv s) (he : exec s acts = some s') : Inv s' := by
  induction acts generalizing s with
  | nil => simp [exec] at he; exact he ▸ h
  | cons a as ih =>
    simp only [exec] at he
    cases hs : step s a with
    | none => simp [hs] at he
    | some t =>
      simp only [hs] at he
      exact ih (inv_step h (step_shape hs)) he

theorem inv_reach {s} (acts) (he : exec init acts = some s) : Inv s := inv_exec acts inv_init he

end Verif.Queue
