import Verif.ClientPool.Spec
/- Invariant of the client pool. -/
namespace Verif.ClientPool

@[simp] theorem built_append (a b) : built (a ++ b) = built a ++ built b := by simp [built]
@[simp] theorem handedOut_append (a b c) : handedOut (a ++ b) c = handedOut a c + handedOut b c := by
  simp [handedOut]
@[simp] theorem givenBack_append (a b c) : givenBack (a ++ b) c = givenBack a c + givenBack b c := by
  simp [givenBack]

/-- All clients in circulation. -/
def circulating (s : State) : List Nat := s.held ++ s.returning ++ s.sending ++ s.took.map (·.2) ++ s.clients

structure Inv (s : State) : Prop where
  circ : ∀ c, (circulating s).count c = if c < s.nextClient then 1 else 0
  len : (circulating s).length = s.nextClient
  size : s.size = s.nextClient + s.building.length + s.failing.length
  le : s.size ≤ s.cap
  built : built s.log = List.range s.nextClient
  held : ∀ c, s.held.count c + givenBack s.log c = handedOut s.log c
  avail : s.available = s.sending.length + s.took.length + s.clients.length
  full : (∀ p, Event.buildFailed p ∉ s.log) → (s.waiting ≠ [] → s.size = s.cap) ∧ s.failing = [] ∧
    ∀ x ∈ s.casing, x.2 ≤ s.size

theorem inv_init (cap) : Inv (init cap) := by
  constructor <;> simp [init, circulating, built, givenBack, handedOut]

theorem count_erase_of_mem {α} [DecidableEq α] {l : List α} {a : α} (h : a ∈ l) (b : α) :
    l.count b = (l.erase a).count b + if a = b then 1 else 0 := by
  have := (List.perm_cons_erase h).count_eq b
  rw [this, List.count_cons]
  simp

theorem inv_step {s a s'} (h : Inv s) (hs : step s a = some s') : Inv s' := by
  obtain ⟨h1, h2, h3, h4, h5, h6, h7, h8⟩ := h
  cases a with
  | callPop => simp only [step] at hs; cases hs; exact ⟨h1, h2, h3, h4, h5, h6, h7, h8⟩
  | cancel p =>
    simp only [step] at hs; cases hs
    exact ⟨h1, h2, h3, h4, by simpa [built] using h5, fun c => by simpa [givenBack, handedOut] using h6 c, h7,
      fun hh => h8 (by simpa using hh)⟩
  | tryRecv p =>
    simp only [step] at hs
    split at hs
    · cases hs
    · rename_i c rest hb
      split at hs
      · cases hs
        refine ⟨?_, ?_, h3, h4, h5, h6, ?_, h8⟩
        · intro d; have := h1 d; simp [circulating, hb, List.count_cons] at this ⊢; omega
        · simp [circulating, hb] at h2 ⊢; omega
        · simp [hb] at h7; simp; omega
      · cases hs
  | tryDone p =>
    simp only [step] at hs
    split at hs
    · cases hs
      exact ⟨h1, h2, h3, h4, by simpa [built] using h5, fun c => by simpa [givenBack, handedOut] using h6 c, h7,
        fun hh => h8 (by simpa using hh)⟩
    · cases hs
  | tryMiss p =>
    simp only [step] at hs
    split at hs
    · cases hs; exact ⟨h1, h2, h3, h4, h5, h6, h7, h8⟩
    · cases hs
  | read p =>
    simp only [step] at hs
    split at hs
    · cases hs
      refine ⟨h1, h2, h3, h4, h5, h6, h7, ?_⟩
      intro hh
      obtain ⟨a1, a2, a3⟩ := h8 hh
      refine ⟨a1, a2, ?_⟩
      intro x hx
      rcases List.mem_cons.1 hx with rfl | hx
      · simp
      · exact a3 x hx
    · cases hs
  | cas p cur =>
    simp only [step] at hs
    split at hs
    · rename_i hmem
      split at hs
      · split at hs
        · rename_i hlt hsz
          cases hs
          refine ⟨h1, h2, by simp; omega, by simp; omega, h5, h6, h7, ?_⟩
          intro hh
          obtain ⟨a1, a2, a3⟩ := h8 hh
          refine ⟨?_, a2, ?_⟩
          · intro hw; have := a1 hw; omega
          · intro x hx; have := a3 x (List.mem_of_mem_erase hx); simp; omega
        · cases hs
          refine ⟨h1, h2, h3, h4, h5, h6, h7, ?_⟩
          intro hh
          obtain ⟨a1, a2, a3⟩ := h8 hh
          exact ⟨a1, a2, fun x hx => a3 x (List.mem_of_mem_erase hx)⟩
      · rename_i hge
        cases hs
        refine ⟨h1, h2, h3, h4, h5, h6, h7, ?_⟩
        intro hh
        obtain ⟨a1, a2, a3⟩ := h8 hh
        refine ⟨?_, a2, fun x hx => a3 x (List.mem_of_mem_erase hx)⟩
        intro _
        have := a3 _ hmem
        simp at this ⊢; omega
    · cases hs
  | build p ok =>
    simp only [step] at hs
    split at hs
    · rename_i hmem
      have hl := List.length_erase_of_mem hmem
      have hp := List.length_pos_of_mem hmem
      split at hs
      · cases hs
        refine ⟨?_, ?_, by simp [hl]; omega, h4, ?_, ?_, h7, ?_⟩
        · intro d
          have := h1 d
          simp [circulating, List.count_cons] at this ⊢
          by_cases hd : s.nextClient = d
          · subst hd; simp at this ⊢; omega
          · have hiff : (d < s.nextClient + 1) ↔ (d < s.nextClient) := by omega
            simp [hd, hiff]; omega
        · simp [circulating] at h2 ⊢; omega
        · simp [h5, List.range_succ]; simp [built]
        · intro d
          have := h6 d
          by_cases hd : s.nextClient = d <;> simp [hd] <;> simp [givenBack, handedOut, hd] at this ⊢ <;> omega
        · intro hh; exact h8 (by simpa using hh)
      · cases hs
        refine ⟨h1, h2, by simp [hl]; omega, h4, by simpa [built] using h5,
          fun c => by simpa [givenBack, handedOut] using h6 c, h7, ?_⟩
        intro hh; exact absurd (hh p) (by simp)
    · cases hs
  | fail p =>
    simp only [step] at hs
    split at hs
    · rename_i hmem
      have hl := List.length_erase_of_mem hmem
      have hp := List.length_pos_of_mem hmem
      cases hs
      refine ⟨h1, h2, by simp [hl]; omega, by simp; omega, by simpa [built] using h5,
        fun c => by simpa [givenBack, handedOut] using h6 c, h7, ?_⟩
      intro hh
      obtain ⟨_, a2, _⟩ := h8 (by simpa using hh)
      simp [a2] at hmem
    · cases hs
  | recv p =>
    simp only [step] at hs
    split at hs
    · cases hs
    · rename_i c rest hb
      split at hs
      · rename_i hmem
        cases hs
        refine ⟨?_, ?_, h3, h4, h5, h6, ?_, ?_⟩
        · intro d; have := h1 d; simp [circulating, hb, List.count_cons] at this ⊢; omega
        · simp [circulating, hb] at h2 ⊢; omega
        · simp [hb] at h7; simp; omega
        · intro hh
          obtain ⟨a1, a2, a3⟩ := h8 hh
          exact ⟨fun _ => a1 (List.ne_nil_of_mem hmem), a2, a3⟩
      · cases hs
  | waitDone p =>
    simp only [step] at hs
    split at hs
    · rename_i hmem
      cases hs
      refine ⟨h1, h2, h3, h4, by simpa [built] using h5,
        fun c => by simpa [givenBack, handedOut] using h6 c, h7, ?_⟩
      intro hh
      obtain ⟨a1, a2, a3⟩ := h8 (by simpa using hh)
      exact ⟨fun _ => a1 (List.ne_nil_of_mem hmem.1), a2, a3⟩
    · cases hs
  | took p c =>
    simp only [step] at hs
    split at hs
    · rename_i hmem
      have hl := List.length_erase_of_mem hmem
      have hp := List.length_pos_of_mem hmem
      have hc : ∀ d, (s.took.map (·.2)).count d = ((s.took.erase (p, c)).map (·.2)).count d + if c = d then 1 else 0 := by
        intro d
        have := ((List.perm_cons_erase hmem).map (·.2)).count_eq d
        rw [this]; simp [List.count_cons]
      cases hs
      refine ⟨?_, ?_, h3, h4, by simpa [built] using h5, ?_, ?_, fun hh => h8 (by simpa using hh)⟩
      · intro d
        have := h1 d
        have h9 := hc d
        simp only [circulating, List.count_append, List.count_cons, beq_iff_eq] at this ⊢
        omega
      · simp [circulating, hl] at h2 ⊢; omega
      · intro d
        have := h6 d
        by_cases hd : c = d <;> simp [hd] <;> simp [givenBack, handedOut, hd] at this ⊢ <;> omega
      · simp [h7, hl]; omega
    · cases hs
  | callPush c =>
    simp only [step] at hs
    split at hs
    · rename_i hmem
      have hl := List.length_erase_of_mem hmem
      have hp := List.length_pos_of_mem hmem
      have hc := count_erase_of_mem hmem
      cases hs
      refine ⟨?_, ?_, h3, h4, by simpa [built] using h5, ?_, h7, fun hh => h8 (by simpa using hh)⟩
      · intro d
        have := h1 d
        have h9 := hc d
        simp only [circulating, List.count_append, List.count_cons, beq_iff_eq] at this ⊢
        omega
      · simp [circulating, hl] at h2 ⊢; omega
      · intro d
        have := h6 d
        have h9 := hc d
        by_cases hd : c = d <;> simp [hd] at h9 ⊢ <;> simp [givenBack, handedOut, hd] at this ⊢ <;> omega
    · cases hs
  | inc c =>
    simp only [step] at hs
    split at hs
    · rename_i hmem
      have hl := List.length_erase_of_mem hmem
      have hp := List.length_pos_of_mem hmem
      have hc := count_erase_of_mem hmem
      cases hs
      refine ⟨?_, ?_, h3, h4, h5, h6, by simp [h7]; omega, h8⟩
      · intro d
        have := h1 d
        have h9 := hc d
        simp only [circulating, List.count_append, List.count_cons, beq_iff_eq] at this ⊢
        omega
      · simp [circulating, hl] at h2 ⊢; omega
    · cases hs
  | send c =>
    simp only [step] at hs
    split at hs
    · rename_i hmem
      have hl := List.length_erase_of_mem hmem.1
      have hp := List.length_pos_of_mem hmem.1
      have hc := count_erase_of_mem hmem.1
      cases hs
      refine ⟨?_, ?_, h3, h4, h5, h6, by simp [h7, hl]; omega, h8⟩
      · intro d
        have := h1 d
        have h9 := hc d
        simp only [circulating, List.count_append, List.count_cons, List.count_nil, beq_iff_eq] at this ⊢
        omega
      · simp [circulating, hl] at h2 ⊢; omega
    · cases hs

theorem inv_exec (acts) : ∀ {s s'}, Inv s → exec s acts = some s' → Inv s' := by
  induction acts with
  | nil => intro s s' h he; simp [exec] at he; exact he ▸ h
  | cons a as ih =>
    intro s s' h he
    simp only [exec] at he
    cases hs : step s a with
    | none => simp [hs] at he
    | some t => simp only [hs] at he; exact ih (inv_step h hs) he

theorem cap_step {s a s'} (hs : step s a = some s') : s'.cap = s.cap := by
  cases a <;> simp only [step] at hs <;> (repeat' split at hs) <;> cases hs <;> rfl

theorem cap_exec (acts) : ∀ {s s'}, exec s acts = some s' → s'.cap = s.cap := by
  induction acts with
  | nil => intro s s' he; simp [exec] at he; rw [he]
  | cons a as ih =>
    intro s s' he
    simp only [exec] at he
    cases hs : step s a with
    | none => simp [hs] at he
    | some t => simp only [hs] at he; rw [ih he, cap_step hs]

/-- Only built clients are ever handed out. -/
theorem handed_step {s a s'} (h : ∀ c, 0 < handedOut s.log c → c < s.nextClient) (hi : Inv s)
    (hs : step s a = some s') : ∀ c, 0 < handedOut s'.log c → c < s'.nextClient := by
  intro c hc
  cases a with
  | build p ok =>
    simp only [step] at hs
    split at hs
    · split at hs
      · cases hs
        by_cases hcn : s.nextClient = c
        · simp; omega
        · have := h c (by simpa [handedOut, hcn] using hc)
          simp; omega
      · cases hs; exact h c (by simpa [handedOut] using hc)
    · cases hs
  | took p d =>
    simp only [step] at hs
    split at hs
    · rename_i hmem
      cases hs
      by_cases hcd : d = c
      · subst hcd
        have h1 := hi.circ d
        have hm : d ∈ s.took.map (·.2) := List.mem_map.2 ⟨_, hmem, rfl⟩
        have hp := List.count_pos_iff.2 hm
        simp only [circulating, List.count_append] at h1
        by_cases hlt : d < s.nextClient
        · exact hlt
        · simp only [hlt, if_false] at h1; omega
      · exact h c (by simpa [handedOut, hcd] using hc)
    · cases hs
  | _ =>
    simp only [step] at hs
    (repeat' split at hs) <;> cases hs <;> exact h c (by simpa [handedOut] using hc)

theorem handed_lt (acts) : ∀ {s0 s}, (∀ c, 0 < handedOut s0.log c → c < s0.nextClient) → Inv s0 →
    exec s0 acts = some s → ∀ c, 0 < handedOut s.log c → c < s.nextClient := by
  induction acts with
  | nil => intro s0 s h hi he; simp [exec] at he; exact he ▸ h
  | cons a as ih =>
    intro s0 s h hi he
    simp only [exec] at he
    cases hs : step s0 a with
    | none => simp [hs] at he
    | some t => simp only [hs] at he; exact ih (handed_step h hi hs) (inv_step hi hs) he

/-! ### Pop calls -/

@[simp] theorem returned_append (a b p) : returned (a ++ b) p = returned a p + returned b p := by simp [returned]

/-- The places where Pop call `p` can be. -/
def places (s : State) (p : Nat) : Nat :=
  s.trying.count p + s.reading.count p + (s.casing.map (·.1)).count p + s.building.count p + s.failing.count p +
  s.waiting.count p + (s.took.map (·.1)).count p

structure PopInv (s : State) : Prop where
  once : ∀ p, places s p + returned s.log p = if p < s.nextPid then 1 else 0
  cause : ∀ p, .popErr p ∈ s.log → .cancel p ∈ s.log ∨ .buildFailed p ∈ s.log
  cancelled : ∀ p, s.cancelled p = true → .cancel p ∈ s.log
  failing : ∀ p ∈ s.failing, .buildFailed p ∈ s.log

theorem popInv_init (cap) : PopInv (init cap) := by
  constructor <;> simp [init, places, returned]

theorem count_map_erase {l : List (Nat × Nat)} {a : Nat × Nat} (h : a ∈ l) (b : Nat) :
    (l.map (·.1)).count b = ((l.erase a).map (·.1)).count b + if a.1 = b then 1 else 0 := by
  have := ((List.perm_cons_erase h).map (·.1)).count_eq b
  rw [this, List.map_cons, List.count_cons]
  simp

theorem popInv_step {s a s'} (h : PopInv s) (hs : step s a = some s') : PopInv s' := by
  obtain ⟨h1, h2, h3, h4⟩ := h
  have move : ∀ {t : State}, t.nextPid = s.nextPid → (∀ q, places t q + returned t.log q = places s q + returned s.log q) →
      ∀ p, places t p + returned t.log p = if p < t.nextPid then 1 else 0 := by
    intro t e1 e2 p; rw [e1, e2, h1]
  cases a with
  | callPop =>
    simp only [step] at hs; cases hs
    refine ⟨?_, h2, h3, h4⟩
    intro p
    have := h1 p
    simp only [places, List.count_cons] at this ⊢
    by_cases hp : s.nextPid = p
    · subst hp; simp at this ⊢; omega
    · by_cases hlt : p < s.nextPid
      · simp [hp, hlt] at this ⊢; rw [if_pos (by omega)]; omega
      · simp [hp, hlt] at this ⊢; rw [if_neg (by omega)]; omega
  | cancel p =>
    simp only [step] at hs; cases hs
    refine ⟨?_, ?_, ?_, ?_⟩
    · intro q; simpa [places, returned] using h1 q
    · intro q hq
      simp only [List.mem_append, List.mem_singleton, reduceCtorEq, or_false] at hq
      rcases h2 q hq with h | h <;> simp [h]
    · intro q hq
      simp only at hq
      split at hq
      · rename_i e; simp [e]
      · simp [h3 q hq]
    · intro q hq; simp [h4 q hq]
  | tryRecv p =>
    simp only [step] at hs
    split at hs
    · cases hs
    · split at hs
      · rename_i hm
        cases hs
        refine ⟨move rfl fun q => ?_, h2, h3, h4⟩
        have := count_erase_of_mem hm q
        simp only [places, List.map_cons, List.count_cons, beq_iff_eq]; omega
      · cases hs
  | tryDone p =>
    simp only [step] at hs
    split at hs
    · rename_i hm
      cases hs
      refine ⟨move rfl fun q => ?_, ?_, fun q hq => by simp [h3 q hq], fun q hq => by simp [h4 q hq]⟩
      · have := count_erase_of_mem hm.1 q
        by_cases hpq : p = q <;> simp [returned, places, hpq] at this ⊢ <;> omega
      · intro q hq
        simp only [List.mem_append, List.mem_singleton, Event.popErr.injEq] at hq
        rcases hq with hq | rfl
        · rcases h2 q hq with h | h <;> simp [h]
        · simp [h3 _ hm.2]
    · cases hs
  | tryMiss p =>
    simp only [step] at hs
    split at hs
    · rename_i hm
      cases hs
      refine ⟨move rfl fun q => ?_, h2, h3, h4⟩
      have := count_erase_of_mem hm.1 q
      simp only [places, List.count_cons, beq_iff_eq]; omega
    · cases hs
  | read p =>
    simp only [step] at hs
    split at hs
    · rename_i hm
      cases hs
      refine ⟨move rfl fun q => ?_, h2, h3, h4⟩
      have := count_erase_of_mem hm q
      simp only [places, List.map_cons, List.count_cons, beq_iff_eq]; omega
    · cases hs
  | cas p cur =>
    simp only [step] at hs
    split at hs
    · rename_i hm
      have hc := fun q => count_map_erase hm q
      simp only at hc
      split at hs
      · split at hs
        · cases hs
          refine ⟨move rfl fun q => ?_, h2, h3, h4⟩
          have := hc q
          simp only [places, List.count_cons, beq_iff_eq]; omega
        · cases hs
          refine ⟨move rfl fun q => ?_, h2, h3, h4⟩
          have := hc q
          simp only [places, List.count_cons, beq_iff_eq]; omega
      · cases hs
        refine ⟨move rfl fun q => ?_, h2, h3, h4⟩
        have := hc q
        simp only [places, List.count_cons, beq_iff_eq]; omega
    · cases hs
  | build p ok =>
    simp only [step] at hs
    split at hs
    · rename_i hm
      split at hs
      · cases hs
        refine ⟨move rfl fun q => ?_, ?_, fun q hq => by simp [h3 q hq], fun q hq => by simp [h4 q hq]⟩
        · have := count_erase_of_mem hm q
          by_cases hpq : p = q <;> simp [returned, places, hpq] at this ⊢ <;> omega
        · intro q hq
          simp only [List.mem_append, List.mem_cons, List.not_mem_nil, or_false, reduceCtorEq] at hq
          rcases h2 q hq with h | h <;> simp [h]
      · cases hs
        refine ⟨move rfl fun q => ?_, ?_, fun q hq => by simp [h3 q hq], ?_⟩
        · have := count_erase_of_mem hm q
          by_cases hpq : p = q <;> simp [returned, places, List.count_cons, hpq] at this ⊢ <;> omega
        · intro q hq
          simp only [List.mem_append, List.mem_singleton, reduceCtorEq, or_false] at hq
          rcases h2 q hq with h | h <;> simp [h]
        · intro q hq
          rcases List.mem_cons.1 hq with rfl | hq
          · simp
          · simp [h4 q hq]
    · cases hs
  | fail p =>
    simp only [step] at hs
    split at hs
    · rename_i hm
      cases hs
      refine ⟨move rfl fun q => ?_, ?_, fun q hq => by simp [h3 q hq], fun q hq => by simp [h4 q (List.mem_of_mem_erase hq)]⟩
      · have := count_erase_of_mem hm q
        by_cases hpq : p = q <;> simp [returned, places, hpq] at this ⊢ <;> omega
      · intro q hq
        simp only [List.mem_append, List.mem_singleton, Event.popErr.injEq] at hq
        rcases hq with hq | rfl
        · rcases h2 q hq with h | h <;> simp [h]
        · simp [h4 _ hm]
    · cases hs
  | recv p =>
    simp only [step] at hs
    split at hs
    · cases hs
    · split at hs
      · rename_i hm
        cases hs
        refine ⟨move rfl fun q => ?_, h2, h3, h4⟩
        have := count_erase_of_mem hm q
        simp only [places, List.map_cons, List.count_cons, beq_iff_eq]; omega
      · cases hs
  | waitDone p =>
    simp only [step] at hs
    split at hs
    · rename_i hm
      cases hs
      refine ⟨move rfl fun q => ?_, ?_, fun q hq => by simp [h3 q hq], fun q hq => by simp [h4 q hq]⟩
      · have := count_erase_of_mem hm.1 q
        by_cases hpq : p = q <;> simp [returned, places, hpq] at this ⊢ <;> omega
      · intro q hq
        simp only [List.mem_append, List.mem_singleton, Event.popErr.injEq] at hq
        rcases hq with hq | rfl
        · rcases h2 q hq with h | h <;> simp [h]
        · simp [h3 _ hm.2]
    · cases hs
  | took p c =>
    simp only [step] at hs
    split at hs
    · rename_i hm
      cases hs
      refine ⟨move rfl fun q => ?_, ?_, fun q hq => by simp [h3 q hq], fun q hq => by simp [h4 q hq]⟩
      · have := count_map_erase hm q
        by_cases hpq : p = q <;> simp [returned, places, hpq] at this ⊢ <;> omega
      · intro q hq
        simp only [List.mem_append, List.mem_singleton, reduceCtorEq, or_false] at hq
        rcases h2 q hq with h | h <;> simp [h]
    · cases hs
  | callPush c =>
    simp only [step] at hs
    split at hs
    · cases hs
      refine ⟨move rfl fun q => ?_, ?_, fun q hq => by simp [h3 q hq], fun q hq => by simp [h4 q hq]⟩
      · simp [returned, places]
      · intro q hq
        simp only [List.mem_append, List.mem_singleton, reduceCtorEq, or_false] at hq
        rcases h2 q hq with h | h <;> simp [h]
    · cases hs
  | inc c =>
    simp only [step] at hs
    split at hs
    · cases hs; exact ⟨h1, h2, h3, h4⟩
    · cases hs
  | send c =>
    simp only [step] at hs
    split at hs
    · cases hs; exact ⟨h1, h2, h3, h4⟩
    · cases hs

theorem popInv_exec (acts) : ∀ {s s'}, PopInv s → exec s acts = some s' → PopInv s' := by
  induction acts with
  | nil => intro s s' h he; simp [exec] at he; exact he ▸ h
  | cons a as ih =>
    intro s s' h he
    simp only [exec] at he
    cases hs : step s a with
    | none => simp [hs] at he
    | some t => simp only [hs] at he; exact ih (popInv_step h hs) he

end Verif.ClientPool
