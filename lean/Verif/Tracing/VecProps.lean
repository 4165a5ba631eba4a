import Verif.Tracing.VecSpec
namespace Verif.Tracing

variable {name : Nat → List Char}

/-- Where the bytes of a new event come from. -/
def OkKind (log : List Event) : Kind → Prop
  | .receive (some i) => ∃ e, log[i]? = some e ∧ e.kind = .send
  | _ => True

theorem getElem?_snoc {α : Type} (l : List α) (a : α) (i : Nat) :
    (l ++ [a])[i]? = if i < l.length then l[i]? else if i = l.length then some a else none := by
  by_cases h : i < l.length
  · rw [if_pos h, List.getElem?_append_left h]
  · rw [if_neg h, List.getElem?_append_right (by omega)]
    by_cases h' : i = l.length
    · simp [h']
    · rw [if_neg h']
      have : 1 ≤ i - l.length := by omega
      simp only [List.getElem?_eq_none_iff, List.length_cons, List.length_nil]
      omega

/-- The bytes that an event received. -/
def Kind.bytes : Kind → Option Nat
  | .receive m => m
  | _ => none

/-- All receive events got bytes of an earlier send event. -/
def Sent (log : List Event) : Prop :=
  ∀ (j : Nat) b i, log[j]? = some b → b.kind = .receive (some i) → i < j ∧ ∃ e, log[i]? = some e ∧ e.kind = .send

theorem HB.lt {log : List Event} (hs : Sent log) {i j : Nat} (h : HB log i j) : i < j := by
  induction h with
  | order _ _ _ h => exact h
  | message h1 h2 => exact (hs _ _ _ h1 h2).1
  | trans _ _ h1 h2 => exact Nat.lt_trans h1 h2

theorem HB.right {log : List Event} {i j : Nat} (h : HB log i j) : j < log.length := by
  induction h with
  | order _ h2 _ _ => exact (List.getElem?_eq_some_iff.1 h2).1
  | message h1 _ => exact (List.getElem?_eq_some_iff.1 h1).1
  | trans _ _ _ h2 => exact h2

theorem HB.mono {log : List Event} {e : Event} {i j : Nat} (h : HB log i j) : HB (log ++ [e]) i j := by
  have aux : ∀ {k : Nat} {a : Event}, log[k]? = some a → (log ++ [e])[k]? = some a := by
    intro k a hk
    rw [getElem?_snoc, if_pos (List.getElem?_eq_some_iff.1 hk).1, hk]
  induction h with
  | order h1 h2 h3 h4 => exact .order (aux h1) (aux h2) h3 h4
  | message h1 h2 => exact .message (aux h1) h2
  | trans _ _ h1 h2 => exact .trans h1 h2

theorem Sent.snoc {log : List Event} {e : Event} (hs : Sent log) (hk : OkKind log e.kind) : Sent (log ++ [e]) := by
  intro j b i hj hb
  rw [getElem?_snoc] at hj
  have aux : ∀ {k : Nat} {a : Event}, log[k]? = some a → (log ++ [e])[k]? = some a := by
    intro k a hk
    rw [getElem?_snoc, if_pos (List.getElem?_eq_some_iff.1 hk).1, hk]
  split at hj
  · obtain ⟨h1, a, h2, h3⟩ := hs _ _ _ hj hb
    exact ⟨h1, a, aux h2, h3⟩
  · split at hj
    · rename_i hj'
      simp only [Option.some.injEq] at hj
      subst hj
      rw [hb] at hk
      obtain ⟨a, h2, h3⟩ := hk
      exact ⟨hj' ▸ (List.getElem?_eq_some_iff.1 h2).1, a, aux h2, h3⟩
    · cases hj

/-- What happened before the last event. -/
theorem HB.snoc_iff {log : List Event} {e : Event} (hs : Sent log) (hk : OkKind log e.kind) {i j : Nat} :
    HB (log ++ [e]) i j ↔ HB log i j ∨ (j = log.length ∧
      ((∃ k a, log[k]? = some a ∧ a.proc = e.proc ∧ (i = k ∨ HB log i k)) ∨
        ∃ k, e.kind = .receive (some k) ∧ (i = k ∨ HB log i k))) := by
  have hs' := hs.snoc hk
  constructor
  · intro h
    induction h with
    | @order i j a b h1 h2 h3 h4 =>
      rw [getElem?_snoc] at h1 h2
      have hj : j ≤ log.length := by
        split at h2
        · omega
        · split at h2
          · omega
          · cases h2
      rw [if_pos (by omega)] at h1
      by_cases hjl : j < log.length
      · rw [if_pos hjl] at h2
        exact Or.inl (.order h1 h2 h3 h4)
      · have hje : j = log.length := by omega
        rw [if_neg hjl, if_pos hje] at h2
        simp only [Option.some.injEq] at h2
        subst h2
        exact Or.inr ⟨hje, Or.inl ⟨i, a, h1, h3, Or.inl rfl⟩⟩
    | @message i j b h1 h2 =>
      rw [getElem?_snoc] at h1
      split at h1
      · exact Or.inl (.message h1 h2)
      · split at h1
        · rename_i hje
          simp only [Option.some.injEq] at h1
          subst h1
          exact Or.inr ⟨hje, Or.inr ⟨i, h2, Or.inl rfl⟩⟩
        · cases h1
    | @trans i j k h1 h2 ih1 ih2 =>
      have hjk := h2.lt hs'
      have hk' := h2.right
      simp only [List.length_append, List.length_cons, List.length_nil] at hk'
      rcases ih1 with ih1 | ⟨hj, _⟩
      · rcases ih2 with ih2 | ⟨hke, ih2⟩
        · exact Or.inl (.trans ih1 ih2)
        · refine Or.inr ⟨hke, ?_⟩
          rcases ih2 with ⟨m, a, hm, hp, hjm⟩ | ⟨m, hm, hjm⟩
          · refine Or.inl ⟨m, a, hm, hp, Or.inr ?_⟩
            rcases hjm with rfl | hjm
            · exact ih1
            · exact .trans ih1 hjm
          · refine Or.inr ⟨m, hm, Or.inr ?_⟩
            rcases hjm with rfl | hjm
            · exact ih1
            · exact .trans ih1 hjm
      · omega
  · have last : (log ++ [e])[log.length]? = some e := by simp
    have aux : ∀ {k : Nat} {a : Event}, log[k]? = some a → (log ++ [e])[k]? = some a := by
      intro k a hk
      rw [getElem?_snoc, if_pos (List.getElem?_eq_some_iff.1 hk).1, hk]
    rintro (h | ⟨rfl, h⟩)
    · exact h.mono
    · rcases h with ⟨k, a, hka, hp, h⟩ | ⟨k, hk, h⟩
      · have : HB (log ++ [e]) k log.length := .order (aux hka) last hp (List.getElem?_eq_some_iff.1 hka).1
        rcases h with rfl | h
        · exact this
        · exact .trans h.mono this
      · have : HB (log ++ [e]) k log.length := .message last hk
        rcases h with rfl | h
        · exact this
        · exact .trans h.mono this

/-- The invariant: what the clocks say. -/
structure Inv (name : Nat → List Char) (w : World) : Prop where
  sent : Sent w.log
  /-- The clock of a process is that of its last event. -/
  own : ∀ p, (∀ q, w.clocks p q = 0) ∧ (∀ e ∈ w.log, e.proc ≠ p) ∨
    ∃ i a, w.log[i]? = some a ∧ a.proc = p ∧ a.clock = w.clocks p ∧
      ∀ (j : Nat) b, w.log[j]? = some b → b.proc = p → j ≤ i
  /-- Nobody knows more of a process than itself. -/
  bound : ∀ e ∈ w.log, ∀ p, e.clock (name p) ≤ w.clocks p (name p)
  /-- The entry of an event's own process tells who knows the event. -/
  knows : ∀ (i j : Nat) a b, w.log[i]? = some a → w.log[j]? = some b →
    ((i = j ∨ HB w.log i j) ↔ a.clock (name a.proc) ≤ b.clock (name a.proc))
  pos : ∀ e ∈ w.log, 0 < e.clock (name e.proc)
  mono : ∀ (i j : Nat) a b, w.log[i]? = some a → w.log[j]? = some b → HB w.log i j →
    ∀ q, a.clock q ≤ b.clock q

theorem Inv.init : Inv name World.init := by
  refine ⟨?_, ?_, ?_, ?_, ?_, ?_⟩ <;> simp [World.init, Sent]

/-- A step keeps the invariant: the clock is ticked and merged with that of the message. -/
theorem Inv.record (hn : ∀ p q, name p = name q → p = q) {w : World} (h : Inv name w) (p : Nat) (k : Kind)
    (hk : OkKind w.log k) (c : List Char → Nat)
    (hc : c = merge (tick (name p) (w.clocks p)) (w.clockOf k.bytes)) :
    Inv name (w.record p k c) := by
  have hlog : (w.record p k c).log = w.log ++ [⟨p, k, c⟩] := rfl
  have hck : ∀ q, (w.record p k c).clocks q = if q = p then c else w.clocks q := fun _ => rfl
  -- the clock of the message
  have hmsg : ∀ q, w.clockOf k.bytes (name q) ≤ w.clocks q (name q) := by
    intro q
    cases hb : k.bytes with
    | none => exact Nat.zero_le _
    | some m =>
      cases he : w.log[m]? with
      | none => simp [World.clockOf, he]
      | some e =>
        simp only [World.clockOf, he]
        exact h.bound _ (List.mem_of_getElem? he) q
  have hcp : c (name p) = w.clocks p (name p) + 1 := by
    have := hmsg p
    rw [hc]
    simp only [merge, tick, if_true]
    omega
  have hown : ∀ q, w.clocks p q ≤ c q := by
    intro q
    rw [hc]
    simp only [merge, tick]
    split <;> omega
  have hcq : ∀ q, q ≠ p → c (name q) ≤ w.clocks q (name q) := by
    intro q hq
    have h1 := hmsg q
    have hne : name q ≠ name p := fun e => hq (hn _ _ e)
    rw [hc]
    simp only [merge, tick, hne, if_false]
    refine Nat.max_le.2 ⟨?_, h1⟩
    rcases h.own p with ⟨hz, _⟩ | ⟨i, a, hi, _, ha, _⟩
    · rw [hz]; exact Nat.zero_le _
    · rw [← ha]; exact h.bound _ (List.mem_of_getElem? hi) q
  have last : (w.log ++ [⟨p, k, c⟩])[w.log.length]? = some ⟨p, k, c⟩ := by simp
  -- who happened before the new event, by clocks
  have hnew : ∀ (i : Nat) a, w.log[i]? = some a →
      (HB (w.log ++ [⟨p, k, c⟩]) i w.log.length ↔ a.clock (name a.proc) ≤ c (name a.proc)) := by
    intro i a hi
    have hil := (List.getElem?_eq_some_iff.1 hi).1
    rw [HB.snoc_iff h.sent hk]
    constructor
    · rintro (hb | ⟨_, hb⟩)
      · have := hb.right; omega
      · rcases hb with ⟨m, b, hm, hp, hb⟩ | ⟨m, hm, hb⟩
        · have h1 := (h.knows i m a b hi hm).1 hb
          refine Nat.le_trans h1 (Nat.le_trans ?_ (hown _))
          -- `b` is an event of `p`
          rcases h.own p with ⟨_, hz⟩ | ⟨l, d, hl, hld, hlc, hmax⟩
          · exact absurd hp (hz b (List.mem_of_getElem? hm))
          · rw [← hlc]
            have hml := hmax m b hm hp
            rcases Nat.eq_or_lt_of_le hml with e | e
            · subst e
              rw [hm] at hl
              cases hl
              exact Nat.le_refl _
            · exact h.mono m l b d hm hl (.order hm hl (hp.trans hld.symm) e) _
        · simp only at hm
          subst hm
          obtain ⟨b, hmb, _⟩ := hk
          have h1 := (h.knows i m a b hi hmb).1 hb
          refine Nat.le_trans h1 ?_
          have hcl : w.clockOf (Kind.receive (some m)).bytes = b.clock := by
            simp [Kind.bytes, World.clockOf, hmb]
          rw [hc, hcl]
          exact Nat.le_max_right _ _
    · intro hle
      refine Or.inr ⟨rfl, ?_⟩
      by_cases hap : a.proc = p
      · exact Or.inl ⟨i, a, hi, hap, Or.inl rfl⟩
      · have hne : name a.proc ≠ name p := fun e => hap (hn _ _ e)
        rw [hc] at hle
        simp only [merge, tick, hne, if_false] at hle
        have hpos := h.pos a (List.mem_of_getElem? hi)
        rcases Nat.le_total (w.clocks p (name a.proc)) (w.clockOf k.bytes (name a.proc)) with hmx | hmx
        · rw [Nat.max_eq_right hmx] at hle
          cases hb : k.bytes with
          | none =>
            rw [hb] at hle
            simp only [World.clockOf] at hle
            omega
          | some m =>
            have hkm : k = .receive (some m) := by
              cases k with
              | «local» => cases hb
              | send => cases hb
              | receive x => simp only [Kind.bytes] at hb; rw [hb]
            subst hkm
            obtain ⟨b, hmb, _⟩ := hk
            simp only [Kind.bytes, World.clockOf, hmb] at hle
            exact Or.inr ⟨m, rfl, (h.knows i m a b hi hmb).2 hle⟩
        · rw [Nat.max_eq_left hmx] at hle
          rcases h.own p with ⟨hz, _⟩ | ⟨l, d, hl, hld, hlc, hmax⟩
          · rw [hz] at hle; omega
          · rw [← hlc] at hle
            exact Or.inl ⟨l, d, hl, hld, (h.knows i l a d hi hl).2 hle⟩
  have hnewle : ∀ (i : Nat) a, w.log[i]? = some a → HB (w.log ++ [⟨p, k, c⟩]) i w.log.length →
      ∀ q, a.clock q ≤ c q := by
    intro i a hi hb0 q
    have hil := (List.getElem?_eq_some_iff.1 hi).1
    rcases (HB.snoc_iff h.sent hk).1 hb0 with hb | ⟨_, hb⟩
    · have := hb.right; omega
    · rcases hb with ⟨m, b, hm, hp, hb⟩ | ⟨m, hm, hb⟩
      · have h1 : a.clock q ≤ b.clock q := by
          rcases hb with rfl | hb
          · rw [hi] at hm; cases hm; exact Nat.le_refl _
          · exact h.mono i m a b hi hm hb q
        refine Nat.le_trans h1 (Nat.le_trans ?_ (hown _))
        rcases h.own p with ⟨_, hz⟩ | ⟨l, d, hl, hld, hlc, hmax⟩
        · exact absurd hp (hz b (List.mem_of_getElem? hm))
        · rw [← hlc]
          rcases Nat.eq_or_lt_of_le (hmax m b hm hp) with e | e
          · subst e
            rw [hm] at hl
            cases hl
            exact Nat.le_refl _
          · exact h.mono m l b d hm hl (.order hm hl (hp.trans hld.symm) e) _
      · simp only at hm
        subst hm
        obtain ⟨b, hmb, _⟩ := hk
        have h1 : a.clock q ≤ b.clock q := by
          rcases hb with rfl | hb
          · rw [hi] at hmb; cases hmb; exact Nat.le_refl _
          · exact h.mono i m a b hi hmb hb q
        refine Nat.le_trans h1 ?_
        have hcl : w.clockOf (Kind.receive (some m)).bytes = b.clock := by
          simp [Kind.bytes, World.clockOf, hmb]
        rw [hc, hcl]
        exact Nat.le_max_right _ _
  have hsplit : ∀ (j : Nat) b, (w.log ++ [⟨p, k, c⟩])[j]? = some b →
      (j < w.log.length ∧ w.log[j]? = some b) ∨ (j = w.log.length ∧ b = ⟨p, k, c⟩) := by
    intro j b hj
    rw [getElem?_snoc] at hj
    split at hj
    · exact Or.inl ⟨by assumption, hj⟩
    · split at hj
      · exact Or.inr ⟨by assumption, (Option.some.inj hj).symm⟩
      · cases hj
  have hsent : Sent (w.log ++ [⟨p, k, c⟩]) := h.sent.snoc hk
  have hclk : ∀ q, w.clocks q (name q) ≤ (w.record p k c).clocks q (name q) := by
    intro q
    rw [hck]
    split
    · rename_i e
      subst e
      omega
    · exact Nat.le_refl _
  refine ⟨hlog ▸ hsent, ?_, ?_, ?_, ?_, ?_⟩
  · intro q
    rw [hlog, hck]
    by_cases hqp : q = p
    · subst hqp
      refine Or.inr ⟨w.log.length, _, last, rfl, by simp, ?_⟩
      intro j b hj _
      rcases hsplit j b hj with ⟨hj', _⟩ | ⟨hj', _⟩ <;> omega
    · rw [if_neg hqp]
      rcases h.own q with ⟨hz, hno⟩ | ⟨i, a, hi, hap, hac, hmax⟩
      · refine Or.inl ⟨hz, ?_⟩
        intro e he
        rcases List.mem_append.1 he with he | he
        · exact hno e he
        · rw [List.mem_singleton.1 he]
          exact fun e => hqp e.symm
      · refine Or.inr ⟨i, a, ?_, hap, hac, ?_⟩
        · rw [getElem?_snoc, if_pos (List.getElem?_eq_some_iff.1 hi).1, hi]
        · intro j b hj hbq
          rcases hsplit j b hj with ⟨_, hj'⟩ | ⟨_, rfl⟩
          · exact hmax j b hj' hbq
          · exact absurd hbq.symm hqp
  · intro e he q
    rw [hlog] at he
    rcases List.mem_append.1 he with he | he
    · exact Nat.le_trans (h.bound e he q) (hclk q)
    · rw [List.mem_singleton.1 he, hck]
      by_cases hqp : q = p
      · subst hqp
        simp
      · rw [if_neg hqp]
        exact hcq q hqp
  · intro i j a b hi hj
    rw [hlog] at hi hj ⊢
    rcases hsplit i a hi with ⟨hil, hi'⟩ | ⟨hil, rfl⟩ <;> rcases hsplit j b hj with ⟨hjl, hj'⟩ | ⟨hjl, rfl⟩
    · rw [← h.knows i j a b hi' hj', HB.snoc_iff h.sent hk]
      constructor
      · rintro (e | e | ⟨e, _⟩)
        · exact Or.inl e
        · exact Or.inr e
        · omega
      · rintro (e | e)
        · exact Or.inl e
        · exact Or.inr (Or.inl e)
    · subst hjl
      rw [← hnew i a hi']
      constructor
      · rintro (e | e)
        · omega
        · exact e
      · exact Or.inr
    · subst hil
      constructor
      · rintro (e | e)
        · omega
        · have := e.lt hsent; omega
      · intro hle
        have := h.bound b (List.mem_of_getElem? hj') p
        simp only at hle
        omega
    · subst hil
      exact iff_of_true (Or.inl hjl.symm) (Nat.le_refl _)
  · intro e he
    rw [hlog] at he
    rcases List.mem_append.1 he with he | he
    · exact h.pos e he
    · rw [List.mem_singleton.1 he]
      simp only
      omega
  · intro i j a b hi hj hb q
    rw [hlog] at hi hj hb
    rcases hsplit i a hi with ⟨hil, hi'⟩ | ⟨hil, rfl⟩ <;> rcases hsplit j b hj with ⟨hjl, hj'⟩ | ⟨hjl, rfl⟩
    · rcases (HB.snoc_iff h.sent hk).1 hb with hb | ⟨e, _⟩
      · exact h.mono i j a b hi' hj' hb q
      · omega
    · subst hjl
      exact hnewle i a hi' hb q
    · have := hb.lt hsent; omega
    · have := hb.lt hsent; omega

/-- What the log says about a call. -/
structure CallOk (log : List Event) (call : Call) : Prop where
  request : ∃ e, log[call.request]? = some e ∧ e.kind = .send ∧ e.proc = call.client
  serving : ∀ run ∈ call.runs, ∃ (a : Nat) (e : Event), log[a]? = some e ∧ e.proc = call.server ∧
    e.kind = .receive (some call.request) ∧ ∀ r, run = .responded r → a < r
  responded : ∀ r, Run.responded r ∈ call.runs → ∃ e, log[r]? = some e ∧ e.kind = .send ∧ e.proc = call.server
  result : ∀ r, call.result = some (some r) → Run.responded r ∈ call.runs ∧
    ∃ (d : Nat) (e : Event), log[d]? = some e ∧ e.proc = call.client ∧ e.kind = .receive (some r)

theorem CallOk.mono {log : List Event} {call : Call} (h : CallOk log call) (e : Event) : CallOk (log ++ [e]) call := by
  have aux : ∀ {k : Nat} {a : Event}, log[k]? = some a → (log ++ [e])[k]? = some a := by
    intro k a hk
    rw [getElem?_snoc, if_pos (List.getElem?_eq_some_iff.1 hk).1, hk]
  refine ⟨?_, ?_, ?_, ?_⟩
  · obtain ⟨a, h1, h2⟩ := h.request
    exact ⟨a, aux h1, h2⟩
  · intro run hr
    obtain ⟨a, x, h1, h2⟩ := h.serving run hr
    exact ⟨a, x, aux h1, h2⟩
  · intro r hr
    obtain ⟨x, h1, h2⟩ := h.responded r hr
    exact ⟨x, aux h1, h2⟩
  · intro r hr
    obtain ⟨h1, d, x, h2, h3⟩ := h.result r hr
    exact ⟨h1, d, x, aux h2, h3⟩

structure SysInv (name : Nat → List Char) (s : Sys) : Prop where
  world : Inv name s.world
  calls : ∀ call ∈ s.calls, CallOk s.world.log call

theorem mem_set_cases {α : Type} {l : List α} {k : Nat} {a b : α} (h : b ∈ l.set k a) : b ∈ l ∨ b = a :=
  List.mem_or_eq_of_mem_set h

theorem merge_zero (c : List Char → Nat) : merge c (fun _ => 0) = c := by
  funext q
  simp [merge]

theorem step_inv (hn : ∀ p q, name p = name q → p = q) {s : Sys} (h : SysInv name s) (op : Op) :
    SysInv name (step name s op) := by
  cases op with
  | log p =>
    refine ⟨h.world.record hn p .local trivial _ ?_, fun call hc => (h.calls call hc).mono _⟩
    exact (merge_zero _).symm
  | call c d =>
    refine ⟨h.world.record hn c .send trivial _ (merge_zero _).symm, ?_⟩
    intro call hc
    rcases List.mem_append.1 hc with hc | hc
    · exact (h.calls call hc).mono _
    · rw [List.mem_singleton.1 hc]
      refine ⟨⟨⟨c, .send, tick (name c) (s.world.clocks c)⟩, ?_, rfl, rfl⟩, by simp, by simp, by simp⟩
      simp [step, getSendCtx, World.record]
  | arrive k =>
    simp only [step]
    split
    · rename_i call hk
      have hmem := List.mem_of_getElem? hk
      have hok := h.calls call hmem
      refine ⟨h.world.record hn _ (.receive (some call.request)) ?_ _ rfl, ?_⟩
      · obtain ⟨e, h1, h2, _⟩ := hok.request
        exact ⟨e, h1, h2⟩
      · intro call' hc
        rcases mem_set_cases hc with hc | rfl
        · exact (h.calls _ hc).mono _
        · have hm := hok.mono ⟨call.server, .receive (some call.request),
            merge (tick (name call.server) (s.world.clocks call.server)) (s.world.clockOf (some call.request))⟩
          refine ⟨hm.request, ?_, ?_, ?_⟩
          · intro run hr
            rcases List.mem_append.1 hr with hr | hr
            · exact hm.serving run hr
            · rw [List.mem_singleton.1 hr]
              exact ⟨s.world.log.length, _, by simp [unpackReceiveCtx, World.record]; rfl, rfl, rfl, by simp⟩
          · intro r hr
            exact hm.responded r (by simpa using hr)
          · intro r hr
            obtain ⟨h1, h2⟩ := hm.result r hr
            exact ⟨List.mem_append.2 (Or.inl h1), h2⟩
    · exact h
  | respond k i =>
    simp only [step]
    split
    · rename_i call hk
      split
      · rename_i hi
        have hmem := List.mem_of_getElem? hk
        have hok := h.calls call hmem
        refine ⟨h.world.record hn _ .send trivial _ (merge_zero _).symm, ?_⟩
        intro call' hc
        rcases mem_set_cases hc with hc | rfl
        · exact (h.calls _ hc).mono _
        · have hm := hok.mono ⟨call.server, .send, tick (name call.server) (s.world.clocks call.server)⟩
          refine ⟨hm.request, ?_, ?_, ?_⟩
          · intro run hr
            rcases mem_set_cases hr with hr | rfl
            · exact hm.serving run hr
            · obtain ⟨a, e, h1, h2, h3, _⟩ := hok.serving _ (List.mem_of_getElem? hi)
              have hal := (List.getElem?_eq_some_iff.1 h1).1
              refine ⟨a, e, ?_, h2, h3, ?_⟩
              · simp only [getSendCtx, World.record]
                rw [getElem?_snoc, if_pos hal, h1]
              · intro r hr
                simp only [getSendCtx, Run.responded.injEq] at hr
                omega
          · intro r hr
            rcases mem_set_cases hr with hr | hr
            · exact hm.responded r hr
            · simp only [getSendCtx, Run.responded.injEq] at hr
              subst hr
              exact ⟨_, by simp [getSendCtx, World.record]; rfl, rfl, rfl⟩
          · intro r hr
            obtain ⟨h1, h2⟩ := hm.result r hr
            refine ⟨?_, h2⟩
            obtain ⟨j, hj, hje⟩ := List.mem_iff_getElem.1 h1
            have hij : i ≠ j := by
              intro e
              subst e
              rw [List.getElem?_eq_getElem hj] at hi
              rw [hje] at hi
              cases hi
            refine List.mem_iff_getElem?.2 ⟨j, ?_⟩
            rw [List.getElem?_set_ne hij, List.getElem?_eq_getElem hj]
            exact congrArg some hje
      · exact h
    · exact h
  | «return» k i =>
    simp only [step]
    split
    · rename_i call hk
      split
      · rename_i r hi hres
        have hmem := List.mem_of_getElem? hk
        have hok := h.calls call hmem
        have hr := List.mem_of_getElem? hi
        refine ⟨h.world.record hn _ (.receive (some r)) ?_ _ rfl, ?_⟩
        · obtain ⟨e, h1, h2, _⟩ := hok.responded r hr
          exact ⟨e, h1, h2⟩
        · intro call' hc
          rcases mem_set_cases hc with hc | rfl
          · exact (h.calls _ hc).mono _
          · have hm := hok.mono ⟨call.client, .receive (some r),
              merge (tick (name call.client) (s.world.clocks call.client)) (s.world.clockOf (some r))⟩
            refine ⟨hm.request, hm.serving, hm.responded, ?_⟩
            intro r' hr'
            simp only [Option.some.injEq] at hr'
            subst hr'
            exact ⟨hr, s.world.log.length, _, by simp [unpackReceiveCtx, World.record]; rfl, rfl, rfl⟩
      · exact h
    · exact h
  | fail k =>
    simp only [step]
    split
    · rename_i call hk
      split
      · have hmem := List.mem_of_getElem? hk
        have hok := h.calls call hmem
        refine ⟨h.world.record hn _ (.receive none) trivial _ rfl, ?_⟩
        intro call' hc
        rcases mem_set_cases hc with hc | rfl
        · exact (h.calls _ hc).mono _
        · have hm := hok.mono ⟨call.client, .receive none,
            merge (tick (name call.client) (s.world.clocks call.client)) (s.world.clockOf none)⟩
          refine ⟨hm.request, hm.serving, hm.responded, ?_⟩
          intro r' hr'
          simp at hr'
      · exact h
    · exact h

theorem exec_inv (hn : ∀ p q, name p = name q → p = q) (ops : List Op) : SysInv name (exec name ops) := by
  have : ∀ (ops : List Op) (s : Sys), SysInv name s → SysInv name (ops.foldl (step name) s) := by
    intro ops
    induction ops with
    | nil => exact fun s h => h
    | cons op ops ih => exact fun s h => ih _ (step_inv hn h op)
  exact this ops _ ⟨Inv.init, by simp⟩

/-- **C67** (clocks tell causality).  Whatever the processes do, in whatever order requests and
responses travel, get lost or are repeated: if the loggers have different names, then an event
of the log happened before another one if and only if its clock is smaller. -/
theorem C67_clocks (hn : ∀ p q, name p = name q → p = q) (ops : List Op) {i j : Nat} {a b : Event}
    (hi : (exec name ops).world.log[i]? = some a) (hj : (exec name ops).world.log[j]? = some b) :
    HB (exec name ops).world.log i j ↔ Less a.clock b.clock := by
  have h := (exec_inv hn ops).world
  constructor
  · intro hb
    refine ⟨h.mono i j a b hi hj hb, ?_⟩
    intro e
    have hlt := hb.lt h.sent
    have := (h.knows j i b a hj hi).2 (by rw [e]; exact Nat.le_refl _)
    rcases this with e' | hb'
    · omega
    · have := hb'.lt h.sent; omega
  · rintro ⟨hle, hne⟩
    rcases (h.knows i j a b hi hj).2 (hle _) with e | hb
    · subst e
      rw [hi] at hj
      cases hj
      exact absurd rfl hne
    · exact hb

/-- **C67** (calls).  If a call returned a response to the client, then the clocks in the log
show that the request was sent before it arrived, that it arrived before the response was
sent, and that the response was sent before the client received it. -/
theorem C67_call (hn : ∀ p q, name p = name q → p = q) (ops : List Op) {call : Call} {r : Nat}
    (hc : call ∈ (exec name ops).calls) (hr : call.result = some (some r)) :
    ∃ (a d : Nat) (e1 e2 e3 e4 : Event),
      (exec name ops).world.log[call.request]? = some e1 ∧ e1.proc = call.client ∧
      (exec name ops).world.log[a]? = some e2 ∧ e2.proc = call.server ∧
      (exec name ops).world.log[r]? = some e3 ∧ e3.proc = call.server ∧
      (exec name ops).world.log[d]? = some e4 ∧ e4.proc = call.client ∧
      Less e1.clock e2.clock ∧ Less e2.clock e3.clock ∧ Less e3.clock e4.clock := by
  have h := (exec_inv hn ops).calls call hc
  obtain ⟨e1, r1, _, p1⟩ := h.request
  obtain ⟨hrun, d, e4, r4, p4, k4⟩ := h.result r hr
  obtain ⟨a, e2, r2, p2, k2, hlt⟩ := h.serving _ hrun
  obtain ⟨e3, r3, _, p3⟩ := h.responded r hrun
  refine ⟨a, d, e1, e2, e3, e4, r1, p1, r2, p2, r3, p3, r4, p4, ?_, ?_, ?_⟩
  · exact (C67_clocks hn ops r1 r2).1 (.message r2 k2)
  · exact (C67_clocks hn ops r2 r3).1 (.order r2 r3 (p2.trans p3.symm) (hlt r rfl))
  · exact (C67_clocks hn ops r3 r4).1 (.message r4 k4)

/-- **C67** needs loggers with different names (wiring.go:109: "Logger names must be unique
across the system").  If two processes have the same name, the clocks say that one event
happened before another one although the processes never exchanged anything. -/
theorem C67_same_name_refuted : ∃ (name : Nat → List Char) (ops : List Op) (a b : Event),
    (exec name ops).world.log[0]? = some a ∧ (exec name ops).world.log[2]? = some b ∧
    a.proc ≠ b.proc ∧ Less a.clock b.clock ∧ ¬HB (exec name ops).world.log 0 2 := by
  refine ⟨fun _ => ['x'], [.log 0, .log 1, .log 1], ⟨0, .local, tick ['x'] (fun _ => 0)⟩,
    ⟨1, .local, tick ['x'] (tick ['x'] (fun _ => 0))⟩, rfl, rfl, by simp, ⟨?_, ?_⟩, ?_⟩
  · intro q
    simp only [tick]
    split <;> omega
  · intro e
    have := congrFun e ['x']
    simp [tick] at this
  · intro h
    -- no event of process 0 happened before one of process 1
    have key : ∀ i j, HB (exec (fun _ => ['x']) [.log 0, .log 1, .log 1]).world.log i j → i = 0 → False := by
      intro i j h
      induction h with
      | @order i j a b h1 h2 h3 h4 =>
        intro h0
        subst h0
        have h1' : a = ⟨0, .local, tick ['x'] (fun _ => 0)⟩ := (Option.some.inj h1).symm
        match j, h2, h4 with
        | 1, h2, _ =>
          have h2' : b = ⟨1, .local, tick ['x'] (fun _ => 0)⟩ := (Option.some.inj h2).symm
          rw [h1', h2'] at h3
          cases h3
        | 2, h2, _ =>
          have h2' : b = ⟨1, .local, tick ['x'] (tick ['x'] (fun _ => 0))⟩ := (Option.some.inj h2).symm
          rw [h1', h2'] at h3
          cases h3
        | j + 3, h2, _ => cases h2
      | @message i j b h1 h2 =>
        match j, h1 with
        | 0, h1 => rw [← Option.some.inj h1] at h2; cases h2
        | 1, h1 => rw [← Option.some.inj h1] at h2; cases h2
        | 2, h1 => rw [← Option.some.inj h1] at h2; cases h2
        | j + 3, h1 => cases h1
      | trans _ _ ih1 _ => exact ih1
    exact key _ _ h rfl

/-- A call from process 0 to process 1 that logs something, with a concurrent event of
process 2. -/
def exVec : List Op := [.log 2, .call 0 1, .arrive 0, .log 1, .respond 0 0, .return 0 0, .log 0]

/-- The name of process `p`: `p` letters. -/
def exName (p : Nat) : List Char := List.replicate p 'p'

theorem exName_inj : ∀ p q, exName p = exName q → p = q := by
  intro p q h
  simpa [exName] using congrArg List.length h

example : ((exec exName exVec).world.log.map fun e => (e.proc, e.clock [], e.clock ['p'], e.clock ['p', 'p'])) =
    [(2, 0, 0, 1), (0, 1, 0, 0), (1, 1, 1, 0), (1, 1, 2, 0), (1, 1, 3, 0), (0, 2, 3, 0), (0, 3, 3, 0)] := by
  decide +kernel

example : (exec exName exVec).calls = [⟨0, 1, 1, [.responded 4], some (some 4)⟩] := by decide +kernel

example : Less ((exec exName exVec).world.log[3]).clock ((exec exName exVec).world.log[6]).clock :=
  (C67_clocks exName_inj exVec rfl rfl).1
    (.trans (.order (i := 3) (j := 4) rfl rfl rfl (by decide))
      (.trans (.message (i := 4) (j := 5) rfl rfl) (.order (i := 5) (j := 6) rfl rfl rfl (by decide))))

end Verif.Tracing
