import Verif.Wrappers.Spec
/-
C46: retry budgets.
-/
namespace Verif.Wrappers

/-! ### Token bucket -/

theorem goodRetries_cons (c : TbCall) (cs : List TbCall) :
    goodRetries (c :: cs) = (if c.calls = 2 ∧ c.ok then 1 else 0) + goodRetries cs := by
  unfold goodRetries
  by_cases h : c.calls = 2 ∧ c.ok = true
  · rw [List.filter_cons_of_pos (by simpa using h), if_pos h, List.length_cons, Nat.add_comm]
  · rw [List.filter_cons_of_neg (by simpa using h), if_neg h, Nat.zero_add]

theorem retries_cons (c : TbCall) (cs : List TbCall) :
    retries (c :: cs) = (c.calls - 1) + retries cs := by
  simp [retries]

/-- The budget, from any level. -/
theorem bucket_run (b : Bucket) (hcost : 0 ≤ b.cost) (hrep : 0 ≤ b.replenish)
    (hone : 0 < b.one) : ∀ (os : List (Bool × Bool)) (tb : Int), 0 ≤ tb → tb ≤ b.cap →
      0 ≤ (b.run tb os).1 ∧ (b.run tb os).1 ≤ b.cap ∧
      (∀ c ∈ (b.run tb os).2, 1 ≤ c.calls ∧ c.calls ≤ 2) ∧
      b.cost * retries (b.run tb os).2 + (b.run tb os).1
        ≤ tb + b.replenish * goodRetries (b.run tb os).2 := by
  intro os
  induction os with
  | nil => intro tb h1 h2; simp [Bucket.run, h1, h2, retries, goodRetries]
  | cons o os ih =>
    intro tb h1 h2
    obtain ⟨o1, o2⟩ := o
    simp only [Bucket.run, retries_cons, goodRetries_cons]
    by_cases ho : o1 = true
    · have e : b.call tb o1 o2 = (tb, ⟨1, true⟩) := by simp [Bucket.call, ho]
      rw [e]
      obtain ⟨g1, g2, g3, g4⟩ := ih tb h1 h2
      refine ⟨g1, g2, ?_, by simpa using g4⟩
      intro c hc
      rcases List.mem_cons.1 hc with rfl | hc
      · simp
      · exact g3 c hc
    by_cases hlow : tb - b.cost < b.one
    · have e : b.call tb o1 o2 = (tb, ⟨1, false⟩) := by simp [Bucket.call, ho, hlow]
      rw [e]
      obtain ⟨g1, g2, g3, g4⟩ := ih tb h1 h2
      refine ⟨g1, g2, ?_, by simpa using g4⟩
      intro c hc
      rcases List.mem_cons.1 hc with rfl | hc
      · simp
      · exact g3 c hc
    cases o2 with
    | true =>
      have e : b.call tb o1 true = (min (tb - b.cost + b.replenish) b.cap, ⟨2, true⟩) := by
        simp [Bucket.call, ho, hlow]
      rw [e]
      obtain ⟨g1, g2, g3, g4⟩ := ih (min (tb - b.cost + b.replenish) b.cap) (by omega) (by omega)
      refine ⟨g1, g2, ?_, ?_⟩
      · intro c hc
        rcases List.mem_cons.1 hc with rfl | hc
        · simp
        · exact g3 c hc
      · simp only [and_self, if_true, Int.natCast_add, Int.mul_add]
        show b.cost * ((1 : Nat) : Int) + _ + _ ≤ tb + (b.replenish * ((1 : Nat) : Int) + _)
        omega
    | false =>
      have e : b.call tb o1 false = (tb - b.cost, ⟨2, false⟩) := by simp [Bucket.call, ho, hlow]
      rw [e]
      obtain ⟨g1, g2, g3, g4⟩ := ih (tb - b.cost) (by omega) (by omega)
      refine ⟨g1, g2, ?_, ?_⟩
      · intro c hc
        rcases List.mem_cons.1 hc with rfl | hc
        · simp
        · exact g3 c hc
      · simp only [Bool.false_eq_true, and_false, if_false, Int.natCast_add, Int.mul_add,
          Nat.zero_add]
        show b.cost * ((1 : Nat) : Int) + _ + _ ≤ tb + _
        omega

/-- **C46** (calls that do not overlap).  Whatever the outcomes of the calls, the
bucket stays between zero and its capacity, every call makes at most one retry,
and the cost of all retries is at most the initial capacity plus what the
successful retries replenished. -/
theorem C46_bucket_partial (b : Bucket) (hcap : 0 ≤ b.cap) (hcost : 0 ≤ b.cost)
    (hrep : 0 ≤ b.replenish) (hone : 0 < b.one) (os : List (Bool × Bool)) :
    let lvl := (b.run b.cap os).1
    let cs := (b.run b.cap os).2
    0 ≤ lvl ∧ lvl ≤ b.cap ∧ (∀ c ∈ cs, 1 ≤ c.calls ∧ c.calls ≤ 2) ∧
    b.cost * retries cs ≤ b.cap + b.replenish * goodRetries cs := by
  obtain ⟨h1, h2, h3, h4⟩ := bucket_run b hcost hrep hone os b.cap hcap (Int.le_refl _)
  exact ⟨h1, h2, h3, by omega⟩

/-- **C46**, who retries: a call makes a second attempt exactly when its first one
failed and a token is left after paying for the retry; it succeeds exactly when
its last attempt did. -/
theorem C46_retry_decision (b : Bucket) (tb : Int) (ok1 ok2 : Bool) :
    ((b.call tb ok1 ok2).2.calls = 2 ↔ ok1 = false ∧ b.one + b.cost ≤ tb) ∧
    ((b.call tb ok1 ok2).2.ok = true ↔
      ok1 = true ∨ (b.one + b.cost ≤ tb ∧ ok2 = true)) := by
  unfold Bucket.call
  by_cases h : tb - b.cost < b.one
  · have h' : ¬ b.one + b.cost ≤ tb := by omega
    cases ok1 <;> simp [h, h']
  · have h' : b.one + b.cost ≤ tb := by omega
    cases ok1 <;> cases ok2 <;> simp [h, h']

/-- **C46 refuted**: successes that need no retry replenish nothing, and so a
drained bucket never recovers.  Once a retry is unaffordable, no later call is ever
retried, however many calls succeed. -/
theorem C46_drained_forever_refuted (b : Bucket) (tb : Int) (h : tb < b.one + b.cost)
    (os : List (Bool × Bool)) : (b.run tb os).1 = tb ∧ retries (b.run tb os).2 = 0 := by
  induction os with
  | nil => simp [Bucket.run, retries]
  | cons o os ih =>
    obtain ⟨o1, o2⟩ := o
    have hlow : tb - b.cost < b.one := by omega
    have e : ∃ ok, b.call tb o1 o2 = (tb, ⟨1, ok⟩) := by
      cases o1
      · exact ⟨false, by simp [Bucket.call, hlow]⟩
      · exact ⟨true, by simp [Bucket.call]⟩
    obtain ⟨ok, e⟩ := e
    simp only [Bucket.run, e, retries_cons]
    exact ⟨ih.1, by rw [ih.2]⟩

/-- Goroutines `0 … n-1` read the bucket, then each of them decides. -/
def stampede (n : Nat) : List TbAct :=
  (List.range n).map TbAct.readBucket ++ (List.range n).map TbAct.decide

/-- **C46 refuted** for overlapping calls: with capacity 2, cost 1 and nothing
replenished, any number of goroutines can retry, and the bucket pays for one. -/
theorem C46_concurrent_refuted (n : Nat) (hn : 1 ≤ n) :
    let b : Bucket := ⟨2, 1, 0, 1⟩
    let s := (stampede n).foldl b.step ⟨b.cap, fun _ => .start, 0⟩
    s.retries = n ∧ s.level = 1 := by
  have reads : ∀ m : Nat, ((List.range m).map TbAct.readBucket).foldl
      (Bucket.step ⟨2, 1, 0, 1⟩) ⟨2, fun _ => .start, 0⟩
      = ⟨2, fun u => if u < m then .read 2 else .start, 0⟩ := by
    intro m
    induction m with
    | zero => simp
    | succ m ih =>
      rw [List.range_succ, List.map_append, List.foldl_append, ih]
      simp only [List.map_cons, List.map_nil, List.foldl_cons, List.foldl_nil, Bucket.step,
        Nat.lt_irrefl, if_false]
      congr 1
      funext u
      by_cases h : u = m
      · subst h; simp
      · by_cases h2 : u < m
        · simp [h, h2, Nat.lt_succ_of_lt h2]
        · have : ¬ u < m + 1 := by omega
          simp [h, h2, this]
  have decides : ∀ m : Nat, m ≤ n → ((List.range m).map TbAct.decide).foldl
      (Bucket.step ⟨2, 1, 0, 1⟩) ⟨2, fun u => if u < n then .read 2 else .start, 0⟩
      = ⟨if m = 0 then 2 else 1,
         fun u => if u < m then .retried else if u < n then .read 2 else .start, m⟩ := by
    intro m
    induction m with
    | zero => intro _; simp
    | succ m ih =>
      intro hm
      rw [List.range_succ, List.map_append, List.foldl_append, ih (by omega)]
      have hlt : m < n := by omega
      simp only [List.map_cons, List.map_nil, List.foldl_cons, List.foldl_nil, Bucket.step,
        Nat.lt_irrefl, if_false, hlt, if_true]
      rw [if_neg (by decide)]
      congr 1
      funext u
      by_cases h : u = m
      · subst h; simp
      · by_cases h2 : u < m
        · simp [h, h2, Nat.lt_succ_of_lt h2]
        · have : ¬ u < m + 1 := by omega
          simp [h, h2, this]
  simp only [stampede, List.foldl_append]
  rw [reads n, decides n (Nat.le_refl _)]
  refine ⟨rfl, ?_⟩
  show (if n = 0 then (2 : Int) else 1) = 1
  rw [if_neg (by omega)]

/-- Capacity 3, cost 1, replenish 1: two failing retries, a good one, and then the
bucket is spent. -/
example : (Bucket.mk 3 1 1 1).run 3
    [(false, true), (false, false), (false, false), (false, true), (true, true)]
    = (1, [⟨2, true⟩, ⟨2, false⟩, ⟨2, false⟩, ⟨1, false⟩, ⟨1, true⟩]) := by decide

/-! ### Rate limiter -/

/-- The times of a history do not go back. -/
def Forward : Int → List Int → Prop
  | _, [] => True
  | t, now :: ts => t ≤ now ∧ Forward now ts

/-- The last time of a history. -/
def lastTime : Int → List Int → Int
  | t, [] => t
  | _, now :: ts => lastTime now ts

theorem limiter_run (rate : Int) (hr : 0 ≤ rate) : ∀ (ts : List Int) (l : Limiter),
    0 ≤ l.tokens → l.tokens ≤ rate * token → Forward l.last ts →
      0 ≤ (l.run rate ts).1.tokens ∧ (l.run rate ts).1.tokens ≤ rate * token ∧
      (l.run rate ts).1.last = lastTime l.last ts ∧
      token * (l.run rate ts).2 + (l.run rate ts).1.tokens
        ≤ l.tokens + (lastTime l.last ts - l.last) * rate := by
  intro ts
  induction ts with
  | nil => intro l h1 h2 _; simp [Limiter.run, lastTime, h1, h2]
  | cons now ts ih =>
    intro l h1 h2 hf
    obtain ⟨hnow, hf⟩ := hf
    have hel : 0 ≤ (now - l.last) * rate := Int.mul_nonneg (by omega) hr
    have hcap : 0 ≤ rate * token := Int.mul_nonneg hr (by decide)
    have dist : (lastTime now ts - l.last) * rate
        = (lastTime now ts - now) * rate + (now - l.last) * rate := by
      rw [← Int.add_mul]; congr 1; omega
    simp only [Limiter.run, lastTime, dist]
    generalize hE : (now - l.last) * rate = el at *
    generalize hC : rate * token = cap at *
    have hacq : l.acquire rate now =
        if (if l.tokens + el > cap then cap else l.tokens + el) ≥ token then
          (⟨(if l.tokens + el > cap then cap else l.tokens + el) - token, now⟩, true)
        else (⟨if l.tokens + el > cap then cap else l.tokens + el, now⟩, false) := by
      simp only [Limiter.acquire, hE, hC]
    rw [hacq]
    have ht : (if l.tokens + el > cap then cap else l.tokens + el) ≤ l.tokens + el ∧
        (if l.tokens + el > cap then cap else l.tokens + el) ≤ cap ∧
        0 ≤ (if l.tokens + el > cap then cap else l.tokens + el) := by
      split <;> omega
    generalize (if l.tokens + el > cap then cap else l.tokens + el) = t at *
    have htok : token = 1000000000 := rfl
    by_cases hge : t ≥ token
    · rw [if_pos hge]
      obtain ⟨g1, g2, g3, g4⟩ := ih ⟨t - token, now⟩ (by simp only []; omega) (by simp only []; omega) hf
      refine ⟨g1, g2, g3, ?_⟩
      simp only [if_true, Int.natCast_add, Int.mul_add]
      simp only [] at g4
      show _ + token * ((1 : Nat) : Int) + _ ≤ _
      omega
    · rw [if_neg hge]
      obtain ⟨g1, g2, g3, g4⟩ := ih ⟨t, now⟩ (by simp only []; omega) (by simp only []; omega) hf
      refine ⟨g1, g2, g3, ?_⟩
      simp only [Bool.false_eq_true, if_false, Nat.add_zero]
      simp only [] at g4
      omega

/-- **C46**, rate limiter.  At all times the limiter holds between zero and `rate`
tokens, and from any point of its history on, `rate·(1 + T)` bounds the tokens it
hands out within `T` seconds (here in nanoseconds), however often it is asked. -/
theorem C46_rate_limit (rate : Int) (hr : 0 ≤ rate) (t0 : Int) (before after : List Int)
    (hf : Forward t0 (before ++ after)) :
    let l := ((Limiter.new rate t0).run rate before).1
    let granted := (l.run rate after).2
    0 ≤ l.tokens ∧ l.tokens ≤ rate * token ∧
    token * granted ≤ rate * token + rate * (lastTime l.last after - l.last) := by
  have split : ∀ (xs ys : List Int) (t : Int), Forward t (xs ++ ys) →
      Forward t xs ∧ Forward (lastTime t xs) ys := by
    intro xs
    induction xs with
    | nil => intro ys t h; exact ⟨trivial, h⟩
    | cons x xs ih => intro ys t h; exact ⟨⟨h.1, (ih ys x h.2).1⟩, (ih ys x h.2).2⟩
  obtain ⟨f1, f2⟩ := split _ _ _ hf
  have hcap : 0 ≤ rate * token := Int.mul_nonneg hr (by decide)
  obtain ⟨a1, a2, a3, -⟩ := limiter_run rate hr before (Limiter.new rate t0) hcap (Int.le_refl _) f1
  have a3' : ((Limiter.new rate t0).run rate before).1.last = lastTime t0 before := a3
  obtain ⟨b1, b2, b3, b4⟩ := limiter_run rate hr after _ a1 a2 (by rw [a3']; exact f2)
  refine ⟨a1, a2, ?_⟩
  rw [Int.mul_comm rate (_ - _)]
  omega

/-- **C46**, rate limiter: a full token is handed out to whoever asks, and one that
has been used up is back after `1/rate` seconds. -/
theorem C46_rate_liveness (rate : Int) (hr : 1 ≤ rate) (l : Limiter) (now : Int)
    (h0 : 0 ≤ l.tokens) (hwait : token ≤ (now - l.last) * rate ∨
      (l.last ≤ now ∧ token ≤ l.tokens)) : (l.acquire rate now).2 = true := by
  have hcap : token ≤ rate * token := by
    have := Int.mul_le_mul_of_nonneg_right hr (show (0 : Int) ≤ token by decide)
    omega
  have ht : token ≤ l.tokens + (now - l.last) * rate := by
    rcases hwait with h | ⟨h1, h2⟩
    · omega
    · have : 0 ≤ (now - l.last) * rate := Int.mul_nonneg (by omega) (by omega)
      omega
  simp only [Limiter.acquire]
  generalize (now - l.last) * rate = el at *
  generalize rate * token = cap at *
  have : (if l.tokens + el > cap then cap else l.tokens + el) ≥ token := by split <;> omega
  simp [this]

/-- **C46**: a rate limit of zero never hands out a token (the retrying client
then waits until its context is cancelled). -/
theorem C46_zero_rate (t0 : Int) (ts : List Int) :
    ((Limiter.new 0 t0).run 0 ts).2 = 0 := by
  have key : ∀ (ts : List Int) (l : Limiter), l.tokens = 0 → (l.run 0 ts).2 = 0 := by
    intro ts
    induction ts with
    | nil => intro l _; rfl
    | cons now ts ih =>
      intro l h
      have : l.acquire 0 now = (⟨0, now⟩, false) := by
        simp [Limiter.acquire, h, token]
      simp only [Limiter.run, this]
      simpa using ih ⟨0, now⟩ rfl
  exact key ts _ (by simp [Limiter.new])

/-- Two tokens per second: both are used at once, the third only after half a
second. -/
example : (Limiter.run 2 (Limiter.new 2 0) [0, 0, 0, 400000000, 500000000]).2 = 3 := by decide

end Verif.Wrappers
