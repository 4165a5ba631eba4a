import Verif.Wrappers.RetryProps
import Verif.Wrappers.BucketProps
import Verif.Wrappers.ConcProps
/-
C52: fault injection.
-/
namespace Verif.Wrappers
variable {V E : Type}

/-- **C52**, rate.  For every probability between 0 and 100, exactly `p` of the 100
possible draws make the call fail. -/
theorem C52_rate (p : Nat) (hp : p ≤ 100) (zero : V) (injected : E) (inner : Ret V E) :
    ((List.range 100).filter fun d => !(injectFault p d zero injected inner).2).length = p := by
  have h : ∀ d, (!(injectFault (p : Int) d zero injected inner).2) = decide (d < p) := by
    intro d
    unfold injectFault
    by_cases hd : d < p
    · have : (d : Int) < p := by omega
      simp [this, hd]
    · have : ¬ (d : Int) < p := by omega
      simp [this, hd]
  simp only [h]
  have key : ∀ m, ((List.range m).filter fun d => decide (d < p)).length = min m p := by
    intro m
    induction m with
    | zero => simp
    | succ m ih =>
      rw [List.range_succ, List.filter_append, List.length_append, ih]
      by_cases hm : m < p
      · simp [hm]; omega
      · simp [hm]; omega
  rw [key]; omega

/-- **C52**, effect.  A call that is not failed is passed through unchanged; a
failed one returns zero values with the injected error and never reaches the
service.  Probability 0 (or less) fails no call, 100 (or more) every call. -/
theorem C52_effect (p : Int) (draw : Nat) (hd : draw < 100) (zero : V) (injected : E)
    (inner : Ret V E) :
    (injectFault p draw zero injected inner = (inner, true) ∨
      injectFault p draw zero injected inner = (⟨zero, some injected⟩, false)) ∧
    (p ≤ 0 → injectFault p draw zero injected inner = (inner, true)) ∧
    (100 ≤ p → injectFault p draw zero injected inner = (⟨zero, some injected⟩, false)) := by
  unfold injectFault
  refine ⟨?_, fun h => ?_, fun h => ?_⟩
  · split
    · exact Or.inr rfl
    · exact Or.inl rfl
  · rw [if_neg (by omega)]
  · rw [if_pos (by omega)]

/-- **C52**, random delay.  For a maximum of `m` milliseconds (up to 9·10¹²) the
sleep is always a whole number of milliseconds between 0 and `m`, and every one of
these is drawn. -/
theorem C52_delay (m : Int) (hm : 0 ≤ m) (hbig : m ≤ 9000000000000) :
    (∀ seed, ∃ k : Int, injectedDelay m seed = some (k * 1000000) ∧ 0 ≤ k ∧ k ≤ m) ∧
    (∀ k : Int, 0 ≤ k → k ≤ m → ∃ seed, injectedDelay m seed = some (k * 1000000)) := by
  have hw : wrap64 (m + 1) = m + 1 := by unfold wrap64; omega
  have hmul : ∀ k : Int, 0 ≤ k → k ≤ m → wrap64 (k * 1000000) = k * 1000000 := by
    intro k h1 h2; unfold wrap64; omega
  have hpos : ¬ m + 1 ≤ 0 := by omega
  refine ⟨fun seed => ?_, fun k h1 h2 => ⟨k.toNat, ?_⟩⟩
  · have h1 := Int.emod_nonneg (seed : Int) (show m + 1 ≠ 0 by omega)
    have h2 := Int.emod_lt_of_pos (seed : Int) (show 0 < m + 1 by omega)
    refine ⟨(seed : Int) % (m + 1), ?_, h1, by omega⟩
    rw [injectedDelay, hw, int63n, if_neg hpos, Option.map_some, hmul _ h1 (by omega)]
  · have e : ((k.toNat : Nat) : Int) = k := by omega
    rw [injectedDelay, hw, int63n, if_neg hpos, Option.map_some, e,
      Int.emod_eq_of_lt h1 (by omega), hmul k h1 h2]

/-- **C52 refuted** outside that range: a negative maximum makes every call panic. -/
theorem C52_negative_delay_refuted (m : Int) (hm : m < 0) (hr : -2 ^ 63 ≤ m) (seed : Nat) :
    injectedDelay m seed = none := by
  have hw : wrap64 (m + 1) = m + 1 := by unfold wrap64; omega
  rw [injectedDelay, hw, int63n, if_pos (by omega)]; rfl

example : injectFault 30 29 0 "boom" ⟨5, none⟩ = (⟨0, some "boom"⟩, false) := by decide
example : injectFault 30 30 0 "boom" ⟨5, none⟩ = (⟨5, none⟩, true) := by decide
example : injectedDelay 10 27 = some 5000000 := by decide

end Verif.Wrappers
