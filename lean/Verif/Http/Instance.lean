import Verif.Http.Model
/-
The laws that `Lib` asks for can be met: a library with them.  (Its JSON text is not Go's: numbers are
written in unary.  Only the laws matter.)
-/
namespace Verif.Http

def ascii (s : Bytes) : Bool := s.all (·.val < 128)

def asciiReplace (s : Bytes) : Bytes := s.map fun b => if b.val < 128 then b else 63

def pNat (n : Nat) : Bytes := List.replicate n 1 ++ [0]

def pInt : Int → Bytes
  | .ofNat n => 0 :: pNat n
  | .negSucc n => 1 :: pNat n

def pStr : Bytes → Bytes
  | [] => [0]
  | b :: s => 1 :: b :: pStr s

def pKey : JKey → Bytes
  | .str s => 0 :: pStr s
  | .int n => 1 :: pInt n

def pKeys : List JKey → Bytes
  | [] => [0]
  | k :: ks => 1 :: pKey k ++ pKeys ks

mutual
def pJson : Json → Bytes
  | .null => [0]
  | .bool false => [1]
  | .bool true => [2]
  | .num (.int n) => 3 :: pInt n
  | .num (.float n) => 4 :: pInt n
  | .str s => 5 :: pStr s
  | .arr js => 6 :: pAll js
  | .obj ks js => 7 :: pKeys ks ++ pAll js
def pAll : List Json → Bytes
  | [] => [0]
  | j :: js => 1 :: pJson j ++ pAll js
end

theorem pNat_inj : ∀ (n m : Nat) (r r' : Bytes), pNat n ++ r = pNat m ++ r' → n = m ∧ r = r'
  | 0, 0, r, r', h => by simpa [pNat] using h
  | 0, m + 1, r, r', h => by simp [pNat, List.replicate_succ] at h
  | n + 1, 0, r, r', h => by simp [pNat, List.replicate_succ] at h
  | n + 1, m + 1, r, r', h => by
    have := pNat_inj n m r r' (by simpa [pNat, List.replicate_succ] using h)
    exact ⟨by omega, this.2⟩

theorem pInt_inj (n m : Int) (r r' : Bytes) (h : pInt n ++ r = pInt m ++ r') : n = m ∧ r = r' := by
  cases n <;> cases m <;> simp only [pInt, List.cons_append, List.cons.injEq] at h
  · have := pNat_inj _ _ _ _ h.2; rw [this.1]; exact ⟨rfl, this.2⟩
  · exact absurd h.1 (by decide)
  · exact absurd h.1 (by decide)
  · have := pNat_inj _ _ _ _ h.2; rw [this.1]; exact ⟨rfl, this.2⟩

theorem pStr_inj : ∀ (s t : Bytes) (r r' : Bytes), pStr s ++ r = pStr t ++ r' → s = t ∧ r = r'
  | [], [], r, r', h => by simpa [pStr] using h
  | [], _ :: _, r, r', h => by simp [pStr] at h
  | _ :: _, [], r, r', h => by simp [pStr] at h
  | b :: s, c :: t, r, r', h => by
    simp only [pStr, List.cons_append, List.cons.injEq, true_and] at h
    have := pStr_inj s t r r' h.2
    exact ⟨by rw [h.1, this.1], this.2⟩

theorem pKey_inj (k l : JKey) (r r' : Bytes) (h : pKey k ++ r = pKey l ++ r') : k = l ∧ r = r' := by
  cases k <;> cases l <;> simp only [pKey, List.cons_append, List.cons.injEq] at h
  · have := pStr_inj _ _ _ _ h.2; rw [this.1]; exact ⟨rfl, this.2⟩
  · exact absurd h.1 (by decide)
  · exact absurd h.1 (by decide)
  · have := pInt_inj _ _ _ _ h.2; rw [this.1]; exact ⟨rfl, this.2⟩

theorem pKeys_inj : ∀ (s t : List JKey) (r r' : Bytes), pKeys s ++ r = pKeys t ++ r' → s = t ∧ r = r'
  | [], [], r, r', h => by simpa [pKeys] using h
  | [], _ :: _, r, r', h => by simp [pKeys] at h
  | _ :: _, [], r, r', h => by simp [pKeys] at h
  | b :: s, c :: t, r, r', h => by
    simp only [pKeys, List.cons_append, List.cons.injEq, true_and, List.append_assoc] at h
    have h1 := pKey_inj _ _ _ _ h
    have := pKeys_inj s t r r' h1.2
    exact ⟨by rw [h1.1, this.1], this.2⟩

mutual
theorem pJson_inj : ∀ (j k : Json) (r r' : Bytes), pJson j ++ r = pJson k ++ r' → j = k ∧ r = r'
  | .null, k, r, r', h => by
    rcases k with _ | (_ | _) | (_ | _) | _ | _ | _ <;> simp_all [pJson]
  | .bool false, k, r, r', h => by
    rcases k with _ | (_ | _) | (_ | _) | _ | _ | _ <;> simp_all [pJson]
  | .bool true, k, r, r', h => by
    rcases k with _ | (_ | _) | (_ | _) | _ | _ | _ <;> simp_all [pJson]
  | .num (.int n), k, r, r', h => by
    rcases k with _ | (_ | _) | (m | m) | _ | _ | _ <;> simp only [pJson, List.cons_append, List.cons.injEq] at h
    case num.int => have := pInt_inj _ _ _ _ h.2; rw [this.1]; exact ⟨rfl, this.2⟩
    all_goals exact absurd h.1 (by decide)
  | .num (.float n), k, r, r', h => by
    rcases k with _ | (_ | _) | (m | m) | _ | _ | _ <;> simp only [pJson, List.cons_append, List.cons.injEq] at h
    case num.float => have := pInt_inj _ _ _ _ h.2; rw [this.1]; exact ⟨rfl, this.2⟩
    all_goals exact absurd h.1 (by decide)
  | .str s, k, r, r', h => by
    rcases k with _ | (_ | _) | (m | m) | _ | _ | _ <;> simp only [pJson, List.cons_append, List.cons.injEq] at h
    case str => have := pStr_inj _ _ _ _ h.2; rw [this.1]; exact ⟨rfl, this.2⟩
    all_goals exact absurd h.1 (by decide)
  | .arr js, k, r, r', h => by
    rcases k with _ | (_ | _) | (m | m) | _ | ks | _ <;> simp only [pJson, List.cons_append, List.cons.injEq] at h
    case arr => have := pAll_inj js ks _ _ h.2; rw [this.1]; exact ⟨rfl, this.2⟩
    all_goals exact absurd h.1 (by decide)
  | .obj ks js, k, r, r', h => by
    rcases k with _ | (_ | _) | (m | m) | _ | _ | ⟨ks', js'⟩ <;>
      simp only [pJson, List.cons_append, List.cons.injEq, List.append_assoc] at h
    case obj =>
      have h1 := pKeys_inj _ _ _ _ h.2
      have := pAll_inj js js' _ _ h1.2
      rw [h1.1, this.1]; exact ⟨rfl, this.2⟩
    all_goals exact absurd h.1 (by decide)
theorem pAll_inj : ∀ (js ks : List Json) (r r' : Bytes), pAll js ++ r = pAll ks ++ r' → js = ks ∧ r = r'
  | [], [], r, r', h => by simpa [pAll] using h
  | [], _ :: _, r, r', h => by simp [pAll] at h
  | _ :: _, [], r, r', h => by simp [pAll] at h
  | j :: js, k :: ks, r, r', h => by
    simp only [pAll, List.cons_append, List.cons.injEq, true_and, List.append_assoc] at h
    have h1 := pJson_inj j k _ _ h
    have := pAll_inj js ks r r' h1.2
    exact ⟨by rw [h1.1, this.1], this.2⟩
end

theorem pJson_ne_nil (j : Json) : pJson j ≠ [] := by
  rcases j with _ | (_ | _) | (m | m) | _ | _ | _ <;> simp [pJson]

open Classical in
/-- A library with the laws. -/
noncomputable def exampleLib : Lib where
  valid := ascii
  replace := asciiReplace
  print := pJson
  parse s := if h : ∃ j, pJson j = s then some h.choose else none
  valid_replace s := by
    simp only [ascii, asciiReplace, List.all_eq_true, List.mem_map, decide_eq_true_eq]
    rintro _ ⟨b, _, rfl⟩
    split
    · assumption
    · decide
  replace_valid s h := by
    simp only [ascii, List.all_eq_true, decide_eq_true_eq] at h
    unfold asciiReplace
    conv => rhs; rw [← List.map_id s]
    apply List.map_congr_left
    intro b hb
    rw [if_pos (h b hb)]; rfl
  parse_print j _ := by
    have h : ∃ k, pJson k = pJson j := ⟨j, rfl⟩
    rw [dif_pos h]
    have := pJson_inj h.choose j [] [] (by rw [h.choose_spec])
    rw [this.1]
  parse_nil := by
    rw [dif_neg]
    rintro ⟨j, hj⟩
    exact pJson_ne_nil j hj

end Verif.Http
