import Verif.Grpc.Lemmas
/-
Generation ends, also for types that mention themselves: for enough fuel the result does not
depend on the fuel.
-/
namespace Verif.Grpc

/-- The declared structs that the builder does not know yet. -/
def missing (U : List UserTy) (ks : List UserTy) : Nat := U.countP fun t => decide (t ∉ ks)

theorem missing_le {U ks ks' : List UserTy} (h : ∀ t ∈ ks, t ∈ ks') : missing U ks' ≤ missing U ks := by
  refine List.countP_mono_left fun t _ ht => ?_
  exact decide_eq_true fun hk => of_decide_eq_true ht (h t hk)

theorem missing_lt {U ks ks' : List UserTy} {t : UserTy} (h : ∀ t ∈ ks, t ∈ ks') (hU : t ∈ U) (ht : t ∉ ks)
    (ht' : t ∈ ks') : missing U ks' < missing U ks := by
  induction U with
  | nil => cases hU
  | cons a U ih =>
    simp only [missing, List.countP_cons]
    rcases List.mem_cons.1 hU with rfl | hU
    · have := missing_le (U := U) h
      simp only [missing] at this
      simp only [ht, ht', not_false_eq_true, not_true_eq_false, decide_true, decide_false, if_true,
        Bool.false_eq_true, if_false]
      omega
    · have := ih hU
      simp only [missing] at this
      by_cases ha : a ∈ ks
      · have ha' := h a ha
        simp only [ha, ha', not_true_eq_false, decide_false, Bool.false_eq_true, if_false]
        omega
      · have : ∀ c : Nat, (if decide (a ∉ ks') = true then 1 else 0) ≤ 1 := by intro; split <;> omega
        have := this 0
        simp only [ha, not_false_eq_true, decide_true, if_true]
        omega

/-- A computation with fuel has a result. -/
def Settles {α : Type} (f : Nat → Res α) : Prop := ∃ N r, r ≠ .stuck ∧ ∀ n, N ≤ n → f n = r

theorem Good.keys {env : Structs} {n b ty b' p g} (h : getGRPCType env n b ty = .ok (b', p, g)) :
    ∀ t ∈ Grpc.keys b, t ∈ Grpc.keys b' := (getGRPCType_good env n _ _ _ _ _ h).2.1.keys

theorem keys_append {b : Builder} {t ty p g x} : keys (b.append t ty p g x) = keys b := by
  simp only [keys, Builder.append, List.map_map]
  refine List.map_congr_left fun e _ => ?_
  simp only [Function.comp]
  split <;> rfl

theorem addFields_settles {env : Structs} {U : List UserTy} {k : Nat}
    (ih : ∀ b ty, missing U (keys b) ≤ k → Settles fun n => getGRPCType env n b ty) {t : UserTy} :
    ∀ (fs : List ParsedField) (b : Builder), missing U (keys b) ≤ k →
    Settles fun n => addFields (getGRPCType env n) t fs b
  | [], b, _ => ⟨0, .ok b, by simp, fun _ _ => rfl⟩
  | ⟨none, _⟩ :: fs, b, hb => by
    simp only [addFields]
    exact addFields_settles ih fs b hb
  | ⟨some x, ty⟩ :: fs, b, hb => by
    obtain ⟨N, r, hr, hN⟩ := ih b ty hb
    match r, hr, hN with
    | .ok (b1, p, g), _, hN =>
      have hk := Good.keys (hN N (Nat.le_refl _))
      obtain ⟨N', r', hr', hN'⟩ := addFields_settles ih fs (b1.append t ty p g x) (by
        rw [keys_append]
        exact Nat.le_trans (missing_le hk) hb)
      refine ⟨max N N', r', hr', fun n hn => ?_⟩
      simp only [addFields, hN n (by omega)]
      exact hN' n (by omega)
    | .error, _, hN =>
      exact ⟨N, .error, by simp, fun n hn => by simp only [addFields, hN n hn]⟩

theorem getGRPCType_settles {env : Structs} {U : List UserTy} (hU : ∀ t, env t ≠ none → t ∈ U) :
    ∀ k b ty, missing U (keys b) ≤ k → Settles fun n => getGRPCType env n b ty := by
  intro k
  induction k with
  | zero => exact fun b ty h => go hU (fun _ h => absurd h (by omega)) b ty h
  | succ k ih => exact fun b ty h => go hU (fun j hj b ty hb => ih b ty (by omega)) b ty h
where
  go {env : Structs} {U : List UserTy} (hU : ∀ t, env t ≠ none → t ∈ U) {k : Nat}
      (ih : ∀ j, j < k → ∀ b ty, missing U (keys b) ≤ j → Settles fun n => getGRPCType env n b ty) :
      ∀ b ty, missing U (keys b) ≤ k → Settles fun n => getGRPCType env n b ty := by
    intro b ty hb
    induction ty generalizing b with
    | user t =>
      cases hf : b.find t with
      | some fs =>
        refine ⟨1, .ok (b, .message (msgName b.name t), .user (msgName b.name t)), by simp, fun n hn => ?_⟩
        match n, hn with
        | n + 1, _ => simp only [getGRPCType, hf]
      | none =>
        cases hds : env t with
        | none =>
          refine ⟨1, .error, by simp, fun n hn => ?_⟩
          match n, hn with
          | n + 1, _ => simp only [getGRPCType, hf, hds]
        | some ds =>
          have hlt : missing U (keys { b with structs := b.structs ++ [(t, [])] }) < missing U (keys b) :=
            missing_lt (t := t) (by intro u hu; simp only [keys] at hu; simp [keys, hu])
              (hU t (by rw [hds]; simp)) (find_none.1 hf) (by simp [keys])
          obtain ⟨N, r, hr, hN⟩ := addFields_settles (t := t) (ih (k - 1) (by omega)) (parseFields ds)
            { b with structs := b.structs ++ [(t, [])] } (by omega)
          match r, hr, hN with
          | .ok b1, _, hN =>
            refine ⟨N + 1, .ok (b1, .message (msgName b.name t), .user (msgName b.name t)), by simp, fun n hn => ?_⟩
            match n, hn with
            | n + 1, hn => simp only [getGRPCType, hf, hds, hN n (by omega)]
          | .error, _, hN =>
            refine ⟨N + 1, .error, by simp, fun n hn => ?_⟩
            match n, hn with
            | n + 1, hn => simp only [getGRPCType, hf, hds, hN n (by omega)]
    | basic s =>
      cases hs : basicToGrpc s with
      | some p =>
        refine ⟨1, .ok (b, .scalar p, .basic (grpcToBasic p)), by simp, fun n hn => ?_⟩
        match n, hn with
        | n + 1, _ => simp only [getGRPCType, hs]
      | none =>
        refine ⟨1, .error, by simp, fun n hn => ?_⟩
        match n, hn with
        | n + 1, _ => simp only [getGRPCType, hs]
    | pointer t ih' =>
      obtain ⟨N, r, hr, hN⟩ := ih' b hb
      match r, hr, hN with
      | .ok (b1, p, g), _, hN =>
        refine ⟨N + 1, .ok (b1, p, .pointer g), by simp, fun n hn => ?_⟩
        match n, hn with
        | n + 1, hn => simp only [getGRPCType, hN n (by omega)]
      | .error, _, hN =>
        refine ⟨N + 1, .error, by simp, fun n hn => ?_⟩
        match n, hn with
        | n + 1, hn => simp only [getGRPCType, hN n (by omega)]
    | map κ v _ ih' =>
      cases hk : getMapKeyType κ with
      | none =>
        refine ⟨1, .error, by simp, fun n hn => ?_⟩
        match n, hn with
        | n + 1, _ => simp only [getGRPCType, hk]
      | some kp =>
        obtain ⟨N, r, hr, hN⟩ := ih' b hb
        match r, hr, hN with
        | .ok (b1, p, g), _, hN =>
          refine ⟨N + 1, .ok (b1, .map kp p, .map κ g), by simp, fun n hn => ?_⟩
          match n, hn with
          | n + 1, hn => simp only [getGRPCType, hk, hN n (by omega)]
        | .error, _, hN =>
          refine ⟨N + 1, .error, by simp, fun n hn => ?_⟩
          match n, hn with
          | n + 1, hn => simp only [getGRPCType, hk, hN n (by omega)]
    | slice t ih' =>
      by_cases hby : t = .basic .byte
      · refine ⟨1, .ok (b, .bytes, .slice (.basic (some .byte))), by simp, fun n hn => ?_⟩
        match n, hn with
        | n + 1, _ => simp only [getGRPCType, if_pos hby]
      · cases t with
        | map κ v =>
          refine ⟨1, .error, by simp, fun n hn => ?_⟩
          match n, hn with
          | n + 1, _ => simp only [getGRPCType, if_neg hby]
        | _ =>
          obtain ⟨N, r, hr, hN⟩ := ih' b hb
          match r, hr, hN with
          | .ok (b1, p, g), _, hN =>
            refine ⟨N + 1, .ok (b1, .repeated p, .slice g), by simp, fun n hn => ?_⟩
            match n, hn with
            | n + 1, hn => simp only [getGRPCType, if_neg hby, hN n (by omega)]
          | .error, _, hN =>
            refine ⟨N + 1, .error, by simp, fun n hn => ?_⟩
            match n, hn with
            | n + 1, hn => simp only [getGRPCType, if_neg hby, hN n (by omega)]
    | other =>
      refine ⟨1, .error, by simp, fun n hn => ?_⟩
      match n, hn with
      | n + 1, _ => simp only [getGRPCType]

theorem makeFieldList_settles {env : Structs} {U : List UserTy} (hU : ∀ t, env t ≠ none → t ∈ U) :
    ∀ (vars : List (Str × Ty)) (i : Nat) (b : Builder), Settles fun n => makeFieldList env n i b vars
  | [], i, b => ⟨0, .ok (b, []), by simp, fun _ _ => rfl⟩
  | (x, ty) :: vars, i, b => by
    obtain ⟨N, r, hr, hN⟩ := getGRPCType_settles hU _ b ty (Nat.le_refl _)
    match r, hr, hN with
    | .ok (b1, p, g), _, hN =>
      obtain ⟨N', r', hr', hN'⟩ := makeFieldList_settles hU vars (i + 1) b1
      match r', hr', hN' with
      | .ok (b2, fs), _, hN' =>
        refine ⟨max N N', .ok (b2, ⟨ty, p, g, argName i x, i + 1⟩ :: fs), by simp, fun n hn => ?_⟩
        simp only [makeFieldList, hN n (by omega), hN' n (by omega)]
      | .error, _, hN' =>
        refine ⟨max N N', .error, by simp, fun n hn => ?_⟩
        simp only [makeFieldList, hN n (by omega), hN' n (by omega)]
    | .error, _, hN =>
      exact ⟨N, .error, by simp, fun n hn => by simp only [makeFieldList, hN n hn]⟩

theorem addService_settles {env : Structs} {U : List UserTy} (hU : ∀ t, env t ≠ none → t ∈ U) :
    ∀ (ms : List Method) (b : Builder), Settles fun n => addService env n b ms
  | [], b => ⟨0, .ok ⟨b, []⟩, by simp, fun _ _ => rfl⟩
  | m :: ms, b => by
    obtain ⟨N, r, hr, hN⟩ := makeFieldList_settles hU m.args 0 b
    match r, hr, hN with
    | .ok (b1, req), _, hN =>
      obtain ⟨N', r', hr', hN'⟩ := makeFieldList_settles hU m.rets 0 b1
      match r', hr', hN' with
      | .ok (b2, rsp), _, hN' =>
        obtain ⟨N'', r'', hr'', hN''⟩ := addService_settles hU ms b2
        match r'', hr'', hN'' with
        | .ok file, _, hN'' =>
          refine ⟨max N (max N' N''), .ok { file with methods := (m.name, req, rsp) :: file.methods }, by simp,
            fun n hn => ?_⟩
          simp only [addService, hN n (by omega), hN' n (by omega), hN'' n (by omega)]
        | .error, _, hN'' =>
          refine ⟨max N (max N' N''), .error, by simp, fun n hn => ?_⟩
          simp only [addService, hN n (by omega), hN' n (by omega), hN'' n (by omega)]
      | .error, _, hN' =>
        refine ⟨max N N', .error, by simp, fun n hn => ?_⟩
        simp only [addService, hN n (by omega), hN' n (by omega)]
    | .error, _, hN =>
      exact ⟨N, .error, by simp, fun n hn => by simp only [addService, hN n hn]⟩

theorem generate_settles {env : Structs} {U : List UserTy} (hU : ∀ t, env t ≠ none → t ∈ U)
    (base : Str) (ms : List Method) : Settles fun n => generate env n base ms := by
  obtain ⟨N, r, hr, hN⟩ := addService_settles hU ms ⟨base, []⟩
  match r, hr, hN with
  | .ok file, _, hN =>
    by_cases hall : (file.fieldLists.all fun fs => fs.all fun f => f.marshall.isSome && f.unmarshall.isSome) = true
    · exact ⟨N, .ok file, by simp, fun n hn => by simp only [generate, hN n hn, hall, if_true]⟩
    · exact ⟨N, .error, by simp, fun n hn => by simp only [generate, hN n hn, if_neg hall]⟩
  | .error, _, hN =>
    exact ⟨N, .error, by simp, fun n hn => by simp only [generate, hN n hn]⟩

end Verif.Grpc
