/-
C97 for the gRPC and thrift servers, whose methods declare the arguments themselves.
-/
import Verif.Scope.Wrap
namespace Verif.Scope
set_option maxHeartbeats 1000000

theorem top_grows (E : Env) (xs : List Var) {x : Name} (h : x ∈ names E.top) : x ∈ names (declare E xs).top :=
  (declare_top _ _ _).2 (.inl h)

/-- An argument that the body declares does not have the name of a variable that was there before. -/
theorem run_fresh (args : List Var) (ss : List Tok) (E : Env) (l : List (Nat × Bind)) (h : run args E ss = some l)
    (j : Nat) (hj : Tok.arg j ∈ ss) (a : Var) (ha : args[j]? = some a) : a.name ∉ names E.top := by
  induction ss generalizing E l with
  | nil => simp at hj
  | cons t r ih =>
    cases t with
    | use x =>
      simp only [run] at h
      split at h
      · exact ih E l h (by simpa using hj)
      · cases h
    | outer x =>
      simp only [run] at h
      split at h
      · exact ih E l h (by simpa using hj)
      · cases h
    | define xs =>
      simp only [run] at h
      split at h
      · exact fun hm => ih _ l h (by simpa using hj) (top_grows E xs hm)
      · cases h
    | var x =>
      simp only [run] at h
      split at h
      · cases h
      · exact fun hm => ih _ l h (by simpa using hj) (top_grows E [x] hm)
    | opn => exact ih { E with inner := [] :: E.inner } l h (by simpa using hj)
    | cls =>
      simp only [run] at h
      split at h
      · cases h
      · rename_i bs _
        exact ih { E with inner := bs } l h (by simpa using hj)
    | pass is =>
      simp only [run] at h
      split at h
      · cases h
      · cases e2 : run args E r with
        | none => rw [e2] at h; cases h
        | some l2 => exact ih E l2 e2 (by simpa using hj)
    | arg i =>
      simp only [run] at h
      split at h
      · cases h
      · rename_i b hb
        split at h
        · cases h
        · rename_i hc
          simp only [not_or, Decidable.not_not] at hc
          rcases List.mem_cons.1 hj with e | hj
          · cases e
            rw [ha] at hb
            cases hb
            rw [← here_top hc.2.2.2]
            exact hc.1
          · exact ih { E with k := i + 1 } l h hj

/-! ### Declaring all arguments -/

section
variable (m n : Nat) (top : List Var) (r : List Tok)

theorem ownOk_args (j k : Nat) (h : k + j ≤ m) :
    ownOk m ⟨[], top, k⟩ ((List.range' k j).map .arg ++ r) ↔ ownOk m ⟨[], top, k + j⟩ r := by
  induction j generalizing k with
  | zero => rfl
  | succ j ih =>
    simp only [List.range'_succ, List.map_cons, List.cons_append, ownOk, ih (k + 1) (by omega), true_and]
    rw [show k + 1 + j = k + (j + 1) by omega]
    simp only [and_iff_right_iff_imp]
    intro _; omega

theorem badNames_args (j k : Nat) (x : Name) (h : x ∈ badNames ⟨[], top, k⟩ ((List.range' k j).map .arg ++ r)) :
    x ∈ names top ∨ x ∈ badNames ⟨[], top, k + j⟩ r := by
  induction j generalizing k with
  | zero => exact .inr h
  | succ j ih =>
    simp only [List.range'_succ, List.map_cons, List.cons_append, badNames, List.mem_append] at h
    rcases h with h | h
    · exact .inl h
    · have := ih (k + 1) h
      rwa [show k + 1 + j = k + (j + 1) by omega] at this

theorem shadowNames_args (j k : Nat) :
    shadowNames ⟨[], top, k⟩ ((List.range' k j).map .arg ++ r) = shadowNames ⟨[], top, k + j⟩ r := by
  induction j generalizing k with
  | zero => rfl
  | succ j ih =>
    simp only [List.range'_succ, List.map_cons, List.cons_append, shadowNames, ih (k + 1)]
    rw [show k + 1 + j = k + (j + 1) by omega]

theorem hardNames_args (j k : Nat) :
    hardNames n ⟨[], top, k⟩ ((List.range' k j).map .arg ++ r) = hardNames n ⟨[], top, k + j⟩ r := by
  induction j generalizing k with
  | zero => rfl
  | succ j ih =>
    simp only [List.range'_succ, List.map_cons, List.cons_append, hardNames, ih (k + 1)]
    rw [show k + 1 + j = k + (j + 1) by omega]

end

/-! ### `ret0, …, err := …` -/

theorem declare_rets (top : List Var) (k : Nat) (rets : List String) (h : ∀ x ∈ "err" :: retVars rets.length, x ∉ names top) :
    declare ⟨[], top, k⟩ (newRets rets) = ⟨[], top ++ newRets rets, k⟩ := by
  have e : (newRets rets).filter (fun v => decide (v.name ∉ names top)) = newRets rets := by
    rw [List.filter_eq_self]
    intro v hv
    have : v.name ∈ names (newRets rets) := mem_names.2 ⟨v, hv, rfl⟩
    rw [newRets, names_append, names_results, names_cons, names_nil] at this
    simp only [decide_eq_true_eq]
    apply h
    simp only [List.mem_append, List.mem_cons, List.not_mem_nil, or_false] at this ⊢
    exact this.symm
  show Env.mk [] (top ++ (newRets rets).filter (fun v => decide (v.name ∉ names top))) k = _
  rw [e]

theorem names_newRets (rets : List String) : names (newRets rets) = retVars rets.length ++ ["err"] := by
  rw [newRets, names_append, names_results]; rfl

theorem new_ret (top : List Var) (rets : List String) (h : "err" ∉ names top) : ∃ v ∈ newRets rets, v.name ∉ names top :=
  ⟨⟨"err", "error"⟩, by simp [newRets], h⟩

/-! ### From a method to its body -/

theorem faithful_of_server {p : Plugin} {s : Sig} {params : List Var} {body : List Tok}
    (hm : method s p = ⟨params, false, body⟩) (hp : (names params).Nodup) (hn : (names s.args).Nodup)
    (hbl : ∀ a ∈ s.args, a.name ≠ "_" ∧ a.name ≠ "")
    (ho : ownOk s.args.length ⟨[], params, 0⟩ body)
    (hb : ∀ a ∈ s.args, a.name ∉ badNames ⟨[], params, 0⟩ body)
    (hs : ∀ a ∈ s.args, a.name ∉ shadowNames ⟨[], params, 0⟩ body)
    (ha : ∀ i, i < s.args.length → i ∈ (points ⟨[], params, 0⟩ body).map (·.2)) : Faithful p s := by
  have hi : Inv s.args ⟨[], params, 0⟩ := ⟨Nat.zero_le _, fun i a h => absurd h (by simp)⟩
  have e := run_right s.args hn body _ ho hi hb (fun a h h' => hs a h (shadows_sub _ _ _ h')) hbl
  refine ⟨_, by rw [hm]; simp only [compile, Bool.false_eq_true, if_false, hp, if_true]; exact e, ?_, ?_⟩
  · intro e he
    obtain ⟨q, -, rfl⟩ := List.mem_map.1 he
    rfl
  · intro i h
    obtain ⟨q, hq, rfl⟩ := List.mem_map.1 (ha i h)
    exact List.mem_map.2 ⟨q, hq, rfl⟩

theorem hard_of_server {p : Plugin} {s : Sig} {params : List Var} {body : List Tok}
    (hm : method s p = ⟨params, false, body⟩) (h : Faithful p s) (hall : ∀ i, i < s.args.length → Tok.arg i ∈ body) :
    (names s.args).Nodup ∧ (∀ a ∈ s.args, a.name ∉ names params) ∧
      (∀ a ∈ s.args, a.name ∉ hardNames s.args.length ⟨[], params, 0⟩ body) ∧ ∃ l, run s.args ⟨[], params, 0⟩ body = some l := by
  obtain ⟨l, h1, h2, -⟩ := h
  rw [hm] at h1
  simp only [compile, Bool.false_eq_true, if_false] at h1
  split at h1
  · refine ⟨?_, ?_, run_hard s.args body _ l h1 h2, l, h1⟩
    · cases e : s.args.length with
      | zero => rw [List.length_eq_zero_iff.1 e]; simp [names]
      | succ j =>
        have := run_nodup s.args body _ l h1 (by simp [names]) j (hall j (by omega))
        rwa [← e, List.take_length] at this
    · intro a ha
      obtain ⟨j, hj⟩ := List.mem_iff_getElem?.1 ha
      have hl : j < s.args.length := by
        rcases Nat.lt_or_ge j s.args.length with h | h
        · exact h
        · rw [List.getElem?_eq_none h] at hj; cases hj
      exact run_fresh s.args body _ l h1 j (hall j hl) a hj
  · cases h1

def serverTop : List Var := [⟨"handler", "receiver"⟩, ⟨"ctx", "context.Context"⟩, ⟨"req", "*Request"⟩]

theorem names_serverTop : names serverTop = ["handler", "ctx", "req"] := rfl

theorem declare_server (k : Nat) (rets : List String) :
    declare ⟨[], serverTop, k⟩ (newRets rets) = ⟨[], serverTop ++ newRets rets, k⟩ := by
  apply declare_rets
  intro x hx hm
  simp only [names_serverTop, List.mem_cons, List.not_mem_nil, or_false] at hm
  rcases List.mem_cons.1 hx with rfl | hx
  · revert hm; decide
  · rcases hm with rfl | rfl | rfl <;> exact not_ret (by decide) hx

theorem new_server (rets : List String) :
    (∃ v, v ∈ newRets rets ∧ ¬ (v.name = "handler" ∨ v.name = "ctx" ∨ v.name = "req")) ↔ True := by
  refine ⟨fun _ => trivial, fun _ => ?_⟩
  obtain ⟨v, h1, h2⟩ := new_ret serverTop rets (by decide)
  exact ⟨v, h1, by simpa [names_serverTop] using h2⟩

macro "name_simp'" : tactic => `(tactic| simp (disch := (first | decide | assumption)) only [names_nil, names_cons, names_append, names_results,
  names_serverTop, names_newRets,
  List.nil_append, List.cons_append, List.append_assoc, List.append_nil, List.mem_cons, List.mem_append, List.not_mem_nil, not_ret,
  or_false, false_or, or_true, true_or, or_self, not_false_eq_true, not_true_eq_false, String.reduceEq])

open Lean.Parser.Tactic in
syntax "server_simp" "[" ident,* "]" (location)? : tactic
macro_rules
  | `(tactic| server_simp [$xs,*] $[$loc]?) => `(tactic| simp (disch := (first | decide | assumption | name_simp')) only [$[$xs:ident],*, ownOk, badNames,
      shadowNames, hardNames, ownOk_rets, badNames_rets, shadowNames_rets, hardNames_rets, names_nil, names_cons, names_append, names_results,
      names_serverTop, names_newRets, declare_server, new_server,
      declare_new, declare_old_new, declare_new_old, declare_inner, innerNames, ownHere, List.flatten_cons, List.flatten_nil,
      List.nil_append, List.cons_append, List.append_assoc, List.append_nil, List.mem_cons, List.mem_append, List.not_mem_nil,
      List.tail_cons, not_ret, passAll, if_true, if_false, and_self, or_false, false_or, or_true, true_or, reduceCtorEq, ne_eq,
      not_false_eq_true, not_true_eq_false, and_true, true_and, List.mem_range, implies_true, imp_self,
      exists_eq_left, exists_eq, exists_eq_or_imp, List.filter_cons, List.all_cons, List.all_nil, Bool.and_true, Bool.true_and, Bool.and_self,
      decide_true, decide_false, Bool.false_eq_true, Bool.false_and, Bool.and_false, List.filter_nil, forall_eq, String.reduceEq,
      decide_not, Bool.not_true, Bool.not_false, decide_eq_true_eq, Bool.and_eq_true] $[$loc]?)

/-- After the arguments have been declared. -/
def grpcServed (s : Sig) : List Tok :=
  [.use "handler", .use "ctx", passAll s.args, .define (newRets s.rets), .use "err", .outer "nil",
      .opn, .outer "nil", .use "err", .cls, .outer (s.service ++ "_" ++ s.name ++ "_Response"), .define [⟨"rsp", "*Response"⟩],
      .use "rsp"] ++ useRets s.rets ++ [.use "rsp", .outer "nil"]

theorem grpcServer_eq (s : Sig) : (grpcServer s).body =
    .use "req" :: ((List.range' 0 s.args.length).map .arg ++ (grpcServed s)) := by
  simp [grpcServer, grpcServed, List.range_eq_range', List.append_assoc]

theorem ok_grpcServer (s : Sig) (hf : ∀ x ∈ foreign s .grpcServer, x ∉ variables s .grpcServer)
    (h : Avoid s (reserved s .grpcServer ++ doubtful s .grpcServer ++ retVars s.rets.length)) : Faithful .grpcServer s := by
  simp only [foreign, variables, List.mem_cons, List.not_mem_nil, or_false, forall_eq, List.mem_append, not_or] at hf
  refine faithful_of_server (params := serverTop) (body := (grpcServer s).body) rfl (by decide) h.1
    (fun a ha => ⟨(h.2 a ha).1, (h.2 a ha).2.1⟩) ?_ ?_ ?_ fun i hi => points_pass (List.range s.args.length) _ _ ?_ i (List.mem_range.2 hi)
  · rw [grpcServer_eq]
    have key : ownOk s.args.length ⟨[], serverTop, 0⟩ ((List.range' 0 s.args.length).map .arg ++ (grpcServed s)) := by
      rw [ownOk_args s.args.length serverTop (grpcServed s) s.args.length 0 (by omega), Nat.zero_add, grpcServed]
      server_simp [hf]
      grind
    simp only [ownOk, key, and_true]
    server_simp [hf]
  · intro a ha hm
    rw [grpcServer_eq] at hm
    simp only [badNames] at hm
    have h2 := (h.2 a ha).2.2
    rcases badNames_args _ _ _ _ _ hm with hm | hm
    · revert h2 hm
      server_simp [reserved, doubtful]; grind
    · revert h2 hm
      server_simp [reserved, doubtful, grpcServed]; grind
  · intro a ha
    have h2 := (h.2 a ha).2.2
    rw [grpcServer_eq]
    simp only [shadowNames, shadowNames_args, Nat.zero_add]
    server_simp [grpcServed]
  · simp [grpcServer, passAll]

theorem hard_grpcServer (s : Sig) (h : Faithful .grpcServer s) : Avoid s (reserved s .grpcServer) := by
  obtain ⟨h1, h2, h3, -⟩ := hard_of_server (params := serverTop) (body := (grpcServer s).body) rfl h (by simp [grpcServer]; exact fun i hi => .inl hi)
  refine ⟨h1, fun a ha => ?_⟩
  have h4 := h2 a ha
  have h5 := h3 a ha
  clear h h1 h2 h3
  rw [grpcServer_eq] at h5
  simp only [hardNames, hardNames_args, Nat.zero_add, grpcServed] at h5
  server_simp [reserved] at h4 h5 ⊢
  grind

/-- After the arguments have been declared. -/
def thriftServed (pkg : Name) (s : Sig) : List Tok :=
  [.use "handler", .use "ctx", passAll s.args, .define (newRets s.rets), .use "err", .outer "nil",
      .opn, .outer "nil", .use "err", .cls, .outer pkg, .define [⟨"rsp", "*Response"⟩],
      .outer ("marshall_" ++ s.service ++ "_" ++ s.name ++ "_rsp"), .use "rsp"] ++ useRets s.rets ++ [.use "rsp", .outer "nil"]

theorem thriftServer_eq (pkg : Name) (s : Sig) : (thriftServer pkg s).body =
    .outer ("unmarshall_" ++ s.service ++ "_" ++ s.name ++ "_req") :: .use "req" :: ((List.range' 0 s.args.length).map .arg ++ (thriftServed pkg s)) := by
  simp [thriftServer, thriftServed, List.range_eq_range', List.append_assoc]

theorem ok_thriftServer (pkg : Name) (s : Sig) (hf : ∀ x ∈ foreign s (.thriftServer pkg), x ∉ variables s (.thriftServer pkg))
    (h : Avoid s (reserved s (.thriftServer pkg) ++ doubtful s (.thriftServer pkg) ++ retVars s.rets.length)) : Faithful (.thriftServer pkg) s := by
  simp only [foreign, variables, List.mem_cons, List.not_mem_nil, or_false, forall_eq, List.mem_append, not_or] at hf
  refine faithful_of_server (params := serverTop) (body := (thriftServer pkg s).body) rfl (by decide) h.1
    (fun a ha => ⟨(h.2 a ha).1, (h.2 a ha).2.1⟩) ?_ ?_ ?_ fun i hi => points_pass (List.range s.args.length) _ _ ?_ i (List.mem_range.2 hi)
  · rw [thriftServer_eq]
    have key : ownOk s.args.length ⟨[], serverTop, 0⟩ ((List.range' 0 s.args.length).map .arg ++ (thriftServed pkg s)) := by
      rw [ownOk_args s.args.length serverTop (thriftServed pkg s) s.args.length 0 (by omega), Nat.zero_add, thriftServed]
      server_simp [hf]
      simp (disch := decide) only [String.append_assoc, pre_ne, pre_not_ret, not_false_eq_true, and_self, true_and, and_true, or_self, false_or, or_false]
      grind
    simp only [ownOk, key, and_true]
    server_simp [hf]
    simp (disch := decide) only [String.append_assoc, pre_ne, pre_not_ret, not_false_eq_true, and_self, true_and, and_true, or_self, false_or, or_false]
  · intro a ha hm
    rw [thriftServer_eq] at hm
    simp only [badNames, List.mem_cons] at hm
    have h2 := (h.2 a ha).2.2
    rcases hm with hm | hm
    · exact h2 (by simp [doubtful, hm])
    rcases badNames_args _ _ _ _ _ hm with hm | hm
    · revert h2 hm
      server_simp [reserved, doubtful]; grind
    · revert h2 hm
      server_simp [reserved, doubtful, thriftServed]; grind
  · intro a ha
    have h2 := (h.2 a ha).2.2
    rw [thriftServer_eq]
    simp only [shadowNames, shadowNames_args, Nat.zero_add]
    server_simp [thriftServed]
  · simp [thriftServer, passAll]

theorem hard_thriftServer (pkg : Name) (s : Sig) (h : Faithful (.thriftServer pkg) s) : Avoid s (reserved s (.thriftServer pkg)) := by
  obtain ⟨h1, h2, h3, -⟩ := hard_of_server (params := serverTop) (body := (thriftServer pkg s).body) rfl h (by simp [thriftServer]; exact fun i hi => .inl hi)
  refine ⟨h1, fun a ha => ?_⟩
  have h4 := h2 a ha
  have h5 := h3 a ha
  clear h h1 h2 h3
  rw [thriftServer_eq] at h5
  simp only [hardNames, hardNames_args, Nat.zero_add, thriftServed] at h5
  server_simp [reserved] at h4 h5 ⊢
  grind

end Verif.Scope
