/-
C97 for the HTTP server.
-/
import Verif.Scope.Http
namespace Verif.Scope
set_option maxHeartbeats 1000000

def reqVar (a : Var) : Var := ⟨"request_" ++ a.name, "string"⟩

def got (l : List Var) : List Var := (l.filter fun a => a.ty ≠ "string").map reqVar

theorem mem_got {l : List Var} {x : Name} (h : x ∈ names (got l)) : ∃ a ∈ l, x = "request_" ++ a.name := by
  obtain ⟨v, hv, rfl⟩ := mem_names.1 h
  simp only [got, List.mem_map, List.mem_filter] at hv
  obtain ⟨a, ⟨ha, -⟩, rfl⟩ := hv
  exact ⟨a, ha, rfl⟩

/-- `request_…` is none of the names that a template writes out. -/
theorem request_ne {x y : String} (h : "request_".toList.isPrefixOf y.toList = false) : ¬ y = "request_" ++ x := by
  rintro rfl
  rw [String.toList_append] at h
  have : "request_".toList.isPrefixOf ("request_".toList ++ x.toList) = true :=
    List.isPrefixOf_iff_prefix.2 (List.prefix_append _ _)
  rw [this] at h
  cases h

theorem not_got {l : List Var} {x : Name} (h : "request_".toList.isPrefixOf x.toList = false) : x ∉ names (got l) := by
  intro hm
  obtain ⟨a, -, e⟩ := mem_got hm
  exact request_ne h e

theorem ret_not_got {l : List Var} {i : Nat} : ret i ∉ names (got l) := by
  intro hm
  obtain ⟨a, -, e⟩ := mem_got hm
  have := congrArg String.toList e
  rw [ret, String.toList_append, String.toList_append] at this
  have h3 := congrArg (fun l => l[2]?) this
  simp [show "ret".toList = ['r', 'e', 't'] from rfl, show "request_".toList = ['r', 'e', 'q', 'u', 'e', 's', 't', '_'] from rfl] at h3

def receives (ids : Nat → List Name) (l : List Var) (j : Nat) : List Tok := (l.zipIdx j).flatMap fun p => httpReceive p.2 p.1 (ids p.2)

theorem receives_cons (ids : Nat → List Name) (a : Var) (l : List Var) (j : Nat) :
    receives ids (a :: l) j = httpReceive j a (ids j) ++ receives ids l (j + 1) := by
  simp [receives, List.zipIdx_cons]

/-- What is in the function's block during the loop. -/
structure ServerTop (idents : List Name) (top : List Var) : Prop where
  r : "r" ∈ names top
  w : "w" ∈ names top
  err : "err" ∈ names top
  json : "json" ∉ names top
  nil : "nil" ∉ names top
  byte : "byte" ∉ names top
  http : "http" ∉ names top
  ids : ∀ x ∈ idents, x ∉ names top

theorem ServerTop.snoc {idents : List Name} {top : List Var} (h : ServerTop idents top) (a : Var)
    (hi : ∀ x ∈ idents, x ≠ "request_" ++ a.name) : ServerTop idents (top ++ [reqVar a]) := by
  constructor <;> simp only [names_append, names_cons, names_nil, reqVar, List.mem_append, List.mem_singleton, not_or]
  · exact .inl h.r
  · exact .inl h.w
  · exact .inl h.err
  · exact ⟨h.json, request_ne (by decide)⟩
  · exact ⟨h.nil, request_ne (by decide)⟩
  · exact ⟨h.byte, request_ne (by decide)⟩
  · exact ⟨h.http, request_ne (by decide)⟩
  · exact fun x hx => ⟨h.ids x hx, hi x hx⟩

theorem after_outers (xs : List Name) (E : Env) (r : List Tok) : after E (xs.map .outer ++ r) = after E r := by
  induction xs with
  | nil => rfl
  | cons x xs ih => simpa only [List.map_cons, List.cons_append, after] using ih

theorem receives_ok (n : Nat) (ids : Nat → List Name) (idents : List Name) (hids : ∀ i, ∀ x ∈ ids i, x ∈ idents) (l : List Var)
    (j : Nat) (top : List Var) (ht : ServerTop idents top) (hn : (names l).Nodup)
    (hd : ∀ a ∈ l, "request_" ++ a.name ∉ names top) (hi : ∀ a ∈ l, ∀ x ∈ idents, x ≠ "request_" ++ a.name) (hj : j + l.length ≤ n) :
    after ⟨[], top, j⟩ (receives ids l j) = ⟨[], top ++ got l, j + l.length⟩ ∧ ownOk n ⟨[], top, j⟩ (receives ids l j) ∧
    (∀ x ∈ badNames ⟨[], top, j⟩ (receives ids l j), x ∈ names top ∨ x ∈ ["json", "nil", "byte", "http"] ∨ x ∈ idents ∨
      ∃ a ∈ l, x = "request_" ++ a.name) ∧
    shadowNames ⟨[], top, j⟩ (receives ids l j) = [] ∧ ∀ i, j ≤ i → i < j + l.length → Tok.arg i ∈ receives ids l j := by
  induction l generalizing j top with
  | nil => simp [receives, after, ownOk, badNames, shadowNames, got]
  | cons a l ih =>
    rw [receives_cons]
    simp only [names_cons, List.nodup_cons] at hn
    simp only [List.length_cons] at hj
    have hl : j + (a :: l).length = j + 1 + l.length := by simp only [List.length_cons]; omega
    by_cases hs : a.ty = "string"
    · obtain ⟨h1, h2, h3, h4, h5⟩ := ih (j + 1) top ht hn.2 (fun b hb => hd b (List.mem_cons_of_mem _ hb))
        (fun b hb => hi b (List.mem_cons_of_mem _ hb)) (by omega)
      have e : got (a :: l) = got l := by simp [got, hs]
      rw [e, hl]
      simp only [httpReceive, hs, if_true, List.cons_append, List.nil_append, after, ownOk, badNames, shadowNames, h1, h4]
      refine ⟨trivial, ⟨.inr ht.r, trivial, by omega, trivial, h2⟩, fun x hx => ?_, trivial, fun i hi hi' => ?_⟩
      · rcases List.mem_append.1 hx with hx | hx
        · exact .inl hx
        · rcases h3 x hx with h | h | h | ⟨b, hb, h⟩
          · exact .inl h
          · exact .inr (.inl h)
          · exact .inr (.inr (.inl h))
          · exact .inr (.inr (.inr ⟨b, List.mem_cons_of_mem _ hb, h⟩))
      · simp only [List.mem_cons, reduceCtorEq, false_or, Tok.arg.injEq]
        by_cases hij : i = j
        · exact .inl hij
        · exact .inr (h5 i (by omega) (by omega))
    · have hnew := hd a List.mem_cons_self
      have ht' := ht.snoc a (hi a List.mem_cons_self)
      obtain ⟨h1, h2, h3, h4, h5⟩ := ih (j + 1) (top ++ [reqVar a]) ht' hn.2 (by
        intro b hb hm
        simp only [names_append, names_cons, names_nil, reqVar, List.mem_append, List.mem_singleton] at hm
        rcases hm with hm | hm
        · exact hd b (List.mem_cons_of_mem _ hb) hm
        · have := append_inj hm
          exact hn.1 (mem_names.2 ⟨b, hb, this⟩)) (fun b hb => hi b (List.mem_cons_of_mem _ hb)) (by omega)
      have e : top ++ got (a :: l) = top ++ [reqVar a] ++ got l := by simp [got, hs]
      rw [e, hl]
      have ed : declare ⟨[], top, j⟩ [reqVar a] = ⟨[], top ++ [reqVar a], j⟩ := declare_new top j _ hnew
      have ebv : (⟨"request_" ++ a.name, "string"⟩ : Var) = reqVar a := rfl
      simp only [httpReceive, hs, if_false, List.cons_append, List.nil_append, List.append_assoc, after, after_outers, ownOk, ownOk_outers,
        badNames, badNames_outers, shadowNames, shadowNames_outers, ebv, ed, h1, h4, List.tail_cons, innerNames]
      refine ⟨trivial, ⟨.inr ht.r, ⟨reqVar a, by simp, hnew⟩, fun x hx => ⟨by simp [names], ht'.ids x (hids _ x hx)⟩, trivial, by omega,
        trivial, .inr (by simp [names, reqVar]), .inr ht'.err, by simp [names], ht'.json, by simp [names], ht'.byte,
        .inr (by simp [names, reqVar]), by simp, .inr ht'.err, by simp [names], ht'.nil, by simp [names], ht'.http, .inr ht'.w, .inr ht'.err,
        by simp, by simp, h2⟩, fun x hx => ?_, by simp [names], fun i hi hi' => ?_⟩
      · simp only [if_true, List.mem_cons, List.mem_append, names_cons, names_nil, names_append, reqVar, List.not_mem_nil, or_false] at hx ⊢
        have h3' := h3 x
        simp only [names_append, names_cons, names_nil, reqVar, List.mem_append, List.mem_singleton, List.mem_cons, List.not_mem_nil, or_false] at h3'
        rcases hx with h | h | h | h | h | h | h | h
        · exact .inr (.inr (.inr ⟨a, .inl rfl, h⟩))
        · exact .inr (.inr (.inl (hids _ x h)))
        · rcases h with h | h
          · exact .inl h
          · exact .inr (.inr (.inr ⟨a, .inl rfl, h⟩))
        · exact .inr (.inl (.inl h))
        · exact .inr (.inl (.inr (.inr (.inl h))))
        · exact .inr (.inl (.inr (.inl h)))
        · exact .inr (.inl (.inr (.inr (.inr h))))
        · rcases h3' h with (h | h) | h | h | ⟨b, hb, h⟩
          · exact .inl h
          · exact .inr (.inr (.inr ⟨a, .inl rfl, h⟩))
          · exact .inr (.inl h)
          · exact .inr (.inr (.inl h))
          · exact .inr (.inr (.inr ⟨b, .inr hb, h⟩))
      · simp only [List.mem_cons, List.mem_append, List.mem_map, reduceCtorEq, and_false, exists_false, false_or, Tok.arg.injEq]
        by_cases hij : i = j
        · exact .inl hij
        · exact .inr (h5 i (by omega) (by omega))

def httpTop : List Var := [⟨"handler", "receiver"⟩, ⟨"w", "http.ResponseWriter"⟩, ⟨"r", "*http.Request"⟩]

def httpTop' : List Var := httpTop ++ [⟨"err", "error"⟩]

theorem names_httpTop : names httpTop = ["handler", "w", "r"] := rfl
theorem names_httpTop' : names httpTop' = ["handler", "w", "r", "err"] := rfl

/-- After the loop. -/
def serverRest (s : Sig) : List Tok :=
  [.outer "context", .define [⟨"ctx", "context.Context"⟩], .use "handler", .use "ctx", passAll s.args] ++
    ((if s.rets.length = 0 then [.use "err"] else [.define (newRets s.rets)]) ++
    ([.use "err", .outer "nil", .opn, .outer "http", .use "w", .use "err", .cls] ++ (s.retIds.flatten.map .outer ++
    ([.define [⟨"response", "struct"⟩], .use "response"] ++ (useRets s.rets ++ [.outer "json", .use "w", .use "response"])))))

def serverIds (s : Sig) (i : Nat) : List Name := s.argIds[i]?.getD []

theorem httpServer_eq (s : Sig) : (httpServer s).body =
    [.outer "error", .var ⟨"err", "error"⟩, .use "r"] ++ (receives (serverIds s) s.args 0 ++ serverRest s) := by
  simp [httpServer, serverRest, receives, serverIds, List.append_assoc]

theorem serverIds_sub (s : Sig) (i : Nat) : ∀ x ∈ serverIds s i, x ∈ s.argIds.flatten := by
  intro x hx
  simp only [serverIds] at hx
  cases e : s.argIds[i]? with
  | none => simp [e] at hx
  | some l =>
    simp [e] at hx
    exact List.mem_flatten.2 ⟨l, List.mem_of_getElem? e, hx⟩

theorem server_pre : after ⟨[], httpTop, 0⟩ [.outer "error", .var ⟨"err", "error"⟩, .use "r"] = ⟨[], httpTop', 0⟩ := rfl

theorem newRets_some (rets : List String) (h : rets.length ≠ 0) (top : List Var) (he : "err" ∈ names top)
    (hr : ∀ x ∈ retVars rets.length, x ∉ names top) (k : Nat) :
    declare ⟨[], top, k⟩ (newRets rets) = ⟨[], top ++ results rets, k⟩ ∧ ∃ v ∈ newRets rets, v.name ∉ names top := by
  have e : (newRets rets).filter (fun v => decide (v.name ∉ names top)) = results rets := by
    rw [newRets, List.filter_append]
    have h1 : (results rets).filter (fun v => decide (v.name ∉ names top)) = results rets := by
      rw [List.filter_eq_self]
      intro v hv
      have : v.name ∈ names (results rets) := mem_names.2 ⟨v, hv, rfl⟩
      rw [names_results] at this
      simpa using hr _ this
    rw [h1]
    simp [he]
  constructor
  · show Env.mk [] (top ++ (newRets rets).filter (fun v => decide (v.name ∉ names top))) k = _
    rw [e]
  · have h0 : ret 0 ∈ retVars rets.length := List.mem_map.2 ⟨0, List.mem_range.2 (by omega), rfl⟩
    rw [← names_results] at h0
    obtain ⟨v, hv, hv'⟩ := mem_names.1 h0
    refine ⟨v, by rw [newRets]; exact List.mem_append_left _ hv, ?_⟩
    rw [hv', ]
    exact hr _ (List.mem_map.2 ⟨0, List.mem_range.2 (by omega), rfl⟩)

theorem http_top (s : Sig) (hf : ∀ x ∈ foreign s .httpServer, x ∉ variables s .httpServer) : ServerTop s.argIds.flatten httpTop' := by
  constructor <;> rw [names_httpTop']
  any_goals decide
  intro x hx
  have := hf x (by simp only [foreign, List.mem_append]; exact .inr hx)
  simp only [variables, List.mem_append, List.mem_cons, List.not_mem_nil, or_false, not_or] at this ⊢
  grind

theorem http_request (a : Var) : "request_" ++ a.name ∉ names httpTop' := by
  rw [names_httpTop']
  simp only [List.mem_cons, List.not_mem_nil, or_false, not_or]
  exact ⟨fun e => request_ne (by decide) e.symm, fun e => request_ne (by decide) e.symm, fun e => request_ne (by decide) e.symm,
    fun e => request_ne (by decide) e.symm⟩

/-- The function's block after the call. -/
def httpTop2 (s : Sig) : List Var := httpTop' ++ got s.args ++ [⟨"ctx", "context.Context"⟩]

theorem names_httpTop2 (s : Sig) : names (httpTop2 s) = ["handler", "w", "r", "err"] ++ names (got s.args) ++ ["ctx"] := by
  simp only [httpTop2, names_append, names_httpTop', names_cons, names_nil]

macro "name_simp3" : tactic => `(tactic| simp (disch := (first | decide | assumption)) only [names_nil, names_cons, names_append, names_results,
  names_newRets, not_got, names_httpTop', names_httpTop, names_httpTop2,
  List.nil_append, List.cons_append, List.append_assoc, List.append_nil, List.mem_cons, List.mem_append, List.not_mem_nil, not_ret,
  or_false, false_or, or_true, true_or, or_self, not_false_eq_true, not_true_eq_false, String.reduceEq])

open Lean.Parser.Tactic in
syntax "receive_simp" "[" ident,* "]" (location)? : tactic
macro_rules
  | `(tactic| receive_simp [$xs,*] $[$loc]?) => `(tactic| simp (disch := (first | decide | assumption | name_simp3)) only [$[$xs:ident],*, ownOk, badNames,
      shadowNames, hardNames, ownOk_rets, badNames_rets, shadowNames_rets, hardNames_rets, ownOk_outers, badNames_outers, shadowNames_outers,
      hardNames_outers, names_nil, names_cons, names_append, names_results, names_newRets, not_got, names_httpTop', names_httpTop,
      declare_new, declare_old_new, declare_new_old, declare_inner, innerNames, ownHere, List.flatten_cons, List.flatten_nil,
      List.nil_append, List.cons_append, List.append_assoc, List.append_nil, List.mem_cons, List.mem_append, List.not_mem_nil,
      List.tail_cons, not_ret, passAll, if_true, if_false, and_self, or_false, false_or, or_true, true_or, reduceCtorEq, ne_eq,
      not_false_eq_true, not_true_eq_false, and_true, true_and, List.mem_range, implies_true, imp_self,
      exists_eq_left, exists_eq, exists_eq_or_imp, List.filter_cons, List.all_cons, List.all_nil, Bool.and_true, Bool.true_and, Bool.and_self,
      decide_true, decide_false, Bool.false_eq_true, Bool.false_and, Bool.and_false, List.filter_nil, forall_eq, String.reduceEq,
      decide_not, Bool.not_true, Bool.not_false, decide_eq_true_eq, Bool.and_eq_true] $[$loc]?)

theorem top2_rets (s : Sig) : ∀ x ∈ retVars s.rets.length, x ∉ names (httpTop2 s) := by
  intro x hx
  obtain ⟨i, -, rfl⟩ := List.mem_map.1 hx
  rw [names_httpTop2]
  simp only [List.mem_append, List.mem_cons, List.not_mem_nil, or_false, not_or]
  refine ⟨⟨⟨?_, ?_, ?_, ?_⟩, ret_not_got⟩, ?_⟩ <;>
    (intro e; rw [e] at hx; exact not_ret (by decide) hx)

/-- The rest after the arguments have been handed on, with the results in the block. -/
def serverEnd (s : Sig) : List Tok :=
    [.use "err", .outer "nil", .opn, .outer "http", .use "w", .use "err", .cls] ++ (s.retIds.flatten.map .outer ++
    ([.define [⟨"response", "struct"⟩], .use "response"] ++ (useRets s.rets ++ [.outer "json", .use "w", .use "response"])))

def serverCall (s : Sig) : List Tok :=
  [.outer "context", .define [⟨"ctx", "context.Context"⟩], .use "handler", .use "ctx", passAll s.args]

theorem after_call (s : Sig) (k : Nat) : after ⟨[], httpTop' ++ got s.args, k⟩ (serverCall s) = ⟨[], httpTop2 s, k⟩ := by
  have e : declare ⟨[], httpTop' ++ got s.args, k⟩ [⟨"ctx", "context.Context"⟩] = ⟨[], httpTop2 s, k⟩ := by
    apply declare_new
    receive_simp [names_httpTop']
  simp only [serverCall, List.cons_append, List.nil_append, after, e, passAll]

theorem after_results (s : Sig) (k : Nat) :
    after ⟨[], httpTop2 s, k⟩ (if s.rets.length = 0 then [.use "err"] else [.define (newRets s.rets)]) =
      ⟨[], httpTop2 s ++ results s.rets, k⟩ ∧
    ownOk s.args.length ⟨[], httpTop2 s, k⟩ (if s.rets.length = 0 then [.use "err"] else [.define (newRets s.rets)]) ∧
    shadowNames ⟨[], httpTop2 s, k⟩ (if s.rets.length = 0 then [.use "err"] else [.define (newRets s.rets)]) = [] ∧
    ∀ x ∈ badNames ⟨[], httpTop2 s, k⟩ (if s.rets.length = 0 then [.use "err"] else [.define (newRets s.rets)]),
      x = "err" ∨ x ∈ retVars s.rets.length := by
  have he : "err" ∈ names (httpTop2 s) := by rw [names_httpTop2]; simp
  split
  · rename_i h0
    rw [List.length_eq_zero_iff.1 h0]
    simp [after, ownOk, shadowNames, badNames, results, he]
  · rename_i h0
    obtain ⟨e1, e2⟩ := newRets_some s.rets h0 (httpTop2 s) he (top2_rets s) k
    simp only [after, ownOk, shadowNames, badNames, e1, if_true, List.append_nil, names_newRets, List.mem_append, List.mem_cons,
      List.not_mem_nil, or_false, ownHere, true_and, and_true]
    exact ⟨e2, fun x hx => hx.symm⟩

theorem serverRest_eq (s : Sig) : serverRest s = serverCall s ++
    ((if s.rets.length = 0 then [.use "err"] else [.define (newRets s.rets)]) ++ serverEnd s) := rfl

theorem ok_httpServer (s : Sig) (hf : ∀ x ∈ foreign s .httpServer, x ∉ variables s .httpServer)
    (h : Avoid s (reserved s .httpServer ++ doubtful s .httpServer ++ retVars s.rets.length)) : Faithful .httpServer s := by
  have hreq : ∀ a ∈ s.args, ∀ x ∈ foreign s .httpServer, x ≠ "request_" ++ a.name := by
    intro a ha x hx e
    apply hf x hx
    simp only [variables, List.mem_append, List.mem_map]
    exact .inr ⟨a, ha, e.symm⟩
  obtain ⟨h1, h2, h3, h4, h5⟩ := receives_ok s.args.length (serverIds s) s.argIds.flatten (serverIds_sub s) s.args 0 httpTop' (http_top s hf)
    h.1 (fun a _ => http_request a) (fun a ha x hx => hreq a ha x (by simp only [foreign, List.mem_append]; exact .inr hx)) (by omega)
  rw [Nat.zero_add] at h1
  obtain ⟨g1, g2, g3, g4⟩ := after_results s s.args.length
  have hids : ∀ x ∈ s.retIds.flatten, x ∉ names (got s.args) ∧ x ∉ variables s .httpServer := by
    intro x hx
    have hx' : x ∈ foreign s .httpServer := by simp only [foreign, List.mem_append]; exact .inl hx
    refine ⟨fun hm => ?_, hf x hx'⟩
    obtain ⟨a, ha, e⟩ := mem_got hm
    exact hreq a ha x hx' e
  simp only [variables, List.mem_append, List.mem_cons, List.not_mem_nil, or_false, not_or] at hids
  refine faithful_of_server (params := httpTop) (body := (httpServer s).body) rfl (by decide) h.1
    (fun a ha => ⟨(h.2 a ha).1, (h.2 a ha).2.1⟩) ?_ ?_ ?_ fun i hi => points_pass (List.range s.args.length) _ _ ?_ i (List.mem_range.2 hi)
  · rw [httpServer_eq, ownOk_append, server_pre, ownOk_append, h1, serverRest_eq, ownOk_append, after_call, ownOk_append, g1]
    refine ⟨?_, h2, ?_, g2, ?_⟩
    · receive_simp [httpTop]
    · receive_simp [serverCall]
    · receive_simp [serverEnd, names_httpTop2]
      grind
  · intro a ha hm
    have h6 := (h.2 a ha).2.2
    rw [httpServer_eq, badNames_append, server_pre, badNames_append, h1, serverRest_eq, badNames_append, after_call, badNames_append, g1,
      List.mem_append, List.mem_append, List.mem_append, List.mem_append] at hm
    rcases hm with hm | hm | hm | hm | hm
    · revert hm h6
      receive_simp [reserved, httpTop, doubtful]; grind
    · rcases h3 _ hm with hm | hm | hm | ⟨b, hb, e⟩
      · revert hm h6
        receive_simp [reserved]; grind
      · revert hm h6
        receive_simp [reserved, doubtful]; grind
      · revert hm h6
        receive_simp [reserved, doubtful]; grind
      · apply h6
        simp only [doubtful, List.mem_append, List.mem_map]
        exact .inl (.inr (.inr ⟨b, hb, e.symm⟩))
    · revert hm h6
      receive_simp [reserved, serverCall]; grind
    · have := g4 _ hm
      revert this h6
      receive_simp [reserved]; grind
    · revert hm h6
      receive_simp [reserved, serverEnd, names_httpTop2]; grind
  · intro a ha
    rw [httpServer_eq, shadowNames_append, server_pre, shadowNames_append, h1, serverRest_eq, shadowNames_append, after_call,
      shadowNames_append, g1, g3, h4]
    receive_simp [serverCall, serverEnd, names_httpTop2, httpTop]
  · simp [httpServer, passAll]

theorem receives_arg (ids : Nat → List Name) (l : List Var) (j i : Nat) (h1 : j ≤ i) (h2 : i < j + l.length) :
    Tok.arg i ∈ receives ids l j := by
  induction l generalizing j with
  | nil => simp at h2; omega
  | cons a l ih =>
    rw [receives_cons]
    simp only [List.length_cons] at h2
    by_cases e : i = j
    · subst e
      apply List.mem_append_left
      rw [httpReceive]
      split <;> simp
    · exact List.mem_append_right _ (ih (j + 1) (by omega) (by omega))

theorem receives_after (ids : Nat → List Name) (l : List Var) (j : Nat) (top : List Var) (hn : (names l).Nodup)
    (hd : ∀ a ∈ l, "request_" ++ a.name ∉ names top) :
    after ⟨[], top, j⟩ (receives ids l j) = ⟨[], top ++ got l, j + l.length⟩ := by
  induction l generalizing j top with
  | nil => simp [receives, after, got]
  | cons a l ih =>
    rw [receives_cons, after_append]
    simp only [names_cons, List.nodup_cons] at hn
    have hl : j + (a :: l).length = j + 1 + l.length := by simp only [List.length_cons]; omega
    by_cases hs : a.ty = "string"
    · have e : got (a :: l) = got l := by simp [got, hs]
      rw [e, hl, ← ih (j + 1) top hn.2 (fun b hb => hd b (List.mem_cons_of_mem _ hb))]
      simp only [httpReceive, hs, if_true, after]
    · have e : top ++ got (a :: l) = top ++ [reqVar a] ++ got l := by simp [got, hs]
      rw [e, hl, ← ih (j + 1) (top ++ [reqVar a]) hn.2 (by
        intro b hb hm
        simp only [names_append, names_cons, names_nil, reqVar, List.mem_append, List.mem_singleton] at hm
        rcases hm with hm | hm
        · exact hd b (List.mem_cons_of_mem _ hb) hm
        · have := append_inj hm
          exact hn.1 (mem_names.2 ⟨b, hb, this⟩))]
      have ed : declare ⟨[], top, j⟩ [reqVar a] = ⟨[], top ++ [reqVar a], j⟩ := declare_new top j _ (hd a List.mem_cons_self)
      have ebv : (⟨"request_" ++ a.name, "string"⟩ : Var) = reqVar a := rfl
      simp only [httpReceive, hs, if_false, List.cons_append, List.nil_append, List.append_assoc, after, after_outers, ebv, ed, List.tail_cons]

theorem hard_httpServer (s : Sig) (h : Faithful .httpServer s) : Avoid s (reserved s .httpServer) := by
  have hall : ∀ i, i < s.args.length → Tok.arg i ∈ receives (serverIds s) s.args 0 :=
    fun i hi => receives_arg _ _ _ _ (by omega) (by omega)
  obtain ⟨h1, h2, h3, l, h7⟩ := hard_of_server (params := httpTop) (body := (httpServer s).body) rfl h (by
    intro i hi
    rw [httpServer_eq]
    exact List.mem_append_right _ (List.mem_append_left _ (hall i hi)))
  have h1' := receives_after (serverIds s) s.args 0 httpTop' h1 (fun a _ => http_request a)
  rw [Nat.zero_add] at h1'
  obtain ⟨g1, -⟩ := after_results s s.args.length
  refine ⟨h1, fun a ha => ?_⟩
  have h4 := h2 a ha
  have h5 := h3 a ha
  have h6 := faithful_named h a ha
  have h8 : a.name ≠ "err" := by
    rw [httpServer_eq] at h7
    simp only [List.cons_append, List.nil_append] at h7
    rw [run] at h7
    split at h7
    · rw [run] at h7
      split at h7
      · cases h7
      · obtain ⟨i, hi⟩ := List.mem_iff_getElem?.1 ha
        have hl : i < s.args.length := by
          rcases Nat.lt_or_ge i s.args.length with h | h
          · exact h
          · rw [List.getElem?_eq_none h] at hi; cases hi
        intro e
        refine run_fresh _ _ _ _ h7 i (List.mem_cons_of_mem _ (List.mem_append_left _ (hall i hl))) a hi ?_
        rw [e]
        decide
    · cases h7
  clear h h1 h2 h3 h7
  rw [httpServer_eq, hardNames_append, server_pre, hardNames_append, h1', serverRest_eq, hardNames_append, after_call, hardNames_append, g1,
    List.mem_append, List.mem_append, List.mem_append, List.mem_append] at h5
  simp only [not_or] at h5
  obtain ⟨-, -, h9, -, h10⟩ := h5
  receive_simp [reserved, serverCall, serverEnd, names_httpTop2] at h4 h9 h10 ⊢
  grind

end Verif.Scope
