/-
C97 for the HTTP client and the HTTP server.
-/
import Verif.Scope.Server
namespace Verif.Scope
set_option maxHeartbeats 1000000

/-- The environment after a part of a body. -/
def after : Env → List Tok → Env
  | E, [] => E
  | E, .use _ :: r => after E r
  | E, .outer _ :: r => after E r
  | E, .define xs :: r => after (declare E xs) r
  | E, .var x :: r => after (declare E [x]) r
  | E, .opn :: r => after { E with inner := [] :: E.inner } r
  | E, .cls :: r => after { E with inner := E.inner.tail } r
  | E, .pass _ :: r => after E r
  | E, .arg i :: r => after { E with k := i + 1 } r

theorem after_append (a b : List Tok) (E : Env) : after E (a ++ b) = after (after E a) b := by
  induction a generalizing E with
  | nil => rfl
  | cons t r ih => cases t <;> exact ih _

theorem ownOk_append (m : Nat) (a b : List Tok) (E : Env) : ownOk m E (a ++ b) ↔ ownOk m E a ∧ ownOk m (after E a) b := by
  induction a generalizing E with
  | nil => simp [ownOk, after]
  | cons t r ih => cases t <;> simp only [List.cons_append, ownOk, after, ih, and_assoc]

theorem badNames_append (a b : List Tok) (E : Env) : badNames E (a ++ b) = badNames E a ++ badNames (after E a) b := by
  induction a generalizing E with
  | nil => rfl
  | cons t r ih => cases t <;> simp only [List.cons_append, badNames, after, ih, List.append_assoc]

theorem shadowNames_append (a b : List Tok) (E : Env) :
    shadowNames E (a ++ b) = shadowNames E a ++ shadowNames (after E a) b := by
  induction a generalizing E with
  | nil => rfl
  | cons t r ih => cases t <;> simp only [List.cons_append, shadowNames, after, ih, List.append_assoc]

theorem hardNames_append (n : Nat) (a b : List Tok) (E : Env) :
    hardNames n E (a ++ b) = hardNames n E a ++ hardNames n (after E a) b := by
  induction a generalizing E with
  | nil => rfl
  | cons t r ih => cases t <;> simp only [List.cons_append, hardNames, after, ih, List.append_assoc]

theorem points_append (a b : List Tok) (E : Env) : points E (a ++ b) = points E a ++ points (after E a) b := by
  induction a generalizing E with
  | nil => rfl
  | cons t r ih => cases t <;> simp only [List.cons_append, points, after, ih, List.append_assoc]

/-! ### The client's loop -/

def bytesVar (a : Var) : Var := ⟨"bytes_" ++ a.name, "[]byte"⟩

def sent (l : List Var) : List Var := (l.filter fun a => a.ty ≠ "string").map bytesVar

theorem append_inj {p x y : String} (h : p ++ x = p ++ y) : x = y := by
  have h1 := congrArg String.toList h
  rw [String.toList_append, String.toList_append] at h1
  exact String.toList_inj.1 (List.append_cancel_left h1)

theorem mem_sent {l : List Var} {x : Name} (h : x ∈ names (sent l)) : ∃ a ∈ l, x = "bytes_" ++ a.name := by
  obtain ⟨v, hv, rfl⟩ := mem_names.1 h
  simp only [sent, List.mem_map, List.mem_filter] at hv
  obtain ⟨a, ⟨ha, -⟩, rfl⟩ := hv
  exact ⟨a, ha, rfl⟩

def sends (l : List Var) (j : Nat) : List Tok := (l.zipIdx j).flatMap fun p => httpSend p.2 p.1

theorem sends_cons (a : Var) (l : List Var) (j : Nat) : sends (a :: l) j = httpSend j a ++ sends l (j + 1) := by
  simp [sends, List.zipIdx_cons]

/-- What is in the function's block when the loop begins. -/
structure ClientTop (top : List Var) : Prop where
  vals : "vals" ∈ names top
  err : "err" ∈ names top
  json : "json" ∉ names top
  nil : "nil" ∉ names top
  string : "string" ∉ names top

theorem ClientTop.snoc {top : List Var} (h : ClientTop top) (a : Var) : ClientTop (top ++ [bytesVar a]) := by
  have hb : ∀ t : String, "bytes_".toList.head? ≠ t.toList.head? → ¬ t = "bytes_" ++ a.name :=
    fun t ht e => pre_ne (by decide) ht e.symm
  constructor <;> simp only [names_append, names_cons, names_nil, bytesVar, List.mem_append, List.mem_singleton, not_or]
  · exact .inl h.vals
  · exact .inl h.err
  · exact ⟨h.json, hb _ (by decide)⟩
  · exact ⟨h.nil, hb _ (by decide)⟩
  · exact ⟨h.string, hb _ (by decide)⟩

theorem sends_ok (n : Nat) (l : List Var) (j : Nat) (top : List Var) (ht : ClientTop top) (hn : (names l).Nodup)
    (hd : ∀ a ∈ l, "bytes_" ++ a.name ∉ names top) (hj : j + l.length ≤ n) :
    after ⟨[], top, n⟩ (sends l j) = ⟨[], top ++ sent l, n⟩ ∧ ownOk n ⟨[], top, n⟩ (sends l j) ∧
    (∀ x ∈ badNames ⟨[], top, n⟩ (sends l j), x ∈ ["json", "nil", "string", "err"] ∨ ∃ a ∈ l, x = "bytes_" ++ a.name) ∧
    shadowNames ⟨[], top, n⟩ (sends l j) = [] ∧
    ∀ i, j ≤ i → i < j + l.length → i ∈ (points ⟨[], top, n⟩ (sends l j)).map (·.2) := by
  induction l generalizing j top with
  | nil => simp [sends, after, ownOk, badNames, shadowNames, sent]; intro i h1 h2; omega
  | cons a l ih =>
    rw [sends_cons]
    simp only [names_cons, List.nodup_cons] at hn
    simp only [List.length_cons] at hj
    by_cases hs : a.ty = "string"
    · obtain ⟨h1, h2, h3, h4, h5⟩ := ih (j + 1) top ht hn.2 (fun b hb => hd b (List.mem_cons_of_mem _ hb)) (by omega)
      have e : sent (a :: l) = sent l := by simp [sent, hs]
      rw [e]
      simp only [httpSend, hs, if_true, List.cons_append, List.nil_append, after, ownOk, badNames, shadowNames, points, h1, h4]
      refine ⟨trivial, ⟨.inr ht.vals, by simp; omega, h2⟩, fun x hx => ?_, rfl, fun i hi hi' => ?_⟩
      · rcases h3 x hx with h | ⟨b, hb, h⟩
        · exact .inl h
        · exact .inr ⟨b, List.mem_cons_of_mem _ hb, h⟩
      · simp only [List.map_cons, List.map_nil, List.cons_append, List.nil_append, List.mem_cons]
        by_cases hij : i = j
        · exact .inl hij
        · exact .inr (h5 i (by omega) (by simp only [List.length_cons] at hi'; omega))
    · have hnew := hd a List.mem_cons_self
      obtain ⟨h1, h2, h3, h4, h5⟩ := ih (j + 1) (top ++ [bytesVar a]) (ht.snoc a) hn.2 (by
        intro b hb hm
        simp only [names_append, names_cons, names_nil, bytesVar, List.mem_append, List.mem_singleton] at hm
        rcases hm with hm | hm
        · exact hd b (List.mem_cons_of_mem _ hb) hm
        · have := append_inj hm
          exact hn.1 (mem_names.2 ⟨b, hb, this⟩)) (by omega)
      have e : top ++ sent (a :: l) = top ++ [bytesVar a] ++ sent l := by simp [sent, hs]
      rw [e]
      have ed : declare ⟨[], top, n⟩ [bytesVar a, ⟨"err", "error"⟩] = ⟨[], top ++ [bytesVar a], n⟩ :=
        declare_new_old top n _ _ hnew ht.err
      have ht' := ht.snoc a
      have ebv : (⟨"bytes_" ++ a.name, "[]byte"⟩ : Var) = bytesVar a := rfl
      simp only [httpSend, hs, if_false, List.cons_append, List.nil_append, after, ownOk, badNames, shadowNames, points, ebv, ed, h1, h4]
      refine ⟨trivial, ⟨by simp [innerNames, names], ht.json, by simp; omega, ⟨bytesVar a, by simp, hnew⟩, .inr ht'.err,
        by simp [innerNames, names], ht'.nil, .inr ht'.vals, by simp [innerNames, names], ht'.string,
        .inr (by simp [names, bytesVar]), h2⟩, fun x hx => ?_, rfl, fun i hi hi' => ?_⟩
      · simp only [if_true, List.mem_cons, List.mem_append, names_cons, names_nil, List.not_mem_nil, or_false] at hx ⊢
        rcases hx with h | (h | h) | h | h | h
        · exact .inl (.inl h)
        · exact .inr ⟨a, .inl rfl, h⟩
        · exact .inl (.inr (.inr (.inr h)))
        · exact .inl (.inr (.inl h))
        · exact .inl (.inr (.inr (.inl h)))
        · rcases h3 x h with h | ⟨b, hb, h⟩
          · simp only [List.mem_cons, List.not_mem_nil, or_false] at h
            exact .inl h
          · exact .inr ⟨b, .inr hb, h⟩
      · simp only [List.map_cons, List.map_nil, List.cons_append, List.nil_append, List.mem_cons]
        by_cases hij : i = j
        · exact .inl hij
        · exact .inr (h5 i (by omega) (by simp only [List.length_cons] at hi'; omega))

theorem not_sent {l : List Var} {x : Name} (h : "bytes_".toList.head? ≠ x.toList.head?) : x ∉ names (sent l) := by
  intro hm
  obtain ⟨a, -, e⟩ := mem_sent hm
  exact pre_ne (by decide) h e.symm

def clientParams (s : Sig) : List Var :=
  ⟨"client", "receiver"⟩ :: ⟨"ctx", "context.Context"⟩ :: (results s.rets ++ [⟨"err", "error"⟩])

def clientTop (s : Sig) : List Var := clientParams s ++ [⟨"vals", "url.Values"⟩]

theorem names_clientTop (s : Sig) : names (clientTop s) = "client" :: "ctx" :: (retVars s.rets.length ++ ["err", "vals"]) := by
  simp [clientTop, clientParams, names_cons, names_append, names_results, names_nil]

macro "name_simp2" : tactic => `(tactic| simp (disch := (first | decide | assumption)) only [names_nil, names_cons, names_append, names_results,
  names_newRets, not_sent, names_clientTop,
  List.nil_append, List.cons_append, List.append_assoc, List.append_nil, List.mem_cons, List.mem_append, List.not_mem_nil, not_ret,
  or_false, false_or, or_true, true_or, or_self, not_false_eq_true, not_true_eq_false, String.reduceEq])

open Lean.Parser.Tactic in
syntax "http_simp" "[" ident,* "]" (location)? : tactic
macro_rules
  | `(tactic| http_simp [$xs,*] $[$loc]?) => `(tactic| simp (disch := (first | decide | assumption | name_simp2)) only [$[$xs:ident],*, ownOk, badNames,
      shadowNames, hardNames, ownOk_rets, badNames_rets, shadowNames_rets, hardNames_rets, ownOk_outers, badNames_outers, shadowNames_outers,
      hardNames_outers, names_nil, names_cons, names_append, names_results, names_newRets, not_sent,
      declare_new, declare_old_new, declare_new_old, declare_inner, innerNames, ownHere, List.flatten_cons, List.flatten_nil,
      List.nil_append, List.cons_append, List.append_assoc, List.append_nil, List.mem_cons, List.mem_append, List.not_mem_nil,
      List.tail_cons, not_ret, passAll, if_true, if_false, and_self, or_false, false_or, or_true, true_or, reduceCtorEq, ne_eq,
      not_false_eq_true, not_true_eq_false, and_true, true_and, List.mem_range, implies_true, imp_self,
      exists_eq_left, exists_eq, exists_eq_or_imp, List.filter_cons, List.all_cons, List.all_nil, Bool.and_true, Bool.true_and, Bool.and_self,
      decide_true, decide_false, Bool.false_eq_true, Bool.false_and, Bool.and_false, List.filter_nil, forall_eq, String.reduceEq,
      decide_not, Bool.not_true, Bool.not_false, decide_eq_true_eq, Bool.and_eq_true] $[$loc]?)

/-- After the loop. -/
def clientRest (s : Sig) : List Tok :=
  [.outer "url", .use "client", .define [⟨"encoded_url", "*url.URL"⟩, ⟨"err", "error"⟩], .use "err", .outer "nil",
    .use "encoded_url", .use "vals", .use "client", .use "encoded_url", .define [⟨"resp", "*http.Response"⟩, ⟨"err", "error"⟩],
    .use "err", .outer "nil", .use "resp", .define [⟨"statusOk", "bool"⟩], .use "statusOk",
    .opn, .use "err", .outer "fmt", .use "resp", .cls] ++ (s.retIds.flatten.map .outer ++
  ([.define [⟨"response", "struct"⟩], .outer "io", .use "resp", .define [⟨"resp_bytes", "[]byte"⟩, ⟨"err", "error"⟩],
    .use "err", .outer "nil", .use "err", .outer "json", .use "resp_bytes", .use "response", .use "err", .outer "nil"] ++
  (useRets s.rets ++ [.use "response"])))

theorem httpClient_eq (s : Sig) : (httpClient s).body =
    [.outer "url", .define [⟨"vals", "url.Values"⟩]] ++ (sends s.args 0 ++ clientRest s) := by
  simp [httpClient, clientRest, sends, wrapper, List.append_assoc]

theorem client_pre (s : Sig) (n : Nat) :
    after ⟨[], clientParams s, n⟩ [.outer "url", .define [⟨"vals", "url.Values"⟩]] = ⟨[], clientTop s, n⟩ := by
  have e : declare ⟨[], clientParams s, n⟩ [⟨"vals", "url.Values"⟩] = ⟨[], clientTop s, n⟩ := by
    apply declare_new
    http_simp [clientParams]
  simp only [after, e]

theorem client_top (s : Sig) : ClientTop (clientTop s) := by
  constructor <;> rw [names_clientTop] <;> http_simp [clientParams]

theorem client_bytes (s : Sig) (a : Var) : "bytes_" ++ a.name ∉ names (clientTop s) := by
  rw [names_clientTop]
  simp only [List.mem_cons, List.mem_append, List.not_mem_nil, or_false, not_or]
  refine ⟨pre_ne (by decide) (by decide), pre_ne (by decide) (by decide), pre_not_ret (by decide) (by decide),
    pre_ne (by decide) (by decide), pre_ne (by decide) (by decide)⟩

theorem ok_httpClient (s : Sig) (hf : ∀ x ∈ foreign s .httpClient, x ∉ variables s .httpClient)
    (h : Avoid s (reserved s .httpClient ++ doubtful s .httpClient ++ retVars s.rets.length)) : Faithful .httpClient s := by
  obtain ⟨h1, h2, h3, h4, h5⟩ := sends_ok s.args.length s.args 0 (clientTop s) (client_top s) h.1
    (fun a _ => client_bytes s a) (by omega)
  have hids : ∀ x ∈ s.retIds.flatten, x ∉ names (sent s.args) ∧ x ∉ variables s .httpClient := by
    intro x hx
    have := hf x (by simpa [foreign] using hx)
    refine ⟨fun hm => this ?_, this⟩
    obtain ⟨a, ha, e⟩ := mem_sent hm
    simp only [variables, List.mem_append, List.mem_map]
    exact .inr ⟨a, ha, e.symm⟩
  simp only [variables, List.mem_append, List.mem_cons, List.not_mem_nil, or_false, not_or] at hids
  refine faithful_of (params := clientParams s) (body := (httpClient s).body) rfl ?_ h.1 ?_
    (fun a ha => ⟨(h.2 a ha).1, (h.2 a ha).2.1⟩) ?_ ?_ ?_ fun i hi => ?_
  · scope_simp [clientParams]; exact ret_ne (by decide)
  · intro a ha; have := (h.2 a ha).2.2; revert this
    http_simp [clientParams, reserved, doubtful]; grind
  · rw [httpClient_eq, ownOk_append, client_pre, ownOk_append, h1]
    refine ⟨?_, h2, ?_⟩
    · http_simp [clientParams]
    · http_simp [clientRest, names_clientTop]
      grind
  · intro a ha hm
    have h6 := (h.2 a ha).2.2
    rw [httpClient_eq, badNames_append, client_pre, badNames_append, h1, List.mem_append, List.mem_append] at hm
    rcases hm with hm | hm | hm
    · revert hm h6
      http_simp [reserved]; grind
    · rcases h3 _ hm with hm | ⟨b, hb, e⟩
      · revert hm h6
        http_simp [reserved, doubtful]; grind
      · apply h6
        simp only [doubtful, List.mem_append, List.mem_map]
        exact .inl (.inr (.inr ⟨b, hb, e.symm⟩))
    · revert hm h6
      http_simp [reserved, clientRest, names_clientTop]; grind
  · intro a ha
    rw [httpClient_eq, shadowNames_append, client_pre, shadowNames_append, h1, h4]
    http_simp [clientRest, names_clientTop]
  · rw [httpClient_eq, points_append, client_pre, points_append, List.map_append, List.map_append]
    exact List.mem_append_right _ (List.mem_append_left _ (h5 i (by omega) (by omega)))

theorem handOn_named {args : List Var} {E : Env} {i : Nat} {b : Bind} (h : handOn args E i = some b) {a : Var}
    (ha : args[i]? = some a) : a.name ≠ "_" ∧ a.name ≠ "" := by
  simp only [handOn, ha] at h
  split at h
  · cases h
  · rename_i hc
    exact not_or.1 hc

/-- What is handed on has a name. -/
theorem run_named (args : List Var) (ss : List Tok) (E : Env) (l : List (Nat × Bind)) (h : run args E ss = some l)
    (i : Nat) (b : Bind) (hm : (i, b) ∈ l) (a : Var) (ha : args[i]? = some a) : a.name ≠ "_" ∧ a.name ≠ "" := by
  induction ss generalizing E l with
  | nil => cases h; cases hm
  | cons t r ih =>
    cases t with
    | use x =>
      simp only [run] at h
      split at h
      · exact ih E l h hm
      · cases h
    | outer x =>
      simp only [run] at h
      split at h
      · exact ih E l h hm
      · cases h
    | define xs =>
      simp only [run] at h
      split at h
      · exact ih _ l h hm
      · cases h
    | var x =>
      simp only [run] at h
      split at h
      · cases h
      · exact ih _ l h hm
    | opn => exact ih { E with inner := [] :: E.inner } l h hm
    | cls =>
      simp only [run] at h
      split at h
      · cases h
      · rename_i bs _
        exact ih { E with inner := bs } l h hm
    | pass is =>
      simp only [run] at h
      split at h
      · cases h
      · rename_i l1 e1
        cases e2 : run args E r with
        | none => rw [e2] at h; cases h
        | some l2 =>
          rw [e2] at h
          cases h
          rcases List.mem_append.1 hm with hm | hm
          · clear ih e2
            induction is generalizing l1 with
            | nil => cases e1; cases hm
            | cons j is ih2 =>
              simp only [List.mapM_cons] at e1
              cases e3 : handOn args E j with
              | none => rw [e3] at e1; cases e1
              | some c =>
                rw [e3] at e1
                cases e4 : is.mapM (fun i => (handOn args E i).map fun b => (i, b)) with
                | none => simp [e4] at e1
                | some l3 =>
                  simp [e4] at e1
                  subst e1
                  rcases List.mem_cons.1 hm with hm | hm
                  · cases hm; exact handOn_named e3 ha
                  · exact ih2 l3 e4 (List.mem_append_left _ hm) hm
          · exact ih E l2 e2 hm
    | arg i =>
      simp only [run] at h
      split at h
      · cases h
      · split at h
        · cases h
        · exact ih { E with k := i + 1 } l h hm

theorem faithful_named {p : Plugin} {s : Sig} (h : Faithful p s) : ∀ a ∈ s.args, a.name ≠ "_" ∧ a.name ≠ "" := by
  intro a ha
  obtain ⟨l, h1, -, h3⟩ := h
  obtain ⟨i, hi⟩ := List.mem_iff_getElem?.1 ha
  have hl : i < s.args.length := by
    rcases Nat.lt_or_ge i s.args.length with h | h
    · exact h
    · rw [List.getElem?_eq_none h] at hi; cases hi
  simp only [compile] at h1
  split at h1
  · split at h1
    · exact run_named _ _ _ _ h1 i _ (h3 i hl) a hi
    · cases h1
  · split at h1
    · exact run_named _ _ _ _ h1 i _ (h3 i hl) a hi
    · cases h1

theorem hard_httpClient (s : Sig) (h : Faithful .httpClient s) :
    Avoid s (reserved s .httpClient ++ retVars s.rets.length) := by
  obtain ⟨h1, h2, h3⟩ := hard_of (params := clientParams s) (body := (httpClient s).body) rfl h
  obtain ⟨e, -⟩ := sends_ok s.args.length s.args 0 (clientTop s) (client_top s) h1 (fun a _ => client_bytes s a) (by omega)
  refine ⟨h1, fun a ha => ?_⟩
  have h4 := h2 a ha
  have h5 := h3 a ha
  have h6 := faithful_named h a ha
  clear h h1 h2 h3
  rw [httpClient_eq, hardNames_append, client_pre, hardNames_append, e] at h5
  http_simp [reserved, clientRest, names_clientTop, clientParams] at h4 h5 ⊢
  grind

end Verif.Scope
