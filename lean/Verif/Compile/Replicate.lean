import Verif.Compile.Props
import Verif.Wrappers.ConcProps
/-
Replicas: plugins/replication/wiring.go and plugins/loadbalancer/{wiring,ir_balancer,codegen}.go.

For a compilation, a load balancer is a service whose constructor takes services only (plugins/loadbalancer/wiring.go lines 29-62 do what
plugins/workflow/wiring.go lines 71-118 do).  Simplification: the nodes of the balancer's clients are named `x_lb.client`, as those of other
services; the code names them `x_lb`, like the balancer.
-/
namespace Verif.Compile
open Verif.Wiring (Name)

/-- plugins/replication/wiring.go line 42. -/
def replica (g : Name) (i : Nat) : Name := g ++ "_" ++ toString i

/-- plugins/loadbalancer/wiring.go line 30. -/
def balancer (g : Name) : Name := g ++ "_lb"

/-- `Replicate` (plugins/replication/wiring.go lines 38-50) and `CreateLoadBalancer`. -/
def replicate (g : Name) (n : Nat) (ctor : List Bool) (args : List Name) : List Decl :=
  (List.range n).map (fun i => .service (replica g i) ctor args) ++
    [.service (balancer g) (List.replicate n false) ((List.range n).map (replica g))]

/-! ### Names -/

theorem str_append_inj {a b a' b' : String} (h : a ++ b = a' ++ b') : a.toList ++ b.toList = a'.toList ++ b'.toList := by
  rw [← String.toList_append, h, String.toList_append]

theorem digits_repr (i : Nat) : ∀ c ∈ (toString i).toList, c.isDigit = true := by
  intro c hc
  have : toString i = Nat.repr i := rfl
  rw [this, Nat.toList_repr] at hc
  exact Nat.isDigit_of_mem_toDigits (by decide) (by decide) hc

theorem toString_inj {i j : Nat} (h : (toString i).toList = (toString j).toList) : i = j := by
  have e : ∀ k : Nat, toString k = Nat.repr k := fun _ => rfl
  rw [e, e, Nat.toList_repr, Nat.toList_repr] at h
  have h1 := Nat.ofDigitChars_ten_toDigits (n := i)
  have h2 := Nat.ofDigitChars_ten_toDigits (n := j)
  rw [h] at h1
  exact h1.symm.trans h2

theorem last_part {x : Char} {l1 r1 l2 r2 : List Char} (e : l1 ++ x :: r1 = l2 ++ x :: r2) (h1 : x ∉ r1) (h2 : x ∉ r2) :
    l1 = l2 ∧ r1 = r2 := by
  rcases List.append_eq_append_iff.1 e with ⟨m, e1, e2⟩ | ⟨m, e1, e2⟩
  · cases m with
    | nil => simp at e1 e2; exact ⟨e1.symm, e2⟩
    | cons y m =>
      rw [List.cons_append] at e2
      injection e2 with e2 e3
      exact absurd (by rw [e3]; simp) h1
  · cases m with
    | nil => simp at e1 e2; exact ⟨e1, e2.symm⟩
    | cons y m =>
      rw [List.cons_append] at e2
      injection e2 with e2 e3
      exact absurd (by rw [e3]; simp) h2

theorem under_digits (i : Nat) : '_' ∉ (toString i).toList := fun h => by
  have := digits_repr i _ h
  revert this
  decide

theorem replica_list (g : Name) (i : Nat) : (replica g i).toList = g.toList ++ '_' :: (toString i).toList := by
  unfold replica
  rw [String.toList_append, String.toList_append]
  simp

theorem balancer_list (g : Name) : (balancer g).toList = g.toList ++ '_' :: ['l', 'b'] := by
  unfold balancer
  rw [String.toList_append]
  rfl

/-- C121: replicas have names of their own: no two replicas, of the same group or of different groups, have the same name, and none has
the name of a balancer. -/
theorem C121_names (g g' : Name) (i j : Nat) :
    (replica g i = replica g' j ↔ g = g' ∧ i = j) ∧ (balancer g = balancer g' ↔ g = g') ∧ replica g i ≠ balancer g' := by
  refine ⟨⟨fun h => ?_, fun ⟨a, b⟩ => by rw [a, b]⟩, ⟨fun h => ?_, fun a => by rw [a]⟩, fun h => ?_⟩
  · have := congrArg String.toList h
    rw [replica_list, replica_list] at this
    obtain ⟨h1, h2⟩ := last_part this (under_digits i) (under_digits j)
    exact ⟨String.toList_inj.1 h1, toString_inj h2⟩
  · have := congrArg String.toList h
    rw [balancer_list, balancer_list] at this
    exact String.toList_inj.1 (last_part this (by decide) (by decide)).1
  · have := congrArg String.toList h
    rw [replica_list, balancer_list] at this
    have h2 := (last_part this (under_digits i) (by decide)).2
    have := digits_repr i 'l' (by rw [h2]; simp)
    revert this
    decide

/-! ### What is declared is built -/

theorem service_of_decl {A : App} {ds : List Decl} (dec : A.Declared ds) {x : Name} {c : List Bool} {a : List Name}
    (h : .service x c a ∈ ds) : ∃ S ∈ A.svcs, S.name = x ∧ S.ctor = c ∧ S.args = a ∧ S.back = false := by
  obtain ⟨S, hS, e⟩ := dec.nothingElse _ h x rfl
  have hm : Decl.service x c a ∈ ds.filter (fun d => d.about == some S.name) := by
    rw [List.mem_filter]
    exact ⟨h, by simp [Decl.about, e]⟩
  rw [dec.services S hS] at hm
  have hp : ∀ (T : Name) (xs : List Name) (l : Nat), Decl.service x c a ∉ placeDecls T l xs := by
    intro T xs
    induction xs with
    | nil => intro l h; cases h
    | cons y ys ih =>
      intro l h
      rcases List.mem_cons.1 h with h | h
      · cases h
      · exact ih _ h
  cases hk : S.back with
  | true =>
    simp only [Svc.decls, hk, if_true, List.mem_append, List.mem_cons, List.not_mem_nil, or_false] at hm
    rcases hm with hm | hm
    · cases hm
    · exact absurd hm (hp _ _ _)
  | false =>
  simp only [Svc.decls, hk, Bool.false_eq_true, if_false, List.cons_append, List.mem_cons, List.mem_append, List.mem_map] at hm
  rcases hm with hm | (⟨w, -, hm⟩ | hm) | hm
  · injection hm with h1 h2 h3
    exact ⟨S, hS, e, h2.symm, h3.symm, hk⟩
  · unfold wrapDecl at hm
    split at hm <;> cases hm
  · split at hm
    · simp at hm
    · cases hm
  · exact absurd hm (hp _ _ _)

/-- C121: if a group is replicated and its balancer is asked for, or something that calls it, the balancer is built, in one place, from the
clients of exactly its `n` replicas, in order; and every replica is built, in one place, from its own clients of the services that the
arguments name. -/
theorem C121_replicas {A : App} {rank : Name → Nat} {ds : List Decl} {nodes : List Name} (fit : A.Fits rank) (dec : A.Declared ds)
    (req : A.Requests nodes) {g : Name} {n : Nat} {ctor : List Bool} {args : List Name} (hr : ∀ d ∈ replicate g n ctor args, d ∈ ds) :
    ∃ (L : Svc) (R : Nat → Svc), L ∈ A.svcs ∧ L.name = balancer g ∧
      (∀ i < n, R i ∈ A.svcs ∧ (R i).name = replica g i) ∧
    (A.Active nodes L →
      ∃ (H : Svc → Tree) (fuel : Nat) (s : St), compile (Wired.run ds).env fuel nodes = some (s, .success) ∧
        H L = .handler (balancer g) ((List.range n).map fun i => (R i).clientTree (H (R i))) ∧
        (∀ sp, H L ∈ s.nodes sp ↔ sp = L.home) ∧
        ∀ i < n, H (R i) = .handler (replica g i) (args.map (A.argTree H)) ∧ ∀ sp, H (R i) ∈ s.nodes sp ↔ sp = (R i).home) := by
  obtain ⟨L, hL, nL, cL, aL, bL⟩ := service_of_decl dec (hr _ (by unfold replicate; exact List.mem_append_right _ List.mem_cons_self))
  have hR : ∀ i, ∃ S : Svc, i < n → S ∈ A.svcs ∧ S.name = replica g i ∧ S.ctor = ctor ∧ S.args = args ∧ S.back = false := by
    intro i
    by_cases hi : i < n
    · obtain ⟨S, h1, h2⟩ := service_of_decl dec (hr (.service (replica g i) ctor args) (by
        unfold replicate
        exact List.mem_append_left _ (List.mem_map.2 ⟨i, List.mem_range.2 hi, rfl⟩)))
      exact ⟨S, fun _ => ⟨h1, h2⟩⟩
    · exact ⟨L, fun h => absurd h hi⟩
  obtain ⟨R, hR⟩ := Classical.skolem.1 hR
  refine ⟨L, R, hL, nL, fun i hi => ⟨(hR i hi).1, (hR i hi).2.1⟩, fun act => ?_⟩
  obtain ⟨H, hH, fuel, s, hc, hn, -⟩ := C112_whole fit dec req
  have actR : ∀ i < n, A.Active nodes (R i) := by
    intro i hi
    refine .called (str := false) act ?_ (hR i hi).1
    rw [(hR i hi).2.1, cL, aL]
    apply List.mem_of_getElem? (i := i)
    rw [List.getElem?_zip_eq_some]
    exact ⟨by simp [hi], by simp [hi]⟩
  have one : ∀ S, A.Active nodes S → S.back = false → ∀ sp, H S ∈ s.nodes sp ↔ sp = S.home := by
    intro S hS hk sp
    constructor
    · intro h
      rw [hH S hS hk] at h
      exact (C112_once fit dec req hc hS hk sp).1 ⟨_, h⟩
    · rintro rfl
      exact (hn _ _).2 (.handler hS hk)
  refine ⟨H, fuel, s, hc, ?_, one L act bL, fun i hi => ⟨?_, one _ (actR i hi) (hR i hi).2.2.2.2⟩⟩
  · rw [hH L act bL, nL, aL, List.map_map]
    congr 1
    apply List.map_congr_left
    intro i hi
    have hi := List.mem_range.1 hi
    show A.argTree H (replica g i) = _
    unfold App.argTree
    cases hf : A.svcs.find? (fun U => U.name == replica g i) with
    | none =>
      have := List.find?_eq_none.1 hf (R i) (hR i hi).1
      simp [(hR i hi).2.1] at this
    | some U =>
      have h1 := List.find?_some hf
      have h2 := List.mem_of_find?_eq_some hf
      have : U = R i := fit.one U h2 (R i) (hR i hi).1 (by rw [(hR i hi).2.1]; simpa using h1)
      rw [this]
  · rw [hH _ (actR i hi) (hR i hi).2.2.2.2, (hR i hi).2.1, (hR i hi).2.2.2.1]

/-- C121: the calls on a balancer of `n > 0` clients go to them in turns, whatever the callers do: the `k`-th call goes to the `k mod n`-th
of the clients that the balancer was built from, which are the replicas'. -/
theorem C121_calls {C : Type} (clients : List C) (hn : clients ≠ []) (as : List Wrappers.LbAct) (k : Nat)
    (hk : k < (Wrappers.Lb.init.exec clients.length as).picks.length) :
    ∃ c, (Wrappers.Lb.init.exec clients.length as).picks[k]? = some c ∧ clients[c]? = clients[k % clients.length]? ∧
      ∃ x, clients[c]? = some x := by
  have hpos : 0 < clients.length := List.length_pos_iff.2 hn
  refine ⟨_, Wrappers.C47_round_robin _ hpos as k hk, rfl, ?_⟩
  have := Nat.mod_lt k hpos
  exact ⟨clients[k % clients.length], List.getElem?_eq_getElem this⟩

/-! ### A concrete case: two replicas with an argument each, in one process, behind gRPC -/

def rep0 : Svc := ⟨"leaf_0", [true], ["7"], [(true, "retries")], false, [], ["p"], false, .grpc⟩
def rep1 : Svc := ⟨"leaf_1", [true], ["7"], [], false, [], ["p"], false, .grpc⟩
def repLb : Svc := ⟨"leaf_lb", [false, false], ["leaf_0", "leaf_1"], [], true, ["p"], [], false, .grpc⟩
def repApp : App := ⟨[rep0, rep1, repLb], [("p", 1)]⟩
def repDecls : List Decl := replicate "leaf" 2 [true] ["7"] ++ [.wrapClient "leaf_0" "retries", .rpc .grpc "leaf_lb", .addTo 1 "p" "leaf_lb", .space "p" 1]
def repRank (n : Name) : Nat := if n = "leaf_lb" then 1 else 0

example : replicate "leaf" 2 [true] ["7"] =
    [.service "leaf_0" [true] ["7"], .service "leaf_1" [true] ["7"], .service "leaf_lb" [false, false] ["leaf_0", "leaf_1"]] := by decide +kernel

theorem rep_fits : repApp.Fits repRank := by
  have mem : ∀ {S : Svc}, S ∈ repApp.svcs → S = rep0 ∨ S = rep1 ∨ S = repLb := by
    intro S hS
    simpa only [repApp, List.mem_cons, List.not_mem_nil, or_false] using hS
  have home : ∀ {S : Svc}, S ∈ repApp.svcs → S.home = ["p"] := by
    intro S hS
    rcases mem hS with rfl | rfl | rfl <;> rfl
  have split : ∀ {a : List Name} {x b}, ["p"] = a ++ x :: b → a = [] ∧ x = "p" ∧ b = [] := by
    intro a x b e
    cases a with
    | nil => simp at e; exact ⟨rfl, e.1.symm, e.2⟩
    | cons c a => simp at e
  refine ⟨?_, ?_, ?_, ?_, ?_, ?_, ?_, ?_⟩
  · intro S hS S' hS'
    rcases mem hS with rfl | rfl | rfl <;> rcases mem hS' with rfl | rfl | rfl <;> simp [rep0, rep1, repLb]
  · intro S hS
    rcases mem hS with rfl | rfl | rfl
    · exact ⟨by unfold NoDot; decide +kernel, by decide +kernel, by simp [repApp, rep0]⟩
    · exact ⟨by unfold NoDot; decide +kernel, by decide +kernel, by simp [repApp, rep1]⟩
    · exact ⟨by unfold NoDot; decide +kernel, by decide +kernel, by simp [repApp, repLb]⟩
  · intro x l h
    simp only [repApp, List.mem_cons, Prod.mk.injEq, List.not_mem_nil, or_false] at h
    rw [h.1]
    unfold NoDot
    decide +kernel
  · intro x l l' h h'
    simp only [repApp, List.mem_cons, Prod.mk.injEq, List.not_mem_nil, or_false] at h h'
    rw [h.2, h'.2]
  · intro S hS a x b e
    rw [home hS] at e
    obtain ⟨rfl, rfl, rfl⟩ := split e
    rcases mem hS with rfl | rfl | rfl <;> simp [repApp, Svc.base, rep0, rep1, repLb]
  · intro S hS S' hS' a x b a' b' e e'
    rw [home hS] at e
    rw [home hS'] at e'
    rw [(split e).2.2, (split e').2.2]
  · intro S hS
    rcases mem hS with rfl | rfl | rfl
    · refine ⟨rfl, fun str a h => ?_⟩
      simp only [rep0, List.zip_cons_cons, List.zip_nil_left, List.mem_cons, Prod.mk.injEq, List.not_mem_nil, or_false] at h
      obtain ⟨rfl, rfl⟩ := h
      exact .inl ⟨rfl, by decide +kernel, by simp [repApp]⟩
    · refine ⟨rfl, fun str a h => ?_⟩
      simp only [rep1, List.zip_cons_cons, List.zip_nil_left, List.mem_cons, Prod.mk.injEq, List.not_mem_nil, or_false] at h
      obtain ⟨rfl, rfl⟩ := h
      exact .inl ⟨rfl, by decide +kernel, by simp [repApp]⟩
    · refine ⟨rfl, fun str a h => ?_⟩
      simp only [repLb, List.zip_cons_cons, List.zip_nil_left, List.mem_cons, Prod.mk.injEq, List.not_mem_nil, or_false] at h
      rcases h with ⟨rfl, rfl⟩ | ⟨rfl, rfl⟩
      · exact .inr ⟨rep0, by simp [repApp], rfl, .inl ⟨rfl, rfl⟩, fun _ => by decide +kernel⟩
      · exact .inr ⟨rep1, by simp [repApp], rfl, .inl ⟨rfl, rfl⟩, fun _ => by decide +kernel⟩
  · intro S hS h
    rcases mem hS with rfl | rfl | rfl <;> cases h

theorem rep_declared : repApp.Declared repDecls := by
  refine ⟨by decide +kernel, ?_, ?_⟩
  · intro x l
    constructor
    · intro h
      simp only [repApp, List.mem_cons, Prod.mk.injEq, List.not_mem_nil, or_false] at h
      obtain ⟨rfl, rfl⟩ := h
      decide +kernel
    · intro h
      have : repDecls = [.service "leaf_0" [true] ["7"], .service "leaf_1" [true] ["7"],
        .service "leaf_lb" [false, false] ["leaf_0", "leaf_1"], .wrapClient "leaf_0" "retries", .rpc .grpc "leaf_lb", .addTo 1 "p" "leaf_lb",
        .space "p" 1] := by decide +kernel
      rw [this] at h
      simpa [repApp] using h
  · have : ∀ d ∈ repDecls, d.about = none ∨ ∃ S ∈ repApp.svcs, d.about = some S.name := by decide +kernel
    intro d hd T e
    rcases this d hd with h | ⟨S, hS, h⟩
    · rw [h] at e; cases e
    · rw [h] at e
      injection e with e
      exact ⟨S, hS, e⟩

/-- The hypotheses of `C121_replicas` are met. -/
example : repApp.Requests ["p"] ∧ (∀ d ∈ replicate "leaf" 2 [true] ["7"], d ∈ repDecls) ∧ repApp.Active ["p"] repLb :=
  ⟨fun n h => by
      simp only [List.mem_cons, List.not_mem_nil, or_false] at h
      exact .inr ⟨repLb, by simp [repApp], [], by rw [h]; rfl, rfl⟩,
    fun d h => List.mem_append_left _ h, .space (x := "p") (by simp [repApp]) (by simp) (by simp [repLb])⟩

end Verif.Compile
