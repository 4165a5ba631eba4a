import Verif.Compile.Props
/-
An application that meets the hypotheses of C112, and what compilations do otherwise.
-/
namespace Verif.Compile
open Verif.Wiring (Name)

/-! ### Two containers that call each other, one with a local database -/

def exA : Svc := ⟨"a", [false, true], ["b", "500"], [(true, "retries"), (false, "ot")], true, ["pa", "ca"], [], false, .grpc⟩
def exB : Svc := ⟨"b", [false, false], ["a", "db"], [(false, "ot"), (true, "x")], true, ["pb", "cb"], [], false, .thrift⟩
/-- not put anywhere: it is built where it is used -/
def exDb : Svc := ⟨"db", [], [], [], false, [], ["pb", "cb"], false, .grpc⟩

def exApp : App := ⟨[exA, exB, exDb], [("pa", 1), ("ca", 2), ("pb", 1), ("cb", 2)]⟩

def exRank (n : Name) : Nat := if n = "db" then 0 else 1

def exDecls : List Decl := [
  .service "a" [false, true] ["b", "500"], .service "db" [] [], .wrapClient "a" "retries", .wrapServer "a" "ot", .rpc .grpc "a",
  .space "pa" 1, .addTo 1 "pa" "a", .space "ca" 2, .addTo 2 "ca" "a",
  .service "b" [false, false] ["a", "db"], .wrapServer "b" "ot", .wrapClient "b" "x", .rpc .thrift "b", .addTo 1 "pb" "b", .space "pb" 1,
  .addTo 2 "cb" "b", .space "cb" 2]

theorem two_splits {P : List Name → Name → List Name → Prop} {y z : Name} (h1 : P [] y [z]) (h2 : P [y] z []) :
    ∀ a x b, [y, z] = a ++ x :: b → P a x b := by
  intro a x b e
  cases a with
  | nil => simp at e; obtain ⟨rfl, rfl⟩ := e; exact h1
  | cons c a =>
    cases a with
    | nil => simp at e; obtain ⟨rfl, rfl, rfl⟩ := e; exact h2
    | cons d a => simp at e

theorem ex_fits : exApp.Fits exRank := by
  have homes : ∀ S ∈ exApp.svcs, S.home = ["pa", "ca"] ∨ S.home = ["pb", "cb"] := by
    intro S hS
    simp only [exApp, List.mem_cons, List.not_mem_nil, or_false] at hS
    rcases hS with rfl | rfl | rfl
    · exact .inl rfl
    · exact .inr rfl
    · exact .inr rfl
  have front : ∀ S ∈ exApp.svcs, S.back = false := by
    intro S hS
    simp only [exApp, List.mem_cons, List.not_mem_nil, or_false] at hS
    rcases hS with rfl | rfl | rfl <;> rfl
  refine ⟨?_, ?_, ?_, ?_, ?_, ?_, ?_, ?_⟩
  · intro S hS S' hS'
    simp only [exApp, List.mem_cons, List.not_mem_nil, or_false] at hS hS'
    rcases hS with rfl | rfl | rfl <;> rcases hS' with rfl | rfl | rfl <;> simp [exA, exB, exDb]
  · intro S hS
    simp only [exApp, List.mem_cons, List.not_mem_nil, or_false] at hS
    rcases hS with rfl | rfl | rfl
    · exact ⟨by unfold NoDot; decide +kernel, by decide +kernel, by simp [exApp, exA]⟩
    · exact ⟨by unfold NoDot; decide +kernel, by decide +kernel, by simp [exApp, exB]⟩
    · exact ⟨by unfold NoDot; decide +kernel, by decide +kernel, by simp [exApp, exDb]⟩
  · intro x l h
    simp only [exApp, List.mem_cons, Prod.mk.injEq, List.not_mem_nil, or_false] at h
    rcases h with ⟨rfl, _⟩ | ⟨rfl, _⟩ | ⟨rfl, _⟩ | ⟨rfl, _⟩ <;> (unfold NoDot; decide +kernel)
  · intro x l l' h h'
    simp only [exApp, List.mem_cons, Prod.mk.injEq, List.not_mem_nil, or_false] at h h'
    rcases h with ⟨rfl, rfl⟩ | ⟨rfl, rfl⟩ | ⟨rfl, rfl⟩ | ⟨rfl, rfl⟩ <;> simp at h' <;> simp [h']
  · intro S hS a x b e
    rw [show S.base = 0 from base_zero (front S hS), Nat.zero_add]
    rcases homes S hS with h | h <;> rw [h] at e
    · exact two_splits (P := fun a x b => (x, a.length + 1) ∈ exApp.spaces) (by simp [exApp]) (by simp [exApp]) a x b e
    · exact two_splits (P := fun a x b => (x, a.length + 1) ∈ exApp.spaces) (by simp [exApp]) (by simp [exApp]) a x b e
  · intro S hS S' hS' a x b a' b' e e'
    have h1 : ∀ {S : Svc}, S ∈ exApp.svcs → ∀ a x b, S.home = a ++ x :: b →
        (x = "pa" ∧ b = ["ca"]) ∨ (x = "ca" ∧ b = []) ∨ (x = "pb" ∧ b = ["cb"]) ∨ (x = "cb" ∧ b = []) := by
      intro S hS a x b e
      rcases homes S hS with h | h <;> rw [h] at e
      · exact two_splits (P := fun a x b => (x = "pa" ∧ b = ["ca"]) ∨ (x = "ca" ∧ b = []) ∨ (x = "pb" ∧ b = ["cb"]) ∨ (x = "cb" ∧ b = []))
          (by simp) (by simp) a x b e
      · exact two_splits (P := fun a x b => (x = "pa" ∧ b = ["ca"]) ∨ (x = "ca" ∧ b = []) ∨ (x = "pb" ∧ b = ["cb"]) ∨ (x = "cb" ∧ b = []))
          (by simp) (by simp) a x b e
    rcases h1 hS a x b e with ⟨rfl, rfl⟩ | ⟨rfl, rfl⟩ | ⟨rfl, rfl⟩ | ⟨rfl, rfl⟩ <;> have := h1 hS' _ _ _ e' <;> simp at this <;>
      exact this.symm
  · intro S hS
    simp only [exApp, List.mem_cons, List.not_mem_nil, or_false] at hS
    rcases hS with rfl | rfl | rfl
    · refine ⟨rfl, ?_⟩
      intro str a h
      simp only [exA, List.zip_cons_cons, List.zip_nil_left, List.mem_cons, Prod.mk.injEq, List.not_mem_nil, or_false] at h
      rcases h with ⟨rfl, rfl⟩ | ⟨rfl, rfl⟩
      · exact .inr ⟨exB, by simp [exApp], rfl, .inr ⟨rfl, rfl⟩, by simp [exB]⟩
      · refine .inl ⟨rfl, ?_, ?_⟩
        · intro S hS
          simp only [exApp, List.mem_cons, List.not_mem_nil, or_false] at hS
          rcases hS with rfl | rfl | rfl <;> decide +kernel
        · intro x l h
          simp only [exApp, List.mem_cons, Prod.mk.injEq, List.not_mem_nil, or_false] at h
          rcases h with ⟨rfl, _⟩ | ⟨rfl, _⟩ | ⟨rfl, _⟩ | ⟨rfl, _⟩ <;> decide
    · refine ⟨rfl, ?_⟩
      intro str a h
      simp only [exB, List.zip_cons_cons, List.zip_nil_left, List.mem_cons, Prod.mk.injEq, List.not_mem_nil, or_false] at h
      rcases h with ⟨rfl, rfl⟩ | ⟨rfl, rfl⟩
      · exact .inr ⟨exA, by simp [exApp], rfl, .inr ⟨rfl, rfl⟩, by simp [exA]⟩
      · exact .inr ⟨exDb, by simp [exApp], rfl, .inl ⟨rfl, rfl⟩, fun _ => by decide⟩
    · exact ⟨rfl, fun _ _ h => by simp [exDb] at h⟩
  · intro S hS h
    rw [front S hS] at h; cases h

theorem ex_declared : exApp.Declared exDecls := by
  refine ⟨?_, ?_, ?_⟩
  · intro S hS
    simp only [exApp, List.mem_cons, List.not_mem_nil, or_false] at hS
    rcases hS with rfl | rfl | rfl <;> decide +kernel
  · intro x l
    simp [exApp, exDecls]
  · intro d hd T hT
    simp only [exDecls, List.mem_cons, List.not_mem_nil, or_false] at hd
    rcases hd with rfl | rfl | rfl | rfl | rfl | rfl | rfl | rfl | rfl | rfl | rfl | rfl | rfl | rfl | rfl | rfl | rfl <;>
      simp [Decl.about] at hT <;> subst hT <;> simp [exApp, exA, exB, exDb]

/-- The container of `a` is asked for: `b`, which `a` calls, and its database are built as well. -/
theorem ex_requests : exApp.Requests ["ca"] := by
  intro n hn
  simp only [List.mem_cons, List.not_mem_nil, or_false] at hn
  subst hn
  exact .inr ⟨exA, by simp [exApp], ["pa"], rfl, rfl⟩

theorem ex_active : exApp.Active ["ca"] exDb :=
  .called (S := exB) (str := false)
    (.called (S := exA) (str := false) (.space (x := "ca") (by simp [exApp]) (by simp) (by simp [exA])) (by simp [exA, exB]) (by simp [exApp]))
    (by simp [exB, exDb]) (by simp [exApp])

example : ∃ f s, compile (Wired.run exDecls).env f ["ca"] = some (s, .success) ∧ (∃ args, .handler "db" args ∈ s.nodes ["pb", "cb"]) ∧
    .grpcClient (rpcClientN .thrift "b") (addrN .thrift "b") ∈ s.nodes ["pa", "ca"] ∧ .dial (dialName (addrN .thrift "b")) ∈ s.edges ["pa", "ca"] := by
  obtain ⟨H, hH, f, s, hc, hn, he, _, _⟩ := C112_whole ex_fits ex_declared ex_requests
  have hA : exApp.Active ["ca"] exA := .space (x := "ca") (by simp [exApp]) (by simp) (by simp [exA])
  have hB : exApp.Calls ["ca"] ["pa", "ca"] exB := ⟨by simp [exApp], .inr ⟨exA, false, hA, rfl, by simp [exA, exB]⟩⟩
  have e1 : exB.addrN = addrN .thrift "b" := by simp [Svc.addrN, exB]
  have e2 : exB.rpcClientN = rpcClientN .thrift "b" := by simp [Svc.rpcClientN, exB]
  have hD : exApp.Needed ["ca"] ["pa", "ca"] (.dial (dialName exB.addrN)) := .dial (a := []) (x := "pa") (b := ["ca"]) hB rfl
  have hG : exApp.Expected ["ca"] H ["pa", "ca"] (.grpcClient exB.rpcClientN exB.addrN) := .grpcClient hB rfl
  rw [e1] at hD hG
  rw [e2] at hG
  exact ⟨f, s, hc, (C112_once ex_fits ex_declared ex_requests hc ex_active rfl _).2 rfl, (hn _ _).2 hG,
    (he _ _).2 hD⟩

/-! ### A service in a process in a container in a deployment, with two backends

The cache is put into the deployment; the database is put nowhere, and is built in the deployment because of the service that uses it. -/

def bkA : Svc := ⟨"a", [false, false], ["cache", "db"], [(false, "ot")], true, ["pa", "ca", "d"], [], false, .http⟩
def bkCache : Svc := ⟨"cache", [], [], [], true, ["d"], [], true, .grpc⟩
def bkDb : Svc := ⟨"db", [], [], [], true, [], ["d"], true, .grpc⟩

def bkApp : App := ⟨[bkA, bkCache, bkDb], [("pa", 1), ("ca", 2), ("d", 3)]⟩

def bkDecls : List Decl := [
  .backend "cache", .backend "db", .service "a" [false, false] ["cache", "db"], .wrapServer "a" "ot", .rpc .http "a", .space "pa" 1,
  .addTo 1 "pa" "a", .space "ca" 2, .addTo 3 "d" "cache", .addTo 2 "ca" "a", .addTo 3 "d" "a", .space "d" 3]

theorem bk_fits : bkApp.Fits (fun _ => 0) := by
  have mem : ∀ {S : Svc}, S ∈ bkApp.svcs → S = bkA ∨ S = bkCache ∨ S = bkDb := by
    intro S hS
    simpa only [bkApp, List.mem_cons, List.not_mem_nil, or_false] using hS
  have one : ∀ {y : Name} {a : List Name} {x b}, [y] = a ++ x :: b → a = [] ∧ x = y ∧ b = [] := by
    intro y a x b e
    cases a with
    | nil => simp at e; exact ⟨rfl, e.1.symm, e.2⟩
    | cons c a => simp at e
  have split : ∀ {S : Svc}, S ∈ bkApp.svcs → ∀ {a : List Name} {x b}, S.home = a ++ x :: b →
      (x = "pa" ∧ b = ["ca", "d"] ∧ S.base + a.length = 0) ∨ (x = "ca" ∧ b = ["d"] ∧ S.base + a.length = 1) ∨
      (x = "d" ∧ b = [] ∧ S.base + a.length = 2) := by
    intro S hS a x b e
    rcases mem hS with rfl | rfl | rfl
    · have e : ["pa", "ca", "d"] = a ++ x :: b := e
      cases a with
      | nil => simp at e; exact .inl ⟨e.1.symm, e.2.symm, rfl⟩
      | cons c a =>
        simp only [List.cons_append, List.cons.injEq] at e
        exact .inr (two_splits (P := fun a x b => (x = "ca" ∧ b = ["d"] ∧ bkA.base + (c :: a).length = 1) ∨
          (x = "d" ∧ b = [] ∧ bkA.base + (c :: a).length = 2)) (.inl ⟨rfl, rfl, rfl⟩) (.inr ⟨rfl, rfl, rfl⟩) a x b e.2)
    · obtain ⟨rfl, rfl, rfl⟩ := one (show ["d"] = a ++ x :: b from e)
      exact .inr (.inr ⟨rfl, rfl, rfl⟩)
    · obtain ⟨rfl, rfl, rfl⟩ := one (show ["d"] = a ++ x :: b from e)
      exact .inr (.inr ⟨rfl, rfl, rfl⟩)
  refine ⟨?_, ?_, ?_, ?_, ?_, ?_, ?_, ?_⟩
  · intro S hS S' hS'
    rcases mem hS with rfl | rfl | rfl <;> rcases mem hS' with rfl | rfl | rfl <;> simp [bkA, bkCache, bkDb]
  · intro S hS
    rcases mem hS with rfl | rfl | rfl
    · exact ⟨by unfold NoDot; decide +kernel, by decide +kernel, by simp [bkApp, bkA]⟩
    · exact ⟨by unfold NoDot; decide +kernel, by decide +kernel, by simp [bkApp, bkCache]⟩
    · exact ⟨by unfold NoDot; decide +kernel, by decide +kernel, by simp [bkApp, bkDb]⟩
  · intro x l h
    simp only [bkApp, List.mem_cons, Prod.mk.injEq, List.not_mem_nil, or_false] at h
    rcases h with ⟨rfl, _⟩ | ⟨rfl, _⟩ | ⟨rfl, _⟩ <;> (unfold NoDot; decide +kernel)
  · intro x l l' h h'
    simp only [bkApp, List.mem_cons, Prod.mk.injEq, List.not_mem_nil, or_false] at h h'
    rcases h with ⟨rfl, rfl⟩ | ⟨rfl, rfl⟩ | ⟨rfl, rfl⟩ <;> simp at h' <;> simp [h']
  · intro S hS a x b e
    rcases split hS e with ⟨rfl, _, h⟩ | ⟨rfl, _, h⟩ | ⟨rfl, _, h⟩ <;> rw [h] <;> simp [bkApp]
  · intro S hS S' hS' a x b a' b' e e'
    rcases split hS e with ⟨rfl, rfl, _⟩ | ⟨rfl, rfl, _⟩ | ⟨rfl, rfl, _⟩ <;> have := split hS' e' <;> simp at this <;> exact this.1.symm
  · intro S hS
    rcases mem hS with rfl | rfl | rfl
    · refine ⟨rfl, fun str a h => ?_⟩
      simp only [bkA, List.zip_cons_cons, List.zip_nil_left, List.mem_cons, Prod.mk.injEq, List.not_mem_nil, or_false] at h
      rcases h with ⟨rfl, rfl⟩ | ⟨rfl, rfl⟩
      · exact .inr ⟨bkCache, by simp [bkApp], rfl, .inr ⟨rfl, rfl⟩, by simp [bkCache]⟩
      · exact .inr ⟨bkDb, by simp [bkApp], rfl, .inr ⟨rfl, rfl⟩, by simp [bkDb]⟩
    · exact ⟨rfl, fun _ _ h => by simp [bkCache] at h⟩
    · exact ⟨rfl, fun _ _ h => by simp [bkDb] at h⟩
  · intro S hS h
    rcases mem hS with rfl | rfl | rfl
    · cases h
    · exact ⟨rfl, rfl, rfl, rfl⟩
    · exact ⟨rfl, rfl, rfl, rfl⟩

theorem bk_declared : bkApp.Declared bkDecls := by
  refine ⟨by decide +kernel, ?_, ?_⟩
  · intro x l
    simp [bkApp, bkDecls]
  · have : ∀ d ∈ bkDecls, d.about = none ∨ ∃ S ∈ bkApp.svcs, d.about = some S.name := by decide +kernel
    intro d hd T e
    rcases this d hd with h | ⟨S, hS, h⟩
    · rw [h] at e; cases e
    · rw [h] at e
      injection e with e
      exact ⟨S, hS, e⟩

theorem bk_requests : bkApp.Requests ["d"] := by
  intro n hn
  simp only [List.mem_cons, List.not_mem_nil, or_false] at hn
  subst hn
  exact .inr ⟨bkA, by simp [bkApp], ["pa", "ca"], rfl, rfl⟩

/-- Both containers are in the deployment, the service has clients of both, and dials them from its process. -/
example : ∃ f s, compile (Wired.run bkDecls).env f ["d"] = some (s, .success) ∧
    .container (ctrN "cache") (ctrAddrN "cache") ∈ s.nodes ["d"] ∧ .container (ctrN "db") (ctrAddrN "db") ∈ s.nodes ["d"] ∧
    .grpcClient (clientN "db") (ctrAddrN "db") ∈ s.nodes ["pa", "ca", "d"] ∧ (∀ a, .container (ctrN "db") a ∉ s.nodes []) ∧
    .dial (dialName (ctrAddrN "db")) ∈ s.edges ["pa", "ca", "d"] ∧ .bind (bindName (ctrAddrN "db")) ∈ s.edges ["d"] := by
  obtain ⟨H, hH, f, s, hc, hn, he, _, _⟩ := C112_whole bk_fits bk_declared bk_requests
  have hA : bkApp.Active ["d"] bkA := .space (x := "d") (by simp [bkApp]) (by simp) (by simp [bkA])
  have h1 := C126_client bk_fits bk_declared bk_requests hc hA (U := bkCache) (str := false) (by simp [bkApp]) rfl (by simp [bkA, bkCache])
  have h2 := C126_client bk_fits bk_declared bk_requests hc hA (U := bkDb) (str := false) (by simp [bkApp]) rfl (by simp [bkA, bkDb])
  have hB : bkApp.Active ["d"] bkDb := .called (str := false) hA (by simp [bkA, bkDb]) (by simp [bkApp])
  have hC : bkApp.Calls ["d"] ["pa", "ca", "d"] bkDb := ⟨by simp [bkApp], .inr ⟨bkA, false, hA, rfl, by simp [bkA, bkDb]⟩⟩
  have e1 : bkDb.addrN = ctrAddrN "db" := by simp [Svc.addrN, bkDb]
  have hD : bkApp.Needed ["d"] ["pa", "ca", "d"] (.dial (dialName bkDb.addrN)) := .dial (a := []) (x := "pa") (b := ["ca", "d"]) hC rfl
  have hE : bkApp.Needed ["d"] ["d"] (.bind (bindName bkDb.addrN)) := .bind (a := []) (x := "d") (b := []) hB rfl rfl
  rw [e1] at hD hE
  refine ⟨f, s, hc, h1.2.2.1, h2.2.2.1, h2.2.1, fun a h => ?_, (he _ _).2 hD, (he _ _).2 hE⟩
  exact absurd ((C126_container bk_fits bk_declared bk_requests hc hB rfl [] a).1 h).1 (by simp [Svc.home, bkDb])

end Verif.Compile
