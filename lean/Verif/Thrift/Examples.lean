import Verif.Thrift.Calls
import Verif.Thrift.Refuted
/-
Concrete cases that meet the hypotheses of the theorems of C95 and C96: the method
`Put(item Item, count int) (Item, bool)` of `Verif.Grpc.Props`, where items contain items.
-/
namespace Verif.Thrift
open Verif.Grpc (UserTy Ty Basic FieldDecl Method Val Prim Typed HasType Reach Everywhere Faithful named methodTypes
  InRange Res Out exUser exItem exEnv exPut exVal exUserFields exItemFields Mentions)

def exFile : File :=
  match generate exEnv 9 [exPut] with
  | .ok f => f
  | _ => ⟨[], []⟩

theorem exFile_ok : generate exEnv 9 [exPut] = .ok exFile ∧ exFile.accepted capital "Shop".toList = true ∧
    exFile.methods.map (·.1) = ["Put".toList] ∧ exFile.structs.map (·.1) = [exItem, exUser] := by decide +kernel

/-- The names of the thrift compiler: `Id` becomes `ID`. -/
example : capital "Id".toList = "ID".toList ∧ capital "name".toList = "Name".toList := by decide +kernel

theorem narrow_exEnv : narrowEnv exEnv = exEnv := by
  funext t
  simp only [narrowEnv, exEnv]
  split
  · rfl
  · split <;> rfl

def exArgs : List (List Char × Val) := [("item".toList, exVal), ("count".toList, .prim (.int 3))]

theorem exVal_typed : HasType exEnv (.user exItem) exVal :=
  Grpc.exArgs_typed.2 "item".toList _ exVal List.mem_cons_self List.mem_cons_self

theorem exArgs_small : SmallInts exEnv (named 0 exPut.args) exArgs := by
  unfold SmallInts
  rw [narrow_exEnv]
  refine ⟨rfl, ?_⟩
  intro x τ v h1 h2
  simp only [exArgs, named, exPut, List.map_cons, List.map_nil, narrow, List.mem_cons, List.not_mem_nil, or_false,
    Prod.mk.injEq] at h1 h2
  rcases h1 with ⟨rfl, rfl⟩ | ⟨rfl, rfl⟩ <;> rcases h2 with ⟨h, rfl⟩ | ⟨h, rfl⟩
  · exact exVal_typed
  · exact absurd h (by decide)
  · exact absurd h (by decide)
  · exact .prim (by simp [Grpc.PrimOf, InRange])

/-- The arguments, which contain items in items, survive. -/
example : ∃ req rsp, ("Put".toList, req, rsp) ∈ exFile.methods ∧ ∃ msg N, ∀ n, N ≤ n →
    pack exFile n req exArgs = .ok msg ∧ unpack exFile n req msg = .ok exArgs := by
  obtain ⟨h1, h2, -, -⟩ := exFile_ok
  obtain ⟨e, he, hn, _⟩ := (C95_declares h1).2.2.2.1 exPut (by simp)
  have he' : (exPut.name, e.2.1, e.2.2) ∈ exFile.methods := hn ▸ he
  exact ⟨e.2.1, e.2.2, he', C95_arguments_partial h1 h2 (by simp) (m := exPut) (by simp) he'
    (fun v hv => Grpc.exPut_faithful v (List.mem_append.2 (Or.inl hv))) exArgs_small⟩

/-- An implementation that counts, and returns the item; it fails the third time. -/
def exImpl : Handler Nat := fun s a =>
  if s = 2 then (s, .error "full".toList)
  else (s + 1, .ok [("ret0".toList, (Grpc.get "item".toList a).getD .nil), ("ret1".toList, .prim (.bool true))])

theorem exCall_good {req rsp : List Field} (he : ("Put".toList, req, rsp) ∈ exFile.methods) (fate : Fate) :
    GoodCall exEnv [exPut] exFile (⟨req, rsp, exImpl, fate, exArgs⟩ : Op Nat) := by
  refine ⟨exPut, List.mem_singleton.2 rfl, he, Grpc.exPut_faithful, exArgs_small, ?_⟩
  intro s rets h
  simp only [exImpl] at h
  split at h
  · cases h
  · simp only [Except.ok.injEq] at h
    subst h
    unfold SmallInts
    rw [narrow_exEnv]
    refine ⟨rfl, ?_⟩
    intro x τ v k1 k2
    have hn : (named 0 exPut.rets).map (fun v => (v.1, narrow v.2)) =
        [("ret0".toList, .user exItem), ("ret1".toList, .basic .bool)] := by decide
    rw [hn] at k1
    simp only [List.mem_cons, List.not_mem_nil, or_false, Prod.mk.injEq] at k1 k2
    rcases k1 with ⟨rfl, rfl⟩ | ⟨rfl, rfl⟩ <;> rcases k2 with ⟨h, rfl⟩ | ⟨h, rfl⟩
    · exact exVal_typed
    · exact absurd h (by decide)
    · exact absurd h (by decide)
    · exact .prim trivial

/-- Three calls whose replies come in time: the third fails in the implementation. -/
example : ∃ req rsp, ("Put".toList, req, rsp) ∈ exFile.methods ∧ ∃ N, ∀ n, N ≤ n →
    calls exFile n (connected 0) (List.replicate 3 ⟨req, rsp, exImpl, .prompt, exArgs⟩) =
    some [⟨connected 1, [exArgs], .results [("ret0".toList, exVal), ("ret1".toList, .prim (.bool true))]⟩,
      ⟨connected 2, [exArgs], .results [("ret0".toList, exVal), ("ret1".toList, .prim (.bool true))]⟩,
      ⟨connected 2, [exArgs], .error .responseIsNil⟩] := by
  obtain ⟨h1, h2, -, -⟩ := exFile_ok
  obtain ⟨e, he, hn, _⟩ := (C95_declares h1).2.2.2.1 exPut (by simp)
  have he' : ("Put".toList, e.2.1, e.2.2) ∈ exFile.methods := (show e.1 = "Put".toList from hn) ▸ he
  refine ⟨e.2.1, e.2.2, he', ?_⟩
  obtain ⟨N, hN⟩ := C96_history_partial (σ := Nat) h1 h2 (by simp)
    (List.replicate 3 ⟨e.2.1, e.2.2, exImpl, .prompt, exArgs⟩)
    (fun o ho => (List.mem_replicate.1 ho).2 ▸ ⟨exCall_good he' _, rfl⟩) 0
  exact ⟨N, fun n hn => hN n hn⟩

/-- One late reply, then two in time: the implementation is called three times, and the caller
gets three errors. -/
example : ∃ req rsp, ("Put".toList, req, rsp) ∈ exFile.methods ∧ ∃ N, ∀ n, N ≤ n →
    calls exFile n (connected 5)
      [⟨req, rsp, exImpl, .late true, exArgs⟩, ⟨req, rsp, exImpl, .prompt, exArgs⟩, ⟨req, rsp, exImpl, .prompt, exArgs⟩] =
    some [⟨⟨6, 1, false⟩, [exArgs], .error .deadlineExceeded⟩, ⟨⟨7, 1, false⟩, [exArgs], .error .responseIsNil⟩,
      ⟨⟨8, 1, false⟩, [exArgs], .error .responseIsNil⟩] := by
  obtain ⟨h1, h2, -, -⟩ := exFile_ok
  obtain ⟨e, he, hn, _⟩ := (C95_declares h1).2.2.2.1 exPut (by simp)
  have he' : ("Put".toList, e.2.1, e.2.2) ∈ exFile.methods := (show e.1 = "Put".toList from hn) ▸ he
  refine ⟨e.2.1, e.2.2, he', ?_⟩
  obtain ⟨N, hN⟩ := C96_late_refuted (σ := Nat) h1 h2 (by simp) (exCall_good he' (.late true)) rfl
    (os := [⟨e.2.1, e.2.2, exImpl, .prompt, exArgs⟩, ⟨e.2.1, e.2.2, exImpl, .prompt, exArgs⟩])
    (by
      intro o ho
      simp only [List.mem_cons, List.not_mem_nil, or_false, or_self] at ho
      subst ho
      exact ⟨exCall_good he' _, rfl⟩) 5
  exact ⟨N, fun n hn => hN n hn⟩

/-- The types of the example are supported and compile, and its names are clean. -/
example : (∀ τ ∈ methodTypes [exPut], Everywhere exEnv Supported τ) ∧
    (∀ τ ∈ methodTypes [exPut], Everywhere exEnv Compilable τ) ∧
    CleanNames exEnv capital "Shop".toList [exPut] := by
  have hmt : ∀ τ ∈ methodTypes [exPut], τ = .user exItem ∨ τ = .basic .int ∨ τ = .basic .bool := by
    intro τ hτ
    simp only [methodTypes, exPut, List.flatMap_cons, List.flatMap_nil, List.append_nil, List.map_cons, List.map_nil,
      List.cons_append, List.nil_append, List.mem_cons, List.not_mem_nil, or_false] at hτ
    grind
  have hm : ∀ τ ∈ methodTypes [exPut], ∀ u, Mentions u τ → u = exUser ∨ u = exItem := by
    intro τ hτ u hu
    rcases hmt τ hτ with rfl | rfl | rfl
    · exact Or.inr (show exItem = u from hu).symm
    · cases hu
    · cases hu
  refine ⟨?_, ?_, by decide, ?_, ?_, ?_, ?_⟩
  · intro τ hτ
    refine Grpc.exEnv_everywhere (hm τ hτ) ?_ ?_ ?_
    · rcases hmt τ hτ with rfl | rfl | rfl <;> simp [Supported, Simple, KnownBasic]
    · simp [exUserFields, Supported, Simple, KnownBasic]
    · simp [exItemFields, Supported, Simple, KnownBasic]
  · intro τ hτ
    refine Grpc.exEnv_everywhere (hm τ hτ) ?_ ?_ ?_
    · rcases hmt τ hτ with rfl | rfl | rfl <;> simp [Compilable, KnownBasic]
    · simp [exUserFields, Compilable, KnownBasic]
    · simp [exItemFields, Compilable, ThriftBasic, KnownBasic]
  · intro m hm
    rw [List.mem_singleton.1 hm]
    exact ⟨⟨by decide, by decide +kernel, fun _ _ => capital_goName _⟩, ⟨by decide, by decide +kernel, fun _ _ => capital_goName _⟩,
      by decide +kernel⟩
  · intro τ hτ t ds hr hds
    have hcap : ∀ c (cs : List Char), ('A' ≤ c && c ≤ 'Z') = true → ∃ c' cs', c :: cs = c' :: cs' ∧ 'A' ≤ c' ∧ c' ≤ 'Z' :=
      fun c cs h => ⟨c, cs, rfl, by simpa using h⟩
    rcases Grpc.exEnv_reach (hm τ hτ) hr with rfl | rfl
    · have : ds = exUserFields := (Option.some.inj hds).symm
      subst this
      refine ⟨⟨by decide, by decide +kernel, fun _ _ => capital_goName _⟩, ?_⟩
      intro d hd x hx
      simp only [exUserFields, List.mem_cons, List.not_mem_nil, or_false] at hd
      rcases hd with rfl | rfl <;> (simp only [List.head?_cons, Option.mem_some] at hx; subst hx; exact hcap _ _ (by decide))
    · have : ds = exItemFields := (Option.some.inj (show some exItemFields = some ds from hds)).symm
      subst this
      refine ⟨⟨by decide, by decide +kernel, fun _ _ => capital_goName _⟩, ?_⟩
      intro d hd x hx
      simp only [exItemFields, List.mem_cons, List.not_mem_nil, or_false] at hd
      rcases hd with rfl | rfl | rfl | rfl <;>
        (simp only [List.head?_cons, Option.mem_some] at hx; subst hx; exact hcap _ _ (by decide))
  · intro τ hτ τ' hτ' t t' hr hr' hn
    rcases Grpc.exEnv_reach (hm τ hτ) hr with rfl | rfl <;> rcases Grpc.exEnv_reach (hm τ' hτ') hr' with rfl | rfl
    · rfl
    · exact absurd hn (by decide)
    · exact absurd hn (by decide)
    · rfl
  · intro τ hτ t hr m hmm
    rw [List.mem_singleton.1 hmm]
    rcases Grpc.exEnv_reach (hm τ hτ) hr with rfl | rfl <;> decide

/-- A case for `C95_numbers_partial`: a method with a `uint16` and a `uint32`. -/
example : (match generate exEnv 9 [⟨"Set".toList, [("a".toList, .basic .uint16), ("b".toList, .basic .uint32)], []⟩] with
    | .ok file => file.fieldLists.flatten.map fun f => (f.src, f.thrift)
    | _ => []) = [(.basic .uint16, .base .i64), (.basic .uint32, .base .i64)] := by decide +kernel

end Verif.Thrift
