import Verif.Live.Closed
import Verif.Live.Props
import Verif.Live.DeploySpec
/-
The objects of services are what they should be.
-/
namespace Verif.Live
open Verif.Wiring (Name)
open Verif.Compile

theorem names_disjoint {A : App} {rank : Name → Nat} (fit : A.Fits rank) {S U : Svc} (hS : S ∈ A.svcs) (hU : U ∈ A.svcs) {n : Name}
    (h : n ∈ S.names) (h' : n ∈ U.names) : S = U := by
  refine fit.one S hS U hU ?_
  have h1 := fam_names (fit.own S hS).1 n h
  have h2 := fam_names (fit.own U hU).1 n h'
  exact String.toList_inj.1 (h1.symm.trans h2)

theorem wrapper_not_client {A : App} {rank : Name → Nat} (fit : A.Fits rank) {S : Svc} (hS : S ∈ A.svcs) {x : Name}
    (hx : x ∈ clients S.name S.wraps ∨ x ∈ servers S.name S.wraps) : isClient A x = false := by
  rw [← Bool.not_eq_true]
  intro h
  simp only [isClient, List.any_eq_true, Bool.and_eq_true, Bool.not_eq_true', beq_iff_eq] at h
  obtain ⟨U, hU, hkU, e⟩ := h
  have hn := (fit.own S hS).2.1
  have hin : x ∈ S.names := by
    have hbS : S.back = false := by
      cases h : S.back with
      | false => rfl
      | true =>
        have hw := (fit.backs S hS h).2.2.2
        simp [clients, servers, hw] at hx
    simp only [Svc.names, Svc.coreNames, hbS, Bool.false_eq_true, if_false, wrapNames, withNext, List.mem_append, List.mem_cons, List.mem_flatMap]
    rcases hx with hx | hx
    · exact .inl (.inl (.inl (.inr (.inr ⟨x, hx, by simp⟩))))
    · exact .inl (.inl (.inr hx))
  have hc : clientN U.name ∈ U.names := by simp [Svc.names, Svc.coreNames, hkU, wrapNames, baseNames]
  have := names_disjoint fit hS hU hin (e ▸ hc)
  subst this
  have hb : clientN S.name ∈ baseNames S.name := by simp [baseNames]
  simp only [Svc.names, Svc.coreNames, hkU, Bool.false_eq_true, if_false, wrapNames, List.append_assoc] at hn
  rw [List.nodup_append] at hn
  refine hn.2.2 _ hb x ?_ e
  simp only [withNext, List.mem_append, List.mem_cons, List.mem_flatMap, List.cons_append]
  rcases hx with hx | hx
  · exact .inr (.inl ⟨x, hx, by simp⟩)
  · exact .inr (.inr (.inl hx))

theorem obj_wrapIn {client : Name → Bool} {val : Name → String} : ∀ (xs : List Name) (t : Tree), (∀ x ∈ xs, client x = false) →
    obj client val (wrapIn xs t) = wrapsIn xs (obj client val t)
  | [], _, _ => rfl
  | x :: xs, t, h => by
    have ih := obj_wrapIn (val := val) xs t fun y hy => h y (by simp [hy])
    simp only [wrapIn, wrapsIn, List.foldr_cons] at ih ⊢
    simp [obj, h x (by simp), ih]

theorem obj_wrapOut {client : Name → Bool} {val : Name → String} : ∀ (xs : List Name) (t : Tree), (∀ x ∈ xs, client x = false) →
    obj client val (wrapOut xs t) = wrapsOut xs (obj client val t)
  | [], _, _ => rfl
  | x :: xs, t, h => by
    have ih := obj_wrapOut (val := val) xs (.wrap x t) fun y hy => h y (by simp [hy])
    simp only [wrapOut, wrapsOut, List.foldl_cons] at ih ⊢
    rw [ih]
    simp [obj, h x (by simp)]

theorem isService {A : App} {rank : Name → Nat} {nodes : List Name} (fit : A.Fits rank) (req : A.Requests nodes) {H : Svc → Tree}
    (hH : ∀ S, A.Active nodes S → S.back = false → H S = .handler S.name (S.args.map (A.argTree H))) {home : Space} {val : Name → String}
    {addr : Svc → String} (hv : ∀ U, A.Calls nodes home U → U.rpc = true → val (dialName U.addrN) = addr U) :
    ∀ (N : Nat) (S : Svc), rank S.name < N → A.Active nodes S → S.back = false → S.home = home → IsService A addr S (obj (isClient A) val (H S))
  | 0, _, hN, _, _, _ => by omega
  | N + 1, S, hN, hS, hk, hh => by
    rw [hH S hS hk]
    simp only [obj]
    refine .made ?_
    obtain ⟨hlen, hargs⟩ := fit.args S (active_mem hS)
    have key : ∀ as, (∀ a ∈ as, a ∈ S.args) → IsArgs A addr as (objs (isClient A) val (as.map (A.argTree H))) := by
      intro as
      induction as with
      | nil => intro _; simp only [List.map_nil, objs]; exact .nil
      | cons a as ih =>
        intro hm
        simp only [List.map_cons, objs]
        refine .cons ?_ (ih fun b hb => hm b (by simp [hb]))
        obtain ⟨str, hz⟩ := mem_zip _ _ hlen a (hm a (by simp))
        unfold App.argTree
        cases hf : A.svcs.find? (fun U => U.name == a) with
        | none =>
          simp only [obj]
          refine .str ?_
          intro U hU e
          have := List.find?_eq_none.1 hf U hU
          simp [e] at this
        | some U =>
          have hU := List.mem_of_find?_eq_some hf
          have hna : U.name = a := by simpa using List.find?_some hf
          subst hna
          have hcall : A.Calls nodes home U := ⟨hU, .inr ⟨S, str, hS, hh.symm, hz⟩⟩
          have h1 : obj (isClient A) val (U.clientTree (H U)) =
              wrapsIn (clients U.name U.wraps) (obj (isClient A) val (U.calledTree (H U))) := by
            rw [← obj_wrapIn _ _ fun x hx => wrapper_not_client fit hU (.inl hx)]
            unfold Svc.clientTree
            cases hb : U.back with
            | true => simp [clients, (fit.backs U hU hb).2.2.2, wrapIn]
            | false =>
              have hcl : isClient A (clientN U.name) = true := by
                simp only [isClient, List.any_eq_true, Bool.and_eq_true, Bool.not_eq_true', beq_iff_eq]
                exact ⟨U, hU, hb, rfl⟩
              simp [wrapIn, obj, hcl]
          show IsArg A addr U.name (obj (isClient A) val (U.clientTree (H U)))
          rw [h1]
          unfold Svc.calledTree
          cases hr : U.rpc with
          | true =>
            simp only [if_true, obj]
            rw [hv U hcall hr]
            exact .remote hU hr
          | false =>
            simp only [Bool.false_eq_true, if_false]
            rw [obj_wrapOut _ _ fun x hx => wrapper_not_client fit hU (.inr hx)]
            have hact := (closed_of fit req).called _ _ hcall
            have hbU : U.back = false := by
              cases h : U.back with
              | false => rfl
              | true => rw [(fit.backs U hU h).1] at hr; cases hr
            refine .here hU hr (isService fit req hH hv N U ?_ hact.1 hbU ?_)
            · rcases hargs str _ hz with ⟨_, hfree⟩ | ⟨V, hV, e1, _, hrk⟩
              · exact absurd (by simp [Svc.names, Svc.coreNames, hbU, wrapNames, baseNames]) (hfree.1 U hU)
              · have := fit.one V hV U hU e1
                subst this
                have := hrk hr
                omega
            · rcases hact.2 with ⟨_, h⟩ | ⟨h, _⟩
              · exact h.symm
              · rw [hr] at h; cases h
    exact key S.args fun _ h => h

end Verif.Live
